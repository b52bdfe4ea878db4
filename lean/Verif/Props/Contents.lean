import Verif.Spec.Contents
import Verif.Props.Unchecked
/-
Property C111 (PSK and re-init proposals are valid).
-/
namespace Rmls
open Spec Spec.Enc MessageProtection PassiveClient RatchetTree

private abbrev suite1 : CipherSuite := .MLS_128_DHKEMX25519_AES128GCM_SHA256_Ed25519

private theorem filterMap_rename {β : Type} (f : PreSharedKeyID → PreSharedKeyID) (g : Proposal × LeafIndex → Option β)
    (hg : ∀ p c, g (renamePsk f p, c) = g (p, c)) : ∀ (ps : List Proposal) (ss : List LeafIndex),
    ((ps.map (renamePsk f)).zip ss).filterMap g = (ps.zip ss).filterMap g := by
  intro ps
  induction ps with
  | nil => intro ss; rfl
  | cons p ps ih =>
    intro ss
    cases ss with
    | nil => rfl
    | cons s ss => simp only [List.map_cons, List.zip_cons_cons, List.filterMap_cons, hg, ih]

private theorem psks_rename (f : PreSharedKeyID → PreSharedKeyID) : ∀ (ps : List Proposal) (ss : List LeafIndex),
    ((ps.map (renamePsk f)).zip ss).filterMap pskOf = ((ps.zip ss).filterMap pskOf).map f := by
  intro ps
  induction ps with
  | nil => intro ss; rfl
  | cons p ps ih =>
    intro ss
    cases ss with
    | nil => rfl
    | cons s ss => cases p <;> simp only [List.map_cons, List.zip_cons_cons, List.filterMap_cons, renamePsk, pskOf, ih]

private theorem nodup_map_iff {α β : Type} (f : α → β) : ∀ (l : List α), (∀ x ∈ l, ∀ y ∈ l, f x = f y → x = y) →
    ((l.map f).Nodup ↔ l.Nodup) := by
  intro l
  induction l with
  | nil => intro _; simp
  | cons a l ih =>
    intro hi
    have ih := ih fun x hx y hy => hi x (List.mem_cons_of_mem _ hx) y (List.mem_cons_of_mem _ hy)
    rw [List.map_cons, List.nodup_cons, List.nodup_cons, ih]
    have : f a ∈ l.map f ↔ a ∈ l := by
      rw [List.mem_map]
      constructor
      · rintro ⟨x, hx, he⟩
        exact hi x (List.mem_cons_of_mem _ hx) a List.mem_cons_self he ▸ hx
      · intro h; exact ⟨a, h, rfl⟩
    rw [this]

private theorem rename_mem (f : PreSharedKeyID → PreSharedKeyID) (q : Proposal) (hq : ∀ k, q ≠ .PreSharedKey k) (s : LeafIndex) :
    ∀ (ps : List Proposal) (ss : List LeafIndex), (q, s) ∈ (ps.map (renamePsk f)).zip ss ↔ (q, s) ∈ ps.zip ss := by
  have key : ∀ p, q = renamePsk f p ↔ q = p := by
    intro p
    cases p with
    | PreSharedKey k => exact ⟨fun h => absurd h (hq _), fun h => absurd h (hq _)⟩
    | _ => exact Iff.rfl
  intro ps
  induction ps with
  | nil => intro ss; exact Iff.rfl
  | cons p ps ih =>
    intro ss
    cases ss with
    | nil => exact Iff.rfl
    | cons c ss =>
      simp only [List.map_cons, List.zip_cons_cons, List.mem_cons, Prod.mk.injEq, key, ih]

/-- C111: the check of a list does not look into the ids of pre-shared keys: whatever other ids are put in their place, one
for one, the verdict is the same. -/
theorem C111_blind (f : PreSharedKeyID → PreSharedKeyID) (ps : List Proposal) (ss : List LeafIndex) (c : LeafIndex)
    (hi : ∀ x ∈ (ps.zip ss).filterMap pskOf, ∀ y ∈ (ps.zip ss).filterMap pskOf, f x = f y → x = y)
    (hf : ∀ x ∈ (ps.zip ss).filterMap pskOf, (preSharedKeyID (f x)).fits ↔ (preSharedKeyID x).fits) :
    verify_proposal_list (ps.map (renamePsk f)) ss c = .ok () ↔ verify_proposal_list ps ss c = .ok () := by
  rw [C26_exact, C26_exact, List.length_map]
  have e1 := filterMap_rename f addedKey (fun p c => by cases p <;> rfl) ps ss
  have e2 := filterMap_rename f touchedLeaf (fun p c => by cases p <;> rfl) ps ss
  have e3 := filterMap_rename f contextExtensionsOf (fun p c => by cases p <;> rfl) ps ss
  have e4 := psks_rename f ps ss
  have hn := nodup_map_iff f _ hi
  have hr := fun r s => rename_mem f (.ReInit r) (fun k => nofun) s ps ss
  have hx := fun r s => rename_mem f (.ExternalInit r) (fun k => nofun) s ps ss
  have hone : ∀ r s, (ps.map (renamePsk f)).zip ss = [(Proposal.ReInit r, s)] ↔ ps.zip ss = [(Proposal.ReInit r, s)] := by
    intro r s
    have hl : ((ps.map (renamePsk f)).zip ss).length = (ps.zip ss).length := by simp
    constructor <;> intro h
    · have : (ps.zip ss).length = 1 := by rw [← hl, h]; rfl
      obtain ⟨a, ha⟩ := List.length_eq_one_iff.1 this
      have := (hr r s).1 (by rw [h]; exact List.mem_singleton.2 rfl)
      rw [ha, List.mem_singleton] at this
      rw [ha, this]
    · have : ((ps.map (renamePsk f)).zip ss).length = 1 := by rw [hl, h]; rfl
      obtain ⟨a, ha⟩ := List.length_eq_one_iff.1 this
      have := (hr r s).2 (by rw [h]; exact List.mem_singleton.2 rfl)
      rw [ha, List.mem_singleton] at this
      rw [ha, this]
  refine and_congr Iff.rfl (and_congr ⟨?_, ?_⟩ ?_)
  · rintro ⟨a1, a2, a3, a4, a5, a6, a7⟩
    rw [e1] at a1; rw [e2] at a2 a3; rw [e4] at a4; rw [e3] at a5
    exact ⟨a1, a2, a3, hn.1 a4, a5, fun r s h => (hone r s).1 (a6 r s ((hr r s).2 h)), fun r s h => a7 r s ((hx r s).2 h)⟩
  · rintro ⟨a1, a2, a3, a4, a5, a6, a7⟩
    exact ⟨by rw [e1]; exact a1, by rw [e2]; exact a2, by rw [e2]; exact a3, by rw [e4]; exact hn.2 a4, by rw [e3]; exact a5,
      fun r s h => (hone r s).2 (a6 r s ((hr r s).1 h)), fun r s h => a7 r s ((hx r s).1 h)⟩
  · unfold PsksFit
    rw [e4]
    constructor
    · intro h x hx; exact (hf x hx).1 (h _ (List.mem_map.2 ⟨x, hx, rfl⟩))
    · intro h y hy
      obtain ⟨x, hx, rfl⟩ := List.mem_map.1 hy
      exact (hf x hx).2 (h x hx)

/-- The keys asked for by a list of PSK proposals. -/
private theorem psks_only (ids : List PreSharedKeyID) : ∀ ss : List LeafIndex, ids.length = ss.length →
    ((ids.map fun x => Proposal.PreSharedKey ⟨x⟩).zip ss).filterMap pskOf = ids := by
  induction ids with
  | nil => intro ss _; rfl
  | cons x ids ih =>
    intro ss hl
    cases ss with
    | nil => cases hl
    | cons s ss =>
      simp only [List.map_cons, List.zip_cons_cons, List.filterMap_cons, pskOf]
      rw [ih ss (by simpa using hl)]

/-- C111 is false in general: a list that asks for pre-shared keys is accepted whatever the nonces and whatever the uses, if
no id comes twice. -/
theorem C111_psk_any (ids : List PreSharedKeyID) (hd : ids.Nodup) (hf : ∀ x ∈ ids, (preSharedKeyID x).fits)
    (ss : List LeafIndex) (hl : ids.length = ss.length) (c : LeafIndex) :
    verify_proposal_list (ids.map fun x => .PreSharedKey ⟨x⟩) ss c = .ok () := by
  have he := psks_only ids ss hl
  have hk : ∀ a ∈ (ids.map fun x => Proposal.PreSharedKey ⟨x⟩).zip ss, ∃ x, a.1 = .PreSharedKey ⟨x⟩ := by
    intro a ha
    obtain ⟨x, _, hx⟩ := List.mem_map.1 (List.of_mem_zip ha).1
    exact ⟨x, hx.symm⟩
  have key : ∀ {β : Type} (f : Proposal × LeafIndex → Option β), (∀ x s, f (.PreSharedKey ⟨x⟩, s) = none) →
      ((ids.map fun x => Proposal.PreSharedKey ⟨x⟩).zip ss).filterMap f = [] := by
    intro β f hf
    rw [List.filterMap_eq_nil_iff]
    rintro ⟨p, s⟩ ha
    obtain ⟨x, hx⟩ := hk _ ha
    cases hx
    exact hf x s
  refine (C26_exact _ _ _).2 ⟨by rw [List.length_map, hl], ⟨?_, ?_, ?_, ?_, ?_, ?_, ?_⟩, ?_⟩
  · rw [key addedKey fun _ _ => rfl]; exact List.nodup_nil
  · rw [key touchedLeaf fun _ _ => rfl]; exact List.nodup_nil
  · rw [key touchedLeaf fun _ _ => rfl]; exact List.not_mem_nil
  · rw [he]; exact hd
  · rw [key contextExtensionsOf fun _ _ => rfl]; exact Nat.zero_le _
  · intro p s h; obtain ⟨x, hx⟩ := hk _ h; cases hx
  · intro p s h; obtain ⟨x, hx⟩ := hk _ h; cases hx
  · intro x hx; rw [he] at hx; exact hf x hx

/-- C111 is false in general: to re-initialise the group is accepted for every version, suite, group id and list of
extensions. -/
theorem C111_reinit_any (r : ReInitProposal) (s c : LeafIndex) : verify_proposal_list [.ReInit r] [s] c = .ok () := by
  refine (C26_exact _ _ _).2 ⟨rfl, ⟨List.nodup_nil, List.nodup_nil, List.not_mem_nil, List.nodup_nil, Nat.zero_le _, ?_, ?_⟩, ?_⟩
  · intro p q h
    simp only [List.zip_cons_cons, List.zip_nil_right, List.mem_singleton] at h ⊢
    rw [h]
  · intro p q h
    simp only [List.zip_cons_cons, List.zip_nil_right, List.mem_singleton] at h
    cases h
  · intro x hx; cases hx

/-- C111 is false in general: so is a member's commit to it, and neither tree changes. -/
theorem C111_commit_any (P : CryptoProvider) (cs : CipherSuite) (h : Hpke) (hp : P.hpke cs = .ok h) (hs : Sizes h)
    (s : State) (hroom : 2 * s.tree.length + 3 < 2 ^ 31)
    (hd : ∀ i j l m, s.tree.get (2 * i) = some (.Leaf l) → s.tree.get (2 * j) = some (.Leaf m) →
      l.payload.signature_key = m.payload.signature_key → i = j)
    (c : LeafIndex) (l : LeafNode) (hc : s.tree.get (2 * c.toNat) = some (.Leaf l)) (r : ReInitProposal)
    (m : PublicMessage) (he : m.content.epoch = s.group_info.group_context.epoch) (hsend : m.content.sender = .Member c)
    (hcontent : m.content.content = .Commit ⟨[.Proposal (.ReInit r)], none⟩)
    (hsig : ContentSigned P cs l.payload.signature_key .PublicMessage m.content s.group_info.group_context m.auth.signature)
    (key tag : Bytes) (hkey : Derives h s.epoch_secret (text "membership") key) (ht : m.membership_tag = some tag)
    (hfit : (authenticatedContentTBM m.content m.auth s.group_info.group_context).fits)
    (hmac : MacOf P cs key (authenticatedContentTBM m.content m.auth s.group_info.group_context).bytes tag) :
    handleCommit P cs s m = .ok (s.tree, s.tree) := by
  have hlist := C111_reinit_any r c c
  obtain ⟨_, hval, _⟩ := (C26_exact _ _ _).1 hlist
  refine (C68_exact_partial P cs h hp hs s (by omega) hd m (by rw [ht]; nofun) s.tree s.tree).2
    ⟨c, [.ReInit r], none, ⟨he, hsend, ⟨l, hc, hsig⟩, ⟨key, tag, hkey, ht, hfit, hmac⟩, hcontent, hval, ?_, ?_, nofun⟩, ?_,
      fun _ => rfl, nofun⟩
  · intro k hk; cases List.mem_singleton.1 hk
  · intro _
    exact ⟨nofun, fun p hp => .inr (.inr ⟨r, List.mem_singleton.1 hp⟩)⟩
  · rw [C28_apply _ _ _ (by simp)]; rfl

/-- C111, what is checked: no id comes twice, and who re-initialises the group does nothing else.  Missing: the length of the
nonce and the use of the key (section 12.1.4), the version (section 12.1.5). -/
theorem C111_partial (ps : List Proposal) (ss : List LeafIndex) (c : LeafIndex) (h : verify_proposal_list ps ss c = .ok ()) :
    (∀ (i j : Nat) (x : PreSharedKeyID) (s s' : LeafIndex), (ps.zip ss)[i]? = some (Proposal.PreSharedKey ⟨x⟩, s) →
      (ps.zip ss)[j]? = some (Proposal.PreSharedKey ⟨x⟩, s') → i = j) ∧
    ∀ r, .ReInit r ∈ ps → ps = [.ReInit r] := by
  obtain ⟨hl, hv, _⟩ := (C26_exact ps ss c).1 h
  constructor
  · have hd := hv.psks
    generalize ps.zip ss = l at hd
    clear hl hv h
    induction l with
    | nil => intro i j x s s' h; cases h
    | cons a l ih =>
      have hmem : ∀ (x : PreSharedKeyID) (s : LeafIndex) (i : Nat), l[i]? = some (Proposal.PreSharedKey ⟨x⟩, s) →
          x ∈ l.filterMap pskOf := fun x s i h => List.mem_filterMap.2 ⟨_, List.mem_of_getElem? h, rfl⟩
      have hd' : (l.filterMap pskOf).Nodup := by
        rw [List.filterMap_cons] at hd
        split at hd
        · exact hd
        · exact (List.nodup_cons.1 hd).2
      intro i j x s s' h1 h2
      cases i with
      | zero =>
        cases j with
        | zero => rfl
        | succ j =>
          cases (Option.some.inj h1 : a = _)
          have := (List.nodup_cons.1 (hd : (x :: l.filterMap pskOf).Nodup)).1
          exact absurd (hmem x s' j h2) this
      | succ i =>
        cases j with
        | zero =>
          cases (Option.some.inj h2 : a = _)
          have := (List.nodup_cons.1 (hd : (x :: l.filterMap pskOf).Nodup)).1
          exact absurd (hmem x s i h1) this
        | succ j => rw [ih hd' i j x s s' h1 h2]
  · intro r hr
    obtain ⟨i, hi⟩ := List.mem_iff_getElem?.1 hr
    have hlt : i < ss.length := by rw [← hl]; exact (List.getElem?_eq_some_iff.1 hi).1
    have hz : (ps.zip ss)[i]? = some (.ReInit r, ss[i]) := by
      rw [List.getElem?_zip_eq_some]; exact ⟨hi, List.getElem?_eq_getElem hlt⟩
    have h1 := hv.reinit r _ (List.mem_of_getElem? hz)
    cases ps with
    | nil => cases hr
    | cons p ps =>
      cases ss with
      | nil => cases hl
      | cons s ss =>
        rw [List.zip_cons_cons] at h1
        obtain ⟨h2, h3⟩ := List.cons.inj h1
        have h4 : p = .ReInit r := congrArg Prod.fst h2
        have hlz : (ps.zip ss).length = 0 := by rw [h3]; rfl
        rw [List.length_zip] at hlz
        simp only [List.length_cons] at hl
        have : ps.length = 0 := by omega
        rw [List.length_eq_zero_iff.1 this, h4]

section examples
/-- An id without a nonce, for branching. -/
private def branchId : PreSharedKeyID := ⟨.Resumption ⟨.Branch, [7], 2⟩, []⟩
/-- Back to version 0. -/
private def backReInit : ReInitProposal := ⟨[8], .Unsupported 0, .MLS_128_DHKEMP256_AES128GCM_SHA256_P256, []⟩

example : ¬ PskProposalValid 32 branchId := by rintro ⟨h, _⟩; cases h
example : PskProposalValid 32 ⟨.Resumption ⟨.Application, [7], 2⟩, List.replicate 32 1⟩ :=
  ⟨by decide, fun r h => by cases h; decide⟩
example : ¬ ReInitValid joinInfo.group_context backReInit := by unfold ReInitValid; decide
example : ReInitValid joinInfo.group_context ⟨[8], .MLS10, suite1, []⟩ := by unfold ReInitValid; decide

set_option maxRecDepth 100000 in
/-- C111 is false: the list that asks for a branching key without a nonce is accepted, and the client, who has just joined,
accepts a commit by which the group is to be set up again with an older version. -/
theorem C111_refuted :
    (∃ id : PreSharedKeyID, verify_proposal_list [.PreSharedKey ⟨id⟩] [0] 0 = .ok () ∧
      id.psk_nonce.length = 0 ∧ ∀ nh, ¬ PskProposalValid nh id) ∧
    ∃ (s : State) (r : ReInitProposal) (m : PublicMessage),
      join toyProvider suite1 joinWelcome joinPackage [3] [([0], [9]), ([1], [5])] none = .ok s ∧
      m.content.content = .Commit ⟨[.Proposal (.ReInit r)], none⟩ ∧ ¬ ReInitValid s.group_info.group_context r ∧
      handleCommit toyProvider suite1 s m = .ok (s.tree, s.tree) := by
  refine ⟨⟨branchId, by decide, rfl, ?_⟩, joinState, backReInit, plainCommit [.ReInit backReInit], joinState_join, rfl, ?_,
    by decide +kernel⟩
  · rintro nh ⟨_, h⟩
    exact (h _ rfl).2 rfl
  · unfold ReInitValid; decide +kernel

/-- Two ids and another two in their place. -/
example : verify_proposal_list [.PreSharedKey ⟨branchId⟩, .PreSharedKey ⟨⟨.External [1], [1]⟩⟩, .Remove ⟨3⟩] [0, 1, 2] 0 = .ok () ∧
    verify_proposal_list [.PreSharedKey ⟨⟨.External [2], []⟩⟩, .PreSharedKey ⟨branchId⟩, .Remove ⟨3⟩] [0, 1, 2] 0 = .ok () := by
  decide
/-- A key asked for twice, and re-initialising together with another proposal, are refused. -/
example : verify_proposal_list [.PreSharedKey ⟨branchId⟩, .PreSharedKey ⟨branchId⟩] [0, 1] 0 ≠ .ok () ∧
    verify_proposal_list [.ReInit backReInit, .PreSharedKey ⟨branchId⟩] [0, 1] 0 ≠ .ok () := by decide
end examples
end Rmls
