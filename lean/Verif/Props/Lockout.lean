import Verif.Spec.Lockout
import Verif.Props.Onward
import Verif.Props.Renewing
/-
Property C123: a commit that the members accept does not lock out newcomers.
-/
namespace Rmls
open Spec Spec.Enc MessageProtection PassiveClient RatchetTree

/-- What can be hashed can still be hashed when some nodes are exchanged for others of the same kind, or blanked. -/
private theorem hashDefined_exchange {H : Bytes → Bytes} (hs : ∀ b, (H b).length < 2 ^ 30) {n n' : Nat → Option Node}
    (hleaf : ∀ i, n' (node 0 i) = n (node 0 i) ∨ ∃ l, n' (node 0 i) = some (.Leaf l) ∧ (leafNode l).fits)
    (hinner : ∀ k i, n' (node (k + 1) i) = n (node (k + 1) i) ∨ n' (node (k + 1) i) = none ∨
      ∃ p, n' (node (k + 1) i) = some (.Parent p) ∧ (parentNode p).fits) :
    ∀ {k i}, HashDefined H n k i → HashDefined H n' k i := by
  have hth : ∀ n k i, (treeHash H n k i).length < 2 ^ 30 := by
    intro n k i; cases k <;> (rw [treeHash]; exact hs _)
  intro k
  induction k with
  | zero =>
    intro i h
    rcases hleaf i with he | ⟨l, he, hl⟩
    · unfold HashDefined; rw [he]; exact h
    · unfold HashDefined; rw [he]; exact ⟨nofun, trivial, trivial, trivial, hl⟩
  | succ k ih =>
    intro i ⟨h1, h2, h3, h4⟩
    refine ⟨?_, ⟨trivial, ?_, ⟨trivial, hth _ _ _⟩, ⟨trivial, hth _ _ _⟩⟩, ih h3, ih h4⟩
    · rcases hinner k i with he | he | ⟨p, he, _⟩ <;> rw [he]
      · exact h1
      · nofun
      · nofun
    · rcases hinner k i with he | he | ⟨p, he, hp⟩ <;> rw [he]
      · exact h2.2.1
      · trivial
      · exact ⟨trivial, hp⟩

/-- Members with the same lists of credentials support the same credentials. -/
private theorem supported_congr {n n' : Nat → Option Node} (h : ∀ i, ((leafOf (n' (node 0 i))).map fun l => l.payload.capabilities.credentials) =
    (leafOf (n (node 0 i))).map fun l => l.payload.capabilities.credentials) (m : Nat) (ct : CredentialType) :
    SupportedCred n' m ct ↔ SupportedCred n m ct := by
  have key : ∀ is : List Nat,
      ((is.filterMap fun i => (leafOf (n' (node 0 i))).map fun l => (i, l)).map fun m => m.2.payload.capabilities.credentials) =
      (is.filterMap fun i => (leafOf (n (node 0 i))).map fun l => (i, l)).map fun m => m.2.payload.capabilities.credentials := by
    intro is
    induction is with
    | nil => rfl
    | cons i is ih =>
      have hi := h i
      cases h1 : leafOf (n' (node 0 i)) <;> cases h2 : leafOf (n (node 0 i)) <;> rw [h1, h2] at hi <;> simp at hi <;>
        simp only [List.filterMap_cons, h1, h2, Option.map_none, Option.map_some, List.map_cons, ih, hi]
  have e1 : ∀ n : Nat → Option Node, credCount (members n m) ct =
      (((members n m).map fun m => m.2.payload.capabilities.credentials).map fun c => c.count ct).sum := by
    intro n; unfold credCount; rw [List.map_map]; rfl
  have e2 : (members n' m).length = (members n m).length := by
    have := congrArg List.length (key (List.range m))
    rwa [List.length_map, List.length_map] at this
  unfold SupportedCred
  rw [e1, e1, e2, show (members n' m).map (fun m => m.2.payload.capabilities.credentials) = _ from key (List.range m)]
  rfl

/-- The keys of a path that can be written down can be. -/
theorem renewal_keys {p : UpdatePath} (h : (updatePath p).fits) : ∀ x ∈ p.nodes, x.encryption_key.length < 2 ^ 30 := by
  have hf : (p.nodes.foldr (fun x e => seq (updatePathNode x) e) empty).fits := h.2.1
  clear h
  generalize p.nodes = nodes at hf
  intro n hn
  induction nodes with
  | nil => cases hn
  | cons a nodes ih =>
    cases hn with
    | head => exact hf.1.1.2
    | tail _ hn => exact ih hf.2 hn

/-- A parent on a merged path can be written down. -/
theorem merged_fits {H : Bytes → Bytes} (hs : ∀ b, (H b).length < 2 ^ 30) {K j : Nat} {up : UpdatePath}
    {n n' : Nat → Option Node} (h : PathMerged H K j up n n') (hfit : ∀ x ∈ up.nodes, x.encryption_key.length < 2 ^ 30) {k : Nat}
    (hk : k ∈ filteredLevels n K j) : ∃ p, n' (anc j k) = some (.Parent p) ∧ (parentNode p).fits := by
  obtain ⟨k1, k2, _⟩ := filteredLevels_mem.1 hk
  obtain ⟨i, hi⟩ := List.mem_iff_getElem?.1 hk
  obtain ⟨u, ph, hu, hp⟩ := h.path i k hi
  refine ⟨_, hp, ⟨trivial, hfit u (List.mem_iff_getElem?.2 ⟨i, hu⟩)⟩, ⟨trivial, ?_⟩, ⟨?_, Nat.two_pow_pos 30⟩⟩
  · show ph.length < 2 ^ 30
    by_cases htop : ∀ c, k < c → c ≤ K → n' (anc j c) = none
    · have := h.top k _ k1 k2 hp htop
      have : ph = [] := this
      rw [this]; decide
    · have hex : ∃ c, k < c ∧ c ≤ K ∧ n' (anc j c) ≠ none := by
        apply Classical.byContradiction
        intro hc
        exact htop fun c h1 h2 => Classical.byContradiction fun h3 => hc ⟨c, h1, h2, h3⟩
      have least : ∀ m c, c ≤ m → k < c → c ≤ K → n' (anc j c) ≠ none → ∃ b, NextUp n' K j k b := by
        intro m
        induction m with
        | zero => intro c h1 h2; omega
        | succ m ih =>
          intro c h1 h2 h3 h4
          by_cases hb : ∃ d, k < d ∧ d < c ∧ n' (anc j d) ≠ none
          · obtain ⟨d, d1, d2, d3⟩ := hb
            exact ih d (by omega) d1 (by omega) d3
          · exact ⟨c, h2, h3, h4, fun d d1 d2 => Classical.byContradiction fun d3 => hb ⟨d, d1, d2, d3⟩⟩
      obtain ⟨c, c1, c2, c3⟩ := hex
      obtain ⟨b, hb⟩ := least c c (Nat.le_refl _) c1 c2 c3
      obtain ⟨m, hm⟩ := List.mem_iff_getElem?.1 ((h.nonblank (by have := hb.1; omega) hb.2.1).1 hb.2.2.1)
      obtain ⟨u', ph', _, hq⟩ := h.path m b hm
      have : ph = _ := h.linked k _ b _ k1 hp hb hq
      rw [this]; exact hs _
  · trivial

/-- The keys of the tree with the path are those of the path, each in its place, and older ones. -/
theorem merged_keys {H : Bytes → Bytes} {K j : Nat} {up : UpdatePath} {n n' : Nat → Option Node}
    (h : PathMerged H K j up n n') {x : Nat} {key : HPKEPublicKey} (hk : HasKey n' x key) :
    (∃ i : Nat, (up.leaf_node.payload.encryption_key :: up.nodes.map (·.encryption_key))[i]? = some key ∧
      (node 0 j :: (filteredLevels n K j).map (anc j))[i]? = some x) ∨ HasKey n x key := by
  by_cases hx : x = node 0 j
  · left
    refine ⟨0, ?_, by rw [hx]; rfl⟩
    rcases hk with ⟨i, l, _, hl, he⟩ | ⟨p, hp, _⟩
    · rw [hx, h.leaf] at hl
      cases hl
      rw [← he]; rfl
    · rw [hx, h.leaf] at hp
      cases hp
  · by_cases ha : above K j x
    · obtain ⟨k, k1, k2, rfl⟩ := ha
      have hk : HasKey n' (anc j k) key := hk
      by_cases hf : k ∈ filteredLevels n K j
      · left
        obtain ⟨i, hi⟩ := List.mem_iff_getElem?.1 hf
        obtain ⟨u, ph, hu, hp⟩ := h.path i k hi
        refine ⟨i + 1, ?_, ?_⟩
        · rcases hk with ⟨_, l, _, hl, _⟩ | ⟨p, hp', he⟩
          · rw [hp] at hl; cases hl
          · rw [hp] at hp'
            cases hp'
            rw [List.getElem?_cons_succ, List.getElem?_map, hu, ← he]; rfl
        · rw [List.getElem?_cons_succ, List.getElem?_map, hi]; rfl
      · have := h.blank k k1 k2 hf
        rcases hk with ⟨_, l, _, hl, _⟩ | ⟨p, hp', he⟩
        · rw [this] at hl; cases hl
        · rw [this] at hp'; cases hp'
    · right
      unfold HasKey at hk ⊢
      rw [h.others x ha hx] at hk
      exact hk

theorem leaf_not_above {K j i : Nat} : ¬ above K j (node 0 i) := by
  rintro ⟨k, k1, _, h⟩
  have := (node_inj h).1
  omega

/-- C123, what is true: a path with new and distinct keys, from a member who supports the same credentials as before, leaves a tree that
newcomers accept. -/
theorem C123_stays_partial (P : CryptoProvider) (cs : CipherSuite) (Hs : Hash) (hP : P.hash cs = .ok Hs)
    (hs : ∀ b, (Hs.digest b).length < 2 ^ 30) (ctx : GroupContext) (hctx : ctx.cipher_suite = cs) (t t' : RatchetTree) (K : Nat)
    (h : Welcoming P Hs.digest ctx K t) (c : LeafIndex) (p : UpdatePath) (hg : GoodPath P cs ctx t c p)
    (hm : t.merge_update_path P cs c.toNat p = (t', .ok ())) (hun : Unforeseen Hs.digest t.get t'.get c.toNat) :
    Welcoming P Hs.digest ctx K t' ∧ verify_integrity P t' (withTree Hs.digest ctx t' K) 0 = .ok () := by
  have hpos := Nat.two_pow_pos K
  have h2 : 2 ^ (K + 1) = 2 * 2 ^ K := by rw [Nat.pow_succ]; omega
  have hsz := h.size
  have hn : (t.length + 1) / 2 = 2 ^ K := by omega
  have hK : IsHeight ((t.length + 1) / 2) K := by rw [hn]; exact pow_isHeight K
  subst hctx
  have hv : TreeValid P Hs.digest t.get K (2 ^ K) (withTree Hs.digest ctx t K) 0 := h.valid
  have hacc : verify_integrity P t (withTree Hs.digest ctx t K) 0 = .ok () := by
    rw [C19_exact P t (withTree Hs.digest ctx t K) 0 Hs hP (by omega) h.small K hK (fun x n hx => by have := lt_of_get hx; omega), hn]
    exact hv
  have hst : Standing Hs.digest t :=
    accepted_standing (ctx := withTree Hs.digest ctx t K) hP h.size h.small hacc h.unmerged h.both
  obtain ⟨l, hl, hcaps⟩ := hg.member
  have hl : t.get (2 * c.toNat) = some (.Leaf l) := hl
  have hst' := standing_merge hP hst (by rw [hl]; nofun) hun hm
  have hplace : MergePlace t K c.toNat := ⟨h.small, hK, lt_of_get hl⟩
  obtain ⟨a1, a2, a3, a4, a5, a6⟩ := C22_effect P _ Hs hP t t' K _ hplace p hm
  obtain ⟨b1, b2, b3⟩ := C23_parent_hashes P _ Hs hP t t' K _ hplace p hm
  have hpm : PathMerged Hs.digest K c.toNat p t.get t'.get := ⟨a2, a3, a4, a5, a6, b1, b2, b3⟩
  have hleaf' : ∀ i, i ≠ c.toNat → t'.get (node 0 i) = t.get (node 0 i) := fun i hi =>
    hpm.others _ leaf_not_above fun hc => hi (node_inj hc).2
  -- hashing
  have hdef : HashDefined Hs.digest t'.get K 0 := by
    refine hashDefined_exchange hs (n := t.get) (fun i => ?_) (fun k i => ?_) hv.defined
    · by_cases hi : i = c.toNat
      · exact .inr ⟨_, by rw [hi]; exact hpm.leaf, hg.fits.1⟩
      · exact .inl (hleaf' i hi)
    · by_cases ha : above K c.toNat (node (k + 1) i)
      · obtain ⟨m, m1, m2, hmm⟩ := ha
        have hmm : node (k + 1) i = anc c.toNat m := hmm
        rw [hmm]
        by_cases hf : m ∈ filteredLevels t.get K c.toNat
        · exact .inr (.inr (merged_fits hs hpm (renewal_keys hg.fits) hf))
        · exact .inr (.inl (hpm.blank m m1 m2 hf))
      · refine .inl (hpm.others _ ha fun hc => ?_)
        have := (node_inj hc).1
        omega
  -- credentials
  have hsup : SupportedCred t'.get (2 ^ K) = SupportedCred t.get (2 ^ K) := by
    funext ct
    refine propext (supported_congr (fun i => ?_) _ ct)
    by_cases hi : i = c.toNat
    · rw [hi, hpm.leaf, node_zero, hl]
      exact congrArg some hcaps
    · rw [hleaf' i hi]
  have hleaves : ∀ i l, t'.get (node 0 i) = some (.Leaf l) → LeafValid P l ctx.cipher_suite ctx.group_id (UInt32.ofNat i)
      (SupportedCred t'.get ((t'.length + 1) / 2)) 0 := by
    intro i m hi
    rw [a1, hn, hsup]
    by_cases hic : i = c.toNat
    · rw [hic, hpm.leaf] at hi
      cases hi
      have := hg.checked.valid
      rw [hn] at this
      rw [hic, UInt32.ofNat_toNat]
      exact this
    · rw [hleaf' i hic] at hi
      exact hv.leaves i m hi
  have hsigs : ∀ i j l m, t'.get (node 0 i) = some (.Leaf l) → t'.get (node 0 j) = some (.Leaf m) →
      l.payload.signature_key = m.payload.signature_key → i = j := by
    intro i j a b hi hj he
    by_cases hic : i = c.toNat <;> by_cases hjc : j = c.toNat
    · rw [hic, hjc]
    · rw [hic, hpm.leaf] at hi
      cases hi
      rw [hleaf' j hjc, node_zero] at hj
      exact absurd (hg.checked.signature_key j b hj he.symm) hjc
    · rw [hjc, hpm.leaf] at hj
      cases hj
      rw [hleaf' i hic, node_zero] at hi
      exact absurd (hg.checked.signature_key i a hi he) hic
    · rw [hleaf' i hic] at hi
      rw [hleaf' j hjc] at hj
      exact hv.signature_keys i j a b hi hj he
  have hkeys : ∀ x y key, HasKey t'.get x key → HasKey t'.get y key → x = y := by
    intro x y key hx hy
    rcases merged_keys hpm hx with ⟨i, i1, i2⟩ | hx <;> rcases merged_keys hpm hy with ⟨j, j1, j2⟩ | hy
    · have hij : i = j := by
        obtain ⟨ilt, ie⟩ := List.getElem?_eq_some_iff.1 i1
        obtain ⟨jlt, je⟩ := List.getElem?_eq_some_iff.1 j1
        exact (List.getElem_inj hg.distinct).1 (ie.trans je.symm)
      rw [hij, j2] at i2
      exact (Option.some.inj i2).symm
    · exact absurd hy (hg.fresh key (List.mem_iff_getElem?.2 ⟨i, i1⟩) y)
    · exact absurd hx (hg.fresh key (List.mem_iff_getElem?.2 ⟨j, j1⟩) x)
    · exact hv.encryption_keys x y key hx hy
  have hon : Onward P ctx.cipher_suite Hs.digest t t' :=
    .merge c.toNat p .here (by rw [hl]; nofun) hm hun
  have hK' : IsHeight ((t'.length + 1) / 2) K := by rw [a1]; exact hK
  have hok : verify_integrity P t' (withTree Hs.digest ctx t' K) 0 = .ok () :=
    C90_partial P (withTree Hs.digest ctx t K) (withTree Hs.digest ctx t' K) 0 0 Hs hP rfl hs t t' K h.size h.small hacc
      h.unmerged h.both hon (by omega) K hK' hdef rfl hleaves hsigs hkeys
  have hsm := h.small
  have hv' := C19_sound P t' (withTree Hs.digest ctx t' K) 0 Hs hP (by omega) (by omega) K hK' hok
  rw [a1, hn] at hv'
  refine ⟨⟨by omega, by omega, hv', fun x q hx u hu => ?_, hst'.vouch.both⟩, hok⟩
  obtain ⟨k, i, rfl⟩ := node_surj x
  obtain ⟨m, hm⟩ := ((hst'.inv.good.mem k i q hx) u hu).2
  rw [node_zero] at hm
  have hm : t'[2 * u.toNat]?.join = some (.Leaf m) := hm
  rw [hm]; nofun

/-- Trees to which a tree comes by such paths. -/
inductive Renewals (P : CryptoProvider) (cs : CipherSuite) (H : Bytes → Bytes) (ctx : GroupContext) (t₀ : RatchetTree) :
    RatchetTree → Prop where
  | here : Renewals P cs H ctx t₀ t₀
  | step {t t' : RatchetTree} (c : LeafIndex) (p : UpdatePath) : Renewals P cs H ctx t₀ t → GoodPath P cs ctx t c p →
      t.merge_update_path P cs c.toNat p = (t', .ok ()) → Unforeseen H t.get t'.get c.toNat → Renewals P cs H ctx t₀ t'

/-- C123, what is true: however many such paths are merged, newcomers accept the tree. -/
theorem C123_forever_partial (P : CryptoProvider) (cs : CipherSuite) (Hs : Hash) (hP : P.hash cs = .ok Hs)
    (hs : ∀ b, (Hs.digest b).length < 2 ^ 30) (ctx : GroupContext) (hctx : ctx.cipher_suite = cs) (t₀ t : RatchetTree) (K : Nat)
    (h₀ : Welcoming P Hs.digest ctx K t₀) (h : Renewals P cs Hs.digest ctx t₀ t) :
    Welcoming P Hs.digest ctx K t ∧ verify_integrity P t (withTree Hs.digest ctx t K) 0 = .ok () := by
  have hw : Welcoming P Hs.digest ctx K t := by
    induction h with
    | here => exact h₀
    | step c p _ hg hm hun ih => exact (C123_stays_partial P cs Hs hP hs ctx hctx _ _ K ih c p hg hm hun).1
  refine ⟨hw, ?_⟩
  have hsz := hw.size
  have hpos := Nat.two_pow_pos K
  have h2 : 2 ^ (K + 1) = 2 * 2 ^ K := by rw [Nat.pow_succ]; omega
  have hn : (t.length + 1) / 2 = 2 ^ K := by omega
  subst hctx
  rw [C19_exact P t (withTree Hs.digest ctx t K) 0 Hs hP (by omega) hw.small K (by rw [hn]; exact pow_isHeight K)
    (fun x n hx => by have := lt_of_get hx; omega), hn]
  exact hw.valid

/-- C123, what is true of a client: when it accepts a commit whose path has new and distinct keys and whose sender
supports the same credentials as before, then newcomers accept the tree at which it arrives. -/
theorem C123_client_partial (P : CryptoProvider) (cs : CipherSuite) (h : Hpke) (hp : P.hpke cs = .ok h) (hz : Sizes h) (Hs : Hash)
    (hP : P.hash cs = .ok Hs) (hs : ∀ b, (Hs.digest b).length < 2 ^ 30) (s : State)
    (hcs : s.group_info.group_context.cipher_suite = cs) (K : Nat)
    (hw : Welcoming P Hs.digest s.group_info.group_context K s.tree) (m : PublicMessage) (hm : m.membership_tag ≠ none)
    (nt t' : RatchetTree) (hok : handleCommit P cs s m = .ok (nt, t')) (c : LeafIndex) (hc : m.content.sender = .Member c)
    (ps : List ProposalOrRef) (p : UpdatePath) (hcm : m.content.content = .Commit ⟨ps, some p⟩) (hfit : (updatePath p).fits)
    (hkeep : ∀ l, s.tree.get (2 * c.toNat) = some (.Leaf l) →
      p.leaf_node.payload.capabilities.credentials = l.payload.capabilities.credentials)
    (hdistinct : (p.leaf_node.payload.encryption_key :: p.nodes.map (·.encryption_key)).Nodup)
    (hfresh : ∀ key ∈ p.leaf_node.payload.encryption_key :: p.nodes.map (·.encryption_key), ∀ x, ¬ HasKey s.tree.get x key)
    (hun : Unforeseen Hs.digest s.tree.get t'.get c.toNat) :
    Welcoming P Hs.digest s.group_info.group_context K t' ∧
      verify_integrity P t' (withTree Hs.digest s.group_info.group_context t' K) 0 = .ok () := by
  have hd : ∀ i j l m, s.tree.get (2 * i) = some (.Leaf l) → s.tree.get (2 * j) = some (.Leaf m) →
      l.payload.signature_key = m.payload.signature_key → i = j := by
    intro i j a b h1 h2 h3
    rw [← node_zero] at h1 h2
    exact hw.valid.signature_keys i j a b h1 h2 h3
  obtain ⟨c', ps', path, hchk, _, _, hmerge⟩ := (C68_exact_partial P cs h hp hz s hw.small hd m hm nt t').1 hok
  have hcc := hchk.sender.symm.trans hc
  cases hcc
  have hpp := hchk.content.symm.trans hcm
  cases hpp
  obtain ⟨l, hl, _⟩ := hchk.signed
  exact C123_stays_partial P cs Hs hP hs _ hcs s.tree t' K hw c p ⟨⟨l, hl, hkeep l hl⟩, hchk.path p rfl, hfit, hdistinct, hfresh⟩
    (hmerge p rfl) hun

/-! ### Commits that lock out newcomers -/

section examples
private abbrev suite1 : CipherSuite := .MLS_128_DHKEMX25519_AES128GCM_SHA256_Ed25519

/-- A client in a group of three members, and a commit of the first member with new keys. -/
private def lockContext : GroupContext := withTree sumHash.digest toyContext sumThree 2
private def lockState : State :=
  { joinState with tree := sumThree, group_info := { joinInfo with group_context := lockContext } }
private def lockPath : UpdatePath :=
  ⟨newLeaf 0 (parentHash sumHash.digest sumThree.get 0 1 sumLeft), [⟨[40], []⟩, ⟨[41], []⟩]⟩
private def lockTree : RatchetTree :=
  [some (.Leaf lockPath.leaf_node), some (.Parent sumLeft), some (.Leaf (signedLeaf 1 .Update)), some (.Parent sumRoot),
   some (.Leaf (signedLeaf 2 .Update)), none, none]

private theorem lock_nodes (x : Nat) (n : Node) (h : sumThree.get x = some n) :
    x = 0 ∧ n = .Leaf (signedLeaf 0 .Update) ∨ x = 2 ∧ n = .Leaf (signedLeaf 1 .Update) ∨
      x = 4 ∧ n = .Leaf (signedLeaf 2 .Update) := by
  match x with
  | 0 => cases h; exact .inl ⟨rfl, rfl⟩
  | 1 => cases h
  | 2 => cases h; exact .inr (.inl ⟨rfl, rfl⟩)
  | 3 => cases h
  | 4 => cases h; exact .inr (.inr ⟨rfl, rfl⟩)
  | 5 => cases h
  | 6 => cases h
  | x + 7 => rw [get_out (by show 7 ≤ x + 7; omega)] at h; cases h

private theorem lock_leaf (x : Nat) (n : Node) (h : sumThree.get x = some n) :
    ∃ k : UInt8, k < 3 ∧ n = .Leaf (signedLeaf k .Update) := by
  rcases lock_nodes x n h with ⟨_, rfl⟩ | ⟨_, rfl⟩ | ⟨_, rfl⟩
  · exact ⟨0, by decide, rfl⟩
  · exact ⟨1, by decide, rfl⟩
  · exact ⟨2, by decide, rfl⟩

set_option maxRecDepth 100000 in
private theorem lock_welcoming : Welcoming sumProvider sumHash.digest lockContext 2 sumThree where
  size := rfl
  small := by decide
  valid := C19_sound sumProvider sumThree (withTree sumHash.digest lockContext sumThree 2) 0 sumHash rfl (by decide) (by decide) 2
    (pow_isHeight 2) (by decide +kernel)
  unmerged x p hx := by
    obtain ⟨_, _, h⟩ := lock_leaf x _ hx
    cases h
  both k i n hx := by
    exfalso
    have := node_succ k i
    rcases lock_nodes _ n hx with ⟨h, _⟩ | ⟨h, _⟩ | ⟨h, _⟩ <;> omega

set_option maxRecDepth 100000 in
/-- The conditions of `C123_client_partial` can be met, and with them those of the other theorems. -/
example : handleCommit sumProvider suite1 lockState (commitOf 0 [.GroupContextExtensions ⟨[]⟩] lockPath lockContext) =
      .ok (sumThree, lockTree) ∧
    verify_integrity sumProvider lockTree (withTree sumHash.digest lockContext lockTree 2) 0 = .ok () := by
  have hok : handleCommit sumProvider suite1 lockState (commitOf 0 [.GroupContextExtensions ⟨[]⟩] lockPath lockContext) =
      .ok (sumThree, lockTree) := by decide +kernel
  refine ⟨hok, (C123_client_partial sumProvider suite1 toyHpke rfl toy_sizes sumHash rfl (fun b => (sumHash_size b).2) lockState rfl 2
    lock_welcoming _ (Option.some_ne_none _) sumThree lockTree hok 0 rfl _ lockPath rfl (by decide +kernel) ?_ (by decide +kernel) ?_ ?_).2⟩
  · intro l hl
    cases hl
    rfl
  · intro key hkey x hx
    have hsmall : ∃ k : UInt8, k < 3 ∧ key = [k] := by
      rcases hx with ⟨_, l, _, hl, rfl⟩ | ⟨p, hp, _⟩
      · obtain ⟨k, hk, h⟩ := lock_leaf _ _ hl
        cases h
        exact ⟨k, hk, rfl⟩
      · obtain ⟨k, hk, h⟩ := lock_leaf _ _ hp
        cases h
    obtain ⟨k, hk, rfl⟩ := hsmall
    have hkeys : [k] = [50] ∨ [k] = [40] ∨ [k] = [41] := by
      rcases List.mem_cons.1 hkey with h | h
      · exact .inl h
      · rcases List.mem_cons.1 h with h | h
        · exact .inr (.inl h)
        · exact .inr (.inr (List.mem_singleton.1 h))
    rcases hkeys with h | h | h <;> (cases h; revert hk; decide)
  · intro k q x _ _
    have : ∀ x, storedParentHash (sumThree.get x) = none := by
      intro x
      cases hx : sumThree.get x with
      | none => rfl
      | some n =>
        obtain ⟨_, _, rfl⟩ := lock_leaf x n hx
        rfl
    show storedParentHash (sumThree.get x) ≠ _
    rw [this]
    nofun

/-- A path with the same key for the leaf and for the root. -/
def twicePath : UpdatePath := ⟨newLeaf 0 (parentHash id joinTree.get 0 1 ⟨[50], [], []⟩), [⟨[50], []⟩]⟩
def twiceTree : RatchetTree := [some (.Leaf twicePath.leaf_node), some (.Parent ⟨[50], [], []⟩), some (.Leaf joinLeaf)]

private theorem height_two : IsHeight ((3 + 1) / 2) 1 := pow_isHeight 1

set_option maxRecDepth 100000 in
/-- C123, the code violates it: the keys of a path are not compared with each other.  A client that has joined accepts a path with
one key at two places, and arrives at a tree that nobody who joins accepts, whatever the group context says. -/
theorem C123_twice_refuted : ∃ (s : State) (m : PublicMessage) (nt t' : RatchetTree),
    (∃ w kp priv external, join toyProvider suite1 w kp priv external none = .ok s) ∧
    handleCommit toyProvider suite1 s m = .ok (nt, t') ∧ nt = s.tree ∧
    ∀ ctx now, t'.verify_integrity toyProvider ctx now ≠ .ok () := by
  refine ⟨joinState, commitOf 0 [.GroupContextExtensions ⟨[]⟩] twicePath joinInfo.group_context, joinTree, twiceTree,
    ⟨_, _, _, _, joinState_join⟩, by decide +kernel, rfl, ?_⟩
  intro ctx now hv
  have := C19_sound toyProvider twiceTree ctx now toyHash rfl (by decide) (by decide) 1 height_two hv
  have := this.encryption_keys 0 1 [50] (.inl ⟨0, _, rfl, rfl, rfl⟩) (.inr ⟨_, rfl, rfl⟩)
  omega

/-- A path of member 0, who does not support any credential any more. -/
def dropLeaf (hash : Bytes) : LeafNode :=
  let payload := { (newLeaf 0 hash).payload with capabilities := { (newLeaf 0 hash).payload.capabilities with credentials := [] } }
  { payload, signature := [0, 0] ++ (labelled (text "LeafNodeTBS") (leafNodeTBS payload [7] 0).bytes).bytes }
def dropPath : UpdatePath := ⟨dropLeaf (parentHash id joinTree.get 0 1 ⟨[41], [], []⟩), [⟨[41], []⟩]⟩
def dropTree : RatchetTree := [some (.Leaf dropPath.leaf_node), some (.Parent ⟨[41], [], []⟩), some (.Leaf joinLeaf)]

set_option maxRecDepth 100000 in
/-- C123, the code violates it: the capabilities of the new leaf are not compared with the credentials in the group.  A client that
has joined accepts a path of a member who stops supporting them, and arrives at a tree that nobody who joins accepts. -/
theorem C123_capabilities_refuted : ∃ (s : State) (m : PublicMessage) (nt t' : RatchetTree),
    (∃ w kp priv external, join toyProvider suite1 w kp priv external none = .ok s) ∧
    handleCommit toyProvider suite1 s m = .ok (nt, t') ∧ nt = s.tree ∧
    ∀ ctx now, t'.verify_integrity toyProvider ctx now ≠ .ok () := by
  refine ⟨joinState, commitOf 0 [.GroupContextExtensions ⟨[]⟩] dropPath joinInfo.group_context, joinTree, dropTree,
    ⟨_, _, _, _, joinState_join⟩, by decide +kernel, rfl, ?_⟩
  intro ctx now hv
  have := C19_sound toyProvider dropTree ctx now toyHash rfl (by decide) (by decide) 1 height_two hv
  have := (this.leaves 0 dropPath.leaf_node rfl).credential
  have hno : ¬ (credCount (members dropTree.get 2) (dropPath.leaf_node.payload.credential.credential_type) =
    (members dropTree.get 2).length) := by decide +kernel
  exact hno this.2

end examples

end Rmls
