import Verif.Spec.Client
import Verif.Props.Welcome
import Verif.Props.Group
import Verif.Props.Joiner
import Verif.Props.Integrity
import Verif.Props.TreeChecks
import Verif.Props.KeySchedule
import Verif.Props.Size
import Verif.Props.Proposal
/-
Properties C66 (joining a group) and C68 (handling a commit), for the passive client of the repository.
-/
namespace Rmls
open Spec Spec.Enc RatchetTree PassiveClient

/-! ## C66 -/

/-- C66: the lookup returns the data of the first extension of the type. -/
theorem C66_find (ty : ExtensionType) (exts : Extensions) (data : Bytes) :
    Extensions.find_extension_data ty exts = some data ↔ FirstExtension ty exts data := by
  induction exts with
  | nil =>
    refine ⟨(nomatch ·), ?_⟩
    rintro ⟨b, a, h, _⟩
    cases b <;> cases h
  | cons e l ih =>
    unfold Extensions.find_extension_data
    split
    · next he =>
      constructor
      · intro h; cases h; subst he; exact ⟨[], l, rfl, nofun⟩
      · rintro ⟨b, a, h1, h3⟩
        cases b with
        | nil => cases h1; rfl
        | cons e' b =>
          cases h1
          exact absurd he (h3 _ (List.mem_cons_self ..))
    · next he =>
      rw [ih]
      constructor
      · rintro ⟨b, a, rfl, h3⟩
        refine ⟨e :: b, a, rfl, ?_⟩
        intro y hy
        rcases List.mem_cons.1 hy with rfl | hy
        · exact he
        · exact h3 y hy
      · rintro ⟨b, a, h1, h3⟩
        cases b with
        | nil => cases h1; exact absurd rfl he
        | cons e' b =>
          cases h1
          exact ⟨b, a, rfl, fun y hy => h3 y (List.mem_cons_of_mem _ hy)⟩

/-- C66: nothing is found exactly when no extension has the type. -/
theorem C66_find_none (ty : ExtensionType) (exts : Extensions) :
    Extensions.find_extension_data ty exts = none ↔ ∀ e ∈ exts, e.extension_type ≠ ty := by
  induction exts with
  | nil => exact ⟨fun _ => nofun, fun _ => rfl⟩
  | cons e l ih =>
    unfold Extensions.find_extension_data
    split
    · next he => exact ⟨(nomatch ·), fun h => absurd he (h _ (List.mem_cons_self ..))⟩
    · next he => rw [ih]; simp [he]

example : FirstExtension .RatchetTree [⟨.ApplicationId, [1]⟩, ⟨.RatchetTree, [2]⟩, ⟨.RatchetTree, [3]⟩] [2] :=
  ⟨[⟨.ApplicationId, [1]⟩], _, rfl, by decide⟩

theorem assert_iff (c : Bool) (u : Unit) : assert c = .ok u ↔ c = true := by
  unfold assert
  cases c <;> simp

theorem assertOk_iff (r : Res Unit) (u : Unit) : assertOk r = .ok u ↔ r = .ok () := by
  unfold assertOk
  rw [Res.bind_ok_iff]
  constructor
  · rintro ⟨b, h1, h2⟩
    rw [assert_iff] at h2
    subst h2
    obtain ⟨a, h⟩ := isOk_true.1 h1
    exact h
  · rintro rfl
    exact ⟨true, rfl, rfl⟩

theorem findPsk_iff (id : Bytes) (l : List (Bytes × Bytes)) (psk : Bytes) :
    findPsk id l = .ok psk ↔ ∃ before after, l = before ++ (id, psk) :: after ∧ ∀ e ∈ before, e.1 ≠ id := by
  induction l with
  | nil =>
    refine ⟨(nomatch ·), ?_⟩
    rintro ⟨b, a, h, _⟩
    cases b <;> cases h
  | cons e l ih =>
    obtain ⟨i, p⟩ := e
    unfold findPsk
    split
    · next he =>
      subst he
      constructor
      · intro h; cases h; exact ⟨[], l, rfl, nofun⟩
      · rintro ⟨b, a, h1, h3⟩
        cases b with
        | nil => cases h1; rfl
        | cons e' b =>
          cases h1
          exact absurd rfl (h3 _ (List.mem_cons_self ..))
    · next he =>
      rw [ih]
      constructor
      · rintro ⟨b, a, rfl, h3⟩
        refine ⟨(i, p) :: b, a, rfl, ?_⟩
        intro y hy
        rcases List.mem_cons.1 hy with rfl | hy
        · exact he
        · exact h3 y hy
      · rintro ⟨b, a, h1, h3⟩
        cases b with
        | nil => cases h1; exact absurd rfl he
        | cons e' b =>
          cases h1
          exact ⟨b, a, rfl, fun y hy => h3 y (List.mem_cons_of_mem _ hy)⟩

theorem findPsks_iff (ext : List (Bytes × Bytes)) (ids : List PreSharedKeyID) (psks : List Bytes) :
    findPsks ext ids = .ok psks ↔ Supplies ext ids psks := by
  induction ids generalizing psks with
  | nil =>
    constructor
    · intro h; cases h; exact .nil
    · intro h; cases h; rfl
  | cons id ids ih =>
    obtain ⟨k, nonce⟩ := id
    unfold findPsks
    cases k with
    | Resumption r =>
      constructor
      · intro h; cases h
      · intro h; cases h
    | External i =>
      simp only [Res.bind_ok_iff, findPsk_iff, ih]
      constructor
      · rintro ⟨p, ⟨b, a, h1, h2⟩, ps, h3, h4⟩
        cases h4
        exact .cons h1 h2 h3
      · rintro (_ | ⟨h1, h2, h3⟩)
        exact ⟨_, ⟨_, _, h1, h2⟩, _, h3, rfl⟩

theorem supplies_length {ext : List (Bytes × Bytes)} {ids : List PreSharedKeyID} {psks : List Bytes}
    (h : Supplies ext ids psks) : ids.length = psks.length := by
  induction h with
  | nil => rfl
  | cons _ _ _ ih => simp [ih]

theorem supplies_external {ext : List (Bytes × Bytes)} {ids : List PreSharedKeyID} {psks : List Bytes}
    (h : Supplies ext ids psks) : ∀ x ∈ ids, ¬ ReinitOrBranch x := by
  induction h with
  | nil => nofun
  | cons _ _ _ ih =>
    intro x hx
    rcases List.mem_cons.1 hx with rfl | hx
    · rintro ⟨r, hr, _⟩; cases hr
    · exact ih x hx

theorem rawTree_iff (given : Option Bytes) (gi : GroupInfo) (raw : Bytes) :
    rawTree given gi = .ok raw ↔ SentTree given gi raw := by
  unfold rawTree SentTree
  cases given with
  | some r => simp
  | none =>
    rw [← C66_find]
    cases gi.extensions.find_extension_data .RatchetTree <;> simp

theorem deserialize_exact_iff {α : Type} (d : De α) (b : Bytes) (a : α) :
    deserialize_exact d b = .ok a ↔ ∃ rest, d b = .ok (a, rest) := by
  unfold deserialize_exact
  split
  · next a' rest h => simp [h]
  · next e h => simp [h]
  · next f h => simp [h]

theorem get_leaf_some (t : RatchetTree) (hl : t.length < 2 ^ 32) (i : Nat) (l : LeafNode) :
    t.get_leaf i = .ok (some l) ↔ t.get (2 * i) = some (.Leaf l) := by
  by_cases hi : i < 2 ^ 31
  · rw [get_leaf_eq hi]
    split
    · next n h => simp [h]
    · next h =>
      refine ⟨(nomatch ·), fun hc => absurd hc (h _)⟩
  · rw [C12_get_leaf_exact t i (by omega), if_neg hi, get_out (by omega)]
    simp

/-- The leaf of a member is found in a valid tree. -/
theorem find_leaf_valid {P : CryptoProvider} {H : Bytes → Bytes} {t : RatchetTree} {K n : Nat} {ctx : GroupContext}
    {now : Int} (hv : TreeValid P H t.get K n ctx now) (hl : t.length < 2 ^ 32) (hK : t.length + 1 = 2 ^ (K + 1))
    (hw : ∀ x l, t.get x = some (.Leaf l) → l.WF) (nd : LeafNode) (hnd : nd.WF) (i : Nat) :
    t.find_leaf nd = .ok (some i) ↔ t.get (2 * i) = some (.Leaf nd) := by
  obtain ⟨r, h1, h2⟩ := find_leaf_exact t nd hl hnd hw
  constructor
  · intro h
    rw [h1] at h
    cases h
    have := ((h2 i).1 rfl).2.1
    rwa [node_zero] at this
  · intro h
    have hlt := lt_of_get h
    refine C51_complete t nd i hl hnd hw ?_ (by rw [node_zero]; exact h) ?_ ?_
    · rw [(num_leaves_bounds (by omega) hl).2.2]; omega
    · have hd := hv.defined
      have key : ∀ k j, i < (j + 1) * 2 ^ k → j * 2 ^ k ≤ i → HashDefined H t.get k j → (leafNode nd).fits := by
        intro k
        induction k with
        | zero =>
          intro j h1 h2 h3
          obtain rfl : i = j := by omega
          unfold HashDefined at h3
          have hf := h3.2
          rw [node_zero, h] at hf
          exact hf.2.2.2
        | succ k ih =>
          intro j h1 h2 h3
          unfold HashDefined at h3
          have e1 : (j + 1) * 2 ^ (k + 1) = (2 * j + 1 + 1) * 2 ^ k := by
            rw [Nat.pow_succ, Nat.mul_comm (2 ^ k) 2, ← Nat.mul_assoc]; congr 1; omega
          have e2 : j * 2 ^ (k + 1) = (2 * j) * 2 ^ k := by
            rw [Nat.pow_succ, Nat.mul_comm (2 ^ k) 2, ← Nat.mul_assoc]; congr 1; omega
          by_cases hm : i < (2 * j + 1) * 2 ^ k
          · exact ih (2 * j) hm (by omega) h3.2.2.1
          · exact ih (2 * j + 1) (by omega) (by omega) h3.2.2.2
      have hpw : 2 ^ (K + 1) = 2 * 2 ^ K := by rw [Nat.pow_succ]; omega
      exact key K 0 (by omega) (by omega) hd
    · intro a b l l' ha hb he
      have := hv.encryption_keys (node 0 a) (node 0 b) l.payload.encryption_key (.inl ⟨_, _, rfl, ha, rfl⟩)
        (.inl ⟨_, _, rfl, hb, he.symm⟩)
      rw [node_zero, node_zero] at this
      omega

/-- A tree from the wire is accepted exactly if it is not empty and valid. -/
theorem verify_read {P : CryptoProvider} {ctx : GroupContext} {Hs : Hash} (hP : P.hash ctx.cipher_suite = .ok Hs)
    {buf rest : Bytes} {t : RatchetTree} (hr : RatchetTree.deserialize buf = .ok (t, rest)) (now : Int) :
    t.verify_integrity P ctx now = .ok () ↔
      ∃ K, t.length + 1 = 2 ^ (K + 1) ∧ TreeValid P Hs.digest t.get K (2 ^ K) ctx now := by
  have hlen := (C67_tree _ _ _ hr).1
  obtain ⟨k, hk⟩ := (C09_read_full _ _ _ hr).1
  cases k with
  | zero =>
    have h0 : t = [] := by cases t with | nil => rfl | cons => simp at hk
    subst h0
    constructor
    · intro h; cases h
    · rintro ⟨K, h, _⟩
      have := Nat.two_pow_pos K
      rw [Nat.pow_succ] at h
      simp at h
      omega
  | succ K =>
    have hpw : 2 ^ (K + 1) = 2 * 2 ^ K := by rw [Nat.pow_succ]; omega
    have hpos := Nat.two_pow_pos K
    have hn : (t.length + 1) / 2 = 2 ^ K := by omega
    have := C19_exact P t ctx now Hs hP (by omega) (by omega) K (by rw [hn]; exact pow_isHeight K)
      (fun x n hx => by have := lt_of_get hx; omega)
    rw [hn] at this
    rw [this]
    constructor
    · intro h; exact ⟨K, hk, h⟩
    · rintro ⟨K', hk', h⟩
      have : K = K' := by
        have he := hk.symm.trans hk'
        have h1 := (Nat.pow_le_pow_iff_right (a := 2) (by omega)).1 (Nat.le_of_eq he)
        have h2 := (Nat.pow_le_pow_iff_right (a := 2) (by omega)).1 (Nat.le_of_eq he.symm)
        omega
      subst this
      exact h

theorem read_wf {buf rest : Bytes} {t : RatchetTree} (hr : RatchetTree.deserialize buf = .ok (t, rest)) (x : Nat)
    (l : LeafNode) (h : t.get x = some (.Leaf l)) : l.WF := by
  have hw := (C09_read_full _ _ _ hr).2
  have hx := lt_of_get h
  have : some (Node.Leaf l) ∈ t := by
    have h' : t[x]?.join = some (.Leaf l) := h
    rw [List.getElem?_eq_getElem hx] at h'
    exact h' ▸ List.getElem_mem hx
  exact hw _ this

/-- C66: the client joins exactly if everything fits together: the secrets are sealed for its key package, they open the
group info, the tree is valid in the context of the group info, the group info is signed by a member and confirmed with
the secrets, and the client is itself a member. -/
theorem C66_exact (P : CryptoProvider) (cs : CipherSuite) (hcs : cs.WF) (h : Hpke) (hp : P.hpke cs = .ok h)
    (hs : Sizes h) (Hs : Hash) (hP : P.hash cs = .ok Hs) (w : Welcome) (hw : w.cipher_suite = cs) (kp : KeyPackage)
    (hkw : kp.WF) (hkc : kp.payload.cipher_suite = cs) (priv : Bytes) (external : List (Bytes × Bytes))
    (given : Option Bytes) (s : State) (hn : s.group_secrets.psk_ids.length < 2 ^ 16) :
    join P cs w kp priv external given = .ok s ↔ Joined P h Hs.digest w kp priv external given s := by
  subst hw
  unfold join
  simp only [Res.bind_ok_iff]
  constructor
  · rintro ⟨ref, h1, gs, h2, _, h3, psks, h4, psk, h5, gi, h6, raw, h7, tree, h8, l, h9, h10⟩
    cases l with
    | none => cases h10
    | some l =>
      simp only [Res.bind_ok_iff] at h10
      obtain ⟨_, a1, _, a2, _, a3, _, a4, i, a5, h10⟩ := h10
      cases i with
      | none => cases h10
      | some i =>
        simp only [Res.bind_ok_iff] at h10
        obtain ⟨e, a6, h10⟩ := h10
        cases h10
        rw [assertOk_iff] at a1 a2
        rw [assert_iff, decide_eq_true_iff] at a3
        simp only at hn
        have hgc : gi.group_context.cipher_suite = w.cipher_suite := a3.trans hkc
        obtain ⟨b1, b2, b3, en, rest, b4, b5⟩ := (C47_group_secrets P w hcs ref priv gs).1 h2
        obtain ⟨c1, c2⟩ := (C33_fold_partial P w.cipher_suite h hp hs gs.psk_ids psks hn psk).1 h5
        obtain ⟨rest', h8⟩ := (deserialize_exact_iff ..).1 h8
        have hlen := (C67_tree _ _ _ h8).1
        obtain ⟨K, d1, d2⟩ := (verify_read (by rw [hgc]; exact hP) h8 0).1 a4
        exact {
          secrets := ⟨b1, b2, b3, ref, en, rest, (C56_ref P kp ref).1 h1, b4, b5⟩
          psks := ⟨psks, (findPsks_iff ..).1 h4, c2⟩
          info := (C47_group_info P w h hp hs _ _ gi).1 h6
          tree := ⟨raw, rest', (rawTree_iff ..).1 h7, h8⟩
          signer := ⟨l, (get_leaf_some tree (by omega) _ _).1 h9, (C50_verify ..).1 a1⟩
          confirmed := (C55_group_info P gi h (by rw [hgc]; exact hp) hs _ _).1 a2
          suite := a3
          valid := ⟨K, d1, d2⟩
          member := (find_leaf_valid d2 (by omega) d1 (read_wf h8) _ hkw.2.2.1 i).1 a5
          epoch := (C32_epoch P _ h (by rw [hgc]; exact hp) hs _ _ _).1 a6 }
  · rintro ⟨⟨b1, b2, b3, ref, en, rest, b0, b4, b5⟩, ⟨psks, c1, c2⟩, h6, ⟨raw, rest', h7, h8⟩, ⟨l, h9, a1⟩, a2, a3,
      ⟨K, d1, d2⟩, a5, a6⟩
    obtain ⟨gs, psk, gi, tree, i, e⟩ := s
    simp only at *
    have hgc : gi.group_context.cipher_suite = w.cipher_suite := a3.trans hkc
    have hlen := (C67_tree _ _ _ h8).1
    refine ⟨ref, (C56_ref P kp ref).2 b0, gs, (C47_group_secrets P w hcs ref priv gs).2 ⟨b1, b2, b3, en, rest, b4, b5⟩, (),
      ?_, psks, (findPsks_iff ..).2 c1, psk,
      (C33_fold_partial P w.cipher_suite h hp hs gs.psk_ids psks hn psk).2 ⟨supplies_length c1, c2⟩, gi,
      (C47_group_info P w h hp hs _ _ gi).2 h6, raw, (rawTree_iff ..).2 h7, tree, (deserialize_exact_iff ..).2 ⟨_, h8⟩,
      some l, (get_leaf_some _ (by omega) _ _).2 h9, ?_⟩
    · rw [assert_iff, C49_exact]
      intro i j a b ha hb h1 h2
      exact absurd h1 (supplies_external c1 a (List.mem_of_getElem? ha))
    · simp only [Res.bind_ok_iff]
      refine ⟨(), (assertOk_iff ..).2 ((C50_verify ..).2 a1), (), (assertOk_iff ..).2
        ((C55_group_info P gi h (by rw [hgc]; exact hp) hs _ _).2 a2), (), ?_, (),
        (verify_read (by rw [hgc]; exact hP) h8 0).2 ⟨K, d1, d2⟩, some i,
        (find_leaf_valid d2 (by omega) d1 (read_wf h8) _ hkw.2.2.1 i).2 a5, ?_⟩
      · rw [assert_iff, decide_eq_true_iff]; exact a3
      · simp only [Res.bind_ok_iff]
        exact ⟨e, (C32_epoch P _ h (by rw [hgc]; exact hp) hs _ _ _).2 a6, rfl⟩

/-- C66: a member of a group lets the owner of a key package join.  `t` is the member's tree, after any history in which
every add found room; the group info has it as extension, and is sealed with the secrets, which are sealed to the init key.
The new member ends up with these secrets, this group info and this tree. -/
theorem C66_welcome (P : CryptoProvider) (cs : CipherSuite) (hcs : cs.WF) (h : Hpke) (hp : P.hpke cs = .ok h)
    (hs : Sizes h) (ha : AeadPair h) (Hs : Hash) (hP : P.hash cs = .ok Hs)
    -- the group
    (founder : LeafNode) (evs : List TreeEvent) (t : RatchetTree) (ht : RoomSteps P cs [some (.Leaf founder)] evs t)
    (h0 : t ≠ []) (htw : t.NodesWF) (raw : Bytes) (hraw : RatchetTree.serialize t = .ok raw)
    (gi : GroupInfo) (hgw : gi.WF) (hgf : (groupInfo gi).fits) (hgc : gi.group_context.cipher_suite = cs)
    (hext : FirstExtension .RatchetTree gi.extensions raw) (hval : t.verify_integrity P gi.group_context 0 = .ok ())
    (signer : LeafNode) (hsigner : t.get_leaf gi.signer.toNat = .ok (some signer))
    (hsig : GroupInfoSigned P signer.payload.signature_key gi)
    -- the new member
    (kp : KeyPackage) (hkw : kp.WF) (hkc : kp.payload.cipher_suite = cs) (i : Nat)
    (hi : t.get (2 * i) = some (.Leaf kp.payload.leaf_node)) (priv : Bytes) (hk : HpkePair P cs priv kp.payload.init_key)
    (external : List (Bytes × Bytes))
    -- the secrets
    (gs : GroupSecrets) (hsf : (groupSecrets gs).fits) (psks : List Bytes) (hsup : Supplies external gs.psk_ids psks)
    (hn : gs.psk_ids.length < 2 ^ 16) (psk : Bytes)
    (hpsk : PskFold h gs.psk_ids.length 0 (zeros h.kdf_extract_size) (gs.psk_ids.zip psks) psk)
    (e ckey : Bytes) (he : EpochSecret h gi.group_context gs.joiner_secret psk e) (hck : Derives h e (text "confirm") ckey)
    (htag : gi.confirmation_tag = Hs.mac ckey gi.group_context.confirmed_transcript_hash)
    -- the welcome
    (w : Welcome) (hw : w.cipher_suite = cs) (key nonce : Bytes) (hkeys : WelcomeKeys h gs.joiner_secret psk key nonce)
    (hseal : h.aead_seal key nonce (groupInfo gi).bytes [] = .ok w.encrypted_group_info)
    (en : EncryptedGroupSecrets) (hen : FirstFor en.new_member w.secrets en) (href : IsRef P kp en.new_member) (rnd : Bytes)
    (henc : P.encrypt_with_label rnd cs kp.payload.init_key (text "Welcome") w.encrypted_group_info
      (groupSecrets gs).bytes = .ok (en.encrypted_group_secrets.kem_output, en.encrypted_group_secrets.ciphertext)) :
    ∃ u, join P cs w kp priv external none = .ok ⟨gs, psk, gi, u, i, e⟩ ∧ SameTree t u ∧ ∀ x, t.get x = u.get x := by
  obtain ⟨u, hu, hsame⟩ := C64_read P cs founder t evs raw [] ht h0 htw hraw
  rw [List.append_nil] at hu
  obtain ⟨g1, _, _, g2, _⟩ := C64_agree P cs founder t u evs ht hsame
  refine ⟨u, ?_, hsame, g1⟩
  rw [C66_exact P cs hcs h hp hs Hs hP w hw kp hkw hkc priv external none ⟨gs, psk, gi, u, i, e⟩ hn]
  obtain ⟨j1, j2⟩ := C47_round_trip P w (by rw [hw]; exact hcs) h (by rw [hw]; exact hp) hs ha priv kp.payload.init_key
    (by rw [hw]; exact hk) rnd gs.joiner_secret psk key nonce hkeys gs gi hsf hgf hgw en hen hseal (by rw [hw]; exact henc)
  have hlen := (C67_tree _ _ _ hu).1
  have hsg : u.get_leaf gi.signer.toNat = .ok (some signer) := by rw [← get_leaf_congr g1]; exact hsigner
  obtain ⟨b1, b2, b3, e', rest, b4, b5⟩ := (C47_group_secrets P w (by rw [hw]; exact hcs) _ priv gs).1 j1
  exact {
    secrets := ⟨b1, b2, b3, _, e', rest, href, b4, b5⟩
    psks := ⟨psks, hsup, hpsk⟩
    info := (C47_group_info P w h (by rw [hw]; exact hp) hs _ _ gi).1 j2
    tree := ⟨raw, [], .inr ⟨rfl, hext⟩, hu⟩
    signer := ⟨signer, (get_leaf_some u (by omega) _ _).1 hsg, hsig⟩
    confirmed := ⟨ckey, ⟨e, he, hck⟩, Hs, by rw [hgc]; exact hP, htag⟩
    suite := hgc.trans hkc.symm
    valid := (verify_read (by rw [hgc]; exact hP) hu 0).1 (by rw [← g2]; exact hval)
    member := (g1 _).symm.trans hi
    epoch := he }

/-- C66: two clients that joined with the same tree hash in the context, whatever the welcomes, have the same tree, or a
hash collision was found. -/
theorem C66_same (P : CryptoProvider) (cs : CipherSuite) (hcs : cs.WF) (h : Hpke) (hp : P.hpke cs = .ok h)
    (hs : Sizes h) (Hs : Hash) (hP : P.hash cs = .ok Hs) (w w' : Welcome) (hw : w.cipher_suite = cs)
    (hw' : w'.cipher_suite = cs) (kp kp' : KeyPackage) (hkw : kp.WF) (hkw' : kp'.WF) (hkc : kp.payload.cipher_suite = cs)
    (hkc' : kp'.payload.cipher_suite = cs) (priv priv' : Bytes) (external external' : List (Bytes × Bytes))
    (given given' : Option Bytes) (s s' : State) (hn : s.group_secrets.psk_ids.length < 2 ^ 16)
    (hn' : s'.group_secrets.psk_ids.length < 2 ^ 16) (hj : join P cs w kp priv external given = .ok s)
    (hj' : join P cs w' kp' priv' external' given' = .ok s')
    (hth : s.group_info.group_context.tree_hash = s'.group_info.group_context.tree_hash) :
    s.tree = s'.tree ∨ ∃ K K', Collision Hs.digest (hashInputs Hs.digest s.tree.get K 0)
      (hashInputs Hs.digest s'.tree.get K' 0) := by
  rw [C66_exact P cs hcs h hp hs Hs hP w hw kp hkw hkc priv external given s hn] at hj
  rw [C66_exact P cs hcs h hp hs Hs hP w' hw' kp' hkw' hkc' priv' external' given' s' hn'] at hj'
  obtain ⟨_, _, _, ⟨r, rest, _, hr⟩, _, _, _, ⟨K, a1, a2⟩, _, _⟩ := hj
  obtain ⟨_, _, _, ⟨r', rest', _, hr'⟩, _, _, _, ⟨K', b1, b2⟩, _, _⟩ := hj'
  have hlen := (C67_tree _ _ _ hr).1
  have hlen' := (C67_tree _ _ _ hr').1
  have he : treeHash Hs.digest s.tree.get K 0 = treeHash Hs.digest s'.tree.get K' 0 :=
    a2.hash.trans (hth.trans b2.hash.symm)
  by_cases hk : K = K'
  · subst hk
    have h31 : K ≤ 31 := by
      have : 2 ^ (K + 1) < 2 ^ 32 := by omega
      have := (Nat.pow_lt_pow_iff_right (a := 2) (by omega)).1 this
      omega
    rcases treeHash_binds Hs.digest s.tree.get s'.tree.get (read_wf hr) (read_wf hr') K 0 (root_pos h31).2 a2.defined b2.defined
      he with hc | hc
    · refine .inl (ext (by omega) fun x => ?_)
      by_cases hx : x < s.tree.length
      · exact hc x (inSubtree_root.2 (by omega))
      · rw [get_out (by omega), get_out (by omega)]
    · exact .inr ⟨K, K, hc⟩
  · exact .inr ⟨K, K', treeHash_heights Hs.digest _ _ K K' hk a2.defined b2.defined he⟩

/-! ## C68 -/

/-- C68: the key sets of a tree are the keys of its leaves. -/
theorem C68_keys (t : RatchetTree) (hl : t.length < 2 ^ 32) :
    ∃ sigs encs, t.keys = .ok (sigs, encs) ∧
      (∀ k, k ∈ sigs ↔ ∃ i l, t.get (2 * i) = some (.Leaf l) ∧ l.payload.signature_key = k) ∧
      (∀ k, k ∈ encs ↔ ∃ i l, t.get (2 * i) = some (.Leaf l) ∧ l.payload.encryption_key = k) := by
  have key : ∀ (ms : List (Nat × LeafNode)) (s e : List Bytes),
      ms.foldlM (fun (s : List Bytes × List Bytes) m =>
        Res.ok (m.2.payload.signature_key :: s.1, m.2.payload.encryption_key :: s.2)) (s, e) =
      .ok ((ms.map (·.2.payload.signature_key)).reverse ++ s, (ms.map (·.2.payload.encryption_key)).reverse ++ e) := by
    intro ms
    induction ms with
    | nil => intro s e; rfl
    | cons m ms ih =>
      intro s e
      rw [List.foldlM_cons, Res.ok_bind, ih]
      simp
  have hmem : ∀ i l, (i, l) ∈ members t.get t.num_leaves ↔ t.get (2 * i) = some (.Leaf l) := by
    intro i l
    rw [mem_members, node_zero]
    refine ⟨And.right, fun h => ⟨?_, h⟩⟩
    have hlt := lt_of_get h
    have := (num_leaves_bounds (by omega) hl).2.2
    omega
  have hkeys : t.keys = _ := (forLeaves_members hl _ _).trans (key _ _ _)
  refine ⟨_, _, hkeys, ?_, ?_⟩
  · intro k
    simp only [List.append_nil, List.mem_reverse, List.mem_map, Prod.exists, hmem]
  · intro k
    simp only [List.append_nil, List.mem_reverse, List.mem_map, Prod.exists, hmem]

theorem byValue_iff (l : List ProposalOrRef) (ps : List Proposal) : byValue l = .ok ps ↔ l = ps.map .Proposal := by
  induction l generalizing ps with
  | nil =>
    constructor
    · intro h; cases h; rfl
    · intro h; cases ps with
      | nil => rfl
      | cons => cases h
  | cons a l ih =>
    cases a with
    | Reference r =>
      constructor
      · intro h; cases h
      · intro h; cases ps <;> cases h
    | Proposal p =>
      unfold byValue
      simp only [Res.bind_ok_iff, ih]
      constructor
      · rintro ⟨qs, rfl, h⟩; cases h; rfl
      · intro h
        cases ps with
        | nil => cases h
        | cons q qs =>
          simp only [List.map_cons, List.cons.injEq, ProposalOrRef.Proposal.injEq] at h
          obtain ⟨rfl, rfl⟩ := h
          exact ⟨qs, rfl, rfl⟩

theorem noPsk_iff (ps : List Proposal) : noPsk ps = true ↔ ∀ k, Proposal.PreSharedKey k ∉ ps := by
  induction ps with
  | nil => simp [noPsk]
  | cons p ps ih =>
    cases p with
    | PreSharedKey k => exact ⟨(nomatch ·), fun h => absurd (List.mem_cons_self ..) (h k)⟩
    | _ => simp [noPsk, ih]

theorem zip_replicate {α β : Type} (l : List α) (b : β) : l.zip (List.replicate l.length b) = l.map fun a => (a, b) := by
  induction l with
  | nil => rfl
  | cons a l ih => rw [List.length_cons, List.replicate_succ, List.zip_cons_cons, ih, List.map_cons]

/-- The checks of the path of the client are those of the RFC, if the members have different signature keys. -/
theorem checkPath_iff (P : CryptoProvider) (cs : CipherSuite) (ctx : GroupContext) (t : RatchetTree)
    (hl : t.length < 2 ^ 32) (hd : ∀ i j l m, t.get (2 * i) = some (.Leaf l) → t.get (2 * j) = some (.Leaf m) →
      l.payload.signature_key = m.payload.signature_key → i = j) (c : LeafIndex) (l : LeafNode)
    (hc : t.get (2 * c.toNat) = some (.Leaf l)) (p : UpdatePath) (u : Unit) :
    checkPath P cs ctx t c l p = .ok u ↔ PathChecked P cs ctx t c p := by
  obtain ⟨sigs, encs, h1, h2, h3⟩ := C68_keys t hl
  obtain ⟨cr, h4, h5⟩ := supported_creds_eq hl
  have hn : t.num_leaves = (t.length + 1) / 2 := by
    have hlt := lt_of_get hc
    have := (num_leaves_bounds (by omega) hl).2.2
    omega
  rw [hn] at h5
  have hsup : (· ∈ cr) = SupportedCred t.get ((t.length + 1) / 2) := by
    funext ct; exact propext (h5 ct)
  unfold checkPath
  cases hsrc : p.leaf_node.payload.leaf_node_source with
  | Commit hash =>
    dsimp only
    rw [h1, Res.ok_bind]
    dsimp only
    rw [h4, Res.ok_bind]
    simp only [Res.bind_ok_iff, assertOk_iff, assert_iff, C44_leaf, hsup, List.mem_filter, decide_eq_true_iff,
      List.all_eq_true, Bool.not_eq_true', List.contains_eq_mem, decide_eq_false_iff_not, h2, h3]
    constructor
    · rintro ⟨_, ⟨a1, a2, a3⟩, a4⟩
      refine ⟨⟨hash, hsrc⟩, a1, ?_, ?_⟩
      · intro i m hm he
        refine Classical.byContradiction fun hne => a2 ⟨⟨i, m, hm, he⟩, ?_⟩
        intro hk
        exact hne (hd i c.toNat m l hm hc (he.trans hk))
      · intro i m hm
        exact ⟨fun he => a3 ⟨i, m, hm, he⟩, fun n hn he => a4 n hn ⟨i, m, hm, he⟩⟩
    · rintro ⟨_, a1, a2, a3⟩
      refine ⟨(), ⟨a1, ?_, ?_⟩, ?_⟩
      · rintro ⟨⟨i, m, hm, he⟩, hk⟩
        have := a2 i m hm he
        subst this
        have : some (Node.Leaf m) = some (.Leaf l) := hm.symm.trans hc
        cases this
        exact hk he.symm
      · rintro ⟨i, m, hm, he⟩
        exact (a3 i m hm).1 he
      · rintro n hn ⟨i, m, hm, he⟩
        exact (a3 i m hm).2 n hn he
  | _ =>
    refine ⟨(nomatch ·), ?_⟩
    rintro ⟨⟨hash, hh⟩, _⟩
    rw [hsrc] at hh
    cases hh

/-- C68: the client accepts a message with a membership tag, as every message of a member from the wire has one, exactly if
it is an authentic, valid commit.  What is missing: the path is merged into the tree without the proposals, see
`C68_refuted`, and keys of inner nodes can be used again, see `C68_reused_refuted`. -/
theorem C68_exact_partial (P : CryptoProvider) (cs : CipherSuite) (h : Hpke) (hp : P.hpke cs = .ok h) (hs : Sizes h)
    (s : State) (hl : s.tree.length < 2 ^ 32)
    (hd : ∀ i j l m, s.tree.get (2 * i) = some (.Leaf l) → s.tree.get (2 * j) = some (.Leaf m) →
      l.payload.signature_key = m.payload.signature_key → i = j)
    (m : PublicMessage) (hm : m.membership_tag ≠ none) (nt t' : RatchetTree) :
    handleCommit P cs s m = .ok (nt, t') ↔ ∃ c ps path, CommitChecked P h cs s m c ps path ∧
      s.tree.apply ps (List.replicate ps.length c) = .ok nt ∧ (path = none → t' = s.tree) ∧
      ∀ p, path = some p → s.tree.merge_update_path P cs c.toNat p = (t', .ok ()) := by
  unfold handleCommit
  simp only [Res.bind_ok_iff, assert_iff, decide_eq_true_iff]
  constructor
  · rintro ⟨_, h1, h2⟩
    cases hsd : m.content.sender with
    | Member c =>
      rw [hsd] at h2
      simp only [Res.bind_ok_iff] at h2
      obtain ⟨l, h3, h4⟩ := h2
      cases l with
      | none => cases h4
      | some l =>
        rw [get_leaf_some _ hl] at h3
        simp only [Res.bind_ok_iff, assertOk_iff, derive_secret_iff hp hs] at h4
        obtain ⟨_, a1, key, a2, _, a3, h5⟩ := h4
        cases hct : m.content.content with
        | Commit cm =>
          rw [hct] at h5
          simp only [Res.bind_ok_iff, assertOk_iff, assert_iff, byValue_iff, noPsk_iff, C26_exact, zip_replicate] at h5
          obtain ⟨ps, b1, _, ⟨_, b2, _⟩, _, b3, nt', b4, _, b5, h6⟩ := h5
          obtain ⟨pp, path⟩ := cm
          dsimp only at b1 b5 h6
          subst b1
          have hneed : path = none → PathOptional ps := by
            intro hn
            subst hn
            by_cases hpo : PathOptional ps
            · exact hpo
            · rw [(C27_exact ps).2 hpo] at b5; cases b5
          have htag : ∃ tag, m.membership_tag = some tag ∧
              (authenticatedContentTBM m.content m.auth s.group_info.group_context).fits ∧
              MacOf P cs key (authenticatedContentTBM m.content m.auth s.group_info.group_context).bytes tag := by
            rcases (C41_exact ..).1 a3 ⟨c, hsd⟩ with hno | ht
            · exact absurd hno hm
            · exact ht
          obtain ⟨tag, t1, t2, t3⟩ := htag
          refine ⟨c, ps, path, ?_, ?_⟩
          · refine ⟨h1, hsd, ⟨l, h3, (C30_verify ..).1 a1⟩, ⟨key, tag, a2, t1, t2, t3⟩, hct, b2, b3, hneed, ?_⟩
            intro p hpp
            subst hpp
            simp only [Res.bind_ok_iff, checkPath_iff P cs _ s.tree hl hd c l h3] at h6
            exact h6.choose_spec.1
          · cases path with
            | none =>
              cases h6
              exact ⟨b4, fun _ => rfl, nofun⟩
            | some p =>
              simp only [Res.bind_ok_iff] at h6
              obtain ⟨_, _, h7⟩ := h6
              cases hmg : s.tree.merge_update_path P cs c.toNat p with
              | mk t2 r =>
                rw [hmg] at h7
                cases r with
                | ok u =>
                  cases h7
                  refine ⟨b4, nofun, ?_⟩
                  intro q hq
                  cases hq
                  exact hmg
                | err e => cases h7
                | fault f => cases h7
        | _ => rw [hct] at h5; cases h5
    | _ => rw [hsd] at h2; cases h2
  · rintro ⟨c, ps, path, ⟨e1, e2, ⟨l, e3, e4⟩, ⟨key, tag, e5, e6, e7, e8⟩, e9, e10, e11, e12, e13⟩, f1, f2, f3⟩
    refine ⟨(), e1, ?_⟩
    rw [e2]
    dsimp only
    have e3' : s.tree.get (2 * c.toNat) = some (.Leaf l) := e3
    rw [(get_leaf_some _ hl _ _).2 e3', Res.ok_bind]
    simp only [Res.bind_ok_iff, assertOk_iff, derive_secret_iff hp hs]
    refine ⟨(), (C30_verify ..).2 e4, key, e5, (), (C41_exact ..).2 fun _ => .inr ⟨tag, e6, e7, e8⟩, ?_⟩
    rw [e9]
    simp only [Res.bind_ok_iff, assertOk_iff, assert_iff, byValue_iff, noPsk_iff, C26_exact, zip_replicate]
    refine ⟨ps, rfl, (), ⟨by simp, e10, ?_⟩, (), e11, nt, f1, (), ?_, ?_⟩
    · intro id hid
      simp only [List.filterMap_map, List.mem_filterMap, Function.comp] at hid
      obtain ⟨q, hq, hid⟩ := hid
      cases q with
      | PreSharedKey k => exact absurd hq (e11 k)
      | _ => cases hid
    · cases path with
      | some p => simp
      | none =>
        have : proposal_list_needs_path ps = false := by
          rw [← Bool.not_eq_true, C27_exact]
          exact fun hc => hc (e12 rfl)
        simp [this]
    · cases path with
      | none => rw [f2 rfl]; rfl
      | some p =>
        simp only [Res.bind_ok_iff]
        refine ⟨(), (checkPath_iff P cs _ s.tree hl hd c l e3' p ()).2 (e13 p rfl), ?_⟩
        rw [f3 p rfl]
        rfl

/-- After joining, the conditions of `C68_exact_partial` on the tree are met. -/
theorem C68_joined (P : CryptoProvider) (cs : CipherSuite) (hcs : cs.WF) (h : Hpke) (hp : P.hpke cs = .ok h)
    (hs : Sizes h) (Hs : Hash) (hP : P.hash cs = .ok Hs) (w : Welcome) (hw : w.cipher_suite = cs) (kp : KeyPackage)
    (hkw : kp.WF) (hkc : kp.payload.cipher_suite = cs) (priv : Bytes) (external : List (Bytes × Bytes))
    (given : Option Bytes) (s : State) (hn : s.group_secrets.psk_ids.length < 2 ^ 16)
    (hj : join P cs w kp priv external given = .ok s) :
    s.tree.length < 2 ^ 32 ∧ ∀ i j l m, s.tree.get (2 * i) = some (.Leaf l) → s.tree.get (2 * j) = some (.Leaf m) →
      l.payload.signature_key = m.payload.signature_key → i = j := by
  rw [C66_exact P cs hcs h hp hs Hs hP w hw kp hkw hkc priv external given s hn] at hj
  obtain ⟨_, _, _, ⟨r, rest, _, hr⟩, _, _, _, ⟨K, _, a2⟩, _, _⟩ := hj
  have hlen := (C67_tree _ _ _ hr).1
  refine ⟨by omega, fun i j l m h1 h2 h3 => ?_⟩
  exact a2.signature_keys i j l m (by rw [node_zero]; exact h1) (by rw [node_zero]; exact h2) h3

/-- C68: a member commits to proposals that do not change the tree, with a path: the client accepts it, and arrives at the
tree with the path.  Missing: proposals that change the tree, see `C68_refuted`. -/
theorem C68_honest_partial (P : CryptoProvider) (cs : CipherSuite) (h : Hpke) (hp : P.hpke cs = .ok h) (hs : Sizes h)
    (s : State) (hl : s.tree.length < 2 ^ 32)
    (hd : ∀ i j l m, s.tree.get (2 * i) = some (.Leaf l) → s.tree.get (2 * j) = some (.Leaf m) →
      l.payload.signature_key = m.payload.signature_key → i = j)
    (c : LeafIndex) (l : LeafNode) (hc : s.tree.get (2 * c.toNat) = some (.Leaf l)) (priv : Bytes)
    (hk : SignaturePair P cs priv l.payload.signature_key) (mkey : Bytes)
    (hmk : Derives h s.epoch_secret (text "membership") mkey) (ps : List Proposal)
    (hps : ProposalsValid (ps.map fun p => (p, c)) c)
    (hkind : ∀ p ∈ ps, (∃ e, p = .GroupContextExtensions e) ∨ ∃ r, p = .ReInit r) (path : UpdatePath)
    (hpath : PathChecked P cs s.group_info.group_context s.tree c path) (t' : RatchetTree)
    (hmerge : s.tree.merge_update_path P cs c.toNat path = (t', .ok ())) (gid ad : Bytes) (m0 m : PublicMessage)
    (hm0 : PublicMessage.new P cs priv ⟨gid, s.group_info.group_context.epoch, .Member c, ad,
      .Commit ⟨ps.map .Proposal, some path⟩⟩ s.group_info.group_context = .ok m0)
    (hm : m0.sign_membership_tag P cs mkey s.group_info.group_context = .ok m) :
    handleCommit P cs s m = .ok (s.tree, t') := by
  obtain ⟨h1, h2, h3, h4⟩ := C40_verifies P cs priv _ mkey _ _ hk m0 m hm0 hm
  obtain ⟨tag, htag⟩ := Option.isSome_iff_exists.1 (h4.2 ⟨c, rfl⟩)
  have hsd : m.content.sender = .Member c := by rw [h1]
  refine (C68_exact_partial P cs h hp hs s hl hd m (by rw [htag]; simp) s.tree t').2 ⟨c, ps, some path, ⟨by rw [h1], hsd,
    ⟨l, hc, (C30_verify ..).1 h2⟩, ?_, by rw [h1], hps, ?_, nofun, ?_⟩, ?_, nofun, ?_⟩
  · rcases (C41_exact ..).1 h3 ⟨c, hsd⟩ with hno | ⟨tag', t1, t2, t3⟩
    · rw [htag] at hno; cases hno
    · exact ⟨mkey, tag', hmk, t1, t2, t3⟩
  · intro k hmem
    rcases hkind _ hmem with ⟨_, hc⟩ | ⟨_, hc⟩ <;> cases hc
  · intro p hpp; cases hpp; exact hpath
  · rw [C28_apply _ _ _ (by simp)]
    have e1 : ∀ ss, updatesOf (ps.zip ss) = [] ∧ removesOf ps = [] ∧ addsOf ps = [] := by
      intro ss
      clear hps hm0 h1 h4
      induction ps generalizing ss with
      | nil => exact ⟨rfl, rfl, rfl⟩
      | cons p ps ih =>
        have ih := fun ss => ih (fun q hq => hkind q (List.mem_cons_of_mem _ hq)) ss
        have hp := hkind p (List.mem_cons_self ..)
        cases ss with
        | nil => rcases hp with ⟨e, rfl⟩ | ⟨e, rfl⟩ <;> exact ⟨rfl, (ih []).2⟩
        | cons a ss => rcases hp with ⟨e, rfl⟩ | ⟨e, rfl⟩ <;> exact ih ss
    obtain ⟨a1, a2, a3⟩ := e1 (List.replicate ps.length c)
    rw [a1, a2, a3]
    rfl
  · intro p hpp; cases hpp; exact hmerge

section examples
private abbrev suite1 : CipherSuite := .MLS_128_DHKEMX25519_AES128GCM_SHA256_Ed25519

theorem toy_aeadPair : AeadPair toyHpke := by
  intro k n p a c h
  cases h
  show (if (k ++ n ++ a).isPrefixOf (k ++ n ++ a ++ p) then _ else _) = _
  rw [if_pos (List.isPrefixOf_iff_prefix.2 (List.prefix_append _ _)), List.drop_left]

theorem toy_hpkePair (cs : CipherSuite) (k : Bytes) : HpkePair toyProvider cs k k := by
  intro r i p kem c h
  cases h
  show (if (k ++ i).isPrefixOf (k ++ i ++ p) then _ else _) = _
  rw [if_pos (List.isPrefixOf_iff_prefix.2 (List.prefix_append _ _)), List.drop_left]

/-- The leaf of the new member. -/
def joinLeaf : LeafNode := signedLeaf 1 (.KeyPackage ⟨0, 100⟩)
def joinPackage : KeyPackage := ⟨⟨.MLS10, suite1, [3], joinLeaf, []⟩, []⟩
/-- The tree of the two members. -/
def joinTree : RatchetTree := [some (.Leaf (signedLeaf 0 .Update)), none, some (.Leaf joinLeaf)]
def joinRaw : Bytes :=
  match RatchetTree.serialize joinTree with
  | .ok b => b
  | _ => []
def joinSecrets : GroupSecrets := ⟨[1], none, [⟨.External [1], [2]⟩]⟩
/-- The member at leaf 0 signs; there is another extension in front. -/
def joinInfo : GroupInfo :=
  let x : GroupInfo :=
    { group_context := { toyContext with tree_hash := treeHash id joinTree.get 1 0, confirmed_transcript_hash := [6] }
      extensions := [⟨.ApplicationId, [1]⟩, ⟨.RatchetTree, joinRaw⟩], confirmation_tag := List.replicate 4 1 ++ [6]
      signer := 0, signature := [] }
  { x with signature := [0, 0] ++ (labelled (text "GroupInfoTBS") (groupInfoTBS x).bytes).bytes }
def joinSealed : Bytes := List.replicate 16 1 ++ List.replicate 12 1 ++ (groupInfo joinInfo).bytes
def joinRef : Bytes := (refHashInput (text "MLS 1.0 KeyPackage Reference") (keyPackage joinPackage).bytes).bytes
def joinEntry : EncryptedGroupSecrets :=
  ⟨joinRef, ⟨[6], [3] ++ (labelled (text "Welcome") joinSealed).bytes ++ (groupSecrets joinSecrets).bytes⟩⟩
def joinWelcome : Welcome := ⟨suite1, [⟨[4], ⟨[], []⟩⟩, joinEntry], joinSealed⟩

set_option maxRecDepth 100000 in
/-- The hypotheses of `C66_welcome` are met: a member lets the owner of `joinPackage` join, with a PSK. -/
theorem toy_join : ∃ u, join toyProvider suite1 joinWelcome joinPackage [3] [([0], [9]), ([1], [5])] none =
    .ok ⟨joinSecrets, List.replicate 4 0 ++ List.replicate 4 0, joinInfo, u, 1, List.replicate 4 1⟩ ∧ SameTree joinTree u ∧
    ∀ x, joinTree.get x = u.get x := by
  refine C66_welcome toyProvider suite1 trivial toyHpke rfl toy_sizes toy_aeadPair toyHash rfl (signedLeaf 0 .Update)
    [.add joinLeaf] joinTree (.cons ⟨.inr (by decide), rfl⟩ (.inr (by decide)) (.nil _)) (by decide) ?_ joinRaw
    (by decide +kernel) joinInfo ?_ (by decide +kernel) rfl ⟨[⟨.ApplicationId, [1]⟩], [], rfl, by decide⟩ (by decide +kernel)
    (signedLeaf 0 .Update) (by decide +kernel) ?_ joinPackage ?_ rfl 1 rfl [3] (toy_hpkePair _ _) [([0], [9]), ([1], [5])]
    joinSecrets (by decide +kernel) [[5]] ?_ (by decide) _ ?_ (List.replicate 4 1) (List.replicate 4 1) ?_ ?_
    (by decide +kernel) joinWelcome rfl (List.replicate 16 1) (List.replicate 12 1) ?_ ?_ joinEntry ?_ ?_ [6] ?_
  · intro n hn
    simp only [joinTree, List.mem_cons, Option.some.injEq, List.not_mem_nil, or_false, reduceCtorEq, false_or] at hn
    rcases hn with rfl | rfl
    · exact toyLeaf_wf 0
    · exact toyLeaf_wf 1
  · refine ⟨⟨rfl, trivial, nofun⟩, ?_⟩
    intro e he
    simp only [joinInfo, List.mem_cons, List.not_mem_nil, or_false] at he
    rcases he with rfl | rfl <;> trivial
  · exact (C50_verify ..).1 (by decide +kernel)
  · exact ⟨trivial, trivial, toyLeaf_wf 1, nofun⟩
  · exact .cons (before := [([0], [9])]) (after := []) rfl (by decide) .nil
  · exact ((C33_fold_partial toyProvider suite1 toyHpke rfl toy_sizes _ [[5]] (by decide) _).1 (by decide +kernel)).2
  · exact (C32_epoch toyProvider joinInfo.group_context toyHpke rfl toy_sizes _ _ _).1 (by decide +kernel)
  · exact ⟨by decide, by decide, rfl⟩
  · exact ⟨List.replicate 4 1, (C32_welcome toyProvider suite1 toyHpke rfl toy_sizes _ _ _).1 (by decide +kernel),
      ⟨by decide, by decide, rfl⟩, ⟨by decide, by decide, rfl⟩⟩
  · rfl
  · exact ⟨[⟨[4], ⟨[], []⟩⟩], [], rfl, rfl, by decide +kernel⟩
  · exact ⟨toyHash, rfl, by decide +kernel, by decide +kernel, rfl⟩
  · decide +kernel


/-- The client after `toy_join`. -/
def joinState : State :=
  ⟨joinSecrets, List.replicate 4 0 ++ List.replicate 4 0, joinInfo, joinTree, 1, List.replicate 4 1⟩

theorem joinState_join : join toyProvider suite1 joinWelcome joinPackage [3] [([0], [9]), ([1], [5])] none =
    .ok joinState := by
  obtain ⟨u, h1, h2, _⟩ := toy_join
  rcases h2 with rfl | ⟨K, _, h2⟩
  · exact h1
  · have := congrArg List.getLast? h2
    simp [joinTree] at this

theorem joinState_tree : joinState.tree.length < 2 ^ 32 ∧ ∀ i j l m, joinState.tree.get (2 * i) = some (.Leaf l) →
    joinState.tree.get (2 * j) = some (.Leaf m) → l.payload.signature_key = m.payload.signature_key → i = j :=
  C68_joined toyProvider suite1 trivial toyHpke rfl toy_sizes toyHash rfl joinWelcome rfl joinPackage
    ⟨trivial, trivial, toyLeaf_wf 1, nofun⟩ rfl [3] [([0], [9]), ([1], [5])] none joinState (by decide) joinState_join

/-- A leaf of member `k` with a new encryption key. -/
def newLeaf (k : UInt8) (hash : Bytes) : LeafNode :=
  let payload := { (toyLeaf k).payload with encryption_key := [50], leaf_node_source := .Commit hash }
  { payload, signature := [k, k] ++ (labelled (text "LeafNodeTBS")
      (leafNodeTBS payload [7] (UInt32.ofNat k.toNat)).bytes).bytes }

/-- A commit message of member `k`. -/
def commitOf (k : UInt8) (ps : List Proposal) (path : UpdatePath) (ctx : GroupContext) : PublicMessage :=
  let c : FramedContent := ⟨[7], 3, .Member (UInt32.ofNat k.toNat), [], .Commit ⟨ps.map .Proposal, some path⟩⟩
  let auth : FramedContentAuthData :=
    ⟨[k, k] ++ (labelled (text "FramedContentTBS") (framedContentTBS .MLS10 .PublicMessage c ctx).bytes).bytes, []⟩
  ⟨c, auth, some (List.replicate 4 1 ++ (authenticatedContentTBM c auth ctx).bytes)⟩

/-- A path in the tree of two. -/
def rootPath : UpdatePath := ⟨newLeaf 0 (parentHash id joinTree.get 0 1 ⟨[41], [], []⟩), [⟨[41], []⟩]⟩

set_option maxRecDepth 100000 in
/-- The conditions of `C68_exact_partial` can be met: a commit of the first member with a path. -/
example : handleCommit toyProvider suite1 joinState (commitOf 0 [.GroupContextExtensions ⟨[]⟩] rootPath
    joinInfo.group_context) = .ok (joinTree, [some (.Leaf rootPath.leaf_node), some (.Parent ⟨[41], [], []⟩),
      some (.Leaf joinLeaf)]) := by decide +kernel

set_option maxRecDepth 100000 in
/-- The conditions of `C68_honest_partial`: the same commit. -/
example : handleCommit toyProvider suite1 joinState (commitOf 0 [.GroupContextExtensions ⟨[]⟩] rootPath
    joinInfo.group_context) = .ok (joinTree, [some (.Leaf rootPath.leaf_node), some (.Parent ⟨[41], [], []⟩),
      some (.Leaf joinLeaf)]) := by
  refine C68_honest_partial toyProvider suite1 toyHpke rfl toy_sizes joinState joinState_tree.1 joinState_tree.2 0
    (signedLeaf 0 .Update) rfl [0, 0] ?_ (List.replicate 4 1) ⟨by decide, by decide, rfl⟩ [.GroupContextExtensions ⟨[]⟩] ?_
    (by simp) rootPath ?_ _ (by decide +kernel) [7] [] { commitOf 0 [.GroupContextExtensions ⟨[]⟩] rootPath
      joinInfo.group_context with membership_tag := none } _ (by decide +kernel) (by decide +kernel)
  · intro s m sg h1 h2
    cases h1
    cases h2
    exact if_pos rfl
  · exact ((C26_exact [.GroupContextExtensions ⟨[]⟩] [0] 0).1 (by decide +kernel)).2.1
  · exact (checkPath_iff toyProvider suite1 joinInfo.group_context joinTree joinState_tree.1 joinState_tree.2 0 _ rfl
      rootPath ()).1 (by decide +kernel)

/-- The tree with a third member, and a path in it. -/
def thirdPackage : KeyPackage := ⟨⟨.MLS10, suite1, [4], signedLeaf 2 (.KeyPackage ⟨0, 100⟩), []⟩, []⟩
def thirdTree : RatchetTree := joinTree ++ [none, some (.Leaf thirdPackage.payload.leaf_node), none, none]
def thirdLeft : ParentNode := ⟨[42], parentHash id thirdTree.get 0 2 ⟨[43], [], []⟩, []⟩
def thirdPath : UpdatePath := ⟨newLeaf 0 (parentHash id thirdTree.get 0 1 thirdLeft), [⟨[42], []⟩, ⟨[43], []⟩]⟩

set_option maxRecDepth 100000 in
/-- C68 is false for commits that change the tree: a client that has just joined does not accept an authentic, valid commit
by which a third member is added, as the path, which belongs to the tree with the third member and can be merged into it,
is merged into the tree without. -/
theorem C68_refuted : ∃ (s : State) (m : PublicMessage) (c : LeafIndex) (ps : List Proposal) (p : UpdatePath)
    (nt t' : RatchetTree) (e : Error),
    join toyProvider suite1 joinWelcome joinPackage [3] [([0], [9]), ([1], [5])] none = .ok s ∧
    CommitChecked toyProvider toyHpke suite1 s m c ps (some p) ∧
    s.tree.apply ps (List.replicate ps.length c) = .ok nt ∧
    nt.merge_update_path toyProvider suite1 c.toNat p = (t', .ok ()) ∧
    verify_parent_hashes toyProvider suite1 t' = .ok true ∧ handleCommit toyProvider suite1 s m = .err e := by
  refine ⟨joinState, commitOf 0 [.Add ⟨thirdPackage⟩] thirdPath joinInfo.group_context, 0, [.Add ⟨thirdPackage⟩], thirdPath,
    thirdTree, _, .UpdatePathAndFilteredDirectPathHasDifferentNode, joinState_join, ?_, by decide +kernel, rfl,
    by decide +kernel, by decide +kernel⟩
  refine ⟨rfl, rfl, ⟨signedLeaf 0 .Update, rfl, ?_⟩, ⟨List.replicate 4 1, _, ⟨by decide, by decide, rfl⟩, rfl, by decide +kernel,
    toyHash, rfl, rfl⟩, rfl, ?_, by simp, nofun, ?_⟩
  · exact (C30_verify toyProvider suite1
      (commitOf 0 [.Add ⟨thirdPackage⟩] thirdPath joinInfo.group_context).authenticated_content [0, 0]
      joinInfo.group_context).1 (by decide +kernel)
  · have := ((C26_exact [.Add ⟨thirdPackage⟩] [0] 0).1 (by decide +kernel)).2.1
    exact this
  · intro p hp
    cases hp
    exact (checkPath_iff toyProvider suite1 joinInfo.group_context joinTree joinState_tree.1 joinState_tree.2 0 _ rfl
      thirdPath ()).1 (by decide +kernel)

/-- The client in a group with inner nodes. -/
def goodState : State := { joinState with
  tree := goodTree, group_info := { joinInfo with group_context := contextOf goodTree } }

/-- A path of the third member that uses the key of an inner node again. -/
def reusedPath : UpdatePath := ⟨newLeaf 2 (parentHash id goodTree.get 2 2 ⟨[8], [], []⟩), [⟨[8], []⟩]⟩

def reusedTree : RatchetTree :=
  (goodTree.take 3) ++ [some (.Parent ⟨[8], [], []⟩), some (.Leaf reusedPath.leaf_node), none, none]

set_option maxRecDepth 100000 in
/-- C68: keys of inner nodes are not looked at.  In a valid tree, the client accepts a path with the key of another inner
node, and arrives at a tree that nobody who joins accepts, whatever the group context says. -/
theorem C68_reused_refuted : ∃ (s : State) (m : PublicMessage) (nt t' : RatchetTree),
    s.tree.verify_integrity toyProvider s.group_info.group_context 0 = .ok () ∧
    handleCommit toyProvider suite1 s m = .ok (nt, t') ∧ nt = s.tree ∧
    ∀ ctx now, t'.verify_integrity toyProvider ctx now ≠ .ok () := by
  refine ⟨goodState, commitOf 2 [] reusedPath (contextOf goodTree), goodTree, reusedTree, by decide +kernel,
    by decide +kernel, rfl, ?_⟩
  intro ctx now hv
  have := (C19_exact toyProvider reusedTree ctx now toyHash rfl (by decide) (by decide) 2 goodTree_height
    (fun x n hx => by have := lt_of_get hx; simpa [reusedTree, goodTree, treeWith] using this)).1 hv
  have := this.encryption_keys 1 3 [8] (.inr ⟨_, rfl, rfl⟩) (.inr ⟨_, rfl, rfl⟩)
  omega

end examples

end Rmls
