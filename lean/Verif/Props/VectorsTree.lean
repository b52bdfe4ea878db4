import Verif.Props.VectorsKeys
import Verif.Props.Integrity
import Verif.Props.Members
import Verif.Props.MergeExact
/-
Property C93: the checks of the conformance tests, for the tests of the ratchet tree.
-/
namespace Rmls
open Spec Spec.Enc Vectors PassiveClient RatchetTree

/-! ### Validation -/

private theorem parentHashes_iff {P : CryptoProvider} {cs : CipherSuite} {Hs : Hash} (hP : P.hash cs = .ok Hs)
    {t : RatchetTree} (hl : t.length < 2 ^ 32) (ht : t.SmallUnmerged) :
    verify_parent_hashes P cs t = .ok true ↔
      ∀ k i p, t.get (node (k + 1) i) = some (.Parent p) → ParentHashValid Hs.digest t.get k i p := by
  have hpos : ∀ k i n, t.get (node k i) = some n →
      k < 32 ∧ (i + 1) * 2 ^ (k + 1) ≤ 2 ^ 32 ∧ node k i < t.length ∧ node k i < 4294967296 := by
    intro k i n h
    have h1 := lt_of_get h
    obtain ⟨a, b⟩ := pos_bound (k := k) (i := i) (by omega)
    exact ⟨a, b, h1, by omega⟩
  unfold verify_parent_hashes
  rw [verifyParentHashesLoop_iff]
  constructor
  · intro h k i p hg
    obtain ⟨a, b, c, d⟩ := hpos _ _ _ hg
    have := h (node (k + 1) i) c
    rw [Nat.zero_add, ← get_lt c, hg] at this
    exact (verifyParentHash_iff hP ht k i a b d p).1 this
  · intro h x hx
    rw [Nat.zero_add, ← get_lt hx]
    obtain ⟨k, i, rfl⟩ := node_surj x
    obtain ⟨a, b⟩ := pos_bound (k := k) (i := i) (by omega)
    by_cases hg : ∃ j p, k = j + 1 ∧ t.get (node k i) = some (.Parent p)
    · obtain ⟨j, p, rfl, hg⟩ := hg
      rw [hg]
      exact (verifyParentHash_iff hP ht j i a b (by omega) p).2 (h j i p hg)
    · exact verifyParentHash_other k i a (by omega) _ fun j p e hc => hg ⟨j, p, e, hc⟩

private theorem treeHash_iff {P : CryptoProvider} {cs : CipherSuite} {Hs : Hash} (hP : P.hash cs = .ok Hs)
    (t : RatchetTree) (k i : Nat) (hx : node k i < 2 ^ 32 - 1) (out : Bytes) :
    compute_tree_hash P cs t (node k i) [] = .ok out ↔
      HashDefined Hs.digest t.get k i ∧ out = treeHash Hs.digest t.get k i := by
  rcases C20_rfc P cs Hs hP t k i hx with ⟨hd, he⟩ | ⟨hd, e, he⟩
  · rw [he]
    exact ⟨fun h => by cases h; exact ⟨hd, rfl⟩, fun h => by rw [h.2]⟩
  · rw [he]
    exact ⟨(nomatch ·), fun h => absurd h.1 hd⟩

private theorem leafSigned_iff {P : CryptoProvider} {cs : CipherSuite} (gid : Bytes) {k i : Nat}
    (hx : node k i < 2 ^ 32) (n : Option Node) :
    leafSigned P cs gid (node k i) n = .ok () ↔
      ∀ l, n = some (.Leaf l) → k = 0 ∧ LeafSigned P cs l gid (UInt32.ofNat i) := by
  unfold leafSigned
  split
  · next l =>
    have hc : cast32 (node k i) = node k i := Nat.mod_eq_of_lt hx
    rw [hc]
    cases k with
    | zero =>
      have : NodeIndex.leaf_index (node 0 i) = some i := by
        rw [node_zero]
        unfold NodeIndex.leaf_index NodeIndex.is_leaf
        simp [Nat.shiftRight_eq_div_pow]
      rw [this]
      simp only [Res.bind_ok_iff, assert_iff]
      constructor
      · rintro ⟨good, h1, rfl⟩ l' hl
        cases hl
        exact ⟨trivial, (LeafNode.verify_signature_iff ..).1 h1⟩
      · intro h
        exact ⟨true, (LeafNode.verify_signature_iff ..).2 (h l rfl).2, rfl⟩
    | succ k =>
      have : NodeIndex.leaf_index (node (k + 1) i) = none := by
        have hodd : node (k + 1) i % 2 = 1 := by rw [node_succ]; omega
        unfold NodeIndex.leaf_index NodeIndex.is_leaf
        simp [hodd]
      rw [this]
      exact ⟨(nomatch ·), fun h => absurd (h l rfl).1 (by omega)⟩
  · next hn =>
    exact ⟨fun _ l hl => absurd hl (hn l), fun _ => rfl⟩

/-- C93, what is looked at: a tree validation vector passes exactly if the resolutions and tree hashes that it has are
those of the nodes, all parent hashes are valid, and all leaves are at leaf positions and signed.  Missing: there may be
fewer resolutions and tree hashes than nodes, and the signatures of leaves from key packages do not depend on the group. -/
theorem C93_tree_validation_partial (P : CryptoProvider) (cs : CipherSuite) (Hs : Hash) (hP : P.hash cs = .ok Hs)
    (tc : TreeValidation) (t : RatchetTree) (hr : deserialize_exact RatchetTree.deserialize tc.tree = .ok t)
    (hl : t.length < 2 ^ 32)
    (hu : ∀ x p, t.get x = some (.Parent p) → ∀ u ∈ p.unmerged_leaves, u.toNat < 2 ^ 31)
    (h1 : tc.resolutions.length < 2 ^ 32) (h2 : tc.tree_hashes.length < 2 ^ 32) :
    tree_validation_test P cs tc = .ok () ↔ TreeValidationRight P cs Hs.digest t.get tc := by
  have cast : ∀ {n x : Nat}, x < n → n < 2 ^ 32 → cast32 x = x := fun h h' => Nat.mod_eq_of_lt (by omega)
  have e1 : forEnum (fun i want => do
      let res ← t.resolve (cast32 i)
      assert (res = want)) 0 tc.resolutions = .ok () ↔
      ∀ k i xs, tc.resolutions[node k i]? = some xs → xs = resolution t.get k i := by
    rw [forEnum_ok]
    have hb : ∀ k i xs, tc.resolutions[node k i]? = some xs → ((do
        let res ← t.resolve (cast32 (node k i))
        assert (res = xs)) = .ok () ↔ xs = resolution t.get k i) := by
      intro k i xs h
      have := (List.getElem?_eq_some_iff.1 h).1
      rw [cast this h1, C18_resolve_small t k i (by omega) hu, Res.ok_bind, assert_iff, decide_eq_true_iff]
      exact eq_comm
    constructor
    · intro h k i xs hx
      exact (hb k i xs hx).1 (h _ xs hx)
    · intro h x xs hx
      obtain ⟨k, i, rfl⟩ := node_surj x
      exact (hb k i xs hx).2 (h k i xs hx)
  have e2 : forEnum (fun i want => do
      let h ← t.compute_tree_hash P cs (cast32 i) []
      assert (h = want)) 0 tc.tree_hashes = .ok () ↔
      ∀ k i h, tc.tree_hashes[node k i]? = some h →
        HashDefined Hs.digest t.get k i ∧ h = treeHash Hs.digest t.get k i := by
    rw [forEnum_ok]
    have hb : ∀ k i want, tc.tree_hashes[node k i]? = some want → ((do
        let h ← t.compute_tree_hash P cs (cast32 (node k i)) []
        assert (h = want)) = .ok () ↔ HashDefined Hs.digest t.get k i ∧ want = treeHash Hs.digest t.get k i) := by
      intro k i want h
      have := (List.getElem?_eq_some_iff.1 h).1
      rw [cast this h2, Res.bind_ok_iff]
      simp only [treeHash_iff hP t k i (by omega), assert_iff, decide_eq_true_iff]
      exact ⟨by rintro ⟨_, h3, rfl⟩; exact h3, fun h3 => ⟨_, h3, rfl⟩⟩
    constructor
    · intro h k i xs hx
      exact (hb k i xs hx).1 (h _ xs hx)
    · intro h x xs hx
      obtain ⟨k, i, rfl⟩ := node_surj x
      exact (hb k i xs hx).2 (h k i xs hx)
  have e3 : forEnum (leafSigned P cs tc.group_id) 0 t = .ok () ↔
      (∀ k i l, t.get (node (k + 1) i) ≠ some (.Leaf l)) ∧
      ∀ i l, t.get (node 0 i) = some (.Leaf l) → LeafSigned P cs l tc.group_id (UInt32.ofNat i) := by
    rw [forEnum_ok]
    have hg : ∀ {x : Nat} {n : Node}, t.get x = some n → t[x]? = some (some n) ∧ x < 2 ^ 32 := by
      intro x n h
      have h3 := lt_of_get h
      unfold RatchetTree.get at h
      rw [List.getElem?_eq_getElem h3] at h ⊢
      exact ⟨congrArg some h, by omega⟩
    constructor
    · intro h
      refine ⟨fun k i l hx => ?_, fun i l hx => ?_⟩
      · obtain ⟨h3, h4⟩ := hg hx
        exact absurd ((leafSigned_iff tc.group_id h4 _).1 (h _ _ h3) l rfl).1 (by omega)
      · obtain ⟨h3, h4⟩ := hg hx
        exact ((leafSigned_iff tc.group_id h4 _).1 (h _ _ h3) l rfl).2
    · rintro ⟨h3, h4⟩ x n hx
      obtain ⟨k, i, rfl⟩ := node_surj x
      have hlt := (List.getElem?_eq_some_iff.1 hx).1
      refine (leafSigned_iff tc.group_id (by omega) n).2 fun l hn => ?_
      have hget : t.get (node k i) = some (.Leaf l) := by
        unfold RatchetTree.get
        rw [hx, hn]
        rfl
      cases k with
      | zero => exact ⟨rfl, h4 i l hget⟩
      | succ k => exact absurd hget (h3 k i l)
  unfold tree_validation_test
  rw [hr, Res.ok_bind]
  simp only [Res.bind_ok_iff]
  constructor
  · rintro ⟨_, a1, _, a2, good, a3, _, a4, a5⟩
    rw [assert_iff] at a4
    subst a4
    obtain ⟨b1, b2⟩ := e3.1 a5
    exact ⟨e1.1 a1, e2.1 a2, (parentHashes_iff hP hl hu).1 a3, b1, b2⟩
  · rintro ⟨a1, a2, a3, b1, b2⟩
    exact ⟨(), e1.2 a1, (), e2.2 a2, true, (parentHashes_iff hP hl hu).2 a3, (), rfl, e3.2 ⟨b1, b2⟩⟩

/-! ### TreeKEM -/

private theorem rootHash_iff {P : CryptoProvider} {cs : CipherSuite} {Hs : Hash} (hP : P.hash cs = .ok Hs)
    {t : RatchetTree} {K : Nat} (h0 : 0 < t.length) (hl : t.length < 2 ^ 32) (hK : IsHeight ((t.length + 1) / 2) K)
    (out : Bytes) : t.compute_root_tree_hash P cs = .ok out ↔
      HashDefined Hs.digest t.get K 0 ∧ out = treeHash Hs.digest t.get K 0 := by
  obtain ⟨h1, h2⟩ := root_pos (root_height h0 hl hK).2
  have h3 := node_top K
  have h4 := Nat.pow_le_pow_right (show 0 < 2 by omega) (show K ≤ 31 by omega)
  rw [C20_root P cs t K h0 hl hK, treeHash_iff hP t K 0 (by omega)]

private theorem path_keys {up : UpdatePath} (h : (updatePath up).fits) :
    ∀ n ∈ up.nodes, n.encryption_key.length < 2 ^ 30 := by
  intro n hn
  have key : ∀ xs : List UpdatePathNode, (xs.foldr (fun x e => Enc.seq (updatePathNode x) e) Enc.empty).fits → n ∈ xs →
      (updatePathNode n).fits := by
    intro xs
    induction xs with
    | nil => intro _ hn; cases hn
    | cons x xs ih =>
      intro h hn
      rcases List.mem_cons.1 hn with rfl | hn
      · exact h.1
      · exact ih h.2 hn
  exact (key _ h.2.1 hn).1.2

private theorem sib_in {K j k : Nat} (hj : j < 2 ^ K) (hk : k < K) : sib j k / 2 ^ (K - k) = 0 := by
  have h2 : sib j k / 2 = j / 2 ^ (k + 1) := by
    unfold sib
    rcases siblingPos_cases (j / 2 ^ k) with ⟨_, h⟩ | ⟨_, h⟩ <;> rw [anc_div] at h <;> rw [h] <;> omega
  rw [show K - k = (K - k - 1) + 1 by omega, Nat.pow_succ', ← Nat.div_div_eq_div_mul, h2, Nat.div_div_eq_div_mul,
    ← Nat.pow_add, show k + 1 + (K - k - 1) = K by omega]
  exact Nat.div_eq_of_lt hj

/-- C93, what is looked at: a TreeKEM vector passes exactly if each of its update paths, merged at its sender, gives a tree
in which path, copath and parent hashes are those of section 7.5 and 7.9, and with the tree hash given.  Missing: nothing
is decrypted, so path secrets, commit secrets and private keys are not looked at. -/
theorem C93_treekem_partial (P : CryptoProvider) (cs : CipherSuite) (Hs : Hash) (hP : P.hash cs = .ok Hs)
    (tc : TreeKEM) (t : RatchetTree) (hr : deserialize_exact RatchetTree.deserialize tc.ratchet_tree = .ok t) (K : Nat)
    (hm : ∀ p ∈ tc.update_paths, MergeInput t K p.sender.toNat) (hs : ∀ b, (Hs.digest b).length < 2 ^ 30) :
    tree_kem_test P cs tc = .ok () ↔
    ∀ p ∈ tc.update_paths, ∃ up t', Reads UpdatePath.WF updatePath p.update_path up ∧ t'.length = t.length ∧
      PathMerged Hs.digest K p.sender.toNat up t.get (RatchetTree.get t') ∧
      HashDefined Hs.digest (RatchetTree.get t') K 0 ∧ p.tree_hash_after = treeHash Hs.digest (RatchetTree.get t') K 0 := by
  unfold tree_kem_test
  rw [forEnum_ok]
  refine ⟨fun h p hp => ?_, fun h i p hi => ?_⟩
  case refine_2 =>
    have hp := List.mem_of_getElem? hi
    have hin := hm p hp
    obtain ⟨up, t', h1, hl, h2, h3, h4⟩ := h p hp
    have hk : ∀ n ∈ up.nodes, n.encryption_key.length < 2 ^ 30 := path_keys h1.2.1
    have hd : ∀ k ∈ filteredLevels t.get K p.sender.toNat,
        HashDefined Hs.digest t.get (k - 1) (sib p.sender.toNat (k - 1)) := by
      intro k hk
      obtain ⟨hk1, hk2, _⟩ := filteredLevels_mem.1 hk
      have hsub := hashDefined_sub (k := k - 1) (i := sib p.sender.toNat (k - 1)) (a := K - (k - 1)) h3 (by omega)
        (sib_in hin.sender (by omega))
      refine (hashDefined_congr fun x hx => ?_).1 hsub
      refine h2.others x ?_ ?_
      · rintro ⟨l, _, _, hc⟩; exact sib_disjoint hx hc
      · rw [← anc_zero]; exact sib_disjoint hx
    have he := (C22_exact P cs Hs hP t t' K _ hin up hd hs hk).2 ⟨hl, h2⟩
    dsimp only
    rw [hr, Res.ok_bind, (reads_iff UpdatePath.lawful (fun x _ => updatePath_w x) _ _).2 h1, Res.ok_bind, he]
    have hroot := (rootHash_iff hP (by have := hin.nonempty; omega) (by have := hin.size; omega)
      (by rw [hl]; exact hin.height) _).2 ⟨h3, rfl⟩
    show (do
      let _ ← Res.ok ()
      let tree_hash ← RatchetTree.compute_root_tree_hash P cs t'
      assert (tree_hash = p.tree_hash_after)) = .ok ()
    rw [Res.ok_bind, hroot, Res.ok_bind, assert_iff, decide_eq_true_iff]
    exact h4.symm
  have hin := hm p hp
  obtain ⟨i, hi⟩ := List.getElem?_of_mem hp
  have h := h i p hi
  rw [hr, Res.ok_bind, Res.bind_ok_iff] at h
  obtain ⟨up, h1, h⟩ := h
  rw [reads_iff UpdatePath.lawful (fun x _ => updatePath_w x)] at h1
  generalize he : t.merge_update_path P cs p.sender.toNat up = r at h
  obtain ⟨t', merged⟩ := r
  dsimp only at h
  obtain ⟨_, hok, h'⟩ := Res.bind_ok_iff.1 h
  subst hok
  obtain ⟨out, h2, h3⟩ := Res.bind_ok_iff.1 h'
  rw [assert_iff, decide_eq_true_iff] at h3
  subst h3
  obtain ⟨a1, a2, a3, a4, a5, a6⟩ := C22_effect P cs Hs hP t t' K _ hin.toMergePlace up he
  obtain ⟨b1, b2, b3⟩ := C23_parent_hashes P cs Hs hP t t' K _ hin.toMergePlace up he
  have h4 := (rootHash_iff hP (by have := hin.nonempty; omega) (by have := hin.size; omega)
    (by rw [a1]; exact hin.height) _).1 h2
  exact ⟨up, t', h1, a1, ⟨a2, a3, a4, a5, a6, b1, b2, b3⟩, h4⟩

/-! ### Operations -/

private theorem least {p : Nat → Prop} (h : ∃ n, p n) : ∃ n, p n ∧ ∀ m, m < n → ¬ p m := by
  obtain ⟨n, hn⟩ := h
  induction n using Nat.strongRecOn with
  | _ n ih =>
    by_cases hx : ∃ m, m < n ∧ p m
    · obtain ⟨m, hm, hp⟩ := hx
      exact ih m hm hp
    · exact ⟨n, hn, fun m hm hp => hx ⟨m, hm, hp⟩⟩

private theorem full_height {t : RatchetTree} {K : Nat} (hlen : t.length + 1 = 2 ^ (K + 1)) :
    (t.length + 1) / 2 = 2 ^ K ∧ IsHeight ((t.length + 1) / 2) K := by
  have : (t.length + 1) / 2 = 2 ^ K := by rw [hlen, Nat.pow_succ]; omega
  exact ⟨this, by rw [this]; exact ⟨Nat.le_refl _, fun j hj => (Nat.pow_le_pow_iff_right (by omega)).1 hj⟩⟩

private theorem operate_add {P : CryptoProvider} {cs : CipherSuite} {sender : LeafIndex} {K : Nat} {t : RatchetTree}
    (hlen : t.length + 1 = 2 ^ (K + 1)) (hK : K < 31) (a : AddProposal) (t' : RatchetTree) :
    operate P cs sender t (.Add a) = .ok t' ↔ Operates P cs sender K t t' (.Add a) := by
  obtain ⟨hn, hh⟩ := full_height hlen
  have h31 : 2 ^ (K + 1) ≤ 2 ^ 31 := Nat.pow_le_pow_right (by omega) (by omega)
  have hpos := Nat.two_pow_pos K
  have h2 : 2 ^ (K + 1) = 2 * 2 ^ K := by rw [Nat.pow_succ, Nat.mul_comm]
  have hv := C44_key_package P a.key_package
    { version := a.key_package.payload.version, cipher_suite := a.key_package.payload.cipher_suite, group_id := [],
      epoch := 0, tree_hash := [], confirmed_transcript_hash := [], extensions := [] }
  -- the tree after taking the leaf at `j`
  have hadd : ∀ j, t.get (2 * j) = none → (∀ i, i < j → t.get (2 * i) ≠ none) →
      ∃ t'', t.add a.key_package.payload.leaf_node = .ok t'' ∧
        t''.length + 1 = 2 ^ ((if j < 2 ^ K then K else K + 1) + 1) ∧
        ∀ x, RatchetTree.get t'' x = if x = 2 * j then some (.Leaf a.key_package.payload.leaf_node)
          else if above (if j < 2 ^ K then K else K + 1) j x then listed (UInt32.ofNat j) (t.get x) else t.get x := by
    intro j hj hleft
    by_cases hlt : j < 2 ^ K
    · obtain ⟨t'', a1, a2, a3⟩ := C13_add_free t a.key_package.payload.leaf_node j K (by omega) hh (by omega) hj hleft
      rw [if_pos hlt]
      exact ⟨t'', a1, by omega, a3⟩
    · have hj' : j = 2 ^ K := by
        apply Decidable.byContradiction
        intro hne
        exact hleft (2 ^ K) (by omega) (get_out (by omega))
      subst hj'
      have hh2 : IsHeight (2 * 2 ^ K) (K + 1) := by
        rw [← h2]
        exact ⟨Nat.le_refl _, fun j hj => (Nat.pow_le_pow_iff_right (by omega)).1 hj⟩
      obtain ⟨t'', a1, a2, a3⟩ := C13_add_grow_partial t a.key_package.payload.leaf_node (2 ^ K) (K + 1) hpos
        (by omega) (by omega) hh2 hleft
      rw [if_neg hlt]
      refine ⟨t'', a1, ?_, a3⟩
      rw [Nat.pow_succ 2 (K + 1)]
      omega
  unfold operate
  rw [Res.bind_ok_iff]
  constructor
  · rintro ⟨_, a1, a2⟩
    obtain ⟨-, -, b1, b2, b3⟩ := hv.1 a1
    obtain ⟨j, hj, hleft⟩ := least (p := fun j => t.get (2 * j) = none)
      ⟨2 ^ K, get_out (by omega)⟩
    obtain ⟨t'', c1, c2, c3⟩ := hadd j hj hleft
    cases a2.symm.trans c1
    exact .add a j _ b1 b2 b3 hj hleft rfl c2 c3
  · intro h
    cases h with
    | add _ j K' b1 b2 b3 hj hleft hK' c2 c3 =>
      subst hK'
      obtain ⟨t'', d1, d2, d3⟩ := hadd j hj hleft
      have : t' = t'' := RatchetTree.ext (by omega) fun x => (c3 x).trans (d3 x).symm
      subst this
      exact ⟨(), hv.2 ⟨rfl, rfl, b1, b2, b3⟩, d1⟩

private theorem operate_update {P : CryptoProvider} {cs : CipherSuite} {sender : LeafIndex} {K : Nat} {t : RatchetTree}
    (hlen : t.length + 1 = 2 ^ (K + 1)) (hK : K < 31) (u : UpdateProposal)
    (t' : RatchetTree) :
    operate P cs sender t (.Update u) = .ok t' ↔ Operates P cs sender K t t' (.Update u) := by
  obtain ⟨hn, hh⟩ := full_height hlen
  have h31 : 2 ^ (K + 1) ≤ 2 ^ 31 := Nat.pow_le_pow_right (by omega) (by omega)
  have h2 : 2 ^ (K + 1) = 2 * 2 ^ K := by rw [Nat.pow_succ, Nat.mul_comm]
  obtain ⟨sigs, encs, hkeys, hsig, henc⟩ := C68_keys t (by omega)
  obtain ⟨creds, hcr, hcreds⟩ := supported_creds_eq (t := t) (by omega)
  have hnl : t.num_leaves = 2 ^ K := by rw [room (by omega) (by omega), hn]
  rw [hnl] at hcreds
  have hcreds : (fun ct => ct ∈ creds) = SupportedCred t.get (2 ^ K) := by
    funext ct
    exact propext (hcreds ct)
  by_cases hs : sender.toNat < 2 ^ K
  case neg =>
    constructor
    · intro h
      unfold operate at h
      dsimp only at h
      rw [hkeys, Res.ok_bind] at h
      dsimp only at h
      rw [hcr, Res.ok_bind, Res.bind_ok_iff] at h
      obtain ⟨_, _, h⟩ := h
      rw [C12_update_refuted t u.leaf_node sender.toNat K (by omega) (by omega) hh (by omega)] at h
      cases h
    · intro h
      cases h with
      | update _ b1 b2 c2 c3 =>
        have h1 := c3 (2 * sender.toNat)
        rw [if_pos rfl] at h1
        have := lt_of_get (t := t') h1
        omega
  obtain ⟨t'', d1, d2, d3⟩ := C14_update t u.leaf_node sender.toNat K (by omega) hh (by omega)
  have hv := C44_leaf P u.leaf_node
    { cipher_suite := cs, group_id := [], leaf_index := sender, supported_creds := creds, signature_keys := sigs,
      encryption_keys := encs, now := 0 }
  dsimp only at hv
  rw [hcreds, hsig, henc] at hv
  unfold operate
  dsimp only
  rw [hkeys, Res.ok_bind]
  dsimp only
  rw [hcr, Res.ok_bind, Res.bind_ok_iff]
  constructor
  · rintro ⟨_, a1, a2⟩
    obtain ⟨b1, b2, b3⟩ := hv.1 a1
    cases a2.symm.trans d1
    exact .update u b1 (fun i l hl => ⟨fun e => b2 ⟨i, l, hl, e⟩, fun e => b3 ⟨i, l, hl, e⟩⟩) d2 d3
  · intro h
    cases h with
    | update _ b1 b2 c2 c3 =>
      have : t' = t'' := RatchetTree.ext (by omega) fun x => (c3 x).trans (d3 x).symm
      subst this
      exact ⟨(), hv.2 ⟨b1, fun ⟨i, l, hl, e⟩ => (b2 i l hl).1 e, fun ⟨i, l, hl, e⟩ => (b2 i l hl).2 e⟩, d1⟩

private theorem operate_remove {P : CryptoProvider} {cs : CipherSuite} {sender : LeafIndex} {K : Nat} {t : RatchetTree}
    (hlen : t.length + 1 = 2 ^ (K + 1)) (hK : K < 31) (r : RemoveProposal) (t' : RatchetTree) (hne : 0 < t'.length) :
    operate P cs sender t (.Remove r) = .ok t' ↔ Operates P cs sender K t t' (.Remove r) := by
  obtain ⟨hn, hh⟩ := full_height hlen
  have h31 : 2 ^ (K + 1) ≤ 2 ^ 31 := Nat.pow_le_pow_right (by omega) (by omega)
  have h2 : 2 ^ (K + 1) = 2 * 2 ^ K := by rw [Nat.pow_succ, Nat.mul_comm]
  have hget : ∀ l, t.get (2 * r.removed.toNat) = some (.Leaf l) →
      2 * r.removed.toNat < t.length ∧ t.get_leaf r.removed.toNat = .ok (some l) := by
    intro l hl
    have := lt_of_get hl
    refine ⟨this, ?_⟩
    rw [get_leaf_eq (by omega), hl]
  unfold operate
  rw [Res.bind_ok_iff]
  constructor
  · rintro ⟨o, a1, h⟩
    obtain ⟨_, a2, a3⟩ := Res.bind_ok_iff.1 h
    rw [assert_iff] at a2
    obtain ⟨l, rfl⟩ := Option.isSome_iff_exists.1 a2
    have hl : t.get (2 * r.removed.toNat) = some (.Leaf l) := by
      by_cases hb : r.removed.toNat < 2 ^ 31
      · rw [get_leaf_eq hb] at a1
        split at a1
        · next n hg => cases a1; exact hg
        · cases a1
      · unfold RatchetTree.get_leaf at a1
        rw [node_index_panic (by omega)] at a1
        cases a1
    obtain ⟨hlt, _⟩ := hget l hl
    by_cases hall : ∀ i, i ≠ r.removed.toNat → t.get (2 * i) = none
    · rw [C15_remove_last_member t _ (by omega) hlt hall] at a3
      cases a3
      exact absurd hne (by decide)
    · obtain ⟨j, hj, hlast⟩ : ∃ j, (j ≠ r.removed.toNat ∧ t.get (2 * j) ≠ none) ∧
          ∀ i, j < i → i ≠ r.removed.toNat → t.get (2 * i) = none := by
        have hex : ∃ d, (2 ^ K - d ≠ r.removed.toNat ∧ t.get (2 * (2 ^ K - d)) ≠ none) := by
          apply Classical.byContradiction
          intro hno
          refine hall fun i hi => ?_
          apply Classical.byContradiction
          intro hg
          have : 2 * i < t.length := by
            apply Decidable.byContradiction
            intro hge
            exact hg (get_out (by omega))
          refine hno ⟨2 ^ K - i, ?_⟩
          rw [show 2 ^ K - (2 ^ K - i) = i by omega]
          exact ⟨hi, hg⟩
        obtain ⟨d, hd, hmin⟩ := least hex
        refine ⟨2 ^ K - d, hd, fun i hi hir => ?_⟩
        apply Classical.byContradiction
        intro hg
        have hi2 : 2 * i < t.length := by
          apply Decidable.byContradiction
          intro hge
          exact hg (get_out (by omega))
        have := hmin (2 ^ K - i) (by omega)
        rw [show 2 ^ K - (2 ^ K - i) = i by omega] at this
        exact this ⟨hir, hg⟩
      obtain ⟨m, hm⟩ := exists_height (n := j + 1) (by omega)
      obtain ⟨t'', d1, d2, _, d3⟩ := C15_remove_partial t _ K j m (by omega) hh hlt hj.2 hj.1 hlast hm
      cases a3.symm.trans d1
      exact .remove r l j _ hl hj.2 hj.1 hlast hm d2 d3
  · intro h
    cases h with
    | remove _ l j m hl hj hjr hlast hm c2 c3 =>
      obtain ⟨hlt, hg⟩ := hget l hl
      obtain ⟨t'', d1, d2, _, d3⟩ := C15_remove_partial t _ K j m (by omega) hh hlt hj hjr hlast hm
      have : t' = t'' := RatchetTree.ext (by omega) fun x => (c3 x).trans (d3 x).symm
      subst this
      exact ⟨_, hg, Res.bind_ok_iff.2 ⟨(), rfl, d1⟩⟩

/-- C93: the vector of a tree operation passes exactly if the tree hashes are those of
the roots, the proposal is an add, update or remove whose contents pass the checks, and the second tree is what the proposal
makes of the first.  (A remove of the only member never passes: the code panics.) -/
theorem C93_operations (P : CryptoProvider) (cs : CipherSuite) (Hs : Hash) (hP : P.hash cs = .ok Hs)
    (tc : TreeOperations) (t : RatchetTree) (hr : deserialize_exact RatchetTree.deserialize tc.tree_before = .ok t)
    (K : Nat) (hlen : t.length + 1 = 2 ^ (K + 1)) (hK : K < 31) :
    tree_operations_test P cs tc = .ok () ↔ ∃ t' prop, OperationRight P cs Hs.digest tc K t t' prop := by
  obtain ⟨hn, hh⟩ := full_height hlen
  have h31 : 2 ^ (K + 1) ≤ 2 ^ 31 := Nat.pow_le_pow_right (by omega) (by omega)
  have hpos := Nat.two_pow_pos K
  have h2 : 2 ^ (K + 1) = 2 * 2 ^ K := by rw [Nat.pow_succ, Nat.mul_comm]
  have hop : ∀ t' prop, 0 < t'.length → (operate P cs tc.proposal_sender t prop = .ok t' ↔
      Operates P cs tc.proposal_sender K t t' prop) := by
    intro t' prop hne
    cases prop with
    | Add a => exact operate_add hlen hK a t'
    | Update u => exact operate_update hlen hK u t'
    | Remove r => exact operate_remove hlen hK r t' hne
    | PreSharedKey _ => exact ⟨(nomatch ·), fun h => nomatch h⟩
    | ReInit _ => exact ⟨(nomatch ·), fun h => nomatch h⟩
    | ExternalInit _ => exact ⟨(nomatch ·), fun h => nomatch h⟩
    | GroupContextExtensions _ => exact ⟨(nomatch ·), fun h => nomatch h⟩
  have hsize : ∀ {t' prop}, Operates P cs tc.proposal_sender K t t' prop → 0 < t'.length ∧ t'.length < 2 ^ 32 := by
    intro t' prop h
    cases h with
    | add a j K' _ _ _ _ _ hK' hl _ =>
      have : K' + 1 ≤ 32 := by rw [hK']; split <;> omega
      have := Nat.pow_le_pow_right (show 0 < 2 by omega) this
      have : 2 ^ (K' + 1) = 2 * 2 ^ K' := by rw [Nat.pow_succ, Nat.mul_comm]
      have := Nat.two_pow_pos K'
      omega
    | update u _ _ hl _ => omega
    | remove r l j m _ _ _ _ _ hl _ =>
      have := Nat.two_pow_pos (m + 1)
      omega
  unfold tree_operations_test
  rw [hr, Res.ok_bind]
  simp only [Res.bind_ok_iff, rootHash_iff hP (show 0 < t.length by omega) (by omega) hh,
    reads_iff Proposal.lawful (fun x _ => proposal_w x), writes_ok_iff (ratchetTree_w _)]
  constructor
  · rintro ⟨_, a1, _, a2, prop, a3, t', a4, raw, a5, _, a6, out, a7, a8⟩
    rw [assert_iff, decide_eq_true_iff] at a2 a6 a8
    have hne : 0 < t'.length := by
      cases t' with
      | nil => cases a7
      | cons _ _ => exact Nat.succ_pos _
    have h4 := (hop t' prop hne).1 a4
    obtain ⟨h5, h6⟩ := hsize h4
    obtain ⟨K', hK'⟩ := exists_height (n := (t'.length + 1) / 2) (by omega)
    have h7 := (rootHash_iff hP h5 h6 hK' _).1 a7
    exact ⟨t', prop, by rw [← a2]; exact a1, a3, h4, by rw [← a6]; exact a5, K', hK', by rw [← a8]; exact h7⟩
  · rintro ⟨t', prop, a1, a3, h4, a5, K', hK', h7⟩
    obtain ⟨h5, h6⟩ := hsize h4
    refine ⟨_, a1, (), ?_, prop, a3, t', (hop t' prop h5).2 h4, _, a5, (), ?_, _, (rootHash_iff hP h5 h6 hK' _).2 h7, ?_⟩ <;>
      rw [assert_iff, decide_eq_true_iff]

section examples
private abbrev suite1 : CipherSuite := .MLS_128_DHKEMX25519_AES128GCM_SHA256_Ed25519

private def out : Res Bytes → Bytes
  | .ok b => b
  | _ => []

/-- The vector of `goodTree`. -/
def goodValidation : TreeValidation :=
  { cipher_suite := 1, tree := out (RatchetTree.serialize goodTree), group_id := [7]
    resolutions := [[0], [1, 2], [2], [3, 2], [4], [4], []]
    tree_hashes := [treeHash id goodTree.get 0 0, treeHash id goodTree.get 1 0] }

set_option maxRecDepth 100000 in
example : TreeValidationRight toyProvider suite1 id goodTree.get goodValidation :=
  (C93_tree_validation_partial toyProvider suite1 toyHash rfl goodValidation goodTree (by decide +kernel) (by decide +kernel)
    (by
      intro x p hx u hu
      have hlt := lt_of_get hx
      change x < 7 at hlt
      have : x = 0 ∨ x = 1 ∨ x = 2 ∨ x = 3 ∨ x = 4 ∨ x = 5 ∨ x = 6 := by omega
      rcases this with rfl | rfl | rfl | rfl | rfl | rfl | rfl <;> cases hx <;> cases List.mem_singleton.1 hu <;> decide)
    (by decide) (by decide)).1 (by decide +kernel)

set_option maxRecDepth 100000 in
example : tree_validation_test toyProvider suite1 { goodValidation with resolutions := [[0], [1]] } = .fault .panic := by
  decide +kernel

/-- The vector of a merge in `toyTree`. -/
def toyKEM : TreeKEM :=
  { cipher_suite := 1, group_id := [], epoch := 0, confirmed_transcript_hash := []
    ratchet_tree := out (RatchetTree.serialize toyTree), leaves_private := []
    update_paths := [{ sender := 0, update_path := out ((toyPath toyParentHash).serialize), path_secrets := [],
                       commit_secret := [],
                       tree_hash_after := out (RatchetTree.compute_root_tree_hash toyProvider suite1
                        (toyTree.merge_update_path toyProvider suite1 0 (toyPath toyParentHash)).1) }] }

set_option maxRecDepth 100000 in
example : tree_kem_test toyProvider suite1 toyKEM = .ok () ∧
    deserialize_exact RatchetTree.deserialize toyKEM.ratchet_tree = .ok toyTree ∧
    (∀ p ∈ toyKEM.update_paths, MergeInput toyTree 2 p.sender.toNat) ∧
    toyKEM.update_paths.any (fun p => p.tree_hash_after.length > 100) = true := by
  refine ⟨by decide +kernel, by decide +kernel, ?_, by decide +kernel⟩
  intro p hp
  cases List.mem_singleton.1 hp
  exact toy_mergeInput 0 (by decide)

/-- The vector of a merge with a hash of bounded size. -/
def sumKEM : TreeKEM :=
  { cipher_suite := 1, group_id := [], epoch := 0, confirmed_transcript_hash := []
    ratchet_tree := out (RatchetTree.serialize sumThree), leaves_private := []
    update_paths := [{ sender := 0, update_path := out sumPath.serialize, path_secrets := [],
                       commit_secret := [],
                       tree_hash_after := out (RatchetTree.compute_root_tree_hash sumProvider suite1
                        (sumThree.merge_update_path sumProvider suite1 0 sumPath).1) }] }

set_option maxRecDepth 100000 in
example : tree_kem_test sumProvider suite1 sumKEM = .ok () ∧
    deserialize_exact RatchetTree.deserialize sumKEM.ratchet_tree = .ok sumThree ∧
    (∀ p ∈ sumKEM.update_paths, MergeInput sumThree 2 p.sender.toNat) ∧ (∀ b, (sumHash.digest b).length < 2 ^ 30) ∧
    tree_kem_test sumProvider suite1 { sumKEM with update_paths := sumKEM.update_paths.map fun p =>
      { p with tree_hash_after := [] } } = .fault .panic := by
  refine ⟨by decide +kernel, by decide +kernel, ?_, fun b => (sumHash_size b).2, by decide +kernel⟩
  intro p hp
  cases List.mem_singleton.1 hp
  exact sum_mergeInput

/-- The vector of a proposal in `toyTree`, with the tree after it. -/
def operation (sender : UInt32) (p : Proposal) (t' : RatchetTree) : TreeOperations :=
  { cipher_suite := 1, tree_before := out (RatchetTree.serialize toyTree), proposal := out p.serialize,
    proposal_sender := sender, tree_after := out (RatchetTree.serialize t'),
    tree_hash_before := treeHash id toyTree.get 2 0,
    tree_hash_after := out (RatchetTree.compute_root_tree_hash toyProvider suite1 t') }

/-- A leaf for an update of leaf `i` in a group without name. -/
private def updated (k : UInt8) (i : LeafIndex) : LeafNode :=
  { toyLeaf k with signature := [k, k] ++ (labelled (text "LeafNodeTBS") (leafNodeTBS (toyLeaf k).payload [] i).bytes).bytes }

/-- The tree after an update of leaf 1. -/
private def updatedTree : RatchetTree :=
  [some (.Leaf (toyLeaf 0)), none, some (.Leaf (updated 5 1)), none, some (.Leaf (toyLeaf 2)), none, none]

/-- The tree after leaf 2 is removed: there is one blank node too many. -/
private def removedTree : RatchetTree := [some (.Leaf (toyLeaf 0)), none, some (.Leaf (toyLeaf 1)), none]

set_option maxRecDepth 100000 in
example : ∃ t' prop, OperationRight toyProvider suite1 id (operation 1 (.Update ⟨updated 5 1⟩) updatedTree) 2 toyTree t' prop :=
  (C93_operations toyProvider suite1 toyHash rfl _ toyTree (by decide +kernel) 2 (by decide) (by decide)).1
    (by decide +kernel)

set_option maxRecDepth 100000 in
example : ∃ t' prop, OperationRight toyProvider suite1 id (operation 0 (.Remove ⟨2⟩) removedTree) 2 toyTree t' prop :=
  (C93_operations toyProvider suite1 toyHash rfl _ toyTree (by decide +kernel) 2 (by decide) (by decide)).1
    (by decide +kernel)

set_option maxRecDepth 100000 in
example : tree_operations_test toyProvider suite1 (operation 0 (.Remove ⟨2⟩) toyTree) = .fault .panic := by decide +kernel

end examples
end Rmls
