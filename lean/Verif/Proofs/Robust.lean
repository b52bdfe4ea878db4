import Verif.Spec.Robust
import Verif.Proofs.Codecs
import Verif.Proofs.WireFault
import Verif.Proofs.Framing
import Verif.Proofs.TreeHash
import Verif.Proofs.Merge
import Verif.Proofs.Integrity
import Verif.Proofs.Resolve
import Verif.Proofs.SecretTree
import Verif.Model.Welcome
import Verif.Props.LeafNode
import Verif.Model.KeyPackage
/-
Calls that come back.
-/
namespace Rmls
open Spec Spec.Enc

theorem returns_ok {α : Type} (a : α) : Returns (Res.ok a) := fun _ => nofun
theorem returns_pure {α : Type} (a : α) : Returns (pure a : Res α) := fun _ => nofun
theorem returns_err {α : Type} (e : Error) : Returns (Res.err e : Res α) := fun _ => nofun

theorem returns_bind {α β : Type} {x : Res α} {k : α → Res β} (hx : Returns x)
    (hk : ∀ a, x = .ok a → Returns (k a)) : Returns (x >>= k) := by
  cases x with
  | ok a => exact hk a rfl
  | err e => exact returns_err e
  | fault f => exact absurd rfl (hx f)

theorem returns_isOk {α : Type} {x : Res α} (hx : Returns x) : Returns x.isOk := by
  cases x with
  | ok a => exact returns_ok _
  | err e => exact returns_ok _
  | fault f => exact absurd rfl (hx f)

theorem returns_orFalse {α : Type} {x : Res α} {k : α → Res Bool} (hx : Returns x)
    (hk : ∀ a, Returns (k a)) : Returns (RatchetTree.orFalse x k) := by
  cases x with
  | ok a => exact hk a
  | err e => exact returns_ok _
  | fault f => exact absurd rfl (hx f)

theorem Spec.Writes.returns {r : Res Bytes} {e : Enc} (h : Writes r e) : Returns r := h.noFault

theorem returns_exact {α : Type} {d : De α} {b : Bytes} (h : ∀ f, d b ≠ .fault f) : Returns (deserialize_exact d b) := by
  unfold deserialize_exact
  split
  · exact returns_ok _
  · exact returns_err _
  · rename_i f hf
    exact absurd hf (h f)

/-- Both faults are excluded for a reader. -/
theorem noF_all {α : Type} {d : De α} (h1 : NoF .panic 0 d) (h2 : NoF .hang 0 d) (b : Bytes) (f : Fault) :
    d b ≠ .fault f := by
  cases f with
  | panic => exact h1 b (Nat.zero_le _)
  | hang => exact h2 b (Nat.zero_le _)

namespace Spec.Calm
variable {P : CryptoProvider} (hP : Calm P)
include hP

theorem sign_mac (cs : CipherSuite) (k m : Bytes) : Returns (P.sign_mac cs k m) :=
  returns_bind (hP.hash cs) fun _ _ => returns_ok _

theorem verify_mac (cs : CipherSuite) (k m t : Bytes) : Returns (P.verify_mac cs k m t) := by
  refine returns_bind (hP.sign_mac cs k m) fun _ _ => ?_
  split
  · exact returns_ok _
  · exact returns_err _

theorem ref_hash (cs : CipherSuite) (l v : Bytes) : Returns (P.ref_hash cs l v) :=
  returns_bind ((writes_opaque l).app (writes_opaque v)).returns fun _ _ =>
    returns_bind (hP.hash cs) fun _ _ => returns_ok _

theorem expand_with_label (cs : CipherSuite) (s l c : Bytes) (n : UInt16) :
    Returns (P.expand_with_label cs s l c n) :=
  returns_bind ((writes_u16 n _ rfl).app ((writes_opaque _).app (writes_opaque _))).returns fun _ _ =>
    returns_bind (hP.hpke cs) fun _ hh => hP.expand cs _ hh _ _ _

theorem derive_secret (cs : CipherSuite) (s l : Bytes) : Returns (P.derive_secret cs s l) :=
  returns_bind (hP.hpke cs) fun _ _ => hP.expand_with_label cs _ _ _ _

theorem verify_with_label (cs : CipherSuite) (k l c s : Bytes) : Returns (P.verify_with_label cs k l c s) :=
  returns_bind (mls_prefix_label_data_w l c).returns fun _ _ =>
    returns_bind (hP.signature cs) fun _ hs => hP.verify cs _ hs _ _ _

theorem decrypt_with_label (cs : CipherSuite) (k l c kem x : Bytes) :
    Returns (P.decrypt_with_label cs k l c kem x) := by
  refine returns_bind (mls_prefix_label_data_w l c).returns fun _ _ => ?_
  split
  · exact hP.hpke_open _ _ _ _ _
  · exact returns_err _

end Spec.Calm

/-! ### Trees -/

namespace RatchetTree
variable {P : CryptoProvider}

theorem returns_hashLeaf (n : Option Node) (e : Bool) : Returns (hashLeaf n e) := by
  unfold hashLeaf
  repeat' split
  all_goals first | exact returns_ok _ | exact returns_err _

theorem returns_hashParent (n : Option Node) (e : List LeafIndex) : Returns (hashParent n e) := by
  unfold hashParent
  repeat' split
  all_goals first | exact returns_ok _ | exact returns_err _

theorem returns_treeHashFuel (hP : Calm P) (cs : CipherSuite) (t : RatchetTree) (ex : List LeafIndex) :
    ∀ k fuel i, k < 32 → k < fuel → Returns (treeHashFuel P cs t ex fuel (node k i)) := by
  intro k
  induction k with
  | zero =>
    intro fuel i _ hf
    obtain ⟨fuel, rfl⟩ : ∃ m, fuel = m + 1 := ⟨fuel - 1, by omega⟩
    unfold treeHashFuel
    rw [NodeIndex.leaf_index_zero]
    exact returns_bind (returns_hashLeaf _ _) fun _ _ => returns_bind (leafInput_w _ _).returns fun _ _ =>
      returns_bind (hP.hash cs) fun _ _ => returns_ok _
  | succ k ih =>
    intro fuel i hk hf
    obtain ⟨fuel, rfl⟩ : ∃ m, fuel = m + 1 := ⟨fuel - 1, by omega⟩
    unfold treeHashFuel
    rw [NodeIndex.leaf_index_succ, NodeIndex.children_succ i hk]
    dsimp only
    rw [Res.ok_bind]
    exact returns_bind (ih fuel _ (by omega) (by omega)) fun _ _ =>
      returns_bind (ih fuel _ (by omega) (by omega)) fun _ _ =>
      returns_bind (returns_hashParent _ _) fun _ _ => returns_bind (parentInput_w _ _ _).returns fun _ _ =>
      returns_bind (hP.hash cs) fun _ _ => returns_ok _

theorem returns_compute_tree_hash (hP : Calm P) (cs : CipherSuite) (t : RatchetTree) (ex : List LeafIndex)
    {k : Nat} (i : Nat) (hk : k < 32) : Returns (compute_tree_hash P cs t (node k i) ex) :=
  returns_treeHashFuel hP cs t ex k 33 i hk (by omega)

theorem returns_compute_parent_hash (hP : Calm P) (cs : CipherSuite) (p : ParentNode) (h : Bytes) :
    Returns (p.compute_parent_hash P cs h) :=
  returns_bind (parentHash_w _ _).returns fun _ _ => returns_bind (hP.hash cs) fun _ _ => returns_ok _

theorem level_lt {k i : Nat} (h : node k i < 4294967295) : k < 32 := by
  apply Decidable.byContradiction
  intro hk
  have h1 : 2 ^ 32 ≤ 2 ^ k := Nat.pow_le_pow_right (by omega) (by omega)
  have h2 := node_add_one k i
  have h3 : 2 ^ k ≤ 2 ^ k * (2 * i + 1) := Nat.le_mul_of_pos_right _ (by omega)
  omega

theorem returns_compute_root_tree_hash (hP : Calm P) (cs : CipherSuite) {t : RatchetTree}
    (h0 : 0 < t.length) (hl : t.length < 4294967296) : Returns (compute_root_tree_hash P cs t) := by
  obtain ⟨a, b, _⟩ := num_leaves_bounds h0 hl
  unfold compute_root_tree_hash
  rw [NumLeaves.root_eq a b, Res.ok_bind]
  exact returns_compute_tree_hash hP cs t [] 0 (NumLeaves.height_lt a b)

theorem smallUnmerged {t : RatchetTree} {K : Nat} (hu : UnmergedInside t K) (hK : K ≤ 31) : t.SmallUnmerged :=
  fun x p hx u h => Nat.lt_of_lt_of_le (hu x p hx u h) (Nat.pow_le_pow_right (by omega) hK)

theorem returns_resolve {t : RatchetTree} (hu : t.SmallUnmerged) {k : Nat} (i : Nat) (hk : k < 32) :
    Returns (t.resolve (node k i)) := by
  unfold resolve
  rw [resolveFuel_ok hu k 33 i (by omega) (by omega)]
  exact returns_ok _

theorem returns_verifyParentHash (hP : Calm P) (cs : CipherSuite) {t : RatchetTree} (hu : t.SmallUnmerged)
    {x : Nat} (hx : x < 4294967295) (n : Option Node) : Returns (verifyParentHash P cs t x n) := by
  obtain ⟨k, i, rfl⟩ := node_surj x
  have hk := level_lt hx
  cases n with
  | none => exact returns_ok _
  | some n =>
    unfold verifyParentHash
    rw [cast32_eq (by omega)]
    cases k with
    | zero =>
      rw [NodeIndex.children_zero]
      exact returns_ok _
    | succ k =>
      rw [NodeIndex.children_succ i hk]
      dsimp only
      rw [Res.ok_bind]
      dsimp only
      cases n with
      | Leaf l => exact returns_ok _
      | Parent p =>
        exact returns_orFalse (returns_compute_tree_hash hP cs t _ _ (by omega)) fun _ =>
          returns_orFalse (returns_compute_tree_hash hP cs t _ _ (by omega)) fun _ =>
          returns_orFalse (returns_compute_parent_hash hP cs _ _) fun _ =>
          returns_orFalse (returns_compute_parent_hash hP cs _ _) fun _ =>
          returns_bind (returns_resolve hu _ (by omega)) fun _ _ =>
          returns_bind (returns_resolve hu _ (by omega)) fun _ _ => returns_ok _

theorem returns_verifyParentHashesLoop (hP : Calm P) (cs : CipherSuite) {t : RatchetTree} (hu : t.SmallUnmerged) :
    ∀ ns x, x + ns.length < 4294967296 → Returns (verifyParentHashesLoop P cs t x ns) := by
  intro ns
  induction ns with
  | nil => intro x _; exact returns_ok _
  | cons n ns ih =>
    intro x hx
    rw [List.length_cons] at hx
    unfold verifyParentHashesLoop
    refine returns_bind (returns_verifyParentHash hP cs hu (by omega) n) fun _ _ => ?_
    split
    · exact ih _ (by omega)
    · exact returns_ok _

theorem returns_get_leaf (t : RatchetTree) {li : Nat} (h : li < 2 ^ 31) : Returns (t.get_leaf li) := by
  unfold get_leaf
  rw [node_index_eq h, Res.ok_bind]
  split <;> exact returns_ok _

theorem returns_forLeaves {σ : Type} (t : RatchetTree) {body : σ → Nat → LeafNode → Res σ}
    (hb : ∀ s li n, Returns (body s li n)) :
    ∀ ls s, (∀ i ∈ ls, i < 2 ^ 31) → Returns (forLeaves t body ls s) := by
  intro ls
  induction ls with
  | nil => intro s _; exact returns_ok _
  | cons li ls ih =>
    intro s h
    unfold forLeaves
    refine returns_bind (returns_get_leaf t (h li List.mem_cons_self)) fun o _ => ?_
    have h' : ∀ i ∈ ls, i < 2 ^ 31 := fun i hi => h i (List.mem_cons_of_mem _ hi)
    cases o with
    | none => exact ih s h'
    | some n => exact returns_bind (hb s li n) fun s' _ => ih s' h'

theorem leaves_small {t : RatchetTree} (hl : t.length < 4294967296) : ∀ i ∈ List.range t.num_leaves, i < 2 ^ 31 := by
  intro i hi
  rw [List.mem_range] at hi
  by_cases h0 : 0 < t.length
  · have := (num_leaves_bounds h0 hl).2.1; omega
  · have h0 : t.length = 0 := by omega
    have : t.num_leaves = 0 := by
      unfold num_leaves; rw [h0]; rfl
    omega

theorem returns_supported_creds {t : RatchetTree} (hl : t.length < 4294967296) : Returns t.supported_creds :=
  returns_bind (returns_forLeaves t (fun _ _ _ => returns_ok _) _ _ (leaves_small hl)) fun _ _ => returns_ok _

theorem returns_keys {t : RatchetTree} (hl : t.length < 4294967296) : Returns t.keys :=
  returns_forLeaves t (fun _ _ _ => returns_ok _) _ _ (leaves_small hl)

theorem returns_findLeafLoop (t : RatchetTree) (node : LeafNode) :
    ∀ ls, (∀ i ∈ ls, i < 2 ^ 31) → Returns (findLeafLoop t node ls) := by
  intro ls
  induction ls with
  | nil => intro _; exact returns_ok _
  | cons li ls ih =>
    intro h
    unfold findLeafLoop
    refine returns_bind (returns_get_leaf t (h li List.mem_cons_self)) fun o _ => ?_
    have h' : ∀ i ∈ ls, i < 2 ^ 31 := fun i hi => h i (List.mem_cons_of_mem _ hi)
    cases o with
    | none => exact ih h'
    | some n =>
      dsimp only
      split
      · exact ih h'
      · have h1 := (leafNode_w node).returns
        have h2 := (leafNode_w n).returns
        split
        · exact returns_ok _
        · rename_i e; exact absurd e (h1 _)
        · rename_i _ e _; exact absurd e (h2 _)
        · exact returns_ok _

theorem returns_unmergedWalk {t : RatchetTree} {n : Nat} (h0 : 0 < n) (hn : n ≤ 2 ^ 31) (p : Nat) {u : LeafIndex}
    (hu : u.toNat < 2 ^ NumLeaves.height n) :
    ∀ d m fuel, m + d = NumLeaves.height n → d < fuel →
      Returns (unmergedWalk t n p u fuel (node m (u.toNat / 2 ^ m))) := by
  intro d
  induction d with
  | zero =>
    intro m fuel hm hf
    obtain ⟨fuel, rfl⟩ : ∃ m, fuel = m + 1 := ⟨fuel - 1, by omega⟩
    unfold unmergedWalk
    rw [NumLeaves.parent_inTree h0 hn ⟨by omega, ?_⟩, if_pos (by omega), Res.ok_bind]
    · exact returns_err _
    · rw [Nat.div_lt_iff_lt_mul (Nat.two_pow_pos m), ← Nat.pow_add, Nat.sub_add_cancel (by omega)]
      exact hu
  | succ d ih =>
    intro m fuel hm hf
    obtain ⟨fuel, rfl⟩ : ∃ m, fuel = m + 1 := ⟨fuel - 1, by omega⟩
    unfold unmergedWalk
    rw [NumLeaves.parent_inTree h0 hn ⟨by omega, ?_⟩, if_neg (by omega), Res.ok_bind]
    · have h := ih (m + 1) fuel (by omega) (by omega)
      have e : u.toNat / 2 ^ m / 2 = u.toNat / 2 ^ (m + 1) := by rw [Nat.div_div_eq_div_mul, Nat.pow_succ]
      dsimp only
      rw [e]
      repeat' split
      all_goals first | exact h | exact returns_ok _ | exact returns_err _
    · rw [Nat.div_lt_iff_lt_mul (Nat.two_pow_pos m), ← Nat.pow_add, Nat.sub_add_cancel (by omega)]
      exact hu

theorem returns_unmergedLoop {t : RatchetTree} {n : Nat} (h0 : 0 < n) (hn : n ≤ 2 ^ 31) (p : Nat) :
    ∀ us : List LeafIndex, (∀ u ∈ us, u.toNat < 2 ^ NumLeaves.height n) → Returns (unmergedLoop t n p us) := by
  intro us
  induction us with
  | nil => intro _; exact returns_ok _
  | cons u us ih =>
    intro h
    have hu := h u List.mem_cons_self
    have hK := NumLeaves.height_lt h0 hn
    have h31 : u.toNat < 2 ^ 31 := Nat.lt_of_lt_of_le hu (Nat.pow_le_pow_right (by omega) (by omega))
    unfold unmergedLoop
    rw [node_index_eq h31, Res.ok_bind]
    have hw := returns_unmergedWalk (t := t) h0 hn p hu (NumLeaves.height n) 0 34 (by omega) (by omega)
    rw [Nat.pow_zero, Nat.div_one, node_zero] at hw
    exact returns_bind hw fun _ _ => ih fun v hv => h v (List.mem_cons_of_mem _ hv)

theorem returns_parentLoop {t : RatchetTree} {n : Nat} (h0 : 0 < n) (hn : n ≤ 2 ^ 31) :
    ∀ (ns : List (Option Node)) (i : Nat) (ks : List HPKEPublicKey),
      (∀ p, some (Node.Parent p) ∈ ns → ∀ u ∈ p.unmerged_leaves, u.toNat < 2 ^ NumLeaves.height n) →
      Returns (parentLoop t n i ns ks) := by
  intro ns
  induction ns with
  | nil => intro i ks _; exact returns_ok _
  | cons m ns ih =>
    intro i ks h
    have h' : ∀ p, some (Node.Parent p) ∈ ns → ∀ u ∈ p.unmerged_leaves, u.toNat < 2 ^ NumLeaves.height n :=
      fun p hp => h p (List.mem_cons_of_mem _ hp)
    rcases m with _ | (l | p)
    · exact ih _ _ h'
    · exact ih _ _ h'
    · unfold parentLoop
      refine returns_bind (returns_unmergedLoop h0 hn _ _ (h p List.mem_cons_self)) fun _ _ => ?_
      split
      · exact returns_err _
      · exact ih _ _ h'

theorem calm_verify (hP : Calm P) : VerifyTotal P :=
  fun cs => ⟨hP.signature cs, fun s hs => hP.verify cs s hs⟩

theorem returns_verify_integrity (hP : Calm P) {t : RatchetTree} (ctx : GroupContext) (now : Int)
    (h0 : 0 < t.length) (hl : t.length < 4294967296) (hu : UnmergedInside t (NumLeaves.height t.num_leaves)) :
    Returns (t.verify_integrity P ctx now) := by
  obtain ⟨a, b, _⟩ := num_leaves_bounds h0 hl
  have hs : t.SmallUnmerged := smallUnmerged hu (by have := NumLeaves.height_lt a b; omega)
  unfold verify_integrity
  refine returns_bind (returns_compute_root_tree_hash hP _ h0 hl) fun _ _ => ?_
  split
  · exact returns_err _
  refine returns_bind (returns_verifyParentHashesLoop hP _ hs t 0 (by omega)) fun _ _ => ?_
  split
  · exact returns_err _
  refine returns_bind (returns_supported_creds hl) fun _ _ => ?_
  refine returns_bind ?_ fun keys _ => ?_
  · refine returns_forLeaves t (fun s li n => ?_) _ _ (leaves_small hl)
    exact returns_bind (fun f => (C44_total P (calm_verify hP) n _
      { payload := { version := .MLS10, cipher_suite := ctx.cipher_suite, init_key := [], leaf_node := n, extensions := [] }
        signature := [] } ctx f).1) fun _ _ => returns_ok _
  · refine returns_parentLoop a b t 0 _ fun p hp u hu' => ?_
    obtain ⟨x, hx⟩ := List.mem_iff_getElem?.1 hp
    refine hu x p ?_ u hu'
    rw [hx]; rfl

theorem returns_pathLoop (hP : Calm P) (cs : CipherSuite) (s : Nat) (dp : List Nat) :
    ∀ nis prev t, (∀ x ∈ nis, ∃ k i, x = node k i ∧ k < 32) → Returns (pathLoop P cs s dp nis prev t).2 := by
  intro nis
  induction nis with
  | nil => intro prev t _; exact returns_ok _
  | cons x nis ih =>
    intro prev t h
    have h' : ∀ x ∈ nis, ∃ k i, x = node k i ∧ k < 32 := fun y hy => h y (List.mem_cons_of_mem _ hy)
    obtain ⟨k, i, hx, hk⟩ := h x List.mem_cons_self
    have hph : Returns (pathHashes P cs t s dp x prev) := by
      unfold pathHashes
      split
      · subst hx
        cases k with
        | zero => rw [NodeIndex.children_zero]; exact returns_err _
        | succ k =>
          rw [NodeIndex.children_succ i hk, Res.ok_bind]
          dsimp only
          split
          · exact returns_bind (returns_compute_tree_hash hP cs t _ _ (by omega)) fun _ _ => returns_ok _
          · exact returns_bind (returns_compute_tree_hash hP cs t _ _ (by omega)) fun _ _ => returns_ok _
      · exact returns_ok _
    unfold pathLoop
    split
    · exact returns_err _
    · rename_i f hf; exact absurd hf (hph f)
    · split
      · dsimp only
        split
        · exact returns_err _
        · rename_i f hf; exact absurd hf (returns_compute_parent_hash hP cs _ _ f)
        · exact ih _ _ h'
      · exact ih _ _ h'

theorem returns_merge_update_path (hP : Calm P) (cs : CipherSuite) {t : RatchetTree} {K j : Nat} (path : UpdatePath)
    (h0 : 0 < t.length) (hl : t.length < 4294967296) (hK : IsHeight t.num_leaves K) (hj : j < 2 ^ K)
    (hu : t.SmallUnmerged) : Returns (t.merge_update_path P cs j path).2 := by
  obtain ⟨ha, hb, _⟩ := num_leaves_bounds h0 hl
  have hK31 := hK.2 31 hb
  have hj31 : j < 2 ^ 31 := Nat.lt_of_lt_of_le hj (Nat.pow_le_pow_right (by omega) hK31)
  have hdp : NumLeaves.direct_path t.num_leaves (2 * j) = .ok (pathOf K j) := direct_path_leaf ha hb hK hj
  unfold merge_update_path
  rw [node_index_eq (by omega)]
  dsimp only
  rw [hdp]
  dsimp only
  generalize ht0 : (pathOf K j).foldl (fun t ni => t.set ni none) t = t0
  have g0 : ∀ x, t0.get x = if above K j x then none else t.get x := by
    intro x
    rw [← ht0, foldl_blank_get]
    by_cases h : above K j x
    · rw [if_pos (mem_pathOf.2 h), if_pos h]
    · rw [if_neg (fun hh => h (mem_pathOf.1 hh)), if_neg h]
  have l0 : t0.length = t.length := by rw [← ht0, foldl_blank_length]
  have n0 : t0.num_leaves = t.num_leaves := by unfold num_leaves; rw [l0]
  have u0 : t0.SmallUnmerged := by
    intro x p hx
    rw [g0] at hx
    by_cases h : above K j x
    · rw [if_pos h] at hx; cases hx
    · rw [if_neg h] at hx; exact hu x p hx
  have hf : t0.filtered_direct_path (2 * j) = .ok ((filteredLevels t0.get K j).map (anc j)) := by
    rw [← node_zero]
    exact filtered_direct_path_eq (by omega) (by omega) (by rw [n0]; exact hK) hj u0
  rw [hf]
  dsimp only
  split
  · exact returns_err _
  · have hr := returns_pathLoop hP cs (2 * j) (pathOf K j) ((filteredLevels t0.get K j).map (anc j)).reverse none
      (t0.setPath (((filteredLevels t0.get K j).map (anc j)).zip path.nodes)) (by
        intro x hx
        rw [List.mem_reverse] at hx
        obtain ⟨k, hk, rfl⟩ := List.mem_map.1 hx
        exact ⟨k, j / 2 ^ k, rfl, by have := (filteredLevels_mem.1 hk).2.1; omega⟩)
    generalize pathLoop P cs (2 * j) (pathOf K j) ((filteredLevels t0.get K j).map (anc j)).reverse none
      (t0.setPath (((filteredLevels t0.get K j).map (anc j)).zip path.nodes)) = r at hr
    obtain ⟨t2, res⟩ := r
    cases res with
    | err e => exact returns_err _
    | fault f => exact absurd rfl (hr f)
    | ok prev =>
      dsimp only
      repeat' split
      all_goals first | exact returns_ok _ | exact returns_err _

/-- The leftmost blank leaf, if there is one. -/
theorem first_free (t : RatchetTree) : ∀ m,
    (∃ j, j < m ∧ t.get (2 * j) = none ∧ ∀ i, i < j → t.get (2 * i) ≠ none) ∨ ∀ i, i < m → t.get (2 * i) ≠ none := by
  intro m
  induction m with
  | zero => exact .inr fun i hi => absurd hi (Nat.not_lt_zero _)
  | succ m ih =>
    rcases ih with ⟨j, hj, h1, h2⟩ | h
    · exact .inl ⟨j, by omega, h1, h2⟩
    · by_cases hg : t.get (2 * m) = none
      · exact .inl ⟨m, by omega, hg, h⟩
      · refine .inr fun i hi => ?_
        rcases Nat.lt_succ_iff_lt_or_eq.1 hi with hi | rfl
        · exact h i hi
        · exact hg

theorem returns_add {t : RatchetTree} (h0 : 0 < t.length) (hl : t.length < 2 ^ 31) (l : LeafNode) :
    Returns (t.add l) := by
  obtain ⟨n0, n1, n2⟩ := num_leaves_bounds h0 (by omega)
  rcases first_free t t.num_leaves with ⟨j, hj, h1, h2⟩ | h
  · obtain ⟨t', e, _⟩ := add_free (leaf := l) (by omega) (isHeight_height n0) (by omega) h1 h2
    rw [e]; exact returns_ok _
  · rcases Nat.mod_two_eq_zero_or_one t.length with hm | hm
    · obtain ⟨t', e, _⟩ := add_even (t := t) (m := t.length / 2) (leaf := l) (by omega) (by omega) hl
        fun i hi => h i (by omega)
      rw [e]; exact returns_ok _
    · obtain ⟨t', e, _⟩ := add_grow (t := t) (n := (t.length + 1) / 2) (leaf := l) (by omega) h0 hl
        (isHeight_height (by omega)) fun i hi => h i (by omega)
      rw [e]; exact returns_ok _

/-! ### Applying proposals -/

theorem length_le_of_covers : ∀ (n : Nat) (S : List Nat), (∀ i, i < n → i ∈ S) → n ≤ S.length := by
  intro n
  induction n with
  | zero => intro S _; exact Nat.zero_le _
  | succ n ih =>
    intro S h
    have hn := h n (Nat.lt_succ_self n)
    have h1 := ih (S.erase n) fun i hi => (List.mem_erase_of_ne (by omega)).2 (h i (by omega))
    have h2 : 0 < S.length := List.length_pos_of_mem hn
    rw [List.length_erase_of_mem hn] at h1
    omega

theorem get_ne_none_lt {t : RatchetTree} {x : Nat} (h : t.get x ≠ none) : x < t.length := by
  cases hg : t.get x with
  | none => exact absurd hg h
  | some n => exact lt_of_get hg

theorem updates_ok : ∀ (us : List (Nat × LeafNode)) (t : RatchetTree), 0 < t.length → t.length < 4294967296 →
    (∀ u ∈ us, t.get (2 * u.1) ≠ none) →
    ∃ t', us.foldlM (fun t u => t.update u.1 u.2) t = Res.ok t' ∧ t'.length = t.length ∧
      ∀ i, t'.get (2 * i) = none ↔ t.get (2 * i) = none := by
  intro us
  induction us with
  | nil => intro t _ _ _; exact ⟨t, rfl, rfl, fun _ => Iff.rfl⟩
  | cons u us ih =>
    intro t h0 hl h
    obtain ⟨n0, n1, n2⟩ := num_leaves_bounds h0 hl
    have hK := isHeight_height n0
    have hu := get_ne_none_lt (h u List.mem_cons_self)
    obtain ⟨t1, e1, l1, g1⟩ := update_in (leaf := u.2) h0 hl hK (li := u.1) (by have := hK.1; omega)
    have hg : ∀ i, t1.get (2 * i) = none ↔ t.get (2 * i) = none := by
      intro i
      rw [g1]
      by_cases hi : 2 * i = 2 * u.1 ∧ 2 * u.1 < t.length
      · rw [if_pos hi, hi.1]
        exact ⟨nofun, fun hn => absurd hn (h u List.mem_cons_self)⟩
      · rw [if_neg hi, if_neg fun ha => above_ne_leaf ha i rfl]
    obtain ⟨t2, e2, l2, g2⟩ := ih t1 (by omega) (by omega) fun v hv hn =>
      h v (List.mem_cons_of_mem _ hv) ((hg _).1 hn)
    exact ⟨t2, by rw [List.foldlM_cons, e1]; exact e2, by omega, fun i => (g2 i).trans (hg i)⟩

theorem removes_ok : ∀ (rs : List Nat) (t : RatchetTree), t.length < 4294967296 → rs.Nodup →
    (∀ r ∈ rs, t.get (2 * r) ≠ none) →
    ∃ t', rs.foldlM (fun t r => t.remove r) t = Res.ok t' ∧ t'.length ≤ t.length ∧
      ∀ i, t'.get (2 * i) = if i ∈ rs then none else t.get (2 * i) := by
  intro rs
  induction rs with
  | nil => intro t _ _ _; exact ⟨t, rfl, Nat.le_refl _, fun _ => by simp⟩
  | cons r rs ih =>
    intro t hl hnd h
    have hr := get_ne_none_lt (h r List.mem_cons_self)
    obtain ⟨t1, e1, l1, g1⟩ := remove_leaves hl hr
    obtain ⟨hnr, hnd⟩ := List.nodup_cons.1 hnd
    obtain ⟨t2, e2, l2, g2⟩ := ih t1 (by omega) hnd fun s hs => by
      rw [g1, if_neg (fun he : s = r => hnr (he ▸ hs))]
      exact h s (List.mem_cons_of_mem _ hs)
    refine ⟨t2, by rw [List.foldlM_cons, e1]; exact e2, by omega, fun i => ?_⟩
    rw [g2, g1]
    by_cases h1 : i = r
    · simp [h1]
    · by_cases h2 : i ∈ rs <;> simp [h1, h2]

theorem adds_ok : ∀ (ls : List LeafNode) (t : RatchetTree) (S : List Nat), 0 < t.length → t.length < 2 ^ 31 →
    (∀ i, t.get (2 * i) ≠ none → i ∈ S) → 4 * (S.length + ls.length) + 1 < 2 ^ 31 →
    ∃ t', ls.foldlM (fun t l => t.add l) t = Res.ok t' := by
  intro ls
  induction ls with
  | nil => intro t S _ _ _ _; exact ⟨t, rfl⟩
  | cons l ls ih =>
    intro t S h0 hl hS hb
    rw [List.length_cons] at hb
    obtain ⟨n0, n1, n2⟩ := num_leaves_bounds h0 (by omega)
    have next : ∀ (t1 : RatchetTree) (j : Nat), t.add l = .ok t1 → 0 < t1.length → t1.length < 2 ^ 31 →
        (∀ i, t1.get (2 * i) ≠ none → i = j ∨ t.get (2 * i) ≠ none) →
        ∃ t', (l :: ls).foldlM (fun t l => t.add l) t = Res.ok t' := by
      intro t1 j e1 h1 h2 h3
      obtain ⟨t2, e2⟩ := ih t1 (j :: S) h1 h2 (fun i hi => by
        rcases h3 i hi with rfl | h
        · exact List.mem_cons_self
        · exact List.mem_cons_of_mem _ (hS i h)) (by rw [List.length_cons]; omega)
      exact ⟨t2, by rw [List.foldlM_cons, e1]; exact e2⟩
    have key := first_free t t.num_leaves
    rcases key with ⟨j, hj, h1, h2⟩ | h
    · obtain ⟨t1, e, l1, g1⟩ := add_free (leaf := l) (by omega) (isHeight_height n0) (by omega) h1 h2
      refine next t1 j e (by omega) (by omega) fun i hi => ?_
      rw [g1] at hi
      by_cases hij : 2 * i = 2 * j
      · exact .inl (by omega)
      · rw [if_neg hij, if_neg fun ha => above_ne_leaf ha i rfl] at hi
        exact .inr hi
    · have hc := length_le_of_covers t.num_leaves S fun i hi => hS i (h i hi)
      rcases Nat.mod_two_eq_zero_or_one t.length with hm | hm
      · obtain ⟨t1, e, l1, g0, g1⟩ := add_even (t := t) (m := t.length / 2) (leaf := l) (by omega) (by omega) hl
          fun i hi => h i (by omega)
        exact next t1 0 e (by omega) (by omega) fun i hi => .inr (by rw [← g1]; exact hi)
      · obtain ⟨t1, e, l1, g1⟩ := add_grow (t := t) (n := (t.length + 1) / 2) (leaf := l) (by omega) h0 hl
          (isHeight_height (by omega)) fun i hi => h i (by omega)
        refine next t1 ((t.length + 1) / 2) e (by omega) (by omega) fun i hi => ?_
        rw [g1] at hi
        by_cases hij : 2 * i = 2 * ((t.length + 1) / 2)
        · exact .inl (by omega)
        · rw [if_neg hij, if_neg fun ha => above_ne_leaf ha i rfl] at hi
          exact .inr hi

end RatchetTree

/-! ### Framing, key schedule, welcome -/

namespace Spec.Calm
variable {P : CryptoProvider} (hP : Calm P)
include hP

theorem verify_content (cs : CipherSuite) (x : AuthenticatedContent) (key : Bytes) (ctx : GroupContext) :
    Returns (x.verify_signature P cs key ctx) :=
  returns_bind (FramedContentTBS.write_noFault _) fun _ _ => hP.verify_with_label _ _ _ _ _

theorem verify_membership_tag (cs : CipherSuite) (x : PublicMessage) (key : Bytes) (ctx : GroupContext) :
    Returns (x.verify_membership_tag P cs key ctx) := by
  unfold PublicMessage.verify_membership_tag
  split
  · exact returns_ok _
  · exact returns_ok _
  · exact returns_ok _
  · split
    · split
      · exact hP.verify_mac _ _ _ _
      · exact returns_err _
      · rename_i f hf
        refine absurd hf ?_
        exact app_noFault (FramedContentTBS.write_noFault _ _) ((authData_w _ _).noFault _)
    · exact returns_ok _

theorem verify_commit_tag (cs : CipherSuite) (x : FramedContentAuthData) (key hash : Bytes) :
    Returns (x.verify_confirmation_tag P cs key hash) := by
  unfold FramedContentAuthData.verify_confirmation_tag
  split
  · exact returns_err _
  · exact hP.verify_mac _ _ _ _

theorem extract_joiner_secret (ctx : GroupContext) (i c : Bytes) : Returns (ctx.extract_joiner_secret P i c) :=
  returns_bind (hP.hpke _) fun _ hh => returns_bind (hP.extract _ _ hh _ _) fun _ _ =>
    returns_bind (groupContext_w _).returns fun _ _ => returns_bind (hP.hpke _) fun _ _ =>
      hP.expand_with_label _ _ _ _ _

theorem extract_epoch_secret (ctx : GroupContext) (j p : Bytes) : Returns (ctx.extract_epoch_secret P j p) :=
  returns_bind (hP.hpke _) fun _ hh => returns_bind (hP.extract _ _ hh _ _) fun _ _ =>
    returns_bind (groupContext_w _).returns fun _ _ => hP.expand_with_label _ _ _ _ _

theorem extract_welcome_secret (cs : CipherSuite) (j p : Bytes) : Returns (Rmls.extract_welcome_secret P cs j p) :=
  returns_bind (hP.hpke _) fun _ hh => returns_bind (hP.extract _ _ hh _ _) fun _ _ => hP.derive_secret _ _ _

theorem pskLoop (cs : CipherSuite) (size count : Nat) :
    ∀ rest i s, Returns (Rmls.pskLoop P cs size count i s rest) := by
  intro rest
  induction rest with
  | nil => intro i s; exact returns_ok _
  | cons r rest ih =>
    intro i s
    exact returns_bind (hP.hpke _) fun _ hh => returns_bind (hP.extract _ _ hh _ _) fun _ _ =>
      returns_bind (pskLabel_w _).returns fun _ _ => returns_bind (hP.expand_with_label _ _ _ _ _) fun _ _ =>
      returns_bind (hP.extract _ _ hh _ _) fun _ _ => ih _ _

theorem extract_psk_secret (cs : CipherSuite) (ids : List PreSharedKeyID) (psks : List Bytes) :
    Returns (Rmls.extract_psk_secret P cs ids psks) := by
  unfold Rmls.extract_psk_secret
  split
  · exact returns_err _
  · exact returns_bind (hP.hpke _) fun _ _ => hP.pskLoop _ _ _ _ _ _

theorem verify_group_info (x : GroupInfo) (key : Bytes) : Returns (x.verify_signature P key) :=
  returns_bind (groupInfoTBS_w _).returns fun _ _ => hP.verify_with_label _ _ _ _ _

theorem verify_group_info_tag (x : GroupInfo) (j p : Bytes) : Returns (x.verify_confirmation_tag P j p) :=
  returns_bind (hP.extract_epoch_secret _ _ _) fun _ _ => returns_bind (hP.derive_secret _ _ _) fun _ _ =>
    hP.verify_mac _ _ _ _

theorem decrypt_group_secrets (x : Welcome) (r key : Bytes) : Returns (x.decrypt_group_secrets P r key) := by
  unfold Welcome.decrypt_group_secrets
  split
  · exact returns_bind (hP.decrypt_with_label _ _ _ _ _ _) fun _ _ =>
      returns_exact (noF_all GroupSecrets.noF GroupSecrets.noF _)
  · exact returns_err _

/-- What is expanded has the size asked for. -/
theorem expand_with_label_size {cs : CipherSuite} {s l c out : Bytes} {n : UInt16}
    (h : P.expand_with_label cs s l c n = .ok out) : out.length = n.toNat := by
  unfold CryptoProvider.expand_with_label at h
  obtain ⟨info, _, h⟩ := Res.bind_ok_iff.1 h
  obtain ⟨hp, hh, h⟩ := Res.bind_ok_iff.1 h
  exact hP.expand_size _ _ hh _ _ _ _ h

theorem key_size {cs : CipherSuite} {h : Hpke} (hh : P.hpke cs = .ok h) :
    (UInt16.ofNat h.aead_key_size).toNat = h.aead_key_size ∧
    (UInt16.ofNat h.aead_nonce_size).toNat = h.aead_nonce_size := by
  obtain ⟨h1, h2⟩ := hP.sizes _ _ hh
  simp only [UInt16.toNat_ofNat']
  omega

theorem decrypt_group_info (x : Welcome) (j p : Bytes) : Returns (x.decrypt_group_info P j p) :=
  returns_bind (hP.extract_welcome_secret _ _ _) fun _ _ => returns_bind (hP.hpke _) fun _ hh =>
    returns_bind (hP.expand_with_label _ _ _ _ _) fun _ hn => returns_bind (hP.expand_with_label _ _ _ _ _) fun _ hk =>
    returns_bind (hP.aead_open _ _ hh _ _ _ _ ((hP.expand_with_label_size hk).trans (hP.key_size hh).1)
      ((hP.expand_with_label_size hn).trans (hP.key_size hh).2)) fun _ _ => returns_exact (noF_all GroupInfo.noF GroupInfo.noF _)

theorem sample_ciphertext (cs : CipherSuite) (c : Bytes) : Returns (Rmls.sample_ciphertext P cs c) := by
  refine returns_bind (hP.hpke _) fun _ _ => ?_
  dsimp only
  split <;> exact returns_ok _

theorem decrypt_sender_data (cs : CipherSuite) (x : PrivateMessage) (s : Bytes) :
    Returns (x.decrypt_sender_data P cs s) := by
  have hk : Returns (expand_sender_data_key P cs s x.ciphertext) :=
    returns_bind (hP.hpke _) fun _ _ => returns_bind (hP.sample_ciphertext _ _) fun _ _ => hP.expand_with_label _ _ _ _ _
  have hn : Returns (expand_sender_data_nonce P cs s x.ciphertext) :=
    returns_bind (hP.hpke _) fun _ _ => returns_bind (hP.sample_ciphertext _ _) fun _ _ => hP.expand_with_label _ _ _ _ _
  exact returns_bind hk fun _ ek => returns_bind hn fun _ en => returns_bind (senderDataAAD_w _).returns fun _ _ =>
    returns_bind (hP.hpke _) fun _ hh => returns_bind (hP.aead_open _ _ hh _ _ _ _
      (by
        obtain ⟨_, h1, h2⟩ := Res.bind_ok_iff.1 ek
        obtain ⟨_, _, h3⟩ := Res.bind_ok_iff.1 h2
        cases hh.symm.trans h1
        exact (hP.expand_with_label_size h3).trans (hP.key_size hh).1)
      (by
        obtain ⟨_, h1, h2⟩ := Res.bind_ok_iff.1 en
        obtain ⟨_, _, h3⟩ := Res.bind_ok_iff.1 h2
        cases hh.symm.trans h1
        exact (hP.expand_with_label_size h3).trans (hP.key_size hh).2)) fun _ _ =>
    returns_exact (noF_all SenderData.noF SenderData.noF _)

theorem message_keys (cs : CipherSuite) (s : RatchetSecret) (g : Bytes) :
    Returns (derive_private_message_key_and_nonce P cs s g) := by
  have ht : ∀ l g n, Returns (derive_tree_secret P cs s.secret l g n) := fun l g n =>
    returns_bind (writes_u32 _).returns fun _ _ => hP.expand_with_label _ _ _ _ _
  refine returns_bind (returns_bind (hP.hpke _) fun _ _ => ht _ _ _) fun _ _ =>
    returns_bind (returns_bind (hP.hpke _) fun _ _ => ht _ _ _) fun _ _ => ?_
  split
  · exact returns_err _
  · exact returns_ok _

/-- The key and the nonce of a message have the sizes of the cipher. -/
theorem message_keys_size {cs : CipherSuite} {s : RatchetSecret} {g : Bytes} {kn : Bytes × Bytes}
    (h : derive_private_message_key_and_nonce P cs s g = .ok kn) {hp : Hpke} (hh : P.hpke cs = .ok hp) :
    kn.1.length = hp.aead_key_size ∧ kn.2.length = hp.aead_nonce_size := by
  have ht : ∀ {l g n out}, derive_tree_secret P cs s.secret l g n = .ok out → out.length = n.toNat := by
    intro l g n out h
    obtain ⟨_, _, h⟩ := Res.bind_ok_iff.1 h
    exact hP.expand_with_label_size h
  unfold derive_private_message_key_and_nonce at h
  obtain ⟨k, hk, h⟩ := Res.bind_ok_iff.1 h
  obtain ⟨n, hn, h⟩ := Res.bind_ok_iff.1 h
  obtain ⟨_, k1, k2⟩ := Res.bind_ok_iff.1 hk
  obtain ⟨_, n1, n2⟩ := Res.bind_ok_iff.1 hn
  cases hh.symm.trans k1
  cases hh.symm.trans n1
  split at h
  · cases h
  · cases h
    exact ⟨(ht k2).trans (hP.key_size hh).1, (xorGuard_length _ _).trans ((ht n2).trans (hP.key_size hh).2)⟩

theorem decrypt_content (cs : CipherSuite) (x : PrivateMessage) (s : RatchetSecret) (g : Bytes)
    (hr : ∀ h key nonce aad plain, P.hpke cs = .ok h → h.aead_open key nonce x.ciphertext aad = .ok plain →
      Returns (PrivateMessageContent.deserialize x.content_type plain)) :
    Returns (x.decrypt_content P cs s g) := by
  refine returns_bind (hP.message_keys _ _ _) fun kn ek => returns_bind (privateContentAAD_w _).returns fun _ _ =>
    returns_bind (hP.hpke _) fun _ hh => returns_bind (hP.aead_open _ _ hh _ _ _ _ (hP.message_keys_size ek hh).1
      (hP.message_keys_size ek hh).2) fun _ ho => ?_
  have h := hr _ _ _ _ _ hh ho
  split
  · exact returns_ok _
  · exact returns_err _
  · rename_i f hf; exact absurd hf (h f)

end Spec.Calm
end Rmls
