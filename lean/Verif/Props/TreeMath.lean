import Verif.Proofs.TreeMath
/-
Properties C10 to C12: the array representation of the tree.

`Spec.node k i` is the index of the node at level `k`, position `i`; `C10_in_order` says that this is
the numbering of an in-order traversal, `C10_coordinates` that every index is a node.
A tree of `n` leaves, `0 < n ≤ 2^31`, is what `NumLeaves::new` makes of an array with fewer than 2^32
slots (`C10_num_leaves`).
-/
namespace Rmls
open Spec NumLeaves

/-! ## C10 -/

/-- The nodes of the perfect binary tree below (k, i), visited in order, are numbered consecutively. -/
theorem C10_in_order (k i : Nat) :
    (inOrder k i).map (fun p => node p.1 p.2) = List.range' (i * 2 ^ (k + 1)) (2 ^ (k + 1) - 1) := by
  induction k generalizing i with
  | zero => simp [inOrder, node_zero, Nat.mul_comm]
  | succ k ih =>
    have h1 := node_left k i
    have hp := Nat.two_pow_pos (k + 1)
    have hn : node (k + 1) i = i * 2 ^ (k + 1 + 1) + (2 ^ (k + 1) - 1) := by
      have := node_add_one (k + 1) i
      rw [Nat.pow_succ 2 (k + 1)]
      have h2 : i * (2 ^ (k + 1) * 2) = 2 ^ (k + 1) * (2 * i) := by
        rw [Nat.mul_comm (2 ^ (k + 1)) 2, ← Nat.mul_assoc, Nat.mul_comm i 2, Nat.mul_comm]
      rw [Nat.mul_add, ← h2] at this
      omega
    simp only [inOrder, List.map_append, List.map_cons, ih, hn]
    have h2 : 2 * i * 2 ^ (k + 1) = i * 2 ^ (k + 1 + 1) := by
      rw [Nat.pow_succ 2 (k + 1), Nat.mul_comm 2 i, Nat.mul_assoc, Nat.mul_comm 2]
    have h3 : (2 * i + 1) * 2 ^ (k + 1) = i * 2 ^ (k + 1 + 1) + (2 ^ (k + 1) - 1) + 1 := by
      rw [Nat.add_mul, h2]; omega
    rw [h2, h3, ← List.range'_succ]
    have h4 : (2 ^ (k + 1) - 1) + (2 ^ (k + 1) - 1 + 1) = 2 ^ (k + 1 + 1) - 1 := by
      rw [Nat.pow_succ 2 (k + 1)]; omega
    rw [List.range'_append_1, h4]

/-- Every index is the number of exactly one node. -/
theorem C10_coordinates (x : Nat) :
    ∃ k i, x = node k i ∧ ∀ k' i', x = node k' i' → k' = k ∧ i' = i := by
  obtain ⟨k, i, h⟩ := node_surj x
  exact ⟨k, i, h, fun k' i' h' => node_inj (h'.symm.trans h)⟩

/-- The number of leaves computed from an array size is in range and is the number of even indices. -/
theorem C10_num_leaves (w : Nat) (hw : w < 2 ^ 32) :
    NumLeaves.new w ≤ 2 ^ 31 ∧ ∀ j, j < NumLeaves.new w ↔ 2 * j < w := by
  unfold NumLeaves.new
  split
  · exact ⟨by omega, fun j => by omega⟩
  · exact ⟨by omega, fun j => by omega⟩

/-- The root is the top of the smallest perfect tree that holds the leaves. -/
theorem C10_root (n : Nat) (h0 : 0 < n) (hn : n ≤ 2 ^ 31) :
    ∃ K, IsHeight n K ∧ K ≤ 31 ∧ NumLeaves.root n = .ok (node K 0) := by
  obtain ⟨h1, h2⟩ := height_bounds h0
  have h3 := height_lt h0 hn
  refine ⟨height n, ⟨h2, fun j hj => ?_⟩, by omega, root_eq h0 hn⟩
  apply Decidable.byContradiction
  intro hc
  have : 2 ^ (j + 1) ≤ 2 ^ height n := Nat.pow_le_pow_right (by omega) (by omega)
  rw [Nat.pow_succ] at this
  omega

/-- The width of a tree of `n` leaves. -/
theorem C10_width (n : Nat) (h0 : 0 < n) (hn : n ≤ 2 ^ 31) : NumLeaves.width n = .ok (2 * n - 1) := by
  rw [width_eq h0 hn]; congr 1; omega

theorem node_level_lt {k i : Nat} (hx : node k i < 2 ^ 32 - 1) : k < 32 := by
  apply Decidable.byContradiction
  intro hc
  have h1 := node_le k i
  have h2 : 2 ^ 32 ≤ 2 ^ k := Nat.pow_le_pow_right (by omega) (by omega)
  omega

/-- Levels, for every index below 2^32 - 1. -/
theorem C10_level (k i : Nat) (hx : node k i < 2 ^ 32 - 1) : NodeIndex.level (node k i) = .ok k :=
  NodeIndex.level_node i (node_level_lt hx)

/-- Leaves are the even indices. -/
theorem C10_leaf (k i : Nat) : NodeIndex.is_leaf (node k i) = true ↔ k = 0 := NodeIndex.is_leaf_iff k i

/-- Leaf index and node index are inverse to each other. -/
theorem C10_leaf_index (x : Nat) (li : Nat) (hli : li < 2 ^ 31) :
    NodeIndex.leaf_index x = some li ↔ LeafIndex.node_index li = .ok x := by
  unfold NodeIndex.leaf_index NodeIndex.is_leaf LeafIndex.node_index mul32
  rw [if_pos (show 2 * li < 4294967296 by omega), shr_one]
  constructor
  · intro h
    split at h
    · rename_i hx
      simp at h hx
      congr 1; omega
    · cases h
  · intro h
    cases h
    rw [if_pos (by simp)]
    congr 1; omega

/-- The children, for every index below 2^32 - 1. -/
theorem C10_children (k i : Nat) (hx : node k i < 2 ^ 32 - 1) :
    NodeIndex.children (node k i) =
      .ok (match k with | 0 => none | k + 1 => some (node k (2 * i), node k (2 * i + 1))) := by
  have hk := node_level_lt hx
  cases k with
  | zero => exact NodeIndex.children_zero i
  | succ k => exact NodeIndex.children_succ i hk

/-- Left and right child separately. -/
theorem C10_left_right (k i : Nat) (hx : node k i < 2 ^ 32 - 1) :
    NodeIndex.left (node k i) = .ok (match k with | 0 => none | k + 1 => some (node k (2 * i))) ∧
    NodeIndex.right (node k i) = .ok (match k with | 0 => none | k + 1 => some (node k (2 * i + 1))) := by
  have hk := node_level_lt hx
  cases k with
  | zero => exact ⟨NodeIndex.left_zero i, NodeIndex.right_zero i⟩
  | succ k => exact ⟨NodeIndex.left_succ i hk, NodeIndex.right_succ i hk⟩

/-- The parent of a node of the tree: one level up, half the position; only the root has none. -/
theorem C10_parent (n k i r : Nat) (h0 : 0 < n) (hn : n ≤ 2 ^ 31) (hr : NumLeaves.root n = .ok r)
    (hx : node k i ≤ 2 * r) :
    NumLeaves.parent n (node k i) =
      .ok (if node k i = r then none else some (node (k + 1) (i / 2))) := by
  rw [root_eq h0 hn] at hr
  cases hr
  have h := inTree_iff.2 hx
  rw [parent_inTree h0 hn h]
  congr 1
  by_cases hk : k = height n
  · subst hk
    rw [inTree_top h]; simp
  · rw [if_neg hk, if_neg fun he => hk (node_inj he).1]

/-- The sibling of a node of the tree: the neighbour with the same parent. -/
theorem C10_sibling (n k i r : Nat) (h0 : 0 < n) (hn : n ≤ 2 ^ 31) (hr : NumLeaves.root n = .ok r)
    (hx : node k i ≤ 2 * r) :
    NumLeaves.sibling n (node k i) =
      .ok (if node k i = r then none else some (node k (siblingPos i))) := by
  rw [root_eq h0 hn] at hr
  cases hr
  have h := inTree_iff.2 hx
  rw [sibling_inTree h0 hn h]
  congr 1
  by_cases hk : k = height n
  · subst hk
    rw [inTree_top h]; simp
  · rw [if_neg hk, if_neg fun he => hk (node_inj he).1]

/-- In terms of the interface alone: the children of a node of the tree have it as parent, are one
level below, lie on either side of it, and are each other's siblings. -/
theorem C10_consistent (n x l r root : Nat) (h0 : 0 < n) (hn : n ≤ 2 ^ 31)
    (hroot : NumLeaves.root n = .ok root) (hx : x ≤ 2 * root)
    (hc : NodeIndex.children x = .ok (some (l, r))) :
    NumLeaves.parent n l = .ok (some x) ∧ NumLeaves.parent n r = .ok (some x) ∧
    NumLeaves.sibling n l = .ok (some r) ∧ NumLeaves.sibling n r = .ok (some l) ∧
    l < x ∧ x < r ∧ r ≤ 2 * root ∧
    ∃ k, NodeIndex.level x = .ok (k + 1) ∧ NodeIndex.level l = .ok k ∧ NodeIndex.level r = .ok k := by
  have hroot' := hroot
  rw [root_eq h0 hn] at hroot'
  cases hroot'
  have hK := height_lt h0 hn
  obtain ⟨k, i, rfl⟩ := node_surj x
  have hin := inTree_iff.2 hx
  have hle := hin.1
  cases k with
  | zero => rw [NodeIndex.children_zero] at hc; cases hc
  | succ k =>
    rw [NodeIndex.children_succ i (by omega)] at hc
    cases hc
    have e1 : (2 * i) / 2 = i := by omega
    have e2 : (2 * i + 1) / 2 = i := by omega
    have hl : InTree (height n) k (2 * i) := inTree_down (by rw [e1]; exact hin)
    have hr : InTree (height n) k (2 * i + 1) := inTree_down (by rw [e2]; exact hin)
    have hl' := node_left k i
    have hr' := node_right k i
    have hp := Nat.two_pow_pos k
    refine ⟨?_, ?_, ?_, ?_, by omega, by omega, inTree_iff.1 hr, k, NodeIndex.level_node i (by omega),
      NodeIndex.level_node _ (by omega), NodeIndex.level_node _ (by omega)⟩
    · rw [parent_inTree h0 hn hl, if_neg (by omega), e1]
    · rw [parent_inTree h0 hn hr, if_neg (by omega), e2]
    · rw [sibling_inTree h0 hn hl, if_neg (by omega)]; simp [siblingPos]
    · rw [sibling_inTree h0 hn hr, if_neg (by omega)]; simp [siblingPos]

/-- In terms of the interface alone: a node of the tree with a parent is one of its two children. -/
theorem C10_parent_child (n x p root : Nat) (h0 : 0 < n) (hn : n ≤ 2 ^ 31)
    (hroot : NumLeaves.root n = .ok root) (hx : x ≤ 2 * root)
    (hp : NumLeaves.parent n x = .ok (some p)) :
    p ≤ 2 * root ∧ ∃ l r, NodeIndex.children p = .ok (some (l, r)) ∧ (x = l ∨ x = r) := by
  rw [root_eq h0 hn] at hroot
  cases hroot
  have hK := height_lt h0 hn
  obtain ⟨k, i, rfl⟩ := node_surj x
  have hin := inTree_iff.2 hx
  have hle := hin.1
  rw [parent_inTree h0 hn hin] at hp
  split at hp
  · cases hp
  · cases hp
    refine ⟨inTree_iff.1 (inTree_up hin (by omega)), _, _, NodeIndex.children_succ (i / 2) (by omega), ?_⟩
    rcases Nat.mod_two_eq_zero_or_one i with h | h
    · left; congr 1; omega
    · right; congr 1; omega

example : NumLeaves.root 5 = .ok 7 ∧ NumLeaves.parent 5 4 = .ok (some 5) ∧
    NodeIndex.children 5 = .ok (some (4, 6)) ∧ NumLeaves.sibling 5 4 = .ok (some 6) := by
  refine ⟨by rfl, by rfl, by rfl, by rfl⟩

/-! ## C11 -/

theorem mem_ancestors {k i d k' i' : Nat} :
    (k', i') ∈ ancestors k i d ↔ k < k' ∧ k' ≤ k + d ∧ i' = i / 2 ^ (k' - k) := by
  induction d generalizing k i with
  | zero => simp [ancestors]; omega
  | succ d ih =>
    simp only [ancestors, List.mem_cons, Prod.mk.injEq, ih, Nat.div_div_eq_div_mul]
    constructor
    · rintro (⟨rfl, rfl⟩ | ⟨h1, h2, h3⟩)
      · refine ⟨by omega, by omega, ?_⟩
        rw [show k + 1 - k = 1 by omega]
      · refine ⟨by omega, by omega, ?_⟩
        rw [show k' - k = k' - (k + 1) + 1 by omega, Nat.pow_succ', h3]
    · rintro ⟨h1, h2, h3⟩
      by_cases hk : k' = k + 1
      · left
        refine ⟨hk, ?_⟩
        rw [h3, hk, show k + 1 - k = 1 by omega]
      · right
        refine ⟨by omega, by omega, ?_⟩
        rw [h3, show k' - k = k' - (k + 1) + 1 by omega, Nat.pow_succ']

theorem below_iff {k i j : Nat} : below k i j ↔ j / 2 ^ k = i := by
  unfold below
  have hp := Nat.two_pow_pos k
  constructor
  · rintro ⟨h1, h2⟩
    have h3 := (Nat.le_div_iff_mul_le hp).2 h1
    have h4 := (Nat.div_lt_iff_lt_mul hp).2 h2
    omega
  · rintro rfl
    exact ⟨(Nat.le_div_iff_mul_le hp).1 (Nat.le_refl _), (Nat.div_lt_iff_lt_mul hp).1 (by omega)⟩

/-- C11.  The direct path of a node of the tree is the list of the nodes above it. -/
theorem C11_direct_path (n k i r : Nat) (h0 : 0 < n) (hn : n ≤ 2 ^ 31)
    (hr : NumLeaves.root n = .ok r) (hx : node k i ≤ 2 * r) :
    ∃ K, r = node K 0 ∧ k ≤ K ∧
      NumLeaves.direct_path n (node k i) = .ok ((ancestors k i (K - k)).map fun p => node p.1 p.2) := by
  rw [root_eq h0 hn] at hr
  cases hr
  have hin := inTree_iff.2 hx
  exact ⟨height n, rfl, hin.1, direct_path_inTree h0 hn hin⟩

/-- C11.  Membership and order: the direct path consists of exactly the nodes of the tree, other than
the node itself, whose leaves include all leaves of the node; one per level, bottom up. -/
theorem C11_ancestors (n k i r : Nat) (h0 : 0 < n) (hn : n ≤ 2 ^ 31)
    (hr : NumLeaves.root n = .ok r) (hx : node k i ≤ 2 * r) :
    ∃ path K, NumLeaves.direct_path n (node k i) = .ok path ∧ r = node K 0 ∧
      path.length = K - k ∧
      (∀ d (h : d < path.length), NodeIndex.level path[d] = .ok (k + 1 + d)) ∧
      ∀ k' i', node k' i' ∈ path ↔
        node k' i' ≤ 2 * r ∧ k' ≠ k ∧ ∀ j, below k i j → below k' i' j := by
  rw [root_eq h0 hn] at hr
  cases hr
  have hin := inTree_iff.2 hx
  have hle := hin.1
  have hK := height_lt h0 hn
  refine ⟨_, height n, direct_path_inTree h0 hn hin, rfl, ?_, ?_, ?_⟩
  · have : ∀ d k i, (ancestors k i d).length = d := by
      intro d
      induction d with
      | zero => intros; rfl
      | succ d ih => intro k i; simp [ancestors, ih]
    simp [this]
  · have : ∀ D k i d (h : d < ((ancestors k i D).map fun p => node p.1 p.2).length), k + D < 32 →
        NodeIndex.level ((ancestors k i D).map fun p => node p.1 p.2)[d] = .ok (k + 1 + d) := by
      intro D
      induction D with
      | zero => intro k i d h; simp [ancestors] at h
      | succ D ih =>
        intro k i d h hk
        cases d with
        | zero => simp [ancestors]; exact NodeIndex.level_node _ (by omega)
        | succ d =>
          simp only [ancestors, List.map_cons, List.getElem_cons_succ]
          rw [ih (k + 1) (i / 2) d _ (by omega)]
          congr 1; omega
    intro d h
    exact this _ _ _ _ h (by omega)
  · intro k' i'
    have hmem : node k' i' ∈ ((ancestors k i (height n - k)).map fun p => node p.1 p.2) ↔
        (k', i') ∈ ancestors k i (height n - k) := by
      rw [List.mem_map]
      constructor
      · rintro ⟨⟨a, b⟩, h, he⟩
        obtain ⟨rfl, rfl⟩ := node_inj he
        exact h
      · intro h; exact ⟨_, h, rfl⟩
    rw [hmem, mem_ancestors]
    constructor
    · rintro ⟨h1, h2, rfl⟩
      refine ⟨inTree_iff.1 ⟨by omega, ?_⟩, by omega, ?_⟩
      · have := hin.2
        rw [Nat.div_lt_iff_lt_mul (Nat.two_pow_pos _), ← Nat.pow_add]
        rw [show height n - k' + (k' - k) = height n - k by omega]
        exact this
      · intro j hj
        rw [below_iff] at hj ⊢
        rw [← hj, Nat.div_div_eq_div_mul, ← Nat.pow_add]
        congr 2; omega
    · rintro ⟨h1, h2, h3⟩
      have hin' := inTree_iff.2 h1
      have hb := h3 (i * 2 ^ k) (below_iff.2 (Nat.mul_div_cancel _ (Nat.two_pow_pos k)))
      have hp := Nat.two_pow_pos k
      have hb2 := h3 (i * 2 ^ k + (2 ^ k - 1)) (by
        unfold below; rw [Nat.add_mul]; exact ⟨by omega, by omega⟩)
      have hlt : k < k' := by
        apply Decidable.byContradiction
        intro hc
        have h5 : k' < k := by omega
        obtain ⟨c, hc⟩ : ∃ c, k = k' + (c + 1) := ⟨k - k' - 1, by omega⟩
        have hp' := Nat.two_pow_pos k'
        have h6 : 2 ^ k = 2 * 2 ^ c * 2 ^ k' := by
          rw [hc, Nat.pow_add, Nat.pow_succ]; simp [Nat.mul_comm, Nat.mul_left_comm]
        have h7 := Nat.two_pow_pos c
        have h8 : 2 * 2 ^ k' ≤ 2 ^ k := by
          rw [h6]
          exact Nat.mul_le_mul_right _ (by omega)
        unfold below at hb hb2
        have := hb.1
        have := hb2.2
        rw [Nat.add_mul] at this
        omega
      refine ⟨hlt, by have := hin'.1; omega, ?_⟩
      rw [below_iff] at hb
      rw [← hb]
      obtain ⟨c, rfl⟩ : ∃ c, k' = k + c := ⟨k' - k, by omega⟩
      rw [Nat.pow_add, ← Nat.div_div_eq_div_mul, Nat.mul_div_cancel _ hp, show k + c - k = c by omega]

/-- C11.  The copath lists the siblings of the node and of its ancestors below the root. -/
theorem C11_copath (n k i r : Nat) (h0 : 0 < n) (hn : n ≤ 2 ^ 31)
    (hr : NumLeaves.root n = .ok r) (hx : node k i ≤ 2 * r) :
    ∃ K, r = node K 0 ∧ k ≤ K ∧
      NumLeaves.copath n (node k i) = .ok ((siblings k i (K - k)).map fun p => node p.1 p.2) := by
  rw [root_eq h0 hn] at hr
  cases hr
  have hin := inTree_iff.2 hx
  exact ⟨height n, rfl, hin.1, copath_inTree h0 hn hin⟩

theorem siblings_partition (d k i j : Nat) (h : j / 2 ^ (k + d) = i / 2 ^ d) :
    ∃ p ∈ (k, i) :: siblings k i d, below p.1 p.2 j ∧
      ∀ q ∈ (k, i) :: siblings k i d, below q.1 q.2 j → q = p := by
  induction d generalizing k i with
  | zero =>
    refine ⟨(k, i), by simp, below_iff.2 (by simpa using h), ?_⟩
    intro q hq _
    simpa [siblings] using hq
  | succ d ih =>
    rw [show k + (d + 1) = k + 1 + d by omega, Nat.pow_succ', ← Nat.div_div_eq_div_mul] at h
    obtain ⟨p, hp, hb, hu⟩ := ih (k + 1) (i / 2) h
    have hsib : siblingPos i ≠ i ∧ siblingPos i / 2 = i / 2 := by unfold siblingPos; split <;> omega
    -- a leaf below a node at level `k` is below its parent
    have hup : ∀ m, below k m j → below (k + 1) (m / 2) j := by
      intro m hm
      rw [below_iff] at hm ⊢
      rw [← hm, Nat.pow_succ, ← Nat.div_div_eq_div_mul]
    have hmem : ∀ q ∈ siblings (k + 1) (i / 2) d, q ∈ (k + 1, i / 2) :: siblings (k + 1) (i / 2) d :=
      fun q hq => List.mem_cons_of_mem _ hq
    have hlev : ∀ d k i, ∀ q ∈ siblings k i d, k ≤ q.1 := by
      intro d
      induction d with
      | zero => intro k i q hq; simp [siblings] at hq
      | succ d ih =>
        intro k i q hq
        simp only [siblings, List.mem_cons] at hq
        rcases hq with rfl | hq
        · exact Nat.le_refl _
        · have := ih _ _ _ hq; omega
    have hne : ∀ q ∈ siblings (k + 1) (i / 2) d, q ≠ (k + 1, i / 2) := by
      cases d with
      | zero => intro q hq; simp [siblings] at hq
      | succ d =>
        intro q hq
        simp only [siblings, List.mem_cons] at hq
        rcases hq with rfl | hq
        · have : siblingPos (i / 2) ≠ i / 2 := by unfold siblingPos; split <;> omega
          intro h; simp only [Prod.mk.injEq] at h; exact this h.2
        · have := hlev _ _ _ _ hq
          rintro rfl; simp at this; omega
    by_cases hpe : p = (k + 1, i / 2)
    · subst hpe
      have hj : j / 2 ^ k / 2 = i / 2 := by
        rw [below_iff] at hb
        rw [Nat.div_div_eq_div_mul, ← Nat.pow_succ]; exact hb
      have hcase : j / 2 ^ k = i ∨ j / 2 ^ k = siblingPos i := by unfold siblingPos; split <;> omega
      have hrest : ∀ q ∈ siblings (k + 1) (i / 2) d, ¬ below q.1 q.2 j := by
        intro q hq hqb
        exact hne q hq (hu q (hmem q hq) hqb)
      rcases hcase with hc | hc
      · refine ⟨(k, i), by simp, below_iff.2 hc, ?_⟩
        intro q hq hqb
        simp only [siblings, List.mem_cons] at hq
        rcases hq with rfl | rfl | hq
        · rfl
        · rw [below_iff] at hqb; exact absurd (hqb.symm.trans hc) hsib.1
        · exact absurd hqb (hrest q hq)
      · refine ⟨(k, siblingPos i), by simp [siblings], below_iff.2 hc, ?_⟩
        intro q hq hqb
        simp only [siblings, List.mem_cons] at hq
        rcases hq with rfl | rfl | hq
        · rw [below_iff] at hqb; exact absurd (hc.symm.trans hqb) hsib.1
        · rfl
        · exact absurd hqb (hrest q hq)
    · have hp' : p ∈ siblings (k + 1) (i / 2) d := by
        rcases List.mem_cons.1 hp with h | h
        · exact absurd h hpe
        · exact h
      refine ⟨p, by simp [siblings, hp'], hb, ?_⟩
      intro q hq hqb
      simp only [siblings, List.mem_cons] at hq
      rcases hq with rfl | rfl | hq
      · exact absurd (hu _ (List.mem_cons_self) (hup _ hqb)).symm hpe
      · have := hup _ hqb
        rw [hsib.2] at this
        exact absurd (hu _ (List.mem_cons_self) this).symm hpe
      · exact hu q (hmem q hq) hqb

/-- C11.  Every leaf of the tree lies below exactly one of: the node, the nodes of its copath. -/
theorem C11_partition (n k i r : Nat) (h0 : 0 < n) (hn : n ≤ 2 ^ 31)
    (hr : NumLeaves.root n = .ok r) (hx : node k i ≤ 2 * r) :
    ∃ cs, NumLeaves.copath n (node k i) = .ok (cs.map fun p => node p.1 p.2) ∧
      ∀ j, 2 * j ≤ 2 * r → ∃ p ∈ (k, i) :: cs, below p.1 p.2 j ∧
        ∀ q ∈ (k, i) :: cs, below q.1 q.2 j → q = p := by
  obtain ⟨K, rfl, hk, hc⟩ := C11_copath n k i r h0 hn hr hx
  have hin := inTree_iff.2 hx
  refine ⟨_, hc, fun j hj => siblings_partition _ _ _ _ ?_⟩
  have hp := Nat.two_pow_pos K
  have hK : node K 0 + 1 = 2 ^ K := by rw [node_add_one]; simp
  rw [show k + (K - k) = K by omega, Nat.div_eq_of_lt (by omega), Nat.div_eq_of_lt hin.2]

example : NumLeaves.direct_path 6 8 = .ok [9, 11, 7] ∧ NumLeaves.copath 6 8 = .ok [10, 13, 3] := by
  exact ⟨by rfl, by rfl⟩
example : NumLeaves.root 6 = .ok 7 ∧ 8 ≤ 2 * 7 ∧ 8 = node 0 4 := ⟨by rfl, by omega, by rfl⟩

/-! ## C12: indices outside the tree -/

/-- C12, exact range for the walk to the root: it ends if and only if the index lies in the perfect tree
below the root, otherwise it panics. -/
theorem C12_walk_exact (n x r : Nat) (h0 : 0 < n) (hn : n ≤ 2 ^ 31) (hr : NumLeaves.root n = .ok r) :
    (x ≤ 2 * r → ∃ path, NumLeaves.direct_path n x = .ok path) ∧
    (2 * r < x → NumLeaves.direct_path n x = .fault .panic) := by
  rw [root_eq h0 hn] at hr
  cases hr
  obtain ⟨k, i, rfl⟩ := node_surj x
  constructor
  · intro h; exact ⟨_, direct_path_inTree h0 hn (inTree_iff.2 h)⟩
  · intro h
    exact direct_path_out h0 hn (fun h' => by have := inTree_iff.1 h'; omega)

/-- C12.  Converting a leaf index to a node index panics exactly from 2^31 on. -/
theorem C12_node_index_exact (li : Nat) :
    LeafIndex.node_index li = if li < 2 ^ 31 then .ok (2 * li) else .fault .panic := by
  unfold LeafIndex.node_index mul32
  by_cases h : li < 2 ^ 31
  · rw [if_pos h, if_pos (by omega)]
  · rw [if_neg h, if_neg (by omega)]

/-- C12.  In the empty tree every walk panics. -/
theorem C12_empty (x : Nat) : NumLeaves.direct_path 0 x = .fault .panic ∧
    NumLeaves.root 0 = .fault .panic := by
  refine ⟨?_, root_zero⟩
  unfold NumLeaves.direct_path directPathLoop
  rw [parent_zero]; rfl

/-- C12 is false: a leaf index one past a two-leaf tree makes the walk panic. -/
theorem C12_walk_refuted : ∃ n x, 0 < n ∧ NumLeaves.direct_path n x = .fault .panic :=
  ⟨2, 4, by omega, by rfl⟩

end Rmls
