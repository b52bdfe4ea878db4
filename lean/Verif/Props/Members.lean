import Verif.Proofs.RatchetTree
/-
Properties C13, C14, C15, C17, and C12 for the operations on the ratchet tree: adding, updating and
removing members.

Leaf `j` is at index `2 * j` of the array and `above K j x` says that `x` is an inner node above leaf `j`
in the perfect tree of height `K`; `K` is the height of the tree with as many leaves as the array has
room for, `(t.length + 1) / 2`.
-/
namespace Rmls
open Spec RatchetTree

theorem room {t : RatchetTree} (h0 : 0 < t.length) (h : t.length < 2 ^ 32) :
    t.num_leaves = (t.length + 1) / 2 := by
  rw [(num_leaves_bounds h0 h).2.2]; omega

/-! ### a tree for the examples -/

def toyLeaf (k : UInt8) : LeafNode :=
  { payload := {
      encryption_key := [k], signature_key := [k, k], credential := .Basic [k]
      capabilities := { versions := [.MLS10], cipher_suites := [], extensions := [], proposals := [],
                        credentials := [.Basic] }
      leaf_node_source := .Update, extensions := [] }
    signature := [] }

/-- Members at leaves 0, 1, 2; leaf 3 is free; the root is not blank. -/
def toyTree : RatchetTree :=
  [some (.Leaf (toyLeaf 0)), none, some (.Leaf (toyLeaf 1)), some (.Parent ⟨[9], [], [2]⟩),
   some (.Leaf (toyLeaf 2)), none, none]

theorem toyTree_height : IsHeight ((toyTree.length + 1) / 2) 2 :=
  ⟨by decide, fun j hj => by
    apply Decidable.byContradiction
    intro hc
    have : j = 0 ∨ j = 1 := by omega
    rcases this with rfl | rfl <;> exact absurd hj (by decide)⟩

/-! ## C13: add -/

/-- C13, free slot: the new leaf goes to the leftmost blank leaf `j`, is listed as unmerged by exactly the
non-blank parents above, and nothing else changes. -/
theorem C13_add_free (t : RatchetTree) (leaf : LeafNode) (j K : Nat) (hl : t.length < 2 ^ 32)
    (hK : IsHeight ((t.length + 1) / 2) K) (hj : 2 * j < t.length) (hb : t.get (2 * j) = none)
    (hleft : ∀ i, i < j → t.get (2 * i) ≠ none) :
    ∃ t', t.add leaf = .ok t' ∧ t'.length = t.length ∧
      ∀ x, t'.get x = if x = 2 * j then some (.Leaf leaf)
        else if above K j x then listed (UInt32.ofNat j) (t.get x) else t.get x :=
  add_free hl (by rw [room (by omega) hl]; exact hK) hj hb hleft

/-- The example tree: leaf 3 is taken, the root lists it. -/
example : ∃ t', toyTree.add (toyLeaf 3) = .ok t' ∧ t'.get 6 = some (.Leaf (toyLeaf 3)) ∧
    t'.get 3 = some (.Parent ⟨[9], [], [2, 3]⟩) := by
  obtain ⟨t', h1, _, h3⟩ := C13_add_free toyTree (toyLeaf 3) 3 2 (by decide) toyTree_height (by decide) rfl
    (by intro i hi; have : i = 0 ∨ i = 1 ∨ i = 2 := by omega
        rcases this with rfl | rfl | rfl <;> decide)
  exact ⟨t', h1, by rw [h3]; rfl, by rw [h3]; rfl⟩

/-- C13, no free slot, for an array of odd size `2 * n - 1`: the tree is doubled and the leaf stored at the
first new leaf `n`.  Missing: arrays of even size, and the empty tree, see the two theorems below. -/
theorem C13_add_grow_partial (t : RatchetTree) (leaf : LeafNode) (n K : Nat) (hn : 0 < n)
    (hlen : t.length = 2 * n - 1) (hl : t.length < 2 ^ 31) (hK : IsHeight (2 * n) K)
    (hfull : ∀ i, i < n → t.get (2 * i) ≠ none) :
    ∃ t', t.add leaf = .ok t' ∧ t'.length = 2 * t.length + 1 ∧
      ∀ x, t'.get x = if x = 2 * n then some (.Leaf leaf)
        else if above K n x then listed (UInt32.ofNat n) (t.get x) else t.get x :=
  add_grow (by omega) (by omega) hl hK hfull

example : ∃ t', add [some (.Leaf (toyLeaf 0))] (toyLeaf 1) = .ok t' ∧ t'.length = 3 ∧
    t'.get 2 = some (.Leaf (toyLeaf 1)) := by
  obtain ⟨t', h1, h2, h3⟩ := C13_add_grow_partial [some (.Leaf (toyLeaf 0))] (toyLeaf 1) 1 1 (by decide) rfl
    (by decide) ⟨by decide, fun j hj => by
      apply Decidable.byContradiction
      intro hc
      have : j = 0 := by omega
      subst this; exact absurd hj (by decide)⟩
    (by intro i hi; have : i = 0 := by omega
        subst this; decide)
  exact ⟨t', h1, h2, by rw [h3]; rfl⟩

/-- C13 is false for arrays of even size without a free slot (`remove` makes such arrays, see
`C15_shape_refuted`): the new member is written to an inner node and found at no leaf. -/
theorem C13_add_even_refuted (t : RatchetTree) (leaf : LeafNode) (m : Nat) (h0 : 0 < m)
    (hlen : t.length = 2 * m) (hl : t.length < 2 ^ 31) (hfull : ∀ i, i < m → t.get (2 * i) ≠ none) :
    ∃ t', t.add leaf = .ok t' ∧ ∀ i, t'.get_leaf i = t.get_leaf i := by
  obtain ⟨t', h1, _, _, h4⟩ := add_even (leaf := leaf) hlen h0 hl hfull
  refine ⟨t', h1, fun i => ?_⟩
  by_cases hi : i < 2 ^ 31
  · rw [get_leaf_eq hi, get_leaf_eq hi, h4]
  · unfold get_leaf
    rw [node_index_panic (by omega)]
    rfl

/-- Such a tree is one removal away: of two members the second leaves, then somebody joins. -/
example : remove [some (.Leaf (toyLeaf 0)), none, some (.Leaf (toyLeaf 1))] 1 =
    .ok [some (.Leaf (toyLeaf 0)), none] ∧
    add [some (.Leaf (toyLeaf 0)), none] (toyLeaf 2) =
      .ok [some (.Leaf (toyLeaf 0)), none, none, some (.Leaf (toyLeaf 2)), none] := ⟨rfl, rfl⟩

/-- Nobody can be added to the empty tree. -/
theorem C13_add_empty_refuted (leaf : LeafNode) : add [] leaf = .fault .panic := add_empty leaf

/-! ## C14: update -/

/-- C14: the leaf is replaced, the nodes above it are blanked, nothing else changes. -/
theorem C14_update (t : RatchetTree) (leaf : LeafNode) (li K : Nat) (hl : t.length < 2 ^ 32)
    (hK : IsHeight ((t.length + 1) / 2) K) (hli : 2 * li < t.length) :
    ∃ t', t.update li leaf = .ok t' ∧ t'.length = t.length ∧
      ∀ x, t'.get x = if x = 2 * li then some (.Leaf leaf) else if above K li x then none else t.get x := by
  have h0 : 0 < t.length := by omega
  have hK' : IsHeight t.num_leaves K := by rw [room h0 hl]; exact hK
  obtain ⟨t', h1, h2, h3⟩ := update_in (leaf := leaf) h0 hl hK' (leaf_in_tree h0 hl hK' hli)
  refine ⟨t', h1, h2, fun x => ?_⟩
  rw [h3]
  by_cases h : x = 2 * li
  · rw [if_pos ⟨h, hli⟩, if_pos h]
  · rw [if_neg (fun hc => h hc.1), if_neg h]

example : ∃ t', toyTree.update 1 (toyLeaf 7) = .ok t' ∧ t'.get 2 = some (.Leaf (toyLeaf 7)) ∧
    t'.get 3 = none ∧ t'.get 4 = some (.Leaf (toyLeaf 2)) := by
  obtain ⟨t', h1, _, h3⟩ := C14_update toyTree (toyLeaf 7) 1 2 (by decide) toyTree_height (by decide)
  exact ⟨t', h1, by rw [h3]; rfl, by rw [h3]; rfl, by rw [h3]; rfl⟩

/-! ## C15: remove -/

/-- C15, what is true of it: the leaf and the nodes above it are blanked; if `j` is the rightmost member left
and `2^m` the size of the smallest perfect tree that holds it, everything right of that tree is cut off.
Missing: the array keeps `2^(m+1)` slots where this tree has `2^(m+1) - 1` (`C15_shape_refuted`); the
number of leaves is right nevertheless. -/
theorem C15_remove_partial (t : RatchetTree) (li K j m : Nat) (hl : t.length < 2 ^ 32)
    (hK : IsHeight ((t.length + 1) / 2) K) (hli : 2 * li < t.length)
    (hj : t.get (2 * j) ≠ none) (hjl : j ≠ li) (hlast : ∀ i, j < i → i ≠ li → t.get (2 * i) = none)
    (hm : IsHeight (j + 1) m) :
    ∃ t', t.remove li = .ok t' ∧ t'.length = min t.length (2 ^ (m + 1)) ∧
      t'.num_leaves = min ((t.length + 1) / 2) (2 ^ m) ∧
      ∀ x, t'.get x = if x = 2 * li ∨ above K li x ∨ 2 ^ (m + 1) ≤ x then none else t.get x := by
  have h0 : 0 < t.length := by omega
  have hK' : IsHeight t.num_leaves K := by rw [room h0 hl]; exact hK
  have hlen : (List.take (2 ^ (m + 1)) (blanked t K li)).length = min t.length (2 ^ (m + 1)) := by
    rw [List.length_take, blanked_length, Nat.min_comm]
  refine ⟨_, remove_last h0 hl hK' (leaf_in_tree h0 hl hK' hli) hj hjl hlast hm, hlen, ?_, ?_⟩
  · rw [room (by rw [hlen]; have := Nat.two_pow_pos (m + 1); omega) (by rw [hlen]; omega), hlen, Nat.pow_succ]
    omega
  · intro x
    rw [get_take, blanked_get]
    by_cases h1 : x < 2 ^ (m + 1)
    · rw [if_pos h1]
      by_cases h2 : x = 2 * li ∨ above K li x
      · rw [if_pos h2, if_pos (by rcases h2 with h | h; exact Or.inl h; exact Or.inr (Or.inl h))]
      · rw [if_neg h2, if_neg]
        rintro (h | h | h)
        · exact h2 (Or.inl h)
        · exact h2 (Or.inr h)
        · omega
    · rw [if_neg h1, if_pos (Or.inr (Or.inr (by omega)))]

/-- C15: the last member leaves. -/
theorem C15_remove_last_member (t : RatchetTree) (li : Nat) (hl : t.length < 2 ^ 32) (hli : 2 * li < t.length)
    (hall : ∀ i, i ≠ li → t.get (2 * i) = none) : t.remove li = .ok [] := by
  have h0 : 0 < t.length := by omega
  obtain ⟨K, hK⟩ := exists_height (num_leaves_bounds h0 hl).1
  exact remove_clear h0 hl hK (leaf_in_tree h0 hl hK hli) hall

/-- C15: in every case the removed member is gone, and every other member keeps their index. -/
theorem C15_others_kept (t : RatchetTree) (li : Nat) (hl : t.length < 2 ^ 32) (hli : 2 * li < t.length) :
    ∃ t', t.remove li = .ok t' ∧ t'.get_leaf li = .ok none ∧
      ∀ i, i ≠ li → t'.get_leaf i = t.get_leaf i := by
  obtain ⟨t', h1, _, h3⟩ := remove_leaves hl hli
  refine ⟨t', h1, ?_, fun i hi => ?_⟩
  · rw [get_leaf_eq (by omega), h3, if_pos rfl]
  · by_cases hb : i < 2 ^ 31
    · rw [get_leaf_eq hb, get_leaf_eq hb, h3, if_neg hi]
    · unfold get_leaf
      rw [node_index_panic (by omega)]
      rfl

example : ∃ t', toyTree.remove 2 = .ok t' ∧ t'.length = 4 ∧ t'.num_leaves = 2 ∧ t'.get 3 = none ∧
    t'.get 2 = some (.Leaf (toyLeaf 1)) := by
  obtain ⟨t', h1, h2, h3, h4⟩ := C15_remove_partial toyTree 2 2 1 1 (by decide) toyTree_height (by decide)
    (by decide) (by decide)
    (by intro i h1 h2
        by_cases hi : i = 3
        · subst hi; rfl
        · exact get_out (by simp [toyTree]; omega))
    ⟨by decide, fun j hj => by
      apply Decidable.byContradiction
      intro hc
      have : j = 0 := by omega
      subst this; exact absurd hj (by decide)⟩
  exact ⟨t', h1, h2, h3, by rw [h4]; rfl, by rw [h4]; rfl⟩

/-- C15 is false as to the shape: the tree of the two members left has three nodes, the array has four
slots. -/
theorem C15_shape_refuted : ∃ (t t' : RatchetTree) (li : Nat), t.length = 7 ∧ 2 * li < t.length ∧
    t.remove li = .ok t' ∧ t'.length = 4 := ⟨toyTree, _, 2, rfl, by decide, rfl, rfl⟩

/-! ## C12: the operations on indices outside -/

/-- C12 is false: a leaf index outside the perfect tree makes `update` panic. -/
theorem C12_update_refuted (t : RatchetTree) (leaf : LeafNode) (li K : Nat) (h0 : 0 < t.length)
    (hl : t.length < 2 ^ 32) (hK : IsHeight ((t.length + 1) / 2) K) (hli : 2 ^ K ≤ li) :
    t.update li leaf = .fault .panic :=
  update_out h0 hl (by rw [room h0 hl]; exact hK) hli

/-- C12 is false: a leaf index outside the perfect tree makes `remove` panic. -/
theorem C12_remove_refuted (t : RatchetTree) (li K : Nat) (h0 : 0 < t.length)
    (hl : t.length < 2 ^ 32) (hK : IsHeight ((t.length + 1) / 2) K) (hli : 2 ^ K ≤ li) :
    t.remove li = .fault .panic :=
  remove_out h0 hl (by rw [room h0 hl]; exact hK) hli

/-- C12: inside the perfect tree but right of the array (which the wire format never produces) `update` drops
the leaf and still blanks the nodes above. -/
theorem C12_update_dropped_refuted (t : RatchetTree) (leaf : LeafNode) (li K : Nat) (h0 : 0 < t.length)
    (hl : t.length < 2 ^ 32) (hK : IsHeight ((t.length + 1) / 2) K) (hli : li < 2 ^ K) (ho : t.length ≤ 2 * li) :
    ∃ t', t.update li leaf = .ok t' ∧ ∀ x, t'.get x = if above K li x then none else t.get x := by
  obtain ⟨t', h1, _, h3⟩ := update_in (leaf := leaf) h0 hl (by rw [room h0 hl]; exact hK) hli
  exact ⟨t', h1, fun x => by rw [h3, if_neg (fun h => by omega)]⟩

/-- C12, what is true: no operation on a leaf of the perfect tree panics or loops. -/
theorem C12_operations_partial (t : RatchetTree) (leaf : LeafNode) (li K : Nat) (h0 : 0 < t.length)
    (hl : t.length < 2 ^ 32) (hK : IsHeight ((t.length + 1) / 2) K) (hli : li < 2 ^ K) :
    (∃ t', t.update li leaf = .ok t') ∧ ∃ t', t.remove li = .ok t' := by
  have hK' : IsHeight t.num_leaves K := by rw [room h0 hl]; exact hK
  obtain ⟨t', h1, _⟩ := update_in (leaf := leaf) h0 hl hK' hli
  obtain ⟨t'', _, h2, _⟩ := remove_get h0 hl hK' hli
  exact ⟨⟨t', h1⟩, t'', h2⟩

/-- C12: looking up a leaf is harmless below 2^31 and panics above. -/
theorem C12_get_leaf_exact (t : RatchetTree) (li : Nat) (ho : t.length ≤ 2 * li) :
    t.get_leaf li = if li < 2 ^ 31 then .ok none else .fault .panic := by
  by_cases hb : li < 2 ^ 31
  · rw [get_leaf_eq hb, if_pos hb, get_out ho]
  · rw [if_neg hb]
    unfold get_leaf
    rw [node_index_panic (by omega)]
    rfl

/-- The hypotheses of the refutations are met: leaf 4 of the example tree of height 2. -/
example : toyTree.update 4 (toyLeaf 7) = .fault .panic ∧ toyTree.remove 4 = .fault .panic :=
  ⟨C12_update_refuted _ _ 4 2 (by decide) (by decide) toyTree_height (by decide),
   C12_remove_refuted _ 4 2 (by decide) (by decide) toyTree_height (by decide)⟩
/-- Three slots' worth of leaves in an array of five: leaf 3 is in the tree of height 2 but not in the array. -/
example : update [some (.Leaf (toyLeaf 0)), none, none, some (.Parent ⟨[9], [], []⟩), some (.Leaf (toyLeaf 2))] 3
    (toyLeaf 7) = .ok [some (.Leaf (toyLeaf 0)), none, none, none, some (.Leaf (toyLeaf 2))] := by rfl

/-! ## C17: histories -/

/-- The operation on the tree. -/
def TreeOp.run (t : RatchetTree) : TreeOp → Res RatchetTree
  | .add leaf => t.add leaf
  | .update li leaf => t.update li leaf
  | .remove li => t.remove li

/-- Members update or are removed; a member is added to a tree that has a free slot or an array of odd size,
below the limit of node indices. -/
def Legal (t : RatchetTree) : TreeOp → Prop
  | .add _ => (∃ j, 2 * j < t.length ∧ t.get (2 * j) = none) ∨ (t.length % 2 = 1 ∧ t.length < 2 ^ 31)
  | .update li _ => t.get (2 * li) ≠ none
  | .remove li => t.get (2 * li) ≠ none

/-- A history of legal operations. -/
inductive History : RatchetTree → List TreeOp → RatchetTree → Prop where
  | nil (t) : History t [] t
  | cons {t t' t'' op ops} : Legal t op → TreeOp.run t op = .ok t' → History t' ops t'' →
      History t (op :: ops) t''

/-- Lookups return what the membership says. -/
def Looks (t : RatchetTree) (m : Members) : Prop :=
  (∀ i, i < 2 ^ 31 → t.get_leaf i = .ok (m i)) ∧ ∀ i, 2 ^ 31 ≤ i → m i = none

theorem least_free {t : RatchetTree} {j : Nat} (hj : 2 * j < t.length ∧ t.get (2 * j) = none) :
    ∃ j, 2 * j < t.length ∧ t.get (2 * j) = none ∧ ∀ i, i < j → t.get (2 * i) ≠ none := by
  induction j using Nat.strongRecOn with
  | _ j ih =>
    by_cases h : ∃ i, i < j ∧ t.get (2 * i) = none
    · obtain ⟨i, h1, h2⟩ := h
      exact ih i h1 ⟨by omega, h2⟩
    · exact ⟨j, hj.1, hj.2, fun i hi hc => h ⟨i, hi, hc⟩⟩

/-- What a legal operation does to the leaves. -/
theorem run_leaves {t : RatchetTree} {op : TreeOp} (hl : t.length < 2 ^ 32) (hop : Legal t op) :
    ∃ t' j v, TreeOp.run t op = .ok t' ∧ t'.length < 2 ^ 32 ∧
      (∀ i, t'.get (2 * i) = if i = j then v.map Node.Leaf else t.get (2 * i)) ∧ 2 * j < 2 ^ 32 ∧
      (match op with
      | .add leaf => v = some leaf ∧ t.get (2 * j) = none ∧ ∀ i, i < j → t.get (2 * i) ≠ none
      | .update li leaf => v = some leaf ∧ j = li
      | .remove li => v = none ∧ j = li) := by
  have hlt : ∀ {li}, t.get (2 * li) ≠ none → 2 * li < t.length := fun {li} h => by
    cases hg : t.get (2 * li) with
    | none => exact absurd hg h
    | some n => exact lt_of_get hg
  cases op with
  | add leaf =>
    by_cases hf : ∃ j, 2 * j < t.length ∧ t.get (2 * j) = none
    · obtain ⟨_, hf⟩ := hf
      obtain ⟨j, h1, h2, h3⟩ := least_free hf
      have h0 : 0 < t.length := by omega
      obtain ⟨K, hK⟩ := exists_height (num_leaves_bounds h0 hl).1
      obtain ⟨t', h4, h5, h6⟩ := add_free (leaf := leaf) hl hK h1 h2 h3
      refine ⟨t', j, some leaf, h4, by omega, fun i => ?_, by omega, rfl, h2, h3⟩
      rw [h6]
      by_cases hi : i = j
      · rw [if_pos (by omega), if_pos hi]; rfl
      · rw [if_neg (by omega), if_neg hi, if_neg (fun h => above_ne_leaf h i rfl)]
    · rcases hop with hop | ⟨h1, h2⟩
      · exact absurd hop hf
      · have hfull : ∀ i, i < (t.length + 1) / 2 → t.get (2 * i) ≠ none :=
          fun i hi hc => hf ⟨i, by omega, hc⟩
        obtain ⟨K, hK⟩ := exists_height (n := 2 * ((t.length + 1) / 2)) (by omega)
        obtain ⟨t', h4, h5, h6⟩ := add_grow (leaf := leaf) (by omega) (by omega) h2 hK hfull
        refine ⟨t', (t.length + 1) / 2, some leaf, h4, by omega, fun i => ?_, by omega, rfl,
          get_out (by omega), hfull⟩
        rw [h6]
        by_cases hi : i = (t.length + 1) / 2
        · rw [if_pos (by omega), if_pos hi]; rfl
        · rw [if_neg (by omega), if_neg hi, if_neg (fun h => above_ne_leaf h i rfl)]
  | update li leaf =>
    have h1 := hlt hop
    have h0 : 0 < t.length := by omega
    obtain ⟨K, hK⟩ := exists_height (num_leaves_bounds h0 hl).1
    obtain ⟨t', h4, h5, h6⟩ := update_in (leaf := leaf) h0 hl hK (leaf_in_tree h0 hl hK h1)
    refine ⟨t', li, some leaf, h4, by omega, fun i => ?_, by omega, rfl, rfl⟩
    rw [h6]
    by_cases hi : i = li
    · rw [if_pos (by omega), if_pos hi]; rfl
    · rw [if_neg (by omega), if_neg hi, if_neg (fun h => above_ne_leaf h i rfl)]
  | remove li =>
    have h1 := hlt hop
    obtain ⟨t', h4, h5, h6⟩ := remove_leaves hl h1
    exact ⟨t', li, none, h4, by omega, h6, by omega, rfl, rfl⟩

/-- C17, legal operations succeed. -/
theorem C17_progress (t : RatchetTree) (op : TreeOp) (hl : t.length < 2 ^ 32) (hop : Legal t op) :
    ∃ t', TreeOp.run t op = .ok t' := by
  obtain ⟨t', _, _, h, _⟩ := run_leaves hl hop
  exact ⟨t', h⟩

theorem looks_step {t t' : RatchetTree} {op : TreeOp} {m : Members} (hl : t.length < 2 ^ 32)
    (hs : LeafShaped t.get) (hm : Looks t m) (hop : Legal t op) (hr : TreeOp.run t op = .ok t') :
    t'.length < 2 ^ 32 ∧ LeafShaped t'.get ∧ ∃ m', Step m op m' ∧ Looks t' m' := by
  obtain ⟨t'', j, v, h1, h2, h3, h4, h5⟩ := run_leaves hl hop
  rw [h1] at hr
  cases hr
  have hmem : ∀ i, i < 2 ^ 31 → (t.get (2 * i) = none ↔ m i = none) := fun i hi => by
    have := hm.1 i hi
    rw [get_leaf_eq hi] at this
    cases hg : t.get (2 * i) with
    | none => rw [hg] at this; simpa using this.symm
    | some n =>
      cases n with
      | Leaf l => rw [hg] at this; simp at this; simp [← this]
      | Parent p => exact absurd hg (by rw [← node_zero]; exact hs i p)
  refine ⟨h2, ?_, m.put j v, ?_, ?_, ?_⟩
  · intro i p
    rw [node_zero, h3]
    by_cases hi : i = j
    · rw [if_pos hi]; cases v <;> simp
    · rw [if_neg hi, ← node_zero]; exact hs i p
  · cases op with
    | add leaf =>
      obtain ⟨rfl, h6, h7⟩ := h5
      exact ⟨j, (hmem j (by omega)).1 h6, fun i hi hc => h7 i hi ((hmem i (by omega)).2 hc), rfl⟩
    | update li leaf => obtain ⟨rfl, rfl⟩ := h5; rfl
    | remove li => obtain ⟨rfl, rfl⟩ := h5; rfl
  · intro i hi
    rw [get_leaf_eq hi, h3]
    unfold Members.put
    by_cases hij : i = j
    · rw [if_pos hij, if_pos hij]; cases v <;> rfl
    · rw [if_neg hij, if_neg hij, ← hm.1 i hi, get_leaf_eq hi]
  · intro i hi
    unfold Members.put
    rw [if_neg (by omega)]
    exact hm.2 i hi

/-- C17 over any history of legal operations, from any tree with leaves only at the leaf positions: lookups
return the member most recently stored under an index and not removed since, where a new member is stored
at the leftmost free index.  Missing: adding to a full tree whose array has an even size after a removal,
where the member is lost (`C17_lost_refuted`), and adding to an empty tree, which panics. -/
theorem C17_history_partial (t t' : RatchetTree) (ops : List TreeOp) (m : Members) (hl : t.length < 2 ^ 32)
    (hs : LeafShaped t.get) (hm : Looks t m) (h : History t ops t') :
    ∃ m', Steps m ops m' ∧ Looks t' m' := by
  induction h generalizing m with
  | nil t => exact ⟨m, .nil m, hm⟩
  | cons hop hr _ ih =>
    obtain ⟨h1, h2, m', h3, h4⟩ := looks_step hl hs hm hop hr
    obtain ⟨m'', h5, h6⟩ := ih m' h1 h2 h4
    exact ⟨m'', .cons h3 h5, h6⟩

/-- Every tree shows some membership. -/
theorem looks_some (t : RatchetTree) : ∃ m, Looks t m :=
  ⟨fun i => if i < 2 ^ 31 then (match t.get (2 * i) with | some (.Leaf n) => some n | _ => none) else none,
    fun i hi => by rw [get_leaf_eq hi]; dsimp only; rw [if_pos hi]; rfl, fun i hi => if_neg (by omega)⟩

/-- A history: a member joins, one updates, one leaves, another takes the free slot. -/
example : ∃ t', History toyTree [.add (toyLeaf 3), .update 0 (toyLeaf 4), .remove 1, .add (toyLeaf 5)] t' ∧
    LeafShaped toyTree.get ∧ t'.get_leaf 1 = .ok (some (toyLeaf 5)) := by
  refine ⟨_, .cons (Or.inl ⟨3, by decide, rfl⟩) rfl (.cons (by decide : _ ≠ _) rfl
    (.cons (by decide : _ ≠ _) rfl (.cons (Or.inl ⟨1, by decide, rfl⟩) rfl (.nil _)))), ?_, rfl⟩
  intro i p
  rw [node_zero]
  by_cases hi : i < 4
  · have : i = 0 ∨ i = 1 ∨ i = 2 ∨ i = 3 := by omega
    rcases this with rfl | rfl | rfl | rfl <;> simp [toyTree, RatchetTree.get]
  · rw [get_out (by simp [toyTree]; omega)]; simp

/-- C17 is false in general: of two members one leaves, another joins, and is not found anywhere. -/
theorem C17_lost_refuted : ∃ t t' t'' : RatchetTree, LeafShaped t.get ∧ t.length = 3 ∧
    t.remove 1 = .ok t' ∧ t'.add (toyLeaf 2) = .ok t'' ∧
    ∀ i, t''.get_leaf i ≠ .ok (some (toyLeaf 2)) := by
  refine ⟨[some (.Leaf (toyLeaf 0)), none, some (.Leaf (toyLeaf 1))], [some (.Leaf (toyLeaf 0)), none], _, ?_,
    rfl, rfl, rfl, ?_⟩
  · intro i p
    rw [node_zero]
    by_cases hi : i < 2
    · have : i = 0 ∨ i = 1 := by omega
      rcases this with rfl | rfl <;> simp [RatchetTree.get]
    · rw [get_out (by simp; omega)]; simp
  · intro i
    obtain ⟨t', h1, h2⟩ := C13_add_even_refuted [some (.Leaf (toyLeaf 0)), none] (toyLeaf 2) 1 (by decide) rfl
      (by decide) (by intro i hi; have : i = 0 := by omega
                      subst this; decide)
    cases h1
    rw [h2]
    by_cases hi : i < 2 ^ 31
    · rw [get_leaf_eq hi]
      by_cases h0 : i = 0
      · subst h0; simp [RatchetTree.get, toyLeaf]
      · rw [get_out (by simp; omega)]; simp
    · unfold get_leaf
      rw [node_index_panic (by omega)]
      simp

end Rmls
