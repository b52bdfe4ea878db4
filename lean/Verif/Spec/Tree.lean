/-
Perfect binary trees numbered in order (RFC 9420 appendix C).

A node is a pair (level, position from the left); leaves have level 0.  `node k i` is its index in the
array.  That this numbering is the in-order traversal is a theorem, `C10_in_order`.
-/
namespace Rmls.Spec

/-- The index of the node at level `k` and position `i`. -/
def node (k i : Nat) : Nat := 2 ^ k * (2 * i + 1) - 1

/-- In-order traversal of the subtree below the node at level `k` and position `i`: first the left
subtree, then the node, then the right subtree. -/
def inOrder : Nat → Nat → List (Nat × Nat)
  | 0, i => [(0, i)]
  | k + 1, i => inOrder k (2 * i) ++ (k + 1, i) :: inOrder k (2 * i + 1)

/-- Leaf `j` lies below the node at level `k` and position `i`. -/
def below (k i j : Nat) : Prop := i * 2 ^ k ≤ j ∧ j < (i + 1) * 2 ^ k

/-- The ancestors of the node at level `k`, position `i`, bottom up, `d` of them. -/
def ancestors (k i : Nat) : Nat → List (Nat × Nat)
  | 0 => []
  | d + 1 => (k + 1, i / 2) :: ancestors (k + 1) (i / 2) d

/-- The other child of the parent. -/
def siblingPos (i : Nat) : Nat := if i % 2 = 0 then i + 1 else i - 1

/-- The siblings of the node and of its ancestors, bottom up, `d` of them. -/
def siblings (k i : Nat) : Nat → List (Nat × Nat)
  | 0 => []
  | d + 1 => (k, siblingPos i) :: siblings (k + 1) (i / 2) d

/-- The smallest height of a perfect binary tree with at least `n` leaves, as a property. -/
def IsHeight (n k : Nat) : Prop := n ≤ 2 ^ k ∧ ∀ j, n ≤ 2 ^ j → k ≤ j

/-- Node `x` is an inner node above leaf `j` in the perfect tree of height `K`. -/
def above (K j x : Nat) : Prop := ∃ k, 1 ≤ k ∧ k ≤ K ∧ x = node k (j / 2 ^ k)

instance {K j x : Nat} : Decidable (above K j x) :=
  decidable_of_iff (∃ k, k < K + 1 ∧ 1 ≤ k ∧ x = node k (j / 2 ^ k))
    ⟨fun ⟨k, h1, h2, h3⟩ => ⟨k, h2, by omega, h3⟩, fun ⟨k, h1, h2, h3⟩ => ⟨k, by omega, h1, h3⟩⟩

end Rmls.Spec
