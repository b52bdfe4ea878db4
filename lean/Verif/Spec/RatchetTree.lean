import Verif.Spec.Tree
import Verif.Model.Wire
/-
The ratchet tree as a membership list, and the notions of RFC 9420 section 4.1 used in the property
theorems.  Only the data types of the model are used here, none of its functions.
-/
namespace Rmls.Spec

/-- The same node, one more leaf recorded as unmerged if it is a parent. -/
def listed (li : LeafIndex) : Option Node → Option Node
  | some (.Parent q) => some (.Parent { q with unmerged_leaves := q.unmerged_leaves ++ [li] })
  | n => n

/-- Who is a member, by leaf index. -/
abbrev Members := Nat → Option LeafNode

def Members.put (m : Members) (i : Nat) (v : Option LeafNode) : Members := fun j => if j = i then v else m j

/-- The operations of a group's history. -/
inductive TreeOp where
  | add (leaf : LeafNode)
  | update (li : Nat) (leaf : LeafNode)
  | remove (li : Nat)

/-- What an operation does to the membership: an added member gets the leftmost free index. -/
def Step (m : Members) : TreeOp → Members → Prop
  | .add leaf, m' => ∃ j, m j = none ∧ (∀ i, i < j → m i ≠ none) ∧ m' = m.put j (some leaf)
  | .update li leaf, m' => m' = m.put li (some leaf)
  | .remove li, m' => m' = m.put li none

/-- What a history does to the membership. -/
inductive Steps : Members → List TreeOp → Members → Prop where
  | nil (m) : Steps m [] m
  | cons {m m' m'' op ops} : Step m op m' → Steps m' ops m'' → Steps m (op :: ops) m''

/-- The resolution of the node at level `k`, position `i` (RFC 9420 section 4.1.1), as node indices. -/
def resolution (nodes : Nat → Option Node) : Nat → Nat → List Nat
  | 0, i =>
    match nodes (node 0 i) with
    | some (.Leaf _) => [node 0 i]
    | some (.Parent p) => node 0 i :: p.unmerged_leaves.map fun u => node 0 u.toNat
    | none => []
  | k + 1, i =>
    match nodes (node (k + 1) i) with
    | some (.Leaf _) => [node (k + 1) i]
    | some (.Parent p) => node (k + 1) i :: p.unmerged_leaves.map fun u => node 0 u.toNat
    | none => resolution nodes k (2 * i) ++ resolution nodes k (2 * i + 1)

/-- Node `x` is in the subtree rooted at level `k`, position `i`. -/
def inSubtree (k i x : Nat) : Prop := ∃ l j, x = node l j ∧ l ≤ k ∧ j / 2 ^ (k - l) = i

/-- Leaves only at the leaf positions. -/
def LeafShaped (nodes : Nat → Option Node) : Prop := ∀ i p, nodes (node 0 i) ≠ some (.Parent p)

/-- The unmerged leaves of every parent are increasing, below the parent, and occupied. -/
def UnmergedOk (nodes : Nat → Option Node) : Prop :=
  ∀ k i p, nodes (node k i) = some (.Parent p) →
    p.unmerged_leaves.Pairwise (fun a b => a.toNat < b.toNat) ∧
    ∀ u ∈ p.unmerged_leaves, below k i u.toNat ∧ ∃ l, nodes (node 0 u.toNat) = some (.Leaf l)

/-- Every unmerged leaf of a parent is a member below it. -/
def UnmergedMembers (nodes : Nat → Option Node) : Prop :=
  ∀ k i p, nodes (node k i) = some (.Parent p) →
    ∀ u ∈ p.unmerged_leaves, below k i u.toNat ∧ ∃ l, nodes (node 0 u.toNat) = some (.Leaf l)

/-- Unmerged leaves are the last ones: every leaf to the left of an unmerged leaf and below the same parent is
occupied. -/
def UnmergedLast (nodes : Nat → Option Node) : Prop :=
  ∀ k i p, nodes (node k i) = some (.Parent p) → ∀ u ∈ p.unmerged_leaves, ∀ v, v < u.toNat →
    below k i v → nodes (node 0 v) ≠ none

/-- An inner node that is not blank has a member below it, or there are no members to the right of it. -/
def InnerUsed (nodes : Nat → Option Node) : Prop :=
  ∀ k i n, 1 ≤ k → nodes (node k i) = some n →
    (∃ j, below k i j ∧ nodes (node 0 j) ≠ none) ∨ ∀ j, (i + 1) * 2 ^ k ≤ j → nodes (node 0 j) = none

/-- A parent at the left edge of the tree has a member below its right child, or there are no members to the
right of it. -/
def SpineUsed (nodes : Nat → Option Node) : Prop :=
  ∀ k p, nodes (node (k + 1) 0) = some (.Parent p) →
    (∃ j, 2 ^ k ≤ j ∧ j < 2 ^ (k + 1) ∧ nodes (node 0 j) ≠ none) ∨
    ∀ j, 2 ^ (k + 1) ≤ j → nodes (node 0 j) = none

end Rmls.Spec
