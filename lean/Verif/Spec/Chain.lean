import Verif.Spec.Integrity
/-
How a leaf vouches for the parents above it (RFC 9420 section 7.9): the leaf carries the parent hash of the first
one, this one carries the parent hash of the next, and so on.
-/
namespace Rmls.Spec

/-- The leaf at position `j` vouches for the parent at level `k`, position `i`.  The list has, from the leaf up, the
parents on the way and the tree hash of the other child of each, which went into its parent hash. -/
inductive Chain (H : Bytes → Bytes) (nodes : Nat → Option Node) (j : Nat) :
    Nat → Nat → List (ParentNode × Bytes) → Prop where
  | leaf (l : LeafNode) : nodes (node 0 j) = some (.Leaf l) → Chain H nodes j 0 j []
  | up {l a k i c s p links} : Chain H nodes j l a links → nodes (node (k + 1) i) = some (.Parent p) →
      ((c = 2 * i ∧ s = 2 * i + 1) ∨ (c = 2 * i + 1 ∧ s = 2 * i)) →
      node l a ∈ resolution nodes k c →
      storedParentHash (nodes (node l a)) =
        some (H (parentHashEnc p (treeHash H (without p.unmerged_leaves nodes) k s)).bytes) →
      Chain H nodes j (k + 1) i (links ++ [(p, treeHash H (without p.unmerged_leaves nodes) k s)])

/-- What was hashed along a chain. -/
def chainInputs (links : List (ParentNode × Bytes)) : List Bytes := links.map fun x => (parentHashEnc x.1 x.2).bytes

end Rmls.Spec
