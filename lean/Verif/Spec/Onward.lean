import Verif.Spec.History
/-
What a tree that was accepted has to look like to stay acceptable (property C90).
-/
namespace Rmls.Spec

/-- Every parent is vouched for from below on exactly one side. -/
def OneSide (H : Bytes → Bytes) (nodes : Nat → Option Node) : Prop :=
  ∀ k i p, nodes (node (k + 1) i) = some (.Parent p) →
    ¬ (Linked H nodes p k (2 * i) (2 * i + 1) ↔ Linked H nodes p k (2 * i + 1) (2 * i))

/-- No node beside the path of member `j` carries the parent hash of a new parent over the side of the path: the nodes beside
the path are older than the parents on it.  `before` is the tree without the path, `after` the one with it. -/
def Unforeseen (H : Bytes → Bytes) (before after : Nat → Option Node) (j : Nat) : Prop :=
  ∀ k q x, after (anc j (k + 1)) = some (.Parent q) → x ∈ resolution before k (sib j k) →
    storedParentHash (before x) ≠ some (H (parentHashEnc q (treeHash H after k (j / 2 ^ k))).bytes)

end Rmls.Spec
