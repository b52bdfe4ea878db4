import Verif.Spec.RatchetTree
/-
The trees that the members of one group keep: all have the same nodes, but the array of an old member may end
with one blank slot more than that of a member who read the tree from the wire.
-/
namespace Rmls.Spec

/-- `t` is the array of an old member, `u` that of a member who read it from the wire. -/
def SameTree (t u : RatchetTree) : Prop :=
  t = u ∨ ∃ K, u.length + 1 = 2 ^ (K + 1) ∧ t = u ++ [none]

/-- No leaf is in the place of a parent. -/
def InnerShaped (nodes : Nat → Option Node) : Prop := ∀ k i l, nodes (node (k + 1) i) ≠ some (.Leaf l)

/-- The array is that of a perfect tree of some height, or one slot more, and the right half of the tree is not
empty. -/
def Snug (t : RatchetTree) : Prop :=
  t.length = 0 ∨ ∃ K, (t.length + 1 = 2 ^ (K + 1) ∨ t.length = 2 ^ (K + 1)) ∧
    ∃ j, 2 ^ K ≤ 2 * j + 1 ∧ 2 * j < 2 ^ (K + 1) - 1 ∧ t[2 * j]?.join ≠ none

end Rmls.Spec
