import Verif.Spec.TreeHash
/-
Update paths (RFC 9420 sections 4.1.2, 7.5, 7.9), by level and position.
-/
namespace Rmls.Spec

/-- The ancestor of leaf `j` at level `k`. -/
def anc (j k : Nat) : Nat := node k (j / 2 ^ k)

/-- The child of the ancestor at level `k + 1` that is not an ancestor of leaf `j`: its level is `k`. -/
def sib (j k : Nat) : Nat := siblingPos (j / 2 ^ k)

/-- The levels of the filtered direct path of leaf `j` in a tree of height `K`: the child on the copath has a
resolution that is not empty. -/
def filteredLevels (nodes : Nat → Option Node) (K j : Nat) : List Nat :=
  ((List.range K).filter fun k => !(resolution nodes k (sib j k)).isEmpty).map (· + 1)

/-- `b` is the level of the first ancestor of leaf `j` above level `a` that is not blank. -/
def NextUp (nodes : Nat → Option Node) (K j a b : Nat) : Prop :=
  a < b ∧ b ≤ K ∧ nodes (anc j b) ≠ none ∧ ∀ c, a < c → c < b → nodes (anc j c) = none

/-- The parent hash of a descendant of parent `p`, the ancestor of leaf `j` at level `b` (RFC 9420 section
7.9), with respect to the copath child.  No leaf is unmerged. -/
def parentHash (H : Bytes → Bytes) (nodes : Nat → Option Node) (j b : Nat) (p : ParentNode) : Bytes :=
  H (parentHashEnc p (treeHash H nodes (b - 1) (sib j (b - 1)))).bytes

end Rmls.Spec
