import Verif.Spec.Merge
/-
How much a commit has to encrypt (RFC 9420 section 7.5, and section 7.7 on blank nodes).
-/
namespace Rmls.Spec

/-- The ciphertexts in a path from leaf `j`: one for each node of the resolutions of the copath. -/
def ciphertexts (nodes : Nat → Option Node) (K j : Nat) : Nat :=
  ((List.range K).map fun k => (resolution nodes k (sib j k)).length).sum

/-- The number of members of a tree of height `K`. -/
def memberCount (nodes : Nat → Option Node) (K : Nat) : Nat :=
  ((List.range (2 ^ (K + 1) - 1)).filter fun x => decide (x % 2 = 0) && (nodes x).isSome).length

/-- The number of its blank parents. -/
def blankCount (nodes : Nat → Option Node) (K : Nat) : Nat :=
  ((List.range (2 ^ (K + 1) - 1)).filter fun x => decide (x % 2 = 1) && (nodes x).isNone).length

/-- How many leaves a node lists as unmerged. -/
def unmergedAt : Option Node → Nat
  | some (.Parent p) => p.unmerged_leaves.length
  | _ => 0

/-- How many leaves its parents list as unmerged, all together. -/
def unmergedCount (nodes : Nat → Option Node) (K : Nat) : Nat :=
  ((List.range (2 ^ (K + 1) - 1)).map fun x => unmergedAt (nodes x)).sum

/-- Below every parent there is a member that it does not list as unmerged. -/
def Alive (nodes : Nat → Option Node) : Prop :=
  ∀ k i p, nodes (node k i) = some (.Parent p) →
    ∃ j, below k i j ∧ nodes (node 0 j) ≠ none ∧ ∀ u ∈ p.unmerged_leaves, u.toNat ≠ j

end Rmls.Spec
