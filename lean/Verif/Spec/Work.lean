import Verif.Spec.TreeChecks
/-
The size of a tree as far as the work of checking it goes (property C92).
-/
namespace Rmls.Spec

/-- How many unmerged leaves a node lists. -/
def listedAt : Option Node → Nat
  | some (.Parent p) => p.unmerged_leaves.length
  | _ => 0

/-- How many unmerged leaves all the nodes list together. -/
def listedIn (t : List (Option Node)) : Nat := (t.map listedAt).sum

end Rmls.Spec
