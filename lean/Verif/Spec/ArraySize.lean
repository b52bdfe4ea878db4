import Verif.Model.Wire
/-
How many members a tree has (property C104), and trees reached with a limit on their number.
-/
namespace Rmls.Spec

/-- How many leaf slots of an array are occupied: those at even positions that are not blank. -/
def occupied : List (Option Node) → Nat
  | [] => 0
  | [n] => if n.isSome then 1 else 0
  | n :: _ :: ns => (if n.isSome then 1 else 0) + occupied ns

end Rmls.Spec
