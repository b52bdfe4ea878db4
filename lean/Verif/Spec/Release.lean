import Verif.Model.Basic
/-
How runs of the same function in two builds are compared.  A run of the build without overflow checks is given as a
function of the number of rounds granted to its loops.
-/
namespace Rmls.Spec

/-- The call comes back, with a value or an error. -/
def Returns {α : Type} (x : Res α) : Prop := ∀ f, x ≠ .fault f

/-- If the first run comes back then the second comes back with the same outcome. -/
def Same {α : Type} (x y : Res α) : Prop := Returns x → y = x

/-- No number of rounds is enough. -/
def Hangs {α : Type} (run : Nat → Res α) : Prop := ∀ F, run F = .fault .hang

end Rmls.Spec
