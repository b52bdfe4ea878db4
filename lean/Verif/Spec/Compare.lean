import Verif.Model.Basic
/-
What an observer of the work of a check can do with it: a small adversary that sees only verdicts and counts.
-/
namespace Rmls.Spec.Compare

/-- What the observer sees of one attempt: whether the guess was accepted, and how much work the check did. -/
abbrev Oracle := Bytes → Bool × Nat

/-- All values of a byte. -/
def values : List UInt8 := (List.range 256).map UInt8.ofNat

/-- Values for the next byte, one after the other, the rest of the guess being zeros: the first one whose guess is accepted
or causes more work than a wrong byte at this place does; and the number of attempts. -/
def next (O : Oracle) (known : Bytes) (m : Nat) : List UInt8 → UInt8 × Nat
  | [] => (0, 0)
  | x :: xs =>
    let seen := O (known ++ x :: List.replicate m 0)
    if seen.1 || known.length + 1 < seen.2 then (x, 1)
    else
      let (y, n) := next O known m xs
      (y, n + 1)

/-- The next `m` bytes, one after the other; and the number of attempts. -/
def forge (O : Oracle) : Nat → Bytes → Bytes × Nat
  | 0, known => (known, 0)
  | m + 1, known =>
    let (x, n) := next O known m values
    let (t, k) := forge O m (known ++ [x])
    (t, n + k)

/-- `n` is the length of the longest common prefix. -/
def CommonPrefix (a b : Bytes) (n : Nat) : Prop :=
  n ≤ a.length ∧ n ≤ b.length ∧ a.take n = b.take n ∧
    (n < a.length → n < b.length → a[n]? ≠ b[n]?)

end Rmls.Spec.Compare
