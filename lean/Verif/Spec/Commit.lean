import Verif.Spec.RatchetTree
/-
What the proposals of a commit do to the members of the group, RFC 9420 section 12.4.2: updates, then removes,
then adds at the leftmost free leaves.
-/
namespace Rmls.Spec

/-- The members after the updates and removes: the removed are gone, the updated have their new leaf. -/
def changed (m : Members) (updates : List (Nat × LeafNode)) (removes : List Nat) : Members := fun i =>
  if i ∈ removes then none
  else match updates.lookup i with
    | some leaf => some leaf
    | none => m i

/-- The leaves, in order, went to the leftmost free places `js` of `m`; nothing else changed. -/
structure PlacedAt (m : Members) (leaves : List LeafNode) (js : List Nat) (m' : Members) : Prop where
  length : js.length = leaves.length
  increasing : js.Pairwise (· < ·)
  free : ∀ j ∈ js, m j = none
  there : ∀ p ∈ js.zip leaves, m' p.1 = some p.2
  others : ∀ i, i ∉ js → m' i = m i
  leftmost : ∀ j ∈ js, ∀ i, i < j → m' i ≠ none

/-- `n` is the least power of two that is above all members. -/
def Capacity (m : Members) (n : Nat) : Prop :=
  (∃ K, n = 2 ^ K) ∧ (∀ i, n ≤ i → m i = none) ∧ (n = 1 ∨ ∃ i, n ≤ 2 * i ∧ m i ≠ none)

/-- The number of free places below `n`. -/
def freeBelow (m : Members) : Nat → Nat
  | 0 => 0
  | n + 1 => freeBelow m n + if m n = none then 1 else 0

end Rmls.Spec
