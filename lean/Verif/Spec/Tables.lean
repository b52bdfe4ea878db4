import Verif.Model.Tables
/-
What is assumed of the tables of the standard library: membership after insertion and removal, and that `for` visits each entry
once.  Nothing is assumed of the order, which may differ from one run to the next.
-/
namespace Rmls.Spec

/-- A hash set. -/
structure LawfulSet {α : Type} [DecidableEq α] (S : SetImpl α) : Prop where
  new : ∀ a, S.contains S.new a = false
  insert : ∀ s a b, S.contains (S.insert s a) b = (decide (a = b) || S.contains s b)
  remove : ∀ s a b, S.contains (S.remove s a) b = (decide (a ≠ b) && S.contains s b)
  is_empty : ∀ s, S.is_empty s = true ↔ ∀ a, S.contains s a = false

/-- A hash map. -/
structure LawfulMap {κ ν : Type} [DecidableEq κ] (M : MapImpl κ ν) : Prop where
  new : ∀ k, M.get M.new k = none
  insert : ∀ m k v k', M.get (M.insert m k v) k' = if k = k' then some v else M.get m k'
  entries : ∀ m k v, (k, v) ∈ M.entries m ↔ M.get m k = some v
  once : ∀ m, ((M.entries m).map (·.1)).Nodup

/-- All of them. -/
structure LawfulTables (T : Tables) : Prop where
  creds : LawfulSet T.creds
  keys : LawfulSet T.keys
  exts : LawfulSet T.exts
  leaves : LawfulSet T.leaves
  counts : LawfulMap T.counts

end Rmls.Spec
