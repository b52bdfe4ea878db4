import Verif.Model.KeyStore
/-
What is expected of a key store: it remembers.
-/
namespace Rmls.Spec
open MemoryKeyStore

/-- The key a call changes, if it changes one. -/
def Changes (k : Bytes) : Call → Prop
  | .store k' _ => k' = k
  | .delete k' => k' = k
  | .retrieve _ => False

/-- After these calls (in order of time) the value under `k` is `v`: it was stored and nothing changed it since. -/
def Remembers (past : List Call) (k v : Bytes) : Prop :=
  ∃ before since, past = before ++ .store k v :: since ∧ ∀ c ∈ since, ¬ Changes k c

/-- The right answer to a call after the calls in `past`. -/
def Answers (past : List Call) : Call → Answer → Prop
  | .store _ _, a => a = .done
  | .retrieve k, a => ∃ o, a = .value o ∧ ∀ v, o = some v ↔ Remembers past k v
  | .delete k, a => ∃ o, a = .value o ∧ ∀ v, o = some v ↔ Remembers past k v

/-- A sequence of calls and answers one after the other in which every answer is right. -/
def Correct (l : List (Call × Answer)) : Prop :=
  ∀ before c a since, l = before ++ (c, a) :: since → Answers (before.map (·.1)) c a

/-- The effects in a run, in order. -/
def effects : List Event → List (Call × Answer)
  | [] => []
  | .effect _ c a :: es => (c, a) :: effects es
  | .call _ _ :: es => effects es
  | .ret _ _ :: es => effects es

/-- Whole rounds of one thread: a call, the effect of that call, its return with the answer of that effect. -/
inductive Rounds (t : Nat) : List Event → Prop
  | none : Rounds t []
  | round {c a es} : Rounds t es → Rounds t (es ++ [.call t c, .effect t c a, .ret t a])

/-- What one thread sees: whole rounds, and possibly the beginning of one more. -/
def InTurn (t : Nat) (es : List Event) : Prop :=
  ∃ done, Rounds t done ∧ (es = done ∨ (∃ c, es = done ++ [.call t c]) ∨ ∃ c a, es = done ++ [.call t c, .effect t c a])

/-- The thread an event belongs to. -/
def Event.of (t : Nat) : Event → Bool
  | .call u _ => u = t
  | .effect u _ _ => u = t
  | .ret u _ => u = t

end Rmls.Spec
