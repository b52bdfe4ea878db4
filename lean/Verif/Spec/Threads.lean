import Verif.Spec.Group
import Verif.Model.Threads
/-
What is expected of threads that share a provider: no two of them are given the same random bytes, and none of them notices
what the others do with keys that are not its own.
-/
namespace Rmls.Spec
open Threads

/-- Byte `i` of the key stream: its words are written least significant byte first. -/
def keyByte (stream : Nat → UInt32) (i : Nat) : UInt8 := UInt8.ofNat ((stream (i / 4)).toNat / 256 ^ (i % 4))

/-- The bytes are those of the key stream from byte `i` on. -/
def Segment (stream : Nat → UInt32) (i : Nat) (b : Bytes) : Prop :=
  ∀ k, (h : k < b.length) → b[k] = keyByte stream (i + k)

/-- Two pieces of the key stream that do not overlap, the first one before the second one. -/
def Before (stream : Nat → UInt32) (b b' : Bytes) : Prop :=
  ∃ i j, Segment stream i b ∧ Segment stream j b' ∧ i + b.length ≤ j

/-- The words that a request for random bytes uses up. -/
def Call.words : Call → Nat
  | .fill n => if n % 4 = 0 then n / 4 else n / 4 + 1
  | .key _ => 0

/-- The words that the calls use up. -/
def words (es : List Event) : Nat := (es.map fun e => Call.words e.2.1).sum

/-- The call is of the key store and changes what is under the key. -/
def Alters (k : Bytes) : Call → Prop
  | .key c => Changes k c
  | .fill _ => False

/-- The call is of the key store and is about the key. -/
def Uses (k : Bytes) : Call → Prop
  | .key (.store k' _) => k' = k
  | .key (.retrieve k') => k' = k
  | .key (.delete k') => k' = k
  | .fill _ => False

/-- Another thread changes what is under the key. -/
def Disturbed (es : List Event) (t : Nat) (k : Bytes) : Prop := ∃ e ∈ es, e.1 ≠ t ∧ Alters k e.2.1

/-- No other thread changes what is under a key that thread `t` uses. -/
def Undisturbed (es : List Event) (t : Nat) : Prop := ∀ e ∈ es, e.1 = t → ∀ k, Uses k e.2.1 → ¬ Disturbed es t k

/-- The random bytes that thread `t` is given, in order. -/
def draws (t : Nat) : List Event → List Bytes
  | [] => []
  | (u, .fill _, a) :: es => if u = t then a.drawn :: draws t es else draws t es
  | (_, .key _, _) :: es => draws t es

/-- The program, when no other thread runs, with these random bytes: what it returns, and the store afterwards. -/
inductive Alone : Prog → MemoryKeyStore → List Bytes → Outcome → MemoryKeyStore → Prop
  | done (o s) : Alone (.done o) s [] o s
  | key {c k s ds o s'} : Alone (k (.key (c.body s).1)) (c.body s).2 ds o s' → Alone (.call (.key c) k) s ds o s'
  | fill {n k s b ds o s'} : Alone (k (.bytes b)) s ds o s' → Alone (.call (.fill n) k) s (b :: ds) o s'

/-- The call puts something under the key. -/
def Stores (k : Bytes) (c : Call) : Prop := ∃ v, c = .key (.store k v)

end Rmls.Spec
