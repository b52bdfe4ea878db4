import Verif.Model.Basic
/-
`rmls/src/crypto/provider/key_store.rs`: the key store in memory, a `HashMap` behind a `RwLock`.

Twice: as three functions on the map, for callers that use it from one thread (`Verif.Model.Group`), and as a
transition system in which any number of threads take and release the lock around the body of each call.
Simplified: a lock is poisoned only by a panic while it is held, and no body can panic, so the poisoned case
(`map_err`, `ok()?`) is left out; keys and values are never mutated, so cloning them is the identity.
-/
namespace Rmls

/-- `MemoryKeyStore`, `rmls/src/crypto/provider/key_store.rs:5-6`: the contents of the `HashMap`, as a list of
pairs in no meaningful order. -/
structure MemoryKeyStore where
  entries : List (Bytes × Bytes)
  deriving DecidableEq, Repr

namespace MemoryKeyStore

/-- `HashMap::new`. -/
def empty : MemoryKeyStore := ⟨[]⟩

/-- `HashMap::get` on the list of pairs. -/
def lookup (key : Bytes) : List (Bytes × Bytes) → Option Bytes
  | [] => none
  | (k, v) :: rest => if k = key then some v else lookup key rest

/-- `HashMap::remove` on the list of pairs. -/
def erase (key : Bytes) : List (Bytes × Bytes) → List (Bytes × Bytes)
  | [] => []
  | (k, v) :: rest => if k = key then erase key rest else (k, v) :: erase key rest

/-- `store`, `rmls/src/crypto/provider/key_store.rs:9-16`. -/
def store (s : MemoryKeyStore) (key val : Bytes) : MemoryKeyStore := ⟨(key, val) :: erase key s.entries⟩

/-- `retrieve`, `rmls/src/crypto/provider/key_store.rs:18-21`. -/
def retrieve (s : MemoryKeyStore) (key : Bytes) : Option Bytes := lookup key s.entries

/-- `delete`, `rmls/src/crypto/provider/key_store.rs:23-26`: the removed value and the new map. -/
def delete (s : MemoryKeyStore) (key : Bytes) : Option Bytes × MemoryKeyStore :=
  (lookup key s.entries, ⟨erase key s.entries⟩)

/-- The calls of the trait `KeyStore`, `rmls/src/crypto/provider/mod.rs:99-103`. -/
inductive Call where
  | store (key val : Bytes)
  | retrieve (key : Bytes)
  | delete (key : Bytes)
  deriving DecidableEq, Repr

/-- What a call returns: `Ok(())` or an optional value. -/
inductive Answer where
  | done
  | value (v : Option Bytes)
  deriving DecidableEq, Repr

/-- The lock a call takes: `write()` at lines 10-13 and 24, `read()` at line 19. -/
def Call.writes : Call → Bool
  | .store _ _ => true
  | .retrieve _ => false
  | .delete _ => true

/-- The body of a call: the answer and the map it leaves behind. -/
def Call.body (c : Call) (s : MemoryKeyStore) : Answer × MemoryKeyStore :=
  match c with
  | .store k v => (.done, s.store k v)
  | .retrieve k => (.value (s.retrieve k), s)
  | .delete k => (.value (s.delete k).1, (s.delete k).2)

/-- Where a thread is: outside; called but without the lock; with the lock; in the middle of the body, when it has read
the map and not yet written it back; after the body, still with the lock. -/
inductive Phase where
  | outside
  | waiting (c : Call)
  | locked (c : Call)
  | reading (c : Call) (seen : MemoryKeyStore)
  | finished (c : Call) (a : Answer)
  deriving DecidableEq, Repr

/-- The call for which a thread holds the lock. -/
def Phase.holds : Phase → Option Call
  | .outside => none
  | .waiting _ => none
  | .locked c => some c
  | .reading c _ => some c
  | .finished c _ => some c

/-- What is visible of a run: calls, their bodies taking effect, and returns. -/
inductive Event where
  | call (thread : Nat) (c : Call)
  | effect (thread : Nat) (c : Call) (a : Answer)
  | ret (thread : Nat) (a : Answer)
  deriving DecidableEq, Repr

/-- The shared map and the threads. -/
structure Machine where
  map : MemoryKeyStore
  phase : Nat → Phase

/-- Thread `t` moves to phase `p`. -/
def Machine.move (m : Machine) (t : Nat) (p : Phase) : Machine :=
  { m with phase := fun u => if u = t then p else m.phase u }

/-- `RwLock`: a writer gets in when nobody holds the lock, a reader when no writer does (contract of
`std::sync::RwLock`). -/
def Machine.free (m : Machine) (c : Call) : Prop :=
  ∀ u d, (m.phase u).holds = some d → c.writes = false ∧ d.writes = false

/-- One step of one thread, with the events it shows.  The body of a call is two steps: the map is read, and the
changed map is written back; between them other threads may run. -/
inductive Step : Machine → List Event → Machine → Prop
  | invoke (m t c) : m.phase t = .outside → Step m [.call t c] (m.move t (.waiting c))
  | acquire (m t c) : m.phase t = .waiting c → m.free c → Step m [] (m.move t (.locked c))
  | read (m t c) : m.phase t = .locked c → Step m [] (m.move t (.reading c m.map))
  | write (m t c seen) : m.phase t = .reading c seen →
      Step m [.effect t c (c.body seen).1]
        ({ m with map := if c.writes then (c.body seen).2 else m.map }.move t (.finished c (c.body seen).1))
  | release (m t c a) : m.phase t = .finished c a → Step m [.ret t a] (m.move t .outside)

/-- The runs from a machine, with everything that was visible, in order. -/
inductive Run (m : Machine) : List Event → Machine → Prop
  | start : Run m [] m
  | step {es m' e m''} : Run m es m' → Step m' e m'' → Run m (es ++ e) m''

/-- A new store (`MemoryKeyStore::default()`) that nobody is using. -/
def Machine.fresh : Machine := { map := empty, phase := fun _ => .outside }

end MemoryKeyStore
end Rmls
