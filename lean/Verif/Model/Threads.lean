import Verif.Model.Config
import Verif.Model.Framing
/-
Threads that share one provider: the functions of `Verif.Model.Group` that use its key store and its random number generator,
as programs that call these objects, and the programs of any number of threads run at the same time.

The two objects of a provider (`rmls/src/crypto/provider/rust.rs:91-95`, `ring.rs:91-95`) are a map and a generator, each behind
a `RwLock` of its own.  Between the calls a program computes with values that no other thread can change.  As in
`Verif.Model.KeyStore` a lock is never poisoned.
-/
namespace Rmls
namespace Threads

/-- The calls of `KeyStore` and `Rand`, `rmls/src/crypto/provider/mod.rs:99-108`. -/
inductive Call where
  | key (c : MemoryKeyStore.Call)
  | fill (n : Nat)
  deriving DecidableEq, Repr

/-- What a call returns; the bytes are those put into the buffer. -/
inductive Answer where
  | key (a : MemoryKeyStore.Answer)
  | bytes (b : Bytes)
  deriving DecidableEq, Repr

/-- The `Option<Bytes>` of `retrieve`. -/
def Answer.value : Answer → Option Bytes
  | .key (.value o) => o
  | _ => none

/-- The filled buffer. -/
def Answer.drawn : Answer → Bytes
  | .bytes b => b
  | _ => []

/-- The two objects: the map of `MemoryKeyStore`, and of the generator of `RandChacha`
(`rmls/src/crypto/provider/rand.rs:6-9`) the number of words of its key stream that are used up. -/
structure Shared where
  map : MemoryKeyStore
  pos : Nat
  deriving DecidableEq, Repr

/-- The bytes of a word of the key stream, the least significant first. -/
def wordBytes (w : UInt32) : Bytes := [w.toUInt8, (w >>> 8).toUInt8, (w >>> 16).toUInt8, (w >>> 24).toUInt8]

/-- `try_fill_bytes` of `ChaCha20Rng` (crate `rand_chacha`; `BlockRng::fill_bytes` of `rand_core`): whole words from the current
one on, of the last one as many bytes as are needed; the rest of it is lost.  The key stream, which the seed determines, is a
parameter; it is taken to be endless (it has 2^68 words). -/
def draw (stream : Nat → UInt32) (pos n : Nat) : Bytes × Nat :=
  let words := (n + 3) / 4
  ((((List.range words).map fun i => wordBytes (stream (pos + i))).flatten).take n, pos + words)

/-- The body of a call; `fill` is `rmls/src/crypto/provider/rand.rs:20-29`. -/
def Call.body (stream : Nat → UInt32) (c : Call) (s : Shared) : Answer × Shared :=
  match c with
  | .key c => (.key (c.body s.map).1, { s with map := (c.body s.map).2 })
  | .fill n => (.bytes (draw stream s.pos n).1, { s with pos := (draw stream s.pos n).2 })

/-- What a thread still has to do: code between the calls, `Outcome` at the end. -/
inductive Outcome where
  | package (r : Res KeyPackage)
  | group (r : Res Group)
  | sender (r : Res SenderData)
  deriving DecidableEq

@[inherit_doc Outcome]
inductive Prog where
  | done (o : Outcome)
  | call (c : Call) (k : Answer → Prog)

/-- The `?` operator: an error ends the function, a panic the thread. -/
def orStop {α β : Type} (wrap : Res α → Outcome) (x : Res β) (k : β → Prog) : Prog :=
  match x with
  | .ok b => k b
  | .err e => .done (wrap (.err e))
  | .fault f => .done (wrap (.fault f))

/-- `find_map` over the entries of the welcome, `rmls/src/group/creation.rs:48-50`. -/
def find : List EncryptedGroupSecrets → (Option Bytes → Prog) → Prog
  | [], k => k none
  | egs :: rest, k => .call (.key (.retrieve egs.new_member)) fun a =>
    match a.value with
    | some raw => k (some raw)
    | none => find rest k

/-- `Group::from_welcome` after the package is found, `rmls/src/group/creation.rs:46-68`. -/
def joinFound (P : CryptoProvider) : Option Bytes → Prog
  | none => .done (.group (.err .NoMatchingKeyPackage))
  | some raw =>
    orStop .group (deserialize_exact KeyPackage.deserialize raw) fun key_package =>
    orStop .group (key_package.generate_ref P) fun ref =>
    .call (.key (.delete ref)) fun _ =>
    .call (.key (.retrieve key_package.payload.init_key)) fun a =>
    match a.value with
    | none => .done (.group (.err .NoMatchingKeyPackage))
    | some rawKey =>
      orStop .group (deserialize_exact SecretKey.deserialize rawKey) fun _ =>
      .call (.key (.delete key_package.payload.init_key)) fun _ =>
      .done (.group (.ok Group.default))

/-- `Group::from_welcome`, `rmls/src/group/creation.rs:40-68`. -/
def join (P : CryptoProvider) (welcome : Welcome) : Prog := find welcome.secrets (joinFound P)

/-- `Group::new`, `rmls/src/group/creation.rs:17-38`. -/
def create (group_config : GroupConfig) (credential : Credential) (signature_key_pair : SignatureKeyPair)
    (group_id : Option Bytes) : Prog :=
  match group_id with
  | some _ => .done (.group (Group.new [] group_config credential signature_key_pair group_id))
  | none => .call (.fill 16) fun a =>
    .done (.group (Group.new a.drawn group_config credential signature_key_pair none))

/-- `SenderData::new`, `rmls/src/framing/mod.rs:853-865`. -/
def senderData (leaf_index : LeafIndex) (generation : UInt32) : Prog :=
  .call (.fill 4) fun a => .done (.sender (.ok (SenderData.new a.drawn leaf_index generation)))

/-- `KeyPackageBuilder::build`, `rmls/src/key_package/builder.rs:43-77`, with the draws of `KeyPackage::new`
(`rmls/src/key_package/mod.rs:160-172`) and `LeafNode::new` (`rmls/src/ratchet_tree/leaf_node.rs:403-404`).  What `KeyPackage::new`
computes between and after the draws is `KeyPackage.new`. -/
def build (P : CryptoProvider) (b : KeyPackageBuilder) (config : CryptoConfig) (credential : Credential)
    (signature_key_pair : SignatureKeyPair) : Prog :=
  orStop .package (P.signature config.cipher_suite) fun s =>
  if s.signature_scheme ≠ signature_key_pair.signature_scheme then
    .done (.package (.err .CipherSuiteNotMatchSignatureScheme))
  else
  orStop .package (P.hash config.cipher_suite) fun h =>
  .call (.fill h.size) fun a0 =>
  orStop .package (P.hpke config.cipher_suite) fun hpke =>
  orStop .package (hpke.kem_derive_key_pair a0.drawn) fun _ =>
  .call (.fill h.size) fun a =>
  orStop .package (KeyPackage.new P config a0.drawn a.drawn credential signature_key_pair
    (b.key_package_lifetime.getD ⟨0, 0⟩) (b.key_package_extensions.getD [])
    (b.leaf_node_capabilities.getD ⟨[], [], [], [], []⟩) (b.leaf_node_extensions.getD [])) fun x =>
  orStop .package (x.1.generate_ref P) fun ref =>
  orStop .package x.1.serialize fun raw =>
  .call (.key (.store ref raw)) fun _ =>
  orStop .package x.2.1.serialize fun rawPair =>
  .call (.key (.store x.2.1.public_key rawPair)) fun _ =>
  orStop .package (SecretKey.serialize x.2.2) fun rawInit =>
  .call (.key (.store x.1.payload.init_key rawInit)) fun _ =>
  .done (.package (.ok x.1))

/-! ### The threads, with whole calls as steps -/

/-- A call that took effect: the thread, the call, its answer. -/
abbrev Event := Nat × Call × Answer

/-- The shared objects, and what each thread still has to do. -/
structure State where
  shared : Shared
  todo : Nat → Prog

/-- Thread `t` goes on with `p`. -/
def State.set (m : State) (t : Nat) (p : Prog) : State := { m with todo := fun u => if u = t then p else m.todo u }

/-- A thread makes its next call. -/
inductive Step (stream : Nat → UInt32) : State → Event → State → Prop
  | call (m t c k) : m.todo t = .call c k →
      Step stream m (t, c, (c.body stream m.shared).1)
        ({ m with shared := (c.body stream m.shared).2 }.set t (k (c.body stream m.shared).1))

/-- The runs from a state, with the calls in the order in which they took effect. -/
inductive Run (stream : Nat → UInt32) (m : State) : List Event → State → Prop
  | start : Run stream m [] m
  | step {es m' e m''} : Run stream m es m' → Step stream m' e m'' → Run stream m (es ++ [e]) m''

/-! ### The threads, with the locks -/

/-- The call takes the lock for writing: `rmls/src/crypto/provider/key_store.rs:10-13,19,24`, `rand.rs:21-24`. -/
def Call.writes : Call → Bool
  | .key c => c.writes
  | .fill _ => true

/-- The two calls are calls of one object, so that they take the same lock. -/
def Call.together : Call → Call → Bool
  | .key _, .key _ => true
  | .fill _, .fill _ => true
  | _, _ => false

/-- The object of the call as `new` has it, the other one unchanged. -/
def Shared.put (s : Shared) (c : Call) (new : Shared) : Shared :=
  match c with
  | .key _ => { s with map := new.map }
  | .fill _ => { s with pos := new.pos }

/-- Where a thread is: between calls; called but without the lock; with the lock; in the middle of the body, when it has read
the object and not yet written it back; after the body, still with the lock. -/
inductive Phase where
  | between (p : Prog)
  | waiting (c : Call) (k : Answer → Prog)
  | locked (c : Call) (k : Answer → Prog)
  | reading (c : Call) (k : Answer → Prog) (seen : Shared)
  | finished (c : Call) (k : Answer → Prog) (a : Answer)

/-- The call for which a thread holds a lock. -/
def Phase.holds : Phase → Option Call
  | .between _ => none
  | .waiting _ _ => none
  | .locked c _ => some c
  | .reading c _ _ => some c
  | .finished c _ _ => some c

/-- The shared objects and the threads. -/
structure Machine where
  shared : Shared
  phase : Nat → Phase

/-- Thread `t` moves to phase `p`. -/
def Machine.move (m : Machine) (t : Nat) (p : Phase) : Machine :=
  { m with phase := fun u => if u = t then p else m.phase u }

/-- `RwLock`: a writer gets in when nobody holds the lock, a reader when no writer does (contract of `std::sync::RwLock`). -/
def Machine.free (m : Machine) (c : Call) : Prop :=
  ∀ u d, (m.phase u).holds = some d → c.together d = true → c.writes = false ∧ d.writes = false

/-- One step of one thread.  The body of a call is two steps: the object is read, and the changed object is written back; between
them other threads may run. -/
inductive FineStep (stream : Nat → UInt32) : Machine → List Event → Machine → Prop
  | invoke (m t c k) : m.phase t = .between (.call c k) → FineStep stream m [] (m.move t (.waiting c k))
  | acquire (m t c k) : m.phase t = .waiting c k → m.free c → FineStep stream m [] (m.move t (.locked c k))
  | read (m t c k) : m.phase t = .locked c k → FineStep stream m [] (m.move t (.reading c k m.shared))
  | write (m t c k seen) : m.phase t = .reading c k seen →
      FineStep stream m [(t, c, (c.body stream seen).1)]
        ({ m with shared := if c.writes then m.shared.put c (c.body stream seen).2 else m.shared }.move t
          (.finished c k (c.body stream seen).1))
  | release (m t c k a) : m.phase t = .finished c k a → FineStep stream m [] (m.move t (.between (k a)))

/-- The runs from a machine, with the calls in the order in which they took effect. -/
inductive FineRun (stream : Nat → UInt32) (m : Machine) : List Event → Machine → Prop
  | start : FineRun stream m [] m
  | step {es m' e m''} : FineRun stream m es m' → FineStep stream m' e m'' → FineRun stream m (es ++ e) m''

/-- The machine in which all threads are between calls. -/
def State.machine (m : State) : Machine := { shared := m.shared, phase := fun t => .between (m.todo t) }

end Threads
end Rmls
