import Verif.Model.RatchetTree
/-
`rmls/src/ratchet_tree/mod.rs` once more: the check of a received tree (`verify_integrity`) with its work counted.

Every function is the one of the same name in `Model/RatchetTree.lean` with counters; that the results are the same is proved in
`Proofs/Work.lean`.  Counted are the digests computed, the leaf nodes checked (one signature verification each at most) and the
comparisons of leaf indices in the lists of unmerged leaves.  Not counted: the steps of `resolve` and `find_parent_hash`, look-ups
in hash sets, the bytes that go through a digest.
-/
namespace Rmls

/-- What has been done so far. -/
structure Work where
  digests : Nat
  leaves : Nat
  comparisons : Nat
  deriving DecidableEq, Repr

/-- Work done one after the other. -/
def Work.plus (a b : Work) : Work :=
  ⟨a.digests + b.digests, a.leaves + b.leaves, a.comparisons + b.comparisons⟩

/-- A result and the work done for it. -/
structure Counted (α : Type) where
  res : Res α
  work : Work

namespace Counted

/-- The `?` operator: after an error nothing more is done. -/
def bind {α β : Type} (x : Counted α) (f : α → Counted β) : Counted β :=
  match x.res with
  | .ok a => ⟨(f a).res, x.work.plus (f a).work⟩
  | .err e => ⟨.err e, x.work⟩
  | .fault e => ⟨.fault e, x.work⟩

/-- A computation that does nothing that is counted. -/
def free {α : Type} (x : Res α) : Counted α := ⟨x, ⟨0, 0, 0⟩⟩

instance : Monad Counted where
  pure a := free (.ok a)
  bind := bind

/-- A computation that succeeds with exactly one digest, and fails without. -/
def digest {α : Type} (x : Res α) : Counted α :=
  ⟨x, match x with
    | .ok _ => ⟨1, 0, 0⟩
    | _ => ⟨0, 0, 0⟩⟩

end Counted

namespace RatchetTree.Counting
open Counted

/-- `RatchetTree::compute_tree_hash`, `rmls/src/ratchet_tree/mod.rs:518-590`. -/
def treeHashFuel (P : CryptoProvider) (cs : CipherSuite) (t : RatchetTree) (exclude : List LeafIndex) :
    Nat → Nat → Counted Bytes
  | 0, _ => free (.fault .hang)
  | fuel + 1, x =>
    match NodeIndex.leaf_index x with
    | some li => do
      let l ← free (hashLeaf (t.get x) (exclude.contains (UInt32.ofNat li)))
      let input ← free (serialize_leaf_node_hash_input (UInt32.ofNat li) l)
      digest (do let h ← P.hash cs; pure (h.digest input))
    | none => do
      match ← free (NodeIndex.children x) with
      | none => free (.err .InvalidChildren)
      | some (left, right) => do
        let left_hash ← treeHashFuel P cs t exclude fuel left
        let right_hash ← treeHashFuel P cs t exclude fuel right
        let p ← free (hashParent (t.get x) exclude)
        let input ← free (serialize_parent_node_hash_input p left_hash right_hash)
        digest (do let h ← P.hash cs; pure (h.digest input))

@[inherit_doc treeHashFuel]
def compute_tree_hash (P : CryptoProvider) (cs : CipherSuite) (t : RatchetTree) (x : Nat)
    (exclude : List LeafIndex) : Counted Bytes :=
  treeHashFuel P cs t exclude 33 x

/-- `RatchetTree::compute_root_tree_hash`, `rmls/src/ratchet_tree/mod.rs:504-515`. -/
def compute_root_tree_hash (P : CryptoProvider) (cs : CipherSuite) (t : RatchetTree) : Counted Bytes := do
  let r ← free (NumLeaves.root t.num_leaves)
  compute_tree_hash P cs t r []

/-- `if let Ok(x) = .. { .. } else { return false }`. -/
def orFalse {α : Type} (x : Counted α) (k : α → Counted Bool) : Counted Bool :=
  match x.res with
  | .ok a => ⟨(k a).res, x.work.plus (k a).work⟩
  | .err _ => ⟨.ok false, x.work⟩
  | .fault f => ⟨.fault f, x.work⟩

/-- One round of the loop of `verify_parent_hashes`, `rmls/src/ratchet_tree/mod.rs:628-682`. -/
def verifyParentHash (P : CryptoProvider) (cs : CipherSuite) (t : RatchetTree) (i : Nat) : Option Node →
    Counted Bool
  | none => pure true
  | some n => do
    match ← free (NodeIndex.children (cast32 i)) with
    | none => pure true
    | some (l, r) =>
      match n with
      | .Leaf _ => pure true
      | .Parent p =>
        orFalse (compute_tree_hash P cs t l p.unmerged_leaves) fun left_tree_hash =>
        orFalse (compute_tree_hash P cs t r p.unmerged_leaves) fun right_tree_hash =>
        orFalse (digest (p.compute_parent_hash P cs right_tree_hash)) fun left_parent_hash =>
        orFalse (digest (p.compute_parent_hash P cs left_tree_hash)) fun right_parent_hash => do
          let rl ← free (t.resolve l)
          let rr ← free (t.resolve r)
          pure (find_parent_hash t left_parent_hash rl != find_parent_hash t right_parent_hash rr)

/-- The loop of `verify_parent_hashes`, `rmls/src/ratchet_tree/mod.rs:627-683`. -/
def verifyParentHashesLoop (P : CryptoProvider) (cs : CipherSuite) (t : RatchetTree) :
    Nat → List (Option Node) → Counted Bool
  | _, [] => pure true
  | i, n :: ns => do
    let good ← verifyParentHash P cs t i n
    if good then verifyParentHashesLoop P cs t (i + 1) ns else pure false

/-- `RatchetTree::verify_parent_hashes`, `rmls/src/ratchet_tree/mod.rs:622-685`. -/
def verify_parent_hashes (P : CryptoProvider) (cs : CipherSuite) (t : RatchetTree) : Counted Bool :=
  verifyParentHashesLoop P cs t 0 t

/-- `RatchetTree::has_unmerged_leaf`, `rmls/src/ratchet_tree/mod.rs:494-501`: one comparison per element, up to the first that is
equal. -/
def has_unmerged_leaf (li : LeafIndex) : List LeafIndex → Counted Bool
  | [] => pure false
  | x :: xs => do
    let found ← ⟨.ok (x == li), ⟨0, 0, 1⟩⟩
    if found then pure true else has_unmerged_leaf li xs

/-- The inner loop of `verify_integrity`, `rmls/src/ratchet_tree/mod.rs:463-480`. -/
def unmergedWalk (t : RatchetTree) (n p : Nat) (li : LeafIndex) : Nat → Nat → Counted Unit
  | 0, _ => free (.fault .hang)
  | fuel + 1, x => do
    match ← free (NumLeaves.parent n x) with
    | none => free (.err .UnmergedLeafIsNotDescendantOfTheParentNode)
    | some y =>
      if y = p then pure ()
      else match t.get y with
        | some (.Parent q) => do
          let found ← has_unmerged_leaf li q.unmerged_leaves
          if found = false then free (.err .NonBlankIntermediateNodeMissingUnmergedLeaf)
          else unmergedWalk t n p li fuel y
        | _ => unmergedWalk t n p li fuel y

/-- The loop over the unmerged leaves, `rmls/src/ratchet_tree/mod.rs:461-481`. -/
def unmergedLoop (t : RatchetTree) (n p : Nat) : List LeafIndex → Counted Unit
  | [] => pure ()
  | li :: ls => do
    let x ← free (LeafIndex.node_index li.toNat)
    unmergedWalk t n p li 34 x
    unmergedLoop t n p ls

/-- The loop over the parents, `rmls/src/ratchet_tree/mod.rs:458-488`. -/
def parentLoop (t : RatchetTree) (n : Nat) : Nat → List (Option Node) → List HPKEPublicKey → Counted Unit
  | _, [], _ => pure ()
  | i, some (.Parent p) :: ns, encryption_keys => do
    unmergedLoop t n (cast32 i) p.unmerged_leaves
    if encryption_keys.contains p.encryption_key then free (.err .DuplicateEncryptionKeyInRatchetTree)
    else parentLoop t n (i + 1) ns (p.encryption_key :: encryption_keys)
  | i, _ :: ns, encryption_keys => parentLoop t n (i + 1) ns encryption_keys

/-- `for li in ..num_leaves { if let Some(node) = self.get_leaf(li) { body } }`, as in `Model/RatchetTree.lean`. -/
def forLeaves {σ : Type} (t : RatchetTree) (body : σ → Nat → LeafNode → Counted σ) : List Nat → σ → Counted σ
  | [], s => pure s
  | li :: ls, s => do
    match ← free (t.get_leaf li) with
    | some n => do
      let s' ← body s li n
      forLeaves t body ls s'
    | none => forLeaves t body ls s

/-- The loop over the leaves, `rmls/src/ratchet_tree/mod.rs:438-456`. -/
def verifyLeaves (P : CryptoProvider) (t : RatchetTree) (ctx : GroupContext) (now : Int)
    (supported_creds : List CredentialType) : Counted (List SignaturePublicKey × List HPKEPublicKey) :=
  forLeaves t
    (fun (s : List SignaturePublicKey × List HPKEPublicKey) li n => do
      let _ ← ⟨n.verify P {
        cipher_suite := ctx.cipher_suite, group_id := ctx.group_id, leaf_index := UInt32.ofNat li,
        supported_creds, signature_keys := s.1, encryption_keys := s.2, now }, ⟨0, 1, 0⟩⟩
      pure (n.payload.signature_key :: s.1, n.payload.encryption_key :: s.2))
    (List.range t.num_leaves) ([], [])

/-- `RatchetTree::verify_integrity`, `rmls/src/ratchet_tree/mod.rs:414-491`. -/
def verify_integrity (P : CryptoProvider) (t : RatchetTree) (ctx : GroupContext) (now : Int) : Counted Unit := do
  let h ← compute_root_tree_hash P ctx.cipher_suite t
  if h ≠ ctx.tree_hash then free (.err .TreeHashVerificationFailed)
  else do
    let good ← verify_parent_hashes P ctx.cipher_suite t
    if good = false then free (.err .ParentHashesVerificationFailed)
    else do
      let creds ← free t.supported_creds
      let (_, encryption_keys) ← verifyLeaves P t ctx now creds
      parentLoop t t.num_leaves 0 t encryption_keys

end RatchetTree.Counting
end Rmls
