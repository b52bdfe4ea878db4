import Verif.Model.Receiver
/-
The receiver of a private message of `Verif.Model.Receiver` once more, with its work counted.

Counted are the calls of the KDF (`expand_with_label`), also those that fail.  Not counted: reading the message, the two AEAD
operations, the signature and the bytes that go through them.  Every function is the one of the same name with a counter; that
the results are the same is proved in `Proofs/MessageWork.lean`.
-/
namespace Rmls

/-- A result and the number of calls of the KDF made for it. -/
structure Steps (α : Type) where
  res : Res α
  expands : Nat

namespace Steps

/-- The `?` operator: after an error nothing more is done. -/
def bind {α β : Type} (x : Steps α) (f : α → Steps β) : Steps β :=
  match x.res with
  | .ok a => ⟨(f a).res, x.expands + (f a).expands⟩
  | .err e => ⟨.err e, x.expands⟩
  | .fault e => ⟨.fault e, x.expands⟩

/-- A computation without the KDF. -/
def free {α : Type} (x : Res α) : Steps α := ⟨x, 0⟩

instance : Monad Steps where
  pure a := free (.ok a)
  bind := bind

/-- A computation with one call of the KDF. -/
def expand {α : Type} (x : Res α) : Steps α := ⟨x, 1⟩

end Steps

namespace MessageProtection.Counting
open Steps
open PassiveClient (assertOk)

/-- `SecretTree::derive_children`, `rmls/src/secret_tree/mod.rs:72-106`. -/
def derive_children (P : CryptoProvider) (cs : CipherSuite) : Nat → SecretTree → Nat → Steps SecretTree
  | 0, _, _ => free (.fault .hang)
  | fuel + 1, t, x => do
    match ← free (NodeIndex.children x) with
    | none => pure t
    | some (l, r) => do
      let parent_secret ← free (SecretTree.secretAt t x)
      let hpke ← free (P.hpke cs)
      let nh := UInt16.ofNat hpke.kdf_extract_size
      let left_secret ← expand (P.expand_with_label cs parent_secret (ascii "tree") (ascii "left") nh)
      let right_secret ← expand (P.expand_with_label cs parent_secret (ascii "tree") (ascii "right") nh)
      let t := SecretTree.setSecret t l left_secret
      let t := SecretTree.setSecret t r right_secret
      let t ← derive_children P cs fuel t l
      derive_children P cs fuel t r

/-- `SecretTree::new`, `rmls/src/secret_tree/mod.rs:59-70`. -/
def newTree (P : CryptoProvider) (cs : CipherSuite) (n : Nat) (encryption_secret : Bytes) : Steps SecretTree := do
  let w ← free (NumLeaves.width n)
  let root ← free (NumLeaves.root n)
  derive_children P cs 33 (SecretTree.setSecret (List.replicate w none) root encryption_secret) root

/-- `rmls/src/group/group_test.rs:218-227`, with `derive_ratchet_root`, `rmls/src/secret_tree/mod.rs:118-143`, which calls the
KDF once. -/
def ratchetRoot (P : CryptoProvider) (cs : CipherSuite) (num_leaves : Nat) (encryption_secret : Bytes) (li : Nat)
    (content_type : ContentType) : Steps RatchetSecret := do
  let tree ← newTree P cs num_leaves encryption_secret
  let ni ← free (LeafIndex.node_index li)
  expand (tree.derive_ratchet_root P cs ni (.ofContentType content_type))

/-- The loop `rmls/src/group/group_test.rs:285-287`; `derive_next`, `rmls/src/secret_tree/mod.rs:188-207`, calls the KDF
once. -/
def seek (P : CryptoProvider) (cs : CipherSuite) (generation : UInt32) : Nat → RatchetSecret → Steps RatchetSecret
  | fuel, x =>
    if x.generation = generation then pure x
    else match fuel with
      | 0 => free (.fault .hang)
      | fuel + 1 => do
        let y ← expand (x.derive_next P cs)
        seek P cs generation fuel y

/-- `PrivateMessage::decrypt_sender_data`, `rmls/src/framing/private_message.rs:97-131`; `expand_sender_data_key` and
`expand_sender_data_nonce`, `rmls/src/framing/mod.rs:958-990`, call the KDF once each. -/
def decrypt_sender_data (P : CryptoProvider) (cs : CipherSuite) (x : PrivateMessage) (sender_data_secret : Bytes) :
    Steps SenderData := do
  let key ← expand (expand_sender_data_key P cs sender_data_secret x.ciphertext)
  let nonce ← expand (expand_sender_data_nonce P cs sender_data_secret x.ciphertext)
  let raw_aad ← free (SenderDataAAD.serialize {
    group_id := x.group_id, epoch := x.epoch, content_type := x.content_type })
  let hpke ← free (P.hpke cs)
  let raw_sender_data ← free (hpke.aead_open key nonce x.encrypted_sender_data raw_aad)
  free (deserialize_exact SenderData.deserialize raw_sender_data)

/-- `derive_private_message_key_and_nonce`, `rmls/src/framing/private_message.rs:284-301`; `derive_key` and `derive_nonce`,
`rmls/src/secret_tree/mod.rs:154-186`, call the KDF once each. -/
def derive_private_message_key_and_nonce (P : CryptoProvider) (cs : CipherSuite) (secret : RatchetSecret)
    (reuse_guard : Bytes) : Steps (Bytes × Bytes) := do
  let key ← expand (secret.derive_key P cs)
  let nonce ← expand (secret.derive_nonce P cs)
  free (if nonce.length < reuse_guard.length then .err .NonceAndReuseGuardLenNotMatch
    else .ok (key, xorGuard nonce reuse_guard))

/-- `PrivateMessage::decrypt_content`, `rmls/src/framing/private_message.rs:133-164`. -/
def decrypt_content (P : CryptoProvider) (cs : CipherSuite) (x : PrivateMessage) (secret : RatchetSecret)
    (reuse_guard : Bytes) : Steps PrivateMessageContent := do
  let (key, nonce) ← derive_private_message_key_and_nonce P cs secret reuse_guard
  let raw_aad ← free (PrivateContentAAD.serialize {
    group_id := x.group_id, epoch := x.epoch, content_type := x.content_type
    authenticated_data := x.authenticated_data })
  let hpke ← free (P.hpke cs)
  let raw_content ← free (hpke.aead_open key nonce x.ciphertext raw_aad)
  free (match PrivateMessageContent.deserialize x.content_type raw_content with
    | .ok (c, _) => .ok c
    | .err e => .err e
    | .fault f => .fault f)

/-- `decrypt_private_message`, `rmls/src/group/group_test.rs:273-309`. -/
def decrypt_private_message (P : CryptoProvider) (cs : CipherSuite) (ctx : GroupContext) (signature_pub : Bytes)
    (sender_data_secret : Bytes) (secret : RatchetSecret) (m : PrivateMessage) :
    Steps (SenderData × AuthenticatedContent) := do
  let sender_data ← decrypt_sender_data P cs m sender_data_secret
  let secret ← seek P cs sender_data.generation 4294967296 secret
  let content ← decrypt_content P cs m secret sender_data.reuse_guard
  let auth_content := m.authenticated_content sender_data content
  let _ ← free (assertOk (auth_content.verify_signature P cs signature_pub ctx))
  pure (sender_data, auth_content)

/-- The receiver, `rmls/src/group/group_test.rs:210-237`. -/
def receive (P : CryptoProvider) (cs : CipherSuite) (ctx : GroupContext) (num_leaves : Nat)
    (encryption_secret sender_data_secret : Bytes) (li : Nat) (signature_pub : Bytes) (raw : Bytes) :
    Steps (SenderData × AuthenticatedContent) := do
  let msg ← free (deserialize_exact MLSMessage.deserialize raw)
  match msg.wire_message with
  | .PrivateMessage m => do
    let secret ← ratchetRoot P cs num_leaves encryption_secret li m.content_type
    decrypt_private_message P cs ctx signature_pub sender_data_secret secret m
  | _ => free (.fault .panic)

end MessageProtection.Counting
end Rmls
