import Verif.Model.Client
import Verif.Model.SecretTree
/-
The two sides of a private or public message, and of a welcome without PSKs, as `rmls/src/group/group_test.rs` puts them together from the functions of the
library: the one place in the repository in which the secret tree, the ratchet and the message functions meet.  It is a
test, so a signature that does not verify is a panic.  The comparison with the expected bytes is left out, and the number
of leaves, the leaf of the sender and the generation, which the test fixes to 2, 1 and 0, are arguments.
-/
namespace Rmls
namespace MessageProtection
open PassiveClient (assertOk)

/-- The loop `while secret.generation != sender_data.generation`, `rmls/src/group/group_test.rs:285-287`. -/
def seek (P : CryptoProvider) (cs : CipherSuite) (generation : UInt32) : Nat → RatchetSecret → Res RatchetSecret
  | fuel, x =>
    if x.generation = generation then .ok x
    else match fuel with
      | 0 => .fault .hang
      | fuel + 1 => do
        let y ← x.derive_next P cs
        seek P cs generation fuel y

/-- `decrypt_private_message`, `rmls/src/group/group_test.rs:273-309`.  The sender data is returned too, and the content as
`authenticated_content` puts it together, which is what the signature is checked for.  There are no more generations than
rounds. -/
def decrypt_private_message (P : CryptoProvider) (cs : CipherSuite) (ctx : GroupContext) (signature_pub : Bytes)
    (sender_data_secret : Bytes) (secret : RatchetSecret) (m : PrivateMessage) :
    Res (SenderData × AuthenticatedContent) := do
  let sender_data ← m.decrypt_sender_data P cs sender_data_secret
  let secret ← seek P cs sender_data.generation 4294967296 secret
  let content ← m.decrypt_content P cs secret sender_data.reuse_guard
  let auth_content := m.authenticated_content sender_data content
  assertOk (auth_content.verify_signature P cs signature_pub ctx)
  pure (sender_data, auth_content)

/-- The first secret of the ratchet of a leaf for a kind of content, `rmls/src/group/group_test.rs:218-227`. -/
def ratchetRoot (P : CryptoProvider) (cs : CipherSuite) (num_leaves : Nat) (encryption_secret : Bytes) (li : Nat)
    (content_type : ContentType) : Res RatchetSecret := do
  let tree ← SecretTree.new P cs num_leaves encryption_secret
  let ni ← LeafIndex.node_index li
  tree.derive_ratchet_root P cs ni (.ofContentType content_type)

/-- The receiver, `rmls/src/group/group_test.rs:210-237`. -/
def receive (P : CryptoProvider) (cs : CipherSuite) (ctx : GroupContext) (num_leaves : Nat)
    (encryption_secret sender_data_secret : Bytes) (li : Nat) (signature_pub : Bytes) (raw : Bytes) :
    Res (SenderData × AuthenticatedContent) := do
  let msg ← deserialize_exact MLSMessage.deserialize raw
  match msg.wire_message with
  | .PrivateMessage m => do
    let secret ← ratchetRoot P cs num_leaves encryption_secret li m.content_type
    decrypt_private_message P cs ctx signature_pub sender_data_secret secret m
  | _ => .fault .panic

/-- The sender, `rmls/src/group/group_test.rs:239-258`, for any generation (the test has a `TODO` there); `rnd` are the bytes of
the reuse guard. -/
def send (P : CryptoProvider) (cs : CipherSuite) (ctx : GroupContext) (num_leaves : Nat)
    (encryption_secret sender_data_secret : Bytes) (li : LeafIndex) (generation : UInt32) (rnd : Bytes)
    (signature_priv : Bytes) (epoch : UInt64) (group_id : GroupID) (content : Content) : Res PrivateMessage := do
  let secret ← ratchetRoot P cs num_leaves encryption_secret li.toNat content.content_type
  let secret ← seek P cs generation 4294967296 secret
  PrivateMessage.new P cs signature_priv secret sender_data_secret
    { group_id, epoch, sender := .Member li, authenticated_data := [], content } (SenderData.new rnd li generation) ctx

/-- `verify_public_message`, `rmls/src/group/group_test.rs:176-201`, without the comparison with the expected bytes. -/
def verify_public_message (P : CryptoProvider) (cs : CipherSuite) (ctx : GroupContext) (signature_pub : Bytes)
    (membership_key : Bytes) (m : PublicMessage) : Res Unit := do
  let auth_content := m.authenticated_content
  assertOk (auth_content.verify_signature P cs signature_pub ctx)
  assertOk (m.verify_membership_tag P cs membership_key ctx)

/-- The receiver of a public message, `rmls/src/group/group_test.rs:153-161`. -/
def receivePublic (P : CryptoProvider) (cs : CipherSuite) (ctx : GroupContext) (signature_pub membership_key : Bytes)
    (raw : Bytes) : Res PublicMessage := do
  let msg ← deserialize_exact MLSMessage.deserialize raw
  match msg.wire_message with
  | .PublicMessage m => do
    verify_public_message P cs ctx signature_pub membership_key m
    pure m
  | _ => .fault .panic

/-- The sender of a public message, `rmls/src/group/group_test.rs:163-171`. -/
def sendPublic (P : CryptoProvider) (cs : CipherSuite) (ctx : GroupContext) (signature_priv membership_key : Bytes)
    (content : FramedContent) : Res PublicMessage := do
  let m ← PublicMessage.new P cs signature_priv content ctx
  m.sign_membership_tag P cs membership_key ctx

end MessageProtection

/-- `welcome_test`, `rmls/src/group/group_test.rs:30-71`, which returns nothing; here what was decrypted is returned. -/
def welcome_test (P : CryptoProvider) (init_priv signer_pub key_package welcome : Bytes) :
    Res (GroupSecrets × GroupInfo) := do
  let welcome_msg ← PassiveClient.deserialize_message welcome .Welcome
  match welcome_msg.wire_message with
  | .Welcome welcome =>
    let key_package_msg ← PassiveClient.deserialize_message key_package .KeyPackage
    match key_package_msg.wire_message with
    | .KeyPackage key_package =>
      let key_package_ref ← key_package.generate_ref P
      let group_secrets ← welcome.decrypt_group_secrets P key_package_ref init_priv
      let group_info ← welcome.decrypt_group_info P group_secrets.joiner_secret []
      PassiveClient.assertOk (group_info.verify_signature P signer_pub)
      PassiveClient.assertOk (group_info.verify_confirmation_tag P group_secrets.joiner_secret [])
      pure (group_secrets, group_info)
    | _ => .err .Other
  | _ => .err .Other

end Rmls
