import Verif.Model.KeySchedule
import Verif.Model.SecretTree
/-
`rmls/src/framing/mod.rs`, `public_message.rs` and `private_message.rs`: signing, tagging, encrypting and
checking messages (the wire types are in `Verif.Model.Wire`).
-/
namespace Rmls

/-! ### framing/mod.rs -/

/-- `FramedContentAuthData::sign_framed_content`, `rmls/src/framing/mod.rs:753-761`. -/
def FramedContentAuthData.sign_framed_content (P : CryptoProvider) (cs : CipherSuite) (sign_key : Bytes)
    (tbs : FramedContentTBS) : Res Bytes := do
  let raw_content ← tbs.serialize
  P.sign_with_label cs sign_key (ascii "FramedContentTBS") raw_content

/-- `FramedContentAuthData::verify_signature`, `rmls/src/framing/mod.rs:766-781`. -/
def FramedContentAuthData.verify_signature (P : CryptoProvider) (cs : CipherSuite) (verify_key : Bytes)
    (x : FramedContentAuthData) (tbs : FramedContentTBS) : Res Unit := do
  let raw_content ← tbs.serialize
  P.verify_with_label cs verify_key (ascii "FramedContentTBS") raw_content x.signature

/-- `FramedContentAuthData::verify_confirmation_tag`, `rmls/src/framing/mod.rs:787-804`. -/
def FramedContentAuthData.verify_confirmation_tag (P : CryptoProvider) (cs : CipherSuite)
    (x : FramedContentAuthData) (confirmation_key confirmed_transcript_hash : Bytes) : Res Unit :=
  if x.confirmation_tag.isEmpty then .err .VerifyConfirmationTagFailed
  else P.verify_mac cs confirmation_key confirmed_transcript_hash x.confirmation_tag

namespace AuthenticatedContent

/-- `AuthenticatedContent::framed_content_tbs`, `rmls/src/framing/mod.rs:624-631`. -/
def framed_content_tbs (x : AuthenticatedContent) (ctx : GroupContext) : FramedContentTBS :=
  { version := .MLS10, wire_format := x.wire_format, content := x.content, context := some ctx }

/-- `AuthenticatedContent::new`, `rmls/src/framing/mod.rs:592-614`.  The confirmation tag is left empty. -/
def new (P : CryptoProvider) (cs : CipherSuite) (sign_key : Bytes) (wire_format : WireFormat)
    (content : FramedContent) (ctx : GroupContext) : Res AuthenticatedContent := do
  let auth_content : AuthenticatedContent :=
    { wire_format, content, auth := { signature := [], confirmation_tag := [] } }
  let tbs := auth_content.framed_content_tbs ctx
  let signature ← FramedContentAuthData.sign_framed_content P cs sign_key tbs
  pure { auth_content with auth := { auth_content.auth with signature } }

/-- `AuthenticatedContent::confirmed_transcript_hash_input`, `rmls/src/framing/mod.rs:616-622`. -/
def confirmed_transcript_hash_input (x : AuthenticatedContent) : ConfirmedTranscriptHashInput :=
  { wire_format := x.wire_format, content := x.content, signature := x.auth.signature }

/-- `AuthenticatedContent::verify_signature`, `rmls/src/framing/mod.rs:634-647`. -/
def verify_signature (P : CryptoProvider) (cs : CipherSuite) (x : AuthenticatedContent) (verif_key : Bytes)
    (ctx : GroupContext) : Res Unit :=
  x.auth.verify_signature P cs verif_key (x.framed_content_tbs ctx)

end AuthenticatedContent

/-- `SenderData::new`, `rmls/src/framing/mod.rs:853-865`; `rnd` are the four random bytes. -/
def SenderData.new (rnd : Bytes) (leaf_index : LeafIndex) (generation : UInt32) : SenderData :=
  { leaf_index, generation, reuse_guard := rnd }

/-- `sample_ciphertext`, `rmls/src/framing/mod.rs:992-1003`. -/
def sample_ciphertext (P : CryptoProvider) (cs : CipherSuite) (ciphertext : Bytes) : Res Bytes := do
  let hpke ← P.hpke cs
  let n := hpke.kdf_extract_size
  if ciphertext.length < n then pure ciphertext else pure (ciphertext.take n)

/-- `expand_sender_data_key`, `rmls/src/framing/mod.rs:958-973`. -/
def expand_sender_data_key (P : CryptoProvider) (cs : CipherSuite) (sender_data_secret ciphertext : Bytes) :
    Res Bytes := do
  let hpke ← P.hpke cs
  let ciphertext_sample ← sample_ciphertext P cs ciphertext
  P.expand_with_label cs sender_data_secret (ascii "key") ciphertext_sample (UInt16.ofNat hpke.aead_key_size)

/-- `expand_sender_data_nonce`, `rmls/src/framing/mod.rs:975-990`. -/
def expand_sender_data_nonce (P : CryptoProvider) (cs : CipherSuite) (sender_data_secret ciphertext : Bytes) :
    Res Bytes := do
  let hpke ← P.hpke cs
  let ciphertext_sample ← sample_ciphertext P cs ciphertext
  P.expand_with_label cs sender_data_secret (ascii "nonce") ciphertext_sample (UInt16.ofNat hpke.aead_nonce_size)

/-- `encrypt_sender_data`, `rmls/src/framing/mod.rs:924-956`. -/
def encrypt_sender_data (P : CryptoProvider) (cs : CipherSuite) (sender_data_secret : Bytes)
    (sender_data : SenderData) (content : FramedContent) (ciphertext : Bytes) : Res Bytes := do
  let key ← expand_sender_data_key P cs sender_data_secret ciphertext
  let nonce ← expand_sender_data_nonce P cs sender_data_secret ciphertext
  let raw_aad ← SenderDataAAD.serialize {
    group_id := content.group_id, epoch := content.epoch, content_type := content.content.content_type }
  let raw_sender_data ← sender_data.serialize
  let hpke ← P.hpke cs
  hpke.aead_seal key nonce raw_sender_data raw_aad

/-! ### framing/public_message.rs -/

namespace PublicMessage

/-- `PublicMessage::new`, `rmls/src/framing/public_message.rs:58-79`. -/
def new (P : CryptoProvider) (cs : CipherSuite) (sign_key : Bytes) (content : FramedContent)
    (ctx : GroupContext) : Res PublicMessage := do
  let auth_content ← AuthenticatedContent.new P cs sign_key .PublicMessage content ctx
  pure { content := auth_content.content, auth := auth_content.auth, membership_tag := none }

/-- `PublicMessage::authenticated_content`, `rmls/src/framing/public_message.rs:81-87`. -/
def authenticated_content (x : PublicMessage) : AuthenticatedContent :=
  { wire_format := .PublicMessage, content := x.content, auth := x.auth }

/-- `PublicMessage::authenticated_content_tbm`, `rmls/src/framing/public_message.rs:89-94`. -/
def authenticated_content_tbm (x : PublicMessage) (ctx : GroupContext) : AuthenticatedContentTBM :=
  { content_tbs := x.authenticated_content.framed_content_tbs ctx, auth := x.auth }

/-- `PublicMessage::sign_membership_tag`, `rmls/src/framing/public_message.rs:98-115`; `&mut self` becomes the returned
message. -/
def sign_membership_tag (P : CryptoProvider) (cs : CipherSuite) (x : PublicMessage) (membership_key : Bytes)
    (ctx : GroupContext) : Res PublicMessage :=
  match x.content.sender with
  | .External _ => .ok x
  | .NewMemberProposal => .ok x
  | .NewMemberCommit => .ok x
  | .Member _ => do
    let raw ← (x.authenticated_content_tbm ctx).serialize
    let tag ← P.sign_mac cs membership_key raw
    pure { x with membership_tag := some tag }

/-- `PublicMessage::verify_membership_tag`, `rmls/src/framing/public_message.rs:120-149`. -/
def verify_membership_tag (P : CryptoProvider) (cs : CipherSuite) (x : PublicMessage) (membership_key : Bytes)
    (ctx : GroupContext) : Res Unit :=
  match x.content.sender with
  | .External _ => .ok ()
  | .NewMemberProposal => .ok ()
  | .NewMemberCommit => .ok ()
  | .Member _ =>
    match x.membership_tag with
    | some membership_tag =>
      match (x.authenticated_content_tbm ctx).serialize with
      | .ok raw => P.verify_mac cs membership_key raw membership_tag
      | .err _ => .err .VerifyConfirmationTagFailed
      | .fault f => .fault f
    | none => .ok ()

end PublicMessage

/-! ### framing/private_message.rs -/

/-- The loop `for i in 0..reuse_guard.len() { nonce[i] ^= reuse_guard[i] }` of
`rmls/src/framing/private_message.rs:296-298`, for a guard no longer than the nonce. -/
def xorGuard : Bytes → Bytes → Bytes
  | nonce, [] => nonce
  | [], _ :: _ => []
  | n :: nonce, g :: guard => (n ^^^ g) :: xorGuard nonce guard

/-- `derive_private_message_key_and_nonce`, `rmls/src/framing/private_message.rs:284-301`. -/
def derive_private_message_key_and_nonce (P : CryptoProvider) (cs : CipherSuite) (secret : RatchetSecret)
    (reuse_guard : Bytes) : Res (Bytes × Bytes) := do
  let key ← secret.derive_key P cs
  let nonce ← secret.derive_nonce P cs
  if nonce.length < reuse_guard.length then .err .NonceAndReuseGuardLenNotMatch
  else pure (key, xorGuard nonce reuse_guard)

/-- `encrypt_private_message_content`, `rmls/src/framing/private_message.rs:303-342`. -/
def encrypt_private_message_content (P : CryptoProvider) (cs : CipherSuite) (sign_key : Bytes)
    (secret : RatchetSecret) (content : FramedContent) (ctx : GroupContext) (reuse_guard : Bytes) :
    Res Bytes := do
  let auth_content ← AuthenticatedContent.new P cs sign_key .PrivateMessage content ctx
  let priv_content : PrivateMessageContent := { content := content.content, auth := auth_content.auth }
  let plaintext ← priv_content.serialize
  let (key, nonce) ← derive_private_message_key_and_nonce P cs secret reuse_guard
  let raw_aad ← PrivateContentAAD.serialize {
    group_id := content.group_id, epoch := content.epoch
    content_type := content.content.content_type, authenticated_data := content.authenticated_data }
  let hpke ← P.hpke cs
  hpke.aead_seal key nonce plaintext raw_aad

namespace PrivateMessage

/-- `PrivateMessage::new`, `rmls/src/framing/private_message.rs:59-95`. -/
def new (P : CryptoProvider) (cs : CipherSuite) (sign_key : Bytes) (secret : RatchetSecret)
    (sender_data_secret : Bytes) (content : FramedContent) (sender_data : SenderData) (ctx : GroupContext) :
    Res PrivateMessage := do
  let ciphertext ← encrypt_private_message_content P cs sign_key secret content ctx sender_data.reuse_guard
  let encrypted_sender_data ← encrypt_sender_data P cs sender_data_secret sender_data content ciphertext
  pure {
    group_id := content.group_id, epoch := content.epoch
    content_type := content.content.content_type
    authenticated_data := content.authenticated_data, encrypted_sender_data, ciphertext }

/-- `PrivateMessage::decrypt_sender_data`, `rmls/src/framing/private_message.rs:97-131`. -/
def decrypt_sender_data (P : CryptoProvider) (cs : CipherSuite) (x : PrivateMessage)
    (sender_data_secret : Bytes) : Res SenderData := do
  let key ← expand_sender_data_key P cs sender_data_secret x.ciphertext
  let nonce ← expand_sender_data_nonce P cs sender_data_secret x.ciphertext
  let raw_aad ← SenderDataAAD.serialize {
    group_id := x.group_id, epoch := x.epoch, content_type := x.content_type }
  let hpke ← P.hpke cs
  let raw_sender_data ← hpke.aead_open key nonce x.encrypted_sender_data raw_aad
  deserialize_exact SenderData.deserialize raw_sender_data

/-- `PrivateMessage::decrypt_content`, `rmls/src/framing/private_message.rs:133-164`. -/
def decrypt_content (P : CryptoProvider) (cs : CipherSuite) (x : PrivateMessage) (secret : RatchetSecret)
    (reuse_guard : Bytes) : Res PrivateMessageContent := do
  let (key, nonce) ← derive_private_message_key_and_nonce P cs secret reuse_guard
  let raw_aad ← PrivateContentAAD.serialize {
    group_id := x.group_id, epoch := x.epoch, content_type := x.content_type
    authenticated_data := x.authenticated_data }
  let hpke ← P.hpke cs
  let raw_content ← hpke.aead_open key nonce x.ciphertext raw_aad
  match PrivateMessageContent.deserialize x.content_type raw_content with
  | .ok (c, _) => pure c
  | .err e => .err e
  | .fault f => .fault f

/-- `PrivateMessageContent::deserialize` in a build with the feature `RingCryptoProvider`,
`rmls/src/framing/private_message.rs:194-218` without lines 209-215: what follows the content stays unread. -/
def deserializeRing (ct : ContentType) : De PrivateMessageContent := do
  let content ← Content.deserializeBody ct
  let auth ← FramedContentAuthData.deserialize ct
  pure { content, auth }

/-- `PrivateMessage::decrypt_content` in a build with the feature `RingCryptoProvider`,
`rmls/src/framing/private_message.rs:133-164`. -/
def decrypt_content_ring (P : CryptoProvider) (cs : CipherSuite) (x : PrivateMessage) (secret : RatchetSecret)
    (reuse_guard : Bytes) : Res PrivateMessageContent := do
  let (key, nonce) ← derive_private_message_key_and_nonce P cs secret reuse_guard
  let raw_aad ← PrivateContentAAD.serialize {
    group_id := x.group_id, epoch := x.epoch, content_type := x.content_type
    authenticated_data := x.authenticated_data }
  let hpke ← P.hpke cs
  let raw_content ← hpke.aead_open key nonce x.ciphertext raw_aad
  match deserializeRing x.content_type raw_content with
  | .ok (c, _) => pure c
  | .err e => .err e
  | .fault f => .fault f

/-- `PrivateMessage::authenticated_content`, `rmls/src/framing/private_message.rs:166-182`. -/
def authenticated_content (x : PrivateMessage) (sender_data : SenderData) (content : PrivateMessageContent) :
    AuthenticatedContent :=
  { wire_format := .PrivateMessage
    content := {
      group_id := x.group_id, epoch := x.epoch, sender := .Member sender_data.leaf_index
      authenticated_data := x.authenticated_data, content := content.content }
    auth := content.auth }

end PrivateMessage
end Rmls
