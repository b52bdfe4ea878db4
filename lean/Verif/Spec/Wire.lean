import Verif.Model.Wire
import Verif.Spec.Varint
/-
The TLS presentation language of RFC 9420 section 2 and the structures of the RFC written in it.

`Enc` is the syntax tree of an encoded value, `Enc.bytes` its bytes, `Enc.fits` says that every
variable-size vector is short enough to have a length header.  The structures below are transcribed
from the RFC, with its code points, and do not use the readers and writers of the model.
-/
namespace Rmls.Spec

inductive Enc where
  /-- `uint8`, `uint16`, ...: `n` bytes, network byte order -/
  | uint (n v : Nat)
  /-- `opaque x[n]` -/
  | fixed (b : Bytes)
  /-- `T x<V>`: a length header and the concatenation of the elements -/
  | vec (body : Enc)
  | seq (a b : Enc)
  | empty

namespace Enc

def bytes : Enc → Bytes
  | uint n v => digits n v
  | fixed b => b
  | vec a => (header a.bytes.length).getD [] ++ a.bytes
  | seq a b => a.bytes ++ b.bytes
  | empty => []

def fits : Enc → Prop
  | uint _ _ => True
  | fixed _ => True
  | vec a => a.fits ∧ a.bytes.length < 1073741824
  | seq a b => a.fits ∧ b.fits
  | empty => True

/-- `opaque x<V>` -/
def opq (b : Bytes) : Enc := vec (fixed b)
/-- A struct: the fields in order. -/
def struct : List Enc → Enc
  | [] => empty
  | [a] => a
  | a :: b :: l => seq a (struct (b :: l))
/-- `T x<V>` for a list of elements. -/
def vector {α : Type} (f : α → Enc) (xs : List α) : Enc := vec (xs.foldr (fun x e => seq (f x) e) empty)
/-- `optional<T>` (RFC 9420 section 2.1.1). -/
def optional {α : Type} (f : α → Enc) : Option α → Enc
  | none => uint 1 0
  | some x => seq (uint 1 1) (f x)

end Enc
open Enc

/-! Code points: RFC 9420 sections 17.1 (cipher suites), 17.2 (wire formats), 17.3 (extensions),
17.4 (proposals), 17.5 (credentials), 6 (versions, content types, senders), 7.8 (node types),
8.4 (PSKs), and the TLS SignatureScheme registry. -/

def version : ProtocolVersion → Enc
  | .MLS10 => uint 2 1
  | .Unsupported v => uint 2 v.toNat
def cipherSuite : CipherSuite → Enc
  | .MLS_128_DHKEMX25519_AES128GCM_SHA256_Ed25519 => uint 2 1
  | .MLS_128_DHKEMP256_AES128GCM_SHA256_P256 => uint 2 2
  | .MLS_128_DHKEMX25519_CHACHA20POLY1305_SHA256_Ed25519 => uint 2 3
  | .MLS_256_DHKEMX448_AES256GCM_SHA512_Ed448 => uint 2 4
  | .MLS_256_DHKEMP521_AES256GCM_SHA512_P521 => uint 2 5
  | .MLS_256_DHKEMX448_CHACHA20POLY1305_SHA512_Ed448 => uint 2 6
  | .MLS_256_DHKEMP384_AES256GCM_SHA384_P384 => uint 2 7
  | .Unknown v => uint 2 v.toNat
def extensionType : ExtensionType → Enc
  | .ApplicationId => uint 2 1
  | .RatchetTree => uint 2 2
  | .RequiredCapabilities => uint 2 3
  | .ExternalPub => uint 2 4
  | .ExternalSenders => uint 2 5
  | .Unknown v => uint 2 v.toNat
def proposalType : ProposalType → Enc
  | .Add => uint 2 1
  | .Update => uint 2 2
  | .Remove => uint 2 3
  | .PreSharedKey => uint 2 4
  | .ReInit => uint 2 5
  | .ExternalInit => uint 2 6
  | .GroupContextExtensions => uint 2 7
  | .Unknown v => uint 2 v.toNat
def credentialType : CredentialType → Enc
  | .Basic => uint 2 1
  | .X509 => uint 2 2
  | .Unknown v => uint 2 v.toNat
def signatureScheme : SignatureScheme → Enc
  | .ECDSA_SECP256R1_SHA256 => uint 2 0x0403
  | .ECDSA_SECP384R1_SHA384 => uint 2 0x0503
  | .ECDSA_SECP521R1_SHA512 => uint 2 0x0603
  | .ED25519 => uint 2 0x0807
  | .ED448 => uint 2 0x0808
def contentType : ContentType → Enc
  | .Application => uint 1 1
  | .Proposal => uint 1 2
  | .Commit => uint 1 3
def wireFormat : WireFormat → Enc
  | .PublicMessage => uint 2 1
  | .PrivateMessage => uint 2 2
  | .Welcome => uint 2 3
  | .GroupInfo => uint 2 4
  | .KeyPackage => uint 2 5
def leafIndex (i : LeafIndex) : Enc := uint 4 i.toNat

/-! Section 5.3 -/

def credential : Credential → Enc
  | .Basic identity => struct [uint 2 1, opq identity]
  | .X509 certs => struct [uint 2 2, vector opq certs]

/-! Section 13 and 7.2, 7.1 -/

def extension_ (x : Extension) : Enc := struct [extensionType x.extension_type, opq x.extension_data]
def extensions (x : Extensions) : Enc := vector extension_ x
def requiredCapabilities (x : RequiredCapabilitiesExtension) : Enc :=
  struct [vector extensionType x.extension_types, vector proposalType x.proposal_types,
    vector credentialType x.credential_types]
/-- `ExternalSender` of section 12.1.8.1; the RFC's extension content is a vector of these. -/
def externalSender (x : ExternalSendersExtension) : Enc :=
  struct [opq x.signature_key, credential x.credential]

def capabilities (x : Capabilities) : Enc :=
  struct [vector version x.versions, vector cipherSuite x.cipher_suites,
    vector extensionType x.extensions, vector proposalType x.proposals, vector credentialType x.credentials]
def lifetime (x : Lifetime) : Enc := struct [uint 8 x.not_before.toNat, uint 8 x.not_after.toNat]
def leafNodeSource : LeafNodeSource → Enc
  | .KeyPackage l => struct [uint 1 1, lifetime l]
  | .Update => struct [uint 1 2]
  | .Commit h => struct [uint 1 3, opq h]
/-- The fields of `LeafNode` up to the signature. -/
def leafNodePayload (x : LeafNodePayload) : Enc :=
  struct [opq x.encryption_key, opq x.signature_key, credential x.credential,
    capabilities x.capabilities, leafNodeSource x.leaf_node_source, extensions x.extensions]
def leafNode (x : LeafNode) : Enc := struct [leafNodePayload x.payload, opq x.signature]
def parentNode (x : ParentNode) : Enc :=
  struct [opq x.encryption_key, opq x.parent_hash, vector leafIndex x.unmerged_leaves]

/-! Section 7.6 -/

def hpkeCiphertext (x : HPKECiphertext) : Enc := struct [opq x.kem_output, opq x.ciphertext]
def updatePathNode (x : UpdatePathNode) : Enc :=
  struct [opq x.encryption_key, vector hpkeCiphertext x.encrypted_path_secret]
def updatePath (x : UpdatePath) : Enc := struct [leafNode x.leaf_node, vector updatePathNode x.nodes]

/-! Section 12.4.3.3 -/

def nodeEnc : Node → Enc
  | .Leaf n => struct [uint 1 1, leafNode n]
  | .Parent n => struct [uint 1 2, parentNode n]
/-- Nodes up to the last one that is not blank. -/
def ratchetTree (t : RatchetTree) : Enc :=
  vector (optional nodeEnc) (t.reverse.dropWhile (·.isNone)).reverse

/-! Section 10 -/

def keyPackageTBS (x : KeyPackageTBS) : Enc :=
  struct [version x.version, cipherSuite x.cipher_suite, opq x.init_key, leafNode x.leaf_node,
    extensions x.extensions]
def keyPackage (x : KeyPackage) : Enc := struct [keyPackageTBS x.payload, opq x.signature]

/-! Section 8.1, 8.4 -/

def resumption (x : Resumption) : Enc :=
  struct [match x.usage with
    | .Application => uint 1 1
    | .Reinit => uint 1 2
    | .Branch => uint 1 3, opq x.psk_group_id, uint 8 x.psk_epoch.toNat]
def psk : PSK → Enc
  | .External id => struct [uint 1 1, opq id]
  | .Resumption r => struct [uint 1 2, resumption r]
def preSharedKeyID (x : PreSharedKeyID) : Enc := struct [psk x.psk, opq x.psk_nonce]
def pskLabel (x : PSKLabel) : Enc :=
  struct [preSharedKeyID x.id, uint 2 x.index.toNat, uint 2 x.count.toNat]
def groupContext (x : GroupContext) : Enc :=
  struct [version x.version, cipherSuite x.cipher_suite, opq x.group_id, uint 8 x.epoch.toNat,
    opq x.tree_hash, opq x.confirmed_transcript_hash, extensions x.extensions]

/-! Section 12.1, 12.4 -/

def reInit (p : ReInitProposal) : Enc :=
  struct [opq p.group_id, version p.version, cipherSuite p.cipher_suite, extensions p.extensions]
def proposal : Proposal → Enc
  | .Add p => struct [uint 2 1, keyPackage p.key_package]
  | .Update p => struct [uint 2 2, leafNode p.leaf_node]
  | .Remove p => struct [uint 2 3, leafIndex p.removed]
  | .PreSharedKey p => struct [uint 2 4, preSharedKeyID p.psk]
  | .ReInit p => struct [uint 2 5, reInit p]
  | .ExternalInit p => struct [uint 2 6, opq p.kem_output]
  | .GroupContextExtensions p => struct [uint 2 7, extensions p.extensions]
def proposalOrRef : ProposalOrRef → Enc
  | .Proposal p => struct [uint 1 1, proposal p]
  | .Reference r => struct [uint 1 2, opq r]
def commit (x : Commit) : Enc := struct [vector proposalOrRef x.proposals, optional updatePath x.path]

/-! Section 6 -/

def contentBody : Content → Enc
  | .Application d => opq d
  | .Proposal p => proposal p
  | .Commit c => commit c
def content : Content → Enc
  | .Application d => struct [uint 1 1, opq d]
  | .Proposal p => struct [uint 1 2, proposal p]
  | .Commit c => struct [uint 1 3, commit c]
def sender : Sender → Enc
  | .Member i => struct [uint 1 1, leafIndex i]
  | .External i => struct [uint 1 2, uint 4 i.toNat]
  | .NewMemberProposal => struct [uint 1 3]
  | .NewMemberCommit => struct [uint 1 4]
def framedContent (x : FramedContent) : Enc :=
  struct [opq x.group_id, uint 8 x.epoch.toNat, sender x.sender, opq x.authenticated_data,
    content x.content]
def framedContentAuthData (c : Content) (x : FramedContentAuthData) : Enc :=
  struct [opq x.signature, match c with
    | .Commit _ => opq x.confirmation_tag
    | _ => empty]
def authenticatedContent (x : AuthenticatedContent) : Enc :=
  struct [wireFormat x.wire_format, framedContent x.content, framedContentAuthData x.content.content x.auth]
/-- Section 6.1; the context is present for members and external joiners. -/
def framedContentTBS (v : ProtocolVersion) (w : WireFormat) (c : FramedContent) (ctx : GroupContext) : Enc :=
  struct [version v, wireFormat w, framedContent c, match c.sender with
    | .Member _ => groupContext ctx
    | .NewMemberCommit => groupContext ctx
    | .External _ => empty
    | .NewMemberProposal => empty]
def publicMessage (x : PublicMessage) (tag : Bytes) : Enc :=
  struct [framedContent x.content, framedContentAuthData x.content.content x.auth, match x.content.sender with
    | .Member _ => opq tag
    | _ => empty]
def senderData (x : SenderData) : Enc :=
  struct [leafIndex x.leaf_index, uint 4 x.generation.toNat, fixed x.reuse_guard]
def senderDataAAD (x : SenderDataAAD) : Enc :=
  struct [opq x.group_id, uint 8 x.epoch.toNat, contentType x.content_type]
def privateMessage (x : PrivateMessage) : Enc :=
  struct [opq x.group_id, uint 8 x.epoch.toNat, contentType x.content_type,
    opq x.authenticated_data, opq x.encrypted_sender_data, opq x.ciphertext]
def privateContentAAD (x : PrivateContentAAD) : Enc :=
  struct [opq x.group_id, uint 8 x.epoch.toNat, contentType x.content_type, opq x.authenticated_data]
/-- Without padding. -/
def privateMessageContent (x : PrivateMessageContent) : Enc :=
  struct [contentBody x.content, framedContentAuthData x.content x.auth]

/-! Sections 12.4.3, 8.2 -/

def groupInfoTBS (x : GroupInfo) : Enc :=
  struct [groupContext x.group_context, extensions x.extensions, opq x.confirmation_tag, leafIndex x.signer]
def groupInfo (x : GroupInfo) : Enc := struct [groupInfoTBS x, opq x.signature]
def groupSecrets (x : GroupSecrets) : Enc :=
  struct [opq x.joiner_secret, optional opq x.path_secret, vector preSharedKeyID x.psk_ids]
def encryptedGroupSecrets (x : EncryptedGroupSecrets) : Enc :=
  struct [opq x.new_member, hpkeCiphertext x.encrypted_group_secrets]
def welcome (x : Welcome) : Enc :=
  struct [cipherSuite x.cipher_suite, vector encryptedGroupSecrets x.secrets, opq x.encrypted_group_info]
def confirmedTranscriptHashInput (x : ConfirmedTranscriptHashInput) : Enc :=
  struct [wireFormat x.wire_format, framedContent x.content, opq x.signature]

/-- Section 6; a public message from a member needs its membership tag. -/
def wireMessage : WireMessage → Enc
  | .PublicMessage m => struct [uint 2 1, publicMessage m (m.membership_tag.getD [])]
  | .PrivateMessage m => struct [uint 2 2, privateMessage m]
  | .Welcome m => struct [uint 2 3, welcome m]
  | .GroupInfo m => struct [uint 2 4, groupInfo m]
  | .KeyPackage m => struct [uint 2 5, keyPackage m]
def mlsMessage (x : MLSMessage) : Enc := struct [version x.version, wireMessage x.wire_message]

/-- What a writer has to do: the RFC bytes if every vector fits its header, otherwise an error that
says that something is too long. -/
def Writes (r : Res Bytes) (e : Enc) : Prop :=
  (e.fits ∧ r = .ok e.bytes) ∨
  (¬ e.fits ∧ (r = .err .VarintExceeds30Bits ∨ r = .err .OpaqueSizeExceedsMaximumValueOfU32))

end Rmls.Spec
