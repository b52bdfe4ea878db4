import Verif.Spec.WellFormed
import Verif.Spec.Wire
/-
The list of wire types, and what is demanded of a reader and a writer.
-/
namespace Rmls.Spec
open Enc

/-- One wire type: its reader and writer in the model, the values that have a faithful encoding
(`wf`, see `Verif.Spec.WellFormed`), and its RFC 9420 encoding `enc`, prescribed for values
satisfying `pre`. -/
structure Codec where
  name : String
  α : Type
  read : De α
  write : α → Res Bytes
  wf : α → Prop
  pre : α → Prop := fun _ => True
  enc : α → Enc

/-- Bytes signed for a framed content, with or without group context. -/
def tbs (x : FramedContentTBS) : Enc :=
  match x.context with
  | some c => framedContentTBS x.version x.wire_format x.content c
  | none => struct [version x.version, wireFormat x.wire_format, framedContent x.content, empty]

/-- A member or external joiner signs the group context. -/
def tbsPre (x : FramedContentTBS) : Prop := x.content.sender.hasContext → x.context.isSome

/-- The message of a member carries a membership tag. -/
def taggedPre (x : PublicMessage) : Prop :=
  (∃ i, x.content.sender = .Member i) → x.membership_tag.isSome

def wirePre : WireMessage → Prop
  | .PublicMessage m => taggedPre m
  | _ => True

/-- Confirmation tags are present for commits only. -/
def authData (ct : ContentType) (x : FramedContentAuthData) : Enc :=
  struct [opq x.signature, if ct = .Commit then opq x.confirmation_tag else empty]

def wireCodecs : List Codec := [
  ⟨"opaque (keys, references, ids)", _, deserialize_opaque_vec, serialize_opaque_vec,
    fun _ => True, fun _ => True, opq⟩,
  ⟨"SecretKey", _, SecretKey.deserialize, SecretKey.serialize, fun _ => True, fun _ => True, opq⟩,
  ⟨"ApplicationIdExtension", _, ApplicationIdExtension.deserialize, ApplicationIdExtension.serialize,
    fun _ => True, fun _ => True, opq⟩,
  ⟨"ExternalPubExtension", _, ExternalPubExtension.deserialize, ExternalPubExtension.serialize,
    fun _ => True, fun _ => True, opq⟩,
  ⟨"KeyPackageRef", _, KeyPackageRef.deserialize, KeyPackageRef.serialize,
    fun _ => True, fun _ => True, opq⟩,
  ⟨"Identity", _, Identity.deserialize, Identity.serialize, fun _ => True, fun _ => True, opq⟩,
  ⟨"Certificate", _, Certificate.deserialize, Certificate.serialize, fun _ => True, fun _ => True, opq⟩,
  ⟨"UnknownExtension", _, UnknownExtension.deserialize, UnknownExtension.serialize, fun _ => True, fun _ => True, opq⟩,
  ⟨"SignatureScheme", _, SignatureScheme.deserialize, SignatureScheme.serialize,
    fun _ => True, fun _ => True, signatureScheme⟩,
  ⟨"SignatureKeyPair", _, SignatureKeyPair.deserialize, SignatureKeyPair.serialize,
    fun _ => True, fun _ => True,
    fun x => struct [opq x.private_key, opq x.public_key, signatureScheme x.signature_scheme]⟩,
  ⟨"HPKEKeyPair", _, HPKEKeyPair.deserialize, HPKEKeyPair.serialize, fun _ => True, fun _ => True,
    fun x => struct [opq x.private_key, opq x.public_key]⟩,
  ⟨"ProposalType", _, ProposalType.deserialize, ProposalType.serialize, ProposalType.WF,
    fun _ => True, proposalType⟩,
  ⟨"ContentType", _, ContentType.deserialize, ContentType.serialize, fun _ => True, fun _ => True,
    contentType⟩,
  ⟨"WireFormat", _, WireFormat.deserialize, WireFormat.serialize, fun _ => True, fun _ => True,
    wireFormat⟩,
  ⟨"Credential", _, Credential.deserialize, Credential.serialize, fun _ => True, fun _ => True,
    credential⟩,
  ⟨"Extensions", _, Extensions.deserialize, Extensions.serialize, Extensions.WF, fun _ => True,
    extensions⟩,
  ⟨"RequiredCapabilitiesExtension", _, RequiredCapabilitiesExtension.deserialize,
    RequiredCapabilitiesExtension.serialize, RequiredCapabilitiesExtension.WF, fun _ => True,
    requiredCapabilities⟩,
  ⟨"ExternalSendersExtension", _, ExternalSendersExtension.deserialize,
    ExternalSendersExtension.serialize, fun _ => True, fun _ => True, externalSender⟩,
  ⟨"Lifetime", _, Lifetime.deserialize, Lifetime.serialize, fun _ => True, fun _ => True, lifetime⟩,
  ⟨"LeafNodeSource", _, LeafNodeSource.deserialize, LeafNodeSource.serialize, fun _ => True,
    fun _ => True, leafNodeSource⟩,
  ⟨"Capabilities", _, Capabilities.deserialize, Capabilities.serialize, Capabilities.WF,
    fun _ => True, capabilities⟩,
  ⟨"LeafNodePayload", _, LeafNodePayload.deserialize, LeafNodePayload.serialize, LeafNodePayload.WF,
    fun _ => True, leafNodePayload⟩,
  ⟨"LeafNode", _, LeafNode.deserialize, LeafNode.serialize, LeafNode.WF, fun _ => True, leafNode⟩,
  ⟨"ParentNode", _, ParentNode.deserialize, ParentNode.serialize, fun _ => True, fun _ => True,
    parentNode⟩,
  ⟨"HPKECiphertext", _, HPKECiphertext.deserialize, HPKECiphertext.serialize, fun _ => True,
    fun _ => True, hpkeCiphertext⟩,
  ⟨"UpdatePathNode", _, UpdatePathNode.deserialize, UpdatePathNode.serialize, fun _ => True,
    fun _ => True, updatePathNode⟩,
  ⟨"UpdatePath", _, UpdatePath.deserialize, UpdatePath.serialize, UpdatePath.WF, fun _ => True,
    updatePath⟩,
  ⟨"Node", _, Node.deserialize, Node.serialize, Node.WF, fun _ => True, nodeEnc⟩,
  ⟨"KeyPackageTBS", _, KeyPackageTBS.deserialize, KeyPackageTBS.serialize, KeyPackageTBS.WF,
    fun _ => True, keyPackageTBS⟩,
  ⟨"KeyPackage", _, KeyPackage.deserialize, KeyPackage.serialize, KeyPackage.WF, fun _ => True,
    keyPackage⟩,
  ⟨"Resumption", _, Resumption.deserialize, Resumption.serialize, fun _ => True, fun _ => True,
    resumption⟩,
  ⟨"PSK", _, PSK.deserialize, PSK.serialize, fun _ => True, fun _ => True, psk⟩,
  ⟨"PreSharedKeyID", _, PreSharedKeyID.deserialize, PreSharedKeyID.serialize, fun _ => True,
    fun _ => True, preSharedKeyID⟩,
  ⟨"PSKLabel", _, PSKLabel.deserialize, PSKLabel.serialize, fun _ => True, fun _ => True, pskLabel⟩,
  ⟨"GroupContext", _, GroupContext.deserialize, GroupContext.serialize, GroupContext.WF,
    fun _ => True, groupContext⟩,
  ⟨"Proposal", _, Proposal.deserialize, Proposal.serialize, Proposal.WF, fun _ => True, proposal⟩,
  ⟨"ProposalOrRef", _, ProposalOrRef.deserialize, ProposalOrRef.serialize, ProposalOrRef.WF,
    fun _ => True, proposalOrRef⟩,
  ⟨"Commit", _, Commit.deserialize, Commit.serialize, Commit.WF, fun _ => True, commit⟩,
  ⟨"Content", _, Content.deserialize, Content.serialize, Content.WF, fun _ => True, content⟩,
  ⟨"Sender", _, Sender.deserialize, Sender.serialize, fun _ => True, fun _ => True, sender⟩,
  ⟨"FramedContent", _, FramedContent.deserialize, FramedContent.serialize, FramedContent.WF,
    fun _ => True, framedContent⟩,
  ⟨"FramedContentAuthData (application)", _, FramedContentAuthData.deserialize .Application,
    (FramedContentAuthData.serialize · .Application), FramedContentAuthData.WF .Application,
    fun _ => True, authData .Application⟩,
  ⟨"FramedContentAuthData (proposal)", _, FramedContentAuthData.deserialize .Proposal,
    (FramedContentAuthData.serialize · .Proposal), FramedContentAuthData.WF .Proposal,
    fun _ => True, authData .Proposal⟩,
  ⟨"FramedContentAuthData (commit)", _, FramedContentAuthData.deserialize .Commit,
    (FramedContentAuthData.serialize · .Commit), FramedContentAuthData.WF .Commit,
    fun _ => True, authData .Commit⟩,
  ⟨"AuthenticatedContent", _, AuthenticatedContent.deserialize, AuthenticatedContent.serialize,
    AuthenticatedContent.WF, fun _ => True, authenticatedContent⟩,
  ⟨"FramedContentTBS", _, FramedContentTBS.deserialize, FramedContentTBS.serialize,
    FramedContentTBS.WF, tbsPre, tbs⟩,
  ⟨"AuthenticatedContentTBM", _, AuthenticatedContentTBM.deserialize,
    AuthenticatedContentTBM.serialize, AuthenticatedContentTBM.WF, fun x => tbsPre x.content_tbs,
    fun x => struct [tbs x.content_tbs, framedContentAuthData x.content_tbs.content.content x.auth]⟩,
  ⟨"SenderData", _, SenderData.deserialize, SenderData.serialize, SenderData.WF, fun _ => True,
    senderData⟩,
  ⟨"PrivateMessage", _, PrivateMessage.deserialize, PrivateMessage.serialize, fun _ => True,
    fun _ => True, privateMessage⟩,
  ⟨"PrivateContentAAD", _, PrivateContentAAD.deserialize, PrivateContentAAD.serialize, fun _ => True,
    fun _ => True, privateContentAAD⟩,
  ⟨"PublicMessage", _, PublicMessage.deserialize, PublicMessage.serialize, PublicMessage.WF,
    taggedPre, fun x => publicMessage x (x.membership_tag.getD [])⟩,
  ⟨"GroupInfo", _, GroupInfo.deserialize, GroupInfo.serialize, GroupInfo.WF, fun _ => True,
    groupInfo⟩,
  ⟨"GroupSecrets", _, GroupSecrets.deserialize, GroupSecrets.serialize, fun _ => True, fun _ => True,
    groupSecrets⟩,
  ⟨"EncryptedGroupSecrets", _, EncryptedGroupSecrets.deserialize, EncryptedGroupSecrets.serialize,
    fun _ => True, fun _ => True, encryptedGroupSecrets⟩,
  ⟨"Welcome", _, Welcome.deserialize, Welcome.serialize, Welcome.WF, fun _ => True, welcome⟩,
  ⟨"ConfirmedTranscriptHashInput", _, ConfirmedTranscriptHashInput.deserialize,
    ConfirmedTranscriptHashInput.serialize, ConfirmedTranscriptHashInput.WF,
    fun x => ∃ c, x.content.content = .Commit c, confirmedTranscriptHashInput⟩,
  ⟨"WireMessage", _, WireMessage.deserialize, WireMessage.serialize, WireMessage.WF, wirePre,
    wireMessage⟩,
  ⟨"MLSMessage", _, MLSMessage.deserialize, MLSMessage.serialize, MLSMessage.WF,
    fun x => wirePre x.wire_message, mlsMessage⟩]

/-- A written value followed by anything is read back as the same value, leaving what followed. -/
def RoundTrips (c : Codec) : Prop :=
  ∀ x b rest, c.wf x → c.write x = .ok b → c.read (b ++ rest) = .ok (x, rest)

/-- Whatever is accepted is well formed, and writing it reproduces the bytes consumed. -/
def Canonical (c : Codec) : Prop :=
  ∀ buf x rest, c.read buf = .ok (x, rest) → c.wf x ∧ ∃ b, c.write x = .ok b ∧ buf = b ++ rest

end Rmls.Spec
