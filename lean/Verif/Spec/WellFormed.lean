import Verif.Model.Wire
/-
Well-formedness of wire values: the conditions under which a value has a faithful encoding.

None of them restricts sizes.  They exclude exactly the values that cannot be produced by reading:
an `Unknown(v)` code point holding a value that has a name of its own, a group context or message
with a version other than MLS 1.0, a confirmation tag on something that is not a commit, a
membership tag or group context that contradicts the sender.
-/
namespace Rmls

/-- Code points that have a name are not written as `Unknown`. -/
def CipherSuite.WF : CipherSuite → Prop
  | .Unknown v => ¬ (1 ≤ v.toNat ∧ v.toNat ≤ 7)
  | _ => True
def CredentialType.WF : CredentialType → Prop
  | .Unknown v => ¬ (1 ≤ v.toNat ∧ v.toNat ≤ 2)
  | _ => True
def ExtensionType.WF : ExtensionType → Prop
  | .Unknown v => ¬ (1 ≤ v.toNat ∧ v.toNat ≤ 5)
  | _ => True
def ProposalType.WF : ProposalType → Prop
  | .Unknown v => ¬ (1 ≤ v.toNat ∧ v.toNat ≤ 7)
  | _ => True
def ProtocolVersion.WF : ProtocolVersion → Prop
  | .Unsupported v => v.toNat ≠ 1
  | _ => True

def Extension.WF (x : Extension) : Prop := x.extension_type.WF
def Extensions.WF (x : Extensions) : Prop := ∀ e ∈ x, e.WF

def RequiredCapabilitiesExtension.WF (x : RequiredCapabilitiesExtension) : Prop :=
  (∀ e ∈ x.extension_types, e.WF) ∧ (∀ e ∈ x.proposal_types, e.WF) ∧ (∀ e ∈ x.credential_types, e.WF)

def Capabilities.WF (x : Capabilities) : Prop :=
  (∀ e ∈ x.versions, e.WF) ∧ (∀ e ∈ x.cipher_suites, e.WF) ∧ (∀ e ∈ x.extensions, e.WF) ∧
  (∀ e ∈ x.proposals, e.WF) ∧ (∀ e ∈ x.credentials, e.WF)

def LeafNodePayload.WF (x : LeafNodePayload) : Prop := x.capabilities.WF ∧ Extensions.WF x.extensions
def LeafNode.WF (x : LeafNode) : Prop := x.payload.WF
def UpdatePath.WF (x : UpdatePath) : Prop := x.leaf_node.WF

def Node.WF : Node → Prop
  | .Leaf n => n.WF
  | .Parent _ => True

/-- Only the nodes: whether the shape of the tree survives the wire is a separate question (C09). -/
def RatchetTree.NodesWF (t : RatchetTree) : Prop := ∀ n, some n ∈ t → n.WF

def KeyPackageTBS.WF (x : KeyPackageTBS) : Prop :=
  x.version.WF ∧ x.cipher_suite.WF ∧ x.leaf_node.WF ∧ Extensions.WF x.extensions
def KeyPackage.WF (x : KeyPackage) : Prop := x.payload.WF

def GroupContext.WF (x : GroupContext) : Prop :=
  x.version = .MLS10 ∧ x.cipher_suite.WF ∧ Extensions.WF x.extensions

def ReInitProposal.WF (x : ReInitProposal) : Prop :=
  x.version.WF ∧ x.cipher_suite.WF ∧ Extensions.WF x.extensions

def Proposal.WF : Proposal → Prop
  | .Add p => p.key_package.WF
  | .Update p => p.leaf_node.WF
  | .ReInit p => p.WF
  | .GroupContextExtensions p => Extensions.WF p.extensions
  | _ => True

def ProposalOrRef.WF : ProposalOrRef → Prop
  | .Proposal p => p.WF
  | .Reference _ => True

def Commit.WF (x : Commit) : Prop := (∀ p ∈ x.proposals, p.WF) ∧ (∀ p, x.path = some p → p.WF)

def Content.WF : Content → Prop
  | .Application _ => True
  | .Proposal p => p.WF
  | .Commit c => c.WF

def FramedContent.WF (x : FramedContent) : Prop := x.content.WF

/-- Only commits carry a confirmation tag. -/
def FramedContentAuthData.WF (ct : ContentType) (x : FramedContentAuthData) : Prop :=
  ct ≠ .Commit → x.confirmation_tag = []

def AuthenticatedContent.WF (x : AuthenticatedContent) : Prop :=
  x.content.WF ∧ x.auth.WF x.content.content.content_type

/-- The senders whose signed content includes the group context (RFC 9420 section 6.1). -/
def Sender.hasContext : Sender → Prop
  | .Member _ => True
  | .NewMemberCommit => True
  | _ => False

def FramedContentTBS.WF (x : FramedContentTBS) : Prop :=
  x.version.WF ∧ x.content.WF ∧
  (x.content.sender.hasContext → ∃ c, x.context = some c ∧ c.WF) ∧
  (¬ x.content.sender.hasContext → x.context = none)

def AuthenticatedContentTBM.WF (x : AuthenticatedContentTBM) : Prop :=
  x.content_tbs.WF ∧ x.auth.WF x.content_tbs.content.content.content_type

/-- `reuse_guard : [u8; 4]`. -/
def SenderData.WF (x : SenderData) : Prop := x.reuse_guard.length = 4

def PrivateMessageContent.WF (x : PrivateMessageContent) : Prop :=
  x.content.WF ∧ x.auth.WF x.content.content_type

/-- Members, and only members, have a membership tag. -/
def PublicMessage.WF (x : PublicMessage) : Prop :=
  x.content.WF ∧ x.auth.WF x.content.content.content_type ∧
  (x.membership_tag.isSome ↔ ∃ i, x.content.sender = .Member i)

def GroupInfo.WF (x : GroupInfo) : Prop := x.group_context.WF ∧ Extensions.WF x.extensions

def Welcome.WF (x : Welcome) : Prop := x.cipher_suite.WF

def ConfirmedTranscriptHashInput.WF (x : ConfirmedTranscriptHashInput) : Prop :=
  x.content.WF ∧ ∃ c, x.content.content = .Commit c

def WireMessage.WF : WireMessage → Prop
  | .PublicMessage m => m.WF
  | .PrivateMessage _ => True
  | .Welcome m => m.WF
  | .GroupInfo m => m.WF
  | .KeyPackage m => m.WF

def MLSMessage.WF (x : MLSMessage) : Prop := x.version = .MLS10 ∧ x.wire_message.WF

end Rmls
