import Verif.Spec.LeafNode
import Verif.Spec.WellFormed
/-
Signatures and tags on messages and group infos (RFC 9420 sections 6.1, 6.2, 12.4.3), over the RFC encodings.
-/
namespace Rmls.Spec
open Enc

/-- A group context in canonical representation, of any protocol version. -/
def ContextCanonical (x : GroupContext) : Prop :=
  x.version.WF ∧ x.cipher_suite.WF ∧ Extensions.WF x.extensions

/-- Section 6.1: the message carries a signature over its content, its wire format and, for members and external
joiners, the group context. -/
def ContentSigned (P : CryptoProvider) (cs : CipherSuite) (key : Bytes) (w : WireFormat) (c : FramedContent)
    (ctx : GroupContext) (signature : Bytes) : Prop :=
  (framedContentTBS .MLS10 w c ctx).fits ∧
  SignedBy P cs key (text "FramedContentTBS") (framedContentTBS .MLS10 w c ctx).bytes signature

/-- Section 12.4.3: the group info carries a signature over everything but the signature. -/
def GroupInfoSigned (P : CryptoProvider) (key : Bytes) (x : GroupInfo) : Prop :=
  (groupInfoTBS x).fits ∧
  SignedBy P x.group_context.cipher_suite key (text "GroupInfoTBS") (groupInfoTBS x).bytes x.signature

/-- Section 6.2: `AuthenticatedContentTBM` of a public message. -/
def authenticatedContentTBM (c : FramedContent) (auth : FramedContentAuthData) (ctx : GroupContext) : Enc :=
  struct [framedContentTBS .MLS10 .PublicMessage c ctx, framedContentAuthData c.content auth]

/-- `tag` is the MAC of `message` under `key`. -/
def MacOf (P : CryptoProvider) (cs : CipherSuite) (key message tag : Bytes) : Prop :=
  ∃ h, P.hash cs = .ok h ∧ tag = h.mac key message

/-- What is signed with the private key is accepted under the public key. -/
def SignaturePair (P : CryptoProvider) (cs : CipherSuite) (priv pub : Bytes) : Prop :=
  ∀ s m signature, P.signature cs = .ok s → s.sign priv m = .ok signature → s.verify pub m signature = .ok ()

/-- The kinds of signed objects. -/
inductive Kind where
  | leafNode
  | keyPackage
  | groupInfo
  | framedContent
  deriving DecidableEq

/-- The label of each kind: sections 7.2, 10, 12.4.3 and 6.1. -/
def Kind.label : Kind → Bytes
  | .leafNode => text "LeafNodeTBS"
  | .keyPackage => text "KeyPackageTBS"
  | .groupInfo => text "GroupInfoTBS"
  | .framedContent => text "FramedContentTBS"

end Rmls.Spec
