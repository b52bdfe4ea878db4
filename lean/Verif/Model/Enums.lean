import Verif.Model.Serde
/-
Numeric registries: the `#[repr(u16)]` / `#[repr(u8)]` enums that appear on the wire.
`From<u16>` is modelled by `ofU16`, `Into<u16>` by `toU16`.
-/
namespace Rmls

/-- `rmls/src/crypto/cipher_suite.rs:11-21`. -/
inductive CipherSuite where
  | MLS_128_DHKEMX25519_AES128GCM_SHA256_Ed25519
  | MLS_128_DHKEMP256_AES128GCM_SHA256_P256
  | MLS_128_DHKEMX25519_CHACHA20POLY1305_SHA256_Ed25519
  | MLS_256_DHKEMX448_AES256GCM_SHA512_Ed448
  | MLS_256_DHKEMP521_AES256GCM_SHA512_P521
  | MLS_256_DHKEMX448_CHACHA20POLY1305_SHA512_Ed448
  | MLS_256_DHKEMP384_AES256GCM_SHA384_P384
  | Unknown (v : UInt16)
  deriving DecidableEq, Repr

/-- `rmls/src/crypto/cipher_suite.rs:23-36`. -/
def CipherSuite.ofU16 (v : UInt16) : CipherSuite :=
  if v = 0x0001 then .MLS_128_DHKEMX25519_AES128GCM_SHA256_Ed25519
  else if v = 0x0002 then .MLS_128_DHKEMP256_AES128GCM_SHA256_P256
  else if v = 0x0003 then .MLS_128_DHKEMX25519_CHACHA20POLY1305_SHA256_Ed25519
  else if v = 0x0004 then .MLS_256_DHKEMX448_AES256GCM_SHA512_Ed448
  else if v = 0x0005 then .MLS_256_DHKEMP521_AES256GCM_SHA512_P521
  else if v = 0x0006 then .MLS_256_DHKEMX448_CHACHA20POLY1305_SHA512_Ed448
  else if v = 0x0007 then .MLS_256_DHKEMP384_AES256GCM_SHA384_P384
  else .Unknown v

/-- `rmls/src/crypto/cipher_suite.rs:38-51`. -/
def CipherSuite.toU16 : CipherSuite → UInt16
  | .MLS_128_DHKEMX25519_AES128GCM_SHA256_Ed25519 => 0x0001
  | .MLS_128_DHKEMP256_AES128GCM_SHA256_P256 => 0x0002
  | .MLS_128_DHKEMX25519_CHACHA20POLY1305_SHA256_Ed25519 => 0x0003
  | .MLS_256_DHKEMX448_AES256GCM_SHA512_Ed448 => 0x0004
  | .MLS_256_DHKEMP521_AES256GCM_SHA512_P521 => 0x0005
  | .MLS_256_DHKEMX448_CHACHA20POLY1305_SHA512_Ed448 => 0x0006
  | .MLS_256_DHKEMP384_AES256GCM_SHA384_P384 => 0x0007
  | .Unknown v => v

/-- `rmls/src/crypto/credential.rs:13-20`. -/
inductive CredentialType where
  | Basic
  | X509
  | Unknown (v : UInt16)
  deriving DecidableEq, Repr

/-- `rmls/src/crypto/credential.rs:22-30`. -/
def CredentialType.ofU16 (v : UInt16) : CredentialType :=
  if v = 0x0001 then .Basic
  else if v = 0x0002 then .X509
  else .Unknown v

/-- `rmls/src/crypto/credential.rs:32-40`. -/
def CredentialType.toU16 : CredentialType → UInt16
  | .Basic => 0x0001
  | .X509 => 0x0002
  | .Unknown v => v

/-- `rmls/src/extensibility/mod.rs:21-30`. -/
inductive ExtensionType where
  | ApplicationId
  | RatchetTree
  | RequiredCapabilities
  | ExternalPub
  | ExternalSenders
  | Unknown (v : UInt16)
  deriving DecidableEq, Repr

/-- `rmls/src/extensibility/mod.rs:32-43`. -/
def ExtensionType.ofU16 (v : UInt16) : ExtensionType :=
  if v = 0x0001 then .ApplicationId
  else if v = 0x0002 then .RatchetTree
  else if v = 0x0003 then .RequiredCapabilities
  else if v = 0x0004 then .ExternalPub
  else if v = 0x0005 then .ExternalSenders
  else .Unknown v

/-- `rmls/src/extensibility/mod.rs:45-56`. -/
def ExtensionType.toU16 : ExtensionType → UInt16
  | .ApplicationId => 0x0001
  | .RatchetTree => 0x0002
  | .RequiredCapabilities => 0x0003
  | .ExternalPub => 0x0004
  | .ExternalSenders => 0x0005
  | .Unknown v => v

/-- `rmls/src/framing/proposal.rs:18-28`. -/
inductive ProposalType where
  | Add
  | Update
  | Remove
  | PreSharedKey
  | ReInit
  | ExternalInit
  | GroupContextExtensions
  | Unknown (v : UInt16)
  deriving DecidableEq, Repr

/-- `rmls/src/framing/proposal.rs:30-43`. -/
def ProposalType.ofU16 (v : UInt16) : ProposalType :=
  if v = 0x0001 then .Add
  else if v = 0x0002 then .Update
  else if v = 0x0003 then .Remove
  else if v = 0x0004 then .PreSharedKey
  else if v = 0x0005 then .ReInit
  else if v = 0x0006 then .ExternalInit
  else if v = 0x0007 then .GroupContextExtensions
  else .Unknown v

/-- `rmls/src/framing/proposal.rs:45-58`; the writer `:73-82` puts this value as a `u16`. -/
def ProposalType.toU16 : ProposalType → UInt16
  | .Add => 0x0001
  | .Update => 0x0002
  | .Remove => 0x0003
  | .PreSharedKey => 0x0004
  | .ReInit => 0x0005
  | .ExternalInit => 0x0006
  | .GroupContextExtensions => 0x0007
  | .Unknown v => v

/-- `rmls/src/framing/mod.rs:28-35`. -/
inductive ProtocolVersion where
  | MLS10
  | Unsupported (v : UInt16)
  deriving DecidableEq, Repr

/-- `rmls/src/framing/mod.rs:37-44`. -/
def ProtocolVersion.ofU16 (v : UInt16) : ProtocolVersion :=
  if v = 0x0001 then .MLS10 else .Unsupported v

/-- `rmls/src/framing/mod.rs:46-53`. -/
def ProtocolVersion.toU16 : ProtocolVersion → UInt16
  | .MLS10 => 0x0001
  | .Unsupported v => v

/-- `rmls/src/crypto/provider/mod.rs:52-64`. -/
inductive SignatureScheme where
  | ECDSA_SECP256R1_SHA256
  | ECDSA_SECP384R1_SHA384
  | ECDSA_SECP521R1_SHA512
  | ED25519
  | ED448
  deriving DecidableEq, Repr

/-- `*self as u16`, `rmls/src/crypto/provider/mod.rs:52-64,93`. -/
def SignatureScheme.toU16 : SignatureScheme → UInt16
  | .ECDSA_SECP256R1_SHA256 => 0x0403
  | .ECDSA_SECP384R1_SHA384 => 0x0503
  | .ECDSA_SECP521R1_SHA512 => 0x0603
  | .ED25519 => 0x0807
  | .ED448 => 0x0808

/-- `rmls/src/crypto/provider/mod.rs:66-85`. -/
def SignatureScheme.deserialize : De SignatureScheme := do
  need 2
  let v ← get_u16
  if v = 0x0403 then pure .ECDSA_SECP256R1_SHA256
  else if v = 0x0503 then pure .ECDSA_SECP384R1_SHA384
  else if v = 0x0603 then pure .ECDSA_SECP521R1_SHA512
  else if v = 0x0807 then pure .ED25519
  else if v = 0x0808 then pure .ED448
  else De.fail (.InvalidSignatureSchemeValue v)

/-- `rmls/src/crypto/provider/mod.rs:87-96`. -/
def SignatureScheme.serialize (x : SignatureScheme) : Res Bytes := put_u16 x.toU16

/-- `rmls/src/framing/mod.rs:58-68`. -/
inductive ContentType where
  | Application
  | Proposal
  | Commit
  deriving DecidableEq, Repr

/-- `*self as u8`, `rmls/src/framing/mod.rs:58-68`. -/
def ContentType.toU8 : ContentType → UInt8
  | .Application => 1
  | .Proposal => 2
  | .Commit => 3

/-- `rmls/src/framing/mod.rs:70-94`. -/
def ContentType.deserialize : De ContentType := do
  need 1
  let v ← get_u8
  if v = 1 then pure .Application
  else if v = 2 then pure .Proposal
  else if v = 3 then pure .Commit
  else De.fail (.InvalidContentTypeValue v)

/-- `rmls/src/framing/mod.rs:95-104`. -/
def ContentType.serialize (x : ContentType) : Res Bytes := put_u8 x.toU8

/-- `rmls/src/framing/mod.rs:177-190`. -/
inductive SenderType where
  | Member
  | External
  | NewMemberProposal
  | NewMemberCommit
  deriving DecidableEq, Repr

/-- `*self as u8`, `rmls/src/framing/mod.rs:177-190`. -/
def SenderType.toU8 : SenderType → UInt8
  | .Member => 1
  | .External => 2
  | .NewMemberProposal => 3
  | .NewMemberCommit => 4

/-- `rmls/src/framing/mod.rs:192-217`. -/
def SenderType.deserialize : De SenderType := do
  need 1
  let v ← get_u8
  if v = 1 then pure .Member
  else if v = 2 then pure .External
  else if v = 3 then pure .NewMemberProposal
  else if v = 4 then pure .NewMemberCommit
  else De.fail (.InvalidSenderTypeValue v)

/-- `rmls/src/framing/mod.rs:218-227`. -/
def SenderType.serialize (x : SenderType) : Res Bytes := put_u8 x.toU8

/-- `rmls/src/framing/mod.rs:309-325`. -/
inductive WireFormat where
  | PublicMessage
  | PrivateMessage
  | Welcome
  | GroupInfo
  | KeyPackage
  deriving DecidableEq, Repr

/-- `*self as u16`, `rmls/src/framing/mod.rs:309-325`. -/
def WireFormat.toU16 : WireFormat → UInt16
  | .PublicMessage => 0x0001
  | .PrivateMessage => 0x0002
  | .Welcome => 0x0003
  | .GroupInfo => 0x0004
  | .KeyPackage => 0x0005

/-- `rmls/src/framing/mod.rs:327-354`. -/
def WireFormat.deserialize : De WireFormat := do
  need 2
  let v ← get_u16
  if v = 0x0001 then pure .PublicMessage
  else if v = 0x0002 then pure .PrivateMessage
  else if v = 0x0003 then pure .Welcome
  else if v = 0x0004 then pure .GroupInfo
  else if v = 0x0005 then pure .KeyPackage
  else De.fail (.InvalidWireFormatValue v)

/-- `rmls/src/framing/mod.rs:356-366`. -/
def WireFormat.serialize (x : WireFormat) : Res Bytes := put_u16 x.toU16

/-- `rmls/src/ratchet_tree/mod.rs:157-161`. -/
inductive NodeType where
  | Leaf
  | Parent
  deriving DecidableEq, Repr

/-- `*self as u8`, `rmls/src/ratchet_tree/mod.rs:157-161`. -/
def NodeType.toU8 : NodeType → UInt8
  | .Leaf => 1
  | .Parent => 2

/-- `rmls/src/ratchet_tree/mod.rs:163-180`. -/
def NodeType.deserialize : De NodeType := do
  need 1
  let v ← get_u8
  if v = 1 then pure .Leaf
  else if v = 2 then pure .Parent
  else De.fail (.InvalidNodeTypeValue v)

/-- `rmls/src/ratchet_tree/mod.rs:182-199`. -/
def NodeType.serialize (x : NodeType) : Res Bytes := put_u8 x.toU8

/-- `rmls/src/key_schedule/mod.rs:324-328`. -/
inductive PSKType where
  | External
  | Resumption
  deriving DecidableEq, Repr

/-- `*self as u8`, `rmls/src/key_schedule/mod.rs:324-328`. -/
def PSKType.toU8 : PSKType → UInt8
  | .External => 1
  | .Resumption => 2

/-- `rmls/src/key_schedule/mod.rs:330-353`. -/
def PSKType.deserialize : De PSKType := do
  need 1
  let v ← get_u8
  if v = 1 then pure .External
  else if v = 2 then pure .Resumption
  else De.fail (.InvalidPskTypeValue v)

/-- `rmls/src/key_schedule/mod.rs:354-363`. -/
def PSKType.serialize (x : PSKType) : Res Bytes := put_u8 x.toU8

/-- `rmls/src/key_schedule/mod.rs:422-427`. -/
inductive ResumptionPSKUsage where
  | Application
  | Reinit
  | Branch
  deriving DecidableEq, Repr

/-- `*self as u8`, `rmls/src/key_schedule/mod.rs:422-427`. -/
def ResumptionPSKUsage.toU8 : ResumptionPSKUsage → UInt8
  | .Application => 1
  | .Reinit => 2
  | .Branch => 3

/-- `rmls/src/key_schedule/mod.rs:429-454`. -/
def ResumptionPSKUsage.deserialize : De ResumptionPSKUsage := do
  need 1
  let v ← get_u8
  if v = 1 then pure .Application
  else if v = 2 then pure .Reinit
  else if v = 3 then pure .Branch
  else De.fail (.InvalidResumptionPSKUsageValue v)

/-- `rmls/src/key_schedule/mod.rs:455-464`. -/
def ResumptionPSKUsage.serialize (x : ResumptionPSKUsage) : Res Bytes := put_u8 x.toU8

end Rmls
