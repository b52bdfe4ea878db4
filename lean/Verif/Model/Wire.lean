import Verif.Model.Enums
/-
The wire types and their readers and writers, function by function.

Simplifications that apply throughout:
* newtypes around `Bytes` (`SecretKey`, `Identity`, `Certificate`, `KeyPackageRef`, `GroupID`,
  `ProposalRef`, ...) are erased to `Bytes`; `LeafIndex` is a `UInt32`;
* a `serialize` function is modelled by the bytes that it appends to the output buffer; what it
  leaves behind in the buffer when it fails is not modelled;
* `#[derive(Clone, PartialEq)]` is Lean's value semantics.
-/
namespace Rmls

/-! ### crypto -/

/-- `SecretKey` and its aliases, `rmls/src/crypto/mod.rs:16-56`; reader 27-35, writer 37-45. -/
abbrev SecretKey := Bytes
def SecretKey.deserialize : De SecretKey := deserialize_opaque_vec
def SecretKey.serialize (x : SecretKey) : Res Bytes := serialize_opaque_vec x
abbrev HPKEPublicKey := SecretKey
abbrev SignaturePublicKey := SecretKey
abbrev GroupID := Bytes
abbrev LeafIndex := UInt32

/-- `rmls/src/crypto/key_pair.rs:9-13`. -/
structure SignatureKeyPair where
  private_key : SecretKey
  public_key : SecretKey
  signature_scheme : SignatureScheme
  deriving DecidableEq, Repr

/-- `rmls/src/crypto/key_pair.rs:15-30`. -/
def SignatureKeyPair.deserialize : De SignatureKeyPair := do
  let private_key ← SecretKey.deserialize
  let public_key ← SecretKey.deserialize
  let signature_scheme ← SignatureScheme.deserialize
  pure { private_key, public_key, signature_scheme }

/-- `rmls/src/crypto/key_pair.rs:32-42`. -/
def SignatureKeyPair.serialize (x : SignatureKeyPair) : Res Bytes :=
  SecretKey.serialize x.private_key +++ SecretKey.serialize x.public_key +++
    x.signature_scheme.serialize

/-- `rmls/src/crypto/key_pair.rs:63-66`. -/
structure HPKEKeyPair where
  private_key : SecretKey
  public_key : SecretKey
  deriving DecidableEq, Repr

/-- `rmls/src/crypto/key_pair.rs:68-81`. -/
def HPKEKeyPair.deserialize : De HPKEKeyPair := do
  let private_key ← SecretKey.deserialize
  let public_key ← SecretKey.deserialize
  pure { private_key, public_key }

/-- `rmls/src/crypto/key_pair.rs:83-92`. -/
def HPKEKeyPair.serialize (x : HPKEKeyPair) : Res Bytes :=
  SecretKey.serialize x.private_key +++ SecretKey.serialize x.public_key

/-- `rmls/src/crypto/credential.rs:119-126`; `Identity` and `Certificate` (lines 43-114) are opaque
vectors. -/
inductive Credential where
  | Basic (identity : Bytes)
  | X509 (certificates : List Bytes)
  deriving DecidableEq, Repr

/-- `Identity::deserialize`, `rmls/src/crypto/credential.rs:61-69`. -/
def Identity.deserialize : De Bytes := deserialize_opaque_vec
/-- `rmls/src/crypto/credential.rs:71-79`. -/
def Identity.serialize (x : Bytes) : Res Bytes := serialize_opaque_vec x

/-- `Certificate::deserialize`, `rmls/src/crypto/credential.rs:94-104`. -/
def Certificate.deserialize : De Bytes := deserialize_opaque_vec
/-- `rmls/src/crypto/credential.rs:106-114`. -/
def Certificate.serialize (x : Bytes) : Res Bytes := serialize_opaque_vec x

/-- `rmls/src/crypto/credential.rs:211-216`. -/
def Credential.credential_type : Credential → CredentialType
  | .Basic _ => .Basic
  | .X509 _ => .X509

/-- `rmls/src/crypto/credential.rs:164-190`. -/
def Credential.deserialize : De Credential := do
  need 2
  let v ← get_u16
  match CredentialType.ofU16 v with
  | .Basic => do
    let identity ← Identity.deserialize
    pure (.Basic identity)
  | .X509 => do
    let certificates ← deserialize_vector Certificate.deserialize
    pure (.X509 certificates)
  | .Unknown _ => De.fail .InvalidCredentialTypeValue

/-- `rmls/src/crypto/credential.rs:192-208`. -/
def Credential.serialize (x : Credential) : Res Bytes :=
  put_u16 x.credential_type.toU16 +++
    match x with
    | .Basic identity => Identity.serialize identity
    | .X509 certificates => serialize_vector Certificate.serialize certificates

/-! ### extensibility -/

/-- `rmls/src/extensibility/mod.rs:60-63`. -/
structure Extension where
  extension_type : ExtensionType
  extension_data : Bytes
  deriving DecidableEq, Repr

/-- The closure in `rmls/src/extensibility/mod.rs:99-110`. -/
def Extension.deserialize : De Extension := do
  need 2
  let v ← get_u16
  let extension_data ← deserialize_opaque_vec
  pure { extension_type := ExtensionType.ofU16 v, extension_data }

/-- The closure in `rmls/src/extensibility/mod.rs:120-123`. -/
def Extension.serialize (x : Extension) : Res Bytes :=
  put_u16 x.extension_type.toU16 +++ serialize_opaque_vec x.extension_data

/-- `rmls/src/extensibility/mod.rs:84`. -/
abbrev Extensions := List Extension

/-- `rmls/src/extensibility/mod.rs:96-113`. -/
def Extensions.deserialize : De Extensions := deserialize_vector Extension.deserialize

/-- `rmls/src/extensibility/mod.rs:115-126`. -/
def Extensions.serialize (x : Extensions) : Res Bytes := serialize_vector Extension.serialize x

/-- `rmls/src/extensibility/mod.rs:129-136`. -/
def Extensions.find_extension_data (t : ExtensionType) : Extensions → Option Bytes
  | [] => none
  | ext :: exts =>
    if ext.extension_type = t then some ext.extension_data
    else Extensions.find_extension_data t exts

/-- `ApplicationIdExtension`, `rmls/src/extensibility/mod.rs:141,158-166`. -/
def ApplicationIdExtension.deserialize : De Bytes := deserialize_opaque_vec
/-- `rmls/src/extensibility/mod.rs:168-176`. -/
def ApplicationIdExtension.serialize (x : Bytes) : Res Bytes := serialize_opaque_vec x

/-- `UnknownExtension`, `rmls/src/extensibility/mod.rs:434,451-459`. -/
def UnknownExtension.deserialize : De Bytes := deserialize_opaque_vec
/-- `rmls/src/extensibility/mod.rs:461-469`. -/
def UnknownExtension.serialize (x : Bytes) : Res Bytes := serialize_opaque_vec x

/-- The element closures `rmls/src/extensibility/mod.rs:264-271` and `leaf_node.rs:105-112`. -/
def ExtensionType.deserialize : De ExtensionType := do
  need 2
  let v ← get_u16
  pure (ExtensionType.ofU16 v)
def ExtensionType.serialize (x : ExtensionType) : Res Bytes := put_u16 x.toU16

/-- The element closures `rmls/src/extensibility/mod.rs:274-281` and `leaf_node.rs:115-122`. -/
def ProposalType.deserializeElem : De ProposalType := do
  need 2
  let v ← get_u16
  pure (ProposalType.ofU16 v)
/-- `rmls/src/framing/proposal.rs:73-82`. -/
def ProposalType.serialize (x : ProposalType) : Res Bytes := put_u16 x.toU16

/-- `rmls/src/framing/proposal.rs:60-71`: only one byte is checked for, two are read. -/
def ProposalType.deserialize : De ProposalType := do
  need 1
  let v ← get_u16
  pure (ProposalType.ofU16 v)

/-- The element closures `rmls/src/extensibility/mod.rs:284-291` and `leaf_node.rs:125-132`. -/
def CredentialType.deserialize : De CredentialType := do
  need 2
  let v ← get_u16
  pure (CredentialType.ofU16 v)
def CredentialType.serialize (x : CredentialType) : Res Bytes := put_u16 x.toU16

/-- The element closure `rmls/src/ratchet_tree/leaf_node.rs:86-93`. -/
def ProtocolVersion.deserialize : De ProtocolVersion := do
  need 2
  let v ← get_u16
  pure (ProtocolVersion.ofU16 v)
def ProtocolVersion.serialize (x : ProtocolVersion) : Res Bytes := put_u16 x.toU16

/-- The element closure `rmls/src/ratchet_tree/leaf_node.rs:96-102`. -/
def CipherSuite.deserialize : De CipherSuite := do
  need 2
  let v ← get_u16
  pure (CipherSuite.ofU16 v)
def CipherSuite.serialize (x : CipherSuite) : Res Bytes := put_u16 x.toU16

/-- `rmls/src/extensibility/mod.rs:221-225`. -/
structure RequiredCapabilitiesExtension where
  extension_types : List ExtensionType
  proposal_types : List ProposalType
  credential_types : List CredentialType
  deriving DecidableEq, Repr

/-- `rmls/src/extensibility/mod.rs:257-299`. -/
def RequiredCapabilitiesExtension.deserialize : De RequiredCapabilitiesExtension := do
  let extension_types ← deserialize_vector ExtensionType.deserialize
  let proposal_types ← deserialize_vector ProposalType.deserializeElem
  let credential_types ← deserialize_vector CredentialType.deserialize
  pure { extension_types, proposal_types, credential_types }

/-- `rmls/src/extensibility/mod.rs:301-336`. -/
def RequiredCapabilitiesExtension.serialize (x : RequiredCapabilitiesExtension) : Res Bytes :=
  serialize_vector ExtensionType.serialize x.extension_types +++
  serialize_vector ProposalType.serialize x.proposal_types +++
  serialize_vector CredentialType.serialize x.credential_types

/-- `ExternalPubExtension`, `rmls/src/extensibility/mod.rs:340-342,356-366`. -/
def ExternalPubExtension.deserialize : De HPKEPublicKey := SecretKey.deserialize
/-- `rmls/src/extensibility/mod.rs:368-376`. -/
def ExternalPubExtension.serialize (x : HPKEPublicKey) : Res Bytes := SecretKey.serialize x

/-- `rmls/src/extensibility/mod.rs:380-383`. -/
structure ExternalSendersExtension where
  signature_key : SignaturePublicKey
  credential : Credential
  deriving DecidableEq, Repr

/-- `rmls/src/extensibility/mod.rs:405-419`. -/
def ExternalSendersExtension.deserialize : De ExternalSendersExtension := do
  let signature_key ← SecretKey.deserialize
  let credential ← Credential.deserialize
  pure { signature_key, credential }

/-- `rmls/src/extensibility/mod.rs:421-430`. -/
def ExternalSendersExtension.serialize (x : ExternalSendersExtension) : Res Bytes :=
  SecretKey.serialize x.signature_key +++ x.credential.serialize

/-! ### ratchet_tree/leaf_node.rs -/

/-- `rmls/src/ratchet_tree/leaf_node.rs:204-207`. -/
structure Lifetime where
  not_before : UInt64
  not_after : UInt64
  deriving DecidableEq, Repr

/-- `rmls/src/ratchet_tree/leaf_node.rs:209-227`: eight bytes are checked for, sixteen are read. -/
def Lifetime.deserialize : De Lifetime := do
  need 8
  let not_before ← get_u64
  let not_after ← get_u64
  pure { not_before, not_after }

/-- `rmls/src/ratchet_tree/leaf_node.rs:229-239`. -/
def Lifetime.serialize (x : Lifetime) : Res Bytes :=
  put_u64 x.not_before +++ put_u64 x.not_after

/-- `rmls/src/ratchet_tree/leaf_node.rs:20-25`. -/
inductive LeafNodeSource where
  | KeyPackage (lifetime : Lifetime)
  | Update
  | Commit (parent_hash : Bytes)
  deriving DecidableEq, Repr

/-- `rmls/src/ratchet_tree/leaf_node.rs:27-44`. -/
def LeafNodeSource.deserialize : De LeafNodeSource := do
  need 1
  let v ← get_u8
  if v = 1 then do
    let lifetime ← Lifetime.deserialize
    pure (.KeyPackage lifetime)
  else if v = 2 then pure .Update
  else if v = 3 then do
    let parent_hash ← deserialize_opaque_vec
    pure (.Commit parent_hash)
  else De.fail (.InvalidLeafNodeSourceValue v)

/-- `rmls/src/ratchet_tree/leaf_node.rs:46-66`. -/
def LeafNodeSource.serialize : LeafNodeSource → Res Bytes
  | .KeyPackage lifetime => put_u8 1 +++ lifetime.serialize
  | .Update => put_u8 2
  | .Commit parent_hash => put_u8 3 +++ serialize_opaque_vec parent_hash

/-- `rmls/src/ratchet_tree/leaf_node.rs:70-76`. -/
structure Capabilities where
  versions : List ProtocolVersion
  cipher_suites : List CipherSuite
  extensions : List ExtensionType
  proposals : List ProposalType
  credentials : List CredentialType
  deriving DecidableEq, Repr

/-- `rmls/src/ratchet_tree/leaf_node.rs:78-142`. -/
def Capabilities.deserialize : De Capabilities := do
  let versions ← deserialize_vector ProtocolVersion.deserialize
  let cipher_suites ← deserialize_vector CipherSuite.deserialize
  let extensions ← deserialize_vector ExtensionType.deserialize
  let proposals ← deserialize_vector ProposalType.deserializeElem
  let credentials ← deserialize_vector CredentialType.deserialize
  pure { versions, cipher_suites, extensions, proposals, credentials }

/-- `rmls/src/ratchet_tree/leaf_node.rs:144-197`. -/
def Capabilities.serialize (x : Capabilities) : Res Bytes :=
  serialize_vector ProtocolVersion.serialize x.versions +++
  serialize_vector CipherSuite.serialize x.cipher_suites +++
  serialize_vector ExtensionType.serialize x.extensions +++
  serialize_vector ProposalType.serialize x.proposals +++
  serialize_vector CredentialType.serialize x.credentials

/-- `rmls/src/ratchet_tree/leaf_node.rs:269-276`. -/
structure LeafNodePayload where
  encryption_key : HPKEPublicKey
  signature_key : SignaturePublicKey
  credential : Credential
  capabilities : Capabilities
  leaf_node_source : LeafNodeSource
  extensions : Extensions
  deriving DecidableEq, Repr

/-- `rmls/src/ratchet_tree/leaf_node.rs:278-302`. -/
def LeafNodePayload.deserialize : De LeafNodePayload := do
  let encryption_key ← SecretKey.deserialize
  let signature_key ← SecretKey.deserialize
  let credential ← Credential.deserialize
  let capabilities ← Capabilities.deserialize
  let leaf_node_source ← LeafNodeSource.deserialize
  let extensions ← Extensions.deserialize
  pure { encryption_key, signature_key, credential, capabilities, leaf_node_source, extensions }

/-- `rmls/src/ratchet_tree/leaf_node.rs:304-317`. -/
def LeafNodePayload.serialize (x : LeafNodePayload) : Res Bytes :=
  serialize_opaque_vec x.encryption_key +++
  serialize_opaque_vec x.signature_key +++
  x.credential.serialize +++
  x.capabilities.serialize +++
  x.leaf_node_source.serialize +++
  Extensions.serialize x.extensions

/-- `rmls/src/ratchet_tree/leaf_node.rs:321-324`. -/
structure LeafNode where
  payload : LeafNodePayload
  signature : Bytes
  deriving DecidableEq, Repr

/-- `rmls/src/ratchet_tree/leaf_node.rs:326-337`. -/
def LeafNode.deserialize : De LeafNode := do
  let payload ← LeafNodePayload.deserialize
  let signature ← deserialize_opaque_vec
  pure { payload, signature }

/-- `rmls/src/ratchet_tree/leaf_node.rs:339-348`. -/
def LeafNode.serialize (x : LeafNode) : Res Bytes :=
  x.payload.serialize +++ serialize_opaque_vec x.signature

/-! ### ratchet_tree/parent_node.rs -/

/-- `rmls/src/ratchet_tree/parent_node.rs:10-23`. -/
structure ParentNode where
  encryption_key : HPKEPublicKey
  parent_hash : Bytes
  unmerged_leaves : List LeafIndex
  deriving DecidableEq, Repr

/-- The closure in `rmls/src/ratchet_tree/parent_node.rs:35-42`: one byte is checked for, four are
read. -/
def ParentNode.deserializeUnmerged : De LeafIndex := do
  need 1
  let i ← get_u32
  pure i

/-- `rmls/src/ratchet_tree/parent_node.rs:25-50`. -/
def ParentNode.deserialize : De ParentNode := do
  let encryption_key ← SecretKey.deserialize
  let parent_hash ← deserialize_opaque_vec
  let unmerged_leaves ← deserialize_vector ParentNode.deserializeUnmerged
  pure { encryption_key, parent_hash, unmerged_leaves }

/-- `rmls/src/ratchet_tree/parent_node.rs:52-69`. -/
def ParentNode.serialize (x : ParentNode) : Res Bytes :=
  serialize_opaque_vec x.encryption_key +++
  serialize_opaque_vec x.parent_hash +++
  serialize_vector put_u32 x.unmerged_leaves

/-! ### ratchet_tree/mod.rs -/

/-- `rmls/src/ratchet_tree/mod.rs:31-34`. -/
structure HPKECiphertext where
  kem_output : Bytes
  ciphertext : Bytes
  deriving DecidableEq, Repr

/-- `rmls/src/ratchet_tree/mod.rs:36-50`. -/
def HPKECiphertext.deserialize : De HPKECiphertext := do
  let kem_output ← deserialize_opaque_vec
  let ciphertext ← deserialize_opaque_vec
  pure { kem_output, ciphertext }

/-- `rmls/src/ratchet_tree/mod.rs:52-62`. -/
def HPKECiphertext.serialize (x : HPKECiphertext) : Res Bytes :=
  serialize_opaque_vec x.kem_output +++ serialize_opaque_vec x.ciphertext

/-- `rmls/src/ratchet_tree/mod.rs:66-69`. -/
structure UpdatePathNode where
  encryption_key : HPKEPublicKey
  encrypted_path_secret : List HPKECiphertext
  deriving DecidableEq, Repr

/-- `rmls/src/ratchet_tree/mod.rs:71-90`. -/
def UpdatePathNode.deserialize : De UpdatePathNode := do
  let encryption_key ← SecretKey.deserialize
  let encrypted_path_secret ← deserialize_vector HPKECiphertext.deserialize
  pure { encryption_key, encrypted_path_secret }

/-- `rmls/src/ratchet_tree/mod.rs:92-107`. -/
def UpdatePathNode.serialize (x : UpdatePathNode) : Res Bytes :=
  serialize_opaque_vec x.encryption_key +++
  serialize_vector HPKECiphertext.serialize x.encrypted_path_secret

/-- `rmls/src/ratchet_tree/mod.rs:116-119`. -/
structure UpdatePath where
  leaf_node : LeafNode
  nodes : List UpdatePathNode
  deriving DecidableEq, Repr

/-- `rmls/src/ratchet_tree/mod.rs:121-137`. -/
def UpdatePath.deserialize : De UpdatePath := do
  let leaf_node ← LeafNode.deserialize
  let nodes ← deserialize_vector UpdatePathNode.deserialize
  pure { leaf_node, nodes }

/-- `rmls/src/ratchet_tree/mod.rs:139-152`. -/
def UpdatePath.serialize (x : UpdatePath) : Res Bytes :=
  x.leaf_node.serialize +++ serialize_vector UpdatePathNode.serialize x.nodes

/-- `rmls/src/ratchet_tree/mod.rs:203-206`. -/
inductive Node where
  | Leaf (n : LeafNode)
  | Parent (n : ParentNode)
  deriving DecidableEq, Repr

/-- `rmls/src/ratchet_tree/mod.rs:247-252`. -/
def Node.node_type : Node → NodeType
  | .Leaf _ => .Leaf
  | .Parent _ => .Parent

/-- `rmls/src/ratchet_tree/mod.rs:214-230`. -/
def Node.deserialize : De Node := do
  need 1
  let node_type ← NodeType.deserialize
  match node_type with
  | .Leaf => do
    let n ← LeafNode.deserialize
    pure (.Leaf n)
  | .Parent => do
    let n ← ParentNode.deserialize
    pure (.Parent n)

/-- `rmls/src/ratchet_tree/mod.rs:232-244`. -/
def Node.serialize (x : Node) : Res Bytes :=
  x.node_type.serialize +++
    match x with
    | .Leaf n => n.serialize
    | .Parent n => n.serialize

/-- `rmls/src/ratchet_tree/mod.rs:257`. -/
abbrev RatchetTree := List (Option Node)

/-- The closure in `rmls/src/ratchet_tree/mod.rs:266-274`. -/
def RatchetTree.deserializeNode : De (Option Node) := do
  let present ← deserialize_optional
  if present then do
    let node ← Node.deserialize
    pure (some node)
  else pure none

/-- The closure in `rmls/src/ratchet_tree/mod.rs:297-303`. -/
def RatchetTree.serializeNode (n : Option Node) : Res Bytes :=
  serialize_optional n.isSome +++
    match n with
    | some n => n.serialize
    | none => .ok []

/-- `rmls/src/utilities/tree_math/mod.rs:201-203`. -/
def is_power_of_two (x : Nat) : Bool := x ≠ 0 ∧ x &&& (x - 1) = 0

/-- The loop `rmls/src/ratchet_tree/mod.rs:278-280`.  The fuel is the length of the tree as read,
which is always enough (`Verif.Proofs`); running out of it would be a loop that does not end. -/
def RatchetTree.padLoop : Nat → RatchetTree → Res RatchetTree
  | 0, t => if is_power_of_two (t.length + 1) then .ok t else .fault .hang
  | fuel + 1, t =>
    if is_power_of_two (t.length + 1) then .ok t else RatchetTree.padLoop fuel (t ++ [none])

/-- `rmls/src/ratchet_tree/mod.rs:259-284`. -/
def RatchetTree.deserialize : De RatchetTree := do
  let nodes ← deserialize_vector RatchetTree.deserializeNode
  De.lift (RatchetTree.padLoop nodes.length nodes)

/-- The loop `rmls/src/ratchet_tree/mod.rs:292-295`. -/
def RatchetTree.trimEnd (t : RatchetTree) : Nat → Nat
  | 0 => 0
  | e + 1 => if (t[e]?.join).isNone then RatchetTree.trimEnd t e else e + 1

/-- `rmls/src/ratchet_tree/mod.rs:286-305`. -/
def RatchetTree.serialize (t : RatchetTree) : Res Bytes :=
  serialize_vector RatchetTree.serializeNode (t.take (RatchetTree.trimEnd t t.length))

/-- `RatchetTreeExtension`, `rmls/src/extensibility/mod.rs:180-207`. -/
def RatchetTreeExtension.deserialize : De RatchetTree := RatchetTree.deserialize
/-- `rmls/src/extensibility/mod.rs:209-217`. -/
def RatchetTreeExtension.serialize (x : RatchetTree) : Res Bytes := RatchetTree.serialize x

/-! ### key_package/mod.rs -/

/-- `rmls/src/key_package/mod.rs:63-69`. -/
structure KeyPackageTBS where
  version : ProtocolVersion
  cipher_suite : CipherSuite
  init_key : HPKEPublicKey
  leaf_node : LeafNode
  extensions : Extensions
  deriving DecidableEq, Repr

/-- `rmls/src/key_package/mod.rs:71-95`. -/
def KeyPackageTBS.deserialize : De KeyPackageTBS := do
  need 4
  let version ← get_u16
  let cipher_suite ← get_u16
  let init_key ← SecretKey.deserialize
  let leaf_node ← LeafNode.deserialize
  let extensions ← Extensions.deserialize
  pure { version := ProtocolVersion.ofU16 version, cipher_suite := CipherSuite.ofU16 cipher_suite,
         init_key, leaf_node, extensions }

/-- `rmls/src/key_package/mod.rs:97-109`. -/
def KeyPackageTBS.serialize (x : KeyPackageTBS) : Res Bytes :=
  put_u16 x.version.toU16 +++
  put_u16 x.cipher_suite.toU16 +++
  serialize_opaque_vec x.init_key +++
  x.leaf_node.serialize +++
  Extensions.serialize x.extensions

/-- `rmls/src/key_package/mod.rs:113-116`. -/
structure KeyPackage where
  payload : KeyPackageTBS
  signature : Bytes
  deriving DecidableEq, Repr

/-- `rmls/src/key_package/mod.rs:118-129`. -/
def KeyPackage.deserialize : De KeyPackage := do
  let payload ← KeyPackageTBS.deserialize
  let signature ← deserialize_opaque_vec
  pure { payload, signature }

/-- `rmls/src/key_package/mod.rs:131-140`. -/
def KeyPackage.serialize (x : KeyPackage) : Res Bytes :=
  x.payload.serialize +++ serialize_opaque_vec x.signature

/-- `KeyPackageRef`, `rmls/src/key_package/mod.rs:31,41-49`. -/
abbrev KeyPackageRef := Bytes
def KeyPackageRef.deserialize : De KeyPackageRef := deserialize_opaque_vec
/-- `rmls/src/key_package/mod.rs:51-59`. -/
def KeyPackageRef.serialize (x : KeyPackageRef) : Res Bytes := serialize_opaque_vec x

/-! ### key_schedule/mod.rs -/

/-- `rmls/src/key_schedule/mod.rs:468-472`. -/
structure Resumption where
  usage : ResumptionPSKUsage
  psk_group_id : GroupID
  psk_epoch : UInt64
  deriving DecidableEq, Repr

/-- `rmls/src/key_schedule/mod.rs:474-492`. -/
def Resumption.deserialize : De Resumption := do
  let usage ← ResumptionPSKUsage.deserialize
  let psk_group_id ← deserialize_opaque_vec
  need 8
  let psk_epoch ← get_u64
  pure { usage, psk_group_id, psk_epoch }

/-- `rmls/src/key_schedule/mod.rs:494-505`. -/
def Resumption.serialize (x : Resumption) : Res Bytes :=
  x.usage.serialize +++ serialize_opaque_vec x.psk_group_id +++ put_u64 x.psk_epoch

/-- `rmls/src/key_schedule/mod.rs:367-370`. -/
inductive PSK where
  | External (id : Bytes)
  | Resumption (r : Resumption)
  deriving DecidableEq, Repr

/-- `rmls/src/key_schedule/mod.rs:411-416`. -/
def PSK.psk_type : PSK → PSKType
  | .External _ => .External
  | .Resumption _ => .Resumption

/-- `rmls/src/key_schedule/mod.rs:378-394`. -/
def PSK.deserialize : De PSK := do
  need 2
  let psk_type ← PSKType.deserialize
  match psk_type with
  | .External => do
    let id ← deserialize_opaque_vec
    pure (.External id)
  | .Resumption => do
    let r ← Resumption.deserialize
    pure (.Resumption r)

/-- `rmls/src/key_schedule/mod.rs:396-408`. -/
def PSK.serialize (x : PSK) : Res Bytes :=
  x.psk_type.serialize +++
    match x with
    | .External id => serialize_opaque_vec id
    | .Resumption r => r.serialize

/-- `rmls/src/key_schedule/mod.rs:509-512`. -/
structure PreSharedKeyID where
  psk : PSK
  psk_nonce : Bytes
  deriving DecidableEq, Repr

/-- `rmls/src/key_schedule/mod.rs:514-528`. -/
def PreSharedKeyID.deserialize : De PreSharedKeyID := do
  need 1
  let psk ← PSK.deserialize
  let psk_nonce ← deserialize_opaque_vec
  pure { psk, psk_nonce }

/-- `rmls/src/key_schedule/mod.rs:529-538`. -/
def PreSharedKeyID.serialize (x : PreSharedKeyID) : Res Bytes :=
  x.psk.serialize +++ serialize_opaque_vec x.psk_nonce

/-- `rmls/src/key_schedule/mod.rs:542-546`. -/
structure PSKLabel where
  id : PreSharedKeyID
  index : UInt16
  count : UInt16
  deriving DecidableEq, Repr

/-- `rmls/src/key_schedule/mod.rs:548-563`. -/
def PSKLabel.deserialize : De PSKLabel := do
  let id ← PreSharedKeyID.deserialize
  need 4
  let index ← get_u16
  let count ← get_u16
  pure { id, index, count }

/-- `rmls/src/key_schedule/mod.rs:565-576`. -/
def PSKLabel.serialize (x : PSKLabel) : Res Bytes :=
  x.id.serialize +++ put_u16 x.index +++ put_u16 x.count

/-- `rmls/src/key_schedule/mod.rs:51-68`. -/
structure GroupContext where
  version : ProtocolVersion
  cipher_suite : CipherSuite
  group_id : GroupID
  epoch : UInt64
  tree_hash : Bytes
  confirmed_transcript_hash : Bytes
  extensions : Extensions
  deriving DecidableEq, Repr

/-- `rmls/src/key_schedule/mod.rs:70-106`. -/
def GroupContext.deserialize : De GroupContext := do
  need 4
  let version ← get_u16
  let cipher_suite ← get_u16
  let group_id ← deserialize_opaque_vec
  need 8
  let epoch ← get_u64
  let tree_hash ← deserialize_opaque_vec
  let confirmed_transcript_hash ← deserialize_opaque_vec
  if ProtocolVersion.ofU16 version ≠ .MLS10 then
    De.fail (.InvalidProposalTypeValue (ProtocolVersion.ofU16 version).toU16)
  else do
    let extensions ← Extensions.deserialize
    pure { version := ProtocolVersion.ofU16 version, cipher_suite := CipherSuite.ofU16 cipher_suite,
           group_id, epoch, tree_hash, confirmed_transcript_hash, extensions }

/-- `rmls/src/key_schedule/mod.rs:107-121`. -/
def GroupContext.serialize (x : GroupContext) : Res Bytes :=
  put_u16 x.version.toU16 +++
  put_u16 x.cipher_suite.toU16 +++
  serialize_opaque_vec x.group_id +++
  put_u64 x.epoch +++
  serialize_opaque_vec x.tree_hash +++
  serialize_opaque_vec x.confirmed_transcript_hash +++
  Extensions.serialize x.extensions

/-! ### framing/proposal.rs -/

/-- `rmls/src/framing/proposal.rs:171-173`. -/
structure AddProposal where
  key_package : KeyPackage
  deriving DecidableEq, Repr

/-- `rmls/src/framing/proposal.rs:197-199`. -/
structure UpdateProposal where
  leaf_node : LeafNode
  deriving DecidableEq, Repr

/-- `rmls/src/framing/proposal.rs:223-225`. -/
structure RemoveProposal where
  removed : LeafIndex
  deriving DecidableEq, Repr

/-- `rmls/src/framing/proposal.rs:254-256`. -/
structure PreSharedKeyProposal where
  psk : PreSharedKeyID
  deriving DecidableEq, Repr

/-- `rmls/src/framing/proposal.rs:279-284`. -/
structure ReInitProposal where
  group_id : GroupID
  version : ProtocolVersion
  cipher_suite : CipherSuite
  extensions : Extensions
  deriving DecidableEq, Repr

/-- `rmls/src/framing/proposal.rs:324-326`. -/
structure ExternalInitProposal where
  kem_output : Bytes
  deriving DecidableEq, Repr

/-- `rmls/src/framing/proposal.rs:349-351`. -/
structure GroupContextExtensionsProposal where
  extensions : Extensions
  deriving DecidableEq, Repr

/-- `rmls/src/framing/proposal.rs:175-184`. -/
def AddProposal.deserialize : De AddProposal := do
  let key_package ← KeyPackage.deserialize
  pure { key_package }
/-- `rmls/src/framing/proposal.rs:186-194`. -/
def AddProposal.serialize (x : AddProposal) : Res Bytes := x.key_package.serialize

/-- `rmls/src/framing/proposal.rs:201-210`. -/
def UpdateProposal.deserialize : De UpdateProposal := do
  let leaf_node ← LeafNode.deserialize
  pure { leaf_node }
/-- `rmls/src/framing/proposal.rs:212-220`. -/
def UpdateProposal.serialize (x : UpdateProposal) : Res Bytes := x.leaf_node.serialize

/-- `rmls/src/framing/proposal.rs:227-239`. -/
def RemoveProposal.deserialize : De RemoveProposal := do
  need 4
  let removed ← get_u32
  pure { removed }
/-- `rmls/src/framing/proposal.rs:241-251`. -/
def RemoveProposal.serialize (x : RemoveProposal) : Res Bytes := put_u32 x.removed

/-- `rmls/src/framing/proposal.rs:258-267`. -/
def PreSharedKeyProposal.deserialize : De PreSharedKeyProposal := do
  let psk ← PreSharedKeyID.deserialize
  pure { psk }
/-- `rmls/src/framing/proposal.rs:268-276`. -/
def PreSharedKeyProposal.serialize (x : PreSharedKeyProposal) : Res Bytes := x.psk.serialize

/-- `rmls/src/framing/proposal.rs:286-309`. -/
def ReInitProposal.deserialize : De ReInitProposal := do
  let group_id ← deserialize_opaque_vec
  need 4
  let version ← get_u16
  let cipher_suite ← get_u16
  let extensions ← Extensions.deserialize
  pure { group_id, version := ProtocolVersion.ofU16 version,
         cipher_suite := CipherSuite.ofU16 cipher_suite, extensions }
/-- `rmls/src/framing/proposal.rs:310-321`. -/
def ReInitProposal.serialize (x : ReInitProposal) : Res Bytes :=
  serialize_opaque_vec x.group_id +++
  put_u16 x.version.toU16 +++
  put_u16 x.cipher_suite.toU16 +++
  Extensions.serialize x.extensions

/-- `rmls/src/framing/proposal.rs:328-337`. -/
def ExternalInitProposal.deserialize : De ExternalInitProposal := do
  let kem_output ← deserialize_opaque_vec
  pure { kem_output }
/-- `rmls/src/framing/proposal.rs:338-346`. -/
def ExternalInitProposal.serialize (x : ExternalInitProposal) : Res Bytes :=
  serialize_opaque_vec x.kem_output

/-- `rmls/src/framing/proposal.rs:353-363`. -/
def GroupContextExtensionsProposal.deserialize : De GroupContextExtensionsProposal := do
  let extensions ← Extensions.deserialize
  pure { extensions }
/-- `rmls/src/framing/proposal.rs:364-372`. -/
def GroupContextExtensionsProposal.serialize (x : GroupContextExtensionsProposal) : Res Bytes :=
  Extensions.serialize x.extensions

/-- `rmls/src/framing/proposal.rs:85-93`. -/
inductive Proposal where
  | Add (p : AddProposal)
  | Update (p : UpdateProposal)
  | Remove (p : RemoveProposal)
  | PreSharedKey (p : PreSharedKeyProposal)
  | ReInit (p : ReInitProposal)
  | ExternalInit (p : ExternalInitProposal)
  | GroupContextExtensions (p : GroupContextExtensionsProposal)
  deriving DecidableEq, Repr

/-- `rmls/src/framing/proposal.rs:101-129`. -/
def Proposal.deserialize : De Proposal := do
  need 2
  let v ← get_u16
  match ProposalType.ofU16 v with
  | .Add => do
    let p ← AddProposal.deserialize
    pure (.Add p)
  | .Update => do
    let p ← UpdateProposal.deserialize
    pure (.Update p)
  | .Remove => do
    let p ← RemoveProposal.deserialize
    pure (.Remove p)
  | .PreSharedKey => do
    let p ← PreSharedKeyProposal.deserialize
    pure (.PreSharedKey p)
  | .ReInit => do
    let p ← ReInitProposal.deserialize
    pure (.ReInit p)
  | .ExternalInit => do
    let p ← ExternalInitProposal.deserialize
    pure (.ExternalInit p)
  | .GroupContextExtensions => do
    let p ← GroupContextExtensionsProposal.deserialize
    pure (.GroupContextExtensions p)
  | .Unknown v => De.fail (.InvalidProposalTypeValue v)

/-- `rmls/src/framing/proposal.rs:131-168`. -/
def Proposal.serialize : Proposal → Res Bytes
  | .Add p => put_u16 ProposalType.Add.toU16 +++ p.serialize
  | .Update p => put_u16 ProposalType.Update.toU16 +++ p.serialize
  | .Remove p => put_u16 ProposalType.Remove.toU16 +++ p.serialize
  | .PreSharedKey p => put_u16 ProposalType.PreSharedKey.toU16 +++ p.serialize
  | .ReInit p => put_u16 ProposalType.ReInit.toU16 +++ p.serialize
  | .ExternalInit p => put_u16 ProposalType.ExternalInit.toU16 +++ p.serialize
  | .GroupContextExtensions p => put_u16 ProposalType.GroupContextExtensions.toU16 +++ p.serialize

/-- `rmls/src/framing/proposal.rs:377-380`. -/
inductive ProposalOrRef where
  | Proposal (p : Proposal)
  | Reference (r : Bytes)
  deriving DecidableEq, Repr

/-- `rmls/src/framing/proposal.rs:388-404`. -/
def ProposalOrRef.deserialize : De ProposalOrRef := do
  need 1
  let v ← get_u8
  if v = 1 then do
    let p ← Rmls.Proposal.deserialize
    pure (.Proposal p)
  else if v = 2 then do
    let r ← deserialize_opaque_vec
    pure (.Reference r)
  else De.fail (.InvalidProposalOrRefValue v)

/-- `rmls/src/framing/proposal.rs:405-422`. -/
def ProposalOrRef.serialize : ProposalOrRef → Res Bytes
  | .Proposal p => put_u8 1 +++ p.serialize
  | .Reference r => put_u8 2 +++ serialize_opaque_vec r

/-! ### framing/commit.rs -/

/-- `rmls/src/framing/commit.rs:9-12`. -/
structure Commit where
  proposals : List ProposalOrRef
  path : Option UpdatePath
  deriving DecidableEq, Repr

/-- `rmls/src/framing/commit.rs:14-35`. -/
def Commit.deserialize : De Commit := do
  let proposals ← deserialize_vector ProposalOrRef.deserialize
  let has_path ← deserialize_optional
  if has_path then do
    let path ← UpdatePath.deserialize
    pure { proposals, path := some path }
  else pure { proposals, path := none }

/-- `rmls/src/framing/commit.rs:37-55`. -/
def Commit.serialize (x : Commit) : Res Bytes :=
  serialize_vector ProposalOrRef.serialize x.proposals +++
  serialize_optional x.path.isSome +++
    match x.path with
    | some path => path.serialize
    | none => .ok []

/-! ### framing/mod.rs -/

/-- `rmls/src/framing/mod.rs:108-117`. -/
inductive Content where
  | Application (data : Bytes)
  | Proposal (p : Rmls.Proposal)
  | Commit (c : Rmls.Commit)
  deriving DecidableEq, Repr

/-- `rmls/src/framing/mod.rs:165-171`. -/
def Content.content_type : Content → ContentType
  | .Application _ => .Application
  | .Proposal _ => .Proposal
  | .Commit _ => .Commit

/-- The `match` of `rmls/src/framing/mod.rs:135-139` and `private_message.rs:199-203`. -/
def Content.deserializeBody : ContentType → De Content
  | .Application => do
    let data ← deserialize_opaque_vec
    pure (.Application data)
  | .Proposal => do
    let p ← Rmls.Proposal.deserialize
    pure (.Proposal p)
  | .Commit => do
    let c ← Rmls.Commit.deserialize
    pure (.Commit c)

/-- `rmls/src/framing/mod.rs:125-141`. -/
def Content.deserialize : De Content := do
  need 1
  let content_type ← ContentType.deserialize
  Content.deserializeBody content_type

/-- The `match` of `rmls/src/framing/mod.rs:149-157` and `private_message.rs:227-231`. -/
def Content.serializeBody : Content → Res Bytes
  | .Application data => serialize_opaque_vec data
  | .Proposal p => p.serialize
  | .Commit c => c.serialize

/-- `rmls/src/framing/mod.rs:142-161`. -/
def Content.serialize (x : Content) : Res Bytes := x.content_type.serialize +++ x.serializeBody

/-- `rmls/src/framing/mod.rs:231-244`. -/
inductive Sender where
  | Member (leaf_index : LeafIndex)
  | External (sender_index : UInt32)
  | NewMemberProposal
  | NewMemberCommit
  deriving DecidableEq, Repr

/-- `rmls/src/framing/mod.rs:296-303`. -/
def Sender.sender_type : Sender → SenderType
  | .Member _ => .Member
  | .External _ => .External
  | .NewMemberProposal => .NewMemberProposal
  | .NewMemberCommit => .NewMemberCommit

/-- `rmls/src/framing/mod.rs:246-273`. -/
def Sender.deserialize : De Sender := do
  need 1
  let sender_type ← SenderType.deserialize
  match sender_type with
  | .Member => do
    need 4
    let v ← get_u32
    pure (.Member v)
  | .External => do
    need 4
    let v ← get_u32
    pure (.External v)
  | .NewMemberProposal => pure .NewMemberProposal
  | .NewMemberCommit => pure .NewMemberCommit

/-- `rmls/src/framing/mod.rs:275-293`. -/
def Sender.serialize (x : Sender) : Res Bytes :=
  x.sender_type.serialize +++
    match x with
    | .Member leaf_index => put_u32 leaf_index
    | .External v => put_u32 v
    | .NewMemberProposal => .ok []
    | .NewMemberCommit => .ok []

/-- `rmls/src/framing/mod.rs:464-470`. -/
structure FramedContent where
  group_id : GroupID
  epoch : UInt64
  sender : Sender
  authenticated_data : Bytes
  content : Content
  deriving DecidableEq, Repr

/-- `rmls/src/framing/mod.rs:472-495`. -/
def FramedContent.deserialize : De FramedContent := do
  let group_id ← deserialize_opaque_vec
  need 8
  let epoch ← get_u64
  let sender ← Sender.deserialize
  let authenticated_data ← deserialize_opaque_vec
  let content ← Content.deserialize
  pure { group_id, epoch, sender, authenticated_data, content }

/-- `rmls/src/framing/mod.rs:497-509`. -/
def FramedContent.serialize (x : FramedContent) : Res Bytes :=
  serialize_opaque_vec x.group_id +++
  put_u64 x.epoch +++
  x.sender.serialize +++
  serialize_opaque_vec x.authenticated_data +++
  x.content.serialize

/-- `rmls/src/framing/mod.rs:712-715`. -/
structure FramedContentAuthData where
  signature : Bytes
  confirmation_tag : Bytes
  deriving DecidableEq, Repr

/-- `rmls/src/framing/mod.rs:718-734`. -/
def FramedContentAuthData.deserialize (content_type : ContentType) : De FramedContentAuthData := do
  let signature ← deserialize_opaque_vec
  if content_type = .Commit then do
    let confirmation_tag ← deserialize_opaque_vec
    pure { signature, confirmation_tag }
  else pure { signature, confirmation_tag := [] }

/-- `rmls/src/framing/mod.rs:736-747`. -/
def FramedContentAuthData.serialize (x : FramedContentAuthData) (content_type : ContentType) :
    Res Bytes :=
  serialize_opaque_vec x.signature +++
    if content_type = .Commit then serialize_opaque_vec x.confirmation_tag else .ok []

/-- `rmls/src/framing/mod.rs:553-557`. -/
structure AuthenticatedContent where
  wire_format : WireFormat
  content : FramedContent
  auth : FramedContentAuthData
  deriving DecidableEq, Repr

/-- `rmls/src/framing/mod.rs:559-575`. -/
def AuthenticatedContent.deserialize : De AuthenticatedContent := do
  let wire_format ← WireFormat.deserialize
  let content ← FramedContent.deserialize
  let auth ← FramedContentAuthData.deserialize content.content.content_type
  pure { wire_format, content, auth }

/-- `rmls/src/framing/mod.rs:577-588`. -/
def AuthenticatedContent.serialize (x : AuthenticatedContent) : Res Bytes :=
  x.wire_format.serialize +++ x.content.serialize +++
    x.auth.serialize x.content.content.content_type

/-- `rmls/src/framing/mod.rs:652-657`. -/
structure FramedContentTBS where
  version : ProtocolVersion
  wire_format : WireFormat
  content : FramedContent
  context : Option GroupContext
  deriving DecidableEq, Repr

/-- `rmls/src/framing/mod.rs:659-683`. -/
def FramedContentTBS.deserialize : De FramedContentTBS := do
  need 2
  let version ← get_u16
  let wire_format ← WireFormat.deserialize
  let content ← FramedContent.deserialize
  match content.sender with
  | .Member _ => do
    let c ← GroupContext.deserialize
    pure { version := ProtocolVersion.ofU16 version, wire_format, content, context := some c }
  | .NewMemberCommit => do
    let c ← GroupContext.deserialize
    pure { version := ProtocolVersion.ofU16 version, wire_format, content, context := some c }
  | _ => pure { version := ProtocolVersion.ofU16 version, wire_format, content, context := none }

/-- The `match` of `rmls/src/framing/mod.rs:694-703`. -/
def FramedContentTBS.serializeContext (sender : Sender) (context : Option GroupContext) : Res Bytes :=
  match sender with
  | .Member _ =>
    match context with
    | some c => c.serialize
    | none => .err .SenderMemberAndNewMemberCommitNoGroupContext
  | .NewMemberCommit =>
    match context with
    | some c => c.serialize
    | none => .err .SenderMemberAndNewMemberCommitNoGroupContext
  | _ => .ok []

/-- `rmls/src/framing/mod.rs:685-707`. -/
def FramedContentTBS.serialize (x : FramedContentTBS) : Res Bytes :=
  put_u16 x.version.toU16 +++
  x.wire_format.serialize +++
  x.content.serialize +++
  FramedContentTBS.serializeContext x.content.sender x.context

/-- `rmls/src/framing/mod.rs:810-813`. -/
structure AuthenticatedContentTBM where
  content_tbs : FramedContentTBS
  auth : FramedContentAuthData
  deriving DecidableEq, Repr

/-- `rmls/src/framing/mod.rs:815-826`. -/
def AuthenticatedContentTBM.deserialize : De AuthenticatedContentTBM := do
  let content_tbs ← FramedContentTBS.deserialize
  let auth ← FramedContentAuthData.deserialize content_tbs.content.content.content_type
  pure { content_tbs, auth }

/-- `rmls/src/framing/mod.rs:828-838`. -/
def AuthenticatedContentTBM.serialize (x : AuthenticatedContentTBM) : Res Bytes :=
  x.content_tbs.serialize +++ x.auth.serialize x.content_tbs.content.content.content_type

/-- `rmls/src/framing/mod.rs:845-849`; `reuse_guard : [u8; 4]` is a byte list of length four. -/
structure SenderData where
  leaf_index : LeafIndex
  generation : UInt32
  reuse_guard : Bytes
  deriving DecidableEq, Repr

/-- `rmls/src/framing/mod.rs:868-888`. -/
def SenderData.deserialize : De SenderData := do
  need 12
  let leaf_index ← get_u32
  let generation ← get_u32
  let reuse_guard ← copy_to_bytes 4
  pure { leaf_index, generation, reuse_guard }

/-- `rmls/src/framing/mod.rs:890-901`. -/
def SenderData.serialize (x : SenderData) : Res Bytes :=
  put_u32 x.leaf_index +++ put_u32 x.generation +++ put_slice x.reuse_guard

/-- `rmls/src/framing/mod.rs:906-910`. -/
structure SenderDataAAD where
  group_id : GroupID
  epoch : UInt64
  content_type : ContentType
  deriving DecidableEq, Repr

/-- `rmls/src/framing/mod.rs:912-922`. -/
def SenderDataAAD.serialize (x : SenderDataAAD) : Res Bytes :=
  serialize_opaque_vec x.group_id +++ put_u64 x.epoch +++ x.content_type.serialize

/-! ### framing/private_message.rs -/

/-- `rmls/src/framing/private_message.rs:6-13`. -/
structure PrivateMessage where
  group_id : GroupID
  epoch : UInt64
  content_type : ContentType
  authenticated_data : Bytes
  encrypted_sender_data : Bytes
  ciphertext : Bytes
  deriving DecidableEq, Repr

/-- `rmls/src/framing/private_message.rs:15-40`. -/
def PrivateMessage.deserialize : De PrivateMessage := do
  let group_id ← deserialize_opaque_vec
  need 8
  let epoch ← get_u64
  let content_type ← ContentType.deserialize
  let authenticated_data ← deserialize_opaque_vec
  let encrypted_sender_data ← deserialize_opaque_vec
  let ciphertext ← deserialize_opaque_vec
  pure { group_id, epoch, content_type, authenticated_data, encrypted_sender_data, ciphertext }

/-- `rmls/src/framing/private_message.rs:42-55`. -/
def PrivateMessage.serialize (x : PrivateMessage) : Res Bytes :=
  serialize_opaque_vec x.group_id +++
  put_u64 x.epoch +++
  x.content_type.serialize +++
  serialize_opaque_vec x.authenticated_data +++
  serialize_opaque_vec x.encrypted_sender_data +++
  serialize_opaque_vec x.ciphertext

/-- `rmls/src/framing/private_message.rs:188-191`. -/
structure PrivateMessageContent where
  content : Content
  auth : FramedContentAuthData
  deriving DecidableEq, Repr

/-- The padding loop `rmls/src/framing/private_message.rs:210-214` (`RustCryptoProvider` build). -/
def checkPadding : Bytes → Res Unit
  | [] => .ok ()
  | b :: bs => if b ≠ 0 then .err .PaddingContainsNonZeroBytes else checkPadding bs

/-- The same loop as a reader: it leaves nothing in the buffer. -/
def skipPadding : De Unit := fun b =>
  match checkPadding b with
  | .ok _ => .ok ((), [])
  | .err e => .err e
  | .fault f => .fault f

/-- `rmls/src/framing/private_message.rs:194-218`: reads the whole buffer. -/
def PrivateMessageContent.deserialize (ct : ContentType) : De PrivateMessageContent := do
  let content ← Content.deserializeBody ct
  let auth ← FramedContentAuthData.deserialize ct
  skipPadding
  pure { content, auth }

/-- `rmls/src/framing/private_message.rs:221-235`. -/
def PrivateMessageContent.serialize (x : PrivateMessageContent) : Res Bytes :=
  x.content.serializeBody +++ x.auth.serialize x.content.content_type

/-- `rmls/src/framing/private_message.rs:241-246`. -/
structure PrivateContentAAD where
  group_id : GroupID
  epoch : UInt64
  content_type : ContentType
  authenticated_data : Bytes
  deriving DecidableEq, Repr

/-- `rmls/src/framing/private_message.rs:248-269`. -/
def PrivateContentAAD.deserialize : De PrivateContentAAD := do
  let group_id ← deserialize_opaque_vec
  need 8
  let epoch ← get_u64
  let content_type ← ContentType.deserialize
  let authenticated_data ← deserialize_opaque_vec
  pure { group_id, epoch, content_type, authenticated_data }

/-- `rmls/src/framing/private_message.rs:271-282`. -/
def PrivateContentAAD.serialize (x : PrivateContentAAD) : Res Bytes :=
  serialize_opaque_vec x.group_id +++
  put_u64 x.epoch +++
  x.content_type.serialize +++
  serialize_opaque_vec x.authenticated_data

/-! ### framing/public_message.rs -/

/-- `rmls/src/framing/public_message.rs:6-10`. -/
structure PublicMessage where
  content : FramedContent
  auth : FramedContentAuthData
  membership_tag : Option Bytes
  deriving DecidableEq, Repr

/-- `rmls/src/framing/public_message.rs:12-33`. -/
def PublicMessage.deserialize : De PublicMessage := do
  let content ← FramedContent.deserialize
  let auth ← FramedContentAuthData.deserialize content.content.content_type
  match content.sender with
  | .Member _ => do
    let tag ← deserialize_opaque_vec
    pure { content, auth, membership_tag := some tag }
  | _ => pure { content, auth, membership_tag := none }

/-- The `if let`s of `rmls/src/framing/public_message.rs:45-49`. -/
def PublicMessage.serializeTag (sender : Sender) (tag : Option Bytes) : Res Bytes :=
  match sender with
  | .Member _ =>
    match tag with
    | some t => serialize_opaque_vec t
    | none => .ok []
  | _ => .ok []

/-- `rmls/src/framing/public_message.rs:35-53`. -/
def PublicMessage.serialize (x : PublicMessage) : Res Bytes :=
  x.content.serialize +++
  x.auth.serialize x.content.content.content_type +++
  PublicMessage.serializeTag x.content.sender x.membership_tag

/-! ### framing/group_info.rs -/

/-- `rmls/src/framing/group_info.rs:11-17`. -/
structure GroupInfo where
  group_context : GroupContext
  extensions : Extensions
  confirmation_tag : Bytes
  signer : LeafIndex
  signature : Bytes
  deriving DecidableEq, Repr

/-- `rmls/src/framing/group_info.rs:19-42`. -/
def GroupInfo.deserialize : De GroupInfo := do
  let group_context ← GroupContext.deserialize
  let extensions ← Extensions.deserialize
  let confirmation_tag ← deserialize_opaque_vec
  need 4
  let signer ← get_u32
  let signature ← deserialize_opaque_vec
  pure { group_context, extensions, confirmation_tag, signer, signature }

/-- `rmls/src/framing/group_info.rs:56-66`. -/
def GroupInfo.serialize_base (x : GroupInfo) : Res Bytes :=
  x.group_context.serialize +++
  Extensions.serialize x.extensions +++
  serialize_opaque_vec x.confirmation_tag +++
  put_u32 x.signer

/-- `rmls/src/framing/group_info.rs:44-53`. -/
def GroupInfo.serialize (x : GroupInfo) : Res Bytes :=
  x.serialize_base +++ serialize_opaque_vec x.signature

/-- `rmls/src/framing/group_info.rs:110-114`. -/
structure GroupSecrets where
  joiner_secret : Bytes
  path_secret : Option Bytes
  psk_ids : List PreSharedKeyID
  deriving DecidableEq, Repr

/-- The optional path secret of `rmls/src/framing/group_info.rs:124-129`. -/
def GroupSecrets.deserializePath : De (Option Bytes) := do
  let has_path_secret ← deserialize_optional
  if has_path_secret then do
    let s ← deserialize_opaque_vec
    pure (some s)
  else pure none

/-- `rmls/src/framing/group_info.rs:116-143`. -/
def GroupSecrets.deserialize : De GroupSecrets := do
  let joiner_secret ← deserialize_opaque_vec
  let path_secret ← GroupSecrets.deserializePath
  let psk_ids ← deserialize_vector PreSharedKeyID.deserialize
  pure { joiner_secret, path_secret, psk_ids }

/-- The optional path secret of `rmls/src/framing/group_info.rs:153-156`. -/
def GroupSecrets.serializePath (p : Option Bytes) : Res Bytes :=
  serialize_optional p.isSome +++
    match p with
    | some s => serialize_opaque_vec s
    | none => .ok []

/-- `rmls/src/framing/group_info.rs:145-164`. -/
def GroupSecrets.serialize (x : GroupSecrets) : Res Bytes :=
  serialize_opaque_vec x.joiner_secret +++
  GroupSecrets.serializePath x.path_secret +++
  serialize_vector PreSharedKeyID.serialize x.psk_ids

/-! ### framing/welcome.rs -/

/-- `rmls/src/framing/welcome.rs:142-145`. -/
structure EncryptedGroupSecrets where
  new_member : KeyPackageRef
  encrypted_group_secrets : HPKECiphertext
  deriving DecidableEq, Repr

/-- `rmls/src/framing/welcome.rs:147-161`. -/
def EncryptedGroupSecrets.deserialize : De EncryptedGroupSecrets := do
  let new_member ← KeyPackageRef.deserialize
  let encrypted_group_secrets ← HPKECiphertext.deserialize
  pure { new_member, encrypted_group_secrets }

/-- `rmls/src/framing/welcome.rs:163-172`. -/
def EncryptedGroupSecrets.serialize (x : EncryptedGroupSecrets) : Res Bytes :=
  KeyPackageRef.serialize x.new_member +++ x.encrypted_group_secrets.serialize

/-- `rmls/src/framing/welcome.rs:12-16`. -/
structure Welcome where
  cipher_suite : CipherSuite
  secrets : List EncryptedGroupSecrets
  encrypted_group_info : Bytes
  deriving DecidableEq, Repr

/-- `rmls/src/framing/welcome.rs:18-43`. -/
def Welcome.deserialize : De Welcome := do
  need 2
  let cipher_suite ← get_u16
  let secrets ← deserialize_vector EncryptedGroupSecrets.deserialize
  let encrypted_group_info ← deserialize_opaque_vec
  pure { cipher_suite := CipherSuite.ofU16 cipher_suite, secrets, encrypted_group_info }

/-- `rmls/src/framing/welcome.rs:45-59`. -/
def Welcome.serialize (x : Welcome) : Res Bytes :=
  put_u16 x.cipher_suite.toU16 +++
  serialize_vector EncryptedGroupSecrets.serialize x.secrets +++
  serialize_opaque_vec x.encrypted_group_info

/-! ### key_schedule/mod.rs: transcript hash input -/

/-- `rmls/src/key_schedule/mod.rs:213-217`. -/
structure ConfirmedTranscriptHashInput where
  wire_format : WireFormat
  content : FramedContent
  signature : Bytes
  deriving DecidableEq, Repr

/-- `rmls/src/key_schedule/mod.rs:219-241`. -/
def ConfirmedTranscriptHashInput.deserialize : De ConfirmedTranscriptHashInput := do
  let wire_format ← WireFormat.deserialize
  let content ← FramedContent.deserialize
  if content.content.content_type ≠ .Commit then
    De.fail .ConfirmedTranscriptHashInputContainContentCommitOnly
  else do
    let signature ← deserialize_opaque_vec
    pure { wire_format, content, signature }

/-- `rmls/src/key_schedule/mod.rs:243-260`. -/
def ConfirmedTranscriptHashInput.serialize (x : ConfirmedTranscriptHashInput) : Res Bytes :=
  if x.content.content.content_type ≠ .Commit then
    .err .ConfirmedTranscriptHashInputContainContentCommitOnly
  else
    x.wire_format.serialize +++ x.content.serialize +++ serialize_opaque_vec x.signature

/-! ### framing/mod.rs: MLSMessage -/

/-- `rmls/src/framing/mod.rs:370-385`. -/
inductive WireMessage where
  | PublicMessage (m : Rmls.PublicMessage)
  | PrivateMessage (m : Rmls.PrivateMessage)
  | Welcome (m : Rmls.Welcome)
  | GroupInfo (m : Rmls.GroupInfo)
  | KeyPackage (m : Rmls.KeyPackage)
  deriving DecidableEq, Repr

/-- `rmls/src/framing/mod.rs:447-455`. -/
def WireMessage.wire_format : WireMessage → WireFormat
  | .PublicMessage _ => .PublicMessage
  | .PrivateMessage _ => .PrivateMessage
  | .Welcome _ => .Welcome
  | .GroupInfo _ => .GroupInfo
  | .KeyPackage _ => .KeyPackage

/-- `rmls/src/framing/mod.rs:393-415`. -/
def WireMessage.deserialize : De WireMessage := do
  need 1
  let wire_format ← WireFormat.deserialize
  match wire_format with
  | .PublicMessage => do
    let m ← Rmls.PublicMessage.deserialize
    pure (.PublicMessage m)
  | .PrivateMessage => do
    let m ← Rmls.PrivateMessage.deserialize
    pure (.PrivateMessage m)
  | .Welcome => do
    let m ← Rmls.Welcome.deserialize
    pure (.Welcome m)
  | .GroupInfo => do
    let m ← Rmls.GroupInfo.deserialize
    pure (.GroupInfo m)
  | .KeyPackage => do
    let m ← Rmls.KeyPackage.deserialize
    pure (.KeyPackage m)

/-- `rmls/src/framing/mod.rs:417-443`. -/
def WireMessage.serialize (x : WireMessage) : Res Bytes :=
  x.wire_format.serialize +++
    match x with
    | .PublicMessage m => m.serialize
    | .PrivateMessage m => m.serialize
    | .Welcome m => m.serialize
    | .GroupInfo m => m.serialize
    | .KeyPackage m => m.serialize

/-- `rmls/src/framing/mod.rs:513-516`. -/
structure MLSMessage where
  version : ProtocolVersion
  wire_message : WireMessage
  deriving DecidableEq, Repr

/-- `rmls/src/framing/mod.rs:518-538`. -/
def MLSMessage.deserialize : De MLSMessage := do
  need 2
  let version ← get_u16
  if ProtocolVersion.ofU16 version ≠ .MLS10 then
    De.fail (.InvalidProtocolVersion (ProtocolVersion.ofU16 version).toU16)
  else do
    let wire_message ← WireMessage.deserialize
    pure { version := ProtocolVersion.ofU16 version, wire_message }

/-- `rmls/src/framing/mod.rs:539-548`. -/
def MLSMessage.serialize (x : MLSMessage) : Res Bytes :=
  put_u16 x.version.toU16 +++ x.wire_message.serialize

end Rmls
