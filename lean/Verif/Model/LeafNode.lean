import Verif.Model.Crypto
/-
`rmls/src/ratchet_tree/leaf_node.rs` from line 199 on and `parent_node.rs` from line 71 on: lifetimes, the
signed part of a leaf node, leaf verification, parent hashes.

A `SystemTime` is the number of nanoseconds since the Unix epoch, an integer; a clock `now` is the time it
returns.  (Additions of at most 2^64 microseconds to the epoch cannot overflow a 64-bit `SystemTime`.)
-/
namespace Rmls

/-- `Result::is_ok`; a panic passes through. -/
def Res.isOk {α : Type u} : Res α → Res Bool
  | .ok _ => .ok true
  | .err _ => .ok false
  | .fault f => .fault f

/-- `MAX_LEAF_NODE_LIFETIME` in nanoseconds, `rmls/src/ratchet_tree/leaf_node.rs:200`. -/
def MAX_LEAF_NODE_LIFETIME : Int := 3 * 30 * 24 * 1000000000

/-- `Lifetime::not_before_time`, `rmls/src/ratchet_tree/leaf_node.rs:242-244`. -/
def Lifetime.not_before_time (x : Lifetime) : Int := (x.not_before.toNat : Int) * 1000

/-- `Lifetime::not_after_time`, `rmls/src/ratchet_tree/leaf_node.rs:246-248`. -/
def Lifetime.not_after_time (x : Lifetime) : Int := (x.not_after.toNat : Int) * 1000

/-- `Lifetime::verify`, `rmls/src/ratchet_tree/leaf_node.rs:252-264`. -/
def Lifetime.verify (x : Lifetime) (t : Int) : Bool :=
  let not_before := x.not_before_time
  let not_after := x.not_after_time
  if not_before ≤ not_after then
    let d := not_after - not_before
    if d = 0 ∨ d < MAX_LEAF_NODE_LIFETIME then false
    else decide (t > not_before) && decide (not_after < t)
  else false

/-- `LEAF_NODE_SIGNATURE_LABEL`, `rmls/src/ratchet_tree/leaf_node.rs:16`. -/
def LEAF_NODE_SIGNATURE_LABEL : Bytes := ascii "LeafNodeTBS"

/-- `TreeInfoTBS` and `TreePosition`, `rmls/src/ratchet_tree/leaf_node.rs:350-360`. -/
inductive TreeInfoTBS where
  | KeyPackage
  | UpdateOrCommit (group_id : GroupID) (leaf_index : LeafIndex)
  deriving DecidableEq, Repr

/-- The writer of `LeafNodeTBS`, `rmls/src/ratchet_tree/leaf_node.rs:369-389`. -/
def LeafNodeTBS.serialize (payload : LeafNodePayload) (tree_info_tbs : TreeInfoTBS) : Res Bytes :=
  payload.serialize +++
    match payload.leaf_node_source with
    | .Update | .Commit _ =>
      match tree_info_tbs with
      | .UpdateOrCommit group_id leaf_index => serialize_opaque_vec group_id +++ put_u32 leaf_index
      | .KeyPackage => .ok []
    | .KeyPackage _ => .ok []

/-- `LeafNode::new`, `rmls/src/ratchet_tree/leaf_node.rs:393-431`.  `ikm` is the randomness drawn (its
length is the hash size).  The signature is made with the *public* key, as in the source. -/
def LeafNode.new (P : CryptoProvider) (cs : CipherSuite) (ikm : Bytes) (credential : Credential)
    (signature_key_pair : SignatureKeyPair) (leaf_node_source : LeafNodeSource)
    (capabilities : Capabilities) (extensions : Extensions) (tree_info_tbs : TreeInfoTBS) :
    Res (LeafNode × HPKEKeyPair) := do
  let _ ← P.hash cs
  let hpke ← P.hpke cs
  let encryption_key_pair ← hpke.kem_derive_key_pair ikm
  let payload : LeafNodePayload := {
    encryption_key := encryption_key_pair.public_key
    signature_key := signature_key_pair.public_key
    credential, capabilities, leaf_node_source, extensions }
  let tbs ← LeafNodeTBS.serialize payload tree_info_tbs
  let signature ← P.sign_with_label cs signature_key_pair.public_key LEAF_NODE_SIGNATURE_LABEL tbs
  pure ({ payload, signature }, encryption_key_pair)

/-- `LeafNode::verify_signature`, `rmls/src/ratchet_tree/leaf_node.rs:437-461`. -/
def LeafNode.verify_signature (P : CryptoProvider) (cs : CipherSuite) (x : LeafNode)
    (tree_info_tbs : TreeInfoTBS) : Res Bool :=
  match LeafNodeTBS.serialize x.payload tree_info_tbs with
  | .ok tbs =>
    (P.verify_with_label cs x.payload.signature_key LEAF_NODE_SIGNATURE_LABEL tbs x.signature).isOk
  | .err _ => .ok false
  | .fault f => .fault f

/-- `LeafNodeVerifyOptions`, `rmls/src/ratchet_tree/leaf_node.rs:527-535`; the hash sets are lists. -/
structure LeafNodeVerifyOptions where
  cipher_suite : CipherSuite
  group_id : GroupID
  leaf_index : LeafIndex
  supported_creds : List CredentialType
  signature_keys : List SignaturePublicKey
  encryption_keys : List HPKEPublicKey
  now : Int

/-- The extension loop of `LeafNode::verify`, `rmls/src/ratchet_tree/leaf_node.rs:498-510`. -/
def LeafNode.checkExtensions (supported : List ExtensionType) : Extensions → Res Unit
  | [] => .ok ()
  | e :: es =>
    if supported.contains e.extension_type then LeafNode.checkExtensions supported es
    else .err (.ExtensionTypeUsedByLeafNodeNotSupportedByThatLeafNode e.extension_type.toU16)

/-- The lifetime check of `LeafNode::verify`, `rmls/src/ratchet_tree/leaf_node.rs:491-496`. -/
def LeafNode.checkLifetime (source : LeafNodeSource) (now : Int) : Res Unit :=
  match source with
  | .KeyPackage lifetime =>
    if now > 0 ∧ lifetime.verify now = false then .err .LifetimeVerificationFailed else .ok ()
  | _ => .ok ()

/-- `LeafNode::verify`, `rmls/src/ratchet_tree/leaf_node.rs:466-523`. -/
def LeafNode.verify (P : CryptoProvider) (x : LeafNode) (o : LeafNodeVerifyOptions) : Res Unit := do
  let good ← x.verify_signature P o.cipher_suite (.UpdateOrCommit o.group_id o.leaf_index)
  if good = false then .err .LeafNodeSignatureVerificationFailed
  else if o.supported_creds.contains x.payload.credential.credential_type = false then
    .err (.CredentialTypeUsedByLeafNodeNotSupportedByAllMembers x.payload.credential.credential_type.toU16)
  else do
    LeafNode.checkLifetime x.payload.leaf_node_source o.now
    LeafNode.checkExtensions x.payload.capabilities.extensions x.payload.extensions
    if o.signature_keys.contains x.payload.signature_key then .err .DuplicateSignatureKeyInRatchetTree
    else if o.encryption_keys.contains x.payload.encryption_key then
      .err .DuplicateEncryptionKeyInRatchetTree
    else pure ()

/-- `ParentNode::serialize_parent_hash_input`, `rmls/src/ratchet_tree/parent_node.rs:90-100`. -/
def ParentNode.serialize_parent_hash_input (encryption_key parent_hash original_sibling_tree_hash : Bytes) :
    Res Bytes :=
  serialize_opaque_vec encryption_key +++ serialize_opaque_vec parent_hash +++
    serialize_opaque_vec original_sibling_tree_hash

/-- `ParentNode::compute_parent_hash`, `rmls/src/ratchet_tree/parent_node.rs:75-88`. -/
def ParentNode.compute_parent_hash (P : CryptoProvider) (cs : CipherSuite) (x : ParentNode)
    (original_sibling_tree_hash : Bytes) : Res Bytes := do
  let input ← ParentNode.serialize_parent_hash_input x.encryption_key x.parent_hash
    original_sibling_tree_hash
  let h ← P.hash cs
  pure (h.digest input)

end Rmls
