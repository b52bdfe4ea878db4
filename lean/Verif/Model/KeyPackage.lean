import Verif.Model.LeafNode
/-
`rmls/src/key_package/mod.rs` from line 141 on and `rmls/src/crypto/config.rs`: making, verifying and naming
key packages.  The builder that also stores the keys is in `Verif.Model.Group`.
-/
namespace Rmls

/-- `CryptoConfig`, `rmls/src/crypto/config.rs:4-8`; its builder (lines 17-44) sets the two fields. -/
structure CryptoConfig where
  version : ProtocolVersion
  cipher_suite : CipherSuite
  deriving DecidableEq, Repr

/-- `KEY_PACKAGE_SIGNATURE_LABEL`, `rmls/src/key_package/mod.rs:27`. -/
def KEY_PACKAGE_SIGNATURE_LABEL : Bytes := ascii "KeyPackageTBS"

/-- `KeyPackage::from_keys`, `rmls/src/key_package/mod.rs:190-228`; `ikm` is the randomness drawn for the
leaf.  The signature is made with the *public* key, as in the source. -/
def KeyPackage.from_keys (P : CryptoProvider) (config : CryptoConfig) (ikm : Bytes) (credential : Credential)
    (signature_key_pair : SignatureKeyPair) (key_package_lifetime : Lifetime)
    (key_package_extensions : Extensions) (leaf_node_capabilities : Capabilities)
    (leaf_node_extensions : Extensions) (init_key : HPKEPublicKey) : Res (KeyPackage × HPKEKeyPair) := do
  let (leaf_node, encryption_key_pair) ← LeafNode.new P config.cipher_suite ikm credential signature_key_pair
    (.KeyPackage key_package_lifetime) leaf_node_capabilities leaf_node_extensions .KeyPackage
  let payload : KeyPackageTBS := {
    version := config.version, cipher_suite := config.cipher_suite, init_key, leaf_node
    extensions := key_package_extensions }
  let raw ← payload.serialize
  let signature ← P.sign_with_label config.cipher_suite signature_key_pair.public_key
    KEY_PACKAGE_SIGNATURE_LABEL raw
  pure ({ payload, signature }, encryption_key_pair)

/-- `KeyPackage::new`, `rmls/src/key_package/mod.rs:149-187`; `ikm0` is the randomness drawn for the init key,
`ikm` for the leaf (both of the size of the hash). -/
def KeyPackage.new (P : CryptoProvider) (config : CryptoConfig) (ikm0 ikm : Bytes) (credential : Credential)
    (signature_key_pair : SignatureKeyPair) (key_package_lifetime : Lifetime)
    (key_package_extensions : Extensions) (leaf_node_capabilities : Capabilities)
    (leaf_node_extensions : Extensions) : Res (KeyPackage × HPKEKeyPair × SecretKey) := do
  let s ← P.signature config.cipher_suite
  if s.signature_scheme ≠ signature_key_pair.signature_scheme then .err .CipherSuiteNotMatchSignatureScheme
  else do
    let _ ← P.hash config.cipher_suite
    let hpke ← P.hpke config.cipher_suite
    let init_key ← hpke.kem_derive_key_pair ikm0
    let (key_package, encryption_key_pair) ← KeyPackage.from_keys P config ikm credential signature_key_pair
      key_package_lifetime key_package_extensions leaf_node_capabilities leaf_node_extensions
      init_key.public_key
    pure (key_package, encryption_key_pair, init_key.private_key)

/-- `KeyPackage::verify_signature`, `rmls/src/key_package/mod.rs:230-241`. -/
def KeyPackage.verify_signature (P : CryptoProvider) (x : KeyPackage) : Res Unit := do
  let raw ← x.payload.serialize
  P.verify_with_label x.payload.cipher_suite x.payload.leaf_node.payload.signature_key
    KEY_PACKAGE_SIGNATURE_LABEL raw x.signature

/-- `KeyPackage::verify`, `rmls/src/key_package/mod.rs:244-262`. -/
def KeyPackage.verify (P : CryptoProvider) (x : KeyPackage) (ctx : GroupContext) : Res Unit :=
  if x.payload.version ≠ ctx.version then .err .KeyPackageVersionNotMatchGroupContext
  else if x.payload.cipher_suite ≠ ctx.cipher_suite then .err .CipherSuiteNotMatchGroupContext
  else match x.payload.leaf_node.payload.leaf_node_source with
    | .KeyPackage _ => do
      let good ← (x.verify_signature P).isOk
      if good = false then .err .InvalidKeyPackageSignature
      else if x.payload.leaf_node.payload.encryption_key = x.payload.init_key then
        .err .KeyPackageEncryptionKeyAndInitKeyIdentical
      else pure ()
    | _ => .err .KeyPackageContainsLeafNodeWithInvalidSource

/-- `KeyPackage::generate_ref`, `rmls/src/key_package/mod.rs:267-277`. -/
def KeyPackage.generate_ref (P : CryptoProvider) (x : KeyPackage) : Res KeyPackageRef := do
  let raw ← x.serialize
  P.ref_hash x.payload.cipher_suite (ascii "MLS 1.0 KeyPackage Reference") raw

end Rmls
