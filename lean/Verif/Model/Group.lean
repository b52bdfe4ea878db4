import Verif.Model.KeyPackage
import Verif.Model.KeyStore
/-
`rmls/src/group/mod.rs`, `rmls/src/group/config.rs`, `rmls/src/group/creation.rs` and
`rmls/src/key_package/builder.rs`: the code that keeps keys in the key store.

A function that uses the store takes it and returns it, also when it fails: what an error leaves behind in the
store is part of what it does.  Here the store is used by one thread; for several see `Verif.Model.KeyStore`.
`store` never fails (see there).  `rmls/src/group/evolution.rs` is empty.
-/
namespace Rmls

/-- `GroupConfig`, `rmls/src/group/config.rs:3-6`; its builder (lines 15-36) sets the field. -/
structure GroupConfig where
  crypto_config : CryptoConfig
  deriving DecidableEq, Repr

/-- `Group`, `rmls/src/group/mod.rs:22-28`. -/
structure Group where
  group_config : GroupConfig
  credential : Credential
  signature_key : SignaturePublicKey
  group_id : Bytes
  deriving DecidableEq, Repr

/-- `Group::default()`: the derived default, with the defaults of `ProtocolVersion`
(`rmls/src/framing/mod.rs:26-35`), `CipherSuite` (`rmls/src/crypto/cipher_suite.rs:9-13`) and `Credential`
(`rmls/src/crypto/credential.rs:128-132`). -/
def Group.default : Group where
  group_config := ⟨⟨.MLS10, .MLS_128_DHKEMX25519_AES128GCM_SHA256_Ed25519⟩⟩
  credential := .Basic []
  signature_key := []
  group_id := []

/-- `Group::new`, `rmls/src/group/creation.rs:17-38`; `rnd` is what `rand().fill` puts into the 16 bytes. -/
def Group.new (rnd : Bytes) (group_config : GroupConfig) (credential : Credential)
    (signature_key_pair : SignatureKeyPair) (group_id : Option Bytes) : Res Group :=
  let group_id := match group_id with
    | some group_id => group_id
    | none => rnd
  .ok { group_config, credential, signature_key := signature_key_pair.public_key, group_id }

/-- `find_map` over the entries of the welcome, `rmls/src/group/creation.rs:48-50`. -/
def Group.findPackage (s : MemoryKeyStore) : List EncryptedGroupSecrets → Option Bytes
  | [] => none
  | egs :: rest =>
    match s.retrieve egs.new_member with
    | some raw => some raw
    | none => Group.findPackage s rest

/-- `Group::from_welcome`, `rmls/src/group/creation.rs:40-68`.  The group config and the tree are not used. -/
def Group.from_welcome (P : CryptoProvider) (s : MemoryKeyStore) (welcome : Welcome) :
    Res Group × MemoryKeyStore :=
  match Group.findPackage s welcome.secrets with
  | none => (.err .NoMatchingKeyPackage, s)
  | some raw =>
    match deserialize_exact KeyPackage.deserialize raw with
    | .err e => (.err e, s)
    | .fault f => (.fault f, s)
    | .ok key_package =>
      match key_package.generate_ref P with
      | .err e => (.err e, s)
      | .fault f => (.fault f, s)
      | .ok ref =>
        let s1 := (s.delete ref).2
        match s1.retrieve key_package.payload.init_key with
        | none => (.err .NoMatchingKeyPackage, s1)
        | some rawKey =>
          match deserialize_exact SecretKey.deserialize rawKey with
          | .err e => (.err e, s1)
          | .fault f => (.fault f, s1)
          | .ok _ => (.ok Group.default, (s1.delete key_package.payload.init_key).2)

/-- `KeyPackageBuilder`, `rmls/src/key_package/builder.rs:5-10`; `new` (14-16) has nothing set, the `with_` functions
(19-40) set one field each. -/
structure KeyPackageBuilder where
  key_package_lifetime : Option Lifetime
  key_package_extensions : Option Extensions
  leaf_node_capabilities : Option Capabilities
  leaf_node_extensions : Option Extensions
  deriving DecidableEq, Repr

/-- `rmls/src/key_package/builder.rs:14-16`. -/
def KeyPackageBuilder.new : KeyPackageBuilder := ⟨none, none, none, none⟩

/-- `rmls/src/key_package/builder.rs:19-22`. -/
def KeyPackageBuilder.with_key_package_lifetime (b : KeyPackageBuilder) (lifetime : Lifetime) : KeyPackageBuilder :=
  { b with key_package_lifetime := some lifetime }
/-- `rmls/src/key_package/builder.rs:25-28`. -/
def KeyPackageBuilder.with_key_package_extensions (b : KeyPackageBuilder) (extensions : Extensions) : KeyPackageBuilder :=
  { b with key_package_extensions := some extensions }
/-- `rmls/src/key_package/builder.rs:31-34`. -/
def KeyPackageBuilder.with_leaf_node_capabilities (b : KeyPackageBuilder) (capabilities : Capabilities) :
    KeyPackageBuilder :=
  { b with leaf_node_capabilities := some capabilities }
/-- `rmls/src/key_package/builder.rs:37-40`. -/
def KeyPackageBuilder.with_leaf_node_extensions (b : KeyPackageBuilder) (extensions : Extensions) : KeyPackageBuilder :=
  { b with leaf_node_extensions := some extensions }

/-- `KeyPackageBuilder::build`, `rmls/src/key_package/builder.rs:43-77`; `ikm0` and `ikm` as in `KeyPackage.new`.  The
defaults are those derived for `Lifetime` (`rmls/src/ratchet_tree/leaf_node.rs:203-207`), `Extensions` and
`Capabilities` (`rmls/src/ratchet_tree/leaf_node.rs:69-76`): zeros and empty lists. -/
def KeyPackageBuilder.build (P : CryptoProvider) (s : MemoryKeyStore) (b : KeyPackageBuilder) (config : CryptoConfig)
    (ikm0 ikm : Bytes) (credential : Credential) (signature_key_pair : SignatureKeyPair) :
    Res KeyPackage × MemoryKeyStore :=
  match KeyPackage.new P config ikm0 ikm credential signature_key_pair (b.key_package_lifetime.getD ⟨0, 0⟩)
    (b.key_package_extensions.getD []) (b.leaf_node_capabilities.getD ⟨[], [], [], [], []⟩)
    (b.leaf_node_extensions.getD []) with
  | .err e => (.err e, s)
  | .fault f => (.fault f, s)
  | .ok (key_package, encryption_key_pair, init_private_key) =>
    match key_package.generate_ref P with
    | .err e => (.err e, s)
    | .fault f => (.fault f, s)
    | .ok ref =>
      match key_package.serialize with
      | .err e => (.err e, s)
      | .fault f => (.fault f, s)
      | .ok raw =>
        let s1 := s.store ref raw
        match encryption_key_pair.serialize with
        | .err e => (.err e, s1)
        | .fault f => (.fault f, s1)
        | .ok rawPair =>
          let s2 := s1.store encryption_key_pair.public_key rawPair
          match SecretKey.serialize init_private_key with
          | .err e => (.err e, s2)
          | .fault f => (.fault f, s2)
          | .ok rawInit => (.ok key_package, s2.store key_package.payload.init_key rawInit)

end Rmls
