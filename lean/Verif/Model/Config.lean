import Verif.Model.Group
/-
`rmls/src/crypto/config.rs`, `rmls/src/group/config.rs` and the constructors and accessors of
`rmls/src/crypto/credential.rs`: what an application sets before it makes key packages and groups.
-/
namespace Rmls

/-- The derived default of `CryptoConfig`, `rmls/src/crypto/config.rs:4-8`, with the defaults of `ProtocolVersion`
(`rmls/src/framing/mod.rs:26-35`) and `CipherSuite` (`rmls/src/crypto/cipher_suite.rs:9-13`). -/
def CryptoConfig.default : CryptoConfig where
  version := .MLS10
  cipher_suite := .MLS_128_DHKEMX25519_AES128GCM_SHA256_Ed25519

/-- `CryptoConfigBuilder`, `rmls/src/crypto/config.rs:17-20`. -/
structure CryptoConfigBuilder where
  crypto_config : CryptoConfig
  deriving DecidableEq, Repr

/-- `CryptoConfigBuilder::new` and `CryptoConfig::builder`, `rmls/src/crypto/config.rs:10-15,24-26`. -/
def CryptoConfigBuilder.new : CryptoConfigBuilder := ⟨.default⟩
/-- `rmls/src/crypto/config.rs:29-32`. -/
def CryptoConfigBuilder.with_version (b : CryptoConfigBuilder) (version : ProtocolVersion) : CryptoConfigBuilder :=
  { b with crypto_config := { b.crypto_config with version } }
/-- `rmls/src/crypto/config.rs:35-38`. -/
def CryptoConfigBuilder.with_cipher_suite (b : CryptoConfigBuilder) (cipher_suite : CipherSuite) : CryptoConfigBuilder :=
  { b with crypto_config := { b.crypto_config with cipher_suite } }
/-- `rmls/src/crypto/config.rs:41-43`. -/
def CryptoConfigBuilder.build (b : CryptoConfigBuilder) : CryptoConfig := b.crypto_config

/-- `GroupConfigBuilder`, `rmls/src/group/config.rs:15-18`. -/
structure GroupConfigBuilder where
  group_config : GroupConfig
  deriving DecidableEq, Repr

/-- `GroupConfigBuilder::new` and `GroupConfig::builder`, `rmls/src/group/config.rs:8-13,22-24`. -/
def GroupConfigBuilder.new : GroupConfigBuilder := ⟨⟨.default⟩⟩
/-- `rmls/src/group/config.rs:27-30`. -/
def GroupConfigBuilder.with_crypto_config (b : GroupConfigBuilder) (crypto_config : CryptoConfig) : GroupConfigBuilder :=
  { b with group_config := { b.group_config with crypto_config } }
/-- `rmls/src/group/config.rs:33-35`. -/
def GroupConfigBuilder.build (b : GroupConfigBuilder) : GroupConfig := b.group_config

/-- `rmls/src/crypto/credential.rs:136-138`. -/
def Credential.from_identity (identity : Bytes) : Credential := .Basic identity
/-- `rmls/src/crypto/credential.rs:141-143`. -/
def Credential.from_certificates (certificates : List Bytes) : Credential := .X509 certificates
/-- `rmls/src/crypto/credential.rs:146-152`. -/
def Credential.identity : Credential → Option Bytes
  | .Basic identity => some identity
  | _ => none
/-- `rmls/src/crypto/credential.rs:155-161`. -/
def Credential.certificates : Credential → Option (List Bytes)
  | .X509 certificates => some certificates
  | _ => none

end Rmls
