import Verif.Model.Wire
/-
`rmls/src/crypto/provider/mod.rs`: the provider interface and the labelled operations built on it.

The primitives are parameters: a provider is a structure of functions.  What a theorem assumes of them is
written in its hypotheses.  Not modelled: `rand` (randomness is an explicit argument of the functions that
draw it) and `key_store` (see `Verif.Model.KeyStore`).
-/
namespace Rmls

/-- The bytes of an ASCII string (`str::as_bytes`). -/
def ascii (s : String) : Bytes := s.toList.map fun c => UInt8.ofNat c.toNat

/-- `MLS_PREFIX`, `rmls/src/crypto/provider/mod.rs:27`. -/
def MLS_PREFIX : Bytes := [77, 76, 83, 32, 49, 46, 48, 32]

/-- `trait Hash`, `rmls/src/crypto/provider/mod.rs:112-121`. -/
structure Hash where
  size : Nat
  digest : Bytes → Bytes
  mac : Bytes → Bytes → Bytes

/-- `trait Hpke`, `rmls/src/crypto/provider/mod.rs:126-168`.  `hpke_suite` is in `Verif.Model.Suites`. -/
structure Hpke where
  kem_derive_key_pair : Bytes → Res HPKEKeyPair
  /-- secret, info, length -/
  kdf_expand : Bytes → Bytes → UInt16 → Res Bytes
  /-- secret, salt -/
  kdf_extract : Bytes → Bytes → Res Bytes
  kdf_extract_size : Nat
  aead_nonce_size : Nat
  aead_key_size : Nat
  /-- key, nonce, ciphertext, additional data -/
  aead_open : Bytes → Bytes → Bytes → Bytes → Res Bytes
  /-- key, nonce, plaintext, additional data -/
  aead_seal : Bytes → Bytes → Bytes → Bytes → Res Bytes

/-- `trait Signature`, `rmls/src/crypto/provider/mod.rs:172-184`; key generation takes its randomness as
an argument. -/
structure Signature where
  signature_key_pair : Bytes → Res SignatureKeyPair
  signature_scheme : SignatureScheme
  /-- sign key, message -/
  sign : Bytes → Bytes → Res Bytes
  /-- public key, message, signature -/
  verify : Bytes → Bytes → Bytes → Res Unit

/-- `trait CryptoProvider`, `rmls/src/crypto/provider/mod.rs:188-208`.  The last two fields stand for the
`hpke` crate's single-shot `setup_sender` + `seal` and `setup_receiver` + `open` that the default methods
`encrypt_with_label` and `decrypt_with_label` call (lines 299-479) for the three suites they accept. -/
structure CryptoProvider where
  supports : CipherSuite → Bool
  hash : CipherSuite → Res Hash
  hpke : CipherSuite → Res Hpke
  signature : CipherSuite → Res Signature
  /-- suite, randomness, public key, info, plaintext ↦ (kem output, ciphertext) -/
  hpke_seal : CipherSuite → Bytes → Bytes → Bytes → Bytes → Res (Bytes × Bytes)
  /-- suite, private key, info, kem output, ciphertext -/
  hpke_open : CipherSuite → Bytes → Bytes → Bytes → Bytes → Res Bytes

namespace CryptoProvider
variable (P : CryptoProvider)

/-- `sign_mac`, `rmls/src/crypto/provider/mod.rs:211-214`. -/
def sign_mac (cs : CipherSuite) (key message : Bytes) : Res Bytes := do
  let h ← P.hash cs
  pure (h.mac key message)

/-- `verify_mac`, `rmls/src/crypto/provider/mod.rs:217-229`. -/
def verify_mac (cs : CipherSuite) (key message tag : Bytes) : Res Unit := do
  let t ← P.sign_mac cs key message
  if tag = t then pure () else .err .VerifyConfirmationTagFailed

/-- `ref_hash`, `rmls/src/crypto/provider/mod.rs:232-239`. -/
def ref_hash (cs : CipherSuite) (label value : Bytes) : Res Bytes := do
  let input ← serialize_opaque_vec label +++ serialize_opaque_vec value
  let h ← P.hash cs
  pure (h.digest input)

/-- `expand_with_label`, `rmls/src/crypto/provider/mod.rs:242-259`. -/
def expand_with_label (cs : CipherSuite) (secret label context : Bytes) (length : UInt16) :
    Res Bytes := do
  let info ← put_u16 length +++ serialize_opaque_vec (MLS_PREFIX ++ label) +++
    serialize_opaque_vec context
  let h ← P.hpke cs
  h.kdf_expand secret info length

/-- `derive_secret`, `rmls/src/crypto/provider/mod.rs:262-270`. -/
def derive_secret (cs : CipherSuite) (secret label : Bytes) : Res Bytes := do
  let h ← P.hpke cs
  P.expand_with_label cs secret label [] (UInt16.ofNat h.kdf_extract_size)

end CryptoProvider

/-- `mls_prefix_label_data`, `rmls/src/crypto/provider/mod.rs:482-490`. -/
def mls_prefix_label_data (label data : Bytes) : Res Bytes :=
  serialize_opaque_vec (MLS_PREFIX ++ label) +++ serialize_opaque_vec data

namespace CryptoProvider
variable (P : CryptoProvider)

/-- `sign_with_label`, `rmls/src/crypto/provider/mod.rs:273-282`. -/
def sign_with_label (cs : CipherSuite) (sign_key label content : Bytes) : Res Bytes := do
  let sign_content ← mls_prefix_label_data label content
  let s ← P.signature cs
  s.sign sign_key sign_content

/-- `verify_with_label`, `rmls/src/crypto/provider/mod.rs:285-296`. -/
def verify_with_label (cs : CipherSuite) (verify_key label content sign_value : Bytes) : Res Unit := do
  let sign_content ← mls_prefix_label_data label content
  let s ← P.signature cs
  s.verify verify_key sign_content sign_value

/-- The suites accepted by the matches in `rmls/src/crypto/provider/mod.rs:308-392,406-478`. -/
def labelSuite : CipherSuite → Bool
  | .MLS_128_DHKEMX25519_AES128GCM_SHA256_Ed25519 => true
  | .MLS_128_DHKEMP256_AES128GCM_SHA256_P256 => true
  | .MLS_128_DHKEMX25519_CHACHA20POLY1305_SHA256_Ed25519 => true
  | .MLS_256_DHKEMX448_AES256GCM_SHA512_Ed448 => false
  | .MLS_256_DHKEMP521_AES256GCM_SHA512_P521 => false
  | .MLS_256_DHKEMX448_CHACHA20POLY1305_SHA512_Ed448 => false
  | .MLS_256_DHKEMP384_AES256GCM_SHA384_P384 => false
  | .Unknown _ => false

/-- `encrypt_with_label`, `rmls/src/crypto/provider/mod.rs:299-393`; `rnd` is the entropy drawn. -/
def encrypt_with_label (rnd : Bytes) (cs : CipherSuite) (public_key label context plaintext : Bytes) :
    Res (Bytes × Bytes) := do
  let info ← mls_prefix_label_data label context
  if labelSuite cs then P.hpke_seal cs rnd public_key info plaintext
  else .err .UnsupportedCipherSuite

/-- `decrypt_with_label`, `rmls/src/crypto/provider/mod.rs:396-479`. -/
def decrypt_with_label (cs : CipherSuite) (private_key label context kem_output ciphertext : Bytes) :
    Res Bytes := do
  let info ← mls_prefix_label_data label context
  if labelSuite cs then P.hpke_open cs private_key info kem_output ciphertext
  else .err .UnsupportedCipherSuite

end CryptoProvider
end Rmls
