import Verif.Model.Crypto
/-
The two providers: `rmls/src/crypto/provider/rust.rs`, `ring.rs` and the files under `rust/` and `ring/`.

The algorithms themselves (SHA-2, HMAC, HKDF-Expand, AES-GCM, ChaCha20-Poly1305, Ed25519, ECDSA, the KEMs and the
`hpke` crate) are the fields of `Primitives`; everything the project wraps around them is modelled.
-/
namespace Rmls

/-- `HashScheme`, `rmls/src/crypto/provider/mod.rs:31-36`. -/
inductive HashScheme where
  | SHA256
  | SHA384
  | SHA512
  deriving DecidableEq, Repr

/-- `Kem`, `rmls/src/crypto/mod.rs:63-80`. -/
inductive Kem where
  | KEM_P256_HKDF_SHA256
  | KEM_P384_HKDF_SHA384
  | KEM_P521_HKDF_SHA512
  | KEM_X25519_HKDF_SHA256
  | KEM_X448_HKDF_SHA512
  | KEM_X25519_KYBER768_DRAFT00
  deriving DecidableEq, Repr

/-- The discriminants of `Kem`, `rmls/src/crypto/mod.rs:66-79`. -/
def Kem.toU16 : Kem → UInt16
  | .KEM_P256_HKDF_SHA256 => 0x10
  | .KEM_P384_HKDF_SHA384 => 0x11
  | .KEM_P521_HKDF_SHA512 => 0x12
  | .KEM_X25519_HKDF_SHA256 => 0x20
  | .KEM_X448_HKDF_SHA512 => 0x21
  | .KEM_X25519_KYBER768_DRAFT00 => 0x30

/-- `Kdf`, `rmls/src/crypto/mod.rs:87-95`. -/
inductive Kdf where
  | KDF_HKDF_SHA256
  | KDF_HKDF_SHA384
  | KDF_HKDF_SHA512
  deriving DecidableEq, Repr

/-- The discriminants of `Kdf`, `rmls/src/crypto/mod.rs:89-94`. -/
def Kdf.toU16 : Kdf → UInt16
  | .KDF_HKDF_SHA256 => 1
  | .KDF_HKDF_SHA384 => 2
  | .KDF_HKDF_SHA512 => 3

/-- `Aead`, `rmls/src/crypto/mod.rs:102-110`. -/
inductive Aead where
  | AEAD_AES128GCM
  | AEAD_AES256GCM
  | AEAD_ChaCha20Poly1305
  deriving DecidableEq, Repr

/-- The discriminants of `Aead`, `rmls/src/crypto/mod.rs:104-109`. -/
def Aead.toU16 : Aead → UInt16
  | .AEAD_AES128GCM => 1
  | .AEAD_AES256GCM => 2
  | .AEAD_ChaCha20Poly1305 => 3

/-- `HpkeSuite`, `rmls/src/crypto/provider/mod.rs:42-46`. -/
structure HpkeSuite where
  kem : Kem
  kdf : Kdf
  aead : Aead
  deriving DecidableEq, Repr

/-- The ECDSA curves of the `ecdsa` crate used by the providers. -/
inductive Curve where
  | P256
  | P384
  deriving DecidableEq, Repr

/-- Bytes of a private key of the curve (`FieldBytes` of `p256` and `p384`). -/
def Curve.field : Curve → Nat
  | .P256 => 32
  | .P384 => 48

/-- The algorithms of the libraries the providers call.  Randomness is an argument. -/
structure Primitives where
  /-- message -/
  digest : HashScheme → Bytes → Bytes
  /-- key, message -/
  hmac : HashScheme → Bytes → Bytes → Bytes
  /-- HKDF-Expand: pseudorandom key, info, length -/
  hkdf_expand : HashScheme → Bytes → Bytes → Nat → Bytes
  /-- `derive_keypair` of X25519HkdfSha256 -/
  derive_x25519 : Bytes → HPKEKeyPair
  /-- `derive_keypair` of DhP256HkdfSha256 -/
  derive_p256 : Bytes → HPKEKeyPair
  /-- detached encryption: key, nonce, additional data, plaintext ↦ (ciphertext, tag) -/
  aead_encrypt : Aead → Bytes → Bytes → Bytes → Bytes → Option (Bytes × Bytes)
  /-- detached decryption: key, nonce, additional data, ciphertext, tag ↦ plaintext -/
  aead_decrypt : Aead → Bytes → Bytes → Bytes → Bytes → Bytes → Option Bytes
  /-- what ring's `open_in_place` leaves where the tag was, given the tag -/
  leftover : Bytes → Bytes
  /-- randomness ↦ (private, public) -/
  ed25519_generate : Bytes → Bytes × Bytes
  ed25519_sign : Bytes → Bytes → Bytes
  /-- public key, message, signature -/
  ed25519_verify : Bytes → Bytes → Bytes → Bool
  ecdsa_generate : Curve → Bytes → Bytes × Bytes
  /-- private key, message; none if the key is not a scalar of the curve -/
  ecdsa_sign : Curve → Bytes → Bytes → Option Bytes
  ecdsa_verify : Curve → Bytes → Bytes → Bytes → Bool
  /-- `hpke::setup_sender` with base mode and `seal` without additional data -/
  hpke_seal : HpkeSuite → Bytes → Bytes → Bytes → Bytes → Res (Bytes × Bytes)
  /-- `hpke::setup_receiver` with base mode and `open` without additional data -/
  hpke_open : HpkeSuite → Bytes → Bytes → Bytes → Bytes → Res Bytes

namespace Suites

/-- `CipherSuiteDescription`, `rmls/src/crypto/provider/rust.rs:11-15`. -/
structure Description where
  hash : HashScheme
  hpke : HpkeSuite
  signature : SignatureScheme
  deriving DecidableEq, Repr

/-- `CIPHER_SUITE_DESCRIPTIONS`, `rmls/src/crypto/provider/rust.rs:17-88`; the same as
`rmls/src/crypto/provider/ring.rs:17-88`. -/
def CIPHER_SUITE_DESCRIPTIONS : List Description := [
  { hash := .SHA256
    hpke := { kem := .KEM_X25519_HKDF_SHA256, kdf := .KDF_HKDF_SHA256, aead := .AEAD_AES128GCM }
    signature := .ED25519 },
  { hash := .SHA256
    hpke := { kem := .KEM_P256_HKDF_SHA256, kdf := .KDF_HKDF_SHA256, aead := .AEAD_AES128GCM }
    signature := .ECDSA_SECP256R1_SHA256 },
  { hash := .SHA256
    hpke := { kem := .KEM_X25519_HKDF_SHA256, kdf := .KDF_HKDF_SHA256, aead := .AEAD_ChaCha20Poly1305 }
    signature := .ED25519 },
  { hash := .SHA512
    hpke := { kem := .KEM_X448_HKDF_SHA512, kdf := .KDF_HKDF_SHA512, aead := .AEAD_AES256GCM }
    signature := .ED448 },
  { hash := .SHA512
    hpke := { kem := .KEM_P521_HKDF_SHA512, kdf := .KDF_HKDF_SHA512, aead := .AEAD_AES256GCM }
    signature := .ECDSA_SECP521R1_SHA512 },
  { hash := .SHA512
    hpke := { kem := .KEM_X448_HKDF_SHA512, kdf := .KDF_HKDF_SHA512, aead := .AEAD_ChaCha20Poly1305 }
    signature := .ED448 },
  { hash := .SHA384
    hpke := { kem := .KEM_P384_HKDF_SHA384, kdf := .KDF_HKDF_SHA384, aead := .AEAD_AES256GCM }
    signature := .ECDSA_SECP384R1_SHA384 }]

/-- `supports`, `rmls/src/crypto/provider/rust.rs:98-105`, `rmls/src/crypto/provider/ring.rs:98-105`. -/
def supports : CipherSuite → Bool
  | .MLS_128_DHKEMX25519_AES128GCM_SHA256_Ed25519 => true
  | .MLS_128_DHKEMX25519_CHACHA20POLY1305_SHA256_Ed25519 => true
  | .MLS_128_DHKEMP256_AES128GCM_SHA256_P256 => true
  | _ => false

/-- `supported`, `rmls/src/crypto/provider/rust.rs:107-113`, `rmls/src/crypto/provider/ring.rs:107-113`. -/
def supported : List CipherSuite := [
  .MLS_128_DHKEMX25519_AES128GCM_SHA256_Ed25519,
  .MLS_128_DHKEMX25519_CHACHA20POLY1305_SHA256_Ed25519,
  .MLS_128_DHKEMP256_AES128GCM_SHA256_P256]

/-- The common part of `hash`, `hpke` and `signature`, `rmls/src/crypto/provider/rust.rs:123-148`,
`rmls/src/crypto/provider/ring.rs:123-148`.  The subtraction and the indexing panic out of range. -/
def description (cs : CipherSuite) : Res Description :=
  if supports cs then
    if cs.toU16 = 0 then .fault .panic
    else match CIPHER_SUITE_DESCRIPTIONS[cs.toU16.toNat - 1]? with
      | some d => .ok d
      | none => .fault .panic
  else .err .UnsupportedCipherSuite

/-- `HashSchemeWrapper::size`, `rmls/src/crypto/provider/rust/hash.rs:11-17`,
`rmls/src/crypto/provider/ring/hash.rs:13-19`. -/
def hashSize : HashScheme → Nat
  | .SHA256 => 32
  | .SHA384 => 48
  | .SHA512 => 64

/-- `HashSchemeWrapper`, `rmls/src/crypto/provider/rust/hash.rs:10-58`,
`rmls/src/crypto/provider/ring/hash.rs:12-38`.  HMAC takes keys of any length, so the `unwrap` never panics. -/
def hashWrapper (p : Primitives) (scheme : HashScheme) : Hash where
  size := hashSize scheme
  digest data := p.digest scheme data
  mac key message := p.hmac scheme key message

/-- The hash of a key derivation function as chosen by the matches in
`rmls/src/crypto/provider/rust/hpke.rs:47-88`, `rmls/src/crypto/provider/ring/hpke.rs:52-76`. -/
def kdfHash : Kdf → HashScheme
  | .KDF_HKDF_SHA256 => .SHA256
  | .KDF_HKDF_SHA384 => .SHA384
  | .KDF_HKDF_SHA512 => .SHA512

/-- `kem_derive_key_pair`, `rmls/src/crypto/provider/rust/hpke.rs:24-42`,
`rmls/src/crypto/provider/ring/hpke.rs:31-49`. -/
def kem_derive_key_pair (p : Primitives) (kem : Kem) (ikm : Bytes) : Res HPKEKeyPair :=
  match kem with
  | .KEM_X25519_HKDF_SHA256 => .ok (p.derive_x25519 ikm)
  | .KEM_P256_HKDF_SHA256 => .ok (p.derive_p256 ikm)
  | _ => .err .UnsupportedKem

/-- `kdf_extract_size`, `rmls/src/crypto/provider/rust/hpke.rs:91-97`,
`rmls/src/crypto/provider/ring/hpke.rs:79-85`. -/
def kdf_extract_size : Kdf → Nat
  | .KDF_HKDF_SHA256 => 32
  | .KDF_HKDF_SHA384 => 48
  | .KDF_HKDF_SHA512 => 64

/-- `aead_key_size`, `rmls/src/crypto/provider/rust/hpke.rs:100-106`,
`rmls/src/crypto/provider/ring/hpke.rs:88-94`. -/
def aead_key_size : Aead → Nat
  | .AEAD_AES128GCM => 16
  | .AEAD_AES256GCM => 32
  | .AEAD_ChaCha20Poly1305 => 32

/-- `aead_nonce_size`, `rmls/src/crypto/provider/rust/hpke.rs:109-113`,
`rmls/src/crypto/provider/ring/hpke.rs:97-101`. -/
def aead_nonce_size : Aead → Nat
  | .AEAD_AES128GCM => 12
  | .AEAD_AES256GCM => 12
  | .AEAD_ChaCha20Poly1305 => 12

/-- The size of the tag of all three ciphers. -/
def tagSize : Nat := 16

/-- The key size that the library demands of the cipher (`Key<Aes128Gcm>`, ...; `UnboundKey::new`). -/
def cipherKeySize : Aead → Nat
  | .AEAD_AES128GCM => 16
  | .AEAD_AES256GCM => 32
  | .AEAD_ChaCha20Poly1305 => 32

/-- `aead_open`, `rmls/src/crypto/provider/rust/hpke.rs:115-173`: `try_into` turns a slice into a reference to a
`GenericArray` by way of the conversion `From`, which panics unless the length is right (it is the conversion that
`rmls/src/crypto/provider/rust/signature.rs:75` calls by its name), so that the error of `map_err` never occurs;
`decrypt_in_place` splits off the tag, decrypts and truncates the buffer. -/
def rust_aead_open (p : Primitives) (aead : Aead) (key nonce ciphertext ad : Bytes) : Res Bytes :=
  if key.length ≠ cipherKeySize aead then .fault .panic
  else if nonce.length ≠ 12 then .fault .panic
  else if ciphertext.length < tagSize then .err .Other
  else
    let tag_pos := ciphertext.length - tagSize
    match p.aead_decrypt aead key nonce ad (ciphertext.take tag_pos) (ciphertext.drop tag_pos) with
    | some plain => .ok plain
    | none => .err .Other

/-- `aead_open`, `rmls/src/crypto/provider/ring/hpke.rs:103-137`: `open_in_place` decrypts at the front of the
buffer and returns the plaintext as a subslice, which is dropped; the whole buffer is returned. -/
def ring_aead_open (p : Primitives) (aead : Aead) (key nonce ciphertext ad : Bytes) : Res Bytes :=
  if key.length ≠ cipherKeySize aead then .err .Other
  else if nonce.length ≠ 12 then .err .Other
  else if ciphertext.length < tagSize then .err .Other
  else
    let tag_pos := ciphertext.length - tagSize
    let tag := ciphertext.drop tag_pos
    match p.aead_decrypt aead key nonce ad (ciphertext.take tag_pos) tag with
    | some plain => .ok (plain ++ p.leftover tag)
    | none => .err .Other

/-- `aead_seal`, `rmls/src/crypto/provider/rust/hpke.rs:175-233`, with the same conversions as `aead_open`. -/
def rust_aead_seal (p : Primitives) (aead : Aead) (key nonce plaintext ad : Bytes) : Res Bytes :=
  if key.length ≠ cipherKeySize aead then .fault .panic
  else if nonce.length ≠ 12 then .fault .panic
  else match p.aead_encrypt aead key nonce ad plaintext with
    | some (ciphertext, tag) => .ok (ciphertext ++ tag)
    | none => .err .Other

/-- `aead_seal`, `rmls/src/crypto/provider/ring/hpke.rs:139-173`: `UnboundKey::new` and `try_assume_unique_for_key` refuse
other sizes. -/
def ring_aead_seal (p : Primitives) (aead : Aead) (key nonce plaintext ad : Bytes) : Res Bytes :=
  if key.length ≠ cipherKeySize aead then .err .Other
  else if nonce.length ≠ 12 then .err .Other
  else match p.aead_encrypt aead key nonce ad plaintext with
    | some (ciphertext, tag) => .ok (ciphertext ++ tag)
    | none => .err .Other

/-- `kdf_expand`, `rmls/src/crypto/provider/rust/hpke.rs:44-69`: `from_prk` refuses keys shorter than the hash,
`expand` refuses more than 255 blocks. -/
def rust_kdf_expand (p : Primitives) (kdf : Kdf) (secret info : Bytes) (length : UInt16) : Res Bytes :=
  if secret.length < hashSize (kdfHash kdf) then .err .Other
  else if 255 * hashSize (kdfHash kdf) < length.toNat then .err .Other
  else .ok (p.hkdf_expand (kdfHash kdf) secret info length.toNat)

/-- `kdf_expand`, `rmls/src/crypto/provider/ring/hpke.rs:51-68`: `new_less_safe` takes any key. -/
def ring_kdf_expand (p : Primitives) (kdf : Kdf) (secret info : Bytes) (length : UInt16) : Res Bytes :=
  if 255 * hashSize (kdfHash kdf) < length.toNat then .err .Other
  else .ok (p.hkdf_expand (kdfHash kdf) secret info length.toNat)

/-- `kdf_extract`, `rmls/src/crypto/provider/rust/hpke.rs:71-89`, `rmls/src/crypto/provider/ring/hpke.rs:70-77`;
HMAC takes keys of any length. -/
def kdf_extract (p : Primitives) (kdf : Kdf) (secret salt : Bytes) : Res Bytes :=
  .ok (p.hmac (kdfHash kdf) salt secret)

/-- `HpkeSuiteWrapper`, `rmls/src/crypto/provider/rust/hpke.rs:19-234`. -/
def rustHpke (p : Primitives) (s : HpkeSuite) : Hpke where
  kem_derive_key_pair := kem_derive_key_pair p s.kem
  kdf_expand := rust_kdf_expand p s.kdf
  kdf_extract := kdf_extract p s.kdf
  kdf_extract_size := kdf_extract_size s.kdf
  aead_nonce_size := aead_nonce_size s.aead
  aead_key_size := aead_key_size s.aead
  aead_open := rust_aead_open p s.aead
  aead_seal := rust_aead_seal p s.aead

/-- `HpkeSuiteWrapper`, `rmls/src/crypto/provider/ring/hpke.rs:26-174`. -/
def ringHpke (p : Primitives) (s : HpkeSuite) : Hpke where
  kem_derive_key_pair := kem_derive_key_pair p s.kem
  kdf_expand := ring_kdf_expand p s.kdf
  kdf_extract := kdf_extract p s.kdf
  kdf_extract_size := kdf_extract_size s.kdf
  aead_nonce_size := aead_nonce_size s.aead
  aead_key_size := aead_key_size s.aead
  aead_open := ring_aead_open p s.aead
  aead_seal := ring_aead_seal p s.aead

/-- `signature_key_pair`, `rmls/src/crypto/provider/rust/signature.rs:13-57`,
`rmls/src/crypto/provider/ring/signature.rs:17-61`. -/
def signature_key_pair (p : Primitives) (scheme : SignatureScheme) (rnd : Bytes) : Res SignatureKeyPair :=
  match scheme with
  | .ED25519 =>
    let (private_key, public_key) := p.ed25519_generate rnd
    .ok { private_key, public_key, signature_scheme := scheme }
  | .ECDSA_SECP256R1_SHA256 =>
    let (private_key, public_key) := p.ecdsa_generate .P256 rnd
    .ok { private_key, public_key, signature_scheme := scheme }
  | .ECDSA_SECP384R1_SHA384 =>
    let (private_key, public_key) := p.ecdsa_generate .P384 rnd
    .ok { private_key, public_key, signature_scheme := scheme }
  | .ECDSA_SECP521R1_SHA512 => .err .UnsupportedEcdsa
  | .ED448 => .err .UnsupportedEd448

/-- The ECDSA branches of `sign`, `rmls/src/crypto/provider/rust/signature.rs:74-85`,
`rmls/src/crypto/provider/ring/signature.rs:74-85`: `sign_key.into()` converts a slice to an array reference and
panics unless the length is that of the field. -/
def ecdsaSign (p : Primitives) (curve : Curve) (sign_key message : Bytes) : Res Bytes :=
  if sign_key.length ≠ curve.field then .fault .panic
  else match p.ecdsa_sign curve sign_key message with
    | some signature => .ok signature
    | none => .err .InvalidECDSAPrivateKey

/-- `sign`, `rmls/src/crypto/provider/rust/signature.rs:63-89`, `rmls/src/crypto/provider/ring/signature.rs:67-89`. -/
def sign (p : Primitives) (scheme : SignatureScheme) (sign_key message : Bytes) : Res Bytes :=
  match scheme with
  | .ED25519 =>
    if sign_key.length ≠ 32 then .err .InvalidEd25519PrivateKey
    else .ok (p.ed25519_sign sign_key message)
  | .ECDSA_SECP256R1_SHA256 => ecdsaSign p .P256 sign_key message
  | .ECDSA_SECP384R1_SHA384 => ecdsaSign p .P384 sign_key message
  | .ECDSA_SECP521R1_SHA512 => .err .UnsupportedEcdsa
  | .ED448 => .err .UnsupportedEd448

/-- `verify`, `rmls/src/crypto/provider/rust/signature.rs:91-122`; parsing the keys and signatures is part of the
primitives. -/
def rust_verify (p : Primitives) (scheme : SignatureScheme) (public_key message signature : Bytes) : Res Unit :=
  match scheme with
  | .ED25519 =>
    if public_key.length ≠ 32 then .err .InvalidEd25519PrivateKey
    else if p.ed25519_verify public_key message signature then .ok () else .err .Other
  | .ECDSA_SECP256R1_SHA256 =>
    if p.ecdsa_verify .P256 public_key message signature then .ok () else .err .Other
  | .ECDSA_SECP384R1_SHA384 =>
    if p.ecdsa_verify .P384 public_key message signature then .ok () else .err .Other
  | .ECDSA_SECP521R1_SHA512 => .err .UnsupportedEcdsa
  | .ED448 => .err .UnsupportedEd448

/-- `verify`, `rmls/src/crypto/provider/ring/signature.rs:91-114`. -/
def ring_verify (p : Primitives) (scheme : SignatureScheme) (public_key message signature : Bytes) : Res Unit :=
  match scheme with
  | .ED25519 => if p.ed25519_verify public_key message signature then .ok () else .err .Other
  | .ECDSA_SECP256R1_SHA256 =>
    if p.ecdsa_verify .P256 public_key message signature then .ok () else .err .Other
  | .ECDSA_SECP384R1_SHA384 =>
    if p.ecdsa_verify .P384 public_key message signature then .ok () else .err .Other
  | .ECDSA_SECP521R1_SHA512 => .err .UnsupportedEcdsa
  | .ED448 => .err .UnsupportedEd448

/-- `SignatureSchemeWrapper`, `rmls/src/crypto/provider/rust/signature.rs:12-123`. -/
def rustSignature (p : Primitives) (scheme : SignatureScheme) : Signature where
  signature_key_pair := signature_key_pair p scheme
  signature_scheme := scheme
  sign := sign p scheme
  verify := rust_verify p scheme

/-- `SignatureSchemeWrapper`, `rmls/src/crypto/provider/ring/signature.rs:16-115`. -/
def ringSignature (p : Primitives) (scheme : SignatureScheme) : Signature where
  signature_key_pair := signature_key_pair p scheme
  signature_scheme := scheme
  sign := sign p scheme
  verify := ring_verify p scheme

/-- The type parameters given to `hpke::setup_sender` and `hpke::setup_receiver` for each suite,
`rmls/src/crypto/provider/mod.rs:308-392,406-478`. -/
def labelHpke : CipherSuite → Option HpkeSuite
  | .MLS_128_DHKEMX25519_AES128GCM_SHA256_Ed25519 =>
    some { kem := .KEM_X25519_HKDF_SHA256, kdf := .KDF_HKDF_SHA256, aead := .AEAD_AES128GCM }
  | .MLS_128_DHKEMP256_AES128GCM_SHA256_P256 =>
    some { kem := .KEM_P256_HKDF_SHA256, kdf := .KDF_HKDF_SHA256, aead := .AEAD_AES128GCM }
  | .MLS_128_DHKEMX25519_CHACHA20POLY1305_SHA256_Ed25519 =>
    some { kem := .KEM_X25519_HKDF_SHA256, kdf := .KDF_HKDF_SHA256, aead := .AEAD_ChaCha20Poly1305 }
  | _ => none

/-- The arms of the match in `encrypt_with_label`, `rmls/src/crypto/provider/mod.rs:308-392`. -/
def hpkeSeal (p : Primitives) (cs : CipherSuite) (rnd public_key info plaintext : Bytes) : Res (Bytes × Bytes) :=
  match labelHpke cs with
  | some s => p.hpke_seal s rnd public_key info plaintext
  | none => .err .UnsupportedCipherSuite

/-- The arms of the match in `decrypt_with_label`, `rmls/src/crypto/provider/mod.rs:406-478`. -/
def hpkeOpen (p : Primitives) (cs : CipherSuite) (private_key info kem_output ciphertext : Bytes) : Res Bytes :=
  match labelHpke cs with
  | some s => p.hpke_open s private_key info kem_output ciphertext
  | none => .err .UnsupportedCipherSuite

end Suites

open Suites

/-- `RustCryptoProvider`, `rmls/src/crypto/provider/rust.rs:92-149`. -/
def RustCryptoProvider (p : Primitives) : CryptoProvider where
  supports := supports
  hash cs := do let d ← description cs; pure (hashWrapper p d.hash)
  hpke cs := do let d ← description cs; pure (rustHpke p d.hpke)
  signature cs := do let d ← description cs; pure (rustSignature p d.signature)
  hpke_seal := hpkeSeal p
  hpke_open := hpkeOpen p

/-- `RingCryptoProvider`, `rmls/src/crypto/provider/ring.rs:92-149`. -/
def RingCryptoProvider (p : Primitives) : CryptoProvider where
  supports := supports
  hash cs := do let d ← description cs; pure (hashWrapper p d.hash)
  hpke cs := do let d ← description cs; pure (ringHpke p d.hpke)
  signature cs := do let d ← description cs; pure (ringSignature p d.signature)
  hpke_seal := hpkeSeal p
  hpke_open := hpkeOpen p

end Rmls
