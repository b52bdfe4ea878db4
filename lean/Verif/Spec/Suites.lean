import Verif.Model.Suites
/-
What RFC 9420 and the RFCs it builds on say about cipher suites, and what is assumed of the libraries.
-/
namespace Rmls.Spec
open Rmls

/-- The components of a cipher suite, by the code points of their registries. -/
structure Row where
  /-- RFC 9180 section 7.1 -/
  kem : Nat
  /-- RFC 9180 section 7.2 -/
  kdf : Nat
  /-- RFC 9180 section 7.3 -/
  aead : Nat
  /-- SHA-2 with this many bits of output -/
  hash : Nat
  /-- RFC 8446 section 4.2.3 -/
  signature : Nat
  deriving DecidableEq

/-- RFC 9420 section 17.1, table 7. -/
def row : Nat → Option Row
  | 1 => some ⟨0x0020, 0x0001, 0x0001, 256, 0x0807⟩
  | 2 => some ⟨0x0010, 0x0001, 0x0001, 256, 0x0403⟩
  | 3 => some ⟨0x0020, 0x0001, 0x0003, 256, 0x0807⟩
  | 4 => some ⟨0x0021, 0x0003, 0x0002, 512, 0x0808⟩
  | 5 => some ⟨0x0012, 0x0003, 0x0002, 512, 0x0603⟩
  | 6 => some ⟨0x0021, 0x0003, 0x0003, 512, 0x0808⟩
  | 7 => some ⟨0x0011, 0x0002, 0x0002, 384, 0x0503⟩
  | _ => none

/-- The bits of output of the hash functions. -/
def hashBits : HashScheme → Nat
  | .SHA256 => 256
  | .SHA384 => 384
  | .SHA512 => 512

/-- RFC 9180 table 3, Nh. -/
def extractSize : Nat → Nat
  | 0x0001 => 32
  | 0x0002 => 48
  | 0x0003 => 64
  | _ => 0

/-- RFC 9180 table 5, Nk. -/
def keySize : Nat → Nat
  | 0x0001 => 16
  | 0x0002 => 32
  | 0x0003 => 32
  | _ => 0

/-- RFC 9180 table 5, Nn. -/
def nonceSize : Nat → Nat
  | 0x0001 => 12
  | 0x0002 => 12
  | 0x0003 => 12
  | _ => 0

/-- What is assumed of the libraries. -/
structure LawfulPrimitives (p : Primitives) : Prop where
  /-- encryption keeps the length, makes a tag of 16 bytes, and decryption undoes it -/
  aead : ∀ a k n ad plain c t, p.aead_encrypt a k n ad plain = some (c, t) →
    c.length = plain.length ∧ t.length = 16 ∧ p.aead_decrypt a k n ad c t = some plain
  /-- `open_in_place` keeps the length of the buffer -/
  leftover : ∀ t, (p.leftover t).length = t.length
  /-- Ed25519 keys have 32 bytes and the pair signs and verifies -/
  ed25519 : ∀ r priv pub, p.ed25519_generate r = (priv, pub) → priv.length = 32 ∧ pub.length = 32 ∧
    ∀ m, p.ed25519_verify pub m (p.ed25519_sign priv m) = true
  /-- a P-256 private key has 32 bytes, a P-384 one 48; the public key is a SEC 1 point, compressed or not -/
  ecdsa : ∀ c r priv pub, p.ecdsa_generate c r = (priv, pub) →
    priv.length = c.field ∧ (pub.length = c.field + 1 ∨ pub.length = 2 * c.field + 1) ∧
    ∀ m, ∃ s, p.ecdsa_sign c priv m = some s ∧ p.ecdsa_verify c pub m s = true

end Rmls.Spec
