import Verif.Spec.Receiver
import Verif.Spec.Suites
/-
What sending a message takes, besides the laws of the KDF: an AEAD that seals everything of bounded size, and a key that
signs everything.
-/
namespace Rmls.Spec
open Enc

/-- RFC 5116: with a key and a nonce of the right sizes, everything of less than 2^31 bytes is sealed, and the ciphertext is 16
bytes longer.  RFC 5869: an expansion has the length that was asked for.  Key and nonce can be had from the KDF, and the
nonce has room for the guard. -/
structure Sealer (h : Hpke) : Prop where
  exact : ∀ secret info (n : UInt16) out, h.kdf_expand secret info n = .ok out → out.length = n.toNat
  key_size : h.aead_key_size ≤ 255 * h.kdf_extract_size
  nonce_size : h.aead_nonce_size ≤ 255 * h.kdf_extract_size
  guard : 4 ≤ h.aead_nonce_size
  seals : ∀ key nonce plain aad, key.length = h.aead_key_size → nonce.length = h.aead_nonce_size → plain.length < 2 ^ 31 →
    aad.length < 2 ^ 31 → ∃ cipher, h.aead_seal key nonce plain aad = .ok cipher ∧ cipher.length = plain.length + 16

/-- The private key signs everything, and the signatures have at most 256 bytes. -/
def CanSign (P : CryptoProvider) (cs : CipherSuite) (priv : Bytes) : Prop :=
  ∃ s, P.signature cs = .ok s ∧ ∀ m, ∃ signature, s.sign priv m = .ok signature ∧ signature.length ≤ 256

/-- The suite has a hash function whose MACs have at most 256 bytes. -/
def HasMac (P : CryptoProvider) (cs : CipherSuite) : Prop :=
  ∃ h, P.hash cs = .ok h ∧ ∀ key m, (h.mac key m).length ≤ 256

/-- What is signed about a message has an encoding that leaves room for a signature. -/
def Sendable (w : WireFormat) (c : FramedContent) (ctx : GroupContext) : Prop :=
  (framedContentTBS .MLS10 w c ctx).fits ∧ (framedContentTBS .MLS10 w c ctx).bytes.length + 512 < 2 ^ 30

/-- What the libraries do besides `LawfulPrimitives`: outputs have the sizes of the standards, encryption succeeds for everything
of less than 2^31 bytes, and signatures have at most 256 bytes (64 for Ed25519, at most 104 for ECDSA). -/
structure SizedPrimitives (p : Primitives) : Prop where
  hkdf : ∀ scheme secret info n, (p.hkdf_expand scheme secret info n).length = n
  hmac : ∀ scheme key m, 8 * (p.hmac scheme key m).length = hashBits scheme
  encrypts : ∀ a key nonce ad plain, key.length = keySize a.toU16.toNat → nonce.length = nonceSize a.toU16.toNat →
    plain.length < 2 ^ 31 → ad.length < 2 ^ 31 → p.aead_encrypt a key nonce ad plain ≠ none
  ed25519 : ∀ key m, (p.ed25519_sign key m).length ≤ 256
  ecdsa : ∀ c key m s, p.ecdsa_sign c key m = some s → s.length ≤ 256

end Rmls.Spec
