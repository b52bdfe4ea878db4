import Verif.Spec.PrivateMessage
/-
What a private message shows to somebody without the keys of the group.

The security of an AEAD says that its ciphertexts cannot be told from bytes that depend only on what is public: the
length of the plaintext and the additional data.  `Blind` is that ideal; a real AEAD comes as close to it as its users
trust it to.
-/
namespace Rmls.Spec
open Enc

/-- The ideal AEAD: the ciphertext is made up by `s` from the additional data and the length of the plaintext. -/
def Blind (h : Hpke) (s : Bytes → Nat → Bytes) : Prop :=
  ∀ key nonce plain ad c, h.aead_seal key nonce plain ad = .ok c → c = s ad plain.length

/-- Sealing adds a tag of `tag` bytes and changes the length in no other way. -/
def Tagged (h : Hpke) (tag : Nat) : Prop :=
  ∀ key nonce plain ad c, h.aead_seal key nonce plain ad = .ok c → c.length = plain.length + tag

/-- All signatures of the suite have `n` bytes, as those of Ed25519 have. -/
def SignatureSize (P : CryptoProvider) (cs : CipherSuite) (n : Nat) : Prop :=
  ∀ s k m sg, P.signature cs = .ok s → s.sign k m = .ok sg → sg.length = n

/-- Bytes taken by the length in front of `n` bytes (RFC 9420, section 2.1.2). -/
def headSize (n : Nat) : Nat := if n < 64 then 1 else if n < 16384 then 2 else 4

/-- What is made public of a content: the first four fields, and the length of its encoding. -/
structure Shown where
  group_id : Bytes
  epoch : UInt64
  content_type : ContentType
  authenticated_data : Bytes
  size : Nat
  deriving DecidableEq, Repr

/-- What a content shows. -/
def shown (c : FramedContent) : Shown where
  group_id := c.group_id
  epoch := c.epoch
  content_type := c.content.content_type
  authenticated_data := c.authenticated_data
  size := (contentBody c.content).bytes.length

/-- The length of what is encrypted: the content, the signature of `n` bytes with its length, and for a commit the length
of a tag that is left empty. -/
def plainSize (n : Nat) (x : Shown) : Nat :=
  x.size + (headSize n + n) + (if x.content_type = .Commit then 1 else 0)

/-- A message made up by somebody who knows nothing but what is shown. -/
def madeUp (s : Bytes → Nat → Bytes) (n : Nat) (x : Shown) : PrivateMessage where
  group_id := x.group_id
  epoch := x.epoch
  content_type := x.content_type
  authenticated_data := x.authenticated_data
  encrypted_sender_data := s (senderDataAAD ⟨x.group_id, x.epoch, x.content_type⟩).bytes 12
  ciphertext :=
    s (privateContentAAD ⟨x.group_id, x.epoch, x.content_type, x.authenticated_data⟩).bytes (plainSize n x)

/-- The length of the application data in a message, worked out from the length of the ciphertext. -/
def lengthSeen (tag n seen : Nat) : Nat :=
  let k := seen - tag - (headSize n + n)
  if k ≤ 64 then k - 1 else if k ≤ 16385 then k - 2 else k - 4

end Rmls.Spec
