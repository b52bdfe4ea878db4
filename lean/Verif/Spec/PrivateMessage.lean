import Verif.Spec.KeySchedule
/-
Encryption of messages (RFC 9420 sections 6.3.1 and 6.3.2) over the primitives of a suite.
-/
namespace Rmls.Spec
open Enc

/-- What is sealed can be opened with the same key, nonce and additional data. -/
def AeadPair (h : Hpke) : Prop :=
  ∀ key nonce plain aad cipher, h.aead_seal key nonce plain aad = .ok cipher →
    h.aead_open key nonce cipher aad = .ok plain

/-- `signature` was made with the private key over the labelled content. -/
def Signs (P : CryptoProvider) (cs : CipherSuite) (priv label content signature : Bytes) : Prop :=
  (labelled label content).fits ∧ ∃ s, P.signature cs = .ok s ∧ s.sign priv (labelled label content).bytes = .ok signature

/-- The nonce with the reuse guard in its first bytes. -/
def guarded (nonce guard : Bytes) : Bytes := List.zipWith (· ^^^ ·) nonce guard ++ nonce.drop guard.length

/-- Section 6.3.1: key and nonce for the content, from the secret of the sender's ratchet. -/
def ContentKeys (h : Hpke) (secret : Bytes) (generation : Nat) (guard key nonce : Bytes) : Prop :=
  TreeDerives h secret (text "key") generation h.aead_key_size key ∧
  ∃ n, TreeDerives h secret (text "nonce") generation h.aead_nonce_size n ∧ guard.length ≤ n.length ∧
    nonce = guarded n guard

/-- Section 6.3.2: key and nonce for the sender data, from the first bytes of the ciphertext. -/
def SenderDataKeys (h : Hpke) (sender_data_secret ciphertext key nonce : Bytes) : Prop :=
  Expands h sender_data_secret (text "key") (ciphertext.take h.kdf_extract_size) h.aead_key_size key ∧
  Expands h sender_data_secret (text "nonce") (ciphertext.take h.kdf_extract_size) h.aead_nonce_size nonce

/-- The ciphertext of the message: the content with signature, without padding, sealed with group id, epoch, content
type and authenticated data as additional data. -/
def ContentSealed (h : Hpke) (secret : Bytes) (generation : Nat) (guard : Bytes) (c : FramedContent)
    (signature ciphertext : Bytes) : Prop :=
  ∃ key nonce, ContentKeys h secret generation guard key nonce ∧
    (privateMessageContent ⟨c.content, ⟨signature, []⟩⟩).fits ∧
    (privateContentAAD ⟨c.group_id, c.epoch, c.content.content_type, c.authenticated_data⟩).fits ∧
    h.aead_seal key nonce (privateMessageContent ⟨c.content, ⟨signature, []⟩⟩).bytes
      (privateContentAAD ⟨c.group_id, c.epoch, c.content.content_type, c.authenticated_data⟩).bytes = .ok ciphertext

/-- The sender data, sealed with group id, epoch and content type as additional data. -/
def SenderDataSealed (h : Hpke) (sender_data_secret : Bytes) (sd : SenderData) (c : FramedContent)
    (ciphertext sealed : Bytes) : Prop :=
  ∃ key nonce, SenderDataKeys h sender_data_secret ciphertext key nonce ∧
    (senderDataAAD ⟨c.group_id, c.epoch, c.content.content_type⟩).fits ∧
    h.aead_seal key nonce (senderData sd).bytes
      (senderDataAAD ⟨c.group_id, c.epoch, c.content.content_type⟩).bytes = .ok sealed

end Rmls.Spec
