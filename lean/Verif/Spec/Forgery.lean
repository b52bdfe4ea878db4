import Verif.Spec.Derivation
/-
What the senders of an epoch have sealed, and what it is to forge a message.
-/
namespace Rmls.Spec
open Enc

/-- A private message and what it was made from. -/
structure Sent where
  content : FramedContent
  sender_data : SenderData
  message : PrivateMessage

/-- One of the two things that were sealed for a message: the content, with the key of the sender's generation, or the sender
data. -/
def Sent.Seals (h : Hpke) (encryption_secret sender_data_secret : Bytes) (K : Nat) (x : Sent)
    (key nonce plain aad cipher : Bytes) : Prop :=
  h.aead_seal key nonce plain aad = .ok cipher ∧
  ((∃ secret signature,
      MessageSecret h encryption_secret K x.sender_data.leaf_index.toNat x.content.content.content_type
        x.sender_data.generation.toNat secret ∧
      ContentKeys h secret x.sender_data.generation.toNat x.sender_data.reuse_guard key nonce ∧
      (privateMessageContent ⟨x.content.content, ⟨signature, []⟩⟩).fits ∧
      plain = (privateMessageContent ⟨x.content.content, ⟨signature, []⟩⟩).bytes ∧
      aad = (privateContentAAD ⟨x.content.group_id, x.content.epoch, x.content.content.content_type,
        x.content.authenticated_data⟩).bytes ∧
      cipher = x.message.ciphertext) ∨
    (SenderDataKeys h sender_data_secret x.message.ciphertext key nonce ∧
      plain = (senderData x.sender_data).bytes ∧
      aad = (senderDataAAD ⟨x.content.group_id, x.content.epoch, x.content.content.content_type⟩).bytes ∧
      cipher = x.message.encrypted_sender_data))

/-- A key with which members of the epoch seal messages, in a group with `2 ^ K` leaves. -/
def EpochKey (h : Hpke) (encryption_secret sender_data_secret : Bytes) (K : Nat) (key : Bytes) : Prop :=
  (∃ li ct g secret, li < 2 ^ K ∧ MessageSecret h encryption_secret K li ct g secret ∧
    TreeDerives h secret (text "key") g h.aead_key_size key) ∨
  ∃ ciphertext nonce, SenderDataKeys h sender_data_secret ciphertext key nonce

/-- Something opens with a key of the epoch that nobody has sealed. -/
def Forged (h : Hpke) (encryption_secret sender_data_secret : Bytes) (K : Nat) (sent : List Sent) : Prop :=
  ∃ key nonce plain aad cipher, EpochKey h encryption_secret sender_data_secret K key ∧
    h.aead_open key nonce cipher aad = .ok plain ∧
    ∀ x ∈ sent, ¬ x.Seals h encryption_secret sender_data_secret K key nonce plain aad cipher

end Rmls.Spec
