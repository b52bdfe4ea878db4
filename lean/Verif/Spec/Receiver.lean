import Verif.Spec.PrivateMessage
import Verif.Spec.Wire
/-
What it takes to read a private message, from the secrets of the epoch on (RFC 9420 sections 6.3 and 9).
-/
namespace Rmls.Spec
open Enc

/-- The secret of generation `g` of a member, in a group with `2 ^ K` leaves: down the secret tree to the leaf, then the
ratchet for this kind of content. -/
def MessageSecret (h : Hpke) (encryption_secret : Bytes) (K li : Nat) (ct : ContentType) (g : Nat) (s : Bytes) : Prop :=
  ∃ leaf root, NodeSecret h encryption_secret K 0 li leaf ∧
    Expands h leaf (text (if ct = .Application then "application" else "handshake")) [] h.kdf_extract_size root ∧
    GenerationSecret h root g s

/-- The sender data of a message opens. -/
def SenderDataOpens (h : Hpke) (sender_data_secret : Bytes) (m : PrivateMessage) (sd : SenderData) : Prop :=
  sd.reuse_guard.length = 4 ∧ ∃ key nonce rest, SenderDataKeys h sender_data_secret m.ciphertext key nonce ∧
    (senderDataAAD ⟨m.group_id, m.epoch, m.content_type⟩).fits ∧
    h.aead_open key nonce m.encrypted_sender_data (senderDataAAD ⟨m.group_id, m.epoch, m.content_type⟩).bytes =
      .ok ((senderData sd).bytes ++ rest)

/-- The content of a message opens, with the secret of a generation. -/
def ContentOpens (h : Hpke) (secret : Bytes) (generation : Nat) (guard : Bytes) (m : PrivateMessage)
    (pc : PrivateMessageContent) : Prop :=
  pc.WF ∧ pc.content.content_type = m.content_type ∧
  ∃ key nonce n, ContentKeys h secret generation guard key nonce ∧
    (privateContentAAD ⟨m.group_id, m.epoch, m.content_type, m.authenticated_data⟩).fits ∧
    (privateMessageContent pc).fits ∧
    h.aead_open key nonce m.ciphertext
      (privateContentAAD ⟨m.group_id, m.epoch, m.content_type, m.authenticated_data⟩).bytes =
      .ok ((privateMessageContent pc).bytes ++ zeros n)

/-- The content that a member at the leaf in the sender data has said, by this message. -/
def contentOf (m : PrivateMessage) (sd : SenderData) (pc : PrivateMessageContent) : FramedContent :=
  ⟨m.group_id, m.epoch, .Member sd.leaf_index, m.authenticated_data, pc.content⟩

end Rmls.Spec
