import Verif.Spec.Framing
import Verif.Spec.Wire
/-
What it takes to accept a public message (RFC 9420 section 6.2).
-/
namespace Rmls.Spec
open Enc

/-- The message is signed with the key, for the group's state if the sender is a member or joins with it, and a member's
message has a tag made with the membership key for the group's state. -/
structure PublicAuthentic (P : CryptoProvider) (cs : CipherSuite) (ctx : GroupContext) (key membership_key : Bytes)
    (m : PublicMessage) : Prop where
  signed : ContentSigned P cs key .PublicMessage m.content ctx m.auth.signature
  member : ∀ i, m.content.sender = .Member i → ∃ tag, m.membership_tag = some tag ∧
    (authenticatedContentTBM m.content m.auth ctx).fits ∧
    MacOf P cs membership_key (authenticatedContentTBM m.content m.auth ctx).bytes tag

/-- Senders that are neither members nor join with the message: their signatures do not cover the group's state. -/
def Sender.Outside (s : Sender) : Prop := (∃ i, s = .External i) ∨ s = .NewMemberProposal

/-- The message names the group and the epoch. -/
def Names (m : PublicMessage) (ctx : GroupContext) : Prop :=
  m.content.group_id = ctx.group_id ∧ m.content.epoch = ctx.epoch

end Rmls.Spec
