import Verif.Spec.Framing
/-
What the members of an epoch have tagged with its membership key, and what it is to forge a tag.
-/
namespace Rmls.Spec
open Enc

/-- A public message that a member has tagged, and the state of the group they did it in. -/
structure TaggedMessage where
  message : PublicMessage
  ctx : GroupContext

/-- Section 6.2: what is authenticated. -/
def TaggedMessage.input (x : TaggedMessage) : Enc := authenticatedContentTBM x.message.content x.message.auth x.ctx

/-- A message of a member, in the form in which it is read back, with its tag under the membership key. -/
structure TaggedMessage.By (mac : Bytes → Bytes → Bytes) (key : Bytes) (x : TaggedMessage) : Prop where
  wf : x.message.WF
  member : ∃ i, x.message.content.sender = .Member i
  context : ContextCanonical x.ctx
  fits : x.input.fits
  tag : x.message.membership_tag = some (mac key x.input.bytes)

/-- The message bears the tag of an input that nobody has tagged. -/
def TagForged (mac : Bytes → Bytes → Bytes) (key : Bytes) (sent : List TaggedMessage) (m : PublicMessage) (ctx : GroupContext) : Prop :=
  ∃ b, m.membership_tag = some (mac key b) ∧ b = (authenticatedContentTBM m.content m.auth ctx).bytes ∧
    ∀ x ∈ sent, x.input.bytes ≠ b

end Rmls.Spec
