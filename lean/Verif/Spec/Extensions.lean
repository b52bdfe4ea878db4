import Verif.Spec.Wire
/-
The contents of the extensions of RFC 9420 (sections 5.3.3, 11.1, 12.1.8.1, 12.4.3.2, 12.4.3.3), and what a group requires of
its members (sections 7.2, 7.3, 11.1).
-/
namespace Rmls.Spec
open Enc

/-- `ExternalSender external_senders<V>`, the content of the extension of section 12.1.8.1. -/
def externalSenders (senders : List ExternalSendersExtension) : Enc := vector externalSender senders

/-- The group has a `required_capabilities` extension with this content. -/
def Requires (ctx : GroupContext) (req : RequiredCapabilitiesExtension) : Prop :=
  ∃ e ∈ ctx.extensions, e.extension_type = .RequiredCapabilities ∧ (requiredCapabilities req).fits ∧
    e.extension_data = (requiredCapabilities req).bytes

/-- What need not be listed, since every client supports it (section 7.2). -/
def DefaultExtension : ExtensionType → Prop
  | .Unknown _ => False
  | _ => True

/-- What need not be listed, since every client supports it (section 7.2). -/
def DefaultProposal : ProposalType → Prop
  | .Unknown _ => False
  | _ => True

/-- The capabilities are enough for the group (section 11.1). -/
structure Meets (req : RequiredCapabilitiesExtension) (c : Capabilities) : Prop where
  extensions : ∀ ty ∈ req.extension_types, DefaultExtension ty ∨ ty ∈ c.extensions
  proposals : ∀ ty ∈ req.proposal_types, DefaultProposal ty ∨ ty ∈ c.proposals
  credentials : ∀ ty ∈ req.credential_types, ty ∈ c.credentials

end Rmls.Spec
