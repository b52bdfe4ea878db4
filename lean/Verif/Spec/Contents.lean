import Verif.Spec.Proposal
import Verif.Spec.Suites
/-
What RFC 9420 asks of the contents of a proposal to use a pre-shared key (section 12.1.4) and of one to re-initialise the
group (section 12.1.5).
-/
namespace Rmls.Spec

/-- Section 12.1.4: "The psk_nonce is of length KDF.Nh", and a resumption key is not one for re-initialising or branching. -/
def PskProposalValid (nh : Nat) (id : PreSharedKeyID) : Prop :=
  id.psk_nonce.length = nh ∧
    ∀ r, id.psk = .Resumption r → r.usage ≠ .Reinit ∧ r.usage ≠ .Branch

/-- Section 12.1.5: "A ReInit proposal is invalid if the version field is less than the version for the current group." -/
def ReInitValid (ctx : GroupContext) (r : ReInitProposal) : Prop := ctx.version.toU16.toNat ≤ r.version.toU16.toNat

/-- The list with the keys it asks for renamed. -/
def renamePsk (f : PreSharedKeyID → PreSharedKeyID) : Proposal → Proposal
  | .PreSharedKey p => .PreSharedKey ⟨f p.psk⟩
  | p => p

end Rmls.Spec
