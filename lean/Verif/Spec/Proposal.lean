import Verif.Spec.Wire
/-
The rules of RFC 9420 section 12.2 for the proposals of a commit by a member, as far as the code is meant to
check them, and section 12.4 on when a commit needs a path.
-/
namespace Rmls.Spec

/-- The signature keys of the members added. -/
def addedKey : Proposal × LeafIndex → Option SignaturePublicKey
  | (.Add p, _) => some p.key_package.payload.leaf_node.payload.signature_key
  | _ => none

/-- The leaf updated or removed. -/
def touchedLeaf : Proposal × LeafIndex → Option LeafIndex
  | (.Update _, sender) => some sender
  | (.Remove p, _) => some p.removed
  | _ => none

def pskOf : Proposal × LeafIndex → Option PreSharedKeyID
  | (.PreSharedKey p, _) => some p.psk
  | _ => none

def contextExtensionsOf : Proposal × LeafIndex → Option Extensions
  | (.GroupContextExtensions p, _) => some p.extensions
  | _ => none

/-- The list `ps` of proposals with their senders may be committed by `committer`. -/
structure ProposalsValid (ps : List (Proposal × LeafIndex)) (committer : LeafIndex) : Prop where
  adds : (ps.filterMap addedKey).Nodup
  leaves : (ps.filterMap touchedLeaf).Nodup
  committer : committer ∉ ps.filterMap touchedLeaf
  psks : (ps.filterMap pskOf).Nodup
  context_extensions : (ps.filterMap contextExtensionsOf).length ≤ 1
  reinit : ∀ p s, (Proposal.ReInit p, s) ∈ ps → ps = [(.ReInit p, s)]
  external_init : ∀ p s, (Proposal.ExternalInit p, s) ∉ ps

/-- The proposals are short enough to be encoded where the check encodes them. -/
def PsksFit (ps : List (Proposal × LeafIndex)) : Prop := ∀ id ∈ ps.filterMap pskOf, (preSharedKeyID id).fits

/-- A commit of these proposals may leave out the path (section 12.4): there is a proposal, and all are of the
kinds add, PSK and re-init. -/
def PathOptional (ps : List Proposal) : Prop :=
  ps ≠ [] ∧ ∀ p ∈ ps, (∃ a, p = .Add a) ∨ (∃ k, p = .PreSharedKey k) ∨ (∃ r, p = .ReInit r)

end Rmls.Spec
