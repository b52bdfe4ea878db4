import Verif.Model.Wire
/-
`rmls/src/framing/proposal.rs`, lines 436-532: checks on the proposals of a commit.
-/
namespace Rmls

/-- The local variables of the loop of `verify_proposal_list`, `rmls/src/framing/proposal.rs:446-450`; hash
sets are lists. -/
structure ProposalSets where
  add_proposals : List SignaturePublicKey := []
  update_or_remove_proposals : List LeafIndex := []
  psk_proposals : List Bytes := []
  group_context_extensions : Bool := false

/-- One round of the loop of `verify_proposal_list`, `rmls/src/framing/proposal.rs:452-509`; `total` is the
number of all proposals. -/
def verifyProposal (total : Nat) (committer : LeafIndex) (s : ProposalSets) (prop : Proposal)
    (sender : LeafIndex) : Res ProposalSets :=
  match prop with
  | .Add p =>
    let key := p.key_package.payload.leaf_node.payload.signature_key
    if s.add_proposals.contains key then .err .MultipleAddProposalsHaveTheSameSignatureKey
    else .ok { s with add_proposals := key :: s.add_proposals }
  | .Update _ =>
    if sender = committer then .err .UpdateProposalGeneratedByTheCommitter
    else if s.update_or_remove_proposals.contains sender then
      .err .MultipleUpdateRemoveProposalsApplyToTheSameLeaf
    else .ok { s with update_or_remove_proposals := sender :: s.update_or_remove_proposals }
  | .Remove p =>
    if p.removed = committer then .err .RemoveProposalRemovesTheCommitter
    else if s.update_or_remove_proposals.contains p.removed then
      .err .MultipleUpdateRemoveProposalsApplyToTheSameLeaf
    else .ok { s with update_or_remove_proposals := p.removed :: s.update_or_remove_proposals }
  | .PreSharedKey p => do
    let psk ← p.psk.serialize
    if s.psk_proposals.contains psk then .err .MultiplePSKProposalsReferenceTheSamePSKId
    else pure { s with psk_proposals := psk :: s.psk_proposals }
  | .GroupContextExtensions _ =>
    if s.group_context_extensions then .err .MultipleGroupContextExtensionsProposals
    else .ok { s with group_context_extensions := true }
  | .ReInit _ => if total > 1 then .err .ReinitProposalTogetherWithAnyOtherProposal else .ok s
  | .ExternalInit _ => .err .ExternalInitProposalNotAllowed

/-- The loop of `verify_proposal_list`, `rmls/src/framing/proposal.rs:451-510`. -/
def verifyProposals (total : Nat) (committer : LeafIndex) : ProposalSets → List (Proposal × LeafIndex) → Res Unit
  | _, [] => .ok ()
  | s, (prop, sender) :: ps => do
    let s ← verifyProposal total committer s prop sender
    verifyProposals total committer s ps

/-- `verify_proposal_list`, `rmls/src/framing/proposal.rs:436-512`. -/
def verify_proposal_list (proposals : List Proposal) (senders : List LeafIndex) (committer : LeafIndex) :
    Res Unit :=
  if proposals.length ≠ senders.length then .err .ProposalsLenNotMatchSendersLen
  else verifyProposals proposals.length committer {} (proposals.zip senders)

/-- The loop of `proposal_list_needs_path`, `rmls/src/framing/proposal.rs:519-529`. -/
def needsPathLoop : List Proposal → Bool
  | [] => false
  | prop :: ps =>
    match prop with
    | .Update _ | .Remove _ | .ExternalInit _ | .GroupContextExtensions _ => true
    | _ => needsPathLoop ps

/-- `proposal_list_needs_path`, `rmls/src/framing/proposal.rs:514-532`. -/
def proposal_list_needs_path (proposals : List Proposal) : Bool :=
  if proposals.isEmpty then true else needsPathLoop proposals

end Rmls
