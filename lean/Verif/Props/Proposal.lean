import Verif.Proofs.Proposal
import Verif.Props.Members
/-
Properties C26 (lists of proposals) and C27 (when a path is needed).
-/
namespace Rmls
open Spec

/-- C26: a list is accepted exactly if it is valid, there is one sender for each proposal, and the PSK ids can
be encoded. -/
theorem C26_exact (ps : List Proposal) (ss : List LeafIndex) (c : LeafIndex) :
    verify_proposal_list ps ss c = .ok () ↔
      ps.length = ss.length ∧ ProposalsValid (ps.zip ss) c ∧ PsksFit (ps.zip ss) :=
  verify_proposal_list_iff ps ss c

theorem verifyProposals_total (total : Nat) (c : LeafIndex) : ∀ (ps : List (Proposal × LeafIndex))
    (s : ProposalSets), ∀ f, verifyProposals total c s ps ≠ .fault f := by
  intro ps
  induction ps with
  | nil => intro s f h; cases h
  | cons q ps ih =>
    intro s f h
    obtain ⟨p, l⟩ := q
    rw [verifyProposals] at h
    have hv : ∀ f, verifyProposal total c s p l ≠ .fault f := by
      intro f
      cases p <;> simp only [verifyProposal]
      case PreSharedKey p =>
        rcases writes_cases (preSharedKeyID_w p.psk) with ⟨_, e⟩ | ⟨_, x, e⟩
        · rw [e, Res.ok_bind]; split <;> nofun
        · rw [e]; nofun
      all_goals repeat' split
      all_goals nofun
    cases hg : verifyProposal total c s p l with
    | ok s' => rw [hg, Res.ok_bind] at h; exact ih s' f h
    | err e => rw [hg] at h; cases h
    | fault g => exact hv g hg

/-- C26: the check is total: every other list is refused with an error. -/
theorem C26_total (ps : List Proposal) (ss : List LeafIndex) (c : LeafIndex) :
    verify_proposal_list ps ss c = .ok () ∨ ∃ e, verify_proposal_list ps ss c = .err e := by
  cases h : verify_proposal_list ps ss c with
  | ok u => exact Or.inl rfl
  | err e => exact Or.inr ⟨e, rfl⟩
  | fault f =>
    unfold verify_proposal_list at h
    split at h
    · cases h
    · exact absurd h (verifyProposals_total _ _ _ _ _)

/-- C26: the order of the proposals does not matter. -/
theorem C26_order (ps ps' : List Proposal) (ss ss' : List LeafIndex) (c : LeafIndex)
    (hl : ps.length = ss.length) (hl' : ps'.length = ss'.length) (h : (ps.zip ss).Perm (ps'.zip ss')) :
    verify_proposal_list ps ss c = .ok () ↔ verify_proposal_list ps' ss' c = .ok () := by
  have key : ∀ {qs qs' : List (Proposal × LeafIndex)}, qs.Perm qs' → ProposalsValid qs c ∧ PsksFit qs →
      ProposalsValid qs' c ∧ PsksFit qs' := by
    rintro qs qs' hp ⟨⟨a, b, d, e, f, g, i⟩, j⟩
    have p1 := hp.filterMap addedKey
    have p2 := hp.filterMap touchedLeaf
    have p3 := hp.filterMap pskOf
    have p4 := hp.filterMap contextExtensionsOf
    refine ⟨⟨p1.nodup_iff.1 a, p2.nodup_iff.1 b, fun h => d (p2.mem_iff.2 h), p3.nodup_iff.1 e,
      by rw [← p4.length_eq]; exact f, fun p s hm => ?_, fun p s hm => i p s (hp.mem_iff.2 hm)⟩,
      fun id hid => j id (p3.mem_iff.2 hid)⟩
    have := g p s (hp.mem_iff.2 hm)
    rw [this] at hp
    exact List.perm_singleton.1 hp.symm
  rw [C26_exact, C26_exact]
  exact ⟨fun ⟨_, h2⟩ => ⟨hl', key h h2⟩, fun ⟨_, h2⟩ => ⟨hl, key h.symm h2⟩⟩

/-- C27: a path is demanded exactly for the lists that may not do without. -/
theorem C27_exact (ps : List Proposal) : proposal_list_needs_path ps = true ↔ ¬ PathOptional ps := by
  have loop : ∀ ps : List Proposal, needsPathLoop ps = false ↔
      ∀ p ∈ ps, (∃ a, p = .Add a) ∨ (∃ k, p = .PreSharedKey k) ∨ (∃ r, p = .ReInit r) := by
    intro ps
    induction ps with
    | nil => simp [needsPathLoop]
    | cons p ps ih =>
      rw [List.forall_mem_cons, ← ih]
      cases p <;> simp [needsPathLoop]
  unfold proposal_list_needs_path PathOptional
  cases ps with
  | nil => simp
  | cons p ps =>
    rw [if_neg (by simp), ← loop]
    simp

section examples
private def addOf (k : UInt8) : Proposal :=
  .Add ⟨⟨⟨.MLS10, .MLS_128_DHKEMX25519_AES128GCM_SHA256_Ed25519, [k], toyLeaf k, []⟩, []⟩⟩
private def pskOfByte (k : UInt8) : Proposal := .PreSharedKey ⟨⟨.External [k], [1]⟩⟩

/-- A list with every permitted kind is accepted. -/
example : verify_proposal_list [addOf 1, .Update ⟨toyLeaf 3⟩, .Remove ⟨4⟩, addOf 2, pskOfByte 1, pskOfByte 2,
    .GroupContextExtensions ⟨[]⟩] [0, 1, 0, 0, 2, 2, 3] 0 = .ok () := by decide
/-- Breaking one rule at a time. -/
example : verify_proposal_list [addOf 1, addOf 1] [0, 1] 0 =
    .err .MultipleAddProposalsHaveTheSameSignatureKey := by decide
example : verify_proposal_list [.Update ⟨toyLeaf 3⟩, .Remove ⟨1⟩] [1, 0] 0 =
    .err .MultipleUpdateRemoveProposalsApplyToTheSameLeaf := by decide
example : verify_proposal_list [pskOfByte 1, pskOfByte 1] [0, 1] 0 =
    .err .MultiplePSKProposalsReferenceTheSamePSKId := by decide
example : verify_proposal_list [.ReInit ⟨[], .MLS10, .MLS_128_DHKEMX25519_AES128GCM_SHA256_Ed25519, []⟩] [3] 0 =
    .ok () := by decide
example : PathOptional [addOf 1, pskOfByte 1] :=
  ⟨by simp, by intro p hp; simp at hp; rcases hp with rfl | rfl <;> simp [addOf, pskOfByte]⟩
example : ¬ PathOptional [addOf 1, .Remove ⟨1⟩] := by
  rintro ⟨_, h⟩; have := h (.Remove ⟨1⟩) (by simp); simp at this
end examples
end Rmls
