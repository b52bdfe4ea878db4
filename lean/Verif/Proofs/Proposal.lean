import Verif.Model.Proposal
import Verif.Spec.Proposal
import Verif.Proofs.Labels
/-
The check of a list of proposals.
-/
namespace Rmls
open Spec

theorem psk_bytes_inj {a b : PreSharedKeyID} (ha : (preSharedKeyID a).fits) (hb : (preSharedKeyID b).fits)
    (h : (preSharedKeyID a).bytes = (preSharedKeyID b).bytes) : a = b :=
  (PreSharedKeyID.lawful.inj.prefixFree fun _ _ => preSharedKeyID_w _).eq trivial trivial ha hb h

/-- What is still required of the rest of the list, given what was seen before. -/
structure RestValid (total : Nat) (c : LeafIndex) (s : ProposalSets) (ps : List (Proposal × LeafIndex)) :
    Prop where
  adds : (ps.filterMap addedKey).Nodup
  adds' : ∀ k ∈ ps.filterMap addedKey, k ∉ s.add_proposals
  leaves : (ps.filterMap touchedLeaf).Nodup
  leaves' : ∀ l ∈ ps.filterMap touchedLeaf, l ≠ c ∧ l ∉ s.update_or_remove_proposals
  psks : (ps.filterMap pskOf).Nodup
  psks' : ∀ id ∈ ps.filterMap pskOf, (preSharedKeyID id).fits ∧ (preSharedKeyID id).bytes ∉ s.psk_proposals
  gce : (ps.filterMap contextExtensionsOf).length + (if s.group_context_extensions then 1 else 0) ≤ 1
  reinit : ∀ p l, (Proposal.ReInit p, l) ∈ ps → total ≤ 1
  ext : ∀ p l, (Proposal.ExternalInit p, l) ∉ ps

theorem restValid_iff {total : Nat} {c : LeafIndex} {s : ProposalSets} {ps : List (Proposal × LeafIndex)} :
    RestValid total c s ps ↔ (ps.filterMap addedKey).Nodup ∧
      (∀ k ∈ ps.filterMap addedKey, k ∉ s.add_proposals) ∧ (ps.filterMap touchedLeaf).Nodup ∧
      (∀ l ∈ ps.filterMap touchedLeaf, l ≠ c ∧ l ∉ s.update_or_remove_proposals) ∧
      (ps.filterMap pskOf).Nodup ∧ (∀ id ∈ ps.filterMap pskOf,
        (preSharedKeyID id).fits ∧ (preSharedKeyID id).bytes ∉ s.psk_proposals) ∧
      (ps.filterMap contextExtensionsOf).length + (if s.group_context_extensions then 1 else 0) ≤ 1 ∧
      (∀ p l, (Proposal.ReInit p, l) ∈ ps → total ≤ 1) ∧ ∀ p l, (Proposal.ExternalInit p, l) ∉ ps :=
  ⟨fun ⟨a, b, c, d, e, f, g, h, i⟩ => ⟨a, b, c, d, e, f, g, h, i⟩,
    fun ⟨a, b, c, d, e, f, g, h, i⟩ => ⟨a, b, c, d, e, f, g, h, i⟩⟩

theorem verifyProposals_iff (total : Nat) (c : LeafIndex) : ∀ (ps : List (Proposal × LeafIndex))
    (s : ProposalSets), verifyProposals total c s ps = .ok () ↔ RestValid total c s ps := by
  intro ps
  induction ps with
  | nil =>
    intro s
    refine ⟨fun _ => ⟨by simp, by simp, by simp, by simp, by simp, by simp, ?_, by simp, by simp⟩, fun _ => rfl⟩
    simp only [List.filterMap_nil, List.length_nil]; split <;> omega
  | cons q ps ih =>
    intro s
    obtain ⟨p, l⟩ := q
    rw [verifyProposals, Res.bind_ok_iff]
    simp only [ih]
    cases p with
    | Add p =>
      simp only [verifyProposal, restValid_iff, List.filterMap_cons, addedKey, touchedLeaf, pskOf,
        contextExtensionsOf, List.nodup_cons, List.mem_cons, List.contains_iff_mem]
      grind
    | Update p =>
      simp only [verifyProposal, restValid_iff, List.filterMap_cons, addedKey, touchedLeaf, pskOf,
        contextExtensionsOf, List.nodup_cons, List.mem_cons, List.contains_iff_mem]
      grind
    | Remove p =>
      simp only [verifyProposal, restValid_iff, List.filterMap_cons, addedKey, touchedLeaf, pskOf,
        contextExtensionsOf, List.nodup_cons, List.mem_cons, List.contains_iff_mem]
      grind
    | PreSharedKey p =>
      simp only [verifyProposal, restValid_iff, List.filterMap_cons, addedKey, touchedLeaf, pskOf,
        contextExtensionsOf, List.nodup_cons, List.mem_cons, List.contains_iff_mem]
      rcases writes_cases (preSharedKeyID_w p.psk) with ⟨f, e⟩ | ⟨f, x, e⟩
      · simp only [e, Res.ok_bind, Res.pure_eq]
        have := @psk_bytes_inj
        grind
      · simp only [e, Res.err_bind]
        grind
    | ReInit p =>
      simp only [verifyProposal, restValid_iff, List.filterMap_cons, addedKey, touchedLeaf, pskOf,
        contextExtensionsOf, List.mem_cons]
      by_cases ht : total > 1
      · rw [if_pos ht]
        constructor
        · rintro ⟨s', h, _⟩; cases h
        · rintro ⟨_, _, _, _, _, _, _, h, _⟩
          have := h p l (Or.inl rfl); omega
      · rw [if_neg ht]
        constructor
        · rintro ⟨s', h, h1, h2, h3, h4, h5, h6, h7, h8, h9⟩
          cases h
          refine ⟨h1, h2, h3, h4, h5, h6, h7, fun _ _ _ => by omega, ?_⟩
          rintro p' l' (h | h)
          · cases h
          · exact h9 _ _ h
        · rintro ⟨h1, h2, h3, h4, h5, h6, h7, h8, h9⟩
          exact ⟨s, rfl, h1, h2, h3, h4, h5, h6, h7, fun _ _ h => h8 _ _ (Or.inr h),
            fun _ _ h => h9 _ _ (Or.inr h)⟩
    | ExternalInit p =>
      simp only [verifyProposal, restValid_iff, List.filterMap_cons, addedKey, touchedLeaf, pskOf,
        contextExtensionsOf, List.mem_cons]
      grind
    | GroupContextExtensions p =>
      simp only [verifyProposal, restValid_iff, List.filterMap_cons, addedKey, touchedLeaf, pskOf,
        contextExtensionsOf, List.mem_cons, List.length_cons]
      grind

theorem verify_proposal_list_iff (ps : List Proposal) (ss : List LeafIndex) (c : LeafIndex) :
    verify_proposal_list ps ss c = .ok () ↔
      ps.length = ss.length ∧ ProposalsValid (ps.zip ss) c ∧ PsksFit (ps.zip ss) := by
  unfold verify_proposal_list
  by_cases hl : ps.length = ss.length
  · rw [if_neg (not_not_intro hl), verifyProposals_iff]
    have hz : (ps.zip ss).length = ps.length := by rw [List.length_zip, hl]; exact Nat.min_self _
    constructor
    · intro h
      refine ⟨hl, ⟨h.adds, h.leaves, fun hc => (h.leaves' _ hc).1 rfl, h.psks, by simpa using h.gce, ?_, h.ext⟩,
        fun id hid => (h.psks' id hid).1⟩
      intro p s hm
      have := h.reinit p s hm
      obtain ⟨a, ha⟩ : ∃ a, ps.zip ss = [a] := by
        apply List.length_eq_one_iff.1
        have := List.length_pos_of_mem hm
        omega
      rw [ha, List.mem_singleton] at hm
      rw [ha, ← hm]
    · rintro ⟨_, h, hf⟩
      refine ⟨h.adds, by simp, h.leaves, fun l hl => ⟨?_, by simp⟩, h.psks, fun id hid => ⟨hf id hid, by simp⟩,
        by simpa using h.context_extensions, ?_, h.external_init⟩
      · rintro rfl; exact h.committer hl
      · intro p s hm
        have := h.reinit p s hm
        rw [← hz, this]; exact Nat.le_refl _
  · rw [if_pos hl]
    exact ⟨(nomatch ·), fun h => absurd h.1 hl⟩

end Rmls
