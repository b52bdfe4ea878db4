import Verif.Proofs.WireFault
/-
The padding and trimming of ratchet trees on the wire.
-/
namespace Rmls

theorem and_pred_double (y : Nat) (h : 0 < y) : (2 * y) &&& (2 * y - 1) = 2 * (y &&& (y - 1)) := by
  apply Nat.eq_of_testBit_eq
  intro i
  cases i with
  | zero => simp [Nat.testBit_zero]
  | succ i =>
    rw [Nat.testBit_and, Nat.testBit_succ, Nat.testBit_succ, Nat.testBit_succ]
    have h1 : 2 * y / 2 = y := by omega
    have h2 : (2 * y - 1) / 2 = y - 1 := by omega
    have h3 : 2 * (y &&& (y - 1)) / 2 = y &&& (y - 1) := by omega
    rw [h1, h2, h3, Nat.testBit_and]

theorem and_pred_odd (y : Nat) : (2 * y + 1) &&& (2 * y + 1 - 1) = 2 * y := by
  apply Nat.eq_of_testBit_eq
  intro i
  cases i with
  | zero => simp [Nat.testBit_zero]
  | succ i =>
    rw [Nat.testBit_and, Nat.testBit_succ, Nat.testBit_succ]
    have h1 : (2 * y + 1) / 2 = y := by omega
    have h2 : (2 * y + 1 - 1) / 2 = y := by omega
    rw [h1, h2, Nat.testBit_succ]
    have h3 : 2 * y / 2 = y := by omega
    simp [h3]

theorem is_power_of_two_iff (x : Nat) : is_power_of_two x = true ↔ ∃ k, x = 2 ^ k := by
  unfold is_power_of_two
  rw [decide_eq_true_iff]
  induction x using Nat.strongRecOn with
  | ind x ih =>
    obtain ⟨y, rfl | rfl⟩ : ∃ y, x = 2 * y ∨ x = 2 * y + 1 := ⟨x / 2, by omega⟩
    · by_cases hy : y = 0
      · subst hy
        simp
        intro k hk
        have := Nat.pow_pos (n := k) (show 0 < 2 by omega)
        omega
      · have h1 := ih y (by omega)
        rw [and_pred_double y (by omega)]
        have : (2 * y ≠ 0 ∧ 2 * (y &&& (y - 1)) = 0) ↔ (y ≠ 0 ∧ (y &&& (y - 1)) = 0) := by omega
        rw [this, h1]
        constructor
        · rintro ⟨k, rfl⟩; exact ⟨k + 1, by rw [Nat.pow_succ]; omega⟩
        · rintro ⟨k, hk⟩
          cases k with
          | zero => simp at hk; omega
          | succ k => exact ⟨k, by rw [Nat.pow_succ] at hk; omega⟩
    · rw [and_pred_odd]
      constructor
      · intro h
        exact ⟨0, by simp; omega⟩
      · rintro ⟨k, hk⟩
        cases k with
        | zero => simp at hk; omega
        | succ k => rw [Nat.pow_succ] at hk; omega

namespace RatchetTree

theorem padLoop_ok {fuel : Nat} {t t' : RatchetTree} (h : padLoop fuel t = .ok t') :
    ∃ k, t' = t ++ List.replicate k none ∧ is_power_of_two (t'.length + 1) = true ∧
      ∀ j, j < k → ¬ is_power_of_two (t.length + j + 1) = true := by
  induction fuel generalizing t with
  | zero =>
    unfold padLoop at h
    split at h
    · cases h; exact ⟨0, by simp, by assumption, by omega⟩
    · cases h
  | succ fuel ih =>
    unfold padLoop at h
    split at h
    · cases h; exact ⟨0, by simp, by assumption, by omega⟩
    · rename_i hn
      obtain ⟨k, h1, h2, h3⟩ := ih h
      refine ⟨k + 1, ?_, h2, ?_⟩
      · rw [h1, List.replicate_succ]; simp
      · intro j hj
        cases j with
        | zero => exact hn
        | succ j =>
          have := h3 j (by omega)
          simp at this ⊢
          rw [show t.length + (j + 1) + 1 = t.length + 1 + j + 1 by omega]
          exact this

theorem padLoop_terminates {fuel k : Nat} {t : RatchetTree} (hk : k ≤ fuel)
    (hp : is_power_of_two (t.length + k + 1) = true) : ∃ t', padLoop fuel t = .ok t' := by
  induction fuel generalizing t k with
  | zero =>
    obtain rfl : k = 0 := by omega
    exact ⟨t, by unfold padLoop; rw [if_pos hp]⟩
  | succ fuel ih =>
    unfold padLoop
    split
    · exact ⟨t, rfl⟩
    · rename_i hn
      cases k with
      | zero => exact absurd hp hn
      | succ k =>
        exact ih (k := k) (by omega) (by
          simp only [List.length_append, List.length_cons, List.length_nil]
          rw [show t.length + (0 + 1) + k + 1 = t.length + (k + 1) + 1 by omega]; exact hp)

theorem padLoop_total (t : RatchetTree) : ∃ t', padLoop t.length t = .ok t' := by
  by_cases h0 : t.length = 0
  · exact padLoop_terminates (k := 0) (by omega) ((is_power_of_two_iff _).2 ⟨0, by simp [h0]⟩)
  · have h1 : t.length < 2 ^ (t.length.log2 + 1) := Nat.lt_log2_self
    have h2 : 2 ^ t.length.log2 ≤ t.length := Nat.log2_self_le h0
    refine padLoop_terminates (k := 2 ^ (t.length.log2 + 1) - 1 - t.length) ?_
      ((is_power_of_two_iff _).2 ⟨t.length.log2 + 1, by omega⟩)
    rw [Nat.pow_succ] at h1 ⊢
    omega

theorem padLoop_noFault (t : RatchetTree) (f : Fault) : padLoop t.length t ≠ .fault f := by
  obtain ⟨t', h⟩ := padLoop_total t
  rw [h]; simp

/-- The bounds on the length after padding. -/
theorem padLoop_length {t t' : RatchetTree} (h : padLoop t.length t = .ok t') :
    (∃ k, t'.length + 1 = 2 ^ k) ∧ t.length ≤ t'.length ∧
      ∀ j, t.length + 1 ≤ 2 ^ j → t'.length + 1 ≤ 2 ^ j := by
  obtain ⟨k, rfl, h2, h3⟩ := padLoop_ok h
  refine ⟨(is_power_of_two_iff _).1 h2, by simp, ?_⟩
  intro j hj
  simp only [List.length_append, List.length_replicate]
  by_cases hlt : 2 ^ j - 1 - t.length < k
  · exact absurd ((is_power_of_two_iff _).2 ⟨j, by omega⟩) (h3 _ hlt)
  · omega

theorem noF_of {f : Fault} (hlt : NoF f 0 Lifetime.deserialize)
    (hum : NoF f 0 ParentNode.deserializeUnmerged) : NoF f 0 RatchetTree.deserialize := by
  unfold RatchetTree.deserialize
  refine NoF.bind (noF_nodes_of hlt hum) fun t => ?_
  intro b _ h
  exact padLoop_noFault _ _ (De.lift_fault_iff.1 h)

/-! ### Trimming -/

theorem trimEnd_le (t : RatchetTree) (e : Nat) : trimEnd t e ≤ e := by
  induction e with
  | zero => simp [trimEnd]
  | succ e ih => unfold trimEnd; split <;> omega

theorem trimEnd_blank (t : RatchetTree) (e i : Nat) (h1 : trimEnd t e ≤ i) (h2 : i < e) :
    t[i]?.join = none := by
  induction e with
  | zero => omega
  | succ e ih =>
    unfold trimEnd at h1
    split at h1
    · rename_i hn
      by_cases hi : i = e
      · subst hi; simpa using hn
      · exact ih h1 (by omega)
    · omega

theorem trimEnd_last (t : RatchetTree) (e : Nat) (h : trimEnd t e ≠ 0) :
    (t[trimEnd t e - 1]?.join).isSome := by
  induction e with
  | zero => simp [trimEnd] at h
  | succ e ih =>
    unfold trimEnd at h ⊢
    split
    · rename_i hn
      rw [if_pos hn] at h
      exact ih h
    · rename_i hn
      simp only [Nat.add_sub_cancel]
      cases hj : t[e]?.join <;> simp_all

end RatchetTree
end Rmls
