import Verif.Model.TreeMath
import Verif.Spec.Tree
import Verif.Proofs.Codec
/-
Closed forms of the tree arithmetic in (level, position) coordinates.
-/
namespace Rmls
open Spec

theorem node_zero (i : Nat) : node 0 i = 2 * i := by simp [node]

theorem node_pos (k i : Nat) : 0 < 2 ^ k * (2 * i + 1) := by
  have := Nat.two_pow_pos k
  exact Nat.mul_pos this (by omega)

theorem node_add_one (k i : Nat) : node k i + 1 = 2 ^ k * (2 * i + 1) := by
  have := node_pos k i
  unfold node; omega

theorem node_succ (k i : Nat) : node (k + 1) i = 2 * node k i + 1 := by
  have h := node_add_one (k + 1) i
  have h' := node_add_one k i
  rw [Nat.pow_succ, Nat.mul_assoc, Nat.mul_comm 2, ← Nat.mul_assoc] at h
  omega

theorem node_left (k i : Nat) : node k (2 * i) + 2 ^ k = node (k + 1) i := by
  induction k with
  | zero => simp [node_zero, node_succ]
  | succ k ih =>
    rw [node_succ k, node_succ (k + 1), ← ih, Nat.pow_succ]; omega

theorem node_right (k i : Nat) : node k (2 * i + 1) = node (k + 1) i + 2 ^ k := by
  induction k with
  | zero => simp [node_zero, node_succ]; omega
  | succ k ih =>
    rw [node_succ k, node_succ (k + 1), ih, Nat.pow_succ]; omega

theorem node_inj {k i k' i' : Nat} (h : node k i = node k' i') : k = k' ∧ i = i' := by
  induction k generalizing k' with
  | zero =>
    cases k' with
    | zero => simp [node_zero] at h; exact ⟨rfl, by omega⟩
    | succ k' => rw [node_succ, node_zero] at h; omega
  | succ k ih =>
    cases k' with
    | zero => rw [node_succ, node_zero] at h; omega
    | succ k' =>
      rw [node_succ, node_succ] at h
      obtain ⟨h1, h2⟩ := ih (k' := k') (by omega)
      exact ⟨by omega, h2⟩

theorem node_surj (x : Nat) : ∃ k i, x = node k i := by
  induction x using Nat.strongRecOn with
  | _ x ih =>
    by_cases h : x % 2 = 0
    · exact ⟨0, x / 2, by rw [node_zero]; omega⟩
    · obtain ⟨k, i, hx⟩ := ih (x / 2) (by omega)
      exact ⟨k + 1, i, by rw [node_succ]; omega⟩

theorem node_le (k i : Nat) : 2 ^ k ≤ node k i + 1 := by
  rw [node_add_one]
  exact Nat.le_mul_of_pos_right _ (by omega)

theorem node_div (k i : Nat) : (node k i) / 2 ^ (k + 1) = i := by
  induction k with
  | zero => simp [node_zero]
  | succ k ih =>
    rw [node_succ, Nat.pow_succ' , ← Nat.div_div_eq_div_mul]
    rw [show (2 * node k i + 1) / 2 = node k i by omega, ih]

theorem node_lt_iff {k i K : Nat} (hk : k ≤ K) : node k i < node K 0 * 2 + 1 ↔ i < 2 ^ (K - k) := by
  have h1 := node_add_one k i
  have h2 : node K 0 + 1 = 2 ^ K := by rw [node_add_one]; simp
  have h3 : 2 ^ K = 2 ^ k * 2 ^ (K - k) := by rw [← Nat.pow_add]; congr 1; omega
  have : node K 0 * 2 + 1 = 2 ^ k * (2 * 2 ^ (K - k)) - 1 := by
    rw [Nat.mul_left_comm, ← h3]; omega
  rw [this]
  have hp := Nat.two_pow_pos k
  constructor
  · intro h
    have h4 : 2 ^ k * (2 * i + 1) < 2 ^ k * (2 * 2 ^ (K - k)) := by omega
    have := Nat.lt_of_mul_lt_mul_left h4
    omega
  · intro h
    have h4 : 2 ^ k * (2 * i + 1) < 2 ^ k * (2 * 2 ^ (K - k)) :=
      Nat.mul_lt_mul_of_pos_left (by omega) hp
    omega

/-! ### Bit operations -/

theorem xor_odd_even (a c : Nat) : (2 * a + 1) ^^^ (2 * c) = 2 * (a ^^^ c) + 1 := by
  apply Nat.eq_of_testBit_eq
  intro i
  cases i with
  | zero => simp [Nat.testBit_zero, Nat.mul_mod_right]
  | succ i =>
    rw [Nat.testBit_xor, Nat.testBit_succ, Nat.testBit_succ, Nat.testBit_succ,
      show (2 * a + 1) / 2 = a by omega, show 2 * c / 2 = c by omega,
      show (2 * (a ^^^ c) + 1) / 2 = a ^^^ c by omega, Nat.testBit_xor]

theorem or_odd_even (a c : Nat) : (2 * a + 1) ||| (2 * c) = 2 * (a ||| c) + 1 := by
  apply Nat.eq_of_testBit_eq
  intro i
  cases i with
  | zero => simp [Nat.testBit_zero]
  | succ i =>
    rw [Nat.testBit_or, Nat.testBit_succ, Nat.testBit_succ, Nat.testBit_succ,
      show (2 * a + 1) / 2 = a by omega, show 2 * c / 2 = c by omega,
      show (2 * (a ||| c) + 1) / 2 = a ||| c by omega, Nat.testBit_or]

theorem xor_even_one (a : Nat) : (2 * a) ^^^ 1 = 2 * a + 1 := by
  apply Nat.eq_of_testBit_eq
  intro i
  cases i with
  | zero => simp [Nat.testBit_zero]
  | succ i =>
    rw [Nat.testBit_xor, Nat.testBit_succ, Nat.testBit_succ, Nat.testBit_succ,
      show (2 * a + 1) / 2 = a by omega, show 2 * a / 2 = a by omega]
    simp

theorem or_even_one (a : Nat) : (2 * a) ||| 1 = 2 * a + 1 := by
  apply Nat.eq_of_testBit_eq
  intro i
  cases i with
  | zero => simp [Nat.testBit_zero]
  | succ i =>
    rw [Nat.testBit_or, Nat.testBit_succ, Nat.testBit_succ, Nat.testBit_succ,
      show (2 * a + 1) / 2 = a by omega, show 2 * a / 2 = a by omega]
    simp

theorem xor_even_even (a c : Nat) : (2 * a) ^^^ (2 * c) = 2 * (a ^^^ c) := by
  apply Nat.eq_of_testBit_eq
  intro i
  cases i with
  | zero => simp [Nat.testBit_zero, Nat.mul_mod_right]
  | succ i =>
    rw [Nat.testBit_xor, Nat.testBit_succ, Nat.testBit_succ, Nat.testBit_succ,
      show (2 * a) / 2 = a by omega, show 2 * c / 2 = c by omega,
      show (2 * (a ^^^ c)) / 2 = a ^^^ c by omega, Nat.testBit_xor]

theorem shr_one (x : Nat) : x >>> 1 = x / 2 := by simp [Nat.shiftRight_eq_div_pow]

theorem node_xor_left (k i : Nat) : node (k + 1) i ^^^ 2 ^ k = node k (2 * i) := by
  induction k with
  | zero =>
    rw [node_succ, node_zero, node_zero, Nat.pow_zero, ← xor_even_one, Nat.xor_assoc]
    simp
  | succ k ih =>
    rw [node_succ (k + 1), Nat.pow_succ', xor_odd_even, ih, node_succ k]

theorem node_xor_right (k i : Nat) : node (k + 1) i ^^^ (3 * 2 ^ k) = node k (2 * i + 1) := by
  induction k with
  | zero =>
    have h := node_xor_left 0 i
    rw [show 3 * 2 ^ 0 = (2 ^ 0) ^^^ 2 from rfl, ← Nat.xor_assoc, h, node_zero, node_zero,
      show 2 = 2 * 1 from rfl, xor_even_even, xor_even_one]
  | succ k ih =>
    rw [node_succ (k + 1), Nat.pow_succ', Nat.mul_left_comm, xor_odd_even, ih, node_succ k]

theorem node_or (k i : Nat) : node k i ||| 2 ^ k = node k i + 2 ^ k := by
  induction k with
  | zero => rw [node_zero, Nat.pow_zero, or_even_one]
  | succ k ih => rw [node_succ, Nat.pow_succ', or_odd_even, ih]; omega

theorem node_shr {k i l : Nat} (h : l ≤ k) : node k i >>> l = node (k - l) i := by
  induction l generalizing k with
  | zero => simp
  | succ l ih =>
    obtain ⟨k, rfl⟩ : ∃ m, k = m + 1 := ⟨k - 1, by omega⟩
    rw [Nat.add_comm l 1, Nat.shiftRight_add, node_succ, shr_one,
      show (2 * node k i + 1) / 2 = node k i by omega, ih (by omega)]
    congr 1; omega

theorem node_and_one (k i : Nat) : node k i &&& 1 = if k = 0 then 0 else 1 := by
  rw [Nat.and_one_is_mod]
  cases k with
  | zero => simp [node_zero]
  | succ k => rw [node_succ]; simp

theorem node_shr_succ (k i : Nat) : node k i >>> (k + 1) = i := by
  rw [Nat.shiftRight_eq_div_pow, node_div]

/-! ### The model functions in coordinates -/

namespace NodeIndex

theorem levelLoop_node {k i : Nat} (hk : k < 32) : ∀ fuel l, l ≤ k → k < fuel + l →
    levelLoop (node k i) fuel l = .ok k := by
  intro fuel
  induction fuel with
  | zero => intro l h1 h2; omega
  | succ fuel ih =>
    intro l h1 h2
    unfold levelLoop
    rw [shr32, if_pos (by omega), Res.ok_bind, node_shr h1, node_and_one]
    by_cases hl : k - l = 0
    · rw [if_pos hl]
      have : l = k := by omega
      simp [this]
    · rw [if_neg hl, if_pos rfl, add32, if_pos (by omega), Res.ok_bind]
      exact ih _ (by omega) (by omega)

theorem levelLoop_over {k i : Nat} (hk : 32 ≤ k) : ∀ fuel l, 32 < fuel + l → l ≤ 32 →
    levelLoop (node k i) fuel l = .fault .panic := by
  intro fuel
  induction fuel with
  | zero => intro l h1 h2; omega
  | succ fuel ih =>
    intro l h1 h2
    unfold levelLoop
    by_cases hl : l < 32
    · rw [shr32, if_pos hl, Res.ok_bind, node_shr (by omega), node_and_one,
        if_neg (show ¬ k - l = 0 by omega), if_pos rfl, add32, if_pos (by omega), Res.ok_bind]
      exact ih _ (by omega) (by omega)
    · rw [shr32, if_neg hl]; rfl

theorem level_node {k : Nat} (i : Nat) (hk : k < 32) : level (node k i) = .ok k := by
  unfold level
  rw [node_and_one]
  by_cases h : k = 0
  · subst h; rfl
  · rw [if_neg h, if_neg (by omega)]
    exact levelLoop_node hk _ _ (by omega) (by omega)

theorem level_over {k : Nat} (i : Nat) (hk : 32 ≤ k) : level (node k i) = .fault .panic := by
  unfold level
  rw [node_and_one, if_neg (show ¬ k = 0 by omega), if_neg (by omega)]
  exact levelLoop_over hk _ _ (by omega) (by omega)

theorem left_zero (i : Nat) : left (node 0 i) = .ok none := by
  unfold left; rw [level_node i (by omega)]; rfl
theorem right_zero (i : Nat) : right (node 0 i) = .ok none := by
  unfold right; rw [level_node i (by omega)]; rfl
theorem children_zero (i : Nat) : children (node 0 i) = .ok none := by
  unfold children; rw [left_zero]; rfl

theorem two_pow_lt {k : Nat} (hk : k < 32) : 2 ^ k < 4294967296 :=
  Nat.pow_lt_pow_right (by omega) hk

theorem left_succ {k : Nat} (i : Nat) (hk : k + 1 < 32) :
    left (node (k + 1) i) = .ok (some (node k (2 * i))) := by
  unfold left
  rw [level_node i hk, Res.ok_bind, if_neg (by omega)]
  simp only [Nat.add_sub_cancel, shl32]
  rw [if_pos (by omega), Res.ok_bind, Nat.one_shiftLeft, Nat.mod_eq_of_lt (two_pow_lt (by omega)),
    node_xor_left]
  rfl

theorem right_succ {k : Nat} (i : Nat) (hk : k + 1 < 32) :
    right (node (k + 1) i) = .ok (some (node k (2 * i + 1))) := by
  unfold right
  rw [level_node i hk, Res.ok_bind, if_neg (by omega)]
  simp only [Nat.add_sub_cancel, shl32]
  have h : 2 ^ k ≤ 2 ^ 30 := Nat.pow_le_pow_right (by omega) (by omega)
  rw [if_pos (by omega), Res.ok_bind, Nat.shiftLeft_eq,
    Nat.mod_eq_of_lt (by omega), node_xor_right]
  rfl

theorem children_succ {k : Nat} (i : Nat) (hk : k + 1 < 32) :
    children (node (k + 1) i) = .ok (some (node k (2 * i), node k (2 * i + 1))) := by
  unfold children
  rw [left_succ i hk, Res.ok_bind]
  simp only [right_succ i hk, Res.ok_bind]
  rfl

theorem children_over {k : Nat} (i : Nat) (hk : 32 ≤ k) : children (node k i) = .fault .panic := by
  unfold children left
  rw [level_over i hk]; rfl

theorem is_leaf_iff (k i : Nat) : is_leaf (node k i) = true ↔ k = 0 := by
  unfold is_leaf
  cases k with
  | zero => simp [node_zero]
  | succ k => rw [node_succ]; simp

theorem leaf_index_zero (i : Nat) : leaf_index (node 0 i) = some i := by
  unfold leaf_index
  rw [if_pos ((is_leaf_iff 0 i).2 rfl), node_zero, shr_one]
  congr 1; omega

theorem leaf_index_succ (k i : Nat) : leaf_index (node (k + 1) i) = none := by
  unfold leaf_index
  rw [if_neg (by rw [is_leaf_iff]; omega)]

end NodeIndex

namespace NumLeaves

/-- The height of the tree for `n` leaves. -/
def height (n : Nat) : Nat := (2 * (n - 1) + 1).log2

theorem width_eq {n : Nat} (h0 : 0 < n) (hn : n ≤ 2 ^ 31) : width n = .ok (2 * (n - 1) + 1) := by
  unfold width
  rw [if_neg (by omega), mul32, if_pos (by omega), Res.ok_bind, add32, if_pos (by omega)]

theorem height_bounds {n : Nat} (h0 : 0 < n) : 2 ^ height n ≤ 2 * n - 1 ∧ n ≤ 2 ^ height n := by
  unfold height
  have h1 := Nat.log2_self_le (n := 2 * (n - 1) + 1) (by omega)
  have h2 : 2 * (n - 1) + 1 < 2 ^ ((2 * (n - 1) + 1).log2 + 1) := Nat.lt_log2_self
  rw [Nat.pow_succ] at h2
  omega

theorem height_lt {n : Nat} (h0 : 0 < n) (hn : n ≤ 2 ^ 31) : height n < 32 := by
  unfold height
  rw [Nat.log2_lt (by omega)]
  omega

theorem root_eq {n : Nat} (h0 : 0 < n) (hn : n ≤ 2 ^ 31) : root n = .ok (node (height n) 0) := by
  have hk := height_lt h0 hn
  have hp := Nat.two_pow_pos (height n)
  unfold root
  rw [width_eq h0 hn, Res.ok_bind, ilog2, if_neg (by omega), Res.ok_bind]
  show (shl32 1 (height n) >>= fun r => sub32 r 1) = _
  rw [shl32, if_pos hk, Res.ok_bind, Nat.one_shiftLeft,
    Nat.mod_eq_of_lt (NodeIndex.two_pow_lt hk), sub32, if_pos (by omega)]
  simp [node]

theorem root_zero : root 0 = .fault .panic := by rfl

theorem parent_root {n : Nat} (h0 : 0 < n) (hn : n ≤ 2 ^ 31) : parent n (node (height n) 0) = .ok none := by
  unfold parent
  rw [root_eq h0 hn, Res.ok_bind, if_pos rfl]
  rfl

/-- One step up. -/
theorem parent_node {n k i : Nat} (h0 : 0 < n) (hn : n ≤ 2 ^ 31) (hk : k < 31)
    (hr : ¬ (k = height n ∧ i = 0)) : parent n (node k i) = .ok (some (node (k + 1) (i / 2))) := by
  unfold parent
  rw [root_eq h0 hn, Res.ok_bind, if_neg (fun h => hr (node_inj h)), NodeIndex.level_node i (by omega),
    Res.ok_bind, add32, if_pos (by omega), Res.ok_bind, shr32, if_pos (by omega), Res.ok_bind, shl32,
    if_pos (by omega), Res.ok_bind, shl32, if_pos (by omega), Res.ok_bind, node_shr_succ,
    Nat.one_shiftLeft, Nat.mod_eq_of_lt (NodeIndex.two_pow_lt (by omega)), node_or, Nat.and_one_is_mod]
  have hlt : 2 ^ (k + 1) < 4294967296 := NodeIndex.two_pow_lt (by omega)
  rcases Nat.mod_two_eq_zero_or_one i with he | he
  · rw [he]
    have hi : 2 * (i / 2) = i := by omega
    have := node_left k (i / 2)
    rw [hi] at this
    simp [this]
  · rw [he, Nat.one_shiftLeft, Nat.mod_eq_of_lt hlt]
    have hi : 2 * (i / 2) + 1 = i := by omega
    have h1 := node_right k (i / 2)
    rw [hi] at h1
    have h3 : node k i + 2 ^ k = node (k + 1) (i / 2) + 2 ^ (k + 1) := by
      rw [h1, Nat.pow_succ]; omega
    rw [h3, ← node_or (k + 1) (i / 2)]
    have h4 : (node (k + 1) (i / 2) ||| 2 ^ (k + 1)) ^^^ 2 ^ (k + 1) = node (k + 1) (i / 2) := by
      apply Nat.eq_of_testBit_eq
      intro j
      rw [Nat.testBit_xor, Nat.testBit_or, Nat.testBit_two_pow]
      by_cases hj : k + 1 = j
      · subst hj
        have : (node (k + 1) (i / 2)).testBit (k + 1) = false := by
          rw [Nat.testBit_eq_decide_div_mod_eq]
          have := node_and_one 0 (i / 2)
          have h5 := node_shr (k := k + 1) (i := i / 2) (l := k + 1) (Nat.le_refl _)
          rw [Nat.shiftRight_eq_div_pow, Nat.sub_self, node_zero] at h5
          rw [h5]; simp
        simp [this]
      · simp [hj]
    rw [h4]
    rfl

theorem parent_over {n k i : Nat} (h0 : 0 < n) (hn : n ≤ 2 ^ 31) (hk : 31 ≤ k)
    (hr : ¬ (k = height n ∧ i = 0)) : parent n (node k i) = .fault .panic := by
  unfold parent
  rw [root_eq h0 hn, Res.ok_bind, if_neg (fun h => hr (node_inj h))]
  by_cases h : k < 32
  · obtain rfl : k = 31 := by omega
    rw [NodeIndex.level_node i (by omega), Res.ok_bind, add32, if_pos (by omega), Res.ok_bind, shr32,
      if_neg (by omega)]
    rfl
  · rw [NodeIndex.level_over i (by omega)]; rfl

theorem parent_zero (x : Nat) : parent 0 x = .fault .panic := by
  unfold parent; rw [root_zero]; rfl

/-! ### Paths -/

/-- The node at level `k`, position `i` belongs to the tree of height `K`. -/
def InTree (K k i : Nat) : Prop := k ≤ K ∧ i < 2 ^ (K - k)

theorem inTree_root (K : Nat) : InTree K K 0 := ⟨Nat.le_refl _, by simp⟩

theorem inTree_up {K k i : Nat} (h : InTree K k i) (hk : k < K) : InTree K (k + 1) (i / 2) := by
  refine ⟨hk, ?_⟩
  have h2 := h.2
  rw [show K - k = K - (k + 1) + 1 by omega, Nat.pow_succ] at h2
  omega

theorem inTree_down {K k i : Nat} (h : InTree K (k + 1) (i / 2)) : InTree K k i := by
  obtain ⟨h1, h2⟩ := h
  refine ⟨by omega, ?_⟩
  rw [show K - k = K - (k + 1) + 1 by omega, Nat.pow_succ]
  omega

theorem inTree_top {K i : Nat} (h : InTree K K i) : i = 0 := by
  have := h.2; simp at this; exact this

theorem not_root {K k i : Nat} (hk : k < K) : ¬ (k = K ∧ i = 0) := fun h => by omega

theorem inTree_iff {K k i : Nat} : InTree K k i ↔ node k i ≤ 2 * node K 0 := by
  have hroot : node K 0 + 1 = 2 ^ K := by rw [node_add_one]; simp
  constructor
  · rintro ⟨h1, h2⟩
    have := (node_lt_iff h1).2 h2
    omega
  · intro h
    have hk : k ≤ K := by
      apply Decidable.byContradiction
      intro hc
      have h1 := node_le k i
      have h2 : 2 ^ (K + 1) ≤ 2 ^ k := Nat.pow_le_pow_right (by omega) (by omega)
      rw [Nat.pow_succ] at h2
      omega
    exact ⟨hk, (node_lt_iff hk).1 (by omega)⟩

/-- A step up from a node of the tree. -/
theorem parent_inTree {n k i : Nat} (h0 : 0 < n) (hn : n ≤ 2 ^ 31) (h : InTree (height n) k i) :
    parent n (node k i) =
      .ok (if k = height n then none else some (node (k + 1) (i / 2))) := by
  have hK := height_lt h0 hn
  by_cases hk : k = height n
  · subst hk
    rw [inTree_top h, parent_root h0 hn]; simp
  · have := h.1
    rw [parent_node h0 hn (by omega) (fun h => hk h.1), if_neg hk]

theorem directPathLoop_inTree {n : Nat} (h0 : 0 < n) (hn : n ≤ 2 ^ 31) :
    ∀ d fuel k i, k + d = height n → InTree (height n) k i → d < fuel →
      directPathLoop n fuel (node k i) = .ok ((ancestors k i d).map fun p => node p.1 p.2) := by
  intro d
  induction d with
  | zero =>
    intro fuel k i hd h hf
    obtain ⟨fuel, rfl⟩ : ∃ m, fuel = m + 1 := ⟨fuel - 1, by omega⟩
    unfold directPathLoop
    rw [parent_inTree h0 hn h, if_pos (by omega)]
    rfl
  | succ d ih =>
    intro fuel k i hd h hf
    obtain ⟨fuel, rfl⟩ : ∃ m, fuel = m + 1 := ⟨fuel - 1, by omega⟩
    unfold directPathLoop
    rw [parent_inTree h0 hn h, if_neg (by omega), Res.ok_bind]
    simp only [ih fuel (k + 1) (i / 2) (by omega) (inTree_up h (by omega)) (by omega), Res.ok_bind]
    rfl

theorem direct_path_inTree {n k i : Nat} (h0 : 0 < n) (hn : n ≤ 2 ^ 31) (h : InTree (height n) k i) :
    direct_path n (node k i) = .ok ((ancestors k i (height n - k)).map fun p => node p.1 p.2) := by
  have hK := height_lt h0 hn
  have := h.1
  exact directPathLoop_inTree h0 hn _ _ _ _ (by omega) h (by omega)

theorem directPathLoop_out {n : Nat} (h0 : 0 < n) (hn : n ≤ 2 ^ 31) :
    ∀ fuel k i, 1 ≤ fuel → 32 ≤ fuel + k → ¬ InTree (height n) k i →
      directPathLoop n fuel (node k i) = .fault .panic := by
  intro fuel
  induction fuel with
  | zero => intro k i h1; omega
  | succ fuel ih =>
    intro k i h1 h2 h
    unfold directPathLoop
    have hr : ¬ (k = height n ∧ i = 0) := by
      rintro ⟨rfl, rfl⟩; exact h (inTree_root _)
    by_cases hk : k < 31
    · rw [parent_node h0 hn hk hr, Res.ok_bind]
      simp only
      rw [ih (k + 1) (i / 2) (by omega) (by omega) (fun h' => h (inTree_down h'))]
      rfl
    · rw [parent_over h0 hn (by omega) hr]
      rfl

theorem direct_path_out {n k i : Nat} (h0 : 0 < n) (hn : n ≤ 2 ^ 31) (h : ¬ InTree (height n) k i) :
    direct_path n (node k i) = .fault .panic :=
  directPathLoop_out h0 hn _ _ _ (by omega) (by omega) h

theorem node_lt_parent_iff (k i : Nat) : node k i < node (k + 1) (i / 2) ↔ i % 2 = 0 := by
  rcases Nat.mod_two_eq_zero_or_one i with he | he
  · have h1 := node_left k (i / 2)
    rw [show 2 * (i / 2) = i by omega] at h1
    have := Nat.two_pow_pos k
    exact ⟨fun _ => he, fun _ => by omega⟩
  · have h1 := node_right k (i / 2)
    rw [show 2 * (i / 2) + 1 = i by omega] at h1
    have := Nat.two_pow_pos k
    exact ⟨fun _ => by omega, fun _ => by omega⟩

theorem sibling_inTree {n k i : Nat} (h0 : 0 < n) (hn : n ≤ 2 ^ 31) (h : InTree (height n) k i) :
    sibling n (node k i) = .ok (if k = height n then none else some (node k (siblingPos i))) := by
  have hK := height_lt h0 hn
  unfold sibling
  rw [parent_inTree h0 hn h]
  by_cases hk : k = height n
  · rw [if_pos hk, if_pos hk]; rfl
  · have := h.1
    rw [if_neg hk, if_neg hk, Res.ok_bind]
    simp only [node_lt_parent_iff]
    unfold siblingPos
    split
    · rw [NodeIndex.right_succ _ (by omega), show 2 * (i / 2) + 1 = i + 1 by omega]
    · rw [NodeIndex.left_succ _ (by omega), show 2 * (i / 2) = i - 1 by omega]

theorem copathLoop_inTree {n : Nat} (h0 : 0 < n) (hn : n ≤ 2 ^ 31) :
    ∀ d k i, k + (d + 1) = height n → InTree (height n) k i →
      copathLoop n ((node k i :: ((ancestors k i (d + 1)).map fun p => node p.1 p.2)).dropLast) =
        .ok ((siblings k i (d + 1)).map fun p => node p.1 p.2) := by
  intro d
  induction d with
  | zero =>
    intro k i hd h
    simp only [ancestors, List.map, List.dropLast, copathLoop]
    rw [sibling_inTree h0 hn h, if_neg (by omega)]
    rfl
  | succ d ih =>
    intro k i hd h
    have hu := inTree_up h (by omega)
    have := ih (k + 1) (i / 2) (by omega) hu
    have hdl : (node k i :: ((ancestors k i (d + 1 + 1)).map fun p => node p.1 p.2)).dropLast =
        node k i :: (node (k + 1) (i / 2) ::
          ((ancestors (k + 1) (i / 2) (d + 1)).map fun p => node p.1 p.2)).dropLast := rfl
    rw [hdl]
    generalize (node (k + 1) (i / 2) ::
          ((ancestors (k + 1) (i / 2) (d + 1)).map fun p => node p.1 p.2)).dropLast = l at this
    unfold copathLoop
    rw [sibling_inTree h0 hn h, if_neg (by omega), Res.ok_bind]
    simp only [this, Res.ok_bind]
    rfl

theorem copath_inTree {n k i : Nat} (h0 : 0 < n) (hn : n ≤ 2 ^ 31) (h : InTree (height n) k i) :
    copath n (node k i) = .ok ((siblings k i (height n - k)).map fun p => node p.1 p.2) := by
  unfold copath
  rw [direct_path_inTree h0 hn h, Res.ok_bind]
  by_cases hk : k = height n
  · subst hk; simp [ancestors, siblings]
  · have := h.1
    obtain ⟨d, hd⟩ : ∃ d, height n - k = d + 1 := ⟨height n - k - 1, by omega⟩
    rw [hd, if_neg (by simp [ancestors])]
    exact copathLoop_inTree h0 hn d k i (by omega) h

end NumLeaves
end Rmls
