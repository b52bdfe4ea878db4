import Verif.Model.RatchetTree
import Verif.Proofs.TreeMath
import Verif.Proofs.RatchetWire
import Verif.Spec.RatchetTree
/-
Lemmas on the ratchet tree operations: the array, and loops towards the root as folds over the direct
path.
-/
namespace Rmls
open Spec NumLeaves

theorem cast32_eq {x : Nat} (h : x < 4294967296) : cast32 x = x := Nat.mod_eq_of_lt h

theorem node_index_eq {li : Nat} (h : li < 2 ^ 31) : LeafIndex.node_index li = .ok (2 * li) := by
  unfold LeafIndex.node_index mul32
  rw [if_pos (show 2 * li < 4294967296 by omega)]

theorem node_index_panic {li : Nat} (h : 2 ^ 31 ≤ li) : LeafIndex.node_index li = .fault .panic := by
  unfold LeafIndex.node_index mul32
  rw [if_neg (show ¬ 2 * li < 4294967296 by omega)]

namespace RatchetTree

/-! ### the array -/

theorem get_set (t : RatchetTree) (i j : Nat) (v : Option Node) :
    (t.set i v).get j = if j = i ∧ i < t.length then v else t.get j := by
  unfold get set
  rw [List.getElem?_set]
  by_cases h : i = j
  · subst h
    by_cases hl : i < t.length
    · simp [hl]
    · simp [hl]
  · rw [if_neg h, if_neg (fun hc => h hc.1.symm)]

@[simp] theorem set_length (t : RatchetTree) (i : Nat) (v : Option Node) : (t.set i v).length = t.length :=
  List.length_set

theorem get_out {t : RatchetTree} {i : Nat} (h : t.length ≤ i) : t.get i = none := by
  unfold get; rw [List.getElem?_eq_none h]; rfl

theorem lt_of_get {t : RatchetTree} {i : Nat} {n : Node} (h : t.get i = some n) : i < t.length := by
  apply Decidable.byContradiction
  intro hc
  rw [get_out (by omega)] at h; cases h

theorem get_lt {t : RatchetTree} {i : Nat} (h : i < t.length) : t.get i = t[i] := by
  unfold get; rw [List.getElem?_eq_getElem h]; rfl

theorem get_pad (t : RatchetTree) (m i : Nat) : RatchetTree.get (t ++ List.replicate m none) i = t.get i := by
  unfold get
  rw [List.getElem?_append]
  split
  · rfl
  · rw [List.getElem?_replicate, List.getElem?_eq_none (by omega)]
    split <;> rfl

theorem get_take (t : RatchetTree) (m i : Nat) :
    RatchetTree.get (List.take m t) i = if i < m then t.get i else none := by
  unfold get
  rw [List.getElem?_take]
  split <;> rfl

theorem ext {t t' : RatchetTree} (hl : t.length = t'.length) (h : ∀ i, t.get i = t'.get i) : t = t' := by
  apply List.ext_getElem hl
  intro i h1 h2
  have := h i
  rwa [get_lt h1, get_lt h2] at this

theorem num_leaves_eq {t : RatchetTree} (h : t.length < 4294967296) :
    t.num_leaves = NumLeaves.new t.length := by
  unfold num_leaves; rw [cast32_eq h]

theorem num_leaves_bounds {t : RatchetTree} (h0 : 0 < t.length) (h : t.length < 4294967296) :
    0 < t.num_leaves ∧ t.num_leaves ≤ 2 ^ 31 ∧ t.num_leaves = (t.length - 1) / 2 + 1 := by
  rw [num_leaves_eq h]
  unfold NumLeaves.new
  rw [if_neg (by omega)]
  omega

/-! ### the height of a tree -/

theorem isHeight_height {n : Nat} (h0 : 0 < n) : IsHeight n (height n) := by
  obtain ⟨h1, h2⟩ := height_bounds h0
  refine ⟨h2, fun j hj => ?_⟩
  apply Decidable.byContradiction
  intro hc
  have : 2 ^ (j + 1) ≤ 2 ^ height n := Nat.pow_le_pow_right (by omega) (by omega)
  rw [Nat.pow_succ] at this
  omega

theorem isHeight_unique {n K K' : Nat} (h : IsHeight n K) (h' : IsHeight n K') : K = K' :=
  Nat.le_antisymm (h.2 _ h'.1) (h'.2 _ h.1)

theorem inTree_leaf {K j : Nat} : InTree K 0 j ↔ j < 2 ^ K := by
  unfold InTree; simp

theorem ancestors_mem {k i d : Nat} : ∀ x, x ∈ (ancestors k i d).map (fun p => node p.1 p.2) ↔
    ∃ e, 1 ≤ e ∧ e ≤ d ∧ x = node (k + e) (i / 2 ^ e) := by
  induction d generalizing k i with
  | zero => intro x; simp [ancestors]; omega
  | succ d ih =>
    intro x
    simp only [ancestors, List.map_cons, List.mem_cons, ih]
    constructor
    · rintro (rfl | ⟨e, h1, h2, rfl⟩)
      · exact ⟨1, by omega, by omega, by simp⟩
      · refine ⟨e + 1, by omega, by omega, ?_⟩
        rw [Nat.div_div_eq_div_mul, ← Nat.pow_succ', show k + 1 + e = k + (e + 1) by omega]
    · rintro ⟨e, h1, h2, rfl⟩
      by_cases he : e = 1
      · left; subst he; simp
      · right
        refine ⟨e - 1, by omega, by omega, ?_⟩
        rw [Nat.div_div_eq_div_mul, ← Nat.pow_succ', show k + 1 + (e - 1) = k + e by omega,
          show (e - 1).succ = e by omega]

theorem ancestors_nodup {k i d : Nat} : ((ancestors k i d).map fun p => node p.1 p.2).Nodup := by
  induction d generalizing k i with
  | zero => simp [ancestors]
  | succ d ih =>
    simp only [ancestors, List.map_cons, List.nodup_cons]
    refine ⟨fun h => ?_, ih⟩
    obtain ⟨e, h1, h2, h3⟩ := (ancestors_mem _).1 h
    have := (node_inj h3).1
    omega

/-- The path of a leaf inside the tree. -/
def pathOf (K j : Nat) : List Nat := (ancestors 0 j K).map fun p => node p.1 p.2

theorem mem_pathOf {K j x : Nat} : x ∈ pathOf K j ↔ above K j x := by
  unfold pathOf above
  rw [ancestors_mem]
  simp only [Nat.zero_add]

theorem pathOf_nodup {K j : Nat} : (pathOf K j).Nodup := ancestors_nodup

theorem direct_path_leaf {n K j : Nat} (h0 : 0 < n) (hn : n ≤ 2 ^ 31) (hK : IsHeight n K) (hj : j < 2 ^ K) :
    directPathLoop n 34 (2 * j) = .ok (pathOf K j) := by
  have := isHeight_unique hK (isHeight_height h0)
  subst this
  have := direct_path_inTree h0 hn (inTree_leaf.2 hj)
  rw [node_zero] at this
  exact this

theorem direct_path_leaf_out {n K j : Nat} (h0 : 0 < n) (hn : n ≤ 2 ^ 31) (hK : IsHeight n K) (hj : 2 ^ K ≤ j) :
    directPathLoop n 34 (2 * j) = .fault .panic := by
  have := isHeight_unique hK (isHeight_height h0)
  subst this
  have := direct_path_out (k := 0) (i := j) h0 hn (fun h => by have := inTree_leaf.1 h; omega)
  rw [node_zero] at this
  exact this

theorem above_ne_leaf {K j x : Nat} (h : above K j x) (i : Nat) : x ≠ 2 * i := by
  obtain ⟨k, h1, h2, rfl⟩ := h
  intro hc
  rw [← node_zero] at hc
  have := (node_inj hc).1
  omega

/-! ### walking up -/

theorem walkUp_ok {σ : Type} {n : Nat} (f : σ → Nat → σ) :
    ∀ fuel x path, directPathLoop n fuel x = .ok path →
      ∀ s, walkUp n (fun s _ p => .ok (f s p)) fuel x s = .ok (path.foldl f s) := by
  intro fuel
  induction fuel with
  | zero => intro x path h; cases h
  | succ fuel ih =>
    intro x path h s
    unfold directPathLoop at h
    unfold walkUp
    cases hp : parent n x with
    | err e => rw [hp] at h; cases h
    | fault e => rw [hp] at h; cases h
    | ok o =>
      rw [hp] at h
      cases o with
      | none => cases h; rfl
      | some p =>
        cases hd : directPathLoop n fuel p with
        | err e => simp [hd] at h
        | fault e => simp [hd] at h
        | ok ps =>
          simp [hd] at h
          subst h
          simp [ih p ps hd]

theorem walkUp_fault {σ : Type} {n : Nat} (f : σ → Nat → σ) (e : Fault) :
    ∀ fuel x, directPathLoop n fuel x = .fault e →
      ∀ s, walkUp n (fun s _ p => .ok (f s p)) fuel x s = .fault e := by
  intro fuel
  induction fuel with
  | zero => intro x h s; cases h; rfl
  | succ fuel ih =>
    intro x h s
    unfold directPathLoop at h
    unfold walkUp
    cases hp : parent n x with
    | err e => rw [hp] at h; cases h
    | fault e => rw [hp] at h; simpa using h
    | ok o =>
      rw [hp] at h
      cases o with
      | none => cases h
      | some p =>
        cases hd : directPathLoop n fuel p with
        | err e => simp [hd] at h
        | ok e => simp [hd] at h
        | fault e' =>
          simp [hd] at h
          subst h
          simp [ih p hd]

theorem foldl_blank_length (path : List Nat) (t : RatchetTree) :
    (path.foldl (fun t p => t.set p none) t).length = t.length := by
  induction path generalizing t with
  | nil => rfl
  | cons p ps ih => rw [List.foldl_cons, ih, set_length]

theorem foldl_blank_get (path : List Nat) (t : RatchetTree) (x : Nat) :
    (path.foldl (fun t p => t.set p none) t).get x = if x ∈ path then none else t.get x := by
  induction path generalizing t with
  | nil => simp
  | cons p ps ih =>
    rw [List.foldl_cons, ih, get_set]
    by_cases h1 : x ∈ ps
    · rw [if_pos h1, if_pos (List.mem_cons_of_mem _ h1)]
    · rw [if_neg h1]
      by_cases h2 : x = p
      · subst h2
        rw [if_pos List.mem_cons_self]
        by_cases h3 : x < t.length
        · rw [if_pos ⟨rfl, h3⟩]
        · rw [if_neg (fun h => h3 h.2), get_out (by omega)]
      · rw [if_neg (fun h => h2 h.1), if_neg (by simp [h1, h2])]

theorem pushUnmerged_length (li : LeafIndex) (t : RatchetTree) (p : Nat) :
    (pushUnmerged li t p).length = t.length := by
  unfold pushUnmerged
  split
  · exact set_length ..
  · rfl

theorem pushUnmerged_get (li : LeafIndex) (t : RatchetTree) (p x : Nat) :
    (pushUnmerged li t p).get x = if x = p then listed li (t.get x) else t.get x := by
  unfold pushUnmerged
  split
  · rename_i q hq
    rw [get_set]
    by_cases h : x = p
    · subst h
      rw [if_pos ⟨rfl, lt_of_get hq⟩, if_pos rfl, hq]; rfl
    · rw [if_neg (fun hc => h hc.1), if_neg h]
  · rename_i hq
    by_cases h : x = p
    · subst h
      rw [if_pos rfl]
      unfold listed
      split
      · rename_i q hq'; exact absurd hq' (hq q)
      · rfl
    · rw [if_neg h]

theorem foldl_push_length (li : LeafIndex) (path : List Nat) (t : RatchetTree) :
    (path.foldl (pushUnmerged li) t).length = t.length := by
  induction path generalizing t with
  | nil => rfl
  | cons p ps ih => rw [List.foldl_cons, ih, pushUnmerged_length]

theorem foldl_push_get (li : LeafIndex) (path : List Nat) (hn : path.Nodup) (t : RatchetTree) (x : Nat) :
    (path.foldl (pushUnmerged li) t).get x = if x ∈ path then listed li (t.get x) else t.get x := by
  induction path generalizing t with
  | nil => simp
  | cons p ps ih =>
    have hn' := List.nodup_cons.1 hn
    rw [List.foldl_cons, ih hn'.2, pushUnmerged_get]
    by_cases h1 : x ∈ ps
    · have h2 : x ≠ p := fun h => hn'.1 (h ▸ h1)
      simp [h1, h2]
    · by_cases h2 : x = p
      · subst h2; simp [h1]
      · simp [h1, h2]

/-! ### update -/

theorem update_in {t : RatchetTree} {li K : Nat} {leaf : LeafNode} (h0 : 0 < t.length)
    (hl : t.length < 4294967296) (hK : IsHeight t.num_leaves K) (hli : li < 2 ^ K) :
    ∃ t', t.update li leaf = .ok t' ∧ t'.length = t.length ∧
      ∀ x, t'.get x = if x = 2 * li ∧ 2 * li < t.length then some (.Leaf leaf)
        else if above K li x then none else t.get x := by
  obtain ⟨hn0, hn1, _⟩ := num_leaves_bounds h0 hl
  have hb : li < 2 ^ 31 := by
    have hKe := isHeight_unique hK (isHeight_height hn0)
    have := height_lt hn0 hn1
    have : 2 ^ K ≤ 2 ^ 31 := Nat.pow_le_pow_right (by omega) (by omega)
    omega
  have hnl : (t.set (2 * li) (some (.Leaf leaf))).num_leaves = t.num_leaves := by
    unfold num_leaves; rw [set_length]
  refine ⟨(pathOf K li).foldl (fun t p => t.set p none) (t.set (2 * li) (some (.Leaf leaf))), ?_, ?_, ?_⟩
  · unfold update
    rw [node_index_eq hb, Res.ok_bind]
    dsimp only
    rw [hnl, walkUp_ok (fun (t : RatchetTree) p => t.set p none) _ _ _ (direct_path_leaf hn0 hn1 hK hli)]
  · rw [foldl_blank_length, set_length]
  · intro x
    rw [foldl_blank_get, get_set]
    by_cases h : x = 2 * li ∧ 2 * li < t.length
    · rw [if_neg (fun hc => above_ne_leaf (mem_pathOf.1 hc) _ h.1), if_pos h, if_pos h]
    · rw [if_neg h, if_neg h]
      by_cases h2 : above K li x
      · rw [if_pos h2, if_pos (mem_pathOf.2 h2)]
      · rw [if_neg h2, if_neg (fun hc => h2 (mem_pathOf.1 hc))]

theorem update_out {t : RatchetTree} {li K : Nat} {leaf : LeafNode} (h0 : 0 < t.length)
    (hl : t.length < 4294967296) (hK : IsHeight t.num_leaves K) (hli : 2 ^ K ≤ li) :
    t.update li leaf = .fault .panic := by
  obtain ⟨hn0, hn1, _⟩ := num_leaves_bounds h0 hl
  unfold update
  by_cases hb : li < 2 ^ 31
  · have hnl : (t.set (2 * li) (some (.Leaf leaf))).num_leaves = t.num_leaves := by
      unfold num_leaves; rw [set_length]
    rw [node_index_eq hb, Res.ok_bind]
    dsimp only
    rw [hnl, walkUp_fault (fun (t : RatchetTree) p => t.set p none) _ _ _ (direct_path_leaf_out hn0 hn1 hK hli)]
  · rw [node_index_panic (by omega)]; rfl

/-! ### remove -/

/-- Leaf and path blanked. -/
def blanked (t : RatchetTree) (K li : Nat) : RatchetTree :=
  (pathOf K li).foldl (fun t p => t.set p none) (t.set (2 * li) none)

theorem blanked_length (t : RatchetTree) (K li : Nat) : (blanked t K li).length = t.length := by
  unfold blanked; rw [foldl_blank_length, set_length]

theorem blanked_get (t : RatchetTree) (K li x : Nat) :
    (blanked t K li).get x = if x = 2 * li ∨ above K li x then none else t.get x := by
  unfold blanked
  rw [foldl_blank_get, get_set]
  by_cases h : above K li x
  · rw [if_pos (mem_pathOf.2 h), if_pos (Or.inr h)]
  · rw [if_neg (fun hc => h (mem_pathOf.1 hc))]
    by_cases h2 : x = 2 * li
    · rw [if_pos (Or.inl h2)]
      by_cases h3 : 2 * li < t.length
      · rw [if_pos ⟨h2, h3⟩]
      · rw [if_neg (fun hc => h3 hc.2), get_out (by omega)]
    · rw [if_neg (fun hc => h2 hc.1), if_neg (by rintro (h' | h') <;> contradiction)]

/-- The scan from the last leaf down: it finds the rightmost occupied leaf `j` and the smallest power of
two above `2 * j` among the leaf positions visited. -/
theorem removeScan_some {t : RatchetTree} {j : Nat} (hj : (t.get (2 * j)).isSome = true) :
    ∀ li last, li < 2 ^ 31 → j ≤ li → (∀ i, j < i → i ≤ li → t.get (2 * i) = none) →
      ∃ L, removeScan t li last = .ok (some L) ∧
        ((L = last ∧ ∀ i k, j < i → i ≤ li → 2 * i ≠ 2 ^ k) ∨
         ∃ k, L = 2 ^ (k + 1) ∧ j < 2 ^ k ∧ 2 ^ k ≤ li ∧ ∀ i k', j < i → i ≤ li → 2 * i = 2 ^ k' → L ≤ 2 * i) := by
  intro li
  induction li with
  | zero =>
    intro last hb hle hbl
    have hj0 : j = 0 := by omega
    subst hj0
    refine ⟨last, ?_, Or.inl ⟨rfl, fun i k h1 h2 => by omega⟩⟩
    unfold removeScan
    rw [node_index_eq (by omega), Res.ok_bind, if_pos hj]; rfl
  | succ li ih =>
    intro last hb hle hbl
    unfold removeScan
    rw [node_index_eq hb, Res.ok_bind]
    by_cases hjl : j = li + 1
    · subst hjl
      refine ⟨last, ?_, Or.inl ⟨rfl, fun i k h1 h2 => by omega⟩⟩
      rw [if_pos hj]; rfl
    · rw [if_neg (by rw [hbl (li + 1) (by omega) (by omega)]; simp)]
      by_cases hp : is_power_of_two (2 * (li + 1)) = true
      · rw [if_pos hp]
        obtain ⟨k, hk⟩ := (is_power_of_two_iff _).1 hp
        obtain ⟨L, h1, h2⟩ := ih (2 * (li + 1)) (by omega) (by omega) (fun i h1 h2 => hbl i h1 (by omega))
        refine ⟨L, h1, Or.inr ?_⟩
        have hk0 : k ≠ 0 := by rintro rfl; omega
        obtain ⟨m, rfl⟩ : ∃ m, k = m + 1 := ⟨k - 1, by omega⟩
        rw [Nat.pow_succ] at hk
        rcases h2 with ⟨h3, h4⟩ | ⟨k', h3, h4, h5, h6⟩
        · refine ⟨m, by rw [h3, Nat.pow_succ]; omega, by omega, by omega, ?_⟩
          intro i k'' hi1 hi2 hi3
          by_cases hi : i = li + 1
          · subst hi; omega
          · exact absurd hi3 (h4 i k'' hi1 (by omega))
        · refine ⟨k', h3, h4, by omega, ?_⟩
          intro i k'' hi1 hi2 hi3
          by_cases hi : i = li + 1
          · subst hi; rw [h3, Nat.pow_succ]; omega
          · exact h6 i k'' hi1 (by omega) hi3
      · rw [if_neg hp]
        have hnp : ∀ k, 2 * (li + 1) ≠ 2 ^ k := fun k hk => hp ((is_power_of_two_iff _).2 ⟨k, hk⟩)
        obtain ⟨L, h1, h2⟩ := ih last (by omega) (by omega) (fun i h1 h2 => hbl i h1 (by omega))
        refine ⟨L, h1, ?_⟩
        rcases h2 with ⟨h3, h4⟩ | ⟨k', h3, h4, h5, h6⟩
        · refine Or.inl ⟨h3, fun i k hi1 hi2 => ?_⟩
          by_cases hi : i = li + 1
          · subst hi; exact hnp k
          · exact h4 i k hi1 (by omega)
        · refine Or.inr ⟨k', h3, h4, by omega, fun i k hi1 hi2 hi3 => ?_⟩
          by_cases hi : i = li + 1
          · subst hi; exact absurd hi3 (hnp k)
          · exact h6 i k hi1 (by omega) hi3

theorem removeScan_none {t : RatchetTree} :
    ∀ li last, li < 2 ^ 31 → (∀ i, i ≤ li → t.get (2 * i) = none) → removeScan t li last = .ok none := by
  intro li
  induction li with
  | zero =>
    intro last hb hbl
    unfold removeScan
    rw [node_index_eq (by omega), Res.ok_bind, hbl 0 (by omega)]; rfl
  | succ li ih =>
    intro last hb hbl
    unfold removeScan
    rw [node_index_eq hb, Res.ok_bind, hbl (li + 1) (by omega), if_neg (by simp)]
    exact ih _ (by omega) fun i hi => hbl i (by omega)

theorem num_leaves_blanked (t : RatchetTree) (K li : Nat) : (blanked t K li).num_leaves = t.num_leaves := by
  unfold num_leaves; rw [blanked_length]

theorem leaf_bound {n K j : Nat} (h0 : 0 < n) (hn : n ≤ 2 ^ 31) (hK : IsHeight n K) (hj : j < 2 ^ K) :
    j < 2 ^ 31 := by
  have hKe := isHeight_unique hK (isHeight_height h0)
  have := height_lt h0 hn
  have : 2 ^ K ≤ 2 ^ 31 := Nat.pow_le_pow_right (by omega) (by omega)
  omega

theorem remove_start {t : RatchetTree} {li K : Nat} (h0 : 0 < t.length) (hl : t.length < 4294967296)
    (hK : IsHeight t.num_leaves K) (hli : li < 2 ^ K) :
    t.remove li = (do
      match ← removeScan (blanked t K li) (t.num_leaves - 1) t.length with
      | none => pure []
      | some last => if last < t.length then pure ((blanked t K li).take last) else pure (blanked t K li)) := by
  obtain ⟨hn0, hn1, _⟩ := num_leaves_bounds h0 hl
  unfold remove
  rw [node_index_eq (leaf_bound hn0 hn1 hK hli), Res.ok_bind]
  dsimp only
  rw [walkUp_ok (fun (t : RatchetTree) p => t.set p none) _ _ _ (direct_path_leaf hn0 hn1 hK hli),
    Res.ok_bind, sub32, if_pos (show 1 ≤ t.num_leaves by omega), Res.ok_bind]
  have hb := blanked_length t K li
  unfold blanked at hb ⊢
  rw [hb]
  rfl

theorem remove_clear {t : RatchetTree} {li K : Nat} (h0 : 0 < t.length) (hl : t.length < 4294967296)
    (hK : IsHeight t.num_leaves K) (hli : li < 2 ^ K)
    (hall : ∀ i, i ≠ li → t.get (2 * i) = none) : t.remove li = .ok [] := by
  obtain ⟨hn0, hn1, _⟩ := num_leaves_bounds h0 hl
  rw [remove_start h0 hl hK hli, removeScan_none]
  · rfl
  · omega
  · intro i _
    rw [blanked_get]
    by_cases h : i = li
    · rw [if_pos (Or.inl (by omega))]
    · rw [hall i h]; split <;> rfl

theorem remove_last {t : RatchetTree} {li K j m : Nat} (h0 : 0 < t.length) (hl : t.length < 4294967296)
    (hK : IsHeight t.num_leaves K) (hli : li < 2 ^ K)
    (hj : t.get (2 * j) ≠ none) (hjl : j ≠ li) (hlast : ∀ i, j < i → i ≠ li → t.get (2 * i) = none)
    (hm : IsHeight (j + 1) m) : t.remove li = .ok ((blanked t K li).take (2 ^ (m + 1))) := by
  obtain ⟨hn0, hn1, hn2⟩ := num_leaves_bounds h0 hl
  have hjlt : 2 * j < t.length := by
    cases hg : t.get (2 * j) with
    | none => exact absurd hg hj
    | some n => exact lt_of_get hg
  have hbj : (blanked t K li).get (2 * j) = t.get (2 * j) := by
    rw [blanked_get, if_neg]
    rintro (h | h)
    · omega
    · exact above_ne_leaf h j rfl
  obtain ⟨L, h1, h2⟩ := removeScan_some (t := blanked t K li) (j := j) (by
      rw [hbj]; cases hg : t.get (2 * j) with
      | none => exact absurd hg hj
      | some n => rfl)
    (t.num_leaves - 1) t.length (by omega) (by omega) (by
      intro i hi1 hi2
      rw [blanked_get]
      by_cases h : i = li
      · rw [if_pos (Or.inl (by omega))]
      · rw [hlast i hi1 h]; split <;> rfl)
  rw [remove_start h0 hl hK hli, h1, Res.ok_bind]
  dsimp only
  have hm1 : j < 2 ^ m := by have := hm.1; omega
  have hm2 : ∀ k, j < 2 ^ k → m ≤ k := fun k hk => hm.2 k (by omega)
  rcases h2 with ⟨h3, h4⟩ | ⟨k, h3, h4, h5, h6⟩
  · subst h3
    rw [if_neg (by omega), Res.pure_eq, List.take_of_length_le]
    rw [blanked_length]
    apply Decidable.byContradiction
    intro hc
    rw [Nat.pow_succ] at hc
    exact h4 (2 ^ m) (m + 1) hm1 (by omega) (by rw [Nat.pow_succ]; omega)
  · have hkm : k = m := by
      have h7 := hm2 k h4
      have h8 := h6 (2 ^ m) (m + 1) hm1 (by
        have : 2 ^ m ≤ 2 ^ k := Nat.pow_le_pow_right (by omega) h7
        omega) (by rw [Nat.pow_succ]; omega)
      rw [h3, Nat.pow_succ] at h8
      have h9 : 2 ^ k ≤ 2 ^ m := by omega
      have := (Nat.pow_le_pow_iff_right (a := 2) (by omega)).1 h9
      omega
    subst hkm
    subst h3
    rw [if_pos]
    · rfl
    · rw [Nat.pow_succ]; omega

theorem remove_out {t : RatchetTree} {li K : Nat} (h0 : 0 < t.length) (hl : t.length < 4294967296)
    (hK : IsHeight t.num_leaves K) (hli : 2 ^ K ≤ li) : t.remove li = .fault .panic := by
  obtain ⟨hn0, hn1, _⟩ := num_leaves_bounds h0 hl
  unfold remove
  by_cases hb : li < 2 ^ 31
  · rw [node_index_eq hb, Res.ok_bind]
    dsimp only
    rw [walkUp_fault (fun (t : RatchetTree) p => t.set p none) _ _ _ (direct_path_leaf_out hn0 hn1 hK hli)]
    rfl
  · rw [node_index_panic (by omega)]; rfl

/-- The last leaf with a property. -/
theorem exists_last (P : Nat → Prop) (b : Nat) : (∀ i, i < b → ¬ P i) ∨
    ∃ j, j < b ∧ P j ∧ ∀ i, j < i → i < b → ¬ P i := by
  induction b with
  | zero => exact Or.inl fun i hi => by omega
  | succ b ih =>
    by_cases hb : P b
    · exact Or.inr ⟨b, by omega, hb, fun i h1 h2 => by omega⟩
    · rcases ih with h | ⟨j, h1, h2, h3⟩
      · refine Or.inl fun i hi => ?_
        by_cases hib : i = b
        · exact hib ▸ hb
        · exact h i (by omega)
      · refine Or.inr ⟨j, by omega, h2, fun i hi1 hi2 => ?_⟩
        by_cases hib : i = b
        · exact hib ▸ hb
        · exact h3 i hi1 (by omega)

/-- The last member other than `li`. -/
theorem last_member (t : RatchetTree) (li : Nat) : (∀ i, i ≠ li → t.get (2 * i) = none) ∨
    ∃ j, t.get (2 * j) ≠ none ∧ j ≠ li ∧ ∀ i, j < i → i ≠ li → t.get (2 * i) = none := by
  have hout : ∀ i, t.length ≤ i → t.get (2 * i) = none := fun i hi => get_out (by omega)
  rcases exists_last (fun i => i ≠ li ∧ t.get (2 * i) ≠ none) t.length with h | ⟨j, h1, h2, h3⟩
  · refine Or.inl fun i hi => ?_
    by_cases hb : i < t.length
    · exact Decidable.byContradiction fun hc => h i hb ⟨hi, hc⟩
    · exact hout i (by omega)
  · refine Or.inr ⟨j, h2.2, h2.1, fun i hi1 hi2 => ?_⟩
    by_cases hb : i < t.length
    · exact Decidable.byContradiction fun hc => h3 i hi1 hb ⟨hi2, hc⟩
    · exact hout i (by omega)

theorem exists_height {n : Nat} (h0 : 0 < n) : ∃ K, IsHeight n K := ⟨_, isHeight_height h0⟩

/-- What `remove` does, in every case: nodes right of some point are cut off, and there were no members other
than `li` there. -/
theorem remove_get {t : RatchetTree} {li K : Nat} (h0 : 0 < t.length) (hl : t.length < 4294967296)
    (hK : IsHeight t.num_leaves K) (hli : li < 2 ^ K) :
    ∃ t' c, t.remove li = .ok t' ∧ t'.length ≤ t.length ∧
      (∀ x, t'.get x = if x = 2 * li ∨ above K li x ∨ c ≤ x then none else t.get x) ∧
      ∀ i, c ≤ 2 * i → i ≠ li → t.get (2 * i) = none := by
  rcases last_member t li with h | ⟨j, h1, h2, h3⟩
  · refine ⟨[], 0, remove_clear h0 hl hK hli h, by simp, fun x => ?_, fun i _ hi => h i hi⟩
    rw [if_pos (Or.inr (Or.inr (by omega)))]; rfl
  · obtain ⟨m, hm⟩ := exists_height (n := j + 1) (by omega)
    refine ⟨_, 2 ^ (m + 1), remove_last h0 hl hK hli h1 h2 h3 hm, ?_, fun x => ?_, fun i hc hi => ?_⟩
    · rw [List.length_take, blanked_length]; omega
    · rw [get_take, blanked_get]
      by_cases hc : x < 2 ^ (m + 1)
      · rw [if_pos hc]
        have : (x = 2 * li ∨ above K li x) ↔ (x = 2 * li ∨ above K li x ∨ 2 ^ (m + 1) ≤ x) := by
          constructor
          · rintro (h | h)
            · exact Or.inl h
            · exact Or.inr (Or.inl h)
          · rintro (h | h | h)
            · exact Or.inl h
            · exact Or.inr h
            · omega
        simp only [this]
      · rw [if_neg hc, if_pos (Or.inr (Or.inr (by omega)))]
    · apply h3 i _ hi
      have := hm.1
      rw [Nat.pow_succ] at hc
      omega

/-- `remove` on the leaves. -/
theorem remove_leaves {t : RatchetTree} {li : Nat} (hl : t.length < 4294967296) (hli : 2 * li < t.length) :
    ∃ t', t.remove li = .ok t' ∧ t'.length ≤ t.length ∧
      ∀ i, t'.get (2 * i) = if i = li then none else t.get (2 * i) := by
  have h0 : 0 < t.length := by omega
  obtain ⟨hn0, hn1, hn2⟩ := num_leaves_bounds h0 hl
  obtain ⟨K, hK⟩ := exists_height hn0
  have hlK : li < 2 ^ K := by have := hK.1; omega
  obtain ⟨t', c, h1, h2, h3, h4⟩ := remove_get h0 hl hK hlK
  refine ⟨t', h1, h2, fun i => ?_⟩
  rw [h3]
  by_cases hi : i = li
  · rw [if_pos hi, if_pos (Or.inl (by omega))]
  · rw [if_neg hi]
    split
    · rename_i h
      rcases h with h | h | h
      · omega
      · exact absurd rfl (above_ne_leaf h i)
      · exact (h4 i h hi).symm
    · rfl

/-! ### add -/

theorem addSearch_found {t : RatchetTree} {j : Nat} (hj : 2 * j < t.length) (hl : t.length < 4294967296)
    (hb : t.get (2 * j) = none) (hall : ∀ i, i < j → t.get (2 * i) ≠ none) :
    ∀ fuel li, li ≤ j → j < fuel + li → addSearch t fuel li = .ok (j, true) := by
  intro fuel
  induction fuel with
  | zero => intro li h1 h2; omega
  | succ fuel ih =>
    intro li h1 h2
    unfold addSearch
    rw [node_index_eq (by omega), Res.ok_bind, if_neg (by omega)]
    by_cases h : li = j
    · subst h; rw [hb]; rfl
    · have := hall li (by omega)
      rw [if_neg (by simpa using this), add32, if_pos (by omega), Res.ok_bind]
      exact ih (li + 1) (by omega) (by omega)

theorem addSearch_full {t : RatchetTree} {n : Nat} (hn : t.length ≤ 2 * n) (hn' : n ≤ 2 ^ 31 - 1)
    (hall : ∀ i, i < n → 2 * i < t.length ∧ t.get (2 * i) ≠ none) :
    ∀ fuel li, li ≤ n → n < fuel + li → addSearch t fuel li = .ok (n, false) := by
  intro fuel
  induction fuel with
  | zero => intro li h1 h2; omega
  | succ fuel ih =>
    intro li h1 h2
    unfold addSearch
    rw [node_index_eq (by omega), Res.ok_bind]
    by_cases h : li = n
    · subst h; rw [if_pos hn]; rfl
    · have := hall li (by omega)
      rw [if_neg (by omega), if_neg (by simpa using this.2), add32, if_pos (by omega), Res.ok_bind]
      exact ih (li + 1) (by omega) (by omega)

theorem add_place {t : RatchetTree} {j K : Nat} {leaf : LeafNode} (h0 : 0 < t.length)
    (hl : t.length < 4294967296) (hK : IsHeight t.num_leaves K) (hj : j < 2 ^ K) (hjl : 2 * j < t.length) :
    ∃ t', (do
        let t ← walkUp t.num_leaves (fun t _ p => .ok (pushUnmerged (UInt32.ofNat j) t p)) 34 (2 * j) t
        pure (t.set (2 * j) (some (.Leaf leaf)))) = Res.ok t' ∧ t'.length = t.length ∧
      ∀ x, t'.get x = if x = 2 * j then some (.Leaf leaf)
        else if above K j x then listed (UInt32.ofNat j) (t.get x) else t.get x := by
  obtain ⟨hn0, hn1, _⟩ := num_leaves_bounds h0 hl
  refine ⟨((pathOf K j).foldl (pushUnmerged (UInt32.ofNat j)) t).set (2 * j) (some (.Leaf leaf)), ?_, ?_, ?_⟩
  · rw [walkUp_ok (pushUnmerged (UInt32.ofNat j)) _ _ _ (direct_path_leaf hn0 hn1 hK hj)]
    rfl
  · rw [set_length, foldl_push_length]
  · intro x
    rw [get_set, foldl_push_length, foldl_push_get _ _ pathOf_nodup]
    by_cases h : x = 2 * j
    · rw [if_pos ⟨h, hjl⟩, if_pos h]
    · rw [if_neg (fun hc => h hc.1), if_neg h]
      by_cases h2 : above K j x
      · rw [if_pos h2, if_pos (mem_pathOf.2 h2)]
      · rw [if_neg h2, if_neg (fun hc => h2 (mem_pathOf.1 hc))]

theorem leaf_in_tree {t : RatchetTree} {j K : Nat} (h0 : 0 < t.length) (hl : t.length < 4294967296)
    (hK : IsHeight t.num_leaves K) (hj : 2 * j < t.length) : j < 2 ^ K := by
  obtain ⟨hn0, hn1, hn2⟩ := num_leaves_bounds h0 hl
  have := hK.1
  omega

theorem add_free {t : RatchetTree} {j K : Nat} {leaf : LeafNode} (hl : t.length < 4294967296)
    (hK : IsHeight t.num_leaves K) (hj : 2 * j < t.length) (hb : t.get (2 * j) = none)
    (hall : ∀ i, i < j → t.get (2 * i) ≠ none) :
    ∃ t', t.add leaf = .ok t' ∧ t'.length = t.length ∧
      ∀ x, t'.get x = if x = 2 * j then some (.Leaf leaf)
        else if above K j x then listed (UInt32.ofNat j) (t.get x) else t.get x := by
  have h0 : 0 < t.length := by omega
  obtain ⟨t', h1, h2, h3⟩ := add_place (leaf := leaf) h0 hl hK (leaf_in_tree h0 hl hK hj) hj
  refine ⟨t', ?_, h2, h3⟩
  unfold add
  rw [addSearch_found hj hl hb hall _ _ (by omega) (by omega), Res.ok_bind]
  dsimp only
  rw [if_pos rfl, node_index_eq (by omega), Res.ok_bind]
  simpa using h1

theorem add_grow {t : RatchetTree} {n K : Nat} {leaf : LeafNode} (hlen : t.length + 1 = 2 * n)
    (_h0 : 0 < t.length) (hl : t.length < 2 ^ 31) (hK : IsHeight (2 * n) K)
    (hall : ∀ i, i < n → t.get (2 * i) ≠ none) :
    ∃ t', t.add leaf = .ok t' ∧ t'.length = 2 * t.length + 1 ∧
      ∀ x, t'.get x = if x = 2 * n then some (.Leaf leaf)
        else if above K n x then listed (UInt32.ofNat n) (t.get x) else t.get x := by
  have hlen2 : ((t.length + 1) * 2 - 1 - t.length) = t.length + 1 := by omega
  have hlen3 : (t ++ List.replicate (t.length + 1) none : RatchetTree).length = 2 * t.length + 1 := by
    simp; omega
  have hnl : RatchetTree.num_leaves (t ++ List.replicate (t.length + 1) none) = 2 * n := by
    rw [(num_leaves_bounds (by omega) (by omega)).2.2, hlen3]; omega
  have hK' := hK
  rw [← hnl] at hK'
  obtain ⟨t', h1, h2, h3⟩ := add_place (t := t ++ List.replicate (t.length + 1) none) (leaf := leaf)
    (by omega) (by omega) hK' (j := n) (by have := hK.1; omega) (by omega)
  refine ⟨t', ?_, by rw [h2, hlen3], ?_⟩
  · unfold add
    rw [addSearch_full (n := n) (by omega) (by omega) (fun i hi => ⟨by omega, hall i hi⟩) _ _ (by omega)
      (by omega), Res.ok_bind]
    dsimp only
    rw [cast32_eq (by omega), add32, if_pos (show t.length + 1 < 4294967296 by omega), hlen2,
      show t.length + 1 = 2 * n from hlen]
    rw [hlen] at h1
    simpa using h1
  · intro x
    rw [h3, get_pad]

/-- On an array of even size the new leaf goes to an inner node. -/
theorem add_even {t : RatchetTree} {m : Nat} {leaf : LeafNode} (hlen : t.length = 2 * m) (h0 : 0 < m)
    (hl : t.length < 2 ^ 31) (hall : ∀ i, i < m → t.get (2 * i) ≠ none) :
    ∃ t', t.add leaf = .ok t' ∧ t'.length = 2 * t.length + 1 ∧ t'.get (t.length + 1) = some (.Leaf leaf) ∧
      ∀ i, t'.get (2 * i) = t.get (2 * i) := by
  have hlen2 : ((t.length + 1) * 2 - 1 - t.length) = t.length + 1 := by omega
  have hlen3 : (t ++ List.replicate (t.length + 1) none : RatchetTree).length = 2 * t.length + 1 := by
    simp; omega
  have hnl : RatchetTree.num_leaves (t ++ List.replicate (t.length + 1) none) = t.length + 1 := by
    rw [(num_leaves_bounds (by omega) (by omega)).2.2, hlen3]; omega
  obtain ⟨k, i, hki⟩ := node_surj (t.length + 1)
  have hk : 1 ≤ k := by
    apply Decidable.byContradiction
    intro hc
    have : k = 0 := by omega
    subst this
    rw [node_zero] at hki; omega
  have hin : InTree (height (t.length + 1)) k i := by
    rw [inTree_iff, ← hki]
    have h1 := (height_bounds (n := t.length + 1) (by omega)).2
    have h2 := node_add_one (height (t.length + 1)) 0
    omega
  have hpath := direct_path_inTree (by omega) (by omega) hin
  unfold direct_path at hpath
  rw [← hki] at hpath
  generalize hps : (ancestors k i (height (t.length + 1) - k)).map (fun p => node p.1 p.2) = ps at hpath
  have hodd : ∀ j, 2 * j ∉ ps := by
    intro j hj
    rw [← hps] at hj
    obtain ⟨e, h1, h2, h3⟩ := (ancestors_mem _).1 hj
    rw [← node_zero] at h3
    have := (node_inj h3).1
    omega
  have hnd : ps.Nodup := hps ▸ ancestors_nodup
  refine ⟨(ps.foldl (pushUnmerged (UInt32.ofNat m)) (t ++ List.replicate (t.length + 1) none)).set (t.length + 1)
    (some (.Leaf leaf)), ?_, ?_, ?_, ?_⟩
  · unfold add
    rw [addSearch_full (n := m) (by omega) (by omega) (fun i hi => ⟨by omega, hall i hi⟩) _ _ (by omega)
      (by omega), Res.ok_bind]
    dsimp only
    rw [cast32_eq (by omega), add32, if_pos (show t.length + 1 < 4294967296 by omega), hlen2]
    simp only [Bool.false_eq_true, if_false, Res.ok_bind]
    rw [hnl, walkUp_ok (pushUnmerged (UInt32.ofNat m)) _ _ _ hpath]
    rfl
  · rw [set_length, foldl_push_length, hlen3]
  · rw [get_set, foldl_push_length, hlen3, if_pos ⟨rfl, by omega⟩]
  · intro j
    rw [get_set, if_neg (fun h => by omega), foldl_push_get _ _ hnd, if_neg (hodd j), get_pad]

theorem add_empty (leaf : LeafNode) : add [] leaf = .fault .panic := by
  unfold add addSearch
  rfl

/-! ### looking up leaves -/

theorem get_leaf_eq {t : RatchetTree} {i : Nat} (hi : i < 2 ^ 31) :
    t.get_leaf i = .ok (match t.get (2 * i) with | some (.Leaf n) => some n | _ => none) := by
  unfold get_leaf
  rw [node_index_eq hi, Res.ok_bind]
  split <;> simp_all

end RatchetTree
end Rmls
