import Verif.Props.TreeChecks
import Verif.Props.Proposal
import Verif.Props.Onward
/-
Property C102: the order of the proposals of a commit.
-/
namespace Rmls
open Spec RatchetTree

/-- Two trees with the same slots. -/
theorem tree_ext {t u : RatchetTree} (hl : t.length = u.length) (h : ∀ x, t.get x = u.get x) : t = u := by
  refine List.ext_getElem hl fun i h1 h2 => ?_
  have := h i
  unfold RatchetTree.get at this
  rw [List.getElem?_eq_getElem h1, List.getElem?_eq_getElem h2] at this
  simpa using this

private theorem res_assoc {α β γ : Type} (x : Res α) (f : α → Res β) (g : β → Res γ) :
    (x >>= f >>= g) = (x >>= fun a => f a >>= g) := by cases x <;> rfl

/-- Steps that commute in pairs may be done in any order. -/
theorem foldlM_perm {α β : Type} (f : α → β → Res α) (I : List β → α → Prop)
    (perm : ∀ l l' s, l.Perm l' → I l s → I l' s)
    (step : ∀ x l s s', I (x :: l) s → f s x = .ok s' → I l s')
    (swap : ∀ x y l s, I (x :: y :: l) s → (f s x >>= fun a => f a y) = (f s y >>= fun a => f a x))
    {l l' : List β} (h : l.Perm l') : ∀ s, I l s → l.foldlM f s = l'.foldlM f s := by
  induction h with
  | nil => intro s _; rfl
  | cons x h ih =>
    intro s hI
    rw [List.foldlM_cons, List.foldlM_cons]
    cases hx : f s x with
    | ok s' => exact ih s' (step x _ s s' hI hx)
    | err e => rfl
    | fault g => rfl
  | swap x y l =>
    intro s hI
    simp only [List.foldlM_cons]
    rw [← res_assoc, ← res_assoc, swap y x l s hI]
  | trans h1 _ ih1 ih2 =>
    intro s hI
    rw [ih1 s hI, ih2 s (perm _ _ s h1 hI)]

theorem height_of_cut {L m K : Nat} (hK : IsHeight ((L + 1) / 2) K) (h : L = 2 ^ (m + 1)) : K = m := by
  refine isHeight_unique hK ?_
  have hp := Nat.two_pow_pos m
  have he : (L + 1) / 2 = 2 ^ m := by rw [h, Nat.pow_succ]; omega
  rw [he]
  refine ⟨Nat.le_refl _, fun j hj => ?_⟩
  exact (Nat.pow_le_pow_iff_right (by omega)).1 hj

/-- The slot right of the tree is blank, in a tree all of whose inner nodes are used on both sides. -/
theorem top_blank {t : RatchetTree} {K k i : Nat} (hK : IsHeight ((t.length + 1) / 2) K) (hb : BothUsed t.get) {n : Node}
    (h : t.get (node (k + 1) i) = some n) : k + 1 ≤ K := by
  obtain ⟨_, j, h1, h2⟩ := hb k i n h
  refine Decidable.byContradiction fun hc => ?_
  have hlt : 2 * j < t.length := by
    refine Decidable.byContradiction fun hc => h2 ?_
    rw [node_zero]
    exact get_out (by omega)
  have hp : 2 ^ K ≤ 2 ^ k := Nat.pow_le_pow_right (by omega) (by omega)
  have h3 := h1.1
  have h4 : 2 ^ k ≤ (2 * i + 1) * 2 ^ k := Nat.le_mul_of_pos_left _ (by omega)
  have := hK.1
  omega

theorem isHeight_mono {a b m n : Nat} (h : a ≤ b) (hm : IsHeight a m) (hn : IsHeight b n) : m ≤ n :=
  hm.2 n (Nat.le_trans h hn.1)

/-- What the removal of two members leaves. -/
theorem remove_two {t : RatchetTree} {a b K : Nat} (hl : t.length < 2 ^ 32) (hb : BothUsed t.get)
    (hK : IsHeight ((t.length + 1) / 2) K) (ha : t.get (2 * a) ≠ none) (hb' : t.get (2 * b) ≠ none) (hab : a ≠ b)
    {j m : Nat} (hj : t.get (2 * j) ≠ none) (hja : j ≠ a) (hjb : j ≠ b)
    (hlast : ∀ i, j < i → i ≠ a → i ≠ b → t.get (2 * i) = none) (hm : IsHeight (j + 1) m) :
    ∃ t1 u, t.remove a = .ok t1 ∧ t1.remove b = .ok u ∧ u.length = min t.length (2 ^ (m + 1)) ∧
      ∀ x, u.get x = if x = 2 * a ∨ x = 2 * b ∨ above K a x ∨ above K b x ∨ 2 ^ (m + 1) ≤ x then none else t.get x := by
  have inside : ∀ {i}, t.get (2 * i) ≠ none → 2 * i < t.length := fun {i} h =>
    Decidable.byContradiction fun hc => h (get_out (by omega))
  -- the last member other than `a`
  obtain ⟨q, hq1, hq2, hq3, hqj, hqb⟩ : ∃ q, t.get (2 * q) ≠ none ∧ q ≠ a ∧
      (∀ i, q < i → i ≠ a → t.get (2 * i) = none) ∧ j ≤ q ∧ b ≤ q := by
    by_cases h : b < j
    · exact ⟨j, hj, hja, fun i h1 h2 => hlast i h1 h2 (by omega), by omega, by omega⟩
    · exact ⟨b, hb', fun h => hab h.symm, fun i h1 h2 => hlast i (by omega) h2 (by omega), by omega, by omega⟩
  obtain ⟨r, hr⟩ := exists_height (n := q + 1) (by omega)
  have hmr := isHeight_mono (by omega) hm hr
  have hpow : 2 ^ (m + 1) ≤ 2 ^ (r + 1) := Nat.pow_le_pow_right (by omega) (by omega)
  have hr1 := hr.1
  have hr2 : 2 ^ (r + 1) = 2 * 2 ^ r := by rw [Nat.pow_succ]; omega
  obtain ⟨t1, s1, s2, _, s3⟩ := C15_remove_partial t a K q r hl hK (inside ha) hq1 hq2 hq3 hr
  have leaf1 : ∀ i, t1.get (2 * i) = if i = a ∨ 2 ^ (r + 1) ≤ 2 * i then none else t.get (2 * i) := by
    intro i
    rw [s3]
    refine ite_congr (propext ⟨?_, ?_⟩) (fun _ => rfl) fun _ => rfl
    · rintro (h | h | h)
      · exact Or.inl (by omega)
      · exact absurd rfl (above_ne_leaf h i)
      · exact Or.inr h
    · rintro (h | h)
      · exact Or.inl (by omega)
      · exact Or.inr (Or.inr h)
  have hin1 : 2 * b < t1.length := by rw [s2]; have := inside hb'; omega
  obtain ⟨K1, hK1⟩ := exists_height (n := (t1.length + 1) / 2) (by omega)
  have hKK : (t1.length = t.length ∧ K1 = K) ∨ (K1 = r ∧ r < K) := by
    by_cases h : t.length ≤ 2 ^ (r + 1)
    · rw [Nat.min_eq_left h] at s2
      rw [s2] at hK1
      exact Or.inl ⟨s2, isHeight_unique hK1 hK⟩
    · rw [Nat.min_eq_right (by omega)] at s2
      refine Or.inr ⟨height_of_cut hK1 s2, ?_⟩
      have := hK.1
      have hlt : 2 ^ r < 2 ^ K := by omega
      exact (Nat.pow_lt_pow_iff_right (by omega)).1 hlt
  obtain ⟨u, v1, v2, _, v3⟩ := C15_remove_partial t1 b K1 j m (by omega) hK1 hin1
    (by rw [leaf1, if_neg (by omega)]; exact hj) hjb
    (fun i h1 h2 => by
      rw [leaf1]
      split
      · rfl
      · rename_i h
        exact hlast i h1 (fun hc => h (Or.inl hc)) h2) hm
  refine ⟨t1, u, s1, v1, by rw [v2, s2]; omega, fun x => ?_⟩
  rw [v3, s3]
  by_cases h1 : x = 2 * a ∨ x = 2 * b ∨ above K a x ∨ 2 ^ (m + 1) ≤ x
  · rw [if_pos (c := x = 2 * a ∨ x = 2 * b ∨ above K a x ∨ above K b x ∨ 2 ^ (m + 1) ≤ x)
      (by rcases h1 with h | h | h | h <;> simp [h])]
    split
    · rfl
    · rename_i h2
      rw [if_pos]
      rcases h1 with h | h | h | h
      · exact Or.inl h
      · exact absurd (Or.inl h) h2
      · exact Or.inr (Or.inl h)
      · exact absurd (Or.inr (Or.inr h)) h2
  · have n1 : x ≠ 2 * a := fun h => h1 (Or.inl h)
    have n2 : x ≠ 2 * b := fun h => h1 (Or.inr (Or.inl h))
    have n3 : ¬ above K a x := fun h => h1 (Or.inr (Or.inr (Or.inl h)))
    have n4 : ¬ 2 ^ (m + 1) ≤ x := fun h => h1 (Or.inr (Or.inr (Or.inr h)))
    have n5 : ¬ 2 ^ (r + 1) ≤ x := by omega
    simp only [n1, n2, n3, n4, n5, false_or, or_false, if_false]
    by_cases h2 : above K b x
    · rw [if_pos h2]
      split
      · rfl
      · rename_i h3
        obtain ⟨k, k1, k2, rfl⟩ := h2
        rcases hKK with ⟨_, rfl⟩ | ⟨rfl, hlt⟩
        · exact absurd ⟨k, k1, k2, rfl⟩ h3
        · have hk : K1 < k := Decidable.byContradiction fun hc => h3 ⟨k, k1, by omega, rfl⟩
          have hpk : 2 ^ K1 ≤ 2 ^ k := Nat.pow_le_pow_right (by omega) (by omega)
          have hz : b / 2 ^ k = 0 := Nat.div_eq_of_lt (by omega)
          rw [hz] at n3 n4 ⊢
          have hnode : node k 0 + 1 = 2 ^ k := by unfold node; have := Nat.two_pow_pos k; omega
          have hkr : k = K1 + 1 := by
            have : 2 ^ k < 2 ^ (K1 + 2) := by rw [Nat.pow_succ 2 (K1 + 1)]; have := Nat.two_pow_pos K1; omega
            have := (Nat.pow_lt_pow_iff_right (by omega)).1 this
            omega
          subst hkr
          cases hg : t.get (node (K1 + 1) 0) with
          | none => rfl
          | some n =>
            exfalso
            obtain ⟨_, i, i1, i2⟩ := hb K1 0 n hg
            rw [node_zero] at i2
            have i3 := i1.1
            have hia : i = a := Decidable.byContradiction fun hc => i2 (hq3 i (by omega) hc)
            subst hia
            refine n3 ⟨K1 + 1, by omega, by omega, ?_⟩
            have i4 := i1.2
            rw [Nat.div_eq_of_lt (by omega)]
    · rw [if_neg h2, if_neg]
      rintro ⟨k, k1, k2, k3⟩
      refine h2 ⟨k, k1, ?_, k3⟩
      rcases hKK with ⟨_, rfl⟩ | ⟨rfl, hlt⟩ <;> omega

/-- C102: two members can be removed in either order. -/
theorem remove_swap {t : RatchetTree} {a b : Nat} (hl : t.length < 2 ^ 32) (hb : BothUsed t.get)
    (ha : t.get (2 * a) ≠ none) (hb' : t.get (2 * b) ≠ none) (hab : a ≠ b) :
    (t.remove a >>= fun u => u.remove b) = (t.remove b >>= fun u => u.remove a) := by
  have inside : ∀ {i}, t.get (2 * i) ≠ none → 2 * i < t.length := fun {i} h =>
    Decidable.byContradiction fun hc => h (get_out (by omega))
  obtain ⟨K, hK⟩ := exists_height (n := (t.length + 1) / 2) (by have := inside ha; omega)
  rcases exists_last (fun i => i ≠ a ∧ i ≠ b ∧ t.get (2 * i) ≠ none) t.length with h | ⟨j, h1, ⟨h2, h3, h4⟩, h5⟩
  · have only : ∀ i, i ≠ a → i ≠ b → t.get (2 * i) = none := by
      intro i h1 h2
      refine Decidable.byContradiction fun hc => h i (by have := inside hc; omega) ⟨h1, h2, hc⟩
    have one : ∀ {a b : Nat}, t.get (2 * a) ≠ none → t.get (2 * b) ≠ none → a ≠ b →
        (∀ i, i ≠ a → i ≠ b → t.get (2 * i) = none) → (t.remove a >>= fun u => u.remove b) = .ok [] := by
      intro a b ha hb hab only
      obtain ⟨t1, g1, g2, g3⟩ := remove_leaves hl (inside ha)
      rw [g1, Res.ok_bind]
      refine C15_remove_last_member t1 b (by omega) ?_ fun i hi => ?_
      · refine Decidable.byContradiction fun hc => ?_
        have := g3 b
        rw [get_out (by omega), if_neg (fun h => hab h.symm)] at this
        exact hb this.symm
      · rw [g3]
        split
        · rfl
        · rename_i h; exact only i h hi
    rw [one ha hb' hab only, one hb' ha (fun h => hab h.symm) fun i h1 h2 => only i h2 h1]
  · obtain ⟨m, hm⟩ := exists_height (n := j + 1) (by omega)
    have hlast : ∀ i, j < i → i ≠ a → i ≠ b → t.get (2 * i) = none := by
      intro i i1 i2 i3
      refine Decidable.byContradiction fun hc => h5 i i1 (by have := inside hc; omega) ⟨i2, i3, hc⟩
    obtain ⟨t1, u, r1, r2, r3, r4⟩ := remove_two hl hb hK ha hb' hab h4 h2 h3 hlast hm
    obtain ⟨t2, v, s1, s2, s3, s4⟩ := remove_two hl hb hK hb' ha (fun h => hab h.symm) h4 h3 h2
      (fun i i1 i2 i3 => hlast i i1 i3 i2) hm
    rw [r1, s1, Res.ok_bind, Res.ok_bind, r2, s2]
    congr 1
    refine tree_ext (by rw [r3, s3]) fun x => ?_
    rw [r4, s4]
    refine ite_congr (propext ⟨?_, ?_⟩) (fun _ => rfl) fun _ => rfl
    · rintro (h | h | h | h | h) <;> simp [h]
    · rintro (h | h | h | h | h) <;> simp [h]

/-- The removal of a member keeps the inner nodes used on both sides. -/
theorem remove_both {t t' : RatchetTree} {a : Nat} (hl : t.length < 2 ^ 32) (hb : BothUsed t.get)
    (ha : t.get (2 * a) ≠ none) (h : t.remove a = .ok t') :
    t'.length ≤ t.length ∧ BothUsed t'.get ∧ ∀ i, i ≠ a → t'.get (2 * i) = t.get (2 * i) := by
  have hin : 2 * a < t.length := Decidable.byContradiction fun hc => ha (get_out (by omega))
  obtain ⟨t2, q1, q2, q3⟩ := remove_leaves hl hin
  rw [h] at q1
  cases q1
  have h0 : 0 < t.length := by omega
  obtain ⟨K, hK⟩ := exists_height (n := (t.length + 1) / 2) (by omega)
  have hK' : IsHeight t.num_leaves K := by rw [room h0 hl]; exact hK
  obtain ⟨t2, c, p1, _, p3, _⟩ := remove_get h0 hl hK' (leaf_in_tree h0 hl hK' hin)
  rw [h] at p1
  cases p1
  refine ⟨q2, ?_, fun i hi => by rw [q3, if_neg hi]⟩
  intro k i n hn
  rw [p3] at hn
  split at hn
  · cases hn
  rename_i hno
  have hK1 := top_blank hK hb hn
  obtain ⟨⟨l, l1, l2⟩, r, r1, r2⟩ := hb k i n hn
  have ne : ∀ j, below (k + 1) i j → j ≠ a := by
    rintro j hj rfl
    exact hno (Or.inr (Or.inl (above_node.2 ⟨by omega, hK1, hj⟩)))
  refine ⟨⟨l, l1, ?_⟩, r, r1, ?_⟩
  · rw [node_zero, q3, if_neg (ne l (below_child (by omega) l1)), ← node_zero]; exact l2
  · rw [node_zero, q3, if_neg (ne r (below_child (by omega) r1)), ← node_zero]; exact r2

/-- C102: members are removed in any order. -/
theorem C102_removes_partial (t : RatchetTree) (l l' : List Nat) (hl : t.length < 2 ^ 32) (hb : BothUsed t.get)
    (hm : ∀ i ∈ l, t.get (2 * i) ≠ none) (hd : l.Nodup) (hp : l.Perm l') :
    l.foldlM (fun t i => t.remove i) t = l'.foldlM (fun t i => t.remove i) t := by
  refine foldlM_perm (fun t i => t.remove i)
    (fun l t => t.length < 2 ^ 32 ∧ BothUsed t.get ∧ (∀ i ∈ l, t.get (2 * i) ≠ none) ∧ l.Nodup) ?_ ?_ ?_ hp t
    ⟨hl, hb, hm, hd⟩
  · rintro l l' s hp ⟨h1, h2, h3, h4⟩
    exact ⟨h1, h2, fun i hi => h3 i (hp.mem_iff.2 hi), hp.nodup_iff.1 h4⟩
  · rintro x l s s' ⟨h1, h2, h3, h4⟩ h
    obtain ⟨g1, g2, g3⟩ := remove_both h1 h2 (h3 x (List.mem_cons_self ..)) h
    rw [List.nodup_cons] at h4
    refine ⟨by omega, g2, fun i hi => ?_, h4.2⟩
    rw [g3 i (fun hc => h4.1 (hc ▸ hi))]
    exact h3 i (List.mem_cons_of_mem _ hi)
  · rintro x y l s ⟨h1, h2, h3, h4⟩
    rw [List.nodup_cons] at h4
    exact remove_swap h1 h2 (h3 x (List.mem_cons_self ..)) (h3 y (List.mem_cons_of_mem _ (List.mem_cons_self ..)))
      (fun hc => h4.1 (hc ▸ List.mem_cons_self ..))

/-- C102: two leaves can be replaced in either order. -/
theorem update_swap {t : RatchetTree} {a b : Nat} {p q : LeafNode} (hl : t.length < 2 ^ 32)
    (ha : 2 * a < t.length) (hb : 2 * b < t.length) (hab : a ≠ b) :
    (t.update a p >>= fun u => u.update b q) = (t.update b q >>= fun u => u.update a p) := by
  obtain ⟨K, hK⟩ := exists_height (n := (t.length + 1) / 2) (by omega)
  have one : ∀ {a b : Nat} {p q : LeafNode}, 2 * a < t.length → 2 * b < t.length → a ≠ b →
      ∃ u, (t.update a p >>= fun u => u.update b q) = .ok u ∧ u.length = t.length ∧
        ∀ x, u.get x = if x = 2 * b then some (.Leaf q) else if x = 2 * a then some (.Leaf p)
          else if above K a x ∨ above K b x then none else t.get x := by
    intro a b p q ha hb hab
    obtain ⟨t1, r1, r2, r3⟩ := C14_update t p a K hl hK ha
    obtain ⟨u, s1, s2, s3⟩ := C14_update t1 q b K (by omega) (by rw [r2]; exact hK) (by omega)
    refine ⟨u, by rw [r1, Res.ok_bind, s1], by omega, fun x => ?_⟩
    rw [s3, r3]
    by_cases h1 : x = 2 * b
    · rw [if_pos h1, if_pos h1]
    · rw [if_neg h1, if_neg h1]
      by_cases h2 : above K b x
      · rw [if_pos h2, if_neg (above_ne_leaf h2 a), if_pos (Or.inr h2)]
      · rw [if_neg h2]
        simp only [h2, or_false]
  obtain ⟨u, u1, u2, u3⟩ := one (p := p) (q := q) ha hb hab
  obtain ⟨v, v1, v2, v3⟩ := one (p := q) (q := p) hb ha (fun h => hab h.symm)
  rw [u1, v1]
  congr 1
  refine tree_ext (by omega) fun x => ?_
  rw [u3, v3]
  simp only [or_comm (a := above K a x)]
  by_cases h1 : x = 2 * b
  · rw [if_pos h1, if_neg (by omega), if_pos h1]
  · rw [if_neg h1, if_neg (c := x = 2 * b) h1]

/-- C102: leaves are replaced in any order. -/
theorem C102_updates (t : RatchetTree) (l l' : List (Nat × LeafNode)) (hl : t.length < 2 ^ 32)
    (hm : ∀ u ∈ l, 2 * u.1 < t.length) (hd : (l.map (·.1)).Nodup) (hp : l.Perm l') :
    l.foldlM (fun t u => t.update u.1 u.2) t = l'.foldlM (fun t u => t.update u.1 u.2) t := by
  refine foldlM_perm (fun t u => t.update u.1 u.2)
    (fun l t => t.length < 2 ^ 32 ∧ (∀ u ∈ l, 2 * u.1 < t.length) ∧ (l.map (·.1)).Nodup) ?_ ?_ ?_ hp t ⟨hl, hm, hd⟩
  · rintro l l' s hp ⟨h1, h3, h4⟩
    exact ⟨h1, fun i hi => h3 i (hp.mem_iff.2 hi), (hp.map _).nodup_iff.1 h4⟩
  · rintro x l s s' ⟨h1, h3, h4⟩ h
    have hx := h3 x (List.mem_cons_self ..)
    obtain ⟨K, hK⟩ := exists_height (n := (s.length + 1) / 2) (by omega)
    obtain ⟨t1, r1, r2, _⟩ := C14_update s x.2 x.1 K h1 hK hx
    rw [r1] at h
    cases h
    rw [List.map_cons, List.nodup_cons] at h4
    exact ⟨by omega, fun i hi => by rw [r2]; exact h3 i (List.mem_cons_of_mem _ hi), h4.2⟩
  · rintro x y l s ⟨h1, h3, h4⟩
    rw [List.map_cons, List.nodup_cons] at h4
    exact update_swap h1 (h3 x (List.mem_cons_self ..)) (h3 y (List.mem_cons_of_mem _ (List.mem_cons_self ..)))
      (fun hc => h4.1 (hc ▸ List.mem_cons_self ..))

/-- Replacing leaves keeps the members and the inner nodes used on both sides. -/
theorem updates_keep : ∀ (l : List (Nat × LeafNode)) (t : RatchetTree), t.length < 2 ^ 32 → BothUsed t.get →
    (∀ u ∈ l, 2 * u.1 < t.length) → ∃ t', l.foldlM (fun t u => t.update u.1 u.2) t = .ok t' ∧
      t'.length = t.length ∧ BothUsed t'.get ∧ ∀ i, t.get (2 * i) ≠ none → t'.get (2 * i) ≠ none := by
  intro l
  induction l with
  | nil => intro t _ hb _; exact ⟨t, rfl, rfl, hb, fun _ h => h⟩
  | cons u l ih =>
    intro t hl hb hm
    have hu := hm u (List.mem_cons_self ..)
    obtain ⟨K, hK⟩ := exists_height (n := (t.length + 1) / 2) (by omega)
    obtain ⟨t1, r1, r2, r3⟩ := C14_update t u.2 u.1 K hl hK hu
    have keep : ∀ i, t.get (2 * i) ≠ none → t1.get (2 * i) ≠ none := by
      intro i hi
      rw [r3]
      split
      · exact nofun
      · rw [if_neg (fun h => above_ne_leaf h i rfl)]; exact hi
    have hb1 : BothUsed t1.get := by
      intro k i n hn
      rw [r3, if_neg (fun h => by rw [node_succ] at h; omega)] at hn
      split at hn
      · cases hn
      obtain ⟨⟨l, l1, l2⟩, r, x1, x2⟩ := hb k i n hn
      refine ⟨⟨l, l1, ?_⟩, r, x1, ?_⟩
      · rw [node_zero] at *; exact keep l l2
      · rw [node_zero] at *; exact keep r x2
    obtain ⟨t', s1, s2, s3, s4⟩ := ih t1 (by omega) hb1
      (fun v hv => by rw [r2]; exact hm v (List.mem_cons_of_mem _ hv))
    exact ⟨t', by rw [List.foldlM_cons, r1, Res.ok_bind, s1], by omega, s3, fun i hi => s4 i (keep i hi)⟩

/-- The leaf an update replaces. -/
private def updateOf : Proposal × LeafIndex → Option (Nat × LeafNode)
  | (.Update u, s) => some (s.toNat, u.leaf_node)
  | _ => none

private def removeOf : Proposal × LeafIndex → Option Nat
  | (.Remove r, _) => some r.removed.toNat
  | _ => none

private theorem updatesOf_eq (qs : List (Proposal × LeafIndex)) : updatesOf qs = qs.filterMap updateOf := by
  induction qs with
  | nil => rfl
  | cons q qs ih =>
    obtain ⟨p, s⟩ := q
    cases p <;> simp only [updatesOf, List.filterMap_cons, updateOf, ih]

private theorem removesOf_eq : ∀ (ps : List Proposal) (ss : List LeafIndex), ps.length = ss.length →
    removesOf ps = (ps.zip ss).filterMap removeOf := by
  intro ps
  induction ps with
  | nil => intro ss _; rfl
  | cons p ps ih =>
    intro ss h
    cases ss with
    | nil => cases h
    | cons s ss =>
      have := ih ss (by simpa using h)
      cases p <;> simp only [removesOf, List.zip_cons_cons, List.filterMap_cons, removeOf, this]

private theorem nodup_map_toNat {l : List LeafIndex} (h : l.Nodup) : (l.map UInt32.toNat).Nodup := by
  rw [List.Nodup, List.pairwise_map]
  exact List.Pairwise.imp (fun hne hc => hne (UInt32.toNat_inj.1 hc)) h

private theorem touched_sublists (qs : List (Proposal × LeafIndex)) :
    ((qs.filterMap updateOf).map (·.1)).Sublist ((qs.filterMap touchedLeaf).map UInt32.toNat) ∧
    (qs.filterMap removeOf).Sublist ((qs.filterMap touchedLeaf).map UInt32.toNat) := by
  induction qs with
  | nil => exact ⟨List.Sublist.refl _, List.Sublist.refl _⟩
  | cons q qs ih =>
    obtain ⟨p, s⟩ := q
    cases p <;> simp only [List.filterMap_cons, updateOf, removeOf, touchedLeaf, List.map_cons]
    case Update => exact ⟨ih.1.cons_cons _, ih.2.cons _⟩
    case Remove => exact ⟨ih.1.cons _, ih.2.cons_cons _⟩
    all_goals exact ih

/-- C102: a commit has the same effect on the tree in whatever order its updates, removes and other proposals are
listed, if the adds are listed in the same order.  The list has passed the check of the proposals, the updates and
removes are about members, and the inner nodes of the tree are used on both sides (which holds in groups that nobody
has tampered with, `C62_both_used`).  Missing: removes of blank leaves (`C102_blank_refuted`) and trees with an inner
node over members on one side only (`C102_half_refuted`). -/
theorem C102_order_partial (t : RatchetTree) (ps ps' : List Proposal) (senders senders' : List LeafIndex)
    (committer : LeafIndex) (hl : t.length < 2 ^ 32) (hb : BothUsed t.get)
    (hv : verify_proposal_list ps senders committer = .ok ()) (hlen : ps'.length = senders'.length)
    (hp : (ps.zip senders).Perm (ps'.zip senders')) (ha : addsOf ps = addsOf ps')
    (hu : ∀ u s, (Proposal.Update u, s) ∈ ps.zip senders → 2 * s.toNat < t.length)
    (hr : ∀ r s, (Proposal.Remove r, s) ∈ ps.zip senders → t.get (2 * r.removed.toNat) ≠ none) :
    t.apply ps senders = t.apply ps' senders' := by
  obtain ⟨hlen0, hvalid, _⟩ := (C26_exact ps senders committer).1 hv
  rw [C28_apply t ps senders (by omega), C28_apply t ps' senders' (by omega), updatesOf_eq, updatesOf_eq,
    removesOf_eq ps senders hlen0, removesOf_eq ps' senders' hlen, ha]
  have hnd := nodup_map_toNat hvalid.leaves
  obtain ⟨su, sr⟩ := touched_sublists (ps.zip senders)
  have hu' : ∀ u ∈ (ps.zip senders).filterMap updateOf, 2 * u.1 < t.length := by
    intro u h
    obtain ⟨⟨p, s⟩, h1, h2⟩ := List.mem_filterMap.1 h
    cases p <;> simp only [updateOf, Option.some.injEq, reduceCtorEq] at h2
    subst h2
    exact hu _ s h1
  have hr' : ∀ i ∈ (ps.zip senders).filterMap removeOf, t.get (2 * i) ≠ none := by
    intro u h
    obtain ⟨⟨p, s⟩, h1, h2⟩ := List.mem_filterMap.1 h
    cases p <;> simp only [removeOf, Option.some.injEq, reduceCtorEq] at h2
    subst h2
    exact hr _ s h1
  rw [← C102_updates t _ _ hl hu' (hnd.sublist su) (hp.filterMap updateOf)]
  obtain ⟨t1, r1, r2, r3, r4⟩ := updates_keep _ t hl hb hu'
  rw [r1, Res.ok_bind, Res.ok_bind, C102_removes_partial t1 _ _ (by omega) r3 (fun i hi => r4 i (hr' i hi))
    (hnd.sublist sr) (hp.filterMap removeOf)]

/-- A case of `C102_order_partial`: an update and two removes in another order. -/
example : disordered.apply [.Remove ⟨2⟩, .Update ⟨toyLeaf 8⟩, .Remove ⟨3⟩] [0, 0, 0] =
    disordered.apply [.Remove ⟨3⟩, .Remove ⟨2⟩, .Update ⟨toyLeaf 8⟩] [0, 0, 0] := by
  refine C102_order_partial _ _ _ _ _ 1 (by decide) ?_ (by decide) rfl (by decide) rfl ?_ ?_
  · intro k i n h
    have := inner_at h [(1, 0)] (by decide)
    simp only [List.mem_singleton, Prod.mk.injEq] at this
    obtain ⟨rfl, rfl⟩ := this
    exact ⟨⟨0, ⟨by decide, by decide⟩, by decide⟩, ⟨2, ⟨by decide, by decide⟩, by decide⟩⟩
  · intro u s h
    simp at h
    rw [h.2]; decide
  · intro r s h
    simp at h
    rcases h with ⟨rfl, _⟩ | ⟨rfl, _⟩ <;> decide

/-- Two members of four, and no inner nodes. -/
def twoOfFour : RatchetTree :=
  [some (.Leaf (signedLeaf 0 .Update)), none, none, none, some (.Leaf (signedLeaf 2 .Update)), none, none]

set_option maxRecDepth 100000 in
/-- C102 fails for removes of blank leaves, which the check of the proposals accepts: one order panics, because the
first remove has cut the array. -/
theorem C102_blank_refuted : ∃ (t t' : RatchetTree) (ps ps' : List Proposal) (senders : List LeafIndex),
    verify_integrity toyProvider t (contextOf t) 0 = .ok () ∧ BothUsed t.get ∧ t.length = 7 ∧
    verify_proposal_list ps senders 0 = .ok () ∧ (ps.zip senders).Perm (ps'.zip senders) ∧ addsOf ps = addsOf ps' ∧
    t.apply ps senders = .fault .panic ∧ t.apply ps' senders = .ok t' := by
  refine ⟨twoOfFour, _, [.Remove ⟨2⟩, .Remove ⟨3⟩], [.Remove ⟨3⟩, .Remove ⟨2⟩], [0, 0], by decide +kernel, ?_, rfl,
    by decide, by decide, rfl, by decide +kernel, rfl⟩
  intro k i n h
  have := inner_at h [] (by decide)
  cases this

/-- Three members of eight.  The parent over the left half has no member below its right child. -/
def halfOfEight : RatchetTree :=
  let left : ParentNode := ⟨[8], [], []⟩
  [some (.Leaf (signedLeaf 0 .Update)), none,
    some (.Leaf (signedLeaf 1 (.Commit (parentHashEnc left (treeHash id (fun _ => none) 1 1)).bytes))), some (.Parent left),
    none, none, none, none, none, none, some (.Leaf (signedLeaf 5 .Update)), none, none, none, none]

set_option maxRecDepth 100000 in
/-- C102 fails for trees with an inner node over members on one side only, which `verify_integrity` accepts: in one
order the node stays behind in the slot right of the tree. -/
theorem C102_half_refuted : ∃ (t t1 t2 : RatchetTree) (ps ps' : List Proposal) (senders : List LeafIndex),
    verify_integrity toyProvider t (contextOf8 t) 0 = .ok () ∧ t.length = 15 ∧
    verify_proposal_list ps senders 1 = .ok () ∧ (ps.zip senders).Perm (ps'.zip senders) ∧ addsOf ps = addsOf ps' ∧
    t.get (2 * 0) ≠ none ∧ t.get (2 * 5) ≠ none ∧ ps = [.Remove ⟨5⟩, .Remove ⟨0⟩] ∧
    t.apply ps senders = .ok t1 ∧ t.apply ps' senders = .ok t2 ∧ t1.get 3 ≠ none ∧ t2.get 3 = none :=
  ⟨halfOfEight, _, _, [.Remove ⟨5⟩, .Remove ⟨0⟩], [.Remove ⟨0⟩, .Remove ⟨5⟩], [1, 1], by decide +kernel, rfl, by decide,
    by decide, rfl, by decide, by decide, rfl, rfl, rfl, by decide, by decide⟩

end Rmls
