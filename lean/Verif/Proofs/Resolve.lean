import Verif.Proofs.RatchetTree
/-
Lemmas on subtrees and the resolution of a node.
-/
namespace Rmls
open Spec

/-! ### subtrees -/

theorem below_div {k i j : Nat} : below k i j ↔ j / 2 ^ k = i := by
  have hp := Nat.two_pow_pos k
  unfold below
  constructor
  · rintro ⟨h1, h2⟩
    have h3 := (Nat.le_div_iff_mul_le hp).2 h1
    have h4 := (Nat.div_lt_iff_lt_mul hp).2 h2
    omega
  · rintro rfl
    exact ⟨(Nat.le_div_iff_mul_le hp).1 (Nat.le_refl _), (Nat.div_lt_iff_lt_mul hp).1 (Nat.lt_succ_self _)⟩

theorem inSubtree_self (k i : Nat) : inSubtree k i (node k i) := ⟨k, i, rfl, Nat.le_refl _, by simp⟩

theorem inSubtree_node {k i l j : Nat} : inSubtree k i (node l j) ↔ l ≤ k ∧ j / 2 ^ (k - l) = i := by
  constructor
  · rintro ⟨l', j', h1, h2, h3⟩
    obtain ⟨rfl, rfl⟩ := node_inj h1
    exact ⟨h2, h3⟩
  · rintro ⟨h1, h2⟩
    exact ⟨l, j, rfl, h1, h2⟩

theorem inSubtree_leaf {k i j : Nat} : inSubtree k i (node 0 j) ↔ below k i j := by
  rw [inSubtree_node, below_div]; simp

theorem inSubtree_zero {i x : Nat} : inSubtree 0 i x ↔ x = node 0 i := by
  constructor
  · rintro ⟨l, j, rfl, h1, h2⟩
    have : l = 0 := by omega
    subst this
    simp at h2
    rw [h2]
  · rintro rfl; exact inSubtree_self 0 i

theorem inSubtree_succ {k i x : Nat} : inSubtree (k + 1) i x ↔
    x = node (k + 1) i ∨ inSubtree k (2 * i) x ∨ inSubtree k (2 * i + 1) x := by
  obtain ⟨l, j, rfl⟩ := node_surj x
  simp only [inSubtree_node]
  constructor
  · rintro ⟨h1, h2⟩
    by_cases hl : l = k + 1
    · subst hl
      left
      simp at h2
      rw [h2]
    · right
      have hle : l ≤ k := by omega
      rw [show k + 1 - l = (k - l) + 1 by omega, Nat.pow_succ, ← Nat.div_div_eq_div_mul] at h2
      generalize j / 2 ^ (k - l) = d at h2 ⊢
      omega
  · rintro (h | ⟨h1, h2⟩ | ⟨h1, h2⟩)
    · obtain ⟨rfl, rfl⟩ := node_inj h
      simp
    · refine ⟨by omega, ?_⟩
      rw [show k + 1 - l = (k - l) + 1 by omega, Nat.pow_succ, ← Nat.div_div_eq_div_mul, h2]
      omega
    · refine ⟨by omega, ?_⟩
      rw [show k + 1 - l = (k - l) + 1 by omega, Nat.pow_succ, ← Nat.div_div_eq_div_mul, h2]
      omega

theorem inSubtree_disjoint {k i i' x : Nat} (h : inSubtree k i x) (h' : inSubtree k i' x) : i = i' := by
  obtain ⟨l, j, rfl⟩ := node_surj x
  rw [inSubtree_node] at h h'
  omega

theorem inSubtree_left {k i x : Nat} (h : inSubtree k (2 * i) x) : inSubtree (k + 1) i x :=
  inSubtree_succ.2 (Or.inr (Or.inl h))
theorem inSubtree_right {k i x : Nat} (h : inSubtree k (2 * i + 1) x) : inSubtree (k + 1) i x :=
  inSubtree_succ.2 (Or.inr (Or.inr h))

theorem not_inSubtree_child {k i i' : Nat} : ¬ inSubtree k i' (node (k + 1) i) := by
  rw [inSubtree_node]; omega

theorem inSubtree_trans {k i l j x : Nat} (h : inSubtree k i (node l j)) (h' : inSubtree l j x) :
    inSubtree k i x := by
  obtain ⟨m, a, rfl⟩ := node_surj x
  rw [inSubtree_node] at *
  obtain ⟨h1, h2⟩ := h
  obtain ⟨h3, h4⟩ := h'
  refine ⟨by omega, ?_⟩
  rw [show k - m = (l - m) + (k - l) by omega, Nat.pow_add, ← Nat.div_div_eq_div_mul, h4, h2]

/-! ### resolution -/

/-- The tree lists only representable leaf indices as unmerged. -/
def RatchetTree.SmallUnmerged (t : RatchetTree) : Prop :=
  ∀ x p, t.get x = some (.Parent p) → ∀ u ∈ p.unmerged_leaves, u.toNat < 2 ^ 31

namespace RatchetTree

theorem unmergedNodes_ok {us : List LeafIndex} (h : ∀ u ∈ us, u.toNat < 2 ^ 31) :
    unmergedNodes us = .ok (us.map fun u => node 0 u.toNat) := by
  induction us with
  | nil => rfl
  | cons u us ih =>
    unfold unmergedNodes
    rw [node_index_eq (h u List.mem_cons_self), Res.ok_bind, ih (fun v hv => h v (List.mem_cons_of_mem _ hv)),
      Res.ok_bind, List.map_cons, node_zero]
    rfl

theorem unmergedNodes_panic {us : List LeafIndex} {u : LeafIndex} (hu : u ∈ us) (h : 2 ^ 31 ≤ u.toNat) :
    unmergedNodes us = .fault .panic := by
  induction us with
  | nil => cases hu
  | cons v us ih =>
    unfold unmergedNodes
    by_cases hv : v.toNat < 2 ^ 31
    · rw [node_index_eq hv, Res.ok_bind]
      rcases List.mem_cons.1 hu with rfl | hu
      · omega
      · rw [ih hu]; rfl
    · rw [node_index_panic (by omega)]; rfl

theorem unmergedNodes_or (us : List LeafIndex) :
    unmergedNodes us = .ok (us.map fun u => node 0 u.toNat) ∨ unmergedNodes us = .fault .panic := by
  by_cases h : ∃ u ∈ us, 2 ^ 31 ≤ u.toNat
  · obtain ⟨u, hu, h⟩ := h
    exact .inr (unmergedNodes_panic hu h)
  · exact .inl (unmergedNodes_ok fun u hu => Nat.lt_of_not_le fun hc => h ⟨u, hu, hc⟩)

/-- Without any assumption on the unmerged leaves: the resolution, or a panic. -/
theorem resolveFuel_or {t : RatchetTree} :
    ∀ k fuel i, k < 32 → k < fuel → resolveFuel t fuel (node k i) = .ok (resolution t.get k i) ∨
      resolveFuel t fuel (node k i) = .fault .panic := by
  intro k
  induction k with
  | zero =>
    intro fuel i _ hf
    obtain ⟨fuel, rfl⟩ : ∃ m, fuel = m + 1 := ⟨fuel - 1, by omega⟩
    unfold resolveFuel resolution
    cases hg : t.get (node 0 i) with
    | none => simp only [NodeIndex.children_zero, Res.ok_bind]; exact .inl rfl
    | some n =>
      cases n with
      | Leaf l => exact .inl rfl
      | Parent p =>
        rcases unmergedNodes_or p.unmerged_leaves with h | h <;> simp only [h]
        · exact .inl rfl
        · exact .inr rfl
  | succ k ih =>
    intro fuel i hk hf
    obtain ⟨fuel, rfl⟩ : ∃ m, fuel = m + 1 := ⟨fuel - 1, by omega⟩
    unfold resolveFuel resolution
    cases hg : t.get (node (k + 1) i) with
    | none =>
      simp only [NodeIndex.children_succ i hk, Res.ok_bind]
      rcases ih fuel (2 * i) (by omega) (by omega) with h | h <;> rw [h]
      · rw [Res.ok_bind]
        rcases ih fuel (2 * i + 1) (by omega) (by omega) with h' | h' <;> rw [h']
        · exact .inl rfl
        · exact .inr rfl
      · exact .inr rfl
    | some n =>
      cases n with
      | Leaf l => exact .inl rfl
      | Parent p =>
        rcases unmergedNodes_or p.unmerged_leaves with h | h <;> simp only [h]
        · exact .inl rfl
        · exact .inr rfl

/-- It is a panic exactly if the resolution names a leaf whose node index does not fit 32 bits. -/
theorem resolveFuel_panics {t : RatchetTree} :
    ∀ k fuel i, k < 32 → k < fuel → (i + 1) * 2 ^ (k + 1) ≤ 2 ^ 32 →
      (resolveFuel t fuel (node k i) = .fault .panic ↔ ∃ x ∈ resolution t.get k i, 2 ^ 32 ≤ x) := by
  have hself : ∀ k i, (i + 1) * 2 ^ (k + 1) ≤ 2 ^ 32 → node k i < 2 ^ 32 := by
    intro k i h
    have h1 := node_add_one k i
    have h2 : (i + 1) * 2 ^ (k + 1) = 2 ^ k * (2 * i + 1) + 2 ^ k := by rw [Nat.pow_succ]; grind
    have h3 := Nat.two_pow_pos k
    omega
  have hpar : ∀ (us : List LeafIndex) (x : Nat), x < 2 ^ 32 →
      ((do let ls ← unmergedNodes us; pure (x :: ls) : Res (List Nat)) = .fault .panic ↔
        ∃ y ∈ x :: us.map fun u => node 0 u.toNat, 2 ^ 32 ≤ y) := by
    intro us x hx
    by_cases h : ∃ u ∈ us, 2 ^ 31 ≤ u.toNat
    · obtain ⟨u, hu, h⟩ := h
      rw [unmergedNodes_panic hu h]
      refine ⟨fun _ => ⟨node 0 u.toNat, List.mem_cons_of_mem _ (List.mem_map.2 ⟨u, hu, rfl⟩), ?_⟩, fun _ => rfl⟩
      rw [node_zero]; omega
    · rw [unmergedNodes_ok fun u hu => Nat.lt_of_not_le fun hc => h ⟨u, hu, hc⟩]
      refine ⟨(by intro h; cases h), ?_⟩
      rintro ⟨y, hy, hge⟩
      exfalso
      rcases List.mem_cons.1 hy with rfl | hy
      · omega
      · obtain ⟨u, hu, rfl⟩ := List.mem_map.1 hy
        rw [node_zero] at hge
        exact h ⟨u, hu, by omega⟩
  intro k
  induction k with
  | zero =>
    intro fuel i _ hf hi
    obtain ⟨fuel, rfl⟩ : ∃ m, fuel = m + 1 := ⟨fuel - 1, by omega⟩
    unfold resolveFuel resolution
    have hs := hself 0 i hi
    cases hg : t.get (node 0 i) with
    | none => simp only [NodeIndex.children_zero, Res.ok_bind]; simp
    | some n =>
      cases n with
      | Leaf l => simp; omega
      | Parent p => exact hpar _ _ hs
  | succ k ih =>
    intro fuel i hk hf hi
    obtain ⟨fuel, rfl⟩ : ∃ m, fuel = m + 1 := ⟨fuel - 1, by omega⟩
    unfold resolveFuel resolution
    have hs := hself (k + 1) i hi
    have hr : (2 * i + 1 + 1) * 2 ^ (k + 1) ≤ 2 ^ 32 := by
      rw [show (2 * i + 1 + 1) * 2 ^ (k + 1) = (i + 1) * 2 ^ (k + 1 + 1) by rw [Nat.pow_succ 2 (k + 1)]; grind]
      exact hi
    have hl : (2 * i + 1) * 2 ^ (k + 1) ≤ 2 ^ 32 :=
      Nat.le_trans (Nat.mul_le_mul_right _ (by omega)) hr
    cases hg : t.get (node (k + 1) i) with
    | none =>
      simp only [NodeIndex.children_succ i hk, Res.ok_bind]
      have i1 := ih fuel (2 * i) (by omega) (by omega) hl
      have i2 := ih fuel (2 * i + 1) (by omega) (by omega) hr
      simp only [List.mem_append, or_and_right, exists_or, ← i1, ← i2]
      rcases resolveFuel_or (t := t) k fuel (2 * i) (by omega) (by omega) with h | h <;> rw [h]
      · rw [Res.ok_bind]
        rcases resolveFuel_or (t := t) k fuel (2 * i + 1) (by omega) (by omega) with h' | h' <;> rw [h']
        · simp
        · simp
      · simp
    | some n =>
      cases n with
      | Leaf l => simp; omega
      | Parent p => exact hpar _ _ hs

theorem resolveFuel_ok {t : RatchetTree} (ht : t.SmallUnmerged) :
    ∀ k fuel i, k < 32 → k < fuel → resolveFuel t fuel (node k i) = .ok (resolution t.get k i) := by
  intro k
  induction k with
  | zero =>
    intro fuel i _ hf
    obtain ⟨fuel, rfl⟩ : ∃ m, fuel = m + 1 := ⟨fuel - 1, by omega⟩
    unfold resolveFuel resolution
    cases hg : t.get (node 0 i) with
    | none => simp only [NodeIndex.children_zero, Res.ok_bind]; rfl
    | some n =>
      cases n with
      | Leaf l => rfl
      | Parent p => simp only [unmergedNodes_ok (ht _ _ hg), Res.ok_bind]; rfl
  | succ k ih =>
    intro fuel i hk hf
    obtain ⟨fuel, rfl⟩ : ∃ m, fuel = m + 1 := ⟨fuel - 1, by omega⟩
    unfold resolveFuel resolution
    cases hg : t.get (node (k + 1) i) with
    | none =>
      simp only [NodeIndex.children_succ i hk, Res.ok_bind, ih fuel _ (by omega) (by omega)]
      rfl
    | some n =>
      cases n with
      | Leaf l => rfl
      | Parent p => simp only [unmergedNodes_ok (ht _ _ hg), Res.ok_bind]; rfl

end RatchetTree

theorem resolution_some {nodes : Nat → Option Node} {k i : Nat} {n : Node} (h : nodes (node k i) = some n) :
    resolution nodes k i = match (generalizing := false) n with
      | .Leaf _ => [node k i]
      | .Parent p => node k i :: p.unmerged_leaves.map fun u => node 0 u.toNat := by
  cases k <;> (unfold resolution; rw [h]; cases n <;> rfl)

theorem resolution_none_zero {nodes : Nat → Option Node} {i : Nat} (h : nodes (node 0 i) = none) :
    resolution nodes 0 i = [] := by unfold resolution; rw [h]

theorem resolution_none_succ {nodes : Nat → Option Node} {k i : Nat} (h : nodes (node (k + 1) i) = none) :
    resolution nodes (k + 1) i = resolution nodes k (2 * i) ++ resolution nodes k (2 * i + 1) := by
  rw [resolution.eq_def]; simp [h]

theorem resolution_self {nodes : Nat → Option Node} {k i : Nat} (h : nodes (node k i) ≠ none) :
    node k i ∈ resolution nodes k i := by
  cases hn : nodes (node k i) with
  | none => exact absurd hn h
  | some n => rw [resolution_some hn]; cases n <;> simp

theorem resolution_empty_iff {nodes : Nat → Option Node} {k i : Nat} :
    resolution nodes k i = [] ↔ ∀ x, inSubtree k i x → nodes x = none := by
  induction k generalizing i with
  | zero =>
    constructor
    · intro h x hx
      rw [inSubtree_zero.1 hx]
      apply Decidable.byContradiction
      intro hc
      have := resolution_self hc
      rw [h] at this; cases this
    · intro h
      exact resolution_none_zero (h _ (inSubtree_self 0 i))
  | succ k ih =>
    constructor
    · intro h x hx
      have hn : nodes (node (k + 1) i) = none := by
        apply Decidable.byContradiction
        intro hc
        have := resolution_self hc
        rw [h] at this; cases this
      rw [resolution_none_succ hn, List.append_eq_nil_iff] at h
      rcases inSubtree_succ.1 hx with rfl | hx | hx
      · exact hn
      · exact ih.1 h.1 x hx
      · exact ih.1 h.2 x hx
    · intro h
      rw [resolution_none_succ (h _ (inSubtree_self _ i)), List.append_eq_nil_iff]
      exact ⟨ih.2 fun x hx => h x (inSubtree_left hx), ih.2 fun x hx => h x (inSubtree_right hx)⟩

/-- Every listed node is in the subtree and not blank. -/
theorem members_mem {nodes : Nat → Option Node} (hu : UnmergedMembers nodes) {k i x : Nat}
    (h : x ∈ resolution nodes k i) : inSubtree k i x ∧ nodes x ≠ none := by
  induction k generalizing i with
  | zero =>
    cases hn : nodes (node 0 i) with
    | none => rw [resolution_none_zero hn] at h; cases h
    | some n =>
      rw [resolution_some hn] at h
      cases n with
      | Leaf l =>
        simp at h; subst h
        exact ⟨inSubtree_self 0 i, by rw [hn]; simp⟩
      | Parent p =>
        rcases List.mem_cons.1 h with rfl | h
        · exact ⟨inSubtree_self 0 i, by rw [hn]; simp⟩
        · obtain ⟨u, h1, rfl⟩ := List.mem_map.1 h
          obtain ⟨h2, l, h3⟩ := (hu 0 i p hn) u h1
          exact ⟨inSubtree_leaf.2 h2, by rw [h3]; simp⟩
  | succ k ih =>
    cases hn : nodes (node (k + 1) i) with
    | none =>
      rw [resolution_none_succ hn] at h
      rcases List.mem_append.1 h with h | h
      · exact ⟨inSubtree_left (ih h).1, (ih h).2⟩
      · exact ⟨inSubtree_right (ih h).1, (ih h).2⟩
    | some n =>
      rw [resolution_some hn] at h
      cases n with
      | Leaf l =>
        simp at h; subst h
        exact ⟨inSubtree_self _ i, by rw [hn]; simp⟩
      | Parent p =>
        rcases List.mem_cons.1 h with rfl | h
        · exact ⟨inSubtree_self _ i, by rw [hn]; simp⟩
        · obtain ⟨u, h1, rfl⟩ := List.mem_map.1 h
          obtain ⟨h2, l, h3⟩ := (hu _ i p hn) u h1
          exact ⟨inSubtree_leaf.2 h2, by rw [h3]; simp⟩

theorem Spec.UnmergedOk.members {nodes : Nat → Option Node} (h : UnmergedOk nodes) : UnmergedMembers nodes :=
  fun k i p hp => (h k i p hp).2

theorem resolution_mem {nodes : Nat → Option Node} (hu : UnmergedOk nodes) {k i x : Nat}
    (h : x ∈ resolution nodes k i) : inSubtree k i x ∧ nodes x ≠ none := members_mem hu.members h

/-- Every non-blank node of the subtree is listed or below a listed node. -/
theorem resolution_covers {nodes : Nat → Option Node} {k i x : Nat} (hx : inSubtree k i x)
    (hn : nodes x ≠ none) :
    ∃ l j, node l j ∈ resolution nodes k i ∧ nodes (node l j) ≠ none ∧ inSubtree k i (node l j) ∧
      inSubtree l j x := by
  induction k generalizing i with
  | zero =>
    have := inSubtree_zero.1 hx
    subst this
    exact ⟨0, i, resolution_self hn, hn, hx, hx⟩
  | succ k ih =>
    by_cases hr : nodes (node (k + 1) i) = none
    · rw [resolution_none_succ hr]
      rcases inSubtree_succ.1 hx with rfl | hx | hx
      · exact absurd hr hn
      · obtain ⟨l, j, h1, h2, h3, h4⟩ := ih hx
        exact ⟨l, j, List.mem_append_left _ h1, h2, inSubtree_left h3, h4⟩
      · obtain ⟨l, j, h1, h2, h3, h4⟩ := ih hx
        exact ⟨l, j, List.mem_append_right _ h1, h2, inSubtree_right h3, h4⟩
    · exact ⟨k + 1, i, resolution_self hr, hr, inSubtree_self _ i, hx⟩

theorem node0_toNat_nodup {us : List LeafIndex} (h : us.Pairwise fun a b => a.toNat < b.toNat) :
    (us.map fun u => node 0 u.toNat).Nodup := by
  rw [List.Nodup, List.pairwise_map]
  refine h.imp fun {a b} hab hc => ?_
  rw [node_zero, node_zero] at hc
  omega

/-- Nothing is listed twice. -/
theorem resolution_nodup {nodes : Nat → Option Node} (hs : LeafShaped nodes) (hu : UnmergedOk nodes) {k i : Nat} :
    (resolution nodes k i).Nodup := by
  induction k generalizing i with
  | zero =>
    cases hn : nodes (node 0 i) with
    | none => rw [resolution_none_zero hn]; simp
    | some n =>
      rw [resolution_some hn]
      cases n with
      | Leaf l => simp
      | Parent p => exact absurd hn (hs i p)
  | succ k ih =>
    cases hn : nodes (node (k + 1) i) with
    | none =>
      rw [resolution_none_succ hn, List.nodup_append]
      refine ⟨ih, ih, fun a ha b hb hab => ?_⟩
      subst hab
      have := inSubtree_disjoint (resolution_mem hu ha).1 (resolution_mem hu hb).1
      omega
    | some n =>
      rw [resolution_some hn]
      cases n with
      | Leaf l => simp
      | Parent p =>
        refine List.nodup_cons.2 ⟨fun h => ?_, node0_toNat_nodup (hu _ i p hn).1⟩
        obtain ⟨u, _, h2⟩ := List.mem_map.1 h
        have := (node_inj h2).1
        omega

/-- A listed node below another listed node is one of its unmerged leaves. -/
theorem resolution_antichain {nodes : Nat → Option Node} (hu : UnmergedOk nodes) {k i l j x : Nat}
    (hl : node l j ∈ resolution nodes k i) (hx : x ∈ resolution nodes k i) (hb : inSubtree l j x)
    (hne : x ≠ node l j) :
    ∃ p u, nodes (node l j) = some (.Parent p) ∧ u ∈ p.unmerged_leaves ∧ x = node 0 u.toNat := by
  have key : ∀ {k' i' n}, nodes (node k' i') = some n → node l j ∈ resolution nodes k' i' →
      x ∈ resolution nodes k' i' →
      ∃ p u, nodes (node l j) = some (.Parent p) ∧ u ∈ p.unmerged_leaves ∧ x = node 0 u.toNat := by
    intro k' i' n hn hl hx
    rw [resolution_some hn] at hl hx
    cases n with
    | Leaf q =>
      simp at hl hx
      exact absurd (hx.trans hl.symm) hne
    | Parent p =>
      rcases List.mem_cons.1 hl with h1 | h1
      · rcases List.mem_cons.1 hx with h2 | h2
        · exact absurd (h2.trans h1.symm) hne
        · obtain ⟨u, h3, h4⟩ := List.mem_map.1 h2
          exact ⟨p, u, by rw [h1]; exact hn, h3, h4.symm⟩
      · obtain ⟨u, h3, h4⟩ := List.mem_map.1 h1
        obtain ⟨rfl, rfl⟩ := node_inj h4
        exact absurd (inSubtree_zero.1 hb) hne
  induction k generalizing i with
  | zero =>
    cases hn : nodes (node 0 i) with
    | none => rw [resolution_none_zero hn] at hl; cases hl
    | some n => exact key hn hl hx
  | succ k ih =>
    cases hn : nodes (node (k + 1) i) with
    | none =>
      rw [resolution_none_succ hn] at hl hx
      rcases List.mem_append.1 hl with hl | hl <;> rcases List.mem_append.1 hx with hx | hx
      · exact ih hl hx
      · have := inSubtree_disjoint (inSubtree_trans (resolution_mem hu hl).1 hb) (resolution_mem hu hx).1
        omega
      · have := inSubtree_disjoint (inSubtree_trans (resolution_mem hu hl).1 hb) (resolution_mem hu hx).1
        omega
      · exact ih hl hx
    | some n => exact key hn hl hx

end Rmls
