import Verif.Proofs.Merge
import Verif.Props.Resolve
/-
The invariant behind property C16: unmerged leaves through any history of operations.
-/
namespace Rmls
open Spec RatchetTree

/-- The part of the invariant that speaks of the nodes; `s` says whether it includes the order of unmerged leaves. -/
structure GoodIf (s : Prop) (n : Nat → Option Node) : Prop where
  leaf : LeafShaped n
  mem : UnmergedMembers n
  ord : s → (∀ k i p, n (node k i) = some (.Parent p) → p.unmerged_leaves.Pairwise (fun a b => a.toNat < b.toNat)) ∧
    UnmergedLast n
  inner : InnerUsed n
  spine : SpineUsed n

abbrev Good (n : Nat → Option Node) : Prop := GoodIf True n

theorem GoodIf.ok {n : Nat → Option Node} (h : Good n) : UnmergedOk n :=
  fun k i p hp => ⟨(h.ord trivial).1 k i p hp, h.mem k i p hp⟩

theorem GoodIf.last {n : Nat → Option Node} (h : Good n) : UnmergedLast n := (h.ord trivial).2

theorem good_of {n : Nat → Option Node} (h1 : LeafShaped n) (h2 : UnmergedOk n) (h3 : UnmergedLast n) (h4 : InnerUsed n)
    (h5 : SpineUsed n) : Good n :=
  ⟨h1, h2.members, fun _ => ⟨fun k i p hp => (h2 k i p hp).1, h3⟩, h4, h5⟩

theorem toNat_ofNat {j : Nat} (h : j < 2 ^ 32) : (UInt32.ofNat j).toNat = j := by
  rw [UInt32.toNat_ofNat']; exact Nat.mod_eq_of_lt h

theorem below_lt {k i j : Nat} (h : below k i j) : j < (i + 1) * 2 ^ k := h.2

theorem above_node {K j k i : Nat} : above K j (node k i) ↔ 1 ≤ k ∧ k ≤ K ∧ below k i j := by
  rw [below_div]
  constructor
  · rintro ⟨l, h1, h2, h3⟩
    obtain ⟨rfl, rfl⟩ := node_inj h3
    exact ⟨h1, h2, rfl⟩
  · rintro ⟨h1, h2, h3⟩
    exact ⟨k, h1, h2, by rw [h3]⟩

theorem listed_parent {li : LeafIndex} {n : Option Node} {p : ParentNode} (h : listed li n = some (.Parent p)) :
    ∃ q, n = some (.Parent q) ∧ p.unmerged_leaves = q.unmerged_leaves ++ [li] := by
  unfold listed at h
  split at h
  · rename_i q
    injection h with h
    injection h with h
    exact ⟨q, rfl, by rw [← h]⟩
  · rename_i hn
    exact absurd h (hn p)

theorem listed_some {li : LeafIndex} {n : Option Node} : listed li n = none ↔ n = none := by
  unfold listed
  split <;> simp

theorem good_add {s : Prop} {n n' : Nat → Option Node} (h : GoodIf s n) {K j : Nat} {leaf : LeafNode} (hj : j < 2 ^ 32)
    (hb : n (node 0 j) = none) (hleft : ∀ i, i < j → n (node 0 i) ≠ none)
    (h' : ∀ x, n' x = if x = 2 * j then some (.Leaf leaf)
      else if above K j x then listed (UInt32.ofNat j) (n x) else n x) : GoodIf s n' := by
  have hl : ∀ i, n' (node 0 i) = if i = j then some (.Leaf leaf) else n (node 0 i) := by
    intro i
    rw [h', node_zero]
    by_cases hi : i = j
    · rw [if_pos (by omega), if_pos hi]
    · rw [if_neg (by omega), if_neg hi, if_neg (fun h => above_ne_leaf h i rfl)]
  have hocc : ∀ i, n (node 0 i) ≠ none → n' (node 0 i) ≠ none := by
    intro i hi
    rw [hl]; split
    · simp
    · exact hi
  have hin : ∀ k i, 1 ≤ k → n' (node k i) =
      if above K j (node k i) then listed (UInt32.ofNat j) (n (node k i)) else n (node k i) := by
    intro k i hk
    rw [h', if_neg]
    intro hc
    rw [← node_zero] at hc
    have := (node_inj hc).1
    omega
  -- what a parent of the new tree was before
  have hpar : ∀ k i p, n' (node k i) = some (.Parent p) → 1 ≤ k ∧ ∃ q, n (node k i) = some (.Parent q) ∧
      (p.unmerged_leaves = q.unmerged_leaves ∨
        below k i j ∧ p.unmerged_leaves = q.unmerged_leaves ++ [UInt32.ofNat j]) := by
    intro k i p hp
    have hk : 1 ≤ k := by
      apply Decidable.byContradiction
      intro hc
      have : k = 0 := by omega
      subst this
      rw [hl] at hp
      split at hp
      · cases hp
      · exact h.leaf i p hp
    refine ⟨hk, ?_⟩
    rw [hin k i hk] at hp
    by_cases ha : above K j (node k i)
    · rw [if_pos ha] at hp
      obtain ⟨q, hq, he⟩ := listed_parent hp
      exact ⟨q, hq, .inr ⟨(above_node.1 ha).2.2, he⟩⟩
    · rw [if_neg ha] at hp
      exact ⟨p, hp, .inl rfl⟩
  have hleafv : ∀ i l, n (node 0 i) = some (.Leaf l) → ∃ l', n' (node 0 i) = some (.Leaf l') := by
    intro i l hi
    rw [hl]
    by_cases hij : i = j
    · rw [if_pos hij]; exact ⟨_, rfl⟩
    · rw [if_neg hij]; exact ⟨l, hi⟩
  refine ⟨?_, ?_, fun hs => ⟨?_, ?_⟩, ?_, ?_⟩
  · intro i p hp
    have := (hpar 0 i p hp).1
    omega
  · intro k i p hp
    obtain ⟨hk, q, hq, he⟩ := hpar k i p hp
    have h2 := h.mem k i q hq
    rcases he with he | ⟨hbj, he⟩
    · rw [he]
      exact fun u hu => ⟨(h2 u hu).1, by
        obtain ⟨_, l, hl⟩ := h2 u hu; exact hleafv _ l hl⟩
    · rw [he]
      intro u hu
      rcases List.mem_append.1 hu with hu | hu
      · refine ⟨(h2 u hu).1, ?_⟩
        obtain ⟨_, l, hl⟩ := h2 u hu; exact hleafv _ l hl
      · rw [List.mem_singleton] at hu
        subst hu
        rw [toNat_ofNat hj]
        exact ⟨hbj, leaf, by rw [hl, if_pos rfl]⟩
  · intro k i p hp
    obtain ⟨hk, q, hq, he⟩ := hpar k i p hp
    have h2 := h.mem k i q hq
    rcases he with he | ⟨hbj, he⟩
    · rw [he]; exact (h.ord hs).1 k i q hq
    · rw [he, List.pairwise_append]
      refine ⟨(h.ord hs).1 k i q hq, List.pairwise_singleton .., ?_⟩
      intro u hu v hv
      rw [List.mem_singleton] at hv
      subst hv
      rw [toNat_ofNat hj]
      apply Decidable.byContradiction
      intro hc
      by_cases huj : u.toNat = j
      · obtain ⟨_, l, hl⟩ := h2 u hu
        rw [huj, hb] at hl; cases hl
      · exact (h.ord hs).2 k i q hq u hu j (by omega) hbj hb
  · intro k i p hp u hu v hv hbv
    obtain ⟨hk, q, hq, he⟩ := hpar k i p hp
    rcases he with he | ⟨hbj, he⟩
    · rw [he] at hu
      exact hocc v ((h.ord hs).2 k i q hq u hu v hv hbv)
    · rw [he] at hu
      rcases List.mem_append.1 hu with hu | hu
      · exact hocc v ((h.ord hs).2 k i q hq u hu v hv hbv)
      · rw [List.mem_singleton] at hu
        subst hu
        rw [toNat_ofNat hj] at hv
        exact hocc v (hleft v hv)
  · intro k i nd hk hn
    have hn0 : n (node k i) ≠ none := by
      rw [hin k i hk] at hn
      intro hc
      rw [hc] at hn
      split at hn <;> cases hn
    cases hg : n (node k i) with
    | none => exact absurd hg hn0
    | some nd' =>
      rcases h.inner k i nd' hk hg with ⟨v, h1, h2⟩ | hr
      · exact .inl ⟨v, h1, hocc v h2⟩
      · by_cases hjr : (i + 1) * 2 ^ k ≤ j
        · left
          have hlt : i * 2 ^ k < (i + 1) * 2 ^ k := Nat.mul_lt_mul_of_pos_right (by omega) (Nat.two_pow_pos k)
          exact ⟨i * 2 ^ k, ⟨Nat.le_refl _, hlt⟩, hocc _ (hleft _ (by omega))⟩
        · right
          intro v hv
          rw [hl, if_neg (by omega)]
          exact hr v hv
  · intro k p hp
    obtain ⟨_, q, hq, _⟩ := hpar _ _ _ hp
    rcases h.spine k q hq with ⟨v, h1, h2, h3⟩ | hr
    · exact .inl ⟨v, h1, h2, hocc v h3⟩
    · by_cases hjr : 2 ^ (k + 1) ≤ j
      · left
        have : 2 ^ k < 2 ^ (k + 1) := Nat.pow_lt_pow_right (by omega) (by omega)
        exact ⟨2 ^ k, Nat.le_refl _, this, hocc _ (hleft _ (by omega))⟩
      · right
        intro v hv
        rw [hl, if_neg (by omega)]
        exact hr v hv

/-- A leaf replaced, the nodes above blank or parents as after a merge. -/
theorem good_path {s : Prop} {n n' : Nat → Option Node} (h : GoodIf s n) {K j : Nat} (hocc : n (node 0 j) ≠ none)
    (hleaf : ∃ l, n' (node 0 j) = some (.Leaf l)) (hout : ∀ x, ¬ above K j x → x ≠ 2 * j → n' x = n x)
    (hab : ∀ x, above K j x → MergedAt n K j x (n' x)) : GoodIf s n' := by
  have hl : ∀ i, i ≠ j → n' (node 0 i) = n (node 0 i) := by
    intro i hi
    rw [node_zero]
    exact hout _ (fun h => above_ne_leaf h i rfl) (by omega)
  have hnone : ∀ i, n' (node 0 i) = none ↔ n (node 0 i) = none := by
    intro i
    by_cases hi : i = j
    · subst hi
      obtain ⟨l, hl⟩ := hleaf
      rw [hl]
      constructor
      · intro h; cases h
      · intro h; exact absurd h hocc
    · rw [hl i hi]
  have hlv : ∀ i l, n (node 0 i) = some (.Leaf l) → ∃ l', n' (node 0 i) = some (.Leaf l') := by
    intro i l hi
    by_cases hij : i = j
    · subst hij; exact hleaf
    · rw [hl i hij]; exact ⟨l, hi⟩
  have hne : ∀ k i, 1 ≤ k → node k i ≠ 2 * j := by
    intro k i hk hc
    rw [← node_zero] at hc
    have := (node_inj hc).1
    omega
  have hin : ∀ k i nd, 1 ≤ k → n' (node k i) = some nd → n (node k i) = some nd ∨
      (below k i j ∧ k ∈ filteredLevels n K j ∧ ∃ key ph, nd = .Parent ⟨key, ph, []⟩) := by
    intro k i nd hk hn
    by_cases ha : above K j (node k i)
    · rcases hab _ ha with h0 | ⟨⟨k', hk', hx⟩, key, ph, h1⟩
      · rw [h0] at hn; cases hn
      · rw [h1] at hn
        injection hn with hn
        obtain ⟨rfl, _⟩ := node_inj hx
        exact .inr ⟨(above_node.1 ha).2.2, hk', key, ph, hn.symm⟩
    · rw [hout _ ha (hne k i hk)] at hn
      exact .inl hn
  have hls : LeafShaped n' := by
    intro i p hp
    by_cases hij : i = j
    · subst hij; obtain ⟨l, hl⟩ := hleaf; rw [hl] at hp; cases hp
    · rw [hl i hij] at hp; exact h.leaf i p hp
  have hk1 : ∀ k i p, n' (node k i) = some (.Parent p) → 1 ≤ k := by
    intro k i p hp
    apply Decidable.byContradiction
    intro hc
    have : k = 0 := by omega
    subst this
    exact hls i p hp
  refine ⟨hls, ?_, fun hs => ⟨?_, ?_⟩, ?_, ?_⟩
  · intro k i p hp
    rcases hin k i _ (hk1 k i p hp) hp with hq | ⟨_, _, key, ph, he⟩
    · have h2 := h.mem k i p hq
      refine fun u hu => ⟨(h2 u hu).1, ?_⟩
      obtain ⟨_, l, hl⟩ := h2 u hu
      exact hlv _ l hl
    · injection he with he; subst he; exact fun u hu => by cases hu
  · intro k i p hp
    rcases hin k i _ (hk1 k i p hp) hp with hq | ⟨_, _, key, ph, he⟩
    · exact (h.ord hs).1 k i p hq
    · injection he with he; subst he; exact List.Pairwise.nil
  · intro k i p hp u hu v hv hbv
    rcases hin k i _ (hk1 k i p hp) hp with hq | ⟨_, _, key, ph, he⟩
    · rw [Ne, hnone]; exact (h.ord hs).2 k i p hq u hu v hv hbv
    · injection he with he; subst he; cases hu
  · intro k i nd hk hn
    rcases hin k i nd hk hn with hq | ⟨hb, _⟩
    · rcases h.inner k i nd hk hq with ⟨v, h1, h2⟩ | hr
      · exact .inl ⟨v, h1, by rw [Ne, hnone]; exact h2⟩
      · exact .inr fun v hv => (hnone v).2 (hr v hv)
    · exact .inl ⟨j, hb, by rw [Ne, hnone]; exact hocc⟩
  · intro k p hp
    rcases hin (k + 1) 0 _ (by omega) hp with hq | ⟨hb, hf, _⟩
    · rcases h.spine k p hq with ⟨v, h1, h2, h3⟩ | hr
      · exact .inl ⟨v, h1, h2, by rw [Ne, hnone]; exact h3⟩
      · exact .inr fun v hv => (hnone v).2 (hr v hv)
    · have hj2 : j < 2 ^ (k + 1) := by simpa using hb.2
      by_cases hjk : 2 ^ k ≤ j
      · exact .inl ⟨j, hjk, hj2, by rw [Ne, hnone]; exact hocc⟩
      · -- the sender is on the left; something on the right is not blank
        obtain ⟨_, _, hne'⟩ := filteredLevels_mem.1 hf
        have hs : sib j k = 1 := by
          unfold sib siblingPos
          rw [Nat.div_eq_of_lt (by omega)]; rfl
        rw [show k + 1 - 1 = k by omega, hs, Ne, resolution_empty_iff] at hne'
        obtain ⟨x, hx, hnx⟩ : ∃ x, inSubtree k 1 x ∧ n x ≠ none := by
          apply Classical.byContradiction
          intro hc
          exact hne' fun x hx => Decidable.byContradiction fun h => hc ⟨x, hx, h⟩
        obtain ⟨l, b, rfl, hlk, hbd⟩ := hx
        have hsub : ∀ v, below l b v → 2 ^ k ≤ v ∧ v < 2 ^ (k + 1) := by
          intro v hv
          have hv' : below k 1 v := by
            rw [← inSubtree_leaf]
            exact inSubtree_trans (inSubtree_node.2 ⟨hlk, hbd⟩) (inSubtree_leaf.2 hv)
          have h1 := hv'.1
          have h2 := hv'.2
          rw [Nat.pow_succ]
          omega
        by_cases hl0 : l = 0
        · subst hl0
          have := hsub b (by rw [below_div]; simp)
          exact .inl ⟨b, this.1, this.2, by rw [Ne, hnone]; exact hnx⟩
        · cases hg : n (node l b) with
          | none => exact absurd hg hnx
          | some nd =>
            rcases h.inner l b nd (by omega) hg with ⟨v, h1, h2⟩ | hr
            · exact .inl ⟨v, (hsub v h1).1, (hsub v h1).2, by rw [Ne, hnone]; exact h2⟩
            · right
              intro v hv
              rw [hnone]
              apply hr
              have hlt : b * 2 ^ l < (b + 1) * 2 ^ l := Nat.mul_lt_mul_of_pos_right (by omega) (Nat.two_pow_pos l)
              have := (hsub ((b + 1) * 2 ^ l - 1) ⟨by omega, by omega⟩).2
              omega

/-- A leaf and the nodes above it blanked, and everything from `c` on cut off. -/
theorem good_remove {s : Prop} {n n' : Nat → Option Node} (h : GoodIf s n) {K li c : Nat}
    (h' : ∀ x, n' x = if x = 2 * li ∨ above K li x ∨ c ≤ x then none else n x)
    (hc : ∀ i, c ≤ 2 * i → i ≠ li → n (2 * i) = none)
    (hp : ∀ k i p, n (node k i) = some (.Parent p) → below k i li → k ≤ K)
    (hs : ∀ k i nd, 1 ≤ k → n (node k i) = some nd → below k i li → K < k →
      ∀ j, (i + 1) * 2 ^ k ≤ j → n (node 0 j) = none) : GoodIf s n' := by
  have hl : ∀ i, n' (node 0 i) = if i = li then none else n (node 0 i) := by
    intro i
    rw [h', node_zero]
    by_cases hi : i = li
    · rw [if_pos (.inl (by omega)), if_pos hi]
    · rw [if_neg hi]
      split
      · rename_i hh
        rcases hh with hh | hh | hh
        · omega
        · exact absurd rfl (above_ne_leaf hh i)
        · exact (hc i hh hi).symm
      · rfl
  have hsub : ∀ x nd, n' x = some nd → n x = some nd ∧ ¬ above K li x := by
    intro x nd hx
    rw [h'] at hx
    split at hx
    · cases hx
    · rename_i hh
      exact ⟨hx, fun hc => hh (.inr (.inl hc))⟩
  have hnb : ∀ k i p, n' (node k i) = some (.Parent p) → ¬ below k i li := by
    intro k i p hx hb
    obtain ⟨h1, h2⟩ := hsub _ _ hx
    refine h2 (above_node.2 ⟨?_, hp k i p h1 hb, hb⟩)
    apply Decidable.byContradiction
    intro hk
    have : k = 0 := by omega
    subst this
    exact h.leaf i p h1
  refine ⟨?_, ?_, fun hord => ⟨?_, ?_⟩, ?_, ?_⟩
  · intro i p hx
    exact h.leaf i p (hsub _ _ hx).1
  · intro k i p hx
    have h2 := h.mem k i p (hsub _ _ hx).1
    refine fun u hu => ⟨(h2 u hu).1, ?_⟩
    obtain ⟨hbu, l, hlu⟩ := h2 u hu
    refine ⟨l, ?_⟩
    rw [hl, if_neg]
    · exact hlu
    · intro hc; rw [hc] at hbu; exact hnb k i p hx hbu
  · intro k i p hx
    exact (h.ord hord).1 k i p (hsub _ _ hx).1
  · intro k i p hx u hu v hv hbv
    rw [hl, if_neg]
    · exact (h.ord hord).2 k i p (hsub _ _ hx).1 u hu v hv hbv
    · intro hc; rw [hc] at hbv; exact hnb k i p hx hbv
  · intro k i nd hk hx
    obtain ⟨h1, h2⟩ := hsub _ _ hx
    by_cases hb : below k i li
    · right
      have hkK : K < k := by
        apply Decidable.byContradiction
        intro hc
        exact h2 (above_node.2 ⟨hk, by omega, hb⟩)
      intro j hj
      rw [hl]
      split
      · rfl
      · exact hs k i nd hk h1 hb hkK j hj
    · rcases h.inner k i nd hk h1 with ⟨v, h3, h4⟩ | hr
      · left
        refine ⟨v, h3, ?_⟩
        rw [hl, if_neg]
        · exact h4
        · intro hc; rw [hc] at h3; exact hb h3
      · right
        intro j hj
        rw [hl]
        split
        · rfl
        · exact hr j hj
  · intro k p hx
    obtain ⟨h1, h2⟩ := hsub _ _ hx
    rcases h.spine k p h1 with ⟨v, h3, h4, h5⟩ | hr
    · left
      refine ⟨v, h3, h4, ?_⟩
      rw [hl, if_neg]
      · exact h5
      · intro hc
        subst hc
        exact hnb (k + 1) 0 p hx ⟨by omega, by omega⟩
    · right
      intro j hj
      rw [hl]
      split
      · rfl
      · exact hr j hj

/-- A leaf node written to an inner node that has no members to the right of it. -/
theorem good_stray {s : Prop} {n n' : Nat → Option Node} (h : GoodIf s n) {k0 i0 : Nat} {leaf : LeafNode} (hk0 : 1 ≤ k0)
    (h' : ∀ x, n' x = if x = node k0 i0 then some (.Leaf leaf) else n x)
    (hr : ∀ j, (i0 + 1) * 2 ^ k0 ≤ j → n (node 0 j) = none) : GoodIf s n' := by
  have hl : ∀ i, n' (node 0 i) = n (node 0 i) := by
    intro i
    rw [h', if_neg]
    intro hc
    have := (node_inj hc).1
    omega
  have hp : ∀ x p, n' x = some (.Parent p) → n x = some (.Parent p) := by
    intro x p hx
    rw [h'] at hx
    split at hx
    · cases hx
    · exact hx
  refine ⟨?_, ?_, fun hs => ⟨?_, ?_⟩, ?_, ?_⟩
  · intro i p hx; exact h.leaf i p (hp _ _ hx)
  · intro k i p hx
    have h2 := h.mem k i p (hp _ _ hx)
    exact fun u hu => ⟨(h2 u hu).1, by rw [hl]; exact (h2 u hu).2⟩
  · intro k i p hx
    exact (h.ord hs).1 k i p (hp _ _ hx)
  · intro k i p hx u hu v hv hbv
    rw [hl]; exact (h.ord hs).2 k i p (hp _ _ hx) u hu v hv hbv
  · intro k i nd hk hx
    by_cases he : node k i = node k0 i0
    · obtain ⟨rfl, rfl⟩ := node_inj he
      right
      intro j hj
      rw [hl]; exact hr j hj
    · rw [h', if_neg he] at hx
      simp only [hl]
      exact h.inner k i nd hk hx
  · intro k p hx
    simp only [hl]
    exact h.spine k p (hp _ _ hx)

/-! ### the array -/

/-- What an array has besides: the size is odd or a power of two; in the latter case the last slot, which is
outside the tree, is no parent. -/
structure TreeInvIf (s : Prop) (t : RatchetTree) : Prop where
  good : GoodIf s t.get
  size : t.length < 2 ^ 32
  even : t.length % 2 = 0 → t.length = 0 ∨ ∃ K, t.length = 2 ^ (K + 1)
  phantom : ∀ K p, t.length = 2 ^ (K + 1) → t.get (t.length - 1) ≠ some (.Parent p)

abbrev TreeInv (t : RatchetTree) : Prop := TreeInvIf True t

/-- A node of the array that is above a leaf of the tree is in the tree, or it is the last slot. -/
theorem in_tree_or_last {t : RatchetTree} {K k i li : Nat} {nd : Node} (hl : t.length < 2 ^ 32)
    (hK : IsHeight t.num_leaves K) (hli : li < 2 ^ K) (hg : t.get (node k i) = some nd) (hb : below k i li) :
    k ≤ K ∨ (k = K + 1 ∧ i = 0 ∧ t.length = 2 ^ (K + 1) ∧ node k i = t.length - 1) := by
  by_cases hk : k ≤ K
  · exact .inl hk
  right
  have hlt := lt_of_get hg
  obtain ⟨hn0, hn1, hn2⟩ := num_leaves_bounds (by omega : 0 < t.length) hl
  have hi : i = 0 := by
    have := below_div.1 hb
    rw [← this]
    exact Nat.div_eq_of_lt (Nat.lt_of_lt_of_le hli (Nat.pow_le_pow_right (by omega) (by omega)))
  subst hi
  have h1 := node_add_one k 0
  have h2 : 2 ^ (K + 1) = 2 * 2 ^ K := by rw [Nat.pow_succ]; omega
  have h3 := hK.1
  have hk' : k = K + 1 := by
    apply Decidable.byContradiction
    intro hc
    have : 2 ^ (K + 2) ≤ 2 ^ k := Nat.pow_le_pow_right (by omega) (by omega)
    rw [Nat.pow_succ] at this
    have := Nat.two_pow_pos K
    omega
  subst hk'
  refine ⟨rfl, rfl, ?_, ?_⟩ <;> omega

theorem num_leaves_height {t : RatchetTree} {K : Nat} (h0 : 0 < t.length) (hl : t.length < 2 ^ 32)
    (he : t.length = 2 ^ (K + 1)) : t.num_leaves = 2 ^ K := by
  rw [room h0 hl, he, Nat.pow_succ]; omega

theorem inv_update {s : Prop} {t t' : RatchetTree} {li : Nat} {leaf : LeafNode} (h : TreeInvIf s t) (hm : t.get (2 * li) ≠ none)
    (hr : t.update li leaf = .ok t') : TreeInvIf s t' := by
  have hlt : 2 * li < t.length := by
    cases hg : t.get (2 * li) with
    | none => exact absurd hg hm
    | some n => exact lt_of_get hg
  have h0 : 0 < t.length := by omega
  obtain ⟨K, hK⟩ := exists_height (num_leaves_bounds h0 h.size).1
  obtain ⟨t'', h1, h2, h3⟩ := update_in (leaf := leaf) h0 h.size hK (leaf_in_tree h0 h.size hK hlt)
  rw [hr] at h1
  cases h1
  refine ⟨?_, by rw [h2]; exact h.size, by rw [h2]; exact h.even, ?_⟩
  · refine good_path (K := K) (j := li) h.good (by rw [node_zero]; exact hm) ⟨leaf, ?_⟩ ?_ ?_
    · rw [node_zero, h3, if_pos ⟨rfl, hlt⟩]
    · intro x hx hxj
      rw [h3, if_neg (fun hc => hxj hc.1), if_neg hx]
    · intro x hx
      left
      rw [h3, if_neg (fun hc => above_ne_leaf hx li hc.1), if_pos hx]
  · intro K' p he
    rw [h2] at he ⊢
    rw [h3]
    split
    · simp
    · split
      · simp
      · exact h.phantom K' p he

theorem inv_merge {s : Prop} {P : CryptoProvider} {cs : CipherSuite} {t : RatchetTree} {j : Nat} {path : UpdatePath}
    (h : TreeInvIf s t) (hm : t.get (2 * j) ≠ none) : TreeInvIf s (t.merge_update_path P cs j path).1 := by
  have hlt : 2 * j < t.length := by
    cases hg : t.get (2 * j) with
    | none => exact absurd hg hm
    | some n => exact lt_of_get hg
  have h0 : 0 < t.length := by omega
  obtain ⟨K, hK⟩ := exists_height (num_leaves_bounds h0 h.size).1
  have hj := leaf_in_tree h0 h.size hK hlt
  obtain ⟨h1, h2, h3, h4⟩ := merge_frame P cs path h0 h.size hK hj (members_small h.size h.good.mem)
  refine ⟨?_, by rw [h1]; exact h.size, by rw [h1]; exact h.even, ?_⟩
  · refine good_path (K := K) (j := j) h.good (by rw [node_zero]; exact hm) ?_ h2 h3
    rw [node_zero]
    rcases h4 with h4 | ⟨_, h4⟩
    · rw [h4]
      cases hg : t.get (2 * j) with
      | none => exact absurd hg hm
      | some n =>
        cases n with
        | Leaf l => exact ⟨l, rfl⟩
        | Parent p => rw [← node_zero] at hg; exact absurd hg (h.good.leaf j p)
    · exact ⟨_, h4⟩
  · intro K' p he
    rw [h1] at he ⊢
    have hKK : K = K' := by
      have := num_leaves_height h0 h.size he
      rw [this] at hK
      exact isHeight_unique hK ⟨Nat.le_refl _, fun l hl => (Nat.pow_le_pow_iff_right (by omega)).1 hl⟩
    subst hKK
    have hna : ¬ above K j (t.length - 1) := by
      have : t.length - 1 = node (K + 1) 0 := by have := node_add_one (K + 1) 0; omega
      rw [this, above_node]
      rintro ⟨_, hc, _⟩
      omega
    have hne : t.length - 1 ≠ 2 * j := by
      rw [he, Nat.pow_succ]
      have := Nat.two_pow_pos K
      omega
    rw [h2 _ hna hne]
    exact h.phantom K p he

theorem inv_remove {s : Prop} {t t' : RatchetTree} {li : Nat} (h : TreeInvIf s t) (hm : t.get (2 * li) ≠ none)
    (hr : t.remove li = .ok t') : TreeInvIf s t' := by
  have hlt : 2 * li < t.length := by
    cases hg : t.get (2 * li) with
    | none => exact absurd hg hm
    | some n => exact lt_of_get hg
  have h0 : 0 < t.length := by omega
  obtain ⟨K, hK⟩ := exists_height (num_leaves_bounds h0 h.size).1
  have hli := leaf_in_tree h0 h.size hK hlt
  have hp : ∀ k i p, t.get (node k i) = some (.Parent p) → below k i li → k ≤ K := by
    intro k i p hg hb
    rcases in_tree_or_last h.size hK hli hg hb with hk | ⟨_, _, he, hx⟩
    · exact hk
    · rw [hx] at hg; exact absurd hg (h.phantom K p he)
  have hs : ∀ k i nd, 1 ≤ k → t.get (node k i) = some nd → below k i li → K < k →
      ∀ j, (i + 1) * 2 ^ k ≤ j → t.get (node 0 j) = none := by
    intro k i nd _ hg hb hk j hj
    rcases in_tree_or_last h.size hK hli hg hb with hk | ⟨rfl, rfl, he, _⟩
    · omega
    · apply get_out
      rw [node_zero]
      omega
  rcases last_member t li with hall | ⟨j, hj1, hj2, hj3⟩
  · rw [remove_clear h0 h.size hK hli hall] at hr
    cases hr
    refine ⟨?_, by simp, fun _ => .inl rfl, ?_⟩
    · refine good_remove (li := li) (K := K) (c := 0) h.good (fun x => ?_) (fun i _ hi => hall i hi) hp hs
      rw [if_pos (.inr (.inr (by omega)))]; rfl
    · intro K' p _; simp [RatchetTree.get]
  · obtain ⟨m, hmh⟩ := exists_height (n := j + 1) (by omega)
    rw [remove_last h0 h.size hK hli hj1 hj2 hj3 hmh] at hr
    cases hr
    have hget : ∀ x, RatchetTree.get (List.take (2 ^ (m + 1)) (blanked t K li)) x =
        if x = 2 * li ∨ above K li x ∨ 2 ^ (m + 1) ≤ x then none else t.get x := by
      intro x
      rw [get_take, blanked_get]
      by_cases hc : x < 2 ^ (m + 1)
      · rw [if_pos hc]
        by_cases h2 : x = 2 * li ∨ above K li x
        · rw [if_pos h2, if_pos (by rcases h2 with h | h; exact Or.inl h; exact Or.inr (Or.inl h))]
        · rw [if_neg h2, if_neg]
          rintro (h | h | h)
          · exact h2 (Or.inl h)
          · exact h2 (Or.inr h)
          · omega
      · rw [if_neg hc, if_pos (Or.inr (Or.inr (by omega)))]
    have hcut : ∀ i, 2 ^ (m + 1) ≤ 2 * i → i ≠ li → t.get (2 * i) = none := by
      intro i hc hi
      apply hj3 i _ hi
      have := hmh.1
      rw [Nat.pow_succ] at hc
      omega
    have hlen : (List.take (2 ^ (m + 1)) (blanked t K li)).length = min (2 ^ (m + 1)) t.length := by
      rw [List.length_take, blanked_length]
    refine ⟨good_remove (li := li) (K := K) (c := 2 ^ (m + 1)) h.good hget hcut hp hs, ?_, ?_, ?_⟩
    · rw [hlen]; have := h.size; omega
    · intro hev
      rw [hlen] at hev ⊢
      by_cases hle : 2 ^ (m + 1) ≤ t.length
      · exact .inr ⟨m, by omega⟩
      · rw [show min (2 ^ (m + 1)) t.length = t.length by omega] at hev ⊢
        exact h.even hev
    · intro K' p he
      rw [hlen] at he ⊢
      rw [hget]
      split
      · simp
      rename_i hnot
      by_cases hle : 2 ^ (m + 1) < t.length
      · -- the array is cut, and its last slot was an inner node of the tree
        rw [show min (2 ^ (m + 1)) t.length = 2 ^ (m + 1) by omega] at hnot ⊢
        have hx : 2 ^ (m + 1) - 1 = node (m + 1) 0 := by have := node_add_one (m + 1) 0; omega
        rw [hx] at hnot ⊢
        intro hg
        have hnb : ¬ below (m + 1) 0 li := by
          intro hb
          exact hnot (.inr (.inl (above_node.2 ⟨by omega, hp _ _ _ hg hb, hb⟩)))
        have hlim : 2 ^ (m + 1) ≤ li := by
          apply Decidable.byContradiction
          intro hc
          exact hnb ⟨by omega, by omega⟩
        rcases h.good.spine m p hg with ⟨v, h1, h2, h3⟩ | hr
        · rw [node_zero] at h3
          refine h3 (hj3 v ?_ (by omega))
          have := hmh.1
          omega
        · have := hr li hlim
          rw [node_zero] at this
          exact hm this
      · rw [show min (2 ^ (m + 1)) t.length = t.length by omega] at he ⊢
        exact h.phantom K' p he

/-- The nodes above slot `2^(K+1) + 1` are right of slot `2^(K+1)`, or slot `2^(K+1) - 1`. -/
theorem above_stray {K a b : Nat} (ha : 2 ≤ a) (hb : (2 ^ (K + 1) + 1) / 2 ^ (a + 1) = b)
    (hlt : node a b < 2 ^ (K + 1)) : node a b = 2 ^ (K + 1) - 1 := by
  have hn := node_add_one a b
  have h2K : 2 ^ (K + 2) = 2 * 2 ^ (K + 1) := by rw [Nat.pow_succ 2 (K + 1)]; omega
  have hpos := Nat.two_pow_pos (K + 1)
  have hpos' := Nat.two_pow_pos K
  have h1K : 2 ^ (K + 1) = 2 * 2 ^ K := by rw [Nat.pow_succ]; omega
  by_cases haK : K + 1 ≤ a
  · have hb0 : b = 0 := by
      rw [← hb]
      apply Nat.div_eq_of_lt
      have : 2 ^ (K + 2) ≤ 2 ^ (a + 1) := Nat.pow_le_pow_right (by omega) (by omega)
      omega
    subst hb0
    have : 2 ^ (K + 1) ≤ 2 ^ a := Nat.pow_le_pow_right (by omega) haK
    omega
  · exfalso
    have hd : 2 ^ (K + 1) = 2 ^ (a + 1) * 2 ^ (K - a) := by rw [← Nat.pow_add]; congr 1; omega
    have h8 : 2 ^ 3 ≤ 2 ^ (a + 1) := Nat.pow_le_pow_right (by omega) (by omega)
    have hbq : b = 2 ^ (K - a) := by
      rw [← hb, hd, Nat.mul_add_div (by omega), Nat.div_eq_of_lt (by omega)]
      omega
    have : 2 ^ a * (2 * b + 1) = 2 ^ (a + 1) * 2 ^ (K - a) + 2 ^ a := by
      rw [hbq, Nat.pow_succ, Nat.mul_add, Nat.mul_one, Nat.mul_assoc]
    rw [← hd] at this
    have := Nat.two_pow_pos a
    omega

/-- `add` on a full array whose size is a power of two: the leaf goes to an inner node, nothing else
changes. -/
theorem add_even_get {t : RatchetTree} {K : Nat} {leaf : LeafNode} (hlen : t.length = 2 ^ (K + 1))
    (hl : t.length < 2 ^ 31) (hph : ∀ p, t.get (t.length - 1) ≠ some (.Parent p))
    (hall : ∀ i, i < 2 ^ K → t.get (2 * i) ≠ none) :
    ∃ t', t.add leaf = .ok t' ∧ t'.length = 2 * t.length + 1 ∧
      ∀ x, t'.get x = if x = t.length + 1 then some (.Leaf leaf) else t.get x := by
  have h2 : 2 ^ (K + 1) = 2 * 2 ^ K := by rw [Nat.pow_succ]; omega
  have h0 := Nat.two_pow_pos K
  have hlen2 : ((t.length + 1) * 2 - 1 - t.length) = t.length + 1 := by omega
  have hlen3 : (t ++ List.replicate (t.length + 1) none : RatchetTree).length = 2 * t.length + 1 := by
    simp; omega
  have hnl : RatchetTree.num_leaves (t ++ List.replicate (t.length + 1) none) = t.length + 1 := by
    rw [(num_leaves_bounds (by omega) (by omega)).2.2, hlen3]; omega
  obtain ⟨k, i, hki⟩ := node_surj (t.length + 1)
  have hk : 1 ≤ k := by
    apply Decidable.byContradiction
    intro hc
    have : k = 0 := by omega
    subst this
    rw [node_zero] at hki; omega
  have hin : NumLeaves.InTree (NumLeaves.height (t.length + 1)) k i := by
    rw [NumLeaves.inTree_iff, ← hki]
    have h1 := (NumLeaves.height_bounds (n := t.length + 1) (by omega)).2
    have h2 := node_add_one (NumLeaves.height (t.length + 1)) 0
    omega
  have hpath := NumLeaves.direct_path_inTree (by omega) (by omega) hin
  unfold NumLeaves.direct_path at hpath
  rw [← hki] at hpath
  generalize hps : (ancestors k i (NumLeaves.height (t.length + 1) - k)).map (fun p => node p.1 p.2) = ps at hpath
  have hnp : ∀ x p, x ∈ ps → t.get x ≠ some (.Parent p) := by
    intro x p hx hg
    rw [← hps] at hx
    obtain ⟨e, h1, h3, h4⟩ := (ancestors_mem _).1 hx
    have hlt := lt_of_get hg
    have hd : (2 ^ (K + 1) + 1) / 2 ^ (k + e + 1) = i / 2 ^ e := by
      rw [← hlen, hki, show k + e + 1 = (k + 1) + e by omega, Nat.pow_add, ← Nat.div_div_eq_div_mul, node_div]
    rw [h4, hlen] at hlt
    have := above_stray (by omega) hd hlt
    rw [h4, this, ← hlen] at hg
    exact hph p hg
  have hnd : ps.Nodup := hps ▸ ancestors_nodup
  refine ⟨(ps.foldl (pushUnmerged (UInt32.ofNat (2 ^ K))) (t ++ List.replicate (t.length + 1) none)).set
    (t.length + 1) (some (.Leaf leaf)), ?_, ?_, ?_⟩
  · unfold add
    rw [addSearch_full (n := 2 ^ K) (by omega) (by omega) (fun i hi => ⟨by omega, hall i hi⟩) _ _ (by omega)
      (by omega), Res.ok_bind]
    dsimp only
    rw [cast32_eq (by omega), add32, if_pos (show t.length + 1 < 4294967296 by omega), hlen2]
    simp only [Bool.false_eq_true, if_false, Res.ok_bind]
    rw [hnl, walkUp_ok (pushUnmerged (UInt32.ofNat (2 ^ K))) _ _ _ hpath]
    rfl
  · rw [set_length, foldl_push_length, hlen3]
  · intro x
    rw [get_set, foldl_push_length, hlen3, foldl_push_get _ _ hnd, get_pad]
    by_cases hx : x = t.length + 1
    · rw [if_pos ⟨hx, by omega⟩, if_pos hx]
    · rw [if_neg (fun h => hx h.1), if_neg hx]
      split
      · rename_i hmem
        unfold listed
        split
        · rename_i q hg
          exact absurd hg (hnp x q hmem)
        · rfl
      · rfl

theorem inv_add {s : Prop} {t t' : RatchetTree} {leaf : LeafNode} (h : TreeInvIf s t)
    (hroom : (∃ j, 2 * j < t.length ∧ t.get (2 * j) = none) ∨ t.length < 2 ^ 31)
    (hr : t.add leaf = .ok t') : TreeInvIf s t' := by
  by_cases h0 : t.length = 0
  · have : t = [] := List.length_eq_zero_iff.1 h0
    subst this
    rw [add_empty] at hr; cases hr
  have hsize := h.size
  by_cases hf : ∃ j, 2 * j < t.length ∧ t.get (2 * j) = none
  · obtain ⟨_, hf⟩ := hf
    obtain ⟨j, h1, h2, h3⟩ := least_free hf
    obtain ⟨K, hK⟩ := exists_height (num_leaves_bounds (by omega) hsize).1
    obtain ⟨t'', h4, h5, h6⟩ := add_free (leaf := leaf) hsize hK h1 h2 h3
    rw [hr] at h4
    cases h4
    refine ⟨good_add (K := K) (j := j) h.good (by omega) (by rw [node_zero]; exact h2)
      (by intro i hi; rw [node_zero]; exact h3 i hi) h6, by omega, by rw [h5]; exact h.even, ?_⟩
    intro K' p he hg
    rw [h5] at he hg
    rw [h6] at hg
    split at hg
    · cases hg
    · split at hg
      · obtain ⟨q, hq, _⟩ := listed_parent hg
        exact h.phantom K' q he hq
      · exact h.phantom K' p he hg
  · have hl : t.length < 2 ^ 31 := by
      rcases hroom with hroom | hroom
      · exact absurd hroom hf
      · exact hroom
    have hall : ∀ i, 2 * i < t.length → t.get (2 * i) ≠ none := fun i hi hc => hf ⟨i, hi, hc⟩
    rcases Nat.mod_two_eq_zero_or_one t.length with he | ho
    · rcases h.even he with hz | ⟨K, hK⟩
      · exact absurd hz h0
      have h2K : 2 ^ (K + 1) = 2 * 2 ^ K := by rw [Nat.pow_succ]; omega
      obtain ⟨t'', h4, h5, h6⟩ := add_even_get (leaf := leaf) hK hl (fun p => h.phantom K p hK)
        (fun i hi => hall i (by omega))
      rw [hr] at h4
      cases h4
      refine ⟨?_, by omega, fun hev => by omega, fun K' p hK' => by
        rw [Nat.pow_succ] at hK'; omega⟩
      obtain ⟨k, i, hki⟩ := node_surj (t.length + 1)
      have hk : 1 ≤ k := by
        apply Decidable.byContradiction
        intro hc
        have : k = 0 := by omega
        subst this
        rw [node_zero] at hki; omega
      refine good_stray (k0 := k) (i0 := i) h.good hk (by rw [← hki]; exact h6) ?_
      intro j hj
      apply get_out
      rw [node_zero]
      have h7 := node_add_one k i
      have h8 : 2 ^ k * (2 * i + 1) ≤ 2 * ((i + 1) * 2 ^ k) := by
        rw [Nat.mul_comm (2 ^ k), ← Nat.mul_assoc]
        exact Nat.mul_le_mul_right _ (by omega)
      omega
    · obtain ⟨K, hK⟩ := exists_height (n := 2 * ((t.length + 1) / 2)) (by omega)
      obtain ⟨t'', h4, h5, h6⟩ := add_grow (leaf := leaf) (n := (t.length + 1) / 2) (by omega) (by omega) hl hK
        (fun i hi => hall i (by omega))
      rw [hr] at h4
      cases h4
      refine ⟨good_add (K := K) (j := (t.length + 1) / 2) h.good (by omega)
        (by rw [node_zero]; exact get_out (by omega))
        (by intro i hi; rw [node_zero]; exact hall i (by omega)) h6, by omega, fun hev => by omega,
        fun K' p hK' => by rw [Nat.pow_succ] at hK'; omega⟩

end Rmls
