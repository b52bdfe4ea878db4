import Verif.Spec.Onward
import Verif.Proofs.History
/-
The invariant behind property C90: parent hashes of a tree that was accepted, whatever its past.
-/
namespace Rmls
open Spec RatchetTree

/-- What is kept. -/
structure Vouched (H : Bytes → Bytes) (n : Nat → Option Node) : Prop where
  inner : ∀ k i l, n (node (k + 1) i) ≠ some (.Leaf l)
  both : BothUsed n
  listed : ∀ k i p, n (node k i) = some (.Parent p) → ∀ u ∈ p.unmerged_leaves, UnmergedListed n k i u
  one : OneSide H n

/-- Where nothing below a parent changes, its parent hash is found as before. -/
theorem linked_congr {H : Bytes → Bytes} {n n' : Nat → Option Node} {k c s : Nat} {p : ParentNode} (hok : UnmergedMembers n)
    (hc : ∀ x, inSubtree k c x → n' x = n x) (hs : ∀ x, inSubtree k s x → n' x = n x) :
    Linked H n' p k c s ↔ Linked H n p k c s := by
  have hover : parentHashOver H n' p k s = parentHashOver H n p k s := by
    unfold parentHashOver
    rw [treeHash_congr fun x hx => without_congr (hs x hx)]
  unfold Linked
  rw [hover, resolution_congr hc]
  constructor
  · rintro ⟨x, hx, he⟩
    exact ⟨x, hx, by rw [← hc x (members_mem hok hx).1]; exact he⟩
  · rintro ⟨x, hx, he⟩
    exact ⟨x, hx, by rw [hc x (members_mem hok hx).1]; exact he⟩

theorem one_congr {H : Bytes → Bytes} {n n' : Nat → Option Node} {k i : Nat} {p : ParentNode} (hok : UnmergedMembers n)
    (hsame : ∀ x, inSubtree (k + 1) i x → n' x = n x)
    (h : ¬ (Linked H n p k (2 * i) (2 * i + 1) ↔ Linked H n p k (2 * i + 1) (2 * i))) :
    ¬ (Linked H n' p k (2 * i) (2 * i + 1) ↔ Linked H n' p k (2 * i + 1) (2 * i)) := by
  have hl : ∀ x, inSubtree k (2 * i) x → n' x = n x := fun x hx => hsame x (inSubtree_left hx)
  have hr : ∀ x, inSubtree k (2 * i + 1) x → n' x = n x := fun x hx => hsame x (inSubtree_right hx)
  rw [linked_congr hok hl hr, linked_congr hok hr hl]
  exact h

/-! ### adding a member -/

/-- Only the new member comes into resolutions. -/
theorem resolution_add_rev {n n' : Nat → Option Node} {K j : Nat} {leaf : LeafNode} (hj : j < 2 ^ 32)
    (h' : ∀ x, n' x = if x = 2 * j then some (.Leaf leaf)
      else if above K j x then Spec.listed (UInt32.ofNat j) (n x) else n x) :
    ∀ k i x, x ∈ resolution n' k i → x ∈ resolution n k i ∨ x = 2 * j := by
  have hne : ∀ k i, node (k + 1) i ≠ 2 * j := by
    intro k i hc
    rw [← node_zero] at hc
    have := (node_inj hc).1
    omega
  have hone : ∀ k i nd, n (node k i) = some nd → node k i ≠ 2 * j → ∀ x, x ∈ resolution n' k i →
      x ∈ resolution n k i ∨ x = 2 * j := by
    intro k i nd hn hx2 x hx
    have h1 := h' (node k i)
    rw [if_neg hx2, hn] at h1
    rw [resolution_some hn]
    split at h1
    · cases nd with
      | Leaf l => rw [resolution_some (n := .Leaf l) h1] at hx; exact .inl hx
      | Parent p =>
        rw [resolution_some (n := .Parent { p with unmerged_leaves := p.unmerged_leaves ++ [UInt32.ofNat j] }) h1] at hx
        rcases List.mem_cons.1 hx with hx | hx
        · exact .inl (List.mem_cons.2 (.inl hx))
        · rw [List.map_append] at hx
          rcases List.mem_append.1 hx with hx | hx
          · exact .inl (List.mem_cons.2 (.inr hx))
          · right
            rw [List.map_singleton, List.mem_singleton, toNat_ofNat hj, node_zero] at hx
            exact hx
    · rw [resolution_some h1] at hx; exact .inl hx
  intro k
  induction k with
  | zero =>
    intro i x hx
    by_cases hi : node 0 i = 2 * j
    · right
      have h1 := h' (node 0 i)
      rw [if_pos hi] at h1
      rw [resolution_some h1] at hx
      rcases List.mem_cons.1 hx with hx | hx
      · rw [hx]; exact hi
      · cases hx
    · cases hn : n (node 0 i) with
      | none =>
        have h1 := h' (node 0 i)
        rw [if_neg hi, hn] at h1
        have h2 : n' (node 0 i) = none := by rw [h1]; split <;> rfl
        rw [resolution_none_zero h2] at hx; cases hx
      | some nd => exact hone 0 i nd hn hi x hx
  | succ k ih =>
    intro i x hx
    cases hn : n (node (k + 1) i) with
    | none =>
      have h1 := h' (node (k + 1) i)
      rw [if_neg (hne k i), hn] at h1
      have h2 : n' (node (k + 1) i) = none := by rw [h1]; split <;> rfl
      rw [resolution_none_succ h2] at hx
      rw [resolution_none_succ hn]
      rcases List.mem_append.1 hx with hx | hx
      · exact (ih _ _ hx).imp (fun h => List.mem_append.2 (.inl h)) id
      · exact (ih _ _ hx).imp (fun h => List.mem_append.2 (.inr h)) id
    | some nd => exact hone _ i nd hn (hne k i) x hx

theorem vouched_add {s : Prop} {H : Bytes → Bytes} {n n' : Nat → Option Node} (hg : GoodIf s n)
    (h : Vouched H n) {K j : Nat} {leaf : LeafNode} (hj : j < 2 ^ 32) (hlf : NotCommit leaf)
    (hb : n (node 0 j) = none)
    (hp : ∀ k i p, n (node k i) = some (.Parent p) → below k i j → k ≤ K)
    (h' : ∀ x, n' x = if x = 2 * j then some (.Leaf leaf)
      else if above K j x then Spec.listed (UInt32.ofNat j) (n x) else n x) : Vouched H n' := by
  have hne : ∀ k i, node (k + 1) i ≠ 2 * j := by
    intro k i hc
    rw [← node_zero] at hc
    have := (node_inj hc).1
    omega
  have hocc : ∀ i, n (node 0 i) ≠ none → n' (node 0 i) ≠ none := by
    intro i hi
    rw [h', node_zero]
    split
    · simp
    · rw [if_neg (fun h => above_ne_leaf h i rfl), ← node_zero]; exact hi
  have hst : ∀ x, storedParentHash (n' x) = storedParentHash (n x) := by
    intro x
    rw [h']
    split
    · rename_i hx
      rw [hx, ← node_zero, hb]
      unfold storedParentHash
      dsimp only
      split
      · rename_i ph he; exact absurd he (hlf _)
      · rfl
    · split
      · exact storedParentHash_listed _ _
      · rfl
  have hpar : ∀ x p, n' x = some (.Parent p) → ∃ q, n x = some (.Parent q) ∧
      ((¬ above K j x ∧ p = q) ∨ (above K j x ∧ p = { q with unmerged_leaves := q.unmerged_leaves ++ [UInt32.ofNat j] })) := by
    intro x p hx
    rw [h'] at hx
    split at hx
    · cases hx
    · split at hx
      · rename_i ha
        cases hn : n x with
        | none => rw [hn] at hx; cases hx
        | some nd =>
          rw [hn] at hx
          cases nd with
          | Leaf l => cases hx
          | Parent q =>
            simp only [Spec.listed, Option.some.injEq, Node.Parent.injEq] at hx
            exact ⟨q, rfl, .inr ⟨ha, hx.symm⟩⟩
      · rename_i ha
        exact ⟨p, hx, .inl ⟨ha, rfl⟩⟩
  refine ⟨?_, ?_, ?_, ?_⟩
  · intro k i l hx
    rw [h', if_neg (hne k i)] at hx
    split at hx
    · cases hn : n (node (k + 1) i) with
      | none => rw [hn] at hx; cases hx
      | some nd =>
        rw [hn] at hx
        cases nd with
        | Leaf l => exact h.inner k i l hn
        | Parent q => cases hx
    · exact h.inner k i l hx
  · intro k i nd hx
    have hn : n (node (k + 1) i) ≠ none := by
      intro hc
      rw [h', if_neg (hne k i), hc] at hx
      split at hx <;> cases hx
    cases hn' : n (node (k + 1) i) with
    | none => exact absurd hn' hn
    | some nd' =>
      obtain ⟨⟨a, h1, h2⟩, ⟨b, h3, h4⟩⟩ := h.both k i nd' hn'
      exact ⟨⟨a, h1, hocc a h2⟩, ⟨b, h3, hocc b h4⟩⟩
  · intro k i p hx u hu
    obtain ⟨q, hq, hcase⟩ := hpar _ _ hx
    have hold : ∀ v ∈ q.unmerged_leaves, UnmergedListed n' k i v := by
      intro v hv
      obtain ⟨h1, h2⟩ := h.listed k i q hq v hv
      refine ⟨h1, fun m r hm1 hm2 hr => ?_⟩
      obtain ⟨r', hr', hc⟩ := hpar _ _ hr
      have := h2 m r' hm1 hm2 hr'
      rcases hc with ⟨_, rfl⟩ | ⟨_, rfl⟩
      · exact this
      · exact List.mem_append.2 (.inl this)
    rcases hcase with ⟨_, rfl⟩ | ⟨ha, rfl⟩
    · exact hold u hu
    · rcases List.mem_append.1 hu with hu | hu
      · exact hold u hu
      · rw [List.mem_singleton] at hu
        subst hu
        obtain ⟨hk1, hkK, hbj⟩ := above_node.1 ha
        refine ⟨by rw [toNat_ofNat hj]; exact hbj, fun m r hm1 hm2 hr => ?_⟩
        rw [toNat_ofNat hj] at hr
        obtain ⟨r', hr', hc⟩ := hpar _ _ hr
        rcases hc with ⟨hna, _⟩ | ⟨_, rfl⟩
        · exact absurd ⟨m, hm1, by omega, rfl⟩ hna
        · simp
  · intro k i p hx
    obtain ⟨q, hq, hcase⟩ := hpar _ _ hx
    rcases hcase with ⟨hna, rfl⟩ | ⟨ha, rfl⟩
    · have hnb : ¬ below (k + 1) i j := by
        intro hc
        exact hna (above_node.2 ⟨by omega, hp _ _ _ hq hc, hc⟩)
      refine one_congr hg.mem (fun x hx => ?_) (h.one k i _ hq)
      rw [h', if_neg (by rintro rfl; exact hnb (inSubtree_leaf' hx)),
        if_neg (fun ha => hnb (inSubtree_above ha hx))]
    · have key : ∀ c s, Linked H n' { q with unmerged_leaves := q.unmerged_leaves ++ [UInt32.ofNat j] } k c s ↔
          Linked H n q k c s := by
        intro c s
        have hover : parentHashOver H n' { q with unmerged_leaves := q.unmerged_leaves ++ [UInt32.ofNat j] } k s =
            parentHashOver H n q k s := by
          unfold parentHashOver
          rw [treeHash_congr fun y _ => without_add hj hg.mem hb h' q.unmerged_leaves y]
          rfl
        unfold Linked
        rw [hover]
        constructor
        · rintro ⟨x, hx, he⟩
          rw [hst] at he
          rcases resolution_add_rev hj h' k c x hx with h1 | h1
          · exact ⟨x, h1, he⟩
          · rw [h1, ← node_zero, hb] at he; cases he
        · rintro ⟨x, hx, he⟩
          exact ⟨x, resolution_add hb h' k c x hx, by rw [hst]; exact he⟩
      rw [key, key]
      exact h.one k i q hq

/-! ### updating and removing a member -/

/-- Nodes become blank, or a leaf; below the parents that stay, nothing changes. -/
theorem vouched_blank {s : Prop} {H : Bytes → Bytes} {n n' : Nat → Option Node} (hg : GoodIf s n) (h : Vouched H n)
    (h' : ∀ x, n' x = n x ∨ n' x = none ∨ ∃ i leaf, x = node 0 i ∧ n' x = some (.Leaf leaf))
    (hsub : ∀ k i p, n' (node (k + 1) i) = some (.Parent p) → ∀ x, inSubtree (k + 1) i x → n' x = n x) :
    Vouched H n' := by
  have hpar : ∀ x p, n' x = some (.Parent p) → n x = some (.Parent p) := by
    intro x p hx
    rcases h' x with h1 | h1 | ⟨_, _, _, h1⟩
    · rw [← h1]; exact hx
    · rw [h1] at hx; cases hx
    · rw [h1] at hx; cases hx
  have hin : ∀ k i l, n' (node (k + 1) i) ≠ some (.Leaf l) := by
    intro k i l hx
    rcases h' (node (k + 1) i) with h1 | h1 | ⟨a, _, h2, _⟩
    · rw [h1] at hx; exact h.inner k i l hx
    · rw [h1] at hx; cases hx
    · have := (node_inj h2).1
      omega
  refine ⟨hin, ?_, ?_, ?_⟩
  · intro k i nd hx
    cases nd with
    | Leaf l => exact absurd hx (hin k i l)
    | Parent p =>
      obtain ⟨⟨a, h1, h2⟩, ⟨b, h3, h4⟩⟩ := h.both k i _ (hpar _ _ hx)
      refine ⟨⟨a, h1, ?_⟩, ⟨b, h3, ?_⟩⟩
      · rw [hsub k i p hx _ (inSubtree_left (inSubtree_leaf.2 h1))]; exact h2
      · rw [hsub k i p hx _ (inSubtree_right (inSubtree_leaf.2 h3))]; exact h4
  · intro k i p hx u hu
    obtain ⟨h1, h2⟩ := h.listed k i p (hpar _ _ hx) u hu
    exact ⟨h1, fun m q hm1 hm2 hq => h2 m q hm1 hm2 (hpar _ _ hq)⟩
  · intro k i p hx
    exact one_congr hg.mem (hsub k i p hx) (h.one k i p (hpar _ _ hx))

theorem vouched_update {s : Prop} {H : Bytes → Bytes} {n n' : Nat → Option Node} (hg : GoodIf s n) (h : Vouched H n) {K li : Nat}
    {leaf : LeafNode} (hp : ∀ k i p, n (node k i) = some (.Parent p) → below k i li → k ≤ K)
    (h' : ∀ x, n' x = if x = 2 * li then some (.Leaf leaf) else if above K li x then none else n x) :
    Vouched H n' := by
  refine vouched_blank hg h (fun x => ?_) ?_
  · rw [h']
    split
    · rename_i hx
      exact .inr (.inr ⟨li, leaf, by rw [node_zero]; exact hx, rfl⟩)
    · split
      · exact .inr (.inl rfl)
      · exact .inl rfl
  · intro k i p hx x hs
    rw [h'] at hx
    split at hx
    · cases hx
    split at hx
    · cases hx
    rename_i hna
    have hnb : ¬ below (k + 1) i li := fun hc => hna (above_node.2 ⟨by omega, hp _ _ _ hx hc, hc⟩)
    rw [h', if_neg (by rintro rfl; exact hnb (inSubtree_leaf' hs)), if_neg (fun ha => hnb (inSubtree_above ha hs))]

theorem vouched_remove {s : Prop} {H : Bytes → Bytes} {n n' : Nat → Option Node} (hg : GoodIf s n)
    (h : Vouched H n) {K li c : Nat} (hc2 : c = 0 ∨ ∃ m, c = 2 ^ (m + 1))
    (h' : ∀ x, n' x = if x = 2 * li ∨ above K li x ∨ c ≤ x then none else n x)
    (hc : ∀ i, c ≤ 2 * i → i ≠ li → n (2 * i) = none)
    (hp : ∀ k i p, n (node k i) = some (.Parent p) → below k i li → k ≤ K) : Vouched H n' := by
  refine vouched_blank hg h (fun x => ?_) ?_
  · rw [h']
    split
    · exact .inr (.inl rfl)
    · exact .inl rfl
  · intro k i p hx x hs
    rw [h'] at hx
    split at hx
    · cases hx
    rename_i hnot
    have hnb : ¬ below (k + 1) i li := fun hb =>
      hnot (.inr (.inl (above_node.2 ⟨by omega, hp _ _ _ hx hb, hb⟩)))
    obtain ⟨_, ⟨v, hv1, hv2⟩⟩ := h.both k i _ hx
    have hvl : v ≠ li := by rintro rfl; exact hnb (below_child (by omega) hv1)
    have hvc : 2 * v < c := by
      apply Decidable.byContradiction
      intro hcc
      rw [node_zero] at hv2
      exact hv2 (hc v (by omega) hvl)
    have hxc : x < c := by
      rcases hc2 with rfl | ⟨m, rfl⟩
      · omega
      · exact subtree_left hv1 (by rw [Nat.pow_succ] at hvc; omega) hs
    rw [h', if_neg]
    rintro (rfl | ha | hcx)
    · exact hnb (inSubtree_leaf' hs)
    · exact hnb (inSubtree_above ha hs)
    · omega

/-! ### merging a path -/

theorem vouched_merge {s : Prop} {H : Bytes → Bytes} {n n' : Nat → Option Node} (hg : GoodIf s n)
    (h : Vouched H n) {K j : Nat} {path : UpdatePath} (hocc : n (node 0 j) ≠ none)
    (hp : ∀ k i p, n (node k i) = some (.Parent p) → below k i j → k ≤ K)
    (hm : MergedPath H n n' K j path) (hun : Unforeseen H n n' j) : Vouched H n' := by
  have hnone : ∀ i, n' (node 0 i) = none ↔ n (node 0 i) = none := by
    intro i
    by_cases hi : i = j
    · subst hi
      rw [hm.leaf]
      constructor
      · intro hc; cases hc
      · intro hc; exact absurd hc hocc
    · rw [hm.out _ (fun ha => above_ne_leaf ha i (node_zero i)) (by rw [node_zero, node_zero]; omega)]
  -- a parent of the new tree is on the path, or nothing changed below it
  have hpar : ∀ k i p, n' (node (k + 1) i) = some (.Parent p) →
      (i = j / 2 ^ (k + 1) ∧ k + 1 ≤ K) ∨
      (n (node (k + 1) i) = some (.Parent p) ∧ ∀ x, inSubtree (k + 1) i x → n' x = n x) := by
    intro k i p hx
    by_cases ha : above K j (node (k + 1) i)
    · obtain ⟨_, h1, h2⟩ := above_node.1 ha
      exact .inl ⟨(below_div.1 h2).symm, h1⟩
    · right
      have hq : n (node (k + 1) i) = some (.Parent p) := by
        rw [← hm.out _ ha (fun hc => by have := (node_inj hc).1; omega)]; exact hx
      have hnb : ¬ below (k + 1) i j := fun hc => ha (above_node.2 ⟨by omega, hp _ _ _ hq hc, hc⟩)
      refine ⟨hq, fun x hs => hm.out x (fun ha => hnb (inSubtree_above ha hs)) ?_⟩
      rintro rfl
      exact hnb (inSubtree_leaf.1 hs)
  refine ⟨?_, ?_, ?_, ?_⟩
  · intro k i l hx
    by_cases ha : above K j (node (k + 1) i)
    · obtain ⟨a, h1, h2, he⟩ := above_anc.1 ha
      rw [he] at hx
      obtain ⟨_, p, hc, _⟩ := hm.on a _ h1 h2 hx
      cases hc
    · rw [hm.out _ ha (fun hc => by have := (node_inj hc).1; omega)] at hx
      exact h.inner k i l hx
  · intro k i nd hx
    by_cases ha : above K j (node (k + 1) i)
    · obtain ⟨_, hkK, hb⟩ := above_node.1 ha
      have hi : i = j / 2 ^ (k + 1) := (below_div.1 hb).symm
      subst hi
      obtain ⟨hf, _⟩ := hm.on (k + 1) nd (by omega) hkK hx
      obtain ⟨_, _, hne⟩ := filteredLevels_mem.1 hf
      rw [show k + 1 - 1 = k by omega, Ne, resolution_empty_iff] at hne
      obtain ⟨x, hx1, hx2⟩ : ∃ x, inSubtree k (sib j k) x ∧ n x ≠ none := by
        apply Classical.byContradiction
        intro hc
        exact hne fun x hx => Decidable.byContradiction fun h => hc ⟨x, hx, h⟩
      obtain ⟨v, hv1, hv2⟩ := used_below h.both hx1 hx2
      have hvn : n' (node 0 v) ≠ none := by rw [Ne, hnone]; exact hv2
      have hjn : n' (node 0 j) ≠ none := by rw [Ne, hnone]; exact hocc
      have hjb : below k (j / 2 ^ k) j := below_div.2 rfl
      unfold sib at hv1
      rcases siblingPos_cases (j / 2 ^ k) with ⟨h1, h2⟩ | ⟨h1, h2⟩ <;> rw [anc_div] at h1 h2
      · rw [h2] at hv1; rw [h1] at hjb
        exact ⟨⟨j, hjb, hjn⟩, ⟨v, hv1, hvn⟩⟩
      · rw [h2] at hv1; rw [h1] at hjb
        exact ⟨⟨v, hv1, hvn⟩, ⟨j, hjb, hjn⟩⟩
    · rw [hm.out _ ha (fun hc => by have := (node_inj hc).1; omega)] at hx
      obtain ⟨⟨a, h1, h2⟩, ⟨b, h3, h4⟩⟩ := h.both k i nd hx
      exact ⟨⟨a, h1, by rw [Ne, hnone]; exact h2⟩, ⟨b, h3, by rw [Ne, hnone]; exact h4⟩⟩
  · intro k i p hx u hu
    by_cases hk : k = 0
    · subst hk
      exfalso
      by_cases hi : i = j
      · subst hi; rw [hm.leaf] at hx; cases hx
      · rw [hm.out _ (fun ha => above_ne_leaf ha i (node_zero i)) (by rw [node_zero, node_zero]; omega)] at hx
        exact hg.leaf i p hx
    obtain ⟨k, rfl⟩ : ∃ m, k = m + 1 := ⟨k - 1, by omega⟩
    rcases hpar k i p hx with ⟨rfl, hkK⟩ | ⟨hq, hsame⟩
    · obtain ⟨_, p', he, hun, _⟩ := hm.on (k + 1) _ (by omega) hkK hx
      cases he
      rw [hun] at hu; cases hu
    · obtain ⟨h1, h2⟩ := h.listed (k + 1) i p hq u hu
      refine ⟨h1, fun m q hm1 hm2 hqm => h2 m q hm1 hm2 ?_⟩
      rw [← hsame]
      · exact hqm
      · refine inSubtree_node.2 ⟨by omega, ?_⟩
        rw [Nat.div_div_eq_div_mul, ← Nat.pow_add, show m + (k + 1 - m) = k + 1 by omega]
        exact below_div.1 h1
  · intro k i p hx
    rcases hpar k i p hx with ⟨rfl, hkK⟩ | ⟨hq, hsame⟩
    · obtain ⟨_, p', he, hnil, _⟩ := hm.on (k + 1) _ (by omega) hkK hx
      cases he
      have hyes : Linked H n' p k (j / 2 ^ k) (sib j k) := by
        have h0 : n' (anc j 0) ≠ none := by rw [anc_zero, hm.leaf]; simp
        obtain ⟨a, hnu, hna⟩ := nextDown (b := k + 1) h0 (by omega) hkK (by unfold anc; rw [hx]; simp)
        have hres := anc_resolution (n := n') hna (k - a) (fun c h1 h2 => hnu.2.2.2 c h1 (by have := hnu.1; omega))
        rw [show a + (k - a) = k by have := hnu.1; omega] at hres
        refine ⟨anc j a, hres, ?_⟩
        have hov : parentHashOver H n' p k (sib j k) = parentHash H n' j (k + 1) p := by
          unfold parentHashOver parentHash
          rw [hnil, without_nil, show k + 1 - 1 = k by omega]
        rw [hov]
        by_cases ha : a = 0
        · subst ha
          obtain ⟨b, q, hnb, hq, hsrc⟩ := hm.first
          have hbk := nextUp_unique hnb hnu
          subst hbk
          unfold anc at hq
          rw [hx] at hq
          cases hq
          rw [anc_zero, hm.leaf]
          unfold storedParentHash
          dsimp only
          rw [hsrc]
        · cases hnx : n' (anc j a) with
          | none => exact absurd hnx hna
          | some nd =>
            obtain ⟨_, q, rfl, _, _⟩ := hm.on a nd (by omega) (by have := hnu.1; omega) hnx
            show some q.parent_hash = _
            rw [hm.up a q (k + 1) p (by omega) hnx hnu hx]
      have hno : ¬ Linked H n' p k (sib j k) (j / 2 ^ k) := by
        rintro ⟨x, hx2, he⟩
        have hsame : ∀ x, inSubtree k (sib j k) x → n' x = n x := fun x hxs =>
          hm.out x (fun ⟨l, _, _, hc⟩ => sib_disjoint hxs hc) (by rw [← anc_zero]; exact sib_disjoint hxs)
        rw [resolution_congr hsame] at hx2
        rw [hsame x (members_mem hg.mem hx2).1] at he
        refine hun k p x hx hx2 (he.trans ?_)
        unfold parentHashOver
        rw [hnil, without_nil]
      have hcs := siblingPos_cases (j / 2 ^ k)
      rw [anc_div] at hcs
      unfold sib at hyes hno
      rcases hcs with ⟨h1, h2⟩ | ⟨h1, h2⟩ <;> rw [h2] at hyes hno <;> rw [h1] at hyes hno
      · exact fun hc => hno (hc.1 hyes)
      · exact fun hc => hno (hc.2 hyes)
    · exact one_congr hg.mem hsame (h.one k i p hq)

end Rmls
