import Verif.Spec.PathSize
import Verif.Props.Knowledge
/-
Counting over subtrees, and a member below every parent.
-/
namespace Rmls
open Spec RatchetTree

/-- The sum over `n` nodes from `a` on. -/
def sumFrom (f : Nat → Nat) (a n : Nat) : Nat := ((List.range n).map fun d => f (a + d)).sum

theorem sumFrom_zero (f : Nat → Nat) (a : Nat) : sumFrom f a 0 = 0 := rfl

theorem sumFrom_succ (f : Nat → Nat) (a n : Nat) : sumFrom f a (n + 1) = sumFrom f a n + f (a + n) := by
  unfold sumFrom
  rw [List.range_succ, List.map_append, List.sum_append_nat]
  simp

theorem sumFrom_add (f : Nat → Nat) (a m : Nat) : ∀ n, sumFrom f a (m + n) = sumFrom f a m + sumFrom f (a + m) n
  | 0 => by rw [sumFrom_zero]; rfl
  | n + 1 => by rw [← Nat.add_assoc, sumFrom_succ, sumFrom_succ, sumFrom_add f a m n, Nat.add_assoc, Nat.add_assoc]

theorem sumFrom_plus (f g : Nat → Nat) (a : Nat) : ∀ n, sumFrom (fun x => f x + g x) a n = sumFrom f a n + sumFrom g a n
  | 0 => rfl
  | n + 1 => by rw [sumFrom_succ, sumFrom_succ, sumFrom_succ, sumFrom_plus f g a n]; omega

theorem sumFrom_filter (p : Nat → Bool) : ∀ n, sumFrom (fun x => if p x then 1 else 0) 0 n = ((List.range n).filter p).length
  | 0 => rfl
  | n + 1 => by
    rw [sumFrom_succ, List.range_succ, List.filter_append, List.length_append, sumFrom_filter p n, Nat.zero_add]
    cases hp : p n <;> simp [hp]

theorem sumFrom_eq (f : Nat → Nat) (n : Nat) : sumFrom f 0 n = ((List.range n).map f).sum := by
  unfold sumFrom; simp

/-- The sum over the nodes of a subtree. -/
def sumBelow (f : Nat → Nat) (k i : Nat) : Nat := sumFrom f (i * 2 ^ (k + 1)) (2 ^ (k + 1) - 1)

theorem sumBelow_zero (f : Nat → Nat) (i : Nat) : sumBelow f 0 i = f (node 0 i) := by
  unfold sumBelow
  rw [show 2 ^ (0 + 1) - 1 = 0 + 1 from rfl, sumFrom_succ, sumFrom_zero, node_zero, Nat.zero_add, Nat.add_zero]
  congr 1
  omega

theorem sumBelow_succ (f : Nat → Nat) (k i : Nat) :
    sumBelow f (k + 1) i = sumBelow f k (2 * i) + f (node (k + 1) i) + sumBelow f k (2 * i + 1) := by
  unfold sumBelow
  have hp : 2 ^ (k + 1 + 1) = 2 * 2 ^ (k + 1) := by rw [Nat.pow_succ]; omega
  have h0 := Nat.two_pow_pos (k + 1)
  have hn : node (k + 1) i + 1 = (2 * i + 1) * 2 ^ (k + 1) := by rw [node_add_one, Nat.mul_comm]
  rw [hp, show 2 * 2 ^ (k + 1) - 1 = (2 ^ (k + 1) - 1 + 1) + (2 ^ (k + 1) - 1) by omega, sumFrom_add, sumFrom_succ]
  have e1 : i * (2 * 2 ^ (k + 1)) = 2 * i * 2 ^ (k + 1) := by rw [← Nat.mul_assoc, Nat.mul_comm i 2]
  have e2 : (2 * i + 1) * 2 ^ (k + 1) = 2 * i * 2 ^ (k + 1) + 2 ^ (k + 1) := by rw [Nat.add_mul, Nat.one_mul]
  rw [e1, e2, show 2 * i * 2 ^ (k + 1) + (2 ^ (k + 1) - 1) = node (k + 1) i by omega,
    show 2 * i * 2 ^ (k + 1) + (2 ^ (k + 1) - 1 + 1) = 2 * i * 2 ^ (k + 1) + 2 ^ (k + 1) by omega]

theorem sumBelow_root (f : Nat → Nat) (K : Nat) : sumBelow f K 0 = ((List.range (2 ^ (K + 1) - 1)).map f).sum := by
  unfold sumBelow; rw [Nat.zero_mul, sumFrom_eq]

/-- A subtree is the leaf, its ancestors, and what is on the copath. -/
theorem sumBelow_path (f : Nat → Nat) (j : Nat) : ∀ K, sumBelow f K (j / 2 ^ K) =
    f (node 0 j) + ((List.range K).map fun k => f (anc j (k + 1)) + sumBelow f k (sib j k)).sum
  | 0 => by rw [sumBelow_zero]; simp
  | K + 1 => by
    rw [sumBelow_succ, List.range_succ, List.map_append, List.sum_append_nat, ← Nat.add_assoc, ← sumBelow_path f j K]
    simp only [List.map_cons, List.map_nil, List.sum_cons, List.sum_nil, Nat.add_zero]
    have hd : j / 2 ^ (K + 1) = j / 2 ^ K / 2 := by rw [Nat.pow_succ, Nat.div_div_eq_div_mul]
    unfold anc sib siblingPos
    rw [hd]
    generalize j / 2 ^ K = a
    split
    · rw [show 2 * (a / 2) = a by omega]; omega
    · rw [show 2 * (a / 2) = a - 1 by omega, show a - 1 + 1 = a by omega]; omega

theorem sum_le_sum {f g : Nat → Nat} (h : ∀ k, f k ≤ g k) : ∀ l : List Nat, (l.map f).sum ≤ (l.map g).sum
  | [] => Nat.le_refl _
  | k :: l => by
    have := h k
    have := sum_le_sum h l
    simp only [List.map_cons, List.sum_cons]
    omega

theorem sum_add_one (f : Nat → Nat) : ∀ l : List Nat, (l.map fun k => 1 + f k).sum = l.length + (l.map f).sum
  | [] => rfl
  | k :: l => by
    simp only [List.map_cons, List.sum_cons, List.length_cons, sum_add_one f l]
    omega

/-- Different leaves of a subtree with weight are no more than the weight. -/
theorem leaves_le (f : Nat → Nat) : ∀ (k i : Nat) (l : List Nat), l.Nodup → (∀ j ∈ l, below k i j ∧ 0 < f (node 0 j)) →
    l.length ≤ sumBelow f k i
  | 0, i, l, hn, h => by
    rw [sumBelow_zero]
    have h1 : ∀ j ∈ l, j = i := fun j hj => by have := (h j hj).1; rw [below_div] at this; simpa using this
    match l, hn, h, h1 with
    | [], _, _, _ => exact Nat.zero_le _
    | [a], _, h, h1 =>
      have := (h a List.mem_cons_self).2
      rw [h1 a List.mem_cons_self] at this
      exact this
    | a :: b :: l, hn, _, h1 =>
      rw [h1 a List.mem_cons_self, h1 b (List.mem_cons_of_mem _ List.mem_cons_self)] at hn
      simp at hn
  | k + 1, i, l, hn, h => by
    rw [sumBelow_succ]
    have hsplit : ∀ j ∈ l, j / 2 ^ k = 2 * i ∨ j / 2 ^ k = 2 * i + 1 := fun j hj => by
      have := (h j hj).1
      rw [below_div, Nat.pow_succ, ← Nat.div_div_eq_div_mul] at this
      omega
    have hlen : ∀ l : List Nat, (∀ j ∈ l, j / 2 ^ k = 2 * i ∨ j / 2 ^ k = 2 * i + 1) → l.length =
        (l.filter fun j => decide (j / 2 ^ k = 2 * i)).length + (l.filter fun j => decide (j / 2 ^ k = 2 * i + 1)).length := by
      intro l
      induction l with
      | nil => intro _; rfl
      | cons j l ih =>
        intro hl
        have := ih fun x hx => hl x (List.mem_cons_of_mem _ hx)
        rcases hl j List.mem_cons_self with hj | hj
        · rw [List.filter_cons_of_pos (by simp [hj]), List.filter_cons_of_neg (by simp [hj])]
          simp only [List.length_cons]; omega
        · rw [List.filter_cons_of_neg (by simp [hj]), List.filter_cons_of_pos (by simp [hj])]
          simp only [List.length_cons]; omega
    have h1 := leaves_le f k (2 * i) _ (hn.sublist List.filter_sublist) fun j hj => by
      obtain ⟨a, b⟩ := List.mem_filter.1 hj
      exact ⟨below_div.2 (of_decide_eq_true b), (h j a).2⟩
    have h2 := leaves_le f k (2 * i + 1) _ (hn.sublist List.filter_sublist) fun j hj => by
      obtain ⟨a, b⟩ := List.mem_filter.1 hj
      exact ⟨below_div.2 (of_decide_eq_true b), (h j a).2⟩
    have := hlen l hsplit
    omega

/-- One node of a resolution for each member. -/
theorem resolution_le_members {n : Nat → Option Node} (hs : LeafShaped n) (hi : InnerShaped n) (hu : UnmergedOk n) (ha : Alive n)
    (f : Nat → Nat) (hf : ∀ j, n (node 0 j) ≠ none → 0 < f (node 0 j)) : ∀ k i, (resolution n k i).length ≤ sumBelow f k i
  | 0, i => by
    rw [sumBelow_zero]
    cases hn : n (node 0 i) with
    | none => rw [resolution_none_zero hn]; exact Nat.zero_le _
    | some nd =>
      cases nd with
      | Parent p => exact absurd hn (hs i p)
      | Leaf l => rw [resolution_some hn]; exact hf i (by rw [hn]; nofun)
  | k + 1, i => by
    cases hn : n (node (k + 1) i) with
    | none =>
      rw [resolution_none_succ hn, List.length_append, sumBelow_succ]
      have := resolution_le_members hs hi hu ha f hf k (2 * i)
      have := resolution_le_members hs hi hu ha f hf k (2 * i + 1)
      omega
    | some nd =>
      cases nd with
      | Leaf l => exact absurd hn (hi k i l)
      | Parent p =>
        rw [resolution_some hn]
        obtain ⟨j, h1, h2, h3⟩ := ha (k + 1) i p hn
        obtain ⟨h4, h5⟩ := hu (k + 1) i p hn
        have := leaves_le f (k + 1) i (j :: p.unmerged_leaves.map (·.toNat)) (by
          rw [List.nodup_cons]
          refine ⟨fun hm => ?_, ?_⟩
          · obtain ⟨u, hu1, hu2⟩ := List.mem_map.1 hm
            exact h3 u hu1 hu2
          · exact (List.pairwise_map.2 h4).imp Nat.ne_of_lt) fun x hx => by
          rcases List.mem_cons.1 hx with rfl | hx
          · exact ⟨h1, hf _ h2⟩
          · obtain ⟨u, hu1, rfl⟩ := List.mem_map.1 hx
            obtain ⟨h6, l, h7⟩ := h5 u hu1
            exact ⟨h6, hf _ (by rw [h7]; nofun)⟩
        simpa using this

/-- One node of a resolution, and one more for each blank parent and each unmerged leaf. -/
theorem resolution_le_blanks (n : Nat → Option Node) (f : Nat → Nat) (hf : ∀ k i, n (node (k + 1) i) = none → 0 < f (node (k + 1) i))
    (hu : ∀ x, unmergedAt (n x) ≤ f x) : ∀ k i, (resolution n k i).length ≤ 1 + sumBelow f k i
  | 0, i => by
    rw [sumBelow_zero]
    have := hu (node 0 i)
    cases hn : n (node 0 i) with
    | none => rw [resolution_none_zero hn]; exact Nat.zero_le _
    | some nd =>
      rw [hn] at this
      rw [resolution_some hn]
      cases nd with
      | Leaf l => simp
      | Parent p => simp [unmergedAt] at this ⊢; omega
  | k + 1, i => by
    rw [sumBelow_succ]
    have h0 := hu (node (k + 1) i)
    cases hn : n (node (k + 1) i) with
    | none =>
      rw [resolution_none_succ hn, List.length_append]
      have := hf k i hn
      have := resolution_le_blanks n f hf hu k (2 * i)
      have := resolution_le_blanks n f hf hu k (2 * i + 1)
      omega
    | some nd =>
      rw [hn] at h0
      rw [resolution_some hn]
      cases nd with
      | Leaf l => simp
      | Parent p => simp [unmergedAt] at h0 ⊢; omega

/-! ### A member below every parent -/

theorem alive_single (l : LeafNode) : Alive (RatchetTree.get [some (.Leaf l)]) := by
  intro k i p h
  have hlt := lt_of_get h
  simp only [List.length_cons, List.length_nil] at hlt
  rw [show node k i = 0 by omega] at h
  cases h

theorem alive_of_add {t t' : RatchetTree} {leaf : LeafNode} {j K : Nat} (h : Alive t.get) (hj : t.get (2 * j) = none)
    (hj32 : j < 2 ^ 32)
    (hg : ∀ x, t'.get x = if x = 2 * j then some (.Leaf leaf)
      else if above K j x then listed (UInt32.ofNat j) (t.get x) else t.get x) : Alive t'.get := by
  intro k i p hp
  have hu : (UInt32.ofNat j).toNat = j := by rw [UInt32.toNat_ofNat_of_lt']; exact hj32
  have hocc : ∀ a, t.get (node 0 a) ≠ none → t'.get (node 0 a) ≠ none ∧ a ≠ j := by
    intro a ha
    have haj : a ≠ j := by rintro rfl; rw [node_zero] at ha; exact ha hj
    rw [node_zero, hg, if_neg (by omega), if_neg (fun ha => above_odd ha rfl), ← node_zero]
    exact ⟨ha, haj⟩
  rw [hg] at hp
  split at hp
  · cases hp
  split at hp
  · cases hw : t.get (node k i) with
    | none => rw [hw] at hp; cases hp
    | some n0 =>
      rw [hw] at hp
      cases n0 with
      | Leaf l => cases hp
      | Parent q =>
        cases hp
        obtain ⟨a, h1, h2, h3⟩ := h k i q hw
        obtain ⟨h4, h5⟩ := hocc a h2
        refine ⟨a, h1, h4, fun u hu' => ?_⟩
        rcases List.mem_append.1 hu' with h6 | h6
        · exact h3 u h6
        · rw [List.mem_singleton.1 h6, hu]; exact Ne.symm h5
  · obtain ⟨a, h1, h2, h3⟩ := h k i p hp
    exact ⟨a, h1, (hocc a h2).1, h3⟩

theorem alive_add {t t' : RatchetTree} {leaf : LeafNode} (hk : Kept t) (h : Alive t.get)
    (hr : (∃ j, 2 * j < t.length ∧ t.get (2 * j) = none) ∨ (t.length % 2 = 1 ∧ t.length < 2 ^ 31))
    (ha : t.add leaf = .ok t') : Alive t'.get := by
  have hsz := hk.inv.size
  by_cases hf : ∃ j, 2 * j < t.length ∧ t.get (2 * j) = none
  · obtain ⟨j0, hj0⟩ := hf
    obtain ⟨a, h1, h2, h3⟩ := least_free hj0
    obtain ⟨K, hK, _⟩ := hk.height (by omega)
    have hKh : IsHeight t.num_leaves K := by rw [hK]; exact pow_isHeight K
    obtain ⟨t1, ha1, _, hg⟩ := add_free (leaf := leaf) hsz hKh h1 h2 h3
    rw [ha] at ha1; cases ha1
    exact alive_of_add h h2 (by omega) hg
  · have ⟨hodd, h31⟩ := hr.resolve_left hf
    obtain ⟨K, hK, hlen, _⟩ := hk.height (by omega)
    have h2 : 2 ^ (K + 1) = 2 * 2 ^ K := by rw [Nat.pow_succ]; omega
    have hpos := Nat.two_pow_pos K
    obtain ⟨t1, ha1, _, hg⟩ := add_grow (t := t) (n := 2 ^ K) (K := K + 1) (leaf := leaf) (by omega) (by omega) h31
      (by rw [← h2]; exact pow_isHeight _) (fun i hi hc => hf ⟨i, by omega, hc⟩)
    rw [ha] at ha1; cases ha1
    exact alive_of_add h (get_out (by omega)) (by omega) hg

theorem alive_update {t t' : RatchetTree} {li : Nat} {leaf : LeafNode} (hk : Kept t) (h : Alive t.get)
    (hm : t.get (2 * li) ≠ none) (ha : t.update li leaf = .ok t') : Alive t'.get := by
  have hlt := Kept.pos hm
  have hsz := hk.inv.size
  obtain ⟨K, hK, _⟩ := hk.height (by omega)
  have hKh : IsHeight t.num_leaves K := by rw [hK]; exact pow_isHeight K
  obtain ⟨t1, ha1, hl, hg⟩ := update_in (leaf := leaf) (by omega) hsz hKh (leaf_in_tree (by omega) hsz hKh hlt)
  rw [ha] at ha1; cases ha1
  intro k i p hp
  rw [hg] at hp
  split at hp
  · cases hp
  split at hp
  · cases hp
  · obtain ⟨a, h1, h2, h3⟩ := h k i p hp
    refine ⟨a, h1, ?_, h3⟩
    rw [node_zero, hg]
    split
    · nofun
    · rw [if_neg (fun ha => above_odd ha rfl), ← node_zero]; exact h2

theorem alive_remove {t t' : RatchetTree} {li : Nat} (hk : Kept t) (h : Alive t.get)
    (hm : t.get (2 * li) ≠ none) (ha : t.remove li = .ok t') : Alive t'.get := by
  have hlt := Kept.pos hm
  have hsz := hk.inv.size
  obtain ⟨K, hK, _⟩ := hk.height (by omega)
  have hKh : IsHeight t.num_leaves K := by rw [hK]; exact pow_isHeight K
  have hli := leaf_in_tree (by omega) hsz hKh hlt
  obtain ⟨c, hget, hcut⟩ : ∃ c, (∀ x, t'.get x = if x = 2 * li ∨ above K li x ∨ c ≤ x then none else t.get x) ∧
      ∀ i, c ≤ 2 * i → i ≠ li → t.get (2 * i) = none := by
    rcases last_member t li with hall | ⟨j, hj1, hj2, hj3⟩
    · rw [remove_clear (by omega) hsz hKh hli hall] at ha
      cases ha
      exact ⟨0, fun x => by rw [if_pos (.inr (.inr (by omega)))]; rfl, fun i _ hi => hall i hi⟩
    · obtain ⟨m, hmh⟩ := exists_height (show 0 < j + 1 by omega)
      rw [remove_last (by omega) hsz hKh hli hj1 hj2 hj3 hmh] at ha
      cases ha
      refine ⟨2 ^ (m + 1), fun x => ?_, fun i hc hi => ?_⟩
      · rw [get_take, blanked_get]
        by_cases hc : x < 2 ^ (m + 1)
        · rw [if_pos hc]
          by_cases h2 : x = 2 * li ∨ above K li x
          · rw [if_pos h2, if_pos (by rcases h2 with h | h; exact Or.inl h; exact Or.inr (Or.inl h))]
          · rw [if_neg h2, if_neg]
            rintro (h | h | h)
            · exact h2 (Or.inl h)
            · exact h2 (Or.inr h)
            · omega
        · rw [if_neg hc, if_pos (Or.inr (Or.inr (by omega)))]
      · apply hj3 i _ hi
        have := hmh.1
        rw [Nat.pow_succ] at hc
        omega
  intro k i p hp
  rw [hget] at hp
  split at hp
  · cases hp
  rename_i hc
  obtain ⟨a, h1, h2, h3⟩ := h k i p hp
  refine ⟨a, h1, ?_, h3⟩
  have hal : a ≠ li := by
    rintro rfl
    cases k with
    | zero => exact hk.inv.good.leaf i p hp
    | succ k => exact hc (.inr (.inl (above_node.2 ⟨by omega, parents_in_tree hk.inv hKh hli _ _ _ hp h1, h1⟩)))
  rw [node_zero] at h2 ⊢
  rw [hget, if_neg]
  · exact h2
  · rintro (h4 | h4 | h4)
    · omega
    · exact above_odd h4 rfl
    · exact h2 (hcut a h4 hal)

theorem alive_merge {P : CryptoProvider} {cs : CipherSuite} {t : RatchetTree} {li : Nat} {path : UpdatePath} (hk : Kept t)
    (h : Alive t.get) (hm : t.get (2 * li) ≠ none) : Alive (t.merge_update_path P cs li path).1.get := by
  have hlt := Kept.pos hm
  have hsz := hk.inv.size
  obtain ⟨K, hK, _⟩ := hk.height (by omega)
  have hKh : IsHeight t.num_leaves K := by rw [hK]; exact pow_isHeight K
  have hli := leaf_in_tree (by omega) hsz hKh hlt
  obtain ⟨_, h1, h2, h3⟩ := merge_frame P cs path (by omega) hsz hKh hli (fun x p hx u hu => by
    obtain ⟨k, i, rfl⟩ := node_surj x
    obtain ⟨_, l, hl⟩ := hk.inv.good.mem k i p hx u hu
    have := lt_of_get hl
    rw [node_zero] at this
    omega)
  have hocc : ∀ a, t.get (node 0 a) ≠ none → (t.merge_update_path P cs li path).1.get (node 0 a) ≠ none := by
    intro a ha
    rw [node_zero] at ha ⊢
    by_cases hal : a = li
    · subst hal
      rcases h3 with h3 | ⟨_, h3⟩ <;> rw [h3]
      · exact ha
      · nofun
    · rw [h1 _ (fun hb => above_odd hb rfl) (by omega)]; exact ha
  intro k i p hp
  by_cases ha : above K li (node k i)
  · rcases h2 _ ha with h4 | ⟨_, key, ph, h4⟩
    · rw [h4] at hp; cases hp
    · rw [h4] at hp; cases hp
      exact ⟨li, (above_node.1 ha).2.2, hocc li (by rw [node_zero]; exact hm), nofun⟩
  · by_cases hx : node k i = 2 * li
    · rw [← node_zero] at hx
      obtain ⟨rfl, rfl⟩ := node_inj hx
      rw [node_zero] at hp
      rcases h3 with h3 | ⟨_, h3⟩
      · rw [h3] at hp; rw [← node_zero] at hp; exact absurd hp (hk.inv.good.leaf _ p)
      · rw [h3] at hp; cases hp
    · rw [h1 _ ha hx] at hp
      obtain ⟨a, h4, h5, h6⟩ := h k i p hp
      exact ⟨a, h4, hocc a h5, h6⟩

theorem alive_steps {P : CryptoProvider} {cs : CipherSuite} {t t' : RatchetTree} {evs : List TreeEvent} (hk : Kept t)
    (h : Alive t.get) (hs : RoomSteps P cs t evs t') : Kept t' ∧ Alive t'.get := by
  induction hs with
  | nil t => exact ⟨hk, h⟩
  | @cons t t' _ ev _ h1 h2 _ ih =>
    refine ih (kept_step hk h1 h2) ?_
    cases ev with
    | add leaf =>
      refine alive_add hk h ?_ h1.2
      by_cases hf : ∃ j, 2 * j < t.length ∧ t.get (2 * j) = none
      · exact .inl hf
      · exact .inr ⟨h2.resolve_left hf, h1.1.resolve_left hf⟩
    | update li leaf => exact alive_update hk h h1.1 h1.2
    | remove li => exact alive_remove hk h h1.1 h1.2
    | merge li path =>
      have he : t' = (t.merge_update_path P cs li path).1 := by
        rcases h1.2 with he | ⟨e, he⟩ <;> rw [he]
      subst he
      exact alive_merge hk h h1.1

end Rmls
