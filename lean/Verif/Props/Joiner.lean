import Verif.Proofs.Joiner
import Verif.Props.Invariant
import Verif.Props.Codec
import Verif.Props.LeafNode
/-
Property C64: a member who reads the tree from the wire and the members who were there before keep the same tree.
-/
namespace Rmls
open Spec RatchetTree

/-- Adding is possible: there is a free slot, or the array is one that can grow. -/
def Roomy (t : RatchetTree) : TreeEvent → Prop
  | .add _ => (∃ j, 2 * j < t.length ∧ t.get (2 * j) = none) ∨ t.length % 2 = 1
  | _ => True

/-- A sequence of events in which every add finds room. -/
inductive RoomSteps (P : CryptoProvider) (cs : CipherSuite) : RatchetTree → List TreeEvent → RatchetTree → Prop
  where
  | nil (t) : RoomSteps P cs t [] t
  | cons {t t' t'' ev evs} : TreeStep P cs t ev t' → Roomy t ev → RoomSteps P cs t' evs t'' →
      RoomSteps P cs t (ev :: evs) t''

theorem RoomSteps.steps {P : CryptoProvider} {cs : CipherSuite} {t t' : RatchetTree} {evs : List TreeEvent}
    (h : RoomSteps P cs t evs t') : TreeSteps P cs t evs t' := by
  induction h with
  | nil t => exact .nil t
  | cons h1 _ _ ih => exact .cons h1 ih

/-- What holds of the tree in every history. -/
structure Kept (t : RatchetTree) : Prop where
  inv : TreeInv t
  inner : InnerShaped t.get
  snug : Snug t

theorem get_index (t : RatchetTree) (i : Nat) : t[i]?.join = t.get i := rfl

theorem node_odd (k i x : Nat) : node (k + 1) i ≠ 2 * x := by rw [node_succ]; omega

/-- The height of a kept tree. -/
theorem Kept.height {t : RatchetTree} (h : Kept t) (h0 : 0 < t.length) : ∃ K, t.num_leaves = 2 ^ K ∧
    (t.length + 1 = 2 ^ (K + 1) ∨ t.length = 2 ^ (K + 1)) ∧
    ∃ j, 2 ^ K ≤ 2 * j + 1 ∧ 2 * j < 2 ^ (K + 1) - 1 ∧ t.get (2 * j) ≠ none := by
  rcases h.snug with hs | ⟨K, hs, hj⟩
  · omega
  · refine ⟨K, ?_, hs, hj⟩
    rw [(num_leaves_bounds h0 h.inv.size).2.2]
    have := Nat.two_pow_pos K
    rw [Nat.pow_succ] at hs
    omega

theorem Kept.pos {t : RatchetTree} {li : Nat} (hm : t.get (2 * li) ≠ none) : 2 * li < t.length := by
  cases hg : t.get (2 * li) with
  | none => exact absurd hg hm
  | some n => exact lt_of_get hg

theorem kept_single (l : LeafNode) : Kept [some (.Leaf l)] where
  inv := (wellFormed_single l).inv
  inner := by
    intro k i l' h
    have := lt_of_get h
    rw [node_succ] at this
    simp at this
  snug := .inr ⟨0, .inl rfl, 0, by simp, by simp, by simp⟩

/-- The snug shape with the length and the nodes given. -/
theorem snug_of {t t' : RatchetTree} (hl : t'.length = t.length)
    (hm : ∀ j, t.get (2 * j) ≠ none → t'.get (2 * j) ≠ none) (hs : Snug t) : Snug t' := by
  rcases hs with h | ⟨K, h1, j, h2, h3, h4⟩
  · exact .inl (by omega)
  · exact .inr ⟨K, by omega, j, h2, h3, hm j h4⟩

theorem above_odd {K j x y : Nat} (h : above K j x) : x ≠ 2 * y := by
  obtain ⟨k, h1, _, rfl⟩ := h
  obtain ⟨k, rfl⟩ : ∃ k', k = k' + 1 := ⟨k - 1, by omega⟩
  exact node_odd _ _ _

theorem listed_not_leaf {u : LeafIndex} {n : Option Node} {l : LeafNode} (h : n ≠ some (.Leaf l)) :
    listed u n ≠ some (.Leaf l) := by
  unfold listed
  split
  · nofun
  · exact h

theorem kept_add {t t' : RatchetTree} {leaf : LeafNode} (h : Kept t) (hi : TreeInv t')
    (hr : (∃ j, 2 * j < t.length ∧ t.get (2 * j) = none) ∨ t.length % 2 = 1)
    (hsz : (∃ j, 2 * j < t.length ∧ t.get (2 * j) = none) ∨ t.length < 2 ^ 31) (ha : t.add leaf = .ok t') :
    Kept t' := by
  by_cases hf : ∃ j, 2 * j < t.length ∧ t.get (2 * j) = none
  · obtain ⟨j0, hj0⟩ := hf
    obtain ⟨j, h1, h2, h3⟩ := least_free hj0
    obtain ⟨K, hK, _⟩ := h.height (by omega)
    obtain ⟨t1, ha1, hl, hg⟩ := add_free (leaf := leaf) h.inv.size (by rw [hK]; exact pow_isHeight K) h1 h2 h3
    rw [ha] at ha1; cases ha1
    refine ⟨hi, ?_, snug_of hl ?_ h.snug⟩
    · intro k i l hc
      rw [hg, if_neg (node_odd _ _ _)] at hc
      split at hc
      · exact listed_not_leaf (h.inner k i l) hc
      · exact h.inner k i l hc
    · intro i hm
      rw [hg]
      split
      · nofun
      · rw [if_neg (fun hc => above_odd hc rfl)]; exact hm
  · have hodd : t.length % 2 = 1 := hr.resolve_left hf
    have h31 : t.length < 2 ^ 31 := hsz.resolve_left hf
    obtain ⟨K, hK, hlen, _⟩ := h.height (by omega)
    have h2 : 2 ^ (K + 1) = 2 * 2 ^ K := by rw [Nat.pow_succ]; omega
    have h3 : 2 ^ (K + 1 + 1) = 2 * 2 ^ (K + 1) := by rw [Nat.pow_succ]; omega
    have hpos := Nat.two_pow_pos K
    obtain ⟨t1, ha1, hl, hg⟩ := add_grow (t := t) (n := 2 ^ K) (K := K + 1) (leaf := leaf) (by omega) (by omega) h31
      (by rw [← h2]; exact pow_isHeight _) (fun i hi hc => hf ⟨i, by omega, hc⟩)
    rw [ha] at ha1; cases ha1
    refine ⟨hi, ?_, .inr ⟨K + 1, .inl (by omega), 2 ^ K, by omega, by omega, ?_⟩⟩
    · intro k i l hc
      rw [hg, if_neg (node_odd _ _ _)] at hc
      split at hc
      · exact listed_not_leaf (h.inner k i l) hc
      · exact h.inner k i l hc
    · rw [get_index, hg, if_pos rfl]; nofun

theorem kept_update {t t' : RatchetTree} {li : Nat} {leaf : LeafNode} (h : Kept t) (hi : TreeInv t')
    (hm : t.get (2 * li) ≠ none) (ha : t.update li leaf = .ok t') : Kept t' := by
  have hlt := Kept.pos hm
  obtain ⟨K, hK, _⟩ := h.height (by omega)
  have hKh : IsHeight t.num_leaves K := by rw [hK]; exact pow_isHeight K
  obtain ⟨t1, ha1, hl, hg⟩ := update_in (leaf := leaf) (by omega) h.inv.size hKh
    (leaf_in_tree (by omega) h.inv.size hKh hlt)
  rw [ha] at ha1; cases ha1
  refine ⟨hi, ?_, snug_of hl ?_ h.snug⟩
  · intro k i l hc
    rw [hg, if_neg (fun h => node_odd _ _ _ h.1)] at hc
    split at hc
    · cases hc
    · exact h.inner k i l hc
  · intro i hmi
    rw [hg]
    split
    · nofun
    · rw [if_neg (fun hc => above_odd hc rfl)]; exact hmi

theorem kept_merge {P : CryptoProvider} {cs : CipherSuite} {t : RatchetTree} {li : Nat} {path : UpdatePath}
    (h : Kept t) (hi : TreeInv (t.merge_update_path P cs li path).1) (hm : t.get (2 * li) ≠ none) :
    Kept (t.merge_update_path P cs li path).1 := by
  have hlt := Kept.pos hm
  obtain ⟨K, hK, _⟩ := h.height (by omega)
  have hKh : IsHeight t.num_leaves K := by rw [hK]; exact pow_isHeight K
  obtain ⟨hl, h1, h2, h3⟩ := merge_frame P cs path (by omega) h.inv.size hKh
    (leaf_in_tree (by omega) h.inv.size hKh hlt) (unmergedOk_small h.inv.size h.inv.good.ok)
  refine ⟨hi, ?_, snug_of hl ?_ h.snug⟩
  · intro k i l hc
    by_cases ha : above K li (node (k + 1) i)
    · rcases h2 _ ha with hv | ⟨_, key, ph, hv⟩ <;> (rw [hv] at hc; cases hc)
    · rw [h1 _ ha (node_odd _ _ _)] at hc
      exact h.inner k i l hc
  · intro i hmi
    by_cases he : i = li
    · subst he
      rcases h3 with h3 | ⟨_, h3⟩
      · rw [h3]; exact hmi
      · rw [h3]; nofun
    · rw [h1 _ (fun hc => above_odd hc rfl) (by omega)]; exact hmi

theorem kept_remove {t t' : RatchetTree} {li : Nat} (h : Kept t) (hi : TreeInv t')
    (hm : t.get (2 * li) ≠ none) (ha : t.remove li = .ok t') : Kept t' := by
  have hlt := Kept.pos hm
  obtain ⟨K, hK, hlen, _⟩ := h.height (by omega)
  have hKh : IsHeight t.num_leaves K := by rw [hK]; exact pow_isHeight K
  have hli := leaf_in_tree (by omega) h.inv.size hKh hlt
  rcases last_member t li with hall | ⟨j, hj1, hj2, hj3⟩
  · rw [remove_clear (by omega) h.inv.size hKh hli hall] at ha
    cases ha
    refine ⟨hi, ?_, .inl rfl⟩
    intro k i l hc
    cases hc
  · obtain ⟨m, hmh⟩ := exists_height (show 0 < j + 1 by omega)
    rw [remove_last (by omega) h.inv.size hKh hli hj1 hj2 hj3 hmh] at ha
    cases ha
    have hjlt := Kept.pos hj1
    have hjK := leaf_in_tree (by omega) h.inv.size hKh hjlt
    have hmK : m ≤ K := hmh.2 K hjK
    have hm1 : 2 ^ m ≤ 2 * j + 1 := by
      rcases Nat.eq_zero_or_pos m with rfl | hp
      · simp
      · refine Decidable.byContradiction fun hc => ?_
        have h2 : 2 ^ m = 2 * 2 ^ (m - 1) := by
          rw [show m = m - 1 + 1 by omega, Nat.pow_succ]; simp; omega
        have := hmh.2 (m - 1) (by omega)
        omega
    have hm2 := hmh.1
    have h2 : 2 ^ (m + 1) = 2 * 2 ^ m := by rw [Nat.pow_succ]; omega
    have h3 : 2 ^ (m + 1) ≤ 2 ^ (K + 1) := Nat.pow_le_pow_right (by omega) (by omega)
    have hle : (t.take (2 ^ (m + 1))).length + 1 = 2 ^ (m + 1) ∨ (t.take (2 ^ (m + 1))).length = 2 ^ (m + 1) := by
      rw [List.length_take]; omega
    refine ⟨hi, ?_, .inr ⟨m, ?_, j, hm1, by omega, ?_⟩⟩
    · intro k i l hc
      rw [get_take, blanked_get] at hc
      split at hc
      · split at hc
        · cases hc
        · exact h.inner k i l hc
      · cases hc
    · rw [List.length_take] at hle ⊢
      rw [blanked_length]; exact hle
    · rw [get_index, get_take, if_pos (by omega), blanked_get, if_neg]
      · exact hj1
      · rintro (hc | hc)
        · omega
        · exact above_odd hc rfl

theorem kept_step {P : CryptoProvider} {cs : CipherSuite} {t t' : RatchetTree} {ev : TreeEvent} (h : Kept t)
    (hs : TreeStep P cs t ev t') (hr : Roomy t ev) : Kept t' := by
  have hi := inv_step h.inv hs
  cases ev with
  | add leaf => exact kept_add h hi hr hs.1 hs.2
  | update li leaf => exact kept_update h hi hs.1 hs.2
  | remove li => exact kept_remove h hi hs.1 hs.2
  | merge li path =>
    have he : t' = (t.merge_update_path P cs li path).1 := by
      rcases hs.2 with he | ⟨e, he⟩ <;> rw [he]
    subst he
    exact kept_merge h hi hs.1

theorem kept_steps {P : CryptoProvider} {cs : CipherSuite} {t t' : RatchetTree} {evs : List TreeEvent}
    (h : Kept t) (hs : RoomSteps P cs t evs t') : Kept t' := by
  induction hs with
  | nil t => exact h
  | cons h1 h2 _ ih => exact ih (kept_step h h1 h2)

/-- The last slot of an array of even length is blank. -/
theorem Kept.last_blank {t : RatchetTree} {K : Nat} (h : Kept t) (hl : t.length = 2 ^ (K + 1)) :
    t.get (t.length - 1) = none := by
  have hn : t.length - 1 = node (K + 1) 0 := by
    have := node_add_one (K + 1) 0
    omega
  cases hg : t.get (t.length - 1) with
  | none => rfl
  | some n =>
    cases n with
    | Parent p => exact absurd hg (h.inv.phantom K p hl)
    | Leaf l => rw [hn] at hg; exact absurd hg (h.inner K 0 l)

/-- A kept tree is that of a perfect tree, or that and one blank slot. -/
theorem Kept.base {t : RatchetTree} (h : Kept t) (h0 : 0 < t.length) : ∃ u K, (t = u ∨ t = u ++ [none]) ∧
    Perfect u K ∧ ∃ j, 2 ^ K ≤ 2 * j + 1 ∧ u.get (2 * j) ≠ none := by
  obtain ⟨K, _, hlen, j, hj1, _, hj2⟩ := h.height h0
  have hsz := h.inv.size
  have h2 : 2 ^ (K + 1) = 2 * 2 ^ K := by rw [Nat.pow_succ]; omega
  have hpos := Nat.two_pow_pos K
  rcases hlen with hlen | hlen
  · exact ⟨t, K, .inl rfl, ⟨hlen, hsz⟩, j, hj1, hj2⟩
  · have ht : t = t.take (t.length - 1) ++ [none] := by
      refine ext (by simp; omega) fun i => ?_
      rw [get_snoc, get_take]
      split
      · rfl
      · by_cases hi : i = t.length - 1
        · rw [hi]; exact h.last_blank hlen
        · exact get_out (by omega)
    refine ⟨t.take (t.length - 1), K, .inr ht, ⟨by simp; omega, by simp; omega⟩, j, hj1, ?_⟩
    rw [ht, get_snoc] at hj2
    exact hj2

/-- What the other member's tree is, if it is another array. -/
theorem Kept.snoc {t u : RatchetTree} (h : Kept t) (hs : SameTree t u) :
    t = u ∨ t = u ++ [none] ∧ u.length + 1 < 2 ^ 32 ∧ ∃ K, Perfect u K := by
  rcases hs with hs | ⟨K, hl, hs⟩
  · exact .inl hs
  · subst hs
    have := h.inv.size
    simp only [List.length_append, List.length_cons, List.length_nil] at this
    exact .inr ⟨rfl, this, K, hl, by omega⟩

theorem perfect_tight {u : RatchetTree} {K j : Nat} (hp : Perfect u K) (hj : 2 ^ K ≤ 2 * j + 1)
    (hm : u.get (2 * j) ≠ none) (k : Nat) (hk : ∀ i : Nat, 2 ^ k ≤ i + 1 → u[i]?.join = none) :
    u.length + 1 ≤ 2 ^ k := by
  rw [hp.length]
  refine Nat.pow_le_pow_right (by omega) ?_
  refine Decidable.byContradiction fun hc => hm (hk (2 * j) ?_)
  exact Nat.le_trans (Nat.pow_le_pow_right (by omega) (by omega : k ≤ K)) hj

/-- C64, the wire: every member of an honest group whose tree can be written down gives a joiner a tree with the
same nodes; the array is the same, but for one blank slot at the end that removals may have left. -/
theorem C64_read (P : CryptoProvider) (cs : CipherSuite) (l : LeafNode) (t : RatchetTree) (evs : List TreeEvent)
    (b rest : Bytes) (hs : RoomSteps P cs [some (.Leaf l)] evs t) (h0 : t ≠ []) (hw : t.NodesWF)
    (hb : RatchetTree.serialize t = .ok b) :
    ∃ u, RatchetTree.deserialize (b ++ rest) = .ok (u, rest) ∧ SameTree t u := by
  have hk := kept_steps (kept_single l) hs
  obtain ⟨u, K, htu, hp, j, hj1, hj2⟩ := hk.base (by cases t with | nil => exact absurd rfl h0 | cons => simp)
  refine ⟨u, ?_, ?_⟩
  · refine C09_round_trip_exact u b rest ?_ ⟨K + 1, hp.length⟩ (perfect_tight hp hj1 hj2) ?_
    · rcases htu with rfl | rfl
      · exact hw
      · intro x hx; exact hw x (List.mem_append_left _ hx)
    · rcases htu with rfl | rfl
      · exact hb
      · rw [← C09_trailing_blanks u 1]; exact hb
  · rcases htu with rfl | rfl
    · exact .inl rfl
    · exact .inr ⟨K, hp.length, rfl⟩

/-- C64, agreement: whatever is computed from the two trees is the same. -/
theorem C64_agree (P : CryptoProvider) (cs : CipherSuite) (l : LeafNode) (t u : RatchetTree)
    (evs : List TreeEvent) (hs : RoomSteps P cs [some (.Leaf l)] evs t) (h : SameTree t u) :
    (∀ x, t.get x = u.get x) ∧ t.num_leaves = u.num_leaves ∧
    t.compute_root_tree_hash P cs = u.compute_root_tree_hash P cs ∧
    (∀ ctx now, t.verify_integrity P ctx now = u.verify_integrity P ctx now) ∧
    t.supported_creds = u.supported_creds ∧ t.keys = u.keys ∧ (∀ n, t.find_leaf n = u.find_leaf n) ∧
    (∀ x, t.resolve x = u.resolve x) ∧ (∀ x, t.filtered_direct_path x = u.filtered_direct_path x) ∧
    RatchetTree.serialize t = RatchetTree.serialize u := by
  have hk := kept_steps (kept_single l) hs
  rcases hk.snoc h with rfl | ⟨rfl, hsz, K, hp⟩
  · exact ⟨fun _ => rfl, rfl, rfl, fun _ _ => rfl, rfl, rfl, fun _ => rfl, fun _ => rfl, fun _ => rfl, rfl⟩
  · have hg := get_snoc u
    have hn := num_leaves_snoc hp.odd hsz
    have hroot : ∀ cs, RatchetTree.compute_root_tree_hash P cs (u ++ [none]) = u.compute_root_tree_hash P cs := by
      intro cs
      unfold compute_root_tree_hash compute_tree_hash
      simp only [hn, tree_hash_congr hg]
    have hcreds : RatchetTree.supported_creds (u ++ [none]) = u.supported_creds := by
      unfold supported_creds
      simp only [hn, forLeaves_congr hg]
    refine ⟨hg, hn, hroot cs, ?_, hcreds, ?_, ?_, fun x => resolve_congr hg _ x, filtered_congr hg hn,
      C09_trailing_blanks u 1⟩
    · intro ctx now
      unfold verify_integrity verify_parent_hashes verifyLeaves
      simp only [hroot, hcreds, hn, forLeaves_congr hg, parentLoop_congr hg, verifyParentHashesLoop_congr hg,
        verifyParentHashesLoop_snoc, parentLoop_snoc]
    · unfold keys
      simp only [hn, forLeaves_congr hg]
    · intro n
      unfold find_leaf
      simp only [hn, findLeafLoop_congr hg]

theorem snoc_ext {t u u' : RatchetTree} (hl : t.length = u'.length + 1) (hg : ∀ x, t.get x = u'.get x)
    (_ : u'.length = u.length) : t = u' ++ [none] :=
  ext (by simp [hl]) fun i => by rw [hg, get_snoc]

theorem sim_add {u t' : RatchetTree} {K : Nat} {leaf : LeafNode} (hp : Perfect u K) (hsz : u.length + 1 < 2 ^ 32)
    (hf : ∃ j, 2 * j < u.length ∧ u.get (2 * j) = none) (ha : RatchetTree.add (u ++ [none]) leaf = .ok t') :
    ∃ u', u.add leaf = .ok u' ∧ SameTree t' u' := by
  obtain ⟨j0, hj0⟩ := hf
  obtain ⟨j, h1, h2, h3⟩ := least_free hj0
  obtain ⟨u', hu1, hul, hug⟩ := add_free (leaf := leaf) hp.size (by rw [hp.leaves]; exact pow_isHeight K) h1 h2 h3
  obtain ⟨t1, ht1, htl, htg⟩ := add_free (t := u ++ [none]) (K := K) (j := j) (leaf := leaf) (by simp; omega)
    (by rw [hp.leaves_snoc hsz]; exact pow_isHeight K) (by simp; omega) (by rw [get_snoc]; exact h2)
    (fun i hi => by rw [get_snoc]; exact h3 i hi)
  rw [ha] at ht1; cases ht1
  refine ⟨u', hu1, .inr ⟨K, by rw [hul]; exact hp.length, ?_⟩⟩
  refine snoc_ext (u := u) (by rw [htl, hul]; simp) (fun x => ?_) hul
  rw [htg, hug, get_snoc]

theorem sim_update {u t' : RatchetTree} {K li : Nat} {leaf : LeafNode} (hp : Perfect u K)
    (hsz : u.length + 1 < 2 ^ 32) (hm : u.get (2 * li) ≠ none)
    (ha : RatchetTree.update (u ++ [none]) li leaf = .ok t') :
    ∃ u', u.update li leaf = .ok u' ∧ SameTree t' u' := by
  have hlt := Kept.pos hm
  have hKh : IsHeight u.num_leaves K := by rw [hp.leaves]; exact pow_isHeight K
  have hli := leaf_in_tree (by omega) hp.size hKh hlt
  obtain ⟨u', hu1, hul, hug⟩ := update_in (leaf := leaf) (by omega) hp.size hKh hli
  obtain ⟨t1, ht1, htl, htg⟩ := update_in (t := u ++ [none]) (K := K) (li := li) (leaf := leaf) (by simp)
    (by simp; omega) (by rw [hp.leaves_snoc hsz]; exact pow_isHeight K) hli
  rw [ha] at ht1; cases ht1
  refine ⟨u', hu1, .inr ⟨K, by rw [hul]; exact hp.length, ?_⟩⟩
  refine snoc_ext (u := u) (by rw [htl, hul]; simp) (fun x => ?_) hul
  rw [htg, hug, get_snoc]
  by_cases hx : x = 2 * li
  · rw [if_pos ⟨hx, by simp; omega⟩, if_pos ⟨hx, hlt⟩]
  · simp only [hx, false_and, if_false]

theorem blanked_snoc {u : RatchetTree} {K li : Nat} : blanked (u ++ [none]) K li = blanked u K li ++ [none] := by
  refine ext (by rw [blanked_length]; simp [blanked_length]) fun x => ?_
  rw [blanked_get, get_snoc, get_snoc, blanked_get]

theorem sim_remove {u t' : RatchetTree} {K li : Nat} (hp : Perfect u K)
    (hsz : u.length + 1 < 2 ^ 32) (hm : u.get (2 * li) ≠ none)
    (ha : RatchetTree.remove (u ++ [none]) li = .ok t') :
    ∃ u', u.remove li = .ok u' ∧ SameTree t' u' := by
  have hlt := Kept.pos hm
  have hlen := hp.length
  have hKh : IsHeight u.num_leaves K := by rw [hp.leaves]; exact pow_isHeight K
  have hKt : IsHeight (RatchetTree.num_leaves (u ++ [none])) K := by
    rw [hp.leaves_snoc hsz]; exact pow_isHeight K
  have hli := leaf_in_tree (by omega) hp.size hKh hlt
  have hsz' : (u ++ [none] : RatchetTree).length < 4294967296 := by simp; omega
  rcases last_member u li with hall | ⟨j, hj1, hj2, hj3⟩
  · rw [remove_clear (t := u ++ [none]) (by simp) hsz' hKt hli (fun i hi => by rw [get_snoc]; exact hall i hi)] at ha
    cases ha
    exact ⟨[], remove_clear (by omega) hp.size hKh hli hall, .inl rfl⟩
  · obtain ⟨m, hmh⟩ := exists_height (show 0 < j + 1 by omega)
    rw [remove_last (t := u ++ [none]) (j := j) (by simp) hsz' hKt hli (by rw [get_snoc]; exact hj1) hj2
      (fun i h1 h2 => by rw [get_snoc]; exact hj3 i h1 h2) hmh, blanked_snoc] at ha
    cases ha
    refine ⟨_, remove_last (by omega) hp.size hKh hli hj1 hj2 hj3 hmh, ?_⟩
    have hmK : m ≤ K := hmh.2 K (leaf_in_tree (by omega) hp.size hKh (Kept.pos hj1))
    have hbl := blanked_length u K li
    rcases Nat.lt_or_ge m K with hlt | hge
    · left
      have : 2 ^ (m + 1) < 2 ^ (K + 1) := Nat.pow_lt_pow_right (by omega) (by omega)
      rw [List.take_append_of_le_length (by omega)]
    · have : m = K := by omega
      subst this
      rw [List.take_of_length_le (by simp; omega), List.take_of_length_le (by omega)]
      exact .inr ⟨m, by omega, rfl⟩

theorem sim_step {P : CryptoProvider} {cs : CipherSuite} {t u t' : RatchetTree} {ev : TreeEvent} (h : Kept t)
    (hs : SameTree t u) (he : TreeStep P cs t ev t') (hr : Roomy t ev) :
    ∃ u', TreeStep P cs u ev u' ∧ Roomy u ev ∧ SameTree t' u' := by
  rcases h.snoc hs with rfl | ⟨rfl, hsz, K, hp⟩
  · exact ⟨t', he, hr, .inl rfl⟩
  · have hodd := hp.odd
    cases ev with
    | add leaf =>
      have hf : ∃ j, 2 * j < u.length ∧ u.get (2 * j) = none := by
        rcases hr with ⟨j, h1, h2⟩ | h1
        · rw [get_snoc] at h2
          simp only [List.length_append, List.length_cons, List.length_nil] at h1
          exact ⟨j, by omega, h2⟩
        · simp only [List.length_append, List.length_cons, List.length_nil] at h1
          omega
      obtain ⟨u', h1, h2⟩ := sim_add hp hsz hf he.2
      exact ⟨u', ⟨.inl hf, h1⟩, .inl hf, h2⟩
    | update li leaf =>
      have hm := he.1
      rw [get_snoc] at hm
      obtain ⟨u', h1, h2⟩ := sim_update hp hsz hm he.2
      exact ⟨u', ⟨hm, h1⟩, trivial, h2⟩
    | remove li =>
      have hm := he.1
      rw [get_snoc] at hm
      obtain ⟨u', h1, h2⟩ := sim_remove hp hsz hm he.2
      exact ⟨u', ⟨hm, h1⟩, trivial, h2⟩
    | merge li path =>
      obtain ⟨hm, he⟩ := he
      rw [get_snoc] at hm
      have hKh : IsHeight u.num_leaves K := by rw [hp.leaves]; exact pow_isHeight K
      have hlt := Kept.pos hm
      have hli := leaf_in_tree (by omega) hp.size hKh hlt
      have hsm : u.SmallUnmerged := by
        have := unmergedOk_small h.inv.size h.inv.good.ok
        intro x p hx
        exact this x p (by rw [get_snoc]; exact hx)
      rw [merge_snoc P cs path hp hsz hli hsm] at he
      have hl := (merge_frame P cs path (by omega) hp.size hKh hli hsm).1
      refine ⟨(u.merge_update_path P cs li path).1, ⟨hm, ?_⟩, trivial, .inr ⟨K, ?_, ?_⟩⟩
      · rcases he with he | ⟨e, he⟩
        · exact .inl (Prod.ext rfl (Prod.mk.inj he).2)
        · exact .inr ⟨e, Prod.ext rfl (Prod.mk.inj he).2⟩
      · rw [hl]; exact hp.length
      · rcases he with he | ⟨e, he⟩ <;> exact (congrArg Prod.fst he).symm

theorem sim_steps {P : CryptoProvider} {cs : CipherSuite} {t u t' : RatchetTree} {evs : List TreeEvent} (h : Kept t)
    (hs : SameTree t u) (he : RoomSteps P cs t evs t') : ∃ u', RoomSteps P cs u evs u' ∧ SameTree t' u' := by
  induction he generalizing u with
  | nil t => exact ⟨u, .nil u, hs⟩
  | cons h1 h2 _ ih =>
    obtain ⟨u1, ha, hb, hc⟩ := sim_step h hs h1 h2
    obtain ⟨u', hd, he⟩ := ih (kept_step h h1 h2) hc
    exact ⟨u', .cons ha hb hd, he⟩

theorem step_unique {P : CryptoProvider} {cs : CipherSuite} {t t1 t2 : RatchetTree} {ev : TreeEvent}
    (h1 : TreeStep P cs t ev t1) (h2 : TreeStep P cs t ev t2) : t1 = t2 := by
  cases ev with
  | add leaf => have := h1.2.symm.trans h2.2; cases this; rfl
  | update li leaf => have := h1.2.symm.trans h2.2; cases this; rfl
  | remove li => have := h1.2.symm.trans h2.2; cases this; rfl
  | merge li path =>
    have e1 : t1 = (t.merge_update_path P cs li path).1 := by
      rcases h1.2 with he | ⟨e, he⟩ <;> rw [he]
    have e2 : t2 = (t.merge_update_path P cs li path).1 := by
      rcases h2.2 with he | ⟨e, he⟩ <;> rw [he]
    rw [e1, e2]

theorem steps_unique {P : CryptoProvider} {cs : CipherSuite} {t t1 t2 : RatchetTree} {evs : List TreeEvent}
    (h1 : TreeSteps P cs t evs t1) (h2 : TreeSteps P cs t evs t2) : t1 = t2 := by
  induction h1 with
  | nil t => cases h2; rfl
  | cons ha _ ih =>
    cases h2 with
    | cons hb h2 => cases step_unique ha hb; exact ih h2

theorem RoomSteps.append {P : CryptoProvider} {cs : CipherSuite} {t t' t'' : RatchetTree} {evs evs' : List TreeEvent}
    (h1 : RoomSteps P cs t evs t') (h2 : RoomSteps P cs t' evs' t'') : RoomSteps P cs t (evs ++ evs') t'' := by
  induction h1 with
  | nil t => exact h2
  | cons ha hb _ ih => exact .cons ha hb (ih h2)

/-- C64, the joiner keeps up: the joiner reads the tree, then both sides go through the same events.  The joiner
can follow, and at the end both have the same nodes, the same tree hash, and judge the tree alike.  What is
missing: histories in which the old members add to an array of even length that is full, see `C64_refuted`. -/
theorem C64_follow_partial (P : CryptoProvider) (cs : CipherSuite) (l : LeafNode) (t t' : RatchetTree)
    (before after : List TreeEvent) (b rest : Bytes) (h1 : RoomSteps P cs [some (.Leaf l)] before t) (h0 : t ≠ [])
    (hw : t.NodesWF) (hb : RatchetTree.serialize t = .ok b) (h2 : RoomSteps P cs t after t') :
    ∃ u u', RatchetTree.deserialize (b ++ rest) = .ok (u, rest) ∧ TreeSteps P cs u after u' ∧
      (∀ v, TreeSteps P cs u after v → v = u') ∧ (∀ x, t'.get x = u'.get x) ∧
      t'.compute_root_tree_hash P cs = u'.compute_root_tree_hash P cs ∧
      (∀ ctx now, t'.verify_integrity P ctx now = u'.verify_integrity P ctx now) ∧
      RatchetTree.serialize t' = RatchetTree.serialize u' := by
  obtain ⟨u, hu, hs⟩ := C64_read P cs l t before b rest h1 h0 hw hb
  obtain ⟨u', ha, hc⟩ := sim_steps (kept_steps (kept_single l) h1) hs h2
  obtain ⟨g1, _, g2, g3, _, _, _, _, _, g4⟩ := C64_agree P cs l t' u' (before ++ after) (h1.append h2) hc
  exact ⟨u, u', hu, ha.steps, fun v hv => steps_unique hv ha.steps, g1, g2, g3, g4⟩

/-- Both sides accept and reject the same update paths. -/
theorem C64_merge_result (P : CryptoProvider) (cs : CipherSuite) (l : LeafNode) (t u : RatchetTree)
    (evs : List TreeEvent) (li : Nat) (path : UpdatePath) (hs : RoomSteps P cs [some (.Leaf l)] evs t)
    (h : SameTree t u) (hm : t.get (2 * li) ≠ none) :
    (t.merge_update_path P cs li path).2 = (u.merge_update_path P cs li path).2 := by
  have hk := kept_steps (kept_single l) hs
  rcases hk.snoc h with rfl | ⟨rfl, hsz, K, hp⟩
  · rfl
  · rw [get_snoc] at hm
    have hKh : IsHeight u.num_leaves K := by rw [hp.leaves]; exact pow_isHeight K
    have hlt := Kept.pos hm
    have hli := leaf_in_tree (by omega) hp.size hKh hlt
    have hsm : u.SmallUnmerged := by
      have := unmergedOk_small hk.inv.size hk.inv.good.ok
      intro x p hx
      exact this x p (by rw [get_snoc]; exact hx)
    rw [merge_snoc P cs path hp hsz hli hsm]

section examples
private abbrev suite1 : CipherSuite := .MLS_128_DHKEMX25519_AES128GCM_SHA256_Ed25519

/-- Five members, the fifth and the second are removed, and a joiner takes the place of the second. -/
private abbrev evs1 : List TreeEvent :=
  [.add (toyLeaf 1), .add (toyLeaf 2), .add (toyLeaf 3), .add (toyLeaf 4), .remove 4, .remove 1, .add (toyLeaf 5)]

private abbrev old1 : RatchetTree :=
  [some (.Leaf (toyLeaf 0)), none, some (.Leaf (toyLeaf 5)), none, some (.Leaf (toyLeaf 2)), none,
   some (.Leaf (toyLeaf 3)), none]

private theorem steps1 : RoomSteps toyProvider suite1 [some (.Leaf (toyLeaf 0))] evs1 old1 :=
  .cons ⟨.inr (by decide), rfl⟩ (.inr (by decide)) <| .cons ⟨.inr (by decide), rfl⟩ (.inr (by decide)) <|
  .cons ⟨.inr (by decide), rfl⟩ (.inr (by decide)) <| .cons ⟨.inr (by decide), rfl⟩ (.inr (by decide)) <|
  .cons ⟨by decide, rfl⟩ trivial <| .cons ⟨by decide, rfl⟩ trivial <|
  .cons ⟨.inr (by decide), rfl⟩ (.inl ⟨1, by decide, rfl⟩) <| .nil _

private abbrev new1 : RatchetTree :=
  [some (.Leaf (toyLeaf 0)), none, some (.Leaf (toyLeaf 5)), none, some (.Leaf (toyLeaf 2)), none,
   some (.Leaf (toyLeaf 3))]

private theorem old1_wf : old1.NodesWF := by
  intro n hn
  simp only [List.mem_cons, Option.some.injEq, List.not_mem_nil, or_false, reduceCtorEq, false_or] at hn
  rcases hn with rfl | rfl | rfl | rfl <;> exact toyLeaf_wf _

private theorem wire1 : ∃ b, RatchetTree.serialize old1 = .ok b ∧ RatchetTree.deserialize b = .ok (new1, []) := by
  have hb : (RatchetTree.serialize old1).isOk = .ok true := by decide +kernel
  obtain ⟨b, hb⟩ := isOk_true.1 hb
  have hp : Perfect new1 2 := ⟨rfl, by decide⟩
  have := C09_round_trip_exact new1 b [] (fun n hn => old1_wf n (List.mem_append_left [none] hn)) ⟨3, rfl⟩
    (perfect_tight (j := 3) hp (by decide) (by decide)) ((C09_trailing_blanks new1 1).symm.trans hb)
  exact ⟨b, hb, by rw [List.append_nil] at this; exact this⟩

/-- C64 fails in general: the joiner of this group has an array of seven slots, the old members have one of
eight.  When the next member is added, the joiner has them in the tree, the old members do not, and cannot even
compute the tree hash. -/
theorem C64_refuted : ∃ (t u t' u' : RatchetTree) (b : Bytes),
    RoomSteps toyProvider suite1 [some (.Leaf (toyLeaf 0))] evs1 t ∧ RatchetTree.serialize t = .ok b ∧
    RatchetTree.deserialize b = .ok (u, []) ∧
    TreeSteps toyProvider suite1 t [.add (toyLeaf 6)] t' ∧ TreeSteps toyProvider suite1 u [.add (toyLeaf 6)] u' ∧
    u'.get 8 = some (.Leaf (toyLeaf 6)) ∧ t'.get 8 = none ∧
    t'.compute_root_tree_hash toyProvider suite1 ≠ u'.compute_root_tree_hash toyProvider suite1 := by
  obtain ⟨b, hb, hu⟩ := wire1
  refine ⟨old1, new1, _, _, b, steps1, hb, hu, .cons ⟨.inr (by decide), rfl⟩ (.nil _),
    .cons ⟨.inr (by decide), rfl⟩ (.nil _), rfl, rfl, ?_⟩
  decide +kernel

/-- The hypotheses of `C64_follow_partial` are met: a joiner and an old member go through a removal, an update and
an add; their arrays differ in length. -/
example : ∃ (t' u' : RatchetTree) (b : Bytes), old1 ≠ [] ∧ old1.NodesWF ∧ RatchetTree.serialize old1 = .ok b ∧
    RoomSteps toyProvider suite1 [some (.Leaf (toyLeaf 0))] evs1 old1 ∧
    RoomSteps toyProvider suite1 old1 [.remove 2, .update 0 (toyLeaf 7), .add (toyLeaf 8)] t' ∧
    RatchetTree.deserialize b = .ok (new1, []) ∧
    TreeSteps toyProvider suite1 new1 [.remove 2, .update 0 (toyLeaf 7), .add (toyLeaf 8)] u' ∧
    t'.length = 8 ∧ u'.length = 7 := by
  obtain ⟨b, hb, hu⟩ := wire1
  refine ⟨_, _, b, nofun, old1_wf, hb, steps1, .cons ⟨by decide, rfl⟩ trivial <| .cons ⟨by decide, rfl⟩ trivial <|
      .cons ⟨.inr (by decide), rfl⟩ (.inl ⟨2, by decide, rfl⟩) <| .nil _, hu,
    .cons ⟨by decide, rfl⟩ <| .cons ⟨by decide, rfl⟩ <| .cons ⟨.inr (by decide), rfl⟩ <| .nil _, ?_, ?_⟩
  · rfl
  · rfl

end examples
end Rmls
