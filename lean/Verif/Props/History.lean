import Verif.Proofs.History
import Verif.Props.Integrity
import Verif.Props.Invariant
/-
Property C62: parent hashes and unmerged leaves through every history of honest operations.
-/
namespace Rmls
open Spec RatchetTree

/-- The trees of a group whose members follow the protocol, and what is remembered of their past.

* Leaf nodes of new members and of update proposals carry no parent hash.
* Members update, are removed and send paths.
* A path is accepted, and its keys are not keys of an earlier path.
* A member is added where there is a free slot, or to an array of odd length; see C15 for the other case. -/
inductive Honest (P : CryptoProvider) (cs : CipherSuite) (H : Bytes → Bytes) : RatchetTree → Past → Prop where
  | new (leaf : LeafNode) : NotCommit leaf → Honest P cs H [some (.Leaf leaf)] ⟨[], []⟩
  | add {t t' past} (leaf : LeafNode) : Honest P cs H t past → NotCommit leaf →
      ((∃ j, 2 * j < t.length ∧ t.get (2 * j) = none) ∨ (t.length % 2 = 1 ∧ t.length < 2 ^ 31)) →
      t.add leaf = .ok t' → Honest P cs H t' past
  | update {t t' past} (li : Nat) (leaf : LeafNode) : Honest P cs H t past → NotCommit leaf →
      t.get (2 * li) ≠ none → t.update li leaf = .ok t' → Honest P cs H t' past
  | remove {t t' past} (li : Nat) : Honest P cs H t past → t.get (2 * li) ≠ none → t.remove li = .ok t' →
      Honest P cs H t' past
  | merge {t t' past} (li : Nat) (path : UpdatePath) : Honest P cs H t past → t.get (2 * li) ≠ none →
      (∀ m ∈ path.nodes, m.encryption_key ∉ past.keys ∧ m.encryption_key.length < 2 ^ 30) →
      t.merge_update_path P cs li path = (t', .ok ()) → Honest P cs H t' (past.merged H t'.get li path)

/-- The invariant. -/
structure HistInv (H : Bytes → Bytes) (t : RatchetTree) (past : Past) : Prop where
  inv : TreeInv t
  hash : HashInv H t.get past
  sized : t.length = 0 ∨ ∃ K, t.length + 1 = 2 ^ (K + 1) ∨ t.length = 2 ^ (K + 1)

theorem isHeight_pow (K : Nat) : IsHeight (2 ^ K) K :=
  ⟨Nat.le_refl _, fun _ hl => (Nat.pow_le_pow_iff_right (by omega)).1 hl⟩

/-- The parents above a leaf of the tree are in the tree. -/
theorem parents_in_tree {s : Prop} {t : RatchetTree} (h : TreeInvIf s t) {K li : Nat} (hK : IsHeight t.num_leaves K)
    (hli : li < 2 ^ K) : ∀ k i p, t.get (node k i) = some (.Parent p) → below k i li → k ≤ K := by
  intro k i p hg hb
  rcases in_tree_or_last h.size hK hli hg hb with hk | ⟨_, _, he, hx⟩
  · exact hk
  · rw [hx] at hg; exact absurd hg (h.phantom K p he)

theorem HistInv.height {H : Bytes → Bytes} {t : RatchetTree} {past : Past} (h : HistInv H t past)
    (h0 : 0 < t.length) : ∃ K, IsHeight ((t.length + 1) / 2) K ∧ (t.length + 1 = 2 ^ (K + 1) ∨ t.length = 2 ^ (K + 1)) := by
  rcases h.sized with hz | ⟨K, hK⟩
  · omega
  · refine ⟨K, ?_, hK⟩
    have : (t.length + 1) / 2 = 2 ^ K := by rw [Nat.pow_succ] at hK; omega
    rw [this]
    exact isHeight_pow K

theorem histInv_new {H : Bytes → Bytes} (leaf : LeafNode) (hlf : NotCommit leaf) :
    HistInv H [some (.Leaf leaf)] ⟨[], []⟩ := by
  have hg : ∀ k i n, RatchetTree.get [some (.Leaf leaf)] (node k i) = some n → k = 0 ∧ i = 0 ∧ n = .Leaf leaf := by
    intro k i n h
    have hlt := lt_of_get h
    simp only [List.length_cons, List.length_nil] at hlt
    have hz : node k i = node 0 0 := by rw [node_zero]; omega
    obtain ⟨rfl, rfl⟩ := node_inj hz
    rw [node_zero] at h
    simp [RatchetTree.get] at h
    exact ⟨rfl, rfl, h.symm⟩
  have hp : ∀ x p, RatchetTree.get [some (.Leaf leaf)] x ≠ some (.Parent p) := by
    intro x p h
    obtain ⟨k, i, rfl⟩ := node_surj x
    have := (hg _ _ _ h).2.2
    cases this
  refine ⟨(wellFormed_single leaf).inv, ⟨?_, ?_, ?_, ?_, ?_, ?_, ?_⟩, .inr ⟨0, .inl rfl⟩⟩
  · intro k i l h; have := (hg _ _ _ h).1; omega
  · intro k i n h; have := (hg _ _ _ h).1; omega
  · intro k i p h; exact absurd h (hp _ _)
  · intro k i p h; exact absurd h (hp _ _)
  · intro x p h; exact absurd h (hp _ _)
  · intro x h he
    obtain ⟨k, i, rfl⟩ := node_surj x
    cases hx : RatchetTree.get [some (.Leaf leaf)] (node k i) with
    | none => rw [hx] at he; cases he
    | some n =>
      rw [hx, (hg _ _ _ hx).2.2] at he
      unfold storedParentHash at he
      dsimp only at he
      split at he
      · rename_i hc; exact absurd hc (hlf _)
      · cases he
  · intro b hb; cases hb

theorem histInv_add {H : Bytes → Bytes} {t t' : RatchetTree} {past : Past} {leaf : LeafNode} (h : HistInv H t past)
    (hlf : NotCommit leaf)
    (hroom : (∃ j, 2 * j < t.length ∧ t.get (2 * j) = none) ∨ (t.length % 2 = 1 ∧ t.length < 2 ^ 31))
    (hr : t.add leaf = .ok t') : HistInv H t' past := by
  have hinv := inv_add h.inv (hroom.imp id (·.2)) hr
  have hsize := h.inv.size
  by_cases hf : ∃ j, 2 * j < t.length ∧ t.get (2 * j) = none
  · obtain ⟨_, hf⟩ := hf
    obtain ⟨j, h1, h2, h3⟩ := least_free hf
    obtain ⟨K, hK⟩ := exists_height (num_leaves_bounds (by omega) hsize).1
    obtain ⟨t'', h4, h5, h6⟩ := add_free (leaf := leaf) hsize hK h1 h2 h3
    rw [hr] at h4
    cases h4
    exact ⟨hinv, hashInv_add (K := K) (j := j) h.inv.good h.hash (by omega) hlf (by rw [node_zero]; exact h2)
      (parents_in_tree h.inv hK (leaf_in_tree (by omega) hsize hK h1)) h6, by rw [h5]; exact h.sized⟩
  · have ⟨ho, hl⟩ : t.length % 2 = 1 ∧ t.length < 2 ^ 31 := by
      rcases hroom with hroom | hroom
      · exact absurd hroom hf
      · exact hroom
    have hall : ∀ i, 2 * i < t.length → t.get (2 * i) ≠ none := fun i hi hc => hf ⟨i, hi, hc⟩
    obtain ⟨K, hK, hKl⟩ := h.height (by omega)
    have hKl : t.length + 1 = 2 ^ (K + 1) := by
      rcases hKl with hKl | hKl
      · exact hKl
      · rw [Nat.pow_succ] at hKl; omega
    have hn : (t.length + 1) / 2 = 2 ^ K := by rw [Nat.pow_succ] at hKl; omega
    have h2K : 2 * 2 ^ K = 2 ^ (K + 1) := by rw [Nat.pow_succ]; omega
    obtain ⟨t'', h4, h5, h6⟩ := add_grow (leaf := leaf) (n := 2 ^ K) (K := K + 1) (by omega) (by omega) hl
      (by rw [h2K]; exact isHeight_pow _) (fun i hi => hall i (by omega))
    rw [hr] at h4
    cases h4
    refine ⟨hinv, hashInv_add (K := K + 1) (j := 2 ^ K) h.inv.good h.hash (by omega) hlf
      (by rw [node_zero]; exact get_out (by omega)) ?_ h6, .inr ⟨K + 1, .inl ?_⟩⟩
    · intro k i p hg _
      have h7 := lt_of_get hg
      have h8 := node_add_one k i
      have h9 : 2 ^ k ≤ 2 ^ k * (2 * i + 1) := Nat.le_mul_of_pos_right _ (by omega)
      exact (Nat.pow_le_pow_iff_right (a := 2) (by omega)).1 (by omega)
    · rw [Nat.pow_succ]; omega

theorem histInv_update {H : Bytes → Bytes} {t t' : RatchetTree} {past : Past} {li : Nat} {leaf : LeafNode}
    (h : HistInv H t past) (hlf : NotCommit leaf) (hm : t.get (2 * li) ≠ none) (hr : t.update li leaf = .ok t') :
    HistInv H t' past := by
  have hinv := inv_update h.inv hm hr
  have hlt : 2 * li < t.length := by
    cases hg : t.get (2 * li) with
    | none => exact absurd hg hm
    | some n => exact lt_of_get hg
  obtain ⟨K, hK⟩ := exists_height (num_leaves_bounds (by omega) h.inv.size).1
  have hli := leaf_in_tree (by omega) h.inv.size hK hlt
  obtain ⟨t'', h1, h2, h3⟩ := update_in (leaf := leaf) (by omega) h.inv.size hK hli
  rw [hr] at h1
  cases h1
  refine ⟨hinv, hashInv_update (K := K) (li := li) h.inv.good h.hash hlf (parents_in_tree h.inv hK hli) ?_,
    by rw [h2]; exact h.sized⟩
  intro x
  rw [h3]
  by_cases hx : x = 2 * li
  · rw [if_pos ⟨hx, hlt⟩, if_pos hx]
  · rw [if_neg (fun hc => hx hc.1), if_neg hx]

theorem histInv_remove {H : Bytes → Bytes} {t t' : RatchetTree} {past : Past} {li : Nat}
    (h : HistInv H t past) (hm : t.get (2 * li) ≠ none) (hr : t.remove li = .ok t') :
    HistInv H t' past := by
  have hinv := inv_remove h.inv hm hr
  have hlt : 2 * li < t.length := by
    cases hg : t.get (2 * li) with
    | none => exact absurd hg hm
    | some n => exact lt_of_get hg
  have h0 : 0 < t.length := by omega
  obtain ⟨K, hK⟩ := exists_height (num_leaves_bounds (by omega) h.inv.size).1
  have hli := leaf_in_tree (by omega) h.inv.size hK hlt
  have hp := parents_in_tree h.inv hK hli
  rcases last_member t li with hall | ⟨j, hj1, hj2, hj3⟩
  · rw [remove_clear h0 h.inv.size hK hli hall] at hr
    cases hr
    refine ⟨hinv, hashInv_remove (li := li) (K := K) (c := 0) h.inv.good h.hash (.inl rfl) (fun x => ?_)
      (fun i _ hi => hall i hi) hp, .inl rfl⟩
    rw [if_pos (.inr (.inr (by omega)))]; rfl
  · obtain ⟨m, hmh⟩ := exists_height (n := j + 1) (by omega)
    rw [remove_last h0 h.inv.size hK hli hj1 hj2 hj3 hmh] at hr
    cases hr
    have hget : ∀ x, RatchetTree.get (List.take (2 ^ (m + 1)) (blanked t K li)) x =
        if x = 2 * li ∨ above K li x ∨ 2 ^ (m + 1) ≤ x then none else t.get x := by
      intro x
      rw [get_take, blanked_get]
      by_cases hc : x < 2 ^ (m + 1)
      · rw [if_pos hc]
        by_cases h2 : x = 2 * li ∨ above K li x
        · rw [if_pos h2, if_pos (by rcases h2 with h | h; exact Or.inl h; exact Or.inr (Or.inl h))]
        · rw [if_neg h2, if_neg]
          rintro (h | h | h)
          · exact h2 (Or.inl h)
          · exact h2 (Or.inr h)
          · omega
      · rw [if_neg hc, if_pos (Or.inr (Or.inr (by omega)))]
    have hcut : ∀ i, 2 ^ (m + 1) ≤ 2 * i → i ≠ li → t.get (2 * i) = none := by
      intro i hc hi
      apply hj3 i _ hi
      have := hmh.1
      rw [Nat.pow_succ] at hc
      omega
    refine ⟨hinv, hashInv_remove (li := li) (K := K) (c := 2 ^ (m + 1)) h.inv.good h.hash (.inr ⟨m, rfl⟩) hget hcut
      hp, ?_⟩
    rw [List.length_take, blanked_length]
    by_cases hle : 2 ^ (m + 1) ≤ t.length
    · exact .inr ⟨m, .inr (by omega)⟩
    · rw [show min (2 ^ (m + 1)) t.length = t.length by omega]; exact h.sized

theorem mergedPath {P : CryptoProvider} {cs : CipherSuite} {Hs : Hash} (hP : P.hash cs = .ok Hs)
    {t t' : RatchetTree} {K j : Nat} (h : MergePlace t K j) {path : UpdatePath}
    (hm : t.merge_update_path P cs j path = (t', .ok ())) : MergedPath Hs.digest t.get t'.get K j path := by
  obtain ⟨_, e2, e3, e4, e5, e6⟩ := C22_effect P cs Hs hP t t' K j h path hm
  obtain ⟨p1, p2, p3⟩ := C23_parent_hashes P cs Hs hP t t' K j h path hm
  refine ⟨?_, e3, e6, ?_, ?_, p1, p2, p3⟩
  · have := h.height.2 31 (by have := h.size; omega)
    omega
  · intro k nd hk1 hk2 hnd
    have hf : k ∈ filteredLevels t.get K j := by
      apply Decidable.byContradiction
      intro hc
      rw [e5 k hk1 hk2 hc] at hnd; cases hnd
    refine ⟨hf, ?_⟩
    obtain ⟨i, hi⟩ := List.mem_iff_getElem?.1 hf
    obtain ⟨m, ph, hm1, hm2⟩ := e4 i k hi
    rw [hnd] at hm2
    injection hm2 with hm2
    exact ⟨_, hm2, rfl, List.mem_map.2 ⟨m, List.mem_of_getElem? hm1, rfl⟩⟩
  · intro k hf
    obtain ⟨i, hi⟩ := List.mem_iff_getElem?.1 hf
    obtain ⟨m, ph, _, hm2⟩ := e4 i k hi
    rw [hm2]; simp

theorem histInv_merge {P : CryptoProvider} {cs : CipherSuite} {Hs : Hash} (hP : P.hash cs = .ok Hs)
    (hs : ∀ b, (Hs.digest b).length < 2 ^ 30) {t t' : RatchetTree} {past : Past} {li : Nat} {path : UpdatePath}
    (h : HistInv Hs.digest t past) (hm : t.get (2 * li) ≠ none)
    (hfresh : ∀ m ∈ path.nodes, m.encryption_key ∉ past.keys ∧ m.encryption_key.length < 2 ^ 30)
    (hr : t.merge_update_path P cs li path = (t', .ok ())) :
    HistInv Hs.digest t' (past.merged Hs.digest t'.get li path) := by
  have hinv := inv_merge (P := P) (cs := cs) (path := path) h.inv hm
  rw [hr] at hinv
  have hlt : 2 * li < t.length := by
    cases hg : t.get (2 * li) with
    | none => exact absurd hg hm
    | some n => exact lt_of_get hg
  obtain ⟨K, hK, hKl⟩ := h.height (by omega)
  have hK' : IsHeight t.num_leaves K := by rw [room (by omega) h.inv.size]; exact hK
  have hli := leaf_in_tree (by omega) h.inv.size hK' hlt
  have hin : MergePlace t K li := ⟨h.inv.size, hK, hlt⟩
  refine ⟨hinv, hashInv_merge h.inv.good h.hash (by rw [node_zero]; exact hm) hs hfresh
    (parents_in_tree h.inv hK' hli) (mergedPath hP hin hr), ?_⟩
  rw [(C22_effect P cs Hs hP t t' K li hin path hr).1]
  exact h.sized

theorem honest_inv {P : CryptoProvider} {cs : CipherSuite} {Hs : Hash} (hP : P.hash cs = .ok Hs)
    (hs : ∀ b, (Hs.digest b).length < 2 ^ 30) {t : RatchetTree} {past : Past} (h : Honest P cs Hs.digest t past) :
    HistInv Hs.digest t past := by
  induction h with
  | new leaf hlf => exact histInv_new leaf hlf
  | add leaf _ hlf hroom hr ih => exact histInv_add ih hlf hroom hr
  | update li leaf _ hlf hm hr ih => exact histInv_update ih hlf hm hr
  | remove li _ hm hr ih => exact histInv_remove ih hm hr
  | merge li path _ hm hfresh hr ih => exact histInv_merge hP hs ih hm hfresh hr

/-! ### The theorems -/

/-- C62: in the tree of an honest group every parent is vouched for from below: a node in the resolution of one
of its children carries its parent hash, over the tree without the members that joined since. -/
theorem C62_linked (P : CryptoProvider) (cs : CipherSuite) (Hs : Hash) (hP : P.hash cs = .ok Hs)
    (hs : ∀ b, (Hs.digest b).length < 2 ^ 30) (t : RatchetTree) (past : Past) (h : Honest P cs Hs.digest t past)
    (k i : Nat) (p : ParentNode) (hp : t.get (node (k + 1) i) = some (.Parent p)) :
    Linked Hs.digest t.get p k (2 * i) (2 * i + 1) ∨ Linked Hs.digest t.get p k (2 * i + 1) (2 * i) := by
  obtain ⟨c, s, hcs, ho⟩ := (honest_inv hP hs h).hash.sides k i p hp
  rcases hcs with ⟨rfl, rfl⟩ | ⟨rfl, rfl⟩
  · exact .inl ho.linked
  · exact .inr ho.linked

theorem parentHashEnc_fits {H : Bytes → Bytes} {t : RatchetTree} {past : Past} (h : HistInv H t past)
    (hs : ∀ b, (H b).length < 2 ^ 30) {x : Nat} {p : ParentNode} (hp : t.get x = some (.Parent p))
    (n : Nat → Option Node) (k i : Nat) : (parentHashEnc p (treeHash H n k i)).fits := by
  refine ⟨⟨trivial, h.hash.short _ _ hp⟩, ⟨trivial, ?_⟩, ⟨trivial, ?_⟩⟩
  · show p.parent_hash.length < 2 ^ 30
    rcases h.hash.stored x p.parent_hash (by rw [hp]; rfl) with h1 | ⟨b, _, h1⟩
    · rw [h1]; exact Nat.two_pow_pos 30
    · rw [h1]; exact hs b
  · show (treeHash H n k i).length < 2 ^ 30
    cases k <;> (rw [treeHash]; exact hs _)

/-- C62: it is vouched for on one side only, unless two inputs with the same digest are known, one from the past of
the group and one from checking this parent. -/
theorem C62_one_side (P : CryptoProvider) (cs : CipherSuite) (Hs : Hash) (hP : P.hash cs = .ok Hs)
    (hs : ∀ b, 0 < (Hs.digest b).length ∧ (Hs.digest b).length < 2 ^ 30) (t : RatchetTree) (past : Past)
    (h : Honest P cs Hs.digest t past) (k i : Nat) (p : ParentNode)
    (hp : t.get (node (k + 1) i) = some (.Parent p)) :
    ¬ (Linked Hs.digest t.get p k (2 * i) (2 * i + 1) ↔ Linked Hs.digest t.get p k (2 * i + 1) (2 * i)) ∨
      Collision Hs.digest (checkedInputs Hs.digest t.get k i p) past.inputs := by
  have hinv := honest_inv hP (fun b => (hs b).2) h
  have key : ∀ c s, Sides i c s → OneSided Hs.digest t.get past k p c s → Linked Hs.digest t.get p k s c →
      Collision Hs.digest (checkedInputs Hs.digest t.get k i p) past.inputs := by
    intro c s hcs ho ⟨x, hx, he⟩
    rcases ho.other x _ (resolution_mem hinv.inv.good.ok hx).1 he with h1 | ⟨b, hb, h1, h2⟩
    · have := (hs (parentHashEnc p (treeHash Hs.digest (without p.unmerged_leaves t.get) k c)).bytes).1
      unfold parentHashOver at h1
      rw [h1] at this
      simp at this
    · refine ⟨_, ?_, b, hb, h2 _ (parentHashEnc_fits hinv (fun b => (hs b).2) hp _ k c), h1⟩
      unfold checkedInputs
      rcases hcs with ⟨rfl, _⟩ | ⟨rfl, _⟩ <;> simp
  obtain ⟨c, s, hcs, ho⟩ := hinv.hash.sides k i p hp
  by_cases hb : Linked Hs.digest t.get p k s c
  · exact .inr (key c s hcs ho hb)
  · left
    rcases hcs with ⟨rfl, rfl⟩ | ⟨rfl, rfl⟩
    · exact fun hc => hb (hc.1 ho.linked)
    · exact fun hc => hb (hc.2 ho.linked)

/-- C62: every parent that lists an unmerged leaf is above it, and so do all parents in between. -/
theorem C62_unmerged (P : CryptoProvider) (cs : CipherSuite) (Hs : Hash) (hP : P.hash cs = .ok Hs)
    (hs : ∀ b, (Hs.digest b).length < 2 ^ 30) (t : RatchetTree) (past : Past) (h : Honest P cs Hs.digest t past)
    (k i : Nat) (p : ParentNode) (hp : t.get (node k i) = some (.Parent p)) (u : LeafIndex)
    (hu : u ∈ p.unmerged_leaves) : UnmergedListed t.get k i u :=
  (honest_inv hP hs h).hash.listed k i p hp u hu

/-- C62: there are members below both children of every parent. -/
theorem C62_both_used (P : CryptoProvider) (cs : CipherSuite) (Hs : Hash) (hP : P.hash cs = .ok Hs)
    (hs : ∀ b, (Hs.digest b).length < 2 ^ 30) (t : RatchetTree) (past : Past) (h : Honest P cs Hs.digest t past) :
    BothUsed t.get := (honest_inv hP hs h).hash.both

theorem vector_filter_fits {α : Type} (f : α → Spec.Enc) (g : α → Bool) (xs : List α)
    (h : (Enc.vector f xs).fits) : (Enc.vector f (xs.filter g)).fits := by
  have key : ∀ xs : List α, (xs.foldr (fun x e => Enc.seq (f x) e) Enc.empty).fits →
      ((xs.filter g).foldr (fun x e => Enc.seq (f x) e) Enc.empty).fits ∧
      ((xs.filter g).foldr (fun x e => Enc.seq (f x) e) Enc.empty).bytes.length ≤
        (xs.foldr (fun x e => Enc.seq (f x) e) Enc.empty).bytes.length := by
    intro xs
    induction xs with
    | nil => intro h; exact ⟨h, Nat.le_refl _⟩
    | cons x xs ih =>
      intro h
      obtain ⟨h1, h2⟩ := ih h.2
      rw [List.filter_cons]
      split
      · refine ⟨⟨h.1, h1⟩, ?_⟩
        simp only [List.foldr_cons, Enc.bytes, List.length_append]
        omega
      · refine ⟨h1, ?_⟩
        simp only [List.foldr_cons, Enc.bytes, List.length_append]
        omega
  obtain ⟨h1, h2⟩ := key xs h.1
  exact ⟨h1, Nat.lt_of_le_of_lt h2 h.2⟩

/-- What can be hashed can be hashed without some leaves. -/
theorem hashDefined_without {H : Bytes → Bytes} (hs : ∀ b, (H b).length < 2 ^ 30) {n : Nat → Option Node}
    (us : List LeafIndex) : ∀ {k i}, HashDefined H n k i → HashDefined H (without us n) k i := by
  have hth : ∀ n k i, (treeHash H n k i).length < 2 ^ 30 := by
    intro n k i; cases k <;> (rw [treeHash]; exact hs _)
  intro k
  induction k with
  | zero =>
    intro i ⟨h1, h2⟩
    unfold HashDefined without
    split
    · exact ⟨fun p hc => (nomatch hc), h2.1, h2.2.1, trivial⟩
    · split
      · rename_i p hp; exact absurd hp (h1 p)
      · exact ⟨h1, h2⟩
  | succ k ih =>
    intro i ⟨h1, h2, h3, h4⟩
    refine ⟨?_, ⟨h2.1, ?_, ⟨trivial, hth _ _ _⟩, ⟨trivial, hth _ _ _⟩⟩, ih h3, ih h4⟩
    · intro l hc
      unfold without at hc
      split at hc
      · cases hc
      · split at hc
        · cases hc
        · exact h1 l hc
    · unfold without
      split
      · exact trivial
      · split
        · rename_i p hp
          have := h2.2.1
          rw [hp] at this
          obtain ⟨a, b, c, d⟩ := this
          exact ⟨a, b, c, vector_filter_fits _ _ _ d⟩
        · exact h2.2.1

theorem hashDefined_sub {H : Bytes → Bytes} {n : Nat → Option Node} : ∀ {K k i a b : Nat}, HashDefined H n K b →
    K = k + a → i / 2 ^ a = b → HashDefined H n k i := by
  intro K
  induction K with
  | zero =>
    intro k i a b h hk hi
    obtain ⟨rfl, rfl⟩ : k = 0 ∧ a = 0 := by omega
    rw [Nat.pow_zero, Nat.div_one] at hi
    exact hi ▸ h
  | succ K ih =>
    intro k i a b h hk hi
    cases a with
    | zero =>
      rw [Nat.pow_zero, Nat.div_one] at hi
      rw [hi, show k = K + 1 by omega]
      exact h
    | succ a =>
      rw [Nat.pow_succ, ← Nat.div_div_eq_div_mul] at hi
      obtain ⟨_, _, h3, h4⟩ := h
      by_cases he : i / 2 ^ a = 2 * b
      · exact ih h3 (a := a) (by omega) he
      · exact ih h4 (a := a) (by omega) (by omega)

/-- The nodes of the tree of an honest group are all in the perfect tree over its leaves. -/
theorem HistInv.inside {H : Bytes → Bytes} {t : RatchetTree} {past : Past} (h : HistInv H t past)
    {K : Nat} (hK : IsHeight ((t.length + 1) / 2) K) : ∀ x n, t.get x = some n → x < 2 ^ (K + 1) - 1 := by
  intro x n hx
  have hlt := lt_of_get hx
  obtain ⟨K', hK', hl⟩ := h.height (by omega)
  obtain rfl := isHeight_unique hK hK'
  rcases hl with hl | hl
  · omega
  · apply Decidable.byContradiction
    intro hc
    have hxe : x = t.length - 1 := by omega
    cases n with
    | Parent p => rw [hxe] at hx; exact h.inv.phantom K p hl hx
    | Leaf l =>
      have : x = node (K + 1) 0 := by have := node_add_one (K + 1) 0; omega
      rw [this] at hx
      exact h.hash.inner K 0 l hx

/-- C62, what is true: a member of the group accepts the tree of an honest group, as far as parents are concerned: if the
tree can be hashed to the tree hash of the group context, its leaves are valid and keys are not shared, then
`verify_integrity` returns without an error, or a collision of the hash function is known.
Missing: trees after a rejected path, see `C62_rejected_refuted`, and after adding to a full array of even length, see
`C62_even_refuted`. -/
theorem C62_accepted_partial (P : CryptoProvider) (ctx : GroupContext) (now : Int) (Hs : Hash)
    (hP : P.hash ctx.cipher_suite = .ok Hs)
    (hs : ∀ b, 0 < (Hs.digest b).length ∧ (Hs.digest b).length < 2 ^ 30) (t : RatchetTree) (past : Past)
    (h : Honest P ctx.cipher_suite Hs.digest t past) (h0 : 0 < t.length) (K : Nat)
    (hK : IsHeight ((t.length + 1) / 2) K) (hdef : HashDefined Hs.digest t.get K 0)
    (hhash : treeHash Hs.digest t.get K 0 = ctx.tree_hash)
    (hleaves : ∀ i l, t.get (node 0 i) = some (.Leaf l) → LeafValid P l ctx.cipher_suite ctx.group_id (UInt32.ofNat i)
      (SupportedCred t.get ((t.length + 1) / 2)) now)
    (hsig : ∀ i j l m, t.get (node 0 i) = some (.Leaf l) → t.get (node 0 j) = some (.Leaf m) →
      l.payload.signature_key = m.payload.signature_key → i = j)
    (hkeys : ∀ x y key, HasKey t.get x key → HasKey t.get y key → x = y) :
    verify_integrity P t ctx now = .ok () ∨
      ∃ k i p, t.get (node (k + 1) i) = some (.Parent p) ∧
        Collision Hs.digest (checkedInputs Hs.digest t.get k i p) past.inputs := by
  have hinv := honest_inv hP (fun b => (hs b).2) h
  by_cases hcol : ∃ k i p, t.get (node (k + 1) i) = some (.Parent p) ∧
        Collision Hs.digest (checkedInputs Hs.digest t.get k i p) past.inputs
  · exact .inr hcol
  left
  have hin := hinv.inside hK
  rw [C19_exact P t ctx now Hs hP h0 hinv.inv.size K hK hin]
  refine ⟨hdef, hhash, ?_, hleaves, hsig, hkeys, hinv.hash.listed⟩
  intro k i p hp
  obtain ⟨hkK, hi⟩ := inSubtree_node.1 (inSubtree_root.2 (hin _ _ hp))
  have hsub := hashDefined_sub (k := k + 1) (i := i) (a := K - (k + 1)) hdef (by omega) hi
  refine ⟨hashDefined_without (fun b => (hs b).2) _ hsub.2.2.1, hashDefined_without (fun b => (hs b).2) _ hsub.2.2.2,
    parentHashEnc_fits hinv (fun b => (hs b).2) hp _ _ _, parentHashEnc_fits hinv (fun b => (hs b).2) hp _ _ _, ?_⟩
  rcases C62_one_side P _ Hs hP hs t past h k i p hp with h1 | h1
  · exact h1
  · exact absurd ⟨k, i, p, hp, h1⟩ hcol

section examples
private abbrev suite1 : CipherSuite := .MLS_128_DHKEMX25519_AES128GCM_SHA256_Ed25519

/-- A digest of four bytes. -/
def sumHash : Hash where
  size := 4
  digest b := let n := (b.foldl (fun h x => h * 33 + x.toUInt32) 5381 : UInt32)
    [(n >>> 24).toUInt8, (n >>> 16).toUInt8, (n >>> 8).toUInt8, n.toUInt8]
  mac k b := k ++ b

def sumProvider : CryptoProvider := { toyProvider with hash := fun _ => .ok sumHash }

theorem sumHash_size (b : Bytes) : 0 < (sumHash.digest b).length ∧ (sumHash.digest b).length < 2 ^ 30 := by
  simp [sumHash]

theorem signedLeaf_notCommit (k : UInt8) : NotCommit (signedLeaf k .Update) := by
  intro h hc; cases hc

/-- Three members of four. -/
def sumThree : RatchetTree :=
  [some (.Leaf (signedLeaf 0 .Update)), none, some (.Leaf (signedLeaf 1 .Update)), none,
   some (.Leaf (signedLeaf 2 .Update)), none, none]

theorem sumThree_honest : Honest sumProvider suite1 sumHash.digest sumThree ⟨[], []⟩ :=
  .add (signedLeaf 2 .Update) (.add (signedLeaf 1 .Update) (.new (signedLeaf 0 .Update) (signedLeaf_notCommit 0))
    (signedLeaf_notCommit 1) (.inr ⟨by decide, by decide⟩) rfl) (signedLeaf_notCommit 2)
    (.inr ⟨by decide, by decide⟩) rfl

def sumRoot : ParentNode := ⟨[41], [], []⟩
def sumLeft : ParentNode := ⟨[40], parentHash sumHash.digest sumThree.get 0 2 sumRoot, []⟩

/-- A path of the first member. -/
def sumPath : UpdatePath where
  leaf_node := signedLeaf 0 (.Commit (parentHash sumHash.digest sumThree.get 0 1 sumLeft))
  nodes := [⟨[40], []⟩, ⟨[41], []⟩]

def sumFour : RatchetTree :=
  [some (.Leaf sumPath.leaf_node), some (.Parent sumLeft), some (.Leaf (signedLeaf 1 .Update)),
   some (.Parent { sumRoot with unmerged_leaves := [3] }), some (.Leaf (signedLeaf 2 .Update)), none,
   some (.Leaf (signedLeaf 3 .Update))]

set_option maxRecDepth 100000 in
/-- Three members, a path of the first, and a fourth member that joins after it. -/
theorem sumFour_honest : ∃ past, past.inputs ≠ [] ∧ Honest sumProvider suite1 sumHash.digest sumFour past := by
  have hm : sumThree.merge_update_path sumProvider suite1 0 sumPath = (sumFour.take 3 ++ [some (.Parent sumRoot)] ++
    (sumFour.drop 4).take 2 ++ [none], .ok ()) := by decide +kernel
  refine ⟨_, ?_, .add (signedLeaf 3 .Update) (.merge 0 sumPath sumThree_honest (by decide) (by decide) hm)
    (signedLeaf_notCommit 3) (.inl ⟨3, by decide, by decide⟩) (by decide +kernel)⟩
  decide +kernel

set_option maxRecDepth 100000 in
/-- Its tree is accepted, so it also meets the other conditions of `C62_accepted_partial`. -/
example : verify_integrity sumProvider sumFour
    { toyContext with tree_hash := treeHash sumHash.digest sumFour.get 2 0 } 0 = .ok () := by decide +kernel

set_option maxRecDepth 100000 in
/-- C62 needs the paths to be accepted: after a path that `merge_update_path` rejects, because the leaf carries
another parent hash, the tree of an honest group does not pass the check of parent hashes any more. -/
theorem C62_rejected_refuted : ∃ (t t' : RatchetTree) (past : Past) (path : UpdatePath) (e : Error),
    Honest sumProvider suite1 sumHash.digest t past ∧
    verify_parent_hashes sumProvider suite1 t = .ok true ∧
    t.merge_update_path sumProvider suite1 0 path = (t', .err e) ∧
    verify_parent_hashes sumProvider suite1 t' = .ok false :=
  ⟨sumThree, _, _, { sumPath with leaf_node := signedLeaf 0 (.Commit []) }, _, sumThree_honest, by decide +kernel, rfl,
    by decide +kernel⟩

set_option maxRecDepth 100000 in
/-- C62 needs room for the new member: removing the second of two members and adding another one, both without an
error, gives a tree that has no tree hash. -/
theorem C62_even_refuted : ∃ (t t' : RatchetTree) (past : Past) (leaf : LeafNode),
    Honest sumProvider suite1 sumHash.digest t past ∧ NotCommit leaf ∧ t.length = 2 ∧ t.add leaf = .ok t' ∧
    compute_root_tree_hash sumProvider suite1 t = .ok (treeHash sumHash.digest t.get 0 0) ∧
    ∃ e, compute_root_tree_hash sumProvider suite1 t' = .err e :=
  ⟨[some (.Leaf (signedLeaf 0 .Update)), none], _, ⟨[], []⟩, signedLeaf 1 .Update,
    .remove 1 (.add (signedLeaf 1 .Update) (.new (signedLeaf 0 .Update) (signedLeaf_notCommit 0))
      (signedLeaf_notCommit 1) (.inr ⟨by decide, by decide⟩) rfl) (by decide) rfl, signedLeaf_notCommit 1, rfl, rfl,
    by decide +kernel, _, rfl⟩

end examples
end Rmls
