import Verif.Spec.Vectors
import Verif.Props.Merge
import Verif.Props.History
/-
Properties C22 and C23: what makes a path acceptable, without the words of the code.
-/
namespace Rmls
open Spec RatchetTree

/-- The levels of an ancestor that is not blank after the merge. -/
theorem Spec.PathMerged.nonblank {H : Bytes → Bytes} {K j : Nat} {up : UpdatePath} {n n' : Nat → Option Node}
    (h : PathMerged H K j up n n') {k : Nat} (h1 : 1 ≤ k) (h2 : k ≤ K) :
    n' (anc j k) ≠ none ↔ k ∈ filteredLevels n K j := by
  constructor
  · intro hn
    apply Decidable.byContradiction
    intro hc
    exact hn (h.blank k h1 h2 hc)
  · intro hk
    obtain ⟨i, hi⟩ := List.getElem?_of_mem hk
    obtain ⟨_, _, _, he⟩ := h.path i k hi
    rw [he]
    simp

theorem Spec.PathMerged.nextUp {H : Bytes → Bytes} {K j : Nat} {up up' : UpdatePath} {n n' n'' : Nat → Option Node}
    (h : PathMerged H K j up n n') (h' : PathMerged H K j up' n n'') {a b : Nat} (hn : NextUp n' K j a b) :
    NextUp n'' K j a b := by
  obtain ⟨h1, h2, h3, h4⟩ := hn
  refine ⟨h1, h2, (h'.nonblank (by omega) h2).2 ((h.nonblank (by omega) h2).1 h3), fun c hc1 hc2 => ?_⟩
  apply Decidable.byContradiction
  intro hne
  exact (h.nonblank (by omega) (by omega)).2 ((h'.nonblank (by omega) (by omega)).1 hne) (h4 c hc1 hc2)

theorem Spec.PathMerged.hashes {H : Bytes → Bytes} {K j : Nat} {up : UpdatePath} {n n' : Nat → Option Node}
    (h : PathMerged H K j up n n') (b : Nat) (q : ParentNode) : parentHash H n' j b q = parentHash H n j b q := by
  unfold parentHash
  rw [treeHash_congr]
  intro x hx
  refine h.others x ?_ ?_
  · rintro ⟨l, _, _, hc⟩; exact sib_disjoint hx hc
  · rw [← anc_zero]; exact sib_disjoint hx

/-- Two trees after the same path nodes are the same on the path, whatever the leaf node is. -/
theorem Spec.PathMerged.parents {H : Bytes → Bytes} {K j : Nat} {up up' : UpdatePath} {n n' n'' : Nat → Option Node}
    (h : PathMerged H K j up n n') (h' : PathMerged H K j up' n n'') (hn : up'.nodes = up.nodes) :
    ∀ k, 1 ≤ k → k ≤ K → n' (anc j k) = n'' (anc j k) := by
  suffices hd : ∀ d k, K - k ≤ d → 1 ≤ k → k ≤ K → n' (anc j k) = n'' (anc j k) from
    fun k h1 h2 => hd K k (by omega) h1 h2
  intro d
  induction d using Nat.strongRecOn with
  | _ d ih =>
    intro k hd h1 h2
    by_cases hk : k ∈ filteredLevels n K j
    · obtain ⟨i, hi⟩ := List.getElem?_of_mem hk
      obtain ⟨x, ph, hx, he⟩ := h.path i k hi
      obtain ⟨x', ph', hx', he'⟩ := h'.path i k hi
      rw [hn, hx] at hx'
      cases hx'
      have hph : ph = ph' := by
        by_cases hup : ∃ b, NextUp n' K j k b
        · obtain ⟨b, hb⟩ := hup
          have hb' := h.nextUp h' hb
          have hlt := hb.1
          have hle := hb.2.1
          have hmem := (h.nonblank (by omega) hle).1 hb.2.2.1
          obtain ⟨i', hi'⟩ := List.getElem?_of_mem hmem
          obtain ⟨y, ph2, _, hq⟩ := h.path i' b hi'
          have hq' := (ih (K - b) (by omega) b (Nat.le_refl _) (by omega) hle).symm.trans hq
          have e1 := h.linked k _ b _ h1 he hb hq
          have e2 := h'.linked k _ b _ h1 he' hb' hq'
          rw [h.hashes] at e1
          rw [h'.hashes] at e2
          exact e1.trans e2.symm
        · have hall : ∀ c, k < c → c ≤ K → n' (anc j c) = none := by
            intro c
            induction c using Nat.strongRecOn with
            | _ c ihc =>
              intro hc1 hc2
              apply Decidable.byContradiction
              intro hne
              exact hup ⟨c, hc1, hc2, hne, fun e he1 he2 => ihc e he2 he1 (by omega)⟩
          have hall' : ∀ c, k < c → c ≤ K → n'' (anc j c) = none := by
            intro c hc1 hc2
            apply Decidable.byContradiction
            intro hne
            exact (h.nonblank (by omega) hc2).2 ((h'.nonblank (by omega) hc2).1 hne) (hall c hc1 hc2)
          exact (h.top k _ h1 h2 he hall).trans (h'.top k _ h1 h2 he' hall').symm
      rw [he, he', hph]
    · rw [h.blank k h1 h2 hk, h'.blank k h1 h2 hk]

/-- The tree after a path is determined by the tree before and the path. -/
theorem Spec.PathMerged.unique {H : Bytes → Bytes} {K j : Nat} {up : UpdatePath} {n n' n'' : Nat → Option Node}
    (h : PathMerged H K j up n n') (h' : PathMerged H K j up n n'') : ∀ x, n' x = n'' x := by
  intro x
  by_cases ha : above K j x
  · obtain ⟨k, h1, h2, rfl⟩ := above_anc.1 ha
    exact h.parents h' rfl k h1 h2
  · by_cases hx : x = node 0 j
    · rw [hx, h.leaf, h'.leaf]
    · rw [h.others x ha hx, h'.others x ha hx]

/-- A path is merged exactly if there is a tree that has it (sections 7.5 and 7.9), and then that tree is what it is merged
to.  Sizes are as in all messages, and the copath can be hashed. -/
theorem C22_exact (P : CryptoProvider) (cs : CipherSuite) (Hs : Hash) (hP : P.hash cs = .ok Hs)
    (t t' : RatchetTree) (K j : Nat) (h : MergeInput t K j) (path : UpdatePath)
    (hd : ∀ k ∈ filteredLevels t.get K j, HashDefined Hs.digest t.get (k - 1) (sib j (k - 1)))
    (hs : ∀ b, (Hs.digest b).length < 2 ^ 30) (hk : ∀ n ∈ path.nodes, n.encryption_key.length < 2 ^ 30) :
    t.merge_update_path P cs j path = (t', .ok ()) ↔
      t'.length = t.length ∧ PathMerged Hs.digest K j path t.get t'.get := by
  have fwd : ∀ (path : UpdatePath) (t' : RatchetTree), t.merge_update_path P cs j path = (t', .ok ()) →
      t'.length = t.length ∧ PathMerged Hs.digest K j path t.get t'.get := by
    intro path t' he
    obtain ⟨a1, a2, a3, a4, a5, a6⟩ := C22_effect P cs Hs hP t t' K _ h.toMergePlace path he
    obtain ⟨b1, b2, b3⟩ := C23_parent_hashes P cs Hs hP t t' K _ h.toMergePlace path he
    exact ⟨a1, a2, a3, a4, a5, a6, b1, b2, b3⟩
  refine ⟨fwd path t', fun ⟨hl, hm⟩ => ?_⟩
  obtain ⟨b, q, hb, hq, hsrc⟩ := hm.source
  have hmem := (hm.nonblank (by have := hb.1; omega) hb.2.1).1 hb.2.2.1
  have hne : path.nodes ≠ [] := by
    intro hc
    have := hm.count
    rw [hc] at this
    rw [List.length_eq_zero_iff.1 this.symm] at hmem
    cases hmem
  obtain ⟨out, hout⟩ := C22_accepts P cs Hs hP t K j h path.nodes hm.count hne hd hs hk
  -- the same path nodes, with the leaf node that is accepted
  have hacc := (hout { path.leaf_node with payload := { path.leaf_node.payload with leaf_node_source := .Commit out } }).2 rfl
  generalize he : t.merge_update_path P cs j ⟨{ path.leaf_node with
    payload := { path.leaf_node.payload with leaf_node_source := .Commit out } }, path.nodes⟩ = r at hacc
  obtain ⟨t2, res⟩ := r
  dsimp only at hacc
  subst hacc
  obtain ⟨_, hm2⟩ := fwd _ _ he
  obtain ⟨b2, q2, hb2, hq2, hsrc2⟩ := hm2.source
  obtain rfl := nextUp_unique hb2 (hm.nextUp hm2 hb)
  rw [hm2.parents hm rfl _ (by have := hb.1; omega) hb.2.1, hq] at hq2
  cases hq2
  have hoe : path.leaf_node.payload.leaf_node_source = .Commit out := by
    rw [hsrc, hm.hashes, ← hm2.hashes]
    exact hsrc2.symm
  have hfin := (hout path.leaf_node).2 hoe
  generalize he3 : t.merge_update_path P cs j path = r at hfin
  obtain ⟨t3, res⟩ := r
  dsimp only at hfin
  subst hfin
  obtain ⟨hl3, hm3⟩ := fwd _ _ he3
  rw [RatchetTree.ext (hl3.trans hl.symm) (hm3.unique hm)]

section examples
private abbrev suite1 : CipherSuite := .MLS_128_DHKEMX25519_AES128GCM_SHA256_Ed25519

theorem sum_mergeInput : MergeInput sumThree 2 0 where
  size := by decide
  height := ⟨by decide, fun j hj => (Nat.pow_le_pow_iff_right (a := 2) (by omega)).1 hj⟩
  inside := by decide
  small := by
    intro x p hx
    match x, hx with
    | 0, hx | 1, hx | 2, hx | 3, hx | 4, hx | 5, hx | 6, hx => cases hx
    | x + 7, hx => exact absurd (lt_of_get hx) (by show ¬ x + 7 < 7; omega)

set_option maxRecDepth 100000 in
/-- The conditions are met by a path with two nodes. -/
example : ∃ t', PathMerged sumHash.digest 2 0 sumPath sumThree.get (RatchetTree.get t') := by
  have hl : filteredLevels sumThree.get 2 0 = [1, 2] := by decide +kernel
  refine ⟨_, ((C22_exact sumProvider suite1 sumHash rfl sumThree _ 2 0 sum_mergeInput sumPath ?_
    (fun b => (sumHash_size b).2) (by decide)).1 (Prod.ext rfl (by decide +kernel))).2⟩
  have hdef : HashDefined sumHash.digest sumThree.get 2 0 := by
    rcases C20_rfc sumProvider suite1 sumHash rfl sumThree 2 0 (by decide) with ⟨h, _⟩ | ⟨_, e, h⟩
    · exact h
    · have hok : (match compute_tree_hash sumProvider suite1 sumThree (node 2 0) [] with
        | .ok _ => true
        | _ => false) = true := by decide +kernel
      rw [h] at hok
      cases hok
  intro k hk
  rw [hl] at hk
  rcases List.mem_cons.1 hk with rfl | hk
  · exact hdef.2.2.1.2.2.2
  · cases List.mem_singleton.1 hk
    exact hdef.2.2.2

/-- An array of 9 slots, as an `add` to an array of 4 leaves it: five leaves, height 3. -/
def nine : RatchetTree :=
  [some (.Leaf (toyLeaf 0)), none, none, none, none, none, none, none, some (.Leaf (toyLeaf 4))]

set_option maxRecDepth 100000 in
/-- C22 needs the sender to be in the array: a path from the leaf after the last one is merged, and the leaf is lost. -/
theorem C22_outside : ∃ (t t' : RatchetTree) (j : Nat) (path : UpdatePath), IsHeight ((t.length + 1) / 2) 3 ∧ j < 2 ^ 3 ∧
    t.merge_update_path sumProvider suite1 j path = (t', .ok ()) ∧ t'.get (node 0 j) = none :=
  ⟨nine, [some (.Leaf (toyLeaf 0)), none, none, none, none, none, none, some (.Parent ⟨[41], [], []⟩),
      some (.Leaf (toyLeaf 4))], 5,
    ⟨{ toyLeaf 7 with payload := { (toyLeaf 7).payload with leaf_node_source := .Commit [188, 129, 174, 123] } },
      [⟨[40], []⟩, ⟨[41], []⟩]⟩,
    ⟨by decide, fun j hj => by
      apply Decidable.byContradiction
      intro hc
      have : 2 ^ j ≤ 2 ^ 2 := Nat.pow_le_pow_right (by omega) (by omega)
      have h5 : 5 ≤ 2 ^ j := hj
      omega⟩, by decide, by decide +kernel, by decide +kernel⟩

set_option maxRecDepth 100000 in
/-- In that array a path from the last leaf is merged as it should be: the ancestors outside of the array stay out of it. -/
example : MergePlace nine 3 4 ∧ ∃ h, (nine.merge_update_path sumProvider suite1 4
    ⟨{ toyLeaf 7 with payload := { (toyLeaf 7).payload with leaf_node_source := .Commit h } }, [⟨[41], []⟩]⟩).2 = .ok () :=
  ⟨⟨by decide, ⟨by decide, fun j hj => by
      apply Decidable.byContradiction
      intro hc
      have : 2 ^ j ≤ 2 ^ 2 := Nat.pow_le_pow_right (by omega) (by omega)
      have h5 : 5 ≤ 2 ^ j := hj
      omega⟩, by decide⟩,
    parentHash sumHash.digest nine.get 4 3 ⟨[41], [], []⟩, by decide +kernel⟩

end examples
end Rmls
