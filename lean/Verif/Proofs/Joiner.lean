import Verif.Spec.Joiner
import Verif.Proofs.History
import Verif.Props.Integrity
import Verif.Props.Invariant
/-
Functions on the tree that look at its nodes only, and what they do to an array with one blank slot more.
-/
namespace Rmls
open Spec RatchetTree

/-! ### one blank slot more -/

theorem get_snoc (u : RatchetTree) (x : Nat) : RatchetTree.get (u ++ [none]) x = u.get x := get_pad u 1 x

theorem set_snoc {u : RatchetTree} {x : Nat} (hx : x < u.length) (n : Option Node) :
    RatchetTree.set (u ++ [none]) x n = u.set x n ++ [none] := by
  show List.set _ _ _ = List.set _ _ _ ++ _
  rw [List.set_append_left _ _ hx]

theorem num_leaves_snoc {u : RatchetTree} (ho : u.length % 2 = 1) (hl : u.length + 1 < 2 ^ 32) :
    RatchetTree.num_leaves (u ++ [none]) = u.num_leaves := by
  rw [(num_leaves_bounds (t := u ++ [none]) (by simp) (by simp; omega)).2.2,
    (num_leaves_bounds (t := u) (by omega) (by omega)).2.2]
  simp; omega

/-! ### functions of the nodes -/

section congr
variable {t u : RatchetTree} (h : ∀ x, t.get x = u.get x)
include h

theorem get_leaf_congr (li : Nat) : t.get_leaf li = u.get_leaf li := by
  unfold RatchetTree.get_leaf
  simp only [h]

theorem resolve_congr : ∀ fuel x, t.resolveFuel fuel x = u.resolveFuel fuel x := by
  intro fuel
  induction fuel with
  | zero => intro x; rfl
  | succ fuel ih =>
    intro x
    unfold resolveFuel
    simp only [h, ih]

theorem tree_hash_congr (P : CryptoProvider) (cs : CipherSuite) (ex : List LeafIndex) :
    ∀ fuel x, treeHashFuel P cs t ex fuel x = treeHashFuel P cs u ex fuel x := by
  intro fuel
  induction fuel with
  | zero => intro x; rfl
  | succ fuel ih =>
    intro x
    unfold treeHashFuel
    simp only [h, ih]

theorem forLeaves_congr {σ : Type} (body : σ → Nat → LeafNode → Res σ) :
    ∀ ls s, forLeaves t body ls s = forLeaves u body ls s := by
  intro ls
  induction ls with
  | nil => intro s; rfl
  | cons l ls ih =>
    intro s
    unfold forLeaves
    simp only [get_leaf_congr h, ih]

theorem find_parent_hash_congr (b : Bytes) : ∀ xs, find_parent_hash t b xs = find_parent_hash u b xs := by
  intro xs
  induction xs with
  | nil => rfl
  | cons x xs ih =>
    unfold find_parent_hash
    simp only [h, ih]

theorem verifyParentHash_congr (P : CryptoProvider) (cs : CipherSuite) (i : Nat) (n : Option Node) :
    verifyParentHash P cs t i n = verifyParentHash P cs u i n := by
  unfold verifyParentHash compute_tree_hash resolve
  simp only [tree_hash_congr h, resolve_congr h, find_parent_hash_congr h]

theorem verifyParentHashesLoop_congr (P : CryptoProvider) (cs : CipherSuite) :
    ∀ ns i, verifyParentHashesLoop P cs t i ns = verifyParentHashesLoop P cs u i ns := by
  intro ns
  induction ns with
  | nil => intro i; rfl
  | cons n ns ih =>
    intro i
    unfold verifyParentHashesLoop
    simp only [verifyParentHash_congr h, ih]

theorem unmergedWalk_congr (n p : Nat) (li : LeafIndex) :
    ∀ fuel x, unmergedWalk t n p li fuel x = unmergedWalk u n p li fuel x := by
  intro fuel
  induction fuel with
  | zero => intro x; rfl
  | succ fuel ih =>
    intro x
    unfold unmergedWalk
    simp only [h, ih]

theorem unmergedLoop_congr (n p : Nat) : ∀ ls, unmergedLoop t n p ls = unmergedLoop u n p ls := by
  intro ls
  induction ls with
  | nil => rfl
  | cons l ls ih =>
    unfold unmergedLoop
    simp only [unmergedWalk_congr h, ih]

theorem parentLoop_congr (n : Nat) : ∀ ns i ks, parentLoop t n i ns ks = parentLoop u n i ns ks := by
  intro ns
  induction ns with
  | nil => intro i ks; rfl
  | cons m ns ih =>
    intro i ks
    rcases m with _ | ⟨_ | _⟩ <;> (unfold parentLoop; simp only [unmergedLoop_congr h, ih])

theorem findLeafLoop_congr (node : LeafNode) : ∀ ls, findLeafLoop t node ls = findLeafLoop u node ls := by
  intro ls
  induction ls with
  | nil => rfl
  | cons l ls ih =>
    unfold findLeafLoop
    simp only [get_leaf_congr h, ih]

theorem filtered_congr (hn : t.num_leaves = u.num_leaves) (x : Nat) :
    t.filtered_direct_path x = u.filtered_direct_path x := by
  unfold filtered_direct_path resolve
  simp only [hn, resolve_congr h]

theorem pathHashes_congr (P : CryptoProvider) (cs : CipherSuite) (s : Nat) (dp : List Nat) (ni : Nat)
    (prev : Option Bytes) : pathHashes P cs t s dp ni prev = pathHashes P cs u s dp ni prev := by
  unfold pathHashes compute_tree_hash
  simp only [h, tree_hash_congr h]

end congr

/-- One blank node more to look at. -/
theorem verifyParentHashesLoop_snoc (P : CryptoProvider) (cs : CipherSuite) (t : RatchetTree) :
    ∀ ns i, verifyParentHashesLoop P cs t i (ns ++ [none]) = verifyParentHashesLoop P cs t i ns := by
  intro ns
  induction ns with
  | nil => intro i; rfl
  | cons n ns ih =>
    intro i
    rw [List.cons_append]
    unfold verifyParentHashesLoop
    simp only [ih]

theorem parentLoop_snoc (t : RatchetTree) (n : Nat) :
    ∀ ns i ks, parentLoop t n i (ns ++ [none]) ks = parentLoop t n i ns ks := by
  intro ns
  induction ns with
  | nil => intro i ks; rfl
  | cons m ns ih =>
    intro i ks
    rw [List.cons_append]
    rcases m with _ | ⟨_ | _⟩ <;> (unfold parentLoop; simp only [ih])

/-! ### merging a path -/

theorem foldl_blank_snoc : ∀ (path : List Nat) (u : RatchetTree), (∀ x ∈ path, x < u.length) →
    path.foldl (fun t p => RatchetTree.set t p none) (u ++ [none]) =
      path.foldl (fun t p => t.set p none) u ++ [none] := by
  intro path
  induction path with
  | nil => intro u _; rfl
  | cons p ps ih =>
    intro u hp
    rw [List.foldl_cons, List.foldl_cons, set_snoc (hp p (List.mem_cons_self ..))]
    exact ih _ fun x hx => by rw [set_length]; exact hp x (List.mem_cons_of_mem _ hx)

theorem setPath_snoc : ∀ (L : List (Nat × UpdatePathNode)) (u : RatchetTree), (∀ r ∈ L, r.1 < u.length) →
    setPath (u ++ [none]) L = setPath u L ++ [none] := by
  intro L
  induction L with
  | nil => intro u _; rfl
  | cons a L ih =>
    intro u hp
    obtain ⟨ni, n⟩ := a
    rw [setPath, setPath, set_snoc (hp _ (List.mem_cons_self ..))]
    exact ih _ fun r hr => by rw [set_length]; exact hp r (List.mem_cons_of_mem _ hr)

theorem pathLoop_snoc (P : CryptoProvider) (cs : CipherSuite) (s : Nat) (dp : List Nat) :
    ∀ (nis : List Nat) (prev : Option Bytes) (u : RatchetTree),
      pathLoop P cs s dp nis prev (u ++ [none]) =
        ((pathLoop P cs s dp nis prev u).1 ++ [none], (pathLoop P cs s dp nis prev u).2) := by
  intro nis
  induction nis with
  | nil => intro prev u; rfl
  | cons ni nis ih =>
    intro prev u
    unfold pathLoop
    rw [pathHashes_congr (get_snoc u)]
    cases hh : pathHashes P cs u s dp ni prev with
    | err e => rfl
    | fault f => rfl
    | ok r =>
      obtain ⟨nph, th⟩ := r
      dsimp only
      rw [get_snoc]
      cases hg : u.get ni with
      | none => exact ih prev u
      | some nd =>
        cases nd with
        | Leaf l => exact ih prev u
        | Parent p =>
          dsimp only
          rw [set_snoc (lt_of_get hg)]
          cases hc : ParentNode.compute_parent_hash P cs { p with parent_hash := nph.getD [] } th with
          | err e => rfl
          | fault f => rfl
          | ok b => exact ih _ _

theorem above_lt {K j x : Nat} (hj : j < 2 ^ K) (h : above K j x) : x < 2 ^ (K + 1) - 1 := by
  obtain ⟨k, _, hk, rfl⟩ := h
  refine inSubtree_root.1 (inSubtree_node.2 ⟨hk, ?_⟩)
  rw [Nat.div_div_eq_div_mul, ← Nat.pow_add, show k + (K - k) = K by omega]
  exact Nat.div_eq_of_lt hj

/-- A perfect array. -/
structure Perfect (u : RatchetTree) (K : Nat) : Prop where
  length : u.length + 1 = 2 ^ (K + 1)
  size : u.length < 2 ^ 32

theorem Perfect.odd {u : RatchetTree} {K : Nat} (h : Perfect u K) : u.length % 2 = 1 := by
  have := h.length; rw [Nat.pow_succ] at this; omega

theorem Perfect.leaves {u : RatchetTree} {K : Nat} (h : Perfect u K) : u.num_leaves = 2 ^ K := by
  have h1 := h.length
  have h2 := h.size
  have h3 := h.odd
  rw [(num_leaves_bounds (t := u) (by omega) (by omega)).2.2]
  rw [Nat.pow_succ] at h1; omega

theorem Perfect.leaves_snoc {u : RatchetTree} {K : Nat} (h : Perfect u K) (hs : u.length + 1 < 2 ^ 32) :
    RatchetTree.num_leaves (u ++ [none]) = 2 ^ K := by
  rw [num_leaves_snoc h.odd hs, h.leaves]

theorem pow_isHeight (K : Nat) : IsHeight (2 ^ K) K :=
  ⟨Nat.le_refl _, fun _ hl => (Nat.pow_le_pow_iff_right (by omega)).1 hl⟩

theorem merge_snoc (P : CryptoProvider) (cs : CipherSuite) {u : RatchetTree} {K j : Nat} (path : UpdatePath)
    (hp : Perfect u K) (h2 : u.length + 1 < 2 ^ 32) (hj : j < 2 ^ K) (hu : u.SmallUnmerged) :
    RatchetTree.merge_update_path P cs (u ++ [none]) j path =
      ((u.merge_update_path P cs j path).1 ++ [none], (u.merge_update_path P cs j path).2) := by
  have h1 := hp.length
  have hodd := hp.odd
  obtain ⟨ha, hb, _⟩ := num_leaves_bounds (t := u) (by omega) (by omega)
  have hK : IsHeight u.num_leaves K := by rw [hp.leaves]; exact pow_isHeight K
  have hj31 : j < 2 ^ 31 := Nat.lt_of_lt_of_le hj (Nat.pow_le_pow_right (by omega) (hK.2 31 hb))
  have hdp : NumLeaves.direct_path u.num_leaves (2 * j) = .ok (pathOf K j) := direct_path_leaf ha hb hK hj
  have hlen : ∀ x, above K j x → x < u.length := fun x hx => by have := above_lt hj hx; omega
  unfold merge_update_path
  rw [num_leaves_snoc hodd h2, node_index_eq (by omega)]
  dsimp only
  rw [hdp]
  dsimp only
  rw [foldl_blank_snoc _ _ fun x hx => hlen x (mem_pathOf.1 hx)]
  generalize hu1 : (pathOf K j).foldl (fun t p => RatchetTree.set t p none) u = u1
  have hl1 : u1.length = u.length := by rw [← hu1, foldl_blank_length]
  have hp1 : Perfect u1 K := ⟨by omega, by omega⟩
  have hs1 : u1.SmallUnmerged := by
    intro x p hx
    rw [← hu1, foldl_blank_get] at hx
    split at hx
    · cases hx
    · exact hu x p hx
  rw [filtered_congr (get_snoc u1) (num_leaves_snoc hp1.odd (by omega))]
  have hf := filtered_direct_path_eq (t := u1) (K := K) (j := j) (by omega) (by omega)
    (by rw [hp1.leaves]; exact pow_isHeight K) hj hs1
  rw [node_zero] at hf
  rw [hf]
  dsimp only
  split
  · rfl
  · have hin : ∀ r ∈ ((filteredLevels u1.get K j).map (anc j)).zip path.nodes, r.1 < u1.length := by
      intro r hr
      have hm := (List.of_mem_zip hr).1
      obtain ⟨k, hk, he⟩ := List.mem_map.1 hm
      rw [hl1, ← he]
      refine hlen _ ?_
      obtain ⟨h1, h2, _⟩ := filteredLevels_mem.1 hk
      exact ⟨k, h1, h2, rfl⟩
    rw [setPath_snoc _ _ hin, pathLoop_snoc]
    generalize hq : pathLoop P cs (2 * j) (pathOf K j) _ none _ = q
    have hql : q.1.length = u.length := by
      rw [← hq, (pathLoop_frame P cs _ _ _ _ _).1, setPath_length, hl1]
    obtain ⟨t2, r⟩ := q
    dsimp only at hql ⊢
    rcases r with o | e | f
    · dsimp only
      split
      · split
        · rfl
        · rw [set_snoc (by rw [hql]; have : 2 * 2 ^ K = 2 ^ (K + 1) := by rw [Nat.pow_succ]; omega
                           omega)]
      · rfl
    · rfl
    · rfl

end Rmls
