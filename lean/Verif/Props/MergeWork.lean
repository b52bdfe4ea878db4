import Verif.Proofs.MergeWork
import Verif.Spec.Work
import Verif.Props.Merge
import Verif.Proofs.SecretTree
/-
Property C103: how much work it is to merge the path of a commit.
-/
namespace Rmls
open Spec RatchetTree Tolled

/-- C103: what is counted is the merge of the model: the counting version has the same result and leaves the same tree. -/
theorem C103_same (P : CryptoProvider) (cs : CipherSuite) (t : RatchetTree) (j : Nat) (path : UpdatePath) :
    ((Tolling.merge_update_path P cs t j path).1, (Tolling.merge_update_path P cs t j path).2.res) =
      t.merge_update_path P cs j path :=
  Tolling.merge_res P cs t j path

private theorem spread_range (f : Nat → Nat) : ∀ k i,
    Tolling.spread f k i = ((List.range' (2 ^ (k + 1) * i) (2 ^ (k + 1) - 1)).map f).sum
  | 0, i => by
    rw [Tolling.spread, node_zero]
    simp
  | k + 1, i => by
    have h := Nat.two_pow_pos (k + 1)
    rw [Tolling.spread, spread_range f k, spread_range f k]
    have e1 : 2 ^ (k + 1) * (2 * i) = 2 ^ (k + 1 + 1) * i := by rw [Nat.pow_succ 2 (k + 1), Nat.mul_assoc]
    have e2 : 2 ^ (k + 1) * (2 * i + 1) = 2 ^ (k + 1 + 1) * i + 2 ^ (k + 1) := by rw [Nat.mul_succ, e1]
    have e3 : node (k + 1) i = 2 ^ (k + 1 + 1) * i + (2 ^ (k + 1) - 1) := by
      unfold node
      rw [e2]
      omega
    rw [e1, e2, e3, show 2 ^ (k + 1 + 1) - 1 = (2 ^ (k + 1) - 1) + 1 + (2 ^ (k + 1) - 1) by rw [Nat.pow_succ 2 (k + 1)]; omega,
      ← List.range'_append_1, ← List.range'_append_1, List.map_append, List.map_append, List.sum_append, List.sum_append,
      show 2 ^ (k + 1 + 1) * i + (2 ^ (k + 1) - 1 + 1) = 2 ^ (k + 1 + 1) * i + 2 ^ (k + 1) by omega]
    simp

private theorem listed_range : ∀ (t : RatchetTree) (m : Nat),
    ((List.range' 0 m).map fun x => listedAt (t.get x)).sum ≤ listedIn t
  | [], m => by
    have : ((List.range' 0 m).map fun x => listedAt (RatchetTree.get [] x)) = (List.range' 0 m).map fun _ => 0 := rfl
    rw [this, List.map_const', List.sum_replicate_nat]
    omega
  | n :: t, 0 => Nat.zero_le _
  | n :: t, m + 1 => by
    rw [List.range'_succ, List.map_cons, List.sum_cons]
    have ih := listed_range t m
    have e : (List.range' (0 + 1) m).map (fun x => listedAt (RatchetTree.get (n :: t) x)) =
        (List.range' 0 m).map fun x => listedAt (RatchetTree.get t x) := by
      rw [show List.range' (0 + 1) m = (List.range' 0 m).map (1 + ·) by rw [List.map_add_range']]
      rw [List.map_map]
      refine List.map_congr_left fun x _ => ?_
      show listedAt (RatchetTree.get (n :: t) (1 + x)) = _
      rw [Nat.add_comm]
      rfl
    rw [e]
    show listedAt n + _ ≤ listedAt n + listedIn t
    omega

private theorem blank_listed : ∀ (dp : List Nat) (t : RatchetTree) (x : Nat),
    listedAt ((dp.foldl (fun t ni => t.set ni none) t).get x) ≤ listedAt (t.get x)
  | [], _, _ => Nat.le_refl _
  | p :: dp, t, x => by
    rw [List.foldl_cons]
    refine Nat.le_trans (blank_listed dp (t.set p none) x) ?_
    rw [get_set]
    split
    · exact Nat.zero_le _
    · exact Nat.le_refl _

private theorem merge_le (P : CryptoProvider) (cs : CipherSuite) (t : RatchetTree) (j : Nat) (path : UpdatePath)
    (h0 : 0 < t.length) (hl : t.length < 2 ^ 32) :
    (Tolling.merge_update_path P cs t j path).2.toll.digests + 2 ≤ 2 ^ (NumLeaves.height t.num_leaves + 1) ∧
    (Tolling.merge_update_path P cs t j path).2.toll.visits + 2 ≤ 2 ^ (NumLeaves.height t.num_leaves + 1) ∧
    (Tolling.merge_update_path P cs t j path).2.toll.copies ≤ listedIn t := by
  have hpow : 2 ^ (NumLeaves.height t.num_leaves + 1) = 2 ^ NumLeaves.height t.num_leaves * 2 := Nat.pow_succ ..
  have hpos := Nat.two_pow_pos (NumLeaves.height t.num_leaves)
  have nil : (0 : Nat) + 2 ≤ 2 ^ (NumLeaves.height t.num_leaves + 1) := by omega
  unfold Tolling.merge_update_path
  cases hni : LeafIndex.node_index j with
  | err e => exact ⟨nil, nil, Nat.zero_le _⟩
  | fault f => exact ⟨nil, nil, Nat.zero_le _⟩
  | ok sni =>
  dsimp only
  cases hdp : NumLeaves.direct_path t.num_leaves sni with
  | err e => exact ⟨nil, nil, Nat.zero_le _⟩
  | fault f => exact ⟨nil, nil, Nat.zero_le _⟩
  | ok dp =>
  dsimp only
  have hsni : sni = 2 * j := by
    unfold LeafIndex.node_index mul32 at hni
    split at hni <;> cases hni
    rfl
  subst hsni
  obtain ⟨n0, n1, n2⟩ := num_leaves_bounds h0 hl
  have hh := NumLeaves.height_bounds n0
  have hj : j < 2 ^ NumLeaves.height t.num_leaves := by
    apply Nat.lt_of_not_le
    intro h
    have := direct_path_leaf_out n0 n1 (isHeight_height n0) h
    unfold NumLeaves.direct_path at hdp
    rw [this] at hdp
    cases hdp
  have hblank := blank_listed dp t
  have hlen := foldl_blank_length dp t
  generalize hu : dp.foldl (fun t ni => t.set ni none) t = u at *
  have hnu : u.num_leaves = t.num_leaves := by unfold num_leaves; rw [hlen]
  have hx : 2 * j = anc j 0 := by rw [anc_zero, node_zero]
  have hv1 : ∀ x, (Tolling.visit (u.get x)).visits ≤ (fun _ => 1) x := by
    intro x
    cases h : u.get x with
    | none => exact Nat.le_refl _
    | some n => cases n <;> exact Nat.le_refl _
  have hv2 : ∀ x, (Tolling.visit (u.get x)).copies ≤ listedAt (t.get x) := by
    intro x
    refine Nat.le_trans (Nat.le_of_eq ?_) (hblank x)
    cases h : u.get x with
    | none => rfl
    | some n => cases n <;> rfl
  have hv3 : ∀ x, (Tolling.visit (u.get x)).digests ≤ (fun _ => 0) x := by
    intro x
    cases h : u.get x with
    | none => exact Nat.le_refl _
    | some n => cases n <;> exact Nat.le_refl _
  have walk : ∀ {c : Toll → Nat} (_ : Counter c) {f : Nat → Nat} (_ : ∀ x, c (Tolling.visit (u.get x)) ≤ f x),
      c (Tolling.filtered_direct_path u (2 * j)).toll + Tolling.spread f 0 (j / 2 ^ 0) ≤
        Tolling.spread f (NumLeaves.height t.num_leaves) 0 ∧
      ∀ out, (Tolling.filtered_direct_path u (2 * j)).res = .ok out →
        ∃ qs, out = [] ++ qs ∧ qs.Sublist ((List.range' (0 + 1) (NumLeaves.height t.num_leaves)).map (anc j)) := by
    intro c hc f hf
    have := Tolling.filtered_le (j := j) hc hf (by rw [hnu]; exact n0) (by rw [hnu]; exact n1) (by rw [hnu]; exact hj)
      (NumLeaves.height t.num_leaves) 0 34 [] (by rw [hnu]; omega)
    rw [hnu] at this
    unfold Tolling.filtered_direct_path
    rw [hx, hnu]
    exact this
  have w1 := (walk counter_visits hv1).1
  have w2 := (walk counter_copies hv2).1
  obtain ⟨w3, w4⟩ := walk counter_digests hv3
  have zero : ∀ k i, Tolling.spread (fun _ => 0) k i = 0 := by
    intro k
    induction k with
    | zero => intro i; rfl
    | succ k ih => intro i; rw [Tolling.spread, ih, ih]
  simp only [zero] at w3
  rw [Tolling.spread_one, Tolling.spread_one] at w1
  rw [spread_range _ (NumLeaves.height t.num_leaves) 0, Nat.mul_zero] at w2
  have w5 := listed_range t (2 ^ (NumLeaves.height t.num_leaves + 1) - 1)
  clear walk
  generalize Tolling.filtered_direct_path u (2 * j) = x at *
  obtain ⟨r, d, v, w⟩ := x
  dsimp only at w1 w2 w3 w4 ⊢
  cases r with
  | err e => exact ⟨by dsimp only; omega, by dsimp only; omega, by dsimp only; omega⟩
  | fault e => exact ⟨by dsimp only; omega, by dsimp only; omega, by dsimp only; omega⟩
  | ok fl =>
  dsimp only
  obtain ⟨qs, hq, hs⟩ := w4 fl rfl
  rw [List.nil_append] at hq
  subst hq
  by_cases hne : fl.length ≠ path.nodes.length
  · rw [if_pos hne]
    exact ⟨by dsimp only; omega, by dsimp only; omega, by dsimp only; omega⟩
  · rw [if_neg hne]
    obtain ⟨l1, l2, l3⟩ := Tolling.pathLoop_le P cs (2 * j) dp fl.reverse none (u.setPath (fl.zip path.nodes))
    have hsum : (fl.reverse.map Counting.low).sum ≤
        (((List.range' (0 + 1) (NumLeaves.height t.num_leaves)).map (anc j)).map Counting.low).sum := by
      rw [List.map_reverse, List.sum_reverse]
      exact Tolling.sum_sublist (hs.map _)
    have hp := Tolling.sum_path j (NumLeaves.height t.num_leaves) 0
    rw [show 0 + 1 + NumLeaves.height t.num_leaves = NumLeaves.height t.num_leaves + 1 by omega] at hp
    generalize Tolling.pathLoop P cs (2 * j) dp fl.reverse none (u.setPath (fl.zip path.nodes)) = y at *
    obtain ⟨t1, r1, d1, v1, c1⟩ := y
    dsimp only at l1 l2 l3
    have fin : (Toll.plus ⟨d, v, w⟩ ⟨d1, v1, c1⟩).digests + 2 ≤ 2 ^ (NumLeaves.height t.num_leaves + 1) ∧
        (Toll.plus ⟨d, v, w⟩ ⟨d1, v1, c1⟩).visits + 2 ≤ 2 ^ (NumLeaves.height t.num_leaves + 1) ∧ (Toll.plus ⟨d, v, w⟩ ⟨d1, v1, c1⟩).copies ≤ listedIn t :=
      ⟨by simp only [Toll.plus]; omega, by simp only [Toll.plus]; omega, by simp only [Toll.plus]; omega⟩
    cases r1 with
    | err e => exact fin
    | fault e => exact fin
    | ok prev =>
      dsimp only
      cases path.leaf_node.payload.leaf_node_source <;> cases prev <;> try exact fin
      dsimp only
      split <;> exact fin

/-- C103: whatever the tree, the sender, the path and the outcome, merging computes at most twice as many digests as the array has
slots, `resolve` visits at most twice as many nodes, and it copies no more unmerged leaves than the nodes list. -/
theorem C103_merge (P : CryptoProvider) (cs : CipherSuite) (t : RatchetTree) (j : Nat) (path : UpdatePath)
    (hl : t.length < 2 ^ 32) :
    (Tolling.merge_update_path P cs t j path).2.toll.digests ≤ 2 * t.length ∧
    (Tolling.merge_update_path P cs t j path).2.toll.visits ≤ 2 * t.length ∧
    (Tolling.merge_update_path P cs t j path).2.toll.copies ≤ listedIn t := by
  by_cases h0 : 0 < t.length
  · obtain ⟨n0, n1, n2⟩ := num_leaves_bounds h0 hl
    have hh := NumLeaves.height_bounds n0
    have hpow : 2 ^ (NumLeaves.height t.num_leaves + 1) = 2 ^ NumLeaves.height t.num_leaves * 2 := Nat.pow_succ ..
    obtain ⟨h1, h2, h3⟩ := merge_le P cs t j path h0 hl
    exact ⟨by omega, by omega, h3⟩
  · have hz : t.num_leaves = 0 := by unfold num_leaves; rw [show t.length = 0 by omega]; rfl
    unfold Tolling.merge_update_path
    cases LeafIndex.node_index j with
    | err e => exact ⟨Nat.zero_le _, Nat.zero_le _, Nat.zero_le _⟩
    | fault f => exact ⟨Nat.zero_le _, Nat.zero_le _, Nat.zero_le _⟩
    | ok sni =>
      have hdp : NumLeaves.direct_path t.num_leaves sni = .fault .panic := by
        rw [hz]
        unfold NumLeaves.direct_path NumLeaves.directPathLoop
        rw [NumLeaves.parent_zero]
        rfl
      dsimp only
      rw [hdp]
      exact ⟨Nat.zero_le _, Nat.zero_le _, Nat.zero_le _⟩

/-- C103 for an array that is full, as one is that `add` and `remove` have made: less than one digest and one visit per slot. -/
theorem C103_full (P : CryptoProvider) (cs : CipherSuite) (t : RatchetTree) (j K : Nat) (path : UpdatePath)
    (hlen : t.length + 1 = 2 ^ (K + 1)) (hl : t.length < 2 ^ 32) :
    (Tolling.merge_update_path P cs t j path).2.toll.digests < t.length ∧
    (Tolling.merge_update_path P cs t j path).2.toll.visits < t.length := by
  have hpow : 2 ^ (K + 1) = 2 ^ K * 2 := Nat.pow_succ ..
  have hpos := Nat.two_pow_pos K
  obtain ⟨n0, n1, n2⟩ := num_leaves_bounds (t := t) (by omega) hl
  have hK : NumLeaves.height t.num_leaves = K := by
    rw [show t.num_leaves = 2 ^ K by omega]
    exact SecretTree.height_pow K
  obtain ⟨h1, h2, _⟩ := merge_le P cs t j path (by omega) hl
  rw [hK] at h1 h2
  exact ⟨by omega, by omega⟩

private abbrev suite1 : CipherSuite := .MLS_128_DHKEMX25519_AES128GCM_SHA256_Ed25519

/-- A merge that succeeds in an array of seven slots; the digests are as many as `C103_full` allows. -/
example : (Tolling.merge_update_path toyProvider suite1 toyTree 0 (toyPath toyParentHash)).2.res = .ok () ∧
    (Tolling.merge_update_path toyProvider suite1 toyTree 0 (toyPath toyParentHash)).2.toll = ⟨6, 4, 0⟩ ∧
    toyTree.length + 1 = 2 ^ (2 + 1) :=
  ⟨by rfl, by rfl, by rfl⟩

/-- A merge whose walk copies an unmerged leaf: the other half of the tree is a parent that lists one. -/
example : (Tolling.merge_update_path toyProvider suite1 [some (.Leaf (toyLeaf 0)), none, some (.Leaf (toyLeaf 1)), none,
      some (.Leaf (toyLeaf 2)), some (.Parent ⟨[9], [], [3]⟩), some (.Leaf (toyLeaf 3))] 0 (toyPath [])).2.toll.copies = 1 := by
  rfl

end Rmls
