import Verif.Proofs.Work
import Verif.Props.Integrity
import Verif.Props.Size
/-
Property C92: how much work it is to check a received tree.
-/
namespace Rmls
open Spec Enc RatchetTree Counted

/-- C92: what is counted is the check of the model: the counting version has the same result. -/
theorem C92_same (P : CryptoProvider) (t : RatchetTree) (ctx : GroupContext) (now : Int) :
    (Counting.verify_integrity P t ctx now).res = verify_integrity P t ctx now :=
  Counting.verify_integrity_res P t ctx now

/-- C92, what is true: whatever the tree and the outcome, the digests are at most the slots times their logarithm, up to a factor,
at most one signature per member is verified, and the comparisons in the lists of unmerged leaves are at most the square of the
number of entries of these lists.  Missing: a bound on the comparisons as good as the one on the digests, see `C92_refuted`. -/
theorem C92_partial (P : CryptoProvider) (t : RatchetTree) (ctx : GroupContext) (now : Int) (hl : t.length < 2 ^ 32) :
    (Counting.verify_integrity P t ctx now).work.digests ≤ 2 * t.length * (t.length.log2 + 2) + 1 ∧
    (Counting.verify_integrity P t ctx now).work.leaves ≤ (members t.get ((t.length + 1) / 2)).length ∧
    (Counting.verify_integrity P t ctx now).work.comparisons ≤ listedIn t * listedIn t := by
  by_cases h0 : 0 < t.length
  · obtain ⟨n0, n1, n2⟩ := num_leaves_bounds h0 hl
    have hn : t.num_leaves = (t.length + 1) / 2 := by omega
    have hroot := NumLeaves.root_eq n0 n1
    have hh := NumLeaves.height_bounds n0
    have hlow := Counting.lows_le t.length
    have hpar := Counting.verifyParentHashesLoop_digests P ctx.cipher_suite t t 0 (by omega)
    have hoth := Counting.verifyParentHashesLoop_others P ctx.cipher_suite t t 0
    rw [Nat.zero_add] at hpar
    have hsmall : ∀ i ∈ List.range t.num_leaves, i < 2 ^ 31 := by
      intro i hi; rw [List.mem_range] at hi; omega
    have hu1 := fun li us => (Counting.has_unmerged_leaf_work li us).1
    have hu2 := fun li us => (Counting.has_unmerged_leaf_work li us).2.1
    have hr1 := Counting.treeHashFuel_digests P ctx.cipher_suite t [] (NumLeaves.height t.num_leaves) 33 0
    have hp := Nat.two_pow_pos (NumLeaves.height t.num_leaves)
    unfold Counting.verify_integrity
    refine ⟨?_, ?_, ?_⟩
    · have hb : 2 * t.length * (t.length.log2 + 2) + 1 ≥ (2 * t.length + 1) + (2 * Counting.lows t.length + (0 + 0)) := by
        have e1 : 2 * t.length * (t.length.log2 + 2) = 2 * (t.length * (t.length.log2 + 1)) + 2 * t.length := by
          rw [Nat.mul_assoc, show t.length.log2 + 2 = t.length.log2 + 1 + 1 from rfl, Nat.mul_succ t.length]; omega
        omega
      refine Nat.le_trans (bind_le counter_digests (m := 2 * t.length + 1) (n := 2 * Counting.lows t.length + (0 + 0)) ?_
        fun h _ => ?_) hb
      · unfold Counting.compute_root_tree_hash
        rw [hroot]
        refine free_le counter_digests fun r hr => ?_
        cases hr
        refine Nat.le_trans hr1 ?_
        rw [Nat.pow_succ]
        omega
      · split
        · exact Nat.zero_le _
        · refine bind_le counter_digests (by show _ ≤ _; exact Nat.le_trans (by unfold Counting.verify_parent_hashes; omega) hpar)
            fun good _ => ?_
          split
          · exact Nat.zero_le _
          · refine free_le counter_digests fun creds _ => bind_le counter_digests ?_ fun ks _ => ?_
            · refine Counting.forLeaves_others counter_digests t _ (fun s i n => ?_) _ _
              exact bind_le counter_digests (m := 0) (n := 0) (Nat.le_refl _) fun _ _ => Nat.le_refl _
            · exact Counting.parentLoop_others counter_digests hu1 t _ _ _ _
    · rw [← hn]
      rw [show (members t.get t.num_leaves).length = 0 + (0 + ((members t.get t.num_leaves).length + 0)) by omega]
      refine bind_le counter_leaves ?_ fun h _ => ?_
      · unfold Counting.compute_root_tree_hash
        exact free_le counter_leaves fun r _ => (Counting.treeHashFuel_others P ctx.cipher_suite t [] 33 r).1
      · split
        · exact Nat.zero_le _
        · refine bind_le counter_leaves hoth.1 fun good _ => ?_
          split
          · exact Nat.zero_le _
          · refine free_le counter_leaves fun creds _ => bind_le counter_leaves ?_ fun ks _ => ?_
            · refine Counting.forLeaves_leaves t _ (fun s i n => ?_) _ _ hsmall
              exact bind_le counter_leaves (m := 1) (n := 0) (Nat.le_refl _) fun _ _ => Nat.le_refl _
            · exact Counting.parentLoop_others counter_leaves hu2 t _ _ _ _
    · rw [show listedIn t * listedIn t = 0 + (0 + (0 + listedIn t * listedIn t)) by omega]
      refine bind_le counter_comparisons ?_ fun h _ => ?_
      · unfold Counting.compute_root_tree_hash
        exact free_le counter_comparisons fun r _ => (Counting.treeHashFuel_others P ctx.cipher_suite t [] 33 r).2
      · split
        · exact Nat.zero_le _
        · refine bind_le counter_comparisons hoth.2 fun good _ => ?_
          split
          · exact Nat.zero_le _
          · refine free_le counter_comparisons fun creds _ => bind_le counter_comparisons ?_ fun ks _ => ?_
            · refine Counting.forLeaves_others counter_comparisons t _ (fun s i n => ?_) _ _
              exact bind_le counter_comparisons (m := 0) (n := 0) (Nat.le_refl _) fun _ _ => Nat.le_refl _
            · exact Counting.parentLoop_comparisons n0 n1 _ _ _
  · obtain rfl : t = [] := List.length_eq_zero_iff.1 (by omega)
    have : Counting.verify_integrity P [] ctx now = ⟨.fault .panic, ⟨0, 0, 0⟩⟩ := rfl
    rw [this]
    exact ⟨Nat.zero_le _, Nat.zero_le _, Nat.zero_le _⟩

theorem vec_length (e : Enc) : e.bytes.length ≤ (Enc.vec e).bytes.length := by
  simp only [Enc.bytes, List.length_append]
  omega

theorem vector_length {α : Type} (f : α → Enc) (xs : List α) :
    (xs.map fun x => (f x).bytes.length).sum ≤ (vector f xs).bytes.length := by
  refine Nat.le_trans (Nat.le_of_eq ?_) (vec_length _)
  induction xs with
  | nil => rfl
  | cons x xs ih =>
    simp only [List.map_cons, List.sum_cons, List.foldr_cons, Enc.bytes, List.length_append, ih]

theorem leafIndex_sum (us : List LeafIndex) : (us.map fun x => (leafIndex x).bytes.length).sum = 4 * us.length := by
  induction us with
  | nil => rfl
  | cons u us ih =>
    simp only [List.map_cons, List.sum_cons, ih, List.length_cons]
    show 4 + _ = _
    omega

theorem listedAt_length (n : Option Node) : 4 * listedAt n ≤ (optional nodeEnc n).bytes.length := by
  cases n with
  | none => exact Nat.zero_le _
  | some n =>
    cases n with
    | Leaf l => exact Nat.zero_le _
    | Parent p =>
      have h := vector_length leafIndex p.unmerged_leaves
      rw [leafIndex_sum] at h
      show 4 * p.unmerged_leaves.length ≤ _
      simp only [Enc.optional, nodeEnc, parentNode, struct, Enc.bytes, List.length_append] at h ⊢
      omega

theorem listedIn_length (ns : RatchetTree) :
    4 * listedIn ns ≤ (ns.map fun x => (optional nodeEnc x).bytes.length).sum := by
  unfold listedIn
  induction ns with
  | nil => exact Nat.zero_le _
  | cons x xs ih =>
    simp only [List.map_cons, List.sum_cons]
    have := listedAt_length x
    omega

/-- C92: the bounds in terms of the bytes that the tree is read from. -/
theorem C92_read_partial (P : CryptoProvider) (t : RatchetTree) (ctx : GroupContext) (now : Int) (buf rest : Bytes)
    (h : RatchetTree.deserialize buf = .ok (t, rest)) :
    (Counting.verify_integrity P t ctx now).work.digests ≤ 4 * buf.length * (t.length.log2 + 2) + 1 ∧ t.length.log2 < 30 ∧
    (Counting.verify_integrity P t ctx now).work.leaves ≤ buf.length ∧
    4 * listedIn t ≤ buf.length ∧
    16 * (Counting.verify_integrity P t ctx now).work.comparisons ≤ buf.length * buf.length := by
  obtain ⟨h1, h2⟩ := C67_tree buf rest t h
  obtain ⟨w1, w2, w3⟩ := C92_partial P t ctx now (by omega)
  have hlist : 4 * listedIn t ≤ buf.length := by
    unfold RatchetTree.deserialize at h
    obtain ⟨ns, r, hns, h⟩ := De.bind_ok_iff.1 h
    obtain ⟨hp, rfl⟩ := De.lift_ok_iff.1 h
    obtain ⟨_, b, hb, rfl⟩ := RatchetTree.lawful_nodes.canon _ _ _ hns
    obtain ⟨k, rfl, _, _⟩ := RatchetTree.padLoop_ok hp
    have hw : Writes (serialize_vector RatchetTree.serializeNode ns) (vector (optional nodeEnc) ns) :=
      writes_vector _ fun x _ => writes_optional x (by rintro rfl; rfl) (by rintro y rfl; exact node_w y)
    have hbb : b = (vector (optional nodeEnc) ns).bytes := by
      rcases hw with ⟨_, e⟩ | ⟨_, e | e⟩ <;> rw [e] at hb <;> cases hb
      rfl
    have hsum : 4 * listedIn (ns ++ List.replicate k none) ≤
        (ns.map fun x => (optional nodeEnc x).bytes.length).sum := by
      have : listedIn (ns ++ List.replicate k none) = listedIn ns := by
        unfold listedIn
        simp [listedAt]
      rw [this]
      exact listedIn_length ns
    have := vector_length (optional nodeEnc) ns
    rw [List.length_append, hbb]
    omega
  refine ⟨Nat.le_trans w1 ?_, ?_, ?_, hlist, ?_⟩
  · have : 2 * t.length ≤ 4 * buf.length := by omega
    have := Nat.mul_le_mul_right (t.length.log2 + 2) this
    omega
  · by_cases h0 : t.length = 0
    · rw [h0]; decide
    · rw [Nat.log2_lt h0]; exact h1
  · refine Nat.le_trans w2 (Nat.le_trans (List.length_filterMap_le _ _) ?_)
    rw [List.length_range]
    omega
  · refine Nat.le_trans (Nat.mul_le_mul_left 16 w3) ?_
    have := Nat.mul_le_mul hlist hlist
    rw [show 4 * listedIn t * (4 * listedIn t) = 16 * (listedIn t * listedIn t) by
      rw [Nat.mul_mul_mul_comm]] at this
    exact this


/-! ### Lists of unmerged leaves that take long -/

/-- The tree of `goodTree` with other unmerged leaves at the root, `us`, and at its left child, `vs`. -/
def slowTree (us vs : List LeafIndex) : RatchetTree :=
  let two := some (.Leaf (signedLeaf 2 .Update))
  let root : ParentNode := ⟨[9], [], us⟩
  let h := (parentHashEnc root (treeHash id (fun x => if x = 4 then two else none) 1 1)).bytes
  let left : ParentNode := ⟨[8], h, vs⟩
  let g := (parentHashEnc left (treeHash id (fun _ => none) 0 1)).bytes
  [some (.Leaf (signedLeaf 0 (.Commit g))), some (.Parent left), some (.Leaf (signedLeaf 1 .Update)), some (.Parent root), two,
    none, none]

private def hRoot : Bytes := (parentHashEnc ⟨[9], [], []⟩
  (treeHash id (fun x => if x = 4 then some (.Leaf (signedLeaf 2 .Update)) else none) 1 1)).bytes
private def hLeft : Bytes := (parentHashEnc ⟨[8], hRoot, []⟩ (treeHash id (fun _ => none) 0 1)).bytes
private def leaf0 : LeafNode := signedLeaf 0 (.Commit hLeft)

private theorem slow_eq (us vs : List LeafIndex) : slowTree us vs =
    [some (.Leaf leaf0), some (.Parent ⟨[8], hRoot, vs⟩), some (.Leaf (signedLeaf 1 .Update)), some (.Parent ⟨[9], [], us⟩),
      some (.Leaf (signedLeaf 2 .Update)), none, none] := rfl

private theorem slow_good : goodTree = slowTree [1] [1] := rfl

private theorem slow_get (us vs : List LeafIndex) (x : Nat) : (slowTree us vs).get x =
    if x = 0 then some (.Leaf leaf0) else if x = 1 then some (.Parent ⟨[8], hRoot, vs⟩)
    else if x = 2 then some (.Leaf (signedLeaf 1 .Update)) else if x = 3 then some (.Parent ⟨[9], [], us⟩)
    else if x = 4 then some (.Leaf (signedLeaf 2 .Update)) else none := by
  rw [slow_eq]
  match x with
  | 0 => rfl
  | 1 => rfl
  | 2 => rfl
  | 3 => rfl
  | 4 => rfl
  | 5 => rfl
  | 6 => rfl
  | n + 7 => 
    rw [if_neg (by omega), if_neg (by omega), if_neg (by omega), if_neg (by omega), if_neg (by omega)]
    rfl

private theorem slow_leaf (us vs : List LeafIndex) (i : Nat) :
    (slowTree us vs).get (node 0 i) = goodTree.get (node 0 i) := by
  rw [slow_good, slow_get, slow_get, node_zero, if_neg (show ¬ 2 * i = 1 by omega), if_neg (show ¬ 2 * i = 3 by omega),
    if_neg (show ¬ 2 * i = 1 by omega), if_neg (show ¬ 2 * i = 3 by omega)]

private theorem slow_parent {us vs : List LeafIndex} {k i : Nat} {p : ParentNode}
    (h : (slowTree us vs).get (node k i) = some (.Parent p)) :
    (k = 1 ∧ i = 0 ∧ p = ⟨[8], hRoot, vs⟩) ∨ (k = 2 ∧ i = 0 ∧ p = ⟨[9], [], us⟩) := by
  rw [slow_get] at h
  by_cases h0 : node k i = 0
  · rw [if_pos h0] at h; cases h
  rw [if_neg h0] at h
  by_cases h1 : node k i = 1
  · rw [if_pos h1] at h
    obtain ⟨rfl, rfl⟩ := node_inj (h1.trans (show 1 = node 1 0 from rfl))
    cases h; exact .inl ⟨rfl, rfl, rfl⟩
  rw [if_neg h1] at h
  by_cases h2 : node k i = 2
  · rw [if_pos h2] at h; cases h
  rw [if_neg h2] at h
  by_cases h3 : node k i = 3
  · rw [if_pos h3] at h
    obtain ⟨rfl, rfl⟩ := node_inj (h3.trans (show 3 = node 2 0 from rfl))
    cases h; exact .inr ⟨rfl, rfl, rfl⟩
  rw [if_neg h3] at h
  split at h <;> cases h

theorem vec_le (e : Enc) : (Enc.vec e).bytes.length ≤ e.bytes.length + 4 := by
  simp only [Enc.bytes, List.length_append, header]
  split <;> (try split) <;> (try split) <;> simp [digits] <;> omega

theorem opq_le (b : Bytes) : (opq b).bytes.length ≤ b.length + 4 := vec_le _

theorem indices_le (us : List LeafIndex) : (vector leafIndex us).bytes.length ≤ 4 * us.length + 4 := by
  refine Nat.le_trans (vec_le _) (Nat.add_le_add_right (Nat.le_of_eq ?_) 4)
  induction us with
  | nil => rfl
  | cons u us ih =>
    simp only [List.foldr_cons, Enc.bytes, List.length_append, ih, List.length_cons]
    show 4 + _ = _
    omega


private theorem hRoot_le : hRoot.length ≤ 1000 := by decide +kernel

set_option maxRecDepth 100000 in
private theorem slow_valid_good : TreeValid toyProvider id goodTree.get 2 4 (contextOf goodTree) 0 :=
  C19_sound toyProvider goodTree (contextOf goodTree) 0 toyHash rfl (by decide) (by decide) 2 goodTree_height (by decide +kernel)

/-- Like the tree up to the lists and to leaves that are left out. -/
private structure Slow (nodes : Nat → Option Node) : Prop where
  leaf : ∀ i, i < 4 → nodes (node 0 i) = none ∨ nodes (node 0 i) = goodTree.get (node 0 i)
  left : ∃ vs : List LeafIndex, vs.length ≤ 2 ^ 21 ∧ nodes (node 1 0) = some (.Parent ⟨[8], hRoot, vs⟩)
  right : nodes (node 1 1) = none
  root : ∃ us : List LeafIndex, us.length ≤ 2 ^ 21 ∧ nodes (node 2 0) = some (.Parent ⟨[9], [], us⟩)

private theorem good_leafDefined {i : Nat} (hi : i < 4) : HashDefined id goodTree.get 0 i := by
  obtain ⟨_, _, ⟨_, _, a, b⟩, _, _, c, d⟩ := slow_valid_good.defined
  match i with
  | 0 => exact a
  | 1 => exact b
  | 2 => exact c
  | 3 => exact d
  | n + 4 => omega

private theorem good_leafLength {i : Nat} (hi : i < 4) : (treeHash id goodTree.get 0 i).length ≤ 1000 := by
  match i with
  | 0 => decide +kernel
  | 1 => decide +kernel
  | 2 => decide +kernel
  | 3 => decide +kernel
  | n + 4 => omega

private theorem Slow.leaves {nodes : Nat → Option Node} (h : Slow nodes) {i : Nat} (hi : i < 4) :
    HashDefined id nodes 0 i ∧ (treeHash id nodes 0 i).length ≤ 1000 := by
  unfold HashDefined treeHash
  rcases h.leaf i hi with e | e
  · rw [e]
    refine ⟨⟨nofun, trivial, trivial, trivial⟩, ?_⟩
    show 6 ≤ 1000
    decide
  · rw [e]
    exact ⟨good_leafDefined hi, good_leafLength hi⟩

private theorem parent_fits {p : ParentNode} {l r : Bytes} (h1 : p.encryption_key.length ≤ 1) (h2 : p.parent_hash.length ≤ 1000)
    (h3 : p.unmerged_leaves.length ≤ 2 ^ 21) (hl : l.length ≤ 2 ^ 27) (hr : r.length ≤ 2 ^ 27) :
    (parentHashInput (some p) l r).fits ∧
      (parentHashInput (some p) l r).bytes.length ≤ 4 * 2 ^ 21 + 2000 + l.length + r.length := by
  have hv := indices_le p.unmerged_leaves
  have hv' := vec_length (p.unmerged_leaves.foldr (fun x e => Enc.seq (leafIndex x) e) .empty)
  have e1 := opq_le p.encryption_key
  have e2 := opq_le p.parent_hash
  have e3 := opq_le l
  have e4 := opq_le r
  have hf : (p.unmerged_leaves.foldr (fun x e => Enc.seq (leafIndex x) e) .empty).fits := by
    generalize p.unmerged_leaves = us
    induction us with
    | nil => trivial
    | cons u us ih => exact ⟨trivial, ih⟩
  have hb : (vector leafIndex p.unmerged_leaves).bytes.length =
    (Enc.vec (p.unmerged_leaves.foldr (fun x e => Enc.seq (leafIndex x) e) .empty)).bytes.length := rfl
  refine ⟨⟨trivial, ⟨trivial, ⟨trivial, ?_⟩, ⟨trivial, ?_⟩, hf, ?_⟩, ⟨trivial, ?_⟩, ⟨trivial, ?_⟩⟩, ?_⟩
  · show p.encryption_key.length < _; omega
  · show p.parent_hash.length < _; omega
  · omega
  · show l.length < _; omega
  · show r.length < _; omega
  · have d : ∀ n v, (digits n v).length = n := fun n v => by induction n generalizing v <;> simp [digits, *]
    simp only [parentHashInput, parentNode, struct, Enc.optional, Enc.bytes, List.length_append, d] at e1 e2 e3 e4 hv hb ⊢
    omega


private theorem blank_fits {l r : Bytes} (hl : l.length ≤ 2 ^ 27) (hr : r.length ≤ 2 ^ 27) :
    (parentHashInput none l r).fits ∧ (parentHashInput none l r).bytes.length ≤ 2000 + l.length + r.length := by
  have e3 := opq_le l
  have e4 := opq_le r
  refine ⟨⟨trivial, trivial, ⟨trivial, ?_⟩, ⟨trivial, ?_⟩⟩, ?_⟩
  · show l.length < _; omega
  · show r.length < _; omega
  · have d : ∀ n v, (digits n v).length = n := fun n v => by induction n generalizing v <;> simp [digits, *]
    simp only [parentHashInput, struct, Enc.optional, Enc.bytes, List.length_append, d] at e3 e4 ⊢
    omega

private theorem Slow.defined {nodes : Nat → Option Node} (h : Slow nodes) :
    HashDefined id nodes 2 0 ∧ (treeHash id nodes 1 0).length ≤ 2 ^ 24 ∧ (treeHash id nodes 1 1).length ≤ 2 ^ 24 := by
  obtain ⟨a0, b0⟩ := h.leaves (i := 0) (by decide)
  obtain ⟨a1, b1⟩ := h.leaves (i := 1) (by decide)
  obtain ⟨a2, b2⟩ := h.leaves (i := 2) (by decide)
  obtain ⟨a3, b3⟩ := h.leaves (i := 3) (by decide)
  obtain ⟨vs, hv, ev⟩ := h.left
  obtain ⟨us, hu, eu⟩ := h.root
  obtain ⟨f1, g1⟩ := parent_fits (p := ⟨[8], hRoot, vs⟩) (l := treeHash id nodes 0 0) (r := treeHash id nodes 0 1)
    (Nat.le_refl 1) hRoot_le hv (by omega) (by omega)
  obtain ⟨f2, g2⟩ := blank_fits (l := treeHash id nodes 0 2) (r := treeHash id nodes 0 3) (by omega) (by omega)
  have t1 : treeHash id nodes 1 0 = (parentHashInput (some ⟨[8], hRoot, vs⟩) (treeHash id nodes 0 0) (treeHash id nodes 0 1)).bytes := by
    conv => lhs; unfold treeHash
    rw [ev]; rfl
  have t2 : treeHash id nodes 1 1 = (parentHashInput none (treeHash id nodes 0 2) (treeHash id nodes 0 3)).bytes := by
    conv => lhs; unfold treeHash
    rw [h.right]; rfl
  have l1 : (treeHash id nodes 1 0).length ≤ 2 ^ 24 := by rw [t1]; omega
  have l2 : (treeHash id nodes 1 1).length ≤ 2 ^ 24 := by rw [t2]; omega
  refine ⟨⟨?_, ?_, ⟨?_, ?_, a0, a1⟩, ⟨?_, ?_, a2, a3⟩⟩, l1, l2⟩
  · rw [eu]; nofun
  · rw [eu]
    exact (parent_fits (p := ⟨[9], [], us⟩) (Nat.le_refl 1) (Nat.zero_le 1000) hu (Nat.le_trans l1 (by decide))
      (Nat.le_trans l2 (by decide))).1
  · rw [ev]; nofun
  · rw [ev]; exact f1
  · rw [h.right]; nofun
  · rw [h.right]; exact f2

private theorem slow_without {us vs gone : List LeafIndex} (hu : us.length ≤ 2 ^ 21) (hv : vs.length ≤ 2 ^ 21) :
    Slow (without gone (slowTree us vs).get) := by
  have odd : ∀ x, x % 2 = 1 → ¬ ∃ u ∈ gone, x = node 0 u.toNat := by
    rintro x hx ⟨u, _, rfl⟩
    rw [node_zero] at hx
    omega
  refine ⟨fun i hi => ?_, ⟨vs.filter fun u => decide (u ∉ gone), ?_, ?_⟩, ?_, ⟨us.filter fun u => decide (u ∉ gone), ?_, ?_⟩⟩
  · unfold without
    split
    · exact .inl rfl
    · refine .inr ?_
      rw [slow_leaf]
      match i with
      | 0 => rfl
      | 1 => rfl
      | 2 => rfl
      | 3 => rfl
      | n + 4 => omega
  · exact Nat.le_trans (List.length_filter_le _ _) hv
  · unfold without
    rw [if_neg (odd _ (by decide))]
    rfl
  · unfold without
    rw [if_neg (odd _ (by decide))]
    rfl
  · exact Nat.le_trans (List.length_filter_le _ _) hu
  · unfold without
    rw [if_neg (odd _ (by decide))]
    rfl

private theorem encFits {p : ParentNode} {x : Bytes} (h1 : p.encryption_key.length ≤ 1) (h2 : p.parent_hash.length ≤ 1000)
    (h3 : x.length ≤ 2 ^ 24) : (parentHashEnc p x).fits := by
  refine ⟨⟨trivial, ?_⟩, ⟨trivial, ?_⟩, ⟨trivial, ?_⟩⟩
  · show p.encryption_key.length < _; omega
  · show p.parent_hash.length < _; omega
  · show x.length < _; omega

private theorem slow_leafHash (us vs gone : List LeafIndex) (i : Nat) :
    treeHash id (without gone (slowTree us vs).get) 0 i =
      (leafHashInput i (leafOf (without gone (slowTree us vs).get (node 0 i)))).bytes := rfl

private theorem slow_valid {us vs : List LeafIndex} (hu : us.length ≤ 2 ^ 21) (hv : vs.length ≤ 2 ^ 21) (hu1 : ∀ u ∈ us, u = 1)
    (hv1 : ∀ v ∈ vs, v = 0 ∨ v = 1) (hv2 : 1 ∈ vs) :
    TreeValid toyProvider id (slowTree us vs).get 2 4 (contextOf (slowTree us vs)) 0 := by
  have hmem : members (slowTree us vs).get 4 = members goodTree.get 4 := by
    unfold members
    exact congrArg (fun f => List.filterMap f _) (funext fun i => by rw [slow_leaf])
  refine ⟨?_, rfl, ?_, ?_, ?_, ?_, ?_⟩
  · have := (slow_without (gone := []) hu hv).defined.1
    rwa [without_nil] at this
  · intro k i p hp
    rcases slow_parent hp with ⟨hk, rfl, rfl⟩ | ⟨hk, rfl, rfl⟩
    · obtain rfl : k = 0 := by omega
      have hs := slow_without (gone := vs) hu hv
      obtain ⟨a0, b0⟩ := hs.leaves (i := 0) (by decide)
      obtain ⟨a1, b1⟩ := hs.leaves (i := 1) (by decide)
      refine ⟨a0, a1, encFits (Nat.le_refl 1) hRoot_le (Nat.le_trans b0 (by decide)),
        encFits (Nat.le_refl 1) hRoot_le (Nat.le_trans b1 (by decide)), ?_⟩
      have h1 : Linked id (slowTree us vs).get ⟨[8], hRoot, vs⟩ 0 0 1 := by
        refine ⟨0, List.mem_cons_self, ?_⟩
        show some hLeft = some _
        unfold parentHashOver
        rw [slow_leafHash]
        have : without vs (slowTree us vs).get (node 0 1) = none := by
          unfold without
          rw [if_pos ⟨1, hv2, rfl⟩]
        rw [this]
        rfl
      have h2 : ¬ Linked id (slowTree us vs).get ⟨[8], hRoot, vs⟩ 0 1 0 := by
        rintro ⟨x, hx, e⟩
        obtain rfl : x = 2 := List.mem_singleton.1 hx
        cases e
      exact fun h => h2 (h.1 h1)
    · obtain rfl : k = 1 := by omega
      have hs := slow_without (gone := us) hu hv
      obtain ⟨⟨_, _, a0, a1⟩, b0, b1⟩ := hs.defined
      refine ⟨a0, a1, encFits (Nat.le_refl 1) (Nat.zero_le 1000) b0, encFits (Nat.le_refl 1) (Nat.zero_le 1000) b1, ?_⟩
      have h1 : Linked id (slowTree us vs).get ⟨[9], [], us⟩ 1 0 1 := by
        refine ⟨1, List.mem_cons_self, ?_⟩
        show some hRoot = some _
        unfold parentHashOver
        have hw : ∀ i, i = 2 ∨ i = 3 → without us (slowTree us vs).get (node 0 i) = goodTree.get (node 0 i) := by
          intro i hi
          unfold without
          rw [if_neg, slow_leaf]
          · rcases hi with rfl | rfl <;> rfl
          · rintro ⟨u, hu, e⟩
            have := hu1 u hu
            subst this
            obtain ⟨_, e⟩ := node_inj e
            rcases hi with rfl | rfl <;> cases e
        have hn : without us (slowTree us vs).get (node 1 1) = none := hs.right
        have : treeHash id (without us (slowTree us vs).get) 1 1 =
            treeHash id (fun x => if x = 4 then some (.Leaf (signedLeaf 2 .Update)) else none) 1 1 := by
          simp only [treeHash]
          rw [hn, hw _ (.inl rfl), hw _ (.inr rfl)]
          rfl
        rw [this]
        rfl
      have h2 : ¬ Linked id (slowTree us vs).get ⟨[9], [], us⟩ 1 1 0 := by
        rintro ⟨x, hx, e⟩
        obtain rfl : x = 4 := List.mem_singleton.1 hx
        cases e
      exact fun h => h2 (h.1 h1)
  · intro i l hl
    rw [slow_leaf] at hl
    obtain ⟨h1, h2, h3, h4⟩ := slow_valid_good.leaves i l hl
    refine ⟨h1, ?_, h3, h4⟩
    unfold SupportedCred
    rw [hmem]
    exact h2
  · intro i j l m hi hj e
    rw [slow_leaf] at hi hj
    exact slow_valid_good.signature_keys i j l m hi hj e
  · have hk : ∀ x key, HasKey (slowTree us vs).get x key → HasKey goodTree.get x key := by
      rintro x key (⟨i, l, rfl, h, e⟩ | ⟨p, h, e⟩)
      · rw [slow_leaf] at h
        exact .inl ⟨i, l, rfl, h, e⟩
      · obtain ⟨k, i, rfl⟩ := node_surj x
        rcases slow_parent h with ⟨rfl, rfl, rfl⟩ | ⟨rfl, rfl, rfl⟩
        · exact .inr ⟨_, rfl, e⟩
        · exact .inr ⟨_, rfl, e⟩
    intro x y key hx hy
    exact slow_valid_good.encryption_keys x y key (hk _ _ hx) (hk _ _ hy)
  · intro k i p hp u hm
    rcases slow_parent hp with ⟨rfl, rfl, rfl⟩ | ⟨rfl, rfl, rfl⟩
    · refine ⟨?_, fun m q h1 h2 => by omega⟩
      rcases hv1 u hm with rfl | rfl
      · exact ⟨by decide, by decide⟩
      · exact ⟨by decide, by decide⟩
    · have := hu1 u hm
      subst this
      refine ⟨⟨by decide, by decide⟩, fun m q h1 h2 hq => ?_⟩
      obtain rfl : m = 1 := by omega
      cases hq
      exact hv2


private theorem counted_bind {α β : Type} (a : α) (w : Work) (f : α → Counted β) :
    ((⟨.ok a, w⟩ : Counted α) >>= f) = ⟨(f a).res, w.plus (f a).work⟩ := rfl

private theorem counted_free {α β : Type} {x : Res α} {a : α} (h : x = .ok a) (f : α → Counted β) :
    (free x >>= f) = f a := by
  subst h
  show (⟨(f a).res, Work.plus ⟨0, 0, 0⟩ (f a).work⟩ : Counted β) = f a
  cases f a
  simp only [Work.plus, Nat.zero_add]

private theorem found_work (N : Nat) :
    Counting.has_unmerged_leaf 1 (List.replicate N 0 ++ [1]) = ⟨.ok true, ⟨0, 0, N + 1⟩⟩ := by
  induction N with
  | zero => rfl
  | succ N ih =>
    rw [List.replicate_succ, List.cons_append, Counting.has_unmerged_leaf, counted_bind, if_neg (by decide), ih]
    simp only [Work.plus, Nat.zero_add, Nat.add_comm]

private theorem walk_left {us vs : List LeafIndex} {v : LeafIndex} (hv : v = 0 ∨ v = 1) :
    Counting.unmergedWalk (slowTree us vs) 4 1 v 34 (2 * v.toNat) = ⟨.ok (), ⟨0, 0, 0⟩⟩ := by
  rcases hv with rfl | rfl <;> rfl

private theorem loop_left {us ws : List LeafIndex} : ∀ vs : List LeafIndex, (∀ v ∈ vs, v = 0 ∨ v = 1) →
    Counting.unmergedLoop (slowTree us ws) 4 1 vs = ⟨.ok (), ⟨0, 0, 0⟩⟩
  | [], _ => rfl
  | v :: vs, h => by
    have hv := h v List.mem_cons_self
    have hn : LeafIndex.node_index v.toNat = .ok (2 * v.toNat) := by rcases hv with rfl | rfl <;> rfl
    rw [Counting.unmergedLoop, counted_free hn, walk_left hv, counted_bind,
      loop_left vs fun w hw => h w (List.mem_cons_of_mem _ hw)]
    rfl

private theorem walk_root {us : List LeafIndex} (N : Nat) :
    Counting.unmergedWalk (slowTree us (List.replicate N 0 ++ [1])) 4 3 1 34 2 = ⟨.ok (), ⟨0, 0, N + 1⟩⟩ := by
  rw [Counting.unmergedWalk, counted_free (show NumLeaves.parent 4 2 = .ok (some 1) from rfl)]
  dsimp only
  rw [if_neg (by decide), slow_get, if_neg (by decide), if_pos rfl]
  dsimp only
  rw [found_work, counted_bind]
  rfl

private theorem loop_root {ws : List LeafIndex} (N : Nat) : ∀ us : List LeafIndex, (∀ u ∈ us, u = 1) →
    Counting.unmergedLoop (slowTree ws (List.replicate N 0 ++ [1])) 4 3 us = ⟨.ok (), ⟨0, 0, us.length * (N + 1)⟩⟩
  | [], _ => by rw [List.length_nil, Nat.zero_mul]; rfl
  | u :: us, h => by
    have hu := h u List.mem_cons_self
    subst hu
    rw [Counting.unmergedLoop, counted_free (show LeafIndex.node_index (1 : LeafIndex).toNat = .ok 2 from rfl), walk_root,
      counted_bind, loop_root N us fun w hw => h w (List.mem_cons_of_mem _ hw)]
    simp only [Work.plus, Nat.zero_add, List.length_cons, Nat.succ_mul, Nat.add_comm]

private theorem ok_of_bind {α β : Type} {x : Counted α} {f : α → Counted β} {b : β} (h : (x >>= f).res = .ok b) :
    ∃ a, x.res = .ok a ∧ (f a).res = .ok b ∧ (x >>= f).work = x.work.plus (f a).work := by
  rw [bind_res] at h
  obtain ⟨a, h1, h2⟩ := Res.bind_ok_iff.1 h
  exact ⟨a, h1, h2, bind_ok h1⟩

/-- The comparisons of a check that succeeds are those of the last loop. -/
private theorem comparisons_last {P : CryptoProvider} {t : RatchetTree} {ctx : GroupContext} {now : Int}
    (h : verify_integrity P t ctx now = .ok ()) : ∃ ks, (Counting.parentLoop t t.num_leaves 0 t ks).res = .ok () ∧
    (Counting.verify_integrity P t ctx now).work.comparisons =
      (Counting.parentLoop t t.num_leaves 0 t ks).work.comparisons := by
  rw [← Counting.verify_integrity_res] at h
  unfold Counting.verify_integrity at h ⊢
  obtain ⟨a, _, h, w1⟩ := ok_of_bind h
  rw [w1]
  have c1 : (Counting.compute_root_tree_hash P ctx.cipher_suite t).work.comparisons ≤ 0 := by
    unfold Counting.compute_root_tree_hash
    exact free_le counter_comparisons fun r _ => (Counting.treeHashFuel_others P ctx.cipher_suite t [] 33 r).2
  split at h
  · cases h
  rename_i hne
  rw [if_neg hne]
  obtain ⟨good, _, h, w2⟩ := ok_of_bind h
  rw [w2]
  have c2 := (Counting.verifyParentHashesLoop_others P ctx.cipher_suite t t 0).2
  split at h
  · cases h
  rename_i hg
  rw [if_neg hg]
  obtain ⟨creds, _, h, w3⟩ := ok_of_bind h
  rw [w3]
  obtain ⟨⟨sk, ks⟩, _, h, w4⟩ := ok_of_bind h
  rw [w4]
  have c4 : (Counting.verifyLeaves P t ctx now creds).work.comparisons ≤ 0 :=
    Counting.forLeaves_others counter_comparisons t _ (fun s i n =>
      bind_le counter_comparisons (m := 0) (n := 0) (Nat.le_refl _) fun _ _ => Nat.le_refl _) _ _
  refine ⟨ks, h, ?_⟩
  have c3 : (free t.supported_creds).work.comparisons = 0 := rfl
  show _ + (_ + (_ + (_ + (Counting.parentLoop t t.num_leaves 0 t ks).work.comparisons))) = _
  unfold Counting.verify_parent_hashes
  omega

private theorem parents_work {N : Nat} {us : List LeafIndex} (hu : ∀ u ∈ us, u = 1) {ks : List HPKEPublicKey}
    (h : (Counting.parentLoop (slowTree us (List.replicate N 0 ++ [1])) 4 0 (slowTree us (List.replicate N 0 ++ [1])) ks).res
      = .ok ()) :
    (Counting.parentLoop (slowTree us (List.replicate N 0 ++ [1])) 4 0 (slowTree us (List.replicate N 0 ++ [1])) ks).work.comparisons
      = us.length * (N + 1) := by
  have hv : ∀ v ∈ List.replicate N (0 : LeafIndex) ++ [1], v = 0 ∨ v = 1 := by
    intro v hv
    rw [List.mem_append, List.mem_replicate, List.mem_singleton] at hv
    exact hv.imp_left And.right
  have e : ∀ t' : RatchetTree, Counting.parentLoop t' 4 0 (slowTree us (List.replicate N 0 ++ [1])) ks = (do
      Counting.unmergedLoop t' 4 1 (List.replicate N 0 ++ [1])
      if ks.contains [8] then free (.err .DuplicateEncryptionKeyInRatchetTree)
      else do
        Counting.unmergedLoop t' 4 3 us
        if (([8] : Bytes) :: ks).contains [9] then free (.err .DuplicateEncryptionKeyInRatchetTree) else pure ()) := fun _ => rfl
  rw [e] at h ⊢
  rw [loop_left _ hv, counted_bind] at h ⊢
  dsimp only at h ⊢
  split at h
  · cases h
  rename_i h8
  rw [if_neg h8]
  rw [loop_root _ _ hu, counted_bind] at h ⊢
  dsimp only at h ⊢
  split at h
  · cases h
  rename_i h9
  rw [if_neg h9]
  show 0 + (us.length * (N + 1) + 0) = _
  omega

private theorem leaf_bytes {i : Nat} (hi : i < 4) {l : LeafNode} (h : goodTree.get (node 0 i) = some (.Leaf l)) :
    (Enc.optional nodeEnc (some (.Leaf l))).fits ∧ (Enc.optional nodeEnc (some (.Leaf l))).bytes.length ≤ 1002 := by
  have h1 := (good_leafDefined hi).2
  have h2 := good_leafLength hi
  unfold treeHash at h2
  rw [h] at h1 h2
  obtain ⟨_, _, _, h1⟩ := h1
  refine ⟨⟨trivial, trivial, h1⟩, ?_⟩
  simp only [leafHashInput, leafOf, nodeEnc, struct, Enc.optional, Enc.bytes, List.length_append, id_eq] at h2 ⊢
  have d : ∀ n v, (digits n v).length = n := fun n v => by induction n generalizing v <;> simp [digits, *]
  simp only [d] at h2 ⊢
  omega

private theorem parent_bytes {p : ParentNode} (h1 : p.encryption_key.length ≤ 1) (h2 : p.parent_hash.length ≤ 1000)
    (h3 : p.unmerged_leaves.length ≤ 2 ^ 21) : (Enc.optional nodeEnc (some (.Parent p))).fits ∧
    (Enc.optional nodeEnc (some (.Parent p))).bytes.length ≤ 4 * p.unmerged_leaves.length + 1100 := by
  obtain ⟨⟨_, ⟨_, hf⟩, _⟩, _⟩ := parent_fits (l := []) (r := []) h1 h2 h3 (by decide) (by decide)
  refine ⟨⟨trivial, trivial, hf⟩, ?_⟩
  have hv := indices_le p.unmerged_leaves
  have e1 := opq_le p.encryption_key
  have e2 := opq_le p.parent_hash
  have d : ∀ n v, (digits n v).length = n := fun n v => by induction n generalizing v <;> simp [digits, *]
  simp only [nodeEnc, parentNode, struct, Enc.optional, Enc.bytes, List.length_append, d] at e1 e2 hv ⊢
  omega

/-- The bytes of the tree. -/
private theorem slow_bytes {us vs : List LeafIndex} (hu : us.length ≤ 2 ^ 21) (hv : vs.length ≤ 2 ^ 21) :
    ∃ b, RatchetTree.serialize (slowTree us vs) = .ok b ∧ b.length ≤ 4 * us.length + 4 * vs.length + 6000 := by
  have e : ratchetTree (slowTree us vs) = vector (Enc.optional nodeEnc)
      [some (.Leaf leaf0), some (.Parent ⟨[8], hRoot, vs⟩), some (.Leaf (signedLeaf 1 .Update)), some (.Parent ⟨[9], [], us⟩),
      some (.Leaf (signedLeaf 2 .Update))] := rfl
  obtain ⟨f0, l0⟩ := leaf_bytes (i := 0) (l := leaf0) (by decide) rfl
  obtain ⟨f1, l1⟩ := parent_bytes (p := ⟨[8], hRoot, vs⟩) (Nat.le_refl 1) hRoot_le hv
  obtain ⟨f2, l2⟩ := leaf_bytes (i := 1) (l := signedLeaf 1 .Update) (by decide) rfl
  obtain ⟨f3, l3⟩ := parent_bytes (p := ⟨[9], [], us⟩) (Nat.le_refl 1) (Nat.zero_le 1000) hu
  obtain ⟨f4, l4⟩ := leaf_bytes (i := 2) (l := signedLeaf 2 .Update) (by decide) rfl
  rcases ratchetTree_w (slowTree us vs) with ⟨_, h⟩ | ⟨h, _⟩
  · refine ⟨_, h, ?_⟩
    rw [e]
    refine Nat.le_trans (vec_le _) ?_
    simp only [List.foldr_cons, List.foldr_nil, Enc.bytes.eq_4, List.length_append]
    dsimp only at l1 l3
    have : Enc.empty.bytes.length = 0 := rfl
    omega
  · refine absurd ?_ h
    rw [e]
    refine ⟨⟨f0, f1, f2, f3, f4, trivial⟩, ?_⟩
    simp only [List.foldr_cons, List.foldr_nil, Enc.bytes.eq_4, List.length_append]
    dsimp only at l1 l3
    have : Enc.empty.bytes.length = 0 := rfl
    omega

private theorem slow_wf (us vs : List LeafIndex) : (slowTree us vs).NodesWF := by
  intro n hn
  rw [slow_eq] at hn
  simp only [List.mem_cons, Option.some.injEq, List.not_mem_nil, or_false, reduceCtorEq] at hn
  rcases hn with rfl | rfl | rfl | rfl | rfl
  · exact toyLeaf_wf 0
  · trivial
  · exact toyLeaf_wf 1
  · trivial
  · exact toyLeaf_wf 2

private theorem slow_length (us vs : List LeafIndex) : (slowTree us vs).length = 7 := rfl

private theorem slow_read {us vs : List LeafIndex} (hu : us.length ≤ 2 ^ 21) (hv : vs.length ≤ 2 ^ 21) :
    ∃ b, RatchetTree.deserialize b = .ok (slowTree us vs, []) ∧ b.length ≤ 4 * us.length + 4 * vs.length + 6000 := by
  obtain ⟨b, hb, hlen⟩ := slow_bytes hu hv
  refine ⟨b, ?_, hlen⟩
  have hread := C09_round_trip_exact _ b [] (slow_wf us vs) ⟨3, rfl⟩ ?_ hb
  · rwa [List.append_nil] at hread
  · intro k hk
    show 2 ^ 3 ≤ 2 ^ k
    refine Nat.pow_le_pow_right (by decide) (Classical.byContradiction fun hc => ?_)
    have : 2 ^ k ≤ 2 ^ 2 := Nat.pow_le_pow_right (by decide) (by omega)
    have := hk 4 (by omega)
    cases this

/-- C92 is false: there are trees with three members that are accepted, and whose check takes a number of comparisons that is
quadratic in the bytes that they are read from: the root lists one leaf many times, and the node below it lists this leaf last. -/
theorem C92_refuted (N : Nat) (hN : N < 2 ^ 20) : ∃ b t ctx, RatchetTree.deserialize b = .ok (t, []) ∧
    (members t.get ((t.length + 1) / 2)).length = 3 ∧ b.length ≤ 8 * N + 7000 ∧
    verify_integrity toyProvider t ctx 0 = .ok () ∧
    (Counting.verify_integrity toyProvider t ctx 0).work.comparisons = N * (N + 1) := by
  have hu : (List.replicate N (1 : LeafIndex)).length ≤ 2 ^ 21 := by rw [List.length_replicate]; omega
  have hv : (List.replicate N (0 : LeafIndex) ++ [1]).length ≤ 2 ^ 21 := by
    rw [List.length_append, List.length_replicate]
    show N + 1 ≤ _
    omega
  have hu1 : ∀ u ∈ List.replicate N (1 : LeafIndex), u = 1 := fun u h => (List.mem_replicate.1 h).2
  have hv1 : ∀ v ∈ List.replicate N (0 : LeafIndex) ++ [1], v = 0 ∨ v = 1 := by
    intro v hv
    rw [List.mem_append, List.mem_replicate, List.mem_singleton] at hv
    exact hv.imp_left And.right
  have hvalid := slow_valid hu hv hu1 hv1 (by simp)
  obtain ⟨b, hread, hlen⟩ := slow_read hu hv
  have hok : verify_integrity toyProvider (slowTree (List.replicate N 1) (List.replicate N 0 ++ [1]))
      (contextOf (slowTree (List.replicate N 1) (List.replicate N 0 ++ [1]))) 0 = .ok () := by
    refine (C19_exact toyProvider (slowTree (List.replicate N 1) (List.replicate N 0 ++ [1])) _ 0 toyHash rfl
      (by rw [slow_length]; decide) (by rw [slow_length]; decide) 2 (by rw [slow_length]; exact goodTree_height) ?_).2 ?_
    · intro x n hx
      have := lt_of_get hx
      rw [slow_length] at this
      exact this
    · rw [slow_length]
      exact hvalid
  refine ⟨b, _, _, hread, ?_, ?_, hok, ?_⟩
  · have hm : members (slowTree (List.replicate N 1) (List.replicate N 0 ++ [1])).get 4 = members goodTree.get 4 := by
      unfold members
      exact congrArg (fun f => List.filterMap f _) (funext fun i => by rw [slow_leaf])
    rw [slow_length, show (7 + 1) / 2 = 4 from rfl, hm]
    rfl
  · rw [List.length_replicate, List.length_append, List.length_replicate] at hlen
    simp only [List.length_singleton] at hlen
    omega
  · obtain ⟨ks, h1, h2⟩ := comparisons_last hok
    have h4 : (slowTree (List.replicate N 1) (List.replicate N 0 ++ [1])).num_leaves = 4 := by
      unfold RatchetTree.num_leaves
      rw [slow_length]
      rfl
    rw [h4] at h1 h2
    rw [h2, parents_work hu1 h1, List.length_replicate]

/-- C92 is false for any reasonable factor: a hundred thousand comparisons per byte are not enough. -/
theorem C92_refuted_factor : ¬ ∀ P b t ctx now, RatchetTree.deserialize b = .ok (t, []) →
    verify_integrity P t ctx now = .ok () →
    (Counting.verify_integrity P t ctx now).work.comparisons ≤ 100000 * b.length := by
  intro h
  obtain ⟨b, t, ctx, h1, _, h2, h3, h4⟩ := C92_refuted (2 ^ 20 - 1) (by decide)
  have := h toyProvider b t ctx 0 h1 h3
  rw [h4] at this
  omega

set_option maxRecDepth 100000 in
/-- The hypotheses are met by a tree with three members, and what is counted there is not nothing. -/
example : goodTree.length < 2 ^ 32 ∧ (∃ b, RatchetTree.deserialize b = .ok (goodTree, [])) ∧
    (Counting.verify_integrity toyProvider goodTree (contextOf goodTree) 0).work.digests = 19 ∧
    (Counting.verify_integrity toyProvider goodTree (contextOf goodTree) 0).work.leaves = 3 ∧
    (Counting.verify_integrity toyProvider goodTree (contextOf goodTree) 0).work.comparisons = 1 :=
  ⟨by decide, (slow_read (us := [1]) (vs := [1]) (by decide) (by decide)).imp fun _ h => h.1, by decide +kernel,
    by decide +kernel, by decide +kernel⟩

end Rmls
