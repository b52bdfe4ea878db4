import Verif.Proofs.TreeHash
import Verif.Props.Members
import Verif.Props.Toy
/-
Properties C20 (the tree hash commits to the tree) and C21 (it depends on the subtree only; exclusion).

`Spec.treeHash` is the recursion of RFC 9420 section 7.8; `Spec.hashInputs` lists everything it hashes.
-/
namespace Rmls
open Spec RatchetTree

/-- The levels and positions of 32 bit node indices. -/
theorem pos_bound {k i : Nat} (hx : node k i < 2 ^ 32 - 1) : k < 32 ∧ (i + 1) * 2 ^ (k + 1) ≤ 2 ^ 32 := by
  have h1 := node_le k i
  have hk : k < 32 := by
    apply Decidable.byContradiction
    intro hc
    have h2 : 2 ^ 32 ≤ 2 ^ k := Nat.pow_le_pow_right (by omega) (by omega)
    omega
  refine ⟨hk, ?_⟩
  have h2 := node_add_one k i
  have h3 : 2 ^ 32 = 2 ^ (k + 1) * 2 ^ (31 - k) := by rw [← Nat.pow_add]; congr 1; omega
  have h4 : 2 ^ (k + 1) * i < 2 ^ (k + 1) * 2 ^ (31 - k) := by
    rw [← h3]
    have : 2 ^ (k + 1) * i ≤ node k i + 1 := by
      rw [h2, Nat.pow_succ, Nat.mul_assoc]
      exact Nat.mul_le_mul_left _ (by omega)
    omega
  have h5 : i < 2 ^ (31 - k) := Nat.lt_of_mul_lt_mul_left h4
  rw [h3, Nat.mul_comm]
  exact Nat.mul_le_mul_left _ (by omega)

theorem root_pos {n : Nat} (hn : n ≤ 31) : n < 32 ∧ (0 + 1) * 2 ^ (n + 1) ≤ 2 ^ 32 :=
  ⟨by omega, by rw [Nat.zero_add, Nat.one_mul]; exact Nat.pow_le_pow_right (by omega) (by omega)⟩

/-- The nodes of the perfect tree of height `K`. -/
theorem inSubtree_root {K x : Nat} : inSubtree K 0 x ↔ x < 2 ^ (K + 1) - 1 := by
  obtain ⟨l, j, rfl⟩ := node_surj x
  rw [inSubtree_node]
  have hp := Nat.two_pow_pos (K + 1)
  have h1 := node_add_one l j
  constructor
  · rintro ⟨hl, hj⟩
    have hj : j < 2 ^ (K - l) := by
      rcases Nat.div_eq_zero_iff.1 hj with h | h
      · have := Nat.two_pow_pos (K - l); omega
      · exact h
    have : 2 ^ l * (2 * j + 1) < 2 ^ l * 2 ^ (K - l + 1) := by
      apply Nat.mul_lt_mul_of_pos_left _ (Nat.two_pow_pos l)
      rw [Nat.pow_succ]; omega
    rw [← Nat.pow_add, show l + (K - l + 1) = K + 1 by omega] at this
    omega
  · intro h
    have h2 : 2 ^ l * (2 * j + 1) < 2 ^ (K + 1) := by omega
    have h3 : 2 ^ l < 2 ^ (K + 1) := Nat.lt_of_le_of_lt (Nat.le_mul_of_pos_right _ (by omega)) h2
    have h4 : l < K + 1 := (Nat.pow_lt_pow_iff_right (by omega)).1 h3
    refine ⟨by omega, Nat.div_eq_of_lt ?_⟩
    rw [show K + 1 = l + (K - l + 1) by omega, Nat.pow_add] at h2
    have := Nat.lt_of_mul_lt_mul_left h2
    rw [Nat.pow_succ] at this
    omega

theorem root_height {t : RatchetTree} {K : Nat} (h0 : 0 < t.length) (hl : t.length < 2 ^ 32)
    (hK : IsHeight ((t.length + 1) / 2) K) : NumLeaves.root t.num_leaves = .ok (node K 0) ∧ K ≤ 31 := by
  obtain ⟨a, b, c⟩ := num_leaves_bounds h0 hl
  have he : t.num_leaves = (t.length + 1) / 2 := by omega
  have hh := isHeight_unique (isHeight_height a) (he ▸ hK)
  refine ⟨by rw [NumLeaves.root_eq a b, hh], ?_⟩
  have := hK.2 31 (by omega)
  exact this

/-- C20: the tree hash of a node is the one of RFC 9420; it is an error exactly if a leaf is where a parent
belongs or conversely, or something is too long to be encoded. -/
theorem C20_rfc (P : CryptoProvider) (cs : CipherSuite) (Hs : Hash) (hP : P.hash cs = .ok Hs)
    (t : RatchetTree) (k i : Nat) (hx : node k i < 2 ^ 32 - 1) :
    (HashDefined Hs.digest t.get k i ∧
      compute_tree_hash P cs t (node k i) [] = .ok (treeHash Hs.digest t.get k i)) ∨
    (¬ HashDefined Hs.digest t.get k i ∧ ∃ e, compute_tree_hash P cs t (node k i) [] = .err e) := by
  obtain ⟨h1, h2⟩ := pos_bound hx
  have := treeHashFuel_eq hP t [] k 33 i h1 (by omega) h2
  rwa [without_nil] at this

/-- C20: the root tree hash is that of the root of the tree. -/
theorem C20_root (P : CryptoProvider) (cs : CipherSuite) (t : RatchetTree) (K : Nat) (h0 : 0 < t.length)
    (hl : t.length < 2 ^ 32) (hK : IsHeight ((t.length + 1) / 2) K) :
    compute_root_tree_hash P cs t = compute_tree_hash P cs t (node K 0) [] := by
  unfold compute_root_tree_hash
  rw [(root_height h0 hl hK).1, Res.ok_bind]

theorem node_top (K : Nat) : node K 0 + 1 = 2 ^ K := by rw [node_add_one]; simp

/-- C20: two trees of the same height with the same root tree hash have the same nodes, or the two
computations hash two different inputs to the same digest.  (Leaves are supposed to use the canonical
representation of enumerations, as every leaf read from the wire does.) -/
theorem C20_binding (P : CryptoProvider) (cs : CipherSuite) (Hs : Hash) (hP : P.hash cs = .ok Hs)
    (t t' : RatchetTree) (K : Nat) (h0 : 0 < t.length) (hl : t.length < 2 ^ 32)
    (hK : IsHeight ((t.length + 1) / 2) K) (h0' : 0 < t'.length) (hl' : t'.length < 2 ^ 32)
    (hK' : IsHeight ((t'.length + 1) / 2) K)
    (hw : ∀ x l, t.get x = some (.Leaf l) → l.WF) (hw' : ∀ x l, t'.get x = some (.Leaf l) → l.WF)
    (h : Bytes) (ht : compute_root_tree_hash P cs t = .ok h) (ht' : compute_root_tree_hash P cs t' = .ok h) :
    (∀ x, x < 2 ^ (K + 1) - 1 → t.get x = t'.get x) ∨
    Collision Hs.digest (hashInputs Hs.digest t.get K 0) (hashInputs Hs.digest t'.get K 0) := by
  rw [C20_root P cs t K h0 hl hK] at ht
  rw [C20_root P cs t' K h0' hl' hK'] at ht'
  obtain ⟨h31, hpos⟩ := root_pos (root_height h0 hl hK).2
  have e1 := treeHashFuel_eq hP t [] K 33 0 h31 (by omega) hpos
  have e2 := treeHashFuel_eq hP t' [] K 33 0 h31 (by omega) hpos
  rw [without_nil] at e1 e2
  unfold compute_tree_hash at ht ht'
  rw [ht] at e1
  rw [ht'] at e2
  rcases e1 with ⟨d1, e1⟩ | ⟨_, e, e1⟩
  case inr => cases e1
  rcases e2 with ⟨d2, e2⟩ | ⟨_, e, e2⟩
  case inr => cases e2
  injection e1 with e1
  injection e2 with e2
  rcases treeHash_binds Hs.digest t.get t'.get hw hw' K 0 hpos d1 d2 (by rw [← e1, ← e2]) with h | h
  · exact .inl fun x hx => h x (inSubtree_root.2 hx)
  · exact .inr h

/-- C20: trees of different heights do not share a root tree hash, or there is a collision. -/
theorem C20_heights (P : CryptoProvider) (cs : CipherSuite) (Hs : Hash) (hP : P.hash cs = .ok Hs)
    (t t' : RatchetTree) (K K' : Nat) (h0 : 0 < t.length) (hl : t.length < 2 ^ 32)
    (hK : IsHeight ((t.length + 1) / 2) K) (h0' : 0 < t'.length) (hl' : t'.length < 2 ^ 32)
    (hK' : IsHeight ((t'.length + 1) / 2) K')
    (h : Bytes) (ht : compute_root_tree_hash P cs t = .ok h) (ht' : compute_root_tree_hash P cs t' = .ok h) :
    K = K' ∨ Collision Hs.digest (hashInputs Hs.digest t.get K 0) (hashInputs Hs.digest t'.get K' 0) := by
  by_cases hk : K = K'
  · exact .inl hk
  right
  rw [C20_root P cs t K h0 hl hK] at ht
  rw [C20_root P cs t' K' h0' hl' hK'] at ht'
  obtain ⟨h31, hpos⟩ := root_pos (root_height h0 hl hK).2
  obtain ⟨h31', hpos'⟩ := root_pos (root_height h0' hl' hK').2
  have e1 := treeHashFuel_eq hP t [] K 33 0 h31 (by omega) hpos
  have e2 := treeHashFuel_eq hP t' [] K' 33 0 h31' (by omega) hpos'
  rw [without_nil] at e1 e2
  unfold compute_tree_hash at ht ht'
  rw [ht] at e1
  rw [ht'] at e2
  rcases e1 with ⟨d1, e1⟩ | ⟨_, e, e1⟩
  case inr => cases e1
  rcases e2 with ⟨d2, e2⟩ | ⟨_, e, e2⟩
  case inr => cases e2
  injection e1 with e1
  injection e2 with e2
  exact treeHash_heights Hs.digest t.get t'.get K K' hk d1 d2 (by rw [← e1, ← e2])

/-- C20: in particular arrays of the same odd size are equal. -/
theorem C20_binding_array (P : CryptoProvider) (cs : CipherSuite) (Hs : Hash) (hP : P.hash cs = .ok Hs)
    (t t' : RatchetTree) (K : Nat) (hodd : t.length % 2 = 1) (hl : t.length < 2 ^ 32)
    (hll : t'.length = t.length) (hK : IsHeight ((t.length + 1) / 2) K)
    (hw : ∀ x l, t.get x = some (.Leaf l) → l.WF) (hw' : ∀ x l, t'.get x = some (.Leaf l) → l.WF)
    (h : Bytes) (ht : compute_root_tree_hash P cs t = .ok h) (ht' : compute_root_tree_hash P cs t' = .ok h) :
    t = t' ∨ Collision Hs.digest (hashInputs Hs.digest t.get K 0) (hashInputs Hs.digest t'.get K 0) := by
  rcases C20_binding P cs Hs hP t t' K (by omega) hl hK (by omega) (by omega) (by rw [hll]; exact hK) hw hw' h
    ht ht' with h | h
  · left
    refine ext hll.symm fun x => ?_
    by_cases hx : x < t.length
    · refine h x ?_
      have := hK.1
      have : 2 ^ (K + 1) = 2 * 2 ^ K := by rw [Nat.pow_succ, Nat.mul_comm]
      omega
    · rw [get_out (by omega), get_out (by omega)]
  · exact .inr h

/-- C21: the tree hash of a node, errors included, is not affected by changes outside of its subtree. -/
theorem C21_local (P : CryptoProvider) (cs : CipherSuite) (t t' : RatchetTree) (ex : List LeafIndex)
    (k i : Nat) (hx : node k i < 2 ^ 32 - 1) (h : ∀ x, inSubtree k i x → t.get x = t'.get x) :
    compute_tree_hash P cs t (node k i) ex = compute_tree_hash P cs t' (node k i) ex := by
  obtain ⟨h1, h2⟩ := pos_bound hx
  exact treeHashFuel_congr P cs t t' ex ex k 33 i h1 (by omega) h2 fun x hx => without_congr (h x hx)

/-- C21: the tree hash with leaves excluded is the plain tree hash of the tree without these leaves. -/
theorem C21_exclusion (P : CryptoProvider) (cs : CipherSuite) (t t' : RatchetTree) (ex : List LeafIndex)
    (k i : Nat) (hx : node k i < 2 ^ 32 - 1)
    (h : ∀ x, inSubtree k i x → t'.get x = without ex t.get x) :
    compute_tree_hash P cs t (node k i) ex = compute_tree_hash P cs t' (node k i) [] := by
  obtain ⟨h1, h2⟩ := pos_bound hx
  refine treeHashFuel_congr P cs t t' ex [] k 33 i h1 (by omega) h2 fun x hx => ?_
  rw [without_nil, h x hx]

/-- C21: there is such a tree. -/
theorem C21_without_exists (t : RatchetTree) (ex : List LeafIndex) :
    ∃ t' : RatchetTree, t'.length = t.length ∧ ∀ x, t'.get x = without ex t.get x := by
  refine ⟨(List.range t.length).map (without ex t.get), by simp, fun x => ?_⟩
  show ((List.range t.length).map (without ex t.get))[x]?.join = _
  by_cases hx : x < t.length
  · rw [List.getElem?_map, List.getElem?_range hx]; rfl
  · rw [List.getElem?_eq_none (by simp; exact Nat.le_of_not_lt hx)]
    have : t.get x = none := get_out (by omega)
    unfold without
    rw [this]
    split <;> rfl

/-- The empty tree has no tree hash. -/
theorem C20_empty_panics (P : CryptoProvider) (cs : CipherSuite) :
    compute_root_tree_hash P cs [] = .fault .panic := rfl

section examples
private abbrev suite1 : CipherSuite := .MLS_128_DHKEMX25519_AES128GCM_SHA256_Ed25519

/-- `toyTree` has a tree hash. -/
example : ∃ h, compute_root_tree_hash toyProvider suite1 toyTree = .ok h := ⟨_, rfl⟩

example : node 1 1 < 2 ^ 32 - 1 := by decide
/-- Excluding leaf 2 from the hash of `toyTree` changes two nodes. -/
example : without [2] toyTree.get 4 = none ∧
    without [2] toyTree.get 3 = some (.Parent ⟨[9], [], []⟩) := by
  constructor
  · unfold without; rw [if_pos ⟨2, by simp, rfl⟩]
  · unfold without
    rw [if_neg (by rintro ⟨u, hu, h⟩; simp at hu; subst hu; revert h; decide)]
    show some (Node.Parent ⟨[9], [], _⟩) = _
    simp
end examples
end Rmls
