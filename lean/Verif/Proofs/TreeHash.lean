import Verif.Model.RatchetTree
import Verif.Spec.TreeHash
import Verif.Proofs.Inj
import Verif.Proofs.WireSpec
import Verif.Proofs.Resolve
/-
Tree hashes.
-/
namespace Rmls
open Spec Spec.Enc

namespace RatchetTree

theorem leafInput_w (i : LeafIndex) (n : Option LeafNode) :
    Writes (serialize_leaf_node_hash_input i n) (leafHashInput i.toNat n) := by
  unfold serialize_leaf_node_hash_input leafHashInput
  refine (writes_u8 _ _ rfl).app ((writes_u32 _).app ?_)
  exact writes_optional n (by rintro rfl; rfl) (by rintro y rfl; exact leafNode_w y)

theorem parentInput_w (n : Option ParentNode) (l r : Bytes) :
    Writes (serialize_parent_node_hash_input n l r) (parentHashInput n l r) := by
  unfold serialize_parent_node_hash_input parentHashInput
  refine (writes_u8 _ _ rfl).app ?_
  rw [← Res.app_assoc]
  refine Writes.app ?_ ((writes_opaque _).app (writes_opaque _))
  exact writes_optional n (by rintro rfl; rfl) (by rintro y rfl; exact parentNode_w y)

theorem hashLeaf_without {t : RatchetTree} {ex : List LeafIndex} {i : Nat} (hi : i < 2 ^ 31) :
    hashLeaf (t.get (node 0 i)) (ex.contains (UInt32.ofNat i)) =
      match without ex t.get (node 0 i) with
      | some (.Leaf l) => .ok (some l)
      | some (.Parent _) => .err .InvalidLeafNode
      | none => .ok none := by
  have hc : ex.contains (UInt32.ofNat i) = true ↔ ∃ u ∈ ex, node 0 i = node 0 u.toNat := by
    rw [List.contains_iff_mem]
    constructor
    · intro h
      refine ⟨_, h, ?_⟩
      rw [UInt32.toNat_ofNat_of_lt' (by show i < 4294967296; omega)]
    · rintro ⟨u, hu, h⟩
      have : i = u.toNat := (node_inj h).2
      rw [this]
      simpa using hu
  unfold without hashLeaf
  by_cases h : ex.contains (UInt32.ofNat i) = true
  · rw [if_pos (hc.1 h), h]
    cases t.get (node 0 i) <;> rfl
  · rw [if_neg (fun hh => h (hc.2 hh)), Bool.eq_false_iff.2 h]
    cases t.get (node 0 i) with
    | none => rfl
    | some n => cases n <;> rfl

theorem hashParent_without {t : RatchetTree} {ex : List LeafIndex} {k i : Nat} :
    hashParent (t.get (node (k + 1) i)) ex =
      match without ex t.get (node (k + 1) i) with
      | some (.Parent p) => .ok (some p)
      | some (.Leaf _) => .err .InvalidParentNode
      | none => .ok none := by
  unfold without hashParent
  rw [if_neg (by rintro ⟨u, _, h⟩; exact absurd (node_inj h).1 (by omega))]
  cases t.get (node (k + 1) i) with
  | none => rfl
  | some n =>
    cases n with
    | Leaf l => rfl
    | Parent p =>
      have hf : (p.unmerged_leaves.filter fun li => !ex.contains li) =
          p.unmerged_leaves.filter fun u => decide (u ∉ ex) := by
        apply List.filter_congr
        intro u _
        by_cases hu : u ∈ ex <;> simp [hu]
      dsimp only
      by_cases h : p.unmerged_leaves.isEmpty = false ∧ ex.isEmpty = false
      · rw [if_pos h, hf]
      · rw [if_neg h]
        congr 3
        obtain ⟨ek, ph, ul⟩ := p
        dsimp only at *
        congr 1
        symm
        apply List.filter_eq_self.2
        intro u hu
        have h1 : ul.isEmpty = false := by
          cases ul with
          | nil => cases hu
          | cons => rfl
        have h2 : ex = [] := by
          cases ex with
          | nil => rfl
          | cons => exact absurd ⟨h1, rfl⟩ h
        rw [h2]; simp

/-- One level of the recursion: a leaf. -/
theorem treeHashFuel_zero (P : CryptoProvider) (cs : CipherSuite) (t : RatchetTree) (ex : List LeafIndex)
    (fuel i : Nat) :
    treeHashFuel P cs t ex (fuel + 1) (node 0 i) = (do
      let l ← hashLeaf (t.get (node 0 i)) (ex.contains (UInt32.ofNat i))
      let input ← serialize_leaf_node_hash_input (UInt32.ofNat i) l
      let h ← P.hash cs
      pure (h.digest input)) := by
  rw [treeHashFuel, NodeIndex.leaf_index_zero]

/-- One level of the recursion: an inner node. -/
theorem treeHashFuel_succ (P : CryptoProvider) (cs : CipherSuite) (t : RatchetTree) (ex : List LeafIndex)
    (fuel i : Nat) {k : Nat} (hk : k + 1 < 32) :
    treeHashFuel P cs t ex (fuel + 1) (node (k + 1) i) = (do
      let left_hash ← treeHashFuel P cs t ex fuel (node k (2 * i))
      let right_hash ← treeHashFuel P cs t ex fuel (node k (2 * i + 1))
      let p ← hashParent (t.get (node (k + 1) i)) ex
      let input ← serialize_parent_node_hash_input p left_hash right_hash
      let h ← P.hash cs
      pure (h.digest input)) := by
  rw [treeHashFuel, NodeIndex.leaf_index_succ]
  dsimp only
  rw [NodeIndex.children_succ i hk, Res.ok_bind]

/-- The bound on positions carries over to the children. -/
theorem pos_left {k i : Nat} (h : (i + 1) * 2 ^ (k + 2) ≤ 2 ^ 32) : (2 * i + 1) * 2 ^ (k + 1) ≤ 2 ^ 32 := by
  refine Nat.le_trans ?_ h
  rw [show k + 2 = (k + 1) + 1 by omega, Nat.pow_succ 2 (k + 1)]
  have := Nat.two_pow_pos (k + 1)
  generalize 2 ^ (k + 1) = a at *
  rw [← Nat.mul_assoc, Nat.add_mul, Nat.add_mul, Nat.mul_assoc 2 i a]
  omega

theorem pos_right {k i : Nat} (h : (i + 1) * 2 ^ (k + 2) ≤ 2 ^ 32) :
    (2 * i + 1 + 1) * 2 ^ (k + 1) ≤ 2 ^ 32 := by
  refine Nat.le_trans (Nat.le_of_eq ?_) h
  rw [show k + 2 = (k + 1) + 1 by omega, Nat.pow_succ 2 (k + 1), show 2 * i + 1 + 1 = 2 * (i + 1) by omega,
    Nat.mul_comm 2 (i + 1), Nat.mul_assoc, Nat.mul_comm 2]

/-- What the computation returns: the RFC hash, or an error if something has the wrong kind or does not
fit. -/
theorem treeHashFuel_eq {P : CryptoProvider} {cs : CipherSuite} {Hs : Hash} (hP : P.hash cs = .ok Hs)
    (t : RatchetTree) (ex : List LeafIndex) :
    ∀ k fuel i, k < 32 → k < fuel → (i + 1) * 2 ^ (k + 1) ≤ 2 ^ 32 →
      (HashDefined Hs.digest (without ex t.get) k i ∧
        treeHashFuel P cs t ex fuel (node k i) = .ok (treeHash Hs.digest (without ex t.get) k i)) ∨
      (¬ HashDefined Hs.digest (without ex t.get) k i ∧
        ∃ e, treeHashFuel P cs t ex fuel (node k i) = .err e) := by
  intro k
  induction k with
  | zero =>
    intro fuel i _ hf hi
    obtain ⟨fuel, rfl⟩ : ∃ m, fuel = m + 1 := ⟨fuel - 1, by omega⟩
    have hi : i < 2 ^ 31 := by omega
    rw [treeHashFuel_zero, hashLeaf_without hi]
    unfold HashDefined treeHash
    cases hn : without ex t.get (node 0 i) with
    | none =>
      have hw := leafInput_w (UInt32.ofNat i) none
      rw [UInt32.toNat_ofNat_of_lt' (by show i < 4294967296; omega)] at hw
      simp only [Res.ok_bind]
      rcases hw with ⟨hf, hw⟩ | ⟨hf, hw | hw⟩
      · left; rw [hw]; refine ⟨⟨by rintro p ⟨⟩, hf⟩, ?_⟩; simp [hP, leafOf]
      · right; rw [hw]; exact ⟨fun h => hf h.2, _, rfl⟩
      · right; rw [hw]; exact ⟨fun h => hf h.2, _, rfl⟩
    | some n =>
      cases n with
      | Parent p => right; exact ⟨fun h => h.1 p rfl, _, rfl⟩
      | Leaf l =>
        have hw := leafInput_w (UInt32.ofNat i) (some l)
        rw [UInt32.toNat_ofNat_of_lt' (by show i < 4294967296; omega)] at hw
        simp only [Res.ok_bind]
        rcases hw with ⟨hf, hw⟩ | ⟨hf, hw | hw⟩
        · left; rw [hw]; refine ⟨⟨by rintro p ⟨⟩, hf⟩, ?_⟩; simp [hP, leafOf]
        · right; rw [hw]; exact ⟨fun h => hf h.2, _, rfl⟩
        · right; rw [hw]; exact ⟨fun h => hf h.2, _, rfl⟩
  | succ k ih =>
    intro fuel i hk hf hi
    obtain ⟨fuel, rfl⟩ : ∃ m, fuel = m + 1 := ⟨fuel - 1, by omega⟩
    rw [treeHashFuel_succ _ _ _ _ _ _ hk, hashParent_without, HashDefined, treeHash]
    rcases ih fuel (2 * i) (by omega) (by omega) (pos_left hi) with ⟨hL, hl⟩ | ⟨hL, e, hl⟩
    case inr => right; rw [hl]; exact ⟨fun h => hL h.2.2.1, _, rfl⟩
    rcases ih fuel (2 * i + 1) (by omega) (by omega) (pos_right hi) with ⟨hR, hr⟩ | ⟨hR, e, hr⟩
    case inr => right; rw [hl, hr]; exact ⟨fun h => hR h.2.2.2, _, rfl⟩
    rw [hl, hr]
    simp only [Res.ok_bind]
    generalize treeHash Hs.digest (without ex t.get) k (2 * i) = a
    generalize treeHash Hs.digest (without ex t.get) k (2 * i + 1) = b
    cases hn : without ex t.get (node (k + 1) i) with
    | none =>
      simp only [Res.ok_bind]
      rcases parentInput_w none a b with ⟨hf, hw⟩ | ⟨hf, hw | hw⟩
      · left; rw [hw]; refine ⟨⟨by rintro p ⟨⟩, hf, hL, hR⟩, ?_⟩; simp [hP, parentOf]
      · right; rw [hw]; exact ⟨fun h => hf h.2.1, _, rfl⟩
      · right; rw [hw]; exact ⟨fun h => hf h.2.1, _, rfl⟩
    | some n =>
      cases n with
      | Leaf l => right; exact ⟨fun h => h.1 l rfl, _, rfl⟩
      | Parent p =>
        simp only [Res.ok_bind]
        rcases parentInput_w (some p) a b with ⟨hf, hw⟩ | ⟨hf, hw | hw⟩
        · left; rw [hw]; refine ⟨⟨by rintro p ⟨⟩, hf, hL, hR⟩, ?_⟩; simp [hP, parentOf]
        · right; rw [hw]; exact ⟨fun h => hf h.2.1, _, rfl⟩
        · right; rw [hw]; exact ⟨fun h => hf h.2.1, _, rfl⟩

/-- The computation depends only on the node kinds in the subtree after exclusion. -/
theorem treeHashFuel_congr (P : CryptoProvider) (cs : CipherSuite) (t t' : RatchetTree)
    (ex ex' : List LeafIndex) :
    ∀ k fuel i, k < 32 → k < fuel → (i + 1) * 2 ^ (k + 1) ≤ 2 ^ 32 →
      (∀ x, inSubtree k i x → without ex t.get x = without ex' t'.get x) →
      treeHashFuel P cs t ex fuel (node k i) = treeHashFuel P cs t' ex' fuel (node k i) := by
  intro k
  induction k with
  | zero =>
    intro fuel i _ hf hi h
    obtain ⟨fuel, rfl⟩ : ∃ m, fuel = m + 1 := ⟨fuel - 1, by omega⟩
    rw [treeHashFuel_zero, treeHashFuel_zero, hashLeaf_without (by omega), hashLeaf_without (by omega),
      h _ (inSubtree_self 0 i)]
  | succ k ih =>
    intro fuel i hk hf hi h
    obtain ⟨fuel, rfl⟩ : ∃ m, fuel = m + 1 := ⟨fuel - 1, by omega⟩
    rw [treeHashFuel_succ _ _ _ _ _ _ hk, treeHashFuel_succ _ _ _ _ _ _ hk, hashParent_without,
      hashParent_without, h _ (inSubtree_self (k + 1) i),
      ih fuel (2 * i) (by omega) (by omega) (pos_left hi) (fun x hx => h x (inSubtree_left hx)),
      ih fuel (2 * i + 1) (by omega) (by omega) (pos_right hi) (fun x hx => h x (inSubtree_right hx))]

end RatchetTree

theorem without_nil (nodes : Nat → Option Node) : without [] nodes = nodes := by
  funext x
  unfold without
  rw [if_neg (by rintro ⟨_, h, _⟩; cases h)]
  cases nodes x with
  | none => rfl
  | some n =>
    cases n with
    | Leaf l => rfl
    | Parent p =>
      dsimp only
      congr 2
      obtain ⟨a, b, c⟩ := p
      congr 1
      exact List.filter_eq_self.2 (by simp)

theorem without_congr {ex : List LeafIndex} {n n' : Nat → Option Node} {x : Nat} (h : n x = n' x) :
    without ex n x = without ex n' x := by
  unfold without; rw [h]

/-! ### Binding -/

theorem leafHashInput_inj {i : Nat} {m n : Option LeafNode} (hm : ∀ x, m = some x → x.WF)
    (hn : ∀ x, n = some x → x.WF) (hi : i < 2 ^ 32) (fm : (leafHashInput i m).fits) (fn : (leafHashInput i n).fits)
    (h : (leafHashInput i m).bytes = (leafHashInput i n).bytes) : m = n := by
  have hi : (UInt32.ofNat i).toNat = i := UInt32.toNat_ofNat_of_lt' (by show i < 4294967296; omega)
  have h1 := RatchetTree.leafInput_w (UInt32.ofNat i) m
  have h2 := RatchetTree.leafInput_w (UInt32.ofNat i) n
  rw [hi] at h1 h2
  have h1 := writes_ok h1 fm
  have h2 := writes_ok h2 fn
  rw [h] at h1
  generalize (leafHashInput i n).bytes = b at h1 h2
  unfold RatchetTree.serialize_leaf_node_hash_input at h1 h2
  obtain ⟨a1, a2, ha1, ha2, rfl⟩ := Res.app_ok_iff.1 h1
  obtain ⟨b1, b2, hb1, hb2, h⟩ := Res.app_ok_iff.1 h2
  obtain ⟨_, h⟩ := u8_inj.pre trivial trivial ha1 hb1 h
  subst h
  obtain ⟨a1, a3, ha1, ha3, rfl⟩ := Res.app_ok_iff.1 ha2
  obtain ⟨b1, b3, hb1, hb3, h⟩ := Res.app_ok_iff.1 hb2
  obtain ⟨_, h⟩ := u32_inj.pre trivial trivial ha1 hb1 h
  subst h
  exact (optional_inj LeafNode.lawful.inj (w := fun n => match n with
    | some n => n.serialize
    | none => .ok []) rfl (fun _ => rfl)).eq hm hn (by rw [← ha3]; cases m <;> rfl) (by rw [← hb3]; cases n <;> rfl)

theorem parentHashInput_inj {m n : Option ParentNode} {l r l' r' : Bytes} (fm : (parentHashInput m l r).fits)
    (fn : (parentHashInput n l' r').fits) (h : (parentHashInput m l r).bytes = (parentHashInput n l' r').bytes) :
    m = n ∧ l = l' ∧ r = r' := by
  have h1 := writes_ok (RatchetTree.parentInput_w m l r) fm
  have h2 := writes_ok (RatchetTree.parentInput_w n l' r') fn
  rw [h] at h1
  generalize (parentHashInput n l' r').bytes = b at h1 h2
  unfold RatchetTree.serialize_parent_node_hash_input at h1 h2
  obtain ⟨a1, a2, ha1, ha2, rfl⟩ := Res.app_ok_iff.1 h1
  obtain ⟨b1, b2, hb1, hb2, h⟩ := Res.app_ok_iff.1 h2
  obtain ⟨_, h⟩ := u8_inj.pre trivial trivial ha1 hb1 h
  subst h
  rw [← Res.app_assoc] at ha2 hb2
  obtain ⟨a1, a3, ha1, ha3, rfl⟩ := Res.app_ok_iff.1 ha2
  obtain ⟨b1, b3, hb1, hb3, h⟩ := Res.app_ok_iff.1 hb2
  obtain ⟨hmn, h⟩ := (optional_inj ParentNode.lawful.inj (w := fun n => match n with
    | some n => n.serialize
    | none => .ok []) rfl (fun _ => rfl)).pre (x := m) (y := n) (fun _ _ => trivial) (fun _ _ => trivial)
    (by rw [← ha1]; cases m <;> rfl) (by rw [← hb1]; cases n <;> rfl) h
  subst h
  obtain ⟨a1, a4, ha1, ha4, rfl⟩ := Res.app_ok_iff.1 ha3
  obtain ⟨b1, b4, hb1, hb4, h⟩ := Res.app_ok_iff.1 hb3
  obtain ⟨hl, h⟩ := opaque_inj.pre trivial trivial ha1 hb1 h
  subst h
  exact ⟨hmn, hl, opaque_inj.eq trivial trivial ha4 hb4⟩

/-- Equal hashes: the same nodes, or a collision among the inputs hashed. -/
theorem treeHash_binds (H : Bytes → Bytes) (n n' : Nat → Option Node)
    (hw : ∀ x l, n x = some (.Leaf l) → l.WF) (hw' : ∀ x l, n' x = some (.Leaf l) → l.WF) :
    ∀ k i, (i + 1) * 2 ^ (k + 1) ≤ 2 ^ 32 → HashDefined H n k i → HashDefined H n' k i →
      treeHash H n k i = treeHash H n' k i →
      (∀ x, inSubtree k i x → n x = n' x) ∨ Collision H (hashInputs H n k i) (hashInputs H n' k i) := by
  intro k
  induction k with
  | zero =>
    intro i hi h1 h2 he
    unfold HashDefined at h1 h2
    unfold treeHash at he
    by_cases hb : (leafHashInput i (leafOf (n (node 0 i)))).bytes =
        (leafHashInput i (leafOf (n' (node 0 i)))).bytes
    · left
      intro x hx
      rw [inSubtree_zero] at hx
      subst hx
      have hl : ∀ {m : Nat → Option Node}, (∀ x l, m x = some (.Leaf l) → l.WF) →
          ∀ x, leafOf (m (node 0 i)) = some x → x.WF := by
        intro m hm x hx
        cases hn : m (node 0 i) with
        | none => rw [hn] at hx; cases hx
        | some y =>
          cases y with
          | Parent p => rw [hn] at hx; cases hx
          | Leaf l => rw [hn] at hx; cases hx; exact hm _ _ hn
      have := leafHashInput_inj (hl hw) (hl hw') (by omega) h1.2 h2.2 hb
      have hp := h1.1
      have hp' := h2.1
      cases hn : n (node 0 i) with
      | none =>
        cases hn' : n' (node 0 i) with
        | none => rfl
        | some y => cases y <;> simp_all [leafOf]
      | some y =>
        cases y <;> cases hn' : n' (node 0 i) with
        | none => simp_all [leafOf]
        | some z => cases z <;> simp_all [leafOf]
    · right
      exact ⟨_, by unfold hashInputs; exact List.mem_singleton.2 rfl, _,
        by unfold hashInputs; exact List.mem_singleton.2 rfl, hb, he⟩
  | succ k ih =>
    intro i hi h1 h2 he
    unfold HashDefined at h1 h2
    unfold treeHash at he
    by_cases hb : (parentHashInput (parentOf (n (node (k + 1) i))) (treeHash H n k (2 * i))
        (treeHash H n k (2 * i + 1))).bytes = (parentHashInput (parentOf (n' (node (k + 1) i)))
        (treeHash H n' k (2 * i)) (treeHash H n' k (2 * i + 1))).bytes
    · obtain ⟨hp, hl, hr⟩ := parentHashInput_inj h1.2.1 h2.2.1 hb
      have up : ∀ {m : Nat → Option Node} {a}, (a ∈ hashInputs H m k (2 * i) ∨ a ∈ hashInputs H m k (2 * i + 1)) →
          a ∈ hashInputs H m (k + 1) i := by
        intro m a h
        rw [hashInputs]
        exact List.mem_cons_of_mem _ (List.mem_append.2 h)
      rcases ih _ (RatchetTree.pos_left hi) h1.2.2.1 h2.2.2.1 hl with hL | ⟨a, ha, b, hb, hc⟩
      case inr => exact .inr ⟨a, up (.inl ha), b, up (.inl hb), hc⟩
      rcases ih _ (RatchetTree.pos_right hi) h1.2.2.2 h2.2.2.2 hr with hR | ⟨a, ha, b, hb, hc⟩
      case inr => exact .inr ⟨a, up (.inr ha), b, up (.inr hb), hc⟩
      left
      intro x hx
      rcases inSubtree_succ.1 hx with rfl | hx | hx
      · have hp1 := h1.1
        have hp2 := h2.1
        cases hn : n (node (k + 1) i) with
        | none =>
          cases hn' : n' (node (k + 1) i) with
          | none => rfl
          | some y => cases y <;> simp_all [parentOf]
        | some y =>
          cases y <;> cases hn' : n' (node (k + 1) i) with
          | none => simp_all [parentOf]
          | some z => cases z <;> simp_all [parentOf]
      · exact hL x hx
      · exact hR x hx
    · right
      exact ⟨_, by rw [hashInputs]; exact List.mem_cons_self .., _, by rw [hashInputs]; exact List.mem_cons_self ..,
        hb, he⟩

/-- The inputs of a leaf and of an inner node differ in their first byte. -/
theorem hashInput_kinds (i : Nat) (m : Option LeafNode) (n : Option ParentNode) (l r : Bytes) :
    (leafHashInput i m).bytes ≠ (parentHashInput n l r).bytes := by
  intro h
  have h1 : (leafHashInput i m).bytes.head? = some 1 := rfl
  have h2 : (parentHashInput n l r).bytes.head? = some 2 := rfl
  rw [h, h2] at h1
  exact absurd h1 (by decide)

/-- Equal hashes at different heights: a collision among the inputs hashed along the left edge. -/
theorem treeHash_heights (H : Bytes → Bytes) (n n' : Nat → Option Node) :
    ∀ k k', k ≠ k' → HashDefined H n k 0 → HashDefined H n' k' 0 → treeHash H n k 0 = treeHash H n' k' 0 →
      Collision H (hashInputs H n k 0) (hashInputs H n' k' 0) := by
  intro k
  induction k with
  | zero =>
    intro k' hk h1 h2 he
    cases k' with
    | zero => exact absurd rfl hk
    | succ k' =>
      exact ⟨_, List.mem_singleton.2 rfl, _, List.mem_cons_self .., hashInput_kinds _ _ _ _ _, he⟩
  | succ k ih =>
    intro k' hk h1 h2 he
    cases k' with
    | zero =>
      exact ⟨_, List.mem_cons_self .., _, List.mem_singleton.2 rfl, (hashInput_kinds _ _ _ _ _).symm, he⟩
    | succ k' =>
      unfold HashDefined at h1 h2
      by_cases hb : (parentHashInput (parentOf (n (node (k + 1) 0))) (treeHash H n k (2 * 0))
          (treeHash H n k (2 * 0 + 1))).bytes = (parentHashInput (parentOf (n' (node (k' + 1) 0)))
          (treeHash H n' k' (2 * 0)) (treeHash H n' k' (2 * 0 + 1))).bytes
      · obtain ⟨_, hl, _⟩ := parentHashInput_inj h1.2.1 h2.2.1 hb
        obtain ⟨a, ha, b, hb, hne, hab⟩ := ih k' (by omega) h1.2.2.1 h2.2.2.1 hl
        exact ⟨a, List.mem_cons_of_mem _ (List.mem_append_left _ ha), b,
          List.mem_cons_of_mem _ (List.mem_append_left _ hb), hne, hab⟩
      · exact ⟨_, List.mem_cons_self .., _, List.mem_cons_self .., hb, he⟩

end Rmls
