import Verif.Spec.History
import Verif.Proofs.Invariant
import Verif.Proofs.Integrity
import Verif.Props.Merge
/-
The invariant behind property C62: parent hashes through any history of operations.
-/
namespace Rmls
open Spec RatchetTree

theorem parentHashEnc_inj {p q : ParentNode} {a b : Bytes} (fp : (parentHashEnc p a).fits)
    (fq : (parentHashEnc q b).fits) (h : (parentHashEnc p a).bytes = (parentHashEnc q b).bytes) :
    p.encryption_key = q.encryption_key ∧ p.parent_hash = q.parent_hash ∧ a = b := by
  have h1 := writes_ok (parentHash_w p a) fp
  have h2 := writes_ok (parentHash_w q b) fq
  rw [h] at h1
  unfold ParentNode.serialize_parent_hash_input at h1 h2
  obtain ⟨a1, a2, ha1, ha2, ha⟩ := Res.app_ok_iff.1 h1
  obtain ⟨b1, b2, hb1, hb2, hb⟩ := Res.app_ok_iff.1 h2
  obtain ⟨e1, e2⟩ := opaque_inj.pre trivial trivial ha1 hb1 (ha.symm.trans hb)
  obtain ⟨a3, a4, ha3, ha4, ha⟩ := Res.app_ok_iff.1 ha2
  obtain ⟨b3, b4, hb3, hb4, hb⟩ := Res.app_ok_iff.1 hb2
  obtain ⟨e3, e4⟩ := opaque_inj.pre trivial trivial ha3 hb3 (ha.symm.trans (e2.trans hb))
  subst e4
  exact ⟨e1, e3, opaque_inj.eq trivial trivial ha4 hb4⟩

/-- One child and the other one. -/
def Sides (i c s : Nat) : Prop := (c = 2 * i ∧ s = 2 * i + 1) ∨ (c = 2 * i + 1 ∧ s = 2 * i)

/-- The parent hash is found below child `c`; what nodes below child `s` carry was computed from inputs that are
not of this parent. -/
structure OneSided (H : Bytes → Bytes) (n : Nat → Option Node) (past : Past) (k : Nat) (p : ParentNode)
    (c s : Nat) : Prop where
  vouched : ∃ x, VouchedBy H n p k c s x
  other : ∀ x h, inSubtree k s x → storedParentHash (n x) = some h → h = [] ∨
    ∃ b ∈ past.inputs, h = H b ∧ ∀ sh, (parentHashEnc p sh).fits → (parentHashEnc p sh).bytes ≠ b

theorem OneSided.linked {H : Bytes → Bytes} {n : Nat → Option Node} {past : Past} {k : Nat} {p : ParentNode}
    {c s : Nat} (h : OneSided H n past k p c s) : Linked H n p k c s := by
  obtain ⟨x, hx⟩ := h.vouched
  exact ⟨x, hx.found, hx.hash⟩

/-- The part of the invariant that speaks of parent hashes. -/
structure HashInv (H : Bytes → Bytes) (n : Nat → Option Node) (past : Past) : Prop where
  inner : ∀ k i l, n (node (k + 1) i) ≠ some (.Leaf l)
  both : BothUsed n
  listed : ∀ k i p, n (node k i) = some (.Parent p) → ∀ u ∈ p.unmerged_leaves, UnmergedListed n k i u
  sides : ∀ k i p, n (node (k + 1) i) = some (.Parent p) → ∃ c s, Sides i c s ∧ OneSided H n past k p c s
  short : ∀ x p, n x = some (.Parent p) → p.encryption_key.length < 2 ^ 30
  stored : ∀ x h, storedParentHash (n x) = some h → h = [] ∨ ∃ b ∈ past.inputs, h = H b
  inputs : ∀ b ∈ past.inputs, ∃ p sh, (parentHashEnc p sh).fits ∧ b = (parentHashEnc p sh).bytes ∧
    p.encryption_key ∈ past.keys

theorem sides_left {i c s : Nat} (h : Sides i c s) : c / 2 = i ∧ s / 2 = i ∧ c ≠ s := by
  unfold Sides at h; omega

theorem inSubtree_half {k c x : Nat} (h : inSubtree k c x) : inSubtree (k + 1) (c / 2) x := by
  rcases Nat.mod_two_eq_zero_or_one c with hc | hc
  · have : c = 2 * (c / 2) := by omega
    rw [this] at h; exact inSubtree_left h
  · have : c = 2 * (c / 2) + 1 := by omega
    rw [this] at h; exact inSubtree_right h

theorem storedParentHash_listed (li : LeafIndex) (v : Option Node) :
    storedParentHash (Spec.listed li v) = storedParentHash v := by
  unfold Spec.listed
  split <;> rfl

/-- Where nothing below a parent changes, its parent hash is found as before. -/
theorem oneSided_congr {H : Bytes → Bytes} {n n' : Nat → Option Node} {past past' : Past} {k c s : Nat}
    {p : ParentNode} (hok : UnmergedOk n) (hc : ∀ x, inSubtree k c x → n' x = n x)
    (hs : ∀ x, inSubtree k s x → n' x = n x) (hin : ∀ b ∈ past.inputs, b ∈ past'.inputs)
    (h : OneSided H n past k p c s) : OneSided H n' past' k p c s := by
  constructor
  · obtain ⟨x, hx, he, hr⟩ := h.vouched
    refine ⟨x, ?_, ?_, ?_⟩
    · rw [resolution_congr hc]; exact hx
    · rw [hc x (resolution_mem hok hx).1, he]
      unfold parentHashOver
      rw [treeHash_congr fun x hx => without_congr (hs x hx)]
    · rw [resolution_congr hc]; exact hr
  · intro x h' hx he
    rw [hs x hx] at he
    rcases h.other x h' hx he with h1 | ⟨b, hb, h1, h2⟩
    · exact .inl h1
    · exact .inr ⟨b, hin b hb, h1, h2⟩

/-! ### adding a member -/

theorem resolution_add {n n' : Nat → Option Node} {K j : Nat} {leaf : LeafNode}
    (hb : n (node 0 j) = none)
    (h' : ∀ x, n' x = if x = 2 * j then some (.Leaf leaf)
      else if above K j x then Spec.listed (UInt32.ofNat j) (n x) else n x) :
    ∀ k i x, x ∈ resolution n k i → x ∈ resolution n' k i := by
  have hsome : ∀ x nd, n x = some nd → n' x = some nd ∨
      ∃ p, nd = .Parent p ∧ n' x = some (.Parent { p with unmerged_leaves := p.unmerged_leaves ++ [UInt32.ofNat j] }) := by
    intro x nd hx
    rw [h', if_neg (by rintro rfl; rw [← node_zero, hb] at hx; cases hx)]
    split
    · rw [hx]
      cases nd with
      | Leaf l => exact .inl rfl
      | Parent p => exact .inr ⟨p, rfl, rfl⟩
    · exact .inl hx
  have hone : ∀ k i nd, n (node k i) = some nd → ∀ x, x ∈ resolution n k i → x ∈ resolution n' k i := by
    intro k i nd hn x hx
    rcases hsome _ _ hn with h1 | ⟨p, rfl, h1⟩
    · rw [resolution_some hn] at hx
      rw [resolution_some h1]; exact hx
    · rw [resolution_some hn] at hx
      rw [resolution_some h1]
      rcases List.mem_cons.1 hx with hx | hx
      · exact List.mem_cons.2 (.inl hx)
      · refine List.mem_cons.2 (.inr ?_)
        rw [List.map_append]
        exact List.mem_append.2 (.inl hx)
  intro k
  induction k with
  | zero =>
    intro i x hx
    cases hn : n (node 0 i) with
    | none => rw [resolution_none_zero hn] at hx; cases hx
    | some nd => exact hone 0 i nd hn x hx
  | succ k ih =>
    intro i x hx
    cases hn : n (node (k + 1) i) with
    | none =>
      have hn' : n' (node (k + 1) i) = none := by
        rw [h', if_neg, hn]
        · split <;> rfl
        · intro hc
          rw [← node_zero] at hc
          have := (node_inj hc).1
          omega
      rw [resolution_none_succ hn] at hx
      rw [resolution_none_succ hn']
      rcases List.mem_append.1 hx with hx | hx
      · exact List.mem_append.2 (.inl (ih _ _ hx))
      · exact List.mem_append.2 (.inr (ih _ _ hx))
    | some nd => exact hone _ i nd hn x hx

/-- Only the new member can be new in a resolution. -/
theorem resolution_add_new {n n' : Nat → Option Node} {K j : Nat} {leaf : LeafNode} (hj : j < 2 ^ 32)
    (h' : ∀ x, n' x = if x = 2 * j then some (.Leaf leaf)
      else if above K j x then Spec.listed (UInt32.ofNat j) (n x) else n x) :
    ∀ k i x, x ∈ resolution n' k i → x ∈ resolution n k i ∨ (x = 2 * j ∧ below k i j) := by
  intro k
  induction k with
  | zero =>
    intro i x hx
    by_cases hi : i = j
    · subst hi
      have h1 : n' (node 0 i) = some (.Leaf leaf) := by rw [h', if_pos (node_zero i)]
      rw [resolution_some h1] at hx
      rw [List.mem_singleton, node_zero] at hx
      exact .inr ⟨hx, by rw [below_div, Nat.pow_zero, Nat.div_one]⟩
    · have h1 : n' (node 0 i) = n (node 0 i) := by
        rw [h', if_neg (by rw [node_zero]; omega), if_neg (fun ha => above_ne_leaf ha i (node_zero i))]
      rw [resolution_congr (n := n') (n' := n) (fun y hy => ?_)] at hx
      · exact .inl hx
      · obtain ⟨l, b, rfl, hl, hb⟩ := hy
        obtain rfl : l = 0 := by omega
        simp only [Nat.sub_self, Nat.pow_zero, Nat.div_one] at hb
        subst hb
        exact h1
  | succ k ih =>
    intro i x hx
    have hne : node (k + 1) i ≠ 2 * j := by
      intro hc
      rw [← node_zero] at hc
      have := (node_inj hc).1
      omega
    have h1 := h' (node (k + 1) i)
    rw [if_neg hne] at h1
    cases hn : n (node (k + 1) i) with
    | none =>
      have hn' : n' (node (k + 1) i) = none := by rw [h1, hn]; split <;> rfl
      rw [resolution_none_succ hn'] at hx
      rw [resolution_none_succ hn]
      rcases List.mem_append.1 hx with hx | hx
      · rcases ih _ _ hx with h2 | ⟨h2, h3⟩
        · exact .inl (List.mem_append.2 (.inl h2))
        · exact .inr ⟨h2, by rw [below_div] at *; rw [← anc_div, h3]; omega⟩
      · rcases ih _ _ hx with h2 | ⟨h2, h3⟩
        · exact .inl (List.mem_append.2 (.inr h2))
        · exact .inr ⟨h2, by rw [below_div] at *; rw [← anc_div, h3]; omega⟩
    | some nd =>
      rw [hn] at h1
      by_cases ha : above K j (node (k + 1) i)
      · rw [if_pos ha] at h1
        cases nd with
        | Leaf l =>
          rw [resolution_some h1] at hx
          rw [resolution_some hn]
          exact .inl hx
        | Parent q =>
          rw [resolution_some h1] at hx
          rw [resolution_some hn]
          rcases List.mem_cons.1 hx with hx | hx
          · exact .inl (List.mem_cons.2 (.inl hx))
          · rw [List.map_append] at hx
            rcases List.mem_append.1 hx with hx | hx
            · exact .inl (List.mem_cons.2 (.inr hx))
            · simp only [List.map_cons, List.map_nil, List.mem_singleton] at hx
              rw [toNat_ofNat hj, node_zero] at hx
              exact .inr ⟨hx, (above_node.1 ha).2.2⟩
      · rw [if_neg ha] at h1
        rw [resolution_some h1] at hx
        rw [resolution_some hn]
        exact .inl hx

/-- The new member is in the resolution of every node above it. -/
theorem resolution_add_self {n n' : Nat → Option Node} {K j : Nat} {leaf : LeafNode} (hj : j < 2 ^ 32)
    (hin : ∀ k i l, n (node (k + 1) i) ≠ some (.Leaf l))
    (h' : ∀ x, n' x = if x = 2 * j then some (.Leaf leaf)
      else if above K j x then Spec.listed (UInt32.ofNat j) (n x) else n x) :
    ∀ k, k ≤ K → 2 * j ∈ resolution n' k (j / 2 ^ k) := by
  intro k
  induction k with
  | zero =>
    intro _
    rw [Nat.pow_zero, Nat.div_one, ← node_zero]
    exact resolution_self (by rw [h', if_pos (node_zero j)]; simp)
  | succ k ih =>
    intro hk
    have hne : node (k + 1) (j / 2 ^ (k + 1)) ≠ 2 * j := by
      intro hc
      rw [← node_zero] at hc
      have := (node_inj hc).1
      omega
    have h1 := h' (node (k + 1) (j / 2 ^ (k + 1)))
    rw [if_neg hne, if_pos (above_node.2 ⟨by omega, hk, below_div.2 rfl⟩)] at h1
    cases hn : n (node (k + 1) (j / 2 ^ (k + 1))) with
    | none =>
      rw [hn] at h1
      rw [resolution_none_succ h1]
      have h2 := ih (by omega)
      rcases siblingPos_cases (j / 2 ^ k) with ⟨he, _⟩ | ⟨he, _⟩ <;> rw [anc_div] at he
      · rw [← he]; exact List.mem_append.2 (.inl h2)
      · rw [← he]; exact List.mem_append.2 (.inr h2)
    | some nd =>
      rw [hn] at h1
      cases nd with
      | Leaf l => exact absurd hn (hin _ _ l)
      | Parent q =>
        rw [resolution_some h1]
        refine List.mem_cons.2 (.inr ?_)
        rw [List.map_append]
        refine List.mem_append.2 (.inr ?_)
        simp only [List.map_cons, List.map_nil, List.mem_singleton]
        rw [toNat_ofNat hj, node_zero]

theorem ofNat_toNat_eq {j : Nat} (hj : j < 2 ^ 32) (u : UInt32) : u = UInt32.ofNat j ↔ u.toNat = j := by
  constructor
  · rintro rfl; exact toNat_ofNat hj
  · intro h; rw [← h]; simp

/-- Taking the new member away again together with others gives the tree before without these others. -/
theorem without_add {n n' : Nat → Option Node} {K j : Nat} {leaf : LeafNode} (hj : j < 2 ^ 32)
    (hok : UnmergedMembers n) (hb : n (node 0 j) = none)
    (h' : ∀ x, n' x = if x = 2 * j then some (.Leaf leaf)
      else if above K j x then Spec.listed (UInt32.ofNat j) (n x) else n x) (us : List LeafIndex) (x : Nat) :
    without (us ++ [UInt32.ofNat j]) n' x = without us n x := by
  have hnot : ∀ y q, n y = some (.Parent q) → UInt32.ofNat j ∉ q.unmerged_leaves := by
    intro y q hy hu
    obtain ⟨k, i, rfl⟩ := node_surj y
    obtain ⟨_, l, hl⟩ := hok k i q hy _ hu
    rw [toNat_ofNat hj, hb] at hl
    cases hl
  have hfil : ∀ ws : List LeafIndex, UInt32.ofNat j ∉ ws →
      ws.filter (fun u => decide (u ∉ us ++ [UInt32.ofNat j])) = ws.filter (fun u => decide (u ∉ us)) := by
    intro ws hws
    apply List.filter_congr
    intro u hu
    have : u ≠ UInt32.ofNat j := fun hc => hws (hc ▸ hu)
    simp [this]
  by_cases hx : x = 2 * j
  · have h1 : without (us ++ [UInt32.ofNat j]) n' x = none := by
      unfold without
      rw [if_pos ⟨UInt32.ofNat j, by simp, by rw [toNat_ofNat hj, node_zero]; exact hx⟩]
    have h2 : without us n x = none := by
      unfold without
      rw [hx, ← node_zero, hb]
      split <;> rfl
    rw [h1, h2]
  · have hg : (∃ u ∈ us ++ [UInt32.ofNat j], x = node 0 u.toNat) ↔ ∃ u ∈ us, x = node 0 u.toNat := by
      constructor
      · rintro ⟨u, hu, hxu⟩
        rcases List.mem_append.1 hu with hu | hu
        · exact ⟨u, hu, hxu⟩
        · rw [List.mem_singleton] at hu
          rw [hu, toNat_ofNat hj, node_zero] at hxu
          exact absurd hxu hx
      · rintro ⟨u, hu, hxu⟩
        exact ⟨u, List.mem_append.2 (.inl hu), hxu⟩
    unfold without
    by_cases hgone : ∃ u ∈ us, x = node 0 u.toNat
    · rw [if_pos (hg.2 hgone), if_pos hgone]
    · rw [if_neg (fun h => hgone (hg.1 h)), if_neg hgone, h', if_neg hx]
      by_cases ha : above K j x
      · rw [if_pos ha]
        cases hn : n x with
        | none => rfl
        | some nd =>
          cases nd with
          | Leaf l => rfl
          | Parent q =>
            simp only [Spec.listed]
            rw [List.filter_append, hfil q.unmerged_leaves (hnot x q hn)]
            simp
      · rw [if_neg ha]
        cases hn : n x with
        | none => rfl
        | some nd =>
          cases nd with
          | Leaf l => rfl
          | Parent q =>
            simp only
            rw [hfil q.unmerged_leaves (hnot x q hn)]

/-- The nodes above a leaf are above it in every subtree they are in. -/
theorem inSubtree_above {K j k i x : Nat} (h : above K j x) (hx : inSubtree k i x) : below k i j := by
  obtain ⟨l, _, _, rfl⟩ := h
  obtain ⟨hl, hd⟩ := inSubtree_node.1 hx
  rw [below_div, ← hd, Nat.div_div_eq_div_mul, ← Nat.pow_add, show l + (k - l) = k by omega]

theorem inSubtree_leaf' {k i j : Nat} (h : inSubtree k i (2 * j)) : below k i j := by
  rw [← node_zero] at h; exact inSubtree_leaf.1 h

theorem below_child {k i c j : Nat} (hc : c / 2 = i) (h : below k c j) : below (k + 1) i j := by
  rw [below_div] at *
  rw [← anc_div, h, hc]

theorem hashInv_add {H : Bytes → Bytes} {n n' : Nat → Option Node} {past : Past} (hg : Good n)
    (h : HashInv H n past) {K j : Nat} {leaf : LeafNode} (hj : j < 2 ^ 32) (hlf : NotCommit leaf)
    (hb : n (node 0 j) = none)
    (hp : ∀ k i p, n (node k i) = some (.Parent p) → below k i j → k ≤ K)
    (h' : ∀ x, n' x = if x = 2 * j then some (.Leaf leaf)
      else if above K j x then Spec.listed (UInt32.ofNat j) (n x) else n x) : HashInv H n' past := by
  have hne : ∀ k i, node (k + 1) i ≠ 2 * j := by
    intro k i hc
    rw [← node_zero] at hc
    have := (node_inj hc).1
    omega
  have hocc : ∀ i, n (node 0 i) ≠ none → n' (node 0 i) ≠ none := by
    intro i hi
    rw [h', node_zero]
    split
    · simp
    · rw [if_neg (fun h => above_ne_leaf h i rfl), ← node_zero]; exact hi
  have hst : ∀ x, storedParentHash (n' x) = storedParentHash (n x) := by
    intro x
    rw [h']
    split
    · rename_i hx
      rw [hx, ← node_zero, hb]
      unfold storedParentHash
      dsimp only
      split
      · rename_i ph he; exact absurd he (hlf _)
      · rfl
    · split
      · exact storedParentHash_listed _ _
      · rfl
  have hpar : ∀ x p, n' x = some (.Parent p) → ∃ q, n x = some (.Parent q) ∧
      ((¬ above K j x ∧ p = q) ∨ (above K j x ∧ p = { q with unmerged_leaves := q.unmerged_leaves ++ [UInt32.ofNat j] })) := by
    intro x p hx
    rw [h'] at hx
    split at hx
    · cases hx
    · split at hx
      · rename_i ha
        cases hn : n x with
        | none => rw [hn] at hx; cases hx
        | some nd =>
          rw [hn] at hx
          cases nd with
          | Leaf l => cases hx
          | Parent q =>
            simp only [Spec.listed, Option.some.injEq, Node.Parent.injEq] at hx
            exact ⟨q, rfl, .inr ⟨ha, hx.symm⟩⟩
      · rename_i ha
        exact ⟨p, hx, .inl ⟨ha, rfl⟩⟩
  refine ⟨?_, ?_, ?_, ?_, ?_, ?_, h.inputs⟩
  · intro k i l hx
    rw [h', if_neg (hne k i)] at hx
    split at hx
    · cases hn : n (node (k + 1) i) with
      | none => rw [hn] at hx; cases hx
      | some nd =>
        rw [hn] at hx
        cases nd with
        | Leaf l => exact h.inner k i l hn
        | Parent q => cases hx
    · exact h.inner k i l hx
  · intro k i nd hx
    have hn : n (node (k + 1) i) ≠ none := by
      intro hc
      rw [h', if_neg (hne k i), hc] at hx
      split at hx <;> cases hx
    cases hn' : n (node (k + 1) i) with
    | none => exact absurd hn' hn
    | some nd' =>
      obtain ⟨⟨a, h1, h2⟩, ⟨b, h3, h4⟩⟩ := h.both k i nd' hn'
      exact ⟨⟨a, h1, hocc a h2⟩, ⟨b, h3, hocc b h4⟩⟩
  · intro k i p hx u hu
    obtain ⟨q, hq, hcase⟩ := hpar _ _ hx
    have hold : ∀ v ∈ q.unmerged_leaves, UnmergedListed n' k i v := by
      intro v hv
      obtain ⟨h1, h2⟩ := h.listed k i q hq v hv
      refine ⟨h1, fun m r hm1 hm2 hr => ?_⟩
      obtain ⟨r', hr', hc⟩ := hpar _ _ hr
      have := h2 m r' hm1 hm2 hr'
      rcases hc with ⟨_, rfl⟩ | ⟨_, rfl⟩
      · exact this
      · exact List.mem_append.2 (.inl this)
    rcases hcase with ⟨_, rfl⟩ | ⟨ha, rfl⟩
    · exact hold u hu
    · rcases List.mem_append.1 hu with hu | hu
      · exact hold u hu
      · rw [List.mem_singleton] at hu
        subst hu
        obtain ⟨hk1, hkK, hbj⟩ := above_node.1 ha
        refine ⟨by rw [toNat_ofNat hj]; exact hbj, fun m r hm1 hm2 hr => ?_⟩
        rw [toNat_ofNat hj] at hr
        obtain ⟨r', hr', hc⟩ := hpar _ _ hr
        rcases hc with ⟨hna, _⟩ | ⟨_, rfl⟩
        · exact absurd ⟨m, hm1, by omega, rfl⟩ hna
        · simp
  · intro k i p hx
    obtain ⟨q, hq, hcase⟩ := hpar _ _ hx
    obtain ⟨c, s, hcs, ho⟩ := h.sides k i q hq
    refine ⟨c, s, hcs, ?_⟩
    obtain ⟨hc2, hs2, _⟩ := sides_left hcs
    rcases hcase with ⟨hna, rfl⟩ | ⟨ha, rfl⟩
    · have hnb : ¬ below (k + 1) i j := by
        intro hc
        exact hna (above_node.2 ⟨by omega, hp _ _ _ hq hc, hc⟩)
      have hsame : ∀ x, inSubtree (k + 1) i x → n' x = n x := by
        intro x hx
        rw [h', if_neg (by rintro rfl; exact hnb (inSubtree_leaf' hx)),
          if_neg (fun ha => hnb (inSubtree_above ha hx))]
      exact oneSided_congr hg.ok (fun x hx => hsame x (hc2 ▸ inSubtree_half hx))
        (fun x hx => hsame x (hs2 ▸ inSubtree_half hx)) (fun _ hb => hb) ho
    · constructor
      · obtain ⟨x, hx, he, hr⟩ := ho.vouched
        have hnot : 2 * j ∉ resolution n k c := by
          intro hc
          have := (resolution_mem hg.ok hc).2
          rw [← node_zero, hb] at this
          exact this rfl
        refine ⟨x, resolution_add hb h' k c x hx, ?_, fun y => ?_⟩
        · rw [hst, he]
          unfold parentHashOver
          rw [treeHash_congr fun y _ => without_add hj hg.mem hb h' q.unmerged_leaves y]
          rfl
        · have hkK := (above_node.1 ha).2.1
          constructor
          · rintro ⟨hy, hyx⟩
            rcases resolution_add_new hj h' k c y hy with hy | ⟨hy, hbj⟩
            · obtain ⟨u, hu, h1, h2⟩ := (hr y).1 ⟨hy, hyx⟩
              exact ⟨u, List.mem_append.2 (.inl hu), h1, h2⟩
            · exact ⟨UInt32.ofNat j, by simp, by rw [toNat_ofNat hj]; exact hbj,
                by rw [toNat_ofNat hj, node_zero]; exact hy⟩
          · rintro ⟨u, hu, h1, h2⟩
            rcases List.mem_append.1 hu with hu | hu
            · obtain ⟨h3, h4⟩ := (hr y).2 ⟨u, hu, h1, h2⟩
              exact ⟨resolution_add hb h' k c y h3, h4⟩
            · rw [List.mem_singleton] at hu
              subst hu
              rw [toNat_ofNat hj] at h1 h2
              rw [node_zero] at h2
              subst h2
              rw [← below_div.1 h1]
              exact ⟨resolution_add_self hj h.inner h' k (by omega), fun hc => hnot (hc ▸ hx)⟩
      · intro x hh hx he
        rw [hst] at he
        exact ho.other x hh hx he
  · intro x p hx
    obtain ⟨q, hq, hcase⟩ := hpar _ _ hx
    have := h.short x q hq
    rcases hcase with ⟨_, rfl⟩ | ⟨_, rfl⟩
    · exact this
    · exact this
  · intro x hh he
    rw [hst] at he
    exact h.stored x hh he

/-! ### updating and removing a member -/

/-- Nodes become blank, or a leaf without parent hash; below the parents that stay, nothing changes. -/
theorem hashInv_blank {H : Bytes → Bytes} {n n' : Nat → Option Node} {past : Past} (hg : Good n)
    (h : HashInv H n past)
    (h' : ∀ x, n' x = n x ∨ n' x = none ∨ ∃ i leaf, x = node 0 i ∧ NotCommit leaf ∧ n' x = some (.Leaf leaf))
    (hsub : ∀ k i p, n' (node (k + 1) i) = some (.Parent p) → ∀ x, inSubtree (k + 1) i x → n' x = n x) :
    HashInv H n' past := by
  have hpar : ∀ x p, n' x = some (.Parent p) → n x = some (.Parent p) := by
    intro x p hx
    rcases h' x with h1 | h1 | ⟨_, _, _, _, h1⟩
    · rw [← h1]; exact hx
    · rw [h1] at hx; cases hx
    · rw [h1] at hx; cases hx
  have hin : ∀ k i l, n' (node (k + 1) i) ≠ some (.Leaf l) := by
    intro k i l hx
    rcases h' (node (k + 1) i) with h1 | h1 | ⟨a, _, h2, _⟩
    · rw [h1] at hx; exact h.inner k i l hx
    · rw [h1] at hx; cases hx
    · have := (node_inj h2).1
      omega
  refine ⟨hin, ?_, ?_, ?_, fun x p hx => h.short x p (hpar x p hx), ?_, h.inputs⟩
  · intro k i nd hx
    cases nd with
    | Leaf l => exact absurd hx (hin k i l)
    | Parent p =>
      obtain ⟨⟨a, h1, h2⟩, ⟨b, h3, h4⟩⟩ := h.both k i _ (hpar _ _ hx)
      refine ⟨⟨a, h1, ?_⟩, ⟨b, h3, ?_⟩⟩
      · rw [hsub k i p hx _ (inSubtree_left (inSubtree_leaf.2 h1))]; exact h2
      · rw [hsub k i p hx _ (inSubtree_right (inSubtree_leaf.2 h3))]; exact h4
  · intro k i p hx u hu
    have hk : k ≠ 0 := by rintro rfl; exact hg.leaf i p (hpar _ _ hx)
    obtain ⟨k, rfl⟩ : ∃ m, k = m + 1 := ⟨k - 1, by omega⟩
    obtain ⟨h1, h2⟩ := h.listed (k + 1) i p (hpar _ _ hx) u hu
    exact ⟨h1, fun m q hm1 hm2 hq => h2 m q hm1 hm2 (hpar _ _ hq)⟩
  · intro k i p hx
    obtain ⟨c, s, hcs, ho⟩ := h.sides k i p (hpar _ _ hx)
    obtain ⟨hc2, hs2, _⟩ := sides_left hcs
    exact ⟨c, s, hcs, oneSided_congr hg.ok (fun x hx' => hsub k i p hx x (hc2 ▸ inSubtree_half hx'))
      (fun x hx' => hsub k i p hx x (hs2 ▸ inSubtree_half hx')) (fun _ hb => hb) ho⟩
  · intro x hh he
    rcases h' x with h1 | h1 | ⟨_, leaf, _, hlf, h1⟩
    · rw [h1] at he; exact h.stored x hh he
    · rw [h1] at he; cases he
    · rw [h1] at he
      unfold storedParentHash at he
      dsimp only at he
      split at he
      · rename_i ph hc; exact absurd hc (hlf _)
      · cases he

theorem hashInv_update {H : Bytes → Bytes} {n n' : Nat → Option Node} {past : Past} (hg : Good n)
    (h : HashInv H n past) {K li : Nat} {leaf : LeafNode} (hlf : NotCommit leaf)
    (hp : ∀ k i p, n (node k i) = some (.Parent p) → below k i li → k ≤ K)
    (h' : ∀ x, n' x = if x = 2 * li then some (.Leaf leaf) else if above K li x then none else n x) :
    HashInv H n' past := by
  refine hashInv_blank hg h (fun x => ?_) ?_
  · rw [h']
    split
    · rename_i hx
      exact .inr (.inr ⟨li, leaf, by rw [node_zero]; exact hx, hlf, rfl⟩)
    · split
      · exact .inr (.inl rfl)
      · exact .inl rfl
  · intro k i p hx x hs
    rw [h'] at hx
    split at hx
    · cases hx
    split at hx
    · cases hx
    rename_i hna
    have hnb : ¬ below (k + 1) i li := fun hc => hna (above_node.2 ⟨by omega, hp _ _ _ hx hc, hc⟩)
    rw [h', if_neg (by rintro rfl; exact hnb (inSubtree_leaf' hs)), if_neg (fun ha => hnb (inSubtree_above ha hs))]

/-- With a member below `2 ^ m` in the right half of a subtree, all of the subtree is left of `2 ^ (m + 1)`. -/
theorem subtree_left {k i v m x : Nat} (hv : below k (2 * i + 1) v) (hvm : v < 2 ^ m)
    (hx : inSubtree (k + 1) i x) : x < 2 ^ (m + 1) := by
  have hkm : k < m := by
    apply Decidable.byContradiction
    intro hc
    have h1 : 2 ^ m ≤ 2 ^ k := Nat.pow_le_pow_right (by omega) (by omega)
    have h2 := hv.1
    have h3 : 2 ^ k ≤ (2 * i + 1) * 2 ^ k := Nat.le_mul_of_pos_left _ (by omega)
    omega
  have hbi : v / 2 ^ (k + 1) = i := below_div.1 (below_child (by omega) hv)
  have hroot : inSubtree m 0 (node (k + 1) i) := by
    refine inSubtree_node.2 ⟨by omega, ?_⟩
    rw [← hbi, Nat.div_div_eq_div_mul, ← Nat.pow_add, show k + 1 + (m - (k + 1)) = m by omega]
    exact Nat.div_eq_of_lt hvm
  have hx' := inSubtree_trans hroot hx
  obtain ⟨l, j, rfl, hl, hj⟩ := hx'
  have h1 : j < 2 ^ (m - l) := by
    apply Decidable.byContradiction
    intro hc
    have := (Nat.le_div_iff_mul_le (Nat.two_pow_pos (m - l))).2 (show 1 * 2 ^ (m - l) ≤ j by omega)
    omega
  have h2 := node_add_one l j
  have h3 : 2 ^ (m + 1) = 2 ^ l * 2 ^ (m - l + 1) := by rw [← Nat.pow_add]; congr 1; omega
  have h4 : 2 ^ l * (2 * j + 1) ≤ 2 ^ l * 2 ^ (m - l + 1) := by
    apply Nat.mul_le_mul_left
    rw [Nat.pow_succ]; omega
  have := Nat.two_pow_pos l
  omega

theorem hashInv_remove {H : Bytes → Bytes} {n n' : Nat → Option Node} {past : Past} (hg : Good n)
    (h : HashInv H n past) {K li c : Nat} (hc2 : c = 0 ∨ ∃ m, c = 2 ^ (m + 1))
    (h' : ∀ x, n' x = if x = 2 * li ∨ above K li x ∨ c ≤ x then none else n x)
    (hc : ∀ i, c ≤ 2 * i → i ≠ li → n (2 * i) = none)
    (hp : ∀ k i p, n (node k i) = some (.Parent p) → below k i li → k ≤ K) : HashInv H n' past := by
  refine hashInv_blank hg h (fun x => ?_) ?_
  · rw [h']
    split
    · exact .inr (.inl rfl)
    · exact .inl rfl
  · intro k i p hx x hs
    rw [h'] at hx
    split at hx
    · cases hx
    rename_i hnot
    have hnb : ¬ below (k + 1) i li := fun hb =>
      hnot (.inr (.inl (above_node.2 ⟨by omega, hp _ _ _ hx hb, hb⟩)))
    obtain ⟨_, ⟨v, hv1, hv2⟩⟩ := h.both k i _ hx
    have hvl : v ≠ li := by rintro rfl; exact hnb (below_child (by omega) hv1)
    have hvc : 2 * v < c := by
      apply Decidable.byContradiction
      intro hcc
      rw [node_zero] at hv2
      exact hv2 (hc v (by omega) hvl)
    have hxc : x < c := by
      rcases hc2 with rfl | ⟨m, rfl⟩
      · omega
      · exact subtree_left hv1 (by rw [Nat.pow_succ] at hvc; omega) hs
    rw [h', if_neg]
    rintro (rfl | ha | hcx)
    · exact hnb (inSubtree_leaf' hs)
    · exact hnb (inSubtree_above ha hs)
    · omega

/-! ### merging a path -/

/-- Below blank ancestors, the first one that is not blank is in the resolution. -/
theorem anc_resolution {n : Nat → Option Node} {j a : Nat} (hn : n (anc j a) ≠ none) :
    ∀ d, (∀ c, a < c → c ≤ a + d → n (anc j c) = none) → anc j a ∈ resolution n (a + d) (j / 2 ^ (a + d)) := by
  intro d
  induction d with
  | zero => intro _; exact resolution_self hn
  | succ d ih =>
    intro h
    have h1 := ih fun c hc1 hc2 => h c hc1 (by omega)
    have h2 := h (a + d + 1) (by omega) (by omega)
    unfold anc at h2
    rw [show a + (d + 1) = a + d + 1 by omega, resolution_none_succ h2, ← anc_div]
    rcases siblingPos_cases (j / 2 ^ (a + d)) with ⟨he, _⟩ | ⟨he, _⟩
    · rw [← he]; exact List.mem_append.2 (.inl h1)
    · rw [← he]; exact List.mem_append.2 (.inr h1)

/-- If nothing is on the other side of the blank ancestors, it is the only one there. -/
theorem anc_resolution_only {n : Nat → Option Node} {j a : Nat} {nd : Node} (hn : n (anc j a) = some nd)
    (hun : ∀ p, nd = .Parent p → p.unmerged_leaves = []) :
    ∀ d, (∀ c, a < c → c ≤ a + d → n (anc j c) = none ∧ resolution n (c - 1) (sib j (c - 1)) = []) →
      ∀ y ∈ resolution n (a + d) (j / 2 ^ (a + d)), y = anc j a := by
  intro d
  induction d with
  | zero =>
    intro _ y hy
    unfold anc at hn
    rw [Nat.add_zero, resolution_some hn] at hy
    cases nd with
    | Leaf l => exact List.mem_singleton.1 hy
    | Parent p => 
      dsimp only at hy
      rw [hun p rfl] at hy
      exact List.mem_singleton.1 hy
  | succ d ih =>
    intro h y hy
    have h1 := ih (fun c hc1 hc2 => h c hc1 (by omega)) y
    obtain ⟨h2, h3⟩ := h (a + d + 1) (by omega) (by omega)
    unfold anc at h2
    rw [show a + (d + 1) = a + d + 1 by omega, resolution_none_succ h2, ← anc_div] at hy
    rw [show a + d + 1 - 1 = a + d by omega] at h3
    unfold sib at h3
    rcases siblingPos_cases (j / 2 ^ (a + d)) with ⟨he, hf⟩ | ⟨he, hf⟩
    · rw [hf] at h3
      rw [h3, List.append_nil, ← he] at hy
      exact h1 hy
    · rw [hf] at h3
      rw [h3, List.nil_append, ← he] at hy
      exact h1 hy

/-- The next one down the path that is not blank. -/
theorem nextDown {n : Nat → Option Node} {K j b : Nat} (h0 : n (anc j 0) ≠ none) (hb : 1 ≤ b) (hbK : b ≤ K)
    (hn : n (anc j b) ≠ none) : ∃ a, NextUp n K j a b ∧ n (anc j a) ≠ none := by
  have : ∀ d, d < b → ∃ a, a ≤ d ∧ n (anc j a) ≠ none ∧ ∀ c, a < c → c ≤ d → n (anc j c) = none := by
    intro d
    induction d with
    | zero => intro _; exact ⟨0, by omega, h0, fun c h1 h2 => by omega⟩
    | succ d ih =>
      intro hd
      by_cases hdn : n (anc j (d + 1)) = none
      · obtain ⟨a, h1, h2, h3⟩ := ih (by omega)
        refine ⟨a, by omega, h2, fun c hc1 hc2 => ?_⟩
        by_cases hc : c = d + 1
        · subst hc; exact hdn
        · exact h3 c hc1 (by omega)
      · exact ⟨d + 1, by omega, hdn, fun c h1 h2 => by omega⟩
  obtain ⟨a, h1, h2, h3⟩ := this (b - 1) (by omega)
  exact ⟨a, ⟨by omega, hbK, hn, fun c hc1 hc2 => h3 c hc1 (by omega)⟩, h2⟩

theorem nextUp_unique {n : Nat → Option Node} {K j a b c : Nat} (h : NextUp n K j a b) (h' : NextUp n K j a c) :
    b = c := by
  obtain ⟨h1, _, h3, h4⟩ := h
  obtain ⟨g1, _, g3, g4⟩ := h'
  rcases Nat.lt_trichotomy b c with hlt | he | hlt
  · exact absurd (g4 b h1 hlt) h3
  · exact he
  · exact absurd (h4 c g1 hlt) g3

theorem mem_pathInputs {H : Bytes → Bytes} {n : Nat → Option Node} {j k : Nat} {q : ParentNode} (hk : k < 32)
    (hq : n (anc j (k + 1)) = some (.Parent q)) :
    (parentHashEnc q (treeHash H n k (sib j k))).bytes ∈ pathInputs H n j := by
  unfold pathInputs
  rw [List.mem_filterMap]
  refine ⟨k, List.mem_range.2 hk, ?_⟩
  rw [hq]; rfl

/-- What the proofs use of a merged path. -/
structure MergedPath (H : Bytes → Bytes) (n n' : Nat → Option Node) (K j : Nat) (path : UpdatePath) : Prop where
  height : K < 32
  leaf : n' (node 0 j) = some (.Leaf path.leaf_node)
  out : ∀ x, ¬ above K j x → x ≠ node 0 j → n' x = n x
  on : ∀ k nd, 1 ≤ k → k ≤ K → n' (anc j k) = some nd → k ∈ filteredLevels n K j ∧
    ∃ p, nd = .Parent p ∧ p.unmerged_leaves = [] ∧ p.encryption_key ∈ path.nodes.map (·.encryption_key)
  all : ∀ k ∈ filteredLevels n K j, n' (anc j k) ≠ none
  up : ∀ a p b q, 1 ≤ a → n' (anc j a) = some (.Parent p) → NextUp n' K j a b →
      n' (anc j b) = some (.Parent q) → p.parent_hash = parentHash H n' j b q
  top : ∀ a p, 1 ≤ a → a ≤ K → n' (anc j a) = some (.Parent p) →
      (∀ c, a < c → c ≤ K → n' (anc j c) = none) → p.parent_hash = []
  first : ∃ b q, NextUp n' K j 0 b ∧ n' (anc j b) = some (.Parent q) ∧
      path.leaf_node.payload.leaf_node_source = .Commit (parentHash H n' j b q)

theorem exists_nextUp {n : Nat → Option Node} {K j : Nat} (a : Nat) :
    (∃ b, NextUp n K j a b) ∨ ∀ c, a < c → c ≤ K → n (anc j c) = none := by
  have : ∀ d, (∃ b, a < b ∧ b ≤ a + d ∧ n (anc j b) ≠ none ∧ ∀ c, a < c → c < b → n (anc j c) = none) ∨
      ∀ c, a < c → c ≤ a + d → n (anc j c) = none := by
    intro d
    induction d with
    | zero => exact .inr fun c h1 h2 => by omega
    | succ d ih =>
      rcases ih with ⟨b, h1, h2, h3⟩ | h
      · exact .inl ⟨b, h1, by omega, h3⟩
      · by_cases hd : n (anc j (a + d + 1)) = none
        · right
          intro c h1 h2
          by_cases hc : c = a + d + 1
          · subst hc; exact hd
          · exact h c h1 (by omega)
        · exact .inl ⟨a + d + 1, by omega, by omega, hd, fun c h1 h2 => h c h1 (by omega)⟩
  rcases this (K - a) with ⟨b, h1, h2, h3, h4⟩ | h
  · exact .inl ⟨b, h1, by omega, h3, h4⟩
  · exact .inr fun c h1 h2 => h c h1 (by omega)

theorem used_below {n : Nat → Option Node} (hboth : BothUsed n) {k i x : Nat}
    (hx : inSubtree k i x) (hn : n x ≠ none) : ∃ v, below k i v ∧ n (node 0 v) ≠ none := by
  obtain ⟨l, b, rfl⟩ := node_surj x
  cases l with
  | zero => exact ⟨b, inSubtree_leaf.1 hx, hn⟩
  | succ l =>
    cases hg : n (node (l + 1) b) with
    | none => exact absurd hg hn
    | some nd =>
      obtain ⟨⟨v, h1, h2⟩, _⟩ := hboth l b nd hg
      exact ⟨v, inSubtree_leaf.1 (inSubtree_trans hx (inSubtree_left (inSubtree_leaf.2 h1))), h2⟩

theorem hashInv_merge {H : Bytes → Bytes} {n n' : Nat → Option Node} {past : Past} (hg : Good n)
    (h : HashInv H n past) {K j : Nat} {path : UpdatePath} (hocc : n (node 0 j) ≠ none)
    (hs : ∀ b, (H b).length < 2 ^ 30)
    (hfresh : ∀ m ∈ path.nodes, m.encryption_key ∉ past.keys ∧ m.encryption_key.length < 2 ^ 30)
    (hp : ∀ k i p, n (node k i) = some (.Parent p) → below k i j → k ≤ K)
    (hm : MergedPath H n n' K j path) : HashInv H n' (past.merged H n' j path) := by
  have hkeys : ∀ key ∈ path.nodes.map (·.encryption_key), key ∉ past.keys ∧ key.length < 2 ^ 30 := by
    intro key hk
    obtain ⟨m, hm, rfl⟩ := List.mem_map.1 hk
    exact hfresh m hm
  have hin : ∀ b ∈ past.inputs, b ∈ (past.merged H n' j path).inputs :=
    fun b hb => List.mem_append.2 (.inr hb)
  have hnew : ∀ b ∈ pathInputs H n' j, b ∈ (past.merged H n' j path).inputs :=
    fun b hb => List.mem_append.2 (.inl hb)
  have hane : ∀ x, above K j x → x ≠ node 0 j := by
    intro x hx; rw [node_zero]; exact above_ne_leaf hx j
  have hnone : ∀ i, n' (node 0 i) = none ↔ n (node 0 i) = none := by
    intro i
    by_cases hi : i = j
    · subst hi
      rw [hm.leaf]
      constructor
      · intro hc; cases hc
      · intro hc; exact absurd hc hocc
    · rw [hm.out _ (fun ha => above_ne_leaf ha i (node_zero i)) (by rw [node_zero, node_zero]; omega)]
  -- a parent of the new tree is on the path, or nothing changed below it
  have hpar : ∀ k i p, n' (node (k + 1) i) = some (.Parent p) →
      (i = j / 2 ^ (k + 1) ∧ k + 1 ≤ K) ∨
      (n (node (k + 1) i) = some (.Parent p) ∧ ∀ x, inSubtree (k + 1) i x → n' x = n x) := by
    intro k i p hx
    by_cases ha : above K j (node (k + 1) i)
    · obtain ⟨_, h1, h2⟩ := above_node.1 ha
      exact .inl ⟨(below_div.1 h2).symm, h1⟩
    · right
      have hq : n (node (k + 1) i) = some (.Parent p) := by
        rw [← hm.out _ ha (fun hc => by have := (node_inj hc).1; omega)]; exact hx
      have hnb : ¬ below (k + 1) i j := fun hc => ha (above_node.2 ⟨by omega, hp _ _ _ hq hc, hc⟩)
      refine ⟨hq, fun x hs => hm.out x (fun ha => hnb (inSubtree_above ha hs)) ?_⟩
      rintro rfl
      exact hnb (inSubtree_leaf.1 hs)
  have hbk : ∀ b, 1 ≤ b → b ≤ K → ∃ k, b = k + 1 ∧ k < 32 := fun b h1 h2 => ⟨b - 1, by omega, by have := hm.height; omega⟩
  have hph : ∀ b q, 1 ≤ b → b ≤ K → n' (anc j b) = some (.Parent q) →
      ∃ c ∈ pathInputs H n' j, parentHash H n' j b q = H c := by
    intro b q h1 h2 hq
    obtain ⟨k, rfl, hk⟩ := hbk b h1 h2
    exact ⟨_, mem_pathInputs hk hq, rfl⟩
  have hstored : ∀ x hh, storedParentHash (n' x) = some hh →
      hh = [] ∨ ∃ b ∈ (past.merged H n' j path).inputs, hh = H b := by
    intro x hh he
    by_cases hx : x = node 0 j
    · subst hx
      obtain ⟨b, q, hnu, hq, hsrc⟩ := hm.first
      obtain ⟨c, hc, he2⟩ := hph b q hnu.1 hnu.2.1 hq
      rw [hm.leaf] at he
      unfold storedParentHash at he
      dsimp only at he
      rw [hsrc] at he
      injection he with he
      exact .inr ⟨c, hnew c hc, by rw [← he, he2]⟩
    · by_cases ha : above K j x
      · obtain ⟨a, h1, h2, rfl⟩ := above_anc.1 ha
        cases hnx : n' (anc j a) with
        | none => rw [hnx] at he; cases he
        | some nd =>
          obtain ⟨_, p, rfl, _, _⟩ := hm.on a nd h1 h2 hnx
          rw [hnx] at he
          injection he with he
          rcases exists_nextUp (n := n') (K := K) (j := j) a with ⟨b, hb⟩ | hno
          · cases hnb : n' (anc j b) with
            | none => exact absurd hnb hb.2.2.1
            | some nb =>
              obtain ⟨_, q, rfl, _, _⟩ := hm.on b nb (by have := hb.1; omega) hb.2.1 hnb
              obtain ⟨c, hc, he2⟩ := hph b q (by have := hb.1; omega) hb.2.1 hnb
              exact .inr ⟨c, hnew c hc, by rw [← he, hm.up a p b q h1 hnx hb hnb, he2]⟩
          · exact .inl (by rw [← he]; exact hm.top a p h1 h2 hnx hno)
      · rw [hm.out x ha hx] at he
        rcases h.stored x hh he with h1 | ⟨b, hb, h1⟩
        · exact .inl h1
        · exact .inr ⟨b, hin b hb, h1⟩
  have hshort : ∀ x p, n' x = some (.Parent p) → p.encryption_key.length < 2 ^ 30 := by
    intro x p hx
    by_cases hxj : x = node 0 j
    · subst hxj; rw [hm.leaf] at hx; cases hx
    by_cases ha : above K j x
    · obtain ⟨a, h1, h2, rfl⟩ := above_anc.1 ha
      obtain ⟨_, p', he, _, hk⟩ := hm.on a _ h1 h2 hx
      cases he
      exact (hkeys _ hk).2
    · rw [hm.out x ha hxj] at hx
      exact h.short x p hx
  have hth : ∀ k i, (treeHash H n' k i).length < 2 ^ 30 := by
    intro k i; cases k <;> (rw [treeHash]; exact hs _)
  refine ⟨?_, ?_, ?_, ?_, hshort, hstored, ?_⟩
  · intro k i l hx
    by_cases ha : above K j (node (k + 1) i)
    · obtain ⟨a, h1, h2, he⟩ := above_anc.1 ha
      rw [he] at hx
      obtain ⟨_, p, hc, _⟩ := hm.on a _ h1 h2 hx
      cases hc
    · rw [hm.out _ ha (fun hc => by have := (node_inj hc).1; omega)] at hx
      exact h.inner k i l hx
  · intro k i nd hx
    by_cases ha : above K j (node (k + 1) i)
    · obtain ⟨_, hkK, hb⟩ := above_node.1 ha
      have hi : i = j / 2 ^ (k + 1) := (below_div.1 hb).symm
      subst hi
      obtain ⟨hf, _⟩ := hm.on (k + 1) nd (by omega) hkK hx
      obtain ⟨_, _, hne⟩ := filteredLevels_mem.1 hf
      rw [show k + 1 - 1 = k by omega, Ne, resolution_empty_iff] at hne
      obtain ⟨x, hx1, hx2⟩ : ∃ x, inSubtree k (sib j k) x ∧ n x ≠ none := by
        apply Classical.byContradiction
        intro hc
        exact hne fun x hx => Decidable.byContradiction fun h => hc ⟨x, hx, h⟩
      obtain ⟨v, hv1, hv2⟩ := used_below h.both hx1 hx2
      have hvn : n' (node 0 v) ≠ none := by rw [Ne, hnone]; exact hv2
      have hjn : n' (node 0 j) ≠ none := by rw [Ne, hnone]; exact hocc
      have hjb : below k (j / 2 ^ k) j := below_div.2 rfl
      unfold sib at hv1
      rcases siblingPos_cases (j / 2 ^ k) with ⟨h1, h2⟩ | ⟨h1, h2⟩ <;> rw [anc_div] at h1 h2
      · rw [h2] at hv1; rw [h1] at hjb
        exact ⟨⟨j, hjb, hjn⟩, ⟨v, hv1, hvn⟩⟩
      · rw [h2] at hv1; rw [h1] at hjb
        exact ⟨⟨v, hv1, hvn⟩, ⟨j, hjb, hjn⟩⟩
    · rw [hm.out _ ha (fun hc => by have := (node_inj hc).1; omega)] at hx
      obtain ⟨⟨a, h1, h2⟩, ⟨b, h3, h4⟩⟩ := h.both k i nd hx
      exact ⟨⟨a, h1, by rw [Ne, hnone]; exact h2⟩, ⟨b, h3, by rw [Ne, hnone]; exact h4⟩⟩
  · intro k i p hx u hu
    by_cases hk : k = 0
    · subst hk
      exfalso
      by_cases hi : i = j
      · subst hi; rw [hm.leaf] at hx; cases hx
      · rw [hm.out _ (fun ha => above_ne_leaf ha i (node_zero i)) (by rw [node_zero, node_zero]; omega)] at hx
        exact hg.leaf i p hx
    obtain ⟨k, rfl⟩ : ∃ m, k = m + 1 := ⟨k - 1, by omega⟩
    rcases hpar k i p hx with ⟨rfl, hkK⟩ | ⟨hq, hsame⟩
    · obtain ⟨_, p', he, hun, _⟩ := hm.on (k + 1) _ (by omega) hkK hx
      cases he
      rw [hun] at hu; cases hu
    · obtain ⟨h1, h2⟩ := h.listed (k + 1) i p hq u hu
      refine ⟨h1, fun m q hm1 hm2 hqm => h2 m q hm1 hm2 ?_⟩
      rw [← hsame]
      · exact hqm
      · refine inSubtree_node.2 ⟨by omega, ?_⟩
        rw [Nat.div_div_eq_div_mul, ← Nat.pow_add, show m + (k + 1 - m) = k + 1 by omega]
        exact below_div.1 h1
  · intro k i p hx
    rcases hpar k i p hx with ⟨rfl, hkK⟩ | ⟨hq, hsame⟩
    · obtain ⟨_, p', he, hun, hkey⟩ := hm.on (k + 1) _ (by omega) hkK hx
      cases he
      refine ⟨j / 2 ^ k, sib j k, ?_, ?_, ?_⟩
      · have := siblingPos_cases (j / 2 ^ k)
        rw [anc_div] at this
        exact this
      · have h0 : n' (anc j 0) ≠ none := by rw [anc_zero, hm.leaf]; simp
        obtain ⟨a, hnu, hna⟩ := nextDown (b := k + 1) h0 (by omega) hkK (by unfold anc; rw [hx]; simp)
        have hres := anc_resolution (n := n') hna (k - a) (fun c h1 h2 => hnu.2.2.2 c h1 (by have := hnu.1; omega))
        rw [show a + (k - a) = k by have := hnu.1; omega] at hres
        have honly : ∀ y ∈ resolution n' k (j / 2 ^ k), y = anc j a := by
          cases hnx : n' (anc j a) with
          | none => exact absurd hnx hna
          | some nd =>
            have hl := anc_resolution_only (n := n') hnx (fun q hq => ?_) (k - a) (fun c h1 h2 => ?_)
            · rw [show a + (k - a) = k by have := hnu.1; omega] at hl
              exact hl
            · subst hq
              by_cases ha : a = 0
              · subst ha; rw [anc_zero, hm.leaf] at hnx; cases hnx
              · obtain ⟨_, q', he, hq', _⟩ := hm.on a _ (by omega) (by have := hnu.1; omega) hnx
                cases he; exact hq'
            · have hc := hnu.2.2.2 c h1 (by have := hnu.1; omega)
              refine ⟨hc, ?_⟩
              have hcf : c ∉ filteredLevels n K j := fun hf => hm.all c hf hc
              rw [resolution_congr (n := n') (n' := n) fun x hx =>
                hm.out x (fun ⟨l, _, _, he⟩ => sib_disjoint hx he) (by rw [← anc_zero]; exact sib_disjoint hx)]
              apply Decidable.byContradiction
              intro hne
              exact hcf (filteredLevels_mem.2 ⟨by omega, by have := hnu.1; omega, hne⟩)
        refine ⟨anc j a, hres, ?_, fun y => ⟨fun hy => absurd (honly y hy.1) hy.2, ?_⟩⟩
        rotate_left
        · rintro ⟨u, hu, _⟩
          rw [hun] at hu; cases hu
        have hov : parentHashOver H n' p k (sib j k) = parentHash H n' j (k + 1) p := by
          unfold parentHashOver parentHash
          rw [hun, without_nil, show k + 1 - 1 = k by omega]
        rw [hov]
        by_cases ha : a = 0
        · subst ha
          obtain ⟨b, q, hnb, hq, hsrc⟩ := hm.first
          have hbk := nextUp_unique hnb hnu
          subst hbk
          unfold anc at hq
          rw [hx] at hq
          cases hq
          rw [anc_zero, hm.leaf]
          unfold storedParentHash
          dsimp only
          rw [hsrc]
        · cases hnx : n' (anc j a) with
          | none => exact absurd hnx hna
          | some nd =>
            obtain ⟨_, q, rfl, _, _⟩ := hm.on a nd (by omega) (by have := hnu.1; omega) hnx
            show some q.parent_hash = _
            rw [hm.up a q (k + 1) p (by omega) hnx hnu hx]
      · intro x hh hxs he
        rw [hm.out x (fun ⟨l, _, _, hc⟩ => sib_disjoint hxs hc) (by rw [← anc_zero]; exact sib_disjoint hxs)] at he
        rcases h.stored x hh he with h1 | ⟨b, hb, h1⟩
        · exact .inl h1
        · refine .inr ⟨b, hin b hb, h1, fun sh hf heq => ?_⟩
          obtain ⟨q, sq, hfq, rfl, hkq⟩ := h.inputs b hb
          have := (parentHashEnc_inj hf hfq heq).1
          rw [this] at hkey
          exact (hkeys _ hkey).1 hkq
    · obtain ⟨c, s, hcs, ho⟩ := h.sides k i p hq
      obtain ⟨hc2, hs2, _⟩ := sides_left hcs
      exact ⟨c, s, hcs, oneSided_congr hg.ok (fun x hx' => hsame x (hc2 ▸ inSubtree_half hx'))
        (fun x hx' => hsame x (hs2 ▸ inSubtree_half hx')) hin ho⟩
  · intro b hb
    rcases List.mem_append.1 hb with hb | hb
    · unfold pathInputs at hb
      obtain ⟨k, _, he⟩ := List.mem_filterMap.1 hb
      rw [Option.map_eq_some_iff] at he
      obtain ⟨q, hq, rfl⟩ := he
      have hq' : n' (anc j (k + 1)) = some (.Parent q) := by
        unfold parentOf at hq
        split at hq
        · cases hq; assumption
        · cases hq
      have hkK : k + 1 ≤ K := by
        by_cases ha : above K j (anc j (k + 1))
        · obtain ⟨l, _, hl, he⟩ := ha
          have := anc_inj (j := j) he
          omega
        · rw [hm.out _ ha (by rw [← anc_zero]; intro hc; have := anc_inj hc; omega)] at hq'
          exact hp _ _ _ hq' (below_div.2 rfl)
      obtain ⟨_, q', he, _, hkey⟩ := hm.on (k + 1) _ (by omega) hkK hq'
      cases he
      refine ⟨q, _, ⟨⟨trivial, (hkeys _ hkey).2⟩, ⟨trivial, ?_⟩, ⟨trivial, hth _ _⟩⟩, rfl,
        List.mem_append.2 (.inl hkey)⟩
      rcases hstored (anc j (k + 1)) q.parent_hash (by rw [hq']; rfl) with h1 | ⟨b, _, h1⟩
      · rw [h1]; exact Nat.two_pow_pos 30
      · rw [h1]; exact hs b
    · obtain ⟨p, sh, h1, h2, h3⟩ := h.inputs b hb
      exact ⟨p, sh, h1, h2, List.mem_append.2 (.inr h3)⟩

end Rmls
