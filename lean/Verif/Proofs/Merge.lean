import Verif.Spec.Merge
import Verif.Proofs.TreeHash
/-
`filtered_direct_path` and `merge_update_path`.
-/
namespace Rmls
open Spec Spec.Enc

theorem siblingPos_ne (i : Nat) : siblingPos i ≠ i := by
  unfold siblingPos
  by_cases h : i % 2 = 0
  · rw [if_pos h]; omega
  · rw [if_neg h]; omega

theorem anc_div (j k : Nat) : j / 2 ^ k / 2 = j / 2 ^ (k + 1) := by
  rw [Nat.div_div_eq_div_mul, Nat.pow_succ]

theorem siblingPos_cases (i : Nat) :
    (i = 2 * (i / 2) ∧ siblingPos i = 2 * (i / 2) + 1) ∨ (i = 2 * (i / 2) + 1 ∧ siblingPos i = 2 * (i / 2)) := by
  unfold siblingPos
  by_cases h : i % 2 = 0
  · rw [if_pos h]; omega
  · rw [if_neg h]; omega

/-- Nothing in the subtree of a sibling of the path is on the path. -/
theorem sib_disjoint {j k x l : Nat} (h : inSubtree k (sib j k) x) : x ≠ anc j l := by
  rintro rfl
  unfold anc at h
  obtain ⟨hl, hj⟩ := inSubtree_node.1 h
  rw [Nat.div_div_eq_div_mul, ← Nat.pow_add, show l + (k - l) = k by omega] at hj
  exact siblingPos_ne _ hj.symm

theorem anc_zero (j : Nat) : anc j 0 = node 0 j := by unfold anc; simp
theorem above_anc {K j x : Nat} : above K j x ↔ ∃ k, 1 ≤ k ∧ k ≤ K ∧ x = anc j k := Iff.rfl
theorem anc_inj {j k l : Nat} (h : anc j k = anc j l) : k = l := (node_inj h).1

theorem resolution_congr {n n' : Nat → Option Node} :
    ∀ {k i}, (∀ x, inSubtree k i x → n x = n' x) → resolution n k i = resolution n' k i := by
  intro k
  induction k with
  | zero => intro i h; unfold resolution; rw [h _ (inSubtree_self 0 i)]
  | succ k ih =>
    intro i h
    rw [resolution, resolution, h _ (inSubtree_self (k + 1) i), ih fun x hx => h x (inSubtree_left hx),
      ih fun x hx => h x (inSubtree_right hx)]

theorem treeHash_congr {H : Bytes → Bytes} {n n' : Nat → Option Node} :
    ∀ {k i}, (∀ x, inSubtree k i x → n x = n' x) → treeHash H n k i = treeHash H n' k i := by
  intro k
  induction k with
  | zero => intro i h; unfold treeHash; rw [h _ (inSubtree_self 0 i)]
  | succ k ih =>
    intro i h
    rw [treeHash, treeHash, h _ (inSubtree_self (k + 1) i), ih fun x hx => h x (inSubtree_left hx),
      ih fun x hx => h x (inSubtree_right hx)]

theorem hashDefined_congr {H : Bytes → Bytes} {n n' : Nat → Option Node} :
    ∀ {k i}, (∀ x, inSubtree k i x → n x = n' x) → (HashDefined H n k i ↔ HashDefined H n' k i) := by
  intro k
  induction k with
  | zero => intro i h; unfold HashDefined; rw [h _ (inSubtree_self 0 i)]
  | succ k ih =>
    intro i h
    rw [HashDefined, HashDefined, h _ (inSubtree_self (k + 1) i), ih fun x hx => h x (inSubtree_left hx),
      ih fun x hx => h x (inSubtree_right hx), treeHash_congr fun x hx => h x (inSubtree_left hx),
      treeHash_congr fun x hx => h x (inSubtree_right hx)]

theorem filteredLevels_mem {nodes : Nat → Option Node} {K j k : Nat} :
    k ∈ filteredLevels nodes K j ↔ 1 ≤ k ∧ k ≤ K ∧ resolution nodes (k - 1) (sib j (k - 1)) ≠ [] := by
  unfold filteredLevels
  rw [List.mem_map]
  constructor
  · rintro ⟨l, hl, rfl⟩
    rw [List.mem_filter, List.mem_range] at hl
    refine ⟨by omega, by omega, ?_⟩
    have := hl.2
    simpa using this
  · rintro ⟨h1, h2, h3⟩
    refine ⟨k - 1, ?_, by omega⟩
    rw [List.mem_filter, List.mem_range]
    exact ⟨by omega, by simpa using h3⟩

theorem filteredLevels_sorted {nodes : Nat → Option Node} {K j : Nat} :
    (filteredLevels nodes K j).Pairwise (· < ·) := by
  unfold filteredLevels
  rw [List.pairwise_map]
  refine List.Pairwise.imp ?_ ((List.pairwise_lt_range (n := K)).filter _)
  intro a b h; omega

namespace RatchetTree

/-- The loop of `filtered_direct_path`, from level `k` up. -/
theorem filtered_loop {t : RatchetTree} {n j : Nat} (h0 : 0 < n) (hn : n ≤ 2 ^ 31)
    (hj : j < 2 ^ NumLeaves.height n) (hu : t.SmallUnmerged) :
    ∀ d k fuel path, k + d = NumLeaves.height n → d < fuel →
      walkUp n (fun path x p => do
        match ← NumLeaves.sibling n x with
        | none => .err .InvalidSibling
        | some s => do
          let r ← t.resolve s
          if r.isEmpty = false then pure (path ++ [p]) else pure path) fuel (anc j k) path =
      .ok (path ++ (((List.range' k d).filter fun k => !(resolution t.get k (sib j k)).isEmpty).map
        fun k => anc j (k + 1))) := by
  have hin : ∀ k, k ≤ NumLeaves.height n → NumLeaves.InTree (NumLeaves.height n) k (j / 2 ^ k) := by
    intro k hk
    refine ⟨hk, ?_⟩
    rw [Nat.div_lt_iff_lt_mul (Nat.two_pow_pos k), ← Nat.pow_add, Nat.sub_add_cancel hk]
    exact hj
  have hK := NumLeaves.height_lt h0 hn
  intro d
  induction d with
  | zero =>
    intro k fuel path hk hf
    obtain ⟨fuel, rfl⟩ : ∃ m, fuel = m + 1 := ⟨fuel - 1, by omega⟩
    unfold walkUp anc
    rw [NumLeaves.parent_inTree h0 hn (hin k (by omega)), if_pos (by omega), Res.ok_bind]
    simp
  | succ d ih =>
    intro k fuel path hk hf
    obtain ⟨fuel, rfl⟩ : ∃ m, fuel = m + 1 := ⟨fuel - 1, by omega⟩
    unfold walkUp
    have hp : NumLeaves.parent n (anc j k) = .ok (some (anc j (k + 1))) := by
      unfold anc
      rw [NumLeaves.parent_inTree h0 hn (hin k (by omega)), if_neg (by omega), anc_div]
    rw [hp, Res.ok_bind]
    dsimp only
    have hs : NumLeaves.sibling n (anc j k) = .ok (some (node k (sib j k))) := by
      unfold anc
      rw [NumLeaves.sibling_inTree h0 hn (hin k (by omega)), if_neg (by omega)]; rfl
    rw [hs, Res.ok_bind]
    dsimp only
    rw [resolve, resolveFuel_ok hu k 33 (sib j k) (by omega) (by omega), Res.ok_bind]
    rw [List.range'_succ, List.filter_cons]
    by_cases he : (resolution t.get k (sib j k)).isEmpty = false
    · rw [if_pos he, Res.pure_eq, Res.ok_bind, ih (k + 1) fuel _ (by omega) (by omega), if_pos (by rw [he]; rfl)]
      simp
    · rw [if_neg he, Res.pure_eq, Res.ok_bind, ih (k + 1) fuel _ (by omega) (by omega), if_neg (by simp at he; simp [he])]

theorem filtered_direct_path_eq {t : RatchetTree} {K j : Nat} (h0 : 0 < t.length) (hl : t.length < 4294967296)
    (hK : IsHeight t.num_leaves K) (hj : j < 2 ^ K) (hu : t.SmallUnmerged) :
    t.filtered_direct_path (node 0 j) = .ok ((filteredLevels t.get K j).map (anc j)) := by
  obtain ⟨a, b, c⟩ := num_leaves_bounds h0 hl
  have := isHeight_unique hK (isHeight_height a)
  subst this
  unfold filtered_direct_path
  rw [← anc_zero]
  refine Eq.trans (filtered_loop a b hj hu (NumLeaves.height t.num_leaves) 0 34 [] (by omega)
    (by have := NumLeaves.height_lt a b; omega)) ?_
  rw [List.nil_append, List.range_eq_range'.symm]
  unfold filteredLevels
  rw [List.map_map]
  rfl

/-- The loop of `filtered_direct_path`, from level `k` up, whatever the unmerged leaves are: the
result, or a panic. -/
theorem filtered_loop_or {t : RatchetTree} {n j : Nat} (h0 : 0 < n) (hn : n ≤ 2 ^ 31)
    (hj : j < 2 ^ NumLeaves.height n) :
    ∀ d k fuel path, k + d = NumLeaves.height n → d < fuel →
      walkUp n (fun path x p => do
        match ← NumLeaves.sibling n x with
        | none => .err .InvalidSibling
        | some s => do
          let r ← t.resolve s
          if r.isEmpty = false then pure (path ++ [p]) else pure path) fuel (anc j k) path =
      .ok (path ++ (((List.range' k d).filter fun k => !(resolution t.get k (sib j k)).isEmpty).map
        fun k => anc j (k + 1))) ∨
      walkUp n (fun path x p => do
        match ← NumLeaves.sibling n x with
        | none => .err .InvalidSibling
        | some s => do
          let r ← t.resolve s
          if r.isEmpty = false then pure (path ++ [p]) else pure path) fuel (anc j k) path = .fault .panic := by
  have hin : ∀ k, k ≤ NumLeaves.height n → NumLeaves.InTree (NumLeaves.height n) k (j / 2 ^ k) := by
    intro k hk
    refine ⟨hk, ?_⟩
    rw [Nat.div_lt_iff_lt_mul (Nat.two_pow_pos k), ← Nat.pow_add, Nat.sub_add_cancel hk]
    exact hj
  have hK := NumLeaves.height_lt h0 hn
  intro d
  induction d with
  | zero =>
    intro k fuel path hk hf
    obtain ⟨fuel, rfl⟩ : ∃ m, fuel = m + 1 := ⟨fuel - 1, by omega⟩
    unfold walkUp anc
    rw [NumLeaves.parent_inTree h0 hn (hin k (by omega)), if_pos (by omega), Res.ok_bind]
    exact .inl (by simp)
  | succ d ih =>
    intro k fuel path hk hf
    obtain ⟨fuel, rfl⟩ : ∃ m, fuel = m + 1 := ⟨fuel - 1, by omega⟩
    unfold walkUp
    have hp : NumLeaves.parent n (anc j k) = .ok (some (anc j (k + 1))) := by
      unfold anc
      rw [NumLeaves.parent_inTree h0 hn (hin k (by omega)), if_neg (by omega), anc_div]
    rw [hp, Res.ok_bind]
    dsimp only
    have hs : NumLeaves.sibling n (anc j k) = .ok (some (node k (sib j k))) := by
      unfold anc
      rw [NumLeaves.sibling_inTree h0 hn (hin k (by omega)), if_neg (by omega)]; rfl
    rw [hs, Res.ok_bind]
    dsimp only
    rw [resolve]
    rcases resolveFuel_or (t := t) k 33 (sib j k) (by omega) (by omega) with hr | hr
    · rw [hr, Res.ok_bind, List.range'_succ, List.filter_cons]
      by_cases he : (resolution t.get k (sib j k)).isEmpty = false
      · rw [if_pos he, Res.pure_eq, Res.ok_bind, if_pos (by rw [he]; rfl)]
        have := ih (k + 1) fuel (path ++ [anc j (k + 1)]) (by omega) (by omega)
        simpa using this
      · rw [if_neg he, Res.pure_eq, Res.ok_bind, if_neg (by simp at he; simp [he])]
        exact ih (k + 1) fuel _ (by omega) (by omega)
    · rw [hr]; exact .inr rfl

theorem filtered_direct_path_or {t : RatchetTree} {K j : Nat} (h0 : 0 < t.length) (hl : t.length < 4294967296)
    (hK : IsHeight t.num_leaves K) (hj : j < 2 ^ K) :
    t.filtered_direct_path (node 0 j) = .ok ((filteredLevels t.get K j).map (anc j)) ∨
      t.filtered_direct_path (node 0 j) = .fault .panic := by
  obtain ⟨a, b, c⟩ := num_leaves_bounds h0 hl
  have := isHeight_unique hK (isHeight_height a)
  subst this
  unfold filtered_direct_path
  rw [← anc_zero]
  have := filtered_loop_or (t := t) a b hj (NumLeaves.height t.num_leaves) 0 34 [] (by omega)
    (by have := NumLeaves.height_lt a b; omega)
  rw [List.nil_append, List.range_eq_range'.symm] at this
  unfold filteredLevels
  rw [List.map_map]
  exact this

/-! ### The parent hashes along the path -/

theorem parentHash_w (p : ParentNode) (h : Bytes) :
    Writes (ParentNode.serialize_parent_hash_input p.encryption_key p.parent_hash h) (parentHashEnc p h) :=
  (writes_opaque _).app ((writes_opaque _).app (writes_opaque _))

/-- The side of the copath chosen by the code. -/
theorem side_eq {K j k : Nat} (hk1 : 1 ≤ k) (hkK : k ≤ K) :
    (if node (k - 1) (2 * (j / 2 ^ k)) = node 0 j ∨ (pathOf K j).contains (node (k - 1) (2 * (j / 2 ^ k))) = true
      then node (k - 1) (2 * (j / 2 ^ k) + 1) else node (k - 1) (2 * (j / 2 ^ k))) =
      node (k - 1) (sib j (k - 1)) := by
  have hd : j / 2 ^ (k - 1) / 2 = j / 2 ^ k := by rw [anc_div, Nat.sub_add_cancel hk1]
  have hiff : (node (k - 1) (2 * (j / 2 ^ k)) = node 0 j ∨
      (pathOf K j).contains (node (k - 1) (2 * (j / 2 ^ k))) = true) ↔ j / 2 ^ (k - 1) = 2 * (j / 2 ^ k) := by
    rw [List.contains_iff_mem, mem_pathOf, above_anc]
    constructor
    · rintro (h | ⟨l, h1, h2, h3⟩)
      · have := node_inj h
        rw [this.1, this.2]; simp
      · unfold anc at h3
        have := node_inj h3
        rw [this.1, this.2]
    · intro h
      by_cases h1 : k = 1
      · left; subst h1; simp at h ⊢; rw [← h]
      · right; exact ⟨k - 1, by omega, by omega, by unfold anc; rw [h]⟩
  unfold sib
  rcases siblingPos_cases (j / 2 ^ (k - 1)) with ⟨h1, h2⟩ | ⟨h1, h2⟩
  · rw [hd] at h1 h2
    rw [if_pos (hiff.2 h1), h2]
  · rw [hd] at h1 h2
    rw [if_neg (by rw [hiff]; omega), h2]

theorem pathHashes_eq (P : CryptoProvider) (cs : CipherSuite) {t : RatchetTree} {K j k : Nat} {p : ParentNode}
    {prev : Option Bytes} (hk1 : 1 ≤ k) (hkK : k ≤ K) (hK : K < 32) (hp : t.get (anc j k) = some (.Parent p)) :
    pathHashes P cs t (node 0 j) (pathOf K j) (anc j k) prev = (do
      let h ← compute_tree_hash P cs t (node (k - 1) (sib j (k - 1))) []
      pure (prev, h)) := by
  unfold pathHashes
  rw [hp]
  dsimp only
  have hc : NodeIndex.children (anc j k) =
      .ok (some (node (k - 1) (2 * (j / 2 ^ k)), node (k - 1) (2 * (j / 2 ^ k) + 1))) := by
    obtain ⟨m, rfl⟩ : ∃ m, k = m + 1 := ⟨k - 1, by omega⟩
    exact NodeIndex.children_succ _ (by omega)
  rw [hc, Res.ok_bind]
  dsimp only
  rw [side_eq hk1 hkK]

/-- What the loop does on nodes that are parents, whatever the outcome: it changes parent hashes on the path
only. -/
theorem pathLoop_frame (P : CryptoProvider) (cs : CipherSuite) (s : Nat) (dp : List Nat) :
    ∀ (nis : List Nat) (prev : Option Bytes) (t : RatchetTree),
      (pathLoop P cs s dp nis prev t).1.length = t.length ∧
      ∀ x, (pathLoop P cs s dp nis prev t).1.get x = t.get x ∨
        x ∈ nis ∧ ∃ p q, t.get x = some (.Parent p) ∧
          (pathLoop P cs s dp nis prev t).1.get x = some (.Parent q) ∧ q.unmerged_leaves = p.unmerged_leaves ∧
          q.encryption_key = p.encryption_key := by
  intro nis
  induction nis with
  | nil => intro prev t; exact ⟨rfl, fun x => .inl rfl⟩
  | cons ni nis ih =>
    intro prev t
    unfold pathLoop
    cases hh : pathHashes P cs t s dp ni prev with
    | err e => exact ⟨rfl, fun x => .inl rfl⟩
    | fault f => exact ⟨rfl, fun x => .inl rfl⟩
    | ok r =>
      obtain ⟨nph, th⟩ := r
      dsimp only
      cases hg : t.get ni with
      | none =>
        dsimp only
        obtain ⟨h1, h2⟩ := ih prev t
        refine ⟨h1, fun x => ?_⟩
        rcases h2 x with h | ⟨h, h'⟩
        · exact .inl h
        · exact .inr ⟨List.mem_cons_of_mem _ h, h'⟩
      | some n =>
        cases n with
        | Leaf l =>
          dsimp only
          obtain ⟨h1, h2⟩ := ih prev t
          refine ⟨h1, fun x => ?_⟩
          rcases h2 x with h | ⟨h, h'⟩
          · exact .inl h
          · exact .inr ⟨List.mem_cons_of_mem _ h, h'⟩
        | Parent p =>
          dsimp only
          have hset : ∀ x, (t.set ni (some (.Parent { p with parent_hash := nph.getD [] }))).get x = t.get x ∨
              x = ni ∧ (t.set ni (some (.Parent { p with parent_hash := nph.getD [] }))).get x =
                some (.Parent { p with parent_hash := nph.getD [] }) := by
            intro x
            rw [get_set]
            by_cases hx : x = ni ∧ ni < t.length
            · rw [if_pos hx]; exact .inr ⟨hx.1, rfl⟩
            · rw [if_neg hx]; exact .inl rfl
          cases hc : ParentNode.compute_parent_hash P cs { p with parent_hash := nph.getD [] } th with
          | err e =>
            refine ⟨set_length .., fun x => ?_⟩
            rcases hset x with h | ⟨rfl, h⟩
            · exact .inl h
            · exact .inr ⟨List.mem_cons_self .., p, _, hg, h, rfl, rfl⟩
          | fault f =>
            refine ⟨set_length .., fun x => ?_⟩
            rcases hset x with h | ⟨rfl, h⟩
            · exact .inl h
            · exact .inr ⟨List.mem_cons_self .., p, _, hg, h, rfl, rfl⟩
          | ok h =>
            dsimp only
            obtain ⟨h1, h2⟩ := ih (some h) (t.set ni (some (.Parent { p with parent_hash := nph.getD [] })))
            refine ⟨by rw [h1, set_length], fun x => ?_⟩
            rcases hset x with h | ⟨rfl, h⟩
            · rcases h2 x with h3 | ⟨h3, a, b, h4, h5, h6⟩
              · left; exact h3.trans h
              · right; rw [h] at h4; exact ⟨List.mem_cons_of_mem _ h3, a, b, h4, h5, h6⟩
            · right
              refine ⟨List.mem_cons_self .., p, ?_⟩
              rcases h2 x with h3 | ⟨h3, a, b, h4, h5, h6⟩
              · exact ⟨{ p with parent_hash := nph.getD [] }, hg, h3.trans h, rfl, rfl⟩
              · rw [h] at h4
                cases h4
                exact ⟨b, hg, h5, h6.1, h6.2⟩

/-- The parents of the path from the top down, and the last parent hash. -/
def chainDown (H : Bytes → Bytes) (nodes : Nat → Option Node) (j : Nat) :
    List (Nat × Bytes) → Option Bytes → List (Nat × ParentNode) × Option Bytes
  | [], prev => ([], prev)
  | (k, key) :: ks, prev =>
    let r := chainDown H nodes j ks (some (parentHash H nodes j k ⟨key, prev.getD [], []⟩))
    ((k, ⟨key, prev.getD [], []⟩) :: r.1, r.2)

def ChainDefined (H : Bytes → Bytes) (nodes : Nat → Option Node) (j : Nat) :
    List (Nat × Bytes) → Option Bytes → Prop
  | [], _ => True
  | (k, key) :: ks, prev =>
    HashDefined H nodes (k - 1) (sib j (k - 1)) ∧
    (parentHashEnc ⟨key, prev.getD [], []⟩ (treeHash H nodes (k - 1) (sib j (k - 1)))).fits ∧
    ChainDefined H nodes j ks (some (parentHash H nodes j k ⟨key, prev.getD [], []⟩))

theorem chainDown_levels (H : Bytes → Bytes) (nodes : Nat → Option Node) (j : Nat) :
    ∀ ks prev, (chainDown H nodes j ks prev).1.map (fun r => (r.1, r.2.encryption_key)) = ks := by
  intro ks
  induction ks with
  | nil => intro prev; rfl
  | cons a ks ih => intro prev; obtain ⟨k, key⟩ := a; simp only [chainDown, List.map_cons, ih]

theorem pos_sib {K j k : Nat} (hk : k < K) (hK : K < 32) (hj : j < 2 ^ K) :
    (sib j k + 1) * 2 ^ (k + 1) ≤ 2 ^ 32 := by
  have h1 : j / 2 ^ (k + 1) < 2 ^ (K - (k + 1)) := by
    rw [Nat.div_lt_iff_lt_mul (Nat.two_pow_pos _), ← Nat.pow_add, Nat.sub_add_cancel (by omega)]
    exact hj
  have h2 : sib j k + 1 ≤ 2 ^ (K - k) := by
    unfold sib
    have : 2 ^ (K - k) = 2 * 2 ^ (K - (k + 1)) := by
      rw [show K - k = (K - (k + 1)) + 1 by omega, Nat.pow_succ, Nat.mul_comm]
    have hd := anc_div j k
    rcases siblingPos_cases (j / 2 ^ k) with ⟨_, h⟩ | ⟨_, h⟩ <;> omega
  refine Nat.le_trans (Nat.mul_le_mul_right _ h2) ?_
  rw [← Nat.pow_add]
  exact Nat.pow_le_pow_right (by omega) (by omega)

theorem pathLoop_eq {P : CryptoProvider} {cs : CipherSuite} {Hs : Hash} (hP : P.hash cs = .ok Hs)
    {nodes : Nat → Option Node} {K j : Nat} (hK : K < 32) (hj : j < 2 ^ K) :
    ∀ (ks : List (Nat × Bytes)) (prev : Option Bytes) (t : RatchetTree),
      (∀ r ∈ ks, 1 ≤ r.1 ∧ r.1 ≤ K ∧ ∃ ph, t.get (anc j r.1) = some (.Parent ⟨r.2, ph, []⟩)) →
      (ks.map (·.1)).Nodup →
      (∀ k x, inSubtree k (sib j k) x → t.get x = nodes x) →
      (ChainDefined Hs.digest nodes j ks prev ∧ ∃ t',
        pathLoop P cs (node 0 j) (pathOf K j) (ks.map fun r => anc j r.1) prev t =
          (t', .ok (chainDown Hs.digest nodes j ks prev).2) ∧
        t'.length = t.length ∧
        (∀ r ∈ (chainDown Hs.digest nodes j ks prev).1, t'.get (anc j r.1) = some (.Parent r.2)) ∧
        ∀ x, (∀ r ∈ ks, x ≠ anc j r.1) → t'.get x = t.get x) ∨
      (¬ ChainDefined Hs.digest nodes j ks prev ∧ ∃ t' e,
        pathLoop P cs (node 0 j) (pathOf K j) (ks.map fun r => anc j r.1) prev t = (t', .err e)) := by
  intro ks
  induction ks with
  | nil =>
    intro prev t _ _ _
    left
    exact ⟨trivial, t, rfl, rfl, fun r hr => by simp [chainDown] at hr, fun _ _ => rfl⟩
  | cons a ks ih =>
    obtain ⟨k, key⟩ := a
    intro prev t hks hnd hs
    obtain ⟨hk1, hkK, ph, hg⟩ := hks (k, key) (List.mem_cons_self ..)
    dsimp only at hk1 hkK hg
    rw [List.map_cons]
    unfold pathLoop ChainDefined chainDown
    rw [pathHashes_eq P cs hk1 hkK hK hg]
    have hth := treeHashFuel_eq hP t [] (k - 1) 33 (sib j (k - 1)) (by omega) (by omega)
      (pos_sib (by omega) hK hj)
    rw [without_nil, hashDefined_congr (hs (k - 1)), treeHash_congr (hs (k - 1))] at hth
    rcases hth with ⟨hd, hth⟩ | ⟨hd, e, hth⟩
    case inr =>
      right
      refine ⟨fun h => hd h.1, t, e, ?_⟩
      unfold compute_tree_hash
      rw [hth]; rfl
    unfold compute_tree_hash
    rw [hth, Res.ok_bind, Res.pure_eq]
    dsimp only
    rw [hg]
    dsimp only
    have hw := parentHash_w ⟨key, prev.getD [], []⟩ (treeHash Hs.digest nodes (k - 1) (sib j (k - 1)))
    by_cases hf : (parentHashEnc ⟨key, prev.getD [], []⟩
        (treeHash Hs.digest nodes (k - 1) (sib j (k - 1)))).fits
    case neg =>
      right
      rcases hw with ⟨h, _⟩ | ⟨_, hw | hw⟩
      · exact absurd h hf
      all_goals
        have hc : ∃ e, ParentNode.compute_parent_hash P cs ⟨key, prev.getD [], []⟩
            (treeHash Hs.digest nodes (k - 1) (sib j (k - 1))) = .err e := by
          unfold ParentNode.compute_parent_hash
          rw [hw]; exact ⟨_, rfl⟩
        obtain ⟨e, hc⟩ := hc
        rw [hc]
        exact ⟨fun h => hf h.2.1, _, e, rfl⟩
    have hc : ParentNode.compute_parent_hash P cs ⟨key, prev.getD [], []⟩
        (treeHash Hs.digest nodes (k - 1) (sib j (k - 1))) =
        .ok (parentHash Hs.digest nodes j k ⟨key, prev.getD [], []⟩) := by
      unfold ParentNode.compute_parent_hash
      rw [writes_ok hw hf, Res.ok_bind, hP]; rfl
    rw [hc]
    dsimp only
    rw [List.map_cons, List.nodup_cons] at hnd
    have hlt := lt_of_get hg
    have hne : ∀ r ∈ ks, anc j r.1 ≠ anc j k := by
      intro r hr h
      exact hnd.1 (List.mem_map.2 ⟨r, hr, anc_inj h⟩)
    have hgs : ∀ x, x ≠ anc j k →
        (t.set (anc j k) (some (.Parent ⟨key, prev.getD [], []⟩))).get x = t.get x := by
      intro x hx
      rw [get_set, if_neg (fun h => hx h.1)]
    have hgs' : (t.set (anc j k) (some (.Parent ⟨key, prev.getD [], []⟩))).get (anc j k) =
        some (.Parent ⟨key, prev.getD [], []⟩) := by
      rw [get_set, if_pos ⟨rfl, hlt⟩]
    rcases ih (some (parentHash Hs.digest nodes j k ⟨key, prev.getD [], []⟩))
        (t.set (anc j k) (some (.Parent ⟨key, prev.getD [], []⟩)))
        (fun r hr => by
          obtain ⟨h1, h2, ph', h3⟩ := hks r (List.mem_cons_of_mem _ hr)
          exact ⟨h1, h2, ph', by rw [hgs _ (hne r hr)]; exact h3⟩) hnd.2
        (fun l x hx => by rw [hgs _ (sib_disjoint hx)]; exact hs l x hx) with
      ⟨hcd, t', h1, h2, h3, h4⟩ | ⟨hcd, t', e, h1⟩
    · left
      refine ⟨⟨hd, hf, hcd⟩, t', h1, by rw [h2, set_length], ?_, ?_⟩
      · intro r hr
        rcases List.mem_cons.1 hr with rfl | hr
        · rw [h4 _ (fun r hr => (hne r hr).symm)]; exact hgs'
        · exact h3 r hr
      · intro x hx
        rw [h4 x (fun r hr => hx r (List.mem_cons_of_mem _ hr)), hgs x (hx _ (List.mem_cons_self ..))]
    · right
      exact ⟨fun h => hcd h.2.2, t', e, h1⟩

/-- How the parents of `chainDown` are linked. -/
theorem chainDown_links (H : Bytes → Bytes) (nodes : Nat → Option Node) (j : Nat) :
    ∀ ks prev, (ks.map (·.1)).Pairwise (· > ·) →
      (∀ r ∈ (chainDown H nodes j ks prev).1,
        (∃ s ∈ (chainDown H nodes j ks prev).1, r.1 < s.1 ∧
          (∀ q ∈ (chainDown H nodes j ks prev).1, r.1 < q.1 → s.1 ≤ q.1) ∧
          r.2.parent_hash = parentHash H nodes j s.1 s.2) ∨
        ((∀ q ∈ (chainDown H nodes j ks prev).1, q.1 ≤ r.1) ∧ r.2.parent_hash = prev.getD [])) ∧
      ((ks = [] ∧ (chainDown H nodes j ks prev).2 = prev) ∨
        ∃ s ∈ (chainDown H nodes j ks prev).1, (∀ q ∈ (chainDown H nodes j ks prev).1, s.1 ≤ q.1) ∧
          (chainDown H nodes j ks prev).2 = some (parentHash H nodes j s.1 s.2)) := by
  intro ks
  induction ks with
  | nil => intro prev _; exact ⟨fun r hr => by simp [chainDown] at hr, .inl ⟨rfl, rfl⟩⟩
  | cons a ks ih =>
    obtain ⟨k, key⟩ := a
    intro prev hs
    rw [List.map_cons, List.pairwise_cons] at hs
    have hlt : ∀ prev, ∀ q ∈ (chainDown H nodes j ks prev).1, q.1 < k := by
      intro prev q hq
      apply hs.1
      rw [← chainDown_levels H nodes j ks prev, List.map_map]
      exact List.mem_map.2 ⟨q, hq, rfl⟩
    obtain ⟨h1, h2⟩ := ih (some (parentHash H nodes j k ⟨key, prev.getD [], []⟩)) hs.2
    have hlt := hlt (some (parentHash H nodes j k ⟨key, prev.getD [], []⟩))
    have hemp : ks = [] →
        (chainDown H nodes j ks (some (parentHash H nodes j k ⟨key, prev.getD [], []⟩))).1 = [] := by
      rintro rfl; rfl
    unfold chainDown
    dsimp only
    generalize chainDown H nodes j ks (some (parentHash H nodes j k ⟨key, prev.getD [], []⟩)) = c at *
    constructor
    · intro r hr
      rcases List.mem_cons.1 hr with rfl | hr
      · right
        refine ⟨fun q hq => ?_, rfl⟩
        rcases List.mem_cons.1 hq with rfl | hq
        · exact Nat.le_refl _
        · exact Nat.le_of_lt (hlt q hq)
      · rcases h1 r hr with ⟨s, hs, h3, h4, h5⟩ | ⟨h3, h4⟩
        · left
          refine ⟨s, List.mem_cons_of_mem _ hs, h3, fun q hq hrq => ?_, h5⟩
          rcases List.mem_cons.1 hq with rfl | hq
          · exact Nat.le_of_lt (hlt s hs)
          · exact h4 q hq hrq
        · left
          refine ⟨_, List.mem_cons_self .., hlt r hr, fun q hq hrq => ?_, h4⟩
          rcases List.mem_cons.1 hq with rfl | hq
          · exact Nat.le_refl _
          · have := h3 q hq; omega
    · right
      rcases h2 with ⟨rfl, h2⟩ | ⟨s, hs, h3, h4⟩
      · refine ⟨_, List.mem_cons_self .., fun q hq => ?_, h2⟩
        rcases List.mem_cons.1 hq with rfl | hq
        · exact Nat.le_refl _
        · rw [hemp rfl] at hq; cases hq
      · refine ⟨s, List.mem_cons_of_mem _ hs, fun q hq => ?_, h4⟩
        rcases List.mem_cons.1 hq with rfl | hq
        · exact Nat.le_of_lt (hlt s hs)
        · exact h3 q hq

/-! ### The whole of `merge_update_path` -/

theorem setPath_length : ∀ (L : List (Nat × UpdatePathNode)) (t : RatchetTree), (t.setPath L).length = t.length := by
  intro L
  induction L with
  | nil => intro t; rfl
  | cons a L ih => intro t; obtain ⟨ni, n⟩ := a; rw [setPath, ih, set_length]

theorem setPath_get_not {x : Nat} : ∀ (L : List (Nat × UpdatePathNode)) (t : RatchetTree),
    (∀ r ∈ L, x ≠ r.1) → (t.setPath L).get x = t.get x := by
  intro L
  induction L with
  | nil => intro t _; rfl
  | cons a L ih =>
    intro t h
    obtain ⟨ni, n⟩ := a
    rw [setPath, ih _ fun r hr => h r (List.mem_cons_of_mem _ hr), get_set,
      if_neg fun hh => h _ (List.mem_cons_self ..) hh.1]

theorem setPath_get : ∀ (L : List (Nat × UpdatePathNode)) (t : RatchetTree), (L.map (·.1)).Nodup →
    ∀ r ∈ L, r.1 < t.length → (t.setPath L).get r.1 = some (.Parent ⟨r.2.encryption_key, [], []⟩) := by
  intro L
  induction L with
  | nil => intro t _ r hr; cases hr
  | cons a L ih =>
    intro t hnd r hr hl
    obtain ⟨ni, n⟩ := a
    rw [List.map_cons, List.nodup_cons] at hnd
    rw [setPath]
    rcases List.mem_cons.1 hr with rfl | hr
    · rw [setPath_get_not L _ (fun q hq h => hnd.1 (List.mem_map.2 ⟨q, hq, h.symm⟩)), get_set, if_pos ⟨rfl, hl⟩]
    · exact ih _ hnd.2 r hr (by rw [set_length]; exact hl)

/-- The levels and keys of an update path, topmost first. -/
def downList (ks : List Nat) (ns : List UpdatePathNode) : List (Nat × Bytes) :=
  ((ks.zip ns).map fun r => (r.1, r.2.encryption_key)).reverse

theorem downList_levels {ks : List Nat} {ns : List UpdatePathNode} (h : ks.length = ns.length) :
    (downList ks ns).map (·.1) = ks.reverse := by
  unfold downList
  rw [List.map_reverse, List.map_map]
  congr 1
  show (ks.zip ns).map Prod.fst = ks
  exact List.map_fst_zip (by omega)

theorem anc_lt {K j k : Nat} (hj : j < 2 ^ K) (hk : k ≤ K) : anc j k + 1 < 2 ^ (K + 1) := by
  unfold anc
  rw [node_add_one]
  have h1 : j / 2 ^ k < 2 ^ (K - k) := by
    rw [Nat.div_lt_iff_lt_mul (Nat.two_pow_pos _), ← Nat.pow_add, Nat.sub_add_cancel (by omega)]
    exact hj
  have h2 : 2 ^ (K + 1) = 2 ^ k * 2 ^ (K - k + 1) := by
    rw [← Nat.pow_add]; congr 1; omega
  rw [h2]
  apply Nat.mul_lt_mul_of_pos_left _ (Nat.two_pow_pos k)
  rw [Nat.pow_succ]; omega

/-- What a merge can leave at an ancestor `x` of leaf `j`: nothing, or on the filtered direct path a parent
without unmerged leaves. -/
def MergedAt (nodes : Nat → Option Node) (K j x : Nat) (v : Option Node) : Prop :=
  v = none ∨ (∃ k, k ∈ filteredLevels nodes K j ∧ x = anc j k) ∧ ∃ key ph, v = some (.Parent ⟨key, ph, []⟩)

/-- What holds of the tree whatever the outcome. -/
theorem merge_frame (P : CryptoProvider) (cs : CipherSuite) {t : RatchetTree} {K j : Nat} (path : UpdatePath)
    (h0 : 0 < t.length) (hl : t.length < 4294967296) (hK : IsHeight t.num_leaves K) (hj : j < 2 ^ K)
    (hu : t.SmallUnmerged) :
    (t.merge_update_path P cs j path).1.length = t.length ∧
    (∀ x, ¬ above K j x → x ≠ 2 * j → (t.merge_update_path P cs j path).1.get x = t.get x) ∧
    (∀ x, above K j x → MergedAt t.get K j x ((t.merge_update_path P cs j path).1.get x)) ∧
    ((t.merge_update_path P cs j path).1.get (2 * j) = t.get (2 * j) ∨
      (t.merge_update_path P cs j path).2 = .ok () ∧
      (t.merge_update_path P cs j path).1.get (2 * j) = some (.Leaf path.leaf_node)) := by
  obtain ⟨ha, hb, _⟩ := num_leaves_bounds h0 hl
  have hj31 : j < 2 ^ 31 := Nat.lt_of_lt_of_le hj (Nat.pow_le_pow_right (by omega) (hK.2 31 hb))
  have hdp : NumLeaves.direct_path t.num_leaves (2 * j) = .ok (pathOf K j) := direct_path_leaf ha hb hK hj
  unfold merge_update_path
  rw [node_index_eq (by omega)]
  dsimp only
  rw [hdp]
  dsimp only
  -- the properties to be shown, as a predicate of a tree
  have base : ∀ T : RatchetTree, T.length = t.length →
      (∀ x, ¬ above K j x → T.get x = t.get x) →
      (∀ x, above K j x → MergedAt t.get K j x (T.get x)) →
      T.length = t.length ∧ (∀ x, ¬ above K j x → x ≠ 2 * j → T.get x = t.get x) ∧
      (∀ x, above K j x → MergedAt t.get K j x (T.get x)) ∧
      T.get (2 * j) = t.get (2 * j) := by
    intro T h1 h2 h3
    exact ⟨h1, fun x hx _ => h2 x hx, h3, h2 _ fun h => above_ne_leaf h j rfl⟩
  generalize ht0 : (pathOf K j).foldl (fun t ni => t.set ni none) t = t0
  have g0 : ∀ x, t0.get x = if above K j x then none else t.get x := by
    intro x
    rw [← ht0, foldl_blank_get]
    by_cases h : above K j x
    · rw [if_pos (mem_pathOf.2 h), if_pos h]
    · rw [if_neg (fun hh => h (mem_pathOf.1 hh)), if_neg h]
  have l0 : t0.length = t.length := by rw [← ht0, foldl_blank_length]
  have b0 := base t0 l0 (fun x hx => by rw [g0, if_neg hx]) (fun x hx => .inl (by rw [g0, if_pos hx]))
  have n0 : t0.num_leaves = t.num_leaves := by unfold num_leaves; rw [l0]
  have u0 : t0.SmallUnmerged := by
    intro x p hx
    rw [g0] at hx
    by_cases h : above K j x
    · rw [if_pos h] at hx; cases hx
    · rw [if_neg h] at hx; exact hu x p hx
  have hfl : filteredLevels t0.get K j = filteredLevels t.get K j := by
    unfold filteredLevels
    congr 1
    apply List.filter_congr
    intro k _
    rw [resolution_congr]
    intro x hx
    rw [g0, if_neg]
    rintro ⟨l, _, _, h⟩
    exact sib_disjoint hx h
  have hf : t0.filtered_direct_path (2 * j) = .ok ((filteredLevels t.get K j).map (anc j)) := by
    rw [← node_zero, ← hfl]
    exact filtered_direct_path_eq (by omega) (by omega) (by rw [n0]; exact hK) hj u0
  rw [hf]
  dsimp only
  generalize hks : filteredLevels t.get K j = ks
  by_cases hlen : (ks.map (anc j)).length ≠ path.nodes.length
  · rw [if_pos hlen]
    exact ⟨b0.1, b0.2.1, b0.2.2.1, .inl b0.2.2.2⟩
  rw [if_neg hlen]
  have hsub : ∀ x ∈ ks.map (anc j), above K j x := by
    intro x hx
    obtain ⟨k, hk, rfl⟩ := List.mem_map.1 hx
    rw [← hks] at hk
    obtain ⟨h1, h2, _⟩ := filteredLevels_mem.1 hk
    exact ⟨k, h1, h2, rfl⟩
  generalize ht1 : t0.setPath ((ks.map (anc j)).zip path.nodes) = t1
  have hz : ∀ r ∈ (ks.map (anc j)).zip path.nodes, r.1 ∈ ks.map (anc j) := fun r hr => (List.of_mem_zip hr).1
  have l1 : t1.length = t.length := by rw [← ht1, setPath_length, l0]
  have g1 : ∀ x, ¬ above K j x → t1.get x = t.get x := by
    intro x hx
    rw [← ht1, setPath_get_not _ _ (fun r hr (h : x = r.1) => hx (by rw [h]; exact hsub _ (hz r hr))), g0, if_neg hx]
  have p1 : ∀ x, above K j x → MergedAt t.get K j x (t1.get x) := by
    have : ∀ (L : List (Nat × UpdatePathNode)) (T : RatchetTree), (∀ r ∈ L, r.1 ∈ ks.map (anc j)) →
        (∀ x, above K j x → MergedAt t.get K j x (T.get x)) →
        (∀ x, above K j x → MergedAt t.get K j x ((T.setPath L).get x)) := by
      intro L
      induction L with
      | nil => intro T _ h; exact h
      | cons a L ih =>
        intro T hL h
        obtain ⟨ni, n⟩ := a
        rw [setPath]
        apply ih _ fun r hr => hL r (List.mem_cons_of_mem _ hr)
        intro x hx
        rw [get_set]
        by_cases hc : x = ni ∧ ni < T.length
        · rw [if_pos hc]
          obtain ⟨k, hk, he⟩ := List.mem_map.1 (hL _ (List.mem_cons_self ..))
          exact .inr ⟨⟨k, by rw [hks]; exact hk, by rw [hc.1]; exact he.symm⟩, _, _, rfl⟩
        · rw [if_neg hc]; exact h x hx
    rw [← ht1]
    exact this _ _ hz (fun x hx => .inl (by rw [g0, if_pos hx]))
  obtain ⟨fl, fg⟩ := pathLoop_frame P cs (2 * j) (pathOf K j) (ks.map (anc j)).reverse none t1
  generalize pathLoop P cs (2 * j) (pathOf K j) (ks.map (anc j)).reverse none t1 = r at *
  obtain ⟨t2, res⟩ := r
  dsimp only at fl fg
  have b2 := base t2 (by rw [fl, l1])
    (fun x hx => by
      rcases fg x with h | ⟨h, _⟩
      · rw [h, g1 x hx]
      · exact absurd (hsub x (List.mem_reverse.1 h)) hx)
    (fun x hx => by
      rcases fg x with h | ⟨h, p, q, h1, h2, h3, _⟩
      · rw [h]; exact p1 x hx
      · right
        rcases p1 x hx with h4 | ⟨h5, key, ph, h4⟩
        · rw [h4] at h1; cases h1
        · rw [h4] at h1; cases h1
          obtain ⟨a, b, c⟩ := q
          dsimp only at h3
          subst h3
          exact ⟨h5, _, _, h2⟩)
  cases res with
  | err e => exact ⟨b2.1, b2.2.1, b2.2.2.1, .inl b2.2.2.2⟩
  | fault f => exact ⟨b2.1, b2.2.1, b2.2.2.1, .inl b2.2.2.2⟩
  | ok prev =>
    dsimp only
    cases hsrc : path.leaf_node.payload.leaf_node_source with
    | KeyPackage l => exact ⟨b2.1, b2.2.1, b2.2.2.1, .inl b2.2.2.2⟩
    | Update => exact ⟨b2.1, b2.2.1, b2.2.2.1, .inl b2.2.2.2⟩
    | Commit ph =>
      cases prev with
      | none => exact ⟨b2.1, b2.2.1, b2.2.2.1, .inl b2.2.2.2⟩
      | some h =>
        dsimp only
        by_cases hph : ph ≠ h
        · rw [if_pos hph]; exact ⟨b2.1, b2.2.1, b2.2.2.1, .inl b2.2.2.2⟩
        · rw [if_neg hph]
          have hgs : ∀ x, x ≠ 2 * j → (t2.set (2 * j) (some (.Leaf path.leaf_node))).get x = t2.get x := by
            intro x hx; rw [get_set, if_neg (fun h => hx h.1)]
          refine ⟨by rw [set_length, b2.1], fun x hx hxj => by rw [hgs x hxj, b2.2.1 x hx hxj],
            fun x hx => by rw [hgs x (above_ne_leaf hx j)]; exact b2.2.2.1 x hx, ?_⟩
          rw [get_set]
          by_cases hjl : 2 * j < t2.length
          · rw [if_pos ⟨rfl, hjl⟩]; exact .inr ⟨rfl, rfl⟩
          · rw [if_neg (fun h => hjl h.2)]; exact .inl b2.2.2.2

/-- The errors of hashing along a path. -/
def PathError (e : Error) : Prop :=
  e ∈ [.InvalidLeafNode, .InvalidParentNode, .InvalidChildren, .VarintExceeds30Bits, .OpaqueSizeExceedsMaximumValueOfU32]

private theorem levelLoop_err {x : Nat} {e : Error} : ∀ fuel l, NodeIndex.levelLoop x fuel l ≠ .err e := by
  intro fuel
  induction fuel with
  | zero => intro l h; cases h
  | succ fuel ih =>
    intro l h
    unfold NodeIndex.levelLoop shr32 add32 at h
    by_cases h1 : l < 32
    · rw [if_pos h1, Res.ok_bind] at h
      split at h
      · rw [if_pos (by omega), Res.ok_bind] at h; exact ih _ h
      · cases h
    · rw [if_neg h1] at h; cases h

private theorem level_err {x : Nat} {e : Error} : NodeIndex.level x ≠ .err e := by
  unfold NodeIndex.level
  split
  · nofun
  · exact levelLoop_err _ _

private theorem shl32_err {x s : Nat} {e : Error} : shl32 x s ≠ .err e := by
  unfold shl32; split <;> nofun

theorem children_err {x : Nat} {e : Error} : NodeIndex.children x ≠ .err e := by
  intro h
  unfold NodeIndex.children NodeIndex.left NodeIndex.right at h
  cases hl : NodeIndex.level x with
  | err y => exact level_err hl
  | fault f => rw [hl] at h; cases h
  | ok l =>
    rw [hl, Res.ok_bind, Res.ok_bind] at h
    by_cases h0 : l = 0
    · rw [if_pos h0] at h; cases h
    · rw [if_neg h0, if_neg h0] at h
      cases h1 : shl32 1 (l - 1) with
      | err y => exact shl32_err h1
      | fault f => rw [h1] at h; cases h
      | ok a =>
        cases h2 : shl32 3 (l - 1) with
        | err y => exact shl32_err h2
        | fault f => rw [h1, h2] at h; cases h
        | ok b => rw [h1, h2] at h; cases h

private theorem input_err {P : CryptoProvider} {cs : CipherSuite} {Hs : Hash} (hP : P.hash cs = .ok Hs) {w : Res Bytes}
    {s : Enc} (hw : Writes w s) {e : Error}
    (h : (do let input ← w; let h ← P.hash cs; pure (h.digest input) : Res Bytes) = .err e) : PathError e := by
  rcases hw with ⟨_, hw⟩ | ⟨_, hw | hw⟩
  · rw [hw, Res.ok_bind, hP] at h; cases h
  · rw [hw] at h; cases h; simp [PathError]
  · rw [hw] at h; cases h; simp [PathError]

theorem treeHashFuel_kind {P : CryptoProvider} {cs : CipherSuite} {Hs : Hash} (hP : P.hash cs = .ok Hs)
    {t : RatchetTree} {ex : List LeafIndex} {e : Error} :
    ∀ fuel x, treeHashFuel P cs t ex fuel x = .err e → PathError e := by
  intro fuel
  induction fuel with
  | zero => intro x h; cases h
  | succ fuel ih =>
    intro x h
    unfold treeHashFuel at h
    split at h
    · next li _ =>
      cases hl : hashLeaf (t.get x) (ex.contains (UInt32.ofNat li)) with
      | ok l => rw [hl, Res.ok_bind] at h; exact input_err hP (leafInput_w _ l) h
      | fault f => rw [hl] at h; cases h
      | err y =>
        rw [hl] at h
        cases h
        unfold hashLeaf at hl
        split at hl
        · split at hl
          · cases hl
          · split at hl <;> cases hl
            simp [PathError]
        · cases hl
    · cases hc : NodeIndex.children x with
      | err y => exact absurd hc children_err
      | fault f => rw [hc] at h; cases h
      | ok c =>
        rw [hc, Res.ok_bind] at h
        cases c with
        | none => cases h; simp [PathError]
        | some lr =>
          dsimp only at h
          cases ha : treeHashFuel P cs t ex fuel lr.1 with
          | err y => rw [ha] at h; cases h; exact ih _ ha
          | fault f => rw [ha] at h; cases h
          | ok a =>
            rw [ha, Res.ok_bind] at h
            cases hb : treeHashFuel P cs t ex fuel lr.2 with
            | err y => rw [hb] at h; cases h; exact ih _ hb
            | fault f => rw [hb] at h; cases h
            | ok b =>
              rw [hb, Res.ok_bind] at h
              cases hp : hashParent (t.get x) ex with
              | ok p => rw [hp, Res.ok_bind] at h; exact input_err hP (parentInput_w p a b) h
              | fault f => rw [hp] at h; cases h
              | err y =>
                rw [hp] at h
                cases h
                unfold hashParent at hp
                split at hp
                · split at hp <;> cases hp
                · cases hp; simp [PathError]
                · cases hp

theorem pathLoop_kind {P : CryptoProvider} {cs : CipherSuite} {Hs : Hash} (hP : P.hash cs = .ok Hs) {s : Nat}
    {dp : List Nat} {e : Error} : ∀ (nis : List Nat) (prev : Option Bytes) (t t2 : RatchetTree),
      pathLoop P cs s dp nis prev t = (t2, .err e) → PathError e := by
  intro nis
  induction nis with
  | nil => intro prev t t2 h; cases h
  | cons ni nis ih =>
    intro prev t t2 h
    unfold pathLoop at h
    split at h
    · next y hy =>
      cases h
      unfold pathHashes at hy
      split at hy
      · cases hc : NodeIndex.children ni with
        | err y => exact absurd hc children_err
        | fault f => rw [hc] at hy; cases hy
        | ok c =>
          rw [hc, Res.ok_bind] at hy
          cases c with
          | none => cases hy; simp [PathError]
          | some lr =>
            dsimp only at hy
            generalize (if lr.1 = s ∨ dp.contains lr.1 = true then lr.2 else lr.1) = c at hy
            cases ht : compute_tree_hash P cs t c [] with
            | err y => rw [ht] at hy; cases hy; exact treeHashFuel_kind hP _ _ ht
            | fault f => rw [ht] at hy; cases hy
            | ok a => rw [ht] at hy; cases hy
      · cases hy
    · cases h
    · split at h
      · dsimp only at h
        split at h
        · next y hy =>
          cases h
          exact input_err hP (parentHash_w _ _) hy
        · cases h
        · exact ih _ _ _ h
      · exact ih _ _ _ h

/-- The nodes of the filtered direct path of a leaf in the array are in the array. -/
theorem filtered_inside {t : RatchetTree} {K j k : Nat} (hj : 2 * j < t.length) (hk : k ∈ filteredLevels t.get K j) :
    anc j k < t.length := by
  obtain ⟨h1, _, h3⟩ := filteredLevels_mem.1 hk
  obtain ⟨x, hx, hn⟩ : ∃ x, inSubtree (k - 1) (sib j (k - 1)) x ∧ t.get x ≠ none := by
    apply Classical.byContradiction
    intro hc
    exact h3 (resolution_empty_iff.2 fun x hx => Decidable.byContradiction fun hn => hc ⟨x, hx, hn⟩)
  have hlt : x < t.length := by
    cases hg : t.get x with
    | none => exact absurd hg hn
    | some n => exact lt_of_get hg
  obtain ⟨m, rfl⟩ : ∃ m, k = m + 1 := ⟨k - 1, by omega⟩
  rw [Nat.add_sub_cancel] at hx
  have hanc : anc j (m + 1) + 1 = 2 ^ (m + 1) * (2 * (j / 2 ^ m / 2) + 1) := by
    unfold anc
    rw [node_add_one, Nat.pow_succ, ← Nat.div_div_eq_div_mul]
  by_cases ha : j / 2 ^ m % 2 = 0
  · obtain ⟨l, y, rfl, hl, hd⟩ := hx
    have hy : sib j m * 2 ^ (m - l) ≤ y := by rw [← hd]; exact Nat.div_mul_le_self _ _
    have hs : sib j m = 2 * (j / 2 ^ m / 2) + 1 := by unfold sib siblingPos; rw [if_pos ha]; omega
    have h5 := node_add_one l y
    have h6 : 2 ^ (m + 1) = 2 ^ l * (2 * 2 ^ (m - l)) := by
      rw [← Nat.pow_succ', ← Nat.pow_add]; congr 1; omega
    have h7 : 2 ^ (m + 1) * (2 * (j / 2 ^ m / 2) + 1) ≤ 2 ^ l * (2 * y) := by
      rw [h6, ← hs, Nat.mul_assoc]
      apply Nat.mul_le_mul_left
      rw [Nat.mul_assoc, Nat.mul_comm (2 ^ (m - l))]
      omega
    have h8 : 2 ^ l * (2 * y + 1) = 2 ^ l * (2 * y) + 2 ^ l := by rw [Nat.mul_add, Nat.mul_one]
    have := Nat.two_pow_pos l
    omega
  · have hy : j / 2 ^ m * 2 ^ m ≤ j := Nat.div_mul_le_self _ _
    have h7 : 2 ^ (m + 1) * (2 * (j / 2 ^ m / 2) + 1) = 2 * (j / 2 ^ m * 2 ^ m) := by
      rw [show 2 * (j / 2 ^ m / 2) + 1 = j / 2 ^ m by omega, Nat.pow_succ]
      grind
    omega

/-- What `merge_update_path` does. -/
theorem merge_eq {P : CryptoProvider} {cs : CipherSuite} {Hs : Hash} (hP : P.hash cs = .ok Hs)
    {t : RatchetTree} {K j : Nat} (path : UpdatePath)
    (h0 : 0 < t.length) (hl : t.length < 4294967296) (hK : IsHeight t.num_leaves K) (hj : j < 2 ^ K)
    (hjl : 2 * j < t.length)
    (hu : t.SmallUnmerged ∨ (t.merge_update_path P cs j path).2 ≠ .fault .panic) :
    ((filteredLevels t.get K j).length ≠ path.nodes.length ∧
      (t.merge_update_path P cs j path).2 = .err .UpdatePathAndFilteredDirectPathHasDifferentNode) ∨
    ((filteredLevels t.get K j).length = path.nodes.length ∧
      ¬ ChainDefined Hs.digest t.get j (downList (filteredLevels t.get K j) path.nodes) none ∧
      ∃ e, (t.merge_update_path P cs j path).2 = .err e ∧ PathError e) ∨
    ((filteredLevels t.get K j).length = path.nodes.length ∧
      ChainDefined Hs.digest t.get j (downList (filteredLevels t.get K j) path.nodes) none ∧
      ∃ t2 : RatchetTree, t2.length = t.length ∧
        (∀ r ∈ (chainDown Hs.digest t.get j (downList (filteredLevels t.get K j) path.nodes) none).1,
          t2.get (anc j r.1) = some (.Parent r.2)) ∧
        (∀ k, 1 ≤ k → k ≤ K → k ∉ filteredLevels t.get K j → t2.get (anc j k) = none) ∧
        (∀ x, ¬ above K j x → t2.get x = t.get x) ∧
        t.merge_update_path P cs j path =
          match path.leaf_node.payload.leaf_node_source,
            (chainDown Hs.digest t.get j (downList (filteredLevels t.get K j) path.nodes) none).2 with
          | .Commit parent_hash, some h =>
            if parent_hash ≠ h then (t2, .err .ParentHashMismatchForUpdatePathLeafNode)
            else (t2.set (2 * j) (some (.Leaf path.leaf_node)), .ok ())
          | _, _ => (t2, .err .ParentHashMismatchForUpdatePathLeafNode)) := by
  obtain ⟨ha, hb, _⟩ := num_leaves_bounds h0 hl
  have hK31 := hK.2 31 hb
  have hj31 : j < 2 ^ 31 := Nat.lt_of_lt_of_le hj (Nat.pow_le_pow_right (by omega) hK31)
  have hdp : NumLeaves.direct_path t.num_leaves (2 * j) = .ok (pathOf K j) := direct_path_leaf ha hb hK hj
  unfold merge_update_path at hu ⊢
  rw [node_index_eq (by omega)] at hu ⊢
  dsimp only at hu ⊢
  rw [hdp] at hu ⊢
  dsimp only at hu ⊢
  generalize ht0 : (pathOf K j).foldl (fun t ni => t.set ni none) t = t0 at hu ⊢
  have g0 : ∀ x, t0.get x = if above K j x then none else t.get x := by
    intro x
    rw [← ht0, foldl_blank_get]
    by_cases h : above K j x
    · rw [if_pos (mem_pathOf.2 h), if_pos h]
    · rw [if_neg (fun hh => h (mem_pathOf.1 hh)), if_neg h]
  have l0 : t0.length = t.length := by rw [← ht0, foldl_blank_length]
  have n0 : t0.num_leaves = t.num_leaves := by unfold num_leaves; rw [l0]
  have s0 : ∀ k x, inSubtree k (sib j k) x → t0.get x = t.get x := by
    intro k x hx
    rw [g0, if_neg]
    rintro ⟨l, _, _, h⟩
    exact sib_disjoint hx h
  have hfl : filteredLevels t0.get K j = filteredLevels t.get K j := by
    unfold filteredLevels
    congr 1
    apply List.filter_congr
    intro k _
    rw [resolution_congr (s0 k)]
  have hf : t0.filtered_direct_path (2 * j) = .ok ((filteredLevels t.get K j).map (anc j)) := by
    rw [← node_zero, ← hfl]
    rcases hu with hu | hu
    · refine filtered_direct_path_eq (by omega) (by omega) (by rw [n0]; exact hK) hj ?_
      intro x p hx
      rw [g0] at hx
      by_cases h : above K j x
      · rw [if_pos h] at hx; cases hx
      · rw [if_neg h] at hx; exact hu x p hx
    · rcases filtered_direct_path_or (t := t0) (by omega) (by omega) (by rw [n0]; exact hK) hj with h | h
      · exact h
      · rw [node_zero] at h
        rw [h] at hu
        exact absurd rfl hu
  clear hu
  rw [hf]
  dsimp only
  have hins : ∀ k ∈ filteredLevels t.get K j, anc j k < t.length := fun k hk => filtered_inside hjl hk
  have hmem : ∀ k ∈ filteredLevels t.get K j, 1 ≤ k ∧ k ≤ K := fun k hk =>
    ⟨(filteredLevels_mem.1 hk).1, (filteredLevels_mem.1 hk).2.1⟩
  have hsorted : (filteredLevels t.get K j).Pairwise (· < ·) := filteredLevels_sorted
  generalize filteredLevels t.get K j = ks at *
  rw [List.length_map]
  by_cases hlen : ks.length ≠ path.nodes.length
  · rw [if_pos hlen]; exact .inl ⟨hlen, rfl⟩
  rw [if_neg hlen]
  have hlen : ks.length = path.nodes.length := by omega
  right
  have hzip : (ks.map (anc j)).zip path.nodes = (ks.zip path.nodes).map fun r => (anc j r.1, r.2) := by
    rw [List.zip_map_left]; rfl
  generalize ht1 : t0.setPath ((ks.map (anc j)).zip path.nodes) = t1
  have l1 : t1.length = t.length := by rw [← ht1, setPath_length, l0]
  have hnd : ks.Nodup := hsorted.imp (fun h => Nat.ne_of_lt h)
  have g1 : ∀ r ∈ ks.zip path.nodes, t1.get (anc j r.1) = some (.Parent ⟨r.2.encryption_key, [], []⟩) := by
    intro r hr
    rw [← ht1, hzip]
    refine setPath_get _ _ ?_ (anc j r.1, r.2) (List.mem_map.2 ⟨r, hr, rfl⟩) ?_
    · rw [List.map_map]
      show ((ks.zip path.nodes).map (fun r => anc j r.1)).Nodup
      rw [show (fun r : Nat × UpdatePathNode => anc j r.1) = anc j ∘ Prod.fst from rfl, ← List.map_map,
        List.map_fst_zip (by omega)]
      exact List.pairwise_map.2 (hnd.imp fun h hc => h (anc_inj hc))
    · have := hins _ (List.of_mem_zip hr).1
      dsimp only
      omega
  have g1' : ∀ x, (∀ k ∈ ks, x ≠ anc j k) → t1.get x = t0.get x := by
    intro x hx
    rw [← ht1, hzip, setPath_get_not]
    intro r hr
    obtain ⟨q, hq, rfl⟩ := List.mem_map.1 hr
    exact hx _ (List.of_mem_zip hq).1
  have hmap : (ks.map (anc j)).reverse = (downList ks path.nodes).map fun r => anc j r.1 := by
    rw [show (fun r : Nat × Bytes => anc j r.1) = anc j ∘ Prod.fst from rfl, ← List.map_map]
    rw [show (downList ks path.nodes).map Prod.fst = ks.reverse from downList_levels hlen, List.map_reverse]
  rw [hmap, ← node_zero]
  rcases pathLoop_eq hP (nodes := t.get) (by omega) hj (downList ks path.nodes) none t1
      (fun r hr => by
        unfold downList at hr
        rw [List.mem_reverse, List.mem_map] at hr
        obtain ⟨q, hq, rfl⟩ := hr
        have := hmem _ (List.of_mem_zip hq).1
        exact ⟨this.1, this.2, [], g1 q hq⟩)
      (by rw [downList_levels hlen]; exact List.pairwise_reverse.2 (hnd.imp Ne.symm))
      (fun k x hx => by rw [g1' x (fun l _ => sib_disjoint hx)]; exact s0 k x hx) with
    ⟨hc, t2, h1, h2, h3, h4⟩ | ⟨hc, t2, e, h1⟩
  · right
    refine ⟨hlen, hc, t2, by rw [h2, l1], h3, ?_, ?_, ?_⟩
    · intro k hk1 hkK hk
      have hne : ∀ l ∈ ks, anc j k ≠ anc j l := fun l hl h => hk (anc_inj h ▸ hl)
      rw [h4, g1' _ hne, g0, if_pos ⟨k, hk1, hkK, rfl⟩]
      intro r hr
      apply hne
      have : r.1 ∈ (downList ks path.nodes).map (·.1) := List.mem_map.2 ⟨r, hr, rfl⟩
      rw [downList_levels hlen] at this
      exact List.mem_reverse.1 this
    · intro x hx
      have hne : ∀ l ∈ ks, x ≠ anc j l := fun l hl h => hx ⟨l, (hmem l hl).1, (hmem l hl).2, h⟩
      rw [h4, g1' _ hne, g0, if_neg hx]
      intro r hr
      apply hne
      have : r.1 ∈ (downList ks path.nodes).map (·.1) := List.mem_map.2 ⟨r, hr, rfl⟩
      rw [downList_levels hlen] at this
      exact List.mem_reverse.1 this
    · rw [h1]
      dsimp only
      generalize (chainDown Hs.digest t.get j (downList ks path.nodes) none).2 = out
      cases path.leaf_node.payload.leaf_node_source <;> cases out <;> rfl
  · left
    refine ⟨hlen, hc, e, ?_, pathLoop_kind hP _ _ _ _ h1⟩
    rw [h1]

end RatchetTree
end Rmls
