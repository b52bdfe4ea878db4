import Verif.Model.MergeWork
import Verif.Proofs.Work
import Verif.Proofs.Merge
/-
`Model/MergeWork.lean`: the counted functions have the same results, and bounds on the counters.
-/
namespace Rmls
open Spec

namespace Tolled

theorem bind_res {α β : Type} (x : Tolled α) (f : α → Tolled β) :
    (x >>= f).res = x.res >>= fun a => (f a).res := by
  show (Tolled.bind x f).res = _
  unfold Tolled.bind
  cases x.res <;> rfl

theorem pure_res {α : Type} (a : α) : (pure a : Tolled α).res = .ok a := rfl
theorem free_res {α : Type} (x : Res α) : (free x).res = x := rfl

/-- A counter: work done one after the other adds up. -/
def Counter (c : Toll → Nat) : Prop := c ⟨0, 0, 0⟩ = 0 ∧ ∀ a b : Toll, c (a.plus b) = c a + c b

theorem counter_digests : Counter Toll.digests := ⟨rfl, fun _ _ => rfl⟩
theorem counter_visits : Counter Toll.visits := ⟨rfl, fun _ _ => rfl⟩
theorem counter_copies : Counter Toll.copies := ⟨rfl, fun _ _ => rfl⟩

theorem bind_le {c : Toll → Nat} (hc : Counter c) {α β : Type} {x : Tolled α} {f : α → Tolled β} {m n : Nat}
    (hx : c x.toll ≤ m) (hf : ∀ a, x.res = .ok a → c (f a).toll ≤ n) : c (x >>= f).toll ≤ m + n := by
  show c (Tolled.bind x f).toll ≤ _
  unfold Tolled.bind
  cases h : x.res with
  | ok a => show c (x.toll.plus (f a).toll) ≤ _; rw [hc.2]; have := hf a h; omega
  | err e => show c x.toll ≤ _; omega
  | fault g => show c x.toll ≤ _; omega

theorem free_le {c : Toll → Nat} (hc : Counter c) {α β : Type} {x : Res α} {f : α → Tolled β} {n : Nat}
    (hf : ∀ a, x = .ok a → c (f a).toll ≤ n) : c (free x >>= f).toll ≤ n := by
  have := bind_le hc (x := free x) (f := f) (m := 0) (n := n) (Nat.le_of_eq hc.1) hf
  omega

theorem free_toll {c : Toll → Nat} (hc : Counter c) {α : Type} (x : Res α) : c (free x).toll = 0 := hc.1
theorem pure_toll {c : Toll → Nat} (hc : Counter c) {α : Type} (a : α) : c (pure a : Tolled α).toll = 0 := hc.1

end Tolled

namespace RatchetTree.Tolling
open Tolled

/-! ### The same results -/

theorem resolveFuel_res (t : RatchetTree) : ∀ fuel x, (resolveFuel t fuel x).res = t.resolveFuel fuel x
  | 0, _ => rfl
  | fuel + 1, x => by
    unfold resolveFuel RatchetTree.resolveFuel
    rw [bind_res, Res.ok_bind]
    cases t.get x with
    | some n =>
      cases n with
      | Leaf l => rfl
      | Parent p =>
        dsimp only
        rw [bind_res, free_res]
        rfl
    | none =>
      dsimp only
      rw [bind_res, free_res]
      congr 1
      funext o
      cases o with
      | none => rfl
      | some lr =>
        dsimp only
        rw [bind_res, resolveFuel_res t fuel]
        congr 1
        funext a
        rw [bind_res, resolveFuel_res t fuel]
        rfl

theorem walkUp_res {σ : Type} (n : Nat) (body : σ → Nat → Nat → Tolled σ) : ∀ fuel x s,
    (walkUp n body fuel x s).res = RatchetTree.walkUp n (fun s x p => (body s x p).res) fuel x s
  | 0, _, _ => rfl
  | fuel + 1, x, s => by
    unfold walkUp RatchetTree.walkUp
    rw [bind_res, free_res]
    congr 1
    funext o
    cases o with
    | none => rfl
    | some p =>
      dsimp only
      rw [bind_res]
      congr 1
      funext s'
      exact walkUp_res n body fuel p s'

theorem filterStep_res (t : RatchetTree) (path : List Nat) (x p : Nat) : (filterStep t path x p).res = (do
      match ← NumLeaves.sibling t.num_leaves x with
      | none => .err .InvalidSibling
      | some s => do
        let r ← t.resolve s
        if r.isEmpty = false then pure (path ++ [p]) else pure path) := by
  unfold filterStep
  rw [bind_res, free_res]
  congr 1
  funext o
  cases o with
  | none => rfl
  | some s =>
    dsimp only
    rw [bind_res, resolveFuel_res]
    show (t.resolve s >>= _) = _
    congr 1
    funext r
    split <;> rfl

theorem filtered_direct_path_res (t : RatchetTree) (x : Nat) :
    (filtered_direct_path t x).res = t.filtered_direct_path x := by
  unfold filtered_direct_path RatchetTree.filtered_direct_path
  rw [walkUp_res]
  congr 1
  funext path x p
  exact filterStep_res t path x p

variable (P : CryptoProvider) (cs : CipherSuite)

theorem pathHashes_res (t : RatchetTree) (sni : Nat) (dp : List Nat) (ni : Nat) (prev : Option Bytes) :
    (pathHashes P cs t sni dp ni prev).res = RatchetTree.pathHashes P cs t sni dp ni prev := by
  unfold pathHashes RatchetTree.pathHashes
  cases t.get ni with
  | none => rfl
  | some n =>
    cases n with
    | Leaf l => rfl
    | Parent p =>
      dsimp only
      rw [bind_res, free_res]
      congr 1
      funext o
      cases o with
      | none => rfl
      | some lr =>
        dsimp only
        rw [bind_res]
        show ((Counting.compute_tree_hash P cs t _ []).res >>= _) = _
        rw [Counting.compute_tree_hash_res]
        rfl

theorem pathLoop_res (sni : Nat) (dp : List Nat) : ∀ (nis : List Nat) (prev : Option Bytes) (t : RatchetTree),
    ((pathLoop P cs sni dp nis prev t).1, (pathLoop P cs sni dp nis prev t).2.res) =
      RatchetTree.pathLoop P cs sni dp nis prev t
  | [], _, _ => rfl
  | ni :: nis, prev, t => by
    unfold pathLoop RatchetTree.pathLoop
    rw [← pathHashes_res P cs t sni dp ni prev]
    dsimp only
    cases (pathHashes P cs t sni dp ni prev).res with
    | err e => rfl
    | fault f => rfl
    | ok hs =>
      obtain ⟨a, b⟩ := hs
      dsimp only
      cases t.get ni with
      | none => exact pathLoop_res sni dp nis prev t
      | some n =>
        cases n with
        | Leaf l => exact pathLoop_res sni dp nis prev t
        | Parent p =>
          dsimp only
          have hd : ∀ x : Res Bytes, (digests (Counted.digest x)).res = x := fun _ => rfl
          rw [hd]
          generalize ParentNode.compute_parent_hash P cs _ b = y
          cases y with
          | err e => rfl
          | fault f => rfl
          | ok h => exact pathLoop_res sni dp nis (some h) _

theorem merge_res (t : RatchetTree) (j : Nat) (path : UpdatePath) :
    ((merge_update_path P cs t j path).1, (merge_update_path P cs t j path).2.res) =
      t.merge_update_path P cs j path := by
  unfold merge_update_path RatchetTree.merge_update_path
  cases LeafIndex.node_index j with
  | err e => rfl
  | fault f => rfl
  | ok sni =>
    dsimp only
    cases NumLeaves.direct_path t.num_leaves sni with
    | err e => rfl
    | fault f => rfl
    | ok dp =>
      dsimp only
      rw [← filtered_direct_path_res]
      generalize filtered_direct_path _ sni = x
      obtain ⟨r, toll⟩ := x
      cases r with
      | err e => rfl
      | fault f => rfl
      | ok fl =>
        dsimp only
        by_cases hl : fl.length ≠ path.nodes.length
        · rw [if_pos hl, if_pos hl]
        · rw [if_neg hl, if_neg hl]
          rw [← pathLoop_res]
          generalize pathLoop P cs sni dp fl.reverse none _ = y
          obtain ⟨t1, r1, toll1⟩ := y
          cases r1 with
          | err e => rfl
          | fault f => rfl
          | ok prev =>
            dsimp only
            cases path.leaf_node.payload.leaf_node_source <;> cases prev <;> try rfl
            dsimp only
            split <;> rfl

/-! ### Bounds -/

/-- The sum of a function over the nodes of a subtree. -/
def spread (f : Nat → Nat) : Nat → Nat → Nat
  | 0, i => f (node 0 i)
  | k + 1, i => spread f k (2 * i) + f (node (k + 1) i) + spread f k (2 * i + 1)

theorem spread_one : ∀ k i, spread (fun _ => 1) k i = 2 ^ (k + 1) - 1
  | 0, _ => rfl
  | k + 1, i => by
    rw [spread, spread_one, spread_one]
    have := Nat.two_pow_pos (k + 1)
    rw [Nat.pow_succ 2 (k + 1)]
    omega

/-- A node and its sibling lie below the parent. -/
theorem spread_sibling (f : Nat → Nat) (k i : Nat) : spread f k i + spread f k (siblingPos i) ≤ spread f (k + 1) (i / 2) := by
  rw [spread]
  rcases siblingPos_cases i with ⟨h1, h2⟩ | ⟨h1, h2⟩
  · rw [h2, ← h1]; omega
  · rw [h2, ← h1]; omega

theorem resolveFuel_le {c : Toll → Nat} (hc : Counter c) {t : RatchetTree} {f : Nat → Nat}
    (hf : ∀ x, c (visit (t.get x)) ≤ f x) : ∀ k fuel i, c (resolveFuel t fuel (node k i)).toll ≤ spread f k i
  | k, 0, i => by rw [show c (resolveFuel t 0 (node k i)).toll = 0 from hc.1]; exact Nat.zero_le _
  | k, fuel + 1, i => by
    unfold resolveFuel
    cases hg : t.get (node k i) with
    | some n =>
      have hle : f (node k i) ≤ spread f k i := by
        cases k with
        | zero => exact Nat.le_refl _
        | succ k => rw [spread]; omega
      have h := hf (node k i)
      rw [hg] at h
      refine Nat.le_trans (bind_le hc (m := f (node k i)) (n := 0) h fun _ _ => ?_) hle
      cases n with
      | Leaf l => exact Nat.le_of_eq (pure_toll hc _)
      | Parent p => exact free_le hc fun _ _ => Nat.le_of_eq (pure_toll hc _)
    | none =>
      have h := hf (node k i)
      rw [hg] at h
      cases k with
      | zero =>
        refine bind_le hc (m := f (node 0 i)) (n := 0) h fun _ _ => ?_
        rw [NodeIndex.children_zero]
        exact free_le hc fun o ho => by cases ho; exact Nat.le_of_eq (pure_toll hc _)
      | succ k =>
        rw [spread, show spread f k (2 * i) + f (node (k + 1) i) + spread f k (2 * i + 1) =
          f (node (k + 1) i) + (spread f k (2 * i) + (spread f k (2 * i + 1) + 0)) by omega]
        refine bind_le hc h fun _ _ => ?_
        dsimp only
        refine free_le hc fun o ho => ?_
        cases o with
        | none => exact Nat.le_trans (Nat.le_of_eq (pure_toll hc _)) (Nat.zero_le _)
        | some lr =>
          have hk : k + 1 < 32 := by
            apply Nat.lt_of_not_le
            intro hk
            rw [NodeIndex.children_over i hk] at ho
            cases ho
          rw [NodeIndex.children_succ i hk] at ho
          cases ho
          refine bind_le hc (resolveFuel_le hc hf k fuel (2 * i)) fun _ _ => ?_
          refine bind_le hc (resolveFuel_le hc hf k fuel (2 * i + 1)) fun _ _ => ?_
          exact Nat.le_of_eq (pure_toll hc _)

/-- The walk from level `k` up: with what lies below its start, it costs at most what the tree weighs. -/
theorem filtered_le {c : Toll → Nat} (hc : Counter c) {t : RatchetTree} {f : Nat → Nat} {j : Nat}
    (hf : ∀ x, c (visit (t.get x)) ≤ f x) (h0 : 0 < t.num_leaves) (hn : t.num_leaves ≤ 2 ^ 31)
    (hj : j < 2 ^ NumLeaves.height t.num_leaves) : ∀ d k fuel path, k + d = NumLeaves.height t.num_leaves →
      c (walkUp t.num_leaves (filterStep t) fuel (anc j k) path).toll + spread f k (j / 2 ^ k) ≤
        spread f (NumLeaves.height t.num_leaves) 0 ∧
      ∀ out, (walkUp t.num_leaves (filterStep t) fuel (anc j k) path).res = .ok out →
        ∃ qs, out = path ++ qs ∧ qs.Sublist ((List.range' (k + 1) d).map (anc j)) := by
  have hin : ∀ k, k ≤ NumLeaves.height t.num_leaves → NumLeaves.InTree (NumLeaves.height t.num_leaves) k (j / 2 ^ k) := by
    intro k hk
    refine ⟨hk, ?_⟩
    rw [Nat.div_lt_iff_lt_mul (Nat.two_pow_pos k), ← Nat.pow_add, Nat.sub_add_cancel hk]
    exact hj
  have top : ∀ d k, k + d = NumLeaves.height t.num_leaves →
      spread f k (j / 2 ^ k) ≤ spread f (NumLeaves.height t.num_leaves) 0 := by
    intro d
    induction d with
    | zero => intro k hk; rw [← hk, Nat.add_zero, Nat.div_eq_of_lt (by rw [Nat.add_zero] at hk; rw [hk]; exact hj)]; exact Nat.le_refl _
    | succ d ih =>
      intro k hk
      have h1 := spread_sibling f k (j / 2 ^ k)
      rw [anc_div] at h1
      have := ih (k + 1) (by omega)
      omega
  intro d
  induction d with
  | zero =>
    intro k fuel path hk
    cases fuel with
    | zero =>
      refine ⟨?_, fun out h => by cases h⟩
      rw [show c (walkUp t.num_leaves (filterStep t) 0 (anc j k) path).toll = 0 from hc.1, Nat.zero_add]
      exact top 0 k hk
    | succ fuel =>
      have hp : NumLeaves.parent t.num_leaves (anc j k) = .ok none := by
        unfold anc
        rw [NumLeaves.parent_inTree h0 hn (hin k (by omega)), if_pos (by omega)]
      unfold walkUp
      rw [hp]
      refine ⟨?_, fun out h => ?_⟩
      · refine Nat.le_trans (Nat.add_le_add_right (free_le hc (n := 0) fun o ho => ?_) _)
          (by rw [Nat.zero_add]; exact top 0 k hk)
        cases ho
        exact Nat.le_of_eq (pure_toll hc _)
      · rw [bind_res, free_res, Res.ok_bind] at h
        cases h
        exact ⟨[], by simp, List.nil_sublist _⟩
  | succ d ih =>
    intro k fuel path hk
    cases fuel with
    | zero =>
      refine ⟨?_, fun out h => by cases h⟩
      rw [show c (walkUp t.num_leaves (filterStep t) 0 (anc j k) path).toll = 0 from hc.1, Nat.zero_add]
      exact top (d + 1) k hk
    | succ fuel =>
      have hp : NumLeaves.parent t.num_leaves (anc j k) = .ok (some (anc j (k + 1))) := by
        unfold anc
        rw [NumLeaves.parent_inTree h0 hn (hin k (by omega)), if_neg (by omega), anc_div]
      have hs : NumLeaves.sibling t.num_leaves (anc j k) = .ok (some (node k (sib j k))) := by
        unfold anc
        rw [NumLeaves.sibling_inTree h0 hn (hin k (by omega)), if_neg (by omega)]; rfl
      have hstep : c (filterStep t path (anc j k) (anc j (k + 1))).toll ≤ spread f k (sib j k) := by
        unfold filterStep
        refine free_le hc fun o ho => ?_
        rw [hs] at ho
        cases ho
        dsimp only
        refine Nat.le_trans (bind_le hc (n := 0) (resolveFuel_le hc hf k 33 (sib j k)) fun r _ => ?_) (Nat.le_refl _)
        split <;> exact Nat.le_of_eq (pure_toll hc _)
      have hout : ∀ p', (filterStep t path (anc j k) (anc j (k + 1))).res = .ok p' →
          p' = path ++ [anc j (k + 1)] ∨ p' = path := by
        intro p' h
        rw [filterStep_res, hs, Res.ok_bind] at h
        dsimp only at h
        cases hr : t.resolve (node k (sib j k)) with
        | err e => rw [hr] at h; cases h
        | fault g => rw [hr] at h; cases h
        | ok r =>
          rw [hr, Res.ok_bind] at h
          split at h
          · cases h; exact .inl rfl
          · cases h; exact .inr rfl
      have hsum := spread_sibling f k (j / 2 ^ k)
      rw [anc_div] at hsum
      have hsib : siblingPos (j / 2 ^ k) = sib j k := rfl
      rw [hsib] at hsum
      have htop := top d (k + 1) (by omega)
      refine ⟨?_, fun out h => ?_⟩
      · unfold walkUp
        rw [hp]
        refine Nat.le_trans (Nat.add_le_add_right (free_le hc (n := spread f k (sib j k) +
          (spread f (NumLeaves.height t.num_leaves) 0 - spread f (k + 1) (j / 2 ^ (k + 1)))) fun o ho => ?_) _) (by omega)
        cases ho
        dsimp only
        refine bind_le hc hstep fun p' _ => ?_
        have := (ih (k + 1) fuel p' (by omega)).1
        omega
      · unfold walkUp at h
        rw [hp, bind_res, free_res, Res.ok_bind] at h
        dsimp only at h
        rw [bind_res] at h
        cases hr : (filterStep t path (anc j k) (anc j (k + 1))).res with
        | err e => rw [hr] at h; cases h
        | fault g => rw [hr] at h; cases h
        | ok p' =>
          rw [hr, Res.ok_bind] at h
          obtain ⟨qs, h1, h2⟩ := (ih (k + 1) fuel p' (by omega)).2 out h
          rw [List.range'_succ, List.map_cons]
          rcases hout p' hr with rfl | rfl
          · exact ⟨anc j (k + 1) :: qs, by rw [h1]; simp, h2.cons_cons _⟩
          · exact ⟨qs, h1, h2.cons _⟩

theorem pathHashes_digests (t : RatchetTree) (sni : Nat) (dp : List Nat) (ni : Nat) (prev : Option Bytes) :
    (pathHashes P cs t sni dp ni prev).toll.digests ≤ Counting.low ni - 1 := by
  obtain ⟨k, i, rfl⟩ := node_surj ni
  rw [Counting.low_node]
  unfold pathHashes
  cases t.get (node k i) with
  | none => exact Nat.zero_le _
  | some n =>
    cases n with
    | Leaf l => exact Nat.zero_le _
    | Parent p =>
      refine free_le counter_digests fun o ho => ?_
      cases o with
      | none => exact Nat.zero_le _
      | some lr =>
        obtain ⟨l, r⟩ := lr
        cases k with
        | zero => rw [NodeIndex.children_zero] at ho; cases ho
        | succ k =>
          have hk : k + 1 < 32 := by
            apply Nat.lt_of_not_le
            intro hk
            rw [NodeIndex.children_over i hk] at ho
            cases ho
          rw [NodeIndex.children_succ i hk] at ho
          cases ho
          dsimp only
          refine bind_le counter_digests (n := 0) ?_ fun _ _ => Nat.le_of_eq (pure_toll counter_digests _)
          show (Counting.compute_tree_hash P cs t _ []).work.digests ≤ _
          unfold Counting.compute_tree_hash
          split
          · exact Counting.treeHashFuel_digests P cs t [] k 33 (2 * i + 1)
          · exact Counting.treeHashFuel_digests P cs t [] k 33 (2 * i)

theorem pathHashes_others (t : RatchetTree) (sni : Nat) (dp : List Nat) (ni : Nat) (prev : Option Bytes) :
    (pathHashes P cs t sni dp ni prev).toll.visits = 0 ∧ (pathHashes P cs t sni dp ni prev).toll.copies = 0 := by
  have key : ∀ {c : Toll → Nat}, Counter c → (∀ d, c ⟨d, 0, 0⟩ = 0) → c (pathHashes P cs t sni dp ni prev).toll = 0 := by
    intro c hc hd
    refine Nat.le_antisymm ?_ (Nat.zero_le _)
    unfold pathHashes
    cases t.get ni with
    | none => exact Nat.le_of_eq hc.1
    | some n =>
      cases n with
      | Leaf l => exact Nat.le_of_eq hc.1
      | Parent p =>
        refine free_le hc fun o _ => ?_
        cases o with
        | none => exact Nat.le_of_eq hc.1
        | some lr =>
          dsimp only
          exact bind_le hc (m := 0) (n := 0) (Nat.le_of_eq (hd _)) fun _ _ => Nat.le_of_eq hc.1
  exact ⟨key counter_visits fun _ => rfl, key counter_copies fun _ => rfl⟩

theorem low_pos (x : Nat) : 1 ≤ Counting.low x := by
  obtain ⟨k, i, rfl⟩ := node_surj x
  rw [Counting.low_node]
  exact Nat.two_pow_pos k

theorem pathLoop_le (sni : Nat) (dp : List Nat) : ∀ (nis : List Nat) (prev : Option Bytes) (t : RatchetTree),
    (pathLoop P cs sni dp nis prev t).2.toll.digests ≤ (nis.map Counting.low).sum ∧
    (pathLoop P cs sni dp nis prev t).2.toll.visits = 0 ∧ (pathLoop P cs sni dp nis prev t).2.toll.copies = 0
  | [], _, _ => ⟨Nat.zero_le _, rfl, rfl⟩
  | ni :: nis, prev, t => by
    have h1 := pathHashes_digests P cs t sni dp ni prev
    obtain ⟨h2, h3⟩ := pathHashes_others P cs t sni dp ni prev
    have hlow := low_pos ni
    rw [List.map_cons, List.sum_cons]
    unfold pathLoop
    dsimp only
    generalize pathHashes P cs t sni dp ni prev = x at *
    obtain ⟨r, d, v, w⟩ := x
    dsimp only at h1 h2 h3
    subst h2 h3
    cases r with
    | err e => exact ⟨by dsimp only; omega, rfl, rfl⟩
    | fault g => exact ⟨by dsimp only; omega, rfl, rfl⟩
    | ok hs =>
      obtain ⟨a, b⟩ := hs
      dsimp only
      have rest : ∀ prev t, (pathLoop P cs sni dp nis prev t).2.toll.digests ≤ (nis.map Counting.low).sum ∧
        (pathLoop P cs sni dp nis prev t).2.toll.visits = 0 ∧ (pathLoop P cs sni dp nis prev t).2.toll.copies = 0 :=
        fun prev t => pathLoop_le sni dp nis prev t
      cases t.get ni with
      | none =>
        obtain ⟨r1, r2, r3⟩ := rest prev t
        exact ⟨by simp only [Toll.plus]; omega, by simp only [Toll.plus]; omega, by simp only [Toll.plus]; omega⟩
      | some n =>
        cases n with
        | Leaf l =>
          obtain ⟨r1, r2, r3⟩ := rest prev t
          exact ⟨by simp only [Toll.plus]; omega, by simp only [Toll.plus]; omega, by simp only [Toll.plus]; omega⟩
        | Parent p =>
          dsimp only
          have hd := fun y : Res Bytes => (Counted.digest_work y).1
          generalize ParentNode.compute_parent_hash P cs _ b = y
          have hy := hd y
          have hr : (digests (Counted.digest y)).res = y := rfl
          have ht : (digests (Counted.digest y)).toll = ⟨(Counted.digest y).work.digests, 0, 0⟩ := rfl
          rw [hr, ht]
          cases y with
          | err e => exact ⟨by simp only [Toll.plus]; omega, rfl, rfl⟩
          | fault g => exact ⟨by simp only [Toll.plus]; omega, rfl, rfl⟩
          | ok h =>
            obtain ⟨r1, r2, r3⟩ := rest (some h) (t.set ni (some (.Parent { p with parent_hash := a.getD [] })))
            exact ⟨by simp only [Toll.plus]; omega, by simp only [Toll.plus]; omega, by simp only [Toll.plus]; omega⟩

theorem sum_sublist {l l' : List Nat} (h : l.Sublist l') : l.sum ≤ l'.sum := by
  induction h with
  | slnil => exact Nat.le_refl _
  | cons a _ ih => rw [List.sum_cons]; omega
  | cons_cons a _ ih => rw [List.sum_cons, List.sum_cons]; omega

theorem sum_path (j : Nat) : ∀ d k, (((List.range' (k + 1) d).map (anc j)).map Counting.low).sum + 2 ^ (k + 1) = 2 ^ (k + 1 + d)
  | 0, k => by simp
  | d + 1, k => by
    rw [List.range'_succ, List.map_cons, List.map_cons, List.sum_cons]
    have := sum_path j d (k + 1)
    rw [show anc j (k + 1) = node (k + 1) (j / 2 ^ (k + 1)) from rfl, Counting.low_node]
    rw [Nat.pow_succ 2 (k + 1), show k + 1 + 1 + d = k + 1 + (d + 1) by omega] at this
    omega

end RatchetTree.Tolling
end Rmls
