import Verif.Model.Work
import Verif.Proofs.Integrity
import Verif.Spec.Work
/-
The counting versions have the same results, and how much they count.
-/
namespace Rmls
open Spec

namespace Counted

theorem bind_res {α β : Type} (x : Counted α) (f : α → Counted β) :
    (x >>= f).res = x.res >>= fun a => (f a).res := by
  show (Counted.bind x f).res = _
  unfold Counted.bind
  cases x.res <;> rfl

theorem pure_res {α : Type} (a : α) : (pure a : Counted α).res = .ok a := rfl
theorem free_res {α : Type} (x : Res α) : (free x).res = x := rfl
theorem digest_res {α : Type} (x : Res α) : (digest x).res = x := rfl

/-- One of the counters. -/
def Counter (c : Work → Nat) : Prop := c ⟨0, 0, 0⟩ = 0 ∧ ∀ a b : Work, c (a.plus b) = c a + c b

theorem counter_digests : Counter Work.digests := ⟨rfl, fun _ _ => rfl⟩
theorem counter_leaves : Counter Work.leaves := ⟨rfl, fun _ _ => rfl⟩
theorem counter_comparisons : Counter Work.comparisons := ⟨rfl, fun _ _ => rfl⟩

theorem bind_ok {α β : Type} {x : Counted α} {f : α → Counted β} {a : α} (h : x.res = .ok a) :
    (x >>= f).work = x.work.plus (f a).work := by
  show (Counted.bind x f).work = _
  unfold Counted.bind
  rw [h]

theorem bind_le {c : Work → Nat} (hc : Counter c) {α β : Type} {x : Counted α} {f : α → Counted β} {m n : Nat}
    (hx : c x.work ≤ m) (hf : ∀ a, x.res = .ok a → c (f a).work ≤ n) : c (x >>= f).work ≤ m + n := by
  show c (Counted.bind x f).work ≤ _
  unfold Counted.bind
  cases h : x.res with
  | ok a => simp only [hc.2]; exact Nat.add_le_add hx (hf a h)
  | err e => simp only; omega
  | fault e => simp only; omega

theorem free_le {c : Work → Nat} (hc : Counter c) {α β : Type} {x : Res α} {f : α → Counted β} {n : Nat}
    (hf : ∀ a, x = .ok a → c (f a).work ≤ n) : c (free x >>= f).work ≤ n := by
  have := bind_le hc (x := free x) (f := f) (m := 0) (n := n) (Nat.le_of_eq hc.1) hf
  omega

theorem free_work {c : Work → Nat} (hc : Counter c) {α : Type} (x : Res α) : c (free x).work = 0 := hc.1
theorem pure_work {c : Work → Nat} (hc : Counter c) {α : Type} (a : α) : c (pure a : Counted α).work = 0 := hc.1

theorem digest_work {α : Type} (x : Res α) : (digest x).work.digests ≤ 1 ∧ (digest x).work.leaves = 0 ∧
    (digest x).work.comparisons = 0 := by
  unfold digest
  cases x <;> simp

end Counted

namespace RatchetTree.Counting
open Counted

variable (P : CryptoProvider) (cs : CipherSuite)

/-! ### The same results -/

theorem treeHashFuel_res (t : RatchetTree) (ex : List LeafIndex) : ∀ (fuel x : Nat),
    (treeHashFuel P cs t ex fuel x).res = RatchetTree.treeHashFuel P cs t ex fuel x
  | 0, _ => rfl
  | fuel + 1, x => by
    unfold treeHashFuel RatchetTree.treeHashFuel
    cases NodeIndex.leaf_index x with
    | some li => simp only [bind_res, free_res, digest_res]
    | none =>
      simp only [bind_res, free_res]
      congr 1
      funext o
      cases o with
      | none => rfl
      | some lr =>
        simp only [bind_res, free_res, digest_res, treeHashFuel_res t ex fuel]

theorem compute_tree_hash_res (t : RatchetTree) (x : Nat) (ex : List LeafIndex) :
    (compute_tree_hash P cs t x ex).res = RatchetTree.compute_tree_hash P cs t x ex :=
  treeHashFuel_res P cs t ex 33 x

theorem compute_root_tree_hash_res (t : RatchetTree) :
    (compute_root_tree_hash P cs t).res = RatchetTree.compute_root_tree_hash P cs t := by
  unfold compute_root_tree_hash RatchetTree.compute_root_tree_hash
  simp only [bind_res, free_res, compute_tree_hash_res]

theorem orFalse_res {α : Type} (x : Counted α) (k : α → Counted Bool) :
    (orFalse x k).res = RatchetTree.orFalse x.res fun a => (k a).res := by
  unfold orFalse RatchetTree.orFalse
  cases x.res <;> rfl

theorem verifyParentHash_res (t : RatchetTree) (i : Nat) (n : Option Node) :
    (verifyParentHash P cs t i n).res = RatchetTree.verifyParentHash P cs t i n := by
  cases n with
  | none => rfl
  | some n =>
    unfold verifyParentHash RatchetTree.verifyParentHash
    simp only [bind_res, free_res]
    congr 1
    funext o
    cases o with
    | none => rfl
    | some lr =>
      cases n with
      | Leaf l => rfl
      | Parent p => simp only [orFalse_res, compute_tree_hash_res, digest_res, bind_res, free_res]; rfl

theorem verifyParentHashesLoop_res (t : RatchetTree) : ∀ (ns : List (Option Node)) (i : Nat),
    (verifyParentHashesLoop P cs t i ns).res = RatchetTree.verifyParentHashesLoop P cs t i ns
  | [], _ => rfl
  | n :: ns, i => by
    unfold verifyParentHashesLoop RatchetTree.verifyParentHashesLoop
    simp only [bind_res, verifyParentHash_res]
    congr 1
    funext good
    cases good with
    | false => rfl
    | true => exact verifyParentHashesLoop_res t ns (i + 1)

theorem verify_parent_hashes_res (t : RatchetTree) :
    (verify_parent_hashes P cs t).res = RatchetTree.verify_parent_hashes P cs t :=
  verifyParentHashesLoop_res P cs t t 0

theorem has_unmerged_leaf_res (li : LeafIndex) : ∀ us : List LeafIndex,
    (has_unmerged_leaf li us).res = .ok (us.any (· == li))
  | [] => rfl
  | u :: us => by
    unfold has_unmerged_leaf
    rw [bind_res]
    show (if (u == li) = true then (pure true : Counted Bool) else has_unmerged_leaf li us).res = _
    cases h : u == li with
    | true => simp [h, pure_res]
    | false => simp [h, has_unmerged_leaf_res li us]

theorem unmergedWalk_res (t : RatchetTree) (n p : Nat) (li : LeafIndex) : ∀ (fuel x : Nat),
    (unmergedWalk t n p li fuel x).res = RatchetTree.unmergedWalk t n p li fuel x
  | 0, _ => rfl
  | fuel + 1, x => by
    unfold unmergedWalk RatchetTree.unmergedWalk
    simp only [bind_res, free_res]
    congr 1
    funext o
    cases o with
    | none => rfl
    | some y =>
      dsimp only
      by_cases hy : y = p
      · rw [if_pos hy, if_pos hy]; rfl
      · rw [if_neg hy, if_neg hy]
        cases hg : t.get y with
        | none => exact unmergedWalk_res t n p li fuel y
        | some m =>
          cases m with
          | Leaf l => exact unmergedWalk_res t n p li fuel y
          | Parent q =>
            simp only [bind_res, has_unmerged_leaf_res]
            show (if (q.unmerged_leaves.any (· == li)) = false then (free (.err .NonBlankIntermediateNodeMissingUnmergedLeaf) :
              Counted Unit) else unmergedWalk t n p li fuel y).res = _
            unfold RatchetTree.has_unmerged_leaf
            split
            · rfl
            · exact unmergedWalk_res t n p li fuel y

theorem unmergedLoop_res (t : RatchetTree) (n p : Nat) : ∀ us : List LeafIndex,
    (unmergedLoop t n p us).res = RatchetTree.unmergedLoop t n p us
  | [] => rfl
  | u :: us => by
    unfold unmergedLoop RatchetTree.unmergedLoop
    simp only [bind_res, free_res, unmergedWalk_res, unmergedLoop_res t n p us]

theorem parentLoop_res (t : RatchetTree) (n : Nat) : ∀ (ns : List (Option Node)) (i : Nat) (ks : List HPKEPublicKey),
    (parentLoop t n i ns ks).res = RatchetTree.parentLoop t n i ns ks
  | [], _, _ => rfl
  | none :: ns, i, ks => by
    unfold parentLoop RatchetTree.parentLoop
    exact parentLoop_res t n ns (i + 1) ks
  | some (.Leaf l) :: ns, i, ks => by
    unfold parentLoop RatchetTree.parentLoop
    exact parentLoop_res t n ns (i + 1) ks
  | some (.Parent p) :: ns, i, ks => by
    unfold parentLoop RatchetTree.parentLoop
    simp only [bind_res, unmergedLoop_res]
    congr 1
    funext _
    split
    · rfl
    · exact parentLoop_res t n ns (i + 1) _

theorem forLeaves_res {σ : Type} (t : RatchetTree) (body : σ → Nat → LeafNode → Counted σ) : ∀ (ls : List Nat) (s : σ),
    (forLeaves t body ls s).res = RatchetTree.forLeaves t (fun s i n => (body s i n).res) ls s
  | [], _ => rfl
  | li :: ls, s => by
    unfold forLeaves RatchetTree.forLeaves
    simp only [bind_res, free_res]
    congr 1
    funext o
    cases o with
    | none => exact forLeaves_res t body ls s
    | some n => simp only [bind_res, forLeaves_res t body ls]

theorem verifyLeaves_res (t : RatchetTree) (ctx : GroupContext) (now : Int) (creds : List CredentialType) :
    (verifyLeaves P t ctx now creds).res = RatchetTree.verifyLeaves P t ctx now creds := by
  unfold verifyLeaves RatchetTree.verifyLeaves
  rw [forLeaves_res]
  simp only [bind_res, pure_res]
  rfl

theorem verify_integrity_res (t : RatchetTree) (ctx : GroupContext) (now : Int) :
    (verify_integrity P t ctx now).res = RatchetTree.verify_integrity P t ctx now := by
  unfold verify_integrity RatchetTree.verify_integrity
  simp only [bind_res, compute_root_tree_hash_res]
  congr 1
  funext h
  split
  · rfl
  · simp only [bind_res, verify_parent_hashes_res]
    congr 1
    funext good
    split
    · rfl
    · simp only [bind_res, free_res, verifyLeaves_res, parentLoop_res]

/-! ### How much is counted -/

theorem treeHashFuel_digests (t : RatchetTree) (ex : List LeafIndex) : ∀ (k fuel i : Nat),
    (treeHashFuel P cs t ex fuel (node k i)).work.digests ≤ 2 ^ (k + 1) - 1
  | 0, 0, _ => Nat.zero_le _
  | k + 1, 0, _ => Nat.zero_le _
  | 0, fuel + 1, i => by
    unfold treeHashFuel
    rw [NodeIndex.leaf_index_zero]
    refine free_le counter_digests fun l _ => free_le counter_digests fun input _ => ?_
    exact (digest_work _).1
  | k + 1, fuel + 1, i => by
    unfold treeHashFuel
    rw [NodeIndex.leaf_index_succ]
    refine free_le counter_digests fun o ho => ?_
    cases o with
    | none => exact Nat.le_trans (Nat.le_of_eq (free_work counter_digests _)) (Nat.zero_le _)
    | some lr =>
      obtain ⟨l, r⟩ := lr
      have hk : k + 1 < 32 := by
        apply Nat.lt_of_not_le
        intro hk
        rw [NodeIndex.children_over i hk] at ho
        cases ho
      rw [NodeIndex.children_succ i hk] at ho
      cases ho
      have h1 := treeHashFuel_digests t ex k fuel (2 * i)
      have h2 := treeHashFuel_digests t ex k fuel (2 * i + 1)
      have hp : 0 < 2 ^ (k + 1) := Nat.two_pow_pos _
      rw [show 2 ^ (k + 1 + 1) - 1 = (2 ^ (k + 1) - 1) + ((2 ^ (k + 1) - 1) + 1) by rw [Nat.pow_succ 2 (k + 1)]; omega]
      refine bind_le counter_digests h1 fun lh _ => bind_le counter_digests h2 fun rh _ => ?_
      exact free_le counter_digests fun p _ => free_le counter_digests fun input _ => (digest_work _).1

theorem treeHashFuel_others (t : RatchetTree) (ex : List LeafIndex) : ∀ (fuel x : Nat),
    (treeHashFuel P cs t ex fuel x).work.leaves ≤ 0 ∧ (treeHashFuel P cs t ex fuel x).work.comparisons ≤ 0
  | 0, _ => ⟨Nat.le_refl _, Nat.le_refl _⟩
  | fuel + 1, x => by
    unfold treeHashFuel
    cases NodeIndex.leaf_index x with
    | some li =>
      exact ⟨free_le counter_leaves fun l _ => free_le counter_leaves fun _ _ => Nat.le_of_eq (digest_work _).2.1,
        free_le counter_comparisons fun l _ => free_le counter_comparisons fun _ _ => Nat.le_of_eq (digest_work _).2.2⟩
    | none =>
      refine ⟨free_le counter_leaves fun o _ => ?_, free_le counter_comparisons fun o _ => ?_⟩
      · cases o with
        | none => exact Nat.le_refl _
        | some lr =>
          exact bind_le counter_leaves (m := 0) (n := 0) (treeHashFuel_others t ex fuel _).1 fun _ _ =>
            bind_le counter_leaves (m := 0) (n := 0) (treeHashFuel_others t ex fuel _).1 fun _ _ =>
            free_le counter_leaves fun _ _ => free_le counter_leaves fun _ _ => Nat.le_of_eq (digest_work _).2.1
      · cases o with
        | none => exact Nat.le_refl _
        | some lr =>
          exact bind_le counter_comparisons (m := 0) (n := 0) (treeHashFuel_others t ex fuel _).2 fun _ _ =>
            bind_le counter_comparisons (m := 0) (n := 0) (treeHashFuel_others t ex fuel _).2 fun _ _ =>
            free_le counter_comparisons fun _ _ => free_le counter_comparisons fun _ _ => Nat.le_of_eq (digest_work _).2.2

theorem orFalse_le {c : Work → Nat} (hc : Counter c) {α : Type} {x : Counted α} {f : α → Counted Bool} {m n : Nat}
    (hx : c x.work ≤ m) (hf : ∀ a, x.res = .ok a → c (f a).work ≤ n) : c (orFalse x f).work ≤ m + n := by
  unfold orFalse
  cases h : x.res with
  | ok a => simp only [hc.2]; exact Nat.add_le_add hx (hf a h)
  | err e => simp only; omega
  | fault e => simp only; omega

theorem verifyParentHash_digests (t : RatchetTree) (k i : Nat) (hx : node k i < 4294967296) (n : Option Node) :
    (verifyParentHash P cs t (node k i) n).work.digests ≤ 2 * 2 ^ k := by
  cases n with
  | none => exact Nat.zero_le _
  | some n =>
    unfold verifyParentHash
    rw [cast32_eq hx]
    refine free_le counter_digests fun o ho => ?_
    cases o with
    | none => exact Nat.zero_le _
    | some lr =>
      obtain ⟨l, r⟩ := lr
      cases n with
      | Leaf m => exact Nat.zero_le _
      | Parent p =>
        cases k with
        | zero => rw [NodeIndex.children_zero] at ho; cases ho
        | succ k =>
          have hk : k + 1 < 32 := by
            apply Nat.lt_of_not_le
            intro hk
            rw [NodeIndex.children_over i hk] at ho
            cases ho
          rw [NodeIndex.children_succ i hk] at ho
          cases ho
          have h1 := treeHashFuel_digests P cs t p.unmerged_leaves k 33 (2 * i)
          have h2 := treeHashFuel_digests P cs t p.unmerged_leaves k 33 (2 * i + 1)
          have hp : 0 < 2 ^ (k + 1) := Nat.two_pow_pos _
          rw [show 2 * 2 ^ (k + 1) = (2 ^ (k + 1) - 1) + ((2 ^ (k + 1) - 1) + (1 + (1 + 0))) by omega]
          refine orFalse_le counter_digests h1 fun lh _ => orFalse_le counter_digests h2 fun rh _ => ?_
          refine orFalse_le counter_digests (digest_work _).1 fun lp _ => orFalse_le counter_digests (digest_work _).1 fun rp _ => ?_
          exact free_le counter_digests fun _ _ => free_le counter_digests fun _ _ => Nat.le_refl _

theorem verifyParentHash_others (t : RatchetTree) (i : Nat) (n : Option Node) :
    (verifyParentHash P cs t i n).work.leaves ≤ 0 ∧ (verifyParentHash P cs t i n).work.comparisons ≤ 0 := by
  cases n with
  | none => exact ⟨Nat.le_refl _, Nat.le_refl _⟩
  | some n =>
    unfold verifyParentHash
    refine ⟨free_le counter_leaves fun o _ => ?_, free_le counter_comparisons fun o _ => ?_⟩
    · cases o with
      | none => exact Nat.le_refl _
      | some lr =>
        cases n with
        | Leaf m => exact Nat.le_refl _
        | Parent p =>
          refine orFalse_le counter_leaves (m := 0) (n := 0) (treeHashFuel_others P cs t _ _ _).1 fun _ _ =>
            orFalse_le counter_leaves (m := 0) (n := 0) (treeHashFuel_others P cs t _ _ _).1 fun _ _ =>
            orFalse_le counter_leaves (m := 0) (n := 0) (Nat.le_of_eq (digest_work _).2.1) fun _ _ =>
            orFalse_le counter_leaves (m := 0) (n := 0) (Nat.le_of_eq (digest_work _).2.1) fun _ _ => ?_
          exact free_le counter_leaves fun _ _ => free_le counter_leaves fun _ _ => Nat.le_refl _
    · cases o with
      | none => exact Nat.le_refl _
      | some lr =>
        cases n with
        | Leaf m => exact Nat.le_refl _
        | Parent p =>
          refine orFalse_le counter_comparisons (m := 0) (n := 0) (treeHashFuel_others P cs t _ _ _).2 fun _ _ =>
            orFalse_le counter_comparisons (m := 0) (n := 0) (treeHashFuel_others P cs t _ _ _).2 fun _ _ =>
            orFalse_le counter_comparisons (m := 0) (n := 0) (Nat.le_of_eq (digest_work _).2.2) fun _ _ =>
            orFalse_le counter_comparisons (m := 0) (n := 0) (Nat.le_of_eq (digest_work _).2.2) fun _ _ => ?_
          exact free_le counter_comparisons fun _ _ => free_le counter_comparisons fun _ _ => Nat.le_refl _

/-! ### Sizes of all subtrees together -/

/-- `2 ^ k` for a node at level `k`. -/
def low : Nat → Nat
  | 0 => 1
  | x + 1 => if (x + 1) % 2 = 0 then 1 else 2 * low ((x + 1) / 2)

theorem low_even (y : Nat) : low (2 * y) = 1 := by
  cases y with
  | zero => rw [Nat.mul_zero, low]
  | succ y => rw [show 2 * (y + 1) = (2 * y + 1) + 1 by omega, low, if_pos (by omega)]

theorem low_odd (y : Nat) : low (2 * y + 1) = 2 * low y := by
  rw [low, if_neg (by omega), show (2 * y + 1) / 2 = y by omega]

theorem low_node : ∀ k i : Nat, low (node k i) = 2 ^ k
  | 0, i => by rw [node_zero, low_even]
  | k + 1, i => by rw [node_succ, low_odd, low_node k i, Nat.pow_succ, Nat.mul_comm]

/-- The sum over the first nodes. -/
def lows : Nat → Nat
  | 0 => 0
  | n + 1 => lows n + low n

theorem lows_even : ∀ m : Nat, lows (2 * m) = m + 2 * lows m
  | 0 => rfl
  | m + 1 => by
    rw [show 2 * (m + 1) = (2 * m + 1) + 1 by omega, lows, lows, lows_even m, low_even, low_odd, lows]
    omega

theorem lows_le (n : Nat) : lows n ≤ n * (n.log2 + 1) := by
  induction n using Nat.strongRecOn with
  | _ n ih =>
    rcases Nat.lt_or_ge n 2 with h | h
    · match n, h with
      | 0, _ => exact Nat.le_refl _
      | 1, _ => simp [lows, low]
    · have hm := ih (n / 2) (by omega)
      have hl : n.log2 = (n / 2).log2 + 1 := by rw [Nat.log2_def]; simp [h]
      rw [hl]
      have h3 : n / 2 * ((n / 2).log2 + 1 + 1) = n / 2 * ((n / 2).log2 + 1) + n / 2 := Nat.mul_succ _ _
      rcases Nat.mod_two_eq_zero_or_one n with he | he
      · have h1 : n = 2 * (n / 2) := by omega
        have h2 := lows_even (n / 2)
        rw [← h1] at h2
        have h4 : n * ((n / 2).log2 + 1 + 1) = 2 * (n / 2 * ((n / 2).log2 + 1 + 1)) := by
          rw [← Nat.mul_assoc, ← h1]
        omega
      · have h1 : n = 2 * (n / 2) + 1 := by omega
        have h2 := lows_even (n / 2)
        have h5 : lows n = lows (2 * (n / 2)) + low (2 * (n / 2)) := by
          conv => lhs; rw [h1]
          rfl
        rw [low_even] at h5
        have h4 : n * ((n / 2).log2 + 1 + 1) = 2 * (n / 2 * ((n / 2).log2 + 1 + 1)) + ((n / 2).log2 + 1 + 1) := by
          rw [← Nat.mul_assoc, ← Nat.succ_mul, Nat.succ_eq_add_one, ← h1]
        omega

theorem verifyParentHashesLoop_digests (t : RatchetTree) : ∀ (ns : List (Option Node)) (i : Nat),
    i + ns.length ≤ 4294967296 → (verifyParentHashesLoop P cs t i ns).work.digests + 2 * lows i ≤ 2 * lows (i + ns.length)
  | [], i, _ => by
    show 0 + 2 * lows i ≤ 2 * lows (i + 0)
    simp
  | n :: ns, i, h => by
    simp only [List.length_cons] at h ⊢
    obtain ⟨k, j, hi⟩ := node_surj i
    have h1 := verifyParentHash_digests P cs t k j (by omega) n
    rw [← hi] at h1
    have h2 := low_node k j
    rw [← hi] at h2
    have h3 := verifyParentHashesLoop_digests t ns (i + 1) (by omega)
    unfold verifyParentHashesLoop
    have h4 : (do
        let good ← verifyParentHash P cs t i n
        if good = true then verifyParentHashesLoop P cs t (i + 1) ns else pure false).work.digests ≤
        2 * 2 ^ k + (verifyParentHashesLoop P cs t (i + 1) ns).work.digests := by
      refine bind_le counter_digests h1 fun good _ => ?_
      split
      · exact Nat.le_refl _
      · exact Nat.zero_le _
    have h5 : lows (i + 1) = lows i + low i := rfl
    rw [show i + (ns.length + 1) = i + 1 + ns.length by omega]
    omega

theorem verifyParentHashesLoop_others (t : RatchetTree) : ∀ (ns : List (Option Node)) (i : Nat),
    (verifyParentHashesLoop P cs t i ns).work.leaves ≤ 0 ∧ (verifyParentHashesLoop P cs t i ns).work.comparisons ≤ 0
  | [], _ => ⟨Nat.le_refl _, Nat.le_refl _⟩
  | n :: ns, i => by
    have h := verifyParentHashesLoop_others t ns (i + 1)
    unfold verifyParentHashesLoop
    refine ⟨bind_le counter_leaves (m := 0) (n := 0) (verifyParentHash_others P cs t i n).1 fun good _ => ?_,
      bind_le counter_comparisons (m := 0) (n := 0) (verifyParentHash_others P cs t i n).2 fun good _ => ?_⟩
    · split
      · exact h.1
      · exact Nat.le_refl _
    · split
      · exact h.2
      · exact Nat.le_refl _

/-! ### Leaves -/

theorem forLeaves_leaves {σ : Type} (t : RatchetTree) (body : σ → Nat → LeafNode → Counted σ)
    (hb : ∀ s i n, (body s i n).work.leaves ≤ 1) : ∀ (ls : List Nat) (s : σ), (∀ i ∈ ls, i < 2 ^ 31) →
    (forLeaves t body ls s).work.leaves ≤ (ls.filterMap fun i => (leafOf (t.get (node 0 i))).map fun l => (i, l)).length
  | [], _, _ => Nat.le_refl _
  | i :: ls, s, h => by
    have hi := h i (List.mem_cons_self ..)
    have ht := fun s => forLeaves_leaves t body hb ls s fun j hj => h j (List.mem_cons_of_mem _ hj)
    unfold forLeaves
    rw [get_leaf_spec hi]
    refine free_le counter_leaves fun o ho => ?_
    cases ho
    cases hl : leafOf (t.get (node 0 i)) with
    | none => simp only [List.filterMap_cons, hl, Option.map_none]; exact ht s
    | some l =>
      simp only [List.filterMap_cons, hl, Option.map_some, List.length_cons]
      rw [Nat.add_comm]
      exact bind_le counter_leaves (hb _ _ _) fun s' _ => ht s'

theorem forLeaves_others {c : Work → Nat} (hc : Counter c) {σ : Type} (t : RatchetTree) (body : σ → Nat → LeafNode → Counted σ)
    (hb : ∀ s i n, c (body s i n).work ≤ 0) : ∀ (ls : List Nat) (s : σ), c (forLeaves t body ls s).work ≤ 0
  | [], _ => Nat.le_of_eq hc.1
  | i :: ls, s => by
    unfold forLeaves
    refine free_le hc fun o ho => ?_
    cases o with
    | none => exact forLeaves_others hc t body hb ls s
    | some l => exact bind_le hc (m := 0) (n := 0) (hb _ _ _) fun s' _ => forLeaves_others hc t body hb ls s'

/-! ### Comparisons -/

theorem has_unmerged_leaf_work (li : LeafIndex) : ∀ us : List LeafIndex,
    (has_unmerged_leaf li us).work.digests = 0 ∧ (has_unmerged_leaf li us).work.leaves = 0 ∧
    (has_unmerged_leaf li us).work.comparisons = min (us.idxOf li + 1) us.length
  | [] => ⟨rfl, rfl, rfl⟩
  | u :: us => by
    obtain ⟨h1, h2, h3⟩ := has_unmerged_leaf_work li us
    unfold has_unmerged_leaf
    rw [bind_ok (a := u == li) rfl]
    cases h : u == li with
    | true =>
      have hu : u = li := eq_of_beq h
      subst hu
      refine ⟨rfl, rfl, ?_⟩
      rw [List.idxOf_cons_self]
      show 1 + 0 = _
      simp only [List.length_cons]
      omega
    | false =>
      have hu : li ≠ u := fun e => by subst e; simp at h
      rw [if_neg (by simp)]
      refine ⟨?_, ?_, ?_⟩
      · show 0 + _ = 0; omega
      · show 0 + _ = 0; omega
      · show 1 + _ = _
        rw [h3, List.idxOf_cons, h, cond_false]
        simp only [List.length_cons]
        omega

theorem sum_split {f g : Nat → Nat} {y c : Nat} (hfg : ∀ x, g x ≤ f x) (hy : g y + c ≤ f y) : ∀ l : List Nat, y ∈ l →
    c + (l.map g).sum ≤ (l.map f).sum
  | [], h => absurd h (List.not_mem_nil)
  | x :: l, h => by
    simp only [List.map_cons, List.sum_cons]
    have hmono : ∀ l : List Nat, (l.map g).sum ≤ (l.map f).sum := by
      intro l
      induction l with
      | nil => exact Nat.le_refl _
      | cons a l ih => simp only [List.map_cons, List.sum_cons]; have := hfg a; omega
    by_cases hx : x = y
    · subst hx
      have := hmono l
      omega
    · have := sum_split hfg hy l (by cases h with | head => exact absurd rfl hx | tail _ h => exact h)
      have := hfg x
      omega

/-- How many unmerged leaves are listed at level `m` and above. -/
def upwards (t : RatchetTree) (m : Nat) : Nat :=
  ((List.range t.length).map fun x => if 2 ^ m ≤ low x then listedAt (t.get x) else 0).sum

theorem upwards_step (t : RatchetTree) (m i : Nat) :
    listedAt (t.get (node m i)) + upwards t (m + 1) ≤ upwards t m := by
  have hle : ∀ x, (if 2 ^ (m + 1) ≤ low x then listedAt (t.get x) else 0) ≤
      if 2 ^ m ≤ low x then listedAt (t.get x) else 0 := by
    intro x
    split
    · rename_i h
      rw [if_pos (by rw [Nat.pow_succ] at h; omega)]
      exact Nat.le_refl _
    · exact Nat.zero_le _
  by_cases hy : node m i < t.length
  · refine sum_split (y := node m i) hle ?_ _ (List.mem_range.2 hy)
    rw [low_node, if_pos (Nat.le_refl _), if_neg (by rw [Nat.pow_succ]; have := Nat.two_pow_pos m; omega)]
    omega
  · rw [get_out (by omega)]
    show 0 + _ ≤ _
    rw [Nat.zero_add]
    unfold upwards
    generalize List.range t.length = l
    induction l with
    | nil => exact Nat.le_refl _
    | cons a l ih => simp only [List.map_cons, List.sum_cons]; have := hle a; omega

theorem upwards_zero (t : RatchetTree) : upwards t 0 = listedIn t := by
  unfold upwards listedIn
  congr 1
  apply List.ext_getElem
  · simp
  · intro x h1 h2
    simp only [List.length_map, List.length_range] at h1
    obtain ⟨k, i, hx⟩ := node_surj x
    simp only [List.getElem_map, List.getElem_range]
    rw [if_pos (by rw [hx, low_node]; exact Nat.one_le_two_pow), get_lt h1]

theorem upwards_le (t : RatchetTree) : ∀ m, upwards t m ≤ listedIn t
  | 0 => Nat.le_of_eq (upwards_zero t)
  | m + 1 => Nat.le_trans (by have := upwards_step t m 0; omega) (upwards_le t m)

theorem unmergedWalk_comparisons {t : RatchetTree} {n : Nat} (h0 : 0 < n) (hn : n ≤ 2 ^ 31) (p : Nat) (li : LeafIndex) :
    ∀ (fuel k i : Nat), (unmergedWalk t n p li fuel (node k i)).work.comparisons ≤ upwards t (k + 1)
  | 0, _, _ => Nat.zero_le _
  | fuel + 1, k, i => by
    unfold unmergedWalk
    refine free_le counter_comparisons fun o ho => ?_
    cases o with
    | none => exact Nat.zero_le _
    | some y =>
      have hroot : ¬ (k = NumLeaves.height n ∧ i = 0) := by
        rintro ⟨rfl, rfl⟩
        rw [NumLeaves.parent_root h0 hn] at ho
        cases ho
      have hk : k < 31 := by
        apply Nat.lt_of_not_le
        intro hk
        rw [NumLeaves.parent_over h0 hn hk hroot] at ho
        cases ho
      rw [NumLeaves.parent_node h0 hn hk hroot] at ho
      cases ho
      have ih := unmergedWalk_comparisons (t := t) h0 hn p li fuel (k + 1) (i / 2)
      have hs := upwards_step t (k + 1) (i / 2)
      dsimp only
      split
      · exact Nat.zero_le _
      · split
        · rename_i q hq
          rw [hq] at hs
          refine Nat.le_trans (bind_le counter_comparisons (m := q.unmerged_leaves.length) (n := upwards t (k + 1 + 1)) ?_
            fun found _ => ?_) hs
          · rw [(has_unmerged_leaf_work li _).2.2]
            exact Nat.min_le_right _ _
          · split
            · exact Nat.zero_le _
            · exact ih
        · omega

theorem unmergedWalk_others {c : Work → Nat} (hc : Counter c) (hu : ∀ li us, c (has_unmerged_leaf li us).work = 0)
    (t : RatchetTree) (n p : Nat) (li : LeafIndex) : ∀ (fuel x : Nat), c (unmergedWalk t n p li fuel x).work ≤ 0
  | 0, _ => Nat.le_of_eq hc.1
  | fuel + 1, x => by
    unfold unmergedWalk
    refine free_le hc fun o ho => ?_
    cases o with
    | none => exact Nat.le_of_eq hc.1
    | some y =>
      dsimp only
      split
      · exact Nat.le_of_eq hc.1
      · split
        · refine bind_le hc (m := 0) (n := 0) (Nat.le_of_eq (hu _ _)) fun found _ => ?_
          split
          · exact Nat.le_of_eq hc.1
          · exact unmergedWalk_others hc hu t n p li fuel y
        · exact unmergedWalk_others hc hu t n p li fuel y

theorem unmergedLoop_comparisons {t : RatchetTree} {n : Nat} (h0 : 0 < n) (hn : n ≤ 2 ^ 31) (p : Nat) : ∀ us : List LeafIndex,
    (unmergedLoop t n p us).work.comparisons ≤ us.length * listedIn t
  | [] => Nat.zero_le _
  | u :: us => by
    unfold unmergedLoop
    refine free_le counter_comparisons fun x hx => ?_
    have hx' : x = node 0 u.toNat := by
      rw [node_zero]
      by_cases hu : u.toNat < 2 ^ 31
      · rw [node_index_eq hu] at hx; cases hx; rfl
      · rw [node_index_panic (by omega)] at hx; cases hx
    subst hx'
    rw [List.length_cons, Nat.succ_mul, Nat.add_comm]
    exact bind_le counter_comparisons (Nat.le_trans (unmergedWalk_comparisons h0 hn p u 34 0 _) (upwards_le t _))
      fun _ _ => unmergedLoop_comparisons h0 hn p us

theorem unmergedLoop_others {c : Work → Nat} (hc : Counter c) (hu : ∀ li us, c (has_unmerged_leaf li us).work = 0)
    (t : RatchetTree) (n p : Nat) : ∀ us : List LeafIndex, c (unmergedLoop t n p us).work ≤ 0
  | [] => Nat.le_of_eq hc.1
  | u :: us => by
    unfold unmergedLoop
    exact free_le hc fun x hx => bind_le hc (m := 0) (n := 0) (unmergedWalk_others hc hu t n p u 34 x) fun _ _ =>
      unmergedLoop_others hc hu t n p us

theorem parentLoop_comparisons {t : RatchetTree} {n : Nat} (h0 : 0 < n) (hn : n ≤ 2 ^ 31) :
    ∀ (ns : List (Option Node)) (i : Nat) (ks : List HPKEPublicKey),
    (parentLoop t n i ns ks).work.comparisons ≤ listedIn ns * listedIn t
  | [], _, _ => Nat.zero_le _
  | none :: ns, i, ks => by
    unfold parentLoop
    have := parentLoop_comparisons (t := t) h0 hn ns (i + 1) ks
    unfold listedIn at this ⊢
    simpa [listedAt] using this
  | some (.Leaf l) :: ns, i, ks => by
    unfold parentLoop
    have := parentLoop_comparisons (t := t) h0 hn ns (i + 1) ks
    unfold listedIn at this ⊢
    simpa [listedAt] using this
  | some (.Parent p) :: ns, i, ks => by
    unfold parentLoop
    have h : listedIn (some (.Parent p) :: ns) * listedIn t = p.unmerged_leaves.length * listedIn t + listedIn ns * listedIn t := by
      rw [← Nat.add_mul]; rfl
    rw [h]
    refine bind_le counter_comparisons (unmergedLoop_comparisons h0 hn _ _) fun _ _ => ?_
    split
    · exact Nat.zero_le _
    · exact parentLoop_comparisons h0 hn ns (i + 1) _

theorem parentLoop_others {c : Work → Nat} (hc : Counter c) (hu : ∀ li us, c (has_unmerged_leaf li us).work = 0)
    (t : RatchetTree) (n : Nat) : ∀ (ns : List (Option Node)) (i : Nat) (ks : List HPKEPublicKey),
    c (parentLoop t n i ns ks).work ≤ 0
  | [], _, _ => Nat.le_of_eq hc.1
  | none :: ns, i, ks => by
    unfold parentLoop
    exact parentLoop_others hc hu t n ns (i + 1) ks
  | some (.Leaf l) :: ns, i, ks => by
    unfold parentLoop
    exact parentLoop_others hc hu t n ns (i + 1) ks
  | some (.Parent p) :: ns, i, ks => by
    unfold parentLoop
    refine bind_le hc (m := 0) (n := 0) (unmergedLoop_others hc hu t n _ _) fun _ _ => ?_
    split
    · exact Nat.le_of_eq hc.1
    · exact parentLoop_others hc hu t n ns (i + 1) _

end RatchetTree.Counting
end Rmls
