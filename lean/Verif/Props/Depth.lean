import Verif.Proofs.TreeHash
import Verif.Proofs.Resolve
import Verif.Proofs.SecretTree
import Verif.Props.MergeExact
import Verif.Props.History
/-
Property C112 (recursion is no deeper than the tree is high).  The functions with fuel are the functions of the library run
on a stack that has room for so many calls of themselves.
-/
namespace Rmls
open Spec RatchetTree

private abbrev suite1 : CipherSuite := .MLS_128_DHKEMX25519_AES128GCM_SHA256_Ed25519

private theorem resolve_depth (t : RatchetTree) : ∀ (k F i : Nat), k < 32 → k < F →
    resolveFuel t F (node k i) = resolveFuel t (k + 1) (node k i) := by
  intro k
  induction k with
  | zero =>
    intro F i _ hF
    obtain ⟨F, rfl⟩ : ∃ m, F = m + 1 := ⟨F - 1, by omega⟩
    unfold resolveFuel
    rw [NodeIndex.children_zero]
    rfl
  | succ k ih =>
    intro F i hk hF
    obtain ⟨F, rfl⟩ : ∃ m, F = m + 1 := ⟨F - 1, by omega⟩
    unfold resolveFuel
    rw [NodeIndex.children_succ i hk]
    simp only [Res.ok_bind, ih F _ (by omega) (by omega)]

/-- C112: to resolve a node at level `k`, room for `k + 1` calls is enough, in whatever tree. -/
theorem C112_resolve (t : RatchetTree) (k F i : Nat) (hk : k < 32) (hF : k < F) :
    resolveFuel t F (node k i) = t.resolve (node k i) := by
  rw [resolve_depth t k F i hk hF, resolve, resolve_depth t k 33 i hk (by omega)]

private theorem hash_depth (P : CryptoProvider) (cs : CipherSuite) (t : RatchetTree) (ex : List LeafIndex) :
    ∀ (k F i : Nat), k < 32 → k < F → treeHashFuel P cs t ex F (node k i) = treeHashFuel P cs t ex (k + 1) (node k i) := by
  intro k
  induction k with
  | zero =>
    intro F i _ hF
    obtain ⟨F, rfl⟩ : ∃ m, F = m + 1 := ⟨F - 1, by omega⟩
    rw [treeHashFuel_zero, treeHashFuel_zero]
  | succ k ih =>
    intro F i hk hF
    obtain ⟨F, rfl⟩ : ∃ m, F = m + 1 := ⟨F - 1, by omega⟩
    rw [treeHashFuel_succ _ _ _ _ _ _ hk, treeHashFuel_succ _ _ _ _ _ _ hk]
    simp only [ih F _ (by omega) (by omega)]

/-- C112: to hash a node at level `k`, room for `k + 1` calls is enough, in whatever tree. -/
theorem C112_hash (P : CryptoProvider) (cs : CipherSuite) (t : RatchetTree) (ex : List LeafIndex) (k F i : Nat) (hk : k < 32)
    (hF : k < F) : treeHashFuel P cs t ex F (node k i) = t.compute_tree_hash P cs (node k i) ex := by
  rw [hash_depth P cs t ex k F i hk hF, compute_tree_hash, hash_depth P cs t ex k 33 i hk (by omega)]

/-- C112: and less is not, in whatever tree. -/
theorem C112_hash_tight (P : CryptoProvider) (cs : CipherSuite) (t : RatchetTree) (ex : List LeafIndex) : ∀ (k F i : Nat),
    k < 32 → F ≤ k → treeHashFuel P cs t ex F (node k i) = .fault .hang := by
  intro k
  induction k with
  | zero => intro F i _ hF; obtain rfl : F = 0 := by omega
            rfl
  | succ k ih =>
    intro F i hk hF
    cases F with
    | zero => rfl
    | succ F =>
      rw [treeHashFuel_succ _ _ _ _ _ _ hk, ih F _ (by omega) (by omega)]
      rfl

/-- C112: to resolve a node with only blanks below takes all of the `k + 1` calls. -/
theorem C112_resolve_tight (t : RatchetTree) : ∀ (k F i : Nat), k < 32 → F ≤ k →
    (∀ k' i', k' ≤ k → i' / 2 ^ (k - k') = i → t.get (node k' i') = none) →
    resolveFuel t F (node k i) = .fault .hang := by
  intro k
  induction k with
  | zero => intro F i _ hF _; obtain rfl : F = 0 := by omega
            rfl
  | succ k ih =>
    intro F i hk hF hb
    cases F with
    | zero => rfl
    | succ F =>
      unfold resolveFuel
      rw [hb (k + 1) i (Nat.le_refl _) (by simp)]
      dsimp only
      rw [NodeIndex.children_succ i hk, Res.ok_bind]
      dsimp only
      rw [ih F (2 * i) (by omega) (by omega) fun k' i' h1 h2 => hb k' i' (by omega) ?_]
      · rfl
      · rw [show k + 1 - k' = (k - k') + 1 by omega, Nat.pow_succ, ← Nat.div_div_eq_div_mul, h2]
        omega

private theorem derive_depth (P : CryptoProvider) (cs : CipherSuite) : ∀ (k F i : Nat) (t : SecretTree), k < 32 → k < F →
    SecretTree.derive_children P cs F t (node k i) = SecretTree.derive_children P cs (k + 1) t (node k i) := by
  intro k
  induction k with
  | zero =>
    intro F i t _ hF
    obtain ⟨F, rfl⟩ : ∃ m, F = m + 1 := ⟨F - 1, by omega⟩
    unfold SecretTree.derive_children
    rw [NodeIndex.children_zero]
    rfl
  | succ k ih =>
    intro F i t hk hF
    obtain ⟨F, rfl⟩ : ∃ m, F = m + 1 := ⟨F - 1, by omega⟩
    unfold SecretTree.derive_children
    rw [NodeIndex.children_succ i hk]
    simp only [Res.ok_bind, ih F _ _ (by omega) (by omega)]

/-- C112: a level that is not a level of 32 bits is refused before the first recursive call. -/
theorem C112_over (t : RatchetTree) (P : CryptoProvider) (cs : CipherSuite) (st : SecretTree) (k F i : Nat) (hk : 32 ≤ k)
    (hg : t.get (node k i) = none) (ex : List LeafIndex) : resolveFuel t (F + 1) (node k i) = .fault .panic ∧
      treeHashFuel P cs t ex (F + 1) (node k i) = .fault .panic ∧
      SecretTree.derive_children P cs (F + 1) st (node k i) = .fault .panic := by
  refine ⟨?_, ?_, ?_⟩
  · unfold resolveFuel; rw [hg]; dsimp only; rw [NodeIndex.children_over i hk]; rfl
  · obtain ⟨k, rfl⟩ : ∃ m, k = m + 1 := ⟨k - 1, by omega⟩
    rw [treeHashFuel, NodeIndex.leaf_index_succ]
    dsimp only
    rw [NodeIndex.children_over i hk]; rfl
  · unfold SecretTree.derive_children; rw [NodeIndex.children_over i hk]; rfl

/-- C112: the tree of message secrets for `n` leaves is made with room for as many calls as it has levels, and with room for
fewer it is not made. -/
theorem C112_secret_tree (P : CryptoProvider) (cs : CipherSuite) (n : Nat) (h0 : 0 < n) (hn : n ≤ 2 ^ 31) (es : Bytes) (K : Nat)
    (hK : IsHeight n K) (F : Nat) (hF : K < F) :
    SecretTree.new P cs n es = SecretTree.derive_children P cs F
      (SecretTree.setSecret (List.replicate (2 * (n - 1) + 1) none) (node K 0) es) (node K 0) := by
  obtain rfl : K = NumLeaves.height n := Nat.le_antisymm (hK.2 _ (isHeight_height h0).1) ((isHeight_height h0).2 _ hK.1)
  have hk := NumLeaves.height_lt h0 hn
  unfold SecretTree.new
  rw [NumLeaves.width_eq h0 hn, Res.ok_bind, NumLeaves.root_eq h0 hn, Res.ok_bind, derive_depth P cs _ 33 0 _ hk (by omega),
    derive_depth P cs _ F 0 _ hk hF]

theorem C112_secret_tight (P : CryptoProvider) (cs : CipherSuite) : ∀ (k F i : Nat) (t t' : SecretTree), k < 32 →
    SecretTree.derive_children P cs F t (node k i) = .ok t' → k < F := by
  intro k
  induction k with
  | zero =>
    intro F i t t' _ h
    cases F with
    | zero => cases h
    | succ F => omega
  | succ k ih =>
    intro F i t t' hk h
    cases F with
    | zero => cases h
    | succ F =>
      unfold SecretTree.derive_children at h
      rw [NodeIndex.children_succ i hk, Res.ok_bind] at h
      simp only [Res.bind_ok_iff] at h
      obtain ⟨_, _, _, _, _, _, _, _, _, h1, _⟩ := h
      have := ih F _ _ _ (by omega) h1
      omega

/-- C112: the root of a tree that is not empty is at a level `K` with `2 ^ K` no larger than the array, and at most 31: so what
somebody can make the library recurse is logarithmic in what they send. -/
theorem C112_root (t : RatchetTree) (h0 : 0 < t.length) (hl : t.length < 2 ^ 32) :
    ∃ K, NumLeaves.root t.num_leaves = .ok (node K 0) ∧ K ≤ 31 ∧ 2 ^ K ≤ t.length := by
  obtain ⟨h1, h2, h3⟩ := num_leaves_bounds h0 (by omega)
  refine ⟨_, NumLeaves.root_eq h1 h2, by have := NumLeaves.height_lt h1 h2; omega, ?_⟩
  have := (NumLeaves.height_bounds h1).1
  omega

section examples
/-- Three levels of recursion for a tree of four leaves, and no fewer. -/
example : treeHashFuel sumProvider suite1 sumFour [] 3 3 = sumFour.compute_tree_hash sumProvider suite1 3 [] ∧
    treeHashFuel sumProvider suite1 sumFour [] 2 3 = .fault .hang :=
  ⟨C112_hash sumProvider suite1 sumFour [] 2 3 0 (by omega) (by omega),
    C112_hash_tight sumProvider suite1 sumFour [] 2 2 0 (by omega) (by omega)⟩
/-- Where a parent is not blank nothing below it is visited. -/
example : resolveFuel goodTree 1 1 = goodTree.resolve 1 := by decide
example : resolveFuel [none, none, none] 1 1 = .fault .hang ∧ resolveFuel [none, none, none] 2 1 = .ok [] := by decide
end examples
end Rmls
