import Verif.Proofs.Integrity
import Verif.Props.TreeHash
import Verif.Props.LeafNode
/-
Property C19: `verify_integrity` accepts exactly the valid trees.

`Spec.TreeValid` is the list of conditions, over the RFC notions.
-/
namespace Rmls
open Spec RatchetTree

theorem HashDefined_leafShaped {H : Bytes → Bytes} {nodes : Nat → Option Node} : ∀ {k i j : Nat},
    HashDefined H nodes k i → below k i j → ∀ p, nodes (node 0 j) ≠ some (.Parent p) := by
  intro k
  induction k with
  | zero =>
    intro i j h hb
    obtain rfl : j = i := by unfold below at hb; omega
    exact h.1
  | succ k ih =>
    intro i j h hb
    rw [below_div, Nat.pow_succ, ← Nat.div_div_eq_div_mul] at hb
    by_cases hj : j / 2 ^ k = 2 * i
    · exact ih h.2.2.1 (below_div.2 hj)
    · exact ih h.2.2.2 (below_div.2 (by omega))

theorem below_small {k i j : Nat} (hki : (i + 1) * 2 ^ (k + 1) ≤ 2 ^ 32) (h : below k i j) : j < 2 ^ 31 := by
  have := h.2
  rw [Nat.pow_succ, ← Nat.mul_assoc] at hki
  omega

/-- The exact condition, whatever is in the slot left over in arrays of even length: an unmerged leaf listed
there must not be in the tree. -/
theorem verify_integrity_iff (P : CryptoProvider) (t : RatchetTree) (ctx : GroupContext) (now : Int) (Hs : Hash)
    (hP : P.hash ctx.cipher_suite = .ok Hs) (h0 : 0 < t.length) (hl : t.length < 2 ^ 32) (K : Nat)
    (hK : IsHeight ((t.length + 1) / 2) K) :
    verify_integrity P t ctx now = .ok () ↔
      TreeValid P Hs.digest t.get K ((t.length + 1) / 2) ctx now ∧
      ∀ k i p, t.get (node k i) = some (.Parent p) → ∀ u ∈ p.unmerged_leaves, u.toNat < 2 ^ K → k ≤ K := by
  obtain ⟨n0, n1, n2⟩ := num_leaves_bounds h0 hl
  have hn : t.num_leaves = (t.length + 1) / 2 := by omega
  have hh : NumLeaves.height t.num_leaves = K := isHeight_unique (isHeight_height n0) (hn ▸ hK)
  obtain ⟨hroot, hK31⟩ := root_height h0 hl hK
  obtain ⟨hK32, hKpos⟩ := root_pos hK31
  -- positions of the array
  have hpos : ∀ k i n, t.get (node k i) = some n →
      k < 32 ∧ (i + 1) * 2 ^ (k + 1) ≤ 2 ^ 32 ∧ node k i < t.length ∧ node k i < 4294967296 := by
    intro k i n h
    have h1 := lt_of_get h
    obtain ⟨a, b⟩ := pos_bound (k := k) (i := i) (by omega)
    exact ⟨a, b, h1, by omega⟩
  have hleaf : ∀ i n, t.get (node 0 i) = some n → i < t.num_leaves := by
    intro i n h
    have := lt_of_get h
    rw [node_zero] at this
    omega
  -- the steps
  have hhash : (HashDefined Hs.digest t.get K 0 ∧ compute_root_tree_hash P ctx.cipher_suite t =
        .ok (treeHash Hs.digest t.get K 0)) ∨
      (¬ HashDefined Hs.digest t.get K 0 ∧ ∃ e, compute_root_tree_hash P ctx.cipher_suite t = .err e) := by
    unfold compute_root_tree_hash compute_tree_hash
    rw [hroot, Res.ok_bind]
    have := treeHashFuel_eq hP t [] K 33 0 hK32 (by omega) hKpos
    rwa [without_nil] at this
  obtain ⟨creds, hcr, hcreds⟩ := supported_creds_eq hl
  have hcreds : (fun ct => ct ∈ creds) = SupportedCred t.get ((t.length + 1) / 2) := by
    funext ct
    rw [← hn]
    exact propext (hcreds ct)
  have hleaves := fun r => leafFold_iff P ctx now creds (members t.get t.num_leaves) ([], []) r
  rw [← verifyLeaves_eq hl] at hleaves
  have hunm : ∀ k i p, t.get (node k i) = some (.Parent p) →
      (unmergedLoop t t.num_leaves (cast32 (node k i)) p.unmerged_leaves = .ok () ↔
        ∀ u ∈ p.unmerged_leaves, UnmergedGood t K k i u) := by
    intro k i p h
    obtain ⟨a, b, _, d⟩ := hpos k i _ h
    rw [cast32_eq d, unmergedLoop_iff n0 n1 k i a b, hh]
  have hph : t.SmallUnmerged → (verify_parent_hashes P ctx.cipher_suite t = .ok true ↔
      ∀ k i p, t.get (node (k + 1) i) = some (.Parent p) → ParentHashValid Hs.digest t.get k i p) := by
    intro ht
    unfold verify_parent_hashes
    rw [verifyParentHashesLoop_iff]
    constructor
    · intro h k i p hg
      obtain ⟨a, b, c, d⟩ := hpos _ _ _ hg
      have := h (node (k + 1) i) c
      rw [Nat.zero_add, ← get_lt c, hg] at this
      exact (verifyParentHash_iff hP ht k i a b d p).1 this
    · intro h x hx
      rw [Nat.zero_add, ← get_lt hx]
      obtain ⟨k, i, rfl⟩ := node_surj x
      obtain ⟨a, b⟩ := pos_bound (k := k) (i := i) (by omega)
      by_cases hg : ∃ j p, k = j + 1 ∧ t.get (node k i) = some (.Parent p)
      · obtain ⟨j, p, rfl, hg⟩ := hg
        rw [hg]
        exact (verifyParentHash_iff hP ht j i a b (by omega) p).2 (h j i p hg)
      · exact verifyParentHash_other k i a (by omega) _ fun j p e hc => hg ⟨j, p, e, hc⟩
  have small_of : (∀ k i p, t.get (node k i) = some (.Parent p) → ∀ u ∈ p.unmerged_leaves,
      UnmergedListed t.get k i u) → t.SmallUnmerged := by
    intro h x p hx u hu
    obtain ⟨k, i, rfl⟩ := node_surj x
    obtain ⟨_, b, _, _⟩ := hpos k i _ hx
    exact below_small b (h k i p hx u hu).below
  have sig_iff := pairwise_ne_iff (fun m : Nat × LeafNode => m.2.payload.signature_key) (fun m => m.1)
    (members_sorted t.get t.num_leaves)
  have enc_iff := pairwise_ne_iff (fun m : Nat × LeafNode => m.2.payload.encryption_key) (fun m => m.1)
    (members_sorted t.get t.num_leaves)
  have par_iff := pairwise_ne_iff (fun m : Nat × ParentNode => m.2.encryption_key) (fun m => m.1)
    (parentsFrom_sorted t 0)
  have hmem : ∀ i l, t.get (node 0 i) = some (.Leaf l) → (i, l) ∈ members t.get t.num_leaves :=
    fun i l h => mem_members.2 ⟨hleaf i _ h, h⟩
  constructor
  · intro h
    unfold verify_integrity at h
    obtain ⟨hd, he⟩ | ⟨_, e, he⟩ := hhash
    rotate_left
    · rw [he] at h; cases h
    rw [he, Res.ok_bind] at h
    by_cases hne : treeHash Hs.digest t.get K 0 ≠ ctx.tree_hash
    · rw [if_pos hne] at h; cases h
    rw [if_neg hne] at h
    obtain ⟨good, hgood, h⟩ := Res.bind_ok_iff.1 h
    by_cases hg : good = false
    · rw [if_pos hg] at h; cases h
    rw [if_neg hg, hcr, Res.ok_bind] at h
    obtain rfl : good = true := by simpa using hg
    obtain ⟨⟨sk, ek⟩, hv, h⟩ := Res.bind_ok_iff.1 h
    obtain ⟨l1, l2, l3, l4⟩ := (hleaves _).1 hv
    obtain ⟨p1, p2⟩ := (parentLoop_iff _ _ _).1 h
    rw [sig_iff] at l2
    rw [enc_iff] at l3
    rw [par_iff] at p2
    obtain ⟨-, rfl⟩ := Prod.mk.inj l4
    have hu : ∀ k i p, t.get (node k i) = some (.Parent p) → ∀ u ∈ p.unmerged_leaves, UnmergedGood t K k i u :=
      fun k i p hg => (hunm k i p hg).1 (p1 _ (mem_parents.2 hg)).1
    have hlist := fun k i p hg u hm => (hu k i p hg u hm).2.1
    refine ⟨⟨hd, Classical.not_not.1 hne, (hph (small_of hlist)).1 hgood, ?_, ?_, ?_, hlist⟩,
      fun k i p hg u hm => (hu k i p hg u hm).2.2⟩
    · intro i l hg
      have := (l1 _ (hmem i l hg)).1
      rwa [hcreds] at this
    · intro i j l m hi hj e
      exact l2 _ (hmem i l hi) _ (hmem j m hj) e
    · have cross : ∀ i l x p key, t.get (node 0 i) = some (.Leaf l) → l.payload.encryption_key = key →
          t.get x = some (.Parent p) → p.encryption_key = key → False := by
        intro i l x p key hi e hx e'
        refine (p1 _ (mem_parents.2 hx)).2 ?_
        rw [List.append_nil, List.mem_reverse, List.mem_map]
        exact ⟨_, hmem i l hi, by rw [e, e']⟩
      rintro x y key (⟨i, l, rfl, hi, e⟩ | ⟨p, hp, e⟩) (⟨j, m, rfl, hj, e'⟩ | ⟨q, hq, e'⟩)
      · have := l3 _ (hmem i l hi) _ (hmem j m hj) (e.trans e'.symm)
        exact congrArg (node 0) this
      · exact (cross i l y q key hi e hq e').elim
      · exact (cross j m x p key hj e' hp e).elim
      · exact p2 _ (mem_parents.2 hp) _ (mem_parents.2 hq) (e.trans e'.symm)
  · rintro ⟨⟨hd, he, hp, hv, hs, hk, hu⟩, hx⟩
    unfold verify_integrity
    obtain ⟨_, e⟩ | ⟨h, _⟩ := hhash
    rotate_left
    · exact absurd hd h
    rw [e, Res.ok_bind, if_neg (not_not_intro he), (hph (small_of hu)).2 hp, Res.ok_bind, if_neg (by nofun), hcr,
      Res.ok_bind]
    have hl' : verifyLeaves P t ctx now creds = .ok
        (((members t.get t.num_leaves).map fun m => m.2.payload.signature_key).reverse ++ [],
          ((members t.get t.num_leaves).map fun m => m.2.payload.encryption_key).reverse ++ []) := by
      refine (hleaves _).2 ⟨?_, ?_, ?_, rfl⟩
      · intro m hm
        obtain ⟨h1, h2⟩ := mem_members.1 hm
        refine ⟨?_, by simp, by simp⟩
        rw [hcreds]
        exact hv _ _ h2
      · rw [sig_iff]
        intro a ha b hb e
        exact hs _ _ _ _ (mem_members.1 ha).2 (mem_members.1 hb).2 e
      · rw [enc_iff]
        intro a ha b hb e
        have := hk _ _ _ (Or.inl ⟨a.1, a.2, rfl, (mem_members.1 ha).2, rfl⟩)
          (Or.inl ⟨b.1, b.2, rfl, (mem_members.1 hb).2, e.symm⟩)
        exact (node_inj this).2
    rw [hl', Res.ok_bind]
    refine (parentLoop_iff _ _ _).2 ⟨?_, ?_⟩
    · intro m hm
      have hg := mem_parents.1 (show (m.1, m.2) ∈ parentsFrom 0 t from hm)
      constructor
      · obtain ⟨k, i, hki⟩ := node_surj m.1
        rw [hki] at hg ⊢
        refine (hunm k i m.2 hg).2 fun u hm => ⟨?_, hu k i _ hg u hm, hx k i _ hg u hm⟩
        apply Decidable.byContradiction
        intro hc
        obtain rfl : k = 0 := by omega
        refine HashDefined_leafShaped hd (below_div.2 (Nat.div_eq_of_lt ?_)) _ hg
        have := hleaf i _ hg
        have := hK.1
        omega
      · rw [List.append_nil, List.mem_reverse, List.mem_map]
        rintro ⟨a, ha, e⟩
        have ha' := (mem_members.1 (show (a.1, a.2) ∈ members t.get t.num_leaves from ha)).2
        have := hk _ _ _ (Or.inl ⟨a.1, a.2, rfl, ha', e⟩) (Or.inr ⟨m.2, hg, rfl⟩)
        rw [← this, ha'] at hg
        cases hg
    · rw [par_iff]
      intro a ha b hb e
      exact hk _ _ _ (Or.inr ⟨a.2, mem_parents.1 ha, rfl⟩) (Or.inr ⟨b.2, mem_parents.1 hb, e.symm⟩)

/-- C19: an accepted tree is valid, whatever the array. -/
theorem C19_sound (P : CryptoProvider) (t : RatchetTree) (ctx : GroupContext) (now : Int) (Hs : Hash)
    (hP : P.hash ctx.cipher_suite = .ok Hs) (h0 : 0 < t.length) (hl : t.length < 2 ^ 32) (K : Nat)
    (hK : IsHeight ((t.length + 1) / 2) K) (h : verify_integrity P t ctx now = .ok ()) :
    TreeValid P Hs.digest t.get K ((t.length + 1) / 2) ctx now :=
  ((verify_integrity_iff P t ctx now Hs hP h0 hl K hK).1 h).1

/-- C19: a tree without nodes outside of the perfect tree over its leaves, such as any tree read from the wire,
is accepted if and only if it is valid. -/
theorem C19_exact (P : CryptoProvider) (t : RatchetTree) (ctx : GroupContext) (now : Int) (Hs : Hash)
    (hP : P.hash ctx.cipher_suite = .ok Hs) (h0 : 0 < t.length) (hl : t.length < 2 ^ 32) (K : Nat)
    (hK : IsHeight ((t.length + 1) / 2) K) (hin : ∀ x n, t.get x = some n → x < 2 ^ (K + 1) - 1) :
    verify_integrity P t ctx now = .ok () ↔ TreeValid P Hs.digest t.get K ((t.length + 1) / 2) ctx now := by
  rw [verify_integrity_iff P t ctx now Hs hP h0 hl K hK, and_iff_left]
  intro k i p h _ _ _
  have := inSubtree_root.2 (hin _ _ h)
  exact (inSubtree_node.1 this).1

/-! ### An accepted tree -/

/-- A leaf of the example provider, signed for its place in group `[7]`. -/
def signedLeaf (k : UInt8) (source : LeafNodeSource) : LeafNode :=
  let payload := { (toyLeaf k).payload with leaf_node_source := source }
  { payload, signature := [k, k] ++ (labelled (text "LeafNodeTBS")
      (leafNodeTBS payload [7] (UInt32.ofNat k.toNat)).bytes).bytes }

/-- Four leaves, three members; leaf `u` is unmerged at the root and at the left child.  Leaf 0 committed last. -/
def treeWith (one : Option Node) (us : List LeafIndex) : RatchetTree :=
  let two := some (.Leaf (signedLeaf 2 .Update))
  let root : ParentNode := ⟨[9], [], us⟩
  let h := (parentHashEnc root (treeHash id (fun x => if x = 4 then two else none) 1 1)).bytes
  let left : ParentNode := ⟨[8], h, us⟩
  let g := (parentHashEnc left (treeHash id (fun _ => none) 0 1)).bytes
  [some (.Leaf (signedLeaf 0 (.Commit g))), some (.Parent left), one, some (.Parent root), two, none, none]

def contextOf (t : RatchetTree) : GroupContext :=
  { toyContext with tree_hash := treeHash id t.get 2 0 }

def goodTree : RatchetTree := treeWith (some (.Leaf (signedLeaf 1 .Update))) [1]

theorem goodTree_height : IsHeight ((goodTree.length + 1) / 2) 2 := toyTree_height

set_option maxRecDepth 100000 in
/-- A tree with two parents, an unmerged leaf and a committed leaf is accepted. -/
example : verify_integrity toyProvider goodTree (contextOf goodTree) 0 = .ok () := by decide +kernel

set_option maxRecDepth 100000 in
/-- It is not accepted if the unmerged leaf is not in the list. -/
example : verify_integrity toyProvider (treeWith (some (.Leaf (signedLeaf 1 .Update))) [])
    (contextOf (treeWith (some (.Leaf (signedLeaf 1 .Update))) [])) 0 =
    .err .ParentHashesVerificationFailed := by decide +kernel

set_option maxRecDepth 100000 in
/-- C54 is false: a tree is accepted in which a blank leaf is unmerged at two parents, so that a node without a
key is in their resolutions. -/
theorem C54_refuted : ∃ t ctx, verify_integrity toyProvider t ctx 0 = .ok () ∧
    ∃ k i p, t.get (node k i) = some (.Parent p) ∧ ∃ u ∈ p.unmerged_leaves, t.get (node 0 u.toNat) = none ∧
      node 0 u.toNat ∈ resolution t.get k i :=
  ⟨treeWith none [1], contextOf (treeWith none [1]), by decide +kernel, 2, 0, ⟨[9], [], [1]⟩, rfl, 1, by decide,
    rfl, by decide⟩

/-- C54, what is true: an unmerged leaf of a parent in an accepted tree is the place of a leaf below that parent,
blank or a member.  Missing: it may be blank, see `C54_refuted`. -/
theorem C54_partial (P : CryptoProvider) (t : RatchetTree) (ctx : GroupContext) (now : Int) (Hs : Hash)
    (hP : P.hash ctx.cipher_suite = .ok Hs) (h0 : 0 < t.length) (hl : t.length < 2 ^ 32) (K : Nat)
    (hK : IsHeight ((t.length + 1) / 2) K) (h : verify_integrity P t ctx now = .ok ()) (k i : Nat) (p : ParentNode)
    (hx : node k i < 2 ^ (K + 1) - 1) (hp : t.get (node k i) = some (.Parent p)) (u : LeafIndex)
    (hu : u ∈ p.unmerged_leaves) :
    below k i u.toNat ∧ u.toNat < 2 ^ K ∧ (t.get (node 0 u.toNat) = none ∨
      ∃ l, t.get (node 0 u.toNat) = some (.Leaf l)) := by
  have hv := C19_sound P t ctx now Hs hP h0 hl K hK h
  have hb := (hv.unmerged k i p hp u hu).below
  have hk := inSubtree_node.1 (inSubtree_root.2 hx)
  have hu : below K 0 u.toNat := by
    rw [below_div] at hb ⊢
    have h1 := hk.2
    rw [← hb, Nat.div_div_eq_div_mul, ← Nat.pow_add, show k + (K - k) = K by omega] at h1
    exact h1
  refine ⟨hb, ?_, ?_⟩
  · have := hu.2; simpa using this
  · cases hg : t.get (node 0 u.toNat) with
    | none => exact Or.inl rfl
    | some n =>
      cases n with
      | Leaf l => exact Or.inr ⟨l, rfl⟩
      | Parent q => exact absurd hg (HashDefined_leafShaped hv.defined hu q)

end Rmls
