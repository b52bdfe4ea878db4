import Verif.Proofs.Resolve
import Verif.Props.Members
/-
Property C18: the resolution of a node.

`Spec.resolution` is the recursion of RFC 9420 section 4.1.1 on the nodes by level and position.
-/
namespace Rmls
open Spec RatchetTree

theorem members_small {t : RatchetTree} (hl : t.length < 2 ^ 32) (hu : UnmergedMembers t.get) : t.SmallUnmerged := by
  intro x p hx u hum
  obtain ⟨k, i, rfl⟩ := node_surj x
  obtain ⟨_, l, h⟩ := hu k i p hx u hum
  have := lt_of_get h
  rw [node_zero] at this
  omega

theorem unmergedOk_small {t : RatchetTree} (hl : t.length < 2 ^ 32) (hu : UnmergedOk t.get) : t.SmallUnmerged :=
  members_small hl hu.members

private theorem level_lt {k i : Nat} (hx : node k i < 2 ^ 32 - 1) : k < 32 := by
  apply Decidable.byContradiction
  intro hc
  have h1 := node_le k i
  have h2 : 2 ^ 32 ≤ 2 ^ k := Nat.pow_le_pow_right (by omega) (by omega)
  omega

private theorem room_below {k i : Nat} (hx : node k i < 2 ^ 32 - 1) : (i + 1) * 2 ^ (k + 1) ≤ 2 ^ 32 := by
  have hk := level_lt hx
  have h1 := node_add_one k i
  have h2 : 2 ^ 32 = 2 ^ (32 - (k + 1)) * 2 ^ (k + 1) := by rw [← Nat.pow_add]; congr 1; omega
  rw [h2]
  apply Nat.mul_le_mul_right
  apply Decidable.byContradiction
  intro hc
  have h3 : 2 ^ (32 - (k + 1)) * 2 ^ (k + 1) ≤ i * 2 ^ (k + 1) := Nat.mul_le_mul_right _ (by omega)
  have h4 : i * 2 ^ (k + 1) ≤ node k i := by
    have : 2 ^ k * (2 * i + 1) = i * 2 ^ (k + 1) + 2 ^ k := by rw [Nat.pow_succ]; grind
    have := Nat.two_pow_pos k
    omega
  omega

/-- C18: for every tree and every node with a 32 bit index, `resolve` returns the resolution of RFC 9420, unless this
names a leaf whose node index does not fit 32 bits. -/
theorem C18_resolve_partial (t : RatchetTree) (k i : Nat) (hx : node k i < 2 ^ 32 - 1)
    (hu : ∀ x ∈ resolution t.get k i, x < 2 ^ 32) : t.resolve (node k i) = .ok (resolution t.get k i) := by
  rcases resolveFuel_or (t := t) k 33 i (level_lt hx) (by have := level_lt hx; omega) with h | h
  · exact h
  · obtain ⟨x, h1, h2⟩ := (resolveFuel_panics k 33 i (level_lt hx) (by have := level_lt hx; omega) (room_below hx)).1 h
    have := hu x h1
    omega

/-- C18: in that case it panics. -/
theorem C18_panics (t : RatchetTree) (k i : Nat) (hx : node k i < 2 ^ 32 - 1) (x : Nat)
    (hm : x ∈ resolution t.get k i) (h : 2 ^ 32 ≤ x) : t.resolve (node k i) = .fault .panic :=
  (resolveFuel_panics k 33 i (level_lt hx) (by have := level_lt hx; omega) (room_below hx)).2 ⟨x, hm, h⟩

/-- In trees whose unmerged leaf indices are below 2^31 there is no such leaf. -/
theorem C18_resolve_small (t : RatchetTree) (k i : Nat) (hx : node k i < 2 ^ 32 - 1)
    (hu : ∀ x p, t.get x = some (.Parent p) → ∀ u ∈ p.unmerged_leaves, u.toNat < 2 ^ 31) :
    t.resolve (node k i) = .ok (resolution t.get k i) :=
  resolveFuel_ok hu k 33 i (level_lt hx) (by have := level_lt hx; omega)

/-- C18: a listed unmerged leaf of 2^31 or more, which the wire format allows, is a panic. -/
theorem C18_large_unmerged_refuted (t : RatchetTree) (x : Nat) (p : ParentNode) (u : LeafIndex)
    (hx : t.get x = some (.Parent p)) (hu : u ∈ p.unmerged_leaves) (h : 2 ^ 31 ≤ u.toNat) :
    t.resolve x = .fault .panic := by
  unfold resolve resolveFuel
  rw [hx]
  simp only [unmergedNodes_panic hu h]
  rfl

/-- C18: empty exactly when the whole subtree is blank. -/
theorem C18_empty (nodes : Nat → Option Node) (k i : Nat) :
    resolution nodes k i = [] ↔ ∀ x, inSubtree k i x → nodes x = none := resolution_empty_iff

/-- C18: a node that is not blank is listed first, followed by its unmerged leaves. -/
theorem C18_nonblank (nodes : Nat → Option Node) (k i : Nat) :
    (∀ l, nodes (node k i) = some (.Leaf l) → resolution nodes k i = [node k i]) ∧
    (∀ p, nodes (node k i) = some (.Parent p) →
      resolution nodes k i = node k i :: p.unmerged_leaves.map fun u => node 0 u.toNat) :=
  ⟨fun _ h => resolution_some h, fun _ h => resolution_some h⟩

/-- C18: only non-blank nodes of the subtree are listed. -/
theorem C18_sound (nodes : Nat → Option Node) (hu : UnmergedOk nodes) (k i x : Nat)
    (h : x ∈ resolution nodes k i) : inSubtree k i x ∧ nodes x ≠ none := resolution_mem hu h

/-- C18: every member below the node is listed, or is below a listed node. -/
theorem C18_complete (nodes : Nat → Option Node) (k i j : Nat) (hj : below k i j)
    (hn : nodes (node 0 j) ≠ none) :
    ∃ l a, node l a ∈ resolution nodes k i ∧ inSubtree k i (node l a) ∧ below l a j := by
  obtain ⟨l, a, h1, _, h3, h4⟩ := resolution_covers (inSubtree_leaf.2 hj) hn
  exact ⟨l, a, h1, h3, inSubtree_leaf.1 h4⟩

/-- C18: nothing is listed twice. -/
theorem C18_nodup (nodes : Nat → Option Node) (hs : LeafShaped nodes) (hu : UnmergedOk nodes) (k i : Nat) :
    (resolution nodes k i).Nodup := resolution_nodup hs hu

/-- C18: a listed node below another listed node is one of its unmerged leaves. -/
theorem C18_antichain (nodes : Nat → Option Node) (hu : UnmergedOk nodes) (k i l a x : Nat)
    (hl : node l a ∈ resolution nodes k i) (hx : x ∈ resolution nodes k i) (hb : inSubtree l a x)
    (hne : x ≠ node l a) :
    ∃ p u, nodes (node l a) = some (.Parent p) ∧ u ∈ p.unmerged_leaves ∧ x = node 0 u.toNat :=
  resolution_antichain hu hl hx hb hne

/-- The example of the RFC, section 4.1.1: a blank root, X with the unmerged leaf B on the left, and on the
right a blank parent over a blank leaf and a member. -/
def rfcTree : RatchetTree :=
  [some (.Leaf (toyLeaf 0)), some (.Parent ⟨[9], [], [1]⟩), some (.Leaf (toyLeaf 1)), none, none, none,
   some (.Leaf (toyLeaf 3))]

theorem rfcTree_parents {x : Nat} {p : ParentNode} (h : rfcTree.get x = some (.Parent p)) :
    x = 1 ∧ p = ⟨[9], [], [1]⟩ := by
  have hlt : x < 7 := lt_of_get h
  have : x = 0 ∨ x = 1 ∨ x = 2 ∨ x = 3 ∨ x = 4 ∨ x = 5 ∨ x = 6 := by omega
  rcases this with rfl | rfl | rfl | rfl | rfl | rfl | rfl <;> simp [rfcTree, RatchetTree.get] at h
  exact ⟨rfl, h.symm⟩

theorem rfcTree_ok : UnmergedOk rfcTree.get := by
  intro k i p h
  obtain ⟨h1, rfl⟩ := rfcTree_parents h
  have h2 : node k i = node 1 0 := by rw [h1]; rfl
  obtain ⟨rfl, rfl⟩ := node_inj h2
  refine ⟨by simp, fun u hu => ?_⟩
  simp at hu; subst hu
  exact ⟨by unfold below; decide, toyLeaf 1, rfl⟩

example : LeafShaped rfcTree.get := by
  intro i p h
  obtain ⟨h1, _⟩ := rfcTree_parents h
  rw [node_zero] at h1; omega

/-- Resolution of the root: X, B and D. -/
example : rfcTree.resolve 3 = .ok [1, 2, 6] := by
  have := C18_resolve_small rfcTree 2 0 (by decide) (unmergedOk_small (by decide) rfcTree_ok)
  exact this
/-- Resolution of the blank leaf C, and of the parent of C and D. -/
example : rfcTree.resolve 4 = .ok [] ∧ rfcTree.resolve 5 = .ok [6] := ⟨rfl, rfl⟩

end Rmls
