import Verif.Proofs.Invariant
import Verif.Props.Merge
/-
Property C16: the unmerged leaves, through every history of adding, updating, removing and merging.
-/
namespace Rmls
open Spec RatchetTree

/-- What can happen to the tree of a group. -/
inductive TreeEvent where
  | add (leaf : LeafNode)
  | update (li : Nat) (leaf : LeafNode)
  | remove (li : Nat)
  | merge (li : Nat) (path : UpdatePath)

/-- One event and the tree after it.  Members update, are removed and send paths; merging a path may also
return an error, after which the tree as the function left it stays in use.  Adding needs a free slot or room
to grow within 32 bit indices. -/
def TreeStep (P : CryptoProvider) (cs : CipherSuite) (t : RatchetTree) : TreeEvent → RatchetTree → Prop
  | .add leaf, t' => ((∃ j, 2 * j < t.length ∧ t.get (2 * j) = none) ∨ t.length < 2 ^ 31) ∧ t.add leaf = .ok t'
  | .update li leaf, t' => t.get (2 * li) ≠ none ∧ t.update li leaf = .ok t'
  | .remove li, t' => t.get (2 * li) ≠ none ∧ t.remove li = .ok t'
  | .merge li path, t' => t.get (2 * li) ≠ none ∧
      (t.merge_update_path P cs li path = (t', .ok ()) ∨ ∃ e, t.merge_update_path P cs li path = (t', .err e))

/-- A sequence of events. -/
inductive TreeSteps (P : CryptoProvider) (cs : CipherSuite) : RatchetTree → List TreeEvent → RatchetTree → Prop
  where
  | nil (t) : TreeSteps P cs t [] t
  | cons {t t' t'' ev evs} : TreeStep P cs t ev t' → TreeSteps P cs t' evs t'' → TreeSteps P cs t (ev :: evs) t''

/-- What is assumed of the first tree: leaves at leaf positions only; unmerged leaves sorted, occupied, below
their parent, and the last ones there; no inner node hangs over blank leaves unless it is the last in the tree;
a parent on the left edge has a member on its right, or none right of it.  The size of the array is odd, as for
every tree off the wire. -/
structure WellFormed (t : RatchetTree) : Prop where
  size : t.length < 2 ^ 32
  odd : t.length % 2 = 1
  leaf : LeafShaped t.get
  ok : UnmergedOk t.get
  last : UnmergedLast t.get
  inner : InnerUsed t.get
  spine : SpineUsed t.get

theorem WellFormed.inv {t : RatchetTree} (h : WellFormed t) : TreeInv t where
  good := good_of h.leaf h.ok h.last h.inner h.spine
  size := h.size
  even := fun he => by have := h.odd; omega
  phantom := fun K p he => by have := h.odd; rw [Nat.pow_succ] at he; omega

theorem inv_step {s : Prop} {P : CryptoProvider} {cs : CipherSuite} {t t' : RatchetTree} {ev : TreeEvent}
    (h : TreeInvIf s t) (hs : TreeStep P cs t ev t') : TreeInvIf s t' := by
  cases ev with
  | add leaf => exact inv_add h hs.1 hs.2
  | update li leaf => exact inv_update h hs.1 hs.2
  | remove li => exact inv_remove h hs.1 hs.2
  | merge li path =>
    have := inv_merge (P := P) (cs := cs) (path := path) h hs.1
    rcases hs.2 with he | ⟨e, he⟩ <;> (rw [he] at this; exact this)

theorem inv_steps {s : Prop} {P : CryptoProvider} {cs : CipherSuite} {t t' : RatchetTree} {evs : List TreeEvent}
    (h : TreeInvIf s t) (hs : TreeSteps P cs t evs t') : TreeInvIf s t' := by
  induction hs with
  | nil t => exact h
  | cons hs _ ih => exact ih (inv_step h hs)

/-- C16: after every history the unmerged leaves of every parent are strictly increasing, below the parent and
occupied. -/
theorem C16_history (P : CryptoProvider) (cs : CipherSuite) (t t' : RatchetTree) (evs : List TreeEvent)
    (h : WellFormed t) (hs : TreeSteps P cs t evs t') :
    ∀ k i p, t'.get (node k i) = some (.Parent p) →
      p.unmerged_leaves.Pairwise (fun a b => a.toNat < b.toNat) ∧
      ∀ u ∈ p.unmerged_leaves, below k i u.toNat ∧ ∃ l, t'.get (node 0 u.toNat) = some (.Leaf l) :=
  (inv_steps h.inv hs).good.ok

/-- C16, for trees whose unmerged leaves are in any order: they stay members below their parent, and resolving never panics
and is the resolution of RFC 9420. -/
theorem C16_members (P : CryptoProvider) (cs : CipherSuite) (t t' : RatchetTree) (evs : List TreeEvent)
    (hsize : t.length < 2 ^ 32) (hodd : t.length % 2 = 1) (hleaf : LeafShaped t.get) (hmem : UnmergedMembers t.get)
    (hinner : InnerUsed t.get) (hspine : SpineUsed t.get) (hs : TreeSteps P cs t evs t') :
    (∀ k i p, t'.get (node k i) = some (.Parent p) → ∀ u ∈ p.unmerged_leaves,
      below k i u.toNat ∧ ∃ l, t'.get (node 0 u.toNat) = some (.Leaf l)) ∧
    ∀ k i, node k i < 2 ^ 32 - 1 → t'.resolve (node k i) = .ok (resolution t'.get k i) := by
  have h0 : TreeInvIf False t := ⟨⟨hleaf, hmem, (nomatch ·), hinner, hspine⟩, hsize, fun he => by omega,
    fun K p he => by rw [Nat.pow_succ] at he; omega⟩
  have h := inv_steps h0 hs
  exact ⟨h.good.mem, fun k i hx => C18_resolve_small t' k i hx (members_small h.size h.good.mem)⟩

/-- The tree of a new group is well formed. -/
theorem wellFormed_single (l : LeafNode) : WellFormed [some (.Leaf l)] := by
  have hg : ∀ k i n, RatchetTree.get [some (.Leaf l)] (node k i) = some n → k = 0 ∧ i = 0 ∧ n = .Leaf l := by
    intro k i n h
    have hlt := lt_of_get h
    simp only [List.length_cons, List.length_nil] at hlt
    have hz : node k i = node 0 0 := by rw [node_zero]; omega
    obtain ⟨rfl, rfl⟩ := node_inj hz
    rw [node_zero] at h
    simp [RatchetTree.get] at h
    exact ⟨rfl, rfl, h.symm⟩
  refine ⟨by simp, by simp, ?_, ?_, ?_, ?_, ?_⟩
  · intro i p h; have := (hg _ _ _ h).2.2; cases this
  · intro k i p h; have := (hg _ _ _ h).2.2; cases this
  · intro k i p h; have := (hg _ _ _ h).2.2; cases this
  · intro k i n hk h; have := (hg _ _ _ h).1; omega
  · intro k p h; have := (hg _ _ _ h).1; omega

/-- C16, from the creation of the group on. -/
theorem C16_reachable (P : CryptoProvider) (cs : CipherSuite) (l : LeafNode) (t' : RatchetTree)
    (evs : List TreeEvent) (hs : TreeSteps P cs [some (.Leaf l)] evs t') : UnmergedOk t'.get :=
  C16_history P cs _ t' evs (wellFormed_single l) hs

/-- So in every reachable tree, resolving never panics and is the resolution of RFC 9420. -/
theorem C16_resolve (P : CryptoProvider) (cs : CipherSuite) (l : LeafNode) (t' : RatchetTree)
    (evs : List TreeEvent) (hs : TreeSteps P cs [some (.Leaf l)] evs t') (k i : Nat) (hx : node k i < 2 ^ 32 - 1) :
    t'.resolve (node k i) = .ok (resolution t'.get k i) :=
  C18_resolve_small t' k i hx
    (unmergedOk_small (inv_steps (wellFormed_single l).inv hs).size (C16_reachable P cs l t' evs hs))

/-- The sorted and occupied lists alone would not stay so: some assumption as to blank leaves is needed. -/
theorem C16_needs_last : ∃ t t' : RatchetTree, UnmergedOk t.get ∧ t.add (toyLeaf 5) = .ok t' ∧
    ¬ UnmergedOk t'.get := by
  refine ⟨[none, some (.Parent ⟨[9], [], [1]⟩), some (.Leaf (toyLeaf 1))], _, ?_, rfl, ?_⟩
  · intro k i p h
    have hlt := lt_of_get h
    simp only [List.length_cons, List.length_nil] at hlt
    have hz : node k i = node 0 0 ∨ node k i = node 1 0 ∨ node k i = node 0 1 := by
      rw [node_zero, node_zero, node_succ, node_zero]; omega
    rcases hz with hz | hz | hz <;> obtain ⟨rfl, rfl⟩ := node_inj hz
    · rw [node_zero] at h; cases h
    · rw [node_succ, node_zero] at h
      cases h
      refine ⟨by simp, ?_⟩
      intro u hu
      simp at hu; subst hu
      exact ⟨⟨by decide, by decide⟩, toyLeaf 1, by rw [node_zero]; rfl⟩
    · rw [node_zero] at h; cases h
  · intro h
    have := (h 1 0 ⟨[9], [], [1, 0]⟩ (by rw [node_succ, node_zero]; rfl)).1
    revert this
    decide

section examples
private abbrev suite1 : CipherSuite := .MLS_128_DHKEMX25519_AES128GCM_SHA256_Ed25519

/-- A history with all kinds of events, a rejected path among them, after which a parent lists a leaf. -/
example : ∃ (t' : RatchetTree) (p : ParentNode), TreeSteps toyProvider suite1 [some (.Leaf (toyLeaf 0))]
      [.add (toyLeaf 1), .add (toyLeaf 2), .update 1 (toyLeaf 4), .add (toyLeaf 3), .remove 3,
       .merge 0 ⟨toyLeaf 0, [⟨[7], []⟩, ⟨[8], []⟩]⟩, .add (toyLeaf 3)] t' ∧
      t'.get 3 = some (.Parent p) ∧ p.unmerged_leaves = [3] := by
  refine ⟨_, _, .cons ⟨.inr (by decide), rfl⟩ (.cons ⟨.inr (by decide), rfl⟩ (.cons ⟨by decide, rfl⟩
    (.cons ⟨.inr (by decide), rfl⟩ (.cons ⟨by decide, rfl⟩ (.cons ⟨by decide, .inr ⟨_, rfl⟩⟩
    (.cons ⟨.inr (by decide), rfl⟩ (.nil _))))))), rfl, rfl⟩

end examples
end Rmls
