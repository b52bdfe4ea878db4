import Verif.Proofs.Onward
import Verif.Props.History
/-
Property C90: a tree that was accepted stays acceptable.
-/
namespace Rmls
open Spec RatchetTree

/-- The trees that come after a tree, when members are added, update, are removed and send paths.

* The leaf node of a new member carries no parent hash; that of an update may.
* A path is accepted, and no node beside it carries the hash of one of its parents.
* A member is added where there is a free slot, or to an array of odd length; see C15 for the other case. -/
inductive Onward (P : CryptoProvider) (cs : CipherSuite) (H : Bytes → Bytes) (t₀ : RatchetTree) : RatchetTree → Prop where
  | here : Onward P cs H t₀ t₀
  | add {t t'} (leaf : LeafNode) : Onward P cs H t₀ t → NotCommit leaf →
      ((∃ j, 2 * j < t.length ∧ t.get (2 * j) = none) ∨ (t.length % 2 = 1 ∧ t.length < 2 ^ 31)) →
      t.add leaf = .ok t' → Onward P cs H t₀ t'
  | update {t t'} (li : Nat) (leaf : LeafNode) : Onward P cs H t₀ t → t.get (2 * li) ≠ none →
      t.update li leaf = .ok t' → Onward P cs H t₀ t'
  | remove {t t'} (li : Nat) : Onward P cs H t₀ t → t.get (2 * li) ≠ none → t.remove li = .ok t' →
      Onward P cs H t₀ t'
  | merge {t t'} (li : Nat) (path : UpdatePath) : Onward P cs H t₀ t → t.get (2 * li) ≠ none →
      t.merge_update_path P cs li path = (t', .ok ()) → Unforeseen H t.get t'.get li → Onward P cs H t₀ t'

/-- The invariant. -/
structure Standing (H : Bytes → Bytes) (t : RatchetTree) : Prop where
  inv : TreeInvIf False t
  vouch : Vouched H t.get
  sized : t.length = 0 ∨ ∃ K, t.length + 1 = 2 ^ (K + 1) ∨ t.length = 2 ^ (K + 1)

theorem Standing.height {H : Bytes → Bytes} {t : RatchetTree} (h : Standing H t)
    (h0 : 0 < t.length) : ∃ K, IsHeight ((t.length + 1) / 2) K ∧ (t.length + 1 = 2 ^ (K + 1) ∨ t.length = 2 ^ (K + 1)) := by
  rcases h.sized with hz | ⟨K, hK⟩
  · omega
  · refine ⟨K, ?_, hK⟩
    have : (t.length + 1) / 2 = 2 ^ K := by rw [Nat.pow_succ] at hK; omega
    rw [this]
    exact isHeight_pow K

theorem standing_add {H : Bytes → Bytes} {t t' : RatchetTree} {leaf : LeafNode} (h : Standing H t)
    (hlf : NotCommit leaf)
    (hroom : (∃ j, 2 * j < t.length ∧ t.get (2 * j) = none) ∨ (t.length % 2 = 1 ∧ t.length < 2 ^ 31))
    (hr : t.add leaf = .ok t') : Standing H t' := by
  have hinv := inv_add h.inv (hroom.imp id (·.2)) hr
  have hsize := h.inv.size
  by_cases hf : ∃ j, 2 * j < t.length ∧ t.get (2 * j) = none
  · obtain ⟨_, hf⟩ := hf
    obtain ⟨j, h1, h2, h3⟩ := least_free hf
    obtain ⟨K, hK⟩ := exists_height (num_leaves_bounds (by omega) hsize).1
    obtain ⟨t'', h4, h5, h6⟩ := add_free (leaf := leaf) hsize hK h1 h2 h3
    rw [hr] at h4
    cases h4
    exact ⟨hinv, vouched_add (K := K) (j := j) h.inv.good h.vouch (by omega) hlf (by rw [node_zero]; exact h2)
      (parents_in_tree h.inv hK (leaf_in_tree (by omega) hsize hK h1)) h6, by rw [h5]; exact h.sized⟩
  · have ⟨ho, hl⟩ : t.length % 2 = 1 ∧ t.length < 2 ^ 31 := by
      rcases hroom with hroom | hroom
      · exact absurd hroom hf
      · exact hroom
    have hall : ∀ i, 2 * i < t.length → t.get (2 * i) ≠ none := fun i hi hc => hf ⟨i, hi, hc⟩
    obtain ⟨K, hK, hKl⟩ := h.height (by omega)
    have hKl : t.length + 1 = 2 ^ (K + 1) := by
      rcases hKl with hKl | hKl
      · exact hKl
      · rw [Nat.pow_succ] at hKl; omega
    have hn : (t.length + 1) / 2 = 2 ^ K := by rw [Nat.pow_succ] at hKl; omega
    have h2K : 2 * 2 ^ K = 2 ^ (K + 1) := by rw [Nat.pow_succ]; omega
    obtain ⟨t'', h4, h5, h6⟩ := add_grow (leaf := leaf) (n := 2 ^ K) (K := K + 1) (by omega) (by omega) hl
      (by rw [h2K]; exact isHeight_pow _) (fun i hi => hall i (by omega))
    rw [hr] at h4
    cases h4
    refine ⟨hinv, vouched_add (K := K + 1) (j := 2 ^ K) h.inv.good h.vouch (by omega) hlf
      (by rw [node_zero]; exact get_out (by omega)) ?_ h6, .inr ⟨K + 1, .inl ?_⟩⟩
    · intro k i p hg _
      have h7 := lt_of_get hg
      have h8 := node_add_one k i
      have h9 : 2 ^ k ≤ 2 ^ k * (2 * i + 1) := Nat.le_mul_of_pos_right _ (by omega)
      exact (Nat.pow_le_pow_iff_right (a := 2) (by omega)).1 (by omega)
    · rw [Nat.pow_succ]; omega

theorem standing_update {H : Bytes → Bytes} {t t' : RatchetTree} {li : Nat} {leaf : LeafNode}
    (h : Standing H t) (hm : t.get (2 * li) ≠ none) (hr : t.update li leaf = .ok t') :
    Standing H t' := by
  have hinv := inv_update h.inv hm hr
  have hlt : 2 * li < t.length := by
    cases hg : t.get (2 * li) with
    | none => exact absurd hg hm
    | some n => exact lt_of_get hg
  obtain ⟨K, hK⟩ := exists_height (num_leaves_bounds (by omega) h.inv.size).1
  have hli := leaf_in_tree (by omega) h.inv.size hK hlt
  obtain ⟨t'', h1, h2, h3⟩ := update_in (leaf := leaf) (by omega) h.inv.size hK hli
  rw [hr] at h1
  cases h1
  refine ⟨hinv, vouched_update (K := K) (li := li) (leaf := leaf) h.inv.good h.vouch (parents_in_tree h.inv hK hli) ?_,
    by rw [h2]; exact h.sized⟩
  intro x
  rw [h3]
  by_cases hx : x = 2 * li
  · rw [if_pos ⟨hx, hlt⟩, if_pos hx]
  · rw [if_neg (fun hc => hx hc.1), if_neg hx]

theorem standing_remove {H : Bytes → Bytes} {t t' : RatchetTree} {li : Nat}
    (h : Standing H t) (hm : t.get (2 * li) ≠ none) (hr : t.remove li = .ok t') :
    Standing H t' := by
  have hinv := inv_remove h.inv hm hr
  have hlt : 2 * li < t.length := by
    cases hg : t.get (2 * li) with
    | none => exact absurd hg hm
    | some n => exact lt_of_get hg
  have h0 : 0 < t.length := by omega
  obtain ⟨K, hK⟩ := exists_height (num_leaves_bounds (by omega) h.inv.size).1
  have hli := leaf_in_tree (by omega) h.inv.size hK hlt
  have hp := parents_in_tree h.inv hK hli
  rcases last_member t li with hall | ⟨j, hj1, hj2, hj3⟩
  · rw [remove_clear h0 h.inv.size hK hli hall] at hr
    cases hr
    refine ⟨hinv, vouched_remove (li := li) (K := K) (c := 0) h.inv.good h.vouch (.inl rfl) (fun x => ?_)
      (fun i _ hi => hall i hi) hp, .inl rfl⟩
    rw [if_pos (.inr (.inr (by omega)))]; rfl
  · obtain ⟨m, hmh⟩ := exists_height (n := j + 1) (by omega)
    rw [remove_last h0 h.inv.size hK hli hj1 hj2 hj3 hmh] at hr
    cases hr
    have hget : ∀ x, RatchetTree.get (List.take (2 ^ (m + 1)) (blanked t K li)) x =
        if x = 2 * li ∨ above K li x ∨ 2 ^ (m + 1) ≤ x then none else t.get x := by
      intro x
      rw [get_take, blanked_get]
      by_cases hc : x < 2 ^ (m + 1)
      · rw [if_pos hc]
        by_cases h2 : x = 2 * li ∨ above K li x
        · rw [if_pos h2, if_pos (by rcases h2 with h | h; exact Or.inl h; exact Or.inr (Or.inl h))]
        · rw [if_neg h2, if_neg]
          rintro (h | h | h)
          · exact h2 (Or.inl h)
          · exact h2 (Or.inr h)
          · omega
      · rw [if_neg hc, if_pos (Or.inr (Or.inr (by omega)))]
    have hcut : ∀ i, 2 ^ (m + 1) ≤ 2 * i → i ≠ li → t.get (2 * i) = none := by
      intro i hc hi
      apply hj3 i _ hi
      have := hmh.1
      rw [Nat.pow_succ] at hc
      omega
    refine ⟨hinv, vouched_remove (li := li) (K := K) (c := 2 ^ (m + 1)) h.inv.good h.vouch (.inr ⟨m, rfl⟩) hget hcut
      hp, ?_⟩
    rw [List.length_take, blanked_length]
    by_cases hle : 2 ^ (m + 1) ≤ t.length
    · exact .inr ⟨m, .inr (by omega)⟩
    · rw [show min (2 ^ (m + 1)) t.length = t.length by omega]; exact h.sized

theorem standing_merge {P : CryptoProvider} {cs : CipherSuite} {Hs : Hash} (hP : P.hash cs = .ok Hs)
    {t t' : RatchetTree} {li : Nat} {path : UpdatePath}
    (h : Standing Hs.digest t) (hm : t.get (2 * li) ≠ none)
    (hun : Unforeseen Hs.digest t.get t'.get li)
    (hr : t.merge_update_path P cs li path = (t', .ok ())) :
    Standing Hs.digest t' := by
  have hinv := inv_merge (P := P) (cs := cs) (path := path) h.inv hm
  rw [hr] at hinv
  have hlt : 2 * li < t.length := by
    cases hg : t.get (2 * li) with
    | none => exact absurd hg hm
    | some n => exact lt_of_get hg
  obtain ⟨K, hK, hKl⟩ := h.height (by omega)
  have hK' : IsHeight t.num_leaves K := by rw [room (by omega) h.inv.size]; exact hK
  have hli := leaf_in_tree (by omega) h.inv.size hK' hlt
  have hin : MergePlace t K li := ⟨h.inv.size, hK, hlt⟩
  refine ⟨hinv, vouched_merge h.inv.good h.vouch (by rw [node_zero]; exact hm)
    (parents_in_tree h.inv hK' hli) (mergedPath hP hin hr) hun, ?_⟩
  rw [(C22_effect P cs Hs hP t t' K li hin path hr).1]
  exact h.sized

theorem onward_standing {P : CryptoProvider} {cs : CipherSuite} {Hs : Hash} (hP : P.hash cs = .ok Hs)
    {t₀ t : RatchetTree} (h0 : Standing Hs.digest t₀) (h : Onward P cs Hs.digest t₀ t) : Standing Hs.digest t := by
  induction h with
  | here => exact h0
  | add leaf _ hlf hroom hr ih => exact standing_add ih hlf hroom hr
  | update li leaf _ hm hr ih => exact standing_update ih hm hr
  | remove li _ hm hr ih => exact standing_remove ih hm hr
  | merge li path _ hm hr hun ih => exact standing_merge hP ih hm hun hr

/-- The nodes of the tree are all in the perfect tree over its leaves. -/
theorem Standing.inside {H : Bytes → Bytes} {t : RatchetTree} (h : Standing H t)
    {K : Nat} (hK : IsHeight ((t.length + 1) / 2) K) : ∀ x n, t.get x = some n → x < 2 ^ (K + 1) - 1 := by
  intro x n hx
  have hlt := lt_of_get hx
  obtain ⟨K', hK', hl⟩ := h.height (by omega)
  obtain rfl := isHeight_unique hK hK'
  rcases hl with hl | hl
  · omega
  · apply Decidable.byContradiction
    intro hc
    have hxe : x = t.length - 1 := by omega
    cases n with
    | Parent p => rw [hxe] at hx; exact h.inv.phantom K p hl hx
    | Leaf l =>
      have : x = node (K + 1) 0 := by have := node_add_one (K + 1) 0; omega
      rw [this] at hx
      exact h.vouch.inner K 0 l hx

/-- A tree that was accepted, as long as the unmerged leaves of each parent are members, and there are members below both
children of each parent. -/
theorem accepted_standing {P : CryptoProvider} {t : RatchetTree} {ctx : GroupContext} {now : Int} {Hs : Hash}
    (hP : P.hash ctx.cipher_suite = .ok Hs) {K : Nat} (hK : t.length + 1 = 2 ^ (K + 1)) (hl : t.length < 2 ^ 32)
    (h : verify_integrity P t ctx now = .ok ()) (hmem : ∀ x p, t.get x = some (.Parent p) → ∀ u ∈ p.unmerged_leaves, t.get (2 * u.toNat) ≠ none)
    (hboth : BothUsed t.get) : Standing Hs.digest t := by
  have hh : IsHeight ((t.length + 1) / 2) K := by
    have : (t.length + 1) / 2 = 2 ^ K := by rw [Nat.pow_succ] at hK; omega
    rw [this]; exact isHeight_pow K
  have hpos := Nat.two_pow_pos K
  have h0 : 0 < t.length := by rw [Nat.pow_succ] at hK; omega
  have hv := C19_sound P t ctx now Hs hP h0 hl K hh h
  have hin : ∀ k i n, t.get (node k i) = some n → k ≤ K ∧ i / 2 ^ (K - k) = 0 := fun k i n hx =>
    inSubtree_node.1 (inSubtree_root.2 (by have := lt_of_get hx; omega))
  have hleaf : LeafShaped t.get := by
    intro i p hx
    obtain ⟨h1, h2⟩ := hin 0 i _ hx
    exact (hashDefined_sub (k := 0) (i := i) (a := K) hv.defined (by omega) h2).1 p hx
  refine ⟨⟨⟨hleaf, ?_, (nomatch ·), ?_, ?_⟩, hl, ?_, ?_⟩, ⟨?_, hboth, hv.unmerged, fun k i p hp => (hv.parents k i p hp).one⟩,
    .inr ⟨K, .inl hK⟩⟩
  · intro k i p hx u hu
    refine ⟨(hv.unmerged k i p hx u hu).below, ?_⟩
    have hn := hmem _ p hx u hu
    rw [← node_zero] at hn
    cases hg : t.get (node 0 u.toNat) with
    | none => exact absurd hg hn
    | some nd =>
      cases nd with
      | Leaf l => exact ⟨l, rfl⟩
      | Parent q => exact absurd hg (hleaf _ q)
  · intro k i n hk hx
    obtain ⟨k, rfl⟩ : ∃ m, k = m + 1 := ⟨k - 1, by omega⟩
    obtain ⟨⟨v, hv1, hv2⟩, _⟩ := hboth k i n hx
    exact .inl ⟨v, below_child (by omega) hv1, hv2⟩
  · intro k p hx
    obtain ⟨_, ⟨v, hv1, hv2⟩⟩ := hboth k 0 _ hx
    refine .inl ⟨v, ?_, ?_, hv2⟩
    · have := hv1.1; omega
    · have := hv1.2; rw [Nat.pow_succ]; omega
  · intro he; rw [Nat.pow_succ] at hK; omega
  · intro K' p he; rw [Nat.pow_succ] at hK he; omega
  · intro k i l hx
    obtain ⟨h1, h2⟩ := hin (k + 1) i _ hx
    exact (hashDefined_sub (k := k + 1) (i := i) (a := K - (k + 1)) hv.defined (by omega) h2).1 l hx

/-- C90, what is true: a tree that was accepted stays acceptable through any sequence of changes of the group, as far as
parents are concerned: if the tree after them can be hashed to the tree hash of the group context, its leaves are valid and
keys are not shared, then it is accepted.
Missing: accepted trees in which a blank leaf is unmerged (`C90_blank_refuted`) or in which there is no member below one
child of a parent (`C90_half_refuted`), and new members whose leaf nodes carry a parent hash (`C90_source_refuted`). -/
theorem C90_partial (P : CryptoProvider) (ctx₀ ctx : GroupContext) (now₀ now : Int) (Hs : Hash)
    (hP : P.hash ctx.cipher_suite = .ok Hs) (hcs : ctx₀.cipher_suite = ctx.cipher_suite)
    (hs : ∀ b, (Hs.digest b).length < 2 ^ 30) (t₀ t : RatchetTree) (K₀ : Nat) (hK₀ : t₀.length + 1 = 2 ^ (K₀ + 1))
    (hl₀ : t₀.length < 2 ^ 32) (hacc : verify_integrity P t₀ ctx₀ now₀ = .ok ())
    (hmem : ∀ x p, t₀.get x = some (.Parent p) → ∀ u ∈ p.unmerged_leaves, t₀.get (2 * u.toNat) ≠ none)
    (hboth : BothUsed t₀.get) (h : Onward P ctx.cipher_suite Hs.digest t₀ t)
    (h0 : 0 < t.length) (K : Nat) (hK : IsHeight ((t.length + 1) / 2) K) (hdef : HashDefined Hs.digest t.get K 0)
    (hhash : treeHash Hs.digest t.get K 0 = ctx.tree_hash)
    (hleaves : ∀ i l, t.get (node 0 i) = some (.Leaf l) → LeafValid P l ctx.cipher_suite ctx.group_id (UInt32.ofNat i)
      (SupportedCred t.get ((t.length + 1) / 2)) now)
    (hsig : ∀ i j l m, t.get (node 0 i) = some (.Leaf l) → t.get (node 0 j) = some (.Leaf m) →
      l.payload.signature_key = m.payload.signature_key → i = j)
    (hkeys : ∀ x y key, HasKey t.get x key → HasKey t.get y key → x = y) :
    verify_integrity P t ctx now = .ok () := by
  have hst := onward_standing hP (accepted_standing (hcs ▸ hP) hK₀ hl₀ hacc hmem hboth) h
  have hin := hst.inside hK
  rw [C19_exact P t ctx now Hs hP h0 hst.inv.size K hK hin]
  refine ⟨hdef, hhash, ?_, hleaves, hsig, hkeys, hst.vouch.listed⟩
  intro k i p hp
  obtain ⟨hkK, hi⟩ := inSubtree_node.1 (inSubtree_root.2 (hin _ _ hp))
  have hsub := hashDefined_sub (k := k + 1) (i := i) (a := K - (k + 1)) hdef (by omega) hi
  have hth : ∀ n k i, (treeHash Hs.digest n k i).length < 2 ^ 30 := by
    intro n k i; cases k <;> (rw [treeHash]; exact hs _)
  have hfits : ∀ n k i, (parentHashEnc p (treeHash Hs.digest n k i)).fits := by
    intro n k i
    have := hsub.2.1.2.1
    rw [hp] at this
    obtain ⟨_, b, c, _⟩ := this
    exact ⟨b, c, ⟨trivial, hth _ _ _⟩⟩
  exact ⟨hashDefined_without hs _ hsub.2.2.1, hashDefined_without hs _ hsub.2.2.2, hfits _ _ _, hfits _ _ _,
    hst.vouch.one k i p hp⟩

/-! ### Trees that are accepted and then not any more -/

section examples
private abbrev suite1 : CipherSuite := .MLS_128_DHKEMX25519_AES128GCM_SHA256_Ed25519

/-- A leaf node from a key package. -/
private abbrev newcomer (k : UInt8) : LeafNode := signedLeaf k (.KeyPackage ⟨0, 9⟩)

/-- Three members of eight.  The left child lists the blank leaf 1 as unmerged, the root does not; member 4 carries the
parent hash of the root. -/
def blankListed : RatchetTree :=
  let two := some (.Leaf (signedLeaf 2 .Update))
  let left : ParentNode := ⟨[8], [], [1]⟩
  let g := (parentHashEnc left (treeHash id (fun x => if x = 4 then two else none) 1 1)).bytes
  let zero := some (.Leaf (signedLeaf 0 (.Commit g)))
  let root : ParentNode := ⟨[9], [], []⟩
  let h := (parentHashEnc root (treeHash id
    (fun x => if x = 0 then zero else if x = 3 then some (.Parent left) else if x = 4 then two else none) 2 0)).bytes
  [zero, none, none, some (.Parent left), two, none, none, some (.Parent root), some (.Leaf (signedLeaf 4 (.Commit h))),
    none, none, none, none, none, none]

/-- The context of a tree with eight leaves. -/
def contextOf8 (t : RatchetTree) : GroupContext := { toyContext with tree_hash := treeHash id t.get 3 0 }

/-- In an array the inner nodes that are not blank can be enumerated. -/
theorem inner_at {t : RatchetTree} {k i : Nat} {n : Node} (h : t.get (node (k + 1) i) = some n) (ps : List (Nat × Nat))
    (hall : ∀ x, x < t.length → x % 2 = 1 → t.get x ≠ none → x ∈ ps.map fun p => node (p.1 + 1) p.2) : (k, i) ∈ ps := by
  have h1 := hall _ (lt_of_get h) (by rw [node_succ]; omega) (by rw [h]; simp)
  obtain ⟨p, hp, he⟩ := List.mem_map.1 h1
  obtain ⟨h2, h3⟩ := node_inj he
  have : p = (k, i) := Prod.ext (by omega) h3
  rw [← this]; exact hp

set_option maxRecDepth 100000 in
/-- C90 fails for trees with blank unmerged leaves: when a member is added in the place of the blank leaf, the root lists it
too, and then the tree hash of the left child without it is another one. -/
theorem C90_blank_refuted : ∃ t t' : RatchetTree, verify_integrity toyProvider t (contextOf8 t) 0 = .ok () ∧
    t.length = 15 ∧ BothUsed t.get ∧ NotCommit (newcomer 1) ∧ t.add (newcomer 1) = .ok t' ∧
    verify_integrity toyProvider t' (contextOf8 t') 0 = .err .ParentHashesVerificationFailed := by
  refine ⟨blankListed, _, by decide +kernel, rfl, ?_, nofun, rfl, by decide +kernel⟩
  intro k i n h
  have := inner_at h [(1, 0), (2, 0)] (by decide)
  simp only [List.mem_cons, Prod.mk.injEq, List.not_mem_nil, or_false] at this
  rcases this with ⟨rfl, rfl⟩ | ⟨rfl, rfl⟩
  · exact ⟨⟨0, ⟨by decide, by decide⟩, by decide⟩, ⟨2, ⟨by decide, by decide⟩, by decide⟩⟩
  · exact ⟨⟨0, ⟨by decide, by decide⟩, by decide⟩, ⟨4, ⟨by decide, by decide⟩, by decide⟩⟩

/-- Three members of four.  The root lists member 2, although the leaf to the left of it is free. -/
def disordered : RatchetTree :=
  let three := some (.Leaf (signedLeaf 3 .Update))
  let root : ParentNode := ⟨[9], [], [2]⟩
  let h := (parentHashEnc root (treeHash id (fun x => if x = 6 then three else none) 1 1)).bytes
  [some (.Leaf (signedLeaf 0 (.Commit h))), none, none, some (.Parent root), some (.Leaf (signedLeaf 2 .Update)), none, three]

set_option maxRecDepth 100000 in
/-- Trees whose unmerged leaves are not in order are accepted before and after a change, as `C90_partial` says. -/
theorem C90_unordered : ∃ t t' : RatchetTree, verify_integrity toyProvider t (contextOf t) 0 = .ok () ∧ t.length = 7 ∧
    (∀ x p, t.get x = some (.Parent p) → ∀ u ∈ p.unmerged_leaves, t.get (2 * u.toNat) ≠ none) ∧ BothUsed t.get ∧
    Onward toyProvider suite1 toyHash.digest t t' ∧ t'.get 3 = some (.Parent ⟨[9], [], [2, 1]⟩) ∧
    verify_integrity toyProvider t' (contextOf t') 0 = .ok () := by
  refine ⟨disordered, _, by decide +kernel, rfl, ?_, ?_, .add (newcomer 1) .here nofun (.inl ⟨1, by decide, by decide⟩) rfl,
    by decide +kernel, by decide +kernel⟩
  · intro x p hx
    obtain ⟨k, i, rfl⟩ := node_surj x
    cases k with
    | zero =>
      exfalso
      have hlt := lt_of_get hx
      rw [node_zero] at hx hlt
      have : ∀ i, i < 4 → ∀ p, disordered.get (2 * i) ≠ some (.Parent p) := by
        intro i hi
        match i, hi with
        | 0, _ => intro p h; cases h
        | 1, _ => intro p h; cases h
        | 2, _ => intro p h; cases h
        | 3, _ => intro p h; cases h
      exact this i (by have : disordered.length = 7 := rfl; omega) p hx
    | succ k =>
      have := inner_at hx [(1, 0)] (by decide)
      simp only [List.mem_singleton, Prod.mk.injEq] at this
      obtain ⟨rfl, rfl⟩ := this
      cases hx
      intro u hu
      rw [List.mem_singleton] at hu
      subst hu
      decide
  · intro k i n h
    have := inner_at h [(1, 0)] (by decide)
    simp only [List.mem_singleton, Prod.mk.injEq] at this
    obtain ⟨rfl, rfl⟩ := this
    exact ⟨⟨0, ⟨by decide, by decide⟩, by decide⟩, ⟨2, ⟨by decide, by decide⟩, by decide⟩⟩

/-- Two members of four.  The left child has no member below its right child, and lists member 0 as unmerged. -/
def halfUsed : RatchetTree :=
  let left : ParentNode := ⟨[8], [], [0]⟩
  [some (.Leaf (signedLeaf 0 (.Commit (parentHashEnc left (treeHash id (fun _ => none) 0 1)).bytes))), some (.Parent left),
    none, none, some (.Leaf (signedLeaf 2 .Update)), none, none]

set_option maxRecDepth 100000 in
/-- C90 fails for trees with a parent over one member: when the other member is removed, the array is cut behind the parent,
which is then outside of the tree. -/
theorem C90_half_refuted : ∃ t t' : RatchetTree, verify_integrity toyProvider t (contextOf t) 0 = .ok () ∧
    t.length = 7 ∧ UnmergedOk t.get ∧ UnmergedLast t.get ∧ t.get (2 * 2) ≠ none ∧ t.remove 2 = .ok t' ∧ t'.length = 2 ∧
    verify_integrity toyProvider t' { toyContext with tree_hash := treeHash id t'.get 0 0 } 0 =
      .err .UnmergedLeafIsNotDescendantOfTheParentNode := by
  have hp : ∀ k i p, halfUsed.get (node k i) = some (.Parent p) → k = 1 ∧ i = 0 ∧ p = ⟨[8], [], [0]⟩ := by
    intro k i p h
    cases k with
    | zero =>
      exfalso
      have hlt := lt_of_get h
      rw [node_zero] at h hlt
      have : ∀ i, i < 4 → ∀ p, halfUsed.get (2 * i) ≠ some (.Parent p) := by
        intro i hi
        match i, hi with
        | 0, _ => intro p h; cases h
        | 1, _ => intro p h; cases h
        | 2, _ => intro p h; cases h
        | 3, _ => intro p h; cases h
      exact this i (by have : halfUsed.length = 7 := rfl; omega) p h
    | succ k =>
      have := inner_at h [(0, 0)] (by decide)
      simp only [List.mem_singleton, Prod.mk.injEq] at this
      obtain ⟨rfl, rfl⟩ := this
      cases h
      exact ⟨rfl, rfl, rfl⟩
  refine ⟨halfUsed, _, by decide +kernel, rfl, ?_, ?_, by decide, rfl, rfl, by decide +kernel⟩
  · intro k i p h
    obtain ⟨rfl, rfl, rfl⟩ := hp k i p h
    refine ⟨List.pairwise_singleton _ _, fun u hu => ?_⟩
    rw [List.mem_singleton] at hu
    subst hu
    exact ⟨⟨by decide, by decide⟩, _, rfl⟩
  · intro k i p h u hu v hv
    obtain ⟨rfl, rfl, rfl⟩ := hp k i p h
    rw [List.mem_singleton] at hu
    subst hu
    exact absurd hv (Nat.not_lt_zero v)

/-- The leaf node of a new member 3 for `goodTree`, which carries the parent hash of the root over the left child. -/
def claiming : LeafNode :=
  signedLeaf 3 (.Commit (parentHashEnc ⟨[9], [], []⟩ (treeHash id (fun x =>
    if x = 1 then match goodTree.get 1 with
      | some (.Parent p) => some (.Parent { p with unmerged_leaves := [] })
      | n => n
    else if x = 0 then goodTree.get 0 else none) 1 0)).bytes)

set_option maxRecDepth 100000 in
/-- C90 fails for new members whose leaf nodes carry a parent hash: then the root is vouched for on both sides, and the tree
is not accepted any more; with an ordinary leaf node it is. -/
theorem C90_source_refuted : ∃ (t t' : RatchetTree) (leaf : LeafNode),
    verify_integrity toyProvider t (contextOf t) 0 = .ok () ∧ t.length = 7 ∧ t.add leaf = .ok t' ∧
    verify_integrity toyProvider t' (contextOf t') 0 = .err .ParentHashesVerificationFailed ∧
    ∃ t'', t.add (newcomer 3) = .ok t'' ∧ verify_integrity toyProvider t'' (contextOf t'') 0 = .ok () :=
  ⟨goodTree, _, claiming, by decide +kernel, rfl, rfl, by decide +kernel, _, rfl, by decide +kernel⟩

set_option maxRecDepth 100000 in
/-- The tree of three members without parents is accepted, and a path and a new member come after it. -/
example : verify_integrity sumProvider sumThree { toyContext with tree_hash := treeHash sumHash.digest sumThree.get 2 0 } 0 =
      .ok () ∧ Onward sumProvider suite1 sumHash.digest sumThree sumFour := by
  have hm : sumThree.merge_update_path sumProvider suite1 0 sumPath = (sumFour.take 3 ++ [some (.Parent sumRoot)] ++
    (sumFour.drop 4).take 2 ++ [none], .ok ()) := by decide +kernel
  have hst : ∀ x, storedParentHash (sumThree.get x) = none := by
    intro x
    match x with
    | 0 | 1 | 2 | 3 | 4 | 5 | 6 => rfl
    | x + 7 => rw [get_out (by show 7 ≤ x + 7; omega)]; rfl
  refine ⟨by decide +kernel, .add (signedLeaf 3 .Update) (.merge 0 sumPath .here (by decide) hm ?_)
    (signedLeaf_notCommit 3) (.inl ⟨3, by decide, by decide⟩) (by decide +kernel)⟩
  intro k q x _ _
  rw [hst]
  nofun

set_option maxRecDepth 100000 in
/-- The tree after these changes, with two parents and an unmerged leaf, meets the conditions on accepted trees. -/
example : sumFour.length + 1 = 2 ^ (2 + 1) ∧
    (∀ x p, sumFour.get x = some (.Parent p) → ∀ u ∈ p.unmerged_leaves, sumFour.get (2 * u.toNat) ≠ none) ∧ BothUsed sumFour.get ∧
    verify_integrity sumProvider sumFour { toyContext with tree_hash := treeHash sumHash.digest sumFour.get 2 0 } 0 =
      .ok () := by
  obtain ⟨past, _, h⟩ := sumFour_honest
  have hi := honest_inv rfl (fun b => (sumHash_size b).2) h
  refine ⟨rfl, fun x p hx u hu => ?_, hi.hash.both, by decide +kernel⟩
  obtain ⟨k, i, rfl⟩ := node_surj x
  obtain ⟨_, l, h⟩ := hi.inv.good.mem k i p hx u hu
  rw [← node_zero, h]
  simp

end examples
end Rmls
