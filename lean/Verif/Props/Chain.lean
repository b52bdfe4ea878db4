import Verif.Spec.Chain
import Verif.Props.History
/-
Property C107: every parent of an accepted tree is vouched for by a member below it.
-/
namespace Rmls
open Spec RatchetTree

/-- With unmerged leaves below the parents that list them, resolutions stay in the subtree. -/
theorem resolution_below {n : Nat → Option Node}
    (hu : ∀ k i p, n (node k i) = some (.Parent p) → ∀ u ∈ p.unmerged_leaves, below k i u.toNat) :
    ∀ {k i x}, x ∈ resolution n k i → inSubtree k i x := by
  have hone : ∀ k i nd, n (node k i) = some nd → ∀ x ∈ resolution n k i, inSubtree k i x := by
    intro k i nd hn x hx
    rw [resolution_some hn] at hx
    cases nd with
    | Leaf l => rw [List.mem_singleton.1 hx]; exact inSubtree_self k i
    | Parent p =>
      rcases List.mem_cons.1 hx with rfl | hx
      · exact inSubtree_self k i
      · obtain ⟨u, h1, rfl⟩ := List.mem_map.1 hx
        exact inSubtree_leaf.2 (hu k i p hn u h1)
  intro k
  induction k with
  | zero =>
    intro i x hx
    cases hn : n (node 0 i) with
    | none => rw [resolution_none_zero hn] at hx; cases hx
    | some nd => exact hone 0 i nd hn x hx
  | succ k ih =>
    intro i x hx
    cases hn : n (node (k + 1) i) with
    | none =>
      rw [resolution_none_succ hn] at hx
      rcases List.mem_append.1 hx with hx | hx
      · exact inSubtree_left (ih hx)
      · exact inSubtree_right (ih hx)
    | some nd => exact hone _ i nd hn x hx

/-- C107, what is true: for every parent of an accepted tree there is a member below it whose signed leaf node carries
the parent hash at the end of a chain from this parent down.
Missing: the condition of RFC 9420 section 7.9.2 that the other nodes in the resolutions on the way are unmerged at the
parent, see `C107_refuted`; it does hold in honest groups, see `C107_honest`. -/
theorem C107_chain_partial (P : CryptoProvider) (t : RatchetTree) (ctx : GroupContext) (now : Int) (Hs : Hash)
    (hP : P.hash ctx.cipher_suite = .ok Hs) (h0 : 0 < t.length) (hl : t.length < 2 ^ 32) (K : Nat)
    (hK : IsHeight ((t.length + 1) / 2) K) (h : verify_integrity P t ctx now = .ok ()) (k i : Nat) (p : ParentNode)
    (hx : node k i < 2 ^ (K + 1) - 1) (hp : t.get (node k i) = some (.Parent p)) :
    ∃ j l ph links, below k i j ∧ t.get (node 0 j) = some (.Leaf l) ∧ l.payload.leaf_node_source = .Commit ph ∧
      LeafSigned P ctx.cipher_suite l ctx.group_id (UInt32.ofNat j) ∧
      Chain Hs.digest t.get j k i links ∧ ∃ q sh, links = q ++ [(p, sh)] := by
  have hv := C19_sound P t ctx now Hs hP h0 hl K hK h
  induction k using Nat.strongRecOn generalizing i p with
  | _ k ih =>
    have hkK := inSubtree_node.1 (inSubtree_root.2 hx)
    cases k with
    | zero =>
      refine absurd hp (HashDefined_leafShaped hv.defined ?_ p)
      rw [below_div]; exact hkK.2
    | succ k =>
      have hone := (hv.parents k i p hp).one
      have key : ∀ c s, ((c = 2 * i ∧ s = 2 * i + 1) ∨ (c = 2 * i + 1 ∧ s = 2 * i)) →
          Linked Hs.digest t.get p k c s →
          ∃ j l ph links, below (k + 1) i j ∧ t.get (node 0 j) = some (.Leaf l) ∧
            l.payload.leaf_node_source = .Commit ph ∧
            LeafSigned P ctx.cipher_suite l ctx.group_id (UInt32.ofNat j) ∧
            Chain Hs.digest t.get j (k + 1) i links ∧ ∃ q sh, links = q ++ [(p, sh)] := by
        intro c s hcs ⟨x, hxr, hxs⟩
        have hsub := resolution_below (fun k i p hp u hu => (hv.unmerged k i p hp u hu).below) hxr
        have hup : inSubtree (k + 1) i x := by
          rcases hcs with ⟨rfl, _⟩ | ⟨rfl, _⟩
          · exact inSubtree_left hsub
          · exact inSubtree_right hsub
        obtain ⟨m, a, rfl⟩ := node_surj x
        have hmk := (inSubtree_node.1 hsub).1
        have hroot := inSubtree_root.1 (inSubtree_trans (inSubtree_root.2 hx) hup)
        cases hn : t.get (node m a) with
        | none => rw [hn] at hxs; cases hxs
        | some nd =>
          cases nd with
          | Parent q =>
            obtain ⟨j, l, ph, links, h1, h2, h3, h4, h5, _⟩ := ih m (by omega) a q hroot hn
            exact ⟨j, l, ph, _, inSubtree_leaf.1 (inSubtree_trans hup (inSubtree_leaf.2 h1)), h2, h3, h4,
              .up h5 hp hcs hxr hxs, links, _, rfl⟩
          | Leaf l =>
            have hm0 : m = 0 := by
              cases m with
              | zero => rfl
              | succ m =>
                have hd := inSubtree_node.1 (inSubtree_root.2 hroot)
                have := hashDefined_sub (k := m + 1) (i := a) (a := K - (m + 1)) hv.defined (by omega) hd.2
                exact absurd hn (this.1 l)
            subst hm0
            rw [hn] at hxs
            unfold storedParentHash at hxs
            dsimp only at hxs
            split at hxs
            · rename_i ph hph
              refine ⟨a, l, ph, _, inSubtree_leaf.1 hup, hn, hph, (hv.leaves a l hn).signed,
                .up (.leaf l hn) hp hcs hxr (by rw [hn]; unfold storedParentHash; dsimp only; rw [hph]; exact hxs),
                [], _, rfl⟩
            · cases hxs
      by_cases hL : Linked Hs.digest t.get p k (2 * i) (2 * i + 1)
      · exact key _ _ (.inl ⟨rfl, rfl⟩) hL
      · by_cases hR : Linked Hs.digest t.get p k (2 * i + 1) (2 * i)
        · exact key _ _ (.inr ⟨rfl, rfl⟩) hR
        · exact absurd ⟨fun h => absurd h hL, fun h => absurd h hR⟩ hone

/-! ### What the leaf fixes -/

theorem chain_fits {H : Bytes → Bytes} {n : Nat → Option Node} {j k i : Nat} {links : List (ParentNode × Bytes)}
    (hv : ∀ k i p, n (node (k + 1) i) = some (.Parent p) → ParentHashValid H n k i p) (h : Chain H n j k i links) :
    ∀ x ∈ links, (parentHashEnc x.1 x.2).fits := by
  induction h with
  | leaf => intro x hx; cases hx
  | up _ hp hcs _ _ ih =>
    intro x hx
    rcases List.mem_append.1 hx with hx | hx
    · exact ih x hx
    · rw [List.mem_singleton.1 hx]
      have := hv _ _ _ hp
      rcases hcs with ⟨_, rfl⟩ | ⟨_, rfl⟩
      · exact this.right_fits
      · exact this.left_fits

/-- The node at the top of a chain is the last one listed, or the leaf. -/
theorem chain_top {H : Bytes → Bytes} {n : Nat → Option Node} {j k i : Nat} {links : List (ParentNode × Bytes)}
    (h : Chain H n j k i links) : storedParentHash (n (node k i)) =
      match links.getLast? with
      | some x => some x.1.parent_hash
      | none => storedParentHash (n (node 0 j)) := by
  cases h with
  | leaf => rfl
  | up _ hp _ _ _ => rw [hp, List.getLast?_concat]; rfl

/-- Each node listed carries the digest of what is hashed for the next one. -/
theorem chain_digest {H : Bytes → Bytes} {n : Nat → Option Node} {j k i : Nat} {links : List (ParentNode × Bytes)}
    (h : Chain H n j k i links) :
    (∀ x, links[0]? = some x → storedParentHash (n (node 0 j)) = some (H (parentHashEnc x.1 x.2).bytes)) ∧
    ∀ m x y, links[m]? = some x → links[m + 1]? = some y → x.1.parent_hash = H (parentHashEnc y.1 y.2).bytes := by
  induction h with
  | leaf => exact ⟨fun x hx => (nomatch hx), fun m x y hx => (nomatch hx)⟩
  | @up l a k i c s p links hc hp _ _ hs ih =>
    have htop := chain_top hc
    rw [hs] at htop
    refine ⟨fun x hx => ?_, fun m x y hx hy => ?_⟩
    · cases links with
      | nil =>
        simp only [List.nil_append, List.getElem?_cons_zero, Option.some.injEq] at hx
        subst hx
        exact htop.symm
      | cons z zs => exact ih.1 x hx
    · by_cases hm : m + 1 < links.length
      · rw [List.getElem?_append_left (by omega)] at hx
        rw [List.getElem?_append_left hm] at hy
        exact ih.2 m x y hx hy
      · have hm2 : m + 1 < (links ++ [(p, treeHash H (without p.unmerged_leaves n) k s)]).length :=
          (List.getElem?_eq_some_iff.1 hy).1
        rw [List.length_append, List.length_singleton] at hm2
        have hm3 : links.length = m + 1 := by omega
        rw [List.getElem?_append_right (by omega), hm3, Nat.sub_self] at hy
        simp only [List.getElem?_cons_zero, Option.some.injEq] at hy
        rw [List.getElem?_append_left (by omega)] at hx
        rw [List.getLast?_eq_getElem?, hm3, Nat.add_sub_cancel, hx] at htop
        subst hy
        injection htop with htop
        exact htop.symm

/-- C107: the leaf at the end of a chain fixes the chain.  If leaves of two accepted trees carry the same parent hash,
then as far as there are chains of parents above both, these parents have the same keys and parent hashes and their
other children the same tree hashes, or a collision of the hash function is known.  A leaf node is signed together with
its parent hash, so nobody else can put a parent above a member that this member did not choose. -/
theorem C107_binding (P : CryptoProvider) (t t' : RatchetTree) (ctx ctx' : GroupContext) (now now' : Int) (Hs : Hash)
    (hP : P.hash ctx.cipher_suite = .ok Hs) (hP' : P.hash ctx'.cipher_suite = .ok Hs)
    (h0 : 0 < t.length) (hl : t.length < 2 ^ 32) (h0' : 0 < t'.length) (hl' : t'.length < 2 ^ 32) (K K' : Nat)
    (hK : IsHeight ((t.length + 1) / 2) K) (hK' : IsHeight ((t'.length + 1) / 2) K')
    (h : verify_integrity P t ctx now = .ok ()) (h' : verify_integrity P t' ctx' now' = .ok ())
    (j j' k k' i i' : Nat) (links links' : List (ParentNode × Bytes))
    (hc : Chain Hs.digest t.get j k i links) (hc' : Chain Hs.digest t'.get j' k' i' links')
    (hsame : storedParentHash (t.get (node 0 j)) = storedParentHash (t'.get (node 0 j'))) :
    (∀ (m : Nat) x y, links[m]? = some x → links'[m]? = some y →
      x.1.encryption_key = y.1.encryption_key ∧ x.1.parent_hash = y.1.parent_hash ∧ x.2 = y.2) ∨
    Collision Hs.digest (chainInputs links) (chainInputs links') := by
  have hf := chain_fits (C19_sound P t ctx now Hs hP h0 hl K hK h).parents hc
  have hf' := chain_fits (C19_sound P t' ctx' now' Hs hP' h0' hl' K' hK' h').parents hc'
  by_cases hcol : Collision Hs.digest (chainInputs links) (chainInputs links')
  · exact .inr hcol
  left
  have key : ∀ x y, x ∈ links → y ∈ links' →
      Hs.digest (parentHashEnc x.1 x.2).bytes = Hs.digest (parentHashEnc y.1 y.2).bytes →
      x.1.encryption_key = y.1.encryption_key ∧ x.1.parent_hash = y.1.parent_hash ∧ x.2 = y.2 := by
    intro x y hx hy he
    apply parentHashEnc_inj (hf x hx) (hf' y hy)
    apply Decidable.byContradiction
    intro hne
    exact hcol ⟨_, List.mem_map.2 ⟨x, hx, rfl⟩, _, List.mem_map.2 ⟨y, hy, rfl⟩, hne, he⟩
  have hd := chain_digest hc
  have hd' := chain_digest hc'
  intro m
  induction m with
  | zero =>
    intro x y hx hy
    refine key x y (List.mem_of_getElem? hx) (List.mem_of_getElem? hy) ?_
    have h1 := hd.1 x hx
    rw [hsame, hd'.1 y hy] at h1
    injection h1 with h1
    exact h1.symm
  | succ m ih =>
    intro x y hx hy
    have hm := (List.getElem?_eq_some_iff.1 hx).1
    have hm' := (List.getElem?_eq_some_iff.1 hy).1
    have e := List.getElem?_eq_getElem (l := links) (i := m) (by omega)
    have e' := List.getElem?_eq_getElem (l := links') (i := m) (by omega)
    refine key x y (List.mem_of_getElem? hx) (List.mem_of_getElem? hy) ?_
    rw [← hd.2 m _ x e hx, ← hd'.2 m _ y e' hy]
    exact (ih _ _ e e').2.1

/-! ### Everything else in the resolution -/

/-- C107: in the tree of an honest group every parent is vouched for as RFC 9420 section 7.9.2 demands it. -/
theorem C107_honest (P : CryptoProvider) (cs : CipherSuite) (Hs : Hash) (hP : P.hash cs = .ok Hs)
    (hs : ∀ b, (Hs.digest b).length < 2 ^ 30) (t : RatchetTree) (past : Past) (h : Honest P cs Hs.digest t past)
    (k i : Nat) (p : ParentNode) (hp : t.get (node (k + 1) i) = some (.Parent p)) :
    (∃ x, VouchedBy Hs.digest t.get p k (2 * i) (2 * i + 1) x) ∨
    (∃ x, VouchedBy Hs.digest t.get p k (2 * i + 1) (2 * i) x) := by
  obtain ⟨c, s, hcs, ho⟩ := (honest_inv hP hs h).hash.sides k i p hp
  rcases hcs with ⟨rfl, rfl⟩ | ⟨rfl, rfl⟩
  · exact .inl ho.vouched
  · exact .inr ho.vouched

/-- Four leaves, three members; the first one vouches for the root, and between the two there is nothing. -/
def sideTree : RatchetTree :=
  let two := some (.Leaf (signedLeaf 2 .Update))
  let root : ParentNode := ⟨[9], [], []⟩
  let h := (parentHashEnc root (treeHash id (fun x => if x = 4 then two else none) 1 1)).bytes
  [some (.Leaf (signedLeaf 0 (.Commit h))), none, some (.Leaf (signedLeaf 1 .Update)), some (.Parent root), two,
   none, none]

set_option maxRecDepth 100000 in
theorem sideTree_accepted : verify_integrity toyProvider sideTree (contextOf sideTree) 0 = .ok () := by decide +kernel

/-- C107 is false as RFC 9420 section 7.9.2 states it: a tree is accepted in which a parent has a member below it
that was never sent its key, and that it does not list as unmerged. -/
theorem C107_refuted : ∃ t ctx, verify_integrity toyProvider t ctx 0 = .ok () ∧
    ∃ k i p, t.get (node (k + 1) i) = some (.Parent p) ∧ p.unmerged_leaves = [] ∧
      ¬ (∃ x, VouchedBy id t.get p k (2 * i) (2 * i + 1) x) ∧
      ¬ (∃ x, VouchedBy id t.get p k (2 * i + 1) (2 * i) x) := by
  refine ⟨sideTree, contextOf sideTree, sideTree_accepted, 1, 0, ⟨[9], [], []⟩, rfl, rfl, ?_, ?_⟩
  · rintro ⟨x, h1, h2, h3⟩
    have h1' : x ∈ [0, 2] := h1
    by_cases hx : x = 2
    · subst hx; cases h2
    · obtain ⟨u, hu, _⟩ := (h3 2).1 ⟨(by show 2 ∈ [0, 2]; decide), fun h => hx h.symm⟩
      cases hu
  · rintro ⟨x, h1, h2, _⟩
    have h1' : x ∈ [4] := h1
    rw [List.mem_singleton] at h1'
    subst h1'
    cases h2

set_option maxRecDepth 100000 in
/-- In the accepted tree with an unmerged leaf, the root is vouched for through the left parent. -/
example : verify_integrity toyProvider goodTree (contextOf goodTree) 0 = .ok () ∧ node 2 0 < 2 ^ (2 + 1) - 1 ∧
    goodTree.get (node 2 0) = some (.Parent ⟨[9], [], [1]⟩) := ⟨by decide +kernel, by decide, rfl⟩

/-- `C107_chain_partial` applies to it. -/
example : ∃ j l ph links, below 2 0 j ∧ goodTree.get (node 0 j) = some (.Leaf l) ∧
    l.payload.leaf_node_source = .Commit ph ∧
    LeafSigned toyProvider (contextOf goodTree).cipher_suite l (contextOf goodTree).group_id (UInt32.ofNat j) ∧
    Chain id goodTree.get j 2 0 links ∧ ∃ q sh, links = q ++ [(⟨[9], [], [1]⟩, sh)] :=
  C107_chain_partial toyProvider goodTree (contextOf goodTree) 0 toyHash rfl (by decide) (by decide) 2
    goodTree_height (by decide +kernel) 2 0 _ (by decide) rfl

/-- `without`, for evaluation. -/
private def drop (us : List LeafIndex) (n : Nat → Option Node) (x : Nat) : Option Node :=
  if x ∈ us.map (fun u => node 0 u.toNat) then none
  else match n x with
    | some (.Parent p) => some (.Parent { p with unmerged_leaves := p.unmerged_leaves.filter fun u => u ∉ us })
    | n => n

private theorem without_eq (us : List LeafIndex) (n : Nat → Option Node) : without us n = drop us n := by
  funext x
  unfold without drop
  by_cases h : ∃ u ∈ us, x = node 0 u.toNat
  · rw [if_pos h, if_pos (by obtain ⟨u, h1, h2⟩ := h; exact List.mem_map.2 ⟨u, h1, h2.symm⟩)]
  · rw [if_neg h, if_neg (fun hc => by obtain ⟨u, h1, h2⟩ := List.mem_map.1 hc; exact h ⟨u, h1, h2.symm⟩)]
    cases n x with
    | none => rfl
    | some nd =>
      cases nd with
      | Leaf l => rfl
      | Parent p =>
        dsimp only

set_option maxRecDepth 100000 in
/-- Two different accepted trees with the same leaf at the end of a chain of two parents: a member joined between. -/
example : ∃ links links', goodTree ≠ treeWith none [] ∧ goodTree.get (node 0 0) = (treeWith none []).get (node 0 0) ∧
    verify_integrity toyProvider goodTree (contextOf goodTree) 0 = .ok () ∧
    verify_integrity toyProvider (treeWith none []) (contextOf (treeWith none [])) 0 = .ok () ∧
    Chain id goodTree.get 0 2 0 links ∧ Chain id (treeWith none []).get 0 2 0 links' ∧
    links.length = 2 ∧ links'.length = 2 := by
  refine ⟨_, _, by decide +kernel, by decide +kernel, by decide +kernel, by decide +kernel,
    .up (k := 1) (l := 1) (a := 0) (.up (k := 0) (l := 0) (a := 0) (.leaf _ rfl) rfl (.inl ⟨rfl, rfl⟩) (by decide) ?_)
      rfl (.inl ⟨rfl, rfl⟩) (by decide) ?_,
    .up (k := 1) (l := 1) (a := 0) (.up (k := 0) (l := 0) (a := 0) (.leaf _ rfl) rfl (.inl ⟨rfl, rfl⟩) (by decide) ?_)
      rfl (.inl ⟨rfl, rfl⟩) (by decide) ?_, rfl, rfl⟩
  all_goals (rw [without_eq]; decide +kernel)

/-- The group of `C62` meets the conditions of `C107_honest`: its root lists a member that joined later. -/
example : ∃ past, Honest sumProvider .MLS_128_DHKEMX25519_AES128GCM_SHA256_Ed25519 sumHash.digest sumFour past ∧
    sumFour.get (node 2 0) = some (.Parent { sumRoot with unmerged_leaves := [3] }) :=
  let ⟨past, _, h⟩ := sumFour_honest
  ⟨past, h, rfl⟩

end Rmls
