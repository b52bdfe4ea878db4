import Verif.Proofs.Release
import Verif.Props.Integrity
import Verif.Props.Members
import Verif.Props.Proposal
/-
Property C69: builds without overflow checks.

In full: a build without overflow checks behaves like one with them, and no leaf index makes an operation run for
ever or reach the leaf of another index.
-/
namespace Rmls
open Spec Rmls.RatchetTree

/-! ## What is the same -/

/-- C69: where tree navigation comes back in a build with overflow checks, it gives the same in a build without. -/
theorem C69_navigation_partial (F n x : Nat) (hF : 34 ≤ F) :
    Same (NodeIndex.level x) (Release.NodeIndex.level F x) ∧
    Same (NodeIndex.left x) (Release.NodeIndex.left F x) ∧
    Same (NodeIndex.right x) (Release.NodeIndex.right F x) ∧
    Same (NodeIndex.children x) (Release.NodeIndex.children F x) ∧
    Same (LeafIndex.node_index x) (.ok (Release.LeafIndex.node_index x)) ∧
    Same (NumLeaves.width n) (.ok (Release.NumLeaves.width n)) ∧
    Same (NumLeaves.root n) (Release.NumLeaves.root n) ∧
    Same (NumLeaves.parent n x) (Release.NumLeaves.parent F n x) ∧
    Same (NumLeaves.sibling n x) (Release.NumLeaves.sibling F n x) ∧
    Same (NumLeaves.direct_path n x) (Release.NumLeaves.direct_path F n x) ∧
    Same (NumLeaves.copath n x) (Release.NumLeaves.copath F n x) :=
  have h33 : 33 ≤ F := by omega
  ⟨Release.NodeIndex.same_level h33 x, Release.NodeIndex.same_left h33 x, Release.NodeIndex.same_right h33 x,
    Release.NodeIndex.same_children h33 x, Release.same_node_index x, Release.NumLeaves.same_width n,
    Release.NumLeaves.same_root n, Release.NumLeaves.same_parent h33 n x, Release.NumLeaves.same_sibling h33 n x,
    Release.NumLeaves.same_direct_path hF n x, Release.NumLeaves.same_copath hF n x⟩

/-- C69: the same for reading the tree. -/
theorem C69_reading_partial (F : Nat) (hF : 34 ≤ F) (t : RatchetTree) (x : Nat) (l : LeafNode)
    (P : CryptoProvider) (cs : CipherSuite) (exclude : List LeafIndex) :
    Same (t.get_leaf x) (.ok (Release.RatchetTree.get_leaf t x)) ∧
    Same (t.resolve x) (Release.RatchetTree.resolve F t x) ∧
    Same t.supported_creds (Release.RatchetTree.supported_creds t) ∧
    Same t.keys (Release.RatchetTree.keys t) ∧
    Same (t.find_leaf l) (Release.RatchetTree.find_leaf t l) ∧
    Same (t.filtered_direct_path x) (Release.RatchetTree.filtered_direct_path F t x) ∧
    Same (compute_tree_hash P cs t x exclude) (Release.RatchetTree.compute_tree_hash F P cs t x exclude) ∧
    Same (compute_root_tree_hash P cs t) (Release.RatchetTree.compute_root_tree_hash F P cs t) :=
  have h33 : 33 ≤ F := by omega
  ⟨Release.RatchetTree.same_get_leaf t x, Release.RatchetTree.same_resolve h33 t x,
    Release.RatchetTree.same_supported_creds t, Release.RatchetTree.same_keys t,
    Release.RatchetTree.same_find_leaf t l, Release.RatchetTree.same_filtered_direct_path hF t x,
    Release.RatchetTree.same_compute_tree_hash h33 P cs t x exclude,
    Release.RatchetTree.same_compute_root_tree_hash h33 P cs t⟩

/-- C69: the same for checking a tree. -/
theorem C69_checking_partial (F : Nat) (hF : 34 ≤ F) (P : CryptoProvider) (t : RatchetTree) (ctx : GroupContext)
    (now : Int) : Same (verify_integrity P t ctx now) (Release.RatchetTree.verify_integrity F P t ctx now) :=
  Release.RatchetTree.same_verify_integrity hF P t ctx now

/-- C69: the same for changing a tree. -/
theorem C69_changing_partial (F : Nat) (hF : 34 ≤ F) (t : RatchetTree) (li : Nat) (l : LeafNode)
    (ps : List Proposal) (senders : List LeafIndex) :
    Same (t.add l) (Release.RatchetTree.add F t l) ∧
    Same (t.update li l) (Release.RatchetTree.update F t li l) ∧
    Same (t.remove li) (Release.RatchetTree.remove F t li) ∧
    Same (t.apply ps senders) (Release.RatchetTree.apply F t ps senders) :=
  ⟨Release.RatchetTree.same_add hF t l, Release.RatchetTree.same_update hF t li l,
    Release.RatchetTree.same_remove hF t li, Release.RatchetTree.same_apply hF t ps senders⟩

/-- C69: the same for merging a path, both for the tree left behind and for the outcome. -/
theorem C69_merging_partial (F : Nat) (hF : 34 ≤ F) (P : CryptoProvider) (cs : CipherSuite) (t : RatchetTree)
    (li : Nat) (path : UpdatePath) (h : Returns (merge_update_path P cs t li path).2) :
    Release.RatchetTree.merge_update_path F P cs t li path = merge_update_path P cs t li path :=
  Release.RatchetTree.same_merge_update_path hF P cs t li path h

/-- C69: the same for the secret tree and the ratchets. -/
theorem C69_secrets_partial (F : Nat) (hF : 34 ≤ F) (P : CryptoProvider) (cs : CipherSuite) (n : Nat) (s : Bytes)
    (x : RatchetSecret) :
    Same (SecretTree.new P cs n s) (Release.SecretTree.new F P cs n s) ∧
    Same (x.derive_next P cs) (Release.RatchetSecret.derive_next P cs x) :=
  ⟨Release.SecretTree.same_new (by omega) P cs n s, Release.same_derive_next P cs x⟩

/-! ## What is not -/

theorem Release.height_of_outside {n K li : Nat} (h0 : 0 < n) (hK : IsHeight n K) (hli : 2 ^ K ≤ li)
    (hb : li < 2 ^ 31) : NumLeaves.height n = K ∧ K < 31 ∧ Release.Outside (NumLeaves.height n) (2 * li) := by
  have := isHeight_unique hK (isHeight_height h0)
  subst this
  have h1 := node_add_one (NumLeaves.height n) 0
  refine ⟨rfl, ?_, ?_, by omega⟩
  · apply Decidable.byContradiction
    intro hc
    have : 2 ^ 31 ≤ 2 ^ NumLeaves.height n := Nat.pow_le_pow_right (by omega) (by omega)
    omega
  · omega

theorem Release.not_hangs {α : Type} {x : Res α} {run : Nat → Res α} (h : ∀ F, 34 ≤ F → Same x (run F))
    (hx : Returns x) : ¬ Hangs run := by
  intro hh
  have h1 := h 34 (Nat.le_refl _) hx
  rw [hh 34] at h1
  exact hx _ h1.symm

/-- C69 is false for paths: without overflow checks the direct path of a leaf is computed for ever exactly if the leaf is
outside the tree.  (It is a vector that grows in every round.) -/
theorem C69_direct_path_refuted (n K li : Nat) (h0 : 0 < n) (hn : n ≤ 2 ^ 31) (hK : IsHeight n K)
    (hb : li < 2 ^ 31) : Hangs (fun F => Release.NumLeaves.direct_path F n (2 * li)) ↔ 2 ^ K ≤ li := by
  constructor
  · intro h
    apply Decidable.byContradiction
    intro hc
    have hin : NumLeaves.InTree (NumLeaves.height n) 0 li := by
      rw [← isHeight_unique hK (isHeight_height h0)]
      exact inTree_leaf.2 (by omega)
    have h1 := NumLeaves.direct_path_inTree h0 hn hin
    rw [node_zero] at h1
    exact Release.not_hangs (fun F hF => Release.NumLeaves.same_direct_path hF n (2 * li))
      (fun f => by rw [h1]; nofun) h
  · intro h F
    obtain ⟨_, h1, h2⟩ := Release.height_of_outside h0 hK h hb
    exact Release.directPathLoop_outside F h0 hn (by omega) F _ h2

/-- C69 is false for leaf indices: without overflow checks an index and the index 2^31 above it stand for the same leaf. -/
theorem C69_alias_refuted (F : Nat) (t : RatchetTree) (li : Nat) (l : LeafNode) (P : CryptoProvider)
    (cs : CipherSuite) (path : UpdatePath) :
    Release.RatchetTree.get_leaf t (li + 2 ^ 31) = Release.RatchetTree.get_leaf t li ∧
    Release.RatchetTree.update F t (li + 2 ^ 31) l = Release.RatchetTree.update F t li l ∧
    Release.RatchetTree.remove F t (li + 2 ^ 31) = Release.RatchetTree.remove F t li ∧
    Release.RatchetTree.merge_update_path F P cs t (li + 2 ^ 31) path =
      Release.RatchetTree.merge_update_path F P cs t li path := by
  refine ⟨?_, ?_, ?_, ?_⟩
  · unfold Release.RatchetTree.get_leaf; rw [Release.node_index_alias]
  · unfold Release.RatchetTree.update; rw [Release.node_index_alias]
  · unfold Release.RatchetTree.remove; rw [Release.node_index_alias]
  · unfold Release.RatchetTree.merge_update_path; rw [Release.node_index_alias]

/-- C69 is false for updates: which leaf indices make `update` run for ever. -/
theorem C69_update_refuted (t : RatchetTree) (l : LeafNode) (li K : Nat) (h0 : 0 < t.length)
    (hl : t.length < 2 ^ 32) (hK : IsHeight ((t.length + 1) / 2) K) (hb : li < 2 ^ 31) :
    Hangs (fun F => Release.RatchetTree.update F t li l) ↔ 2 ^ K ≤ li := by
  have hK' : IsHeight t.num_leaves K := by rw [room h0 hl]; exact hK
  obtain ⟨hn0, hn1, _⟩ := num_leaves_bounds h0 hl
  constructor
  · intro h
    apply Decidable.byContradiction
    intro hc
    obtain ⟨t', h1, _⟩ := update_in (leaf := l) h0 hl hK' (show li < 2 ^ K by omega)
    exact Release.not_hangs (fun F hF => Release.RatchetTree.same_update hF t li l)
      (fun f => by rw [h1]; nofun) h
  · intro h F
    obtain ⟨_, h1, h2⟩ := Release.height_of_outside hn0 hK' h hb
    unfold Release.RatchetTree.update
    have hnl : (t.set (2 * li) (some (.Leaf l))).num_leaves = t.num_leaves := by
      unfold num_leaves; rw [set_length]
    rw [Release.node_index_lt hb]
    dsimp only
    rw [hnl]
    exact Release.walkUp_outside F _ hn0 hn1 (by omega) (fun _ _ _ => ⟨_, rfl⟩) F _ _ h2

/-- C69 is false for removals: which leaf indices make `remove` run for ever. -/
theorem C69_remove_refuted (t : RatchetTree) (li K : Nat) (h0 : 0 < t.length)
    (hl : t.length < 2 ^ 32) (hK : IsHeight ((t.length + 1) / 2) K) (hb : li < 2 ^ 31) :
    Hangs (fun F => Release.RatchetTree.remove F t li) ↔ 2 ^ K ≤ li := by
  have hK' : IsHeight t.num_leaves K := by rw [room h0 hl]; exact hK
  obtain ⟨hn0, hn1, _⟩ := num_leaves_bounds h0 hl
  constructor
  · intro h
    apply Decidable.byContradiction
    intro hc
    obtain ⟨t', _, h1, _⟩ := remove_get h0 hl hK' (show li < 2 ^ K by omega)
    exact Release.not_hangs (fun F hF => Release.RatchetTree.same_remove hF t li)
      (fun f => by rw [h1]; nofun) h
  · intro h F
    obtain ⟨_, h1, h2⟩ := Release.height_of_outside hn0 hK' h hb
    unfold Release.RatchetTree.remove
    rw [Release.node_index_lt hb]
    dsimp only
    rw [Release.walkUp_outside F _ hn0 hn1 (by omega) (fun _ _ _ => ⟨_, rfl⟩) F _ _ h2]
    rfl

/-- C69 is false for paths of a commit: with a committer outside the tree, merging the path runs for ever. -/
theorem C69_merge_refuted (P : CryptoProvider) (cs : CipherSuite) (t : RatchetTree) (li K : Nat) (path : UpdatePath)
    (h0 : 0 < t.length) (hl : t.length < 2 ^ 32) (hK : IsHeight ((t.length + 1) / 2) K) (hb : li < 2 ^ 31)
    (h : 2 ^ K ≤ li) : Hangs (fun F => (Release.RatchetTree.merge_update_path F P cs t li path).2) := by
  have hK' : IsHeight t.num_leaves K := by rw [room h0 hl]; exact hK
  obtain ⟨hn0, hn1, _⟩ := num_leaves_bounds h0 hl
  intro F
  have := (C69_direct_path_refuted t.num_leaves K li hn0 hn1 hK' hb).2 h F
  dsimp only at this
  unfold Release.RatchetTree.merge_update_path
  rw [Release.node_index_lt hb]
  dsimp only
  rw [this]

/-- C69 is false for commits: a list with one removal that the check on proposal lists accepts, of a leaf outside the
tree, is applied for ever. -/
theorem C69_commit_refuted (t : RatchetTree) (r c s : LeafIndex) (K : Nat) (h0 : 0 < t.length)
    (hl : t.length < 2 ^ 32) (hK : IsHeight ((t.length + 1) / 2) K) (hb : r.toNat < 2 ^ 31)
    (h : 2 ^ K ≤ r.toNat) (hc : r ≠ c) :
    verify_proposal_list [.Remove ⟨r⟩] [s] c = .ok () ∧
    Hangs (fun F => Release.RatchetTree.apply F t [.Remove ⟨r⟩] [s]) := by
  constructor
  · unfold verify_proposal_list
    rw [if_neg (by simp)]
    simp [verifyProposals, verifyProposal, hc]
  · intro F
    have := (C69_remove_refuted t r.toNat K h0 hl hK hb).2 h F
    dsimp only at this
    show (Release.RatchetTree.remove F t r.toNat >>= _) >>= _ = _
    rw [this]
    rfl

/-- C69: the rule that a committer does not remove themselves is not kept: the list that removes the index 2^31 above
the committer's is accepted, and applying it removes the committer. -/
theorem C69_committer_refuted (F : Nat) (hF : 34 ≤ F) (t : RatchetTree) (c s : LeafIndex) (K : Nat)
    (h0 : 0 < t.length) (hl : t.length < 2 ^ 32) (hK : IsHeight ((t.length + 1) / 2) K) (hc : c.toNat < 2 ^ K)
    (hK31 : K ≤ 31) :
    verify_proposal_list [.Remove ⟨c + 2147483648⟩] [s] c = .ok () ∧
    ∃ t', Release.RatchetTree.apply F t [.Remove ⟨c + 2147483648⟩] [s] = .ok t' ∧ t'.get (2 * c.toNat) = none := by
  have hK' : IsHeight t.num_leaves K := by rw [room h0 hl]; exact hK
  have hp : 2 ^ K ≤ 2 ^ 31 := Nat.pow_le_pow_right (by omega) hK31
  have hn : (c + 2147483648).toNat = c.toNat + 2 ^ 31 := by
    rw [UInt32.toNat_add]
    have : (2147483648 : UInt32).toNat = 2147483648 := rfl
    omega
  constructor
  · have hne : ¬ c + 2147483648 = c := by
      intro h
      have := congrArg UInt32.toNat h
      omega
    unfold verify_proposal_list
    rw [if_neg (by simp)]
    simp [verifyProposals, verifyProposal, hne]
  · obtain ⟨t', _, h1, h2⟩ := remove_get h0 hl hK' hc
    have hr : Release.RatchetTree.remove F t c.toNat = .ok t' := by
      have := Release.RatchetTree.same_remove hF t c.toNat
      rw [h1] at this
      exact this (fun f => nofun)
    refine ⟨t', ?_, ?_⟩
    · show (Release.RatchetTree.remove F t (c + 2147483648).toNat >>= _) >>= _ = _
      have ha : Release.RatchetTree.remove F t (c.toNat + 2 ^ 31) = Release.RatchetTree.remove F t c.toNat := by
        unfold Release.RatchetTree.remove; rw [Release.node_index_alias]
      rw [hn, ha, hr]
      rfl
    · rw [h2.2.1, if_pos (.inl rfl)]

/-- C69: an unmerged leaf outside the tree keeps the check of a tree busy for ever, at whatever parent it is listed. -/
theorem C69_unmerged_refuted (t : RatchetTree) (p K : Nat) (li : LeafIndex) (ls : List LeafIndex)
    (h0 : 0 < t.length) (hl : t.length < 2 ^ 32) (hK : IsHeight ((t.length + 1) / 2) K)
    (hodd : t.length < 2 ^ (K + 1)) (hp : p < t.length) (hb : li.toNat < 2 ^ 31) (h : 2 ^ K ≤ li.toNat) :
    Hangs (fun F => Release.RatchetTree.unmergedLoop F t t.num_leaves p (li :: ls)) := by
  have hK' : IsHeight t.num_leaves K := by rw [room h0 hl]; exact hK
  obtain ⟨hn0, hn1, _⟩ := num_leaves_bounds h0 hl
  obtain ⟨he, h1, h2⟩ := Release.height_of_outside hn0 hK' h hb
  have hlen : t.length ≤ 2 * node (NumLeaves.height t.num_leaves) 0 + 1 := by
    have hn := node_add_one K 0
    rw [Nat.pow_succ] at hodd
    rw [he]
    omega
  intro F
  dsimp only
  unfold Release.RatchetTree.unmergedLoop
  rw [Release.node_index_lt hb,
    Release.unmergedWalk_outside F li hn0 hn1 (by omega) (by omega) hlen F _ h2]
  rfl

section examples

/-- The good tree with a sixth leaf listed as unmerged; there are four leaves. -/
def endlessTree : RatchetTree := treeWith (some (.Leaf (signedLeaf 1 .Update))) [1, 5]

set_option maxRecDepth 100000 in
/-- C69 is false for the check of a tree: a tree whose hashes and leaves are all in order is checked for ever.  (With
overflow checks this is a panic.) -/
theorem C69_integrity_refuted : ∃ (P : CryptoProvider) (t : RatchetTree) (ctx : GroupContext),
    Hangs (fun F => Release.RatchetTree.verify_integrity F P t ctx 0) ∧
    verify_integrity P t ctx 0 = .fault .panic := by
  refine ⟨toyProvider, endlessTree, contextOf endlessTree, ?_, by decide +kernel⟩
  intro F
  have hsmall : ∀ F, F < 34 → Release.RatchetTree.verify_integrity F toyProvider endlessTree (contextOf endlessTree) 0 =
      .fault .hang := by decide +kernel
  by_cases hF : F < 34
  · exact hsmall F hF
  · have h33 : 33 ≤ F := by omega
    have h1 : Release.RatchetTree.compute_root_tree_hash F toyProvider (contextOf endlessTree).cipher_suite endlessTree =
        .ok (contextOf endlessTree).tree_hash := by
      have h := Release.RatchetTree.same_compute_root_tree_hash h33 toyProvider (contextOf endlessTree).cipher_suite
        endlessTree
      have h' : compute_root_tree_hash toyProvider (contextOf endlessTree).cipher_suite endlessTree =
        .ok (contextOf endlessTree).tree_hash := by decide +kernel
      rw [h'] at h
      exact h (fun f => nofun)
    have h2 : Release.RatchetTree.verify_parent_hashes F toyProvider (contextOf endlessTree).cipher_suite endlessTree =
        .ok true := by
      have h := Release.RatchetTree.same_verifyParentHashesLoop h33 toyProvider (contextOf endlessTree).cipher_suite
        endlessTree endlessTree 0
      have h' : verifyParentHashesLoop toyProvider (contextOf endlessTree).cipher_suite endlessTree 0 endlessTree =
        .ok true := by decide +kernel
      rw [h'] at h
      exact h (fun f => nofun)
    have h3 : (match Release.RatchetTree.supported_creds endlessTree with
        | .ok creds => match Release.RatchetTree.verifyLeaves toyProvider endlessTree (contextOf endlessTree) 0 creds with
          | .ok _ => true
          | _ => false
        | _ => false) = true := by decide +kernel
    have h4 : Release.RatchetTree.unmergedWalk F endlessTree endlessTree.num_leaves 1 1 F
        (Release.LeafIndex.node_index 1) = .ok () := by
      have h := Release.RatchetTree.same_unmergedWalk h33 endlessTree endlessTree.num_leaves 1 1 34 F
        (Release.LeafIndex.node_index 1) (by omega)
      have h' : endlessTree.unmergedWalk endlessTree.num_leaves 1 1 34 (Release.LeafIndex.node_index 1) = .ok () := by
        decide +kernel
      rw [h'] at h
      exact h (fun f => nofun)
    have h5 := C69_unmerged_refuted endlessTree 1 2 5 [] (by decide) (by decide) toyTree_height (by decide) (by decide)
      (by decide) (by decide) F
    have h6 : ∀ ks, Release.RatchetTree.parentLoop F endlessTree endlessTree.num_leaves 0 endlessTree ks =
        .fault .hang := by
      intro ks
      show Release.RatchetTree.unmergedWalk F endlessTree endlessTree.num_leaves 1 1 F
        (Release.LeafIndex.node_index 1) >>= (fun _ =>
          Release.RatchetTree.unmergedLoop F endlessTree endlessTree.num_leaves 1 [5]) >>= _ = _
      rw [h4]
      dsimp only at h5
      rw [Res.ok_bind, h5]
      rfl
    dsimp only
    unfold Release.RatchetTree.verify_integrity
    rw [h1, Res.ok_bind, if_neg (by simp), h2, Res.ok_bind, if_neg (by simp)]
    cases hc : Release.RatchetTree.supported_creds endlessTree with
    | err e => rw [hc] at h3; exact absurd h3 nofun
    | fault e => rw [hc] at h3; exact absurd h3 nofun
    | ok creds =>
      rw [hc] at h3
      dsimp only at h3
      rw [Res.ok_bind]
      cases hv : Release.RatchetTree.verifyLeaves toyProvider endlessTree (contextOf endlessTree) 0 creds with
      | err e => rw [hv] at h3; exact absurd h3 nofun
      | fault e => rw [hv] at h3; exact absurd h3 nofun
      | ok ks =>
        rw [Res.ok_bind]
        exact h6 ks.2

/-- The conditions of `C69_remove_refuted`, `C69_update_refuted`, `C69_merge_refuted` and `C69_commit_refuted` can be met,
on either side: the good tree has four leaves. -/
example : Hangs (fun F => Release.RatchetTree.remove F goodTree 4) ∧
    ¬ Hangs (fun F => Release.RatchetTree.remove F goodTree 3) := by
  refine ⟨(C69_remove_refuted goodTree 4 2 (by decide) (by decide) goodTree_height (by decide)).2 (by decide),
    fun h => ?_⟩
  have := (C69_remove_refuted goodTree 3 2 (by decide) (by decide) goodTree_height (by decide)).1 h
  omega

example : verify_proposal_list [.Remove ⟨4⟩] [0] 0 = .ok () ∧
    Hangs (fun F => Release.RatchetTree.apply F goodTree [.Remove ⟨4⟩] [0]) :=
  C69_commit_refuted goodTree 4 0 0 2 (by decide) (by decide) goodTree_height (by decide) (by decide) (by decide)

/-- The committer of the good tree removes themselves. -/
example : ∃ t', Release.RatchetTree.apply 34 goodTree [.Remove ⟨2147483648⟩] [0] = .ok t' ∧ t'.get 0 = none :=
  (C69_committer_refuted 34 (by decide) goodTree 0 0 2 (by decide) (by decide) goodTree_height (by decide)
    (by decide)).2

/-- What `C69_checking_partial` needs: a check that comes back. -/
example : Release.RatchetTree.verify_integrity 34 toyProvider goodTree (contextOf goodTree) 0 = .ok () := by
  have h : verify_integrity toyProvider goodTree (contextOf goodTree) 0 = .ok () := by
    set_option maxRecDepth 100000 in decide +kernel
  have := C69_checking_partial 34 (by decide) toyProvider goodTree (contextOf goodTree) 0
  rw [h] at this
  exact this (fun f => nofun)

end examples

end Rmls
