import Verif.Proofs.Merge
import Verif.Props.TreeHash
import Verif.Props.Resolve
/-
Properties C22 (effect of merging an update path), C23 (parent hashes of the merged path) and C24 (failure).

A tree is *full* if its array has a slot for every node of the perfect tree over its leaves; this is what
`deserialize` produces and what growing in `add` and cutting in `remove` preserve.
-/
namespace Rmls
open Spec RatchetTree

/-- A tree of height `K`, with node indices of 32 bits, and a leaf `j` that is in its array. -/
structure MergePlace (t : RatchetTree) (K j : Nat) : Prop where
  size : t.length < 2 ^ 32
  height : IsHeight ((t.length + 1) / 2) K
  inside : 2 * j < t.length

/-- What the theorems about rejected paths assume in addition: the unmerged leaf indices do not overflow, which would
be a panic (C18). -/
structure MergeInput (t : RatchetTree) (K j : Nat) : Prop extends MergePlace t K j where
  small : ∀ x p, t.get x = some (.Parent p) → ∀ u ∈ p.unmerged_leaves, u.toNat < 2 ^ 31

theorem MergePlace.nonempty {t : RatchetTree} {K j : Nat} (h : MergePlace t K j) : 0 < t.length := by
  have := h.inside; omega

theorem MergePlace.numHeight {t : RatchetTree} {K j : Nat} (h : MergePlace t K j) : IsHeight t.num_leaves K := by
  rw [room h.nonempty h.size]; exact h.height

theorem MergePlace.sender {t : RatchetTree} {K j : Nat} (h : MergePlace t K j) : j < 2 ^ K :=
  leaf_in_tree h.nonempty h.size h.numHeight h.inside

/-- The filtered direct path is that of RFC 9420. -/
theorem C22_filtered (t : RatchetTree) (K j : Nat) (h : MergeInput t K j) :
    t.filtered_direct_path (node 0 j) = .ok ((filteredLevels t.get K j).map (anc j)) :=
  filtered_direct_path_eq h.nonempty h.size h.numHeight h.sender h.small

/-- Successful merges, in the terms of the proofs. -/
theorem merge_success {P : CryptoProvider} {cs : CipherSuite} {Hs : Hash} (hP : P.hash cs = .ok Hs)
    {t t' : RatchetTree} {K j : Nat} (h : MergePlace t K j) {path : UpdatePath}
    (hm : t.merge_update_path P cs j path = (t', .ok ())) :
    (filteredLevels t.get K j).length = path.nodes.length ∧ ∃ out,
      (chainDown Hs.digest t.get j (downList (filteredLevels t.get K j) path.nodes) none).2 = some out ∧
      path.leaf_node.payload.leaf_node_source = .Commit out ∧
      t'.length = t.length ∧
      (∀ r ∈ (chainDown Hs.digest t.get j (downList (filteredLevels t.get K j) path.nodes) none).1,
        t'.get (anc j r.1) = some (.Parent r.2)) ∧
      (∀ k, 1 ≤ k → k ≤ K → k ∉ filteredLevels t.get K j → t'.get (anc j k) = none) ∧
      (∀ x, ¬ above K j x → x ≠ node 0 j → t'.get x = t.get x) ∧
      t'.get (node 0 j) = some (.Leaf path.leaf_node) := by
  rcases merge_eq hP path h.nonempty h.size h.numHeight h.sender h.inside (.inr (by rw [hm]; simp)) with
    ⟨_, he⟩ | ⟨_, _, e, he, _⟩ | ⟨hlen, _, t2, hl2, hc2, hn2, ho2, he⟩
  · rw [hm] at he; cases he
  · rw [hm] at he; cases he
  refine ⟨hlen, ?_⟩
  rw [hm] at he
  cases hsrc : path.leaf_node.payload.leaf_node_source with
  | KeyPackage l => rw [hsrc] at he; cases he
  | Update => rw [hsrc] at he; cases he
  | Commit ph =>
    rw [hsrc] at he
    cases hout : (chainDown Hs.digest t.get j (downList (filteredLevels t.get K j) path.nodes) none).2 with
    | none => rw [hout] at he; cases he
    | some out =>
      rw [hout] at he
      dsimp only at he
      by_cases hph : ph ≠ out
      · rw [if_pos hph] at he; cases he
      rw [if_neg hph] at he
      injection he with he _
      have hph : ph = out := Decidable.not_not.1 hph
      have hjl : 2 * j < t2.length := by rw [hl2]; exact h.inside
      have hne : ∀ x, above K j x → x ≠ 2 * j := fun x hx => above_ne_leaf hx j
      have hg : ∀ x, x ≠ 2 * j → t'.get x = t2.get x := by
        intro x hx; rw [he, get_set, if_neg (fun h => hx h.1)]
      refine ⟨out, rfl, by rw [hph], by rw [he, set_length, hl2], ?_, ?_, ?_, ?_⟩
      · intro r hr
        have hk : r.1 ∈ filteredLevels t.get K j := by
          have : r.1 ∈ (downList (filteredLevels t.get K j) path.nodes).map (·.1) := by
            rw [← chainDown_levels Hs.digest t.get j (downList _ _) none, List.map_map]
            exact List.mem_map.2 ⟨r, hr, rfl⟩
          rw [downList_levels hlen] at this
          exact List.mem_reverse.1 this
        have := filteredLevels_mem.1 hk
        rw [hg (anc j r.1) (hne _ ⟨r.1, this.1, this.2.1, rfl⟩), hc2 r hr]
      · intro k h1 h2 h3
        rw [hg (anc j k) (hne _ ⟨k, h1, h2, rfl⟩), hn2 k h1 h2 h3]
      · intro x hx hxj
        rw [node_zero] at hxj
        rw [hg x hxj, ho2 x hx]
      · rw [node_zero, he, get_set, if_pos ⟨rfl, hjl⟩]

/-- C22: what a successful merge installs. -/
theorem C22_effect (P : CryptoProvider) (cs : CipherSuite) (Hs : Hash) (hP : P.hash cs = .ok Hs)
    (t t' : RatchetTree) (K j : Nat) (h : MergePlace t K j) (path : UpdatePath)
    (hm : t.merge_update_path P cs j path = (t', .ok ())) :
    t'.length = t.length ∧
    path.nodes.length = (filteredLevels t.get K j).length ∧
    t'.get (node 0 j) = some (.Leaf path.leaf_node) ∧
    (∀ (i k : Nat), (filteredLevels t.get K j)[i]? = some k → ∃ (n : UpdatePathNode) (ph : Bytes), path.nodes[i]? = some n ∧
      t'.get (anc j k) = some (.Parent ⟨n.encryption_key, ph, []⟩)) ∧
    (∀ k, 1 ≤ k → k ≤ K → k ∉ filteredLevels t.get K j → t'.get (anc j k) = none) ∧
    (∀ x, ¬ above K j x → x ≠ node 0 j → t'.get x = t.get x) := by
  obtain ⟨hlen, out, _, _, h3, h4, h5, h6, h7⟩ := merge_success hP h hm
  refine ⟨h3, hlen.symm, h7, ?_, h5, h6⟩
  intro i k hik
  obtain ⟨hi, hk⟩ := List.getElem?_eq_some_iff.1 hik
  have hi' : i < path.nodes.length := by omega
  have hin : (k, path.nodes[i].encryption_key) ∈ downList (filteredLevels t.get K j) path.nodes := by
    unfold downList
    rw [List.mem_reverse, List.mem_map]
    refine ⟨(k, path.nodes[i]), ?_, rfl⟩
    rw [List.mem_iff_getElem]
    refine ⟨i, by rw [List.length_zip]; omega, ?_⟩
    rw [List.getElem_zip, hk]
  rw [← chainDown_levels Hs.digest t.get j (downList _ _) none, List.mem_map] at hin
  obtain ⟨r, hr, he⟩ := hin
  injection he with he1 he2
  have hun : ∀ ks prev, ∀ r ∈ (chainDown Hs.digest t.get j ks prev).1, r.2.unmerged_leaves = [] := by
    intro ks
    induction ks with
    | nil => intro prev r hr; simp [chainDown] at hr
    | cons a ks ih =>
      intro prev r hr
      obtain ⟨k, key⟩ := a
      rw [chainDown] at hr
      rcases List.mem_cons.1 hr with rfl | hr
      · rfl
      · exact ih _ r hr
  have := hun _ _ r hr
  refine ⟨path.nodes[i], r.2.parent_hash, List.getElem?_eq_getElem hi', ?_⟩
  have hg := h4 r hr
  rw [he1] at hg
  rw [hg, ← he2]
  obtain ⟨_, a, b, c⟩ := r
  dsimp only at this
  rw [this]

/-- C22: the merge succeeds for exactly one value of the leaf's parent hash, if the number of nodes is right
and not zero, and nothing that is hashed is too long or of the wrong kind. -/
theorem C22_accepts (P : CryptoProvider) (cs : CipherSuite) (Hs : Hash) (hP : P.hash cs = .ok Hs)
    (t : RatchetTree) (K j : Nat) (h : MergeInput t K j) (nodes : List UpdatePathNode)
    (hlen : nodes.length = (filteredLevels t.get K j).length) (hne : nodes ≠ [])
    (hd : ∀ k ∈ filteredLevels t.get K j, HashDefined Hs.digest t.get (k - 1) (sib j (k - 1)))
    (hs : ∀ b, (Hs.digest b).length < 2 ^ 30) (hk : ∀ n ∈ nodes, n.encryption_key.length < 2 ^ 30) :
    ∃ out, ∀ leaf : LeafNode, (t.merge_update_path P cs j ⟨leaf, nodes⟩).2 = .ok () ↔
      leaf.payload.leaf_node_source = .Commit out := by
  have hth : ∀ k i, (treeHash Hs.digest t.get k i).length < 2 ^ 30 := by
    intro k i; cases k <;> (rw [treeHash]; exact hs _)
  have hcd : ∀ ks prev, (∀ r ∈ ks, HashDefined Hs.digest t.get (r.1 - 1) (sib j (r.1 - 1)) ∧
      r.2.length < 2 ^ 30) → (prev.getD []).length < 2 ^ 30 → ChainDefined Hs.digest t.get j ks prev := by
    intro ks
    induction ks with
    | nil => intro _ _ _; trivial
    | cons a ks ih =>
      intro prev h1 h2
      obtain ⟨k, key⟩ := a
      obtain ⟨h3, h4⟩ := h1 _ (List.mem_cons_self ..)
      refine ⟨h3, ⟨⟨trivial, h4⟩, ⟨trivial, h2⟩, ⟨trivial, hth _ _⟩⟩,
        ih _ (fun r hr => h1 r (List.mem_cons_of_mem _ hr)) ?_⟩
      exact hs _
  have hcd := hcd (downList (filteredLevels t.get K j) nodes) none (fun r hr => by
    unfold downList at hr
    rw [List.mem_reverse, List.mem_map] at hr
    obtain ⟨q, hq, rfl⟩ := hr
    exact ⟨hd _ (List.of_mem_zip hq).1, hk _ (List.of_mem_zip hq).2⟩) (by simp)
  have hsort : ((downList (filteredLevels t.get K j) nodes).map (·.1)).Pairwise (· > ·) := by
    rw [downList_levels hlen.symm, List.pairwise_reverse]
    exact filteredLevels_sorted
  obtain ⟨out, hout⟩ : ∃ out,
      (chainDown Hs.digest t.get j (downList (filteredLevels t.get K j) nodes) none).2 = some out := by
    rcases (chainDown_links Hs.digest t.get j _ none hsort).2 with ⟨he, _⟩ | ⟨s, _, _, he⟩
    · exfalso
      have := congrArg List.length (downList_levels (ks := filteredLevels t.get K j) (ns := nodes) hlen.symm)
      rw [he] at this
      simp at this
      exact hne (List.length_eq_zero_iff.1 (by omega))
    · exact ⟨_, he⟩
  refine ⟨out, fun leaf => ?_⟩
  rcases merge_eq hP ⟨leaf, nodes⟩ h.nonempty h.size h.numHeight h.sender h.inside (.inl h.small) with
    ⟨hn, _⟩ | ⟨_, hn, _⟩ | ⟨_, _, t2, _, _, _, _, he⟩
  · exact absurd hlen.symm hn
  · exact absurd hcd hn
  · rw [he, hout]
    dsimp only
    cases hsrc : leaf.payload.leaf_node_source with
    | KeyPackage l => simp
    | Update => simp
    | Commit ph =>
      dsimp only
      by_cases hph : ph = out
      · rw [if_neg (by simp [hph])]; simp [hph]
      · rw [if_pos hph]; simp [hph]

/-- C22: with nothing on the filtered direct path (a group of one), every merge fails. -/
theorem C22_alone_fails (P : CryptoProvider) (cs : CipherSuite) (Hs : Hash) (hP : P.hash cs = .ok Hs)
    (t : RatchetTree) (K j : Nat) (h : MergeInput t K j) (path : UpdatePath)
    (he : filteredLevels t.get K j = []) : ∃ e, (t.merge_update_path P cs j path).2 = .err e := by
  rcases merge_eq hP path h.nonempty h.size h.numHeight h.sender h.inside (.inl h.small) with
    ⟨_, h⟩ | ⟨_, _, e, h, _⟩ | ⟨_, _, t2, _, _, _, _, hm⟩
  · exact ⟨_, h⟩
  · exact ⟨e, h⟩
  · rw [he] at hm
    refine ⟨.ParentHashMismatchForUpdatePathLeafNode, ?_⟩
    rw [hm]
    simp only [downList, List.zip_nil_left, List.map_nil, List.reverse_nil, chainDown]
    cases path.leaf_node.payload.leaf_node_source <;> rfl

/-- C23: after a successful merge the parent hashes along the path are those of RFC 9420 section 7.9 in the
merged tree: every new parent, and the leaf, carry the parent hash of the first non-blank ancestor above; the
topmost one carries none. -/
theorem C23_parent_hashes (P : CryptoProvider) (cs : CipherSuite) (Hs : Hash) (hP : P.hash cs = .ok Hs)
    (t t' : RatchetTree) (K j : Nat) (h : MergePlace t K j) (path : UpdatePath)
    (hm : t.merge_update_path P cs j path = (t', .ok ())) :
    (∀ a p b q, 1 ≤ a → t'.get (anc j a) = some (.Parent p) → NextUp t'.get K j a b →
      t'.get (anc j b) = some (.Parent q) → p.parent_hash = parentHash Hs.digest t'.get j b q) ∧
    (∀ a p, 1 ≤ a → a ≤ K → t'.get (anc j a) = some (.Parent p) →
      (∀ c, a < c → c ≤ K → t'.get (anc j c) = none) → p.parent_hash = []) ∧
    (∃ b q, NextUp t'.get K j 0 b ∧ t'.get (anc j b) = some (.Parent q) ∧
      path.leaf_node.payload.leaf_node_source = .Commit (parentHash Hs.digest t'.get j b q)) := by
  obtain ⟨hlen, out, h1, h2, h3, h4, h5, h6, h7⟩ := merge_success hP h hm
  have hph : ∀ b q, parentHash Hs.digest t'.get j b q = parentHash Hs.digest t.get j b q := by
    intro b q
    unfold parentHash
    rw [treeHash_congr]
    intro x hx
    refine h6 x ?_ ?_
    · rintro ⟨l, _, _, hc⟩; exact sib_disjoint hx hc
    · rw [← anc_zero]; exact sib_disjoint hx
  have hsort : ((downList (filteredLevels t.get K j) path.nodes).map (·.1)).Pairwise (· > ·) := by
    rw [downList_levels hlen, List.pairwise_reverse]
    exact filteredLevels_sorted
  obtain ⟨hlk, hend⟩ := chainDown_links Hs.digest t.get j _ none hsort
  have hlev := chainDown_levels Hs.digest t.get j (downList (filteredLevels t.get K j) path.nodes) none
  have hlv2 := downList_levels hlen
  generalize downList (filteredLevels t.get K j) path.nodes = L at *
  generalize chainDown Hs.digest t.get j L none = C at *
  -- the non-blank levels are those of the chain
  have hin : ∀ r ∈ C.1, 1 ≤ r.1 ∧ r.1 ≤ K := by
    intro r hr
    have : r.1 ∈ L.map (·.1) := by
      rw [← hlev, List.map_map]; exact List.mem_map.2 ⟨r, hr, rfl⟩
    rw [hlv2, List.mem_reverse] at this
    have := filteredLevels_mem.1 this
    exact ⟨this.1, this.2.1⟩
  have hex : ∀ k, 1 ≤ k → k ≤ K → t'.get (anc j k) ≠ none → ∃ r ∈ C.1, r.1 = k := by
    intro k hk1 hkK hk
    by_cases hmem : k ∈ filteredLevels t.get K j
    · have : k ∈ L.map (·.1) := by rw [hlv2]; exact List.mem_reverse.2 hmem
      rw [← hlev, List.map_map] at this
      obtain ⟨r, hr, he⟩ := List.mem_map.1 this
      exact ⟨r, hr, he⟩
    · exact absurd (h5 k hk1 hkK hmem) hk
  refine ⟨?_, ?_, ?_⟩
  · intro a p b q ha hp ⟨hab, hbK, hbn, hbb⟩ hq
    obtain ⟨r, hr, rfl⟩ := hex a ha (by omega) (by rw [hp]; simp)
    obtain ⟨s, hs, rfl⟩ := hex b (by omega) hbK hbn
    rw [h4 r hr] at hp
    rw [h4 s hs] at hq
    cases hp; cases hq
    rw [hph]
    rcases hlk r hr with ⟨s', hs', hlt, hmin, he⟩ | ⟨hmax, _⟩
    · have hle := hmin s hs hab
      have hss : s'.1 = s.1 := by
        apply Decidable.byContradiction
        intro hc
        have := hbb s'.1 hlt (by omega)
        rw [h4 s' hs'] at this
        cases this
      have := h4 s' hs'
      rw [hss, h4 s hs] at this
      injection this with this
      injection this with this
      rw [he, hss, ← this]
    · have := hmax s hs; omega
  · intro a p ha haK hp hno
    obtain ⟨r, hr, rfl⟩ := hex a ha haK (by rw [hp]; simp)
    rw [h4 r hr] at hp
    cases hp
    rcases hlk r hr with ⟨s', hs', hlt, _⟩ | ⟨_, he⟩
    · have := hno s'.1 hlt (hin s' hs').2
      rw [h4 s' hs'] at this
      cases this
    · simpa using he
  · rcases hend with ⟨_, he⟩ | ⟨s, hs, hmin, he⟩
    · rw [h1] at he; cases he
    · refine ⟨s.1, s.2, ⟨(hin s hs).1, (hin s hs).2, by rw [h4 s hs]; simp, ?_⟩, h4 s hs, ?_⟩
      · intro c hc1 hc2
        apply Decidable.byContradiction
        intro hc
        obtain ⟨r, hr, rfl⟩ := hex c hc1 (by have := (hin s hs).2; omega) hc
        have := hmin r hr
        omega
      · rw [h1] at he
        injection he with he
        rw [h2, hph, he]

/-- C24: whatever the outcome of a merge, it changes only the sender's leaf and its ancestors; the leaf only
on success.  Each of the ancestors is then blank or a parent without unmerged leaves.  Missing from C24: the
ancestors are lost on failure, see `C24_refuted`. -/
theorem C24_frame_partial (P : CryptoProvider) (cs : CipherSuite) (t : RatchetTree) (K j : Nat)
    (h : MergeInput t K j) (path : UpdatePath) :
    (t.merge_update_path P cs j path).1.length = t.length ∧
    (∀ x, ¬ above K j x → x ≠ 2 * j → (t.merge_update_path P cs j path).1.get x = t.get x) ∧
    (∀ e, (t.merge_update_path P cs j path).2 = .err e →
      (t.merge_update_path P cs j path).1.get (2 * j) = t.get (2 * j)) ∧
    (∀ x, above K j x → (t.merge_update_path P cs j path).1.get x = none ∨
      ∃ key ph, (t.merge_update_path P cs j path).1.get x = some (.Parent ⟨key, ph, []⟩)) := by
  obtain ⟨h1, h2, h3, h4⟩ := merge_frame P cs path h.nonempty h.size h.numHeight h.sender h.small
  refine ⟨h1, h2, ?_, fun x hx => (h3 x hx).imp id (·.2)⟩
  intro e he
  rcases h4 with h4 | ⟨h4, _⟩
  · exact h4
  · rw [he] at h4; cases h4

/-- C22: if the number of nodes is wrong, the merge fails. -/
theorem C22_wrong_count (P : CryptoProvider) (cs : CipherSuite) (Hs : Hash) (hP : P.hash cs = .ok Hs)
    (t : RatchetTree) (K j : Nat) (h : MergeInput t K j) (path : UpdatePath)
    (hlen : path.nodes.length ≠ (filteredLevels t.get K j).length) :
    (t.merge_update_path P cs j path).2 = .err .UpdatePathAndFilteredDirectPathHasDifferentNode := by
  rcases merge_eq hP path h.nonempty h.size h.numHeight h.sender h.inside (.inl h.small) with
    ⟨_, h⟩ | ⟨hl, _⟩ | ⟨hl, _⟩
  · exact h
  · exact absurd hl.symm hlen
  · exact absurd hl.symm hlen

section examples
private abbrev suite1 : CipherSuite := .MLS_128_DHKEMX25519_AES128GCM_SHA256_Ed25519

theorem toy_mergeInput (j : Nat) (hj : j < 4) : MergeInput toyTree 2 j where
  size := by decide
  height := toyTree_height
  inside := by show 2 * j < 7; omega
  small := by
    intro x p hx u hu
    have hlt := lt_of_get hx
    change x < 7 at hlt
    have : x = 0 ∨ x = 1 ∨ x = 2 ∨ x = 3 ∨ x = 4 ∨ x = 5 ∨ x = 6 := by omega
    rcases this with rfl | rfl | rfl | rfl | rfl | rfl | rfl <;> cases hx
    simp at hu; subst hu; decide

/-- An update path for member 0 of `toyTree`, whose filtered direct path is nodes 1 and 3. -/
def toyPath (parent_hash : Bytes) : UpdatePath where
  leaf_node := { toyLeaf 7 with payload := { (toyLeaf 7).payload with leaf_node_source := .Commit parent_hash } }
  nodes := [⟨[40], []⟩, ⟨[41], []⟩]

/-- The parent hash that the leaf must have. -/
def toyParentHash : Bytes :=
  parentHash id toyTree.get 0 1 ⟨[40], parentHash id toyTree.get 0 2 ⟨[41], [], []⟩, []⟩

/-- A merge that succeeds. -/
example : (toyTree.merge_update_path toyProvider suite1 0 (toyPath toyParentHash)).2 = .ok () := by rfl

/-- C24: a path that is rejected destroys a parent on the way. -/
theorem C24_refuted : ∃ (t : RatchetTree) (j : Nat) (path : UpdatePath) (e : Error),
    MergeInput t 2 j ∧ t.merge_update_path toyProvider suite1 j path =
      ([some (.Leaf (toyLeaf 0)), none, some (.Leaf (toyLeaf 1)), none, some (.Leaf (toyLeaf 2)), none, none],
        .err e) ∧
    t.get 3 = some (.Parent ⟨[9], [], [2]⟩) :=
  ⟨toyTree, 0, ⟨toyLeaf 7, []⟩, _, toy_mergeInput 0 (by decide), rfl, rfl⟩

end examples
end Rmls
