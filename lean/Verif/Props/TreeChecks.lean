import Verif.Proofs.TreeChecks
import Verif.Proofs.TreeHash
import Verif.Props.Members
/-
Properties C25 (supported credentials), C28 (applying proposals), C51 (looking for a leaf).
-/
namespace Rmls
open Spec RatchetTree

/-! ## C25 -/

/-- C25, what the function computes: a type is returned exactly if it occurs, in the capabilities of all members
taken together, as often as there are members. -/
theorem C25_exact (t : RatchetTree) (hl : t.length < 2 ^ 32) :
    ∃ r, t.supported_creds = .ok r ∧ ∀ ct, ct ∈ r ↔ 0 < credCount (members t.get t.num_leaves) ct ∧
      credCount (members t.get t.num_leaves) ct = (members t.get t.num_leaves).length :=
  supported_creds_eq hl

/-- C25, for members that list no credential type twice.  Missing: the case of repeated types, see
`C25_repeated_refuted`. -/
theorem C25_partial (t : RatchetTree) (hl : t.length < 2 ^ 32)
    (hd : ∀ i l, t.get (node 0 i) = some (.Leaf l) → l.payload.capabilities.credentials.Nodup) :
    ∃ r, t.supported_creds = .ok r ∧ ∀ ct, ct ∈ r ↔
      (∃ i l, i < t.num_leaves ∧ t.get (node 0 i) = some (.Leaf l)) ∧
      ∀ i l, i < t.num_leaves → t.get (node 0 i) = some (.Leaf l) →
        ct ∈ l.payload.capabilities.credentials := by
  obtain ⟨r, h1, h2⟩ := supported_creds_eq hl
  refine ⟨r, h1, fun ct => ?_⟩
  rw [h2]
  have hms : ∀ m ∈ members t.get t.num_leaves, m.2.payload.capabilities.credentials.Nodup :=
    fun m hm => hd m.1 m.2 (mem_members.1 hm).2
  have key : ∀ ms : List (Nat × LeafNode), (∀ m ∈ ms, m.2.payload.capabilities.credentials.Nodup) →
      credCount ms ct ≤ ms.length ∧
      (credCount ms ct = ms.length ↔ ∀ m ∈ ms, ct ∈ m.2.payload.capabilities.credentials) := by
    intro ms
    induction ms with
    | nil => intro _; simp [credCount]
    | cons m ms ih =>
      intro h
      obtain ⟨h1, h2⟩ := ih fun x hx => h x (List.mem_cons_of_mem _ hx)
      have hc : credCount (m :: ms) ct = m.2.payload.capabilities.credentials.count ct + credCount ms ct := by
        simp [credCount]
      have hle := List.nodup_iff_count.1 (h m (List.mem_cons_self ..)) ct
      rw [hc, List.length_cons]
      refine ⟨by omega, ?_⟩
      constructor
      · intro he x hx
        rcases List.mem_cons.1 hx with rfl | hx
        · exact List.count_pos_iff.1 (by omega)
        · exact h2.1 (by omega) x hx
      · intro he
        have h3 := List.count_pos_iff.2 (he m (List.mem_cons_self ..))
        have h4 := h2.2 fun x hx => he x (List.mem_cons_of_mem _ hx)
        omega
  obtain ⟨_, hk⟩ := key _ hms
  constructor
  · rintro ⟨ha, hb⟩
    constructor
    · cases hm : members t.get t.num_leaves with
      | nil => rw [hm] at ha; simp [credCount] at ha
      | cons m ms =>
        have hmem : m ∈ members t.get t.num_leaves := by rw [hm]; exact List.mem_cons_self ..
        exact ⟨m.1, m.2, mem_members.1 hmem⟩
    · intro i l hi hg
      exact hk.1 hb (i, l) (mem_members.2 ⟨hi, hg⟩)
  · rintro ⟨⟨i, l, hi, hg⟩, hall⟩
    have he := hk.2 fun m hm => hall m.1 m.2 (mem_members.1 hm).1 (mem_members.1 hm).2
    refine ⟨?_, he⟩
    rw [he]
    exact List.length_pos_of_mem (mem_members.2 ⟨hi, hg⟩)

/-- All members of the example tree support basic credentials only. -/
example : ∃ r, toyTree.supported_creds = .ok r ∧ CredentialType.Basic ∈ r ∧ CredentialType.X509 ∉ r :=
  ⟨[.Basic], by decide, by decide, by decide⟩

/-- A leaf like the others, with other credential types. -/
def credLeaf (cts : List CredentialType) : LeafNode :=
  { toyLeaf 0 with payload := { (toyLeaf 0).payload with
    capabilities := { (toyLeaf 0).payload.capabilities with credentials := cts } } }

/-- C25 is false if a member repeats a type: it can stand in for another who does not support it, and a type
that both repeat is not counted as supported. -/
theorem C25_repeated_refuted :
    supported_creds [some (.Leaf (credLeaf [.X509, .X509])), none, some (.Leaf (credLeaf [.Basic]))] =
      .ok [.X509] ∧
    supported_creds [some (.Leaf (credLeaf [.X509, .X509])), none, some (.Leaf (credLeaf [.X509, .X509]))] =
      .ok [] := by decide

/-! ## C28 -/

/-- C28: applying a list of proposals is applying its updates, in order, then its removes, then its adds.
`senders` has a sender for every proposal. -/
theorem C28_apply (t : RatchetTree) (ps : List Proposal) (senders : List LeafIndex)
    (hs : ps.length ≤ senders.length) :
    t.apply ps senders = (do
      let t1 ← (updatesOf (ps.zip senders)).foldlM (fun t u => t.update u.1 u.2) t
      let t2 ← (removesOf ps).foldlM (fun t li => t.remove li) t1
      (addsOf ps).foldlM (fun t l => t.add l) t2) := by
  unfold apply
  rw [applyUpdates_eq senders ps 0 t (by omega), List.drop_zero]
  congr 1
  funext t1
  rw [applyRemoves_eq]
  congr 1
  funext t2
  exact applyAdds_eq ps t2

/-- C28: two lists with the same updates, the same removes and the same adds, each in the same order, have the
same effect, however they are interleaved and whatever else they contain. -/
theorem C28_interleaving (t : RatchetTree) (ps ps' : List Proposal) (senders senders' : List LeafIndex)
    (hs : ps.length ≤ senders.length) (hs' : ps'.length ≤ senders'.length)
    (hu : updatesOf (ps.zip senders) = updatesOf (ps'.zip senders')) (hr : removesOf ps = removesOf ps')
    (ha : addsOf ps = addsOf ps') : t.apply ps senders = t.apply ps' senders' := by
  rw [C28_apply t ps senders hs, C28_apply t ps' senders' hs', hu, hr, ha]

/-- A list and its rearrangement. -/
example : toyTree.apply [.Remove ⟨1⟩, .Update ⟨toyLeaf 8⟩] [0, 2] =
    toyTree.apply [.Update ⟨toyLeaf 8⟩, .GroupContextExtensions ⟨[]⟩, .Remove ⟨1⟩] [2, 2, 2] :=
  C28_interleaving _ _ _ _ _ (by decide) (by decide) rfl rfl rfl
example : ∃ t', toyTree.apply [.Remove ⟨1⟩, .Update ⟨toyLeaf 8⟩] [0, 2] = .ok t' ∧
    t'.get 4 = some (.Leaf (toyLeaf 8)) ∧ t'.get 2 = none := ⟨_, rfl, rfl, rfl⟩

/-! ## C51 -/

theorem find_leaf_exact (t : RatchetTree) (nd : LeafNode) (hl : t.length < 2 ^ 32) (hnd : nd.WF)
    (hw : ∀ x l, t.get x = some (.Leaf l) → l.WF) :
    ∃ r, t.find_leaf nd = .ok r ∧ ∀ i, r = some i ↔
      i < t.num_leaves ∧ t.get (node 0 i) = some (.Leaf nd) ∧ (leafNode nd).fits ∧
      ∀ j l, j < i → t.get (node 0 j) = some (.Leaf l) →
        l.payload.encryption_key ≠ nd.payload.encryption_key := by
  have hb : ∀ i ∈ List.range t.num_leaves, i < 2 ^ 31 := by
    intro i hi
    rw [List.mem_range] at hi
    by_cases h0 : 0 < t.length
    · have := (num_leaves_bounds h0 hl).2.1; omega
    · have h0 : t.length = 0 := by omega
      have : t.num_leaves = 0 := by unfold num_leaves; rw [h0]; rfl
      omega
  unfold find_leaf
  rw [findLeafLoop_eq t nd _ hb]
  change ∃ r, (match (members t.get t.num_leaves).find?
    (fun m => decide (m.2.payload.encryption_key = nd.payload.encryption_key)) with
      | none => Res.ok none | some m => foundAt nd m) = Res.ok r ∧ _
  have hsort : (members t.get t.num_leaves).Pairwise (fun a b => a.1 < b.1) := by
    unfold members
    rw [List.pairwise_filterMap]
    refine List.Pairwise.imp ?_ List.pairwise_lt_range
    intro a b hab x hx y hy
    cases h1 : leafOf (t.get (node 0 a)) with
    | none => rw [h1] at hx; cases hx
    | some l =>
      cases h2 : leafOf (t.get (node 0 b)) with
      | none => rw [h2] at hy; cases hy
      | some l' =>
        rw [h1] at hx; rw [h2] at hy
        cases hx; cases hy
        exact hab
  have hmm : ∀ i l, (i, l) ∈ members t.get t.num_leaves ↔ i < t.num_leaves ∧ t.get (node 0 i) = some (.Leaf l) :=
    fun i l => mem_members
  generalize members t.get t.num_leaves = ms at *
  cases hf : ms.find? (fun m => decide (m.2.payload.encryption_key = nd.payload.encryption_key)) with
  | none =>
    refine ⟨none, rfl, fun i => ⟨fun h => (by cases h), ?_⟩⟩
    rintro ⟨h1, h2, _⟩
    have := List.find?_eq_none.1 hf (i, nd) ((hmm i nd).2 ⟨h1, h2⟩)
    simp at this
  | some m =>
    obtain ⟨i, l⟩ := m
    obtain ⟨hkey, as, bs, hms, hbefore⟩ := List.find?_eq_some_iff_append.1 hf
    have hmem : (i, l) ∈ ms := by rw [hms]; simp
    obtain ⟨hin, hget⟩ := (hmm i l).1 hmem
    have hkey : l.payload.encryption_key = nd.payload.encryption_key := by simpa using hkey
    have hfirst : ∀ j l', j < i → t.get (node 0 j) = some (.Leaf l') →
        l'.payload.encryption_key ≠ nd.payload.encryption_key := by
      intro j l' hj hg
      have hjm : (j, l') ∈ ms := (hmm j l').2 ⟨by omega, hg⟩
      rw [hms] at hjm hsort
      rcases List.mem_append.1 hjm with h | h
      · have := hbefore _ h; simpa using this
      · rw [List.pairwise_append] at hsort
        rcases List.mem_cons.1 h with h | h
        · injection h with h _; omega
        · have := (List.pairwise_cons.1 hsort.2.1).1 _ h
          dsimp only at this; omega
    have hun : ∀ i' , (i' < t.num_leaves ∧ t.get (node 0 i') = some (.Leaf nd) ∧ (leafNode nd).fits ∧
        ∀ j l, j < i' → t.get (node 0 j) = some (.Leaf l) →
        l.payload.encryption_key ≠ nd.payload.encryption_key) → i' = i ∧ l = nd ∧ (leafNode nd).fits := by
      rintro i' ⟨h1, h2, h3, h4⟩
      have hii : i' = i := by
        apply Decidable.byContradiction
        intro hc
        by_cases hlt : i' < i
        · exact hfirst i' nd hlt h2 rfl
        · exact h4 i l (by omega) hget hkey
      subst hii
      rw [h2] at hget
      cases hget
      exact ⟨rfl, rfl, h3⟩
    have hlw := hw _ l hget
    dsimp only
    unfold foundAt
    rcases writes_cases (leafNode_w nd) with ⟨f1, h1⟩ | ⟨f1, e1, h1⟩
    · rcases writes_cases (leafNode_w l) with ⟨f2, h2⟩ | ⟨f2, e2, h2⟩
      · rw [h1, h2]
        refine ⟨_, rfl, fun i' => ?_⟩
        by_cases heq : (leafNode nd).bytes = (leafNode l).bytes
        · rw [if_pos heq]
          have : nd = l := LeafNode.lawful.inj.eq hnd hlw h1 (by rw [h2, heq])
          subst this
          constructor
          · intro h; cases h; exact ⟨hin, hget, f1, hfirst⟩
          · intro h; rw [(hun i' h).1]
        · rw [if_neg heq]
          constructor
          · intro h; cases h
          · intro h; exact absurd (by rw [(hun i' h).2.1]) heq
      · rw [h1, h2]
        refine ⟨none, rfl, fun i' => ⟨fun h => (by cases h), fun h => ?_⟩⟩
        rw [(hun i' h).2.1] at f2
        exact absurd f1 f2
    · refine ⟨none, ?_, fun i' => ⟨fun h => (by cases h), fun h => ?_⟩⟩
      · rcases writes_cases (leafNode_w l) with ⟨f2, h2⟩ | ⟨f2, e2, h2⟩ <;> rw [h1, h2] <;> rfl
      · exact absurd h.2.2.1 f1

/-- C51: the search never fails, and returns index `i` exactly if the leaf is stored there and no leaf further
left has its encryption key (and the leaf is not too big to be encoded).  Leaves use the canonical
representation of enumerations, as every leaf read from the wire does. -/
theorem C51_exact (t : RatchetTree) (nd : LeafNode) (hl : t.length < 2 ^ 32) (hnd : nd.WF)
    (hw : ∀ x l, t.get x = some (.Leaf l) → l.WF) :
    ∃ r, t.find_leaf nd = .ok r ∧ ∀ i, r = some i ↔
      i < t.num_leaves ∧ t.get (node 0 i) = some (.Leaf nd) ∧ (leafNode nd).fits ∧
      ∀ j l, j < i → t.get (node 0 j) = some (.Leaf l) →
        l.payload.encryption_key ≠ nd.payload.encryption_key :=
  find_leaf_exact t nd hl hnd hw

/-- C51: every stored leaf is found in a tree with distinct encryption keys. -/
theorem C51_complete (t : RatchetTree) (nd : LeafNode) (i : Nat) (hl : t.length < 2 ^ 32) (hnd : nd.WF)
    (hw : ∀ x l, t.get x = some (.Leaf l) → l.WF) (hi : i < t.num_leaves)
    (hg : t.get (node 0 i) = some (.Leaf nd)) (hf : (leafNode nd).fits)
    (hk : ∀ a b l l', t.get (node 0 a) = some (.Leaf l) → t.get (node 0 b) = some (.Leaf l') →
      l.payload.encryption_key = l'.payload.encryption_key → a = b) :
    t.find_leaf nd = .ok (some i) := by
  obtain ⟨r, h1, h2⟩ := find_leaf_exact t nd hl hnd hw
  rw [h1, (h2 i).2 ⟨hi, hg, hf, fun j l hj hgj hc => ?_⟩]
  have := hk j i l nd hgj hg hc
  omega

example : toyTree.find_leaf (toyLeaf 2) = .ok (some 2) := by decide
example : (toyLeaf 2).WF ∧ (leafNode (toyLeaf 2)).fits := by
  refine ⟨?_, ?_⟩
  · simp [LeafNode.WF, LeafNodePayload.WF, toyLeaf, Capabilities.WF, Extensions.WF, CredentialType.WF,
      ProtocolVersion.WF, CipherSuite.WF]
  · rcases writes_cases (leafNode_w (toyLeaf 2)) with h | ⟨_, e, h⟩
    · exact h.1
    · have : ∃ b, (toyLeaf 2).serialize = .ok b := ⟨_, rfl⟩
      rw [h] at this
      obtain ⟨b, hb⟩ := this
      cases hb

end Rmls
