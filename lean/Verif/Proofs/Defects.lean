import Verif.Proofs.Integrity
import Verif.Proofs.Proposal
import Verif.Spec.Defects
/-
The errors of the checks.
-/
namespace Rmls
open Spec

theorem isOk_false {r : Res α} : r.isOk = .ok false → ¬ ∃ a, r = .ok a := by
  cases r <;> simp [Res.isOk]

theorem isOk_err {r : Res α} {e : Error} : r.isOk ≠ .err e := by
  cases r <;> simp [Res.isOk]

private theorem LeafNode.verify_signature_err (P : CryptoProvider) (cs : CipherSuite) (x : LeafNode) (i : TreeInfoTBS)
    (e : Error) : x.verify_signature P cs i ≠ .err e := by
  unfold LeafNode.verify_signature
  split
  · exact isOk_err
  · nofun
  · nofun

private theorem LeafNode.checkExtensions_err {supported : List ExtensionType} {es : Extensions} {e : Error}
    (h : LeafNode.checkExtensions supported es = .err e) :
    ∃ x ∈ es, x.extension_type ∉ supported ∧
      e = .ExtensionTypeUsedByLeafNodeNotSupportedByThatLeafNode x.extension_type.toU16 := by
  induction es with
  | nil => cases h
  | cons a es ih =>
    unfold LeafNode.checkExtensions at h
    split at h
    · obtain ⟨x, h1, h2⟩ := ih h
      exact ⟨x, .tail _ h1, h2⟩
    · next hc =>
      cases h
      exact ⟨a, .head _, by simpa using hc, rfl⟩

theorem LeafNode.verify_err {P : CryptoProvider} {x : LeafNode} {o : LeafNodeVerifyOptions} {e : Error}
    (h : x.verify P o = .err e) :
    leafDefect P x o.cipher_suite o.group_id o.leaf_index (· ∈ o.supported_creds) (· ∈ o.signature_keys)
      (· ∈ o.encryption_keys) o.now e := by
  have hc : x.payload.credential.credential_type = credTypeOf x.payload.credential := by
    cases x.payload.credential <;> rfl
  unfold LeafNode.verify at h
  cases hg : x.verify_signature P o.cipher_suite (.UpdateOrCommit o.group_id o.leaf_index) with
  | err e' => exact absurd hg (LeafNode.verify_signature_err _ _ _ _ _)
  | fault f => rw [hg] at h; cases h
  | ok b =>
    rw [hg, Res.ok_bind] at h
    cases b with
    | false =>
      cases h
      intro hs
      rw [(LeafNode.verify_signature_iff ..).2 hs] at hg
      cases hg
    | true =>
      rw [if_neg (by nofun)] at h
      split at h
      · next hcr =>
        cases h
        refine ⟨?_, ?_⟩
        · rw [hc]
          cases x.payload.credential <;> rfl
        · show _ ∉ _
          rw [← hc]
          simpa using hcr
      · cases hl : LeafNode.checkLifetime x.payload.leaf_node_source o.now with
        | fault f => rw [hl] at h; cases h
        | err e' =>
          rw [hl] at h
          cases h
          unfold LeafNode.checkLifetime at hl
          split at hl
          · next lt hs =>
            split at hl
            · next hn =>
              cases hl
              exact ⟨lt, hs, hn.1, fun ha => by
                rw [(Lifetime.verify_iff lt o.now).2 ha] at hn; exact absurd hn.2 (by nofun)⟩
            · cases hl
          · cases hl
        | ok u =>
          rw [hl, Res.ok_bind] at h
          cases he : LeafNode.checkExtensions x.payload.capabilities.extensions x.payload.extensions with
          | fault f => rw [he] at h; cases h
          | err e' =>
            rw [he] at h
            cases h
            obtain ⟨a, h1, h2, rfl⟩ := LeafNode.checkExtensions_err he
            refine ⟨a, h1, ?_, h2⟩
            cases a.extension_type <;> first | rfl | decide
          | ok u =>
            rw [he, Res.ok_bind] at h
            split at h
            · next h1 => cases h; exact List.contains_iff_mem.1 h1
            · split at h
              · next h1 => cases h; exact List.contains_iff_mem.1 h1
              · cases h

theorem KeyPackage.verify_err {P : CryptoProvider} {x : KeyPackage} {ctx : GroupContext} {e : Error}
    (h : x.verify P ctx = .err e) : keyPackageDefect P x ctx e := by
  unfold KeyPackage.verify at h
  split at h
  · next h1 => cases h; exact h1
  · split at h
    · next h1 => cases h; exact h1
    · split at h
      · cases hv : (x.verify_signature P).isOk with
        | err e' => exact absurd hv isOk_err
        | fault f => rw [hv] at h; cases h
        | ok b =>
          rw [hv, Res.ok_bind] at h
          split at h
          · next hb =>
            cases h
            subst hb
            intro hs
            exact isOk_false hv ⟨(), (KeyPackage.verify_signature_iff P x).2 hs⟩
          · split at h
            · next h1 => cases h; exact h1
            · cases h
      · next hs => cases h; exact fun lt hl => hs lt hl

/-- What was seen is what the sets contain. -/
structure Seen (pre : List (Proposal × LeafIndex)) (s : ProposalSets) : Prop where
  adds : ∀ k ∈ s.add_proposals, k ∈ pre.filterMap addedKey
  leaves : ∀ l ∈ s.update_or_remove_proposals, l ∈ pre.filterMap touchedLeaf
  psks : ∀ b ∈ s.psk_proposals, ∃ id ∈ pre.filterMap pskOf, (preSharedKeyID id).fits ∧ (preSharedKeyID id).bytes = b
  gce : s.group_context_extensions = true → 0 < (pre.filterMap contextExtensionsOf).length

private theorem not_nodup {f : Proposal × LeafIndex → Option β} {pre ps : List (Proposal × LeafIndex)}
    {q : Proposal × LeafIndex} {k : β} (h : k ∈ pre.filterMap f) (hq : f q = some k) :
    ¬ ((pre ++ q :: ps).filterMap f).Nodup := by
  rw [List.filterMap_append, List.filterMap_cons_some hq, List.nodup_append]
  rintro ⟨_, _, h3⟩
  exact h3 k h k (.head _) rfl

theorem verifyProposals_err {total : Nat} {c : LeafIndex} {e : Error} : ∀ (ps pre : List (Proposal × LeafIndex))
    (s : ProposalSets), Seen pre s → total = (pre ++ ps).length → verifyProposals total c s ps = .err e →
    proposalDefect (pre ++ ps) c e := by
  intro ps
  induction ps with
  | nil => intro pre s _ _ h; cases h
  | cons q ps ih =>
    intro pre s hs ht h
    obtain ⟨p, l⟩ := q
    have hmem : (p, l) ∈ pre ++ (p, l) :: ps := by simp
    have next : ∀ s', Seen (pre ++ [(p, l)]) s' → verifyProposals total c s' ps = .err e →
        proposalDefect (pre ++ (p, l) :: ps) c e := by
      intro s' hs' h'
      have := ih (pre ++ [(p, l)]) s' hs' (by rw [ht]; simp) h'
      rwa [List.append_assoc, List.singleton_append] at this
    have hs1 : ∀ {s'}, s'.add_proposals = s.add_proposals →
        s'.update_or_remove_proposals = s.update_or_remove_proposals → s'.psk_proposals = s.psk_proposals →
        s'.group_context_extensions = s.group_context_extensions → Seen (pre ++ [(p, l)]) s' := by
      intro s' a b d g
      obtain ⟨h1, h2, h3, h4⟩ := hs
      constructor
      · rw [a, List.filterMap_append]; exact fun k hk => List.mem_append_left _ (h1 k hk)
      · rw [b, List.filterMap_append]; exact fun k hk => List.mem_append_left _ (h2 k hk)
      · rw [d, List.filterMap_append]
        intro k hk
        obtain ⟨id, hi, hf⟩ := h3 k hk
        exact ⟨id, List.mem_append_left _ hi, hf⟩
      · rw [g, List.filterMap_append, List.length_append]; intro hg; have := h4 hg; omega
    have hs0 := hs1 (s' := s) rfl rfl rfl rfl
    rw [verifyProposals] at h
    cases p with
    | Add p =>
      simp only [verifyProposal] at h
      split at h
      · next hc => cases h; exact not_nodup (hs.adds _ (List.contains_iff_mem.1 hc)) rfl
      · simp only [Res.ok_bind] at h
        refine next _ ?_ h
        refine ⟨?_, hs0.leaves, hs0.psks, hs0.gce⟩
        intro k hk
        rcases List.mem_cons.1 hk with rfl | hk
        · rw [List.filterMap_append]; simp [addedKey]
        · exact hs0.adds k hk
    | Update p =>
      simp only [verifyProposal] at h
      split at h
      · next hc => cases h; subst hc; exact ⟨p, hmem⟩
      · split at h
        · next hc => cases h; exact not_nodup (hs.leaves _ (List.contains_iff_mem.1 hc)) rfl
        · simp only [Res.ok_bind] at h
          refine next _ ?_ h
          refine ⟨hs0.adds, ?_, hs0.psks, hs0.gce⟩
          intro k hk
          rcases List.mem_cons.1 hk with rfl | hk
          · rw [List.filterMap_append]; simp [touchedLeaf]
          · exact hs0.leaves k hk
    | Remove p =>
      simp only [verifyProposal] at h
      split at h
      · next hc => cases h; exact ⟨p, l, hmem, hc⟩
      · split at h
        · next hc => cases h; exact not_nodup (hs.leaves _ (List.contains_iff_mem.1 hc)) rfl
        · simp only [Res.ok_bind] at h
          refine next _ ?_ h
          refine ⟨hs0.adds, ?_, hs0.psks, hs0.gce⟩
          intro k hk
          rcases List.mem_cons.1 hk with rfl | hk
          · rw [List.filterMap_append]; simp [touchedLeaf]
          · exact hs0.leaves k hk
    | PreSharedKey p =>
      simp only [verifyProposal] at h
      have hm : p.psk ∈ (pre ++ (.PreSharedKey p, l) :: ps).filterMap pskOf :=
        List.mem_filterMap.2 ⟨_, hmem, rfl⟩
      rcases preSharedKeyID_w p.psk with ⟨f, hw⟩ | ⟨f, hw | hw⟩
      · rw [hw] at h
        simp only [Res.ok_bind] at h
        split at h
        · next hc =>
          cases h
          obtain ⟨id, hi, hf, hb⟩ := hs.psks _ (List.contains_iff_mem.1 hc)
          obtain rfl := psk_bytes_inj hf f hb
          exact not_nodup hi rfl
        · simp only [Res.pure_eq, Res.ok_bind] at h
          refine next _ ?_ h
          refine ⟨hs0.adds, hs0.leaves, ?_, hs0.gce⟩
          intro k hk
          rcases List.mem_cons.1 hk with rfl | hk
          · exact ⟨p.psk, by rw [List.filterMap_append]; simp [pskOf], f, rfl⟩
          · exact hs0.psks k hk
      · rw [hw] at h; cases h; exact fun hp => f (hp _ hm)
      · rw [hw] at h; cases h; exact fun hp => f (hp _ hm)
    | GroupContextExtensions p =>
      simp only [verifyProposal] at h
      split at h
      · next hc =>
        cases h
        have := hs.gce hc
        show 1 < _
        rw [List.filterMap_append, List.filterMap_cons_some (f := contextExtensionsOf) (b := p.extensions) rfl, List.length_append, List.length_cons]
        omega
      · simp only [Res.ok_bind] at h
        refine next _ ?_ h
        refine ⟨hs0.adds, hs0.leaves, hs0.psks, ?_⟩
        intro _
        rw [List.filterMap_append]
        simp [contextExtensionsOf]
    | ReInit p =>
      simp only [verifyProposal] at h
      split at h
      · next hc => cases h; exact ⟨⟨p, l, hmem⟩, by omega⟩
      · rw [Res.ok_bind] at h; exact next _ hs0 h
    | ExternalInit p =>
      simp only [verifyProposal] at h
      cases h
      exact ⟨p, l, hmem⟩

theorem verify_proposal_list_err {ps : List Proposal} {ss : List LeafIndex} {c : LeafIndex} {e : Error}
    (h : verify_proposal_list ps ss c = .err e) :
    (ps.length ≠ ss.length ∧ e = .ProposalsLenNotMatchSendersLen) ∨
    (ps.length = ss.length ∧ proposalDefect (ps.zip ss) c e) := by
  unfold verify_proposal_list at h
  split at h
  · next hl => cases h; exact Or.inl ⟨hl, rfl⟩
  · next hl =>
    have hl := Decidable.not_not.1 hl
    refine Or.inr ⟨hl, ?_⟩
    refine verifyProposals_err (ps.zip ss) [] {} ⟨by simp, by simp, by simp, by simp⟩ ?_ h
    rw [List.nil_append, List.length_zip, hl, Nat.min_self]

namespace RatchetTree

/-! ### tree hashes -/

/-- What an error of the tree hash says. -/
def hashDefect (H : Bytes → Bytes) (nodes : Nat → Option Node) (k i : Nat) : Error → Prop
  | .InvalidLeafNode => ∃ i p, nodes (node 0 i) = some (.Parent p)
  | .InvalidParentNode => ∃ k i l, nodes (node (k + 1) i) = some (.Leaf l)
  | .VarintExceeds30Bits | .OpaqueSizeExceedsMaximumValueOfU32 => ¬ HashDefined H nodes k i
  | _ => False

private theorem hashDefect_up {H : Bytes → Bytes} {nodes : Nat → Option Node} {k i k' i' : Nat} {e : Error}
    (h : HashDefined H nodes k' i' → HashDefined H nodes k i) (hd : hashDefect H nodes k i e) :
    hashDefect H nodes k' i' e := by
  cases e <;> first | exact hd | exact fun hc => hd (h hc)

theorem treeHashFuel_err {P : CryptoProvider} {cs : CipherSuite} {Hs : Hash} (hP : P.hash cs = .ok Hs)
    (t : RatchetTree) {e : Error} :
    ∀ k fuel i, k < 32 → k < fuel → (i + 1) * 2 ^ (k + 1) ≤ 2 ^ 32 →
      treeHashFuel P cs t [] fuel (node k i) = .err e → hashDefect Hs.digest t.get k i e := by
  intro k
  induction k with
  | zero =>
    intro fuel i _ hf hi h
    obtain ⟨fuel, rfl⟩ : ∃ m, fuel = m + 1 := ⟨fuel - 1, by omega⟩
    have key := treeHashFuel_eq hP t [] 0 (fuel + 1) i (by omega) (by omega) hi
    rw [without_nil] at key
    have hnd : ¬ HashDefined Hs.digest t.get 0 i := by
      rcases key with ⟨_, k2⟩ | ⟨k1, _⟩
      · rw [k2] at h; cases h
      · exact k1
    rw [treeHashFuel_zero] at h
    have hw : ∀ l : Option LeafNode, ((do
        let input ← serialize_leaf_node_hash_input (UInt32.ofNat i) l
        let h ← P.hash cs
        pure (h.digest input)) : Res Bytes) = .err e → hashDefect Hs.digest t.get 0 i e := by
      intro l h
      rcases leafInput_w (UInt32.ofNat i) l with ⟨_, hw⟩ | ⟨_, hw | hw⟩
      · rw [hw, Res.ok_bind, hP] at h; cases h
      · rw [hw] at h; cases h; exact hnd
      · rw [hw] at h; cases h; exact hnd
    cases hg : t.get (node 0 i) with
    | none => rw [hg] at h; exact hw none h
    | some n =>
      rw [hg] at h
      cases n with
      | Leaf l => exact hw (some l) h
      | Parent p => cases h; exact ⟨i, p, hg⟩
  | succ k ih =>
    intro fuel i hk hf hi h
    obtain ⟨fuel, rfl⟩ : ∃ m, fuel = m + 1 := ⟨fuel - 1, by omega⟩
    have key := treeHashFuel_eq hP t [] (k + 1) (fuel + 1) i hk hf hi
    rw [without_nil] at key
    have hnd : ¬ HashDefined Hs.digest t.get (k + 1) i := by
      rcases key with ⟨_, k2⟩ | ⟨k1, _⟩
      · rw [k2] at h; cases h
      · exact k1
    rw [treeHashFuel_succ _ _ _ _ _ _ hk] at h
    cases hl : treeHashFuel P cs t [] fuel (node k (2 * i)) with
    | fault f => rw [hl] at h; cases h
    | err x =>
      rw [hl] at h
      cases h
      exact hashDefect_up (fun h => h.2.2.1) (ih fuel (2 * i) (by omega) (by omega) (pos_left hi) hl)
    | ok a =>
      rw [hl, Res.ok_bind] at h
      cases hr : treeHashFuel P cs t [] fuel (node k (2 * i + 1)) with
      | fault f => rw [hr] at h; cases h
      | err x =>
        rw [hr] at h
        cases h
        exact hashDefect_up (fun h => h.2.2.2) (ih fuel (2 * i + 1) (by omega) (by omega) (pos_right hi) hr)
      | ok b =>
        rw [hr, Res.ok_bind] at h
        have hw : ∀ p : Option ParentNode, ((do
            let input ← serialize_parent_node_hash_input p a b
            let h ← P.hash cs
            pure (h.digest input)) : Res Bytes) = .err e → hashDefect Hs.digest t.get (k + 1) i e := by
          intro p h
          rcases parentInput_w p a b with ⟨_, hw⟩ | ⟨_, hw | hw⟩
          · rw [hw, Res.ok_bind, hP] at h; cases h
          · rw [hw] at h; cases h; exact hnd
          · rw [hw] at h; cases h; exact hnd
        cases hg : t.get (node (k + 1) i) with
        | none => rw [hg] at h; exact hw none h
        | some n =>
          rw [hg] at h
          cases n with
          | Leaf l => cases h; exact ⟨k, i, l, hg⟩
          | Parent p =>
            simp only [hashParent, List.isEmpty_nil, Bool.true_eq_false, and_false, if_false, Res.ok_bind] at h
            exact hw _ h

/-! ### parent hashes -/

theorem unmergedNodes_res {us : List LeafIndex} {r : List Nat} (h : unmergedNodes us = .ok r) :
    r = us.map fun u => node 0 u.toNat := by
  by_cases hs : ∀ u ∈ us, u.toNat < 2 ^ 31
  · rw [unmergedNodes_ok hs] at h; cases h; rfl
  · have : ∃ u ∈ us, 2 ^ 31 ≤ u.toNat := by
      apply Classical.byContradiction
      intro hc
      exact hs fun u hu => Nat.lt_of_not_le fun hle => hc ⟨u, hu, hle⟩
    obtain ⟨u, hu, hle⟩ := this
    rw [unmergedNodes_panic hu hle] at h
    cases h

/-- A resolution that is returned is the right one, whatever the tree. -/
theorem resolveFuel_res {t : RatchetTree} :
    ∀ k fuel i r, k < 32 → k < fuel → resolveFuel t fuel (node k i) = .ok r → r = resolution t.get k i := by
  intro k
  induction k with
  | zero =>
    intro fuel i r _ hf h
    obtain ⟨fuel, rfl⟩ : ∃ m, fuel = m + 1 := ⟨fuel - 1, by omega⟩
    unfold resolveFuel at h
    cases hg : t.get (node 0 i) with
    | none =>
      rw [hg] at h
      simp only [NodeIndex.children_zero, Res.ok_bind] at h
      cases h
      rw [resolution_none_zero hg]
    | some n =>
      rw [hg] at h
      rw [resolution_some hg]
      cases n with
      | Leaf l => cases h; rfl
      | Parent p =>
        obtain ⟨ls, h1, h2⟩ := Res.bind_ok_iff.1 h
        cases h2
        rw [unmergedNodes_res h1]
  | succ k ih =>
    intro fuel i r hk hf h
    obtain ⟨fuel, rfl⟩ : ∃ m, fuel = m + 1 := ⟨fuel - 1, by omega⟩
    unfold resolveFuel at h
    cases hg : t.get (node (k + 1) i) with
    | none =>
      rw [hg] at h
      simp only [NodeIndex.children_succ i hk, Res.ok_bind] at h
      obtain ⟨a, ha, h⟩ := Res.bind_ok_iff.1 h
      obtain ⟨b, hb, h⟩ := Res.bind_ok_iff.1 h
      cases h
      rw [resolution_none_succ hg, ih fuel _ a (by omega) (by omega) ha, ih fuel _ b (by omega) (by omega) hb]
    | some n =>
      rw [hg] at h
      rw [resolution_some hg]
      cases n with
      | Leaf l => cases h; rfl
      | Parent p =>
        obtain ⟨ls, h1, h2⟩ := Res.bind_ok_iff.1 h
        cases h2
        rw [unmergedNodes_res h1]

theorem verifyParentHash_false {P : CryptoProvider} {cs : CipherSuite} {Hs : Hash} (hP : P.hash cs = .ok Hs)
    {t : RatchetTree} (k i : Nat) (hk : k + 1 < 32) (hki : (i + 1) * 2 ^ (k + 2) ≤ 2 ^ 32)
    (hx : node (k + 1) i < 4294967296) (p : ParentNode)
    (h : verifyParentHash P cs t (node (k + 1) i) (some (.Parent p)) = .ok false) :
    ¬ ParentHashValid Hs.digest t.get k i p := by
  intro hv
  unfold verifyParentHash at h
  rw [cast32_eq hx, NodeIndex.children_succ i hk] at h
  simp only [Res.ok_bind] at h
  have e1 := treeHashFuel_eq hP t p.unmerged_leaves k 33 (2 * i) (by omega) (by omega) (pos_left hki)
  have e2 := treeHashFuel_eq hP t p.unmerged_leaves k 33 (2 * i + 1) (by omega) (by omega) (pos_right hki)
  unfold compute_tree_hash at h
  rcases e1 with ⟨_, e1⟩ | ⟨d1, _⟩
  rotate_left
  · exact d1 hv.left
  rcases e2 with ⟨_, e2⟩ | ⟨d2, _⟩
  rotate_left
  · exact d2 hv.right
  rw [e1, e2] at h
  simp only [orFalse] at h
  rcases compute_parent_hash_cases hP p (treeHash Hs.digest (without p.unmerged_leaves t.get) k (2 * i + 1)) with
    ⟨_, g2⟩ | ⟨f2, _⟩
  rotate_left
  · exact f2 hv.right_fits
  rcases compute_parent_hash_cases hP p (treeHash Hs.digest (without p.unmerged_leaves t.get) k (2 * i)) with
    ⟨_, g1⟩ | ⟨f1, _⟩
  rotate_left
  · exact f1 hv.left_fits
  rw [g1, g2] at h
  simp only [] at h
  obtain ⟨a, ha, h⟩ := Res.bind_ok_iff.1 h
  obtain ⟨b, hb, h⟩ := Res.bind_ok_iff.1 h
  rw [resolveFuel_res k 33 _ a (by omega) (by omega) ha, resolveFuel_res k 33 _ b (by omega) (by omega) hb] at h
  simp only [Res.pure_eq, Res.ok.injEq] at h
  have := hv.one
  unfold Linked at this
  have key := bne_true_iff (find_parent_hash_iff t (parentHashOver Hs.digest t.get p k (2 * i + 1))
    (resolution t.get k (2 * i))) (find_parent_hash_iff t (parentHashOver Hs.digest t.get p k (2 * i))
    (resolution t.get k (2 * i + 1)))
  have := key.2 this
  unfold parentHashOver at this
  rw [h] at this
  cases this

theorem verifyParentHashesLoop_false (P : CryptoProvider) (cs : CipherSuite) (t : RatchetTree) :
    ∀ (ns : List (Option Node)) (i : Nat), verifyParentHashesLoop P cs t i ns = .ok false →
      ∃ x, ∃ hx : x < ns.length, verifyParentHash P cs t (i + x) ns[x] = .ok false := by
  intro ns
  induction ns with
  | nil => intro i h; cases h
  | cons n ns ih =>
    intro i h
    rw [verifyParentHashesLoop] at h
    obtain ⟨b, h1, h2⟩ := Res.bind_ok_iff.1 h
    cases b with
    | false => exact ⟨0, by simp, h1⟩
    | true =>
      rw [if_pos rfl] at h2
      obtain ⟨x, hx, h3⟩ := ih (i + 1) h2
      refine ⟨x + 1, by simpa using hx, ?_⟩
      rw [show i + (x + 1) = i + 1 + x by omega]
      exact h3

theorem verifyParentHashesLoop_err (P : CryptoProvider) (cs : CipherSuite) (t : RatchetTree) {e : Error} :
    ∀ (ns : List (Option Node)) (i : Nat), verifyParentHashesLoop P cs t i ns = .err e →
      ∃ x, ∃ hx : x < ns.length, verifyParentHash P cs t (i + x) ns[x] = .err e := by
  intro ns
  induction ns with
  | nil => intro i h; cases h
  | cons n ns ih =>
    intro i h
    rw [verifyParentHashesLoop] at h
    cases h1 : verifyParentHash P cs t i n with
    | fault f => rw [h1] at h; cases h
    | err x => rw [h1] at h; cases h; exact ⟨0, by simp, h1⟩
    | ok b =>
      rw [h1, Res.ok_bind] at h
      cases b with
      | false => cases h
      | true =>
        obtain ⟨x, hx, h3⟩ := ih (i + 1) h
        refine ⟨x + 1, by simpa using hx, ?_⟩
        rw [show i + (x + 1) = i + 1 + x by omega]
        exact h3

private theorem orFalse_err {x : Res α} {k : α → Res Bool} {e : Error} (h : orFalse x k = .err e) :
    ∃ a, k a = .err e := by
  cases x with
  | ok a => exact ⟨a, h⟩
  | err _ => cases h
  | fault _ => cases h

private theorem unmergedNodes_err {e : Error} : ∀ us, unmergedNodes us ≠ .err e := by
  intro us
  by_cases hs : ∀ u ∈ us, u.toNat < 2 ^ 31
  · rw [unmergedNodes_ok hs]; nofun
  · have : ∃ u ∈ us, 2 ^ 31 ≤ u.toNat := by
      apply Classical.byContradiction
      intro hc
      exact hs fun u hu => Nat.lt_of_not_le fun hle => hc ⟨u, hu, hle⟩
    obtain ⟨u, hu, hle⟩ := this
    rw [unmergedNodes_panic hu hle]
    nofun

theorem resolveFuel_err {t : RatchetTree} {e : Error} :
    ∀ k fuel i, k < 32 → k < fuel → resolveFuel t fuel (node k i) ≠ .err e := by
  intro k
  induction k with
  | zero =>
    intro fuel i _ hf h
    obtain ⟨fuel, rfl⟩ : ∃ m, fuel = m + 1 := ⟨fuel - 1, by omega⟩
    unfold resolveFuel at h
    cases hg : t.get (node 0 i) with
    | none =>
      rw [hg] at h
      simp only [NodeIndex.children_zero, Res.ok_bind] at h
      cases h
    | some n =>
      rw [hg] at h
      cases n with
      | Leaf l => cases h
      | Parent p =>
        simp only at h
        cases hu : unmergedNodes p.unmerged_leaves with
        | ok a => rw [hu] at h; cases h
        | err x => exact unmergedNodes_err _ hu
        | fault f => rw [hu] at h; cases h
  | succ k ih =>
    intro fuel i hk hf h
    obtain ⟨fuel, rfl⟩ : ∃ m, fuel = m + 1 := ⟨fuel - 1, by omega⟩
    unfold resolveFuel at h
    cases hg : t.get (node (k + 1) i) with
    | none =>
      rw [hg] at h
      simp only [NodeIndex.children_succ i hk, Res.ok_bind] at h
      cases h1 : resolveFuel t fuel (node k (2 * i)) with
      | fault f => rw [h1] at h; cases h
      | err x => rw [h1] at h; cases h; exact ih _ _ (by omega) (by omega) h1
      | ok a =>
        rw [h1, Res.ok_bind] at h
        cases h2 : resolveFuel t fuel (node k (2 * i + 1)) with
        | fault f => rw [h2] at h; cases h
        | err x => rw [h2] at h; cases h; exact ih _ _ (by omega) (by omega) h2
        | ok b => rw [h2] at h; cases h
    | some n =>
      rw [hg] at h
      cases n with
      | Leaf l => cases h
      | Parent p =>
        simp only at h
        cases hu : unmergedNodes p.unmerged_leaves with
        | ok a => rw [hu] at h; cases h
        | err x => exact unmergedNodes_err _ hu
        | fault f => rw [hu] at h; cases h

theorem verifyParentHash_err {P : CryptoProvider} {cs : CipherSuite} {t : RatchetTree} (k i : Nat) (hk : k < 32)
    (hx : node k i < 4294967296) (n : Option Node) (e : Error) :
    verifyParentHash P cs t (node k i) n ≠ .err e := by
  intro h
  cases n with
  | none => cases h
  | some nd =>
    unfold verifyParentHash at h
    rw [cast32_eq hx] at h
    cases k with
    | zero => rw [NodeIndex.children_zero] at h; cases h
    | succ k =>
      rw [NodeIndex.children_succ i hk] at h
      cases nd with
      | Leaf l => cases h
      | Parent p =>
        simp only [Res.ok_bind] at h
        obtain ⟨_, h⟩ := orFalse_err h
        obtain ⟨_, h⟩ := orFalse_err h
        obtain ⟨_, h⟩ := orFalse_err h
        obtain ⟨_, h⟩ := orFalse_err h
        unfold resolve at h
        cases h1 : resolveFuel t 33 (node k (2 * i)) with
        | fault f => rw [h1] at h; cases h
        | err x => exact resolveFuel_err k 33 _ (by omega) (by omega) h1
        | ok a =>
          rw [h1, Res.ok_bind] at h
          cases h2 : resolveFuel t 33 (node k (2 * i + 1)) with
          | fault f => rw [h2] at h; cases h
          | err x => exact resolveFuel_err k 33 _ (by omega) (by omega) h2
          | ok b => rw [h2] at h; cases h

/-! ### leaves -/

theorem leafFold_err {P : CryptoProvider} {ctx : GroupContext} {now : Int} {creds : List CredentialType} {e : Error} :
    ∀ (ms : List (Nat × LeafNode)) (s : List SignaturePublicKey × List HPKEPublicKey),
      ms.foldlM (leafStep P ctx now creds) s = .err e →
      ∃ pre m post, ms = pre ++ m :: post ∧
        leafDefect P m.2 ctx.cipher_suite ctx.group_id (UInt32.ofNat m.1) (· ∈ creds)
          (fun k => k ∈ s.1 ∨ ∃ a ∈ pre, a.2.payload.signature_key = k)
          (fun k => k ∈ s.2 ∨ ∃ a ∈ pre, a.2.payload.encryption_key = k) now e := by
  intro ms
  induction ms with
  | nil => intro s h; cases h
  | cons m ms ih =>
    intro s h
    rw [List.foldlM_cons] at h
    cases hm : leafStep P ctx now creds s m with
    | fault f => rw [hm] at h; cases h
    | err x =>
      rw [hm] at h
      cases h
      refine ⟨[], m, ms, rfl, ?_⟩
      unfold leafStep at hm
      cases hv : m.2.verify P ⟨ctx.cipher_suite, ctx.group_id, UInt32.ofNat m.1, creds, s.1, s.2, now⟩ with
      | fault f => rw [hv] at hm; cases hm
      | ok u => rw [hv] at hm; cases hm
      | err y =>
        rw [hv] at hm
        cases hm
        have := LeafNode.verify_err hv
        cases e <;> first | exact this | exact Or.inl this
    | ok s' =>
      rw [hm, Res.ok_bind] at h
      obtain ⟨_, _, _, rfl⟩ := (leafStep_iff ..).1 hm
      obtain ⟨pre, x, post, rfl, hd⟩ := ih _ h
      refine ⟨m :: pre, x, post, rfl, ?_⟩
      have up : ∀ {f : Nat × LeafNode → Bytes} {l : List Bytes} {k : Bytes},
          (k ∈ f m :: l ∨ ∃ a ∈ pre, f a = k) → (k ∈ l ∨ ∃ a ∈ m :: pre, f a = k) := by
        rintro f l k (hk | ⟨a, ha, hk⟩)
        · rcases List.mem_cons.1 hk with rfl | hk
          · exact Or.inr ⟨m, .head _, rfl⟩
          · exact Or.inl hk
        · exact Or.inr ⟨a, .tail _ ha, hk⟩
      cases e <;> first | exact hd | exact up (f := fun a => a.2.payload.signature_key) hd |
        exact up (f := fun a => a.2.payload.encryption_key) hd

/-! ### unmerged leaves -/

/-- What an error of the walk says. -/
def walkDefect (t : RatchetTree) (K k i : Nat) (u : LeafIndex) : Error → Prop
  | .UnmergedLeafIsNotDescendantOfTheParentNode => ¬ below k i u.toNat ∨ K < k
  | .NonBlankIntermediateNodeMissingUnmergedLeaf =>
    ∃ m q, 1 ≤ m ∧ t.get (node m (u.toNat / 2 ^ m)) = some (.Parent q) ∧ u ∉ q.unmerged_leaves ∧
      (m < k ∨ ¬ below k i u.toNat)
  | _ => False

theorem unmergedWalk_err {t : RatchetTree} {n : Nat} (h0 : 0 < n) (hn : n ≤ 2 ^ 31) (k i : Nat) (u : LeafIndex)
    {e : Error} :
    ∀ d m fuel, m + d = 31 → d < fuel → (below k i u.toNat → m < k) →
      unmergedWalk t n (node k i) u fuel (node m (u.toNat / 2 ^ m)) = .err e →
      walkDefect t (NumLeaves.height n) k i u e := by
  intro d
  induction d with
  | zero =>
    intro m fuel hm hf hb h
    obtain ⟨fuel, rfl⟩ : ∃ f, fuel = f + 1 := ⟨fuel - 1, by omega⟩
    obtain rfl : m = 31 := by omega
    rw [unmergedWalk] at h
    by_cases hr : 31 = NumLeaves.height n ∧ u.toNat / 2 ^ 31 = 0
    · rw [show node 31 (u.toNat / 2 ^ 31) = node (NumLeaves.height n) 0 by rw [hr.2, ← hr.1],
        NumLeaves.parent_root h0 hn] at h
      cases h
      by_cases hc : below k i u.toNat
      · have := hb hc
        exact Or.inr (by omega)
      · exact Or.inl hc
    · rw [NumLeaves.parent_over h0 hn (by omega) hr] at h
      cases h
  | succ d ih =>
    intro m fuel hm hf hb h
    obtain ⟨fuel, rfl⟩ : ∃ f, fuel = f + 1 := ⟨fuel - 1, by omega⟩
    rw [unmergedWalk] at h
    by_cases hr : m = NumLeaves.height n ∧ u.toNat / 2 ^ m = 0
    · rw [show node m (u.toNat / 2 ^ m) = node (NumLeaves.height n) 0 by rw [hr.2, ← hr.1],
        NumLeaves.parent_root h0 hn] at h
      cases h
      by_cases hc : below k i u.toNat
      · have := hb hc
        exact Or.inr (by omega)
      · exact Or.inl hc
    · rw [NumLeaves.parent_node h0 hn (by omega) hr, Nat.div_div_eq_div_mul, ← Nat.pow_succ] at h
      simp only [Res.ok_bind] at h
      by_cases hp : node (m + 1) (u.toNat / 2 ^ (m + 1)) = node k i
      · rw [if_pos hp] at h; cases h
      · rw [if_neg hp] at h
        have hb' : below k i u.toNat → m + 1 < k := by
          intro hc
          have := hb hc
          by_cases hk : k = m + 1
          · subst hk
            exact absurd (by rw [below_div.1 hc]) hp
          · omega
        have go := ih (m + 1) fuel (by omega) (by omega) hb'
        cases hg : t.get (node (m + 1) (u.toNat / 2 ^ (m + 1))) with
        | none => rw [hg] at h; exact go h
        | some nd =>
          rw [hg] at h
          cases nd with
          | Leaf l => exact go h
          | Parent q =>
            dsimp only at h
            by_cases hq : has_unmerged_leaf q u = false
            · rw [if_pos hq] at h
              cases h
              refine ⟨m + 1, q, by omega, hg, fun hc => ?_, ?_⟩
              · have : has_unmerged_leaf q u = true := by
                  unfold has_unmerged_leaf; rw [List.any_eq_true]; exact ⟨u, hc, by simp⟩
                rw [this] at hq
                cases hq
              · by_cases hc : below k i u.toNat
                · exact Or.inl (hb' hc)
                · exact Or.inr hc
            · rw [if_neg hq] at h; exact go h

theorem unmergedLoop_err {t : RatchetTree} {n : Nat} (h0 : 0 < n) (hn : n ≤ 2 ^ 31) (k i : Nat) (hk : 1 ≤ k)
    {e : Error} : ∀ us, unmergedLoop t n (node k i) us = .err e →
      ∃ u ∈ us, walkDefect t (NumLeaves.height n) k i u e := by
  intro us
  induction us with
  | nil => intro h; cases h
  | cons u us ih =>
    intro h
    rw [unmergedLoop] at h
    by_cases hu : u.toNat < 2 ^ 31
    · rw [node_index_eq hu, Res.ok_bind] at h
      cases hw : unmergedWalk t n (node k i) u 34 (2 * u.toNat) with
      | fault f => rw [hw] at h; cases h
      | ok v =>
        rw [hw, Res.ok_bind] at h
        obtain ⟨x, h1, h2⟩ := ih h
        exact ⟨x, .tail _ h1, h2⟩
      | err x =>
        rw [hw] at h
        cases h
        have := unmergedWalk_err (t := t) h0 hn k i u (e := e) 31 0 34 (by omega) (by omega) (fun _ => by omega)
        rw [Nat.pow_zero, Nat.div_one, node_zero] at this
        exact ⟨u, .head _, this hw⟩
    · rw [node_index_panic (by omega)] at h
      cases h

theorem parentLoop_err {t : RatchetTree} {n : Nat} {e : Error} : ∀ (ns : List (Option Node)) (i : Nat)
    (keys : List HPKEPublicKey), parentLoop t n i ns keys = .err e →
      (∃ m ∈ parentsFrom i ns, unmergedLoop t n (cast32 m.1) m.2.unmerged_leaves = .err e) ∨
      (e = .DuplicateEncryptionKeyInRatchetTree ∧ ∃ pre m post, parentsFrom i ns = pre ++ m :: post ∧
        (m.2.encryption_key ∈ keys ∨ ∃ a ∈ pre, a.2.encryption_key = m.2.encryption_key)) := by
  intro ns
  induction ns with
  | nil => intro i keys h; cases h
  | cons n ns ih =>
    intro i keys h
    cases n with
    | none =>
      rw [parentLoop] at h
      · rw [parentsFrom]
        · exact ih _ _ h
        · nofun
      · nofun
    | some nd =>
      cases nd with
      | Leaf l =>
        rw [parentLoop] at h
        · rw [parentsFrom]
          · exact ih _ _ h
          · intro q h; cases h
        · intro q h; cases h
      | Parent q =>
        rw [parentLoop] at h
        rw [parentsFrom]
        cases hu : unmergedLoop t _ (cast32 i) q.unmerged_leaves with
        | fault f => rw [hu] at h; cases h
        | err x => rw [hu] at h; cases h; exact Or.inl ⟨_, .head _, hu⟩
        | ok v =>
          rw [hu, Res.ok_bind] at h
          split at h
          · next hk =>
            cases h
            exact Or.inr ⟨rfl, [], _, _, rfl, Or.inl (List.contains_iff_mem.1 hk)⟩
          · rcases ih _ _ h with ⟨m, h1, h2⟩ | ⟨rfl, pre, m, post, h1, h2⟩
            · exact Or.inl ⟨m, .tail _ h1, h2⟩
            · refine Or.inr ⟨rfl, (i, q) :: pre, m, post, by rw [h1]; rfl, ?_⟩
              rcases h2 with h2 | ⟨a, ha, h2⟩
              · rcases List.mem_cons.1 h2 with h2 | h2
                · exact Or.inr ⟨_, .head _, h2.symm⟩
                · exact Or.inl h2
              · exact Or.inr ⟨a, .tail _ ha, h2⟩

end RatchetTree
end Rmls
