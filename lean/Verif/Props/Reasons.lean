import Verif.Proofs.ReadErrors
import Verif.Proofs.Defects
import Verif.Props.Integrity
import Verif.Props.Merge
import Verif.Props.Welcome
import Verif.Props.Group
import Verif.Props.Framing
/-
Property C95: a rejection names its cause.

`Spec.readError`, `Spec.leafDefect`, `Spec.keyPackageDefect`, `Spec.proposalDefect` and `Spec.treeDefect` say what each
error claims of the thing that was rejected.
-/
namespace Rmls
open Spec RatchetTree

private theorem lt_mem {f : Nat × α → Nat} {l pre post : List (Nat × α)} {m a : Nat × α}
    (h : l.Pairwise fun a b => f a < f b) (e : l = pre ++ m :: post) (ha : a ∈ pre) : f a < f m := by
  rw [e, List.pairwise_append] at h
  exact h.2.2 a ha m (.head _)

/-- C95, trees: `verify_integrity` reports only what is wrong with the tree. -/
theorem C95_tree (P : CryptoProvider) (t : RatchetTree) (ctx : GroupContext) (now : Int) (Hs : Hash)
    (hP : P.hash ctx.cipher_suite = .ok Hs) (h0 : 0 < t.length) (hl : t.length < 2 ^ 32) (K : Nat)
    (hK : IsHeight ((t.length + 1) / 2) K) (e : Error) (h : verify_integrity P t ctx now = .err e) :
    treeDefect P Hs.digest t.get K ((t.length + 1) / 2) ctx now e := by
  obtain ⟨n0, n1, n2⟩ := num_leaves_bounds h0 hl
  have hn : t.num_leaves = (t.length + 1) / 2 := by omega
  have hh : NumLeaves.height t.num_leaves = K := isHeight_unique (isHeight_height n0) (hn ▸ hK)
  obtain ⟨hroot, hK31⟩ := root_height h0 hl hK
  obtain ⟨hK32, hKpos⟩ := root_pos hK31
  have hpos : ∀ k i n, t.get (node k i) = some n →
      k < 32 ∧ (i + 1) * 2 ^ (k + 1) ≤ 2 ^ 32 ∧ node k i < t.length ∧ node k i < 4294967296 := by
    intro k i n h
    have h1 := lt_of_get h
    obtain ⟨a, b⟩ := pos_bound (k := k) (i := i) (by omega)
    exact ⟨a, b, h1, by omega⟩
  have hleaf : ∀ i n, t.get (node 0 i) = some n → i < t.num_leaves := by
    intro i n h
    have := lt_of_get h
    rw [node_zero] at this
    omega
  obtain ⟨creds, hcr, hcreds⟩ := supported_creds_eq hl
  have hcreds : (fun ct => ct ∈ creds) = SupportedCred t.get ((t.length + 1) / 2) := by
    funext ct
    rw [← hn]
    exact propext (hcreds ct)
  unfold verify_integrity at h
  cases hc : compute_root_tree_hash P ctx.cipher_suite t with
  | fault f => rw [hc] at h; cases h
  | err x =>
    rw [hc] at h
    cases h
    unfold compute_root_tree_hash compute_tree_hash at hc
    rw [hroot, Res.ok_bind] at hc
    have := treeHashFuel_err hP t K 33 0 hK32 (by omega) hKpos hc
    cases e <;> first | exact this | exact this.elim
  | ok a =>
    have hcomp := treeHashFuel_eq hP t [] K 33 0 hK32 (by omega) hKpos
    rw [without_nil] at hcomp
    have hc' := hc
    unfold compute_root_tree_hash compute_tree_hash at hc'
    rw [hroot, Res.ok_bind] at hc'
    rw [hc'] at hcomp
    obtain ⟨hd, ha⟩ | ⟨_, x, hx⟩ := hcomp
    rotate_left
    · cases hx
    cases ha
    rw [hc, Res.ok_bind] at h
    by_cases hne : treeHash Hs.digest t.get K 0 ≠ ctx.tree_hash
    · rw [if_pos hne] at h; cases h; exact hne
    rw [if_neg hne] at h
    cases hph : verify_parent_hashes P ctx.cipher_suite t with
    | fault f => rw [hph] at h; cases h
    | err x =>
      exfalso
      obtain ⟨y, hy, hye⟩ := verifyParentHashesLoop_err _ _ _ _ _ hph
      rw [Nat.zero_add] at hye
      obtain ⟨k, i, rfl⟩ := node_surj y
      obtain ⟨a, b⟩ := pos_bound (k := k) (i := i) (by omega)
      exact verifyParentHash_err k i a (by omega) _ _ hye
    | ok good =>
      rw [hph, Res.ok_bind] at h
      cases good with
      | false =>
        rw [if_pos rfl] at h
        cases h
        obtain ⟨y, hy, hye⟩ := verifyParentHashesLoop_false _ _ _ _ _ hph
        rw [Nat.zero_add, ← get_lt hy] at hye
        obtain ⟨k, i, rfl⟩ := node_surj y
        obtain ⟨a, b⟩ := pos_bound (k := k) (i := i) (by omega)
        by_cases hg : ∃ j p, k = j + 1 ∧ t.get (node k i) = some (.Parent p)
        · obtain ⟨j, p, rfl, hg⟩ := hg
          rw [hg] at hye
          exact ⟨j, i, p, hg, verifyParentHash_false hP j i a b (by omega) p hye⟩
        · rw [verifyParentHash_other k i a (by omega) _ fun j p e hc => hg ⟨j, p, e, hc⟩] at hye
          cases hye
      | true =>
        rw [if_neg (by nofun), hcr, Res.ok_bind] at h
        cases hv : verifyLeaves P t ctx now creds with
        | fault f => rw [hv] at h; cases h
        | err x =>
          rw [hv] at h
          cases h
          rw [verifyLeaves_eq hl] at hv
          obtain ⟨pre, m, post, hms, hdef⟩ := leafFold_err _ _ hv
          have hlt : ∀ a ∈ pre, a.1 < m.1 := fun a ha =>
            lt_mem (f := fun m => m.1) (members_sorted t.get t.num_leaves) hms ha
          have hin : ∀ a, a ∈ pre ++ m :: post → t.get (node 0 a.1) = some (.Leaf a.2) := by
            intro a ha
            rw [← hms] at ha
            exact (mem_members.1 (show (a.1, a.2) ∈ members t.get t.num_leaves from ha)).2
          have hm := hin m (by simp)
          rw [hcreds] at hdef
          cases e <;> try exact ⟨m.1, m.2, hm, hdef⟩
          all_goals try exact hdef.elim
          case DuplicateSignatureKeyInRatchetTree =>
            rcases hdef with hdef | ⟨a, ha, hk⟩
            · cases hdef
            · exact ⟨a.1, m.1, a.2, m.2, Nat.ne_of_lt (hlt a ha), hin a (by simp [ha]), hm, hk⟩
          case DuplicateEncryptionKeyInRatchetTree =>
            rcases hdef with hdef | ⟨a, ha, hk⟩
            · cases hdef
            · refine ⟨node 0 a.1, node 0 m.1, _, fun hc => ?_, .inl ⟨a.1, a.2, rfl, hin a (by simp [ha]), hk⟩,
                .inl ⟨m.1, m.2, rfl, hm, rfl⟩⟩
              have := (node_inj hc).2
              have := hlt a ha
              omega
        | ok s =>
          obtain ⟨sk, ek⟩ := s
          rw [hv, Res.ok_bind] at h
          have hek : ∀ k ∈ ek, ∃ i l, t.get (node 0 i) = some (.Leaf l) ∧ l.payload.encryption_key = k := by
            rw [verifyLeaves_eq hl] at hv
            obtain ⟨_, _, _, l4⟩ := (leafFold_iff P ctx now creds (members t.get t.num_leaves) ([], []) _).1 hv
            obtain ⟨-, rfl⟩ := Prod.mk.inj l4
            intro k hk
            rw [List.append_nil, List.mem_reverse, List.mem_map] at hk
            obtain ⟨a, ha, rfl⟩ := hk
            exact ⟨a.1, a.2, (mem_members.1 (show (a.1, a.2) ∈ members t.get t.num_leaves from ha)).2, rfl⟩
          rcases parentLoop_err _ _ _ h with ⟨m, hm, hu⟩ | ⟨rfl, pre, m, post, hms, hk⟩
          · have hg := mem_parents.1 (show (m.1, m.2) ∈ parentsFrom 0 t from hm)
            obtain ⟨k, i, hki⟩ := node_surj m.1
            rw [hki] at hg hu
            obtain ⟨a, b, _, d⟩ := hpos k i _ hg
            rw [cast32_eq d] at hu
            have hk1 : 1 ≤ k := by
              apply Decidable.byContradiction
              intro hc
              obtain rfl : k = 0 := by omega
              refine HashDefined_leafShaped hd (below_div.2 (Nat.div_eq_of_lt ?_)) _ hg
              have := hleaf i _ hg
              have := hK.1
              omega
            obtain ⟨u, hu1, hu2⟩ := unmergedLoop_err n0 n1 k i hk1 _ hu
            rw [hh] at hu2
            cases e <;> first | exact hu2.elim | exact ⟨k, i, m.2, hg, u, hu1, hu2⟩
          · have hin : ∀ a, a ∈ pre ++ m :: post → t.get a.1 = some (.Parent a.2) := by
              intro a ha
              rw [← hms] at ha
              exact mem_parents.1 (show (a.1, a.2) ∈ parentsFrom 0 t from ha)
            have hm := hin m (by simp)
            rcases hk with hk | ⟨a, ha, hk⟩
            · obtain ⟨i, l, hi, hk⟩ := hek _ hk
              refine ⟨node 0 i, m.1, _, fun hc => ?_, .inl ⟨i, l, rfl, hi, hk⟩, .inr ⟨m.2, hm, rfl⟩⟩
              rw [← hc, hi] at hm
              cases hm
            · have := lt_mem (f := fun m => m.1) (parentsFrom_sorted t 0) hms ha
              exact ⟨a.1, m.1, _, Nat.ne_of_lt this, .inr ⟨a.2, hin a (by simp [ha]), hk⟩, .inr ⟨m.2, hm, rfl⟩⟩

/-! ### Reading -/

/-- C95, the types without a group context: what cannot be read is reported as what it is, and the value that is named
is one that is not defined and is in the input. -/
theorem C95_reading : ∀ c ∈ wireCodecs,
    c.name ∉ ["GroupContext", "FramedContentTBS", "AuthenticatedContentTBM", "GroupInfo", "WireMessage", "MLSMessage"] →
    ∀ b e, c.read b = .err e → readError e ∧ reported e <:+: b :=
  fun c hc hn b e h => (codec_errd_free (T := readError) (fun _ h => h) c hc hn).errs b e h

/-- C95 is false of group contexts: a version that is not known is reported as a proposal type, and that proposal type
is defined. -/
theorem C95_version_refuted : ∃ b v, v ∈ definedProposals ∧ GroupContext.deserialize b = .err (.InvalidProposalTypeValue v) :=
  ⟨[0, 2, 0, 1, 0, 0, 0, 0, 0, 0, 0, 0, 0, 0, 0], 2, by decide, by decide⟩

/-- C95, what is true of all types.  Missing: the errors of a group context, see `C95_version_refuted`. -/
theorem C95_reading_partial : ∀ c ∈ wireCodecs, ∀ b e, c.read b = .err e →
    (readError e ∨ ∃ v, v ≠ 1 ∧ e = .InvalidProposalTypeValue v) ∧ reported e <:+: b :=
  fun c hc b e h => (codec_errd (T := fun e => readError e ∨ ∃ v, v ≠ 1 ∧ e = .InvalidProposalTypeValue v)
    (fun _ h => .inl h) (fun v h => .inr ⟨v, h, rfl⟩) c hc).errs b e h

/-- A message that claims a version of its own is reported as such, a node of an unknown type by its type. -/
example : MLSMessage.deserialize [0, 2, 0, 1] = .err (.InvalidProtocolVersion 2) := by decide
example : Node.deserialize [9] = .err (.InvalidNodeTypeValue 9) ∧ reported (.InvalidNodeTypeValue 9) = [9] := by decide

/-! ### Leaves, key packages, proposals -/

/-- C95, leaves. -/
theorem C95_leaf (P : CryptoProvider) (x : LeafNode) (o : LeafNodeVerifyOptions) (e : Error)
    (h : x.verify P o = .err e) :
    leafDefect P x o.cipher_suite o.group_id o.leaf_index (· ∈ o.supported_creds) (· ∈ o.signature_keys)
      (· ∈ o.encryption_keys) o.now e :=
  LeafNode.verify_err h

/-- C95, key packages. -/
theorem C95_key_package (P : CryptoProvider) (x : KeyPackage) (ctx : GroupContext) (e : Error)
    (h : x.verify P ctx = .err e) : keyPackageDefect P x ctx e :=
  KeyPackage.verify_err h

/-- C95, lists of proposals. -/
theorem C95_proposals (ps : List Proposal) (ss : List LeafIndex) (c : LeafIndex) (e : Error)
    (h : verify_proposal_list ps ss c = .err e) :
    (ps.length ≠ ss.length ∧ e = .ProposalsLenNotMatchSendersLen) ∨
    (ps.length = ss.length ∧ proposalDefect (ps.zip ss) c e) :=
  verify_proposal_list_err h

example : verify_proposal_list [.Remove ⟨3⟩, .Remove ⟨3⟩] [1, 2] 0 =
    .err .MultipleUpdateRemoveProposalsApplyToTheSameLeaf := by decide
example : verify_proposal_list [.Remove ⟨3⟩] [1, 2] 0 = .err .ProposalsLenNotMatchSendersLen := by decide

/-! ### Update paths -/

/-- C95, update paths: the wrong number of nodes is reported exactly when their number is wrong. -/
theorem C95_path_length (P : CryptoProvider) (cs : CipherSuite) (Hs : Hash) (hP : P.hash cs = .ok Hs)
    (t : RatchetTree) (K j : Nat) (h : MergeInput t K j) (path : UpdatePath) :
    (t.merge_update_path P cs j path).2 = .err .UpdatePathAndFilteredDirectPathHasDifferentNode ↔
      path.nodes.length ≠ (filteredLevels t.get K j).length := by
  refine ⟨fun he hl => ?_, C22_wrong_count P cs Hs hP t K j h path⟩
  rcases merge_eq hP path h.nonempty h.size h.numHeight h.sender h.inside (.inl h.small) with
    ⟨hn, _⟩ | ⟨_, _, e, hm, hk⟩ | ⟨_, _, t2, _, _, _, _, hm⟩
  · exact hn hl.symm
  · rw [hm] at he
    cases he
    simp [PathError] at hk
  · rw [hm] at he
    split at he
    · split at he <;> cases he
    · cases he

/-- C95, update paths: when the parent hash of the leaf is reported as wrong, then it is, and there is another with
which the same path is accepted.  Missing: a member who is alone, see `C95_single_refuted`. -/
theorem C95_path_hash_partial (P : CryptoProvider) (cs : CipherSuite) (Hs : Hash) (hP : P.hash cs = .ok Hs)
    (t : RatchetTree) (K j : Nat) (h : MergeInput t K j) (path : UpdatePath) (hne : filteredLevels t.get K j ≠ [])
    (he : (t.merge_update_path P cs j path).2 = .err .ParentHashMismatchForUpdatePathLeafNode) :
    ∃ out, path.leaf_node.payload.leaf_node_source ≠ .Commit out ∧
      ∀ leaf : LeafNode, leaf.payload.leaf_node_source = .Commit out →
        (t.merge_update_path P cs j { path with leaf_node := leaf }).2 = .ok () := by
  rcases merge_eq hP path h.nonempty h.size h.numHeight h.sender h.inside (.inl h.small) with
    ⟨_, hm⟩ | ⟨_, _, e, hm, hk⟩ | ⟨hlen, hd, t2, _, _, _, _, hm⟩
  · rw [hm] at he; cases he
  · rw [hm] at he; cases he; simp [PathError] at hk
  · obtain ⟨out, hout⟩ : ∃ out, (chainDown Hs.digest t.get j (downList (filteredLevels t.get K j) path.nodes) none).2 =
        some out := by
      have hdl : downList (filteredLevels t.get K j) path.nodes ≠ [] := by
        intro hc
        have := downList_levels hlen
        rw [hc] at this
        exact hne (by simpa using this.symm)
      have key : ∀ l prev, l ≠ [] ∨ prev ≠ none → ∃ out, (chainDown Hs.digest t.get j l prev).2 = some out := by
        intro l
        induction l with
        | nil =>
          rintro prev (h | h)
          · exact absurd rfl h
          · cases prev with
            | none => exact absurd rfl h
            | some b => exact ⟨b, rfl⟩
        | cons a l ih => intro prev _; exact ih _ (.inr (by simp))
      exact key _ _ (.inl hdl)
    refine ⟨out, fun hs => ?_, fun leaf hs => ?_⟩
    · rw [hm, hs, hout] at he
      simp at he
    · rcases merge_eq hP { path with leaf_node := leaf } h.nonempty h.size h.numHeight h.sender h.inside (.inl h.small) with
        ⟨hn, _⟩ | ⟨_, hn, _⟩ | ⟨_, _, t3, _, _, _, _, hm3⟩
      · exact absurd hlen hn
      · exact absurd hd hn
      · rw [hm3]
        dsimp only
        rw [hs, hout]
        simp

/-- C95 is false of a member who is alone: a path of the right length, which has no nodes, is always reported to have
the wrong parent hash, whatever its leaf says. -/
theorem C95_single_refuted (P : CryptoProvider) (cs : CipherSuite) (Hs : Hash) (hP : P.hash cs = .ok Hs)
    (t : RatchetTree) (K j : Nat) (h : MergeInput t K j) (leaf : LeafNode) (hne : filteredLevels t.get K j = []) :
    (t.merge_update_path P cs j ⟨leaf, []⟩).2 = .err .ParentHashMismatchForUpdatePathLeafNode := by
  rcases merge_eq hP ⟨leaf, []⟩ h.nonempty h.size h.numHeight h.sender h.inside (.inl h.small) with
    ⟨hn, _⟩ | ⟨_, hd, _⟩ | ⟨_, _, t2, _, _, _, _, hm⟩
  · rw [hne] at hn; exact absurd rfl hn
  · rw [hne] at hd; exact absurd trivial hd
  · rw [hm, hne]
    simp only [downList, List.zip_nil_left, List.map_nil, List.reverse_nil, chainDown]
    cases leaf.payload.leaf_node_source <;> rfl

/-! ### Welcomes -/

/-- C95, the secrets of a welcome: they are reported as missing only if there is no entry for the reference; every other
error is one of decryption, or of reading what was decrypted. -/
theorem C95_welcome (P : CryptoProvider) (w : Welcome) (r : KeyPackageRef) (key : Bytes) (e : Error)
    (h : w.decrypt_group_secrets P r key = .err e) :
    (e = .EncryptedGroupSecretsNotFoundForProvidedKeyPackageRef ∧ ∀ s ∈ w.secrets, s.new_member ≠ r) ∨
    ∃ s ∈ w.secrets, s.new_member = r ∧
      (P.decrypt_with_label w.cipher_suite key (ascii "Welcome") w.encrypted_group_info
        s.encrypted_group_secrets.kem_output s.encrypted_group_secrets.ciphertext = .err e ∨ readError e) := by
  unfold Welcome.decrypt_group_secrets at h
  split at h
  · next s hs =>
    right
    have : s ∈ w.secrets ∧ s.new_member = r := by
      unfold Welcome.find_secret at hs
      generalize w.secrets = l at hs
      induction l with
      | nil => cases hs
      | cons a l ih =>
        unfold Welcome.findLoop at hs
        split at hs
        · next ha => cases hs; exact ⟨.head _, ha⟩
        · exact ⟨.tail _ (ih hs).1, (ih hs).2⟩
    refine ⟨s, this.1, this.2, ?_⟩
    cases hd : P.decrypt_with_label w.cipher_suite key (ascii "Welcome") w.encrypted_group_info
        s.encrypted_group_secrets.kem_output s.encrypted_group_secrets.ciphertext with
    | err x => rw [hd] at h; cases h; exact .inl rfl
    | fault f => rw [hd] at h; cases h
    | ok raw =>
      rw [hd, Res.ok_bind] at h
      unfold deserialize_exact at h
      split at h
      · cases h
      · next x hx =>
        cases h
        right
        exact (C95_reading ⟨"GroupSecrets", _, GroupSecrets.deserialize, GroupSecrets.serialize, fun _ => True, fun _ => True,
          groupSecrets⟩ (by unfold wireCodecs; simp) (by decide) raw e hx).1
      · cases h
  · next hn =>
    cases h
    exact .inl ⟨rfl, (C47_find_none w r).1 hn⟩

/-- C95, joining: no matching package is reported only if the store has none of the packages that the welcome is for,
or has the first of them but not its init key.  The provider's hash does not fail with this error itself. -/
theorem C95_join (P : CryptoProvider) (s : MemoryKeyStore) (w : Welcome) (hP : ∀ cs, P.hash cs ≠ .err .NoMatchingKeyPackage)
    (h : (Group.from_welcome P s w).1 = .err .NoMatchingKeyPackage) :
    (∀ e ∈ w.secrets, s.retrieve e.new_member = none) ∨
    ∃ e raw x ref, FirstKnown s w.secrets e raw ∧ Packs raw x ∧ IsRef P x ref ∧
      (ref = x.payload.init_key ∨ s.retrieve x.payload.init_key = none) := by
  unfold Group.from_welcome at h
  split at h
  · next hn =>
    left
    intro e he
    generalize w.secrets = l at hn he
    induction l with
    | nil => cases he
    | cons a l ih =>
      unfold Group.findPackage at hn
      split at hn
      · cases hn
      · next ha =>
        rcases List.mem_cons.1 he with rfl | he
        · exact ha
        · exact ih hn he
  · next raw hf =>
    obtain ⟨e, he⟩ := (findPackage_iff s _ raw).1 hf
    right
    split at h
    · next x hx =>
      cases h
      unfold deserialize_exact at hx
      split at hx
      · cases hx
      · next y hy =>
        cases hx
        exact ((C95_reading ⟨"KeyPackage", _, KeyPackage.deserialize, KeyPackage.serialize, KeyPackage.WF, fun _ => True,
          keyPackage⟩ (by unfold wireCodecs; simp) (by decide) raw _ hy).1).elim
      · cases hx
    · cases h
    · next x hx =>
      split at h
      · next y hy =>
        cases h
        unfold KeyPackage.generate_ref at hy
        exfalso
        rcases keyPackage_w x with ⟨_, h1⟩ | ⟨_, h1 | h1⟩
        · rw [h1, Res.ok_bind] at hy
          unfold CryptoProvider.ref_hash at hy
          rcases refHashInput_w (ascii "MLS 1.0 KeyPackage Reference") (keyPackage x).bytes with ⟨_, h2⟩ | ⟨_, h2 | h2⟩
          · rw [h2, Res.ok_bind] at hy
            cases h3 : P.hash x.payload.cipher_suite with
            | ok a => rw [h3] at hy; cases hy
            | fault f => rw [h3] at hy; cases hy
            | err a => rw [h3] at hy; cases hy; exact hP _ h3
          · rw [h2] at hy; cases hy
          · rw [h2] at hy; cases hy
        · rw [h1] at hy; cases hy
        · rw [h1] at hy; cases hy
      · cases h
      · next ref hr =>
        refine ⟨e, raw, x, ref, he, (packs_iff raw x).1 hx, (generate_ref_iff P x ref).1 hr, ?_⟩
        dsimp only at h
        split at h
        · next hi =>
          rw [retrieve_delete] at hi
          split at hi
          · next hh => exact .inl hh
          · exact .inr hi
        · next rawKey hi =>
          split at h
          · next y hy =>
            cases h
            unfold deserialize_exact at hy
            split at hy
            · cases hy
            · next z hz =>
              cases hy
              exact ((C95_reading ⟨"SecretKey", _, SecretKey.deserialize, SecretKey.serialize, fun _ => True,
                fun _ => True, Enc.opq⟩ (by unfold wireCodecs; simp) (by decide) rawKey _ hz).1).elim
            · cases hy
          · cases h
          · cases h

/-! ### What the errors do not say -/

section examples

/-- A member who lists its credential type twice. -/
private def twice : LeafNode :=
  let payload := { (toyLeaf 0).payload with capabilities := { (toyLeaf 0).payload.capabilities with
    credentials := [.Basic, .Basic] } }
  { payload, signature := [0, 0] ++ (labelled (text "LeafNodeTBS") (leafNodeTBS payload [7] 0).bytes).bytes }

set_option maxRecDepth 100000 in
/-- C95 is false of credential types: a type is reported as not supported by all members in a tree in which every
member lists it. -/
theorem C95_credential_refuted : ∃ t ctx, verify_integrity toyProvider t ctx 0 =
      .err (.CredentialTypeUsedByLeafNodeNotSupportedByAllMembers 1) ∧
    (∃ i l, t.get (node 0 i) = some (.Leaf l)) ∧
    ∀ i l, t.get (node 0 i) = some (.Leaf l) → .Basic ∈ l.payload.capabilities.credentials := by
  refine ⟨[some (.Leaf twice)], { toyContext with
    tree_hash := treeHash id (RatchetTree.get [some (.Leaf twice)]) 0 0 }, by decide +kernel, ⟨0, twice, rfl⟩, ?_⟩
  intro i l h
  have : i = 0 := by
    have := lt_of_get h
    rw [node_zero] at this
    simp at this
    omega
  subst this
  cases h
  decide

/-- A leaf from a key package of the given lifetime. -/
private def lived (lt : Lifetime) : LeafNode :=
  let payload := { (toyLeaf 0).payload with leaf_node_source := .KeyPackage lt }
  { payload, signature := [0, 0] ++ (labelled (text "LeafNodeTBS") (leafNodeTBS payload [7] 0).bytes).bytes }

set_option maxRecDepth 100000 in
/-- C95 is false of lifetimes: a leaf is reported for its lifetime in the middle of it.  The times are seconds, the
lifetime is one of 90 days. -/
theorem C95_lifetime_refuted : ∃ x o lt, LeafNode.verify toyProvider x o = .err .LifetimeVerificationFailed ∧
    x.payload.leaf_node_source = .KeyPackage lt ∧ LifetimeValid 1000000000 (90 * 24 * 3600 * 1000000000) lt o.now := by
  refine ⟨lived ⟨1700000000, 1707776000⟩,
    ⟨toyContext.cipher_suite, [7], 0, [.Basic], [], [], 1703000000000000000⟩, _, by decide +kernel, rfl, ?_⟩
  unfold LifetimeValid
  decide

/-- C95: a message fails the check of its membership tag only if it is from a member, has a tag, and the tag is not the MAC of what
is tagged; and then one error is reported. -/
theorem C95_tag (P : CryptoProvider) (cs : CipherSuite) (Hs : Hash) (hP : P.hash cs = .ok Hs) (x : PublicMessage) (key : Bytes)
    (ctx : GroupContext) (e : Error) : x.verify_membership_tag P cs key ctx = .err e ↔
      e = .VerifyConfirmationTagFailed ∧ (∃ i, x.content.sender = .Member i) ∧ ∃ tag, x.membership_tag = some tag ∧
        ¬ ((authenticatedContentTBM x.content x.auth ctx).fits ∧ tag = Hs.mac key (authenticatedContentTBM x.content x.auth ctx).bytes) := by
  have hw := authenticatedContentTBM_w x ctx
  unfold PublicMessage.verify_membership_tag
  cases hsn : x.content.sender with
  | Member i =>
    cases ht : x.membership_tag with
    | none => simp
    | some tag =>
      rcases hw with ⟨hf, hr⟩ | ⟨hf, hr⟩
      · simp only [hr, CryptoProvider.verify_mac, CryptoProvider.sign_mac, hP, Res.ok_bind]
        by_cases hc : tag = Hs.mac key (authenticatedContentTBM x.content x.auth ctx).bytes
        · simp [hc, hf, Pure.pure]
        · simp [hc, eq_comm]
      · rcases hr with hr | hr <;> simp [hr, hf, eq_comm]
  | External _ => simp
  | NewMemberProposal => simp
  | NewMemberCommit => simp

set_option maxRecDepth 100000 in
example : (⟨toyContent, ⟨[], []⟩, some []⟩ : PublicMessage).verify_membership_tag toyProvider toyContext.cipher_suite [4] toyContext =
    .err .VerifyConfirmationTagFailed :=
  (C95_tag toyProvider _ toyHash rfl _ _ _ _).2 ⟨rfl, ⟨_, rfl⟩, _, rfl, fun h => absurd h.2 (by decide +kernel)⟩

set_option maxRecDepth 100000 in
/-- C95 is false of membership tags: when that of an application message does not verify, the failure of a confirmation
tag is reported, which such a message does not have. -/
theorem C95_tag_refuted : ∃ x : PublicMessage, (∃ data, x.content.content = .Application data) ∧
    x.verify_membership_tag toyProvider toyContext.cipher_suite [4] toyContext = .err .VerifyConfirmationTagFailed :=
  ⟨⟨toyContent, ⟨[], []⟩, some []⟩, ⟨[3], rfl⟩, by decide +kernel⟩

/-- Four leaves, of which leaf 3 is blank and is unmerged at the parent of leaves 0 and 1 only. -/
private def strayTree : RatchetTree :=
  let two := some (.Leaf (signedLeaf 2 .Update))
  let root : ParentNode := ⟨[9], [], []⟩
  let h := (parentHashEnc root (treeHash id (fun x => if x = 4 then two else none) 1 1)).bytes
  let left : ParentNode := ⟨[8], h, [3]⟩
  let one := some (.Leaf (signedLeaf 1 .Update))
  let g := (parentHashEnc left (treeHash id (fun x => if x = 2 then one else none) 0 1)).bytes
  [some (.Leaf (signedLeaf 0 (.Commit g))), some (.Parent left), one, some (.Parent root), two, none, none]

set_option maxRecDepth 100000 in
/-- C95 is false of unmerged leaves: a leaf that is not below the parent that lists it is reported as missing from a
node in between, and there is no node in between. -/
theorem C95_unmerged_refuted : ∃ t ctx, verify_integrity toyProvider t ctx 0 =
      .err .NonBlankIntermediateNodeMissingUnmergedLeaf ∧
    ∀ k i p u, t.get (node k i) = some (.Parent p) → u ∈ p.unmerged_leaves → k = 1 ∧ ¬ below k i u.toNat := by
  refine ⟨strayTree, contextOf strayTree, by decide +kernel, ?_⟩
  intro k i p u h hu
  have hlt : node k i < 7 := lt_of_get h
  generalize hx : node k i = x at *
  have : x = 0 ∨ x = 1 ∨ x = 2 ∨ x = 3 ∨ x = 4 ∨ x = 5 ∨ x = 6 := by omega
  rcases this with rfl | rfl | rfl | rfl | rfl | rfl | rfl
  · cases h
  · cases h
    obtain ⟨rfl, rfl⟩ := node_inj (hx.trans (show 1 = node 1 0 by decide))
    rw [List.mem_singleton.1 hu]
    exact ⟨rfl, by unfold below; decide⟩
  · cases h
  · cases h; cases hu
  · cases h
  · cases h
  · cases h

set_option maxRecDepth 100000 in
/-- The hypotheses of `C95_tree` are met: the tree without the unmerged leaf, which `C95_tree` says has a parent
without a valid parent hash, and a tree that is not the one of the context. -/
example : (∃ k i p, (treeWith (some (.Leaf (signedLeaf 1 .Update))) []).get (node (k + 1) i) = some (.Parent p) ∧
      ¬ ParentHashValid id (treeWith (some (.Leaf (signedLeaf 1 .Update))) []).get k i p) ∧
    treeHash id goodTree.get 2 0 ≠ [1] :=
  ⟨C95_tree toyProvider (treeWith (some (.Leaf (signedLeaf 1 .Update))) []) 
      (contextOf (treeWith (some (.Leaf (signedLeaf 1 .Update))) [])) 0 toyHash rfl (by decide) (by decide) 2 toyTree_height .ParentHashesVerificationFailed (by decide +kernel),
    C95_tree toyProvider goodTree { contextOf goodTree with tree_hash := [1] } 0 toyHash rfl (by decide) (by decide) 2
      goodTree_height .TreeHashVerificationFailed (by decide +kernel)⟩

set_option maxRecDepth 100000 in
/-- A leaf in the wrong place. -/
example : ¬ LeafSigned toyProvider toyContext.cipher_suite (signedLeaf 1 .Update) [7] 2 :=
  C95_leaf toyProvider (signedLeaf 1 .Update) ⟨toyContext.cipher_suite, [7], 2, [.Basic], [], [], 0⟩
    .LeafNodeSignatureVerificationFailed (by decide +kernel)

/-- A path without nodes for leaf 0 of the tree with members 0, 1 and 2. -/
example : (toyTree.merge_update_path toyProvider .MLS_128_DHKEMX25519_AES128GCM_SHA256_Ed25519 0 ⟨toyLeaf 0, []⟩).2 =
    .err .UpdatePathAndFilteredDirectPathHasDifferentNode :=
  (C95_path_length toyProvider _ toyHash rfl toyTree 2 0 (toy_mergeInput 0 (by decide)) ⟨toyLeaf 0, []⟩).2 (by decide)

set_option maxRecDepth 100000 in
/-- A path with nodes and a leaf that is no commit. -/
example : ∃ path : UpdatePath, (toyTree.merge_update_path toyProvider .MLS_128_DHKEMX25519_AES128GCM_SHA256_Ed25519 0 path).2 =
    .err .ParentHashMismatchForUpdatePathLeafNode ∧ filteredLevels toyTree.get 2 0 ≠ [] :=
  ⟨⟨toyLeaf 0, [⟨[5], []⟩, ⟨[6], []⟩]⟩, by decide +kernel, by decide⟩

/-- A tree of one member, who is alone. -/
example : MergeInput [some (.Leaf (toyLeaf 0))] 0 0 ∧ filteredLevels (RatchetTree.get [some (.Leaf (toyLeaf 0))]) 0 0 = [] := by
  refine ⟨⟨⟨by decide, ⟨by decide, fun _ _ => Nat.zero_le _⟩, by decide⟩, ?_⟩, by decide⟩
  intro x p h
  have := lt_of_get h
  simp at this
  subst this
  cases h

/-- A key package whose leaf is not from a key package. -/
example : ∃ e, KeyPackage.verify toyProvider
    ⟨⟨.MLS10, toyContext.cipher_suite, [5], toyLeaf 0, []⟩, []⟩ toyContext = .err e ∧
    e = .KeyPackageContainsLeafNodeWithInvalidSource := ⟨_, by decide, rfl⟩

end examples

end Rmls
