import Verif.Proofs.Robust
import Verif.Props.Codec
import Verif.Props.Suites
import Verif.Props.Integrity
import Verif.Props.Release
import Verif.Props.Commit
import Verif.Props.Toy
/-
Property C84: checking received data fails with an error, not with a panic.
-/
namespace Rmls
open Spec Spec.Enc
open RatchetTree (verify_integrity num_leaves_bounds isHeight_unique isHeight_height)

/-! ### The providers -/

/-- C84: with both providers nothing that is used on received data panics, if opening a box with the `hpke` crate does
not and HKDF gives as many bytes as it is asked for. -/
theorem C84_providers (p : Primitives) (P : CryptoProvider) (hP : Provider p P)
    (hopen : ∀ s k i kem c, Returns (p.hpke_open s k i kem c))
    (hsize : ∀ h s i n, (p.hkdf_expand h s i n).length = n) : Calm P := by
  have hd : ∀ cs, Returns (Suites.description cs) := by
    intro cs g
    rcases description_cases cs with ⟨_, h⟩ | ⟨_, d, r, h, _⟩ <;> rw [h] <;> exact nofun
  refine ⟨?_, ?_, ?_, ?_, ?_, ?_, ?_, ?_, ?_, ?_⟩
  · intro cs; rcases hP with rfl | rfl <;> exact returns_bind (hd cs) fun _ _ => returns_ok _
  · intro cs; rcases hP with rfl | rfl <;> exact returns_bind (hd cs) fun _ _ => returns_ok _
  · intro cs; rcases hP with rfl | rfl <;> exact returns_bind (hd cs) fun _ _ => returns_ok _
  · intro cs h hh s i n
    obtain ⟨d, _, hw⟩ := hpke_cases hP hh
    rcases hw with ⟨_, rfl⟩ | ⟨_, rfl⟩
    · show Returns (Suites.rust_kdf_expand _ _ _ _ _)
      unfold Suites.rust_kdf_expand
      repeat' split
      all_goals first | exact returns_ok _ | exact returns_err _
    · show Returns (Suites.ring_kdf_expand _ _ _ _ _)
      unfold Suites.ring_kdf_expand
      repeat' split
      all_goals first | exact returns_ok _ | exact returns_err _
  · intro cs h hh s salt
    obtain ⟨d, _, hw⟩ := hpke_cases hP hh
    rcases hw with ⟨_, rfl⟩ | ⟨_, rfl⟩ <;> exact returns_ok _
  · intro cs h hh s i n out ho
    obtain ⟨d, _, hw⟩ := hpke_cases hP hh
    rcases hw with ⟨_, rfl⟩ | ⟨_, rfl⟩
    · change Suites.rust_kdf_expand _ _ _ _ _ = _ at ho
      unfold Suites.rust_kdf_expand at ho
      repeat' split at ho
      all_goals first | (cases ho; exact hsize _ _ _ _) | cases ho
    · change Suites.ring_kdf_expand _ _ _ _ _ = _ at ho
      unfold Suites.ring_kdf_expand at ho
      repeat' split at ho
      all_goals first | (cases ho; exact hsize _ _ _ _) | cases ho
  · intro cs h hh
    obtain ⟨d, _, hw⟩ := hpke_cases hP hh
    rcases hw with ⟨_, rfl⟩ | ⟨_, rfl⟩
    · show Suites.aead_key_size _ < _ ∧ Suites.aead_nonce_size _ < _
      cases d.hpke.aead <;> decide
    · show Suites.aead_key_size _ < _ ∧ Suites.aead_nonce_size _ < _
      cases d.hpke.aead <;> decide
  · intro cs h hh k n c a hk hn
    obtain ⟨d, _, hw⟩ := hpke_cases hP hh
    have e1 : Suites.aead_key_size d.hpke.aead = Suites.cipherKeySize d.hpke.aead := by cases d.hpke.aead <;> rfl
    have e2 : Suites.aead_nonce_size d.hpke.aead = 12 := by cases d.hpke.aead <;> rfl
    rcases hw with ⟨_, rfl⟩ | ⟨_, rfl⟩
    · change _ = Suites.aead_key_size _ at hk
      change _ = Suites.aead_nonce_size _ at hn
      show Returns (Suites.rust_aead_open _ _ _ _ _ _)
      unfold Suites.rust_aead_open
      rw [if_neg (by omega), if_neg (by omega)]
      dsimp only
      repeat' split
      all_goals first | exact returns_ok _ | exact returns_err _
    · show Returns (Suites.ring_aead_open _ _ _ _ _ _)
      unfold Suites.ring_aead_open
      dsimp only
      repeat' split
      all_goals first | exact returns_ok _ | exact returns_err _
  · intro cs s hs k m sg
    obtain ⟨d, _, hw⟩ := signature_cases hP hs
    rcases hw with rfl | rfl
    · show Returns (Suites.rust_verify _ _ _ _ _)
      unfold Suites.rust_verify
      repeat' split
      all_goals first | exact returns_ok _ | exact returns_err _
    · show Returns (Suites.ring_verify _ _ _ _ _)
      unfold Suites.ring_verify
      repeat' split
      all_goals first | exact returns_ok _ | exact returns_err _
  · intro cs sk i kem c
    have h : Returns (Suites.hpkeOpen p cs sk i kem c) := by
      unfold Suites.hpkeOpen
      split
      · exact hopen _ _ _ _ _
      · exact returns_err _
    rcases hP with rfl | rfl <;> exact h

/-! ### Messages -/

/-- C84: every check of a signature or a tag returns, on whatever was received. -/
theorem C84_checks (P : CryptoProvider) (hP : Calm P) (cs : CipherSuite) (ctx : GroupContext) (key other : Bytes) :
    (∀ x : AuthenticatedContent, Returns (x.verify_signature P cs key ctx)) ∧
    (∀ x : PublicMessage, Returns (x.verify_membership_tag P cs key ctx)) ∧
    (∀ x : FramedContentAuthData, Returns (x.verify_confirmation_tag P cs key other)) ∧
    (∀ x : GroupInfo, Returns (x.verify_signature P key) ∧ Returns (x.verify_confirmation_tag P key other)) ∧
    (∀ x : LeafNode, ∀ o, Returns (x.verify P o)) ∧
    (∀ x : KeyPackage, Returns (x.verify P ctx) ∧ Returns (x.generate_ref P)) :=
  ⟨fun x => hP.verify_content cs x key ctx, fun x => hP.verify_membership_tag cs x key ctx,
    fun x => hP.verify_commit_tag cs x key other, fun x => ⟨hP.verify_group_info x key, hP.verify_group_info_tag x key other⟩,
    fun x o f => (C44_total P (RatchetTree.calm_verify hP) x o
      { payload := { version := .MLS10, cipher_suite := cs, init_key := [], leaf_node := x, extensions := [] }
        signature := [] } ctx f).1,
    fun x => ⟨fun f => (C44_total P (RatchetTree.calm_verify hP) x.payload.leaf_node
      { cipher_suite := cs, group_id := [], leaf_index := 0, supported_creds := [], signature_keys := []
        encryption_keys := [], now := 0 } x ctx f).2,
      returns_bind (keyPackage_w x).returns fun _ _ => hP.ref_hash _ _ _⟩⟩

/-- C84: so do the derivation of secrets and the opening of a welcome and of sender data, down to the bytes inside. -/
theorem C84_secrets (P : CryptoProvider) (hP : Calm P) (cs : CipherSuite) (ctx : GroupContext) (a b : Bytes) :
    Returns (ctx.extract_joiner_secret P a b) ∧ Returns (ctx.extract_epoch_secret P a b) ∧
    Returns (extract_welcome_secret P cs a b) ∧ Returns (P.derive_secret cs a b) ∧
    (∀ ids psks, Returns (extract_psk_secret P cs ids psks)) ∧
    (∀ w : Welcome, Returns (w.decrypt_group_secrets P a b) ∧ Returns (w.decrypt_group_info P a b)) ∧
    (∀ m : PrivateMessage, Returns (m.decrypt_sender_data P cs a)) :=
  ⟨hP.extract_joiner_secret ctx a b, hP.extract_epoch_secret ctx a b, hP.extract_welcome_secret cs a b,
    hP.derive_secret cs a b, hP.extract_psk_secret cs, fun w => ⟨hP.decrypt_group_secrets w a b, hP.decrypt_group_info w a b⟩,
    fun m => hP.decrypt_sender_data cs m a⟩

/-- C84, what is true of the content of a private message: opening it panics only where reading the plaintext does
(C04).  Missing: that reading does not. -/
theorem C84_content_partial (P : CryptoProvider) (hP : Calm P) (cs : CipherSuite) (m : PrivateMessage) (s : RatchetSecret)
    (guard : Bytes)
    (hr : ∀ h key nonce aad plain, P.hpke cs = .ok h → h.aead_open key nonce m.ciphertext aad = .ok plain →
      Returns (PrivateMessageContent.deserialize m.content_type plain)) :
    Returns (m.decrypt_content P cs s guard) := hP.decrypt_content cs m s guard hr

theorem toy_calm : Calm toyProvider where
  hash _ := returns_ok _
  hpke _ := returns_ok _
  signature _ := returns_ok _
  expand _ _ hh _ _ _ := by cases hh; exact returns_ok _
  extract _ _ hh _ _ := by cases hh; exact returns_ok _
  expand_size _ _ hh _ _ _ _ ho := by cases hh; cases ho; exact List.length_replicate
  sizes _ _ hh := by cases hh; decide
  aead_open _ _ hh _ _ _ _ _ _ := by
    cases hh
    show Returns (if _ then _ else _)
    split
    · exact returns_ok _
    · exact returns_err _
  verify _ _ hs _ _ _ := by
    cases hs
    show Returns (if _ then _ else _)
    split
    · exact returns_ok _
    · exact returns_err _
  hpke_open _ _ _ _ _ := by
    show Returns (if _ then _ else _)
    split
    · exact returns_ok _
    · exact returns_err _

/-- The example libraries never panic either. -/
example : Calm (RustCryptoProvider toyPrimitives) := C84_providers toyPrimitives _ (.inl rfl) (fun _ _ _ _ _ => by
  show Returns (if _ then _ else _)
  split
  · exact returns_ok _
  · exact returns_err _) (fun _ _ _ _ => List.length_replicate)

/-- A message whose plaintext is the proposal to add the key package of `C05_refuted`, which ends too early. -/
def shortMessage : PrivateMessage where
  group_id := []
  epoch := 0
  content_type := .Proposal
  authenticated_data := []
  encrypted_sender_data := []
  ciphertext := List.replicate 28 5 ++ (privateContentAAD ⟨[], 0, .Proposal, []⟩).bytes ++
    ([0, 1] ++ truncatedKeyPackage.drop 4)

set_option maxRecDepth 100000 in
/-- C84 is false for the content of a private message: whoever knows the keys of the epoch can make the others panic. -/
theorem C84_content_refuted : ∃ (P : CryptoProvider) (cs : CipherSuite) (m : PrivateMessage) (s : RatchetSecret),
    Calm P ∧ m.decrypt_content P cs s [] = .fault .panic :=
  ⟨toyProvider, .MLS_128_DHKEMX25519_AES128GCM_SHA256_Ed25519, shortMessage, ⟨[5], 0⟩, toy_calm, by decide +kernel⟩

/-! ### Trees -/

/-- C84, what is true of a received tree: checking it returns if it has a node and lists as unmerged only leaves of the
perfect tree over its leaves. -/
theorem C84_tree_partial (P : CryptoProvider) (hP : Calm P) (t : RatchetTree) (ctx : GroupContext) (now : Int)
    (h0 : t ≠ []) (hl : t.length < 2 ^ 32) (K : Nat) (hK : IsHeight ((t.length + 1) / 2) K) (hu : UnmergedInside t K) :
    Returns (t.verify_integrity P ctx now) := by
  have h0' : 0 < t.length := List.length_pos_iff.2 h0
  obtain ⟨n0, n1, n2⟩ := num_leaves_bounds h0' hl
  have hn : t.num_leaves = (t.length + 1) / 2 := by omega
  have hh : NumLeaves.height t.num_leaves = K := isHeight_unique (isHeight_height n0) (hn ▸ hK)
  exact RatchetTree.returns_verify_integrity hP ctx now h0' hl (hh ▸ hu)

/-- C84 is false of trees: one that is read from the wire without nodes, and one that lists a leaf outside of the tree,
make the check panic. -/
theorem C84_tree_refuted : ∃ (P : CryptoProvider), Calm P ∧
    (∃ (t : RatchetTree) (ctx : GroupContext), deserialize_exact RatchetTree.deserialize [0] = .ok t ∧ t.verify_integrity P ctx 0 = .fault .panic) ∧
    ∃ (t : RatchetTree) (ctx : GroupContext), t ≠ [] ∧ t.verify_integrity P ctx 0 = .fault .panic := by
  refine ⟨toyProvider, toy_calm, ⟨[], toyContext, ?_, ?_⟩, ?_⟩
  · decide +kernel
  · decide +kernel
  · refine ⟨endlessTree, contextOf endlessTree, ?_, ?_⟩
    · exact List.cons_ne_nil _ _
    · set_option maxRecDepth 100000 in decide +kernel

/-- The tree that was accepted lists only leaves that exist. -/
theorem accepted_small {P : CryptoProvider} {t : RatchetTree} {ctx : GroupContext} {now : Int} {Hs : Hash}
    (hH : P.hash ctx.cipher_suite = .ok Hs) (h0 : 0 < t.length) (hl : t.length < 2 ^ 32)
    (h : t.verify_integrity P ctx now = .ok ()) : t.SmallUnmerged := by
  obtain ⟨n0, n1, n2⟩ := num_leaves_bounds h0 hl
  have hn : t.num_leaves = (t.length + 1) / 2 := by omega
  have hv := C19_sound P t ctx now Hs hH h0 hl _ (hn ▸ isHeight_height n0) h
  intro x p hx u hu
  obtain ⟨k, i, rfl⟩ := node_surj x
  have h1 := RatchetTree.lt_of_get hx
  obtain ⟨_, b⟩ := pos_bound (k := k) (i := i) (by omega)
  exact below_small b (hv.unmerged k i p hx u hu).below

/-- C84: on a tree that was accepted, what a commit by one of its members may ask for returns: looking up members, their
keys and credentials, the hash, replacing or removing a member, adding one while there is room for it, and merging
whatever path. -/
theorem C84_accepted (P : CryptoProvider) (hP : Calm P) (t : RatchetTree) (ctx : GroupContext) (now : Int) (Hs : Hash)
    (hH : P.hash ctx.cipher_suite = .ok Hs) (h0 : t ≠ []) (hl : t.length < 2 ^ 32)
    (h : t.verify_integrity P ctx now = .ok ()) :
    Returns t.keys ∧ Returns t.supported_creds ∧ (∀ l, Returns (t.find_leaf l)) ∧
    (∀ cs, Returns (t.compute_root_tree_hash P cs)) ∧
    (∀ j, j < 2 ^ 31 → Returns (t.get_leaf j)) ∧ (t.length < 2 ^ 31 → ∀ l, Returns (t.add l)) ∧
    ∀ j, 2 * j < t.length → (∀ l, Returns (t.update j l)) ∧ Returns (t.remove j) ∧
      Returns (t.filtered_direct_path (2 * j)) ∧ ∀ cs path, Returns (t.merge_update_path P cs j path).2 := by
  have h0' : 0 < t.length := List.length_pos_iff.2 h0
  obtain ⟨n0, n1, n2⟩ := num_leaves_bounds h0' hl
  have hs := accepted_small hH h0' hl h
  have hK := isHeight_height n0
  refine ⟨RatchetTree.returns_keys hl, RatchetTree.returns_supported_creds hl,
    fun l => RatchetTree.returns_findLeafLoop t l _ (RatchetTree.leaves_small hl),
    fun cs => RatchetTree.returns_compute_root_tree_hash hP cs h0' hl, fun j hj => RatchetTree.returns_get_leaf t hj,
    fun h31 l => RatchetTree.returns_add h0' h31 l, ?_⟩
  intro j hj
  have hjK : j < 2 ^ NumLeaves.height t.num_leaves := by have := hK.1; omega
  refine ⟨fun l => ?_, ?_, ?_, fun cs path => RatchetTree.returns_merge_update_path hP cs path h0' hl hK hjK hs⟩
  · obtain ⟨t', e, _⟩ := RatchetTree.update_in (leaf := l) h0' hl hK hjK
    rw [e]; exact returns_ok _
  · obtain ⟨t', _, e, _⟩ := RatchetTree.remove_get h0' hl hK hjK
    rw [e]; exact returns_ok _
  · rw [← node_zero, RatchetTree.filtered_direct_path_eq h0' hl hK hjK hs]
    exact returns_ok _

/-- C84, what is true of commits: one whose proposals pass the check, by a member, that updates and removes only members,
is applied, whatever the tree; the new members must not make it too large for an index.  Missing: updates and removes of
others. -/
theorem C84_commit_partial (t : RatchetTree) (ps : List Proposal) (ss : List LeafIndex) (c : LeafIndex)
    (hl : 2 * t.length + 4 * (addsOf ps).length + 3 < 2 ^ 31) (hv : verify_proposal_list ps ss c = .ok ())
    (hc : t.get (2 * c.toNat) ≠ none) (hu : ∀ u ∈ updatesOf (ps.zip ss), t.get (2 * u.1) ≠ none)
    (hr : ∀ r ∈ removesOf ps, t.get (2 * r) ≠ none) : ∃ t', t.apply ps ss = .ok t' := by
  obtain ⟨hlen, hval, _⟩ := (C26_exact ps ss c).1 hv
  have hcl := RatchetTree.get_ne_none_lt hc
  have hnd : (((ps.zip ss).filterMap touchedLeaf).map UInt32.toNat).Nodup := by
    rw [List.nodup_iff_pairwise_ne, List.pairwise_map]
    exact hval.leaves.imp fun hne he => hne (UInt32.toNat_inj.1 he)
  have hcn : c.toNat ∉ ((ps.zip ss).filterMap touchedLeaf).map UInt32.toNat := by
    rw [List.mem_map]
    rintro ⟨d, hd, he⟩
    exact hval.committer (UInt32.toNat_inj.1 he ▸ hd)
  rw [C28_apply t ps ss (by omega)]
  obtain ⟨t1, e1, l1, g1⟩ := RatchetTree.updates_ok _ t (by omega) (by omega) hu
  obtain ⟨t2, e2, l2, g2⟩ := RatchetTree.removes_ok (removesOf ps) t1 (by omega) ((removes_sub ps ss hlen).nodup hnd)
    fun r hrm hn => hr r hrm ((g1 r).1 hn)
  have hc2 : t2.get (2 * c.toNat) ≠ none := by
    rw [g2, if_neg fun h => hcn ((removes_sub ps ss hlen).subset h)]
    exact fun hn => hc ((g1 _).1 hn)
  have hc2l := RatchetTree.get_ne_none_lt hc2
  obtain ⟨t3, e3⟩ := RatchetTree.adds_ok (addsOf ps) t2 (List.range t.num_leaves) (by omega) (by omega) (fun i hi => by
    have hi2 := RatchetTree.get_ne_none_lt hi
    have := (num_leaves_bounds (t := t) (by omega) (by omega)).2.2
    rw [List.mem_range]; omega) (by
    have := (num_leaves_bounds (t := t) (by omega) (by omega)).2.2
    rw [List.length_range]; omega)
  exact ⟨t3, by rw [e1]; exact (by rw [Res.ok_bind, e2]; exact e3)⟩

set_option maxRecDepth 100000 in
/-- C84 is false of commits: one that passes the check of its proposals, on a tree that was accepted, makes `apply`
panic. -/
theorem C84_commit_refuted : ∃ (P : CryptoProvider) (t : RatchetTree) (ctx : GroupContext) (ps : List Proposal)
    (ss : List LeafIndex) (c : LeafIndex), Calm P ∧ t.verify_integrity P ctx 0 = .ok () ∧ (∃ l, t.get_leaf c.toNat = .ok (some l)) ∧
    verify_proposal_list ps ss c = .ok () ∧ t.apply ps ss = .fault .panic :=
  ⟨toyProvider, goodTree, contextOf goodTree, [.Remove ⟨4⟩], [0], 0, toy_calm, by decide +kernel,
    ⟨_, rfl⟩, by decide +kernel, by decide +kernel⟩

section examples

set_option maxRecDepth 100000 in
/-- A commit that updates, removes and adds. -/
example : ∃ ps ss c, ps.length = 3 ∧ 2 * goodTree.length + 4 * (addsOf ps).length + 3 < 2 ^ 31 ∧
    verify_proposal_list ps ss c = .ok () ∧ goodTree.get (2 * c.toNat) ≠ none ∧
    (∀ u ∈ updatesOf (ps.zip ss), goodTree.get (2 * u.1) ≠ none) ∧ ∀ r ∈ removesOf ps, goodTree.get (2 * r) ≠ none :=
  ⟨[.Update ⟨signedLeaf 5 .Update⟩, .Remove ⟨2⟩, 
      .Add ⟨⟨⟨.MLS10, .MLS_128_DHKEMX25519_AES128GCM_SHA256_Ed25519, [7], toyLeaf 7, []⟩, []⟩⟩], [1, 0, 0], 0, by decide +kernel⟩


/-- The hypotheses can be met: a tree with an unmerged leaf. -/
example : UnmergedInside goodTree 2 ∧ goodTree ≠ [] ∧ IsHeight ((goodTree.length + 1) / 2) 2 := by
  refine ⟨?_, List.cons_ne_nil _ _, goodTree_height⟩
  intro x p hx u hu
  have hlt : x < goodTree.length := by
    rcases Nat.lt_or_ge x goodTree.length with h | h
    · exact h
    · rw [List.getElem?_eq_none h] at hx; cases hx
  have : ∀ x, x < goodTree.length → ∀ p, goodTree[x]?.join = some (.Parent p) → ∀ u ∈ p.unmerged_leaves, u.toNat < 2 ^ 2 := by
    intro x hx p hp
    have hx : x < 7 := hx
    match x, hx with
    | 0, _ => cases hp
    | 1, _ => cases hp; decide
    | 2, _ => cases hp
    | 3, _ => cases hp; decide
    | 4, _ => cases hp
    | 5, _ => cases hp
    | 6, _ => cases hp
  exact this x hlt p hx u hu

set_option maxRecDepth 100000 in
example : goodTree.verify_integrity toyProvider (contextOf goodTree) 0 = .ok () := by decide +kernel

end examples
end Rmls
