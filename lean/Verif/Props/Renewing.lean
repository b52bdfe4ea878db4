import Verif.Spec.Renewing
import Verif.Props.ClientPath
import Verif.Props.Passive
import Verif.Props.Invite
import Verif.Props.Knowledge
/-
Property C122: a member who is not alone can renew their keys, whatever the group has been through.
-/
namespace Rmls
open Spec Spec.Enc MessageProtection PassiveClient RatchetTree

/-! ### sizes -/

private theorem body_le (b : Bytes) : b.length ≤ (opq b).bytes.length := by
  simp only [opq, Enc.bytes, List.length_append]
  omega

private theorem opq_le (b : Bytes) : (opq b).bytes.length ≤ b.length + 4 := by
  simp only [opq, Enc.bytes, List.length_append]
  have : ((header b.length).getD []).length ≤ 4 := by
    unfold header
    split
    · exact show 1 ≤ 4 by decide
    · split
      · exact show 2 ≤ 4 by decide
      · split
        · exact show 4 ≤ 4 by decide
        · exact show 0 ≤ 4 by decide
  omega

/-- There is room for a parent hash and a signature. -/
theorem renewal_sendable {ctx : GroupContext} {c : LeafIndex} {ad : Bytes} {ps : List Proposal} {l : LeafNode}
    {key : Bytes} {nodes : List UpdatePathNode} (h : Renewable ctx c ad ps l key nodes) {out sig : Bytes}
    (ho : out.length ≤ 256) (hg : sig.length ≤ 256) :
    Sendable .PublicMessage (renewal ctx c ad ps l key nodes out sig) ctx ∧
    (leafNodeTBS (renewedLeaf l key out sig).payload ctx.group_id c).fits ∧
    (leafNodeTBS (renewedLeaf l key out sig).payload ctx.group_id c).bytes.length < 2 ^ 30 := by
  obtain ⟨hf, hl⟩ := h
  obtain ⟨f1, f2, ⟨f3, f4, f5, f6, f7, f8, f9, ⟨⟨f10, f11, f12, f13, ⟨f14, _⟩, f15⟩, _⟩, f16⟩, f17⟩ := hf
  have o1 := opq_le out
  have o2 := opq_le sig
  simp only [renewal, renewedLeaf, framedContentTBS, framedContent, content, commit, Enc.optional, updatePath, leafNode,
    leafNodePayload, leafNodeSource, struct, Enc.bytes, List.length_append] at hl
  refine ⟨⟨⟨f1, f2, ⟨f3, f4, f5, f6, f7, f8, f9, ⟨⟨f10, f11, f12, f13, ⟨f14, trivial, ?_⟩, f15⟩, trivial, ?_⟩, f16⟩, f17⟩, ?_⟩,
    ⟨⟨f10, f11, f12, f13, ⟨f14, trivial, ?_⟩, f15⟩, f3, trivial⟩, ?_⟩
  · show out.length < _; omega
  · show sig.length < _; omega
  · simp only [renewal, renewedLeaf, framedContentTBS, framedContent, content, commit, Enc.optional, updatePath, leafNode,
      leafNodePayload, leafNodeSource, struct, Enc.bytes, List.length_append]
    omega
  · show out.length < _; omega
  · have h4 : (leafIndex c).bytes.length = 4 := rfl
    simp only [renewedLeaf, leafNodeTBS, leafNodePayload, leafNodeSource, struct, Enc.bytes, List.length_append]
    omega

theorem renewal_nodes {ctx : GroupContext} {c : LeafIndex} {ad : Bytes} {ps : List Proposal} {l : LeafNode}
    {key : Bytes} {nodes : List UpdatePathNode} (h : Renewable ctx c ad ps l key nodes) :
    ∀ n ∈ nodes, n.encryption_key.length < 2 ^ 30 := by
  have hf : (nodes.foldr (fun x e => seq (updatePathNode x) e) empty).fits := by
    obtain ⟨⟨_, _, ⟨_, _, _, _, _, _, _, _, hf, _⟩, _⟩, _⟩ := h
    exact hf
  clear h
  intro n hn
  induction nodes with
  | nil => cases hn
  | cons a nodes ih =>
    cases hn with
    | head => exact hf.1.1.2
    | tail _ hn => exact ih hf.2 hn

/-! ### the path -/

/-- Who is not alone has somebody to send secrets of a path to. -/
theorem filtered_ne {t : RatchetTree} {K j i : Nat} (hj : j < 2 ^ K) (hi : i < 2 ^ K) (hne : i ≠ j)
    (ho : t.get (2 * i) ≠ none) : filteredLevels t.get K j ≠ [] := by
  obtain ⟨l, h4, h5, _⟩ := parting hne K (by rw [Nat.div_eq_of_lt hi, Nat.div_eq_of_lt hj])
  have hmem : l + 1 ∈ filteredLevels t.get K j := by
    refine filteredLevels_mem.2 ⟨by omega, by omega, fun hc => ?_⟩
    have := (resolution_empty_iff.1 hc) _ (inSubtree_leaf.2 (below_div.2 h5))
    rw [node_zero] at this
    exact ho this
  exact List.ne_nil_of_mem hmem

/-- What a client knows about the tree it has joined with. -/
private theorem joined_tree {P : CryptoProvider} {cs : CipherSuite} (hcs : cs.WF) {h : Hpke} (hp : P.hpke cs = .ok h)
    (hs : Sizes h) {Hs : Hash} (hP : P.hash cs = .ok Hs) {w : Welcome} (hw : w.cipher_suite = cs) {kp : KeyPackage} (hkw : kp.WF)
    (hkc : kp.payload.cipher_suite = cs) {priv : Bytes} {external : List (Bytes × Bytes)} {given : Option Bytes} {s : State}
    (hn : s.group_secrets.psk_ids.length < 2 ^ 16) (hj : join P cs w kp priv external given = .ok s) :
    ∃ K, s.tree.length + 1 = 2 ^ (K + 1) ∧ s.group_info.group_context.cipher_suite = cs ∧
      EpochSecret h s.group_info.group_context s.group_secrets.joiner_secret s.psk_secret s.epoch_secret ∧
      TreeValid P Hs.digest s.tree.get K (2 ^ K) s.group_info.group_context 0 ∧
      ∀ c n, s.tree.get (2 * c) = some n → MergeInput s.tree K c ∧
        ∀ k ∈ filteredLevels s.tree.get K c, HashDefined Hs.digest s.tree.get (k - 1) (sib c (k - 1)) := by
  obtain ⟨hl, hu⟩ := C68_joined P cs hcs h hp hs Hs hP w hw kp hkw hkc priv external given s hn hj
  rw [C66_exact P cs hcs h hp hs Hs hP w hw kp hkw hkc priv external given s hn] at hj
  obtain ⟨K, hK, hv⟩ := hj.valid
  obtain ⟨raw, rest, _, hr⟩ := hj.tree
  have hsu : s.group_info.group_context.cipher_suite = cs := by rw [hj.suite, hkc]
  have hpos := Nat.two_pow_pos K
  have h2 : 2 ^ (K + 1) = 2 * 2 ^ K := by rw [Nat.pow_succ]; omega
  have hsm := accepted_small (by rw [hsu]; exact hP) (by omega) hl ((verify_read (by rw [hsu]; exact hP) hr 0).2 ⟨K, hK, hv⟩)
  refine ⟨K, hK, hsu, hj.epoch, hv, fun c n hc => ?_⟩
  have hin : MergeInput s.tree K c :=
    ⟨⟨hl, by rw [show (s.tree.length + 1) / 2 = 2 ^ K by omega]; exact pow_isHeight K, lt_of_get hc⟩, hsm⟩
  refine ⟨hin, fun k hk => ?_⟩
  obtain ⟨k1, k2, _⟩ := filteredLevels_mem.1 hk
  exact hashDefined_sub (a := K - (k - 1)) hv.defined (by omega) (sib_top hin.sender (by omega))

/-! ### the commit -/

/-- C122: in every group that somebody has joined, every member who is not alone can renew their keys, with new keys of their
choice: there are a parent hash and a signature for their leaf with which the commit can be sent and is accepted by every client
of the group, and these arrive at the same tree, in which the new keys are.  The commit may have proposals that do not change
the tree. -/
theorem C122_renews (P : CryptoProvider) (cs : CipherSuite) (hcs : cs.WF) (h : Hpke) (hp : P.hpke cs = .ok h) (hs : Sizes h)
    (hT : Expander h) (hmac : HasMac P cs) (Hs : Hash) (hP : P.hash cs = .ok Hs) (hd : ∀ b, (Hs.digest b).length ≤ 256)
    -- the group
    (w : Welcome) (hw : w.cipher_suite = cs) (kp : KeyPackage) (hkw : kp.WF) (hkc : kp.payload.cipher_suite = cs)
    (init_priv : Bytes) (external : List (Bytes × Bytes)) (given : Option Bytes) (s : State)
    (hn : s.group_secrets.psk_ids.length < 2 ^ 16) (hj : join P cs w kp init_priv external given = .ok s)
    -- the member
    (c : LeafIndex) (l : LeafNode) (hc : s.tree.get (2 * c.toNat) = some (.Leaf l)) (hlw : l.WF)
    (hother : ∃ i n, i ≠ c.toNat ∧ s.tree.get (2 * i) = some n) (priv : Bytes)
    (hk : SignaturePair P cs priv l.payload.signature_key) (hsign : CanSign P cs priv)
    -- the commit
    (ps : List Proposal) (hps : ProposalsValid (ps.map fun p => (p, c)) c)
    (hkind : ∀ p ∈ ps, (∃ e, p = .GroupContextExtensions e) ∨ ∃ r, p = .ReInit r) (hpw : ∀ p ∈ ps, p.WF) (ad key : Bytes)
    (nodes : List UpdatePathNode)
    (hkey : ∀ i m, s.tree.get (2 * i) = some (.Leaf m) → m.payload.encryption_key ≠ key ∧
      ∀ n ∈ nodes, m.payload.encryption_key ≠ n.encryption_key)
    (places : List Nat) (hplaces : s.tree.filtered_direct_path (2 * c.toNat) = .ok places) (hlen : nodes.length = places.length)
    (hfit : Renewable s.group_info.group_context c ad ps l key nodes) :
    ∃ K out sig mk m b t', P.derive_secret cs s.epoch_secret SECRET_LABEL_MEMBERSHIP = .ok mk ∧
      sendPublic P cs s.group_info.group_context priv mk (renewal s.group_info.group_context c ad ps l key nodes out sig) = .ok m ∧
      MLSMessage.serialize ⟨.MLS10, .PublicMessage m⟩ = .ok b ∧
      s.tree.length + 1 = 2 ^ (K + 1) ∧ t'.length = s.tree.length ∧
      PathMerged Hs.digest K c.toNat ⟨renewedLeaf l key out sig, nodes⟩ s.tree.get t'.get ∧
      ∀ client : State, client.group_info.group_context = s.group_info.group_context → client.epoch_secret = s.epoch_secret →
        client.tree = s.tree → ∀ rest later, firstEpoch P cs client ((b ++ rest) :: later) = .ok (some (s.tree, t')) := by
  obtain ⟨hl, hu⟩ := C68_joined P cs hcs h hp hs Hs hP w hw kp hkw hkc init_priv external given s hn hj
  obtain ⟨K, hK, hsu, hep, hv, hin⟩ := joined_tree hcs hp hs hP hw hkw hkc hn hj
  obtain ⟨hmi, hdef⟩ := hin _ _ hc
  have hpos := Nat.two_pow_pos K
  have h2 : 2 ^ (K + 1) = 2 * 2 ^ K := by rw [Nat.pow_succ]; omega
  have hd' : ∀ b, (Hs.digest b).length < 2 ^ 30 := fun b => by have := hd b; omega
  -- the path
  obtain ⟨i, n, hic, hi⟩ := hother
  have hi2 : i < 2 ^ K := by have := lt_of_get hi; omega
  have hne := filtered_ne hmi.sender hi2 hic (by rw [hi]; nofun)
  have hpl : places.length = (filteredLevels s.tree.get K c.toNat).length := by
    have := C22_filtered s.tree K c.toNat hmi
    rw [node_zero] at this
    rw [this] at hplaces
    cases hplaces
    rw [List.length_map]
  have hkl : ∀ x ∈ nodes, x.encryption_key.length < 2 ^ 30 := renewal_nodes hfit
  obtain ⟨out, hout⟩ := C22_accepts P cs Hs hP s.tree K c.toNat hmi nodes (hlen.trans hpl)
    (by rintro rfl; exact hne (List.eq_nil_of_length_eq_zero (hpl ▸ hlen.symm))) hdef hd' hkl
  have merged : ∀ sig, ∃ t', s.tree.merge_update_path P cs c.toNat ⟨renewedLeaf l key out sig, nodes⟩ = (t', .ok ()) ∧
      t'.length = s.tree.length ∧ PathMerged Hs.digest K c.toNat ⟨renewedLeaf l key out sig, nodes⟩ s.tree.get t'.get := by
    intro sig
    have hm : s.tree.merge_update_path P cs c.toNat ⟨renewedLeaf l key out sig, nodes⟩ =
      ((s.tree.merge_update_path P cs c.toNat ⟨renewedLeaf l key out sig, nodes⟩).1, .ok ()) :=
      Prod.ext rfl ((hout _).2 rfl)
    exact ⟨_, hm, (C22_exact P cs Hs hP s.tree _ K c.toNat hmi _ hdef hd' hkl).1 hm⟩
  have hol : out.length ≤ 256 := by
    obtain ⟨t', _, _, hpm⟩ := merged []
    obtain ⟨b, q, _, _, he⟩ := hpm.source
    have he : LeafNodeSource.Commit out = _ := he
    cases he
    exact hd _
  -- the leaf
  obtain ⟨sg, hsg, hsigns⟩ := hsign
  obtain ⟨sig, hsig, hsl⟩ := hsigns (labelled (text "LeafNodeTBS")
    (leafNodeTBS (renewedLeaf l key out []).payload s.group_info.group_context.group_id c).bytes).bytes
  obtain ⟨hsend, hf1, hf2⟩ := renewal_sendable hfit hol hsl
  obtain ⟨t', hm, htl, hpm⟩ := merged sig
  have hlv := hv.leaves c.toNat l (by rw [node_zero]; exact hc)
  have hchk : PathChecked P cs s.group_info.group_context s.tree c ⟨renewedLeaf l key out sig, nodes⟩ := by
    refine ⟨⟨out, rfl⟩, ⟨⟨hf1, ⟨⟨trivial, by decide⟩, trivial, hf2⟩, sg, hsg, hk sg _ _ hsg hsig⟩, ?_, nofun, hlv.extensions⟩,
      fun i m hi he => ?_, ?_⟩
    · rw [show (s.tree.length + 1) / 2 = 2 ^ K by omega]; exact hlv.credential
    · exact hu i c.toNat m l hi hc he
    · exact hkey
  -- the message
  obtain ⟨mk, hmk⟩ : ∃ out, P.derive_secret cs s.epoch_secret SECRET_LABEL_MEMBERSHIP = .ok out := by
    obtain ⟨_, x, _, _, _, hx⟩ := hep
    unfold CryptoProvider.derive_secret
    rw [hp, Res.ok_bind]
    obtain ⟨o, ho, _⟩ := SecretTree.expand_total hp hT s.epoch_secret SECRET_LABEL_MEMBERSHIP [] (hT.long _ _ _ hx) (by decide)
      (by decide)
    exact ⟨o, ho⟩
  obtain ⟨m, b, hmsg, hb⟩ := C119_public P cs priv mk ⟨sg, hsg, hsigns⟩ hmac s.group_info.group_context _ hsend
  refine ⟨K, out, sig, mk, m, b, t', hmk, hmsg, hb, hK, htl, hpm, fun client g1 g2 g3 rest later => ?_⟩
  have hcw : (renewal s.group_info.group_context c ad ps l key nodes out sig).WF := by
    refine ⟨fun p hp => ?_, fun p hp => ?_⟩
    · obtain ⟨q, hq, rfl⟩ := List.mem_map.1 hp
      exact hpw q hq
    · cases hp; exact hlw
  obtain ⟨hwf, ⟨rest', hcar⟩, _⟩ := (C80_exact ..).1
    (C80_delivers P cs s.group_info.group_context priv _ mk hk _ hcw m hmsg b rest hb).1
  obtain ⟨msg, hd1, hd2⟩ := (deserialize_message_iff (b ++ rest) .PublicMessage (.PublicMessage m)).2 ⟨⟨hwf, rest', hcar⟩, rfl⟩
  unfold sendPublic at hmsg
  obtain ⟨m0, hm0, hm1⟩ := Res.bind_ok_iff.1 hmsg
  have hcm : handleCommit P cs client m = .ok (s.tree, t') := by
    rw [← g3]
    refine C68_honest_partial P cs h hp hs client (by rw [g3]; exact hl) (by rw [g3]; exact hu) c l (by rw [g3]; exact hc) priv hk mk
      (by rw [g2]; exact ((C32_derived P cs h hp hs s.epoch_secret mk).2.2.2.2.2.1).1 hmk) ps hps hkind
      ⟨renewedLeaf l key out sig, nodes⟩ (by rw [g1, g3]; exact hchk) t' (by rw [g3]; exact hm)
      s.group_info.group_context.group_id ad m0 m (by rw [g1]; exact hm0) (by rw [g1]; exact hm1)
  show (deserialize_message (b ++ rest) .PublicMessage >>= _) = _
  rw [hd1, Res.ok_bind]
  simp only [hd2, hcm]
  rfl

/-- C122, why not if alone: a member who is alone cannot renew their keys.  No commit of theirs with a path is accepted, whatever
the path is. -/
theorem C122_alone (P : CryptoProvider) (cs : CipherSuite) (hcs : cs.WF) (h : Hpke) (hp : P.hpke cs = .ok h) (hs : Sizes h)
    (Hs : Hash) (hP : P.hash cs = .ok Hs) (w : Welcome) (hw : w.cipher_suite = cs) (kp : KeyPackage) (hkw : kp.WF)
    (hkc : kp.payload.cipher_suite = cs) (init_priv : Bytes) (external : List (Bytes × Bytes)) (given : Option Bytes) (s : State)
    (hn : s.group_secrets.psk_ids.length < 2 ^ 16) (hj : join P cs w kp init_priv external given = .ok s) (c : LeafIndex)
    (halone : ∀ x, s.tree.get x ≠ none → x = 2 * c.toNat) (m : PublicMessage) (hm : m.membership_tag ≠ none)
    (ps : List ProposalOrRef) (path : UpdatePath) (hcm : m.content.content = .Commit ⟨ps, some path⟩) (r : RatchetTree × RatchetTree) :
    handleCommit P cs s m ≠ .ok r := by
  intro hc
  obtain ⟨nt, t'⟩ := r
  obtain ⟨hl, hu⟩ := C68_joined P cs hcs h hp hs Hs hP w hw kp hkw hkc init_priv external given s hn hj
  obtain ⟨K, hK, _, _, _, hin⟩ := joined_tree hcs hp hs hP hw hkw hkc hn hj
  obtain ⟨i, ps', path', hchk, _, _, hmerge⟩ := (C68_exact_partial P cs h hp hs s hl hu m hm nt t').1 hc
  obtain ⟨l, hleaf, _⟩ := hchk.signed
  have hleaf : s.tree.get (2 * i.toNat) = some (.Leaf l) := hleaf
  have hic : i.toNat = c.toNat := by have := halone _ (by rw [hleaf]; nofun); omega
  obtain ⟨hmi, _⟩ := hin _ _ hleaf
  have hpath : path' = some path := by
    have := hchk.content.symm.trans hcm
    cases this
    rfl
  have hempty : filteredLevels s.tree.get K i.toNat = [] := by
    refine List.eq_nil_iff_forall_not_mem.2 fun k hk => ?_
    obtain ⟨k1, k2, k3⟩ := filteredLevels_mem.1 hk
    refine k3 (resolution_empty_iff.2 fun x hx => ?_)
    apply Classical.byContradiction
    intro hne
    have := halone x hne
    rw [this, ← hic, ← node_zero] at hx
    have hb := below_div.1 (inSubtree_leaf.1 hx)
    unfold sib siblingPos at hb
    split at hb <;> omega
  obtain ⟨e, he⟩ := C22_alone_fails P cs Hs hP s.tree K i.toNat hmi path hempty
  rw [hmerge path hpath] at he
  cases he

section examples
private abbrev suite1 : CipherSuite := .MLS_128_DHKEMX25519_AES128GCM_SHA256_Ed25519

/-- `boundedPrimitives` with a digest of four bytes. -/
def renewPrimitives : Primitives := { boundedPrimitives with digest := fun _ => sumHash.digest }
private abbrev renewer : CryptoProvider := RustCryptoProvider renewPrimitives

theorem renewPrimitives_lawful : LawfulPrimitives renewPrimitives :=
  ⟨boundedPrimitives_lawful.aead, boundedPrimitives_lawful.leftover, boundedPrimitives_lawful.ed25519,
    boundedPrimitives_lawful.ecdsa⟩
theorem renewPrimitives_sized : SizedPrimitives renewPrimitives :=
  ⟨boundedPrimitives_sized.hkdf, boundedPrimitives_sized.hmac, boundedPrimitives_sized.encrypts, boundedPrimitives_sized.ed25519,
    boundedPrimitives_sized.ecdsa⟩

private def renewInvite : Invitation :=
  { inviteTwo with context := { toyContext with tree_hash := treeHash sumHash.digest inviteTree.get 2 0 } }
private def renewNodes : List UpdatePathNode := [⟨[40], [⟨[1], [2]⟩]⟩, ⟨[41], []⟩]

private theorem renewInvite_fits : renewInvite.Fits where
  context := by decide +kernel
  extensions := by decide +kernel
  info := by decide +kernel
  ids := by decide +kernel
  secrets x hx := by
    simp only [renewInvite, inviteTwo, List.mem_cons, List.not_mem_nil, or_false] at hx
    rcases hx with rfl | rfl <;> decide +kernel
  packages x hx := by
    simp only [renewInvite, inviteTwo, List.mem_cons, List.not_mem_nil, or_false] at hx
    rcases hx with rfl | rfl <;> decide +kernel

private theorem renew_hpkePair (k : Bytes) : HpkePair renewer suite1 k k := by
  intro r i p kem c h
  cases h
  show (if (k ++ i).isPrefixOf (k ++ i ++ p) then _ else _) = _
  rw [if_pos (List.isPrefixOf_iff_prefix.2 (List.prefix_append _ _)), List.drop_left]

private theorem renewLeaf_wf (k : UInt8) (source : LeafNodeSource) : (inviteLeaf k source).WF := toyLeaf_wf k
private theorem renewed_ok (k : UInt8) : (invitePackage k).WF ∧ CanEncrypt renewer suite1 [k] :=
  ⟨⟨trivial, trivial, renewLeaf_wf k _, nofun⟩, fun _ _ _ _ => ⟨_, _, rfl⟩⟩

private theorem renew_fresh : ∀ i m, inviteTree.get (2 * i) = some (.Leaf m) → m.payload.encryption_key ≠ [99] ∧
    ∀ n ∈ renewNodes, m.payload.encryption_key ≠ n.encryption_key := by
  have key : ∀ i, i < 4 → ∀ m, inviteTree.get (2 * i) = some (.Leaf m) →
      m = inviteLeaf 0 .Update ∨ m = inviteLeaf 1 (.KeyPackage ⟨0, 100⟩) ∨ m = inviteLeaf 2 (.KeyPackage ⟨0, 100⟩) := by
    intro i hi m hm
    match i, hi with
    | 0, _ => cases hm; exact .inl rfl
    | 1, _ => cases hm; exact .inr (.inl rfl)
    | 2, _ => cases hm; exact .inr (.inr rfl)
    | 3, _ => cases hm
  intro i m hm
  have hi : i < 4 := by have := lt_of_get hm; simp only [inviteTree, List.length_cons, List.length_nil] at this; omega
  rcases key i hi m hm with rfl | rfl | rfl <;> decide

set_option maxRecDepth 100000 in
/-- The founder of a group of three renews their keys, and changes the extensions of the group. -/
example : ∃ w s K out sig mk m b t', join renewer suite1 w (invitePackage 1) [1] [([1], [5])] none = .ok s ∧
    renewer.derive_secret suite1 s.epoch_secret SECRET_LABEL_MEMBERSHIP = .ok mk ∧
    sendPublic renewer suite1 s.group_info.group_context (List.replicate 32 0) mk
      (renewal s.group_info.group_context 0 [] [.GroupContextExtensions ⟨[]⟩] (inviteLeaf 0 .Update) [99] renewNodes out sig) = .ok m ∧
    MLSMessage.serialize ⟨.MLS10, .PublicMessage m⟩ = .ok b ∧ firstEpoch renewer suite1 s [b] = .ok (some (s.tree, t')) ∧
    PathMerged sumHash.digest K 0 ⟨renewedLeaf (inviteLeaf 0 .Update) [99] out sig, renewNodes⟩ s.tree.get t'.get := by
  obtain ⟨h, sg, kp, hp, hsg, hkp, hz, hX, hS, hm, hsign, hpair, ha⟩ := C119_providers renewPrimitives renewPrimitives_lawful
    renewPrimitives_sized renewer (.inl rfl) suite1 rfl [0]
  have hE := (C48_expander renewPrimitives renewer (.inl rfl) suite1 h hp renewPrimitives_sized.hkdf
    renewPrimitives_sized.hmac).2
  cases hsg
  cases hkp
  have hsize : h.kdf_extract_size = 32 := by cases hp; rfl
  obtain ⟨w, gi, psk, e, hw, _⟩ := C120_invites renewer suite1 trivial (.inl rfl) h hp hz hE hX hS hm renewInvite
    renewInvite_fits rfl (by decide) rfl (by rw [hsize]; decide) (List.replicate 32 0) hsign (by
      intro x hx
      simp only [renewInvite, inviteTwo, List.mem_cons, List.not_mem_nil, or_false] at hx
      rcases hx with rfl | rfl
      · exact ⟨rfl, (renewed_ok 1).2⟩
      · exact ⟨rfl, (renewed_ok 2).2⟩)
  obtain ⟨hgc, _, u, hj, hsame, _⟩ := C120_joins renewer suite1 trivial h hp hz (ha rfl) (Suites.hashWrapper renewPrimitives .SHA256) rfl
    (inviteLeaf 0 .Update) [.add (inviteLeaf 1 (.KeyPackage ⟨0, 100⟩)), .add (inviteLeaf 2 (.KeyPackage ⟨0, 100⟩))] inviteTree
    (.cons ⟨.inr (by decide), rfl⟩ (.inr (by decide)) (.cons ⟨.inr (by decide), rfl⟩ (.inr (by decide)) (.nil _))) (by decide)
    (by
      intro n hn
      simp only [inviteTree, List.mem_cons, Option.some.injEq, List.not_mem_nil, or_false, reduceCtorEq, false_or] at hn
      rcases hn with rfl | rfl | rfl <;> exact renewLeaf_wf _ _) inviteRaw (by decide +kernel) renewInvite rfl ⟨rfl, trivial, nofun⟩
    (by
      intro e he
      simp only [renewInvite, inviteTwo, List.mem_cons, List.not_mem_nil, or_false] at he
      rcases he with rfl | rfl <;> trivial)
    ⟨[⟨.ApplicationId, [1]⟩], [], rfl, by decide⟩ (by decide +kernel) (inviteLeaf 0 .Update) (by decide +kernel)
    (List.replicate 32 0) hpair (by decide) w gi psk e hw [] [⟨invitePackage 2, [7], some [8]⟩] ⟨invitePackage 1, [6], none⟩ rfl nofun
    (renewed_ok 1).1 rfl 1 rfl [1] (renew_hpkePair _) [([1], [5])] (.cons (before := []) (after := []) rfl (by decide) .nil)
  have hu : u = inviteTree := by
    rcases hsame with h | ⟨K, h1, h2⟩
    · exact h.symm
    · have := congrArg List.length h2
      simp only [inviteTree, List.length_cons, List.length_nil, List.length_append] at this
      have : 2 ^ (K + 1) = 2 * 2 ^ K := by rw [Nat.pow_succ]; omega
      omega
  subst hu
  obtain ⟨K, out, sig, mk, m, b, t', g1, g2, g3, _, _, g4, g5⟩ := C122_renews renewer suite1 trivial h hp hz hX hm
    (Suites.hashWrapper renewPrimitives .SHA256) rfl (fun b => by show (sumHash.digest b).length ≤ 256; simp [sumHash]) w
    (by
      unfold invite at hw
      simp only [Res.bind_ok_iff] at hw
      obtain ⟨_, _, _, _, _, _, hw⟩ := hw
      cases hw
      rfl) (invitePackage 1) (renewed_ok 1).1 rfl [1] [([1], [5])] none _ (by show (1 : Nat) < 2 ^ 16; decide) hj 0 (inviteLeaf 0 .Update) rfl
    (renewLeaf_wf 0 _) ⟨1, _, by decide, rfl⟩ (List.replicate 32 0) hpair hsign [.GroupContextExtensions ⟨[]⟩]
    ⟨by decide, by decide, by decide, by decide, by decide, by simp, by simp⟩
    (by simp) (by intro p hp; rw [List.mem_singleton] at hp; subst hp; nofun) [] [99] renewNodes
    renew_fresh [1, 3] (by show inviteTree.filtered_direct_path 0 = _; decide +kernel) rfl (by show Renewable gi.group_context _ _ _ _ _ _; rw [hgc]; constructor <;> decide +kernel)
  exact ⟨w, _, K, out, sig, mk, m, b, t', hj, g1, g2, g3, by
    have := g5 _ rfl rfl rfl [] []
    rw [List.append_nil] at this
    exact this, g4⟩

private abbrev aloneTree : RatchetTree := [some (.Leaf (inviteLeaf 0 (.KeyPackage ⟨0, 100⟩)))]
private def aloneRaw : Bytes :=
  match RatchetTree.serialize aloneTree with
  | .ok b => b
  | _ => []
private def aloneInvite : Invitation where
  context := { toyContext with tree_hash := treeHash sumHash.digest aloneTree.get 0 0 }
  extensions := [⟨.RatchetTree, aloneRaw⟩]
  signer := 0
  joiner_secret := List.replicate 32 4
  psk_ids := []
  psks := []
  invited := [⟨invitePackage 0, [6], none⟩]

private theorem aloneInvite_fits : aloneInvite.Fits where
  context := by decide +kernel
  extensions := by decide +kernel
  info := by decide +kernel
  ids := by decide +kernel
  secrets x hx := by rw [List.mem_singleton.1 hx]; decide +kernel
  packages x hx := by rw [List.mem_singleton.1 hx]; decide +kernel

set_option maxRecDepth 100000 in
/-- Somebody joins a group in which there is nobody else, and cannot renew their keys. -/
example : ∃ w s, join renewer suite1 w (invitePackage 0) [0] [] none = .ok s ∧
    ∀ m ps path, m.membership_tag ≠ none → m.content.content = .Commit ⟨ps, some path⟩ → ∀ r, handleCommit renewer suite1 s m ≠ .ok r := by
  obtain ⟨h, sg, kp, hp, hsg, hkp, hz, hX, hS, hm, hsign, hpair, ha⟩ := C119_providers renewPrimitives renewPrimitives_lawful
    renewPrimitives_sized renewer (.inl rfl) suite1 rfl [0]
  have hE := (C48_expander renewPrimitives renewer (.inl rfl) suite1 h hp renewPrimitives_sized.hkdf
    renewPrimitives_sized.hmac).2
  cases hsg
  cases hkp
  have hsize : h.kdf_extract_size = 32 := by cases hp; rfl
  obtain ⟨w, gi, psk, e, hw, _⟩ := C120_invites renewer suite1 trivial (.inl rfl) h hp hz hE hX hS hm aloneInvite
    aloneInvite_fits rfl (by decide) rfl (by rw [hsize]; decide) (List.replicate 32 0) hsign (by
      intro x hx
      rw [List.mem_singleton.1 hx]
      exact ⟨rfl, (renewed_ok 0).2⟩)
  obtain ⟨hgc, _, u, hj, hsame, _⟩ := C120_joins renewer suite1 trivial h hp hz (ha rfl) (Suites.hashWrapper renewPrimitives .SHA256) rfl
    (inviteLeaf 0 (.KeyPackage ⟨0, 100⟩)) [] aloneTree (.nil _) (by decide)
    (by
      intro n hn
      simp only [List.mem_cons, Option.some.injEq, List.not_mem_nil, or_false] at hn
      subst hn
      exact renewLeaf_wf _ _) aloneRaw (by decide +kernel) aloneInvite rfl ⟨rfl, trivial, nofun⟩
    (by intro e he; rw [List.mem_singleton.1 he]; trivial)
    ⟨[], [], rfl, by decide⟩ (by decide +kernel) (inviteLeaf 0 (.KeyPackage ⟨0, 100⟩)) (by decide +kernel)
    (List.replicate 32 0) hpair (by decide) w gi psk e hw [] [] ⟨invitePackage 0, [6], none⟩ rfl nofun
    (renewed_ok 0).1 rfl 0 rfl [0] (renew_hpkePair _) [] .nil
  have hu : u = aloneTree := by
    rcases hsame with h | ⟨K, h1, h2⟩
    · exact h.symm
    · have := congrArg List.length h2
      simp only [List.length_cons, List.length_nil, List.length_append] at this
      have : 2 ^ (K + 1) = 2 * 2 ^ K := by rw [Nat.pow_succ]; omega
      have := Nat.two_pow_pos K
      omega
  subst hu
  refine ⟨w, _, hj, fun m ps path h1 h2 r => ?_⟩
  exact C122_alone renewer suite1 trivial h hp hz (Suites.hashWrapper renewPrimitives .SHA256) rfl w
    (by
      unfold invite at hw
      simp only [Res.bind_ok_iff] at hw
      obtain ⟨_, _, _, _, _, _, hw⟩ := hw
      cases hw
      rfl) (invitePackage 0) (renewed_ok 0).1 rfl [0] [] none _ (by show (0 : Nat) < 2 ^ 16; decide) hj 0
    (fun x hx => by
      have hx : aloneTree.get x ≠ none := hx
      match x, hx with
      | 0, _ => rfl
      | _ + 1, hx => exact absurd rfl hx) m h1 ps path h2 r

end examples

end Rmls
