import Verif.Spec.Author
import Verif.Props.Public
/-
Property C117: what is accepted in somebody's name they have signed.
-/
namespace Rmls
open Spec Spec.Enc MessageProtection PassiveClient RatchetTree

/-! ### what was signed -/

private theorem keyPackageTBS_pf : PrefixFree keyPackageTBS KeyPackageTBS.WF :=
  KeyPackageTBS.lawful.inj.prefixFree fun _ _ => keyPackageTBS_w _

/-- The kind of a statement. -/
private def kindOf : Statement → Option Kind
  | .leaf .. => some .leafNode
  | .keyPackage _ => some .keyPackage
  | .groupInfo _ => some .groupInfo
  | .content .. => some .framedContent
  | .other .. => none

/-- The statement whose bytes these are has this kind. -/
private theorem same_kind {x : Statement} (hx : x.Sound) (hf : x.signed.fits) {k : Kind} {b : Bytes} (f : (labelled k.label b).fits)
    (h : x.signed.bytes = (labelled k.label b).bytes) : kindOf x = some k := by
  cases x with
  | leaf x g i =>
    have := Classical.byContradiction fun hn => C52_bytes .leafNode k hn _ _ hf f h
    rw [← this]; rfl
  | keyPackage x =>
    have := Classical.byContradiction fun hn => C52_bytes .keyPackage k hn _ _ hf f h
    rw [← this]; rfl
  | groupInfo x =>
    have := Classical.byContradiction fun hn => C52_bytes .groupInfo k hn _ _ hf f h
    rw [← this]; rfl
  | content w c ctx =>
    have := Classical.byContradiction fun hn => C52_bytes .framedContent k hn _ _ hf f h
    rw [← this]; rfl
  | other l c => exact absurd (labelled_inj hf f h).1 (hx k)

/-- Everything the holder of the key has signed has an encoding that the signature covers. -/
def Said (said : List Statement) : Prop := ∀ x ∈ said, x.Sound ∧ x.signed.fits

private theorem said_of {P : CryptoProvider} {cs : CipherSuite} {key sg b : Bytes} {k : Kind} {said : List Statement}
    (h : SignedBy P cs key k.label b sg) (hf : ¬ SignatureForged P cs key said) (hs : Said said) :
    ∃ x ∈ said, kindOf x = some k ∧ x.signed.bytes = (labelled k.label b).bytes := by
  obtain ⟨f, s, h1, h2⟩ := h
  have : ∃ x ∈ said, x.signed.bytes = (labelled k.label b).bytes :=
    Classical.byContradiction fun hn => hf ⟨s, _, sg, h1, h2, fun x hx e => hn ⟨x, hx, e⟩⟩
  obtain ⟨x, hx, e⟩ := this
  exact ⟨x, hx, same_kind (hs x hx).1 (hs x hx).2 f e, e⟩

/-- C117: a leaf whose signature is accepted at a position of a group was signed by the holder of its signature key, exactly as
it is; and unless it comes from a key package, for this position of this group. -/
theorem C117_leaf (P : CryptoProvider) (cs : CipherSuite) (x : LeafNode) (hx : x.WF) (g : Bytes) (i : LeafIndex)
    (said : List Statement) (hs : Said said) (h : x.verify_signature P cs (.UpdateOrCommit g i) = .ok true) :
    (∃ g' i', .leaf x.payload g' i' ∈ said ∧ ((∃ lt, x.payload.leaf_node_source = .KeyPackage lt) ∨ (g' = g ∧ i' = i))) ∨
      SignatureForged P cs x.payload.signature_key said := by
  by_cases hf : SignatureForged P cs x.payload.signature_key said
  · exact .inr hf
  obtain ⟨h1, h2⟩ := (C31_verifies P cs x g i).1 h
  obtain ⟨y, hy, hk, e⟩ := said_of (k := .leafNode) h2 hf hs
  cases y with
  | leaf p g' i' =>
    obtain ⟨⟨hp, hp'⟩, hp2⟩ := hs _ hy
    obtain ⟨rfl, hc⟩ := C31_binding p x.payload g' g i' i hp hx hp' h1 (labelled_inj hp2 h2.1 e).2
    exact .inl ⟨g', i', hy, hc⟩
  | _ => cases hk

/-- C117: a key package that is accepted was signed by the holder of its leaf's signature key, exactly as it is. -/
theorem C117_key_package (P : CryptoProvider) (x : KeyPackage) (hx : x.WF) (said : List Statement) (hs : Said said)
    (h : x.verify_signature P = .ok ()) :
    .keyPackage x.payload ∈ said ∨
      SignatureForged P x.payload.cipher_suite x.payload.leaf_node.payload.signature_key said := by
  by_cases hf : SignatureForged P x.payload.cipher_suite x.payload.leaf_node.payload.signature_key said
  · exact .inr hf
  obtain ⟨h1, h2⟩ := (KeyPackage.verify_signature_iff P x).1 h
  obtain ⟨y, hy, hk, e⟩ := said_of (k := .keyPackage) h2 hf hs
  cases y with
  | keyPackage p =>
    obtain ⟨⟨hp, hp'⟩, hp2⟩ := hs _ hy
    cases keyPackageTBS_pf.eq hp hx hp' h1 (labelled_inj hp2 h2.1 e).2
    exact .inl hy
  | _ => cases hk

/-- C117: a group info that is accepted was signed by the holder of the key, with the same context, extensions, confirmation tag
and signer. -/
theorem C117_group_info (P : CryptoProvider) (key : Bytes) (x : GroupInfo)
    (hx : ContextCanonical x.group_context ∧ Extensions.WF x.extensions) (said : List Statement) (hs : Said said)
    (h : x.verify_signature P key = .ok ()) :
    (∃ sg, .groupInfo { x with signature := sg } ∈ said) ∨ SignatureForged P x.group_context.cipher_suite key said := by
  by_cases hf : SignatureForged P x.group_context.cipher_suite key said
  · exact .inr hf
  obtain ⟨h1, h2⟩ := (C50_verify P x key).1 h
  obtain ⟨y, hy, hk, e⟩ := said_of (k := .groupInfo) h2 hf hs
  cases y with
  | groupInfo p =>
    obtain ⟨⟨hp, hp', hp1⟩, hp2⟩ := hs _ hy
    obtain ⟨a1, a2, a3, a4⟩ := C50_binding p x ⟨hp, hp'⟩ hx hp1 h1 (labelled_inj hp2 h2.1 e).2
    refine .inl ⟨p.signature, ?_⟩
    rw [← a1, ← a2, ← a3, ← a4]
    exact hy
  | _ => cases hk

/-- C117: a message whose signature is accepted was signed by the holder of the key: this content, by this sender, in this group
and epoch, with this authenticated data, for this wire format; and if the sender is a member or joins with it, in this state of
the group. -/
theorem C117_message (P : CryptoProvider) (cs : CipherSuite) (key : Bytes) (x : AuthenticatedContent) (hx : x.content.WF)
    (ctx : GroupContext) (hc : ContextCanonical ctx) (said : List Statement) (hs : Said said)
    (h : x.verify_signature P cs key ctx = .ok ()) :
    (∃ ctx', .content x.wire_format x.content ctx' ∈ said ∧
      (((∃ i, x.content.sender = .Member i) ∨ x.content.sender = .NewMemberCommit) → ctx' = ctx)) ∨
      SignatureForged P cs key said := by
  by_cases hf : SignatureForged P cs key said
  · exact .inr hf
  obtain ⟨h1, h2⟩ := (C30_verify P cs x key ctx).1 h
  obtain ⟨y, hy, hk, e⟩ := said_of (k := .framedContent) h2 hf hs
  cases y with
  | content w c ctx' =>
    obtain ⟨⟨hp, hp', hp1⟩, hp2⟩ := hs _ hy
    obtain ⟨_, rfl, a1, a2, a3, a4, a5, a6⟩ := C30_binding .MLS10 .MLS10 w x.wire_format c x.content ctx' ctx trivial trivial hp hx hp' hc
      hp1 h1 (labelled_inj hp2 h2.1 e).2
    have ec : c = x.content := by
      cases hcx : x.content
      rw [hcx] at a1 a2 a3 a4 a5
      cases c
      simp only at a1 a2 a3 a4 a5
      rw [a1, a2, a3, a4, a5]
    subst ec
    exact .inl ⟨ctx', hy, a6⟩
  | _ => cases hk

/-! ### the receivers -/

/-- C117: the holder of the key under which a private message is accepted has signed what it says, as a private message of the
member whom the sender data names, in this state of the group. -/
theorem C117_private (P : CryptoProvider) (cs : CipherSuite) (h : Hpke) (hp : P.hpke cs = .ok h) (hs : Sizes h)
    (K : Nat) (hK : K ≤ 31) (es sds : Bytes) (li : Nat) (hli : li < 2 ^ K)
    (pub : Bytes) (ctx : GroupContext) (hc : ContextCanonical ctx) (raw : Bytes) (sd : SenderData) (ac : AuthenticatedContent)
    (said : List Statement) (hsaid : Said said) (hr : receive P cs ctx (2 ^ K) es sds li pub raw = .ok (sd, ac)) :
    (.content .PrivateMessage ac.content ctx ∈ said ∧ ac.content.sender = .Member sd.leaf_index) ∨
      SignatureForged P cs pub said := by
  obtain ⟨m, rest, s, pc, _, rfl, _, _, ⟨hw, _⟩, hsg, rfl⟩ :=
    C71_accepted P cs h hp hs K hK es sds li hli pub ctx raw sd ac hr
  rcases C117_message P cs pub ⟨.PrivateMessage, contentOf m sd pc, pc.auth⟩ hw.1 ctx hc said hsaid
    ((C30_verify ..).2 hsg) with ⟨ctx', h1, h2⟩ | h1
  · cases h2 (.inl ⟨sd.leaf_index, rfl⟩)
    exact .inl ⟨h1, rfl⟩
  · exact .inr h1

/-- C117: the same of a public message; of the state of the group only if the sender is a member or joins with it. -/
theorem C117_public (P : CryptoProvider) (cs : CipherSuite) (ctx : GroupContext) (hc : ContextCanonical ctx) (pub mkey raw : Bytes)
    (m : PublicMessage) (said : List Statement) (hsaid : Said said) (hr : receivePublic P cs ctx pub mkey raw = .ok m) :
    (∃ ctx', .content .PublicMessage m.content ctx' ∈ said ∧ (Spec.Sender.Outside m.content.sender ∨ ctx' = ctx)) ∨
      SignatureForged P cs pub said := by
  obtain ⟨hw, _, ha⟩ := (C80_exact P cs ctx pub mkey raw m).1 hr
  rcases C117_message P cs pub ⟨.PublicMessage, m.content, m.auth⟩ hw.1 ctx hc said hsaid
    ((C30_verify ..).2 ha.signed) with ⟨ctx', h1, h2⟩ | h1
  · refine .inl ⟨ctx', h1, ?_⟩
    cases hx : m.content.sender with
    | Member i => exact .inr (h2 (.inl ⟨i, hx⟩))
    | NewMemberCommit => exact .inr (h2 (.inr hx))
    | External i => exact .inl (.inl ⟨i, rfl⟩)
    | NewMemberProposal => exact .inl (.inr rfl)
  · exact .inr h1

/-- C117: a commit that the client accepts was signed, as it is and in the client's state, by the holder of the signature key
of the leaf of the member whom it names, and the leaf that it puts there, for this place, by the holder of that leaf's key. -/
theorem C117_commit (P : CryptoProvider) (cs : CipherSuite) (h : Hpke) (hp : P.hpke cs = .ok h) (hs : Sizes h) (s : State)
    (hc : ContextCanonical s.group_info.group_context) (hl : s.tree.length < 2 ^ 32)
    (hd : ∀ i j l m, s.tree.get (2 * i) = some (.Leaf l) → s.tree.get (2 * j) = some (.Leaf m) →
      l.payload.signature_key = m.payload.signature_key → i = j)
    (m : PublicMessage) (hw : m.content.WF) (hm : m.membership_tag ≠ none) (nt t' : RatchetTree) (said : Bytes → List Statement)
    (hsaid : ∀ k, Said (said k)) (hr : handleCommit P cs s m = .ok (nt, t')) :
    ∃ c l ps path, m.content.sender = .Member c ∧ m.content.content = .Commit ⟨ps, path⟩ ∧
      s.tree.get (2 * c.toNat) = some (.Leaf l) ∧
      (.content .PublicMessage m.content s.group_info.group_context ∈ said l.payload.signature_key ∨
        SignatureForged P cs l.payload.signature_key (said l.payload.signature_key)) ∧
      ∀ p, path = some p →
        .leaf p.leaf_node.payload s.group_info.group_context.group_id c ∈ said p.leaf_node.payload.signature_key ∨
        SignatureForged P cs p.leaf_node.payload.signature_key (said p.leaf_node.payload.signature_key) := by
  obtain ⟨c, ps, path, hk, _, _, _⟩ := (C68_exact_partial P cs h hp hs s hl hd m hm nt t').1 hr
  obtain ⟨l, h1, h2⟩ := hk.signed
  refine ⟨c, l, _, path, hk.sender, hk.content, h1, ?_, ?_⟩
  · rcases C117_message P cs l.payload.signature_key ⟨.PublicMessage, m.content, m.auth⟩ hw _ hc _ (hsaid _)
      ((C30_verify ..).2 h2) with ⟨ctx', h1, h2⟩ | h1
    · cases h2 (.inl ⟨c, hk.sender⟩)
      exact .inl h1
    · exact .inr h1
  · rintro p rfl
    have hpw : p.leaf_node.WF := by
      have h3 : m.content.content.WF := hw
      rw [hk.content] at h3
      exact h3.2 p rfl
    rcases C117_leaf P cs p.leaf_node hpw s.group_info.group_context.group_id c _ (hsaid _)
      ((C31_verifies ..).2 (hk.path p rfl).valid.signed) with ⟨g, i, h1, h2⟩ | h1
    · obtain ⟨x, hx⟩ := (hk.path p rfl).source
      rcases h2 with ⟨lt, h2⟩ | ⟨rfl, rfl⟩
      · rw [hx] at h2; cases h2
      · exact .inl h1
    · exact .inr h1

/-- C117: who joins a group with a welcome has a group info that a member has signed, whose leaf is in the tree, and a tree in
which every leaf was signed by the holder of its signature key, and unless it comes from a key package, for its place in this
group. -/
theorem C117_join (P : CryptoProvider) (cs : CipherSuite) (hcs : cs.WF) (h : Hpke) (hp : P.hpke cs = .ok h)
    (hs : Sizes h) (Hs : Hash) (hP : P.hash cs = .ok Hs) (w : Welcome) (hw : w.cipher_suite = cs) (kp : KeyPackage)
    (hkw : kp.WF) (hkc : kp.payload.cipher_suite = cs) (priv : Bytes) (external : List (Bytes × Bytes))
    (given : Option Bytes) (s : State) (hn : s.group_secrets.psk_ids.length < 2 ^ 16) (said : Bytes → List Statement)
    (hsaid : ∀ k, Said (said k)) (hj : join P cs w kp priv external given = .ok s) :
    (∃ l, s.tree.get (2 * s.group_info.signer.toNat) = some (.Leaf l) ∧
      ((∃ sg, .groupInfo { s.group_info with signature := sg } ∈ said l.payload.signature_key) ∨
        SignatureForged P cs l.payload.signature_key (said l.payload.signature_key))) ∧
    ∀ i l, s.tree.get (2 * i) = some (.Leaf l) →
      (∃ g' i', .leaf l.payload g' i' ∈ said l.payload.signature_key ∧ ((∃ lt, l.payload.leaf_node_source = .KeyPackage lt) ∨
        (g' = s.group_info.group_context.group_id ∧ i' = UInt32.ofNat i))) ∨
      SignatureForged P cs l.payload.signature_key (said l.payload.signature_key) := by
  have hJ := (C66_exact P cs hcs h hp hs Hs hP w hw kp hkw hkc priv external given s hn).1 hj
  have hg : s.group_info.group_context.cipher_suite = cs := hJ.suite.trans hkc
  constructor
  · obtain ⟨l, h1, h2⟩ := hJ.signer
    have hwf := hJ.info.1
    rcases C117_group_info P l.payload.signature_key s.group_info
      ⟨⟨by rw [hwf.1.1]; trivial, hwf.1.2.1, hwf.1.2.2⟩, hwf.2⟩ _ (hsaid _) ((C50_verify ..).2 h2) with h3 | h3
    · exact ⟨l, h1, .inl h3⟩
    · rw [hg] at h3; exact ⟨l, h1, .inr h3⟩
  · intro i l hl
    obtain ⟨K, _, hv⟩ := hJ.valid
    obtain ⟨raw, rest, _, ht⟩ := hJ.tree
    have hlw : l.WF := by
      refine (C09_read_full _ _ _ ht).2 (.Leaf l) ?_
      have hl : s.tree[2 * i]?.join = some (.Leaf l) := hl
      cases hx : s.tree[2 * i]? with
      | none => rw [hx] at hl; cases hl
      | some y => rw [hx] at hl; cases hl; exact List.mem_of_getElem? hx
    have h1 := (hv.leaves i l (by rw [show node 0 i = 2 * i by unfold node; omega]; exact hl)).signed
    rw [hg] at h1
    exact C117_leaf P cs l hlw _ _ _ (hsaid _) ((C31_verifies ..).2 h1)

/-! ### the signers -/

/-- The statement is signed with the key. -/
def Signs (P : CryptoProvider) (cs : CipherSuite) (priv : Bytes) (x : Statement) (signature : Bytes) : Prop :=
  x.signed.fits ∧ ∃ s, P.signature cs = .ok s ∧ s.sign priv x.signed.bytes = .ok signature

/-- C117: and the library signs such statements: who sends a message signs its content in the state of the group, and who makes
a key package signs its leaf and then the key package, all in a form that is read back. -/
theorem C117_signs (P : CryptoProvider) (cs : CipherSuite) :
    (∀ priv w c ctx x, c.WF → ContextCanonical ctx → AuthenticatedContent.new P cs priv w c ctx = .ok x →
      (Statement.content w c ctx).Sound ∧ Signs P cs priv (.content w c ctx) x.auth.signature) ∧
    ∀ config ikm0 ikm cred skp lt kpExts caps exts x kp initPriv, config.cipher_suite = cs →
      KeyPackage.new P config ikm0 ikm cred skp lt kpExts caps exts = .ok (x, kp, initPriv) → x.WF →
      (∀ g i, (Statement.leaf x.payload.leaf_node.payload g i).Sound ∧
        Signs P cs skp.public_key (.leaf x.payload.leaf_node.payload g i) x.payload.leaf_node.signature) ∧
      (Statement.keyPackage x.payload).Sound ∧ Signs P cs skp.public_key (.keyPackage x.payload) x.signature := by
  constructor
  · intro priv w c ctx x hc hx h
    obtain ⟨sg, rfl, h1, h2⟩ := (AuthenticatedContent.new_iff P cs priv w c ctx x).1 h
    exact ⟨⟨hc, hx, h1⟩, (sign_with_label_iff ..).1 h2⟩
  · rintro config ikm0 ikm cred skp lt kpExts caps exts x kp initPriv rfl h hw
    obtain ⟨⟨s, h1, _, h2, h3, h4⟩, _, _, _, _, h5⟩ := KeyPackage.new_ok h
    refine ⟨fun g i => ?_, ⟨hw, h2⟩, h3, s, h1, h4⟩
    obtain ⟨_, _, k1, k2, k3⟩ := LeafNode.new_ok g i h5
    exact ⟨⟨hw.2.2.1, k1⟩, k2, k3⟩

section examples
private abbrev suite1 : CipherSuite := .MLS_128_DHKEMX25519_AES128GCM_SHA256_Ed25519

/-- A signature scheme that accepts only what was signed. -/
private def idealSignature (said : Bytes → List Statement) : Signature :=
  { toySignature with
    verify := fun k m s => if s = k ++ m ∧ m ∈ (said k).map (·.signed.bytes) then .ok () else .err .Other }

private def signProvider (said : Bytes → List Statement) : CryptoProvider :=
  { toyProvider with signature := fun _ => .ok (idealSignature said) }

private theorem sign_unforged (said : Bytes → List Statement) (cs : CipherSuite) (k : Bytes) :
    ¬ SignatureForged (signProvider said) cs k (said k) := by
  rintro ⟨s, m, sg, h1, h2, h3⟩
  cases h1
  simp only [idealSignature] at h2
  split at h2
  · next h =>
    obtain ⟨x, hx, e⟩ := List.mem_map.1 h.2
    exact h3 x hx e
  · cases h2

private def theCommit : PublicMessage :=
  commitOf 0 [.GroupContextExtensions ⟨[]⟩] rootPath joinInfo.group_context

private def thePackage : KeyPackageTBS := ⟨.MLS10, suite1, [3], toyLeaf 1, []⟩

/-- What the holders of the keys in `joinTree` have signed, to let the second member join and to commit. -/
private def theSaid (k : Bytes) : List Statement :=
  if k = [0, 0] then
    [.other (text "bar") (text "foo"), .leaf (signedLeaf 0 .Update).payload [7] 0, .groupInfo joinInfo,
      .content .PublicMessage theCommit.content joinInfo.group_context, .leaf rootPath.leaf_node.payload [7] 0]
  else if k = [1, 1] then [.leaf joinLeaf.payload [7] 1, .keyPackage thePackage]
  else [.content .PrivateMessage ⟨[7], 3, .Member 2, [], .Application [42]⟩ toyContext]

private theorem joinContext_canonical : ContextCanonical joinInfo.group_context := ⟨trivial, trivial, nofun⟩

set_option maxRecDepth 100000 in
private theorem theSaid_said (k : Bytes) : Said (theSaid k) := by
  unfold theSaid
  intro x hx
  split at hx
  · simp only [List.mem_cons, List.not_mem_nil, or_false] at hx
    rcases hx with rfl | rfl | rfl | rfl | rfl
    · exact ⟨fun k => by cases k <;> decide, by decide +kernel⟩
    · exact ⟨⟨toyLeaf_wf 0, by decide +kernel⟩, by decide +kernel⟩
    · refine ⟨⟨joinContext_canonical, ?_, by decide +kernel⟩, by decide +kernel⟩
      intro e he
      simp only [joinInfo, List.mem_cons, List.not_mem_nil, or_false] at he
      rcases he with rfl | rfl <;> trivial
    · refine ⟨⟨?_, joinContext_canonical, by decide +kernel⟩, by decide +kernel⟩
      refine ⟨?_, ?_⟩
      · intro p hp
        cases hp with
        | head => exact nofun
        | tail _ hp => cases hp
      · intro p hp
        cases hp
        exact toyLeaf_wf 0
    · exact ⟨⟨toyLeaf_wf 0, by decide +kernel⟩, by decide +kernel⟩
  · split at hx
    · simp only [List.mem_cons, List.not_mem_nil, or_false] at hx
      rcases hx with rfl | rfl
      · exact ⟨⟨toyLeaf_wf 1, by decide +kernel⟩, by decide +kernel⟩
      · exact ⟨⟨⟨trivial, trivial, toyLeaf_wf 1, nofun⟩, by decide +kernel⟩, by decide +kernel⟩
    · simp only [List.mem_cons, List.not_mem_nil, or_false] at hx
      subst hx
      exact ⟨⟨trivial, ⟨trivial, trivial, nofun⟩, by decide +kernel⟩, by decide +kernel⟩

set_option maxRecDepth 100000 in
/-- The second member joins, and then accepts the commit; a private message and a key package are accepted; and no signature is
forged. -/
example : (∀ k, Said (theSaid k)) ∧ (∀ cs k, ¬ SignatureForged (signProvider theSaid) cs k (theSaid k)) ∧
    (join (signProvider theSaid) suite1 joinWelcome joinPackage [3] [([0], [9]), ([1], [5])] none >>= fun s => .ok s.tree) =
      .ok joinTree ∧
    handleCommit (signProvider theSaid) suite1 joinState theCommit = .ok (joinTree, [some (.Leaf rootPath.leaf_node),
      some (.Parent ⟨[41], [], []⟩), some (.Leaf joinLeaf)]) ∧
    (send (signProvider theSaid) suite1 toyContext 4 [5] [6] 2 2 [1, 2, 3, 4] [2, 2] 3 [7] (.Application [42]) >>= fun m =>
      MLSMessage.serialize ⟨.MLS10, .PrivateMessage m⟩ >>= receive (signProvider theSaid) suite1 toyContext 4 [5] [6] 2
        [2, 2]).isOk = .ok true ∧
    (⟨thePackage, [1, 1] ++ (Statement.keyPackage thePackage).signed.bytes⟩ : KeyPackage).verify_signature
      (signProvider theSaid) = .ok () := by
  refine ⟨theSaid_said, fun cs k => sign_unforged _ _ _, by decide +kernel, by decide +kernel, by decide +kernel,
    by decide +kernel⟩

set_option maxRecDepth 100000 in
/-- The same content by the same member is not accepted as a public message. -/
example : (sendPublic (signProvider theSaid) suite1 toyContext [2, 2] [4] ⟨[7], 3, .Member 2, [], .Application [42]⟩ >>= fun m =>
    MLSMessage.serialize ⟨.MLS10, .PublicMessage m⟩ >>= receivePublic (signProvider theSaid) suite1 toyContext [2, 2] [4]) =
    .fault .panic := by decide +kernel

end examples

end Rmls
