import Verif.Proofs.Framing
import Verif.Props.LeafNode
/-
Properties C30 (a message signature covers the message and the group state), C40 (public messages verify), C41
(membership tags), C50 (group info signatures), C52 (signatures of different kinds).
-/
namespace Rmls
open Spec

/-! ## C30 -/

/-- C30: equal signed bytes come from equal version, wire format and content, and from equal group contexts if the
sender is a member or an external joiner. -/
theorem C30_binding (v v' : ProtocolVersion) (w w' : WireFormat) (c c' : FramedContent) (x x' : GroupContext)
    (hv : v.WF) (hv' : v'.WF) (hc : c.WF) (hc' : c'.WF) (hx : ContextCanonical x) (hx' : ContextCanonical x')
    (f : (framedContentTBS v w c x).fits) (f' : (framedContentTBS v' w' c' x').fits)
    (h : (framedContentTBS v w c x).bytes = (framedContentTBS v' w' c' x').bytes) :
    v = v' ∧ w = w' ∧ c.group_id = c'.group_id ∧ c.epoch = c'.epoch ∧ c.sender = c'.sender ∧
    c.authenticated_data = c'.authenticated_data ∧ c.content = c'.content ∧
    (((∃ i, c.sender = .Member i) ∨ c.sender = .NewMemberCommit) → x = x') := by
  have h := framedContentTBS_inj hv hv' hc hc' (fun _ => hx) (fun _ => hx') f f' (r := []) (r' := []) (by rw [h])
  obtain ⟨h1, h2, rfl, h4, _⟩ := h
  refine ⟨h1, h2, rfl, rfl, rfl, rfl, rfl, fun h => h4 ?_⟩
  rcases h with ⟨i, h⟩ | h <;> rw [h] <;> trivial

/-- C30: the signature of a message is accepted exactly when it is one, under the given key and the label of the RFC,
over exactly these bytes. -/
theorem C30_verify (P : CryptoProvider) (cs : CipherSuite) (x : AuthenticatedContent) (key : Bytes)
    (ctx : GroupContext) :
    x.verify_signature P cs key ctx = .ok () ↔
      ContentSigned P cs key x.wire_format x.content ctx x.auth.signature :=
  AuthenticatedContent.verify_signature_iff P cs x key ctx

/-- C30: with a signature scheme that binds messages, one signature is accepted for one message only, and for a member
or an external joiner in one group state only. -/
theorem C30_one_message (P : CryptoProvider) (hP : BindsMessage P) (cs : CipherSuite) (key : Bytes)
    (x y : AuthenticatedContent) (ctx ctx' : GroupContext) (hx : x.content.WF) (hy : y.content.WF)
    (hc : ContextCanonical ctx) (hc' : ContextCanonical ctx') (hs : x.auth.signature = y.auth.signature)
    (h : x.verify_signature P cs key ctx = .ok ()) (h' : y.verify_signature P cs key ctx' = .ok ()) :
    x.wire_format = y.wire_format ∧ x.content = y.content ∧
    (((∃ i, x.content.sender = .Member i) ∨ x.content.sender = .NewMemberCommit) → ctx = ctx') := by
  rw [C30_verify] at h h'
  obtain ⟨f, g, s, h1, h2⟩ := h
  obtain ⟨f', g', s', h1', h2'⟩ := h'
  rw [h1] at h1'
  cases h1'
  rw [← hs] at h2'
  have := (labelled_inj g g' (hP _ _ _ _ _ _ h1 h2 h2')).2
  obtain ⟨_, h2, h3, h4, _⟩ := framedContentTBS_inj (v := .MLS10) (v' := .MLS10) trivial trivial hx hy
    (fun _ => hc) (fun _ => hc') f f' (r := []) (r' := []) (by rw [this])
  refine ⟨h2, h3, fun h => h4 ?_⟩
  rcases h with ⟨i, h⟩ | h <;> rw [h] <;> trivial

/-- Application data from member 2 and the signed message. -/
def toyContent : FramedContent :=
  { group_id := [7], epoch := 5, sender := .Member 2, authenticated_data := [1, 2], content := .Application [3] }
def toySigned : AuthenticatedContent :=
  { wire_format := .PublicMessage, content := toyContent
    auth := { signature := [9] ++ (labelled (text "FramedContentTBS")
      (framedContentTBS .MLS10 .PublicMessage toyContent toyContext).bytes).bytes, confirmation_tag := [] } }
example : toyContent.WF ∧ ContextCanonical toyContext := ⟨trivial, trivial, trivial, by simp [toyContext, Extensions.WF]⟩
example : toySigned.verify_signature toyProvider toyContext.cipher_suite [9] toyContext = .ok () := by decide
example : toySigned.verify_signature toyProvider toyContext.cipher_suite [9] { toyContext with epoch := 6 } ≠ .ok () := by
  decide
example : { toySigned with wire_format := .PrivateMessage }.verify_signature toyProvider toyContext.cipher_suite [9]
    toyContext ≠ .ok () := by decide

/-! ## C40 -/

/-- C40: a public message that was built and tagged carries the given content, and its signature and membership tag are
accepted under the matching keys in the same context. -/
theorem C40_verifies (P : CryptoProvider) (cs : CipherSuite) (priv pub mkey : Bytes) (c : FramedContent)
    (ctx : GroupContext) (hk : SignaturePair P cs priv pub) (m0 m : PublicMessage)
    (h0 : PublicMessage.new P cs priv c ctx = .ok m0) (h : m0.sign_membership_tag P cs mkey ctx = .ok m) :
    m.content = c ∧ m.authenticated_content.verify_signature P cs pub ctx = .ok () ∧
    m.verify_membership_tag P cs mkey ctx = .ok () ∧
    (m.membership_tag.isSome = true ↔ ∃ i, c.sender = .Member i) := by
  unfold PublicMessage.new at h0
  obtain ⟨a, ha, hm⟩ := Res.bind_ok_iff.1 h0
  rw [AuthenticatedContent.new_iff] at ha
  obtain ⟨sg, rfl, hf, hsg⟩ := ha
  cases hm
  -- the signature is accepted
  have hsig : ∀ t : Option Bytes, (PublicMessage.authenticated_content
      ⟨c, ⟨sg, []⟩, t⟩).verify_signature P cs pub ctx = .ok () := by
    intro t
    rw [C30_verify]
    refine ⟨hf, ?_⟩
    unfold CryptoProvider.sign_with_label at hsg
    rw [writes_bind_iff (mls_prefix_label_data_w _ _)] at hsg
    obtain ⟨hg, hsg⟩ := hsg
    obtain ⟨s, h1, h2⟩ := Res.bind_ok_iff.1 hsg
    exact ⟨hg, s, h1, hk _ _ _ h1 h2⟩
  unfold PublicMessage.sign_membership_tag at h
  cases hs : c.sender with
  | Member i =>
    simp only [hs] at h
    rw [writes_bind_iff (authenticatedContentTBM_w _ ctx)] at h
    obtain ⟨hg, h⟩ := h
    obtain ⟨tag, h1, h2⟩ := Res.bind_ok_iff.1 h
    cases h2
    refine ⟨rfl, hsig _, ?_, by simp⟩
    rw [PublicMessage.verify_membership_tag_iff]
    rintro j t _ ⟨⟩
    exact ⟨hg, (sign_mac_iff ..).1 h1⟩
  | External i =>
    simp only [hs] at h
    cases h
    exact ⟨rfl, hsig _, (PublicMessage.verify_membership_tag_iff ..).2 nofun, by simp⟩
  | NewMemberProposal =>
    simp only [hs] at h
    cases h
    exact ⟨rfl, hsig _, (PublicMessage.verify_membership_tag_iff ..).2 nofun, by simp⟩
  | NewMemberCommit =>
    simp only [hs] at h
    cases h
    exact ⟨rfl, hsig _, (PublicMessage.verify_membership_tag_iff ..).2 nofun, by simp⟩

/-- C40: building and tagging succeed whenever the primitives do and the encodings are short enough. -/
theorem C40_builds (P : CryptoProvider) (cs : CipherSuite) (priv mkey : Bytes) (c : FramedContent)
    (ctx : GroupContext) (hash : Hash) (hh : P.hash cs = .ok hash) (s : Signature) (hs : P.signature cs = .ok s)
    (hf : (framedContentTBS .MLS10 .PublicMessage c ctx).fits)
    (hl : (labelled (text "FramedContentTBS") (framedContentTBS .MLS10 .PublicMessage c ctx).bytes).fits)
    (sg : Bytes) (hsg : s.sign priv (labelled (text "FramedContentTBS")
      (framedContentTBS .MLS10 .PublicMessage c ctx).bytes).bytes = .ok sg) (hlen : sg.length < 2 ^ 30) :
    ∃ m0 m, PublicMessage.new P cs priv c ctx = .ok m0 ∧ m0.sign_membership_tag P cs mkey ctx = .ok m := by
  have h0 : PublicMessage.new P cs priv c ctx = .ok ⟨c, ⟨sg, []⟩, none⟩ := by
    unfold PublicMessage.new
    refine Res.bind_ok_iff.2 ⟨_, (AuthenticatedContent.new_iff ..).2 ⟨sg, rfl, hf, ?_⟩, rfl⟩
    unfold CryptoProvider.sign_with_label
    rw [writes_bind_iff (mls_prefix_label_data_w _ _)]
    refine ⟨hl, ?_⟩
    rw [hs]
    exact hsg
  have : ∃ m, PublicMessage.sign_membership_tag P cs ⟨c, ⟨sg, []⟩, none⟩ mkey ctx = .ok m := by
    unfold PublicMessage.sign_membership_tag
    cases hsn : c.sender with
    | Member i =>
      simp only
      refine ⟨⟨c, ⟨sg, []⟩, some (hash.mac mkey (authenticatedContentTBM c ⟨sg, []⟩ ctx).bytes)⟩,
        (writes_bind_iff (authenticatedContentTBM_w _ ctx) _ _).2 ⟨⟨hf, ?_⟩, ?_⟩⟩
      · refine ⟨⟨trivial, by simpa [Enc.bytes] using hlen⟩, ?_⟩
        cases c.content
        · trivial
        · trivial
        · exact ⟨trivial, by simp [Enc.bytes]⟩
      · unfold CryptoProvider.sign_mac
        rw [hh]
        rfl
    | External i => exact ⟨_, rfl⟩
    | NewMemberProposal => exact ⟨_, rfl⟩
    | NewMemberCommit => exact ⟨_, rfl⟩
  obtain ⟨m, hm⟩ := this
  exact ⟨_, m, h0, hm⟩

/-- The example provider has matching keys, and the example content is built, tagged and accepted. -/
example : SignaturePair toyProvider toyContext.cipher_suite [9] [9] := by
  intro s m sg hs h
  cases hs
  cases h
  exact if_pos rfl
example : ∃ m0 m, PublicMessage.new toyProvider toyContext.cipher_suite [9] toyContent toyContext = .ok m0 ∧
    m0.sign_membership_tag toyProvider toyContext.cipher_suite [4] toyContext = .ok m ∧ m.membership_tag.isSome ∧
    m.verify_membership_tag toyProvider toyContext.cipher_suite [4] toyContext = .ok () ∧
    m.verify_membership_tag toyProvider toyContext.cipher_suite [5] toyContext ≠ .ok () := by
  refine ⟨_, _, rfl, rfl, ?_, ?_, ?_⟩ <;> decide

/-! ## C41 -/

/-- C41, what the code does: it accepts exactly the messages of non-members, the messages of members without a tag, and
those whose tag is the MAC of the authenticated content. -/
theorem C41_exact (P : CryptoProvider) (cs : CipherSuite) (x : PublicMessage) (key : Bytes) (ctx : GroupContext) :
    x.verify_membership_tag P cs key ctx = .ok () ↔
      ((∃ i, x.content.sender = .Member i) → x.membership_tag = none ∨
        ∃ tag, x.membership_tag = some tag ∧ (authenticatedContentTBM x.content x.auth ctx).fits ∧
          MacOf P cs key (authenticatedContentTBM x.content x.auth ctx).bytes tag) := by
  rw [PublicMessage.verify_membership_tag_iff]
  constructor
  · rintro h ⟨i, hi⟩
    cases ht : x.membership_tag with
    | none => exact .inl rfl
    | some tag => exact .inr ⟨tag, rfl, h i tag hi ht⟩
  · intro h i tag hi ht
    rcases h ⟨i, hi⟩ with h | ⟨t, h, h1⟩
    · rw [ht] at h; cases h
    · rw [ht] at h; cases h; exact h1

/-- C41 is false: a message from a member without a membership tag is accepted, whatever the key. -/
theorem C41_refuted : ∃ x : PublicMessage, (∃ i, x.content.sender = .Member i) ∧ x.membership_tag = none ∧
    ∀ P cs key ctx, x.verify_membership_tag P cs key ctx = .ok () :=
  ⟨⟨toyContent, ⟨[], []⟩, none⟩, ⟨2, rfl⟩, rfl, fun _ _ _ _ => rfl⟩

/-- C41, the part that holds: a member's message that was read from the wire is accepted only if its tag is the MAC of
the authenticated content.  Missing: messages put together in memory without a tag. -/
theorem C41_wire_partial (P : CryptoProvider) (cs : CipherSuite) (buf rest : Bytes) (x : PublicMessage) (key : Bytes)
    (ctx : GroupContext) (hr : PublicMessage.deserialize buf = .ok (x, rest)) (hs : ∃ i, x.content.sender = .Member i)
    (h : x.verify_membership_tag P cs key ctx = .ok ()) :
    ∃ tag, x.membership_tag = some tag ∧
      MacOf P cs key (authenticatedContentTBM x.content x.auth ctx).bytes tag := by
  have hw := (PublicMessage.lawful.canon _ _ _ hr).1.2.2.2 hs
  rcases (C41_exact ..).1 h hs with h | ⟨t, h, _, h1⟩
  · rw [h] at hw; cases hw
  · exact ⟨t, h, h1⟩

/-- Such a message exists: the built and tagged one, written and read back. -/
example : ∃ x b, (∃ m0, PublicMessage.new toyProvider toyContext.cipher_suite [9] toyContent toyContext = .ok m0 ∧
      m0.sign_membership_tag toyProvider toyContext.cipher_suite [4] toyContext = .ok x) ∧
    x.serialize = .ok b ∧ PublicMessage.deserialize b = .ok (x, []) ∧
    x.verify_membership_tag toyProvider toyContext.cipher_suite [4] toyContext = .ok () := by
  refine ⟨_, _, ⟨_, rfl, rfl⟩, rfl, ?_, ?_⟩ <;> decide +kernel

/-! ## C50 -/

/-- C50: equal signed bytes come from equal group context, extensions, confirmation tag and signer. -/
theorem C50_binding (x y : GroupInfo) (hx : ContextCanonical x.group_context ∧ Extensions.WF x.extensions)
    (hy : ContextCanonical y.group_context ∧ Extensions.WF y.extensions)
    (f : (groupInfoTBS x).fits) (f' : (groupInfoTBS y).fits) (h : (groupInfoTBS x).bytes = (groupInfoTBS y).bytes) :
    x.group_context = y.group_context ∧ x.extensions = y.extensions ∧
      x.confirmation_tag = y.confirmation_tag ∧ x.signer = y.signer :=
  groupInfoTBS_inj hx hy f f' h

/-- C50: the signature is accepted exactly when it is one over exactly these bytes. -/
theorem C50_verify (P : CryptoProvider) (x : GroupInfo) (key : Bytes) :
    x.verify_signature P key = .ok () ↔ GroupInfoSigned P key x :=
  GroupInfo.verify_signature_iff P x key

/-- C50: with a signature scheme that binds messages, one signature is accepted for one group info only. -/
theorem C50_one_info (P : CryptoProvider) (hP : BindsMessage P) (key : Bytes) (x y : GroupInfo)
    (hx : ContextCanonical x.group_context ∧ Extensions.WF x.extensions)
    (hy : ContextCanonical y.group_context ∧ Extensions.WF y.extensions)
    (hcs : x.group_context.cipher_suite = y.group_context.cipher_suite) (hs : x.signature = y.signature)
    (h : x.verify_signature P key = .ok ()) (h' : y.verify_signature P key = .ok ()) : x = y := by
  rw [C50_verify] at h h'
  obtain ⟨f, g, s, h1, h2⟩ := h
  obtain ⟨f', g', s', h1', h2'⟩ := h'
  rw [← hcs, h1] at h1'
  cases h1'
  rw [← hs] at h2'
  have := C50_binding x y hx hy f f' (labelled_inj g g' (hP _ _ _ _ _ _ h1 h2 h2')).2
  cases x; cases y
  simp_all

def toyGroupInfo : GroupInfo :=
  let x : GroupInfo :=
    { group_context := toyContext, extensions := [], confirmation_tag := [1], signer := 2, signature := [] }
  { x with signature := [9] ++ (labelled (text "GroupInfoTBS") (groupInfoTBS x).bytes).bytes }
example : toyGroupInfo.verify_signature toyProvider [9] = .ok () := by decide
example : { toyGroupInfo with signer := 3 }.verify_signature toyProvider [9] ≠ .ok () := by decide

/-! ## C52 -/

/-- The verification of this kind of object, under this key, accepts this signature on some object. -/
inductive Accepted (P : CryptoProvider) : CipherSuite → Bytes → Bytes → Kind → Prop
  | leafNode {x : LeafNode} {cs : CipherSuite} {gid : Bytes} {li : LeafIndex} :
      x.verify_signature P cs (.UpdateOrCommit gid li) = .ok true →
      Accepted P cs x.payload.signature_key x.signature .leafNode
  | keyPackage {x : KeyPackage} : x.verify_signature P = .ok () →
      Accepted P x.payload.cipher_suite x.payload.leaf_node.payload.signature_key x.signature .keyPackage
  | groupInfo {x : GroupInfo} {key : Bytes} : x.verify_signature P key = .ok () →
      Accepted P x.group_context.cipher_suite key x.signature .groupInfo
  | framedContent {x : AuthenticatedContent} {cs : CipherSuite} {key : Bytes} {ctx : GroupContext} :
      x.verify_signature P cs key ctx = .ok () → Accepted P cs key x.auth.signature .framedContent

/-- C52: what is signed as one kind is never what is signed as another kind. -/
theorem C52_bytes (a b : Kind) (h : a ≠ b) (x y : Bytes) (f : (labelled a.label x).fits)
    (f' : (labelled b.label y).fits) : (labelled a.label x).bytes ≠ (labelled b.label y).bytes := by
  intro he
  have := (labelled_inj f f' he).1
  revert this
  cases a <;> cases b <;> first | exact absurd rfl h | decide

/-- Each verification looks at the label of its kind. -/
theorem accepted_signed {P : CryptoProvider} {cs : CipherSuite} {key sg : Bytes} {k : Kind}
    (h : Accepted P cs key sg k) : ∃ content, SignedBy P cs key k.label content sg := by
  cases h with
  | leafNode h => exact ⟨_, ((LeafNode.verify_signature_iff ..).1 h).2⟩
  | keyPackage h => exact ⟨_, ((KeyPackage.verify_signature_iff ..).1 h).2⟩
  | groupInfo h => exact ⟨_, ((GroupInfo.verify_signature_iff ..).1 h).2⟩
  | framedContent h => exact ⟨_, ((AuthenticatedContent.verify_signature_iff ..).1 h).2⟩

/-- C52: with a signature scheme that binds messages, a signature accepted on an object of one kind is not accepted on
any object of another kind. -/
theorem C52_kinds (P : CryptoProvider) (hP : BindsMessage P) (cs : CipherSuite) (key sg : Bytes) (a b : Kind)
    (ha : Accepted P cs key sg a) (hb : Accepted P cs key sg b) : a = b := by
  obtain ⟨x, f, s, h1, h2⟩ := accepted_signed ha
  obtain ⟨y, f', s', h1', h2'⟩ := accepted_signed hb
  rw [h1] at h1'
  cases h1'
  exact Classical.byContradiction fun h => C52_bytes a b h x y f f' (hP _ _ _ _ _ _ h1 h2 h2')

/-- All four kinds are accepted somewhere. -/
example : (∃ cs k s, Accepted toyProvider cs k s .leafNode) ∧ (∃ cs k s, Accepted toyProvider cs k s .groupInfo) ∧
    (∃ cs k s, Accepted toyProvider cs k s .framedContent) ∧ (∃ cs k s, Accepted toyProvider cs k s .keyPackage) := by
  refine ⟨⟨_, _, _, .leafNode (x := signedToyLeaf) (cs := toyContext.cipher_suite) (gid := [7]) (li := 2) (by decide)⟩,
    ⟨_, _, _, .groupInfo (x := toyGroupInfo) (key := [9]) (by decide)⟩,
    ⟨_, _, _, .framedContent (x := toySigned) (cs := toyContext.cipher_suite) (key := [9]) (ctx := toyContext)
      (by decide)⟩, ?_⟩
  let tbs : KeyPackageTBS := ⟨.MLS10, toyContext.cipher_suite, [3], toyLeaf 1, []⟩
  exact ⟨_, _, _, .keyPackage (x := ⟨tbs, [1, 1] ++ (labelled (text "KeyPackageTBS") (keyPackageTBS tbs).bytes).bytes⟩)
    (by decide)⟩

end Rmls
