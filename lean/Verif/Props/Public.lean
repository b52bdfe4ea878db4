import Verif.Model.Receiver
import Verif.Spec.Public
import Verif.Props.Client
import Verif.Props.Receiver
/-
Properties C80 (the members of an epoch accept each other's public messages), C81 (a public message is accepted in the
group and epoch that it names only), C82 (application data is not accepted in the clear).
-/
namespace Rmls
open Spec Spec.Enc MessageProtection PassiveClient RatchetTree

/-! ## C80 -/

theorem exact_public (raw : Bytes) (m : PublicMessage) :
    (∃ msg, deserialize_exact MLSMessage.deserialize raw = .ok msg ∧ msg.wire_message = .PublicMessage m) ↔
      m.WF ∧ ∃ rest, (mlsMessage ⟨.MLS10, .PublicMessage m⟩).fits ∧
        raw = (mlsMessage ⟨.MLS10, .PublicMessage m⟩).bytes ++ rest := by
  have htag : m.WF → WireMessage.Tagged (.PublicMessage m) := by
    intro hw
    exact fun hs => hw.2.2.2 hs
  constructor
  · rintro ⟨⟨v, w⟩, h1, h2⟩
    dsimp only at h2
    subst h2
    unfold deserialize_exact at h1
    split at h1
    · next x rest hd =>
      cases h1
      obtain ⟨hw, b, hb, rfl⟩ := C03_canonical _ mlsMessageCodec_mem _ _ _ hd
      obtain ⟨rfl, hw⟩ : v = .MLS10 ∧ m.WF := hw
      have hb : MLSMessage.serialize ⟨.MLS10, .PublicMessage m⟩ = .ok b := hb
      obtain ⟨hf, rfl⟩ := (writes_ok_iff (mlsMessage_w ⟨.MLS10, .PublicMessage m⟩ (htag hw)) _).1 hb
      exact ⟨hw, rest, hf, rfl⟩
    · cases h1
    · cases h1
  · rintro ⟨hw, rest, hf, rfl⟩
    refine ⟨⟨.MLS10, .PublicMessage m⟩, ?_, rfl⟩
    have hb : MLSMessage.serialize ⟨.MLS10, .PublicMessage m⟩ = .ok _ :=
      (writes_ok_iff (mlsMessage_w ⟨.MLS10, .PublicMessage m⟩ (htag hw)) _).2 ⟨hf, rfl⟩
    have := C02_round_trip _ mlsMessageCodec_mem ⟨.MLS10, .PublicMessage m⟩ _ rest ⟨rfl, hw⟩ hb
    unfold deserialize_exact
    rw [show MLSMessage.deserialize _ = _ from this]

theorem verify_public_iff (P : CryptoProvider) (cs : CipherSuite) (ctx : GroupContext) (pub mkey : Bytes)
    (m : PublicMessage) (hw : m.WF) :
    verify_public_message P cs ctx pub mkey m = .ok () ↔ PublicAuthentic P cs ctx pub mkey m := by
  unfold verify_public_message
  simp only [Res.bind_ok_iff, assertOk_iff, C30_verify, C41_exact]
  constructor
  · rintro ⟨_, h1, h2⟩
    refine ⟨h1, fun i hi => ?_⟩
    rcases h2 ⟨i, hi⟩ with h | h
    · have := hw.2.2.2 ⟨i, hi⟩
      rw [h] at this
      cases this
    · exact h
  · rintro ⟨h1, h2⟩
    exact ⟨(), h1, fun ⟨i, hi⟩ => .inr (h2 i hi)⟩

/-- C80: what a receiver accepts: the encoding of a well-formed public message, with more bytes behind it or not, that is
authentic. -/
theorem C80_exact (P : CryptoProvider) (cs : CipherSuite) (ctx : GroupContext) (pub mkey raw : Bytes) (m : PublicMessage) :
    receivePublic P cs ctx pub mkey raw = .ok m ↔
      m.WF ∧ (∃ rest, (mlsMessage ⟨.MLS10, .PublicMessage m⟩).fits ∧
        raw = (mlsMessage ⟨.MLS10, .PublicMessage m⟩).bytes ++ rest) ∧ PublicAuthentic P cs ctx pub mkey m := by
  unfold receivePublic
  rw [Res.bind_ok_iff]
  constructor
  · rintro ⟨msg, h1, h2⟩
    cases hm : msg.wire_message with
    | PublicMessage m' =>
      rw [hm] at h2
      dsimp only at h2
      rw [Res.bind_ok_iff] at h2
      obtain ⟨_, h2, h3⟩ := h2
      cases h3
      obtain ⟨hw, hr⟩ := (exact_public raw m).1 ⟨msg, h1, hm⟩
      exact ⟨hw, hr, (verify_public_iff P cs ctx pub mkey m hw).1 h2⟩
    | _ => rw [hm] at h2; cases h2
  · rintro ⟨hw, hr, ha⟩
    obtain ⟨msg, h1, h2⟩ := (exact_public raw m).2 ⟨hw, hr⟩
    refine ⟨msg, h1, ?_⟩
    rw [h2]
    exact Res.bind_ok_iff.2 ⟨(), (verify_public_iff P cs ctx pub mkey m hw).2 ha, rfl⟩

/-- C80: what the sender builds is accepted by every receiver in the same state with the same membership key who knows the
sender's key, whoever the sender is, and says what went in. -/
theorem C80_delivers (P : CryptoProvider) (cs : CipherSuite) (ctx : GroupContext) (priv pub mkey : Bytes)
    (hk : SignaturePair P cs priv pub) (c : FramedContent) (hc : c.WF) (m : PublicMessage)
    (hm : sendPublic P cs ctx priv mkey c = .ok m) (b rest : Bytes)
    (hb : MLSMessage.serialize ⟨.MLS10, .PublicMessage m⟩ = .ok b) :
    receivePublic P cs ctx pub mkey (b ++ rest) = .ok m ∧ m.content = c := by
  unfold sendPublic at hm
  obtain ⟨m0, h0, h1⟩ := Res.bind_ok_iff.1 hm
  obtain ⟨g1, g2, g3, g4⟩ := C40_verifies P cs priv pub mkey c ctx hk m0 m h0 h1
  have hauth : m.auth.confirmation_tag = [] := by
    unfold PublicMessage.new at h0
    obtain ⟨a, ha, hm0⟩ := Res.bind_ok_iff.1 h0
    rw [AuthenticatedContent.new_iff] at ha
    obtain ⟨sg, rfl, _, _⟩ := ha
    cases hm0
    unfold PublicMessage.sign_membership_tag at h1
    dsimp only at h1
    split at h1
    · cases h1; rfl
    · cases h1; rfl
    · cases h1; rfl
    · obtain ⟨_, _, h1⟩ := Res.bind_ok_iff.1 h1
      obtain ⟨_, _, h1⟩ := Res.bind_ok_iff.1 h1
      cases h1
      rfl
  have hw : m.WF := ⟨by rw [g1]; exact hc, fun _ => hauth, by rw [g1]; exact g4⟩
  have hd := C02_round_trip _ mlsMessageCodec_mem ⟨.MLS10, .PublicMessage m⟩ b rest ⟨rfl, hw⟩ hb
  refine ⟨?_, g1⟩
  unfold receivePublic deserialize_exact
  rw [show MLSMessage.deserialize (b ++ rest) = _ from hd]
  show (verify_public_message P cs ctx pub mkey m >>= fun _ => Res.ok m) = _
  unfold verify_public_message
  dsimp only
  rw [(assertOk_iff _ ()).2 g2, Res.ok_bind, (assertOk_iff _ ()).2 g3, Res.ok_bind]

/-- C80: in a group, whatever its history, two members who agree on the tree, the state and the epoch secret, one of whom may
have read the tree from the wire, accept each other's messages: each computes the membership key on their own, and the
receiver takes the sender's key from their own tree. -/
theorem C80_members (P : CryptoProvider) (cs : CipherSuite) (l : LeafNode) (t u : RatchetTree) (evs : List TreeEvent)
    (hst : RoomSteps P cs [some (.Leaf l)] evs t) (htu : SameTree t u) (sender receiver : RatchetTree)
    (hse : sender = t ∨ sender = u) (hre : receiver = t ∨ receiver = u) (e mk mk' : Bytes)
    (h1 : P.derive_secret cs e SECRET_LABEL_MEMBERSHIP = .ok mk) (h1' : P.derive_secret cs e SECRET_LABEL_MEMBERSHIP = .ok mk')
    (li : LeafIndex) (leaf : LeafNode) (hleaf : sender.get (2 * li.toNat) = some (.Leaf leaf)) (priv : Bytes)
    (hk : SignaturePair P cs priv leaf.payload.signature_key) (ctx : GroupContext) (ad : Bytes) (c : Content) (hc : c.WF)
    (m : PublicMessage) (hm : sendPublic P cs ctx priv mk ⟨ctx.group_id, ctx.epoch, .Member li, ad, c⟩ = .ok m)
    (b rest : Bytes) (hb : MLSMessage.serialize ⟨.MLS10, .PublicMessage m⟩ = .ok b) :
    ∃ leaf', receiver.get_leaf li.toNat = .ok (some leaf') ∧
      receivePublic P cs ctx leaf'.payload.signature_key mk' (b ++ rest) = .ok m ∧
      m.content = ⟨ctx.group_id, ctx.epoch, .Member li, ad, c⟩ := by
  obtain ⟨hg, _, _⟩ := C64_agree P cs l t u evs hst htu
  have hsz := (kept_steps (kept_single l) hst).inv.size
  have hszu : u.length < 2 ^ 32 := by
    rcases htu with rfl | ⟨K, _, rfl⟩
    · exact hsz
    · simp only [List.length_append, List.length_singleton] at hsz
      omega
  have hgg : receiver.get (2 * li.toNat) = some (.Leaf leaf) := by
    rw [← hleaf]
    rcases hse with rfl | rfl <;> rcases hre with rfl | rfl <;> simp only [hg]
  cases h1.symm.trans h1'
  refine ⟨leaf, (get_leaf_some _ ?_ _ _).2 hgg, C80_delivers P cs ctx priv _ mk hk
    ⟨ctx.group_id, ctx.epoch, .Member li, ad, c⟩ hc m hm b rest hb⟩
  rcases hre with rfl | rfl
  · exact hsz
  · exact hszu

/-! ## C81 -/

theorem tbs_outside {c : FramedContent} (hc : Sender.Outside c.sender) (v : ProtocolVersion) (w : WireFormat)
    (ctx ctx' : GroupContext) : framedContentTBS v w c ctx = framedContentTBS v w c ctx' := by
  unfold framedContentTBS
  rcases hc with ⟨i, h⟩ | h <;> rw [h]

/-- C81, what the code does with senders that are not members and do not join with the message: the group's state plays no
part, so a message that is accepted in one state is accepted in every state of every group. -/
theorem C81_outside (P : CryptoProvider) (cs : CipherSuite) (pub raw : Bytes) (m : PublicMessage)
    (hm : Sender.Outside m.content.sender) (ctx ctx' : GroupContext) (mkey mkey' : Bytes)
    (h : receivePublic P cs ctx pub mkey raw = .ok m) : receivePublic P cs ctx' pub mkey' raw = .ok m := by
  rw [C80_exact] at h ⊢
  obtain ⟨hw, hr, h1, _⟩ := h
  refine ⟨hw, hr, ?_, ?_⟩
  · unfold ContentSigned at h1 ⊢
    rw [tbs_outside hm .MLS10 .PublicMessage ctx' ctx]
    exact h1
  · intro i hi
    rcases hm with ⟨j, h⟩ | h <;> rw [hi] at h <;> cases h

/-- C81, the part that holds: with a signature scheme that binds messages, a member's message, or that of someone who joins
with it, is accepted in one state of one group only: no two receivers in different states accept it, whatever bytes follow
and whatever their membership keys are.  Missing: that this is the group and epoch that the message names, see
`C81_commit_refuted`, and all other senders, see `C81_refuted`. -/
theorem C81_inside_partial (P : CryptoProvider) (hP : BindsMessage P) (cs : CipherSuite) (pub : Bytes) (m : PublicMessage)
    (hm : ¬ Sender.Outside m.content.sender) (ctx ctx' : GroupContext) (hc : ContextCanonical ctx)
    (hc' : ContextCanonical ctx') (mkey mkey' raw raw' : Bytes) (h : receivePublic P cs ctx pub mkey raw = .ok m)
    (h' : receivePublic P cs ctx' pub mkey' raw' = .ok m) : ctx = ctx' := by
  rw [C80_exact] at h h'
  obtain ⟨hw, _, h1, _⟩ := h
  obtain ⟨_, _, h2, _⟩ := h'
  refine (C30_one_message P hP cs pub m.authenticated_content m.authenticated_content ctx ctx' hw.1 hw.1 hc hc' rfl
    ((C30_verify ..).2 h1) ((C30_verify ..).2 h2)).2.2 ?_
  show (∃ i, m.content.sender = .Member i) ∨ m.content.sender = .NewMemberCommit
  cases hs : m.content.sender with
  | Member i => exact .inl ⟨i, rfl⟩
  | NewMemberCommit => exact .inr rfl
  | External i => exact absurd (.inl ⟨i, hs⟩) hm
  | NewMemberProposal => exact absurd (.inr hs) hm

section examples
private abbrev suite1 : CipherSuite := .MLS_128_DHKEMX25519_AES128GCM_SHA256_Ed25519

theorem toy_pair (k : Bytes) : SignaturePair toyProvider suite1 k k := by
  intro s m sg h1 h2
  cases h1
  cases h2
  exact if_pos rfl

/-- What is sent and received, in one. -/
theorem sent_received (ctx : GroupContext) (k mkey : Bytes) (c : FramedContent) (hc : c.WF)
    (h : (sendPublic toyProvider suite1 ctx k mkey c >>= fun m => MLSMessage.serialize ⟨.MLS10, .PublicMessage m⟩).isOk =
      .ok true) : ∃ m b, sendPublic toyProvider suite1 ctx k mkey c = .ok m ∧
        MLSMessage.serialize ⟨.MLS10, .PublicMessage m⟩ = .ok b ∧
        receivePublic toyProvider suite1 ctx k mkey b = .ok m ∧ m.content = c := by
  obtain ⟨b, hb⟩ := isOk_true.1 h
  obtain ⟨m, hm, hb⟩ := Res.bind_ok_iff.1 hb
  have := C80_delivers toyProvider suite1 ctx k k mkey (toy_pair k) c hc m hm b [] hb
  rw [List.append_nil] at this
  exact ⟨m, b, hm, hb, this⟩

set_option maxRecDepth 100000 in
/-- A member's proposal is sent and accepted, and not accepted in the next epoch or with another membership key. -/
example : ∃ m b, sendPublic toyProvider suite1 toyContext [9] [4] ⟨[7], 3, .Member 2, [1], .Proposal (.Remove ⟨1⟩)⟩ = .ok m ∧
    MLSMessage.serialize ⟨.MLS10, .PublicMessage m⟩ = .ok b ∧
    receivePublic toyProvider suite1 toyContext [9] [4] b = .ok m ∧
    m.content = ⟨[7], 3, .Member 2, [1], .Proposal (.Remove ⟨1⟩)⟩ :=
  sent_received _ _ _ _ trivial (by decide +kernel)

set_option maxRecDepth 100000 in
example : (sendPublic toyProvider suite1 toyContext [9] [4] ⟨[7], 3, .Member 2, [1], .Proposal (.Remove ⟨1⟩)⟩ >>= fun m =>
    MLSMessage.serialize ⟨.MLS10, .PublicMessage m⟩ >>= receivePublic toyProvider suite1 { toyContext with epoch := 4 } [9] [4]) =
    .fault .panic := by decide +kernel

set_option maxRecDepth 100000 in
example : (sendPublic toyProvider suite1 toyContext [9] [4] ⟨[7], 3, .Member 2, [1], .Proposal (.Remove ⟨1⟩)⟩ >>= fun m =>
    MLSMessage.serialize ⟨.MLS10, .PublicMessage m⟩ >>= receivePublic toyProvider suite1 toyContext [9] [5]) =
    .fault .panic := by decide +kernel

set_option maxRecDepth 100000 in
/-- C81 is false: a proposal of an external sender is accepted by a group with another id in another epoch. -/
theorem C81_refuted : ∃ P cs ctx pub mkey raw m, receivePublic P cs ctx pub mkey raw = .ok m ∧
    m.content.sender = .External 0 ∧ m.content.group_id ≠ ctx.group_id ∧ m.content.epoch ≠ ctx.epoch := by
  obtain ⟨m, b, _, _, h1, h2⟩ := sent_received toyContext [9] [4] ⟨[99], 77, .External 0, [], .Proposal (.Remove ⟨1⟩)⟩ trivial
    (by decide +kernel)
  exact ⟨_, _, _, _, _, _, m, h1, by rw [h2], by rw [h2]; decide, by rw [h2]; decide⟩

/-- A commit of the first member to the group of `joinState` that names another group. -/
def strayCommit : PublicMessage :=
  let ctx := joinInfo.group_context
  let c : FramedContent := ⟨[99], 3, .Member 0, [], .Commit ⟨[.Proposal (.GroupContextExtensions ⟨[]⟩)], some rootPath⟩⟩
  let auth : FramedContentAuthData :=
    ⟨[0, 0] ++ (labelled (text "FramedContentTBS") (framedContentTBS .MLS10 .PublicMessage c ctx).bytes).bytes, []⟩
  ⟨c, auth, some (List.replicate 4 1 ++ (authenticatedContentTBM c auth ctx).bytes)⟩

set_option maxRecDepth 100000 in
/-- C81 is false for commits too: the client, who compares the epochs, accepts a commit that names another group, if the
member who sends it has signed it for this one. -/
theorem C81_commit_refuted : ∃ P cs s m r, handleCommit P cs s m = .ok r ∧
    m.content.group_id ≠ s.group_info.group_context.group_id :=
  ⟨toyProvider, suite1, joinState, strayCommit, _, (by decide +kernel : handleCommit toyProvider suite1 joinState strayCommit =
    .ok (joinTree, [some (.Leaf rootPath.leaf_node), some (.Parent ⟨[41], [], []⟩), some (.Leaf joinLeaf)])), by decide⟩

/-! ## C82 -/

set_option maxRecDepth 100000 in
/-- C82 is false: application data is put into a public message, signed, tagged and accepted. -/
theorem C82_refuted : ∃ P cs ctx priv pub mkey c m b data, c.content = .Application data ∧
    sendPublic P cs ctx priv mkey c = .ok m ∧ MLSMessage.serialize ⟨.MLS10, .PublicMessage m⟩ = .ok b ∧
    receivePublic P cs ctx pub mkey b = .ok m ∧ m.content = c ∧ data.length = 3 ∧ data <:+: b := by
  let c : FramedContent := ⟨[7], 3, .Member 2, [1], .Application [21, 22, 23]⟩
  have h : (sendPublic toyProvider suite1 toyContext [9] [4] c >>= fun m =>
    MLSMessage.serialize ⟨.MLS10, .PublicMessage m⟩ >>= fun b =>
      (if ([21, 22, 23] : Bytes) <:+: b then Res.ok () else .err .Other)) = .ok () := by decide +kernel
  obtain ⟨m, h1, h⟩ := Res.bind_ok_iff.1 h
  obtain ⟨b, h2, h⟩ := Res.bind_ok_iff.1 h
  have h3 := C80_delivers toyProvider suite1 toyContext [9] [9] [4] (toy_pair _) c trivial m h1 b [] h2
  rw [List.append_nil] at h3
  refine ⟨_, _, _, _, _, _, c, m, b, _, rfl, h1, h2, h3.1, h3.2, rfl, ?_⟩
  split at h
  · assumption
  · cases h

end examples

/-- C82, the part that holds: the client does not take application data, or a proposal, for a commit.  Missing: the functions
of the library themselves, see `C82_refuted`. -/
theorem C82_client_partial (P : CryptoProvider) (cs : CipherSuite) (s : State) (m : PublicMessage) (r : RatchetTree × RatchetTree)
    (h : handleCommit P cs s m = .ok r) : ∃ c, m.content.content = .Commit c := by
  unfold handleCommit at h
  simp only [Res.bind_ok_iff] at h
  obtain ⟨_, _, h⟩ := h
  split at h
  · simp only [Res.bind_ok_iff] at h
    obtain ⟨o, _, h⟩ := h
    split at h
    · cases h
    · simp only [Res.bind_ok_iff] at h
      obtain ⟨_, _, _, _, _, _, h⟩ := h
      split at h
      · next c hc => exact ⟨c, hc⟩
      · cases h
  · cases h

end Rmls
