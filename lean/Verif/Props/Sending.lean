import Verif.Spec.Sending
import Verif.Props.MessageWork
import Verif.Props.Public
import Verif.Props.Suites
/-
Property C119: a member can send whatever fits.
-/
namespace Rmls
open Spec Spec.Enc MessageProtection RatchetTree

/-! ### sizes -/

private theorem body_le (b : Bytes) : b.length ≤ (opq b).bytes.length := by
  simp only [opq, Enc.bytes, List.length_append]
  omega

private theorem opq_le (b : Bytes) : (opq b).bytes.length ≤ b.length + 4 := by
  simp only [opq, Enc.bytes, List.length_append]
  have : ((header b.length).getD []).length ≤ 4 := by
    unfold header
    split
    · exact show 1 ≤ 4 by decide
    · split
      · exact show 2 ≤ 4 by decide
      · split
        · exact show 4 ≤ 4 by decide
        · exact show 0 ≤ 4 by decide
  omega

private theorem body_fits {c : Content} (h : (content c).fits) :
    (contentBody c).fits ∧ (contentBody c).bytes.length ≤ (content c).bytes.length := by
  cases c <;> refine ⟨h.2, ?_⟩ <;> simp only [content, contentBody, struct, Enc.bytes, List.length_append] <;> omega

private theorem auth_fits (c : Content) {sg : Bytes} (h : sg.length ≤ 256) :
    (framedContentAuthData c ⟨sg, []⟩).fits ∧ (framedContentAuthData c ⟨sg, []⟩).bytes.length ≤ 264 := by
  have h1 := opq_le sg
  have h2 := opq_le []
  refine ⟨⟨⟨trivial, by show sg.length < _; omega⟩, ?_⟩, ?_⟩
  · cases c
    · trivial
    · trivial
    · exact ⟨trivial, by show 0 < _; decide⟩
  · cases c <;> simp only [framedContentAuthData, struct, Enc.bytes, List.length_append, List.length_nil] at * <;> omega

private theorem sendable_parts {w : WireFormat} {c : FramedContent} {ctx : GroupContext} (h : Sendable w c ctx) :
    c.group_id.length < 2 ^ 30 ∧ c.authenticated_data.length < 2 ^ 30 ∧ (content c.content).fits ∧ (framedContent c).fits ∧
    c.group_id.length + c.authenticated_data.length + (content c.content).bytes.length + 512 < 2 ^ 30 ∧
    (labelled (text "FramedContentTBS") (framedContentTBS .MLS10 w c ctx).bytes).fits := by
  obtain ⟨⟨_, _, hf, _⟩, hl⟩ := h
  have hf' := hf
  obtain ⟨⟨_, g1⟩, _, _, ⟨_, g2⟩, g3⟩ := hf'
  refine ⟨g1, g2, g3, hf, ?_, ⟨⟨trivial, by decide⟩, trivial, by show (framedContentTBS .MLS10 w c ctx).bytes.length < _; omega⟩⟩
  have h1 := body_le c.group_id
  have h2 := body_le c.authenticated_data
  unfold framedContentTBS framedContent at hl
  simp only [struct, Enc.bytes, List.length_append] at hl
  omega

private theorem mac_parts (v : UInt64) (ct : ContentType) :
    (uint 8 v.toNat).bytes.length = 8 ∧ (contentType ct).fits ∧ (contentType ct).bytes.length = 1 := by
  refine ⟨rfl, ?_, ?_⟩ <;> cases ct <;> first | trivial | rfl

private theorem guarded_length {n g : Bytes} (h : g.length ≤ n.length) : (guarded n g).length = n.length := by
  simp only [guarded, List.length_append, List.length_zipWith, List.length_drop]
  omega

/-- An expansion that the KDF grants. -/
theorem expands_exists {h : Hpke} (hT : Expander h) {s label ctx : Bytes} {n : Nat} (hs : h.kdf_extract_size ≤ s.length)
    (hn : n < 2 ^ 16) (hn' : n ≤ 255 * h.kdf_extract_size) (hl : label.length < 2 ^ 20) (hc : ctx.length < 2 ^ 30) :
    ∃ out, Expands h s label ctx n out := by
  have e : (UInt16.ofNat n).toNat = n := Nat.mod_eq_of_lt hn
  obtain ⟨out, ho⟩ := hT.expands s (kdfLabel n label ctx).bytes (UInt16.ofNat n) hs (by rw [e]; exact hn')
  refine ⟨out, hn, ⟨trivial, ⟨trivial, ?_⟩, trivial, ?_⟩, ho⟩
  · simp only [Enc.bytes, List.length_append, show (text "MLS 1.0 ").length = 8 from rfl]; omega
  · simp only [Enc.bytes]; omega

theorem expands_length {h : Hpke} (hS : Sealer h) {s label ctx : Bytes} {n : Nat} {out : Bytes}
    (he : Expands h s label ctx n out) : out.length = n := by
  rw [hS.exact _ _ _ _ he.2.2]
  exact Nat.mod_eq_of_lt he.1

private theorem messageSecret_long {h : Hpke} (hT : Expander h) {es : Bytes} {K li g : Nat} {ct : ContentType} {s : Bytes}
    (hm : MessageSecret h es K li ct g s) : h.kdf_extract_size ≤ s.length := by
  obtain ⟨leaf, root, _, h2, h3⟩ := hm
  cases h3 with
  | first => exact hT.long _ _ _ h2.2.2
  | next _ e => exact hT.long _ _ _ e.2.2.2

/-! ### private messages -/

/-- C119: every member can send everything that fits, in every generation: the message is built and can be written. -/
theorem C119_private (P : CryptoProvider) (cs : CipherSuite) (h : Hpke) (hp : P.hpke cs = .ok h) (hs : Sizes h)
    (hT : Expander h) (hS : Sealer h) (K : Nat) (hK : K ≤ 31) (es sds : Bytes) (hes : h.kdf_extract_size ≤ es.length)
    (hsds : h.kdf_extract_size ≤ sds.length) (li : LeafIndex) (hli : li.toNat < 2 ^ K) (g : UInt32) (rnd : Bytes)
    (hr : rnd.length = 4) (priv : Bytes) (hk : CanSign P cs priv) (ctx : GroupContext) (epoch : UInt64) (gid : GroupID)
    (c : Content) (hc : Sendable .PrivateMessage ⟨gid, epoch, .Member li, [], c⟩ ctx) :
    ∃ m b, send P cs ctx (2 ^ K) es sds li g rnd priv epoch gid c = .ok m ∧
      MLSMessage.serialize ⟨.MLS10, .PrivateMessage m⟩ = .ok b := by
  obtain ⟨sig, hsig, hsign⟩ := hk
  obtain ⟨g1, _, g3, _, g4, g5⟩ := sendable_parts hc
  have g3 : (content c).fits := g3
  have g4 : gid.length + 0 + (content c).bytes.length + 512 < 2 ^ 30 := g4
  obtain ⟨sg, hsg, hsgl⟩ := hsign (labelled (text "FramedContentTBS")
    (framedContentTBS .MLS10 .PrivateMessage ⟨gid, epoch, .Member li, [], c⟩ ctx).bytes).bytes
  obtain ⟨s, hms⟩ := messageSecret_exists hp hs hT hK es hes hli c.content_type g
  have hsl := messageSecret_long hT hms
  have h4 : (uint 4 g.toNat).bytes.length < 2 ^ 30 := by rw [show (uint 4 g.toNat).bytes.length = 4 from rfl]; decide
  obtain ⟨key, hkey⟩ := expands_exists hT (label := text "key") hsl hs.2.2 hS.key_size (by decide) h4
  obtain ⟨nonce, hnonce⟩ := expands_exists hT (label := text "nonce") hsl hs.2.1 hS.nonce_size (by decide) h4
  have hnl := expands_length hS hnonce
  obtain ⟨b1, b2⟩ := body_fits g3
  obtain ⟨a1, a2⟩ := auth_fits c hsgl
  obtain ⟨p1, p2, p3⟩ := mac_parts epoch c.content_type
  have og := opq_le gid
  have oe := opq_le []
  simp only [List.length_nil] at oe
  have hplain : (privateMessageContent ⟨c, ⟨sg, []⟩⟩).bytes.length + 16 < 2 ^ 30 := by
    simp only [privateMessageContent, struct, Enc.bytes, List.length_append]
    omega
  have haad : (privateContentAAD ⟨gid, epoch, c.content_type, []⟩).bytes.length < 2 ^ 31 := by
    simp only [privateContentAAD, struct, Enc.bytes, List.length_append] at p1 ⊢
    omega
  have haad' : (senderDataAAD ⟨gid, epoch, c.content_type⟩).bytes.length < 2 ^ 31 := by
    simp only [senderDataAAD, struct, Enc.bytes, List.length_append] at p1 ⊢
    omega
  obtain ⟨cipher, hcip, hcl⟩ := hS.seals key (guarded nonce rnd) (privateMessageContent ⟨c, ⟨sg, []⟩⟩).bytes
    (privateContentAAD ⟨gid, epoch, c.content_type, []⟩).bytes (expands_length hS hkey)
    (by rw [guarded_length (by have := hS.guard; omega), hnl]) (by omega) haad
  have hsz := hs.1
  have htake : (cipher.take h.kdf_extract_size).length < 2 ^ 30 := by rw [List.length_take]; omega
  obtain ⟨key', hkey'⟩ := expands_exists hT (label := text "key") hsds hs.2.2 hS.key_size (by decide) htake
  obtain ⟨nonce', hnonce'⟩ := expands_exists hT (label := text "nonce") hsds hs.2.1 hS.nonce_size (by decide) htake
  have hsd : (senderData ⟨li, g, rnd⟩).bytes.length = 12 := by
    simp only [senderData, struct, Enc.bytes, List.length_append, hr]
    rfl
  obtain ⟨sealed, hsealed, hsel⟩ := hS.seals key' nonce' (senderData ⟨li, g, rnd⟩).bytes
    (senderDataAAD ⟨gid, epoch, c.content_type⟩).bytes (expands_length hS hkey') (expands_length hS hnonce')
    (by omega) haad'
  have hge : (opq gid).fits := ⟨trivial, by simpa [Enc.bytes] using g1⟩
  have hne : (opq []).fits := ⟨trivial, by decide⟩
  refine ⟨⟨gid, epoch, c.content_type, [], sealed, cipher⟩, _,
    (C97_sends P cs h hp hs hT K hK es sds hes li hli g rnd priv ctx epoch gid c _).2 ⟨⟨rfl, rfl, rfl, rfl⟩,
      ⟨s, sg, hms, hc.1, ⟨g5, sig, hsig, hsg⟩, key, guarded nonce rnd, ⟨⟨g.toNat_lt, hkey⟩, nonce, ⟨g.toNat_lt, hnonce⟩,
        by have := hS.guard; omega, rfl⟩, ⟨b1, a1⟩, ⟨hge, trivial, p2, hne⟩, hcip⟩,
      key', nonce', ⟨hkey', hnonce'⟩, ⟨hge, trivial, p2⟩, hsealed⟩,
    (writes_ok_iff (mlsMessage_w ⟨.MLS10, .PrivateMessage ⟨gid, epoch, c.content_type, [], sealed, cipher⟩⟩ trivial) _).2
      ⟨⟨trivial, trivial, hge, trivial, p2, hne, ⟨trivial, ?_⟩, trivial, ?_⟩, rfl⟩⟩
  · show sealed.length < _
    omega
  · show cipher.length < _
    omega

/-- C119: what does not fit is not sent. -/
theorem C119_too_long (P : CryptoProvider) (cs : CipherSuite) (h : Hpke) (hp : P.hpke cs = .ok h) (hs : Sizes h)
    (ctx : GroupContext) (n : Nat) (es sds : Bytes) (li : LeafIndex) (g : UInt32) (rnd priv : Bytes) (epoch : UInt64)
    (gid : GroupID) (c : Content) (m : PrivateMessage) (hm : send P cs ctx n es sds li g rnd priv epoch gid c = .ok m) :
    (framedContentTBS .MLS10 .PrivateMessage ⟨gid, epoch, .Member li, [], c⟩ ctx).fits ∧
      (framedContentTBS .MLS10 .PrivateMessage ⟨gid, epoch, .Member li, [], c⟩ ctx).bytes.length < 2 ^ 30 := by
  unfold send at hm
  simp only [Res.bind_ok_iff] at hm
  obtain ⟨_, _, _, _, h3⟩ := hm
  obtain ⟨_, ⟨sg, h1, h2, _⟩, _⟩ := (C38_built P cs h hp hs _ _ _ _ _ _ _).1 h3
  exact ⟨h1, h2.1.2.2⟩

/-- C119: application data fits if it, the group id and the encoded state of the group have less than 2^30 bytes together, but
for 600. -/
theorem C119_application (ctx : GroupContext) (hx : (groupContext ctx).fits) (gid data ad : Bytes) (epoch : UInt64)
    (li : LeafIndex) (w : WireFormat)
    (hl : gid.length + data.length + ad.length + (groupContext ctx).bytes.length + 600 < 2 ^ 30) :
    Sendable w ⟨gid, epoch, .Member li, ad, .Application data⟩ ctx := by
  have h1 := opq_le gid
  have h2 := opq_le ad
  have h3 := opq_le data
  have hv : (version .MLS10).fits ∧ (version .MLS10).bytes.length = 2 := ⟨trivial, rfl⟩
  have hw : (wireFormat w).fits ∧ (wireFormat w).bytes.length = 2 := by cases w <;> exact ⟨trivial, rfl⟩
  refine ⟨⟨hv.1, hw.1, ⟨⟨trivial, by show gid.length < _; omega⟩, trivial, ⟨trivial, trivial⟩,
    ⟨trivial, by show ad.length < _; omega⟩, trivial, trivial, by show data.length < _; omega⟩, hx⟩, ?_⟩
  have e1 : (digits 1 1).length = 1 := rfl
  have e2 : (digits 8 epoch.toNat).length = 8 := rfl
  have e3 : (sender (.Member li)).bytes.length = 5 := rfl
  simp only [framedContentTBS, framedContent, content, struct, Enc.bytes, List.length_append, e1, e2, e3] at hv hw h1 h2 h3 ⊢
  omega

/-! ### public messages -/

/-- C119: and everything that fits can be sent as a public message. -/
theorem C119_public (P : CryptoProvider) (cs : CipherSuite) (priv mkey : Bytes) (hk : CanSign P cs priv) (hm : HasMac P cs)
    (ctx : GroupContext) (c : FramedContent) (hc : Sendable .PublicMessage c ctx) :
    ∃ m b, sendPublic P cs ctx priv mkey c = .ok m ∧ MLSMessage.serialize ⟨.MLS10, .PublicMessage m⟩ = .ok b := by
  obtain ⟨sig, hsig, hsign⟩ := hk
  obtain ⟨hash, hh, hmac⟩ := hm
  obtain ⟨_, _, _, g4, _, g5⟩ := sendable_parts hc
  obtain ⟨sg, hsg, hsgl⟩ := hsign (labelled (text "FramedContentTBS") (framedContentTBS .MLS10 .PublicMessage c ctx).bytes).bytes
  obtain ⟨m0, m, h0, h1⟩ := C40_builds P cs priv mkey c ctx hash hh sig hsig hc.1 g5 sg hsg (by omega)
  have hm0 : m0 = ⟨c, ⟨sg, []⟩, none⟩ := by
    unfold PublicMessage.new at h0
    obtain ⟨a, ha, hm0⟩ := Res.bind_ok_iff.1 h0
    rw [AuthenticatedContent.new_iff] at ha
    obtain ⟨sg', rfl, _, hs'⟩ := ha
    cases hm0
    unfold CryptoProvider.sign_with_label at hs'
    rw [writes_bind_iff (mls_prefix_label_data_w _ _), hsig] at hs'
    have : sg' = sg := Res.ok.inj (hs'.2.symm.trans hsg)
    rw [this]
  subst hm0
  obtain ⟨a1, _⟩ := auth_fits c.content hsgl
  have hfit : (mlsMessage ⟨.MLS10, .PublicMessage m⟩).fits ∧ taggedPre m := by
    unfold PublicMessage.sign_membership_tag at h1
    cases hsn : c.sender with
    | Member i =>
      simp only [hsn] at h1
      obtain ⟨raw, _, h1⟩ := Res.bind_ok_iff.1 h1
      obtain ⟨tag, ht, h1⟩ := Res.bind_ok_iff.1 h1
      cases h1
      unfold CryptoProvider.sign_mac at ht
      rw [hh] at ht
      cases ht
      refine ⟨⟨trivial, trivial, g4, a1, ?_⟩, fun _ => rfl⟩
      simp only [hsn]
      exact ⟨trivial, by have := hmac mkey raw; show (hash.mac mkey raw).length < _; omega⟩
    | External i =>
      simp only [hsn] at h1
      cases h1
      refine ⟨⟨trivial, trivial, g4, a1, ?_⟩, fun ⟨i, hi⟩ => by rw [show c.sender = _ from hi] at hsn; cases hsn⟩
      simp only [hsn]
      trivial
    | NewMemberProposal =>
      simp only [hsn] at h1
      cases h1
      refine ⟨⟨trivial, trivial, g4, a1, ?_⟩, fun ⟨i, hi⟩ => by rw [show c.sender = _ from hi] at hsn; cases hsn⟩
      simp only [hsn]
      trivial
    | NewMemberCommit =>
      simp only [hsn] at h1
      cases h1
      refine ⟨⟨trivial, trivial, g4, a1, ?_⟩, fun ⟨i, hi⟩ => by rw [show c.sender = _ from hi] at hsn; cases hsn⟩
      simp only [hsn]
      trivial
  refine ⟨m, _, ?_, (writes_ok_iff (mlsMessage_w ⟨.MLS10, .PublicMessage m⟩ hfit.2) _).2 ⟨hfit.1, rfl⟩⟩
  unfold sendPublic
  rw [h0, Res.ok_bind, h1]

/-- C119: and what does not fit is not sent as a public message either. -/
theorem C119_too_long_public (P : CryptoProvider) (cs : CipherSuite) (ctx : GroupContext) (priv mkey : Bytes) (c : FramedContent)
    (m : PublicMessage) (hm : sendPublic P cs ctx priv mkey c = .ok m) :
    (framedContentTBS .MLS10 .PublicMessage c ctx).fits ∧
      (framedContentTBS .MLS10 .PublicMessage c ctx).bytes.length < 2 ^ 30 := by
  unfold sendPublic at hm
  obtain ⟨m0, h0, _⟩ := Res.bind_ok_iff.1 hm
  unfold PublicMessage.new at h0
  obtain ⟨a, ha, _⟩ := Res.bind_ok_iff.1 h0
  rw [AuthenticatedContent.new_iff] at ha
  obtain ⟨sg', _, h1, hs'⟩ := ha
  unfold CryptoProvider.sign_with_label at hs'
  rw [writes_bind_iff (mls_prefix_label_data_w _ _)] at hs'
  exact ⟨h1, hs'.1.2.2⟩

/-! ### in a group -/

/-- C119: in a group, whatever its history, with an epoch secret of the length of the hash, or a longer one, every member can
send everything that fits, in every generation, with the tree in memory or as read from the wire, and every member who has the
same tree, in memory or as read from the wire, and the same epoch secret reads it. -/
theorem C119_members (P : CryptoProvider) (cs : CipherSuite) (h : Hpke) (hp : P.hpke cs = .ok h) (hs : Sizes h)
    (hT : Expander h) (hS : Sealer h) (ha : AeadPair h) (l : LeafNode) (t u : RatchetTree) (evs : List TreeEvent)
    (hst : RoomSteps P cs [some (.Leaf l)] evs t) (htu : SameTree t u) (e : Bytes) (hel : h.kdf_extract_size ≤ e.length)
    (li : LeafIndex) (leaf : LeafNode) (hleaf : t.get (2 * li.toNat) = some (.Leaf leaf)) (priv : Bytes)
    (hk : SignaturePair P cs priv leaf.payload.signature_key) (hsign : CanSign P cs priv) (g : UInt32) (rnd : Bytes)
    (hr : rnd.length = 4) (ctx : GroupContext) (epoch : UInt64) (gid : GroupID) (c : Content) (hc : c.WF)
    (hfit : Sendable .PrivateMessage ⟨gid, epoch, .Member li, [], c⟩ ctx) :
    ∃ es sds m b, P.derive_secret cs e SECRET_LABEL_ENCRYPTION = .ok es ∧
      P.derive_secret cs e SECRET_LABEL_SENDER_DATA = .ok sds ∧
      (∀ sender, sender = t ∨ sender = u → send P cs ctx sender.num_leaves es sds li g rnd priv epoch gid c = .ok m) ∧
      MLSMessage.serialize ⟨.MLS10, .PrivateMessage m⟩ = .ok b ∧
      ∀ receiver, receiver = t ∨ receiver = u → ∀ rest, ∃ leaf' auth, receiver.get_leaf li.toNat = .ok (some leaf') ∧
        receive P cs ctx receiver.num_leaves es sds li.toNat leaf'.payload.signature_key (b ++ rest) =
          .ok (⟨li, g, rnd⟩, ⟨.PrivateMessage, ⟨gid, epoch, .Member li, [], c⟩, auth⟩) := by
  obtain ⟨K, hK, hn, hli⟩ := kept_leaves hst (li := li.toNat) (by rw [hleaf]; nofun)
  have hd : ∀ label : Bytes, label.length < 2 ^ 20 → ∃ out, P.derive_secret cs e label = .ok out ∧
      h.kdf_extract_size ≤ out.length := by
    intro label hlab
    unfold CryptoProvider.derive_secret
    rw [hp, Res.ok_bind]
    exact SecretTree.expand_total hp hT e label [] hel hlab (by decide)
  obtain ⟨es, h1, hes⟩ := hd SECRET_LABEL_ENCRYPTION (by decide)
  obtain ⟨sds, h2, hsds⟩ := hd SECRET_LABEL_SENDER_DATA (by decide)
  obtain ⟨m, b, hm, hb⟩ := C119_private P cs h hp hs hT hS K hK es sds hes hsds li hli g rnd hr priv hsign ctx epoch gid c hfit
  rw [← hn] at hm
  refine ⟨es, sds, m, b, h1, h2, ?_, hb, fun receiver hre rest => ?_⟩
  · rintro sender (rfl | rfl)
    · exact hm
    · rw [← (C64_agree P cs l t _ evs hst htu).2.1]; exact hm
  exact C71_members P cs h hp hs ha l t u evs hst htu t receiver (.inl rfl) hre e es sds es sds h1 h2 h1 h2 li leaf hleaf priv hk
    g rnd hr ctx epoch gid c hc m hm b rest hb

/-- C119: the same of public messages, with authenticated data. -/
theorem C119_members_public (P : CryptoProvider) (cs : CipherSuite) (h : Hpke) (hp : P.hpke cs = .ok h) (hT : Expander h)
    (hmac : HasMac P cs) (l : LeafNode) (t u : RatchetTree) (evs : List TreeEvent)
    (hst : RoomSteps P cs [some (.Leaf l)] evs t) (htu : SameTree t u) (e : Bytes) (hel : h.kdf_extract_size ≤ e.length)
    (li : LeafIndex) (leaf : LeafNode) (hleaf : t.get (2 * li.toNat) = some (.Leaf leaf)) (priv : Bytes)
    (hk : SignaturePair P cs priv leaf.payload.signature_key) (hsign : CanSign P cs priv) (ctx : GroupContext) (ad : Bytes)
    (c : Content) (hc : c.WF) (hfit : Sendable .PublicMessage ⟨ctx.group_id, ctx.epoch, .Member li, ad, c⟩ ctx) :
    ∃ mk m b, P.derive_secret cs e SECRET_LABEL_MEMBERSHIP = .ok mk ∧
      sendPublic P cs ctx priv mk ⟨ctx.group_id, ctx.epoch, .Member li, ad, c⟩ = .ok m ∧
      MLSMessage.serialize ⟨.MLS10, .PublicMessage m⟩ = .ok b ∧
      ∀ receiver, receiver = t ∨ receiver = u → ∀ rest, ∃ leaf', receiver.get_leaf li.toNat = .ok (some leaf') ∧
        receivePublic P cs ctx leaf'.payload.signature_key mk (b ++ rest) = .ok m ∧
        m.content = ⟨ctx.group_id, ctx.epoch, .Member li, ad, c⟩ := by
  have hd : ∃ out, P.derive_secret cs e SECRET_LABEL_MEMBERSHIP = .ok out := by
    unfold CryptoProvider.derive_secret
    rw [hp, Res.ok_bind]
    obtain ⟨o, ho, _⟩ := SecretTree.expand_total hp hT e SECRET_LABEL_MEMBERSHIP [] hel (by decide) (by decide)
    exact ⟨o, ho⟩
  obtain ⟨mk, h1⟩ := hd
  obtain ⟨m, b, hm, hb⟩ := C119_public P cs priv mk hsign hmac ctx _ hfit
  refine ⟨mk, m, b, h1, hm, hb, fun receiver hre rest => ?_⟩
  exact C80_members P cs l t u evs hst htu t receiver (.inl rfl) hre e mk mk h1 h1 li leaf hleaf priv hk ctx ad c hc m hm b rest hb

/-! ### the providers -/

private theorem ecdsa_le {p : Primitives} (hz : SizedPrimitives p) {c : Curve} {key m sg : Bytes}
    (h : Suites.ecdsaSign p c key m = .ok sg) : sg.length ≤ 256 := by
  unfold Suites.ecdsaSign at h
  split at h
  · cases h
  · split at h
    · next hs => cases h; exact hz.ecdsa _ _ _ _ hs
    · cases h

/-- C119: both providers have what it takes to send, in every supported suite, with every key pair that they generate; and with
the RustCrypto provider what is sent can be opened.  (With the ring provider it cannot: C59.) -/
theorem C119_providers (p : Primitives) (hl : LawfulPrimitives p) (hz : SizedPrimitives p) (P : CryptoProvider)
    (hP : Provider p P) (cs : CipherSuite) (hsup : P.supports cs = true) (rnd : Bytes) :
    ∃ h s kp, P.hpke cs = .ok h ∧ P.signature cs = .ok s ∧ s.signature_key_pair rnd = .ok kp ∧ Sizes h ∧ Expander h ∧ Sealer h ∧
      HasMac P cs ∧ CanSign P cs kp.private_key ∧ SignaturePair P cs kp.private_key kp.public_key ∧
      (P = RustCryptoProvider p → AeadPair h) := by
  have hcs : CipherSuite.ofU16 cs.toU16 = cs := by
    rcases hP with rfl | rfl <;> cases cs <;> first | rfl | cases hsup
  have hsp := C48_supported p P hP cs.toU16
  rw [hcs] at hsp
  obtain ⟨_, _, e1, e2, e3, _⟩ := hsp
  obtain ⟨hash, hh⟩ := e1.2 hsup
  obtain ⟨h, hp⟩ := e2.2 hsup
  obtain ⟨s, hs⟩ := e3.2 hsup
  obtain ⟨kp, hkp, _, hpair⟩ := C61_generated p hl P hP cs s hs rnd
  obtain ⟨hX, _⟩ := C48_expander p P hP cs h hp hz.hkdf hz.hmac
  obtain ⟨r, scheme, hrow, hbits, z1, z2, z3, hsizes, _⟩ := C48_hpke p P hP cs h hp
  refine ⟨h, s, kp, hp, hs, hkp, hsizes, hX, ?_, ?_, ?_, C61_pair p hl P hP cs s hs rnd kp hkp, ?_⟩
  · have hrows : extractSize r.kdf ≥ 32 ∧ keySize r.aead ≤ 32 ∧ nonceSize r.aead = 12 := by
      revert hrow
      unfold row
      split <;> intro hrow <;> cases hrow <;> decide
    obtain ⟨r', a, hr', hra, hseal⟩ := C59_seal p P hP cs h hp
    cases hrow.symm.trans hr'
    refine ⟨?_, ?_, ?_, ?_, ?_⟩
    · intro secret info n out ho
      rcases hP with rfl | rfl
      · obtain ⟨_, sc, _, _, he⟩ := C48_expand_rust p cs h hp
        rw [((he ..).1 ho).2.2, hz.hkdf]
      · obtain ⟨_, sc, _, _, he⟩ := C48_expand_ring p cs h hp
        rw [((he ..).1 ho).2, hz.hkdf]
    · omega
    · omega
    · omega
    · intro key nonce plain aad hk hn hp1 hp2
      rw [z2, ← hra] at hk
      rw [z3, ← hra] at hn
      cases hc : p.aead_encrypt a key nonce aad plain with
      | none => exact absurd hc (hz.encrypts a key nonce aad plain hk hn hp1 hp2)
      | some ct =>
        obtain ⟨c, t⟩ := ct
        obtain ⟨l1, l2, _⟩ := hl.aead _ _ _ _ _ _ _ hc
        rw [hra] at hk hn
        exact ⟨c ++ t, (hseal _ _ _ _ _).2 ⟨hk, hn, c, t, hc, rfl⟩, by rw [List.length_append, l1, l2]⟩
  · obtain ⟨r', sc, hr', hb', _, _, hm⟩ := C48_hash p P hP cs hash hh
    refine ⟨hash, hh, fun key m => ?_⟩
    rw [hm]
    have := hz.hmac sc key m
    have : hashBits sc ≤ 512 := by cases sc <;> decide
    omega
  · refine ⟨s, hs, fun m => ?_⟩
    obtain ⟨sg, hsg, _⟩ := hpair m
    refine ⟨sg, hsg, ?_⟩
    obtain ⟨d, hd, hw⟩ := signature_cases hP hs
    have hsg : Suites.sign p d.signature kp.private_key m = .ok sg := by rcases hw with rfl | rfl <;> exact hsg
    revert hsg
    cases d.signature with
    | ED25519 =>
      intro hsg
      unfold Suites.sign at hsg
      dsimp only at hsg
      split at hsg
      · cases hsg
      · cases hsg; exact hz.ed25519 _ _
    | ECDSA_SECP256R1_SHA256 => exact ecdsa_le hz
    | ECDSA_SECP384R1_SHA384 => exact ecdsa_le hz
    | ECDSA_SECP521R1_SHA512 => intro hsg; cases hsg
    | ED448 => intro hsg; cases hsg
  · rintro rfl
    exact C59_rust p hl cs h hp

/-- Primitives that are lawful and whose outputs have the right sizes. -/
def boundedPrimitives : Primitives :=
  { sizedPrimitives with
    ed25519_sign := fun k _ => List.replicate 64 (k.headD 0 + 1)
    ed25519_verify := fun k _ s => s == List.replicate 64 (k.headD 0)
    ecdsa_sign := fun _ k _ => some (List.replicate 70 (k.headD 0 + 1))
    ecdsa_verify := fun _ k _ s => s == List.replicate 70 (k.headD 0) }

theorem boundedPrimitives_lawful : LawfulPrimitives boundedPrimitives where
  aead := toyPrimitives_lawful.aead
  leftover := toyPrimitives_lawful.leftover
  ed25519 := by
    intro r priv pub h
    cases h
    exact ⟨List.length_replicate .., List.length_replicate .., fun m => by simp [boundedPrimitives, List.replicate]⟩
  ecdsa := by
    intro c r priv pub h
    cases h
    refine ⟨List.length_replicate .., .inr (List.length_replicate ..), fun m => ?_⟩
    cases c <;> exact ⟨_, rfl, by simp [boundedPrimitives, Curve.field, List.replicate]⟩

theorem boundedPrimitives_sized : SizedPrimitives boundedPrimitives where
  hkdf _ _ _ _ := List.length_replicate ..
  hmac s _ _ := by
    show 8 * (List.replicate _ _).length = _
    rw [List.length_replicate]; cases s <;> rfl
  encrypts _ _ _ _ _ _ _ _ _ := nofun
  ed25519 _ _ := by show (List.replicate _ _).length ≤ 256; rw [List.length_replicate]; decide
  ecdsa _ _ _ _ h := by cases h; show (List.replicate _ _).length ≤ 256; rw [List.length_replicate]; decide

private abbrev sendLeaf : LeafNode :=
  { toyLeaf 0 with payload := { (toyLeaf 0).payload with signature_key := List.replicate 32 6 } }

/-- A member of a new group sends 1000 bytes, in generation 7, to themselves. -/
example : ∃ es sds m b, (RustCryptoProvider boundedPrimitives).derive_secret (.ofU16 1) (List.replicate 32 9)
      SECRET_LABEL_ENCRYPTION = .ok es ∧
    (RustCryptoProvider boundedPrimitives).derive_secret (.ofU16 1) (List.replicate 32 9) SECRET_LABEL_SENDER_DATA = .ok sds ∧
    send (RustCryptoProvider boundedPrimitives) (.ofU16 1) toyContext (RatchetTree.num_leaves [some (.Leaf sendLeaf)]) es sds 0 7
      [1, 2, 3, 4] (List.replicate 32 5) 3 [7] (.Application (List.replicate 1000 1)) = .ok m ∧
    MLSMessage.serialize ⟨.MLS10, .PrivateMessage m⟩ = .ok b := by
  obtain ⟨h, s, kp, hp, hs, hkp, hz, hX, hS, _, hsign, hpair, ha⟩ := C119_providers boundedPrimitives boundedPrimitives_lawful
    boundedPrimitives_sized (RustCryptoProvider boundedPrimitives) (.inl rfl) (.ofU16 1) rfl [5]
  cases hs
  cases hkp
  cases hp
  obtain ⟨es, sds, m, b, h1, h2, h3, h4, _⟩ := C119_members (RustCryptoProvider boundedPrimitives) (.ofU16 1) _ rfl hz hX hS
    (ha rfl) sendLeaf [some (.Leaf sendLeaf)] [some (.Leaf sendLeaf)] [] (.nil _) (.inl rfl) (List.replicate 32 9)
    (by decide) 0 sendLeaf rfl (List.replicate 32 5) hpair hsign 7 [1, 2, 3, 4] rfl toyContext 3 [7]
    (.Application (List.replicate 1000 1)) trivial
    (C119_application toyContext (by decide) _ _ _ _ _ _ (by rw [List.length_replicate]; decide))
  exact ⟨es, sds, m, b, h1, h2, h3 _ (.inl rfl), h4⟩

end Rmls
