import Verif.Proofs.PrivateMessage
import Verif.Props.Codec
import Verif.Props.SecretTree
/-
Property C38: private messages.
-/
namespace Rmls
open Spec Spec.Enc

/-! ## C38 -/

/-- C38: the message that is built is the one of RFC 9420, sections 6.3.1 and 6.3.2. -/
theorem C38_built (P : CryptoProvider) (cs : CipherSuite) (h : Hpke) (hp : P.hpke cs = .ok h)
    (hs : Sizes h) (priv : Bytes) (x : RatchetSecret) (sds : Bytes) (c : FramedContent) (sd : SenderData)
    (ctx : GroupContext) (m : PrivateMessage) :
    PrivateMessage.new P cs priv x sds c sd ctx = .ok m ↔
      (m.group_id = c.group_id ∧ m.epoch = c.epoch ∧ m.content_type = c.content.content_type ∧
        m.authenticated_data = c.authenticated_data) ∧
      (∃ sg, (framedContentTBS .MLS10 .PrivateMessage c ctx).fits ∧
        Signs P cs priv (text "FramedContentTBS") (framedContentTBS .MLS10 .PrivateMessage c ctx).bytes sg ∧
        ContentSealed h x.secret x.generation.toNat sd.reuse_guard c sg m.ciphertext) ∧
      SenderDataSealed h sds sd c m.ciphertext m.encrypted_sender_data :=
  privateMessage_new_iff hp hs priv x sds c sd ctx m

/-- C38: when sender data is accepted. -/
theorem C38_sender_data (P : CryptoProvider) (cs : CipherSuite) (h : Hpke) (hp : P.hpke cs = .ok h)
    (hs : Sizes h) (m : PrivateMessage) (s : Bytes) (sd : SenderData) :
    m.decrypt_sender_data P cs s = .ok sd ↔
      sd.reuse_guard.length = 4 ∧ ∃ key nonce rest, SenderDataKeys h s m.ciphertext key nonce ∧
        (senderDataAAD ⟨m.group_id, m.epoch, m.content_type⟩).fits ∧
        h.aead_open key nonce m.encrypted_sender_data (senderDataAAD ⟨m.group_id, m.epoch, m.content_type⟩).bytes =
          .ok ((senderData sd).bytes ++ rest) :=
  decrypt_sender_data_iff hp hs m s sd

/-- C38: when content is accepted: it opens, under the keys of this generation and guard and with the header as
additional data, to an encoding of content and authentication data followed by zeros. -/
theorem C38_content (P : CryptoProvider) (cs : CipherSuite) (h : Hpke) (hp : P.hpke cs = .ok h)
    (hs : Sizes h) (m : PrivateMessage) (x : RatchetSecret) (guard : Bytes) (pc : PrivateMessageContent) :
    m.decrypt_content P cs x guard = .ok pc ↔
      pc.WF ∧ pc.content.content_type = m.content_type ∧
      ∃ key nonce n, ContentKeys h x.secret x.generation.toNat guard key nonce ∧
        (privateContentAAD ⟨m.group_id, m.epoch, m.content_type, m.authenticated_data⟩).fits ∧
        (privateMessageContent pc).fits ∧
        h.aead_open key nonce m.ciphertext
          (privateContentAAD ⟨m.group_id, m.epoch, m.content_type, m.authenticated_data⟩).bytes =
          .ok ((privateMessageContent pc).bytes ++ zeros n) := by
  unfold PrivateMessage.decrypt_content
  simp only [Res.bind_ok_iff]
  constructor
  · rintro ⟨⟨k, n⟩, h1, aad, h2, h', h3, raw, h4, h5⟩
    rw [content_keys_iff hp hs] at h1
    obtain ⟨h2', rfl⟩ := (writes_ok_iff (privateContentAAD_w _) _).1 h2
    rw [hp] at h3
    cases h3
    split at h5
    · next c r he =>
      cases h5
      obtain ⟨_, hw, hc, b, z, hb, rfl⟩ := (C39_padding ..).1 he
      obtain ⟨hf, rfl⟩ := (writes_ok_iff (privateMessageContent_w pc) _).1 hb
      exact ⟨hw, hc, k, n, z, h1, h2', hf, h4⟩
    · cases h5
    · cases h5
  · rintro ⟨hw, hc, k, n, z, h1, h2, hf, h4⟩
    refine ⟨(k, n), (content_keys_iff hp hs ..).2 h1, _, (writes_ok_iff (privateContentAAD_w _) _).2 ⟨h2, rfl⟩, h, hp,
      _, h4, ?_⟩
    have := (C39_padding m.content_type ((privateMessageContent pc).bytes ++ zeros z) pc []).2
      ⟨rfl, hw, hc, _, z, (writes_ok_iff (privateMessageContent_w pc) _).2 ⟨hf, rfl⟩, rfl⟩
    rw [this]
    rfl

/-- C38: with an AEAD that opens what it sealed and a matching key pair, a built message decrypts to the sender data and
the content that went in, and the content put together again is the original one and carries a valid signature. -/
theorem C38_round_trip (P : CryptoProvider) (cs : CipherSuite) (h : Hpke) (hp : P.hpke cs = .ok h)
    (hs : Sizes h) (ha : AeadPair h) (priv pub : Bytes) (hk : SignaturePair P cs priv pub) (x : RatchetSecret)
    (sds : Bytes) (c : FramedContent) (hc : c.WF) (sd : SenderData) (hg : sd.reuse_guard.length = 4)
    (hm : c.sender = .Member sd.leaf_index) (ctx : GroupContext) (m : PrivateMessage)
    (hb : PrivateMessage.new P cs priv x sds c sd ctx = .ok m) :
    m.decrypt_sender_data P cs sds = .ok sd ∧
    ∃ pc, m.decrypt_content P cs x sd.reuse_guard = .ok pc ∧ pc.content = c.content ∧
      (m.authenticated_content sd pc).wire_format = .PrivateMessage ∧ (m.authenticated_content sd pc).content = c ∧
      (m.authenticated_content sd pc).verify_signature P cs pub ctx = .ok () := by
  obtain ⟨⟨h1, h2, h3, h4⟩, ⟨sg, h5, h6, key, nonce, h7, h8, h9, h10⟩, k2, n2, h11, h12, h13⟩ :=
    (C38_built P cs h hp hs priv x sds c sd ctx m).1 hb
  refine ⟨(C38_sender_data P cs h hp hs m sds sd).2 ⟨hg, k2, n2, [], h11, ?_, ?_⟩, ⟨c.content, ⟨sg, []⟩⟩,
    (C38_content P cs h hp hs m x _ _).2 ⟨⟨?_, ?_⟩, h3.symm, key, nonce, 0, h7, ?_, h8, ?_⟩, rfl, rfl, ?_, ?_⟩
  · rw [h1, h2, h3]; exact h12
  · rw [h1, h2, h3, List.append_nil]; exact ha _ _ _ _ _ h13
  · exact hc
  · intro _; rfl
  · rw [h1, h2, h3, h4]; exact h9
  · rw [h1, h2, h3, h4, show zeros 0 = [] from rfl, List.append_nil]; exact ha _ _ _ _ _ h10
  · unfold PrivateMessage.authenticated_content
    simp only
    rw [h1, h2, h4, ← hm]
  · rw [C30_verify]
    unfold PrivateMessage.authenticated_content
    simp only
    rw [h1, h2, h4, ← hm]
    obtain ⟨f, s, hs1, hs2⟩ := h6
    exact ⟨h5, f, s, hs1, hk _ _ _ hs1 hs2⟩

/-- The example suite has such an AEAD, and application data, a proposal and a commit make the round trip. -/
example : AeadPair toyHpke := by
  intro k n p a c h
  cases h
  show (if (k ++ n ++ a).isPrefixOf (k ++ n ++ a ++ p) then _ else _) = _
  rw [if_pos (List.isPrefixOf_iff_prefix.2 (List.prefix_append _ _)), List.drop_left]
set_option maxRecDepth 100000 in
example : ∃ m, PrivateMessage.new toyProvider toyContext.cipher_suite [9] ⟨[1], 3⟩ [5] toyContent
    ⟨2, 3, [1, 2, 3, 4]⟩ toyContext = .ok m ∧ toyContent.WF ∧ toyContent.sender = .Member 2 := ⟨_, rfl, trivial, rfl⟩
set_option maxRecDepth 100000 in
example : ∃ m, PrivateMessage.new toyProvider toyContext.cipher_suite [9] ⟨[1], 3⟩ [5]
    { toyContent with content := .Commit ⟨[], none⟩ } ⟨2, 3, [1, 2, 3, 4]⟩ toyContext = .ok m := ⟨_, rfl⟩

end Rmls
