import Verif.Props.PrivateMessage
import Verif.Props.Welcome
import Verif.Props.Suites
/-
Property C63: messages and welcomes with the two providers that come with the crate.

The build with the feature `RingCryptoProvider` reads contents with another function,
`PrivateMessage.decrypt_content_ring`.
-/
namespace Rmls
open Spec Suites Enc

/-- C63: when content is accepted in the build with the ring provider: the decrypted bytes begin with its encoding. -/
theorem C63_ring_content (P : CryptoProvider) (cs : CipherSuite) (h : Hpke) (hp : P.hpke cs = .ok h)
    (hs : Sizes h) (m : PrivateMessage) (x : RatchetSecret) (guard : Bytes) (pc : PrivateMessageContent) :
    m.decrypt_content_ring P cs x guard = .ok pc ↔
      pc.WF ∧ pc.content.content_type = m.content_type ∧
      ∃ key nonce rest, ContentKeys h x.secret x.generation.toNat guard key nonce ∧
        (privateContentAAD ⟨m.group_id, m.epoch, m.content_type, m.authenticated_data⟩).fits ∧
        (privateMessageContent pc).fits ∧
        h.aead_open key nonce m.ciphertext
          (privateContentAAD ⟨m.group_id, m.epoch, m.content_type, m.authenticated_data⟩).bytes =
          .ok ((privateMessageContent pc).bytes ++ rest) := by
  have hcore := PrivateMessageContent.lawful_core m.content_type
  unfold PrivateMessage.decrypt_content_ring
  simp only [Res.bind_ok_iff]
  constructor
  · rintro ⟨⟨k, n⟩, h1, aad, h2, h', h3, raw, h4, h5⟩
    rw [content_keys_iff hp hs] at h1
    obtain ⟨h2', rfl⟩ := (writes_ok_iff (privateContentAAD_w _) _).1 h2
    rw [hp] at h3
    cases h3
    split at h5
    · next c r he =>
      cases h5
      obtain ⟨⟨hw, hc⟩, b, hb, rfl⟩ := hcore.canon _ _ _ he
      obtain ⟨hf, rfl⟩ := (writes_ok_iff (privateMessageContent_w pc) _).1 hb
      exact ⟨hw, hc, k, n, r, h1, h2', hf, h4⟩
    · cases h5
    · cases h5
  · rintro ⟨hw, hc, k, n, z, h1, h2, hf, h4⟩
    refine ⟨(k, n), (content_keys_iff hp hs ..).2 h1, _, (writes_ok_iff (privateContentAAD_w _) _).2 ⟨h2, rfl⟩, h, hp,
      _, h4, ?_⟩
    have := hcore.rt pc _ z ⟨hw, hc⟩ ((writes_ok_iff (privateMessageContent_w pc) _).2 ⟨hf, rfl⟩)
    unfold PrivateMessage.deserializeRing
    rw [this]
    rfl

/-- C63, RustCrypto provider: a message built with a generated signature key decrypts to the sender data and the content
that went in, and the signature verifies.  In every supported suite, for libraries meeting their laws. -/
theorem C63_rust (p : Primitives) (hl : LawfulPrimitives p) (cs : CipherSuite) (h : Hpke)
    (hp : (RustCryptoProvider p).hpke cs = .ok h) (s : Signature) (hsg : (RustCryptoProvider p).signature cs = .ok s)
    (rnd : Bytes) (kp : SignatureKeyPair) (hk : s.signature_key_pair rnd = .ok kp) (x : RatchetSecret)
    (sds : Bytes) (c : FramedContent) (hc : c.WF) (sd : SenderData) (hg : sd.reuse_guard.length = 4)
    (hm : c.sender = .Member sd.leaf_index) (ctx : GroupContext) (m : PrivateMessage)
    (hb : PrivateMessage.new (RustCryptoProvider p) cs kp.private_key x sds c sd ctx = .ok m) :
    m.decrypt_sender_data (RustCryptoProvider p) cs sds = .ok sd ∧
    ∃ pc, m.decrypt_content (RustCryptoProvider p) cs x sd.reuse_guard = .ok pc ∧ pc.content = c.content ∧
      (m.authenticated_content sd pc).content = c ∧
      (m.authenticated_content sd pc).verify_signature (RustCryptoProvider p) cs kp.public_key ctx = .ok () := by
  obtain ⟨_, _, _, _, _, _, _, hs, _⟩ := C48_hpke p _ (.inl rfl) cs h hp
  obtain ⟨h1, pc, h2, h3, _, h4, h5⟩ := C38_round_trip _ cs h hp hs (C59_rust p hl cs h hp) _ _
    (C61_pair p hl _ (.inl rfl) cs s hsg rnd kp hk) x sds c hc sd hg hm ctx m hb
  exact ⟨h1, pc, h2, h3, h4, h5⟩

/-- C63, ring provider: the same, although opening returns too many bytes (C59): they stay unread. -/
theorem C63_ring (p : Primitives) (hl : LawfulPrimitives p) (cs : CipherSuite) (h : Hpke)
    (hp : (RingCryptoProvider p).hpke cs = .ok h) (s : Signature) (hsg : (RingCryptoProvider p).signature cs = .ok s)
    (rnd : Bytes) (kp : SignatureKeyPair) (hk : s.signature_key_pair rnd = .ok kp) (x : RatchetSecret)
    (sds : Bytes) (c : FramedContent) (hc : c.WF) (sd : SenderData) (hg : sd.reuse_guard.length = 4)
    (hm : c.sender = .Member sd.leaf_index) (ctx : GroupContext) (m : PrivateMessage)
    (hb : PrivateMessage.new (RingCryptoProvider p) cs kp.private_key x sds c sd ctx = .ok m) :
    m.decrypt_sender_data (RingCryptoProvider p) cs sds = .ok sd ∧
    ∃ pc, m.decrypt_content_ring (RingCryptoProvider p) cs x sd.reuse_guard = .ok pc ∧ pc.content = c.content ∧
      (m.authenticated_content sd pc).content = c ∧
      (m.authenticated_content sd pc).verify_signature (RingCryptoProvider p) cs kp.public_key ctx = .ok () := by
  obtain ⟨_, _, _, _, _, _, _, hs, _⟩ := C48_hpke p _ (.inr rfl) cs h hp
  have hpair := C61_pair p hl _ (.inr rfl) cs s hsg rnd kp hk
  obtain ⟨⟨h1, h2, h3, h4⟩, ⟨sg, h5, h6, key, nonce, h7, h8, h9, h10⟩, k2, n2, h11, h12, h13⟩ :=
    (C38_built _ cs h hp hs kp.private_key x sds c sd ctx m).1 hb
  obtain ⟨more1, _, ho1⟩ := C59_ring_partial p hl cs h hp _ _ _ _ _ h13
  obtain ⟨more2, _, ho2⟩ := C59_ring_partial p hl cs h hp _ _ _ _ _ h10
  refine ⟨(C38_sender_data _ cs h hp hs m sds sd).2 ⟨hg, k2, n2, more1, h11, ?_, ?_⟩, ⟨c.content, ⟨sg, []⟩⟩,
    (C63_ring_content _ cs h hp hs m x _ _).2 ⟨⟨hc, fun _ => rfl⟩, h3.symm, key, nonce, more2, h7, ?_, h8, ?_⟩, rfl, ?_,
    ?_⟩
  · rw [h1, h2, h3]; exact h12
  · rw [h1, h2, h3]; exact ho1
  · rw [h1, h2, h3, h4]; exact h9
  · rw [h1, h2, h3, h4]; exact ho2
  · unfold PrivateMessage.authenticated_content
    simp only
    rw [h1, h2, h4, ← hm]
  · rw [C30_verify]
    unfold PrivateMessage.authenticated_content
    simp only
    rw [h1, h2, h4, ← hm]
    obtain ⟨f, s', hs1, hs2⟩ := h6
    exact ⟨h5, f, s', hs1, hpair _ _ _ hs1 hs2⟩

/-- C63: group infos sealed for a welcome, with both providers. -/
theorem C63_welcome (p : Primitives) (hl : LawfulPrimitives p) (P : CryptoProvider) (hP : Provider p P) (x : Welcome)
    (h : Hpke) (hp : P.hpke x.cipher_suite = .ok h) (joiner psk key nonce : Bytes)
    (hkeys : WelcomeKeys h joiner psk key nonce) (gi : GroupInfo) (hgi : (groupInfo gi).fits) (hw : gi.WF)
    (hseal : h.aead_seal key nonce (groupInfo gi).bytes [] = .ok x.encrypted_group_info) :
    x.decrypt_group_info P joiner psk = .ok gi := by
  obtain ⟨_, _, _, _, _, _, _, hs, _⟩ := C48_hpke p P hP _ h hp
  refine (C47_group_info P x h hp hs _ _ _).2 ?_
  rcases hP with rfl | rfl
  · exact ⟨hw, hgi, key, nonce, [], hkeys, by rw [List.append_nil]; exact C59_rust p hl _ h hp _ _ _ _ _ hseal⟩
  · obtain ⟨more, _, ho⟩ := C59_ring_partial p hl _ h hp _ _ _ _ _ hseal
    exact ⟨hw, hgi, key, nonce, more, hkeys, ho⟩

/-- C63, padding in the build with the ring provider: whatever it is, it is accepted. -/
theorem C63_padding_any (p : Primitives) (hl : LawfulPrimitives p) (cs : CipherSuite) (h : Hpke)
    (hp : (RingCryptoProvider p).hpke cs = .ok h) (m : PrivateMessage) (x : RatchetSecret) (guard key nonce : Bytes)
    (hk : ContentKeys h x.secret x.generation.toNat guard key nonce)
    (hf : (privateContentAAD ⟨m.group_id, m.epoch, m.content_type, m.authenticated_data⟩).fits)
    (pc : PrivateMessageContent) (hw : pc.WF) (hc : pc.content.content_type = m.content_type)
    (hpf : (privateMessageContent pc).fits) (padding : Bytes)
    (hseal : h.aead_seal key nonce ((privateMessageContent pc).bytes ++ padding)
      (privateContentAAD ⟨m.group_id, m.epoch, m.content_type, m.authenticated_data⟩).bytes = .ok m.ciphertext) :
    m.decrypt_content_ring (RingCryptoProvider p) cs x guard = .ok pc := by
  obtain ⟨_, _, _, _, _, _, _, hs, _⟩ := C48_hpke p _ (.inr rfl) cs h hp
  obtain ⟨more, _, ho⟩ := C59_ring_partial p hl cs h hp _ _ _ _ _ hseal
  exact (C63_ring_content _ cs h hp hs m x _ _).2 ⟨hw, hc, key, nonce, padding ++ more, hk, hf, hpf, by
    rw [ho, List.append_assoc]⟩

/-! ### Examples -/

private abbrev suite1 : CipherSuite := .MLS_128_DHKEMX25519_AES128GCM_SHA256_Ed25519

private abbrev secret32 : Bytes := List.replicate 32 1

/-- Some text and a byte that is no padding, as `toyPrimitives` encrypt them. -/
def badlyPadded : PrivateMessage where
  group_id := [7]
  epoch := 3
  content_type := .Application
  authenticated_data := []
  encrypted_sender_data := []
  ciphertext := [2, 7, 8, 1, 9] ++ [1] ++ List.replicate 16 7

set_option maxRecDepth 100000 in
/-- C63 is false for padding in the build with the ring provider: a message is accepted whose padding is not zero. -/
theorem C63_padding_refuted :
    badlyPadded.decrypt_content_ring (RingCryptoProvider toyPrimitives) suite1 ⟨secret32, 3⟩ [1, 2, 3, 4] =
      .ok ⟨.Application [7, 8], ⟨[9], []⟩⟩ ∧
    badlyPadded.decrypt_content (RustCryptoProvider toyPrimitives) suite1 ⟨secret32, 3⟩ [1, 2, 3, 4] =
      .err .PaddingContainsNonZeroBytes := by
  constructor <;> decide +kernel

set_option maxRecDepth 100000 in
/-- A message is built in suite 1 by both providers with a generated key. -/
example (P : CryptoProvider) (hP : Provider toyPrimitives P) : ∃ s kp m, P.signature suite1 = .ok s ∧
    s.signature_key_pair [5] = .ok kp ∧
    PrivateMessage.new P suite1 kp.private_key ⟨secret32, 3⟩ secret32 toyContent ⟨2, 3, [1, 2, 3, 4]⟩ toyContext = .ok m ∧
    toyContent.WF ∧ toyContent.sender = .Member 2 := by
  rcases hP with rfl | rfl
  · exact ⟨_, _, _, rfl, rfl, rfl, trivial, rfl⟩
  · exact ⟨_, _, _, rfl, rfl, rfl, trivial, rfl⟩

set_option maxRecDepth 100000 in
/-- A group info sealed for a welcome in suite 1. -/
example (P : CryptoProvider) (hP : Provider toyPrimitives P) : ∃ h key nonce c, P.hpke suite1 = .ok h ∧
    WelcomeKeys h secret32 secret32 key nonce ∧ h.aead_seal key nonce (groupInfo toyGroupInfo).bytes [] = .ok c := by
  rcases hP with rfl | rfl
  all_goals
    refine ⟨_, List.replicate 16 1, List.replicate 12 1, _, rfl, ⟨List.replicate 32 1, ⟨secret32 ++ secret32, rfl, ?_⟩, ?_, ?_⟩,
      rfl⟩ <;> exact ⟨by decide, by decide, rfl⟩

end Rmls
