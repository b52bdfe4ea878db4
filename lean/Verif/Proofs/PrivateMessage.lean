import Verif.Spec.PrivateMessage
import Verif.Proofs.SecretTree
/-
Encryption of messages.
-/
namespace Rmls
open Spec Spec.Enc

theorem signs_iff (P : CryptoProvider) (cs : CipherSuite) (k l c sg : Bytes) :
    P.sign_with_label cs k l c = .ok sg ↔ Signs P cs k l c sg := by
  unfold CryptoProvider.sign_with_label Signs
  rw [writes_bind_iff (mls_prefix_label_data_w _ _), Res.bind_ok_iff]

theorem xorGuard_eq : ∀ n g : Bytes, xorGuard n g = guarded n g
  | [], [] => rfl
  | x :: n, [] => by simp [xorGuard, guarded]
  | [], y :: g => by simp [xorGuard, guarded]
  | x :: n, y :: g => by
    rw [xorGuard, xorGuard_eq n g]
    simp [guarded]

theorem content_keys_iff {P : CryptoProvider} {cs : CipherSuite} {h : Hpke} (hp : P.hpke cs = .ok h) (hs : Sizes h)
    (x : RatchetSecret) (guard key nonce : Bytes) :
    derive_private_message_key_and_nonce P cs x guard = .ok (key, nonce) ↔
      ContentKeys h x.secret x.generation.toNat guard key nonce := by
  unfold derive_private_message_key_and_nonce ContentKeys
  simp only [Res.bind_ok_iff, RatchetSecret.derive_key_iff hp hs, RatchetSecret.derive_nonce_iff hp hs, xorGuard_eq]
  constructor
  · rintro ⟨k, h1, n, h2, h3⟩
    split at h3
    · cases h3
    · cases h3
      exact ⟨h1, n, h2, by omega, rfl⟩
  · rintro ⟨h1, n, h2, h3, rfl⟩
    exact ⟨key, h1, n, h2, by rw [if_neg (by omega)]; rfl⟩

theorem sample_eq {P : CryptoProvider} {cs : CipherSuite} {h : Hpke} (hp : P.hpke cs = .ok h) (c : Bytes) :
    sample_ciphertext P cs c = .ok (c.take h.kdf_extract_size) := by
  unfold sample_ciphertext
  rw [hp, Res.ok_bind]
  dsimp only
  split
  · rw [List.take_of_length_le (by omega)]; rfl
  · rfl

theorem sender_key_iff {P : CryptoProvider} {cs : CipherSuite} {h : Hpke} (hp : P.hpke cs = .ok h) (hs : Sizes h)
    (s c out : Bytes) : expand_sender_data_key P cs s c = .ok out ↔
      Expands h s (text "key") (c.take h.kdf_extract_size) h.aead_key_size out := by
  unfold expand_sender_data_key
  rw [hp, Res.ok_bind, sample_eq hp, Res.ok_bind, expand_with_label_iff hp _ _ _ hs.2.2, text_key]

theorem sender_nonce_iff {P : CryptoProvider} {cs : CipherSuite} {h : Hpke} (hp : P.hpke cs = .ok h) (hs : Sizes h)
    (s c out : Bytes) : expand_sender_data_nonce P cs s c = .ok out ↔
      Expands h s (text "nonce") (c.take h.kdf_extract_size) h.aead_nonce_size out := by
  unfold expand_sender_data_nonce
  rw [hp, Res.ok_bind, sample_eq hp, Res.ok_bind, expand_with_label_iff hp _ _ _ hs.2.1, text_nonce]

theorem senderData_fits (x : SenderData) : (senderData x).fits := ⟨trivial, trivial, trivial⟩

theorem encrypt_sender_data_iff {P : CryptoProvider} {cs : CipherSuite} {h : Hpke} (hp : P.hpke cs = .ok h)
    (hs : Sizes h) (s : Bytes) (sd : SenderData) (c : FramedContent) (ct out : Bytes) :
    encrypt_sender_data P cs s sd c ct = .ok out ↔ SenderDataSealed h s sd c ct out := by
  unfold encrypt_sender_data SenderDataSealed SenderDataKeys
  simp only [Res.bind_ok_iff, sender_key_iff hp hs, sender_nonce_iff hp hs, writes_ok_iff (senderDataAAD_w _),
    writes_ok_iff (senderData_w _), hp]
  constructor
  · rintro ⟨k, h1, n, h2, a, ⟨h3, rfl⟩, d, ⟨_, rfl⟩, h', h4, h5⟩
    cases h4
    exact ⟨k, n, ⟨h1, h2⟩, h3, h5⟩
  · rintro ⟨k, n, ⟨h1, h2⟩, h3, h5⟩
    exact ⟨k, h1, n, h2, _, ⟨h3, rfl⟩, _, ⟨senderData_fits sd, rfl⟩, h, rfl, h5⟩

theorem encrypt_content_iff {P : CryptoProvider} {cs : CipherSuite} {h : Hpke} (hp : P.hpke cs = .ok h)
    (hs : Sizes h) (priv : Bytes) (x : RatchetSecret) (c : FramedContent) (ctx : GroupContext) (guard out : Bytes) :
    encrypt_private_message_content P cs priv x c ctx guard = .ok out ↔
      ∃ sg, (framedContentTBS .MLS10 .PrivateMessage c ctx).fits ∧
        Signs P cs priv (text "FramedContentTBS") (framedContentTBS .MLS10 .PrivateMessage c ctx).bytes sg ∧
        ContentSealed h x.secret x.generation.toNat guard c sg out := by
  unfold encrypt_private_message_content ContentSealed
  simp only [Res.bind_ok_iff, AuthenticatedContent.new_iff, signs_iff]
  constructor
  · rintro ⟨a, ⟨sg, rfl, h1, h2⟩, pl, h3, ⟨k, n⟩, h4, aad, h5, h', h6, h7⟩
    rw [writes_ok_iff (privateMessageContent_w _)] at h3
    rw [writes_ok_iff (privateContentAAD_w _)] at h5
    rw [content_keys_iff hp hs] at h4
    rw [hp] at h6
    cases h6
    obtain ⟨h3, rfl⟩ := h3
    obtain ⟨h5, rfl⟩ := h5
    exact ⟨sg, h1, h2, k, n, h4, h3, h5, h7⟩
  · rintro ⟨sg, h1, h2, k, n, h4, h3, h5, h7⟩
    exact ⟨_, ⟨sg, rfl, h1, h2⟩, _, (writes_ok_iff (privateMessageContent_w _) _).2 ⟨h3, rfl⟩, (k, n),
      (content_keys_iff hp hs ..).2 h4, _, (writes_ok_iff (privateContentAAD_w _) _).2 ⟨h5, rfl⟩, h, hp, h7⟩

theorem privateMessage_new_iff {P : CryptoProvider} {cs : CipherSuite} {h : Hpke} (hp : P.hpke cs = .ok h)
    (hs : Sizes h) (priv : Bytes) (x : RatchetSecret) (sds : Bytes) (c : FramedContent) (sd : SenderData)
    (ctx : GroupContext) (m : PrivateMessage) :
    PrivateMessage.new P cs priv x sds c sd ctx = .ok m ↔
      (m.group_id = c.group_id ∧ m.epoch = c.epoch ∧ m.content_type = c.content.content_type ∧
        m.authenticated_data = c.authenticated_data) ∧
      (∃ sg, (framedContentTBS .MLS10 .PrivateMessage c ctx).fits ∧
        Signs P cs priv (text "FramedContentTBS") (framedContentTBS .MLS10 .PrivateMessage c ctx).bytes sg ∧
        ContentSealed h x.secret x.generation.toNat sd.reuse_guard c sg m.ciphertext) ∧
      SenderDataSealed h sds sd c m.ciphertext m.encrypted_sender_data := by
  unfold PrivateMessage.new
  simp only [Res.bind_ok_iff, encrypt_content_iff hp hs, encrypt_sender_data_iff hp hs]
  constructor
  · rintro ⟨ct, h1, es, h2, h3⟩
    cases h3
    exact ⟨⟨rfl, rfl, rfl, rfl⟩, h1, h2⟩
  · rintro ⟨⟨a1, a2, a3, a4⟩, h2, h3⟩
    refine ⟨_, h2, _, h3, ?_⟩
    rw [← a1, ← a2, ← a3, ← a4]
    rfl

/-- The sender data is accepted exactly when it opens, under these keys and additional data, to an encoding of it (to
which more bytes may be appended: `deserialize_exact`). -/
theorem decrypt_sender_data_iff {P : CryptoProvider} {cs : CipherSuite} {h : Hpke} (hp : P.hpke cs = .ok h)
    (hs : Sizes h) (m : PrivateMessage) (s : Bytes) (sd : SenderData) :
    m.decrypt_sender_data P cs s = .ok sd ↔
      sd.reuse_guard.length = 4 ∧ ∃ key nonce rest, SenderDataKeys h s m.ciphertext key nonce ∧
        (senderDataAAD ⟨m.group_id, m.epoch, m.content_type⟩).fits ∧
        h.aead_open key nonce m.encrypted_sender_data (senderDataAAD ⟨m.group_id, m.epoch, m.content_type⟩).bytes =
          .ok ((senderData sd).bytes ++ rest) := by
  unfold PrivateMessage.decrypt_sender_data SenderDataKeys
  simp only [Res.bind_ok_iff, sender_key_iff hp hs, sender_nonce_iff hp hs, writes_ok_iff (senderDataAAD_w _), hp]
  constructor
  · rintro ⟨k, h1, n, h2, a, ⟨h3, rfl⟩, h', h4, raw, h5, h6⟩
    cases h4
    unfold deserialize_exact at h6
    split at h6
    · next x rest he =>
      cases h6
      obtain ⟨hw, b, hb, rfl⟩ := SenderData.lawful.canon _ _ _ he
      obtain ⟨_, rfl⟩ := (writes_ok_iff (senderData_w sd) b).1 hb
      exact ⟨hw, k, n, rest, ⟨h1, h2⟩, h3, h5⟩
    · cases h6
    · cases h6
  · rintro ⟨hw, k, n, rest, ⟨h1, h2⟩, h3, h5⟩
    refine ⟨k, h1, n, h2, _, ⟨h3, rfl⟩, h, rfl, _, h5, ?_⟩
    unfold deserialize_exact
    rw [SenderData.lawful.rt sd _ rest hw ((writes_ok_iff (senderData_w sd) _).2 ⟨senderData_fits sd, rfl⟩)]

end Rmls
