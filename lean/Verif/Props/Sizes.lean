import Verif.Props.Robust
/-
Property C109: keys and nonces of the wrong size are refused with an error.  The ring provider does so; the RustCrypto
provider panics.  The keys and nonces that the library itself derives always have the right size.
-/
namespace Rmls
open Spec Suites Enc

/-- C109 for the ring provider: a key or a nonce of another size than RFC 9180 gives to the cipher of the suite is refused
with an error, for sealing and for opening. -/
theorem C109_ring (p : Primitives) (cs : CipherSuite) (h : Hpke) (hh : (RingCryptoProvider p).hpke cs = .ok h)
    (r : Row) (hr : row cs.toU16.toNat = some r) (key nonce : Bytes)
    (hw : key.length ≠ keySize r.aead ∨ nonce.length ≠ nonceSize r.aead) (data ad : Bytes) :
    (∃ e, h.aead_seal key nonce data ad = .err e) ∧ ∃ e, h.aead_open key nonce data ad = .err e := by
  obtain ⟨d, hd, rfl⟩ := ring_hpke hh
  obtain ⟨r', hr', _, _, h3, _⟩ := description_row hd
  rw [hr] at hr'
  cases hr'
  rw [← h3] at hw
  have e1 : keySize d.hpke.aead.toU16.toNat = cipherKeySize d.hpke.aead := by cases d.hpke.aead <;> rfl
  have e2 : nonceSize d.hpke.aead.toU16.toNat = 12 := by cases d.hpke.aead <;> rfl
  rw [e1, e2] at hw
  constructor
  · show ∃ e, ring_aead_seal p _ _ _ _ _ = _
    unfold ring_aead_seal
    split
    · exact ⟨_, rfl⟩
    · next h1 => rw [if_pos (hw.resolve_left h1)]; exact ⟨_, rfl⟩
  · show ∃ e, ring_aead_open p _ _ _ _ _ = _
    unfold ring_aead_open
    split
    · exact ⟨_, rfl⟩
    · next h1 => rw [if_pos (hw.resolve_left h1)]; exact ⟨_, rfl⟩

/-- C109 is false for the RustCrypto provider: in every suite, every key and every nonce of another size makes sealing and
opening panic, whatever the data. -/
theorem C109_rust_refuted (p : Primitives) (cs : CipherSuite) (h : Hpke) (hh : (RustCryptoProvider p).hpke cs = .ok h)
    (r : Row) (hr : row cs.toU16.toNat = some r) (key nonce : Bytes)
    (hw : key.length ≠ keySize r.aead ∨ nonce.length ≠ nonceSize r.aead) (data ad : Bytes) :
    h.aead_seal key nonce data ad = .fault .panic ∧ h.aead_open key nonce data ad = .fault .panic := by
  obtain ⟨d, hd, rfl⟩ := rust_hpke hh
  obtain ⟨r', hr', _, _, h3, _⟩ := description_row hd
  rw [hr] at hr'
  cases hr'
  rw [← h3] at hw
  have e1 : keySize d.hpke.aead.toU16.toNat = cipherKeySize d.hpke.aead := by cases d.hpke.aead <;> rfl
  have e2 : nonceSize d.hpke.aead.toU16.toNat = 12 := by cases d.hpke.aead <;> rfl
  rw [e1, e2] at hw
  constructor
  · show rust_aead_seal p _ _ _ _ _ = _
    unfold rust_aead_seal
    split
    · rfl
    · next h1 => rw [if_pos (hw.resolve_left h1)]
  · show rust_aead_open p _ _ _ _ _ = _
    unfold rust_aead_open
    split
    · rfl
    · next h1 => rw [if_pos (hw.resolve_left h1)]

/-- C109, the part that holds for both providers: with keys and nonces of the right size neither operation panics. -/
theorem C109_right_partial (p : Primitives) (P : CryptoProvider) (hP : Provider p P) (cs : CipherSuite) (h : Hpke)
    (hh : P.hpke cs = .ok h) (r : Row) (hr : row cs.toU16.toNat = some r) (key nonce : Bytes)
    (hk : key.length = keySize r.aead) (hn : nonce.length = nonceSize r.aead) (data ad : Bytes) :
    Returns (h.aead_seal key nonce data ad) ∧ Returns (h.aead_open key nonce data ad) := by
  obtain ⟨d, hd, hw⟩ := hpke_cases hP hh
  obtain ⟨r', hr', _, _, h3, _⟩ := description_row hd
  rw [hr] at hr'
  cases hr'
  rw [← h3] at hk hn
  have e1 : keySize d.hpke.aead.toU16.toNat = cipherKeySize d.hpke.aead := by cases d.hpke.aead <;> rfl
  have e2 : nonceSize d.hpke.aead.toU16.toNat = 12 := by cases d.hpke.aead <;> rfl
  rw [e1] at hk
  rw [e2] at hn
  rcases hw with ⟨_, rfl⟩ | ⟨_, rfl⟩
  · constructor
    · show Returns (rust_aead_seal _ _ _ _ _ _)
      unfold rust_aead_seal
      rw [if_neg (by omega), if_neg (by omega)]
      split
      · exact returns_ok _
      · exact returns_err _
    · show Returns (rust_aead_open _ _ _ _ _ _)
      unfold rust_aead_open
      rw [if_neg (by omega), if_neg (by omega)]
      dsimp only
      repeat' split
      all_goals first | exact returns_ok _ | exact returns_err _
  · constructor
    · show Returns (ring_aead_seal _ _ _ _ _ _)
      unfold ring_aead_seal
      rw [if_neg (by omega), if_neg (by omega)]
      split
      · exact returns_ok _
      · exact returns_err _
    · show Returns (ring_aead_open _ _ _ _ _ _)
      unfold ring_aead_open
      rw [if_neg (by omega), if_neg (by omega)]
      dsimp only
      repeat' split
      all_goals first | exact returns_ok _ | exact returns_err _

/-- Sizes of the keys and nonces of both providers, in the words of RFC 9180. -/
private theorem provider_sizes {p : Primitives} {P : CryptoProvider} (hP : Provider p P) {cs : CipherSuite} {h : Hpke}
    (hh : P.hpke cs = .ok h) : ∃ r, row cs.toU16.toNat = some r ∧ h.aead_key_size = keySize r.aead ∧
      h.aead_nonce_size = nonceSize r.aead := by
  obtain ⟨d, hd, hw⟩ := hpke_cases hP hh
  obtain ⟨r, hr, _, _, h3, _⟩ := description_row hd
  refine ⟨r, hr, ?_⟩
  rw [← h3]
  rcases hw with ⟨_, rfl⟩ | ⟨_, rfl⟩
  · show aead_key_size _ = _ ∧ aead_nonce_size _ = _
    cases d.hpke.aead <;> exact ⟨rfl, rfl⟩
  · show aead_key_size _ = _ ∧ aead_nonce_size _ = _
    cases d.hpke.aead <;> exact ⟨rfl, rfl⟩

/-- C109, the keys of the library: what it derives for the content of a message and for sender data, from whatever secret,
generation, guard and ciphertext, has the size of the cipher. -/
theorem C109_derived (p : Primitives) (P : CryptoProvider) (hP : Provider p P)
    (hsize : ∀ h s i n, (p.hkdf_expand h s i n).length = n) (cs : CipherSuite) (r : Row)
    (hr : row cs.toU16.toNat = some r) (secret : Bytes) :
    (∀ s guard key nonce, derive_private_message_key_and_nonce P cs s guard = .ok (key, nonce) →
      key.length = keySize r.aead ∧ nonce.length = nonceSize r.aead) ∧
    (∀ c key, expand_sender_data_key P cs secret c = .ok key → key.length = keySize r.aead) ∧
    (∀ c nonce, expand_sender_data_nonce P cs secret c = .ok nonce → nonce.length = nonceSize r.aead) := by
  have hx : ∀ {s l c out : Bytes} {n : UInt16}, P.expand_with_label cs s l c n = .ok out → out.length = n.toNat := by
    intro s l c out n h
    unfold CryptoProvider.expand_with_label at h
    obtain ⟨info, _, h⟩ := Res.bind_ok_iff.1 h
    obtain ⟨hp, hh, h⟩ := Res.bind_ok_iff.1 h
    obtain ⟨d, _, hw⟩ := hpke_cases hP hh
    rcases hw with ⟨_, rfl⟩ | ⟨_, rfl⟩
    · change rust_kdf_expand _ _ _ _ _ = _ at h
      unfold rust_kdf_expand at h
      repeat' split at h
      all_goals first | (cases h; exact hsize _ _ _ _) | cases h
    · change ring_kdf_expand _ _ _ _ _ = _ at h
      unfold ring_kdf_expand at h
      repeat' split at h
      all_goals first | (cases h; exact hsize _ _ _ _) | cases h
  have ht : ∀ {s l g n out}, derive_tree_secret P cs s l g n = .ok out → out.length = n.toNat := by
    intro s l g n out h
    obtain ⟨_, _, h⟩ := Res.bind_ok_iff.1 h
    exact hx h
  have hs : ∀ {h : Hpke}, P.hpke cs = .ok h → (UInt16.ofNat h.aead_key_size).toNat = keySize r.aead ∧
      (UInt16.ofNat h.aead_nonce_size).toNat = nonceSize r.aead := by
    intro h hh
    obtain ⟨r', hr', h1, h2⟩ := provider_sizes hP hh
    rw [hr] at hr'
    cases hr'
    rw [h1, h2]
    unfold keySize nonceSize
    repeat' split
    all_goals exact ⟨rfl, rfl⟩
  refine ⟨fun s guard key nonce h => ?_, fun c key h => ?_, fun c nonce h => ?_⟩
  · unfold derive_private_message_key_and_nonce at h
    obtain ⟨k, hk, h⟩ := Res.bind_ok_iff.1 h
    obtain ⟨n, hn, h⟩ := Res.bind_ok_iff.1 h
    obtain ⟨_, k1, k2⟩ := Res.bind_ok_iff.1 hk
    obtain ⟨_, n1, n2⟩ := Res.bind_ok_iff.1 hn
    split at h
    · cases h
    · cases h
      exact ⟨(ht k2).trans (hs k1).1, (xorGuard_length _ _).trans ((ht n2).trans (hs n1).2)⟩
  · obtain ⟨_, h1, h⟩ := Res.bind_ok_iff.1 h
    obtain ⟨_, _, h⟩ := Res.bind_ok_iff.1 h
    exact (hx h).trans (hs h1).1
  · obtain ⟨_, h1, h⟩ := Res.bind_ok_iff.1 h
    obtain ⟨_, _, h⟩ := Res.bind_ok_iff.1 h
    exact (hx h).trans (hs h1).2

/-- C109, so the library does not panic for it: with both providers, protecting a message returns if signing it does. -/
theorem C109_library (p : Primitives) (P : CryptoProvider) (hP : Provider p P)
    (hopen : ∀ s k i kem c, Returns (p.hpke_open s k i kem c))
    (hsize : ∀ h s i n, (p.hkdf_expand h s i n).length = n) (cs : CipherSuite) (sign_key : Bytes)
    (hsign : ∀ l m, Returns (P.sign_with_label cs sign_key l m)) (secret : RatchetSecret) (sds : Bytes)
    (c : FramedContent) (sd : SenderData) (ctx : GroupContext) :
    Returns (PrivateMessage.new P cs sign_key secret sds c sd ctx) := by
  have hC := C84_providers p P hP hopen hsize
  have hseal : ∀ h, P.hpke cs = .ok h → ∀ key nonce plain ad, key.length = h.aead_key_size →
      nonce.length = h.aead_nonce_size → Returns (h.aead_seal key nonce plain ad) := by
    intro h hh key nonce plain ad hk hn
    obtain ⟨r, hr, h1, h2⟩ := provider_sizes hP hh
    exact (C109_right_partial p P hP cs h hh r hr key nonce (hk.trans h1) (hn.trans h2) plain ad).1
  have hnew : Returns (AuthenticatedContent.new P cs sign_key .PrivateMessage c ctx) :=
    returns_bind (returns_bind (framedContentTBS_w _ _ _ _).returns fun _ _ => hsign _ _) fun _ _ => returns_ok _
  refine returns_bind (returns_bind hnew fun _ _ => returns_bind (privateMessageContent_w _).returns fun _ _ =>
    returns_bind (hC.message_keys _ _ _) fun kn ek => returns_bind (privateContentAAD_w _).returns fun _ _ =>
    returns_bind (hC.hpke _) fun _ hh => hseal _ hh _ _ _ _ (hC.message_keys_size ek hh).1 (hC.message_keys_size ek hh).2)
    fun ct _ => returns_bind ?_ fun _ _ => returns_ok _
  have hk : Returns (expand_sender_data_key P cs sds ct) :=
    returns_bind (hC.hpke _) fun _ _ => returns_bind (hC.sample_ciphertext _ _) fun _ _ => hC.expand_with_label _ _ _ _ _
  have hn : Returns (expand_sender_data_nonce P cs sds ct) :=
    returns_bind (hC.hpke _) fun _ _ => returns_bind (hC.sample_ciphertext _ _) fun _ _ => hC.expand_with_label _ _ _ _ _
  exact returns_bind hk fun _ ek => returns_bind hn fun _ en => returns_bind (senderDataAAD_w _).returns fun _ _ =>
    returns_bind (senderData_w _).returns fun _ _ => returns_bind (hC.hpke _) fun _ hh => hseal _ hh _ _ _ _
      (by
        obtain ⟨_, h1, h2⟩ := Res.bind_ok_iff.1 ek
        obtain ⟨_, _, h3⟩ := Res.bind_ok_iff.1 h2
        cases hh.symm.trans h1
        exact (hC.expand_with_label_size h3).trans (hC.key_size hh).1)
      (by
        obtain ⟨_, h1, h2⟩ := Res.bind_ok_iff.1 en
        obtain ⟨_, _, h3⟩ := Res.bind_ok_iff.1 h2
        cases hh.symm.trans h1
        exact (hC.expand_with_label_size h3).trans (hC.key_size hh).2)

section examples

/-- A key of 15 bytes and a nonce of 13, in suite 1: the one provider panics, the other does not. -/
example : ∃ h h' r, (RustCryptoProvider toyPrimitives).hpke (.ofU16 1) = .ok h ∧
    (RingCryptoProvider toyPrimitives).hpke (.ofU16 1) = .ok h' ∧ row (CipherSuite.ofU16 1).toU16.toNat = some r ∧
    keySize r.aead = 16 ∧ nonceSize r.aead = 12 ∧
    h.aead_open (List.replicate 15 1) (List.replicate 12 2) [3] [] = .fault .panic ∧
    h'.aead_open (List.replicate 15 1) (List.replicate 12 2) [3] [] = .err .Other ∧
    h.aead_seal (List.replicate 16 1) (List.replicate 13 2) [3] [] = .fault .panic ∧
    h'.aead_seal (List.replicate 16 1) (List.replicate 13 2) [3] [] = .err .Other :=
  ⟨_, _, _, rfl, rfl, rfl, rfl, rfl, by decide, by decide, by decide, by decide⟩

/-- Signing returns in suite 1 of the example libraries, with a key of 32 bytes. -/
example : ∀ l m, Returns ((RustCryptoProvider toyPrimitives).sign_with_label (.ofU16 1) (List.replicate 32 4) l m) :=
  fun l m => returns_bind (mls_prefix_label_data_w l m).returns fun _ _ => returns_bind (returns_ok _) fun _ h => by
    cases h
    exact returns_ok _

example : ∀ h s i n, (toyPrimitives.hkdf_expand h s i n).length = n := fun _ _ _ _ => List.length_replicate

end examples
end Rmls
