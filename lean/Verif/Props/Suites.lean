import Verif.Spec.Suites
import Verif.Spec.KeySchedule
import Verif.Spec.PrivateMessage
import Verif.Spec.Welcome
import Verif.Proofs.LeafNode
import Verif.Props.LeafNode
/-
Properties C48 (cipher suites), C59 (AEAD opening returns what was sealed), C60 (making key packages does not
panic) and C61 (generated signature keys work).
-/
namespace Rmls
open Spec Suites Enc

/-- The two providers. -/
def Provider (p : Primitives) (P : CryptoProvider) : Prop := P = RustCryptoProvider p ∨ P = RingCryptoProvider p

theorem description_cases (cs : CipherSuite) :
    (supports cs = false ∧ description cs = .err .UnsupportedCipherSuite) ∨
    (supports cs = true ∧ ∃ d r, description cs = .ok d ∧ row cs.toU16.toNat = some r ∧
      d.hpke.kem.toU16.toNat = r.kem ∧ d.hpke.kdf.toU16.toNat = r.kdf ∧ d.hpke.aead.toU16.toNat = r.aead ∧
      hashBits d.hash = r.hash ∧ d.signature.toU16.toNat = r.signature ∧ hashBits (kdfHash d.hpke.kdf) = r.hash ∧
      labelHpke cs = some d.hpke) := by
  cases cs
  case Unknown v => exact .inl ⟨rfl, rfl⟩
  all_goals first
    | exact .inl ⟨rfl, rfl⟩
    | exact .inr ⟨rfl, _, _, rfl, rfl, rfl, rfl, rfl, rfl, rfl, rfl, rfl⟩

/-! ## C48 -/

/-- C48: for every 16-bit value, the suite is reported as supported exactly when it is 1, 2 or 3, listed exactly
then, hash, HPKE and signature are available exactly then, and otherwise all three are refused with the same error;
labelled public-key encryption and decryption are refused for the others too. -/
theorem C48_supported (p : Primitives) (P : CryptoProvider) (hP : Provider p P) (v : UInt16) :
    (P.supports (.ofU16 v) = true ↔ v = 1 ∨ v = 2 ∨ v = 3) ∧
    (CipherSuite.ofU16 v ∈ supported ↔ P.supports (.ofU16 v) = true) ∧
    ((∃ h, P.hash (.ofU16 v) = .ok h) ↔ P.supports (.ofU16 v) = true) ∧
    ((∃ h, P.hpke (.ofU16 v) = .ok h) ↔ P.supports (.ofU16 v) = true) ∧
    ((∃ s, P.signature (.ofU16 v) = .ok s) ↔ P.supports (.ofU16 v) = true) ∧
    (P.supports (.ofU16 v) = false → P.hash (.ofU16 v) = .err .UnsupportedCipherSuite ∧
      P.hpke (.ofU16 v) = .err .UnsupportedCipherSuite ∧ P.signature (.ofU16 v) = .err .UnsupportedCipherSuite ∧
      (∀ rnd key label context plain out, P.encrypt_with_label rnd (.ofU16 v) key label context plain ≠ .ok out) ∧
      ∀ key label context kem cipher out, P.decrypt_with_label (.ofU16 v) key label context kem cipher ≠ .ok out) := by
  have hs : P.supports = supports := by rcases hP with rfl | rfl <;> rfl
  rw [hs]
  have h1 : supports (.ofU16 v) = true ↔ v = 1 ∨ v = 2 ∨ v = 3 := by
    unfold CipherSuite.ofU16
    split
    · next h => simp [h, supports]
    · split
      · next h => simp [h, supports]
      · split
        · next h => simp [h, supports]
        · next a b c =>
          constructor
          · intro h
            revert h
            repeat' split
            all_goals exact nofun
          · rintro (h | h | h)
            · exact absurd h a
            · exact absurd h b
            · exact absurd h c
  generalize CipherSuite.ofU16 v = cs at h1 ⊢
  refine ⟨h1, ?_, ?_⟩
  · cases cs <;> first | decide | simp [supported, supports]
  · have hl : supports cs = false → CryptoProvider.labelSuite cs = false := by
      cases cs <;> first | decide | exact fun _ => rfl
    rcases description_cases cs with ⟨hf, hd⟩ | ⟨ht, d, r, hd, _⟩
    · refine ⟨?_, ?_, ?_, fun _ => ⟨?_, ?_, ?_, ?_, ?_⟩⟩
      iterate 3
        rw [hf]
        refine ⟨fun ⟨h, e⟩ => ?_, nofun⟩
        rcases hP with rfl | rfl <;> simp [RustCryptoProvider, RingCryptoProvider, hd, Bind.bind, Res.bind] at e
      iterate 3
        rcases hP with rfl | rfl <;> simp only [RustCryptoProvider, RingCryptoProvider, hd] <;> rfl
      · intro rnd key label context plain out h
        unfold CryptoProvider.encrypt_with_label at h
        simp only [hl hf] at h
        rcases hm : mls_prefix_label_data label context <;> rw [hm] at h <;> cases h
      · intro key label context kem cipher out h
        unfold CryptoProvider.decrypt_with_label at h
        simp only [hl hf] at h
        rcases hm : mls_prefix_label_data label context <;> rw [hm] at h <;> cases h
    · rw [ht]
      refine ⟨?_, ?_, ?_, nofun⟩
      all_goals
        refine ⟨fun _ => rfl, fun _ => ?_⟩
        rcases hP with rfl | rfl <;> simp only [RustCryptoProvider, RingCryptoProvider, hd] <;> exact ⟨_, rfl⟩

/-- C48: every row of the built-in table is the row of RFC 9420, and there is one for each of its suites. -/
theorem C48_table (n : Nat) : (∃ r, row n = some r) ↔ 0 < n ∧ ∃ d, CIPHER_SUITE_DESCRIPTIONS[n - 1]? = some d ∧
    row n = some ⟨d.hpke.kem.toU16.toNat, d.hpke.kdf.toU16.toNat, d.hpke.aead.toU16.toNat, hashBits d.hash,
      d.signature.toU16.toNat⟩ := by
  match n with
  | 0 => simp [row]
  | 1 => exact ⟨fun _ => ⟨by omega, _, rfl, rfl⟩, fun _ => ⟨_, rfl⟩⟩
  | 2 => exact ⟨fun _ => ⟨by omega, _, rfl, rfl⟩, fun _ => ⟨_, rfl⟩⟩
  | 3 => exact ⟨fun _ => ⟨by omega, _, rfl, rfl⟩, fun _ => ⟨_, rfl⟩⟩
  | 4 => exact ⟨fun _ => ⟨by omega, _, rfl, rfl⟩, fun _ => ⟨_, rfl⟩⟩
  | 5 => exact ⟨fun _ => ⟨by omega, _, rfl, rfl⟩, fun _ => ⟨_, rfl⟩⟩
  | 6 => exact ⟨fun _ => ⟨by omega, _, rfl, rfl⟩, fun _ => ⟨_, rfl⟩⟩
  | 7 => exact ⟨fun _ => ⟨by omega, _, rfl, rfl⟩, fun _ => ⟨_, rfl⟩⟩
  | n + 8 => simp [row, CIPHER_SUITE_DESCRIPTIONS]

/-- C48: the hash of a supported suite is the one RFC 9420 assigns, and so is its MAC (HMAC with that hash). -/
theorem C48_hash (p : Primitives) (P : CryptoProvider) (hP : Provider p P) (cs : CipherSuite) (h : Hash)
    (hh : P.hash cs = .ok h) :
    ∃ r scheme, row cs.toU16.toNat = some r ∧ hashBits scheme = r.hash ∧ 8 * h.size = r.hash ∧
      (∀ m, h.digest m = p.digest scheme m) ∧ ∀ k m, h.mac k m = p.hmac scheme k m := by
  rcases description_cases cs with ⟨_, hd⟩ | ⟨_, d, r, hd, hr, _, _, _, h4, _⟩
  · rcases hP with rfl | rfl <;> simp [RustCryptoProvider, RingCryptoProvider, hd, Bind.bind, Res.bind] at hh
  · have : h = hashWrapper p d.hash := by
      rcases hP with rfl | rfl <;> simp only [RustCryptoProvider, RingCryptoProvider, hd] at hh <;> cases hh <;> rfl
    subst this
    refine ⟨r, d.hash, hr, h4, ?_, fun _ => rfl, fun _ _ => rfl⟩
    rw [← h4]
    cases d.hash <;> rfl

theorem hpke_cases {p : Primitives} {P : CryptoProvider} (hP : Provider p P) {cs : CipherSuite} {h : Hpke}
    (hh : P.hpke cs = .ok h) : ∃ d, description cs = .ok d ∧
      ((P = RustCryptoProvider p ∧ h = rustHpke p d.hpke) ∨ (P = RingCryptoProvider p ∧ h = ringHpke p d.hpke)) := by
  cases hd : description cs with
  | ok d =>
    refine ⟨d, rfl, ?_⟩
    rcases hP with rfl | rfl <;> simp only [RustCryptoProvider, RingCryptoProvider, hd] at hh <;> cases hh
    · exact .inl ⟨rfl, rfl⟩
    · exact .inr ⟨rfl, rfl⟩
  | err e => rcases hP with rfl | rfl <;> simp [RustCryptoProvider, RingCryptoProvider, hd, Bind.bind, Res.bind] at hh
  | fault e => rcases hP with rfl | rfl <;> simp [RustCryptoProvider, RingCryptoProvider, hd, Bind.bind, Res.bind] at hh

theorem description_row {cs : CipherSuite} {d : Description} (hd : description cs = .ok d) : ∃ r,
    row cs.toU16.toNat = some r ∧
      d.hpke.kem.toU16.toNat = r.kem ∧ d.hpke.kdf.toU16.toNat = r.kdf ∧ d.hpke.aead.toU16.toNat = r.aead ∧
      hashBits d.hash = r.hash ∧ d.signature.toU16.toNat = r.signature ∧ hashBits (kdfHash d.hpke.kdf) = r.hash ∧
      (r.kem = 0x20 ∨ r.kem = 0x10) ∧ (r.signature = 0x0807 ∨ r.signature = 0x0403) := by
  rcases description_cases cs with ⟨_, h⟩ | ⟨hs, d', r, h, hr, h1, h2, h3, h4, h5, h6, _⟩
  · rw [h] at hd; cases hd
  · rw [h] at hd
    cases hd
    refine ⟨r, hr, h1, h2, h3, h4, h5, h6, ?_⟩
    cases cs <;> first | (cases hr; decide) | cases hs

/-- C48: the HPKE parameters of a supported suite.  The sizes are those of RFC 9180, key derivation goes to the
KEM assigned and extraction is HMAC with the salt as key (RFC 5869) and the hash assigned. -/
theorem C48_hpke (p : Primitives) (P : CryptoProvider) (hP : Provider p P) (cs : CipherSuite) (h : Hpke)
    (hh : P.hpke cs = .ok h) :
    ∃ r scheme, row cs.toU16.toNat = some r ∧ hashBits scheme = r.hash ∧
      h.kdf_extract_size = extractSize r.kdf ∧ h.aead_key_size = keySize r.aead ∧
      h.aead_nonce_size = nonceSize r.aead ∧ Sizes h ∧
      (∀ ikm, (r.kem = 0x20 ∧ h.kem_derive_key_pair ikm = .ok (p.derive_x25519 ikm)) ∨
        (r.kem = 0x10 ∧ h.kem_derive_key_pair ikm = .ok (p.derive_p256 ikm))) ∧
      ∀ secret salt, h.kdf_extract secret salt = .ok (p.hmac scheme salt secret) := by
  obtain ⟨d, hd, hw⟩ := hpke_cases hP hh
  obtain ⟨r, hr, h1, h2, h3, _, _, h6, h7, _⟩ := description_row hd
  refine ⟨r, kdfHash d.hpke.kdf, hr, h6, ?_, ?_, ?_, ?_, ?_, ?_⟩
  · rw [← h2]
    rcases hw with ⟨_, rfl⟩ | ⟨_, rfl⟩ <;> simp only [rustHpke, ringHpke] <;> cases d.hpke.kdf <;> rfl
  · rw [← h3]
    rcases hw with ⟨_, rfl⟩ | ⟨_, rfl⟩ <;> simp only [rustHpke, ringHpke] <;> cases d.hpke.aead <;> rfl
  · rw [← h3]
    rcases hw with ⟨_, rfl⟩ | ⟨_, rfl⟩ <;> simp only [rustHpke, ringHpke] <;> cases d.hpke.aead <;> rfl
  · rcases hw with ⟨_, rfl⟩ | ⟨_, rfl⟩ <;> simp only [Sizes, rustHpke, ringHpke] <;>
      cases d.hpke.aead <;> cases d.hpke.kdf <;> decide
  · intro ikm
    rw [← h1] at h7 ⊢
    revert h7
    rcases hw with ⟨_, rfl⟩ | ⟨_, rfl⟩ <;> simp only [rustHpke, ringHpke] <;> cases d.hpke.kem <;>
      simp [Kem.toU16, kem_derive_key_pair]
  · rcases hw with ⟨_, rfl⟩ | ⟨_, rfl⟩ <;> exact fun _ _ => rfl

/-- C48: expansion in the RustCrypto provider is HKDF-Expand with the hash assigned, for at most 255 blocks and keys
not shorter than the hash output. -/
theorem C48_expand_rust (p : Primitives) (cs : CipherSuite) (h : Hpke) (hh : (RustCryptoProvider p).hpke cs = .ok h) :
    ∃ r scheme, row cs.toU16.toNat = some r ∧ hashBits scheme = r.hash ∧
      ∀ secret info (n : UInt16) out, h.kdf_expand secret info n = .ok out ↔
        extractSize r.kdf ≤ secret.length ∧ n.toNat ≤ 255 * extractSize r.kdf ∧
        out = p.hkdf_expand scheme secret info n.toNat := by
  cases hd : description cs with
  | ok d =>
    simp only [RustCryptoProvider, hd] at hh
    cases hh
    obtain ⟨r, hr, _, h2, _, _, _, h6, _⟩ := description_row hd
    refine ⟨r, kdfHash d.hpke.kdf, hr, h6, fun secret info n out => ?_⟩
    rw [← h2, show extractSize d.hpke.kdf.toU16.toNat = hashSize (kdfHash d.hpke.kdf) by cases d.hpke.kdf <;> rfl]
    show rust_kdf_expand p d.hpke.kdf secret info n = .ok out ↔ _
    unfold rust_kdf_expand
    generalize hashSize (kdfHash d.hpke.kdf) = z
    split
    · exact ⟨nofun, fun h => by omega⟩
    · split
      · exact ⟨nofun, fun h => by omega⟩
      · refine ⟨fun h => ?_, fun h => ?_⟩
        · cases h; exact ⟨by omega, by omega, rfl⟩
        · rw [h.2.2]
  | err e => simp [RustCryptoProvider, hd, Bind.bind, Res.bind] at hh
  | fault e => simp [RustCryptoProvider, hd, Bind.bind, Res.bind] at hh

/-- C48: expansion in the ring provider is HKDF-Expand with the hash assigned, for at most 255 blocks. -/
theorem C48_expand_ring (p : Primitives) (cs : CipherSuite) (h : Hpke) (hh : (RingCryptoProvider p).hpke cs = .ok h) :
    ∃ r scheme, row cs.toU16.toNat = some r ∧ hashBits scheme = r.hash ∧
      ∀ secret info (n : UInt16) out, h.kdf_expand secret info n = .ok out ↔
        n.toNat ≤ 255 * extractSize r.kdf ∧ out = p.hkdf_expand scheme secret info n.toNat := by
  cases hd : description cs with
  | ok d =>
    simp only [RingCryptoProvider, hd] at hh
    cases hh
    obtain ⟨r, hr, _, h2, _, _, _, h6, _⟩ := description_row hd
    refine ⟨r, kdfHash d.hpke.kdf, hr, h6, fun secret info n out => ?_⟩
    rw [← h2, show extractSize d.hpke.kdf.toU16.toNat = hashSize (kdfHash d.hpke.kdf) by cases d.hpke.kdf <;> rfl]
    show ring_kdf_expand p d.hpke.kdf secret info n = .ok out ↔ _
    unfold ring_kdf_expand
    generalize hashSize (kdfHash d.hpke.kdf) = z
    split
    · exact ⟨nofun, fun h => by omega⟩
    · refine ⟨fun h => ?_, fun h => ?_⟩
      · cases h; exact ⟨by omega, rfl⟩
      · rw [h.2]
  | err e => simp [RingCryptoProvider, hd, Bind.bind, Res.bind] at hh
  | fault e => simp [RingCryptoProvider, hd, Bind.bind, Res.bind] at hh

/-- C48: both providers have the KDF of RFC 5869, if the libraries return as many bytes as RFC 5869 and RFC 2104 say. -/
theorem C48_expander (p : Primitives) (P : CryptoProvider) (hP : Provider p P) (cs : CipherSuite) (h : Hpke)
    (hh : P.hpke cs = .ok h) (hx : ∀ scheme secret info n, (p.hkdf_expand scheme secret info n).length = n)
    (hm : ∀ scheme key m, 8 * (p.hmac scheme key m).length = hashBits scheme) : Expander h ∧ Extractor h := by
  obtain ⟨r, scheme, hr, hb, h1, _, _, _, _, h2⟩ := C48_hpke p P hP cs h hh
  have hsize : 8 * extractSize r.kdf = r.hash := by
    revert hr
    unfold row
    split <;> intro hr <;> cases hr <;> rfl
  have hex : ∃ sc, ∀ secret info (n : UInt16), (h.kdf_extract_size ≤ secret.length → n.toNat ≤ 255 * h.kdf_extract_size →
      ∃ out, h.kdf_expand secret info n = .ok out) ∧
      ∀ out, h.kdf_expand secret info n = .ok out → out = p.hkdf_expand sc secret info n.toNat := by
    rw [h1]
    rcases hP with rfl | rfl
    · obtain ⟨r', sc, hr', _, he⟩ := C48_expand_rust p cs h hh
      cases hr.symm.trans hr'
      exact ⟨sc, fun secret info n => ⟨fun a b => ⟨_, (he ..).2 ⟨a, b, rfl⟩⟩, fun out ho => ((he ..).1 ho).2.2⟩⟩
    · obtain ⟨r', sc, hr', _, he⟩ := C48_expand_ring p cs h hh
      cases hr.symm.trans hr'
      exact ⟨sc, fun secret info n => ⟨fun _ b => ⟨_, (he ..).2 ⟨b, rfl⟩⟩, fun out ho => ((he ..).1 ho).2⟩⟩
  obtain ⟨sc, hex⟩ := hex
  refine ⟨⟨fun secret info n => (hex secret info n).1, fun secret info out ho => ?_⟩, ⟨fun _ _ => ⟨_, h2 ..⟩, ?_⟩⟩
  · have hsz : h.kdf_extract_size < 2 ^ 16 := by
      rw [h1]
      unfold extractSize
      split <;> decide
    rw [(hex _ _ _).2 _ ho, hx, UInt16.toNat_ofNat', Nat.mod_eq_of_lt hsz]
    exact Nat.le_refl _
  · intro secret salt out _ ho
    cases (h2 secret salt).symm.trans ho
    have := hm scheme salt secret
    rw [h1]
    omega

theorem expand_errors (p : Primitives) (kdf : Kdf) (secret info : Bytes) (n : UInt16) :
    ((∃ out, rust_kdf_expand p kdf secret info n = .ok out) ∨ rust_kdf_expand p kdf secret info n = .err .Other) ∧
    ((∃ out, ring_kdf_expand p kdf secret info n = .ok out) ∨ ring_kdf_expand p kdf secret info n = .err .Other) := by
  unfold rust_kdf_expand ring_kdf_expand
  constructor <;> repeat' split
  all_goals first | exact .inr rfl | exact .inl ⟨_, rfl⟩

theorem aead_errors (p : Primitives) (aead : Aead) (key nonce x ad : Bytes) (hk : key.length = cipherKeySize aead)
    (hn : nonce.length = 12) :
    ((∃ out, rust_aead_open p aead key nonce x ad = .ok out) ∨ rust_aead_open p aead key nonce x ad = .err .Other) ∧
    ((∃ out, ring_aead_open p aead key nonce x ad = .ok out) ∨ ring_aead_open p aead key nonce x ad = .err .Other) ∧
    ((∃ out, rust_aead_seal p aead key nonce x ad = .ok out) ∨ rust_aead_seal p aead key nonce x ad = .err .Other) ∧
    ((∃ out, ring_aead_seal p aead key nonce x ad = .ok out) ∨ ring_aead_seal p aead key nonce x ad = .err .Other) := by
  unfold rust_aead_open ring_aead_open rust_aead_seal ring_aead_seal
  simp only [hk, hn, ne_eq, not_true_eq_false, if_false]
  refine ⟨?_, ?_, ?_, ?_⟩ <;> repeat' split
  all_goals first | exact .inr rfl | exact .inl ⟨_, rfl⟩

theorem aead_refused (p : Primitives) (aead : Aead) (key nonce x ad : Bytes)
    (h : key.length ≠ cipherKeySize aead ∨ nonce.length ≠ 12) :
    rust_aead_open p aead key nonce x ad = .fault .panic ∧ ring_aead_open p aead key nonce x ad = .err .Other ∧
    rust_aead_seal p aead key nonce x ad = .fault .panic ∧ ring_aead_seal p aead key nonce x ad = .err .Other := by
  unfold rust_aead_open ring_aead_open rust_aead_seal ring_aead_seal
  by_cases hk : key.length = cipherKeySize aead
  · have hn := h.resolve_left (fun h => h hk)
    simp [hk, hn]
  · simp [hk]

/-- C48: keys are derived for the KEMs with X25519 and P-256 (RFC 9180, section 7.1), and every other KEM is refused as
unsupported. -/
theorem C48_kem (p : Primitives) (kem : Kem) (ikm : Bytes) :
    (kem.toU16 = 0x20 → kem_derive_key_pair p kem ikm = .ok (p.derive_x25519 ikm)) ∧
    (kem.toU16 = 0x10 → kem_derive_key_pair p kem ikm = .ok (p.derive_p256 ikm)) ∧
    (kem.toU16 ≠ 0x20 → kem.toU16 ≠ 0x10 → kem_derive_key_pair p kem ikm = .err .UnsupportedKem) := by
  cases kem <;> refine ⟨fun h => ?_, fun h => ?_, fun h h' => ?_⟩ <;>
    first | rfl | exact absurd h (by decide) | exact absurd rfl h | exact absurd rfl h'

/-- C48: what the HPKE operations do with inputs that they refuse.  Errors are those of the libraries, passed on; keys and
nonces of other sizes than those assigned are refused by the ring provider and make the RustCrypto provider panic. -/
theorem C48_errors (p : Primitives) (P : CryptoProvider) (hP : Provider p P) (cs : CipherSuite) (h : Hpke)
    (hh : P.hpke cs = .ok h) :
    (∀ secret info (n : UInt16), (∃ out, h.kdf_expand secret info n = .ok out) ∨ h.kdf_expand secret info n = .err .Other) ∧
    ∃ r, row cs.toU16.toNat = some r ∧ ∀ key nonce x ad,
      (key.length = keySize r.aead → nonce.length = nonceSize r.aead →
        ((∃ out, h.aead_open key nonce x ad = .ok out) ∨ h.aead_open key nonce x ad = .err .Other) ∧
        ((∃ out, h.aead_seal key nonce x ad = .ok out) ∨ h.aead_seal key nonce x ad = .err .Other)) ∧
      (key.length ≠ keySize r.aead ∨ nonce.length ≠ nonceSize r.aead →
        (P = RustCryptoProvider p ∧ h.aead_open key nonce x ad = .fault .panic ∧ h.aead_seal key nonce x ad = .fault .panic) ∨
        (P = RingCryptoProvider p ∧ h.aead_open key nonce x ad = .err .Other ∧ h.aead_seal key nonce x ad = .err .Other)) := by
  obtain ⟨d, hd, hw⟩ := hpke_cases hP hh
  obtain ⟨r, hr, _, _, h3, _⟩ := description_row hd
  have e1 : keySize r.aead = cipherKeySize d.hpke.aead := by rw [← h3]; cases d.hpke.aead <;> rfl
  have e2 : nonceSize r.aead = 12 := by rw [← h3]; cases d.hpke.aead <;> rfl
  rw [hr]
  refine ⟨?_, r, rfl, ?_⟩
  · rcases hw with ⟨_, rfl⟩ | ⟨_, rfl⟩ <;> intro secret info n
    · exact (expand_errors p d.hpke.kdf secret info n).1
    · exact (expand_errors p d.hpke.kdf secret info n).2
  · intro key nonce x ad
    rw [e1, e2]
    rcases hw with ⟨rfl, rfl⟩ | ⟨rfl, rfl⟩
    · refine ⟨fun hk hn => ?_, fun h => .inl ⟨rfl, ?_⟩⟩
      · have := aead_errors p d.hpke.aead key nonce x ad hk hn
        exact ⟨this.1, this.2.2.1⟩
      · have := aead_refused p d.hpke.aead key nonce x ad h
        exact ⟨this.1, this.2.2.1⟩
    · refine ⟨fun hk hn => ?_, fun h => .inr ⟨rfl, ?_⟩⟩
      · have := aead_errors p d.hpke.aead key nonce x ad hk hn
        exact ⟨this.2.1, this.2.2.2⟩
      · have := aead_refused p d.hpke.aead key nonce x ad h
        exact ⟨this.2.1, this.2.2.2⟩

theorem signature_cases {p : Primitives} {P : CryptoProvider} (hP : Provider p P) {cs : CipherSuite} {s : Signature}
    (hh : P.signature cs = .ok s) : ∃ d, description cs = .ok d ∧
      (s = rustSignature p d.signature ∨ s = ringSignature p d.signature) := by
  cases hd : description cs with
  | ok d =>
    refine ⟨d, rfl, ?_⟩
    rcases hP with rfl | rfl <;> simp only [RustCryptoProvider, RingCryptoProvider, hd] at hh <;> cases hh
    · exact .inl rfl
    · exact .inr rfl
  | err e => rcases hP with rfl | rfl <;> simp [RustCryptoProvider, RingCryptoProvider, hd, Bind.bind, Res.bind] at hh
  | fault e => rcases hP with rfl | rfl <;> simp [RustCryptoProvider, RingCryptoProvider, hd, Bind.bind, Res.bind] at hh

/-- C48: the signature scheme of a supported suite is the one RFC 9420 assigns: keys are generated for it. -/
theorem C48_signature (p : Primitives) (P : CryptoProvider) (hP : Provider p P) (cs : CipherSuite) (s : Signature)
    (hs : P.signature cs = .ok s) :
    ∃ r, row cs.toU16.toNat = some r ∧ s.signature_scheme.toU16.toNat = r.signature ∧
      ∀ rnd, ∃ kp, s.signature_key_pair rnd = .ok kp ∧ kp.signature_scheme = s.signature_scheme ∧
        ((r.signature = 0x0807 ∧ (kp.private_key, kp.public_key) = p.ed25519_generate rnd) ∨
         (r.signature = 0x0403 ∧ (kp.private_key, kp.public_key) = p.ecdsa_generate .P256 rnd)) := by
  obtain ⟨d, hd, hw⟩ := signature_cases hP hs
  obtain ⟨r, hr, _, _, _, _, h5, _, _, h7⟩ := description_row hd
  refine ⟨r, hr, ?_, fun rnd => ?_⟩
  · rw [← h5]; rcases hw with rfl | rfl <;> rfl
  · rw [← h5] at h7 ⊢
    have e : s.signature_key_pair rnd = signature_key_pair p d.signature rnd ∧ s.signature_scheme = d.signature := by
      rcases hw with rfl | rfl <;> exact ⟨rfl, rfl⟩
    rw [e.1, e.2]
    generalize d.signature = sc at h7
    cases sc <;> simp [SignatureScheme.toU16] at h7
    · exact ⟨_, rfl, rfl, .inr ⟨rfl, rfl⟩⟩
    · exact ⟨_, rfl, rfl, .inl ⟨rfl, rfl⟩⟩

/-- C48: labelled public-key encryption uses the HPKE parameters of the same row. -/
theorem C48_label (p : Primitives) (P : CryptoProvider) (hP : Provider p P) (cs : CipherSuite)
    (hs : P.supports cs = true) :
    ∃ r suite, row cs.toU16.toNat = some r ∧ suite.kem.toU16.toNat = r.kem ∧ suite.kdf.toU16.toNat = r.kdf ∧
      suite.aead.toU16.toNat = r.aead ∧
      (∀ rnd key info plain, P.hpke_seal cs rnd key info plain = p.hpke_seal suite rnd key info plain) ∧
      ∀ key info kem cipher, P.hpke_open cs key info kem cipher = p.hpke_open suite key info kem cipher := by
  have hs' : supports cs = true := by rcases hP with rfl | rfl <;> exact hs
  rcases description_cases cs with ⟨h, _⟩ | ⟨_, d, r, _, hr, h1, h2, h3, _, _, _, hl⟩
  · rw [hs'] at h; cases h
  · refine ⟨r, d.hpke, hr, h1, h2, h3, ?_, ?_⟩
    · rcases hP with rfl | rfl <;> simp only [RustCryptoProvider, RingCryptoProvider, hpkeSeal, hl] <;> simp
    · rcases hP with rfl | rfl <;> simp only [RustCryptoProvider, RingCryptoProvider, hpkeOpen, hl] <;> simp

/-- C48: and there is none for a suite that is not supported. -/
theorem C48_label_unsupported (p : Primitives) (P : CryptoProvider) (hP : Provider p P) (cs : CipherSuite)
    (hs : P.supports cs = false) :
    (∀ rnd key info plain, P.hpke_seal cs rnd key info plain = .err .UnsupportedCipherSuite) ∧
    ∀ key info kem cipher, P.hpke_open cs key info kem cipher = .err .UnsupportedCipherSuite := by
  have hs' : supports cs = false := by rcases hP with rfl | rfl <;> exact hs
  rcases hP with rfl | rfl <;> cases cs <;> first | exact ⟨fun _ _ _ _ => rfl, fun _ _ _ _ => rfl⟩ | cases hs'

/-! ## C59 -/

theorem rust_hpke {p : Primitives} {cs : CipherSuite} {h : Hpke} (hh : (RustCryptoProvider p).hpke cs = .ok h) :
    ∃ d, description cs = .ok d ∧ h = rustHpke p d.hpke := by
  cases hd : description cs with
  | ok d =>
    simp only [RustCryptoProvider, hd] at hh
    cases hh
    exact ⟨d, rfl, rfl⟩
  | err e => simp [RustCryptoProvider, hd, Bind.bind, Res.bind] at hh
  | fault e => simp [RustCryptoProvider, hd, Bind.bind, Res.bind] at hh

theorem ring_hpke {p : Primitives} {cs : CipherSuite} {h : Hpke} (hh : (RingCryptoProvider p).hpke cs = .ok h) :
    ∃ d, description cs = .ok d ∧ h = ringHpke p d.hpke := by
  cases hd : description cs with
  | ok d =>
    simp only [RingCryptoProvider, hd] at hh
    cases hh
    exact ⟨d, rfl, rfl⟩
  | err e => simp [RingCryptoProvider, hd, Bind.bind, Res.bind] at hh
  | fault e => simp [RingCryptoProvider, hd, Bind.bind, Res.bind] at hh

theorem rust_seal_iff (p : Primitives) (a : Aead) (key nonce plain ad out : Bytes) :
    rust_aead_seal p a key nonce plain ad = .ok out ↔ key.length = keySize a.toU16.toNat ∧
      nonce.length = nonceSize a.toU16.toNat ∧
      ∃ c t, p.aead_encrypt a key nonce ad plain = some (c, t) ∧ out = c ++ t := by
  unfold rust_aead_seal
  have e1 : keySize a.toU16.toNat = cipherKeySize a := by cases a <;> rfl
  have e2 : nonceSize a.toU16.toNat = 12 := by cases a <;> rfl
  rw [e1, e2]
  split
  · next h => exact ⟨nofun, fun h' => absurd h'.1 h⟩
  · next h =>
    split
    · next h' => exact ⟨nofun, fun h'' => absurd h''.2.1 h'⟩
    · next h' =>
      split
      · next c t he =>
        constructor
        · intro e; cases e; exact ⟨by omega, by omega, c, t, he, rfl⟩
        · rintro ⟨_, _, c', t', e, rfl⟩; rw [he] at e; cases e; rfl
      · next he => exact ⟨nofun, fun ⟨_, _, c, t, e, _⟩ => nomatch he.symm.trans e⟩

theorem ring_seal_iff (p : Primitives) (a : Aead) (key nonce plain ad out : Bytes) :
    ring_aead_seal p a key nonce plain ad = .ok out ↔ key.length = keySize a.toU16.toNat ∧
      nonce.length = nonceSize a.toU16.toNat ∧
      ∃ c t, p.aead_encrypt a key nonce ad plain = some (c, t) ∧ out = c ++ t := by
  unfold ring_aead_seal
  have e1 : keySize a.toU16.toNat = cipherKeySize a := by cases a <;> rfl
  have e2 : nonceSize a.toU16.toNat = 12 := by cases a <;> rfl
  rw [e1, e2]
  split
  · next h => exact ⟨nofun, fun h' => absurd h'.1 h⟩
  · next h =>
    split
    · next h' => exact ⟨nofun, fun h'' => absurd h''.2.1 h'⟩
    · next h' =>
      split
      · next c t he =>
        constructor
        · intro e; cases e; exact ⟨by omega, by omega, c, t, he, rfl⟩
        · rintro ⟨_, _, c', t', e, rfl⟩; rw [he] at e; cases e; rfl
      · next he => exact ⟨nofun, fun ⟨_, _, c, t, e, _⟩ => nomatch he.symm.trans e⟩

theorem split_tag {b : Bytes} {c t : Bytes} (ht : t.length = 16) : b = c ++ t ↔
    16 ≤ b.length ∧ b.take (b.length - 16) = c ∧ b.drop (b.length - 16) = t := by
  constructor
  · rintro rfl
    have : (c ++ t).length - 16 = c.length := by simp [ht]
    rw [this]
    exact ⟨by simp [ht], by simp, by simp⟩
  · rintro ⟨_, rfl, rfl⟩
    exact (List.take_append_drop _ _).symm

theorem rust_open_iff (p : Primitives) (a : Aead) (key nonce cipher ad out : Bytes) :
    rust_aead_open p a key nonce cipher ad = .ok out ↔ key.length = keySize a.toU16.toNat ∧
      nonce.length = nonceSize a.toU16.toNat ∧
      ∃ c t, t.length = 16 ∧ cipher = c ++ t ∧ p.aead_decrypt a key nonce ad c t = some out := by
  unfold rust_aead_open
  have e1 : keySize a.toU16.toNat = cipherKeySize a := by cases a <;> rfl
  have e2 : nonceSize a.toU16.toNat = 12 := by cases a <;> rfl
  rw [e1, e2]
  split
  · next h => exact ⟨nofun, fun h' => absurd h'.1 h⟩
  · next h =>
    split
    · next h' => exact ⟨nofun, fun h'' => absurd h''.2.1 h'⟩
    · next h' =>
      split
      · next hl =>
        refine ⟨nofun, ?_⟩
        rintro ⟨_, _, c, t, ht, rfl, _⟩
        simp [tagSize, ht] at hl
        omega
      · next hl =>
        dsimp only
        constructor
        · intro e
          split at e
          · next plain he =>
            cases e
            refine ⟨by omega, by omega, _, _, ?_, (List.take_append_drop _ _).symm, he⟩
            simp only [List.length_drop, tagSize] at hl ⊢
            omega
          · cases e
        · rintro ⟨_, _, c, t, ht, hc, he⟩
          obtain ⟨_, h1, h2⟩ := (split_tag ht).1 hc
          simp only [tagSize, h1, h2, he]

theorem ring_open_iff (p : Primitives) (a : Aead) (key nonce cipher ad out : Bytes) :
    ring_aead_open p a key nonce cipher ad = .ok out ↔ ∃ plain t, t = cipher.drop (cipher.length - 16) ∧
      rust_aead_open p a key nonce cipher ad = .ok plain ∧ out = plain ++ p.leftover t := by
  unfold ring_aead_open rust_aead_open
  split
  · exact ⟨nofun, fun ⟨_, _, _, h, _⟩ => nomatch h⟩
  · split
    · exact ⟨nofun, fun ⟨_, _, _, h, _⟩ => nomatch h⟩
    · split
      · exact ⟨nofun, fun ⟨_, _, _, h, _⟩ => nomatch h⟩
      · dsimp only
        split
        · next plain he =>
          constructor
          · intro e; cases e; exact ⟨_, _, rfl, rfl, rfl⟩
          · rintro ⟨_, _, rfl, h, rfl⟩; cases h; rfl
        · exact ⟨nofun, fun ⟨_, _, _, h, _⟩ => nomatch h⟩

/-- C59: sealing, in both providers: exactly for keys and nonces of the sizes of RFC 9180, the output is ciphertext and
tag of the cipher that RFC 9420 assigns to the suite. -/
theorem C59_seal (p : Primitives) (P : CryptoProvider) (hP : Provider p P) (cs : CipherSuite) (h : Hpke)
    (hh : P.hpke cs = .ok h) : ∃ r a, row cs.toU16.toNat = some r ∧ a.toU16.toNat = r.aead ∧
      ∀ key nonce plain ad out, h.aead_seal key nonce plain ad = .ok out ↔
        key.length = keySize r.aead ∧ nonce.length = nonceSize r.aead ∧
        ∃ c t, p.aead_encrypt a key nonce ad plain = some (c, t) ∧ out = c ++ t := by
  obtain ⟨d, hd, hw⟩ := hpke_cases hP hh
  obtain ⟨r, hr, _, _, h3, _⟩ := description_row hd
  refine ⟨r, d.hpke.aead, hr, h3, fun key nonce plain ad out => ?_⟩
  rw [← h3]
  rcases hw with ⟨_, rfl⟩ | ⟨_, rfl⟩
  · exact rust_seal_iff ..
  · exact ring_seal_iff ..

/-- C59: opening in the RustCrypto provider returns exactly what the cipher decrypts. -/
theorem C59_open_rust (p : Primitives) (cs : CipherSuite) (h : Hpke)
    (hh : (RustCryptoProvider p).hpke cs = .ok h) : ∃ r a, row cs.toU16.toNat = some r ∧ a.toU16.toNat = r.aead ∧
      ∀ key nonce cipher ad out, h.aead_open key nonce cipher ad = .ok out ↔
        key.length = keySize r.aead ∧ nonce.length = nonceSize r.aead ∧
        ∃ c t, t.length = 16 ∧ cipher = c ++ t ∧ p.aead_decrypt a key nonce ad c t = some out := by
  obtain ⟨d, hd, rfl⟩ := rust_hpke hh
  obtain ⟨r, hr, _, _, h3, _⟩ := description_row hd
  refine ⟨r, d.hpke.aead, hr, h3, fun key nonce plain ad out => ?_⟩
  rw [← h3]
  exact rust_open_iff _ _ _ _ _ _ _

/-- C59: the RustCrypto provider opens what it sealed and returns exactly the plaintext. -/
theorem C59_rust (p : Primitives) (hp : LawfulPrimitives p) (cs : CipherSuite) (h : Hpke)
    (hh : (RustCryptoProvider p).hpke cs = .ok h) : AeadPair h := by
  obtain ⟨r, a, hr, ha, hs⟩ := C59_seal p _ (.inl rfl) cs h hh
  obtain ⟨r', a', hr', ha', ho⟩ := C59_open_rust p cs h hh
  rw [hr] at hr'
  cases hr'
  have : a = a' := by rw [← ha] at ha'; cases a <;> cases a' <;> first | rfl | exact absurd ha' (by decide)
  subst this
  intro key nonce plain aad cipher h1
  obtain ⟨k1, k2, c, t, k3, rfl⟩ := (hs _ _ _ _ _).1 h1
  obtain ⟨_, l2, l3⟩ := hp.aead _ _ _ _ _ _ _ k3
  exact (ho _ _ _ _ _).2 ⟨k1, k2, c, t, l2, rfl, l3⟩

/-- C59 for the ring provider, what is true: it opens what it sealed, but returns the plaintext followed by 16 further
bytes.  Missing: the further bytes should not be there. -/
theorem C59_ring_partial (p : Primitives) (hp : LawfulPrimitives p) (cs : CipherSuite) (h : Hpke)
    (hh : (RingCryptoProvider p).hpke cs = .ok h) (key nonce plain aad cipher : Bytes)
    (hs : h.aead_seal key nonce plain aad = .ok cipher) :
    ∃ more, more.length = 16 ∧ h.aead_open key nonce cipher aad = .ok (plain ++ more) := by
  obtain ⟨d, hd, rfl⟩ := ring_hpke hh
  obtain ⟨k1, k2, c, t, k3, rfl⟩ := (ring_seal_iff _ _ _ _ _ _ _).1 hs
  obtain ⟨_, l2, l3⟩ := hp.aead _ _ _ _ _ _ _ k3
  refine ⟨p.leftover t, (hp.leftover t).trans l2, (ring_open_iff _ _ _ _ _ _ _).2 ⟨plain, t, ?_, ?_, rfl⟩⟩
  · exact ((split_tag l2).1 rfl).2.2.symm
  · exact (rust_open_iff _ _ _ _ _ _ _).2 ⟨k1, k2, c, t, l2, rfl, l3⟩

/-- C59 fails for the ring provider: nothing it seals is opened to the same plaintext, for any library meeting the
laws. -/
theorem C59_refuted (p : Primitives) (hp : LawfulPrimitives p) (cs : CipherSuite) (h : Hpke)
    (hh : (RingCryptoProvider p).hpke cs = .ok h) (key nonce plain aad cipher : Bytes)
    (hs : h.aead_seal key nonce plain aad = .ok cipher) : h.aead_open key nonce cipher aad ≠ .ok plain := by
  obtain ⟨more, hl, ho⟩ := C59_ring_partial p hp cs h hh key nonce plain aad cipher hs
  rw [ho]
  intro e
  have := Res.ok.inj e
  have := congrArg List.length this
  simp [hl] at this

/-! ## C61 -/

/-- C61: in a supported suite every generated signature key pair works: signing with the private key succeeds and the
public key verifies the signature. -/
theorem C61_generated (p : Primitives) (hp : LawfulPrimitives p) (P : CryptoProvider) (hP : Provider p P)
    (cs : CipherSuite) (s : Signature) (hs : P.signature cs = .ok s) (rnd : Bytes) :
    ∃ kp, s.signature_key_pair rnd = .ok kp ∧ kp.signature_scheme = s.signature_scheme ∧
      ∀ m, ∃ sg, s.sign kp.private_key m = .ok sg ∧ s.verify kp.public_key m sg = .ok () := by
  obtain ⟨d, hd, hw⟩ := signature_cases hP hs
  obtain ⟨r, hr, _, _, _, _, h5, _, _, h7⟩ := description_row hd
  rw [← h5] at h7
  clear h5 hd hs
  revert hw h7
  generalize d.signature = sc
  intro hw h7
  cases sc <;> simp [SignatureScheme.toU16] at h7
  · obtain ⟨l1, _, l3⟩ := hp.ecdsa .P256 rnd _ _ rfl
    refine ⟨⟨(p.ecdsa_generate .P256 rnd).1, (p.ecdsa_generate .P256 rnd).2, .ECDSA_SECP256R1_SHA256⟩, ?_, ?_, fun m => ?_⟩
    · rcases hw with rfl | rfl <;> rfl
    · rcases hw with rfl | rfl <;> rfl
    · obtain ⟨sg, k1, k2⟩ := l3 m
      refine ⟨sg, ?_, ?_⟩
      · rcases hw with rfl | rfl <;> simp [rustSignature, ringSignature, sign, ecdsaSign, l1, k1]
      · rcases hw with rfl | rfl <;> simp [rustSignature, ringSignature, rust_verify, ring_verify, k2]
  · obtain ⟨l1, l2, l3⟩ := hp.ed25519 rnd _ _ rfl
    refine ⟨⟨(p.ed25519_generate rnd).1, (p.ed25519_generate rnd).2, .ED25519⟩, ?_, ?_, fun m => ?_⟩
    · rcases hw with rfl | rfl <;> rfl
    · rcases hw with rfl | rfl <;> rfl
    · refine ⟨p.ed25519_sign (p.ed25519_generate rnd).1 m, ?_, ?_⟩
      · rcases hw with rfl | rfl <;> simp [rustSignature, ringSignature, sign, l1]
      · rcases hw with rfl | rfl <;> simp [rustSignature, ringSignature, rust_verify, ring_verify, l2, l3]

/-- C61: for every signature scheme, whether a suite uses it or not: only private keys of the size of the scheme sign
(RFC 8032 section 5.1.5; SEC 1 section 2.3.7 for the fields of P-256 and P-384), and of those the generated ones do. -/
theorem C61_key_size (p : Primitives) (sc : SignatureScheme) (k m sg : Bytes) (h : sign p sc k m = .ok sg) :
    (sc.toU16, k.length) ∈ [((0x0403 : UInt16), 32), (0x0503, 48), (0x0807, 32)] := by
  have he : ∀ c : Curve, ecdsaSign p c k m = .ok sg → k.length = c.field := by
    intro c h
    unfold ecdsaSign at h
    split at h
    · cases h
    · next hl => exact Decidable.not_not.1 hl
  cases sc with
  | ECDSA_SECP256R1_SHA256 => rw [he .P256 h]; decide
  | ECDSA_SECP384R1_SHA384 => rw [he .P384 h]; decide
  | ECDSA_SECP521R1_SHA512 => cases h
  | ED448 => cases h
  | ED25519 =>
    simp only [sign] at h
    split at h
    · cases h
    · next hl => rw [Decidable.not_not.1 hl]; decide

/-- C61: and signing says what is wrong with a key that does not: it blames the key of the scheme, or reports the scheme
as unsupported. -/
theorem C61_bad_key (p : Primitives) (sc : SignatureScheme) (k m : Bytes) (e : Error) (h : sign p sc k m = .err e) :
    (sc.toU16 = 0x0807 ∧ k.length ≠ 32 ∧ e = .InvalidEd25519PrivateKey) ∨
    ((sc.toU16, k.length) ∈ [((0x0403 : UInt16), 32), (0x0503, 48)] ∧ e = .InvalidECDSAPrivateKey) ∨
    (sc.toU16 = 0x0603 ∧ e = .UnsupportedEcdsa) ∨ (sc.toU16 = 0x0808 ∧ e = .UnsupportedEd448) := by
  have he : ∀ c : Curve, ecdsaSign p c k m = .err e → k.length = c.field ∧ e = .InvalidECDSAPrivateKey := by
    intro c h
    unfold ecdsaSign at h
    split at h
    · cases h
    · next hl =>
      split at h
      · cases h
      · cases h; exact ⟨Decidable.not_not.1 hl, rfl⟩
  cases sc with
  | ECDSA_SECP256R1_SHA256 => obtain ⟨h1, h2⟩ := he .P256 h; exact .inr (.inl ⟨by rw [h1]; decide, h2⟩)
  | ECDSA_SECP384R1_SHA384 => obtain ⟨h1, h2⟩ := he .P384 h; exact .inr (.inl ⟨by rw [h1]; decide, h2⟩)
  | ECDSA_SECP521R1_SHA512 => cases h; exact .inr (.inr (.inl ⟨rfl, rfl⟩))
  | ED448 => cases h; exact .inr (.inr (.inr ⟨rfl, rfl⟩))
  | ED25519 =>
    simp only [sign] at h
    split at h
    · next hl => cases h; exact .inl ⟨rfl, hl, rfl⟩
    · cases h

/-- C61: a signature is accepted exactly when the algorithm of the scheme accepts it, and a refusal tells a bad signature from a
scheme that is not supported; the providers differ only for Ed25519 keys of the wrong length, which one of them blames. -/
theorem C61_verify (p : Primitives) (sc : SignatureScheme) (k m sg : Bytes) :
    (ring_verify p sc k m sg = .ok () ↔ (sc.toU16 = 0x0807 ∧ p.ed25519_verify k m sg = true) ∨
      (sc.toU16 = 0x0403 ∧ p.ecdsa_verify .P256 k m sg = true) ∨ (sc.toU16 = 0x0503 ∧ p.ecdsa_verify .P384 k m sg = true)) ∧
    (∀ e, ring_verify p sc k m sg = .err e → (sc.toU16 ∈ [(0x0807 : UInt16), 0x0403, 0x0503] ∧ e = .Other) ∨
      (sc.toU16 = 0x0603 ∧ e = .UnsupportedEcdsa) ∨ (sc.toU16 = 0x0808 ∧ e = .UnsupportedEd448)) ∧
    rust_verify p sc k m sg =
      if sc.toU16 = 0x0807 ∧ k.length ≠ 32 then .err .InvalidEd25519PrivateKey else ring_verify p sc k m sg := by
  cases sc with
  | ED25519 =>
    refine ⟨by simp [ring_verify, SignatureScheme.toU16], fun e h => .inl ⟨by decide, ?_⟩, ?_⟩
    · simp only [ring_verify] at h
      split at h <;> cases h
      rfl
    · by_cases hl : k.length = 32 <;> simp [rust_verify, ring_verify, SignatureScheme.toU16, hl]
  | ECDSA_SECP256R1_SHA256 =>
    refine ⟨by simp [ring_verify, SignatureScheme.toU16], fun e h => .inl ⟨by decide, ?_⟩, by
      simp [rust_verify, ring_verify, SignatureScheme.toU16]⟩
    simp only [ring_verify] at h
    split at h <;> cases h
    rfl
  | ECDSA_SECP384R1_SHA384 =>
    refine ⟨by simp [ring_verify, SignatureScheme.toU16], fun e h => .inl ⟨by decide, ?_⟩, by
      simp [rust_verify, ring_verify, SignatureScheme.toU16]⟩
    simp only [ring_verify] at h
    split at h <;> cases h
    rfl
  | ECDSA_SECP521R1_SHA512 =>
    exact ⟨by simp [ring_verify, SignatureScheme.toU16], fun e h => .inr (.inl ⟨rfl, by cases h; rfl⟩), by
      simp [rust_verify, ring_verify, SignatureScheme.toU16]⟩
  | ED448 =>
    exact ⟨by simp [ring_verify, SignatureScheme.toU16], fun e h => .inr (.inr ⟨rfl, by cases h; rfl⟩), by
      simp [rust_verify, ring_verify, SignatureScheme.toU16]⟩

@[inherit_doc C61_key_size]
theorem C61_all_schemes (p : Primitives) (hp : LawfulPrimitives p) (sc : SignatureScheme)
    (hs : sc.toU16 ∈ [(0x0403 : UInt16), 0x0503, 0x0807]) (rnd : Bytes) :
    ∃ kp, signature_key_pair p sc rnd = .ok kp ∧ kp.signature_scheme = sc ∧
      ∀ m, ∃ sg, sign p sc kp.private_key m = .ok sg ∧ rust_verify p sc kp.public_key m sg = .ok () ∧
        ring_verify p sc kp.public_key m sg = .ok () := by
  have he : ∀ c : Curve, ∀ m, ∃ sg, ecdsaSign p c (p.ecdsa_generate c rnd).1 m = .ok sg ∧
      p.ecdsa_verify c (p.ecdsa_generate c rnd).2 m sg = true := by
    intro c m
    obtain ⟨l1, _, l3⟩ := hp.ecdsa c rnd _ _ rfl
    obtain ⟨sg, k1, k2⟩ := l3 m
    exact ⟨sg, by simp [ecdsaSign, l1, k1], k2⟩
  cases sc with
  | ECDSA_SECP256R1_SHA256 =>
    refine ⟨_, rfl, rfl, fun m => ?_⟩
    obtain ⟨sg, h1, h2⟩ := he .P256 m
    exact ⟨sg, h1, by simp [rust_verify, h2], by simp [ring_verify, h2]⟩
  | ECDSA_SECP384R1_SHA384 =>
    refine ⟨_, rfl, rfl, fun m => ?_⟩
    obtain ⟨sg, h1, h2⟩ := he .P384 m
    exact ⟨sg, h1, by simp [rust_verify, h2], by simp [ring_verify, h2]⟩
  | ECDSA_SECP521R1_SHA512 => exact absurd hs (by decide)
  | ED448 => exact absurd hs (by decide)
  | ED25519 =>
    obtain ⟨l1, l2, l3⟩ := hp.ed25519 rnd _ _ rfl
    refine ⟨_, rfl, rfl, fun m => ⟨p.ed25519_sign (p.ed25519_generate rnd).1 m, ?_, ?_, ?_⟩⟩
    · simp [sign, l1]
    · simp [rust_verify, l2, l3]
    · simp [ring_verify, l3]

/-- C61: the two schemes that are not implemented are refused with the same error by everything: for P-521 with
`UnsupportedEcdsa`, for Ed448 with `UnsupportedEd448`. -/
theorem C61_refused (p : Primitives) (sc : SignatureScheme) (rnd k m sg : Bytes) (e : Error)
    (hs : (sc.toU16 = 0x0603 ∧ e = .UnsupportedEcdsa) ∨ (sc.toU16 = 0x0808 ∧ e = .UnsupportedEd448)) :
    signature_key_pair p sc rnd = .err e ∧ sign p sc k m = .err e ∧ rust_verify p sc k m sg = .err e ∧
      ring_verify p sc k m sg = .err e := by
  rcases hs with ⟨h, rfl⟩ | ⟨h, rfl⟩ <;> cases sc <;> first | exact ⟨rfl, rfl, rfl, rfl⟩ | exact absurd h (by decide)

/-- C61: the same as a law of the providers, in the form the theorems on messages assume it. -/
theorem C61_pair (p : Primitives) (hp : LawfulPrimitives p) (P : CryptoProvider) (hP : Provider p P)
    (cs : CipherSuite) (s : Signature) (hs : P.signature cs = .ok s) (rnd : Bytes) (kp : SignatureKeyPair)
    (hk : s.signature_key_pair rnd = .ok kp) : SignaturePair P cs kp.private_key kp.public_key := by
  obtain ⟨kp', h1, _, h2⟩ := C61_generated p hp P hP cs s hs rnd
  rw [hk] at h1
  cases h1
  intro s' m sg hs' h3
  rw [hs] at hs'
  cases hs'
  obtain ⟨sg', h4, h5⟩ := h2 m
  rw [h3] at h4
  cases h4
  exact h5

/-! ## C60 -/

theorem sign_with_label_panics {P : CryptoProvider} {cs : CipherSuite} {s : Signature} {k l c : Bytes}
    (hs : P.signature cs = .ok s) (hf : (labelled l c).fits) (hp : ∀ m, s.sign k m = .fault .panic) :
    P.sign_with_label cs k l c = .fault .panic := by
  unfold CryptoProvider.sign_with_label
  rw [writes_ok (mls_prefix_label_data_w l c) hf]
  show (P.signature cs).bind _ = _
  rw [hs]
  exact hp _

/-- C60 fails for suite 2 (P-256 and ECDSA): with a generated key pair, making a key package always panics as soon as
its leaf can be encoded, in both providers and for any library meeting the laws.  `sign` is given the public key,
which is longer than a private key. -/
theorem C60_refuted (p : Primitives) (hp : LawfulPrimitives p) (P : CryptoProvider) (hP : Provider p P)
    (config : CryptoConfig) (hcs : config.cipher_suite.toU16 = 2) (s : Signature)
    (hs : P.signature config.cipher_suite = .ok s) (rnd : Bytes) (skp : SignatureKeyPair)
    (hk : s.signature_key_pair rnd = .ok skp) (ikm0 ikm : Bytes) (cred : Credential) (lt : Lifetime)
    (kpExts : Extensions) (caps : Capabilities) (exts : Extensions)
    (hf : (leafNodeTBS ⟨(p.derive_p256 ikm).public_key, skp.public_key, cred, caps, .KeyPackage lt, exts⟩ [] 0).fits)
    (hl : (labelled (text "LeafNodeTBS") (leafNodeTBS ⟨(p.derive_p256 ikm).public_key, skp.public_key, cred, caps,
      .KeyPackage lt, exts⟩ [] 0).bytes).fits) :
    KeyPackage.new P config ikm0 ikm cred skp lt kpExts caps exts = .fault .panic := by
  obtain ⟨d, hd, hw⟩ := signature_cases hP hs
  have hc2 : config.cipher_suite = .MLS_128_DHKEMP256_AES128GCM_SHA256_P256 := by
    revert hd hcs
    cases config.cipher_suite <;> first | exact fun _ _ => rfl | exact fun h _ => absurd h (by decide) | skip
    intro _ h; cases h
  rw [hc2] at hd hs
  cases hd
  have hpub : ∀ m, s.sign skp.public_key m = .fault .panic := by
    intro m
    have hkey : skp.public_key.length ≠ 32 := by
      obtain ⟨_, l, _⟩ := hp.ecdsa .P256 rnd _ _ rfl
      have : skp.public_key = (p.ecdsa_generate .P256 rnd).2 := by
        rcases hw with rfl | rfl <;> cases hk <;> rfl
      rw [this]
      change _ = 32 + 1 ∨ _ = 2 * 32 + 1 at l
      intro h
      rw [h] at l
      omega
    rcases hw with rfl | rfl <;> simp [rustSignature, ringSignature, sign, ecdsaSign, hkey, Curve.field]
  have hscheme : s.signature_scheme = skp.signature_scheme := by
    rcases hw with rfl | rfl <;> cases hk <;> rfl
  have hleaf : LeafNode.new P config.cipher_suite ikm cred skp (.KeyPackage lt) caps exts .KeyPackage =
      .fault .panic := by
    unfold LeafNode.new
    rw [hc2]
    have h1 : ∃ h, P.hash .MLS_128_DHKEMP256_AES128GCM_SHA256_P256 = .ok h := by rcases hP with rfl | rfl <;> exact ⟨_, rfl⟩
    have h2 : ∃ h, P.hpke .MLS_128_DHKEMP256_AES128GCM_SHA256_P256 = .ok h ∧
        h.kem_derive_key_pair ikm = .ok (p.derive_p256 ikm) := by rcases hP with rfl | rfl <;> exact ⟨_, rfl, rfl⟩
    obtain ⟨_, h1⟩ := h1
    obtain ⟨h, h2, h3⟩ := h2
    rw [h1, Res.ok_bind, h2, Res.ok_bind, h3, Res.ok_bind]
    dsimp only
    rw [writes_ok (leafNodeTBS_w' _ lt rfl .KeyPackage [] 0) hf, Res.ok_bind]
    rw [show LEAF_NODE_SIGNATURE_LABEL = text "LeafNodeTBS" by decide, sign_with_label_panics hs hl hpub]
    rfl
  unfold KeyPackage.new
  rw [hc2, hs, Res.ok_bind, if_neg (by rw [hscheme]; exact fun h => h rfl)]
  have h1 : ∃ h, P.hash .MLS_128_DHKEMP256_AES128GCM_SHA256_P256 = .ok h := by rcases hP with rfl | rfl <;> exact ⟨_, rfl⟩
  have h2 : ∃ h, P.hpke .MLS_128_DHKEMP256_AES128GCM_SHA256_P256 = .ok h ∧
      h.kem_derive_key_pair ikm0 = .ok (p.derive_p256 ikm0) := by rcases hP with rfl | rfl <;> exact ⟨_, rfl, rfl⟩
  obtain ⟨_, h1⟩ := h1
  obtain ⟨h, h2, h3⟩ := h2
  rw [h1, Res.ok_bind, h2, Res.ok_bind, h3, Res.ok_bind]
  unfold KeyPackage.from_keys
  rw [hleaf]
  rfl

theorem bind_noFault {α β : Type} {x : Res α} {k : α → Res β} {f : Fault} (hx : x ≠ .fault f)
    (hk : ∀ a, x = .ok a → k a ≠ .fault f) : (x >>= k) ≠ .fault f := by
  cases x with
  | ok a => exact hk a rfl
  | err e => exact nofun
  | fault g => exact fun h => hx (by cases h; rfl)

theorem writes_noFault {r : Res Bytes} {e : Enc} (h : Writes r e) (f : Fault) : r ≠ .fault f := by
  rcases writes_cases h with ⟨_, h⟩ | ⟨_, x, h⟩ <;> rw [h] <;> exact nofun

/-- C60, what is true: with the other supported suites making a key package never panics, whatever the keys.  Missing:
suite 2. -/
theorem C60_partial (p : Primitives) (P : CryptoProvider) (hP : Provider p P)
    (config : CryptoConfig) (hcs : config.cipher_suite.toU16 ≠ 2) (ikm0 ikm : Bytes) (cred : Credential)
    (skp : SignatureKeyPair) (lt : Lifetime) (kpExts : Extensions) (caps : Capabilities) (exts : Extensions) (f : Fault) :
    KeyPackage.new P config ikm0 ikm cred skp lt kpExts caps exts ≠ .fault f := by
  have hd : ∀ g, description config.cipher_suite ≠ .fault g := by
    intro g
    rcases description_cases config.cipher_suite with ⟨_, h⟩ | ⟨_, d, r, h, _⟩ <;> rw [h] <;> exact nofun
  have hhash : P.hash config.cipher_suite ≠ .fault f := by
    rcases hP with rfl | rfl <;> exact bind_noFault (hd f) fun _ _ => nofun
  have hhpke : P.hpke config.cipher_suite ≠ .fault f := by
    rcases hP with rfl | rfl <;> exact bind_noFault (hd f) fun _ _ => nofun
  have hsig : P.signature config.cipher_suite ≠ .fault f := by
    rcases hP with rfl | rfl <;> exact bind_noFault (hd f) fun _ _ => nofun
  have hkem : ∀ h ikm, P.hpke config.cipher_suite = .ok h → h.kem_derive_key_pair ikm ≠ .fault f := by
    intro h ikm hh
    obtain ⟨r, _, _, _, _, _, _, _, hk, _⟩ := C48_hpke p P hP _ h hh
    rcases hk ikm with ⟨_, hk⟩ | ⟨_, hk⟩ <;> rw [hk] <;> exact nofun
  have hsign : ∀ k l c, P.sign_with_label config.cipher_suite k l c ≠ .fault f := by
    intro k l c
    refine bind_noFault (writes_noFault (mls_prefix_label_data_w l c) f) fun m _ => bind_noFault hsig fun s hs => ?_
    obtain ⟨d, hd, hw⟩ := signature_cases hP hs
    have : s.sign = sign p .ED25519 := by
      revert hd hcs
      cases config.cipher_suite <;> intro hcs hd <;> first
        | (cases hd; rcases hw with rfl | rfl <;> rfl) | exact absurd rfl hcs | (cases hd; done)
    rw [this]
    unfold sign
    dsimp only
    split <;> exact nofun
  unfold KeyPackage.new
  refine bind_noFault hsig fun s hs => ?_
  split
  · exact nofun
  · refine bind_noFault hhash fun _ _ => bind_noFault hhpke fun h hh => bind_noFault (hkem h _ hh) fun k hk => ?_
    refine bind_noFault ?_ fun _ _ => nofun
    unfold KeyPackage.from_keys
    refine bind_noFault ?_ fun _ _ => bind_noFault (writes_noFault (keyPackageTBS_w _) f) fun _ _ =>
      bind_noFault (hsign _ _ _) fun _ _ => nofun
    unfold LeafNode.new
    exact bind_noFault hhash fun _ _ => bind_noFault hhpke fun h hh => bind_noFault (hkem h _ hh) fun k hk =>
      bind_noFault (writes_noFault (leafNodeTBS_w' _ lt rfl .KeyPackage [] 0) f) fun _ _ =>
      bind_noFault (hsign _ _ _) fun _ _ => nofun

/-! ## The laws can be met -/

/-- Libraries that meet the laws (and are not secure). -/
def toyPrimitives : Primitives where
  digest _ b := b
  hmac _ k b := k ++ b
  hkdf_expand _ s _ n := List.replicate n (s.headD 0)
  derive_x25519 ikm := ⟨ikm, ikm⟩
  derive_p256 ikm := ⟨ikm, ikm⟩
  aead_encrypt _ _ _ _ plain := some (plain, List.replicate 16 7)
  aead_decrypt _ _ _ _ c t := if t = List.replicate 16 7 then some c else none
  leftover t := t
  ed25519_generate r := (List.replicate 32 (r.headD 0), List.replicate 32 (r.headD 0 + 1))
  ed25519_sign k m := List.replicate 32 (k.headD 0 + 1) ++ m
  ed25519_verify k m s := s == k ++ m
  ecdsa_generate c r := (List.replicate c.field (r.headD 0), List.replicate (2 * c.field + 1) (r.headD 0 + 1))
  ecdsa_sign _ k m := some ((k.headD 0 + 1) :: m)
  ecdsa_verify _ k m s := s == k.headD 0 :: m
  hpke_seal _ r k i m := .ok (r, k ++ i ++ m)
  hpke_open _ k i _ c := if (k ++ i).isPrefixOf c then .ok (c.drop (k ++ i).length) else .err .Other

theorem toyPrimitives_lawful : LawfulPrimitives toyPrimitives where
  aead := by
    intro a k n ad plain c t h
    cases h
    exact ⟨rfl, rfl, rfl⟩
  leftover _ := rfl
  ed25519 := by
    intro r priv pub h
    cases h
    exact ⟨by simp, by simp, fun m => by simp [toyPrimitives, List.replicate]⟩
  ecdsa := by
    intro c r priv pub h
    cases h
    refine ⟨by simp, .inr (by simp), fun m => ?_⟩
    cases c <;> exact ⟨_, rfl, by simp [toyPrimitives, Curve.field, List.replicate]⟩

/-- Primitives whose outputs have the right sizes. -/
def sizedPrimitives : Primitives := { toyPrimitives with hmac := fun s _ _ => List.replicate (hashBits s / 8) 1 }

example : ∃ h, (RustCryptoProvider sizedPrimitives).hpke (.ofU16 1) = .ok h ∧ Expander h ∧ Extractor h :=
  ⟨_, rfl, C48_expander sizedPrimitives _ (.inl rfl) (.ofU16 1) _ rfl (fun _ _ _ _ => List.length_replicate ..) fun s _ _ => by
    show 8 * (List.replicate _ _).length = _
    rw [List.length_replicate]; cases s <;> rfl⟩

/-- Suites 1 and 2, as the theorems assume them. -/
example : ∃ h, (RustCryptoProvider toyPrimitives).hpke (.ofU16 1) = .ok h ∧
    h.aead_seal (List.replicate 16 1) (List.replicate 12 2) [3, 4] [] = .ok ([3, 4] ++ List.replicate 16 7) ∧
    h.aead_open (List.replicate 16 1) (List.replicate 12 2) ([3, 4] ++ List.replicate 16 7) [] = .ok [3, 4] :=
  ⟨_, rfl, by decide, by decide⟩

example : ∃ h, (RingCryptoProvider toyPrimitives).hpke (.ofU16 1) = .ok h ∧
    h.aead_seal (List.replicate 16 1) (List.replicate 12 2) [3, 4] [] = .ok ([3, 4] ++ List.replicate 16 7) ∧
    h.aead_open (List.replicate 16 1) (List.replicate 12 2) ([3, 4] ++ List.replicate 16 7) [] =
      .ok ([3, 4] ++ List.replicate 16 7) :=
  ⟨_, rfl, by decide, by decide⟩

set_option maxRecDepth 100000 in
/-- Suite 2 panics, suite 1 does not. -/
example : ∃ s skp, (RustCryptoProvider toyPrimitives).signature (.ofU16 2) = .ok s ∧
    s.signature_key_pair [5] = .ok skp ∧
    KeyPackage.new (RustCryptoProvider toyPrimitives) ⟨.MLS10, .ofU16 2⟩ [1] [2] (.Basic [5]) skp ⟨0, 9⟩ [] toyCaps [] =
      .fault .panic := ⟨_, _, rfl, rfl, by decide +kernel⟩

set_option maxRecDepth 100000 in
example : ∃ s skp, (RustCryptoProvider toyPrimitives).signature (.ofU16 1) = .ok s ∧
    s.signature_key_pair [5] = .ok skp ∧
    (KeyPackage.new (RustCryptoProvider toyPrimitives) ⟨.MLS10, .ofU16 1⟩ [1] [2] (.Basic [5]) skp ⟨0, 9⟩ [] toyCaps []
      ).toOption ≠ none := ⟨_, _, rfl, rfl, by decide +kernel⟩

end Rmls
