import Verif.Props.Vectors
import Verif.Props.Labels
import Verif.Props.KeySchedule
import Verif.Props.Welcome
import Verif.Props.Receiver
/-
Property C93: the checks of the conformance tests, for the tests of the cryptographic basics, the key schedule, the
transcript hashes and the secret tree.
-/
namespace Rmls
open Spec Spec.Enc Vectors PassiveClient MessageProtection

theorem reads_iff {α : Type} {read : De α} {write : α → Res Bytes} {wf : α → Prop} {enc : α → Enc}
    (hlaw : Lawful read write wf) (hw : ∀ x, wf x → Writes (write x) (enc x)) (raw : Bytes) (x : α) :
    deserialize_exact read raw = .ok x ↔ Reads wf enc raw x := by
  unfold deserialize_exact Reads
  constructor
  · intro h1
    split at h1
    · next y rest hd =>
      cases h1
      obtain ⟨hx, b, hb, rfl⟩ := hlaw.canon _ _ _ hd
      obtain ⟨hf, rfl⟩ := (writes_ok_iff (hw x hx) _).1 hb
      exact ⟨hx, hf, rest, rfl⟩
    · cases h1
    · cases h1
  · rintro ⟨hx, hf, rest, rfl⟩
    rw [hlaw.rt x _ rest hx ((writes_ok_iff (hw x hx) _).2 ⟨hf, rfl⟩)]

/-! ### crypto_test.rs and provider_test.rs -/

/-- C93: a vector of cryptographic basics passes exactly if its values are right, for the suites that the crate encrypts
for. -/
theorem C93_crypto_basics (P : CryptoProvider) (rnd : Bytes) (cs : CipherSuite) (H : Hash) (hH : P.hash cs = .ok H)
    (h : Hpke) (hp : P.hpke cs = .ok h) (hs : Sizes h) (hl : CryptoProvider.labelSuite cs = true) (tc : CryptoBasics) :
    crypto_basics_test P rnd cs tc = .ok () ↔ CryptoBasicsRight P rnd cs H h tc := by
  have e1 : test_ref_hash P cs tc = .ok () ↔ (refHashInput tc.ref_hash_label tc.ref_hash_value).fits ∧
      tc.ref_hash_out = H.digest (refHashInput tc.ref_hash_label tc.ref_hash_value).bytes := by
    unfold test_ref_hash
    rcases C29_ref_hash P cs tc.ref_hash_label tc.ref_hash_value with ⟨hf, he⟩ | ⟨hf, e, he⟩
    · rw [he, hH]
      simp only [Res.ok_bind, assert_iff, decide_eq_true_iff, hf, true_and]
      exact eq_comm
    · rw [he]
      exact ⟨(nomatch ·), fun h => absurd h.1 hf⟩
  have e2 : test_expand_with_label P cs tc = .ok () ↔
      Expands h tc.expand_secret tc.expand_label tc.expand_context tc.expand_length.toNat tc.expand_out := by
    unfold test_expand_with_label
    rw [Res.bind_ok_iff]
    have := fun out => expand_with_label_iff hp tc.expand_secret tc.expand_label tc.expand_context
      tc.expand_length.toNat_lt out
    simp only [UInt16.ofNat_toNat] at this
    simp only [this, assert_iff, decide_eq_true_iff]
    exact ⟨by rintro ⟨_, h1, rfl⟩; exact h1, fun h1 => ⟨_, h1, rfl⟩⟩
  have e3 : test_derive_secret P cs tc = .ok () ↔ Derives h tc.derive_secret tc.derive_label tc.derive_out := by
    unfold test_derive_secret
    simp only [Res.bind_ok_iff, derive_secret_iff hp hs, assert_iff, decide_eq_true_iff]
    exact ⟨by rintro ⟨_, h1, rfl⟩; exact h1, fun h1 => ⟨_, h1, rfl⟩⟩
  have e4 : test_derive_tree_secret P cs tc = .ok () ↔
      TreeDerives h tc.tree_secret tc.tree_label tc.tree_generation.toNat tc.tree_length.toNat tc.tree_out := by
    unfold test_derive_tree_secret
    rw [Res.bind_ok_iff]
    have := fun out => derive_tree_secret_iff hp tc.tree_secret tc.tree_label tc.tree_generation
      tc.tree_length.toNat_lt out
    simp only [UInt16.ofNat_toNat] at this
    simp only [this, assert_iff, decide_eq_true_iff]
    exact ⟨by rintro ⟨_, h1, rfl⟩; exact h1, fun h1 => ⟨_, h1, rfl⟩⟩
  have e5 : test_sign_with_label P cs tc = .ok () ↔
      SignedBy P cs tc.sign_pub tc.sign_label tc.sign_content tc.sign_signature ∧
      ∃ s own, P.signature cs = .ok s ∧ s.sign tc.sign_priv (labelled tc.sign_label tc.sign_content).bytes = .ok own ∧
        SignedBy P cs tc.sign_pub tc.sign_label tc.sign_content own := by
    unfold test_sign_with_label
    simp only [Res.bind_ok_iff, assertOk_iff, verify_with_label_iff]
    constructor
    · rintro ⟨_, h1, own, h2, h3⟩
      refine ⟨h1, ?_⟩
      rcases C29_sign P cs tc.sign_priv tc.sign_label tc.sign_content with ⟨_, he⟩ | ⟨_, e, he⟩
      · rw [he, Res.bind_ok_iff] at h2
        obtain ⟨s, h4, h5⟩ := h2
        exact ⟨s, own, h4, h5, h3⟩
      · rw [he] at h2; cases h2
    · rintro ⟨h1, s, own, h4, h5, h3⟩
      refine ⟨(), h1, own, ?_, h3⟩
      rcases C29_sign P cs tc.sign_priv tc.sign_label tc.sign_content with ⟨_, he⟩ | ⟨hf, _⟩
      · rw [he, h4]; exact h5
      · exact absurd h1.1 hf
  have e6 : test_encrypt_with_label P rnd cs tc = .ok () ↔ (labelled tc.encrypt_label tc.encrypt_context).fits ∧
      P.hpke_open cs tc.encrypt_priv (labelled tc.encrypt_label tc.encrypt_context).bytes tc.encrypt_kem_output
        tc.encrypt_ciphertext = .ok tc.encrypt_plaintext ∧
      ∃ kem cipher, P.hpke_seal cs rnd tc.encrypt_pub (labelled tc.encrypt_label tc.encrypt_context).bytes
          tc.encrypt_plaintext = .ok (kem, cipher) ∧
        P.hpke_open cs tc.encrypt_priv (labelled tc.encrypt_label tc.encrypt_context).bytes kem cipher =
          .ok tc.encrypt_plaintext := by
    unfold test_encrypt_with_label
    have hopen : (labelled tc.encrypt_label tc.encrypt_context).fits → ∀ kem cipher,
        P.decrypt_with_label cs tc.encrypt_priv tc.encrypt_label tc.encrypt_context kem cipher =
          P.hpke_open cs tc.encrypt_priv (labelled tc.encrypt_label tc.encrypt_context).bytes kem cipher := by
      intro hf kem cipher
      rcases C29_decrypt P cs tc.encrypt_priv tc.encrypt_label tc.encrypt_context kem cipher with ⟨_, he⟩ | ⟨hn, _⟩
      · rw [he, if_pos hl]
      · exact absurd hf hn
    rcases C29_encrypt P rnd cs tc.encrypt_pub tc.encrypt_label tc.encrypt_context tc.encrypt_plaintext with
      ⟨hf, he⟩ | ⟨hf, e, he⟩
    · rw [if_pos hl] at he
      simp only [hopen hf, he, Res.bind_ok_iff, assert_iff, decide_eq_true_iff, hf, true_and]
      constructor
      · rintro ⟨_, h1, _, rfl, ⟨kem, cipher⟩, h2, _, h3, rfl⟩
        exact ⟨h1, kem, cipher, h2, h3⟩
      · rintro ⟨h1, kem, cipher, h2, h3⟩
        exact ⟨_, h1, (), rfl, (kem, cipher), h2, _, h3, rfl⟩
    · simp only [he, Res.bind_ok_iff]
      exact ⟨fun ⟨_, _, _, _, _, h, _⟩ => (nomatch h), fun h => absurd h.1 hf⟩
  unfold crypto_basics_test
  simp only [Res.bind_ok_iff]
  constructor
  · rintro ⟨_, a1, _, a2, _, a3, _, a4, _, a5, a6⟩
    obtain ⟨b1, b2⟩ := e5.1 a5
    obtain ⟨c1, c2, c3⟩ := e6.1 a6
    exact ⟨e1.1 a1, e2.1 a2, e3.1 a3, e4.1 a4, b1, b2, c1, c2, c3⟩
  · rintro ⟨a1, a2, a3, a4, b1, b2, c1, c2, c3⟩
    exact ⟨(), e1.2 a1, (), e2.2 a2, (), e3.2 a3, (), e4.2 a4, (), e5.2 ⟨b1, b2⟩, e6.2 ⟨c1, c2, c3⟩⟩

/-- The message that the test signs. -/
def testPlaintext : Bytes := text "38a6b327573639d654b5b729336cf74d01728cf4fa9af81a0ef1814ffc1d492f"

/-- C93: the provider passes for a list of suites exactly if, for each that it supports, it makes a key pair with which it
signs what it verifies. -/
theorem C93_key_pairs (P : CryptoProvider) (rnd : Bytes) (suites : List UInt16) :
    signature_key_pair_test P rnd suites = .ok () ↔
      ∀ c ∈ suites, P.supports (CipherSuite.ofU16 c) = true → ∃ s pair sig, P.signature (CipherSuite.ofU16 c) = .ok s ∧
        s.signature_key_pair rnd = .ok pair ∧ s.sign pair.private_key testPlaintext = .ok sig ∧
        s.verify pair.public_key testPlaintext sig = .ok () := by
  rw [show testPlaintext = PLAINTEXT by decide +kernel]
  induction suites with
  | nil => simp [signature_key_pair_test]
  | cons c cs ih =>
    rw [signature_key_pair_test]
    simp only [List.mem_cons, forall_eq_or_imp]
    rw [← ih]
    by_cases h : P.supports (CipherSuite.ofU16 c) = true
    · simp only [h, if_true, true_implies, Res.bind_ok_iff, assertOk_iff]
      constructor
      · rintro ⟨s, h1, pair, h2, sig, h3, _, h4, h5⟩; exact ⟨⟨s, pair, sig, h1, h2, h3, h4⟩, h5⟩
      · rintro ⟨⟨s, pair, sig, h1, h2, h3, h4⟩, h5⟩; exact ⟨s, h1, pair, h2, sig, h3, (), h4, h5⟩
    · simp only [h, if_false, Bool.false_eq_true, false_implies, true_and]

/-! ### key_schedule_test.rs -/

/-- C93: a PSK vector passes exactly if its secret is that of section 8.4. -/
theorem C93_psk (P : CryptoProvider) (cs : CipherSuite) (h : Hpke) (hp : P.hpke cs = .ok h) (hs : Sizes h)
    (tc : PskSecret) (hl : tc.psks.length < 2 ^ 16) : psk_secret_test P cs tc = .ok () ↔ PskRight h tc := by
  unfold psk_secret_test PskRight
  rw [Res.bind_ok_iff]
  simp only [C33_fold_partial P cs h hp hs _ _ (show (tc.psks.map fun p =>
    ({ psk := .External p.psk_id, psk_nonce := p.psk_nonce } : PreSharedKeyID)).length < 2 ^ 16 by
      rw [List.length_map]; exact hl), assert_iff, decide_eq_true_iff, List.length_map, List.zip_map', true_and]
  exact ⟨by rintro ⟨_, h1, rfl⟩; exact h1, fun h1 => ⟨_, h1, rfl⟩⟩

private theorem secretsAre_iff {P : CryptoProvider} {cs : CipherSuite} {s : Bytes} : ∀ l : List (Bytes × Bytes),
    secretsAre P cs s l = .ok () ↔ ∀ p ∈ l, P.derive_secret cs s p.1 = .ok p.2 := by
  intro l
  induction l with
  | nil => simp [secretsAre]
  | cons p l ih =>
    obtain ⟨label, want⟩ := p
    rw [secretsAre]
    simp only [Res.bind_ok_iff, assert_iff, decide_eq_true_iff, List.mem_cons, forall_eq_or_imp, ← ih]
    constructor
    · rintro ⟨_, h1, _, rfl, h2⟩; exact ⟨h1, h2⟩
    · rintro ⟨h1, h2⟩; exact ⟨_, h1, (), rfl, h2⟩

private theorem epochLoop_iff {P : CryptoProvider} {cs : CipherSuite} {h : Hpke} (hp : P.hpke cs = .ok h) (hs : Sizes h)
    (gid : Bytes) : ∀ (epochs : List Epoch) (i : Nat) (init : Bytes), epochLoop P cs gid i init epochs = .ok () ↔
      ∀ (j : Nat) e, epochs[j]? = some e → EpochRight h (epochContext cs gid (i + j) e)
        (match j with
          | 0 => init
          | j + 1 => (epochs[j]?.map (·.init_secret)).getD []) e := by
  intro epochs
  induction epochs with
  | nil => intro i init; simp [epochLoop]
  | cons e epochs ih =>
    intro i init
    have hstep : epochLoop P cs gid i init (e :: epochs) = .ok () ↔ EpochRight h (epochContext cs gid i e) init e ∧
        epochLoop P cs gid (i + 1) e.init_secret epochs = .ok () := by
      have d := fun s out => C32_derived P cs h hp hs s out
      have hj := C32_joiner P (epochContext cs gid i e) h hp hs
      have he := C32_epoch P (epochContext cs gid i e) h hp hs
      have hw := writes_ok_iff (groupContext_w (epochContext cs gid i e))
      rw [epochLoop]
      simp only [Res.bind_ok_iff, assert_iff, decide_eq_true_iff, C32_welcome P cs h hp hs]
      constructor
      · rintro ⟨_, a1, _, rfl, _, a2, _, rfl, _, a3, _, rfl, s, a4, _, a5, _, rfl, _, a6, a7⟩
        have a6 := (secretsAre_iff _).1 a6
        simp only [List.mem_cons, forall_eq_or_imp, List.not_mem_nil, false_implies, forall_const, and_true] at a6
        obtain ⟨b1, b2, b3, b4, b5, b6, b7⟩ := a6
        exact ⟨⟨(hw _).1 a1, (hj ..).1 a2, a3, s, (he ..).1 a4, (d ..).2.2.2.2.2.2.2.2.1 a5, (d ..).1.1 b1, (d ..).2.1.1 b2,
          (d ..).2.2.1.1 b3, (d ..).2.2.2.1.1 b4, (d ..).2.2.2.2.1.1 b5, (d ..).2.2.2.2.2.1.1 b6,
          (d ..).2.2.2.2.2.2.1.1 b7⟩, a7⟩
      · rintro ⟨⟨a1, a2, a3, s, a4, a5, b1, b2, b3, b4, b5, b6, b7⟩, a7⟩
        refine ⟨_, (hw _).2 a1, (), rfl, _, (hj ..).2 a2, (), rfl, _, a3, (), rfl, s, (he ..).2 a4, _,
          (d ..).2.2.2.2.2.2.2.2.2 a5, (), rfl, (), (secretsAre_iff _).2 ?_, a7⟩
        simp only [List.mem_cons, forall_eq_or_imp, List.not_mem_nil, false_implies, forall_const, and_true]
        exact ⟨(d ..).1.2 b1, (d ..).2.1.2 b2, (d ..).2.2.1.2 b3, (d ..).2.2.2.1.2 b4, (d ..).2.2.2.2.1.2 b5,
          (d ..).2.2.2.2.2.1.2 b6, (d ..).2.2.2.2.2.2.1.2 b7⟩
    rw [hstep, ih]
    constructor
    · rintro ⟨h0, h1⟩ j e' hj
      cases j with
      | zero => cases hj; exact h0
      | succ j =>
        have := h1 j e' hj
        rw [show i + 1 + j = i + (j + 1) by omega] at this
        cases j with
        | zero => exact this
        | succ j => exact this
    · intro hall
      refine ⟨hall 0 e rfl, fun j e' hj => ?_⟩
      have := hall (j + 1) e' hj
      rw [show i + (j + 1) = i + 1 + j by omega] at this
      cases j with
      | zero => exact this
      | succ j => exact this

/-- C93, what is looked at: a key schedule vector passes exactly if the group contexts, joiner secrets, welcome secrets,
init secrets and seven of the secrets of its epochs are those of section 8.  Missing: `epoch_authenticator`,
`external_pub` and `exporter`, which the test does not look at. -/
theorem C93_key_schedule_partial (P : CryptoProvider) (cs : CipherSuite) (h : Hpke) (hp : P.hpke cs = .ok h)
    (hs : Sizes h) (tc : KeySchedule) : key_schedule_test P cs tc = .ok () ↔ KeyScheduleRight h cs tc := by
  unfold key_schedule_test KeyScheduleRight
  rw [epochLoop_iff hp hs]
  simp only [Nat.zero_add]
  rfl

/-- C93: a vector of transcript hashes passes exactly if the content begins with a commit whose confirmation tag is the MAC
of the confirmed hash, and the hashes are those of section 8.2. -/
theorem C93_transcript (P : CryptoProvider) (cs : CipherSuite) (H : Hash) (hH : P.hash cs = .ok H)
    (tc : TranscriptHashes) : transcript_hashes_test P cs tc = .ok () ↔ TranscriptRight H tc := by
  have hr := reads_iff AuthenticatedContent.lawful (fun x _ => authenticatedContent_w x) tc.authenticated_content
  unfold transcript_hashes_test TranscriptRight
  simp only [Res.bind_ok_iff, hr]
  constructor
  · rintro ⟨x, h1, h2⟩
    cases hc : x.content.content with
    | Application b => rw [hc] at h2; cases h2
    | Proposal b => rw [hc] at h2; cases h2
    | Commit c =>
      rw [hc] at h2
      simp only [Res.bind_ok_iff] at h2
      obtain ⟨_, h3, confirmed, h4, _, h5, interim, h6, h7⟩ := h2
      rw [assertOk_iff, C55_commit] at h3
      rw [assert_iff, decide_eq_true_iff] at h5 h7
      obtain ⟨h3, H', hH', h8⟩ := h3
      rw [hH] at hH'
      cases hH'
      subst h5 h7
      refine ⟨x, [], h1, h3, h8, ?_⟩
      obtain ⟨_, b1, b2⟩ := (transcriptHash_iff hH ⟨x.confirmed_transcript_hash_input, x.auth.confirmation_tag⟩ _ _).1 h4
      obtain ⟨b3, b4⟩ := (interimHash_iff hH ..).1 h6
      rw [b4, b2]
      exact .commit ⟨c, hc⟩ b1 b3 .done
  · rintro ⟨x, before, h1, h3, h8, h9⟩
    cases h9 with
    | commit hc b1 b3 h9 =>
      obtain ⟨c, hc⟩ := hc
      dsimp only at hc
      generalize e1 : tc.confirmed_transcript_hash_after = confirmed at *
      generalize e2 : tc.interim_transcript_hash_after = interim at *
      cases h9
      refine ⟨x, h1, ?_⟩
      rw [hc]
      simp only [Res.bind_ok_iff]
      refine ⟨(), ?_, _,
        (transcriptHash_iff hH ⟨x.confirmed_transcript_hash_input, x.auth.confirmation_tag⟩ _ _).2 ⟨⟨c, hc⟩, b1, rfl⟩, (), ?_,
        _, (interimHash_iff hH ..).2 ⟨b3, rfl⟩, ?_⟩
      · rw [assertOk_iff, C55_commit]
        exact ⟨h3, H, hH, h8⟩
      · rw [assert_iff, decide_eq_true_iff]; rfl
      · rw [assert_iff, decide_eq_true_iff]; rfl

/-! ### secret_tree_test.rs -/

private theorem generation_lt {h : Hpke} {s : Bytes} {y : RatchetSecret} {P : CryptoProvider}
    {cs : CipherSuite} (hp : P.hpke cs = .ok h) (hs : Sizes h) {n : Nat}
    (hy : RatchetSecret.advance P cs n ⟨s, 0⟩ = .ok y) (g : UInt32) (u : Unit) :
    assert (!(decide (g < y.generation))) = .ok u ↔ n ≤ g.toNat := by
  have hg := ((C36_generation P cs h hp hs s n y).1 hy).1
  rw [assert_iff, Bool.not_eq_true', decide_eq_false_iff_not, UInt32.lt_iff_toNat_lt, hg, Nat.not_lt]

private theorem ratchetLoop_iff {P : CryptoProvider} {cs : CipherSuite} {h : Hpke} (hp : P.hpke cs = .ok h)
    (hs : Sizes h) (label : RatchetLabel) (root : Bytes) (gens : List Generation) : ∀ (n : Nat) (y : RatchetSecret),
    RatchetSecret.advance P cs n ⟨root, 0⟩ = .ok y →
    (ratchetLoop P cs label gens y = .ok () ↔
      (n :: gens.map fun g => g.generation.toNat).Pairwise (· ≤ ·) ∧
      ∀ g ∈ gens, ∃ s, GenerationSecret h root g.generation.toNat s ∧
        TreeDerives h s (text "key") g.generation.toNat h.aead_key_size (g.want label).1 ∧
        TreeDerives h s (text "nonce") g.generation.toNat h.aead_nonce_size (g.want label).2) := by
  induction gens with
  | nil =>
    intro n y hy
    simp [ratchetLoop]
  | cons g gens ih =>
    intro n y hy
    have hstep : ratchetLoop P cs label (g :: gens) y = .ok () ↔ n ≤ g.generation.toNat ∧
        ∃ z, RatchetSecret.advance P cs g.generation.toNat ⟨root, 0⟩ = .ok z ∧
          z.derive_key P cs = .ok (g.want label).1 ∧ z.derive_nonce P cs = .ok (g.want label).2 ∧
          ratchetLoop P cs label gens z = .ok () := by
      rw [ratchetLoop]
      simp only [Res.bind_ok_iff, generation_lt hp hs hy]
      have hseek : n ≤ g.generation.toNat → seek P cs g.generation 4294967296 y =
          RatchetSecret.advance P cs g.generation.toNat ⟨root, 0⟩ := by
        intro hn
        have := seek_advance P cs g.generation ⟨root, 0⟩ rfl (g.generation.toNat - n) n 4294967296 (by omega)
          (by have := g.generation.toNat_lt; omega)
        rw [hy] at this
        exact this
      constructor
      · rintro ⟨_, h0, z, h1, _, h2, _, h3, _, h4, _, h5, h6⟩
        rw [assert_iff, decide_eq_true_iff] at h3 h5
        subst h3 h5
        exact ⟨h0, z, (hseek h0).symm.trans h1, h2, h4, h6⟩
      · rintro ⟨h0, z, h1, h2, h4, h6⟩
        refine ⟨(), h0, z, (hseek h0).trans h1, _, h2, (), ?_, _, h4, (), ?_, h6⟩
        · rw [assert_iff, decide_eq_true_iff]
        · rw [assert_iff, decide_eq_true_iff]
    rw [hstep]
    simp only [List.map_cons, List.pairwise_cons (a := n), List.mem_cons, forall_eq_or_imp]
    constructor
    · rintro ⟨h0, z, h1, h2, h3, h4⟩
      obtain ⟨h5, h6⟩ := (ih _ z h1).1 h4
      obtain ⟨h7, h8⟩ := (C36_generation P cs h hp hs root _ z).1 h1
      have h9 := (C36_key_nonce P cs h hp hs z _).1.1 h2
      have h10 := (C36_key_nonce P cs h hp hs z _).2.1 h3
      rw [h7] at h9 h10
      exact ⟨⟨⟨h0, fun a ha => Nat.le_trans h0 ((List.pairwise_cons.1 h5).1 a ha)⟩, h5⟩, ⟨_, h8, h9, h10⟩, h6⟩
    · rintro ⟨⟨⟨h0, _⟩, h5⟩, ⟨s, h8, h9, h10⟩, h6⟩
      have h1 := (C36_generation P cs h hp hs root _ ⟨s, g.generation⟩).2 ⟨rfl, h8⟩
      exact ⟨h0, _, h1, (C36_key_nonce P cs h hp hs ⟨s, g.generation⟩ _).1.2 h9,
        (C36_key_nonce P cs h hp hs ⟨s, g.generation⟩ _).2.2 h10, (ih _ _ h1).2 ⟨h5, h6⟩⟩

private theorem ratchetSecret_iff {P : CryptoProvider} {cs : CipherSuite} {h : Hpke} (hp : P.hpke cs = .ok h)
    (hs : Sizes h) (hT : Expander h) {K : Nat} (hK : K ≤ 31) {es : Bytes} (hes : h.kdf_extract_size ≤ es.length) {t : SecretTree}
    (ht : SecretTree.new P cs (2 ^ K) es = .ok t) {li : Nat} (hli : li < 2 ^ K) (ct : ContentType)
    (gens : List Generation) :
    test_ratchet_secret P cs t li (.ofContentType ct) gens = .ok () ↔
      (gens.map fun g => g.generation.toNat).Pairwise (· ≤ ·) ∧
      ∀ g ∈ gens, GenerationRight h es K li ct g.generation.toNat (g.want (.ofContentType ct)).1
        (g.want (.ofContentType ct)).2 := by
  have hle : 2 ^ K ≤ 2 ^ 31 := Nat.pow_le_pow_right (by omega) hK
  obtain ⟨leaf, hl, hn⟩ := (C35_secrets P cs h hp hs K hK es t ht).2 0 li (by omega) (by simpa using hli)
  rw [node_zero] at hl
  have hroot : ∃ root, Expands h leaf (text (if ct = .Application then "application" else "handshake")) []
      h.kdf_extract_size root := by
    obtain ⟨root, hr⟩ := hT.expands leaf (kdfLabel h.kdf_extract_size (text (if ct = .Application then "application" else "handshake")) []).bytes
      (UInt16.ofNat h.kdf_extract_size) (nodeSecret_long hT hes hn) (SecretTree.size_le h)
    refine ⟨root, hs.1, ?_, hr⟩
    cases ct <;> exact ⟨trivial, by decide⟩
  obtain ⟨root, hr⟩ := hroot
  have hd := (C35_ratchet_root P cs h hp hs t (2 * li) ct ⟨root, 0⟩).2 ⟨leaf, hl, rfl, hr⟩
  unfold test_ratchet_secret
  rw [node_index_eq (by omega), Res.ok_bind, hd, Res.ok_bind, ratchetLoop_iff hp hs _ root gens 0 ⟨root, 0⟩ rfl,
    List.pairwise_cons]
  have hg : ∀ g : Generation, GenerationRight h es K li ct g.generation.toNat (g.want (.ofContentType ct)).1
      (g.want (.ofContentType ct)).2 ↔ ∃ s, GenerationSecret h root g.generation.toNat s ∧
        TreeDerives h s (text "key") g.generation.toNat h.aead_key_size (g.want (.ofContentType ct)).1 ∧
        TreeDerives h s (text "nonce") g.generation.toNat h.aead_nonce_size (g.want (.ofContentType ct)).2 := by
    intro g
    constructor
    · rintro ⟨s, ⟨leaf', root', a1, a2, a3⟩, a4⟩
      cases C35_unique h es K 0 li _ _ a1 hn
      cases a2.2.2.symm.trans hr.2.2
      exact ⟨s, a3, a4⟩
    · rintro ⟨s, a3, a4⟩
      exact ⟨s, ⟨leaf, root, hn, hr, a3⟩, a4⟩
  simp only [hg]
  exact ⟨fun a => ⟨a.1.2, a.2⟩, fun a => ⟨⟨fun _ _ => Nat.zero_le _, a.1⟩, a.2⟩⟩

/-- C93: if the encryption secret is long enough for the KDF, a secret tree vector passes exactly if there is a full tree of leaves, the generations
of each leaf come in order, and all keys and nonces are those of sections 6.3.2 and 9. -/
theorem C93_secret_tree (P : CryptoProvider) (cs : CipherSuite) (h : Hpke) (hp : P.hpke cs = .ok h) (hs : Sizes h)
    (hT : Expander h) (tc : SecretTrees) (hes : h.kdf_extract_size ≤ tc.encryption_secret.length)
    (hn : tc.leaves.length ≤ 2 ^ 31) :
    secret_tree_test P cs tc = .ok () ↔ ∃ K, SecretTreeRight h tc K := by
  have hc : ∀ i, i ≤ 2 ^ 31 → cast32 i = i := fun i hi => Nat.mod_eq_of_lt (by omega)
  have hloop : ∀ K t, tc.leaves.length = 2 ^ K → SecretTree.new P cs (2 ^ K) tc.encryption_secret = .ok t →
      (forEnum (fun i gens => do
        test_ratchet_secret P cs t (cast32 i) .Handshake gens
        test_ratchet_secret P cs t (cast32 i) .Application gens) 0 tc.leaves = .ok () ↔
      (∀ gens ∈ tc.leaves, (gens.map fun g => g.generation.toNat).Pairwise (· ≤ ·)) ∧
      Listed (fun i gens => ∀ g ∈ gens,
        GenerationRight h tc.encryption_secret K i .Proposal g.generation.toNat g.handshake_key g.handshake_nonce ∧
        GenerationRight h tc.encryption_secret K i .Application g.generation.toNat g.application_key g.application_nonce)
        tc.leaves) := by
    intro K t hK ht
    have hK31 : K ≤ 31 := (Nat.pow_le_pow_iff_right (by omega)).1 (hK ▸ hn)
    rw [forEnum_ok]
    have hbody : ∀ (i : Nat) gens, tc.leaves[i]? = some gens → ((do
        test_ratchet_secret P cs t (cast32 i) .Handshake gens
        test_ratchet_secret P cs t (cast32 i) .Application gens) = .ok () ↔
        (gens.map fun g => g.generation.toNat).Pairwise (· ≤ ·) ∧ ∀ g ∈ gens,
        GenerationRight h tc.encryption_secret K i .Proposal g.generation.toNat g.handshake_key g.handshake_nonce ∧
        GenerationRight h tc.encryption_secret K i .Application g.generation.toNat g.application_key
          g.application_nonce) := by
      intro i gens hi
      have hlt := (List.getElem?_eq_some_iff.1 hi).1
      rw [hc i (by omega), Res.bind_ok_iff]
      have e1 := ratchetSecret_iff hp hs hT hK31 hes ht (li := i) (by omega) .Proposal gens
      have e2 := ratchetSecret_iff hp hs hT hK31 hes ht (li := i) (by omega) .Application gens
      constructor
      · rintro ⟨_, a1, a2⟩
        obtain ⟨b1, b2⟩ := e1.1 a1
        obtain ⟨_, b3⟩ := e2.1 a2
        exact ⟨b1, fun g hg => ⟨b2 g hg, b3 g hg⟩⟩
      · rintro ⟨b1, b2⟩
        exact ⟨(), e1.2 ⟨b1, fun g hg => (b2 g hg).1⟩, e2.2 ⟨b1, fun g hg => (b2 g hg).2⟩⟩
    constructor
    · intro hall
      refine ⟨fun gens hg => ?_, fun i gens hi => ((hbody i gens hi).1 (hall i gens hi)).2⟩
      obtain ⟨i, hi⟩ := List.getElem?_of_mem hg
      exact ((hbody i gens hi).1 (hall i gens hi)).1
    · rintro ⟨ho, hall⟩ i gens hi
      exact (hbody i gens hi).2 ⟨ho gens (List.mem_of_getElem? hi), hall i gens hi⟩
  have hnew := (C35_succeeds P cs h hp hT tc.leaves.length hn tc.encryption_secret hes).1
  unfold secret_tree_test
  simp only [Res.bind_ok_iff, hc _ hn, sender_key_iff hp hs, sender_nonce_iff hp hs]
  constructor
  · rintro ⟨k, h1, _, h2, n, h3, _, h4, t, h5, h6⟩
    rw [assert_iff, decide_eq_true_iff] at h2 h4
    subst h2 h4
    obtain ⟨K, hK⟩ := hnew.1 ⟨t, h5⟩
    obtain ⟨h7, h8⟩ := (hloop K t hK (hK ▸ h5)).1 h6
    exact ⟨K, hK, ⟨h1, h3⟩, h7, h8⟩
  · rintro ⟨K, hK, ⟨h1, h3⟩, h7, h8⟩
    obtain ⟨t, h5⟩ := hnew.2 ⟨K, hK⟩
    refine ⟨_, h1, (), ?_, _, h3, (), ?_, t, h5, (hloop K t hK (hK ▸ h5)).2 ⟨h7, h8⟩⟩
    · rw [assert_iff, decide_eq_true_iff]
    · rw [assert_iff, decide_eq_true_iff]

/-! ### Vectors that pass, and vectors that do not -/

private abbrev suite1 : CipherSuite := .MLS_128_DHKEMX25519_AES128GCM_SHA256_Ed25519

/-- Two epochs of a key schedule. -/
def twoEpochs : KeySchedule :=
  { cipher_suite := 1, group_id := [3], initial_init_secret := [1]
    epochs := [0, 1].map fun e =>
      { tree_hash := [4], commit_secret := [2], psk_secret := [6], confirmed_transcript_hash := [5]
        group_context := [0, 1, 0, 1, 1, 3, 0, 0, 0, 0, 0, 0, 0, e, 1, 4, 1, 5, 0]
        joiner_secret := [1, 1, 1, 1], welcome_secret := [1, 1, 1, 1], init_secret := [1, 1, 1, 1]
        sender_data_secret := [1, 1, 1, 1], encryption_secret := [1, 1, 1, 1], exporter_secret := [1, 1, 1, 1]
        epoch_authenticator := [1, 1, 1, 1], external_secret := [1, 1, 1, 1], confirmation_key := [1, 1, 1, 1]
        membership_key := [1, 1, 1, 1], resumption_psk := [1, 1, 1, 1], external_pub := []
        exporter := ⟨[], [], 0, []⟩ } }

set_option maxRecDepth 100000 in
example : KeyScheduleRight toyHpke suite1 twoEpochs :=
  (C93_key_schedule_partial toyProvider suite1 toyHpke rfl toy_sizes twoEpochs).1 (by decide +kernel)

set_option maxRecDepth 100000 in
example : key_schedule_test toyProvider suite1 { twoEpochs with group_id := [4] } = .fault .panic := by decide +kernel

/-- A commit, and what it does to the transcript. -/
def oneCommit : TranscriptHashes :=
  { cipher_suite := 1, confirmation_key := [6]
    authenticated_content :=
      [0, 1, 1, 3, 0, 0, 0, 0, 0, 0, 0, 1, 1, 0, 0, 0, 0, 0, 3, 0, 0, 1, 8, 25, 6, 7,
        0, 1, 1, 3, 0, 0, 0, 0, 0, 0, 0, 1, 1, 0, 0, 0, 0, 0, 3, 0, 0, 1, 8]
    interim_transcript_hash_before := [7]
    confirmed_transcript_hash_after := [7, 0, 1, 1, 3, 0, 0, 0, 0, 0, 0, 0, 1, 1, 0, 0, 0, 0, 0, 3, 0, 0, 1, 8]
    interim_transcript_hash_after := [7, 0, 1, 1, 3, 0, 0, 0, 0, 0, 0, 0, 1, 1, 0, 0, 0, 0, 0, 3, 0, 0, 1, 8,
      25, 6, 7, 0, 1, 1, 3, 0, 0, 0, 0, 0, 0, 0, 1, 1, 0, 0, 0, 0, 0, 3, 0, 0, 1, 8] }

set_option maxRecDepth 100000 in
example : TranscriptRight toyHash oneCommit :=
  (C93_transcript toyProvider suite1 toyHash rfl oneCommit).1 (by decide +kernel)

set_option maxRecDepth 100000 in
example : transcript_hashes_test toyProvider suite1 { oneCommit with interim_transcript_hash_before := [8] } =
    .fault .panic := by decide +kernel

/-- Two leaves, three generations. -/
def someGenerations : SecretTrees :=
  { cipher_suite := 1, sender_data_secret := [5], ciphertext := [1, 2, 3, 4, 5], key := List.replicate 16 5
    nonce := List.replicate 12 5, encryption_secret := [7, 7, 7, 7]
    leaves := [[0, 2].map fun g => ⟨g, List.replicate 16 7, List.replicate 12 7, List.replicate 16 7, List.replicate 12 7⟩,
      [1].map fun g => ⟨g, List.replicate 16 7, List.replicate 12 7, List.replicate 16 7, List.replicate 12 7⟩] }

set_option maxRecDepth 100000 in
example : ∃ K, SecretTreeRight toyHpke someGenerations K :=
  (C93_secret_tree toyProvider suite1 toyHpke rfl toy_sizes toy_expander someGenerations (by decide) (by decide)).1
    (by decide +kernel)

set_option maxRecDepth 100000 in
example : secret_tree_test toyProvider suite1
    { someGenerations with leaves := someGenerations.leaves.map List.reverse } = .fault .panic := by decide +kernel

/-- One of everything. -/
def basics : CryptoBasics :=
  { cipher_suite := 1, ref_hash_label := [1], ref_hash_value := [2], ref_hash_out := [1, 1, 1, 2]
    expand_secret := [3], expand_label := [4], expand_context := [5], expand_length := 2, expand_out := [3, 3]
    derive_label := [4], derive_secret := [6], derive_out := [6, 6, 6, 6]
    tree_secret := [8], tree_label := [4], tree_generation := 9, tree_length := 3, tree_out := [8, 8, 8]
    sign_priv := [1], sign_pub := [1], sign_content := [3], sign_label := [2]
    sign_signature := [1, 9, 77, 76, 83, 32, 49, 46, 48, 32, 2, 1, 3]
    encrypt_priv := [1], encrypt_pub := [1], encrypt_label := [2], encrypt_context := [3], encrypt_plaintext := [4]
    encrypt_kem_output := [9], encrypt_ciphertext := [1, 9, 77, 76, 83, 32, 49, 46, 48, 32, 2, 1, 3, 4] }

set_option maxRecDepth 100000 in
example : CryptoBasicsRight toyProvider [9] suite1 toyHash toyHpke basics :=
  (C93_crypto_basics toyProvider [9] suite1 toyHash rfl toyHpke rfl toy_sizes rfl basics).1 (by decide +kernel)

example : ∀ s ∈ [1, 2, 99], ∃ sg pair sig, toyProvider.signature (CipherSuite.ofU16 s) = .ok sg ∧
    sg.signature_key_pair [5] = .ok pair ∧ sg.sign pair.private_key testPlaintext = .ok sig ∧
    sg.verify pair.public_key testPlaintext sig = .ok () := fun s hs =>
  (C93_key_pairs toyProvider [5] [1, 2, 99]).1 (by decide +kernel) s hs rfl

set_option maxRecDepth 100000 in
example : PskRight toyHpke ⟨1, [⟨[1], [3], [2]⟩], List.replicate 8 0⟩ :=
  (C93_psk toyProvider suite1 toyHpke rfl toy_sizes _ (by decide)).1 (by decide +kernel)

end Rmls
