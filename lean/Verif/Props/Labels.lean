import Verif.Proofs.Labels
import Verif.Props.Toy
/-
Property C29: labelled operations are domain separated.
-/
namespace Rmls
open Spec

/-- C29: `ExpandWithLabel` hands the encoding of length, label and context to the KDF. -/
theorem C29_expand (P : CryptoProvider) (cs : CipherSuite) (secret label context : Bytes) (length : UInt16) :
    ((kdfLabel length.toNat label context).fits ∧
      P.expand_with_label cs secret label context length =
        (P.hpke cs >>= fun h => h.kdf_expand secret (kdfLabel length.toNat label context).bytes length)) ∨
    (¬ (kdfLabel length.toNat label context).fits ∧
      ∃ e, P.expand_with_label cs secret label context length = .err e) :=
  writes_bind (kdfLabel_w length label context) _

/-- C29: `DeriveSecret` is `ExpandWithLabel` with an empty context and the size of the KDF's hash. -/
theorem C29_derive (P : CryptoProvider) (cs : CipherSuite) (secret label : Bytes) (h : Hpke)
    (hp : P.hpke cs = .ok h) (hn : h.kdf_extract_size < 2 ^ 16)
    (hf : (kdfLabel h.kdf_extract_size label []).fits) :
    P.derive_secret cs secret label =
      h.kdf_expand secret (kdfLabel h.kdf_extract_size label []).bytes (UInt16.ofNat h.kdf_extract_size) := by
  unfold CryptoProvider.derive_secret
  have hn : (UInt16.ofNat h.kdf_extract_size).toNat = h.kdf_extract_size := by
    rw [UInt16.toNat_ofNat']; omega
  rw [hp]
  simp only [Res.ok_bind]
  rcases C29_expand P cs secret label [] (UInt16.ofNat h.kdf_extract_size) with ⟨_, h1⟩ | ⟨f, _⟩
  · rw [h1, hp, hn]; rfl
  · rw [hn] at f; exact absurd hf f

/-- C29: signing and verifying use the encoding of label and content. -/
theorem C29_sign (P : CryptoProvider) (cs : CipherSuite) (key label content : Bytes) :
    ((labelled label content).fits ∧
      P.sign_with_label cs key label content =
        (P.signature cs >>= fun s => s.sign key (labelled label content).bytes)) ∨
    (¬ (labelled label content).fits ∧ ∃ e, P.sign_with_label cs key label content = .err e) :=
  writes_bind (mls_prefix_label_data_w label content) _

theorem C29_verify (P : CryptoProvider) (cs : CipherSuite) (key label content signature : Bytes) :
    ((labelled label content).fits ∧
      P.verify_with_label cs key label content signature =
        (P.signature cs >>= fun s => s.verify key (labelled label content).bytes signature)) ∨
    (¬ (labelled label content).fits ∧ ∃ e, P.verify_with_label cs key label content signature = .err e) :=
  writes_bind (mls_prefix_label_data_w label content) _

/-- C29: encryption and decryption to a public key use the encoding of label and context as HPKE info. -/
theorem C29_encrypt (P : CryptoProvider) (rnd : Bytes) (cs : CipherSuite) (key label context plain : Bytes) :
    ((labelled label context).fits ∧
      P.encrypt_with_label rnd cs key label context plain =
        if CryptoProvider.labelSuite cs then P.hpke_seal cs rnd key (labelled label context).bytes plain
        else .err .UnsupportedCipherSuite) ∨
    (¬ (labelled label context).fits ∧ ∃ e, P.encrypt_with_label rnd cs key label context plain = .err e) :=
  writes_bind (mls_prefix_label_data_w label context) _

theorem C29_decrypt (P : CryptoProvider) (cs : CipherSuite) (key label context kem cipher : Bytes) :
    ((labelled label context).fits ∧
      P.decrypt_with_label cs key label context kem cipher =
        if CryptoProvider.labelSuite cs then P.hpke_open cs key (labelled label context).bytes kem cipher
        else .err .UnsupportedCipherSuite) ∨
    (¬ (labelled label context).fits ∧ ∃ e, P.decrypt_with_label cs key label context kem cipher = .err e) :=
  writes_bind (mls_prefix_label_data_w label context) _

/-- C29: `RefHash`. -/
theorem C29_ref_hash (P : CryptoProvider) (cs : CipherSuite) (label value : Bytes) :
    ((refHashInput label value).fits ∧
      P.ref_hash cs label value = (P.hash cs >>= fun h => .ok (h.digest (refHashInput label value).bytes))) ∨
    (¬ (refHashInput label value).fits ∧ ∃ e, P.ref_hash cs label value = .err e) :=
  writes_bind (refHashInput_w label value) _

/-- C29: the inputs determine label, context and length. -/
theorem C29_separated {n n' : UInt16} {l l' c c' : Bytes} :
    ((kdfLabel n.toNat l c).fits → (kdfLabel n'.toNat l' c').fits →
      (kdfLabel n.toNat l c).bytes = (kdfLabel n'.toNat l' c').bytes → n = n' ∧ l = l' ∧ c = c') ∧
    ((labelled l c).fits → (labelled l' c').fits →
      (labelled l c).bytes = (labelled l' c').bytes → l = l' ∧ c = c') ∧
    ((refHashInput l c).fits → (refHashInput l' c').fits →
      (refHashInput l c).bytes = (refHashInput l' c').bytes → l = l' ∧ c = c') :=
  ⟨kdfLabel_inj, labelled_inj, refHashInput_inj⟩

/-- C29 seen from outside: with a signature scheme that binds the message, one signature does not verify under
two labels or over two contents. -/
theorem C29_one_meaning (P : CryptoProvider) (cs : CipherSuite) (key l l' c c' sg : Bytes) (hb : BindsMessage P)
    (h : P.verify_with_label cs key l c sg = .ok ()) (h' : P.verify_with_label cs key l' c' sg = .ok ()) :
    l = l' ∧ c = c' := by
  obtain ⟨f, s, h1, h2⟩ := (verify_with_label_iff P cs key l c sg).1 h
  obtain ⟨f', s', h1', h2'⟩ := (verify_with_label_iff P cs key l' c' sg).1 h'
  rw [h1] at h1'
  cases h1'
  exact labelled_inj f f' (hb cs s key _ _ sg h1 h2 h2')

theorem toy_binds : BindsMessage toyProvider := by
  intro cs s key m m' sg hs h1 h2
  cases hs
  simp only [toySignature] at h1 h2
  split at h1
  · next h => subst h; split at h2
              · next h => exact List.append_cancel_left h
              · cases h2
  · cases h1

example : (labelled (text "LeafNodeTBS") [1, 2, 3]).fits ∧ (kdfLabel 32 (text "joiner") [7]).fits ∧
    (refHashInput (text "MLS 1.0 KeyPackage Reference") [1]).fits := by
  refine ⟨⟨⟨trivial, ?_⟩, trivial, ?_⟩, ⟨trivial, ⟨trivial, ?_⟩, trivial, ?_⟩, ⟨trivial, ?_⟩, trivial, ?_⟩ <;> decide
example : (labelled (text "x") [1]).bytes = [9, 77, 76, 83, 32, 49, 46, 48, 32, 120, 1, 1] := by decide

end Rmls
