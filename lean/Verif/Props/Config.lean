import Verif.Props.Group
import Verif.Model.Config
/-
Property C96: what an application configures is what others see of it.
-/
namespace Rmls
open Spec MemoryKeyStore

/-! ## What a sequence of settings means, for any builder -/

/-- The value is the one of the last setting of its kind, or the default if there was none. -/
def LastSet {σ α : Type} (kind : α → σ) (default : α) (ss : List σ) (v : α) : Prop :=
  (∃ before after, ss = before ++ kind v :: after ∧ ∀ w, kind w ∉ after) ∨ ((∀ w, kind w ∉ ss) ∧ v = default)

theorem lastSet_unique {σ α : Type} {kind : α → σ} (hk : ∀ v w, kind v = kind w → v = w) {default : α} {ss : List σ}
    {v w : α} (hv : LastSet kind default ss v) (hw : LastSet kind default ss w) : v = w := by
  rcases hv with ⟨b, a, rfl, ha⟩ | ⟨hn, rfl⟩
  · rcases hw with ⟨b', a', he, ha'⟩ | ⟨hn, _⟩
    · rcases List.append_eq_append_iff.1 he with ⟨l, h1, h2⟩ | ⟨l, h1, h2⟩
      · cases l with
        | nil => exact hk _ _ (List.cons.inj h2).1
        | cons x l =>
          have := (List.cons.inj h2).2
          exact absurd (this ▸ by simp) (ha w)
      · cases l with
        | nil => exact hk _ _ (List.cons.inj h2).1.symm
        | cons x l =>
          have := (List.cons.inj h2).2
          exact absurd (this ▸ by simp) (ha' v)
    · exact absurd (by simp) (hn v)
  · rcases hw with ⟨b, a, rfl, _⟩ | ⟨_, rfl⟩
    · exact absurd (by simp) (hn w)
    · rfl

theorem lastSet_foldl {σ α β : Type} {kind : α → σ} {default : α} (get : β → α) (call : β → σ → β)
    (hit : ∀ b v, get (call b (kind v)) = v) (miss : ∀ b s, (∀ v, s ≠ kind v) → get (call b s) = get b) :
    ∀ (ss : List σ) (b : β), get b = default → LastSet kind default ss (get (ss.foldl call b)) := by
  suffices h : ∀ (ss : List σ) (b : β),
      (∃ before after, ss = before ++ kind (get (ss.foldl call b)) :: after ∧ ∀ w, kind w ∉ after) ∨
      ((∀ w, kind w ∉ ss) ∧ get (ss.foldl call b) = get b) from fun ss b hb =>
    (h ss b).imp id fun ⟨h1, h2⟩ => ⟨h1, h2.trans hb⟩
  intro ss
  induction ss with
  | nil => exact fun b => .inr ⟨fun _ h => (nomatch h), rfl⟩
  | cons s ss ih =>
    intro b
    simp only [List.foldl_cons]
    rcases ih (call b s) with ⟨bf, af, h1, h2⟩ | ⟨h1, h2⟩
    · exact .inl ⟨s :: bf, af, congrArg (s :: ·) h1, h2⟩
    · by_cases hs : ∃ v, s = kind v
      · obtain ⟨v, rfl⟩ := hs
        exact .inl ⟨[], ss, by rw [h2, hit]; rfl, h1⟩
      · refine .inr ⟨fun w hw => ?_, by rw [h2, miss b s fun v hv => hs ⟨v, hv⟩]⟩
        rcases List.mem_cons.1 hw with hw | hw
        · exact hs ⟨w, hw.symm⟩
        · exact h1 w hw

/-! ## The two builders of configurations -/

/-- A call on the builder of a crypto configuration. -/
inductive CryptoSetting where
  | version (v : ProtocolVersion)
  | suite (c : CipherSuite)

def CryptoConfigBuilder.call (b : CryptoConfigBuilder) : CryptoSetting → CryptoConfigBuilder
  | .version v => b.with_version v
  | .suite c => b.with_cipher_suite c

/-- The configuration after these calls. -/
def cryptoConfigOf (ss : List CryptoSetting) : CryptoConfig := (ss.foldl CryptoConfigBuilder.call .new).build

/-- The group configuration after calls with these crypto configurations. -/
def groupConfigOf (cs : List CryptoConfig) : GroupConfig :=
  (cs.foldl GroupConfigBuilder.with_crypto_config .new).build

/-- C96: whatever is called, in whatever order and however often, a crypto configuration has the version and the suite of
the last call of each kind; without one these are version 1 and suite 1 of the registries. -/
theorem C96_crypto_config (ss : List CryptoSetting) :
    LastSet .version (.ofU16 1) ss (cryptoConfigOf ss).version ∧ LastSet .suite (.ofU16 1) ss (cryptoConfigOf ss).cipher_suite := by
  constructor
  · refine lastSet_foldl (kind := .version) (default := .ofU16 1) (fun b : CryptoConfigBuilder => b.build.version) .call (fun b v => rfl) ?_ ss .new
      (by decide)
    intro b s hs
    cases s with
    | version v => exact absurd rfl (hs v)
    | suite c => rfl
  · refine lastSet_foldl (kind := .suite) (default := .ofU16 1) (fun b : CryptoConfigBuilder => b.build.cipher_suite) .call (fun b v => rfl) ?_ ss .new
      (by decide)
    intro b s hs
    cases s with
    | version v => rfl
    | suite c => exact absurd rfl (hs c)

/-- C96: a group configuration has the last crypto configuration given to it, and without one that of no calls. -/
theorem C96_group_config (cs : List CryptoConfig) :
    LastSet id (cryptoConfigOf []) cs (groupConfigOf cs).crypto_config :=
  lastSet_foldl (kind := id) (fun b : GroupConfigBuilder => b.build.crypto_config) .with_crypto_config (fun _ _ => rfl)
    (fun _ s hs => absurd rfl (hs s)) cs _ (by decide)

/-- C96: a group has the version and suite that were set last for it. -/
theorem C96_group (rnd : Bytes) (ss : List CryptoSetting) (cs : List CryptoConfig) (cred : Credential)
    (skp : SignatureKeyPair) (id : Option Bytes) :
    ∃ g, Group.new rnd (groupConfigOf (cs ++ [cryptoConfigOf ss])) cred skp id = .ok g ∧
      LastSet .version (.ofU16 1) ss g.group_config.crypto_config.version ∧
      LastSet .suite (.ofU16 1) ss g.group_config.crypto_config.cipher_suite := by
  obtain ⟨g, h1, h2, _⟩ := C58_created_partial rnd (groupConfigOf (cs ++ [cryptoConfigOf ss])) cred skp id
  refine ⟨g, h1, ?_⟩
  have : g.group_config.crypto_config = cryptoConfigOf ss := by
    rw [h2]
    refine lastSet_unique (kind := _root_.id) (fun _ _ h => h) (C96_group_config _) (.inl ⟨cs, [], rfl, fun _ h => (nomatch h)⟩)
  rw [this]
  exact C96_crypto_config ss

/-! ## Credentials -/

/-- C96: the accessors of a credential return what it was made from, and nothing for the other kind. -/
theorem C96_credential (c : Credential) :
    (∀ i, c.identity = some i ↔ c = .from_identity i) ∧ (∀ cs, c.certificates = some cs ↔ c = .from_certificates cs) ∧
    (c.identity = none ↔ ∃ cs, c = .from_certificates cs) ∧ (c.certificates = none ↔ ∃ i, c = .from_identity i) := by
  cases c <;> simp [Credential.identity, Credential.certificates, Credential.from_identity, Credential.from_certificates,
    eq_comm]

/-! ## What others read -/

/-- C96: whoever reads the encoding of a package that was built, followed by anything, reads the version and suite that
were set last, and the identity or certificates that it was built for. -/
theorem C96_package (P : CryptoProvider) (s : MemoryKeyStore) (b : KeyPackageBuilder) (ss : List CryptoSetting)
    (ikm0 ikm : Bytes) (cred : Credential) (skp : SignatureKeyPair) (x : KeyPackage) (s' : MemoryKeyStore)
    (h : b.build P s (cryptoConfigOf ss) ikm0 ikm cred skp = (.ok x, s')) (hx : x.WF) (rest : Bytes) :
    ∃ raw y, x.serialize = .ok raw ∧ KeyPackage.deserialize (raw ++ rest) = .ok (y, rest) ∧
      LastSet .version (.ofU16 1) ss y.payload.version ∧ LastSet .suite (.ofU16 1) ss y.payload.cipher_suite ∧
      y.payload.leaf_node.payload.credential.identity = cred.identity ∧
      y.payload.leaf_node.payload.credential.certificates = cred.certificates ∧
      y.payload.leaf_node.payload.signature_key = skp.public_key := by
  obtain ⟨kp, ip, ref, h1, ⟨_, _, hf, _⟩, _⟩ := C57_stored _ _ _ _ _ _ _ _ _ _ h
  obtain ⟨h2, h3, h4, h5, _⟩ := C43_contents _ _ _ _ _ _ _ _ _ _ _ _ _ h1
  rcases writes_cases (keyPackage_w x) with ⟨_, hw⟩ | ⟨hn, _⟩
  · refine ⟨_, x, hw, KeyPackage.lawful.1 _ _ _ hx hw, ?_⟩
    rw [h2, h3, h5]
    exact ⟨(C96_crypto_config ss).1, (C96_crypto_config ss).2, rfl, rfl, rfl⟩
  · exact absurd hf hn

/-- A package for which the suite was set twice. -/
example : cryptoConfigOf [.suite (.ofU16 7), .version .MLS10, .suite (.ofU16 1)] = toyConfig := by decide
example : (cryptoConfigOf [.suite (.ofU16 7), .version .MLS10, .suite (.ofU16 3)]).cipher_suite = .ofU16 3 := by decide
set_option maxRecDepth 100000 in
example : toyBuilder.build toyProvider empty (cryptoConfigOf [.suite (.ofU16 7), .version .MLS10, .suite (.ofU16 1)]) [1] [2]
    (.from_identity [5]) ⟨[9], [9], .ED25519⟩ = (.ok toyPackage, toyStore) := by decide +kernel
example : toyPackage.WF :=
  ((packs_iff _ _).1 (show deserialize_exact KeyPackage.deserialize (keyPackage toyPackage).bytes = .ok toyPackage by
    decide +kernel)).1

end Rmls
