import Verif.Spec.Building
import Verif.Props.Group
import Verif.Props.Sending
/-
Property C121: a key package can be made of everything that has an encoding.
-/
namespace Rmls
open Spec Spec.Enc Suites

private theorem opq_bound (b : Bytes) : (opq b).bytes.length ≤ b.length + 4 := by
  simp only [opq, Enc.bytes, List.length_append]
  have : ((header b.length).getD []).length ≤ 4 := by
    unfold header
    split
    · exact show 1 ≤ 4 by decide
    · split
      · exact show 2 ≤ 4 by decide
      · split
        · exact show 4 ≤ 4 by decide
        · exact show 0 ≤ 4 by decide
  omega

private theorem opq_fits {b : Bytes} (h : b.length ≤ 256) : (opq b).fits :=
  ⟨trivial, by show b.length < _; omega⟩

/-- The leaf has an encoding, and its length. -/
private theorem leaf_fits {b : KeyPackageBuilder} {cred : Credential} (he : Encodable b cred) {enc sig : Bytes}
    (h1 : enc.length ≤ 256) (h2 : sig.length ≤ 256) (lt : Lifetime) :
    (leafNodePayload ⟨enc, sig, cred, b.leaf_node_capabilities.getD ⟨[], [], [], [], []⟩, .KeyPackage lt,
      b.leaf_node_extensions.getD []⟩).fits ∧
    (leafNodePayload ⟨enc, sig, cred, b.leaf_node_capabilities.getD ⟨[], [], [], [], []⟩, .KeyPackage lt,
      b.leaf_node_extensions.getD []⟩).bytes.length + (extensions (b.key_package_extensions.getD [])).bytes.length ≤
      contentSize b cred + 600 := by
  obtain ⟨e1, e2, e3, _⟩ := he
  refine ⟨⟨opq_fits h1, opq_fits h2, e1, e2, ⟨trivial, trivial, trivial⟩, e3⟩, ?_⟩
  have l1 := opq_bound enc
  have l2 := opq_bound sig
  have l3 : (leafNodeSource (.KeyPackage lt)).bytes.length = 17 := rfl
  unfold contentSize
  simp only [leafNodePayload, struct, Enc.bytes, List.length_append, l3] at l1 l2 ⊢
  omega

/-- C121: with a suite whose keys can be derived, and a key pair of the suite *whose public key signs*, a key package can be made
of every credential and all settings that have encodings, as long as they leave room for keys and signatures; and it can be
read back. -/
theorem C121_builds (P : CryptoProvider) (s : MemoryKeyStore) (b : KeyPackageBuilder) (config : CryptoConfig)
    (hmake : KeyMaker P config.cipher_suite) (cred : Credential) (he : Encodable b cred)
    (hsize : contentSize b cred + 4096 < 2 ^ 30) (skp : SignatureKeyPair) (hpub : skp.public_key.length ≤ 256)
    (hscheme : ∀ sg, P.signature config.cipher_suite = .ok sg → sg.signature_scheme = skp.signature_scheme)
    (hsign : CanSign P config.cipher_suite skp.public_key) (ikm0 ikm : Bytes) :
    ∃ x s', b.build P s config ikm0 ikm cred skp = (.ok x, s') ∧
      (config.version.WF → config.cipher_suite.WF → Settings.WF b →
        ∀ rest, ∃ raw, x.serialize = .ok raw ∧ KeyPackage.deserialize (raw ++ rest) = .ok (x, rest)) := by
  obtain ⟨⟨Hs, hHs⟩, hp, hhp, hder⟩ := hmake
  obtain ⟨init, hi, i1, i2⟩ := hder ikm0
  obtain ⟨enc, hn, n1, n2⟩ := hder ikm
  obtain ⟨sg, hsg, hsigns⟩ := hsign
  obtain ⟨lf, ll⟩ := leaf_fits he n2 hpub (b.key_package_lifetime.getD ⟨0, 0⟩)
  -- the leaf
  generalize hpay : (⟨enc.public_key, skp.public_key, cred, b.leaf_node_capabilities.getD ⟨[], [], [], [], []⟩,
    .KeyPackage (b.key_package_lifetime.getD ⟨0, 0⟩), b.leaf_node_extensions.getD []⟩ : LeafNodePayload) = pay at lf ll
  have hsrc : pay.leaf_node_source = .KeyPackage (b.key_package_lifetime.getD ⟨0, 0⟩) := by rw [← hpay]
  have tf : (leafNodeTBS pay [] 0).fits ∧ (leafNodeTBS pay [] 0).bytes.length = (leafNodePayload pay).bytes.length := by
    unfold leafNodeTBS
    rw [hsrc]
    exact ⟨⟨lf, trivial⟩, by simp [struct, Enc.bytes]⟩
  obtain ⟨sig1, hs1, sl1⟩ := hsigns (labelled (text "LeafNodeTBS") (leafNodeTBS pay [] 0).bytes).bytes
  have hleaf : LeafNode.new P config.cipher_suite ikm cred skp (.KeyPackage (b.key_package_lifetime.getD ⟨0, 0⟩))
      (b.leaf_node_capabilities.getD ⟨[], [], [], [], []⟩) (b.leaf_node_extensions.getD []) .KeyPackage =
      .ok (⟨pay, sig1⟩, enc) := by
    unfold LeafNode.new
    rw [hHs, Res.ok_bind, hhp, Res.ok_bind, hn, Res.ok_bind]
    dsimp only
    rw [hpay, writes_ok (leafNodeTBS_w' pay _ hsrc .KeyPackage [] 0) tf.1, Res.ok_bind,
      show LEAF_NODE_SIGNATURE_LABEL = text "LeafNodeTBS" by decide,
      (sign_with_label_iff ..).2 ⟨⟨⟨trivial, by decide⟩, trivial, ?_⟩, sg, hsg, hs1⟩]
    · rfl
    · show (leafNodeTBS pay [] 0).bytes.length < _
      omega
  -- the package
  generalize htbs : (⟨config.version, config.cipher_suite, init.public_key, ⟨pay, sig1⟩, b.key_package_extensions.getD []⟩ :
    KeyPackageTBS) = tbs
  have kf : (keyPackageTBS tbs).fits := by
    rw [← htbs]
    exact ⟨by cases config.version <;> exact trivial, by cases config.cipher_suite <;> exact trivial, opq_fits i2,
      ⟨lf, opq_fits sl1⟩, he.2.2.2⟩
  have kl : (keyPackageTBS tbs).bytes.length ≤ contentSize b cred + 1200 := by
    rw [← htbs]
    have l1 := opq_bound init.public_key
    have l2 := opq_bound sig1
    have l3 : (version config.version).bytes.length = 2 := by cases config.version <;> rfl
    have l4 : (cipherSuite config.cipher_suite).bytes.length = 2 := by cases config.cipher_suite <;> rfl
    simp only [keyPackageTBS, leafNode, struct, Enc.bytes, List.length_append, l3, l4] at l1 l2 ll ⊢
    omega
  obtain ⟨sig2, hs2, sl2⟩ := hsigns (labelled (text "KeyPackageTBS") (keyPackageTBS tbs).bytes).bytes
  have hnew : KeyPackage.new P config ikm0 ikm cred skp (b.key_package_lifetime.getD ⟨0, 0⟩)
      (b.key_package_extensions.getD []) (b.leaf_node_capabilities.getD ⟨[], [], [], [], []⟩)
      (b.leaf_node_extensions.getD []) = .ok (⟨tbs, sig2⟩, enc, init.private_key) := by
    unfold KeyPackage.new
    rw [hsg, Res.ok_bind, if_neg (by rw [hscheme sg hsg]; exact fun h => h rfl), hHs, Res.ok_bind, hhp, Res.ok_bind, hi,
      Res.ok_bind]
    unfold KeyPackage.from_keys
    rw [hleaf, Res.ok_bind]
    dsimp only
    rw [htbs, writes_ok (keyPackageTBS_w tbs) kf, Res.ok_bind,
      show KEY_PACKAGE_SIGNATURE_LABEL = text "KeyPackageTBS" by decide,
      (sign_with_label_iff ..).2 ⟨⟨⟨trivial, by decide⟩, trivial, ?_⟩, sg, hsg, hs2⟩]
    · rfl
    · show (keyPackageTBS tbs).bytes.length < _
      omega
  -- the store
  have pf : (keyPackage ⟨tbs, sig2⟩).fits := ⟨kf, opq_fits sl2⟩
  have pl : (keyPackage ⟨tbs, sig2⟩).bytes.length < 2 ^ 30 := by
    have l2 := opq_bound sig2
    simp only [keyPackage, struct, Enc.bytes, List.length_append] at l2 kl ⊢
    omega
  have hcs : tbs.cipher_suite = config.cipher_suite := by rw [← htbs]
  have hser : KeyPackage.serialize ⟨tbs, sig2⟩ = .ok (keyPackage ⟨tbs, sig2⟩).bytes := writes_ok (keyPackage_w _) pf
  have href : KeyPackage.generate_ref P ⟨tbs, sig2⟩ =
      .ok (Hs.digest (refHashInput (text "MLS 1.0 KeyPackage Reference") (keyPackage ⟨tbs, sig2⟩).bytes).bytes) :=
    (generate_ref_iff P _ _).2 ⟨Hs, by rw [hcs]; exact hHs, pf, ⟨⟨trivial, by decide⟩, trivial, pl⟩, rfl⟩
  refine ⟨⟨tbs, sig2⟩, (b.build P s config ikm0 ikm cred skp).2, Prod.ext ?_ rfl, ?_⟩
  · show (b.build P s config ikm0 ikm cred skp).1 = .ok ⟨tbs, sig2⟩
    unfold KeyPackageBuilder.build
    rw [hnew]
    dsimp only
    rw [href]
    dsimp only
    rw [hser]
    dsimp only
    rw [writes_ok (hpkeKeyPair_w enc) ⟨opq_fits n1, opq_fits n2⟩]
    dsimp only
    rw [show SecretKey.serialize init.private_key = _ from writes_ok (writes_opaque _) (opq_fits i1)]
  · intro v1 v2 v3 rest
    refine ⟨_, hser, KeyPackage.lawful.rt _ _ rest ?_ hser⟩
    show tbs.WF
    rw [← htbs]
    refine ⟨v1, v2, ?_, v3.2.2⟩
    show pay.WF
    rw [← hpay]
    exact ⟨v3.1, v3.2.1⟩

/-- C121: a key package is never made of something that has no encoding, and then the store is as before. -/
theorem C121_refused (P : CryptoProvider) (s : MemoryKeyStore) (b : KeyPackageBuilder) (config : CryptoConfig)
    (ikm0 ikm : Bytes) (cred : Credential) (skp : SignatureKeyPair) (he : ¬ Encodable b cred) :
    (∀ x, (b.build P s config ikm0 ikm cred skp).1 ≠ .ok x) ∧ (b.build P s config ikm0 ikm cred skp).2 = s := by
  have key : ∀ x kp initPriv, ¬ Built P b config ikm0 ikm cred skp x kp initPriv := by
    intro x kp ip hb
    obtain ⟨⟨_, _, _, f, _⟩, _, _, _, h5, h6⟩ := KeyPackage.new_ok hb
    obtain ⟨_, h9, _⟩ := LeafNode.new_ok [] 0 h6
    obtain ⟨_, _, _, ⟨g, _⟩, g2⟩ := f
    rw [h9] at g
    rw [h5] at g2
    obtain ⟨_, _, g3, g4, _, g5⟩ := g
    exact he ⟨g3, g4, g5, g2⟩
  have h : ∀ x, (b.build P s config ikm0 ikm cred skp).1 ≠ .ok x := by
    intro x hx
    obtain ⟨kp, ip, _, hb, _⟩ := C57_stored P s b config ikm0 ikm cred skp x _ (Prod.ext hx rfl)
    exact key _ _ _ hb
  refine ⟨h, ?_⟩
  rcases C57_failing P s b config ikm0 ikm cred skp h with h | ⟨x, kp, ip, hb, _⟩
  · exact h
  · exact absurd hb (key _ _ _)

/-- C121: a key pair of another signature scheme is refused, and the store is as before. -/
theorem C121_scheme (P : CryptoProvider) (s : MemoryKeyStore) (b : KeyPackageBuilder) (config : CryptoConfig)
    (ikm0 ikm : Bytes) (cred : Credential) (skp : SignatureKeyPair) (sg : Signature)
    (hsg : P.signature config.cipher_suite = .ok sg) (hne : sg.signature_scheme ≠ skp.signature_scheme) :
    b.build P s config ikm0 ikm cred skp = (.err .CipherSuiteNotMatchSignatureScheme, s) := by
  unfold KeyPackageBuilder.build KeyPackage.new
  rw [hsg, Res.ok_bind, if_pos hne]

/-- C121: a suite that the provider does not support is refused, and the store is as before. -/
theorem C121_unsupported (p : Primitives) (P : CryptoProvider) (hP : Provider p P) (s : MemoryKeyStore)
    (b : KeyPackageBuilder) (config : CryptoConfig) (ikm0 ikm : Bytes) (cred : Credential) (skp : SignatureKeyPair)
    (h : P.supports config.cipher_suite = false) :
    b.build P s config ikm0 ikm cred skp = (.err .UnsupportedCipherSuite, s) := by
  have : P.signature config.cipher_suite = .err .UnsupportedCipherSuite := by
    rcases description_cases config.cipher_suite with ⟨_, hd⟩ | ⟨hs, _⟩
    · rcases hP with rfl | rfl <;> simp only [RustCryptoProvider, RingCryptoProvider, hd] <;> rfl
    · rcases hP with rfl | rfl <;> exact absurd (hs.symm.trans h) (by decide)
  unfold KeyPackageBuilder.build KeyPackage.new
  rw [this]
  rfl

/-- C121, what is true of the providers: with every supported suite but the second, both make a key package of whatever has an
encoding, with every key pair that they generate.  Missing: suite 2, see `C121_refuted`. -/
theorem C121_providers_partial (p : Primitives) (hl : LawfulPrimitives p) (hz : SizedPrimitives p) (hx : ShortX25519 p)
    (P : CryptoProvider) (hP : Provider p P) (config : CryptoConfig) (hsup : P.supports config.cipher_suite = true)
    (hcs : config.cipher_suite.toU16 ≠ 2) (sg : Signature) (hsg : P.signature config.cipher_suite = .ok sg) (rnd : Bytes)
    (skp : SignatureKeyPair) (hk : sg.signature_key_pair rnd = .ok skp) (s : MemoryKeyStore) (b : KeyPackageBuilder)
    (cred : Credential) (he : Encodable b cred) (hsize : contentSize b cred + 4096 < 2 ^ 30) (ikm0 ikm : Bytes) :
    ∃ x s', b.build P s config ikm0 ikm cred skp = (.ok x, s') := by
  have hmake : KeyMaker P config.cipher_suite ∧ sg.signature_scheme = .ED25519 ∧ skp.signature_scheme = .ED25519 ∧
      skp.public_key.length = 32 ∧ sg.sign = sign p .ED25519 := by
    revert hsup hcs hsg
    cases config.cipher_suite <;> intro hsup hcs hsg <;> first
      | exact absurd rfl hcs
      | (rcases hP with rfl | rfl <;> cases hsup; done)
      | (rcases hP with rfl | rfl <;> cases hsg <;> cases hk <;>
          exact ⟨⟨⟨_, rfl⟩, _, rfl, fun ikm => ⟨_, rfl, by rw [(hx ikm).1]; decide, by rw [(hx ikm).2]; decide⟩⟩, rfl, rfl,
            (hl.ed25519 rnd _ _ rfl).2.1, rfl⟩)
  obtain ⟨hm, h1, h2, h3, h4⟩ := hmake
  obtain ⟨x, s', h, _⟩ := C121_builds P s b config hm cred he hsize skp (by rw [h3]; decide)
    (fun sg' h => by rw [hsg] at h; cases h; rw [h1, h2])
    ⟨sg, hsg, fun m => ⟨p.ed25519_sign skp.public_key m, by rw [h4]; simp [sign, h3], hz.ed25519 _ _⟩⟩ ikm0 ikm
  exact ⟨x, s', h⟩

/-- C121 fails for suite 2: with a generated key pair, making a key package of anything that has an encoding panics. -/
theorem C121_refuted (p : Primitives) (hl : LawfulPrimitives p) (P : CryptoProvider) (hP : Provider p P) (config : CryptoConfig)
    (hcs : config.cipher_suite.toU16 = 2) (sg : Signature) (hsg : P.signature config.cipher_suite = .ok sg) (rnd : Bytes)
    (skp : SignatureKeyPair) (hk : sg.signature_key_pair rnd = .ok skp) (s : MemoryKeyStore) (b : KeyPackageBuilder)
    (cred : Credential) (he : Encodable b cred) (hsize : contentSize b cred + 4096 < 2 ^ 30) (ikm0 ikm : Bytes)
    (hshort : (p.derive_p256 ikm).public_key.length ≤ 256) :
    b.build P s config ikm0 ikm cred skp = (.fault .panic, s) := by
  have hpub : skp.public_key.length ≤ 256 := by
    have : skp.public_key = (p.ecdsa_generate .P256 rnd).2 := by
      revert hcs hsg
      cases config.cipher_suite <;> intro hcs hsg <;> first
        | exact absurd hcs (by decide)
        | (rcases hP with rfl | rfl <;> cases hsg <;> cases hk <;> rfl)
        | (rcases hP with rfl | rfl <;> cases hsg; done)
    obtain ⟨_, l, _⟩ := hl.ecdsa .P256 rnd _ _ rfl
    have hf : Curve.field .P256 = 32 := rfl
    rw [hf] at l
    rw [this]
    generalize (p.ecdsa_generate .P256 rnd).2 = k at l ⊢
    omega
  obtain ⟨lf, ll⟩ := leaf_fits he hshort hpub (b.key_package_lifetime.getD ⟨0, 0⟩)
  unfold KeyPackageBuilder.build
  rw [C60_refuted p hl P hP config hcs sg hsg rnd skp hk ikm0 ikm cred _ _ _ _ ⟨lf, trivial⟩ ⟨⟨trivial, by decide⟩, trivial, ?_⟩]
  simp only [leafNodeTBS, struct, Enc.bytes, List.append_nil]
  omega

/-- C121: what is made can be used: when the two derived keys and the reference are different, a welcome that names the package
is accepted by `Group::from_welcome` right away. -/
theorem C121_joins (P : CryptoProvider) (s : MemoryKeyStore) (b : KeyPackageBuilder) (config : CryptoConfig)
    (hv : config.version.WF) (hc : config.cipher_suite.WF) (hb : Settings.WF b) (ikm0 ikm : Bytes) (cred : Credential)
    (skp : SignatureKeyPair) (x : KeyPackage) (s' : MemoryKeyStore) (h : b.build P s config ikm0 ikm cred skp = (.ok x, s'))
    (ref : Bytes) (hr : IsRef P x ref) (h1 : ref ≠ x.payload.init_key)
    (h2 : ref ≠ x.payload.leaf_node.payload.encryption_key)
    (h3 : x.payload.leaf_node.payload.encryption_key ≠ x.payload.init_key) (w : Welcome) (before after : List EncryptedGroupSecrets)
    (e : EncryptedGroupSecrets) (hw : w.secrets = before ++ e :: after) (he : e.new_member = ref)
    (hother : ∀ o ∈ before, s'.retrieve o.new_member = none) :
    ∃ g, (Group.from_welcome P s' w).1 = .ok g := by
  obtain ⟨kp, ip, ref', hbu, hr', hs'⟩ := C57_stored P s b config ikm0 ikm cred skp x s' h
  obtain ⟨c1, c2, c3, c4, _⟩ := C43_contents P config ikm0 ikm cred skp _ _ _ _ x kp ip hbu
  have hx : x.WF := by
    refine ⟨by rw [c1]; exact hv, by rw [c2]; exact hc, ?_, by rw [c3]; exact hb.2.2⟩
    show x.payload.leaf_node.payload.WF
    rw [c4]
    exact ⟨hb.1, hb.2.1⟩
  rw [c4] at h2 h3
  have hi : (opq ip).fits := by
    by_cases hf : (opq ip).fits
    · exact hf
    · exfalso
      unfold KeyPackageBuilder.build at h
      rw [show KeyPackage.new P config ikm0 ikm cred skp _ _ _ _ = _ from hbu] at h
      dsimp only at h
      split at h
      · cases h
      · cases h
      · split at h
        · cases h
        · cases h
        · split at h
          · cases h
          · cases h
          · rcases writes_cases (writes_opaque ip) with ⟨k, _⟩ | ⟨_, er, k⟩
            · exact hf k
            · rw [show SecretKey.serialize ip = _ from k] at h
              cases h
  exact (C57_join P s b config ikm0 ikm cred skp x s' h hx kp ip ref hbu hr h1 h2 h3 hi w e before after hw he hother).1

/-! ### the hypotheses can be met -/

/-- The libraries of `boundedPrimitives` with X25519 keys of 32 bytes. -/
def shortPrimitives : Primitives :=
  { boundedPrimitives with
    derive_x25519 := fun ikm => ⟨List.replicate 32 (ikm.headD 0), List.replicate 32 (ikm.headD 0)⟩ }

private theorem short_lawful : LawfulPrimitives shortPrimitives where
  aead := boundedPrimitives_lawful.aead
  leftover := boundedPrimitives_lawful.leftover
  ed25519 := boundedPrimitives_lawful.ed25519
  ecdsa := boundedPrimitives_lawful.ecdsa
private theorem short_sized : SizedPrimitives shortPrimitives where
  hkdf := boundedPrimitives_sized.hkdf
  hmac := boundedPrimitives_sized.hmac
  encrypts := boundedPrimitives_sized.encrypts
  ed25519 := boundedPrimitives_sized.ed25519
  ecdsa := boundedPrimitives_sized.ecdsa

private def wideBuilder : KeyPackageBuilder :=
  (KeyPackageBuilder.new.with_key_package_lifetime ⟨0, 9⟩).with_leaf_node_extensions [⟨.ApplicationId, List.replicate 500 1⟩]

set_option maxRecDepth 100000 in
private theorem wide_encodable : Encodable wideBuilder (.Basic [5, 6, 7]) :=
  ⟨⟨trivial, trivial, by decide⟩, ⟨⟨trivial, by decide⟩, ⟨trivial, by decide⟩, ⟨trivial, by decide⟩, ⟨trivial, by decide⟩,
    trivial, by decide⟩, ⟨⟨⟨trivial, trivial, by decide⟩, trivial⟩, by decide +kernel⟩, trivial, by decide⟩

set_option maxRecDepth 100000 in
/-- Somebody with a name of three bytes and an extension of 500, in the third suite of the ring provider. -/
example : ∃ x s', wideBuilder.build (RingCryptoProvider shortPrimitives) MemoryKeyStore.empty ⟨.MLS10, .ofU16 3⟩ [1] [2]
    (.Basic [5, 6, 7]) ⟨List.replicate 32 4, List.replicate 32 5, .ED25519⟩ = (.ok x, s') :=
  C121_providers_partial shortPrimitives short_lawful short_sized
    (fun _ => ⟨List.length_replicate .., List.length_replicate ..⟩) (RingCryptoProvider shortPrimitives) (.inr rfl) ⟨.MLS10, .ofU16 3⟩
    rfl (by decide) _ rfl [4] _ rfl _ wideBuilder (.Basic [5, 6, 7]) wide_encodable (by decide +kernel) _ _

set_option maxRecDepth 100000 in
/-- The same in the second suite panics. -/
example : ∃ skp, (wideBuilder.build (RustCryptoProvider shortPrimitives) MemoryKeyStore.empty ⟨.MLS10, .ofU16 2⟩ [1] [2]
    (.Basic [5, 6, 7]) skp).1 = .fault .panic :=
  ⟨_, by rw [C121_refuted shortPrimitives short_lawful (RustCryptoProvider shortPrimitives) (.inl rfl) ⟨.MLS10, .ofU16 2⟩ rfl _ rfl
    [4] _ rfl MemoryKeyStore.empty wideBuilder (.Basic [5, 6, 7]) wide_encodable (by decide +kernel) [1] [2] (by decide)]⟩

set_option maxRecDepth 100000 in
/-- The package of `toyBuilder`, and the welcome that names it after somebody else. -/
example : ∃ g, (Group.from_welcome toyProvider toyStore toyWelcome).1 = .ok g :=
  C121_joins toyProvider MemoryKeyStore.empty toyBuilder toyConfig trivial trivial
    ⟨⟨nofun, nofun, nofun, nofun, nofun⟩, nofun, nofun⟩ [1] [2] (.Basic [5]) ⟨[9], [9], .ED25519⟩ toyPackage toyStore
    (by decide +kernel) toyRef ((generate_ref_iff _ _ _).1 (by decide +kernel)) (by decide +kernel) (by decide +kernel)
    (by decide +kernel) toyWelcome [⟨[4], ⟨[], []⟩⟩] [] ⟨toyRef, ⟨[], []⟩⟩ rfl rfl (by decide +kernel)

end Rmls
