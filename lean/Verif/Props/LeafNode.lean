import Verif.Proofs.LeafNode
import Verif.Props.Labels
import Verif.Props.Members
/-
Properties C31 (a leaf signature covers the leaf and its place), C42 (lifetimes), C43 (fresh key packages
verify), C44 (conditions of verification), C53 (key package verification covers the leaf).
-/
namespace Rmls
open Spec

/-! ## C31 -/

/-- C31: what is signed in a leaf determines its contents, and the group and position unless the leaf is from a
key package.  Leaves use the canonical representation of enumerations. -/
theorem C31_binding (x y : LeafNodePayload) (g g' : Bytes) (i i' : LeafIndex) (hx : x.WF) (hy : y.WF)
    (fx : (leafNodeTBS x g i).fits) (fy : (leafNodeTBS y g' i').fits)
    (h : (leafNodeTBS x g i).bytes = (leafNodeTBS y g' i').bytes) :
    x = y ∧ ((∃ lt, x.leaf_node_source = .KeyPackage lt) ∨ (g = g' ∧ i = i')) := by
  have hpf : PrefixFree leafNodePayload LeafNodePayload.WF :=
    LeafNodePayload.lawful.inj.prefixFree fun _ _ => leafNodePayload_w _
  obtain ⟨hxy, hr⟩ := hpf.pre hx hy fx.1 fy.1 h
  subst hxy
  refine ⟨rfl, ?_⟩
  have hp2 := opq_pf.seq u32_pf
  unfold leafNodeTBS at fx fy
  cases hs : x.leaf_node_source with
  | KeyPackage lt => exact .inl ⟨lt, rfl⟩
  | Update =>
    simp only [hs] at hr fx fy
    have := hp2.eq (x := (g, i)) (y := (g', i')) ⟨trivial, trivial⟩ ⟨trivial, trivial⟩ fx.2 fy.2 hr
    cases this
    exact .inr ⟨rfl, rfl⟩
  | Commit c =>
    simp only [hs] at hr fx fy
    have := hp2.eq (x := (g, i)) (y := (g', i')) ⟨trivial, trivial⟩ ⟨trivial, trivial⟩ fx.2 fy.2 hr
    cases this
    exact .inr ⟨rfl, rfl⟩

/-- C31: the signed bytes are what is verified: acceptance at a position is a signature over the leaf and that
position. -/
theorem C31_verifies (P : CryptoProvider) (cs : CipherSuite) (x : LeafNode) (g : Bytes) (i : LeafIndex) :
    x.verify_signature P cs (.UpdateOrCommit g i) = .ok true ↔ LeafSigned P cs x g i :=
  LeafNode.verify_signature_iff P cs x g i

/-- C31: with a signature scheme that binds the message, an update or commit leaf whose signature is accepted at
one position of one group is not accepted at any other, and no other leaf with that signature and key is. -/
theorem C31_position (P : CryptoProvider) (cs : CipherSuite) (x y : LeafNode) (g g' : Bytes) (i i' : LeafIndex)
    (hb : BindsMessage P) (hx : x.WF) (hy : y.WF) (hs : ∀ lt, x.payload.leaf_node_source ≠ .KeyPackage lt)
    (hk : x.payload.signature_key = y.payload.signature_key) (hsg : x.signature = y.signature)
    (h : x.verify_signature P cs (.UpdateOrCommit g i) = .ok true)
    (h' : y.verify_signature P cs (.UpdateOrCommit g' i') = .ok true) :
    x = y ∧ g = g' ∧ i = i' := by
  rw [LeafNode.verify_signature_iff] at h h'
  obtain ⟨f, f1, s, hs1, hv⟩ := h
  obtain ⟨f', f1', s', hs1', hv'⟩ := h'
  rw [hs1] at hs1'
  cases hs1'
  rw [← hk, ← hsg] at hv'
  have hc := (labelled_inj f1 f1' (hb cs s _ _ _ _ hs1 hv hv')).2
  obtain ⟨h1, h2⟩ := C31_binding x.payload y.payload g g' i i' hx hy f f' hc
  rcases h2 with ⟨lt, h2⟩ | h2
  · exact absurd h2 (hs lt)
  · refine ⟨?_, h2⟩
    cases x; cases y
    simp_all

/-- An update leaf of the example tree, signed for a position, and its verification. -/
def signedToyLeaf : LeafNode :=
  { toyLeaf 2 with signature := [2, 2] ++
    (labelled (text "LeafNodeTBS") (leafNodeTBS (toyLeaf 2).payload [7] 2).bytes).bytes }
example : signedToyLeaf.verify_signature toyProvider .MLS_128_DHKEMX25519_AES128GCM_SHA256_Ed25519
    (.UpdateOrCommit [7] 2) = .ok true := by decide
example : signedToyLeaf.verify_signature toyProvider .MLS_128_DHKEMX25519_AES128GCM_SHA256_Ed25519
    (.UpdateOrCommit [7] 3) = .ok false := by decide
theorem toyLeaf_wf (k : UInt8) : (toyLeaf k).WF := by
  simp [LeafNode.WF, LeafNodePayload.WF, toyLeaf, Capabilities.WF, Extensions.WF, CredentialType.WF,
      ProtocolVersion.WF]

/-! ## C42 -/

/-- C42, what the code does: it accepts a lifetime exactly when its range is at least 2160 seconds and it has
*expired*, with the fields read as microseconds. -/
theorem C42_exact (x : Lifetime) (now : Int) : x.verify now = true ↔ LifetimeAccepted x now :=
  Lifetime.verify_iff x now

/-- C42 is false: no lifetime is accepted while it is valid, whatever limit is put on its range. -/
theorem C42_valid_refuted (x : Lifetime) (now limit : Int) (h : LifetimeValid 1000 limit x now) :
    x.verify now = false := by
  cases hv : x.verify now with
  | false => rfl
  | true =>
    have := (Lifetime.verify_iff x now).1 hv
    unfold LifetimeValid at h
    unfold LifetimeAccepted at this
    omega

/-- C42 is false: expired lifetimes are accepted; and with the RFC's unit (seconds), the usual lifetime of 90
days is rejected in the middle of it and every lifetime of 70 years is accepted after it. -/
theorem C42_expired_refuted :
    (∃ x now, (x.not_after.toNat : Int) * 1000 < now ∧ Lifetime.verify x now = true) ∧
    (∃ x : Lifetime, ∃ now, LifetimeValid 1000000000 (90 * 24 * 3600 * 1000000000) x now ∧
      x.verify now = false) ∧
    (∃ x : Lifetime, ∃ now, (x.not_after.toNat : Int) * 1000000000 < now ∧
      70 * 365 * 24 * 3600 ≤ x.not_after.toNat - x.not_before.toNat ∧ x.verify now = true) := by
  refine ⟨⟨⟨0, 2160000000⟩, 2160000000001, by decide, by decide⟩,
    ⟨⟨1700000000, 1707776000⟩, 1703000000000000000, ?_, by decide⟩,
    ⟨⟨0, 2207520000⟩, 2207520001000000000, by decide, by decide, by decide⟩⟩
  unfold LifetimeValid
  decide

/-- C42, what is true: a lifetime that has not begun, or that ends before it begins, is not accepted.
Missing: expiry and the limit of the range are the wrong way round, see `C42_valid_refuted`. -/
theorem C42_partial (x : Lifetime) (now : Int) (h : x.verify now = true) :
    (x.not_before.toNat : Int) * 1000 ≤ now ∧ x.not_before.toNat ≤ x.not_after.toNat := by
  have := (Lifetime.verify_iff x now).1 h
  unfold LifetimeAccepted at this
  omega

/-! ## C44 -/

/-- C44: a leaf passes exactly if it is signed for its place, its credential type is supported, its lifetime is
accepted (when the clock is past the epoch), its extensions are among its capabilities, and its keys are new. -/
theorem C44_leaf (P : CryptoProvider) (x : LeafNode) (o : LeafNodeVerifyOptions) :
    x.verify P o = .ok () ↔
      LeafValid P x o.cipher_suite o.group_id o.leaf_index (· ∈ o.supported_creds) o.now ∧
      x.payload.signature_key ∉ o.signature_keys ∧ x.payload.encryption_key ∉ o.encryption_keys :=
  LeafNode.verify_iff P x o

/-- C44: a key package passes exactly if version and cipher suite are those of the group, the leaf is from a
key package, the package is signed by the leaf's key, and the two public keys differ. -/
theorem C44_key_package (P : CryptoProvider) (x : KeyPackage) (ctx : GroupContext) :
    x.verify P ctx = .ok () ↔
      x.payload.version = ctx.version ∧ x.payload.cipher_suite = ctx.cipher_suite ∧
      (∃ lt, x.payload.leaf_node.payload.leaf_node_source = .KeyPackage lt) ∧ KeyPackageSigned P x ∧
      x.payload.leaf_node.payload.encryption_key ≠ x.payload.init_key :=
  KeyPackage.verify_iff P x ctx

/-- The provider never panics when it verifies. -/
def VerifyTotal (P : CryptoProvider) : Prop :=
  ∀ cs, (∀ f, P.signature cs ≠ .fault f) ∧
    ∀ s, P.signature cs = .ok s → ∀ k m sg f, s.verify k m sg ≠ .fault f

theorem verify_with_label_total {P : CryptoProvider} (hP : VerifyTotal P) (cs : CipherSuite)
    (k l c sg : Bytes) (f : Fault) : P.verify_with_label cs k l c sg ≠ .fault f := by
  rcases C29_verify P cs k l c sg with ⟨_, h⟩ | ⟨_, e, h⟩
  · rw [h]
    cases hs : P.signature cs with
    | ok s => exact (hP cs).2 s hs _ _ _ _
    | err e => simp
    | fault e => exact absurd hs ((hP cs).1 e)
  · rw [h]; simp

/-- C44: otherwise the verdict is an error: verification does not panic unless the primitives do. -/
theorem C44_total (P : CryptoProvider) (hP : VerifyTotal P) (x : LeafNode) (o : LeafNodeVerifyOptions)
    (y : KeyPackage) (ctx : GroupContext) (f : Fault) : x.verify P o ≠ .fault f ∧ y.verify P ctx ≠ .fault f := by
  constructor
  · unfold LeafNode.verify LeafNode.verify_signature
    have hext : ∀ g sup es, LeafNode.checkExtensions sup es ≠ .fault g := by
      intro g sup es
      induction es with
      | nil => simp [LeafNode.checkExtensions]
      | cons e es ih => rw [LeafNode.checkExtensions]; split <;> simp_all
    rcases writes_cases (leafNodeTBS_w x.payload o.group_id o.leaf_index) with ⟨_, h⟩ | ⟨_, e, h⟩
    · rw [h]
      simp only
      have key : ∀ b : Bool, (do
          if b = false then .err .LeafNodeSignatureVerificationFailed
          else if o.supported_creds.contains x.payload.credential.credential_type = false then
            .err (.CredentialTypeUsedByLeafNodeNotSupportedByAllMembers
              x.payload.credential.credential_type.toU16)
          else do
            LeafNode.checkLifetime x.payload.leaf_node_source o.now
            LeafNode.checkExtensions x.payload.capabilities.extensions x.payload.extensions
            if o.signature_keys.contains x.payload.signature_key then .err .DuplicateSignatureKeyInRatchetTree
            else if o.encryption_keys.contains x.payload.encryption_key then
              .err .DuplicateEncryptionKeyInRatchetTree
            else pure () : Res Unit) ≠ .fault f := by
        intro b
        cases b with
        | false => simp
        | true =>
          simp only [Bool.true_eq_false, if_false]
          split
          · simp
          · have hl : (∃ e, LeafNode.checkLifetime x.payload.leaf_node_source o.now = .err e) ∨
                LeafNode.checkLifetime x.payload.leaf_node_source o.now = .ok () := by
              unfold LeafNode.checkLifetime
              split
              · split
                · exact .inl ⟨_, rfl⟩
                · exact .inr rfl
              · exact .inr rfl
            rcases hl with ⟨e, hl⟩ | hl
            · rw [hl]; simp
            · rw [hl]
              simp only [Res.ok_bind]
              cases hx : LeafNode.checkExtensions x.payload.capabilities.extensions x.payload.extensions with
              | ok u =>
                simp only [Res.ok_bind]
                split
                · simp
                · split <;> simp
              | err e => simp
              | fault e => exact absurd hx (hext e _ _)
      cases hv : P.verify_with_label o.cipher_suite x.payload.signature_key LEAF_NODE_SIGNATURE_LABEL
        (leafNodeTBS x.payload o.group_id o.leaf_index).bytes x.signature with
      | ok u => exact key true
      | err e => exact key false
      | fault e => exact absurd hv (verify_with_label_total hP _ _ _ _ _ _)
    · rw [h]; simp [Res.ok_bind]
  · unfold KeyPackage.verify
    split
    · simp
    · split
      · simp
      · split
        · unfold KeyPackage.verify_signature
          rcases writes_bind (keyPackageTBS_w y.payload) (fun raw =>
            P.verify_with_label y.payload.cipher_suite y.payload.leaf_node.payload.signature_key
              KEY_PACKAGE_SIGNATURE_LABEL raw y.signature) with ⟨_, h⟩ | ⟨_, e, h⟩
          · rw [h]
            cases hv : P.verify_with_label y.payload.cipher_suite y.payload.leaf_node.payload.signature_key
              KEY_PACKAGE_SIGNATURE_LABEL (keyPackageTBS y.payload).bytes y.signature with
            | ok u => simp only [Res.isOk, Res.ok_bind, Bool.true_eq_false, if_false]; split <;> simp
            | err e => simp [Res.isOk]
            | fault e => exact absurd hv (verify_with_label_total hP _ _ _ _ _ _)
          · rw [h]; simp [Res.isOk]
        · simp

theorem toy_verifyTotal : VerifyTotal toyProvider := by
  intro cs
  refine ⟨nofun, fun s hs k m sg f => ?_⟩
  cases hs
  simp only [toySignature]
  split <;> simp

/-- A leaf that passes, and one that does not because its key is already in use. -/
def toyOptions : LeafNodeVerifyOptions :=
  { cipher_suite := .MLS_128_DHKEMX25519_AES128GCM_SHA256_Ed25519, group_id := [7], leaf_index := 2
    supported_creds := [.Basic], signature_keys := [[0, 0]], encryption_keys := [[0]], now := 5 }
example : signedToyLeaf.verify toyProvider toyOptions = .ok () := by decide
example : signedToyLeaf.verify toyProvider { toyOptions with encryption_keys := [[2]] } =
    .err .DuplicateEncryptionKeyInRatchetTree := by decide

/-! ## C43 and C53 -/

/-- C43, contents: a new key package has the given version, suite, credential, lifetime, capabilities and
extensions; its keys are the ones derived and returned. -/
theorem C43_contents (P : CryptoProvider) (config : CryptoConfig) (ikm0 ikm : Bytes) (cred : Credential)
    (skp : SignatureKeyPair) (lt : Lifetime) (kpExts : Extensions) (caps : Capabilities) (exts : Extensions)
    (x : KeyPackage) (kp : HPKEKeyPair) (initPriv : Bytes)
    (h : KeyPackage.new P config ikm0 ikm cred skp lt kpExts caps exts = .ok (x, kp, initPriv)) :
    x.payload.version = config.version ∧ x.payload.cipher_suite = config.cipher_suite ∧
    x.payload.extensions = kpExts ∧
    x.payload.leaf_node.payload = ⟨kp.public_key, skp.public_key, cred, caps, .KeyPackage lt, exts⟩ ∧
    ∃ hp, P.hpke config.cipher_suite = .ok hp ∧ hp.kem_derive_key_pair ikm = .ok kp ∧
      hp.kem_derive_key_pair ikm0 = .ok ⟨initPriv, x.payload.init_key⟩ := by
  obtain ⟨_, ⟨hp, h1, h2⟩, h3, h4, h5, h6⟩ := KeyPackage.new_ok h
  obtain ⟨⟨hp', h7, h8⟩, h9, _⟩ := LeafNode.new_ok [] 0 h6
  rw [h1] at h7
  cases h7
  exact ⟨h3, h4, h5, h9, hp, h1, h8, h2⟩

/-- C43, what is true: a new key package verifies in a matching context, and its leaf's signature too, if the
scheme accepts, under the public key, signatures made *with the public key*, and the derived keys differ.
Missing: the signatures are not made with the private key, see `C43_refuted`. -/
theorem C43_verifies_partial (P : CryptoProvider) (config : CryptoConfig) (ikm0 ikm : Bytes) (cred : Credential)
    (skp : SignatureKeyPair) (lt : Lifetime) (kpExts : Extensions) (caps : Capabilities) (exts : Extensions)
    (x : KeyPackage) (kp : HPKEKeyPair) (initPriv : Bytes)
    (h : KeyPackage.new P config ikm0 ikm cred skp lt kpExts caps exts = .ok (x, kp, initPriv))
    (hsym : ∀ s m sg, P.signature config.cipher_suite = .ok s → s.sign skp.public_key m = .ok sg →
      s.verify skp.public_key m sg = .ok ())
    (hkey : kp.public_key ≠ x.payload.init_key) (ctx : GroupContext) (hv : ctx.version = config.version)
    (hc : ctx.cipher_suite = config.cipher_suite) :
    x.verify P ctx = .ok () ∧
    ∀ g i, x.payload.leaf_node.verify_signature P config.cipher_suite (.UpdateOrCommit g i) = .ok true := by
  obtain ⟨⟨s, hs, _, f, f2, hsg⟩, _, h3, h4, h5, h6⟩ := KeyPackage.new_ok h
  constructor
  · rw [KeyPackage.verify_iff]
    obtain ⟨_, h9, _⟩ := LeafNode.new_ok [] 0 h6
    refine ⟨by rw [h3, hv], by rw [h4, hc], ⟨lt, by rw [h9]⟩, ⟨f, ?_⟩, by rw [h9]; exact hkey⟩
    rw [h4, h9]
    exact ⟨f2, s, hs, hsym s _ _ hs hsg⟩
  · intro g i
    rw [LeafNode.verify_signature_iff]
    obtain ⟨_, h9, f3, f4, s', hs', h10⟩ := LeafNode.new_ok g i h6
    refine ⟨f3, f4, s', hs', ?_⟩
    rw [show x.payload.leaf_node.payload.signature_key = skp.public_key by rw [h9]]
    exact hsym s' _ _ hs' h10

/-- C43: it always verifies or fails as above: the exact condition. -/
theorem C43_exact (P : CryptoProvider) (config : CryptoConfig) (ikm0 ikm : Bytes) (cred : Credential)
    (skp : SignatureKeyPair) (lt : Lifetime) (kpExts : Extensions) (caps : Capabilities) (exts : Extensions)
    (x : KeyPackage) (kp : HPKEKeyPair) (initPriv : Bytes)
    (h : KeyPackage.new P config ikm0 ikm cred skp lt kpExts caps exts = .ok (x, kp, initPriv))
    (ctx : GroupContext) :
    x.verify P ctx = .ok () ↔ ctx.version = config.version ∧ ctx.cipher_suite = config.cipher_suite ∧
      kp.public_key ≠ x.payload.init_key ∧
      ∃ s m, P.signature config.cipher_suite = .ok s ∧
        m = (labelled (text "KeyPackageTBS") (keyPackageTBS x.payload).bytes).bytes ∧
        s.sign skp.public_key m = .ok x.signature ∧ s.verify skp.public_key m x.signature = .ok () := by
  obtain ⟨⟨s, hs, _, f, f2, hsg⟩, _, h3, h4, h5, h6⟩ := KeyPackage.new_ok h
  obtain ⟨_, h9, _⟩ := LeafNode.new_ok [] 0 h6
  rw [KeyPackage.verify_iff, h3, h4, h9]
  constructor
  · rintro ⟨a, b, _, ⟨_, _, s', hs', hver⟩, hne⟩
    rw [h4] at hs'
    rw [hs] at hs'
    cases hs'
    rw [h9] at hver
    exact ⟨a.symm, b.symm, hne, s, _, hs, rfl, hsg, hver⟩
  · rintro ⟨a, b, hne, s', m, hs', rfl, _, hver⟩
    refine ⟨a.symm, b.symm, ⟨lt, rfl⟩, ⟨f, ?_⟩, hne⟩
    rw [h4, h9]
    exact ⟨f2, s', hs', hver⟩

/-- A provider with a signature scheme whose private keys differ from the public ones. -/
def asymSignature : Signature where
  signature_key_pair r := .ok { private_key := 0 :: r, public_key := r, signature_scheme := .ED25519 }
  signature_scheme := .ED25519
  sign k m := .ok (k ++ m)
  verify k m s := if s = 0 :: k ++ m then .ok () else .err .Other
def asymProvider : CryptoProvider := { toyProvider with signature := fun _ => .ok asymSignature }

def toyConfig : CryptoConfig := ⟨.MLS10, .MLS_128_DHKEMX25519_AES128GCM_SHA256_Ed25519⟩
def toyContext : GroupContext :=
  { version := .MLS10, cipher_suite := toyConfig.cipher_suite, group_id := [7], epoch := 3, tree_hash := []
    confirmed_transcript_hash := [], extensions := [] }
def toyCaps : Capabilities := (toyLeaf 0).payload.capabilities

/-- C43 is false: a lawful provider (every generated pair signs and verifies), for which a new key package does
not verify. -/
theorem C43_refuted :
    (∀ r m p, asymSignature.signature_key_pair r = .ok p →
      ∃ sg, asymSignature.sign p.private_key m = .ok sg ∧ asymSignature.verify p.public_key m sg = .ok ()) ∧
    ∃ x kp priv, KeyPackage.new asymProvider toyConfig [1] [2] (.Basic [5]) ⟨[0, 9], [9], .ED25519⟩ ⟨0, 9⟩ []
        toyCaps [] = .ok (x, kp, priv) ∧
      x.verify asymProvider toyContext = .err .InvalidKeyPackageSignature := by
  constructor
  · intro r m p hp
    cases hp
    exact ⟨_, rfl, by simp [asymSignature]⟩
  · refine ⟨_, _, _, rfl, ?_⟩
    decide

/-- The hypotheses of `C43_verifies_partial` can be met: the example provider uses one key for both. -/
example : ∃ x kp priv, KeyPackage.new toyProvider toyConfig [1] [2] (.Basic [5]) ⟨[9], [9], .ED25519⟩ ⟨0, 9⟩ []
    toyCaps [] = .ok (x, kp, priv) ∧ kp.public_key ≠ x.payload.init_key ∧
    x.verify toyProvider toyContext = .ok () := by
  refine ⟨_, _, _, rfl, ?_, ?_⟩ <;> decide

/-- C53 is false: a key package is accepted although the signature of the leaf in it is not. -/
theorem C53_refuted : ∃ x : KeyPackage, x.verify toyProvider toyContext = .ok () ∧
    ∀ g i, x.payload.leaf_node.verify_signature toyProvider toyContext.cipher_suite (.UpdateOrCommit g i) =
      .ok false := by
  let leaf : LeafNode := { toyLeaf 1 with
    payload := { (toyLeaf 1).payload with leaf_node_source := .KeyPackage ⟨0, 9⟩ } }
  let tbs : KeyPackageTBS := ⟨.MLS10, toyContext.cipher_suite, [3], leaf, []⟩
  refine ⟨⟨tbs, [1, 1] ++ (labelled (text "KeyPackageTBS") (keyPackageTBS tbs).bytes).bytes⟩, by decide, ?_⟩
  intro g i
  rfl

/-- C53, what is true: the key package signature covers the leaf and its signature, so with a scheme that binds
messages an accepted package is one that the holder of the leaf's key signed as a whole.
Missing: the leaf's own signature is not checked, see `C53_refuted`. -/
theorem C53_covers_partial (P : CryptoProvider) (x y : KeyPackage) (ctx : GroupContext) (hb : BindsMessage P)
    (hx : x.WF) (hy : y.WF)
    (hk : x.payload.leaf_node.payload.signature_key = y.payload.leaf_node.payload.signature_key)
    (hsg : x.signature = y.signature) (h : x.verify P ctx = .ok ()) (h' : y.verify P ctx = .ok ()) : x = y := by
  rw [KeyPackage.verify_iff] at h h'
  obtain ⟨_, c1, _, ⟨f, f1, s, hs, hv⟩, _⟩ := h
  obtain ⟨_, c2, _, ⟨f', f1', s', hs', hv'⟩, _⟩ := h'
  rw [c1] at hs
  rw [c2, hs] at hs'
  cases hs'
  rw [← hk, ← hsg] at hv'
  have hc := (labelled_inj f1 f1' (hb _ s _ _ _ _ hs hv hv')).2
  have hpf : PrefixFree keyPackageTBS KeyPackageTBS.WF :=
    KeyPackageTBS.lawful.inj.prefixFree fun _ _ => keyPackageTBS_w _
  have := hpf.eq hx hy f f' hc
  cases x; cases y
  simp_all

end Rmls
