import Verif.Proofs.Labels
import Verif.Spec.LeafNode
/-
Leaf nodes and key packages: signatures, verification, construction.
-/
namespace Rmls
open Spec Spec.Enc

theorem text_leaf : LEAF_NODE_SIGNATURE_LABEL = text "LeafNodeTBS" := by decide
theorem text_keyPackage : KEY_PACKAGE_SIGNATURE_LABEL = text "KeyPackageTBS" := by decide

theorem Lifetime.verify_iff (x : Lifetime) (t : Int) : x.verify t = true ↔ LifetimeAccepted x t := by
  unfold Lifetime.verify LifetimeAccepted Lifetime.not_before_time Lifetime.not_after_time
    MAX_LEAF_NODE_LIFETIME
  simp only
  split
  · split
    · constructor
      · intro h; cases h
      · rintro ⟨h1, h2⟩; omega
    · simp only [Bool.and_eq_true, decide_eq_true_eq]
      omega
  · constructor
    · intro h; cases h
    · rintro ⟨h1, h2⟩; omega

theorem isOk_true {α : Type} {r : Res α} : r.isOk = .ok true ↔ ∃ a, r = .ok a := by
  cases r <;> simp [Res.isOk]

theorem isOk_unit {r : Res Unit} : r.isOk = .ok true ↔ r = .ok () := by
  rw [isOk_true]
  exact ⟨fun ⟨a, h⟩ => h, fun h => ⟨(), h⟩⟩

theorem LeafNode.verify_signature_iff (P : CryptoProvider) (cs : CipherSuite) (x : LeafNode) (gid : Bytes)
    (li : LeafIndex) : x.verify_signature P cs (.UpdateOrCommit gid li) = .ok true ↔ LeafSigned P cs x gid li := by
  unfold LeafNode.verify_signature LeafSigned
  rcases writes_cases (leafNodeTBS_w x.payload gid li) with ⟨f, h⟩ | ⟨f, e, h⟩
  · rw [h]
    simp only [text_leaf]
    rw [isOk_unit, verify_with_label_iff]
    exact ⟨fun h => ⟨f, h⟩, fun h => h.2⟩
  · rw [h]
    exact ⟨(nomatch ·), fun h => absurd h.1 f⟩

theorem KeyPackage.verify_signature_iff (P : CryptoProvider) (x : KeyPackage) :
    x.verify_signature P = .ok () ↔ KeyPackageSigned P x := by
  unfold KeyPackage.verify_signature KeyPackageSigned
  rcases writes_bind (keyPackageTBS_w x.payload) (fun raw =>
    P.verify_with_label x.payload.cipher_suite x.payload.leaf_node.payload.signature_key
      KEY_PACKAGE_SIGNATURE_LABEL raw x.signature) with ⟨f, h⟩ | ⟨f, e, h⟩
  · rw [h, text_keyPackage, verify_with_label_iff]
    exact ⟨fun h => ⟨f, h⟩, fun h => h.2⟩
  · rw [h]
    exact ⟨(nomatch ·), fun h => absurd h.1 f⟩

theorem LeafNode.checkExtensions_iff (supported : List ExtensionType) (es : Extensions) :
    LeafNode.checkExtensions supported es = .ok () ↔ ∀ e ∈ es, e.extension_type ∈ supported := by
  induction es with
  | nil => simp [LeafNode.checkExtensions]
  | cons e es ih =>
    rw [LeafNode.checkExtensions]
    split
    · next h => simp_all
    · next h => simp_all

theorem LeafNode.checkLifetime_iff (source : LeafNodeSource) (now : Int) :
    LeafNode.checkLifetime source now = .ok () ↔
      ∀ lt, source = .KeyPackage lt → 0 < now → LifetimeAccepted lt now := by
  unfold LeafNode.checkLifetime
  cases source with
  | KeyPackage lt =>
    simp only
    split
    · next h =>
      refine ⟨(nomatch ·), fun hh => ?_⟩
      have := (Lifetime.verify_iff lt now).2 (hh lt rfl h.1)
      rw [this] at h
      cases h.2
    · next h =>
      refine ⟨fun _ lt' hl hn => ?_, fun _ => rfl⟩
      cases hl
      rw [← Lifetime.verify_iff]
      cases hv : lt.verify now with
      | true => rfl
      | false => exact absurd ⟨hn, hv⟩ h
  | Update => simp
  | Commit _ => simp

theorem Res.bind_unit_iff {α : Type} {r : Res Unit} {k : Unit → Res α} {a : α} :
    (r >>= k) = .ok a ↔ r = .ok () ∧ k () = .ok a := by
  cases r with
  | ok u => simp
  | err e => simp
  | fault f => simp

theorem LeafNode.verify_iff (P : CryptoProvider) (x : LeafNode) (o : LeafNodeVerifyOptions) :
    x.verify P o = .ok () ↔
      LeafValid P x o.cipher_suite o.group_id o.leaf_index (· ∈ o.supported_creds) o.now ∧
      x.payload.signature_key ∉ o.signature_keys ∧ x.payload.encryption_key ∉ o.encryption_keys := by
  have hc : x.payload.credential.credential_type = credTypeOf x.payload.credential := by
    cases x.payload.credential <;> rfl
  unfold LeafNode.verify
  constructor
  · intro h
    cases hg : x.verify_signature P o.cipher_suite (.UpdateOrCommit o.group_id o.leaf_index) with
    | err e => rw [hg] at h; cases h
    | fault e => rw [hg] at h; cases h
    | ok b =>
      rw [hg] at h
      simp only [Res.ok_bind] at h
      cases b with
      | false => cases h
      | true =>
        simp only [Bool.true_eq_false, if_false] at h
        split at h
        · cases h
        · next hcr =>
          rw [Res.bind_unit_iff, Res.bind_unit_iff, LeafNode.checkLifetime_iff,
            LeafNode.checkExtensions_iff] at h
          obtain ⟨h1, h2, h3⟩ := h
          split at h3
          · cases h3
          · next h4 =>
            split at h3
            · cases h3
            · next h5 =>
              refine ⟨⟨(LeafNode.verify_signature_iff ..).1 hg, ?_, h1, h2⟩, ?_, ?_⟩
              · rw [← hc]; simpa using hcr
              · simpa using h4
              · simpa using h5
  · rintro ⟨⟨h1, h2, h3, h4⟩, h5, h6⟩
    rw [(LeafNode.verify_signature_iff ..).2 h1]
    simp only [Res.ok_bind, Bool.true_eq_false, if_false]
    rw [← hc] at h2
    rw [if_neg (by simpa using h2), (LeafNode.checkLifetime_iff ..).2 h3, (LeafNode.checkExtensions_iff ..).2 h4]
    simp only [Res.ok_bind]
    rw [if_neg (by simpa using h5), if_neg (by simpa using h6)]
    rfl

theorem KeyPackage.verify_iff (P : CryptoProvider) (x : KeyPackage) (ctx : GroupContext) :
    x.verify P ctx = .ok () ↔
      x.payload.version = ctx.version ∧ x.payload.cipher_suite = ctx.cipher_suite ∧
      (∃ lt, x.payload.leaf_node.payload.leaf_node_source = .KeyPackage lt) ∧ KeyPackageSigned P x ∧
      x.payload.leaf_node.payload.encryption_key ≠ x.payload.init_key := by
  unfold KeyPackage.verify
  rw [← KeyPackage.verify_signature_iff]
  constructor
  · intro h
    split at h
    · cases h
    · next h1 =>
      split at h
      · cases h
      · next h2 =>
        split at h
        · next lt hs =>
          cases hv : x.verify_signature P with
          | err e => rw [hv] at h; cases h
          | fault e => rw [hv] at h; cases h
          | ok u =>
            rw [hv] at h
            simp only [Res.isOk, Res.ok_bind, Bool.true_eq_false, if_false] at h
            split at h
            · cases h
            · next h3 => exact ⟨Decidable.not_not.1 h1, Decidable.not_not.1 h2, ⟨lt, hs⟩, rfl, h3⟩
        · cases h
  · rintro ⟨h1, h2, ⟨lt, hs⟩, h3, h4⟩
    rw [if_neg (by simpa using h1), if_neg (by simpa using h2), hs]
    simp only [h3, Res.isOk, Res.ok_bind, Bool.true_eq_false, if_false]
    rw [if_neg h4]
    rfl

/-! ### Making them -/

theorem sign_with_label_iff (P : CryptoProvider) (cs : CipherSuite) (k l c sg : Bytes) :
    P.sign_with_label cs k l c = .ok sg ↔
      (labelled l c).fits ∧ ∃ s, P.signature cs = .ok s ∧ s.sign k (labelled l c).bytes = .ok sg := by
  unfold CryptoProvider.sign_with_label
  rcases writes_bind (mls_prefix_label_data_w l c) (fun sign_content => do
    let s ← P.signature cs
    s.sign k sign_content) with ⟨f, h⟩ | ⟨f, x, h⟩
  · rw [h, Res.bind_ok_iff]
    exact ⟨fun h => ⟨f, h⟩, fun h => h.2⟩
  · rw [h]
    exact ⟨(nomatch ·), fun h => absurd h.1 f⟩

/-- What a new leaf looks like. -/
theorem LeafNode.new_ok {P : CryptoProvider} {cs : CipherSuite} {ikm : Bytes} {cred : Credential}
    {skp : SignatureKeyPair} {lt : Lifetime} {caps : Capabilities} {exts : Extensions} {leaf : LeafNode}
    {kp : HPKEKeyPair} (gid : Bytes) (li : LeafIndex)
    (h : LeafNode.new P cs ikm cred skp (.KeyPackage lt) caps exts .KeyPackage = .ok (leaf, kp)) :
    (∃ hp, P.hpke cs = .ok hp ∧ hp.kem_derive_key_pair ikm = .ok kp) ∧
    leaf.payload = ⟨kp.public_key, skp.public_key, cred, caps, .KeyPackage lt, exts⟩ ∧
    (leafNodeTBS leaf.payload gid li).fits ∧
    (labelled (text "LeafNodeTBS") (leafNodeTBS leaf.payload gid li).bytes).fits ∧
    ∃ s, P.signature cs = .ok s ∧ s.sign skp.public_key
      (labelled (text "LeafNodeTBS") (leafNodeTBS leaf.payload gid li).bytes).bytes = .ok leaf.signature := by
  unfold LeafNode.new at h
  simp only [Res.bind_ok_iff] at h
  obtain ⟨hs, _, hp, h1, ekp, h2, tbs, h3, sg, h4, h5⟩ := h
  cases h5
  rcases writes_cases (leafNodeTBS_w' ⟨kp.public_key, skp.public_key, cred, caps, .KeyPackage lt, exts⟩ lt rfl
    .KeyPackage gid li) with ⟨f, hw⟩ | ⟨f, e, hw⟩
  · rw [hw] at h3
    cases h3
    rw [text_leaf, sign_with_label_iff] at h4
    exact ⟨⟨hp, h1, h2⟩, rfl, f, h4.1, h4.2⟩
  · rw [hw] at h3; cases h3

/-- What a new key package looks like. -/
theorem KeyPackage.new_ok {P : CryptoProvider} {config : CryptoConfig} {ikm0 ikm : Bytes} {cred : Credential}
    {skp : SignatureKeyPair} {lt : Lifetime} {kpExts : Extensions} {caps : Capabilities} {exts : Extensions}
    {x : KeyPackage} {kp : HPKEKeyPair} {initPriv : Bytes}
    (h : KeyPackage.new P config ikm0 ikm cred skp lt kpExts caps exts = .ok (x, kp, initPriv)) :
    (∃ s, P.signature config.cipher_suite = .ok s ∧ s.signature_scheme = skp.signature_scheme ∧
      (keyPackageTBS x.payload).fits ∧
      (labelled (text "KeyPackageTBS") (keyPackageTBS x.payload).bytes).fits ∧
      s.sign skp.public_key (labelled (text "KeyPackageTBS") (keyPackageTBS x.payload).bytes).bytes =
        .ok x.signature) ∧
    (∃ hp, P.hpke config.cipher_suite = .ok hp ∧
      hp.kem_derive_key_pair ikm0 = .ok ⟨initPriv, x.payload.init_key⟩) ∧
    x.payload.version = config.version ∧ x.payload.cipher_suite = config.cipher_suite ∧
    x.payload.extensions = kpExts ∧
    LeafNode.new P config.cipher_suite ikm cred skp (.KeyPackage lt) caps exts .KeyPackage =
      .ok (x.payload.leaf_node, kp) := by
  unfold KeyPackage.new KeyPackage.from_keys at h
  rw [Res.bind_ok_iff] at h
  obtain ⟨s, hs, h⟩ := h
  split at h
  · cases h
  · next hsch =>
    simp only [Res.bind_ok_iff] at h
    obtain ⟨_, _, hp, hhp, ikp, hik, ⟨kp1, ekp1⟩, ⟨⟨leaf, ekp⟩, hl, raw, hraw, sg, hsg, he⟩, he2⟩ := h
    cases he
    cases he2
    rcases writes_cases (keyPackageTBS_w ⟨config.version, config.cipher_suite, ikp.public_key, leaf, kpExts⟩)
      with ⟨f, hw⟩ | ⟨f, e, hw⟩
    · rw [hw] at hraw
      cases hraw
      rw [text_keyPackage, sign_with_label_iff] at hsg
      obtain ⟨f2, s', hs', hsg⟩ := hsg
      rw [hs] at hs'
      cases hs'
      exact ⟨⟨s, hs, Decidable.not_not.1 hsch, f, f2, hsg⟩, ⟨hp, hhp, hik⟩, rfl, rfl, rfl, hl⟩
    · rw [hw] at hraw; cases hraw

end Rmls
