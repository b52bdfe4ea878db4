import Verif.Proofs.Group
import Verif.Props.Welcome
import Verif.Props.LeafNode
/-
C46, C56, C57, C58: key packages in the key store and joining from a welcome.
-/
namespace Rmls
open Spec MemoryKeyStore Enc

/-! ## C56 -/

/-- C56: the reference of a key package is the `KeyPackageRef` of section 5.2. -/
theorem C56_ref (P : CryptoProvider) (x : KeyPackage) (r : Bytes) : x.generate_ref P = .ok r ↔ IsRef P x r :=
  generate_ref_iff P x r

/-- C56: two packages of one cipher suite with one reference are the same, or the hash collides on their encodings. -/
theorem C56_identifies (P : CryptoProvider) (x y : KeyPackage) (hx : x.WF) (hy : y.WF)
    (hcs : x.payload.cipher_suite = y.payload.cipher_suite) (h : Hash)
    (hh : P.hash x.payload.cipher_suite = .ok h) (r : Bytes) (h1 : x.generate_ref P = .ok r)
    (h2 : y.generate_ref P = .ok r) :
    x = y ∨ Collision h.digest
      [(refHashInput (text "MLS 1.0 KeyPackage Reference") (keyPackage x).bytes).bytes]
      [(refHashInput (text "MLS 1.0 KeyPackage Reference") (keyPackage y).bytes).bytes] := by
  obtain ⟨g, a1, a2, a3, a4⟩ := (C56_ref P x r).1 h1
  obtain ⟨g', b1, b2, b3, b4⟩ := (C56_ref P y r).1 h2
  rw [hh] at a1
  rw [← hcs, hh] at b1
  cases a1
  cases b1
  by_cases he : (refHashInput (text "MLS 1.0 KeyPackage Reference") (keyPackage x).bytes).bytes =
      (refHashInput (text "MLS 1.0 KeyPackage Reference") (keyPackage y).bytes).bytes
  · left
    have := (refHashInput_inj a3 b3 he).2
    have e1 := KeyPackage.lawful.rt x _ [] hx ((writes_ok_iff (keyPackage_w x) _).2 ⟨a2, rfl⟩)
    have e2 := KeyPackage.lawful.rt y _ [] hy ((writes_ok_iff (keyPackage_w y) _).2 ⟨b2, rfl⟩)
    rw [this, e2] at e1
    cases e1
    rfl
  · right
    exact ⟨_, List.mem_singleton.2 rfl, _, List.mem_singleton.2 rfl, he, a4.symm.trans b4⟩

/-! ## C46 -/

/-- C46: joining succeeds exactly when the store has the key package for one of the entries and its init key. -/
theorem C46_succeeds (P : CryptoProvider) (s : MemoryKeyStore) (w : Welcome) :
    (∃ g, (Group.from_welcome P s w).1 = .ok g) ↔ ∃ e x ref, Joinable P s w e x ref := by
  constructor
  · rintro ⟨g, hg⟩
    rcases from_welcome_cases P s w with ⟨e, x, ref, h, _⟩ | ⟨_, _, _, _, _, _, _, _, h, _⟩ | ⟨_, h, _⟩
    · exact ⟨e, x, ref, h⟩
    · exact absurd hg (h g)
    · exact absurd hg (h g)
  · rintro ⟨e, x, ref, ⟨raw, h1, h2⟩, h3, h4, rawKey, key, h5, h6⟩
    rcases from_welcome_cases P s w with ⟨_, _, _, _, h, _⟩ | ⟨e', raw', x', ref', k1, k2, k3, k4, _, _⟩ | ⟨h, _⟩
    · exact ⟨_, h⟩
    · rw [firstKnown_unique k1 h1] at k2
      rw [packs_unique k2 h2] at k3 k4
      rcases k4 with k4 | k4
      · exact absurd ((isRef_unique h3 k3).trans k4) h4
      · exact absurd h6 (k4 rawKey key h5)
    · exact absurd h3 (h e raw x ref h1 h2)

/-- C46: a join removes the matched key package and its init key, and nothing else. -/
theorem C46_removed (P : CryptoProvider) (s : MemoryKeyStore) (w : Welcome) (e : EncryptedGroupSecrets) (x : KeyPackage)
    (ref : Bytes) (h : Joinable P s w e x ref) (k : Bytes) :
    (Group.from_welcome P s w).2.retrieve k = if k = ref ∨ k = x.payload.init_key then none else s.retrieve k := by
  obtain ⟨⟨raw, h1, h2⟩, h3, h4, rawKey, key, h5, h6⟩ := h
  rcases from_welcome_cases P s w with ⟨e', x', ref', ⟨⟨raw', k1, k2⟩, k3, _⟩, _, h⟩ |
    ⟨e', raw', x', ref', k1, k2, k3, k4, _, _⟩ | ⟨h, _⟩
  · rw [firstKnown_unique k1 h1] at k2
    rw [packs_unique k2 h2] at k3 h
    rw [isRef_unique k3 h3] at h
    exact h k
  · rw [firstKnown_unique k1 h1] at k2
    rw [packs_unique k2 h2] at k3 k4
    rcases k4 with k4 | k4
    · exact absurd ((isRef_unique h3 k3).trans k4) h4
    · exact absurd h6 (k4 rawKey key h5)
  · exact absurd h3 (h e raw x ref h1 h2)

/-- C46: after a join with a package, and any further joins, the package is not in the store, and a welcome for it (and
possibly for others that the store does not have) is refused. -/
theorem C46_used_once (P : CryptoProvider) (s : MemoryKeyStore) (w : Welcome) (e : EncryptedGroupSecrets)
    (x : KeyPackage) (ref : Bytes) (h : Joinable P s w e x ref) (ws : List Welcome) (s' : MemoryKeyStore)
    (hj : Joins P (Group.from_welcome P s w).2 ws s') :
    s'.retrieve ref = none ∧ s'.retrieve x.payload.init_key = none ∧
    ∀ w' : Welcome, (∀ e' ∈ w'.secrets, e'.new_member = ref ∨ s'.retrieve e'.new_member = none) →
      (Group.from_welcome P s' w').1 = .err .NoMatchingKeyPackage := by
  have key : ∀ k, k = ref ∨ k = x.payload.init_key → s'.retrieve k = none := by
    intro k hk
    rcases joins_shrinks hj k with h' | h'
    · exact h'
    · rw [h', C46_removed P s w e x ref h, if_pos hk]
  refine ⟨key _ (.inl rfl), key _ (.inr rfl), fun w' hw => ?_⟩
  unfold Group.from_welcome
  rw [(findPackage_none s' w'.secrets).2 fun e' he => (hw e' he).elim (fun h => by rw [h]; exact key _ (.inl rfl)) id]

/-- Every key package in the store is filed under its reference. -/
def Filed (P : CryptoProvider) (s : MemoryKeyStore) : Prop :=
  ∀ k raw x, s.retrieve k = some raw → Packs raw x → IsRef P x k

/-- C46: in a store where packages are filed under their references, the matched package is the one the entry names (so
that it is this name which is gone after the join), and joins keep it so. -/
theorem C46_filed (P : CryptoProvider) (s : MemoryKeyStore) (hs : Filed P s) (w : Welcome) :
    Filed P (Group.from_welcome P s w).2 ∧
    ∀ e x ref, Joinable P s w e x ref → e.new_member = ref ∧ (Group.from_welcome P s w).2.retrieve e.new_member = none := by
  constructor
  · intro k raw x h1 h2
    rcases from_welcome_shrinks P s w k with h | h
    · rw [h] at h1; cases h1
    · rw [h] at h1; exact hs k raw x h1 h2
  · intro e x ref h
    have h' := h
    obtain ⟨⟨raw, ⟨b, a, _, h1, _⟩, h2⟩, h3, _⟩ := h'
    have he := isRef_unique (hs _ _ _ h1 h2) h3
    exact ⟨he, by rw [C46_removed P s w e x ref h, if_pos (.inl he)]⟩

/-- C46, the part about failing joins.  A failing join leaves the store as it was unless it found the key package and then
not the init key: in that case the package is gone.
Missing: that a failing join leaves the store as it was, which is false, see `C46_refuted`. -/
theorem C46_failing_partial (P : CryptoProvider) (s : MemoryKeyStore) (w : Welcome)
    (h : ∀ g, (Group.from_welcome P s w).1 ≠ .ok g) :
    (Group.from_welcome P s w).2 = s ∨
    ∃ e raw x ref, FirstKnown s w.secrets e raw ∧ Packs raw x ∧ IsRef P x ref ∧
      (ref = x.payload.init_key ∨ ∀ raw key, s.retrieve x.payload.init_key = some raw → ¬ PacksKey raw key) ∧
      ∀ k, (Group.from_welcome P s w).2.retrieve k = if k = ref then none else s.retrieve k := by
  rcases from_welcome_cases P s w with ⟨_, _, _, _, hg, _⟩ | ⟨e, raw, x, ref, k1, k2, k3, k4, _, k5⟩ | ⟨_, _, hs⟩
  · exact absurd hg (h _)
  · exact .inr ⟨e, raw, x, ref, k1, k2, k3, k4, k5⟩
  · exact .inl hs

/-! ## C57 -/

/-- The key package that a builder makes, with its private keys: absent settings are zeros and empty lists. -/
def Built (P : CryptoProvider) (b : KeyPackageBuilder) (config : CryptoConfig) (ikm0 ikm : Bytes) (cred : Credential)
    (skp : SignatureKeyPair) (x : KeyPackage) (kp : HPKEKeyPair) (initPriv : Bytes) : Prop :=
  KeyPackage.new P config ikm0 ikm cred skp (b.key_package_lifetime.getD ⟨0, 0⟩) (b.key_package_extensions.getD [])
    (b.leaf_node_capabilities.getD ⟨[], [], [], [], []⟩) (b.leaf_node_extensions.getD []) = .ok (x, kp, initPriv)

/-- C57: after a successful build the store has the key package under its reference, the encryption key pair under its
public key and the init key under its public key (the later ones win should these coincide), and is otherwise as before. -/
theorem C57_stored (P : CryptoProvider) (s : MemoryKeyStore) (b : KeyPackageBuilder) (config : CryptoConfig)
    (ikm0 ikm : Bytes) (cred : Credential) (skp : SignatureKeyPair) (x : KeyPackage) (s' : MemoryKeyStore)
    (h : b.build P s config ikm0 ikm cred skp = (.ok x, s')) :
    ∃ kp initPriv ref, Built P b config ikm0 ikm cred skp x kp initPriv ∧ IsRef P x ref ∧
      ∀ k, s'.retrieve k =
        if x.payload.init_key = k then some (opq initPriv).bytes
        else if kp.public_key = k then some (struct [opq kp.private_key, opq kp.public_key]).bytes
        else if ref = k then some (keyPackage x).bytes
        else s.retrieve k := by
  unfold KeyPackageBuilder.build at h
  split at h
  · cases h
  · cases h
  · next y kp ip hn =>
    split at h
    · cases h
    · cases h
    · next ref hr =>
      have href := (generate_ref_iff P y ref).1 hr
      rcases writes_cases (keyPackage_w y) with ⟨_, h1⟩ | ⟨_, e, h1⟩
      · rw [h1] at h
        dsimp only at h
        rcases writes_cases (hpkeKeyPair_w kp) with ⟨_, h2⟩ | ⟨_, e, h2⟩
        · rw [h2] at h
          dsimp only at h
          rcases writes_cases (writes_opaque ip) with ⟨_, h3⟩ | ⟨_, e, h3⟩
          · rw [show SecretKey.serialize ip = _ from h3] at h
            cases h
            exact ⟨kp, ip, ref, hn, href, fun k => by rw [retrieve_store, retrieve_store, retrieve_store]⟩
          · rw [show SecretKey.serialize ip = _ from h3] at h
            cases h
        · rw [h2] at h
          cases h
      · rw [h1] at h
        cases h

/-- C57: a failing build leaves the store as it was, unless one of the private keys is too long to be encoded. -/
theorem C57_failing (P : CryptoProvider) (s : MemoryKeyStore) (b : KeyPackageBuilder) (config : CryptoConfig)
    (ikm0 ikm : Bytes) (cred : Credential) (skp : SignatureKeyPair)
    (h : ∀ x, (b.build P s config ikm0 ikm cred skp).1 ≠ .ok x) :
    (b.build P s config ikm0 ikm cred skp).2 = s ∨
    ∃ x kp initPriv, Built P b config ikm0 ikm cred skp x kp initPriv ∧
      ¬ ((struct [opq kp.private_key, opq kp.public_key]).fits ∧ (opq initPriv).fits) := by
  revert h
  unfold KeyPackageBuilder.build
  split
  · exact fun _ => .inl rfl
  · exact fun _ => .inl rfl
  · next y kp ip hn =>
    split
    · exact fun _ => .inl rfl
    · exact fun _ => .inl rfl
    · split
      · exact fun _ => .inl rfl
      · exact fun _ => .inl rfl
      · rcases writes_cases (hpkeKeyPair_w kp) with ⟨_, h2⟩ | ⟨h2', e, h2⟩
        · rw [h2]
          dsimp only
          rcases writes_cases (writes_opaque ip) with ⟨_, h3⟩ | ⟨h3', e, h3⟩
          · rw [show SecretKey.serialize ip = _ from h3]
            exact fun h => absurd rfl (h y)
          · exact fun _ => .inr ⟨y, kp, ip, hn, fun h => h3' h.2⟩
        · exact fun _ => .inr ⟨y, kp, ip, hn, fun h => h2' h.1⟩

/-- C57: the settings of the builder end up in the package. -/
theorem C57_settings (P : CryptoProvider) (s : MemoryKeyStore) (lt : Lifetime) (kpExts : Extensions) (caps : Capabilities)
    (exts : Extensions) (config : CryptoConfig) (ikm0 ikm : Bytes) (cred : Credential) (skp : SignatureKeyPair)
    (x : KeyPackage) (s' : MemoryKeyStore)
    (h : ((((KeyPackageBuilder.new.with_key_package_lifetime lt).with_key_package_extensions kpExts
      ).with_leaf_node_capabilities caps).with_leaf_node_extensions exts).build P s config ikm0 ikm cred skp = (.ok x, s')) :
    x.payload.version = config.version ∧ x.payload.cipher_suite = config.cipher_suite ∧
    x.payload.extensions = kpExts ∧ x.payload.leaf_node.payload.capabilities = caps ∧
    x.payload.leaf_node.payload.extensions = exts ∧ x.payload.leaf_node.payload.leaf_node_source = .KeyPackage lt ∧
    x.payload.leaf_node.payload.credential = cred ∧ x.payload.leaf_node.payload.signature_key = skp.public_key := by
  obtain ⟨kp, ip, ref, h1, _⟩ := C57_stored _ _ _ _ _ _ _ _ _ _ h
  obtain ⟨h2, h3, h4, h5, _⟩ := C43_contents _ _ _ _ _ _ _ _ _ _ _ _ _ h1
  rw [h5]
  exact ⟨h2, h3, h4, rfl, rfl, rfl, rfl, rfl⟩

/-- C57: a welcome for a package that was built and whose keys are still there is accepted, and leaves behind what was there
before the build and the encryption key. -/
theorem C57_join (P : CryptoProvider) (s : MemoryKeyStore) (b : KeyPackageBuilder) (config : CryptoConfig)
    (ikm0 ikm : Bytes) (cred : Credential) (skp : SignatureKeyPair) (x : KeyPackage) (s' : MemoryKeyStore)
    (h : b.build P s config ikm0 ikm cred skp = (.ok x, s')) (hx : x.WF) (kp : HPKEKeyPair) (initPriv ref : Bytes)
    (hb : Built P b config ikm0 ikm cred skp x kp initPriv) (hr : IsRef P x ref)
    (h1 : ref ≠ x.payload.init_key) (h2 : ref ≠ kp.public_key) (h3 : kp.public_key ≠ x.payload.init_key)
    (hi : (opq initPriv).fits) (w : Welcome) (e : EncryptedGroupSecrets) (before after : List EncryptedGroupSecrets)
    (hw : w.secrets = before ++ e :: after) (he : e.new_member = ref)
    (hother : ∀ o ∈ before, s'.retrieve o.new_member = none) :
    (∃ g, (Group.from_welcome P s' w).1 = .ok g) ∧
    ∀ k, (Group.from_welcome P s' w).2.retrieve k =
      if kp.public_key = k then some (struct [opq kp.private_key, opq kp.public_key]).bytes
      else if k = ref ∨ k = x.payload.init_key then none else s.retrieve k := by
  obtain ⟨kp', ip', ref', hb', hr', hs'⟩ := C57_stored _ _ _ _ _ _ _ _ _ _ h
  unfold Built at hb hb'
  rw [hb] at hb'
  cases hb'
  cases isRef_unique hr hr'
  have hj : Joinable P s' w e x ref := by
    refine ⟨⟨(keyPackage x).bytes, ⟨before, after, hw, ?_, hother⟩, hx, ?_, [], (List.append_nil _).symm⟩, hr, h1,
      (opq initPriv).bytes, initPriv, ?_, hi, [], (List.append_nil _).symm⟩
    · rw [he, hs', if_neg (Ne.symm h1), if_neg (Ne.symm h2), if_pos rfl]
    · obtain ⟨_, _, hf, _⟩ := hr
      exact hf
    · rw [hs', if_pos rfl]
  refine ⟨(C46_succeeds P s' w).2 ⟨e, x, ref, hj⟩, fun k => ?_⟩
  rw [C46_removed P s' w e x ref hj, hs']
  by_cases e1 : kp.public_key = k
  · subst e1
    rw [if_neg (fun h => h.elim (fun h => h2 h.symm) h3), if_neg (Ne.symm h3), if_pos rfl, if_pos rfl]
  · rw [if_neg e1, if_neg e1]
    by_cases e2 : k = ref ∨ k = x.payload.init_key
    · rw [if_pos e2, if_pos e2]
    · rw [if_neg e2, if_neg e2, if_neg (fun h => e2 (.inr h.symm)), if_neg (fun h => e2 (.inl h.symm))]

/-- C57: building keeps key packages filed under their references, when the encodings of private keys are not taken for key
packages. -/
theorem C57_filed (P : CryptoProvider) (s : MemoryKeyStore) (hs : Filed P s) (b : KeyPackageBuilder)
    (config : CryptoConfig) (ikm0 ikm : Bytes) (cred : Credential) (skp : SignatureKeyPair) (x : KeyPackage)
    (s' : MemoryKeyStore) (h : b.build P s config ikm0 ikm cred skp = (.ok x, s')) (hx : x.WF)
    (hkeys : ∀ kp initPriv, Built P b config ikm0 ikm cred skp x kp initPriv →
      ∀ y, ¬ Packs (struct [opq kp.private_key, opq kp.public_key]).bytes y ∧ ¬ Packs (opq initPriv).bytes y) :
    Filed P s' := by
  obtain ⟨kp, ip, ref, hb, hr, hs'⟩ := C57_stored _ _ _ _ _ _ _ _ _ _ h
  intro k raw y h1 h2
  rw [hs'] at h1
  split at h1
  · cases h1; exact absurd h2 (hkeys kp ip hb y).2
  · split at h1
    · cases h1; exact absurd h2 (hkeys kp ip hb y).1
    · split at h1
      · next hk =>
        cases h1
        rw [← hk, packs_unique h2 ⟨hx, (by obtain ⟨_, _, hf, _⟩ := hr; exact hf), [], (List.append_nil _).symm⟩]
        exact hr
      · exact hs k raw y h1 h2

/-! ### A package that is built, filed, and used -/

def toyBuilder : KeyPackageBuilder := KeyPackageBuilder.new.with_key_package_lifetime ⟨0, 9⟩
/-- The store after building a package in a new store. -/
def toyStore : MemoryKeyStore := (toyBuilder.build toyProvider empty toyConfig [1] [2] (.Basic [5]) ⟨[9], [9], .ED25519⟩).2
/-- The package. -/
def toyPackage : KeyPackage :=
  match toyBuilder.build toyProvider empty toyConfig [1] [2] (.Basic [5]) ⟨[9], [9], .ED25519⟩ with
  | (.ok x, _) => x
  | _ => { payload := ⟨.MLS10, toyContext.cipher_suite, [], toyLeaf 0, []⟩, signature := [] }
/-- Its reference. -/
def toyRef : Bytes := (refHashInput (text "MLS 1.0 KeyPackage Reference") (keyPackage toyPackage).bytes).bytes
/-- A welcome with an entry for someone else and one for the package. -/
def toyWelcome : Welcome := ⟨toyContext.cipher_suite, [⟨[4], ⟨[], []⟩⟩, ⟨toyRef, ⟨[], []⟩⟩], []⟩

set_option maxRecDepth 100000 in
/-- The build succeeds. -/
example : toyBuilder.build toyProvider empty toyConfig [1] [2] (.Basic [5]) ⟨[9], [9], .ED25519⟩ =
    (.ok toyPackage, toyStore) := by decide +kernel
set_option maxRecDepth 100000 in
/-- The hypotheses of the theorems on joins can be met. -/
theorem toy_joinable : Joinable toyProvider toyStore toyWelcome ⟨toyRef, ⟨[], []⟩⟩ toyPackage toyRef := by
  refine ⟨⟨(keyPackage toyPackage).bytes, ⟨[⟨[4], ⟨[], []⟩⟩], [], rfl, by decide +kernel, by decide +kernel⟩,
    (packs_iff _ _).1 (by decide +kernel)⟩, (generate_ref_iff _ _ _).1 (by decide +kernel), by decide +kernel,
    (opq [1]).bytes, [1], by decide +kernel, (packsKey_iff _ _).1 (by decide +kernel)⟩

example : Filed toyProvider empty := fun _ _ _ h => nomatch h
set_option maxRecDepth 100000 in
example : ∀ y, ¬ Packs (struct [opq [2], opq [2]]).bytes y ∧ ¬ Packs (opq [1]).bytes y := by
  intro y
  rw [← packs_iff, ← packs_iff]
  have h1 : deserialize_exact KeyPackage.deserialize (struct [opq [2], opq [2]]).bytes = .err .BufferTooSmall := by
    decide +kernel
  have h2 : deserialize_exact KeyPackage.deserialize (opq [1]).bytes = .err .BufferTooSmall := by decide +kernel
  rw [h1, h2]
  exact ⟨nofun, nofun⟩

/-! ### Failing joins -/

set_option maxRecDepth 100000 in
/-- C46 fails for joins that fail: when the init key is missing, the key package is deleted before the error is
returned. -/
theorem C46_refuted : ∃ (s : MemoryKeyStore) (w : Welcome) (k : Bytes),
    (Group.from_welcome toyProvider s w).1 = .err .NoMatchingKeyPackage ∧ s.retrieve k ≠ none ∧
    (Group.from_welcome toyProvider s w).2.retrieve k = none :=
  ⟨(toyStore.delete [1]).2, toyWelcome, toyRef, by decide +kernel, by decide +kernel, by decide +kernel⟩

/-! ## C58 -/

set_option maxRecDepth 100000 in
/-- C58 fails: joining returns the same group without an id, whatever the welcome says. -/
theorem C58_refuted : (∀ P s w g, (Group.from_welcome P s w).1 = .ok g → g = Group.default ∧ g.group_id = []) ∧
    ∃ (w : Welcome) (s : MemoryKeyStore) (joiner psk : Bytes) (gi : GroupInfo) (g : Group),
      w.decrypt_group_info toyProvider joiner psk = .ok gi ∧ (Group.from_welcome toyProvider s w).1 = .ok g ∧
      g.group_id ≠ gi.group_context.group_id := by
  constructor
  · intro P s w g h
    rcases from_welcome_cases P s w with ⟨_, _, _, _, hg, _⟩ | ⟨_, _, _, _, _, _, _, _, h', _⟩ | ⟨_, h', _⟩
    · rw [hg] at h; cases h; exact ⟨rfl, rfl⟩
    · exact absurd h (h' g)
    · exact absurd h (h' g)
  · exact ⟨⟨toyWelcome.cipher_suite, toyWelcome.secrets,
      List.replicate 16 1 ++ List.replicate 12 1 ++ [] ++ (groupInfo toyGroupInfo).bytes⟩, toyStore, [1], [2], toyGroupInfo,
      Group.default, by decide +kernel, by decide +kernel, by decide⟩

/-- C58, what is true: a group that is created has the configuration, credential, public signature key and id it was
created with, or the 16 random bytes as id.
Missing: groups joined from a welcome, see `C58_refuted`. -/
theorem C58_created_partial (rnd : Bytes) (config : GroupConfig) (cred : Credential) (skp : SignatureKeyPair)
    (id : Option Bytes) :
    ∃ g, Group.new rnd config cred skp id = .ok g ∧ g.group_config = config ∧ g.credential = cred ∧
      g.signature_key = skp.public_key ∧ (∀ i, id = some i → g.group_id = i) ∧ (id = none → g.group_id = rnd) := by
  refine ⟨_, rfl, rfl, rfl, rfl, ?_, ?_⟩
  · rintro i rfl; rfl
  · rintro rfl; rfl

end Rmls
