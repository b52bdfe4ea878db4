import Verif.Props.Group
import Verif.Props.Integrity
/-
Property C91: what the settings of a key package builder mean for the use of the package.
-/
namespace Rmls
open Spec RatchetTree MemoryKeyStore

/-- One call on the builder. -/
inductive Setting where
  | lifetime (lt : Lifetime)
  | packageExtensions (es : Extensions)
  | capabilities (c : Capabilities)
  | leafExtensions (es : Extensions)

/-- The calls, one after the other. -/
def settled : KeyPackageBuilder → List Setting → KeyPackageBuilder
  | b, [] => b
  | b, .lifetime lt :: ss => settled (b.with_key_package_lifetime lt) ss
  | b, .packageExtensions es :: ss => settled (b.with_key_package_extensions es) ss
  | b, .capabilities c :: ss => settled (b.with_leaf_node_capabilities c) ss
  | b, .leafExtensions es :: ss => settled (b.with_leaf_node_extensions es) ss

/-- The value is the one of the last call of its kind, or the default if there was none. -/
def Final {α : Type} (kind : α → Setting) (default : α) (ss : List Setting) (v : α) : Prop :=
  (∃ before after, ss = before ++ kind v :: after ∧ ∀ w, kind w ∉ after) ∨ ((∀ w, kind w ∉ ss) ∧ v = default)

theorem final_of {α : Type} {kind : α → Setting} (get : KeyPackageBuilder → Option α)
    (hit : ∀ b v ss, ∃ b', settled b (kind v :: ss) = settled b' ss ∧ get b' = some v)
    (miss : ∀ b s ss, (∀ v, s ≠ kind v) → ∃ b', settled b (s :: ss) = settled b' ss ∧ get b' = get b) :
    ∀ ss b, (∃ before v after, ss = before ++ kind v :: after ∧ (∀ w, kind w ∉ after) ∧ get (settled b ss) = some v) ∨
      ((∀ w, kind w ∉ ss) ∧ get (settled b ss) = get b) := by
  intro ss
  induction ss with
  | nil => exact fun b => .inr ⟨fun w h => (nomatch h), rfl⟩
  | cons s ss ih =>
    intro b
    by_cases hs : ∃ v, s = kind v
    · obtain ⟨v, rfl⟩ := hs
      obtain ⟨b', h1, h2⟩ := hit b v ss
      rcases ih b' with ⟨bf, w, af, h3, h4, h5⟩ | ⟨h3, h4⟩
      · exact .inl ⟨kind v :: bf, w, af, by rw [h3]; rfl, h4, by rw [h1]; exact h5⟩
      · exact .inl ⟨[], v, ss, rfl, h3, by rw [h1, h4]; exact h2⟩
    · obtain ⟨b', h1, h2⟩ := miss b s ss fun v hv => hs ⟨v, hv⟩
      rcases ih b' with ⟨bf, w, af, h3, h4, h5⟩ | ⟨h3, h4⟩
      · exact .inl ⟨s :: bf, w, af, by rw [h3]; rfl, h4, by rw [h1]; exact h5⟩
      · refine .inr ⟨fun w hw => ?_, by rw [h1, h4]; exact h2⟩
        rcases List.mem_cons.1 hw with hw | hw
        · exact hs ⟨w, hw.symm⟩
        · exact h3 w hw

theorem final_getD {α : Type} {kind : α → Setting} {default : α} (get : KeyPackageBuilder → Option α)
    (hit : ∀ b v ss, ∃ b', settled b (kind v :: ss) = settled b' ss ∧ get b' = some v)
    (miss : ∀ b s ss, (∀ v, s ≠ kind v) → ∃ b', settled b (s :: ss) = settled b' ss ∧ get b' = get b)
    (hnew : get KeyPackageBuilder.new = none) (ss : List Setting) :
    Final kind default ss ((get (settled .new ss)).getD default) := by
  rcases final_of get hit miss ss .new with ⟨bf, v, af, h1, h2, h3⟩ | ⟨h1, h2⟩
  · rw [h3]; exact .inl ⟨bf, af, h1, h2⟩
  · rw [h2, hnew]; exact .inr ⟨h1, rfl⟩

/-- C91: whatever is called on a new builder, in whatever order and however often: the package has the value of the last
call of each kind, and without one the lifetime is zero, the capabilities and extensions are empty. -/
theorem C91_settings (P : CryptoProvider) (s : MemoryKeyStore) (ss : List Setting) (config : CryptoConfig)
    (ikm0 ikm : Bytes) (cred : Credential) (skp : SignatureKeyPair) (x : KeyPackage) (s' : MemoryKeyStore)
    (h : (settled .new ss).build P s config ikm0 ikm cred skp = (.ok x, s')) :
    (∃ lt, x.payload.leaf_node.payload.leaf_node_source = .KeyPackage lt ∧ Final .lifetime ⟨0, 0⟩ ss lt) ∧
    Final .packageExtensions [] ss x.payload.extensions ∧
    Final .capabilities ⟨[], [], [], [], []⟩ ss x.payload.leaf_node.payload.capabilities ∧
    Final .leafExtensions [] ss x.payload.leaf_node.payload.extensions ∧
    x.payload.leaf_node.payload.credential = cred := by
  obtain ⟨kp, ip, ref, h1, _⟩ := C57_stored _ _ _ _ _ _ _ _ _ _ h
  obtain ⟨_, _, h4, h5, _⟩ := C43_contents _ _ _ _ _ _ _ _ _ _ _ _ _ h1
  rw [h5, h4]
  refine ⟨⟨_, rfl, final_getD (·.key_package_lifetime) ?_ ?_ rfl ss⟩, final_getD (·.key_package_extensions) ?_ ?_ rfl ss,
    final_getD (·.leaf_node_capabilities) ?_ ?_ rfl ss, final_getD (·.leaf_node_extensions) ?_ ?_ rfl ss, rfl⟩
  all_goals
    first
    | exact fun b v ss => ⟨_, rfl, rfl⟩
    | (intro b s ss hs
       cases s <;> first | exact ⟨_, rfl, rfl⟩ | exact absurd rfl (hs _))

/-- C91 fails for the lifetime: with a package for which no lifetime was set, no tree with its leaf node in it is accepted
at any time, by anyone.  (The check is skipped for times up to 1970.) -/
theorem C91_lifetime_refuted (P : CryptoProvider) (s : MemoryKeyStore) (ss : List Setting) (config : CryptoConfig)
    (ikm0 ikm : Bytes) (cred : Credential) (skp : SignatureKeyPair) (x : KeyPackage) (s' : MemoryKeyStore)
    (h : (settled .new ss).build P s config ikm0 ikm cred skp = (.ok x, s')) (hss : ∀ lt, .lifetime lt ∉ ss)
    (t : RatchetTree) (hl : t.length < 2 ^ 32) (i : Nat) (hx : t.get (node 0 i) = some (.Leaf x.payload.leaf_node))
    (ctx : GroupContext) (Hs : Hash) (hP : P.hash ctx.cipher_suite = .ok Hs) (now : Int) (hnow : 0 < now) :
    verify_integrity P t ctx now ≠ .ok () := by
  intro hv
  have h0 : 0 < t.length := by have := lt_of_get hx; omega
  obtain ⟨K, hK⟩ := exists_height (n := (t.length + 1) / 2) (by omega)
  have hval := (C19_sound P t ctx now Hs hP h0 hl K hK hv).leaves i _ hx
  obtain ⟨lt, h1, h2⟩ := (C91_settings P s ss config ikm0 ikm cred skp x s' h).1
  rcases h2 with ⟨bf, af, h2, _⟩ | ⟨_, h2⟩
  · exact hss lt (by rw [h2]; simp)
  · have := (hval.lifetime lt h1 hnow).1
    rw [h2] at this
    revert this
    decide

theorem sum_count_lt {ms : List (Nat × LeafNode)} {ct : CredentialType} {m : Nat × LeafNode} (hm : m ∈ ms)
    (hz : m.2.payload.capabilities.credentials.count ct = 0)
    (hone : ∀ m ∈ ms, m.2.payload.capabilities.credentials.count ct ≤ 1) : credCount ms ct < ms.length := by
  have hle : ∀ l : List (Nat × LeafNode), (∀ m ∈ l, m.2.payload.capabilities.credentials.count ct ≤ 1) →
      credCount l ct ≤ l.length := by
    intro l
    induction l with
    | nil => intro _; exact Nat.le_refl 0
    | cons a l ih =>
      intro h
      have h1 := h a (by simp)
      have h2 := ih fun m hm => h m (List.mem_cons_of_mem _ hm)
      unfold credCount at *
      simp only [List.map_cons, List.sum_cons, List.length_cons]
      omega
  obtain ⟨a, b, rfl⟩ := List.append_of_mem hm
  have ha := hle a fun m hm => hone m (by simp [hm])
  have hb := hle b fun m hm => hone m (by simp [hm])
  unfold credCount at *
  simp only [List.map_append, List.map_cons, List.sum_append, List.sum_cons, List.length_append, List.length_cons, hz]
  omega

/-- C91 fails for the capabilities: with a package for which no capabilities were set, no tree with its leaf node in it is
accepted, at whatever time, unless another member lists a credential type twice. -/
theorem C91_capabilities_refuted (P : CryptoProvider) (s : MemoryKeyStore) (ss : List Setting) (config : CryptoConfig)
    (ikm0 ikm : Bytes) (cred : Credential) (skp : SignatureKeyPair) (x : KeyPackage) (s' : MemoryKeyStore)
    (h : (settled .new ss).build P s config ikm0 ikm cred skp = (.ok x, s')) (hss : ∀ c, .capabilities c ∉ ss)
    (t : RatchetTree) (hl : t.length < 2 ^ 32) (i : Nat) (hx : t.get (node 0 i) = some (.Leaf x.payload.leaf_node))
    (hone : ∀ j l ct, t.get (node 0 j) = some (.Leaf l) → l.payload.capabilities.credentials.count ct ≤ 1)
    (ctx : GroupContext) (Hs : Hash) (hP : P.hash ctx.cipher_suite = .ok Hs) (now : Int) :
    verify_integrity P t ctx now ≠ .ok () := by
  intro hv
  have hlt := lt_of_get hx
  obtain ⟨K, hK⟩ := exists_height (n := (t.length + 1) / 2) (by omega)
  have hval := (C19_sound P t ctx now Hs hP (by omega) hl K hK hv).leaves i _ hx
  have hcap : x.payload.leaf_node.payload.capabilities = ⟨[], [], [], [], []⟩ := by
    rcases (C91_settings P s ss config ikm0 ikm cred skp x s' h).2.2.1 with ⟨bf, af, h2, _⟩ | ⟨_, h2⟩
    · exact absurd (by rw [h2]; simp) (hss x.payload.leaf_node.payload.capabilities)
    · exact h2
  have hmem : (i, x.payload.leaf_node) ∈ members t.get ((t.length + 1) / 2) := by
    unfold members
    rw [List.mem_filterMap]
    exact ⟨i, List.mem_range.2 (by rw [node_zero] at hlt; omega), by rw [hx]; rfl⟩
  have := sum_count_lt (ct := credTypeOf x.payload.leaf_node.payload.credential) hmem (by rw [hcap]; rfl) (by
    intro m hm
    unfold members at hm
    obtain ⟨j, _, hj⟩ := List.mem_filterMap.1 hm
    rw [Option.map_eq_some_iff] at hj
    obtain ⟨l, hj, rfl⟩ := hj
    refine hone j l _ ?_
    unfold leafOf at hj
    split at hj
    · cases hj; assumption
    · cases hj)
  have hc := hval.credential.2
  omega

/-- C91, what is true: a package with a lifetime that the code accepts, whose capabilities list its own extensions, and whose
credential type all members support, passes every check of the leaf node but that of the signature, which is C43.
Missing: packages for which the lifetime or the capabilities were not set, see `C91_lifetime_refuted` and
`C91_capabilities_refuted`. -/
theorem C91_partial (P : CryptoProvider) (s : MemoryKeyStore) (ss : List Setting) (config : CryptoConfig)
    (ikm0 ikm : Bytes) (cred : Credential) (skp : SignatureKeyPair) (x : KeyPackage) (s' : MemoryKeyStore)
    (h : (settled .new ss).build P s config ikm0 ikm cred skp = (.ok x, s')) (lt : Lifetime) (caps : Capabilities)
    (exts : Extensions) (hlt : Final .lifetime ⟨0, 0⟩ ss lt) (hcaps : Final .capabilities ⟨[], [], [], [], []⟩ ss caps)
    (hexts : Final .leafExtensions [] ss exts) (cs : CipherSuite) (group_id : Bytes) (i : LeafIndex)
    (supported : CredentialType → Prop) (now : Int) (hnow : LifetimeAccepted lt now) (hcred : supported (credTypeOf cred))
    (hsup : ∀ e ∈ exts, e.extension_type ∈ caps.extensions) :
    LeafValid P x.payload.leaf_node cs group_id i supported now ↔ LeafSigned P cs x.payload.leaf_node group_id i := by
  have huniq : ∀ {α : Type} {kind : α → Setting} (hinj : ∀ a b, kind a = kind b → a = b) {d : α} {v w : α},
      Final kind d ss v → Final kind d ss w → v = w := by
    intro α kind hinj d v w hv hw
    rcases hv with ⟨b1, a1, h1, h2⟩ | ⟨h1, h2⟩
    · rcases hw with ⟨b2, a2, h3, h4⟩ | ⟨h3, _⟩
      · rw [h1] at h3
        rcases List.append_eq_append_iff.1 h3 with ⟨c, h5, h6⟩ | ⟨c, h5, h6⟩
        · cases c with
          | nil => simp only [List.nil_append, List.cons.injEq] at h6; exact hinj _ _ h6.1
          | cons a c =>
            simp only [List.cons_append, List.cons.injEq] at h6
            exact absurd (by rw [h6.2]; simp) (h2 w)
        · cases c with
          | nil => simp only [List.nil_append, List.cons.injEq] at h6; exact hinj _ _ h6.1.symm
          | cons a c =>
            simp only [List.cons_append, List.cons.injEq] at h6
            exact absurd (by rw [h6.2]; simp) (h4 v)
      · exact absurd (by rw [h1]; simp) (h3 v)
    · rcases hw with ⟨b2, a2, h3, h4⟩ | ⟨_, h4⟩
      · exact absurd (by rw [h3]; simp) (h1 w)
      · rw [h2, h4]
  obtain ⟨⟨lt', h1, h2⟩, _, h3, h4, h5⟩ := C91_settings P s ss config ikm0 ikm cred skp x s' h
  obtain rfl := huniq (fun _ _ h => by cases h; rfl) hlt h2
  have h6 := huniq (fun _ _ h => by cases h; rfl) hcaps h3
  have h7 := huniq (fun _ _ h => by cases h; rfl) hexts h4
  refine ⟨fun hv => hv.signed, fun hs => ⟨hs, by rw [h5]; exact hcred, fun l hl _ => ?_, by rw [← h6, ← h7]; exact hsup⟩⟩
  rw [h1] at hl
  cases hl
  exact hnow

/-! ### Packages that are built -/

/-- Calls on the builder, some of them twice. -/
def someSettings : List Setting :=
  [.lifetime ⟨0, 9⟩, .capabilities ⟨[], [], [], [], [.Basic]⟩, .leafExtensions [], .lifetime ⟨0, 2160000000⟩]

set_option maxRecDepth 100000 in
example : ((settled .new []).build toyProvider empty toyConfig [1] [2] (.Basic [5]) ⟨[9], [9], .ED25519⟩).1.isOk = .ok true ∧
    ((settled .new someSettings).build toyProvider empty toyConfig [1] [2] (.Basic [5]) ⟨[9], [9], .ED25519⟩).1.isOk =
      .ok true := by decide +kernel
example : (∀ lt, Setting.lifetime lt ∉ []) ∧ ∀ c, Setting.capabilities c ∉ [] := ⟨by simp, by simp⟩
example : Final .lifetime ⟨0, 0⟩ someSettings ⟨0, 2160000000⟩ ∧
    Final .capabilities ⟨[], [], [], [], []⟩ someSettings ⟨[], [], [], [], [.Basic]⟩ ∧
    Final .leafExtensions [] someSettings [] ∧ LifetimeAccepted ⟨0, 2160000000⟩ 2160000000001 :=
  ⟨.inl ⟨[.lifetime ⟨0, 9⟩, .capabilities ⟨[], [], [], [], [.Basic]⟩, .leafExtensions []], [], rfl, by simp⟩,
   .inl ⟨[.lifetime ⟨0, 9⟩], [.leafExtensions [], .lifetime ⟨0, 2160000000⟩], rfl, by simp⟩,
   .inl ⟨[.lifetime ⟨0, 9⟩, .capabilities ⟨[], [], [], [], [.Basic]⟩], [.lifetime ⟨0, 2160000000⟩], rfl, by simp⟩,
   ⟨by decide, by decide⟩⟩

end Rmls
