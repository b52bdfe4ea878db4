import Verif.Spec.Group
import Verif.Proofs.KeyStore
import Verif.Proofs.LeafNode
import Verif.Proofs.Codecs
import Verif.Proofs.Framing
/-
Joining from a welcome and building key packages, as changes of the key store.
-/
namespace Rmls
open Spec MemoryKeyStore Enc

theorem exact_iff {α : Type} {d : De α} {s : α → Res Bytes} {W : α → Prop} {e : α → Enc} (hl : Lawful d s W)
    (hw : ∀ x, Writes (s x) (e x)) (raw : Bytes) (x : α) :
    deserialize_exact d raw = .ok x ↔ W x ∧ (e x).fits ∧ ∃ rest, raw = (e x).bytes ++ rest := by
  unfold deserialize_exact
  constructor
  · intro h
    split at h
    · next a r hd =>
      cases h
      obtain ⟨h1, b, h2, h3⟩ := hl.canon _ _ _ hd
      obtain ⟨h4, h5⟩ := (writes_ok_iff (hw x) b).1 h2
      exact ⟨h1, h4, r, by rw [h3, h5]⟩
    · cases h
    · cases h
  · rintro ⟨h1, h2, rest, rfl⟩
    rw [hl.rt x _ rest h1 ((writes_ok_iff (hw x) _).2 ⟨h2, rfl⟩)]

theorem packs_iff (raw : Bytes) (x : KeyPackage) :
    deserialize_exact KeyPackage.deserialize raw = .ok x ↔ Packs raw x :=
  exact_iff KeyPackage.lawful keyPackage_w raw x

theorem packsKey_iff (raw key : Bytes) :
    deserialize_exact SecretKey.deserialize raw = .ok key ↔ PacksKey raw key := by
  rw [exact_iff SecretKey.lawful (e := opq) (fun x => writes_opaque x)]
  simp [PacksKey]

theorem generate_ref_iff (P : CryptoProvider) (x : KeyPackage) (r : Bytes) :
    x.generate_ref P = .ok r ↔ IsRef P x r := by
  unfold KeyPackage.generate_ref CryptoProvider.ref_hash IsRef
  rw [writes_bind_iff (keyPackage_w x), writes_bind_iff (refHashInput_w _ _)]
  have ht : ascii "MLS 1.0 KeyPackage Reference" = text "MLS 1.0 KeyPackage Reference" := by decide
  rw [ht, Res.bind_ok_iff]
  constructor
  · rintro ⟨h1, h2, h, h3, h4⟩
    cases h4
    exact ⟨h, h3, h1, h2, rfl⟩
  · rintro ⟨h, h3, h1, h2, rfl⟩
    exact ⟨h1, h2, h, h3, rfl⟩

theorem isRef_unique {P : CryptoProvider} {x : KeyPackage} {r r' : Bytes} (h : IsRef P x r) (h' : IsRef P x r') :
    r = r' := by
  have := (generate_ref_iff P x r).2 h
  rw [(generate_ref_iff P x r').2 h'] at this
  cases this
  rfl

theorem packs_unique {raw : Bytes} {x x' : KeyPackage} (h : Packs raw x) (h' : Packs raw x') : x = x' := by
  have := (packs_iff raw x).2 h
  rw [(packs_iff raw x').2 h'] at this
  cases this
  rfl

theorem findPackage_iff (s : MemoryKeyStore) (l : List EncryptedGroupSecrets) (raw : Bytes) :
    Group.findPackage s l = some raw ↔ ∃ e, FirstKnown s l e raw := by
  induction l with
  | nil =>
    refine ⟨(nomatch ·), ?_⟩
    rintro ⟨_, b, a, h, _⟩
    cases b <;> cases h
  | cons x l ih =>
    unfold Group.findPackage
    cases hx : s.retrieve x.new_member with
    | some r =>
      constructor
      · intro h
        cases h
        exact ⟨x, [], l, rfl, hx, nofun⟩
      · rintro ⟨e, b, a, h1, h2, h3⟩
        cases b with
        | nil => cases h1; rw [hx] at h2; exact h2
        | cons y b => cases h1; rw [h3 _ (List.mem_cons_self ..)] at hx; cases hx
    | none =>
      show Group.findPackage s l = some raw ↔ _
      rw [ih]
      constructor
      · rintro ⟨e, b, a, h1, h2, h3⟩
        refine ⟨e, x :: b, a, by rw [h1]; rfl, h2, fun y hy => ?_⟩
        rcases List.mem_cons.1 hy with rfl | hy
        · exact hx
        · exact h3 y hy
      · rintro ⟨e, b, a, h1, h2, h3⟩
        cases b with
        | nil => cases h1; rw [hx] at h2; cases h2
        | cons y b => cases h1; exact ⟨e, b, a, rfl, h2, fun z hz => h3 z (List.mem_cons_of_mem _ hz)⟩

theorem firstKnown_unique {s : MemoryKeyStore} {l : List EncryptedGroupSecrets} {e e' : EncryptedGroupSecrets}
    {raw raw' : Bytes} (h : FirstKnown s l e raw) (h' : FirstKnown s l e' raw') : raw = raw' := by
  have := (findPackage_iff s l raw).2 ⟨e, h⟩
  rw [(findPackage_iff s l raw').2 ⟨e', h'⟩] at this
  cases this
  rfl

theorem findPackage_none (s : MemoryKeyStore) (l : List EncryptedGroupSecrets) :
    Group.findPackage s l = none ↔ ∀ e ∈ l, s.retrieve e.new_member = none := by
  induction l with
  | nil => exact ⟨fun _ => nofun, fun _ => rfl⟩
  | cons x l ih =>
    unfold Group.findPackage
    cases hx : s.retrieve x.new_member with
    | some r => exact ⟨(nomatch ·), fun h => by rw [h x (List.mem_cons_self ..)] at hx; cases hx⟩
    | none =>
      show Group.findPackage s l = none ↔ _
      rw [ih]
      simp [hx]

/-- Everything `from_welcome` can do. -/
theorem from_welcome_cases (P : CryptoProvider) (s : MemoryKeyStore) (w : Welcome) :
    (∃ e x ref, Joinable P s w e x ref ∧ (Group.from_welcome P s w).1 = .ok Group.default ∧
      ∀ k, (Group.from_welcome P s w).2.retrieve k =
        if k = ref ∨ k = x.payload.init_key then none else s.retrieve k) ∨
    (∃ e raw x ref, FirstKnown s w.secrets e raw ∧ Packs raw x ∧ IsRef P x ref ∧
      (ref = x.payload.init_key ∨ ∀ raw key, s.retrieve x.payload.init_key = some raw → ¬ PacksKey raw key) ∧
      (∀ g, (Group.from_welcome P s w).1 ≠ .ok g) ∧
      ∀ k, (Group.from_welcome P s w).2.retrieve k = if k = ref then none else s.retrieve k) ∨
    ((∀ e raw x ref, FirstKnown s w.secrets e raw → Packs raw x → ¬ IsRef P x ref) ∧
      (∀ g, (Group.from_welcome P s w).1 ≠ .ok g) ∧ (Group.from_welcome P s w).2 = s) := by
  unfold Group.from_welcome
  split
  · next h =>
    refine .inr (.inr ⟨?_, nofun, rfl⟩)
    intro e raw x ref h1
    rw [(findPackage_iff s _ raw).2 ⟨e, h1⟩] at h
    cases h
  · next raw h =>
    obtain ⟨e, he⟩ := (findPackage_iff s _ raw).1 h
    have hbad : (∀ x, ¬ Packs raw x) → ∀ e' raw' x ref, FirstKnown s w.secrets e' raw' → Packs raw' x → ¬ IsRef P x ref := by
      intro hb e' raw' x ref h1 h2
      rw [← firstKnown_unique he h1] at h2
      exact absurd h2 (hb x)
    split
    · next err hd =>
      exact .inr (.inr ⟨hbad fun x hx => (by rw [(packs_iff raw x).2 hx] at hd; cases hd), nofun, rfl⟩)
    · next f hd =>
      exact .inr (.inr ⟨hbad fun x hx => (by rw [(packs_iff raw x).2 hx] at hd; cases hd), nofun, rfl⟩)
    · next x hd =>
      have hx := (packs_iff raw x).1 hd
      have hbad2 : (∀ r, ¬ IsRef P x r) → ∀ e' raw' x ref, FirstKnown s w.secrets e' raw' → Packs raw' x → ¬ IsRef P x ref := by
        intro hb e' raw' x' ref h1 h2
        rw [← firstKnown_unique he h1] at h2
        rw [← packs_unique hx h2]
        exact hb ref
      split
      · next err hr =>
        exact .inr (.inr ⟨hbad2 fun r hh => (by rw [(generate_ref_iff P x r).2 hh] at hr; cases hr), nofun, rfl⟩)
      · next f hr =>
        exact .inr (.inr ⟨hbad2 fun r hh => (by rw [(generate_ref_iff P x r).2 hh] at hr; cases hr), nofun, rfl⟩)
      · next ref hr =>
        have href := (generate_ref_iff P x ref).1 hr
        have hdel : ∀ k, (s.delete ref).2.retrieve k = if k = ref then none else s.retrieve k := by
          intro k
          rw [retrieve_delete]
          simp only [eq_comm]
        dsimp only
        split
        · next hi =>
          refine .inr (.inl ⟨e, raw, x, ref, he, hx, href, ?_, nofun, hdel⟩)
          rw [hdel] at hi
          split at hi
          · next h => exact .inl h.symm
          · exact .inr fun raw' key h' => by rw [hi] at h'; cases h'
        · next rawKey hi =>
          rw [hdel] at hi
          split at hi
          · cases hi
          · next hne =>
            split
            · next err hk =>
              refine .inr (.inl ⟨e, raw, x, ref, he, hx, href, .inr ?_, nofun, hdel⟩)
              intro raw' key h1 h2
              rw [hi] at h1
              cases h1
              rw [(packsKey_iff rawKey key).2 h2] at hk
              cases hk
            · next f hk =>
              refine .inr (.inl ⟨e, raw, x, ref, he, hx, href, .inr ?_, nofun, hdel⟩)
              intro raw' key h1 h2
              rw [hi] at h1
              cases h1
              rw [(packsKey_iff rawKey key).2 h2] at hk
              cases hk
            · next key hk =>
              refine .inl ⟨e, x, ref, ⟨⟨raw, he, hx⟩, href, fun h => hne h.symm, rawKey, key, hi,
                (packsKey_iff rawKey key).1 hk⟩, rfl, ?_⟩
              intro k
              show ((s.delete ref).2.delete x.payload.init_key).2.retrieve k = _
              rw [retrieve_delete, hdel]
              by_cases h1 : x.payload.init_key = k
              · rw [if_pos h1, if_pos (.inr h1.symm)]
              · rw [if_neg h1]
                by_cases h2 : k = ref
                · rw [if_pos h2, if_pos (.inl h2)]
                · rw [if_neg h2, if_neg (fun h => h.elim h2 fun h => h1 h.symm)]

theorem from_welcome_shrinks (P : CryptoProvider) (s : MemoryKeyStore) (w : Welcome) (k : Bytes) :
    (Group.from_welcome P s w).2.retrieve k = none ∨ (Group.from_welcome P s w).2.retrieve k = s.retrieve k := by
  rcases from_welcome_cases P s w with ⟨_, _, _, _, _, h⟩ | ⟨_, _, _, _, _, _, _, _, _, h⟩ | ⟨_, _, h⟩
  · rw [h]; split
    · exact .inl rfl
    · exact .inr rfl
  · rw [h]; split
    · exact .inl rfl
    · exact .inr rfl
  · exact .inr (by rw [h])

theorem joins_shrinks {P : CryptoProvider} {s s' : MemoryKeyStore} {ws : List Welcome} (h : Joins P s ws s')
    (k : Bytes) : s'.retrieve k = none ∨ s'.retrieve k = s.retrieve k := by
  induction h with
  | none => exact .inr rfl
  | @one s w _ _ _ ih =>
    rcases ih with h | h
    · exact .inl h
    · rw [h]; exact from_welcome_shrinks P s w k

end Rmls
