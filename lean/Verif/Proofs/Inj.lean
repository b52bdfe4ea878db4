import Verif.Proofs.WireLaw
/-
Writers as prefix-free injections: a value is determined by its encoding, also when something follows.
-/
namespace Rmls

/-- Equal bytes are written only for equal values, whatever follows. -/
structure Inj {α : Type} (s : α → Res Bytes) (W : α → Prop) : Prop where
  pre : ∀ {x y a b r r'}, W x → W y → s x = .ok a → s y = .ok b → a ++ r = b ++ r' → x = y ∧ r = r'

theorem Lawful.inj {α : Type} {d : De α} {s : α → Res Bytes} {W : α → Prop} (h : Lawful d s W) : Inj s W := by
  constructor
  intro x y a b r r' hx hy ha hb hab
  have h1 := h.rt x a r hx ha
  rw [hab, h.rt y b r' hy hb] at h1
  injection h1 with h1
  injection h1 with h1 h2
  exact ⟨h1.symm, h2.symm⟩

/-- The same without anything following. -/
theorem Inj.eq {α : Type} {s : α → Res Bytes} {W : α → Prop} (h : Inj s W) {x y : α} {a : Bytes} (hx : W x)
    (hy : W y) (ha : s x = .ok a) (hb : s y = .ok a) : x = y :=
  (h.pre (r := []) (r' := []) hx hy ha hb rfl).1

theorem opaque_inj : Inj serialize_opaque_vec (fun _ => True) := lawful_bytes.inj
theorem u8_inj : Inj put_u8 (fun _ => True) := lawful_u8.inj
theorem u16_inj : Inj put_u16 (fun _ => True) := lawful_u16.inj
theorem u32_inj : Inj put_u32 (fun _ => True) := lawful_u32.inj
theorem u64_inj : Inj put_u64 (fun _ => True) := lawful_u64.inj

/-- An optional value behind its presence byte. -/
theorem optional_inj {α : Type} {s : α → Res Bytes} {W : α → Prop} (h : Inj s W) {w : Option α → Res Bytes}
    (hn : w none = .ok []) (hs : ∀ x, w (some x) = s x) :
    Inj (fun n : Option α => serialize_optional n.isSome +++ w n) (fun n => ∀ x, n = some x → W x) := by
  constructor
  intro x y a b r r' hx hy ha hb hab
  obtain ⟨a1, a2, ha1, ha2, rfl⟩ := Res.app_ok_iff.1 ha
  obtain ⟨b1, b2, hb1, hb2, rfl⟩ := Res.app_ok_iff.1 hb
  rw [List.append_assoc, List.append_assoc] at hab
  obtain ⟨h1, h2⟩ := lawful_optional.inj.pre trivial trivial ha1 hb1 hab
  cases x with
  | none =>
    cases y with
    | none => rw [hn] at ha2 hb2; cases ha2; cases hb2; exact ⟨rfl, h2⟩
    | some y => cases h1
  | some x =>
    cases y with
    | none => cases h1
    | some y =>
      rw [hs] at ha2 hb2
      obtain ⟨h3, h4⟩ := h.pre (hx x rfl) (hy y rfl) ha2 hb2 h2
      exact ⟨by rw [h3], h4⟩

end Rmls
