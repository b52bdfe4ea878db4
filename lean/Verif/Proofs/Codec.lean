import Verif.Model.Serde
/-
Codec laws and their composition rules.
-/
namespace Rmls

/-! ### Big-endian integers -/

theorem beBytes_length (n v : Nat) : (beBytes n v).length = n := by
  induction n with
  | zero => rfl
  | succ n ih => simp [beBytes, ih]

theorem foldl_be (bs : Bytes) (a : Nat) :
    bs.foldl (fun a b => a * 256 + b.toNat) a = a * 256 ^ bs.length + beNat bs := by
  unfold beNat
  induction bs generalizing a with
  | nil => simp
  | cons b bs ih =>
    simp only [List.foldl_cons, List.length_cons]
    rw [ih, ih (0 * 256 + b.toNat)]
    rw [Nat.pow_succ]
    grind

theorem beNat_cons (b : UInt8) (bs : Bytes) : beNat (b :: bs) = b.toNat * 256 ^ bs.length + beNat bs := by
  have := foldl_be bs (0 * 256 + b.toNat)
  simpa [beNat] using this

theorem beNat_lt (bs : Bytes) : beNat bs < 256 ^ bs.length := by
  induction bs with
  | nil => simp [beNat]
  | cons b bs ih =>
    rw [beNat_cons, List.length_cons, Nat.pow_succ]
    have : b.toNat < 256 := b.toNat_lt
    have h2 : (b.toNat + 1) * 256 ^ bs.length ≤ 256 * 256 ^ bs.length := Nat.mul_le_mul_right _ (by omega)
    have h3 := Nat.add_mul b.toNat 1 (256 ^ bs.length)
    grind

theorem beNat_beBytes (n v : Nat) : beNat (beBytes n v) = v % 256 ^ n := by
  induction n with
  | zero => simp [beBytes, beNat, Nat.mod_one]
  | succ n ih =>
    rw [beBytes, beNat_cons, ih, beBytes_length]
    simp only [UInt8.toNat_ofNat', Nat.reducePow]
    rw [Nat.pow_succ, Nat.mod_mul (x := v) (a := 256 ^ n) (b := 256)]
    grind

theorem beBytes_mod (n v m : Nat) (h : n ≤ m) : beBytes n (v % 256 ^ m) = beBytes n v := by
  induction n with
  | zero => rfl
  | succ n ih =>
    simp only [beBytes]
    rw [ih (by omega)]
    congr 1
    apply UInt8.toNat_inj.mp
    simp only [UInt8.toNat_ofNat', Nat.reducePow]
    obtain ⟨k, rfl⟩ : ∃ k, m = n + (k + 1) := ⟨m - n - 1, by omega⟩
    rw [Nat.pow_add, Nat.mod_mul_right_div_self, Nat.pow_succ', Nat.mod_mul_right_mod]

theorem beBytes_beNat (bs : Bytes) : beBytes bs.length (beNat bs) = bs := by
  induction bs with
  | nil => rfl
  | cons b bs ih =>
    rw [beNat_cons, List.length_cons, beBytes]
    have hl := beNat_lt bs
    congr 1
    · apply UInt8.toNat_inj.mp
      simp only [UInt8.toNat_ofNat', Nat.reducePow]
      rw [Nat.add_comm, Nat.add_mul_div_right _ _ (Nat.pow_pos (by omega)), Nat.div_eq_of_lt hl]
      have : b.toNat < 256 := b.toNat_lt
      omega
    · rw [← beBytes_mod _ _ bs.length (Nat.le_refl _), Nat.add_comm, Nat.add_mul_mod_self_right,
        Nat.mod_eq_of_lt hl, ih]

/-! ### Monad plumbing -/

namespace Res

@[simp] theorem pure_eq {α : Type u} (a : α) : (pure a : Res α) = .ok a := rfl
@[simp] theorem ok_bind {α β : Type u} (a : α) (f : α → Res β) : (Res.ok a >>= f) = f a := rfl
@[simp] theorem err_bind {α β : Type u} (e : Error) (f : α → Res β) : (Res.err e >>= f) = .err e := rfl
@[simp] theorem fault_bind {α β : Type u} (e : Fault) (f : α → Res β) : (Res.fault e >>= f) = .fault e := rfl

theorem bind_ok_iff {α β : Type u} {x : Res α} {f : α → Res β} {b : β} :
    (x >>= f) = .ok b ↔ ∃ a, x = .ok a ∧ f a = .ok b := by
  cases x <;> simp

@[simp] theorem ok_app_ok (a b : Bytes) : (Res.ok a +++ Res.ok b) = .ok (a ++ b) := rfl
@[simp] theorem err_app (e : Error) (y : Res Bytes) : (Res.err e +++ y) = .err e := rfl
@[simp] theorem fault_app (e : Fault) (y : Res Bytes) : (Res.fault e +++ y) = .fault e := rfl
@[simp] theorem ok_app_err (a : Bytes) (e : Error) : (Res.ok a +++ Res.err e) = .err e := rfl
@[simp] theorem ok_app_fault (a : Bytes) (e : Fault) : (Res.ok a +++ Res.fault e) = .fault e := rfl

theorem app_ok_iff {x y : Res Bytes} {c : Bytes} :
    (x +++ y) = .ok c ↔ ∃ a b, x = .ok a ∧ y = .ok b ∧ c = a ++ b := by
  cases x <;> cases y <;> simp [eq_comm]

theorem app_nil (x : Res Bytes) : (x +++ Res.ok []) = x := by
  cases x <;> simp

theorem nil_app (x : Res Bytes) : (Res.ok [] +++ x) = x := by
  cases x <;> simp

theorem app_assoc (x y z : Res Bytes) : ((x +++ y) +++ z) = (x +++ (y +++ z)) := by
  cases x <;> cases y <;> cases z <;> simp

end Res

namespace De

theorem bind_apply {α β : Type u} (d : De α) (f : α → De β) (b : Bytes) :
    (d >>= f) b = match d b with
      | .ok (a, r) => f a r
      | .err e => .err e
      | .fault f => .fault f := rfl

@[simp] theorem pure_apply {α : Type u} (a : α) (b : Bytes) : (Pure.pure a : De α) b = .ok (a, b) := rfl

theorem bind_ok_iff {α β : Type u} {d : De α} {f : α → De β} {b rest : Bytes} {y : β} :
    (d >>= f) b = .ok (y, rest) ↔ ∃ a r, d b = .ok (a, r) ∧ f a r = .ok (y, rest) := by
  rw [bind_apply]
  cases h : d b with
  | ok p => obtain ⟨a, r⟩ := p; simp [and_assoc]
  | err e => simp
  | fault f => simp

theorem bind_fault_iff {α β : Type u} {d : De α} {f : α → De β} {b : Bytes} {e : Fault} :
    (d >>= f) b = .fault e ↔
      d b = .fault e ∨ ∃ a r, d b = .ok (a, r) ∧ f a r = .fault e := by
  rw [bind_apply]
  cases h : d b with
  | ok p => obtain ⟨a, r⟩ := p; simp [and_assoc]
  | err e => simp
  | fault f => simp

@[simp] theorem fail_apply {α : Type u} (e : Error) (b : Bytes) : (De.fail e : De α) b = .err e := rfl

theorem lift_ok_iff {α : Type u} {x : Res α} {a : α} {b rest : Bytes} :
    De.lift x b = .ok (a, rest) ↔ x = .ok a ∧ b = rest := by
  cases x <;> simp [De.lift]

theorem lift_fault_iff {α : Type u} {x : Res α} {f : Fault} {b : Bytes} :
    De.lift x b = .fault f ↔ x = .fault f := by
  cases x <;> simp [De.lift]

theorem bind_assoc' {α β γ : Type u} (x : De α) (f : α → De β) (g : β → De γ) :
    ((x >>= f) >>= g) = (x >>= fun a => f a >>= g) := by
  funext b
  simp only [bind_apply]
  cases h : x b with
  | ok p => rfl
  | err => rfl
  | fault => rfl

end De

/-! ### Laws -/

/-- Reader `d` and writer `s` are inverse to each other on the values satisfying `W`, and every
value that is read satisfies `W`. -/
structure Lawful {α : Type} (d : De α) (s : α → Res Bytes) (W : α → Prop) : Prop where
  rt : ∀ x b rest, W x → s x = .ok b → d (b ++ rest) = .ok (x, rest)
  canon : ∀ buf x rest, d buf = .ok (x, rest) → W x ∧ ∃ b, s x = .ok b ∧ buf = b ++ rest

/-- Every encoding has at least `n` bytes. -/
def MinLen {α : Type} (s : α → Res Bytes) (n : Nat) : Prop := ∀ x b, s x = .ok b → n ≤ b.length

/-- With at least `n` bytes available the reader never fails by fault `f`. -/
def NoF {α : Type} (f : Fault) (n : Nat) (d : De α) : Prop :=
  ∀ b : Bytes, n ≤ b.length → d b ≠ .fault f

section rules
variable {α β : Type}

theorem Lawful.bind {da : De α} {sa : α → Res Bytes} {Wa : α → Prop} {k : α → De β}
    {s t : β → Res Bytes} {W : β → Prop} (p : β → α)
    (ha : Lawful da sa Wa)
    (hk : ∀ a, Wa a → Lawful (k a) t (fun x => W x ∧ p x = a))
    (hs : ∀ x, W x → s x = (sa (p x) +++ t x))
    (hW : ∀ x, W x → Wa (p x)) : Lawful (da >>= k) s W where
  rt x b rest hw h := by
    rw [hs x hw, Res.app_ok_iff] at h
    obtain ⟨b1, b2, h1, h2, rfl⟩ := h
    rw [De.bind_apply, List.append_assoc, ha.rt _ _ _ (hW x hw) h1]
    exact (hk _ (hW x hw)).rt _ _ _ ⟨hw, rfl⟩ h2
  canon buf x rest h := by
    rw [De.bind_ok_iff] at h
    obtain ⟨a, r, h1, h2⟩ := h
    obtain ⟨hwa, b1, hb1, rfl⟩ := ha.canon _ _ _ h1
    obtain ⟨⟨hw, hp⟩, b2, hb2, rfl⟩ := (hk a hwa).canon _ _ _ h2
    refine ⟨hw, b1 ++ b2, ?_, by simp⟩
    rw [hs x hw, hp, hb1, hb2]; rfl

theorem Lawful.pure {x0 : α} {s : α → Res Bytes} {W : α → Prop} (hW : ∀ x, W x ↔ x = x0)
    (hs : s x0 = .ok []) : Lawful (Pure.pure x0 : De α) s W where
  rt x b rest hw h := by
    have := (hW x).1 hw; subst this
    rw [hs] at h; cases h; rfl
  canon buf x rest h := by
    simp only [De.pure_apply] at h
    cases h
    exact ⟨(hW _).2 rfl, [], hs, rfl⟩

theorem Lawful.fail {e : Error} {s : α → Res Bytes} {W : α → Prop} (hW : ∀ x, ¬ W x) :
    Lawful (De.fail e) s W where
  rt x _ _ hw := absurd hw (hW x)
  canon _ _ _ h := by simp at h

theorem Lawful.need {d : De α} {s : α → Res Bytes} {W : α → Prop} {n : Nat}
    (hd : Lawful d s W) (hm : ∀ x b, W x → s x = .ok b → n ≤ b.length) :
    Lawful (need n >>= fun _ => d) s W where
  rt x b rest hw h := by
    have := hm x b hw h
    simp only [De.bind_apply, Rmls.need]
    rw [if_neg (by simp only [List.length_append]; omega)]
    exact hd.rt _ _ _ hw h
  canon buf x rest h := by
    simp only [De.bind_apply, Rmls.need] at h
    split at h
    · rename_i h2; split at h2
      · cases h2
      · cases h2; exact hd.canon _ _ _ h
    · cases h
    · cases h

/-- Change the presentation of a law. -/
theorem Lawful.congr {d : De α} {s s' : α → Res Bytes} {W W' : α → Prop} (h : Lawful d s W)
    (hW : ∀ x, W' x ↔ W x) (hs : ∀ x, W x → s' x = s x) : Lawful d s' W' where
  rt x b rest hw hb := h.rt x b rest ((hW x).1 hw) (by rw [← hs x ((hW x).1 hw)]; exact hb)
  canon buf x rest hb := by
    obtain ⟨hw, b, h1, h2⟩ := h.canon _ _ _ hb
    exact ⟨(hW x).2 hw, b, by rw [hs x hw]; exact h1, h2⟩

/-- Transport along a wrapper type. -/
theorem Lawful.map {da : De α} {sa : α → Res Bytes} {Wa : α → Prop} {s : β → Res Bytes}
    {W : β → Prop} (ha : Lawful da sa Wa) (f : α → β) (p : β → α)
    (hfp : ∀ x, W x → f (p x) = x) (hpf : ∀ a, Wa a → W (f a) ∧ p (f a) = a)
    (hs : ∀ x, W x → s x = sa (p x)) (hW : ∀ x, W x → Wa (p x)) :
    Lawful (da >>= fun a => Pure.pure (f a)) s W := by
  refine Lawful.bind (t := fun _ => .ok []) p ha ?_ (fun x hx => by rw [hs x hx, Res.app_nil]) hW
  intro a hwa
  refine Lawful.pure ?_ rfl
  intro x
  constructor
  · rintro ⟨hw, rfl⟩; exact (hfp x hw).symm
  · rintro rfl; exact hpf a hwa

theorem Lawful.consumes {d : De α} {s : α → Res Bytes} {W : α → Prop} (h : Lawful d s W)
    (hm : MinLen s 1) {buf rest : Bytes} {x : α} (hb : d buf = .ok (x, rest)) :
    rest.length < buf.length := by
  obtain ⟨_, b, h1, rfl⟩ := h.canon _ _ _ hb
  have := hm _ _ h1
  simp; omega

theorem MinLen.app {s t : α → Res Bytes} {n m : Nat} (hs : MinLen s n) (ht : MinLen t m) :
    MinLen (fun x => s x +++ t x) (n + m) := by
  intro x b h
  obtain ⟨a, c, h1, h2, rfl⟩ := Res.app_ok_iff.1 h
  have := hs _ _ h1
  have := ht _ _ h2
  simp; omega

theorem minLen_zero (s : α → Res Bytes) : MinLen s 0 := fun _ _ _ => Nat.zero_le _

theorem MinLen.mono {s : α → Res Bytes} {n m : Nat} (h : MinLen s n) (hm : m ≤ n) : MinLen s m :=
  fun x b hb => Nat.le_trans hm (h x b hb)

theorem minLen_left {x : α} {s : α → Res Bytes} {y : Res Bytes} {b : Bytes} {n : Nat}
    (hs : MinLen s n) (h : (s x +++ y) = .ok b) : n ≤ b.length := by
  obtain ⟨a, c, h1, h2, rfl⟩ := Res.app_ok_iff.1 h
  have := hs _ _ h1
  simp; omega

theorem NoF.bind {f : Fault} {d : De α} {k : α → De β} (hd : NoF f 0 d) (hk : ∀ a, NoF f 0 (k a)) :
    NoF f 0 (d >>= k) := by
  intro b _ h
  rcases De.bind_fault_iff.1 h with h | ⟨a, r, _, h⟩
  · exact hd b (Nat.zero_le _) h
  · exact hk a r (Nat.zero_le _) h

theorem NoF.need {f : Fault} {n : Nat} {d : De α} (hd : NoF f n d) :
    NoF f 0 (need n >>= fun _ => d) := by
  intro b _ h
  rcases De.bind_fault_iff.1 h with h | ⟨a, r, h1, h⟩
  · unfold Rmls.need at h; split at h <;> cases h
  · unfold Rmls.need at h1
    split at h1
    · cases h1
    · cases h1; exact hd b (by omega) h

theorem NoF.mono {f : Fault} {n m : Nat} {d : De α} (hd : NoF f n d) (h : n ≤ m) : NoF f m d :=
  fun b hb => hd b (Nat.le_trans h hb)

theorem noF_pure {f : Fault} (a : α) (n : Nat) : NoF f n (Pure.pure a : De α) := by
  intro b _ h; cases h

theorem noF_fail {f : Fault} (e : Error) (n : Nat) : NoF f n (De.fail e : De α) := by
  intro b _ h; cases h

theorem NoF.ite {f : Fault} {n : Nat} {c : Prop} [Decidable c] {d e : De α} (hd : c → NoF f n d)
    (he : ¬ c → NoF f n e) : NoF f n (if c then d else e) := by
  split <;> simp_all

end rules

/-! ### Fixed-size integers -/

theorem getBE_append (n v : Nat) (rest : Bytes) :
    getBE n (beBytes n v ++ rest) = .ok (v % 256 ^ n, rest) := by
  have hl := beBytes_length n v
  unfold getBE
  rw [if_neg (by simp [hl])]
  have h1 : (beBytes n v ++ rest).take n = beBytes n v := by simp [hl]
  have h2 : (beBytes n v ++ rest).drop n = rest := by simp [hl]
  rw [h1, h2, beNat_beBytes]

theorem getBE_canon {n v : Nat} {buf rest : Bytes} (h : getBE n buf = .ok (v, rest)) :
    v < 256 ^ n ∧ buf = beBytes n v ++ rest := by
  unfold getBE at h
  split at h
  · cases h
  · rename_i hl
    cases h
    have h1 : (buf.take n).length = n := by simp; omega
    have h2 := beNat_lt (buf.take n)
    have h3 := beBytes_beNat (buf.take n)
    rw [h1] at h2 h3
    exact ⟨h2, by rw [h3, List.take_append_drop]⟩

theorem lawful_u8 : Lawful get_u8 put_u8 (fun _ => True) where
  rt x b rest _ h := by
    cases h
    simp only [get_u8, getBE_append]
    simp
  canon buf x rest h := by
    unfold get_u8 at h
    split at h
    · rename_i v r hh
      obtain ⟨h1, h2⟩ := getBE_canon hh
      cases h
      refine ⟨trivial, _, rfl, ?_⟩
      rw [h2]; congr 2
      simp at h1 ⊢; omega
    · cases h
    · cases h

theorem lawful_u16 : Lawful get_u16 put_u16 (fun _ => True) where
  rt x b rest _ h := by
    cases h
    simp only [get_u16, getBE_append]
    simp
  canon buf x rest h := by
    unfold get_u16 at h
    split at h
    · rename_i v r hh
      obtain ⟨h1, h2⟩ := getBE_canon hh
      cases h
      refine ⟨trivial, _, rfl, ?_⟩
      rw [h2]; congr 2
      simp at h1 ⊢; omega
    · cases h
    · cases h

theorem lawful_u32 : Lawful get_u32 put_u32 (fun _ => True) where
  rt x b rest _ h := by
    cases h
    simp only [get_u32, getBE_append]
    simp
  canon buf x rest h := by
    unfold get_u32 at h
    split at h
    · rename_i v r hh
      obtain ⟨h1, h2⟩ := getBE_canon hh
      cases h
      refine ⟨trivial, _, rfl, ?_⟩
      rw [h2]; congr 2
      simp at h1 ⊢; omega
    · cases h
    · cases h

theorem lawful_u64 : Lawful get_u64 put_u64 (fun _ => True) where
  rt x b rest _ h := by
    cases h
    simp only [get_u64, getBE_append]
    simp
  canon buf x rest h := by
    unfold get_u64 at h
    split at h
    · rename_i v r hh
      obtain ⟨h1, h2⟩ := getBE_canon hh
      cases h
      refine ⟨trivial, _, rfl, ?_⟩
      rw [h2]; congr 2
      simp at h1 ⊢; omega
    · cases h
    · cases h

theorem minLen_u8 : MinLen put_u8 1 := by
  intro x b h; cases h; simp [beBytes_length]
theorem minLen_u16 : MinLen put_u16 2 := by
  intro x b h; cases h; simp [beBytes_length]
theorem minLen_u32 : MinLen put_u32 4 := by
  intro x b h; cases h; simp [beBytes_length]
theorem minLen_u64 : MinLen put_u64 8 := by
  intro x b h; cases h; simp [beBytes_length]

theorem getBE_noF {f : Fault} {n m : Nat} (h : n ≤ m) : NoF f m (getBE n) := by
  intro b hb hh
  unfold getBE at hh
  rw [if_neg (by omega)] at hh
  cases hh

theorem noF_u8 {f : Fault} {m : Nat} (h : 1 ≤ m) : NoF f m get_u8 := by
  intro b hb hh
  unfold get_u8 at hh
  split at hh
  · cases hh
  · cases hh
  · rename_i f h2; cases hh; exact getBE_noF h b hb h2
theorem noF_u16 {f : Fault} {m : Nat} (h : 2 ≤ m) : NoF f m get_u16 := by
  intro b hb hh
  unfold get_u16 at hh
  split at hh
  · cases hh
  · cases hh
  · rename_i f h2; cases hh; exact getBE_noF h b hb h2
theorem noF_u32 {f : Fault} {m : Nat} (h : 4 ≤ m) : NoF f m get_u32 := by
  intro b hb hh
  unfold get_u32 at hh
  split at hh
  · cases hh
  · cases hh
  · rename_i f h2; cases hh; exact getBE_noF h b hb h2
theorem noF_u64 {f : Fault} {m : Nat} (h : 8 ≤ m) : NoF f m get_u64 := by
  intro b hb hh
  unfold get_u64 at hh
  split at hh
  · cases hh
  · cases hh
  · rename_i f h2; cases hh; exact getBE_noF h b hb h2

/-- A law for the reader lets the length argument survive one fixed-size read. -/
theorem NoF.bindLen {α β : Type} {f : Fault} {d : De α} {s : α → Res Bytes} {W : α → Prop}
    {k : α → De β} {n m : Nat} (hd : Lawful d s W) (hlen : ∀ x b, s x = .ok b → b.length = n)
    (hf : NoF f (n + m) d) (hk : ∀ a, NoF f m (k a)) : NoF f (n + m) (d >>= k) := by
  intro b hb h
  rcases De.bind_fault_iff.1 h with h | ⟨a, r, h1, h⟩
  · exact hf b hb h
  · obtain ⟨_, c, hc, rfl⟩ := hd.canon _ _ _ h1
    have := hlen _ _ hc
    exact hk a r (by simp at hb; omega) (by assumption)

/-- The same with a reader that may consume anything. -/
theorem NoF.bind' {α β : Type} {f : Fault} {d : De α} {k : α → De β} {n : Nat} (hd : NoF f n d)
    (hk : ∀ a, NoF f 0 (k a)) : NoF f n (d >>= k) := by
  intro b hb h
  rcases De.bind_fault_iff.1 h with h | ⟨a, r, _, h⟩
  · exact hd b hb h
  · exact hk a r (Nat.zero_le _) h

theorem len_u8 (x : UInt8) (b : Bytes) (h : put_u8 x = .ok b) : b.length = 1 := by
  cases h; simp [beBytes_length]
theorem len_u16 (x : UInt16) (b : Bytes) (h : put_u16 x = .ok b) : b.length = 2 := by
  cases h; simp [beBytes_length]
theorem len_u32 (x : UInt32) (b : Bytes) (h : put_u32 x = .ok b) : b.length = 4 := by
  cases h; simp [beBytes_length]
theorem len_u64 (x : UInt64) (b : Bytes) (h : put_u64 x = .ok b) : b.length = 8 := by
  cases h; simp [beBytes_length]

end Rmls
