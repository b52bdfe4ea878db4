import Verif.Proofs.Codec
/-
Laws of the primitives in `Verif.Model.Serde`.
-/
namespace Rmls

/-! ### Variable-length integers -/

theorem varintLoop_eq (n v : Nat) (b : Bytes) :
    varintLoop n v b =
      if b.length < n then .err .BufferTooSmall
      else .ok (v * 256 ^ n + beNat (b.take n), b.drop n) := by
  induction n generalizing v b with
  | zero => simp [varintLoop, beNat]
  | succ n ih =>
    cases b with
    | nil => simp [varintLoop, De.bind_apply, need]
    | cons c cs =>
      have hget : get_u8 (c :: cs) = .ok (c, cs) := by
        have : c.toNat < 256 := c.toNat_lt
        simp [get_u8, getBE, beNat]
      have : (c :: cs).length ≥ 1 := by simp
      simp only [varintLoop, De.bind_apply, need]
      rw [if_neg (by omega)]
      simp only [hget]
      rw [ih]
      simp only [List.length_cons, Nat.add_lt_add_iff_right, List.take_succ_cons, List.drop_succ_cons,
        beNat_cons]
      split
      · rfl
      · rename_i hl
        have hl2 : (cs.take n).length = n := by simp; omega
        rw [hl2, Nat.shiftLeft_eq]
        congr 2
        rw [Nat.pow_succ]
        grind

theorem serialize_varint_eq (n : Nat) : serialize_varint n =
    if n < 64 then .ok (beBytes 1 n)
    else if n < 16384 then .ok (beBytes 2 (16384 + n))
    else if n < 1073741824 then .ok (beBytes 4 (2147483648 + n))
    else .err .VarintExceeds30Bits := by
  unfold serialize_varint
  simp only [Nat.shiftLeft_eq, Nat.reducePow, Nat.one_mul, Nat.reduceMul]
  split
  · rfl
  · split
    · rename_i h
      have := Nat.two_pow_add_eq_or_of_lt (i := 14) (b := n) (by simpa using h) 1
      simp at this
      rw [this]
    · split
      · rename_i h
        have := Nat.two_pow_add_eq_or_of_lt (i := 30) (b := n) (by simpa using h) 2
        simp at this
        rw [this]
      · rfl

/-- Closed form of `deserialize_varint` on a nonempty buffer. -/
theorem deserialize_varint_cons (c : UInt8) (cs : Bytes) : deserialize_varint (c :: cs) =
    let p := c.toNat / 64
    let q := c.toNat % 64
    if p = 3 then .err .InvalidVariableLengthIntegerPrefix
    else if cs.length < 2 ^ p - 1 then .err .BufferTooSmall
    else
      let v := q * 256 ^ (2 ^ p - 1) + beNat (cs.take (2 ^ p - 1))
      if 1 ≤ p ∧ v < 2 ^ (8 * (2 ^ p / 2) - 2) then .err .MinimumEncodingWasNotUsed
      else .ok (v, cs.drop (2 ^ p - 1)) := by
  have hget : get_u8 (c :: cs) = .ok (c, cs) := by simp [get_u8, getBE, beNat]
  have hq : c.toNat &&& 63 = c.toNat % 64 := by
    have := Nat.and_two_pow_sub_one_eq_mod c.toNat 6
    simpa using this
  unfold deserialize_varint
  simp only [De.bind_apply, need]
  rw [if_neg (by simp)]
  simp only [hget, Nat.shiftRight_eq_div_pow, Nat.reducePow, hq, Nat.shiftLeft_eq, Nat.one_mul]
  split
  · simp
  · simp only [De.bind_apply, varintLoop_eq]
    by_cases h : cs.length < 2 ^ (c.toNat / 64) - 1
    · rw [if_pos h, if_pos h]
    · rw [if_neg h, if_neg h]
      dsimp only
      split <;> simp

theorem deserialize_varint_nil : deserialize_varint [] = .err .BufferTooSmall := by
  simp [deserialize_varint, De.bind_apply, need]

/-- First byte of an encoding with header class `p` and `m` further bytes. -/
theorem beBytes_head (m p v : Nat) (hp : p < 4) (hv : v < 64 * 256 ^ m) :
    ∃ c : UInt8, beBytes (m + 1) (p * (64 * 256 ^ m) + v) = c :: beBytes m v ∧
      c.toNat / 64 = p ∧ (c.toNat % 64) * 256 ^ m + v % 256 ^ m = v := by
  refine ⟨UInt8.ofNat ((p * (64 * 256 ^ m) + v) / 256 ^ m), ?_, ?_, ?_⟩
  · rw [beBytes]
    congr 1
    rw [← beBytes_mod m (p * (64 * 256 ^ m) + v) m (Nat.le_refl _)]
    have : (p * (64 * 256 ^ m) + v) % 256 ^ m = v % 256 ^ m := by
      rw [← Nat.mul_assoc, Nat.add_comm, Nat.add_mul_mod_self_right]
    rw [this, beBytes_mod m v m (Nat.le_refl _)]
  all_goals
    have hpos : 0 < 256 ^ m := Nat.pow_pos (by omega)
    have hd : (p * (64 * 256 ^ m) + v) / 256 ^ m = p * 64 + v / 256 ^ m := by
      rw [← Nat.mul_assoc, Nat.add_comm, Nat.add_mul_div_right _ _ hpos, Nat.add_comm]
    have hv2 : v / 256 ^ m < 64 := by rw [Nat.div_lt_iff_lt_mul hpos]; exact hv
    simp only [UInt8.toNat_ofNat', Nat.reducePow, hd]
  · generalize v / 256 ^ m = d at *
    omega
  · have : (p * 64 + v / 256 ^ m) % 256 % 64 = v / 256 ^ m := by
      generalize v / 256 ^ m = d at *
      omega
    rw [this]
    exact Nat.div_add_mod' v (256 ^ m)

theorem deserialize_varint_beBytes (p v : Nat) (rest : Bytes) (hp : p < 3)
    (hv : v < 64 * 256 ^ (2 ^ p - 1)) (hmin : 1 ≤ p → 2 ^ (8 * (2 ^ p / 2) - 2) ≤ v) :
    deserialize_varint (beBytes (2 ^ p) (p * (64 * 256 ^ (2 ^ p - 1)) + v) ++ rest) =
      .ok (v, rest) := by
  obtain ⟨c, h1, h2, h3⟩ := beBytes_head (2 ^ p - 1) p v (by omega) hv
  have hp2 : 2 ^ p - 1 + 1 = 2 ^ p := by
    have : 0 < 2 ^ p := Nat.pow_pos (by omega)
    omega
  rw [hp2] at h1
  rw [h1, List.cons_append, deserialize_varint_cons]
  simp only [h2]
  have hl := beBytes_length (2 ^ p - 1) v
  rw [if_neg (by omega), if_neg (by simp [hl])]
  have ht : (beBytes (2 ^ p - 1) v ++ rest).take (2 ^ p - 1) = beBytes (2 ^ p - 1) v := by simp [hl]
  have hd : (beBytes (2 ^ p - 1) v ++ rest).drop (2 ^ p - 1) = rest := by simp [hl]
  rw [ht, hd, beNat_beBytes, h3]
  rw [if_neg (by intro ⟨ha, hb⟩; have := hmin ha; omega)]

theorem lawful_varint : Lawful deserialize_varint serialize_varint (fun n => n < 2 ^ 30) where
  rt x b rest hw h := by
    rw [serialize_varint_eq] at h
    split at h
    · cases h
      have := deserialize_varint_beBytes 0 x rest (by omega) (by simp; omega) (by omega)
      simpa using this
    · split at h
      · cases h
        have := deserialize_varint_beBytes 1 x rest (by omega) (by simp; omega) (by simp; omega)
        simpa using this
      · cases h
        have := deserialize_varint_beBytes 2 x rest (by omega) (by simp; omega) (by simp; omega)
        simpa using this
  canon buf x rest h := by
    cases buf with
    | nil => rw [deserialize_varint_nil] at h; cases h
    | cons c cs =>
      rw [deserialize_varint_cons] at h
      have hc : c.toNat < 256 := c.toNat_lt
      dsimp only at h
      split at h
      · cases h
      · split at h
        · cases h
        · split at h
          · cases h
          · rename_i h1 h2 h3
            cases h
            have hp : c.toNat / 64 = 0 ∨ c.toNat / 64 = 1 ∨ c.toNat / 64 = 2 := by omega
            have key : ∀ p, c.toNat / 64 = p → p < 3 → ¬ cs.length < 2 ^ p - 1 →
                c :: cs = beBytes (2 ^ p) (p * (64 * 256 ^ (2 ^ p - 1)) +
                  (c.toNat % 64 * 256 ^ (2 ^ p - 1) + beNat (List.take (2 ^ p - 1) cs))) ++
                  cs.drop (2 ^ p - 1) := by
              intro p hp hp3 hl
              have ht : (List.take (2 ^ p - 1) cs).length = 2 ^ p - 1 := by simp; omega
              have hb := beNat_lt (List.take (2 ^ p - 1) cs)
              have hbb := beBytes_beNat (c :: List.take (2 ^ p - 1) cs)
              rw [beNat_cons, List.length_cons, ht] at hbb
              have hp2 : 2 ^ p - 1 + 1 = 2 ^ p := by
                have : 0 < 2 ^ p := Nat.pow_pos (by omega)
                omega
              rw [hp2] at hbb
              have : p * (64 * 256 ^ (2 ^ p - 1)) +
                  (c.toNat % 64 * 256 ^ (2 ^ p - 1) + beNat (List.take (2 ^ p - 1) cs)) =
                  c.toNat * 256 ^ (2 ^ p - 1) + beNat (List.take (2 ^ p - 1) cs) := by
                have : c.toNat = p * 64 + c.toNat % 64 := by omega
                generalize 256 ^ (2 ^ p - 1) = t
                generalize beNat _ = u
                rw [← Nat.add_assoc, ← Nat.mul_assoc, ← Nat.add_mul, ← this]
              rw [this, hbb, List.cons_append, List.take_append_drop]
            have hb := beNat_lt (List.take (2 ^ (c.toNat / 64) - 1) cs)
            have ht : (List.take (2 ^ (c.toNat / 64) - 1) cs).length = 2 ^ (c.toNat / 64) - 1 := by
              simp only [List.length_take]; omega
            rw [ht] at hb
            rcases hp with hp | hp | hp <;> rw [hp] at h2 h3 hb ⊢ <;>
              have hk := key _ hp (by omega) h2 <;> simp at h3 hb hk ⊢ <;>
              refine ⟨by omega, ?_⟩ <;> rw [serialize_varint_eq]
            · rw [if_pos (by simp [beNat]; omega)]
              exact ⟨_, rfl, hk⟩
            · rw [if_neg (by omega), if_pos (by omega)]
              exact ⟨_, rfl, hk⟩
            · rw [if_neg (by omega), if_neg (by omega), if_pos (by omega)]
              exact ⟨_, rfl, hk⟩

theorem minLen_varint : MinLen serialize_varint 1 := by
  intro x b h
  rw [serialize_varint_eq] at h
  repeat' split at h
  all_goals cases h; try simp [beBytes_length]

theorem varintLoop_noF (f : Fault) (n v : Nat) : NoF f 0 (varintLoop n v) := by
  intro b _ h
  rw [varintLoop_eq] at h
  split at h <;> cases h

theorem noF_varint (f : Fault) : NoF f 0 deserialize_varint := by
  unfold deserialize_varint
  refine NoF.need (NoF.bind' (noF_u8 (Nat.le_refl _)) fun b => ?_)
  dsimp only
  refine NoF.ite (fun _ => noF_fail _ _) fun _ => NoF.bind (varintLoop_noF _ _ _) fun v => ?_
  exact NoF.ite (fun _ => noF_fail _ _) fun _ => noF_pure _ _

/-! ### Opaque vectors -/

theorem serialize_opaque_vec_ok_iff {v b : Bytes} :
    serialize_opaque_vec v = .ok b ↔
      v.length < 2 ^ 30 ∧ ∃ h, serialize_varint v.length = .ok h ∧ b = h ++ v := by
  unfold serialize_opaque_vec
  constructor
  · intro h
    split at h
    · cases h
    · obtain ⟨a, c, h1, h2, rfl⟩ := Res.app_ok_iff.1 h
      cases h2
      refine ⟨?_, a, h1, rfl⟩
      rw [serialize_varint_eq] at h1
      repeat' split at h1
      all_goals first | cases h1; done | (simp; omega)
  · rintro ⟨h1, h, h2, rfl⟩
    rw [if_neg (by omega), h2]
    rfl

theorem serialize_opaque_vec_small {v : Bytes} (h : v.length < 2 ^ 30) :
    ∃ hd, serialize_varint v.length = .ok hd ∧ serialize_opaque_vec v = .ok (hd ++ v) := by
  have : ∃ hd, serialize_varint v.length = .ok hd := by
    rw [serialize_varint_eq]
    repeat' split
    · exact ⟨_, rfl⟩
    · exact ⟨_, rfl⟩
    · exact ⟨_, rfl⟩
  obtain ⟨hd, hh⟩ := this
  exact ⟨hd, hh, serialize_opaque_vec_ok_iff.2 ⟨h, hd, hh, rfl⟩⟩

theorem serialize_opaque_vec_big {v : Bytes} (h : ¬ v.length < 2 ^ 30) :
    serialize_opaque_vec v = .err .VarintExceeds30Bits ∨
    serialize_opaque_vec v = .err .OpaqueSizeExceedsMaximumValueOfU32 := by
  unfold serialize_opaque_vec
  split
  · exact .inr rfl
  · left
    rw [serialize_varint_eq, if_neg (by omega), if_neg (by omega), if_neg (by omega)]
    rfl

theorem lawful_copy (n : Nat) : Lawful (need n >>= fun _ => copy_to_bytes n) put_slice
    (fun b => b.length = n) where
  rt x b rest hw h := by
    cases h
    simp only [De.bind_apply, need, copy_to_bytes]
    have : ¬ (x ++ rest).length < n := by simp [← hw]
    rw [if_neg this]; dsimp only
    rw [if_neg this]
    simp [← hw]
  canon buf x rest h := by
    simp only [De.bind_ok_iff, need, copy_to_bytes] at h
    obtain ⟨_, r, h1, h2⟩ := h
    split at h1
    · cases h1
    · cases h1
      rw [if_neg (by assumption)] at h2
      cases h2
      refine ⟨by simp; omega, _, rfl, by simp⟩

theorem noF_copy (f : Fault) (n : Nat) : NoF f n (copy_to_bytes n) := by
  intro b hb h
  unfold copy_to_bytes at h
  rw [if_neg (by omega)] at h
  cases h

theorem lawful_opaque : Lawful deserialize_opaque_vec serialize_opaque_vec
    (fun b => b.length < 2 ^ 30) := by
  unfold deserialize_opaque_vec
  refine Lawful.bind (t := put_slice) List.length lawful_varint ?_ ?_ (fun x hx => hx)
  · intro n hn
    exact (lawful_copy n).congr (fun x => by
      constructor
      · exact fun h => h.2
      · intro h; exact ⟨by omega, h⟩) (fun _ _ => rfl)
  · intro x hx
    unfold serialize_opaque_vec
    rw [if_neg (by omega)]

theorem minLen_opaque : MinLen serialize_opaque_vec 1 := by
  intro x b h
  obtain ⟨_, hd, h1, rfl⟩ := serialize_opaque_vec_ok_iff.1 h
  have := minLen_varint _ _ h1
  simp; omega

theorem noF_opaque (f : Fault) : NoF f 0 deserialize_opaque_vec := by
  unfold deserialize_opaque_vec
  exact NoF.bind (noF_varint f) fun n => NoF.need (noF_copy f n)

/-! ### Vectors -/

section vector
variable {α : Type} {d : De α} {s : α → Res Bytes} {W : α → Prop}

theorem serialize_items_cons_ok {x : α} {xs : List α} {b : Bytes} :
    serialize_items s (x :: xs) = .ok b ↔
      ∃ b1 b2, s x = .ok b1 ∧ serialize_items s xs = .ok b2 ∧ b = b1 ++ b2 := by
  rw [serialize_items, Res.app_ok_iff]

theorem vecLoop_rt (h : Lawful d s W) (hm : MinLen s 1) (xs : List α) (hw : ∀ x ∈ xs, W x) (b : Bytes)
    (hb : serialize_items s xs = .ok b) (fuel : Nat) (hf : b.length ≤ fuel) :
    vecLoop d fuel b = .ok xs := by
  induction xs generalizing b fuel with
  | nil => cases hb; cases fuel <;> rfl
  | cons x xs ih =>
    obtain ⟨b1, b2, h1, h2, rfl⟩ := serialize_items_cons_ok.1 hb
    have hl := hm _ _ h1
    have hd := h.rt x b1 b2 (hw x (by simp)) h1
    have hl2 : 1 ≤ (b1 ++ b2).length := by simp only [List.length_append]; omega
    cases hb12 : b1 ++ b2 with
    | nil => rw [hb12] at hl2; simp at hl2
    | cons c cs =>
      cases fuel with
      | zero => omega
      | succ fuel =>
        rw [vecLoop, ← hb12, hd]
        simp only
        rw [ih (fun y hy => hw y (by simp [hy])) b2 h2 fuel (by simp only [List.length_append] at hf; omega)]

theorem vecLoop_canon (h : Lawful d s W) (xs : List α) (b : Bytes) (fuel : Nat)
    (hb : vecLoop d fuel b = .ok xs) : (∀ x ∈ xs, W x) ∧ serialize_items s xs = .ok b := by
  induction fuel generalizing b xs with
  | zero =>
    cases b with
    | nil => cases hb; exact ⟨by simp, rfl⟩
    | cons => cases hb
  | succ fuel ih =>
    cases b with
    | nil => cases hb; exact ⟨by simp, rfl⟩
    | cons c cs =>
      rw [vecLoop] at hb
      split at hb
      · rename_i a r h1
        split at hb
        · rename_i as h2
          cases hb
          obtain ⟨hw, b1, hb1, heq⟩ := h.canon _ _ _ h1
          obtain ⟨hws, hb2⟩ := ih _ _ h2
          refine ⟨by simpa using ⟨hw, hws⟩, ?_⟩
          rw [serialize_items_cons_ok]
          exact ⟨b1, r, hb1, hb2, heq⟩
        · cases hb
        · cases hb
      · cases hb
      · cases hb

theorem lawful_vector (h : Lawful d s W) (hm : MinLen s 1) :
    Lawful (deserialize_vector d) (serialize_vector s)
      (fun xs => (∀ x ∈ xs, W x) ∧ ∃ b, serialize_items s xs = .ok b ∧ b.length < 2 ^ 30) where
  rt xs b rest hw hb := by
    obtain ⟨raw, h1, h2⟩ := Res.bind_ok_iff.1 hb
    obtain ⟨hl, hd, h3, rfl⟩ := serialize_opaque_vec_ok_iff.1 h2
    have hv := lawful_varint.rt _ _ (raw ++ rest) hl h3
    have hc := (lawful_copy raw.length).rt raw raw rest rfl rfl
    have hv2 := vecLoop_rt h hm xs hw.1 raw h1 raw.length (Nat.le_refl _)
    unfold deserialize_vector
    rw [De.bind_ok_iff]
    obtain ⟨u, r, h4, h5⟩ := De.bind_ok_iff.1 hc
    refine ⟨_, _, by rw [List.append_assoc]; exact hv, De.bind_ok_iff.2 ⟨u, r, h4, ?_⟩⟩
    exact De.bind_ok_iff.2 ⟨_, _, h5, De.lift_ok_iff.2 ⟨hv2, rfl⟩⟩
  canon buf xs rest hb := by
    unfold deserialize_vector at hb
    obtain ⟨n, r1, h1, hb1⟩ := De.bind_ok_iff.1 hb
    obtain ⟨u, r2, h2, hb2⟩ := De.bind_ok_iff.1 hb1
    obtain ⟨v, r3, h3, hb3⟩ := De.bind_ok_iff.1 hb2
    obtain ⟨h4, rfl⟩ := De.lift_ok_iff.1 hb3
    clear hb hb1 hb2 hb3
    obtain ⟨hn, hd, hs, rfl⟩ := lawful_varint.canon _ _ _ h1
    obtain ⟨hl, _, h5, rfl⟩ := (lawful_copy n).canon r1 v r3 (De.bind_ok_iff.2 ⟨_, _, h2, h3⟩)
    cases h5
    obtain ⟨hw, hi⟩ := vecLoop_canon h _ _ _ h4
    refine ⟨⟨hw, v, hi, by omega⟩, hd ++ v, ?_, by simp⟩
    unfold serialize_vector
    rw [hi, Res.ok_bind]
    exact serialize_opaque_vec_ok_iff.2 ⟨by omega, hd, by rw [hl]; exact hs, rfl⟩

/-- Every element takes a byte at least, or the loop does not end. -/
theorem vecLoop_count {d : De α} {fuel : Nat} {b : Bytes} {xs : List α} (h : vecLoop d fuel b = .ok xs) :
    xs.length ≤ fuel := by
  induction fuel generalizing b xs with
  | zero =>
    cases b with
    | nil => cases h; simp
    | cons c b => cases h
  | succ fuel ih =>
    cases b with
    | nil => cases h; simp
    | cons c b =>
      unfold vecLoop at h
      split at h
      · split at h
        · next as ha => cases h; have := ih ha; simp; exact this
        · cases h
        · cases h
      · cases h
      · cases h

theorem deserialize_vector_count {d : De α} {buf rest : Bytes} {xs : List α}
    (h : deserialize_vector d buf = .ok (xs, rest)) :
    xs.length < 2 ^ 30 ∧ xs.length + rest.length < buf.length := by
  unfold deserialize_vector at h
  obtain ⟨n, r1, h1, hb1⟩ := De.bind_ok_iff.1 h
  obtain ⟨u, r2, h2, hb2⟩ := De.bind_ok_iff.1 hb1
  obtain ⟨v, r3, h3, hb3⟩ := De.bind_ok_iff.1 hb2
  obtain ⟨h4, rfl⟩ := De.lift_ok_iff.1 hb3
  clear h hb1 hb2 hb3
  obtain ⟨hn, hd, hs, rfl⟩ := lawful_varint.canon _ _ _ h1
  obtain ⟨hl, _, h5, rfl⟩ := (lawful_copy n).canon r1 v r3 (De.bind_ok_iff.2 ⟨_, _, h2, h3⟩)
  cases h5
  have := vecLoop_count h4
  have := minLen_varint _ _ hs
  simp only [List.length_append]
  omega

theorem serialize_vector_ok {xs : List α} {b : Bytes} (h : serialize_vector s xs = .ok b) :
    ∃ b, serialize_items s xs = .ok b ∧ b.length < 2 ^ 30 := by
  obtain ⟨raw, h1, h2⟩ := Res.bind_ok_iff.1 h
  exact ⟨raw, h1, (serialize_opaque_vec_ok_iff.1 h2).1⟩

theorem minLen_vector : MinLen (serialize_vector s) 1 := by
  intro xs b h
  obtain ⟨raw, h1, h2⟩ := Res.bind_ok_iff.1 h
  exact minLen_opaque _ _ h2

theorem vecLoop_noF {f : Fault} (hd : NoF f 0 d)
    (hc : ∀ buf x rest, d buf = .ok (x, rest) → rest.length < buf.length) (fuel : Nat) (b : Bytes)
    (hb : b.length ≤ fuel) : vecLoop d fuel b ≠ .fault f := by
  induction fuel generalizing b with
  | zero =>
    cases b with
    | nil => simp [vecLoop]
    | cons => simp at hb
  | succ fuel ih =>
    cases b with
    | nil => simp [vecLoop]
    | cons c cs =>
      intro h
      rw [vecLoop] at h
      split at h
      · rename_i a r h1
        have := hc _ _ _ h1
        split at h
        · cases h
        · cases h
        · rename_i h2; cases h
          exact ih r (by simp at hb this; omega) h2
      · cases h
      · rename_i h2; cases h; exact hd _ (Nat.zero_le _) h2

theorem noF_vector {f : Fault} (hl : Lawful d s W) (hm : MinLen s 1) (hd : NoF f 0 d) :
    NoF f 0 (deserialize_vector d) := by
  unfold deserialize_vector
  refine NoF.bind (noF_varint f) fun n => NoF.need (NoF.bind' (noF_copy f n) fun v => ?_)
  intro b _ h
  exact vecLoop_noF hd (fun _ _ _ hb => hl.consumes hm hb) _ _ (Nat.le_refl _) (De.lift_fault_iff.1 h)

end vector

/-! ### Optional markers -/

theorem lawful_optional : Lawful deserialize_optional serialize_optional (fun _ => True) := by
  unfold deserialize_optional
  refine Lawful.need ?_ ?_
  · refine Lawful.bind (sa := put_u8) (t := fun _ => .ok []) (fun p => if p then 1 else 0) lawful_u8 ?_
      (fun x _ => (Res.app_nil _).symm) (fun _ _ => trivial)
    intro a _
    split
    · subst a
      refine Lawful.pure (fun x => ?_) rfl
      cases x <;> simp
    · split
      · subst a
        refine Lawful.pure (fun x => ?_) rfl
        cases x <;> simp
      · refine Lawful.fail fun x => ?_
        rintro ⟨_, h⟩
        cases x <;> simp_all
  · intro x b _ h
    exact minLen_u8 _ _ h

theorem minLen_optional : MinLen serialize_optional 1 := fun _ _ h => minLen_u8 _ _ h

theorem noF_optional (f : Fault) : NoF f 0 deserialize_optional := by
  unfold deserialize_optional
  refine NoF.need (NoF.bind' (noF_u8 (Nat.le_refl _)) fun b => ?_)
  exact NoF.ite (fun _ => noF_pure _ _) fun _ => NoF.ite (fun _ => noF_pure _ _) fun _ => noF_fail _ _

end Rmls
