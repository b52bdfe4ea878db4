import Verif.Spec.Derivation
import Verif.Props.Receiver
/-
Properties C72 (no message key is used twice) and C73 (the epoch secret commits to the epochs before it).
-/
namespace Rmls
open Spec Spec.Enc Spec.Recipe MessageProtection

/-! ### equal secrets are put together in the same way -/

theorem yields_unique {h : Hpke} : ∀ (r : Recipe) {a b : Bytes}, r.Yields h a → r.Yields h b → a = b := by
  intro r
  induction r with
  | given s => intro a b ha hb; exact ha.trans hb.symm
  | expand r l c n ih =>
    rintro a b ⟨s, h1, _, _, h2⟩ ⟨s', h1', _, _, h2'⟩
    cases ih h1 h1'
    cases h2.symm.trans h2'
    rfl
  | extract x y ihx ihy =>
    rintro a b ⟨s, t, h1, h2, h3⟩ ⟨s', t', h1', h2', h3'⟩
    cases ihx h1 h1'
    cases ihy h2 h2'
    cases h3.symm.trans h3'
    rfl

theorem collide_expand {h : Hpke} {r r' : Recipe} {l l' c c' : Bytes} {n n' : Nat} (hc : Collide h r r') :
    Collide h (expand r l c n) (expand r' l' c' n') := by
  obtain ⟨x, y, o, h1, h2, h3⟩ := hc
  exact ⟨x, y, o, .inl h1, .inl h2, h3⟩

/-- One step back from two equal secrets. -/
theorem expand_back {h : Hpke} {r r' : Recipe} {l l' c c' : Bytes} {n n' : Nat} {o : Bytes}
    (ha : (expand r l c n).Yields h o) (hb : (expand r' l' c' n').Yields h o) :
    Collide h (expand r l c n) (expand r' l' c' n') ∨
      l = l' ∧ c = c' ∧ n = n' ∧ ∃ s, r.Yields h s ∧ r'.Yields h s := by
  obtain ⟨s, h1, k1, f1, h2⟩ := ha
  obtain ⟨s', h1', k1', f1', h2'⟩ := hb
  by_cases hc : Call.expand s (kdfLabel n l c).bytes (UInt16.ofNat n) =
      .expand s' (kdfLabel n' l' c').bytes (UInt16.ofNat n')
  · injection hc with e1 e2 e3
    obtain rfl : n = n' := by
      have := congrArg UInt16.toNat e3
      rwa [show (UInt16.ofNat n).toNat = n from Nat.mod_eq_of_lt k1,
        show (UInt16.ofNat n').toNat = n' from Nat.mod_eq_of_lt k1'] at this
    subst e1
    have hn : (UInt16.ofNat n).toNat = n := Nat.mod_eq_of_lt k1
    rw [← hn] at f1 f1' e2
    obtain ⟨_, e4, e5⟩ := kdfLabel_inj f1 f1' e2
    exact .inr ⟨e4, e5, rfl, s, h1, h1'⟩
  · exact .inl ⟨_, _, o, .inr ⟨s, h1, rfl⟩, .inr ⟨s', h1', rfl⟩, hc, h2, h2'⟩

/-- Two equal secrets are put together in the same way, or two calls of the KDF collide. -/
theorem same_or_collide {h : Hpke} : ∀ (r r' : Recipe) {o : Bytes}, r.Yields h o → r'.Yields h o →
    Collide h r r' ∨ r.Same h r' := by
  intro r
  induction r with
  | given s =>
    intro r' o ha hb
    cases ha
    exact .inr hb
  | expand r l c n ih =>
    intro r' o ha hb
    cases r' with
    | given s => cases hb; exact .inr ha
    | expand r' l' c' n' =>
      rcases expand_back ha hb with hc | ⟨h1, h2, h3, s, h4, h5⟩
      · exact .inl hc
      · rcases ih r' h4 h5 with hc | hs
        · exact .inl (collide_expand hc)
        · exact .inr ⟨h1, h2, h3, hs⟩
    | extract a b =>
      obtain ⟨s, h1, _, _, h2⟩ := ha
      obtain ⟨x, y, h3, h4, h5⟩ := hb
      exact .inl ⟨_, _, o, .inr ⟨s, h1, rfl⟩, .inr (.inr ⟨x, y, h3, h4, rfl⟩), Call.noConfusion, h2, h5⟩
  | extract a b iha ihb =>
    intro r' o ha hb
    cases r' with
    | given s => cases hb; exact .inr ha
    | expand r' l' c' n' =>
      obtain ⟨s, h1, _, _, h2⟩ := hb
      obtain ⟨x, y, h3, h4, h5⟩ := ha
      exact .inl ⟨_, _, o, .inr (.inr ⟨x, y, h3, h4, rfl⟩), .inr ⟨s, h1, rfl⟩, Call.noConfusion, h5, h2⟩
    | extract a' b' =>
      obtain ⟨x, y, h3, h4, h5⟩ := ha
      obtain ⟨x', y', h3', h4', h5'⟩ := hb
      by_cases hc : Call.extract x y = .extract x' y'
      · injection hc with e1 e2
        subst e1 e2
        rcases iha a' h3 h3' with ⟨c, c', o, k1, k2, k3⟩ | h1
        · exact .inl ⟨c, c', o, .inl k1, .inl k2, k3⟩
        · rcases ihb b' h4 h4' with ⟨c, c', o, k1, k2, k3⟩ | h2
          · exact .inl ⟨c, c', o, .inr (.inl k1), .inr (.inl k2), k3⟩
          · exact .inr ⟨h1, h2⟩
      · exact .inl ⟨_, _, o, .inr (.inr ⟨x, y, h3, h4, rfl⟩), .inr (.inr ⟨x', y', h3', h4', rfl⟩), hc, h5, h5'⟩

/-! ### the code puts secrets together like that -/

theorem epochSecret_iff {P : CryptoProvider} {cs : CipherSuite} {h : Hpke} (hp : P.hpke cs = .ok h) (hs : Sizes h)
    {e : Epochs.Input} (he : e.ctx.cipher_suite = cs) {r : Recipe} {init : Bytes} (hr : r.Yields h init) (out : Bytes) :
    Epochs.epochSecret P init e = .ok out ↔ (groupContext e.ctx).fits ∧ (epochRecipe h r e).Yields h out := by
  have hp : P.hpke e.ctx.cipher_suite = .ok h := by rw [he]; exact hp
  unfold Epochs.epochSecret
  simp only [Res.bind_ok_iff, C32_joiner P e.ctx h hp hs, C32_epoch P e.ctx h hp hs]
  constructor
  · rintro ⟨j, ⟨hf, x, h1, h2⟩, _, y, h3, h4⟩
    exact ⟨hf, y, ⟨j, _, ⟨x, ⟨init, _, hr, rfl, h1⟩, h2⟩, rfl, h3⟩, h4⟩
  · rintro ⟨hf, y, ⟨j, _, ⟨x, ⟨i, _, hr', rfl, h1⟩, h2⟩, rfl, h3⟩, h4⟩
    cases yields_unique r hr hr'
    exact ⟨j, ⟨hf, x, h1, h2⟩, hf, y, h3, h4⟩

theorem run_append (P : CryptoProvider) (cs : CipherSuite) : ∀ (a b : List Epochs.Input) (init : Bytes),
    Epochs.run P cs init (a ++ b) = Epochs.run P cs init a >>= fun i => Epochs.run P cs i b := by
  intro a b
  induction a with
  | nil => intro init; rfl
  | cons e a ih =>
    intro init
    simp only [List.cons_append, Epochs.run, res_bind_assoc, ih]

theorem run_iff {P : CryptoProvider} {cs : CipherSuite} {h : Hpke} (hp : P.hpke cs = .ok h) (hs : Sizes h) (start : Bytes) :
    ∀ (before : List Epochs.Input), (∀ e ∈ before, e.ctx.cipher_suite = cs) → ∀ out,
      (Epochs.run P cs start before.reverse = .ok out ↔
        (∀ e ∈ before, (groupContext e.ctx).fits) ∧ (initRecipe h start before).Yields h out) := by
  intro before
  induction before with
  | nil =>
    intro _ out
    constructor
    · intro h; cases h; exact ⟨fun e he => absurd he List.not_mem_nil, rfl⟩
    · rintro ⟨_, h⟩; cases h; rfl
  | cons e b ih =>
    intro hb out
    have hb' : ∀ e ∈ b, e.ctx.cipher_suite = cs := fun x hx => hb x (List.mem_cons_of_mem _ hx)
    have hd : ∀ a o, P.derive_secret cs a SECRET_LABEL_INIT = .ok o ↔ Derives h a (text "init") o :=
      fun a o => (C32_derived P cs h hp hs a o).2.2.2.2.2.2.2.2
    rw [List.reverse_cons, run_append]
    simp only [Res.bind_ok_iff, ih hb', Epochs.run]
    constructor
    · rintro ⟨i, ⟨hf, hi⟩, s, h1, o, h2, h3⟩
      cases h3
      obtain ⟨he, h1⟩ := (epochSecret_iff hp hs (hb e List.mem_cons_self) hi s).1 h1
      refine ⟨fun x hx => ?_, s, h1, (hd s out).1 h2⟩
      rcases List.mem_cons.1 hx with rfl | hx
      · exact he
      · exact hf x hx
    · rintro ⟨hf, s, h1, h2⟩
      obtain ⟨_, ⟨_, _, ⟨_, ⟨i, _, hi, _⟩, _⟩, _⟩, _⟩ := id h1
      exact ⟨i, ⟨fun x hx => hf x (List.mem_cons_of_mem _ hx), hi⟩, s,
        (epochSecret_iff hp hs (hb e List.mem_cons_self) hi s).2 ⟨hf e List.mem_cons_self, h1⟩, out, (hd s out).2 h2, rfl⟩

theorem nodeRecipe_of {h : Hpke} {enc : Recipe} {es : Bytes} {K : Nat} (he : enc.Yields h es) :
    ∀ {k i s}, NodeSecret h es K k i s → k ≤ K ∧ (nodeRecipe h enc (K - k) i).Yields h s := by
  intro k i s hn
  induction hn with
  | root => exact ⟨Nat.le_refl _, by rw [Nat.sub_self]; exact he⟩
  | @left k i s out _ hx ih =>
    obtain ⟨hk, ih⟩ := ih
    rw [show K - k = (K - (k + 1)) + 1 by omega]
    refine ⟨by omega, s, ?_, ?_⟩
    · rw [show 2 * i / 2 = i by omega]; exact ih
    · rw [if_pos (by omega)]; exact hx
  | @right k i s out _ hx ih =>
    obtain ⟨hk, ih⟩ := ih
    rw [show K - k = (K - (k + 1)) + 1 by omega]
    refine ⟨by omega, s, ?_, ?_⟩
    · rw [show (2 * i + 1) / 2 = i by omega]; exact ih
    · rw [if_neg (by omega)]; exact hx

theorem generationRecipe_of {h : Hpke} {r : Recipe} {root : Bytes} (hr : r.Yields h root) :
    ∀ {n s}, GenerationSecret h root n s → (generationRecipe h r n).Yields h s := by
  intro n s hg
  induction hg with
  | first => exact hr
  | next _ ht ih => exact ⟨_, ih, ht.2⟩

theorem messageRecipe_of {h : Hpke} {enc : Recipe} {es : Bytes} (he : enc.Yields h es) {K li : Nat} {ct : ContentType}
    {g : Nat} {s : Bytes} (hm : MessageSecret h es K li ct g s) : (messageRecipe h enc K li ct g).Yields h s := by
  obtain ⟨leaf, root, h1, h2, h3⟩ := hm
  exact generationRecipe_of (r := expand (nodeRecipe h enc K li) (ratchetName ct) [] h.kdf_extract_size)
    ⟨leaf, (nodeRecipe_of he h1).2, h2⟩ h3

/-! ### what it means to be put together in the same way -/

theorem epoch_same {h : Hpke} {start : Bytes} {b b' : List Epochs.Input} {start' : Bytes} {e e' : Epochs.Input}
    (f : (groupContext e.ctx).fits) (f' : (groupContext e'.ctx).fits) (hc : ContextCanonical e.ctx)
    (hc' : ContextCanonical e'.ctx)
    (hs : (epochRecipe h (initRecipe h start b) e).Same h (epochRecipe h (initRecipe h start' b') e')) :
    SameEpoch h e e' ∧ (initRecipe h start b).Same h (initRecipe h start' b') := by
  obtain ⟨_, h1, _, ⟨_, _, _, h2, h3⟩, h4⟩ := hs
  exact ⟨⟨groupContext_pf.eq hc hc' f f' h1, h3, h4⟩, h2⟩

theorem sameEpoch_symm {h : Hpke} {e e' : Epochs.Input} (hs : SameEpoch h e e') : SameEpoch h e' e :=
  ⟨hs.1.symm, hs.2.1.symm, hs.2.2.symm⟩

theorem init_same {h : Hpke} {start start' : Bytes} : ∀ (b b' : List Epochs.Input),
    (∀ e ∈ b, (groupContext e.ctx).fits ∧ ContextCanonical e.ctx) →
    (∀ e ∈ b', (groupContext e.ctx).fits ∧ ContextCanonical e.ctx) →
    (initRecipe h start b).Same h (initRecipe h start' b') →
    Continues h start b start' b' ∨ Continues h start' b' start b := by
  intro b
  induction b with
  | nil => intro b' _ _ hs; exact .inl ⟨[], b', rfl, trivial, hs⟩
  | cons e b ih =>
    intro b' hb hb' hs
    cases b' with
    | nil => exact .inr ⟨[], e :: b, rfl, trivial, hs⟩
    | cons e' b' =>
      obtain ⟨_, _, _, hs⟩ := hs
      obtain ⟨h1, h2⟩ := epoch_same (hb e List.mem_cons_self).1 (hb' e' List.mem_cons_self).1
        (hb e List.mem_cons_self).2 (hb' e' List.mem_cons_self).2 hs
      rcases ih b' (fun x hx => hb x (List.mem_cons_of_mem _ hx)) (fun x hx => hb' x (List.mem_cons_of_mem _ hx)) h2 with
        ⟨l, r, rfl, k1, k2⟩ | ⟨l, r, rfl, k1, k2⟩
      · exact .inl ⟨e' :: l, r, rfl, ⟨h1, k1⟩, k2⟩
      · exact .inr ⟨e :: l, r, rfl, ⟨sameEpoch_symm h1, k1⟩, k2⟩

theorem sameEpochs_length {h : Hpke} : ∀ {a b : List Epochs.Input}, SameEpochs h a b → a.length = b.length := by
  intro a
  induction a with
  | nil => intro b hs; cases b with | nil => rfl | cons _ _ => cases hs
  | cons x a ih =>
    intro b hs
    cases b with
    | nil => cases hs
    | cons y b => simp only [List.length_cons, ih hs.2]

theorem sameEpochs_append {h : Hpke} : ∀ {a a' b b' : List Epochs.Input}, SameEpochs h a a' → SameEpochs h b b' →
    SameEpochs h (a ++ b) (a' ++ b') := by
  intro a
  induction a with
  | nil => intro a' b b' h1 h2; cases a' with | nil => exact h2 | cons _ _ => cases h1
  | cons x a ih =>
    intro a' b b' h1 h2
    cases a' with
    | nil => cases h1
    | cons y a' => exact ⟨h1.1, ih h1.2 h2⟩

theorem sameEpochs_reverse {h : Hpke} : ∀ {a b : List Epochs.Input}, SameEpochs h a b →
    SameEpochs h a.reverse b.reverse := by
  intro a
  induction a with
  | nil => intro b hs; cases b with | nil => trivial | cons _ _ => cases hs
  | cons x a ih =>
    intro b hs
    cases b with
    | nil => cases hs
    | cons y b =>
      rw [List.reverse_cons, List.reverse_cons]
      exact sameEpochs_append (ih hs.2) ⟨hs.1, trivial⟩

theorem continues_iff {P : CryptoProvider} {cs : CipherSuite} {h : Hpke} (hp : P.hpke cs = .ok h) (hs : Sizes h)
    {start start' : Bytes} {b b' : List Epochs.Input} (hb' : ∀ e ∈ b', e.ctx.cipher_suite = cs ∧ (groupContext e.ctx).fits)
    (hc : Continues h start b.reverse start' b'.reverse) : GoesOn P cs h start b start' b' := by
  obtain ⟨later, earlier, h1, h2, h3⟩ := hc
  have e1 : b' = earlier.reverse ++ later.reverse := by
    rw [← List.reverse_reverse b', h1, List.reverse_append]
  have hmem : ∀ e ∈ earlier, e ∈ b' := fun e he => by rw [e1]; simp [he]
  refine ⟨earlier.reverse, later.reverse, e1, ?_, ?_⟩
  · have := sameEpochs_reverse h2
    rwa [List.reverse_reverse] at this
  · exact (run_iff hp hs start' earlier (fun e he => (hb' e (hmem e he)).1) start).2
      ⟨fun e he => (hb' e (hmem e he)).2, h3⟩

theorem generation_same {h : Hpke} {r r' : Recipe} : ∀ n, (generationRecipe h r n).Same h (generationRecipe h r' n) →
    r.Same h r' := by
  intro n
  induction n with
  | zero => exact id
  | succ n ih => intro hs; exact ih hs.2.2.2

theorem node_same {h : Hpke} {r r' : Recipe} {n n' : Nat} : ∀ {d d' i i' : Nat}, i < 2 ^ d → i' < 2 ^ d' →
    (nodeRecipe h (expand r (text "encryption") [] n) d i).Same h
      (nodeRecipe h (expand r' (text "encryption") [] n') d' i') →
    d = d' ∧ i = i' ∧ r.Same h r' := by
  intro d
  induction d with
  | zero =>
    intro d' i i' hi hi' hs
    cases d' with
    | zero =>
      simp only [Nat.pow_zero, Nat.lt_one_iff] at hi hi'
      exact ⟨rfl, by omega, hs.2.2.2⟩
    | succ d' => exact absurd hs.1 (by decide)
  | succ d ih =>
    intro d' i i' hi hi' hs
    cases d' with
    | zero => exact absurd hs.1 (by decide)
    | succ d' =>
      obtain ⟨_, h1, _, h2⟩ := hs
      rw [Nat.pow_succ] at hi hi'
      obtain ⟨e1, e2, e3⟩ := ih (by omega) (by omega) h2
      refine ⟨by rw [e1], ?_, e3⟩
      have hp : i % 2 = i' % 2 := by
        by_cases a : i % 2 = 0 <;> by_cases b : i' % 2 = 0
        · omega
        · rw [if_pos a, if_neg b] at h1; exact absurd h1 (by decide)
        · rw [if_neg a, if_pos b] at h1; exact absurd h1 (by decide)
        · omega
      omega

theorem uint4_inj {a b : Nat} (ha : a < 2 ^ 32) (hb : b < 2 ^ 32) (h : (uint 4 a).bytes = (uint 4 b).bytes) : a = b := by
  have e1 : (UInt32.ofNat a).toNat = a := Nat.mod_eq_of_lt ha
  have e2 : (UInt32.ofNat b).toNat = b := Nat.mod_eq_of_lt hb
  rw [← e1, ← e2] at h
  have := u32_pf.eq trivial trivial trivial trivial h
  rw [← e1, ← e2, this]

theorem ratchetName_inj {a b : ContentType} (h : ratchetName a = ratchetName b) :
    a = .Application ↔ b = .Application := by
  revert h
  cases a <;> cases b <;> decide

theorem guarded_inj : ∀ {n a b : Bytes}, a.length = b.length → a.length ≤ n.length → b.length ≤ n.length →
    guarded n a = guarded n b → a = b
  | _, [], [], _, _, _, _ => rfl
  | x :: n, y :: a, z :: b, h1, h2, h3, h => by
    simp only [List.length_cons, Nat.add_right_cancel_iff, Nat.add_le_add_iff_right] at h1 h2 h3
    simp only [guarded, List.zipWith_cons_cons, List.cons_append, List.length_cons, List.drop_succ_cons, List.cons.injEq] at h
    have := congrArg (fun v => x ^^^ v) h.1
    rw [guarded_inj (n := n) h1 h2 h3 h.2, show y = z by simpa [← UInt8.xor_assoc] using this]

/-! ## C73 -/

/-- C73: if two groups, or two members, end with the same epoch secret, then the last epoch has the same context, commit
secret and PSK secret for both, and so has every epoch before, back to the point at which one of them has started with the
init secret the other had; or two calls of the KDF that they made collide. -/
theorem C73_history (P : CryptoProvider) (cs : CipherSuite) (h : Hpke) (hp : P.hpke cs = .ok h) (hs : Sizes h)
    (start start' : Bytes) (hist hist' : List Epochs.Input) (e e' : Epochs.Input)
    (hc : ∀ x ∈ e :: hist, x.ctx.cipher_suite = cs ∧ ContextCanonical x.ctx)
    (hc' : ∀ x ∈ e' :: hist', x.ctx.cipher_suite = cs ∧ ContextCanonical x.ctx) (i i' s : Bytes)
    (h1 : Epochs.run P cs start hist = .ok i) (h2 : Epochs.epochSecret P i e = .ok s)
    (h1' : Epochs.run P cs start' hist' = .ok i') (h2' : Epochs.epochSecret P i' e' = .ok s) :
    Collide h (epochRecipe h (initRecipe h start hist.reverse) e) (epochRecipe h (initRecipe h start' hist'.reverse) e') ∨
    SameEpoch h e e' ∧ (GoesOn P cs h start hist start' hist' ∨ GoesOn P cs h start' hist' start hist) := by
  have m : ∀ x ∈ hist.reverse, x ∈ e :: hist := fun x hx => List.mem_cons_of_mem _ (List.mem_reverse.1 hx)
  have m' : ∀ x ∈ hist'.reverse, x ∈ e' :: hist' := fun x hx => List.mem_cons_of_mem _ (List.mem_reverse.1 hx)
  rw [← List.reverse_reverse hist, run_iff hp hs start _ fun x hx => (hc x (m x hx)).1] at h1
  rw [← List.reverse_reverse hist', run_iff hp hs start' _ fun x hx => (hc' x (m' x hx)).1] at h1'
  rw [epochSecret_iff hp hs (hc e List.mem_cons_self).1 h1.2] at h2
  rw [epochSecret_iff hp hs (hc' e' List.mem_cons_self).1 h1'.2] at h2'
  rcases same_or_collide _ _ h2.2 h2'.2 with hx | hx
  · exact .inl hx
  · obtain ⟨k1, k2⟩ := epoch_same h2.1 h2'.1 (hc e List.mem_cons_self).2 (hc' e' List.mem_cons_self).2 hx
    refine .inr ⟨k1, ?_⟩
    rcases init_same _ _ (fun x hx => ⟨h1.1 x hx, (hc x (m x hx)).2⟩) (fun x hx => ⟨h1'.1 x hx, (hc' x (m' x hx)).2⟩) k2 with
      k | k
    · exact .inl (continues_iff hp hs (fun x hx => ⟨(hc' x (List.mem_cons_of_mem _ hx)).1,
        h1'.1 x (List.mem_reverse.2 hx)⟩) k)
    · exact .inr (continues_iff hp hs (fun x hx => ⟨(hc x (List.mem_cons_of_mem _ hx)).1,
        h1.1 x (List.mem_reverse.2 hx)⟩) k)

theorem goesOn_length {P : CryptoProvider} {cs : CipherSuite} {h : Hpke} {start start' : Bytes} {b b' : List Epochs.Input}
    (hl : b.length = b'.length) (hg : GoesOn P cs h start b start' b') : start = start' ∧ SameEpochs h b b' := by
  obtain ⟨earlier, later, rfl, h1, h2⟩ := hg
  have := sameEpochs_length h1
  rw [List.length_append] at hl
  obtain rfl : earlier = [] := List.eq_nil_of_length_eq_zero (by omega)
  cases h2
  exact ⟨rfl, h1⟩

/-- C73: after the same number of epochs, the same epoch secret means the same start and the same epochs. -/
theorem C73_same_length (P : CryptoProvider) (cs : CipherSuite) (h : Hpke) (hp : P.hpke cs = .ok h) (hs : Sizes h)
    (start start' : Bytes) (hist hist' : List Epochs.Input) (hl : hist.length = hist'.length) (e e' : Epochs.Input)
    (hc : ∀ x ∈ e :: hist, x.ctx.cipher_suite = cs ∧ ContextCanonical x.ctx)
    (hc' : ∀ x ∈ e' :: hist', x.ctx.cipher_suite = cs ∧ ContextCanonical x.ctx) (i i' s : Bytes)
    (h1 : Epochs.run P cs start hist = .ok i) (h2 : Epochs.epochSecret P i e = .ok s)
    (h1' : Epochs.run P cs start' hist' = .ok i') (h2' : Epochs.epochSecret P i' e' = .ok s) :
    Collide h (epochRecipe h (initRecipe h start hist.reverse) e) (epochRecipe h (initRecipe h start' hist'.reverse) e') ∨
    start = start' ∧ SameEpochs h (hist ++ [e]) (hist' ++ [e']) := by
  have hsym : ∀ {a b}, SameEpochs h a b → SameEpochs h b a := by
    intro a
    induction a with
    | nil => intro b hs; cases b with | nil => trivial | cons _ _ => cases hs
    | cons x a ih => intro b hs; cases b with | nil => cases hs | cons y b => exact ⟨sameEpoch_symm hs.1, ih hs.2⟩
  rcases C73_history P cs h hp hs start start' hist hist' e e' hc hc' i i' s h1 h2 h1' h2' with hx | ⟨k1, k2⟩
  · exact .inl hx
  · refine .inr ?_
    rcases k2 with k | k
    · obtain ⟨a, b⟩ := goesOn_length hl k
      exact ⟨a, sameEpochs_append b ⟨k1, trivial⟩⟩
    · obtain ⟨a, b⟩ := goesOn_length hl.symm k
      exact ⟨a.symm, sameEpochs_append (hsym b) ⟨k1, trivial⟩⟩

/-- C73: members who start alike and see the same epochs have the same secrets, however their empty PSK secret is written. -/
theorem C73_agree (P : CryptoProvider) (cs : CipherSuite) (h : Hpke) (hp : P.hpke cs = .ok h) (hs : Sizes h) (start : Bytes)
    (hist hist' : List Epochs.Input) (hc : ∀ x ∈ hist, x.ctx.cipher_suite = cs) (he : SameEpochs h hist hist') :
    ∀ i, Epochs.run P cs start hist = .ok i → Epochs.run P cs start hist' = .ok i := by
  induction hist generalizing start hist' with
  | nil => cases hist' with | nil => exact fun _ h => h | cons _ _ => cases he
  | cons x hist ih =>
    cases hist' with
    | nil => cases he
    | cons y hist' =>
      intro i hr
      unfold Epochs.run at hr ⊢
      simp only [Res.bind_ok_iff] at hr ⊢
      obtain ⟨s, h1, j, h2, h3⟩ := hr
      have hx := hc x List.mem_cons_self
      have hy : y.ctx.cipher_suite = cs := by rw [← he.1.1]; exact hx
      rw [epochSecret_iff hp hs hx (r := given start) rfl] at h1
      refine ⟨s, (epochSecret_iff hp hs hy (r := given start) rfl s).2 ?_, j, h2,
        ih j hist' (fun z hz => hc z (List.mem_cons_of_mem _ hz)) he.2 i h3⟩
      obtain ⟨⟨e1, e2, e3⟩, _⟩ := he
      unfold epochRecipe at h1 ⊢
      rwa [← e1, ← e2, ← e3]

/-! ## C72 -/

/-- C72: the content of a message is sealed with the key and the nonce of the sender's leaf, the kind of content, the
generation and the guard. -/
theorem C72_used (P : CryptoProvider) (cs : CipherSuite) (h : Hpke) (hp : P.hpke cs = .ok h) (hs : Sizes h) (ctx : GroupContext)
    (n : Nat) (es sds : Bytes) (li : LeafIndex) (g : UInt32) (rnd priv : Bytes) (epoch : UInt64) (gid : GroupID) (c : Content)
    (m : PrivateMessage) (hm : send P cs ctx n es sds li g rnd priv epoch gid c = .ok m) :
    ∃ key nonce sg, messageKeys P cs n es li.toNat c.content_type g rnd = .ok (key, nonce) ∧
      h.aead_seal key nonce (privateMessageContent ⟨c, ⟨sg, []⟩⟩).bytes
        (privateContentAAD ⟨gid, epoch, c.content_type, []⟩).bytes = .ok m.ciphertext := by
  unfold send at hm
  simp only [Res.bind_ok_iff] at hm
  obtain ⟨r, h1, y, h2, h3⟩ := hm
  obtain ⟨_, ⟨sg, _, _, key, nonce, k1, _, _, k2⟩, _⟩ := (C38_built P cs h hp hs priv y sds _ _ ctx m).1 h3
  refine ⟨key, nonce, sg, ?_, k2⟩
  unfold messageKeys
  rw [h1, Res.ok_bind, h2, Res.ok_bind, content_keys_iff hp hs]
  exact k1

/-- C72: two messages, of whatever groups and epochs, whose content is sealed with the same key are messages of the same
epoch (same group context, and the same history as far as both have seen it), in trees of the same size, by the same leaf, of
the same kind and in the same generation; if the nonce is the same as well, so is the reuse guard.  Otherwise two calls of the
KDF collide that were made to derive the keys. -/
theorem C72_unique (P : CryptoProvider) (cs : CipherSuite) (h : Hpke) (hp : P.hpke cs = .ok h) (hs : Sizes h)
    (start start' : Bytes) (hist hist' : List Epochs.Input) (e e' : Epochs.Input)
    (hc : ∀ x ∈ e :: hist, x.ctx.cipher_suite = cs ∧ ContextCanonical x.ctx)
    (hc' : ∀ x ∈ e' :: hist', x.ctx.cipher_suite = cs ∧ ContextCanonical x.ctx) (i i' s s' es es' : Bytes)
    (h1 : Epochs.run P cs start hist = .ok i) (h2 : Epochs.epochSecret P i e = .ok s)
    (h3 : P.derive_secret cs s SECRET_LABEL_ENCRYPTION = .ok es)
    (h1' : Epochs.run P cs start' hist' = .ok i') (h2' : Epochs.epochSecret P i' e' = .ok s')
    (h3' : P.derive_secret cs s' SECRET_LABEL_ENCRYPTION = .ok es')
    (K K' li li' : Nat) (hK : K ≤ 31) (hK' : K' ≤ 31) (hli : li < 2 ^ K) (hli' : li' < 2 ^ K') (ct ct' : ContentType)
    (g g' : UInt32) (guard guard' : Bytes) (hg : guard.length = 4) (hg' : guard'.length = 4) (key nonce nonce' : Bytes)
    (hk : messageKeys P cs (2 ^ K) es li ct g guard = .ok (key, nonce))
    (hk' : messageKeys P cs (2 ^ K') es' li' ct' g' guard' = .ok (key, nonce')) :
    Collide h (keyRecipe h (encryptionRecipe h start hist.reverse e) K li ct g.toNat)
      (keyRecipe h (encryptionRecipe h start' hist'.reverse e') K' li' ct' g'.toNat) ∨
    SameEpoch h e e' ∧ (GoesOn P cs h start hist start' hist' ∨ GoesOn P cs h start' hist' start hist) ∧
      K = K' ∧ li = li' ∧ (ct = .Application ↔ ct' = .Application) ∧ g = g' ∧ (nonce = nonce' → guard = guard') := by
  have m : ∀ x ∈ hist.reverse, x ∈ e :: hist := fun x hx => List.mem_cons_of_mem _ (List.mem_reverse.1 hx)
  have m' : ∀ x ∈ hist'.reverse, x ∈ e' :: hist' := fun x hx => List.mem_cons_of_mem _ (List.mem_reverse.1 hx)
  rw [← List.reverse_reverse hist, run_iff hp hs start _ fun x hx => (hc x (m x hx)).1] at h1
  rw [← List.reverse_reverse hist', run_iff hp hs start' _ fun x hx => (hc' x (m' x hx)).1] at h1'
  rw [epochSecret_iff hp hs (hc e List.mem_cons_self).1 h1.2] at h2
  rw [epochSecret_iff hp hs (hc' e' List.mem_cons_self).1 h1'.2] at h2'
  rw [(C32_derived P cs h hp hs _ _).2.1] at h3 h3'
  have y : (encryptionRecipe h start hist.reverse e).Yields h es := ⟨s, h2.2, h3⟩
  have y' : (encryptionRecipe h start' hist'.reverse e').Yields h es' := ⟨s', h2'.2, h3'⟩
  have keys : ∀ {K li es ct guard g key nonce}, K ≤ 31 → li < 2 ^ K →
      messageKeys P cs (2 ^ K) es li ct g guard = .ok (key, nonce) → ∃ x, MessageSecret h es K li ct g.toNat x ∧
        ContentKeys h x g.toNat guard key nonce := by
    intro K li es ct guard g key nonce hK hli hk
    unfold messageKeys at hk
    simp only [Res.bind_ok_iff] at hk
    obtain ⟨r, k1, z, k2, k3⟩ := hk
    have ht : ∃ t, SecretTree.new P cs (2 ^ K) es = .ok t := by
      unfold ratchetRoot at k1
      obtain ⟨t, ht, _⟩ := Res.bind_ok_iff.1 k1
      exact ⟨t, ht⟩
    obtain ⟨t, ht⟩ := ht
    obtain ⟨k4, k5⟩ := (root_seek_iff hp hs hK ht hli ct g z).1 (Res.bind_ok_iff.2 ⟨r, k1, k2⟩)
    rw [content_keys_iff hp hs, k4] at k3
    exact ⟨z.secret, k5, k3⟩
  obtain ⟨x, k1, ⟨kg, k2⟩, n, ⟨_, k3⟩, k4, rfl⟩ := keys hK hli hk
  obtain ⟨x', k1', ⟨kg', k2'⟩, n', ⟨_, k3'⟩, k4', rfl⟩ := keys hK' hli' hk'
  have z : (keyRecipe h (encryptionRecipe h start hist.reverse e) K li ct g.toNat).Yields h key :=
    ⟨x, messageRecipe_of y k1, k2⟩
  have z' : (keyRecipe h (encryptionRecipe h start' hist'.reverse e') K' li' ct' g'.toNat).Yields h key :=
    ⟨x', messageRecipe_of y' k1', k2'⟩
  rcases expand_back z z' with hx | ⟨_, c1, _, w, w1, w2⟩
  · exact .inl hx
  rcases same_or_collide _ _ w1 w2 with hx | c2
  · exact .inl (collide_expand hx)
  cases yields_unique _ w1 (messageRecipe_of y k1)
  cases yields_unique _ w2 (messageRecipe_of y' k1')
  have hgg : g = g' := UInt32.toNat_inj.1 (uint4_inj kg kg' c1)
  subst hgg
  cases k3.2.2.symm.trans k3'.2.2
  obtain ⟨c3, _, _, c4⟩ := generation_same _ c2
  obtain ⟨rfl, rfl, c5⟩ := node_same hli hli' c4
  obtain ⟨e1, e2⟩ := epoch_same h2.1 h2'.1 (hc e List.mem_cons_self).2 (hc' e' List.mem_cons_self).2 c5
  refine .inr ⟨e1, ?_, rfl, rfl, ratchetName_inj c3, rfl, fun hn => ?_⟩
  · rcases init_same _ _ (fun x hx => ⟨h1.1 x hx, (hc x (m x hx)).2⟩) (fun x hx => ⟨h1'.1 x hx, (hc' x (m' x hx)).2⟩) e2 with
      k | k
    · exact .inl (continues_iff hp hs (fun x hx => ⟨(hc' x (List.mem_cons_of_mem _ hx)).1,
        h1'.1 x (List.mem_reverse.2 hx)⟩) k)
    · exact .inr (continues_iff hp hs (fun x hx => ⟨(hc x (List.mem_cons_of_mem _ hx)).1,
        h1.1 x (List.mem_reverse.2 hx)⟩) k)
  · exact guarded_inj (by omega) k4 k4' hn

section examples

private abbrev suite1 : CipherSuite := .MLS_128_DHKEMX25519_AES128GCM_SHA256_Ed25519

/-- A string that ends where it says. -/
def closed : Bytes → Bytes
  | [] => [0]
  | x :: b => 1 :: x :: closed b

/-- A KDF in whose output the whole input is found: no two calls collide. -/
def freeHpke : Hpke :=
  { toyHpke with
    kdf_expand := fun s info n => .ok (1 :: n.toNat.toUInt8 :: (n.toNat / 256).toUInt8 :: closed info ++ s)
    kdf_extract := fun ikm salt => .ok (2 :: closed ikm ++ salt) }

theorem free_expander : Expander freeHpke where
  expands _ _ _ _ _ := ⟨_, rfl⟩
  long _ info _ h := by
    cases h
    have : 0 < (closed info).length := by cases info <;> simp [closed]
    simp only [List.length_cons, List.length_append]
    exact (show 4 ≤ _ by omega)

theorem free_extractor : Extractor freeHpke where
  extracts _ _ := ⟨_, rfl⟩
  long _ _ _ hl h := by
    cases h
    simp only [List.length_cons, List.length_append]
    omega

def freeProvider : CryptoProvider := { toyProvider with hpke := fun _ => .ok freeHpke }

theorem closed_inj : ∀ {a b x y : Bytes}, closed a ++ x = closed b ++ y → a = b ∧ x = y
  | [], [], _, _, h => by simpa [closed] using h
  | [], _ :: _, _, _, h => by simp [closed] at h
  | _ :: _, [], _, _, h => by simp [closed] at h
  | u :: a, v :: b, x, y, h => by
    simp only [closed, List.cons_append, List.cons.injEq, true_and] at h
    obtain ⟨e1, e2⟩ := closed_inj h.2
    exact ⟨by rw [h.1, e1], e2⟩

/-- No two calls of this KDF have the same output. -/
theorem free_call_inj {c c' : Call} {o : Bytes} (h1 : c.Gives freeHpke o) (h2 : c'.Gives freeHpke o) : c = c' := by
  cases c with
  | expand s i n =>
    cases c' with
    | expand s' i' n' =>
      have := Res.ok.inj (Eq.trans h1 (Eq.symm h2))
      simp only [List.cons_append, List.cons.injEq, true_and] at this
      obtain ⟨e1, e2, e3⟩ := this
      obtain ⟨rfl, rfl⟩ := closed_inj e3
      have l1 := n.toNat_lt
      have l2 := n'.toNat_lt
      have m1 : n.toNat % 256 = n'.toNat % 256 := congrArg UInt8.toNat e1
      have m2 : n.toNat / 256 % 256 = n'.toNat / 256 % 256 := congrArg UInt8.toNat e2
      obtain rfl : n = n' := UInt16.toNat_inj.1 (by omega)
      rfl
    | extract s' i' => have := Res.ok.inj (Eq.trans h1 (Eq.symm h2)); simp at this
  | extract s i =>
    cases c' with
    | expand s' i' n' => have := Res.ok.inj (Eq.trans h1 (Eq.symm h2)); simp at this
    | extract s' i' =>
      have := Res.ok.inj (Eq.trans h1 (Eq.symm h2))
      simp only [List.cons_append, List.cons.injEq, true_and] at this
      obtain ⟨rfl, rfl⟩ := closed_inj this
      rfl

/-- Nothing collides with this KDF, so that C72 and C73 rule out everything else. -/
theorem free_collide (r r' : Recipe) : ¬ Collide freeHpke r r' := by
  rintro ⟨c, c', o, _, _, hne, h1, h2⟩
  exact hne (free_call_inj h1 h2)

private theorem free_sizes : Sizes freeHpke := ⟨by decide, by decide, by decide⟩

private def ep (n : UInt64) (commit : Bytes) : Epochs.Input := ⟨{ toyContext with epoch := n }, commit, []⟩

private theorem ep_ok (n : UInt64) (commit : Bytes) :
    (ep n commit).ctx.cipher_suite = suite1 ∧ ContextCanonical (ep n commit).ctx :=
  ⟨rfl, trivial, trivial, by simp [ep, toyContext, Extensions.WF]⟩

set_option maxRecDepth 100000 in
/-- The founder has seen epochs 0, 1 and 2; a member who has come in with the second has started with the init secret of the
first.  They have the same epoch secret. -/
example : ∃ start i i' s, Epochs.run freeProvider suite1 [9] [ep 0 [1]] = .ok start ∧
    Epochs.run freeProvider suite1 [9] [ep 0 [1], ep 1 [2]] = .ok i ∧ Epochs.epochSecret freeProvider i (ep 2 [3]) = .ok s ∧
    Epochs.run freeProvider suite1 start [ep 1 [2]] = .ok i' ∧ Epochs.epochSecret freeProvider i' (ep 2 [3]) = .ok s ∧
    GoesOn freeProvider suite1 freeHpke start [ep 1 [2]] [9] [ep 0 [1], ep 1 [2]] :=
  ⟨_, _, _, _, rfl, rfl, rfl, rfl, rfl, [ep 0 [1]], [ep 1 [2]], rfl, ⟨⟨rfl, rfl, rfl⟩, trivial⟩, rfl⟩

set_option maxRecDepth 100000 in
/-- Another commit secret in the epoch before gives another epoch secret. -/
example (i i' s s' : Bytes) (h1 : Epochs.run freeProvider suite1 [9] [ep 0 [1]] = .ok i)
    (h2 : Epochs.epochSecret freeProvider i (ep 1 [3]) = .ok s)
    (h1' : Epochs.run freeProvider suite1 [9] [ep 0 [2]] = .ok i')
    (h2' : Epochs.epochSecret freeProvider i' (ep 1 [3]) = .ok s') : s ≠ s' := by
  rintro rfl
  rcases C73_same_length freeProvider suite1 freeHpke rfl free_sizes [9] [9] [ep 0 [1]] [ep 0 [2]] rfl (ep 1 [3]) (ep 1 [3])
    (by simp [ep_ok]) (by simp [ep_ok]) i i' s h1 h2 h1' h2' with hc | ⟨_, ⟨_, hx, _⟩, _⟩
  · exact free_collide _ _ hc
  · exact absurd hx (by decide)

set_option maxRecDepth 100000 in
/-- The third of four members has a key for application data in generation 2, and a nonce for it. -/
example : ∃ i s es k, Epochs.run freeProvider suite1 [9] [ep 0 [1]] = .ok i ∧
    Epochs.epochSecret freeProvider i (ep 1 [3]) = .ok s ∧
    freeProvider.derive_secret suite1 s SECRET_LABEL_ENCRYPTION = .ok es ∧
    messageKeys freeProvider suite1 (2 ^ 2) es 2 .Application 2 [1, 2, 3, 4] = .ok k := by
  have h1 : (Epochs.run freeProvider suite1 [9] [ep 0 [1]] >>= fun i => Epochs.epochSecret freeProvider i (ep 1 [3]) >>= fun s =>
      freeProvider.derive_secret suite1 s SECRET_LABEL_ENCRYPTION >>= fun es =>
      messageKeys freeProvider suite1 (2 ^ 2) es 2 .Application 2 [1, 2, 3, 4]).isOk = .ok true := by decide +kernel
  obtain ⟨k, hk⟩ := isOk_true.1 h1
  simp only [Res.bind_ok_iff] at hk
  obtain ⟨i, k1, s, k2, es, k3, k4⟩ := hk
  exact ⟨i, s, es, k, k1, k2, k3, k4⟩

end examples
end Rmls
