import Verif.Spec.Secrecy
import Verif.Props.Derivation
/-
Properties C76 (old message keys cannot be recomputed) and C77 (a new epoch locks out who does not have the commit secret).
-/
namespace Rmls
open Spec Spec.Enc Spec.Recipe MessageProtection

/-! ### what one has to know -/

/-- The secret is lost: it is known, or what it is put together from is lost.  For the secrets everything starts with, `lost`
says whether they are. -/
def _root_.Rmls.Spec.Recipe.Exposed (h : Hpke) (known lost : Bytes → Prop) : Recipe → Prop
  | given s => lost s
  | expand r label context n => (∃ o, (expand r label context n).Yields h o ∧ known o) ∨ r.Exposed h known lost
  | extract a b => (∃ o, (extract a b).Yields h o ∧ known o) ∨ a.Exposed h known lost ∧ b.Exposed h known lost

theorem hit_mono {h : Hpke} {cs cs' : List Call} {r r' : Recipe} (hc : ∀ c ∈ cs, c ∈ cs') (hr : ∀ c, r.Calls h c → r'.Calls h c)
    (hh : Hit h cs r) : Hit h cs' r' := by
  obtain ⟨c, h1, c', o, h2, h3⟩ := hh
  exact ⟨c, hc c h1, c', o, hr c' h2, h3⟩

/-- Who computes a secret knows enough to put it together, or has found a collision with one of the calls that are made for
it. -/
theorem exposed_or_hit {h : Hpke} {known : Bytes → Prop} : ∀ (r : Recipe) {o : Bytes} {cs : List Call}, r.Yields h o →
    Computes h known cs o → r.Exposed h known (Computable h known) ∨ Hit h cs r := by
  intro r
  induction r with
  | given s => intro o cs hy hc; cases hy; exact .inl ⟨cs, hc⟩
  | expand r l c n ih =>
    intro o cs hy hc
    cases hc with
    | known hk => exact .inl (.inl ⟨o, hy, hk⟩)
    | @expand calls s _ info n' h1 h2 =>
      obtain ⟨s', k1, k2, k3, k4⟩ := hy
      by_cases he : Call.expand s info n' = .expand s' (kdfLabel n l c).bytes (UInt16.ofNat n)
      · injection he with e1
        subst e1
        rcases ih k1 h1 with hx | hx
        · exact .inl (.inr hx)
        · exact .inr (hit_mono (fun c hc => List.mem_cons_of_mem _ hc) (fun c hc => .inl hc) hx)
      · exact .inr ⟨_, List.mem_cons_self, _, o, .inr ⟨s', k1, rfl⟩, he, h2, k4⟩
    | @extract calls calls' salt ikm _ h1 h2 h3 =>
      obtain ⟨s', k1, k2, k3, k4⟩ := hy
      exact .inr ⟨_, List.mem_cons_self, _, o, .inr ⟨s', k1, rfl⟩, Call.noConfusion, h3, k4⟩
  | extract a b iha ihb =>
    intro o cs hy hc
    cases hc with
    | known hk => exact .inl (.inl ⟨o, hy, hk⟩)
    | @expand calls s _ info n' h1 h2 =>
      obtain ⟨x, y, k1, k2, k3⟩ := hy
      exact .inr ⟨_, List.mem_cons_self, _, o, .inr (.inr ⟨x, y, k1, k2, rfl⟩), Call.noConfusion, h2, k3⟩
    | @extract calls calls' salt ikm _ h1 h2 h3 =>
      obtain ⟨x, y, k1, k2, k3⟩ := hy
      by_cases he : Call.extract salt ikm = .extract x y
      · injection he with e1 e2
        subst e1 e2
        rcases iha k1 h1 with hx | hx
        · rcases ihb k2 h2 with hx' | hx'
          · exact .inl (.inr ⟨hx, hx'⟩)
          · exact .inr (hit_mono (fun c hc => List.mem_cons_of_mem _ (List.mem_append_right _ hc))
              (fun c hc => .inr (.inl hc)) hx')
        · exact .inr (hit_mono (fun c hc => List.mem_cons_of_mem _ (List.mem_append_left _ hc)) (fun c hc => .inl hc) hx)
      · exact .inr ⟨_, List.mem_cons_self, _, o, .inr (.inr ⟨x, y, k1, k2, rfl⟩), he, h3, k3⟩

/-- If nothing on the way is known, all of the start is lost. -/
theorem exposed_starts {h : Hpke} {known lost : Bytes → Prop} : ∀ (r : Recipe), r.Exposed h known lost →
    (∃ r' ∈ r.parts, ∃ o, r'.Yields h o ∧ known o) ∨ ∀ x ∈ r.starts, lost x := by
  intro r
  induction r with
  | given s => intro he; exact .inr fun x hx => by cases List.mem_singleton.1 hx; exact he
  | expand r l c n ih =>
    intro he
    rcases he with he | he
    · exact .inl ⟨_, List.mem_cons_self, he⟩
    · rcases ih he with ⟨r', h1, h2⟩ | h1
      · exact .inl ⟨r', List.mem_cons_of_mem _ h1, h2⟩
      · exact .inr h1
  | extract a b iha ihb =>
    intro he
    rcases he with he | ⟨he, he'⟩
    · exact .inl ⟨_, List.mem_cons_self, he⟩
    · rcases iha he with ⟨r', h1, h2⟩ | h1
      · exact .inl ⟨r', List.mem_cons_of_mem _ (List.mem_append_left _ h1), h2⟩
      · rcases ihb he' with ⟨r', h1', h2⟩ | h1'
        · exact .inl ⟨r', List.mem_cons_of_mem _ (List.mem_append_right _ h1'), h2⟩
        · exact .inr fun x hx => (List.mem_append.1 hx).elim (h1 x) (h1' x)

/-- The first secret is put together in another way than the second and everything it is put together from. -/
def Apart (h : Hpke) (r : Recipe) : Recipe → Prop
  | given _ => True
  | expand r' l c n => ¬ r.Same h (expand r' l c n) ∧ Apart h r r'
  | extract a b => ¬ r.Same h (extract a b) ∧ Apart h r a ∧ Apart h r b

/-- What does not enter into a secret does not help to put it together. -/
theorem exposed_without {h : Hpke} {known lost : Bytes → Prop} {recipes : Recipe → Prop} : ∀ (r : Recipe),
    (∀ r', recipes r' → Apart h r' r) → r.Exposed h (With h known recipes) lost →
    r.Exposed h known lost ∨ ∃ r', recipes r' ∧ Collide h r' r := by
  intro r
  induction r with
  | given s => intro _ he; exact .inl he
  | expand r l c n ih =>
    intro ha he
    rcases he with ⟨o, h1, h2 | ⟨r', h2, h3⟩⟩ | he
    · exact .inl (.inl ⟨o, h1, h2⟩)
    · rcases same_or_collide _ _ h3 h1 with hx | hx
      · exact .inr ⟨r', h2, hx⟩
      · exact absurd hx (ha r' h2).1
    · rcases ih (fun r' h' => (ha r' h').2) he with hx | ⟨r', h2, c, c', o, h3, h4, h5⟩
      · exact .inl (.inr hx)
      · exact .inr ⟨r', h2, c, c', o, h3, .inl h4, h5⟩
  | extract a b iha ihb =>
    intro ha he
    rcases he with ⟨o, h1, h2 | ⟨r', h2, h3⟩⟩ | ⟨he, he'⟩
    · exact .inl (.inl ⟨o, h1, h2⟩)
    · rcases same_or_collide _ _ h3 h1 with hx | hx
      · exact .inr ⟨r', h2, hx⟩
      · exact absurd hx (ha r' h2).1
    · rcases iha (fun r' h' => (ha r' h').2.1) he with hx | ⟨r', h2, c, c', o, h3, h4, h5⟩
      · rcases ihb (fun r' h' => (ha r' h').2.2) he' with hx' | ⟨r', h2, c, c', o, h3, h4, h5⟩
        · exact .inl (.inr ⟨hx, hx'⟩)
        · exact .inr ⟨r', h2, c, c', o, h3, .inr (.inl h4), h5⟩
      · exact .inr ⟨r', h2, c, c', o, h3, .inl h4, h5⟩

/-! ### secrets put together in another way -/

theorem not_same_label {h : Hpke} {r r' : Recipe} {l l' c c' : Bytes} {n n' : Nat} (hl : l ≠ l') :
    ¬ (expand r l c n).Same h (expand r' l' c' n') := fun hs => hl hs.1

/-- A secret with a label of its own, and the init secrets. -/
theorem apart_init {h : Hpke} {r : Recipe} {l c : Bytes} {n : Nat} (start : Bytes) (h1 : l ≠ text "epoch") (h2 : l ≠ text "joiner") :
    ∀ (before : List Epochs.Input),
      (∀ x ∈ before, ∀ b, ¬ (expand r l c n).Same h (expand (epochRecipe h (initRecipe h start b) x) (text "init") []
        h.kdf_extract_size)) →
      Apart h (expand r l c n) (initRecipe h start before) := by
  intro before
  induction before with
  | nil => intro _; trivial
  | cons e b ih =>
    intro hi
    refine ⟨hi e List.mem_cons_self b, not_same_label h1, id, ⟨not_same_label h2, id, ?_, trivial⟩, trivial⟩
    exact ih fun x hx => hi x (List.mem_cons_of_mem _ hx)

theorem apart_epoch {h : Hpke} {r i : Recipe} {l c : Bytes} {n : Nat} {e : Epochs.Input} (h1 : l ≠ text "epoch")
    (h2 : l ≠ text "joiner") (hi : Apart h (expand r l c n) i) : Apart h (expand r l c n) (epochRecipe h i e) :=
  ⟨not_same_label h1, id, ⟨not_same_label h2, id, hi, trivial⟩, trivial⟩

theorem apart_node {h : Hpke} {r enc : Recipe} (he : Apart h r enc) : ∀ (d i : Nat),
    (∀ d' ≤ d, 0 < d' → ¬ r.Same h (nodeRecipe h enc d' (i / 2 ^ (d - d')))) → Apart h r (nodeRecipe h enc d i) := by
  intro d
  induction d with
  | zero => intro i _; exact he
  | succ d ih =>
    intro i hi
    refine ⟨?_, ih (i / 2) fun d' h1 h2 => ?_⟩
    · have := hi (d + 1) (Nat.le_refl _) (by omega)
      rwa [Nat.sub_self, Nat.pow_zero, Nat.div_one] at this
    · have := hi d' (by omega) h2
      rwa [show d + 1 - d' = (d - d') + 1 by omega, Nat.pow_succ, Nat.mul_comm, ← Nat.div_div_eq_div_mul] at this

theorem apart_generation {h : Hpke} {r root : Recipe} (hr : Apart h r root) : ∀ (g : Nat),
    (∀ j < g, ¬ r.Same h (generationRecipe h root (j + 1))) → Apart h r (generationRecipe h root g) := by
  intro g
  induction g with
  | zero => intro _; exact hr
  | succ g ih => intro hg; exact ⟨hg g (Nat.lt_succ_self _), ih fun j hj => hg j (Nat.lt_succ_of_lt hj)⟩

theorem apart_content {h : Hpke} {r i : Recipe} {e : Epochs.Input} {l c : Bytes} {n K li g : Nat} {ct : ContentType}
    {lt : Bytes × Nat} (h1 : l ≠ text "epoch") (h2 : l ≠ text "joiner") (h3 : l ≠ text "encryption")
    (hi : Apart h (expand r l c n) i)
    (hn : ∀ d ≤ K, 0 < d → ¬ (expand r l c n).Same h (nodeRecipe h (expand (epochRecipe h i e) (text "encryption") []
      h.kdf_extract_size) d (li / 2 ^ (K - d))))
    (hr : ∀ j ≤ g, ¬ (expand r l c n).Same h (messageRecipe h (expand (epochRecipe h i e) (text "encryption") []
      h.kdf_extract_size) K li ct j))
    (hc : ¬ (expand r l c n).Same h (contentRecipe h (expand (epochRecipe h i e) (text "encryption") []
      h.kdf_extract_size) K li ct g lt)) :
    Apart h (expand r l c n) (contentRecipe h (expand (epochRecipe h i e) (text "encryption") [] h.kdf_extract_size) K li ct g
      lt) := by
  have h4 : Apart h (expand r l c n) (expand (epochRecipe h i e) (text "encryption") [] h.kdf_extract_size) :=
    ⟨not_same_label h3, apart_epoch h1 h2 hi⟩
  have h5 : Apart h (expand r l c n) (expand (nodeRecipe h (expand (epochRecipe h i e) (text "encryption") []
      h.kdf_extract_size) K li) (ratchetName ct) [] h.kdf_extract_size) :=
    ⟨hr 0 (Nat.zero_le _), apart_node h4 K li hn⟩
  exact ⟨hc, apart_generation h5 g fun j hj => hr (j + 1) hj⟩

/-- The label of a secret of the secret tree. -/
theorem node_label {h : Hpke} {enc r : Recipe} {d i : Nat} {l c : Bytes} {n : Nat} (hd : 0 < d) (hl : l ≠ text "tree") :
    ¬ (expand r l c n).Same h (nodeRecipe h enc d i) := by
  cases d with
  | zero => omega
  | succ d => exact not_same_label hl

/-- The label of a secret of a ratchet. -/
theorem message_label {h : Hpke} {enc r : Recipe} {K li j : Nat} {ct : ContentType} {l c : Bytes} {n : Nat}
    (hs : l ≠ text "secret") (hl : ∀ ct, l ≠ ratchetName ct) : ¬ (expand r l c n).Same h (messageRecipe h enc K li ct j) := by
  cases j with
  | zero => exact not_same_label (hl ct)
  | succ j => exact not_same_label hs

theorem message_same {h : Hpke} {r r' : Recipe} {n n' : Nat} {K li li' : Nat} {ct ct' : ContentType} (hli : li < 2 ^ K)
    (hli' : li' < 2 ^ K) : ∀ {g g' : Nat}, g < 2 ^ 32 → g' < 2 ^ 32 →
    (messageRecipe h (expand r (text "encryption") [] n) K li ct g).Same h
      (messageRecipe h (expand r' (text "encryption") [] n') K li' ct' g') →
    g = g' ∧ li = li' ∧ (ct = .Application ↔ ct' = .Application) := by
  intro g g' hg hg' hs
  have key : g = g' := by
    cases g with
    | zero =>
      cases g' with
      | zero => rfl
      | succ g' => exact absurd hs.1 (by cases ct <;> decide)
    | succ g =>
      cases g' with
      | zero => exact absurd hs.1 (by cases ct' <;> decide)
      | succ g' => rw [uint4_inj (by omega) (by omega) hs.2.1]
  subst key
  obtain ⟨h1, _, _, h2⟩ := generation_same _ hs
  exact ⟨rfl, (node_same hli hli' h2).2.1, ratchetName_inj h1⟩

theorem label_cases {h : Hpke} {l : Bytes × Nat} (hl : l ∈ contentLabels h) : l.1 = text "key" ∨ l.1 = text "nonce" := by
  simp only [contentLabels, List.mem_cons, List.not_mem_nil, or_false] at hl
  rcases hl with rfl | rfl
  · exact .inl rfl
  · exact .inr rfl

theorem label_ne {h : Hpke} {l : Bytes × Nat} (hl : l ∈ contentLabels h) :
    l.1 ≠ text "epoch" ∧ l.1 ≠ text "joiner" ∧ l.1 ≠ text "encryption" ∧ l.1 ≠ text "tree" ∧ l.1 ≠ text "secret" ∧
      (∀ ct, l.1 ≠ ratchetName ct) ∧ l.1 ≠ text "init" := by
  rcases label_cases hl with hl | hl <;> rw [hl] <;>
    refine ⟨by decide, by decide, by decide, by decide, by decide, fun ct => by cases ct <;> decide, by decide⟩

/-- What is kept does not enter into the key. -/
theorem keeps_apart {h : Hpke} {start : Bytes} {before : List Epochs.Input} {e : Epochs.Input} {K li : Nat} (hli : li < 2 ^ K)
    {ct : ContentType} {g : Nat} (hg : g < 2 ^ 32) {l : Bytes × Nat} (hl : l ∈ contentLabels h)
    (hf : ∀ x ∈ e :: before, (groupContext x.ctx).fits ∧ ContextCanonical x.ctx) (hd : ∀ x ∈ before, x.ctx ≠ e.ctx)
    {r : Recipe} (hk : Keeps h (epochRecipe h (initRecipe h start before) e) K li ct g l r) :
    Apart h r (contentRecipe h (encryptionRecipe h start before e) K li ct g l) := by
  have hl' := label_ne hl
  cases hk with
  | @derived label hm =>
    simp only [otherLabels, List.mem_cons, List.not_mem_nil, or_false] at hm
    have key : ∀ t : Bytes, t ≠ text "epoch" → t ≠ text "joiner" → t ≠ text "encryption" → t ≠ text "tree" → t ≠ text "secret" →
        (∀ ct, t ≠ ratchetName ct) → t ≠ l.1 → 
        (∀ x ∈ before, ∀ b, ¬ (expand (epochRecipe h (initRecipe h start before) e) t [] h.kdf_extract_size).Same h
          (expand (epochRecipe h (initRecipe h start b) x) (text "init") [] h.kdf_extract_size)) →
        Apart h (expand (epochRecipe h (initRecipe h start before) e) t [] h.kdf_extract_size)
          (contentRecipe h (encryptionRecipe h start before e) K li ct g l) := by
      intro t h1 h2 h3 h4 h5 h6 h7 h8
      exact apart_content h1 h2 h3 (apart_init start h1 h2 before h8) (fun d _ hd => node_label hd h4)
        (fun j _ => message_label h5 h6) (not_same_label h7)
    have hne : ∀ t, t ∈ otherLabels → text t ≠ l.1 := by
      intro t ht
      simp only [otherLabels, List.mem_cons, List.not_mem_nil, or_false] at ht
      rcases label_cases hl with hl | hl <;> rw [hl] <;> rcases ht with rfl | rfl | rfl | rfl | rfl | rfl | rfl | rfl <;> decide
    rcases hm with rfl | rfl | rfl | rfl | rfl | rfl | rfl | rfl <;>
      refine key _ (by decide) (by decide) (by decide) (by decide) (by decide) (fun ct => by cases ct <;> decide)
        (hne _ (by decide)) fun x hx b hs => ?_
    case inr.inr.inr.inr.inr.inr.inr =>
      have := epoch_same (hf e List.mem_cons_self).1 (hf x (List.mem_cons_of_mem _ hx)).1 (hf e List.mem_cons_self).2
        (hf x (List.mem_cons_of_mem _ hx)).2 hs.2.2.2
      exact hd x hx this.1.1.symm
    all_goals exact absurd hs.1 (by decide)
  | @node d i h1 h2 h3 =>
    have hd0 : 0 < d := by
      cases d with
      | zero =>
        simp only [Nat.pow_zero, Nat.lt_one_iff] at h2
        rw [Nat.sub_zero, Nat.div_eq_of_lt hli] at h3
        omega
      | succ d => omega
    cases d with
    | zero => omega
    | succ d =>
      refine apart_content (by decide) (by decide) (by decide) (apart_init start (by decide) (by decide) before
        fun x _ b => not_same_label (by decide)) (fun d' hd' h0 hs => ?_)
        (fun j _ => message_label (by decide) fun ct => by cases ct <;> decide) (not_same_label (Ne.symm hl'.2.2.2.1))
      have hb : li / 2 ^ (K - d') < 2 ^ d' := by
        rw [Nat.div_lt_iff_lt_mul (Nat.two_pow_pos _), ← Nat.pow_add, show d' + (K - d') = K by omega]
        exact hli
      obtain ⟨e1, e2, _⟩ := node_same (d := d + 1) h2 hb hs
      subst e1
      exact h3 e2
  | @ratchet li' g' ct' h1 h2 h3 =>
    have hr : ∀ j ≤ g, ¬ (messageRecipe h (encryptionRecipe h start before e) K li' ct' g').Same h
        (messageRecipe h (encryptionRecipe h start before e) K li ct j) := by
      intro j hj hs
      obtain ⟨e1, e2, e3⟩ := message_same h1 hli h2 (by omega) hs
      have := h3 e2 e3
      omega
    cases g' with
    | zero =>
      exact apart_content (by cases ct' <;> decide) (by cases ct' <;> decide) (by cases ct' <;> decide)
        (apart_init start (by cases ct' <;> decide) (by cases ct' <;> decide) before
          fun x _ b => not_same_label (by cases ct' <;> decide)) (fun d _ h0 => node_label h0 (by cases ct' <;> decide))
        hr (not_same_label (Ne.symm (hl'.2.2.2.2.2.1 ct')))
    | succ g' =>
      exact apart_content (by decide) (by decide) (by decide)
        (apart_init start (by decide) (by decide) before
          fun x _ b => not_same_label (by decide)) (fun d _ h0 => node_label h0 (by decide))
        hr (not_same_label (Ne.symm hl'.2.2.2.2.1))
  | @content li' g' ct' l' h1 h2 h3 h4 =>
    have hm := label_ne h3
    refine apart_content hm.1 hm.2.1 hm.2.2.1 (apart_init start hm.1 hm.2.1 before
      fun x _ b => not_same_label hm.2.2.2.2.2.2) (fun d _ h0 => node_label h0 hm.2.2.2.1)
      (fun j _ => message_label hm.2.2.2.2.1 hm.2.2.2.2.2.1) fun hs => ?_
    obtain ⟨e1, e2, e3, e4⟩ := hs
    obtain ⟨e5, e6, e7⟩ := message_same h1 hli h2 hg e4
    exact h4 ⟨e6, e7, e5, Prod.ext e1 e3⟩

/-- Who computes a secret, with secrets that do not enter into it. -/
theorem computes_apart {h : Hpke} {known : Bytes → Prop} {recipes : Recipe → Prop} {r : Recipe} {o : Bytes} {calls : List Call}
    (ha : ∀ r', recipes r' → Apart h r' r) (hy : r.Yields h o) (hc : Computes h (With h known recipes) calls o) :
    (∃ r' ∈ r.parts, ∃ x, r'.Yields h x ∧ known x) ∨ (∀ x ∈ r.starts, Computable h (With h known recipes) x) ∨
      Hit h calls r ∨ ∃ r', recipes r' ∧ Collide h r' r := by
  rcases exposed_or_hit r hy hc with he | hh
  · rcases exposed_without r ha he with he | hc
    · rcases exposed_starts r he with h1 | h1
      · exact .inl h1
      · exact .inr (.inl h1)
    · exact .inr (.inr (.inr hc))
  · exact .inr (.inr (.inl hh))

/-! ### the code -/

theorem messageKeys_secret {P : CryptoProvider} {cs : CipherSuite} {h : Hpke} (hp : P.hpke cs = .ok h) (hs : Sizes h) {K li : Nat}
    {es : Bytes} {ct : ContentType} {guard : Bytes} {g : UInt32} {key nonce : Bytes} (hK : K ≤ 31) (hli : li < 2 ^ K)
    (hk : messageKeys P cs (2 ^ K) es li ct g guard = .ok (key, nonce)) :
    ∃ x, MessageSecret h es K li ct g.toNat x ∧ ContentKeys h x g.toNat guard key nonce := by
  unfold messageKeys at hk
  simp only [Res.bind_ok_iff] at hk
  obtain ⟨r, k1, z, k2, k3⟩ := hk
  have ht : ∃ t, SecretTree.new P cs (2 ^ K) es = .ok t := by
    unfold ratchetRoot at k1
    obtain ⟨t, ht, _⟩ := Res.bind_ok_iff.1 k1
    exact ⟨t, ht⟩
  obtain ⟨t, ht⟩ := ht
  obtain ⟨k4, k5⟩ := (root_seek_iff hp hs hK ht hli ct g z).1 (Res.bind_ok_iff.2 ⟨r, k1, k2⟩)
  rw [content_keys_iff hp hs, k4] at k3
  exact ⟨z.secret, k5, k3⟩

/-! ## C76 -/

/-- What the code derives in an epoch is put together as `Keeps` says. -/
theorem C76_code (P : CryptoProvider) (cs : CipherSuite) (h : Hpke) (hp : P.hpke cs = .ok h) (hs : Sizes h) (start : Bytes)
    (hist : List Epochs.Input) (e : Epochs.Input) (hc : ∀ x ∈ e :: hist, x.ctx.cipher_suite = cs) (i s es : Bytes)
    (h1 : Epochs.run P cs start hist = .ok i) (h2 : Epochs.epochSecret P i e = .ok s)
    (h3 : P.derive_secret cs s SECRET_LABEL_ENCRYPTION = .ok es) (K : Nat) (hK : K ≤ 31) :
    let epoch := epochRecipe h (initRecipe h start hist.reverse) e
    let encryption := encryptionRecipe h start hist.reverse e
    (∀ label ∈ otherLabels, ∀ o, P.derive_secret cs s (text label) = .ok o →
      (expand epoch (text label) [] h.kdf_extract_size).Yields h o) ∧
    (∀ t, SecretTree.new P cs (2 ^ K) es = .ok t → ∀ d i, d ≤ K → i < 2 ^ d →
      ∃ o, t[node (K - d) i]? = some (some o) ∧ (nodeRecipe h encryption d i).Yields h o) ∧
    (∀ li ct g x, li < 2 ^ K → (ratchetRoot P cs (2 ^ K) es li ct >>= seek P cs g 4294967296) = .ok x →
      (messageRecipe h encryption K li ct g.toNat).Yields h x.secret) ∧
    ∀ li ct g guard key nonce, li < 2 ^ K → messageKeys P cs (2 ^ K) es li ct g guard = .ok (key, nonce) →
      (contentRecipe h encryption K li ct g.toNat (text "key", h.aead_key_size)).Yields h key ∧
      ∃ n, (contentRecipe h encryption K li ct g.toNat (text "nonce", h.aead_nonce_size)).Yields h n ∧ nonce = guarded n guard := by
  dsimp only
  have m : ∀ x ∈ hist.reverse, x ∈ e :: hist := fun x hx => List.mem_cons_of_mem _ (List.mem_reverse.1 hx)
  rw [← List.reverse_reverse hist, run_iff hp hs start _ fun x hx => hc x (m x hx)] at h1
  rw [epochSecret_iff hp hs (hc e List.mem_cons_self) h1.2] at h2
  rw [(C32_derived P cs h hp hs _ _).2.1] at h3
  have y : (encryptionRecipe h start hist.reverse e).Yields h es := ⟨s, h2.2, h3⟩
  refine ⟨fun label _ o ho => ⟨s, h2.2, (derive_secret_iff hp hs _ _ _).1 ho⟩, fun t ht d i hd hi => ?_, fun li ct g x hli hx => ?_,
    fun li ct g guard key nonce hli hk => ?_⟩
  · obtain ⟨o, k1, k2⟩ := (C35_secrets P cs h hp hs K hK es t ht).2 (K - d) i (by omega) (by rwa [show K - (K - d) = d by omega])
    refine ⟨o, k1, ?_⟩
    have := (nodeRecipe_of y k2).2
    rwa [show K - (K - d) = d by omega] at this
  · obtain ⟨r, k1, k2⟩ := Res.bind_ok_iff.1 hx
    have ht : ∃ t, SecretTree.new P cs (2 ^ K) es = .ok t := by
      unfold ratchetRoot at k1
      obtain ⟨t, ht, _⟩ := Res.bind_ok_iff.1 k1
      exact ⟨t, ht⟩
    obtain ⟨t, ht⟩ := ht
    exact messageRecipe_of y ((root_seek_iff hp hs hK ht hli ct g x).1 hx).2
  · obtain ⟨x, k1, ⟨_, k2⟩, n, ⟨_, k3⟩, _, k4⟩ := messageKeys_secret hp hs hK hli hk
    exact ⟨⟨x, messageRecipe_of y k1, k2⟩, n, ⟨x, messageRecipe_of y k1, k3⟩, k4⟩

/-- C76: the key of a message cannot be computed from what section 9.2 lets a member keep: the other secrets of the epoch (and
with the init secret, and the commit secrets, everything of later epochs), the parts of the secret tree that the sender's leaf
is not below, later generations of its ratchets, other ratchets, and keys and nonces of other messages.  Who computes it also
knows a secret on the way to it, or can compute all the secrets that the key schedule started with, or has found a collision
of the KDF. -/
theorem C76_forward (P : CryptoProvider) (cs : CipherSuite) (h : Hpke) (hp : P.hpke cs = .ok h) (hs : Sizes h) (start : Bytes)
    (hist : List Epochs.Input) (e : Epochs.Input) (hc : ∀ x ∈ e :: hist, x.ctx.cipher_suite = cs ∧ ContextCanonical x.ctx)
    (hd : ∀ x ∈ hist, x.ctx ≠ e.ctx) (i s es : Bytes) (h1 : Epochs.run P cs start hist = .ok i)
    (h2 : Epochs.epochSecret P i e = .ok s) (h3 : P.derive_secret cs s SECRET_LABEL_ENCRYPTION = .ok es) (K li : Nat) (hK : K ≤ 31)
    (hli : li < 2 ^ K) (ct : ContentType) (g : UInt32) (guard key nonce : Bytes)
    (hk : messageKeys P cs (2 ^ K) es li ct g guard = .ok (key, nonce)) (known : Bytes → Prop) (calls : List Call) :
    let target := keyRecipe h (encryptionRecipe h start hist.reverse e) K li ct g.toNat
    let kept := Keeps h (epochRecipe h (initRecipe h start hist.reverse) e) K li ct g.toNat (text "key", h.aead_key_size)
    Computes h (With h known kept) calls key →
    (∃ r ∈ target.parts, ∃ x, r.Yields h x ∧ known x) ∨ (∀ x ∈ target.starts, Computable h (With h known kept) x) ∨
      Hit h calls target ∨ ∃ r, kept r ∧ Collide h r target := by
  dsimp only
  intro hcomp
  have hy := ((C76_code P cs h hp hs start hist e (fun x hx => (hc x hx).1) i s es h1 h2 h3 K hK).2.2.2 li ct g guard key nonce hli
    hk).1
  refine computes_apart (fun r hr => keeps_apart hli g.toNat_lt List.mem_cons_self (fun x hx => ⟨?_, (hc x ?_).2⟩)
    (fun x hx => hd x (List.mem_reverse.1 hx)) hr) hy hcomp
  · have m : ∀ x ∈ hist.reverse, x ∈ e :: hist := fun x hx => List.mem_cons_of_mem _ (List.mem_reverse.1 hx)
    rw [← List.reverse_reverse hist, run_iff hp hs start _ fun x hx => (hc x (m x hx)).1] at h1
    rw [epochSecret_iff hp hs (hc e List.mem_cons_self).1 h1.2] at h2
    rcases List.mem_cons.1 hx with rfl | hx
    · exact h2.1
    · exact h1.1 x hx
  · rcases List.mem_cons.1 hx with rfl | hx
    · exact List.mem_cons_self
    · exact List.mem_cons_of_mem _ (List.mem_reverse.1 hx)

/-! ## C77 -/

theorem of_mem {h : Hpke} {start : Bytes} {before : List Epochs.Input} {r : Recipe} (ho : Of h start before r) :
    ∃ x ∈ before, ∃ b, r = epochRecipe h (initRecipe h start b) x ∨
      r = expand (epochRecipe h (initRecipe h start b) x) (text "init") [] h.kdf_extract_size := by
  induction ho with
  | @init e b => exact ⟨e, List.mem_cons_self, b, .inr rfl⟩
  | @epoch e b => exact ⟨e, List.mem_cons_self, b, .inl rfl⟩
  | earlier _ ih =>
    obtain ⟨x, hx, hr⟩ := ih
    exact ⟨x, List.mem_cons_of_mem _ hx, hr⟩

/-- The secrets of other epochs do not enter into those of an epoch, but for the init secret it starts with. -/
theorem of_apart {h : Hpke} {start i : Bytes} {before : List Epochs.Input} {e : Epochs.Input}
    (hf : ∀ x ∈ e :: before, (groupContext x.ctx).fits ∧ ContextCanonical x.ctx) (hd : ∀ x ∈ before, x.ctx ≠ e.ctx)
    {r t : Recipe} (ho : Of h start before r) (ht : InEpoch h (epochRecipe h (given i) e) t) : Apart h r t := by
  obtain ⟨x, hx, b, hr⟩ := of_mem ho
  have hne : ¬ (epochRecipe h (initRecipe h start b) x).Same h (epochRecipe h (given i) e) := fun hs =>
    hd x hx (epoch_same (start' := i) (b' := []) (hf x (List.mem_cons_of_mem _ hx)).1 (hf e List.mem_cons_self).1
      (hf x (List.mem_cons_of_mem _ hx)).2 (hf e List.mem_cons_self).2 hs).1.1
  have key : ∃ r0 l c n, r = expand r0 l c n ∧ l ≠ text "joiner" ∧ l ≠ text "encryption" ∧ l ≠ text "tree" ∧ l ≠ text "secret" ∧
      (∀ ct, l ≠ ratchetName ct) ∧ l ≠ text "key" ∧ l ≠ text "nonce" ∧ ¬ r.Same h (epochRecipe h (given i) e) ∧
      ∀ l' n', l' ∈ "encryption" :: otherLabels → ¬ r.Same h (expand (epochRecipe h (given i) e) (text l') [] n') := by
    rcases hr with rfl | rfl
    · refine ⟨_, _, _, _, rfl, by decide, by decide, by decide, by decide, fun ct => by cases ct <;> decide, by decide, by decide,
        hne, fun l' n' hl' => not_same_label ?_⟩
      simp only [otherLabels, List.mem_cons, List.not_mem_nil, or_false] at hl'
      rcases hl' with rfl | rfl | rfl | rfl | rfl | rfl | rfl | rfl | rfl <;> decide
    · exact ⟨_, _, _, _, rfl, by decide, by decide, by decide, by decide, fun ct => by cases ct <;> decide, by decide, by decide,
        not_same_label (by decide), fun l' n' _ hs => hne hs.2.2.2⟩
  obtain ⟨r0, l, c, n, rfl, k1, k2, k3, k4, k5, k6, k7, k8, k9⟩ := key
  have ka : Apart h (expand r0 l c n) (epochRecipe h (given i) e) :=
    ⟨k8, id, ⟨not_same_label k1, id, trivial, trivial⟩, trivial⟩
  cases ht with
  | epoch => exact ka
  | derived label hl => exact ⟨k9 label _ hl, ka⟩
  | content K li ct g l' hl =>
    have kb : Apart h (expand r0 l c n) (expand (epochRecipe h (given i) e) (text "encryption") [] h.kdf_extract_size) :=
      ⟨not_same_label k2, ka⟩
    have kc : Apart h (expand r0 l c n) (expand (nodeRecipe h (expand (epochRecipe h (given i) e) (text "encryption") []
        h.kdf_extract_size) K li) (ratchetName ct) [] h.kdf_extract_size) :=
      ⟨not_same_label (k5 ct), apart_node kb K li fun d' _ h0 => node_label h0 k3⟩
    refine ⟨not_same_label ?_, apart_generation kc g fun j _ => not_same_label k4⟩
    rcases label_cases hl with hx | hx <;> rw [hx] <;> assumption

/-- C77: no secret of an epoch can be computed from all epoch secrets and init secrets of the epochs before, whoever has seen
them.  Who computes it also knows a secret on the way to it, from this epoch, or can compute the commit secret and the PSK
secret of the epoch, or has found a collision of the KDF. -/
theorem C77_locked_out (P : CryptoProvider) (cs : CipherSuite) (h : Hpke) (hp : P.hpke cs = .ok h) (hs : Sizes h) (start : Bytes)
    (hist : List Epochs.Input) (e : Epochs.Input) (hc : ∀ x ∈ e :: hist, x.ctx.cipher_suite = cs ∧ ContextCanonical x.ctx)
    (hd : ∀ x ∈ hist, x.ctx ≠ e.ctx) (i s : Bytes) (h1 : Epochs.run P cs start hist = .ok i)
    (h2 : Epochs.epochSecret P i e = .ok s) (known : Bytes → Prop) (target : Recipe) 
    (ht : InEpoch h (epochRecipe h (given i) e) target) (o : Bytes) (ho : target.Yields h o) (calls : List Call)
    (hcomp : Computes h (With h known (Of h start hist.reverse)) calls o) :
    (∃ r ∈ target.parts, ∃ x, r.Yields h x ∧ known x) ∨
      (Computable h (With h known (Of h start hist.reverse)) e.commit_secret ∧
        Computable h (With h known (Of h start hist.reverse)) (pskInput h e.psk_secret)) ∨
      Hit h calls target ∨ ∃ r, Of h start hist.reverse r ∧ Collide h r target := by
  have hf : ∀ x ∈ e :: hist.reverse, (groupContext x.ctx).fits ∧ ContextCanonical x.ctx := by
    have m : ∀ x ∈ hist.reverse, x ∈ e :: hist := fun x hx => List.mem_cons_of_mem _ (List.mem_reverse.1 hx)
    rw [← List.reverse_reverse hist, run_iff hp hs start _ fun x hx => (hc x (m x hx)).1] at h1
    rw [epochSecret_iff hp hs (hc e List.mem_cons_self).1 h1.2] at h2
    intro x hx
    rcases List.mem_cons.1 hx with rfl | hx
    · exact ⟨h2.1, (hc x List.mem_cons_self).2⟩
    · exact ⟨h1.1 x hx, (hc x (m x hx)).2⟩
  have hst : e.commit_secret ∈ target.starts ∧ pskInput h e.psk_secret ∈ target.starts := by
    have hn : ∀ (enc : Recipe) d i, (nodeRecipe h enc d i).starts = enc.starts := by
      intro enc d
      induction d with
      | zero => intro i; rfl
      | succ d ih => intro i; exact ih (i / 2)
    have hg : ∀ (root : Recipe) n, (generationRecipe h root n).starts = root.starts := by
      intro root n
      induction n with
      | zero => rfl
      | succ n ih => exact ih
    have he : (epochRecipe h (given i) e).starts = [i, e.commit_secret, pskInput h e.psk_secret] := rfl
    have : target.starts = [i, e.commit_secret, pskInput h e.psk_secret] := by
      cases ht with
      | epoch => rfl
      | derived label hl => rfl
      | content K li ct g l' hl =>
        unfold contentRecipe messageRecipe
        rw [starts, hg, starts, hn]
        rfl
    rw [this]
    simp
  rcases computes_apart (fun r hr => of_apart hf (fun x hx => hd x (List.mem_reverse.1 hx)) hr ht) ho hcomp with hx | hx | hx
  · exact .inl hx
  · exact .inr (.inl ⟨hx _ hst.1, hx _ hst.2⟩)
  · exact .inr (.inr hx)

/-- C77: the epoch secret, the secrets derived from it and the message keys that the code computes are secrets of the epoch. -/
theorem C77_code (P : CryptoProvider) (cs : CipherSuite) (h : Hpke) (hp : P.hpke cs = .ok h) (hs : Sizes h) (e : Epochs.Input)
    (he : e.ctx.cipher_suite = cs) (i s : Bytes) (h2 : Epochs.epochSecret P i e = .ok s) :
    (epochRecipe h (given i) e).Yields h s ∧
    (∀ label ∈ "encryption" :: otherLabels, ∀ o, P.derive_secret cs s (text label) = .ok o →
      ∃ t, InEpoch h (epochRecipe h (given i) e) t ∧ t.Yields h o) ∧
    ∀ es, P.derive_secret cs s SECRET_LABEL_ENCRYPTION = .ok es → ∀ K li ct g guard key nonce, K ≤ 31 → li < 2 ^ K →
      messageKeys P cs (2 ^ K) es li ct g guard = .ok (key, nonce) →
      ∃ t, InEpoch h (epochRecipe h (given i) e) t ∧ t.Yields h key := by
  have hy := ((epochSecret_iff hp hs he (r := given i) rfl s).1 h2).2
  refine ⟨hy, fun label hl o ho => ⟨_, .derived label hl, s, hy, (derive_secret_iff hp hs _ _ _).1 ho⟩, ?_⟩
  intro es h3 K li ct g guard key nonce hK hli hk
  have := C76_code P cs h hp hs i [] e (fun x hx => by cases List.mem_singleton.1 hx; exact he) i s es rfl h2 h3 K hK
  exact ⟨_, .content K li ct g.toNat _ List.mem_cons_self, (this.2.2.2 li ct g guard key nonce hli hk).1⟩

section examples

private abbrev suite1 : CipherSuite := .MLS_128_DHKEMX25519_AES128GCM_SHA256_Ed25519

theorem free_hit (calls : List Call) (r : Recipe) : ¬ Hit freeHpke calls r := by
  rintro ⟨c, _, c', o, _, hne, h1, h2⟩
  exact hne (free_call_inj h1 h2)

/-- What this KDF gives is long and does not start with zero. -/
private def Long (o : Bytes) : Prop := ∃ x y b, o = x :: y :: b ∧ x ≠ 0

private theorem gives_long {c : Call} {o : Bytes} (h : c.Gives freeHpke o) : Long o := by
  cases c with
  | expand s info n => cases h; exact ⟨_, _, _, rfl, by decide⟩
  | extract a b =>
    cases h
    cases b with
    | nil => exact ⟨2, 0, a, rfl, by decide⟩
    | cons x b => exact ⟨2, 1, _, rfl, by decide⟩

private theorem part_long : ∀ (r r' : Recipe), r' ∈ r.parts → ∀ o, r'.Yields freeHpke o → Long o := by
  intro r
  induction r with
  | given s => intro r' h; cases h
  | expand r l c n ih =>
    intro r' h o ho
    rcases List.mem_cons.1 h with rfl | h
    · obtain ⟨s, _, _, _, h4⟩ := ho
      exact gives_long (c := .expand _ _ _) h4
    · exact ih r' h o ho
  | extract a b iha ihb =>
    intro r' h o ho
    rcases List.mem_cons.1 h with rfl | h
    · obtain ⟨x, y, _, _, h4⟩ := ho
      exact gives_long (c := .extract _ _) h4
    · rcases List.mem_append.1 h with h | h
      · exact iha r' h o ho
      · exact ihb r' h o ho

private theorem computes_long {known : Bytes → Prop} {calls : List Call} {o : Bytes} (hc : Computes freeHpke known calls o) :
    known o ∨ Long o := by
  cases hc with
  | known h => exact .inl h
  | expand info n _ h => exact .inr (gives_long (c := .expand _ _ _) h)
  | extract _ _ h => exact .inr (gives_long (c := .extract _ _) h)

private theorem keeps_long {E : Recipe} {K li g : Nat} {ct : ContentType} {l : Bytes × Nat} {r : Recipe} {o : Bytes}
    (hk : Keeps freeHpke E K li ct g l r) (ho : r.Yields freeHpke o) : Long o := by
  refine part_long r r ?_ o ho
  cases hk with
  | derived _ => exact List.mem_cons_self
  | @node d _ _ _ _ => cases d <;> exact List.mem_cons_self
  | @ratchet _ g' _ _ _ _ => cases g' <;> exact List.mem_cons_self
  | content _ _ _ _ => exact List.mem_cons_self

private theorem free_sizes : Sizes freeHpke := ⟨by decide, by decide, by decide⟩

private def ep (n : UInt64) (commit : Bytes) : Epochs.Input := ⟨{ toyContext with epoch := n }, commit, []⟩

private theorem ep_ok (n : UInt64) (commit : Bytes) :
    (ep n commit).ctx.cipher_suite = suite1 ∧ ContextCanonical (ep n commit).ctx :=
  ⟨rfl, trivial, trivial, by simp [ep, toyContext, Extensions.WF]⟩

/-- All commit secrets and the (missing) PSK are known. -/
private def public_ (o : Bytes) : Prop := o = [1] ∨ o = [3] ∨ o = zeros freeHpke.kdf_extract_size

private theorem public_short {o : Bytes} (h : public_ o) : ¬ Long o := by
  rintro ⟨x, y, b, rfl, hx⟩
  rcases h with h | h | h
  · cases h
  · cases h
  · injection h with h
    exact hx h

set_option maxRecDepth 100000 in
/-- In a group of four, after two epochs whose commit secrets are all known, there is a key for the first message of the third
member, and it cannot be computed from what may be kept, however many calls are made. -/
example : ∃ i s es key nonce, Epochs.run freeProvider suite1 [9] [ep 0 [1]] = .ok i ∧
    Epochs.epochSecret freeProvider i (ep 1 [3]) = .ok s ∧
    freeProvider.derive_secret suite1 s SECRET_LABEL_ENCRYPTION = .ok es ∧
    messageKeys freeProvider suite1 (2 ^ 2) es 2 .Application 0 [1, 2, 3, 4] = .ok (key, nonce) ∧
    ¬ Computable freeHpke (With freeHpke public_ (Keeps freeHpke (epochRecipe freeHpke (initRecipe freeHpke [9] [ep 0 [1]])
      (ep 1 [3])) 2 2 .Application 0 (text "key", freeHpke.aead_key_size))) key := by
  have h1 : (Epochs.run freeProvider suite1 [9] [ep 0 [1]] >>= fun i => Epochs.epochSecret freeProvider i (ep 1 [3]) >>= fun s =>
      freeProvider.derive_secret suite1 s SECRET_LABEL_ENCRYPTION >>= fun es =>
      messageKeys freeProvider suite1 (2 ^ 2) es 2 .Application 0 [1, 2, 3, 4]).isOk = .ok true := by decide +kernel
  obtain ⟨⟨key, nonce⟩, hk⟩ := isOk_true.1 h1
  simp only [Res.bind_ok_iff] at hk
  obtain ⟨i, k1, s, k2, es, k3, k4⟩ := hk
  refine ⟨i, s, es, key, nonce, k1, k2, k3, k4, fun ⟨calls, hc⟩ => ?_⟩
  rcases C76_forward freeProvider suite1 freeHpke rfl free_sizes [9] [ep 0 [1]] (ep 1 [3])
    (fun x hx => by
      simp only [List.mem_cons, List.not_mem_nil, or_false] at hx
      rcases hx with rfl | rfl <;> exact ep_ok _ _)
    (fun x hx => by cases List.mem_singleton.1 hx; intro h; cases congrArg GroupContext.epoch h)
    i s es k1 k2 k3 2 2 (by decide) (by decide) .Application 0 [1, 2, 3, 4] key nonce k4 public_ calls hc with
    ⟨r, h1, x, h2, h3⟩ | h1 | h1 | ⟨r, _, h1⟩
  · exact public_short h3 (part_long _ r h1 x h2)
  · obtain ⟨calls, hx⟩ := h1 [9] (by decide +kernel)
    have nl : ¬ Long [9] := by rintro ⟨x, y, b, h, _⟩; cases h
    rcases computes_long hx with (hx | ⟨r, h1, h2⟩) | hx
    · rcases hx with hx | hx | hx
      · cases hx
      · cases hx
      · revert hx; decide +kernel
    · exact nl (keeps_long h1 h2)
    · exact nl hx
  · exact free_hit _ _ h1
  · exact free_collide _ _ h1

set_option maxRecDepth 100000 in
/-- A member of all epochs so far, who knows every commit secret but the last, has no way to the next epoch secret. -/
example : ∃ i s, Epochs.run freeProvider suite1 [9] [ep 0 [1], ep 1 [3]] = .ok i ∧
    Epochs.epochSecret freeProvider i (ep 2 [5]) = .ok s ∧
    ¬ Computable freeHpke (With freeHpke (fun o => o = [9] ∨ public_ o) (Of freeHpke [9] [ep 1 [3], ep 0 [1]])) s := by
  have h1 : (Epochs.run freeProvider suite1 [9] [ep 0 [1], ep 1 [3]] >>= fun i =>
      Epochs.epochSecret freeProvider i (ep 2 [5])).isOk = .ok true := by decide +kernel
  obtain ⟨s, hk⟩ := isOk_true.1 h1
  obtain ⟨i, k1, k2⟩ := Res.bind_ok_iff.1 hk
  have ks : ∀ o, (o = [9] ∨ public_ o) → ¬ Long o := by
    rintro o (rfl | h)
    · rintro ⟨x, y, b, h, _⟩; cases h
    · exact public_short h
  refine ⟨i, s, k1, k2, fun ⟨calls, hc⟩ => ?_⟩
  rcases C77_locked_out freeProvider suite1 freeHpke rfl free_sizes [9] [ep 0 [1], ep 1 [3]] (ep 2 [5])
    (fun x hx => by
      simp only [List.mem_cons, List.not_mem_nil, or_false] at hx
      rcases hx with rfl | rfl | rfl <;> exact ep_ok _ _)
    (fun x hx => by
      simp only [List.mem_cons, List.not_mem_nil, or_false] at hx
      rcases hx with rfl | rfl <;> intro h <;> cases congrArg GroupContext.epoch h)
    i s k1 k2 (fun o => o = [9] ∨ public_ o) _ .epoch s
    (C77_code freeProvider suite1 freeHpke rfl free_sizes (ep 2 [5]) rfl i s k2).1 calls hc with
    ⟨r, h1, x, h2, h3⟩ | ⟨⟨calls, hx⟩, _⟩ | h1 | ⟨r, _, h1⟩
  · exact ks x h3 (part_long _ r h1 x h2)
  · have nl : ¬ Long (ep 2 [5]).commit_secret := by rintro ⟨x, y, b, h, _⟩; cases h
    rcases computes_long hx with (hx | ⟨r, h1, h2⟩) | hx
    · rcases hx with hx | hx | hx | hx
      · cases hx
      · cases hx
      · cases hx
      · revert hx; decide +kernel
    · refine nl (part_long r r ?_ _ h2)
      obtain ⟨x, _, b, rfl | rfl⟩ := of_mem h1 <;> exact List.mem_cons_self
    · exact nl hx
  · exact free_hit _ _ h1
  · exact free_collide _ _ h1

/-- The key of a generation can be computed from the secret of that generation, so that it must not be kept. -/
example (h : Hpke) (known : Bytes → Prop) (enc : Recipe) (K li g : Nat) (ct : ContentType) (s o : Bytes)
    (h1 : (messageRecipe h enc K li ct g).Yields h s) (h2 : known s) (h3 : (keyRecipe h enc K li ct g).Yields h o) :
    Computable h known o := by
  obtain ⟨s', k1, _, _, k2⟩ := h3
  obtain rfl := yields_unique _ k1 h1
  exact ⟨_, .expand _ _ (.known h2) k2⟩

end examples
end Rmls
