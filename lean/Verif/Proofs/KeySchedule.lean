import Verif.Spec.KeySchedule
import Verif.Proofs.Framing
/-
The key schedule, PSK secrets and transcript hashes.
-/
namespace Rmls
open Spec Spec.Enc

instance decidableFits : (e : Enc) → Decidable e.fits
  | .uint _ _ => inferInstanceAs (Decidable True)
  | .fixed _ => inferInstanceAs (Decidable True)
  | .vec a => @instDecidableAnd _ _ (decidableFits a) _
  | .seq a b => @instDecidableAnd _ _ (decidableFits a) (decidableFits b)
  | .empty => inferInstanceAs (Decidable True)

theorem toNat_size {n : Nat} (h : n < 2 ^ 16) : (UInt16.ofNat n).toNat = n := by
  rw [UInt16.toNat_ofNat']; omega

theorem expand_with_label_iff {P : CryptoProvider} {cs : CipherSuite} {h : Hpke} (hp : P.hpke cs = .ok h)
    (s l c : Bytes) {n : Nat} (hn : n < 2 ^ 16) (out : Bytes) :
    P.expand_with_label cs s l c (UInt16.ofNat n) = .ok out ↔ Expands h s l c n out := by
  unfold CryptoProvider.expand_with_label Expands
  rw [writes_bind_iff (kdfLabel_w (UInt16.ofNat n) l c), toNat_size hn, hp]
  exact ⟨fun h => ⟨hn, h⟩, fun h => h.2⟩

theorem derive_secret_iff {P : CryptoProvider} {cs : CipherSuite} {h : Hpke} (hp : P.hpke cs = .ok h)
    (hs : Sizes h) (s l out : Bytes) : P.derive_secret cs s l = .ok out ↔ Derives h s l out := by
  unfold CryptoProvider.derive_secret Derives
  rw [hp, Res.ok_bind, expand_with_label_iff hp _ _ _ hs.1]

theorem pskOrZero_eq (h : Hpke) (psk : Bytes) : pskOrZero h.kdf_extract_size psk = pskInput h psk := by
  cases psk <;> rfl

theorem extract_joiner_secret_iff {P : CryptoProvider} {ctx : GroupContext} {h : Hpke}
    (hp : P.hpke ctx.cipher_suite = .ok h) (hs : Sizes h) (init commit out : Bytes) :
    ctx.extract_joiner_secret P init commit = .ok out ↔ JoinerSecret h ctx init commit out := by
  unfold GroupContext.extract_joiner_secret JoinerSecret Extracts
  rw [hp]
  simp only [Res.ok_bind, Res.bind_ok_iff]
  constructor
  · rintro ⟨x, h1, r, h2, h3⟩
    obtain ⟨f, rfl⟩ := (writes_ok_iff (groupContext_w ctx) r).1 h2
    exact ⟨f, x, h1, (expand_with_label_iff hp _ _ _ hs.1 _).1 h3⟩
  · rintro ⟨f, x, h1, h3⟩
    exact ⟨x, h1, _, (writes_ok_iff (groupContext_w ctx) _).2 ⟨f, rfl⟩, (expand_with_label_iff hp _ _ _ hs.1 _).2 h3⟩

theorem extract_epoch_secret_iff {P : CryptoProvider} {ctx : GroupContext} {h : Hpke}
    (hp : P.hpke ctx.cipher_suite = .ok h) (hs : Sizes h) (joiner psk out : Bytes) :
    ctx.extract_epoch_secret P joiner psk = .ok out ↔ EpochSecret h ctx joiner psk out := by
  unfold GroupContext.extract_epoch_secret EpochSecret MemberSecret Extracts
  rw [hp]
  simp only [Res.ok_bind, Res.bind_ok_iff, pskOrZero_eq]
  constructor
  · rintro ⟨x, h1, r, h2, h3⟩
    obtain ⟨f, rfl⟩ := (writes_ok_iff (groupContext_w ctx) r).1 h2
    exact ⟨f, x, h1, (expand_with_label_iff hp _ _ _ hs.1 _).1 h3⟩
  · rintro ⟨f, x, h1, h3⟩
    exact ⟨x, h1, _, (writes_ok_iff (groupContext_w ctx) _).2 ⟨f, rfl⟩, (expand_with_label_iff hp _ _ _ hs.1 _).2 h3⟩

theorem extract_welcome_secret_iff {P : CryptoProvider} {cs : CipherSuite} {h : Hpke}
    (hp : P.hpke cs = .ok h) (hs : Sizes h) (joiner psk out : Bytes) :
    extract_welcome_secret P cs joiner psk = .ok out ↔ WelcomeSecret h joiner psk out := by
  unfold extract_welcome_secret WelcomeSecret MemberSecret Extracts
  rw [hp]
  simp only [Res.ok_bind, Res.bind_ok_iff, pskOrZero_eq]
  constructor
  · rintro ⟨x, h1, h2⟩
    exact ⟨x, h1, (derive_secret_iff hp hs _ _ _).1 h2⟩
  · rintro ⟨x, h1, h2⟩
    exact ⟨x, h1, (derive_secret_iff hp hs _ _ _).2 h2⟩

/-! ### PSK secrets -/

theorem pskLoop_iff {P : CryptoProvider} {cs : CipherSuite} {h : Hpke} (hp : P.hpke cs = .ok h) (hs : Sizes h)
    (count : Nat) (hc : count < 2 ^ 16) (out : Bytes) : ∀ (l : List (PreSharedKeyID × Bytes)) (i : Nat) (acc : Bytes),
    i + l.length ≤ count →
    (pskLoop P cs h.kdf_extract_size count i acc l = .ok out ↔ PskFold h count i acc l out) := by
  intro l
  induction l with
  | nil =>
    intro i acc _
    rw [pskLoop]
    exact ⟨fun h => by cases h; exact .done, fun h => by cases h; rfl⟩
  | cons p l ih =>
    intro i acc hl
    obtain ⟨id, psk⟩ := p
    simp only [List.length_cons] at hl
    have hw := pskLabel_w ⟨id, UInt16.ofNat i, UInt16.ofNat count⟩
    have he : pskLabel ⟨id, UInt16.ofNat i, UInt16.ofNat count⟩ =
        struct [preSharedKeyID id, uint 2 i, uint 2 count] := by
      unfold pskLabel
      rw [toNat_size hc, toNat_size (by omega)]
    rw [he] at hw
    rw [pskLoop, hp]
    simp only [Res.ok_bind, Res.bind_ok_iff]
    constructor
    · rintro ⟨x, h1, r, h2, y, h3, z, h4, h5⟩
      obtain ⟨f, rfl⟩ := (writes_ok_iff hw r).1 h2
      exact .step h1 (by omega) hc f ((expand_with_label_iff hp _ _ _ hs.1 _).1 h3) h4 ((ih _ _ (by omega)).1 h5)
    · intro h
      cases h with
      | step h1 _ _ f h3 h4 h5 =>
        exact ⟨_, h1, _, (writes_ok_iff hw _).2 ⟨f, rfl⟩, _, (expand_with_label_iff hp _ _ _ hs.1 _).2 h3, _, h4,
          (ih _ _ (by omega)).2 h5⟩

theorem extract_psk_secret_iff {P : CryptoProvider} {cs : CipherSuite} {h : Hpke} (hp : P.hpke cs = .ok h)
    (hs : Sizes h) (ids : List PreSharedKeyID) (psks : List Bytes) (hl : ids.length < 2 ^ 16) (out : Bytes) :
    extract_psk_secret P cs ids psks = .ok out ↔
      ids.length = psks.length ∧ PskFold h ids.length 0 (zeros h.kdf_extract_size) (ids.zip psks) out := by
  unfold extract_psk_secret
  split
  · next hne => exact ⟨(nomatch ·), fun h => absurd h.1 hne⟩
  · next he =>
    have he : ids.length = psks.length := Classical.byContradiction he
    rw [hp, Res.ok_bind, show (List.replicate h.kdf_extract_size 0 : Bytes) = zeros h.kdf_extract_size from rfl,
      pskLoop_iff hp hs _ hl _ _ _ _ (by rw [List.length_zip]; omega)]
    exact ⟨fun h => ⟨he, h⟩, fun h => h.2⟩

theorem digits_two (v : Nat) : (digits 2 v).length = 2 := rfl

theorem pskLoop_total {P : CryptoProvider} {cs : CipherSuite} {h : Hpke} (hp : P.hpke cs = .ok h)
    (hx : Extractor h) (he : Expander h) (count : Nat) :
    ∀ (l : List (PreSharedKeyID × Bytes)) (i : Nat) (acc : Bytes),
    (∀ p ∈ l, (preSharedKeyID p.1).fits ∧ (preSharedKeyID p.1).bytes.length < 2 ^ 29) →
    ∃ out, pskLoop P cs h.kdf_extract_size count i acc l = .ok out := by
  intro l
  induction l with
  | nil => intro i acc _; exact ⟨acc, rfl⟩
  | cons p l ih =>
    intro i acc hf
    obtain ⟨id, psk⟩ := p
    obtain ⟨hid, hlen⟩ := hf _ (List.mem_cons_self ..)
    have hw := pskLabel_w ⟨id, UInt16.ofNat i, UInt16.ofNat count⟩
    have hfit : (pskLabel ⟨id, UInt16.ofNat i, UInt16.ofNat count⟩).fits :=
      ⟨hid, trivial, trivial⟩
    have hl : (pskLabel ⟨id, UInt16.ofNat i, UInt16.ofNat count⟩).bytes.length < 2 ^ 30 := by
      unfold pskLabel
      simp only [struct, Enc.bytes, List.length_append, digits_two] at hlen ⊢
      omega
    obtain ⟨a, ha⟩ := hx.extracts psk (List.replicate h.kdf_extract_size 0)
    have hal := hx.long _ _ _ (by rw [List.length_replicate]; omega) ha
    obtain ⟨b, hb⟩ := he.expands a (kdfLabel (UInt16.ofNat h.kdf_extract_size).toNat (ascii "derived psk")
      (pskLabel ⟨id, UInt16.ofNat i, UInt16.ofNat count⟩).bytes).bytes (UInt16.ofNat h.kdf_extract_size) hal (by
        rw [UInt16.toNat_ofNat']
        have := Nat.mod_le h.kdf_extract_size (2 ^ 16)
        omega)
    obtain ⟨c, hc⟩ := hx.extracts acc b
    obtain ⟨o, ho⟩ := ih (i + 1) c fun p hp => hf p (List.mem_cons_of_mem _ hp)
    refine ⟨o, ?_⟩
    rw [pskLoop, hp]
    simp only [Res.ok_bind, Res.bind_ok_iff]
    refine ⟨a, ha, _, (writes_ok_iff hw _).2 ⟨hfit, rfl⟩, b, ?_, c, hc, ho⟩
    unfold CryptoProvider.expand_with_label
    rw [writes_bind_iff (kdfLabel_w _ _ _), hp]
    refine ⟨⟨trivial, ⟨trivial, ?_⟩, ⟨trivial, ?_⟩⟩, hb⟩
    · decide
    · simpa [Enc.bytes] using hl

theorem preSharedKeyID_pf : PrefixFree Spec.preSharedKeyID (fun _ => True) :=
  PreSharedKeyID.lawful.inj.prefixFree fun x _ => preSharedKeyID_w x

theorem pskLabel_inj {id id' : PreSharedKeyID} {i i' count count' : Nat} (a1 : i < 2 ^ 16) (a2 : count < 2 ^ 16)
    (a3 : i' < 2 ^ 16) (a4 : count' < 2 ^ 16)
    (f : (struct [preSharedKeyID id, uint 2 i, uint 2 count]).fits)
    (f' : (struct [preSharedKeyID id', uint 2 i', uint 2 count']).fits)
    (h : (struct [preSharedKeyID id, uint 2 i, uint 2 count]).bytes =
      (struct [preSharedKeyID id', uint 2 i', uint 2 count']).bytes) : id = id' ∧ i = i' ∧ count = count' := by
  have key := (preSharedKeyID_pf.seq (u16_pf.seq u16_pf)).eq
    (x := (id, UInt16.ofNat i, UInt16.ofNat count)) (y := (id', UInt16.ofNat i', UInt16.ofNat count'))
    ⟨trivial, trivial, trivial⟩ ⟨trivial, trivial, trivial⟩
    (by rw [toNat_size a1, toNat_size a2]; exact f) (by rw [toNat_size a3, toNat_size a4]; exact f')
    (by rw [toNat_size a1, toNat_size a2, toNat_size a3, toNat_size a4]; exact h)
  simp only [Prod.mk.injEq] at key
  obtain ⟨h1, h2, h3⟩ := key
  refine ⟨h1, ?_, ?_⟩
  · rw [← toNat_size a1, ← toNat_size a3, h2]
  · rw [← toNat_size a2, ← toNat_size a4, h3]

/-! ### Transcript hashes -/

theorem transcriptHash_iff {P : CryptoProvider} {cs : CipherSuite} {h : Hash} (hp : P.hash cs = .ok h)
    (s : TranscriptStep) (interim out : Bytes) :
    s.input.hash P cs interim = .ok out ↔ s.IsCommit ∧ (confirmedTranscriptHashInput s.input).fits ∧
      out = h.digest (interim ++ (confirmedTranscriptHashInput s.input).bytes) := by
  unfold ConfirmedTranscriptHashInput.hash
  by_cases hc : s.IsCommit
  · obtain ⟨c, hc⟩ := hc
    rw [writes_bind_iff (confirmedTranscriptHashInput_w _ c hc), hp]
    simp only [Res.ok_bind, Res.pure_eq]
    exact ⟨fun h => ⟨⟨c, hc⟩, h.1, by cases h.2; rfl⟩, fun h => ⟨h.2.1, by rw [h.2.2]⟩⟩
  · constructor
    · intro h1
      obtain ⟨r, h1, _⟩ := Res.bind_ok_iff.1 h1
      unfold ConfirmedTranscriptHashInput.serialize at h1
      split at h1
      · cases h1
      · next hn =>
        exfalso
        apply hc
        unfold TranscriptStep.IsCommit
        cases hcc : s.input.content.content with
        | Commit c => exact ⟨c, rfl⟩
        | _ => rw [hcc] at hn; simp [Content.content_type] at hn
    · exact fun h => absurd h.1 hc

theorem interimHash_iff {P : CryptoProvider} {cs : CipherSuite} {h : Hash} (hp : P.hash cs = .ok h)
    (confirmed tag out : Bytes) :
    next_interim_transcript_hash P cs confirmed tag = .ok out ↔ (opq tag).fits ∧
      out = h.digest (confirmed ++ (opq tag).bytes) := by
  unfold next_interim_transcript_hash
  rw [writes_bind_iff (writes_opaque tag), hp]
  simp only [Res.ok_bind, Res.pure_eq]
  exact ⟨fun h => ⟨h.1, by cases h.2; rfl⟩, fun h => ⟨h.1, by rw [h.2]⟩⟩

theorem transcriptInput_pf : PrefixFree confirmedTranscriptHashInput ConfirmedTranscriptHashInput.WF :=
  ConfirmedTranscriptHashInput.lawful.inj.prefixFree fun x h =>
    h.2.elim fun c hc => confirmedTranscriptHashInput_w x c hc

theorem collision_mono {H : Bytes → Bytes} {a b a' b' : List Bytes} (h : Collision H a b) (ha : a ⊆ a') (hb : b ⊆ b') :
    Collision H a' b' := by
  obtain ⟨x, hx, y, hy, h⟩ := h
  exact ⟨x, ha hx, y, hb hy, h⟩

/-- One step backwards: equal confirmed hashes. -/
theorem confirmed_step {H : Bytes → Bytes} {i j : Bytes} {s t : TranscriptStep} (hs : s.input.WF) (ht : t.input.WF)
    (fs : (confirmedTranscriptHashInput s.input).fits) (ft : (confirmedTranscriptHashInput t.input).fits)
    (hij : i.length = j.length) (he : H (i ++ (confirmedTranscriptHashInput s.input).bytes) =
      H (j ++ (confirmedTranscriptHashInput t.input).bytes)) :
    (i = j ∧ s.input = t.input) ∨ Collision H [i ++ (confirmedTranscriptHashInput s.input).bytes]
      [j ++ (confirmedTranscriptHashInput t.input).bytes] := by
  by_cases h : i ++ (confirmedTranscriptHashInput s.input).bytes = j ++ (confirmedTranscriptHashInput t.input).bytes
  · obtain ⟨h1, h2⟩ := List.append_inj h hij
    exact .inl ⟨h1, transcriptInput_pf.eq hs ht fs ft h2⟩
  · exact .inr ⟨_, List.mem_singleton.2 rfl, _, List.mem_singleton.2 rfl, h, he⟩

theorem interim_step {H : Bytes → Bytes} {i j s t : Bytes} (fs : (opq s).fits) (ft : (opq t).fits)
    (hij : i.length = j.length) (he : H (i ++ (opq s).bytes) = H (j ++ (opq t).bytes)) :
    (i = j ∧ s = t) ∨ Collision H [i ++ (opq s).bytes] [j ++ (opq t).bytes] := by
  by_cases h : i ++ (opq s).bytes = j ++ (opq t).bytes
  · obtain ⟨h1, h2⟩ := List.append_inj h hij
    exact .inl ⟨h1, opq_pf.eq trivial trivial fs ft h2⟩
  · exact .inr ⟨_, List.mem_singleton.2 rfl, _, List.mem_singleton.2 rfl, h, he⟩

theorem transcript_interim_inj {H : Bytes → Bytes} (hH : ∀ a b, (H a).length = (H b).length) :
    ∀ (xs ys : List TranscriptStep), (∀ s ∈ xs, s.input.WF) → (∀ s ∈ ys, s.input.WF) → xs.length = ys.length →
    ∀ (a b : Bytes × Bytes), a.2.length = b.2.length → ∀ out out', Transcript H a xs out → Transcript H b ys out' →
    out.2 = out'.2 → (xs = ys ∧ a.2 = b.2) ∨ Collision H (transcriptInputs H a.2 xs) (transcriptInputs H b.2 ys) := by
  intro xs
  induction xs with
  | nil =>
    intro ys _ _ hl a b _ out out' h h' he
    cases ys with
    | nil => cases h; cases h'; exact .inl ⟨rfl, he⟩
    | cons => simp at hl
  | cons s xs ih =>
    intro ys hx hy hl a b hab out out' h h' he
    cases ys with
    | nil => simp at hl
    | cons t ys =>
      cases h with
      | commit hc f g h =>
      cases h' with
      | commit hc' f' g' h' =>
      simp only at hab
      have := ih ys (fun s hs => hx s (List.mem_cons_of_mem _ hs)) (fun s hs => hy s (List.mem_cons_of_mem _ hs))
        (by simpa using hl) _ _ (hH _ _) _ _ h h' he
      rcases this with ⟨rfl, h2⟩ | h
      · rcases interim_step g g' (hH _ _) h2 with ⟨h3, h4⟩ | h3
        · rcases confirmed_step (hx _ (List.mem_cons_self ..)) (hy _ (List.mem_cons_self ..)) f f' hab h3 with ⟨h5, h6⟩ | h5
          · refine .inl ⟨?_, h5⟩
            cases s; cases t
            simp only at h4 h6
            rw [h4, h6]
          · exact .inr (collision_mono h5 (by simp [transcriptInputs]) (by simp [transcriptInputs]))
        · exact .inr (collision_mono h3 (by simp [transcriptInputs]) (by simp [transcriptInputs]))
      · exact .inr (collision_mono h
          (fun x hx => List.mem_cons_of_mem _ (List.mem_cons_of_mem _ hx))
          (fun x hx => List.mem_cons_of_mem _ (List.mem_cons_of_mem _ hx)))

theorem transcript_inj {H : Bytes → Bytes} (hH : ∀ a b, (H a).length = (H b).length) :
    ∀ (xs ys : List TranscriptStep), (∀ s ∈ xs, s.input.WF) → (∀ s ∈ ys, s.input.WF) → xs.length = ys.length →
    ∀ (a b : Bytes × Bytes), a.2.length = b.2.length → ∀ out out', Transcript H a xs out → Transcript H b ys out' →
    out.1 = out'.1 →
    (xs.map TranscriptStep.input = ys.map TranscriptStep.input ∧
      xs.dropLast.map TranscriptStep.tag = ys.dropLast.map TranscriptStep.tag ∧ (xs ≠ [] → a.2 = b.2)) ∨
    Collision H (transcriptInputs H a.2 xs) (transcriptInputs H b.2 ys) := by
  intro xs
  induction xs with
  | nil =>
    intro ys _ _ hl a b _ out out' h h' he
    cases ys with
    | nil => exact .inl ⟨rfl, rfl, fun h => absurd rfl h⟩
    | cons => simp at hl
  | cons s xs ih =>
    intro ys hx hy hl a b hab out out' h h' he
    cases ys with
    | nil => simp at hl
    | cons t ys =>
      cases h with
      | commit hc f g h =>
      cases h' with
      | commit hc' f' g' h' =>
      simp only at hab
      have := ih ys (fun s hs => hx s (List.mem_cons_of_mem _ hs)) (fun s hs => hy s (List.mem_cons_of_mem _ hs))
        (by simpa using hl) _ _ (hH _ _) _ _ h h' he
      rcases this with ⟨h1, h1', h2⟩ | h
      · cases xs with
        | nil =>
          cases ys with
          | cons => simp at hl
          | nil =>
            cases h
            cases h'
            rcases confirmed_step (hx _ (List.mem_cons_self ..)) (hy _ (List.mem_cons_self ..)) f f' hab he with
              ⟨h5, h6⟩ | h5
            · exact .inl ⟨by simp [h6], rfl, fun _ => h5⟩
            · exact .inr (collision_mono h5 (by simp [transcriptInputs]) (by simp [transcriptInputs]))
        | cons u xs =>
          cases ys with
          | nil => simp at hl
          | cons v ys =>
          rcases interim_step g g' (hH _ _) (h2 (by simp)) with ⟨h3, h4⟩ | h3
          · rcases confirmed_step (hx _ (List.mem_cons_self ..)) (hy _ (List.mem_cons_self ..)) f f' hab h3 with
              ⟨h5, h6⟩ | h5
            · refine .inl ⟨?_, ?_, fun _ => h5⟩
              · exact List.cons_eq_cons.2 ⟨h6, h1⟩
              · rw [List.dropLast_cons_cons, List.dropLast_cons_cons, List.map_cons, List.map_cons, h1', h4]
            · exact .inr (collision_mono h5 (by simp [transcriptInputs]) (by simp [transcriptInputs]))
          · exact .inr (collision_mono h3 (by simp [transcriptInputs]) (by simp [transcriptInputs]))
      · exact .inr (collision_mono h
          (fun x hx => List.mem_cons_of_mem _ (List.mem_cons_of_mem _ hx))
          (fun x hx => List.mem_cons_of_mem _ (List.mem_cons_of_mem _ hx)))

end Rmls
