import Verif.Proofs.KeySchedule
import Verif.Props.Framing
/-
Properties C32 (key schedule), C33 (PSK secret), C34 (transcript hashes).
-/
namespace Rmls
open Spec Spec.Enc

/-! ## C32 -/

/-- C32: the joiner secret is `ExpandWithLabel(Extract(init_secret, commit_secret), "joiner", context)`. -/
theorem C32_joiner (P : CryptoProvider) (ctx : GroupContext) (h : Hpke) (hp : P.hpke ctx.cipher_suite = .ok h)
    (hs : Sizes h) (init commit out : Bytes) :
    ctx.extract_joiner_secret P init commit = .ok out ↔ JoinerSecret h ctx init commit out :=
  extract_joiner_secret_iff hp hs init commit out

/-- C32: the welcome secret is `DeriveSecret(Extract(joiner_secret, psk_secret), "welcome")`. -/
theorem C32_welcome (P : CryptoProvider) (cs : CipherSuite) (h : Hpke) (hp : P.hpke cs = .ok h)
    (hs : Sizes h) (joiner psk out : Bytes) :
    extract_welcome_secret P cs joiner psk = .ok out ↔ WelcomeSecret h joiner psk out :=
  extract_welcome_secret_iff hp hs joiner psk out

/-- C32: the epoch secret is `ExpandWithLabel(Extract(joiner_secret, psk_secret), "epoch", context)`. -/
theorem C32_epoch (P : CryptoProvider) (ctx : GroupContext) (h : Hpke) (hp : P.hpke ctx.cipher_suite = .ok h)
    (hs : Sizes h) (joiner psk out : Bytes) :
    ctx.extract_epoch_secret P joiner psk = .ok out ↔ EpochSecret h ctx joiner psk out :=
  extract_epoch_secret_iff hp hs joiner psk out

/-- C32: every secret derived from the epoch secret is `DeriveSecret` with the label of RFC 9420, table 4. -/
theorem C32_derived (P : CryptoProvider) (cs : CipherSuite) (h : Hpke) (hp : P.hpke cs = .ok h) (hs : Sizes h)
    (epoch out : Bytes) :
    (P.derive_secret cs epoch SECRET_LABEL_SENDER_DATA = .ok out ↔ Derives h epoch (text "sender data") out) ∧
    (P.derive_secret cs epoch SECRET_LABEL_ENCRYPTION = .ok out ↔ Derives h epoch (text "encryption") out) ∧
    (P.derive_secret cs epoch SECRET_LABEL_EXPORTER = .ok out ↔ Derives h epoch (text "exporter") out) ∧
    (P.derive_secret cs epoch SECRET_LABEL_EXTERNAL = .ok out ↔ Derives h epoch (text "external") out) ∧
    (P.derive_secret cs epoch SECRET_LABEL_CONFIRM = .ok out ↔ Derives h epoch (text "confirm") out) ∧
    (P.derive_secret cs epoch SECRET_LABEL_MEMBERSHIP = .ok out ↔ Derives h epoch (text "membership") out) ∧
    (P.derive_secret cs epoch SECRET_LABEL_RESUMPTION = .ok out ↔ Derives h epoch (text "resumption") out) ∧
    (P.derive_secret cs epoch SECRET_LABEL_AUTHENTICATION = .ok out ↔
      Derives h epoch (text "authentication") out) ∧
    (P.derive_secret cs epoch SECRET_LABEL_INIT = .ok out ↔ Derives h epoch (text "init") out) := by
  refine ⟨?_, ?_, ?_, ?_, ?_, ?_, ?_, ?_, ?_⟩ <;> exact derive_secret_iff hp hs _ _ _

/-- The labels used with secrets of one epoch. -/
def scheduleLabels : List Bytes :=
  [SECRET_LABEL_SENDER_DATA, SECRET_LABEL_ENCRYPTION, SECRET_LABEL_EXPORTER, SECRET_LABEL_EXTERNAL,
    SECRET_LABEL_CONFIRM, SECRET_LABEL_MEMBERSHIP, SECRET_LABEL_RESUMPTION, SECRET_LABEL_AUTHENTICATION,
    SECRET_LABEL_INIT]

/-- C32: the labels are pairwise distinct, and derivations with different ones of them expand the epoch secret with
different inputs, whatever the size. -/
theorem C32_distinct : scheduleLabels.Nodup ∧ ∀ a ∈ scheduleLabels, ∀ b ∈ scheduleLabels, a ≠ b → ∀ n n' : UInt16,
    (kdfLabel n.toNat a []).bytes ≠ (kdfLabel n'.toNat b []).bytes := by
  refine ⟨by decide, ?_⟩
  have hf : ∀ a ∈ scheduleLabels, (labelled a []).fits := by decide
  have hk : ∀ a ∈ scheduleLabels, ∀ n : UInt16, (kdfLabel n.toNat a []).fits := fun a ha n => ⟨trivial, hf a ha⟩
  intro a ha b hb hne n n' he
  exact hne (kdfLabel_inj (hk a ha n) (hk b hb n') he).2.1

/-- C32: the joiner and the epoch secret of one context are expanded with an input that belongs to this secret and this
context only. -/
theorem C32_context (n n' : UInt16) (x y : GroupContext) (hx : ContextCanonical x) (hy : ContextCanonical y)
    (l l' : Bytes) (fx : (groupContext x).fits) (fy : (groupContext y).fits)
    (f : (kdfLabel n.toNat l (groupContext x).bytes).fits) (f' : (kdfLabel n'.toNat l' (groupContext y).bytes).fits)
    (h : (kdfLabel n.toNat l (groupContext x).bytes).bytes = (kdfLabel n'.toNat l' (groupContext y).bytes).bytes) :
    l = l' ∧ x = y := by
  obtain ⟨_, h1, h2⟩ := kdfLabel_inj f f' h
  exact ⟨h1, groupContext_pf.eq hx hy fx fy h2⟩

/-- The example suite has such sizes, and all derivations succeed in it. -/
theorem toy_sizes : Sizes toyHpke := by unfold Sizes toyHpke; decide
example : ∃ j e w, toyContext.extract_joiner_secret toyProvider [1] [2] = .ok j ∧
    toyContext.extract_epoch_secret toyProvider j [] = .ok e ∧
    extract_welcome_secret toyProvider toyContext.cipher_suite j [3] = .ok w := ⟨_, _, _, rfl, rfl, rfl⟩

/-! ## C33 -/

/-- C33, what is proved: for fewer than 2^16 PSKs the result is the iteration of RFC 9420, section 8.4, and a different
number of PSKs than of ids is an error.  Missing: longer lists, where the claim is false (`C33_refuted`). -/
theorem C33_fold_partial (P : CryptoProvider) (cs : CipherSuite) (h : Hpke) (hp : P.hpke cs = .ok h) (hs : Sizes h)
    (ids : List PreSharedKeyID) (psks : List Bytes) (hl : ids.length < 2 ^ 16) (out : Bytes) :
    extract_psk_secret P cs ids psks = .ok out ↔
      ids.length = psks.length ∧ PskFold h ids.length 0 (zeros h.kdf_extract_size) (ids.zip psks) out :=
  extract_psk_secret_iff hp hs ids psks hl out

/-- C33: a mismatch of the lengths is reported before anything else. -/
theorem C33_mismatch (P : CryptoProvider) (cs : CipherSuite) (ids : List PreSharedKeyID) (psks : List Bytes)
    (h : ids.length ≠ psks.length) : extract_psk_secret P cs ids psks = .err .PskIDsAndPskLenNotMatch := by
  unfold extract_psk_secret
  rw [if_pos h]

/-- C33: if the primitives do what their RFCs say and the ids can be written, then a mismatch is the only failure. -/
theorem C33_succeeds (P : CryptoProvider) (cs : CipherSuite) (h : Hpke) (hp : P.hpke cs = .ok h)
    (hx : Extractor h) (he : Expander h)
    (ids : List PreSharedKeyID) (psks : List Bytes)
    (hf : ∀ id ∈ ids, (preSharedKeyID id).fits ∧ (preSharedKeyID id).bytes.length < 2 ^ 29)
    (hl : ids.length = psks.length) : ∃ out, extract_psk_secret P cs ids psks = .ok out := by
  unfold extract_psk_secret
  rw [if_neg (by simpa using hl), hp, Res.ok_bind]
  exact pskLoop_total hp hx he _ _ _ _ fun p hp => hf _ (List.of_mem_zip hp).1

/-- C33: different ids, positions or numbers of PSKs are expanded with different inputs. -/
theorem C33_binding (id id' : PreSharedKeyID) (i i' count count' : Nat)
    (a1 : i < 2 ^ 16) (a2 : count < 2 ^ 16) (a3 : i' < 2 ^ 16) (a4 : count' < 2 ^ 16)
    (f : (struct [preSharedKeyID id, uint 2 i, uint 2 count]).fits)
    (f' : (struct [preSharedKeyID id', uint 2 i', uint 2 count']).fits) (n n' : UInt16)
    (g : (kdfLabel n.toNat (text "derived psk") (struct [preSharedKeyID id, uint 2 i, uint 2 count]).bytes).fits)
    (g' : (kdfLabel n'.toNat (text "derived psk") (struct [preSharedKeyID id', uint 2 i', uint 2 count']).bytes).fits)
    (h : (kdfLabel n.toNat (text "derived psk") (struct [preSharedKeyID id, uint 2 i, uint 2 count]).bytes).bytes =
      (kdfLabel n'.toNat (text "derived psk") (struct [preSharedKeyID id', uint 2 i', uint 2 count']).bytes).bytes) :
    id = id' ∧ i = i' ∧ count = count' :=
  pskLabel_inj a1 a2 a3 a4 f f' (kdfLabel_inj g g' h).2.2

theorem toy_expander : Expander toyHpke where
  expands _ _ _ _ _ := ⟨_, rfl⟩
  long _ _ _ h := by cases h; rw [List.length_replicate]; decide

theorem toy_extractor : Extractor toyHpke where
  extracts _ _ := ⟨_, rfl⟩
  long _ _ _ hl h := by cases h; rw [List.length_append]; omega

/-- C33 is false for 65536 PSKs: the code returns a secret (with index and count reduced modulo 2^16), although section
8.4 has no such `PSKLabel`. -/
theorem C33_refuted : ∃ (ids : List PreSharedKeyID) (psks : List Bytes) (out : Bytes),
    extract_psk_secret toyProvider .MLS_128_DHKEMX25519_AES128GCM_SHA256_Ed25519 ids psks = .ok out ∧
    ¬ ∃ out, PskFold toyHpke ids.length 0 (zeros toyHpke.kdf_extract_size) (ids.zip psks) out := by
  let id : PreSharedKeyID := ⟨.External [1], [2]⟩
  obtain ⟨out, h⟩ := C33_succeeds toyProvider .MLS_128_DHKEMX25519_AES128GCM_SHA256_Ed25519 toyHpke rfl
    toy_extractor toy_expander (List.replicate 65536 id) (List.replicate 65536 [3])
    (fun x hx => by rw [(List.mem_replicate.1 hx).2]; decide) (by rw [List.length_replicate, List.length_replicate])
  refine ⟨_, _, out, h, ?_⟩
  rintro ⟨o, h⟩
  rw [List.zip_replicate'] at h
  rw [List.length_replicate, show (65536 : Nat) = 65535 + 1 from rfl, List.replicate_succ] at h
  cases h with
  | step _ _ hc => exact absurd hc (by decide)

/-- The hypotheses of the theorems can be met by a list of two. -/
example : ∃ out, extract_psk_secret toyProvider .MLS_128_DHKEMX25519_AES128GCM_SHA256_Ed25519
    [⟨.External [1], [2]⟩, ⟨.Resumption ⟨.Branch, [5], 6⟩, []⟩] [[3], [4]] = .ok out := ⟨_, rfl⟩

/-! ## C34 -/

/-- The two functions of the code applied to one commit after the other, as a group does in each epoch. -/
def runTranscript (P : CryptoProvider) (cs : CipherSuite) : Bytes × Bytes → List TranscriptStep → Res (Bytes × Bytes)
  | x, [] => .ok x
  | (_, interim), s :: rest => do
    let confirmed ← s.input.hash P cs interim
    let interim ← next_interim_transcript_hash P cs confirmed s.tag
    runTranscript P cs (confirmed, interim) rest

/-- C34: the functions compute the transcript hashes of section 8.2, and refuse anything but commits. -/
theorem C34_hashes (P : CryptoProvider) (cs : CipherSuite) (h : Hash) (hp : P.hash cs = .ok h)
    (steps : List TranscriptStep) (x out : Bytes × Bytes) :
    runTranscript P cs x steps = .ok out ↔ Transcript h.digest x steps out := by
  induction steps generalizing x with
  | nil => exact ⟨fun h => by cases h; exact .done, fun h => by cases h; rfl⟩
  | cons s rest ih =>
    obtain ⟨c, i⟩ := x
    unfold runTranscript
    simp only [Res.bind_ok_iff]
    constructor
    · rintro ⟨c', h1, i', h2, h3⟩
      obtain ⟨hc, f, rfl⟩ := (transcriptHash_iff hp ..).1 h1
      obtain ⟨g, rfl⟩ := (interimHash_iff hp ..).1 h2
      exact .commit hc f g ((ih _).1 h3)
    · intro h
      cases h with
      | commit hc f g h =>
        exact ⟨_, (transcriptHash_iff hp ..).2 ⟨hc, f, rfl⟩, _, (interimHash_iff hp ..).2 ⟨g, rfl⟩, (ih _).2 h⟩

/-- C34: with digests of one length, two histories of the same length that start in the same state and end in the same
confirmed transcript hash consist of the same commits with the same signatures, and of the same confirmation tags up to
the last one (which that hash does not cover yet), or two of the hashed strings are a collision. -/
theorem C34_confirmed (H : Bytes → Bytes) (hH : ∀ a b, (H a).length = (H b).length) (start : Bytes × Bytes)
    (xs ys : List TranscriptStep) (hx : ∀ s ∈ xs, s.input.WF) (hy : ∀ s ∈ ys, s.input.WF)
    (hl : xs.length = ys.length) (out out' : Bytes × Bytes) (h : Transcript H start xs out)
    (h' : Transcript H start ys out') (he : out.1 = out'.1) :
    (xs.map TranscriptStep.input = ys.map TranscriptStep.input ∧
      xs.dropLast.map TranscriptStep.tag = ys.dropLast.map TranscriptStep.tag) ∨
    Collision H (transcriptInputs H start.2 xs) (transcriptInputs H start.2 ys) := by
  rcases transcript_inj hH xs ys hx hy hl start start rfl out out' h h' he with h | h
  · exact .inl ⟨h.1, h.2.1⟩
  · exact .inr h

/-- C34: if they end in the same interim transcript hash, they are the same histories. -/
theorem C34_interim (H : Bytes → Bytes) (hH : ∀ a b, (H a).length = (H b).length) (start : Bytes × Bytes)
    (xs ys : List TranscriptStep) (hx : ∀ s ∈ xs, s.input.WF) (hy : ∀ s ∈ ys, s.input.WF)
    (hl : xs.length = ys.length) (out out' : Bytes × Bytes) (h : Transcript H start xs out)
    (h' : Transcript H start ys out') (he : out.2 = out'.2) :
    xs = ys ∨ Collision H (transcriptInputs H start.2 xs) (transcriptInputs H start.2 ys) :=
  transcript_interim_inj hH xs ys hx hy hl start start rfl out out' h h' he |>.imp (·.1) id

/-- What a member hashes for a list of commit messages. -/
def stepsOf (xs : List AuthenticatedContent) : List TranscriptStep :=
  xs.map fun a => ⟨a.confirmed_transcript_hash_input, a.auth.confirmation_tag⟩

theorem steps_wf {H : Bytes → Bytes} {x out : Bytes × Bytes} (zs : List AuthenticatedContent) (hz : ∀ a ∈ zs, a.content.WF)
    (ht : Transcript H x (stepsOf zs) out) : ∀ s ∈ stepsOf zs, s.input.WF := by
  have commits : ∀ (steps : List TranscriptStep) x out, Transcript H x steps out → ∀ s ∈ steps, s.IsCommit := by
    intro steps x out ht
    induction ht with
    | done => intro s hs; cases hs
    | commit hc _ _ _ ih =>
      intro s hs
      rcases List.mem_cons.1 hs with rfl | hs
      · exact hc
      · exact ih s hs
  intro s hs
  obtain ⟨c, hc⟩ := commits _ _ _ ht s hs
  obtain ⟨a, ha, rfl⟩ := List.mem_map.1 hs
  unfold ConfirmedTranscriptHashInput.WF
  exact ⟨hz a ha, c, hc⟩

/-- C34: two members who start in the same state, have each seen the same number of commits, and arrive at the same interim
transcript hash, have seen the same messages: wire format, content, signature and confirmation tag. -/
theorem C34_messages (P : CryptoProvider) (cs : CipherSuite) (h : Hash) (hp : P.hash cs = .ok h)
    (hH : ∀ a b, (h.digest a).length = (h.digest b).length) (start : Bytes × Bytes) (xs ys : List AuthenticatedContent)
    (hx : ∀ a ∈ xs, a.content.WF) (hy : ∀ a ∈ ys, a.content.WF) (hl : xs.length = ys.length) (c c' i : Bytes)
    (h1 : runTranscript P cs start (stepsOf xs) = .ok (c, i)) (h2 : runTranscript P cs start (stepsOf ys) = .ok (c', i)) :
    xs = ys ∨ Collision h.digest (transcriptInputs h.digest start.2 (stepsOf xs))
      (transcriptInputs h.digest start.2 (stepsOf ys)) := by
  rw [C34_hashes P cs h hp] at h1 h2
  rcases C34_interim h.digest hH start (stepsOf xs) (stepsOf ys) (steps_wf xs hx h1) (steps_wf ys hy h2) (by simp [stepsOf, hl]) _ _
    h1 h2 rfl with he | hc
  · refine .inl ((List.map_inj_right ?_).1 he)
    rintro ⟨w, c, s, t⟩ ⟨w', c', s', t'⟩ hab
    simp only [AuthenticatedContent.confirmed_transcript_hash_input, TranscriptStep.mk.injEq,
      ConfirmedTranscriptHashInput.mk.injEq] at hab
    obtain ⟨⟨rfl, rfl, rfl⟩, rfl⟩ := hab
    rfl
  · exact .inr hc

/-- A hash with digests of four bytes, and a commit. -/
def shortHash : Hash where
  size := 4
  digest b := (b ++ [0, 0, 0, 0]).take 4
  mac k b := k ++ b
example : ∀ a b, (shortHash.digest a).length = (shortHash.digest b).length := by
  intro a b; simp only [shortHash, List.length_take, List.length_append, List.length_cons, List.length_nil]; omega
def toyCommitStep (e : UInt64) : TranscriptStep :=
  ⟨⟨.PublicMessage, { toyContent with epoch := e, content := .Commit ⟨[], none⟩ }, [5]⟩, [e.toUInt8]⟩
example : (toyCommitStep 1).input.WF := by
  unfold ConfirmedTranscriptHashInput.WF toyCommitStep
  exact ⟨by simp [FramedContent.WF, Content.WF, Commit.WF], _, rfl⟩
example : ∃ out, runTranscript { toyProvider with hash := fun _ => .ok shortHash }
    .MLS_128_DHKEMX25519_AES128GCM_SHA256_Ed25519 ([], []) [toyCommitStep 1, toyCommitStep 2] = .ok out := ⟨_, rfl⟩

example : ∃ out, runTranscript { toyProvider with hash := fun _ => .ok shortHash }
    .MLS_128_DHKEMX25519_AES128GCM_SHA256_Ed25519 ([], []) (stepsOf [⟨.PublicMessage, { toyContent with
      content := .Commit ⟨[], none⟩ }, ⟨[5], [6]⟩⟩]) = .ok out := ⟨_, rfl⟩

end Rmls
