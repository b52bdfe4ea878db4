import Verif.Proofs.Codecs
/-
Properties C01 to C09 and C39: the wire format.
-/
namespace Rmls
open Spec

/-! ## C01: length prefixes -/

/-- C01.  The writer emits the header of RFC 9420 section 2.1.2 (`Spec.header`, defined by division
and remainder, without bit operations), and refuses exactly the numbers of 2^30 and more. -/
theorem C01_varint_writes (n : Nat) : serialize_varint n =
    match header n with
    | some h => .ok h
    | none => .err .VarintExceeds30Bits :=
  serialize_varint_header n

/-- C01.  The reader accepts exactly the header of RFC 9420 and nothing else, leaving the rest. -/
theorem C01_varint_reads (buf rest : Bytes) (n : Nat) :
    deserialize_varint buf = .ok (n, rest) ↔ ∃ h, header n = some h ∧ buf = h ++ rest := by
  constructor
  · intro h
    obtain ⟨_, b, hb, rfl⟩ := lawful_varint.canon _ _ _ h
    rw [serialize_varint_header] at hb
    cases hh : header n with
    | none => simp [hh] at hb
    | some h => simp [hh] at hb; exact ⟨h, rfl, by rw [hb]⟩
  · rintro ⟨h, hh, rfl⟩
    refine lawful_varint.rt n h rest ?_ (by rw [serialize_varint_header, hh])
    unfold header at hh
    split at hh
    · omega
    · split at hh
      · omega
      · split at hh
        · omega
        · simp at hh

/-- C01.  Numbers below 2^30, and only those, have a header. -/
theorem C01_varint_range (n : Nat) : (∃ h, header n = some h) ↔ n < 2 ^ 30 := by
  unfold header
  constructor
  · rintro ⟨h, hh⟩
    repeat' split at hh
    all_goals first | omega | simp at hh
  · intro h
    repeat' split
    all_goals first | exact ⟨_, rfl⟩ | omega

example : deserialize_varint [0x7b, 0xbd, 0xff] = .ok (15293, [0xff]) := by rfl
example : header 15293 = some [0x7b, 0xbd] := by rfl
/-- The two-byte form of 37 is refused. -/
example : deserialize_varint [0x40, 0x25] = .err .MinimumEncodingWasNotUsed := by rfl

/-! ## A concrete message -/

/-- A commit sent by leaf 3 with one removal, as a public message. -/
def sampleCommit : MLSMessage :=
  { version := .MLS10
    wire_message := .PublicMessage
      { content :=
          { group_id := [1, 2, 3], epoch := 7, sender := .Member 3, authenticated_data := [9]
            content := .Commit { proposals := [.Proposal (.Remove { removed := 5 })], path := none } }
        auth := { signature := [4, 5, 6], confirmation_tag := [7, 8] }
        membership_tag := some [1] } }

def sampleCommitBytes : Bytes :=
  [0, 1, 0, 1, 3, 1, 2, 3, 0, 0, 0, 0, 0, 0, 0, 7, 1, 0, 0, 0, 3, 1, 9, 3, 7, 1, 0, 3, 0, 0, 0, 5, 0,
   3, 4, 5, 6, 2, 7, 8, 1, 1]

theorem sampleCommit_serialize : sampleCommit.serialize = .ok sampleCommitBytes := by rfl

theorem sampleCommit_WF : sampleCommit.WF := by
  simp [MLSMessage.WF, sampleCommit, WireMessage.WF, PublicMessage.WF,
    FramedContent.WF, Content.WF, Commit.WF, ProposalOrRef.WF, Proposal.WF, FramedContentAuthData.WF,
    Content.content_type]

def mlsMessageCodec : Codec :=
  ⟨"MLSMessage", _, MLSMessage.deserialize, MLSMessage.serialize, MLSMessage.WF,
    fun x => wirePre x.wire_message, mlsMessage⟩

theorem mlsMessageCodec_mem : mlsMessageCodec ∈ wireCodecs := by
  unfold wireCodecs mlsMessageCodec
  iterate 57 apply List.mem_cons_of_mem
  exact List.mem_cons_self

/-! ## C02: round trip -/

/-- C02.  Every wire type: a written value, followed by anything, is read back as the same value. -/
theorem C02_round_trip : ∀ c ∈ wireCodecs, RoundTrips c :=
  fun c hc => (codec_lawful c hc).rt

/-- A concrete well-formed message is covered. -/
example : MLSMessage.deserialize (sampleCommitBytes ++ [0xab]) = .ok (sampleCommit, [0xab]) :=
  C02_round_trip _ mlsMessageCodec_mem sampleCommit _ _ sampleCommit_WF sampleCommit_serialize

/-! ## C03: canonical encodings -/

/-- C03.  Every wire type: re-serializing an accepted value gives back the consumed bytes. -/
theorem C03_canonical : ∀ c ∈ wireCodecs, Canonical c :=
  fun c hc => (codec_lawful c hc).canon

/-- C03.  Two accepted byte strings with the same value and the same rest are the same. -/
theorem C03_injective : ∀ c ∈ wireCodecs, ∀ b1 b2 x rest,
    c.read b1 = .ok (x, rest) → c.read b2 = .ok (x, rest) → b1 = b2 := by
  intro c hc b1 b2 x rest h1 h2
  obtain ⟨_, e1, hs1, rfl⟩ := C03_canonical c hc _ _ _ h1
  obtain ⟨_, e2, hs2, rfl⟩ := C03_canonical c hc _ _ _ h2
  rw [hs1] at hs2
  cases hs2
  rfl

/-- C03.  No encoding is a proper prefix of another: the value and the rest are determined. -/
theorem C03_prefix_free : ∀ c ∈ wireCodecs, ∀ b1 b2 x y s,
    c.read b1 = .ok (x, []) → c.read b2 = .ok (y, []) → b2 = b1 ++ s → s = [] ∧ x = y := by
  intro c hc b1 b2 x y s h1 h2 rfl
  obtain ⟨hw, e1, hs1, he⟩ := C03_canonical c hc _ _ _ h1
  rw [List.append_nil] at he
  subst he
  have := C02_round_trip c hc x b1 s hw hs1
  rw [this] at h2
  cases h2
  exact ⟨rfl, rfl⟩

example : ∃ x, MLSMessage.deserialize sampleCommitBytes = .ok (x, []) := ⟨sampleCommit, by rfl⟩

/-- The ratchet tree is the exception: it may arrive with trailing blank nodes. -/
theorem C03_ratchet_tree_refuted : ∃ b1 b2 t, b1 ≠ b2 ∧
    RatchetTree.deserialize b1 = .ok (t, []) ∧ RatchetTree.deserialize b2 = .ok (t, []) :=
  ⟨[2, 0, 0], [3, 0, 0, 0], [none, none, none], by decide, rfl, rfl⟩

/-! ## C04 and C08: RFC encoding, failures of serialization -/

/-- C04, C08.  Every wire type: the bytes are those of the RFC encoding if all its vectors fit a
length header, and otherwise serialization reports an error.  (`pre`: the message of a member has its
membership tag, signed content of members has its group context, transcript input is a commit.  What
happens outside `pre`: `C04_untagged`, `C08_no_context`, `C08_no_commit`.) -/
theorem C04_rfc_bytes_partial : ∀ c ∈ wireCodecs, ∀ x b, c.pre x → c.write x = .ok b → b = (c.enc x).bytes := by
  intro c hc x b hp h
  rcases codec_writes c hc x hp with ⟨_, h1⟩ | ⟨_, h1 | h1⟩ <;> rw [h1] at h <;> cases h
  rfl

/-- C04.  The same for the ratchet tree: the optional nodes without the trailing blanks. -/
theorem C04_rfc_bytes_ratchet_tree (t : RatchetTree) (b : Bytes) (h : RatchetTree.serialize t = .ok b) :
    b = (ratchetTree t).bytes := by
  rcases ratchetTree_w t with ⟨_, h1⟩ | ⟨_, h1 | h1⟩ <;> rw [h1] at h <;> cases h
  rfl

/-- C04.  The plaintext of a private message. -/
theorem C04_rfc_bytes_private_content (x : PrivateMessageContent) (b : Bytes) (h : x.serialize = .ok b) :
    b = (privateMessageContent x).bytes := by
  rcases privateMessageContent_w x with ⟨_, h1⟩ | ⟨_, h1 | h1⟩ <;> rw [h1] at h <;> cases h
  rfl

/-- C08.  Serialization succeeds exactly when every vector of the RFC encoding is below 2^30 bytes. -/
theorem C08_succeeds_iff_partial : ∀ c ∈ wireCodecs, ∀ x, c.pre x →
    ((∃ b, c.write x = .ok b) ↔ (c.enc x).fits) := by
  intro c hc x hp
  rcases codec_writes c hc x hp with ⟨hf, h1⟩ | ⟨hf, h1 | h1⟩
  · exact ⟨fun _ => hf, fun _ => ⟨_, h1⟩⟩
  · exact ⟨fun ⟨b, hb⟩ => (by rw [h1] at hb; cases hb), fun h => absurd h hf⟩
  · exact ⟨fun ⟨b, hb⟩ => (by rw [h1] at hb; cases hb), fun h => absurd h hf⟩

theorem C08_succeeds_iff_ratchet_tree (t : RatchetTree) :
    (∃ b, RatchetTree.serialize t = .ok b) ↔ (ratchetTree t).fits := by
  rcases ratchetTree_w t with ⟨hf, h1⟩ | ⟨hf, h1 | h1⟩
  · exact ⟨fun _ => hf, fun _ => ⟨_, h1⟩⟩
  · exact ⟨fun ⟨b, hb⟩ => (by rw [h1] at hb; cases hb), fun h => absurd h hf⟩
  · exact ⟨fun ⟨b, hb⟩ => (by rw [h1] at hb; cases hb), fun h => absurd h hf⟩

/-- C08.  The error in the other case is one of the two size errors. -/
theorem C08_error_partial : ∀ c ∈ wireCodecs, ∀ x e, c.pre x → c.write x = .err e →
    ¬ (c.enc x).fits ∧ (e = .VarintExceeds30Bits ∨ e = .OpaqueSizeExceedsMaximumValueOfU32) := by
  intro c hc x e hp h
  rcases codec_writes c hc x hp with ⟨hf, h1⟩ | ⟨hf, h1 | h1⟩ <;> rw [h1] at h <;> cases h
  · exact ⟨hf, Or.inl rfl⟩
  · exact ⟨hf, Or.inr rfl⟩

/-- C08.  Serialization never panics or hangs, for any value whatsoever. -/
theorem C08_never_faults : ∀ c ∈ wireCodecs, ∀ x f, c.write x ≠ .fault f := codec_write_noFault

example : wirePre sampleCommit.wire_message ∧ (mlsMessage sampleCommit).fits :=
  ⟨fun _ => rfl, (C08_succeeds_iff_partial _ mlsMessageCodec_mem sampleCommit (fun _ => rfl)).1
    ⟨_, sampleCommit_serialize⟩⟩

/-- C04, C08.  What is written for a member's message without membership tag, as `PublicMessage::new`
returns it: success or failure depends on content and authentication data alone, and the bytes lack the
last field of the encoding, whichever tag one has in mind. -/
theorem C04_untagged (x : PublicMessage) (i : LeafIndex) (hs : x.content.sender = .Member i)
    (ht : x.membership_tag = none) :
    ((∃ b, x.serialize = .ok b) ↔
      (framedContent x.content).fits ∧ (framedContentAuthData x.content.content x.auth).fits) ∧
    ∀ b, x.serialize = .ok b → ∀ t, (publicMessage x t).bytes = b ++ (Enc.opq t).bytes := by
  have hw : Writes x.serialize
      (.seq (framedContent x.content) (framedContentAuthData x.content.content x.auth)) := by
    unfold PublicMessage.serialize PublicMessage.serializeTag
    rw [hs, ht]
    have := Writes.app (framedContent_w x.content)
      (framedContentAuthData_w x.content.content x.auth)
    rw [show ∀ a b : Res Bytes, a +++ (b +++ .ok []) = a +++ b from ?_]
    · exact this
    · intro a b
      cases a <;> cases b <;> simp [Res.app]
  rcases hw with ⟨hf, h1⟩ | ⟨hf, h1⟩
  · refine ⟨⟨fun _ => hf, fun _ => ⟨_, h1⟩⟩, ?_⟩
    intro b hb t
    rw [h1] at hb
    cases hb
    simp [publicMessage, hs, Enc.struct, Enc.bytes]
  · refine ⟨⟨fun ⟨b, hb⟩ => ?_, fun h => absurd h hf⟩, fun b hb => ?_⟩ <;>
      rcases h1 with h1 | h1 <;> rw [h1] at hb <;> cases hb

/-- C04, C02.  These bytes cannot be read back. -/
theorem C04_untagged_unreadable (x : PublicMessage) (b : Bytes) (i : LeafIndex)
    (hs : x.content.sender = .Member i) (ht : x.membership_tag = none) (hc : x.content.WF)
    (ha : x.auth.WF x.content.content.content_type) (h : x.serialize = .ok b) :
    PublicMessage.deserialize b = .err .BufferTooSmall := by
  unfold PublicMessage.serialize PublicMessage.serializeTag at h
  rw [hs, ht] at h
  cases h1 : x.content.serialize with
  | err => rw [h1] at h; cases h
  | fault => rw [h1] at h; cases h
  | ok c =>
    cases h2 : x.auth.serialize x.content.content.content_type with
    | err => rw [h1, h2] at h; cases h
    | fault => rw [h1, h2] at h; cases h
    | ok a =>
      rw [h1, h2] at h
      obtain rfl : c ++ (a ++ []) = b := by injection h
      have r1 := FramedContent.lawful.rt _ _ (a ++ []) hc h1
      have r2 := (FramedContentAuthData.lawful _).rt _ _ [] ha h2
      unfold PublicMessage.deserialize
      simp only [De.bind_apply, r1, r2, hs]
      rfl

/-- A message of leaf 3 as `PublicMessage::new` returns it. -/
def untagged : PublicMessage :=
  { content := { group_id := [1], epoch := 7, sender := .Member 3, authenticated_data := [9]
                 content := .Application [5] }
    auth := { signature := [4], confirmation_tag := [] }
    membership_tag := none }

def untaggedBytes : Bytes := [1, 1, 0, 0, 0, 0, 0, 0, 0, 7, 1, 0, 0, 0, 3, 1, 9, 1, 1, 5, 1, 4]

/-- C04, C08.  So the claim is false of a member's message that has not been tagged: it is written,
and the bytes are no encoding of it. -/
theorem C04_untagged_refuted : ∃ (x : PublicMessage) (b : Bytes), x.serialize = .ok b ∧
    ∀ t, b ≠ (publicMessage x t).bytes := by
  refine ⟨untagged, untaggedBytes, rfl, fun t h => ?_⟩
  have h1 := (C04_untagged untagged 3 rfl rfl).2 untaggedBytes rfl t
  have h2 : untaggedBytes = untaggedBytes ++ (Enc.opq t).bytes := h.trans h1
  have h3 := congrArg List.length h2
  simp only [List.length_append, Enc.opq, Enc.bytes] at h3
  have h5 : t = [] := List.eq_nil_of_length_eq_zero (by omega)
  subst h5
  simp [header, digits] at h3

example : untagged.serialize = .ok untaggedBytes ∧
    PublicMessage.deserialize untaggedBytes = .err .BufferTooSmall :=
  ⟨rfl, C04_untagged_unreadable untagged untaggedBytes 3 rfl rfl
    (by simp [untagged, FramedContent.WF, Content.WF])
    (by simp [untagged, FramedContentAuthData.WF, Content.content_type]) rfl⟩

/-- C08.  Signed content of a member or of a joiner by commit without its group context is never
written: the error says so, unless the content is too large already. -/
theorem C08_no_context (x : FramedContentTBS) (h : ¬ tbsPre x) :
    ((framedContent x.content).fits →
      x.serialize = .err .SenderMemberAndNewMemberCommitNoGroupContext) ∧
    (¬ (framedContent x.content).fits →
      x.serialize = .err .VarintExceeds30Bits ∨ x.serialize = .err .OpaqueSizeExceedsMaximumValueOfU32) := by
  have hc : FramedContentTBS.serializeContext x.content.sender x.context =
      .err .SenderMemberAndNewMemberCommitNoGroupContext := by
    unfold tbsPre at h
    unfold FramedContentTBS.serializeContext
    cases hs : x.content.sender <;> cases hx : x.context <;> simp_all [Sender.hasContext]
  have hw := Writes.app (version_w x.version) (Writes.app (wireFormat_w x.wire_format)
    (framedContent_w x.content))
  have hp : ∀ a b c d : Res Bytes, a +++ b +++ c +++ d = (a +++ b +++ c) +++ d := by
    intro a b c d
    cases a <;> cases b <;> cases c <;> cases d <;> simp [Res.app]
  have hf : (Enc.seq (version x.version) (.seq (wireFormat x.wire_format)
      (framedContent x.content))).fits ↔ (framedContent x.content).fits := by
    simp only [Enc.fits]
    exact ⟨fun h => h.2.2, fun h => ⟨by cases x.version <;> trivial, by cases x.wire_format <;> trivial, h⟩⟩
  unfold FramedContentTBS.serialize
  rw [hp, hc]
  rcases hw with ⟨h1, h2⟩ | ⟨h1, h2 | h2⟩ <;> rw [hf] at h1 <;> rw [h2] <;> simp [Res.app, h1]

example : ¬ tbsPre ⟨.MLS10, .PublicMessage, untagged.content, none⟩ ∧
    FramedContentTBS.serialize ⟨.MLS10, .PublicMessage, untagged.content, none⟩ =
      .err .SenderMemberAndNewMemberCommitNoGroupContext :=
  ⟨fun h => by simpa using h trivial, rfl⟩

/-- C08.  Transcript input that is not a commit is never written. -/
theorem C08_no_commit (x : ConfirmedTranscriptHashInput) (h : ¬ ∃ c, x.content.content = .Commit c) :
    x.serialize = .err .ConfirmedTranscriptHashInputContainContentCommitOnly := by
  unfold ConfirmedTranscriptHashInput.serialize
  rw [if_pos]
  cases hc : x.content.content <;> simp_all [Content.content_type]

/-! ## C05: panics -/

/-- A key package message cut off in the middle of the lifetime of its leaf node. -/
def truncatedKeyPackage : Bytes :=
  [0, 1, 0, 5, 0, 1, 0, 1, 0, 0, 0, 0, 1, 0, 0, 0, 0, 0, 0, 1, 0, 0, 0, 0, 0, 0, 0, 1]

/-- C05 is false: a 28-byte message makes the process panic. -/
theorem C05_refuted : ∃ b, MLSMessage.deserialize b = .fault .panic := ⟨truncatedKeyPackage, by rfl⟩

/-- C05 is false for a lifetime, a parent node and a proposal type alone. -/
theorem C05_refuted_parts : (∃ b, Lifetime.deserialize b = .fault .panic) ∧
    (∃ b, ParentNode.deserialize b = .fault .panic) ∧ (∃ b, RatchetTree.deserialize b = .fault .panic) ∧
    (∃ b, ProposalType.deserialize b = .fault .panic) :=
  ⟨⟨[0, 0, 0, 0, 0, 0, 0, 0], by rfl⟩, ⟨[0, 0, 1, 0], by rfl⟩, ⟨[6, 1, 2, 0, 0, 1, 0], by rfl⟩,
    ⟨[0], by rfl⟩⟩

/-- C05, what holds: these types never panic.  Missing: the types containing a leaf node lifetime
or unmerged leaves, and the bare proposal type, for which it is false. -/
theorem C05_never_panics_partial (b : Bytes) :
    Welcome.deserialize b ≠ .fault .panic ∧ PrivateMessage.deserialize b ≠ .fault .panic ∧
    GroupInfo.deserialize b ≠ .fault .panic ∧ GroupSecrets.deserialize b ≠ .fault .panic ∧
    GroupContext.deserialize b ≠ .fault .panic ∧ EncryptedGroupSecrets.deserialize b ≠ .fault .panic ∧
    Extensions.deserialize b ≠ .fault .panic ∧ Credential.deserialize b ≠ .fault .panic ∧
    Capabilities.deserialize b ≠ .fault .panic ∧ UpdatePathNode.deserialize b ≠ .fault .panic ∧
    PreSharedKeyID.deserialize b ≠ .fault .panic ∧ SenderData.deserialize b ≠ .fault .panic ∧
    PrivateContentAAD.deserialize b ≠ .fault .panic ∧ Sender.deserialize b ≠ .fault .panic ∧
    ReInitProposal.deserialize b ≠ .fault .panic ∧
    RequiredCapabilitiesExtension.deserialize b ≠ .fault .panic ∧
    ExternalSendersExtension.deserialize b ≠ .fault .panic ∧
    SignatureKeyPair.deserialize b ≠ .fault .panic :=
  ⟨Welcome.noF b (Nat.zero_le _), PrivateMessage.noF b (Nat.zero_le _), GroupInfo.noF b (Nat.zero_le _),
    GroupSecrets.noF b (Nat.zero_le _), GroupContext.noF b (Nat.zero_le _),
    EncryptedGroupSecrets.noF b (Nat.zero_le _), Extensions.noF b (Nat.zero_le _),
    Credential.noF b (Nat.zero_le _), Capabilities.noF b (Nat.zero_le _),
    UpdatePathNode.noF b (Nat.zero_le _), PreSharedKeyID.noF b (Nat.zero_le _),
    SenderData.noF b (Nat.zero_le _), PrivateContentAAD.noF b (Nat.zero_le _),
    Sender.noF b (Nat.zero_le _), ReInitProposal.noF b (Nat.zero_le _),
    RequiredCapabilitiesExtension.noF b (Nat.zero_le _),
    ExternalSendersExtension.noF b (Nat.zero_le _), SignatureKeyPair.noF b (Nat.zero_le _)⟩

/-- C05, what holds for whole messages: only messages announced as public message or as key package
can make the reader panic. -/
theorem C05_mls_message_partial (b : Bytes) (h : MLSMessage.deserialize b = .fault .panic) :
    b.take 4 = [0, 1, 0, 1] ∨ b.take 4 = [0, 1, 0, 5] := by
  have key : ∀ r : Bytes, WireMessage.deserialize r = .fault .panic →
      r.take 2 = [0, 1] ∨ r.take 2 = [0, 5] := by
    intro r hr
    unfold WireMessage.deserialize at hr
    rcases De.bind_fault_iff.1 hr with h0 | ⟨_, r1, hn, hr1⟩
    · unfold need at h0; split at h0 <;> cases h0
    obtain rfl : r1 = r := by
      unfold need at hn; split at hn <;> cases hn; rfl
    rcases De.bind_fault_iff.1 hr1 with h0 | ⟨wf, r2, hwf, hr⟩
    · exact absurd h0 (WireFormat.noF _ (Nat.zero_le _))
    obtain ⟨_, e, he, rfl⟩ := WireFormat.lawful.canon _ _ _ hwf
    have nof : ∀ {α : Type} {d : De α} {k : α → WireMessage} {r : Bytes}, NoF .panic 0 d →
        (d >>= fun m => pure (k m)) r = .fault .panic → False := by
      intro α d k r hd h
      rcases De.bind_fault_iff.1 h with h | ⟨_, _, _, h⟩
      · exact hd _ (Nat.zero_le _) h
      · cases h
    cases wf with
    | PublicMessage => cases he; left; rfl
    | KeyPackage => cases he; right; rfl
    | PrivateMessage => exact (nof PrivateMessage.noF hr).elim
    | Welcome => exact (nof Welcome.noF hr).elim
    | GroupInfo => exact (nof GroupInfo.noF hr).elim
  unfold MLSMessage.deserialize at h
  rcases De.bind_fault_iff.1 h with h0 | ⟨_, r1, hn, h1⟩
  · unfold need at h0; split at h0 <;> cases h0
  have hr : r1 = b ∧ 2 ≤ b.length := by
    unfold need at hn; split at hn <;> cases hn; exact ⟨rfl, by omega⟩
  obtain ⟨rfl, hl⟩ := hr
  rcases De.bind_fault_iff.1 h1 with h0 | ⟨v, r2, hv, h2⟩
  · exact absurd h0 (noF_u16 (Nat.le_refl 2) _ hl)
  obtain ⟨_, e, he, rfl⟩ := lawful_u16.canon _ _ _ hv
  split at h2
  · cases h2
  · rename_i hver
    simp only [ne_eq, Decidable.not_not] at hver
    have hv1 : v = 1 := by
      unfold ProtocolVersion.ofU16 at hver
      split at hver <;> simp_all
    subst hv1
    cases he
    rcases De.bind_fault_iff.1 h2 with h3 | ⟨_, _, _, h3⟩
    · rcases key _ h3 with h | h
      · left; simpa [beBytes] using h
      · right; simpa [beBytes] using h
    · cases h3

/-- C05.  A lifetime panics exactly on 8 to 15 bytes. -/
theorem C05_lifetime_panics_iff (b : Bytes) :
    Lifetime.deserialize b = .fault .panic ↔ 8 ≤ b.length ∧ b.length < 16 := by
  unfold Lifetime.deserialize
  simp only [De.bind_apply, need, get_u64, getBE, De.pure_apply]
  by_cases h1 : b.length < 8
  · simp [h1]; omega
  · by_cases h2 : b.length - 8 < 8
    · simp [h1, h2]; omega
    · simp [h1, h2]; omega

/-- C05.  A proposal type panics exactly on one byte. -/
theorem C05_proposal_type_panics_iff (b : Bytes) :
    ProposalType.deserialize b = .fault .panic ↔ b.length = 1 := by
  unfold ProposalType.deserialize
  simp only [De.bind_apply, need, get_u16, getBE, De.pure_apply]
  by_cases h1 : b.length < 1
  · simp [h1]; omega
  · by_cases h2 : b.length < 2
    · simp [h1, h2]; omega
    · simp [h1, h2]; omega

/-! ## C06: termination -/

/-- C06.  No reader loops forever. -/
theorem C06_terminates : ∀ c ∈ wireCodecs, ∀ b, c.read b ≠ .fault .hang :=
  fun c hc b => codec_noHang c hc b (Nat.zero_le _)

/-- C06.  Neither do the ratchet tree (with its padding loop) and the private message content. -/
theorem C06_terminates_ratchet_tree (b : Bytes) : RatchetTree.deserialize b ≠ .fault .hang :=
  RatchetTree.noF_of Lifetime.noHang ParentNode.noHang_unmerged b (Nat.zero_le _)

theorem C06_terminates_private_content (ct : ContentType) (b : Bytes) :
    PrivateMessageContent.deserialize ct b ≠ .fault .hang :=
  PrivateMessageContent.noF_of Lifetime.noHang ct b (Nat.zero_le _)

/-- The statement is not vacuous: an element reader that consumes nothing does hang. -/
example : deserialize_vector (pure () : De Unit) [1, 0] = .fault .hang := by rfl

/-! ## C07: trailing bytes -/

/-- C07 is false: bytes after the value are ignored. -/
theorem C07_refuted : deserialize_exact MLSMessage.deserialize (sampleCommitBytes ++ [0xde, 0xad]) =
    .ok sampleCommit := by rfl

/-- C07, what holds: the input is accepted exactly if some prefix is the encoding of the value.
Missing: that the prefix is the whole input. -/
theorem C07_exact_partial : ∀ c ∈ wireCodecs, ∀ buf x,
    deserialize_exact c.read buf = .ok x ↔ c.wf x ∧ ∃ b junk, c.write x = .ok b ∧ buf = b ++ junk := by
  intro c hc buf x
  unfold deserialize_exact
  constructor
  · intro h
    split at h
    · rename_i a rest hr
      cases h
      obtain ⟨hw, b, hb, he⟩ := C03_canonical c hc _ _ _ hr
      exact ⟨hw, b, rest, hb, he⟩
    · cases h
    · cases h
  · rintro ⟨hw, b, junk, hb, rfl⟩
    rw [C02_round_trip c hc x b junk hw hb]

/-- C07.  In particular every wire type accepts trailing bytes after any accepted input. -/
theorem C07_refuted_everywhere : ∀ c ∈ wireCodecs, ∀ buf junk x,
    deserialize_exact c.read buf = .ok x → deserialize_exact c.read (buf ++ junk) = .ok x := by
  intro c hc buf junk x h
  obtain ⟨hw, b, j, hb, rfl⟩ := (C07_exact_partial c hc buf x).1 h
  exact (C07_exact_partial c hc _ x).2 ⟨hw, b, j ++ junk, hb, by simp⟩

/-! ## C09: the ratchet tree on the wire -/

/-- C09.  A tree written and read back has the same node at every index; its length is one less than
a power of two, and it is the shortest such tree that holds all the nodes. -/
theorem C09_round_trip (t : RatchetTree) (b rest : Bytes) (hw : t.NodesWF)
    (h : RatchetTree.serialize t = .ok b) :
    ∃ t', RatchetTree.deserialize (b ++ rest) = .ok (t', rest) ∧
      (∀ i : Nat, t'[i]?.join = t[i]?.join) ∧
      (∃ k, t'.length + 1 = 2 ^ k) ∧
      ∀ k, (∀ i : Nat, 2 ^ k ≤ i + 1 → t[i]?.join = none) → t'.length + 1 ≤ 2 ^ k := by
  unfold RatchetTree.serialize at h
  have hle := RatchetTree.trimEnd_le t t.length
  generalize he : RatchetTree.trimEnd t t.length = e at h hle
  have hrt := RatchetTree.lawful_nodes.rt (t.take e) b rest
    (fun n hn => hw n (List.mem_of_mem_take hn)) h
  obtain ⟨t', ht'⟩ := RatchetTree.padLoop_total (t.take e)
  refine ⟨t', ?_, ?_, ?_, ?_⟩
  · unfold RatchetTree.deserialize
    rw [De.bind_apply, hrt]
    simp only [De.lift, ht']
  · intro i
    obtain ⟨k, rfl, _, _⟩ := RatchetTree.padLoop_ok ht'
    by_cases hi : i < e
    · rw [List.getElem?_append_left (by simp; omega), List.getElem?_take_of_lt hi]
    · have h1 : t[i]?.join = none := by
        by_cases hl : i < t.length
        · exact RatchetTree.trimEnd_blank t t.length i (by omega) hl
        · rw [List.getElem?_eq_none (by omega)]; rfl
      rw [h1, List.getElem?_append_right (by simp; omega), List.getElem?_replicate]
      split <;> rfl
  · exact (RatchetTree.padLoop_length ht').1
  · intro k hk
    refine (RatchetTree.padLoop_length ht').2.2 k ?_
    rw [List.length_take]
    by_cases h0 : e = 0
    · have := Nat.two_pow_pos k; omega
    · have := RatchetTree.trimEnd_last t t.length (by omega)
      rw [he] at this
      by_cases hc : 2 ^ k ≤ e
      · rw [hk (e - 1) (by omega)] at this
        cases this
      · omega

/-- C09.  A tree of the minimal full size is read back unchanged. -/
theorem C09_round_trip_exact (t : RatchetTree) (b rest : Bytes) (hw : t.NodesWF)
    (hfull : ∃ k, t.length + 1 = 2 ^ k)
    (hmin : ∀ k, (∀ i : Nat, 2 ^ k ≤ i + 1 → t[i]?.join = none) → t.length + 1 ≤ 2 ^ k)
    (h : RatchetTree.serialize t = .ok b) : RatchetTree.deserialize (b ++ rest) = .ok (t, rest) := by
  obtain ⟨t', hd, hg, ⟨k', hk'⟩, hm⟩ := C09_round_trip t b rest hw h
  obtain ⟨k, hk⟩ := hfull
  have h1 : t'.length + 1 ≤ t.length + 1 := by
    rw [hk]
    refine hm k fun i hi => ?_
    rw [List.getElem?_eq_none (by omega)]; rfl
  have h2 : t.length + 1 ≤ t'.length + 1 := by
    rw [hk']
    refine hmin k' fun i hi => ?_
    rw [← hg, List.getElem?_eq_none (by omega)]; rfl
  have : t' = t := by
    refine List.ext_getElem (by omega) fun i hi hi' => ?_
    have := hg i
    rwa [List.getElem?_eq_getElem hi, List.getElem?_eq_getElem hi'] at this
  rw [hd, this]

/-- C09: the same for the tree in an extension, which can be followed by other extensions. -/
theorem C09_extension (t : RatchetTree) (b rest : Bytes) (hw : t.NodesWF) (h : RatchetTreeExtension.serialize t = .ok b) :
    b = (ratchetTree t).bytes ∧ ∃ t', RatchetTreeExtension.deserialize (b ++ rest) = .ok (t', rest) ∧
      (∀ i : Nat, t'[i]?.join = t[i]?.join) ∧ ∃ k, t'.length + 1 = 2 ^ k := by
  have h' : RatchetTree.serialize t = .ok b := h
  obtain ⟨t', h1, h2, h3, _⟩ := C09_round_trip t b rest hw h'
  exact ⟨C04_rfc_bytes_ratchet_tree t b h', t', h1, h2, h3⟩

/-- C09.  Whatever is accepted as a ratchet tree has a length of the form 2^k - 1, and its nodes are
well formed. -/
theorem C09_read_full (b rest : Bytes) (t : RatchetTree) (h : RatchetTree.deserialize b = .ok (t, rest)) :
    (∃ k, t.length + 1 = 2 ^ k) ∧ t.NodesWF := by
  unfold RatchetTree.deserialize at h
  obtain ⟨n, r, hn, h⟩ := De.bind_ok_iff.1 h
  obtain ⟨hp, _⟩ := De.lift_ok_iff.1 h
  refine ⟨(RatchetTree.padLoop_length hp).1, ?_⟩
  obtain ⟨k, rfl, _, _⟩ := RatchetTree.padLoop_ok hp
  intro x hx
  simp only [List.mem_append, List.mem_replicate] at hx
  rcases hx with hx | ⟨_, hx⟩
  · exact (RatchetTree.lawful_nodes.canon _ _ _ hn).1 x hx
  · cases hx

/-- C09.  Serialization drops exactly the trailing blanks. -/
theorem C09_trailing_blanks (t : RatchetTree) (n : Nat) :
    RatchetTree.serialize (t ++ List.replicate n none) = RatchetTree.serialize t := by
  unfold RatchetTree.serialize
  rw [RatchetTree.trim_eq, RatchetTree.trim_eq]
  congr 2
  rw [List.reverse_append, List.reverse_replicate]
  induction n with
  | zero => rfl
  | succ n ih => rw [List.replicate_succ]; exact ih

/-- C09.  Two trees with well-formed nodes have the same bytes only if they agree at every index. -/
theorem C09_injective (t u : RatchetTree) (b : Bytes) (ht : t.NodesWF) (hu : u.NodesWF)
    (h1 : RatchetTree.serialize t = .ok b) (h2 : RatchetTree.serialize u = .ok b) (i : Nat) :
    t[i]?.join = u[i]?.join := by
  obtain ⟨t', hd, hg, _⟩ := C09_round_trip t b [] ht h1
  obtain ⟨u', hd', hg', _⟩ := C09_round_trip u b [] hu h2
  rw [hd] at hd'
  cases hd'
  rw [← hg, ← hg']

/-- A tree with two parents and a trailing blank meets the hypotheses. -/
example : ∃ t : RatchetTree, ∃ b, t.NodesWF ∧ RatchetTree.serialize t = .ok b ∧ t.length = 7 ∧
    t[3]?.join.isSome :=
  ⟨[none, some (.Parent ⟨[1], [], [1]⟩), none, some (.Parent ⟨[2], [3], []⟩), none, none, none], _,
    by rintro n hn; simp at hn; rcases hn with rfl | rfl <;> trivial, rfl, rfl, rfl⟩

/-! ## C39: padding -/

theorem checkPadding_ok (b : Bytes) : checkPadding b = .ok () ↔ ∀ x ∈ b, x = 0 := by
  induction b with
  | nil => simp [checkPadding]
  | cons x b ih =>
    unfold checkPadding
    split
    · simp_all
    · simp_all

theorem deserialize_split (ct : ContentType) (buf : Bytes) :
    PrivateMessageContent.deserialize ct buf =
      ((do let content ← Content.deserializeBody ct
           let auth ← FramedContentAuthData.deserialize ct
           pure ({ content, auth } : PrivateMessageContent)) >>= fun y => skipPadding >>= fun _ => pure y)
        buf := by
  unfold PrivateMessageContent.deserialize
  simp only [De.bind_apply, De.pure_apply]
  cases Content.deserializeBody ct buf with
  | ok p => cases h : FramedContentAuthData.deserialize ct p.2 <;> simp [h]
  | err => rfl
  | fault => rfl

/-- C39.  A decrypted plaintext is accepted exactly if it is the encoding of the content and its
authentication data followed by zero bytes, any number of them. -/
theorem C39_padding (ct : ContentType) (buf : Bytes) (x : PrivateMessageContent) (r : Bytes) :
    PrivateMessageContent.deserialize ct buf = .ok (x, r) ↔
      r = [] ∧ x.WF ∧ x.content.content_type = ct ∧
        ∃ b n, x.serialize = .ok b ∧ buf = b ++ List.replicate n 0 := by
  have hcore := PrivateMessageContent.lawful_core ct
  rw [deserialize_split, De.bind_ok_iff]
  constructor
  · rintro ⟨y, r1, h1, h2⟩
    obtain ⟨_, r2, h3, h4⟩ := De.bind_ok_iff.1 h2
    cases h4
    obtain ⟨⟨hw, hct⟩, b, hb, rfl⟩ := hcore.canon _ _ _ h1
    unfold skipPadding at h3
    split at h3
    · rename_i hp
      cases h3
      exact ⟨rfl, hw, hct, b, r1.length, hb, by
        rw [List.eq_replicate_iff.2 ⟨rfl, (checkPadding_ok r1).1 hp⟩, List.length_replicate]⟩
    · cases h3
    · cases h3
  · rintro ⟨rfl, hw, hct, b, n, hb, rfl⟩
    refine ⟨x, List.replicate n 0, hcore.rt x b _ ⟨hw, hct⟩ hb, ?_⟩
    rw [De.bind_apply]
    unfold skipPadding
    rw [(checkPadding_ok _).2 (by simp)]
    rfl

/-- C39.  Any non-zero byte after the content is reported as such. -/
theorem C39_nonzero (ct : ContentType) (x : PrivateMessageContent) (b pad : Bytes) (hw : x.WF)
    (hct : x.content.content_type = ct) (hb : x.serialize = .ok b) (hp : ∃ c ∈ pad, c ≠ 0) :
    PrivateMessageContent.deserialize ct (b ++ pad) = .err .PaddingContainsNonZeroBytes := by
  have hcore := PrivateMessageContent.lawful_core ct
  rw [deserialize_split, De.bind_apply, hcore.rt x b pad ⟨hw, hct⟩ hb]
  have : checkPadding pad = .err .PaddingContainsNonZeroBytes := by
    clear hb
    induction pad with
    | nil => simp at hp
    | cons c pad ih =>
      unfold checkPadding
      split
      · rfl
      · exact ih (by simpa [*] using hp)
  simp only [De.bind_apply, skipPadding, this]

example : PrivateMessageContent.deserialize .Application [2, 7, 8, 1, 9, 0, 0] =
    .ok ({ content := .Application [7, 8], auth := { signature := [9], confirmation_tag := [] } }, []) := by
  rfl
example : ({ content := .Application [7, 8], auth := ⟨[9], []⟩ } : PrivateMessageContent).WF := by
  simp [PrivateMessageContent.WF, Content.WF, FramedContentAuthData.WF, Content.content_type]

end Rmls
