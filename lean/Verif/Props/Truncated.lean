import Verif.Proofs.Cut
import Verif.Spec.Stream
import Verif.Props.Codec
/-
Property C94: messages that arrive in pieces.
-/
namespace Rmls
open Spec Res

/-! ## What is missing is noticed, and called by its name -/

/-- A key package as the library writes it. -/
def cutKeyPackage : MLSMessage :=
  { version := .MLS10
    wire_message := .KeyPackage
      { payload :=
          { version := .MLS10
            cipher_suite := .MLS_128_DHKEMX25519_AES128GCM_SHA256_Ed25519
            init_key := []
            leaf_node :=
              { payload :=
                  { encryption_key := []
                    signature_key := []
                    credential := .Basic []
                    capabilities :=
                      { versions := [], cipher_suites := [], extensions := [], proposals := [], credentials := [] }
                    leaf_node_source := .KeyPackage { not_before := 1, not_after := 2 }
                    extensions := [] }
                signature := [] }
            extensions := [] }
        signature := [] } }

def cutKeyPackageBytes : Bytes :=
  [0, 1, 0, 5, 0, 1, 0, 1, 0, 0, 0, 0, 1, 0, 0, 0, 0, 0, 0, 1, 0, 0, 0, 0, 0, 0, 0, 1, 0, 0, 0, 0, 0, 0, 0, 2,
   0, 0, 0, 0]

/-- C94 is false: this message, which the library itself writes, makes the reader panic if it is cut after 28 bytes. -/
theorem C94_refuted_cut : cutKeyPackage.WF ∧ cutKeyPackage.serialize = .ok cutKeyPackageBytes ∧
    28 < cutKeyPackageBytes.length ∧
    MLSMessage.deserialize (cutKeyPackageBytes.take 28) = .fault .panic := by
  refine ⟨?_, by rfl, by decide, by rfl⟩
  simp [cutKeyPackage, MLSMessage.WF, WireMessage.WF, KeyPackage.WF, KeyPackageTBS.WF, LeafNode.WF,
    LeafNodePayload.WF, Capabilities.WF, Extensions.WF, ProtocolVersion.WF, CipherSuite.WF]

private theorem need_append (n : Nat) (e s : Bytes) (h : n ≤ e.length) : need n (e ++ s) = .ok ((), e ++ s) := by
  rw [need, if_neg (by rw [List.length_append]; omega)]

/-- C94 is false in the other direction too: these eight bytes (a welcome whose single entry is announced to be one
byte long) are called too short whatever follows them.  Who waits for more waits for ever. -/
theorem C94_refuted_wait (s : Bytes) :
    MLSMessage.deserialize ([0, 1, 0, 3, 0, 1, 1, 0] ++ s) = .err .BufferTooSmall := by
  have hv : ∀ s, (deserialize_vector EncryptedGroupSecrets.deserialize) ([1, 0] ++ s) =
      .err .BufferTooSmall := by
    intro s
    have h1 : deserialize_varint ([1] ++ ([0] ++ s)) = .ok (1, [0] ++ s) :=
      lawful_varint.rt 1 [1] _ (by decide) rfl
    unfold deserialize_vector
    rw [De.bind_apply, show ([1, 0] ++ s : Bytes) = [1] ++ ([0] ++ s) from rfl, h1]
    simp only [De.bind_apply]
    rw [need_append 1 [0] s (by decide)]
    simp only [copy_to_bytes]
    rw [if_neg (by rw [List.length_append]; simp only [List.length_cons]; omega)]
    simp only [List.take_succ_cons, List.take_zero, List.cons_append]
    rfl
  have hw : ∀ s, Welcome.deserialize ([0, 1] ++ ([1, 0] ++ s)) = .err .BufferTooSmall := by
    intro s
    unfold Welcome.deserialize
    rw [De.bind_apply, need_append 2 [0, 1] _ (by decide)]
    simp only []
    rw [De.bind_apply, lawful_u16.rt 1 [0, 1] _ trivial rfl]
    simp only []
    rw [De.bind_apply, hv]
  have hm : ∀ s, WireMessage.deserialize ([0, 3] ++ ([0, 1] ++ ([1, 0] ++ s))) = .err .BufferTooSmall := by
    intro s
    unfold WireMessage.deserialize
    rw [De.bind_apply, need_append 1 [0, 3] _ (by decide)]
    simp only []
    rw [De.bind_apply, WireFormat.lawful.rt .Welcome [0, 3] _ trivial rfl]
    simp only []
    rw [De.bind_apply, hw]
  rw [show ([0, 1, 0, 3, 0, 1, 1, 0] ++ s : Bytes) = [0, 1] ++ ([0, 3] ++ ([0, 1] ++ ([1, 0] ++ s))) from rfl]
  unfold MLSMessage.deserialize
  rw [De.bind_apply, need_append 2 [0, 1] _ (by decide)]
  simp only []
  rw [De.bind_apply, lawful_u16.rt 1 [0, 1] _ trivial rfl]
  simp only []
  rw [if_neg (by decide), De.bind_apply, hm]

/-- C94, what holds of every message that is cut off: no part of its encoding is accepted, and it is refused for its
length - or the reader panics (`C94_refuted_cut`).  Missing: that it never panics. -/
theorem C94_cut_partial : ∀ c ∈ wireCodecs, ∀ x b n, c.wf x → c.write x = .ok b → n < b.length →
    c.read (b.take n) = .err .BufferTooSmall ∨ c.read (b.take n) = .fault .panic := by
  intro c hc x b n hw hb hn
  have h := (codec_lawful c hc).rt x b [] hw hb
  obtain ⟨e, he, _, _, hcut⟩ := (codec_cuts c hc).cut _ _ _ h
  rw [List.append_nil, List.append_nil] at he
  subst he
  exact hcut n hn

/-- C94.  Where the reader cannot panic (C05), a cut message is always refused for its length. -/
theorem C94_cut : ∀ c ∈ wireCodecs, (∀ b, c.read b ≠ .fault .panic) → ∀ x b n, c.wf x → c.write x = .ok b →
    n < b.length → c.read (b.take n) = .err .BufferTooSmall :=
  fun c hc hp x b n hw hb hn => (C94_cut_partial c hc x b n hw hb hn).resolve_right (hp _)

/-- C94.  Whole messages: a private message, welcome or group info that is cut off is refused for its length. -/
theorem C94_cut_message (x : MLSMessage) (b : Bytes) (n : Nat) (hw : x.WF) (hb : x.serialize = .ok b)
    (hn : n < b.length) (hp : ∀ m, x.wire_message ≠ .PublicMessage m) (hk : ∀ k, x.wire_message ≠ .KeyPackage k) :
    MLSMessage.deserialize (b.take n) = .err .BufferTooSmall := by
  rcases C94_cut_partial _ mlsMessageCodec_mem x b n hw hb hn with h | h
  · exact h
  exfalso
  have hpre : b.take 4 ≠ [0, 1, 0, 1] ∧ b.take 4 ≠ [0, 1, 0, 5] := by
    obtain ⟨v, wm⟩ := x
    obtain ⟨rfl, _⟩ := hw
    unfold MLSMessage.serialize WireMessage.serialize at hb
    obtain ⟨b1, b2, h1, h2, rfl⟩ := app_ok_iff.1 hb
    obtain ⟨b3, b4, h3, h4, rfl⟩ := app_ok_iff.1 h2
    cases h1
    cases wm with
    | PublicMessage m => exact absurd rfl (hp m)
    | KeyPackage k => exact absurd rfl (hk k)
    | PrivateMessage m =>
      cases h3
      refine (show _ = _ → _ by intro e; rw [e]; decide)
        (show List.take 4 _ = ([0, 1, 0, 2] : Bytes) by simp [beBytes, WireMessage.wire_format, WireFormat.toU16, ProtocolVersion.toU16])
    | Welcome m =>
      cases h3
      refine (show _ = _ → _ by intro e; rw [e]; decide)
        (show List.take 4 _ = ([0, 1, 0, 3] : Bytes) by simp [beBytes, WireMessage.wire_format, WireFormat.toU16, ProtocolVersion.toU16])
    | GroupInfo m =>
      cases h3
      refine (show _ = _ → _ by intro e; rw [e]; decide)
        (show List.take 4 _ = ([0, 1, 0, 4] : Bytes) by simp [beBytes, WireMessage.wire_format, WireFormat.toU16, ProtocolVersion.toU16])
  rcases C05_mls_message_partial _ h with h4 | h4
  all_goals
    rw [List.take_take] at h4
    have hl : min 4 n = 4 := by
      have := congrArg List.length h4
      rw [List.length_take] at this
      simp only [List.length_cons, List.length_nil] at this
      omega
    rw [hl] at h4
    first | exact hpre.1 h4 | exact hpre.2 h4

/-- C94.  A ratchet tree that is cut off is not accepted either. -/
theorem C94_cut_tree_partial (t : RatchetTree) (b : Bytes) (n : Nat) (h : RatchetTree.deserialize b = .ok (t, []))
    (hn : n < b.length) : RatchetTree.deserialize (b.take n) = .err .BufferTooSmall ∨
      RatchetTree.deserialize (b.take n) = .fault .panic := by
  obtain ⟨e, he, _, _, hcut⟩ := RatchetTree.cuts.cut _ _ _ h
  rw [List.append_nil] at he
  subst he
  exact hcut n hn

/-- C94.  Any other verdict is final: what is refused for another reason than its length stays refused for the same
reason, whatever bytes follow. -/
theorem C94_final : ∀ c ∈ wireCodecs, ∀ b e, c.read b = .err e → e ≠ .BufferTooSmall →
    ∀ s, c.read (b ++ s) = .err e :=
  fun c hc b e h he s => (codec_cuts c hc).final b e h he s

theorem C94_final_tree (b : Bytes) (e : Error) (h : RatchetTree.deserialize b = .err e) (he : e ≠ .BufferTooSmall)
    (s : Bytes) : RatchetTree.deserialize (b ++ s) = .err e :=
  RatchetTree.cuts.final b e h he s

/-- C94.  So is acceptance: what follows is left alone. -/
theorem C94_final_accepted : ∀ c ∈ wireCodecs, ∀ b x r, c.read b = .ok (x, r) →
    ∀ s, c.read (b ++ s) = .ok (x, r ++ s) := by
  intro c hc b x r h s
  obtain ⟨e, rfl, _, hl, _⟩ := (codec_cuts c hc).cut _ _ _ h
  rw [List.append_assoc]
  exact hl _

/-! ## Reading from a stream -/

private theorem collect_aux {α : Type} (d : De α) (x : α) (b : Bytes) (rest : Bytes)
    (hok : ∀ r, d (b ++ r) = .ok (x, r)) (hcut : ∀ n, n < b.length → CutRes (d (b.take n))) :
    ∀ (pieces : List Bytes) (buf : Bytes), buf ++ pieces.flatten = b ++ rest → buf.length < b.length →
      collect d buf pieces = some (.ok (x, rest)) ∨ collect d buf pieces = some (.fault .panic)
  | [], buf, h, hl => by
    have := congrArg List.length h
    simp only [List.flatten_nil, List.append_nil, List.length_append] at this
    omega
  | p :: ps, buf, h, hl => by
    rw [List.flatten_cons, ← List.append_assoc] at h
    rw [collect]
    by_cases hlt : (buf ++ p).length < b.length
    · have e : buf ++ p = b.take (buf ++ p).length := by
        have := congrArg (List.take (buf ++ p).length) h
        rw [List.take_left, List.take_append_of_le_length (Nat.le_of_lt hlt)] at this
        exact this
      have hc := hcut _ hlt
      rw [← e] at hc
      rcases hc with hc | hc
      · rw [hc]
        exact collect_aux d x b rest hok hcut ps (buf ++ p) h hlt
      · rw [hc]
        exact .inr rfl
    · have e : b ++ (buf ++ p).drop b.length = buf ++ p := by
        have h1 := congrArg (List.take b.length) h
        rw [List.take_left, List.take_append_of_le_length (by omega)] at h1
        conv => lhs; lhs; rw [← h1]
        exact List.take_append_drop _ _
      rw [← e, hok]
      left
      have h2 : (buf ++ p).drop b.length ++ ps.flatten = rest := by
        rw [← e, List.append_assoc] at h
        exact List.append_cancel_left h
      simp only [h2]

/-- C94.  A message delivered in pieces, cut anywhere, is collected to exactly the message that was sent, with what
follows it left over - or the reader panics on the way. -/
theorem C94_collected_partial : ∀ c ∈ wireCodecs, ∀ x b rest pieces, c.wf x → c.write x = .ok b → b ≠ [] →
    pieces.flatten = b ++ rest →
    collect c.read [] pieces = some (.ok (x, rest)) ∨ collect c.read [] pieces = some (.fault .panic) := by
  intro c hc x b rest pieces hw hb hne hp
  exact collect_aux c.read x b rest (fun r => (codec_lawful c hc).rt x b r hw hb)
    (fun n hn => C94_cut_partial c hc x b n hw hb hn) pieces [] hp (List.length_pos_iff.2 hne)

/-- C94.  Private messages, welcomes and group infos are collected however they are cut. -/
theorem C94_collected (x : MLSMessage) (b rest : Bytes) (pieces : List Bytes) (hw : x.WF) (hb : x.serialize = .ok b)
    (hp : ∀ m, x.wire_message ≠ .PublicMessage m) (hk : ∀ k, x.wire_message ≠ .KeyPackage k)
    (hpieces : pieces.flatten = b ++ rest) :
    collect MLSMessage.deserialize [] pieces = some (.ok (x, rest)) := by
  have hrt := codec_lawful _ mlsMessageCodec_mem
  have hne : b ≠ [] := by
    rintro rfl
    have := hrt.rt x [] [] hw hb
    cases this
  have key : ∀ (d : De MLSMessage), (∀ r, d (b ++ r) = .ok (x, r)) →
      (∀ n, n < b.length → d (b.take n) = .err .BufferTooSmall) →
      ∀ (pieces : List Bytes) (buf : Bytes), buf ++ pieces.flatten = b ++ rest → buf.length < b.length →
      collect d buf pieces ≠ some (.fault .panic) := by
    intro d hok hcut pieces
    induction pieces with
    | nil => intro buf _ _ h; cases h
    | cons p ps ih =>
      intro buf h hl
      rw [List.flatten_cons, ← List.append_assoc] at h
      rw [collect]
      by_cases hlt : (buf ++ p).length < b.length
      · have e : buf ++ p = b.take (buf ++ p).length := by
          have := congrArg (List.take (buf ++ p).length) h
          rw [List.take_left, List.take_append_of_le_length (Nat.le_of_lt hlt)] at this
          exact this
        have hc := hcut _ hlt
        rw [← e] at hc
        rw [hc]
        exact ih (buf ++ p) h hlt
      · have e : b ++ (buf ++ p).drop b.length = buf ++ p := by
          have h1 := congrArg (List.take b.length) h
          rw [List.take_left, List.take_append_of_le_length (by omega)] at h1
          conv => lhs; lhs; rw [← h1]
          exact List.take_append_drop _ _
        rw [← e, hok]
        intro h; cases h
  have hok : ∀ r, MLSMessage.deserialize (b ++ r) = .ok (x, r) := fun r => hrt.rt x b r hw hb
  have hcut : ∀ n, n < b.length → MLSMessage.deserialize (b.take n) = .err .BufferTooSmall :=
    fun n hn => C94_cut_message x b n hw hb hn hp hk
  exact (collect_aux _ x b rest hok (fun n hn => .inl (hcut n hn)) pieces [] hpieces
    (List.length_pos_iff.2 hne)).resolve_right
    (key _ hok hcut pieces [] hpieces (List.length_pos_iff.2 hne))

/-- C94.  Waiting for the rest of a private message comes to an end: with this many bytes the verdict is another one,
whatever they are. -/
theorem C94_private_wait (b : Bytes) (h : 4 * (4 + 2 ^ 30) + 9 ≤ b.length) :
    PrivateMessage.deserialize b ≠ .err .BufferTooSmall :=
  fun h1 => PrivateMessage.ends b h (.inl h1)

/-! ## A private message in three pieces -/

def cutPrivate : MLSMessage :=
  { version := .MLS10
    wire_message := .PrivateMessage
      { group_id := [1], epoch := 2, content_type := .Application, authenticated_data := [],
        encrypted_sender_data := [3, 4], ciphertext := [5, 6, 7] } }

example : cutPrivate.WF ∧ cutPrivate.serialize =
    .ok [0, 1, 0, 2, 1, 1, 0, 0, 0, 0, 0, 0, 0, 2, 1, 0, 2, 3, 4, 3, 5, 6, 7] := by
  refine ⟨?_, by rfl⟩
  simp [cutPrivate, MLSMessage.WF, WireMessage.WF]

example : collect MLSMessage.deserialize []
    [[0, 1, 0], [2, 1, 1, 0, 0, 0, 0, 0, 0, 0, 2, 1], [0, 2, 3, 4, 3, 5, 6, 7, 0xaa], [0xbb]] =
    some (.ok (cutPrivate, [0xaa, 0xbb])) := by rfl

/-- Refused for good: an unknown wire format. -/
example : MLSMessage.deserialize [0, 1, 0, 9] = .err (.InvalidWireFormatValue 9) := by rfl
/-- Refused for want of a byte. -/
example : MLSMessage.deserialize [0, 1, 0] = .err .BufferTooSmall := by rfl

end Rmls
