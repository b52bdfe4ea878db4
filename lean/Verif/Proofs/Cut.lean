import Verif.Proofs.Codecs
/-
Readers on a byte string that goes on: what is accepted, or refused for another reason than its length, stays so
when more bytes are added, and of what is accepted every part from the beginning is refused for its length.
-/
namespace Rmls
open Spec

/-- The verdict on a byte string that has been cut off: that it is too short, or a panic. -/
def CutRes {α : Type} (r : Res α) : Prop := r = .err .BufferTooSmall ∨ r = .fault .panic

/-- The law; `m` is a number of bytes that is read at least. -/
structure Cuts {α : Type} (m : Nat) (d : De α) : Prop where
  cut : ∀ b v r, d b = .ok (v, r) → ∃ e, b = e ++ r ∧ m ≤ e.length ∧ (∀ r', d (e ++ r') = .ok (v, r')) ∧
    ∀ n, n < e.length → CutRes (d (e.take n))
  final : ∀ b x, d b = .err x → x ≠ .BufferTooSmall → ∀ s, d (b ++ s) = .err x

variable {α β : Type} {m j : Nat}

theorem Cuts.mono {d : De α} (h : Cuts j d) (hm : m ≤ j) : Cuts m d where
  cut b v r hb := by
    obtain ⟨e, h1, h2, h3⟩ := h.cut b v r hb
    exact ⟨e, h1, Nat.le_trans hm h2, h3⟩
  final := h.final

theorem Cuts.pure (v : α) (h : m = 0) : Cuts m (Pure.pure v : De α) where
  cut b w r hb := by
    cases hb
    exact ⟨[], rfl, by simp [h], fun _ => rfl, fun n hn => absurd hn (Nat.not_lt_zero _)⟩
  final b x hb := by cases hb

theorem Cuts.fail (x : Error) : Cuts m (De.fail x : De α) where
  cut b w r hb := by cases hb
  final b y hb _ s := by cases hb; rfl

theorem Cuts.lift (x : Res α) (h : m = 0) : Cuts m (De.lift x) where
  cut b w r hb := by
    cases x <;> cases hb
    exact ⟨[], rfl, by simp [h], fun _ => rfl, fun n hn => absurd hn (Nat.not_lt_zero _)⟩
  final b y hb _ s := by
    cases x <;> cases hb
    rfl

theorem Cuts.bind {d : De α} {k : α → De β} (h : Cuts j d) (hk : ∀ a, Cuts (m - j) (k a)) :
    Cuts m (d >>= k) where
  cut b w r hb := by
    rw [De.bind_apply] at hb
    cases h1 : d b with
    | err _ => rw [h1] at hb; cases hb
    | fault _ => rw [h1] at hb; cases hb
    | ok p =>
      obtain ⟨v, r1⟩ := p
      rw [h1] at hb
      obtain ⟨e1, rfl, hm1, hl1, hc1⟩ := h.cut _ _ _ h1
      obtain ⟨e2, rfl, hm2, hl2, hc2⟩ := (hk v).cut _ _ _ hb
      refine ⟨e1 ++ e2, by simp, by rw [List.length_append]; omega, fun r' => ?_, fun n hn => ?_⟩
      · rw [De.bind_apply, List.append_assoc, hl1]
        exact hl2 r'
      · rw [De.bind_apply]
        by_cases hn1 : n < e1.length
        · rw [List.take_append_of_le_length (Nat.le_of_lt hn1)]
          rcases hc1 n hn1 with h | h <;> rw [h]
          · exact .inl rfl
          · exact .inr rfl
        · rw [List.take_append, List.take_of_length_le (by omega), hl1]
          exact hc2 _ (by rw [List.length_append] at hn; omega)
  final b x hb hx s := by
    rw [De.bind_apply] at hb ⊢
    cases h1 : d b with
    | fault _ => rw [h1] at hb; cases hb
    | err y =>
      rw [h1] at hb
      cases hb
      rw [h.final b _ h1 hx s]
    | ok p =>
      obtain ⟨v, r1⟩ := p
      rw [h1] at hb
      obtain ⟨e1, rfl, _, hl1, _⟩ := h.cut _ _ _ h1
      rw [List.append_assoc, hl1]
      exact (hk v).final _ _ hb hx s

theorem Cuts.need {d : De α} {n : Nat} (h : Cuts (max m n) d) : Cuts m (need n >>= fun _ => d) where
  cut b v r hb := by
    rw [De.bind_apply, Rmls.need] at hb
    by_cases hl : b.length < n
    · rw [if_pos hl] at hb; cases hb
    rw [if_neg hl] at hb
    obtain ⟨e, h1, h2, h3, h4⟩ := h.cut _ _ _ hb
    refine ⟨e, h1, by omega, fun r' => ?_, fun i hi => ?_⟩
    · rw [De.bind_apply, Rmls.need, if_neg (by rw [List.length_append]; omega)]
      exact h3 r'
    · rw [De.bind_apply, Rmls.need]
      by_cases hs : (e.take i).length < n
      · rw [if_pos hs]; exact .inl rfl
      · rw [if_neg hs]; exact h4 i hi
  final b x hb hx s := by
    rw [De.bind_apply, Rmls.need] at hb ⊢
    by_cases hl : b.length < n
    · rw [if_pos hl] at hb; cases hb; exact absurd rfl hx
    · rw [if_neg hl] at hb
      rw [if_neg (by rw [List.length_append]; omega)]
      exact h.final b x hb hx s

theorem cuts_getBE (n : Nat) : Cuts n (getBE n) where
  cut b v r hb := by
    rw [getBE] at hb
    split at hb
    · cases hb
    cases hb
    refine ⟨b.take n, (List.take_append_drop n b).symm, by rw [List.length_take]; omega, fun r' => ?_, fun i hi => ?_⟩
    · have hn : (b.take n).length = n := by rw [List.length_take]; omega
      rw [getBE, if_neg (by rw [List.length_append]; omega), List.take_append, List.take_of_length_le (by omega),
        List.drop_append, List.drop_of_length_le (by omega), hn]
      simp
    · rw [List.length_take] at hi
      rw [getBE, if_pos (by rw [List.length_take, List.length_take]; omega)]
      exact .inr rfl
  final b x hb := by
    rw [getBE] at hb
    split at hb <;> cases hb

theorem cuts_u8 : Cuts 1 get_u8 :=
  (show get_u8 = (getBE 1 >>= fun v => pure (UInt8.ofNat v)) by
    funext b; rw [De.bind_apply, get_u8]; cases getBE 1 b <;> rfl) ▸
    Cuts.bind (cuts_getBE 1) fun _ => Cuts.pure _ rfl
theorem cuts_u16 : Cuts 2 get_u16 :=
  (show get_u16 = (getBE 2 >>= fun v => pure (UInt16.ofNat v)) by
    funext b; rw [De.bind_apply, get_u16]; cases getBE 2 b <;> rfl) ▸
    Cuts.bind (cuts_getBE 2) fun _ => Cuts.pure _ rfl
theorem cuts_u32 : Cuts 4 get_u32 :=
  (show get_u32 = (getBE 4 >>= fun v => pure (UInt32.ofNat v)) by
    funext b; rw [De.bind_apply, get_u32]; cases getBE 4 b <;> rfl) ▸
    Cuts.bind (cuts_getBE 4) fun _ => Cuts.pure _ rfl
theorem cuts_u64 : Cuts 8 get_u64 :=
  (show get_u64 = (getBE 8 >>= fun v => pure (UInt64.ofNat v)) by
    funext b; rw [De.bind_apply, get_u64]; cases getBE 8 b <;> rfl) ▸
    Cuts.bind (cuts_getBE 8) fun _ => Cuts.pure _ rfl

theorem cuts_copy (n : Nat) : Cuts n (copy_to_bytes n) where
  cut b v r hb := by
    rw [copy_to_bytes] at hb
    split at hb
    · cases hb
    cases hb
    refine ⟨b.take n, (List.take_append_drop n b).symm, by rw [List.length_take]; omega, fun r' => ?_, fun i hi => ?_⟩
    · have hn : (b.take n).length = n := by rw [List.length_take]; omega
      rw [copy_to_bytes, if_neg (by rw [List.length_append]; omega), List.take_append, List.take_of_length_le (by omega),
        List.drop_append, List.drop_of_length_le (by omega), hn]
      simp
    · rw [List.length_take] at hi
      rw [copy_to_bytes, if_pos (by rw [List.length_take, List.length_take]; omega)]
      exact .inr rfl
  final b x hb := by
    rw [copy_to_bytes] at hb
    split at hb <;> cases hb

theorem cuts_varintLoop : ∀ (n v : Nat), Cuts n (varintLoop n v)
  | 0, v => Cuts.pure v rfl
  | n + 1, v => by
    rw [varintLoop]
    refine Cuts.need (Cuts.bind cuts_u8 fun a => ?_)
    exact (cuts_varintLoop n _).mono (by omega)

theorem cuts_varint : Cuts 1 deserialize_varint := by
  unfold deserialize_varint
  refine Cuts.need (Cuts.bind cuts_u8 fun a => ?_)
  dsimp only
  split
  · exact Cuts.fail _
  · refine Cuts.bind ((cuts_varintLoop _ _).mono (Nat.zero_le _)) fun v => ?_
    split
    · exact Cuts.fail _
    · exact Cuts.pure _ rfl

theorem cuts_opaque : Cuts 1 deserialize_opaque_vec :=
  Cuts.bind cuts_varint fun n => Cuts.need ((cuts_copy n).mono (by omega))

/-- The elements of a vector are read from a string of their own, whatever their reader. -/
theorem cuts_vector (f : De α) : Cuts 1 (deserialize_vector f) :=
  Cuts.bind cuts_varint fun n =>
    Cuts.need ((Cuts.bind (cuts_copy n) fun v => Cuts.lift _ (Nat.sub_self n)).mono (by omega))

/-- Structural search for `Cuts` goals, given facts about the readers of the components. -/
syntax "cuts" (" [" term,* "]")? : tactic
macro_rules
  | `(tactic| cuts [$ts,*]) => do
    let alts ← ts.getElems.mapM fun t => `(tacticSeq| with_reducible exact Cuts.mono $t (by decide))
    let alts2 ← ts.getElems.mapM fun t => `(tacticSeq| with_reducible refine Cuts.bind $t (fun _ => ?_))
    `(tactic| repeat' first
      | (with_reducible exact Cuts.pure _ (by decide))
      | (with_reducible exact Cuts.fail _)
      | (with_reducible exact Cuts.mono cuts_opaque (by decide))
      | (with_reducible exact Cuts.mono (cuts_vector _) (by decide))
      $[| ($alts)]*
      | (with_reducible refine Cuts.need ?_)
      | (with_reducible refine Cuts.bind cuts_u8 (fun _ => ?_))
      | (with_reducible refine Cuts.bind cuts_u16 (fun _ => ?_))
      | (with_reducible refine Cuts.bind cuts_u32 (fun _ => ?_))
      | (with_reducible refine Cuts.bind cuts_u64 (fun _ => ?_))
      | (with_reducible refine Cuts.bind cuts_opaque (fun _ => ?_))
      | (with_reducible refine Cuts.bind (cuts_vector _) (fun _ => ?_))
      $[| ($alts2)]*
      | split)
  | `(tactic| cuts) => `(tactic| cuts [cuts_opaque])

theorem cuts_optional : Cuts 1 deserialize_optional := by unfold deserialize_optional; cuts

theorem ProposalType.cuts : Cuts 2 ProposalType.deserialize := by unfold ProposalType.deserialize; cuts
theorem SignatureScheme.cuts : Cuts 2 SignatureScheme.deserialize := by unfold SignatureScheme.deserialize; cuts
theorem ContentType.cuts : Cuts 1 ContentType.deserialize := by unfold ContentType.deserialize; cuts
theorem SenderType.cuts : Cuts 1 SenderType.deserialize := by unfold SenderType.deserialize; cuts
theorem WireFormat.cuts : Cuts 2 WireFormat.deserialize := by unfold WireFormat.deserialize; cuts
theorem NodeType.cuts : Cuts 1 NodeType.deserialize := by unfold NodeType.deserialize; cuts
theorem PSKType.cuts : Cuts 1 PSKType.deserialize := by unfold PSKType.deserialize; cuts
theorem ResumptionPSKUsage.cuts : Cuts 1 ResumptionPSKUsage.deserialize := by
  unfold ResumptionPSKUsage.deserialize; cuts
theorem SecretKey.cuts : Cuts 1 SecretKey.deserialize := cuts_opaque
theorem SignatureKeyPair.cuts : Cuts 1 SignatureKeyPair.deserialize := by
  unfold SignatureKeyPair.deserialize; cuts [SecretKey.cuts, SignatureScheme.cuts]
theorem HPKEKeyPair.cuts : Cuts 1 HPKEKeyPair.deserialize := by
  unfold HPKEKeyPair.deserialize; cuts [SecretKey.cuts]
theorem Credential.cuts : Cuts 2 Credential.deserialize := by
  unfold Credential.deserialize Identity.deserialize Certificate.deserialize; cuts
theorem Extensions.cuts : Cuts 1 Extensions.deserialize := cuts_vector _
theorem RequiredCapabilitiesExtension.cuts : Cuts 1 RequiredCapabilitiesExtension.deserialize := by
  unfold RequiredCapabilitiesExtension.deserialize; cuts
theorem ExternalSendersExtension.cuts : Cuts 1 ExternalSendersExtension.deserialize := by
  unfold ExternalSendersExtension.deserialize; cuts [SecretKey.cuts, Credential.cuts]
theorem Lifetime.cuts : Cuts 16 Lifetime.deserialize := by unfold Lifetime.deserialize; cuts
theorem LeafNodeSource.cuts : Cuts 1 LeafNodeSource.deserialize := by
  unfold LeafNodeSource.deserialize; cuts [Lifetime.cuts]
theorem Capabilities.cuts : Cuts 1 Capabilities.deserialize := by unfold Capabilities.deserialize; cuts
theorem LeafNodePayload.cuts : Cuts 1 LeafNodePayload.deserialize := by
  unfold LeafNodePayload.deserialize
  cuts [SecretKey.cuts, Credential.cuts, Capabilities.cuts, LeafNodeSource.cuts, Extensions.cuts]
theorem LeafNode.cuts : Cuts 1 LeafNode.deserialize := by
  unfold LeafNode.deserialize; cuts [LeafNodePayload.cuts]
theorem ParentNode.cuts : Cuts 1 ParentNode.deserialize := by
  unfold ParentNode.deserialize; cuts [SecretKey.cuts]
theorem HPKECiphertext.cuts : Cuts 1 HPKECiphertext.deserialize := by unfold HPKECiphertext.deserialize; cuts
theorem UpdatePathNode.cuts : Cuts 1 UpdatePathNode.deserialize := by
  unfold UpdatePathNode.deserialize; cuts [SecretKey.cuts]
theorem UpdatePath.cuts : Cuts 1 UpdatePath.deserialize := by
  unfold UpdatePath.deserialize; cuts [LeafNode.cuts]
theorem Node.cuts : Cuts 1 Node.deserialize := by
  unfold Node.deserialize; cuts [NodeType.cuts, LeafNode.cuts, ParentNode.cuts]
theorem KeyPackageTBS.cuts : Cuts 1 KeyPackageTBS.deserialize := by
  unfold KeyPackageTBS.deserialize; cuts [SecretKey.cuts, LeafNode.cuts, Extensions.cuts]
theorem KeyPackage.cuts : Cuts 1 KeyPackage.deserialize := by
  unfold KeyPackage.deserialize; cuts [KeyPackageTBS.cuts]
theorem Resumption.cuts : Cuts 10 Resumption.deserialize := by
  unfold Resumption.deserialize; cuts [ResumptionPSKUsage.cuts]
theorem PSK.cuts : Cuts 2 PSK.deserialize := by
  unfold PSK.deserialize; cuts [PSKType.cuts, Resumption.cuts]
theorem PreSharedKeyID.cuts : Cuts 1 PreSharedKeyID.deserialize := by
  unfold PreSharedKeyID.deserialize; cuts [PSK.cuts]
theorem PSKLabel.cuts : Cuts 1 PSKLabel.deserialize := by
  unfold PSKLabel.deserialize; cuts [PreSharedKeyID.cuts]
theorem GroupContext.cuts : Cuts 1 GroupContext.deserialize := by
  unfold GroupContext.deserialize; cuts [Extensions.cuts]
theorem RemoveProposal.cuts : Cuts 4 RemoveProposal.deserialize := by unfold RemoveProposal.deserialize; cuts
theorem PreSharedKeyProposal.cuts : Cuts 1 PreSharedKeyProposal.deserialize := by
  unfold PreSharedKeyProposal.deserialize; cuts [PreSharedKeyID.cuts]
theorem ReInitProposal.cuts : Cuts 1 ReInitProposal.deserialize := by
  unfold ReInitProposal.deserialize; cuts [Extensions.cuts]
theorem ExternalInitProposal.cuts : Cuts 1 ExternalInitProposal.deserialize := by
  unfold ExternalInitProposal.deserialize; cuts
theorem GroupContextExtensionsProposal.cuts : Cuts 1 GroupContextExtensionsProposal.deserialize := by
  unfold GroupContextExtensionsProposal.deserialize; cuts [Extensions.cuts]
theorem AddProposal.cuts : Cuts 1 AddProposal.deserialize := by
  unfold AddProposal.deserialize; cuts [KeyPackage.cuts]
theorem UpdateProposal.cuts : Cuts 1 UpdateProposal.deserialize := by
  unfold UpdateProposal.deserialize; cuts [LeafNode.cuts]
theorem Proposal.cuts : Cuts 2 Proposal.deserialize := by
  unfold Proposal.deserialize
  cuts [AddProposal.cuts, UpdateProposal.cuts, RemoveProposal.cuts, PreSharedKeyProposal.cuts,
    ReInitProposal.cuts, ExternalInitProposal.cuts, GroupContextExtensionsProposal.cuts]
theorem ProposalOrRef.cuts : Cuts 1 ProposalOrRef.deserialize := by
  unfold ProposalOrRef.deserialize; cuts [Proposal.cuts]
theorem Commit.cuts : Cuts 1 Commit.deserialize := by
  unfold Commit.deserialize; cuts [cuts_optional, UpdatePath.cuts]
theorem Content.cuts_body (ct : ContentType) : Cuts 1 (Content.deserializeBody ct) := by
  unfold Content.deserializeBody; cuts [Proposal.cuts, Commit.cuts]
theorem Content.cuts : Cuts 1 Content.deserialize := by
  unfold Content.deserialize; cuts [ContentType.cuts, Content.cuts_body _]
theorem Sender.cuts : Cuts 1 Sender.deserialize := by
  unfold Sender.deserialize; cuts [SenderType.cuts]
theorem FramedContent.cuts : Cuts 1 FramedContent.deserialize := by
  unfold FramedContent.deserialize; cuts [Sender.cuts, Content.cuts]
theorem FramedContentAuthData.cuts (ct : ContentType) : Cuts 1 (FramedContentAuthData.deserialize ct) := by
  unfold FramedContentAuthData.deserialize; cuts
theorem AuthenticatedContent.cuts : Cuts 1 AuthenticatedContent.deserialize := by
  unfold AuthenticatedContent.deserialize
  cuts [WireFormat.cuts, FramedContent.cuts, FramedContentAuthData.cuts _]
theorem FramedContentTBS.cuts : Cuts 1 FramedContentTBS.deserialize := by
  unfold FramedContentTBS.deserialize; cuts [WireFormat.cuts, FramedContent.cuts, GroupContext.cuts]
theorem AuthenticatedContentTBM.cuts : Cuts 1 AuthenticatedContentTBM.deserialize := by
  unfold AuthenticatedContentTBM.deserialize; cuts [FramedContentTBS.cuts, FramedContentAuthData.cuts _]
theorem SenderData.cuts : Cuts 12 SenderData.deserialize := by
  unfold SenderData.deserialize; cuts [cuts_copy 4]
theorem PrivateMessage.cuts : Cuts 1 PrivateMessage.deserialize := by
  unfold PrivateMessage.deserialize; cuts [ContentType.cuts]
theorem PrivateContentAAD.cuts : Cuts 1 PrivateContentAAD.deserialize := by
  unfold PrivateContentAAD.deserialize; cuts [ContentType.cuts]
theorem PublicMessage.cuts : Cuts 1 PublicMessage.deserialize := by
  unfold PublicMessage.deserialize; cuts [FramedContent.cuts, FramedContentAuthData.cuts _]
theorem GroupInfo.cuts : Cuts 1 GroupInfo.deserialize := by
  unfold GroupInfo.deserialize; cuts [GroupContext.cuts, Extensions.cuts]
theorem GroupSecrets.cuts_path : Cuts 1 GroupSecrets.deserializePath := by
  unfold GroupSecrets.deserializePath; cuts [cuts_optional]
theorem GroupSecrets.cuts : Cuts 1 GroupSecrets.deserialize := by
  unfold GroupSecrets.deserialize; cuts [GroupSecrets.cuts_path]
theorem EncryptedGroupSecrets.cuts : Cuts 1 EncryptedGroupSecrets.deserialize := by
  unfold EncryptedGroupSecrets.deserialize KeyPackageRef.deserialize; cuts [HPKECiphertext.cuts]
theorem Welcome.cuts : Cuts 1 Welcome.deserialize := by unfold Welcome.deserialize; cuts
theorem ConfirmedTranscriptHashInput.cuts : Cuts 1 ConfirmedTranscriptHashInput.deserialize := by
  unfold ConfirmedTranscriptHashInput.deserialize; cuts [WireFormat.cuts, FramedContent.cuts]
theorem WireMessage.cuts : Cuts 2 WireMessage.deserialize := by
  unfold WireMessage.deserialize
  cuts [WireFormat.cuts, PublicMessage.cuts, PrivateMessage.cuts, Welcome.cuts, GroupInfo.cuts, KeyPackage.cuts]
theorem MLSMessage.cuts : Cuts 4 MLSMessage.deserialize := by
  unfold MLSMessage.deserialize; cuts [WireMessage.cuts]
theorem RatchetTree.cuts : Cuts 1 RatchetTree.deserialize :=
  Cuts.bind (cuts_vector _) fun _ => Cuts.lift _ rfl

theorem codec_cuts : ∀ c ∈ wireCodecs, Cuts 0 c.read := by
  have z {α : Type} {n : Nat} {d : De α} (h : Cuts n d) : Cuts 0 d := h.mono (Nat.zero_le _)
  simp only [wireCodecs, List.forall_mem_cons]
  exact ⟨z cuts_opaque, z SecretKey.cuts, z cuts_opaque, z cuts_opaque, z cuts_opaque, z cuts_opaque, z cuts_opaque,
    z cuts_opaque, z SignatureScheme.cuts, z SignatureKeyPair.cuts, z HPKEKeyPair.cuts, z ProposalType.cuts,
    z ContentType.cuts, z WireFormat.cuts, z Credential.cuts, z Extensions.cuts,
    z RequiredCapabilitiesExtension.cuts, z ExternalSendersExtension.cuts, z Lifetime.cuts,
    z LeafNodeSource.cuts, z Capabilities.cuts, z LeafNodePayload.cuts, z LeafNode.cuts,
    z ParentNode.cuts, z HPKECiphertext.cuts, z UpdatePathNode.cuts, z UpdatePath.cuts, z Node.cuts,
    z KeyPackageTBS.cuts, z KeyPackage.cuts, z Resumption.cuts, z PSK.cuts, z PreSharedKeyID.cuts,
    z PSKLabel.cuts, z GroupContext.cuts, z Proposal.cuts, z ProposalOrRef.cuts, z Commit.cuts,
    z Content.cuts, z Sender.cuts, z FramedContent.cuts, z (FramedContentAuthData.cuts _),
    z (FramedContentAuthData.cuts _), z (FramedContentAuthData.cuts _), z AuthenticatedContent.cuts,
    z FramedContentTBS.cuts, z AuthenticatedContentTBM.cuts, z SenderData.cuts, z PrivateMessage.cuts,
    z PrivateContentAAD.cuts, z PublicMessage.cuts, z GroupInfo.cuts, z GroupSecrets.cuts,
    z EncryptedGroupSecrets.cuts, z Welcome.cuts, z ConfirmedTranscriptHashInput.cuts,
    z WireMessage.cuts, z MLSMessage.cuts, by simp⟩

/-! ## Readers that need no more than so many bytes -/

/-- With `n` bytes the verdict is neither "too short" nor a panic. -/
def Ends (n : Nat) (d : De α) : Prop := ∀ b : Bytes, n ≤ b.length → ¬ CutRes (d b)

theorem Ends.mono {n : Nat} {d : De α} (h : Ends n d) (hn : n ≤ m) : Ends m d :=
  fun b hb => h b (Nat.le_trans hn hb)

theorem Ends.pure (v : α) : Ends m (Pure.pure v : De α) := by
  rintro b _ (h | h) <;> cases h

theorem Ends.fail {x : Error} (hx : x ≠ .BufferTooSmall) : Ends m (De.fail x : De α) := by
  rintro b _ (h | h)
  · cases h; exact hx rfl
  · cases h

theorem Ends.bind {l n : Nat} {d : De α} {k : α → De β} (hc : Cuts l d) (h : Ends n d) (hk : ∀ a, Ends m (k a)) :
    Ends (n + m) (d >>= k) := by
  intro b hb hcut
  rw [De.bind_apply] at hcut
  cases h1 : d b with
  | err x =>
    rw [h1] at hcut
    rcases hcut with hx | hx
    · cases hx; exact h b (by omega) (.inl h1)
    · cases hx
  | fault x =>
    rw [h1] at hcut
    rcases hcut with hx | hx
    · cases hx
    · cases hx; exact h b (by omega) (.inr h1)
  | ok p =>
    obtain ⟨v, r⟩ := p
    rw [h1] at hcut
    obtain ⟨e, rfl, _, _, he⟩ := hc.cut _ _ _ h1
    have : e.length ≤ n := by
      refine Nat.not_lt.1 fun hl => ?_
      exact h (e.take n) (by rw [List.length_take]; omega) (he n hl)
    exact hk v r (by rw [List.length_append] at hb; omega) hcut

theorem Ends.need {n : Nat} {d : De α} (h : Ends m d) : Ends (max n m) (need n >>= fun _ => d) := by
  intro b hb
  rw [De.bind_apply, Rmls.need, if_neg (by omega)]
  exact h b (by omega)

theorem ends_getBE (n : Nat) : Ends n (getBE n) := by
  intro b hb
  rw [getBE, if_neg (by omega)]
  rintro (h | h) <;> cases h

theorem ends_u8 : Ends 1 get_u8 := by
  intro b hb
  rw [get_u8, getBE, if_neg (by omega)]
  rintro (h | h) <;> cases h
theorem ends_u64 : Ends 8 get_u64 := by
  intro b hb
  rw [get_u64, getBE, if_neg (by omega)]
  rintro (h | h) <;> cases h

theorem ends_copy (n : Nat) : Ends n (copy_to_bytes n) := by
  intro b hb
  rw [copy_to_bytes, if_neg (by omega)]
  rintro (h | h) <;> cases h

theorem ends_varintLoop : ∀ n v, Ends n (varintLoop n v)
  | 0, v => Ends.pure v
  | n + 1, v => by
    rw [varintLoop]
    exact (Ends.need (Ends.bind cuts_u8 ends_u8 fun a => ends_varintLoop n _)).mono (by omega)

theorem ends_varint : Ends 4 deserialize_varint := by
  unfold deserialize_varint
  refine (Ends.need (m := 4) (Ends.bind (m := 3) cuts_u8 ends_u8 fun a => ?_)).mono (by omega)
  dsimp only
  split
  · exact Ends.fail (by simp)
  · rename_i hp
    have hlt : a.toNat >>> 6 < 4 := by
      have := a.toNat_lt
      rw [Nat.shiftRight_eq_div_pow]
      omega
    have h3 : 1 <<< (a.toNat >>> 6) - 1 ≤ 3 := by
      have : a.toNat >>> 6 = 0 ∨ a.toNat >>> 6 = 1 ∨ a.toNat >>> 6 = 2 := by omega
      rcases this with h | h | h <;> rw [h] <;> decide
    refine Ends.mono (n := (1 <<< (a.toNat >>> 6) - 1) + 0)
      (Ends.bind (cuts_varintLoop _ _) (ends_varintLoop _ _) fun v => ?_) (by omega)
    split
    · exact Ends.fail (by simp)
    · exact Ends.pure _

theorem ends_opaque : Ends (4 + 2 ^ 30) deserialize_opaque_vec := by
  intro b hb hcut
  unfold deserialize_opaque_vec at hcut
  rw [De.bind_apply] at hcut
  cases h1 : deserialize_varint b with
  | err x =>
    rw [h1] at hcut
    rcases hcut with hx | hx
    · cases hx; exact ends_varint b (by omega) (.inl h1)
    · cases hx
  | fault x =>
    rw [h1] at hcut
    rcases hcut with hx | hx
    · cases hx
    · cases hx; exact ends_varint b (by omega) (.inr h1)
  | ok p =>
    obtain ⟨n, r⟩ := p
    rw [h1] at hcut
    have hn : n < 2 ^ 30 := (lawful_varint.canon _ _ _ h1).1
    obtain ⟨e, rfl, _, _, he⟩ := cuts_varint.cut _ _ _ h1
    have : e.length ≤ 4 := by
      refine Nat.not_lt.1 fun hl => ?_
      exact ends_varint (e.take 4) (by rw [List.length_take]; omega) (he 4 hl)
    rw [List.length_append] at hb
    exact Ends.need (ends_copy n) r (by omega) hcut

theorem ContentType.ends : Ends 1 ContentType.deserialize := by
  unfold ContentType.deserialize
  refine (Ends.need (m := 1) (Ends.bind (m := 0) cuts_u8 ends_u8 fun a => ?_)).mono (by omega)
  repeat' split
  all_goals first | exact Ends.pure _ | exact Ends.fail (by simp)

theorem PrivateMessage.ends : Ends (4 * (4 + 2 ^ 30) + 9) PrivateMessage.deserialize := by
  unfold PrivateMessage.deserialize
  refine Ends.mono (n := (4 + 2 ^ 30) + (max 8 (8 + (1 + ((4 + 2 ^ 30) + ((4 + 2 ^ 30) + ((4 + 2 ^ 30) + 0)))))))
    ?_ (by decide)
  refine Ends.bind cuts_opaque ends_opaque fun _ => Ends.need (Ends.bind cuts_u64 ends_u64 fun _ =>
    Ends.bind ContentType.cuts ContentType.ends fun _ => Ends.bind cuts_opaque ends_opaque fun _ =>
    Ends.bind cuts_opaque ends_opaque fun _ => Ends.bind cuts_opaque ends_opaque fun _ => Ends.pure _)

end Rmls
