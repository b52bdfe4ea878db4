import Verif.Proofs.WireSpec
import Verif.Spec.Codecs
/-
The laws of all wire types collected.
-/
namespace Rmls
open Spec

theorem codec_lawful : ∀ c ∈ wireCodecs, Lawful c.read c.write c.wf := by
  simp only [wireCodecs, List.forall_mem_cons]
  refine ⟨lawful_bytes, SecretKey.lawful, lawful_bytes, lawful_bytes, KeyPackageRef.lawful, lawful_bytes, lawful_bytes, lawful_bytes,
    SignatureScheme.lawful, SignatureKeyPair.lawful, HPKEKeyPair.lawful, ProposalType.lawful',
    ContentType.lawful, WireFormat.lawful, Credential.lawful, Extensions.lawful,
    RequiredCapabilitiesExtension.lawful, ExternalSendersExtension.lawful, Lifetime.lawful,
    LeafNodeSource.lawful, Capabilities.lawful, LeafNodePayload.lawful, LeafNode.lawful,
    ParentNode.lawful, HPKECiphertext.lawful, UpdatePathNode.lawful, UpdatePath.lawful, Node.lawful,
    KeyPackageTBS.lawful, KeyPackage.lawful, Resumption.lawful, PSK.lawful, PreSharedKeyID.lawful,
    PSKLabel.lawful, GroupContext.lawful, Proposal.lawful, ProposalOrRef.lawful, Commit.lawful,
    Content.lawful, Sender.lawful, FramedContent.lawful, FramedContentAuthData.lawful _,
    FramedContentAuthData.lawful _, FramedContentAuthData.lawful _, AuthenticatedContent.lawful,
    FramedContentTBS.lawful, AuthenticatedContentTBM.lawful, SenderData.lawful, PrivateMessage.lawful,
    PrivateContentAAD.lawful, PublicMessage.lawful, GroupInfo.lawful, GroupSecrets.lawful,
    EncryptedGroupSecrets.lawful, Welcome.lawful, ConfirmedTranscriptHashInput.lawful,
    WireMessage.lawful, MLSMessage.lawful, by simp⟩

theorem codec_noHang : ∀ c ∈ wireCodecs, NoF .hang 0 c.read := by
  have h := Lifetime.noHang
  have h2 := ParentNode.noHang_unmerged
  simp only [wireCodecs, List.forall_mem_cons]
  refine ⟨noF_opaque _, SecretKey.noF, noF_opaque _, noF_opaque _, noF_opaque _, noF_opaque _, noF_opaque _, noF_opaque _,
    SignatureScheme.noF, SignatureKeyPair.noF, HPKEKeyPair.noF, ProposalType.noHang,
    ContentType.noF, WireFormat.noF, Credential.noF, Extensions.noF,
    RequiredCapabilitiesExtension.noF, ExternalSendersExtension.noF, h,
    LeafNodeSource.noF_of h, Capabilities.noF, LeafNodePayload.noF_of h, LeafNode.noF_of h,
    ParentNode.noF_of h2, HPKECiphertext.noF, UpdatePathNode.noF, UpdatePath.noF_of h, Node.noF_of h h2,
    KeyPackageTBS.noF_of h, KeyPackage.noF_of h, Resumption.noF, PSK.noF, PreSharedKeyID.noF,
    PSKLabel.noF, GroupContext.noF, Proposal.noF_of h, ProposalOrRef.noF_of h, Commit.noF_of h,
    Content.noF_of h, Sender.noF, FramedContent.noF_of h, FramedContentAuthData.noF _,
    FramedContentAuthData.noF _, FramedContentAuthData.noF _, AuthenticatedContent.noF_of h,
    FramedContentTBS.noF_of h, AuthenticatedContentTBM.noF_of h, SenderData.noF, PrivateMessage.noF,
    PrivateContentAAD.noF, PublicMessage.noF_of h, GroupInfo.noF, GroupSecrets.noF,
    EncryptedGroupSecrets.noF, Welcome.noF, ConfirmedTranscriptHashInput.noF_of h,
    WireMessage.noF_of h, MLSMessage.noF_of h, by simp⟩

theorem signatureKeyPair_w (x : SignatureKeyPair) : Writes x.serialize
    (Enc.struct [Enc.opq x.private_key, Enc.opq x.public_key, signatureScheme x.signature_scheme]) := by
  unfold SignatureKeyPair.serialize; writes [signatureScheme_w _]
theorem hpkeKeyPair_w (x : HPKEKeyPair) : Writes x.serialize
    (Enc.struct [Enc.opq x.private_key, Enc.opq x.public_key]) := by
  unfold HPKEKeyPair.serialize; writes
theorem authData_w (ct : ContentType) (x : FramedContentAuthData) :
    Writes (x.serialize ct) (authData ct x) := by
  unfold FramedContentAuthData.serialize authData
  refine Writes.app (writes_opaque _) ?_
  split <;> writes
theorem tbs_w (x : FramedContentTBS) (h : tbsPre x) : Writes x.serialize (tbs x) := by
  obtain ⟨v, w, c, ctx⟩ := x
  cases ctx with
  | some c' => exact framedContentTBS_w _ _ _ _
  | none =>
    have hn : ¬ c.sender.hasContext := fun hc => by simpa using h hc
    unfold FramedContentTBS.serialize FramedContentTBS.serializeContext tbs
    refine Writes.app (version_w _) (Writes.app (wireFormat_w _) (Writes.app (framedContent_w _) ?_))
    cases hs : c.sender <;> simp_all [Sender.hasContext] <;> exact writes_empty
theorem taggedPre_w (x : PublicMessage) (h : taggedPre x) :
    Writes x.serialize (publicMessage x (x.membership_tag.getD [])) :=
  publicMessage_w _ _ fun hm => by
    have := h hm
    cases ht : x.membership_tag <;> simp_all

theorem codec_writes : ∀ c ∈ wireCodecs, ∀ x, c.pre x → Writes (c.write x) (c.enc x) := by
  simp only [wireCodecs, List.forall_mem_cons]
  refine ⟨fun x _ => writes_opaque x, fun x _ => writes_opaque x, fun x _ => writes_opaque x,
    fun x _ => writes_opaque x, fun x _ => writes_opaque x, fun x _ => writes_opaque x,
    fun x _ => writes_opaque x, fun x _ => writes_opaque x, fun x _ => signatureScheme_w x,
    fun x _ => signatureKeyPair_w x, fun x _ => hpkeKeyPair_w x, fun x _ => proposalType_w x,
    fun x _ => contentType_w x, fun x _ => wireFormat_w x, fun x _ => credential_w x,
    fun x _ => extensions_w x, fun x _ => requiredCapabilities_w x, fun x _ => externalSender_w x,
    fun x _ => lifetime_w x, fun x _ => leafNodeSource_w x, fun x _ => capabilities_w x,
    fun x _ => leafNodePayload_w x, fun x _ => leafNode_w x, fun x _ => parentNode_w x,
    fun x _ => hpkeCiphertext_w x, fun x _ => updatePathNode_w x, fun x _ => updatePath_w x,
    fun x _ => node_w x, fun x _ => keyPackageTBS_w x, fun x _ => keyPackage_w x,
    fun x _ => resumption_w x, fun x _ => psk_w x, fun x _ => preSharedKeyID_w x,
    fun x _ => pskLabel_w x, fun x _ => groupContext_w x, fun x _ => proposal_w x,
    fun x _ => proposalOrRef_w x, fun x _ => commit_w x, fun x _ => content_w x,
    fun x _ => sender_w x, fun x _ => framedContent_w x, fun x _ => authData_w _ x,
    fun x _ => authData_w _ x, fun x _ => authData_w _ x, fun x _ => authenticatedContent_w x,
    tbs_w, fun x h => (tbs_w _ h).app (framedContentAuthData_w _ _), fun x _ => senderData_w x,
    fun x _ => privateMessage_w x, fun x _ => privateContentAAD_w x, taggedPre_w,
    fun x _ => groupInfo_w x, fun x _ => groupSecrets_w x, fun x _ => encryptedGroupSecrets_w x,
    fun x _ => welcome_w x, fun x h => h.elim fun c hc => confirmedTranscriptHashInput_w x c hc,
    fun x h => wireMessage_w x (by cases x <;> exact h),
    fun x h => mlsMessage_w x (by cases x with | mk v w => cases w <;> exact h), by simp⟩

/-! Writers never fault, whatever the value. -/

theorem Spec.Writes.noFault {r : Res Bytes} {e : Enc} (h : Writes r e) (f : Fault) : r ≠ .fault f := by
  rcases h with ⟨_, h⟩ | ⟨_, h | h⟩ <;> rw [h] <;> simp

theorem app_noFault {x y : Res Bytes} {f : Fault} (hx : x ≠ .fault f) (hy : y ≠ .fault f) :
    (x +++ y) ≠ .fault f := by
  cases x <;> cases y <;> simp_all

theorem FramedContentTBS.write_noFault (x : FramedContentTBS) (f : Fault) : x.serialize ≠ .fault f := by
  unfold FramedContentTBS.serialize FramedContentTBS.serializeContext
  refine app_noFault ((version_w _).noFault f) (app_noFault ((wireFormat_w _).noFault f)
    (app_noFault ((framedContent_w _).noFault f) ?_))
  repeat' split
  all_goals first | exact (groupContext_w _).noFault f | simp

theorem PublicMessage.write_noFault (x : PublicMessage) (f : Fault) : x.serialize ≠ .fault f := by
  unfold PublicMessage.serialize PublicMessage.serializeTag
  refine app_noFault ((framedContent_w _).noFault f)
    (app_noFault ((framedContentAuthData_w _ _).noFault f) ?_)
  repeat' split
  all_goals first | exact (writes_opaque _).noFault f | simp

theorem WireMessage.write_noFault (x : WireMessage) (f : Fault) : x.serialize ≠ .fault f := by
  cases x with
  | PublicMessage m => exact app_noFault ((wireFormat_w _).noFault f) (m.write_noFault f)
  | _ => exact (wireMessage_w _ (by trivial)).noFault f

theorem codec_write_noFault : ∀ c ∈ wireCodecs, ∀ x f, c.write x ≠ .fault f := by
  intro c hc x f
  by_cases hp : c.pre x
  · exact (codec_writes c hc x hp).noFault f
  · revert x hp
    revert c
    simp only [wireCodecs, List.forall_mem_cons]
    refine ⟨?_, ?_, ?_, ?_, ?_, ?_, ?_, ?_, ?_, ?_, ?_, ?_, ?_, ?_, ?_, ?_, ?_, ?_, ?_, ?_, ?_, ?_, ?_,
      ?_, ?_, ?_, ?_, ?_, ?_, ?_, ?_, ?_, ?_, ?_, ?_, ?_, ?_, ?_, ?_, ?_, ?_, ?_, ?_, ?_, ?_, ?_, ?_, ?_,
      ?_, ?_, ?_, ?_, ?_, ?_, ?_, ?_, ?_, ?_, by simp⟩
    all_goals intro x hp
    all_goals first
      | exact absurd trivial hp
      | exact FramedContentTBS.write_noFault _ _
      | exact PublicMessage.write_noFault _ _
      | exact WireMessage.write_noFault _ _
      | exact app_noFault (FramedContentTBS.write_noFault _ _) ((framedContentAuthData_w _ _).noFault _)
      | exact app_noFault ((version_w _).noFault _) (WireMessage.write_noFault _ _)
      | skip
    unfold ConfirmedTranscriptHashInput.serialize
    split
    · simp
    · exact app_noFault ((wireFormat_w _).noFault _) (app_noFault ((framedContent_w _).noFault _)
        ((writes_opaque _).noFault _))

end Rmls
