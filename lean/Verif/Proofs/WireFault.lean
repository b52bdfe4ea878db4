import Verif.Proofs.WireLaw
/-
Which readers can panic, and that none of them runs forever.
-/
namespace Rmls

section
variable {β : Type} {f : Fault} {m : Nat}

theorem NoF.u8 {k : UInt8 → De β} (h : ∀ a, NoF f m (k a)) : NoF f (m + 1) (get_u8 >>= k) := by
  rw [Nat.add_comm]; exact NoF.bindLen lawful_u8 len_u8 (noF_u8 (by omega)) h
theorem NoF.u16 {k : UInt16 → De β} (h : ∀ a, NoF f m (k a)) : NoF f (m + 2) (get_u16 >>= k) := by
  rw [Nat.add_comm]; exact NoF.bindLen lawful_u16 len_u16 (noF_u16 (by omega)) h
theorem NoF.u32 {k : UInt32 → De β} (h : ∀ a, NoF f m (k a)) : NoF f (m + 4) (get_u32 >>= k) := by
  rw [Nat.add_comm]; exact NoF.bindLen lawful_u32 len_u32 (noF_u32 (by omega)) h
theorem NoF.u64 {k : UInt64 → De β} (h : ∀ a, NoF f m (k a)) : NoF f (m + 8) (get_u64 >>= k) := by
  rw [Nat.add_comm]; exact NoF.bindLen lawful_u64 len_u64 (noF_u64 (by omega)) h

end

theorem getBE_noHang (n : Nat) (b : Bytes) : getBE n b ≠ .fault .hang := by
  unfold getBE; split <;> simp

theorem noHang_u16 : NoF .hang 0 get_u16 := by
  intro b _ h; unfold get_u16 at h; split at h <;> cases h
  rename_i h; exact getBE_noHang _ _ h
theorem noHang_u32 : NoF .hang 0 get_u32 := by
  intro b _ h; unfold get_u32 at h; split at h <;> cases h
  rename_i h; exact getBE_noHang _ _ h
theorem noHang_u64 : NoF .hang 0 get_u64 := by
  intro b _ h; unfold get_u64 at h; split at h <;> cases h
  rename_i h; exact getBE_noHang _ _ h

/-- Structural search for `NoF` goals, given facts about the readers of the components. -/
syntax "nof" (" [" term,* "]")? : tactic
macro_rules
  | `(tactic| nof [$ts,*]) => do
    let alts ← ts.getElems.mapM fun t => `(tacticSeq| with_reducible exact $t)
    let alts2 ← ts.getElems.mapM fun t => `(tacticSeq| with_reducible exact NoF.mono $t (Nat.zero_le _))
    `(tactic| repeat' first
      | (with_reducible exact noF_pure _ _)
      | (with_reducible exact noF_fail _ _)
      | (with_reducible exact noF_opaque _)
      | (with_reducible exact NoF.mono (noF_opaque _) (Nat.zero_le _))
      | (with_reducible exact noF_optional _)
      $[| ($alts)]*
      $[| ($alts2)]*
      | (with_reducible refine NoF.need ?_)
      | (refine NoF.u8 (fun _ => ?_))
      | (refine NoF.u16 (fun _ => ?_))
      | (refine NoF.u32 (fun _ => ?_))
      | (refine NoF.u64 (fun _ => ?_))
      | (with_reducible refine NoF.bind' ?_ (fun _ => ?_))
      | split)
  | `(tactic| nof) => `(tactic| nof [noF_pure () 0])

section
variable {f : Fault}

theorem CipherSuite.noF : NoF f 0 CipherSuite.deserialize := by unfold CipherSuite.deserialize; nof
theorem CredentialType.noF : NoF f 0 CredentialType.deserialize := by unfold CredentialType.deserialize; nof
theorem ExtensionType.noF : NoF f 0 ExtensionType.deserialize := by unfold ExtensionType.deserialize; nof
theorem ProposalType.noF : NoF f 0 ProposalType.deserializeElem := by unfold ProposalType.deserializeElem; nof
theorem ProtocolVersion.noF : NoF f 0 ProtocolVersion.deserialize := by unfold ProtocolVersion.deserialize; nof
theorem SignatureScheme.noF : NoF f 0 SignatureScheme.deserialize := by unfold SignatureScheme.deserialize; nof
theorem ContentType.noF : NoF f 0 ContentType.deserialize := by unfold ContentType.deserialize; nof
theorem SenderType.noF : NoF f 0 SenderType.deserialize := by unfold SenderType.deserialize; nof
theorem WireFormat.noF : NoF f 0 WireFormat.deserialize := by unfold WireFormat.deserialize; nof
theorem NodeType.noF : NoF f 0 NodeType.deserialize := by unfold NodeType.deserialize; nof
theorem PSKType.noF : NoF f 0 PSKType.deserialize := by unfold PSKType.deserialize; nof
theorem ResumptionPSKUsage.noF : NoF f 0 ResumptionPSKUsage.deserialize := by
  unfold ResumptionPSKUsage.deserialize; nof

theorem ProposalType.noHang : NoF .hang 0 ProposalType.deserialize := by
  unfold ProposalType.deserialize
  exact NoF.need (NoF.bind' (noHang_u16.mono (by omega)) fun _ => noF_pure _ _)

theorem noF_vec {α : Type} {d : De α} {s : α → Res Bytes} {W : α → Prop} {n : Nat} (hl : Lawful d s W)
    (hm : MinLen s n) (hn : 1 ≤ n) (hd : NoF f 0 d) : NoF f 0 (deserialize_vector d) :=
  noF_vector hl (hm.mono hn) hd

theorem SecretKey.noF : NoF f 0 SecretKey.deserialize := noF_opaque f
theorem SignatureKeyPair.noF : NoF f 0 SignatureKeyPair.deserialize := by
  unfold SignatureKeyPair.deserialize; nof [SecretKey.noF, SignatureScheme.noF]
theorem HPKEKeyPair.noF : NoF f 0 HPKEKeyPair.deserialize := by
  unfold HPKEKeyPair.deserialize; nof [SecretKey.noF]
theorem Credential.noF : NoF f 0 Credential.deserialize := by
  unfold Credential.deserialize Identity.deserialize Certificate.deserialize
  nof [noF_vec lawful_bytes minLen_opaque (by omega) (noF_opaque f)]
theorem Extension.noF : NoF f 0 Extension.deserialize := by
  unfold Extension.deserialize; nof
theorem Extensions.noF : NoF f 0 Extensions.deserialize :=
  noF_vec Extension.lawful Extension.minLen (by omega) Extension.noF
theorem RequiredCapabilitiesExtension.noF : NoF f 0 RequiredCapabilitiesExtension.deserialize := by
  unfold RequiredCapabilitiesExtension.deserialize
  nof [noF_vec ExtensionType.lawful ExtensionType.minLen (by omega) ExtensionType.noF,
    noF_vec ProposalType.lawful ProposalType.minLen (by omega) ProposalType.noF,
    noF_vec CredentialType.lawful CredentialType.minLen (by omega) CredentialType.noF]
theorem ExternalSendersExtension.noF : NoF f 0 ExternalSendersExtension.deserialize := by
  unfold ExternalSendersExtension.deserialize; nof [SecretKey.noF, Credential.noF]
theorem Capabilities.noF : NoF f 0 Capabilities.deserialize := by
  unfold Capabilities.deserialize
  nof [noF_vec ProtocolVersion.lawful ProtocolVersion.minLen (by omega) ProtocolVersion.noF,
    noF_vec CipherSuite.lawful CipherSuite.minLen (by omega) CipherSuite.noF,
    noF_vec ExtensionType.lawful ExtensionType.minLen (by omega) ExtensionType.noF,
    noF_vec ProposalType.lawful ProposalType.minLen (by omega) ProposalType.noF,
    noF_vec CredentialType.lawful CredentialType.minLen (by omega) CredentialType.noF]
theorem HPKECiphertext.noF : NoF f 0 HPKECiphertext.deserialize := by
  unfold HPKECiphertext.deserialize; nof
theorem UpdatePathNode.noF : NoF f 0 UpdatePathNode.deserialize := by
  unfold UpdatePathNode.deserialize
  nof [SecretKey.noF, noF_vec HPKECiphertext.lawful HPKECiphertext.minLen (by omega) HPKECiphertext.noF]
theorem Resumption.noF : NoF f 0 Resumption.deserialize := by
  unfold Resumption.deserialize; nof [ResumptionPSKUsage.noF]
theorem PSK.noF : NoF f 0 PSK.deserialize := by
  unfold PSK.deserialize; nof [PSKType.noF, Resumption.noF]
theorem PreSharedKeyID.noF : NoF f 0 PreSharedKeyID.deserialize := by
  unfold PreSharedKeyID.deserialize; nof [PSK.noF]
theorem PSKLabel.noF : NoF f 0 PSKLabel.deserialize := by
  unfold PSKLabel.deserialize; nof [PreSharedKeyID.noF]
theorem GroupContext.noF : NoF f 0 GroupContext.deserialize := by
  unfold GroupContext.deserialize; nof [Extensions.noF]
theorem RemoveProposal.noF : NoF f 0 RemoveProposal.deserialize := by
  unfold RemoveProposal.deserialize; nof
theorem PreSharedKeyProposal.noF : NoF f 0 PreSharedKeyProposal.deserialize := by
  unfold PreSharedKeyProposal.deserialize; nof [PreSharedKeyID.noF]
theorem ReInitProposal.noF : NoF f 0 ReInitProposal.deserialize := by
  unfold ReInitProposal.deserialize; nof [Extensions.noF]
theorem ExternalInitProposal.noF : NoF f 0 ExternalInitProposal.deserialize := by
  unfold ExternalInitProposal.deserialize; nof
theorem GroupContextExtensionsProposal.noF : NoF f 0 GroupContextExtensionsProposal.deserialize := by
  unfold GroupContextExtensionsProposal.deserialize; nof [Extensions.noF]
theorem Sender.noF : NoF f 0 Sender.deserialize := by
  unfold Sender.deserialize; nof [SenderType.noF]
theorem FramedContentAuthData.noF (ct : ContentType) : NoF f 0 (FramedContentAuthData.deserialize ct) := by
  unfold FramedContentAuthData.deserialize; nof
theorem SenderData.noF : NoF f 0 SenderData.deserialize := by
  unfold SenderData.deserialize; nof [noF_copy f 4]
theorem PrivateMessage.noF : NoF f 0 PrivateMessage.deserialize := by
  unfold PrivateMessage.deserialize; nof [ContentType.noF]
theorem PrivateContentAAD.noF : NoF f 0 PrivateContentAAD.deserialize := by
  unfold PrivateContentAAD.deserialize; nof [ContentType.noF]
theorem GroupInfo.noF : NoF f 0 GroupInfo.deserialize := by
  unfold GroupInfo.deserialize; nof [GroupContext.noF, Extensions.noF]
theorem GroupSecrets.noF : NoF f 0 GroupSecrets.deserialize := by
  unfold GroupSecrets.deserialize GroupSecrets.deserializePath
  nof [noF_vec PreSharedKeyID.lawful PreSharedKeyID.minLen (by omega) PreSharedKeyID.noF]
theorem EncryptedGroupSecrets.noF : NoF f 0 EncryptedGroupSecrets.deserialize := by
  unfold EncryptedGroupSecrets.deserialize KeyPackageRef.deserialize; nof [HPKECiphertext.noF]
theorem Welcome.noF : NoF f 0 Welcome.deserialize := by
  unfold Welcome.deserialize
  nof [noF_vec EncryptedGroupSecrets.lawful EncryptedGroupSecrets.minLen (by omega) EncryptedGroupSecrets.noF]

/-! Readers that contain the lifetime of a key package or an unmerged-leaves list: everything they do
is free of fault `f` if those two are. -/

variable (hlt : NoF f 0 Lifetime.deserialize) (hum : NoF f 0 ParentNode.deserializeUnmerged)
include hlt

theorem LeafNodeSource.noF_of : NoF f 0 LeafNodeSource.deserialize := by
  unfold LeafNodeSource.deserialize; nof [hlt]
theorem LeafNodePayload.noF_of : NoF f 0 LeafNodePayload.deserialize := by
  unfold LeafNodePayload.deserialize
  nof [SecretKey.noF, Credential.noF, Capabilities.noF, LeafNodeSource.noF_of hlt, Extensions.noF]
theorem LeafNode.noF_of : NoF f 0 LeafNode.deserialize := by
  unfold LeafNode.deserialize; nof [LeafNodePayload.noF_of hlt]
theorem UpdatePath.noF_of : NoF f 0 UpdatePath.deserialize := by
  unfold UpdatePath.deserialize
  nof [LeafNode.noF_of hlt, noF_vec UpdatePathNode.lawful UpdatePathNode.minLen (by omega) UpdatePathNode.noF]
theorem KeyPackageTBS.noF_of : NoF f 0 KeyPackageTBS.deserialize := by
  unfold KeyPackageTBS.deserialize
  nof [SecretKey.noF, LeafNode.noF_of hlt, Extensions.noF]
theorem KeyPackage.noF_of : NoF f 0 KeyPackage.deserialize := by
  unfold KeyPackage.deserialize; nof [KeyPackageTBS.noF_of hlt]
theorem AddProposal.noF_of : NoF f 0 AddProposal.deserialize := by
  unfold AddProposal.deserialize; nof [KeyPackage.noF_of hlt]
theorem UpdateProposal.noF_of : NoF f 0 UpdateProposal.deserialize := by
  unfold UpdateProposal.deserialize; nof [LeafNode.noF_of hlt]
theorem Proposal.noF_of : NoF f 0 Proposal.deserialize := by
  unfold Proposal.deserialize
  nof [AddProposal.noF_of hlt, UpdateProposal.noF_of hlt, RemoveProposal.noF, PreSharedKeyProposal.noF,
    ReInitProposal.noF, ExternalInitProposal.noF, GroupContextExtensionsProposal.noF]
theorem ProposalOrRef.noF_of : NoF f 0 ProposalOrRef.deserialize := by
  unfold ProposalOrRef.deserialize; nof [Proposal.noF_of hlt]
theorem Commit.noF_of : NoF f 0 Commit.deserialize := by
  unfold Commit.deserialize
  nof [UpdatePath.noF_of hlt,
    noF_vec ProposalOrRef.lawful ProposalOrRef.minLen (by omega) (ProposalOrRef.noF_of hlt)]
theorem Content.noF_body (ct : ContentType) : NoF f 0 (Content.deserializeBody ct) := by
  unfold Content.deserializeBody; nof [Proposal.noF_of hlt, Commit.noF_of hlt]
theorem Content.noF_of : NoF f 0 Content.deserialize := by
  unfold Content.deserialize; nof [ContentType.noF, Content.noF_body hlt _]
theorem FramedContent.noF_of : NoF f 0 FramedContent.deserialize := by
  unfold FramedContent.deserialize; nof [Sender.noF, Content.noF_of hlt]
theorem AuthenticatedContent.noF_of : NoF f 0 AuthenticatedContent.deserialize := by
  unfold AuthenticatedContent.deserialize
  nof [WireFormat.noF, FramedContent.noF_of hlt, FramedContentAuthData.noF _]
theorem FramedContentTBS.noF_of : NoF f 0 FramedContentTBS.deserialize := by
  unfold FramedContentTBS.deserialize
  nof [WireFormat.noF, FramedContent.noF_of hlt, GroupContext.noF]
theorem AuthenticatedContentTBM.noF_of : NoF f 0 AuthenticatedContentTBM.deserialize := by
  unfold AuthenticatedContentTBM.deserialize
  nof [FramedContentTBS.noF_of hlt, FramedContentAuthData.noF _]
omit hlt in
theorem checkPadding_noF (b : Bytes) : checkPadding b ≠ .fault f := by
  induction b with
  | nil => simp [checkPadding]
  | cons c cs ih => unfold checkPadding; split <;> simp_all
omit hlt in
theorem skipPadding_noF : NoF f 0 skipPadding := by
  intro b _ h
  unfold skipPadding at h
  split at h <;> cases h
  rename_i h; exact checkPadding_noF _ h
theorem PrivateMessageContent.noF_of (ct : ContentType) : NoF f 0 (PrivateMessageContent.deserialize ct) := by
  unfold PrivateMessageContent.deserialize
  nof [Content.noF_body hlt _, FramedContentAuthData.noF _, skipPadding_noF]
theorem PublicMessage.noF_of : NoF f 0 PublicMessage.deserialize := by
  unfold PublicMessage.deserialize
  nof [FramedContent.noF_of hlt, FramedContentAuthData.noF _]
theorem ConfirmedTranscriptHashInput.noF_of : NoF f 0 ConfirmedTranscriptHashInput.deserialize := by
  unfold ConfirmedTranscriptHashInput.deserialize
  nof [WireFormat.noF, FramedContent.noF_of hlt]
theorem WireMessage.noF_of : NoF f 0 WireMessage.deserialize := by
  unfold WireMessage.deserialize
  nof [WireFormat.noF, PublicMessage.noF_of hlt, PrivateMessage.noF, Welcome.noF, GroupInfo.noF,
    KeyPackage.noF_of hlt]
theorem MLSMessage.noF_of : NoF f 0 MLSMessage.deserialize := by
  unfold MLSMessage.deserialize; nof [WireMessage.noF_of hlt]

omit hlt in
include hum in
theorem ParentNode.noF_of : NoF f 0 ParentNode.deserialize := by
  unfold ParentNode.deserialize
  nof [SecretKey.noF, noF_vec ParentNode.lawful_unmerged minLen_u32 (by omega) hum]
include hum
theorem Node.noF_of : NoF f 0 Node.deserialize := by
  unfold Node.deserialize; nof [NodeType.noF, LeafNode.noF_of hlt, ParentNode.noF_of hum]
theorem RatchetTree.noF_nodes_of : NoF f 0 (deserialize_vector RatchetTree.deserializeNode) := by
  refine noF_vec RatchetTree.lawful_node RatchetTree.minLen_node (by omega) ?_
  unfold RatchetTree.deserializeNode; nof [Node.noF_of hlt hum]

end

theorem Lifetime.noHang : NoF .hang 0 Lifetime.deserialize := by
  unfold Lifetime.deserialize
  exact NoF.need (NoF.bind' (noHang_u64.mono (by omega)) fun _ => NoF.bind noHang_u64 fun _ => noF_pure _ _)
theorem ParentNode.noHang_unmerged : NoF .hang 0 ParentNode.deserializeUnmerged := by
  unfold ParentNode.deserializeUnmerged
  exact NoF.need (noHang_u32.mono (by omega))

end Rmls
