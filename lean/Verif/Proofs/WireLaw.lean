import Verif.Proofs.Serde
import Verif.Spec.WellFormed
/-
Every wire type's reader and writer are inverse to each other on well-formed values.
-/
namespace Rmls

section rules
variable {α β : Type}

theorem Lawful.weaken {d : De α} {s : α → Res Bytes} {W W' : α → Prop} (h : Lawful d s W)
    (h1 : ∀ x b, W' x → s x = .ok b → W x) (h2 : ∀ x, W x → W' x) : Lawful d s W' where
  rt x b rest hw hb := h.rt x b rest (h1 x b hw hb) hb
  canon buf x rest hb := by
    obtain ⟨hw, h3⟩ := h.canon _ _ _ hb
    exact ⟨h2 x hw, h3⟩

/-- One constructor of a sum. -/
theorem Lawful.case {da : De α} {sa : α → Res Bytes} {Wa : α → Prop} {s : β → Res Bytes}
    {W : β → Prop} (c : α → β) (ha : Lawful da sa Wa) (hs : ∀ a, s (c a) = sa a)
    (hW : ∀ x, W x ↔ ∃ a, x = c a ∧ Wa a) :
    Lawful (da >>= fun a => Pure.pure (c a)) s W where
  rt x b rest hw hb := by
    obtain ⟨a, rfl, hwa⟩ := (hW x).1 hw
    rw [De.bind_apply, ha.rt a b rest hwa (by rw [← hs]; exact hb)]
    rfl
  canon buf x rest hb := by
    obtain ⟨a, r, h1, h2⟩ := De.bind_ok_iff.1 hb
    cases h2
    obtain ⟨hwa, b, h3, h4⟩ := ha.canon _ _ _ h1
    exact ⟨(hW _).2 ⟨a, rfl, hwa⟩, b, by rw [hs]; exact h3, h4⟩

end rules

theorem lawful_bytes : Lawful deserialize_opaque_vec serialize_opaque_vec (fun _ => True) :=
  lawful_opaque.weaken (fun _ _ _ h => (serialize_opaque_vec_ok_iff.1 h).1) (fun _ _ => trivial)

theorem lawful_vec {α : Type} {d : De α} {s : α → Res Bytes} {W : α → Prop} (h : Lawful d s W)
    (hm : MinLen s 1) : Lawful (deserialize_vector d) (serialize_vector s) (fun xs => ∀ x ∈ xs, W x) :=
  (lawful_vector h hm).weaken (fun _ _ hw hb => ⟨hw, serialize_vector_ok hb⟩) (fun _ h => h.1)

/-- One field of a record; the side conditions are left to `grind`. -/
macro "field " p:term ", " l:term : tactic =>
  `(tactic| refine Lawful.bind $p $l (fun _ _ => ?_) (fun _ _ => rfl)
      (by first | exact fun _ _ => trivial | (intro x h; grind)))

/-- The last field of a record. -/
macro "last " p:term ", " l:term : tactic =>
  `(tactic| refine Lawful.bind $p $l (fun _ _ => ?_) (fun _ _ => (Res.app_nil _).symm)
      (by first | exact fun _ _ => trivial | (intro x h; grind)))

/-- Assembling the record. -/
macro "build" : tactic =>
  `(tactic| exact Lawful.pure (by intro x; cases x; grind) rfl)

/-! ### Registries -/

theorem CipherSuite.to_of (v : UInt16) : (CipherSuite.ofU16 v).toU16 = v := by
  simp only [CipherSuite.ofU16]; grind [CipherSuite.toU16]
theorem CipherSuite.of_to {x : CipherSuite} (h : x.WF) : CipherSuite.ofU16 x.toU16 = x := by
  cases x <;> simp_all [CipherSuite.WF, CipherSuite.toU16, CipherSuite.ofU16, ← UInt16.toNat_inj]
  try grind
theorem CipherSuite.wf_of (v : UInt16) : (CipherSuite.ofU16 v).WF := by
  simp only [CipherSuite.ofU16, ← UInt16.toNat_inj]; grind [CipherSuite.WF]

theorem CredentialType.to_of (v : UInt16) : (CredentialType.ofU16 v).toU16 = v := by
  simp only [CredentialType.ofU16]; grind [CredentialType.toU16]
theorem CredentialType.of_to {x : CredentialType} (h : x.WF) : CredentialType.ofU16 x.toU16 = x := by
  cases x <;> simp_all [CredentialType.WF, CredentialType.toU16, CredentialType.ofU16, ← UInt16.toNat_inj]
  try grind
theorem CredentialType.wf_of (v : UInt16) : (CredentialType.ofU16 v).WF := by
  simp only [CredentialType.ofU16, ← UInt16.toNat_inj]; grind [CredentialType.WF]

theorem ExtensionType.to_of (v : UInt16) : (ExtensionType.ofU16 v).toU16 = v := by
  simp only [ExtensionType.ofU16]; grind [ExtensionType.toU16]
theorem ExtensionType.of_to {x : ExtensionType} (h : x.WF) : ExtensionType.ofU16 x.toU16 = x := by
  cases x <;> simp_all [ExtensionType.WF, ExtensionType.toU16, ExtensionType.ofU16, ← UInt16.toNat_inj]
  try grind
theorem ExtensionType.wf_of (v : UInt16) : (ExtensionType.ofU16 v).WF := by
  simp only [ExtensionType.ofU16, ← UInt16.toNat_inj]; grind [ExtensionType.WF]

theorem ProposalType.to_of (v : UInt16) : (ProposalType.ofU16 v).toU16 = v := by
  simp only [ProposalType.ofU16]; grind [ProposalType.toU16]
theorem ProposalType.of_to {x : ProposalType} (h : x.WF) : ProposalType.ofU16 x.toU16 = x := by
  cases x <;> simp_all [ProposalType.WF, ProposalType.toU16, ProposalType.ofU16, ← UInt16.toNat_inj]
  try grind
theorem ProposalType.wf_of (v : UInt16) : (ProposalType.ofU16 v).WF := by
  simp only [ProposalType.ofU16, ← UInt16.toNat_inj]; grind [ProposalType.WF]

theorem ProtocolVersion.to_of (v : UInt16) : (ProtocolVersion.ofU16 v).toU16 = v := by
  simp only [ProtocolVersion.ofU16]; grind [ProtocolVersion.toU16]
theorem ProtocolVersion.of_to {x : ProtocolVersion} (h : x.WF) : ProtocolVersion.ofU16 x.toU16 = x := by
  cases x <;> simp_all [ProtocolVersion.WF, ProtocolVersion.toU16, ProtocolVersion.ofU16, ← UInt16.toNat_inj]
  try grind
theorem ProtocolVersion.wf_of (v : UInt16) : (ProtocolVersion.ofU16 v).WF := by
  simp only [ProtocolVersion.ofU16, ← UInt16.toNat_inj]; grind [ProtocolVersion.WF]

attribute [local grind =] CipherSuite.to_of CipherSuite.of_to CredentialType.to_of CredentialType.of_to ExtensionType.to_of ExtensionType.of_to ProposalType.to_of ProposalType.of_to ProtocolVersion.to_of ProtocolVersion.of_to
attribute [local grind .] CipherSuite.wf_of CredentialType.wf_of ExtensionType.wf_of ProposalType.wf_of ProtocolVersion.wf_of

theorem CipherSuite.minLen : MinLen CipherSuite.serialize 2 := fun _ _ h => minLen_u16 _ _ h
theorem CipherSuite.lawful : Lawful CipherSuite.deserialize CipherSuite.serialize CipherSuite.WF := by
  unfold CipherSuite.deserialize
  refine Lawful.need ?_ (fun _ _ _ h => CipherSuite.minLen _ _ h)
  last (·.toU16), lawful_u16
  exact Lawful.pure (by grind) rfl

theorem CredentialType.minLen : MinLen CredentialType.serialize 2 := fun _ _ h => minLen_u16 _ _ h
theorem CredentialType.lawful : Lawful CredentialType.deserialize CredentialType.serialize CredentialType.WF := by
  unfold CredentialType.deserialize
  refine Lawful.need ?_ (fun _ _ _ h => CredentialType.minLen _ _ h)
  last (·.toU16), lawful_u16
  exact Lawful.pure (by grind) rfl

theorem ExtensionType.minLen : MinLen ExtensionType.serialize 2 := fun _ _ h => minLen_u16 _ _ h
theorem ExtensionType.lawful : Lawful ExtensionType.deserialize ExtensionType.serialize ExtensionType.WF := by
  unfold ExtensionType.deserialize
  refine Lawful.need ?_ (fun _ _ _ h => ExtensionType.minLen _ _ h)
  last (·.toU16), lawful_u16
  exact Lawful.pure (by grind) rfl

theorem ProposalType.minLen : MinLen ProposalType.serialize 2 := fun _ _ h => minLen_u16 _ _ h
theorem ProposalType.lawful : Lawful ProposalType.deserializeElem ProposalType.serialize ProposalType.WF := by
  unfold ProposalType.deserializeElem
  refine Lawful.need ?_ (fun _ _ _ h => ProposalType.minLen _ _ h)
  last (·.toU16), lawful_u16
  exact Lawful.pure (by grind) rfl

theorem ProtocolVersion.minLen : MinLen ProtocolVersion.serialize 2 := fun _ _ h => minLen_u16 _ _ h
theorem ProtocolVersion.lawful : Lawful ProtocolVersion.deserialize ProtocolVersion.serialize ProtocolVersion.WF := by
  unfold ProtocolVersion.deserialize
  refine Lawful.need ?_ (fun _ _ _ h => ProtocolVersion.minLen _ _ h)
  last (·.toU16), lawful_u16
  exact Lawful.pure (by grind) rfl

/-- `ProposalType::deserialize` checks for one byte only; as a law it is the same. -/
theorem ProposalType.lawful' : Lawful ProposalType.deserialize ProposalType.serialize ProposalType.WF := by
  unfold ProposalType.deserialize
  refine Lawful.need ?_ (fun _ _ _ h => Nat.le_of_succ_le (ProposalType.minLen _ _ h))
  last (·.toU16), lawful_u16
  exact Lawful.pure (by grind) rfl

theorem SignatureScheme.minLen : MinLen SignatureScheme.serialize 2 := fun _ _ h => minLen_u16 _ _ h
theorem SignatureScheme.len (x : SignatureScheme) (b : Bytes) (h : x.serialize = .ok b) : b.length = 2 := len_u16 _ _ h
theorem SignatureScheme.lawful : Lawful SignatureScheme.deserialize SignatureScheme.serialize (fun _ => True) := by
  unfold SignatureScheme.deserialize
  refine Lawful.need ?_ (fun _ _ _ h => SignatureScheme.minLen _ _ h)
  last (·.toU16), lawful_u16
  repeat' split
  all_goals first
    | (subst_vars; refine Lawful.pure (fun x => ?_) rfl; cases x <;> simp [SignatureScheme.toU16]; done)
    | (refine Lawful.fail fun x => ?_; cases x <;> simp [SignatureScheme.toU16] <;> grind)

theorem ContentType.minLen : MinLen ContentType.serialize 1 := fun _ _ h => minLen_u8 _ _ h
theorem ContentType.len (x : ContentType) (b : Bytes) (h : x.serialize = .ok b) : b.length = 1 := len_u8 _ _ h
theorem ContentType.lawful : Lawful ContentType.deserialize ContentType.serialize (fun _ => True) := by
  unfold ContentType.deserialize
  refine Lawful.need ?_ (fun _ _ _ h => ContentType.minLen _ _ h)
  last (·.toU8), lawful_u8
  repeat' split
  all_goals first
    | (subst_vars; refine Lawful.pure (fun x => ?_) rfl; cases x <;> simp [ContentType.toU8]; done)
    | (refine Lawful.fail fun x => ?_; cases x <;> simp [ContentType.toU8] <;> grind)

theorem SenderType.minLen : MinLen SenderType.serialize 1 := fun _ _ h => minLen_u8 _ _ h
theorem SenderType.len (x : SenderType) (b : Bytes) (h : x.serialize = .ok b) : b.length = 1 := len_u8 _ _ h
theorem SenderType.lawful : Lawful SenderType.deserialize SenderType.serialize (fun _ => True) := by
  unfold SenderType.deserialize
  refine Lawful.need ?_ (fun _ _ _ h => SenderType.minLen _ _ h)
  last (·.toU8), lawful_u8
  repeat' split
  all_goals first
    | (subst_vars; refine Lawful.pure (fun x => ?_) rfl; cases x <;> simp [SenderType.toU8]; done)
    | (refine Lawful.fail fun x => ?_; cases x <;> simp [SenderType.toU8] <;> grind)

theorem WireFormat.minLen : MinLen WireFormat.serialize 2 := fun _ _ h => minLen_u16 _ _ h
theorem WireFormat.len (x : WireFormat) (b : Bytes) (h : x.serialize = .ok b) : b.length = 2 := len_u16 _ _ h
theorem WireFormat.lawful : Lawful WireFormat.deserialize WireFormat.serialize (fun _ => True) := by
  unfold WireFormat.deserialize
  refine Lawful.need ?_ (fun _ _ _ h => WireFormat.minLen _ _ h)
  last (·.toU16), lawful_u16
  repeat' split
  all_goals first
    | (subst_vars; refine Lawful.pure (fun x => ?_) rfl; cases x <;> simp [WireFormat.toU16]; done)
    | (refine Lawful.fail fun x => ?_; cases x <;> simp [WireFormat.toU16] <;> grind)

theorem NodeType.minLen : MinLen NodeType.serialize 1 := fun _ _ h => minLen_u8 _ _ h
theorem NodeType.len (x : NodeType) (b : Bytes) (h : x.serialize = .ok b) : b.length = 1 := len_u8 _ _ h
theorem NodeType.lawful : Lawful NodeType.deserialize NodeType.serialize (fun _ => True) := by
  unfold NodeType.deserialize
  refine Lawful.need ?_ (fun _ _ _ h => NodeType.minLen _ _ h)
  last (·.toU8), lawful_u8
  repeat' split
  all_goals first
    | (subst_vars; refine Lawful.pure (fun x => ?_) rfl; cases x <;> simp [NodeType.toU8]; done)
    | (refine Lawful.fail fun x => ?_; cases x <;> simp [NodeType.toU8] <;> grind)

theorem PSKType.minLen : MinLen PSKType.serialize 1 := fun _ _ h => minLen_u8 _ _ h
theorem PSKType.len (x : PSKType) (b : Bytes) (h : x.serialize = .ok b) : b.length = 1 := len_u8 _ _ h
theorem PSKType.lawful : Lawful PSKType.deserialize PSKType.serialize (fun _ => True) := by
  unfold PSKType.deserialize
  refine Lawful.need ?_ (fun _ _ _ h => PSKType.minLen _ _ h)
  last (·.toU8), lawful_u8
  repeat' split
  all_goals first
    | (subst_vars; refine Lawful.pure (fun x => ?_) rfl; cases x <;> simp [PSKType.toU8]; done)
    | (refine Lawful.fail fun x => ?_; cases x <;> simp [PSKType.toU8] <;> grind)

theorem ResumptionPSKUsage.minLen : MinLen ResumptionPSKUsage.serialize 1 := fun _ _ h => minLen_u8 _ _ h
theorem ResumptionPSKUsage.len (x : ResumptionPSKUsage) (b : Bytes) (h : x.serialize = .ok b) : b.length = 1 := len_u8 _ _ h
theorem ResumptionPSKUsage.lawful : Lawful ResumptionPSKUsage.deserialize ResumptionPSKUsage.serialize (fun _ => True) := by
  unfold ResumptionPSKUsage.deserialize
  refine Lawful.need ?_ (fun _ _ _ h => ResumptionPSKUsage.minLen _ _ h)
  last (·.toU8), lawful_u8
  repeat' split
  all_goals first
    | (subst_vars; refine Lawful.pure (fun x => ?_) rfl; cases x <;> simp [ResumptionPSKUsage.toU8]; done)
    | (refine Lawful.fail fun x => ?_; cases x <;> simp [ResumptionPSKUsage.toU8] <;> grind)


/-! ### Records and sums -/

attribute [local grind =] Extension.WF Extensions.WF RequiredCapabilitiesExtension.WF Capabilities.WF
  LeafNodePayload.WF LeafNode.WF UpdatePath.WF Node.WF KeyPackageTBS.WF KeyPackage.WF GroupContext.WF
  ReInitProposal.WF Proposal.WF ProposalOrRef.WF Commit.WF Content.WF FramedContent.WF
  FramedContentAuthData.WF AuthenticatedContent.WF FramedContentTBS.WF AuthenticatedContentTBM.WF
  SenderData.WF PrivateMessageContent.WF PublicMessage.WF GroupInfo.WF Welcome.WF
  ConfirmedTranscriptHashInput.WF WireMessage.WF MLSMessage.WF

theorem SecretKey.lawful : Lawful SecretKey.deserialize SecretKey.serialize (fun _ => True) := lawful_bytes

theorem SignatureKeyPair.minLen : MinLen SignatureKeyPair.serialize 1 := fun _ _ h => minLen_left minLen_opaque h
theorem SignatureKeyPair.lawful : Lawful SignatureKeyPair.deserialize SignatureKeyPair.serialize (fun _ => True) := by
  unfold SignatureKeyPair.deserialize
  field (·.private_key), SecretKey.lawful
  field (·.public_key), SecretKey.lawful
  last (·.signature_scheme), SignatureScheme.lawful
  build

theorem HPKEKeyPair.minLen : MinLen HPKEKeyPair.serialize 1 := fun _ _ h => minLen_left minLen_opaque h
theorem HPKEKeyPair.lawful : Lawful HPKEKeyPair.deserialize HPKEKeyPair.serialize (fun _ => True) := by
  unfold HPKEKeyPair.deserialize
  field (·.private_key), SecretKey.lawful
  last (·.public_key), SecretKey.lawful
  build

theorem Credential.minLen : MinLen Credential.serialize 2 := fun _ _ h => minLen_left minLen_u16 h
theorem Credential.lawful : Lawful Credential.deserialize Credential.serialize (fun _ => True) := by
  unfold Credential.deserialize Identity.deserialize Certificate.deserialize
  refine Lawful.need ?_ (fun _ _ _ h => Credential.minLen _ _ h)
  field (·.credential_type.toU16), lawful_u16
  rename_i v _
  have := CredentialType.to_of v
  split
  · refine Lawful.case _ lawful_bytes (fun _ => rfl) (fun x => ?_)
    cases x <;> simp_all [Credential.credential_type, CredentialType.toU16] <;> grind
  · refine Lawful.case _ (lawful_vec lawful_bytes minLen_opaque) (fun _ => rfl) (fun x => ?_)
    cases x <;> simp_all [Credential.credential_type, CredentialType.toU16] <;> grind
  · refine Lawful.fail (fun x => ?_)
    rintro ⟨_, rfl⟩
    cases x <;> simp_all [Credential.credential_type, CredentialType.toU16, CredentialType.ofU16]

theorem Extension.minLen : MinLen Extension.serialize 2 := fun _ _ h => minLen_left minLen_u16 h
theorem Extension.lawful : Lawful Extension.deserialize Extension.serialize Extension.WF := by
  unfold Extension.deserialize
  refine Lawful.need ?_ (fun _ _ _ h => minLen_left minLen_u16 h)
  field (·.extension_type.toU16), lawful_u16
  last (·.extension_data), lawful_bytes
  build

theorem Extensions.minLen : MinLen Extensions.serialize 1 := minLen_vector
theorem Extensions.lawful : Lawful Extensions.deserialize Extensions.serialize Extensions.WF :=
  lawful_vec Extension.lawful (Extension.minLen.mono (by omega))

theorem RequiredCapabilitiesExtension.minLen : MinLen RequiredCapabilitiesExtension.serialize 1 := fun _ _ h => minLen_left minLen_vector h
theorem RequiredCapabilitiesExtension.lawful : Lawful RequiredCapabilitiesExtension.deserialize RequiredCapabilitiesExtension.serialize RequiredCapabilitiesExtension.WF := by
  unfold RequiredCapabilitiesExtension.deserialize
  field (·.extension_types), (lawful_vec ExtensionType.lawful (ExtensionType.minLen.mono (by omega)))
  field (·.proposal_types), (lawful_vec ProposalType.lawful (ProposalType.minLen.mono (by omega)))
  last (·.credential_types), (lawful_vec CredentialType.lawful (CredentialType.minLen.mono (by omega)))
  build

theorem ExternalSendersExtension.minLen : MinLen ExternalSendersExtension.serialize 1 := fun _ _ h => minLen_left minLen_opaque h
theorem ExternalSendersExtension.lawful : Lawful ExternalSendersExtension.deserialize ExternalSendersExtension.serialize (fun _ => True) := by
  unfold ExternalSendersExtension.deserialize
  field (·.signature_key), SecretKey.lawful
  last (·.credential), Credential.lawful
  build

theorem Lifetime.minLen : MinLen Lifetime.serialize 8 := fun _ _ h => minLen_left minLen_u64 h
theorem Lifetime.lawful : Lawful Lifetime.deserialize Lifetime.serialize (fun _ => True) := by
  unfold Lifetime.deserialize
  refine Lawful.need ?_ (fun _ _ _ h => minLen_left minLen_u64 h)
  field (·.not_before), lawful_u64
  last (·.not_after), lawful_u64
  build

def LeafNodeSource.tag : LeafNodeSource → UInt8
  | .KeyPackage _ => 1
  | .Update => 2
  | .Commit _ => 3
def LeafNodeSource.body : LeafNodeSource → Res Bytes
  | .KeyPackage l => l.serialize
  | .Update => .ok []
  | .Commit h => serialize_opaque_vec h
theorem LeafNodeSource.serialize_eq (x : LeafNodeSource) : x.serialize = (put_u8 x.tag +++ x.body) := by
  cases x <;> first | rfl | exact (Res.app_nil _).symm
theorem LeafNodeSource.minLen : MinLen LeafNodeSource.serialize 1 := by
  intro x b h; rw [LeafNodeSource.serialize_eq] at h; exact minLen_left minLen_u8 h
theorem LeafNodeSource.lawful : Lawful LeafNodeSource.deserialize LeafNodeSource.serialize (fun _ => True) := by
  unfold LeafNodeSource.deserialize
  refine Lawful.need ?_ (fun _ _ _ h => LeafNodeSource.minLen _ _ h)
  refine Lawful.bind (t := LeafNodeSource.body) LeafNodeSource.tag lawful_u8 (fun _ _ => ?_)
    (fun x _ => x.serialize_eq) (fun _ _ => trivial)
  split
  · refine Lawful.case _ Lifetime.lawful (fun _ => rfl) (fun x => ?_)
    cases x <;> simp_all [LeafNodeSource.tag]
  · split
    · refine Lawful.pure (fun x => ?_) rfl
      cases x <;> simp_all [LeafNodeSource.tag]
    · split
      · refine Lawful.case _ lawful_bytes (fun _ => rfl) (fun x => ?_)
        cases x <;> simp_all [LeafNodeSource.tag]
      · refine Lawful.fail (fun x => ?_)
        cases x <;> simp_all [LeafNodeSource.tag] <;> grind

theorem Capabilities.minLen : MinLen Capabilities.serialize 1 := fun _ _ h => minLen_left minLen_vector h
theorem Capabilities.lawful : Lawful Capabilities.deserialize Capabilities.serialize Capabilities.WF := by
  unfold Capabilities.deserialize
  field (·.versions), (lawful_vec ProtocolVersion.lawful (ProtocolVersion.minLen.mono (by omega)))
  field (·.cipher_suites), (lawful_vec CipherSuite.lawful (CipherSuite.minLen.mono (by omega)))
  field (·.extensions), (lawful_vec ExtensionType.lawful (ExtensionType.minLen.mono (by omega)))
  field (·.proposals), (lawful_vec ProposalType.lawful (ProposalType.minLen.mono (by omega)))
  last (·.credentials), (lawful_vec CredentialType.lawful (CredentialType.minLen.mono (by omega)))
  build

theorem LeafNodePayload.minLen : MinLen LeafNodePayload.serialize 1 := fun _ _ h => minLen_left minLen_opaque h
theorem LeafNodePayload.lawful : Lawful LeafNodePayload.deserialize LeafNodePayload.serialize LeafNodePayload.WF := by
  unfold LeafNodePayload.deserialize
  field (·.encryption_key), SecretKey.lawful
  field (·.signature_key), SecretKey.lawful
  field (·.credential), Credential.lawful
  field (·.capabilities), Capabilities.lawful
  field (·.leaf_node_source), LeafNodeSource.lawful
  last (·.extensions), Extensions.lawful
  build

theorem LeafNode.minLen : MinLen LeafNode.serialize 1 := fun _ _ h => minLen_left LeafNodePayload.minLen h
theorem LeafNode.lawful : Lawful LeafNode.deserialize LeafNode.serialize LeafNode.WF := by
  unfold LeafNode.deserialize
  field (·.payload), LeafNodePayload.lawful
  last (·.signature), lawful_bytes
  build

theorem ParentNode.lawful_unmerged : Lawful ParentNode.deserializeUnmerged put_u32 (fun _ => True) := by
  unfold ParentNode.deserializeUnmerged
  refine Lawful.need ?_ (fun _ _ _ h => Nat.le_trans (by omega) (minLen_u32 _ _ h))
  exact lawful_u32
theorem ParentNode.minLen : MinLen ParentNode.serialize 1 := fun _ _ h => minLen_left minLen_opaque h
theorem ParentNode.lawful : Lawful ParentNode.deserialize ParentNode.serialize (fun _ => True) := by
  unfold ParentNode.deserialize
  field (·.encryption_key), SecretKey.lawful
  field (·.parent_hash), lawful_bytes
  last (·.unmerged_leaves), (lawful_vec ParentNode.lawful_unmerged (minLen_u32.mono (by omega)))
  build

theorem HPKECiphertext.minLen : MinLen HPKECiphertext.serialize 1 := fun _ _ h => minLen_left minLen_opaque h
theorem HPKECiphertext.lawful : Lawful HPKECiphertext.deserialize HPKECiphertext.serialize (fun _ => True) := by
  unfold HPKECiphertext.deserialize
  field (·.kem_output), lawful_bytes
  last (·.ciphertext), lawful_bytes
  build

theorem UpdatePathNode.minLen : MinLen UpdatePathNode.serialize 1 := fun _ _ h => minLen_left minLen_opaque h
theorem UpdatePathNode.lawful : Lawful UpdatePathNode.deserialize UpdatePathNode.serialize (fun _ => True) := by
  unfold UpdatePathNode.deserialize
  field (·.encryption_key), SecretKey.lawful
  last (·.encrypted_path_secret), (lawful_vec HPKECiphertext.lawful HPKECiphertext.minLen)
  build

theorem UpdatePath.minLen : MinLen UpdatePath.serialize 1 := fun _ _ h => minLen_left LeafNode.minLen h
theorem UpdatePath.lawful : Lawful UpdatePath.deserialize UpdatePath.serialize UpdatePath.WF := by
  unfold UpdatePath.deserialize
  field (·.leaf_node), LeafNode.lawful
  last (·.nodes), (lawful_vec UpdatePathNode.lawful UpdatePathNode.minLen)
  build

theorem Node.minLen : MinLen Node.serialize 1 := fun _ _ h => minLen_left NodeType.minLen h
theorem Node.lawful : Lawful Node.deserialize Node.serialize Node.WF := by
  unfold Node.deserialize
  refine Lawful.need ?_ (fun _ _ _ h => Nat.le_trans (by omega) (Node.minLen _ _ h))
  field (·.node_type), NodeType.lawful
  split
  · refine Lawful.case _ LeafNode.lawful (fun _ => rfl) (fun x => ?_)
    cases x <;> simp_all [Node.node_type, Node.WF]
  · refine Lawful.case _ ParentNode.lawful (fun _ => rfl) (fun x => ?_)
    cases x <;> simp_all [Node.node_type, Node.WF]

theorem RatchetTree.minLen_node : MinLen RatchetTree.serializeNode 1 := fun _ _ h => minLen_left minLen_optional h
theorem RatchetTree.lawful_node : Lawful RatchetTree.deserializeNode RatchetTree.serializeNode
    (fun x => ∀ n, x = some n → n.WF) := by
  unfold RatchetTree.deserializeNode
  field (·.isSome), lawful_optional
  split
  · refine Lawful.case some Node.lawful (fun _ => rfl) (fun x => ?_)
    cases x <;> simp_all
  · refine Lawful.pure (fun x => ?_) rfl
    cases x <;> simp_all

/-- The node list of a tree, before padding. -/
theorem RatchetTree.lawful_nodes : Lawful (deserialize_vector RatchetTree.deserializeNode)
    (serialize_vector RatchetTree.serializeNode) RatchetTree.NodesWF :=
  (lawful_vec RatchetTree.lawful_node RatchetTree.minLen_node).congr
    (fun x => by unfold RatchetTree.NodesWF; grind) (fun _ _ => rfl)

theorem KeyPackageTBS.minLen : MinLen KeyPackageTBS.serialize 4 := by
  intro x b h
  obtain ⟨_, _, h1, h2, rfl⟩ := Res.app_ok_iff.1 h
  have h3 := minLen_left minLen_u16 h2
  have := minLen_u16 _ _ h1
  simp; omega
theorem KeyPackageTBS.lawful : Lawful KeyPackageTBS.deserialize KeyPackageTBS.serialize KeyPackageTBS.WF := by
  unfold KeyPackageTBS.deserialize
  refine Lawful.need ?_ (fun _ _ _ h => KeyPackageTBS.minLen _ _ h)
  field (·.version.toU16), lawful_u16
  field (·.cipher_suite.toU16), lawful_u16
  field (·.init_key), SecretKey.lawful
  field (·.leaf_node), LeafNode.lawful
  last (·.extensions), Extensions.lawful
  build

theorem KeyPackage.minLen : MinLen KeyPackage.serialize 1 := fun _ _ h => Nat.le_trans (by omega) (minLen_left KeyPackageTBS.minLen h)
theorem KeyPackage.lawful : Lawful KeyPackage.deserialize KeyPackage.serialize KeyPackage.WF := by
  unfold KeyPackage.deserialize
  field (·.payload), KeyPackageTBS.lawful
  last (·.signature), lawful_bytes
  build

theorem Resumption.minLen : MinLen Resumption.serialize 1 := fun _ _ h => minLen_left ResumptionPSKUsage.minLen h
theorem Resumption.lawful : Lawful Resumption.deserialize Resumption.serialize (fun _ => True) := by
  unfold Resumption.deserialize
  field (·.usage), ResumptionPSKUsage.lawful
  field (·.psk_group_id), lawful_bytes
  refine Lawful.need ?_ (fun _ _ _ h => minLen_u64 _ _ h)
  last (·.psk_epoch), lawful_u64
  build

theorem PSK.minLen : MinLen PSK.serialize 2 := by
  intro x b h
  obtain ⟨_, _, h1, h2, rfl⟩ := Res.app_ok_iff.1 h
  have h3 := PSKType.minLen _ _ h1
  cases x with
  | External id => have := minLen_opaque _ _ h2; simp; omega
  | Resumption r => have := Resumption.minLen _ _ h2; simp; omega
theorem PSK.lawful : Lawful PSK.deserialize PSK.serialize (fun _ => True) := by
  unfold PSK.deserialize
  refine Lawful.need ?_ (fun _ _ _ h => PSK.minLen _ _ h)
  field (·.psk_type), PSKType.lawful
  split
  · refine Lawful.case _ lawful_bytes (fun _ => rfl) (fun x => ?_)
    cases x <;> simp_all [PSK.psk_type]
  · refine Lawful.case _ Resumption.lawful (fun _ => rfl) (fun x => ?_)
    cases x <;> simp_all [PSK.psk_type]

theorem PreSharedKeyID.minLen : MinLen PreSharedKeyID.serialize 1 := fun _ _ h => Nat.le_trans (by omega) (minLen_left PSK.minLen h)
theorem PreSharedKeyID.lawful : Lawful PreSharedKeyID.deserialize PreSharedKeyID.serialize (fun _ => True) := by
  unfold PreSharedKeyID.deserialize
  refine Lawful.need ?_ (fun _ _ _ h => PreSharedKeyID.minLen _ _ h)
  field (·.psk), PSK.lawful
  last (·.psk_nonce), lawful_bytes
  build

theorem PSKLabel.minLen : MinLen PSKLabel.serialize 1 := fun _ _ h => minLen_left PreSharedKeyID.minLen h
theorem PSKLabel.lawful : Lawful PSKLabel.deserialize PSKLabel.serialize (fun _ => True) := by
  unfold PSKLabel.deserialize
  field (·.id), PreSharedKeyID.lawful
  refine Lawful.need ?_ (by
    intro x b _ h
    obtain ⟨_, _, h1, h2, rfl⟩ := Res.app_ok_iff.1 h
    have := minLen_u16 _ _ h1
    have := minLen_u16 _ _ h2
    simp; omega)
  field (·.index), lawful_u16
  last (·.count), lawful_u16
  build

theorem GroupContext.minLen : MinLen GroupContext.serialize 4 := by
  intro x b h
  obtain ⟨_, _, h1, h2, rfl⟩ := Res.app_ok_iff.1 h
  have h3 := minLen_left minLen_u16 h2
  have := minLen_u16 _ _ h1
  simp; omega
theorem GroupContext.lawful : Lawful GroupContext.deserialize GroupContext.serialize GroupContext.WF := by
  unfold GroupContext.deserialize
  refine Lawful.need ?_ (fun _ _ _ h => GroupContext.minLen _ _ h)
  field (·.version.toU16), lawful_u16
  field (·.cipher_suite.toU16), lawful_u16
  field (·.group_id), lawful_bytes
  refine Lawful.need ?_ (fun _ _ _ h => minLen_left minLen_u64 h)
  field (·.epoch), lawful_u64
  field (·.tree_hash), lawful_bytes
  field (·.confirmed_transcript_hash), lawful_bytes
  split
  · refine Lawful.fail (fun x => ?_)
    rename_i h
    rintro ⟨⟨⟨⟨⟨⟨⟨h1, _⟩, h2⟩, _⟩, _⟩, _⟩, _⟩, _⟩
    subst h2
    rw [h1] at h
    exact h rfl
  · rename_i h
    simp only [ne_eq, Classical.not_not] at h
    last (·.extensions), Extensions.lawful
    build

theorem AddProposal.minLen : MinLen AddProposal.serialize 1 := fun _ _ h => KeyPackage.minLen _ _ h
theorem AddProposal.lawful : Lawful AddProposal.deserialize AddProposal.serialize (fun x => x.key_package.WF) := by
  unfold AddProposal.deserialize
  last (·.key_package), KeyPackage.lawful
  build

theorem UpdateProposal.minLen : MinLen UpdateProposal.serialize 1 := fun _ _ h => LeafNode.minLen _ _ h
theorem UpdateProposal.lawful : Lawful UpdateProposal.deserialize UpdateProposal.serialize (fun x => x.leaf_node.WF) := by
  unfold UpdateProposal.deserialize
  last (·.leaf_node), LeafNode.lawful
  build

theorem RemoveProposal.minLen : MinLen RemoveProposal.serialize 4 := fun _ _ h => minLen_u32 _ _ h
theorem RemoveProposal.lawful : Lawful RemoveProposal.deserialize RemoveProposal.serialize (fun _ => True) := by
  unfold RemoveProposal.deserialize
  refine Lawful.need ?_ (fun _ _ _ h => minLen_u32 _ _ h)
  last (·.removed), lawful_u32
  build

theorem PreSharedKeyProposal.minLen : MinLen PreSharedKeyProposal.serialize 1 := fun _ _ h => PreSharedKeyID.minLen _ _ h
theorem PreSharedKeyProposal.lawful : Lawful PreSharedKeyProposal.deserialize PreSharedKeyProposal.serialize (fun _ => True) := by
  unfold PreSharedKeyProposal.deserialize
  last (·.psk), PreSharedKeyID.lawful
  build

theorem ReInitProposal.minLen : MinLen ReInitProposal.serialize 1 := fun _ _ h => minLen_left minLen_opaque h
theorem ReInitProposal.lawful : Lawful ReInitProposal.deserialize ReInitProposal.serialize ReInitProposal.WF := by
  unfold ReInitProposal.deserialize
  field (·.group_id), lawful_bytes
  refine Lawful.need ?_ (by
    intro x b _ h
    obtain ⟨_, _, h1, h2, rfl⟩ := Res.app_ok_iff.1 h
    have := minLen_u16 _ _ h1
    have := minLen_left minLen_u16 h2
    simp; omega)
  field (·.version.toU16), lawful_u16
  field (·.cipher_suite.toU16), lawful_u16
  last (·.extensions), Extensions.lawful
  build

theorem ExternalInitProposal.minLen : MinLen ExternalInitProposal.serialize 1 := fun _ _ h => minLen_opaque _ _ h
theorem ExternalInitProposal.lawful : Lawful ExternalInitProposal.deserialize ExternalInitProposal.serialize (fun _ => True) := by
  unfold ExternalInitProposal.deserialize
  last (·.kem_output), lawful_bytes
  build

theorem GroupContextExtensionsProposal.minLen : MinLen GroupContextExtensionsProposal.serialize 1 := fun _ _ h => Extensions.minLen _ _ h
theorem GroupContextExtensionsProposal.lawful : Lawful GroupContextExtensionsProposal.deserialize GroupContextExtensionsProposal.serialize (fun x => Extensions.WF x.extensions) := by
  unfold GroupContextExtensionsProposal.deserialize
  last (·.extensions), Extensions.lawful
  build

def Proposal.proposal_type : Proposal → ProposalType
  | .Add _ => .Add
  | .Update _ => .Update
  | .Remove _ => .Remove
  | .PreSharedKey _ => .PreSharedKey
  | .ReInit _ => .ReInit
  | .ExternalInit _ => .ExternalInit
  | .GroupContextExtensions _ => .GroupContextExtensions
def Proposal.body : Proposal → Res Bytes
  | .Add p => p.serialize
  | .Update p => p.serialize
  | .Remove p => p.serialize
  | .PreSharedKey p => p.serialize
  | .ReInit p => p.serialize
  | .ExternalInit p => p.serialize
  | .GroupContextExtensions p => p.serialize
theorem Proposal.serialize_eq (x : Proposal) : x.serialize = (put_u16 x.proposal_type.toU16 +++ x.body) := by
  cases x <;> rfl
theorem Proposal.minLen : MinLen Proposal.serialize 2 := by
  intro x b h; rw [Proposal.serialize_eq] at h; exact minLen_left minLen_u16 h
theorem Proposal.lawful : Lawful Proposal.deserialize Proposal.serialize Proposal.WF := by
  unfold Proposal.deserialize
  refine Lawful.need ?_ (fun _ _ _ h => Proposal.minLen _ _ h)
  refine Lawful.bind (t := Proposal.body) (·.proposal_type.toU16) lawful_u16 (fun v _ => ?_)
    (fun x _ => x.serialize_eq) (fun _ _ => trivial)
  have hv := ProposalType.to_of v
  split
  · refine Lawful.case _ AddProposal.lawful (fun _ => rfl) (fun x => ?_)
    cases x <;> simp_all [Proposal.proposal_type, ProposalType.toU16, Proposal.WF] <;> grind
  · refine Lawful.case _ UpdateProposal.lawful (fun _ => rfl) (fun x => ?_)
    cases x <;> simp_all [Proposal.proposal_type, ProposalType.toU16, Proposal.WF] <;> grind
  · refine Lawful.case _ RemoveProposal.lawful (fun _ => rfl) (fun x => ?_)
    cases x <;> simp_all [Proposal.proposal_type, ProposalType.toU16, Proposal.WF] <;> grind
  · refine Lawful.case _ PreSharedKeyProposal.lawful (fun _ => rfl) (fun x => ?_)
    cases x <;> simp_all [Proposal.proposal_type, ProposalType.toU16, Proposal.WF] <;> grind
  · refine Lawful.case _ ReInitProposal.lawful (fun _ => rfl) (fun x => ?_)
    cases x <;> simp_all [Proposal.proposal_type, ProposalType.toU16, Proposal.WF] <;> grind
  · refine Lawful.case _ ExternalInitProposal.lawful (fun _ => rfl) (fun x => ?_)
    cases x <;> simp_all [Proposal.proposal_type, ProposalType.toU16, Proposal.WF] <;> grind
  · refine Lawful.case _ GroupContextExtensionsProposal.lawful (fun _ => rfl) (fun x => ?_)
    cases x <;> simp_all [Proposal.proposal_type, ProposalType.toU16, Proposal.WF] <;> grind
  · refine Lawful.fail (fun x => ?_)
    rintro ⟨_, rfl⟩
    cases x <;> simp_all [Proposal.proposal_type, ProposalType.toU16, ProposalType.ofU16]

def ProposalOrRef.tag : ProposalOrRef → UInt8
  | .Proposal _ => 1
  | .Reference _ => 2
def ProposalOrRef.body : ProposalOrRef → Res Bytes
  | .Proposal p => p.serialize
  | .Reference r => serialize_opaque_vec r
theorem ProposalOrRef.serialize_eq (x : ProposalOrRef) : x.serialize = (put_u8 x.tag +++ x.body) := by
  cases x <;> rfl
theorem ProposalOrRef.minLen : MinLen ProposalOrRef.serialize 1 := by
  intro x b h; rw [ProposalOrRef.serialize_eq] at h; exact minLen_left minLen_u8 h
theorem ProposalOrRef.lawful : Lawful ProposalOrRef.deserialize ProposalOrRef.serialize ProposalOrRef.WF := by
  unfold ProposalOrRef.deserialize
  refine Lawful.need ?_ (fun _ _ _ h => ProposalOrRef.minLen _ _ h)
  refine Lawful.bind (t := ProposalOrRef.body) ProposalOrRef.tag lawful_u8 (fun _ _ => ?_)
    (fun x _ => x.serialize_eq) (fun _ _ => trivial)
  split
  · refine Lawful.case _ Proposal.lawful (fun _ => rfl) (fun x => ?_)
    cases x <;> simp_all [ProposalOrRef.tag, ProposalOrRef.WF]
  · split
    · refine Lawful.case _ lawful_bytes (fun _ => rfl) (fun x => ?_)
      cases x <;> simp_all [ProposalOrRef.tag, ProposalOrRef.WF]
    · refine Lawful.fail (fun x => ?_)
      cases x <;> simp_all [ProposalOrRef.tag] <;> grind

theorem Commit.minLen : MinLen Commit.serialize 1 := fun _ _ h => minLen_left minLen_vector h
theorem Commit.lawful : Lawful Commit.deserialize Commit.serialize Commit.WF := by
  unfold Commit.deserialize
  field (·.proposals), (lawful_vec ProposalOrRef.lawful ProposalOrRef.minLen)
  field (·.path.isSome), lawful_optional
  rename_i props hp b _
  split
  · refine Lawful.case _ UpdatePath.lawful (fun _ => rfl) (fun x => ?_)
    cases x with | mk ps pa => cases pa <;> grind
  · refine Lawful.pure (fun x => ?_) rfl
    cases x with | mk ps pa => cases pa <;> grind

theorem Content.lawful_body (ct : ContentType) : Lawful (Content.deserializeBody ct) Content.serializeBody
    (fun x => x.WF ∧ x.content_type = ct) := by
  unfold Content.deserializeBody
  split
  · refine Lawful.case _ lawful_bytes (fun _ => rfl) (fun x => ?_)
    cases x <;> simp_all [Content.content_type, Content.WF]
  · refine Lawful.case _ Proposal.lawful (fun _ => rfl) (fun x => ?_)
    cases x <;> simp_all [Content.content_type, Content.WF]
  · refine Lawful.case _ Commit.lawful (fun _ => rfl) (fun x => ?_)
    cases x <;> simp_all [Content.content_type, Content.WF]

theorem Content.minLen : MinLen Content.serialize 1 := fun _ _ h => minLen_left ContentType.minLen h
theorem Content.lawful : Lawful Content.deserialize Content.serialize Content.WF := by
  unfold Content.deserialize
  refine Lawful.need ?_ (fun _ _ _ h => Content.minLen _ _ h)
  field (·.content_type), ContentType.lawful
  exact Content.lawful_body _

theorem Sender.minLen : MinLen Sender.serialize 1 := fun _ _ h => minLen_left SenderType.minLen h
theorem Sender.lawful : Lawful Sender.deserialize Sender.serialize (fun _ => True) := by
  unfold Sender.deserialize
  refine Lawful.need ?_ (fun _ _ _ h => Sender.minLen _ _ h)
  field (·.sender_type), SenderType.lawful
  split
  · refine Lawful.need (Lawful.case _ lawful_u32 (fun _ => rfl) (fun x => ?_)) (fun x b hw h => ?_)
    all_goals cases x <;> simp_all [Sender.sender_type]
    exact minLen_u32 _ _ h
  · refine Lawful.need (Lawful.case _ lawful_u32 (fun _ => rfl) (fun x => ?_)) (fun x b hw h => ?_)
    all_goals cases x <;> simp_all [Sender.sender_type]
    exact minLen_u32 _ _ h
  · refine Lawful.pure (fun x => ?_) rfl
    cases x <;> simp_all [Sender.sender_type]
  · refine Lawful.pure (fun x => ?_) rfl
    cases x <;> simp_all [Sender.sender_type]

theorem FramedContent.minLen : MinLen FramedContent.serialize 1 := fun _ _ h => minLen_left minLen_opaque h
theorem FramedContent.lawful : Lawful FramedContent.deserialize FramedContent.serialize FramedContent.WF := by
  unfold FramedContent.deserialize
  field (·.group_id), lawful_bytes
  refine Lawful.need ?_ (fun _ _ _ h => minLen_left minLen_u64 h)
  field (·.epoch), lawful_u64
  field (·.sender), Sender.lawful
  field (·.authenticated_data), lawful_bytes
  last (·.content), Content.lawful
  build

theorem FramedContentAuthData.minLen (ct : ContentType) : MinLen (FramedContentAuthData.serialize · ct) 1 :=
  fun _ _ h => minLen_left minLen_opaque h
theorem FramedContentAuthData.lawful (ct : ContentType) : Lawful (FramedContentAuthData.deserialize ct)
    (FramedContentAuthData.serialize · ct) (FramedContentAuthData.WF ct) := by
  unfold FramedContentAuthData.deserialize
  refine Lawful.bind (·.signature) lawful_bytes (fun sg _ => ?_) (fun _ _ => rfl) (fun _ _ => trivial)
  split
  · refine Lawful.case _ lawful_bytes
      (fun _ => by simp_all) (fun x => ?_)
    cases x; grind
  · refine Lawful.pure (fun x => ?_) (by simp_all)
    cases x; grind

theorem AuthenticatedContent.minLen : MinLen AuthenticatedContent.serialize 2 :=
  fun _ _ h => minLen_left WireFormat.minLen h
theorem AuthenticatedContent.lawful : Lawful AuthenticatedContent.deserialize AuthenticatedContent.serialize
    AuthenticatedContent.WF := by
  unfold AuthenticatedContent.deserialize
  field (·.wire_format), WireFormat.lawful
  field (·.content), FramedContent.lawful
  rename_i wf _ c hc
  refine Lawful.bind (t := fun _ => .ok []) (·.auth) (FramedContentAuthData.lawful c.content.content_type)
    (fun _ _ => ?_) (fun x h => ?_) ?_
  · build
  · rw [Res.app_nil, h.2]
  · intro x h; grind

theorem FramedContentTBS.minLen : MinLen FramedContentTBS.serialize 2 := fun _ _ h => minLen_left minLen_u16 h
theorem FramedContentTBS.lawful : Lawful FramedContentTBS.deserialize FramedContentTBS.serialize
    FramedContentTBS.WF := by
  unfold FramedContentTBS.deserialize
  refine Lawful.need ?_ (fun _ _ _ h => FramedContentTBS.minLen _ _ h)
  field (·.version.toU16), lawful_u16
  field (·.wire_format), WireFormat.lawful
  field (·.content), FramedContent.lawful
  rename_i v _ wf _ c hc
  split
  · refine Lawful.case _ GroupContext.lawful (fun _ => by simp_all [FramedContentTBS.serializeContext])
      (fun x => ?_)
    cases x with | mk xv xw xc xctx => cases xctx <;> grind [Sender.hasContext]
  · refine Lawful.case _ GroupContext.lawful (fun _ => by simp_all [FramedContentTBS.serializeContext])
      (fun x => ?_)
    cases x with | mk xv xw xc xctx => cases xctx <;> grind [Sender.hasContext]
  · rename_i h1 h2
    have hc : ¬ c.sender.hasContext := by
      cases hs : c.sender <;> simp_all [Sender.hasContext]
    refine Lawful.pure (fun x => ?_) ?_
    · cases x with | mk xv xw xc xctx => cases xctx <;> grind
    · cases hs : c.sender <;> simp_all [FramedContentTBS.serializeContext]

theorem AuthenticatedContentTBM.minLen : MinLen AuthenticatedContentTBM.serialize 2 :=
  fun _ _ h => minLen_left FramedContentTBS.minLen h
theorem AuthenticatedContentTBM.lawful : Lawful AuthenticatedContentTBM.deserialize
    AuthenticatedContentTBM.serialize AuthenticatedContentTBM.WF := by
  unfold AuthenticatedContentTBM.deserialize
  field (·.content_tbs), FramedContentTBS.lawful
  rename_i c hc
  refine Lawful.bind (t := fun _ => .ok []) (·.auth)
    (FramedContentAuthData.lawful c.content.content.content_type) (fun _ _ => ?_) (fun x h => ?_) ?_
  · build
  · rw [Res.app_nil, h.2]
  · intro x h; grind

theorem SenderData.minLen : MinLen SenderData.serialize 8 := by
  intro x b h
  obtain ⟨_, _, h1, h2, rfl⟩ := Res.app_ok_iff.1 h
  have := minLen_left minLen_u32 h2
  have := minLen_u32 _ _ h1
  simp; omega
theorem SenderData.len {x : SenderData} {b : Bytes} (hw : x.WF) (h : x.serialize = .ok b) : b.length = 12 := by
  obtain ⟨_, _, h1, h2, rfl⟩ := Res.app_ok_iff.1 h
  obtain ⟨_, _, h3, h4, rfl⟩ := Res.app_ok_iff.1 h2
  have := len_u32 _ _ h1
  have := len_u32 _ _ h3
  cases h4
  simp [SenderData.WF] at *; omega
theorem lawful_copy' (n : Nat) : Lawful (copy_to_bytes n) put_slice (fun b => b.length = n) where
  rt x b rest hw h := by
    cases h
    simp [copy_to_bytes, ← hw]
  canon buf x rest h := by
    unfold copy_to_bytes at h
    split at h
    · cases h
    · cases h
      exact ⟨by simp; omega, _, rfl, by simp⟩
theorem SenderData.lawful : Lawful SenderData.deserialize SenderData.serialize SenderData.WF := by
  unfold SenderData.deserialize
  refine Lawful.need ?_ (fun _ _ hw h => Nat.le_of_eq (SenderData.len hw h).symm)
  field (·.leaf_index), lawful_u32
  field (·.generation), lawful_u32
  last (·.reuse_guard), (lawful_copy' 4)
  build

theorem PrivateMessage.minLen : MinLen PrivateMessage.serialize 1 := fun _ _ h => minLen_left minLen_opaque h
theorem PrivateMessage.lawful : Lawful PrivateMessage.deserialize PrivateMessage.serialize (fun _ => True) := by
  unfold PrivateMessage.deserialize
  field (·.group_id), lawful_bytes
  refine Lawful.need ?_ (fun _ _ _ h => minLen_left minLen_u64 h)
  field (·.epoch), lawful_u64
  field (·.content_type), ContentType.lawful
  field (·.authenticated_data), lawful_bytes
  field (·.encrypted_sender_data), lawful_bytes
  last (·.ciphertext), lawful_bytes
  build

theorem PrivateContentAAD.minLen : MinLen PrivateContentAAD.serialize 1 := fun _ _ h => minLen_left minLen_opaque h
theorem PrivateContentAAD.lawful : Lawful PrivateContentAAD.deserialize PrivateContentAAD.serialize
    (fun _ => True) := by
  unfold PrivateContentAAD.deserialize
  field (·.group_id), lawful_bytes
  refine Lawful.need ?_ (fun _ _ _ h => minLen_left minLen_u64 h)
  field (·.epoch), lawful_u64
  field (·.content_type), ContentType.lawful
  last (·.authenticated_data), lawful_bytes
  build

/-- Content and authentication data of a private message, before the padding check. -/
theorem PrivateMessageContent.lawful_core (ct : ContentType) :
    Lawful (do
      let content ← Content.deserializeBody ct
      let auth ← FramedContentAuthData.deserialize ct
      pure ({ content, auth } : PrivateMessageContent)) PrivateMessageContent.serialize
      (fun x => x.WF ∧ x.content.content_type = ct) := by
  refine Lawful.bind (·.content) (Content.lawful_body ct) (fun _ _ => ?_) (fun _ _ => rfl) ?_
  · refine Lawful.bind (t := fun _ => .ok []) (·.auth) (FramedContentAuthData.lawful ct)
      (fun _ _ => ?_) (fun x h => ?_) ?_
    · build
    · rw [Res.app_nil]; simp only [h.1.2]
    · intro x h; grind
  · intro x h; grind

theorem PublicMessage.minLen : MinLen PublicMessage.serialize 1 := fun _ _ h => minLen_left FramedContent.minLen h
theorem PublicMessage.lawful : Lawful PublicMessage.deserialize PublicMessage.serialize PublicMessage.WF := by
  unfold PublicMessage.deserialize
  field (·.content), FramedContent.lawful
  rename_i c hc
  refine Lawful.bind (t := fun x => PublicMessage.serializeTag x.content.sender x.membership_tag)
    (·.auth) (FramedContentAuthData.lawful c.content.content_type) (fun a _ => ?_) (fun x h => ?_) ?_
  · split
    · refine Lawful.case _ lawful_bytes
        (fun _ => by simp_all [PublicMessage.serializeTag]) (fun x => ?_)
      cases x with | mk xc xa xt => cases xt <;> grind
    · rename_i hm
      refine Lawful.pure (fun x => ?_) ?_
      · cases x with | mk xc xa xt => cases xt <;> grind
      · cases hs : c.sender <;> simp_all [PublicMessage.serializeTag]
  · simp only [h.2]
  · intro x h; grind

theorem GroupInfo.minLen : MinLen GroupInfo.serialize 4 := by
  intro x b h
  exact minLen_left (s := GroupInfo.serialize_base)
    (fun _ _ h => minLen_left GroupContext.minLen h) h
theorem GroupInfo.serialize_eq (x : GroupInfo) : x.serialize =
    (x.group_context.serialize +++ Extensions.serialize x.extensions +++
      serialize_opaque_vec x.confirmation_tag +++ put_u32 x.signer +++ serialize_opaque_vec x.signature) := by
  simp only [GroupInfo.serialize, GroupInfo.serialize_base, Res.app_assoc]
theorem GroupInfo.lawful : Lawful GroupInfo.deserialize GroupInfo.serialize GroupInfo.WF := by
  unfold GroupInfo.deserialize
  refine Lawful.bind (·.group_context) GroupContext.lawful (fun _ _ => ?_) (fun x _ => x.serialize_eq)
    (by intro x h; grind)
  field (·.extensions), Extensions.lawful
  field (·.confirmation_tag), lawful_bytes
  refine Lawful.need ?_ (fun _ _ _ h => minLen_left minLen_u32 h)
  field (·.signer), lawful_u32
  last (·.signature), lawful_bytes
  build

theorem GroupSecrets.minLen_path : MinLen GroupSecrets.serializePath 1 := fun _ _ h => minLen_left minLen_optional h
theorem GroupSecrets.lawful_path : Lawful GroupSecrets.deserializePath GroupSecrets.serializePath
    (fun _ => True) := by
  unfold GroupSecrets.deserializePath
  field (·.isSome), lawful_optional
  split
  · refine Lawful.case some lawful_bytes (fun _ => rfl) (fun x => ?_)
    cases x <;> simp_all
  · refine Lawful.pure (fun x => ?_) rfl
    cases x <;> simp_all

theorem GroupSecrets.minLen : MinLen GroupSecrets.serialize 1 := fun _ _ h => minLen_left minLen_opaque h
theorem GroupSecrets.lawful : Lawful GroupSecrets.deserialize GroupSecrets.serialize (fun _ => True) := by
  unfold GroupSecrets.deserialize
  field (·.joiner_secret), lawful_bytes
  field (·.path_secret), GroupSecrets.lawful_path
  last (·.psk_ids), (lawful_vec PreSharedKeyID.lawful PreSharedKeyID.minLen)
  build

theorem KeyPackageRef.lawful : Lawful KeyPackageRef.deserialize KeyPackageRef.serialize (fun _ => True) :=
  lawful_bytes

theorem EncryptedGroupSecrets.minLen : MinLen EncryptedGroupSecrets.serialize 1 :=
  fun _ _ h => minLen_left minLen_opaque h
theorem EncryptedGroupSecrets.lawful : Lawful EncryptedGroupSecrets.deserialize
    EncryptedGroupSecrets.serialize (fun _ => True) := by
  unfold EncryptedGroupSecrets.deserialize
  field (·.new_member), KeyPackageRef.lawful
  last (·.encrypted_group_secrets), HPKECiphertext.lawful
  build

theorem Welcome.minLen : MinLen Welcome.serialize 2 := fun _ _ h => minLen_left minLen_u16 h
theorem Welcome.lawful : Lawful Welcome.deserialize Welcome.serialize Welcome.WF := by
  unfold Welcome.deserialize
  refine Lawful.need ?_ (fun _ _ _ h => Welcome.minLen _ _ h)
  field (·.cipher_suite.toU16), lawful_u16
  field (·.secrets), (lawful_vec EncryptedGroupSecrets.lawful EncryptedGroupSecrets.minLen)
  last (·.encrypted_group_info), lawful_bytes
  build

theorem ConfirmedTranscriptHashInput.lawful : Lawful ConfirmedTranscriptHashInput.deserialize
    ConfirmedTranscriptHashInput.serialize ConfirmedTranscriptHashInput.WF := by
  unfold ConfirmedTranscriptHashInput.deserialize
  have hct : ∀ c : Content, c.content_type = .Commit ↔ ∃ k, c = .Commit k := by
    intro c; cases c <;> simp [Content.content_type]
  refine Lawful.bind (t := fun x => x.content.serialize +++ serialize_opaque_vec x.signature)
    (·.wire_format) WireFormat.lawful (fun _ _ => ?_) (fun x h => ?_) (fun _ _ => trivial)
  · field (·.content), FramedContent.lawful
    split
    · refine Lawful.fail (fun x => ?_)
      grind
    · last (·.signature), lawful_bytes
      build
  · unfold ConfirmedTranscriptHashInput.serialize
    rw [if_neg]
    simpa [hct] using h.2

theorem WireMessage.minLen : MinLen WireMessage.serialize 2 := fun _ _ h => minLen_left WireFormat.minLen h
theorem WireMessage.lawful : Lawful WireMessage.deserialize WireMessage.serialize WireMessage.WF := by
  unfold WireMessage.deserialize
  refine Lawful.need ?_ (fun _ _ _ h => Nat.le_trans (by omega) (WireMessage.minLen _ _ h))
  field (·.wire_format), WireFormat.lawful
  split
  · refine Lawful.case _ PublicMessage.lawful (fun _ => rfl) (fun x => ?_)
    cases x <;> simp_all [WireMessage.wire_format, WireMessage.WF]
  · refine Lawful.case _ PrivateMessage.lawful (fun _ => rfl) (fun x => ?_)
    cases x <;> simp_all [WireMessage.wire_format, WireMessage.WF]
  · refine Lawful.case _ Welcome.lawful (fun _ => rfl) (fun x => ?_)
    cases x <;> simp_all [WireMessage.wire_format, WireMessage.WF]
  · refine Lawful.case _ GroupInfo.lawful (fun _ => rfl) (fun x => ?_)
    cases x <;> simp_all [WireMessage.wire_format, WireMessage.WF]
  · refine Lawful.case _ KeyPackage.lawful (fun _ => rfl) (fun x => ?_)
    cases x <;> simp_all [WireMessage.wire_format, WireMessage.WF]

theorem MLSMessage.minLen : MinLen MLSMessage.serialize 2 := fun _ _ h => minLen_left minLen_u16 h
theorem MLSMessage.lawful : Lawful MLSMessage.deserialize MLSMessage.serialize MLSMessage.WF := by
  unfold MLSMessage.deserialize
  refine Lawful.need ?_ (fun _ _ _ h => MLSMessage.minLen _ _ h)
  field (·.version.toU16), lawful_u16
  rename_i v _
  split
  · refine Lawful.fail (fun x => ?_)
    rename_i h
    rintro ⟨⟨h1, _⟩, h2⟩
    subst h2
    rw [h1] at h
    exact h rfl
  · rename_i h
    simp only [ne_eq, Classical.not_not] at h
    last (·.wire_message), WireMessage.lawful
    build

end Rmls
