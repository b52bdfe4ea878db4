import Verif.Proofs.RatchetWire
import Verif.Spec.Wire
/-
The writers produce the RFC 9420 encodings.
-/
namespace Rmls
open Spec Spec.Enc

theorem digits_succ (n v : Nat) : digits (n + 1) v = UInt8.ofNat (v / 256 ^ n) :: digits n v := by
  induction n generalizing v with
  | zero =>
    simp only [digits, List.nil_append, Nat.pow_zero, Nat.div_one]
    congr 1
    apply UInt8.toNat_inj.mp
    simp
  | succ n ih =>
    rw [digits, ih, digits, List.cons_append]
    congr 2
    rw [Nat.div_div_eq_div_mul, Nat.pow_succ, Nat.mul_comm]

theorem beBytes_eq_digits (n v : Nat) : beBytes n v = digits n v := by
  induction n with
  | zero => rfl
  | succ n ih => rw [digits_succ, beBytes, ih]

theorem serialize_varint_header (n : Nat) :
    serialize_varint n = match header n with
      | some b => .ok b
      | none => .err .VarintExceeds30Bits := by
  rw [serialize_varint_eq]
  unfold header
  simp only [beBytes_eq_digits]
  by_cases h1 : n < 64
  · simp [h1, show n ≤ 63 by omega]
  · by_cases h2 : n < 16384
    · simp [h1, h2, show ¬ n ≤ 63 by omega, show n ≤ 16383 by omega]
    · by_cases h3 : n < 1073741824
      · simp [h1, h2, h3, show ¬ n ≤ 63 by omega, show ¬ n ≤ 16383 by omega, show n ≤ 1073741823 by omega]
      · simp [h1, h2, h3, show ¬ n ≤ 63 by omega, show ¬ n ≤ 16383 by omega, show ¬ n ≤ 1073741823 by omega]

theorem Spec.Writes.app {r1 r2 : Res Bytes} {a b : Enc} (h1 : Writes r1 a) (h2 : Writes r2 b) :
    Writes (r1 +++ r2) (seq a b) := by
  unfold Writes at *
  simp only [Enc.fits, Enc.bytes]
  rcases h1 with ⟨f1, rfl⟩ | ⟨f1, rfl | rfl⟩
  · rcases h2 with ⟨f2, rfl⟩ | ⟨f2, rfl | rfl⟩
    · left; exact ⟨⟨f1, f2⟩, rfl⟩
    · right; exact ⟨fun h => f2 h.2, .inl rfl⟩
    · right; exact ⟨fun h => f2 h.2, .inr rfl⟩
  · right; exact ⟨fun h => f1 h.1, .inl rfl⟩
  · right; exact ⟨fun h => f1 h.1, .inr rfl⟩

theorem writes_raw (b : Bytes) : Writes (.ok b) (fixed b) := .inl ⟨trivial, rfl⟩
theorem writes_empty : Writes (.ok []) empty := .inl ⟨trivial, rfl⟩

theorem Spec.Writes.vec {r : Res Bytes} {e : Enc} (h : Writes r e) :
    Writes (r >>= serialize_opaque_vec) (vec e) := by
  unfold Writes at *
  simp only [Enc.fits, Enc.bytes]
  rcases h with ⟨f, rfl⟩ | ⟨f, rfl | rfl⟩
  · by_cases hl : e.bytes.length < 2 ^ 30
    · left
      refine ⟨⟨f, by omega⟩, ?_⟩
      obtain ⟨hd, h1, h2⟩ := serialize_opaque_vec_small hl
      rw [Res.ok_bind, h2]
      rw [serialize_varint_header] at h1
      cases hh : header e.bytes.length <;> rw [hh] at h1 <;> cases h1
      rfl
    · right
      exact ⟨fun h => hl (by omega), by rw [Res.ok_bind]; exact serialize_opaque_vec_big hl⟩
  · right; exact ⟨fun h => f h.1, .inl rfl⟩
  · right; exact ⟨fun h => f h.1, .inr rfl⟩

theorem writes_opaque (b : Bytes) : Writes (serialize_opaque_vec b) (opq b) :=
  (writes_raw b).vec

theorem writes_vector {α : Type} {s : α → Res Bytes} {f : α → Enc} (xs : List α)
    (h : ∀ x ∈ xs, Writes (s x) (f x)) : Writes (serialize_vector s xs) (vector f xs) := by
  refine Writes.vec ?_
  induction xs with
  | nil => exact writes_empty
  | cons x xs ih => exact (h x (by simp)).app (ih fun y hy => h y (by simp [hy]))

theorem writes_u8 (v : UInt8) (n : Nat) (h : v.toNat = n) : Writes (put_u8 v) (uint 1 n) :=
  .inl ⟨trivial, by rw [← h]; simp only [put_u8, beBytes_eq_digits]; rfl⟩
theorem writes_u16 (v : UInt16) (n : Nat) (h : v.toNat = n) : Writes (put_u16 v) (uint 2 n) :=
  .inl ⟨trivial, by rw [← h]; simp only [put_u16, beBytes_eq_digits]; rfl⟩
theorem writes_u32 (v : UInt32) : Writes (put_u32 v) (uint 4 v.toNat) :=
  .inl ⟨trivial, by simp only [put_u32, beBytes_eq_digits]; rfl⟩
theorem writes_u64 (v : UInt64) : Writes (put_u64 v) (uint 8 v.toNat) :=
  .inl ⟨trivial, by simp only [put_u64, beBytes_eq_digits]; rfl⟩

/-- Structural proof of `Writes` goals, given facts about the components. -/
syntax "writes" (" [" term,* "]")? : tactic
macro_rules
  | `(tactic| writes [$ts,*]) => do
    let alts ← ts.getElems.mapM fun t => `(tacticSeq| exact $t)
    `(tactic| repeat' first
      $[| ($alts)]*
      | exact writes_u64 _
      | exact writes_u32 _
      | exact writes_u16 _ _ rfl
      | exact writes_u8 _ _ rfl
      | exact writes_opaque _
      | exact writes_raw _
      | exact writes_empty
      | refine Writes.app ?_ ?_
      | refine writes_vector _ (fun _ _ => ?_)
      | split)
  | `(tactic| writes) => `(tactic| writes [writes_empty])

section
theorem version_w (x : ProtocolVersion) : Writes (put_u16 x.toU16) (version x) := by
  cases x <;> exact writes_u16 _ _ rfl
theorem cipherSuite_w (x : CipherSuite) : Writes (put_u16 x.toU16) (cipherSuite x) := by
  cases x <;> exact writes_u16 _ _ rfl
theorem extensionType_w (x : ExtensionType) : Writes (put_u16 x.toU16) (extensionType x) := by
  cases x <;> exact writes_u16 _ _ rfl
theorem proposalType_w (x : ProposalType) : Writes (put_u16 x.toU16) (proposalType x) := by
  cases x <;> exact writes_u16 _ _ rfl
theorem credentialType_w (x : CredentialType) : Writes (put_u16 x.toU16) (credentialType x) := by
  cases x <;> exact writes_u16 _ _ rfl
theorem signatureScheme_w (x : SignatureScheme) : Writes x.serialize (signatureScheme x) := by
  cases x <;> exact writes_u16 _ _ rfl
theorem wireFormat_w (x : WireFormat) : Writes x.serialize (wireFormat x) := by
  cases x <;> exact writes_u16 _ _ rfl
theorem contentType_w (x : ContentType) : Writes x.serialize (contentType x) := by
  cases x <;> exact writes_u8 _ _ rfl

theorem credential_w (x : Credential) : Writes x.serialize (credential x) := by
  cases x <;> unfold Credential.serialize Identity.serialize Certificate.serialize <;> writes
theorem extension_w (x : Extension) : Writes x.serialize (extension_ x) := by
  unfold Extension.serialize; writes [extensionType_w _]
theorem extensions_w (x : Extensions) : Writes (Extensions.serialize x) (extensions x) :=
  writes_vector _ fun _ _ => extension_w _
theorem requiredCapabilities_w (x : RequiredCapabilitiesExtension) :
    Writes x.serialize (requiredCapabilities x) := by
  unfold RequiredCapabilitiesExtension.serialize
  writes [extensionType_w _, proposalType_w _, credentialType_w _]
theorem externalSender_w (x : ExternalSendersExtension) : Writes x.serialize (externalSender x) := by
  unfold ExternalSendersExtension.serialize; writes [credential_w _]
theorem capabilities_w (x : Capabilities) : Writes x.serialize (capabilities x) := by
  unfold Capabilities.serialize
  writes [extensionType_w _, proposalType_w _, credentialType_w _, version_w _, cipherSuite_w _]
theorem lifetime_w (x : Lifetime) : Writes x.serialize (lifetime x) := by
  unfold Lifetime.serialize; writes
theorem leafNodeSource_w (x : LeafNodeSource) : Writes x.serialize (leafNodeSource x) := by
  cases x <;> unfold LeafNodeSource.serialize <;> writes [lifetime_w _]
theorem leafNodePayload_w (x : LeafNodePayload) : Writes x.serialize (leafNodePayload x) := by
  unfold LeafNodePayload.serialize
  writes [credential_w _, capabilities_w _, leafNodeSource_w _, extensions_w _]
theorem leafNode_w (x : LeafNode) : Writes x.serialize (leafNode x) := by
  unfold LeafNode.serialize; writes [leafNodePayload_w _]
theorem parentNode_w (x : ParentNode) : Writes x.serialize (parentNode x) := by
  unfold ParentNode.serialize; writes
theorem hpkeCiphertext_w (x : HPKECiphertext) : Writes x.serialize (hpkeCiphertext x) := by
  unfold HPKECiphertext.serialize; writes
theorem updatePathNode_w (x : UpdatePathNode) : Writes x.serialize (updatePathNode x) := by
  unfold UpdatePathNode.serialize; writes [hpkeCiphertext_w _]
theorem updatePath_w (x : UpdatePath) : Writes x.serialize (updatePath x) := by
  unfold UpdatePath.serialize; writes [leafNode_w _, updatePathNode_w _]
theorem node_w (x : Node) : Writes x.serialize (nodeEnc x) := by
  cases x <;> unfold Node.serialize <;> writes [leafNode_w _, parentNode_w _]

theorem writes_optional {α : Type} {r : Res Bytes} {f : α → Enc} (x : Option α)
    (h0 : x = none → r = .ok []) (h1 : ∀ y, x = some y → Writes r (f y)) :
    Writes (serialize_optional x.isSome +++ r) (optional f x) := by
  cases x with
  | none => rw [h0 rfl, Res.app_nil]; exact writes_u8 _ _ rfl
  | some y => exact Writes.app (writes_u8 _ _ rfl) (h1 y rfl)

theorem RatchetTree.trim_eq (t : RatchetTree) :
    t.take (RatchetTree.trimEnd t t.length) = (t.reverse.dropWhile (·.isNone)).reverse := by
  generalize hr : t.reverse = r
  have ht : t = r.reverse := by rw [← hr]; simp
  subst ht
  clear hr
  induction r with
  | nil => rfl
  | cons x r ih =>
    have hl : (x :: r).reverse.length = r.reverse.length + 1 := by simp
    rw [hl, RatchetTree.trimEnd]
    have hx : (x :: r).reverse[r.reverse.length]? = some x := by simp
    rw [hx]
    have hagree : ∀ e, e ≤ r.reverse.length →
        RatchetTree.trimEnd (x :: r).reverse e = RatchetTree.trimEnd r.reverse e := by
      intro e he
      induction e with
      | zero => rfl
      | succ e ihe =>
        unfold RatchetTree.trimEnd
        have : (x :: r).reverse[e]? = r.reverse[e]? := by
          rw [List.reverse_cons, List.getElem?_append_left (by omega)]
        rw [this, ihe (by omega)]
    cases x with
    | none =>
      simp only [Option.join_some, Option.isNone_none, if_true, List.dropWhile_cons]
      rw [hagree _ (Nat.le_refl _), ← ih]
      rw [List.reverse_cons, List.take_append_of_le_length (RatchetTree.trimEnd_le _ _)]
    | some n =>
      simp [List.take_of_length_le]

theorem ratchetTree_w (t : RatchetTree) : Writes (RatchetTree.serialize t) (ratchetTree t) := by
  unfold RatchetTree.serialize ratchetTree
  rw [RatchetTree.trim_eq]
  refine writes_vector _ fun x _ => ?_
  exact writes_optional x (by rintro rfl; rfl) (by rintro y rfl; exact node_w y)

theorem keyPackageTBS_w (x : KeyPackageTBS) : Writes x.serialize (keyPackageTBS x) := by
  unfold KeyPackageTBS.serialize
  writes [version_w _, cipherSuite_w _, leafNode_w _, extensions_w _]
theorem keyPackage_w (x : KeyPackage) : Writes x.serialize (keyPackage x) := by
  unfold KeyPackage.serialize; writes [keyPackageTBS_w _]
theorem resumption_w (x : Resumption) : Writes x.serialize (resumption x) := by
  unfold Resumption.serialize resumption
  cases x with | mk u g e => cases u <;> writes
theorem psk_w (x : PSK) : Writes x.serialize (psk x) := by
  cases x <;> unfold PSK.serialize <;> writes [resumption_w _]
theorem preSharedKeyID_w (x : PreSharedKeyID) : Writes x.serialize (preSharedKeyID x) := by
  unfold PreSharedKeyID.serialize; writes [psk_w _]
theorem pskLabel_w (x : PSKLabel) : Writes x.serialize (pskLabel x) := by
  unfold PSKLabel.serialize; writes [preSharedKeyID_w _]
theorem groupContext_w (x : GroupContext) : Writes x.serialize (groupContext x) := by
  unfold GroupContext.serialize
  writes [version_w _, cipherSuite_w _, extensions_w _]
theorem reInit_w (x : ReInitProposal) : Writes x.serialize (reInit x) := by
  unfold ReInitProposal.serialize
  writes [version_w _, cipherSuite_w _, extensions_w _]
theorem proposal_w (x : Proposal) : Writes x.serialize (proposal x) := by
  cases x <;> unfold Proposal.serialize <;>
    writes [keyPackage_w _, leafNode_w _, preSharedKeyID_w _, reInit_w _, extensions_w _]
theorem proposalOrRef_w (x : ProposalOrRef) : Writes x.serialize (proposalOrRef x) := by
  cases x <;> unfold ProposalOrRef.serialize <;> writes [proposal_w _]
theorem commit_w (x : Commit) : Writes x.serialize (commit x) :=
  Writes.app (writes_vector _ fun _ _ => proposalOrRef_w _) 
    (writes_optional x.path (by intro h; rw [h]) (by intro y h; rw [h]; exact updatePath_w y))
theorem contentBody_w (x : Content) : Writes x.serializeBody (contentBody x) := by
  cases x <;> unfold Content.serializeBody <;> writes [proposal_w _, commit_w _]
theorem content_w (x : Content) : Writes x.serialize (content x) := by
  cases x <;> exact Writes.app (writes_u8 _ _ rfl) (contentBody_w _)
theorem sender_w (x : Sender) : Writes x.serialize (sender x) := by
  cases x <;> unfold Sender.serialize <;> (try simp only [Res.app_nil]) <;> writes
theorem framedContent_w (x : FramedContent) : Writes x.serialize (framedContent x) := by
  unfold FramedContent.serialize; writes [sender_w _, content_w _]
theorem framedContentAuthData_w (c : Content) (x : FramedContentAuthData) :
    Writes (x.serialize c.content_type) (framedContentAuthData c x) := by
  cases c <;> unfold FramedContentAuthData.serialize <;> simp only [Content.content_type] <;>
    exact Writes.app (writes_opaque _) (by first | exact writes_opaque _ | exact writes_empty)
theorem authenticatedContent_w (x : AuthenticatedContent) : Writes x.serialize (authenticatedContent x) := by
  unfold AuthenticatedContent.serialize
  writes [wireFormat_w _, framedContent_w _, framedContentAuthData_w _ _]
theorem framedContentTBS_w (v : ProtocolVersion) (w : WireFormat) (c : FramedContent) (ctx : GroupContext) :
    Writes (FramedContentTBS.serialize ⟨v, w, c, some ctx⟩) (framedContentTBS v w c ctx) := by
  unfold FramedContentTBS.serialize framedContentTBS FramedContentTBS.serializeContext
  refine Writes.app (version_w _) (Writes.app (wireFormat_w _) (Writes.app (framedContent_w _) ?_))
  cases hs : c.sender <;> writes [groupContext_w _]
theorem framedContentTBS_w_none (v : ProtocolVersion) (w : WireFormat) (c : FramedContent)
    (ctx : GroupContext) (h : ¬ c.sender.hasContext) :
    Writes (FramedContentTBS.serialize ⟨v, w, c, none⟩) (framedContentTBS v w c ctx) := by
  unfold FramedContentTBS.serialize framedContentTBS FramedContentTBS.serializeContext
  refine Writes.app (version_w _) (Writes.app (wireFormat_w _) (Writes.app (framedContent_w _) ?_))
  cases hs : c.sender <;> simp_all [Sender.hasContext] <;> exact writes_empty
theorem publicMessage_w (x : PublicMessage) (t : Bytes) (h : (∃ i, x.content.sender = .Member i) →
    x.membership_tag = some t) : Writes x.serialize (publicMessage x t) := by
  unfold PublicMessage.serialize publicMessage PublicMessage.serializeTag
  refine Writes.app (framedContent_w _) (Writes.app (framedContentAuthData_w _ _) ?_)
  cases hs : x.content.sender <;> simp_all <;> first | exact writes_opaque _ | exact writes_empty
theorem senderData_w (x : SenderData) : Writes x.serialize (senderData x) := by
  unfold SenderData.serialize put_slice; writes
theorem senderDataAAD_w (x : SenderDataAAD) : Writes x.serialize (senderDataAAD x) := by
  unfold SenderDataAAD.serialize; writes [contentType_w _]
theorem privateMessage_w (x : PrivateMessage) : Writes x.serialize (privateMessage x) := by
  unfold PrivateMessage.serialize; writes [contentType_w _]
theorem privateContentAAD_w (x : PrivateContentAAD) : Writes x.serialize (privateContentAAD x) := by
  unfold PrivateContentAAD.serialize; writes [contentType_w _]
theorem privateMessageContent_w (x : PrivateMessageContent) :
    Writes x.serialize (privateMessageContent x) := by
  unfold PrivateMessageContent.serialize; writes [contentBody_w _, framedContentAuthData_w _ _]
theorem groupInfoTBS_w (x : GroupInfo) : Writes x.serialize_base (groupInfoTBS x) := by
  unfold GroupInfo.serialize_base; writes [groupContext_w _, extensions_w _]
theorem groupInfo_w (x : GroupInfo) : Writes x.serialize (groupInfo x) := by
  unfold GroupInfo.serialize; exact (groupInfoTBS_w x).app (writes_opaque _)
theorem groupSecrets_w (x : GroupSecrets) : Writes x.serialize (groupSecrets x) := by
  unfold GroupSecrets.serialize
  refine Writes.app (writes_opaque _) (Writes.app (writes_optional x.path_secret
    (by intro h; rw [h]) (by intro y h; rw [h]; exact writes_opaque y))
    (writes_vector _ fun _ _ => preSharedKeyID_w _))
theorem encryptedGroupSecrets_w (x : EncryptedGroupSecrets) : Writes x.serialize (encryptedGroupSecrets x) := by
  unfold EncryptedGroupSecrets.serialize KeyPackageRef.serialize; writes [hpkeCiphertext_w _]
theorem welcome_w (x : Welcome) : Writes x.serialize (welcome x) := by
  unfold Welcome.serialize; writes [cipherSuite_w _, encryptedGroupSecrets_w _]
theorem confirmedTranscriptHashInput_w (x : ConfirmedTranscriptHashInput) (c : Commit)
    (h : x.content.content = .Commit c) : Writes x.serialize (confirmedTranscriptHashInput x) := by
  unfold ConfirmedTranscriptHashInput.serialize
  rw [if_neg (by rw [h]; simp [Content.content_type])]
  writes [wireFormat_w _, framedContent_w _]

/-- A public message of a member has its tag. -/
def WireMessage.Tagged : WireMessage → Prop
  | .PublicMessage m => (∃ i, m.content.sender = .Member i) → m.membership_tag.isSome
  | _ => True

theorem wireMessage_w (x : WireMessage) (h : x.Tagged) : Writes x.serialize (wireMessage x) := by
  cases x with
  | PublicMessage m =>
    refine Writes.app (writes_u16 _ _ rfl) (publicMessage_w _ _ fun hm => ?_)
    have := h hm
    cases ht : m.membership_tag <;> simp_all
  | PrivateMessage m => exact Writes.app (writes_u16 _ _ rfl) (privateMessage_w _)
  | Welcome m => exact Writes.app (writes_u16 _ _ rfl) (welcome_w _)
  | GroupInfo m => exact Writes.app (writes_u16 _ _ rfl) (groupInfo_w _)
  | KeyPackage m => exact Writes.app (writes_u16 _ _ rfl) (keyPackage_w _)
theorem mlsMessage_w (x : MLSMessage) (h : x.wire_message.Tagged) : Writes x.serialize (mlsMessage x) :=
  Writes.app (version_w _) (wireMessage_w _ h)

theorem writes_ok {r : Res Bytes} {e : Enc} (h : Writes r e) (hf : e.fits) : r = .ok e.bytes := by
  rcases h with ⟨_, h⟩ | ⟨h, _⟩
  · exact h
  · exact absurd hf h

theorem writes_cases {r : Res Bytes} {e : Enc} (h : Writes r e) :
    (e.fits ∧ r = .ok e.bytes) ∨ (¬ e.fits ∧ ∃ x, r = .err x) := by
  rcases h with h | ⟨f, h | h⟩
  · exact .inl h
  · exact .inr ⟨f, _, h⟩
  · exact .inr ⟨f, _, h⟩

end
end Rmls
