import Verif.Proofs.Cut
import Verif.Spec.Reasons
/-
The errors that readers report.
-/
namespace Rmls
open Spec

/-- Every error satisfies `T`, and the value it names is in the input, or in the bytes `p` before it. -/
def Errs (T : Error → Prop) (p : Bytes) {α : Type} (d : De α) : Prop :=
  ∀ b e, d b = .err e → T e ∧ reported e <:+: p ++ b

variable {α β : Type} {T : Error → Prop} {p : Bytes} {j : Nat}

theorem Errs.weaken {d : De α} (h : Errs T [] d) : Errs T p d := by
  intro b e hb
  obtain ⟨h1, h2⟩ := h b e hb
  exact ⟨h1, h2.trans (List.suffix_append p b).isInfix⟩

theorem Errs.pure (v : α) : Errs T p (Pure.pure v : De α) := by
  intro b e h; cases h

theorem Errs.fail {x : Error} (h : T x) (hp : reported x <:+: p) : Errs T p (De.fail x : De α) := by
  intro b e hb
  cases hb
  exact ⟨h, hp.trans (List.prefix_append p b).isInfix⟩

theorem Errs.bind {d : De α} {k : α → De β} (hc : Cuts j d) (h : Errs T [] d) (hk : ∀ a, Errs T [] (k a)) :
    Errs T p (d >>= k) := by
  intro b e hb
  rw [De.bind_apply] at hb
  cases h1 : d b with
  | fault _ => rw [h1] at hb; cases hb
  | err x => rw [h1] at hb; cases hb; exact h.weaken b _ h1
  | ok q =>
    obtain ⟨v, r⟩ := q
    rw [h1] at hb
    obtain ⟨c, rfl, _⟩ := hc.cut _ _ _ h1
    obtain ⟨ht, hi⟩ := hk v r e hb
    rw [List.nil_append] at hi
    exact ⟨ht, hi.trans ⟨p ++ c, [], by simp⟩⟩

/-- The bytes before are kept in view. -/
theorem Errs.keep {d : De α} {k : α → De β} (hc : Cuts j d) (h : Errs T [] d) (hk : ∀ a c, Errs T (p ++ c) (k a)) :
    Errs T p (d >>= k) := by
  intro b e hb
  rw [De.bind_apply] at hb
  cases h1 : d b with
  | fault _ => rw [h1] at hb; cases hb
  | err x => rw [h1] at hb; cases hb; exact h.weaken b _ h1
  | ok q =>
    obtain ⟨v, r⟩ := q
    rw [h1] at hb
    obtain ⟨c, rfl, _⟩ := hc.cut _ _ _ h1
    rw [← List.append_assoc]
    exact hk v c r e hb

theorem Errs.need (hT : T .BufferTooSmall) {d : De α} {n : Nat} (h : Errs T p d) :
    Errs T p (need n >>= fun _ => d) := by
  intro b e hb
  rw [De.bind_apply, Rmls.need] at hb
  by_cases hl : b.length < n
  · rw [if_pos hl] at hb; cases hb; exact ⟨hT, List.nil_infix⟩
  · rw [if_neg hl] at hb; exact h b e hb

theorem Errs.u8 {k : UInt8 → De β} (hk : ∀ v, Errs T [v] (k v)) : Errs T p (get_u8 >>= k) := by
  intro b e hb
  rw [De.bind_apply] at hb
  cases b with
  | nil => cases hb
  | cons v r =>
    have h1 : get_u8 (v :: r) = .ok (v, r) := by
      have := lawful_u8.rt v [v] r trivial (by simp [put_u8, beBytes])
      exact this
    rw [h1] at hb
    obtain ⟨ht, hi⟩ := hk v r e hb
    exact ⟨ht, hi.trans (List.suffix_append p _).isInfix⟩

theorem beBytes_two (v : UInt16) : beBytes 2 v.toNat = [UInt8.ofNat (v.toNat / 256), UInt8.ofNat (v.toNat % 256)] := by
  simp only [beBytes, Nat.pow_one, Nat.pow_zero, Nat.div_one]
  congr 2
  apply UInt8.toNat_inj.1
  simp

theorem Errs.u16 {k : UInt16 → De β} (hk : ∀ v, Errs T (beBytes 2 v.toNat) (k v)) : Errs T p (get_u16 >>= k) := by
  intro b e hb
  rw [De.bind_apply] at hb
  cases h1 : get_u16 b with
  | err x => exact absurd h1 (by rw [get_u16, getBE]; by_cases hl : b.length < 2 <;> simp [hl])
  | fault x => rw [h1] at hb; cases hb
  | ok q =>
    obtain ⟨v, r⟩ := q
    rw [h1] at hb
    obtain ⟨_, c, hc, rfl⟩ := lawful_u16.canon _ _ _ h1
    cases hc
    obtain ⟨ht, hi⟩ := hk v r e hb
    exact ⟨ht, hi.trans (List.suffix_append p _).isInfix⟩

/-- Readers without errors. -/
theorem errs_u16 : Errs T p get_u16 := by
  intro b e h; exact absurd h (by rw [get_u16, getBE]; by_cases hl : b.length < 2 <;> simp [hl])
theorem errs_u32 : Errs T p get_u32 := by
  intro b e h; exact absurd h (by rw [get_u32, getBE]; by_cases hl : b.length < 4 <;> simp [hl])
theorem errs_u64 : Errs T p get_u64 := by
  intro b e h; exact absurd h (by rw [get_u64, getBE]; by_cases hl : b.length < 8 <;> simp [hl])
theorem errs_copy (n : Nat) : Errs T p (copy_to_bytes n) := by
  intro b e h; rw [copy_to_bytes] at h; split at h <;> cases h

section
variable (hT : ∀ e, readError e → T e)
include hT

theorem errs_varintLoop : ∀ (n v : Nat), Errs T [] (varintLoop n v)
  | 0, v => Errs.pure v
  | n + 1, v => by
    rw [varintLoop]
    exact Errs.need (hT _ trivial) (Errs.u8 fun a => (errs_varintLoop n _).weaken)

theorem errs_varint : Errs T p deserialize_varint := by
  unfold deserialize_varint
  refine Errs.need (hT _ trivial) (Errs.u8 fun a => ?_)
  dsimp only
  split
  · exact Errs.fail (hT _ trivial) List.nil_infix
  · refine Errs.bind (cuts_varintLoop _ _) (errs_varintLoop hT _ _) fun v => ?_
    split
    · exact Errs.fail (hT _ trivial) List.nil_infix
    · exact Errs.pure _

theorem errs_opaque : Errs T p deserialize_opaque_vec :=
  Errs.bind cuts_varint (errs_varint hT) fun n => Errs.need (hT _ trivial) (errs_copy n)

omit hT in
theorem errs_vecLoop {f : De α} (hc : Cuts j f) (h : Errs T [] f) : ∀ (n : Nat) (b : Bytes) (e : Error),
    vecLoop f n b = .err e → T e ∧ reported e <:+: b
  | _, [], e, he => by unfold vecLoop at he; cases he
  | 0, _ :: _, e, he => by cases he
  | n + 1, c :: cs, e, he => by
    rw [vecLoop] at he
    cases h1 : f (c :: cs) with
    | err x => rw [h1] at he; cases he; exact h _ _ h1
    | fault x => rw [h1] at he; cases he
    | ok q =>
      obtain ⟨a, r⟩ := q
      rw [h1] at he
      dsimp only at he
      obtain ⟨w, hw, _⟩ := hc.cut _ _ _ h1
      cases h2 : vecLoop f n r with
      | ok _ => rw [h2] at he; cases he
      | fault _ => rw [h2] at he; cases he
      | err x =>
        rw [h2] at he
        cases he
        obtain ⟨ht, hi⟩ := errs_vecLoop hc h n r _ h2
        exact ⟨ht, hi.trans ⟨w, [], by rw [hw]; simp⟩⟩

theorem errs_vector {f : De α} (hc : Cuts j f) (h : Errs T [] f) : Errs T p (deserialize_vector f) := by
  refine Errs.bind cuts_varint (errs_varint hT) fun n => Errs.need (hT _ trivial) ?_
  intro b e hb
  rw [De.bind_apply] at hb
  unfold copy_to_bytes at hb
  by_cases hl : b.length < n
  · rw [if_pos hl] at hb; cases hb
  · rw [if_neg hl] at hb
    dsimp only at hb
    cases h1 : vecLoop f (b.take n).length (b.take n) with
    | ok _ => simp only [h1] at hb; cases hb
    | fault _ => simp only [h1] at hb; cases hb
    | err x =>
      simp only [h1] at hb
      cases hb
      obtain ⟨ht, hi⟩ := errs_vecLoop hc h _ _ _ h1
      exact ⟨ht, hi.trans (List.take_prefix n b).isInfix⟩

theorem Errs.need' {d : De α} {n : Nat} (h : Errs T p d) : Errs T p (Rmls.need n >>= fun _ => d) :=
  Errs.need (hT _ trivial) h

omit hT in
/-- Both laws together. -/
structure _root_.Rmls.Errd (T : Error → Prop) {α : Type} (d : De α) : Prop where
  cut : ∃ j, Cuts j d
  errs : Errs T [] d

omit hT in
theorem _root_.Rmls.Errd.bind {d : De α} {k : α → De β} (h : Errd T d) (hk : ∀ a, Errs T [] (k a)) : Errs T p (d >>= k) :=
  h.cut.elim fun _ hc => Errs.bind hc h.errs hk

omit hT in
theorem _root_.Rmls.Errd.mk' {d : De α} (hc : Cuts j d) (h : Errs T [] d) : Errd T d := ⟨⟨j, hc⟩, h⟩

theorem errd_vector {f : De α} (h : Errd T f) : Errd T (deserialize_vector f) :=
  h.cut.elim fun _ hc => .mk' (cuts_vector f) (errs_vector hT hc h.errs)

/-- Structural search for `Errs` goals, given facts about the readers of the components. -/
syntax "errors_of" ident " [" term,* "]" : tactic
macro_rules
  | `(tactic| errors_of $h [$ts,*]) => do
    let alts ← ts.getElems.mapM fun t => `(tacticSeq| with_reducible exact ($t).errs.weaken)
    let alts2 ← ts.getElems.mapM fun t => `(tacticSeq| with_reducible refine Errd.bind $t (fun _ => ?_))
    `(tactic| repeat' first
      | (with_reducible exact Errs.pure _)
      | (with_reducible exact errs_opaque $h)
      $[| ($alts)]*
      | (with_reducible refine Errs.need' $h ?_)
      | (with_reducible refine Errs.u8 (fun _ => ?_))
      | (with_reducible refine Errs.u16 (fun _ => ?_))
      | (with_reducible refine Errs.bind cuts_u32 errs_u32 (fun _ => ?_))
      | (with_reducible refine Errs.bind cuts_u64 errs_u64 (fun _ => ?_))
      | (with_reducible refine Errs.bind cuts_opaque (errs_opaque $h) (fun _ => ?_))
      $[| ($alts2)]*
      | split)

theorem errs_optional : Errs T p deserialize_optional := by
  unfold deserialize_optional
  refine Errs.need (hT _ trivial) (Errs.u8 fun v => ?_)
  repeat' split
  · exact Errs.pure _
  · exact Errs.pure _
  · exact Errs.fail (hT _ trivial) List.nil_infix

/-- The last branch of an enumeration. -/
macro "undefined_value" h:ident : tactic => `(tactic|
  (refine Errs.fail ($h _ ?_) ?_
   · simp only [readError, definedSchemes, definedProposals, definedFormats, List.mem_cons, List.not_mem_nil, or_false,
       not_or]
     simp_all
   · simp only [reported, beBytes_two]
     exact List.infix_refl _))

theorem SignatureScheme.errd : Errd T SignatureScheme.deserialize := by
  refine .mk' SignatureScheme.cuts ?_
  unfold SignatureScheme.deserialize; errors_of hT []; undefined_value hT
theorem ContentType.errd : Errd T ContentType.deserialize := by
  refine .mk' ContentType.cuts ?_
  unfold ContentType.deserialize; errors_of hT []; undefined_value hT
theorem SenderType.errd : Errd T SenderType.deserialize := by
  refine .mk' SenderType.cuts ?_
  unfold SenderType.deserialize; errors_of hT []; undefined_value hT
theorem WireFormat.errd : Errd T WireFormat.deserialize := by
  refine .mk' WireFormat.cuts ?_
  unfold WireFormat.deserialize; errors_of hT []; undefined_value hT
theorem NodeType.errd : Errd T NodeType.deserialize := by
  refine .mk' NodeType.cuts ?_
  unfold NodeType.deserialize; errors_of hT []; undefined_value hT
theorem PSKType.errd : Errd T PSKType.deserialize := by
  refine .mk' PSKType.cuts ?_
  unfold PSKType.deserialize; errors_of hT []; undefined_value hT
theorem ResumptionPSKUsage.errd : Errd T ResumptionPSKUsage.deserialize := by
  refine .mk' ResumptionPSKUsage.cuts ?_
  unfold ResumptionPSKUsage.deserialize; errors_of hT []; undefined_value hT
theorem ProposalType.errd : Errd T ProposalType.deserialize := by
  refine .mk' ProposalType.cuts ?_
  unfold ProposalType.deserialize; errors_of hT []
theorem optional_errd : Errd T deserialize_optional := .mk' cuts_optional (errs_optional hT)
theorem opaque_errd : Errd T deserialize_opaque_vec := .mk' cuts_opaque (errs_opaque hT)
theorem ExtensionType.errd : Errd T ExtensionType.deserialize := by
  refine .mk' (by unfold ExtensionType.deserialize; cuts : Cuts 2 _) ?_
  unfold ExtensionType.deserialize
  errors_of hT []
theorem CredentialType.errd : Errd T CredentialType.deserialize := by
  refine .mk' (by unfold CredentialType.deserialize; cuts : Cuts 2 _) ?_
  unfold CredentialType.deserialize
  errors_of hT []
theorem ProtocolVersion.errd : Errd T ProtocolVersion.deserialize := by
  refine .mk' (by unfold ProtocolVersion.deserialize; cuts : Cuts 2 _) ?_
  unfold ProtocolVersion.deserialize
  errors_of hT []
theorem CipherSuite.errd : Errd T CipherSuite.deserialize := by
  refine .mk' (by unfold CipherSuite.deserialize; cuts : Cuts 2 _) ?_
  unfold CipherSuite.deserialize
  errors_of hT []
theorem ProposalTypeElem.errd : Errd T ProposalType.deserializeElem := by
  refine .mk' (by unfold ProposalType.deserializeElem; cuts : Cuts 2 _) ?_
  unfold ProposalType.deserializeElem
  errors_of hT []
theorem Unmerged.errd : Errd T ParentNode.deserializeUnmerged := by
  refine .mk' (j := 4) ?_ ?_
  · exact Cuts.need (cuts_u32.mono (by omega))
  · exact Errs.need' hT errs_u32
theorem Extension.errd : Errd T Extension.deserialize := by
  refine .mk' (by unfold Extension.deserialize; cuts : Cuts 3 _) ?_
  unfold Extension.deserialize
  errors_of hT []
theorem Extensions.errd : Errd T Extensions.deserialize := errd_vector hT (Extension.errd hT)
theorem SecretKey.errd : Errd T SecretKey.deserialize := opaque_errd hT
theorem SignatureKeyPair.errd : Errd T SignatureKeyPair.deserialize := by
  refine .mk' SignatureKeyPair.cuts ?_
  unfold SignatureKeyPair.deserialize
  errors_of hT [SecretKey.errd hT, SignatureScheme.errd hT]
theorem HPKEKeyPair.errd : Errd T HPKEKeyPair.deserialize := by
  refine .mk' HPKEKeyPair.cuts ?_
  unfold HPKEKeyPair.deserialize
  errors_of hT [SecretKey.errd hT]
theorem Credential.errd : Errd T Credential.deserialize := by
  refine .mk' Credential.cuts ?_
  unfold Credential.deserialize Identity.deserialize Certificate.deserialize
  errors_of hT [errd_vector hT (opaque_errd hT)]
  exact Errs.fail (hT _ trivial) List.nil_infix
theorem RequiredCapabilitiesExtension.errd : Errd T RequiredCapabilitiesExtension.deserialize := by
  refine .mk' RequiredCapabilitiesExtension.cuts ?_
  unfold RequiredCapabilitiesExtension.deserialize
  errors_of hT [errd_vector hT (ExtensionType.errd hT), errd_vector hT (ProposalTypeElem.errd hT), errd_vector hT (CredentialType.errd hT)]
theorem ExternalSendersExtension.errd : Errd T ExternalSendersExtension.deserialize := by
  refine .mk' ExternalSendersExtension.cuts ?_
  unfold ExternalSendersExtension.deserialize
  errors_of hT [SecretKey.errd hT, Credential.errd hT]
theorem Lifetime.errd : Errd T Lifetime.deserialize := by
  refine .mk' Lifetime.cuts ?_
  unfold Lifetime.deserialize
  errors_of hT []
theorem LeafNodeSource.errd : Errd T LeafNodeSource.deserialize := by
  refine .mk' LeafNodeSource.cuts ?_
  unfold LeafNodeSource.deserialize
  errors_of hT [Lifetime.errd hT]
  undefined_value hT
theorem Capabilities.errd : Errd T Capabilities.deserialize := by
  refine .mk' Capabilities.cuts ?_
  unfold Capabilities.deserialize
  errors_of hT [errd_vector hT (ExtensionType.errd hT), errd_vector hT (ProposalTypeElem.errd hT), errd_vector hT (CredentialType.errd hT), errd_vector hT (ProtocolVersion.errd hT), errd_vector hT (CipherSuite.errd hT)]
theorem LeafNodePayload.errd : Errd T LeafNodePayload.deserialize := by
  refine .mk' LeafNodePayload.cuts ?_
  unfold LeafNodePayload.deserialize
  errors_of hT [SecretKey.errd hT, Credential.errd hT, Capabilities.errd hT, LeafNodeSource.errd hT, Extensions.errd hT]
theorem LeafNode.errd : Errd T LeafNode.deserialize := by
  refine .mk' LeafNode.cuts ?_
  unfold LeafNode.deserialize
  errors_of hT [LeafNodePayload.errd hT]
theorem ParentNode.errd : Errd T ParentNode.deserialize := by
  refine .mk' ParentNode.cuts ?_
  unfold ParentNode.deserialize
  errors_of hT [SecretKey.errd hT, errd_vector hT (Unmerged.errd hT)]
theorem HPKECiphertext.errd : Errd T HPKECiphertext.deserialize := by
  refine .mk' HPKECiphertext.cuts ?_
  unfold HPKECiphertext.deserialize
  errors_of hT []
theorem UpdatePathNode.errd : Errd T UpdatePathNode.deserialize := by
  refine .mk' UpdatePathNode.cuts ?_
  unfold UpdatePathNode.deserialize
  errors_of hT [SecretKey.errd hT, errd_vector hT (HPKECiphertext.errd hT)]
theorem UpdatePath.errd : Errd T UpdatePath.deserialize := by
  refine .mk' UpdatePath.cuts ?_
  unfold UpdatePath.deserialize
  errors_of hT [LeafNode.errd hT, errd_vector hT (UpdatePathNode.errd hT)]
theorem Node.errd : Errd T Node.deserialize := by
  refine .mk' Node.cuts ?_
  unfold Node.deserialize
  errors_of hT [NodeType.errd hT, LeafNode.errd hT, ParentNode.errd hT]
theorem KeyPackageTBS.errd : Errd T KeyPackageTBS.deserialize := by
  refine .mk' KeyPackageTBS.cuts ?_
  unfold KeyPackageTBS.deserialize
  errors_of hT [SecretKey.errd hT, LeafNode.errd hT, Extensions.errd hT]
theorem KeyPackage.errd : Errd T KeyPackage.deserialize := by
  refine .mk' KeyPackage.cuts ?_
  unfold KeyPackage.deserialize
  errors_of hT [KeyPackageTBS.errd hT]
theorem Resumption.errd : Errd T Resumption.deserialize := by
  refine .mk' Resumption.cuts ?_
  unfold Resumption.deserialize
  errors_of hT [ResumptionPSKUsage.errd hT]
theorem PSK.errd : Errd T PSK.deserialize := by
  refine .mk' PSK.cuts ?_
  unfold PSK.deserialize
  errors_of hT [PSKType.errd hT, Resumption.errd hT]
theorem PreSharedKeyID.errd : Errd T PreSharedKeyID.deserialize := by
  refine .mk' PreSharedKeyID.cuts ?_
  unfold PreSharedKeyID.deserialize
  errors_of hT [PSK.errd hT]
theorem PSKLabel.errd : Errd T PSKLabel.deserialize := by
  refine .mk' PSKLabel.cuts ?_
  unfold PSKLabel.deserialize
  errors_of hT [PreSharedKeyID.errd hT]
theorem RemoveProposal.errd : Errd T RemoveProposal.deserialize := by
  refine .mk' RemoveProposal.cuts ?_
  unfold RemoveProposal.deserialize
  errors_of hT []
theorem PreSharedKeyProposal.errd : Errd T PreSharedKeyProposal.deserialize := by
  refine .mk' PreSharedKeyProposal.cuts ?_
  unfold PreSharedKeyProposal.deserialize
  errors_of hT [PreSharedKeyID.errd hT]
theorem ReInitProposal.errd : Errd T ReInitProposal.deserialize := by
  refine .mk' ReInitProposal.cuts ?_
  unfold ReInitProposal.deserialize
  errors_of hT [Extensions.errd hT]
theorem ExternalInitProposal.errd : Errd T ExternalInitProposal.deserialize := by
  refine .mk' ExternalInitProposal.cuts ?_
  unfold ExternalInitProposal.deserialize
  errors_of hT []
theorem GroupContextExtensionsProposal.errd : Errd T GroupContextExtensionsProposal.deserialize := by
  refine .mk' GroupContextExtensionsProposal.cuts ?_
  unfold GroupContextExtensionsProposal.deserialize
  errors_of hT [Extensions.errd hT]
theorem AddProposal.errd : Errd T AddProposal.deserialize := by
  refine .mk' AddProposal.cuts ?_
  unfold AddProposal.deserialize
  errors_of hT [KeyPackage.errd hT]
theorem UpdateProposal.errd : Errd T UpdateProposal.deserialize := by
  refine .mk' UpdateProposal.cuts ?_
  unfold UpdateProposal.deserialize
  errors_of hT [LeafNode.errd hT]
theorem Proposal.errd : Errd T Proposal.deserialize := by
  refine .mk' Proposal.cuts ?_
  unfold Proposal.deserialize
  errors_of hT [AddProposal.errd hT, UpdateProposal.errd hT, RemoveProposal.errd hT, PreSharedKeyProposal.errd hT, ReInitProposal.errd hT, ExternalInitProposal.errd hT, GroupContextExtensionsProposal.errd hT]
  rename_i v _ w hw
  obtain ⟨rfl, hv⟩ : v = w ∧ v ∉ definedProposals := by
    unfold ProposalType.ofU16 at hw
    repeat' split at hw
    all_goals cases hw
    refine ⟨rfl, ?_⟩
    simp only [definedProposals, List.mem_cons, List.not_mem_nil, or_false, not_or]
    simp_all
  refine Errs.fail (hT _ hv) ?_
  rw [reported, beBytes_two]
  exact List.infix_refl _
theorem ProposalOrRef.errd : Errd T ProposalOrRef.deserialize := by
  refine .mk' ProposalOrRef.cuts ?_
  unfold ProposalOrRef.deserialize
  errors_of hT [Proposal.errd hT]
  undefined_value hT
theorem Commit.errd : Errd T Commit.deserialize := by
  refine .mk' Commit.cuts ?_
  unfold Commit.deserialize
  errors_of hT [optional_errd hT, UpdatePath.errd hT, errd_vector hT (ProposalOrRef.errd hT)]
theorem Content.errd_body (ct : ContentType) : Errd T (Content.deserializeBody ct) := by
  refine .mk' (Content.cuts_body ct) ?_
  unfold Content.deserializeBody
  errors_of hT [Proposal.errd hT, Commit.errd hT]
theorem Content.errd : Errd T Content.deserialize := by
  refine .mk' Content.cuts ?_
  unfold Content.deserialize
  errors_of hT [ContentType.errd hT, Content.errd_body hT _]
theorem Sender.errd : Errd T Sender.deserialize := by
  refine .mk' Sender.cuts ?_
  unfold Sender.deserialize
  errors_of hT [SenderType.errd hT]
theorem FramedContent.errd : Errd T FramedContent.deserialize := by
  refine .mk' FramedContent.cuts ?_
  unfold FramedContent.deserialize
  errors_of hT [Sender.errd hT, Content.errd hT]
theorem FramedContentAuthData.errd (ct : ContentType) : Errd T (FramedContentAuthData.deserialize ct) := by
  refine .mk' (FramedContentAuthData.cuts ct) ?_
  unfold FramedContentAuthData.deserialize
  errors_of hT []
theorem AuthenticatedContent.errd : Errd T AuthenticatedContent.deserialize := by
  refine .mk' AuthenticatedContent.cuts ?_
  unfold AuthenticatedContent.deserialize
  errors_of hT [WireFormat.errd hT, FramedContent.errd hT, FramedContentAuthData.errd hT _]
theorem SenderData.errd : Errd T SenderData.deserialize := by
  refine .mk' SenderData.cuts ?_
  unfold SenderData.deserialize
  errors_of hT [Errd.mk' (cuts_copy 4) (errs_copy (T := T) 4)]
theorem PrivateMessage.errd : Errd T PrivateMessage.deserialize := by
  refine .mk' PrivateMessage.cuts ?_
  unfold PrivateMessage.deserialize
  errors_of hT [ContentType.errd hT]
theorem PrivateContentAAD.errd : Errd T PrivateContentAAD.deserialize := by
  refine .mk' PrivateContentAAD.cuts ?_
  unfold PrivateContentAAD.deserialize
  errors_of hT [ContentType.errd hT]
theorem PublicMessage.errd : Errd T PublicMessage.deserialize := by
  refine .mk' PublicMessage.cuts ?_
  unfold PublicMessage.deserialize
  errors_of hT [FramedContent.errd hT, FramedContentAuthData.errd hT _]
theorem GroupSecrets.errd_path : Errd T GroupSecrets.deserializePath := by
  refine .mk' GroupSecrets.cuts_path ?_
  unfold GroupSecrets.deserializePath
  errors_of hT [optional_errd hT]
theorem GroupSecrets.errd : Errd T GroupSecrets.deserialize := by
  refine .mk' GroupSecrets.cuts ?_
  unfold GroupSecrets.deserialize
  errors_of hT [GroupSecrets.errd_path hT, errd_vector hT (PreSharedKeyID.errd hT)]
theorem KeyPackageRef.errd : Errd T KeyPackageRef.deserialize := opaque_errd hT
theorem EncryptedGroupSecrets.errd : Errd T EncryptedGroupSecrets.deserialize := by
  refine .mk' EncryptedGroupSecrets.cuts ?_
  unfold EncryptedGroupSecrets.deserialize
  errors_of hT [KeyPackageRef.errd hT, HPKECiphertext.errd hT]
theorem Welcome.errd : Errd T Welcome.deserialize := by
  refine .mk' Welcome.cuts ?_
  unfold Welcome.deserialize
  errors_of hT [errd_vector hT (EncryptedGroupSecrets.errd hT)]
theorem ConfirmedTranscriptHashInput.errd : Errd T ConfirmedTranscriptHashInput.deserialize := by
  refine .mk' ConfirmedTranscriptHashInput.cuts ?_
  unfold ConfirmedTranscriptHashInput.deserialize
  errors_of hT [WireFormat.errd hT, FramedContent.errd hT]
  exact Errs.fail (hT _ trivial) List.nil_infix
theorem RatchetTree.errd_node : Errd T RatchetTree.deserializeNode := by
  refine .mk' (by unfold RatchetTree.deserializeNode; cuts [cuts_optional, Node.cuts] : Cuts 1 _) ?_
  unfold RatchetTree.deserializeNode
  errors_of hT [optional_errd hT, Node.errd hT]

/-! Readers of a group context: a version that is not supported is reported as a kind of proposal. -/

variable (hV : ∀ v, v ≠ 1 → T (.InvalidProposalTypeValue v))
include hV

theorem GroupContext.errd : Errd T GroupContext.deserialize := by
  refine .mk' GroupContext.cuts ?_
  unfold GroupContext.deserialize
  refine Errs.need' hT (Errs.u16 fun v => ?_)
  refine Errs.keep cuts_u16 errs_u16 fun _ c1 => Errs.keep cuts_opaque (errs_opaque hT) fun _ c2 =>
    Errs.need' hT (Errs.keep cuts_u64 errs_u64 fun _ c3 => Errs.keep cuts_opaque (errs_opaque hT) fun _ c4 =>
    Errs.keep cuts_opaque (errs_opaque hT) fun _ c5 => ?_)
  split
  · rename_i hver
    have h1 : v ≠ 1 := by rintro rfl; exact hver rfl
    rw [ProtocolVersion.ofU16, if_neg h1]
    refine Errs.fail (hV v h1) ?_
    simp only [ProtocolVersion.toU16, reported, List.append_assoc, ← beBytes_two]
    exact (List.prefix_append _ _).isInfix
  · errors_of hT [Extensions.errd hT]
theorem FramedContentTBS.errd : Errd T FramedContentTBS.deserialize := by
  refine .mk' FramedContentTBS.cuts ?_
  unfold FramedContentTBS.deserialize
  errors_of hT [WireFormat.errd hT, FramedContent.errd hT, GroupContext.errd hT hV]
theorem AuthenticatedContentTBM.errd : Errd T AuthenticatedContentTBM.deserialize := by
  refine .mk' AuthenticatedContentTBM.cuts ?_
  unfold AuthenticatedContentTBM.deserialize
  errors_of hT [FramedContentTBS.errd hT hV, FramedContentAuthData.errd hT _]
theorem GroupInfo.errd : Errd T GroupInfo.deserialize := by
  refine .mk' GroupInfo.cuts ?_
  unfold GroupInfo.deserialize
  errors_of hT [GroupContext.errd hT hV, Extensions.errd hT]
theorem WireMessage.errd : Errd T WireMessage.deserialize := by
  refine .mk' WireMessage.cuts ?_
  unfold WireMessage.deserialize
  errors_of hT [WireFormat.errd hT, PublicMessage.errd hT, PrivateMessage.errd hT, Welcome.errd hT, GroupInfo.errd hT hV,
    KeyPackage.errd hT]
theorem MLSMessage.errd : Errd T MLSMessage.deserialize := by
  refine .mk' MLSMessage.cuts ?_
  unfold MLSMessage.deserialize
  refine Errs.need' hT (Errs.u16 fun v => ?_)
  split
  · rename_i hver
    have h1 : v ≠ 1 := by rintro rfl; exact hver rfl
    rw [ProtocolVersion.ofU16, if_neg h1]
    refine Errs.fail (hT _ h1) ?_
    simp only [ProtocolVersion.toU16, reported, ← beBytes_two]
    exact List.infix_refl _
  · errors_of hT [WireMessage.errd hT hV]

theorem codec_errd : ∀ c ∈ wireCodecs, Errd T c.read := by
  simp only [wireCodecs, List.forall_mem_cons]
  exact ⟨opaque_errd hT, SecretKey.errd hT, opaque_errd hT, opaque_errd hT, opaque_errd hT,
    opaque_errd hT, opaque_errd hT, opaque_errd hT, SignatureScheme.errd hT, SignatureKeyPair.errd hT, HPKEKeyPair.errd hT, ProposalType.errd hT,
    ContentType.errd hT, WireFormat.errd hT, Credential.errd hT, Extensions.errd hT,
    RequiredCapabilitiesExtension.errd hT, ExternalSendersExtension.errd hT, Lifetime.errd hT,
    LeafNodeSource.errd hT, Capabilities.errd hT, LeafNodePayload.errd hT, LeafNode.errd hT,
    ParentNode.errd hT, HPKECiphertext.errd hT, UpdatePathNode.errd hT, UpdatePath.errd hT, Node.errd hT,
    KeyPackageTBS.errd hT, KeyPackage.errd hT, Resumption.errd hT, PSK.errd hT, PreSharedKeyID.errd hT,
    PSKLabel.errd hT, GroupContext.errd hT hV, Proposal.errd hT, ProposalOrRef.errd hT, Commit.errd hT,
    Content.errd hT, Sender.errd hT, FramedContent.errd hT, FramedContentAuthData.errd hT _,
    FramedContentAuthData.errd hT _, FramedContentAuthData.errd hT _, AuthenticatedContent.errd hT,
    FramedContentTBS.errd hT hV, AuthenticatedContentTBM.errd hT hV, SenderData.errd hT, PrivateMessage.errd hT,
    PrivateContentAAD.errd hT, PublicMessage.errd hT, GroupInfo.errd hT hV, GroupSecrets.errd hT,
    EncryptedGroupSecrets.errd hT, Welcome.errd hT, ConfirmedTranscriptHashInput.errd hT,
    WireMessage.errd hT hV, MLSMessage.errd hT hV, by simp⟩

omit hV in
/-- All but the readers that contain a group context. -/
theorem codec_errd_free : ∀ c ∈ wireCodecs, c.name ∉ ["GroupContext", "FramedContentTBS", "AuthenticatedContentTBM",
    "GroupInfo", "WireMessage", "MLSMessage"] → Errd T c.read := by
  simp only [wireCodecs, List.forall_mem_cons]
  exact ⟨fun _ => opaque_errd hT, fun _ => SecretKey.errd hT, fun _ => opaque_errd hT, fun _ => opaque_errd hT,
    fun _ => opaque_errd hT, fun _ => opaque_errd hT, fun _ => opaque_errd hT, fun _ => opaque_errd hT,
    fun _ => SignatureScheme.errd hT, fun _ => SignatureKeyPair.errd hT, fun _ => HPKEKeyPair.errd hT,
    fun _ => ProposalType.errd hT,
    fun _ => ContentType.errd hT, fun _ => WireFormat.errd hT, fun _ => Credential.errd hT, fun _ => Extensions.errd hT,
    fun _ => RequiredCapabilitiesExtension.errd hT, fun _ => ExternalSendersExtension.errd hT, fun _ => Lifetime.errd hT,
    fun _ => LeafNodeSource.errd hT, fun _ => Capabilities.errd hT, fun _ => LeafNodePayload.errd hT,
    fun _ => LeafNode.errd hT,
    fun _ => ParentNode.errd hT, fun _ => HPKECiphertext.errd hT, fun _ => UpdatePathNode.errd hT,
    fun _ => UpdatePath.errd hT, fun _ => Node.errd hT,
    fun _ => KeyPackageTBS.errd hT, fun _ => KeyPackage.errd hT, fun _ => Resumption.errd hT, fun _ => PSK.errd hT,
    fun _ => PreSharedKeyID.errd hT,
    fun _ => PSKLabel.errd hT, fun h => absurd (by decide) h, fun _ => Proposal.errd hT, fun _ => ProposalOrRef.errd hT,
    fun _ => Commit.errd hT,
    fun _ => Content.errd hT, fun _ => Sender.errd hT, fun _ => FramedContent.errd hT,
    fun _ => FramedContentAuthData.errd hT _,
    fun _ => FramedContentAuthData.errd hT _, fun _ => FramedContentAuthData.errd hT _,
    fun _ => AuthenticatedContent.errd hT,
    fun h => absurd (by decide) h, fun h => absurd (by decide) h, fun _ => SenderData.errd hT,
    fun _ => PrivateMessage.errd hT,
    fun _ => PrivateContentAAD.errd hT, fun _ => PublicMessage.errd hT, fun h => absurd (by decide) h,
    fun _ => GroupSecrets.errd hT,
    fun _ => EncryptedGroupSecrets.errd hT, fun _ => Welcome.errd hT, fun _ => ConfirmedTranscriptHashInput.errd hT,
    fun h => absurd (by decide) h, fun h => absurd (by decide) h, by simp⟩

end
end Rmls
