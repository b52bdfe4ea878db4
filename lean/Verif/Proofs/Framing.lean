import Verif.Model.Framing
import Verif.Model.Welcome
import Verif.Spec.Framing
import Verif.Proofs.LeafNode
/-
Signatures and tags on messages and group infos.
-/
namespace Rmls
open Spec Spec.Enc

/-! ### Writers in monadic code -/

theorem writes_ok_iff {r : Res Bytes} {e : Enc} (h : Writes r e) (b : Bytes) :
    r = .ok b ↔ e.fits ∧ b = e.bytes := by
  rcases writes_cases h with ⟨f, h⟩ | ⟨f, x, h⟩
  · rw [h]
    exact ⟨fun h => by cases h; exact ⟨f, rfl⟩, fun h => by rw [h.2]⟩
  · rw [h]
    exact ⟨(nomatch ·), fun h => absurd h.1 f⟩

theorem writes_bind_iff {α : Type} {r : Res Bytes} {e : Enc} (h : Writes r e) (k : Bytes → Res α) (a : α) :
    (r >>= k) = .ok a ↔ e.fits ∧ k e.bytes = .ok a := by
  rcases writes_bind h k with ⟨f, h⟩ | ⟨f, x, h⟩
  · rw [h]
    exact ⟨fun h => ⟨f, h⟩, fun h => h.2⟩
  · rw [h]
    exact ⟨(nomatch ·), fun h => absurd h.1 f⟩

theorem text_framed : ascii "FramedContentTBS" = text "FramedContentTBS" := by decide
theorem text_groupInfo : ascii "GroupInfoTBS" = text "GroupInfoTBS" := by decide

/-! ### Injectivity -/

theorem version_pf : PrefixFree Spec.version ProtocolVersion.WF :=
  ProtocolVersion.lawful.inj.prefixFree fun x _ => version_w x
theorem cipherSuite_pf : PrefixFree Spec.cipherSuite CipherSuite.WF :=
  CipherSuite.lawful.inj.prefixFree fun x _ => cipherSuite_w x
theorem extensions_pf : PrefixFree Spec.extensions Extensions.WF :=
  Extensions.lawful.inj.prefixFree fun x _ => extensions_w x
theorem wireFormat_pf : PrefixFree Spec.wireFormat (fun _ => True) :=
  WireFormat.lawful.inj.prefixFree fun x _ => wireFormat_w x
theorem framedContent_pf : PrefixFree Spec.framedContent FramedContent.WF :=
  FramedContent.lawful.inj.prefixFree fun x _ => framedContent_w x

theorem groupContext_pf : PrefixFree Spec.groupContext Spec.ContextCanonical where
  pre := by
    intro x y r r' hx hy fx fy he
    have key := (version_pf.seq (cipherSuite_pf.seq (opq_pf.seq (u64_pf.seq (opq_pf.seq
      (opq_pf.seq extensions_pf)))))).pre
      (x := (x.version, x.cipher_suite, x.group_id, x.epoch, x.tree_hash, x.confirmed_transcript_hash, x.extensions))
      (y := (y.version, y.cipher_suite, y.group_id, y.epoch, y.tree_hash, y.confirmed_transcript_hash, y.extensions))
      ⟨hx.1, hx.2.1, trivial, trivial, trivial, trivial, hx.2.2⟩
      ⟨hy.1, hy.2.1, trivial, trivial, trivial, trivial, hy.2.2⟩ fx fy he
    cases x; cases y
    simp only [Prod.mk.injEq] at key
    obtain ⟨⟨rfl, rfl, rfl, rfl, rfl, rfl, rfl⟩, rfl⟩ := key
    exact ⟨rfl, rfl⟩

theorem framedContentTBS_inj {v v' : ProtocolVersion} {w w' : WireFormat} {c c' : FramedContent}
    {x x' : GroupContext} (hv : v.WF) (hv' : v'.WF) (hc : c.WF) (hc' : c'.WF)
    (hx : c.sender.hasContext → ContextCanonical x) (hx' : c'.sender.hasContext → ContextCanonical x')
    (f : (framedContentTBS v w c x).fits) (f' : (framedContentTBS v' w' c' x').fits) {r r' : Bytes}
    (h : (framedContentTBS v w c x).bytes ++ r = (framedContentTBS v' w' c' x').bytes ++ r') :
    v = v' ∧ w = w' ∧ c = c' ∧ (c.sender.hasContext → x = x') ∧ r = r' := by
  unfold framedContentTBS at f f' h
  simp only [struct, Enc.bytes, List.append_assoc] at h
  obtain ⟨h1, hb⟩ := version_pf.pre hv hv' f.1 f'.1 h
  obtain ⟨h2, hd⟩ := wireFormat_pf.pre trivial trivial f.2.1 f'.2.1 hb
  obtain ⟨h3, he⟩ := framedContent_pf.pre hc hc' f.2.2.1 f'.2.2.1 hd
  clear h hb hd
  subst h1 h2 h3
  refine ⟨rfl, rfl, rfl, ?_⟩
  have f1 := f.2.2.2
  have f2 := f'.2.2.2
  clear f f'
  cases hs : c.sender with
  | Member i =>
    rw [hs] at hx hx'
    simp only [hs] at he f1 f2
    obtain ⟨h1, h2⟩ := groupContext_pf.pre (hx trivial) (hx' trivial) f1 f2 he
    exact ⟨fun _ => h1, h2⟩
  | NewMemberCommit =>
    rw [hs] at hx hx'
    simp only [hs] at he f1 f2
    obtain ⟨h1, h2⟩ := groupContext_pf.pre (hx trivial) (hx' trivial) f1 f2 he
    exact ⟨fun _ => h1, h2⟩
  | External i =>
    simp only [hs] at he
    exact ⟨fun h => h.elim, he⟩
  | NewMemberProposal =>
    simp only [hs] at he
    exact ⟨fun h => h.elim, he⟩

theorem groupInfoTBS_inj {x y : GroupInfo} (hx : ContextCanonical x.group_context ∧ Extensions.WF x.extensions)
    (hy : ContextCanonical y.group_context ∧ Extensions.WF y.extensions)
    (f : (groupInfoTBS x).fits) (f' : (groupInfoTBS y).fits) (h : (groupInfoTBS x).bytes = (groupInfoTBS y).bytes) :
    x.group_context = y.group_context ∧ x.extensions = y.extensions ∧
      x.confirmation_tag = y.confirmation_tag ∧ x.signer = y.signer := by
  have key := (groupContext_pf.seq (extensions_pf.seq (opq_pf.seq u32_pf))).eq
    (x := (x.group_context, x.extensions, x.confirmation_tag, x.signer))
    (y := (y.group_context, y.extensions, y.confirmation_tag, y.signer))
    ⟨hx.1, hx.2, trivial, trivial⟩ ⟨hy.1, hy.2, trivial, trivial⟩ f f' h
  simpa only [Prod.mk.injEq] using key

/-! ### Verification -/

theorem AuthenticatedContent.verify_signature_iff (P : CryptoProvider) (cs : CipherSuite)
    (x : AuthenticatedContent) (key : Bytes) (ctx : GroupContext) :
    x.verify_signature P cs key ctx = .ok () ↔
      ContentSigned P cs key x.wire_format x.content ctx x.auth.signature := by
  unfold AuthenticatedContent.verify_signature FramedContentAuthData.verify_signature
    AuthenticatedContent.framed_content_tbs ContentSigned
  rw [writes_bind_iff (framedContentTBS_w .MLS10 x.wire_format x.content ctx), text_framed, verify_with_label_iff]

theorem GroupInfo.verify_signature_iff (P : CryptoProvider) (x : GroupInfo) (key : Bytes) :
    x.verify_signature P key = .ok () ↔ GroupInfoSigned P key x := by
  unfold GroupInfo.verify_signature GroupInfoSigned
  rw [writes_bind_iff (groupInfoTBS_w x), text_groupInfo, verify_with_label_iff]

theorem sign_mac_iff (P : CryptoProvider) (cs : CipherSuite) (key message tag : Bytes) :
    P.sign_mac cs key message = .ok tag ↔ MacOf P cs key message tag := by
  unfold CryptoProvider.sign_mac MacOf
  rw [Res.bind_ok_iff]
  constructor
  · rintro ⟨h, h1, h2⟩
    cases h2
    exact ⟨h, h1, rfl⟩
  · rintro ⟨h, h1, rfl⟩
    exact ⟨h, h1, rfl⟩

theorem verify_mac_iff (P : CryptoProvider) (cs : CipherSuite) (key message tag : Bytes) :
    P.verify_mac cs key message tag = .ok () ↔ MacOf P cs key message tag := by
  unfold CryptoProvider.verify_mac
  rw [Res.bind_ok_iff]
  constructor
  · rintro ⟨t, h1, h2⟩
    split at h2
    · next h => rw [h]; exact (sign_mac_iff ..).1 h1
    · cases h2
  · intro h
    exact ⟨tag, (sign_mac_iff ..).2 h, by rw [if_pos rfl]; rfl⟩

theorem AuthenticatedContent.new_iff (P : CryptoProvider) (cs : CipherSuite) (key : Bytes) (w : WireFormat)
    (c : FramedContent) (ctx : GroupContext) (x : AuthenticatedContent) :
    AuthenticatedContent.new P cs key w c ctx = .ok x ↔
      ∃ sg, x = { wire_format := w, content := c, auth := { signature := sg, confirmation_tag := [] } } ∧
        (framedContentTBS .MLS10 w c ctx).fits ∧
        P.sign_with_label cs key (text "FramedContentTBS") (framedContentTBS .MLS10 w c ctx).bytes = .ok sg := by
  unfold AuthenticatedContent.new AuthenticatedContent.framed_content_tbs FramedContentAuthData.sign_framed_content
  rw [← text_framed]
  constructor
  · intro h
    obtain ⟨sg, h1, h2⟩ := Res.bind_ok_iff.1 h
    rw [writes_bind_iff (framedContentTBS_w .MLS10 w c ctx)] at h1
    cases h2
    exact ⟨sg, rfl, h1⟩
  · rintro ⟨sg, rfl, h1⟩
    refine Res.bind_ok_iff.2 ⟨sg, ?_, rfl⟩
    rw [writes_bind_iff (framedContentTBS_w .MLS10 w c ctx)]
    exact h1

theorem authenticatedContentTBM_w (x : PublicMessage) (ctx : GroupContext) :
    Writes (x.authenticated_content_tbm ctx).serialize (authenticatedContentTBM x.content x.auth ctx) :=
  (framedContentTBS_w .MLS10 .PublicMessage x.content ctx).app (framedContentAuthData_w x.content.content x.auth)

theorem PublicMessage.verify_membership_tag_iff (P : CryptoProvider) (cs : CipherSuite) (x : PublicMessage)
    (key : Bytes) (ctx : GroupContext) :
    x.verify_membership_tag P cs key ctx = .ok () ↔
      ∀ i tag, x.content.sender = .Member i → x.membership_tag = some tag →
        (authenticatedContentTBM x.content x.auth ctx).fits ∧
        MacOf P cs key (authenticatedContentTBM x.content x.auth ctx).bytes tag := by
  unfold PublicMessage.verify_membership_tag
  cases hs : x.content.sender with
  | External i => simp
  | NewMemberProposal => simp
  | NewMemberCommit => simp
  | Member i =>
    cases ht : x.membership_tag with
    | none => simp
    | some tag =>
      simp only
      rcases writes_cases (authenticatedContentTBM_w x ctx) with ⟨f, h⟩ | ⟨f, e, h⟩
      · rw [h]
        simp only
        rw [verify_mac_iff]
        exact ⟨fun h _ _ _ e => by cases e; exact ⟨f, h⟩, fun h => (h i tag rfl rfl).2⟩
      · rw [h]
        exact ⟨(nomatch ·), fun h => absurd (h i tag rfl rfl).1 f⟩

end Rmls
