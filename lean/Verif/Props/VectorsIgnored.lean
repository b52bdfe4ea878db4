import Verif.Props.VectorsTree
import Verif.Props.VectorsGroup
/-
C93: what the test drivers do not look at.
-/
namespace Rmls
open Vectors Spec MessageProtection

private abbrev suite1 : CipherSuite := .MLS_128_DHKEMX25519_AES128GCM_SHA256_Ed25519

/-- C93 is false for key schedules: the epoch authenticators, the external public keys and the exporters can be anything. -/
theorem C93_refuted_key_schedule (P : CryptoProvider) (cs : CipherSuite) (tc : KeySchedule) (f g : Epoch → Bytes)
    (x : Epoch → Exporter) :
    key_schedule_test P cs { tc with epochs := tc.epochs.map fun e =>
      { e with epoch_authenticator := f e, external_pub := g e, exporter := x e } } = key_schedule_test P cs tc := by
  unfold key_schedule_test
  dsimp only
  generalize 0 = i
  generalize tc.initial_init_secret = s
  generalize tc.epochs = es
  induction es generalizing i s with
  | nil => rfl
  | cons e es ih =>
    rw [List.map_cons]
    unfold epochLoop
    simp only [ih]

/-- C93 is false for TreeKEM: the private keys, the path secrets, the commit secrets, the group id, the epoch and the
transcript hash can be anything, for nothing is decrypted. -/
theorem C93_refuted_treekem (P : CryptoProvider) (cs : CipherSuite) (tc : TreeKEM) (group_id cth : Bytes) (epoch : UInt64)
    (ls : List LeafPrivate) (f : Path → List (Option Bytes)) (g : Path → Bytes) :
    tree_kem_test P cs { tc with
      group_id := group_id, epoch := epoch, confirmed_transcript_hash := cth, leaves_private := ls,
      update_paths := tc.update_paths.map fun p => { p with path_secrets := f p, commit_secret := g p } } =
      tree_kem_test P cs tc := by
  unfold tree_kem_test
  dsimp only
  generalize 0 = i
  generalize tc.update_paths = ps
  induction ps generalizing i with
  | nil => rfl
  | cons p ps ih =>
    rw [List.map_cons]
    unfold forEnum
    rw [ih (i + 1)]

/-- C93 is false for messages: a re-init, an external init and a group context extensions proposal can be any bytes; and
what has to be a welcome, a group info, a key package or a private message can be a public commit. -/
theorem C93_refuted_messages :
    (∀ (tc : Messages) (a b c : Bytes), messages_test { tc with
      re_init_proposal := a, external_init_proposal := b, group_context_extensions_proposal := c } = messages_test tc) ∧
    ∃ (tc : Messages) (msg : MLSMessage) (m : PublicMessage), messages_test tc = .ok () ∧
      (∀ raw, raw = tc.mls_welcome ∨ raw = tc.mls_group_info ∨ raw = tc.mls_key_package ∨ raw = tc.private_message ∨
        raw = tc.public_message_application ∨ raw = tc.public_message_proposal →
        deserialize_exact MLSMessage.deserialize raw = .ok msg) ∧
      msg.wire_message = .PublicMessage m ∧ m.content.content.content_type = .Commit := by
  refine ⟨fun _ _ _ _ => rfl, sameMessage, sampleCommit, _, by decide +kernel, ?_, rfl, rfl⟩
  intro raw hraw
  have : raw = sampleCommitBytes := by rcases hraw with h | h | h | h | h | h <;> exact h
  subst this
  decide +kernel

/-- C93 is false for tree math and for trees: lists may be as short as one likes. -/
theorem C93_refuted_short :
    (∀ tc : TreeMath, tree_math_test tc = .ok () →
      tree_math_test { tc with left := [], right := [], parent := [], sibling := [] } = .ok ()) ∧
    (∀ (P : CryptoProvider) (cs : CipherSuite) (tc : TreeValidation), tree_validation_test P cs tc = .ok () →
      tree_validation_test P cs { tc with resolutions := [], tree_hashes := [] } = .ok ()) ∧
    (∀ (P : CryptoProvider) (cs : CipherSuite) (tc : TreeKEM), tree_kem_test P cs { tc with update_paths := [] } = .ok ()) ∧
    ∀ (P : CryptoProvider) (cs : CipherSuite) (tc : KeySchedule), key_schedule_test P cs { tc with epochs := [] } = .ok () := by
  refine ⟨?_, ?_, fun _ _ _ => rfl, fun _ _ _ => rfl⟩
  · intro tc h
    unfold tree_math_test at h ⊢
    simp only [Res.bind_ok_iff] at h ⊢
    obtain ⟨w, h1, u, h2, r, h3, u', h4, _⟩ := h
    exact ⟨w, h1, u, h2, r, h3, u', h4, (), rfl, (), rfl, (), rfl, rfl⟩
  · intro P cs tc h
    unfold tree_validation_test at h ⊢
    simp only [Res.bind_ok_iff] at h ⊢
    obtain ⟨t, h1, _, _, _, _, h2⟩ := h
    exact ⟨t, h1, (), rfl, (), rfl, h2⟩

/-- C93 is false for vectors with other ciphersuites: they pass, whatever is in them. -/
theorem C93_refuted_unsupported {α : Type} (P : CryptoProvider) (suite : α → UInt16) (test : CipherSuite → α → Res Unit)
    (tests : List α) (h : ∀ tc ∈ tests, P.supports (CipherSuite.ofU16 (suite tc)) = false) :
    forSupported P suite test tests = .ok () := by
  induction tests with
  | nil => rfl
  | cons tc tests ih =>
    unfold forSupported
    rw [if_neg (by rw [h tc (List.mem_cons_self ..)]; exact Bool.false_ne_true)]
    exact ih fun x hx => h x (List.mem_cons_of_mem _ hx)

set_option maxRecDepth 100000 in
/-- C93 is false for message protection: what should be a proposal can be application data, if its bytes are those of a
proposal; and the public messages can be left out. -/
theorem C93_refuted_protection : ∃ (tc : Protection) (m : PrivateMessage),
    message_protection_test toyProvider [1, 1, 1, 1] suite1 tc = .ok () ∧ tc.proposal_pub = [] ∧ tc.commit_pub = [] ∧
    deserialize_exact MLSMessage.deserialize tc.proposal_priv = .ok ⟨.MLS10, .PrivateMessage m⟩ ∧
    m.content_type = .Application := by
  have h : (match deserialize_exact MLSMessage.deserialize applicationOnly.proposal_priv with
    | .ok ⟨.MLS10, .PrivateMessage m⟩ => decide (m.content_type = .Application)
    | _ => false) = true := by decide +kernel
  split at h
  · next m hm => exact ⟨applicationOnly, m, by decide +kernel, rfl, rfl, hm, of_decide_eq_true h⟩
  · cases h

end Rmls
