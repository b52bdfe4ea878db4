import Verif.Spec.Passive
import Verif.Props.Client
import Verif.Model.Receiver
/-
Property C83: the passive client, from the bytes it is given.
-/
namespace Rmls
open Spec Spec.Enc PassiveClient RatchetTree

theorem exact_wire (raw : Bytes) (w : WireMessage) :
    (∃ msg, deserialize_exact MLSMessage.deserialize raw = .ok msg ∧ msg.wire_message = w) ↔ Carries raw w := by
  have htag : w.WF → w.Tagged := by
    intro hw
    cases w with
    | PublicMessage m => exact fun hs => hw.2.2.2 hs
    | _ => trivial
  constructor
  · rintro ⟨⟨v, w⟩, h1, rfl⟩
    unfold deserialize_exact at h1
    split at h1
    · next x rest hd =>
      cases h1
      obtain ⟨hw, b, hb, rfl⟩ := C03_canonical _ mlsMessageCodec_mem _ _ _ hd
      obtain ⟨rfl, hw⟩ : v = .MLS10 ∧ w.WF := hw
      have hb : MLSMessage.serialize ⟨.MLS10, w⟩ = .ok b := hb
      obtain ⟨hf, rfl⟩ := (writes_ok_iff (mlsMessage_w ⟨.MLS10, w⟩ (htag hw)) _).1 hb
      exact ⟨hw, rest, hf, rfl⟩
    · cases h1
    · cases h1
  · rintro ⟨hw, rest, hf, rfl⟩
    refine ⟨⟨.MLS10, w⟩, ?_, rfl⟩
    have hb : MLSMessage.serialize ⟨.MLS10, w⟩ = .ok _ :=
      (writes_ok_iff (mlsMessage_w ⟨.MLS10, w⟩ (htag hw)) _).2 ⟨hf, rfl⟩
    have := C02_round_trip _ mlsMessageCodec_mem ⟨.MLS10, w⟩ _ rest ⟨rfl, hw⟩ hb
    unfold deserialize_exact
    rw [show MLSMessage.deserialize _ = _ from this]

/-- C83: bytes carry one message at most. -/
theorem C83_one_message (raw : Bytes) (v w : WireMessage) (hv : Carries raw v) (hw : Carries raw w) : v = w := by
  obtain ⟨m, h1, rfl⟩ := (exact_wire raw v).2 hv
  obtain ⟨n, h2, rfl⟩ := (exact_wire raw w).2 hw
  cases h1.symm.trans h2
  rfl

theorem deserialize_message_iff (raw : Bytes) (wf : WireFormat) (w : WireMessage) :
    (∃ msg, deserialize_message raw wf = .ok msg ∧ msg.wire_message = w) ↔ Carries raw w ∧ w.wire_format = wf := by
  rw [← exact_wire]
  unfold deserialize_message
  simp only [Res.bind_ok_iff, assert_iff, decide_eq_true_iff]
  constructor
  · rintro ⟨msg, ⟨m, h1, _, h2, h3⟩, rfl⟩
    cases h3
    exact ⟨⟨_, h1, rfl⟩, h2⟩
  · rintro ⟨⟨m, h1, rfl⟩, h2⟩
    exact ⟨m, ⟨m, h1, (), h2, rfl⟩, rfl⟩

theorem text_bar : text "bar" = ascii "bar" := rfl
theorem text_foo : text "foo" = ascii "foo" := rfl

/-- C83: the check of an encryption key pair passes exactly when a message sealed to the public key opens with the private
one, in a suite with HPKE. -/
theorem C83_encryption_pair (P : CryptoProvider) (rnd : Bytes) (cs : CipherSuite) (hcs : cs.WF) (pub priv : Bytes) :
    check_encryption_key_pair P rnd cs pub priv = .ok () ↔
      HpkeSuite cs ∧ OpensOnce P cs rnd pub priv checkInfo (text "foo") := by
  unfold check_encryption_key_pair OpensOnce checkInfo CryptoProvider.encrypt_with_label CryptoProvider.decrypt_with_label
  rw [Res.bind_ok_iff, ← labelSuite_iff cs hcs, text_bar, text_foo]
  have hf : (labelled (ascii "bar") []).fits := by decide
  simp only [writes_bind_iff (mls_prefix_label_data_w _ _), Res.bind_ok_iff, assert_iff, decide_eq_true_iff]
  constructor
  · rintro ⟨⟨kem, cipher⟩, ⟨_, h1⟩, plain, ⟨_, h2⟩, rfl⟩
    by_cases hl : CryptoProvider.labelSuite cs = true
    · rw [if_pos hl] at h1 h2
      exact ⟨hl, kem, cipher, h1, h2⟩
    · rw [if_neg hl] at h1
      cases h1
  · rintro ⟨hl, kem, cipher, h1, h2⟩
    exact ⟨(kem, cipher), ⟨hf, by rw [if_pos hl]; exact h1⟩, _, ⟨hf, by rw [if_pos hl]; exact h2⟩, rfl⟩

/-- C83: the check of a signature key pair passes exactly when a message signed with the private key is accepted under the
public one. -/
theorem C83_signature_pair (P : CryptoProvider) (cs : CipherSuite) (pub priv : Bytes) :
    check_signature_key_pair P cs pub priv = .ok () ↔ VerifiesOnce P cs pub priv checkContent := by
  unfold check_signature_key_pair VerifiesOnce checkContent CryptoProvider.sign_with_label CryptoProvider.verify_with_label
  rw [Res.bind_ok_iff, text_bar, text_foo]
  have hf : (labelled (ascii "bar") (ascii "foo")).fits := by decide
  simp only [writes_bind_iff (mls_prefix_label_data_w _ _), assertOk_iff, Res.bind_ok_iff]
  constructor
  · rintro ⟨sg, ⟨_, s, h1, h2⟩, _, s', h3, h4⟩
    cases h1.symm.trans h3
    exact ⟨s, sg, h1, h2, h4⟩
  · rintro ⟨s, sg, h1, h2, h3⟩
    exact ⟨sg, ⟨hf, s, h1, h2⟩, hf, s, h1, h3⟩

theorem firstEpoch_iff (P : CryptoProvider) (cs : CipherSuite) (h : Hpke) (hp : P.hpke cs = .ok h) (hs : Sizes h)
    (s : State) (hl : s.tree.length < 2 ^ 32)
    (hd : ∀ i j l m, s.tree.get (2 * i) = some (.Leaf l) → s.tree.get (2 * j) = some (.Leaf m) →
      l.payload.signature_key = m.payload.signature_key → i = j) (epochs : List Bytes)
    (out : Option (RatchetTree × RatchetTree)) :
    firstEpoch P cs s epochs = .ok out ↔ FirstCommit P h cs s epochs out := by
  have tagOf : ∀ m : PublicMessage, m.WF → (∃ i, m.content.sender = .Member i) → m.membership_tag ≠ none := by
    intro m hw hm hn
    have := hw.2.2.2 hm
    rw [hn] at this
    cases this
  have sender : ∀ (m : PublicMessage) r, handleCommit P cs s m = .ok r → ∃ i, m.content.sender = .Member i := by
    intro m r h
    unfold handleCommit at h
    obtain ⟨_, _, h⟩ := Res.bind_ok_iff.1 h
    split at h
    · next i hi => exact ⟨i, hi⟩
    · cases h
  cases epochs with
  | nil =>
    constructor
    · intro h; cases h; exact .inl ⟨rfl, rfl⟩
    · rintro (⟨_, rfl⟩ | ⟨_, _, _, _, _, _, _, _, h, _⟩)
      · rfl
      · cases h
  | cons raw later =>
    unfold firstEpoch
    constructor
    · intro hh
      obtain ⟨msg, h1, h2⟩ := Res.bind_ok_iff.1 hh
      cases hm : msg.wire_message with
      | PublicMessage m =>
        rw [hm] at h2
        obtain ⟨⟨nt, t⟩, h3, h4⟩ := Res.bind_ok_iff.1 h2
        cases h4
        have hc := ((deserialize_message_iff raw .PublicMessage (.PublicMessage m)).1 ⟨msg, h1, hm⟩).1
        obtain ⟨c, ps, path, g1, g2, g3, g4⟩ := (C68_exact_partial P cs h hp hs s hl hd m
          (tagOf m hc.1 (sender m _ h3)) nt t).1 h3
        exact .inr ⟨raw, later, m, nt, t, c, ps, path, rfl, hc, rfl, g1, g2, g3, g4⟩
      | _ => rw [hm] at h2; cases h2
    · rintro (⟨h, _⟩ | ⟨raw', later', m, nt, t, c, ps, path, h, hc, rfl, g1, g2, g3, g4⟩)
      · cases h
      · cases h
        obtain ⟨msg, h1, h2⟩ := (deserialize_message_iff raw .PublicMessage (.PublicMessage m)).2 ⟨hc, rfl⟩
        refine Res.bind_ok_iff.2 ⟨msg, h1, ?_⟩
        rw [h2]
        refine Res.bind_ok_iff.2 ⟨(nt, t), ?_, rfl⟩
        exact (C68_exact_partial P cs h hp hs s hl hd m (tagOf m hc.1 ⟨c, g1.sender⟩) nt t).2 ⟨c, ps, path, g1, g2, g3, g4⟩

/-- C83: the test of the client passes exactly when the client reads a welcome and a key package, joins as RFC 9420 says with
the expected authenticator, and the commit that follows, if any, is a valid one. -/
theorem C83_exact (P : CryptoProvider) (cs : CipherSuite) (hcs : cs.WF) (h : Hpke) (hp : P.hpke cs = .ok h) (hs : Sizes h)
    (Hs : Hash) (hP : P.hash cs = .ok Hs) (rnd rnd' : Bytes) (tc : Input)
    (hw : ∀ w, Carries tc.welcome (.Welcome w) → w.cipher_suite = cs)
    (hk : ∀ kp, Carries tc.key_package (.KeyPackage kp) → kp.payload.cipher_suite = cs)
    (s : State) (hn : s.group_secrets.psk_ids.length < 2 ^ 16) (out : Option (RatchetTree × RatchetTree)) :
    passive_client_test P rnd rnd' cs tc = .ok (s, out) ↔
      ∃ w kp, Entered P h Hs.digest rnd rnd' cs tc w kp s ∧ FirstCommit P h cs s tc.epochs out := by
  unfold passive_client_test
  rw [Res.bind_ok_iff]
  constructor
  · rintro ⟨msg, h1, h2⟩
    cases hm : msg.wire_message with
    | Welcome w =>
      rw [hm] at h2
      dsimp only at h2
      obtain ⟨msg', h3, h4⟩ := Res.bind_ok_iff.1 h2
      cases hm' : msg'.wire_message with
      | KeyPackage kp =>
        rw [hm'] at h4
        simp only [Res.bind_ok_iff, assert_iff, decide_eq_true_iff] at h4
        obtain ⟨_, a1, _, a2, _, a3, s', a4, au, a5, _, rfl, r, a6, a7⟩ := h4
        cases a7
        have c1 := ((deserialize_message_iff tc.welcome .Welcome (.Welcome w)).1 ⟨msg, h1, hm⟩).1
        have c2 := ((deserialize_message_iff tc.key_package .KeyPackage (.KeyPackage kp)).1 ⟨msg', h3, hm'⟩).1
        have hkp : kp.WF := c2.1
        have a1 := (C83_encryption_pair P rnd cs hcs _ _).1 a1
        obtain ⟨t1, t2⟩ := C68_joined P cs hcs h hp hs Hs hP w (hw w c1) kp hkp (hk kp c2) _ _ _ s hn a4
        rw [C66_exact P cs hcs h hp hs Hs hP w (hw w c1) kp hkp (hk kp c2) _ _ _ s hn] at a4
        exact ⟨w, kp, ⟨c1, c2, a1.1, a1.2, ((C83_encryption_pair P rnd' cs hcs _ _).1 a2).2,
          (C83_signature_pair P cs _ _).1 a3, a4, (derive_secret_iff hp hs _ _ _).1 a5⟩,
          (firstEpoch_iff P cs h hp hs s t1 t2 _ _).1 a6⟩
      | _ => rw [hm'] at h4; cases h4
    | _ => rw [hm] at h2; cases h2
  · rintro ⟨w, kp, e, f⟩
    obtain ⟨msg, h1, hm⟩ := (deserialize_message_iff tc.welcome .Welcome (.Welcome w)).2 ⟨e.welcome, rfl⟩
    obtain ⟨msg', h3, hm'⟩ := (deserialize_message_iff tc.key_package .KeyPackage (.KeyPackage kp)).2 ⟨e.package, rfl⟩
    have hkp : kp.WF := e.package.1
    have a4 := (C66_exact P cs hcs h hp hs Hs hP w (hw w e.welcome) kp hkp (hk kp e.package) _ _ _ s hn).2 e.joined
    obtain ⟨t1, t2⟩ := C68_joined P cs hcs h hp hs Hs hP w (hw w e.welcome) kp hkp (hk kp e.package) _ _ _ s hn a4
    refine ⟨msg, h1, ?_⟩
    rw [hm]
    refine Res.bind_ok_iff.2 ⟨msg', h3, ?_⟩
    rw [hm']
    simp only [Res.bind_ok_iff, assert_iff, decide_eq_true_iff]
    exact ⟨(), (C83_encryption_pair P rnd cs hcs _ _).2 ⟨e.suite, e.init_key⟩, (),
      (C83_encryption_pair P rnd' cs hcs _ _).2 ⟨e.suite, e.encryption_key⟩, (), (C83_signature_pair P cs _ _).2 e.signature_key,
      s, a4, _, (derive_secret_iff hp hs _ _ _).2 e.authenticator, (), rfl, out,
      (firstEpoch_iff P cs h hp hs s t1 t2 _ _).2 f, rfl⟩

/-- C83: the bytes of a welcome and of a key package with which a client can join, its own keys, and the authenticator that
it derives, pass the test. -/
theorem C83_passes (P : CryptoProvider) (cs : CipherSuite) (hcs : cs.WF) (rnd rnd' : Bytes) (tc : Input) (w : Welcome)
    (kp : KeyPackage) (hww : w.WF) (hkw : kp.WF)
    (hw : MLSMessage.serialize ⟨.MLS10, .Welcome w⟩ = .ok tc.welcome)
    (hk : MLSMessage.serialize ⟨.MLS10, .KeyPackage kp⟩ = .ok tc.key_package) (hsuite : HpkeSuite cs)
    (p1 : HpkePair P cs tc.init_priv kp.payload.init_key)
    (p2 : HpkePair P cs tc.encryption_priv kp.payload.leaf_node.payload.encryption_key)
    (p3 : SignaturePair P cs tc.signature_priv kp.payload.leaf_node.payload.signature_key)
    (t1 : ∃ x, P.hpke_seal cs rnd kp.payload.init_key checkInfo (text "foo") = .ok x)
    (t2 : ∃ x, P.hpke_seal cs rnd' kp.payload.leaf_node.payload.encryption_key checkInfo (text "foo") = .ok x)
    (t3 : ∃ sc x, P.signature cs = .ok sc ∧ sc.sign tc.signature_priv checkContent = .ok x) (s : State)
    (hj : join P cs w kp tc.init_priv tc.external_psks tc.ratchet_tree = .ok s)
    (ha : authenticator P cs s = .ok tc.initial_epoch_authenticator) (he : tc.epochs = []) :
    passive_client_test P rnd rnd' cs tc = .ok (s, none) := by
  have carries : ∀ (w : WireMessage) raw, w.WF → w.Tagged → MLSMessage.serialize ⟨.MLS10, w⟩ = .ok raw → Carries raw w := by
    intro w raw h1 h2 h3
    obtain ⟨hf, rfl⟩ := (writes_ok_iff (mlsMessage_w ⟨.MLS10, w⟩ h2) _).1 h3
    exact ⟨h1, [], hf, by rw [List.append_nil]⟩
  obtain ⟨msg, h1, hm⟩ := (deserialize_message_iff tc.welcome .Welcome (.Welcome w)).2 ⟨carries _ _ hww trivial hw, rfl⟩
  obtain ⟨msg', h3, hm'⟩ := (deserialize_message_iff tc.key_package .KeyPackage (.KeyPackage kp)).2
    ⟨carries _ _ hkw trivial hk, rfl⟩
  obtain ⟨⟨kem1, c1⟩, t1⟩ := t1
  obtain ⟨⟨kem2, c2⟩, t2⟩ := t2
  obtain ⟨sc, sg, t3, t4⟩ := t3
  unfold passive_client_test
  rw [h1, Res.ok_bind, hm]
  show (deserialize_message tc.key_package .KeyPackage >>= _) = _
  rw [h3, Res.ok_bind, hm']
  dsimp only
  rw [(C83_encryption_pair P rnd cs hcs _ _).2 ⟨hsuite, kem1, c1, t1, p1 _ _ _ _ _ t1⟩, Res.ok_bind,
    (C83_encryption_pair P rnd' cs hcs _ _).2 ⟨hsuite, kem2, c2, t2, p2 _ _ _ _ _ t2⟩, Res.ok_bind,
    (C83_signature_pair P cs _ _).2 ⟨sc, sg, t3, t4, p3 _ _ _ t3 t4⟩, Res.ok_bind, hj, Res.ok_bind, ha, Res.ok_bind,
    (assert_iff _ ()).2 (by simp), Res.ok_bind, he]
  rfl

/-- C83: the test of a welcome passes exactly when the welcome opens for the owner of the key package.  The suites of the
welcome and of the group are not compared there, so there are two. -/
theorem C83_welcome (P : CryptoProvider) (priv signer rawk raww : Bytes) (gs : GroupSecrets) (gi : GroupInfo) (h h' : Hpke)
    (hp : ∀ w, Carries raww (.Welcome w) → P.hpke w.cipher_suite = .ok h) (hs : Sizes h)
    (hp' : P.hpke gi.group_context.cipher_suite = .ok h') (hs' : Sizes h') :
    welcome_test P priv signer rawk raww = .ok (gs, gi) ↔
      ∃ w kp, Carries raww (.Welcome w) ∧ Carries rawk (.KeyPackage kp) ∧ Opened P h h' priv signer w kp gs gi := by
  unfold welcome_test
  rw [Res.bind_ok_iff]
  constructor
  · rintro ⟨msg, h1, h2⟩
    cases hm : msg.wire_message with
    | Welcome w =>
      rw [hm] at h2
      dsimp only at h2
      obtain ⟨msg', h3, h4⟩ := Res.bind_ok_iff.1 h2
      cases hm' : msg'.wire_message with
      | KeyPackage kp =>
        rw [hm'] at h4
        simp only [Res.bind_ok_iff, assertOk_iff] at h4
        obtain ⟨ref, a1, gs', a2, gi', a3, _, a4, _, a5, a6⟩ := h4
        cases a6
        have c1 := ((deserialize_message_iff raww .Welcome (.Welcome w)).1 ⟨msg, h1, hm⟩).1
        have c2 := ((deserialize_message_iff rawk .KeyPackage (.KeyPackage kp)).1 ⟨msg', h3, hm'⟩).1
        obtain ⟨b1, b2, b3, e, rest, b4, b5⟩ := (C47_group_secrets P w c1.1 ref priv gs).1 a2
        exact ⟨w, kp, c1, c2, ⟨b1, b2, b3, ref, e, rest, (C56_ref P kp ref).1 a1, b4, b5⟩,
          (C47_group_info P w h (hp w c1) hs _ _ gi).1 a3, (C50_verify ..).1 a4, (C55_group_info P gi h' hp' hs' _ _).1 a5⟩
      | _ => rw [hm'] at h4; cases h4
    | _ => rw [hm] at h2; cases h2
  · rintro ⟨w, kp, c1, c2, ⟨b1, b2, b3, ref, e, rest, b0, b4, b5⟩, a3, a4, a5⟩
    obtain ⟨msg, h1, hm⟩ := (deserialize_message_iff raww .Welcome (.Welcome w)).2 ⟨c1, rfl⟩
    obtain ⟨msg', h3, hm'⟩ := (deserialize_message_iff rawk .KeyPackage (.KeyPackage kp)).2 ⟨c2, rfl⟩
    refine ⟨msg, h1, ?_⟩
    rw [hm]
    refine Res.bind_ok_iff.2 ⟨msg', h3, ?_⟩
    rw [hm']
    simp only [Res.bind_ok_iff, assertOk_iff]
    exact ⟨ref, (C56_ref P kp ref).2 b0, gs, (C47_group_secrets P w c1.1 ref priv gs).2 ⟨b1, b2, b3, e, rest, b4, b5⟩, gi,
      (C47_group_info P w h (hp w c1) hs _ _ gi).2 a3, (), (C50_verify ..).2 a4, (),
      (C55_group_info P gi h' hp' hs' _ _).2 a5, rfl⟩

section examples
private abbrev suite1 : CipherSuite := .MLS_128_DHKEMX25519_AES128GCM_SHA256_Ed25519

/-- What is written, or nothing. -/
def written (w : WireMessage) : Bytes :=
  match MLSMessage.serialize ⟨.MLS10, w⟩ with
  | .ok b => b
  | _ => []

/-- The client of `joinState`. -/
def joinInput : Input where
  external_psks := [([0], [9]), ([1], [5])]
  key_package := written (.KeyPackage joinPackage)
  signature_priv := [1, 1]
  encryption_priv := joinLeaf.payload.encryption_key
  init_priv := [3]
  welcome := written (.Welcome joinWelcome)
  ratchet_tree := none
  initial_epoch_authenticator := List.replicate 4 1
  epochs := []

set_option maxRecDepth 100000 in
/-- The conditions of `C83_passes` can be met. -/
theorem joinInput_passes : passive_client_test toyProvider [8] [8] suite1 joinInput = .ok (joinState, none) := by
  refine C83_passes toyProvider suite1 trivial [8] [8] joinInput joinWelcome joinPackage trivial
    ⟨trivial, trivial, toyLeaf_wf 1, nofun⟩ (by decide +kernel) (by decide +kernel) (.inl rfl) (toy_hpkePair _ _)
    (toy_hpkePair _ _) ?_ ⟨_, rfl⟩ ⟨_, rfl⟩ ⟨_, _, rfl, rfl⟩ joinState joinState_join (by decide +kernel) rfl
  intro s m sg h1 h2
  cases h1
  cases h2
  exact if_pos rfl

set_option maxRecDepth 100000 in
/-- So can those of `C83_exact`, with a commit. -/
example : ∃ s out, passive_client_test toyProvider [8] [8] suite1 { joinInput with
    epochs := [written (.PublicMessage (commitOf 0 [.GroupContextExtensions ⟨[]⟩] rootPath joinInfo.group_context))] } =
    .ok (s, some out) := by
  have h : (passive_client_test toyProvider [8] [8] suite1 { joinInput with
    epochs := [written (.PublicMessage (commitOf 0 [.GroupContextExtensions ⟨[]⟩] rootPath joinInfo.group_context))] } >>= fun x =>
      Res.ok x.2.isSome) = .ok true := by decide +kernel
  obtain ⟨⟨s, out⟩, h1, h2⟩ := Res.bind_ok_iff.1 h
  cases out with
  | none => cases h2
  | some out => exact ⟨s, out, h1⟩

set_option maxRecDepth 100000 in
/-- A private key that does not fit is noticed. -/
example : passive_client_test toyProvider [8] [8] suite1 { joinInput with signature_priv := [9] } = .fault .panic := by
  have h : (match passive_client_test toyProvider [8] [8] suite1 { joinInput with signature_priv := [9] } with
    | .fault .panic => true | _ => false) = true := by decide +kernel
  split at h
  · assumption
  · cases h

set_option maxRecDepth 100000 in
/-- A welcome that opens, without PSKs: that of `joinState`, whose keys do not depend on the PSKs in the example provider. -/
example : (welcome_test toyProvider [3] [0, 0] (written (.KeyPackage joinPackage)) (written (.Welcome joinWelcome))) =
    .ok (joinSecrets, joinInfo) := by decide +kernel

end examples
end Rmls
