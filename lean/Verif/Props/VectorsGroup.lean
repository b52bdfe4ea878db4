import Verif.Spec.Vectors
import Verif.Props.Receiver
import Verif.Props.Public
/-
C93, message protection: what passes the test driver of `rmls/src/group/group_test.rs`.
-/
namespace Rmls
open Vectors Spec MessageProtection
open PassiveClient (assert assertOk)

private theorem rawContent_iff (c : Content) (want : Bytes) :
    (rawContent c >>= fun raw => assert (raw = want)) = .ok () ↔ ContentIs c want := by
  simp only [Res.bind_ok_iff, assert_iff, decide_eq_true_iff]
  cases c with
  | Application b =>
    constructor
    · rintro ⟨_, h, rfl⟩; cases h; rfl
    · intro h; exact ⟨b, rfl, h.symm⟩
  | Proposal p =>
    show (∃ a, p.serialize = .ok a ∧ a = want) ↔ _
    constructor
    · rintro ⟨_, h, rfl⟩; exact (writes_ok_iff (proposal_w p) _).1 h
    · intro h; exact ⟨want, (writes_ok_iff (proposal_w p) _).2 h, rfl⟩
  | Commit p =>
    show (∃ a, p.serialize = .ok a ∧ a = want) ↔ _
    constructor
    · rintro ⟨_, h, rfl⟩; exact (writes_ok_iff (commit_w p) _).1 h
    · intro h; exact ⟨want, (writes_ok_iff (commit_w p) _).2 h, rfl⟩

private theorem reads_public (raw : Bytes) (m : PublicMessage) :
    (∃ msg, deserialize_exact MLSMessage.deserialize raw = .ok msg ∧ msg.wire_message = .PublicMessage m) ↔
      Reads MLSMessage.WF mlsMessage raw ⟨.MLS10, .PublicMessage m⟩ := by
  rw [exact_public]
  constructor
  · rintro ⟨h1, rest, h2, h3⟩; exact ⟨⟨rfl, h1⟩, h2, rest, h3⟩
  · rintro ⟨⟨_, h1⟩, h2, rest, h3⟩; exact ⟨h1, rest, h2, h3⟩

private theorem reads_private (raw : Bytes) (m : PrivateMessage) :
    (∃ msg, deserialize_exact MLSMessage.deserialize raw = .ok msg ∧ msg.wire_message = .PrivateMessage m) ↔
      Reads MLSMessage.WF mlsMessage raw ⟨.MLS10, .PrivateMessage m⟩ := by
  rw [exact_private]
  constructor
  · rintro ⟨rest, h2, h3⟩; exact ⟨⟨rfl, trivial⟩, h2, rest, h3⟩
  · rintro ⟨_, h2, rest, h3⟩; exact ⟨rest, h2, h3⟩

private theorem context_eq (cs : CipherSuite) (tc : Protection) : tc.context cs = protectionContext cs tc := rfl

private theorem checkPublic_iff (P : CryptoProvider) (cs : CipherSuite) (tc : Protection) (want : Bytes) (m : PublicMessage)
    (hw : m.WF) : checkPublic P cs tc want m = .ok () ↔
      PublicAuthentic P cs (protectionContext cs tc) tc.signature_pub tc.membership_key m ∧ ContentIs m.content.content want := by
  unfold checkPublic
  rw [Res.bind_ok_iff, ← rawContent_iff]
  constructor
  · rintro ⟨_, h1, h2⟩; exact ⟨(verify_public_iff _ _ _ _ _ _ hw).1 h1, h2⟩
  · rintro ⟨h1, h2⟩; exact ⟨(), (verify_public_iff _ _ _ _ _ _ hw).2 h1, h2⟩

/-- C93: a public message in a vector of message protection passes exactly if it is authentic and has the content, and a
message with its content can be made. -/
theorem C93_protection_public_partial (P : CryptoProvider) (cs : CipherSuite) (tc : Protection)
    (hk : SignaturePair P cs tc.signature_priv tc.signature_pub) (want raw : Bytes) :
    test_message_protection_pub P cs tc want raw = .ok () ↔ ∃ m m', PublicRight P cs tc want raw m ∧
      sendPublic P cs (protectionContext cs tc) tc.signature_priv tc.membership_key m.content = .ok m' := by
  unfold test_message_protection_pub
  rw [Res.bind_ok_iff]
  constructor
  · rintro ⟨msg, h1, h2⟩
    cases hm : msg.wire_message with
    | PublicMessage m =>
      rw [hm] at h2
      have hr := (reads_public raw m).1 ⟨msg, h1, hm⟩
      obtain ⟨_, h3, h4⟩ := Res.bind_ok_iff.1 h2
      obtain ⟨m', h5, _⟩ := Res.bind_ok_iff.1 h4
      exact ⟨m, m', ⟨hr, (checkPublic_iff P cs tc want m hr.1.2).1 h3⟩, h5⟩
    | _ => rw [hm] at h2; cases h2
  · rintro ⟨m, m', ⟨hr, h3⟩, h5⟩
    obtain ⟨msg, h1, h2⟩ := (reads_public raw m).2 hr
    refine ⟨msg, h1, ?_⟩
    rw [h2]
    dsimp only
    rw [(checkPublic_iff P cs tc want m hr.1.2).2 h3, Res.ok_bind, context_eq, h5, Res.ok_bind]
    unfold sendPublic at h5
    obtain ⟨m0, h6, h7⟩ := Res.bind_ok_iff.1 h5
    obtain ⟨g1, g2, g3, _⟩ := C40_verifies P cs _ _ _ _ _ hk m0 m' h6 h7
    unfold checkPublic verify_public_message
    dsimp only
    rw [context_eq, (assertOk_iff _ ()).2 g2, Res.ok_bind, (assertOk_iff _ ()).2 g3, Res.ok_bind, g1]
    exact (rawContent_iff _ _).2 h3.2

private theorem checkPrivate_iff (P : CryptoProvider) (cs : CipherSuite) (tc : Protection) (r : RatchetSecret) (want : Bytes)
    (m : PrivateMessage) (c : Content) :
    checkPrivate P cs tc r want m = .ok c ↔ ∃ sd ac, decrypt_private_message P cs (protectionContext cs tc) tc.signature_pub
      tc.sender_data_secret r m = .ok (sd, ac) ∧ ContentIs ac.content.content want ∧ c = ac.content.content := by
  unfold checkPrivate
  rw [Res.bind_ok_iff]
  constructor
  · rintro ⟨⟨sd, ac⟩, h1, h2⟩
    obtain ⟨raw, h3, h4⟩ := Res.bind_ok_iff.1 h2
    obtain ⟨u, h5, h6⟩ := Res.bind_ok_iff.1 h4
    cases h6
    exact ⟨sd, ac, h1, (rawContent_iff _ _).1 (Res.bind_ok_iff.2 ⟨raw, h3, h5⟩), rfl⟩
  · rintro ⟨sd, ac, h1, h2, rfl⟩
    obtain ⟨raw, h3, h5⟩ := Res.bind_ok_iff.1 ((rawContent_iff _ _).2 h2)
    exact ⟨(sd, ac), h1, Res.bind_ok_iff.2 ⟨raw, h3, Res.bind_ok_iff.2 ⟨(), h5, rfl⟩⟩⟩

private theorem receive_eq (P : CryptoProvider) (cs : CipherSuite) (ctx : GroupContext) (n : Nat) (es sds : Bytes) (li : Nat)
    (pub raw : Bytes) (out : SenderData × AuthenticatedContent) :
    receive P cs ctx n es sds li pub raw = .ok out ↔ ∃ m r, Reads MLSMessage.WF mlsMessage raw ⟨.MLS10, .PrivateMessage m⟩ ∧
      ratchetRoot P cs n es li m.content_type = .ok r ∧ decrypt_private_message P cs ctx pub sds r m = .ok out := by
  unfold receive
  rw [Res.bind_ok_iff]
  constructor
  · rintro ⟨msg, h1, h2⟩
    cases hm : msg.wire_message with
    | PrivateMessage m =>
      rw [hm] at h2
      obtain ⟨r, h3, h4⟩ := Res.bind_ok_iff.1 h2
      exact ⟨m, r, (reads_private raw m).1 ⟨msg, h1, hm⟩, h3, h4⟩
    | _ => rw [hm] at h2; cases h2
  · rintro ⟨m, r, h1, h3, h4⟩
    obtain ⟨msg, h1, h2⟩ := (reads_private raw m).2 h1
    refine ⟨msg, h1, ?_⟩
    rw [h2]
    exact Res.bind_ok_iff.2 ⟨r, h3, h4⟩

/-- C93: a private message in a vector of message protection passes exactly if it is authentic and has the content, and a
message with its content can be made. -/
theorem C93_protection_private_partial (P : CryptoProvider) (cs : CipherSuite) (h : Hpke) (hp : P.hpke cs = .ok h)
    (hs : Sizes h) (ha : AeadPair h) (hT : Expander h) (tc : Protection)
    (hes : h.kdf_extract_size ≤ tc.encryption_secret.length)
    (hk : SignaturePair P cs tc.signature_priv tc.signature_pub) (rnd : Bytes) (hr : rnd.length = 4) (want raw : Bytes) :
    test_message_protection_priv P rnd cs tc want raw = .ok () ↔ ∃ pc m', PrivateRight P cs h tc want raw pc ∧
      send P cs (protectionContext cs tc) 2 tc.encryption_secret tc.sender_data_secret 1 0 rnd tc.signature_priv tc.epoch tc.group_id
        pc.content = .ok m' := by
  have hex := fun sd ac => C71_exact P cs h hp hs hT 1 (by omega) tc.encryption_secret tc.sender_data_secret hes 1 (by omega)
    tc.signature_pub (protectionContext cs tc) raw sd ac
  have hroot : ∀ ct r, ratchetRoot P cs 2 tc.encryption_secret 1 ct = .ok r → r.generation = 0 := by
    intro ct r h1
    obtain ⟨t, ht⟩ := (C35_succeeds P cs h hp hT (2 ^ 1) (by omega) tc.encryption_secret hes).1.2 ⟨1, rfl⟩
    exact ((ratchetRoot_iff hp hs (show 1 ≤ 31 by omega) ht (show 1 < 2 ^ 1 by omega) ct r).1 h1).1
  have hseek : ∀ r : RatchetSecret, r.generation = 0 → seek P cs 0 4294967296 r = .ok r := by
    intro r h0
    unfold seek
    rw [if_pos h0]
  -- what is sent is read again
  have hown : ∀ c m' r, c.WF → ratchetRoot P cs 2 tc.encryption_secret 1 c.content_type = .ok r → ContentIs c want →
      PrivateMessage.new P cs tc.signature_priv r tc.sender_data_secret ⟨tc.group_id, tc.epoch, .Member 1, [], c⟩
        (SenderData.new rnd 1 0) (protectionContext cs tc) = .ok m' → checkPrivate P cs tc r want m' = .ok c := by
    intro c m' r hc h1 h2 h3
    obtain ⟨h4, pc, h5, h6, h7, h8, h9⟩ := C38_round_trip P cs h hp hs ha _ _ hk r tc.sender_data_secret
      ⟨tc.group_id, tc.epoch, .Member 1, [], c⟩ hc (SenderData.new rnd 1 0) hr rfl (protectionContext cs tc) m' h3
    have he : (m'.authenticated_content (SenderData.new rnd 1 0) pc).content =
      ⟨tc.group_id, tc.epoch, .Member 1, [], c⟩ := h8
    rw [checkPrivate_iff]
    refine ⟨SenderData.new rnd 1 0, m'.authenticated_content (SenderData.new rnd 1 0) pc, ?_, by rw [he]; exact h2, by rw [he]⟩
    unfold decrypt_private_message
    rw [h4, Res.ok_bind, show (SenderData.new rnd 1 0).generation = 0 from rfl, hseek r (hroot _ r h1), Res.ok_bind, h5,
      Res.ok_bind]
    dsimp only
    rw [(assertOk_iff _ ()).2 h9, Res.ok_bind]
    rfl
  unfold test_message_protection_priv
  rw [Res.bind_ok_iff]
  constructor
  · rintro ⟨msg, h1, h2⟩
    cases hm : msg.wire_message with
    | PrivateMessage m =>
      rw [hm] at h2
      obtain ⟨r, h3, h4⟩ := Res.bind_ok_iff.1 h2
      obtain ⟨c, h5, h6⟩ := Res.bind_ok_iff.1 h4
      obtain ⟨m', h7, _⟩ := Res.bind_ok_iff.1 h6
      obtain ⟨sd, ac, h8, h9, rfl⟩ := (checkPrivate_iff ..).1 h5
      have hread := (reads_private raw m).1 ⟨msg, h1, hm⟩
      -- the content is that of the message
      obtain ⟨t, ht⟩ := (C35_succeeds P cs h hp hT (2 ^ 1) (by omega) tc.encryption_secret hes).1.2 ⟨1, rfl⟩
      unfold decrypt_private_message at h8
      simp only [Res.bind_ok_iff, assertOk_iff] at h8
      obtain ⟨sd', b1, y, b2, pc, b3, _, b4, b5⟩ := h8
      cases b5
      have hy := (root_seek_iff hp hs (show 1 ≤ 31 by omega) ht (show 1 < 2 ^ 1 by omega) m.content_type sd.generation y).1
        (Res.bind_ok_iff.2 ⟨r, h3, b2⟩)
      rw [C38_content P cs h hp hs, hy.1] at b3
      refine ⟨pc, m', ⟨m, sd, y.secret, hread, (C38_sender_data P cs h hp hs m _ sd).1 b1, hy.2, b3,
        (C30_verify ..).1 b4, h9⟩, ?_⟩
      unfold send
      rw [b3.2.1, show (1 : LeafIndex).toNat = 1 from rfl, h3, Res.ok_bind, hseek r (hroot _ r h3), Res.ok_bind]
      exact h7
    | _ => rw [hm] at h2; cases h2
  · rintro ⟨pc, m', ⟨m, sd, s, hread, b1, b2, b3, b4, b5⟩, h7⟩
    obtain ⟨msg, h1, hm⟩ := (reads_private raw m).2 hread
    refine ⟨msg, h1, ?_⟩
    rw [hm]
    dsimp only
    obtain ⟨t, ht⟩ := (C35_succeeds P cs h hp hT (2 ^ 1) (by omega) tc.encryption_secret hes).1.2 ⟨1, rfl⟩
    obtain ⟨r, h3, hsk⟩ := Res.bind_ok_iff.1 ((root_seek_iff hp hs (show 1 ≤ 31 by omega) ht (show 1 < 2 ^ 1 by omega)
      m.content_type sd.generation ⟨s, sd.generation⟩).2 ⟨rfl, b2⟩)
    have h3 : ratchetRoot P cs 2 tc.encryption_secret 1 m.content_type = .ok r := h3
    have hchk : checkPrivate P cs tc r want m = .ok pc.content := by
      rw [checkPrivate_iff]
      refine ⟨sd, m.authenticated_content sd pc, ?_, b5, rfl⟩
      unfold decrypt_private_message
      rw [(C38_sender_data P cs h hp hs m _ sd).2 b1, Res.ok_bind, hsk, Res.ok_bind,
        (C38_content P cs h hp hs m ⟨s, sd.generation⟩ sd.reuse_guard pc).2 b3, Res.ok_bind]
      dsimp only
      rw [(assertOk_iff _ ()).2 ((C30_verify P cs (m.authenticated_content sd pc) _ _).2 b4), Res.ok_bind]
      rfl
    unfold send at h7
    rw [b3.2.1, show (1 : LeafIndex).toNat = 1 from rfl, h3, Res.ok_bind, hseek r (hroot _ r h3), Res.ok_bind] at h7
    rw [h3, Res.ok_bind, hchk, Res.ok_bind, context_eq, h7, Res.ok_bind, hown pc.content m' r b3.1.1 (by rw [b3.2.1]; exact h3) b5 h7]
    rfl

/-- C93: the vector passes exactly if each of its messages does; the public ones may be missing. -/
theorem C93_protection_partial (P : CryptoProvider) (cs : CipherSuite) (rnd : Bytes) (tc : Protection) :
    message_protection_test P rnd cs tc = .ok () ↔
      (tc.proposal_pub ≠ [] → test_message_protection_pub P cs tc tc.proposal tc.proposal_pub = .ok ()) ∧
      test_message_protection_priv P rnd cs tc tc.proposal tc.proposal_priv = .ok () ∧
      (tc.commit_pub ≠ [] → test_message_protection_pub P cs tc tc.commit tc.commit_pub = .ok ()) ∧
      test_message_protection_priv P rnd cs tc tc.commit tc.commit_priv = .ok () ∧
      test_message_protection_priv P rnd cs tc tc.application tc.application_priv = .ok () := by
  have hif : ∀ (b : Bytes) (x : Res Unit), (if b.isEmpty then pure () else x) = .ok () ↔ (b ≠ [] → x = .ok ()) := by
    intro b x
    cases b with
    | nil => exact ⟨fun _ h => absurd rfl h, fun _ => rfl⟩
    | cons _ _ => exact ⟨fun h _ => h, fun h => h (List.cons_ne_nil _ _)⟩
  rw [← hif, ← hif]
  unfold message_protection_test
  generalize test_message_protection_pub P cs tc tc.proposal tc.proposal_pub = x1
  generalize test_message_protection_priv P rnd cs tc tc.proposal tc.proposal_priv = x2
  generalize test_message_protection_pub P cs tc tc.commit tc.commit_pub = x3
  generalize test_message_protection_priv P rnd cs tc tc.commit tc.commit_priv = x4
  generalize test_message_protection_priv P rnd cs tc tc.application tc.application_priv = x5
  have hu : ∀ p : Unit → Prop, (∃ u, p u) ↔ p () := fun p => ⟨fun ⟨_, h⟩ => h, fun h => ⟨(), h⟩⟩
  have hp : (pure () : Res Unit) = .ok () := rfl
  by_cases e1 : tc.proposal_pub.isEmpty = true <;> by_cases e2 : tc.commit_pub.isEmpty = true <;>
    simp only [e1, e2, if_true, if_false, Bool.false_eq_true, Res.bind_ok_iff, hu, hp, true_and]

section examples
private abbrev suite1 : CipherSuite := .MLS_128_DHKEMX25519_AES128GCM_SHA256_Ed25519

private def out : Res Bytes → Bytes
  | .ok b => b
  | _ => []

/-- What the sender makes of a content, as a private message. -/
private def sealed (c : Content) : Bytes :=
  out (send toyProvider suite1 { toyContext with epoch := 3 } 2 [5, 5, 5, 5] [6] 1 2 [1, 2, 3, 4] [9] 3 [7] c >>= fun m =>
    MLSMessage.serialize ⟨.MLS10, .PrivateMessage m⟩)

/-- What the sender makes of a content, as a public message. -/
private def signed (c : Content) : Bytes :=
  out (sendPublic toyProvider suite1 { toyContext with epoch := 3 } [9] [4] ⟨[7], 3, .Member 1, [1], c⟩ >>= fun m =>
    MLSMessage.serialize ⟨.MLS10, .PublicMessage m⟩)

/-- A vector with a message of every kind. -/
def protection : Protection :=
  { cipher_suite := 1, group_id := toyContext.group_id, epoch := 3, tree_hash := toyContext.tree_hash,
    confirmed_transcript_hash := toyContext.confirmed_transcript_hash, signature_priv := [9], signature_pub := [9],
    encryption_secret := [5, 5, 5, 5], sender_data_secret := [6], membership_key := [4], proposal := [0, 3, 0, 0, 0, 1],
    proposal_pub := signed (.Proposal (.Remove ⟨1⟩)), proposal_priv := sealed (.Proposal (.Remove ⟨1⟩)), commit := [0, 0],
    commit_pub := [], commit_priv := sealed (.Commit ⟨[], none⟩), application := [42],
    application_priv := sealed (.Application [42]) }

set_option maxRecDepth 100000 in
theorem protection_passes : message_protection_test toyProvider [1, 1, 1, 1] suite1 protection = .ok () := by
  decide +kernel

example : (∃ m, PublicRight toyProvider suite1 protection protection.proposal protection.proposal_pub m) ∧
    (∃ pc, PrivateRight toyProvider suite1 toyHpke protection protection.commit protection.commit_priv pc) := by
  have hk : SignaturePair toyProvider suite1 [9] [9] := by
    intro s m sg h1 h2
    cases h1; cases h2
    exact if_pos rfl
  obtain ⟨h1, _, _, h2, _⟩ := (C93_protection_partial toyProvider suite1 [1, 1, 1, 1] protection).1 protection_passes
  obtain ⟨m, _, h3, _⟩ := (C93_protection_public_partial toyProvider suite1 protection hk _ _).1 (h1 (by decide +kernel))
  obtain ⟨pc, _, h4, _⟩ := (C93_protection_private_partial toyProvider suite1 toyHpke rfl toy_sizes toy_aeadPair
    toy_expander protection (by decide) hk [1, 1, 1, 1] rfl _ _).1 h2
  exact ⟨⟨m, h3⟩, ⟨pc, h4⟩⟩

set_option maxRecDepth 100000 in
example : message_protection_test toyProvider [1, 1, 1, 1] suite1 { protection with application := [43] } = .fault .panic := by
  decide +kernel

/-- A vector in which every message is private application data. -/
def applicationOnly : Protection :=
  { protection with proposal_pub := [], proposal_priv := sealed (.Application [0, 3, 0, 0, 0, 1]), commit_pub := [],
                    commit_priv := sealed (.Application [0, 0]) }

end examples
end Rmls
