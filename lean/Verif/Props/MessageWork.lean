import Verif.Props.Receiver
import Verif.Proofs.MessageWork
/-
Property C97: the work of reading a private message.
-/
namespace Rmls
open Spec Spec.Enc MessageProtection PassiveClient RatchetTree Steps

/-- C97: the counting receiver is the receiver. -/
theorem C97_same (P : CryptoProvider) (cs : CipherSuite) (ctx : GroupContext) (n : Nat) (es sds : Bytes) (li : Nat)
    (pub raw : Bytes) : (Counting.receive P cs ctx n es sds li pub raw).res = receive P cs ctx n es sds li pub raw :=
  Counting.receive_res P cs ctx n es sds li pub raw

theorem newTree_pow (P : CryptoProvider) (cs : CipherSuite) (n : Nat) (h0 : 0 < n) (hn : n ≤ 2 ^ 31) (es : Bytes) :
    Counting.newTree P cs n es = Counting.derive_children P cs 33
      (SecretTree.setSecret (List.replicate (2 * (n - 1) + 1) none) (node (NumLeaves.height n) 0) es)
      (node (NumLeaves.height n) 0) := by
  unfold Counting.newTree
  rw [NumLeaves.width_eq h0 hn, NumLeaves.root_eq h0 hn, free_bind, free_bind]

/-- C97: what it takes to read an accepted message: two derivations for every parent of the secret tree, one for the
ratchet, one for every generation up to that of the message, and two each for the keys of the sender data and content. -/
theorem C97_exact (P : CryptoProvider) (cs : CipherSuite) (ctx : GroupContext) (K : Nat) (hK : K ≤ 31) (es sds : Bytes)
    (li : Nat) (pub raw : Bytes) (sd : SenderData) (ac : AuthenticatedContent)
    (h : receive P cs ctx (2 ^ K) es sds li pub raw = .ok (sd, ac)) :
    (Counting.receive P cs ctx (2 ^ K) es sds li pub raw).expands = 2 * (2 ^ K - 1) + 1 + sd.generation.toNat + 4 := by
  rw [← C97_same] at h
  unfold Counting.receive at h ⊢
  rw [bind_res, Res.bind_ok_iff] at h
  obtain ⟨msg, h1, h⟩ := h
  rw [bind_ok h1]
  cases hm : msg.wire_message with
  | PrivateMessage m =>
    rw [hm] at h
    dsimp only at h ⊢
    rw [bind_res, Res.bind_ok_iff] at h
    obtain ⟨r, h2, h⟩ := h
    rw [bind_ok h2]
    have hr : (Counting.ratchetRoot P cs (2 ^ K) es li m.content_type).expands = 2 * (2 ^ K - 1) + 1 ∧
        r.generation = 0 := by
      unfold Counting.ratchetRoot at h2 ⊢
      simp only [bind_res, Res.bind_ok_iff] at h2
      obtain ⟨t, h3, ni, h4, h5⟩ := h2
      rw [bind_ok h3, bind_ok h4]
      have hp := Nat.two_pow_pos K
      have hle : 2 ^ K ≤ 2 ^ 31 := Nat.pow_le_pow_right (by omega) hK
      constructor
      · rw [newTree_pow P cs _ hp hle, SecretTree.height_pow] at h3 ⊢
        rw [Counting.derive_children_eq P cs K 0 33 _ t (by omega) h3]
        show _ + (0 + 1) = _
        omega
      · have h5 : t.derive_ratchet_root P cs ni (.ofContentType m.content_type) = .ok r := h5
        unfold SecretTree.derive_ratchet_root at h5
        simp only [Res.bind_ok_iff] at h5
        obtain ⟨_, _, _, _, _, _, h5⟩ := h5
        cases h5
        rfl
    rw [hr.1]
    unfold Counting.decrypt_private_message at h ⊢
    simp only [bind_res, Res.bind_ok_iff] at h
    obtain ⟨sd', h3, y, h4, pc, h5, u, h6, h7⟩ := h
    cases h7
    rw [bind_ok h3, bind_ok h4, bind_ok h5, bind_ok h6]
    have hs := (Counting.seek_eq P cs sd.generation _ r y h4).2
    rw [hs, hr.2]
    have e1 : (Counting.decrypt_sender_data P cs m sds).expands = 2 := by
      unfold Counting.decrypt_sender_data at h3 ⊢
      simp only [bind_res, Res.bind_ok_iff] at h3
      obtain ⟨k, a1, n, a2, aad, a3, hh, a4, rs, a5, a6⟩ := h3
      rw [bind_ok a1, bind_ok a2, bind_ok a3, bind_ok a4, bind_ok a5]
      rfl
    have e2 : (Counting.decrypt_content P cs m y sd.reuse_guard).expands = 2 := by
      unfold Counting.decrypt_content at h5 ⊢
      simp only [bind_res, Res.bind_ok_iff] at h5
      obtain ⟨kn, a1, aad, a3, hh, a4, rs, a5, a6⟩ := h5
      have e3 : (Counting.derive_private_message_key_and_nonce P cs y sd.reuse_guard).expands = 2 := by
        unfold Counting.derive_private_message_key_and_nonce at a1 ⊢
        simp only [bind_res, Res.bind_ok_iff] at a1
        obtain ⟨k, b1, n, b2, b3⟩ := a1
        rw [bind_ok b1, bind_ok b2]
        rfl
      rw [bind_ok a1, bind_ok a3, bind_ok a4, bind_ok a5, e3]
      rfl
    rw [e1, e2]
    show 0 + (_ + (2 + (sd.generation.toNat - 0 + (2 + (0 + 0))))) = _
    omega
  | _ => rw [hm] at h; cases h

/-- C97, what is true: whatever arrives, accepted or not, the work is at most four derivations per leaf and one for every
generation up to the one that the sender data claims; if the sender data does not open under the group's secret, the latter
part is nothing.
Missing: a bound on the generation, see `C97_refuted`. -/
theorem C97_partial (P : CryptoProvider) (cs : CipherSuite) (ctx : GroupContext) (n : Nat) (h0 : 0 < n) (hn : n ≤ 2 ^ 31)
    (es sds : Bytes) (li : Nat) (pub raw : Bytes) (G : Nat)
    (hG : ∀ msg m sd, deserialize_exact MLSMessage.deserialize raw = .ok msg → msg.wire_message = .PrivateMessage m →
      m.decrypt_sender_data P cs sds = .ok sd → sd.generation.toNat ≤ G) :
    (Counting.receive P cs ctx n es sds li pub raw).expands ≤ 4 * n + 1 + G := by
  unfold Counting.receive
  refine free_le fun msg h1 => ?_
  cases hm : msg.wire_message with
  | PrivateMessage m =>
    dsimp only
    have hh := NumLeaves.height_bounds h0
    refine Nat.le_trans (bind_le (m := 4 * n - 3) (n := 4 + G) ?_ fun r h2 => ?_) (by omega)
    · unfold Counting.ratchetRoot
      refine Nat.le_trans (bind_le (m := 4 * n - 4) (n := 1) ?_ fun t _ => free_le fun ni _ => Nat.le_refl _) (by omega)
      rw [newTree_pow P cs n h0 hn]
      have := Counting.derive_children_le P cs (NumLeaves.height n) 0 33
        (SecretTree.setSecret (List.replicate (2 * (n - 1) + 1) none) (node (NumLeaves.height n) 0) es)
        (NumLeaves.height_lt h0 hn)
      omega
    · unfold Counting.decrypt_private_message
      refine Nat.le_trans (bind_le (m := 2) (n := G + 2) ?_ fun sd h3 => ?_) (by omega)
      · unfold Counting.decrypt_sender_data
        exact bind_le (m := 1) (n := 1) (Nat.le_refl _) fun _ _ => bind_le (m := 1) (n := 0) (Nat.le_refl _) fun _ _ =>
          free_le fun _ _ => free_le fun _ _ => free_le fun _ _ => Nat.le_refl _
      · rw [Counting.decrypt_sender_data_res] at h3
        have hg := hG msg m sd h1 hm h3
        have hr : r.generation = 0 := by
          rw [Counting.ratchetRoot_res] at h2
          unfold ratchetRoot SecretTree.derive_ratchet_root at h2
          simp only [Res.bind_ok_iff] at h2
          obtain ⟨_, _, _, _, _, _, _, _, _, _, h2⟩ := h2
          cases h2
          rfl
        refine bind_le ?_ fun y _ => ?_
        · have := Counting.seek_le P cs sd.generation 4294967296 r
          rw [hr, show (0 : UInt32).toNat = 0 from rfl, if_pos (Nat.zero_le _)] at this
          omega
        · refine Nat.le_trans (bind_le (m := 2) (n := 0) ?_ fun _ _ => free_le fun _ _ => Nat.le_refl _) (Nat.le_refl _)
          unfold Counting.decrypt_content
          refine bind_le (m := 2) (n := 0) ?_ fun kn _ => free_le fun _ _ => free_le fun _ _ => free_le fun _ _ => Nat.le_refl _
          unfold Counting.derive_private_message_key_and_nonce
          exact bind_le (m := 1) (n := 1) (Nat.le_refl _) fun _ _ => bind_le (m := 1) (n := 0) (Nat.le_refl _) fun _ _ =>
            Nat.le_refl _
  | _ => exact Nat.zero_le _

/-- C97: a message of anyone who does not have the secret of the group for sender data takes work in proportion to the
group. -/
theorem C97_outsiders (P : CryptoProvider) (cs : CipherSuite) (ctx : GroupContext) (n : Nat) (h0 : 0 < n) (hn : n ≤ 2 ^ 31)
    (es sds : Bytes) (li : Nat) (pub raw : Bytes)
    (hG : ∀ msg m sd, deserialize_exact MLSMessage.deserialize raw = .ok msg → msg.wire_message = .PrivateMessage m →
      m.decrypt_sender_data P cs sds ≠ .ok sd) :
    (Counting.receive P cs ctx n es sds li pub raw).expands ≤ 4 * n + 1 :=
  C97_partial P cs ctx n h0 hn es sds li pub raw 0 fun msg m sd h1 h2 h3 => absurd h3 (hG msg m sd h1 h2)

set_option maxRecDepth 100000 in
/-- A message with sender data that does not open: reading it is all that is done. -/
example : ∃ msg m, deserialize_exact MLSMessage.deserialize
      (mlsMessage ⟨.MLS10, .PrivateMessage ⟨[7], 3, .Application, [], [9, 9], [1, 2, 3, 4]⟩⟩).bytes = .ok msg ∧
    msg.wire_message = .PrivateMessage m ∧ (∀ sd, m.decrypt_sender_data toyProvider
      .MLS_128_DHKEMX25519_AES128GCM_SHA256_Ed25519 [6] ≠ .ok sd) ∧
    (Counting.receive toyProvider .MLS_128_DHKEMX25519_AES128GCM_SHA256_Ed25519 toyContext 2 [5, 5, 5, 5] [6] 1 [2, 2]
      (mlsMessage ⟨.MLS10, .PrivateMessage ⟨[7], 3, .Application, [], [9, 9], [1, 2, 3, 4]⟩⟩).bytes).expands = 5 := by
  refine ⟨⟨.MLS10, .PrivateMessage ⟨[7], 3, .Application, [], [9, 9], [1, 2, 3, 4]⟩⟩, _, by decide +kernel, rfl, ?_,
    by decide +kernel⟩
  have : PrivateMessage.decrypt_sender_data toyProvider .MLS_128_DHKEMX25519_AES128GCM_SHA256_Ed25519
    ⟨[7], 3, .Application, [], [9, 9], [1, 2, 3, 4]⟩ [6] = .err .Other := by decide +kernel
  intro sd
  rw [this]
  nofun

/-! ### when sending succeeds -/

/-- C97: what a sender needs for a message in any generation. -/
theorem C97_sends (P : CryptoProvider) (cs : CipherSuite) (h : Hpke) (hp : P.hpke cs = .ok h) (hs : Sizes h)
    (hT : Expander h) (K : Nat) (hK : K ≤ 31) (es sds : Bytes) (hes : h.kdf_extract_size ≤ es.length) (li : LeafIndex)
    (hli : li.toNat < 2 ^ K) (g : UInt32) (rnd priv : Bytes) (ctx : GroupContext) (epoch : UInt64) (gid : GroupID)
    (c : Content) (m : PrivateMessage) :
    send P cs ctx (2 ^ K) es sds li g rnd priv epoch gid c = .ok m ↔
      (m.group_id = gid ∧ m.epoch = epoch ∧ m.content_type = c.content_type ∧ m.authenticated_data = []) ∧
      (∃ s sg, MessageSecret h es K li.toNat c.content_type g.toNat s ∧
        (framedContentTBS .MLS10 .PrivateMessage ⟨gid, epoch, .Member li, [], c⟩ ctx).fits ∧
        Signs P cs priv (text "FramedContentTBS")
          (framedContentTBS .MLS10 .PrivateMessage ⟨gid, epoch, .Member li, [], c⟩ ctx).bytes sg ∧
        ContentSealed h s g.toNat rnd ⟨gid, epoch, .Member li, [], c⟩ sg m.ciphertext) ∧
      SenderDataSealed h sds ⟨li, g, rnd⟩ ⟨gid, epoch, .Member li, [], c⟩ m.ciphertext m.encrypted_sender_data := by
  obtain ⟨t, ht⟩ := (C35_succeeds P cs h hp hT (2 ^ K) (Nat.pow_le_pow_right (by omega) hK) es hes).1.2 ⟨K, rfl⟩
  have hsend : send P cs ctx (2 ^ K) es sds li g rnd priv epoch gid c =
      ((ratchetRoot P cs (2 ^ K) es li.toNat c.content_type >>= seek P cs g 4294967296) >>= fun secret =>
        PrivateMessage.new P cs priv secret sds ⟨gid, epoch, .Member li, [], c⟩ (SenderData.new rnd li g) ctx) := by
    unfold send
    rw [res_bind_assoc]
  rw [hsend, Res.bind_ok_iff]
  simp only [root_seek_iff hp hs hK ht hli, C38_built P cs h hp hs]
  constructor
  · rintro ⟨y, ⟨hy1, hy2⟩, h1, ⟨sg, h2, h3, h4⟩, h5⟩
    rw [hy1] at h4
    exact ⟨h1, ⟨y.secret, sg, hy2, h2, h3, h4⟩, h5⟩
  · rintro ⟨h1, ⟨s, sg, hy2, h2, h3, h4⟩, h5⟩
    exact ⟨⟨s, g⟩, ⟨rfl, hy2⟩, h1, ⟨sg, h2, h3, h4⟩, h5⟩

/-- C97: the sender of an accepted message decides how much it takes to read it. -/
theorem C97_chosen (P : CryptoProvider) (cs : CipherSuite) (h : Hpke) (hp : P.hpke cs = .ok h) (hs : Sizes h)
    (ha : AeadPair h) (K : Nat) (hK : K ≤ 31) (es sds : Bytes) (li : LeafIndex) (g : UInt32) (rnd : Bytes)
    (hr : rnd.length = 4) (priv pub : Bytes) (hk : SignaturePair P cs priv pub) (ctx : GroupContext) (epoch : UInt64)
    (gid : GroupID) (c : Content) (hc : c.WF) (m : PrivateMessage)
    (hm : send P cs ctx (2 ^ K) es sds li g rnd priv epoch gid c = .ok m) (b rest : Bytes)
    (hb : MLSMessage.serialize ⟨.MLS10, .PrivateMessage m⟩ = .ok b) :
    (Counting.receive P cs ctx (2 ^ K) es sds li.toNat pub (b ++ rest)).expands = 2 * (2 ^ K - 1) + 1 + g.toNat + 4 := by
  obtain ⟨auth, h1⟩ := C71_delivers P cs h hp hs ha _ es sds li g rnd hr priv pub hk ctx epoch gid c hc m hm b rest hb
  exact C97_exact P cs ctx K hK es sds li.toNat pub _ _ _ h1

/-! ### a small message that takes long -/

private abbrev suite1 : CipherSuite := .MLS_128_DHKEMX25519_AES128GCM_SHA256_Ed25519
private abbrev longContent : FramedContent := ⟨[7], 3, .Member 1, [], .Application [42]⟩
private abbrev longSignature : Bytes := [2, 2] ++ (labelled (text "FramedContentTBS")
  (framedContentTBS .MLS10 .PrivateMessage longContent toyContext).bytes).bytes
private abbrev longPlain : Bytes := (privateMessageContent ⟨longContent.content, ⟨longSignature, []⟩⟩).bytes
private abbrev longAAD : Bytes := (privateContentAAD ⟨[7], 3, .Application, []⟩).bytes

theorem opq_length {a b : Bytes} (h : a.length = b.length) : (opq a).bytes.length = (opq b).bytes.length := by
  simp only [opq, Enc.bytes, List.length_append, h]

theorem messageSecret_exists {P : CryptoProvider} {cs : CipherSuite} {h : Hpke} (hp : P.hpke cs = .ok h) (hs : Sizes h)
    (hT : Expander h) {K : Nat} (hK : K ≤ 31) (es : Bytes) (hes : h.kdf_extract_size ≤ es.length) {li : Nat} (hli : li < 2 ^ K)
    (ct : ContentType) (g : UInt32) : ∃ s, MessageSecret h es K li ct g.toNat s := by
  obtain ⟨tr, ht⟩ := (C35_succeeds P cs h hp hT (2 ^ K) (Nat.pow_le_pow_right (by omega) hK) es hes).1.2 ⟨K, rfl⟩
  obtain ⟨leaf, _, hleaf⟩ := (C35_secrets P cs h hp hs K hK es tr ht).2 0 li (by omega) (by simpa using hli)
  obtain ⟨root, hroot⟩ := hT.expands leaf (kdfLabel h.kdf_extract_size
    (text (if ct = .Application then "application" else "handshake")) []).bytes (UInt16.ofNat h.kdf_extract_size)
    (nodeSecret_long hT hes hleaf) (SecretTree.size_le h)
  have hrl := hT.long _ _ _ hroot
  have hf : (labelled (text (if ct = .Application then "application" else "handshake")) []).fits := by cases ct <;> decide
  obtain ⟨y, hy⟩ := ((C36_reach P cs h hp hs hT root hrl).1 g.toNat).2 g.toNat_lt
  rw [C36_generation P cs h hp hs] at hy
  exact ⟨y.secret, leaf, root, hleaf, ⟨hs.1, ⟨trivial, hf⟩, hroot⟩, hy.2⟩

theorem toy_expands (s l c : Bytes) (n : Nat) (hn : n < 2 ^ 16) (hl : l.length < 2 ^ 20) (hc : c.length < 2 ^ 20) :
    Expands toyHpke s l c n (List.replicate n (s.headD 0)) := by
  refine ⟨hn, ⟨trivial, ⟨trivial, ?_⟩, trivial, ?_⟩, ?_⟩
  · simp only [Enc.bytes, List.length_append, show (text "MLS 1.0 ").length = 8 from rfl]; omega
  · simp only [Enc.bytes]; omega
  · show Res.ok (List.replicate (UInt16.ofNat n).toNat _) = _
    rw [show (UInt16.ofNat n).toNat = n from Nat.mod_eq_of_lt hn]

set_option maxRecDepth 100000 in
/-- C97 fails: there are a group and a length such that for every generation there is a message of that length, which the
receiver accepts, and which takes at least as many derivations as the generation says: up to 2^32 - 1 for one message. -/
theorem C97_refuted : ∃ (P : CryptoProvider) (cs : CipherSuite) (ctx : GroupContext) (es sds pub : Bytes) (L : Nat),
    ∀ g : UInt32, ∃ raw sd ac, raw.length = L ∧ receive P cs ctx 2 es sds 1 pub raw = .ok (sd, ac) ∧
      (Counting.receive P cs ctx 2 es sds 1 pub raw).expands = g.toNat + 7 := by
  refine ⟨toyProvider, suite1, toyContext, [5, 5, 5, 5], [6], [2, 2], (mlsMessage ⟨.MLS10, .PrivateMessage ⟨[7], 3, .Application, [],
    zeros 51, zeros (28 + longAAD.length + longPlain.length)⟩⟩).bytes.length, fun g => ?_⟩
  obtain ⟨s, hsec⟩ := messageSecret_exists (P := toyProvider) (cs := suite1) rfl toy_sizes toy_expander (K := 1) (by decide)
    [5, 5, 5, 5] (by decide) (li := 1) (by decide) .Application g
  have hk : SignaturePair toyProvider suite1 [2, 2] [2, 2] := by
    intro s m sg h1 h2
    cases h1
    cases h2
    exact if_pos rfl
  have hsd : (⟨1, g, [1, 2, 3, 4]⟩ : SenderData).reuse_guard.length = 4 := rfl
  let cipher : Bytes := List.replicate 16 (s.headD 0) ++ guarded (List.replicate 12 (s.headD 0)) [1, 2, 3, 4] ++ longAAD ++
    longPlain
  let sealed : Bytes := List.replicate 16 6 ++ List.replicate 12 6 ++ (senderDataAAD ⟨[7], 3, .Application⟩).bytes ++
    (senderData ⟨1, g, [1, 2, 3, 4]⟩).bytes
  have hc : cipher.length = 28 + longAAD.length + longPlain.length := by
    simp only [cipher, guarded, List.length_append, List.length_replicate, List.length_zipWith, List.length_drop,
      List.length_cons, List.length_nil]
    omega
  have hl : sealed.length = 51 := by
    simp only [sealed, List.length_append, List.length_replicate]
    rfl
  have hm : send toyProvider suite1 toyContext (2 ^ 1) [5, 5, 5, 5] [6] 1 g [1, 2, 3, 4] [2, 2] 3 [7] (.Application [42]) =
      .ok ⟨[7], 3, .Application, [], sealed, cipher⟩ := by
    refine (C97_sends toyProvider suite1 toyHpke rfl toy_sizes toy_expander 1 (by decide) [5, 5, 5, 5] [6] (by decide) 1 (by decide) g [1, 2, 3, 4] [2, 2]
      toyContext 3 [7] (.Application [42]) _).2 ⟨⟨rfl, rfl, rfl, rfl⟩, ⟨s, longSignature, hsec, by decide, ⟨by decide, _, rfl, rfl⟩,
        List.replicate 16 (s.headD 0), guarded (List.replicate 12 (s.headD 0)) [1, 2, 3, 4],
        ⟨⟨g.toNat_lt, toy_expands _ _ _ 16 (by decide) (by decide) (by show 4 < _; decide)⟩, _,
          ⟨g.toNat_lt, toy_expands _ _ _ 12 (by decide) (by decide) (by show 4 < _; decide)⟩, by
            rw [List.length_replicate]; decide, rfl⟩,
        by decide, by decide, rfl⟩,
      List.replicate 16 6, List.replicate 12 6, ⟨toy_expands [6] _ _ 16 (by decide) (by decide) ?_,
        toy_expands [6] _ _ 12 (by decide) (by decide) ?_⟩, by decide, rfl⟩
    all_goals
      simp only [List.length_take]
      exact Nat.lt_of_le_of_lt (Nat.min_le_left _ _) (by decide)
  have hlp : 28 + longAAD.length + longPlain.length < 1073741824 := by decide +kernel
  have hb : MLSMessage.serialize ⟨.MLS10, .PrivateMessage ⟨[7], 3, .Application, [], sealed, cipher⟩⟩ = .ok _ :=
    (writes_ok_iff (mlsMessage_w ⟨.MLS10, .PrivateMessage ⟨[7], 3, .Application, [], sealed, cipher⟩⟩ trivial) _).2
      ⟨⟨trivial, trivial, ⟨trivial, by show 1 < _; decide⟩, trivial, trivial, ⟨trivial, by show 0 < _; decide⟩, ⟨trivial, by show sealed.length < _; omega⟩, trivial,
        by show cipher.length < _; omega⟩, rfl⟩
  obtain ⟨auth, h1⟩ := C71_delivers toyProvider suite1 toyHpke rfl toy_sizes toy_aeadPair 2 [5, 5, 5, 5] [6] 1 g [1, 2, 3, 4] rfl
    [2, 2] [2, 2] hk toyContext 3 [7] (.Application [42]) trivial _ hm _ [] hb
  refine ⟨_, _, _, ?_, h1, ?_⟩
  · rw [List.append_nil]
    simp only [mlsMessage, wireMessage, privateMessage, struct, Enc.bytes, List.length_append]
    rw [opq_length (a := sealed) (b := zeros 51) (by rw [hl]; rfl), opq_length (a := cipher)
      (b := zeros (28 + longAAD.length + longPlain.length)) (by rw [hc]; simp only [zeros, List.length_replicate])]
  · have := C97_exact toyProvider suite1 toyContext 1 (by decide) [5, 5, 5, 5] [6] 1 [2, 2] _ _ _ h1
    rw [show (Counting.receive toyProvider suite1 toyContext 2 [5, 5, 5, 5] [6] 1 [2, 2] _).expands = _ from this]
    show 2 * (2 ^ 1 - 1) + 1 + g.toNat + 4 = _
    omega

end Rmls
