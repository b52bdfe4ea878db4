import Verif.Spec.Invite
import Verif.Props.Client
import Verif.Props.Sending
/-
Property C120: whoever is let in can join and talk to the group.
-/
namespace Rmls
open Spec Spec.Enc MessageProtection RatchetTree PassiveClient

/-! ### the welcome can be made -/

private theorem opq_len (b : Bytes) : (opq b).bytes.length ≤ b.length + 4 := by
  simp only [opq, Enc.bytes, List.length_append]
  have : ((header b.length).getD []).length ≤ 4 := by
    unfold header
    split
    · exact show 1 ≤ 4 by decide
    · split
      · exact show 2 ≤ 4 by decide
      · split
        · exact show 4 ≤ 4 by decide
        · exact show 0 ≤ 4 by decide
  omega

/-- The group info of an invitation. -/
private def infoOf (v : Invitation) (tag signature : Bytes) : GroupInfo := ⟨v.context, v.extensions, tag, v.signer, signature⟩

private theorem info_fits {v : Invitation} (hv : v.Fits) {tag signature : Bytes} (ht : tag.length ≤ 256)
    (hg : signature.length ≤ 256) : (groupInfoTBS (infoOf v tag signature)).fits ∧ (groupInfo (infoOf v tag signature)).fits ∧
      (groupInfoTBS (infoOf v tag signature)).bytes.length + 500 < 2 ^ 30 ∧
      (groupInfo (infoOf v tag signature)).bytes.length + 200 < 2 ^ 30 := by
  have h1 := opq_len tag
  have h2 := opq_len signature
  have h3 := hv.info
  have a : (groupInfoTBS (infoOf v tag signature)).fits :=
    ⟨hv.context, hv.extensions, ⟨trivial, by show tag.length < _; omega⟩, trivial⟩
  have b : (groupInfoTBS (infoOf v tag signature)).bytes.length + 500 < 2 ^ 30 := by
    have e : (leafIndex v.signer).bytes.length = 4 := rfl
    simp only [groupInfoTBS, infoOf, struct, Enc.bytes, List.length_append, e] at h1 h3 ⊢
    omega
  refine ⟨a, ⟨a, trivial, by show signature.length < _; omega⟩, b, ?_⟩
  have c : (groupInfo (infoOf v tag signature)).bytes.length =
      (groupInfoTBS (infoOf v tag signature)).bytes.length + (opq signature).bytes.length := by
    simp only [groupInfo, struct, Enc.bytes, List.length_append]; rfl
  have d : (groupInfoTBS (infoOf v tag signature)).bytes.length ≤
      (groupContext v.context).bytes.length + (Spec.extensions v.extensions).bytes.length + 264 := by
    have e : (leafIndex v.signer).bytes.length = 4 := rfl
    simp only [groupInfoTBS, infoOf, struct, Enc.bytes, List.length_append, e] at h1 h3 ⊢
    omega
  omega

private theorem epochSecret_total {h : Hpke} (hs : Sizes h) (hX : Extractor h) (hT : Expander h) {ctx : GroupContext}
    (hf : (groupContext ctx).fits) (hl : (groupContext ctx).bytes.length < 2 ^ 30) {joiner : Bytes}
    (hj : h.kdf_extract_size ≤ joiner.length) (psk : Bytes) :
    ∃ e, EpochSecret h ctx joiner psk e ∧ h.kdf_extract_size ≤ e.length := by
  obtain ⟨x, hx⟩ := hX.extracts (pskInput h psk) joiner
  have hxl := hX.long _ _ _ hj hx
  obtain ⟨e, he⟩ := expands_exists hT (label := text "epoch") hxl hs.1 (by omega) (by decide) hl
  exact ⟨e, ⟨hf, x, hx, he⟩, hT.long _ _ _ he.2.2⟩

private theorem welcomeKeys_total {h : Hpke} (hs : Sizes h) (hX : Extractor h) (hT : Expander h) (hS : Sealer h)
    {joiner : Bytes} (hj : h.kdf_extract_size ≤ joiner.length) (psk : Bytes) :
    ∃ s key nonce, WelcomeSecret h joiner psk s ∧ Expands h s (text "key") [] h.aead_key_size key ∧
      Expands h s (text "nonce") [] h.aead_nonce_size nonce ∧ key.length = h.aead_key_size ∧
      nonce.length = h.aead_nonce_size := by
  obtain ⟨x, hx⟩ := hX.extracts (pskInput h psk) joiner
  have hxl := hX.long _ _ _ hj hx
  obtain ⟨s, hsec⟩ := expands_exists hT (label := text "welcome") (ctx := []) hxl hs.1 (by omega) (by decide) (by decide)
  have hsl := hT.long _ _ _ hsec.2.2
  obtain ⟨key, hkey⟩ := expands_exists hT (label := text "key") (ctx := []) hsl hs.2.2 hS.key_size (by decide) (by decide)
  obtain ⟨nonce, hnonce⟩ := expands_exists hT (label := text "nonce") (ctx := []) hsl hs.2.1 hS.nonce_size (by decide)
    (by decide)
  exact ⟨s, key, nonce, ⟨x, hx, hsec⟩, hkey, hnonce, expands_length hS hkey, expands_length hS hnonce⟩

private theorem makeInfo_iff {P : CryptoProvider} {cs : CipherSuite} {h : Hpke} (hp : P.hpke cs = .ok h) (hs : Sizes h)
    {Hs : Hash} (hP : P.hash cs = .ok Hs) {v : Invitation} (hctx : v.context.cipher_suite = cs) (hn : v.psk_ids.length < 2 ^ 16)
    (priv : Bytes) (gi : GroupInfo) (psk e : Bytes) :
    makeInfo P cs priv v = .ok (gi, psk, e) ↔
      (v.psk_ids.length = v.psks.length ∧
        PskFold h v.psk_ids.length 0 (zeros h.kdf_extract_size) (v.psk_ids.zip v.psks) psk) ∧
      EpochSecret h v.context v.joiner_secret psk e ∧ ∃ key signature, Derives h e (text "confirm") key ∧
      (groupInfoTBS gi).fits ∧ Signs P cs priv (text "GroupInfoTBS") (groupInfoTBS gi).bytes signature ∧
      gi = infoOf v (Hs.mac key v.context.confirmed_transcript_hash) signature := by
  have hd := fun e out => (C32_derived P cs h hp hs e out).2.2.2.2.1
  have hw : ∀ tag sg, groupInfoTBS (infoOf v tag []) = groupInfoTBS (infoOf v tag sg) := fun _ _ => rfl
  subst hctx
  unfold makeInfo CryptoProvider.sign_mac CryptoProvider.sign_with_label
  simp only [Res.bind_ok_iff, C33_fold_partial P _ h hp hs v.psk_ids v.psks hn, C32_epoch P v.context h hp hs, hP, hd,
    Res.ok_bind]
  constructor
  · rintro ⟨psk', h1, e', h2, key, h3, tag, h4, tbs, h5, sg, ⟨m, h6, s, h7, h8⟩, h9⟩
    cases h4
    cases h9
    obtain ⟨f1, rfl⟩ := (writes_ok_iff (groupInfoTBS_w _) _).1 h5
    obtain ⟨f2, rfl⟩ := (writes_ok_iff (mls_prefix_label_data_w _ _) _).1 h6
    exact ⟨h1, h2, key, sg, h3, f1, ⟨f2, s, h7, h8⟩, rfl⟩
  · rintro ⟨h1, h2, key, sg, h3, f1, ⟨f2, s, h7, h8⟩, rfl⟩
    exact ⟨psk, h1, e, h2, key, h3, _, rfl, _, (writes_ok_iff (groupInfoTBS_w _) _).2 ⟨f1, rfl⟩, sg,
      ⟨_, (writes_ok_iff (mls_prefix_label_data_w _ _) _).2 ⟨f2, rfl⟩, s, h7, h8⟩, rfl⟩

private theorem sealInfo_iff {P : CryptoProvider} {cs : CipherSuite} {h : Hpke} (hp : P.hpke cs = .ok h) (hs : Sizes h)
    (joiner psk : Bytes) (gi : GroupInfo) (out : Bytes) :
    sealInfo P cs joiner psk gi = .ok out ↔ (groupInfo gi).fits ∧ ∃ s key nonce, WelcomeSecret h joiner psk s ∧
      Expands h s (text "key") [] h.aead_key_size key ∧ Expands h s (text "nonce") [] h.aead_nonce_size nonce ∧
      h.aead_seal key nonce (groupInfo gi).bytes [] = .ok out := by
  unfold sealInfo
  rw [writes_bind_iff (groupInfo_w gi)]
  simp only [Res.bind_ok_iff, C32_welcome P cs h hp hs, hp, Res.ok_bind, expand_with_label_iff hp _ _ _ hs.2.2,
    expand_with_label_iff hp _ _ _ hs.2.1]
  constructor
  · rintro ⟨f, s, h1, key, h2, nonce, h3, h4⟩
    exact ⟨f, s, key, nonce, h1, h2, h3, h4⟩
  · rintro ⟨f, s, key, nonce, h1, h2, h3, h4⟩
    exact ⟨f, s, h1, key, h2, nonce, h3, h4⟩

private theorem invite_parts {P : CryptoProvider} {cs : CipherSuite} {priv : Bytes} {v : Invitation} {w : Welcome}
    {gi : GroupInfo} {psk e : Bytes} : invite P cs priv v = .ok (w, gi, psk, e) ↔ makeInfo P cs priv v = .ok (gi, psk, e) ∧
      sealInfo P cs v.joiner_secret psk gi = .ok w.encrypted_group_info ∧
      makeEntries P cs v w.encrypted_group_info v.invited = .ok w.secrets ∧ w.cipher_suite = cs := by
  unfold invite
  simp only [Res.bind_ok_iff]
  constructor
  · rintro ⟨⟨gi', psk', e'⟩, h1, sl, h2, es, h3, h4⟩
    cases h4
    exact ⟨h1, h2, h3, rfl⟩
  · rintro ⟨h1, h2, h3, rfl⟩
    exact ⟨_, h1, _, h2, _, h3, rfl⟩

private theorem makeEntries_total {P : CryptoProvider} {cs : CipherSuite} (hlab : CryptoProvider.labelSuite cs = true)
    {Hs : Hash} (hP : P.hash cs = .ok Hs) {v : Invitation} {sealed : Bytes} (hl : sealed.length < 2 ^ 30) (xs : List Invited)
    (hx : ∀ x ∈ xs, (groupSecrets (v.secrets x)).fits ∧ (groupSecrets (v.secrets x)).bytes.length < 2 ^ 31 ∧
      ((keyPackage x.kp).fits ∧ (keyPackage x.kp).bytes.length < 2 ^ 30) ∧ x.kp.payload.cipher_suite = cs ∧
      CanEncrypt P cs x.kp.payload.init_key) :
    ∃ es, makeEntries P cs v sealed xs = .ok es := by
  induction xs with
  | nil => exact ⟨_, rfl⟩
  | cons x xs ih =>
    obtain ⟨es, hes⟩ := ih fun y hy => hx y (.tail _ hy)
    obtain ⟨a1, a2, ⟨a3, a4⟩, a5, a6⟩ := hx x (.head _)
    obtain ⟨kem, ct, hs⟩ := a6 x.rnd (labelled (text "Welcome") sealed).bytes (groupSecrets (v.secrets x)).bytes a2
    obtain ⟨ref, href⟩ : ∃ ref, x.kp.generate_ref P = .ok ref :=
      ⟨_, (C56_ref P x.kp _).2 ⟨Hs, by rw [a5]; exact hP, a3, ⟨⟨trivial, by decide⟩, trivial, a4⟩, rfl⟩⟩
    have hent : makeEntry P cs v sealed x = .ok ⟨ref, ⟨kem, ct⟩⟩ := by
      unfold makeEntry CryptoProvider.encrypt_with_label
      rw [href, Res.ok_bind, (writes_ok_iff (groupSecrets_w _) _).2 ⟨a1, rfl⟩, Res.ok_bind,
        (writes_ok_iff (mls_prefix_label_data_w (text "Welcome") sealed) _).2 ⟨⟨⟨trivial, by decide⟩, trivial, hl⟩, rfl⟩,
        Res.ok_bind, if_pos hlab, hs]
      rfl
    refine ⟨⟨ref, ⟨kem, ct⟩⟩ :: es, ?_⟩
    unfold makeEntries
    rw [hent, Res.ok_bind, hes]
    rfl

/-- C120: a member can let others in: the welcome can be made. -/
theorem C120_invites (P : CryptoProvider) (cs : CipherSuite) (hcs : cs.WF) (hsuite : Spec.HpkeSuite cs) (h : Hpke)
    (hp : P.hpke cs = .ok h) (hs : Sizes h) (hX : Extractor h) (hT : Expander h) (hS : Sealer h) (hm : HasMac P cs)
    (v : Invitation) (hv : v.Fits) (hctx : v.context.cipher_suite = cs) (hn : v.psk_ids.length < 2 ^ 16)
    (hpsk : v.psk_ids.length = v.psks.length) (hj : h.kdf_extract_size ≤ v.joiner_secret.length) (priv : Bytes)
    (hsign : CanSign P cs priv)
    (hin : ∀ x ∈ v.invited, x.kp.payload.cipher_suite = cs ∧ CanEncrypt P cs x.kp.payload.init_key) :
    ∃ w gi psk e, invite P cs priv v = .ok (w, gi, psk, e) ∧ h.kdf_extract_size ≤ e.length := by
  obtain ⟨Hs, hP, hmac⟩ := hm
  obtain ⟨sg, hsg, hsigns⟩ := hsign
  obtain ⟨psk, hpo⟩ := C33_succeeds P cs h hp hX hT v.psk_ids v.psks hv.ids hpsk
  have hfold := (C33_fold_partial P cs h hp hs _ _ hn _).1 hpo
  have hi := hv.info
  obtain ⟨e, he, hel⟩ := epochSecret_total hs hX hT hv.context (by omega) hj psk
  obtain ⟨key, hkey⟩ := expands_exists hT (label := text "confirm") (ctx := []) hel hs.1 (by omega) (by decide) (by decide)
  obtain ⟨sig, hsig, hsl⟩ := hsigns (labelled (text "GroupInfoTBS")
    (groupInfoTBS (infoOf v (Hs.mac key v.context.confirmed_transcript_hash) [])).bytes).bytes
  obtain ⟨f1, f2, f3, f4⟩ := info_fits hv (hmac key v.context.confirmed_transcript_hash) hsl
  obtain ⟨s, k, n, w1, w2, w3, w4, w5⟩ := welcomeKeys_total hs hX hT hS hj psk
  obtain ⟨sealed, hse, hsel⟩ := hS.seals k n
    (groupInfo (infoOf v (Hs.mac key v.context.confirmed_transcript_hash) sig)).bytes [] w4 w5 (by omega) (by decide)
  obtain ⟨es, hes⟩ := makeEntries_total (sealed := sealed) ((labelSuite_iff _ hcs).2 hsuite) hP (by omega) v.invited
    fun x hx => ⟨(hv.secrets x hx).1, (hv.secrets x hx).2, hv.packages x hx, hin x hx⟩
  refine ⟨⟨cs, es, sealed⟩, _, psk, e, invite_parts.2 ⟨(makeInfo_iff hp hs hP hctx hn priv _ psk e).2
    ⟨hfold, he, key, sig, hkey, f1, ⟨⟨⟨trivial, by decide⟩, trivial, ?_⟩, sg, hsg, hsig⟩, rfl⟩,
    (sealInfo_iff hp hs _ psk _ _).2 ⟨f2, s, k, n, w1, w2, w3, hse⟩, hes, rfl⟩, hel⟩
  show (groupInfoTBS _).bytes.length < _
  omega

/-! ### everybody who was let in joins -/

private theorem entry_parts {P : CryptoProvider} {cs : CipherSuite} {v : Invitation} {sealed : Bytes} {x : Invited}
    {en : EncryptedGroupSecrets} (h : makeEntry P cs v sealed x = .ok en) : IsRef P x.kp en.new_member ∧
      (groupSecrets (v.secrets x)).fits ∧ P.encrypt_with_label x.rnd cs x.kp.payload.init_key (text "Welcome") sealed
        (groupSecrets (v.secrets x)).bytes =
        .ok (en.encrypted_group_secrets.kem_output, en.encrypted_group_secrets.ciphertext) := by
  unfold makeEntry at h
  simp only [Res.bind_ok_iff] at h
  obtain ⟨ref, h1, raw, h2, ⟨kem, ct⟩, h3, h4⟩ := h
  cases h4
  obtain ⟨f, rfl⟩ := (writes_ok_iff (groupSecrets_w _) _).1 h2
  exact ⟨(C56_ref P x.kp _).1 h1, f, h3⟩

private theorem entries_first {P : CryptoProvider} {cs : CipherSuite} {v : Invitation} {sealed : Bytes} {x : Invited}
    {before after : List Invited} (hb : ∀ y ∈ before, ∀ r, IsRef P y.kp r → ¬ IsRef P x.kp r) :
    ∀ {es : List EncryptedGroupSecrets}, makeEntries P cs v sealed (before ++ x :: after) = .ok es →
    ∃ en, makeEntry P cs v sealed x = .ok en ∧ FirstFor en.new_member es en := by
  induction before with
  | nil =>
    intro es h
    simp only [List.nil_append, makeEntries, Res.bind_ok_iff] at h
    obtain ⟨en, h1, rest, _, h3⟩ := h
    cases h3
    exact ⟨en, h1, [], rest, rfl, rfl, nofun⟩
  | cons y before ih =>
    intro es h
    simp only [List.cons_append, makeEntries, Res.bind_ok_iff] at h
    obtain ⟨ey, h1, rest, h2, h3⟩ := h
    cases h3
    obtain ⟨en, g1, b, a, rfl, g2, g3⟩ := ih (fun z hz => hb z (.tail _ hz)) h2
    refine ⟨en, g1, ey :: b, a, rfl, rfl, ?_⟩
    intro z hz
    rcases List.mem_cons.1 hz with rfl | hz
    · intro heq
      have := hb y (.head _) _ (entry_parts h1).1
      rw [heq] at this
      exact this (entry_parts g1).1
    · exact g3 z hz

/-- C120: everybody to whom a welcome is addressed joins with it, and has the secrets, the group info and the tree of the member
who made it.  `t` is the tree of this member, after any history in which every add found room; references of key packages are
different, at least from those of the packages before. -/
theorem C120_joins (P : CryptoProvider) (cs : CipherSuite) (hcs : cs.WF) (h : Hpke) (hp : P.hpke cs = .ok h) (hs : Sizes h)
    (ha : AeadPair h) (Hs : Hash) (hP : P.hash cs = .ok Hs)
    -- the group
    (founder : LeafNode) (evs : List TreeEvent) (t : RatchetTree) (ht : RoomSteps P cs [some (.Leaf founder)] evs t)
    (h0 : t ≠ []) (htw : t.NodesWF) (raw : Bytes) (hraw : RatchetTree.serialize t = .ok raw) (v : Invitation)
    (hctx : v.context.cipher_suite = cs) (hcw : v.context.WF) (hew : Extensions.WF v.extensions)
    (hext : FirstExtension .RatchetTree v.extensions raw) (hval : t.verify_integrity P v.context 0 = .ok ())
    -- the member who lets in
    (signer : LeafNode) (hsigner : t.get_leaf v.signer.toNat = .ok (some signer)) (priv : Bytes)
    (hk : SignaturePair P cs priv signer.payload.signature_key) (hn : v.psk_ids.length < 2 ^ 16) (w : Welcome) (gi : GroupInfo)
    (psk e : Bytes) (hw : invite P cs priv v = .ok (w, gi, psk, e))
    -- one of those who are let in
    (before after : List Invited) (x : Invited) (hx : v.invited = before ++ x :: after)
    (hb : ∀ y ∈ before, ∀ r, IsRef P y.kp r → ¬ IsRef P x.kp r) (hkw : x.kp.WF) (hkc : x.kp.payload.cipher_suite = cs) (i : Nat)
    (hi : t.get (2 * i) = some (.Leaf x.kp.payload.leaf_node)) (init_priv : Bytes)
    (hpair : HpkePair P cs init_priv x.kp.payload.init_key) (external : List (Bytes × Bytes))
    (hsup : Supplies external v.psk_ids v.psks) :
    gi.group_context = v.context ∧ v.context.extract_epoch_secret P v.joiner_secret psk = .ok e ∧
    ∃ u, join P cs w x.kp init_priv external none = .ok ⟨v.secrets x, psk, gi, u, i, e⟩ ∧ SameTree t u ∧
      ∀ y, t.get y = u.get y := by
  obtain ⟨h1, h2, h3, h4⟩ := invite_parts.1 hw
  obtain ⟨⟨_, hfold⟩, hep, key, sig, hkey, f1, ⟨f2, s, hs1, hs2⟩, hgi⟩ := (makeInfo_iff hp hs hP hctx hn priv gi psk e).1 h1
  obtain ⟨f3, ws, k, n, w1, w2, w3, w4⟩ := (sealInfo_iff hp hs _ psk gi _).1 h2
  rw [hx] at h3
  obtain ⟨en, e1, e2⟩ := entries_first hb h3
  obtain ⟨r1, r2, r3⟩ := entry_parts e1
  have hgc : gi.group_context = v.context := by rw [hgi]; rfl
  have hge : gi.extensions = v.extensions := by rw [hgi]; rfl
  have hgs : gi.signer = v.signer := by rw [hgi]; rfl
  have hgt : gi.confirmation_tag = Hs.mac key gi.group_context.confirmed_transcript_hash := by rw [hgi]; rfl
  have hgg : gi.signature = sig := by rw [hgi]; rfl
  refine ⟨hgc, (C32_epoch P v.context h (by rw [hctx]; exact hp) hs _ _ _).2 hep, ?_⟩
  refine C66_welcome P cs hcs h hp hs ha Hs hP founder evs t ht h0 htw raw hraw gi ⟨by rw [hgc]; exact hcw, by rw [hge]; exact hew⟩
    f3 (by rw [hgc]; exact hctx) (by rw [hge]; exact hext) (by rw [hgc]; exact hval) signer (by rw [hgs]; exact hsigner)
    ⟨f1, f2, s, by rw [hgc, hctx]; exact hs1, ?_⟩ x.kp hkw hkc i hi init_priv hpair external (v.secrets x) r2 v.psks hsup hn psk
    hfold e key (by rw [hgc]; exact hep) hkey hgt w h4 k n ⟨ws, w1, w2, w3⟩ w4 en e2 r1 x.rnd r3
  rw [hgg]
  exact hk s _ _ hs1 hs2

/-- C120: a member of a group, whatever its history, lets others in; everybody who is let in joins, and from then on they and the
members before them can send each other private messages: whoever has a leaf in the tree can send everything that fits, with
what they know, and everybody else reads it, with what they know. -/
theorem C120_talk (P : CryptoProvider) (cs : CipherSuite) (hcs : cs.WF) (hsuite : Spec.HpkeSuite cs) (h : Hpke)
    (hp : P.hpke cs = .ok h) (hs : Sizes h) (hX : Extractor h) (hT : Expander h) (hS : Sealer h) (ha : AeadPair h)
    (hm : HasMac P cs)
    -- the group
    (founder : LeafNode) (evs : List TreeEvent) (t : RatchetTree) (ht : RoomSteps P cs [some (.Leaf founder)] evs t)
    (h0 : t ≠ []) (htw : t.NodesWF) (raw : Bytes) (hraw : RatchetTree.serialize t = .ok raw) (v : Invitation) (hv : v.Fits)
    (hctx : v.context.cipher_suite = cs) (hcw : v.context.WF) (hew : Extensions.WF v.extensions)
    (hext : FirstExtension .RatchetTree v.extensions raw) (hval : t.verify_integrity P v.context 0 = .ok ())
    -- the member who lets in
    (signer : LeafNode) (hsigner : t.get_leaf v.signer.toNat = .ok (some signer)) (priv : Bytes)
    (hk : SignaturePair P cs priv signer.payload.signature_key) (hsign : CanSign P cs priv) (hn : v.psk_ids.length < 2 ^ 16)
    (hj : h.kdf_extract_size ≤ v.joiner_secret.length) (external : List (Bytes × Bytes))
    (hsup : Supplies external v.psk_ids v.psks)
    -- those who are let in
    (hin : ∀ x ∈ v.invited, x.kp.WF ∧ x.kp.payload.cipher_suite = cs ∧ CanEncrypt P cs x.kp.payload.init_key ∧
      ∃ i, t.get (2 * i) = some (.Leaf x.kp.payload.leaf_node)) :
    ∃ w gi psk e, invite P cs priv v = .ok (w, gi, psk, e) ∧
      ∀ before x after, v.invited = before ++ x :: after → (∀ y ∈ before, ∀ r, IsRef P y.kp r → ¬ IsRef P x.kp r) →
      ∀ init_priv, HpkePair P cs init_priv x.kp.payload.init_key →
      ∃ s, join P cs w x.kp init_priv external none = .ok s ∧ s.epoch_secret = e ∧ s.group_info.group_context = v.context ∧
        s.group_secrets = v.secrets x ∧ t.get (2 * s.leaf) = some (.Leaf x.kp.payload.leaf_node) ∧
        ∀ (li : LeafIndex) (leaf : LeafNode), t.get (2 * li.toNat) = some (.Leaf leaf) →
        ∀ key, SignaturePair P cs key leaf.payload.signature_key → CanSign P cs key →
        ∀ (g : UInt32) (rnd : Bytes), rnd.length = 4 → ∀ (epoch : UInt64) (gid : GroupID) (c : Content), c.WF →
        Sendable .PrivateMessage ⟨gid, epoch, .Member li, [], c⟩ v.context →
        ∃ es sds m b, P.derive_secret cs e SECRET_LABEL_ENCRYPTION = .ok es ∧
          P.derive_secret cs e SECRET_LABEL_SENDER_DATA = .ok sds ∧
          (∀ sender, sender = t ∨ sender = s.tree →
            send P cs v.context sender.num_leaves es sds li g rnd key epoch gid c = .ok m) ∧
          MLSMessage.serialize ⟨.MLS10, .PrivateMessage m⟩ = .ok b ∧
          ∀ receiver, receiver = t ∨ receiver = s.tree → ∀ rest, ∃ leaf' auth,
            receiver.get_leaf li.toNat = .ok (some leaf') ∧
            receive P cs v.context receiver.num_leaves es sds li.toNat leaf'.payload.signature_key (b ++ rest) =
              .ok (⟨li, g, rnd⟩, ⟨.PrivateMessage, ⟨gid, epoch, .Member li, [], c⟩, auth⟩) := by
  obtain ⟨w, gi, psk, e, hw, hel⟩ := C120_invites P cs hcs hsuite h hp hs hX hT hS hm v hv hctx hn (supplies_length hsup) hj
    priv hsign fun x hx => ⟨(hin x hx).2.1, (hin x hx).2.2.1⟩
  refine ⟨w, gi, psk, e, hw, fun before x after hx hb init_priv hpair => ?_⟩
  obtain ⟨Hs, hP, _⟩ := hm
  obtain ⟨x1, x2, _, i, x4⟩ := hin x (by rw [hx]; simp)
  obtain ⟨k1, k2, u, k3, k4, k5⟩ := C120_joins P cs hcs h hp hs ha Hs hP founder evs t ht h0 htw raw hraw v hctx hcw hew hext hval
    signer hsigner priv hk hn w gi psk e hw before after x hx hb x1 x2 i x4 init_priv hpair external hsup
  refine ⟨_, k3, rfl, k1, rfl, x4, fun li leaf hleaf key hkey hks g rnd hr epoch gid c hc hfit => ?_⟩
  exact C119_members P cs h hp hs hT hS ha founder t u evs ht k4 e hel li leaf hleaf key hkey hks g rnd hr v.context epoch gid c
    hc hfit

section examples
private abbrev suite1 : CipherSuite := .MLS_128_DHKEMX25519_AES128GCM_SHA256_Ed25519
private abbrev rust : CryptoProvider := RustCryptoProvider boundedPrimitives

/-- A leaf whose private key is 32 times `k`. -/
def inviteLeaf (k : UInt8) (source : LeafNodeSource) : LeafNode :=
  ⟨{ (toyLeaf k).payload with signature_key := List.replicate 32 (k + 1), leaf_node_source := source }, List.replicate 64 (k + 1)⟩
def inviteTree : RatchetTree :=
  [some (.Leaf (inviteLeaf 0 .Update)), none, some (.Leaf (inviteLeaf 1 (.KeyPackage ⟨0, 100⟩))), none,
    some (.Leaf (inviteLeaf 2 (.KeyPackage ⟨0, 100⟩))), none, none]
def inviteRaw : Bytes :=
  match RatchetTree.serialize inviteTree with
  | .ok b => b
  | _ => []
def invitePackage (k : UInt8) : KeyPackage := ⟨⟨.MLS10, suite1, [k], inviteLeaf k (.KeyPackage ⟨0, 100⟩), []⟩, []⟩
/-- The founder lets in two others, with a PSK. -/
def inviteTwo : Invitation where
  context := { toyContext with tree_hash := treeHash id inviteTree.get 2 0 }
  extensions := [⟨.ApplicationId, [1]⟩, ⟨.RatchetTree, inviteRaw⟩]
  signer := 0
  joiner_secret := List.replicate 32 4
  psk_ids := [⟨.External [1], [2]⟩]
  psks := [[5]]
  invited := [⟨invitePackage 1, [6], none⟩, ⟨invitePackage 2, [7], some [8]⟩]

private theorem invite_fits : inviteTwo.Fits where
  context := by decide +kernel
  extensions := by decide +kernel
  info := by decide +kernel
  ids := by decide +kernel
  secrets x hx := by
    simp only [inviteTwo, List.mem_cons, List.not_mem_nil, or_false] at hx
    rcases hx with rfl | rfl <;> decide +kernel
  packages x hx := by
    simp only [inviteTwo, List.mem_cons, List.not_mem_nil, or_false] at hx
    rcases hx with rfl | rfl <;> decide +kernel

private theorem inviteLeaf_wf (k : UInt8) (source : LeafNodeSource) : (inviteLeaf k source).WF := toyLeaf_wf k

private theorem rust_hpkePair (k : Bytes) : HpkePair rust suite1 k k := by
  intro r i p kem c h
  cases h
  show (if (k ++ i).isPrefixOf (k ++ i ++ p) then _ else _) = _
  rw [if_pos (List.isPrefixOf_iff_prefix.2 (List.prefix_append _ _)), List.drop_left]

private theorem invited_ok (k : UInt8) : (invitePackage k).WF ∧ CanEncrypt rust suite1 [k] :=
  ⟨⟨trivial, trivial, inviteLeaf_wf k _, nofun⟩, fun _ _ _ _ => ⟨_, _, rfl⟩⟩

private theorem invite_nodes : inviteTree.NodesWF := by
  intro n hn
  simp only [inviteTree, List.mem_cons, Option.some.injEq, List.not_mem_nil, or_false, reduceCtorEq, false_or] at hn
  rcases hn with rfl | rfl | rfl <;> exact inviteLeaf_wf _ _

private theorem invite_exts : Extensions.WF inviteTwo.extensions := by
  intro e he
  simp only [inviteTwo, List.mem_cons, List.not_mem_nil, or_false] at he
  rcases he with rfl | rfl <;> trivial

private theorem invite_in : ∀ x ∈ inviteTwo.invited, x.kp.WF ∧ x.kp.payload.cipher_suite = suite1 ∧
    CanEncrypt rust suite1 x.kp.payload.init_key ∧ ∃ i, inviteTree.get (2 * i) = some (.Leaf x.kp.payload.leaf_node) := by
  intro x hx
  simp only [inviteTwo, List.mem_cons, List.not_mem_nil, or_false] at hx
  rcases hx with rfl | rfl
  · exact ⟨(invited_ok 1).1, rfl, (invited_ok 1).2, 1, rfl⟩
  · exact ⟨(invited_ok 2).1, rfl, (invited_ok 2).2, 2, rfl⟩

set_option maxRecDepth 100000 in
private theorem invite_refs : ∀ y ∈ [(⟨invitePackage 1, [6], none⟩ : Invited)], ∀ r, IsRef rust y.kp r →
    ¬ IsRef rust (invitePackage 2) r := by
  intro y hy r h1 h2
  rw [List.mem_singleton] at hy
  subst hy
  obtain ⟨a, ha, _, _, e1⟩ := h1
  obtain ⟨b, hb, _, _, e2⟩ := h2
  cases ha
  cases hb
  exact absurd (e1.symm.trans e2) (by decide +kernel)

set_option maxRecDepth 100000 in
/-- Two members are let in, and join. -/
example : ∃ w gi psk e s1 s2, invite rust suite1 (List.replicate 32 0) inviteTwo = .ok (w, gi, psk, e) ∧
    join rust suite1 w (invitePackage 1) [1] [([1], [5])] none = .ok s1 ∧
    join rust suite1 w (invitePackage 2) [2] [([1], [5])] none = .ok s2 ∧ s1.epoch_secret = e ∧ s2.epoch_secret = e := by
  obtain ⟨h, sg, kp, hp, hsg, hkp, hz, hX, hS, hm, hsign, hpair, ha⟩ := C119_providers boundedPrimitives boundedPrimitives_lawful
    boundedPrimitives_sized rust (.inl rfl) suite1 rfl [0]
  have hE := (C48_expander boundedPrimitives rust (.inl rfl) suite1 h hp boundedPrimitives_sized.hkdf
    boundedPrimitives_sized.hmac).2
  cases hsg
  cases hkp
  have hsize : h.kdf_extract_size = 32 := by cases hp; rfl
  obtain ⟨w, gi, psk, e, hw, hall⟩ := C120_talk rust suite1 trivial (.inl rfl) h hp hz hE hX hS (ha rfl) hm
    (inviteLeaf 0 .Update) [.add (inviteLeaf 1 (.KeyPackage ⟨0, 100⟩)), .add (inviteLeaf 2 (.KeyPackage ⟨0, 100⟩))] inviteTree
    (.cons ⟨.inr (by decide), rfl⟩ (.inr (by decide)) (.cons ⟨.inr (by decide), rfl⟩ (.inr (by decide)) (.nil _))) (by decide)
    invite_nodes inviteRaw (by decide +kernel) inviteTwo invite_fits rfl ⟨rfl, trivial, nofun⟩ invite_exts
    ⟨[⟨.ApplicationId, [1]⟩], [], rfl, by decide⟩ (by decide +kernel) (inviteLeaf 0 .Update) (by decide +kernel)
    (List.replicate 32 0) hpair hsign (by decide) (by rw [hsize]; decide) [([1], [5])]
    (.cons (before := []) (after := []) rfl (by decide) .nil) invite_in
  obtain ⟨s1, h1, e1, _⟩ := hall [] ⟨invitePackage 1, [6], none⟩ [⟨invitePackage 2, [7], some [8]⟩] rfl nofun [1] (rust_hpkePair _)
  obtain ⟨s2, h2, e2, _⟩ := hall [⟨invitePackage 1, [6], none⟩] ⟨invitePackage 2, [7], some [8]⟩ [] rfl invite_refs [2] (rust_hpkePair _)
  exact ⟨w, gi, psk, e, s1, s2, hw, h1, h2, e1, e2⟩
end examples

end Rmls
