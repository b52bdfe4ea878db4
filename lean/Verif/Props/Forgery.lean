import Verif.Props.Derivation
import Verif.Spec.Forgery
/-
Property C116: a private message that is accepted was sent.
-/
namespace Rmls
open Spec Spec.Enc Spec.Recipe MessageProtection

/-- The message was made by a member of the epoch, with the functions of the library. -/
def MadeBy (P : CryptoProvider) (cs : CipherSuite) (K : Nat) (es sds : Bytes) (x : Sent) : Prop :=
  x.sender_data.leaf_index.toNat < 2 ^ K ∧ x.sender_data.reuse_guard.length = 4 ∧ x.content.WF ∧
  x.content.sender = .Member x.sender_data.leaf_index ∧
  ∃ priv ctx r y, ratchetRoot P cs (2 ^ K) es x.sender_data.leaf_index.toNat x.content.content.content_type = .ok r ∧
    seek P cs x.sender_data.generation 4294967296 r = .ok y ∧
    PrivateMessage.new P cs priv y sds x.content x.sender_data ctx = .ok x.message

/-! ### encodings -/

private theorem contentType_pf : PrefixFree Spec.contentType (fun _ => True) :=
  ContentType.lawful.inj.prefixFree fun x _ => contentType_w x

private theorem senderData_pf : PrefixFree senderData (fun x => x.reuse_guard.length = 4) :=
  SenderData.lawful.inj.prefixFree fun x _ => senderData_w x

private theorem aad_apart {a : SenderDataAAD} {b : PrivateContentAAD} (fa : (senderDataAAD a).fits)
    (fb : (privateContentAAD b).fits) : (senderDataAAD a).bytes ≠ (privateContentAAD b).bytes := by
  intro h
  simp only [senderDataAAD, privateContentAAD, struct, Enc.bytes] at h fa fb
  obtain ⟨_, h⟩ := opq_pf.pre trivial trivial fa.1 fb.1 h
  obtain ⟨_, h⟩ := u64_pf.pre trivial trivial fa.2.1 fb.2.1 h
  rw [← List.append_nil (contentType a.content_type).bytes] at h
  obtain ⟨_, h⟩ := contentType_pf.pre trivial trivial fa.2.2 fb.2.2.1 h
  have := opq_pf.pre (x := b.authenticated_data) (y := []) (r := [0]) (r' := []) trivial trivial fb.2.2.2 (by decide)
    (by rw [← h]; rfl)
  exact absurd this.2 (by decide)

private theorem contentAAD_inj {a b : PrivateContentAAD} (fa : (privateContentAAD a).fits)
    (fb : (privateContentAAD b).fits) (h : (privateContentAAD a).bytes = (privateContentAAD b).bytes) : a = b := by
  have := (opq_pf.seq (u64_pf.seq (contentType_pf.seq opq_pf))).eq
    (x := (a.group_id, a.epoch, a.content_type, a.authenticated_data))
    (y := (b.group_id, b.epoch, b.content_type, b.authenticated_data)) ⟨trivial, trivial, trivial, trivial⟩
    ⟨trivial, trivial, trivial, trivial⟩ fa fb h
  cases a; cases b
  simp only [Prod.mk.injEq] at this
  obtain ⟨rfl, rfl, rfl, rfl⟩ := this
  rfl

private theorem senderAAD_inj {a b : SenderDataAAD} (fa : (senderDataAAD a).fits)
    (fb : (senderDataAAD b).fits) (h : (senderDataAAD a).bytes = (senderDataAAD b).bytes) : a = b := by
  have := (opq_pf.seq (u64_pf.seq contentType_pf)).eq
    (x := (a.group_id, a.epoch, a.content_type)) (y := (b.group_id, b.epoch, b.content_type)) ⟨trivial, trivial, trivial⟩
    ⟨trivial, trivial, trivial⟩ fa fb h
  cases a; cases b
  simp only [Prod.mk.injEq] at this
  obtain ⟨rfl, rfl, rfl⟩ := this
  rfl

private theorem content_unpadded {a b : PrivateMessageContent} (ha : a.WF) (hb : b.WF)
    (hct : a.content.content_type = b.content.content_type) (fa : (privateMessageContent a).fits)
    (fb : (privateMessageContent b).fits) {n : Nat}
    (h : (privateMessageContent a).bytes ++ zeros n = (privateMessageContent b).bytes) : a = b := by
  have h1 := (C39_padding a.content.content_type _ a []).2 ⟨rfl, ha, rfl, _, n, writes_ok (privateMessageContent_w a) fa, h.symm⟩
  have h2 := (C39_padding a.content.content_type _ b []).2 ⟨rfl, hb, hct.symm, _, 0, writes_ok (privateMessageContent_w b) fb,
    (List.append_nil _).symm⟩
  rw [h1] at h2
  injection h2 with h2
  injection h2

/-! ### keys -/

private theorem node_same_depth {h : Hpke} {r : Recipe} : ∀ {d i i' : Nat}, i < 2 ^ d → i' < 2 ^ d →
    (nodeRecipe h r d i).Same h (nodeRecipe h r d i') → i = i' := by
  intro d
  induction d with
  | zero => intro i i' hi hi' _; simp only [Nat.pow_zero, Nat.lt_one_iff] at hi hi'; omega
  | succ d ih =>
    intro i i' hi hi' hs
    obtain ⟨_, h1, _, h2⟩ := hs
    rw [Nat.pow_succ] at hi hi'
    have e := ih (by omega) (by omega) h2
    by_cases a : i % 2 = 0 <;> by_cases b : i' % 2 = 0
    · omega
    · rw [if_pos a, if_neg b] at h1; exact absurd h1 (by decide)
    · rw [if_neg a, if_pos b] at h1; exact absurd h1 (by decide)
    · omega

/-- In an epoch, equal message keys are of the same leaf and generation, or the KDF collides. -/
theorem epoch_key_unique {h : Hpke} {es : Bytes} {K li li' : Nat} (hli : li < 2 ^ K) (hli' : li' < 2 ^ K)
    {ct ct' : ContentType} {g g' : UInt32} {s s' key guard guard' nonce nonce' : Bytes} (h1 : MessageSecret h es K li ct g.toNat s)
    (h2 : ContentKeys h s g.toNat guard key nonce) (h1' : MessageSecret h es K li' ct' g'.toNat s')
    (h2' : ContentKeys h s' g'.toNat guard' key nonce') :
    Collide h (keyRecipe h (.given es) K li ct g.toNat) (keyRecipe h (.given es) K li' ct' g'.toNat) ∨
      li = li' ∧ g = g' ∧ s = s' := by
  have y : (Recipe.given es).Yields h es := rfl
  have z : (keyRecipe h (.given es) K li ct g.toNat).Yields h key := ⟨s, messageRecipe_of y h1, h2.1.2⟩
  have z' : (keyRecipe h (.given es) K li' ct' g'.toNat).Yields h key := ⟨s', messageRecipe_of y h1', h2'.1.2⟩
  rcases expand_back z z' with hx | ⟨_, c1, _, w, w1, w2⟩
  · exact .inl hx
  rcases same_or_collide _ _ w1 w2 with hx | c2
  · exact .inl (collide_expand hx)
  cases yields_unique _ w1 (messageRecipe_of y h1)
  cases yields_unique _ w2 (messageRecipe_of y h1')
  have hgg : g = g' := UInt32.toNat_inj.1 (uint4_inj h2.1.1 h2'.1.1 c1)
  subst hgg
  obtain ⟨_, _, _, c4⟩ := generation_same _ c2
  exact .inr ⟨node_same_depth hli hli' c4, rfl, rfl⟩

private theorem made_secret {P : CryptoProvider} {cs : CipherSuite} {h : Hpke} (hp : P.hpke cs = .ok h) (hs : Sizes h) {K : Nat}
    (hK : K ≤ 31) {es sds : Bytes} {x : Sent} (hx : MadeBy P cs K es sds x) :
    ∃ priv ctx y, y.generation = x.sender_data.generation ∧
      MessageSecret h es K x.sender_data.leaf_index.toNat x.content.content.content_type x.sender_data.generation.toNat y.secret ∧
      PrivateMessage.new P cs priv y sds x.content x.sender_data ctx = .ok x.message := by
  obtain ⟨h1, _, _, _, priv, ctx, r, y, k1, k2, k3⟩ := hx
  have ht : ∃ t, SecretTree.new P cs (2 ^ K) es = .ok t := by
    unfold ratchetRoot at k1
    obtain ⟨t, ht, _⟩ := Res.bind_ok_iff.1 k1
    exact ⟨t, ht⟩
  obtain ⟨t, ht⟩ := ht
  obtain ⟨k4, k5⟩ := (root_seek_iff hp hs hK ht h1 _ _ y).1 (Res.bind_ok_iff.2 ⟨r, k1, k2⟩)
  exact ⟨priv, ctx, y, k4, k5, k3⟩

/-- C116: what a receiver accepts as a private message, in an epoch, of the leaf that the sender data names, is byte for byte a
message that a member of the epoch has made: the same header, authenticated data, sender data, content and signature, and no
other bytes.  Otherwise something opens with a key of the epoch that none of the senders has sealed, or two calls of the KDF
collide that were made to derive two keys of the epoch. -/
theorem C116_sent (P : CryptoProvider) (cs : CipherSuite) (h : Hpke) (hp : P.hpke cs = .ok h) (hs : Sizes h)
    (K : Nat) (hK : K ≤ 31) (es sds : Bytes) (sent : List Sent)
    (hsent : ∀ x ∈ sent, MadeBy P cs K es sds x) (li : Nat) (hli : li < 2 ^ K) (pub : Bytes) (ctx : GroupContext) (raw : Bytes)
    (sd : SenderData) (ac : AuthenticatedContent) (hr : receive P cs ctx (2 ^ K) es sds li pub raw = .ok (sd, ac))
    (hsd : sd.leaf_index.toNat = li) :
    (∃ x ∈ sent, ∃ rest, raw = (mlsMessage ⟨.MLS10, .PrivateMessage x.message⟩).bytes ++ rest ∧ sd = x.sender_data ∧
      ac.wire_format = .PrivateMessage ∧ ac.content = x.content) ∨
    Forged h es sds K sent ∨
    ∃ x ∈ sent, ∃ ct, Collide h (keyRecipe h (.given es) K li ct sd.generation.toNat)
      (keyRecipe h (.given es) K x.sender_data.leaf_index.toNat x.content.content.content_type x.sender_data.generation.toNat) := by
  obtain ⟨m, rest, s, pc, hf, rfl, ⟨hg, k1, n1, r1, a1, a2, a3⟩, hms, ⟨hw, hct, k2, n2, z, b1, b2, b3, b4⟩, _, rfl⟩ :=
    C71_accepted P cs h hp hs K hK es sds li hli pub ctx raw sd ac hr
  by_cases hfo : Forged h es sds K sent
  · exact .inr (.inl hfo)
  have open1 : ∃ x ∈ sent, x.Seals h es sds K k1 n1 ((senderData sd).bytes ++ r1)
      (senderDataAAD ⟨m.group_id, m.epoch, m.content_type⟩).bytes m.encrypted_sender_data :=
    Classical.byContradiction fun hc => hfo ⟨_, _, _, _, _, .inr ⟨_, _, a1⟩, a3, fun x hx hxs => hc ⟨x, hx, hxs⟩⟩
  have open2 : ∃ x ∈ sent, x.Seals h es sds K k2 n2 ((privateMessageContent pc).bytes ++ zeros z)
      (privateContentAAD ⟨m.group_id, m.epoch, m.content_type, m.authenticated_data⟩).bytes m.ciphertext :=
    Classical.byContradiction fun hc => hfo ⟨_, _, _, _, _, .inl ⟨_, _, _, _, hli, hms, b1.1⟩, b4,
      fun x hx hxs => hc ⟨x, hx, hxs⟩⟩
  obtain ⟨x, hx, hxs, hx'⟩ := open2
  obtain ⟨x1, hx1, hs1, hx1'⟩ := open1
  have made := fun y hy => made_secret hp hs hK (hsent y hy)
  obtain ⟨priv, cx, y, m1, m2, m3⟩ := made x hx
  obtain ⟨⟨e1, e2, e3, e4⟩, ⟨sg, _, _, kk, nn, c1, c2, c3, c4⟩, ks, ns, d1, d2, d3⟩ := (C38_built P cs h hp hs _ _ _ _ _ _ _).1 m3
  obtain ⟨_, _, y1, m1', m2', m3'⟩ := made x1 hx1
  obtain ⟨_, ⟨sg1, _, _, _, _, _, _, c3', _⟩, ks', ns', d1', d2', d3'⟩ := (C38_built P cs h hp hs _ _ _ _ _ _ _).1 m3'
  rcases hx' with ⟨s', sg', f1, f2, f6, f3, f4, f5⟩ | ⟨_, _, f, _⟩
  case inr => exact absurd f.symm (aad_apart d2 b2)
  rcases hx1' with ⟨_, _, _, _, _, _, f, _⟩ | ⟨g1, g2, g3, g4⟩
  · exact absurd f (aad_apart a2 c3')
  rcases epoch_key_unique hli (hsent x hx).1 hms b1 f1 f2 with hcol | ⟨l1, l2, rfl⟩
  · exact .inr (.inr ⟨x, hx, _, hcol⟩)
  have hh := contentAAD_inj b2 c3 f4
  simp only [PrivateContentAAD.mk.injEq] at hh
  obtain ⟨q1, q2, q3, q4⟩ := hh
  have hpc : pc = ⟨x.content.content, ⟨sg', []⟩⟩ :=
    content_unpadded hw ⟨(hsent x hx).2.2.1, fun _ => rfl⟩ (hct.trans q3) b3 f6 f3
  have hguard : sd.reuse_guard = x.sender_data.reuse_guard := by
    obtain ⟨_, u, u1, u2, u3⟩ := b1
    obtain ⟨_, v, v1, v2, v3⟩ := f2
    rw [← l2] at v1
    cases u1.2.2.2.symm.trans v1.2.2.2
    exact guarded_inj (hg.trans (hsent x hx).2.1.symm) u2 v2 (u3.symm.trans v3)
  have hsdx : sd = x.sender_data := by
    cases sd
    simp only at hsd l2 hguard
    rw [hguard, l2, UInt32.toNat_inj.1 (hsd.trans l1)]
  have hr1 : r1 = [] := by
    rw [← List.append_nil (senderData x1.sender_data).bytes] at g2
    exact (senderData_pf.pre hg (hsent x1 hx1).2.1 (senderData_fits _) (senderData_fits _) g2).2
  have henc : m.encrypted_sender_data = x.message.encrypted_sender_data := by
    rw [← f5] at d1
    cases a1.1.2.2.symm.trans d1.1.2.2
    cases a1.2.2.2.symm.trans d1.2.2.2
    rw [hr1, List.append_nil, hsdx, q1, q2, q3, d3] at hs1
    injection hs1 with hs1
    exact hs1.symm
  have hm : m = x.message := by
    rw [← e1] at q1
    rw [← e2] at q2
    rw [← e3] at q3
    rw [← e4] at q4
    revert q1 q2 q3 q4 f5 henc
    cases m
    cases x.message
    rintro rfl rfl rfl rfl rfl rfl
    rfl
  refine .inl ⟨x, hx, rest, by rw [hm], hsdx, rfl, ?_⟩
  unfold contentOf
  rw [hpc, q1, q2, q4, hsdx, ← (hsent x hx).2.2.2.1]

/-- The messages of the sender of C71 and C72 are made by a member. -/
theorem C116_made (P : CryptoProvider) (cs : CipherSuite) (ctx : GroupContext) (K : Nat) (es sds : Bytes) (li : LeafIndex)
    (hli : li.toNat < 2 ^ K) (g : UInt32) (rnd : Bytes) (hr : rnd.length = 4) (priv : Bytes) (epoch : UInt64) (gid : GroupID)
    (c : Content) (hc : c.WF) (m : PrivateMessage) (hm : send P cs ctx (2 ^ K) es sds li g rnd priv epoch gid c = .ok m) :
    MadeBy P cs K es sds ⟨⟨gid, epoch, .Member li, [], c⟩, ⟨li, g, rnd⟩, m⟩ := by
  unfold send at hm
  simp only [Res.bind_ok_iff] at hm
  obtain ⟨r, h1, y, h2, h3⟩ := hm
  exact ⟨hli, hr, hc, rfl, priv, ctx, r, y, h1, h2, h3⟩

/-! ### an epoch in which nothing is forged -/

section examples
private abbrev suite1 : CipherSuite := .MLS_128_DHKEMX25519_AES128GCM_SHA256_Ed25519

/-- A seal in which everything that was sealed is found. -/
private def openSeal (key nonce plain aad : Bytes) : Res Bytes := .ok (closed key ++ (closed nonce ++ (closed aad ++ plain)))

private theorem openSeal_inj {key nonce plain plain' aad c : Bytes} (h : openSeal key nonce plain aad = .ok c)
    (h' : openSeal key nonce plain' aad = .ok c) : plain = plain' := by
  cases h
  injection h' with h'
  exact (closed_inj (closed_inj (closed_inj h').2).2).2.symm

private def sealHpke : Hpke := { freeHpke with aead_seal := openSeal }

/-- Only what was sent opens. -/
private noncomputable def idealHpke (sent : List Sent) (es sds : Bytes) (K : Nat) : Hpke :=
  { sealHpke with
    aead_open := fun key nonce c aad =>
      open Classical in
      if hx : ∃ plain, ∃ x ∈ sent, x.Seals sealHpke es sds K key nonce plain aad c then .ok hx.choose else .err .Other }

private theorem ideal_open {sent : List Sent} {es sds : Bytes} {K : Nat} {key nonce plain aad c : Bytes} :
    (idealHpke sent es sds K).aead_open key nonce c aad = .ok plain ↔
      ∃ x ∈ sent, x.Seals sealHpke es sds K key nonce plain aad c := by
  unfold idealHpke
  dsimp only
  constructor
  · intro h
    split at h
    · next hx => injection h with h; rw [← h]; exact hx.choose_spec
    · cases h
  · intro h
    have hx : ∃ plain, ∃ x ∈ sent, x.Seals sealHpke es sds K key nonce plain aad c := ⟨plain, h⟩
    rw [dif_pos hx]
    obtain ⟨_, _, k1, _⟩ := hx.choose_spec
    obtain ⟨_, _, k2, _⟩ := h
    rw [openSeal_inj k1 k2]

private theorem secret_ideal {sent : List Sent} {es es' sds : Bytes} {K K' li : Nat} {ct : ContentType} {g : Nat} {s : Bytes} :
    MessageSecret (idealHpke sent es' sds K') es K li ct g s ↔ MessageSecret sealHpke es K li ct g s := by
  have n1 : ∀ {k i s}, NodeSecret (idealHpke sent es' sds K') es K k i s → NodeSecret sealHpke es K k i s := by
    intro k i s h
    induction h with
    | root => exact .root
    | left _ e ih => exact .left ih e
    | right _ e ih => exact .right ih e
  have n2 : ∀ {k i s}, NodeSecret sealHpke es K k i s → NodeSecret (idealHpke sent es' sds K') es K k i s := by
    intro k i s h
    induction h with
    | root => exact .root
    | left _ e ih => exact .left ih e
    | right _ e ih => exact .right ih e
  have g1 : ∀ {r n s}, GenerationSecret (idealHpke sent es' sds K') r n s → GenerationSecret sealHpke r n s := by
    intro r n s h
    induction h with
    | first => exact .first
    | next _ e ih => exact .next ih e
  have g2 : ∀ {r n s}, GenerationSecret sealHpke r n s → GenerationSecret (idealHpke sent es' sds K') r n s := by
    intro r n s h
    induction h with
    | first => exact .first
    | next _ e ih => exact .next ih e
  exact ⟨fun ⟨l, r, a, b, c⟩ => ⟨l, r, n1 a, b, g1 c⟩, fun ⟨l, r, a, b, c⟩ => ⟨l, r, n2 a, b, g2 c⟩⟩

private theorem ideal_seals {sent : List Sent} {es sds : Bytes} {K : Nat} (x : Sent) (key nonce plain aad c : Bytes) :
    x.Seals (idealHpke sent es sds K) es sds K key nonce plain aad c ↔ x.Seals sealHpke es sds K key nonce plain aad c := by
  unfold Sent.Seals
  simp only [secret_ideal]
  exact Iff.rfl

private theorem ideal_forged (sent : List Sent) (es sds : Bytes) (K : Nat) :
    ¬ Forged (idealHpke sent es sds K) es sds K sent := by
  rintro ⟨key, nonce, plain, aad, c, _, h1, h2⟩
  obtain ⟨x, hx, hs⟩ := ideal_open.1 h1
  exact h2 x hx ((ideal_seals ..).2 hs)

private noncomputable def idealProvider (sent : List Sent) : CryptoProvider :=
  { toyProvider with hpke := fun _ => .ok (idealHpke sent [5, 5, 5, 5] [6] 2) }

private def sealProvider : CryptoProvider := { toyProvider with hpke := fun _ => .ok sealHpke }

private def sentResult : Res PrivateMessage :=
  send sealProvider suite1 toyContext 4 [5, 5, 5, 5] [6] 2 2 [1, 2, 3, 4] [2, 2] 3 [7] (.Application [42])

private def sentMessage : PrivateMessage :=
  match sentResult with
  | .ok m => m
  | _ => ⟨[], 0, .Application, [], [], []⟩

/-- The third of four members has sent application data in generation 2, and nobody has sent anything else. -/
private def theSent : Sent := ⟨⟨[7], 3, .Member 2, [], .Application [42]⟩, ⟨2, 2, [1, 2, 3, 4]⟩, sentMessage⟩

set_option maxRecDepth 100000 in
private theorem sent_ok : send (idealProvider [theSent]) suite1 toyContext (2 ^ 2) [5, 5, 5, 5] [6] 2 2 [1, 2, 3, 4] [2, 2] 3 [7]
    (.Application [42]) = .ok sentMessage := by decide +kernel

private theorem ideal_sizes (sent : List Sent) : Sizes (idealHpke sent [5, 5, 5, 5] [6] 2) :=
  ⟨show freeHpke.kdf_extract_size < 2 ^ 16 by decide, show freeHpke.aead_nonce_size < 2 ^ 16 by decide,
    show freeHpke.aead_key_size < 2 ^ 16 by decide⟩

private theorem ideal_expander (sent : List Sent) : Expander (idealHpke sent [5, 5, 5, 5] [6] 2) :=
  ⟨free_expander.expands, free_expander.long⟩

private theorem ideal_collide {sent : List Sent} (r r' : Recipe) : ¬ Collide (idealHpke sent [5, 5, 5, 5] [6] 2) r r' := by
  rintro ⟨c, c', o, _, _, hne, h1, h2⟩
  exact hne (free_call_inj (by cases c <;> exact h1) (by cases c' <;> exact h2))

set_option maxRecDepth 100000 in
private theorem sent_fits : (mlsMessage ⟨.MLS10, .PrivateMessage sentMessage⟩).fits := by decide +kernel

/-- The message is received, nothing is forged and nothing collides. -/
example : MadeBy (idealProvider [theSent]) suite1 2 [5, 5, 5, 5] [6] theSent ∧
    (∃ ac, receive (idealProvider [theSent]) suite1 toyContext (2 ^ 2) [5, 5, 5, 5] [6] 2 [2, 2]
      (mlsMessage ⟨.MLS10, .PrivateMessage sentMessage⟩).bytes = .ok (theSent.sender_data, ac) ∧ ac.content = theSent.content) ∧
    ¬ Forged (idealHpke [theSent] [5, 5, 5, 5] [6] 2) [5, 5, 5, 5] [6] 2 [theSent] ∧
    ∀ r r', ¬ Collide (idealHpke [theSent] [5, 5, 5, 5] [6] 2) r r' := by
  have hmade : MadeBy (idealProvider [theSent]) suite1 2 [5, 5, 5, 5] [6] theSent :=
    C116_made _ _ toyContext 2 [5, 5, 5, 5] [6] 2 (by decide) 2 [1, 2, 3, 4] rfl [2, 2] 3 [7] (.Application [42]) trivial _ sent_ok
  refine ⟨hmade, ?_, ideal_forged _ _ _ _, ideal_collide⟩
  have hs := ideal_sizes [theSent]
  have hp : (idealProvider [theSent]).hpke suite1 = .ok (idealHpke [theSent] [5, 5, 5, 5] [6] 2) := rfl
  have sent_ok' := sent_ok
  unfold send at sent_ok'
  simp only [Res.bind_ok_iff] at sent_ok'
  obtain ⟨r, h1, y, h2, m3⟩ := sent_ok'
  obtain ⟨⟨e1, e2, e3, e4⟩, ⟨sg, hf, ⟨_, sgn, hsgn, hsig⟩, kk, nn, c1, c2, c3, c4⟩, ks, ns, d1, d2, d3⟩ :=
    (C38_built _ _ _ hp hs _ _ _ _ _ _ _).1 m3
  have hk : SignaturePair (idealProvider [theSent]) suite1 [2, 2] [2, 2] := by
    intro s m sg h1 h2
    cases h1
    cases h2
    exact if_pos rfl
  have ht : ∃ t, SecretTree.new (idealProvider [theSent]) suite1 (2 ^ 2) [5, 5, 5, 5] = .ok t := by
    unfold ratchetRoot at h1
    obtain ⟨t, ht, _⟩ := Res.bind_ok_iff.1 h1
    exact ⟨t, ht⟩
  obtain ⟨t, ht⟩ := ht
  obtain ⟨k4, k5⟩ := (root_seek_iff hp hs (by decide) ht (li := 2) (by decide) _ _ y).1 (Res.bind_ok_iff.2 ⟨r, h1, h2⟩)
  rw [k4] at c1
  refine ⟨⟨.PrivateMessage, theSent.content, ⟨sg, []⟩⟩, (C71_exact _ _ _ hp hs (ideal_expander _) 2 (by decide) [5, 5, 5, 5] [6]
    (show 4 ≤ 4 by decide) 2
    (by decide) [2, 2] toyContext _ _ _).2 ⟨sentMessage, [], y.secret, ⟨.Application [42], ⟨sg, []⟩⟩, sent_fits,
    (List.append_nil _).symm, ⟨rfl, ks, ns, [], d1, ?_, ?_⟩, ?_, ⟨⟨trivial, fun _ => rfl⟩, e3.symm, kk, nn, 0, c1, ?_, c2, ?_⟩,
    ⟨?_, ?_⟩, ?_⟩, rfl⟩
  · rw [e1, e2, e3]; exact d2
  · rw [e1, e2, e3, List.append_nil, ideal_open]
    exact ⟨theSent, List.mem_singleton.2 rfl, d3, .inr ⟨d1, rfl, rfl, rfl⟩⟩
  · rw [e3]; exact k5
  · rw [e1, e2, e3, e4]; exact c3
  · rw [e1, e2, e3, e4, show zeros 0 = [] from rfl, List.append_nil, ideal_open]
    exact ⟨theSent, List.mem_singleton.2 rfl, c4, .inl ⟨y.secret, sg, secret_ideal.1 k5, c1, c2, rfl, rfl, rfl⟩⟩
  · unfold contentOf; rw [e1, e2, e4]; exact hf
  · unfold contentOf; rw [e1, e2, e4]; exact ⟨‹_›, sgn, hsgn, hk _ _ _ hsgn hsig⟩
  · unfold contentOf; rw [e1, e2, e4]; rfl

end examples
end Rmls
