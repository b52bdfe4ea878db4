import Verif.Spec.Tag
import Verif.Props.Public
/-
Property C118: the membership tag covers the whole message and the state of the group.
-/
namespace Rmls
open Spec Spec.Enc MessageProtection PassiveClient RatchetTree

private theorem auth_eq {c : Content} {a b : FramedContentAuthData} (ha : a.WF c.content_type) (hb : b.WF c.content_type)
    (fa : (framedContentAuthData c a).fits) (fb : (framedContentAuthData c b).fits)
    (h : (framedContentAuthData c a).bytes = (framedContentAuthData c b).bytes) : a = b := by
  obtain ⟨s, t⟩ := a
  obtain ⟨s', t'⟩ := b
  cases c with
  | Commit x =>
    have := (opq_pf.seq opq_pf).eq (x := (s, t)) (y := (s', t')) ⟨trivial, trivial⟩ ⟨trivial, trivial⟩ fa fb h
    injection this with h1 h2
    rw [h1, h2]
  | Application x =>
    obtain ⟨h1, _⟩ := opq_pf.pre trivial trivial fa.1 fb.1 h
    have e1 : t = [] := ha (by simp [Content.content_type])
    have e2 : t' = [] := hb (by simp [Content.content_type])
    rw [show s = s' from h1, e1, e2]
  | Proposal x =>
    obtain ⟨h1, _⟩ := opq_pf.pre trivial trivial fa.1 fb.1 h
    have e1 : t = [] := ha (by simp [Content.content_type])
    have e2 : t' = [] := hb (by simp [Content.content_type])
    rw [show s = s' from h1, e1, e2]

/-- C118: what a membership tag is computed from determines the whole content of the message with its sender, group, epoch and
authenticated data, the signature and the confirmation tag, and for members the state of the group. -/
theorem C118_covers (m m' : PublicMessage) (ctx ctx' : GroupContext) (hm : m.WF) (hm' : m'.WF) (hc : ContextCanonical ctx)
    (hc' : ContextCanonical ctx') (f : (authenticatedContentTBM m.content m.auth ctx).fits)
    (f' : (authenticatedContentTBM m'.content m'.auth ctx').fits)
    (h : (authenticatedContentTBM m.content m.auth ctx).bytes = (authenticatedContentTBM m'.content m'.auth ctx').bytes) :
    m.content = m'.content ∧ m.auth = m'.auth ∧ ((∃ i, m.content.sender = .Member i) → ctx = ctx') := by
  obtain ⟨_, _, h1, h2, h3⟩ := framedContentTBS_inj (v := .MLS10) (v' := .MLS10) trivial trivial hm.1 hm'.1 (fun _ => hc)
    (fun _ => hc') f.1 f'.1 h
  have wf' := hm'.2.1
  have f2 := f'.2
  rw [← h1] at h3 wf' f2
  refine ⟨h1, auth_eq hm.2.1 wf' f.2 f2 h3, ?_⟩
  rintro ⟨i, hi⟩
  exact h2 (by rw [hi]; trivial)

/-- C118: a public message of a member that is accepted in an epoch is, to the last byte of its signature and tags, one that
somebody has tagged with the membership key in this state of the group; otherwise it bears a valid tag on something that
nobody has tagged. -/
theorem C118_sent (P : CryptoProvider) (cs : CipherSuite) (Hs : Hash) (hP : P.hash cs = .ok Hs) (ctx : GroupContext)
    (hc : ContextCanonical ctx) (pub mkey raw : Bytes) (m : PublicMessage) (i : LeafIndex) (hi : m.content.sender = .Member i)
    (sent : List TaggedMessage) (hsent : ∀ x ∈ sent, x.By Hs.mac mkey) (hr : receivePublic P cs ctx pub mkey raw = .ok m) :
    (∃ rest, (⟨m, ctx⟩ : TaggedMessage) ∈ sent ∧ raw = (mlsMessage ⟨.MLS10, .PublicMessage m⟩).bytes ++ rest) ∨
      TagForged Hs.mac mkey sent m ctx := by
  obtain ⟨hw, ⟨rest, _, hraw⟩, ha⟩ := (C80_exact P cs ctx pub mkey raw m).1 hr
  obtain ⟨tag, h1, h2, h, h3, rfl⟩ := ha.member i hi
  rw [hP] at h3
  cases h3
  by_cases hx : ∃ x ∈ sent, x.input.bytes = (authenticatedContentTBM m.content m.auth ctx).bytes
  · obtain ⟨⟨m', ctx'⟩, hx, e⟩ := hx
    have hb := hsent _ hx
    obtain ⟨e1, e2, e3⟩ := C118_covers m' m ctx' ctx hb.wf hw hb.context hc hb.fits h2 e
    cases e3 hb.member
    have e4 := hb.tag
    rw [e, ← h1] at e4
    have : m' = m := by
      obtain ⟨a, b, c⟩ := m'
      obtain ⟨a', b', c'⟩ := m
      simp only at e1 e2 e4
      rw [e1, e2, e4]
    subst this
    exact .inl ⟨rest, hx, hraw⟩
  · exact .inr ⟨_, h1, rfl, fun x hx' e => hx ⟨x, hx', e⟩⟩

/-- C118: the same of a commit that the client handles, with the membership key of its epoch. -/
theorem C118_commit (P : CryptoProvider) (cs : CipherSuite) (h : Hpke) (hp : P.hpke cs = .ok h) (hs : Sizes h) (Hs : Hash)
    (hP : P.hash cs = .ok Hs) (s : State) (hc : ContextCanonical s.group_info.group_context) (hl : s.tree.length < 2 ^ 32)
    (hd : ∀ i j l m, s.tree.get (2 * i) = some (.Leaf l) → s.tree.get (2 * j) = some (.Leaf m) →
      l.payload.signature_key = m.payload.signature_key → i = j)
    (m : PublicMessage) (hw : m.WF) (r : RatchetTree × RatchetTree) (hr : handleCommit P cs s m = .ok r)
    (mkey : Bytes) (hk : Derives h s.epoch_secret (text "membership") mkey) (sent : List TaggedMessage)
    (hsent : ∀ x ∈ sent, x.By Hs.mac mkey) :
    (⟨m, s.group_info.group_context⟩ : TaggedMessage) ∈ sent ∨ TagForged Hs.mac mkey sent m s.group_info.group_context := by
  have hm : m.membership_tag ≠ none := by
    have : ∃ i, m.content.sender = .Member i := by
      unfold handleCommit at hr
      obtain ⟨_, _, hr⟩ := Res.bind_ok_iff.1 hr
      cases hx : m.content.sender with
      | Member i => exact ⟨i, rfl⟩
      | _ => rw [hx] at hr; cases hr
    intro hn
    have := hw.2.2.2 this
    rw [hn] at this
    cases this
  obtain ⟨c, ps, path, hk', _⟩ := (C68_exact_partial P cs h hp hs s hl hd m hm r.1 r.2).1 hr
  obtain ⟨key, tag, k1, h1, h2, H, h3, rfl⟩ := hk'.tag
  rw [hP] at h3
  cases h3
  have : key = mkey := by
    have := k1.2.2.symm.trans hk.2.2
    cases this; rfl
  subst this
  by_cases hx : ∃ x ∈ sent, x.input.bytes = (authenticatedContentTBM m.content m.auth s.group_info.group_context).bytes
  · obtain ⟨⟨m', ctx'⟩, hx, e⟩ := hx
    have hb := hsent _ hx
    obtain ⟨e1, e2, e3⟩ := C118_covers m' m ctx' _ hb.wf hw hb.context hc hb.fits h2 e
    cases e3 hb.member
    have e4 := hb.tag
    rw [e, ← h1] at e4
    have : m' = m := by
      obtain ⟨a, b, c⟩ := m'
      obtain ⟨a', b', c'⟩ := m
      simp only at e1 e2 e4
      rw [e1, e2, e4]
    subst this
    exact .inl hx
  · exact .inr ⟨_, h1, rfl, fun x hx' e => hx ⟨x, hx', e⟩⟩

/-- C118: what a member sends with the library is tagged in this sense. -/
theorem C118_made (P : CryptoProvider) (cs : CipherSuite) (Hs : Hash) (hP : P.hash cs = .ok Hs) (ctx : GroupContext)
    (hc : ContextCanonical ctx) (priv mkey : Bytes) (c : FramedContent) (hcw : c.WF) (i : LeafIndex) (hi : c.sender = .Member i)
    (m : PublicMessage) (hm : sendPublic P cs ctx priv mkey c = .ok m) :
    m.content = c ∧ (⟨m, ctx⟩ : TaggedMessage).By Hs.mac mkey := by
  unfold sendPublic PublicMessage.new at hm
  simp only [Res.bind_ok_iff, AuthenticatedContent.new_iff] at hm
  obtain ⟨m0, ⟨_, ⟨sg, rfl, hf, _⟩, h0⟩, hm⟩ := hm
  cases h0
  unfold PublicMessage.sign_membership_tag at hm
  simp only [hi] at hm
  rw [writes_bind_iff (authenticatedContentTBM_w _ ctx)] at hm
  obtain ⟨hg, h⟩ := hm
  obtain ⟨tag, h1, h2⟩ := Res.bind_ok_iff.1 h
  cases h2
  obtain ⟨H, h3, h4⟩ := (sign_mac_iff ..).1 h1
  rw [hP] at h3
  cases h3
  subst h4
  exact ⟨rfl, ⟨⟨hcw, fun _ => rfl, by simp [hi]⟩, ⟨i, hi⟩, hc, hg, rfl⟩⟩

/-- C118: with a MAC of which no two inputs have the same value under the key, a tag is accepted with one message in one state
of the group only. -/
theorem C118_one (P : CryptoProvider) (cs : CipherSuite) (Hs : Hash) (hP : P.hash cs = .ok Hs) (mkey : Bytes)
    (hinj : ∀ a b, Hs.mac mkey a = Hs.mac mkey b → a = b) (ctx ctx' : GroupContext) (hc : ContextCanonical ctx)
    (hc' : ContextCanonical ctx') (pub pub' raw raw' : Bytes) (m m' : PublicMessage) (i i' : LeafIndex)
    (hi : m.content.sender = .Member i) (hi' : m'.content.sender = .Member i')
    (hr : receivePublic P cs ctx pub mkey raw = .ok m) (hr' : receivePublic P cs ctx' pub' mkey raw' = .ok m')
    (ht : m.membership_tag = m'.membership_tag) : m = m' ∧ ctx = ctx' := by
  obtain ⟨hw, _, ha⟩ := (C80_exact P cs ctx pub mkey raw m).1 hr
  obtain ⟨hw', _, ha'⟩ := (C80_exact P cs ctx' pub' mkey raw' m').1 hr'
  obtain ⟨tag, h1, h2, h, h3, h4⟩ := ha.member i hi
  obtain ⟨tag', h1', h2', h', h3', h4'⟩ := ha'.member i' hi'
  rw [hP] at h3 h3'
  cases h3
  cases h3'
  rw [h1, h1', h4, h4', Option.some.injEq] at ht
  obtain ⟨e1, e2, e3⟩ := C118_covers m m' ctx ctx' hw hw' hc hc' h2 h2' (hinj _ _ ht)
  refine ⟨?_, e3 ⟨i, hi⟩⟩
  rw [← ht, ← h4] at h4'
  rw [h4'] at h1'
  rw [← h1'] at h1
  obtain ⟨a, b, c⟩ := m
  obtain ⟨a', b', c'⟩ := m'
  simp only at e1 e2 h1
  rw [e1, e2, h1]

section examples
private abbrev suite1 : CipherSuite := .MLS_128_DHKEMX25519_AES128GCM_SHA256_Ed25519

set_option maxRecDepth 100000 in
/-- A member sends a proposal; it is accepted, and it is in the list of what was tagged; and without it on the list, this is a
forgery. -/
example : ∃ m b, receivePublic toyProvider suite1 toyContext [9] [4] b = .ok m ∧ m.content.sender = .Member 2 ∧
    (∀ x ∈ [(⟨m, toyContext⟩ : TaggedMessage)], x.By toyHash.mac [4]) ∧ ¬ TagForged toyHash.mac [4] [⟨m, toyContext⟩] m toyContext ∧
    TagForged toyHash.mac [4] [] m toyContext := by
  obtain ⟨m, b, h1, _, h2, h3⟩ := sent_received toyContext [9] [4] ⟨[7], 3, .Member 2, [1], .Proposal (.Remove ⟨1⟩)⟩ trivial
    (by decide +kernel)
  have hb := (C118_made toyProvider suite1 toyHash rfl toyContext ⟨trivial, trivial, nofun⟩ [9] [4]
    ⟨[7], 3, .Member 2, [1], .Proposal (.Remove ⟨1⟩)⟩ trivial 2 rfl m h1).2
  refine ⟨m, b, h2, by rw [h3], by simpa using hb, ?_, ⟨_, hb.tag, rfl, by simp⟩⟩
  rintro ⟨_, _, e, h⟩
  exact h _ (List.mem_singleton.2 rfl) e.symm

/-- The MAC of the example provider has no collisions under a key. -/
example : ∀ a b, toyHash.mac [4] a = toyHash.mac [4] b → a = b := fun _ _ h => List.append_cancel_left h

set_option maxRecDepth 100000 in
/-- The commit of `joinState` is tagged with the membership key of its epoch. -/
example : (⟨commitOf 0 [.GroupContextExtensions ⟨[]⟩] rootPath joinInfo.group_context, joinInfo.group_context⟩ : TaggedMessage).By
      toyHash.mac (List.replicate 4 1) ∧ Derives toyHpke joinState.epoch_secret (text "membership") (List.replicate 4 1) := by
  refine ⟨⟨⟨⟨?_, ?_⟩, fun _ => rfl, by simp [commitOf]⟩, ⟨0, rfl⟩, ⟨trivial, trivial, nofun⟩, by decide +kernel, by decide +kernel⟩,
    by decide, by decide, rfl⟩
  · intro p hp
    cases hp with
    | head => exact nofun
    | tail _ hp => cases hp
  · intro p hp
    cases hp
    exact toyLeaf_wf 0

end examples

end Rmls
