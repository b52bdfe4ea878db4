import Verif.Model.Receiver
import Verif.Spec.Receiver
import Verif.Props.Client
import Verif.Props.Joiner
import Verif.Props.PrivateMessage
/-
Property C71: the members of an epoch read each other's private messages.
-/
namespace Rmls
open Spec Spec.Enc MessageProtection PassiveClient RatchetTree

/-! ### the loop that looks for the generation -/

theorem bind_id {α : Type} (x : Res α) : (x >>= fun a => Res.ok a) = x := by cases x <;> rfl

theorem bind_congr_ok {α β : Type} {x : Res α} {f g : α → Res β} (h : ∀ a, x = .ok a → f a = g a) :
    (x >>= f) = (x >>= g) := by
  cases x with
  | ok a => exact h a rfl
  | err e => rfl
  | fault f => rfl

theorem res_bind_assoc {α β γ : Type} (x : Res α) (f : α → Res β) (g : β → Res γ) :
    ((x >>= f) >>= g) = (x >>= fun a => f a >>= g) := by cases x <;> rfl

theorem derive_next_generation {P : CryptoProvider} {cs : CipherSuite} {x y : RatchetSecret}
    (h : x.derive_next P cs = .ok y) : y.generation.toNat = x.generation.toNat + 1 := by
  unfold RatchetSecret.derive_next at h
  simp only [Res.bind_ok_iff] at h
  obtain ⟨_, _, s, _, h⟩ := h
  split at h
  · cases h
  · next hne =>
    cases h
    have : x.generation.toNat ≠ 4294967295 := fun hc => hne (UInt32.toNat_inj.1 hc)
    have hlt := x.generation.toNat_lt
    rw [UInt32.toNat_add]
    show (x.generation.toNat + 1) % 2 ^ 32 = _
    omega

theorem advance_generation {P : CryptoProvider} {cs : CipherSuite} {x : RatchetSecret} : ∀ n y,
    RatchetSecret.advance P cs n x = .ok y → y.generation.toNat = x.generation.toNat + n := by
  intro n
  induction n with
  | zero => intro y h; cases h; rfl
  | succ n ih =>
    intro y h
    unfold RatchetSecret.advance at h
    rw [Res.bind_ok_iff] at h
    obtain ⟨z, h1, h2⟩ := h
    rw [derive_next_generation h2, ih z h1]
    omega

theorem seek_advance (P : CryptoProvider) (cs : CipherSuite) (g : UInt32) (x : RatchetSecret) (hx : x.generation = 0) :
    ∀ m n fuel, n + m = g.toNat → m ≤ fuel →
      (RatchetSecret.advance P cs n x >>= seek P cs g fuel) = RatchetSecret.advance P cs g.toNat x := by
  intro m
  induction m with
  | zero =>
    intro n fuel hn _
    rw [← hn, Nat.add_zero]
    refine Eq.trans (bind_congr_ok (g := fun a => Res.ok a) fun y hy => ?_) (bind_id _)
    have hg := advance_generation n y hy
    rw [hx] at hg
    unfold seek
    rw [if_pos (UInt32.toNat_inj.1 (by rw [hg, ← hn]; simp))]
  | succ m ih =>
    intro n fuel hn hf
    obtain ⟨fuel, rfl⟩ : ∃ f, fuel = f + 1 := ⟨fuel - 1, by omega⟩
    rw [← ih (n + 1) fuel (by omega) (by omega)]
    show _ = (RatchetSecret.advance P cs n x >>= RatchetSecret.derive_next P cs) >>= seek P cs g fuel
    rw [res_bind_assoc]
    refine bind_congr_ok fun y hy => ?_
    have hg := advance_generation n y hy
    rw [hx] at hg
    rw [seek]
    rw [if_neg]
    intro hc
    rw [hc] at hg
    simp only [UInt32.toNat_zero] at hg
    omega

/-- C71: the receiver's loop moves the ratchet forward as many times as the generation says, and ends. -/
theorem C71_loop (P : CryptoProvider) (cs : CipherSuite) (g : UInt32) (s : Bytes) :
    seek P cs g 4294967296 ⟨s, 0⟩ = RatchetSecret.advance P cs g.toNat ⟨s, 0⟩ := by
  have := seek_advance P cs g ⟨s, 0⟩ rfl g.toNat 0 4294967296 (by omega) (by have := g.toNat_lt; omega)
  exact this

theorem nodeSecret_of_tree {P : CryptoProvider} {cs : CipherSuite} {h : Hpke} (hp : P.hpke cs = .ok h) (hs : Sizes h)
    {K : Nat} (hK : K ≤ 31) {es : Bytes} {t : SecretTree} (ht : SecretTree.new P cs (2 ^ K) es = .ok t) {li : Nat}
    (hli : li < 2 ^ K) (s : Bytes) : t[2 * li]? = some (some s) ↔ NodeSecret h es K 0 li s := by
  obtain ⟨s', h1, h2⟩ := (C35_secrets P cs h hp hs K hK es t ht).2 0 li (by omega) (by simpa using hli)
  rw [node_zero] at h1
  rw [h1]
  constructor
  · intro h; cases h; exact h2
  · intro hn; rw [C35_unique h es K 0 li s s' hn h2]

theorem ratchetRoot_iff {P : CryptoProvider} {cs : CipherSuite} {h : Hpke} (hp : P.hpke cs = .ok h) (hs : Sizes h)
    {K : Nat} (hK : K ≤ 31) {es : Bytes} {t : SecretTree} (ht : SecretTree.new P cs (2 ^ K) es = .ok t) {li : Nat}
    (hli : li < 2 ^ K) (ct : ContentType) (r : RatchetSecret) :
    ratchetRoot P cs (2 ^ K) es li ct = .ok r ↔ r.generation = 0 ∧ ∃ leaf, NodeSecret h es K 0 li leaf ∧
      Expands h leaf (text (if ct = .Application then "application" else "handshake")) [] h.kdf_extract_size r.secret := by
  have hle : 2 ^ K ≤ 2 ^ 31 := Nat.pow_le_pow_right (by omega) hK
  unfold ratchetRoot
  rw [ht, Res.ok_bind, node_index_eq (by omega), Res.ok_bind, C35_ratchet_root P cs h hp hs]
  simp only [nodeSecret_of_tree hp hs hK ht hli]
  constructor
  · rintro ⟨s, h1, h2, h3⟩; exact ⟨h2, s, h1, h3⟩
  · rintro ⟨h2, s, h1, h3⟩; exact ⟨s, h1, h2, h3⟩

/-- From the root of the ratchet to a generation. -/
theorem root_seek_iff {P : CryptoProvider} {cs : CipherSuite} {h : Hpke} (hp : P.hpke cs = .ok h) (hs : Sizes h)
    {K : Nat} (hK : K ≤ 31) {es : Bytes} {t : SecretTree} (ht : SecretTree.new P cs (2 ^ K) es = .ok t) {li : Nat}
    (hli : li < 2 ^ K) (ct : ContentType) (g : UInt32) (y : RatchetSecret) :
    (ratchetRoot P cs (2 ^ K) es li ct >>= seek P cs g 4294967296) = .ok y ↔
      y.generation = g ∧ MessageSecret h es K li ct g.toNat y.secret := by
  rw [Res.bind_ok_iff]
  simp only [ratchetRoot_iff hp hs hK ht hli]
  constructor
  · rintro ⟨⟨s, g0⟩, ⟨h1, leaf, h2, h3⟩, h4⟩
    dsimp only at h1 h3
    subst h1
    rw [C71_loop, C36_generation P cs h hp hs] at h4
    exact ⟨UInt32.toNat_inj.1 h4.1, leaf, s, h2, h3, h4.2⟩
  · rintro ⟨h1, leaf, s, h2, h3, h4⟩
    refine ⟨⟨s, 0⟩, ⟨rfl, leaf, h2, h3⟩, ?_⟩
    rw [C71_loop, C36_generation P cs h hp hs]
    exact ⟨by rw [h1], h4⟩

theorem exact_private (raw : Bytes) (m : PrivateMessage) :
    (∃ msg, deserialize_exact MLSMessage.deserialize raw = .ok msg ∧ msg.wire_message = .PrivateMessage m) ↔
      ∃ rest, (mlsMessage ⟨.MLS10, .PrivateMessage m⟩).fits ∧
        raw = (mlsMessage ⟨.MLS10, .PrivateMessage m⟩).bytes ++ rest := by
  constructor
  · rintro ⟨⟨v, w⟩, h1, h2⟩
    dsimp only at h2
    subst h2
    unfold deserialize_exact at h1
    split at h1
    · next x rest hd =>
      cases h1
      obtain ⟨hw, b, hb, rfl⟩ := C03_canonical _ mlsMessageCodec_mem _ _ _ hd
      obtain rfl : v = .MLS10 := hw.1
      have hb : MLSMessage.serialize ⟨.MLS10, .PrivateMessage m⟩ = .ok b := hb
      obtain ⟨hf, rfl⟩ := (writes_ok_iff (mlsMessage_w ⟨.MLS10, .PrivateMessage m⟩ trivial) _).1 hb
      exact ⟨rest, hf, rfl⟩
    · cases h1
    · cases h1
  · rintro ⟨rest, hf, rfl⟩
    refine ⟨⟨.MLS10, .PrivateMessage m⟩, ?_, rfl⟩
    have hb : MLSMessage.serialize ⟨.MLS10, .PrivateMessage m⟩ = .ok _ :=
      (writes_ok_iff (mlsMessage_w ⟨.MLS10, .PrivateMessage m⟩ trivial) _).2 ⟨hf, rfl⟩
    have := C02_round_trip _ mlsMessageCodec_mem ⟨.MLS10, .PrivateMessage m⟩ _ rest ⟨rfl, trivial⟩ hb
    unfold deserialize_exact
    rw [show MLSMessage.deserialize _ = _ from this]

/-- There is no ratchet without a tree. -/
theorem ratchetRoot_tree {P : CryptoProvider} {cs : CipherSuite} {n : Nat} {es : Bytes} {li : Nat} {ct : ContentType}
    {r : RatchetSecret} (hr : ratchetRoot P cs n es li ct = .ok r) : ∃ t, SecretTree.new P cs n es = .ok t := by
  unfold ratchetRoot at hr
  obtain ⟨t, ht, _⟩ := Res.bind_ok_iff.1 hr
  exact ⟨t, ht⟩

/-- C71: what a receiver accepts, from the secrets of the epoch on: a private message, with more bytes behind it or not, whose
sender data opens, whose content opens with the secret that the leaf has in the generation that the sender data names, and
that carries a signature of the key over what it says in the group's state.  This holds whatever the KDF does. -/
theorem C71_accepted (P : CryptoProvider) (cs : CipherSuite) (h : Hpke) (hp : P.hpke cs = .ok h) (hs : Sizes h)
    (K : Nat) (hK : K ≤ 31) (es sds : Bytes) (li : Nat)
    (hli : li < 2 ^ K) (pub : Bytes) (ctx : GroupContext) (raw : Bytes) (sd : SenderData) (ac : AuthenticatedContent)
    (hr : receive P cs ctx (2 ^ K) es sds li pub raw = .ok (sd, ac)) :
    ∃ m rest s pc, (mlsMessage ⟨.MLS10, .PrivateMessage m⟩).fits ∧
      raw = (mlsMessage ⟨.MLS10, .PrivateMessage m⟩).bytes ++ rest ∧ SenderDataOpens h sds m sd ∧
      MessageSecret h es K li m.content_type sd.generation.toNat s ∧
      ContentOpens h s sd.generation.toNat sd.reuse_guard m pc ∧
      ContentSigned P cs pub .PrivateMessage (contentOf m sd pc) ctx pc.auth.signature ∧
      ac = ⟨.PrivateMessage, contentOf m sd pc, pc.auth⟩ := by
  unfold receive at hr
  obtain ⟨msg, h1, h2⟩ := Res.bind_ok_iff.1 hr
  cases hm : msg.wire_message with
  | PrivateMessage m =>
    rw [hm] at h2
    obtain ⟨rest, hf, hraw⟩ := (exact_private raw m).1 ⟨msg, h1, hm⟩
    unfold decrypt_private_message at h2
    simp only [Res.bind_ok_iff, assertOk_iff] at h2
    obtain ⟨r, h1, sd', h2, y, h3, pc, h4, _, h5, h6⟩ := h2
    cases h6
    obtain ⟨t, ht⟩ := ratchetRoot_tree h1
    have hy := (root_seek_iff hp hs hK ht hli m.content_type sd.generation y).1 (Res.bind_ok_iff.2 ⟨r, h1, h3⟩)
    rw [C38_content P cs h hp hs, hy.1] at h4
    exact ⟨m, rest, y.secret, pc, hf, hraw, (C38_sender_data P cs h hp hs m sds sd).1 h2, hy.2, h4, (C30_verify ..).1 h5, rfl⟩
  | _ => rw [hm] at h2; cases h2

/-- C71: and if the encryption secret is long enough for the KDF, every such message is accepted. -/
theorem C71_exact (P : CryptoProvider) (cs : CipherSuite) (h : Hpke) (hp : P.hpke cs = .ok h) (hs : Sizes h)
    (hT : Expander h) (K : Nat) (hK : K ≤ 31) (es sds : Bytes) (hes : h.kdf_extract_size ≤ es.length) (li : Nat)
    (hli : li < 2 ^ K) (pub : Bytes) (ctx : GroupContext) (raw : Bytes) (sd : SenderData) (ac : AuthenticatedContent) :
    receive P cs ctx (2 ^ K) es sds li pub raw = .ok (sd, ac) ↔
      ∃ m rest s pc, (mlsMessage ⟨.MLS10, .PrivateMessage m⟩).fits ∧
        raw = (mlsMessage ⟨.MLS10, .PrivateMessage m⟩).bytes ++ rest ∧ SenderDataOpens h sds m sd ∧
        MessageSecret h es K li m.content_type sd.generation.toNat s ∧
        ContentOpens h s sd.generation.toNat sd.reuse_guard m pc ∧
        ContentSigned P cs pub .PrivateMessage (contentOf m sd pc) ctx pc.auth.signature ∧
        ac = ⟨.PrivateMessage, contentOf m sd pc, pc.auth⟩ := by
  refine ⟨C71_accepted P cs h hp hs K hK es sds li hli pub ctx raw sd ac, ?_⟩
  obtain ⟨t, ht⟩ := (C35_succeeds P cs h hp hT (2 ^ K) (Nat.pow_le_pow_right (by omega) hK) es hes).1.2 ⟨K, rfl⟩
  rintro ⟨m, rest, s, pc, hf, hr, h2, h3, h4, h5, rfl⟩
  obtain ⟨msg, e1, e2⟩ := (exact_private raw m).2 ⟨rest, hf, hr⟩
  unfold receive
  refine Res.bind_ok_iff.2 ⟨msg, e1, ?_⟩
  rw [e2]
  obtain ⟨r, h1, h3⟩ := Res.bind_ok_iff.1
    ((root_seek_iff hp hs hK ht hli m.content_type sd.generation ⟨s, sd.generation⟩).2 ⟨rfl, h3⟩)
  unfold decrypt_private_message
  simp only [Res.bind_ok_iff, assertOk_iff]
  exact ⟨r, h1, sd, (C38_sender_data P cs h hp hs m sds sd).2 h2, _, h3, pc,
    (C38_content P cs h hp hs m ⟨s, sd.generation⟩ sd.reuse_guard pc).2 h4, (),
    (C30_verify P cs (m.authenticated_content sd pc) pub ctx).2 h5, rfl⟩

/-- C71: what the sender builds is read by every receiver with the same number of leaves and the same secrets, who knows
the sender's key: the content, the sender, the generation and the guard are those that went in, for every leaf and
generation. -/
theorem C71_delivers (P : CryptoProvider) (cs : CipherSuite) (h : Hpke) (hp : P.hpke cs = .ok h) (hs : Sizes h)
    (ha : AeadPair h) (n : Nat) (es sds : Bytes) (li : LeafIndex) (g : UInt32) (rnd : Bytes) (hr : rnd.length = 4) (priv pub : Bytes) (hk : SignaturePair P cs priv pub) (ctx : GroupContext)
    (epoch : UInt64) (gid : GroupID) (c : Content) (hc : c.WF) (m : PrivateMessage)
    (hm : send P cs ctx n es sds li g rnd priv epoch gid c = .ok m) (b rest : Bytes)
    (hb : MLSMessage.serialize ⟨.MLS10, .PrivateMessage m⟩ = .ok b) :
    ∃ auth, receive P cs ctx n es sds li.toNat pub (b ++ rest) =
      .ok (⟨li, g, rnd⟩, ⟨.PrivateMessage, ⟨gid, epoch, .Member li, [], c⟩, auth⟩) := by
  unfold send at hm
  simp only [Res.bind_ok_iff] at hm
  obtain ⟨r, h1, y, h2, h3⟩ := hm
  have hct : m.content_type = c.content_type := ((C38_built P cs h hp hs priv y sds _ _ ctx m).1 h3).1.2.2.1
  obtain ⟨h4, pc, h5, h6, h7, h8, h9⟩ := C38_round_trip P cs h hp hs ha priv pub hk y sds
    ⟨gid, epoch, .Member li, [], c⟩ hc (SenderData.new rnd li g) hr rfl ctx m h3
  have hd := C02_round_trip _ mlsMessageCodec_mem ⟨.MLS10, .PrivateMessage m⟩ b rest ⟨rfl, trivial⟩ hb
  refine ⟨pc.auth, ?_⟩
  unfold receive deserialize_exact
  rw [show MLSMessage.deserialize (b ++ rest) = _ from hd]
  show (ratchetRoot P cs n es li.toNat m.content_type >>= _) = _
  rw [hct, h1, Res.ok_bind]
  unfold decrypt_private_message
  rw [h4, Res.ok_bind]
  show (seek P cs g 4294967296 r >>= _) = _
  rw [h2, Res.ok_bind]
  rw [h5, Res.ok_bind]
  dsimp only
  rw [(assertOk_iff _ ()).2 h9, Res.ok_bind]
  have : m.authenticated_content (SenderData.new rnd li g) pc =
      ⟨.PrivateMessage, ⟨gid, epoch, .Member li, [], c⟩, pc.auth⟩ := by
    rw [← h8]; rfl
  rw [this]
  rfl

/-- The number of leaves of a group's tree is a power of two, and members are inside. -/
theorem kept_leaves {P : CryptoProvider} {cs : CipherSuite} {l : LeafNode} {t : RatchetTree} {evs : List TreeEvent}
    (hst : RoomSteps P cs [some (.Leaf l)] evs t) {li : Nat} (hm : t.get (2 * li) ≠ none) :
    ∃ K, K ≤ 31 ∧ t.num_leaves = 2 ^ K ∧ li < 2 ^ K := by
  have hk := kept_steps (kept_single l) hst
  have hpos := Kept.pos hm
  obtain ⟨K, hn, _, _⟩ := hk.height (by omega)
  obtain ⟨_, hb, hc⟩ := num_leaves_bounds (t := t) (by omega) hk.inv.size
  refine ⟨K, ?_, hn, by omega⟩
  rw [hn] at hb
  exact (Nat.pow_le_pow_iff_right (by omega)).1 hb

/-- C71: in a group, whatever its history, every member has a ratchet for every kind of content, which reaches every
generation, and holds the secret that RFC 9420 says. -/
theorem C71_ready (P : CryptoProvider) (cs : CipherSuite) (h : Hpke) (hp : P.hpke cs = .ok h) (hs : Sizes h)
    (hT : Expander h) (l : LeafNode) (t : RatchetTree) (evs : List TreeEvent)
    (hst : RoomSteps P cs [some (.Leaf l)] evs t) (li : Nat) (hm : t.get (2 * li) ≠ none) (es : Bytes)
    (hes : h.kdf_extract_size ≤ es.length) (ct : ContentType) (g : UInt32) :
    ∃ K y, t.num_leaves = 2 ^ K ∧ (ratchetRoot P cs t.num_leaves es li ct >>= seek P cs g 4294967296) = .ok y ∧
      y.generation = g ∧ MessageSecret h es K li ct g.toNat y.secret := by
  obtain ⟨K, hK, hn, hli⟩ := kept_leaves hst hm
  obtain ⟨tr, ht⟩ := (C35_succeeds P cs h hp hT (2 ^ K) (Nat.pow_le_pow_right (by omega) hK) es hes).1.2 ⟨K, rfl⟩
  obtain ⟨leaf, _, hleaf⟩ := (C35_secrets P cs h hp hs K hK es tr ht).2 0 li (by omega) (by simpa using hli)
  obtain ⟨root, hroot⟩ := hT.expands leaf (kdfLabel h.kdf_extract_size
    (text (if ct = .Application then "application" else "handshake")) []).bytes (UInt16.ofNat h.kdf_extract_size)
    (nodeSecret_long hT hes hleaf) (SecretTree.size_le h)
  have hrl := hT.long _ _ _ hroot
  have hf : (labelled (text (if ct = .Application then "application" else "handshake")) []).fits := by cases ct <;> decide
  have hroot : Expands h leaf (text (if ct = .Application then "application" else "handshake")) []
      h.kdf_extract_size root := ⟨hs.1, ⟨trivial, hf⟩, hroot⟩
  obtain ⟨y, hy⟩ := ((C36_reach P cs h hp hs hT root hrl).1 g.toNat).2 g.toNat_lt
  rw [C36_generation P cs h hp hs] at hy
  have hms : MessageSecret h es K li ct g.toNat y.secret := ⟨leaf, root, hleaf, hroot, hy.2⟩
  refine ⟨K, y, hn, ?_, UInt32.toNat_inj.1 hy.1, hms⟩
  rw [hn]
  exact (root_seek_iff hp hs hK ht hli ct g y).2 ⟨UInt32.toNat_inj.1 hy.1, hms⟩

/-- C71: in a group, whatever its history, two members who agree on the tree and the epoch secret, one of whom may have read
the tree from the wire, read each other's messages: each computes the secrets on their own, and the receiver takes the
sender's key from their own tree. -/
theorem C71_members (P : CryptoProvider) (cs : CipherSuite) (h : Hpke) (hp : P.hpke cs = .ok h) (hs : Sizes h)
    (ha : AeadPair h) (l : LeafNode) (t u : RatchetTree) (evs : List TreeEvent)
    (hst : RoomSteps P cs [some (.Leaf l)] evs t) (htu : SameTree t u) (sender receiver : RatchetTree)
    (hse : sender = t ∨ sender = u) (hre : receiver = t ∨ receiver = u) (e es sds es' sds' : Bytes)
    (h1 : P.derive_secret cs e SECRET_LABEL_ENCRYPTION = .ok es) (h2 : P.derive_secret cs e SECRET_LABEL_SENDER_DATA = .ok sds)
    (h1' : P.derive_secret cs e SECRET_LABEL_ENCRYPTION = .ok es')
    (h2' : P.derive_secret cs e SECRET_LABEL_SENDER_DATA = .ok sds') (li : LeafIndex) (leaf : LeafNode)
    (hleaf : sender.get (2 * li.toNat) = some (.Leaf leaf)) (priv : Bytes)
    (hk : SignaturePair P cs priv leaf.payload.signature_key) (g : UInt32) (rnd : Bytes) (hr : rnd.length = 4)
    (ctx : GroupContext) (epoch : UInt64) (gid : GroupID) (c : Content) (hc : c.WF) (m : PrivateMessage)
    (hm : send P cs ctx sender.num_leaves es sds li g rnd priv epoch gid c = .ok m) (b rest : Bytes)
    (hb : MLSMessage.serialize ⟨.MLS10, .PrivateMessage m⟩ = .ok b) :
    ∃ leaf' auth, receiver.get_leaf li.toNat = .ok (some leaf') ∧
      receive P cs ctx receiver.num_leaves es' sds' li.toNat leaf'.payload.signature_key (b ++ rest) =
        .ok (⟨li, g, rnd⟩, ⟨.PrivateMessage, ⟨gid, epoch, .Member li, [], c⟩, auth⟩) := by
  obtain ⟨hg, hn, _⟩ := C64_agree P cs l t u evs hst htu
  have hsz := (kept_steps (kept_single l) hst).inv.size
  have hszu : u.length < 2 ^ 32 := by
    rcases htu with rfl | ⟨K, _, rfl⟩
    · exact hsz
    · simp only [List.length_append, List.length_singleton] at hsz
      omega
  have hnn : receiver.num_leaves = sender.num_leaves := by
    rcases hse with rfl | rfl <;> rcases hre with rfl | rfl <;> simp only [hn]
  have hgg : receiver.get (2 * li.toNat) = some (.Leaf leaf) := by
    rw [← hleaf]
    rcases hse with rfl | rfl <;> rcases hre with rfl | rfl <;> simp only [hg]
  cases h1.symm.trans h1'
  cases h2.symm.trans h2'
  obtain ⟨auth, hd⟩ := C71_delivers P cs h hp hs ha sender.num_leaves es sds li g rnd hr priv _ hk ctx epoch gid c hc m hm
    b rest hb
  refine ⟨leaf, auth, (get_leaf_some _ ?_ _ _).2 hgg, by rw [hnn]; exact hd⟩
  rcases hre with rfl | rfl
  · exact hsz
  · exact hszu

section examples
private abbrev suite1 : CipherSuite := .MLS_128_DHKEMX25519_AES128GCM_SHA256_Ed25519

set_option maxRecDepth 100000 in
/-- The third of four members sends application data, in generation 2; the message is read by a receiver with the same secrets. -/
example : ∃ m b, send toyProvider suite1 toyContext 4 [5] [6] 2 2 [1, 2, 3, 4] [2, 2] 3 [7] (.Application [42]) = .ok m ∧
    MLSMessage.serialize ⟨.MLS10, .PrivateMessage m⟩ = .ok b ∧ SignaturePair toyProvider suite1 [2, 2] [2, 2] ∧
    ∃ auth, receive toyProvider suite1 toyContext 4 [5] [6] 2 [2, 2] (b ++ []) =
      .ok (⟨2, 2, [1, 2, 3, 4]⟩, ⟨.PrivateMessage, ⟨[7], 3, .Member 2, [], .Application [42]⟩, auth⟩) := by
  have hk : SignaturePair toyProvider suite1 [2, 2] [2, 2] := by
    intro s m sg h1 h2
    cases h1
    cases h2
    exact if_pos rfl
  have h1 : (send toyProvider suite1 toyContext 4 [5] [6] 2 2 [1, 2, 3, 4] [2, 2] 3 [7] (.Application [42])).isOk =
    .ok true := by decide +kernel
  obtain ⟨m, hm⟩ := isOk_true.1 h1
  have h2 : (send toyProvider suite1 toyContext 4 [5] [6] 2 2 [1, 2, 3, 4] [2, 2] 3 [7] (.Application [42]) >>= fun m =>
    MLSMessage.serialize ⟨.MLS10, .PrivateMessage m⟩).isOk = .ok true := by decide +kernel
  rw [hm, Res.ok_bind] at h2
  obtain ⟨b, hb⟩ := isOk_true.1 h2
  exact ⟨m, b, hm, hb, hk, C71_delivers toyProvider suite1 toyHpke rfl toy_sizes toy_aeadPair 4 [5] [6] 2 2 [1, 2, 3, 4] rfl
    [2, 2] [2, 2] hk toyContext 3 [7] (.Application [42]) trivial m hm b [] hb⟩

end examples
end Rmls
