import Verif.Spec.Hidden
import Verif.Props.PrivateMessage
import Verif.Props.Suites
/-
Property C110: what a private message shows to somebody without the keys.
-/
namespace Rmls
open Spec Spec.Enc Suites

private theorem digits_length : ∀ n v, (digits n v).length = n := by
  intro n
  induction n with
  | zero => intro v; rfl
  | succ n ih => intro v; simp [digits, ih]

private theorem header_length {n : Nat} (h : n < 1073741824) : ((header n).getD []).length = headSize n := by
  unfold header headSize
  repeat' split
  all_goals first | omega | (simp [digits_length])

private theorem opq_length {b : Bytes} (h : (opq b).fits) : (opq b).bytes.length = headSize b.length + b.length := by
  show ((header b.length).getD [] ++ b).length = _
  have h2 : b.length < 1073741824 := h.2
  rw [List.length_append, header_length h2]

private theorem senderData_length (sd : SenderData) (hg : sd.reuse_guard.length = 4) :
    (senderData sd).bytes.length = 12 := by
  show (digits 4 _ ++ (digits 4 _ ++ sd.reuse_guard)).length = 12
  rw [List.length_append, List.length_append, digits_length, digits_length, hg]

private theorem plain_length (c : FramedContent) (sg : Bytes)
    (hf : (privateMessageContent ⟨c.content, ⟨sg, []⟩⟩).fits) :
    (privateMessageContent ⟨c.content, ⟨sg, []⟩⟩).bytes.length = plainSize sg.length (shown c) := by
  obtain ⟨_, h2, _⟩ := hf
  have e : (opq sg).bytes.length = headSize sg.length + sg.length := opq_length h2
  unfold plainSize shown
  cases h : c.content with
  | Application d =>
    show ((contentBody (.Application d)).bytes ++ ((opq sg).bytes ++ [])).length = _
    rw [List.length_append, List.length_append, e]
    rfl
  | Proposal d =>
    show ((contentBody (.Proposal d)).bytes ++ ((opq sg).bytes ++ [])).length = _
    rw [List.length_append, List.length_append, e]
    rfl
  | Commit d =>
    show ((contentBody (.Commit d)).bytes ++ ((opq sg).bytes ++ [0])).length = _
    rw [List.length_append, List.length_append, e]
    rfl

/-! ## C110 -/

/-- C110: with an AEAD that hides what it seals, a private message could have been made up by somebody who knows nothing
but the group, the epoch, the kind of content, the authenticated data and the length of the content.  In particular
neither the sender, the generation, the secrets nor the content itself have an influence on it. -/
theorem C110_hidden (P : CryptoProvider) (cs : CipherSuite) (h : Hpke) (hp : P.hpke cs = .ok h) (hs : Sizes h)
    (s : Bytes → Nat → Bytes) (hb : Blind h s) (n : Nat) (hn : SignatureSize P cs n)
    (priv : Bytes) (x : RatchetSecret) (sds : Bytes) (c : FramedContent) (sd : SenderData)
    (hg : sd.reuse_guard.length = 4) (ctx : GroupContext) (m : PrivateMessage)
    (hm : PrivateMessage.new P cs priv x sds c sd ctx = .ok m) : m = madeUp s n (shown c) := by
  obtain ⟨⟨h1, h2, h3, h4⟩, ⟨sg, _, ⟨_, q, hq, hsg⟩, key, nonce, _, h8, _, h10⟩, k2, n2, _, _, h13⟩ :=
    (C38_built P cs h hp hs priv x sds c sd ctx m).1 hm
  have e1 := hb _ _ _ _ _ h10
  have e2 := hb _ _ _ _ _ h13
  rw [plain_length c sg h8, hn q _ _ _ hq hsg] at e1
  rw [senderData_length sd hg] at e2
  obtain ⟨g, e, ct, ad, es, ci⟩ := m
  simp only at h1 h2 h3 h4 e1 e2
  subst h1 h2 h3 h4 e1 e2
  rfl

/-- C110: two senders of one group who send as many bytes make the same message. -/
theorem C110_same (P : CryptoProvider) (cs : CipherSuite) (h : Hpke) (hp : P.hpke cs = .ok h) (hs : Sizes h)
    (s : Bytes → Nat → Bytes) (hb : Blind h s) (n : Nat) (hn : SignatureSize P cs n)
    (priv priv' : Bytes) (x x' : RatchetSecret) (sds sds' : Bytes) (c c' : FramedContent) (sd sd' : SenderData)
    (hg : sd.reuse_guard.length = 4) (hg' : sd'.reuse_guard.length = 4) (ctx ctx' : GroupContext)
    (hid : c.group_id = c'.group_id) (he : c.epoch = c'.epoch) (ht : c.content.content_type = c'.content.content_type)
    (ha : c.authenticated_data = c'.authenticated_data)
    (hl : (contentBody c.content).bytes.length = (contentBody c'.content).bytes.length) (m m' : PrivateMessage)
    (hm : PrivateMessage.new P cs priv x sds c sd ctx = .ok m)
    (hm' : PrivateMessage.new P cs priv' x' sds' c' sd' ctx' = .ok m') : m = m' := by
  rw [C110_hidden P cs h hp hs s hb n hn priv x sds c sd hg ctx m hm,
    C110_hidden P cs h hp hs s hb n hn priv' x' sds' c' sd' hg' ctx' m' hm']
  unfold shown
  rw [hid, he, ht, ha, hl]

/-- C110, the length: nothing is added to the content but the signature and the tag of the AEAD.  The sender data takes the
same space in all messages. -/
theorem C110_length (P : CryptoProvider) (cs : CipherSuite) (h : Hpke) (hp : P.hpke cs = .ok h) (hs : Sizes h)
    (tag : Nat) (hb : Tagged h tag) (n : Nat) (hn : SignatureSize P cs n)
    (priv : Bytes) (x : RatchetSecret) (sds : Bytes) (c : FramedContent) (sd : SenderData)
    (hg : sd.reuse_guard.length = 4) (ctx : GroupContext) (m : PrivateMessage)
    (hm : PrivateMessage.new P cs priv x sds c sd ctx = .ok m) :
    m.encrypted_sender_data.length = 12 + tag ∧
    m.ciphertext.length = (contentBody c.content).bytes.length + (headSize n + n) +
      (if c.content.content_type = .Commit then 1 else 0) + tag := by
  obtain ⟨_, ⟨sg, _, ⟨_, q, hq, hsg⟩, key, nonce, _, h8, _, h10⟩, k2, n2, _, _, h13⟩ :=
    (C38_built P cs h hp hs priv x sds c sd ctx m).1 hm
  have e1 := hb _ _ _ _ _ h10
  have e2 := hb _ _ _ _ _ h13
  rw [plain_length c sg h8, hn q _ _ _ hq hsg] at e1
  rw [senderData_length sd hg] at e2
  exact ⟨e2, e1⟩

/-- C110, the length is not hidden: whoever sees a message with application data knows how many bytes were sent, because no
padding is added. -/
theorem C110_length_seen (P : CryptoProvider) (cs : CipherSuite) (h : Hpke) (hp : P.hpke cs = .ok h) (hs : Sizes h)
    (tag : Nat) (hb : Tagged h tag) (n : Nat) (hn : SignatureSize P cs n)
    (priv : Bytes) (x : RatchetSecret) (sds : Bytes) (c : FramedContent) (data : Bytes)
    (hc : c.content = .Application data) (sd : SenderData)
    (hg : sd.reuse_guard.length = 4) (ctx : GroupContext) (m : PrivateMessage)
    (hm : PrivateMessage.new P cs priv x sds c sd ctx = .ok m) :
    lengthSeen tag n m.ciphertext.length = data.length := by
  obtain ⟨_, ⟨sg, _, _, _, _, _, h8, _, _⟩, _⟩ := (C38_built P cs h hp hs priv x sds c sd ctx m).1 hm
  have e := (C110_length P cs h hp hs tag hb n hn priv x sds c sd hg ctx m hm).2
  have hf : (contentBody c.content).fits := h8.1
  rw [hc] at hf e
  have e' : (contentBody (.Application data)).bytes.length = headSize data.length + data.length := opq_length hf
  rw [e', if_neg (by intro hx; cases hx)] at e
  have hk : m.ciphertext.length - tag - (headSize n + n) = headSize data.length + data.length := by omega
  unfold lengthSeen
  simp only [hk]
  have : headSize data.length = if data.length < 64 then 1 else if data.length < 16384 then 2 else 4 := rfl
  repeat' split
  all_goals (repeat' split at this); all_goals omega

/-- C110, the length, for the providers of the library: the tag has 16 bytes, given ciphers that keep the length. -/
theorem C110_providers (p : Primitives)
    (hlen : ∀ a k n ad plain c t, p.aead_encrypt a k n ad plain = some (c, t) →
      c.length = plain.length ∧ t.length = 16) (cs : CipherSuite) (h : Hpke) :
    ((RustCryptoProvider p).hpke cs = .ok h → Tagged h 16) ∧
    ((RingCryptoProvider p).hpke cs = .ok h → Tagged h 16) := by
  constructor
  · intro hh
    obtain ⟨d, hd, rfl⟩ := rust_hpke hh
    intro key nonce plain ad c hc
    change Suites.rust_aead_seal p d.hpke.aead key nonce plain ad = .ok c at hc
    unfold Suites.rust_aead_seal at hc
    split at hc
    · cases hc
    · split at hc
      · cases hc
      · split at hc
        · next a t e =>
          cases hc
          rw [List.length_append, (hlen _ _ _ _ _ _ _ e).1, (hlen _ _ _ _ _ _ _ e).2]
        · cases hc
  · intro hh
    obtain ⟨d, hd, rfl⟩ := ring_hpke hh
    intro key nonce plain ad c hc
    change Suites.ring_aead_seal p d.hpke.aead key nonce plain ad = .ok c at hc
    unfold Suites.ring_aead_seal at hc
    split at hc
    · cases hc
    · split at hc
      · cases hc
      · split at hc
        · next a t e =>
          cases hc
          rw [List.length_append, (hlen _ _ _ _ _ _ _ e).1, (hlen _ _ _ _ _ _ _ e).2]
        · cases hc

/-! An ideal AEAD and signatures of one length for the examples. -/

private def hidingHpke : Hpke := { toyHpke with aead_seal := fun _ _ p _ => .ok (List.replicate (p.length + 16) 7) }
private def hidingProvider : CryptoProvider :=
  { toyProvider with
    hpke := fun _ => .ok hidingHpke
    signature := fun _ => .ok { toySignature with sign := fun k _ => .ok (List.replicate 64 (k.headD 0)) } }

private theorem hiding_blind : Blind hidingHpke (fun _ n => List.replicate (n + 16) 7) := by
  intro k n p a c h; cases h; rfl
private theorem hiding_tagged : Tagged hidingHpke 16 := by
  intro k n p a c h; cases h; exact List.length_replicate
private theorem hiding_signature : SignatureSize hidingProvider toyContext.cipher_suite 64 := by
  intro s k m sg h1 h2; cases h1; cases h2; exact List.length_replicate

set_option maxRecDepth 100000 in
/-- Leaf 2 says "hi" and leaf 5 says "no", with other keys: one and the same message; from its length both are seen to have
said two bytes. -/
example : ∃ m, PrivateMessage.new hidingProvider toyContext.cipher_suite [9] ⟨[1], 3⟩ [5]
      { toyContent with content := .Application (ascii "hi") } ⟨2, 3, [1, 2, 3, 4]⟩ toyContext = .ok m ∧
    PrivateMessage.new hidingProvider toyContext.cipher_suite [8] ⟨[2], 7⟩ [6]
      { toyContent with sender := .Member 5, content := .Application (ascii "no") } ⟨5, 7, [4, 3, 2, 1]⟩ toyContext =
        .ok m ∧
    lengthSeen 16 64 m.ciphertext.length = 2 :=
  ⟨_, rfl, rfl, by decide⟩
example : Blind hidingHpke (fun _ n => List.replicate (n + 16) 7) ∧ Tagged hidingHpke 16 ∧
    SignatureSize hidingProvider toyContext.cipher_suite 64 ∧ Sizes hidingHpke :=
  ⟨hiding_blind, hiding_tagged, hiding_signature, by unfold Sizes hidingHpke toyHpke; decide⟩

end Rmls
