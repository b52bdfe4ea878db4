import Verif.Proofs.SecretTree
import Verif.Props.KeySchedule
/-
Properties C35 (secret tree), C36 (message ratchets), C37 (reuse guards).
-/
namespace Rmls
open Spec Spec.Enc

/-! ## C35 -/

/-- C35: for a full tree of height `K`, every secret in the result is the one of RFC 9420, section 9, and every node
has one. -/
theorem C35_secrets (P : CryptoProvider) (cs : CipherSuite) (h : Hpke) (hp : P.hpke cs = .ok h) (hs : Sizes h)
    (K : Nat) (hK : K ≤ 31) (es : Bytes) (t : SecretTree) (ht : SecretTree.new P cs (2 ^ K) es = .ok t) :
    t.length = 2 ^ (K + 1) - 1 ∧
    ∀ k i, k ≤ K → i < 2 ^ (K - k) → ∃ s, t[node k i]? = some (some s) ∧ NodeSecret h es K k i s := by
  have hp2 := Nat.two_pow_pos K
  have hle : 2 ^ K ≤ 2 ^ 31 := Nat.pow_le_pow_right (by omega) hK
  rw [SecretTree.new_eq hp2 hle, SecretTree.height_pow] at ht
  have hroot : node K 0 + 1 = 2 ^ K := by rw [node_add_one]; simp
  obtain ⟨l1, f1, _⟩ := SecretTree.derive_children_spec hp hs es K K 0 33 _ t es (by omega)
    (SecretTree.setSecret_self es (by rw [List.length_replicate]; omega)) .root
    (fun l j hu => by
      rw [SecretTree.setSecret_length, List.length_replicate]
      have := NumLeaves.inTree_iff.1 (under_root.1 hu)
      omega) ht
  rw [SecretTree.setSecret_length, List.length_replicate] at l1
  refine ⟨by rw [l1, Nat.pow_succ]; omega, fun k i hk hi => f1 k i (under_root.2 ⟨hk, hi⟩)⟩

/-- C35: those secrets are determined by the encryption secret and the place in the tree. -/
theorem C35_unique (h : Hpke) (es : Bytes) (K k i : Nat) (a b : Bytes) (ha : NodeSecret h es K k i a)
    (hb : NodeSecret h es K k i b) : a = b := nodeSecret_unique ha hb

/-- C35: with an encryption secret of the length of the hash, or a longer one, building succeeds for exactly the full trees; for any other number of leaves the
error is `InvalidParentNode`, and without leaves the code panics. -/
theorem C35_succeeds (P : CryptoProvider) (cs : CipherSuite) (h : Hpke) (hp : P.hpke cs = .ok h)
    (hT : Expander h) (n : Nat) (hn : n ≤ 2 ^ 31) (es : Bytes) (hes : h.kdf_extract_size ≤ es.length) :
    ((∃ t, SecretTree.new P cs n es = .ok t) ↔ ∃ K, n = 2 ^ K) ∧
    ((¬ ∃ K, n = 2 ^ K) → SecretTree.new P cs n es = if n = 0 then .fault .panic else .err .InvalidParentNode) := by
  have hbad : (¬ ∃ K, n = 2 ^ K) →
      SecretTree.new P cs n es = if n = 0 then .fault .panic else .err .InvalidParentNode := by
    intro hne
    by_cases h0 : n = 0
    · subst h0; rfl
    · rw [if_neg h0]
      have h0 : 0 < n := by omega
      rw [SecretTree.new_eq h0 hn]
      have hk := NumLeaves.height_lt h0 hn
      obtain ⟨b1, b2⟩ := NumLeaves.height_bounds h0
      have hroot : node (NumLeaves.height n) 0 + 1 = 2 ^ NumLeaves.height n := by rw [node_add_one]; simp
      have hb3 : n ≠ 2 ^ NumLeaves.height n := fun h => hne ⟨_, h⟩
      refine SecretTree.derive_children_error hp hT _ 0 33 _ hk (by omega)
        (fun hl => ⟨es, SecretTree.setSecret_self es (by rw [List.length_replicate]; exact SecretTree.root_lt h0), hes⟩) ?_
      obtain ⟨k, i, hki⟩ := node_surj (2 * n - 1)
      cases k with
      | zero => rw [node_zero] at hki; omega
      | succ k =>
        refine ⟨k, i, under_root.2 (NumLeaves.inTree_iff.2 (by omega)), ?_⟩
        rw [SecretTree.setSecret_length, List.length_replicate]
        omega
  refine ⟨⟨?_, ?_⟩, hbad⟩
  · rintro ⟨t, ht⟩
    refine Classical.byContradiction fun hne => ?_
    rw [hbad hne] at ht
    split at ht <;> cases ht
  · rintro ⟨K, rfl⟩
    have hp2 := Nat.two_pow_pos K
    have hroot : node K 0 + 1 = 2 ^ K := by rw [node_add_one]; simp
    rw [SecretTree.new_eq hp2 hn, SecretTree.height_pow]
    have hk := NumLeaves.height_lt hp2 hn
    rw [SecretTree.height_pow] at hk
    obtain ⟨t, ht, _⟩ := SecretTree.derive_children_total hp hT K 0 33 (SecretTree.setSecret
      (List.replicate (2 * (2 ^ K - 1) + 1) none) (node K 0) es) hk (by omega)
      (fun hl => ⟨es, SecretTree.setSecret_self es (by rw [List.length_replicate]; omega), hes⟩)
      (fun l j hu => by
        rw [SecretTree.setSecret_length, List.length_replicate]
        have := NumLeaves.inTree_iff.1 (under_root.1 hu)
        omega)
    exact ⟨t, ht⟩

/-- C35: the ratchets of the leaf at position `i` start with `ExpandWithLabel(secret, "handshake" or "application")`. -/
theorem C35_ratchet_root (P : CryptoProvider) (cs : CipherSuite) (h : Hpke) (hp : P.hpke cs = .ok h) (hs : Sizes h)
    (t : SecretTree) (x : Nat) (c : ContentType) (r : RatchetSecret) :
    t.derive_ratchet_root P cs x (.ofContentType c) = .ok r ↔
      ∃ s, t[x]? = some (some s) ∧ r.generation = 0 ∧
        Expands h s (text (if c = .Application then "application" else "handshake")) [] h.kdf_extract_size r.secret := by
  unfold SecretTree.derive_ratchet_root
  rw [hp]
  simp only [Res.ok_bind, Res.bind_ok_iff, SecretTree.secretAt_iff, expand_with_label_iff hp _ _ _ hs.1]
  have hl : (RatchetLabel.ofContentType c).bytes =
      text (if c = .Application then "application" else "handshake") := by cases c <;> decide
  rw [hl]
  constructor
  · rintro ⟨s, h1, o, h2, h3⟩
    cases h3
    exact ⟨s, h1, rfl, h2⟩
  · rintro ⟨s, h1, h2, h3⟩
    refine ⟨s, h1, _, h3, ?_⟩
    cases r
    simp only at h2
    rw [h2]
    rfl

/-- C35: the two labels are expanded with different inputs. -/
theorem C35_labels (n n' : UInt16) : RatchetLabel.Handshake.bytes ≠ RatchetLabel.Application.bytes ∧
    (kdfLabel n.toNat RatchetLabel.Handshake.bytes []).bytes ≠
      (kdfLabel n'.toNat RatchetLabel.Application.bytes []).bytes := by
  refine ⟨by decide, fun h => ?_⟩
  have f : (labelled RatchetLabel.Handshake.bytes []).fits := by decide
  have f' : (labelled RatchetLabel.Application.bytes []).fits := by decide
  exact absurd (kdfLabel_inj ⟨trivial, f⟩ ⟨trivial, f'⟩ h).2.1 (by decide)

/-- A suite whose KDF tells children and labels apart, to see the theorems at work. -/
def mixProvider : CryptoProvider :=
  { toyProvider with hpke := fun _ => .ok { toyHpke with kdf_expand := fun s l _ => .ok (s ++ l.drop 11 ++ zeros 4) } }

example : ∃ t, SecretTree.new mixProvider .MLS_128_DHKEMX25519_AES128GCM_SHA256_Ed25519 4 [7, 7, 7, 7] = .ok t ∧ t.length = 7 ∧
    t[0]? ≠ t[2]? ∧ t[0]? ≠ t[4]? := by
  obtain ⟨t, ht⟩ := ((C35_succeeds mixProvider .MLS_128_DHKEMX25519_AES128GCM_SHA256_Ed25519 _ rfl
    ⟨fun _ _ _ _ _ => ⟨_, rfl⟩, fun _ _ _ h => by
      cases h
      simp only [List.length_append]
      exact Nat.le_add_left ..⟩ 4 (by decide) [7, 7, 7, 7] (by decide)).1).2 ⟨2, rfl⟩
  refine ⟨t, ht, ?_⟩
  have hd : SecretTree.new mixProvider .MLS_128_DHKEMX25519_AES128GCM_SHA256_Ed25519 4 [7, 7, 7, 7] = .ok t → t.length = 7 ∧
    t[0]? ≠ t[2]? ∧ t[0]? ≠ t[4]? := by
    intro h
    cases h.symm.trans (rfl : SecretTree.new mixProvider .MLS_128_DHKEMX25519_AES128GCM_SHA256_Ed25519 4 [7, 7, 7, 7] = _)
    decide +kernel
  exact hd ht

/-! ## C36 -/

/-- The ratchet moved forward `n` times. -/
def RatchetSecret.advance (P : CryptoProvider) (cs : CipherSuite) : Nat → RatchetSecret → Res RatchetSecret
  | 0, x => .ok x
  | n + 1, x => advance P cs n x >>= derive_next P cs

/-- C36: moved forward `n` times from its start, the ratchet is at generation `n` and holds the secret of generation
`n`. -/
theorem C36_generation (P : CryptoProvider) (cs : CipherSuite) (h : Hpke) (hp : P.hpke cs = .ok h) (hs : Sizes h)
    (s : Bytes) (n : Nat) (y : RatchetSecret) :
    RatchetSecret.advance P cs n ⟨s, 0⟩ = .ok y ↔ y.generation.toNat = n ∧ GenerationSecret h s n y.secret := by
  induction n generalizing y with
  | zero =>
    unfold RatchetSecret.advance
    constructor
    · intro h; cases h; exact ⟨rfl, .first⟩
    · rintro ⟨h1, h2⟩
      obtain ⟨s', g⟩ := y
      cases h2
      rw [show g = 0 from UInt32.toNat_inj.1 h1]
  | succ n ih =>
    unfold RatchetSecret.advance
    rw [Res.bind_ok_iff]
    constructor
    · rintro ⟨x, h1, h2⟩
      obtain ⟨h3, h4⟩ := (ih x).1 h1
      obtain ⟨h5, h6⟩ := (RatchetSecret.derive_next_iff hp hs ..).1 h2
      rw [h3] at h5 h6
      exact ⟨h5.symm, .next h4 h6⟩
    · rintro ⟨h1, h2⟩
      cases h2 with
      | @next _ x _ h3 h4 =>
        have hlt := y.generation.toNat_lt
        have hx : (UInt32.ofNat n).toNat = n := by rw [UInt32.toNat_ofNat']; omega
        refine ⟨⟨x, UInt32.ofNat n⟩, (ih _).2 ⟨hx, h3⟩, (RatchetSecret.derive_next_iff hp hs ..).2 ⟨?_, ?_⟩⟩
        · simp only [hx]; omega
        · simp only [hx]; exact h4

/-- C36: key and nonce of a generation are derived from its secret with its number. -/
theorem C36_key_nonce (P : CryptoProvider) (cs : CipherSuite) (h : Hpke) (hp : P.hpke cs = .ok h) (hs : Sizes h)
    (x : RatchetSecret) (out : Bytes) :
    (x.derive_key P cs = .ok out ↔
      TreeDerives h x.secret (text "key") x.generation.toNat h.aead_key_size out) ∧
    (x.derive_nonce P cs = .ok out ↔
      TreeDerives h x.secret (text "nonce") x.generation.toNat h.aead_nonce_size out) :=
  ⟨RatchetSecret.derive_key_iff hp hs x out, RatchetSecret.derive_nonce_iff hp hs x out⟩

/-- C36: from a secret of the length of the hash, or a longer one, every generation up to 2^32 - 1 can be reached, and the step beyond panics. -/
theorem C36_reach (P : CryptoProvider) (cs : CipherSuite) (h : Hpke) (hp : P.hpke cs = .ok h) (hs : Sizes h)
    (hT : Expander h) (s : Bytes) (hsl : h.kdf_extract_size ≤ s.length) :
    (∀ n, (∃ y, RatchetSecret.advance P cs n ⟨s, 0⟩ = .ok y) ↔ n < 2 ^ 32) ∧
    RatchetSecret.advance P cs (2 ^ 32) ⟨s, 0⟩ = .fault .panic := by
  have hreach : ∀ n, n < 2 ^ 32 → ∃ y, RatchetSecret.advance P cs n ⟨s, 0⟩ = .ok y ∧
      h.kdf_extract_size ≤ y.secret.length := by
    intro n
    induction n with
    | zero => exact fun _ => ⟨_, rfl, hsl⟩
    | succ n ih =>
      intro hn
      obtain ⟨y, hy, hyl⟩ := ih (by omega)
      have hg := ((C36_generation P cs h hp hs s n y).1 hy).1
      obtain ⟨o, ho, hol⟩ := SecretTree.expand_total hp hT y.secret (text "secret") (uint 4 n).bytes hyl (by decide)
        (by rw [show (uint 4 n).bytes.length = 4 from rfl]; decide)
      have ho := (expand_with_label_iff hp _ _ _ hs.1 _).1 ho
      have hx : (UInt32.ofNat (n + 1)).toNat = n + 1 := by rw [UInt32.toNat_ofNat']; omega
      refine ⟨⟨o, UInt32.ofNat (n + 1)⟩, Res.bind_ok_iff.2 ⟨y, hy, (RatchetSecret.derive_next_iff hp hs ..).2 ⟨?_, ?_⟩⟩, hol⟩
      · simp only [hx, hg]
      · rw [hg]; exact ⟨by omega, ho⟩
  refine ⟨fun n => ⟨?_, fun hn => (hreach n hn).imp fun _ h => h.1⟩, ?_⟩
  · rintro ⟨y, hy⟩
    rw [← ((C36_generation P cs h hp hs s n y).1 hy).1]
    exact y.generation.toNat_lt
  · rw [show (2 ^ 32 : Nat) = 4294967295 + 1 by decide]
    obtain ⟨y, hy, hyl⟩ := hreach 4294967295 (by decide)
    have hg := ((C36_generation P cs h hp hs s _ y).1 hy).1
    rw [RatchetSecret.advance, hy, Res.ok_bind]
    have hg : y.generation = 4294967295 := UInt32.toNat_inj.1 hg
    unfold RatchetSecret.derive_next derive_tree_secret
    obtain ⟨o, ho, _⟩ := SecretTree.expand_total hp hT y.secret (ascii "secret") (uint 4 y.generation.toNat).bytes
      hyl (by decide)
      (by rw [show (uint 4 y.generation.toNat).bytes.length = 4 from rfl]; decide)
    have hw : put_u32 y.generation = .ok (uint 4 y.generation.toNat).bytes := writes_ok (writes_u32 _) trivial
    rw [hp, Res.ok_bind, hw, Res.ok_bind, ho, Res.ok_bind, if_pos hg]

/-- C36: keys, nonces and successors of any generations are expanded with different inputs: the input determines the
purpose and the generation. -/
theorem C36_separated (a b : String) (ha : a ∈ ["key", "nonce", "secret"]) (hb : b ∈ ["key", "nonce", "secret"])
    (g g' : UInt32) (n n' : UInt16)
    (h : (kdfLabel n.toNat (text a) (uint 4 g.toNat).bytes).bytes =
      (kdfLabel n'.toNat (text b) (uint 4 g'.toNat).bytes).bytes) : a = b ∧ g = g' := by
  have hf : ∀ a ∈ ["key", "nonce", "secret"], ∀ g : UInt32, ∀ n : UInt16,
      (kdfLabel n.toNat (text a) (uint 4 g.toNat).bytes).fits := by
    intro a ha g n
    refine ⟨trivial, ⟨trivial, ?_⟩, ⟨trivial, ?_⟩⟩
    · revert a; decide
    · show (uint 4 g.toNat).bytes.length < _
      rw [show (uint 4 g.toNat).bytes.length = 4 from rfl]; decide
  obtain ⟨_, h1, h2⟩ := kdfLabel_inj (hf a ha g n) (hf b hb g' n') h
  refine ⟨?_, u32_pf.eq trivial trivial trivial trivial h2⟩
  revert h1
  simp only [List.mem_cons, List.not_mem_nil, or_false] at ha hb
  rcases ha with rfl | rfl | rfl <;> rcases hb with rfl | rfl | rfl <;> decide

example : ∃ y k n, RatchetSecret.advance mixProvider .MLS_128_DHKEMX25519_AES128GCM_SHA256_Ed25519 3 ⟨[1], 0⟩ = .ok y ∧
    y.generation = 3 ∧ y.derive_key mixProvider .MLS_128_DHKEMX25519_AES128GCM_SHA256_Ed25519 = .ok k ∧
    y.derive_nonce mixProvider .MLS_128_DHKEMX25519_AES128GCM_SHA256_Ed25519 = .ok n ∧ k ≠ n :=
  ⟨_, _, _, rfl, rfl, rfl, rfl, by decide +kernel⟩

/-! ## C37 -/

/-- C37: the guard is combined with the first bytes of the nonce of this generation, and a guard that is longer than
the nonce is an error. -/
theorem C37_nonce (P : CryptoProvider) (cs : CipherSuite) (x : RatchetSecret) (key nonce guard : Bytes)
    (hk : x.derive_key P cs = .ok key) (hn : x.derive_nonce P cs = .ok nonce) :
    (guard.length ≤ nonce.length → ∃ out, derive_private_message_key_and_nonce P cs x guard = .ok (key, out) ∧
      out.length = nonce.length ∧
      (∀ i, i < guard.length → out[i]? = some (nonce.getD i 0 ^^^ guard.getD i 0)) ∧
      (∀ i, guard.length ≤ i → out[i]? = nonce[i]?)) ∧
    (nonce.length < guard.length →
      derive_private_message_key_and_nonce P cs x guard = .err .NonceAndReuseGuardLenNotMatch) := by
  unfold derive_private_message_key_and_nonce
  rw [hk, Res.ok_bind, hn, Res.ok_bind]
  refine ⟨fun hl => ?_, fun hl => by rw [if_pos hl]⟩
  rw [if_neg (by omega)]
  refine ⟨_, rfl, xorGuard_length .., ?_, ?_⟩
  · intro i hi
    rw [xorGuard_get]
    simp [List.getD, hi, show i < nonce.length by omega]
  · intro i hi
    rw [xorGuard_get, List.getElem?_eq_none hi]
    simp

/-- C37: two different guards of four bytes give two different nonces, with the same key. -/
theorem C37_distinct (P : CryptoProvider) (cs : CipherSuite) (x : RatchetSecret) (g g' : Bytes)
    (hg : g.length = 4) (hg' : g'.length = 4) (hne : g ≠ g') (a b : Bytes × Bytes)
    (ha : derive_private_message_key_and_nonce P cs x g = .ok a)
    (hb : derive_private_message_key_and_nonce P cs x g' = .ok b) :
    a.1 = b.1 ∧ a.2 ≠ b.2 ∧ a.2.drop 4 = b.2.drop 4 := by
  have hd := ha
  unfold derive_private_message_key_and_nonce at hd
  obtain ⟨key, hk, hd⟩ := Res.bind_ok_iff.1 hd
  obtain ⟨nonce, hn, hd⟩ := Res.bind_ok_iff.1 hd
  have hlen : 4 ≤ nonce.length := by
    by_cases h : nonce.length < g.length
    · rw [if_pos h] at hd; cases hd
    · omega
  clear hd
  obtain ⟨o, h1, _, h3, h4⟩ := (C37_nonce P cs x key nonce g hk hn).1 (by omega)
  obtain ⟨o', h1', _, h3', h4'⟩ := (C37_nonce P cs x key nonce g' hk hn).1 (by omega)
  cases ha.symm.trans h1
  cases hb.symm.trans h1'
  refine ⟨rfl, fun he => hne ?_, ?_⟩
  · apply List.ext_getElem (by omega)
    intro i hi hi'
    have e1 := h3 i hi
    have e2 := h3' i hi'
    simp only at he
    rw [he, e2] at e1
    simp only [List.getD, List.getElem?_eq_getElem hi, List.getElem?_eq_getElem hi', Option.getD_some,
      Option.some.injEq] at e1
    have := congrArg (fun v => (nonce[i]?.getD 0) ^^^ v) e1
    simpa [← UInt8.xor_assoc] using this.symm
  · apply List.ext_getElem?
    intro i
    simp only [List.getElem?_drop]
    rw [h4 _ (by omega), h4' _ (by omega)]

example : ∃ a b, derive_private_message_key_and_nonce toyProvider .MLS_128_DHKEMX25519_AES128GCM_SHA256_Ed25519 ⟨[1], 0⟩
      [1, 2, 3, 4] = .ok a ∧
    derive_private_message_key_and_nonce toyProvider .MLS_128_DHKEMX25519_AES128GCM_SHA256_Ed25519 ⟨[1], 0⟩
      [1, 2, 3, 5] = .ok b ∧ a.2 ≠ b.2 := ⟨_, _, rfl, rfl, by decide⟩

/-- C37: two messages of one sender with the key of the same generation have different nonces if the random bytes differ,
whatever the sender data are otherwise. -/
theorem C37_sender_data (P : CryptoProvider) (cs : CipherSuite) (x : RatchetSecret) (rnd rnd' : Bytes)
    (h4 : rnd.length = 4) (h4' : rnd'.length = 4) (hne : rnd ≠ rnd') (i i' : LeafIndex) (g g' : UInt32) (a b : Bytes × Bytes)
    (ha : derive_private_message_key_and_nonce P cs x (SenderData.new rnd i g).reuse_guard = .ok a)
    (hb : derive_private_message_key_and_nonce P cs x (SenderData.new rnd' i' g').reuse_guard = .ok b) :
    a.2 ≠ b.2 ∧ (SenderData.new rnd i g).leaf_index = i ∧ (SenderData.new rnd i g).generation = g :=
  ⟨(C37_distinct P cs x rnd rnd' h4 h4' hne a b ha hb).2.1, rfl, rfl⟩

end Rmls
