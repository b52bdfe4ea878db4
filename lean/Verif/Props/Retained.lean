import Verif.Props.Secrecy
/-
Property C87: what the secret tree keeps (section 9.2 of RFC 9420).
-/
namespace Rmls
open Spec Spec.Enc Spec.Recipe MessageProtection

/-- More knowledge. -/
theorem computes_mono {h : Hpke} {known known' : Bytes → Prop} (hk : ∀ o, known o → known' o) {calls : List Call} {o : Bytes}
    (hc : Computes h known calls o) : Computes h known' calls o := by
  induction hc with
  | known h => exact .known (hk _ h)
  | expand info n _ h ih => exact .expand info n ih h
  | extract _ _ h iha ihb => exact .extract iha ihb h

/-- Who has what a secret starts with has the secret. -/
theorem computable_of_starts {h : Hpke} {known : Bytes → Prop} : ∀ (r : Recipe) {o : Bytes}, r.Yields h o →
    (∀ x ∈ r.starts, known x) → Computable h known o := by
  intro r
  induction r with
  | given s => intro o hy hk; cases hy; exact ⟨[], .known (hk _ (List.mem_singleton.2 rfl))⟩
  | expand r l c n ih =>
    rintro o ⟨s, h1, _, _, h2⟩ hk
    obtain ⟨calls, hc⟩ := ih h1 hk
    exact ⟨_, .expand _ _ hc h2⟩
  | extract a b iha ihb =>
    rintro o ⟨x, y, h1, h2, h3⟩ hk
    obtain ⟨ca, ha⟩ := iha h1 fun z hz => hk z (List.mem_append_left _ hz)
    obtain ⟨cb, hb⟩ := ihb h2 fun z hz => hk z (List.mem_append_right _ hz)
    exact ⟨_, .extract ha hb h3⟩

theorem node_starts (h : Hpke) (enc : Recipe) : ∀ d i, (nodeRecipe h enc d i).starts = enc.starts := by
  intro d
  induction d with
  | zero => intro i; rfl
  | succ d ih => intro i; exact ih (i / 2)

theorem generation_starts (h : Hpke) (root : Recipe) : ∀ n, (generationRecipe h root n).starts = root.starts := by
  intro n
  induction n with
  | zero => rfl
  | succ n ih => exact ih

/-- The way down to a node leads over the nodes above it. -/
theorem node_over (h : Hpke) (enc : Recipe) (d : Nat) : ∀ m i,
    nodeRecipe h enc (m + d) i = nodeRecipe h (nodeRecipe h enc d (i / 2 ^ m)) m i := by
  intro m
  induction m with
  | zero => intro i; rw [Nat.zero_add, Nat.pow_zero, Nat.div_one]; rfl
  | succ m ih =>
    intro i
    rw [show m + 1 + d = (m + d) + 1 by omega, nodeRecipe, nodeRecipe, ih (i / 2), Nat.div_div_eq_div_mul, Nat.pow_succ,
      Nat.mul_comm (2 ^ m) 2]

/-- A node in place of how it was put together. -/
theorem node_given {h : Hpke} {r : Recipe} {v : Bytes} (hv : r.Yields h v) : ∀ m i o, (nodeRecipe h r m i).Yields h o →
    (nodeRecipe h (given v) m i).Yields h o := by
  intro m
  induction m with
  | zero => intro i o ho; exact yields_unique r ho hv
  | succ m ih =>
    rintro i o ⟨s, h1, h2⟩
    exact ⟨s, ih _ _ h1, h2⟩

/-- C87 is false in general: the tree that is made for an epoch holds the secrets of all nodes over a leaf, from the
encryption secret at the root down to the leaf itself, and each of them is enough to compute any key of that leaf, whatever
has been used by then.  Deriving a ratchet does not change the tree. -/
theorem C87_kept (P : CryptoProvider) (cs : CipherSuite) (h : Hpke) (hp : P.hpke cs = .ok h) (hs : Sizes h) (K : Nat)
    (hK : K ≤ 31) (es : Bytes) (t : SecretTree) (ht : SecretTree.new P cs (2 ^ K) es = .ok t) (li : Nat) (hli : li < 2 ^ K)
    (ct : ContentType) (g : UInt32) (guard key nonce : Bytes)
    (hk : messageKeys P cs (2 ^ K) es li ct g guard = .ok (key, nonce)) :
    t[node K 0]? = some (some es) ∧
    ∀ k ≤ K, ∃ v, t[node k (li / 2 ^ k)]? = some (some v) ∧ Computable h (fun o => o = v) key := by
  have htree := (C35_secrets P cs h hp hs K hK es t ht).2
  have at_ : ∀ k ≤ K, ∀ i, i < 2 ^ (K - k) → ∃ v, t[node k i]? = some (some v) ∧
      (nodeRecipe h (given es) (K - k) i).Yields h v := by
    intro k hk i hi
    obtain ⟨v, h1, h2⟩ := htree k i hk hi
    exact ⟨v, h1, (nodeRecipe_of (enc := given es) rfl h2).2⟩
  constructor
  · obtain ⟨v, h1, h2⟩ := at_ K (Nat.le_refl _) 0 (Nat.two_pow_pos _)
    rw [Nat.sub_self] at h2
    cases h2
    exact h1
  · intro k hkK
    have hlt : li / 2 ^ k < 2 ^ (K - k) := by
      rw [Nat.div_lt_iff_lt_mul (Nat.two_pow_pos _), ← Nat.pow_add, Nat.sub_add_cancel hkK]
      exact hli
    obtain ⟨v, h1, h2⟩ := at_ k hkK _ hlt
    refine ⟨v, h1, ?_⟩
    obtain ⟨x, ⟨leaf, root, k1, k2, k3⟩, ⟨_, k4⟩, _⟩ := messageKeys_secret hp hs hK hli hk
    have hleaf := (nodeRecipe_of (enc := given es) rfl k1).2
    have hover := node_over h (given es) (K - k) k li
    rw [show k + (K - k) = K by omega] at hover
    rw [Nat.sub_zero, hover] at hleaf
    have hroot : (expand (nodeRecipe h (given v) k li) (ratchetName ct) [] h.kdf_extract_size).Yields h root :=
      ⟨leaf, node_given h2 _ _ _ hleaf, k2⟩
    refine computable_of_starts (expand (generationRecipe h (expand (nodeRecipe h (given v) k li) (ratchetName ct) []
      h.kdf_extract_size) g.toNat) (text "key") (uint 4 g.toNat).bytes h.aead_key_size)
      ⟨x, generationRecipe_of hroot k3, k4⟩ fun z hz => ?_
    rw [starts, generation_starts, starts, node_starts] at hz
    exact List.mem_singleton.1 hz

/-- C87, what is true: a ratchet that has gone on does not give away the keys before, if the tree is thrown away: who computes
one from it knows all that the key schedule started with, or has found a collision of the KDF.  Missing: nothing throws the
tree away, or the part of it that has been used. -/
theorem C87_ratchet_partial (P : CryptoProvider) (cs : CipherSuite) (h : Hpke) (hp : P.hpke cs = .ok h) (hs : Sizes h)
    (start : Bytes) (hist : List Epochs.Input) (e : Epochs.Input)
    (hc : ∀ x ∈ e :: hist, x.ctx.cipher_suite = cs ∧ ContextCanonical x.ctx) (hd : ∀ x ∈ hist, x.ctx ≠ e.ctx) (i s es : Bytes)
    (h1 : Epochs.run P cs start hist = .ok i) (h2 : Epochs.epochSecret P i e = .ok s)
    (h3 : P.derive_secret cs s SECRET_LABEL_ENCRYPTION = .ok es) (K li : Nat) (hK : K ≤ 31) (hli : li < 2 ^ K)
    (ct : ContentType) (g : UInt32) (guard key nonce : Bytes)
    (hk : messageKeys P cs (2 ^ K) es li ct g guard = .ok (key, nonce)) (g' : UInt32) (hg : g < g') (x : RatchetSecret)
    (hx : (ratchetRoot P cs (2 ^ K) es li ct >>= seek P cs g' 4294967296) = .ok x) (calls : List Call)
    (hcomp : Computes h (fun o => o = x.secret) calls key) :
    let target := keyRecipe h (encryptionRecipe h start hist.reverse e) K li ct g.toNat
    let kept := Keeps h (epochRecipe h (initRecipe h start hist.reverse) e) K li ct g.toNat (text "key", h.aead_key_size)
    (∀ z ∈ target.starts, Computable h (With h (fun _ => False) kept) z) ∨ Hit h calls target ∨
      ∃ r, kept r ∧ Collide h r target := by
  dsimp only
  have hy := (C76_code P cs h hp hs start hist e (fun x hx => (hc x hx).1) i s es h1 h2 h3 K hK).2.2.1 li ct g' x hli hx
  have hc' := computes_mono (known' := With h (fun _ => False) (Keeps h (epochRecipe h (initRecipe h start hist.reverse) e) K li
    ct g.toNat (text "key", h.aead_key_size))) (fun o ho => .inr ⟨_, .ratchet hli g'.toNat_lt (fun _ _ => hg), ho ▸ hy⟩) hcomp
  rcases C76_forward P cs h hp hs start hist e hc hd i s es h1 h2 h3 K li hK hli ct g guard key nonce hk (fun _ => False) calls hc'
    with ⟨_, _, _, _, hf⟩ | h
  · exact hf.elim
  · exact h

section examples

private abbrev suite1 : CipherSuite := .MLS_128_DHKEMX25519_AES128GCM_SHA256_Ed25519

set_option maxRecDepth 100000 in
/-- C87 is false, and the hypotheses of `C87_kept` can be met: in a group of four, with a KDF without collisions, the key of the
third message of the second member can be computed from the tree, though the ratchet has gone on. -/
theorem C87_refuted : ∃ (t : SecretTree) (key nonce : Bytes) (x : RatchetSecret),
    SecretTree.new freeProvider suite1 (2 ^ 2) [9] = .ok t ∧
    messageKeys freeProvider suite1 (2 ^ 2) [9] 1 .Application 2 [1, 2, 3, 4] = .ok (key, nonce) ∧
    (ratchetRoot freeProvider suite1 (2 ^ 2) [9] 1 .Application >>= seek freeProvider suite1 5 4294967296) = .ok x ∧
    ∀ k ≤ 2, ∃ v, t[node k (1 / 2 ^ k)]? = some (some v) ∧ Computable freeHpke (fun o => o = v) key := by
  have h1 : (SecretTree.new freeProvider suite1 (2 ^ 2) [9] >>= fun t =>
      messageKeys freeProvider suite1 (2 ^ 2) [9] 1 .Application 2 [1, 2, 3, 4]).isOk = .ok true := by decide +kernel
  obtain ⟨⟨key, nonce⟩, hk⟩ := isOk_true.1 h1
  obtain ⟨t, ht, hk⟩ := Res.bind_ok_iff.1 hk
  have h2 : (ratchetRoot freeProvider suite1 (2 ^ 2) [9] 1 .Application >>= seek freeProvider suite1 5 4294967296).isOk =
    .ok true := by decide +kernel
  obtain ⟨x, hx⟩ := isOk_true.1 h2
  exact ⟨t, key, nonce, x, ht, hk, hx, (C87_kept freeProvider suite1 freeHpke rfl ⟨by decide, by decide, by decide⟩ 2 (by decide)
    [9] t ht 1 (by decide) .Application 2 [1, 2, 3, 4] key nonce hk).2⟩

set_option maxRecDepth 100000 in
/-- The other hypotheses of `C87_ratchet_partial`, on the epochs and the ratchet, can be met. -/
example : ∃ i s es key nonce x, Epochs.run freeProvider suite1 [9] [⟨{ toyContext with epoch := 0 }, [1], []⟩] = .ok i ∧
    Epochs.epochSecret freeProvider i ⟨{ toyContext with epoch := 1 }, [3], []⟩ = .ok s ∧
    freeProvider.derive_secret suite1 s SECRET_LABEL_ENCRYPTION = .ok es ∧
    messageKeys freeProvider suite1 (2 ^ 2) es 2 .Application 0 [1, 2, 3, 4] = .ok (key, nonce) ∧
    (ratchetRoot freeProvider suite1 (2 ^ 2) es 2 .Application >>= seek freeProvider suite1 1 4294967296) = .ok x := by
  have h1 : (Epochs.run freeProvider suite1 [9] [⟨{ toyContext with epoch := 0 }, [1], []⟩] >>= fun i =>
      Epochs.epochSecret freeProvider i ⟨{ toyContext with epoch := 1 }, [3], []⟩ >>= fun s =>
      freeProvider.derive_secret suite1 s SECRET_LABEL_ENCRYPTION >>= fun es =>
      messageKeys freeProvider suite1 (2 ^ 2) es 2 .Application 0 [1, 2, 3, 4] >>= fun k =>
      ratchetRoot freeProvider suite1 (2 ^ 2) es 2 .Application >>= seek freeProvider suite1 1 4294967296).isOk = .ok true := by
    decide +kernel
  obtain ⟨x, hk⟩ := isOk_true.1 h1
  rw [Res.bind_ok_iff] at hk
  obtain ⟨i, k1, hk⟩ := hk
  rw [Res.bind_ok_iff] at hk
  obtain ⟨s, k2, hk⟩ := hk
  rw [Res.bind_ok_iff] at hk
  obtain ⟨es, k3, hk⟩ := hk
  rw [Res.bind_ok_iff] at hk
  obtain ⟨⟨key, nonce⟩, k4, hk⟩ := hk
  exact ⟨i, s, es, key, nonce, x, k1, k2, k3, k4, hk⟩

end examples

end Rmls
