import Verif.Spec.Turns
import Verif.Props.Lockout
/-
Property C124: the keys of a group can be renewed again and again.
-/
namespace Rmls
open Spec Spec.Enc MessageProtection PassiveClient RatchetTree

/-- C124: with members below both children of every parent, the length of a path depends on the members only. -/
theorem C124_length {t : RatchetTree} {K j : Nat} (hsz : t.length + 1 = 2 ^ (K + 1)) (hb : BothUsed t.get) :
    (filteredLevels t.get K j).length = pathLength t.get K j := by
  unfold filteredLevels pathLength
  rw [List.length_map]
  congr 1
  refine List.filter_congr fun k _ => ?_
  rw [Bool.eq_iff_iff, Bool.not_eq_true', List.any_eq_true]
  constructor
  · intro h
    have hne : ¬ ∀ x, inSubtree k (sib j k) x → t.get x = none := by
      intro hc
      rw [resolution_empty_iff.2 hc] at h
      cases h
    obtain ⟨x, hx⟩ := Classical.not_forall.1 hne
    obtain ⟨hx, hn⟩ := Classical.not_imp.1 hx
    obtain ⟨i, hi, ho⟩ := used_below hb hx hn
    rw [node_zero] at ho
    refine ⟨i, ?_, ?_⟩
    · rw [List.mem_range]
      cases hg : t.get (2 * i) with
      | none => exact absurd hg ho
      | some n =>
        have := lt_of_get hg
        rw [Nat.pow_succ] at hsz
        omega
    · rw [Bool.and_eq_true, decide_eq_true_iff]
      exact ⟨below_div.1 hi, Option.isSome_iff_ne_none.2 ho⟩
  · rintro ⟨i, _, hi⟩
    rw [Bool.and_eq_true, decide_eq_true_iff] at hi
    cases he : (resolution t.get k (sib j k)).isEmpty with
    | false => rfl
    | true =>
      have := resolution_empty_iff.1 (List.isEmpty_iff.1 he) _ (inSubtree_leaf.2 (below_div.2 hi.1))
      rw [node_zero] at this
      rw [this] at hi
      cases hi.2

/-- C124, one round: in a tree that newcomers accept, every member who is not alone has a path with the keys of their choice. -/
theorem C124_round (P : CryptoProvider) (cs : CipherSuite) (Hs : Hash) (hP : P.hash cs = .ok Hs)
    (hd : ∀ b, (Hs.digest b).length ≤ 256) (ctx : GroupContext) (t : RatchetTree) (K : Nat)
    (h : Welcoming P Hs.digest ctx K t) (r : Turn) (l : LeafNode) (hl : t.get (2 * r.member.toNat) = some (.Leaf l))
    (hother : ∃ i, i ≠ r.member.toNat ∧ t.get (2 * i) ≠ none) (priv : Bytes) (hk : SignaturePair P cs priv l.payload.signature_key)
    (hsign : CanSign P cs priv) (hfit : Renewable ctx r.member [] [] l r.key r.nodes)
    (hlen : r.nodes.length = pathLength t.get K r.member.toNat) (hdistinct : r.keys.Nodup)
    (hfresh : ∀ key ∈ r.keys, ∀ x, ¬ HasKey t.get x key) :
    ∃ out sig t', GoodPath P cs ctx t r.member ⟨renewedLeaf l r.key out sig, r.nodes⟩ ∧
      t.merge_update_path P cs r.member.toNat ⟨renewedLeaf l r.key out sig, r.nodes⟩ = (t', .ok ()) := by
  have hpos := Nat.two_pow_pos K
  have h2 : 2 ^ (K + 1) = 2 * 2 ^ K := by rw [Nat.pow_succ]; omega
  have hsz := h.size
  have hd' : ∀ b, (Hs.digest b).length < 2 ^ 30 := fun b => by have := hd b; omega
  have hn : (t.length + 1) / 2 = 2 ^ K := by omega
  have hv : TreeValid P Hs.digest t.get K (2 ^ K) (withTree Hs.digest ctx t K) 0 := h.valid
  have hsmall : ∀ x p, t.get x = some (.Parent p) → ∀ u ∈ p.unmerged_leaves, u.toNat < 2 ^ 31 := by
    intro x p hx u hu
    have hne : t.get (2 * u.toNat) ≠ none := h.unmerged x p hx u hu
    have hlim := h.small
    cases hg : t.get (2 * u.toNat) with
    | none => exact absurd hg hne
    | some n => have := lt_of_get hg; omega
  have hmi : MergeInput t K r.member.toNat :=
    ⟨⟨h.small, by rw [hn]; exact pow_isHeight K, lt_of_get hl⟩, hsmall⟩
  have hdef : ∀ k ∈ filteredLevels t.get K r.member.toNat,
      HashDefined Hs.digest t.get (k - 1) (sib r.member.toNat (k - 1)) := by
    intro k hk
    obtain ⟨k1, k2, _⟩ := filteredLevels_mem.1 hk
    exact hashDefined_sub (a := K - (k - 1)) hv.defined (by omega) (sib_top hmi.sender (by omega))
  have hfl : r.nodes.length = (filteredLevels t.get K r.member.toNat).length := hlen.trans (C124_length h.size h.both).symm
  obtain ⟨i, hic, hi⟩ := hother
  have hi2 : i < 2 ^ K := by
    cases hg : t.get (2 * i) with
    | none => exact absurd hg hi
    | some n => have := lt_of_get hg; omega
  have hne := filtered_ne hmi.sender hi2 hic hi
  have hkl := renewal_nodes hfit
  obtain ⟨out, hout⟩ := C22_accepts P cs Hs hP t K r.member.toNat hmi r.nodes hfl
    (by intro hc; rw [hc] at hfl; exact hne (List.eq_nil_of_length_eq_zero hfl.symm)) hdef hd' hkl
  have merged : ∀ sig, ∃ t', t.merge_update_path P cs r.member.toNat ⟨renewedLeaf l r.key out sig, r.nodes⟩ = (t', .ok ()) :=
    fun sig => ⟨_, Prod.ext rfl ((hout _).2 rfl)⟩
  have hol : out.length ≤ 256 := by
    obtain ⟨t', hm⟩ := merged []
    obtain ⟨b, q, _, _, he⟩ := ((C22_exact P cs Hs hP t _ K r.member.toNat hmi _ hdef hd' hkl).1 hm).2.source
    have he : LeafNodeSource.Commit out = _ := he
    cases he
    exact hd _
  obtain ⟨sg, hsg, hsigns⟩ := hsign
  obtain ⟨sig, hsig, hsl⟩ := hsigns (labelled (text "LeafNodeTBS")
    (leafNodeTBS (renewedLeaf l r.key out []).payload ctx.group_id r.member).bytes).bytes
  obtain ⟨hsend, hf1, hf2⟩ := renewal_sendable hfit hol hsl
  obtain ⟨t', hm⟩ := merged sig
  have hlv := hv.leaves r.member.toNat l (by rw [node_zero]; exact hl)
  refine ⟨out, sig, t', ⟨⟨l, hl, rfl⟩, ⟨⟨out, rfl⟩, ⟨⟨hf1, ⟨⟨trivial, by decide⟩, trivial, hf2⟩, sg, hsg, hk sg _ _ hsg hsig⟩, ?_,
    nofun, hlv.extensions⟩, fun i m hi he => ?_, fun i m hi => ⟨fun he => ?_, fun n hn he => ?_⟩⟩, ?_, hdistinct, hfresh⟩, hm⟩
  · rw [hn]; exact hlv.credential
  · exact hv.signature_keys i _ m l (by rw [node_zero]; exact hi) (by rw [node_zero]; exact hl) he
  · exact hfresh r.key (.head _) (node 0 i) (.inl ⟨i, m, rfl, by rw [node_zero]; exact hi, he⟩)
  · exact hfresh n.encryption_key (.tail _ (List.mem_map_of_mem hn)) (node 0 i) (.inl ⟨i, m, rfl, by rw [node_zero]; exact hi, he⟩)
  · obtain ⟨⟨_, _, ⟨_, _, _, _, _, hp⟩, _⟩, _⟩ := hsend
    exact hp.2.2

/-- C124: every schedule can be carried out, however long, and the tree after it is one that newcomers accept.  Otherwise there is
a turn at which an older node carries the hash of a parent that is only made in this turn. -/
theorem C124_schedule (P : CryptoProvider) (cs : CipherSuite) (Hs : Hash) (hP : P.hash cs = .ok Hs)
    (hd : ∀ b, (Hs.digest b).length ≤ 256) (ctx : GroupContext) (hctx : ctx.cipher_suite = cs) (K : Nat) (rs : List Turn)
    (t : RatchetTree) (h : Welcoming P Hs.digest ctx K t) (htwo : ∃ i j, i ≠ j ∧ t.get (2 * i) ≠ none ∧ t.get (2 * j) ≠ none)
    (hs : Schedule P cs ctx K t rs) :
    (∃ t', Turns P cs ctx t rs t' ∧ Welcoming P Hs.digest ctx K t' ∧
      verify_integrity P t' (withTree Hs.digest ctx t' K) 0 = .ok ()) ∨
    ∃ before r after t₁ t₂, rs = before ++ r :: after ∧ Turns P cs ctx t before t₁ ∧ Turns P cs ctx t₁ [r] t₂ ∧
      ¬ Unforeseen Hs.digest t₁.get t₂.get r.member.toNat := by
  have hd' : ∀ b, (Hs.digest b).length < 2 ^ 30 := fun b => by have := hd b; omega
  induction rs generalizing t with
  | nil =>
    exact .inl ⟨t, .nil t, C123_forever_partial P cs Hs hP hd' ctx hctx t t K h .here⟩
  | cons r rs ih =>
    obtain ⟨l, priv, hl, hk, hsign, hfit, hlen⟩ := hs.members r (.head _)
    have hl : t.get (2 * r.member.toNat) = some (.Leaf l) := hl
    have hnd := hs.distinct
    rw [List.flatMap_cons, List.nodup_append] at hnd
    obtain ⟨hn1, hn2, hn3⟩ := hnd
    have hother : ∃ i, i ≠ r.member.toNat ∧ t.get (2 * i) ≠ none := by
      obtain ⟨i, j, hij, hi, hj⟩ := htwo
      by_cases hc : i = r.member.toNat
      · exact ⟨j, by omega, hj⟩
      · exact ⟨i, hc, hi⟩
    obtain ⟨out, sig, t', hg, hm⟩ := C124_round P cs Hs hP hd ctx t K h r l hl hother priv hk hsign hfit hlen hn1
      (fun key hkey => hs.fresh key (by rw [List.flatMap_cons]; exact List.mem_append_left _ hkey))
    by_cases hun : Unforeseen Hs.digest t.get t'.get r.member.toNat
    · have hw := (C123_stays_partial P cs Hs hP hd' ctx hctx t t' K h r.member _ hg hm hun).1
      have hplace : MergePlace t K r.member.toNat := by
        refine ⟨h.small, ?_, lt_of_get hl⟩
        rw [show (t.length + 1) / 2 = 2 ^ K by have := h.size; rw [Nat.pow_succ] at this; omega]
        exact pow_isHeight K
      obtain ⟨a1, a2, a3, a4, a5, a6⟩ := C22_effect P _ Hs hP t t' K _ hplace _ hm
      obtain ⟨b1, b2, b3⟩ := C23_parent_hashes P _ Hs hP t t' K _ hplace _ hm
      have hpm : PathMerged Hs.digest K r.member.toNat ⟨renewedLeaf l r.key out sig, r.nodes⟩ t.get t'.get :=
        ⟨a2, a3, a4, a5, a6, b1, b2, b3⟩
      have hown : t'.get (2 * r.member.toNat) = some (.Leaf (renewedLeaf l r.key out sig)) := by
        rw [← node_zero]; exact hpm.leaf
      have hleaf : ∀ i, i ≠ r.member.toNat → t'.get (2 * i) = t.get (2 * i) := fun i hi => by
        rw [← node_zero]
        exact hpm.others _ leaf_not_above fun hc => hi (node_inj hc).2
      have hocc : ∀ i, (t'.get (2 * i)).isSome = (t.get (2 * i)).isSome := by
        intro i
        by_cases hi : i = r.member.toNat
        · rw [hi, hown, hl]; rfl
        · rw [hleaf i hi]
      have hne : ∀ i, t.get (2 * i) ≠ none → t'.get (2 * i) ≠ none := by
        intro i hi
        rw [← Option.isSome_iff_ne_none, hocc, Option.isSome_iff_ne_none]
        exact hi
      have hlens : ∀ j, pathLength t'.get K j = pathLength t.get K j := by
        intro j
        unfold pathLength
        simp only [hocc]
      have hs' : Schedule P cs ctx K t' rs := by
        refine ⟨fun r' hr' => ?_, hn2, fun key hkey x hx => ?_⟩
        · obtain ⟨l', priv', h1, h2, h3, h4, h5⟩ := hs.members r' (.tail _ hr')
          have h1 : t.get (2 * r'.member.toNat) = some (.Leaf l') := h1
          have h5 : r'.nodes.length = pathLength t'.get K r'.member.toNat := by rw [hlens]; exact h5
          by_cases hc : r'.member.toNat = r.member.toNat
          · rw [hc, hl] at h1
            cases h1
            refine ⟨renewedLeaf l r.key out sig, priv', ?_, h2, h3, h4, h5⟩
            rw [hc]; exact hown
          · exact ⟨l', priv', (hleaf _ hc).trans h1, h2, h3, h4, h5⟩
        · rcases merged_keys hpm hx with ⟨i, hi, _⟩ | hx
          · exact hn3 key (List.mem_iff_getElem?.2 ⟨i, hi⟩) key hkey rfl
          · exact hs.fresh key (by rw [List.flatMap_cons]; exact List.mem_append_right _ hkey) x hx
      obtain ⟨i, j, hij, hi, hj⟩ := htwo
      rcases ih t' hw ⟨i, j, hij, hne i hi, hne j hj⟩ hs' with ⟨t'', hr, hend⟩ | ⟨before, r', after, t₁, t₂, he, hr, h12, hbad⟩
      · exact .inl ⟨t'', .cons t t' t'' r rs l out sig hl hg hm hr, hend⟩
      · exact .inr ⟨r :: before, r', after, t₁, t₂, by rw [he]; rfl, .cons t t' t₁ r before l out sig hl hg hm hr, h12, hbad⟩
    · exact .inr ⟨[], r, rs, t, t', rfl, .nil t, .cons t t' t' r [] l out sig hl hg hm (.nil t'), hun⟩

/-! ### A schedule -/

section examples
private abbrev suite1 : CipherSuite := .MLS_128_DHKEMX25519_AES128GCM_SHA256_Ed25519
private abbrev turner : CryptoProvider := RustCryptoProvider renewPrimitives
private def turnContext : GroupContext := withTree sumHash.digest toyContext inviteTree 2
/-- The first member renews their keys, then the second, the third, and the first again. -/
private def fourTurns : List Turn :=
  [⟨0, [50], [⟨[60], [⟨[1], [2]⟩]⟩, ⟨[61], []⟩]⟩, ⟨1, [51], [⟨[62], []⟩, ⟨[63], []⟩]⟩, ⟨2, [52], [⟨[64], []⟩]⟩,
    ⟨0, [53], [⟨[65], []⟩, ⟨[66], []⟩]⟩]

private theorem turn_nodes (x : Nat) (n : Node) (h : inviteTree.get x = some n) :
    (x = 0 ∨ x = 2 ∨ x = 4) ∧ ∃ (k : UInt8) (src : LeafNodeSource), k < 3 ∧ n = .Leaf (inviteLeaf k src) := by
  match x with
  | 0 => cases h; exact ⟨.inl rfl, 0, .Update, by decide, rfl⟩
  | 1 => cases h
  | 2 => cases h; exact ⟨.inr (.inl rfl), 1, .KeyPackage ⟨0, 100⟩, by decide, rfl⟩
  | 3 => cases h
  | 4 => cases h; exact ⟨.inr (.inr rfl), 2, .KeyPackage ⟨0, 100⟩, by decide, rfl⟩
  | 5 => cases h
  | 6 => cases h
  | x + 7 => rw [get_out (by show 7 ≤ x + 7; omega)] at h; cases h

set_option maxRecDepth 100000 in
private theorem turn_welcoming : Welcoming turner sumHash.digest turnContext 2 inviteTree where
  size := rfl
  small := by decide
  valid := C19_sound turner inviteTree (withTree sumHash.digest turnContext inviteTree 2) 0
    (Suites.hashWrapper renewPrimitives .SHA256) rfl (by decide) (by decide) 2 (pow_isHeight 2) (by decide +kernel)
  unmerged x p hx := by
    obtain ⟨_, _, _, _, h⟩ := turn_nodes x _ hx
    cases h
  both k i n hx := by
    exfalso
    have := node_succ k i
    obtain ⟨h, _⟩ := turn_nodes _ n hx
    omega

private theorem turn_signs (k : UInt8) : CanSign turner suite1 (List.replicate 32 k) ∧
    SignaturePair turner suite1 (List.replicate 32 k) (List.replicate 32 (k + 1)) := by
  obtain ⟨h, sg, kp, hp, hsg, hkp, hz, hX, hS, hm, hsign, hpair, ha⟩ := C119_providers renewPrimitives renewPrimitives_lawful
    renewPrimitives_sized turner (.inl rfl) suite1 rfl [k]
  cases hsg
  cases hkp
  exact ⟨hsign, hpair⟩

set_option maxRecDepth 100000 in
/-- The conditions of `C124_schedule` can be met: these turns are a schedule for the group of three. -/
example : (∃ t', Turns turner suite1 turnContext inviteTree fourTurns t' ∧
      verify_integrity turner t' (withTree sumHash.digest turnContext t' 2) 0 = .ok ()) ∨
    ∃ before r after t₁ t₂, fourTurns = before ++ r :: after ∧ Turns turner suite1 turnContext inviteTree before t₁ ∧
      Turns turner suite1 turnContext t₁ [r] t₂ ∧ ¬ Unforeseen sumHash.digest t₁.get t₂.get r.member.toNat := by
  have hs : Schedule turner suite1 turnContext 2 inviteTree fourTurns := by
    refine ⟨fun r hr => ?_, by decide, fun key hkey x hx => ?_⟩
    · simp only [fourTurns, List.mem_cons, List.not_mem_nil, or_false] at hr
      rcases hr with rfl | rfl | rfl | rfl
      · exact ⟨inviteLeaf 0 .Update, List.replicate 32 0, rfl, (turn_signs 0).2, (turn_signs 0).1,
          ⟨by decide +kernel, by decide +kernel⟩, by decide⟩
      · exact ⟨inviteLeaf 1 (.KeyPackage ⟨0, 100⟩), List.replicate 32 1, rfl, (turn_signs 1).2, (turn_signs 1).1,
          ⟨by decide +kernel, by decide +kernel⟩, by decide⟩
      · exact ⟨inviteLeaf 2 (.KeyPackage ⟨0, 100⟩), List.replicate 32 2, rfl, (turn_signs 2).2, (turn_signs 2).1,
          ⟨by decide +kernel, by decide +kernel⟩, by decide⟩
      · exact ⟨inviteLeaf 0 .Update, List.replicate 32 0, rfl, (turn_signs 0).2, (turn_signs 0).1,
          ⟨by decide +kernel, by decide +kernel⟩, by decide⟩
    · have hsmall : ∃ k : UInt8, k < 3 ∧ key = [k] := by
        rcases hx with ⟨_, l, _, hl, rfl⟩ | ⟨p, hp, _⟩
        · obtain ⟨_, k, src, hk, h⟩ := turn_nodes _ _ hl
          cases h
          exact ⟨k, hk, rfl⟩
        · obtain ⟨_, k, src, hk, h⟩ := turn_nodes _ _ hp
          cases h
      obtain ⟨k, hk, rfl⟩ := hsmall
      have hbig : ∀ key ∈ fourTurns.flatMap Turn.keys, ∀ a ∈ key, ¬ a < 3 := by decide
      exact hbig _ hkey k (.head _) hk
  rcases C124_schedule turner suite1 (Suites.hashWrapper renewPrimitives .SHA256) rfl
    (fun b => by show (sumHash.digest b).length ≤ 256; simp [sumHash]) turnContext rfl 2 fourTurns inviteTree turn_welcoming
    ⟨0, 1, by decide, by decide, by decide⟩ hs with ⟨t', h1, _, h3⟩ | h
  · exact .inl ⟨t', h1, h3⟩
  · exact .inr h

end examples

end Rmls
