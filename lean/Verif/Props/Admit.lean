import Verif.Props.Orderly
import Verif.Props.Invite
import Verif.Props.Renewing
/-
Property C126: whoever is added to a group that keeps to the rules can join it and talk with the others.
-/
namespace Rmls
open Spec Spec.Enc MessageProtection PassiveClient RatchetTree

/-- These leaf nodes are added, one after the other. -/
inductive Admitted (P : CryptoProvider) (cs : CipherSuite) (group_id : Bytes) : RatchetTree → List LeafNode → RatchetTree → Prop where
  | none (t) : Admitted P cs group_id t [] t
  | next {t t' t'' leaf leaves} (li : Nat) : FromPackage leaf → t.get (2 * li) = none → GoodLeaf P cs group_id t li leaf →
      ((∃ j, 2 * j < t.length ∧ t.get (2 * j) = none) ∨ (t.length % 2 = 1 ∧ t.length < 2 ^ 31)) →
      t.add leaf = .ok t' → ShortLists t' → Admitted P cs group_id t' leaves t'' → Admitted P cs group_id t (leaf :: leaves) t''

/-- They belong to the history of the group. -/
theorem Admitted.orderly {P : CryptoProvider} {cs : CipherSuite} {H : Bytes → Bytes} {gid : Bytes} {t₀ t t' : RatchetTree}
    {leaves : List LeafNode} (h : Admitted P cs gid t leaves t') (h₀ : Orderly P cs H gid t₀ t) : Orderly P cs H gid t₀ t' := by
  induction h with
  | none t => exact h₀
  | next li hf hli hg hroom hr hshort _ ih => exact ih (.add li _ h₀ hf hli hg hroom hr hshort)

/-- Everybody who is added is in the tree, and everybody else stays. -/
theorem Admitted.placed {P : CryptoProvider} {cs : CipherSuite} {H : Bytes → Bytes} {gid : Bytes} {t t' : RatchetTree}
    {leaves : List LeafNode} (h : Admitted P cs gid t leaves t') (hj : Joinable P cs H gid t) :
    (∀ i l, t.get (2 * i) = some (.Leaf l) → t'.get (2 * i) = some (.Leaf l)) ∧
      ∀ l ∈ leaves, ∃ i, t'.get (2 * i) = some (.Leaf l) := by
  induction h with
  | none t => exact ⟨fun _ _ h => h, nofun⟩
  | next li hf hli hg hroom hr hshort _ ih =>
    obtain ⟨h1, h2⟩ := ih (joinable_add hj hf hli hg hroom hr hshort)
    obtain ⟨j, K, hfree, hget⟩ := add_placed hj.standing.inv.size hroom hr
    refine ⟨fun i l hi => h1 i l ?_, fun l hl => ?_⟩
    · have hne : 2 * i ≠ 2 * j := fun hc => by rw [hc, hfree] at hi; cases hi
      rw [hget, if_neg hne, if_neg (by rw [← node_zero]; exact leaf_not_above)]
      exact hi
    · rcases List.mem_cons.1 hl with rfl | hl
      · exact ⟨j, h1 j _ (by rw [hget, if_pos rfl])⟩
      · exact h2 l hl

/-- A history of a group that keeps to the rules is one in which every add found room. -/
theorem Orderly.roomSteps {P : CryptoProvider} {cs : CipherSuite} {H : Bytes → Bytes} {gid : Bytes} {t₀ t : RatchetTree}
    (h : Orderly P cs H gid t₀ t) : ∃ evs, RoomSteps P cs t₀ evs t := by
  have snoc : ∀ {t t' : RatchetTree} {evs ev}, RoomSteps P cs t₀ evs t → TreeStep P cs t ev t' → Roomy t ev →
      ∃ evs, RoomSteps P cs t₀ evs t' := fun h h1 h2 => ⟨_, h.append (.cons h1 h2 (.nil _))⟩
  induction h with
  | here => exact ⟨[], .nil _⟩
  | add li leaf _ hf hli hg hroom hr hshort ih =>
    obtain ⟨_, ih⟩ := ih
    exact snoc ih (ev := .add leaf) ⟨hroom.imp id And.right, hr⟩ (hroom.imp id And.left)
  | update li leaf _ hm hg hr ih =>
    obtain ⟨_, ih⟩ := ih
    exact snoc ih (ev := .update li leaf) ⟨hm, hr⟩ trivial
  | remove li _ hm hr ih =>
    obtain ⟨_, ih⟩ := ih
    exact snoc ih (ev := .remove li) ⟨hm, hr⟩ trivial
  | merge li path _ hm hg hk hr hun ih =>
    obtain ⟨_, ih⟩ := ih
    exact snoc ih (ev := .merge li path) ⟨hm, .inl hr⟩ trivial

/-- C126: in a group that keeps to the rules, whatever its history, others are added by their key packages, and a member makes a welcome
for them.  Everybody who is added joins with it, and has the secrets of the others; and then everybody in the tree
can send private messages that fit, and everybody reads them. -/
theorem C126_admits (P : CryptoProvider) (cs : CipherSuite) (hcs : cs.WF) (hsuite : Spec.HpkeSuite cs) (h : Hpke)
    (hp : P.hpke cs = .ok h) (hz : Sizes h) (hX : Extractor h) (hT : Expander h) (hS : Sealer h) (ha : AeadPair h)
    (hm : HasMac P cs) (Hs : Hash) (hP : P.hash cs = .ok Hs) (hs : ∀ b, (Hs.digest b).length < 2 ^ 30)
    -- the group
    (founder : LeafNode) (hnc : NotCommit founder) (v : Invitation) (hf : GoodLeaf P cs v.context.group_id [] 0 founder)
    (t₀ t : RatchetTree) (ht : Orderly P cs Hs.digest v.context.group_id [some (.Leaf founder)] t₀)
    -- those who are added, to a group that is not empty
    (hadd : Admitted P cs v.context.group_id t₀ (v.invited.map fun x => x.kp.payload.leaf_node) t) (h0 : t ≠ [])
    -- the member who makes the welcome
    (htw : t.NodesWF) (raw : Bytes) (hraw : RatchetTree.serialize t = .ok raw) (hv : v.Fits)
    (hctx : v.context.cipher_suite = cs) (hcw : v.context.WF) (hew : Extensions.WF v.extensions)
    (hext : FirstExtension .RatchetTree v.extensions raw) (K : Nat) (hK : IsHeight ((t.length + 1) / 2) K)
    (hhash : v.context.tree_hash = treeHash Hs.digest t.get K 0)
    (signer : LeafNode) (hsigner : t₀.get (2 * v.signer.toNat) = some (.Leaf signer)) (priv : Bytes)
    (hk : SignaturePair P cs priv signer.payload.signature_key) (hsign : CanSign P cs priv) (hn : v.psk_ids.length < 2 ^ 16)
    (hj : h.kdf_extract_size ≤ v.joiner_secret.length) (external : List (Bytes × Bytes))
    (hsup : Supplies external v.psk_ids v.psks)
    (hin : ∀ x ∈ v.invited, x.kp.WF ∧ x.kp.payload.cipher_suite = cs ∧ CanEncrypt P cs x.kp.payload.init_key) :
    ∃ w gi psk e, invite P cs priv v = .ok (w, gi, psk, e) ∧
      ∀ before x after, v.invited = before ++ x :: after → (∀ y ∈ before, ∀ r, IsRef P y.kp r → ¬ IsRef P x.kp r) →
      ∀ init_priv, HpkePair P cs init_priv x.kp.payload.init_key →
      ∃ s, join P cs w x.kp init_priv external none = .ok s ∧ s.epoch_secret = e ∧ s.group_info.group_context = v.context ∧
        s.group_secrets = v.secrets x ∧ t.get (2 * s.leaf) = some (.Leaf x.kp.payload.leaf_node) ∧
        ∀ (li : LeafIndex) (leaf : LeafNode), t.get (2 * li.toNat) = some (.Leaf leaf) →
        ∀ key, SignaturePair P cs key leaf.payload.signature_key → CanSign P cs key →
        ∀ (g : UInt32) (rnd : Bytes), rnd.length = 4 → ∀ (epoch : UInt64) (gid : GroupID) (c : Content), c.WF →
        Sendable .PrivateMessage ⟨gid, epoch, .Member li, [], c⟩ v.context →
        ∃ es sds m b, P.derive_secret cs e SECRET_LABEL_ENCRYPTION = .ok es ∧
          P.derive_secret cs e SECRET_LABEL_SENDER_DATA = .ok sds ∧
          (∀ sender, sender = t ∨ sender = s.tree →
            send P cs v.context sender.num_leaves es sds li g rnd key epoch gid c = .ok m) ∧
          MLSMessage.serialize ⟨.MLS10, .PrivateMessage m⟩ = .ok b ∧
          ∀ receiver, receiver = t ∨ receiver = s.tree → ∀ rest, ∃ leaf' auth,
            receiver.get_leaf li.toNat = .ok (some leaf') ∧
            receive P cs v.context receiver.num_leaves es sds li.toNat leaf'.payload.signature_key (b ++ rest) =
              .ok (⟨li, g, rnd⟩, ⟨.PrivateMessage, ⟨gid, epoch, .Member li, [], c⟩, auth⟩) := by
  have hord := hadd.orderly ht
  obtain ⟨evs, hevs⟩ := hord.roomSteps
  have hj₀ := orderly_joinable hP hs (joinable_founder hnc hf) ht
  obtain ⟨hkeep, hnew⟩ := hadd.placed hj₀
  have hval := C125_always_partial P cs Hs hP hs v.context.group_id founder hnc hf t hord h0 K hK v.context hctx rfl hhash
  have hsg := hkeep _ _ hsigner
  refine C120_talk P cs hcs hsuite h hp hz hX hT hS ha hm founder evs t hevs h0 htw raw hraw v hv hctx hcw hew hext hval signer
    ?_ priv hk hsign hn hj external hsup fun x hx => ?_
  · rw [get_leaf_eq (by have := lt_of_get hsg; have := (orderly_joinable hP hs (joinable_founder hnc hf) hord).standing.inv.size; omega)]
    rw [hsg]
  · obtain ⟨a, b, c⟩ := hin x hx
    exact ⟨a, b, c, hnew _ (List.mem_map.2 ⟨x, hx, rfl⟩)⟩

section examples
private abbrev suite1 : CipherSuite := .MLS_128_DHKEMX25519_AES128GCM_SHA256_Ed25519
private abbrev admitter : CryptoProvider := RustCryptoProvider renewPrimitives

private def admitInvite : Invitation :=
  { inviteTwo with context := { toyContext with tree_hash := treeHash sumHash.digest inviteTree.get 2 0 } }

private theorem admit_fits : admitInvite.Fits where
  context := by decide +kernel
  extensions := by decide +kernel
  info := by decide +kernel
  ids := by decide +kernel
  secrets x hx := by
    simp only [admitInvite, inviteTwo, List.mem_cons, List.not_mem_nil, or_false] at hx
    rcases hx with rfl | rfl <;> decide +kernel
  packages x hx := by
    simp only [admitInvite, inviteTwo, List.mem_cons, List.not_mem_nil, or_false] at hx
    rcases hx with rfl | rfl <;> decide +kernel

private theorem admit_hpkePair (k : Bytes) : HpkePair admitter suite1 k k := by
  intro r i p kem c h
  cases h
  show (if (k ++ i).isPrefixOf (k ++ i ++ p) then _ else _) = _
  rw [if_pos (List.isPrefixOf_iff_prefix.2 (List.prefix_append _ _)), List.drop_left]

private theorem admitLeaf_wf (k : UInt8) (source : LeafNodeSource) : (inviteLeaf k source).WF := toyLeaf_wf k
private theorem admit_ok (k : UInt8) : (invitePackage k).WF ∧ CanEncrypt admitter suite1 [k] :=
  ⟨⟨trivial, trivial, admitLeaf_wf k _, nofun⟩, fun _ _ _ _ => ⟨_, _, rfl⟩⟩

private theorem admit_nodes : inviteTree.NodesWF := by
  intro n hn
  simp only [inviteTree, List.mem_cons, Option.some.injEq, List.not_mem_nil, or_false, reduceCtorEq, false_or] at hn
  rcases hn with rfl | rfl | rfl <;> exact admitLeaf_wf _ _

private theorem admit_exts : Extensions.WF admitInvite.extensions := by
  intro e he
  simp only [admitInvite, inviteTwo, List.mem_cons, List.not_mem_nil, or_false] at he
  rcases he with rfl | rfl <;> trivial

private theorem admit_in : ∀ x ∈ admitInvite.invited, x.kp.WF ∧ x.kp.payload.cipher_suite = suite1 ∧
    CanEncrypt admitter suite1 x.kp.payload.init_key := by
  intro x hx
  simp only [admitInvite, inviteTwo, List.mem_cons, List.not_mem_nil, or_false] at hx
  rcases hx with rfl | rfl
  · exact ⟨(admit_ok 1).1, rfl, (admit_ok 1).2⟩
  · exact ⟨(admit_ok 2).1, rfl, (admit_ok 2).2⟩

set_option maxRecDepth 100000 in
private theorem admit_refs : ∀ y ∈ [(⟨invitePackage 1, [6], none⟩ : Invited)], ∀ r, IsRef admitter y.kp r →
    ¬ IsRef admitter (invitePackage 2) r := by
  intro y hy r h1 h2
  rw [List.mem_singleton] at hy
  subst hy
  obtain ⟨a, ha, _, _, e1⟩ := h1
  obtain ⟨b, hb, _, _, e2⟩ := h2
  cases ha
  cases hb
  exact absurd (e1.symm.trans e2) (by decide +kernel)

private def admitTree : RatchetTree :=
  [some (.Leaf (inviteLeaf 0 .Update)), none, some (.Leaf (inviteLeaf 1 (.KeyPackage ⟨0, 100⟩)))]

set_option maxRecDepth 100000 in
private theorem admit_both : Admitted admitter suite1 admitInvite.context.group_id [some (.Leaf (inviteLeaf 0 .Update))]
    (admitInvite.invited.map fun x => x.kp.payload.leaf_node) inviteTree :=
  .next (t' := admitTree) 1 ⟨_, rfl⟩ rfl
    (goodLeaf_of (by decide +kernel) ⟨by decide +kernel, by decide +kernel, _, rfl, by decide +kernel⟩ rfl (by decide) (by decide)
      (by decide +kernel)) (.inr ⟨rfl, by decide⟩) (by decide +kernel) (order_short (by decide +kernel))
    (.next (t' := inviteTree) 2 ⟨_, rfl⟩ rfl
      (goodLeaf_of (by decide +kernel) ⟨by decide +kernel, by decide +kernel, _, rfl, by decide +kernel⟩ rfl (by decide) (by decide)
        (by decide +kernel)) (.inr ⟨rfl, by decide⟩) (by decide +kernel) (order_short (by decide +kernel)) (.none _))

set_option maxRecDepth 100000 in
/-- A founder adds two others, who join. -/
example : ∃ w gi psk e s1 s2, invite admitter suite1 (List.replicate 32 0) admitInvite = .ok (w, gi, psk, e) ∧
    join admitter suite1 w (invitePackage 1) [1] [([1], [5])] none = .ok s1 ∧
    join admitter suite1 w (invitePackage 2) [2] [([1], [5])] none = .ok s2 ∧ s1.epoch_secret = e ∧ s2.epoch_secret = e := by
  obtain ⟨h, sg, kp, hp, hsg, hkp, hz, hX, hS, hm, hsign, hpair, ha⟩ := C119_providers renewPrimitives renewPrimitives_lawful
    renewPrimitives_sized admitter (.inl rfl) suite1 rfl [0]
  have hE := (C48_expander renewPrimitives admitter (.inl rfl) suite1 h hp renewPrimitives_sized.hkdf
    renewPrimitives_sized.hmac).2
  cases hsg
  cases hkp
  have hsize : h.kdf_extract_size = 32 := by cases hp; rfl
  obtain ⟨Hs, hP, _⟩ := id hm
  have hH : Hs.digest = sumHash.digest := by cases hP; rfl
  obtain ⟨w, gi, psk, e, hw, hall⟩ := C126_admits admitter suite1 trivial (.inl rfl) h hp hz hE hX hS (ha rfl) hm Hs hP
    (fun b => by rw [hH]; exact (sumHash_size b).2) (inviteLeaf 0 .Update) nofun admitInvite
    (goodLeaf_of (by decide +kernel) ⟨by decide +kernel, by decide +kernel, _, rfl, by decide +kernel⟩ rfl (by decide) (by decide) rfl)
    [some (.Leaf (inviteLeaf 0 .Update))] inviteTree .here admit_both (by decide) admit_nodes inviteRaw (by decide +kernel) admit_fits
    rfl ⟨rfl, trivial, nofun⟩ admit_exts ⟨[⟨.ApplicationId, [1]⟩], [], rfl, by decide⟩ 2 (pow_isHeight 2) (by rw [hH]; rfl)
    (inviteLeaf 0 .Update) rfl (List.replicate 32 0) hpair hsign (by decide) (by rw [hsize]; decide) [([1], [5])]
    (.cons (before := []) (after := []) rfl (by decide) .nil) admit_in
  obtain ⟨s1, h1, e1, _⟩ := hall [] ⟨invitePackage 1, [6], none⟩ [⟨invitePackage 2, [7], some [8]⟩] rfl nofun [1] (admit_hpkePair _)
  obtain ⟨s2, h2, e2, _⟩ := hall [⟨invitePackage 1, [6], none⟩] ⟨invitePackage 2, [7], some [8]⟩ [] rfl admit_refs [2] (admit_hpkePair _)
  exact ⟨w, gi, psk, e, s1, s2, hw, h1, h2, e1, e2⟩
end examples

end Rmls
