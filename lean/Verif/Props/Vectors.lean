import Verif.Spec.Vectors
import Verif.Props.Codec
import Verif.Props.TreeMath
import Verif.Props.Receiver
/-
Property C93: the checks of the conformance tests, for the tests of the tree arithmetic and of the encodings.
-/
namespace Rmls
open Spec Spec.Enc Vectors PassiveClient

theorem forEnum_from {α : Type} (body : Nat → α → Res Unit) : ∀ (xs : List α) (k : Nat),
    forEnum body k xs = .ok () ↔ ∀ (i : Nat) x, xs[i]? = some x → body (k + i) x = .ok () := by
  intro xs
  induction xs with
  | nil => intro k; simp [forEnum]
  | cons x xs ih =>
    intro k
    rw [forEnum, Res.bind_ok_iff]
    constructor
    · rintro ⟨_, h1, h2⟩ i y hy
      cases i with
      | zero => cases hy; exact h1
      | succ i => rw [show k + (i + 1) = k + 1 + i by omega]; exact (ih _).1 h2 i y hy
    · intro h
      refine ⟨(), h 0 x rfl, (ih _).2 fun i y hy => ?_⟩
      rw [show k + 1 + i = k + (i + 1) by omega]
      exact h (i + 1) y hy

theorem forEnum_ok {α : Type} (body : Nat → α → Res Unit) (xs : List α) (u : Unit) :
    forEnum body 0 xs = .ok u ↔ Listed (fun i x => body i x = .ok ()) xs := by
  obtain rfl : u = () := rfl
  rw [forEnum_from]
  simp only [Nat.zero_add]
  rfl

/-- Two conditions that agree at all the indices of a list. -/
theorem listed_congr {α : Type} {p q : Nat → α → Prop} {xs : List α} (h : ∀ i x, i < xs.length → (p i x ↔ q i x)) :
    Listed p xs ↔ Listed q xs := by
  have hl : ∀ (i : Nat) x, xs[i]? = some x → i < xs.length := fun i x h => by
    rw [List.getElem?_eq_some_iff] at h; exact h.1
  exact ⟨fun hp i x hx => (h i x (hl i x hx)).1 (hp i x hx), fun hq i x hx => (h i x (hl i x hx)).2 (hq i x hx)⟩

theorem forSupported_ok {α : Type} (P : CryptoProvider) (suite : α → UInt16) (test : CipherSuite → α → Res Unit) :
    ∀ tests : List α, forSupported P suite test tests = .ok () ↔
      ∀ tc ∈ tests, P.supports (CipherSuite.ofU16 (suite tc)) = true → test (CipherSuite.ofU16 (suite tc)) tc = .ok () := by
  intro tests
  induction tests with
  | nil => simp [forSupported]
  | cons tc tests ih =>
    rw [forSupported]
    simp only [List.mem_cons, forall_eq_or_imp]
    rw [← ih]
    by_cases h : P.supports (CipherSuite.ofU16 (suite tc)) = true
    · simp only [h, if_true, true_implies, Res.bind_ok_iff]
      constructor
      · rintro ⟨_, h1, h2⟩; exact ⟨h1, h2⟩
      · rintro ⟨h1, h2⟩; exact ⟨(), h1, h2⟩
    · simp only [h, if_false, Bool.false_eq_true, false_implies, true_and]

/-! ### tree_math_test.rs -/

theorem indexIs_iff (f : Nat → Res (Option Nat)) (i : Nat) (want v : Option Nat) (hi : i < 2 ^ 32) (hf : f i = .ok v) :
    indexIs f i want = .ok () ↔ want = v := by
  unfold indexIs
  rw [show cast32 i = i from Nat.mod_eq_of_lt hi, hf, Res.ok_bind, assert_iff, decide_eq_true_iff]
  exact eq_comm

private theorem at_node {x : Nat} {p : Nat → Nat → Prop} {k i : Nat} (hx : x = node k i) :
    (∀ k' i', x = node k' i' → p k' i') ↔ p k i := by
  constructor
  · intro h; exact h k i hx
  · intro h k' i' h'
    obtain ⟨rfl, rfl⟩ := node_inj (h'.symm.trans hx)
    exact h

/-- C93: a tree math vector passes exactly if the numbers in it are those of the tree. -/
theorem C93_tree_math (tc : TreeMath) (K : Nat) (h0 : 0 < tc.n_leaves) (hn : tc.n_leaves ≤ 2 ^ 31)
    (hK : IsHeight tc.n_leaves K)
    (hl : tc.left.length ≤ 2 * tc.n_leaves - 1) (hr : tc.right.length ≤ 2 * tc.n_leaves - 1)
    (hp : tc.parent.length ≤ 2 * tc.n_leaves - 1) (hs : tc.sibling.length ≤ 2 * tc.n_leaves - 1) :
    tree_math_test tc = .ok () ↔ TreeMathRight tc K := by
  obtain ⟨K', hK', hK31, hroot⟩ := C10_root tc.n_leaves h0 hn
  obtain rfl : K = K' := Nat.le_antisymm (hK.2 _ hK'.1) (hK'.2 _ hK.1)
  have hr1 : 2 * tc.n_leaves - 1 ≤ 2 * node K 0 + 1 := by
    have h1 := node_add_one K 0
    have h2 := hK.1
    simp at h1
    omega
  have hleft : ∀ i want, i < tc.left.length → (indexIs NodeIndex.left i want = .ok () ↔
      ∀ k j, i = node k j → want = if k = 0 then none else some (node (k - 1) (2 * j))) := by
    intro i want hi
    obtain ⟨k, j, rfl⟩ := node_surj i
    rw [indexIs_iff _ _ _ _ (by omega) (C10_left_right k j (by omega)).1, at_node rfl]
    cases k <;> simp
  have hright : ∀ i want, i < tc.right.length → (indexIs NodeIndex.right i want = .ok () ↔
      ∀ k j, i = node k j → want = if k = 0 then none else some (node (k - 1) (2 * j + 1))) := by
    intro i want hi
    obtain ⟨k, j, rfl⟩ := node_surj i
    rw [indexIs_iff _ _ _ _ (by omega) (C10_left_right k j (by omega)).2, at_node rfl]
    cases k <;> simp
  have htop : ∀ k j, node k j ≤ 2 * node K 0 → (node k j = node K 0 ↔ k = K) := by
    intro k j hx
    constructor
    · intro h; exact (node_inj h).1
    · rintro rfl
      rcases Nat.eq_zero_or_pos j with rfl | hj
      · rfl
      · have h1 := node_add_one k j
        have h2 := node_add_one k 0
        have h3 : 2 ^ k * (2 * 1 + 1) ≤ 2 ^ k * (2 * j + 1) := Nat.mul_le_mul_left _ (by omega)
        have := Nat.two_pow_pos k
        simp only [Nat.mul_zero, Nat.zero_add, Nat.mul_one] at h2
        omega
  have hparent : ∀ i want, i < tc.parent.length → (indexIs (NumLeaves.parent tc.n_leaves) i want = .ok () ↔
      ∀ k j, i = node k j → want = if k = K then none else some (node (k + 1) (j / 2))) := by
    intro i want hi
    obtain ⟨k, j, rfl⟩ := node_surj i
    have hx : node k j ≤ 2 * node K 0 := by omega
    rw [indexIs_iff _ _ _ _ (by omega) (C10_parent _ k j _ h0 hn hroot hx), at_node rfl]
    simp only [htop k j hx]
  have hsib : ∀ i want, i < tc.sibling.length → (indexIs (NumLeaves.sibling tc.n_leaves) i want = .ok () ↔
      ∀ k j, i = node k j → want = if k = K then none else some (node k (if j % 2 = 0 then j + 1 else j - 1))) := by
    intro i want hi
    obtain ⟨k, j, rfl⟩ := node_surj i
    have hx : node k j ≤ 2 * node K 0 := by omega
    rw [indexIs_iff _ _ _ _ (by omega) (C10_sibling _ k j _ h0 hn hroot hx), at_node rfl]
    simp only [htop k j hx]
    rfl
  unfold tree_math_test
  simp only [C10_width _ h0 hn, hroot, Res.ok_bind, Res.bind_ok_iff, assert_iff, decide_eq_true_iff, forEnum_ok,
    listed_congr (fun i x hi => hleft i x hi), listed_congr (fun i x hi => hright i x hi),
    listed_congr (fun i x hi => hparent i x hi), listed_congr (fun i x hi => hsib i x hi)]
  constructor
  · rintro ⟨_, h1, _, h2, _, h3, _, h4, _, h5, h6⟩
    exact ⟨hK, h1.symm, h2.symm, h3, h4, h5, h6⟩
  · rintro ⟨_, h1, h2, h3, h4, h5, h6⟩
    exact ⟨(), h1.symm, (), h2.symm, (), h3, (), h4, (), h5, h6⟩

/-- The vector of the tree with two leaves. -/
def twoLeaves : TreeMath :=
  ⟨2, 3, 1, [none, some 0, none], [none, some 2, none], [some 1, none, some 1], [some 2, none, some 0]⟩

example : TreeMathRight twoLeaves 1 :=
  (C93_tree_math twoLeaves 1 (by decide) (by decide) ⟨by decide, fun j hj => by
    cases j with
    | zero => simp [twoLeaves] at hj
    | succ j => omega⟩ (by decide) (by decide) (by decide) (by decide)).1 (by decide +kernel)

example : tree_math_test { twoLeaves with left := [none, some 2, none] } = .fault .panic := by decide +kernel

/-! ### framing_test.rs -/

theorem again_iff {α : Type} {read : De α} {write : α → Res Bytes} {wf : α → Prop} {enc : α → Enc}
    (hlaw : Lawful read write wf) (hw : ∀ x, wf x → Writes (write x) (enc x)) (raw : Bytes) :
    again read write raw = .ok () ↔ IsEncoding wf enc raw := by
  unfold again
  simp only [Res.bind_ok_iff, assert_iff, decide_eq_true_iff]
  constructor
  · rintro ⟨x, h1, my, h2, rfl⟩
    unfold deserialize_exact at h1
    split at h1
    · next y rest hd =>
      cases h1
      obtain ⟨hx, _⟩ := hlaw.canon _ _ _ hd
      exact ⟨x, hx, (writes_ok_iff (hw x hx) _).1 h2⟩
    · cases h1
    · cases h1
  · rintro ⟨x, hx, hf, rfl⟩
    have hb := (writes_ok_iff (hw x hx) _).2 ⟨hf, rfl⟩
    have := hlaw.rt x _ [] hx hb
    rw [List.append_nil] at this
    refine ⟨x, ?_, _, hb, rfl⟩
    unfold deserialize_exact
    rw [this]

private theorem again_message (raw : Bytes) :
    again MLSMessage.deserialize MLSMessage.serialize raw = .ok () ↔ IsEncoding MLSMessage.WF mlsMessage raw :=
  again_iff MLSMessage.lawful (fun x hx => mlsMessage_w x (by
    obtain ⟨v, w⟩ := x
    cases w with
    | PublicMessage m => exact hx.2.2.2.2
    | _ => trivial)) raw

private theorem drop_twice {α : Type} (p : α → Bool) (l : List α) : (l.dropWhile p).dropWhile p = l.dropWhile p := by
  induction l with
  | nil => rfl
  | cons x l ih =>
    by_cases h : p x = true
    · simp only [List.dropWhile_cons, h, if_true, ih]
    · simp only [List.dropWhile_cons, h, if_false, Bool.false_eq_true]

private theorem again_tree (raw : Bytes) :
    again RatchetTree.deserialize RatchetTree.serialize raw = .ok () ↔ IsEncoding RatchetTree.NodesWF ratchetTree raw := by
  unfold again
  simp only [Res.bind_ok_iff, assert_iff, decide_eq_true_iff]
  constructor
  · rintro ⟨t, h1, my, h2, rfl⟩
    unfold deserialize_exact at h1
    split at h1
    · next y rest hd =>
      cases h1
      exact ⟨t, (C09_read_full _ _ _ hd).2, (writes_ok_iff (ratchetTree_w t) _).1 h2⟩
    · cases h1
    · cases h1
  · rintro ⟨t, hx, hf, rfl⟩
    have hb := (writes_ok_iff (ratchetTree_w t) _).2 ⟨hf, rfl⟩
    have hb' := hb
    unfold RatchetTree.serialize at hb'
    have hrt := RatchetTree.lawful_nodes.rt _ _ [] (fun n hn => hx n (List.mem_of_mem_take hn)) hb'
    rw [List.append_nil] at hrt
    obtain ⟨t', ht'⟩ := RatchetTree.padLoop_total (t.take (RatchetTree.trimEnd t t.length))
    refine ⟨t', ?_, _, ?_, rfl⟩
    · unfold deserialize_exact RatchetTree.deserialize
      rw [De.bind_apply, hrt]
      simp only [De.lift, ht']
    · obtain ⟨k, rfl, _, _⟩ := RatchetTree.padLoop_ok ht'
      rw [C09_trailing_blanks, ← hb]
      unfold RatchetTree.serialize
      rw [RatchetTree.trim_eq, RatchetTree.trim_eq, List.reverse_reverse, drop_twice]

private theorem encoding_of {α β : Type} (f : α → β) (g : β → α) (hfg : ∀ y, f (g y) = y) (wf : β → Prop) (enc : β → Enc)
    (raw : Bytes) : IsEncoding (fun x => wf (f x)) (fun x => enc (f x)) raw ↔ IsEncoding wf enc raw := by
  constructor
  · rintro ⟨x, h1, h2, h3⟩; exact ⟨f x, h1, h2, h3⟩
  · rintro ⟨y, h1, h2, h3⟩; exact ⟨g y, by simp only [hfg]; exact h1, by simp only [hfg]; exact h2, by simp only [hfg]; exact h3⟩

/-- C93: a vector of messages passes exactly if every field that is looked at is the encoding that RFC 9420 gives to some
well-formed value, and nothing follows it.  Missing: three fields are not looked at, and of the messages only that they are
messages. -/
theorem C93_messages_partial (tc : Messages) : messages_test tc = .ok () ↔ MessagesRight tc := by
  have h1 := again_iff AddProposal.lawful (enc := fun x : AddProposal => keyPackage x.key_package) (fun x _ => keyPackage_w x.key_package) tc.add_proposal
  have h2 := again_iff UpdateProposal.lawful (enc := fun x : UpdateProposal => leafNode x.leaf_node) (fun x _ => leafNode_w x.leaf_node)
    tc.update_proposal
  have h3 := again_iff RemoveProposal.lawful (enc := fun x : RemoveProposal => leafIndex x.removed) (fun x _ => writes_u32 x.removed)
    tc.remove_proposal
  have h4 := again_iff PreSharedKeyProposal.lawful (enc := fun x : PreSharedKeyProposal => preSharedKeyID x.psk) (fun x _ => preSharedKeyID_w x.psk)
    tc.pre_shared_key_proposal
  rw [encoding_of (fun x : AddProposal => x.key_package) (fun y => ⟨y⟩) (fun _ => rfl)] at h1
  rw [encoding_of (fun x : UpdateProposal => x.leaf_node) (fun y => ⟨y⟩) (fun _ => rfl)] at h2
  rw [encoding_of (fun x : RemoveProposal => x.removed) (fun y => ⟨y⟩) (fun _ => rfl) (fun _ => True)] at h3
  rw [encoding_of (fun x : PreSharedKeyProposal => x.psk) (fun y => ⟨y⟩) (fun _ => rfl) (fun _ => True)] at h4
  have h5 := again_iff GroupSecrets.lawful (fun x _ => groupSecrets_w x) tc.group_secrets
  have h6 := again_iff Commit.lawful (fun x _ => commit_w x) tc.commit
  unfold messages_test
  simp only [Res.bind_ok_iff]
  constructor
  · rintro ⟨_, a1, _, a2, _, a3, _, a4, _, a5, _, a6, _, a7, _, a8, _, a9, _, a10, _, a11, _, a12, _, a13, a14⟩
    exact ⟨(again_message _).1 a1, (again_message _).1 a2, (again_message _).1 a3, (again_tree _).1 a4, h5.1 a5, h1.1 a6,
      h2.1 a7, h3.1 a8, h4.1 a9, h6.1 a10, (again_message _).1 a11, (again_message _).1 a12, (again_message _).1 a13,
      (again_message _).1 a14⟩
  · rintro ⟨a1, a2, a3, a4, a5, a6, a7, a8, a9, a10, a11, a12, a13, a14⟩
    exact ⟨(), (again_message _).2 a1, (), (again_message _).2 a2, (), (again_message _).2 a3, (), (again_tree _).2 a4, (),
      h5.2 a5, (), h1.2 a6, (), h2.2 a7, (), h3.2 a8, (), h4.2 a9, (), h6.2 a10, (), (again_message _).2 a11, (),
      (again_message _).2 a12, (), (again_message _).2 a13, (again_message _).2 a14⟩

/-- A vector in which every message is the same commit. -/
def sameMessage : Messages :=
  { mls_welcome := sampleCommitBytes, mls_group_info := sampleCommitBytes, mls_key_package := sampleCommitBytes,
    ratchet_tree := [0], group_secrets := [0, 0, 0],
    add_proposal := [0, 1, 0, 1, 0, 0, 0, 0, 1, 0, 0, 0, 0, 0, 0, 1, 0, 0, 0, 0, 0, 0, 0, 1, 0, 0, 0, 0, 0, 0, 0, 1, 0, 0, 0, 0],
    update_proposal := [0, 0, 0, 1, 0, 0, 0, 0, 0, 0, 2, 0, 0], remove_proposal := [0, 0, 0, 7],
    pre_shared_key_proposal := [1, 1, 5, 0], re_init_proposal := [], external_init_proposal := [],
    group_context_extensions_proposal := [], commit := [0, 0], public_message_application := sampleCommitBytes,
    public_message_proposal := sampleCommitBytes, public_message_commit := sampleCommitBytes,
    private_message := sampleCommitBytes }

set_option maxRecDepth 100000 in
example : messages_test sameMessage = .ok () := by decide +kernel

end Rmls
