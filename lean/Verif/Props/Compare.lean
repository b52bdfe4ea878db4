import Verif.Model.Compare
import Verif.Spec.Compare
import Verif.Props.History
import Verif.Props.Framing
/-
Property C108: the work of rejecting a tag says nothing about the right tag.  It does: the check compares the tags with the
ordinary comparison of slices.
-/
namespace Rmls
open Spec Spec.Compare

namespace Compare

theorem bytes_same : ∀ a b : Bytes, (bytes a b).1 = decide (a = b)
  | [], [] => by simp [bytes]
  | [], _ :: _ => by simp [bytes]
  | _ :: _, [] => by simp [bytes]
  | x :: a, y :: b => by
    unfold bytes
    split
    · next h => subst h; simp [bytes_same a b]
    · next h => simp [h]

theorem slices_same (a b : Bytes) : (slices a b).1 = decide (a = b) := by
  unfold slices
  split
  · exact bytes_same a b
  · next h => simp; intro he; exact h (by rw [he])

theorem bytes_append (a b : Bytes) : ∀ k : Bytes,
    bytes (k ++ a) (k ++ b) = ((bytes a b).1, k.length + (bytes a b).2)
  | [] => by simp
  | x :: k => by
    simp only [List.cons_append, bytes, ite_true, bytes_append a b k, List.length_cons]
    rw [Nat.add_right_comm]

theorem bytes_le : ∀ a b : Bytes, (bytes a b).2 ≤ a.length ∧ (bytes a b).2 ≤ b.length
  | [], [] => by simp [bytes]
  | [], _ :: _ => by simp [bytes]
  | _ :: _, [] => by simp [bytes]
  | x :: a, y :: b => by
    have := bytes_le a b
    unfold bytes
    split
    · simp; exact this
    · simp

theorem bytes_self : ∀ a : Bytes, bytes a a = (true, a.length)
  | [] => rfl
  | x :: a => by simp [bytes, bytes_self a]

theorem bytes_prefix : ∀ (a b : Bytes) (n : Nat), a.length = b.length → a ≠ b → CommonPrefix a b n →
    bytes a b = (false, n + 1)
  | [], [], n, _, hne, _ => absurd rfl hne
  | x :: a, y :: b, n, hl, hne, ⟨h1, h2, h3, h4⟩ => by
    unfold bytes
    cases n with
    | zero =>
      have : x ≠ y := by
        intro h
        exact h4 (by simp) (by simp) (by simp [h])
      simp [this]
    | succ n =>
      simp only [List.take_succ_cons, List.cons.injEq] at h3
      have hne' : a ≠ b := fun h => hne (by rw [h, h3.1])
      have := bytes_prefix a b n (by simpa using hl) hne'
        ⟨by simpa using h1, by simpa using h2, h3.2, fun p q => by
          have := h4 (by simpa using p) (by simpa using q)
          simpa using this⟩
      rw [if_pos h3.1, this]

end Compare

/-- What an observer of `verify_mac` sees. -/
def observe (P : CryptoProvider) (cs : CipherSuite) (key message : Bytes) : Oracle := fun tag =>
  ((Compare.verify_mac P cs key message tag).1 = .ok (), (Compare.verify_mac P cs key message tag).2)

/-- C108: counting does not change the verdict on a tag. -/
theorem C108_same (P : CryptoProvider) (cs : CipherSuite) (key message tag : Bytes) :
    (Compare.verify_mac P cs key message tag).1 = P.verify_mac cs key message tag := by
  unfold Compare.verify_mac CryptoProvider.verify_mac
  cases P.sign_mac cs key message with
  | ok t =>
    show (if (Compare.slices tag t).1 = true then Res.ok () else _) = if tag = t then Res.ok () else _
    rw [Compare.slices_same]
    simp
  | err e => rfl
  | fault f => rfl

@[inherit_doc C108_same]
theorem C108_same_membership (P : CryptoProvider) (cs : CipherSuite) (x : PublicMessage) (key : Bytes)
    (ctx : GroupContext) :
    (Compare.verify_membership_tag P cs x key ctx).1 = x.verify_membership_tag P cs key ctx := by
  unfold Compare.verify_membership_tag PublicMessage.verify_membership_tag
  repeat' split
  all_goals first | rfl | (simp_all; done) | (simp_all; subst_vars; exact C108_same ..)

@[inherit_doc C108_same]
theorem C108_same_confirmation (P : CryptoProvider) (cs : CipherSuite) (x : FramedContentAuthData) (key hash : Bytes) :
    (Compare.verify_confirmation_tag P cs x key hash).1 = x.verify_confirmation_tag P cs key hash := by
  unfold Compare.verify_confirmation_tag FramedContentAuthData.verify_confirmation_tag
  split
  · rfl
  · exact C108_same ..

/-- C108, the part that holds: the work shows no more than this.  A tag of another length is rejected without looking at
any byte; the right tag takes its length; a wrong one shows the length of the prefix that it shares with the right one, and
nothing else.  Missing: that it does not show that length, which is false (`C108_refuted`, `C108_forged`). -/
theorem C108_leak_partial (P : CryptoProvider) (cs : CipherSuite) (key message t : Bytes)
    (ht : P.sign_mac cs key message = .ok t) (tag : Bytes) :
    (tag.length ≠ t.length → (Compare.verify_mac P cs key message tag).2 = 0) ∧
    (tag = t → (Compare.verify_mac P cs key message tag).2 = t.length) ∧
    (tag.length = t.length → tag ≠ t → ∀ n, CommonPrefix tag t n →
      (Compare.verify_mac P cs key message tag).2 = n + 1) := by
  have hw : (Compare.verify_mac P cs key message tag).2 = (Compare.slices tag t).2 := by
    unfold Compare.verify_mac; rw [ht]
  rw [hw]
  refine ⟨fun h => ?_, fun h => ?_, fun h hne n hn => ?_⟩
  · simp [Compare.slices, h]
  · subst h; simp [Compare.slices, Compare.bytes_self]
  · simp [Compare.slices, h, Compare.bytes_prefix tag t n h hne hn]

/-- C108: where the right tag cannot be computed, no byte of the tag is looked at. -/
theorem C108_none (P : CryptoProvider) (cs : CipherSuite) (key message tag : Bytes)
    (h : ∀ t, P.sign_mac cs key message ≠ .ok t) : (Compare.verify_mac P cs key message tag).2 = 0 := by
  unfold Compare.verify_mac
  cases hm : P.sign_mac cs key message with
  | ok t => exact absurd hm (h t)
  | err e => rfl
  | fault f => rfl

/-- C108 fails, for every provider, key and message: of two wrong tags of the right length one takes more work than the
other. -/
theorem C108_refuted (P : CryptoProvider) (cs : CipherSuite) (key message t : Bytes)
    (ht : P.sign_mac cs key message = .ok t) (hl : 2 ≤ t.length) :
    ∃ a b : Bytes, a.length = t.length ∧ b.length = t.length ∧
      P.verify_mac cs key message a = .err .VerifyConfirmationTagFailed ∧
      P.verify_mac cs key message b = .err .VerifyConfirmationTagFailed ∧
      (Compare.verify_mac P cs key message a).2 ≠ (Compare.verify_mac P cs key message b).2 := by
  match t, hl with
  | x :: y :: r, _ =>
    have hne : ∀ z : UInt8, z + 1 ≠ z := by
      intro z h
      have := congrArg UInt8.toNat h
      rw [UInt8.toNat_add] at this
      have h1 : (1 : UInt8).toNat = 1 := rfl
      have := z.toNat_lt
      omega
    have hw : ∀ g, (Compare.verify_mac P cs key message g).2 = (Compare.slices g (x :: y :: r)).2 := by
      intro g; unfold Compare.verify_mac; rw [ht]
    refine ⟨(x + 1) :: y :: r, x :: (y + 1) :: r, rfl, rfl, ?_, ?_, ?_⟩
    · simp [CryptoProvider.verify_mac, ht, bind, Res.bind, hne]
    · simp [CryptoProvider.verify_mac, ht, bind, Res.bind, hne]
    · rw [hw, hw]
      simp [Compare.slices, Compare.bytes, hne]

section Forge

variable {O : Oracle} {t : Bytes}

/-- The observer sees the comparison with `t` for guesses of its length. -/
private def Sees (O : Oracle) (t : Bytes) : Prop := ∀ g : Bytes, g.length = t.length → O g = Compare.bytes g t

private theorem next_finds (hO : Sees O t) (known : Bytes) (y : UInt8) (rest : Bytes) (ht : t = known ++ y :: rest) :
    ∀ xs : List UInt8, y ∈ xs →
      (next O known rest.length xs).1 = y ∧ (next O known rest.length xs).2 ≤ xs.length
  | [], h => by simp at h
  | x :: xs, h => by
    have hs : O (known ++ x :: List.replicate rest.length 0) =
        ((Compare.bytes (x :: List.replicate rest.length 0) (y :: rest)).1,
          known.length + (Compare.bytes (x :: List.replicate rest.length 0) (y :: rest)).2) := by
      rw [hO _ (by rw [ht]; simp), ht, Compare.bytes_append]
    unfold next
    simp only [hs]
    by_cases hx : x = y
    · subst hx
      have hc : ((Compare.bytes (x :: List.replicate rest.length 0) (x :: rest)).1 ||
          decide (known.length + 1 < known.length + (Compare.bytes (x :: List.replicate rest.length 0) (x :: rest)).2)) =
          true := by
        cases rest with
        | nil => simp [Compare.bytes]
        | cons z r =>
          simp only [Compare.bytes, List.length_cons, List.replicate_succ, ite_true]
          split <;> simp
      rw [if_pos hc]
      exact ⟨rfl, by simp⟩
    · have hb : Compare.bytes (x :: List.replicate rest.length 0) (y :: rest) = (false, 1) := by
        simp [Compare.bytes, hx]
      have hm : y ∈ xs := by
        rcases List.mem_cons.1 h with h | h
        · exact absurd h.symm hx
        · exact h
      obtain ⟨h1, h2⟩ := next_finds hO known y rest ht xs hm
      rw [hb]
      simp only [Bool.false_or, Nat.lt_irrefl, decide_false, Bool.false_eq_true, ite_false]
      exact ⟨h1, by simp; exact h2⟩

private theorem mem_values (y : UInt8) : y ∈ values := by
  unfold values
  refine List.mem_map.2 ⟨y.toNat, List.mem_range.2 y.toNat_lt, ?_⟩
  simp

private theorem forge_finds (hO : Sees O t) : ∀ rest known : Bytes, t = known ++ rest →
    (forge O rest.length known).1 = t ∧ (forge O rest.length known).2 ≤ 256 * rest.length
  | [], known, h => by simp [forge, h]
  | y :: rest, known, h => by
    obtain ⟨h1, h2⟩ := next_finds hO known y rest h values (mem_values y)
    have hv : values.length = 256 := by simp [values]
    obtain ⟨h3, h4⟩ := forge_finds hO rest (known ++ [y]) (by rw [h]; simp)
    simp only [List.length_cons, forge, h1]
    refine ⟨h3, ?_⟩
    rw [hv] at h2
    omega

end Forge

private theorem observe_sees (P : CryptoProvider) (cs : CipherSuite) (key message t : Bytes)
    (ht : P.sign_mac cs key message = .ok t) : Sees (observe P cs key message) t := by
  intro g hg
  have h1 : Compare.slices g t = Compare.bytes g t := by simp [Compare.slices, hg]
  unfold observe Compare.verify_mac
  rw [ht]
  simp only [h1]
  cases h : Compare.bytes g t with
  | mk a b => cases a <;> simp

/-- C108 fails for every key, without knowing the key: whoever sees the verdicts and the work finds the tag of any message,
with at most 256 attempts for each byte of the tag instead of 256 to the power of its length. -/
theorem C108_forged (P : CryptoProvider) (cs : CipherSuite) (key message t : Bytes)
    (ht : P.sign_mac cs key message = .ok t) :
    P.verify_mac cs key message (forge (observe P cs key message) t.length []).1 = .ok () ∧
    (forge (observe P cs key message) t.length []).2 ≤ 256 * t.length := by
  obtain ⟨h1, h2⟩ := forge_finds (observe_sees P cs key message t ht) t [] rfl
  rw [h1]
  exact ⟨by simp [CryptoProvider.verify_mac, ht, bind, Res.bind, pure], h2⟩

/-- C108 fails for messages: the same for the membership tag of a public message of a member, tried in the message itself. -/
theorem C108_forged_membership (P : CryptoProvider) (cs : CipherSuite) (key : Bytes) (ctx : GroupContext)
    (x : PublicMessage) (i : UInt32) (hi : x.content.sender = .Member i) (raw t : Bytes)
    (hraw : (x.authenticated_content_tbm ctx).serialize = .ok raw) (ht : P.sign_mac cs key raw = .ok t) :
    let try' (tag : Bytes) := Compare.verify_membership_tag P cs { x with membership_tag := some tag } key ctx
    let found := forge (fun tag => ((try' tag).1 = .ok (), (try' tag).2)) t.length []
    ({ x with membership_tag := some found.1 } : PublicMessage).verify_membership_tag P cs key ctx = .ok () ∧
    found.2 ≤ 256 * t.length := by
  have hraw' : ∀ tag, (PublicMessage.authenticated_content_tbm { x with membership_tag := some tag } ctx).serialize =
      .ok raw := fun _ => hraw
  have hs : ∀ tag, Compare.verify_membership_tag P cs { x with membership_tag := some tag } key ctx =
      Compare.verify_mac P cs key raw tag := by
    intro tag
    simp only [Compare.verify_membership_tag, hi, hraw']
  simp only [← C108_same_membership, hs]
  rw [C108_same]
  exact C108_forged P cs key raw t ht

/-- C108 fails for commits: the same for the confirmation tag. -/
theorem C108_forged_confirmation (P : CryptoProvider) (cs : CipherSuite) (key hash : Bytes)
    (x : FramedContentAuthData) (t : Bytes) (ht : P.sign_mac cs key hash = .ok t) (hl : 0 < t.length) :
    let try' (tag : Bytes) := Compare.verify_confirmation_tag P cs { x with confirmation_tag := tag } key hash
    let found := forge (fun tag => ((try' tag).1 = .ok (), (try' tag).2)) t.length []
    ({ x with confirmation_tag := found.1 } : FramedContentAuthData).verify_confirmation_tag P cs key hash = .ok () ∧
    found.2 ≤ 256 * t.length := by
  have hs : ∀ tag : Bytes, tag.length = t.length →
      Compare.verify_confirmation_tag P cs { x with confirmation_tag := tag } key hash =
        Compare.verify_mac P cs key hash tag := by
    intro tag htag
    have : tag.isEmpty = false := by
      cases tag with
      | nil => simp at htag; omega
      | cons a b => rfl
    simp [Compare.verify_confirmation_tag, this]
  have hO : Sees (fun tag =>
      (decide ((Compare.verify_confirmation_tag P cs { x with confirmation_tag := tag } key hash).1 = .ok ()),
        (Compare.verify_confirmation_tag P cs { x with confirmation_tag := tag } key hash).2)) t := by
    intro g hg
    simp only [hs g hg]
    exact observe_sees P cs key hash t ht g hg
  obtain ⟨h1, h2⟩ := forge_finds hO t [] rfl
  refine ⟨?_, h2⟩
  simp only [h1]
  rw [← C108_same_confirmation, hs t rfl, C108_same]
  simp [CryptoProvider.verify_mac, ht, bind, Res.bind, pure]

/-- The hypotheses hold for a provider, a key and a message; the adversary finds a tag of four bytes with 18 attempts. -/
example : sumProvider.sign_mac .MLS_128_DHKEMX25519_AES128GCM_SHA256_Ed25519 [3, 4] [5, 2] = .ok [3, 4, 5, 2] := rfl

set_option maxRecDepth 100000 in
example : forge (observe sumProvider .MLS_128_DHKEMX25519_AES128GCM_SHA256_Ed25519 [3, 4] [5, 2]) 4 [] =
    ([3, 4, 5, 2], 18) := by decide +kernel

/-- A message of member 2 that meets the hypotheses of the theorem on messages. -/
private def guessed : PublicMessage := ⟨toyContent, toySigned.auth, none⟩

set_option maxRecDepth 100000 in
example : guessed.content.sender = .Member 2 ∧
    (match (guessed.authenticated_content_tbm toyContext).serialize with
      | .ok raw => decide (sumProvider.sign_mac toyContext.cipher_suite [3] raw = .ok (3 :: raw) ∧ 2 ≤ raw.length)
      | _ => false) = true := by decide +kernel

/-- Three wrong tags, with one, three and no bytes compared. -/
example : [[9, 4, 5, 2], [3, 4, 9, 2], [3, 4, 5]].map
    (fun g => (Compare.verify_mac sumProvider .MLS_128_DHKEMX25519_AES128GCM_SHA256_Ed25519 [3, 4] [5, 2] g).2) =
    [1, 3, 0] := by decide +kernel

/-- The length of the shared prefix of the second of them. -/
example : CommonPrefix [3, 4, 9, 2] [3, 4, 5, 2] 2 := by
  refine ⟨by decide, by decide, rfl, fun _ _ => by decide⟩

/-- A provider that cannot compute tags. -/
example : ∀ t, ({ sumProvider with hash := fun _ => .err .Other }).sign_mac
    .MLS_128_DHKEMX25519_AES128GCM_SHA256_Ed25519 [3, 4] [5, 2] ≠ .ok t := fun _ => nofun

end Rmls
