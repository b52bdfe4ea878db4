import Verif.Spec.Welcome
import Verif.Props.PrivateMessage
/-
Properties C47 (welcome messages), C49 (re-init and branch PSKs), C55 (confirmation tags).
-/
namespace Rmls
open Spec Spec.Enc

/-! ## C47 -/

/-- C47: the lookup returns the first entry with the reference. -/
theorem C47_find (x : Welcome) (r : KeyPackageRef) (s : EncryptedGroupSecrets) :
    x.find_secret r = some s ↔ FirstFor r x.secrets s := by
  unfold Welcome.find_secret
  generalize x.secrets = l
  induction l with
  | nil =>
    refine ⟨(nomatch ·), ?_⟩
    rintro ⟨b, a, h, _⟩
    cases b <;> cases h
  | cons e l ih =>
    unfold Welcome.findLoop
    split
    · next he =>
      constructor
      · intro h; cases h; exact ⟨[], l, rfl, he, nofun⟩
      · rintro ⟨b, a, h1, h2, h3⟩
        cases b with
        | nil => cases h1; rfl
        | cons e' b =>
          cases h1
          exact absurd he (h3 _ (List.mem_cons_self ..))
    · next he =>
      rw [ih]
      constructor
      · rintro ⟨b, a, rfl, h2, h3⟩
        refine ⟨e :: b, a, rfl, h2, ?_⟩
        intro y hy
        rcases List.mem_cons.1 hy with rfl | hy
        · exact he
        · exact h3 y hy
      · rintro ⟨b, a, h1, h2, h3⟩
        cases b with
        | nil => cases h1; exact absurd h2 he
        | cons e' b =>
          cases h1
          exact ⟨b, a, rfl, h2, fun y hy => h3 y (List.mem_cons_of_mem _ hy)⟩

/-- C47: it returns nothing exactly when no entry has the reference. -/
theorem C47_find_none (x : Welcome) (r : KeyPackageRef) :
    x.find_secret r = none ↔ ∀ e ∈ x.secrets, e.new_member ≠ r := by
  unfold Welcome.find_secret
  generalize x.secrets = l
  induction l with
  | nil => exact ⟨fun _ => nofun, fun _ => rfl⟩
  | cons e l ih =>
    unfold Welcome.findLoop
    split
    · next he => exact ⟨(nomatch ·), fun h => absurd he (h _ (List.mem_cons_self ..))⟩
    · next he => rw [ih]; simp [he]

theorem labelSuite_iff (cs : CipherSuite) (hcs : cs.WF) : CryptoProvider.labelSuite cs = true ↔ HpkeSuite cs := by
  unfold HpkeSuite
  cases cs with
  | Unknown v =>
    have h1 : v ≠ 1 := fun h => by subst h; exact hcs (by decide)
    have h2 : v ≠ 2 := fun h => by subst h; exact hcs (by decide)
    have h3 : v ≠ 3 := fun h => by subst h; exact hcs (by decide)
    simp only [CryptoProvider.labelSuite, cipherSuite]
    constructor
    · nofun
    · rintro (h | h | h) <;> (injection h with _ h; exfalso)
      · exact h1 (UInt16.toNat_inj.1 h)
      · exact h2 (UInt16.toNat_inj.1 h)
      · exact h3 (UInt16.toNat_inj.1 h)
  | _ => simp [CryptoProvider.labelSuite, cipherSuite]

/-- C47: group secrets are returned exactly when the first entry for the reference opens, under the label "Welcome" and
with the encrypted group info as context, to their encoding (to which more bytes may be appended:
`deserialize_exact`). -/
theorem C47_group_secrets (P : CryptoProvider) (x : Welcome) (hx : x.cipher_suite.WF) (r : KeyPackageRef) (priv : Bytes)
    (g : GroupSecrets) :
    x.decrypt_group_secrets P r priv = .ok g ↔
      HpkeSuite x.cipher_suite ∧ (labelled (text "Welcome") x.encrypted_group_info).fits ∧ (groupSecrets g).fits ∧
      ∃ e rest, FirstFor r x.secrets e ∧
        P.hpke_open x.cipher_suite priv (labelled (text "Welcome") x.encrypted_group_info).bytes
          e.encrypted_group_secrets.kem_output e.encrypted_group_secrets.ciphertext =
          .ok ((groupSecrets g).bytes ++ rest) := by
  unfold Welcome.decrypt_group_secrets
  cases hf : x.find_secret r with
  | none =>
    refine ⟨(nomatch ·), ?_⟩
    rintro ⟨_, _, _, e, _, h, _⟩
    rw [(C47_find x r e).2 h] at hf
    cases hf
  | some e =>
    simp only
    rw [Res.bind_ok_iff]
    unfold CryptoProvider.decrypt_with_label
    constructor
    · rintro ⟨raw, h1, h2⟩
      obtain ⟨f, h1⟩ := (writes_bind_iff (mls_prefix_label_data_w _ _) _ _).1 h1
      split at h1
      · next hl =>
        unfold deserialize_exact at h2
        split at h2
        · next rest he =>
          cases h2
          obtain ⟨_, b, hb, rfl⟩ := GroupSecrets.lawful.canon _ _ _ he
          obtain ⟨hg, rfl⟩ := (writes_ok_iff (groupSecrets_w g) b).1 hb
          exact ⟨(labelSuite_iff _ hx).1 hl, f, hg, e, rest, (C47_find x r e).1 hf, h1⟩
        · cases h2
        · cases h2
      · cases h1
    · rintro ⟨hl, f, hg, e', rest, h1, h2⟩
      rw [(C47_find x r e').2 h1] at hf
      cases hf
      refine ⟨_, (writes_bind_iff (mls_prefix_label_data_w _ _) _ _).2
        ⟨f, by rw [if_pos ((labelSuite_iff _ hx).2 hl)]; exact h2⟩, ?_⟩
      unfold deserialize_exact
      rw [GroupSecrets.lawful.rt g _ rest trivial ((writes_ok_iff (groupSecrets_w g) _).2 ⟨hg, rfl⟩)]

/-- C47: without an entry for the reference, that is the error. -/
theorem C47_not_addressed (P : CryptoProvider) (x : Welcome) (r : KeyPackageRef) (priv : Bytes)
    (h : ∀ e ∈ x.secrets, e.new_member ≠ r) :
    x.decrypt_group_secrets P r priv = .err .EncryptedGroupSecretsNotFoundForProvidedKeyPackageRef := by
  unfold Welcome.decrypt_group_secrets
  rw [(C47_find_none x r).2 h]

/-- C47: the entries of other members do not matter. -/
theorem C47_own_entry (P : CryptoProvider) (x y : Welcome) (r : KeyPackageRef) (priv : Bytes)
    (hcs : x.cipher_suite = y.cipher_suite) (hi : x.encrypted_group_info = y.encrypted_group_info)
    (h : x.secrets.filter (·.new_member = r) = y.secrets.filter (·.new_member = r)) :
    x.decrypt_group_secrets P r priv = y.decrypt_group_secrets P r priv := by
  have key : ∀ l : List EncryptedGroupSecrets, Welcome.findLoop r l = (l.filter (·.new_member = r)).head? := by
    intro l
    induction l with
    | nil => rfl
    | cons e l ih =>
      unfold Welcome.findLoop
      by_cases he : e.new_member = r <;> simp [he, ih]
  unfold Welcome.decrypt_group_secrets Welcome.find_secret
  rw [key, key, h, hcs, hi]

/-- C47: group info is returned exactly when the encrypted group info opens, under the key and nonce of the welcome
secret and without additional data, to its encoding. -/
theorem C47_group_info (P : CryptoProvider) (x : Welcome) (h : Hpke) (hp : P.hpke x.cipher_suite = .ok h)
    (hs : Sizes h) (joiner psk : Bytes) (g : GroupInfo) :
    x.decrypt_group_info P joiner psk = .ok g ↔
      g.WF ∧ (groupInfo g).fits ∧ ∃ key nonce rest, WelcomeKeys h joiner psk key nonce ∧
        h.aead_open key nonce x.encrypted_group_info [] = .ok ((groupInfo g).bytes ++ rest) := by
  unfold Welcome.decrypt_group_info WelcomeKeys
  rw [Res.bind_ok_iff]
  simp only [hp, Res.ok_bind, Res.bind_ok_iff, extract_welcome_secret_iff hp hs,
    expand_with_label_iff hp _ _ _ hs.2.1, expand_with_label_iff hp _ _ _ hs.2.2, text_key, text_nonce]
  constructor
  · rintro ⟨s, h1, n, h2, k, h3, raw, h4, h5⟩
    unfold deserialize_exact at h5
    split at h5
    · next rest he =>
      cases h5
      obtain ⟨hw, b, hb, rfl⟩ := GroupInfo.lawful.canon _ _ _ he
      obtain ⟨hg, rfl⟩ := (writes_ok_iff (groupInfo_w g) b).1 hb
      exact ⟨hw, hg, k, n, rest, ⟨s, h1, h3, h2⟩, h4⟩
    · cases h5
    · cases h5
  · rintro ⟨hw, hg, k, n, rest, ⟨s, h1, h3, h2⟩, h4⟩
    refine ⟨s, h1, n, h2, k, h3, _, h4, ?_⟩
    unfold deserialize_exact
    rw [GroupInfo.lawful.rt g _ rest hw ((writes_ok_iff (groupInfo_w g) _).2 ⟨hg, rfl⟩)]

/-- C47: what was encrypted for the member is what comes out. -/
theorem C47_round_trip (P : CryptoProvider) (x : Welcome) (hx : x.cipher_suite.WF) (h : Hpke)
    (hp : P.hpke x.cipher_suite = .ok h) (hs : Sizes h) (ha : AeadPair h) (priv pub : Bytes)
    (hk : HpkePair P x.cipher_suite priv pub) (rnd joiner psk key nonce : Bytes) (hkeys : WelcomeKeys h joiner psk key nonce)
    (gs : GroupSecrets) (gi : GroupInfo) (hgs : (groupSecrets gs).fits) (hgi : (groupInfo gi).fits) (hw : gi.WF)
    (e : EncryptedGroupSecrets) (he : FirstFor e.new_member x.secrets e)
    (h1 : h.aead_seal key nonce (groupInfo gi).bytes [] = .ok x.encrypted_group_info)
    (h2 : P.encrypt_with_label rnd x.cipher_suite pub (text "Welcome") x.encrypted_group_info (groupSecrets gs).bytes =
      .ok (e.encrypted_group_secrets.kem_output, e.encrypted_group_secrets.ciphertext)) :
    x.decrypt_group_secrets P e.new_member priv = .ok gs ∧ x.decrypt_group_info P joiner psk = .ok gi := by
  unfold CryptoProvider.encrypt_with_label at h2
  obtain ⟨f, h2⟩ := (writes_bind_iff (mls_prefix_label_data_w _ _) _ _).1 h2
  split at h2
  · next hl =>
    refine ⟨(C47_group_secrets P x hx _ _ _).2 ⟨(labelSuite_iff _ hx).1 hl, f, hgs, e, [], he, ?_⟩,
      (C47_group_info P x h hp hs _ _ _).2 ⟨hw, hgi, key, nonce, [], hkeys, ?_⟩⟩
    · rw [List.append_nil]; exact hk _ _ _ _ _ h2
    · rw [List.append_nil]; exact ha _ _ _ _ _ h1
  · cases h2

/-- The example provider has such pairs, and there is such a welcome, with an entry for someone else in front. -/
example (cs : CipherSuite) : HpkePair toyProvider cs [3] [3] := by
  intro r i p kem c h
  cases h
  show (if ([3] ++ i).isPrefixOf ([3] ++ i ++ p) then _ else _) = _
  rw [if_pos (List.isPrefixOf_iff_prefix.2 (List.prefix_append _ _)), List.drop_left]
set_option maxRecDepth 100000 in
example : ∃ (x : Welcome) (e : EncryptedGroupSecrets) (gs : GroupSecrets) (key nonce : Bytes),
    WelcomeKeys toyHpke [1] [2] key nonce ∧ FirstFor e.new_member x.secrets e ∧ x.secrets.length = 2 ∧
    toyHpke.aead_seal key nonce (groupInfo toyGroupInfo).bytes [] = .ok x.encrypted_group_info ∧
    toyProvider.encrypt_with_label [6] x.cipher_suite [3] (text "Welcome") x.encrypted_group_info
      (groupSecrets gs).bytes = .ok (e.encrypted_group_secrets.kem_output, e.encrypted_group_secrets.ciphertext) ∧
    x.decrypt_group_secrets toyProvider e.new_member [3] = .ok gs := by
  let gs : GroupSecrets := ⟨[1], none, []⟩
  let info := List.replicate 16 1 ++ List.replicate 12 1 ++ [] ++ (groupInfo toyGroupInfo).bytes
  let e : EncryptedGroupSecrets := ⟨[8], ⟨[6], [3] ++ (labelled (text "Welcome") info).bytes ++ (groupSecrets gs).bytes⟩⟩
  let x : Welcome := ⟨toyContext.cipher_suite, [⟨[4], ⟨[], []⟩⟩, e], info⟩
  refine ⟨x, e, gs, List.replicate 16 1, List.replicate 12 1, ⟨List.replicate 4 1, ⟨[1] ++ [2], rfl, ?_⟩, ?_, ?_⟩,
    ⟨[⟨[4], ⟨[], []⟩⟩], [], rfl, rfl, by decide⟩, rfl, ?_, ?_, ?_⟩
  · exact ⟨by decide, by decide, rfl⟩
  · exact ⟨by decide, by decide, rfl⟩
  · exact ⟨by decide, by decide, rfl⟩
  · rfl
  · decide +kernel
  · decide +kernel

/-! ## C49 -/

theorem count_shift (l : List PreSharedKeyID) (n : Nat) :
    GroupSecrets.countReinitOrBranch l n = n + GroupSecrets.countReinitOrBranch l 0 := by
  induction l generalizing n with
  | nil => rfl
  | cons a l ih =>
    unfold GroupSecrets.countReinitOrBranch
    split
    · split
      · rw [ih, ih (0 + 1)]; omega
      · rw [ih, ih (0 + 1)]; omega
      · rw [ih]
    · rw [ih]

theorem count_cons_yes {a : PreSharedKeyID} (l : List PreSharedKeyID) (h : ReinitOrBranch a) :
    GroupSecrets.countReinitOrBranch (a :: l) 0 = 1 + GroupSecrets.countReinitOrBranch l 0 := by
  obtain ⟨r, h1, h2⟩ := h
  conv => lhs; unfold GroupSecrets.countReinitOrBranch
  rw [h1]
  rcases h2 with h2 | h2 <;> simp only [h2] <;> rw [count_shift]

theorem count_cons_no {a : PreSharedKeyID} (l : List PreSharedKeyID) (h : ¬ ReinitOrBranch a) :
    GroupSecrets.countReinitOrBranch (a :: l) 0 = GroupSecrets.countReinitOrBranch l 0 := by
  conv => lhs; unfold GroupSecrets.countReinitOrBranch
  split
  · next r h1 =>
    split
    · next h2 => exact absurd ⟨r, h1, .inl h2⟩ h
    · next h2 => exact absurd ⟨r, h1, .inr h2⟩ h
    · rfl
  · rfl

theorem count_zero (l : List PreSharedKeyID) :
    GroupSecrets.countReinitOrBranch l 0 = 0 ↔ ∀ (i : Nat) a, l[i]? = some a → ¬ ReinitOrBranch a := by
  induction l with
  | nil => exact ⟨fun _ i a h => by simp at h, fun _ => rfl⟩
  | cons a l ih =>
    by_cases h : ReinitOrBranch a
    · rw [count_cons_yes l h]
      exact ⟨fun h => by omega, fun h' => absurd h (h' 0 a rfl)⟩
    · rw [count_cons_no l h, ih]
      constructor
      · intro h' i b hb
        cases i with
        | zero => cases hb; exact h
        | succ i => exact h' i b (by simpa using hb)
      · intro h' i b hb
        exact h' (i + 1) b (by simpa using hb)

/-- C49: accepted are exactly the lists in which no two entries are resumption PSKs with usage reinit or branch. -/
theorem C49_exact (x : GroupSecrets) :
    x.verify_single_reinit_or_branch_psk = true ↔
      ∀ (i j : Nat) a b, x.psk_ids[i]? = some a → x.psk_ids[j]? = some b → ReinitOrBranch a → ReinitOrBranch b →
        i = j := by
  unfold GroupSecrets.verify_single_reinit_or_branch_psk
  rw [decide_eq_true_iff]
  generalize x.psk_ids = l
  induction l with
  | nil => exact ⟨fun _ i j a b h => by simp at h, fun _ => Nat.zero_le _⟩
  | cons c l ih =>
    by_cases h : ReinitOrBranch c
    · rw [count_cons_yes l h, show 1 + GroupSecrets.countReinitOrBranch l 0 ≤ 1 ↔
        GroupSecrets.countReinitOrBranch l 0 = 0 by omega, count_zero]
      constructor
      · intro h' i j a b ha hb h1 h2
        cases i with
        | zero =>
          cases j with
          | zero => rfl
          | succ j => exact absurd h2 (h' j b (by simpa using hb))
        | succ i => exact absurd h1 (h' i a (by simpa using ha))
      · intro h' i a ha h1
        exact absurd (h' 0 (i + 1) c a rfl (by simpa using ha) h h1) (by omega)
    · rw [count_cons_no l h, ih]
      constructor
      · intro h' i j a b ha hb h1 h2
        cases i with
        | zero => cases ha; exact absurd h1 h
        | succ i =>
          cases j with
          | zero => cases hb; exact absurd h2 h
          | succ j => rw [h' i j a b (by simpa using ha) (by simpa using hb) h1 h2]
      · intro h' i j a b ha hb h1 h2
        have := h' (i + 1) (j + 1) a b (by simpa using ha) (by simpa using hb) h1 h2
        omega

example : GroupSecrets.verify_single_reinit_or_branch_psk
    ⟨[], none, [⟨.Resumption ⟨.Branch, [], 1⟩, []⟩, ⟨.Resumption ⟨.Application, [], 1⟩, []⟩, ⟨.External [], []⟩]⟩ = true := by
  decide
example : GroupSecrets.verify_single_reinit_or_branch_psk
    ⟨[], none, [⟨.Resumption ⟨.Branch, [], 1⟩, []⟩, ⟨.External [], []⟩, ⟨.Resumption ⟨.Reinit, [], 1⟩, []⟩]⟩ = false := by
  decide

/-! ## C55 -/

/-- C55: the confirmation tag of a commit is accepted exactly when it is there and is the MAC of the confirmed
transcript hash under the confirmation key. -/
theorem C55_commit (P : CryptoProvider) (cs : CipherSuite) (x : FramedContentAuthData) (key hash : Bytes) :
    x.verify_confirmation_tag P cs key hash = .ok () ↔
      x.confirmation_tag ≠ [] ∧ MacOf P cs key hash x.confirmation_tag := by
  unfold FramedContentAuthData.verify_confirmation_tag
  rw [← verify_mac_iff]
  cases x.confirmation_tag with
  | nil => exact ⟨(nomatch ·), fun h => absurd rfl h.1⟩
  | cons => simp

/-- C55: the confirmation tag of a group info is accepted exactly when it is the MAC of the confirmed transcript hash in
its group context under the confirmation key of the epoch that the secrets lead to in this context. -/
theorem C55_group_info (P : CryptoProvider) (x : GroupInfo) (h : Hpke)
    (hp : P.hpke x.group_context.cipher_suite = .ok h) (hs : Sizes h) (joiner psk : Bytes) :
    x.verify_confirmation_tag P joiner psk = .ok () ↔
      ∃ key, ConfirmationKey h x.group_context joiner psk key ∧
        MacOf P x.group_context.cipher_suite key x.group_context.confirmed_transcript_hash x.confirmation_tag := by
  unfold GroupInfo.verify_confirmation_tag ConfirmationKey
  simp only [Res.bind_ok_iff, extract_epoch_secret_iff hp hs, derive_secret_iff hp hs, verify_mac_iff]
  constructor
  · rintro ⟨e, h1, k, h2, h3⟩
    exact ⟨k, ⟨e, h1, h2⟩, h3⟩
  · rintro ⟨k, ⟨e, h1, h2⟩, h3⟩
    exact ⟨e, h1, k, h2, h3⟩

/-- C55: with a MAC that binds its message, a tag is accepted for one confirmed transcript hash only. -/
theorem C55_binds (P : CryptoProvider) (cs : CipherSuite) (h : Hash) (hp : P.hash cs = .ok h) (key : Bytes)
    (hb : ∀ m m', h.mac key m = h.mac key m' → m = m') (x : FramedContentAuthData) (a b : Bytes)
    (h1 : x.verify_confirmation_tag P cs key a = .ok ()) (h2 : x.verify_confirmation_tag P cs key b = .ok ()) : a = b := by
  rw [C55_commit] at h1 h2
  obtain ⟨_, g, e1, e2⟩ := h1
  obtain ⟨_, g', e1', e2'⟩ := h2
  rw [hp] at e1 e1'
  cases e1
  cases e1'
  exact hb _ _ (e2.symm.trans e2')

example : FramedContentAuthData.verify_confirmation_tag toyProvider toyContext.cipher_suite ⟨[], [4, 1]⟩ [4] [1] = .ok () := by
  decide
example : FramedContentAuthData.verify_confirmation_tag toyProvider toyContext.cipher_suite ⟨[], []⟩ [] [] ≠ .ok () := by
  decide
example : ∃ t, { toyGroupInfo with confirmation_tag := t }.verify_confirmation_tag toyProvider [1] [2] = .ok () :=
  ⟨List.replicate 4 1 ++ toyContext.confirmed_transcript_hash, by decide⟩

end Rmls
