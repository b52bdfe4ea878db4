import Verif.Spec.Authenticator
import Verif.Props.Derivation
import Verif.Props.Client
/-
C33 (binding of the list of PSKs), C78 and C101: members with one epoch authenticator are in one group and have one history.
-/
namespace Rmls
open Spec Enc Recipe RatchetTree PassiveClient

/-! ## C33 -/

/-- Every id can be written together with its index and the count. -/
def PskFits (count : Nat) : List (PreSharedKeyID × Bytes) → Prop
  | [] => True
  | (id, _) :: before => before.length < 2 ^ 16 ∧ count < 2 ^ 16 ∧
      (struct [preSharedKeyID id, uint 2 before.length, uint 2 count]).fits ∧ PskFits count before

theorem pskRecipe_of {h : Hpke} {count i : Nat} {acc out : Bytes} {l : List (PreSharedKeyID × Bytes)}
    (hf : PskFold h count i acc l out) : ∀ before, before.length = i → PskFits count before →
      (pskRecipe h count before).Yields h acc →
      PskFits count (l.reverse ++ before) ∧ (pskRecipe h count (l.reverse ++ before)).Yields h out := by
  induction hf with
  | done => intro before _ hb hy; exact ⟨hb, hy⟩
  | @step i acc psk extracted input next out id rest h1 h2 h3 h4 h5 h6 _ ih =>
    intro before hi hb hy
    subst hi
    have := ih ((id, psk) :: before) rfl ⟨h2, h3, h4, hb⟩ ⟨input, acc, ⟨extracted, ⟨_, _, rfl, rfl, h1⟩, h5⟩, hy, h6⟩
    rwa [List.reverse_cons, List.append_assoc]

theorem psk_same {h : Hpke} : ∀ {count count' : Nat} (l l' : List (PreSharedKeyID × Bytes)), PskFits count l → PskFits count' l' →
    l ≠ [] → l' ≠ [] → (pskRecipe h count l).Same h (pskRecipe h count' l') → count = count' ∧ l.length = l'.length := by
  intro count count' l l' hl hl' h0 h0' hs
  cases l with
  | nil => exact absurd rfl h0
  | cons x l =>
    cases l' with
    | nil => exact absurd rfl h0'
    | cons x' l' =>
      obtain ⟨⟨_, e, _, _⟩, _⟩ := hs
      have := pskLabel_inj hl.1 hl.2.1 hl'.1 hl'.2.1 hl.2.2.1 hl'.2.2.1 e
      exact ⟨this.2.2, by simp only [List.length_cons, this.2.1]⟩

theorem psk_same_list {h : Hpke} {count : Nat} : ∀ (l l' : List (PreSharedKeyID × Bytes)), PskFits count l → PskFits count l' →
    l.length = l'.length → (pskRecipe h count l).Same h (pskRecipe h count l') → l = l' := by
  intro l
  induction l with
  | nil => intro l' _ _ hn _; exact (List.eq_nil_of_length_eq_zero hn.symm).symm
  | cons x l ih =>
    intro l' hl hl' hn hs
    cases l' with
    | nil => cases hn
    | cons x' l' =>
      obtain ⟨⟨_, e, _, _, e'⟩, hs⟩ := hs
      have k := pskLabel_inj hl.1 hl.2.1 hl'.1 hl'.2.1 hl.2.2.1 hl'.2.2.1 e
      rw [ih l' hl.2.2.2 hl'.2.2.2 (Nat.succ.inj hn) hs, Prod.ext k.1 (show x.2 = x'.2 from e')]

/-- C33: the PSK secret commits to the whole list of PSKs and their ids: of two lists with the same PSK secret, either they
are the same, or two calls of the KDF that were made collide, or just one of them is empty and the KDF has given zeros. -/
theorem C33_commits (P : CryptoProvider) (cs : CipherSuite) (h : Hpke) (hp : P.hpke cs = .ok h) (hs : Sizes h)
    (ids ids' : List PreSharedKeyID) (psks psks' : List Bytes) (hl : ids.length < 2 ^ 16) (hl' : ids'.length < 2 ^ 16)
    (out : Bytes) (h1 : extract_psk_secret P cs ids psks = .ok out) (h2 : extract_psk_secret P cs ids' psks' = .ok out) :
    (ids = ids' ∧ psks = psks') ∨
    Collide h (pskRecipe h ids.length (ids.zip psks).reverse) (pskRecipe h ids'.length (ids'.zip psks').reverse) ∨
    (¬ (ids = [] ↔ ids' = []) ∧ out = zeros h.kdf_extract_size) := by
  rw [C33_fold_partial P cs h hp hs _ _ hl] at h1
  rw [C33_fold_partial P cs h hp hs _ _ hl'] at h2
  obtain ⟨n1, f1⟩ := h1
  obtain ⟨n2, f2⟩ := h2
  obtain ⟨w1, y1⟩ := pskRecipe_of f1 [] rfl trivial rfl
  obtain ⟨w2, y2⟩ := pskRecipe_of f2 [] rfl trivial rfl
  rw [List.append_nil] at w1 y1 w2 y2
  by_cases e : ids = []
  · subst e
    by_cases e' : ids' = []
    · subst e'
      exact .inl ⟨rfl, by rw [List.eq_nil_of_length_eq_zero n1.symm, List.eq_nil_of_length_eq_zero n2.symm]⟩
    · exact .inr (.inr ⟨by simp [e'], y1⟩)
  · by_cases e' : ids' = []
    · subst e'
      exact .inr (.inr ⟨by simp [e], y2⟩)
    · rcases same_or_collide _ _ y1 y2 with hc | hc
      · exact .inr (.inl hc)
      · have z : ∀ {a : List PreSharedKeyID} {b : List Bytes}, a.length = b.length → a ≠ [] → (a.zip b).reverse ≠ [] := by
          intro a b hab ha hz
          have := congrArg List.length hz
          rw [List.length_reverse, List.length_zip, ← hab, Nat.min_self] at this
          exact ha (List.eq_nil_of_length_eq_zero this)
        obtain ⟨k1, k2⟩ := psk_same _ _ w1 w2 (z n1 e) (z n2 e') hc
        rw [← k1] at hc w2
        have := List.reverse_inj.1 (psk_same_list _ _ w1 w2 k2 hc)
        left
        constructor
        · rw [← List.map_fst_zip (Nat.le_of_eq n1), this, List.map_fst_zip (Nat.le_of_eq n2)]
        · rw [← List.map_snd_zip (Nat.le_of_eq n1.symm), this, List.map_snd_zip (Nat.le_of_eq n2.symm)]

/-! ## C78 -/

theorem joined_same {h : Hpke} {j j' : Recipe} {ctx ctx' : GroupContext} {psk psk' : Bytes} (f : (groupContext ctx).fits)
    (f' : (groupContext ctx').fits) (hc : ContextCanonical ctx) (hc' : ContextCanonical ctx')
    (hs : (joinedRecipe h j ctx psk).Same h (joinedRecipe h j' ctx' psk')) :
    ctx = ctx' ∧ pskInput h psk = pskInput h psk' ∧ j.Same h j' := by
  obtain ⟨_, h1, _, h2, h3⟩ := hs
  exact ⟨groupContext_pf.eq hc hc' f f' h1, h3, h2⟩

theorem joined_yields {h : Hpke} {ctx : GroupContext} {joiner psk s : Bytes} (he : EpochSecret h ctx joiner psk s) :
    (joinedRecipe h (given joiner) ctx psk).Yields h s := by
  obtain ⟨_, x, h1, h2⟩ := he
  exact ⟨x, ⟨_, _, rfl, rfl, h1⟩, h2⟩

theorem joined_eq {h : Hpke} {ctx ctx' : GroupContext} {j j' psk psk' : Bytes} (e1 : ctx = ctx') (e2 : j = j')
    (e3 : pskInput h psk = pskInput h psk') : joinedRecipe h (given j) ctx psk = joinedRecipe h (given j') ctx' psk' := by
  rw [e1, e2, joinedRecipe, joinedRecipe, e3]

theorem info_canonical {gi : GroupInfo} (hg : gi.WF) : ContextCanonical gi.group_context :=
  ⟨by rw [hg.1.1]; trivial, hg.1.2⟩

/-- C78: two clients, however they have joined, that arrive at the same epoch authenticator are in the same group and epoch: they
have the same group context, joiner secret, PSK secret, epoch secret and tree; or two calls of the KDF that were made collide, or
two inputs of the tree hash. -/
theorem C78_joiners (P : CryptoProvider) (cs : CipherSuite) (hcs : cs.WF) (h : Hpke) (hp : P.hpke cs = .ok h)
    (hs : Sizes h) (Hs : Hash) (hP : P.hash cs = .ok Hs) (w w' : Welcome) (hw : w.cipher_suite = cs)
    (hw' : w'.cipher_suite = cs) (kp kp' : KeyPackage) (hkw : kp.WF) (hkw' : kp'.WF) (hkc : kp.payload.cipher_suite = cs)
    (hkc' : kp'.payload.cipher_suite = cs) (priv priv' : Bytes) (external external' : List (Bytes × Bytes))
    (given_ given' : Option Bytes) (s s' : State) (hn : s.group_secrets.psk_ids.length < 2 ^ 16)
    (hn' : s'.group_secrets.psk_ids.length < 2 ^ 16) (hj : join P cs w kp priv external given_ = .ok s)
    (hj' : join P cs w' kp' priv' external' given' = .ok s') (a : Bytes) (ha : authenticator P cs s = .ok a)
    (ha' : authenticator P cs s' = .ok a) :
    Collide h
      (derivedRecipe h (joinedRecipe h (given s.group_secrets.joiner_secret) s.group_info.group_context s.psk_secret)
        "authentication")
      (derivedRecipe h (joinedRecipe h (given s'.group_secrets.joiner_secret) s'.group_info.group_context s'.psk_secret)
        "authentication") ∨
    s.group_info.group_context = s'.group_info.group_context ∧
      s.group_secrets.joiner_secret = s'.group_secrets.joiner_secret ∧
      pskInput h s.psk_secret = pskInput h s'.psk_secret ∧ s.epoch_secret = s'.epoch_secret ∧
      (s.tree = s'.tree ∨ ∃ K K', Collision Hs.digest (hashInputs Hs.digest s.tree.get K 0)
        (hashInputs Hs.digest s'.tree.get K' 0)) := by
  have j := (C66_exact P cs hcs h hp hs Hs hP w hw kp hkw hkc priv external given_ s hn).1 hj
  have j' := (C66_exact P cs hcs h hp hs Hs hP w' hw' kp' hkw' hkc' priv' external' given' s' hn').1 hj'
  have y := joined_yields j.epoch
  have y' := joined_yields j'.epoch
  have z : (derivedRecipe h _ "authentication").Yields h a := ⟨_, y, (derive_secret_iff hp hs _ _ _).1 ha⟩
  have z' : (derivedRecipe h _ "authentication").Yields h a := ⟨_, y', (derive_secret_iff hp hs _ _ _).1 ha'⟩
  rcases same_or_collide _ _ z z' with hc | ⟨_, _, _, hc⟩
  · exact .inl hc
  · right
    obtain ⟨e1, e2, e3⟩ := joined_same j.epoch.1 j'.epoch.1 (info_canonical j.info.1) (info_canonical j'.info.1) hc
    have e3 : s.group_secrets.joiner_secret = s'.group_secrets.joiner_secret := e3
    refine ⟨e1, e3, e2, ?_, ?_⟩
    · rw [joined_eq e1 e3 e2] at y
      exact yields_unique _ y y'
    · exact C66_same P cs hcs h hp hs Hs hP w w' hw hw' kp kp' hkw hkw' hkc hkc' priv priv' external external' given_ given' s s'
        hn hn' hj hj' (by rw [e1])

/-- C78: two clients that have joined with the same confirmation tag are in the same group and epoch. -/
theorem C78_tags (P : CryptoProvider) (cs : CipherSuite) (hcs : cs.WF) (h : Hpke) (hp : P.hpke cs = .ok h)
    (hs : Sizes h) (Hs : Hash) (hP : P.hash cs = .ok Hs) (w w' : Welcome) (hw : w.cipher_suite = cs)
    (hw' : w'.cipher_suite = cs) (kp kp' : KeyPackage) (hkw : kp.WF) (hkw' : kp'.WF) (hkc : kp.payload.cipher_suite = cs)
    (hkc' : kp'.payload.cipher_suite = cs) (priv priv' : Bytes) (external external' : List (Bytes × Bytes))
    (given_ given' : Option Bytes) (s s' : State) (hn : s.group_secrets.psk_ids.length < 2 ^ 16)
    (hn' : s'.group_secrets.psk_ids.length < 2 ^ 16) (hj : join P cs w kp priv external given_ = .ok s)
    (hj' : join P cs w' kp' priv' external' given' = .ok s')
    (ht : s.group_info.confirmation_tag = s'.group_info.confirmation_tag) :
    (∃ key key', ConfirmationKey h s.group_info.group_context s.group_secrets.joiner_secret s.psk_secret key ∧
      ConfirmationKey h s'.group_info.group_context s'.group_secrets.joiner_secret s'.psk_secret key' ∧
      MacCollision Hs.mac key s.group_info.group_context.confirmed_transcript_hash key'
        s'.group_info.group_context.confirmed_transcript_hash) ∨
    Collide h
      (derivedRecipe h (joinedRecipe h (given s.group_secrets.joiner_secret) s.group_info.group_context s.psk_secret) "confirm")
      (derivedRecipe h (joinedRecipe h (given s'.group_secrets.joiner_secret) s'.group_info.group_context s'.psk_secret)
        "confirm") ∨
    s.group_info.group_context = s'.group_info.group_context ∧
      s.group_secrets.joiner_secret = s'.group_secrets.joiner_secret ∧
      pskInput h s.psk_secret = pskInput h s'.psk_secret ∧ s.epoch_secret = s'.epoch_secret ∧
      (s.tree = s'.tree ∨ ∃ K K', Collision Hs.digest (hashInputs Hs.digest s.tree.get K 0)
        (hashInputs Hs.digest s'.tree.get K' 0)) := by
  have j := (C66_exact P cs hcs h hp hs Hs hP w hw kp hkw hkc priv external given_ s hn).1 hj
  have j' := (C66_exact P cs hcs h hp hs Hs hP w' hw' kp' hkw' hkc' priv' external' given' s' hn').1 hj'
  obtain ⟨key, k1, H1, q1, m1⟩ := j.confirmed
  obtain ⟨key', k2, H2, q2, m2⟩ := j'.confirmed
  rw [j.suite, hkc, hP] at q1
  rw [j'.suite, hkc', hP] at q2
  cases q1
  cases q2
  by_cases hk : (key, s.group_info.group_context.confirmed_transcript_hash) =
      (key', s'.group_info.group_context.confirmed_transcript_hash)
  · right
    injection hk with hk _
    subst hk
    have y := joined_yields j.epoch
    have y' := joined_yields j'.epoch
    obtain ⟨x, x1, x2⟩ := k1
    obtain ⟨x', x1', x2'⟩ := k2
    have z : (derivedRecipe h _ "confirm").Yields h key := ⟨_, joined_yields x1, x2⟩
    have z' : (derivedRecipe h _ "confirm").Yields h key := ⟨_, joined_yields x1', x2'⟩
    rcases same_or_collide _ _ z z' with hc | ⟨_, _, _, hc⟩
    · exact .inl hc
    · right
      obtain ⟨e1, e2, e3⟩ := joined_same j.epoch.1 j'.epoch.1 (info_canonical j.info.1) (info_canonical j'.info.1) hc
      have e3 : s.group_secrets.joiner_secret = s'.group_secrets.joiner_secret := e3
      refine ⟨e1, e3, e2, ?_, ?_⟩
      · rw [joined_eq e1 e3 e2] at y
        exact yields_unique _ y y'
      · exact C66_same P cs hcs h hp hs Hs hP w w' hw hw' kp kp' hkw hkw' hkc hkc' priv priv' external external' given_ given' s s'
          hn hn' hj hj' (by rw [e1])
  · exact .inl ⟨key, key', k1, k2, hk, by rw [← m1, ← m2, ht]⟩

/-- C78: a member who went through the epochs and a client that joined in the last of them, if they have the same epoch
authenticator, have the same group context, epoch secret and PSK secret, and the joiner secret of the client is the one that the
member has derived. -/
theorem C78_member (P : CryptoProvider) (cs : CipherSuite) (hcs : cs.WF) (h : Hpke) (hp : P.hpke cs = .ok h)
    (hs : Sizes h) (Hs : Hash) (hP : P.hash cs = .ok Hs) (w : Welcome) (hw : w.cipher_suite = cs) (kp : KeyPackage) (hkw : kp.WF)
    (hkc : kp.payload.cipher_suite = cs) (priv : Bytes) (external : List (Bytes × Bytes)) (given_ : Option Bytes) (s : State)
    (hn : s.group_secrets.psk_ids.length < 2 ^ 16) (hj : join P cs w kp priv external given_ = .ok s)
    (init : Bytes) (e : Epochs.Input) (he : e.ctx.cipher_suite = cs) (hc : ContextCanonical e.ctx) (epoch : Bytes)
    (hep : Epochs.epochSecret P init e = .ok epoch) (a : Bytes) (ha : authenticator P cs s = .ok a)
    (ha' : P.derive_secret cs epoch SECRET_LABEL_AUTHENTICATION = .ok a) :
    Collide h (derivedRecipe h (epochRecipe h (given init) e) "authentication")
      (derivedRecipe h (joinedRecipe h (given s.group_secrets.joiner_secret) s.group_info.group_context s.psk_secret)
        "authentication") ∨
    e.ctx = s.group_info.group_context ∧ pskInput h e.psk_secret = pskInput h s.psk_secret ∧ epoch = s.epoch_secret ∧
      e.ctx.extract_joiner_secret P init e.commit_secret = .ok s.group_secrets.joiner_secret := by
  have j := (C66_exact P cs hcs h hp hs Hs hP w hw kp hkw hkc priv external given_ s hn).1 hj
  have y := ((epochSecret_iff hp hs he (r := given init) rfl epoch).1 hep)
  have y' := joined_yields j.epoch
  have z : (derivedRecipe h _ "authentication").Yields h a := ⟨_, y.2, (derive_secret_iff hp hs _ _ _).1 ha'⟩
  have z' : (derivedRecipe h _ "authentication").Yields h a := ⟨_, y', (derive_secret_iff hp hs _ _ _).1 ha⟩
  rcases same_or_collide _ _ z z' with hx | ⟨_, _, _, hx⟩
  · exact .inl hx
  · right
    obtain ⟨e1, e2, e3⟩ := joined_same (j := joinerRecipe h (given init) e.ctx e.commit_secret) y.1 j.epoch.1 hc
      (info_canonical j.info.1) hx
    have e3 : (joinerRecipe h (given init) e.ctx e.commit_secret).Yields h s.group_secrets.joiner_secret := e3
    refine ⟨e1, e2, ?_, ?_⟩
    · obtain ⟨u, ⟨v, _, v1, rfl, v2⟩, u2⟩ := y.2
      obtain ⟨u', ⟨_, _, rfl, rfl, v2'⟩, u2'⟩ := y'
      obtain rfl := yields_unique _ v1 e3
      rw [e2] at v2
      cases v2.symm.trans v2'
      rw [← e1] at u2'
      cases u2.2.2.symm.trans u2'.2.2
      rfl
    · obtain ⟨x, ⟨_, _, rfl, rfl, x1⟩, x2⟩ := e3
      exact (C32_joiner P e.ctx h (by rw [he]; exact hp) hs _ _ _).2 ⟨y.1, x, x1, x2⟩

/-- C78: if the member has the tree that the context of the epoch has the hash of, whatever its history, the client has the same
tree (but for the blank slot at the end that removals may leave, C64). -/
theorem C78_member_tree (P : CryptoProvider) (cs : CipherSuite) (hcs : cs.WF) (h : Hpke) (hp : P.hpke cs = .ok h)
    (hs : Sizes h) (Hs : Hash) (hP : P.hash cs = .ok Hs) (w : Welcome) (hw : w.cipher_suite = cs) (kp : KeyPackage) (hkw : kp.WF)
    (hkc : kp.payload.cipher_suite = cs) (priv : Bytes) (external : List (Bytes × Bytes)) (given_ : Option Bytes) (s : State)
    (hn : s.group_secrets.psk_ids.length < 2 ^ 16) (hj : join P cs w kp priv external given_ = .ok s)
    (init : Bytes) (e : Epochs.Input) (he : e.ctx.cipher_suite = cs) (hc : ContextCanonical e.ctx) (epoch : Bytes)
    (hep : Epochs.epochSecret P init e = .ok epoch) (a : Bytes) (ha : authenticator P cs s = .ok a)
    (ha' : P.derive_secret cs epoch SECRET_LABEL_AUTHENTICATION = .ok a) (founder : LeafNode) (evs : List TreeEvent)
    (t : RatchetTree) (hst : RoomSteps P cs [some (.Leaf founder)] evs t) (h0 : t ≠ []) (htw : t.NodesWF)
    (hth : t.compute_root_tree_hash P cs = .ok e.ctx.tree_hash) :
    Collide h (derivedRecipe h (epochRecipe h (given init) e) "authentication")
      (derivedRecipe h (joinedRecipe h (given s.group_secrets.joiner_secret) s.group_info.group_context s.psk_secret)
        "authentication") ∨
    SameTree t s.tree ∨ ∃ K K', Collision Hs.digest (hashInputs Hs.digest t.get K 0) (hashInputs Hs.digest s.tree.get K' 0) := by
  rcases C78_member P cs hcs h hp hs Hs hP w hw kp hkw hkc priv external given_ s hn hj init e he hc epoch hep a ha ha' with
    hx | ⟨hctx, _⟩
  · exact .inl hx
  right
  have j := (C66_exact P cs hcs h hp hs Hs hP w hw kp hkw hkc priv external given_ s hn).1 hj
  obtain ⟨_, _, _, ⟨r, rest, _, hr⟩, _, _, _, ⟨K', b1, b2⟩, _, _⟩ := j
  have hlen' := (C67_tree _ _ _ hr).1
  have hk := kept_steps (kept_single founder) hst
  obtain ⟨u, K, htu, hpf, _⟩ := hk.base (by cases t with | nil => exact absurd rfl h0 | cons => simp)
  have hsame : SameTree t u := by
    rcases htu with rfl | rfl
    · exact .inl rfl
    · exact .inr ⟨K, hpf.length, rfl⟩
  obtain ⟨hg, _, hroot, _⟩ := C64_agree P cs founder t u evs hst hsame
  have hK : K ≤ 31 := by
    have h1 := hpf.length
    have h2 := hpf.size
    have : 2 ^ (K + 1) ≤ 2 ^ 32 := by omega
    have := (Nat.pow_le_pow_iff_right (a := 2) (by omega)).1 this
    omega
  have hpow := Nat.two_pow_pos K
  have h2 : 2 ^ (K + 1) = 2 * 2 ^ K := by rw [Nat.pow_succ]; omega
  have hl := hpf.length
  have hlsz := hpf.size
  have hh : IsHeight ((u.length + 1) / 2) K := by
    rw [hl, h2, Nat.mul_div_cancel_left _ (by omega)]
    exact ⟨Nat.le_refl _, fun k hk => (Nat.pow_le_pow_iff_right (by omega)).1 hk⟩
  rw [hroot, C20_root P cs u K (by omega) hlsz hh] at hth
  have hlt : node K 0 < 2 ^ 32 - 1 := by
    have := node_top K
    have : 2 ^ K ≤ 2 ^ 31 := Nat.pow_le_pow_right (by omega) hK
    omega
  rcases C20_rfc P cs Hs hP u K 0 hlt with ⟨d1, e1⟩ | ⟨_, _, e1⟩
  case inr => rw [hth] at e1; cases e1
  rw [hth] at e1
  injection e1 with e1
  have hgg : t.get = u.get := funext hg
  have hww : ∀ x l, u.get x = some (.Leaf l) → l.WF := by
    intro x l hx
    rw [← hgg] at hx
    have hx' : t[x]?.join = some (.Leaf l) := hx
    rw [List.getElem?_eq_getElem (lt_of_get hx)] at hx'
    have hm : some (Node.Leaf l) ∈ t := hx' ▸ List.getElem_mem (lt_of_get hx)
    exact htw _ hm
  have heq : treeHash Hs.digest u.get K 0 = treeHash Hs.digest s.tree.get K' 0 := by
    rw [← e1, hctx]; exact b2.hash.symm
  rw [hgg]
  by_cases hkk : K = K'
  · subst hkk
    rcases treeHash_binds Hs.digest u.get s.tree.get hww (read_wf hr) K 0 (root_pos hK).2 d1 b2.defined heq with hc | hc
    · have : u = s.tree := by
        refine ext (by omega) fun x => ?_
        by_cases hx : x < u.length
        · exact hc x (inSubtree_root.2 (by omega))
        · rw [get_out (by omega), get_out (by omega)]
      exact .inl (this ▸ hsame)
    · exact .inr ⟨K, K, hc⟩
  · exact .inr ⟨K, K', treeHash_heights Hs.digest _ _ K K' hkk d1 b2.defined heq⟩

/-! ## C101 -/

/-- The last commit, if there is one, carries a confirmation tag that holds in the epoch that it has started. -/
def TagHolds (P : CryptoProvider) (cs : CipherSuite) (epoch confirmed : Bytes) (xs : List AuthenticatedContent) : Prop :=
  ∀ m, xs.getLast? = some m → ∃ key, P.derive_secret cs epoch SECRET_LABEL_CONFIRM = .ok key ∧
    m.auth.verify_confirmation_tag P cs key confirmed = .ok ()

/-- C101: two members of a group that was started in one state, each with the commits they have handled, one for each epoch: if they
arrive at the same epoch authenticator, they are in the same epoch with the same secrets and have handled the same commits: wire
format, content, signature and confirmation tag; or two calls of the KDF collide, or two inputs of the transcript hashes. -/
theorem C101_commits (P : CryptoProvider) (cs : CipherSuite) (h : Hpke) (hp : P.hpke cs = .ok h) (hs : Sizes h) (Hs : Hash)
    (hP : P.hash cs = .ok Hs) (hH : ∀ a b, (Hs.digest a).length = (Hs.digest b).length) (init init' : Bytes)
    (e e' : Epochs.Input) (he : e.ctx.cipher_suite = cs) (he' : e'.ctx.cipher_suite = cs) (hc : ContextCanonical e.ctx)
    (hc' : ContextCanonical e'.ctx) (epoch epoch' : Bytes) (hep : Epochs.epochSecret P init e = .ok epoch)
    (hep' : Epochs.epochSecret P init' e' = .ok epoch') (start : Bytes × Bytes) (first : Nat) (xs ys : List AuthenticatedContent)
    (hx : ∀ a ∈ xs, a.content.WF) (hy : ∀ a ∈ ys, a.content.WF) (i i' : Bytes)
    (h1 : runTranscript P cs start (stepsOf xs) = .ok (e.ctx.confirmed_transcript_hash, i))
    (h2 : runTranscript P cs start (stepsOf ys) = .ok (e'.ctx.confirmed_transcript_hash, i'))
    (hn : e.ctx.epoch.toNat = first + xs.length) (hn' : e'.ctx.epoch.toNat = first + ys.length)
    (hv : TagHolds P cs epoch e.ctx.confirmed_transcript_hash xs)
    (hv' : TagHolds P cs epoch' e'.ctx.confirmed_transcript_hash ys) (a : Bytes)
    (ha : P.derive_secret cs epoch SECRET_LABEL_AUTHENTICATION = .ok a)
    (ha' : P.derive_secret cs epoch' SECRET_LABEL_AUTHENTICATION = .ok a) :
    Collide h (derivedRecipe h (epochRecipe h (given init) e) "authentication")
      (derivedRecipe h (epochRecipe h (given init') e') "authentication") ∨
    Collision Hs.digest (transcriptInputs Hs.digest start.2 (stepsOf xs)) (transcriptInputs Hs.digest start.2 (stepsOf ys)) ∨
    xs = ys ∧ SameEpoch h e e' ∧ init = init' ∧ epoch = epoch' := by
  have y := (epochSecret_iff hp hs he (r := given init) rfl epoch).1 hep
  have y' := (epochSecret_iff hp hs he' (r := given init') rfl epoch').1 hep'
  have z : (derivedRecipe h _ "authentication").Yields h a := ⟨_, y.2, (derive_secret_iff hp hs _ _ _).1 ha⟩
  have z' : (derivedRecipe h _ "authentication").Yields h a := ⟨_, y'.2, (derive_secret_iff hp hs _ _ _).1 ha'⟩
  rcases same_or_collide _ _ z z' with hq | ⟨_, _, _, hq⟩
  · exact .inl hq
  right
  obtain ⟨k, k2⟩ := epoch_same (b := []) (b' := []) (start := init) (start' := init') y.1 y'.1 hc hc' hq
  have k2 : init = init' := k2
  have k3 : epoch = epoch' := by
    have y2 := y.2
    rw [show epochRecipe h (given init) e = epochRecipe h (given init') e' by
      rw [k2, epochRecipe, epochRecipe, k.1, k.2.1, k.2.2]] at y2
    exact yields_unique _ y2 y'.2
  have hl : xs.length = ys.length := by rw [k.1] at hn; omega
  rw [C34_hashes P cs Hs hP] at h1 h2
  rcases C34_confirmed Hs.digest hH start (stepsOf xs) (stepsOf ys) (steps_wf xs hx h1) (steps_wf ys hy h2)
    (by simp [stepsOf, hl]) _ _ h1 h2 (by rw [k.1]) with ⟨q1, q2⟩ | hq
  · right
    refine ⟨?_, k, k2, k3⟩
    have last : ∀ m n : AuthenticatedContent, xs.getLast? = some m → ys.getLast? = some n →
        m.auth.confirmation_tag = n.auth.confirmation_tag := by
      intro m n hm hn
      obtain ⟨key, d, v⟩ := hv m hm
      obtain ⟨key', d', v'⟩ := hv' n hn
      rw [k3] at d
      cases d.symm.trans d'
      rw [← k.1] at v'
      unfold FramedContentAuthData.verify_confirmation_tag at v v'
      split at v
      · cases v
      split at v'
      · cases v'
      obtain ⟨_, g, g'⟩ := (verify_mac_iff ..).1 v
      obtain ⟨_, f, f'⟩ := (verify_mac_iff ..).1 v'
      cases g.symm.trans f
      rw [g', f']
    have same : ∀ m n : AuthenticatedContent, m.confirmed_transcript_hash_input = n.confirmed_transcript_hash_input →
        m.auth.confirmation_tag = n.auth.confirmation_tag → m = n := by
      rintro ⟨w, c, s, t⟩ ⟨w', c', s', t'⟩ hab ht
      simp only [AuthenticatedContent.confirmed_transcript_hash_input, ConfirmedTranscriptHashInput.mk.injEq] at hab ht
      obtain ⟨rfl, rfl, rfl⟩ := hab
      rw [ht]
    have all : ∀ (us vs : List AuthenticatedContent),
        (stepsOf us).map TranscriptStep.input = (stepsOf vs).map TranscriptStep.input →
        (stepsOf us).map TranscriptStep.tag = (stepsOf vs).map TranscriptStep.tag → us = vs := by
      intro us
      induction us with
      | nil => intro vs e _; cases vs with | nil => rfl | cons _ _ => cases e
      | cons m us ih =>
        intro vs e t
        cases vs with
        | nil => cases e
        | cons n vs =>
          simp only [stepsOf, List.map_cons, List.cons.injEq] at e t
          rw [same m n e.1 t.1, ih vs (by simpa [stepsOf] using e.2) (by simpa [stepsOf] using t.2)]
    refine all xs ys q1 ?_
    rcases List.eq_nil_or_concat xs with rfl | ⟨us, m, rfl⟩
    · rw [List.eq_nil_of_length_eq_zero hl.symm]
    · rcases List.eq_nil_or_concat ys with rfl | ⟨vs, n, rfl⟩
      · simp at hl
      · simp only [List.concat_eq_append] at *
        have lt := last m n (by simp) (by simp)
        simp only [stepsOf, List.map_append, List.map_cons, List.map_nil, List.dropLast_concat] at q2 ⊢
        rw [q2, lt]
  · exact .inl hq

/-- C101: once two members have handled different commits for one epoch, their epoch authenticators differ for ever, whatever
commits each of them handles afterwards; or there is a collision. -/
theorem C101_fork (P : CryptoProvider) (cs : CipherSuite) (h : Hpke) (hp : P.hpke cs = .ok h) (hs : Sizes h) (Hs : Hash)
    (hP : P.hash cs = .ok Hs) (hH : ∀ a b, (Hs.digest a).length = (Hs.digest b).length) (init init' : Bytes)
    (e e' : Epochs.Input) (he : e.ctx.cipher_suite = cs) (he' : e'.ctx.cipher_suite = cs) (hc : ContextCanonical e.ctx)
    (hc' : ContextCanonical e'.ctx) (epoch epoch' : Bytes) (hep : Epochs.epochSecret P init e = .ok epoch)
    (hep' : Epochs.epochSecret P init' e' = .ok epoch') (start : Bytes × Bytes) (first : Nat)
    (common xs ys : List AuthenticatedContent) (m n : AuthenticatedContent) (hmn : m ≠ n)
    (hx : ∀ a ∈ common ++ m :: xs, a.content.WF) (hy : ∀ a ∈ common ++ n :: ys, a.content.WF) (i i' : Bytes)
    (h1 : runTranscript P cs start (stepsOf (common ++ m :: xs)) = .ok (e.ctx.confirmed_transcript_hash, i))
    (h2 : runTranscript P cs start (stepsOf (common ++ n :: ys)) = .ok (e'.ctx.confirmed_transcript_hash, i'))
    (hn : e.ctx.epoch.toNat = first + (common ++ m :: xs).length)
    (hn' : e'.ctx.epoch.toNat = first + (common ++ n :: ys).length)
    (hv : TagHolds P cs epoch e.ctx.confirmed_transcript_hash (common ++ m :: xs))
    (hv' : TagHolds P cs epoch' e'.ctx.confirmed_transcript_hash (common ++ n :: ys)) (a : Bytes)
    (ha : P.derive_secret cs epoch SECRET_LABEL_AUTHENTICATION = .ok a)
    (ha' : P.derive_secret cs epoch' SECRET_LABEL_AUTHENTICATION = .ok a) :
    Collide h (derivedRecipe h (epochRecipe h (given init) e) "authentication")
      (derivedRecipe h (epochRecipe h (given init') e') "authentication") ∨
    Collision Hs.digest (transcriptInputs Hs.digest start.2 (stepsOf (common ++ m :: xs)))
      (transcriptInputs Hs.digest start.2 (stepsOf (common ++ n :: ys))) := by
  rcases C101_commits P cs h hp hs Hs hP hH init init' e e' he he' hc hc' epoch epoch' hep hep' start first _ _ hx hy i i' h1 h2
    hn hn' hv hv' a ha ha' with q | q | q
  · exact .inl q
  · exact .inr q
  · exact absurd (List.cons.inj (List.append_cancel_left q.1)).1 hmn

section examples
private abbrev suite1 : CipherSuite := .MLS_128_DHKEMX25519_AES128GCM_SHA256_Ed25519

private theorem free_sizes : Sizes freeHpke := ⟨by decide, by decide, by decide⟩

/-- Two PSKs in the other order: both lists have a PSK secret, and not the same. -/
example : ∃ o o', extract_psk_secret freeProvider suite1 [⟨.External [1], [2]⟩, ⟨.External [3], [2]⟩] [[5], [6]] = .ok o ∧
    extract_psk_secret freeProvider suite1 [⟨.External [3], [2]⟩, ⟨.External [1], [2]⟩] [[6], [5]] = .ok o' ∧ o ≠ o' := by
  obtain ⟨o, ho⟩ := C33_succeeds freeProvider suite1 freeHpke rfl free_extractor free_expander
    [⟨.External [1], [2]⟩, ⟨.External [3], [2]⟩] [[5], [6]] (by decide) rfl
  obtain ⟨o', ho'⟩ := C33_succeeds freeProvider suite1 freeHpke rfl free_extractor free_expander
    [⟨.External [3], [2]⟩, ⟨.External [1], [2]⟩] [[6], [5]] (by decide) rfl
  refine ⟨o, o', ho, ho', ?_⟩
  rintro rfl
  rcases C33_commits freeProvider suite1 freeHpke rfl free_sizes _ _ _ _ (by decide) (by decide) o ho ho' with h | h | h
  · exact absurd h.2 (by decide)
  · exact free_collide _ _ h
  · exact absurd h.1 (by decide)

/-- One client takes the tree from the group info, another gets it separately; both join and have the same authenticator. -/
example : ∃ a, join toyProvider suite1 joinWelcome joinPackage [3] [([0], [9]), ([1], [5])] none = .ok joinState ∧
    join toyProvider suite1 joinWelcome joinPackage [3] [([0], [9]), ([1], [5])] (some joinRaw) = .ok joinState ∧
    authenticator toyProvider suite1 joinState = .ok a ∧ joinPackage.WF ∧ joinState.group_secrets.psk_ids.length < 2 ^ 16 :=
  have ex := fun given_ => C66_exact toyProvider suite1 trivial toyHpke rfl toy_sizes toyHash rfl joinWelcome rfl joinPackage
    ⟨trivial, trivial, toyLeaf_wf 1, nofun⟩ rfl [3] [([0], [9]), ([1], [5])] given_ joinState (by decide)
  ⟨_, joinState_join, (ex _).2 { (ex _).1 joinState_join with tree := ⟨joinRaw, [], .inl rfl, by decide +kernel⟩ }, rfl, ⟨trivial, trivial, toyLeaf_wf 1, nofun⟩, by decide⟩

/-- And so has a member who came to this epoch with a commit secret. -/
example : ∃ a epoch, Epochs.epochSecret toyProvider [1] ⟨joinInfo.group_context, [7], joinState.psk_secret⟩ = .ok epoch ∧
    toyProvider.derive_secret suite1 epoch SECRET_LABEL_AUTHENTICATION = .ok a ∧
    authenticator toyProvider suite1 joinState = .ok a ∧ joinInfo.group_context.cipher_suite = suite1 ∧
    ContextCanonical joinInfo.group_context := by
  have h1 : Epochs.epochSecret toyProvider [1] ⟨joinInfo.group_context, [7], joinState.psk_secret⟩ = .ok [1, 1, 1, 1] := by
    decide +kernel

  exact ⟨_, _, h1, rfl, rfl, rfl, trivial, trivial, nofun⟩

/-- Whose tree has the hash of the context. -/
example : RoomSteps toyProvider suite1 [some (.Leaf (signedLeaf 0 .Update))] [.add joinLeaf] joinTree ∧ joinTree ≠ [] ∧
    joinTree.NodesWF ∧ joinTree.compute_root_tree_hash toyProvider suite1 = .ok joinInfo.group_context.tree_hash ∧
    SameTree joinTree joinState.tree := by
  refine ⟨.cons ⟨.inr (by decide), rfl⟩ (.inr (by decide)) (.nil _), by decide, ?_, by decide +kernel, .inl rfl⟩
  intro n hn
  simp only [joinTree, List.mem_cons, Option.some.injEq, List.not_mem_nil, or_false, reduceCtorEq, false_or] at hn
  rcases hn with rfl | rfl
  · exact toyLeaf_wf 0
  · exact toyLeaf_wf 1

/-- A commit with this signature. -/
def firstCommit (signature : Bytes) : AuthenticatedContent :=
  ⟨.PublicMessage, { toyContent with content := .Commit ⟨[], none⟩ }, ⟨signature, [1, 1, 1, 1, 0, 1, 1, 7]⟩⟩
def afterFirst : Epochs.Input :=
  ⟨{ joinInfo.group_context with epoch := 1, confirmed_transcript_hash := [0, 1, 1, 7] }, [7], [8]⟩

/-- The hypotheses of `C101_commits` are met by members who have handled such a commit, and those of `C101_fork` by two who have
handled different ones, with a hash that only looks at the first bytes. -/
example (signature : Bytes) (hs : signature = [5] ∨ signature = [6]) :
    let P : CryptoProvider := { toyProvider with hash := fun _ => .ok shortHash }
    ∃ i a, runTranscript P suite1 ([], []) (stepsOf [firstCommit signature]) = .ok (afterFirst.ctx.confirmed_transcript_hash, i) ∧
      Epochs.epochSecret P [1] afterFirst = .ok [1, 1, 1, 1] ∧ afterFirst.ctx.epoch.toNat = 0 + [firstCommit signature].length ∧
      TagHolds P suite1 [1, 1, 1, 1] afterFirst.ctx.confirmed_transcript_hash [firstCommit signature] ∧
      P.derive_secret suite1 [1, 1, 1, 1] SECRET_LABEL_AUTHENTICATION = .ok a ∧ (firstCommit signature).content.WF ∧
      ContextCanonical afterFirst.ctx := by
  refine ⟨_, _, by rcases hs with rfl | rfl <;> rfl, by decide +kernel, rfl, ?_, rfl,
    by simp [firstCommit, FramedContent.WF, Content.WF, Commit.WF], ?_⟩
  · intro m hm
    cases hm
    exact ⟨[1, 1, 1, 1], by decide +kernel, rfl⟩
  · exact ⟨trivial, trivial, nofun⟩

end examples
end Rmls
