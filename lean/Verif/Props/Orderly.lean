import Verif.Spec.Orderly
import Verif.Props.Lockout
/-
Property C125: a group that keeps to the rules can always be joined.
-/
namespace Rmls
open Spec Spec.Enc RatchetTree

/-- The trees to which a group comes that keeps to the rules.

* Somebody is added with the leaf node of a key package, where there is a free slot or to an array of odd length; see C15 for the
  other case.
* A member replaces their leaf node, is removed, or sends a path. -/
inductive Orderly (P : CryptoProvider) (cs : CipherSuite) (H : Bytes → Bytes) (group_id : Bytes) (t₀ : RatchetTree) :
    RatchetTree → Prop where
  | here : Orderly P cs H group_id t₀ t₀
  | add {t t'} (li : Nat) (leaf : LeafNode) : Orderly P cs H group_id t₀ t → FromPackage leaf → t.get (2 * li) = none →
      GoodLeaf P cs group_id t li leaf →
      ((∃ j, 2 * j < t.length ∧ t.get (2 * j) = none) ∨ (t.length % 2 = 1 ∧ t.length < 2 ^ 31)) →
      t.add leaf = .ok t' → ShortLists t' → Orderly P cs H group_id t₀ t'
  | update {t t'} (li : Nat) (leaf : LeafNode) : Orderly P cs H group_id t₀ t → t.get (2 * li) ≠ none →
      GoodLeaf P cs group_id t li leaf → t.update li leaf = .ok t' → Orderly P cs H group_id t₀ t'
  | remove {t t'} (li : Nat) : Orderly P cs H group_id t₀ t → t.get (2 * li) ≠ none → t.remove li = .ok t' →
      Orderly P cs H group_id t₀ t'
  | merge {t t'} (li : Nat) (path : UpdatePath) : Orderly P cs H group_id t₀ t → t.get (2 * li) ≠ none →
      GoodLeaf P cs group_id t li path.leaf_node → NewKeys t path →
      t.merge_update_path P cs li path = (t', .ok ()) → Unforeseen H t.get t'.get li → Orderly P cs H group_id t₀ t'

/-- The invariant. -/
structure Joinable (P : CryptoProvider) (cs : CipherSuite) (H : Bytes → Bytes) (group_id : Bytes) (t : RatchetTree) : Prop where
  standing : Standing H t
  parents : ShortLists t
  leaves : ∀ i l, t.get (node 0 i) = some (.Leaf l) → (leafNode l).fits ∧ LeafSigned P cs l group_id (UInt32.ofNat i) ∧
    (∀ e ∈ l.payload.extensions, e.extension_type ∈ l.payload.capabilities.extensions) ∧
    l.payload.capabilities.credentials.Nodup
  creds : ∀ i j l m, t.get (node 0 i) = some (.Leaf l) → t.get (node 0 j) = some (.Leaf m) →
    credTypeOf l.payload.credential ∈ m.payload.capabilities.credentials
  sigs : ∀ i j l m, t.get (node 0 i) = some (.Leaf l) → t.get (node 0 j) = some (.Leaf m) →
    l.payload.signature_key = m.payload.signature_key → i = j
  keys : ∀ x y key, HasKey t.get x key → HasKey t.get y key → x = y

/-- A tree with only such leaves can be hashed. -/
theorem Joinable.hashDefined {P : CryptoProvider} {cs : CipherSuite} {H : Bytes → Bytes} {gid : Bytes} {t : RatchetTree}
    (hs : ∀ b, (H b).length < 2 ^ 30) (h : Joinable P cs H gid t) : ∀ k i, HashDefined H t.get k i := by
  have hth : ∀ n k i, (treeHash H n k i).length < 2 ^ 30 := by
    intro n k i; cases k <;> (rw [treeHash]; exact hs _)
  intro k
  induction k with
  | zero =>
    intro i
    refine ⟨h.standing.inv.good.leaf i, trivial, trivial, ?_⟩
    cases hg : t.get (node 0 i) with
    | none => trivial
    | some n =>
      cases n with
      | Leaf l => exact ⟨trivial, (h.leaves i l hg).1⟩
      | Parent p => exact absurd hg (h.standing.inv.good.leaf i p)
  | succ k ih =>
    intro i
    refine ⟨h.standing.vouch.inner k i, ⟨trivial, ?_, ⟨trivial, hth _ _ _⟩, ⟨trivial, hth _ _ _⟩⟩, ih _, ih _⟩
    cases hg : t.get (node (k + 1) i) with
    | none => trivial
    | some n =>
      cases n with
      | Leaf l => exact absurd hg (h.standing.vouch.inner k i l)
      | Parent p => exact ⟨trivial, h.parents _ p hg⟩

private theorem members_iff {n : Nat → Option Node} {N : Nat} {m : Nat × LeafNode} :
    m ∈ members n N ↔ m.1 < N ∧ n (node 0 m.1) = some (.Leaf m.2) := by
  unfold members
  simp only [List.mem_filterMap, List.mem_range, Option.map_eq_some_iff]
  constructor
  · rintro ⟨i, hi, l, hl, rfl⟩
    refine ⟨hi, ?_⟩
    revert hl
    show leafOf (n (node 0 i)) = some l → n (node 0 i) = some (.Leaf l)
    cases n (node 0 i) with
    | none => nofun
    | some x =>
      cases x with
      | Leaf m => intro h; cases h; rfl
      | Parent p => nofun
  · rintro ⟨hi, hm⟩
    exact ⟨m.1, hi, m.2, by rw [hm]; rfl, rfl⟩

/-- Where every member lists every credential in use once, they are all supported. -/
theorem Joinable.supported {P : CryptoProvider} {cs : CipherSuite} {H : Bytes → Bytes} {gid : Bytes} {t : RatchetTree}
    (h : Joinable P cs H gid t) {i : Nat} {l : LeafNode} (hl : t.get (node 0 i) = some (.Leaf l)) :
    SupportedCred t.get ((t.length + 1) / 2) (credTypeOf l.payload.credential) := by
  have hlt := lt_of_get hl
  rw [node_zero] at hlt
  have hmem : (i, l) ∈ members t.get ((t.length + 1) / 2) := members_iff.2 ⟨by show i < _; omega, hl⟩
  have hone : ∀ ms : List (Nat × LeafNode), (∀ m ∈ ms, t.get (node 0 m.1) = some (.Leaf m.2)) →
      credCount ms (credTypeOf l.payload.credential) = ms.length := by
    intro ms
    induction ms with
    | nil => intro _; rfl
    | cons m ms ih =>
      intro hms
      have h1 := hms m (List.mem_cons_self ..)
      have h2 : m.2.payload.capabilities.credentials.count (credTypeOf l.payload.credential) = 1 :=
        by rw [List.Nodup.count (h.leaves _ _ h1).2.2.2, if_pos (h.creds i m.1 l m.2 hl h1)]
      have h3 := ih fun m' hm' => hms m' (List.mem_cons_of_mem _ hm')
      unfold credCount at h3 ⊢
      rw [List.map_cons, List.sum_cons, h2, h3, List.length_cons]
      omega
  have := hone (members t.get ((t.length + 1) / 2)) fun m hm => (members_iff.1 hm).2
  exact ⟨by rw [this]; exact List.length_pos_of_mem hmem, this⟩

/-- Newcomers accept such a tree. -/
theorem Joinable.accepted {P : CryptoProvider} {cs : CipherSuite} {Hs : Hash} {gid : Bytes} {t : RatchetTree}
    (hP : P.hash cs = .ok Hs) (hs : ∀ b, (Hs.digest b).length < 2 ^ 30) (h : Joinable P cs Hs.digest gid t) (h0 : 0 < t.length)
    {K : Nat} (hK : IsHeight ((t.length + 1) / 2) K) {ctx : GroupContext} (hcs : ctx.cipher_suite = cs)
    (hgid : ctx.group_id = gid) (hhash : ctx.tree_hash = treeHash Hs.digest t.get K 0) :
    verify_integrity P t ctx 0 = .ok () := by
  subst hcs hgid
  have hin := h.standing.inside hK
  rw [C19_exact P t ctx 0 Hs hP h0 h.standing.inv.size K hK hin]
  have hdef := h.hashDefined hs
  refine ⟨hdef K 0, hhash.symm, ?_, ?_, h.sigs, h.keys, h.standing.vouch.listed⟩
  · intro k i p hp
    have hth : ∀ n k i, (treeHash Hs.digest n k i).length < 2 ^ 30 := by
      intro n k i; cases k <;> (rw [treeHash]; exact hs _)
    have hfits : ∀ n k i, (parentHashEnc p (treeHash Hs.digest n k i)).fits := by
      intro n k i
      obtain ⟨a, b, _⟩ := h.parents _ p hp
      exact ⟨a, b, ⟨trivial, hth _ _ _⟩⟩
    exact ⟨hashDefined_without hs _ (hdef _ _), hashDefined_without hs _ (hdef _ _), hfits _ _ _, hfits _ _ _,
      h.standing.vouch.one k i p hp⟩
  · intro i l hl
    obtain ⟨_, h2, h3, _⟩ := h.leaves i l hl
    exact ⟨h2, h.supported hl, fun _ _ hc => absurd hc (by decide), h3⟩

/-- A change of the leaves keeps to the invariant when there is at most one new leaf and it is good. -/
private theorem joinable_of {P : CryptoProvider} {cs : CipherSuite} {H : Bytes → Bytes} {gid : Bytes} {t t' : RatchetTree}
    (h : Joinable P cs H gid t) (hst : Standing H t') (hpar : ShortLists t') (li : Nat)
    (hnew : ∀ i l, t'.get (node 0 i) = some (.Leaf l) →
      (i ≠ li ∧ t.get (node 0 i) = some (.Leaf l)) ∨ (i = li ∧ GoodLeaf P cs gid t li l))
    (hkeys : ∀ x y key, HasKey t'.get x key → HasKey t'.get y key → x = y) : Joinable P cs H gid t' := by
  refine ⟨hst, hpar, ?_, ?_, ?_, hkeys⟩
  · intro i l hl
    rcases hnew i l hl with ⟨_, ho⟩ | ⟨rfl, hg⟩
    · exact h.leaves i l ho
    · exact ⟨hg.fits, hg.signed, hg.extensions, hg.once⟩
  · intro i j l m hl hm
    rcases hnew i l hl with ⟨hi, ho⟩ | ⟨hi, hg⟩ <;> rcases hnew j m hm with ⟨hj, ho'⟩ | ⟨hj, hg'⟩
    · exact h.creds i j l m ho ho'
    · rw [node_zero] at ho
      exact hg'.supports i l hi ho
    · rw [node_zero] at ho'
      exact hg.supported j m hj ho'
    · rw [hi] at hl
      rw [hj, hl] at hm
      cases hm
      exact hg.own
  · intro i j l m hl hm he
    rcases hnew i l hl with ⟨hi, ho⟩ | ⟨hi, hg⟩ <;> rcases hnew j m hm with ⟨hj, ho'⟩ | ⟨hj, hg'⟩
    · exact h.sigs i j l m ho ho' he
    · rw [node_zero] at ho
      exact absurd he.symm (hg'.signature_key i l hi ho)
    · rw [node_zero] at ho'
      exact absurd he (hg.signature_key j m hj ho')
    · rw [hi, hj]

/-- Keys stay distinct when there is at most one new one and it is at a leaf. -/
private theorem keys_of {P : CryptoProvider} {cs : CipherSuite} {H : Bytes → Bytes} {gid : Bytes} {t t' : RatchetTree}
    (h : Joinable P cs H gid t) (li : Nat)
    (hnew : ∀ x key, HasKey t'.get x key → (x ≠ 2 * li ∧ HasKey t.get x key) ∨
      (x = 2 * li ∧ ∃ l, t'.get (2 * li) = some (.Leaf l) ∧ l.payload.encryption_key = key ∧ GoodLeaf P cs gid t li l)) :
    ∀ x y key, HasKey t'.get x key → HasKey t'.get y key → x = y := by
  intro x y key hx hy
  rcases hnew x key hx with ⟨h1, h2⟩ | ⟨h1, l, _, h2, h3⟩ <;> rcases hnew y key hy with ⟨h4, h5⟩ | ⟨h4, m, _, h5, h6⟩
  · exact h.keys x y key h2 h5
  · exact absurd h2 (h5 ▸ h6.encryption_key x h1)
  · exact absurd h5 (h2 ▸ h3.encryption_key y h4)
  · rw [h1, h4]

theorem hasKey_of {n n' : Nat → Option Node} {x : Nat} {key : HPKEPublicKey} (h : HasKey n' x key) (he : n' x = n x) :
    HasKey n x key := by
  unfold HasKey at h ⊢
  rwa [he] at h

theorem hasKey_none {n : Nat → Option Node} {x : Nat} {key : HPKEPublicKey} (h : HasKey n x key) (he : n x = none) :
    False := by
  rcases h with ⟨_, l, _, hl, _⟩ | ⟨p, hp, _⟩
  · rw [he] at hl; cases hl
  · rw [he] at hp; cases hp

theorem hasKey_leaf {n : Nat → Option Node} {x : Nat} {key : HPKEPublicKey} {l : LeafNode} (h : HasKey n x key)
    (he : n x = some (.Leaf l)) : l.payload.encryption_key = key := by
  rcases h with ⟨_, l, _, hl, hk⟩ | ⟨p, hp, _⟩
  · rw [he] at hl; cases hl; exact hk
  · rw [he] at hp; cases hp

theorem hasKey_listed {n n' : Nat → Option Node} {x : Nat} {key : HPKEPublicKey} {u : LeafIndex} (h : HasKey n' x key)
    (he : n' x = listed u (n x)) : HasKey n x key := by
  cases hx : n x with
  | none => rw [hx] at he; exact (hasKey_none h he).elim
  | some y =>
    cases y with
    | Leaf l => rw [hx] at he; exact hasKey_of h (he.trans hx.symm)
    | Parent p =>
      rw [hx] at he
      rcases h with ⟨_, l, _, hl, _⟩ | ⟨q, hq, hk⟩
      · rw [he] at hl; cases hl
      · rw [he] at hq
        cases hq
        exact .inr ⟨p, hx, hk⟩

/-- The signature of a leaf node from a key package is good for every leaf. -/
theorem GoodLeaf.move {P : CryptoProvider} {cs : CipherSuite} {gid : Bytes} {t : RatchetTree} {li j : Nat} {leaf : LeafNode}
    (h : GoodLeaf P cs gid t li leaf) (hf : FromPackage leaf) (hli : t.get (2 * li) = none) :
    GoodLeaf P cs gid t j leaf := by
  have hmem : ∀ i l, t[2 * i]?.join = some (.Leaf l) → i ≠ li := by
    intro i l hi hc
    subst hc
    have hi : t.get (2 * i) = some (.Leaf l) := hi
    rw [hli] at hi; cases hi
  obtain ⟨lt, hlt⟩ := hf
  have htbs : leafNodeTBS leaf.payload gid (UInt32.ofNat j) = leafNodeTBS leaf.payload gid (UInt32.ofNat li) := by
    unfold leafNodeTBS; rw [hlt]
  refine ⟨h.fits, ?_, h.extensions, h.once, h.own, fun i l _ hi => h.supports i l (hmem i l hi) hi,
    fun i l _ hi => h.supported i l (hmem i l hi) hi, fun i l _ hi => h.signature_key i l (hmem i l hi) hi, fun x _ hx => ?_⟩
  · unfold LeafSigned; rw [htbs]; exact h.signed
  · by_cases hxl : x = 2 * li
    · subst hxl; exact hasKey_none hx hli
    · exact h.encryption_key x hxl hx

/-- Where somebody who is added ends up. -/
theorem add_placed {t t' : RatchetTree} {leaf : LeafNode} (hsize : t.length < 2 ^ 32)
    (hroom : (∃ j, 2 * j < t.length ∧ t.get (2 * j) = none) ∨ (t.length % 2 = 1 ∧ t.length < 2 ^ 31))
    (hr : t.add leaf = .ok t') : ∃ j K, t.get (2 * j) = none ∧ ∀ x, t'.get x = if x = 2 * j then some (.Leaf leaf)
      else if above K j x then listed (UInt32.ofNat j) (t.get x) else t.get x := by
  by_cases hfree : ∃ j, 2 * j < t.length ∧ t.get (2 * j) = none
  · obtain ⟨_, hfree⟩ := hfree
    obtain ⟨j, h1, h2, h3⟩ := least_free hfree
    obtain ⟨K, hK⟩ := exists_height (num_leaves_bounds (by omega) hsize).1
    obtain ⟨t'', h4, _, h6⟩ := add_free (leaf := leaf) hsize hK h1 h2 h3
    rw [hr] at h4
    cases h4
    exact ⟨j, K, h2, h6⟩
  · have ⟨ho, hl⟩ : t.length % 2 = 1 ∧ t.length < 2 ^ 31 := by
      rcases hroom with hroom | hroom
      · exact absurd hroom hfree
      · exact hroom
    obtain ⟨K, hK⟩ := exists_height (n := 2 * ((t.length + 1) / 2)) (by omega)
    obtain ⟨t'', h4, _, h6⟩ := add_grow (leaf := leaf) (n := (t.length + 1) / 2) (K := K) (by omega) (by omega) hl hK
      (fun i hi hc => hfree ⟨i, by omega, hc⟩)
    rw [hr] at h4
    cases h4
    exact ⟨_, K, get_out (by omega), h6⟩

theorem joinable_add {P : CryptoProvider} {cs : CipherSuite} {H : Bytes → Bytes} {gid : Bytes} {t t' : RatchetTree}
    {li : Nat} {leaf : LeafNode} (h : Joinable P cs H gid t) (hf : FromPackage leaf) (hli : t.get (2 * li) = none)
    (hg : GoodLeaf P cs gid t li leaf)
    (hroom : (∃ j, 2 * j < t.length ∧ t.get (2 * j) = none) ∨ (t.length % 2 = 1 ∧ t.length < 2 ^ 31))
    (hr : t.add leaf = .ok t') (hshort : ShortLists t') : Joinable P cs H gid t' := by
  have hnc : NotCommit leaf := by
    obtain ⟨lt, hlt⟩ := hf
    intro b hc
    rw [hlt] at hc; cases hc
  have hst := standing_add h.standing hnc hroom hr
  obtain ⟨j, K, hj, hget⟩ := add_placed h.standing.inv.size hroom hr
  have hgood := GoodLeaf.move (j := j) hg hf hli
  have hplace : t'.get (2 * j) = some (.Leaf leaf) := by rw [hget, if_pos rfl]
  refine joinable_of h hst hshort j (fun i l hi => ?_) (keys_of h j fun x key hx => ?_)
  · by_cases hij : i = j
    · rw [node_zero, hij, hplace] at hi
      cases hi
      exact .inr ⟨hij, hgood⟩
    · rw [hget, if_neg (by rw [node_zero]; omega), if_neg leaf_not_above] at hi
      exact .inl ⟨hij, hi⟩
  · by_cases hxj : x = 2 * j
    · rw [hxj] at hx
      exact .inr ⟨hxj, leaf, hplace, hasKey_leaf hx hplace, hgood⟩
    · have hgx := hget x
      rw [if_neg hxj] at hgx
      by_cases ha : above K j x
      · rw [if_pos ha] at hgx
        exact .inl ⟨hxj, hasKey_listed hx hgx⟩
      · rw [if_neg ha] at hgx
        exact .inl ⟨hxj, hasKey_of hx hgx⟩

private theorem joinable_update {P : CryptoProvider} {cs : CipherSuite} {H : Bytes → Bytes} {gid : Bytes} {t t' : RatchetTree}
    {li : Nat} {leaf : LeafNode} (h : Joinable P cs H gid t) (hm : t.get (2 * li) ≠ none) (hg : GoodLeaf P cs gid t li leaf)
    (hr : t.update li leaf = .ok t') : Joinable P cs H gid t' := by
  have hlt : 2 * li < t.length := by
    cases hg : t.get (2 * li) with
    | none => exact absurd hg hm
    | some n => exact lt_of_get hg
  obtain ⟨K, hK⟩ := exists_height (n := (t.length + 1) / 2) (by omega)
  obtain ⟨t'', h1, _, hget⟩ := C14_update t leaf li K h.standing.inv.size hK hlt
  rw [hr] at h1
  cases h1
  have hplace : t'.get (2 * li) = some (.Leaf leaf) := by rw [hget, if_pos rfl]
  refine joinable_of h (standing_update h.standing hm hr) (fun x p hx => ?_) li (fun i l hi => ?_) (keys_of h li fun x key hx => ?_)
  · have hx : t'.get x = some (.Parent p) := hx
    rw [hget] at hx
    split at hx
    · cases hx
    · split at hx
      · cases hx
      · exact h.parents x p hx
  · by_cases hij : i = li
    · rw [node_zero, hij, hplace] at hi
      cases hi
      exact .inr ⟨hij, hg⟩
    · rw [hget, if_neg (by rw [node_zero]; omega), if_neg leaf_not_above] at hi
      exact .inl ⟨hij, hi⟩
  · by_cases hxj : x = 2 * li
    · rw [hxj] at hx
      exact .inr ⟨hxj, leaf, hplace, hasKey_leaf hx hplace, hg⟩
    · have hgx := hget x
      rw [if_neg hxj] at hgx
      by_cases ha : above K li x
      · rw [if_pos ha] at hgx
        exact (hasKey_none hx hgx).elim
      · rw [if_neg ha] at hgx
        exact .inl ⟨hxj, hasKey_of hx hgx⟩

theorem joinable_remove {P : CryptoProvider} {cs : CipherSuite} {H : Bytes → Bytes} {gid : Bytes} {t t' : RatchetTree}
    {li : Nat} (h : Joinable P cs H gid t) (hm : t.get (2 * li) ≠ none) (hr : t.remove li = .ok t') : Joinable P cs H gid t' := by
  have hlt : 2 * li < t.length := by
    cases hg : t.get (2 * li) with
    | none => exact absurd hg hm
    | some n => exact lt_of_get hg
  obtain ⟨K, hK⟩ := exists_height (num_leaves_bounds (by omega) h.standing.inv.size).1
  obtain ⟨t'', c, h1, _, hget, _⟩ := remove_get (by omega) h.standing.inv.size hK (leaf_in_tree (by omega) h.standing.inv.size hK hlt)
  rw [hr] at h1
  cases h1
  have hold : ∀ x n, t'.get x = some n → x ≠ 2 * li ∧ t.get x = some n := by
    intro x n hx
    rw [hget] at hx
    split at hx
    · cases hx
    · rename_i hc
      exact ⟨fun he => hc (.inl he), hx⟩
  refine joinable_of h (standing_remove h.standing hm hr) (fun x p hx => h.parents x p (hold x _ hx).2) li
    (fun i l hi => ?_) (keys_of h li fun x key hx => ?_)
  · obtain ⟨h1, h2⟩ := hold _ _ hi
    exact .inl ⟨fun he => h1 (by rw [node_zero, he]), h2⟩
  · left
    cases hgx : t'.get x with
    | none => exact (hasKey_none hx hgx).elim
    | some n =>
      obtain ⟨h1, h2⟩ := hold x n hgx
      exact ⟨h1, hasKey_of hx (hgx.trans h2.symm)⟩

private theorem joinable_merge {P : CryptoProvider} {cs : CipherSuite} {Hs : Hash} {gid : Bytes} {t t' : RatchetTree}
    (hP : P.hash cs = .ok Hs) (hs : ∀ b, (Hs.digest b).length < 2 ^ 30)
    {li : Nat} {path : UpdatePath} (h : Joinable P cs Hs.digest gid t) (hm : t.get (2 * li) ≠ none)
    (hg : GoodLeaf P cs gid t li path.leaf_node) (hk : NewKeys t path) (hr : t.merge_update_path P cs li path = (t', .ok ()))
    (hun : Unforeseen Hs.digest t.get t'.get li) : Joinable P cs Hs.digest gid t' := by
  have hlt : 2 * li < t.length := by
    cases hg : t.get (2 * li) with
    | none => exact absurd hg hm
    | some n => exact lt_of_get hg
  obtain ⟨K, hK⟩ := exists_height (n := (t.length + 1) / 2) (by omega)
  have hplace : MergePlace t K li := ⟨h.standing.inv.size, hK, hlt⟩
  obtain ⟨a1, a2, a3, a4, a5, a6⟩ := C22_effect P _ Hs hP t t' K _ hplace path hr
  obtain ⟨b1, b2, b3⟩ := C23_parent_hashes P _ Hs hP t t' K _ hplace path hr
  have hpm : PathMerged Hs.digest K li path t.get t'.get := ⟨a2, a3, a4, a5, a6, b1, b2, b3⟩
  refine joinable_of h (standing_merge hP h.standing hm hun hr) (fun x p hx => ?_) li (fun i l hi => ?_) ?_
  · have hx : t'.get x = some (.Parent p) := hx
    by_cases hxl : x = node 0 li
    · rw [hxl, hpm.leaf] at hx; cases hx
    · by_cases ha : above K li x
      · obtain ⟨k, k1, k2, rfl⟩ := ha
        have hx : t'.get (anc li k) = some (.Parent p) := hx
        by_cases hfl : k ∈ filteredLevels t.get K li
        · obtain ⟨q, hq, hfit⟩ := merged_fits hs hpm (renewal_keys hk.fits) hfl
          rw [hq] at hx
          cases hx
          exact hfit
        · rw [hpm.blank k k1 k2 hfl] at hx; cases hx
      · rw [hpm.others x ha hxl] at hx
        exact h.parents x p hx
  · by_cases hij : i = li
    · rw [hij, hpm.leaf] at hi
      cases hi
      exact .inr ⟨hij, hg⟩
    · rw [hpm.others _ leaf_not_above fun hc => hij (node_inj hc).2] at hi
      exact .inl ⟨hij, hi⟩
  · intro x y key hx hy
    rcases merged_keys hpm hx with ⟨i, i1, i2⟩ | hx <;> rcases merged_keys hpm hy with ⟨j, j1, j2⟩ | hy
    · have hij : i = j := by
        obtain ⟨ilt, ie⟩ := List.getElem?_eq_some_iff.1 i1
        obtain ⟨jlt, je⟩ := List.getElem?_eq_some_iff.1 j1
        exact (List.getElem_inj hk.distinct).1 (ie.trans je.symm)
      rw [hij, j2] at i2
      exact (Option.some.inj i2).symm
    · exact absurd hy (hk.fresh key (List.mem_iff_getElem?.2 ⟨i, i1⟩) y)
    · exact absurd hx (hk.fresh key (List.mem_iff_getElem?.2 ⟨j, j1⟩) x)
    · exact h.keys x y key hx hy

theorem orderly_joinable {P : CryptoProvider} {cs : CipherSuite} {Hs : Hash} {gid : Bytes} (hP : P.hash cs = .ok Hs)
    (hs : ∀ b, (Hs.digest b).length < 2 ^ 30) {t₀ t : RatchetTree} (h₀ : Joinable P cs Hs.digest gid t₀)
    (h : Orderly P cs Hs.digest gid t₀ t) : Joinable P cs Hs.digest gid t := by
  induction h with
  | here => exact h₀
  | add li leaf _ hf hli hg hroom hr hshort ih => exact joinable_add ih hf hli hg hroom hr hshort
  | update li leaf _ hm hg hr ih => exact joinable_update ih hm hg hr
  | remove li _ hm hr ih => exact joinable_remove ih hm hr
  | merge li path _ hm hg hk hr hun ih => exact joinable_merge hP hs ih hm hg hk hr hun

/-- The tree of a group with one member. -/
theorem joinable_founder {P : CryptoProvider} {cs : CipherSuite} {H : Bytes → Bytes} {gid : Bytes} {leaf : LeafNode}
    (hnc : NotCommit leaf) (hg : GoodLeaf P cs gid [] 0 leaf) : Joinable P cs H gid [some (.Leaf leaf)] := by
  have hall : ∀ x n, RatchetTree.get [some (.Leaf leaf)] x = some n → x = 0 ∧ n = .Leaf leaf := by
    intro x n hx
    match x with
    | 0 => cases hx; exact ⟨rfl, rfl⟩
    | x + 1 => rw [get_out (by show 1 ≤ x + 1; omega)] at hx; cases hx
  have hleaf : ∀ i l, RatchetTree.get [some (.Leaf leaf)] (node 0 i) = some (.Leaf l) → i = 0 ∧ l = leaf := by
    intro i l hi
    obtain ⟨h1, h2⟩ := hall _ _ hi
    rw [node_zero] at h1
    cases h2
    exact ⟨by omega, rfl⟩
  have hinv := (histInv_new (H := H) leaf hnc).inv
  have hpar : ∀ x p, RatchetTree.get [some (.Leaf leaf)] x ≠ some (.Parent p) := fun x p hx => nomatch (hall x _ hx).2
  have hinner : ∀ k i n, RatchetTree.get [some (.Leaf leaf)] (node (k + 1) i) ≠ some n := by
    intro k i n hx
    have h1 := (hall _ _ hx).1
    rw [node_succ] at h1
    omega
  have hst : Standing H [some (.Leaf leaf)] := by
    refine ⟨⟨⟨hinv.good.leaf, hinv.good.mem, (nomatch ·), hinv.good.inner, hinv.good.spine⟩, hinv.size, hinv.even, hinv.phantom⟩,
      ⟨fun k i l => hinner k i _, fun k i n hx => absurd hx (hinner k i n), fun k i p hx => absurd hx (hpar _ p),
        fun k i p hx => absurd hx (hpar _ p)⟩, .inr ⟨0, .inl rfl⟩⟩
  refine ⟨hst, fun x p hx => absurd hx (hpar x p), ?_, ?_, ?_, ?_⟩
  · intro i l hi
    obtain ⟨rfl, rfl⟩ := hleaf i l hi
    exact ⟨hg.fits, hg.signed, hg.extensions, hg.once⟩
  · intro i j l m hi hj
    obtain ⟨rfl, rfl⟩ := hleaf i l hi
    obtain ⟨rfl, rfl⟩ := hleaf j m hj
    exact hg.own
  · intro i j l m hi hj _
    rw [(hleaf i l hi).1, (hleaf j m hj).1]
  · intro x y key hx hy
    have : ∀ x, HasKey (RatchetTree.get [some (.Leaf leaf)]) x key → x = 0 := by
      intro x hx
      rcases hx with ⟨_, l, _, hl, _⟩ | ⟨p, hp, _⟩
      · exact (hall _ _ hl).1
      · exact (hall _ _ hp).1
    rw [this x hx, this y hy]

/-- A tree that was accepted, when its members list each credential once. -/
private theorem joinable_welcoming {P : CryptoProvider} {Hs : Hash} {ctx : GroupContext} (hP : P.hash ctx.cipher_suite = .ok Hs)
    {t : RatchetTree} {K : Nat} (h : Welcoming P Hs.digest ctx K t)
    (honce : ∀ i l, t.get (2 * i) = some (.Leaf l) → l.payload.capabilities.credentials.Nodup) :
    Joinable P ctx.cipher_suite Hs.digest ctx.group_id t := by
  have hpos := Nat.two_pow_pos K
  have h2 : 2 ^ (K + 1) = 2 * 2 ^ K := by rw [Nat.pow_succ]; omega
  have hsz := h.size
  have hn : (t.length + 1) / 2 = 2 ^ K := by omega
  have hv : TreeValid P Hs.digest t.get K (2 ^ K) (withTree Hs.digest ctx t K) 0 := h.valid
  have hacc : verify_integrity P t (withTree Hs.digest ctx t K) 0 = .ok () := by
    rw [C19_exact P t (withTree Hs.digest ctx t K) 0 Hs hP (by omega) h.small K (by rw [hn]; exact pow_isHeight K)
      (fun x n hx => by have := lt_of_get hx; omega), hn]
    exact hv
  have hin : ∀ k i n, t.get (node k i) = some n → k ≤ K ∧ i / 2 ^ (K - k) = 0 := fun k i n hx =>
    inSubtree_node.1 (inSubtree_root.2 (by have := lt_of_get hx; omega))
  refine ⟨accepted_standing (ctx := withTree Hs.digest ctx t K) hP h.size h.small hacc h.unmerged h.both, ?_, ?_, ?_,
    hv.signature_keys, hv.encryption_keys⟩
  · intro x p hx
    have hx : t.get x = some (.Parent p) := hx
    obtain ⟨k, i, rfl⟩ := node_surj x
    obtain ⟨h1, h3⟩ := hin k i _ hx
    have hd := hashDefined_sub (k := k) (i := i) (a := K - k) hv.defined (by omega) h3
    cases k with
    | zero => exact absurd hx (hd.1 p)
    | succ k =>
      have := hd.2.1.2.1
      rw [hx] at this
      exact this.2
  · intro i l hl
    have hlv := hv.leaves i l hl
    obtain ⟨h1, h3⟩ := hin 0 i _ hl
    have hd := hashDefined_sub (k := 0) (i := i) (a := K) hv.defined (by omega) h3
    have hfit := hd.2.2.2
    rw [hl] at hfit
    rw [node_zero] at hl
    exact ⟨hfit.2, hlv.signed, hlv.extensions, honce i l hl⟩
  · intro i j l m hl hm
    have hsup := (hv.leaves i l hl).credential.2
    have hlt := lt_of_get hm
    rw [node_zero] at hlt
    have hmem : (j, m) ∈ members t.get (2 ^ K) := members_iff.2 ⟨by show j < _; omega, hm⟩
    have hle : ∀ ms : List (Nat × LeafNode), (∀ a ∈ ms, a.2.payload.capabilities.credentials.Nodup) →
        credCount ms (credTypeOf l.payload.credential) ≤ ms.length ∧
        (credCount ms (credTypeOf l.payload.credential) = ms.length →
          ∀ a ∈ ms, credTypeOf l.payload.credential ∈ a.2.payload.capabilities.credentials) := by
      intro ms
      induction ms with
      | nil => intro _; exact ⟨Nat.le_refl _, nofun⟩
      | cons b ms ih =>
        intro hms
        obtain ⟨h1, h3⟩ := ih fun a ha => hms a (List.mem_cons_of_mem _ ha)
        have hc := List.Nodup.count (a := credTypeOf l.payload.credential) (hms b (List.mem_cons_self ..))
        unfold credCount at h1 h3 ⊢
        rw [List.map_cons, List.sum_cons, List.length_cons]
        by_cases hb : credTypeOf l.payload.credential ∈ b.2.payload.capabilities.credentials
        · rw [if_pos hb] at hc
          refine ⟨by omega, fun he a ha => ?_⟩
          rcases List.mem_cons.1 ha with rfl | ha
          · exact hb
          · exact h3 (by omega) a ha
        · rw [if_neg hb] at hc
          exact ⟨by omega, fun he => by omega⟩
    refine (hle _ fun a ha => ?_).2 hsup _ hmem
    have := (members_iff.1 ha).2
    rw [node_zero] at this
    exact honce _ _ this

/-- C125, what is true: newcomers accept the tree of a group that keeps to the rules from its beginning, with any group context
that has its tree hash, whatever has happened in the group.
Missing: the additions after which the new member is not in the tree (`C125_lost_refuted`), and members who list a credential twice
(`C125_repeated_refuted`). -/
theorem C125_always_partial (P : CryptoProvider) (cs : CipherSuite) (Hs : Hash) (hP : P.hash cs = .ok Hs)
    (hs : ∀ b, (Hs.digest b).length < 2 ^ 30) (group_id : Bytes) (founder : LeafNode) (hnc : NotCommit founder)
    (hf : GoodLeaf P cs group_id [] 0 founder) (t : RatchetTree)
    (h : Orderly P cs Hs.digest group_id [some (.Leaf founder)] t) (h0 : t ≠ []) (K : Nat) (hK : IsHeight ((t.length + 1) / 2) K)
    (ctx : GroupContext) (hcs : ctx.cipher_suite = cs) (hid : ctx.group_id = group_id)
    (hhash : ctx.tree_hash = treeHash Hs.digest t.get K 0) : verify_integrity P t ctx 0 = .ok () :=
  (orderly_joinable hP hs (joinable_founder hnc hf) h).accepted hP hs (List.length_pos_iff.2 h0) hK hcs hid hhash

/-- C125, what is true: the same from a tree that newcomers accept. -/
theorem C125_from_partial (P : CryptoProvider) (Hs : Hash) (ctx₀ : GroupContext) (hP : P.hash ctx₀.cipher_suite = .ok Hs)
    (hs : ∀ b, (Hs.digest b).length < 2 ^ 30) (K₀ : Nat) (t₀ : RatchetTree) (hw : Welcoming P Hs.digest ctx₀ K₀ t₀)
    (honce : ∀ i l, t₀.get (2 * i) = some (.Leaf l) → l.payload.capabilities.credentials.Nodup) (t : RatchetTree)
    (h : Orderly P ctx₀.cipher_suite Hs.digest ctx₀.group_id t₀ t) (h0 : t ≠ []) (K : Nat) (hK : IsHeight ((t.length + 1) / 2) K)
    (ctx : GroupContext) (hcs : ctx.cipher_suite = ctx₀.cipher_suite) (hid : ctx.group_id = ctx₀.group_id)
    (hhash : ctx.tree_hash = treeHash Hs.digest t.get K 0) : verify_integrity P t ctx 0 = .ok () :=
  (orderly_joinable hP hs (joinable_welcoming hP hw honce) h).accepted hP hs (List.length_pos_iff.2 h0) hK hcs hid hhash

/-! ### Groups that keep to the rules -/

section examples
private abbrev suite1 : CipherSuite := .MLS_128_DHKEMX25519_AES128GCM_SHA256_Ed25519

/-- The conditions on the other members, checked one by one. -/
def goodBeside (t : RatchetTree) (li : Nat) (leaf : LeafNode) : Bool :=
  (List.range t.length).all fun x => x == 2 * li || match t.get x with
    | none => true
    | some (.Leaf l) => decide (credTypeOf l.payload.credential ∈ leaf.payload.capabilities.credentials) &&
        decide (credTypeOf leaf.payload.credential ∈ l.payload.capabilities.credentials) &&
        decide (leaf.payload.signature_key ≠ l.payload.signature_key) &&
        decide (l.payload.encryption_key ≠ leaf.payload.encryption_key)
    | some (.Parent p) => decide (p.encryption_key ≠ leaf.payload.encryption_key)

theorem goodLeaf_of {P : CryptoProvider} {cs : CipherSuite} {gid : Bytes} {t : RatchetTree} {li : Nat} {leaf : LeafNode}
    (hfit : (leafNode leaf).fits) (hsig : LeafSigned P cs leaf gid (UInt32.ofNat li))
    (hext : leaf.payload.extensions = []) (honce : leaf.payload.capabilities.credentials.Nodup)
    (hown : credTypeOf leaf.payload.credential ∈ leaf.payload.capabilities.credentials)
    (h : goodBeside t li leaf = true) : GoodLeaf P cs gid t li leaf := by
  have hx : ∀ x n, x ≠ 2 * li → t.get x = some n → _ := fun x n hne hx => by
    have := List.all_eq_true.1 h x (List.mem_range.2 (lt_of_get hx))
    rw [hx, Bool.or_eq_true, beq_iff_eq] at this
    exact this.resolve_left hne
  have hl : ∀ x l, x ≠ 2 * li → t.get x = some (.Leaf l) → _ := fun x l hne hl => by
    have := hx x _ hne hl
    simp only [Bool.and_eq_true, decide_eq_true_eq] at this
    exact this
  refine ⟨hfit, hsig, by rw [hext]; nofun, honce, hown, fun i l hi hg => (hl (2 * i) l (by omega) hg).1.1.1,
    fun i l hi hg => (hl (2 * i) l (by omega) hg).1.1.2, fun i l hi hg => (hl (2 * i) l (by omega) hg).1.2, ?_⟩
  intro x hne hk
  rcases hk with ⟨_, l, _, hg, he⟩ | ⟨p, hg, he⟩
  · exact (hl x l hne hg).2 he
  · have := hx x _ hne hg
    simp only [decide_eq_true_eq] at this
    exact this he

private abbrev orderZero : LeafNode := signedLeaf 0 .Update
private abbrev orderOne : LeafNode := signedLeaf 1 (.KeyPackage ⟨0, 9⟩)
private abbrev orderTwo : LeafNode := signedLeaf 2 (.KeyPackage ⟨0, 9⟩)

/-- Two members; the path of the first; then a third member. -/
private def orderTwoTree : RatchetTree := [some (.Leaf orderZero), none, some (.Leaf orderOne)]
private def orderPath : UpdatePath :=
  ⟨newLeaf 0 (parentHash sumHash.digest orderTwoTree.get 0 1 ⟨[41], [], []⟩), [⟨[41], []⟩]⟩
private def orderPathTree : RatchetTree :=
  [some (.Leaf orderPath.leaf_node), some (.Parent ⟨[41], [], []⟩), some (.Leaf orderOne)]
private def orderThreeTree : RatchetTree :=
  [some (.Leaf orderPath.leaf_node), some (.Parent ⟨[41], [], []⟩), some (.Leaf orderOne), none, some (.Leaf orderTwo), none, none]

set_option maxRecDepth 100000 in
private theorem order_zero (t : RatchetTree) (h : goodBeside t 0 orderZero = true) : GoodLeaf sumProvider suite1 [7] t 0 orderZero :=
  goodLeaf_of (by decide +kernel) ⟨by decide +kernel, by decide +kernel, _, rfl, by decide +kernel⟩ rfl (by decide) (by decide) h

set_option maxRecDepth 100000 in
private theorem order_one (t : RatchetTree) (h : goodBeside t 1 orderOne = true) : GoodLeaf sumProvider suite1 [7] t 1 orderOne :=
  goodLeaf_of (by decide +kernel) ⟨by decide +kernel, by decide +kernel, _, rfl, by decide +kernel⟩ rfl (by decide) (by decide) h

set_option maxRecDepth 100000 in
private theorem order_two (t : RatchetTree) (h : goodBeside t 2 orderTwo = true) : GoodLeaf sumProvider suite1 [7] t 2 orderTwo :=
  goodLeaf_of (by decide +kernel) ⟨by decide +kernel, by decide +kernel, _, rfl, by decide +kernel⟩ rfl (by decide) (by decide) h

set_option maxRecDepth 100000 in
private theorem order_path : GoodLeaf sumProvider suite1 [7] orderTwoTree 0 orderPath.leaf_node :=
  goodLeaf_of (by decide +kernel) ⟨by decide +kernel, by decide +kernel, _, rfl, by decide +kernel⟩ rfl (by decide +kernel)
    (by decide +kernel) (by decide +kernel)

private theorem order_unforeseen (after : Nat → Option Node) (j : Nat) :
    Unforeseen sumHash.digest orderTwoTree.get after j := by
  intro k q x _ _
  have : ∀ x, storedParentHash (orderTwoTree.get x) = none := by
    intro x
    match x with
    | 0 => rfl
    | 1 => rfl
    | 2 => rfl
    | x + 3 => rw [get_out (by show 3 ≤ x + 3; omega)]; rfl
  rw [this]
  nofun

theorem order_short {t : RatchetTree} (h : ((List.range t.length).all fun x => match t.get x with
    | some (.Parent p) => decide ((parentNode p).fits)
    | _ => true) = true) : ShortLists t := by
  intro x p hx
  have hx : t.get x = some (.Parent p) := hx
  have := List.all_eq_true.1 h x (List.mem_range.2 (lt_of_get hx))
  rw [hx] at this
  exact of_decide_eq_true this

set_option maxRecDepth 100000 in
private theorem order_keys : NewKeys orderTwoTree orderPath := by
  refine ⟨by decide +kernel, by decide +kernel, fun key hkey x hx => ?_⟩
  have hold : key = [0] ∨ key = [1] := by
    have hlt : x < 3 := by
      rcases hx with ⟨_, l, _, hg, _⟩ | ⟨p, hg, _⟩
      · exact lt_of_get (t := orderTwoTree) hg
      · exact lt_of_get (t := orderTwoTree) hg
    match x, hlt, hx with
    | 0, _, hx => exact .inl (hasKey_leaf hx rfl).symm
    | 1, _, hx => exact (hasKey_none hx rfl).elim
    | 2, _, hx => exact .inr (hasKey_leaf hx rfl).symm
  have hnew : key = [50] ∨ key = [41] := by
    rcases List.mem_cons.1 hkey with h | h
    · exact .inl h
    · exact .inr (List.mem_singleton.1 h)
  rcases hold with rfl | rfl <;> rcases hnew with h | h <;> cases h

set_option maxRecDepth 100000 in
private theorem order_history : Orderly sumProvider suite1 sumHash.digest [7] [some (.Leaf orderZero)] orderPathTree :=
  .merge 0 orderPath
    (.add 1 orderOne .here ⟨_, rfl⟩ rfl (order_one _ (by decide +kernel)) (.inr ⟨rfl, by decide⟩)
      (show add [some (.Leaf orderZero)] orderOne = .ok orderTwoTree from by decide +kernel) (order_short (by decide +kernel)))
    nofun order_path order_keys (show orderTwoTree.merge_update_path sumProvider suite1 0 orderPath = (orderPathTree, .ok ()) from
      by decide +kernel) (order_unforeseen _ 0)

set_option maxRecDepth 100000 in
/-- A group with a founder, a second member, a path and a third member. -/
example : verify_integrity sumProvider orderThreeTree
    { toyContext with tree_hash := treeHash sumHash.digest orderThreeTree.get 2 0 } 0 = .ok () :=
  C125_always_partial sumProvider suite1 sumHash rfl (fun b => (sumHash_size b).2) [7] orderZero nofun (order_zero [] rfl) orderThreeTree
    (.add 2 orderTwo order_history ⟨_, rfl⟩ rfl (order_two _ (by decide +kernel)) (.inr ⟨rfl, by decide⟩)
      (by decide +kernel) (order_short (by decide +kernel)))
    nofun 2 (pow_isHeight 2) _ rfl rfl rfl

private def orderFourTree : RatchetTree :=
  [some (.Leaf (signedLeaf 0 .Update)), none, some (.Leaf (signedLeaf 1 .Update)), none, some (.Leaf (signedLeaf 2 .Update)), none,
   some (.Leaf (signedLeaf 3 (.KeyPackage ⟨0, 9⟩)))]

set_option maxRecDepth 100000 in
/-- The conditions of `C125_from_partial` can be met. -/
example : verify_integrity sumProvider orderFourTree
    { toyContext with tree_hash := treeHash sumHash.digest orderFourTree.get 2 0 } 0 = .ok () := by
  have hleaf : ∀ x n, sumThree.get x = some n → ∃ k, n = .Leaf (signedLeaf k .Update) ∧ x % 2 = 0 := by
    intro x n hx
    match x, lt_of_get hx with
    | 0, _ => cases hx; exact ⟨0, rfl, rfl⟩
    | 1, _ => cases hx
    | 2, _ => cases hx; exact ⟨1, rfl, rfl⟩
    | 3, _ => cases hx
    | 4, _ => cases hx; exact ⟨2, rfl, rfl⟩
    | 5, _ => cases hx
    | 6, _ => cases hx
  refine C125_from_partial sumProvider sumHash toyContext rfl (fun b => (sumHash_size b).2) 2 sumThree
    ⟨rfl, by decide, ?_, ?_, ?_⟩ ?_ orderFourTree ?_ nofun 2 (pow_isHeight 2) _ rfl rfl rfl
  · exact C19_sound sumProvider sumThree (withTree sumHash.digest toyContext sumThree 2) 0 sumHash rfl (by decide) (by decide) 2
      (pow_isHeight 2) (by decide +kernel)
  · intro x p hx
    obtain ⟨_, h, _⟩ := hleaf x _ hx
    cases h
  · intro k i n hx
    obtain ⟨_, _, h⟩ := hleaf _ _ hx
    have := node_succ k i
    omega
  · intro i l hl
    obtain ⟨_, h, _⟩ := hleaf _ _ hl
    cases h
    exact (by decide : [CredentialType.Basic].Nodup)
  · exact .add 3 (signedLeaf 3 (.KeyPackage ⟨0, 9⟩)) .here ⟨_, rfl⟩ rfl
      (goodLeaf_of (by decide +kernel) ⟨by decide +kernel, by decide +kernel, _, rfl, by decide +kernel⟩ rfl (by decide) (by decide)
        (by decide +kernel))
      (.inl ⟨3, by decide, rfl⟩) (by decide +kernel) (order_short (by decide +kernel))

private theorem height_three : IsHeight ((5 + 1) / 2) 2 := ⟨by decide, fun j hj => by
  apply Decidable.byContradiction
  intro hc
  have : j = 0 ∨ j = 1 := by omega
  rcases this with rfl | rfl <;> revert hj <;> decide⟩

set_option maxRecDepth 100000 in
/-- C125, the code violates it: in a group that keeps to the rules, somebody is added after a removal, with a good key package.
Their leaf node is put at an inner node, and nobody accepts the tree, whatever the group context says. -/
theorem C125_lost_refuted : ∃ (founder leaf : LeafNode) (t t' : RatchetTree), NotCommit founder ∧
    GoodLeaf sumProvider suite1 [7] [] 0 founder ∧
    Orderly sumProvider suite1 sumHash.digest [7] [some (.Leaf founder)] t ∧ FromPackage leaf ∧
    GoodLeaf sumProvider suite1 [7] t 2 leaf ∧ t.add leaf = .ok t' ∧ (∀ i, t'.get (2 * i) ≠ some (.Leaf leaf)) ∧
    ∀ ctx now, ctx.cipher_suite = suite1 → verify_integrity sumProvider t' ctx now ≠ .ok () := by
  refine ⟨orderZero, orderTwo, [some (.Leaf orderPath.leaf_node), none],
    [some (.Leaf orderPath.leaf_node), none, none, some (.Leaf orderTwo), none], nofun, order_zero [] rfl,
    .remove 1 order_history nofun (by decide +kernel), ⟨_, rfl⟩, order_two _ (by decide +kernel), by decide +kernel, fun x => ?_, ?_⟩
  · match x with
    | 0 => intro h; cases h
    | 1 => intro h; cases h
    | 2 => intro h; cases h
    | x + 3 => rw [get_out (by show 5 ≤ 2 * (x + 3); omega)]; nofun
  · intro ctx now hcs hv
    have := C19_sound sumProvider [some (.Leaf orderPath.leaf_node), none, none, some (.Leaf orderTwo), none] ctx now sumHash
      (by rw [hcs]; rfl) (by decide) (by decide) 2 height_three hv
    exact this.defined.1 orderTwo rfl

/-- A founder who lists the supported credential twice. -/
def repeatLeaf : LeafNode :=
  let payload := { (toyLeaf 0).payload with
    capabilities := { (toyLeaf 0).payload.capabilities with credentials := [.Basic, .Basic] } }
  { payload, signature := [0, 0] ++ (labelled (text "LeafNodeTBS") (leafNodeTBS payload [7] 0).bytes).bytes }

set_option maxRecDepth 100000 in
/-- C125, the code violates it: nobody can join the group of a founder who lists a credential twice, whatever the group context
says; RFC 9420 does not forbid this. -/
theorem C125_repeated_refuted : ∃ founder : LeafNode, NotCommit founder ∧ (leafNode founder).fits ∧
    LeafSigned sumProvider suite1 founder [7] 0 ∧
    credTypeOf founder.payload.credential ∈ founder.payload.capabilities.credentials ∧
    ∀ ctx now, ctx.cipher_suite = suite1 → verify_integrity sumProvider [some (.Leaf founder)] ctx now ≠ .ok () := by
  refine ⟨repeatLeaf, nofun, by decide +kernel, ⟨by decide +kernel, by decide +kernel, _, rfl, by decide +kernel⟩, by decide, ?_⟩
  intro ctx now hcs hv
  have := C19_sound sumProvider [some (.Leaf repeatLeaf)] ctx now sumHash (by rw [hcs]; rfl) (by decide) (by decide) 0 (pow_isHeight 0) hv
  have := (this.leaves 0 repeatLeaf rfl).credential.2
  revert this
  decide +kernel

end examples

end Rmls
