import Verif.Spec.Newcomers
import Verif.Props.Admit
import Verif.Props.Unchecked
import Verif.Proofs.ApplyWork
/-
Property C127: a commit that keeps to the rules leaves a group that can be joined.
-/
namespace Rmls
open Spec Spec.Enc MessageProtection PassiveClient RatchetTree

/-- A list of unmerged leaves of this length can be written down. -/
private theorem indices_fit (us : List LeafIndex) (h : 4 * us.length < 2 ^ 30) : (vector leafIndex us).fits := by
  have key : (us.foldr (fun x e => Enc.seq (leafIndex x) e) .empty).fits ∧
      (us.foldr (fun x e => Enc.seq (leafIndex x) e) .empty).bytes.length = 4 * us.length := by
    clear h
    induction us with
    | nil => exact ⟨trivial, rfl⟩
    | cons u us ih =>
      refine ⟨⟨trivial, ih.1⟩, ?_⟩
      rw [List.foldr_cons, Enc.bytes, List.length_append, ih.2, List.length_cons]
      show 4 + _ = _
      omega
  exact ⟨key.1, by have := key.2; omega⟩

private theorem add_odd {t t' : RatchetTree} {leaf : LeafNode} (ho : t.length % 2 = 1) (hl : t.length < 2 ^ 31)
    (hr : t.add leaf = .ok t') : t'.length % 2 = 1 := by
  by_cases hfree : ∃ j, 2 * j < t.length ∧ t.get (2 * j) = none
  · obtain ⟨_, hfree⟩ := hfree
    obtain ⟨j, h1, h2, h3⟩ := least_free hfree
    obtain ⟨K, hK⟩ := exists_height (num_leaves_bounds (t := t) (by omega) (by omega)).1
    obtain ⟨t'', h4, h5, _⟩ := add_free (leaf := leaf) (by omega) hK h1 h2 h3
    rw [hr] at h4
    cases h4
    omega
  · obtain ⟨K, hK⟩ := exists_height (n := 2 * ((t.length + 1) / 2)) (by omega)
    obtain ⟨t'', h4, h5, _⟩ := add_grow (leaf := leaf) (n := (t.length + 1) / 2) (K := K) (by omega) (by omega) hl hK
      (fun i hi hc => hfree ⟨i, by omega, hc⟩)
    rw [hr] at h4
    cases h4
    omega

/-- What is true of the others after one of them is added. -/
private theorem newcomers_next {P : CryptoProvider} {cs : CipherSuite} {gid : Bytes} {t t' : RatchetTree} {leaf : LeafNode}
    {leaves : List LeafNode} (h : GoodNewcomers P cs gid t (leaf :: leaves)) (hsize : t.length < 2 ^ 32)
    (hroom : (∃ j, 2 * j < t.length ∧ t.get (2 * j) = none) ∨ (t.length % 2 = 1 ∧ t.length < 2 ^ 31))
    (h0 : 0 < t.length) (hr : t.add leaf = .ok t') : ShortLists t' ∧ GoodNewcomers P cs gid t' leaves := by
  obtain ⟨j, K, hj, hget⟩ := add_placed hsize hroom hr
  have hspace : ∀ (x : Nat) p, t'.get x = some (.Parent p) → (parentNode p).fits ∧
      4 * (p.unmerged_leaves.length + leaves.length) < 2 ^ 30 := by
    intro x p hx
    rw [hget] at hx
    split at hx
    · cases hx
    · split at hx
      · cases hg : t.get x with
        | none => rw [hg] at hx; cases hx
        | some n =>
          cases n with
          | Leaf l => rw [hg] at hx; cases hx
          | Parent q =>
            rw [hg] at hx
            cases hx
            obtain ⟨h1, h2⟩ := h.space x q hg
            rw [List.length_cons] at h2
            refine ⟨?_, by simp only [List.length_append, List.length_singleton]; omega⟩
            obtain ⟨a, b, _, _⟩ := h1
            exact ⟨a, b, indices_fit _ (by simp only [List.length_append, List.length_singleton]; omega)⟩
      · obtain ⟨h1, h2⟩ := h.space x p hx
        rw [List.length_cons] at h2
        exact ⟨h1, by omega⟩
  refine ⟨fun x p hx => (hspace x p hx).1, ⟨fun l hl => ?_, (List.pairwise_cons.1 h.among).2, hspace⟩⟩
  obtain ⟨hf, hg⟩ := h.each l (List.mem_cons_of_mem _ hl)
  have hal := (List.pairwise_cons.1 h.among).1 l hl
  refine ⟨hf, ?_⟩
  have hnone : t.get (2 * t.length) = none := get_out (by omega)
  have hm : GoodLeaf P cs gid t t'.length l := GoodLeaf.move hg hf hnone
  have hold : ∀ i m, t'.get (2 * i) = some (.Leaf m) → m = leaf ∨ (i ≠ t.length ∧ t.get (2 * i) = some (.Leaf m)) := by
    intro i m hi
    rw [hget] at hi
    split at hi
    · cases hi; exact .inl rfl
    · rw [if_neg (by rw [← node_zero]; exact leaf_not_above)] at hi
      exact .inr ⟨fun hc => (by rw [hc, hnone] at hi; cases hi), hi⟩
  refine ⟨hm.fits, hm.signed, hm.extensions, hm.once, hm.own, fun i m _ hi => ?_, fun i m _ hi => ?_, fun i m _ hi => ?_,
    fun x _ hx => ?_⟩
  · rcases hold i m hi with rfl | ⟨h1, h2⟩
    · exact hal.supports
    · exact hg.supports i m h1 h2
  · rcases hold i m hi with rfl | ⟨h1, h2⟩
    · exact hal.supported
    · exact hg.supported i m h1 h2
  · rcases hold i m hi with rfl | ⟨h1, h2⟩
    · exact hal.signature_key.symm
    · exact hg.signature_key i m h1 h2
  · have hgx := hget x
    have hx : HasKey t'.get x l.payload.encryption_key := hx
    have hno : ¬ HasKey t.get x l.payload.encryption_key := fun hk => by
      by_cases hxl : x = 2 * t.length
      · rw [hxl] at hk; exact hasKey_none hk hnone
      · exact hg.encryption_key x hxl hk
    split at hgx
    · exact hal.encryption_key (hasKey_leaf hx hgx)
    · split at hgx
      · exact hno (hasKey_listed hx hgx)
      · exact hno (hasKey_of hx hgx)

/-- All of them can be added. -/
private theorem newcomers_admitted {P : CryptoProvider} {cs : CipherSuite} {gid : Bytes} : ∀ (leaves : List LeafNode)
    (t nt : RatchetTree) (S : List Nat), GoodNewcomers P cs gid t leaves → t.length % 2 = 1 → t.length < 2 ^ 31 →
    (∀ i, t.get (2 * i) ≠ none → i ∈ S) → 4 * (S.length + leaves.length) + 1 < 2 ^ 31 →
    leaves.foldlM (fun t l => t.add l) t = .ok nt → Admitted P cs gid t leaves nt
  | [], t, nt, _, _, _, _, _, _, hr => by
    cases hr
    exact .none _
  | leaf :: leaves, t, nt, S, h, ho, hl, hS, hb, hr => by
    rw [List.length_cons] at hb
    obtain ⟨t1, j, e, l1, l2, c1, _⟩ := Tolling.add_one leaf (by omega) hl hS (by omega)
    rw [List.foldlM_cons, e, Res.ok_bind] at hr
    obtain ⟨hf, hg⟩ := h.each leaf List.mem_cons_self
    obtain ⟨h1, h2⟩ := newcomers_next h (by omega) (.inr ⟨ho, hl⟩) (by omega) e
    exact .next t.length hf (get_out (by omega)) hg (.inr ⟨ho, hl⟩) e h1
      (newcomers_admitted leaves t1 nt (j :: S) h2 (add_odd ho hl e) l2 c1 (by rw [List.length_cons]; omega) hr)

/-- Nobody else gets into the tree. -/
private theorem admitted_only {P : CryptoProvider} {cs : CipherSuite} {H : Bytes → Bytes} {gid : Bytes} {t t' : RatchetTree}
    {leaves : List LeafNode} (h : Admitted P cs gid t leaves t') (hj : Joinable P cs H gid t) :
    ∀ i l, t'.get (2 * i) = some (.Leaf l) → t.get (2 * i) = some (.Leaf l) ∨ l ∈ leaves := by
  induction h with
  | none t => exact fun _ _ h => .inl h
  | next li hf hli hg hroom hr hshort _ ih =>
    obtain ⟨j, K, _, hget⟩ := add_placed hj.standing.inv.size hroom hr
    intro i l hi
    rcases ih (joinable_add hj hf hli hg hroom hr hshort) i l hi with h | h
    · rw [hget] at h
      split at h
      · cases h; exact .inr List.mem_cons_self
      · rw [if_neg (by rw [← node_zero]; exact leaf_not_above)] at h
        exact .inl h
    · exact .inr (List.mem_cons_of_mem _ h)

/-- When a member is removed, the others stay. -/
private theorem remove_others {t t' : RatchetTree} {li : Nat} (hsize : t.length < 2 ^ 32) (hm : t.get (2 * li) ≠ none)
    (hr : t.remove li = .ok t') : t'.get (2 * li) = none ∧ ∀ i, i ≠ li → t'.get (2 * i) = t.get (2 * i) := by
  have hlt : 2 * li < t.length := by
    cases hg : t.get (2 * li) with
    | none => exact absurd hg hm
    | some n => exact lt_of_get hg
  obtain ⟨K, hK⟩ := exists_height (num_leaves_bounds (by omega) hsize).1
  obtain ⟨t'', c, h1, _, hget, hc⟩ := remove_get (by omega) hsize hK (leaf_in_tree (by omega) hsize hK hlt)
  rw [hr] at h1
  cases h1
  refine ⟨by rw [hget, if_pos (.inl rfl)], fun i hi => ?_⟩
  rw [hget]
  split
  · rename_i h
    rcases h with h | h | h
    · omega
    · exact absurd h (by rw [← node_zero]; exact leaf_not_above)
    · exact (hc i h hi).symm
  · rfl

/-- Members who are removed, each once. -/
private theorem orderly_removes {P : CryptoProvider} {cs : CipherSuite} {Hs : Hash} {gid : Bytes} {t₀ : RatchetTree}
    (hP : P.hash cs = .ok Hs) (hs : ∀ b, (Hs.digest b).length < 2 ^ 30) (h₀ : Joinable P cs Hs.digest gid t₀) : ∀ (ls : List Nat)
    (t nt : RatchetTree), Orderly P cs Hs.digest gid t₀ t → ls.Nodup → (∀ li ∈ ls, t.get (2 * li) ≠ none) →
    ls.foldlM (fun t li => t.remove li) t = .ok nt →
    Orderly P cs Hs.digest gid t₀ nt ∧ (∀ i, i ∉ ls → nt.get (2 * i) = t.get (2 * i)) ∧ ∀ i ∈ ls, nt.get (2 * i) = none
  | [], t, nt, ht, _, _, hr => by
    cases hr
    exact ⟨ht, fun _ _ => rfl, nofun⟩
  | li :: ls, t, nt, ht, hd, hm, hr => by
    rw [List.foldlM_cons] at hr
    obtain ⟨t1, h1, h2⟩ := (Res.bind_ok_iff ..).1 hr
    obtain ⟨hnot, hd⟩ := List.nodup_cons.1 hd
    obtain ⟨hgone, hrest⟩ := remove_others (orderly_joinable hP hs h₀ ht).standing.inv.size (hm li List.mem_cons_self) h1
    obtain ⟨h3, h4, h5⟩ := orderly_removes hP hs h₀ ls t1 nt (.remove li ht (hm li List.mem_cons_self) h1) hd
      (fun x hx => by
        rw [hrest x fun hc => hnot (hc ▸ hx)]
        exact hm x (List.mem_cons_of_mem _ hx)) h2
    refine ⟨h3, fun i hi => ?_, fun i hi => ?_⟩
    · rw [h4 i fun hc => hi (List.mem_cons_of_mem _ hc), hrest i fun hc => hi (hc ▸ List.mem_cons_self)]
    · rcases List.mem_cons.1 hi with rfl | hi
      · rw [h4 i hnot, hgone]
      · exact h5 i hi

/-- A commit that is accepted has no updates, which would be by the committer. -/
private theorem no_updates (c : LeafIndex) : ∀ ps : List Proposal, c ∉ (ps.map fun p => (p, c)).filterMap touchedLeaf →
    updatesOf (ps.zip (List.replicate ps.length c)) = []
  | [], _ => rfl
  | p :: ps, h => by
    rw [List.map_cons, List.filterMap_cons] at h
    rw [List.length_cons, List.replicate_succ, List.zip_cons_cons]
    cases p with
    | Update u => exact absurd List.mem_cons_self h
    | Remove r => exact no_updates c ps fun hc => h (List.mem_cons_of_mem _ hc)
    | _ => exact no_updates c ps h

private theorem removes_of_touched (c : LeafIndex) : ∀ ps : List Proposal, c ∉ (ps.map fun p => (p, c)).filterMap touchedLeaf →
    removesOf ps = ((ps.map fun p => (p, c)).filterMap touchedLeaf).map UInt32.toNat
  | [], _ => rfl
  | p :: ps, h => by
    rw [List.map_cons, List.filterMap_cons] at h ⊢
    cases p with
    | Update u => exact absurd List.mem_cons_self h
    | Remove r => exact congrArg (_ :: ·) (removes_of_touched c ps fun hc => h (List.mem_cons_of_mem _ hc))
    | _ => exact removes_of_touched c ps h

/-- What the client does with an accepted commit: the removes, then the adds. -/
private theorem accepted_parts {P : CryptoProvider} {cs : CipherSuite} {h : Hpke} {s : State} {m : PublicMessage} {c : LeafIndex}
    {ps : List Proposal} {path : Option UpdatePath} {nt : RatchetTree} (hc : CommitChecked P h cs s m c ps path)
    (ha : s.tree.apply ps (List.replicate ps.length c) = .ok nt) :
    (do
      let t ← (removesOf ps).foldlM (fun (t : RatchetTree) li => t.remove li) s.tree
      (addsOf ps).foldlM (fun (t : RatchetTree) l => t.add l) t) = Res.ok nt ∧ (removesOf ps).Nodup ∧ c.toNat ∉ removesOf ps := by
  rw [C28_apply _ _ _ (by simp), no_updates c ps hc.proposals.committer] at ha
  refine ⟨ha, ?_, ?_⟩ <;> rw [removes_of_touched c ps hc.proposals.committer]
  · exact List.Pairwise.map _ (fun _ _ hne he => hne (UInt32.toNat_inj.1 he)) hc.proposals.leaves
  · intro hmem
    obtain ⟨x, hx, he⟩ := List.mem_map.1 hmem
    exact hc.proposals.committer (UInt32.toNat_inj.1 he ▸ hx)

/-- C127, what is true of commits that add: the client is in a group that has kept to the rules, and accepts a commit that removes
nobody and adds some whose leaf nodes are good beside the members and beside each other.  In the tree at which the client arrives
are the members and all who are added and nobody else, and newcomers accept it, with any group context that has its tree hash.
Missing: adds after removes, and to an array of even length, for which it is false (`C125_lost_refuted`); leaf nodes that are not good
are accepted all the same (`C85_refuted`). -/
theorem C127_adds_partial (P : CryptoProvider) (cs : CipherSuite) (h : Hpke) (hp : P.hpke cs = .ok h) (hz : Sizes h) (Hs : Hash)
    (hP : P.hash cs = .ok Hs) (hs : ∀ b, (Hs.digest b).length < 2 ^ 30) (group_id : Bytes) (founder : LeafNode)
    (hnc : NotCommit founder) (hf : GoodLeaf P cs group_id [] 0 founder) (s : State)
    (hg : Orderly P cs Hs.digest group_id [some (.Leaf founder)] s.tree) (m : PublicMessage) (hm : m.membership_tag ≠ none)
    (nt t' : RatchetTree) (hh : handleCommit P cs s m = .ok (nt, t')) (ps : List Proposal) (path : Option UpdatePath)
    (hps : m.content.content = .Commit ⟨ps.map .Proposal, path⟩) (hrem : removesOf ps = [])
    (hnew : GoodNewcomers P cs group_id s.tree (addsOf ps)) (hodd : s.tree.length % 2 = 1)
    (hsize : 2 * s.tree.length + 4 * (addsOf ps).length + 3 < 2 ^ 31) :
    (∀ i l, s.tree.get (2 * i) = some (.Leaf l) → nt.get (2 * i) = some (.Leaf l)) ∧
    (∀ l ∈ addsOf ps, ∃ i, nt.get (2 * i) = some (.Leaf l)) ∧
    (∀ i l, nt.get (2 * i) = some (.Leaf l) → s.tree.get (2 * i) = some (.Leaf l) ∨ l ∈ addsOf ps) ∧
    ∀ K, IsHeight ((nt.length + 1) / 2) K → ∀ ctx : GroupContext, ctx.cipher_suite = cs → ctx.group_id = group_id →
      ctx.tree_hash = treeHash Hs.digest nt.get K 0 → verify_integrity P nt ctx 0 = .ok () := by
  have hj := orderly_joinable hP hs (joinable_founder hnc hf) hg
  have hd : ∀ i j l m, s.tree.get (2 * i) = some (.Leaf l) → s.tree.get (2 * j) = some (.Leaf m) →
      l.payload.signature_key = m.payload.signature_key → i = j := fun i j l m h1 h2 =>
    hj.sigs i j l m (by rw [node_zero]; exact h1) (by rw [node_zero]; exact h2)
  obtain ⟨c, qs, path', hc, ha, _⟩ := (C68_exact_partial P cs h hp hz s hj.standing.inv.size hd m hm nt t').1 hh
  have hqs : qs = ps := by
    have e := hc.content
    rw [hps] at e
    injection e with e
    injection e with e _
    exact ((List.map_inj_right fun _ _ h => by injection h).1 e).symm
  subst hqs
  obtain ⟨h1, _, _⟩ := accepted_parts hc ha
  rw [hrem] at h1
  have hadm := newcomers_admitted (addsOf qs) s.tree nt (List.range ((s.tree.length + 1) / 2)) hnew hodd (by omega)
    (fun i hi => by
      cases hgi : s.tree.get (2 * i) with
      | none => exact absurd hgi hi
      | some n => have := lt_of_get hgi; exact List.mem_range.2 (by omega)) (by rw [List.length_range]; omega) h1
  obtain ⟨h2, h3⟩ := hadm.placed hj
  refine ⟨h2, h3, admitted_only hadm hj, fun K hK ctx e1 e2 e3 => ?_⟩
  obtain ⟨l, hl, _⟩ := hc.signed
  exact (orderly_joinable hP hs (joinable_founder hnc hf) (hadm.orderly hg)).accepted hP hs
    (by have := lt_of_get (h2 _ _ hl); omega) hK e1 e2 e3

/-- C127, what is true of commits that remove: the client is in a group that has kept to the rules, and accepts a commit that adds
nobody and removes members.  In the tree at which the client arrives are the other members and nobody else, and newcomers accept it.
Missing: that somebody who is removed has to be a member (`C85_remove_refuted`). -/
theorem C127_removes_partial (P : CryptoProvider) (cs : CipherSuite) (h : Hpke) (hp : P.hpke cs = .ok h) (hz : Sizes h) (Hs : Hash)
    (hP : P.hash cs = .ok Hs) (hs : ∀ b, (Hs.digest b).length < 2 ^ 30) (group_id : Bytes) (founder : LeafNode)
    (hnc : NotCommit founder) (hf : GoodLeaf P cs group_id [] 0 founder) (s : State)
    (hg : Orderly P cs Hs.digest group_id [some (.Leaf founder)] s.tree) (m : PublicMessage) (hm : m.membership_tag ≠ none)
    (nt t' : RatchetTree) (hh : handleCommit P cs s m = .ok (nt, t')) (ps : List Proposal) (path : Option UpdatePath)
    (hps : m.content.content = .Commit ⟨ps.map .Proposal, path⟩) (hadd : addsOf ps = [])
    (hmem : ∀ li ∈ removesOf ps, s.tree.get (2 * li) ≠ none) :
    (∀ i, i ∉ removesOf ps → nt.get (2 * i) = s.tree.get (2 * i)) ∧ (∀ i ∈ removesOf ps, nt.get (2 * i) = none) ∧
    ∀ K, IsHeight ((nt.length + 1) / 2) K → ∀ ctx : GroupContext, ctx.cipher_suite = cs → ctx.group_id = group_id →
      ctx.tree_hash = treeHash Hs.digest nt.get K 0 → verify_integrity P nt ctx 0 = .ok () := by
  have hj := orderly_joinable hP hs (joinable_founder hnc hf) hg
  have hd : ∀ i j l m, s.tree.get (2 * i) = some (.Leaf l) → s.tree.get (2 * j) = some (.Leaf m) →
      l.payload.signature_key = m.payload.signature_key → i = j := fun i j l m h1 h2 =>
    hj.sigs i j l m (by rw [node_zero]; exact h1) (by rw [node_zero]; exact h2)
  obtain ⟨c, qs, path', hc, ha, _⟩ := (C68_exact_partial P cs h hp hz s hj.standing.inv.size hd m hm nt t').1 hh
  have hqs : qs = ps := by
    have e := hc.content
    rw [hps] at e
    injection e with e
    injection e with e _
    exact ((List.map_inj_right fun _ _ h => by injection h).1 e).symm
  subst hqs
  obtain ⟨h1, hdis, hcom⟩ := accepted_parts hc ha
  rw [hadd] at h1
  obtain ⟨t1, h1, h2⟩ := (Res.bind_ok_iff ..).1 h1
  cases h2
  obtain ⟨h3, h4, h5⟩ := orderly_removes hP hs (joinable_founder hnc hf) (removesOf qs) s.tree nt hg hdis hmem h1
  refine ⟨h4, h5, fun K hK ctx e1 e2 e3 => ?_⟩
  obtain ⟨l, hl, _⟩ := hc.signed
  have hl : s.tree.get (2 * c.toNat) = some (.Leaf l) := hl
  rw [← h4 _ hcom] at hl
  exact (orderly_joinable hP hs (joinable_founder hnc hf) h3).accepted hP hs (by have := lt_of_get hl; omega) hK e1 e2 e3

/-- The array keeps its length when somebody in its right half stays. -/
private theorem remove_length {t t' : RatchetTree} {li K i : Nat} (hsize : t.length < 2 ^ 32) (hfull : t.length + 1 = 2 ^ (K + 1))
    (hm : t.get (2 * li) ≠ none) (hr : t.remove li = .ok t') (hi : t.get (2 * i) ≠ none) (hil : i ≠ li) (hright : t.length < 4 * i) :
    t'.length = t.length := by
  have hlt : 2 * li < t.length := by
    cases hg : t.get (2 * li) with
    | none => exact absurd hg hm
    | some n => exact lt_of_get hg
  obtain ⟨K', hK⟩ := exists_height (num_leaves_bounds (t := t) (by omega) hsize).1
  rcases last_member t li with h | ⟨j, h1, h2, h3⟩
  · exact absurd (h i hil) hi
  · obtain ⟨m, hm⟩ := exists_height (n := j + 1) (by omega)
    have := remove_last (by omega) hsize hK (leaf_in_tree (by omega) hsize hK hlt) h1 h2 h3 hm
    rw [hr] at this
    cases this
    rw [List.length_take, blanked_length]
    have hij : i ≤ j := Nat.le_of_not_lt fun hc => hi (h3 i hc hil)
    have hle := hm.1
    have hlt2 : 2 ^ (K + 1) < 2 ^ (m + 2) := by
      rw [Nat.pow_add 2 m 2]
      omega
    have := (Nat.pow_lt_pow_iff_right (a := 2) (by omega)).1 hlt2
    have : 2 ^ (K + 1) ≤ 2 ^ (m + 1) := Nat.pow_le_pow_right (by omega) (by omega)
    omega

/-- Removals only take nodes away. -/
private theorem removes_less {P : CryptoProvider} {cs : CipherSuite} {Hs : Hash} {gid : Bytes} {t₀ : RatchetTree}
    (hP : P.hash cs = .ok Hs) (hs : ∀ b, (Hs.digest b).length < 2 ^ 30) (h₀ : Joinable P cs Hs.digest gid t₀) {K i : Nat} : ∀ (ls : List Nat)
    (t nt : RatchetTree), Orderly P cs Hs.digest gid t₀ t → ls.Nodup → (∀ li ∈ ls, t.get (2 * li) ≠ none) →
    ls.foldlM (fun t li => t.remove li) t = .ok nt → t.length + 1 = 2 ^ (K + 1) → t.get (2 * i) ≠ none → i ∉ ls → t.length < 4 * i →
    nt.length = t.length ∧ ∀ x n, nt.get x = some n → t.get x = some n
  | [], t, nt, _, _, _, hr, _, _, _, _ => by
    cases hr
    exact ⟨rfl, fun _ _ h => h⟩
  | li :: ls, t, nt, ht, hd, hm, hr, hfull, hi, hil, hright => by
    rw [List.foldlM_cons] at hr
    obtain ⟨t1, h1, h2⟩ := (Res.bind_ok_iff ..).1 hr
    obtain ⟨hnot, hd⟩ := List.nodup_cons.1 hd
    have hsize := (orderly_joinable hP hs h₀ ht).standing.inv.size
    have hmem := hm li List.mem_cons_self
    obtain ⟨_, hrest⟩ := remove_others hsize hmem h1
    have hne : i ≠ li := fun hc => hil (hc ▸ List.mem_cons_self)
    have hlen := remove_length hsize hfull hmem h1 hi hne hright
    obtain ⟨h3, h4⟩ := removes_less hP hs h₀ ls t1 nt (.remove li ht hmem h1) hd
      (fun x hx => by
        rw [hrest x fun hc => hnot (hc ▸ hx)]
        exact hm x (List.mem_cons_of_mem _ hx)) h2 (by rw [hlen]; exact hfull) (by rw [hrest i hne]; exact hi)
      (fun hc => hil (List.mem_cons_of_mem _ hc)) (by rw [hlen]; exact hright)
    refine ⟨h3.trans hlen, fun x n hx => ?_⟩
    have hx := h4 x n hx
    have hlt : 2 * li < t.length := by
      cases hg : t.get (2 * li) with
      | none => exact absurd hg hmem
      | some n => exact lt_of_get hg
    obtain ⟨K', hK⟩ := exists_height (num_leaves_bounds (t := t) (by omega) hsize).1
    obtain ⟨t'', c, h5, _, hget, _⟩ := remove_get (by omega) hsize hK (leaf_in_tree (by omega) hsize hK hlt)
    rw [h1] at h5
    cases h5
    rw [hget] at hx
    split at hx
    · cases hx
    · exact hx

/-- Those who are good beside the members are good beside fewer members. -/
private theorem newcomers_less {P : CryptoProvider} {cs : CipherSuite} {gid : Bytes} {t t' : RatchetTree} {leaves : List LeafNode}
    (h : GoodNewcomers P cs gid t leaves) (hlen : t'.length = t.length) (hless : ∀ x n, t'.get x = some n → t.get x = some n) :
    GoodNewcomers P cs gid t' leaves := by
  refine ⟨fun l hl => ?_, h.among, fun x p hx => h.space x p (hless x _ hx)⟩
  obtain ⟨hf, hg⟩ := h.each l hl
  rw [hlen]
  refine ⟨hf, hg.fits, hg.signed, hg.extensions, hg.once, hg.own, fun i l hi hx => hg.supports i l hi (hless _ _ hx),
    fun i l hi hx => hg.supported i l hi (hless _ _ hx), fun i l hi hx => hg.signature_key i l hi (hless _ _ hx), fun x hx hk => ?_⟩
  refine hg.encryption_key x hx ?_
  rcases hk with ⟨i, l, h1, h2, h3⟩ | ⟨p, h1, h2⟩
  · exact .inl ⟨i, l, h1, hless _ _ h2, h3⟩
  · exact .inr ⟨p, hless _ _ h1, h2⟩

/-- C127, what is true of commits that remove and add: the same, in a full tree, when somebody in its right half stays.  Those who are
added may take the places of those who are removed.
Missing: when nobody in the right half stays, the next to be added can be lost (`C127_replaced_refuted`). -/
theorem C127_both_partial (P : CryptoProvider) (cs : CipherSuite) (h : Hpke) (hp : P.hpke cs = .ok h) (hz : Sizes h) (Hs : Hash)
    (hP : P.hash cs = .ok Hs) (hs : ∀ b, (Hs.digest b).length < 2 ^ 30) (group_id : Bytes) (founder : LeafNode)
    (hnc : NotCommit founder) (hf : GoodLeaf P cs group_id [] 0 founder) (s : State)
    (hg : Orderly P cs Hs.digest group_id [some (.Leaf founder)] s.tree) (m : PublicMessage) (hm : m.membership_tag ≠ none)
    (nt t' : RatchetTree) (hh : handleCommit P cs s m = .ok (nt, t')) (ps : List Proposal) (path : Option UpdatePath)
    (hps : m.content.content = .Commit ⟨ps.map .Proposal, path⟩) (hmem : ∀ li ∈ removesOf ps, s.tree.get (2 * li) ≠ none)
    (hnew : GoodNewcomers P cs group_id s.tree (addsOf ps)) (hodd : s.tree.length % 2 = 1)
    (i : Nat) (hi : s.tree.get (2 * i) ≠ none) (hstay : i ∉ removesOf ps) (hright : s.tree.length < 4 * i)
    (hsize : 2 * s.tree.length + 4 * (addsOf ps).length + 3 < 2 ^ 31) :
    (∀ i l, i ∉ removesOf ps → s.tree.get (2 * i) = some (.Leaf l) → nt.get (2 * i) = some (.Leaf l)) ∧
    (∀ l ∈ addsOf ps, ∃ i, nt.get (2 * i) = some (.Leaf l)) ∧
    (∀ i l, nt.get (2 * i) = some (.Leaf l) → (i ∉ removesOf ps ∧ s.tree.get (2 * i) = some (.Leaf l)) ∨ l ∈ addsOf ps) ∧
    ∀ K, IsHeight ((nt.length + 1) / 2) K → ∀ ctx : GroupContext, ctx.cipher_suite = cs → ctx.group_id = group_id →
      ctx.tree_hash = treeHash Hs.digest nt.get K 0 → verify_integrity P nt ctx 0 = .ok () := by
  have hj₀ := joinable_founder (H := Hs.digest) hnc hf
  have hj := orderly_joinable hP hs hj₀ hg
  have hd : ∀ i j l m, s.tree.get (2 * i) = some (.Leaf l) → s.tree.get (2 * j) = some (.Leaf m) →
      l.payload.signature_key = m.payload.signature_key → i = j := fun i j l m h1 h2 =>
    hj.sigs i j l m (by rw [node_zero]; exact h1) (by rw [node_zero]; exact h2)
  obtain ⟨c, qs, path', hc, ha, _⟩ := (C68_exact_partial P cs h hp hz s hj.standing.inv.size hd m hm nt t').1 hh
  have hqs : qs = ps := by
    have e := hc.content
    rw [hps] at e
    injection e with e
    injection e with e _
    exact ((List.map_inj_right fun _ _ h => by injection h).1 e).symm
  subst hqs
  obtain ⟨h1, hdis, hcom⟩ := accepted_parts hc ha
  obtain ⟨t1, h1, h2⟩ := (Res.bind_ok_iff ..).1 h1
  obtain ⟨K₀, hK₀⟩ : ∃ K, s.tree.length + 1 = 2 ^ (K + 1) := by
    rcases hj.standing.sized with h | ⟨K, h | h⟩
    · omega
    · exact ⟨K, h⟩
    · rw [h, Nat.pow_succ] at hodd; omega
  obtain ⟨h3, h4, h5⟩ := orderly_removes hP hs hj₀ (removesOf qs) s.tree t1 hg hdis hmem h1
  obtain ⟨h6, h7⟩ := removes_less hP hs hj₀ (removesOf qs) s.tree t1 hg hdis hmem h1 hK₀ hi hstay hright
  have hj1 := orderly_joinable hP hs hj₀ h3
  have hadm := newcomers_admitted (addsOf qs) t1 nt (List.range ((t1.length + 1) / 2)) (newcomers_less hnew h6 h7) (by omega) (by omega)
    (fun i hi => by
      cases hgi : t1.get (2 * i) with
      | none => exact absurd hgi hi
      | some n => have := lt_of_get hgi; exact List.mem_range.2 (by omega)) (by rw [List.length_range]; omega) h2
  obtain ⟨h8, h9⟩ := hadm.placed hj1
  refine ⟨fun i l hi hl => h8 i l (by rw [h4 i hi]; exact hl), h9, fun i l hl => ?_, fun K hK ctx e1 e2 e3 => ?_⟩
  · rcases admitted_only hadm hj1 i l hl with hl | hl
    · exact .inl ⟨fun hc => (by rw [h5 i hc] at hl; cases hl), h7 _ _ hl⟩
    · exact .inr hl
  · obtain ⟨l, hl, _⟩ := hc.signed
    have hl : s.tree.get (2 * c.toNat) = some (.Leaf l) := hl
    rw [← h4 _ hcom] at hl
    exact (orderly_joinable hP hs hj₀ (hadm.orderly h3)).accepted hP hs (by have := lt_of_get (h8 _ _ hl); omega) hK e1 e2 e3

section examples
private abbrev suite1 : CipherSuite := .MLS_128_DHKEMX25519_AES128GCM_SHA256_Ed25519

set_option maxRecDepth 100000 in
private theorem founder_good : GoodLeaf sumProvider suite1 [7] [] 0 (signedLeaf 0 .Update) :=
  goodLeaf_of (by decide +kernel) ⟨by decide +kernel, by decide +kernel, _, rfl, by decide +kernel⟩ rfl (by decide) (by decide) rfl

set_option maxRecDepth 100000 in
private theorem joinTree_orderly : Orderly sumProvider suite1 sumHash.digest [7] [some (.Leaf (signedLeaf 0 .Update))] joinTree :=
  .add 1 joinLeaf .here ⟨_, rfl⟩ rfl
    (goodLeaf_of (by decide +kernel) ⟨by decide +kernel, by decide +kernel, _, rfl, by decide +kernel⟩ rfl (by decide) (by decide)
      (by decide +kernel)) (.inr ⟨rfl, by decide⟩) (by decide +kernel) (order_short (by decide +kernel))

private def fourthPackage : KeyPackage := ⟨⟨.MLS10, suite1, [5], signedLeaf 3 (.KeyPackage ⟨0, 100⟩), []⟩, []⟩
private def fourthTree : RatchetTree :=
  joinTree ++ [none, some (.Leaf thirdPackage.payload.leaf_node), none, some (.Leaf fourthPackage.payload.leaf_node)]

set_option maxRecDepth 100000 in
/-- The first of two members adds a third and a fourth. -/
example (K : Nat) (hK : IsHeight 4 K) (ctx : GroupContext) (h1 : ctx.cipher_suite = suite1) (h2 : ctx.group_id = [7])
    (h3 : ctx.tree_hash = treeHash sumHash.digest fourthTree.get K 0) : verify_integrity sumProvider fourthTree ctx 0 = .ok () := by
  refine (C127_adds_partial sumProvider suite1 toyHpke rfl toy_sizes sumHash rfl (fun b => (sumHash_size b).2) [7]
    (signedLeaf 0 .Update) nofun founder_good joinState joinTree_orderly
    (plainCommit [.Add ⟨thirdPackage⟩, .Add ⟨fourthPackage⟩]) nofun fourthTree joinTree (by decide +kernel)
    [.Add ⟨thirdPackage⟩, .Add ⟨fourthPackage⟩] none rfl rfl ⟨fun l hl => ?_, ?_, fun x p hx => ?_⟩ (by decide) (by decide)).2.2.2
      K hK ctx h1 h2 h3
  · simp only [addsOf, List.mem_cons, List.not_mem_nil, or_false] at hl
    rcases hl with rfl | rfl <;>
      exact ⟨⟨_, rfl⟩, goodLeaf_of (by decide +kernel) ⟨by decide +kernel, by decide +kernel, _, rfl, by decide +kernel⟩ rfl
        (by decide) (by decide) (by decide +kernel)⟩
  · refine List.pairwise_cons.2 ⟨fun l hl => ?_, List.pairwise_singleton _ _⟩
    simp only [addsOf, List.mem_cons, List.not_mem_nil, or_false] at hl
    subst hl
    exact ⟨by decide +kernel, by decide +kernel, by decide +kernel, by decide +kernel⟩
  · have hx : joinTree.get x = some (.Parent p) := hx
    have hlt := lt_of_get hx
    match x, hlt, hx with
    | 0, _, hx => cases hx
    | 1, _, hx => cases hx
    | 2, _, hx => cases hx

private def leavePath : UpdatePath := ⟨newLeaf 0 (parentHash sumHash.digest joinTree.get 0 1 ⟨[41], [], []⟩), [⟨[41], []⟩]⟩
private def leaveTree : RatchetTree := [some (.Leaf (signedLeaf 0 .Update)), none]

set_option maxRecDepth 100000 in
/-- The first of two members removes the other. -/
example (K : Nat) (hK : IsHeight 1 K) (ctx : GroupContext) (h1 : ctx.cipher_suite = suite1) (h2 : ctx.group_id = [7])
    (h3 : ctx.tree_hash = treeHash sumHash.digest leaveTree.get K 0) : verify_integrity sumProvider leaveTree ctx 0 = .ok () := by
  exact (C127_removes_partial sumProvider suite1 toyHpke rfl toy_sizes sumHash rfl (fun b => (sumHash_size b).2) [7]
    (signedLeaf 0 .Update) nofun founder_good joinState joinTree_orderly
    (commitOf 0 [.Remove ⟨1⟩] leavePath joinInfo.group_context) (Option.some_ne_none _) leaveTree
    [some (.Leaf leavePath.leaf_node), some (.Parent ⟨[41], [], []⟩), some (.Leaf joinLeaf)] (by decide +kernel)
    [.Remove ⟨1⟩] (some leavePath) rfl rfl
    (fun li hl => by
      simp only [removesOf, List.mem_cons, List.not_mem_nil, or_false] at hl
      subst hl
      exact Option.some_ne_none _)).2.2 K hK ctx h1 h2 h3

private def fifthPackage : KeyPackage := ⟨⟨.MLS10, suite1, [6], signedLeaf 4 (.KeyPackage ⟨0, 100⟩), []⟩, []⟩
private def fourthState : State := { joinState with tree := fourthTree }
private def bothLeft : ParentNode := ⟨[42], parentHash sumHash.digest fourthTree.get 0 2 ⟨[43], [], []⟩, []⟩
private def bothPath : UpdatePath := ⟨newLeaf 0 (parentHash sumHash.digest fourthTree.get 0 1 bothLeft), [⟨[42], []⟩, ⟨[43], []⟩]⟩
private def bothTree : RatchetTree :=
  [some (.Leaf (signedLeaf 0 .Update)), none, some (.Leaf fifthPackage.payload.leaf_node), none,
    some (.Leaf thirdPackage.payload.leaf_node), none, some (.Leaf fourthPackage.payload.leaf_node)]
private def bothMerged : RatchetTree :=
  [some (.Leaf bothPath.leaf_node), some (.Parent bothLeft), some (.Leaf joinLeaf), some (.Parent ⟨[43], [], []⟩),
    some (.Leaf thirdPackage.payload.leaf_node), none, some (.Leaf fourthPackage.payload.leaf_node)]

set_option maxRecDepth 100000 in
private theorem fourthTree_orderly : Orderly sumProvider suite1 sumHash.digest [7] [some (.Leaf (signedLeaf 0 .Update))] fourthTree :=
  .add (t := thirdTree) 3 fourthPackage.payload.leaf_node
    (.add 2 thirdPackage.payload.leaf_node joinTree_orderly ⟨_, rfl⟩ rfl
      (goodLeaf_of (by decide +kernel) ⟨by decide +kernel, by decide +kernel, _, rfl, by decide +kernel⟩ rfl (by decide) (by decide)
        (by decide +kernel)) (.inr ⟨rfl, by decide⟩) (by decide +kernel) (order_short (by decide +kernel)))
    ⟨_, rfl⟩ rfl
    (goodLeaf_of (by decide +kernel) ⟨by decide +kernel, by decide +kernel, _, rfl, by decide +kernel⟩ rfl (by decide) (by decide)
      (by decide +kernel)) (.inr ⟨rfl, by decide⟩) (by decide +kernel) (order_short (by decide +kernel))

set_option maxRecDepth 100000 in
/-- The first of four members removes the second and adds a fifth, who gets the place of the second. -/
example (K : Nat) (hK : IsHeight 4 K) (ctx : GroupContext) (h1 : ctx.cipher_suite = suite1) (h2 : ctx.group_id = [7])
    (h3 : ctx.tree_hash = treeHash sumHash.digest bothTree.get K 0) : verify_integrity sumProvider bothTree ctx 0 = .ok () := by
  refine (C127_both_partial sumProvider suite1 toyHpke rfl toy_sizes sumHash rfl (fun b => (sumHash_size b).2) [7]
    (signedLeaf 0 .Update) nofun founder_good fourthState fourthTree_orderly
    (commitOf 0 [.Add ⟨fifthPackage⟩, .Remove ⟨1⟩] bothPath joinInfo.group_context) (Option.some_ne_none _) bothTree bothMerged
    (by decide +kernel) [.Add ⟨fifthPackage⟩, .Remove ⟨1⟩] (some bothPath) rfl (fun li hl => ?_) ⟨fun l hl => ?_, ?_, fun x p hx => ?_⟩
    (by decide) 2 (Option.some_ne_none _) (by decide) (by decide) (by decide)).2.2.2 K hK ctx h1 h2 h3
  · simp only [removesOf, List.mem_cons, List.not_mem_nil, or_false] at hl
    subst hl
    exact Option.some_ne_none _
  · simp only [addsOf, List.mem_cons, List.not_mem_nil, or_false] at hl
    subst hl
    exact ⟨⟨_, rfl⟩, goodLeaf_of (by decide +kernel) ⟨by decide +kernel, by decide +kernel, _, rfl, by decide +kernel⟩ rfl
        (by decide) (by decide) (by decide +kernel)⟩
  · exact List.pairwise_singleton _ _
  · have hx : fourthTree.get x = some (.Parent p) := hx
    have hlt := lt_of_get hx
    match x, hlt, hx with
    | 0, _, hx => cases hx
    | 1, _, hx => cases hx
    | 2, _, hx => cases hx
    | 3, _, hx => cases hx
    | 4, _, hx => cases hx
    | 5, _, hx => cases hx
    | 6, _, hx => cases hx

private def lostTree : RatchetTree :=
  [some (.Leaf (signedLeaf 0 .Update)), none, none, some (.Leaf thirdPackage.payload.leaf_node), none]

private theorem height_three' : IsHeight ((5 + 1) / 2) 2 := ⟨by decide, fun j hj => by
  apply Decidable.byContradiction
  intro hc
  have : j = 0 ∨ j = 1 := by omega
  rcases this with rfl | rfl <;> revert hj <;> decide⟩

set_option maxRecDepth 100000 in
/-- C127, the code violates it: in a group of two that has kept to the rules, the first member replaces the second by a third, whose
key package is good.  The other client accepts the commit; the third member is not at any leaf of the tree at which they arrive, and
nobody accepts that tree, whatever the group context says. -/
theorem C127_replaced_refuted : ∃ (founder : LeafNode) (s : State) (m : PublicMessage) (ps : List Proposal) (path : UpdatePath)
    (nt t' : RatchetTree), NotCommit founder ∧ GoodLeaf sumProvider suite1 [7] [] 0 founder ∧
    Orderly sumProvider suite1 sumHash.digest [7] [some (.Leaf founder)] s.tree ∧ s.tree.length % 2 = 1 ∧
    m.content.content = .Commit ⟨ps.map .Proposal, some path⟩ ∧ handleCommit sumProvider suite1 s m = .ok (nt, t') ∧
    (∀ li ∈ removesOf ps, s.tree.get (2 * li) ≠ none) ∧ GoodNewcomers sumProvider suite1 [7] s.tree (addsOf ps) ∧
    (∀ l ∈ addsOf ps, ∀ i, nt.get (2 * i) ≠ some (.Leaf l)) ∧
    ∀ ctx now, ctx.cipher_suite = suite1 → verify_integrity sumProvider nt ctx now ≠ .ok () := by
  refine ⟨signedLeaf 0 .Update, joinState, commitOf 0 [.Remove ⟨1⟩, .Add ⟨thirdPackage⟩] leavePath joinInfo.group_context,
    [.Remove ⟨1⟩, .Add ⟨thirdPackage⟩], leavePath, lostTree,
    [some (.Leaf leavePath.leaf_node), some (.Parent ⟨[41], [], []⟩), some (.Leaf joinLeaf)], nofun, founder_good, joinTree_orderly,
    by decide, rfl, by decide +kernel, fun li hl => ?_, ⟨fun l hl => ?_, List.pairwise_singleton _ _, fun x p hx => ?_⟩,
    fun l hl x => ?_, ?_⟩
  · simp only [removesOf, List.mem_cons, List.not_mem_nil, or_false] at hl
    subst hl
    exact Option.some_ne_none _
  · simp only [addsOf, List.mem_cons, List.not_mem_nil, or_false] at hl
    subst hl
    exact ⟨⟨_, rfl⟩, goodLeaf_of (by decide +kernel) ⟨by decide +kernel, by decide +kernel, _, rfl, by decide +kernel⟩ rfl
      (by decide) (by decide) (by decide +kernel)⟩
  · have hx : joinTree.get x = some (.Parent p) := hx
    have hlt := lt_of_get hx
    match x, hlt, hx with
    | 0, _, hx => cases hx
    | 1, _, hx => cases hx
    | 2, _, hx => cases hx
  · simp only [addsOf, List.mem_cons, List.not_mem_nil, or_false] at hl
    subst hl
    match x with
    | 0 => intro h; cases h
    | 1 => intro h; cases h
    | 2 => intro h; cases h
    | x + 3 => rw [get_out (by show 5 ≤ 2 * (x + 3); omega)]; nofun
  · intro ctx now hcs hv
    have := C19_sound sumProvider lostTree ctx now sumHash (by rw [hcs]; rfl) (by decide) (by decide) 2 height_three' hv
    exact this.defined.1 thirdPackage.payload.leaf_node rfl
end examples

end Rmls
