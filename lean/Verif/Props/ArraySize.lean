import Verif.Spec.ArraySize
import Verif.Props.Joiner
/-
Property C104: the array that holds the tree is no longer than the group was ever large.
-/
namespace Rmls
open Spec RatchetTree

/-- `t` is reached from `s` by adds, updates, removes and merges of paths, accepted or rejected, in any order, whatever the
arguments; in none of the trees on the way more than `M` leaf slots are occupied. -/
inductive Within (P : CryptoProvider) (cs : CipherSuite) (M : Nat) (s : RatchetTree) : RatchetTree → Prop
  where
  | start : occupied s ≤ M → Within P cs M s s
  | add {t t' leaf} : Within P cs M s t → t.add leaf = .ok t' → occupied t' ≤ M → Within P cs M s t'
  | update {t t' li leaf} : Within P cs M s t → t.update li leaf = .ok t' → occupied t' ≤ M → Within P cs M s t'
  | remove {t t' li} : Within P cs M s t → t.remove li = .ok t' → occupied t' ≤ M → Within P cs M s t'
  | merge {t j path} : Within P cs M s t → occupied (t.merge_update_path P cs j path).1 ≤ M →
      Within P cs M s (t.merge_update_path P cs j path).1

theorem Within.limit {P : CryptoProvider} {cs : CipherSuite} {M : Nat} {s t : RatchetTree} (h : Within P cs M s t) :
    occupied t ≤ M := by
  cases h <;> assumption

private theorem occupied_full : ∀ (t : RatchetTree), (∀ i, 2 * i < t.length → t.get (2 * i) ≠ none) →
    occupied t = (t.length + 1) / 2
  | [], _ => rfl
  | [n], h => by
    have h0 : n ≠ none := h 0 (by simp)
    cases n with
    | none => exact absurd rfl h0
    | some n => simp [occupied]
  | n :: m :: t, h => by
    have h0 : n ≠ none := h 0 (by simp)
    have ih := occupied_full t fun i hi => by
      have := h (i + 1) (by simp only [List.length_cons]; omega)
      rw [show 2 * (i + 1) = 2 * i + 1 + 1 by omega] at this
      exact this
    cases n with
    | none => exact absurd rfl h0
    | some n =>
      rw [occupied, ih]
      simp only [Option.isSome_some, if_true, List.length_cons]
      omega

private theorem search_full {t : RatchetTree} : ∀ {fuel li li' : Nat}, addSearch t fuel li = .ok (li', false) →
    (∀ i, i < li → t.get (2 * i) ≠ none) → ∀ i, 2 * i < t.length → t.get (2 * i) ≠ none
  | 0, _, _, h, _ => by cases h
  | fuel + 1, li, li', h, hall => by
    unfold addSearch at h
    have hni : LeafIndex.node_index li = .ok (2 * li) ∨ LeafIndex.node_index li = .fault .panic := by
      unfold LeafIndex.node_index mul32
      split
      · exact .inl rfl
      · exact .inr rfl
    rcases hni with hni | hni
    · rw [hni, Res.ok_bind] at h
      by_cases hlen : t.length ≤ 2 * li
      · intro i hi
        exact hall i (by omega)
      · rw [if_neg hlen] at h
        by_cases hb : (t.get (2 * li)).isNone = true
        · rw [if_pos hb] at h; cases h
        · rw [if_neg hb] at h
          have ha : add32 li 1 = .ok (li + 1) ∨ add32 li 1 = .fault .panic := by
            unfold add32
            split
            · exact .inl rfl
            · exact .inr rfl
          rcases ha with ha | ha
          · rw [ha, Res.ok_bind] at h
            refine search_full h fun i hi => ?_
            by_cases e : i = li
            · subst e
              intro hc
              rw [hc] at hb
              exact hb rfl
            · exact hall i (by omega)
          · rw [ha] at h; cases h
    · rw [hni] at h; cases h

private theorem walk_length {n : Nat} {f : RatchetTree → Nat → RatchetTree} (hf : ∀ t p, (f t p).length = t.length) :
    ∀ {fuel x : Nat} {t t' : RatchetTree}, walkUp n (fun t _ p => .ok (f t p)) fuel x t = .ok t' → t'.length = t.length
  | 0, _, _, _, h => by cases h
  | fuel + 1, x, t, t', h => by
    unfold walkUp at h
    cases hp : NumLeaves.parent n x with
    | err e => rw [hp] at h; cases h
    | fault e => rw [hp] at h; cases h
    | ok o =>
      rw [hp, Res.ok_bind] at h
      cases o with
      | none => cases h; rfl
      | some p =>
        dsimp only at h
        rw [Res.ok_bind] at h
        rw [walk_length hf h, hf]

private theorem place_length {ni : Res Nat} {u t' : RatchetTree} {li : LeafIndex} {n : Option Node}
    (h : (ni >>= fun ni => walkUp u.num_leaves (fun t _ p => .ok (pushUnmerged li t p)) 34 ni u >>= fun t =>
      pure (t.set ni n)) = .ok t') : t'.length = u.length := by
  cases ni with
  | err e => cases h
  | fault e => cases h
  | ok ni =>
    rw [Res.ok_bind] at h
    cases hw : walkUp u.num_leaves (fun t _ p => .ok (pushUnmerged li t p)) 34 ni u with
    | err e => rw [hw] at h; cases h
    | fault e => rw [hw] at h; cases h
    | ok w =>
      rw [hw, Res.ok_bind] at h
      cases h
      rw [set_length]
      exact walk_length (f := pushUnmerged li) (fun t p => pushUnmerged_length _ t p) hw

/-- C104: adding keeps the array, or every leaf slot was occupied and the array of `L` slots becomes one of `2 * L + 1`. -/
theorem C104_add {t t' : RatchetTree} {leaf : LeafNode} (h : t.add leaf = .ok t') :
    t'.length = t.length ∨ ((∀ i, 2 * i < t.length → t.get (2 * i) ≠ none) ∧ t'.length = 2 * t.length + 1) := by
  unfold add at h
  cases hs : addSearch t (t.length + 1) 0 with
  | err e => rw [hs] at h; cases h
  | fault e => rw [hs] at h; cases h
  | ok r =>
    obtain ⟨li, found⟩ := r
    rw [hs, Res.ok_bind] at h
    cases found with
    | true => exact .inl (place_length h)
    | false =>
      refine .inr ⟨search_full hs fun i hi => absurd hi (Nat.not_lt_zero i), ?_⟩
      have hl := place_length h
      rw [hl]
      simp
      omega

theorem update_keeps {t t' : RatchetTree} {li : Nat} {leaf : LeafNode} (h : t.update li leaf = .ok t') :
    t'.length = t.length := by
  unfold update at h
  cases hni : LeafIndex.node_index li with
  | err e => rw [hni] at h; cases h
  | fault e => rw [hni] at h; cases h
  | ok ni =>
    rw [hni, Res.ok_bind] at h
    rw [walk_length (f := fun t p => t.set p none) (fun t p => set_length ..) h, set_length]

theorem remove_cuts {t t' : RatchetTree} {li : Nat} (h : t.remove li = .ok t') : t'.length ≤ t.length := by
  unfold remove at h
  cases hni : LeafIndex.node_index li with
  | err e => rw [hni] at h; cases h
  | fault e => rw [hni] at h; cases h
  | ok ni =>
    rw [hni, Res.ok_bind] at h
    dsimp only at h
    cases hw : walkUp t.num_leaves (fun t _ p => .ok (t.set p none)) 34 ni (t.set ni none) with
    | err e => rw [hw] at h; cases h
    | fault e => rw [hw] at h; cases h
    | ok w =>
      have hlen := walk_length (f := fun t p => t.set p none) (fun t p => set_length ..) hw
      rw [set_length] at hlen
      rw [hw, Res.ok_bind] at h
      cases hsub : sub32 t.num_leaves 1 with
      | err e => rw [hsub] at h; cases h
      | fault e => rw [hsub] at h; cases h
      | ok last =>
        rw [hsub, Res.ok_bind] at h
        cases hr : removeScan w last w.length with
        | err e => rw [hr] at h; cases h
        | fault e => rw [hr] at h; cases h
        | ok o =>
          rw [hr, Res.ok_bind] at h
          cases o with
          | none => cases h; exact Nat.zero_le _
          | some n =>
            dsimp only at h
            split at h
            · cases h
              rw [List.length_take]
              omega
            · cases h
              omega

private theorem setPath_length : ∀ (ps : List (Nat × UpdatePathNode)) (t : RatchetTree), (t.setPath ps).length = t.length
  | [], _ => rfl
  | (ni, n) :: ps, t => by rw [setPath, setPath_length ps, set_length]

private theorem pathLoop_length (P : CryptoProvider) (cs : CipherSuite) (sni : Nat) (dp : List Nat) :
    ∀ (nis : List Nat) (prev : Option Bytes) (t : RatchetTree), (pathLoop P cs sni dp nis prev t).1.length = t.length
  | [], _, _ => rfl
  | ni :: nis, prev, t => by
    unfold pathLoop
    cases RatchetTree.pathHashes P cs t sni dp ni prev with
    | err e => rfl
    | fault e => rfl
    | ok hs =>
      obtain ⟨a, b⟩ := hs
      dsimp only
      cases t.get ni with
      | none => exact pathLoop_length P cs sni dp nis prev t
      | some n =>
        cases n with
        | Leaf l => exact pathLoop_length P cs sni dp nis prev t
        | Parent p =>
          dsimp only
          cases ParentNode.compute_parent_hash P cs { p with parent_hash := a.getD [] } b with
          | err e => exact set_length ..
          | fault e => exact set_length ..
          | ok h =>
            dsimp only
            rw [pathLoop_length P cs sni dp nis, set_length]

theorem merge_keeps (P : CryptoProvider) (cs : CipherSuite) (t : RatchetTree) (j : Nat) (path : UpdatePath) :
    (t.merge_update_path P cs j path).1.length = t.length := by
  unfold merge_update_path
  cases LeafIndex.node_index j with
  | err e => rfl
  | fault e => rfl
  | ok sni =>
    dsimp only
    cases NumLeaves.direct_path t.num_leaves sni with
    | err e => rfl
    | fault e => rfl
    | ok dp =>
      have hb := foldl_blank_length dp t
      dsimp only
      generalize dp.foldl (fun t ni => t.set ni none) t = u at *
      cases u.filtered_direct_path sni with
      | err e => exact hb
      | fault e => exact hb
      | ok fl =>
        dsimp only
        split
        · exact hb
        · have hp := pathLoop_length P cs sni dp fl.reverse none (u.setPath (fl.zip path.nodes))
          rw [setPath_length, hb] at hp
          generalize pathLoop P cs sni dp fl.reverse none (u.setPath (fl.zip path.nodes)) = y at *
          obtain ⟨t1, r1⟩ := y
          cases r1 with
          | err e => exact hp
          | fault e => exact hp
          | ok prev =>
            dsimp only
            cases path.leaf_node.payload.leaf_node_source <;> cases prev <;> try exact hp
            dsimp only
            split
            · exact hp
            · show (RatchetTree.set t1 sni _).length = _
              rw [set_length]
              exact hp

/-- C104: if a group never had more than `M` members, its array has at most `4 * M + 1` slots, or as many as it began with. -/
theorem C104_size (P : CryptoProvider) (cs : CipherSuite) (M : Nat) (s t : RatchetTree) (h : Within P cs M s t) :
    t.length ≤ max s.length (4 * M + 1) := by
  induction h with
  | start _ => exact Nat.le_max_left _ _
  | @add t t' leaf hw ha _ ih =>
    have hm := hw.limit
    rcases C104_add ha with hk | ⟨ho, hg⟩
    · rw [hk]; exact ih
    · rw [occupied_full t ho] at hm
      refine Nat.le_trans ?_ (Nat.le_max_right _ _)
      omega
  | update _ hu _ ih => rw [update_keeps hu]; exact ih
  | remove _ hr _ ih => exact Nat.le_trans (remove_cuts hr) ih
  | merge _ _ ih => rw [merge_keeps]; exact ih

private theorem occupied_ge : ∀ (n : Nat) (t : RatchetTree), (∀ i, i < n → t.get (2 * i) ≠ none) → n ≤ occupied t
  | 0, _, _ => Nat.zero_le _
  | n + 1, [], h => absurd rfl (h 0 (Nat.succ_pos n))
  | n + 1, [x], h => by
    have h0 : x ≠ none := h 0 (Nat.succ_pos n)
    have h1 : n = 0 := by
      apply Nat.eq_zero_of_not_pos
      intro hn
      exact h 1 (by omega) rfl
    cases x with
    | none => exact absurd rfl h0
    | some x => simp [occupied, h1]
  | n + 1, x :: y :: t, h => by
    have h0 : x ≠ none := h 0 (Nat.succ_pos n)
    have ih := occupied_ge n t fun i hi => by
      have := h (i + 1) (by omega)
      rw [show 2 * (i + 1) = 2 * i + 1 + 1 by omega] at this
      exact this
    cases x with
    | none => exact absurd rfl h0
    | some x =>
      rw [occupied]
      simp only [Option.isSome_some, if_true]
      omega

/-- C104: an array of an odd number of slots that grows when a member is added has five slots fewer than four times the members
afterwards. -/
theorem C104_grown {t t' : RatchetTree} {leaf : LeafNode} (h : t.add leaf = .ok t') (hg : t'.length ≠ t.length)
    (hodd : t.length % 2 = 1) (hl : t.length < 2 ^ 31) : t'.length + 5 ≤ 4 * occupied t' := by
  rcases C104_add h with hk | ⟨ho, hlen⟩
  · exact absurd hk hg
  · obtain ⟨K, hK⟩ := exists_height (n := 2 * ((t.length + 1) / 2)) (by omega)
    obtain ⟨t1, h1, _, h2⟩ := add_grow (leaf := leaf) (n := (t.length + 1) / 2) (by omega) (by omega) hl hK
      fun i hi => ho i (by omega)
    rw [h] at h1
    cases h1
    have := occupied_ge ((t.length + 1) / 2 + 1) t' fun i hi => by
      rw [h2]
      split
      · nofun
      · rw [if_neg (fun hc => above_odd hc rfl)]
        exact ho i (by omega)
    omega

/-- C104 for a history in which every add finds room, as `Roomy` says (an add to a full array of an even number of slots loses the
member, C13): five slots fewer than four times the members that the group had at its largest, unless the array is as it was. -/
theorem C104_roomy (P : CryptoProvider) (cs : CipherSuite) (M : Nat) {s t : RatchetTree} {evs : List TreeEvent}
    (h : RoomSteps P cs s evs t)
    (hM : ∀ (evs1 evs2 : List TreeEvent) (u : RatchetTree), evs = evs1 ++ evs2 → RoomSteps P cs s evs1 u → occupied u ≤ M) :
    t.length ≤ max s.length (4 * M - 5) := by
  induction h with
  | nil t => exact Nat.le_max_left _ _
  | @cons s s' t ev evs hs hr h ih =>
    have ih := ih fun evs1 evs2 u he hu => hM (ev :: evs1) evs2 u (by rw [he]; rfl) (.cons hs hr hu)
    have hm := hM [ev] evs s' rfl (.cons hs hr (.nil _))
    have key : s'.length ≤ max s.length (4 * M - 5) := by
      cases ev with
      | add leaf =>
        obtain ⟨hfree, ha⟩ := hs
        by_cases hk : s'.length = s.length
        · rw [hk]; exact Nat.le_max_left _ _
        · have hfull := ((C104_add ha).resolve_left hk).1
          have no : ¬ ∃ j, 2 * j < s.length ∧ s.get (2 * j) = none := fun ⟨j, h1, h2⟩ => hfull j h1 h2
          have := C104_grown ha hk (hr.resolve_left no) (hfree.resolve_left no)
          refine Nat.le_trans ?_ (Nat.le_max_right _ _)
          omega
      | update li leaf => rw [update_keeps hs.2]; exact Nat.le_max_left _ _
      | remove li => exact Nat.le_trans (remove_cuts hs.2) (Nat.le_max_left _ _)
      | merge li path =>
        have : s' = (s.merge_update_path P cs li path).1 := by
          rcases hs.2 with h | ⟨e, h⟩ <;> rw [h]
        rw [this, merge_keeps]
        exact Nat.le_max_left _ _
    refine Nat.le_trans ih ?_
    omega

/-- C104: at every time the array is at most four times as long as the index of some member, and two slots more; so it shrinks when
the last members leave. -/
theorem C104_last (P : CryptoProvider) (cs : CipherSuite) (l : LeafNode) {t : RatchetTree} {evs : List TreeEvent}
    (h : RoomSteps P cs [some (.Leaf l)] evs t) (h0 : t ≠ []) :
    ∃ j l', t.get (2 * j) = some (.Leaf l') ∧ t.length ≤ 4 * j + 2 := by
  have hk := kept_steps (kept_single l) h
  obtain ⟨K, _, hlen, j, h1, _, h2⟩ := hk.height (List.length_pos_iff.2 h0)
  have hpow : 2 ^ (K + 1) = 2 * 2 ^ K := by rw [Nat.pow_succ]; omega
  cases hg : t.get (2 * j) with
  | none => exact absurd hg h2
  | some n =>
    cases n with
    | Leaf l' => exact ⟨j, l', hg, by omega⟩
    | Parent p => exact absurd (by rw [node_zero]; exact hg) (hk.inv.good.leaf j p)

private abbrev suite1 : CipherSuite := .MLS_128_DHKEMX25519_AES128GCM_SHA256_Ed25519

private def three : RatchetTree :=
  [some (.Leaf (toyLeaf 0)), none, some (.Leaf (toyLeaf 1)), none, some (.Leaf (toyLeaf 2)), none, none]

/-- Three members and seven slots: as many as `C104_roomy` allows. -/
example : RoomSteps toyProvider suite1 [some (.Leaf (toyLeaf 0))] [.add (toyLeaf 1), .add (toyLeaf 2)] three ∧
    occupied three = 3 ∧ three.length = 4 * 3 - 5 :=
  ⟨.cons ⟨.inr (by decide), rfl⟩ (.inr (by decide)) <| .cons ⟨.inr (by decide), rfl⟩ (.inr (by decide)) <| .nil _, rfl, rfl⟩

/-- The member with index 2 leaves: the array of seven slots is cut to four. -/
example : ∃ t : RatchetTree, three.remove 2 = .ok t ∧ t.length = 4 := ⟨_, rfl, rfl⟩

/-- Two members and nine slots: as many as `C104_size` allows.  The third was removed, which leaves an array of four slots, and
the one who was added then is in no leaf slot. -/
example : ∃ t : RatchetTree, Within toyProvider suite1 2 [some (.Leaf (toyLeaf 0)), none, some (.Leaf (toyLeaf 1)), none] t ∧
    t.length = 4 * 2 + 1 :=
  ⟨_, .add (leaf := toyLeaf 2) (.start (by decide)) rfl (by decide), rfl⟩

end Rmls
