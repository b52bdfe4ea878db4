import Verif.Model.ApplyWork
import Verif.Proofs.MergeWork
import Verif.Proofs.Robust
import Verif.Proofs.Proposal
/-
`Model/ApplyWork.lean`: the counted functions have the same results, and bounds on the counters.
-/
namespace Rmls.RatchetTree.Tolling
open Spec Tolled

/-! ### The same results -/

theorem look_bind {β : Type} (f : Unit → Tolled β) :
    (look >>= f) = ⟨(f ()).res, ⟨(f ()).toll.digests, 1 + (f ()).toll.visits, (f ()).toll.copies⟩⟩ := by
  show (⟨_, Toll.plus _ _⟩ : Tolled β) = _
  simp [Toll.plus, look]

theorem push_bind {β : Type} (n : Nat) (f : Unit → Tolled β) :
    (push n >>= f) = ⟨(f ()).res, ⟨(f ()).toll.digests, (f ()).toll.visits, n + (f ()).toll.copies⟩⟩ := by
  show (⟨_, Toll.plus _ _⟩ : Tolled β) = _
  simp [Toll.plus, push]

theorem free_bind {α β : Type} (x : Res α) (f : α → Tolled β) :
    (free x >>= f) = match x with
      | .ok a => f a
      | .err e => free (.err e)
      | .fault g => free (.fault g) := by
  show Tolled.bind (free x) f = _
  unfold Tolled.bind
  cases x with
  | ok a =>
    show (⟨(f a).res, Toll.plus ⟨0, 0, 0⟩ (f a).toll⟩ : Tolled β) = f a
    simp [Toll.plus]
  | err e => rfl
  | fault g => rfl

theorem addSearch_res (t : RatchetTree) : ∀ fuel li, (addSearch t fuel li).res = t.addSearch fuel li
  | 0, _ => rfl
  | fuel + 1, li => by
    unfold addSearch RatchetTree.addSearch
    rw [bind_res, free_res]
    congr 1
    funext ni
    split
    · rfl
    · rw [look_bind]
      dsimp only
      split
      · rfl
      · rw [bind_res, free_res]
        congr 1
        funext li'
        exact addSearch_res t fuel li'

theorem add_res (t : RatchetTree) (l : LeafNode) : (add t l).res = t.add l := by
  unfold add RatchetTree.add
  rw [bind_res, addSearch_res]
  congr 1

theorem removeScan_res (t : RatchetTree) : ∀ li last, (removeScan t li last).res = t.removeScan li last
  | 0, last => by
    unfold removeScan RatchetTree.removeScan
    rw [bind_res, free_res]
    congr 1
    funext ni
    rw [look_bind]
    dsimp only
    split <;> rfl
  | li + 1, last => by
    unfold removeScan RatchetTree.removeScan
    rw [bind_res, free_res]
    congr 1
    funext ni
    rw [look_bind]
    dsimp only
    split
    · rfl
    · exact removeScan_res t li _

theorem remove_res (t : RatchetTree) (li : Nat) : (remove t li).res = t.remove li := by
  unfold remove RatchetTree.remove
  rw [bind_res, free_res]
  congr 1
  funext ni
  dsimp only
  rw [bind_res, free_res]
  congr 1
  funext t'
  rw [bind_res, free_res]
  congr 1
  funext last
  rw [bind_res, removeScan_res]
  congr 1
  funext o
  cases o with
  | none => rfl
  | some l => dsimp only; split <;> rfl

theorem applyRemoves_res : ∀ ps t, (applyRemoves ps t).res = RatchetTree.applyRemoves ps t := by
  intro ps
  induction ps with
  | nil => intro t; rfl
  | cons p ps ih =>
    intro t
    cases p with
    | Remove r =>
      unfold applyRemoves RatchetTree.applyRemoves
      rw [bind_res, remove_res]
      congr 1
      funext t'
      exact ih t'
    | _ => exact ih t

theorem applyAdds_res : ∀ ps t, (applyAdds ps t).res = RatchetTree.applyAdds ps t := by
  intro ps
  induction ps with
  | nil => intro t; rfl
  | cons p ps ih =>
    intro t
    cases p with
    | Add a =>
      unfold applyAdds RatchetTree.applyAdds
      rw [bind_res, add_res]
      congr 1
      funext t'
      exact ih t'
    | _ => exact ih t

theorem apply_res (t : RatchetTree) (ps : List Proposal) (ss : List LeafIndex) : (apply t ps ss).res = t.apply ps ss := by
  unfold apply RatchetTree.apply
  rw [bind_res, free_res]
  congr 1
  funext t'
  rw [bind_res, applyRemoves_res]
  congr 1
  funext t''
  exact applyAdds_res ps t''

/-! ### Searching for a free leaf -/

/-- All that are looked at but the last are taken. -/
theorem addSearch_visits_le {t : RatchetTree} {m : Nat} (hm : ∃ i, i ≤ m ∧ t.get (2 * i) = none) : ∀ fuel li, li ≤ m →
    (∀ i, i < li → t.get (2 * i) ≠ none) → (addSearch t fuel li).toll.visits ≤ m + 1 - li := by
  intro fuel
  induction fuel with
  | zero => intro li _ _; exact Nat.zero_le _
  | succ fuel ih =>
    intro li hli hb
    unfold addSearch
    refine free_le counter_visits fun ni hni => ?_
    have hni : ni = 2 * li := by
      unfold LeafIndex.node_index mul32 at hni
      split at hni
      · cases hni; rfl
      · cases hni
    subst hni
    split
    · exact Nat.zero_le _
    · rw [look_bind]
      dsimp only
      split
      · show 1 + 0 ≤ _; omega
      · rename_i hnone
        have htaken : t.get (2 * li) ≠ none := by
          intro hc; rw [hc] at hnone; exact hnone rfl
        obtain ⟨i, him, hin⟩ := hm
        have hlm : li < m := by
          apply Decidable.byContradiction
          intro hc
          rcases Nat.lt_or_ge i li with h1 | h1
          · exact hb i h1 hin
          · have : i = li := by omega
            subst this; exact htaken hin
        have : (free (add32 li 1) >>= fun li' => addSearch t fuel li').toll.visits ≤ m - li := by
          refine free_le counter_visits fun li' hli' => ?_
          have hli' : li' = li + 1 := by
            unfold add32 at hli'
            split at hli'
            · cases hli'; rfl
            · cases hli'
          subst hli'
          have := ih (li + 1) (by omega) fun j hj => by
            rcases Nat.lt_or_ge j li with h1 | h1
            · exact hb j h1
            · have : j = li := by omega
              subst this; exact htaken
          omega
        omega

/-- All that are taken are looked at. -/
theorem addSearch_visits_ge {t : RatchetTree} {n : Nat} (hn : n ≤ 2 ^ 31) (h : ∀ i, i < n → t.get (2 * i) ≠ none) :
    ∀ fuel li, li ≤ n → n ≤ fuel + li → n - li ≤ (addSearch t fuel li).toll.visits := by
  intro fuel
  induction fuel with
  | zero => intro li h1 h2; omega
  | succ fuel ih =>
    intro li h1 h2
    rcases Nat.lt_or_ge li n with hlt | hge
    · have htaken := h li hlt
      have hlen := get_ne_none_lt htaken
      unfold addSearch
      rw [free_bind]
      unfold LeafIndex.node_index mul32
      rw [if_pos (by omega)]
      dsimp only
      rw [if_neg (by omega), look_bind]
      dsimp only
      rw [if_neg (by cases hg : t.get (2 * li) with
        | none => exact absurd hg htaken
        | some x => simp), free_bind]
      unfold add32
      rw [if_pos (by omega)]
      dsimp only
      have := ih (li + 1) (by omega) (by omega)
      omega
    · omega

/-! ### Adding -/

theorem addSearch_copies (t : RatchetTree) : ∀ fuel li, (addSearch t fuel li).toll.copies = 0 := by
  intro fuel
  induction fuel with
  | zero => intro li; rfl
  | succ fuel ih =>
    intro li
    unfold addSearch
    rw [free_bind]
    split
    · split
      · rfl
      · rw [look_bind]
        dsimp only
        split
        · rfl
        · rw [free_bind]
          split
          · exact ih _
          · rfl
          · rfl
    · rfl
    · rfl

theorem add_visits (t : RatchetTree) (l : LeafNode) : (add t l).toll.visits = (addSearch t (t.length + 1) 0).toll.visits := by
  unfold add
  show (Tolled.bind _ _).toll.visits = _
  unfold Tolled.bind
  split
  · rename_i a _
    obtain ⟨li, found⟩ := a
    dsimp only
    rw [push_bind]
    show _ + 0 = _
    omega
  · rfl
  · rfl

theorem add_copies {t : RatchetTree} {l : LeafNode} {li : Nat} {found : Bool}
    (h : t.addSearch (t.length + 1) 0 = .ok (li, found)) :
    (add t l).toll.copies = if found then 0 else t.length + 1 := by
  unfold add
  show (Tolled.bind _ _).toll.copies = _
  unfold Tolled.bind
  rw [addSearch_res, h]
  dsimp only
  rw [push_bind]
  show (addSearch t (t.length + 1) 0).toll.copies + ((if found = true then 0 else (t.length + 1) * 2 - 1 - t.length) + 0) = _
  rw [addSearch_copies]
  split <;> omega

/-- One more member: the work, and what becomes of a list of leaves that covers the members. -/
theorem add_one {t : RatchetTree} {S : List Nat} (l : LeafNode) (h0 : 0 < t.length) (hl : t.length < 2 ^ 31)
    (hS : ∀ i, t.get (2 * i) ≠ none → i ∈ S) (hb : 4 * (S.length + 1) + 1 < 2 ^ 31) :
    ∃ t1 j, t.add l = .ok t1 ∧ t.length ≤ t1.length ∧ t1.length < 2 ^ 31 ∧ (∀ i, t1.get (2 * i) ≠ none → i ∈ j :: S) ∧
      (∀ i, t.get (2 * i) ≠ none → t1.get (2 * i) ≠ none) ∧
      (add t l).toll.copies + t.length = t1.length ∧ (t1.length = t.length ∨ t1.length ≤ 4 * S.length + 1) := by
  obtain ⟨n0, n1, n2⟩ := num_leaves_bounds h0 (by omega)
  rcases first_free t t.num_leaves with ⟨j, hj, h1, h2⟩ | h
  · obtain ⟨t1, e, l1, g1⟩ := add_free (leaf := l) (by omega) (isHeight_height n0) (by omega) h1 h2
    refine ⟨t1, j, e, by omega, by omega, fun i hi => ?_, fun i hi => ?_, ?_, .inl l1⟩
    · rw [g1] at hi
      by_cases hij : 2 * i = 2 * j
      · have : i = j := by omega
        rw [this]; exact List.mem_cons_self
      · rw [if_neg hij, if_neg fun ha => above_ne_leaf ha i rfl] at hi
        exact List.mem_cons_of_mem _ (hS i hi)
    · rw [g1]
      by_cases hij : 2 * i = 2 * j
      · rw [if_pos hij]; nofun
      · rw [if_neg hij, if_neg fun ha => above_ne_leaf ha i rfl]; exact hi
    · rw [add_copies (addSearch_found (j := j) (by omega) (by omega) h1 h2 _ 0 (by omega) (by omega))]
      simp [l1]
  · have hc := length_le_of_covers t.num_leaves S fun i hi => hS i (h i hi)
    have hfull : t.addSearch (t.length + 1) 0 = .ok (t.num_leaves, false) :=
      addSearch_full (n := t.num_leaves) (by omega) (by omega) (fun i hi => ⟨by omega, h i hi⟩) _ 0 (by omega) (by omega)
    have hcop := add_copies (l := l) hfull
    rw [if_neg (by decide)] at hcop
    rcases Nat.mod_two_eq_zero_or_one t.length with hm | hm
    · obtain ⟨t1, e, l1, g0, g1⟩ := add_even (t := t) (m := t.length / 2) (leaf := l) (by omega) (by omega) hl
        fun i hi => h i (by omega)
      exact ⟨t1, 0, e, by omega, by omega, fun i hi => List.mem_cons_of_mem _ (hS i (by rw [← g1]; exact hi)),
        fun i hi => by rw [g1]; exact hi, by omega, .inr (by omega)⟩
    · obtain ⟨t1, e, l1, g1⟩ := add_grow (t := t) (n := (t.length + 1) / 2) (leaf := l) (by omega) h0 hl
        (isHeight_height (by omega)) fun i hi => h i (by omega)
      refine ⟨t1, (t.length + 1) / 2, e, by omega, by omega, fun i hi => ?_, fun i hi => ?_, by omega, .inr (by omega)⟩
      · rw [g1] at hi
        by_cases hij : 2 * i = 2 * ((t.length + 1) / 2)
        · have : i = (t.length + 1) / 2 := by omega
          rw [this]; exact List.mem_cons_self
        · rw [if_neg hij, if_neg fun ha => above_ne_leaf ha i rfl] at hi
          exact List.mem_cons_of_mem _ (hS i hi)
      · rw [g1]
        by_cases hij : 2 * i = 2 * ((t.length + 1) / 2)
        · rw [if_pos hij]; nofun
        · rw [if_neg hij, if_neg fun ha => above_ne_leaf ha i rfl]; exact hi

theorem add_visits_le {t : RatchetTree} {S : List Nat} (l : LeafNode) (hS : ∀ i, t.get (2 * i) ≠ none → i ∈ S) :
    (add t l).toll.visits ≤ S.length + 1 := by
  rw [add_visits]
  refine addSearch_visits_le (m := S.length) ?_ _ 0 (Nat.zero_le _) fun i hi => by omega
  apply Classical.byContradiction
  intro hc
  have := length_le_of_covers (S.length + 1) S fun i hi => hS i fun hn => hc ⟨i, by omega, hn⟩
  omega

theorem bind_toll {α β : Type} {x : Tolled α} {a : α} (h : x.res = .ok a) (f : α → Tolled β) :
    (x >>= f).toll = x.toll.plus (f a).toll := by
  show (Tolled.bind x f).toll = _
  unfold Tolled.bind
  rw [h]

theorem applyAdds_le : ∀ (ps : List Proposal) (t : RatchetTree) (S : List Nat), 0 < t.length → t.length < 2 ^ 31 →
    (∀ i, t.get (2 * i) ≠ none → i ∈ S) → 4 * (S.length + (addsOf ps).length) + 1 < 2 ^ 31 →
    (applyAdds ps t).toll.visits ≤ (addsOf ps).length * (S.length + (addsOf ps).length) ∧
    ((applyAdds ps t).toll.copies = 0 ∨
      (applyAdds ps t).toll.copies + t.length ≤ 4 * (S.length + (addsOf ps).length) + 1) := by
  intro ps
  induction ps with
  | nil => intro t S _ _ _ _; exact ⟨Nat.zero_le _, .inl rfl⟩
  | cons p ps ih =>
    intro t S h0 hl hS hb
    cases p with
    | Add a =>
      rw [show (addsOf (.Add a :: ps)).length = (addsOf ps).length + 1 from rfl] at hb ⊢
      obtain ⟨t1, j, e, l1, l2, c1, _, c2, c3⟩ := add_one a.key_package.payload.leaf_node h0 hl hS (by omega)
      obtain ⟨i1, i2⟩ := ih t1 (j :: S) (by omega) l2 c1 (by rw [List.length_cons]; omega)
      rw [List.length_cons, show S.length + 1 + (addsOf ps).length = S.length + ((addsOf ps).length + 1) by omega] at i1 i2
      have hv := add_visits_le a.key_package.payload.leaf_node hS
      have hsplit : (applyAdds (.Add a :: ps) t).toll =
          (add t a.key_package.payload.leaf_node).toll.plus (applyAdds ps t1).toll :=
        bind_toll (by rw [add_res]; exact e) _
      rw [hsplit]
      generalize (addsOf ps).length = b at *
      constructor
      · show _ + _ ≤ _
        rw [Nat.succ_mul]
        omega
      · show _ + _ = 0 ∨ _ + _ + _ ≤ _
        omega
    | _ => exact ih t S h0 hl hS hb

theorem applyAdds_ge : ∀ (ps : List Proposal) (t : RatchetTree) (S : List Nat) (n : Nat), 0 < t.length → t.length < 2 ^ 31 →
    (∀ i, t.get (2 * i) ≠ none → i ∈ S) → 4 * (S.length + (addsOf ps).length) + 1 < 2 ^ 31 →
    (∀ i, i < n → t.get (2 * i) ≠ none) → (addsOf ps).length * n ≤ (applyAdds ps t).toll.visits := by
  intro ps
  induction ps with
  | nil => intro t S n _ _ _ _ _; show 0 * n ≤ _; omega
  | cons p ps ih =>
    intro t S n h0 hl hS hb hn
    cases p with
    | Add a =>
      rw [show (addsOf (.Add a :: ps)).length = (addsOf ps).length + 1 from rfl] at hb ⊢
      obtain ⟨t1, j, e, l1, l2, c1, keep, _, _⟩ := add_one a.key_package.payload.leaf_node h0 hl hS (by omega)
      have i1 := ih t1 (j :: S) n (by omega) l2 c1 (by rw [List.length_cons]; omega) fun i hi => keep i (hn i hi)
      have hnl : n ≤ t.length := by
        rcases Nat.eq_zero_or_pos n with h | h
        · omega
        · have := get_ne_none_lt (hn (n - 1) (by omega)); omega
      have hv := addSearch_visits_ge (by omega) hn (t.length + 1) 0 (Nat.zero_le _) (by omega)
      have hsplit : (applyAdds (.Add a :: ps) t).toll =
          (add t a.key_package.payload.leaf_node).toll.plus (applyAdds ps t1).toll :=
        bind_toll (by rw [add_res]; exact e) _
      rw [hsplit]
      show _ ≤ _ + _
      rw [add_visits, Nat.succ_mul]
      omega
    | _ => exact ih t S n h0 hl hS hb hn

/-! ### Removing -/

theorem removeScan_le (t : RatchetTree) : ∀ li last, (removeScan t li last).toll.visits ≤ li + 1 ∧
    (removeScan t li last).toll.copies = 0 := by
  intro li
  induction li with
  | zero =>
    intro last
    unfold removeScan
    rw [free_bind]
    split
    · rw [look_bind]; dsimp only; split <;> exact ⟨Nat.le_refl _, rfl⟩
    · exact ⟨Nat.zero_le _, rfl⟩
    · exact ⟨Nat.zero_le _, rfl⟩
  | succ li ih =>
    intro last
    unfold removeScan
    rw [free_bind]
    split
    · rw [look_bind]
      dsimp only
      split
      · exact ⟨by show 1 + 0 ≤ _; omega, rfl⟩
      · rename_i ni _ _
        have := ih (if is_power_of_two ni then ni else last)
        exact ⟨by omega, this.2⟩
    · exact ⟨Nat.zero_le _, rfl⟩
    · exact ⟨Nat.zero_le _, rfl⟩

theorem remove_le (t : RatchetTree) (li : Nat) : (remove t li).toll.visits ≤ t.num_leaves ∧
    (remove t li).toll.copies = 0 := by
  have key : ∀ {c : Toll → Nat} {b : Nat}, Counter c → (∀ (u : RatchetTree) last, c (removeScan u (t.num_leaves - 1) last).toll ≤ b) →
      c (remove t li).toll ≤ b := by
    intro c b hc hb
    unfold remove
    refine free_le hc fun ni _ => ?_
    dsimp only
    refine free_le hc fun t1 _ => ?_
    refine free_le hc fun last hlast => ?_
    have hl : last = t.num_leaves - 1 := by
      unfold sub32 at hlast
      split at hlast
      · cases hlast; rfl
      · cases hlast
    subst hl
    have := bind_le hc (x := removeScan t1 (t.num_leaves - 1) t1.length) (n := 0) (hb t1 t1.length)
      (f := fun o => match o with
        | none => pure []
        | some last => if last < t1.length then pure (t1.take last) else pure t1) fun o _ => by
      cases o with
      | none => exact Nat.le_of_eq hc.1
      | some l => dsimp only; split <;> exact Nat.le_of_eq hc.1
    omega
  have h0 : t.num_leaves ≠ 0 ∨ t.num_leaves = 0 := by omega
  refine ⟨?_, Nat.le_zero.1 (key counter_copies fun u last => Nat.le_of_eq (removeScan_le u _ last).2)⟩
  rcases h0 with h0 | h0
  · exact key counter_visits fun u last => by have := (removeScan_le u (t.num_leaves - 1) last).1; omega
  · -- without leaves nothing is looked at
    unfold remove
    refine free_le counter_visits fun ni _ => ?_
    dsimp only
    refine free_le counter_visits fun t1 _ => ?_
    refine free_le counter_visits fun last hlast => ?_
    unfold sub32 at hlast
    rw [h0, if_neg (by omega)] at hlast
    cases hlast

theorem applyRemoves_le : ∀ (ps : List Proposal) (t : RatchetTree) (N : Nat), t.length < 4294967296 → (removesOf ps).Nodup →
    (∀ r ∈ removesOf ps, t.get (2 * r) ≠ none) → (t.length + 1) / 2 ≤ N →
    (applyRemoves ps t).toll.visits ≤ (removesOf ps).length * N ∧ (applyRemoves ps t).toll.copies = 0 := by
  intro ps
  induction ps with
  | nil => intro t N _ _ _ _; exact ⟨Nat.zero_le _, rfl⟩
  | cons p ps ih =>
    intro t N hl hnd h hN
    cases p with
    | Remove r =>
      rw [show removesOf (.Remove r :: ps) = r.removed.toNat :: removesOf ps from rfl] at hnd h ⊢
      have hr := get_ne_none_lt (h _ List.mem_cons_self)
      obtain ⟨t1, e1, l1, g1⟩ := remove_leaves hl hr
      obtain ⟨hnr, hnd⟩ := List.nodup_cons.1 hnd
      obtain ⟨i1, i2⟩ := ih t1 N (by omega) hnd (fun s hs => by
        rw [g1, if_neg (fun he : s = r.removed.toNat => hnr (he ▸ hs))]
        exact h s (List.mem_cons_of_mem _ hs)) (by omega)
      have hsplit : (applyRemoves (.Remove r :: ps) t).toll =
          (remove t r.removed.toNat).toll.plus (applyRemoves ps t1).toll :=
        bind_toll (by rw [remove_res]; exact e1) _
      obtain ⟨v, c⟩ := remove_le t r.removed.toNat
      have hn := (num_leaves_bounds (t := t) (by omega) hl).2.2
      rw [hsplit, List.length_cons, Nat.succ_mul]
      exact ⟨by show _ + _ ≤ _; omega, by show _ + _ = 0; omega⟩
    | _ => exact ih t N hl hnd h hN

/-- The scan looks at the leaves down to the first that is taken. -/
theorem removeScan_visits {t : RatchetTree} {j : Nat} (ht : t.get (2 * j) ≠ none) : ∀ li last, li < 2 ^ 31 → j ≤ li →
    (∀ i, j < i → i ≤ li → t.get (2 * i) = none) → (removeScan t li last).toll.visits = li - j + 1 := by
  intro li
  induction li with
  | zero =>
    intro last _ hj _
    unfold removeScan
    rw [free_bind, node_index_eq (by omega)]
    dsimp only
    rw [look_bind]
    have : j = 0 := by omega
    subst this
    dsimp only
    rw [if_pos (Option.isSome_iff_ne_none.2 ht)]
    rfl
  | succ li ih =>
    intro last hb hj h
    unfold removeScan
    rw [free_bind, node_index_eq hb]
    dsimp only
    rw [look_bind]
    dsimp only
    by_cases he : j = li + 1
    · subst he
      rw [if_pos (Option.isSome_iff_ne_none.2 ht)]
      show 1 + 0 = _
      omega
    · rw [if_neg (by rw [h (li + 1) (by omega) (Nat.le_refl _)]; decide)]
      rw [ih _ (by omega) (by omega) fun i h1 h2 => h i h1 (by omega)]
      omega

/-- All the slots that a list of adds makes the array longer by are counted. -/
theorem applyAdds_copies : ∀ (ps : List Proposal) (t t' : RatchetTree) (S : List Nat), 0 < t.length → t.length < 2 ^ 31 →
    (∀ i, t.get (2 * i) ≠ none → i ∈ S) → 4 * (S.length + (addsOf ps).length) + 1 < 2 ^ 31 →
    RatchetTree.applyAdds ps t = .ok t' → (applyAdds ps t).toll.copies + t.length = t'.length := by
  intro ps
  induction ps with
  | nil => intro t t' S _ _ _ _ h; cases h; show 0 + _ = _; omega
  | cons p ps ih =>
    intro t t' S h0 hl hS hb h
    cases p with
    | Add a =>
      rw [show (addsOf (.Add a :: ps)).length = (addsOf ps).length + 1 from rfl] at hb
      obtain ⟨t1, j, e, l1, l2, c1, _, c2, c3⟩ := add_one a.key_package.payload.leaf_node h0 hl hS (by omega)
      have hsplit : (applyAdds (.Add a :: ps) t).toll =
          (add t a.key_package.payload.leaf_node).toll.plus (applyAdds ps t1).toll :=
        bind_toll (by rw [add_res]; exact e) _
      have h' : RatchetTree.applyAdds ps t1 = .ok t' := by
        rw [RatchetTree.applyAdds, e] at h; exact h
      have := ih t1 t' (j :: S) (by omega) l2 c1 (by rw [List.length_cons]; omega) h'
      rw [hsplit]
      show _ + _ + _ = _
      omega
    | _ => exact ih t t' S h0 hl hS hb h

/-- A remove looks at the leaves from the last down to the last other member. -/
theorem remove_visits {t : RatchetTree} {li j : Nat} (hl : t.length < 4294967296) (hli : 2 * li < t.length)
    (hj : t.get (2 * j) ≠ none) (hjl : j ≠ li) (hlast : ∀ i, j < i → i ≠ li → t.get (2 * i) = none) :
    (remove t li).toll.visits = t.num_leaves - j := by
  have h0 : 0 < t.length := by omega
  obtain ⟨hn0, hn1, hn2⟩ := num_leaves_bounds h0 hl
  have hK := isHeight_height hn0
  have hlK : li < 2 ^ NumLeaves.height t.num_leaves := by have := hK.1; omega
  have hjlt := get_ne_none_lt hj
  have hscan := removeScan_visits (t := blanked t (NumLeaves.height t.num_leaves) li) (j := j) (by
      rw [blanked_get, if_neg]
      · exact hj
      · rintro (h | h)
        · omega
        · exact above_ne_leaf h j rfl) (t.num_leaves - 1)
      (blanked t (NumLeaves.height t.num_leaves) li).length (by omega) (by omega) (by
      intro i hi1 hi2
      rw [blanked_get]
      by_cases h : i = li
      · rw [if_pos (Or.inl (by omega))]
      · rw [hlast i hi1 h]; split <;> rfl)
  unfold remove
  rw [free_bind, node_index_eq (by omega)]
  dsimp only
  rw [free_bind, walkUp_ok (fun (t : RatchetTree) p => t.set p none) _ _ _ (direct_path_leaf hn0 hn1 hK hlK)]
  dsimp only
  rw [free_bind, sub32, if_pos (show 1 ≤ t.num_leaves by omega)]
  dsimp only
  show (Tolled.bind _ _).toll.visits = _
  unfold Tolled.bind
  unfold blanked at hscan
  split
  · rename_i o _
    cases o with
    | none => show _ + 0 = _; omega
    | some l => dsimp only; split <;> (show _ + 0 = _; omega)
  · dsimp only; omega
  · dsimp only; omega

end Rmls.RatchetTree.Tolling
