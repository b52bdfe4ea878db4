import Verif.Spec.Commit
import Verif.Props.Joiner
import Verif.Props.Proposal
import Verif.Props.TreeChecks
/-
Property C65: the proposals of a commit change exactly the members they name.
-/
namespace Rmls
open Spec RatchetTree

theorem looks_none {t : RatchetTree} {m : Members} (hl : t.length < 2 ^ 32) (hs : LeafShaped t.get)
    (hm : Looks t m) (i : Nat) : t.get (2 * i) = none ↔ m i = none := by
  by_cases hi : i < 2 ^ 31
  · have := hm.1 i hi
    rw [get_leaf_eq hi] at this
    cases hg : t.get (2 * i) with
    | none => rw [hg] at this; simpa using this.symm
    | some n =>
      cases n with
      | Leaf l => rw [hg] at this; simp at this; simp [← this]
      | Parent p => exact absurd hg (by rw [← node_zero]; exact hs i p)
  · exact ⟨fun _ => hm.2 i (by omega), fun _ => get_out (by omega)⟩

/-- An operation as an event. -/
def eventOf : TreeOp → TreeEvent
  | .add leaf => .add leaf
  | .update li leaf => .update li leaf
  | .remove li => .remove li

/-- A legal operation on a kept tree. -/
theorem run_kept {t : RatchetTree} {op : TreeOp} {m : Members} (P : CryptoProvider) (cs : CipherSuite)
    (h : Kept t) (hm : Looks t m) (hop : Legal t op) :
    ∃ t' m', TreeOp.run t op = .ok t' ∧ RoomSteps P cs t [eventOf op] t' ∧ Kept t' ∧ Step m op m' ∧ Looks t' m' := by
  obtain ⟨t', hr⟩ := C17_progress t op h.inv.size hop
  obtain ⟨_, _, m', hs, hl⟩ := looks_step h.inv.size h.inv.good.leaf hm hop hr
  have hst : TreeStep P cs t (eventOf op) t' := by
    cases op with
    | add leaf => exact ⟨hop.imp id And.right, hr⟩
    | update li leaf => exact ⟨hop, hr⟩
    | remove li => exact ⟨hop, hr⟩
  have hrm : Roomy t (eventOf op) := by
    cases op with
    | add leaf => exact hop.imp id And.left
    | update li leaf => trivial
    | remove li => trivial
  exact ⟨t', m', hr, .cons hst hrm (.nil _), kept_step h hst hrm, hs, hl⟩

theorem updates_run (P : CryptoProvider) (cs : CipherSuite) (us : List (Nat × LeafNode)) {t : RatchetTree}
    {m : Members} (h : Kept t) (hm : Looks t m) (hu : ∀ u ∈ us, m u.1 ≠ none) (hn : (us.map (·.1)).Nodup) :
    ∃ t', us.foldlM (fun t u => t.update u.1 u.2) t = .ok t' ∧
      RoomSteps P cs t (us.map fun u => .update u.1 u.2) t' ∧ Kept t' ∧ t'.length = t.length ∧
      Looks t' (changed m us []) := by
  induction us generalizing t m with
  | nil =>
    refine ⟨t, rfl, .nil t, h, rfl, ?_⟩
    have : changed m [] [] = m := by funext i; simp [changed]
    rw [this]; exact hm
  | cons u us ih =>
    have hmem : t.get (2 * u.1) ≠ none := fun hc =>
      hu u (List.mem_cons_self ..) ((looks_none h.inv.size h.inv.good.leaf hm _).1 hc)
    obtain ⟨t1, m1, h1, h2, h3, h4, h5⟩ := run_kept (op := .update u.1 u.2) P cs h hm hmem
    rw [List.map_cons, List.nodup_cons] at hn
    obtain ⟨t2, h6, h7, h8, h9, h10⟩ := ih h3 h5 (fun v hv => by
      cases h4
      unfold Members.put
      have : v.1 ≠ u.1 := fun hc => hn.1 (hc ▸ List.mem_map_of_mem hv)
      rw [if_neg this]
      exact hu v (List.mem_cons_of_mem _ hv)) hn.2
    refine ⟨t2, ?_, h2.append h7, h8, ?_, ?_⟩
    · rw [List.foldlM_cons]
      show (TreeOp.run t (.update u.1 u.2) >>= _) = _
      rw [h1]; exact h6
    · obtain ⟨K, hK, _⟩ := h.height (by have := Kept.pos hmem; omega)
      have hKh : IsHeight t.num_leaves K := by rw [hK]; exact pow_isHeight K
      have hlt := Kept.pos hmem
      obtain ⟨t3, ha, hl, _⟩ := update_in (leaf := u.2) (by omega) h.inv.size hKh
        (leaf_in_tree (by omega) h.inv.size hKh hlt)
      have h1' : t.update u.1 u.2 = .ok t1 := h1
      rw [ha] at h1'; cases h1'
      omega
    · have : changed m1 us [] = changed m (u :: us) [] := by
        cases h4
        funext i
        obtain ⟨a, b⟩ := u
        simp only [changed, List.lookup, List.not_mem_nil, if_false, Members.put]
        by_cases hi : i = a
        · subst hi
          have : us.lookup i = none := by
            rw [List.lookup_eq_none_iff]
            intro p hp
            have : p.1 ≠ i := fun hc => hn.1 (List.mem_map.2 ⟨p, hp, hc⟩)
            simpa using fun hc => this hc.symm
          simp [this]
        · have hb : (i == a) = false := by simpa using hi
          simp only [hb, if_neg hi]
      rw [← this]; exact h10

theorem removes_run (P : CryptoProvider) (cs : CipherSuite) (rs : List Nat) {t : RatchetTree}
    {m : Members} (h : Kept t) (hm : Looks t m) (hr : ∀ r ∈ rs, m r ≠ none) (hn : rs.Nodup) :
    ∃ t', rs.foldlM (fun t li => t.remove li) t = .ok t' ∧
      RoomSteps P cs t (rs.map .remove) t' ∧ Kept t' ∧ Looks t' (changed m [] rs) := by
  induction rs generalizing t m with
  | nil =>
    refine ⟨t, rfl, .nil t, h, ?_⟩
    have : changed m [] [] = m := by funext i; simp [changed]
    rw [this]; exact hm
  | cons r rs ih =>
    have hmem : t.get (2 * r) ≠ none := fun hc =>
      hr r (List.mem_cons_self ..) ((looks_none h.inv.size h.inv.good.leaf hm _).1 hc)
    obtain ⟨t1, m1, h1, h2, h3, h4, h5⟩ := run_kept (op := .remove r) P cs h hm hmem
    rw [List.nodup_cons] at hn
    obtain ⟨t2, h6, h7, h8, h10⟩ := ih h3 h5 (fun v hv => by
      cases h4
      unfold Members.put
      have : v ≠ r := fun hc => hn.1 (hc ▸ hv)
      rw [if_neg this]
      exact hr v (List.mem_cons_of_mem _ hv)) hn.2
    refine ⟨t2, ?_, h2.append h7, h8, ?_⟩
    · rw [List.foldlM_cons]
      show (TreeOp.run t (.remove r) >>= _) = _
      rw [h1]; exact h6
    · have : changed m1 [] rs = changed m [] (r :: rs) := by
        cases h4
        funext i
        simp only [changed, List.lookup, List.mem_cons, Members.put]
        by_cases hi : i = r <;> by_cases hj : i ∈ rs <;> simp [hi, hj]
      rw [← this]; exact h10

/-! ### adding -/

theorem free_put {m : Members} {j : Nat} {v : LeafNode} (hj : m j = none) : ∀ n, j < n →
    freeBelow (m.put j (some v)) n + 1 = freeBelow m n := by
  have low : ∀ n, n ≤ j → freeBelow (m.put j (some v)) n = freeBelow m n := by
    intro n
    induction n with
    | zero => intro _; rfl
    | succ n ih =>
      intro hn
      unfold freeBelow
      rw [ih (by omega)]
      have : m.put j (some v) n = m n := if_neg (by omega)
      rw [this]
  intro n
  induction n with
  | zero => intro h; omega
  | succ n ih =>
    intro hn
    unfold freeBelow
    by_cases h : j = n
    · subst h
      rw [low _ (Nat.le_refl _)]
      simp [Members.put, hj]
    · have := ih (by omega)
      unfold Members.put at this ⊢
      rw [if_neg (by omega : ¬ n = j)]
      omega

theorem free_exists {m : Members} : ∀ n, 0 < freeBelow m n → ∃ j, j < n ∧ m j = none := by
  intro n
  induction n with
  | zero => intro h; simp [freeBelow] at h
  | succ n ih =>
    intro h
    by_cases hn : m n = none
    · exact ⟨n, by omega, hn⟩
    · unfold freeBelow at h
      rw [if_neg hn] at h
      obtain ⟨j, h1, h2⟩ := ih h
      exact ⟨j, by omega, h2⟩

theorem placed_cons {m m1 m' : Members} {leaf : LeafNode} {leaves : List LeafNode} {js : List Nat}
    (hs : Step m (.add leaf) m1) (hp : PlacedAt m1 leaves js m') : ∃ j, PlacedAt m (leaf :: leaves) (j :: js) m' := by
  obtain ⟨j, h1, h2, rfl⟩ := hs
  have hpj : m.put j (some leaf) j = some leaf := by simp [Members.put]
  have hlt : ∀ k ∈ js, j < k := by
    intro k hk
    have hf := hp.free k hk
    refine Decidable.byContradiction fun hc => ?_
    unfold Members.put at hf
    by_cases hkj : k = j
    · rw [if_pos hkj] at hf; cases hf
    · rw [if_neg hkj] at hf
      exact h2 k (by omega) hf
  have hnj : j ∉ js := fun hc => Nat.lt_irrefl _ (hlt j hc)
  refine ⟨j, by simp [hp.length], List.pairwise_cons.2 ⟨hlt, hp.increasing⟩, ?_, ?_, ?_, ?_⟩
  · intro k hk
    rcases List.mem_cons.1 hk with rfl | hk
    · exact h1
    · have hf := hp.free k hk
      unfold Members.put at hf
      rwa [if_neg (by have := hlt k hk; omega)] at hf
  · intro p hpm
    rw [List.zip_cons_cons] at hpm
    rcases List.mem_cons.1 hpm with rfl | hpm
    · rw [hp.others j hnj]; exact hpj
    · exact hp.there p hpm
  · intro i hi
    rw [List.mem_cons, not_or] at hi
    rw [hp.others i hi.2]
    unfold Members.put
    rw [if_neg hi.1]
  · intro k hk i hi
    rcases List.mem_cons.1 hk with rfl | hk
    · rw [hp.others i (fun hc => by have := hlt i hc; omega)]
      unfold Members.put
      rw [if_neg (by omega)]
      exact h2 i hi
    · exact hp.leftmost k hk i hi

/-- There is room for `n` members: enough free places in the array, or the array can grow. -/
def HasRoom (t : RatchetTree) (m : Members) (n : Nat) : Prop :=
  n ≤ freeBelow m ((t.length + 1) / 2) ∨
    t.length % 2 = 1 ∧ ∃ B, (∀ i, B ≤ i → m i = none) ∧ 2 * (B + n) ≤ 2 ^ 31

theorem adds_run (P : CryptoProvider) (cs : CipherSuite) (ls : List LeafNode) {t : RatchetTree}
    {m : Members} (h : Kept t) (hm : Looks t m) (hr : HasRoom t m ls.length) :
    ∃ t' m' js, ls.foldlM (fun t l => t.add l) t = .ok t' ∧
      RoomSteps P cs t (ls.map .add) t' ∧ Kept t' ∧ Looks t' m' ∧ PlacedAt m ls js m' := by
  induction ls generalizing t m with
  | nil => exact ⟨t, m, [], rfl, .nil t, h, hm, rfl, .nil, nofun, nofun, fun _ _ => rfl, nofun⟩
  | cons l ls ih =>
    have hno := looks_none h.inv.size h.inv.good.leaf hm
    have key : ∃ t1 m1, TreeOp.run t (.add l) = .ok t1 ∧ RoomSteps P cs t [.add l] t1 ∧ Kept t1 ∧
        Step m (.add l) m1 ∧ Looks t1 m1 ∧ HasRoom t1 m1 ls.length := by
      rcases hr with hr | ⟨ho, B, hB, hs⟩
      · rw [List.length_cons] at hr
        obtain ⟨j, hj1, hj2⟩ := free_exists _ (by omega : 0 < freeBelow m ((t.length + 1) / 2))
        have hf : ∃ j, 2 * j < t.length ∧ t.get (2 * j) = none := ⟨j, by omega, (hno j).2 hj2⟩
        obtain ⟨t1, m1, h1, h2, h3, h4, h5⟩ := run_kept (op := .add l) P cs h hm (.inl hf)
        refine ⟨t1, m1, h1, h2, h3, h4, h5, .inl ?_⟩
        have hl : t1.length = t.length := by
          obtain ⟨j0, hj0⟩ := hf
          obtain ⟨j, g1, g2, g3⟩ := least_free hj0
          obtain ⟨K, hK, _⟩ := h.height (by omega)
          obtain ⟨t3, ha, hl, _⟩ := add_free (leaf := l) h.inv.size (by rw [hK]; exact pow_isHeight K) g1 g2 g3
          have h1' : t.add l = .ok t1 := h1
          rw [ha] at h1'; cases h1'
          exact hl
        obtain ⟨k, hk1, hk2, rfl⟩ := h4
        have hkj : k ≤ j := Nat.le_of_not_lt fun hc => hk2 j hc hj2
        have := free_put (v := l) hk1 ((t.length + 1) / 2) (by omega)
        rw [hl]; omega
      · rw [List.length_cons] at hs
        have hstep : ∀ m1, Step m (.add l) m1 → ∃ B, (∀ i, B ≤ i → m1 i = none) ∧ 2 * (B + ls.length) ≤ 2 ^ 31 := by
          rintro m1 ⟨k, hk1, hk2, rfl⟩
          refine ⟨B + 1, fun i hi => ?_, by omega⟩
          have : k ≤ B := Nat.le_of_not_lt fun hc => hk2 B hc (hB B (Nat.le_refl _))
          unfold Members.put
          rw [if_neg (by omega)]
          exact hB i (by omega)
        by_cases hf : ∃ j, 2 * j < t.length ∧ t.get (2 * j) = none
        · obtain ⟨t1, m1, h1, h2, h3, h4, h5⟩ := run_kept (op := .add l) P cs h hm (.inl hf)
          refine ⟨t1, m1, h1, h2, h3, h4, h5, .inr ⟨?_, hstep m1 h4⟩⟩
          obtain ⟨j0, hj0⟩ := hf
          obtain ⟨j, g1, g2, g3⟩ := least_free hj0
          obtain ⟨K, hK, _⟩ := h.height (by omega)
          obtain ⟨t3, ha, hl, _⟩ := add_free (leaf := l) h.inv.size (by rw [hK]; exact pow_isHeight K) g1 g2 g3
          have h1' : t.add l = .ok t1 := h1
          rw [ha] at h1'; cases h1'
          omega
        · have hfull : ∀ i, i < (t.length + 1) / 2 → t.get (2 * i) ≠ none := fun i hi hc => hf ⟨i, by omega, hc⟩
          have hBL : (t.length + 1) / 2 ≤ B := Nat.le_of_not_lt fun hc =>
            hfull B hc ((hno B).2 (hB B (Nat.le_refl _)))
          have h31 : t.length < 2 ^ 31 := by omega
          obtain ⟨t1, m1, h1, h2, h3, h4, h5⟩ := run_kept (op := .add l) P cs h hm (.inr ⟨ho, h31⟩)
          refine ⟨t1, m1, h1, h2, h3, h4, h5, .inr ⟨?_, hstep m1 h4⟩⟩
          obtain ⟨K, hK⟩ := exists_height (n := 2 * ((t.length + 1) / 2)) (by omega)
          obtain ⟨t3, ha, hl, _⟩ := add_grow (leaf := l) (by omega) (by omega) h31 hK hfull
          have h1' : t.add l = .ok t1 := h1
          rw [ha] at h1'; cases h1'
          omega
    obtain ⟨t1, m1, h1, h2, h3, h4, h5, h6⟩ := key
    obtain ⟨t2, m2, js, g1, g2, g3, g4, g5⟩ := ih h3 h5 h6
    obtain ⟨j, hp⟩ := placed_cons h4 g5
    refine ⟨t2, m2, j :: js, ?_, h2.append g2, g3, g4, hp⟩
    rw [List.foldlM_cons]
    show (TreeOp.run t (.add l) >>= _) = _
    rw [h1]; exact g1

/-- The array of a kept tree has room for as many leaves as the capacity says. -/
theorem Kept.capacity {t : RatchetTree} {m : Members} {n : Nat} (h : Kept t) (hm : Looks t m) (h0 : 0 < t.length)
    (hc : Capacity m n) : (t.length + 1) / 2 = n := by
  obtain ⟨K, _, hlen, j, hj1, hj2, hj3⟩ := h.height h0
  have hno := looks_none h.inv.size h.inv.good.leaf hm
  have h2 : 2 ^ (K + 1) = 2 * 2 ^ K := by rw [Nat.pow_succ]; omega
  have hpos := Nat.two_pow_pos K
  have he : (t.length + 1) / 2 = 2 ^ K := by omega
  rw [he]
  clear he
  obtain ⟨⟨M, rfl⟩, hc2, hc3⟩ := hc
  congr 1
  have hjM : j < 2 ^ M := Nat.lt_of_not_le fun hc => hj3 ((hno j).2 (hc2 j hc))
  refine Nat.le_antisymm ?_ ?_
  · refine Nat.le_of_not_lt fun hlt => ?_
    have : 2 ^ (M + 1) ≤ 2 ^ K := Nat.pow_le_pow_right (by omega) (by omega)
    rw [Nat.pow_succ] at this
    omega
  · refine Nat.le_of_not_lt fun hlt => ?_
    rcases hc3 with hc3 | ⟨i, hi1, hi2⟩
    · have : 2 ^ 1 ≤ 2 ^ M := Nat.pow_le_pow_right (by omega) (by omega)
      omega
    · have : 2 ^ (K + 1) ≤ 2 ^ M := Nat.pow_le_pow_right (by omega) (by omega)
      exact hi2 ((hno i).1 (get_out (by omega)))

/-! ### the lists of a commit -/

theorem updates_sub : ∀ qs : List (Proposal × LeafIndex),
    ((updatesOf qs).map (·.1)).Sublist ((qs.filterMap touchedLeaf).map UInt32.toNat) := by
  intro qs
  induction qs with
  | nil => exact .slnil
  | cons q qs ih =>
    obtain ⟨p, s⟩ := q
    cases p <;> simp only [updatesOf, List.filterMap_cons, touchedLeaf, List.map_cons]
    case Update => exact ih.cons_cons _
    case Remove => exact ih.cons _
    all_goals exact ih

theorem removes_sub : ∀ (ps : List Proposal) (ss : List LeafIndex), ps.length = ss.length →
    (removesOf ps).Sublist (((ps.zip ss).filterMap touchedLeaf).map UInt32.toNat) := by
  intro ps
  induction ps with
  | nil => intro ss _; exact List.nil_sublist _
  | cons p ps ih =>
    intro ss hl
    cases ss with
    | nil => cases hl
    | cons s ss =>
      have := ih ss (by simpa using hl)
      cases p <;> simp only [removesOf, List.zip_cons_cons, List.filterMap_cons, touchedLeaf, List.map_cons]
      case Update => exact this.cons _
      case Remove => exact this.cons_cons _
      all_goals exact this

/-- The events of a commit: its updates, its removes, its adds. -/
def commitEvents (ps : List Proposal) (ss : List LeafIndex) : List TreeEvent :=
  (updatesOf (ps.zip ss)).map (fun u => .update u.1 u.2) ++ (removesOf ps).map .remove ++ (addsOf ps).map .add

/-- C65: a commit by a member `c`, with proposals that pass the check, that updates and removes only members:
applying it succeeds; the removed are gone, the updated have their new leaf, the new members are at the leftmost
free places in the order of the list, and nobody else changed, the committer in particular.  The tree stays one
of the trees of an honest history.  What is missing is the case that the new members neither fit below the
least power of two above the members that stay, nor is the array of odd length and nobody removed: see
`C65_refuted`. -/
theorem C65_commit_partial (P : CryptoProvider) (cs : CipherSuite) (l : LeafNode) (t : RatchetTree)
    (evs : List TreeEvent) (m : Members) (ps : List Proposal) (ss : List LeafIndex) (c : LeafIndex)
    (hh : RoomSteps P cs [some (.Leaf l)] evs t) (hm : Looks t m)
    (hv : verify_proposal_list ps ss c = .ok ()) (hc : m c.toNat ≠ none)
    (hu : ∀ u ∈ updatesOf (ps.zip ss), m u.1 ≠ none) (hr : ∀ r ∈ removesOf ps, m r ≠ none)
    (hroom : addsOf ps = [] ∨
      (removesOf ps = [] ∧ t.length % 2 = 1 ∧ t.length + 1 + 2 * (addsOf ps).length ≤ 2 ^ 31) ∨
      ∃ n, Capacity (changed m (updatesOf (ps.zip ss)) (removesOf ps)) n ∧
        (addsOf ps).length ≤ freeBelow (changed m (updatesOf (ps.zip ss)) (removesOf ps)) n) :
    ∃ t' m' js, t.apply ps ss = .ok t' ∧ Looks t' m' ∧
      PlacedAt (changed m (updatesOf (ps.zip ss)) (removesOf ps)) (addsOf ps) js m' ∧ m' c.toNat = m c.toNat ∧
      RoomSteps P cs [some (.Leaf l)] (evs ++ commitEvents ps ss) t' := by
  obtain ⟨hlen, hval, _⟩ := (C26_exact ps ss c).1 hv
  have hk := kept_steps (kept_single l) hh
  have hnd : (((ps.zip ss).filterMap touchedLeaf).map UInt32.toNat).Nodup := by
    rw [List.nodup_iff_pairwise_ne, List.pairwise_map]
    exact hval.leaves.imp fun hne he => hne (UInt32.toNat_inj.1 he)
  have hcn : c.toNat ∉ ((ps.zip ss).filterMap touchedLeaf).map UInt32.toNat := by
    rw [List.mem_map]
    rintro ⟨d, hd, he⟩
    exact hval.committer (UInt32.toNat_inj.1 he ▸ hd)
  obtain ⟨t1, h1, h2, h3, h4, h5⟩ := updates_run P cs _ hk hm hu ((updates_sub _).nodup hnd)
  obtain ⟨t2, g1, g2, g3, g4⟩ := removes_run P cs (removesOf ps) h3 h5 (fun r hrm => by
    simp only [changed, List.not_mem_nil, if_false]
    split
    · nofun
    · exact hr r hrm) ((removes_sub ps ss hlen).nodup hnd)
  have hch : changed (changed m (updatesOf (ps.zip ss)) []) [] (removesOf ps) =
      changed m (updatesOf (ps.zip ss)) (removesOf ps) := by
    funext i
    simp only [changed, List.lookup, List.not_mem_nil, if_false]
  rw [hch] at g4
  have hcc : changed m (updatesOf (ps.zip ss)) (removesOf ps) c.toNat = m c.toNat := by
    have e1 : c.toNat ∉ removesOf ps := fun hc => hcn ((removes_sub ps ss hlen).subset hc)
    have e2 : (updatesOf (ps.zip ss)).lookup c.toNat = none := by
      rw [List.lookup_eq_none_iff]
      intro p hp
      have : p.1 ≠ c.toNat := fun he => hcn ((updates_sub _).subset (he ▸ List.mem_map.2 ⟨p, hp, rfl⟩))
      simpa using fun he => this he.symm
    simp only [changed, if_neg e1, e2]
  have hpos : 0 < t2.length := by
    have : t2.get (2 * c.toNat) ≠ none := fun he =>
      hc (hcc ▸ (looks_none g3.inv.size g3.inv.good.leaf g4 _).1 he)
    have := Kept.pos this
    omega
  have hR : HasRoom t2 (changed m (updatesOf (ps.zip ss)) (removesOf ps)) (addsOf ps).length := by
    rcases hroom with h | ⟨e1, e2, e3⟩ | ⟨n, e1, e2⟩
    · rw [h]; exact .inl (Nat.zero_le _)
    · have : t2 = t1 := by
        rw [e1] at g1
        exact (Res.ok.inj g1).symm
      refine .inr ⟨by rw [this, h4]; exact e2, (t.length + 1) / 2, fun i hi => ?_, by omega⟩
      refine (looks_none g3.inv.size g3.inv.good.leaf g4 i).1 (get_out ?_)
      rw [this, h4]; omega
    · left
      rw [g3.capacity g4 hpos e1]
      exact e2
  obtain ⟨t3, m3, js, f1, f2, f3, f4, f5⟩ := adds_run P cs (addsOf ps) g3 g4 hR
  refine ⟨t3, m3, js, ?_, f4, f5, ?_, ?_⟩
  · rw [C28_apply t ps ss (by omega), h1, Res.ok_bind, g1, Res.ok_bind, f1]
  · rw [f5.others _ (fun hj => ?_), hcc]
    have := f5.free _ hj
    rw [hcc] at this
    exact hc this
  · unfold commitEvents
    exact hh.append ((h2.append g2).append f2)

/-- C65, the path of the commit: the committer gets the leaf of the path if the path is accepted; if not, nobody
changes. -/
theorem C65_path (P : CryptoProvider) (cs : CipherSuite) (Hs : Hash) (hP : P.hash cs = .ok Hs) (l : LeafNode) (t : RatchetTree)
    (evs : List TreeEvent) (m : Members) (c : Nat) (path : UpdatePath) (r : Res Unit)
    (t' : RatchetTree) (hh : RoomSteps P cs [some (.Leaf l)] evs t) (hm : Looks t m) (hc : m c ≠ none)
    (hr : t.merge_update_path P cs c path = (t', r)) :
    (r = .ok () → Looks t' (m.put c (some path.leaf_node))) ∧ (r ≠ .ok () → Looks t' m) ∧
    ((∀ f, r ≠ .fault f) → RoomSteps P cs [some (.Leaf l)] (evs ++ [.merge c path]) t') := by
  have hk := kept_steps (kept_single l) hh
  have hmem : t.get (2 * c) ≠ none := fun he => hc ((looks_none hk.inv.size hk.inv.good.leaf hm _).1 he)
  have hlt := Kept.pos hmem
  obtain ⟨K, hK, hlen, _⟩ := hk.height (by omega)
  have hKh : IsHeight t.num_leaves K := by rw [hK]; exact pow_isHeight K
  have hli := leaf_in_tree (by omega) hk.inv.size hKh hlt
  have hsm := unmergedOk_small hk.inv.size hk.inv.good.ok
  obtain ⟨_, h1, _, h3⟩ := merge_frame P cs path (by omega) hk.inv.size hKh hli hsm
  rw [hr] at h1 h3
  dsimp only at h1 h3
  have hsz := hk.inv.size
  have hleaf : r = .ok () → t'.get (2 * c) = some (.Leaf path.leaf_node) := by
    intro he
    subst he
    have := (C22_effect P cs Hs hP t t' K c ⟨hsz, by rw [← room (by omega) hsz]; exact hKh, hlt⟩ path hr).2.2.1
    rwa [node_zero] at this
  have hother : ∀ i, i ≠ c → t'.get (2 * i) = t.get (2 * i) := fun i hi =>
    h1 _ (fun hc => above_odd hc rfl) (by omega)
  refine ⟨fun he => ?_, fun he => ?_, fun hf => ?_⟩
  · refine ⟨fun i hi => ?_, fun i hi => ?_⟩
    · rw [get_leaf_eq hi]
      unfold Members.put
      by_cases hic : i = c
      · subst hic
        rw [if_pos rfl, hleaf he]
      · rw [if_neg hic, hother i hic, ← hm.1 i hi, get_leaf_eq hi]
    · unfold Members.put
      rw [if_neg (by omega)]
      exact hm.2 i hi
  · refine ⟨fun i hi => ?_, hm.2⟩
    have : t'.get (2 * i) = t.get (2 * i) := by
      by_cases hic : i = c
      · subst hic
        rcases h3 with h3 | ⟨h3, _⟩
        · exact h3
        · exact absurd h3 he
      · exact hother i hic
    rw [get_leaf_eq hi, this, ← hm.1 i hi, get_leaf_eq hi]
  · refine hh.append (.cons ⟨hmem, ?_⟩ trivial (.nil _))
    cases r with
    | ok u => exact .inl hr
    | err e => exact .inr ⟨e, hr⟩
    | fault f => exact absurd rfl (hf f)

section examples
private abbrev suite1 : CipherSuite := .MLS_128_DHKEMX25519_AES128GCM_SHA256_Ed25519

private def pkg (k : UInt8) : KeyPackage :=
  { payload := { version := .MLS10, cipher_suite := suite1, init_key := [k], leaf_node := toyLeaf k, extensions := [] }
    signature := [] }

private def two : RatchetTree := [some (.Leaf (toyLeaf 0)), none, some (.Leaf (toyLeaf 1))]

private theorem two_steps : RoomSteps toyProvider suite1 [some (.Leaf (toyLeaf 0))] [.add (toyLeaf 1)] two :=
  .cons ⟨.inr (by decide), rfl⟩ (.inr (by decide)) (.nil _)

/-- C65 fails in general: in a group of two, one commits to replace the other by a third.  The list passes the check,
applying it succeeds, and the third is nowhere in the tree. -/
theorem C65_refuted : ∃ (t t' : RatchetTree) (m : Members) (ps : List Proposal) (ss : List LeafIndex),
    RoomSteps toyProvider suite1 [some (.Leaf (toyLeaf 0))] [.add (toyLeaf 1)] t ∧ Looks t m ∧
    verify_proposal_list ps ss 0 = .ok () ∧ m 0 ≠ none ∧ (∀ r ∈ removesOf ps, m r ≠ none) ∧
    addsOf ps = [toyLeaf 2] ∧ t.apply ps ss = .ok t' ∧ ∀ i, t'.get_leaf i ≠ .ok (some (toyLeaf 2)) := by
  obtain ⟨m, hm⟩ := looks_some two
  have hn := looks_none (t := two) (by decide) (kept_steps (kept_single _) two_steps).inv.good.leaf hm
  refine ⟨two, _, m, [.Remove ⟨1⟩, .Add ⟨pkg 2⟩], [0, 0], two_steps, hm, by decide, ?_, ?_, rfl, rfl, ?_⟩
  · exact fun he => absurd ((hn 0).2 he) (by decide)
  · intro r hr
    simp only [removesOf, List.mem_cons, List.not_mem_nil, or_false] at hr
    subst hr
    exact fun he => absurd ((hn 1).2 he) (by decide)
  · obtain ⟨t', h1, h2⟩ := C13_add_even_refuted [some (.Leaf (toyLeaf 0)), none] (toyLeaf 2) 1 (by decide) rfl
      (by decide) (by intro i hi; have : i = 0 := by omega
                      subst this; decide)
    intro i
    cases h1
    refine fun hc => absurd ((h2 i).symm.trans hc) ?_
    by_cases hi : i < 2 ^ 31
    · rw [get_leaf_eq hi]
      by_cases h0 : i = 0
      · subst h0; simp [RatchetTree.get, toyLeaf]
      · rw [get_out (by simp; omega)]; simp
    · unfold get_leaf
      rw [node_index_panic (by omega)]
      simp

private def four : RatchetTree := two ++ [none, some (.Leaf (toyLeaf 2)), none, some (.Leaf (toyLeaf 3))]

private theorem four_steps : RoomSteps toyProvider suite1 [some (.Leaf (toyLeaf 0))]
    [.add (toyLeaf 1), .add (toyLeaf 2), .add (toyLeaf 3)] four :=
  .cons ⟨.inr (by decide), rfl⟩ (.inr (by decide)) <| .cons ⟨.inr (by decide), rfl⟩ (.inr (by decide)) <|
  .cons ⟨.inr (by decide), rfl⟩ (.inr (by decide)) (.nil _)

/-- The hypotheses of `C65_commit_partial` are met: in a group of four, one commits to remove the second, to an update
by the fourth and to a new member, who gets the second place. -/
example : ∃ (m : Members) (ps : List Proposal) (ss : List LeafIndex) (n : Nat), Looks four m ∧
    verify_proposal_list ps ss 0 = .ok () ∧ m 0 ≠ none ∧
    (∀ u ∈ updatesOf (ps.zip ss), m u.1 ≠ none) ∧ (∀ r ∈ removesOf ps, m r ≠ none) ∧
    Capacity (changed m (updatesOf (ps.zip ss)) (removesOf ps)) n ∧
    (addsOf ps).length ≤ freeBelow (changed m (updatesOf (ps.zip ss)) (removesOf ps)) n ∧
    ∃ t', four.apply ps ss = .ok t' ∧ t'.get 2 = some (.Leaf (toyLeaf 9)) ∧ t'.get 6 = some (.Leaf (toyLeaf 7)) := by
  obtain ⟨m, hm⟩ := looks_some four
  have hn := looks_none (t := four) (by decide) (kept_steps (kept_single _) four_steps).inv.good.leaf hm
  have hmem : ∀ i, four.get (2 * i) ≠ none → m i ≠ none := fun i h he => h ((hn i).2 he)
  refine ⟨m, [.Add ⟨pkg 9⟩, .Update ⟨toyLeaf 7⟩, .Remove ⟨1⟩], [0, 3, 2], 4, hm, by decide, hmem 0 (by decide), ?_, ?_,
    ⟨⟨2, rfl⟩, ?_, .inr ⟨2, by decide, ?_⟩⟩, ?_, _, rfl, rfl, rfl⟩
  · intro u hu
    simp only [List.zip_cons_cons, updatesOf, List.zip_nil_left, List.mem_cons, List.not_mem_nil, or_false] at hu
    subst hu
    exact hmem 3 (by decide)
  · intro r hr
    simp only [removesOf, List.mem_cons, List.not_mem_nil, or_false] at hr
    subst hr
    exact hmem 1 (by decide)
  · intro i hi
    have h1 : i ≠ 1 := by omega
    have h3 : (i == 3) = false := by simp; omega
    simp only [changed, removesOf, List.zip_cons_cons, updatesOf, List.zip_nil_left]
    rw [if_neg (by simpa using h1)]
    simp only [List.lookup, show UInt32.toNat 3 = 3 from rfl, h3]
    exact (hn i).1 (get_out (by simp [four, two]; omega))
  · simp only [changed, removesOf, List.zip_cons_cons, updatesOf, List.zip_nil_left]
    rw [if_neg (by decide)]
    exact hmem 2 (by decide)
  · simp only [addsOf, List.length_cons, List.length_nil, freeBelow]
    rw [if_pos (show changed m _ _ 1 = none from if_pos (by simp [removesOf]))]
    omega

end examples
end Rmls
