import Verif.Proofs.PathSize
/-
C115: how much a commit has to encrypt.
-/
namespace Rmls
open Spec RatchetTree

private abbrev suite1 : CipherSuite := .MLS_128_DHKEMX25519_AES128GCM_SHA256_Ed25519

private theorem siblings_range (j : Nat) : ∀ d k, siblings k (j / 2 ^ k) d = (List.range d).map fun e => (k + e, sib j (k + e))
  | 0, _ => rfl
  | d + 1, k => by
    rw [siblings, List.range_succ_eq_map, List.map_cons, List.map_map]
    refine congrArg (_ :: ·) ?_
    rw [Nat.div_div_eq_div_mul, ← Nat.pow_succ, siblings_range j d (k + 1)]
    refine List.map_congr_left fun e _ => ?_
    simp only [Function.comp]
    rw [show k + 1 + e = k + (e + 1) by omega]

private theorem sib_room {K li k : Nat} (h : li < 2 ^ K) (hk : k < K) : 2 ^ k * (2 * sib li k + 1) < 2 ^ (K + 1) := by
  have h2 : (2 * sib li k + 1) < 2 ^ (K - k + 1) := by
    have h3 : li / 2 ^ k < 2 ^ (K - k) := by
      rw [Nat.div_lt_iff_lt_mul (Nat.two_pow_pos k), ← Nat.pow_add, Nat.sub_add_cancel (by omega)]; exact h
    have h4 : 2 ^ (K - k + 1) = 2 * 2 ^ (K - k) := by rw [Nat.pow_succ]; omega
    have h5 : 2 ^ (K - k) = 2 * 2 ^ (K - k - 1) := by rw [← Nat.pow_succ']; congr 1; omega
    have h6 := Nat.two_pow_pos (K - k - 1)
    unfold sib siblingPos
    generalize li / 2 ^ k = a at *
    split <;> omega
  rw [show K + 1 = k + (K - k + 1) by omega, Nat.pow_add]
  exact Nat.mul_lt_mul_of_pos_left h2 (Nat.two_pow_pos k)

private theorem input {t : RatchetTree} (h : Kept t) {li K : Nat} (hm : t.get (2 * li) ≠ none)
    (hK : IsHeight ((t.length + 1) / 2) K) : MergeInput t K li := by
  have hlt := Kept.pos hm
  have hsz := h.inv.size
  obtain ⟨K', hK', hlen, _⟩ := h.height (by omega)
  have hKh : IsHeight t.num_leaves K := by rw [room (by omega) hsz]; exact hK
  have hKK : K' = K := by
    have h1 := pow_isHeight K'
    rw [← hK'] at h1
    exact isHeight_unique h1 hKh
  subst hKK
  refine ⟨⟨hsz, hK, by omega⟩, fun x p hx u hu => ?_⟩
  obtain ⟨k, i, rfl⟩ := node_surj x
  obtain ⟨_, l, hl⟩ := h.inv.good.mem k i p hx u hu
  have := lt_of_get hl
  rw [node_zero] at this
  omega

/-- C115, the code: the copath has one node for each level, each can be resolved, and together the resolutions are as
long as the specification says. -/
theorem C115_code (t : RatchetTree) (K li : Nat) (h : MergeInput t K li) :
    ∃ cp, NumLeaves.copath t.num_leaves (2 * li) = .ok cp ∧ cp.length = K ∧ (∀ x ∈ cp, ∃ l, t.resolve x = .ok l) ∧
      (cp.map fun x => match t.resolve x with | .ok l => l.length | _ => 0).sum = ciphertexts t.get K li := by
  have hn := h.numHeight
  obtain ⟨a, b, c⟩ := num_leaves_bounds h.nonempty h.size
  have := isHeight_unique hn (isHeight_height a)
  subst this
  have hli := h.sender
  have hcp := NumLeaves.copath_inTree (k := 0) (i := li) a b ⟨Nat.zero_le _, hli⟩
  have hres : ∀ k, k < NumLeaves.height t.num_leaves → t.resolve (node k (sib li k)) = .ok (resolution t.get k (sib li k)) := by
    intro k hk
    refine C18_resolve_small t k _ ?_ h.small
    have h1 := node_add_one k (sib li k)
    have h6 := sib_room hli hk
    have hK32 := hn.2 31 b
    have : 2 ^ (NumLeaves.height t.num_leaves + 1) ≤ 2 ^ 32 := Nat.pow_le_pow_right (by omega) (by omega)
    omega
  refine ⟨_, by rw [← node_zero]; exact hcp, ?_, ?_, ?_⟩
  · have := siblings_range li (NumLeaves.height t.num_leaves) 0
    rw [Nat.pow_zero, Nat.div_one] at this
    rw [Nat.sub_zero, this]
    simp
  · intro x hx
    have := siblings_range li (NumLeaves.height t.num_leaves) 0
    rw [Nat.pow_zero, Nat.div_one] at this
    rw [Nat.sub_zero, this] at hx
    simp only [List.map_map, List.mem_map, List.mem_range, Function.comp, Nat.zero_add] at hx
    obtain ⟨k, hk, rfl⟩ := hx
    exact ⟨_, hres k hk⟩
  · have := siblings_range li (NumLeaves.height t.num_leaves) 0
    rw [Nat.pow_zero, Nat.div_one] at this
    rw [Nat.sub_zero, this]
    unfold ciphertexts
    rw [List.map_map, List.map_map]
    refine congrArg List.sum (List.map_congr_left fun k hk => ?_)
    simp only [Function.comp, Nat.zero_add]
    rw [hres k (List.mem_range.1 hk)]

/-- C115, no more than there are others: in every history a path of a member takes no more ciphertexts than there are
other members. -/
theorem C115_members (P : CryptoProvider) (cs : CipherSuite) (l : LeafNode) (t : RatchetTree) (evs : List TreeEvent)
    (K li : Nat) (hs : RoomSteps P cs [some (.Leaf l)] evs t) (hm : t.get (2 * li) ≠ none)
    (hK : IsHeight ((t.length + 1) / 2) K) : ciphertexts t.get K li + 1 ≤ memberCount t.get K := by
  obtain ⟨hk, ha⟩ := alive_steps (kept_single l) (alive_single l) hs
  have hi := input hk hm hK
  let f : Nat → Nat := fun x => if (decide (x % 2 = 0) && (t.get x).isSome) then 1 else 0
  have hf : ∀ j, t.get (node 0 j) ≠ none → 0 < f (node 0 j) := by
    intro j hj
    have : (decide (node 0 j % 2 = 0) && (t.get (node 0 j)).isSome) = true := by
      rw [Option.isSome_iff_ne_none.2 hj, node_zero]
      simp
    simp only [f, this, if_true]
    omega
  have h1 := sumBelow_path f li K
  rw [Nat.div_eq_of_lt hi.sender, sumBelow_root] at h1
  have h2 : ((List.range (2 ^ (K + 1) - 1)).map f).sum = memberCount t.get K := by
    rw [← sumFrom_eq]
    exact sumFrom_filter _ _
  have h3 := hf li (by rw [node_zero]; exact hm)
  have h4 := sum_le_sum (f := fun k => (resolution t.get k (sib li k)).length)
    (g := fun k => f (anc li (k + 1)) + sumBelow f k (sib li k)) (fun k => by
      have := resolution_le_members hk.inv.good.leaf hk.inner hk.inv.good.ok ha f hf k (sib li k)
      omega) (List.range K)
  unfold ciphertexts
  omega

/-- C115, what blanks and late joiners cost: one ciphertext for each level, and no more than one more for each blank
parent and for each entry of a list of unmerged leaves. -/
theorem C115_blanks (nodes : Nat → Option Node) (K li : Nat) (h : li < 2 ^ K) :
    ciphertexts nodes K li ≤ K + blankCount nodes K + unmergedCount nodes K := by
  let b : Nat → Nat := fun x => if (decide (x % 2 = 1) && (nodes x).isNone) then 1 else 0
  let u : Nat → Nat := fun x => unmergedAt (nodes x)
  have h0 := fun k i => resolution_le_blanks nodes (fun x => b x + u x) (fun k i hn => by
    have : (decide (node (k + 1) i % 2 = 1) && (nodes (node (k + 1) i)).isNone) = true := by
      have := node_add_one (k + 1) i
      rw [Nat.pow_succ, Nat.mul_assoc, Nat.mul_left_comm] at this
      rw [hn, decide_eq_true (by omega)]
      rfl
    simp only [b, this, if_true]
    omega) (fun x => Nat.le_add_left _ _) k i
  have h1 := sumBelow_path (fun x => b x + u x) li K
  rw [Nat.div_eq_of_lt h] at h1
  have h2 : sumBelow (fun x => b x + u x) K 0 = blankCount nodes K + unmergedCount nodes K := by
    unfold sumBelow
    rw [sumFrom_plus, Nat.zero_mul, sumFrom_filter, sumFrom_eq]
    rfl
  have h3 := sum_le_sum (f := fun k => (resolution nodes k (sib li k)).length)
    (g := fun k => 1 + ((b (anc li (k + 1)) + u (anc li (k + 1))) + sumBelow (fun x => b x + u x) k (sib li k))) (fun k => by
      have := h0 k (sib li k)
      omega) (List.range K)
  rw [sum_add_one, List.length_range] at h3
  unfold ciphertexts
  omega

/-- C115, at least one for each node of the path. -/
theorem C115_least (nodes : Nat → Option Node) (K li : Nat) :
    (filteredLevels nodes K li).length ≤ ciphertexts nodes K li := by
  unfold filteredLevels ciphertexts
  rw [List.length_map]
  induction List.range K with
  | nil => exact Nat.le_refl _
  | cons k ks ih =>
    rw [List.filter_cons, List.map_cons, List.sum_cons]
    split
    · rename_i h
      rw [List.length_cons]
      have : (resolution nodes k (sib li k)).length ≠ 0 := by
        intro hc
        rw [List.length_eq_zero_iff.1 hc] at h
        simp at h
      omega
    · omega

/-- C115, the best case: with every slot taken and everyone merged a path takes one ciphertext for each level. -/
theorem C115_full (nodes : Nat → Option Node) (K li : Nat) (h : li < 2 ^ K)
    (hf : ∀ x, x < 2 ^ (K + 1) - 1 → nodes x ≠ none)
    (hu : ∀ x p, x < 2 ^ (K + 1) - 1 → nodes x = some (.Parent p) → p.unmerged_leaves = []) :
    ciphertexts nodes K li = K ∧ (filteredLevels nodes K li).length = K := by
  have hb : blankCount nodes K = 0 := by
    unfold blankCount
    rw [List.length_eq_zero_iff, List.filter_eq_nil_iff]
    intro x hx
    have := hf x (List.mem_range.1 hx)
    cases hn : nodes x with
    | none => exact absurd hn this
    | some n => simp
  have hu0 : unmergedCount nodes K = 0 := by
    unfold unmergedCount
    have : ∀ l : List Nat, (∀ x ∈ l, x < 2 ^ (K + 1) - 1) → (l.map fun x => unmergedAt (nodes x)).sum = 0 := by
      intro l
      induction l with
      | nil => intro _; rfl
      | cons x l ih =>
        intro hl
        rw [List.map_cons, List.sum_cons, ih fun y hy => hl y (List.mem_cons_of_mem _ hy)]
        have hx := hl x List.mem_cons_self
        cases hn : nodes x with
        | none => rfl
        | some n =>
          cases n with
          | Leaf l => rfl
          | Parent p => simp [unmergedAt, hu x p hx hn]
    exact this _ fun x hx => List.mem_range.1 hx
  have h1 := C115_blanks nodes K li h
  have h2 := C115_least nodes K li
  have h3 : (filteredLevels nodes K li).length = K := by
    unfold filteredLevels
    rw [List.length_map, List.filter_eq_self.2, List.length_range]
    intro k hk
    have hk := List.mem_range.1 hk
    have hlt : node k (sib li k) < 2 ^ (K + 1) - 1 := by
      have h4 := node_add_one k (sib li k)
      have h5 := sib_room h hk
      omega
    cases hn : nodes (node k (sib li k)) with
    | none => exact absurd hn (hf _ hlt)
    | some n => rw [resolution_some hn]; cases n <;> rfl
  exact ⟨by omega, h3⟩

/-- C115, a commit clears the way: after a path from a member has been merged, any ancestor of that member resolves to
one node, so that to reach all below it takes one ciphertext. -/
theorem C115_merged (P : CryptoProvider) (cs : CipherSuite) (Hs : Hash) (hP : P.hash cs = .ok Hs)
    (t t' : RatchetTree) (K li : Nat) (h : MergeInput t K li) (path : UpdatePath)
    (hm : t.merge_update_path P cs li path = (t', .ok ())) (k : Nat) (hk : k ≤ K) :
    (resolution t'.get k (li / 2 ^ k)).length = 1 := by
  obtain ⟨_, _, h3, h4, h5, h6⟩ := C22_effect P cs Hs hP t t' K li h.toMergePlace path hm
  induction k with
  | zero =>
    rw [Nat.pow_zero, Nat.div_one, resolution_some h3]
    rfl
  | succ k ih =>
    by_cases hc : k + 1 ∈ filteredLevels t.get K li
    · obtain ⟨i, hi, he⟩ := List.getElem_of_mem hc
      obtain ⟨n, ph, _, hn⟩ := h4 i (k + 1) (by rw [List.getElem?_eq_getElem hi, he])
      unfold anc at hn
      rw [resolution_some hn]
      rfl
    · have hn := h5 (k + 1) (by omega) hk hc
      have hz : resolution t.get k (sib li k) = [] := by
        apply Classical.byContradiction
        intro hz
        exact hc (filteredLevels_mem.2 ⟨by omega, hk, hz⟩)
      have hz' : resolution t'.get k (sib li k) = [] := by
        rw [← hz]
        refine resolution_congr fun x hx => ?_
        refine h6 x (fun ha => ?_) (fun hx0 => ?_)
        · obtain ⟨l, _, _, hl⟩ := ha
          exact sib_disjoint hx hl
        · exact sib_disjoint (l := 0) hx (by rw [hx0]; unfold anc; simp)
      unfold anc at hn
      rw [resolution_none_succ hn, List.length_append]
      have ih := ih (by omega)
      have hd : li / 2 ^ (k + 1) = li / 2 ^ k / 2 := by rw [Nat.pow_succ, Nat.div_div_eq_div_mul]
      unfold sib siblingPos at hz'
      rw [hd]
      generalize li / 2 ^ k = a at *
      split at hz'
      · rw [show 2 * (a / 2) = a by omega, ih, hz']; rfl
      · rw [show 2 * (a / 2) = a - 1 by omega, show a - 1 + 1 = a by omega, ih, hz']; rfl

private def four : RatchetTree :=
  [some (.Leaf (signedLeaf 0 .Update)), none, some (.Leaf (signedLeaf 1 .Update)), none,
   some (.Leaf (signedLeaf 2 .Update)), none, some (.Leaf (signedLeaf 3 .Update))]

/-- The hypotheses of `C115_code` and `C115_members` are met, and the bound is reached: four members and no parent keys
take three ciphertexts. -/
example : RoomSteps sumProvider suite1 [some (.Leaf (signedLeaf 0 .Update))]
      [.add (signedLeaf 1 .Update), .add (signedLeaf 2 .Update), .add (signedLeaf 3 .Update)] four ∧
    four.get 2 ≠ none ∧ IsHeight ((four.length + 1) / 2) 2 ∧ MergeInput four 2 1 ∧
    ciphertexts four.get 2 1 = 3 ∧ memberCount four.get 2 = 4 ∧ blankCount four.get 2 = 3 := by
  have hs : RoomSteps sumProvider suite1 [some (.Leaf (signedLeaf 0 .Update))]
      [.add (signedLeaf 1 .Update), .add (signedLeaf 2 .Update), .add (signedLeaf 3 .Update)] four :=
    .cons ⟨.inr (by decide), rfl⟩ (.inr (by decide)) <| .cons ⟨.inr (by decide), rfl⟩ (.inr (by decide)) <|
    .cons ⟨.inr (by decide), rfl⟩ (.inr (by decide)) (.nil _)
  have hK : IsHeight ((four.length + 1) / 2) 2 := pow_isHeight 2
  exact ⟨hs, by decide, hK, input (kept_steps (kept_single _) hs) (by decide) hK, by decide, by decide, by decide⟩

/-- After a path of the first, and a fourth who joins later: the fourth needs two ciphertexts, for the left half has a
key; the first needs three, for the right half has none. -/
example : ciphertexts sumFour.get 2 3 = 2 ∧ ciphertexts sumFour.get 2 0 = 3 ∧ unmergedCount sumFour.get 2 = 1 ∧
    (filteredLevels sumFour.get 2 0).length = 2 ∧ resolution sumFour.get 2 0 = [3, 6] := by decide

/-- The hypotheses of `C115_full` are met. -/
example : (∀ x, x < 2 ^ (1 + 1) - 1 → RatchetTree.get [some (.Leaf (toyLeaf 0)), some (.Parent ⟨[9], [], []⟩),
      some (.Leaf (toyLeaf 1))] x ≠ none) ∧
    ciphertexts (RatchetTree.get [some (.Leaf (toyLeaf 0)), some (.Parent ⟨[9], [], []⟩), some (.Leaf (toyLeaf 1))]) 1 0 = 1 := by
  decide

set_option maxRecDepth 100000 in
/-- The hypotheses of `C115_merged` are met. -/
example : sumProvider.hash suite1 = .ok sumHash ∧ MergeInput sumThree 2 0 ∧
    (sumThree.merge_update_path sumProvider suite1 0 sumPath).2 = .ok () := by
  have hs : RoomSteps sumProvider suite1 [some (.Leaf (signedLeaf 0 .Update))]
      [.add (signedLeaf 1 .Update), .add (signedLeaf 2 .Update)] sumThree :=
    .cons ⟨.inr (by decide), rfl⟩ (.inr (by decide)) <| .cons ⟨.inr (by decide), rfl⟩ (.inr (by decide)) (.nil _)
  exact ⟨rfl, input (kept_steps (kept_single _) hs) (by decide) (pow_isHeight 2), by decide +kernel⟩

end Rmls
