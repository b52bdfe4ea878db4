import Verif.Spec.Agree
import Verif.Props.Client
import Verif.Props.Commit
import Verif.Props.Joiner
/-
Property C70: an old member and a member who joined later judge every commit alike.
-/
namespace Rmls
open Spec RatchetTree PassiveClient

/-! ### ending alike -/

theorem alike_refl {α : Type} {R : α → α → Prop} (hR : ∀ a, R a a) (x : Res α) : Alike R x x := by
  cases x with
  | ok a => exact hR a
  | err e => exact rfl
  | fault f => exact rfl

theorem alike_bind {α β γ δ : Type} {R : α → β → Prop} {S : γ → δ → Prop} {x : Res α} {y : Res β} {f : α → Res γ}
    {g : β → Res δ} (h : Alike R x y) (hfg : ∀ a b, x = .ok a → y = .ok b → R a b → Alike S (f a) (g b)) :
    Alike S (x >>= f) (y >>= g) := by
  cases x <;> cases y <;> first | exact h.elim | skip
  · exact hfg _ _ rfl rfl h
  · exact h
  · exact h

theorem alike_mono {α β : Type} {R S : α → β → Prop} {x : Res α} {y : Res β} (h : Alike R x y)
    (hRS : ∀ a b, R a b → S a b) : Alike S x y := by
  cases x <;> cases y <;> first | exact h.elim | skip
  · exact hRS _ _ h
  · exact h
  · exact h

theorem alike_then {α γ δ : Type} {S : γ → δ → Prop} (x : Res α) {f : α → Res γ} {g : α → Res δ}
    (hfg : ∀ a, x = .ok a → Alike S (f a) (g a)) : Alike S (x >>= f) (x >>= g) := by
  cases x with
  | ok a => exact hfg a rfl
  | err e => exact rfl
  | fault f => exact rfl

/-! ### the two arrays -/

/-- The two arrays of `SameTree`, with the bound on the size that a `u32` needs. -/
def Snoc (t u : RatchetTree) : Prop := t = u ∨ t = u ++ [none] ∧ u.length + 1 < 2 ^ 32 ∧ ∃ K, Perfect u K

theorem Snoc.same {t u : RatchetTree} (h : Snoc t u) : SameTree t u := by
  rcases h with h | ⟨h, _, K, hp⟩
  · exact .inl h
  · exact .inr ⟨K, hp.length, h⟩

theorem Snoc.get {t u : RatchetTree} (h : Snoc t u) (x : Nat) : t.get x = u.get x := by
  rcases h with rfl | ⟨rfl, _⟩
  · rfl
  · exact get_snoc u x

theorem Snoc.leaves {t u : RatchetTree} (h : Snoc t u) : t.num_leaves = u.num_leaves := by
  rcases h with rfl | ⟨rfl, hsz, K, hp⟩
  · rfl
  · exact num_leaves_snoc hp.odd hsz

theorem Snoc.root {t u : RatchetTree} (h : Snoc t u) (P : CryptoProvider) (cs : CipherSuite) :
    t.compute_root_tree_hash P cs = u.compute_root_tree_hash P cs := by
  unfold compute_root_tree_hash compute_tree_hash
  simp only [h.leaves, tree_hash_congr h.get]

theorem Snoc.creds {t u : RatchetTree} (h : Snoc t u) : t.supported_creds = u.supported_creds := by
  unfold supported_creds
  simp only [h.leaves, forLeaves_congr h.get]

theorem Snoc.keys {t u : RatchetTree} (h : Snoc t u) : t.keys = u.keys := by
  unfold RatchetTree.keys
  simp only [h.leaves, forLeaves_congr h.get]

theorem Kept.snoc' {t u : RatchetTree} (h : Kept t) (hs : SameTree t u) : Snoc t u := h.snoc hs

theorem snoc_update {t u : RatchetTree} (h : Snoc t u) (li : Nat) (leaf : LeafNode) :
    Alike (fun a b => Snoc a b ∧ (a ≠ b → a.length = t.length)) (t.update li leaf) (u.update li leaf) := by
  rcases h with rfl | ⟨rfl, hsz, K, hp⟩
  · exact alike_refl (fun _ => ⟨.inl rfl, fun hc => absurd rfl hc⟩) _
  have hlen := hp.length
  have h2 : 2 ^ (K + 1) = 2 * 2 ^ K := by rw [Nat.pow_succ]; omega
  have hpos := Nat.two_pow_pos K
  have hKh : IsHeight u.num_leaves K := by rw [hp.leaves]; exact pow_isHeight K
  have hKt : IsHeight (RatchetTree.num_leaves (u ++ [none])) K := by rw [hp.leaves_snoc hsz]; exact pow_isHeight K
  rcases Nat.lt_or_ge li (2 ^ K) with hli | hli
  · obtain ⟨u', hu1, hul, hug⟩ := update_in (leaf := leaf) (by omega) hp.size hKh hli
    obtain ⟨t', ht1, htl, htg⟩ := update_in (t := u ++ [none]) (K := K) (li := li) (leaf := leaf) (by simp)
      (by simp; omega) hKt hli
    rw [hu1, ht1]
    refine ⟨.inr ⟨?_, by omega, K, by omega, by have := hp.size; omega⟩, fun _ => htl⟩
    refine snoc_ext (u := u) (by rw [htl, hul]; simp) (fun x => ?_) hul
    rw [htg, hug, get_snoc]
    by_cases hx : x = 2 * li
    · rw [if_pos ⟨hx, by simp; omega⟩, if_pos ⟨hx, by omega⟩]
    · simp only [hx, false_and, if_false]
  · rw [update_out (by omega) hp.size hKh hli, update_out (by simp) (by simp; omega) hKt hli]
    exact rfl

theorem snoc_remove {t u : RatchetTree} (h : Snoc t u) (li : Nat) :
    Alike (fun a b => Snoc a b ∧ (a ≠ b → a.length = t.length)) (t.remove li) (u.remove li) := by
  rcases h with rfl | ⟨rfl, hsz, K, hp⟩
  · exact alike_refl (fun _ => ⟨.inl rfl, fun hc => absurd rfl hc⟩) _
  have hlen := hp.length
  have h2 : 2 ^ (K + 1) = 2 * 2 ^ K := by rw [Nat.pow_succ]; omega
  have hpos := Nat.two_pow_pos K
  have hKh : IsHeight u.num_leaves K := by rw [hp.leaves]; exact pow_isHeight K
  have hKt : IsHeight (RatchetTree.num_leaves (u ++ [none])) K := by rw [hp.leaves_snoc hsz]; exact pow_isHeight K
  have hsz' : (u ++ [none] : RatchetTree).length < 4294967296 := by simp; omega
  rcases Nat.lt_or_ge li (2 ^ K) with hli | hli
  · rcases last_member u li with hall | ⟨j, hj1, hj2, hj3⟩
    · rw [remove_clear (t := u ++ [none]) (by simp) hsz' hKt hli (fun i hi => by rw [get_snoc]; exact hall i hi),
        remove_clear (by omega) hp.size hKh hli hall]
      exact ⟨.inl rfl, fun hc => absurd rfl hc⟩
    · obtain ⟨m, hmh⟩ := exists_height (show 0 < j + 1 by omega)
      rw [remove_last (t := u ++ [none]) (j := j) (by simp) hsz' hKt hli (by rw [get_snoc]; exact hj1) hj2
        (fun i h1 h2 => by rw [get_snoc]; exact hj3 i h1 h2) hmh, blanked_snoc,
        remove_last (by omega) hp.size hKh hli hj1 hj2 hj3 hmh]
      have hmK : m ≤ K := hmh.2 K (leaf_in_tree (by omega) hp.size hKh (Kept.pos hj1))
      have hbl := blanked_length u K li
      rcases Nat.lt_or_ge m K with hlt | hge
      · have : 2 ^ (m + 1) < 2 ^ (K + 1) := Nat.pow_lt_pow_right (by omega) (by omega)
        rw [List.take_append_of_le_length (by omega)]
        exact ⟨.inl rfl, fun hc => absurd rfl hc⟩
      · have : m = K := by omega
        subst this
        rw [List.take_of_length_le (by simp; omega), List.take_of_length_le (by omega)]
        exact ⟨.inr ⟨rfl, by omega, m, by omega, by have := hp.size; omega⟩, fun _ => by simp; omega⟩
  · rw [remove_out (by omega) hp.size hKh hli, remove_out (by simp) (by simp; omega) hKt hli]
    exact rfl

theorem blankLeaves_exists {nodes : Nat → Option Node} : ∀ n, 0 < blankLeaves nodes n →
    ∃ j, j < n ∧ nodes (2 * j) = none := by
  intro n
  induction n with
  | zero => intro h; simp [blankLeaves] at h
  | succ n ih =>
    intro h
    by_cases hn : nodes (2 * n) = none
    · exact ⟨n, by omega, hn⟩
    · unfold blankLeaves at h
      rw [if_neg hn] at h
      obtain ⟨j, h1, h2⟩ := ih h
      exact ⟨j, by omega, h2⟩

theorem blankLeaves_put {nodes nodes' : Nat → Option Node} {j : Nat} (hj : nodes (2 * j) = none)
    (hj' : nodes' (2 * j) ≠ none) (ho : ∀ i, i ≠ j → (nodes' (2 * i) = none ↔ nodes (2 * i) = none)) : ∀ n,
    blankLeaves nodes' n + (if j < n then 1 else 0) = blankLeaves nodes n := by
  intro n
  induction n with
  | zero => rfl
  | succ n ih =>
    unfold blankLeaves
    by_cases h : j = n
    · subst h
      simp only [Nat.lt_irrefl, if_false, Nat.add_zero] at ih
      rw [if_neg hj', if_pos hj, if_pos (by omega), ih]
    · have := ho n (by omega)
      simp only [this]
      by_cases hlt : j < n
      · rw [if_pos hlt] at ih
        rw [if_pos (show j < n + 1 by omega)]
        omega
      · rw [if_neg hlt] at ih
        rw [if_neg (show ¬ j < n + 1 by omega)]
        omega

theorem snoc_add {u : RatchetTree} {K : Nat} (hp : Perfect u K) (hsz : u.length + 1 < 2 ^ 32) (leaf : LeafNode)
    (hf : 0 < blankLeaves u.get (2 ^ K)) : ∃ u', u.add leaf = .ok u' ∧
    RatchetTree.add (u ++ [none]) leaf = .ok (u' ++ [none]) ∧ u'.length = u.length ∧
    blankLeaves u'.get (2 ^ K) + 1 = blankLeaves u.get (2 ^ K) := by
  have hlen := hp.length
  have h2 : 2 ^ (K + 1) = 2 * 2 ^ K := by rw [Nat.pow_succ]; omega
  obtain ⟨j0, hj0, hj1⟩ := blankLeaves_exists _ hf
  obtain ⟨j, h1, h3, h4⟩ := least_free (t := u) (j := j0) ⟨by omega, hj1⟩
  obtain ⟨u', hu1, hul, hug⟩ := add_free (leaf := leaf) hp.size (by rw [hp.leaves]; exact pow_isHeight K) h1 h3 h4
  obtain ⟨t1, ht1, htl, htg⟩ := add_free (t := u ++ [none]) (K := K) (j := j) (leaf := leaf) (by simp; omega)
    (by rw [hp.leaves_snoc hsz]; exact pow_isHeight K) (by simp; omega) (by rw [get_snoc]; exact h3)
    (fun i hi => by rw [get_snoc]; exact h4 i hi)
  refine ⟨u', hu1, ?_, hul, ?_⟩
  · rw [ht1]
    congr 1
    refine snoc_ext (u := u) (by rw [htl, hul]; simp) (fun x => ?_) hul
    rw [htg, hug, get_snoc]
  · have := blankLeaves_put (nodes := u.get) (nodes' := u'.get) (j := j) h3 (by rw [hug, if_pos rfl]; nofun)
      (fun i hi => by rw [hug, if_neg (by omega), if_neg (fun hc => above_odd hc rfl)]) (2 ^ K)
    rw [if_pos (by omega)] at this
    exact this

theorem snoc_adds (ls : List LeafNode) {u : RatchetTree} {K : Nat} (hp : Perfect u K) (hsz : u.length + 1 < 2 ^ 32)
    (hf : ls.length ≤ blankLeaves u.get (2 ^ K)) :
    Alike Snoc (ls.foldlM (fun t l => t.add l) (u ++ [none])) (ls.foldlM (fun t l => t.add l) u) := by
  induction ls generalizing u with
  | nil => exact .inr ⟨rfl, hsz, K, hp⟩
  | cons l ls ih =>
    rw [List.length_cons] at hf
    obtain ⟨u', h1, h2, h3, h4⟩ := snoc_add hp hsz l (by omega)
    rw [List.foldlM_cons, List.foldlM_cons, h1, h2]
    exact ih (u := u') ⟨by rw [h3]; exact hp.length, by rw [h3]; exact hp.size⟩ (by omega) (by omega)

/-- The arrays of the two members, and if they differ, the old member's has the given length. -/
def SnocOf (n : Nat) (a b : RatchetTree) : Prop := Snoc a b ∧ (a ≠ b → a.length = n)

theorem snoc_fold {α : Type} (step : RatchetTree → α → Res RatchetTree)
    (hstep : ∀ (t u : RatchetTree) x, Snoc t u → Alike (SnocOf t.length) (step t x) (step u x)) (xs : List α) {n : Nat}
    {t u : RatchetTree} (h : SnocOf n t u) : Alike (SnocOf n) (xs.foldlM step t) (xs.foldlM step u) := by
  induction xs generalizing t u with
  | nil => exact h
  | cons x xs ih =>
    rw [List.foldlM_cons, List.foldlM_cons]
    by_cases htu : t = u
    · subst htu
      refine alike_then _ fun a _ => ih ⟨.inl rfl, fun hc => absurd rfl hc⟩
    · refine alike_bind (hstep t u x h.1) fun a b _ _ hab => ih ⟨hab.1, fun hc => ?_⟩
      rw [hab.2 hc, h.2 htu]

theorem snoc_adds' (ls : List LeafNode) {t u : RatchetTree} (h : Snoc t u)
    (hf : t ≠ u → ls.length ≤ blankLeaves t.get ((t.length + 1) / 2)) :
    Alike Snoc (ls.foldlM (fun t l => t.add l) t) (ls.foldlM (fun t l => t.add l) u) := by
  rcases h with rfl | ⟨rfl, hsz, K, hp⟩
  · exact alike_refl (fun _ => .inl rfl) _
  · refine snoc_adds ls hp hsz ?_
    have := hf (fun hc => by simpa using congrArg List.length hc)
    have hl := hp.length
    have h2 : 2 ^ (K + 1) = 2 * 2 ^ K := by rw [Nat.pow_succ]; omega
    rw [show RatchetTree.get (u ++ [none]) = u.get from funext fun x => get_snoc u x, List.length_append,
      List.length_singleton, show (u.length + 1 + 1) / 2 = 2 ^ K by omega] at this
    exact this

theorem snoc_apply {t u : RatchetTree} (h : Snoc t u) (ps : List Proposal) (senders : List LeafIndex)
    (hs : ps.length ≤ senders.length) (hf : Fits t ps senders) :
    Alike Snoc (t.apply ps senders) (u.apply ps senders) := by
  by_cases htu : t = u
  · subst htu
    exact alike_refl (fun _ => .inl rfl) _
  rw [C28_apply t ps senders hs, C28_apply u ps senders hs]
  have heven : t.length % 2 = 0 := by
    rcases h with h | ⟨rfl, _, K, hp⟩
    · exact absurd h htu
    · have := hp.odd
      simp; omega
  refine alike_bind (snoc_fold (fun t (p : Nat × LeafNode) => t.update p.1 p.2)
    (fun t u p h => snoc_update h p.1 p.2) _ ⟨h, fun _ => rfl⟩) fun t1 u1 h1 _ s1 => ?_
  refine alike_bind (snoc_fold (fun t li => RatchetTree.remove t li) (fun t u li h => snoc_remove h li) _ s1)
    fun t2 u2 h2 _ s2 => ?_
  exact snoc_adds' _ s2.1 fun hne => hf heven t1 t2 h1 h2 (s2.2 hne)

theorem Kept.small {u : RatchetTree} (h : Kept (u ++ [none])) : u.SmallUnmerged := by
  have := unmergedOk_small h.inv.size h.inv.good.ok
  intro x p hx
  exact this x p (by rw [get_snoc]; exact hx)

/-- What is the same in the two pairs of trees that two members arrive at. -/
def SameOutcome (P : CryptoProvider) (cs : CipherSuite) (a b : RatchetTree × RatchetTree) : Prop :=
  SameTree a.1 b.1 ∧ SameTree a.2 b.2 ∧ (∀ x, a.1.get x = b.1.get x) ∧ (∀ x, a.2.get x = b.2.get x) ∧
  a.1.compute_root_tree_hash P cs = b.1.compute_root_tree_hash P cs ∧
  a.2.compute_root_tree_hash P cs = b.2.compute_root_tree_hash P cs

theorem same_outcome {P : CryptoProvider} {cs : CipherSuite} {a b : RatchetTree × RatchetTree} (h1 : Snoc a.1 b.1)
    (h2 : Snoc a.2 b.2) : SameOutcome P cs a b :=
  ⟨h1.same, h2.same, h1.get, h2.get, h1.root P cs, h2.root P cs⟩

/-- C70, for the proposals: applied to the array of an old member and to the array of a member who read the tree from the
wire, proposals end alike, whoever sent them and valid or not. -/
theorem C70_apply_partial (P : CryptoProvider) (cs : CipherSuite) (l : LeafNode) (t u : RatchetTree)
    (evs : List TreeEvent) (hs : RoomSteps P cs [some (.Leaf l)] evs t) (h : SameTree t u) (ps : List Proposal)
    (senders : List LeafIndex) (hn : ps.length ≤ senders.length) (hf : Fits t ps senders) :
    Alike (fun a b => SameTree a b ∧ (∀ x, a.get x = b.get x) ∧
      a.compute_root_tree_hash P cs = b.compute_root_tree_hash P cs) (t.apply ps senders) (u.apply ps senders) := by
  exact alike_mono (snoc_apply ((kept_steps (kept_single l) hs).snoc h) ps senders hn hf)
    fun a b hab => ⟨hab.same, hab.get, hab.root P cs⟩

/-- C70: an old member and a member who read the tree from the wire, who agree on the group context and the epoch secret,
end alike on every message: both accept it, with the same nodes and the same root hashes, or both return the same error,
or both panic.  Missing: commits that add more members than there are blank leaves to an array of even length, see
`C70_refuted`. -/
theorem C70_verdict_partial (P : CryptoProvider) (cs : CipherSuite) (l : LeafNode) (old joined : State)
    (evs : List TreeEvent) (hs : RoomSteps P cs [some (.Leaf l)] evs old.tree) (h : SameTree old.tree joined.tree)
    (hctx : old.group_info.group_context = joined.group_info.group_context)
    (hsec : old.epoch_secret = joined.epoch_secret) (m : PublicMessage) (hf : CommitFits old.tree m) :
    Alike (SameOutcome P cs) (handleCommit P cs old m) (handleCommit P cs joined m) := by
  have hk := kept_steps (kept_single l) hs
  have hsn : Snoc old.tree joined.tree := hk.snoc h
  unfold handleCommit
  rw [hctx, hsec]
  refine alike_then _ fun _ _ => ?_
  split
  · next c hsd =>
    rw [get_leaf_congr hsn.get]
    refine alike_then _ fun r hr => ?_
    cases r with
    | none => exact rfl
    | some sn =>
      refine alike_then _ fun _ _ => alike_then _ fun key _ => alike_then _ fun _ _ => ?_
      split
      · next cm hcm =>
        refine alike_then _ fun ps hps => alike_then _ fun _ _ => alike_then _ fun _ _ => ?_
        rw [byValue_iff] at hps
        have hfit := hf c ps cm.path hsd (by rw [hcm, ← hps])
        refine alike_bind (snoc_apply hsn ps _ (by simp) hfit) fun nt nu _ _ hnew => ?_
        refine alike_then _ fun _ _ => ?_
        split
        · exact same_outcome hnew hsn
        · next path hpath =>
          have hcheck : checkPath P cs joined.group_info.group_context old.tree c sn path =
              checkPath P cs joined.group_info.group_context joined.tree c sn path := by
            unfold checkPath
            rw [hsn.keys, hsn.creds]
          rw [hcheck]
          refine alike_then _ fun _ _ => ?_
          have hmerge : Snoc (old.tree.merge_update_path P cs c.toNat path).1
              (joined.tree.merge_update_path P cs c.toNat path).1 ∧
              (old.tree.merge_update_path P cs c.toNat path).2 = (joined.tree.merge_update_path P cs c.toNat path).2 := by
            have hm : old.tree.get (2 * c.toNat) = some (.Leaf sn) :=
              (get_leaf_some _ hk.inv.size _ _).1 (by rw [get_leaf_congr hsn.get]; exact hr)
            rcases hsn with htu | ⟨htu, hsz, K, hp⟩
            · rw [htu]
              exact ⟨.inl rfl, rfl⟩
            · rw [htu] at hk hm ⊢
              rw [get_snoc] at hm
              have hKh : IsHeight joined.tree.num_leaves K := by rw [hp.leaves]; exact pow_isHeight K
              have hlt := lt_of_get hm
              have hli := leaf_in_tree (by omega) hp.size hKh hlt
              have hl := (merge_frame P cs path (by omega) hp.size hKh hli hk.small).1
              rw [merge_snoc P cs path hp hsz hli hk.small]
              exact ⟨.inr ⟨rfl, by omega, K, by rw [hl]; exact hp.length, by rw [hl]; exact hp.size⟩, rfl⟩
          generalize old.tree.merge_update_path P cs c.toNat path = x at hmerge
          generalize joined.tree.merge_update_path P cs c.toNat path = y at hmerge
          obtain ⟨xt, xr⟩ := x
          obtain ⟨yt, yr⟩ := y
          obtain ⟨h1, h2⟩ := hmerge
          dsimp only at h1 h2
          subst h2
          cases xr with
          | ok _ => exact same_outcome hnew h1
          | err e => exact rfl
          | fault f => exact rfl
      · exact rfl
  · exact rfl

/-- Commits without adds are always judged alike. -/
theorem C70_no_adds (t : RatchetTree) (m : PublicMessage)
    (hno : ∀ c, m.content.content = .Commit c → ∀ a, .Proposal (.Add a) ∉ c.proposals) : CommitFits t m := by
  intro c ps path _ hc _ t1 t2 h1 h2 _
  clear h1 h2
  have : addsOf ps = [] := by
    have hno := hno _ hc
    clear hc
    induction ps with
    | nil => rfl
    | cons p ps ih =>
      have ih := ih fun a ha => hno a (List.mem_cons_of_mem _ ha)
      cases p with
      | Add a => exact absurd (List.mem_cons_self ..) (hno a)
      | _ => exact ih
  rw [this]
  exact Nat.zero_le _

section examples
private abbrev suite1 : CipherSuite := .MLS_128_DHKEMX25519_AES128GCM_SHA256_Ed25519

/-- Five members, the fifth and the second are removed, and a joiner takes the place of the second. -/
private abbrev evs1 : List TreeEvent :=
  [.add (toyLeaf 1), .add (toyLeaf 2), .add (toyLeaf 3), .add (toyLeaf 4), .remove 4, .remove 1, .add (toyLeaf 5)]

private abbrev new1 : RatchetTree :=
  [some (.Leaf (toyLeaf 0)), none, some (.Leaf (toyLeaf 5)), none, some (.Leaf (toyLeaf 2)), none,
   some (.Leaf (toyLeaf 3))]

private abbrev old1 : RatchetTree := new1 ++ [none]

private theorem steps1 : RoomSteps toyProvider suite1 [some (.Leaf (toyLeaf 0))] evs1 old1 :=
  .cons ⟨.inr (by decide), rfl⟩ (.inr (by decide)) <| .cons ⟨.inr (by decide), rfl⟩ (.inr (by decide)) <|
  .cons ⟨.inr (by decide), rfl⟩ (.inr (by decide)) <| .cons ⟨.inr (by decide), rfl⟩ (.inr (by decide)) <|
  .cons ⟨by decide, rfl⟩ trivial <| .cons ⟨by decide, rfl⟩ trivial <|
  .cons ⟨.inr (by decide), rfl⟩ (.inl ⟨1, by decide, rfl⟩) <| .nil _

private theorem same1 : SameTree old1 new1 := .inr ⟨2, rfl, rfl⟩

/-- An old member and a member who joined, in the same epoch. -/
private def oldState : State := { joinState with tree := old1 }
private def newState : State := { joinState with tree := new1 }

/-- A commit of the first member without a path. -/
private def pathless (ps : List Proposal) : PublicMessage :=
  let c : FramedContent := ⟨[7], 3, .Member 0, [], .Commit ⟨ps.map .Proposal, none⟩⟩
  let auth : FramedContentAuthData := ⟨[0, 0] ++ (labelled (text "FramedContentTBS")
    (framedContentTBS .MLS10 .PublicMessage c joinInfo.group_context).bytes).bytes, []⟩
  ⟨c, auth, some (List.replicate 4 1 ++ (authenticatedContentTBM c auth joinInfo.group_context).bytes)⟩

/-- The tree with the third package's member. -/
private def added (t : RatchetTree) : RatchetTree :=
  match t.add thirdPackage.payload.leaf_node with
  | .ok t' => t'
  | _ => []

set_option maxRecDepth 100000 in
/-- C70 is false in general: after the group had five members and has four again, the first member commits to an add.  The old
members and the one who joined all accept the commit, but only the latter has the new member in the tree; the old members
cannot compute the tree hash. -/
theorem C70_refuted : ∃ (old joined : State) (m : PublicMessage) (a b : RatchetTree × RatchetTree) (h : Bytes),
    RoomSteps toyProvider suite1 [some (.Leaf (toyLeaf 0))] evs1 old.tree ∧ SameTree old.tree joined.tree ∧
    old.group_info.group_context = joined.group_info.group_context ∧ old.epoch_secret = joined.epoch_secret ∧
    handleCommit toyProvider suite1 old m = .ok a ∧ handleCommit toyProvider suite1 joined m = .ok b ∧
    b.1.get 8 = some (.Leaf thirdPackage.payload.leaf_node) ∧ a.1.get 8 = none ∧
    b.1.compute_root_tree_hash toyProvider suite1 = .ok h ∧
    a.1.compute_root_tree_hash toyProvider suite1 = .err .InvalidParentNode := by
  refine ⟨oldState, newState, pathless [.Add ⟨thirdPackage⟩], (added old1, old1), (added new1, new1),
    treeHash id (added new1).get 3 0, steps1, same1, rfl, rfl, by decide +kernel, by decide +kernel, by decide +kernel, by decide +kernel, by decide +kernel, by decide +kernel⟩

/-- Before the joiner took the place of the second member. -/
private abbrev new0 : RatchetTree := new1.set 2 none

private theorem steps0 : RoomSteps toyProvider suite1 [some (.Leaf (toyLeaf 0))] (evs1.take 6) (new0 ++ [none]) :=
  .cons ⟨.inr (by decide), rfl⟩ (.inr (by decide)) <| .cons ⟨.inr (by decide), rfl⟩ (.inr (by decide)) <|
  .cons ⟨.inr (by decide), rfl⟩ (.inr (by decide)) <| .cons ⟨.inr (by decide), rfl⟩ (.inr (by decide)) <|
  .cons ⟨by decide, rfl⟩ trivial <| .cons ⟨by decide, rfl⟩ trivial <| .nil _

set_option maxRecDepth 100000 in
/-- The hypotheses of `C70_verdict_partial` and `C70_apply_partial` are met by two members with arrays of different length and
an add that both accept. -/
example : ∃ (a b : RatchetTree × RatchetTree),
    RoomSteps toyProvider suite1 [some (.Leaf (toyLeaf 0))] (evs1.take 6) (new0 ++ [none]) ∧
    SameTree (new0 ++ [none]) new0 ∧ CommitFits (new0 ++ [none]) (pathless [.Add ⟨thirdPackage⟩]) ∧
    handleCommit toyProvider suite1 { joinState with tree := new0 ++ [none] } (pathless [.Add ⟨thirdPackage⟩]) = .ok a ∧
    handleCommit toyProvider suite1 { joinState with tree := new0 } (pathless [.Add ⟨thirdPackage⟩]) = .ok b ∧
    SameOutcome toyProvider suite1 a b ∧ a.1.length = 8 ∧ b.1.length = 7 := by
  have hf : CommitFits (new0 ++ [none]) (pathless [.Add ⟨thirdPackage⟩]) := by
    intro c ps path hc hps _ t1 t2 h1 h2 _
    cases ps with
    | nil => cases hps
    | cons p ps =>
      cases ps with
      | cons _ _ => cases hps
      | nil =>
        cases hps
        cases h1
        cases h2
        decide +kernel
  have h := C70_verdict_partial toyProvider suite1 (toyLeaf 0) { joinState with tree := new0 ++ [none] }
    { joinState with tree := new0 } _ steps0 (.inr ⟨2, rfl, rfl⟩) rfl rfl _ hf
  have h1 : ∃ a, handleCommit toyProvider suite1 { joinState with tree := new0 ++ [none] }
    (pathless [.Add ⟨thirdPackage⟩]) = .ok a ∧ a.1.length = 8 :=
    ⟨(added (new0 ++ [none]), new0 ++ [none]), by decide +kernel, by decide +kernel⟩
  have h2 : ∃ a, handleCommit toyProvider suite1 { joinState with tree := new0 }
    (pathless [.Add ⟨thirdPackage⟩]) = .ok a ∧ a.1.length = 7 :=
    ⟨(added new0, new0), by decide +kernel, by decide +kernel⟩
  obtain ⟨a, ha, ha'⟩ := h1
  obtain ⟨b, hb, hb'⟩ := h2
  rw [ha, hb] at h
  exact ⟨a, b, steps0, .inr ⟨2, rfl, rfl⟩, hf, ha, hb, h, ha', hb'⟩

end examples
end Rmls
