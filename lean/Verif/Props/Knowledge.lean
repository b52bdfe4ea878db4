import Verif.Spec.Knowledge
import Verif.Props.Joiner
import Verif.Props.History
/-
Property C106: the private key of a node is known to the members below it and to nobody else.
-/
namespace Rmls
open Spec RatchetTree

/-- A group and the people: the tree, who is at which leaf, and who has which private keys. -/
structure World where
  tree : RatchetTree
  who : Nat → Option Nat
  knows : Knowledge

def seat (who : Nat → Option Nat) (j : Nat) (v : Option Nat) : Nat → Option Nat := fun i => if i = j then v else who i

/-- The worlds that come about by what the code does to the tree, and by what people learn from it.

* Every key pair is made once: a new public key is one to which nobody has a private key.
* A member is added where there is a free leaf, or to an array of odd length (C13).  The place is where the leaf then is.
* Members update, are removed and send paths, and the path is accepted.  Its sender follows the protocol: path secrets are
  encrypted to the resolutions, and the keys of the path are derived from them.
* People keep all keys they ever had, also when they are removed; they may come back. -/
inductive Lives (P : CryptoProvider) (cs : CipherSuite) : World → Prop where
  | new (leaf : LeafNode) (p : Nat) :
      Lives P cs ⟨[some (.Leaf leaf)], fun j => if j = 0 then some p else none,
        Knowledge.made (fun _ _ => False) p leaf.payload.encryption_key⟩
  | add {w : World} {t' : RatchetTree} (leaf : LeafNode) (p j : Nat) : Lives P cs w →
      Unheard w.knows leaf.payload.encryption_key →
      ((∃ j, 2 * j < w.tree.length ∧ w.tree.get (2 * j) = none) ∨ (w.tree.length % 2 = 1 ∧ w.tree.length < 2 ^ 31)) →
      w.tree.add leaf = .ok t' → w.tree.get (2 * j) = none → t'.get (2 * j) = some (.Leaf leaf) →
      Lives P cs ⟨t', seat w.who j (some p), w.knows.made p leaf.payload.encryption_key⟩
  | update {w : World} {t' : RatchetTree} (leaf : LeafNode) (p li : Nat) : Lives P cs w →
      Unheard w.knows leaf.payload.encryption_key → w.who li = some p → w.tree.update li leaf = .ok t' →
      Lives P cs ⟨t', w.who, w.knows.made p leaf.payload.encryption_key⟩
  | remove {w : World} {t' : RatchetTree} (li : Nat) : Lives P cs w → w.who li ≠ none → w.tree.remove li = .ok t' →
      Lives P cs ⟨t', seat w.who li none, w.knows⟩
  | merge {w : World} {t' : RatchetTree} (path : UpdatePath) (p li K : Nat) : Lives P cs w →
      w.who li = some p → IsHeight ((w.tree.length + 1) / 2) K →
      (∀ key ∈ path.leaf_node.payload.encryption_key :: path.nodes.map (·.encryption_key), Unheard w.knows key) →
      (path.leaf_node.payload.encryption_key :: path.nodes.map (·.encryption_key)).Nodup →
      w.tree.merge_update_path P cs li path = (t', .ok ()) →
      Lives P cs ⟨t', w.who, w.knows.path w.tree.get (filteredLevels w.tree.get K li) p li
        path.leaf_node.payload.encryption_key (path.nodes.map (·.encryption_key))⟩

/-- The invariant. -/
private structure Inv (w : World) : Prop where
  kept : Kept w.tree
  who : ∀ j, w.who j ≠ none ↔ w.tree.get (node 0 j) ≠ none
  known : ∀ x n, w.tree.get x = some n → ∃ q, w.knows q (keyOf n)
  exact : ∀ k i n, w.tree.get (node k i) = some n → ∀ q,
    w.knows q (keyOf n) ↔ ∃ j, below k i j ∧ w.who j = some q ∧ ∀ u ∈ unmergedOf n, u.toNat ≠ j

/-- A node that is neither the leaf nor above it in the tree is not above it. -/
private theorem apart {t : RatchetTree} (h : Kept t) {K li : Nat} (hK : IsHeight t.num_leaves K) (hli : li < 2 ^ K) {k i : Nat}
    {n : Node} (hg : t.get (node k i) = some n) (hne : node k i ≠ 2 * li) (ha : ¬ above K li (node k i)) : ¬ below k i li := by
  intro hb
  cases k with
  | zero => rw [below_div] at hb; simp at hb; subst hb; exact hne (node_zero _)
  | succ k =>
    cases n with
    | Leaf l => exact h.inner k i l hg
    | Parent p => exact ha (above_node.2 ⟨by omega, parents_in_tree h.inv hK hli _ _ _ hg hb, hb⟩)

private theorem below_zero {i j : Nat} : below 0 i j ↔ j = i := by rw [below_div]; simp

private theorem made_old {knows : Knowledge} {p q : Nat} {key k : HPKEPublicKey} (hn : Unheard knows key)
    (hk : ∃ q, knows q k) : knows.made p key q k ↔ knows q k := by
  refine ⟨fun h => h.resolve_right ?_, Or.inl⟩
  rintro ⟨_, rfl⟩
  obtain ⟨q, hq⟩ := hk
  exact hn q hq

private theorem made_new {knows : Knowledge} {p q : Nat} {key : HPKEPublicKey} (hn : Unheard knows key) :
    knows.made p key q key ↔ q = p :=
  ⟨fun h => (h.resolve_left (hn q)).1, fun h => Or.inr ⟨h, rfl⟩⟩

private theorem inv_of_add {w : World} {t' : RatchetTree} {leaf : LeafNode} {p j j' K : Nat} (h : Inv w) (hk : Kept t')
    (hn : Unheard w.knows leaf.payload.encryption_key) (hj : w.tree.get (2 * j) = none) (hj32 : j < 2 ^ 32)
    (hK : IsHeight t'.num_leaves K) (hjK : j < 2 ^ K)
    (hg : ∀ x, t'.get x = if x = 2 * j then some (.Leaf leaf)
      else if above K j x then listed (UInt32.ofNat j) (w.tree.get x) else w.tree.get x)
    (hb : w.tree.get (2 * j') = none) (hp : t'.get (2 * j') = some (.Leaf leaf)) :
    Inv ⟨t', seat w.who j' (some p), w.knows.made p leaf.payload.encryption_key⟩ := by
  have hjj : j' = j := by
    apply Decidable.byContradiction
    intro hc
    rw [hg, if_neg (by omega), if_neg (fun ha => above_odd ha rfl), hb] at hp
    cases hp
  subst hjj
  have hlist : ∀ n, w.tree.get (node 0 j') = some n → False := by
    intro n hc; rw [node_zero] at hc; rw [hb] at hc; cases hc
  have hwho : w.who j' = none := by
    cases hc : w.who j' with
    | none => rfl
    | some q => exact absurd ((h.who j').1 (by rw [hc]; nofun)) (by rw [node_zero, hb]; simp)
  have hu : (UInt32.ofNat j').toNat = j' := by
    rw [UInt32.toNat_ofNat_of_lt']; exact hj32
  refine ⟨hk, ?_, ?_, ?_⟩
  · intro i
    dsimp only [seat]
    rw [node_zero, hg]
    by_cases hi : i = j'
    · subst hi; simp
    · rw [if_neg hi, if_neg (by omega), if_neg (fun ha => above_odd ha rfl), ← node_zero]
      exact h.who i
  · intro x n hx
    dsimp only at hx ⊢
    rw [hg] at hx
    split at hx
    · cases hx; exact ⟨p, Or.inr ⟨rfl, rfl⟩⟩
    split at hx
    · cases hw : w.tree.get x with
      | none => rw [hw] at hx; cases hx
      | some n0 =>
        rw [hw] at hx
        obtain ⟨q, hq⟩ := h.known x n0 hw
        cases n0 with
        | Leaf l => cases hx; exact ⟨q, Or.inl hq⟩
        | Parent p0 => cases hx; exact ⟨q, Or.inl hq⟩
    · obtain ⟨q, hq⟩ := h.known x n hx
      exact ⟨q, Or.inl hq⟩
  · intro k i n hx q
    dsimp only at hx ⊢
    have hx' := hx
    rw [hg] at hx
    by_cases he : node k i = 2 * j'
    · rw [if_pos he] at hx
      cases hx
      rw [← node_zero] at he
      obtain ⟨rfl, rfl⟩ := node_inj he
      show Knowledge.made _ _ _ _ leaf.payload.encryption_key ↔ _
      rw [made_new hn]
      constructor
      · rintro rfl
        exact ⟨i, below_zero.2 rfl, by simp [seat], nofun⟩
      · rintro ⟨a, h1, h2, _⟩
        rw [below_zero.1 h1] at h2
        simp [seat] at h2
        exact h2.symm
    rw [if_neg he] at hx
    by_cases ha : above K j' (node k i)
    · rw [if_pos ha] at hx
      cases hw : w.tree.get (node k i) with
      | none => rw [hw] at hx; cases hx
      | some n0 =>
        have hkey : keyOf n = keyOf n0 ∧ (n0 = n ∨ unmergedOf n = unmergedOf n0 ++ [UInt32.ofNat j']) := by
          rw [hw] at hx
          cases n0 with
          | Leaf l => cases hx; exact ⟨rfl, Or.inl rfl⟩
          | Parent p0 => cases hx; exact ⟨rfl, Or.inr rfl⟩
        have hun : unmergedOf n = unmergedOf n0 ++ [UInt32.ofNat j'] := by
          rcases hkey.2 with rfl | h1
          · exfalso
            obtain ⟨k', rfl⟩ : ∃ k', k = k' + 1 := ⟨k - 1, by have := (above_node.1 ha).1; omega⟩
            cases n0 with
            | Leaf l => exact h.kept.inner k' i l hw
            | Parent p0 =>
              rw [hw] at hx
              injection hx with hx
              injection hx with hx
              have := congrArg (fun z => z.unmerged_leaves.length) hx
              simp at this
          · exact h1
        rw [hkey.1, made_old hn (h.known _ _ hw), h.exact k i n0 hw q, hun]
        constructor
        · rintro ⟨a, h1, h2, h3⟩
          have haj : a ≠ j' := by rintro rfl; rw [hwho] at h2; cases h2
          refine ⟨a, h1, by simp only [seat, if_neg haj]; exact h2, fun u hu' => ?_⟩
          rcases List.mem_append.1 hu' with h4 | h4
          · exact h3 u h4
          · rw [List.mem_singleton.1 h4, hu]; exact Ne.symm haj
        · rintro ⟨a, h1, h2, h3⟩
          have haj : a ≠ j' := by
            rintro rfl
            exact h3 _ (List.mem_append_right _ (List.mem_singleton.2 rfl)) hu
          simp only [seat, if_neg haj] at h2
          exact ⟨a, h1, h2, fun u hu' => h3 u (List.mem_append_left _ hu')⟩
    · rw [if_neg ha] at hx
      have hnb := apart hk hK hjK hx' he ha
      rw [made_old hn (h.known _ _ hx), h.exact k i n hx q]
      constructor
      · rintro ⟨a, h1, h2, h3⟩
        have haj : a ≠ j' := by rintro rfl; exact hnb h1
        exact ⟨a, h1, by simp only [seat, if_neg haj]; exact h2, h3⟩
      · rintro ⟨a, h1, h2, h3⟩
        have haj : a ≠ j' := by rintro rfl; exact hnb h1
        simp only [seat, if_neg haj] at h2
        exact ⟨a, h1, h2, h3⟩

private theorem inv_add_world {w : World} {t' : RatchetTree} {leaf : LeafNode} {p j : Nat} (h : Inv w)
    (hn : Unheard w.knows leaf.payload.encryption_key)
    (hr : (∃ j, 2 * j < w.tree.length ∧ w.tree.get (2 * j) = none) ∨ (w.tree.length % 2 = 1 ∧ w.tree.length < 2 ^ 31))
    (ha : w.tree.add leaf = .ok t') (hb : w.tree.get (2 * j) = none) (hp : t'.get (2 * j) = some (.Leaf leaf)) :
    Inv ⟨t', seat w.who j (some p), w.knows.made p leaf.payload.encryption_key⟩ := by
  have hk : Kept t' := kept_add h.kept (inv_add h.kept.inv (hr.imp id And.right) ha) (hr.imp id And.left)
    (hr.imp id And.right) ha
  have hsz := h.kept.inv.size
  by_cases hf : ∃ j, 2 * j < w.tree.length ∧ w.tree.get (2 * j) = none
  · obtain ⟨j0, hj0⟩ := hf
    obtain ⟨a, h1, h2, h3⟩ := least_free hj0
    obtain ⟨K, hK, _⟩ := h.kept.height (by omega)
    have hKh : IsHeight w.tree.num_leaves K := by rw [hK]; exact pow_isHeight K
    obtain ⟨t1, ha1, hl, hg⟩ := add_free (leaf := leaf) hsz hKh h1 h2 h3
    rw [ha] at ha1; cases ha1
    have hK' : IsHeight t'.num_leaves K := by
      rw [room (by omega) (by omega), hl, ← room (by omega) hsz]; exact hKh
    exact inv_of_add h hk hn h2 (by omega) hK' (leaf_in_tree (by omega) hsz hKh h1) hg hb hp
  · have ⟨hodd, h31⟩ := hr.resolve_left hf
    obtain ⟨K, hK, hlen, _⟩ := h.kept.height (by omega)
    have h2 : 2 ^ (K + 1) = 2 * 2 ^ K := by rw [Nat.pow_succ]; omega
    have hpos := Nat.two_pow_pos K
    obtain ⟨t1, ha1, hl, hg⟩ := add_grow (t := w.tree) (n := 2 ^ K) (K := K + 1) (leaf := leaf) (by omega) (by omega) h31
      (by rw [← h2]; exact pow_isHeight _) (fun i hi hc => hf ⟨i, by omega, hc⟩)
    rw [ha] at ha1; cases ha1
    refine inv_of_add h hk hn (get_out (by omega)) (by omega) ?_ (by omega) hg hb hp
    rw [room (by omega) (by omega), show (t'.length + 1) / 2 = 2 ^ (K + 1) by omega]
    exact pow_isHeight _

private theorem inv_update_world {w : World} {t' : RatchetTree} {leaf : LeafNode} {p li : Nat} (h : Inv w)
    (hn : Unheard w.knows leaf.payload.encryption_key) (hw : w.who li = some p) (ha : w.tree.update li leaf = .ok t') :
    Inv ⟨t', w.who, w.knows.made p leaf.payload.encryption_key⟩ := by
  have hm : w.tree.get (2 * li) ≠ none := by rw [← node_zero]; exact (h.who li).1 (by rw [hw]; nofun)
  have hk : Kept t' := kept_update h.kept (inv_update h.kept.inv hm ha) hm ha
  have hlt := Kept.pos hm
  have hsz := h.kept.inv.size
  obtain ⟨K, hK, _⟩ := h.kept.height (by omega)
  have hKh : IsHeight w.tree.num_leaves K := by rw [hK]; exact pow_isHeight K
  obtain ⟨t1, ha1, hl, hg⟩ := update_in (leaf := leaf) (by omega) hsz hKh (leaf_in_tree (by omega) hsz hKh hlt)
  rw [ha] at ha1; cases ha1
  refine ⟨hk, ?_, ?_, ?_⟩
  · intro i
    dsimp only
    rw [node_zero, hg]
    split
    · rename_i hc
      have : i = li := by omega
      subst this
      rw [hw]; simp
    · rw [if_neg (fun ha => above_odd ha rfl), ← node_zero]; exact h.who i
  · intro x n hx
    dsimp only at hx ⊢
    rw [hg] at hx
    split at hx
    · cases hx; exact ⟨p, Or.inr ⟨rfl, rfl⟩⟩
    split at hx
    · cases hx
    · obtain ⟨q, hq⟩ := h.known x n hx
      exact ⟨q, Or.inl hq⟩
  · intro k i n hx q
    dsimp only at hx ⊢
    rw [hg] at hx
    split at hx
    · rename_i hc
      cases hx
      have he := hc.1
      rw [← node_zero] at he
      obtain ⟨rfl, rfl⟩ := node_inj he
      show Knowledge.made _ _ _ _ leaf.payload.encryption_key ↔ _
      rw [made_new hn]
      constructor
      · rintro rfl; exact ⟨i, below_zero.2 rfl, hw, nofun⟩
      · rintro ⟨a, h1, h2, _⟩
        rw [below_zero.1 h1, hw] at h2
        cases h2; rfl
    split at hx
    · cases hx
    · rw [made_old hn (h.known _ _ hx)]; exact h.exact k i n hx q

private theorem inv_remove_world {w : World} {t' : RatchetTree} {li : Nat} (h : Inv w) (hw : w.who li ≠ none)
    (ha : w.tree.remove li = .ok t') : Inv ⟨t', seat w.who li none, w.knows⟩ := by
  have hm : w.tree.get (2 * li) ≠ none := by rw [← node_zero]; exact (h.who li).1 hw
  have hk : Kept t' := kept_remove h.kept (inv_remove h.kept.inv hm ha) hm ha
  have hlt := Kept.pos hm
  have hsz := h.kept.inv.size
  obtain ⟨K, hK, _⟩ := h.kept.height (by omega)
  have hKh : IsHeight w.tree.num_leaves K := by rw [hK]; exact pow_isHeight K
  have hli := leaf_in_tree (by omega) hsz hKh hlt
  obtain ⟨c, hget, hcut⟩ : ∃ c, (∀ x, t'.get x = if x = 2 * li ∨ above K li x ∨ c ≤ x then none else w.tree.get x) ∧
      ∀ i, c ≤ 2 * i → i ≠ li → w.tree.get (2 * i) = none := by
    rcases last_member w.tree li with hall | ⟨j, hj1, hj2, hj3⟩
    · rw [remove_clear (by omega) hsz hKh hli hall] at ha
      cases ha
      exact ⟨0, fun x => by rw [if_pos (.inr (.inr (by omega)))]; rfl, fun i _ hi => hall i hi⟩
    · obtain ⟨m, hmh⟩ := exists_height (show 0 < j + 1 by omega)
      rw [remove_last (by omega) hsz hKh hli hj1 hj2 hj3 hmh] at ha
      cases ha
      refine ⟨2 ^ (m + 1), fun x => ?_, fun i hc hi => ?_⟩
      · rw [get_take, blanked_get]
        by_cases hc : x < 2 ^ (m + 1)
        · rw [if_pos hc]
          by_cases h2 : x = 2 * li ∨ above K li x
          · rw [if_pos h2, if_pos (by rcases h2 with h | h; exact Or.inl h; exact Or.inr (Or.inl h))]
          · rw [if_neg h2, if_neg]
            rintro (h | h | h)
            · exact h2 (Or.inl h)
            · exact h2 (Or.inr h)
            · omega
        · rw [if_neg hc, if_pos (Or.inr (Or.inr (by omega)))]
      · apply hj3 i _ hi
        have := hmh.1
        rw [Nat.pow_succ] at hc
        omega
  refine ⟨hk, ?_, ?_, ?_⟩
  · intro i
    dsimp only [seat]
    rw [node_zero, hget]
    by_cases hi : i = li
    · subst hi; simp
    · rw [if_neg hi, h.who i, node_zero]
      by_cases hc : c ≤ 2 * i
      · rw [if_pos (Or.inr (Or.inr hc)), hcut i hc hi]
      · rw [if_neg]
        rintro (h1 | h1 | h1)
        · omega
        · exact above_odd h1 rfl
        · omega
  · intro x n hx
    dsimp only at hx ⊢
    rw [hget] at hx
    split at hx
    · cases hx
    · exact h.known x n hx
  · intro k i n hx q
    dsimp only at hx ⊢
    rw [hget] at hx
    split at hx
    · cases hx
    rename_i hc
    have hnb := apart h.kept hKh hli hx (fun h => hc (Or.inl h)) (fun h => hc (Or.inr (Or.inl h)))
    rw [h.exact k i n hx q]
    constructor
    · rintro ⟨a, h1, h2, h3⟩
      have haj : a ≠ li := by rintro rfl; exact hnb h1
      exact ⟨a, h1, by simp only [seat, if_neg haj]; exact h2, h3⟩
    · rintro ⟨a, h1, h2, h3⟩
      have haj : a ≠ li := by rintro rfl; exact hnb h1
      simp only [seat, if_neg haj] at h2
      exact ⟨a, h1, h2, h3⟩

/-! ### Paths -/

/-- Two leaves below the same ancestor part at some level below it. -/
theorem parting {j li : Nat} (hne : j ≠ li) : ∀ k, j / 2 ^ k = li / 2 ^ k →
    ∃ l, l < k ∧ j / 2 ^ l = sib li l ∧ j / 2 ^ (l + 1) = li / 2 ^ (l + 1)
  | 0, h => absurd (by simpa using h) hne
  | k + 1, h => by
    by_cases he : j / 2 ^ k = li / 2 ^ k
    · obtain ⟨l, h1, h2⟩ := parting hne k he
      exact ⟨l, by omega, h2⟩
    · refine ⟨k, by omega, ?_, h⟩
      rw [Nat.pow_succ, ← Nat.div_div_eq_div_mul, ← Nat.div_div_eq_div_mul] at h
      unfold sib siblingPos
      generalize j / 2 ^ k = a at h he ⊢
      generalize li / 2 ^ k = b at h he ⊢
      split <;> omega

private theorem sib_half (li l : Nat) : sib li l / 2 = li / 2 ^ (l + 1) := by
  rw [Nat.pow_succ, ← Nat.div_div_eq_div_mul]
  unfold sib siblingPos
  generalize li / 2 ^ l = b
  split <;> omega

/-- The unmerged leaves of a listed parent are listed. -/
theorem resolution_unmerged {nodes : Nat → Option Node} (hs : LeafShaped nodes) (hu : UnmergedMembers nodes) :
    ∀ {k i y : Nat} {p : ParentNode} {u : LeafIndex}, y ∈ resolution nodes k i → nodes y = some (.Parent p) →
      u ∈ p.unmerged_leaves → node 0 u.toNat ∈ resolution nodes k i := by
  intro k
  induction k with
  | zero =>
    intro i y p u hy hp huu
    cases hn : nodes (node 0 i) with
    | none => rw [resolution_none_zero hn] at hy; cases hy
    | some n =>
      cases n with
      | Parent q => exact absurd hn (hs i q)
      | Leaf l => rw [resolution_some hn] at hy; rw [List.mem_singleton.1 hy, hn] at hp; cases hp
  | succ k ih =>
    intro i y p u hy hp huu
    cases hn : nodes (node (k + 1) i) with
    | none =>
      rw [resolution_none_succ hn] at hy ⊢
      rcases List.mem_append.1 hy with h | h
      · exact List.mem_append_left _ (ih h hp huu)
      · exact List.mem_append_right _ (ih h hp huu)
    | some n =>
      rw [resolution_some hn] at hy ⊢
      cases n with
      | Leaf l =>
        dsimp only at hy
        rw [List.mem_singleton.1 hy, hn] at hp; cases hp
      | Parent q =>
        dsimp only at hy ⊢
        rcases List.mem_cons.1 hy with h | h
        · rw [h, hn] at hp
          cases hp
          exact List.mem_cons_of_mem _ (List.mem_map.2 ⟨u, huu, rfl⟩)
        · obtain ⟨v, hv, rfl⟩ := List.mem_map.1 h
          obtain ⟨_, l, hl⟩ := hu (k + 1) i q hn v hv
          rw [hl] at hp; cases hp

/-- Who can decrypt for a copath child: the members below it. -/
private theorem receives_iff {w : World} (h : Inv w) (li k q : Nat) :
    Receives w.tree.get w.knows li (k + 1) q ↔ ∃ j, j / 2 ^ k = sib li k ∧ w.who j = some q := by
  have hmem := h.kept.inv.good.mem
  constructor
  · rintro ⟨y, hy, n, hn, hkn⟩
    obtain ⟨l, a, rfl⟩ := node_surj y
    obtain ⟨j, h1, h2, _⟩ := (h.exact l a n hn q).1 hkn
    have hin := (resolution_mem h.kept.inv.good.ok hy).1
    exact ⟨j, below_div.1 (inSubtree_leaf.1 (inSubtree_trans hin (inSubtree_leaf.2 h1))), h2⟩
  · rintro ⟨j, h1, h2⟩
    have hj : w.tree.get (node 0 j) ≠ none := (h.who j).1 (by rw [h2]; nofun)
    obtain ⟨l, a, h3, h4, _, h6⟩ := resolution_covers (inSubtree_leaf.2 (below_div.2 h1)) hj
    cases hn : w.tree.get (node l a) with
    | none => exact absurd hn h4
    | some n =>
      by_cases hu : ∃ u ∈ unmergedOf n, u.toNat = j
      · obtain ⟨u, hu1, hu2⟩ := hu
        cases n with
        | Leaf _ => cases hu1
        | Parent p =>
          have h7 := resolution_unmerged h.kept.inv.good.leaf hmem h3 hn hu1
          rw [hu2] at h7
          cases hlf : w.tree.get (node 0 j) with
          | none => exact absurd hlf hj
          | some m =>
            cases m with
            | Parent q' => exact absurd hlf (h.kept.inv.good.leaf j q')
            | Leaf lf =>
              exact ⟨_, h7, _, hlf, (h.exact 0 j _ hlf q).2 ⟨j, below_zero.2 rfl, h2, nofun⟩⟩
      · exact ⟨_, h3, n, hn, (h.exact l a n hn q).2 ⟨j, inSubtree_leaf.1 h6, h2, fun u hu1 hu2 => hu ⟨u, hu1, hu2⟩⟩⟩

private theorem sorted_index {l : List Nat} (hs : l.Pairwise (· < ·)) {a b x y : Nat} (ha : l[a]? = some x)
    (hb : l[b]? = some y) : a ≤ b ↔ x ≤ y := by
  obtain ⟨h1, rfl⟩ := List.getElem?_eq_some_iff.1 ha
  obtain ⟨h2, rfl⟩ := List.getElem?_eq_some_iff.1 hb
  rw [List.pairwise_iff_getElem] at hs
  constructor
  · intro h
    rcases Nat.lt_or_ge a b with h3 | h3
    · exact Nat.le_of_lt (hs a b h1 h2 h3)
    · have : a = b := by omega
      subst this; exact Nat.le_refl _
  · intro h
    apply Decidable.byContradiction
    intro hc
    have := hs b a h2 h1 (by omega)
    omega

/-- Who learns the key of the ancestor at level `k`: the members below it. -/
private theorem path_iff {w : World} (h : Inv w) {K li p m k : Nat} (hw : w.who li = some p) (hkK : k ≤ K)
    (hm : (filteredLevels w.tree.get K li)[m]? = some k) (q : Nat) :
    (q = p ∨ ∃ a k', a ≤ m ∧ (filteredLevels w.tree.get K li)[a]? = some k' ∧ Receives w.tree.get w.knows li k' q) ↔
      ∃ j, j / 2 ^ k = li / 2 ^ k ∧ w.who j = some q := by
  constructor
  · rintro (rfl | ⟨a, k', h1, h2, h3⟩)
    · exact ⟨li, rfl, hw⟩
    · have hle := (sorted_index filteredLevels_sorted h2 hm).1 h1
      have hpos := (filteredLevels_mem.1 (List.mem_of_getElem? h2)).1
      obtain ⟨l, rfl⟩ : ∃ l, k' = l + 1 := ⟨k' - 1, by omega⟩
      obtain ⟨j, h4, h5⟩ := (receives_iff h li l q).1 h3
      refine ⟨j, ?_, h5⟩
      have h6 : j / 2 ^ (l + 1) = li / 2 ^ (l + 1) := by
        rw [← sib_half li l, ← h4, Nat.div_div_eq_div_mul, ← Nat.pow_succ]
      rw [show k = l + 1 + (k - (l + 1)) by omega, Nat.pow_add, ← Nat.div_div_eq_div_mul, h6, Nat.div_div_eq_div_mul]
  · rintro ⟨j, h1, h2⟩
    by_cases hj : j = li
    · subst hj; rw [hw] at h2; cases h2; exact Or.inl rfl
    · obtain ⟨l, h3, h4, _⟩ := parting hj k h1
      have hres : Receives w.tree.get w.knows li (l + 1) q := (receives_iff h li l q).2 ⟨j, h4, h2⟩
      have hmem : l + 1 ∈ filteredLevels w.tree.get K li := by
        refine filteredLevels_mem.2 ⟨by omega, by omega, fun hc => ?_⟩
        obtain ⟨y, hy, _⟩ := hres
        rw [hc] at hy; cases hy
      obtain ⟨a, ha⟩ := List.mem_iff_getElem?.1 hmem
      exact Or.inr ⟨a, l + 1, (sorted_index filteredLevels_sorted ha hm).2 (by omega), ha, hres⟩

private theorem mergeInput {w : World} (h : Inv w) {li K : Nat} (hw : w.who li ≠ none)
    (hK : IsHeight ((w.tree.length + 1) / 2) K) : MergeInput w.tree K li := by
  have hm : w.tree.get (2 * li) ≠ none := by rw [← node_zero]; exact (h.who li).1 hw
  have hlt := Kept.pos hm
  have hsz := h.kept.inv.size
  obtain ⟨K', hK', hlen, _⟩ := h.kept.height (by omega)
  have hKh : IsHeight w.tree.num_leaves K := by rw [room (by omega) hsz]; exact hK
  have hKK : K' = K := by
    have h1 := pow_isHeight K'
    rw [← hK'] at h1
    exact Nat.le_antisymm (h1.2 _ hKh.1) (hKh.2 _ h1.1)
  subst hKK
  exact ⟨⟨hsz, hK, by omega⟩, unmergedOk_small hsz h.kept.inv.good.ok⟩

private theorem inv_merge_world {P : CryptoProvider} {cs : CipherSuite} {Hs : Hash} (hP : P.hash cs = .ok Hs) {w : World}
    {t' : RatchetTree} {path : UpdatePath} {p li K : Nat} (h : Inv w) (hw : w.who li = some p)
    (hK : IsHeight ((w.tree.length + 1) / 2) K)
    (hn : ∀ key ∈ path.leaf_node.payload.encryption_key :: path.nodes.map (·.encryption_key), Unheard w.knows key)
    (hd : (path.leaf_node.payload.encryption_key :: path.nodes.map (·.encryption_key)).Nodup)
    (hm : w.tree.merge_update_path P cs li path = (t', .ok ())) :
    Inv ⟨t', w.who, w.knows.path w.tree.get (filteredLevels w.tree.get K li) p li
      path.leaf_node.payload.encryption_key (path.nodes.map (·.encryption_key))⟩ := by
  have hocc : w.tree.get (2 * li) ≠ none := by rw [← node_zero]; exact (h.who li).1 (by rw [hw]; nofun)
  have hin := mergeInput h (by rw [hw]; nofun) hK
  have hk : Kept t' := by
    have := kept_merge (P := P) (cs := cs) (path := path) h.kept (inv_merge h.kept.inv hocc) hocc
    rwa [hm] at this
  obtain ⟨_, e2, e3, e4, e5, e6⟩ := C22_effect P cs Hs hP w.tree t' K li hin.toMergePlace path hm
  rw [List.nodup_cons] at hd
  have hold : ∀ k, (∃ q, w.knows q k) → ∀ q, w.knows.path w.tree.get (filteredLevels w.tree.get K li) p li
      path.leaf_node.payload.encryption_key (path.nodes.map (·.encryption_key)) q k ↔ w.knows q k := by
    intro key ⟨q0, hq0⟩ q
    refine ⟨?_, Or.inl⟩
    rintro (h1 | ⟨_, h1⟩ | ⟨a, b, k, _, _, _, h1⟩)
    · exact h1
    · exact absurd hq0 (hn key h1 q0)
    · exact absurd hq0 (hn key (List.mem_cons_of_mem _ (List.mem_of_getElem? h1)) q0)
  refine ⟨hk, ?_, ?_, ?_⟩
  · intro i
    dsimp only
    by_cases hi : i = li
    · subst hi; rw [e3, hw]; simp
    · rw [e6 (node 0 i) (fun ha => above_odd (y := i) ha (node_zero i)) (by rw [node_zero, node_zero]; omega)]
      exact h.who i
  · intro x n hx
    dsimp only at hx ⊢
    by_cases hxl : x = node 0 li
    · subst hxl
      rw [e3] at hx; cases hx
      exact ⟨p, Or.inr (Or.inl ⟨rfl, List.mem_cons_self ..⟩)⟩
    by_cases ha : above K li x
    · obtain ⟨k, hk1, hk2, rfl⟩ := ha
      have hf : k ∈ filteredLevels w.tree.get K li := by
        apply Decidable.byContradiction
        intro hc
        have := e5 k hk1 hk2 hc
        unfold anc at this
        rw [this] at hx; cases hx
      obtain ⟨m, hmk⟩ := List.mem_iff_getElem?.1 hf
      obtain ⟨nd, ph, h1, h2⟩ := e4 m k hmk
      unfold anc at h2
      rw [h2] at hx; cases hx
      exact ⟨p, Or.inr (Or.inl ⟨rfl, List.mem_cons_of_mem _ (List.mem_map.2 ⟨nd, List.mem_of_getElem? h1, rfl⟩)⟩)⟩
    · rw [e6 x ha hxl] at hx
      obtain ⟨q, hq⟩ := h.known x n hx
      exact ⟨q, Or.inl hq⟩
  · intro k i n hx q
    dsimp only at hx ⊢
    by_cases hxl : node k i = node 0 li
    · obtain ⟨rfl, rfl⟩ := node_inj hxl
      rw [e3] at hx; cases hx
      constructor
      · rintro (h1 | ⟨rfl, _⟩ | ⟨a, b, k, _, _, _, h1⟩)
        · exact absurd h1 (hn _ (List.mem_cons_self ..) q)
        · exact ⟨i, below_zero.2 rfl, hw, nofun⟩
        · exact absurd (List.mem_of_getElem? h1) hd.1
      · rintro ⟨j, h1, h2, _⟩
        rw [below_zero.1 h1, hw] at h2; cases h2
        exact Or.inr (Or.inl ⟨rfl, List.mem_cons_self ..⟩)
    by_cases ha : above K li (node k i)
    · obtain ⟨hk1, hk2, hb⟩ := above_node.1 ha
      have hi := below_div.1 hb
      subst hi
      have hf : k ∈ filteredLevels w.tree.get K li := by
        apply Decidable.byContradiction
        intro hc
        have := e5 k hk1 hk2 hc
        unfold anc at this
        rw [this] at hx; cases hx
      obtain ⟨m, hmk⟩ := List.mem_iff_getElem?.1 hf
      obtain ⟨nd, ph, h1, h2⟩ := e4 m k hmk
      unfold anc at h2
      rw [h2] at hx; cases hx
      have hkey : (path.nodes.map (·.encryption_key))[m]? = some nd.encryption_key := by
        rw [List.getElem?_map, h1]; rfl
      show Knowledge.path _ _ _ _ _ _ _ q nd.encryption_key ↔ _
      have hiff := path_iff h hw hk2 hmk q
      have hgoal : (∃ j, below k (li / 2 ^ k) j ∧ w.who j = some q ∧
          ∀ u ∈ unmergedOf (.Parent ⟨nd.encryption_key, ph, []⟩), u.toNat ≠ j) ↔
          ∃ j, j / 2 ^ k = li / 2 ^ k ∧ w.who j = some q := by
        constructor
        · rintro ⟨j, h3, h4, _⟩; exact ⟨j, below_div.1 h3, h4⟩
        · rintro ⟨j, h3, h4⟩; exact ⟨j, below_div.2 h3, h4, nofun⟩
      rw [hgoal, ← hiff]
      constructor
      · rintro (h3 | ⟨rfl, _⟩ | ⟨a, b, k', h3, h4, h5, h6⟩)
        · exact absurd h3 (hn _ (List.mem_cons_of_mem _ (List.mem_of_getElem? hkey)) q)
        · exact Or.inl rfl
        · have : b = m := by
            obtain ⟨g1, g2⟩ := List.getElem?_eq_some_iff.1 h6
            obtain ⟨g3, g4⟩ := List.getElem?_eq_some_iff.1 hkey
            have hp := List.pairwise_iff_getElem.1 hd.2
            apply Decidable.byContradiction
            intro hc
            rcases Nat.lt_or_gt_of_ne hc with h7 | h7
            · exact hp b m g1 g3 h7 (g2.trans g4.symm)
            · exact hp m b g3 g1 h7 (g4.trans g2.symm)
          subst this
          exact Or.inr ⟨a, k', h3, h4, h5⟩
      · rintro (rfl | ⟨a, k', h3, h4, h5⟩)
        · exact Or.inr (Or.inl ⟨rfl, List.mem_cons_of_mem _ (List.mem_of_getElem? hkey)⟩)
        · exact Or.inr (Or.inr ⟨a, m, k', h3, h4, h5, hkey⟩)
    · rw [e6 _ ha hxl] at hx
      rw [hold _ (h.known _ _ hx)]
      exact h.exact k i n hx q

private theorem inv_new_world (leaf : LeafNode) (p : Nat) : Inv ⟨[some (.Leaf leaf)], fun j => if j = 0 then some p else none,
    Knowledge.made (fun _ _ => False) p leaf.payload.encryption_key⟩ := by
  have hg : ∀ k i n, RatchetTree.get [some (.Leaf leaf)] (node k i) = some n → k = 0 ∧ i = 0 ∧ n = .Leaf leaf := by
    intro k i n h
    have hlt := lt_of_get h
    simp only [List.length_cons, List.length_nil] at hlt
    have hz : node k i = node 0 0 := by rw [node_zero]; omega
    obtain ⟨rfl, rfl⟩ := node_inj hz
    rw [node_zero] at h
    simp [RatchetTree.get] at h
    exact ⟨rfl, rfl, h.symm⟩
  refine ⟨kept_single leaf, ?_, ?_, ?_⟩
  · intro j
    dsimp only
    by_cases hj : j = 0
    · subst hj; rw [node_zero]; simp [RatchetTree.get]
    · rw [if_neg hj, node_zero, get_out (by simp; omega)]; simp
  · intro x n hx
    obtain ⟨k, i, rfl⟩ := node_surj x
    obtain ⟨_, _, rfl⟩ := hg _ _ _ hx
    exact ⟨p, Or.inr ⟨rfl, rfl⟩⟩
  · intro k i n hx q
    obtain ⟨rfl, rfl, rfl⟩ := hg _ _ _ hx
    dsimp only [keyOf]
    rw [made_new (fun _ h => h)]
    constructor
    · rintro rfl; exact ⟨0, below_zero.2 rfl, rfl, nofun⟩
    · rintro ⟨j, h1, h2, _⟩
      rw [below_zero.1 h1] at h2
      cases h2; rfl

private theorem lives_inv {P : CryptoProvider} {cs : CipherSuite} {Hs : Hash} (hP : P.hash cs = .ok Hs) {w : World}
    (h : Lives P cs w) : Inv w := by
  induction h with
  | new leaf p => exact inv_new_world leaf p
  | add leaf p j _ hn hr ha hb hp ih => exact inv_add_world ih hn hr ha hb hp
  | update leaf p li _ hn hw ha ih => exact inv_update_world ih hn hw ha
  | remove li _ hw ha ih => exact inv_remove_world ih hw ha
  | merge path p li K _ hw hK hn hd hm ih => exact inv_merge_world hP ih hw hK hn hd hm

/-! ### The theorems -/

/-- C106: after every history, the private key of every node that is not blank is known to exactly those people who are
members below the node and have not joined since its key was made. -/
theorem C106_exact (P : CryptoProvider) (cs : CipherSuite) (Hs : Hash) (hP : P.hash cs = .ok Hs) (w : World)
    (h : Lives P cs w) (k i : Nat) (n : Node) (hn : w.tree.get (node k i) = some n) (q : Nat) :
    w.knows q (keyOf n) ↔ ∃ j, below k i j ∧ w.who j = some q ∧ ∀ u ∈ unmergedOf n, u.toNat ≠ j :=
  (lives_inv hP h).exact k i n hn q

/-- C106: people sit where the tree has leaves. -/
theorem C106_who (P : CryptoProvider) (cs : CipherSuite) (Hs : Hash) (hP : P.hash cs = .ok Hs) (w : World)
    (h : Lives P cs w) (j : Nat) : w.who j ≠ none ↔ ∃ l, w.tree.get (node 0 j) = some (.Leaf l) := by
  have hi := lives_inv hP h
  rw [hi.who j]
  constructor
  · intro hc
    cases hg : w.tree.get (node 0 j) with
    | none => exact absurd hg hc
    | some n =>
      cases n with
      | Leaf l => exact ⟨l, rfl⟩
      | Parent p => exact absurd hg (hi.kept.inv.good.leaf j p)
  · rintro ⟨l, hl⟩; rw [hl]; nofun

/-- C106: who is not a member, because they were removed or never joined, has no private key of the tree, whatever keys
they have kept. -/
theorem C106_outsider (P : CryptoProvider) (cs : CipherSuite) (Hs : Hash) (hP : P.hash cs = .ok Hs) (w : World)
    (h : Lives P cs w) (q : Nat) (hq : ∀ j, w.who j ≠ some q) (x : Nat) (n : Node) (hx : w.tree.get x = some n) :
    ¬ w.knows q (keyOf n) := by
  obtain ⟨k, i, rfl⟩ := node_surj x
  rw [C106_exact P cs Hs hP w h k i n hx]
  rintro ⟨j, _, h2, _⟩
  exact hq j h2

/-- C106: a path reaches the whole group and nobody else: the last key of an accepted path, and with it the commit secret, is
known to exactly the members. -/
theorem C106_path (P : CryptoProvider) (cs : CipherSuite) (Hs : Hash) (hP : P.hash cs = .ok Hs) (w : World)
    (h : Lives P cs w) (path : UpdatePath) (p li K : Nat) (t' : RatchetTree) (hw : w.who li = some p)
    (hK : IsHeight ((w.tree.length + 1) / 2) K)
    (hn : ∀ key ∈ path.leaf_node.payload.encryption_key :: path.nodes.map (·.encryption_key), Unheard w.knows key)
    (hd : (path.leaf_node.payload.encryption_key :: path.nodes.map (·.encryption_key)).Nodup)
    (hm : w.tree.merge_update_path P cs li path = (t', .ok ())) :
    ∃ last, path.nodes.getLast? = some last ∧ ∀ q,
      w.knows.path w.tree.get (filteredLevels w.tree.get K li) p li path.leaf_node.payload.encryption_key
        (path.nodes.map (·.encryption_key)) q last.encryption_key ↔ ∃ j, w.who j = some q := by
  have hi := lives_inv hP h
  have hin := mergeInput hi (by rw [hw]; nofun) hK
  obtain ⟨_, e2, e3, e4, _, _⟩ := C22_effect P cs Hs hP w.tree t' K li hin.toMergePlace path hm
  have hne : filteredLevels w.tree.get K li ≠ [] := by
    intro hc
    obtain ⟨e, he⟩ := C22_alone_fails P cs Hs hP w.tree K li hin path hc
    rw [hm] at he; cases he
  have hpos : 0 < path.nodes.length := by
    rw [e2]; exact List.length_pos_iff.2 hne
  have hlt : path.nodes.length - 1 < (filteredLevels w.tree.get K li).length := by omega
  obtain ⟨nd, ph, h1, h2⟩ := e4 (path.nodes.length - 1) _ (List.getElem?_eq_getElem hlt)
  refine ⟨nd, by rw [List.getLast?_eq_getElem?]; exact h1, fun q => ?_⟩
  have hk2 := filteredLevels_mem.1 (List.mem_of_getElem? (List.getElem?_eq_getElem hlt))
  have := (inv_merge_world hP hi hw hK hn hd hm).exact _ _ _ h2 q
  refine (Iff.trans this ?_)
  constructor
  · rintro ⟨j, _, h3, _⟩; exact ⟨j, h3⟩
  · rintro ⟨j, h3⟩
    refine ⟨j, below_div.2 ?_, h3, nofun⟩
    apply Decidable.byContradiction
    intro hc
    have hocc : w.tree.get (2 * j) ≠ none := by rw [← node_zero]; exact (hi.who j).1 (by rw [h3]; nofun)
    have hsz := hi.kept.inv.size
    have hjK := leaf_in_tree (by have := Kept.pos hocc; omega) hsz hin.numHeight (Kept.pos hocc)
    have hjl : j ≠ li := by rintro rfl; exact hc rfl
    obtain ⟨l, h4, h5, h6⟩ := parting hjl K (by rw [Nat.div_eq_of_lt hjK, Nat.div_eq_of_lt hin.sender])
    have hmem : l + 1 ∈ filteredLevels w.tree.get K li := by
      refine filteredLevels_mem.2 ⟨by omega, by omega, fun hc' => ?_⟩
      have := (resolution_empty_iff.1 hc') _ (inSubtree_leaf.2 (below_div.2 h5))
      rw [node_zero] at this
      exact hocc this
    obtain ⟨a, ha⟩ := List.mem_iff_getElem?.1 hmem
    have hle : l + 1 ≤ (filteredLevels w.tree.get K li)[path.nodes.length - 1] := by
      refine (sorted_index filteredLevels_sorted ha (List.getElem?_eq_getElem hlt)).1 ?_
      obtain ⟨h7, _⟩ := List.getElem?_eq_some_iff.1 ha
      omega
    apply hc
    generalize (filteredLevels w.tree.get K li)[path.nodes.length - 1] = k at hle
    rw [show k = l + 1 + (k - (l + 1)) by omega, Nat.pow_add, ← Nat.div_div_eq_div_mul, h6, Nat.div_div_eq_div_mul]

private theorem deduces_sound {knows : Knowledge} {nodes : Nat → Option Node} {levels : List Nat} {p j : Nat}
    {leaf : HPKEPublicKey} {keys : List HPKEPublicKey} {q : Nat}
    (hf : ∀ y n, nodes y = some n → keyOf n ∉ leaf :: keys) {f : Fact}
    (h : Deduces knows nodes levels p j leaf keys q f) :
    match f with
    | .private_key key => knows.path nodes levels p j leaf keys q key
    | .path_secret a => q = p ∨ ∃ a' k, a' ≤ a ∧ levels[a']? = some k ∧ Receives nodes knows j k q := by
  induction h with
  | had h => exact .inl h
  | leaf h => exact .inr (.inl ⟨h, List.mem_cons_self⟩)
  | first h => exact .inl h
  | @decrypt a k y n h1 h2 h3 _ ih =>
    refine .inr ⟨a, k, Nat.le_refl _, h1, y, h2, n, h3, ?_⟩
    rcases ih with h | ⟨_, h⟩ | ⟨a', b, k', _, _, _, h⟩
    · exact h
    · exact absurd h (hf y n h3)
    · exact absurd (List.mem_cons_of_mem _ (List.mem_of_getElem? h)) (hf y n h3)
  | next _ ih =>
    rcases ih with h | ⟨a', k, h1, h2⟩
    · exact .inl h
    · exact .inr ⟨a', k, by omega, h2⟩
  | node _ hk ih =>
    rcases ih with h | ⟨a', k, h1, h2, h3⟩
    · exact .inr (.inl ⟨h, List.mem_cons_of_mem _ (List.mem_of_getElem? hk)⟩)
    · exact .inr (.inr ⟨a', _, k, h1, h2, h3, hk⟩)

private theorem deduces_up {knows : Knowledge} {nodes : Nat → Option Node} {levels : List Nat} {p j : Nat}
    {leaf : HPKEPublicKey} {keys : List HPKEPublicKey} {q a : Nat} (b : Nat)
    (h : Deduces knows nodes levels p j leaf keys q (.path_secret a)) (hb : a ≤ b) :
    Deduces knows nodes levels p j leaf keys q (.path_secret b) := by
  obtain ⟨c, rfl⟩ : ∃ c, b = a + c := ⟨b - a, by omega⟩
  clear hb
  induction c with
  | zero => exact h
  | succ c ih => exact .next ih

private theorem deduces_complete {knows : Knowledge} {nodes : Nat → Option Node} {levels : List Nat} {p j : Nat}
    {leaf : HPKEPublicKey} {keys : List HPKEPublicKey} {q : Nat} {key : HPKEPublicKey}
    (h : knows.path nodes levels p j leaf keys q key) : Deduces knows nodes levels p j leaf keys q (.private_key key) := by
  rcases h with h | ⟨h, hk⟩ | ⟨a, b, k, h1, h2, ⟨y, h3, n, h4, h5⟩, h6⟩
  · exact .had h
  · rcases List.mem_cons.1 hk with rfl | hk
    · exact .leaf h
    · obtain ⟨a, ha⟩ := List.mem_iff_getElem?.1 hk
      exact .node (deduces_up a (.first h) (Nat.zero_le _)) ha
  · exact .node (deduces_up b (.decrypt h2 h3 h4 (.had h5)) h1) h6

private theorem inv_fresh {w : World} (hi : Inv w) {keys : List HPKEPublicKey} (hn : ∀ key ∈ keys, Unheard w.knows key) :
    ∀ y n, w.tree.get y = some n → keyOf n ∉ keys := by
  intro y n hy hc
  obtain ⟨q, hq⟩ := hi.known y n hy
  exact hn _ hc q hq

/-- C106: what `Knowledge.path` says is what the rules of the RFC give: a private key can be deduced from a path if and only
if it was known before, is the sender's, or belongs to a node of the path at or above one whose path secret one could decrypt
with a key one had before.  With a key that is new, nothing of the same path can be decrypted. -/
theorem C106_rules (P : CryptoProvider) (cs : CipherSuite) (Hs : Hash) (hP : P.hash cs = .ok Hs) (w : World)
    (h : Lives P cs w) (leaf : HPKEPublicKey) (keys : List HPKEPublicKey) (p li : Nat) (levels : List Nat)
    (hn : ∀ key ∈ leaf :: keys, Unheard w.knows key) (q : Nat) (key : HPKEPublicKey) :
    Deduces w.knows w.tree.get levels p li leaf keys q (.private_key key) ↔
      w.knows.path w.tree.get levels p li leaf keys q key :=
  ⟨deduces_sound (inv_fresh (lives_inv hP h) hn), deduces_complete⟩

/-- C106: the commit secret of an accepted path can be deduced by exactly the members: nobody who was removed, or never
joined, whatever keys they have. -/
theorem C106_commit_secret (P : CryptoProvider) (cs : CipherSuite) (Hs : Hash) (hP : P.hash cs = .ok Hs) (w : World)
    (h : Lives P cs w) (path : UpdatePath) (p li K : Nat) (t' : RatchetTree) (hw : w.who li = some p)
    (hK : IsHeight ((w.tree.length + 1) / 2) K)
    (hn : ∀ key ∈ path.leaf_node.payload.encryption_key :: path.nodes.map (·.encryption_key), Unheard w.knows key)
    (hd : (path.leaf_node.payload.encryption_key :: path.nodes.map (·.encryption_key)).Nodup)
    (hm : w.tree.merge_update_path P cs li path = (t', .ok ())) (q : Nat) :
    Deduces w.knows w.tree.get (filteredLevels w.tree.get K li) p li path.leaf_node.payload.encryption_key
      (path.nodes.map (·.encryption_key)) q (.path_secret path.nodes.length) ↔ ∃ j, w.who j = some q := by
  have hi := lives_inv hP h
  obtain ⟨last, hl, hlast⟩ := C106_path P cs Hs hP w h path p li K t' hw hK hn hd hm
  have hin := mergeInput hi (by rw [hw]; nofun) hK
  obtain ⟨_, e2, _⟩ := C22_effect P cs Hs hP w.tree t' K li hin.toMergePlace path hm
  rw [List.getLast?_eq_getElem?] at hl
  have hkey : (path.nodes.map (·.encryption_key))[path.nodes.length - 1]? = some last.encryption_key := by
    rw [List.getElem?_map, hl]; rfl
  have hpos := (List.getElem?_eq_some_iff.1 hl).1
  rw [← hlast q]
  constructor
  · intro hds
    rcases deduces_sound (inv_fresh hi hn) hds with h1 | ⟨a, k, h1, h2, h3⟩
    · exact .inr (.inl ⟨h1, List.mem_cons_of_mem _ (List.mem_of_getElem? hkey)⟩)
    · have := (List.getElem?_eq_some_iff.1 h2).1
      exact .inr (.inr ⟨a, path.nodes.length - 1, k, by omega, h2, h3, hkey⟩)
  · rintro (h1 | ⟨rfl, _⟩ | ⟨a, b, k, h1, h2, ⟨y, h3, n, h4, h5⟩, h6⟩)
    · exact absurd h1 (hn _ (List.mem_cons_of_mem _ (List.mem_of_getElem? hkey)) q)
    · exact deduces_up _ (.first rfl) (Nat.zero_le _)
    · have := (List.getElem?_eq_some_iff.1 h2).1
      exact deduces_up _ (.decrypt h2 h3 h4 (.had h5)) (by omega)

/-! ### The hypotheses are met -/

section examples
private abbrev suite1 : CipherSuite := .MLS_128_DHKEMX25519_AES128GCM_SHA256_Ed25519

private def k0 : Knowledge := Knowledge.made (fun _ _ => False) 70 [9]
private def k2 : Knowledge := (k0.made 71 [1]).made 72 [2]
private def threeTree : RatchetTree := some (.Leaf (signedLeaf 9 .Update)) :: sumThree.tail
private def k3 : Knowledge := k2.path threeTree.get (filteredLevels threeTree.get 2 0) 70 0 [0] [[40], [41]]

private theorem three_lives : Lives sumProvider suite1 ⟨threeTree,
    seat (seat (fun j => if j = 0 then some 70 else none) 1 (some 71)) 2 (some 72), k2⟩ := by
  refine .add (signedLeaf 2 .Update) 72 2 (.add (signedLeaf 1 .Update) 71 1 (.new (signedLeaf 9 .Update) 70) ?_
    (.inr ⟨by decide, by decide⟩) rfl rfl rfl) ?_ (.inr ⟨by decide, by decide⟩) rfl rfl rfl
  · rintro q (h | ⟨_, h⟩)
    · exact h
    · cases h
  · rintro q ((h | ⟨_, h⟩) | ⟨_, h⟩)
    · exact h
    · cases h
    · cases h

private theorem three_unheard : ∀ key ∈ ([[0], [40], [41]] : List HPKEPublicKey), Unheard k2 key := by
  intro key hk
  simp only [List.mem_cons, List.not_mem_nil, or_false] at hk
  rcases hk with rfl | rfl | rfl <;>
  · rintro q ((((h | ⟨_, h⟩) | ⟨_, h⟩)) | ⟨_, h⟩)
    · exact h
    · cases h
    · cases h
    · cases h

set_option maxRecDepth 100000 in
/-- Three people, a path of the first, a fourth person who joins, and the removal of the second person. -/
private theorem four_lives : ∃ who knows, Lives sumProvider suite1 ⟨sumFour, who, knows⟩ ∧ who 0 = some 70 ∧ who 1 = some 71 ∧
    who 2 = some 72 ∧ who 3 = some 73 := by
  refine ⟨_, _, .add (signedLeaf 3 .Update) 73 3 (.merge (t' := sumFour.set 3 (some (.Parent sumRoot)) |>.set 6 none) sumPath 70 0 2
    three_lives rfl (pow_isHeight 2) three_unheard (by decide) (by decide +kernel)) ?_ (.inl ⟨3, by decide, by decide⟩)
    (by decide +kernel) (by decide) (by decide), rfl, rfl, rfl, rfl⟩
  rintro q (h | ⟨_, h⟩ | ⟨a, b, k, _, _, _, h⟩)
  · rcases h with ((h | ⟨_, h⟩) | ⟨_, h⟩) | ⟨_, h⟩
    · exact h
    · cases h
    · cases h
    · cases h
  · simp [sumPath, signedLeaf, toyLeaf] at h
  · have := List.mem_of_getElem? h
    simp [sumPath, signedLeaf, toyLeaf] at this

/-- The first three have the key of the root, the fourth has not. -/
example : ∃ w, Lives sumProvider suite1 w ∧ w.tree = sumFour ∧ w.knows 70 [41] ∧ w.knows 71 [41] ∧ w.knows 72 [41] ∧
    ¬ w.knows 73 [41] := by
  obtain ⟨who, knows, h, h0, h1, h2, h3⟩ := four_lives
  have hx := C106_exact sumProvider suite1 sumHash rfl _ h 2 0 (.Parent { sumRoot with unmerged_leaves := [3] }) rfl
  have hw := C106_who sumProvider suite1 sumHash rfl _ h
  refine ⟨_, h, rfl, (hx 70).2 ⟨0, below_div.2 rfl, h0, by decide⟩, (hx 71).2 ⟨1, below_div.2 rfl, h1, by decide⟩,
    (hx 72).2 ⟨2, below_div.2 rfl, h2, by decide⟩, fun hc => ?_⟩
  obtain ⟨j, hj1, hj2, hj3⟩ := (hx 73).1 hc
  have hj : j < 4 := by have := below_div.1 hj1; simp at this; omega
  dsimp only at hj2
  match j, hj with
  | 0, _ => rw [h0] at hj2; cases hj2
  | 1, _ => rw [h1] at hj2; cases hj2
  | 2, _ => rw [h2] at hj2; cases hj2
  | 3, _ => exact hj3 3 (List.mem_singleton.2 rfl) rfl

set_option maxRecDepth 100000 in
/-- The second person is removed and keeps the keys they had; none of them is in the tree any more. -/
example : ∃ w, Lives sumProvider suite1 w ∧ w.knows 71 [41] ∧ (∀ x n, w.tree.get x = some n → ¬ w.knows 71 (keyOf n)) ∧
    w.who 2 = some 72 := by
  obtain ⟨who, knows, h, h0, h1, h2, h3⟩ := four_lives
  have hx := C106_exact sumProvider suite1 sumHash rfl _ h 2 0 (.Parent { sumRoot with unmerged_leaves := [3] }) rfl
  have hr : Lives sumProvider suite1 ⟨[some (.Leaf sumPath.leaf_node), none, none, none, some (.Leaf (signedLeaf 2 .Update)),
      none, some (.Leaf (signedLeaf 3 .Update))], seat who 1 none, knows⟩ :=
    .remove 1 h (by dsimp only; rw [h1]; nofun) (by dsimp only; decide +kernel)
  refine ⟨_, hr, (hx 71).2 ⟨1, below_div.2 rfl, h1, by decide⟩,
    C106_outsider sumProvider suite1 sumHash rfl _ hr 71 fun j hj => ?_, h2⟩
  have hne : j ≠ 1 := by rintro rfl; cases hj
  simp only [seat, if_neg hne] at hj
  have hocc : sumFour.get (node 0 j) ≠ none := by
    obtain ⟨l, hl⟩ := (C106_who sumProvider suite1 sumHash rfl _ h j).1 (by dsimp only; rw [hj]; nofun)
    dsimp only at hl
    rw [hl]; nofun
  have hlt : 2 * j < 7 := by rw [node_zero] at hocc; exact Kept.pos hocc
  match j, hlt with
  | 0, _ => rw [h0] at hj; cases hj
  | 1, _ => exact hne rfl
  | 2, _ => rw [h2] at hj; cases hj
  | 3, _ => rw [h3] at hj; cases hj

set_option maxRecDepth 100000 in
/-- The path of the first person reaches the three people. -/
example : ∀ q, k3 q [41] ↔ q = 70 ∨ q = 71 ∨ q = 72 := by
  intro q
  obtain ⟨last, h1, h2⟩ := C106_path sumProvider suite1 sumHash rfl _ three_lives sumPath 70 0 2
    (sumFour.set 3 (some (.Parent sumRoot)) |>.set 6 none) rfl (pow_isHeight 2) three_unheard (by decide) (by decide +kernel)
  cases h1
  refine (h2 q).trans ?_
  dsimp only [seat]
  constructor
  · rintro ⟨j, hj⟩
    repeat' split at hj
    all_goals first | (cases hj; simp) | cases hj
  · rintro (rfl | rfl | rfl)
    · exact ⟨0, rfl⟩
    · exact ⟨1, rfl⟩
    · exact ⟨2, rfl⟩

set_option maxRecDepth 100000 in
/-- The commit secret of that path can be deduced by the second person and not by somebody else. -/
example : Deduces k2 threeTree.get (filteredLevels threeTree.get 2 0) 70 0 [0] [[40], [41]] 71 (.path_secret 2) ∧
    ¬ Deduces k2 threeTree.get (filteredLevels threeTree.get 2 0) 70 0 [0] [[40], [41]] 73 (.path_secret 2) := by
  have hc := C106_commit_secret sumProvider suite1 sumHash rfl _ three_lives sumPath 70 0 2
    (sumFour.set 3 (some (.Parent sumRoot)) |>.set 6 none) rfl (pow_isHeight 2) three_unheard (by decide) (by decide +kernel)
  refine ⟨(hc 71).2 ⟨1, rfl⟩, fun h => ?_⟩
  obtain ⟨j, hj⟩ := (hc 73).1 h
  dsimp only [seat] at hj
  repeat' split at hj
  all_goals cases hj

end examples
end Rmls
