import Verif.Spec.TreeChecks
import Verif.Proofs.RatchetTree
/-
Loops over the leaves.
-/
namespace Rmls
open Spec
namespace RatchetTree

theorem get_leaf_spec {t : RatchetTree} {i : Nat} (hi : i < 2 ^ 31) :
    t.get_leaf i = .ok (leafOf (t.get (node 0 i))) := by
  rw [get_leaf_eq hi, node_zero]
  congr 1

theorem mem_members {nodes : Nat → Option Node} {n i : Nat} {l : LeafNode} :
    (i, l) ∈ members nodes n ↔ i < n ∧ nodes (node 0 i) = some (.Leaf l) := by
  unfold members
  rw [List.mem_filterMap]
  constructor
  · rintro ⟨j, hj, h⟩
    rw [List.mem_range] at hj
    unfold leafOf at h
    split at h
    · rename_i l' hn
      simp at h
      obtain ⟨rfl, rfl⟩ := h
      exact ⟨hj, hn⟩
    · cases h
  · rintro ⟨h1, h2⟩
    exact ⟨i, List.mem_range.2 h1, by rw [h2]; rfl⟩

theorem forLeaves_eq {σ : Type} (t : RatchetTree) (body : σ → Nat → LeafNode → Res σ) :
    ∀ (ls : List Nat) (s : σ), (∀ i ∈ ls, i < 2 ^ 31) → forLeaves t body ls s =
      (ls.filterMap fun i => (leafOf (t.get (node 0 i))).map fun l => (i, l)).foldlM
        (fun s m => body s m.1 m.2) s := by
  intro ls
  induction ls with
  | nil => intro s _; rfl
  | cons i ls ih =>
    intro s h
    have hi := h i (List.mem_cons_self ..)
    have ht := fun s => ih s fun j hj => h j (List.mem_cons_of_mem _ hj)
    unfold forLeaves
    rw [get_leaf_spec hi, Res.ok_bind]
    cases hl : leafOf (t.get (node 0 i)) with
    | none => simp only [List.filterMap_cons, hl, Option.map_none]; exact ht s
    | some l =>
      simp only [List.filterMap_cons, hl, Option.map_some, List.foldlM_cons]
      congr 1
      funext s'
      exact ht s'

theorem forLeaves_members {σ : Type} {t : RatchetTree} (hl : t.length < 2 ^ 32)
    (body : σ → Nat → LeafNode → Res σ) (s : σ) : forLeaves t body (List.range t.num_leaves) s =
      (members t.get t.num_leaves).foldlM (fun s m => body s m.1 m.2) s := by
  refine forLeaves_eq t body _ s fun i hi => ?_
  rw [List.mem_range] at hi
  by_cases h0 : 0 < t.length
  · have := (num_leaves_bounds h0 hl).2.1; omega
  · have h0 : t.length = 0 := by omega
    have : t.num_leaves = 0 := by
      unfold num_leaves; rw [h0]; rfl
    omega

theorem foldlM_ok {σ α : Type} (f : σ → α → σ) : ∀ (ms : List α) (s : σ),
    ms.foldlM (fun s m => Res.ok (f s m)) s = Res.ok (ms.foldl f s) := by
  intro ms
  induction ms with
  | nil => intro s; rfl
  | cons m ms ih => intro s; simp only [List.foldlM_cons, Res.ok_bind, List.foldl_cons]; exact ih _

/-! ### the count of credential types -/

/-- The number stored for a key. -/
def look (m : List (CredentialType × Nat)) (ct : CredentialType) : Nat :=
  ((m.find? fun c => c.1 = ct).map (·.2)).getD 0

theorem look_nil (ct : CredentialType) : look [] ct = 0 := rfl

theorem look_cons (c : CredentialType) (n : Nat) (m : List (CredentialType × Nat)) (ct : CredentialType) :
    look ((c, n) :: m) ct = if c = ct then n else look m ct := by
  unfold look
  rw [List.find?_cons]
  by_cases h : c = ct
  · simp [h]
  · simp [h]

theorem look_bump (ct ct' : CredentialType) (m : List (CredentialType × Nat)) :
    look (bumpCred ct m) ct' = look m ct' + if ct' = ct then 1 else 0 := by
  induction m with
  | nil =>
    rw [bumpCred, look_cons, look_nil]
    by_cases h : ct = ct'
    · rw [if_pos h, if_pos h.symm]
    · rw [if_neg h, if_neg (Ne.symm h)]
  | cons a m ih =>
    obtain ⟨c, n⟩ := a
    rw [bumpCred]
    by_cases hc : c = ct
    · rw [if_pos hc, look_cons, look_cons]
      by_cases h : c = ct'
      · rw [if_pos h, if_pos h, if_pos (by rw [← h, hc])]
      · rw [if_neg h, if_neg h, if_neg (by rw [← hc]; exact Ne.symm h)]; rfl
    · rw [if_neg hc, look_cons, look_cons, ih]
      by_cases h : c = ct'
      · rw [if_pos h, if_pos h, if_neg (by rw [← h]; exact hc)]; rfl
      · rw [if_neg h, if_neg h]

/-- Every key once, every number positive. -/
def Counts (m : List (CredentialType × Nat)) : Prop := (m.map (·.1)).Nodup ∧ ∀ c ∈ m, 0 < c.2

theorem bump_keys {ct : CredentialType} {m : List (CredentialType × Nat)} {c : CredentialType} :
    c ∈ (bumpCred ct m).map (·.1) ↔ c = ct ∨ c ∈ m.map (·.1) := by
  induction m with
  | nil => simp [bumpCred]
  | cons a m ih =>
    obtain ⟨d, n⟩ := a
    rw [bumpCred]
    by_cases hd : d = ct
    · rw [if_pos hd]; simp [hd]
    · rw [if_neg hd]
      rw [List.map_cons, List.mem_cons, ih, List.map_cons, List.mem_cons]
      constructor
      · rintro (h | h | h)
        · exact .inr (.inl h)
        · exact .inl h
        · exact .inr (.inr h)
      · rintro (h | h | h)
        · exact .inr (.inl h)
        · exact .inl h
        · exact .inr (.inr h)

theorem counts_bump {ct : CredentialType} {m : List (CredentialType × Nat)} (h : Counts m) :
    Counts (bumpCred ct m) := by
  induction m with
  | nil => exact ⟨by simp [bumpCred], by simp [bumpCred]⟩
  | cons a m ih =>
    obtain ⟨d, n⟩ := a
    obtain ⟨h1, h2⟩ := h
    rw [List.map_cons, List.nodup_cons] at h1
    rw [bumpCred]
    by_cases hd : d = ct
    · rw [if_pos hd]
      refine ⟨by rw [List.map_cons, List.nodup_cons]; exact h1, ?_⟩
      intro c hc
      rcases List.mem_cons.1 hc with rfl | hc
      · simp
      · exact h2 c (List.mem_cons_of_mem _ hc)
    · rw [if_neg hd]
      obtain ⟨h3, h4⟩ := ih ⟨h1.2, fun c hc => h2 c (List.mem_cons_of_mem _ hc)⟩
      refine ⟨?_, ?_⟩
      · rw [List.map_cons, List.nodup_cons]
        refine ⟨?_, h3⟩
        rw [bump_keys]
        rintro (h | h)
        · exact hd h
        · exact h1.1 h
      · intro c hc
        rcases List.mem_cons.1 hc with rfl | hc
        · exact h2 _ (List.mem_cons_self ..)
        · exact h4 c hc

theorem counts_fold {cts : List CredentialType} {m : List (CredentialType × Nat)} (h : Counts m) :
    Counts (cts.foldl (fun m ct => bumpCred ct m) m) ∧
    ∀ ct, look (cts.foldl (fun m ct => bumpCred ct m) m) ct = look m ct + cts.count ct := by
  induction cts generalizing m with
  | nil => exact ⟨h, fun ct => by simp⟩
  | cons a cts ih =>
    rw [List.foldl_cons]
    obtain ⟨h1, h2⟩ := ih (counts_bump (ct := a) h)
    refine ⟨h1, fun ct => ?_⟩
    rw [h2, look_bump, List.count_cons]
    by_cases hc : ct = a
    · subst hc; simp; omega
    · rw [if_neg hc, if_neg (by simpa using Ne.symm hc)]; omega

theorem counts_mem {m : List (CredentialType × Nat)} (h : Counts m) {ct : CredentialType} {n : Nat} :
    (ct, n) ∈ m ↔ 0 < n ∧ look m ct = n := by
  induction m with
  | nil => simp [look_nil]; omega
  | cons a m ih =>
    obtain ⟨d, k⟩ := a
    obtain ⟨h1, h2⟩ := h
    rw [List.map_cons, List.nodup_cons] at h1
    have ih := ih ⟨h1.2, fun c hc => h2 c (List.mem_cons_of_mem _ hc)⟩
    have hk : 0 < k := h2 _ (List.mem_cons_self ..)
    rw [look_cons, List.mem_cons]
    by_cases hd : d = ct
    · subst hd
      rw [if_pos rfl]
      constructor
      · rintro (h | h)
        · injection h with _ h; exact ⟨by omega, h.symm⟩
        · exact absurd (List.mem_map.2 ⟨_, h, rfl⟩) h1.1
      · rintro ⟨_, h⟩; left; rw [h]
    · rw [if_neg hd, ← ih]
      constructor
      · rintro (h | h)
        · injection h with h _; exact absurd h.symm hd
        · exact h
      · exact .inr

theorem supported_creds_eq {t : RatchetTree} (hl : t.length < 2 ^ 32) :
    ∃ r, t.supported_creds = .ok r ∧ ∀ ct, ct ∈ r ↔
      0 < credCount (members t.get t.num_leaves) ct ∧
      credCount (members t.get t.num_leaves) ct = (members t.get t.num_leaves).length := by
  unfold supported_creds
  rw [forLeaves_members hl, foldlM_ok (f := fun (s : Nat × List (CredentialType × Nat)) (m : Nat × LeafNode) =>
    (s.1 + 1, m.2.payload.capabilities.credentials.foldl (fun m ct => bumpCred ct m) s.2)), Res.ok_bind]
  generalize members t.get t.num_leaves = ms
  have key : ∀ (ms : List (Nat × LeafNode)) (s : Nat × List (CredentialType × Nat)), Counts s.2 →
      (ms.foldl (fun (s : Nat × List (CredentialType × Nat)) (m : Nat × LeafNode) =>
        (s.1 + 1, m.2.payload.capabilities.credentials.foldl (fun m ct => bumpCred ct m) s.2)) s).1 =
        s.1 + ms.length ∧
      Counts (ms.foldl (fun (s : Nat × List (CredentialType × Nat)) (m : Nat × LeafNode) =>
        (s.1 + 1, m.2.payload.capabilities.credentials.foldl (fun m ct => bumpCred ct m) s.2)) s).2 ∧
      ∀ ct, look (ms.foldl (fun (s : Nat × List (CredentialType × Nat)) (m : Nat × LeafNode) =>
        (s.1 + 1, m.2.payload.capabilities.credentials.foldl (fun m ct => bumpCred ct m) s.2)) s).2 ct =
        look s.2 ct + credCount ms ct := by
    intro ms
    induction ms with
    | nil => intro s h; exact ⟨rfl, h, fun ct => by simp [credCount]⟩
    | cons m ms ih =>
      intro s h
      rw [List.foldl_cons]
      obtain ⟨h1, h2⟩ := counts_fold (cts := m.2.payload.capabilities.credentials) h
      obtain ⟨h3, h4, h5⟩ := ih (s.1 + 1, m.2.payload.capabilities.credentials.foldl (fun m ct => bumpCred ct m) s.2) h1
      refine ⟨by rw [h3, List.length_cons]; dsimp only; omega, h4, fun ct => ?_⟩
      rw [h5]
      dsimp only
      rw [h2]
      unfold credCount
      rw [List.map_cons, List.sum_cons]
      omega
  obtain ⟨h1, h2, h3⟩ := key ms (0, []) ⟨List.nodup_nil, fun c hc => by cases hc⟩
  generalize ms.foldl (fun (s : Nat × List (CredentialType × Nat)) (m : Nat × LeafNode) =>
    (s.1 + 1, m.2.payload.capabilities.credentials.foldl (fun m ct => bumpCred ct m) s.2)) (0, []) = r at *
  refine ⟨_, rfl, fun ct => ?_⟩
  have h3 := h3 ct
  rw [look_nil] at h3
  dsimp only at h1
  rw [List.mem_map]
  constructor
  · rintro ⟨⟨c, n⟩, hc, rfl⟩
    rw [List.mem_filter] at hc
    obtain ⟨hc1, hc2⟩ := hc
    rw [counts_mem h2] at hc1
    simp at hc2
    dsimp only at h3 ⊢
    omega
  · rintro ⟨ha, hb⟩
    refine ⟨(ct, ms.length), ?_, rfl⟩
    rw [List.mem_filter, counts_mem h2]
    refine ⟨⟨by omega, by omega⟩, ?_⟩
    simp; omega

/-! ### apply -/

theorem applyUpdates_eq (senders : List LeafIndex) : ∀ (ps : List Proposal) (i : Nat) (t : RatchetTree),
    i + ps.length ≤ senders.length → applyUpdates senders i ps t =
      (updatesOf (ps.zip (senders.drop i))).foldlM (fun t u => t.update u.1 u.2) t := by
  intro ps
  induction ps with
  | nil => intro i t _; rfl
  | cons p ps ih =>
    intro i t h
    rw [List.length_cons] at h
    have hd : senders.drop i = senders[i] :: senders.drop (i + 1) := by rw [List.drop_eq_getElem_cons (by omega)]
    rw [hd, List.zip_cons_cons]
    have hget : senders[i]? = some senders[i] := List.getElem?_eq_getElem (by omega)
    have ih := fun t => ih (i + 1) t (by omega)
    cases p <;> simp only [applyUpdates, updatesOf, hget, List.foldlM_cons, ih]

theorem applyRemoves_eq : ∀ (ps : List Proposal) (t : RatchetTree), applyRemoves ps t =
    (removesOf ps).foldlM (fun t li => t.remove li) t := by
  intro ps
  induction ps with
  | nil => intro t; rfl
  | cons p ps ih => intro t; cases p <;> simp only [applyRemoves, removesOf, List.foldlM_cons, ih]

theorem applyAdds_eq : ∀ (ps : List Proposal) (t : RatchetTree), applyAdds ps t =
    (addsOf ps).foldlM (fun t l => t.add l) t := by
  intro ps
  induction ps with
  | nil => intro t; rfl
  | cons p ps ih => intro t; cases p <;> simp only [applyAdds, addsOf, List.foldlM_cons, ih]

/-! ### find_leaf -/

/-- What the search does with the first member that has the key. -/
def foundAt (node : LeafNode) (m : Nat × LeafNode) : Res (Option Nat) :=
  match node.serialize, m.2.serialize with
  | .ok raw1, .ok raw2 => pure (if raw1 = raw2 then some m.1 else none)
  | .fault f, _ => .fault f
  | _, .fault f => .fault f
  | _, _ => pure none

theorem findLeafLoop_eq (t : RatchetTree) (nd : LeafNode) : ∀ ls : List Nat, (∀ i ∈ ls, i < 2 ^ 31) →
    findLeafLoop t nd ls =
      match (ls.filterMap fun i => (leafOf (t.get (node 0 i))).map fun l => (i, l)).find?
        (fun m => decide (m.2.payload.encryption_key = nd.payload.encryption_key)) with
      | none => .ok none
      | some m => foundAt nd m := by
  intro ls
  induction ls with
  | nil => intro _; rfl
  | cons i ls ih =>
    intro h
    have hi := h i (List.mem_cons_self ..)
    have ih := ih fun j hj => h j (List.mem_cons_of_mem _ hj)
    unfold findLeafLoop
    rw [get_leaf_spec hi, Res.ok_bind]
    cases hl : leafOf (t.get (node 0 i)) with
    | none => simp only [List.filterMap_cons, hl, Option.map_none]; exact ih
    | some l =>
      simp only [List.filterMap_cons, hl, Option.map_some]
      by_cases hk : l.payload.encryption_key = nd.payload.encryption_key
      · rw [if_neg (by simp [hk]), List.find?_cons_of_pos (by simp [hk])]
        rfl
      · rw [if_pos hk, List.find?_cons_of_neg (by simp [hk])]
        exact ih

end RatchetTree
end Rmls
