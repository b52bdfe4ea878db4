import Verif.Proofs.Tables
import Verif.Props.Unchecked
/-
Property C114: the same input gives the same verdict on every run.
-/
namespace Rmls
open Spec RatchetTree

/-- The credential types that all members support, however the map is visited. -/
theorem C114_creds {T : Tables} (hT : LawfulTables T) (t : RatchetTree) :
    match Tabled.supported_creds T t, t.supported_creds with
    | .ok s, .ok l => ∀ c, T.creds.contains s c = true ↔ c ∈ l
    | .err e, .err e' => e = e'
    | .fault f, .fault f' => f = f'
    | _, _ => False := by
  have h := Tabled.supported_creds_same hT t
  generalize Tabled.supported_creds T t = x, t.supported_creds = y at *
  cases x <;> cases y <;> exact h

/-- The keys of the members. -/
theorem C114_keys {T : Tables} (hT : LawfulTables T) (t : RatchetTree) :
    match Tabled.keys T t, t.keys with
    | .ok s, .ok l => (∀ k, T.keys.contains s.1 k = true ↔ k ∈ l.1) ∧ ∀ k, T.keys.contains s.2 k = true ↔ k ∈ l.2
    | .err e, .err e' => e = e'
    | .fault f, .fault f' => f = f'
    | _, _ => False := by
  have h := Tabled.keys_same hT t
  generalize Tabled.keys T t = x, t.keys = y at *
  cases x <;> cases y <;> exact h

/-- The check of a leaf asks the tables only what they contain. -/
theorem C114_leaf {T T' : Tables} (hT : LawfulTables T) (hT' : LawfulTables T') (P : CryptoProvider) (x : LeafNode)
    (cs : CipherSuite) (gid : GroupID) (li : LeafIndex) (now : Int) (c : T.creds.σ) (c' : T'.creds.σ) (s e : T.keys.σ)
    (s' e' : T'.keys.σ) (lc : List CredentialType) (ls le : List Bytes)
    (hc : ∀ a, (T.creds.contains c a = true ↔ a ∈ lc) ∧ (T'.creds.contains c' a = true ↔ a ∈ lc))
    (hs : ∀ a, (T.keys.contains s a = true ↔ a ∈ ls) ∧ (T'.keys.contains s' a = true ↔ a ∈ ls))
    (he : ∀ a, (T.keys.contains e a = true ↔ a ∈ le) ∧ (T'.keys.contains e' a = true ↔ a ∈ le)) :
    Tabled.verifyLeaf T P x cs gid li c s e now = x.verify P ⟨cs, gid, li, lc, ls, le, now⟩ ∧
    Tabled.verifyLeaf T P x cs gid li c s e now = Tabled.verifyLeaf T' P x cs gid li c' s' e' now := by
  have h1 := Tabled.verifyLeaf_same hT P x cs gid li now (fun a => (hc a).1) (fun a => (hs a).1) (fun a => (he a).1)
  have h2 := Tabled.verifyLeaf_same hT' P x cs gid li now (fun a => (hc a).2) (fun a => (hs a).2) (fun a => (he a).2)
  exact ⟨h1, h1.trans h2.symm⟩

/-- The hash of a subtree without some leaves depends on which leaves they are, not on the table that holds them. -/
theorem C114_hash {T T' : Tables} (hT : LawfulTables T) (hT' : LawfulTables T') (P : CryptoProvider) (cs : CipherSuite)
    (t : RatchetTree) (x : Nat) (s : T.leaves.σ) (s' : T'.leaves.σ) (l : List LeafIndex)
    (h : ∀ a, (T.leaves.contains s a = true ↔ a ∈ l) ∧ (T'.leaves.contains s' a = true ↔ a ∈ l)) :
    Tabled.compute_tree_hash T P cs t x s = compute_tree_hash P cs t x l ∧
    Tabled.compute_tree_hash T P cs t x s = Tabled.compute_tree_hash T' P cs t x s' := by
  have h1 := Tabled.compute_tree_hash_same hT P cs t x (fun a => (h a).1)
  have h2 := Tabled.compute_tree_hash_same hT' P cs t x (fun a => (h a).2)
  exact ⟨h1, h1.trans h2.symm⟩

/-- The check of a tree: the verdict, and the reason given, are those of the model, hence the same on two runs. -/
theorem C114_integrity {T T' : Tables} (hT : LawfulTables T) (hT' : LawfulTables T') (P : CryptoProvider) (t : RatchetTree)
    (ctx : GroupContext) (now : Int) :
    Tabled.verify_integrity T P t ctx now = t.verify_integrity P ctx now ∧
    Tabled.verify_integrity T P t ctx now = Tabled.verify_integrity T' P t ctx now := by
  have h1 := Tabled.verify_integrity_same hT P t ctx now
  exact ⟨h1, h1.trans (Tabled.verify_integrity_same hT' P t ctx now).symm⟩

/-- The check of a proposal list. -/
theorem C114_proposals {T T' : Tables} (hT : LawfulTables T) (hT' : LawfulTables T') (ps : List Proposal) (ss : List LeafIndex)
    (c : LeafIndex) :
    Tabled.verify_proposal_list T ps ss c = verify_proposal_list ps ss c ∧
    Tabled.verify_proposal_list T ps ss c = Tabled.verify_proposal_list T' ps ss c := by
  have h1 := Tabled.verify_proposal_list_same hT ps ss c
  exact ⟨h1, h1.trans (Tabled.verify_proposal_list_same hT' ps ss c).symm⟩

/-- Merging a path: the tree and the verdict. -/
theorem C114_merge {T T' : Tables} (hT : LawfulTables T) (hT' : LawfulTables T') (P : CryptoProvider) (cs : CipherSuite)
    (t : RatchetTree) (j : Nat) (path : UpdatePath) :
    Tabled.merge_update_path T P cs t j path = t.merge_update_path P cs j path ∧
    Tabled.merge_update_path T P cs t j path = Tabled.merge_update_path T' P cs t j path := by
  have h1 := Tabled.merge_update_path_same hT P cs t j path
  exact ⟨h1, h1.trans (Tabled.merge_update_path_same hT' P cs t j path).symm⟩

/-- Joining a group: the state of the client. -/
theorem C114_join {T T' : Tables} (hT : LawfulTables T) (hT' : LawfulTables T') (P : CryptoProvider) (cs : CipherSuite)
    (w : Welcome) (kp : KeyPackage) (priv : Bytes) (ext : List (Bytes × Bytes)) (given : Option Bytes) :
    Tabled.join T P cs w kp priv ext given = PassiveClient.join P cs w kp priv ext given ∧
    Tabled.join T P cs w kp priv ext given = Tabled.join T' P cs w kp priv ext given := by
  have h1 := Tabled.join_same hT P cs w kp priv ext given
  exact ⟨h1, h1.trans (Tabled.join_same hT' P cs w kp priv ext given).symm⟩

/-- Handling a commit: both trees. -/
theorem C114_commit {T T' : Tables} (hT : LawfulTables T) (hT' : LawfulTables T') (P : CryptoProvider) (cs : CipherSuite)
    (s : PassiveClient.State) (m : PublicMessage) :
    Tabled.handleCommit T P cs s m = PassiveClient.handleCommit P cs s m ∧
    Tabled.handleCommit T P cs s m = Tabled.handleCommit T' P cs s m := by
  have h1 := Tabled.handleCommit_same hT P cs s m
  exact ⟨h1, h1.trans (Tabled.handleCommit_same hT' P cs s m).symm⟩

/-- The whole run of the client. -/
theorem C114_run {T T' : Tables} (hT : LawfulTables T) (hT' : LawfulTables T') (P : CryptoProvider) (rnd rnd' : Bytes)
    (cs : CipherSuite) (tc : PassiveClient.Input) :
    Tabled.passive_client_test T P rnd rnd' cs tc = PassiveClient.passive_client_test P rnd rnd' cs tc ∧
    Tabled.passive_client_test T P rnd rnd' cs tc = Tabled.passive_client_test T' P rnd rnd' cs tc := by
  have h1 := Tabled.passive_client_test_same hT P rnd rnd' cs tc
  exact ⟨h1, h1.trans (Tabled.passive_client_test_same hT' P rnd rnd' cs tc).symm⟩

section examples
private abbrev suite1 : CipherSuite := .MLS_128_DHKEMX25519_AES128GCM_SHA256_Ed25519

/-- A set as a list. -/
def listSet (α : Type) [DecidableEq α] : SetImpl α :=
  ⟨List α, [], fun s a => a :: s, fun s a => s.filter fun b => decide (b ≠ a), fun s a => decide (a ∈ s), List.isEmpty⟩

/-- A set as a list without repetitions, in the other order. -/
def endSet (α : Type) [DecidableEq α] : SetImpl α :=
  ⟨List α, [], fun s a => if a ∈ s then s else s ++ [a], fun s a => s.filter fun b => decide (b ≠ a), fun s a => decide (a ∈ s),
    fun s => s.length == 0⟩

theorem listSet_lawful (α : Type) [DecidableEq α] : LawfulSet (listSet α) where
  new a := by simp [listSet]
  insert (s : List α) a b := by
    show decide (b ∈ a :: s) = (decide (a = b) || decide (b ∈ s))
    by_cases h : a = b
    · simp [h]
    · simp [h, Ne.symm h]
  remove (s : List α) a b := by
    show decide (b ∈ s.filter fun b => decide (b ≠ a)) = (decide (a ≠ b) && decide (b ∈ s))
    by_cases h : a = b
    · simp [h]
    · simp [h, Ne.symm h]
  is_empty (s : List α) := by
    show s.isEmpty = true ↔ ∀ a, decide (a ∈ s) = false
    cases s with
    | nil => simp
    | cons a s => simpa using ⟨a, fun h => absurd rfl h⟩

theorem endSet_lawful (α : Type) [DecidableEq α] : LawfulSet (endSet α) where
  new a := by simp [endSet]
  insert (s : List α) a b := by
    show decide (b ∈ if a ∈ s then s else s ++ [a]) = (decide (a = b) || decide (b ∈ s))
    split
    · rename_i hm
      by_cases h : a = b
      · subst h; simp [hm]
      · simp [h]
    · by_cases h : a = b
      · simp [h]
      · simp [h, Ne.symm h]
  remove := (listSet_lawful α).remove
  is_empty (s : List α) := by
    show (s.length == 0) = true ↔ ∀ a, decide (a ∈ s) = false
    cases s with
    | nil => simp
    | cons a s => simpa using ⟨a, fun h => absurd rfl h⟩

/-- The pairs of a list without the one of a key. -/
def without {κ ν : Type} [DecidableEq κ] (k : κ) (l : List (κ × ν)) : List (κ × ν) := l.filter fun p => decide (p.1 ≠ k)

/-- A map as a list of pairs, the newest first, visited from the front or from the back. -/
def listMap (κ ν : Type) [DecidableEq κ] (back : Bool) : MapImpl κ ν :=
  ⟨{ l : List (κ × ν) // (l.map (·.1)).Nodup }, ⟨[], List.nodup_nil⟩, fun m k => (m.1.find? fun p => decide (p.1 = k)).map (·.2),
    fun m k v => ⟨(k, v) :: without k m.1, by
      rw [List.map_cons, List.nodup_cons]
      refine ⟨?_, m.2.sublist (List.filter_sublist.map _)⟩
      unfold without
      simp⟩,
    fun m => if back then m.1.reverse else m.1⟩

theorem listMap_lawful (κ ν : Type) [DecidableEq κ] (back : Bool) : LawfulMap (listMap κ ν back) where
  new k := rfl
  insert m k v k' := by
    show (((k, v) :: without k m.1).find? fun p => decide (p.1 = k')).map (·.2) =
      if k = k' then some v else (m.1.find? fun p => decide (p.1 = k')).map (·.2)
    rw [List.find?_cons]
    by_cases h : k = k'
    · simp [h]
    · rw [if_neg h, decide_eq_false (by exact h)]
      dsimp only
      generalize m.1 = l
      unfold without
      rw [List.find?_filter]
      congr 2
      funext p
      by_cases hp : p.1 = k'
      · simp [hp, Ne.symm h]
      · simp [hp]
  entries m k v := by
    have key : ∀ l : List (κ × ν), (l.map (·.1)).Nodup →
        ((k, v) ∈ l ↔ (l.find? fun p => decide (p.1 = k)).map (·.2) = some v) := by
      intro l
      induction l with
      | nil => intro _; simp
      | cons p l ih =>
        intro hn
        obtain ⟨a, b⟩ := p
        rw [List.map_cons, List.nodup_cons] at hn
        rw [List.find?_cons, List.mem_cons]
        by_cases h : a = k
        · subst h
          simp only [decide_true, Option.map_some, Option.some.injEq, Prod.mk.injEq, true_and]
          refine ⟨fun h => h.elim Eq.symm fun h => absurd (List.mem_map_of_mem (f := (·.1)) h) hn.1, fun h => .inl h.symm⟩
        · simp only [decide_eq_false h, ← ih hn.2, Prod.mk.injEq]
          exact ⟨fun h' => h'.elim (fun h' => absurd h'.1.symm h) id, .inr⟩
    show (k, v) ∈ (if back then m.1.reverse else m.1) ↔ _
    rw [← show ((k, v) ∈ m.1 ↔ (k, v) ∈ if back then m.1.reverse else m.1) by cases back <;> simp]
    exact key m.1 m.2
  once m := by
    show ((if back then m.1.reverse else m.1).map (·.1)).Nodup
    cases back
    · exact m.2
    · rw [if_pos rfl, List.map_reverse]; exact (List.reverse_perm _).nodup_iff.2 m.2

/-- Tables of lists, the counts visited from the front. -/
def frontTables : Tables := ⟨listSet _, listSet _, listSet _, listSet _, listMap _ _ false⟩

/-- Other tables, the counts visited from the back. -/
def backTables : Tables := ⟨endSet _, endSet _, endSet _, endSet _, listMap _ _ true⟩

theorem frontTables_lawful : LawfulTables frontTables :=
  ⟨listSet_lawful _, listSet_lawful _, listSet_lawful _, listSet_lawful _, listMap_lawful _ _ _⟩

theorem backTables_lawful : LawfulTables backTables :=
  ⟨endSet_lawful _, endSet_lawful _, endSet_lawful _, endSet_lawful _, listMap_lawful _ _ _⟩

/-- The hypotheses of `C114_integrity` can be met by tables that visit the counts in different orders; the tree is a good one. -/
example : Tabled.verify_integrity frontTables toyProvider goodTree (contextOf goodTree) 0 = .ok () ∧
    Tabled.verify_integrity backTables toyProvider goodTree (contextOf goodTree) 0 = .ok () := by
  obtain ⟨h1, h2⟩ := C114_integrity frontTables_lawful backTables_lawful toyProvider goodTree (contextOf goodTree) 0
  have h : goodTree.verify_integrity toyProvider (contextOf goodTree) 0 = .ok () := by decide +kernel
  exact ⟨h1.trans h, h2.symm.trans (h1.trans h)⟩

/-- The orders do differ: two types of credentials, counted one after the other. -/
example : frontTables.counts.entries (Tabled.bumpCred frontTables (Tabled.bumpCred frontTables frontTables.counts.new .Basic) .X509) =
      [(.X509, 1), (.Basic, 1)] ∧
    backTables.counts.entries (Tabled.bumpCred backTables (Tabled.bumpCred backTables backTables.counts.new .Basic) .X509) =
      [(.Basic, 1), (.X509, 1)] := ⟨rfl, rfl⟩

/-- `C114_join`: the client of the examples joins whatever the tables are. -/
example (T : Tables) (hT : LawfulTables T) :
    Tabled.join T toyProvider suite1 joinWelcome joinPackage [3] [([0], [9]), ([1], [5])] none = .ok joinState :=
  (C114_join hT frontTables_lawful toyProvider suite1 joinWelcome joinPackage [3] [([0], [9]), ([1], [5])] none).1.trans
    joinState_join

set_option maxRecDepth 100000 in
/-- `C114_commit`: a commit with a path. -/
example (T : Tables) (hT : LawfulTables T) : Tabled.handleCommit T toyProvider suite1 joinState
    (commitOf 0 [.GroupContextExtensions ⟨[]⟩] rootPath joinInfo.group_context) =
      .ok (joinTree, [some (.Leaf rootPath.leaf_node), some (.Parent ⟨[41], [], []⟩), some (.Leaf joinLeaf)]) :=
  (C114_commit hT frontTables_lawful toyProvider suite1 joinState _).1.trans (by decide +kernel)

/-- `C114_proposals`: a second key is refused for the same reason. -/
example (T : Tables) (hT : LawfulTables T) (c : LeafIndex) :
    Tabled.verify_proposal_list T [.Remove ⟨1⟩, .Remove ⟨1⟩] [c, c] c =
      verify_proposal_list [.Remove ⟨1⟩, .Remove ⟨1⟩] [c, c] c :=
  (C114_proposals hT hT _ _ _).1

end examples

end Rmls
