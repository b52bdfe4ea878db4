import Verif.Spec.Tables
import Verif.Proofs.TreeChecks
/-
The functions with tables compute what the functions with lists compute.
-/
namespace Rmls

/-- Two outcomes that differ at most in related results. -/
def Res.Same {α β : Type} (R : α → β → Prop) : Res α → Res β → Prop
  | .ok a, .ok b => R a b
  | .err e, .err e' => e = e'
  | .fault f, .fault f' => f = f'
  | _, _ => False

namespace Res.Same
variable {α β γ δ : Type} {R : α → β → Prop} {Q : γ → δ → Prop}

theorem bind {x : Res α} {y : Res β} {f : α → Res γ} {g : β → Res δ} (h : Same R x y)
    (hf : ∀ a b, R a b → Same Q (f a) (g b)) : Same Q (x >>= f) (y >>= g) := by
  cases x <;> cases y <;> first | exact False.elim h | skip
  · exact hf _ _ h
  · exact h
  · exact h

theorem eq {x y : Res α} (h : Same (fun a b => a = b) x y) : x = y := by
  cases x <;> cases y <;> first | exact False.elim h | skip
  · exact congrArg _ h
  · exact congrArg _ h
  · exact congrArg _ h

theorem refl (x : Res α) : Same (fun a b => a = b) x x := by cases x <;> exact rfl

theorem of_eq {x y : Res α} (h : x = y) : Same (fun a b => a = b) x y := h ▸ refl x

end Res.Same

namespace Tabled
open Spec RatchetTree Res Res.Same

/-- The set has the entries of the list. -/
def Like {α : Type} (S : SetImpl α) (s : S.σ) (l : List α) : Prop := ∀ a, S.contains s a = true ↔ a ∈ l

section
variable {α : Type} [DecidableEq α] {S : SetImpl α} (hS : LawfulSet S)
include hS

theorem like_new : Like S S.new [] := fun a => by rw [hS.new]; simp

theorem like_insert {s : S.σ} {l : List α} (h : Like S s l) (a : α) : Like S (S.insert s a) (a :: l) := fun b => by
  rw [hS.insert, Bool.or_eq_true, h, List.mem_cons, decide_eq_true_eq]
  exact ⟨fun x => x.imp Eq.symm id, fun x => x.imp Eq.symm id⟩

theorem like_remove {s : S.σ} {l : List α} (h : Like S s l) (a : α) :
    Like S (S.remove s a) (l.filter fun b => decide (b ≠ a)) := fun b => by
  rw [hS.remove, Bool.and_eq_true, h, List.mem_filter, decide_eq_true_eq, decide_eq_true_eq]
  exact ⟨fun x => ⟨x.2, Ne.symm x.1⟩, fun x => ⟨Ne.symm x.2, x.1⟩⟩

theorem like_empty {s : S.σ} {l : List α} (h : Like S s l) : S.is_empty s = l.isEmpty := by
  rw [Bool.eq_iff_iff, hS.is_empty, List.isEmpty_iff]
  constructor
  · intro hn
    cases l with
    | nil => rfl
    | cons a l => have := (h a).2 List.mem_cons_self; rw [hn a] at this; cases this
  · rintro rfl a
    cases hc : S.contains s a with
    | false => rfl
    | true => exact absurd ((h a).1 hc) List.not_mem_nil

theorem like_insertAll (xs : List α) : Like S (insertAll S xs) xs := by
  have key : ∀ (xs : List α) (s : S.σ) (l : List α), Like S s l → ∀ a, S.contains (xs.foldl S.insert s) a = true ↔ a ∈ xs ∨ a ∈ l := by
    intro xs
    induction xs with
    | nil => intro s l h a; rw [List.foldl_nil, h]; simp
    | cons x xs ih =>
      intro s l h a
      rw [List.foldl_cons, ih _ _ (like_insert hS h x), List.mem_cons, List.mem_cons]
      exact ⟨fun h => h.elim (fun h => .inl (.inr h)) fun h => h.elim (fun h => .inl (.inl h)) .inr,
        fun h => h.elim (fun h => h.elim (fun h => .inr (.inl h)) .inl) fun h => .inr (.inr h)⟩
  intro a
  unfold insertAll
  rw [key xs _ [] (like_new hS)]
  simp

end

theorem Like.contains {α : Type} [BEq α] [LawfulBEq α] {S : SetImpl α} {s : S.σ} {l : List α} (h : Like S s l) (a : α) :
    S.contains s a = l.contains a := by
  rw [Bool.eq_iff_iff, h, List.contains_iff_mem]

/-! ### The loops over the leaves -/

theorem forLeaves_same {σ τ : Type} {R : σ → τ → Prop} (t : RatchetTree) {b : σ → Nat → LeafNode → Res σ}
    {b' : τ → Nat → LeafNode → Res τ} (hb : ∀ s s' i n, R s s' → Same R (b s i n) (b' s' i n)) :
    ∀ (ls : List Nat) (s : σ) (s' : τ), R s s' → Same R (forLeaves t b ls s) (forLeaves t b' ls s') := by
  intro ls
  induction ls with
  | nil => intro s s' h; exact h
  | cons li ls ih =>
    intro s s' h
    unfold forLeaves
    refine (refl (t.get_leaf li)).bind fun o _ ho => ?_
    subst ho
    cases o with
    | none => exact ih s s' h
    | some n => exact (hb s s' li n h).bind fun a c hac => ih a c hac

variable {T : Tables} (hT : LawfulTables T)
include hT

theorem bump_same {m : T.counts.σ} {l : List (CredentialType × Nat)}
    (h : Counts l ∧ ∀ k, T.counts.get m k = if look l k = 0 then none else some (look l k)) (ct : CredentialType) :
    Counts (RatchetTree.bumpCred ct l) ∧ ∀ k, T.counts.get (bumpCred T m ct) k =
      if look (RatchetTree.bumpCred ct l) k = 0 then none else some (look (RatchetTree.bumpCred ct l) k) := by
  obtain ⟨h1, h2⟩ := h
  refine ⟨counts_bump h1, fun k => ?_⟩
  have hct := h2 ct
  unfold bumpCred
  rw [look_bump]
  by_cases hk : k = ct
  · subst hk
    rw [if_pos rfl, if_neg (by omega)]
    split <;> rename_i hg <;> rw [hg] at hct <;> rw [hT.counts.insert, if_pos rfl]
    · split at hct
      · cases hct
      · cases hct; rfl
    · split at hct
      · rename_i h0; rw [h0]
      · cases hct
  · rw [if_neg hk, Nat.add_zero, ← h2 k]
    split <;> rw [hT.counts.insert, if_neg (Ne.symm hk)]

theorem supported_creds_same (t : RatchetTree) : Same (Like T.creds) (supported_creds T t) t.supported_creds := by
  unfold supported_creds RatchetTree.supported_creds
  refine Res.Same.bind (R := fun (s : Nat × T.counts.σ) (s' : Nat × List (CredentialType × Nat)) => s.1 = s'.1 ∧ Counts s'.2 ∧
    ∀ k, T.counts.get s.2 k = if look s'.2 k = 0 then none else some (look s'.2 k))
    (forLeaves_same t (fun s s' i n h => ?_) _ _ _ ⟨rfl, ⟨List.nodup_nil, fun c hc => by cases hc⟩, fun k => by
      rw [look_nil, if_pos rfl]; exact hT.counts.new k⟩) fun s s' h => ?_
  · refine ⟨by rw [h.1], ?_⟩
    generalize n.payload.capabilities.credentials = cts
    have h2 := h.2
    clear h
    obtain ⟨s1, m⟩ := s
    obtain ⟨s1', l⟩ := s'
    dsimp only at h2 ⊢
    induction cts generalizing m l with
    | nil => exact h2
    | cons c cts ih => exact ih _ _ (bump_same hT h2 c)
  · obtain ⟨num, m⟩ := s
    obtain ⟨num', l⟩ := s'
    obtain ⟨rfl, hc, hg⟩ := h
    dsimp only at hc hg ⊢
    show Like T.creds _ _
    intro a
    have key : ∀ (es : List (CredentialType × Nat)) (s : T.creds.σ) (k : List CredentialType), Like T.creds s k →
        (T.creds.contains (es.foldl (fun s c => if c.2 = num then T.creds.insert s c.1 else s) s) a = true ↔
          (a, num) ∈ es ∨ a ∈ k) := by
      intro es
      induction es with
      | nil => intro s k h; rw [List.foldl_nil, h]; simp
      | cons e es ih =>
        intro s k h
        obtain ⟨c, n⟩ := e
        rw [List.foldl_cons]
        dsimp only
        split
        · rename_i hn
          rw [ih _ _ (like_insert hT.creds h c), List.mem_cons, List.mem_cons]
          subst hn
          simp only [Prod.mk.injEq, and_true]
          exact ⟨fun h => h.elim (fun h => .inl (.inr h)) fun h => h.elim (fun h => .inl (.inl h)) .inr,
            fun h => h.elim (fun h => h.elim (fun h => .inr (.inl h)) .inl) fun h => .inr (.inr h)⟩
        · rename_i hn
          rw [ih _ _ h, List.mem_cons]
          simp only [Prod.mk.injEq]
          exact ⟨fun h => h.imp .inr id, fun h => h.imp (fun h => h.elim (fun h => absurd h.2.symm hn) id) id⟩
    rw [key _ _ _ (like_new hT.creds), hT.counts.entries, hg, List.mem_map]
    constructor
    · rintro (h | h)
      · split at h
        · cases h
        · cases h
          exact ⟨(a, look l a), List.mem_filter.2 ⟨(counts_mem hc).2 ⟨by omega, rfl⟩, by simp⟩, rfl⟩
      · cases h
    · rintro ⟨⟨c, n⟩, h, rfl⟩
      obtain ⟨h1, h2⟩ := List.mem_filter.1 h
      obtain ⟨h3, h4⟩ := (counts_mem hc).1 h1
      have h2 := of_decide_eq_true h2
      dsimp only at h2
      left
      rw [if_neg (fun h => by rw [h4] at h; omega), h4, h2]

theorem keys_same (t : RatchetTree) :
    Same (fun s s' => Like T.keys s.1 s'.1 ∧ Like T.keys s.2 s'.2) (keys T t) t.keys := by
  unfold keys RatchetTree.keys
  refine forLeaves_same t (fun s s' i n h => ?_) _ _ _ ⟨like_new hT.keys, like_new hT.keys⟩
  exact ⟨like_insert hT.keys h.1 _, like_insert hT.keys h.2 _⟩

/-! ### Checking a leaf -/

omit hT in
theorem checkExtensions_same {s : T.exts.σ} {l : List ExtensionType} (h : Like T.exts s l) :
    ∀ es, checkExtensions T s es = LeafNode.checkExtensions l es := by
  intro es
  induction es with
  | nil => rfl
  | cons e es ih =>
    unfold checkExtensions LeafNode.checkExtensions
    rw [h.contains, ih]
    cases l.contains e.extension_type <;> rfl

theorem verifyLeaf_same (P : CryptoProvider) (x : LeafNode) (cs : CipherSuite) (gid : GroupID) (li : LeafIndex) (now : Int)
    {c : T.creds.σ} {c' : List CredentialType} {s e : T.keys.σ} {s' e' : List Bytes} (hc : Like T.creds c c')
    (hs : Like T.keys s s') (he : Like T.keys e e') :
    verifyLeaf T P x cs gid li c s e now = x.verify P ⟨cs, gid, li, c', s', e', now⟩ := by
  unfold verifyLeaf LeafNode.verify
  simp only [hc.contains, hs.contains, he.contains, checkExtensions_same (like_insertAll hT.exts _)]

/-! ### Hashing -/

theorem hashParent_same (n : Option Node) {s : T.leaves.σ} {l : List LeafIndex} (h : Like T.leaves s l) :
    hashParent T n s = RatchetTree.hashParent n l := by
  unfold hashParent RatchetTree.hashParent
  simp only [like_empty hT.leaves h, h.contains]
  rfl

theorem treeHashFuel_same (P : CryptoProvider) (cs : CipherSuite) (t : RatchetTree) {s : T.leaves.σ} {l : List LeafIndex}
    (h : Like T.leaves s l) : ∀ fuel x, treeHashFuel T P cs t s fuel x = RatchetTree.treeHashFuel P cs t l fuel x := by
  intro fuel
  induction fuel with
  | zero => intro x; rfl
  | succ fuel ih =>
    intro x
    unfold treeHashFuel RatchetTree.treeHashFuel
    simp only [h.contains, ih, hashParent_same hT _ h]
    rfl

theorem compute_tree_hash_same (P : CryptoProvider) (cs : CipherSuite) (t : RatchetTree) (x : Nat) {s : T.leaves.σ}
    {l : List LeafIndex} (h : Like T.leaves s l) : compute_tree_hash T P cs t x s = RatchetTree.compute_tree_hash P cs t x l :=
  treeHashFuel_same hT P cs t h 33 x

theorem compute_root_tree_hash_same (P : CryptoProvider) (cs : CipherSuite) (t : RatchetTree) :
    compute_root_tree_hash T P cs t = RatchetTree.compute_root_tree_hash P cs t := by
  unfold compute_root_tree_hash RatchetTree.compute_root_tree_hash
  simp only [compute_tree_hash_same hT P cs t _ (like_new hT.leaves)]

theorem verifyParentHash_same (P : CryptoProvider) (cs : CipherSuite) (t : RatchetTree) (i : Nat) (n : Option Node) :
    verifyParentHash T P cs t i n = RatchetTree.verifyParentHash P cs t i n := by
  unfold verifyParentHash RatchetTree.verifyParentHash
  simp only [compute_tree_hash_same hT P cs t _ (like_insertAll hT.leaves _)]
  rfl

theorem verify_parent_hashes_same (P : CryptoProvider) (cs : CipherSuite) (t : RatchetTree) :
    verify_parent_hashes T P cs t = RatchetTree.verify_parent_hashes P cs t := by
  unfold verify_parent_hashes RatchetTree.verify_parent_hashes
  have key : ∀ (ns : List (Option Node)) i, verifyParentHashesLoop T P cs t i ns = RatchetTree.verifyParentHashesLoop P cs t i ns := by
    intro ns
    induction ns with
    | nil => intro i; rfl
    | cons n ns ih =>
      intro i
      unfold verifyParentHashesLoop RatchetTree.verifyParentHashesLoop
      simp only [verifyParentHash_same hT, ih]
  exact key t 0

/-! ### Checking a tree -/

theorem parentLoop_same (t : RatchetTree) (n : Nat) : ∀ (ns : List (Option Node)) (i : Nat) (s : T.keys.σ) (l : List Bytes),
    Like T.keys s l → parentLoop T t n i ns s = RatchetTree.parentLoop t n i ns l := by
  intro ns
  induction ns with
  | nil => intro i s l h; rfl
  | cons x ns ih =>
    intro i s l h
    rcases x with _ | (x | p)
    · exact ih _ _ _ h
    · exact ih _ _ _ h
    · unfold parentLoop RatchetTree.parentLoop
      simp only [h.contains, ih _ _ _ (like_insert hT.keys h p.encryption_key)]

theorem verifyLeaves_same (P : CryptoProvider) (t : RatchetTree) (ctx : GroupContext) (now : Int) {c : T.creds.σ}
    {c' : List CredentialType} (hc : Like T.creds c c') :
    Same (fun s s' => Like T.keys s.1 s'.1 ∧ Like T.keys s.2 s'.2) (verifyLeaves T P t ctx now c)
      (RatchetTree.verifyLeaves P t ctx now c') := by
  unfold verifyLeaves RatchetTree.verifyLeaves
  refine forLeaves_same t (fun s s' i n h => ?_) _ _ _ ⟨like_new hT.keys, like_new hT.keys⟩
  rw [verifyLeaf_same hT P n _ _ _ now hc h.1 h.2]
  exact (refl _).bind fun _ _ _ => ⟨like_insert hT.keys h.1 _, like_insert hT.keys h.2 _⟩

theorem verify_integrity_same (P : CryptoProvider) (t : RatchetTree) (ctx : GroupContext) (now : Int) :
    verify_integrity T P t ctx now = RatchetTree.verify_integrity P t ctx now := by
  unfold verify_integrity RatchetTree.verify_integrity
  rw [compute_root_tree_hash_same hT]
  congr 1
  funext h
  split
  · rfl
  · rw [verify_parent_hashes_same hT]
    congr 1
    funext good
    split
    · rfl
    · refine Res.Same.eq ((supported_creds_same hT t).bind fun c c' hc => (verifyLeaves_same hT P t ctx now hc).bind
        fun s s' hs => ?_)
      dsimp only
      rw [parentLoop_same hT t _ _ _ _ _ hs.2]
      exact refl _

/-! ### Checking the proposals -/

theorem verifyProposals_same' (total : Nat) (c : LeafIndex) : ∀ (ps : List (Proposal × LeafIndex)) (s : Sets T) (s' : ProposalSets),
    Like T.keys s.add_proposals s'.add_proposals → Like T.leaves s.update_or_remove_proposals s'.update_or_remove_proposals →
    Like T.keys s.psk_proposals s'.psk_proposals → s.group_context_extensions = s'.group_context_extensions →
    verifyProposals T total c s ps = Rmls.verifyProposals total c s' ps := by
  intro ps
  induction ps with
  | nil => intro s s' _ _ _ _; rfl
  | cons p ps ih =>
    intro s s' h1 h2 h3 h4
    obtain ⟨p, l⟩ := p
    unfold verifyProposals Rmls.verifyProposals
    refine Res.Same.eq (Res.Same.bind (R := fun (s : Sets T) (s' : ProposalSets) => Like T.keys s.add_proposals s'.add_proposals ∧
      Like T.leaves s.update_or_remove_proposals s'.update_or_remove_proposals ∧
      Like T.keys s.psk_proposals s'.psk_proposals ∧ s.group_context_extensions = s'.group_context_extensions) ?_
      fun a b h => by rw [ih a b h.1 h.2.1 h.2.2.1 h.2.2.2]; exact refl _)
    cases p with
    | Add p =>
      unfold verifyProposal Rmls.verifyProposal
      simp only [h1.contains]
      split
      · exact rfl
      · exact ⟨like_insert hT.keys h1 _, h2, h3, h4⟩
    | Update p =>
      unfold verifyProposal Rmls.verifyProposal
      simp only [h2.contains]
      split
      · exact rfl
      · split
        · exact rfl
        · exact ⟨h1, like_insert hT.leaves h2 _, h3, h4⟩
    | Remove p =>
      unfold verifyProposal Rmls.verifyProposal
      simp only [h2.contains]
      split
      · exact rfl
      · split
        · exact rfl
        · exact ⟨h1, like_insert hT.leaves h2 _, h3, h4⟩
    | PreSharedKey p =>
      unfold verifyProposal Rmls.verifyProposal
      refine (refl _).bind fun psk psk' e => ?_
      subst e
      simp only [h3.contains]
      split
      · exact rfl
      · exact ⟨h1, h2, like_insert hT.keys h3 _, h4⟩
    | GroupContextExtensions p =>
      unfold verifyProposal Rmls.verifyProposal
      simp only [h4]
      split
      · exact rfl
      · exact ⟨h1, h2, h3, rfl⟩
    | ReInit p =>
      unfold verifyProposal Rmls.verifyProposal
      dsimp only
      split
      · exact rfl
      · exact ⟨h1, h2, h3, h4⟩
    | ExternalInit p => exact rfl

theorem verify_proposal_list_same (ps : List Proposal) (ss : List LeafIndex) (c : LeafIndex) :
    verify_proposal_list T ps ss c = Rmls.verify_proposal_list ps ss c := by
  unfold verify_proposal_list Rmls.verify_proposal_list
  split
  · rfl
  · exact verifyProposals_same' hT _ _ _ _ _ (like_new hT.keys) (like_new hT.leaves) (like_new hT.keys) rfl

/-! ### The client -/

theorem checkPath_same (P : CryptoProvider) (cs : CipherSuite) (ctx : GroupContext) (t : RatchetTree) (sender : LeafIndex)
    (l : LeafNode) (path : UpdatePath) : checkPath T P cs ctx t sender l path = PassiveClient.checkPath P cs ctx t sender l path := by
  unfold checkPath PassiveClient.checkPath
  cases path.leaf_node.payload.leaf_node_source with
  | Commit ph =>
    refine Res.Same.eq ((keys_same hT t).bind fun s s' hs => (supported_creds_same hT t).bind fun c c' hc => ?_)
    refine of_eq ?_
    rw [verifyLeaf_same hT P path.leaf_node cs _ _ 0 hc (like_remove hT.keys hs.1 _) hs.2]
    simp only [hs.2.contains]
  | KeyPackage l => rfl
  | Update => rfl

theorem pathLoop_same (P : CryptoProvider) (cs : CipherSuite) (x : Nat) (dp : List Nat) : ∀ nis prev t,
    pathLoop T P cs x dp nis prev t = RatchetTree.pathLoop P cs x dp nis prev t := by
  intro nis
  induction nis with
  | nil => intro prev t; rfl
  | cons ni nis ih =>
    intro prev t
    have hp : pathHashes T P cs t x dp ni prev = RatchetTree.pathHashes P cs t x dp ni prev := by
      unfold pathHashes RatchetTree.pathHashes
      simp only [compute_tree_hash_same hT P cs t _ (like_new hT.leaves)]
      rfl
    unfold pathLoop RatchetTree.pathLoop
    simp only [hp, ih]
    rfl

theorem merge_update_path_same (P : CryptoProvider) (cs : CipherSuite) (t : RatchetTree) (j : Nat) (path : UpdatePath) :
    merge_update_path T P cs t j path = t.merge_update_path P cs j path := by
  unfold merge_update_path RatchetTree.merge_update_path
  simp only [pathLoop_same hT]
  rfl

theorem join_same (P : CryptoProvider) (cs : CipherSuite) (w : Welcome) (kp : KeyPackage) (priv : Bytes)
    (ext : List (Bytes × Bytes)) (given : Option Bytes) :
    join T P cs w kp priv ext given = PassiveClient.join P cs w kp priv ext given := by
  unfold join PassiveClient.join
  simp only [verify_integrity_same hT]
  rfl

theorem handleCommit_same (P : CryptoProvider) (cs : CipherSuite) (s : PassiveClient.State) (m : PublicMessage) :
    handleCommit T P cs s m = PassiveClient.handleCommit P cs s m := by
  unfold handleCommit PassiveClient.handleCommit
  simp only [verify_proposal_list_same hT, checkPath_same hT, merge_update_path_same hT]
  rfl

theorem firstEpoch_same (P : CryptoProvider) (cs : CipherSuite) (s : PassiveClient.State) (es : List Bytes) :
    firstEpoch T P cs s es = PassiveClient.firstEpoch P cs s es := by
  cases es with
  | nil => rfl
  | cons e es =>
    unfold firstEpoch PassiveClient.firstEpoch
    simp only [handleCommit_same hT]
    rfl

theorem passive_client_test_same (P : CryptoProvider) (rnd rnd' : Bytes) (cs : CipherSuite) (tc : PassiveClient.Input) :
    passive_client_test T P rnd rnd' cs tc = PassiveClient.passive_client_test P rnd rnd' cs tc := by
  unfold passive_client_test PassiveClient.passive_client_test
  simp only [join_same hT, firstEpoch_same hT]
  rfl

end Tabled
end Rmls
