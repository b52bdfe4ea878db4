import Verif.Spec.Integrity
import Verif.Proofs.LeafNode
import Verif.Proofs.TreeChecks
import Verif.Proofs.Resolve
import Verif.Proofs.TreeHash
/-
`verify_integrity`, piece by piece.
-/
namespace Rmls
open Spec

/-! ### lists -/

theorem pairwise_ne_iff {α κ : Type} (key : α → κ) (pos : α → Nat) : ∀ {l : List α},
    l.Pairwise (fun a b => pos a < pos b) →
    (l.Pairwise (fun a b => key a ≠ key b) ↔ ∀ a ∈ l, ∀ b ∈ l, key a = key b → pos a = pos b) := by
  intro l
  induction l with
  | nil => intro _; simp
  | cons x l ih =>
    intro h
    rw [List.pairwise_cons] at h
    rw [List.pairwise_cons, ih h.2]
    constructor
    · rintro ⟨h1, h2⟩ a ha b hb e
      rcases List.mem_cons.1 ha with ea | ma <;> rcases List.mem_cons.1 hb with eb | mb
      · rw [ea, eb]
      · subst ea; exact absurd e (h1 b mb)
      · subst eb; exact absurd e.symm (h1 a ma)
      · exact h2 a ma b mb e
    · intro h1
      refine ⟨fun a ha e => ?_, fun a ha b hb => h1 a (.tail _ ha) b (.tail _ hb)⟩
      have := h1 x (.head _) a (.tail _ ha) e
      have := h.1 a ha
      omega

namespace RatchetTree

/-! ### leaves -/

theorem members_sorted (nodes : Nat → Option Node) (n : Nat) :
    (members nodes n).Pairwise (fun a b => a.1 < b.1) := by
  unfold members
  rw [List.pairwise_filterMap]
  refine List.pairwise_lt_range.imp ?_
  rintro a b hab x hx y hy
  rw [Option.map_eq_some_iff] at hx hy
  obtain ⟨_, _, rfl⟩ := hx
  obtain ⟨_, _, rfl⟩ := hy
  exact hab

/-- One round of the loop over the leaves. -/
def leafStep (P : CryptoProvider) (ctx : GroupContext) (now : Int) (creds : List CredentialType)
    (s : List SignaturePublicKey × List HPKEPublicKey) (m : Nat × LeafNode) :
    Res (List SignaturePublicKey × List HPKEPublicKey) := do
  m.2.verify P {
    cipher_suite := ctx.cipher_suite, group_id := ctx.group_id, leaf_index := UInt32.ofNat m.1,
    supported_creds := creds, signature_keys := s.1, encryption_keys := s.2, now }
  pure (m.2.payload.signature_key :: s.1, m.2.payload.encryption_key :: s.2)

theorem leafStep_iff (P : CryptoProvider) (ctx : GroupContext) (now : Int) (creds : List CredentialType)
    (s s' : List SignaturePublicKey × List HPKEPublicKey) (m : Nat × LeafNode) :
    leafStep P ctx now creds s m = .ok s' ↔
      LeafValid P m.2 ctx.cipher_suite ctx.group_id (UInt32.ofNat m.1) (· ∈ creds) now ∧
      m.2.payload.signature_key ∉ s.1 ∧ m.2.payload.encryption_key ∉ s.2 ∧
      s' = (m.2.payload.signature_key :: s.1, m.2.payload.encryption_key :: s.2) := by
  unfold leafStep
  rw [Res.bind_ok_iff]
  constructor
  · rintro ⟨⟨⟩, h1, h2⟩
    obtain ⟨a, b, c⟩ := (LeafNode.verify_iff P _ _).1 h1
    cases h2
    exact ⟨a, b, c, rfl⟩
  · rintro ⟨a, b, c, rfl⟩
    exact ⟨(), (LeafNode.verify_iff P _ _).2 ⟨a, b, c⟩, rfl⟩

theorem leafFold_iff (P : CryptoProvider) (ctx : GroupContext) (now : Int) (creds : List CredentialType) :
    ∀ (ms : List (Nat × LeafNode)) (s r : List SignaturePublicKey × List HPKEPublicKey),
      ms.foldlM (leafStep P ctx now creds) s = .ok r ↔
        (∀ m ∈ ms, LeafValid P m.2 ctx.cipher_suite ctx.group_id (UInt32.ofNat m.1) (· ∈ creds) now ∧
          m.2.payload.signature_key ∉ s.1 ∧ m.2.payload.encryption_key ∉ s.2) ∧
        ms.Pairwise (fun a b => a.2.payload.signature_key ≠ b.2.payload.signature_key) ∧
        ms.Pairwise (fun a b => a.2.payload.encryption_key ≠ b.2.payload.encryption_key) ∧
        r = ((ms.map fun m => m.2.payload.signature_key).reverse ++ s.1,
          (ms.map fun m => m.2.payload.encryption_key).reverse ++ s.2) := by
  intro ms
  induction ms with
  | nil =>
    intro s r
    simp only [List.foldlM_nil, Res.pure_eq, List.map_nil, List.reverse_nil, List.nil_append, Res.ok.injEq]
    constructor
    · rintro rfl
      exact ⟨by simp, List.Pairwise.nil, List.Pairwise.nil, rfl⟩
    · rintro ⟨_, _, _, h⟩; exact h.symm
  | cons m ms ih =>
    intro s r
    rw [List.foldlM_cons, Res.bind_ok_iff]
    constructor
    · rintro ⟨s', h1, h2⟩
      obtain ⟨a1, a2, a3, rfl⟩ := (leafStep_iff ..).1 h1
      obtain ⟨b1, b2, b3, b4⟩ := (ih _ _).1 h2
      refine ⟨?_, ?_, ?_, ?_⟩
      · intro x hx
        rcases List.mem_cons.1 hx with rfl | hx
        · exact ⟨a1, a2, a3⟩
        · obtain ⟨c1, c2, c3⟩ := b1 x hx
          exact ⟨c1, fun h => c2 (.tail _ h), fun h => c3 (.tail _ h)⟩
      · refine List.pairwise_cons.2 ⟨fun x hx e => (b1 x hx).2.1 ?_, b2⟩
        rw [← e]; exact .head _
      · refine List.pairwise_cons.2 ⟨fun x hx e => (b1 x hx).2.2 ?_, b3⟩
        rw [← e]; exact .head _
      · rw [b4]; simp
    · rintro ⟨h1, h2, h3, rfl⟩
      rw [List.pairwise_cons] at h2 h3
      obtain ⟨a1, a2, a3⟩ := h1 m (.head _)
      refine ⟨_, (leafStep_iff ..).2 ⟨a1, a2, a3, rfl⟩, (ih _ _).2 ⟨?_, h2.2, h3.2, by simp⟩⟩
      intro x hx
      obtain ⟨c1, c2, c3⟩ := h1 x (.tail _ hx)
      refine ⟨c1, fun h => ?_, fun h => ?_⟩
      · rcases List.mem_cons.1 h with h | h
        · exact h2.1 x hx h.symm
        · exact c2 h
      · rcases List.mem_cons.1 h with h | h
        · exact h3.1 x hx h.symm
        · exact c3 h

theorem verifyLeaves_eq {t : RatchetTree} (hl : t.length < 2 ^ 32) (P : CryptoProvider) (ctx : GroupContext)
    (now : Int) (creds : List CredentialType) :
    verifyLeaves P t ctx now creds =
      (members t.get t.num_leaves).foldlM (leafStep P ctx now creds) ([], []) := by
  unfold verifyLeaves
  rw [forLeaves_members hl]
  rfl

/-! ### unmerged leaves -/

theorem unmergedWalk_iff {t : RatchetTree} {n : Nat} (h0 : 0 < n) (hn : n ≤ 2 ^ 31) (k i : Nat)
    (hk : k < 32) (u : LeafIndex) :
    ∀ d m fuel, m + d = 31 → d < fuel →
      (unmergedWalk t n (node k i) u fuel (node m (u.toNat / 2 ^ m)) = .ok () ↔
        m < k ∧ u.toNat / 2 ^ k = i ∧ (∀ e, m ≤ e → e < k → ¬ (e = NumLeaves.height n ∧ u.toNat / 2 ^ e = 0)) ∧
        ∀ e q, m < e → e < k → t.get (node e (u.toNat / 2 ^ e)) = some (.Parent q) → u ∈ q.unmerged_leaves) := by
  intro d
  induction d with
  | zero =>
    intro m fuel hm hf
    obtain ⟨fuel, rfl⟩ : ∃ f, fuel = f + 1 := ⟨fuel - 1, by omega⟩
    obtain rfl : m = 31 := by omega
    rw [unmergedWalk]
    by_cases hr : 31 = NumLeaves.height n ∧ u.toNat / 2 ^ 31 = 0
    · rw [show node 31 (u.toNat / 2 ^ 31) = node (NumLeaves.height n) 0 by rw [hr.2, ← hr.1],
        NumLeaves.parent_root h0 hn]
      simp only [Res.ok_bind]
      constructor
      · intro h; cases h
      · rintro ⟨h, _⟩; omega
    · rw [NumLeaves.parent_over h0 hn (by omega) hr]
      constructor
      · intro h; cases h
      · rintro ⟨h, _⟩; omega
  | succ d ih =>
    intro m fuel hm hf
    obtain ⟨fuel, rfl⟩ : ∃ f, fuel = f + 1 := ⟨fuel - 1, by omega⟩
    rw [unmergedWalk]
    by_cases hr : m = NumLeaves.height n ∧ u.toNat / 2 ^ m = 0
    · rw [show node m (u.toNat / 2 ^ m) = node (NumLeaves.height n) 0 by rw [hr.2, ← hr.1],
        NumLeaves.parent_root h0 hn]
      simp only [Res.ok_bind]
      constructor
      · intro h; cases h
      · rintro ⟨h, _, h2, _⟩; exact absurd hr (h2 m (Nat.le_refl _) h)
    · rw [NumLeaves.parent_node h0 hn (by omega) hr, Nat.div_div_eq_div_mul, ← Nat.pow_succ]
      simp only [Res.ok_bind]
      have hh := ih (m + 1) fuel (by omega) (by omega)
      by_cases hp : node (m + 1) (u.toNat / 2 ^ (m + 1)) = node k i
      · rw [if_pos hp]
        obtain ⟨rfl, rfl⟩ := node_inj hp
        refine ⟨fun _ => ⟨by omega, rfl, ?_, ?_⟩, fun _ => rfl⟩
        · intro e h1 h2
          obtain rfl : e = m := by omega
          exact hr
        · intro e q h1 h2; omega
      · rw [if_neg hp]
        have key : (m + 1 < k ∧ u.toNat / 2 ^ k = i ∧
            (∀ e, m + 1 ≤ e → e < k → ¬ (e = NumLeaves.height n ∧ u.toNat / 2 ^ e = 0)) ∧
            ∀ e q, m + 1 < e → e < k → t.get (node e (u.toNat / 2 ^ e)) = some (.Parent q) →
              u ∈ q.unmerged_leaves) ∧
            (∀ q, t.get (node (m + 1) (u.toNat / 2 ^ (m + 1))) = some (.Parent q) → u ∈ q.unmerged_leaves) ↔
            (m < k ∧ u.toNat / 2 ^ k = i ∧ (∀ e, m ≤ e → e < k →
              ¬ (e = NumLeaves.height n ∧ u.toNat / 2 ^ e = 0)) ∧
            ∀ e q, m < e → e < k → t.get (node e (u.toNat / 2 ^ e)) = some (.Parent q) →
              u ∈ q.unmerged_leaves) := by
          constructor
          · rintro ⟨⟨a, b, c, d⟩, f⟩
            refine ⟨by omega, b, fun e h1 h2 => ?_, fun e q h1 h2 h3 => ?_⟩
            · by_cases he : e = m
              · subst he; exact hr
              · exact c e (by omega) h2
            · by_cases he : e = m + 1
              · subst he; exact f q h3
              · exact d e q (by omega) h2 h3
          · rintro ⟨a, b, c, d⟩
            have hmk : m + 1 < k := by
              by_cases he : k = m + 1
              · subst he; exact absurd (by rw [b]) hp
              · omega
            exact ⟨⟨hmk, b, fun e h1 h2 => c e (by omega) h2, fun e q h1 h2 h3 => d e q (by omega) h2 h3⟩,
              fun q h => d (m + 1) q (by omega) hmk h⟩
        rw [← key, ← hh]
        cases hg : t.get (node (m + 1) (u.toNat / 2 ^ (m + 1))) with
        | none => exact ⟨fun h => ⟨h, fun q hq => by cases hq⟩, fun h => h.1⟩
        | some nd =>
          cases nd with
          | Leaf l => exact ⟨fun h => ⟨h, fun q hq => by cases hq⟩, fun h => h.1⟩
          | Parent q =>
            dsimp only
            by_cases hq : u ∈ q.unmerged_leaves
            · have : has_unmerged_leaf q u = true := by
                unfold has_unmerged_leaf; rw [List.any_eq_true]; exact ⟨u, hq, by simp⟩
              rw [if_neg (by rw [this]; nofun)]
              exact ⟨fun h => ⟨h, fun q' hq' => by cases hq'; exact hq⟩, fun h => h.1⟩
            · have : has_unmerged_leaf q u = false := by
                unfold has_unmerged_leaf
                rw [Bool.eq_false_iff]; intro h
                obtain ⟨v, hv, e⟩ := List.any_eq_true.1 h
                rw [eq_of_beq e] at hv
                exact hq hv
              rw [if_pos this]
              exact ⟨(nomatch ·), fun h => absurd (h.2 q rfl) hq⟩

/-- The condition on one unmerged leaf, for parents in the tree and for the slot left over in arrays of even
length. -/
def UnmergedGood (t : RatchetTree) (K k i : Nat) (u : LeafIndex) : Prop :=
  1 ≤ k ∧ UnmergedListed t.get k i u ∧ (u.toNat < 2 ^ K → k ≤ K)

theorem unmergedLoop_iff {t : RatchetTree} {n : Nat} (h0 : 0 < n) (hn : n ≤ 2 ^ 31) (k i : Nat) (hk : k < 32)
    (hki : (i + 1) * 2 ^ (k + 1) ≤ 2 ^ 32) : ∀ us,
    (unmergedLoop t n (node k i) us = .ok () ↔ ∀ u ∈ us, UnmergedGood t (NumLeaves.height n) k i u) := by
  intro us
  induction us with
  | nil => simp [unmergedLoop]
  | cons u us ih =>
    rw [unmergedLoop]
    by_cases hu : u.toNat < 2 ^ 31
    · rw [node_index_eq hu, Res.ok_bind, Res.bind_unit_iff, ih]
      have hw := unmergedWalk_iff (t := t) h0 hn k i hk u 31 0 34 (by omega) (by omega)
      rw [Nat.pow_zero, Nat.div_one, node_zero] at hw
      rw [hw, List.forall_mem_cons]
      refine and_congr_left fun _ => ?_
      unfold UnmergedGood
      constructor
      · rintro ⟨a, b, c, d⟩
        refine ⟨by omega, ⟨below_div.2 b, fun m q h1 h2 h3 => d m q (by omega) h2 h3⟩, fun hK => ?_⟩
        apply Decidable.byContradiction
        intro hc
        exact c (NumLeaves.height n) (by omega) (by omega) ⟨rfl, Nat.div_eq_of_lt hK⟩
      · rintro ⟨a, ⟨b, c⟩, d⟩
        refine ⟨by omega, below_div.1 b, fun e _ he hc => ?_, fun m q h1 h2 h3 => c m q (by omega) h2 h3⟩
        have h1 : u.toNat < 2 ^ e := by
          rcases Nat.div_eq_zero_iff.1 hc.2 with h | h
          · have := Nat.two_pow_pos e; omega
          · exact h
        have := d (hc.1 ▸ h1)
        omega
    · rw [node_index_panic (by omega)]
      refine ⟨fun h => (by cases h), fun h => ?_⟩
      obtain ⟨_, ⟨⟨_, h2⟩, _⟩, _⟩ := h u (.head _)
      rw [Nat.pow_succ, ← Nat.mul_assoc] at hki
      omega

/-! ### parents -/

/-- The parents of a piece of the array that starts at `i`. -/
def parentsFrom : Nat → List (Option Node) → List (Nat × ParentNode)
  | _, [] => []
  | i, some (.Parent p) :: ns => (i, p) :: parentsFrom (i + 1) ns
  | i, _ :: ns => parentsFrom (i + 1) ns

theorem mem_parentsFrom {x : Nat} {p : ParentNode} : ∀ {ns : List (Option Node)} {i : Nat},
    (x, p) ∈ parentsFrom i ns ↔ i ≤ x ∧ ns[x - i]? = some (some (.Parent p)) := by
  intro ns
  induction ns with
  | nil => intro i; simp [parentsFrom]
  | cons n ns ih =>
    intro i
    have hb : i + 1 ≤ x ∧ ns[x - (i + 1)]? = some (some (.Parent p)) ↔
        x ≠ i ∧ i ≤ x ∧ (n :: ns)[x - i]? = some (some (.Parent p)) := by
      constructor
      · rintro ⟨h1, h2⟩
        refine ⟨by omega, by omega, ?_⟩
        rw [show x - i = (x - (i + 1)) + 1 by omega, List.getElem?_cons_succ]
        exact h2
      · rintro ⟨h1, h2, h3⟩
        refine ⟨by omega, ?_⟩
        rwa [show x - i = (x - (i + 1)) + 1 by omega, List.getElem?_cons_succ] at h3
    have hn : (∀ q, n ≠ some (.Parent q)) → (x ≠ i ∧ i ≤ x ∧ (n :: ns)[x - i]? = some (some (.Parent p)) ↔
        i ≤ x ∧ (n :: ns)[x - i]? = some (some (.Parent p))) := by
      intro hn
      refine ⟨fun h => h.2, fun h => ⟨?_, h⟩⟩
      rintro rfl
      rw [Nat.sub_self, List.getElem?_cons_zero] at h
      exact hn p (Option.some.inj h.2)
    cases n with
    | none => rw [parentsFrom, ih, hb, hn (by nofun)]; nofun
    | some nd =>
      cases nd with
      | Leaf l =>
        rw [parentsFrom, ih, hb, hn (by intro q h; cases h)]
        intro q h; cases h
      | Parent q =>
        rw [parentsFrom, List.mem_cons, ih, hb]
        constructor
        · rintro (h | h)
          · cases h; simp
          · exact h.2
        · intro h
          by_cases hx : x = i
          · subst hx
            rw [Nat.sub_self, List.getElem?_cons_zero] at h
            left; cases h.2; rfl
          · exact Or.inr ⟨hx, h⟩

theorem mem_parents {t : RatchetTree} {x : Nat} {p : ParentNode} :
    (x, p) ∈ parentsFrom 0 t ↔ t.get x = some (.Parent p) := by
  rw [mem_parentsFrom]
  unfold get
  rw [Nat.sub_zero]
  cases h : t[x]? with
  | none => simp
  | some n => simp

theorem parentsFrom_sorted : ∀ (ns : List (Option Node)) (i : Nat),
    (parentsFrom i ns).Pairwise (fun a b => a.1 < b.1) := by
  intro ns
  induction ns with
  | nil => intro i; exact List.Pairwise.nil
  | cons n ns ih =>
    intro i
    cases n with
    | none => rw [parentsFrom]; exact ih _; nofun
    | some nd =>
      cases nd with
      | Leaf l => rw [parentsFrom]; exact ih _; intro q h; cases h
      | Parent q =>
        rw [parentsFrom, List.pairwise_cons]
        refine ⟨fun a ha => ?_, ih _⟩
        have := (mem_parentsFrom (x := a.1) (p := a.2)).1 ha
        show i < a.1
        omega

theorem parentLoop_iff {t : RatchetTree} {n : Nat} : ∀ (ns : List (Option Node)) (i : Nat)
    (keys : List HPKEPublicKey),
    parentLoop t n i ns keys = .ok () ↔
      (∀ m ∈ parentsFrom i ns, unmergedLoop t n (cast32 m.1) m.2.unmerged_leaves = .ok () ∧
        m.2.encryption_key ∉ keys) ∧
      (parentsFrom i ns).Pairwise (fun a b => a.2.encryption_key ≠ b.2.encryption_key) := by
  intro ns
  induction ns with
  | nil => intro i keys; simp [parentLoop, parentsFrom]
  | cons n ns ih =>
    intro i keys
    cases n with
    | none =>
      rw [parentLoop, parentsFrom]
      · exact ih _ _
      · nofun
      · nofun
    | some nd =>
      cases nd with
      | Leaf l =>
        rw [parentLoop, parentsFrom]
        · exact ih _ _
        · intro q h; cases h
        · intro q h; cases h
      | Parent q =>
        rw [parentLoop, parentsFrom, Res.bind_unit_iff, List.forall_mem_cons, List.pairwise_cons]
        by_cases hk : q.encryption_key ∈ keys
        · rw [if_pos (List.contains_iff_mem.2 hk)]
          exact ⟨fun h => (nomatch h.2), fun h => absurd hk h.1.1.2⟩
        · rw [if_neg (fun h => hk (List.contains_iff_mem.1 h)), ih]
          constructor
          · rintro ⟨a, b, c⟩
            refine ⟨⟨⟨a, hk⟩, fun m hm => ⟨(b m hm).1, fun h => (b m hm).2 (.tail _ h)⟩⟩,
              fun m hm e => (b m hm).2 ?_, c⟩
            rw [← e]; exact .head _
          · rintro ⟨⟨⟨a, _⟩, b⟩, c, d⟩
            refine ⟨a, fun m hm => ⟨(b m hm).1, fun h => ?_⟩, d⟩
            rcases List.mem_cons.1 h with h | h
            · exact c m hm h.symm
            · exact (b m hm).2 h

/-! ### parent hashes -/

theorem find_parent_hash_iff (t : RatchetTree) (h : Bytes) : ∀ xs,
    find_parent_hash t h xs = true ↔ ∃ x ∈ xs, storedParentHash (t.get x) = some h := by
  intro xs
  induction xs with
  | nil => simp [find_parent_hash]
  | cons x xs ih =>
    rw [find_parent_hash]
    have hx : ∀ o : Option Bytes, storedParentHash (t.get x) = o →
        ((∃ y ∈ x :: xs, storedParentHash (t.get y) = some h) ↔
          o = some h ∨ ∃ y ∈ xs, storedParentHash (t.get y) = some h) := by
      rintro _ rfl; simp
    cases hg : t.get x with
    | none => rw [hx none (by rw [hg]; rfl)]; simpa using ih
    | some nd =>
      cases nd with
      | Leaf l =>
        cases hs : l.payload.leaf_node_source with
        | Commit g =>
          rw [hx (some g) (by rw [hg]; simp only [storedParentHash, hs])]
          by_cases he : g = h
          · simp [hs, he]
          · simp [hs, he, ih]
        | KeyPackage lt =>
          rw [hx none (by rw [hg]; simp only [storedParentHash, hs])]; simpa [hs] using ih
        | Update =>
          rw [hx none (by rw [hg]; simp only [storedParentHash, hs])]; simpa [hs] using ih
      | Parent q =>
        rw [hx (some q.parent_hash) (by rw [hg]; rfl)]
        by_cases he : q.parent_hash = h
        · simp [he]
        · simp [he, ih]

theorem compute_parent_hash_cases {P : CryptoProvider} {cs : CipherSuite} {Hs : Hash} (hP : P.hash cs = .ok Hs)
    (p : ParentNode) (h : Bytes) :
    ((parentHashEnc p h).fits ∧ p.compute_parent_hash P cs h = .ok (Hs.digest (parentHashEnc p h).bytes)) ∨
    (¬ (parentHashEnc p h).fits ∧ ∃ e, p.compute_parent_hash P cs h = .err e) := by
  have hw : Writes (ParentNode.serialize_parent_hash_input p.encryption_key p.parent_hash h)
      (parentHashEnc p h) := (writes_opaque _).app ((writes_opaque _).app (writes_opaque _))
  unfold ParentNode.compute_parent_hash
  rcases writes_cases hw with ⟨f, e⟩ | ⟨f, x, e⟩
  · left; refine ⟨f, ?_⟩
    rw [e, Res.ok_bind, hP, Res.ok_bind]; rfl
  · right; exact ⟨f, x, by rw [e]; rfl⟩

theorem bne_true_iff {a b : Bool} {p q : Prop} (ha : a = true ↔ p) (hb : b = true ↔ q) :
    (a != b) = true ↔ ¬ (p ↔ q) := by
  rw [← ha, ← hb]; cases a <;> cases b <;> simp

theorem verifyParentHash_iff {P : CryptoProvider} {cs : CipherSuite} {Hs : Hash} (hP : P.hash cs = .ok Hs)
    {t : RatchetTree} (ht : t.SmallUnmerged) (k i : Nat) (hk : k + 1 < 32)
    (hki : (i + 1) * 2 ^ (k + 2) ≤ 2 ^ 32) (hx : node (k + 1) i < 4294967296) (p : ParentNode) :
    verifyParentHash P cs t (node (k + 1) i) (some (.Parent p)) = .ok true ↔
      ParentHashValid Hs.digest t.get k i p := by
  unfold verifyParentHash
  rw [cast32_eq hx, NodeIndex.children_succ i hk]
  simp only [Res.ok_bind]
  have e1 := treeHashFuel_eq hP t p.unmerged_leaves k 33 (2 * i) (by omega) (by omega) (pos_left hki)
  have e2 := treeHashFuel_eq hP t p.unmerged_leaves k 33 (2 * i + 1) (by omega) (by omega) (pos_right hki)
  unfold compute_tree_hash
  rcases e1 with ⟨d1, e1⟩ | ⟨d1, x, e1⟩
  rotate_left
  · rw [e1]; exact ⟨(nomatch ·), fun h => absurd h.left d1⟩
  rcases e2 with ⟨d2, e2⟩ | ⟨d2, x, e2⟩
  rotate_left
  · rw [e1, e2]; exact ⟨(nomatch ·), fun h => absurd h.right d2⟩
  rw [e1, e2]
  simp only [orFalse]
  rcases compute_parent_hash_cases hP p (treeHash Hs.digest (without p.unmerged_leaves t.get) k (2 * i + 1)) with
    ⟨f2, g2⟩ | ⟨f2, x, g2⟩
  rotate_left
  · rw [g2]; exact ⟨(nomatch ·), fun h => absurd h.right_fits f2⟩
  rcases compute_parent_hash_cases hP p (treeHash Hs.digest (without p.unmerged_leaves t.get) k (2 * i)) with
    ⟨f1, g1⟩ | ⟨f1, x, g1⟩
  rotate_left
  · rw [g1, g2]; exact ⟨(nomatch ·), fun h => absurd h.left_fits f1⟩
  rw [g1, g2]
  unfold resolve
  simp only []
  rw [resolveFuel_ok ht k _ _ (by omega) (by omega), resolveFuel_ok ht k _ _ (by omega) (by omega)]
  simp only [Res.ok_bind, Res.pure_eq, Res.ok.injEq]
  rw [bne_true_iff (find_parent_hash_iff ..) (find_parent_hash_iff ..)]
  exact ⟨fun h => ⟨d1, d2, f1, f2, h⟩, fun h => h.one⟩

theorem verifyParentHash_other {P : CryptoProvider} {cs : CipherSuite} {t : RatchetTree} (k i : Nat)
    (hk : k < 32) (hx : node k i < 4294967296) (n : Option Node)
    (h : ∀ j p, k = j + 1 → n ≠ some (.Parent p)) :
    verifyParentHash P cs t (node k i) n = .ok true := by
  cases n with
  | none => rfl
  | some nd =>
    unfold verifyParentHash
    rw [cast32_eq hx]
    cases k with
    | zero => rw [NodeIndex.children_zero]; rfl
    | succ k =>
      rw [NodeIndex.children_succ i hk]
      cases nd with
      | Leaf l => rfl
      | Parent p => exact absurd rfl (h k p rfl)

theorem verifyParentHashesLoop_iff (P : CryptoProvider) (cs : CipherSuite) (t : RatchetTree) :
    ∀ (ns : List (Option Node)) (i : Nat),
      verifyParentHashesLoop P cs t i ns = .ok true ↔
        ∀ x (hx : x < ns.length), verifyParentHash P cs t (i + x) ns[x] = .ok true := by
  intro ns
  induction ns with
  | nil => intro i; simp [verifyParentHashesLoop]
  | cons n ns ih =>
    intro i
    rw [verifyParentHashesLoop, Res.bind_ok_iff]
    constructor
    · rintro ⟨b, h1, h2⟩
      cases b with
      | false => cases h2
      | true =>
        rw [if_pos rfl, ih] at h2
        intro x hx
        cases x with
        | zero => exact h1
        | succ x =>
          have := h2 x (by simpa using hx)
          rw [show i + (x + 1) = i + 1 + x by omega]
          exact this
    · intro h
      refine ⟨true, h 0 (by simp), ?_⟩
      rw [if_pos rfl, ih]
      intro x hx
      have := h (x + 1) (by simpa using hx)
      rw [show i + (x + 1) = i + 1 + x by omega] at this
      exact this

end RatchetTree
end Rmls
