import Verif.Model.Release
import Verif.Spec.Release
import Verif.Proofs.RatchetTree
/-
Builds with and without overflow checks.
-/
namespace Rmls
open Spec

/-! ### Composition -/

theorem same_refl {α : Type} (x : Res α) : Same x x := fun _ => rfl
theorem same_of_eq {α : Type} {x y : Res α} (h : y = x) : Same x y := fun _ => h
theorem same_fault {α : Type} (f : Fault) (y : Res α) : Same (.fault f) y := fun h => absurd rfl (h f)

theorem same_bind {α β : Type} {x y : Res α} {f g : α → Res β} (h : Same x y)
    (hf : ∀ a, Same (f a) (g a)) : Same (x >>= f) (y >>= g) := by
  cases x with
  | ok a =>
    rw [h (fun f => nofun)]
    exact hf a
  | err e =>
    rw [h (fun f => nofun)]
    exact same_refl _
  | fault f => exact same_fault f _

theorem same_then {α β : Type} (x : Res α) {f g : α → Res β} (hf : ∀ a, Same (f a) (g a)) :
    Same (x >>= f) (x >>= g) := same_bind (same_refl x) hf

theorem same_pure {α β : Type} {x : Res α} {v : α} {f : α → Res β} {y : Res β} (h : Same x (.ok v))
    (hf : Same (f v) y) : Same (x >>= f) y := by
  cases x with
  | ok a =>
    have := h (fun f => nofun)
    cases this
    exact hf
  | err e => exact absurd (h (fun f => nofun)) nofun
  | fault f => exact same_fault f _

theorem same_ite {α : Type} {c : Prop} [Decidable c] {x x' y y' : Res α} (h : Same x y) (h' : Same x' y') :
    Same (if c then x else x') (if c then y else y') := by
  by_cases hc : c
  · rw [if_pos hc, if_pos hc]; exact h
  · rw [if_neg hc, if_neg hc]; exact h'

namespace Release

/-! ### Arithmetic -/

theorem same_add32 (x y : Nat) : Same (Rmls.add32 x y) (.ok (add32 x y)) := by
  unfold Rmls.add32 add32
  by_cases h : x + y < 4294967296
  · rw [if_pos h, Nat.mod_eq_of_lt h]; exact same_refl _
  · rw [if_neg h]; exact same_fault _ _

theorem same_sub32 (x y : Nat) (hx : x < 4294967296) : Same (Rmls.sub32 x y) (.ok (sub32 x y)) := by
  unfold Rmls.sub32 sub32
  by_cases h : y ≤ x
  · rw [if_pos h, show x + 4294967296 - y = x - y + 4294967296 by omega, Nat.add_mod_right,
      Nat.mod_eq_of_lt (by omega)]
    exact same_refl _
  · rw [if_neg h]; exact same_fault _ _

theorem same_mul32 (x y : Nat) : Same (Rmls.mul32 x y) (.ok (mul32 x y)) := by
  unfold Rmls.mul32 mul32
  by_cases h : x * y < 4294967296
  · rw [if_pos h, Nat.mod_eq_of_lt h]; exact same_refl _
  · rw [if_neg h]; exact same_fault _ _

theorem same_shl32 (x s : Nat) : Same (Rmls.shl32 x s) (.ok (shl32 x s)) := by
  unfold Rmls.shl32 shl32
  by_cases h : s < 32
  · rw [if_pos h, Nat.mod_eq_of_lt h]; exact same_refl _
  · rw [if_neg h]; exact same_fault _ _

theorem same_shr32 (x s : Nat) : Same (Rmls.shr32 x s) (.ok (shr32 x s)) := by
  unfold Rmls.shr32 shr32
  by_cases h : s < 32
  · rw [if_pos h, Nat.mod_eq_of_lt h]; exact same_refl _
  · rw [if_neg h]; exact same_fault _ _

/-! ### Tree arithmetic -/

namespace NodeIndex

theorem same_levelLoop (x : Nat) : ∀ fuel F lvl, fuel ≤ F →
    Same (Rmls.NodeIndex.levelLoop x fuel lvl) (levelLoop x F lvl) := by
  intro fuel
  induction fuel with
  | zero => intro F lvl _; exact same_fault _ _
  | succ fuel ih =>
    intro F lvl hF
    obtain ⟨F, rfl⟩ : ∃ m, F = m + 1 := ⟨F - 1, by omega⟩
    unfold Rmls.NodeIndex.levelLoop levelLoop
    exact same_pure (same_shr32 _ _) (same_ite (same_pure (same_add32 _ _) (ih F _ (by omega))) (same_refl _))

theorem same_level {F : Nat} (hF : 33 ≤ F) (x : Nat) : Same (Rmls.NodeIndex.level x) (level F x) :=
  same_ite (same_refl _) (same_levelLoop x 33 F 0 hF)

theorem same_left {F : Nat} (hF : 33 ≤ F) (x : Nat) : Same (Rmls.NodeIndex.left x) (left F x) :=
  same_bind (same_level hF x) fun _ => same_ite (same_refl _) (same_pure (same_shl32 _ _) (same_refl _))

theorem same_right {F : Nat} (hF : 33 ≤ F) (x : Nat) : Same (Rmls.NodeIndex.right x) (right F x) :=
  same_bind (same_level hF x) fun _ => same_ite (same_refl _) (same_pure (same_shl32 _ _) (same_refl _))

theorem same_children {F : Nat} (hF : 33 ≤ F) (x : Nat) : Same (Rmls.NodeIndex.children x) (children F x) := by
  refine same_bind (same_left hF x) fun o => ?_
  cases o with
  | none => exact same_refl _
  | some l => exact same_bind (same_right hF x) fun _ => same_refl _

end NodeIndex

theorem same_node_index (li : Nat) : Same (Rmls.LeafIndex.node_index li) (.ok (LeafIndex.node_index li)) :=
  same_mul32 2 li

namespace NumLeaves

theorem same_width (n : Nat) : Same (Rmls.NumLeaves.width n) (.ok (width n)) := by
  unfold Rmls.NumLeaves.width width
  by_cases h : n = 0
  · rw [if_pos h, if_pos h]; exact same_refl _
  · rw [if_neg h, if_neg h]; exact same_pure (same_mul32 _ _) (same_add32 _ _)

theorem shl32_lt (x s : Nat) : shl32 x s < 4294967296 := Nat.mod_lt _ (by omega)

theorem same_root (n : Nat) : Same (Rmls.NumLeaves.root n) (root n) :=
  same_pure (same_width n) <| same_then _ fun _ =>
    same_pure (same_shl32 _ _) (same_sub32 _ _ (shl32_lt _ _))

theorem same_parent {F : Nat} (hF : 33 ≤ F) (n x : Nat) : Same (Rmls.NumLeaves.parent n x) (parent F n x) :=
  same_bind (same_root n) fun _ => same_ite (same_refl _) <|
    same_bind (NodeIndex.same_level hF x) fun _ => same_pure (same_add32 _ _) <|
      same_pure (same_shr32 _ _) <| same_pure (same_shl32 _ _) <| same_pure (same_shl32 _ _) (same_refl _)

theorem same_sibling {F : Nat} (hF : 33 ≤ F) (n x : Nat) : Same (Rmls.NumLeaves.sibling n x) (sibling F n x) := by
  refine same_bind (same_parent hF n x) fun o => ?_
  cases o with
  | none => exact same_refl _
  | some p => exact same_ite (NodeIndex.same_right hF p) (NodeIndex.same_left hF p)

theorem same_directPathLoop {F : Nat} (hF : 33 ≤ F) (n : Nat) : ∀ fuel G x, fuel ≤ G →
    Same (Rmls.NumLeaves.directPathLoop n fuel x) (directPathLoop F n G x) := by
  intro fuel
  induction fuel with
  | zero => intro G x _; exact same_fault _ _
  | succ fuel ih =>
    intro G x hG
    obtain ⟨G, rfl⟩ : ∃ m, G = m + 1 := ⟨G - 1, by omega⟩
    unfold Rmls.NumLeaves.directPathLoop directPathLoop
    refine same_bind (same_parent hF n x) fun o => ?_
    cases o with
    | none => exact same_refl _
    | some p => exact same_bind (ih G p (by omega)) fun _ => same_refl _

theorem same_direct_path {F : Nat} (hF : 34 ≤ F) (n x : Nat) :
    Same (Rmls.NumLeaves.direct_path n x) (direct_path F n x) :=
  same_directPathLoop (by omega) n 34 F x hF

theorem same_copathLoop {F : Nat} (hF : 33 ≤ F) (n : Nat) : ∀ ys,
    Same (Rmls.NumLeaves.copathLoop n ys) (copathLoop F n ys) := by
  intro ys
  induction ys with
  | nil => exact same_refl _
  | cons y ys ih =>
    unfold Rmls.NumLeaves.copathLoop copathLoop
    refine same_bind (same_sibling hF n y) fun o => ?_
    cases o with
    | none => exact same_refl _
    | some s => exact same_bind ih fun _ => same_refl _

theorem same_copath {F : Nat} (hF : 34 ≤ F) (n x : Nat) :
    Same (Rmls.NumLeaves.copath n x) (copath F n x) :=
  same_bind (same_direct_path hF n x) fun _ => same_ite (same_refl _) (same_copathLoop (by omega) n _)

end NumLeaves

/-! ### Ratchet tree -/

namespace RatchetTree

theorem same_get_leaf (t : RatchetTree) (li : Nat) : Same (t.get_leaf li) (.ok (get_leaf t li)) := by
  refine same_pure (same_node_index li) (same_of_eq ?_)
  unfold get_leaf
  cases t.get (LeafIndex.node_index li) with
  | none => rfl
  | some n => cases n <;> rfl

theorem same_unmergedNodes (ls : List Rmls.LeafIndex) :
    Same (Rmls.RatchetTree.unmergedNodes ls) (.ok (unmergedNodes ls)) := by
  induction ls with
  | nil => exact same_refl _
  | cons li ls ih => exact same_pure (same_node_index _) (same_pure ih (same_refl _))

theorem same_resolveFuel {F : Nat} (hF : 33 ≤ F) (t : RatchetTree) : ∀ fuel G x, fuel ≤ G →
    Same (t.resolveFuel fuel x) (resolveFuel F t G x) := by
  intro fuel
  induction fuel with
  | zero => intro G x _; exact same_fault _ _
  | succ fuel ih =>
    intro G x hG
    obtain ⟨G, rfl⟩ : ∃ m, G = m + 1 := ⟨G - 1, by omega⟩
    unfold Rmls.RatchetTree.resolveFuel resolveFuel
    cases t.get x with
    | some n =>
      cases n with
      | Leaf _ => exact same_refl _
      | Parent p => exact same_pure (same_unmergedNodes _) (same_refl _)
    | none =>
      refine same_bind (NodeIndex.same_children hF x) fun o => ?_
      cases o with
      | none => exact same_refl _
      | some lr =>
        exact same_bind (ih G _ (by omega)) fun _ => same_bind (ih G _ (by omega)) fun _ => same_refl _

theorem same_resolve {F : Nat} (hF : 33 ≤ F) (t : RatchetTree) (x : Nat) :
    Same (t.resolve x) (resolve F t x) := same_resolveFuel hF t 33 F x hF

theorem same_forLeaves {σ : Type} (t : RatchetTree) (body : σ → Nat → LeafNode → Res σ) : ∀ ls s,
    Same (Rmls.RatchetTree.forLeaves t body ls s) (forLeaves t body ls s) := by
  intro ls
  induction ls with
  | nil => intro s; exact same_refl _
  | cons li ls ih =>
    intro s
    unfold Rmls.RatchetTree.forLeaves forLeaves
    refine same_pure (same_get_leaf t li) ?_
    cases get_leaf t li with
    | none => exact ih s
    | some n => exact same_then _ fun s' => ih s'

theorem same_supported_creds (t : RatchetTree) : Same t.supported_creds (supported_creds t) :=
  same_bind (same_forLeaves t _ _ _) fun _ => same_refl _

theorem same_keys (t : RatchetTree) : Same t.keys (keys t) := same_forLeaves t _ _ _

theorem same_treeHashFuel {F : Nat} (hF : 33 ≤ F) (P : CryptoProvider) (cs : CipherSuite) (t : RatchetTree)
    (exclude : List Rmls.LeafIndex) : ∀ fuel G x, fuel ≤ G →
    Same (Rmls.RatchetTree.treeHashFuel P cs t exclude fuel x) (treeHashFuel F P cs t exclude G x) := by
  intro fuel
  induction fuel with
  | zero => intro G x _; exact same_fault _ _
  | succ fuel ih =>
    intro G x hG
    obtain ⟨G, rfl⟩ : ∃ m, G = m + 1 := ⟨G - 1, by omega⟩
    unfold Rmls.RatchetTree.treeHashFuel treeHashFuel
    cases Rmls.NodeIndex.leaf_index x with
    | some li => exact same_refl _
    | none =>
      refine same_bind (NodeIndex.same_children hF x) fun o => ?_
      cases o with
      | none => exact same_refl _
      | some lr =>
        exact same_bind (ih G _ (by omega)) fun _ => same_bind (ih G _ (by omega)) fun _ => same_refl _

theorem same_compute_tree_hash {F : Nat} (hF : 33 ≤ F) (P : CryptoProvider) (cs : CipherSuite) (t : RatchetTree)
    (x : Nat) (exclude : List Rmls.LeafIndex) :
    Same (Rmls.RatchetTree.compute_tree_hash P cs t x exclude) (compute_tree_hash F P cs t x exclude) :=
  same_treeHashFuel hF P cs t exclude 33 F x hF

theorem same_compute_root_tree_hash {F : Nat} (hF : 33 ≤ F) (P : CryptoProvider) (cs : CipherSuite)
    (t : RatchetTree) :
    Same (Rmls.RatchetTree.compute_root_tree_hash P cs t) (compute_root_tree_hash F P cs t) :=
  same_bind (NumLeaves.same_root _) fun _ => same_compute_tree_hash hF P cs t _ _

theorem same_orFalse {α : Type} {x y : Res α} {f g : α → Res Bool} (h : Same x y)
    (hf : ∀ a, Same (f a) (g a)) : Same (Rmls.RatchetTree.orFalse x f) (Rmls.RatchetTree.orFalse y g) := by
  cases x with
  | ok a => rw [h (fun f => nofun)]; exact hf a
  | err e => rw [h (fun f => nofun)]; exact same_refl _
  | fault f => exact same_fault f _

theorem same_verifyParentHash {F : Nat} (hF : 33 ≤ F) (P : CryptoProvider) (cs : CipherSuite) (t : RatchetTree)
    (i : Nat) (n : Option Node) :
    Same (Rmls.RatchetTree.verifyParentHash P cs t i n) (verifyParentHash F P cs t i n) := by
  cases n with
  | none => exact same_refl _
  | some n =>
    unfold Rmls.RatchetTree.verifyParentHash verifyParentHash
    refine same_bind (NodeIndex.same_children hF _) fun o => ?_
    cases o with
    | none => exact same_refl _
    | some lr =>
      cases n with
      | Leaf _ => exact same_refl _
      | Parent p =>
        exact same_orFalse (same_compute_tree_hash hF P cs t _ _) fun _ =>
          same_orFalse (same_compute_tree_hash hF P cs t _ _) fun _ =>
          same_orFalse (same_refl _) fun _ => same_orFalse (same_refl _) fun _ =>
          same_bind (same_resolve hF t _) fun _ => same_bind (same_resolve hF t _) fun _ => same_refl _

theorem same_verifyParentHashesLoop {F : Nat} (hF : 33 ≤ F) (P : CryptoProvider) (cs : CipherSuite)
    (t : RatchetTree) : ∀ ns i,
    Same (Rmls.RatchetTree.verifyParentHashesLoop P cs t i ns) (verifyParentHashesLoop F P cs t i ns) := by
  intro ns
  induction ns with
  | nil => intro i; exact same_refl _
  | cons n ns ih =>
    intro i
    unfold Rmls.RatchetTree.verifyParentHashesLoop verifyParentHashesLoop
    exact same_bind (same_verifyParentHash hF P cs t i n) fun _ => same_ite (ih _) (same_refl _)

theorem same_unmergedWalk {F : Nat} (hF : 33 ≤ F) (t : RatchetTree) (n p : Nat) (li : Rmls.LeafIndex) :
    ∀ fuel G x, fuel ≤ G →
    Same (t.unmergedWalk n p li fuel x) (unmergedWalk F t n p li G x) := by
  intro fuel
  induction fuel with
  | zero => intro G x _; exact same_fault _ _
  | succ fuel ih =>
    intro G x hG
    obtain ⟨G, rfl⟩ : ∃ m, G = m + 1 := ⟨G - 1, by omega⟩
    unfold Rmls.RatchetTree.unmergedWalk unmergedWalk
    refine same_bind (NumLeaves.same_parent hF n x) fun o => ?_
    cases o with
    | none => exact same_refl _
    | some y =>
      refine same_ite (same_refl _) ?_
      have := ih G y (by omega)
      cases t.get y with
      | none => exact this
      | some q =>
        cases q with
        | Leaf _ => exact this
        | Parent q => exact same_ite (same_refl _) this

theorem same_unmergedLoop {F : Nat} (hF : 34 ≤ F) (t : RatchetTree) (n p : Nat) : ∀ ls,
    Same (t.unmergedLoop n p ls) (unmergedLoop F t n p ls) := by
  intro ls
  induction ls with
  | nil => exact same_refl _
  | cons li ls ih =>
    exact same_pure (same_node_index _)
      (same_bind (same_unmergedWalk (by omega) t n p li 34 F _ hF) fun _ => ih)

theorem same_parentLoop {F : Nat} (hF : 34 ≤ F) (t : RatchetTree) (n : Nat) : ∀ ns i keys,
    Same (t.parentLoop n i ns keys) (parentLoop F t n i ns keys) := by
  intro ns
  induction ns with
  | nil => intro i keys; exact same_refl _
  | cons x ns ih =>
    intro i keys
    cases x with
    | none => exact ih _ _
    | some x =>
      cases x with
      | Leaf _ => exact ih _ _
      | Parent p =>
        exact same_bind (same_unmergedLoop hF t n _ _) fun _ => same_ite (same_refl _) (ih _ _)

theorem same_verify_integrity {F : Nat} (hF : 34 ≤ F) (P : CryptoProvider) (t : RatchetTree)
    (ctx : GroupContext) (now : Int) :
    Same (Rmls.RatchetTree.verify_integrity P t ctx now) (verify_integrity F P t ctx now) :=
  have h33 : 33 ≤ F := by omega
  same_bind (same_compute_root_tree_hash h33 P ctx.cipher_suite t) fun _ => same_ite (same_refl _) <|
    same_bind (same_verifyParentHashesLoop h33 P ctx.cipher_suite t t 0) fun _ => same_ite (same_refl _) <|
    same_bind (same_supported_creds t) fun _ => same_bind (same_forLeaves t _ _ _) fun _ =>
    same_parentLoop hF t _ _ _ _

theorem same_findLeafLoop (t : RatchetTree) (node : LeafNode) : ∀ ls,
    Same (t.findLeafLoop node ls) (findLeafLoop t node ls) := by
  intro ls
  induction ls with
  | nil => exact same_refl _
  | cons li ls ih =>
    unfold Rmls.RatchetTree.findLeafLoop findLeafLoop
    refine same_pure (same_get_leaf t li) ?_
    cases get_leaf t li with
    | none => exact ih
    | some n => exact same_ite ih (same_refl _)

theorem same_find_leaf (t : RatchetTree) (node : LeafNode) : Same (t.find_leaf node) (find_leaf t node) :=
  same_findLeafLoop t node _

theorem same_walkUp {σ : Type} {F : Nat} (hF : 33 ≤ F) (n : Nat) {body body' : σ → Nat → Nat → Res σ}
    (hb : ∀ s x p, Same (body s x p) (body' s x p)) : ∀ fuel G x s, fuel ≤ G →
    Same (Rmls.RatchetTree.walkUp n body fuel x s) (walkUp F n body' G x s) := by
  intro fuel
  induction fuel with
  | zero => intro G x s _; exact same_fault _ _
  | succ fuel ih =>
    intro G x s hG
    obtain ⟨G, rfl⟩ : ∃ m, G = m + 1 := ⟨G - 1, by omega⟩
    unfold Rmls.RatchetTree.walkUp walkUp
    refine same_bind (NumLeaves.same_parent hF n x) fun o => ?_
    cases o with
    | none => exact same_refl _
    | some p => exact same_bind (hb s x p) fun s' => ih G p s' (by omega)

theorem same_addSearch (t : RatchetTree) : ∀ fuel li, Same (t.addSearch fuel li) (addSearch t fuel li) := by
  intro fuel
  induction fuel with
  | zero => intro li; exact same_refl _
  | succ fuel ih =>
    intro li
    unfold Rmls.RatchetTree.addSearch addSearch
    exact same_pure (same_node_index li) <| same_ite (same_refl _) <| same_ite (same_refl _) <|
      same_pure (same_add32 _ _) (ih _)

theorem same_add {F : Nat} (hF : 34 ≤ F) (t : RatchetTree) (leaf : LeafNode) :
    Same (t.add leaf) (add F t leaf) := by
  refine same_bind (same_addSearch t _ _) fun a => ?_
  obtain ⟨li, found⟩ := a
  have hrest : ∀ (ni : Nat) (t' : RatchetTree), Same
      (do let t ← Rmls.RatchetTree.walkUp t'.num_leaves
            (fun t _ p => .ok (Rmls.RatchetTree.pushUnmerged (UInt32.ofNat li) t p)) 34 ni t'
          pure (t.set ni (some (.Leaf leaf))))
      (do let t ← walkUp F t'.num_leaves
            (fun t _ p => .ok (Rmls.RatchetTree.pushUnmerged (UInt32.ofNat li) t p)) F ni t'
          pure (Rmls.RatchetTree.set t ni (some (.Leaf leaf)))) := fun ni t' =>
    same_bind (same_walkUp (by omega) _ (fun _ _ _ => same_refl _) 34 F ni t' hF) fun _ => same_refl _
  cases found with
  | true => exact same_pure (same_node_index li) (hrest _ _)
  | false => exact same_pure (same_add32 _ _) (hrest _ _)

theorem same_update {F : Nat} (hF : 34 ≤ F) (t : RatchetTree) (li : Nat) (leaf : LeafNode) :
    Same (t.update li leaf) (update F t li leaf) :=
  same_pure (same_node_index li) (same_walkUp (by omega) _ (fun _ _ _ => same_refl _) 34 F _ _ hF)

theorem same_removeScan (t : RatchetTree) : ∀ li last,
    Same (t.removeScan li last) (.ok (removeScan t li last)) := by
  intro li
  induction li with
  | zero =>
    intro last
    unfold Rmls.RatchetTree.removeScan removeScan
    refine same_pure (same_node_index 0) (same_of_eq ?_)
    split <;> rfl
  | succ li ih =>
    intro last
    unfold Rmls.RatchetTree.removeScan removeScan
    refine same_pure (same_node_index _) ?_
    dsimp only
    by_cases h : (t.get (LeafIndex.node_index (li + 1))).isSome
    · rw [if_pos h, if_pos h]; exact same_refl _
    · rw [if_neg h, if_neg h]; exact ih _

theorem num_leaves_lt (t : RatchetTree) : t.num_leaves < 4294967296 := by
  unfold Rmls.RatchetTree.num_leaves Rmls.NumLeaves.new cast32
  split <;> omega

theorem same_remove {F : Nat} (hF : 34 ≤ F) (t : RatchetTree) (li : Nat) :
    Same (t.remove li) (remove F t li) := by
  refine same_pure (same_node_index li) ?_
  refine same_bind (same_walkUp (by omega) _ (fun _ _ _ => same_refl _) 34 F _ _ hF) fun t' => ?_
  refine same_pure (x := Rmls.sub32 t.num_leaves 1) (v := sub32 t.num_leaves 1)
    (same_sub32 _ _ (num_leaves_lt t)) ?_
  generalize sub32 t.num_leaves 1 = m
  exact same_pure (same_removeScan t' m t'.length) (same_refl _)

theorem same_filtered_direct_path {F : Nat} (hF : 34 ≤ F) (t : RatchetTree) (x : Nat) :
    Same (t.filtered_direct_path x) (filtered_direct_path F t x) := by
  refine same_walkUp (by omega) _ (fun s y p => ?_) 34 F _ _ hF
  refine same_bind (NumLeaves.same_sibling (by omega) _ _) fun o => ?_
  cases o with
  | none => exact same_refl _
  | some _ => exact same_bind (same_resolve (by omega) t _) fun _ => same_refl _

theorem same_pathHashes {F : Nat} (hF : 33 ≤ F) (P : CryptoProvider) (cs : CipherSuite) (t : RatchetTree)
    (sender : Nat) (dp : List Nat) (ni : Nat) (prev : Option Bytes) :
    Same (Rmls.RatchetTree.pathHashes P cs t sender dp ni prev) (pathHashes F P cs t sender dp ni prev) := by
  unfold Rmls.RatchetTree.pathHashes pathHashes
  cases t.get ni with
  | none => exact same_refl _
  | some n =>
    cases n with
    | Leaf _ => exact same_refl _
    | Parent p =>
      refine same_bind (NodeIndex.same_children hF ni) fun o => ?_
      cases o with
      | none => exact same_refl _
      | some lr => exact same_bind (same_compute_tree_hash hF P cs t _ _) fun _ => same_refl _

/-- If the run with overflow checks comes back, both runs leave the same tree and the same outcome. -/
def SamePair {α : Type} (x y : RatchetTree × Res α) : Prop := Returns x.2 → y = x

theorem samePair_refl {α : Type} (x : RatchetTree × Res α) : SamePair x x := fun _ => rfl

/-- `match x with | .err e => (t, .err e) | .fault f => (t, .fault f) | .ok a => k a`. -/
def pairBind {α β : Type} (t : RatchetTree) (x : Res α) (k : α → RatchetTree × Res β) : RatchetTree × Res β :=
  match x with
  | .err e => (t, .err e)
  | .fault f => (t, .fault f)
  | .ok a => k a

theorem samePair_bind {α β : Type} (t : RatchetTree) {x y : Res α} {f g : α → RatchetTree × Res β}
    (h : Same x y) (hf : ∀ a, SamePair (f a) (g a)) : SamePair (pairBind t x f) (pairBind t y g) := by
  cases x with
  | ok a => rw [h (fun f => nofun)]; exact hf a
  | err e => rw [h (fun f => nofun)]; exact samePair_refl _
  | fault f => exact fun h => absurd rfl (h f)

theorem same_pathLoop {F : Nat} (hF : 33 ≤ F) (P : CryptoProvider) (cs : CipherSuite) (sender : Nat)
    (dp : List Nat) : ∀ nis prev t,
    SamePair (Rmls.RatchetTree.pathLoop P cs sender dp nis prev t) (pathLoop F P cs sender dp nis prev t) := by
  intro nis
  induction nis with
  | nil => intro prev t; exact samePair_refl _
  | cons ni nis ih =>
    intro prev t
    unfold Rmls.RatchetTree.pathLoop pathLoop
    have h := same_pathHashes hF P cs t sender dp ni prev
    cases hx : Rmls.RatchetTree.pathHashes P cs t sender dp ni prev with
    | err e => rw [hx] at h; rw [h (fun f => nofun)]; exact samePair_refl _
    | fault f => exact fun h => absurd rfl (h f)
    | ok a =>
      rw [hx] at h
      rw [h (fun f => nofun)]
      obtain ⟨nph, th⟩ := a
      dsimp only
      cases t.get ni with
      | none => exact ih _ _
      | some n =>
        cases n with
        | Leaf _ => exact ih _ _
        | Parent p =>
          dsimp only
          cases ParentNode.compute_parent_hash P cs { p with parent_hash := nph.getD [] } th with
          | err e => exact samePair_refl _
          | fault f => exact fun h => absurd rfl (h f)
          | ok hh => exact ih _ _

theorem same_merge_update_path {F : Nat} (hF : 34 ≤ F) (P : CryptoProvider) (cs : CipherSuite)
    (t : RatchetTree) (li : Nat) (path : UpdatePath) :
    SamePair (Rmls.RatchetTree.merge_update_path P cs t li path) (merge_update_path F P cs t li path) := by
  unfold Rmls.RatchetTree.merge_update_path merge_update_path
  have h1 := same_node_index li
  cases hx : Rmls.LeafIndex.node_index li with
  | err e => rw [hx] at h1; exact absurd (h1 (fun f => nofun)) nofun
  | fault f => exact fun h => absurd rfl (h f)
  | ok ni =>
    rw [hx] at h1
    have h1' := h1 (fun f => nofun)
    cases h1'
    dsimp only
    have h2 := NumLeaves.same_direct_path hF t.num_leaves (LeafIndex.node_index li)
    cases hy : Rmls.NumLeaves.direct_path t.num_leaves (LeafIndex.node_index li) with
    | err e => rw [hy] at h2; rw [h2 (fun f => nofun)]; exact samePair_refl _
    | fault f => exact fun h => absurd rfl (h f)
    | ok dp =>
      rw [hy] at h2
      rw [h2 (fun f => nofun)]
      dsimp only
      generalize dp.foldl (fun t ni => Rmls.RatchetTree.set t ni none) t = t1
      have h3 := same_filtered_direct_path hF t1 (LeafIndex.node_index li)
      cases hz : t1.filtered_direct_path (LeafIndex.node_index li) with
      | err e => rw [hz] at h3; rw [h3 (fun f => nofun)]; exact samePair_refl _
      | fault f => exact fun h => absurd rfl (h f)
      | ok fl =>
        rw [hz] at h3
        rw [h3 (fun f => nofun)]
        dsimp only
        by_cases hlen : fl.length ≠ path.nodes.length
        · rw [if_pos hlen, if_pos hlen]; exact samePair_refl _
        · rw [if_neg hlen, if_neg hlen]
          have h4 := same_pathLoop (F := F) (by omega) P cs (LeafIndex.node_index li) dp fl.reverse none
            (Rmls.RatchetTree.setPath t1 (fl.zip path.nodes))
          cases hw : Rmls.RatchetTree.pathLoop P cs (LeafIndex.node_index li) dp fl.reverse none
            (Rmls.RatchetTree.setPath t1 (fl.zip path.nodes)) with
          | mk t2 r =>
            rw [hw] at h4
            cases r with
            | fault f => exact fun h => absurd rfl (h f)
            | err e => rw [h4 (fun f => nofun)]; exact samePair_refl _
            | ok o => rw [h4 (fun f => nofun)]; exact samePair_refl _

theorem same_applyUpdates {F : Nat} (hF : 34 ≤ F) (senders : List Rmls.LeafIndex) : ∀ ps i t,
    Same (Rmls.RatchetTree.applyUpdates senders i ps t) (applyUpdates F senders i ps t) := by
  intro ps
  induction ps with
  | nil => intro i t; exact same_refl _
  | cons p ps ih =>
    intro i t
    cases p with
    | Update u =>
      unfold Rmls.RatchetTree.applyUpdates applyUpdates
      cases senders[i]? with
      | none => exact same_refl _
      | some s => exact same_bind (same_update hF t _ _) fun t' => ih _ t'
    | _ => exact ih _ t

theorem same_applyRemoves {F : Nat} (hF : 34 ≤ F) : ∀ ps t,
    Same (Rmls.RatchetTree.applyRemoves ps t) (applyRemoves F ps t) := by
  intro ps
  induction ps with
  | nil => intro t; exact same_refl _
  | cons p ps ih =>
    intro t
    cases p with
    | Remove r => exact same_bind (same_remove hF t _) fun t' => ih t'
    | _ => exact ih t

theorem same_applyAdds {F : Nat} (hF : 34 ≤ F) : ∀ ps t,
    Same (Rmls.RatchetTree.applyAdds ps t) (applyAdds F ps t) := by
  intro ps
  induction ps with
  | nil => intro t; exact same_refl _
  | cons p ps ih =>
    intro t
    cases p with
    | Add a => exact same_bind (same_add hF t _) fun t' => ih t'
    | _ => exact ih t

theorem same_apply {F : Nat} (hF : 34 ≤ F) (t : RatchetTree) (ps : List Proposal)
    (senders : List Rmls.LeafIndex) : Same (t.apply ps senders) (apply F t ps senders) :=
  same_bind (same_applyUpdates hF senders ps 0 t) fun t1 => same_bind (same_applyRemoves hF ps t1) fun t2 =>
    same_applyAdds hF ps t2

end RatchetTree

namespace SecretTree

theorem same_derive_children {F : Nat} (hF : 33 ≤ F) (P : CryptoProvider) (cs : CipherSuite) :
    ∀ fuel G t x, fuel ≤ G →
    Same (Rmls.SecretTree.derive_children P cs fuel t x) (derive_children F P cs G t x) := by
  intro fuel
  induction fuel with
  | zero => intro G t x _; exact same_fault _ _
  | succ fuel ih =>
    intro G t x hG
    obtain ⟨G, rfl⟩ : ∃ m, G = m + 1 := ⟨G - 1, by omega⟩
    unfold Rmls.SecretTree.derive_children derive_children
    refine same_bind (NodeIndex.same_children hF x) fun o => ?_
    cases o with
    | none => exact same_refl _
    | some lr =>
      exact same_then _ fun _ => same_then _ fun _ => same_then _ fun _ => same_then _ fun _ =>
        same_bind (ih G _ _ (by omega)) fun _ => ih G _ _ (by omega)

theorem same_new {F : Nat} (hF : 33 ≤ F) (P : CryptoProvider) (cs : CipherSuite) (n : Nat) (s : Bytes) :
    Same (Rmls.SecretTree.new P cs n s) (new F P cs n s) :=
  same_pure (NumLeaves.same_width n) <| same_bind (NumLeaves.same_root n) fun _ =>
    same_derive_children hF P cs 33 F _ _ hF

end SecretTree

theorem same_derive_next (P : CryptoProvider) (cs : CipherSuite) (x : RatchetSecret) :
    Same (x.derive_next P cs) (RatchetSecret.derive_next P cs x) := by
  refine same_then _ fun _ => same_then _ fun _ => ?_
  by_cases h : x.generation = 4294967295
  · rw [if_pos h]; exact same_fault _ _
  · rw [if_neg h]; exact same_refl _

/-! ### Indices outside the tree -/

open Rmls.NumLeaves (height InTree inTree_iff inTree_up inTree_down inTree_top inTree_root)

theorem levelLoop_any {k i : Nat} (hk : k < 32) : ∀ F l, l ≤ k →
    NodeIndex.levelLoop (node k i) F l = .ok k ∨ NodeIndex.levelLoop (node k i) F l = .fault .hang := by
  intro F
  induction F with
  | zero => intro l _; exact Or.inr rfl
  | succ F ih =>
    intro l hl
    unfold NodeIndex.levelLoop shr32
    rw [Nat.mod_eq_of_lt (show l < 32 by omega), node_shr hl, node_and_one]
    by_cases h : k = l
    · subst h; simp
    · rw [if_neg (show ¬ k - l = 0 by omega), if_pos rfl]
      rw [show add32 l 1 = l + 1 by unfold add32; omega]
      exact ih (l + 1) (by omega)

theorem level_any {k : Nat} (F i : Nat) (hk : k < 32) :
    NodeIndex.level F (node k i) = .ok k ∨ NodeIndex.level F (node k i) = .fault .hang := by
  unfold NodeIndex.level
  rw [node_and_one]
  by_cases h : k = 0
  · subst h; exact Or.inl rfl
  · rw [if_neg h, if_neg (by omega)]
    exact levelLoop_any hk F 0 (by omega)

theorem ones_shr {s : Nat} (hs : s < 32) : shr32 4294967295 s &&& 1 = 1 := by
  unfold shr32
  rw [Nat.mod_eq_of_lt hs]
  have : ∀ s : Fin 32, 4294967295 >>> s.1 &&& 1 = 1 := by decide
  exact this ⟨s, hs⟩

theorem level_top : ∀ F, NodeIndex.level F 4294967295 = .fault .hang := by
  intro F
  unfold NodeIndex.level
  rw [if_neg (by decide)]
  have : ∀ F l, NodeIndex.levelLoop 4294967295 F l = .fault .hang := by
    intro F
    induction F with
    | zero => intro l; rfl
    | succ F ih =>
      intro l
      unfold NodeIndex.levelLoop
      have : shr32 4294967295 l = shr32 4294967295 (l % 32) := by
        unfold shr32; rw [Nat.mod_mod]
      rw [this, ones_shr (Nat.mod_lt _ (by omega)), if_pos rfl]
      exact ih _
  exact this F 0

/-- The index is an index of a `u32` tree but not of the perfect tree of height `K`. -/
def Outside (K x : Nat) : Prop := 2 * node K 0 < x ∧ x < 4294967296

theorem parent_level {F n k i : Nat} (h0 : 0 < n) (hn : n ≤ 2 ^ 31) (hr : ¬ (k = height n ∧ i = 0)) (hk : k < 32) :
    NumLeaves.parent F n (node k i) = .fault .hang ∨
    (NodeIndex.level F (node k i) = .ok k ∧ NumLeaves.parent F n (node k i) =
      .ok (some ((node k i ||| shl32 1 k) ^^^ shl32 (shr32 (node k i) (add32 k 1) &&& 1) (add32 k 1)))) := by
  have hroot : NumLeaves.root n = .ok (node (height n) 0) := by
    have h := NumLeaves.same_root n
    rw [Rmls.NumLeaves.root_eq h0 hn] at h
    exact h (fun f => nofun)
  unfold NumLeaves.parent
  rw [hroot, Res.ok_bind, if_neg (fun h => hr (node_inj h))]
  rcases level_any F i hk with h | h
  · right
    rw [h]
    exact ⟨rfl, rfl⟩
  · left
    rw [h]
    rfl

theorem parent_outside {F n x : Nat} (h0 : 0 < n) (hn : n ≤ 2 ^ 31) (hx : Outside (height n) x)
    (hK : height n < 31) :
    NumLeaves.parent F n x = .fault .hang ∨
    ∃ y, NumLeaves.parent F n x = .ok (some y) ∧ Outside (height n) y := by
  obtain ⟨hx1, hx2⟩ := hx
  obtain ⟨k, i, rfl⟩ := node_surj x
  have htop : 2 * node 31 0 = 4294967294 := by decide
  have hout : ¬ InTree (height n) k i := fun h => by have := inTree_iff.1 h; omega
  have hr : ¬ (k = height n ∧ i = 0) := by
    rintro ⟨rfl, rfl⟩; exact hout (inTree_root _)
  by_cases hlast : node k i = 4294967295
  · left
    have hroot : NumLeaves.root n = .ok (node (height n) 0) := by
      have h := NumLeaves.same_root n
      rw [Rmls.NumLeaves.root_eq h0 hn] at h
      exact h (fun f => nofun)
    unfold NumLeaves.parent
    rw [hroot, Res.ok_bind, if_neg (fun h => hr (node_inj h)), hlast, level_top]
    rfl
  · have hin : InTree 31 k i := inTree_iff.2 (by omega)
    have hk := hin.1
    rcases parent_level (F := F) h0 hn hr (by omega) with h | ⟨_, h⟩
    · exact Or.inl h
    · right
      refine ⟨_, h, ?_⟩
      by_cases hk31 : k = 31
      · subst hk31
        rw [inTree_top hin]
        have h30 : 2 * node (height n) 0 ≤ 2 * node 30 0 := by
          have h1 := node_add_one (height n) 0
          have h2 := node_add_one 30 0
          have h3 : 2 ^ height n ≤ 2 ^ 30 := Nat.pow_le_pow_right (by omega) (by omega)
          omega
        have h31 : 2 * node 30 0 = 2147483646 := by decide
        have he : (node 31 0 ||| shl32 1 31) ^^^ shl32 (shr32 (node 31 0) (add32 31 1) &&& 1) (add32 31 1)
            = 4294967294 := by decide
        rw [he]
        exact ⟨by omega, by omega⟩
      · have hs := NumLeaves.same_parent (F := 33) (Nat.le_refl _) n (node k i)
        rw [Rmls.NumLeaves.parent_node h0 hn (by omega) hr] at hs
        have hs' := hs (fun f => nofun)
        have he : ((node k i ||| shl32 1 k) ^^^ shl32 (shr32 (node k i) (add32 k 1) &&& 1) (add32 k 1)) =
            node (k + 1) (i / 2) := by
          rcases parent_level (F := 33) h0 hn hr (by omega) with h | ⟨_, h⟩
          · rw [h] at hs'; exact absurd hs' nofun
          · rw [h] at hs'
            injection hs' with hs'
            injection hs' 
        rw [he]
        have hup := inTree_iff.1 (inTree_up hin (by omega))
        refine ⟨?_, by omega⟩
        have : ¬ InTree (height n) (k + 1) (i / 2) := fun h => hout (inTree_down h)
        rw [inTree_iff] at this
        omega

theorem directPathLoop_outside {n : Nat} (F : Nat) (h0 : 0 < n) (hn : n ≤ 2 ^ 31) (hK : height n < 31) :
    ∀ fuel x, Outside (height n) x → NumLeaves.directPathLoop F n fuel x = .fault .hang := by
  intro fuel
  induction fuel with
  | zero => intro x _; rfl
  | succ fuel ih =>
    intro x hx
    unfold NumLeaves.directPathLoop
    rcases parent_outside (F := F) h0 hn hx hK with h | ⟨y, h, hy⟩
    · rw [h]; rfl
    · rw [h, Res.ok_bind]
      dsimp only
      rw [ih y hy]
      rfl

theorem walkUp_outside {σ : Type} {n : Nat} (F : Nat) (body : σ → Nat → Nat → Res σ) (h0 : 0 < n)
    (hn : n ≤ 2 ^ 31) (hK : height n < 31) (hb : ∀ s x p, ∃ s', body s x p = .ok s') :
    ∀ fuel x s, Outside (height n) x → RatchetTree.walkUp F n body fuel x s = .fault .hang := by
  intro fuel
  induction fuel with
  | zero => intro x s _; rfl
  | succ fuel ih =>
    intro x s hx
    unfold RatchetTree.walkUp
    rcases parent_outside (F := F) h0 hn hx hK with h | ⟨y, h, hy⟩
    · rw [h]; rfl
    · obtain ⟨s', hs⟩ := hb s x y
      rw [h, Res.ok_bind]
      dsimp only
      rw [hs, Res.ok_bind, ih y s' hy]

theorem unmergedWalk_outside {t : RatchetTree} {n p : Nat} (F : Nat) (li : Rmls.LeafIndex) (h0 : 0 < n)
    (hn : n ≤ 2 ^ 31) (hK : height n < 31) (hp : p ≤ 2 * node (height n) 0)
    (hl : t.length ≤ 2 * node (height n) 0 + 1) :
    ∀ fuel x, Outside (height n) x → RatchetTree.unmergedWalk F t n p li fuel x = .fault .hang := by
  intro fuel
  induction fuel with
  | zero => intro x _; rfl
  | succ fuel ih =>
    intro x hx
    unfold RatchetTree.unmergedWalk
    rcases parent_outside (F := F) h0 hn hx hK with h | ⟨y, h, hy⟩
    · rw [h]; rfl
    · have hy1 := hy.1
      rw [h, Res.ok_bind]
      dsimp only
      rw [if_neg (by omega), Rmls.RatchetTree.get_out (by omega)]
      exact ih y hy

/-- The leaf a leaf index stands for. -/
theorem node_index_alias (li : Nat) : LeafIndex.node_index (li + 2 ^ 31) = LeafIndex.node_index li := by
  unfold LeafIndex.node_index mul32
  omega

theorem node_index_lt {li : Nat} (h : li < 2 ^ 31) : LeafIndex.node_index li = 2 * li := by
  unfold LeafIndex.node_index mul32
  omega

end Release
end Rmls
