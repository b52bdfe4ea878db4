import Verif.Model.Work
/-
`rmls/src/ratchet_tree/mod.rs` once more: merging the path of a commit (`merge_update_path`) with its work counted.

Every function is the one of the same name in `Model/RatchetTree.lean` with counters; that the results are the same is proved in
`Proofs/MergeWork.lean`.  Counted are the digests computed, the nodes that `resolve` visits and the unmerged leaves that it
copies.  Not counted: the at most 31 rounds of the walks up the tree, look-ups in the direct path, moving the lists that `resolve`
returns from one level to the next, the bytes that go through a digest.
-/
namespace Rmls

/-- What has been done so far. -/
structure Toll where
  digests : Nat
  visits : Nat
  copies : Nat
  deriving DecidableEq, Repr

/-- Work done one after the other. -/
def Toll.plus (a b : Toll) : Toll := ⟨a.digests + b.digests, a.visits + b.visits, a.copies + b.copies⟩

/-- A result and the work done for it. -/
structure Tolled (α : Type) where
  res : Res α
  toll : Toll

namespace Tolled

/-- The `?` operator: after an error nothing more is done. -/
def bind {α β : Type} (x : Tolled α) (f : α → Tolled β) : Tolled β :=
  match x.res with
  | .ok a => ⟨(f a).res, x.toll.plus (f a).toll⟩
  | .err e => ⟨.err e, x.toll⟩
  | .fault e => ⟨.fault e, x.toll⟩

/-- A computation that does nothing that is counted. -/
def free {α : Type} (x : Res α) : Tolled α := ⟨x, ⟨0, 0, 0⟩⟩

instance : Monad Tolled where
  pure a := free (.ok a)
  bind := bind

/-- The digests of a computation of `Model/Work.lean`. -/
def digests {α : Type} (x : Counted α) : Tolled α := ⟨x.res, ⟨x.work.digests, 0, 0⟩⟩

end Tolled

namespace RatchetTree.Tolling
open Tolled

/-- One call of `resolve`, `rmls/src/ratchet_tree/mod.rs:343-363`, without the calls that it makes: one node, and every unmerged
leaf that it lists is copied (lines 347-349; counted also if the multiplication in `node_index` panics on the way). -/
def visit (n : Option Node) : Toll :=
  match n with
  | some (.Parent p) => ⟨0, 1, p.unmerged_leaves.length⟩
  | _ => ⟨0, 1, 0⟩

/-- `RatchetTree::resolve`, `rmls/src/ratchet_tree/mod.rs:343-363`. -/
def resolveFuel (t : RatchetTree) : Nat → Nat → Tolled (List Nat)
  | 0, _ => free (.fault .hang)
  | fuel + 1, x => do
    let _ ← (⟨.ok (), visit (t.get x)⟩ : Tolled Unit)
    match t.get x with
    | some n =>
      match n with
      | .Parent p => do
        let ls ← free (unmergedNodes p.unmerged_leaves)
        pure (x :: ls)
      | .Leaf _ => pure [x]
    | none => do
      match ← free (NodeIndex.children x) with
      | none => pure []
      | some (l, r) => do
        let res ← resolveFuel t fuel l
        let right ← resolveFuel t fuel r
        pure (res ++ right)

/-- The loop of `filtered_direct_path`, as `walkUp` in `Model/RatchetTree.lean`. -/
def walkUp {σ : Type} (n : Nat) (body : σ → Nat → Nat → Tolled σ) : Nat → Nat → σ → Tolled σ
  | 0, _, _ => free (.fault .hang)
  | fuel + 1, x, s => do
    match ← free (NumLeaves.parent n x) with
    | none => pure s
    | some p => do
      let s' ← body s x p
      walkUp n body fuel p s'

/-- The body of that loop, `rmls/src/ratchet_tree/mod.rs:833-844`. -/
def filterStep (t : RatchetTree) (path : List Nat) (x p : Nat) : Tolled (List Nat) := do
  match ← free (NumLeaves.sibling t.num_leaves x) with
  | none => free (.err .InvalidSibling)
  | some s => do
    let r ← resolveFuel t 33 s
    if r.isEmpty = false then pure (path ++ [p]) else pure path

/-- `RatchetTree::filtered_direct_path`, `rmls/src/ratchet_tree/mod.rs:825-848`. -/
def filtered_direct_path (t : RatchetTree) (x : Nat) : Tolled (List Nat) :=
  walkUp t.num_leaves (filterStep t) 34 x []

/-- `rmls/src/ratchet_tree/mod.rs:886-911`. -/
def pathHashes (P : CryptoProvider) (cs : CipherSuite) (t : RatchetTree) (sender_node_index : Nat)
    (direct_path : List Nat) (ni : Nat) (prev : Option Bytes) : Tolled (Option Bytes × Bytes) :=
  match t.get ni with
  | some (.Parent _) => do
    match ← free (NodeIndex.children ni) with
    | none => free (.err .InvalidChildren)
    | some (l, r) => do
      let s := if l = sender_node_index ∨ direct_path.contains l = true then r else l
      let tree_hash ← digests (Counting.compute_tree_hash P cs t s [])
      pure (prev, tree_hash)
  | _ => pure (none, [])

/-- The loop from the root down, `rmls/src/ratchet_tree/mod.rs:883-927`. -/
def pathLoop (P : CryptoProvider) (cs : CipherSuite) (sender_node_index : Nat) (direct_path : List Nat) :
    List Nat → Option Bytes → RatchetTree → RatchetTree × Tolled (Option Bytes)
  | [], prev, t => (t, free (.ok prev))
  | ni :: nis, prev, t =>
    let x := pathHashes P cs t sender_node_index direct_path ni prev
    match x.res with
    | .err e => (t, ⟨.err e, x.toll⟩)
    | .fault f => (t, ⟨.fault f, x.toll⟩)
    | .ok (node_parent_hash, tree_hash) =>
      match t.get ni with
      | some (.Parent p) =>
        let p' := { p with parent_hash := node_parent_hash.getD [] }
        let t' := t.set ni (some (.Parent p'))
        let y := digests (Counted.digest (p'.compute_parent_hash P cs tree_hash))
        match y.res with
        | .err e => (t', ⟨.err e, x.toll.plus y.toll⟩)
        | .fault f => (t', ⟨.fault f, x.toll.plus y.toll⟩)
        | .ok h =>
          let z := pathLoop P cs sender_node_index direct_path nis (some h) t'
          (z.1, ⟨z.2.res, (x.toll.plus y.toll).plus z.2.toll⟩)
      | _ =>
        let z := pathLoop P cs sender_node_index direct_path nis prev t
        (z.1, ⟨z.2.res, x.toll.plus z.2.toll⟩)

/-- `RatchetTree::merge_update_path`, `rmls/src/ratchet_tree/mod.rs:851-942`. -/
def merge_update_path (P : CryptoProvider) (cs : CipherSuite) (t : RatchetTree) (sender_leaf_index : Nat)
    (path : UpdatePath) : RatchetTree × Tolled Unit :=
  match LeafIndex.node_index sender_leaf_index with
  | .err e => (t, free (.err e))
  | .fault f => (t, free (.fault f))
  | .ok sender_node_index =>
  match NumLeaves.direct_path t.num_leaves sender_node_index with
  | .err e => (t, free (.err e))
  | .fault f => (t, free (.fault f))
  | .ok direct_path =>
  let t := direct_path.foldl (fun t ni => t.set ni none) t
  let x := filtered_direct_path t sender_node_index
  match x.res with
  | .err e => (t, ⟨.err e, x.toll⟩)
  | .fault f => (t, ⟨.fault f, x.toll⟩)
  | .ok filtered =>
  if filtered.length ≠ path.nodes.length then
    (t, ⟨.err .UpdatePathAndFilteredDirectPathHasDifferentNode, x.toll⟩)
  else
  let t := t.setPath (filtered.zip path.nodes)
  let y := pathLoop P cs sender_node_index direct_path filtered.reverse none t
  let toll := x.toll.plus y.2.toll
  match y.2.res with
  | .err e => (y.1, ⟨.err e, toll⟩)
  | .fault f => (y.1, ⟨.fault f, toll⟩)
  | .ok prev_parent_hash =>
  match path.leaf_node.payload.leaf_node_source, prev_parent_hash with
  | .Commit parent_hash, some h =>
    if parent_hash ≠ h then (y.1, ⟨.err .ParentHashMismatchForUpdatePathLeafNode, toll⟩)
    else (y.1.set sender_node_index (some (.Leaf path.leaf_node)), ⟨.ok (), toll⟩)
  | _, _ => (y.1, ⟨.err .ParentHashMismatchForUpdatePathLeafNode, toll⟩)

end RatchetTree.Tolling
end Rmls
