import Verif.Model.MergeWork
/-
`rmls/src/ratchet_tree/mod.rs` once more: applying the proposals of a commit (`apply`) with its work counted.

Every function is the one of the same name in `Model/RatchetTree.lean` with counters; that the results are the same is proved in
`Proofs/ApplyWork.lean`.  Counted are the slots that are looked at in the search for a free leaf and in the search for the last
member (`visits`), and the blank slots that are appended (`copies`).  Not counted: the at most 32 rounds of the walks up the tree.
-/
namespace Rmls.RatchetTree.Tolling
open Tolled

/-- A slot is looked at. -/
def look : Tolled Unit := ⟨.ok (), ⟨0, 1, 0⟩⟩

/-- Blank slots are appended. -/
def push (n : Nat) : Tolled Unit := ⟨.ok (), ⟨0, 0, n⟩⟩

/-- The search loop of `add`, `rmls/src/ratchet_tree/mod.rs:734-744`. -/
def addSearch (t : RatchetTree) : Nat → Nat → Tolled (Nat × Bool)
  | 0, _ => free (.fault .hang)
  | fuel + 1, li => do
    let ni ← free (LeafIndex.node_index li)
    if t.length ≤ ni then pure (li, false)
    else do
      let _ ← look
      if (t.get ni).isNone then pure (li, true)
      else do
        let li' ← free (add32 li 1)
        addSearch t fuel li'

/-- `RatchetTree::add`, `rmls/src/ratchet_tree/mod.rs:730-767`. -/
def add (t : RatchetTree) (leaf_node : LeafNode) : Tolled RatchetTree := do
  let (li, found) ← addSearch t (t.length + 1) 0
  let _ ← push (if found then 0 else (t.length + 1) * 2 - 1 - t.length)
  free (do
    let ni ← if found then LeafIndex.node_index li else add32 (cast32 t.length) 1
    let t := if found then t else t ++ List.replicate ((t.length + 1) * 2 - 1 - t.length) none
    let t ← RatchetTree.walkUp t.num_leaves (fun t _ p => .ok (pushUnmerged (UInt32.ofNat li) t p)) 34 ni t
    pure (t.set ni (some (.Leaf leaf_node))))

/-- The second loop of `remove`, `rmls/src/ratchet_tree/mod.rs:803-818`. -/
def removeScan (t : RatchetTree) : Nat → Nat → Tolled (Option Nat)
  | 0, last => do
    let ni ← free (LeafIndex.node_index 0)
    let _ ← look
    if (t.get ni).isSome then pure (some last) else pure none
  | li + 1, last => do
    let ni ← free (LeafIndex.node_index (li + 1))
    let _ ← look
    if (t.get ni).isSome then pure (some last)
    else removeScan t li (if is_power_of_two ni then ni else last)

/-- `RatchetTree::remove`, `rmls/src/ratchet_tree/mod.rs:787-823`. -/
def remove (t : RatchetTree) (li : Nat) : Tolled RatchetTree := do
  let ni ← free (LeafIndex.node_index li)
  let n := t.num_leaves
  let t ← free (RatchetTree.walkUp n (fun t _ p => .ok (t.set p none)) 34 ni (t.set ni none))
  let last_li ← free (sub32 n 1)
  match ← removeScan t last_li t.length with
  | none => pure []
  | some last => if last < t.length then pure (t.take last) else pure t

/-- The remove loop of `apply`, `rmls/src/ratchet_tree/mod.rs:954-958`. -/
def applyRemoves : List Proposal → RatchetTree → Tolled RatchetTree
  | [], t => pure t
  | .Remove r :: ps, t => do
    let t ← remove t r.removed.toNat
    applyRemoves ps t
  | _ :: ps, t => applyRemoves ps t

/-- The add loop of `apply`, `rmls/src/ratchet_tree/mod.rs:961-965`. -/
def applyAdds : List Proposal → RatchetTree → Tolled RatchetTree
  | [], t => pure t
  | .Add a :: ps, t => do
    let t ← add t a.key_package.payload.leaf_node
    applyAdds ps t
  | _ :: ps, t => applyAdds ps t

/-- `RatchetTree::apply`, `rmls/src/ratchet_tree/mod.rs:945-966`; nothing that an update does is counted. -/
def apply (t : RatchetTree) (proposals : List Proposal) (senders : List LeafIndex) : Tolled RatchetTree := do
  let t ← free (applyUpdates senders 0 proposals t)
  let t ← applyRemoves proposals t
  applyAdds proposals t

end Rmls.RatchetTree.Tolling
