import Verif.Spec.Wire
import Verif.Spec.RatchetTree
/-
Tree hashes and parent hashes (RFC 9420 sections 7.8 and 7.9), written from the RFC over an arbitrary
digest function.  Nodes are addressed by level and position.
-/
namespace Rmls.Spec
open Enc

def leafOf : Option Node → Option LeafNode
  | some (.Leaf l) => some l
  | _ => none

def parentOf : Option Node → Option ParentNode
  | some (.Parent p) => some p
  | _ => none

/-- `TreeHashInput` of a leaf. -/
def leafHashInput (li : Nat) (n : Option LeafNode) : Enc :=
  struct [uint 1 1, uint 4 li, optional leafNode n]

/-- `TreeHashInput` of an inner node. -/
def parentHashInput (n : Option ParentNode) (left right : Bytes) : Enc :=
  struct [uint 1 2, optional parentNode n, opq left, opq right]

/-- The tree hash of the node at level `k`, position `i`. -/
def treeHash (H : Bytes → Bytes) (nodes : Nat → Option Node) : Nat → Nat → Bytes
  | 0, i => H (leafHashInput i (leafOf (nodes (node 0 i)))).bytes
  | k + 1, i => H (parentHashInput (parentOf (nodes (node (k + 1) i))) (treeHash H nodes k (2 * i))
      (treeHash H nodes k (2 * i + 1))).bytes

/-- Everything that is hashed on the way. -/
def hashInputs (H : Bytes → Bytes) (nodes : Nat → Option Node) : Nat → Nat → List Bytes
  | 0, i => [(leafHashInput i (leafOf (nodes (node 0 i)))).bytes]
  | k + 1, i => (parentHashInput (parentOf (nodes (node (k + 1) i))) (treeHash H nodes k (2 * i))
      (treeHash H nodes k (2 * i + 1))).bytes ::
      (hashInputs H nodes k (2 * i) ++ hashInputs H nodes k (2 * i + 1))

/-- Leaves at the leaf positions, parents at the others, and everything short enough to be encoded. -/
def HashDefined (H : Bytes → Bytes) (nodes : Nat → Option Node) : Nat → Nat → Prop
  | 0, i => (∀ p, nodes (node 0 i) ≠ some (.Parent p)) ∧
      (leafHashInput i (leafOf (nodes (node 0 i)))).fits
  | k + 1, i => (∀ l, nodes (node (k + 1) i) ≠ some (.Leaf l)) ∧
      (parentHashInput (parentOf (nodes (node (k + 1) i))) (treeHash H nodes k (2 * i))
        (treeHash H nodes k (2 * i + 1))).fits ∧
      HashDefined H nodes k (2 * i) ∧ HashDefined H nodes k (2 * i + 1)

open Classical in
/-- The tree without some leaves: they are blank, and no parent lists them as unmerged. -/
noncomputable def without (gone : List LeafIndex) (nodes : Nat → Option Node) : Nat → Option Node := fun x =>
  if ∃ u ∈ gone, x = node 0 u.toNat then none
  else match nodes x with
    | some (.Parent p) =>
      some (.Parent { p with unmerged_leaves := p.unmerged_leaves.filter fun u => decide (u ∉ gone) })
    | n => n

/-- `ParentHashInput`. -/
def parentHashEnc (p : ParentNode) (siblingHash : Bytes) : Enc :=
  struct [opq p.encryption_key, opq p.parent_hash, opq siblingHash]

/-- Two different inputs, one hashed here and one there, with the same digest. -/
def Collision (H : Bytes → Bytes) (here there : List Bytes) : Prop :=
  ∃ a ∈ here, ∃ b ∈ there, a ≠ b ∧ H a = H b

end Rmls.Spec
