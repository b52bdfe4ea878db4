import Verif.Spec.Integrity
import Verif.Spec.Merge
/-
What the tree of a well-behaved group looks like after any history (RFC 9420 sections 7.7, 7.9.1, 7.9.2).
-/
namespace Rmls.Spec

/-- The leaf node does not carry a parent hash: it comes from a key package or an update proposal. -/
def NotCommit (l : LeafNode) : Prop := ∀ h, l.payload.leaf_node_source ≠ .Commit h

/-- What is remembered of the past of a group: the encryption keys that update paths brought into the tree, and
everything that was hashed for the parent hashes of these paths. -/
structure Past where
  keys : List HPKEPublicKey
  inputs : List Bytes

/-- What is hashed for the parent hashes of an update path of member `j`, given the tree with the path. -/
def pathInputs (H : Bytes → Bytes) (nodes : Nat → Option Node) (j : Nat) : List Bytes :=
  (List.range 32).filterMap fun k => (parentOf (nodes (anc j (k + 1)))).map fun q =>
    (parentHashEnc q (treeHash H nodes k (sib j k))).bytes

/-- The past after an update path of member `j`, given the tree with the path. -/
def Past.merged (past : Past) (H : Bytes → Bytes) (nodes : Nat → Option Node) (j : Nat) (path : UpdatePath) : Past where
  keys := path.nodes.map (·.encryption_key) ++ past.keys
  inputs := pathInputs H nodes j ++ past.inputs

/-- The hash inputs that are compared when the parent at level `k + 1`, position `i` is checked. -/
noncomputable def checkedInputs (H : Bytes → Bytes) (nodes : Nat → Option Node) (k i : Nat) (p : ParentNode) :
    List Bytes :=
  [(parentHashEnc p (treeHash H (without p.unmerged_leaves nodes) k (2 * i))).bytes,
   (parentHashEnc p (treeHash H (without p.unmerged_leaves nodes) k (2 * i + 1))).bytes]

/-- An inner node that is not blank has members below both children. -/
def BothUsed (nodes : Nat → Option Node) : Prop :=
  ∀ k i n, nodes (node (k + 1) i) = some n →
    (∃ j, below k (2 * i) j ∧ nodes (node 0 j) ≠ none) ∧ (∃ j, below k (2 * i + 1) j ∧ nodes (node 0 j) ≠ none)

end Rmls.Spec
