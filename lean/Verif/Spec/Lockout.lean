import Verif.Spec.Onward
import Verif.Spec.Client
/-
What the tree of a group has to be for newcomers to accept it, and a path that keeps it so.
-/
namespace Rmls.Spec

/-- The context of a group with the hash of this tree, of height `K`. -/
def withTree (H : Bytes → Bytes) (ctx : GroupContext) (t : RatchetTree) (K : Nat) : GroupContext :=
  { ctx with tree_hash := treeHash H (fun x => t[x]?.join) K 0 }

/-- A full tree of height `K` that newcomers accept, whose unmerged leaves are members, and with members below both children of
every parent. -/
structure Welcoming (P : CryptoProvider) (H : Bytes → Bytes) (ctx : GroupContext) (K : Nat) (t : RatchetTree) : Prop where
  size : t.length + 1 = 2 ^ (K + 1)
  small : t.length < 2 ^ 32
  valid : TreeValid P H (fun x => t[x]?.join) K (2 ^ K) (withTree H ctx t K) 0
  unmerged : ∀ (x : Nat) p, t[x]?.join = some (.Parent p) → ∀ u ∈ p.unmerged_leaves, t[2 * u.toNat]?.join ≠ none
  both : BothUsed fun x => t[x]?.join

/-- The path of a member who supports the same credentials as before, and whose keys are new, can be written down, and
is accepted. -/
structure GoodPath (P : CryptoProvider) (cs : CipherSuite) (ctx : GroupContext) (t : RatchetTree) (c : LeafIndex)
    (p : UpdatePath) : Prop where
  member : ∃ l, t[2 * c.toNat]?.join = some (.Leaf l) ∧
    p.leaf_node.payload.capabilities.credentials = l.payload.capabilities.credentials
  checked : PathChecked P cs ctx t c p
  fits : (updatePath p).fits
  distinct : (p.leaf_node.payload.encryption_key :: p.nodes.map (·.encryption_key)).Nodup
  fresh : ∀ key ∈ p.leaf_node.payload.encryption_key :: p.nodes.map (·.encryption_key), ∀ x, ¬ HasKey (fun x => t[x]?.join) x key

end Rmls.Spec
