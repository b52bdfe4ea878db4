import Verif.Spec.TreeChecks
import Verif.Spec.LeafNode
/-
The conditions on a ratchet tree received from somebody else (RFC 9420 sections 7.9.2 and 12.4.3.1), as far
as the code checks them.  Written over the RFC notions: tree hashes, resolutions, parent hashes.
-/
namespace Rmls.Spec
open Enc

/-- The parent hash carried by a node. -/
def storedParentHash : Option Node → Option Bytes
  | some (.Leaf l) =>
    match l.payload.leaf_node_source with
    | .Commit h => some h
    | _ => none
  | some (.Parent p) => some p.parent_hash
  | none => none

/-- The parent hash of `p` with respect to the child at level `k`, position `i`, as a sibling: over the tree
without the unmerged leaves of `p`. -/
noncomputable def parentHashOver (H : Bytes → Bytes) (nodes : Nat → Option Node) (p : ParentNode) (k i : Nat) :
    Bytes :=
  H (parentHashEnc p (treeHash H (without p.unmerged_leaves nodes) k i)).bytes

/-- A node in the resolution of the child at level `k`, position `c` carries the parent hash of `p` with the
other child, position `s`, as the sibling. -/
def Linked (H : Bytes → Bytes) (nodes : Nat → Option Node) (p : ParentNode) (k c s : Nat) : Prop :=
  ∃ x ∈ resolution nodes k c, storedParentHash (nodes x) = some (parentHashOver H nodes p k s)

/-- RFC 9420 section 7.9.2: node `x` vouches for the parent `p` whose children are at level `k`, positions `c` and
`s`: it is in the resolution of child `c`, carries the parent hash of `p`, and everything else in this resolution
joined after `p` was set. -/
structure VouchedBy (H : Bytes → Bytes) (nodes : Nat → Option Node) (p : ParentNode) (k c s x : Nat) : Prop where
  found : x ∈ resolution nodes k c
  hash : storedParentHash (nodes x) = some (parentHashOver H nodes p k s)
  rest : ∀ y, (y ∈ resolution nodes k c ∧ y ≠ x) ↔ ∃ u ∈ p.unmerged_leaves, below k c u.toNat ∧ y = node 0 u.toNat

/-- The parent at level `k + 1`, position `i` is vouched for from below on exactly one side. -/
structure ParentHashValid (H : Bytes → Bytes) (nodes : Nat → Option Node) (k i : Nat) (p : ParentNode) :
    Prop where
  left : HashDefined H (without p.unmerged_leaves nodes) k (2 * i)
  right : HashDefined H (without p.unmerged_leaves nodes) k (2 * i + 1)
  left_fits : (parentHashEnc p (treeHash H (without p.unmerged_leaves nodes) k (2 * i))).fits
  right_fits : (parentHashEnc p (treeHash H (without p.unmerged_leaves nodes) k (2 * i + 1))).fits
  one : ¬ (Linked H nodes p k (2 * i) (2 * i + 1) ↔ Linked H nodes p k (2 * i + 1) (2 * i))

/-- The encryption key of a member or of an inner node. -/
def HasKey (nodes : Nat → Option Node) (x : Nat) (key : HPKEPublicKey) : Prop :=
  (∃ i l, x = node 0 i ∧ nodes x = some (.Leaf l) ∧ l.payload.encryption_key = key) ∨
  (∃ p, nodes x = some (.Parent p) ∧ p.encryption_key = key)

/-- The credential types that the members count as supported. -/
def SupportedCred (nodes : Nat → Option Node) (n : Nat) (ct : CredentialType) : Prop :=
  0 < credCount (members nodes n) ct ∧ credCount (members nodes n) ct = (members nodes n).length

/-- An unmerged leaf of the parent at level `k`, position `i` is below it, and every other parent on the way
up lists it too. -/
structure UnmergedListed (nodes : Nat → Option Node) (k i : Nat) (u : LeafIndex) : Prop where
  below : below k i u.toNat
  between : ∀ m q, 1 ≤ m → m < k → nodes (node m (u.toNat / 2 ^ m)) = some (.Parent q) → u ∈ q.unmerged_leaves

/-- The tree of height `K` with `n` leaves is the one of the group context. -/
structure TreeValid (P : CryptoProvider) (H : Bytes → Bytes) (nodes : Nat → Option Node) (K n : Nat)
    (ctx : GroupContext) (now : Int) : Prop where
  defined : HashDefined H nodes K 0
  hash : treeHash H nodes K 0 = ctx.tree_hash
  parents : ∀ k i p, nodes (node (k + 1) i) = some (.Parent p) → ParentHashValid H nodes k i p
  leaves : ∀ i l, nodes (node 0 i) = some (.Leaf l) →
    LeafValid P l ctx.cipher_suite ctx.group_id (UInt32.ofNat i) (SupportedCred nodes n) now
  signature_keys : ∀ i j l m, nodes (node 0 i) = some (.Leaf l) → nodes (node 0 j) = some (.Leaf m) →
    l.payload.signature_key = m.payload.signature_key → i = j
  encryption_keys : ∀ x y key, HasKey nodes x key → HasKey nodes y key → x = y
  unmerged : ∀ k i p, nodes (node k i) = some (.Parent p) → ∀ u ∈ p.unmerged_leaves, UnmergedListed nodes k i u

end Rmls.Spec
