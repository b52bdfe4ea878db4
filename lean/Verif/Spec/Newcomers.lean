import Verif.Spec.Orderly
/-
What has to hold of those whom a commit adds (RFC 9420 sections 7.3 and 12.1.1), in terms of the tree before the commit.
-/
namespace Rmls.Spec

/-- Two who are added get along: other keys, and each supports the credential of the other. -/
structure GetAlong (a b : LeafNode) : Prop where
  signature_key : a.payload.signature_key ≠ b.payload.signature_key
  encryption_key : a.payload.encryption_key ≠ b.payload.encryption_key
  supports : credTypeOf a.payload.credential ∈ b.payload.capabilities.credentials
  supported : credTypeOf b.payload.credential ∈ a.payload.capabilities.credentials

/-- The leaf nodes of key packages, good beside the members and beside each other.  Leaf `t.length` is outside of the array, so
that `GoodLeaf` speaks of all members.  There is space in the lists of unmerged leaves. -/
structure GoodNewcomers (P : CryptoProvider) (cs : CipherSuite) (group_id : Bytes) (t : RatchetTree) (leaves : List LeafNode) :
    Prop where
  each : ∀ l ∈ leaves, FromPackage l ∧ GoodLeaf P cs group_id t t.length l
  among : leaves.Pairwise GetAlong
  space : ∀ (x : Nat) p, t[x]?.join = some (.Parent p) → (parentNode p).fits ∧
    4 * (p.unmerged_leaves.length + leaves.length) < 2 ^ 30

end Rmls.Spec
