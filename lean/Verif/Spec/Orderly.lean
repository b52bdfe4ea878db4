import Verif.Spec.Lockout
/-
The rules by which a group has to change for newcomers to be able to join it (RFC 9420 sections 7.3, 12.1 and 12.2).
-/
namespace Rmls.Spec

/-- A leaf node that may be put into the tree at leaf `li`.  The conditions on other members are on those at other leaves. -/
structure GoodLeaf (P : CryptoProvider) (cs : CipherSuite) (group_id : Bytes) (t : RatchetTree) (li : Nat) (leaf : LeafNode) :
    Prop where
  fits : (leafNode leaf).fits
  signed : LeafSigned P cs leaf group_id (UInt32.ofNat li)
  extensions : ∀ e ∈ leaf.payload.extensions, e.extension_type ∈ leaf.payload.capabilities.extensions
  once : leaf.payload.capabilities.credentials.Nodup
  own : credTypeOf leaf.payload.credential ∈ leaf.payload.capabilities.credentials
  supports : ∀ i l, i ≠ li → t[2 * i]?.join = some (.Leaf l) →
    credTypeOf l.payload.credential ∈ leaf.payload.capabilities.credentials
  supported : ∀ i l, i ≠ li → t[2 * i]?.join = some (.Leaf l) →
    credTypeOf leaf.payload.credential ∈ l.payload.capabilities.credentials
  signature_key : ∀ i l, i ≠ li → t[2 * i]?.join = some (.Leaf l) → leaf.payload.signature_key ≠ l.payload.signature_key
  encryption_key : ∀ x, x ≠ 2 * li → ¬ HasKey (fun x => t[x]?.join) x leaf.payload.encryption_key

/-- The leaf node is from a key package. -/
def FromPackage (leaf : LeafNode) : Prop := ∃ lt, leaf.payload.leaf_node_source = .KeyPackage lt

/-- The keys of a path, which can be written down, are new and distinct. -/
structure NewKeys (t : RatchetTree) (p : UpdatePath) : Prop where
  fits : (updatePath p).fits
  distinct : (p.leaf_node.payload.encryption_key :: p.nodes.map (·.encryption_key)).Nodup
  fresh : ∀ key ∈ p.leaf_node.payload.encryption_key :: p.nodes.map (·.encryption_key), ∀ x, ¬ HasKey (fun x => t[x]?.join) x key

/-- The lists of unmerged leaves are short enough to be written down. -/
def ShortLists (t : RatchetTree) : Prop := ∀ x : Nat, ∀ p, t[x]?.join = some (.Parent p) → (parentNode p).fits

end Rmls.Spec
