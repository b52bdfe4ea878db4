import Verif.Spec.Labels
import Verif.Model.LeafNode
/-
Conditions of leaf node and key package validation (RFC 9420 sections 7.3 and 10.1), stated over the RFC
encodings.
-/
namespace Rmls.Spec
open Enc

/-- The times at which the RFC wants a lifetime accepted: between its ends, and not too long.  Times are in
nanoseconds, the fields in units of `unit` nanoseconds. -/
def LifetimeValid (unit : Int) (limit : Int) (x : Lifetime) (now : Int) : Prop :=
  x.not_before.toNat * unit ≤ now ∧ now ≤ x.not_after.toNat * unit ∧
  x.not_after.toNat * unit - x.not_before.toNat * unit ≤ limit

/-- The times at which the code accepts a lifetime: the range is at least 2160 seconds and over.  It takes the
fields as microseconds. -/
def LifetimeAccepted (x : Lifetime) (now : Int) : Prop :=
  x.not_before.toNat + 2160000000 ≤ x.not_after.toNat ∧ (x.not_after.toNat : Int) * 1000 < now

def credTypeOf : Credential → CredentialType
  | .Basic _ => .Basic
  | .X509 _ => .X509

/-- The leaf carries a signature by its own key over itself and, unless it is from a key package, its place. -/
def LeafSigned (P : CryptoProvider) (cs : CipherSuite) (x : LeafNode) (group_id : Bytes)
    (leaf_index : LeafIndex) : Prop :=
  (leafNodeTBS x.payload group_id leaf_index).fits ∧
  SignedBy P cs x.payload.signature_key (text "LeafNodeTBS")
    (leafNodeTBS x.payload group_id leaf_index).bytes x.signature

/-- The key package carries a signature by its leaf's key. -/
def KeyPackageSigned (P : CryptoProvider) (x : KeyPackage) : Prop :=
  (keyPackageTBS x.payload).fits ∧
  SignedBy P x.payload.cipher_suite x.payload.leaf_node.payload.signature_key (text "KeyPackageTBS")
    (keyPackageTBS x.payload).bytes x.signature

/-- Section 7.3, as far as the code checks it. -/
structure LeafValid (P : CryptoProvider) (x : LeafNode) (cs : CipherSuite) (group_id : Bytes)
    (leaf_index : LeafIndex) (supported : CredentialType → Prop) (now : Int) : Prop where
  signed : LeafSigned P cs x group_id leaf_index
  credential : supported (credTypeOf x.payload.credential)
  lifetime : ∀ lt, x.payload.leaf_node_source = .KeyPackage lt → 0 < now → LifetimeAccepted lt now
  extensions : ∀ e ∈ x.payload.extensions, e.extension_type ∈ x.payload.capabilities.extensions

end Rmls.Spec
