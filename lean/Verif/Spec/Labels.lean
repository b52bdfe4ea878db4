import Verif.Model.Crypto
import Verif.Spec.Wire
/-
Inputs of the labelled operations and of the signatures (RFC 9420 sections 5.1.2, 5.1.3, 5.2, 6.1, 7.2, 8, 10,
12.4.3), transcribed from the RFC.
-/
namespace Rmls.Spec
open Enc

/-- The bytes of a text. -/
def text (s : String) : Bytes := s.toUTF8.data.toList

/-- `SignContent` of section 5.1.2 and `EncryptContext` of section 5.1.3. -/
def labelled (label content : Bytes) : Enc := struct [opq (text "MLS 1.0 " ++ label), opq content]
/-- `KDFLabel` of section 8. -/
def kdfLabel (length : Nat) (label context : Bytes) : Enc :=
  struct [uint 2 length, opq (text "MLS 1.0 " ++ label), opq context]
/-- `RefHashInput` of section 5.2. -/
def refHashInput (label value : Bytes) : Enc := struct [opq label, opq value]

/-- `LeafNodeTBS` of section 7.2, for a leaf at a position of a group. -/
def leafNodeTBS (x : LeafNodePayload) (group_id : Bytes) (leaf_index : LeafIndex) : Enc :=
  struct [leafNodePayload x, match x.leaf_node_source with
    | .KeyPackage _ => empty
    | .Update => struct [opq group_id, leafIndex leaf_index]
    | .Commit _ => struct [opq group_id, leafIndex leaf_index]]

/-- A signature that the provider accepts, for this key, over this label and content: `VerifyWithLabel` of
section 5.1.2.  The label and the content have to be short enough to be encoded. -/
def SignedBy (P : CryptoProvider) (cs : CipherSuite) (key label content signature : Bytes) : Prop :=
  (labelled label content).fits ∧
  ∃ s, P.signature cs = .ok s ∧ s.verify key (labelled label content).bytes signature = .ok ()

/-- No two messages share a signature under a key: what unforgeability gives in the symbolic setting. -/
def BindsMessage (P : CryptoProvider) : Prop :=
  ∀ cs s key m m' signature, P.signature cs = .ok s → s.verify key m signature = .ok () →
    s.verify key m' signature = .ok () → m = m'

end Rmls.Spec
