import Verif.Spec.LeafNode
import Verif.Spec.Framing
/-
What the holder of a signature key has signed, and what it is to forge their signature.
-/
namespace Rmls.Spec
open Enc

/-- Something that the holder of a signature key has signed. -/
inductive Statement where
  | leaf (x : LeafNodePayload) (group_id : Bytes) (leaf_index : LeafIndex)
  | keyPackage (x : KeyPackageTBS)
  | groupInfo (x : GroupInfo)
  | content (w : WireFormat) (c : FramedContent) (ctx : GroupContext)
  /-- anything signed under a label of its own -/
  | other (label content : Bytes)

/-- Section 5.1.2: the bytes that are signed. -/
def Statement.signed : Statement → Enc
  | .leaf x g i => labelled (text "LeafNodeTBS") (leafNodeTBS x g i).bytes
  | .keyPackage x => labelled (text "KeyPackageTBS") (keyPackageTBS x).bytes
  | .groupInfo x => labelled (text "GroupInfoTBS") (groupInfoTBS x).bytes
  | .content w c ctx => labelled (text "FramedContentTBS") (framedContentTBS .MLS10 w c ctx).bytes
  | .other l c => labelled l c

/-- The statement has an encoding, in the form in which the library reads it back. -/
def Statement.Sound : Statement → Prop
  | .leaf x g i => x.WF ∧ (leafNodeTBS x g i).fits
  | .keyPackage x => x.WF ∧ (keyPackageTBS x).fits
  | .groupInfo x => ContextCanonical x.group_context ∧ Extensions.WF x.extensions ∧ (groupInfoTBS x).fits
  | .content w c ctx => c.WF ∧ ContextCanonical ctx ∧ (framedContentTBS .MLS10 w c ctx).fits
  | .other l _ => ∀ k : Kind, l ≠ k.label

/-- A signature is accepted under the key on something that its holder has not signed. -/
def SignatureForged (P : CryptoProvider) (cs : CipherSuite) (key : Bytes) (said : List Statement) : Prop :=
  ∃ s m signature, P.signature cs = .ok s ∧ s.verify key m signature = .ok () ∧ ∀ x ∈ said, x.signed.bytes ≠ m

end Rmls.Spec
