import Verif.Spec.Integrity
/-
Unknown values in capabilities and extensions (RFC 9420 section 13.5: values that no recipient knows are to be ignored).
-/
namespace Rmls.Spec
open Enc

/-- The second list is the first with values of a given kind put in anywhere. -/
inductive Mixed {α : Type} (new : α → Prop) : List α → List α → Prop
  | nil : Mixed new [] []
  | keep {x : α} {xs ys : List α} : Mixed new xs ys → Mixed new (x :: xs) (x :: ys)
  | put {y : α} {xs ys : List α} : new y → Mixed new xs ys → Mixed new xs (y :: ys)

def unknownVersion (x : ProtocolVersion) : Prop := ∃ v, x = .Unsupported v
def unknownSuite (x : CipherSuite) : Prop := ∃ v, x = .Unknown v
def unknownExtension (x : ExtensionType) : Prop := ∃ v, x = .Unknown v
def unknownProposal (x : ProposalType) : Prop := ∃ v, x = .Unknown v
def unknownCredential (x : CredentialType) : Prop := ∃ v, x = .Unknown v

/-- Capabilities with unknown values put into each of the five lists. -/
structure GreasedCaps (c d : Capabilities) : Prop where
  versions : Mixed unknownVersion c.versions d.versions
  cipher_suites : Mixed unknownSuite c.cipher_suites d.cipher_suites
  extensions : Mixed unknownExtension c.extensions d.extensions
  proposals : Mixed unknownProposal c.proposals d.proposals
  credentials : Mixed unknownCredential c.credentials d.credentials

/-- The same kind of source; a parent hash may differ. -/
def SameSource : LeafNodeSource → LeafNodeSource → Prop
  | .KeyPackage a, .KeyPackage b => a = b
  | .Update, .Update => True
  | .Commit _, .Commit _ => True
  | _, _ => False

/-- A leaf with unknown values put into its capabilities, and extensions of unknown types, which its capabilities list, put
among its extensions.  The signature is another one. -/
structure GreasedLeaf (l m : LeafNode) : Prop where
  encryption_key : m.payload.encryption_key = l.payload.encryption_key
  signature_key : m.payload.signature_key = l.payload.signature_key
  credential : m.payload.credential = l.payload.credential
  source : SameSource l.payload.leaf_node_source m.payload.leaf_node_source
  capabilities : GreasedCaps l.payload.capabilities m.payload.capabilities
  extensions : Mixed (fun e => unknownExtension e.extension_type ∧ e.extension_type ∈ m.payload.capabilities.extensions)
    l.payload.extensions m.payload.extensions

/-- The same, or a greased leaf, or a parent with another parent hash. -/
def GreasedNode : Option Node → Option Node → Prop
  | none, none => True
  | some (.Leaf l), some (.Leaf m) => GreasedLeaf l m
  | some (.Parent p), some (.Parent q) => q.encryption_key = p.encryption_key ∧ q.unmerged_leaves = p.unmerged_leaves
  | _, _ => False

/-- The capabilities as RFC 9420 section 7.2 encodes them, given by the numbers in the five lists. -/
def rawCapabilities (versions suites extensions proposals credentials : List UInt16) : Enc :=
  struct ([versions, suites, extensions, proposals, credentials].map (vector fun v => uint 2 v.toNat))

end Rmls.Spec
