import Verif.Spec.Integrity
import Verif.Spec.Proposal
/-
What the errors of the checks say, as statements about what was checked.
-/
namespace Rmls.Spec
open Enc

/-- Leaf nodes (`rmls/src/ratchet_tree/leaf_node.rs:466-523`): checked for a group, a place in it, the credential types
that its members support, and the keys that are in use. -/
def leafDefect (P : CryptoProvider) (x : LeafNode) (cs : CipherSuite) (group_id : Bytes) (leaf_index : LeafIndex)
    (supported : CredentialType → Prop) (sigs encs : Bytes → Prop) (now : Int) : Error → Prop
  | .LeafNodeSignatureVerificationFailed => ¬ LeafSigned P cs x group_id leaf_index
  | .CredentialTypeUsedByLeafNodeNotSupportedByAllMembers v =>
    (credentialType (credTypeOf x.payload.credential)).bytes = digits 2 v.toNat ∧
    ¬ supported (credTypeOf x.payload.credential)
  | .LifetimeVerificationFailed =>
    ∃ lt, x.payload.leaf_node_source = .KeyPackage lt ∧ 0 < now ∧ ¬ LifetimeAccepted lt now
  | .ExtensionTypeUsedByLeafNodeNotSupportedByThatLeafNode v =>
    ∃ e ∈ x.payload.extensions, (extensionType e.extension_type).bytes = digits 2 v.toNat ∧
      e.extension_type ∉ x.payload.capabilities.extensions
  | .DuplicateSignatureKeyInRatchetTree => sigs x.payload.signature_key
  | .DuplicateEncryptionKeyInRatchetTree => encs x.payload.encryption_key
  | _ => False

/-- Key packages (`rmls/src/key_package/mod.rs:244-262`). -/
def keyPackageDefect (P : CryptoProvider) (x : KeyPackage) (ctx : GroupContext) : Error → Prop
  | .KeyPackageVersionNotMatchGroupContext => x.payload.version ≠ ctx.version
  | .CipherSuiteNotMatchGroupContext => x.payload.cipher_suite ≠ ctx.cipher_suite
  | .KeyPackageContainsLeafNodeWithInvalidSource =>
    ∀ lt, x.payload.leaf_node.payload.leaf_node_source ≠ .KeyPackage lt
  | .InvalidKeyPackageSignature => ¬ KeyPackageSigned P x
  | .KeyPackageEncryptionKeyAndInitKeyIdentical => x.payload.leaf_node.payload.encryption_key = x.payload.init_key
  | _ => False

/-- Lists of proposals with their senders (`rmls/src/framing/proposal.rs:436-512`). -/
def proposalDefect (ps : List (Proposal × LeafIndex)) (committer : LeafIndex) : Error → Prop
  | .MultipleAddProposalsHaveTheSameSignatureKey => ¬ (ps.filterMap addedKey).Nodup
  | .UpdateProposalGeneratedByTheCommitter => ∃ u, (Proposal.Update u, committer) ∈ ps
  | .RemoveProposalRemovesTheCommitter => ∃ r s, (Proposal.Remove r, s) ∈ ps ∧ r.removed = committer
  | .MultipleUpdateRemoveProposalsApplyToTheSameLeaf => ¬ (ps.filterMap touchedLeaf).Nodup
  | .MultiplePSKProposalsReferenceTheSamePSKId => ¬ (ps.filterMap pskOf).Nodup
  | .MultipleGroupContextExtensionsProposals => 1 < (ps.filterMap contextExtensionsOf).length
  | .ReinitProposalTogetherWithAnyOtherProposal => (∃ r s, (Proposal.ReInit r, s) ∈ ps) ∧ 1 < ps.length
  | .ExternalInitProposalNotAllowed => ∃ x s, (Proposal.ExternalInit x, s) ∈ ps
  | .VarintExceeds30Bits | .OpaqueSizeExceedsMaximumValueOfU32 => ¬ PsksFit ps
  | _ => False

/-- Trees (`rmls/src/ratchet_tree/mod.rs:414-491`), of height `K` with `n` leaves. -/
def treeDefect (P : CryptoProvider) (H : Bytes → Bytes) (nodes : Nat → Option Node) (K n : Nat) (ctx : GroupContext)
    (now : Int) : Error → Prop
  | .TreeHashVerificationFailed => treeHash H nodes K 0 ≠ ctx.tree_hash
  | .ParentHashesVerificationFailed =>
    ∃ k i p, nodes (node (k + 1) i) = some (.Parent p) ∧ ¬ ParentHashValid H nodes k i p
  | .UnmergedLeafIsNotDescendantOfTheParentNode =>
    ∃ k i p, nodes (node k i) = some (.Parent p) ∧ ∃ u ∈ p.unmerged_leaves, ¬ below k i u.toNat ∨ K < k
  | .NonBlankIntermediateNodeMissingUnmergedLeaf =>
    ∃ k i p, nodes (node k i) = some (.Parent p) ∧ ∃ u ∈ p.unmerged_leaves,
      ∃ m q, 1 ≤ m ∧ nodes (node m (u.toNat / 2 ^ m)) = some (.Parent q) ∧ u ∉ q.unmerged_leaves ∧
        (m < k ∨ ¬ below k i u.toNat)
  | .DuplicateSignatureKeyInRatchetTree =>
    ∃ i j l m, i ≠ j ∧ nodes (node 0 i) = some (.Leaf l) ∧ nodes (node 0 j) = some (.Leaf m) ∧
      l.payload.signature_key = m.payload.signature_key
  | .DuplicateEncryptionKeyInRatchetTree => ∃ x y key, x ≠ y ∧ HasKey nodes x key ∧ HasKey nodes y key
  | .InvalidLeafNode => ∃ i p, nodes (node 0 i) = some (.Parent p)
  | .InvalidParentNode => ∃ k i l, nodes (node (k + 1) i) = some (.Leaf l)
  | .VarintExceeds30Bits | .OpaqueSizeExceedsMaximumValueOfU32 => ¬ HashDefined H nodes K 0
  | e => ∃ i l, nodes (node 0 i) = some (.Leaf l) ∧
    leafDefect P l ctx.cipher_suite ctx.group_id (UInt32.ofNat i) (SupportedCred nodes n) (fun _ => False)
      (fun _ => False) now e

end Rmls.Spec
