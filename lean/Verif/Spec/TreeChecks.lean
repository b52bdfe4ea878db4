import Verif.Spec.TreeHash
/-
What is computed over all members of a tree.
-/
namespace Rmls.Spec

/-- The members of a tree with `n` leaves, from left to right, with their leaf indices. -/
def members (nodes : Nat → Option Node) (n : Nat) : List (Nat × LeafNode) :=
  (List.range n).filterMap fun i => (leafOf (nodes (node 0 i))).map fun l => (i, l)

/-- How often a credential type occurs in the capabilities of all members together. -/
def credCount (ms : List (Nat × LeafNode)) (ct : CredentialType) : Nat :=
  (ms.map fun m => m.2.payload.capabilities.credentials.count ct).sum

/-- The leaf nodes put into the tree by the update proposals of a list, with their senders. -/
def updatesOf : List (Proposal × LeafIndex) → List (Nat × LeafNode)
  | [] => []
  | (.Update u, s) :: ps => (s.toNat, u.leaf_node) :: updatesOf ps
  | _ :: ps => updatesOf ps

/-- The leaves removed by a list of proposals. -/
def removesOf : List Proposal → List Nat
  | [] => []
  | .Remove r :: ps => r.removed.toNat :: removesOf ps
  | _ :: ps => removesOf ps

/-- The leaf nodes added by a list of proposals. -/
def addsOf : List Proposal → List LeafNode
  | [] => []
  | .Add a :: ps => a.key_package.payload.leaf_node :: addsOf ps
  | _ :: ps => addsOf ps

end Rmls.Spec
