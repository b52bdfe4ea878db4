import Verif.Spec.Merge
import Verif.Spec.Client
/-
What RFC 9420 asks of the contents of a commit (sections 7.5, 12.1, 12.4.2), of who may send what (sections 6, 12.1.8,
12.4), and of finding one's entry in a welcome (section 12.4.3.1).
-/
namespace Rmls.Spec

/-- Two proposals that `verify_proposal_list` should be able to tell apart only by what section 12.2 says on lists: the
signature key of a new member, the leaf removed, the PSK. -/
inductive SameInList : Proposal → Proposal → Prop
  | add (a b : AddProposal) : a.key_package.payload.leaf_node.payload.signature_key =
      b.key_package.payload.leaf_node.payload.signature_key → SameInList (.Add a) (.Add b)
  | update (a b) : SameInList (.Update a) (.Update b)
  | remove (a) : SameInList (.Remove a) (.Remove a)
  | psk (a) : SameInList (.PreSharedKey a) (.PreSharedKey a)
  | reinit (a b) : SameInList (.ReInit a) (.ReInit b)
  | external_init (a b) : SameInList (.ExternalInit a) (.ExternalInit b)
  | extensions (a b) : SameInList (.GroupContextExtensions a) (.GroupContextExtensions b)

/-- The two lists have such proposals at the same places. -/
inductive SameInLists : List Proposal → List Proposal → Prop
  | nil : SameInLists [] []
  | cons {p q ps qs} : SameInList p q → SameInLists ps qs → SameInLists (p :: ps) (q :: qs)

/-- The path of leaf `j` is encrypted to the group (section 7.5): each node has one ciphertext for each node of the
resolution of its child on the copath. -/
def Encrypted (nodes : Nat → Option Node) (K j : Nat) (path : UpdatePath) : Prop :=
  ∀ i k : Nat, (filteredLevels nodes K j)[i]? = some k →
    ∃ n, path.nodes[i]? = some n ∧ n.encrypted_path_secret.length = (resolution nodes (k - 1) (sib j (k - 1))).length

/-- The two paths differ in their ciphertexts only. -/
def SamePublic (p q : UpdatePath) : Prop :=
  p.leaf_node = q.leaf_node ∧ p.nodes.map (·.encryption_key) = q.nodes.map (·.encryption_key)

/-- Who may send what (sections 6, 12.1.8 and 12.4): external senders and those who propose themselves send proposals of
certain kinds, those who join by themselves send a commit, application data is for members. -/
def MaySend : Sender → Content → Prop
  | .Member _, _ => True
  | .External _, .Proposal p => (∃ a, p = .Add a) ∨ (∃ r, p = .Remove r) ∨ (∃ k, p = .PreSharedKey k) ∨ (∃ r, p = .ReInit r) ∨
      ∃ e, p = .GroupContextExtensions e
  | .NewMemberProposal, .Proposal p => ∃ a, p = .Add a
  | .NewMemberCommit, .Commit c => c.path.isSome
  | _, _ => False

end Rmls.Spec
