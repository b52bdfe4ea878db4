import Verif.Spec.TreeChecks
import Verif.Model.Client
/-
When two members come to the same verdict.
-/
namespace Rmls.Spec

/-- Two computations end alike: both return, and the results are related; or both return the same error; or both fail
to return, in the same way. -/
def Alike {α β : Type} (R : α → β → Prop) : Res α → Res β → Prop
  | .ok a, .ok b => R a b
  | .err e, .err e' => e = e'
  | .fault f, .fault f' => f = f'
  | _, _ => False

/-- The number of blank leaves among the first `n`. -/
def blankLeaves (nodes : Nat → Option Node) : Nat → Nat
  | 0 => 0
  | n + 1 => blankLeaves nodes n + if nodes (2 * n) = none then 1 else 0

/-- The new members of a list of proposals fit into the blank leaves that its updates and removes leave.  Nothing is
asked for if the array has odd length, or if the removes cut it off. -/
def Fits (t : RatchetTree) (ps : List Proposal) (senders : List LeafIndex) : Prop :=
  t.length % 2 = 0 → ∀ t1 t2, (updatesOf (ps.zip senders)).foldlM (fun t u => t.update u.1 u.2) t = .ok t1 →
    (removesOf ps).foldlM (fun t li => t.remove li) t1 = .ok t2 → t2.length = t.length →
    (addsOf ps).length ≤ blankLeaves t2.get ((t2.length + 1) / 2)

/-- The members added by the commit in a message fit. -/
def CommitFits (t : RatchetTree) (m : PublicMessage) : Prop :=
  ∀ c ps path, m.content.sender = .Member c → m.content.content = .Commit ⟨ps.map .Proposal, path⟩ →
    Fits t ps (List.replicate ps.length c)

end Rmls.Spec
