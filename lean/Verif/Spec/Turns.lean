import Verif.Spec.Lockout
import Verif.Spec.Renewing
/-
Renewing keys again and again, as the rounds of a schedule.
-/
namespace Rmls.Spec

/-- A renewal that is planned: who renews, the new key of the leaf, and the nodes of the path. -/
structure Turn where
  member : LeafIndex
  key : Bytes
  nodes : List UpdatePathNode

/-- The keys that it uses. -/
def Turn.keys (r : Turn) : List HPKEPublicKey := r.key :: r.nodes.map (·.encryption_key)

/-- The number of nodes on the path of member `j`: one for each level at which there is a member on the other side. -/
def pathLength (nodes : Nat → Option Node) (K j : Nat) : Nat :=
  ((List.range K).filter fun k => (List.range (2 ^ K)).any fun i => decide (i / 2 ^ k = sib j k) && (nodes (2 * i)).isSome).length

/-- The tree after the rounds: in each, the path of the member has the planned keys, keeps the signature key, and is good. -/
inductive Turns (P : CryptoProvider) (cs : CipherSuite) (ctx : GroupContext) : RatchetTree → List Turn → RatchetTree → Prop where
  | nil (t : RatchetTree) : Turns P cs ctx t [] t
  | cons (t t' t'' : RatchetTree) (r : Turn) (rs : List Turn) (l : LeafNode) (out sig : Bytes) :
      t[2 * r.member.toNat]?.join = some (.Leaf l) → GoodPath P cs ctx t r.member ⟨renewedLeaf l r.key out sig, r.nodes⟩ →
      t.merge_update_path P cs r.member.toNat ⟨renewedLeaf l r.key out sig, r.nodes⟩ = (t', .ok ()) →
      Turns P cs ctx t' rs t'' → Turns P cs ctx t (r :: rs) t''

/-- A schedule for the members of the tree: each signs with their own key, has as many nodes as their path is long, and they fit
into a message; no key is used twice or in use already. -/
structure Schedule (P : CryptoProvider) (cs : CipherSuite) (ctx : GroupContext) (K : Nat) (t : RatchetTree) (rs : List Turn) :
    Prop where
  members : ∀ r ∈ rs, ∃ l priv, t[2 * r.member.toNat]?.join = some (.Leaf l) ∧ SignaturePair P cs priv l.payload.signature_key ∧
    CanSign P cs priv ∧ Renewable ctx r.member [] [] l r.key r.nodes ∧
    r.nodes.length = pathLength (fun x => t[x]?.join) K r.member.toNat
  distinct : (rs.flatMap Turn.keys).Nodup
  fresh : ∀ key ∈ rs.flatMap Turn.keys, ∀ x, ¬ HasKey (fun x => t[x]?.join) x key

end Rmls.Spec
