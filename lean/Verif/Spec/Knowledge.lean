import Verif.Spec.Merge
/-
Who has which private keys (RFC 9420 sections 4.2, 7.4 to 7.6).  People are numbers.
-/
namespace Rmls.Spec

/-- The public key of a node. -/
def keyOf : Node → HPKEPublicKey
  | .Leaf l => l.payload.encryption_key
  | .Parent p => p.encryption_key

/-- The leaves that joined below a node after its key was made. -/
def unmergedOf : Node → List LeafIndex
  | .Leaf _ => []
  | .Parent p => p.unmerged_leaves

/-- A person has the private key that belongs to a public key.  Nobody forgets a key. -/
abbrev Knowledge := Nat → HPKEPublicKey → Prop

/-- Who has the key of a node in the resolution of the copath child below the ancestor of leaf `j` at level `k`, and can so
decrypt the path secret of that ancestor. -/
def Receives (nodes : Nat → Option Node) (knows : Knowledge) (j k q : Nat) : Prop :=
  ∃ y ∈ resolution nodes (k - 1) (sib j (k - 1)), ∃ n, nodes y = some n ∧ knows q (keyOf n)

/-- What is known after person `p` at leaf `j` has sent a path to the nodes at the given levels.  The sender has all the
new private keys.  Who can decrypt a path secret derives from it the private key of that node and of all nodes after it. -/
def Knowledge.path (knows : Knowledge) (nodes : Nat → Option Node) (levels : List Nat) (p j : Nat) (leaf : HPKEPublicKey)
    (keys : List HPKEPublicKey) : Knowledge := fun q key =>
  knows q key ∨ (q = p ∧ key ∈ leaf :: keys) ∨
    ∃ (a b k : Nat), a ≤ b ∧ levels[a]? = some k ∧ Receives nodes knows j k q ∧ keys[b]? = some key

/-- What is known after person `p` has made a key. -/
def Knowledge.made (knows : Knowledge) (p : Nat) (key : HPKEPublicKey) : Knowledge := fun q k =>
  knows q k ∨ (q = p ∧ k = key)

/-- Nobody has the key yet. -/
def Unheard (knows : Knowledge) (key : HPKEPublicKey) : Prop := ∀ q, ¬ knows q key

/-- What can be deduced from a path: private keys, and the path secrets, numbered from the sender's first node up; the one
after the last is the commit secret (section 7.4, section 8). -/
inductive Fact
  | private_key (key : HPKEPublicKey)
  | path_secret (a : Nat)

/-- What person `q` can deduce from their keys and the path that person `p` at leaf `j` has sent to the nodes at the given
levels: the rules of the RFC, one by one. -/
inductive Deduces (knows : Knowledge) (nodes : Nat → Option Node) (levels : List Nat) (p j : Nat) (leaf : HPKEPublicKey)
    (keys : List HPKEPublicKey) (q : Nat) : Fact → Prop
  /-- They have the keys they had. -/
  | had {key} : knows q key → Deduces knows nodes levels p j leaf keys q (.private_key key)
  /-- The sender has made the key of their leaf. -/
  | leaf : q = p → Deduces knows nodes levels p j leaf keys q (.private_key leaf)
  /-- The sender has made the first path secret. -/
  | first : q = p → Deduces knows nodes levels p j leaf keys q (.path_secret 0)
  /-- The path secret of a node is encrypted to the nodes of the resolution of its child on the copath. -/
  | decrypt {a k y n} : levels[a]? = some k → y ∈ resolution nodes (k - 1) (sib j (k - 1)) → nodes y = some n →
      Deduces knows nodes levels p j leaf keys q (.private_key (keyOf n)) →
      Deduces knows nodes levels p j leaf keys q (.path_secret a)
  /-- From a path secret the next one is derived. -/
  | next {a} : Deduces knows nodes levels p j leaf keys q (.path_secret a) →
      Deduces knows nodes levels p j leaf keys q (.path_secret (a + 1))
  /-- From a path secret the private key of its node is derived. -/
  | node {a key} : Deduces knows nodes levels p j leaf keys q (.path_secret a) → keys[a]? = some key →
      Deduces knows nodes levels p j leaf keys q (.private_key key)

end Rmls.Spec
