import Verif.Model.Suites
import Verif.Spec.Release
/-
What is asked of the outside so that a panic can only come from the code: the operations that are used on received data
come back, the AEAD at least with keys and nonces of the right size.  (Signing is not among them: it is used on own data.)
-/
namespace Rmls.Spec

/-- No operation that is used on received data panics or runs for ever. -/
structure Calm (P : CryptoProvider) : Prop where
  hash : ∀ cs, Returns (P.hash cs)
  hpke : ∀ cs, Returns (P.hpke cs)
  signature : ∀ cs, Returns (P.signature cs)
  expand : ∀ cs h, P.hpke cs = .ok h → ∀ secret info n, Returns (h.kdf_expand secret info n)
  extract : ∀ cs h, P.hpke cs = .ok h → ∀ secret salt, Returns (h.kdf_extract secret salt)
  expand_size : ∀ cs h, P.hpke cs = .ok h → ∀ secret info n out, h.kdf_expand secret info n = .ok out → out.length = n.toNat
  sizes : ∀ cs h, P.hpke cs = .ok h → h.aead_key_size < 2 ^ 16 ∧ h.aead_nonce_size < 2 ^ 16
  /-- with keys and nonces of the sizes that the provider itself names -/
  aead_open : ∀ cs h, P.hpke cs = .ok h → ∀ k n c a, k.length = h.aead_key_size → n.length = h.aead_nonce_size →
    Returns (h.aead_open k n c a)
  verify : ∀ cs s, P.signature cs = .ok s → ∀ k m sg, Returns (s.verify k m sg)
  hpke_open : ∀ cs sk info kem c, Returns (P.hpke_open cs sk info kem c)

/-- The unmerged leaves of a tree are leaves of the perfect tree of height `K`. -/
def UnmergedInside (t : RatchetTree) (K : Nat) : Prop :=
  ∀ (x : Nat) (p : ParentNode), t[x]?.join = some (.Parent p) → ∀ u ∈ p.unmerged_leaves, u.toNat < 2 ^ K

end Rmls.Spec
