import Verif.Spec.Sending
import Verif.Model.Group
/-
What making a key package takes, besides a key that signs.
-/
namespace Rmls.Spec
open Enc

/-- The suite has a hash function, and HPKE keys can be derived from everything; they have at most 256 bytes. -/
structure KeyMaker (P : CryptoProvider) (cs : CipherSuite) : Prop where
  hashes : ∃ h, P.hash cs = .ok h
  derives : ∃ h, P.hpke cs = .ok h ∧
    ∀ ikm, ∃ kp, h.kem_derive_key_pair ikm = .ok kp ∧ kp.private_key.length ≤ 256 ∧ kp.public_key.length ≤ 256

/-- What goes into a key package has an encoding; settings that are not made are empty lists. -/
def Encodable (b : KeyPackageBuilder) (cred : Credential) : Prop :=
  (credential cred).fits ∧ (capabilities (b.leaf_node_capabilities.getD ⟨[], [], [], [], []⟩)).fits ∧
  (extensions (b.leaf_node_extensions.getD [])).fits ∧ (extensions (b.key_package_extensions.getD [])).fits

/-- The size of what goes into a key package, besides keys and signatures. -/
def contentSize (b : KeyPackageBuilder) (cred : Credential) : Nat :=
  (credential cred).bytes.length + (capabilities (b.leaf_node_capabilities.getD ⟨[], [], [], [], []⟩)).bytes.length +
  (extensions (b.leaf_node_extensions.getD [])).bytes.length + (extensions (b.key_package_extensions.getD [])).bytes.length

/-- The settings have a meaning on the wire: no number is written as unknown that is known. -/
def Settings.WF (b : KeyPackageBuilder) : Prop :=
  (b.leaf_node_capabilities.getD ⟨[], [], [], [], []⟩).WF ∧ Extensions.WF (b.leaf_node_extensions.getD []) ∧
  Extensions.WF (b.key_package_extensions.getD [])

/-- RFC 7748: X25519 keys have 32 bytes. -/
def ShortX25519 (p : Primitives) : Prop :=
  ∀ ikm, (p.derive_x25519 ikm).private_key.length = 32 ∧ (p.derive_x25519 ikm).public_key.length = 32

end Rmls.Spec
