import Verif.Spec.Labels
import Verif.Spec.WellFormed
import Verif.Spec.KeyStore
import Verif.Model.Group
/-
Key packages in a key store and joining from a welcome (RFC 9420 sections 5.2, 10, 12.4.3.1).
-/
namespace Rmls.Spec
open Enc

/-- Section 5.2: `MakeKeyPackageRef`. -/
def IsRef (P : CryptoProvider) (x : KeyPackage) (r : Bytes) : Prop :=
  ∃ h, P.hash x.payload.cipher_suite = .ok h ∧ (keyPackage x).fits ∧
    (refHashInput (text "MLS 1.0 KeyPackage Reference") (keyPackage x).bytes).fits ∧
    r = h.digest (refHashInput (text "MLS 1.0 KeyPackage Reference") (keyPackage x).bytes).bytes

/-- `raw` is the first thing that the store has for one of the entries. -/
def FirstKnown (s : MemoryKeyStore) (entries : List EncryptedGroupSecrets) (e : EncryptedGroupSecrets) (raw : Bytes) :
    Prop :=
  ∃ before after, entries = before ++ e :: after ∧ s.retrieve e.new_member = some raw ∧
    ∀ b ∈ before, s.retrieve b.new_member = none

/-- The bytes begin with the encoding of the key package. -/
def Packs (raw : Bytes) (x : KeyPackage) : Prop :=
  x.WF ∧ (keyPackage x).fits ∧ ∃ rest, raw = (keyPackage x).bytes ++ rest

/-- The bytes begin with the encoding of a private key. -/
def PacksKey (raw key : Bytes) : Prop := (opq key).fits ∧ ∃ rest, raw = (opq key).bytes ++ rest

/-- The store has the package of this welcome, at entry `e`, and its init key. -/
def Joinable (P : CryptoProvider) (s : MemoryKeyStore) (w : Welcome) (e : EncryptedGroupSecrets) (x : KeyPackage)
    (ref : Bytes) : Prop :=
  (∃ raw, FirstKnown s w.secrets e raw ∧ Packs raw x) ∧ IsRef P x ref ∧ ref ≠ x.payload.init_key ∧
    ∃ raw key, s.retrieve x.payload.init_key = some raw ∧ PacksKey raw key

/-- Joins with these welcomes one after the other, whether they succeed or not. -/
inductive Joins (P : CryptoProvider) : MemoryKeyStore → List Welcome → MemoryKeyStore → Prop
  | none (s) : Joins P s [] s
  | one {s w ws s'} : Joins P (Group.from_welcome P s w).2 ws s' → Joins P s (w :: ws) s'

end Rmls.Spec
