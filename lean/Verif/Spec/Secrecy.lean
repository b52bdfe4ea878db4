import Verif.Spec.Derivation
/-
What can be computed with the KDF from the values one knows, and what one has to know in order to compute a secret.
-/
namespace Rmls.Spec
open Enc

/-- From the known values, calls of the KDF lead to a value.  Everything but secrets is free: labels, contexts, lengths. -/
inductive Computes (h : Hpke) (known : Bytes → Prop) : List Call → Bytes → Prop
  | known {o : Bytes} : known o → Computes h known [] o
  | expand {calls : List Call} {s o : Bytes} (info : Bytes) (n : UInt16) : Computes h known calls s →
      h.kdf_expand s info n = .ok o → Computes h known (.expand s info n :: calls) o
  | extract {calls calls' : List Call} {salt ikm o : Bytes} : Computes h known calls salt → Computes h known calls' ikm →
      h.kdf_extract ikm salt = .ok o → Computes h known (.extract salt ikm :: (calls ++ calls')) o

/-- The value can be computed. -/
def Computable (h : Hpke) (known : Bytes → Prop) (o : Bytes) : Prop := ∃ calls, Computes h known calls o

namespace Recipe

/-- The secret and everything on the way to it, but not what it starts with. -/
def parts : Recipe → List Recipe
  | given _ => []
  | expand r label context n => expand r label context n :: r.parts
  | extract a b => extract a b :: (a.parts ++ b.parts)

/-- The secrets it starts with. -/
def starts : Recipe → List Bytes
  | given s => [s]
  | expand r _ _ _ => r.starts
  | extract a b => a.starts ++ b.starts

/-- One of these calls has the same output as a different call that is made for the secret. -/
def Hit (h : Hpke) (calls : List Call) (r : Recipe) : Prop :=
  ∃ c ∈ calls, ∃ c' o, r.Calls h c' ∧ c ≠ c' ∧ c.Gives h o ∧ c'.Gives h o

end Recipe
open Recipe

/-- The labels of the secrets that section 8 derives from the epoch secret, apart from the encryption secret. -/
def otherLabels : List String :=
  ["sender data", "exporter", "external", "confirm", "membership", "resumption", "authentication", "init"]

/-- Key or nonce. -/
def contentLabels (h : Hpke) : List (Bytes × Nat) := [(text "key", h.aead_key_size), (text "nonce", h.aead_nonce_size)]

/-- The key or the nonce of a generation of a ratchet (section 9.1). -/
def contentRecipe (h : Hpke) (encryption : Recipe) (K li : Nat) (ct : ContentType) (g : Nat) (l : Bytes × Nat) : Recipe :=
  expand (messageRecipe h encryption K li ct g) l.1 (uint 4 g).bytes l.2

/-- What a member may keep of an epoch without giving away the key (or nonce) of generation `g` of the ratchet of the leaf `li`
for contents of the kind of `ct`: section 9.2. -/
inductive Keeps (h : Hpke) (epoch : Recipe) (K li : Nat) (ct : ContentType) (g : Nat) (l : Bytes × Nat) : Recipe → Prop
  /-- all secrets derived from the epoch secret but the encryption secret; among them the init secret, with which all later
  epochs go on -/
  | derived {label : String} : label ∈ otherLabels → Keeps h epoch K li ct g l (expand epoch (text label) [] h.kdf_extract_size)
  /-- the nodes of the secret tree that the leaf is not below -/
  | node {d i : Nat} : d ≤ K → i < 2 ^ d → i ≠ li / 2 ^ (K - d) →
      Keeps h epoch K li ct g l (nodeRecipe h (expand epoch (text "encryption") [] h.kdf_extract_size) d i)
  /-- other ratchets, and later generations of this one -/
  | ratchet {li' g' : Nat} {ct' : ContentType} : li' < 2 ^ K → g' < 2 ^ 32 →
      (li' = li → (ct' = .Application ↔ ct = .Application) → g < g') →
      Keeps h epoch K li ct g l (messageRecipe h (expand epoch (text "encryption") [] h.kdf_extract_size) K li' ct' g')
  /-- keys and nonces of other messages -/
  | content {li' g' : Nat} {ct' : ContentType} {l' : Bytes × Nat} : li' < 2 ^ K → g' < 2 ^ 32 → l' ∈ contentLabels h →
      ¬ (li' = li ∧ (ct' = .Application ↔ ct = .Application) ∧ g' = g ∧ l' = l) →
      Keeps h epoch K li ct g l (contentRecipe h (expand epoch (text "encryption") [] h.kdf_extract_size) K li' ct' g' l')

/-- The epoch secrets of some epochs (the last comes first), and the init secrets that come out of them. -/
inductive Of (h : Hpke) (start : Bytes) : List Epochs.Input → Recipe → Prop
  | init {e : Epochs.Input} {before : List Epochs.Input} : Of h start (e :: before) (initRecipe h start (e :: before))
  | epoch {e : Epochs.Input} {before : List Epochs.Input} : Of h start (e :: before) (epochRecipe h (initRecipe h start before) e)
  | earlier {e : Epochs.Input} {before : List Epochs.Input} {r : Recipe} : Of h start before r → Of h start (e :: before) r

/-- The secrets of the epoch with this epoch secret: itself, what is derived from it, and the message keys. -/
inductive InEpoch (h : Hpke) (epoch : Recipe) : Recipe → Prop
  | epoch : InEpoch h epoch epoch
  | derived (label : String) : label ∈ "encryption" :: otherLabels →
      InEpoch h epoch (expand epoch (text label) [] h.kdf_extract_size)
  | content (K li : Nat) (ct : ContentType) (g : Nat) (l : Bytes × Nat) : l ∈ contentLabels h →
      InEpoch h epoch (contentRecipe h (expand epoch (text "encryption") [] h.kdf_extract_size) K li ct g l)

/-- Some values, and the secrets put together in certain ways. -/
def With (h : Hpke) (known : Bytes → Prop) (recipes : Recipe → Prop) (o : Bytes) : Prop :=
  known o ∨ ∃ r, recipes r ∧ r.Yields h o

end Rmls.Spec
