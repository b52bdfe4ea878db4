import Verif.Model.Epochs
import Verif.Spec.Receiver
/-
Secrets as terms: how RFC 9420 (sections 8 and 9) puts a secret together from `KDF.Extract` and `ExpandWithLabel`.  Two
secrets put together in different ways can only be equal if two calls of the KDF made on the way collide.
-/
namespace Rmls.Spec
open Enc

/-- How a secret is put together. -/
inductive Recipe where
  | given (s : Bytes)
  | expand (secret : Recipe) (label context : Bytes) (length : Nat)
  | extract (salt ikm : Recipe)

/-- A call of the KDF with its input. -/
inductive Call where
  | expand (secret info : Bytes) (length : UInt16)
  | extract (salt ikm : Bytes)

/-- The call has this output. -/
def Call.Gives (h : Hpke) : Call → Bytes → Prop
  | .expand s info n, o => h.kdf_expand s info n = .ok o
  | .extract salt ikm, o => h.kdf_extract ikm salt = .ok o

namespace Recipe

/-- The secret is this one. -/
def Yields (h : Hpke) : Recipe → Bytes → Prop
  | given s, o => o = s
  | expand r label context n, o => ∃ s, r.Yields h s ∧ Expands h s label context n o
  | extract a b, o => ∃ x y, a.Yields h x ∧ b.Yields h y ∧ Extracts h x y o

/-- The calls made on the way. -/
def Calls (h : Hpke) : Recipe → Call → Prop
  | given _, _ => False
  | expand r label context n, c =>
    r.Calls h c ∨ ∃ s, r.Yields h s ∧ c = .expand s (kdfLabel n label context).bytes (UInt16.ofNat n)
  | extract a b, c => a.Calls h c ∨ b.Calls h c ∨ ∃ x y, a.Yields h x ∧ b.Yields h y ∧ c = .extract x y

/-- A call made on one way and a different call made on the other have the same output. -/
def Collide (h : Hpke) (r r' : Recipe) : Prop :=
  ∃ c c' o, r.Calls h c ∧ r'.Calls h c' ∧ c ≠ c' ∧ c.Gives h o ∧ c'.Gives h o

/-- The secrets are put together in the same way from the same things; where one of them starts with a secret, the other
may have put together that one. -/
def Same (h : Hpke) : Recipe → Recipe → Prop
  | given a, r' => r'.Yields h a
  | expand r l c n, given b => (expand r l c n).Yields h b
  | expand r l c n, expand r' l' c' n' => l = l' ∧ c = c' ∧ n = n' ∧ r.Same h r'
  | expand _ _ _ _, extract _ _ => False
  | extract a b, given s => (extract a b).Yields h s
  | extract _ _, expand _ _ _ _ => False
  | extract a b, extract a' b' => a.Same h a' ∧ b.Same h b'

end Recipe
open Recipe

/-- The epoch secret, from the init secret of the epoch before (section 8). -/
def epochRecipe (h : Hpke) (init : Recipe) (e : Epochs.Input) : Recipe :=
  expand
    (extract
      (expand (extract init (given e.commit_secret)) (text "joiner") (groupContext e.ctx).bytes h.kdf_extract_size)
      (given (pskInput h e.psk_secret)))
    (text "epoch") (groupContext e.ctx).bytes h.kdf_extract_size

/-- The init secret after some epochs, the last of which comes first in the list. -/
def initRecipe (h : Hpke) (start : Bytes) : List Epochs.Input → Recipe
  | [] => given start
  | e :: before => expand (epochRecipe h (initRecipe h start before) e) (text "init") [] h.kdf_extract_size

/-- The secret of the `i`-th node at depth `d` of the secret tree (section 9). -/
def nodeRecipe (h : Hpke) (encryption : Recipe) : Nat → Nat → Recipe
  | 0, _ => encryption
  | d + 1, i =>
    expand (nodeRecipe h encryption d (i / 2)) (text "tree") (text (if i % 2 = 0 then "left" else "right"))
      h.kdf_extract_size

/-- The secret of a generation (section 9.1). -/
def generationRecipe (h : Hpke) (root : Recipe) : Nat → Recipe
  | 0 => root
  | n + 1 => expand (generationRecipe h root n) (text "secret") (uint 4 n).bytes h.kdf_extract_size

/-- The two ratchets of a leaf. -/
def ratchetName (ct : ContentType) : Bytes := text (if ct = .Application then "application" else "handshake")

/-- The message secret of an epoch with this encryption secret. -/
def messageRecipe (h : Hpke) (encryption : Recipe) (K li : Nat) (ct : ContentType) (g : Nat) : Recipe :=
  generationRecipe h (expand (nodeRecipe h encryption K li) (ratchetName ct) [] h.kdf_extract_size) g

/-- The message key. -/
def keyRecipe (h : Hpke) (encryption : Recipe) (K li : Nat) (ct : ContentType) (g : Nat) : Recipe :=
  expand (messageRecipe h encryption K li ct g) (text "key") (uint 4 g).bytes h.aead_key_size

/-- The encryption secret of the epoch `e` that comes after the epochs `before`. -/
def encryptionRecipe (h : Hpke) (start : Bytes) (before : List Epochs.Input) (e : Epochs.Input) : Recipe :=
  expand (epochRecipe h (initRecipe h start before) e) (text "encryption") [] h.kdf_extract_size

/-- Two epochs with the same input. -/
def SameEpoch (h : Hpke) (e e' : Epochs.Input) : Prop :=
  e.ctx = e'.ctx ∧ e.commit_secret = e'.commit_secret ∧ pskInput h e.psk_secret = pskInput h e'.psk_secret

/-- The epochs have the same input, one by one. -/
def SameEpochs (h : Hpke) : List Epochs.Input → List Epochs.Input → Prop
  | [], [] => True
  | e :: es, e' :: es' => SameEpoch h e e' ∧ SameEpochs h es es'
  | _, _ => False

/-- One history goes on from the start of the other. -/
def Continues (h : Hpke) (start : Bytes) (b : List Epochs.Input) (start' : Bytes) (b' : List Epochs.Input) : Prop :=
  ∃ later earlier, b' = later ++ earlier ∧ SameEpochs h b later ∧ (initRecipe h start' earlier).Yields h start

/-- The epochs `b` from `start` on are the last epochs of `b'` from `start'` on: what the code derives on the way is `start`. -/
def GoesOn (P : CryptoProvider) (cs : CipherSuite) (h : Hpke) (start : Bytes) (b : List Epochs.Input) (start' : Bytes)
    (b' : List Epochs.Input) : Prop :=
  ∃ earlier later, b' = earlier ++ later ∧ SameEpochs h b later ∧ Epochs.run P cs start' earlier = .ok start

end Rmls.Spec
