import Verif.Spec.Derivation
import Verif.Spec.Client
/-
The secrets of an epoch as a joiner puts them together (RFC 9420 section 8), and the PSK secret (8.4), as terms.
-/
namespace Rmls.Spec
open Enc Recipe

/-- The epoch secret, from the joiner secret. -/
def joinedRecipe (h : Hpke) (joiner : Recipe) (ctx : GroupContext) (psk : Bytes) : Recipe :=
  expand (extract joiner (given (pskInput h psk))) (text "epoch") (groupContext ctx).bytes h.kdf_extract_size

/-- The joiner secret. -/
def joinerRecipe (h : Hpke) (init : Recipe) (ctx : GroupContext) (commit : Bytes) : Recipe :=
  expand (extract init (given commit)) (text "joiner") (groupContext ctx).bytes h.kdf_extract_size

/-- A secret of the epoch, from the epoch secret. -/
def derivedRecipe (h : Hpke) (epoch : Recipe) (label : String) : Recipe := expand epoch (text label) [] h.kdf_extract_size

/-- The PSK secret of `count` PSKs after some of them, the last of which comes first in the list. -/
def pskRecipe (h : Hpke) (count : Nat) : List (PreSharedKeyID × Bytes) → Recipe
  | [] => given (zeros h.kdf_extract_size)
  | (id, psk) :: before =>
    extract
      (expand (extract (given (zeros h.kdf_extract_size)) (given psk)) (text "derived psk")
        (struct [preSharedKeyID id, uint 2 before.length, uint 2 count]).bytes h.kdf_extract_size)
      (pskRecipe h count before)

/-- Two keys and messages, not the same, with one MAC. -/
def MacCollision (mac : Bytes → Bytes → Bytes) (key message key' message' : Bytes) : Prop :=
  (key, message) ≠ (key', message') ∧ mac key message = mac key' message'

end Rmls.Spec
