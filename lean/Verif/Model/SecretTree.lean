import Verif.Model.Crypto
import Verif.Model.TreeMath
/-
`rmls/src/secret_tree/mod.rs`: the tree of message secrets and the ratchets below its leaves.
-/
namespace Rmls

/-- `RatchetLabel`, `rmls/src/secret_tree/mod.rs:22-27`. -/
inductive RatchetLabel where
  | Handshake
  | Application
  deriving DecidableEq, Repr

/-- `RatchetLabel::fmt` and the two constants, `rmls/src/secret_tree/mod.rs:14-15,29-36`, with
`to_string().as_bytes()` of line 135. -/
def RatchetLabel.bytes : RatchetLabel → Bytes
  | .Handshake => ascii "handshake"
  | .Application => ascii "application"

/-- `From<ContentType> for RatchetLabel`, `rmls/src/secret_tree/mod.rs:38-45`. -/
def RatchetLabel.ofContentType : ContentType → RatchetLabel
  | .Application => .Application
  | .Proposal => .Handshake
  | .Commit => .Handshake

/-- `SecretTree`, `rmls/src/secret_tree/mod.rs:55-56`. -/
abbrev SecretTree := List (Option Bytes)

namespace SecretTree

/-- `SecretTree::get` followed by the two `ok_or(InvalidParentNode)?`, `rmls/src/secret_tree/mod.rs:83-87,108-110`
(also lines 126-130). -/
def secretAt (t : SecretTree) (x : Nat) : Res Bytes :=
  match t[x]? with
  | none => .err .InvalidParentNode
  | some none => .err .InvalidParentNode
  | some (some s) => .ok s

/-- `SecretTree::set`, `rmls/src/secret_tree/mod.rs:112-116`; `List.set` leaves the list alone when the index is out
of range, as the `if` does. -/
def setSecret (t : SecretTree) (x : Nat) (secret : Bytes) : SecretTree :=
  if x < t.length then t.set x (some secret) else t

/-- `SecretTree::derive_children`, `rmls/src/secret_tree/mod.rs:72-106`.  Each call goes down one level, and the level
of a node is at most 31, so 33 rounds of fuel are enough. -/
def derive_children (P : CryptoProvider) (cs : CipherSuite) : Nat → SecretTree → Nat → Res SecretTree
  | 0, _, _ => .fault .hang
  | fuel + 1, t, x => do
    match ← NodeIndex.children x with
    | none => pure t
    | some (l, r) => do
      let parent_secret ← secretAt t x
      let hpke ← P.hpke cs
      let nh := UInt16.ofNat hpke.kdf_extract_size
      let left_secret ← P.expand_with_label cs parent_secret (ascii "tree") (ascii "left") nh
      let right_secret ← P.expand_with_label cs parent_secret (ascii "tree") (ascii "right") nh
      let t := setSecret t l left_secret
      let t := setSecret t r right_secret
      let t ← derive_children P cs fuel t l
      derive_children P cs fuel t r

/-- `SecretTree::new`, `rmls/src/secret_tree/mod.rs:59-70`. -/
def new (P : CryptoProvider) (cs : CipherSuite) (n : Nat) (encryption_secret : Bytes) : Res SecretTree := do
  let w ← NumLeaves.width n
  let root ← NumLeaves.root n
  derive_children P cs 33 (setSecret (List.replicate w none) root encryption_secret) root

end SecretTree

/-- `RatchetSecret`, `rmls/src/secret_tree/mod.rs:146-151`. -/
structure RatchetSecret where
  secret : Bytes
  generation : UInt32
  deriving DecidableEq, Repr

/-- `SecretTree::derive_ratchet_root`, `rmls/src/secret_tree/mod.rs:118-143`. -/
def SecretTree.derive_ratchet_root (P : CryptoProvider) (cs : CipherSuite) (t : SecretTree) (x : Nat)
    (label : RatchetLabel) : Res RatchetSecret := do
  let parent_secret ← secretAt t x
  let hpke ← P.hpke cs
  let secret ← P.expand_with_label cs parent_secret label.bytes [] (UInt16.ofNat hpke.kdf_extract_size)
  pure { secret, generation := 0 }

/-- `derive_tree_secret`, `rmls/src/secret_tree/mod.rs:210-229`. -/
def derive_tree_secret (P : CryptoProvider) (cs : CipherSuite) (secret label : Bytes) (generation : UInt32)
    (length : UInt16) : Res Bytes := do
  let context ← put_u32 generation
  P.expand_with_label cs secret label context length

namespace RatchetSecret

/-- `RatchetSecret::derive_nonce`, `rmls/src/secret_tree/mod.rs:154-169`. -/
def derive_nonce (P : CryptoProvider) (cs : CipherSuite) (x : RatchetSecret) : Res Bytes := do
  let hpke ← P.hpke cs
  derive_tree_secret P cs x.secret (ascii "nonce") x.generation (UInt16.ofNat hpke.aead_nonce_size)

/-- `RatchetSecret::derive_key`, `rmls/src/secret_tree/mod.rs:171-186`. -/
def derive_key (P : CryptoProvider) (cs : CipherSuite) (x : RatchetSecret) : Res Bytes := do
  let hpke ← P.hpke cs
  derive_tree_secret P cs x.secret (ascii "key") x.generation (UInt16.ofNat hpke.aead_key_size)

/-- `RatchetSecret::derive_next`, `rmls/src/secret_tree/mod.rs:188-207`; `self.generation + 1` panics on overflow (build
with overflow checks). -/
def derive_next (P : CryptoProvider) (cs : CipherSuite) (x : RatchetSecret) : Res RatchetSecret := do
  let hpke ← P.hpke cs
  let secret ← derive_tree_secret P cs x.secret (ascii "secret") x.generation
    (UInt16.ofNat hpke.kdf_extract_size)
  if x.generation = 4294967295 then .fault .panic
  else pure { secret, generation := x.generation + 1 }

end RatchetSecret
end Rmls
