import Verif.Model.Basic
/-
`rmls/src/utilities/serde/mod.rs`
-/
namespace Rmls

/-- The loop of `deserialize_varint`, serde/mod.rs:23-29: `n` more bytes are shifted into `v`.
`v` stays below 2^30, so the `u32` arithmetic never overflows; it is done in `Nat`. -/
def varintLoop : Nat → Nat → De Nat
  | 0, v => fun b => .ok (v, b)
  | n + 1, v => do
    need 1
    let b ← get_u8
    varintLoop n ((v <<< 8) + b.toNat)

/-- `deserialize_varint`, serde/mod.rs:10-36. -/
def deserialize_varint : De Nat := do
  need 1
  let b ← get_u8
  let pfx := b.toNat >>> 6
  if pfx = 3 then
    De.fail .InvalidVariableLengthIntegerPrefix
  else
    let n := 1 <<< pfx
    let v ← varintLoop (n - 1) (b.toNat &&& 0x3F)
    if 1 ≤ pfx ∧ v < 1 <<< (8 * (n / 2) - 2) then
      De.fail .MinimumEncodingWasNotUsed
    else
      pure v

/-- `serialize_varint`, serde/mod.rs:38-49 (argument is a `u32`). -/
def serialize_varint (n : Nat) : Res Bytes :=
  if n < 1 <<< 6 then .ok (beBytes 1 n)
  else if n < 1 <<< 14 then .ok (beBytes 2 ((1 <<< 14) ||| n))
  else if n < 1 <<< 30 then .ok (beBytes 4 ((2 <<< 30) ||| n))
  else .err .VarintExceeds30Bits

/-- `deserialize_opaque_vec`, serde/mod.rs:51-58. -/
def deserialize_opaque_vec : De Bytes := do
  let n ← deserialize_varint
  need n
  copy_to_bytes n

/-- `serialize_opaque_vec`, serde/mod.rs:60-70. -/
def serialize_opaque_vec (v : Bytes) : Res Bytes :=
  if v.length ≥ 4294967295 then .err .OpaqueSizeExceedsMaximumValueOfU32
  else serialize_varint v.length +++ put_slice v

/-- The `while ss.has_remaining() { f(ss)? }` loop of `deserialize_vector`, serde/mod.rs:83-85.
The fuel is the length of the buffer: an element reader that succeeds without consuming anything
is called again on the same buffer forever, which is exactly the case where the fuel runs out. -/
def vecLoop {α : Type} (f : De α) : Nat → Bytes → Res (List α)
  | _, [] => .ok []
  | 0, _ :: _ => .fault .hang
  | fuel + 1, b :: bs =>
    match f (b :: bs) with
    | .ok (a, r) =>
      match vecLoop f fuel r with
      | .ok as => .ok (a :: as)
      | .err e => .err e
      | .fault e => .fault e
    | .err e => .err e
    | .fault e => .fault e

/-- `deserialize_vector`, serde/mod.rs:72-87.  The Rust closure pushes one element per call into a
captured vector; here the list of elements is returned. -/
def deserialize_vector {α : Type} (f : De α) : De (List α) := do
  let n ← deserialize_varint
  need n
  let v ← copy_to_bytes n
  De.lift (vecLoop f v.length v)

/-- The writer loop of `serialize_vector`, serde/mod.rs:96-99. -/
def serialize_items {α : Type} (s : α → Res Bytes) : List α → Res Bytes
  | [] => .ok []
  | x :: xs => s x +++ serialize_items s xs

/-- `serialize_vector`, serde/mod.rs:89-104. -/
def serialize_vector {α : Type} (s : α → Res Bytes) (xs : List α) : Res Bytes := do
  let raw ← serialize_items s xs
  serialize_opaque_vec raw

/-- `deserialize_optional`, serde/mod.rs:106-117. -/
def deserialize_optional : De Bool := do
  need 1
  let b ← get_u8
  if b = 0 then pure false
  else if b = 1 then pure true
  else De.fail .InvalidOptionalValue

/-- `serialize_optional`, serde/mod.rs:119-123. -/
def serialize_optional (present : Bool) : Res Bytes :=
  put_u8 (if present then 1 else 0)

/-- `Deserializer::deserialize_exact`, serde/mod.rs:131-137: runs the reader and drops the rest. -/
def deserialize_exact {α : Type} (d : De α) (buf : Bytes) : Res α :=
  match d buf with
  | .ok (a, _) => .ok a
  | .err e => .err e
  | .fault f => .fault f

end Rmls
