import Verif.Model.Basic
/-
RFC 9420 section 2.1.2: variable-size vector length headers, written arithmetically.
-/
namespace Rmls.Spec

/-- The big-endian digits of `v` in base 256, least significant digit last, `n` of them. -/
def digits : Nat → Nat → List UInt8
  | 0, _ => []
  | n + 1, v => digits n (v / 256) ++ [UInt8.ofNat (v % 256)]

/-- RFC 9420 section 2.1.2, table 1: the two most significant bits of the first byte hold the base-2
logarithm of the length of the header, the remaining bits the value, in network byte order, and the
shortest possible header is used. -/
def header (n : Nat) : Option (List UInt8) :=
  if n ≤ 63 then some (digits 1 n)
  else if n ≤ 16383 then some (digits 2 (16384 * 1 + n))
  else if n ≤ 1073741823 then some (digits 4 (1073741824 * 2 + n))
  else none

end Rmls.Spec
