import Verif.Model.Basic
/-
How a message is read from a stream that delivers it in pieces.
-/
namespace Rmls.Spec

/-- Pieces are collected until the reader says something else than "too short"; that is the outcome, with the pieces
not yet collected put behind what the reader left.  `none`: still waiting. -/
def collect {α : Type} (read : De α) (buf : Bytes) : List Bytes → Option (Res (α × Bytes))
  | [] => none
  | piece :: pieces =>
    match read (buf ++ piece) with
    | .err .BufferTooSmall => collect read (buf ++ piece) pieces
    | .err e => some (.err e)
    | .fault f => some (.fault f)
    | .ok (x, r) => some (.ok (x, r ++ pieces.flatten))

end Rmls.Spec
