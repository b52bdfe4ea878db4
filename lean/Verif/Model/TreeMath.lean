import Verif.Model.Wire
/-
`rmls/src/utilities/tree_math/mod.rs`.

`NumLeaves`, `NodeIndex` and `LeafIndex` wrap a `u32`; here they are natural numbers, and every
operation of the source that can overflow, underflow or over-shift is an explicit panic (the behaviour
of a build with overflow checks).  A returned pair `(x, ok)` is `some x` when `ok` and `none` otherwise;
the placeholder `x` in the other case is never used by callers.
-/
namespace Rmls

/-- `u32 + u32`. -/
def add32 (x y : Nat) : Res Nat := if x + y < 4294967296 then .ok (x + y) else .fault .panic
/-- `u32 - u32`. -/
def sub32 (x y : Nat) : Res Nat := if y ≤ x then .ok (x - y) else .fault .panic
/-- `u32 * u32`. -/
def mul32 (x y : Nat) : Res Nat := if x * y < 4294967296 then .ok (x * y) else .fault .panic
/-- `u32 << s`: bits shifted out are lost, shifting by 32 or more panics. -/
def shl32 (x s : Nat) : Res Nat := if s < 32 then .ok ((x <<< s) % 4294967296) else .fault .panic
/-- `u32 >> s`. -/
def shr32 (x s : Nat) : Res Nat := if s < 32 then .ok (x >>> s) else .fault .panic
/-- `u32::ilog2`: panics on zero. -/
def ilog2 (x : Nat) : Res Nat := if x = 0 then .fault .panic else .ok x.log2

namespace NodeIndex

/-- `NodeIndex::is_leaf`, tree_math/mod.rs:128-130. -/
def is_leaf (x : Nat) : Bool := x % 2 == 0

/-- `NodeIndex::leaf_index`, tree_math/mod.rs:133-138. -/
def leaf_index (x : Nat) : Option Nat := if is_leaf x then some (x >>> 1) else none

/-- The loop of `NodeIndex::level`, tree_math/mod.rs:177-179.  The shift panics at 32, so 33 rounds of
fuel are enough. -/
def levelLoop (x : Nat) : Nat → Nat → Res Nat
  | 0, _ => .fault .hang
  | fuel + 1, lvl => do
    let s ← shr32 x lvl
    if s &&& 1 = 1 then do
      let lvl' ← add32 lvl 1
      levelLoop x fuel lvl'
    else pure lvl

/-- `NodeIndex::level`, tree_math/mod.rs:172-181. -/
def level (x : Nat) : Res Nat := if x &&& 1 = 0 then .ok 0 else levelLoop x 33 0

/-- `NodeIndex::left`, tree_math/mod.rs:141-148. -/
def left (x : Nat) : Res (Option Nat) := do
  let lvl ← level x
  if lvl = 0 then pure none
  else do
    let m ← shl32 1 (lvl - 1)
    pure (some (x ^^^ m))

/-- `NodeIndex::right`, tree_math/mod.rs:151-158. -/
def right (x : Nat) : Res (Option Nat) := do
  let lvl ← level x
  if lvl = 0 then pure none
  else do
    let m ← shl32 3 (lvl - 1)
    pure (some (x ^^^ m))

/-- `NodeIndex::children`, tree_math/mod.rs:161-168. -/
def children (x : Nat) : Res (Option (Nat × Nat)) := do
  match ← left x with
  | none => pure none
  | some l => do
    let r ← right x
    pure (some (l, r.getD 0))

end NodeIndex

/-- `LeafIndex::node_index`, tree_math/mod.rs:195-197. -/
def LeafIndex.node_index (li : Nat) : Res Nat := mul32 2 li

namespace NumLeaves

/-- `NumLeaves::new`, tree_math/mod.rs:38-40. -/
def new (width : Nat) : Nat := if width = 0 then 0 else (width - 1) / 2 + 1

/-- `NumLeaves::width`, tree_math/mod.rs:43-49. -/
def width (n : Nat) : Res Nat :=
  if n = 0 then .ok 0
  else do
    let w ← mul32 2 (n - 1)
    add32 w 1

/-- `NumLeaves::root`, tree_math/mod.rs:52-54. -/
def root (n : Nat) : Res Nat := do
  let w ← width n
  let k ← ilog2 w
  let r ← shl32 1 k
  sub32 r 1

/-- `NumLeaves::parent`, tree_math/mod.rs:57-65. -/
def parent (n x : Nat) : Res (Option Nat) := do
  let r ← root n
  if x = r then pure none
  else do
    let lvl ← NodeIndex.level x
    let up ← add32 lvl 1
    let hi ← shr32 x up
    let m ← shl32 1 lvl
    let b ← shl32 (hi &&& 1) up
    pure (some ((x ||| m) ^^^ b))

/-- `NumLeaves::sibling`, tree_math/mod.rs:68-78. -/
def sibling (n x : Nat) : Res (Option Nat) := do
  match ← parent n x with
  | none => pure none
  | some p => if x < p then NodeIndex.right p else NodeIndex.left p

/-- The loop of `NumLeaves::direct_path`, tree_math/mod.rs:83-90.  Every round goes up one level, and
above level 31 `parent` panics, so 34 rounds of fuel are enough. -/
def directPathLoop (n : Nat) : Nat → Nat → Res (List Nat)
  | 0, _ => .fault .hang
  | fuel + 1, x => do
    match ← parent n x with
    | none => pure []
    | some p => do
      let ps ← directPathLoop n fuel p
      pure (p :: ps)

/-- `NumLeaves::direct_path`, tree_math/mod.rs:81-92. -/
def direct_path (n x : Nat) : Res (List Nat) := directPathLoop n 34 x

/-- The loop of `NumLeaves::copath`, tree_math/mod.rs:104-110. -/
def copathLoop (n : Nat) : List Nat → Res (List Nat)
  | [] => .ok []
  | y :: ys => do
    match ← sibling n y with
    | none => .err .InvalidSibling
    | some s => do
      let ss ← copathLoop n ys
      pure (s :: ss)

/-- `NumLeaves::copath`, tree_math/mod.rs:95-113. -/
def copath (n x : Nat) : Res (List Nat) := do
  let path ← direct_path n x
  if path.isEmpty then pure []
  else copathLoop n ((x :: path).dropLast)

end NumLeaves
end Rmls
