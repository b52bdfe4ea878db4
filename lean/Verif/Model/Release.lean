import Verif.Model.RatchetTree
import Verif.Model.SecretTree
/-
`rmls/src/utilities/tree_math/mod.rs`, `rmls/src/ratchet_tree/mod.rs` and `rmls/src/secret_tree/mod.rs` once more, in
a build without overflow checks (`cargo build --release` with the profile of `Cargo.toml`): sums, differences and
products of `u32` wrap around, and the distance of a shift is taken modulo 32.  `ilog2` of zero and an index out of
range panic in every build.

Only the functions that depend on this arithmetic are repeated.  A loop need not end in such a build, so every
function takes a number `F` of rounds granted to each loop; `.fault .hang` says that some loop needs more than that.
A call that answers `.fault .hang` for every `F` does not return.
-/
namespace Rmls.Release

/-- `u32 + u32`. -/
def add32 (x y : Nat) : Nat := (x + y) % 4294967296
/-- `u32 - u32`. -/
def sub32 (x y : Nat) : Nat := (x + 4294967296 - y) % 4294967296
/-- `u32 * u32`. -/
def mul32 (x y : Nat) : Nat := (x * y) % 4294967296
/-- `u32 << s`. -/
def shl32 (x s : Nat) : Nat := (x <<< (s % 32)) % 4294967296
/-- `u32 >> s`. -/
def shr32 (x s : Nat) : Nat := x >>> (s % 32)

namespace NodeIndex

/-- The loop of `NodeIndex::level`, tree_math/mod.rs:177-179. -/
def levelLoop (x : Nat) : Nat → Nat → Res Nat
  | 0, _ => .fault .hang
  | fuel + 1, lvl => if shr32 x lvl &&& 1 = 1 then levelLoop x fuel (add32 lvl 1) else .ok lvl

/-- `NodeIndex::level`, tree_math/mod.rs:172-181. -/
def level (F x : Nat) : Res Nat := if x &&& 1 = 0 then .ok 0 else levelLoop x F 0

/-- `NodeIndex::left`, tree_math/mod.rs:141-148. -/
def left (F x : Nat) : Res (Option Nat) := do
  let lvl ← level F x
  if lvl = 0 then pure none else pure (some (x ^^^ shl32 1 (lvl - 1)))

/-- `NodeIndex::right`, tree_math/mod.rs:151-158. -/
def right (F x : Nat) : Res (Option Nat) := do
  let lvl ← level F x
  if lvl = 0 then pure none else pure (some (x ^^^ shl32 3 (lvl - 1)))

/-- `NodeIndex::children`, tree_math/mod.rs:161-168. -/
def children (F x : Nat) : Res (Option (Nat × Nat)) := do
  match ← left F x with
  | none => pure none
  | some l => do
    let r ← right F x
    pure (some (l, r.getD 0))

end NodeIndex

/-- `LeafIndex::node_index`, tree_math/mod.rs:195-197. -/
def LeafIndex.node_index (li : Nat) : Nat := mul32 2 li

namespace NumLeaves

/-- `NumLeaves::width`, tree_math/mod.rs:43-49. -/
def width (n : Nat) : Nat := if n = 0 then 0 else add32 (mul32 2 (n - 1)) 1

/-- `NumLeaves::root`, tree_math/mod.rs:52-54. -/
def root (n : Nat) : Res Nat := do
  let k ← ilog2 (width n)
  pure (sub32 (shl32 1 k) 1)

/-- `NumLeaves::parent`, tree_math/mod.rs:57-65. -/
def parent (F n x : Nat) : Res (Option Nat) := do
  let r ← root n
  if x = r then pure none
  else do
    let lvl ← NodeIndex.level F x
    let b := shr32 x (add32 lvl 1) &&& 1
    pure (some ((x ||| shl32 1 lvl) ^^^ shl32 b (add32 lvl 1)))

/-- `NumLeaves::sibling`, tree_math/mod.rs:68-78. -/
def sibling (F n x : Nat) : Res (Option Nat) := do
  match ← parent F n x with
  | none => pure none
  | some p => if x < p then NodeIndex.right F p else NodeIndex.left F p

/-- The loop of `NumLeaves::direct_path`, tree_math/mod.rs:83-90. -/
def directPathLoop (F n : Nat) : Nat → Nat → Res (List Nat)
  | 0, _ => .fault .hang
  | fuel + 1, x => do
    match ← parent F n x with
    | none => pure []
    | some p => do
      let ps ← directPathLoop F n fuel p
      pure (p :: ps)

/-- `NumLeaves::direct_path`, tree_math/mod.rs:81-92. -/
def direct_path (F n x : Nat) : Res (List Nat) := directPathLoop F n F x

/-- The loop of `NumLeaves::copath`, tree_math/mod.rs:104-110. -/
def copathLoop (F n : Nat) : List Nat → Res (List Nat)
  | [] => .ok []
  | y :: ys => do
    match ← sibling F n y with
    | none => .err .InvalidSibling
    | some s => do
      let ss ← copathLoop F n ys
      pure (s :: ss)

/-- `NumLeaves::copath`, tree_math/mod.rs:95-113. -/
def copath (F n x : Nat) : Res (List Nat) := do
  let path ← direct_path F n x
  if path.isEmpty then pure []
  else copathLoop F n ((x :: path).dropLast)

end NumLeaves

namespace RatchetTree
open Rmls.RatchetTree (get set num_leaves bumpCred has_unmerged_leaf hashLeaf hashParent serialize_leaf_node_hash_input
  serialize_parent_node_hash_input find_parent_hash orFalse pushUnmerged setPath)

/-- `RatchetTree::get_leaf`, `rmls/src/ratchet_tree/mod.rs:334-340`. -/
def get_leaf (t : RatchetTree) (li : Nat) : Option LeafNode :=
  match get t (LeafIndex.node_index li) with
  | some (.Leaf n) => some n
  | _ => none

/-- The unmerged leaves as node indices, `rmls/src/ratchet_tree/mod.rs:347-349`. -/
def unmergedNodes (ls : List Rmls.LeafIndex) : List Nat := ls.map fun li => LeafIndex.node_index li.toNat

/-- `RatchetTree::resolve`, `rmls/src/ratchet_tree/mod.rs:343-363`. -/
def resolveFuel (F : Nat) (t : RatchetTree) : Nat → Nat → Res (List Nat)
  | 0, _ => .fault .hang
  | fuel + 1, x =>
    match get t x with
    | some n =>
      match n with
      | .Parent p => pure (x :: unmergedNodes p.unmerged_leaves)
      | .Leaf _ => pure [x]
    | none => do
      match ← NodeIndex.children F x with
      | none => pure []
      | some (l, r) => do
        let res ← resolveFuel F t fuel l
        let right ← resolveFuel F t fuel r
        pure (res ++ right)

@[inherit_doc resolveFuel]
def resolve (F : Nat) (t : RatchetTree) (x : Nat) : Res (List Nat) := resolveFuel F t F x

/-- `for li in ..num_leaves { if let Some(node) = self.get_leaf(li) { body } }`: the loop shape of
`rmls/src/ratchet_tree/mod.rs:369-380`, `:398-403` and `:438-456`. -/
def forLeaves {σ : Type} (t : RatchetTree) (body : σ → Nat → LeafNode → Res σ) : List Nat → σ → Res σ
  | [], s => .ok s
  | li :: ls, s =>
    match get_leaf t li with
    | some n => do
      let s' ← body s li n
      forLeaves t body ls s'
    | none => forLeaves t body ls s

/-- `RatchetTree::supported_creds`, `rmls/src/ratchet_tree/mod.rs:366-390`. -/
def supported_creds (t : RatchetTree) : Res (List CredentialType) := do
  let (num_members, counts) ← forLeaves t
    (fun (s : Nat × List (CredentialType × Nat)) _ n =>
      .ok (s.1 + 1, n.payload.capabilities.credentials.foldl (fun m ct => bumpCred ct m) s.2))
    (List.range (num_leaves t)) (0, [])
  pure ((counts.filter fun c => c.2 = num_members).map (·.1))

/-- `RatchetTree::keys`, `rmls/src/ratchet_tree/mod.rs:393-405`. -/
def keys (t : RatchetTree) : Res (List SignaturePublicKey × List HPKEPublicKey) :=
  forLeaves t
    (fun (s : List SignaturePublicKey × List HPKEPublicKey) _ n =>
      .ok (n.payload.signature_key :: s.1, n.payload.encryption_key :: s.2))
    (List.range (num_leaves t)) ([], [])

/-- `RatchetTree::compute_tree_hash`, `rmls/src/ratchet_tree/mod.rs:518-590`. -/
def treeHashFuel (F : Nat) (P : CryptoProvider) (cs : CipherSuite) (t : RatchetTree)
    (exclude : List Rmls.LeafIndex) : Nat → Nat → Res Bytes
  | 0, _ => .fault .hang
  | fuel + 1, x =>
    match Rmls.NodeIndex.leaf_index x with
    | some li => do
      let l ← hashLeaf (get t x) (exclude.contains (UInt32.ofNat li))
      let input ← serialize_leaf_node_hash_input (UInt32.ofNat li) l
      let h ← P.hash cs
      pure (h.digest input)
    | none => do
      match ← NodeIndex.children F x with
      | none => .err .InvalidChildren
      | some (left, right) => do
        let left_hash ← treeHashFuel F P cs t exclude fuel left
        let right_hash ← treeHashFuel F P cs t exclude fuel right
        let p ← hashParent (get t x) exclude
        let input ← serialize_parent_node_hash_input p left_hash right_hash
        let h ← P.hash cs
        pure (h.digest input)

@[inherit_doc treeHashFuel]
def compute_tree_hash (F : Nat) (P : CryptoProvider) (cs : CipherSuite) (t : RatchetTree) (x : Nat)
    (exclude : List Rmls.LeafIndex) : Res Bytes :=
  treeHashFuel F P cs t exclude F x

/-- `RatchetTree::compute_root_tree_hash`, `rmls/src/ratchet_tree/mod.rs:504-515`. -/
def compute_root_tree_hash (F : Nat) (P : CryptoProvider) (cs : CipherSuite) (t : RatchetTree) : Res Bytes := do
  let r ← NumLeaves.root (num_leaves t)
  compute_tree_hash F P cs t r []

/-- One round of the loop of `verify_parent_hashes`, `rmls/src/ratchet_tree/mod.rs:628-682`. -/
def verifyParentHash (F : Nat) (P : CryptoProvider) (cs : CipherSuite) (t : RatchetTree) (i : Nat) :
    Option Node → Res Bool
  | none => .ok true
  | some n => do
    match ← NodeIndex.children F (cast32 i) with
    | none => pure true
    | some (l, r) =>
      match n with
      | .Leaf _ => pure true
      | .Parent p =>
        orFalse (compute_tree_hash F P cs t l p.unmerged_leaves) fun left_tree_hash =>
        orFalse (compute_tree_hash F P cs t r p.unmerged_leaves) fun right_tree_hash =>
        orFalse (p.compute_parent_hash P cs right_tree_hash) fun left_parent_hash =>
        orFalse (p.compute_parent_hash P cs left_tree_hash) fun right_parent_hash => do
          let rl ← resolve F t l
          let rr ← resolve F t r
          pure (find_parent_hash t left_parent_hash rl != find_parent_hash t right_parent_hash rr)

/-- The loop of `verify_parent_hashes`, `rmls/src/ratchet_tree/mod.rs:627-683`. -/
def verifyParentHashesLoop (F : Nat) (P : CryptoProvider) (cs : CipherSuite) (t : RatchetTree) :
    Nat → List (Option Node) → Res Bool
  | _, [] => .ok true
  | i, n :: ns => do
    let good ← verifyParentHash F P cs t i n
    if good then verifyParentHashesLoop F P cs t (i + 1) ns else pure false

/-- `RatchetTree::verify_parent_hashes`, `rmls/src/ratchet_tree/mod.rs:622-685`. -/
def verify_parent_hashes (F : Nat) (P : CryptoProvider) (cs : CipherSuite) (t : RatchetTree) : Res Bool :=
  verifyParentHashesLoop F P cs t 0 t

/-- The inner loop of `verify_integrity`, `rmls/src/ratchet_tree/mod.rs:463-480`. -/
def unmergedWalk (F : Nat) (t : RatchetTree) (n p : Nat) (li : Rmls.LeafIndex) : Nat → Nat → Res Unit
  | 0, _ => .fault .hang
  | fuel + 1, x => do
    match ← NumLeaves.parent F n x with
    | none => .err .UnmergedLeafIsNotDescendantOfTheParentNode
    | some y =>
      if y = p then pure ()
      else match get t y with
        | some (.Parent q) =>
          if has_unmerged_leaf q li = false then .err .NonBlankIntermediateNodeMissingUnmergedLeaf
          else unmergedWalk F t n p li fuel y
        | _ => unmergedWalk F t n p li fuel y

/-- The loop over the unmerged leaves, `rmls/src/ratchet_tree/mod.rs:461-481`. -/
def unmergedLoop (F : Nat) (t : RatchetTree) (n p : Nat) : List Rmls.LeafIndex → Res Unit
  | [] => .ok ()
  | li :: ls => do
    unmergedWalk F t n p li F (LeafIndex.node_index li.toNat)
    unmergedLoop F t n p ls

/-- The loop over the parents, `rmls/src/ratchet_tree/mod.rs:458-488`. -/
def parentLoop (F : Nat) (t : RatchetTree) (n : Nat) : Nat → List (Option Node) → List HPKEPublicKey → Res Unit
  | _, [], _ => .ok ()
  | i, some (.Parent p) :: ns, encryption_keys => do
    unmergedLoop F t n (cast32 i) p.unmerged_leaves
    if encryption_keys.contains p.encryption_key then .err .DuplicateEncryptionKeyInRatchetTree
    else parentLoop F t n (i + 1) ns (p.encryption_key :: encryption_keys)
  | i, _ :: ns, encryption_keys => parentLoop F t n (i + 1) ns encryption_keys

/-- The loop over the leaves, `rmls/src/ratchet_tree/mod.rs:438-456`. -/
def verifyLeaves (P : CryptoProvider) (t : RatchetTree) (ctx : GroupContext) (now : Int)
    (supported_creds : List CredentialType) : Res (List SignaturePublicKey × List HPKEPublicKey) :=
  forLeaves t
    (fun (s : List SignaturePublicKey × List HPKEPublicKey) li n => do
      n.verify P {
        cipher_suite := ctx.cipher_suite, group_id := ctx.group_id, leaf_index := UInt32.ofNat li,
        supported_creds, signature_keys := s.1, encryption_keys := s.2, now }
      pure (n.payload.signature_key :: s.1, n.payload.encryption_key :: s.2))
    (List.range (num_leaves t)) ([], [])

/-- `RatchetTree::verify_integrity`, `rmls/src/ratchet_tree/mod.rs:414-491`. -/
def verify_integrity (F : Nat) (P : CryptoProvider) (t : RatchetTree) (ctx : GroupContext) (now : Int) :
    Res Unit := do
  let h ← compute_root_tree_hash F P ctx.cipher_suite t
  if h ≠ ctx.tree_hash then .err .TreeHashVerificationFailed
  else do
    let good ← verify_parent_hashes F P ctx.cipher_suite t
    if good = false then .err .ParentHashesVerificationFailed
    else do
      let creds ← supported_creds t
      let (_, encryption_keys) ← verifyLeaves P t ctx now creds
      parentLoop F t (num_leaves t) 0 t encryption_keys

/-- The loop of `find_leaf`, `rmls/src/ratchet_tree/mod.rs:711-725`. -/
def findLeafLoop (t : RatchetTree) (node : LeafNode) : List Nat → Res (Option Nat)
  | [] => .ok none
  | li :: ls =>
    match get_leaf t li with
    | some n =>
      if n.payload.encryption_key ≠ node.payload.encryption_key then findLeafLoop t node ls
      else
        match node.serialize, n.serialize with
        | .ok raw1, .ok raw2 => pure (if raw1 = raw2 then some li else none)
        | .fault f, _ => .fault f
        | _, .fault f => .fault f
        | _, _ => pure none
    | none => findLeafLoop t node ls

/-- `RatchetTree::find_leaf`, `rmls/src/ratchet_tree/mod.rs:710-727`. -/
def find_leaf (t : RatchetTree) (node : LeafNode) : Res (Option Nat) :=
  findLeafLoop t node (List.range (num_leaves t))

/-- `loop { let (p, ok) = num_leaves.parent(x); if !ok { break; } body(x, p); x = p; }`: the loop shape of
`add`, `update`, `remove` and `filtered_direct_path`. -/
def walkUp {σ : Type} (F n : Nat) (body : σ → Nat → Nat → Res σ) : Nat → Nat → σ → Res σ
  | 0, _, _ => .fault .hang
  | fuel + 1, x, s => do
    match ← NumLeaves.parent F n x with
    | none => pure s
    | some p => do
      let s' ← body s x p
      walkUp F n body fuel p s'

/-- The search loop of `add`, `rmls/src/ratchet_tree/mod.rs:734-744`. -/
def addSearch (t : RatchetTree) : Nat → Nat → Res (Nat × Bool)
  | 0, _ => .fault .hang
  | fuel + 1, li =>
    let ni := LeafIndex.node_index li
    if t.length ≤ ni then .ok (li, false)
    else if (get t ni).isNone then .ok (li, true)
    else addSearch t fuel (add32 li 1)

/-- `RatchetTree::add`, `rmls/src/ratchet_tree/mod.rs:730-767`.  The search has as many rounds as in
`Rmls.RatchetTree.add`, more than there are slots. -/
def add (F : Nat) (t : RatchetTree) (leaf_node : LeafNode) : Res RatchetTree := do
  let (li, found) ← addSearch t (t.length + 1) 0
  let ni := if found then LeafIndex.node_index li else add32 (cast32 t.length) 1
  let t := if found then t else t ++ List.replicate ((t.length + 1) * 2 - 1 - t.length) none
  let t ← walkUp F (num_leaves t) (fun t _ p => .ok (pushUnmerged (UInt32.ofNat li) t p)) F ni t
  pure (set t ni (some (.Leaf leaf_node)))

/-- `RatchetTree::update`, `rmls/src/ratchet_tree/mod.rs:770-784`. -/
def update (F : Nat) (t : RatchetTree) (li : Nat) (leaf_node : LeafNode) : Res RatchetTree :=
  let ni := LeafIndex.node_index li
  let t := set t ni (some (.Leaf leaf_node))
  walkUp F (num_leaves t) (fun t _ p => .ok (set t p none)) F ni t

/-- The second loop of `remove`, `rmls/src/ratchet_tree/mod.rs:803-818`; `none`: the tree is cleared. -/
def removeScan (t : RatchetTree) : Nat → Nat → Option Nat
  | 0, last => if (get t (LeafIndex.node_index 0)).isSome then some last else none
  | li + 1, last =>
    let ni := LeafIndex.node_index (li + 1)
    if (get t ni).isSome then some last
    else removeScan t li (if is_power_of_two ni then ni else last)

/-- `RatchetTree::remove`, `rmls/src/ratchet_tree/mod.rs:787-823`. -/
def remove (F : Nat) (t : RatchetTree) (li : Nat) : Res RatchetTree := do
  let ni := LeafIndex.node_index li
  let n := num_leaves t
  let t ← walkUp F n (fun t _ p => .ok (set t p none)) F ni (set t ni none)
  match removeScan t (sub32 n 1) t.length with
  | none => pure []
  | some last => if last < t.length then pure (t.take last) else pure t

/-- `RatchetTree::filtered_direct_path`, `rmls/src/ratchet_tree/mod.rs:825-848`. -/
def filtered_direct_path (F : Nat) (t : RatchetTree) (x : Nat) : Res (List Nat) :=
  walkUp F (num_leaves t) (fun path x p => do
    match ← NumLeaves.sibling F (num_leaves t) x with
    | none => .err .InvalidSibling
    | some s => do
      let r ← resolve F t s
      if r.isEmpty = false then pure (path ++ [p]) else pure path) F x []

/-- The parent hash that a round reads and the tree hash of the sibling, `rmls/src/ratchet_tree/mod.rs:886-911`. -/
def pathHashes (F : Nat) (P : CryptoProvider) (cs : CipherSuite) (t : RatchetTree) (sender_node_index : Nat)
    (direct_path : List Nat) (ni : Nat) (prev : Option Bytes) : Res (Option Bytes × Bytes) :=
  match get t ni with
  | some (.Parent _) => do
    match ← NodeIndex.children F ni with
    | none => .err .InvalidChildren
    | some (l, r) => do
      let s := if l = sender_node_index ∨ direct_path.contains l = true then r else l
      let tree_hash ← compute_tree_hash F P cs t s []
      pure (prev, tree_hash)
  | _ => pure (none, [])

/-- The loop from the root down, `rmls/src/ratchet_tree/mod.rs:883-927`. -/
def pathLoop (F : Nat) (P : CryptoProvider) (cs : CipherSuite) (sender_node_index : Nat)
    (direct_path : List Nat) :
    List Nat → Option Bytes → RatchetTree → RatchetTree × Res (Option Bytes)
  | [], prev, t => (t, .ok prev)
  | ni :: nis, prev, t =>
    match pathHashes F P cs t sender_node_index direct_path ni prev with
    | .err e => (t, .err e)
    | .fault f => (t, .fault f)
    | .ok (node_parent_hash, tree_hash) =>
      match get t ni with
      | some (.Parent p) =>
        let p' := { p with parent_hash := node_parent_hash.getD [] }
        let t' := set t ni (some (.Parent p'))
        match p'.compute_parent_hash P cs tree_hash with
        | .err e => (t', .err e)
        | .fault f => (t', .fault f)
        | .ok h => pathLoop F P cs sender_node_index direct_path nis (some h) t'
      | _ => pathLoop F P cs sender_node_index direct_path nis prev t

/-- `RatchetTree::merge_update_path`, `rmls/src/ratchet_tree/mod.rs:851-942`. -/
def merge_update_path (F : Nat) (P : CryptoProvider) (cs : CipherSuite) (t : RatchetTree)
    (sender_leaf_index : Nat) (path : UpdatePath) : RatchetTree × Res Unit :=
  let sender_node_index := LeafIndex.node_index sender_leaf_index
  match NumLeaves.direct_path F (num_leaves t) sender_node_index with
  | .err e => (t, .err e)
  | .fault f => (t, .fault f)
  | .ok direct_path =>
  let t := direct_path.foldl (fun t ni => set t ni none) t
  match filtered_direct_path F t sender_node_index with
  | .err e => (t, .err e)
  | .fault f => (t, .fault f)
  | .ok filtered =>
  if filtered.length ≠ path.nodes.length then
    (t, .err .UpdatePathAndFilteredDirectPathHasDifferentNode)
  else
  let t := setPath t (filtered.zip path.nodes)
  match pathLoop F P cs sender_node_index direct_path filtered.reverse none t with
  | (t, .err e) => (t, .err e)
  | (t, .fault f) => (t, .fault f)
  | (t, .ok prev_parent_hash) =>
  match path.leaf_node.payload.leaf_node_source, prev_parent_hash with
  | .Commit parent_hash, some h =>
    if parent_hash ≠ h then (t, .err .ParentHashMismatchForUpdatePathLeafNode)
    else (set t sender_node_index (some (.Leaf path.leaf_node)), .ok ())
  | _, _ => (t, .err .ParentHashMismatchForUpdatePathLeafNode)

/-- The update loop of `apply`, `rmls/src/ratchet_tree/mod.rs:947-951`; `senders[i]` panics out of range. -/
def applyUpdates (F : Nat) (senders : List Rmls.LeafIndex) :
    Nat → List Proposal → RatchetTree → Res RatchetTree
  | _, [], t => .ok t
  | i, .Update u :: ps, t =>
    match senders[i]? with
    | none => .fault .panic
    | some s => do
      let t ← update F t s.toNat u.leaf_node
      applyUpdates F senders (i + 1) ps t
  | i, _ :: ps, t => applyUpdates F senders (i + 1) ps t

/-- The remove loop of `apply`, `rmls/src/ratchet_tree/mod.rs:954-958`. -/
def applyRemoves (F : Nat) : List Proposal → RatchetTree → Res RatchetTree
  | [], t => .ok t
  | .Remove r :: ps, t => do
    let t ← remove F t r.removed.toNat
    applyRemoves F ps t
  | _ :: ps, t => applyRemoves F ps t

/-- The add loop of `apply`, `rmls/src/ratchet_tree/mod.rs:961-965`. -/
def applyAdds (F : Nat) : List Proposal → RatchetTree → Res RatchetTree
  | [], t => .ok t
  | .Add a :: ps, t => do
    let t ← add F t a.key_package.payload.leaf_node
    applyAdds F ps t
  | _ :: ps, t => applyAdds F ps t

/-- `RatchetTree::apply`, `rmls/src/ratchet_tree/mod.rs:945-966`. -/
def apply (F : Nat) (t : RatchetTree) (proposals : List Proposal) (senders : List Rmls.LeafIndex) :
    Res RatchetTree := do
  let t ← applyUpdates F senders 0 proposals t
  let t ← applyRemoves F proposals t
  applyAdds F proposals t

end RatchetTree

namespace SecretTree
open Rmls.SecretTree (secretAt setSecret)

/-- `SecretTree::derive_children`, `rmls/src/secret_tree/mod.rs:72-106`. -/
def derive_children (F : Nat) (P : CryptoProvider) (cs : CipherSuite) : Nat → SecretTree → Nat → Res SecretTree
  | 0, _, _ => .fault .hang
  | fuel + 1, t, x => do
    match ← NodeIndex.children F x with
    | none => pure t
    | some (l, r) => do
      let parent_secret ← secretAt t x
      let hpke ← P.hpke cs
      let nh := UInt16.ofNat hpke.kdf_extract_size
      let left_secret ← P.expand_with_label cs parent_secret (ascii "tree") (ascii "left") nh
      let right_secret ← P.expand_with_label cs parent_secret (ascii "tree") (ascii "right") nh
      let t := setSecret t l left_secret
      let t := setSecret t r right_secret
      let t ← derive_children F P cs fuel t l
      derive_children F P cs fuel t r

/-- `SecretTree::new`, `rmls/src/secret_tree/mod.rs:59-70`. -/
def new (F : Nat) (P : CryptoProvider) (cs : CipherSuite) (n : Nat) (encryption_secret : Bytes) :
    Res SecretTree := do
  let root ← NumLeaves.root n
  derive_children F P cs F (setSecret (List.replicate (NumLeaves.width n) none) root encryption_secret) root

end SecretTree

/-- `RatchetSecret::derive_next`, `rmls/src/secret_tree/mod.rs:188-207`; the generation wraps around. -/
def RatchetSecret.derive_next (P : CryptoProvider) (cs : CipherSuite) (x : RatchetSecret) :
    Res RatchetSecret := do
  let hpke ← P.hpke cs
  let secret ← derive_tree_secret P cs x.secret (ascii "secret") x.generation
    (UInt16.ofNat hpke.kdf_extract_size)
  pure { secret, generation := x.generation + 1 }

end Rmls.Release
