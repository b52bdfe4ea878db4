import Verif.Model.LeafNode
import Verif.Model.TreeMath
/-
`rmls/src/ratchet_tree/mod.rs` from line 308 on: operations on the ratchet tree.

The tree is the array, a list of optional nodes.  Functions on `&mut self` return the new tree; where a
function can return an error after having changed the tree (`merge_update_path`), the changed tree is
returned beside the error.  Node indices are natural numbers, `x as u32` is `cast32 x`.
-/
namespace Rmls

/-- `x as u32` for a `usize`. -/
def cast32 (x : Nat) : Nat := x % 4294967296

namespace RatchetTree

/-- `RatchetTree::get`, `rmls/src/ratchet_tree/mod.rs:309-315`, and `get_mut`, 318-324. -/
def get (t : RatchetTree) (i : Nat) : Option Node := t[i]?.join

/-- `RatchetTree::set`, `rmls/src/ratchet_tree/mod.rs:327-331`: nothing happens out of range. -/
def set (t : RatchetTree) (i : Nat) (n : Option Node) : RatchetTree := List.set t i n

/-- `RatchetTree::get_leaf`, `rmls/src/ratchet_tree/mod.rs:334-340`. -/
def get_leaf (t : RatchetTree) (li : Nat) : Res (Option LeafNode) := do
  let ni ← LeafIndex.node_index li
  match t.get ni with
  | some (.Leaf n) => pure (some n)
  | _ => pure none

/-- `RatchetTree::num_leaves`, `rmls/src/ratchet_tree/mod.rs:705-707`. -/
def num_leaves (t : RatchetTree) : Nat := NumLeaves.new (cast32 t.length)

/-- The unmerged leaves as node indices, `rmls/src/ratchet_tree/mod.rs:347-349`. -/
def unmergedNodes : List LeafIndex → Res (List Nat)
  | [] => .ok []
  | li :: ls => do
    let ni ← LeafIndex.node_index li.toNat
    let rest ← unmergedNodes ls
    pure (ni :: rest)

/-- `RatchetTree::resolve`, `rmls/src/ratchet_tree/mod.rs:343-363`.  Every recursive call goes down one
level, and above level 31 `children` panics; 33 levels of fuel are enough. -/
def resolveFuel (t : RatchetTree) : Nat → Nat → Res (List Nat)
  | 0, _ => .fault .hang
  | fuel + 1, x =>
    match t.get x with
    | some n =>
      match n with
      | .Parent p => do
        let ls ← unmergedNodes p.unmerged_leaves
        pure (x :: ls)
      | .Leaf _ => pure [x]
    | none => do
      match ← NodeIndex.children x with
      | none => pure []
      | some (l, r) => do
        let res ← resolveFuel t fuel l
        let right ← resolveFuel t fuel r
        pure (res ++ right)

@[inherit_doc resolveFuel]
def resolve (t : RatchetTree) (x : Nat) : Res (List Nat) := resolveFuel t 33 x

/-- `for li in ..num_leaves { if let Some(node) = self.get_leaf(li) { body } }`: the loop shape of
`rmls/src/ratchet_tree/mod.rs:369-380`, `:398-403` and `:438-456`. -/
def forLeaves {σ : Type} (t : RatchetTree) (body : σ → Nat → LeafNode → Res σ) : List Nat → σ → Res σ
  | [], s => .ok s
  | li :: ls, s => do
    match ← t.get_leaf li with
    | some n => do
      let s' ← body s li n
      forLeaves t body ls s'
    | none => forLeaves t body ls s

/-- One more occurrence of `ct`, `rmls/src/ratchet_tree/mod.rs:373-377`; the hash map is a list of pairs. -/
def bumpCred (ct : CredentialType) : List (CredentialType × Nat) → List (CredentialType × Nat)
  | [] => [(ct, 1)]
  | (c, n) :: m => if c = ct then (c, n + 1) :: m else (c, n) :: bumpCred ct m

/-- `RatchetTree::supported_creds`, `rmls/src/ratchet_tree/mod.rs:366-390`; the returned set is a list. -/
def supported_creds (t : RatchetTree) : Res (List CredentialType) := do
  let (num_members, counts) ← forLeaves t
    (fun (s : Nat × List (CredentialType × Nat)) _ n =>
      .ok (s.1 + 1, n.payload.capabilities.credentials.foldl (fun m ct => bumpCred ct m) s.2))
    (List.range t.num_leaves) (0, [])
  pure ((counts.filter fun c => c.2 = num_members).map (·.1))

/-- `RatchetTree::keys`, `rmls/src/ratchet_tree/mod.rs:393-405`; the returned sets are lists. -/
def keys (t : RatchetTree) : Res (List SignaturePublicKey × List HPKEPublicKey) :=
  forLeaves t
    (fun (s : List SignaturePublicKey × List HPKEPublicKey) _ n =>
      .ok (n.payload.signature_key :: s.1, n.payload.encryption_key :: s.2))
    (List.range t.num_leaves) ([], [])

/-- `RatchetTree::has_unmerged_leaf`, `rmls/src/ratchet_tree/mod.rs:494-501`. -/
def has_unmerged_leaf (p : ParentNode) (li : LeafIndex) : Bool := p.unmerged_leaves.any (· == li)

/-- `RatchetTree::serialize_leaf_node_hash_input`, `rmls/src/ratchet_tree/mod.rs:592-604`. -/
def serialize_leaf_node_hash_input (i : LeafIndex) (n : Option LeafNode) : Res Bytes :=
  put_u8 1 +++ put_u32 i +++ serialize_optional n.isSome +++
    match n with
    | some n => n.serialize
    | none => .ok []

/-- `RatchetTree::serialize_parent_node_hash_input`, `rmls/src/ratchet_tree/mod.rs:606-619`. -/
def serialize_parent_node_hash_input (n : Option ParentNode) (left_hash right_hash : Bytes) : Res Bytes :=
  put_u8 2 +++ serialize_optional n.isSome +++
    (match n with
    | some n => n.serialize
    | none => .ok []) +++
    serialize_opaque_vec left_hash +++ serialize_opaque_vec right_hash

/-- The node put into the hash of a leaf, `rmls/src/ratchet_tree/mod.rs:530-542`. -/
def hashLeaf (n : Option Node) (excluded : Bool) : Res (Option LeafNode) :=
  match n with
  | some n =>
    if excluded then .ok none
    else match n with
      | .Leaf l => .ok (some l)
      | .Parent _ => .err .InvalidLeafNode
  | none => .ok none

/-- The node put into the hash of an inner node, `rmls/src/ratchet_tree/mod.rs:556-577`. -/
def hashParent (n : Option Node) (exclude : List LeafIndex) : Res (Option ParentNode) :=
  match n with
  | some (.Parent p) =>
    if p.unmerged_leaves.isEmpty = false ∧ exclude.isEmpty = false then
      .ok (some { p with unmerged_leaves := p.unmerged_leaves.filter fun li => !exclude.contains li })
    else .ok (some p)
  | some (.Leaf _) => .err .InvalidParentNode
  | none => .ok none

/-- `RatchetTree::compute_tree_hash`, `rmls/src/ratchet_tree/mod.rs:518-590`; the set of excluded leaves is a
list.  33 levels of fuel are enough, as in `resolveFuel`. -/
def treeHashFuel (P : CryptoProvider) (cs : CipherSuite) (t : RatchetTree) (exclude : List LeafIndex) :
    Nat → Nat → Res Bytes
  | 0, _ => .fault .hang
  | fuel + 1, x =>
    match NodeIndex.leaf_index x with
    | some li => do
      let l ← hashLeaf (t.get x) (exclude.contains (UInt32.ofNat li))
      let input ← serialize_leaf_node_hash_input (UInt32.ofNat li) l
      let h ← P.hash cs
      pure (h.digest input)
    | none => do
      match ← NodeIndex.children x with
      | none => .err .InvalidChildren
      | some (left, right) => do
        let left_hash ← treeHashFuel P cs t exclude fuel left
        let right_hash ← treeHashFuel P cs t exclude fuel right
        let p ← hashParent (t.get x) exclude
        let input ← serialize_parent_node_hash_input p left_hash right_hash
        let h ← P.hash cs
        pure (h.digest input)

@[inherit_doc treeHashFuel]
def compute_tree_hash (P : CryptoProvider) (cs : CipherSuite) (t : RatchetTree) (x : Nat)
    (exclude : List LeafIndex) : Res Bytes :=
  treeHashFuel P cs t exclude 33 x

/-- `RatchetTree::compute_root_tree_hash`, `rmls/src/ratchet_tree/mod.rs:504-515`. -/
def compute_root_tree_hash (P : CryptoProvider) (cs : CipherSuite) (t : RatchetTree) : Res Bytes := do
  let r ← NumLeaves.root t.num_leaves
  compute_tree_hash P cs t r []

/-- `RatchetTree::find_parent_hash`, `rmls/src/ratchet_tree/mod.rs:687-703`. -/
def find_parent_hash (t : RatchetTree) (parent_hash : Bytes) : List Nat → Bool
  | [] => false
  | x :: xs =>
    match t.get x with
    | some (.Leaf l) =>
      match l.payload.leaf_node_source with
      | .Commit h => if h = parent_hash then true else find_parent_hash t parent_hash xs
      | _ => find_parent_hash t parent_hash xs
    | some (.Parent p) => if p.parent_hash = parent_hash then true else find_parent_hash t parent_hash xs
    | none => find_parent_hash t parent_hash xs

/-- `if let Ok(x) = .. { .. } else { return false }`. -/
def orFalse {α : Type} (x : Res α) (k : α → Res Bool) : Res Bool :=
  match x with
  | .ok a => k a
  | .err _ => .ok false
  | .fault f => .fault f

/-- One round of the loop of `verify_parent_hashes`, `rmls/src/ratchet_tree/mod.rs:628-682`; `true`: carry
on. -/
def verifyParentHash (P : CryptoProvider) (cs : CipherSuite) (t : RatchetTree) (i : Nat) : Option Node →
    Res Bool
  | none => .ok true
  | some n => do
    match ← NodeIndex.children (cast32 i) with
    | none => pure true
    | some (l, r) =>
      match n with
      | .Leaf _ => pure true
      | .Parent p =>
        orFalse (compute_tree_hash P cs t l p.unmerged_leaves) fun left_tree_hash =>
        orFalse (compute_tree_hash P cs t r p.unmerged_leaves) fun right_tree_hash =>
        orFalse (p.compute_parent_hash P cs right_tree_hash) fun left_parent_hash =>
        orFalse (p.compute_parent_hash P cs left_tree_hash) fun right_parent_hash => do
          let rl ← t.resolve l
          let rr ← t.resolve r
          pure (find_parent_hash t left_parent_hash rl != find_parent_hash t right_parent_hash rr)

/-- The loop of `verify_parent_hashes`, `rmls/src/ratchet_tree/mod.rs:627-683`. -/
def verifyParentHashesLoop (P : CryptoProvider) (cs : CipherSuite) (t : RatchetTree) :
    Nat → List (Option Node) → Res Bool
  | _, [] => .ok true
  | i, n :: ns => do
    let good ← verifyParentHash P cs t i n
    if good then verifyParentHashesLoop P cs t (i + 1) ns else pure false

/-- `RatchetTree::verify_parent_hashes`, `rmls/src/ratchet_tree/mod.rs:622-685`. -/
def verify_parent_hashes (P : CryptoProvider) (cs : CipherSuite) (t : RatchetTree) : Res Bool :=
  verifyParentHashesLoop P cs t 0 t

/-- The inner loop of `verify_integrity`, `rmls/src/ratchet_tree/mod.rs:463-480`: from an unmerged leaf up
to the parent `p` that lists it.  34 rounds of fuel are enough, as in `directPathLoop`. -/
def unmergedWalk (t : RatchetTree) (n p : Nat) (li : LeafIndex) : Nat → Nat → Res Unit
  | 0, _ => .fault .hang
  | fuel + 1, x => do
    match ← NumLeaves.parent n x with
    | none => .err .UnmergedLeafIsNotDescendantOfTheParentNode
    | some y =>
      if y = p then pure ()
      else match t.get y with
        | some (.Parent q) =>
          if has_unmerged_leaf q li = false then .err .NonBlankIntermediateNodeMissingUnmergedLeaf
          else unmergedWalk t n p li fuel y
        | _ => unmergedWalk t n p li fuel y

/-- The loop over the unmerged leaves, `rmls/src/ratchet_tree/mod.rs:461-481`. -/
def unmergedLoop (t : RatchetTree) (n p : Nat) : List LeafIndex → Res Unit
  | [] => .ok ()
  | li :: ls => do
    let x ← LeafIndex.node_index li.toNat
    unmergedWalk t n p li 34 x
    unmergedLoop t n p ls

/-- The loop over the parents, `rmls/src/ratchet_tree/mod.rs:458-488`. -/
def parentLoop (t : RatchetTree) (n : Nat) : Nat → List (Option Node) → List HPKEPublicKey → Res Unit
  | _, [], _ => .ok ()
  | i, some (.Parent p) :: ns, encryption_keys => do
    unmergedLoop t n (cast32 i) p.unmerged_leaves
    if encryption_keys.contains p.encryption_key then .err .DuplicateEncryptionKeyInRatchetTree
    else parentLoop t n (i + 1) ns (p.encryption_key :: encryption_keys)
  | i, _ :: ns, encryption_keys => parentLoop t n (i + 1) ns encryption_keys

/-- The loop over the leaves, `rmls/src/ratchet_tree/mod.rs:438-456`. -/
def verifyLeaves (P : CryptoProvider) (t : RatchetTree) (ctx : GroupContext) (now : Int)
    (supported_creds : List CredentialType) : Res (List SignaturePublicKey × List HPKEPublicKey) :=
  forLeaves t
    (fun (s : List SignaturePublicKey × List HPKEPublicKey) li n => do
      n.verify P {
        cipher_suite := ctx.cipher_suite, group_id := ctx.group_id, leaf_index := UInt32.ofNat li,
        supported_creds, signature_keys := s.1, encryption_keys := s.2, now }
      pure (n.payload.signature_key :: s.1, n.payload.encryption_key :: s.2))
    (List.range t.num_leaves) ([], [])

/-- `RatchetTree::verify_integrity`, `rmls/src/ratchet_tree/mod.rs:414-491`.  The clock is assumed to return
the same time on every call. -/
def verify_integrity (P : CryptoProvider) (t : RatchetTree) (ctx : GroupContext) (now : Int) : Res Unit := do
  let h ← compute_root_tree_hash P ctx.cipher_suite t
  if h ≠ ctx.tree_hash then .err .TreeHashVerificationFailed
  else do
    let good ← verify_parent_hashes P ctx.cipher_suite t
    if good = false then .err .ParentHashesVerificationFailed
    else do
      let creds ← t.supported_creds
      let (_, encryption_keys) ← verifyLeaves P t ctx now creds
      parentLoop t t.num_leaves 0 t encryption_keys

/-- The loop of `find_leaf`, `rmls/src/ratchet_tree/mod.rs:711-725`. -/
def findLeafLoop (t : RatchetTree) (node : LeafNode) : List Nat → Res (Option Nat)
  | [] => .ok none
  | li :: ls => do
    match ← t.get_leaf li with
    | some n =>
      if n.payload.encryption_key ≠ node.payload.encryption_key then findLeafLoop t node ls
      else
        match node.serialize, n.serialize with
        | .ok raw1, .ok raw2 => pure (if raw1 = raw2 then some li else none)
        | .fault f, _ => .fault f
        | _, .fault f => .fault f
        | _, _ => pure none
    | none => findLeafLoop t node ls

/-- `RatchetTree::find_leaf`, `rmls/src/ratchet_tree/mod.rs:710-727`; `(_, false)` is `none`. -/
def find_leaf (t : RatchetTree) (node : LeafNode) : Res (Option Nat) :=
  findLeafLoop t node (List.range t.num_leaves)

/-- `loop { let (p, ok) = num_leaves.parent(x); if !ok { break; } body(x, p); x = p; }`: the loop shape of
`add`, `update`, `remove` and `filtered_direct_path`.  34 rounds of fuel are enough, as in
`directPathLoop`. -/
def walkUp {σ : Type} (n : Nat) (body : σ → Nat → Nat → Res σ) : Nat → Nat → σ → Res σ
  | 0, _, _ => .fault .hang
  | fuel + 1, x, s => do
    match ← NumLeaves.parent n x with
    | none => pure s
    | some p => do
      let s' ← body s x p
      walkUp n body fuel p s'

/-- The search loop of `add`, `rmls/src/ratchet_tree/mod.rs:734-744`: the leaf index reached, and whether
it is blank and inside the array. -/
def addSearch (t : RatchetTree) : Nat → Nat → Res (Nat × Bool)
  | 0, _ => .fault .hang
  | fuel + 1, li => do
    let ni ← LeafIndex.node_index li
    if t.length ≤ ni then pure (li, false)
    else if (t.get ni).isNone then pure (li, true)
    else do
      let li' ← add32 li 1
      addSearch t fuel li'

/-- `parent_node.unmerged_leaves.push(li)`, `rmls/src/ratchet_tree/mod.rs:761-763`. -/
def pushUnmerged (li : LeafIndex) (t : RatchetTree) (p : Nat) : RatchetTree :=
  match t.get p with
  | some (.Parent q) => t.set p (some (.Parent { q with unmerged_leaves := q.unmerged_leaves ++ [li] }))
  | _ => t

/-- `RatchetTree::add`, `rmls/src/ratchet_tree/mod.rs:730-767`.  The search ends after at most one round
per slot. -/
def add (t : RatchetTree) (leaf_node : LeafNode) : Res RatchetTree := do
  let (li, found) ← addSearch t (t.length + 1) 0
  let ni ← if found then LeafIndex.node_index li else add32 (cast32 t.length) 1
  let t := if found then t else t ++ List.replicate ((t.length + 1) * 2 - 1 - t.length) none
  let t ← walkUp t.num_leaves (fun t _ p => .ok (pushUnmerged (UInt32.ofNat li) t p)) 34 ni t
  pure (t.set ni (some (.Leaf leaf_node)))

/-- `RatchetTree::update`, `rmls/src/ratchet_tree/mod.rs:770-784`. -/
def update (t : RatchetTree) (li : Nat) (leaf_node : LeafNode) : Res RatchetTree := do
  let ni ← LeafIndex.node_index li
  let t := t.set ni (some (.Leaf leaf_node))
  walkUp t.num_leaves (fun t _ p => .ok (t.set p none)) 34 ni t

/-- The second loop of `remove`, `rmls/src/ratchet_tree/mod.rs:803-818`; `none`: the tree is cleared. -/
def removeScan (t : RatchetTree) : Nat → Nat → Res (Option Nat)
  | 0, last => do
    let ni ← LeafIndex.node_index 0
    if (t.get ni).isSome then pure (some last) else pure none
  | li + 1, last => do
    let ni ← LeafIndex.node_index (li + 1)
    if (t.get ni).isSome then pure (some last)
    else removeScan t li (if is_power_of_two ni then ni else last)

/-- `RatchetTree::remove`, `rmls/src/ratchet_tree/mod.rs:787-823`.  The first loop blanks a node before it
asks for the parent; blanking the leaf first and then every parent is the same. -/
def remove (t : RatchetTree) (li : Nat) : Res RatchetTree := do
  let ni ← LeafIndex.node_index li
  let n := t.num_leaves
  let t ← walkUp n (fun t _ p => .ok (t.set p none)) 34 ni (t.set ni none)
  let last_li ← sub32 n 1
  match ← removeScan t last_li t.length with
  | none => pure []
  | some last => if last < t.length then pure (t.take last) else pure t

/-- `RatchetTree::filtered_direct_path`, `rmls/src/ratchet_tree/mod.rs:825-848`. -/
def filtered_direct_path (t : RatchetTree) (x : Nat) : Res (List Nat) :=
  walkUp t.num_leaves (fun path x p => do
    match ← NumLeaves.sibling t.num_leaves x with
    | none => .err .InvalidSibling
    | some s => do
      let r ← t.resolve s
      if r.isEmpty = false then pure (path ++ [p]) else pure path) 34 x []

/-- The nodes written by `rmls/src/ratchet_tree/mod.rs:870-879`. -/
def setPath (t : RatchetTree) : List (Nat × UpdatePathNode) → RatchetTree
  | [] => t
  | (ni, n) :: ps =>
    setPath (t.set ni (some (.Parent {
      encryption_key := n.encryption_key, parent_hash := [], unmerged_leaves := [] }))) ps

/-- The parent hash that a round reads and the tree hash of the sibling, `rmls/src/ratchet_tree/mod.rs:886-911`. -/
def pathHashes (P : CryptoProvider) (cs : CipherSuite) (t : RatchetTree) (sender_node_index : Nat)
    (direct_path : List Nat) (ni : Nat) (prev : Option Bytes) : Res (Option Bytes × Bytes) :=
  match t.get ni with
  | some (.Parent _) => do
    match ← NodeIndex.children ni with
    | none => .err .InvalidChildren
    | some (l, r) => do
      let s := if l = sender_node_index ∨ direct_path.contains l = true then r else l
      let tree_hash ← compute_tree_hash P cs t s []
      pure (prev, tree_hash)
  | _ => pure (none, [])

/-- The loop from the root down, `rmls/src/ratchet_tree/mod.rs:883-927`, on the remaining nodes, topmost
first; the result has the last parent hash computed.  `prev_parent_hash` is emptied by `take` only if the
node is a parent, in which case it is assigned again. -/
def pathLoop (P : CryptoProvider) (cs : CipherSuite) (sender_node_index : Nat) (direct_path : List Nat) :
    List Nat → Option Bytes → RatchetTree → RatchetTree × Res (Option Bytes)
  | [], prev, t => (t, .ok prev)
  | ni :: nis, prev, t =>
    match pathHashes P cs t sender_node_index direct_path ni prev with
    | .err e => (t, .err e)
    | .fault f => (t, .fault f)
    | .ok (node_parent_hash, tree_hash) =>
      match t.get ni with
      | some (.Parent p) =>
        let p' := { p with parent_hash := node_parent_hash.getD [] }
        let t' := t.set ni (some (.Parent p'))
        match p'.compute_parent_hash P cs tree_hash with
        | .err e => (t', .err e)
        | .fault f => (t', .fault f)
        | .ok h => pathLoop P cs sender_node_index direct_path nis (some h) t'
      | _ => pathLoop P cs sender_node_index direct_path nis prev t

/-- `RatchetTree::merge_update_path`, `rmls/src/ratchet_tree/mod.rs:851-942`. -/
def merge_update_path (P : CryptoProvider) (cs : CipherSuite) (t : RatchetTree) (sender_leaf_index : Nat)
    (path : UpdatePath) : RatchetTree × Res Unit :=
  match LeafIndex.node_index sender_leaf_index with
  | .err e => (t, .err e)
  | .fault f => (t, .fault f)
  | .ok sender_node_index =>
  match NumLeaves.direct_path t.num_leaves sender_node_index with
  | .err e => (t, .err e)
  | .fault f => (t, .fault f)
  | .ok direct_path =>
  let t := direct_path.foldl (fun t ni => t.set ni none) t
  match t.filtered_direct_path sender_node_index with
  | .err e => (t, .err e)
  | .fault f => (t, .fault f)
  | .ok filtered =>
  if filtered.length ≠ path.nodes.length then
    (t, .err .UpdatePathAndFilteredDirectPathHasDifferentNode)
  else
  let t := t.setPath (filtered.zip path.nodes)
  match pathLoop P cs sender_node_index direct_path filtered.reverse none t with
  | (t, .err e) => (t, .err e)
  | (t, .fault f) => (t, .fault f)
  | (t, .ok prev_parent_hash) =>
  match path.leaf_node.payload.leaf_node_source, prev_parent_hash with
  | .Commit parent_hash, some h =>
    if parent_hash ≠ h then (t, .err .ParentHashMismatchForUpdatePathLeafNode)
    else (t.set sender_node_index (some (.Leaf path.leaf_node)), .ok ())
  | _, _ => (t, .err .ParentHashMismatchForUpdatePathLeafNode)

/-- The update loop of `apply`, `rmls/src/ratchet_tree/mod.rs:947-951`; `senders[i]` panics out of range. -/
def applyUpdates (senders : List LeafIndex) : Nat → List Proposal → RatchetTree → Res RatchetTree
  | _, [], t => .ok t
  | i, .Update u :: ps, t =>
    match senders[i]? with
    | none => .fault .panic
    | some s => do
      let t ← t.update s.toNat u.leaf_node
      applyUpdates senders (i + 1) ps t
  | i, _ :: ps, t => applyUpdates senders (i + 1) ps t

/-- The remove loop of `apply`, `rmls/src/ratchet_tree/mod.rs:954-958`. -/
def applyRemoves : List Proposal → RatchetTree → Res RatchetTree
  | [], t => .ok t
  | .Remove r :: ps, t => do
    let t ← t.remove r.removed.toNat
    applyRemoves ps t
  | _ :: ps, t => applyRemoves ps t

/-- The add loop of `apply`, `rmls/src/ratchet_tree/mod.rs:961-965`. -/
def applyAdds : List Proposal → RatchetTree → Res RatchetTree
  | [], t => .ok t
  | .Add a :: ps, t => do
    let t ← t.add a.key_package.payload.leaf_node
    applyAdds ps t
  | _ :: ps, t => applyAdds ps t

/-- `RatchetTree::apply`, `rmls/src/ratchet_tree/mod.rs:945-966`. -/
def apply (t : RatchetTree) (proposals : List Proposal) (senders : List LeafIndex) : Res RatchetTree := do
  let t ← applyUpdates senders 0 proposals t
  let t ← applyRemoves proposals t
  applyAdds proposals t

end RatchetTree
end Rmls
