import Verif.Model.Client
/-
The functions that use hash sets and hash maps once more, now with the tables of the standard library as parameters in place of
lists: `rmls/src/ratchet_tree/mod.rs`, `rmls/src/ratchet_tree/leaf_node.rs`, `rmls/src/framing/proposal.rs` and
`rmls/src/utilities/serde/serde_test.rs`.

A table of the standard library hashes with a seed that is drawn anew for each table; the order in which its entries are visited
depends on it.  `Spec/Tables.lean` says what is assumed of the tables, `Props/Tables.lean` that the results are those of the
functions of the same names without tables.
-/
namespace Rmls

/-- `std::collections::HashSet<α>`: the operations that the source uses. -/
structure SetImpl (α : Type) where
  σ : Type
  new : σ
  insert : σ → α → σ
  remove : σ → α → σ
  contains : σ → α → Bool
  is_empty : σ → Bool

/-- `std::collections::HashMap<κ, ν>`: the operations that the source uses; `entries` is what `for` visits, in this order. -/
structure MapImpl (κ ν : Type) where
  σ : Type
  new : σ
  get : σ → κ → Option ν
  insert : σ → κ → ν → σ
  entries : σ → List (κ × ν)

/-- The tables, one for each type of entries. -/
structure Tables where
  creds : SetImpl CredentialType
  keys : SetImpl Bytes
  exts : SetImpl ExtensionType
  leaves : SetImpl LeafIndex
  counts : MapImpl CredentialType Nat

namespace Tabled
open RatchetTree PassiveClient

/-- `for x in xs { s.insert(x) }`. -/
def insertAll {α : Type} (S : SetImpl α) (xs : List α) : S.σ := xs.foldl S.insert S.new

variable (T : Tables)

/-- `rmls/src/ratchet_tree/mod.rs:373-377`. -/
def bumpCred (m : T.counts.σ) (ct : CredentialType) : T.counts.σ :=
  match T.counts.get m ct with
  | some count => T.counts.insert m ct (count + 1)
  | none => T.counts.insert m ct 1

/-- `RatchetTree::supported_creds`, `rmls/src/ratchet_tree/mod.rs:366-390`. -/
def supported_creds (t : RatchetTree) : Res T.creds.σ := do
  let (num_members, supported_creds_count) ← forLeaves t
    (fun (s : Nat × T.counts.σ) _ n => .ok (s.1 + 1, n.payload.capabilities.credentials.foldl (bumpCred T) s.2))
    (List.range t.num_leaves) (0, T.counts.new)
  pure ((T.counts.entries supported_creds_count).foldl
    (fun supported_creds c => if c.2 = num_members then T.creds.insert supported_creds c.1 else supported_creds) T.creds.new)

/-- `RatchetTree::keys`, `rmls/src/ratchet_tree/mod.rs:393-405`. -/
def keys (t : RatchetTree) : Res (T.keys.σ × T.keys.σ) :=
  forLeaves t
    (fun (s : T.keys.σ × T.keys.σ) _ n =>
      .ok (T.keys.insert s.1 n.payload.signature_key, T.keys.insert s.2 n.payload.encryption_key))
    (List.range t.num_leaves) (T.keys.new, T.keys.new)

/-- The extension loop of `LeafNode::verify`, `rmls/src/ratchet_tree/leaf_node.rs:502-510`. -/
def checkExtensions (supported_exts : T.exts.σ) : Extensions → Res Unit
  | [] => .ok ()
  | e :: es =>
    if T.exts.contains supported_exts e.extension_type = false then
      .err (.ExtensionTypeUsedByLeafNodeNotSupportedByThatLeafNode e.extension_type.toU16)
    else checkExtensions supported_exts es

/-- `LeafNode::verify`, `rmls/src/ratchet_tree/leaf_node.rs:466-523`; the fields of `LeafNodeVerifyOptions` are arguments. -/
def verifyLeaf (P : CryptoProvider) (x : LeafNode) (cipher_suite : CipherSuite) (group_id : GroupID) (leaf_index : LeafIndex)
    (supported_creds : T.creds.σ) (signature_keys encryption_keys : T.keys.σ) (now : Int) : Res Unit := do
  let good ← x.verify_signature P cipher_suite (.UpdateOrCommit group_id leaf_index)
  if good = false then .err .LeafNodeSignatureVerificationFailed
  else if T.creds.contains supported_creds x.payload.credential.credential_type = false then
    .err (.CredentialTypeUsedByLeafNodeNotSupportedByAllMembers x.payload.credential.credential_type.toU16)
  else do
    LeafNode.checkLifetime x.payload.leaf_node_source now
    checkExtensions T (insertAll T.exts x.payload.capabilities.extensions) x.payload.extensions
    if T.keys.contains signature_keys x.payload.signature_key then .err .DuplicateSignatureKeyInRatchetTree
    else if T.keys.contains encryption_keys x.payload.encryption_key then
      .err .DuplicateEncryptionKeyInRatchetTree
    else pure ()

/-- The node put into the hash of an inner node, `rmls/src/ratchet_tree/mod.rs:556-577`. -/
def hashParent (n : Option Node) (exclude : T.leaves.σ) : Res (Option ParentNode) :=
  match n with
  | some (.Parent p) =>
    if p.unmerged_leaves.isEmpty = false ∧ T.leaves.is_empty exclude = false then
      .ok (some { p with unmerged_leaves := p.unmerged_leaves.filter fun li => !T.leaves.contains exclude li })
    else .ok (some p)
  | some (.Leaf _) => .err .InvalidParentNode
  | none => .ok none

/-- `RatchetTree::compute_tree_hash`, `rmls/src/ratchet_tree/mod.rs:518-590`. -/
def treeHashFuel (P : CryptoProvider) (cs : CipherSuite) (t : RatchetTree) (exclude : T.leaves.σ) : Nat → Nat → Res Bytes
  | 0, _ => .fault .hang
  | fuel + 1, x =>
    match NodeIndex.leaf_index x with
    | some li => do
      let l ← hashLeaf (t.get x) (T.leaves.contains exclude (UInt32.ofNat li))
      let input ← serialize_leaf_node_hash_input (UInt32.ofNat li) l
      let h ← P.hash cs
      pure (h.digest input)
    | none => do
      match ← NodeIndex.children x with
      | none => .err .InvalidChildren
      | some (left, right) => do
        let left_hash ← treeHashFuel P cs t exclude fuel left
        let right_hash ← treeHashFuel P cs t exclude fuel right
        let p ← hashParent T (t.get x) exclude
        let input ← serialize_parent_node_hash_input p left_hash right_hash
        let h ← P.hash cs
        pure (h.digest input)

@[inherit_doc treeHashFuel]
def compute_tree_hash (P : CryptoProvider) (cs : CipherSuite) (t : RatchetTree) (x : Nat) (exclude : T.leaves.σ) : Res Bytes :=
  treeHashFuel T P cs t exclude 33 x

/-- `RatchetTree::compute_root_tree_hash`, `rmls/src/ratchet_tree/mod.rs:504-515`. -/
def compute_root_tree_hash (P : CryptoProvider) (cs : CipherSuite) (t : RatchetTree) : Res Bytes := do
  let r ← NumLeaves.root t.num_leaves
  compute_tree_hash T P cs t r T.leaves.new

/-- One round of the loop of `verify_parent_hashes`, `rmls/src/ratchet_tree/mod.rs:628-682`. -/
def verifyParentHash (P : CryptoProvider) (cs : CipherSuite) (t : RatchetTree) (i : Nat) : Option Node → Res Bool
  | none => .ok true
  | some n => do
    match ← NodeIndex.children (cast32 i) with
    | none => pure true
    | some (l, r) =>
      match n with
      | .Leaf _ => pure true
      | .Parent p =>
        let exclude := insertAll T.leaves p.unmerged_leaves
        orFalse (compute_tree_hash T P cs t l exclude) fun left_tree_hash =>
        orFalse (compute_tree_hash T P cs t r exclude) fun right_tree_hash =>
        orFalse (p.compute_parent_hash P cs right_tree_hash) fun left_parent_hash =>
        orFalse (p.compute_parent_hash P cs left_tree_hash) fun right_parent_hash => do
          let rl ← t.resolve l
          let rr ← t.resolve r
          pure (find_parent_hash t left_parent_hash rl != find_parent_hash t right_parent_hash rr)

/-- The loop of `verify_parent_hashes`, `rmls/src/ratchet_tree/mod.rs:627-683`. -/
def verifyParentHashesLoop (P : CryptoProvider) (cs : CipherSuite) (t : RatchetTree) : Nat → List (Option Node) → Res Bool
  | _, [] => .ok true
  | i, n :: ns => do
    let good ← verifyParentHash T P cs t i n
    if good then verifyParentHashesLoop P cs t (i + 1) ns else pure false

/-- `RatchetTree::verify_parent_hashes`, `rmls/src/ratchet_tree/mod.rs:622-685`. -/
def verify_parent_hashes (P : CryptoProvider) (cs : CipherSuite) (t : RatchetTree) : Res Bool :=
  verifyParentHashesLoop T P cs t 0 t

/-- The loop over the parents, `rmls/src/ratchet_tree/mod.rs:458-488`. -/
def parentLoop (t : RatchetTree) (n : Nat) : Nat → List (Option Node) → T.keys.σ → Res Unit
  | _, [], _ => .ok ()
  | i, some (.Parent p) :: ns, encryption_keys => do
    unmergedLoop t n (cast32 i) p.unmerged_leaves
    if T.keys.contains encryption_keys p.encryption_key then .err .DuplicateEncryptionKeyInRatchetTree
    else parentLoop t n (i + 1) ns (T.keys.insert encryption_keys p.encryption_key)
  | i, _ :: ns, encryption_keys => parentLoop t n (i + 1) ns encryption_keys

/-- The loop over the leaves, `rmls/src/ratchet_tree/mod.rs:438-456`. -/
def verifyLeaves (P : CryptoProvider) (t : RatchetTree) (ctx : GroupContext) (now : Int) (supported_creds : T.creds.σ) :
    Res (T.keys.σ × T.keys.σ) :=
  forLeaves t
    (fun (s : T.keys.σ × T.keys.σ) li n => do
      verifyLeaf T P n ctx.cipher_suite ctx.group_id (UInt32.ofNat li) supported_creds s.1 s.2 now
      pure (T.keys.insert s.1 n.payload.signature_key, T.keys.insert s.2 n.payload.encryption_key))
    (List.range t.num_leaves) (T.keys.new, T.keys.new)

/-- `RatchetTree::verify_integrity`, `rmls/src/ratchet_tree/mod.rs:414-491`. -/
def verify_integrity (P : CryptoProvider) (t : RatchetTree) (ctx : GroupContext) (now : Int) : Res Unit := do
  let h ← compute_root_tree_hash T P ctx.cipher_suite t
  if h ≠ ctx.tree_hash then .err .TreeHashVerificationFailed
  else do
    let good ← verify_parent_hashes T P ctx.cipher_suite t
    if good = false then .err .ParentHashesVerificationFailed
    else do
      let creds ← supported_creds T t
      let (_, encryption_keys) ← verifyLeaves T P t ctx now creds
      parentLoop T t t.num_leaves 0 t encryption_keys

/-- The sets of `verify_proposal_list`, `rmls/src/framing/proposal.rs:445-450`. -/
structure Sets where
  add_proposals : T.keys.σ
  update_or_remove_proposals : T.leaves.σ
  psk_proposals : T.keys.σ
  group_context_extensions : Bool

/-- One round of the loop of `verify_proposal_list`, `rmls/src/framing/proposal.rs:452-509`. -/
def verifyProposal (total : Nat) (committer : LeafIndex) (s : Sets T) (prop : Proposal) (sender : LeafIndex) : Res (Sets T) :=
  match prop with
  | .Add p =>
    let key := p.key_package.payload.leaf_node.payload.signature_key
    if T.keys.contains s.add_proposals key then .err .MultipleAddProposalsHaveTheSameSignatureKey
    else .ok { s with add_proposals := T.keys.insert s.add_proposals key }
  | .Update _ =>
    if sender = committer then .err .UpdateProposalGeneratedByTheCommitter
    else if T.leaves.contains s.update_or_remove_proposals sender then
      .err .MultipleUpdateRemoveProposalsApplyToTheSameLeaf
    else .ok { s with update_or_remove_proposals := T.leaves.insert s.update_or_remove_proposals sender }
  | .Remove p =>
    if p.removed = committer then .err .RemoveProposalRemovesTheCommitter
    else if T.leaves.contains s.update_or_remove_proposals p.removed then
      .err .MultipleUpdateRemoveProposalsApplyToTheSameLeaf
    else .ok { s with update_or_remove_proposals := T.leaves.insert s.update_or_remove_proposals p.removed }
  | .PreSharedKey p => do
    let psk ← p.psk.serialize
    if T.keys.contains s.psk_proposals psk then .err .MultiplePSKProposalsReferenceTheSamePSKId
    else pure { s with psk_proposals := T.keys.insert s.psk_proposals psk }
  | .GroupContextExtensions _ =>
    if s.group_context_extensions then .err .MultipleGroupContextExtensionsProposals
    else .ok { s with group_context_extensions := true }
  | .ReInit _ => if total > 1 then .err .ReinitProposalTogetherWithAnyOtherProposal else .ok s
  | .ExternalInit _ => .err .ExternalInitProposalNotAllowed

/-- The loop of `verify_proposal_list`, `rmls/src/framing/proposal.rs:451-510`. -/
def verifyProposals (total : Nat) (committer : LeafIndex) : Sets T → List (Proposal × LeafIndex) → Res Unit
  | _, [] => .ok ()
  | s, (prop, sender) :: ps => do
    let s ← verifyProposal T total committer s prop sender
    verifyProposals total committer s ps

/-- `verify_proposal_list`, `rmls/src/framing/proposal.rs:436-512`. -/
def verify_proposal_list (proposals : List Proposal) (senders : List LeafIndex) (committer : LeafIndex) : Res Unit :=
  if proposals.length ≠ senders.length then .err .ProposalsLenNotMatchSendersLen
  else verifyProposals T proposals.length committer ⟨T.keys.new, T.leaves.new, T.keys.new, false⟩ (proposals.zip senders)

/-- The checks of the update path, `rmls/src/utilities/serde/serde_test.rs:268-301`. -/
def checkPath (P : CryptoProvider) (cipher_suite : CipherSuite) (ctx : GroupContext) (tree : RatchetTree)
    (sender : LeafIndex) (sender_node : LeafNode) (path : UpdatePath) : Res Unit := do
  match path.leaf_node.payload.leaf_node_source with
  | .Commit _ =>
    let (signature_keys, encryption_keys) ← keys T tree
    let creds ← supported_creds T tree
    assertOk (verifyLeaf T P path.leaf_node cipher_suite ctx.group_id sender creds
      (T.keys.remove signature_keys sender_node.payload.signature_key) encryption_keys 0)
    assert (path.nodes.all fun n => !T.keys.contains encryption_keys n.encryption_key)
  | _ => .fault .panic

/-- The tree hash in `merge_update_path`, `rmls/src/ratchet_tree/mod.rs:886-911`. -/
def pathHashes (P : CryptoProvider) (cs : CipherSuite) (t : RatchetTree) (sender_node_index : Nat)
    (direct_path : List Nat) (ni : Nat) (prev : Option Bytes) : Res (Option Bytes × Bytes) :=
  match t.get ni with
  | some (.Parent _) => do
    match ← NodeIndex.children ni with
    | none => .err .InvalidChildren
    | some (l, r) => do
      let s := if l = sender_node_index ∨ direct_path.contains l = true then r else l
      let tree_hash ← compute_tree_hash T P cs t s T.leaves.new
      pure (prev, tree_hash)
  | _ => pure (none, [])

/-- The loop from the root down, `rmls/src/ratchet_tree/mod.rs:883-927`. -/
def pathLoop (P : CryptoProvider) (cs : CipherSuite) (sender_node_index : Nat) (direct_path : List Nat) :
    List Nat → Option Bytes → RatchetTree → RatchetTree × Res (Option Bytes)
  | [], prev, t => (t, .ok prev)
  | ni :: nis, prev, t =>
    match pathHashes T P cs t sender_node_index direct_path ni prev with
    | .err e => (t, .err e)
    | .fault f => (t, .fault f)
    | .ok (node_parent_hash, tree_hash) =>
      match t.get ni with
      | some (.Parent p) =>
        let p' := { p with parent_hash := node_parent_hash.getD [] }
        let t' := t.set ni (some (.Parent p'))
        match p'.compute_parent_hash P cs tree_hash with
        | .err e => (t', .err e)
        | .fault f => (t', .fault f)
        | .ok h => pathLoop P cs sender_node_index direct_path nis (some h) t'
      | _ => pathLoop P cs sender_node_index direct_path nis prev t

/-- `RatchetTree::merge_update_path`, `rmls/src/ratchet_tree/mod.rs:851-942`. -/
def merge_update_path (P : CryptoProvider) (cs : CipherSuite) (t : RatchetTree) (sender_leaf_index : Nat)
    (path : UpdatePath) : RatchetTree × Res Unit :=
  match LeafIndex.node_index sender_leaf_index with
  | .err e => (t, .err e)
  | .fault f => (t, .fault f)
  | .ok sender_node_index =>
  match NumLeaves.direct_path t.num_leaves sender_node_index with
  | .err e => (t, .err e)
  | .fault f => (t, .fault f)
  | .ok direct_path =>
  let t := direct_path.foldl (fun t ni => t.set ni none) t
  match t.filtered_direct_path sender_node_index with
  | .err e => (t, .err e)
  | .fault f => (t, .fault f)
  | .ok filtered =>
  if filtered.length ≠ path.nodes.length then
    (t, .err .UpdatePathAndFilteredDirectPathHasDifferentNode)
  else
  let t := t.setPath (filtered.zip path.nodes)
  match pathLoop T P cs sender_node_index direct_path filtered.reverse none t with
  | (t, .err e) => (t, .err e)
  | (t, .fault f) => (t, .fault f)
  | (t, .ok prev_parent_hash) =>
  match path.leaf_node.payload.leaf_node_source, prev_parent_hash with
  | .Commit parent_hash, some h =>
    if parent_hash ≠ h then (t, .err .ParentHashMismatchForUpdatePathLeafNode)
    else (t.set sender_node_index (some (.Leaf path.leaf_node)), .ok ())
  | _, _ => (t, .err .ParentHashMismatchForUpdatePathLeafNode)

/-- Joining with a welcome, `rmls/src/utilities/serde/serde_test.rs:104-175`. -/
def join (P : CryptoProvider) (cipher_suite : CipherSuite) (welcome : Welcome) (key_pkg : KeyPackage)
    (init_priv : Bytes) (external : List (Bytes × Bytes)) (given : Option Bytes) : Res State := do
  let key_pkg_ref ← key_pkg.generate_ref P
  let group_secrets ← welcome.decrypt_group_secrets P key_pkg_ref init_priv
  assert group_secrets.verify_single_reinit_or_branch_psk
  let psks ← findPsks external group_secrets.psk_ids
  let psk_secret ← extract_psk_secret P cipher_suite group_secrets.psk_ids psks
  let group_info ← welcome.decrypt_group_info P group_secrets.joiner_secret psk_secret
  let raw_tree ← rawTree given group_info
  let tree ← deserialize_exact RatchetTree.deserialize raw_tree
  match ← tree.get_leaf group_info.signer.toNat with
  | none => .err .Other
  | some signer_node =>
    assertOk (group_info.verify_signature P signer_node.payload.signature_key)
    assertOk (group_info.verify_confirmation_tag P group_secrets.joiner_secret psk_secret)
    assert (decide (group_info.group_context.cipher_suite = key_pkg.payload.cipher_suite))
    verify_integrity T P tree group_info.group_context 0
    match ← tree.find_leaf key_pkg.payload.leaf_node with
    | none => .fault .panic
    | some leaf =>
      let epoch_secret ← group_info.group_context.extract_epoch_secret P group_secrets.joiner_secret psk_secret
      pure ⟨group_secrets, psk_secret, group_info, tree, leaf, epoch_secret⟩

/-- Handling a commit, `rmls/src/utilities/serde/serde_test.rs:183-307`. -/
def handleCommit (P : CryptoProvider) (cipher_suite : CipherSuite) (s : State) (pub_msg : PublicMessage) :
    Res (RatchetTree × RatchetTree) := do
  assert (decide (pub_msg.content.epoch = s.group_info.group_context.epoch))
  match pub_msg.content.sender with
  | .Member sender =>
    match ← s.tree.get_leaf sender.toNat with
    | none => .err .Other
    | some sender_node =>
      assertOk (pub_msg.authenticated_content.verify_signature P cipher_suite sender_node.payload.signature_key
        s.group_info.group_context)
      let membership_key ← P.derive_secret cipher_suite s.epoch_secret SECRET_LABEL_MEMBERSHIP
      assertOk (pub_msg.verify_membership_tag P cipher_suite membership_key s.group_info.group_context)
      match pub_msg.content.content with
      | .Commit commit =>
        let proposals ← byValue commit.proposals
        let senders := List.replicate proposals.length sender
        assertOk (verify_proposal_list T proposals senders sender)
        assert (noPsk proposals)
        let new_tree ← s.tree.apply proposals senders
        assert (!(proposal_list_needs_path proposals && commit.path.isNone))
        match commit.path with
        | none => pure (new_tree, s.tree)
        | some path =>
          checkPath T P cipher_suite s.group_info.group_context s.tree sender sender_node path
          let (tree, r) := merge_update_path T P cipher_suite s.tree sender.toNat path
          match r with
          | .ok () => pure (new_tree, tree)
          | .err e => .err e
          | .fault f => .fault f
      | _ => .fault .panic
  | _ => .err .Other

/-- The first round of the loop, `rmls/src/utilities/serde/serde_test.rs:183-307`. -/
def firstEpoch (P : CryptoProvider) (cipher_suite : CipherSuite) (s : State) :
    List Bytes → Res (Option (RatchetTree × RatchetTree))
  | [] => .ok none
  | commit :: _ => do
    let msg ← deserialize_message commit .PublicMessage
    match msg.wire_message with
    | .PublicMessage pub_msg =>
      let r ← handleCommit T P cipher_suite s pub_msg
      pure (some r)
    | _ => .err .Other

/-- `passive_client_test`, `rmls/src/utilities/serde/serde_test.rs:66-310`. -/
def passive_client_test (P : CryptoProvider) (rnd rnd' : Bytes) (cipher_suite : CipherSuite) (tc : Input) :
    Res (State × Option (RatchetTree × RatchetTree)) := do
  let msg ← deserialize_message tc.welcome .Welcome
  match msg.wire_message with
  | .Welcome welcome =>
    let msg ← deserialize_message tc.key_package .KeyPackage
    match msg.wire_message with
    | .KeyPackage key_pkg =>
      check_encryption_key_pair P rnd cipher_suite key_pkg.payload.init_key tc.init_priv
      check_encryption_key_pair P rnd' cipher_suite key_pkg.payload.leaf_node.payload.encryption_key tc.encryption_priv
      check_signature_key_pair P cipher_suite key_pkg.payload.leaf_node.payload.signature_key tc.signature_priv
      let s ← join T P cipher_suite welcome key_pkg tc.init_priv tc.external_psks tc.ratchet_tree
      let epoch_authenticator ← authenticator P cipher_suite s
      assert (decide (epoch_authenticator = tc.initial_epoch_authenticator))
      let r ← firstEpoch T P cipher_suite s tc.epochs
      pure (s, r)
    | _ => .err .Other
  | _ => .err .Other

end Tabled
end Rmls
