import Verif.Exec.Crypto
import Verif.Model.Client
/-
A member that follows a group through all its epochs with the functions of the model.  The repository has no such code
(`rmls/src/utilities/serde/serde_test.rs:305` stops after the first commit, "TODO: apply commit"): this is what an application
has to do with what the library offers.  It serves to run the model on test vectors; no theorem is about it.
-/
namespace Rmls.Exec

/-- What a member keeps. -/
structure Member where
  ctx : GroupContext
  tree : RatchetTree
  leaf : Nat
  /-- private keys by public key -/
  keys : List (Bytes × Bytes)
  interim : Bytes
  epoch_secret : Bytes
  resumption : List (UInt64 × Bytes)

/-- The public encryption key of a node. -/
def encKey (t : RatchetTree) (i : Nat) : Option Bytes :=
  match t.get i with
  | some (.Leaf l) => some l.payload.encryption_key
  | some (.Parent p) => some p.encryption_key
  | none => none

/-- Keys of a path from a path secret on; also the commit secret. -/
def climb (P : CryptoProvider) (cs : CipherSuite) (secret : Bytes) :
    List Bytes → List (Bytes × Bytes) → Res (Bytes × List (Bytes × Bytes))
  | [], acc => .ok (secret, acc)
  | pub :: rest, acc => do
    let node ← P.derive_secret cs secret (ascii "node")
    let hpke ← P.hpke cs
    let kp ← hpke.kem_derive_key_pair node
    if kp.public_key ≠ pub then .err .InvalidLeafNode else
    let next ← P.derive_secret cs secret (ascii "path")
    climb P cs next rest ((pub, kp.private_key) :: acc)

/-- `ok_or`. -/
def orErr {α} : Option α → Res α
  | some a => .ok a
  | none => .err .Other

/-- Own secret of a path: opens the ciphertext meant for this member. -/
def openPath (P : CryptoProvider) (cs : CipherSuite) (ctx : Bytes) (t : RatchetTree) (keys : List (Bytes × Bytes))
    (me sender : Nat) (added : List Nat) (path : UpdatePath) : Res (Bytes × List (Bytes × Bytes)) := do
  let fdp ← t.filtered_direct_path (2 * sender)
  let mine ← NumLeaves.direct_path t.num_leaves (2 * me)
  let both := fdp.zip path.nodes
  let rest := both.dropWhile fun (x, _) => !mine.contains x
  match rest with
  | [] => .err .Other
  | (x, n) :: _ => do
    let (l, r) ← orErr (← NodeIndex.children x)
    let c := if (2 * me :: mine).contains l then l else r
    let res := (← t.resolve c).filter fun y => !added.contains y
    let cands := res.zip n.encrypted_path_secret
    if res.length ≠ n.encrypted_path_secret.length then .err .Other else
    let (sk, ct) ← orErr (cands.findSome? fun (y, ct) => do
      let k ← encKey t y
      let sk ← keys.lookup k
      some (sk, ct))
    let secret ← P.decrypt_with_label cs sk (ascii "UpdatePathNode") ctx ct.kem_output ct.ciphertext
    climb P cs secret (rest.map fun (_, n) => n.encryption_key) keys

/-- Joins with the passive client of `rmls/src/utilities/serde/serde_test.rs:66-178`. -/
def joinMember (P : CryptoProvider) (cs : CipherSuite) (tc : PassiveClient.Input) : Res Member := do
  let (s, _) ← PassiveClient.passive_client_test P [] [] cs { tc with epochs := [] }
  let msg ← PassiveClient.deserialize_message tc.key_package .KeyPackage
  match msg.wire_message with
  | .KeyPackage kp =>
    let interim ← next_interim_transcript_hash P cs s.group_info.group_context.confirmed_transcript_hash
      s.group_info.confirmation_tag
    let keys := [(kp.payload.leaf_node.payload.encryption_key, tc.encryption_priv)]
    let keys ← match s.group_secrets.path_secret with
      | none => Res.ok keys
      | some secret => do
        let fdp ← s.tree.filtered_direct_path (2 * s.group_info.signer.toNat)
        let mine ← NumLeaves.direct_path s.tree.num_leaves (2 * s.leaf)
        let pubs := (fdp.dropWhile fun x => !mine.contains x).filterMap (encKey s.tree)
        let (_, keys) ← climb P cs secret pubs keys
        pure keys
    let res ← P.derive_secret cs s.epoch_secret SECRET_LABEL_RESUMPTION
    pure { ctx := s.group_info.group_context, tree := s.tree, leaf := s.leaf, keys, interim, epoch_secret := s.epoch_secret
           resumption := [(s.group_info.group_context.epoch, res)] }
  | _ => .err .Other

/-- A public message of a member, checked. -/
def receive (P : CryptoProvider) (cs : CipherSuite) (m : Member) (raw : Bytes) : Res PublicMessage := do
  let msg ← PassiveClient.deserialize_message raw .PublicMessage
  match msg.wire_message with
  | .PublicMessage p =>
    match p.content.sender with
    | .Member s =>
      let l ← orErr (← m.tree.get_leaf s.toNat)
      p.authenticated_content.verify_signature P cs l.payload.signature_key m.ctx
      let mk ← P.derive_secret cs m.epoch_secret SECRET_LABEL_MEMBERSHIP
      p.verify_membership_tag P cs mk m.ctx
      pure p
    | _ => .err .InvalidSibling
  | _ => .err .Other

/-- The proposals of a commit and their senders. -/
def proposalsOf (refs : List (Bytes × Proposal × LeafIndex)) (sender : LeafIndex) : List ProposalOrRef →
    Res (List (Proposal × LeafIndex))
  | [] => .ok []
  | .Proposal p :: r => do pure ((p, sender) :: (← proposalsOf refs sender r))
  | .Reference h :: r => do
    let x ← orErr (refs.lookup h)
    pure (x :: (← proposalsOf refs sender r))

/-- The proposals sent in the epoch, by reference (RFC 9420, section 5.2). -/
def refsOf (P : CryptoProvider) (cs : CipherSuite) (m : Member) : List Bytes → Res (List (Bytes × Proposal × LeafIndex))
  | [] => .ok []
  | raw :: r => do
    let p ← receive P cs m raw
    match p.content.content, p.content.sender with
    | .Proposal q, .Member s =>
      let bytes ← p.authenticated_content.serialize
      let h ← P.ref_hash cs (ascii "MLS 1.0 Proposal Reference") bytes
      pure ((h, q, s) :: (← refsOf P cs m r))
    | _, _ => .err .Other

/-- A PSK, external or from an earlier epoch. -/
def pskOf (external : List (Bytes × Bytes)) (m : Member) (id : PreSharedKeyID) : Res Bytes :=
  match id.psk with
  | .External i => orErr (external.lookup i)
  | .Resumption r => orErr (m.resumption.lookup r.psk_epoch)

/-- `RatchetTree::apply` (`rmls/src/ratchet_tree/mod.rs:945-966`) with the defect of `remove` mended: an array of even length
loses its last slot before members are added. -/
def applyMended (t : RatchetTree) (proposals : List Proposal) (senders : List LeafIndex) : Res RatchetTree := do
  let t ← RatchetTree.applyUpdates senders 0 proposals t
  let t ← RatchetTree.applyRemoves proposals t
  RatchetTree.applyAdds proposals (if t.length % 2 = 0 then t.dropLast else t)

/-- One epoch: its proposals and its commit.  Returns the next state and the epoch authenticator. -/
def follow (P : CryptoProvider) (cs : CipherSuite) (mend : Bool) (external : List (Bytes × Bytes)) (m : Member)
    (props : List Bytes) (raw : Bytes) : Res (Member × Bytes) := do
  let refs ← refsOf P cs m props
  let p ← receive P cs m raw
  match p.content.content, p.content.sender with
  | .Commit c, .Member s =>
    let ps ← proposalsOf refs s c.proposals
    verify_proposal_list (ps.map (·.1)) (ps.map (·.2)) s
    let t ← (if mend then applyMended else RatchetTree.apply) m.tree (ps.map (·.1)) (ps.map (·.2))
    let exts := (ps.findSome? fun (q, _) => match q with
      | .GroupContextExtensions g => some g.extensions
      | _ => none).getD m.ctx.extensions
    let hpke ← P.hpke cs
    let epoch := m.ctx.epoch + 1
    let added := (ps.filterMap fun (q, _) => match q with
      | .Add a => some a.key_package.payload.leaf_node
      | _ => none)
    let added := (List.range t.length).filter fun i => match t.get i with
      | some (.Leaf l) => added.contains l
      | _ => false
    let (t, commit_secret, keys) ← match c.path with
      | none => Res.ok (t, List.replicate hpke.kdf_extract_size 0, m.keys)
      | some path =>
        let (t', r) := t.merge_update_path P cs s.toNat path
        match r with
        | .ok () => do
          let hash ← t'.compute_root_tree_hash P cs
          let ctx ← GroupContext.serialize { m.ctx with epoch, tree_hash := hash, extensions := exts }
          let (cs', keys) ← openPath P cs ctx t' m.keys m.leaf s.toNat added path
          pure (t', cs', keys)
        | .err e => .err e
        | .fault f => .fault f
    let hash ← t.compute_root_tree_hash P cs
    let psk_ids := ps.filterMap fun (q, _) => match q with
      | .PreSharedKey p => some p.psk
      | _ => none
    let psks ← psk_ids.mapM (pskOf external m)
    let psk_secret ← extract_psk_secret P cs psk_ids psks
    let cth ← p.authenticated_content.confirmed_transcript_hash_input.hash P cs m.interim
    let ctx := { m.ctx with epoch, tree_hash := hash, extensions := exts, confirmed_transcript_hash := cth }
    let init ← P.derive_secret cs m.epoch_secret SECRET_LABEL_INIT
    let joiner ← ctx.extract_joiner_secret P init commit_secret
    let epoch_secret ← ctx.extract_epoch_secret P joiner psk_secret
    let ck ← P.derive_secret cs epoch_secret SECRET_LABEL_CONFIRM
    p.auth.verify_confirmation_tag P cs ck cth
    let interim ← next_interim_transcript_hash P cs cth p.auth.confirmation_tag
    let auth ← P.derive_secret cs epoch_secret SECRET_LABEL_AUTHENTICATION
    let res ← P.derive_secret cs epoch_secret SECRET_LABEL_RESUMPTION
    t.verify_integrity P ctx 0
    pure ({ m with ctx, tree := t, keys, interim, epoch_secret, resumption := (epoch, res) :: m.resumption }, auth)
  | _, _ => .err .Other

end Rmls.Exec
