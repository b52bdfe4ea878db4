import Verif.Model.RatchetTree
import Verif.Model.Welcome
import Verif.Model.Framing
import Verif.Model.Proposal
import Verif.Model.KeyPackage
/-
The passive client of `rmls/src/utilities/serde/serde_test.rs`: the one place in the repository in which the functions
of the library are put together to join a group and to handle a commit.  It is a test, so what is wrong is a panic
(`assert!`).
-/
namespace Rmls
namespace PassiveClient

/-- `assert!(c)`. -/
def assert (c : Bool) : Res Unit := if c then .ok () else .fault .panic

/-- `assert!(r.is_ok())`. -/
def assertOk (r : Res Unit) : Res Unit := do
  let good ← r.isOk
  assert good

/-- The inner loop `rmls/src/utilities/serde/serde_test.rs:115-121`; without a match, line 122 panics. -/
def findPsk (id : Bytes) : List (Bytes × Bytes) → Res Bytes
  | [] => .fault .panic
  | (i, psk) :: rest => if i = id then .ok psk else findPsk id rest

/-- The loop `rmls/src/utilities/serde/serde_test.rs:111-126`. -/
def findPsks (external : List (Bytes × Bytes)) : List PreSharedKeyID → Res (List Bytes)
  | [] => .ok []
  | id :: ids =>
    match id.psk with
    | .External i => do
      let psk ← findPsk i external
      let psks ← findPsks external ids
      pure (psk :: psks)
    | .Resumption _ => .fault .panic

/-- What the client has after joining. -/
structure State where
  group_secrets : GroupSecrets
  psk_secret : Bytes
  group_info : GroupInfo
  tree : RatchetTree
  leaf : Nat
  epoch_secret : Bytes

/-- `rmls/src/utilities/serde/serde_test.rs:134-141`. -/
def rawTree (given : Option Bytes) (gi : GroupInfo) : Res Bytes :=
  match given with
  | some raw => .ok raw
  | none =>
    match gi.extensions.find_extension_data .RatchetTree with
    | some raw => .ok raw
    | none => .err .Other

/-- Joining with a welcome, `rmls/src/utilities/serde/serde_test.rs:104-175`; `external` are the external PSKs and `given`
is the tree, if it is sent separately. -/
def join (P : CryptoProvider) (cipher_suite : CipherSuite) (welcome : Welcome) (key_pkg : KeyPackage)
    (init_priv : Bytes) (external : List (Bytes × Bytes)) (given : Option Bytes) : Res State := do
  let key_pkg_ref ← key_pkg.generate_ref P
  let group_secrets ← welcome.decrypt_group_secrets P key_pkg_ref init_priv
  assert group_secrets.verify_single_reinit_or_branch_psk
  let psks ← findPsks external group_secrets.psk_ids
  let psk_secret ← extract_psk_secret P cipher_suite group_secrets.psk_ids psks
  let group_info ← welcome.decrypt_group_info P group_secrets.joiner_secret psk_secret
  let raw_tree ← rawTree given group_info
  let tree ← deserialize_exact RatchetTree.deserialize raw_tree
  match ← tree.get_leaf group_info.signer.toNat with
  | none => .err .Other
  | some signer_node =>
    assertOk (group_info.verify_signature P signer_node.payload.signature_key)
    assertOk (group_info.verify_confirmation_tag P group_secrets.joiner_secret psk_secret)
    assert (decide (group_info.group_context.cipher_suite = key_pkg.payload.cipher_suite))
    tree.verify_integrity P group_info.group_context 0
    match ← tree.find_leaf key_pkg.payload.leaf_node with
    | none => .fault .panic
    | some leaf =>
      let epoch_secret ← group_info.group_context.extract_epoch_secret P group_secrets.joiner_secret psk_secret
      pure ⟨group_secrets, psk_secret, group_info, tree, leaf, epoch_secret⟩

/-- The epoch authenticator, `rmls/src/utilities/serde/serde_test.rs:176-177`. -/
def authenticator (P : CryptoProvider) (cipher_suite : CipherSuite) (s : State) : Res Bytes :=
  P.derive_secret cipher_suite s.epoch_secret SECRET_LABEL_AUTHENTICATION

/-- The loop `rmls/src/utilities/serde/serde_test.rs:233-248`: the proposals of a commit, all by value. -/
def byValue : List ProposalOrRef → Res (List Proposal)
  | [] => .ok []
  | .Proposal p :: rest => do
    let ps ← byValue rest
    pure (p :: ps)
  | .Reference _ :: _ => .err .Other

/-- The check `rmls/src/utilities/serde/serde_test.rs:254-258`. -/
def noPsk : List Proposal → Bool
  | [] => true
  | .PreSharedKey _ :: _ => false
  | _ :: rest => noPsk rest

/-- The checks of the update path, `rmls/src/utilities/serde/serde_test.rs:268-301`, against the tree before the
proposals. -/
def checkPath (P : CryptoProvider) (cipher_suite : CipherSuite) (ctx : GroupContext) (tree : RatchetTree)
    (sender : LeafIndex) (sender_node : LeafNode) (path : UpdatePath) : Res Unit := do
  match path.leaf_node.payload.leaf_node_source with
  | .Commit _ =>
    let (signature_keys, encryption_keys) ← tree.keys
    let supported_creds ← tree.supported_creds
    assertOk (path.leaf_node.verify P {
      cipher_suite := cipher_suite, group_id := ctx.group_id, leaf_index := sender, supported_creds := supported_creds
      signature_keys := signature_keys.filter fun k => decide (k ≠ sender_node.payload.signature_key)
      encryption_keys := encryption_keys, now := 0 })
    assert (path.nodes.all fun n => !encryption_keys.contains n.encryption_key)
  | _ => .fault .panic

/-- Handling a commit, `rmls/src/utilities/serde/serde_test.rs:183-307`.  Two trees are returned: the one with the proposals
applied (`new_tree`), and `tree`, into which the path is merged. -/
def handleCommit (P : CryptoProvider) (cipher_suite : CipherSuite) (s : State) (pub_msg : PublicMessage) :
    Res (RatchetTree × RatchetTree) := do
  assert (decide (pub_msg.content.epoch = s.group_info.group_context.epoch))
  match pub_msg.content.sender with
  | .Member sender =>
    match ← s.tree.get_leaf sender.toNat with
    | none => .err .Other
    | some sender_node =>
      assertOk (pub_msg.authenticated_content.verify_signature P cipher_suite sender_node.payload.signature_key
        s.group_info.group_context)
      let membership_key ← P.derive_secret cipher_suite s.epoch_secret SECRET_LABEL_MEMBERSHIP
      assertOk (pub_msg.verify_membership_tag P cipher_suite membership_key s.group_info.group_context)
      match pub_msg.content.content with
      | .Commit commit =>
        let proposals ← byValue commit.proposals
        let senders := List.replicate proposals.length sender
        assertOk (verify_proposal_list proposals senders sender)
        assert (noPsk proposals)
        let new_tree ← s.tree.apply proposals senders
        assert (!(proposal_list_needs_path proposals && commit.path.isNone))
        match commit.path with
        | none => pure (new_tree, s.tree)
        | some path =>
          checkPath P cipher_suite s.group_info.group_context s.tree sender sender_node path
          let (tree, r) := s.tree.merge_update_path P cipher_suite sender.toNat path
          match r with
          | .ok () => pure (new_tree, tree)
          | .err e => .err e
          | .fault f => .fault f
      | _ => .fault .panic
  | _ => .err .Other

/-- `deserialize_message`, `rmls/src/utilities/serde/serde_test.rs:312-316`. -/
def deserialize_message (raw : Bytes) (wf : WireFormat) : Res MLSMessage := do
  let msg ← deserialize_exact MLSMessage.deserialize raw
  assert (decide (msg.wire_message.wire_format = wf))
  pure msg

/-- `check_encryption_key_pair`, `rmls/src/utilities/serde/serde_test.rs:318-342`; `rnd` is the entropy drawn. -/
def check_encryption_key_pair (P : CryptoProvider) (rnd : Bytes) (cipher_suite : CipherSuite)
    (public_key private_key : Bytes) : Res Unit := do
  let (kem_output, ciphertext) ← P.encrypt_with_label rnd cipher_suite public_key (ascii "bar") [] (ascii "foo")
  let plaintext ← P.decrypt_with_label cipher_suite private_key (ascii "bar") [] kem_output ciphertext
  assert (decide (plaintext = ascii "foo"))

/-- `check_signature_key_pair`, `rmls/src/utilities/serde/serde_test.rs:344-360`. -/
def check_signature_key_pair (P : CryptoProvider) (cipher_suite : CipherSuite) (public_key private_key : Bytes) :
    Res Unit := do
  let signature ← P.sign_with_label cipher_suite private_key (ascii "bar") (ascii "foo")
  assertOk (P.verify_with_label cipher_suite public_key (ascii "bar") (ascii "foo") signature)

/-- `PassiveClientTest`, `rmls/src/utilities/serde/serde_test.rs:24-64`: what the client is given.  Of the later epochs only the
commits are used. -/
structure Input where
  external_psks : List (Bytes × Bytes)
  key_package : Bytes
  signature_priv : Bytes
  encryption_priv : Bytes
  init_priv : Bytes
  welcome : Bytes
  ratchet_tree : Option Bytes
  initial_epoch_authenticator : Bytes
  epochs : List Bytes

/-- The first round of the loop `rmls/src/utilities/serde/serde_test.rs:183-307`, which ends with `break`: the message is
read and handled. -/
def firstEpoch (P : CryptoProvider) (cipher_suite : CipherSuite) (s : State) :
    List Bytes → Res (Option (RatchetTree × RatchetTree))
  | [] => .ok none
  | commit :: _ => do
    let msg ← deserialize_message commit .PublicMessage
    match msg.wire_message with
    | .PublicMessage pub_msg =>
      let r ← handleCommit P cipher_suite s pub_msg
      pure (some r)
    | _ => .err .Other

/-- `passive_client_test`, `rmls/src/utilities/serde/serde_test.rs:66-310`, which returns nothing; here the client's state
is returned.  `rnd` and `rnd'` are the entropy drawn in the two checks of encryption keys. -/
def passive_client_test (P : CryptoProvider) (rnd rnd' : Bytes) (cipher_suite : CipherSuite) (tc : Input) :
    Res (State × Option (RatchetTree × RatchetTree)) := do
  let msg ← deserialize_message tc.welcome .Welcome
  match msg.wire_message with
  | .Welcome welcome =>
    let msg ← deserialize_message tc.key_package .KeyPackage
    match msg.wire_message with
    | .KeyPackage key_pkg =>
      check_encryption_key_pair P rnd cipher_suite key_pkg.payload.init_key tc.init_priv
      check_encryption_key_pair P rnd' cipher_suite key_pkg.payload.leaf_node.payload.encryption_key tc.encryption_priv
      check_signature_key_pair P cipher_suite key_pkg.payload.leaf_node.payload.signature_key tc.signature_priv
      let s ← join P cipher_suite welcome key_pkg tc.init_priv tc.external_psks tc.ratchet_tree
      let epoch_authenticator ← authenticator P cipher_suite s
      assert (decide (epoch_authenticator = tc.initial_epoch_authenticator))
      let r ← firstEpoch P cipher_suite s tc.epochs
      pure (s, r)
    | _ => .err .Other
  | _ => .err .Other

end PassiveClient
end Rmls
