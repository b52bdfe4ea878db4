import Verif.Model.Receiver
/-
The checks of the conformance tests: what `rmls/src/**/*_test.rs` does with the test vectors of the MLS working group
that come with the repository.  A vector is a structure, one field for each field of the file; fields of hexadecimal
digits are the bytes.  It is a test, so what is wrong is a panic (`assert!`).  Not modelled: reading the files, and the
output.
-/
namespace Rmls
namespace Vectors
open PassiveClient (assert assertOk)
open MessageProtection (seek ratchetRoot)

/-- `for (i, want) in list.iter().enumerate() { body }`, as in `rmls/src/ratchet_tree/ratchet_tree_test.rs:40-44`. -/
def forEnum {α : Type} (body : Nat → α → Res Unit) : Nat → List α → Res Unit
  | _, [] => .ok ()
  | i, x :: xs => do
    body i x
    forEnum body (i + 1) xs

/-- `for tc in tests { if crypto_provider.supports(cipher_suite) { test(..)?; } }`, as in
`rmls/src/ratchet_tree/ratchet_tree_test.rs:79-93`; the same in `secret_tree_test.rs`, `crypto_test.rs`,
`key_schedule_test.rs` and `group_test.rs`. -/
def forSupported {α : Type} (P : CryptoProvider) (suite : α → UInt16) (test : CipherSuite → α → Res Unit) :
    List α → Res Unit
  | [] => .ok ()
  | tc :: tests => do
    if P.supports (CipherSuite.ofU16 (suite tc)) then test (CipherSuite.ofU16 (suite tc)) tc else pure ()
    forSupported P suite test tests

/-! ### tree_math_test.rs -/

/-- `TreeMathTest`, `rmls/src/utilities/tree_math/tree_math_test.rs:7-16`. -/
structure TreeMath where
  n_leaves : Nat
  n_nodes : Nat
  root : Nat
  left : List (Option Nat)
  right : List (Option Nat)
  parent : List (Option Nat)
  sibling : List (Option Nat)

/-- `assert!(optional_node_index_equal(new_optional_node_index(..), *want))`,
`rmls/src/utilities/tree_math/tree_math_test.rs:26-35,76-91`. -/
def indexIs (f : Nat → Res (Option Nat)) (i : Nat) (want : Option Nat) : Res Unit := do
  let got ← f (cast32 i)
  assert (got = want)

/-- `tree_math_test`, `rmls/src/utilities/tree_math/tree_math_test.rs:18-74`. -/
def tree_math_test (tc : TreeMath) : Res Unit := do
  let n := tc.n_leaves
  let w ← NumLeaves.width n
  assert (w = tc.n_nodes)
  let r ← NumLeaves.root n
  assert (r = tc.root)
  forEnum (indexIs NodeIndex.left) 0 tc.left
  forEnum (indexIs NodeIndex.right) 0 tc.right
  forEnum (indexIs (NumLeaves.parent n)) 0 tc.parent
  forEnum (indexIs (NumLeaves.sibling n)) 0 tc.sibling

/-! ### ratchet_tree_test.rs -/

/-- `TreeValidationTest`, `rmls/src/ratchet_tree/ratchet_tree_test.rs:21-31`. -/
structure TreeValidation where
  cipher_suite : UInt16
  tree : Bytes
  group_id : Bytes
  resolutions : List (List Nat)
  tree_hashes : List Bytes

/-- One round of the loop `rmls/src/ratchet_tree/ratchet_tree_test.rs:59-74`. -/
def leafSigned (P : CryptoProvider) (cs : CipherSuite) (group_id : Bytes) (i : Nat) : Option Node → Res Unit
  | some (.Leaf leaf_node) =>
    match NodeIndex.leaf_index (cast32 i) with
    | none => .fault .panic
    | some leaf_index => do
      let good ← leaf_node.verify_signature P cs (.UpdateOrCommit group_id (UInt32.ofNat leaf_index))
      assert good
  | _ => .ok ()

/-- `tree_validation_test`, `rmls/src/ratchet_tree/ratchet_tree_test.rs:33-77`. -/
def tree_validation_test (P : CryptoProvider) (cs : CipherSuite) (tc : TreeValidation) : Res Unit := do
  let tree ← deserialize_exact RatchetTree.deserialize tc.tree
  forEnum (fun i want => do
    let res ← tree.resolve (cast32 i)
    assert (res = want)) 0 tc.resolutions
  forEnum (fun i want => do
    let h ← tree.compute_tree_hash P cs (cast32 i) []
    assert (h = want)) 0 tc.tree_hashes
  let good ← tree.verify_parent_hashes P cs
  assert good
  forEnum (leafSigned P cs tc.group_id) 0 tree

/-- `PathSecretTest` and `LeafPrivateTest`, `rmls/src/ratchet_tree/ratchet_tree_test.rs:107-122`. -/
structure LeafPrivate where
  index : UInt32
  encryption_priv : Bytes
  signature_priv : Bytes
  path_secrets : List (UInt32 × Bytes)

/-- `PathTest`, `rmls/src/ratchet_tree/ratchet_tree_test.rs:124-134`; the strings of `path_secrets` are the bytes they
stand for. -/
structure Path where
  sender : UInt32
  update_path : Bytes
  path_secrets : List (Option Bytes)
  commit_secret : Bytes
  tree_hash_after : Bytes

/-- `TreeKEMTest`, `rmls/src/ratchet_tree/ratchet_tree_test.rs:136-151`. -/
structure TreeKEM where
  cipher_suite : UInt16
  group_id : Bytes
  epoch : UInt64
  confirmed_transcript_hash : Bytes
  ratchet_tree : Bytes
  leaves_private : List LeafPrivate
  update_paths : List Path

/-- `tree_kem_test`, `rmls/src/ratchet_tree/ratchet_tree_test.rs:153-182`. -/
def tree_kem_test (P : CryptoProvider) (cs : CipherSuite) (tc : TreeKEM) : Res Unit :=
  forEnum (fun _ (p : Path) => do
    let tree ← deserialize_exact RatchetTree.deserialize tc.ratchet_tree
    let up ← deserialize_exact UpdatePath.deserialize p.update_path
    let (tree, merged) := tree.merge_update_path P cs p.sender.toNat up
    merged
    let tree_hash ← tree.compute_root_tree_hash P cs
    assert (tree_hash = p.tree_hash_after)) 0 tc.update_paths

/-- `TreeOperationsTest`, `rmls/src/ratchet_tree/ratchet_tree_test.rs:212-227`. -/
structure TreeOperations where
  cipher_suite : UInt16
  tree_before : Bytes
  proposal : Bytes
  proposal_sender : UInt32
  tree_after : Bytes
  tree_hash_after : Bytes
  tree_hash_before : Bytes

/-- The `match` on the proposal, `rmls/src/ratchet_tree/ratchet_tree_test.rs:241-276`.  `UNIX_EPOCH` is 0. -/
def operate (P : CryptoProvider) (cs : CipherSuite) (sender : UInt32) (tree : RatchetTree) : Proposal → Res RatchetTree
  | .Add a => do
    a.key_package.verify P
      { version := a.key_package.payload.version, cipher_suite := a.key_package.payload.cipher_suite, group_id := [],
        epoch := 0, tree_hash := [], confirmed_transcript_hash := [], extensions := [] }
    tree.add a.key_package.payload.leaf_node
  | .Update u => do
    let (signature_keys, encryption_keys) ← tree.keys
    let supported_creds ← tree.supported_creds
    u.leaf_node.verify P
      { cipher_suite := cs, group_id := [], leaf_index := sender, supported_creds, signature_keys, encryption_keys,
        now := 0 }
    tree.update sender.toNat u.leaf_node
  | .Remove r => do
    let leaf ← tree.get_leaf r.removed.toNat
    assert leaf.isSome
    tree.remove r.removed.toNat
  | _ => .fault .panic

/-- `tree_operations_test`, `rmls/src/ratchet_tree/ratchet_tree_test.rs:229-285`. -/
def tree_operations_test (P : CryptoProvider) (cs : CipherSuite) (tc : TreeOperations) : Res Unit := do
  let tree ← deserialize_exact RatchetTree.deserialize tc.tree_before
  let tree_hash ← tree.compute_root_tree_hash P cs
  assert (tree_hash = tc.tree_hash_before)
  let prop ← deserialize_exact Proposal.deserialize tc.proposal
  let tree ← operate P cs tc.proposal_sender tree prop
  let raw_tree ← RatchetTree.serialize tree
  assert (raw_tree = tc.tree_after)
  let tree_hash ← tree.compute_root_tree_hash P cs
  assert (tree_hash = tc.tree_hash_after)

/-! ### secret_tree_test.rs -/

/-- `Leaf`, `rmls/src/secret_tree/secret_tree_test.rs:24-35`. -/
structure Generation where
  generation : UInt32
  handshake_key : Bytes
  handshake_nonce : Bytes
  application_key : Bytes
  application_nonce : Bytes

/-- `SenderData` and `SecretTreeTest`, `rmls/src/secret_tree/secret_tree_test.rs:12-22,37-45`. -/
structure SecretTrees where
  cipher_suite : UInt16
  sender_data_secret : Bytes
  ciphertext : Bytes
  key : Bytes
  nonce : Bytes
  encryption_secret : Bytes
  leaves : List (List Generation)

/-- The key and nonce wanted, `rmls/src/secret_tree/secret_tree_test.rs:116-119`. -/
def Generation.want (g : Generation) : RatchetLabel → Bytes × Bytes
  | .Handshake => (g.handshake_key, g.handshake_nonce)
  | .Application => (g.application_key, g.application_nonce)

/-- The loop of `test_ratchet_secret`, `rmls/src/secret_tree/secret_tree_test.rs:109-128`.  The inner loop is the one of
`Verif.Model.Receiver`; there are no more generations than rounds. -/
def ratchetLoop (P : CryptoProvider) (cs : CipherSuite) (label : RatchetLabel) :
    List Generation → RatchetSecret → Res Unit
  | [], _ => .ok ()
  | gen :: gens, secret => do
    assert (!(gen.generation < secret.generation))
    let secret ← seek P cs gen.generation 4294967296 secret
    let key ← secret.derive_key P cs
    assert (key = (gen.want label).1)
    let nonce ← secret.derive_nonce P cs
    assert (nonce = (gen.want label).2)
    ratchetLoop P cs label gens secret

/-- `test_ratchet_secret`, `rmls/src/secret_tree/secret_tree_test.rs:98-129`. -/
def test_ratchet_secret (P : CryptoProvider) (cs : CipherSuite) (tree : SecretTree) (li : Nat) (label : RatchetLabel)
    (gens : List Generation) : Res Unit := do
  let ni ← LeafIndex.node_index li
  let secret ← tree.derive_ratchet_root P cs ni label
  ratchetLoop P cs label gens secret

/-- `secret_tree_test`, `rmls/src/secret_tree/secret_tree_test.rs:46-96`. -/
def secret_tree_test (P : CryptoProvider) (cs : CipherSuite) (tc : SecretTrees) : Res Unit := do
  let key ← expand_sender_data_key P cs tc.sender_data_secret tc.ciphertext
  assert (key = tc.key)
  let nonce ← expand_sender_data_nonce P cs tc.sender_data_secret tc.ciphertext
  assert (nonce = tc.nonce)
  let tree ← SecretTree.new P cs (cast32 tc.leaves.length) tc.encryption_secret
  forEnum (fun i gens => do
    test_ratchet_secret P cs tree (cast32 i) .Handshake gens
    test_ratchet_secret P cs tree (cast32 i) .Application gens) 0 tc.leaves

/-! ### crypto_test.rs -/

/-- `CryptoBasicsTest` and the six structures in it, `rmls/src/crypto/crypto_test.rs:12-30`
and `:42-52,70-77,89-98,117-128,171-186`. -/
structure CryptoBasics where
  cipher_suite : UInt16
  ref_hash_label : Bytes
  ref_hash_value : Bytes
  ref_hash_out : Bytes
  expand_secret : Bytes
  expand_label : Bytes
  expand_context : Bytes
  expand_length : UInt16
  expand_out : Bytes
  derive_label : Bytes
  derive_secret : Bytes
  derive_out : Bytes
  tree_secret : Bytes
  tree_label : Bytes
  tree_generation : UInt32
  tree_length : UInt16
  tree_out : Bytes
  sign_priv : Bytes
  sign_pub : Bytes
  sign_content : Bytes
  sign_label : Bytes
  sign_signature : Bytes
  encrypt_priv : Bytes
  encrypt_pub : Bytes
  encrypt_label : Bytes
  encrypt_context : Bytes
  encrypt_plaintext : Bytes
  encrypt_kem_output : Bytes
  encrypt_ciphertext : Bytes

/-- `test_ref_hash`, `rmls/src/crypto/crypto_test.rs:32-40`. -/
def test_ref_hash (P : CryptoProvider) (cs : CipherSuite) (tc : CryptoBasics) : Res Unit := do
  let out ← P.ref_hash cs tc.ref_hash_label tc.ref_hash_value
  assert (out = tc.ref_hash_out)

/-- `test_expand_with_label`, `rmls/src/crypto/crypto_test.rs:54-68`. -/
def test_expand_with_label (P : CryptoProvider) (cs : CipherSuite) (tc : CryptoBasics) : Res Unit := do
  let out ← P.expand_with_label cs tc.expand_secret tc.expand_label tc.expand_context tc.expand_length
  assert (out = tc.expand_out)

/-- `test_derive_secret`, `rmls/src/crypto/crypto_test.rs:79-87`. -/
def test_derive_secret (P : CryptoProvider) (cs : CipherSuite) (tc : CryptoBasics) : Res Unit := do
  let out ← P.derive_secret cs tc.derive_secret tc.derive_label
  assert (out = tc.derive_out)

/-- `test_derive_tree_secret`, `rmls/src/crypto/crypto_test.rs:100-115`. -/
def test_derive_tree_secret (P : CryptoProvider) (cs : CipherSuite) (tc : CryptoBasics) : Res Unit := do
  let out ← derive_tree_secret P cs tc.tree_secret tc.tree_label tc.tree_generation tc.tree_length
  assert (out = tc.tree_out)

/-- `test_sign_with_label`, `rmls/src/crypto/crypto_test.rs:130-169`. -/
def test_sign_with_label (P : CryptoProvider) (cs : CipherSuite) (tc : CryptoBasics) : Res Unit := do
  assertOk (P.verify_with_label cs tc.sign_pub tc.sign_label tc.sign_content tc.sign_signature)
  let out ← P.sign_with_label cs tc.sign_priv tc.sign_label tc.sign_content
  assertOk (P.verify_with_label cs tc.sign_pub tc.sign_label tc.sign_content out)

/-- `test_encrypt_with_label`, `rmls/src/crypto/crypto_test.rs:188-223`; `rnd` is what the encryption draws. -/
def test_encrypt_with_label (P : CryptoProvider) (rnd : Bytes) (cs : CipherSuite) (tc : CryptoBasics) : Res Unit := do
  let plaintext ← P.decrypt_with_label cs tc.encrypt_priv tc.encrypt_label tc.encrypt_context tc.encrypt_kem_output
    tc.encrypt_ciphertext
  assert (plaintext = tc.encrypt_plaintext)
  let (kem_output, ciphertext) ← P.encrypt_with_label rnd cs tc.encrypt_pub tc.encrypt_label tc.encrypt_context
    tc.encrypt_plaintext
  let plaintext ← P.decrypt_with_label cs tc.encrypt_priv tc.encrypt_label tc.encrypt_context kem_output ciphertext
  assert (plaintext = tc.encrypt_plaintext)

/-- The body of the loop of `test_crypto_basics_with_crypto_provider`, `rmls/src/crypto/crypto_test.rs:233-245`. -/
def crypto_basics_test (P : CryptoProvider) (rnd : Bytes) (cs : CipherSuite) (tc : CryptoBasics) : Res Unit := do
  test_ref_hash P cs tc
  test_expand_with_label P cs tc
  test_derive_secret P cs tc
  test_derive_tree_secret P cs tc
  test_sign_with_label P cs tc
  test_encrypt_with_label P rnd cs tc

/-! ### provider_test.rs -/

/-- `PLAINTEXT`, `rmls/src/crypto/provider/provider_test.rs:3`. -/
def PLAINTEXT : Bytes := ascii "38a6b327573639d654b5b729336cf74d01728cf4fa9af81a0ef1814ffc1d492f"

/-- The loop of `test_signature_key_pair_with_crypto_provider`, `rmls/src/crypto/provider/provider_test.rs:5-21`, over a
list of suite numbers; `rnd` is what the key generation draws. -/
def signature_key_pair_test (P : CryptoProvider) (rnd : Bytes) : List UInt16 → Res Unit
  | [] => .ok ()
  | c :: cs => do
    if P.supports (CipherSuite.ofU16 c) then do
      let signature ← P.signature (CipherSuite.ofU16 c)
      let key_pair ← signature.signature_key_pair rnd
      let out ← signature.sign key_pair.private_key PLAINTEXT
      assertOk (signature.verify key_pair.public_key PLAINTEXT out)
    else pure ()
    signature_key_pair_test P rnd cs

/-! ### key_schedule_test.rs -/

/-- `PSKTest`, `rmls/src/key_schedule/key_schedule_test.rs:12-20`. -/
structure PskEntry where
  psk_id : Bytes
  psk : Bytes
  psk_nonce : Bytes

/-- `PskSecretTest`, `rmls/src/key_schedule/key_schedule_test.rs:22-28`. -/
structure PskSecret where
  cipher_suite : UInt16
  psks : List PskEntry
  psk_secret : Bytes

/-- `psk_secret_test`, `rmls/src/key_schedule/key_schedule_test.rs:30-51`. -/
def psk_secret_test (P : CryptoProvider) (cs : CipherSuite) (tc : PskSecret) : Res Unit := do
  let psk_ids := tc.psks.map fun p => { psk := .External p.psk_id, psk_nonce := p.psk_nonce }
  let psks := tc.psks.map (·.psk)
  let psk_secret ← extract_psk_secret P cs psk_ids psks
  assert (psk_secret = tc.psk_secret)

/-- `Exporter`, `rmls/src/key_schedule/key_schedule_test.rs:81-90`. -/
structure Exporter where
  label : Bytes
  context : Bytes
  length : UInt32
  secret : Bytes

/-- `Epoch`, `rmls/src/key_schedule/key_schedule_test.rs:92-133`. -/
structure Epoch where
  tree_hash : Bytes
  commit_secret : Bytes
  psk_secret : Bytes
  confirmed_transcript_hash : Bytes
  group_context : Bytes
  joiner_secret : Bytes
  welcome_secret : Bytes
  init_secret : Bytes
  sender_data_secret : Bytes
  encryption_secret : Bytes
  exporter_secret : Bytes
  epoch_authenticator : Bytes
  external_secret : Bytes
  confirmation_key : Bytes
  membership_key : Bytes
  resumption_psk : Bytes
  external_pub : Bytes
  exporter : Exporter

/-- `KeyScheduleTest`, `rmls/src/key_schedule/key_schedule_test.rs:135-143`. -/
structure KeySchedule where
  cipher_suite : UInt16
  group_id : Bytes
  initial_init_secret : Bytes
  epochs : List Epoch

/-- The inner loop `rmls/src/key_schedule/key_schedule_test.rs:196-199`. -/
def secretsAre (P : CryptoProvider) (cs : CipherSuite) (epoch_secret : Bytes) : List (Bytes × Bytes) → Res Unit
  | [] => .ok ()
  | (label, want) :: rest => do
    let sec ← P.derive_secret cs epoch_secret label
    assert (sec = want)
    secretsAre P cs epoch_secret rest

/-- The loop of `key_schedule_test`, `rmls/src/key_schedule/key_schedule_test.rs:151-202`. -/
def epochLoop (P : CryptoProvider) (cs : CipherSuite) (group_id : Bytes) : Nat → Bytes → List Epoch → Res Unit
  | _, _, [] => .ok ()
  | i, init_secret, epoch :: epochs => do
    let ctx : GroupContext :=
      { version := .MLS10, cipher_suite := cs, group_id, epoch := UInt64.ofNat i, tree_hash := epoch.tree_hash,
        confirmed_transcript_hash := epoch.confirmed_transcript_hash, extensions := [] }
    let raw_ctx ← ctx.serialize
    assert (raw_ctx = epoch.group_context)
    let joiner_secret ← ctx.extract_joiner_secret P init_secret epoch.commit_secret
    assert (joiner_secret = epoch.joiner_secret)
    let welcome_secret ← extract_welcome_secret P cs joiner_secret epoch.psk_secret
    assert (welcome_secret = epoch.welcome_secret)
    let epoch_secret ← ctx.extract_epoch_secret P joiner_secret epoch.psk_secret
    let init_secret ← P.derive_secret cs epoch_secret SECRET_LABEL_INIT
    assert (init_secret = epoch.init_secret)
    secretsAre P cs epoch_secret
      [(SECRET_LABEL_SENDER_DATA, epoch.sender_data_secret), (SECRET_LABEL_ENCRYPTION, epoch.encryption_secret),
       (SECRET_LABEL_EXPORTER, epoch.exporter_secret), (SECRET_LABEL_EXTERNAL, epoch.external_secret),
       (SECRET_LABEL_CONFIRM, epoch.confirmation_key), (SECRET_LABEL_MEMBERSHIP, epoch.membership_key),
       (SECRET_LABEL_RESUMPTION, epoch.resumption_psk)]
    epochLoop P cs group_id (i + 1) init_secret epochs

/-- `key_schedule_test`, `rmls/src/key_schedule/key_schedule_test.rs:145-205`. -/
def key_schedule_test (P : CryptoProvider) (cs : CipherSuite) (tc : KeySchedule) : Res Unit :=
  epochLoop P cs tc.group_id 0 tc.initial_init_secret tc.epochs

/-- `TranscriptHashesTest`, `rmls/src/key_schedule/key_schedule_test.rs:235-250`. -/
structure TranscriptHashes where
  cipher_suite : UInt16
  confirmation_key : Bytes
  authenticated_content : Bytes
  interim_transcript_hash_before : Bytes
  confirmed_transcript_hash_after : Bytes
  interim_transcript_hash_after : Bytes

/-- `transcript_hashes_test`, `rmls/src/key_schedule/key_schedule_test.rs:252-299`. -/
def transcript_hashes_test (P : CryptoProvider) (cs : CipherSuite) (tc : TranscriptHashes) : Res Unit := do
  let auth_content ← deserialize_exact AuthenticatedContent.deserialize tc.authenticated_content
  match auth_content.content.content with
  | .Commit _ => pure ()
  | _ => .fault .panic
  assertOk (auth_content.auth.verify_confirmation_tag P cs tc.confirmation_key tc.confirmed_transcript_hash_after)
  let confirmed ← auth_content.confirmed_transcript_hash_input.hash P cs tc.interim_transcript_hash_before
  assert (confirmed = tc.confirmed_transcript_hash_after)
  let interim ← next_interim_transcript_hash P cs confirmed auth_content.auth.confirmation_tag
  assert (interim = tc.interim_transcript_hash_after)

/-! ### framing_test.rs -/

/-- `MessagesTest`, `rmls/src/framing/framing_test.rs:8-48`. -/
structure Messages where
  mls_welcome : Bytes
  mls_group_info : Bytes
  mls_key_package : Bytes
  ratchet_tree : Bytes
  group_secrets : Bytes
  add_proposal : Bytes
  update_proposal : Bytes
  remove_proposal : Bytes
  pre_shared_key_proposal : Bytes
  re_init_proposal : Bytes
  external_init_proposal : Bytes
  group_context_extensions_proposal : Bytes
  commit : Bytes
  public_message_application : Bytes
  public_message_proposal : Bytes
  public_message_commit : Bytes
  private_message : Bytes

/-- `let my = T::deserialize_exact(&raw)?.serialize_detached()?; assert_eq!(&raw, my.as_ref())`, as in
`rmls/src/framing/framing_test.rs:54-55`. -/
def again {α : Type} (read : De α) (write : α → Res Bytes) (raw : Bytes) : Res Unit := do
  let x ← deserialize_exact read raw
  let my ← write x
  assert (raw = my)

/-- `messages_test`, `rmls/src/framing/framing_test.rs:52-134`. -/
def messages_test (tc : Messages) : Res Unit := do
  again MLSMessage.deserialize MLSMessage.serialize tc.mls_welcome
  again MLSMessage.deserialize MLSMessage.serialize tc.mls_group_info
  again MLSMessage.deserialize MLSMessage.serialize tc.mls_key_package
  again RatchetTree.deserialize RatchetTree.serialize tc.ratchet_tree
  again GroupSecrets.deserialize GroupSecrets.serialize tc.group_secrets
  again AddProposal.deserialize AddProposal.serialize tc.add_proposal
  again UpdateProposal.deserialize UpdateProposal.serialize tc.update_proposal
  again RemoveProposal.deserialize RemoveProposal.serialize tc.remove_proposal
  again PreSharedKeyProposal.deserialize PreSharedKeyProposal.serialize tc.pre_shared_key_proposal
  again Commit.deserialize Commit.serialize tc.commit
  again MLSMessage.deserialize MLSMessage.serialize tc.public_message_application
  again MLSMessage.deserialize MLSMessage.serialize tc.public_message_proposal
  again MLSMessage.deserialize MLSMessage.serialize tc.public_message_commit
  again MLSMessage.deserialize MLSMessage.serialize tc.private_message

/-! ### group_test.rs -/

/-- `MessageProtectionTest`, `rmls/src/group/group_test.rs:101-143`. -/
structure Protection where
  cipher_suite : UInt16
  group_id : Bytes
  epoch : UInt64
  tree_hash : Bytes
  confirmed_transcript_hash : Bytes
  signature_priv : Bytes
  signature_pub : Bytes
  encryption_secret : Bytes
  sender_data_secret : Bytes
  membership_key : Bytes
  proposal : Bytes
  proposal_pub : Bytes
  proposal_priv : Bytes
  commit : Bytes
  commit_pub : Bytes
  commit_priv : Bytes
  application : Bytes
  application_priv : Bytes

/-- The context of `message_protection_test`, `rmls/src/group/group_test.rs:316-324`. -/
def Protection.context (cs : CipherSuite) (tc : Protection) : GroupContext :=
  { version := .MLS10, cipher_suite := cs, group_id := tc.group_id, epoch := tc.epoch, tree_hash := tc.tree_hash,
    confirmed_transcript_hash := tc.confirmed_transcript_hash, extensions := [] }

/-- The bytes compared, `rmls/src/group/group_test.rs:192-196` and `:301-305`. -/
def rawContent : Content → Res Bytes
  | .Application b => .ok b
  | .Proposal p => p.serialize
  | .Commit c => c.serialize

/-- `verify_public_message`, `rmls/src/group/group_test.rs:176-200`. -/
def checkPublic (P : CryptoProvider) (cs : CipherSuite) (tc : Protection) (want : Bytes) (m : PublicMessage) :
    Res Unit := do
  MessageProtection.verify_public_message P cs (tc.context cs) tc.signature_pub tc.membership_key m
  let raw ← rawContent m.content.content
  assert (raw = want)

/-- `test_message_protection_pub`, `rmls/src/group/group_test.rs:145-174`. -/
def test_message_protection_pub (P : CryptoProvider) (cs : CipherSuite) (tc : Protection) (want raw : Bytes) :
    Res Unit := do
  let msg ← deserialize_exact MLSMessage.deserialize raw
  match msg.wire_message with
  | .PublicMessage m => do
    checkPublic P cs tc want m
    let m' ← MessageProtection.sendPublic P cs (tc.context cs) tc.signature_priv tc.membership_key m.content
    checkPublic P cs tc want m'
  | _ => .fault .panic

/-- `decrypt_private_message`, `rmls/src/group/group_test.rs:273-309`; of what was decrypted, the content is returned. -/
def checkPrivate (P : CryptoProvider) (cs : CipherSuite) (tc : Protection) (secret : RatchetSecret) (want : Bytes)
    (m : PrivateMessage) : Res Content := do
  let (_, ac) ← MessageProtection.decrypt_private_message P cs (tc.context cs) tc.signature_pub tc.sender_data_secret
    secret m
  let raw ← rawContent ac.content.content
  assert (raw = want)
  pure ac.content.content

/-- `test_message_protection_priv`, `rmls/src/group/group_test.rs:202-271`; `rnd` are the bytes of the reuse guard. -/
def test_message_protection_priv (P : CryptoProvider) (rnd : Bytes) (cs : CipherSuite) (tc : Protection)
    (want raw : Bytes) : Res Unit := do
  let msg ← deserialize_exact MLSMessage.deserialize raw
  match msg.wire_message with
  | .PrivateMessage m => do
    let secret ← ratchetRoot P cs 2 tc.encryption_secret 1 m.content_type
    let content ← checkPrivate P cs tc secret want m
    let m' ← PrivateMessage.new P cs tc.signature_priv secret tc.sender_data_secret
      { group_id := tc.group_id, epoch := tc.epoch, sender := .Member 1, authenticated_data := [], content }
      (SenderData.new rnd 1 0) (tc.context cs)
    let _ ← checkPrivate P cs tc secret want m'
    pure ()
  | _ => .fault .panic

/-- `message_protection_test`, `rmls/src/group/group_test.rs:311-355`. -/
def message_protection_test (P : CryptoProvider) (rnd : Bytes) (cs : CipherSuite) (tc : Protection) : Res Unit := do
  if tc.proposal_pub.isEmpty then pure () else test_message_protection_pub P cs tc tc.proposal tc.proposal_pub
  test_message_protection_priv P rnd cs tc tc.proposal tc.proposal_priv
  if tc.commit_pub.isEmpty then pure () else test_message_protection_pub P cs tc tc.commit tc.commit_pub
  test_message_protection_priv P rnd cs tc tc.commit tc.commit_priv
  test_message_protection_priv P rnd cs tc tc.application tc.application_priv

end Vectors
end Rmls
