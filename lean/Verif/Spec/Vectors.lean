import Verif.Model.Vectors
import Verif.Spec.Tree
import Verif.Spec.Codecs
import Verif.Spec.KeySchedule
import Verif.Spec.Receiver
import Verif.Spec.Integrity
import Verif.Spec.Merge
import Verif.Spec.Public
/-
What a test vector says if it is right: the values in it are those that RFC 9420 gives.
-/
namespace Rmls.Spec
open Enc

/-- The bytes are the encoding of a well-formed value, and nothing else. -/
def IsEncoding {α : Type} (wf : α → Prop) (enc : α → Enc) (raw : Bytes) : Prop :=
  ∃ x, wf x ∧ (enc x).fits ∧ raw = (enc x).bytes

/-- The values given for the indices 0, 1, ... are right. -/
def Listed {α : Type} (right : Nat → α → Prop) (xs : List α) : Prop :=
  ∀ (i : Nat) x, xs[i]? = some x → right i x

/-- Tree math (RFC 9420 appendix C), in coordinates. -/
structure TreeMathRight (tc : Vectors.TreeMath) (K : Nat) : Prop where
  height : IsHeight tc.n_leaves K
  nodes : tc.n_nodes = 2 * tc.n_leaves - 1
  root : tc.root = node K 0
  left : Listed (fun x v => ∀ k i, x = node k i → v = if k = 0 then none else some (node (k - 1) (2 * i))) tc.left
  right : Listed (fun x v => ∀ k i, x = node k i → v = if k = 0 then none else some (node (k - 1) (2 * i + 1))) tc.right
  parent : Listed (fun x v => ∀ k i, x = node k i → v = if k = K then none else some (node (k + 1) (i / 2))) tc.parent
  sibling : Listed (fun x v => ∀ k i, x = node k i →
    v = if k = K then none else some (node k (if i % 2 = 0 then i + 1 else i - 1))) tc.sibling

/-- Messages: every field that is looked at is an encoding. -/
structure MessagesRight (tc : Vectors.Messages) : Prop where
  welcome : IsEncoding MLSMessage.WF mlsMessage tc.mls_welcome
  group_info : IsEncoding MLSMessage.WF mlsMessage tc.mls_group_info
  key_package : IsEncoding MLSMessage.WF mlsMessage tc.mls_key_package
  ratchet_tree : IsEncoding RatchetTree.NodesWF ratchetTree tc.ratchet_tree
  group_secrets : IsEncoding (fun _ => True) groupSecrets tc.group_secrets
  add_proposal : IsEncoding KeyPackage.WF keyPackage tc.add_proposal
  update_proposal : IsEncoding LeafNode.WF leafNode tc.update_proposal
  remove_proposal : IsEncoding (fun _ => True) leafIndex tc.remove_proposal
  pre_shared_key_proposal : IsEncoding (fun _ => True) preSharedKeyID tc.pre_shared_key_proposal
  commit : IsEncoding Commit.WF commit tc.commit
  public_message_application : IsEncoding MLSMessage.WF mlsMessage tc.public_message_application
  public_message_proposal : IsEncoding MLSMessage.WF mlsMessage tc.public_message_proposal
  public_message_commit : IsEncoding MLSMessage.WF mlsMessage tc.public_message_commit
  private_message : IsEncoding MLSMessage.WF mlsMessage tc.private_message

/-- The bytes begin with the encoding of the value. -/
def Reads {α : Type} (wf : α → Prop) (enc : α → Enc) (raw : Bytes) (x : α) : Prop :=
  wf x ∧ (enc x).fits ∧ ∃ rest, raw = (enc x).bytes ++ rest

/-- Crypto basics (RFC 9420 sections 5.1, 5.2, 8 and 9.1); what the provider itself signs and encrypts has to come back. -/
structure CryptoBasicsRight (P : CryptoProvider) (rnd : Bytes) (cs : CipherSuite) (H : Hash) (h : Hpke)
    (tc : Vectors.CryptoBasics) : Prop where
  ref_hash : (refHashInput tc.ref_hash_label tc.ref_hash_value).fits ∧
    tc.ref_hash_out = H.digest (refHashInput tc.ref_hash_label tc.ref_hash_value).bytes
  expand_with_label : Expands h tc.expand_secret tc.expand_label tc.expand_context tc.expand_length.toNat tc.expand_out
  derive_secret : Derives h tc.derive_secret tc.derive_label tc.derive_out
  derive_tree_secret :
    TreeDerives h tc.tree_secret tc.tree_label tc.tree_generation.toNat tc.tree_length.toNat tc.tree_out
  verifies : SignedBy P cs tc.sign_pub tc.sign_label tc.sign_content tc.sign_signature
  signs : ∃ s own, P.signature cs = .ok s ∧ s.sign tc.sign_priv (labelled tc.sign_label tc.sign_content).bytes = .ok own ∧
    SignedBy P cs tc.sign_pub tc.sign_label tc.sign_content own
  info : (labelled tc.encrypt_label tc.encrypt_context).fits
  decrypts : P.hpke_open cs tc.encrypt_priv (labelled tc.encrypt_label tc.encrypt_context).bytes tc.encrypt_kem_output
    tc.encrypt_ciphertext = .ok tc.encrypt_plaintext
  encrypts : ∃ kem cipher, P.hpke_seal cs rnd tc.encrypt_pub (labelled tc.encrypt_label tc.encrypt_context).bytes
      tc.encrypt_plaintext = .ok (kem, cipher) ∧
    P.hpke_open cs tc.encrypt_priv (labelled tc.encrypt_label tc.encrypt_context).bytes kem cipher =
      .ok tc.encrypt_plaintext

/-- PSK secret (section 8.4); the PSKs are external ones. -/
def PskRight (h : Hpke) (tc : Vectors.PskSecret) : Prop :=
  PskFold h tc.psks.length 0 (zeros h.kdf_extract_size)
    (tc.psks.map fun p => (⟨.External p.psk_id, p.psk_nonce⟩, p.psk)) tc.psk_secret

/-- One epoch of the key schedule (section 8), for what is looked at. -/
structure EpochRight (h : Hpke) (ctx : GroupContext) (init : Bytes) (e : Vectors.Epoch) : Prop where
  context : (groupContext ctx).fits ∧ e.group_context = (groupContext ctx).bytes
  joiner : JoinerSecret h ctx init e.commit_secret e.joiner_secret
  welcome : WelcomeSecret h e.joiner_secret e.psk_secret e.welcome_secret
  epoch : ∃ s, EpochSecret h ctx e.joiner_secret e.psk_secret s ∧ Derives h s (text "init") e.init_secret ∧
    Derives h s (text "sender data") e.sender_data_secret ∧ Derives h s (text "encryption") e.encryption_secret ∧
    Derives h s (text "exporter") e.exporter_secret ∧ Derives h s (text "external") e.external_secret ∧
    Derives h s (text "confirm") e.confirmation_key ∧ Derives h s (text "membership") e.membership_key ∧
    Derives h s (text "resumption") e.resumption_psk

/-- The group context of an epoch of a key schedule vector. -/
def epochContext (cs : CipherSuite) (group_id : Bytes) (i : Nat) (e : Vectors.Epoch) : GroupContext :=
  { version := .MLS10, cipher_suite := cs, group_id, epoch := UInt64.ofNat i, tree_hash := e.tree_hash,
    confirmed_transcript_hash := e.confirmed_transcript_hash, extensions := [] }

/-- The epochs of a group, one after the other: the init secret of an epoch goes into the next. -/
def KeyScheduleRight (h : Hpke) (cs : CipherSuite) (tc : Vectors.KeySchedule) : Prop :=
  Listed (fun i e => EpochRight h (epochContext cs tc.group_id i e)
    (match i with
      | 0 => tc.initial_init_secret
      | i + 1 => (tc.epochs[i]?.map (·.init_secret)).getD []) e) tc.epochs

/-- Transcript hashes (section 8.2): a commit, whose confirmation tag is right, takes the one to the other. -/
def TranscriptRight (H : Hash) (tc : Vectors.TranscriptHashes) : Prop :=
  ∃ x before, Reads AuthenticatedContent.WF authenticatedContent tc.authenticated_content x ∧
    x.auth.confirmation_tag ≠ [] ∧ x.auth.confirmation_tag = H.mac tc.confirmation_key tc.confirmed_transcript_hash_after ∧
    Transcript H.digest (before, tc.interim_transcript_hash_before)
      [⟨⟨x.wire_format, x.content, x.auth.signature⟩, x.auth.confirmation_tag⟩]
      (tc.confirmed_transcript_hash_after, tc.interim_transcript_hash_after)

/-- Key and nonce of a generation (section 9.1) of the ratchet of a leaf, for contents of a kind. -/
def GenerationRight (h : Hpke) (es : Bytes) (K li : Nat) (ct : ContentType) (g : Nat) (key nonce : Bytes) : Prop :=
  ∃ s, MessageSecret h es K li ct g s ∧ TreeDerives h s (text "key") g h.aead_key_size key ∧
    TreeDerives h s (text "nonce") g h.aead_nonce_size nonce

/-- Secret tree (sections 6.3.2 and 9): the generations of a leaf come in order. -/
structure SecretTreeRight (h : Hpke) (tc : Vectors.SecretTrees) (K : Nat) : Prop where
  size : tc.leaves.length = 2 ^ K
  sender_data : SenderDataKeys h tc.sender_data_secret tc.ciphertext tc.key tc.nonce
  order : ∀ gens ∈ tc.leaves, (gens.map fun g => g.generation.toNat).Pairwise (· ≤ ·)
  leaves : Listed (fun i gens => ∀ g ∈ gens,
    GenerationRight h tc.encryption_secret K i .Proposal g.generation.toNat g.handshake_key g.handshake_nonce ∧
    GenerationRight h tc.encryption_secret K i .Application g.generation.toNat g.application_key g.application_nonce)
    tc.leaves

/-- Tree validation (sections 4.1, 7.2, 7.8, 7.9): as far as there are resolutions and tree hashes in the vector. -/
structure TreeValidationRight (P : CryptoProvider) (cs : CipherSuite) (H : Bytes → Bytes) (nodes : Nat → Option Node)
    (tc : Vectors.TreeValidation) : Prop where
  resolutions : ∀ k i xs, tc.resolutions[node k i]? = some xs → xs = resolution nodes k i
  tree_hashes : ∀ k i h, tc.tree_hashes[node k i]? = some h → HashDefined H nodes k i ∧ h = treeHash H nodes k i
  parents : ∀ k i p, nodes (node (k + 1) i) = some (.Parent p) → ParentHashValid H nodes k i p
  shape : ∀ k i l, nodes (node (k + 1) i) ≠ some (.Leaf l)
  signed : ∀ i l, nodes (node 0 i) = some (.Leaf l) → LeafSigned P cs l tc.group_id (UInt32.ofNat i)

/-- The tree after an update path of leaf `j` in a tree of height `K` (sections 7.5 and 7.9). -/
structure PathMerged (H : Bytes → Bytes) (K j : Nat) (up : UpdatePath) (nodes nodes' : Nat → Option Node) : Prop where
  count : up.nodes.length = (filteredLevels nodes K j).length
  leaf : nodes' (node 0 j) = some (.Leaf up.leaf_node)
  path : ∀ (i k : Nat), (filteredLevels nodes K j)[i]? = some k → ∃ n ph, up.nodes[i]? = some n ∧
    nodes' (anc j k) = some (.Parent ⟨n.encryption_key, ph, []⟩)
  blank : ∀ k, 1 ≤ k → k ≤ K → k ∉ filteredLevels nodes K j → nodes' (anc j k) = none
  others : ∀ x, ¬ above K j x → x ≠ node 0 j → nodes' x = nodes x
  linked : ∀ a p b q, 1 ≤ a → nodes' (anc j a) = some (.Parent p) → NextUp nodes' K j a b →
    nodes' (anc j b) = some (.Parent q) → p.parent_hash = parentHash H nodes' j b q
  top : ∀ a p, 1 ≤ a → a ≤ K → nodes' (anc j a) = some (.Parent p) →
    (∀ c, a < c → c ≤ K → nodes' (anc j c) = none) → p.parent_hash = []
  source : ∃ b q, NextUp nodes' K j 0 b ∧ nodes' (anc j b) = some (.Parent q) ∧
    up.leaf_node.payload.leaf_node_source = .Commit (parentHash H nodes' j b q)

/-- What a proposal does to a full tree of height `K` (sections 7.7 and 12.1), with the checks on its contents. -/
inductive Operates (P : CryptoProvider) (cs : CipherSuite) (sender : LeafIndex) (K : Nat) (t t' : RatchetTree) :
    Proposal → Prop
  /-- the new member takes the leftmost blank leaf; without one, the tree grows by as much as there is -/
  | add (a : AddProposal) (j K' : Nat) :
      (∃ lt, a.key_package.payload.leaf_node.payload.leaf_node_source = .KeyPackage lt) →
      KeyPackageSigned P a.key_package →
      a.key_package.payload.leaf_node.payload.encryption_key ≠ a.key_package.payload.init_key →
      t[2 * j]?.join = none → (∀ i, i < j → t[2 * i]?.join ≠ none) → K' = (if j < 2 ^ K then K else K + 1) →
      t'.length + 1 = 2 ^ (K' + 1) →
      (∀ x : Nat, t'[x]?.join = if x = 2 * j then some (.Leaf a.key_package.payload.leaf_node)
        else if above K' j x then listed (UInt32.ofNat j) (t[x]?.join) else t[x]?.join) →
      Operates P cs sender K t t' (.Add a)
  /-- the leaf is replaced, and the nodes above are blanked -/
  | update (u : UpdateProposal) :
      LeafValid P u.leaf_node cs [] sender (SupportedCred (fun x => t[x]?.join) (2 ^ K)) 0 →
      (∀ i l, t[2 * i]?.join = some (.Leaf l) → l.payload.signature_key ≠ u.leaf_node.payload.signature_key ∧
        l.payload.encryption_key ≠ u.leaf_node.payload.encryption_key) →
      t'.length = t.length →
      (∀ x : Nat, t'[x]?.join = if x = 2 * sender.toNat then some (.Leaf u.leaf_node)
        else if above K sender.toNat x then none else t[x]?.join) →
      Operates P cs sender K t t' (.Update u)
  /-- the leaf and the nodes above are blanked; the height is the least that has room for the last member left, `j` -/
  | remove (r : RemoveProposal) (l : LeafNode) (j m : Nat) :
      t[2 * r.removed.toNat]?.join = some (.Leaf l) → t[2 * j]?.join ≠ none → j ≠ r.removed.toNat →
      (∀ i, j < i → i ≠ r.removed.toNat → t[2 * i]?.join = none) → IsHeight (j + 1) m →
      t'.length = min t.length (2 ^ (m + 1)) →
      (∀ x : Nat, t'[x]?.join = if x = 2 * r.removed.toNat ∨ above K r.removed.toNat x ∨ 2 ^ (m + 1) ≤ x then none
        else t[x]?.join) →
      Operates P cs sender K t t' (.Remove r)

/-- The vector of a tree operation; the tree hashes are those of the root. -/
structure OperationRight (P : CryptoProvider) (cs : CipherSuite) (H : Bytes → Bytes) (tc : Vectors.TreeOperations)
    (K : Nat) (t t' : RatchetTree) (prop : Proposal) : Prop where
  before : HashDefined H (fun x => t[x]?.join) K 0 ∧ tc.tree_hash_before = treeHash H (fun x => t[x]?.join) K 0
  proposal : Reads Proposal.WF proposal tc.proposal prop
  operates : Operates P cs tc.proposal_sender K t t' prop
  after : (ratchetTree t').fits ∧ tc.tree_after = (ratchetTree t').bytes
  hash : ∃ K', IsHeight ((t'.length + 1) / 2) K' ∧ HashDefined H (fun x => t'[x]?.join) K' 0 ∧
    tc.tree_hash_after = treeHash H (fun x => t'[x]?.join) K' 0

/-- The content of a message, as bytes without framing. -/
def ContentIs : Content → Bytes → Prop
  | .Application b, raw => raw = b
  | .Proposal p, raw => (proposal p).fits ∧ raw = (proposal p).bytes
  | .Commit c, raw => (commit c).fits ∧ raw = (commit c).bytes

/-- The group context that a vector of message protection describes. -/
def protectionContext (cs : CipherSuite) (tc : Vectors.Protection) : GroupContext where
  version := .MLS10
  cipher_suite := cs
  group_id := tc.group_id
  epoch := tc.epoch
  tree_hash := tc.tree_hash
  confirmed_transcript_hash := tc.confirmed_transcript_hash
  extensions := []

/-- The bytes begin with an authentic public message (section 6.2) with the content. -/
def PublicRight (P : CryptoProvider) (cs : CipherSuite) (tc : Vectors.Protection) (want raw : Bytes) (m : PublicMessage) :
    Prop :=
  Reads MLSMessage.WF mlsMessage raw ⟨.MLS10, .PublicMessage m⟩ ∧
    PublicAuthentic P cs (protectionContext cs tc) tc.signature_pub tc.membership_key m ∧ ContentIs m.content.content want

/-- The bytes begin with an authentic private message (section 6.3) with the content, encrypted with the keys of the second
of two leaves; the sender is whoever the sender data names. -/
def PrivateRight (P : CryptoProvider) (cs : CipherSuite) (h : Hpke) (tc : Vectors.Protection) (want raw : Bytes)
    (pc : PrivateMessageContent) : Prop :=
  ∃ m sd s, Reads MLSMessage.WF mlsMessage raw ⟨.MLS10, .PrivateMessage m⟩ ∧ SenderDataOpens h tc.sender_data_secret m sd ∧
    MessageSecret h tc.encryption_secret 1 1 m.content_type sd.generation.toNat s ∧
    ContentOpens h s sd.generation.toNat sd.reuse_guard m pc ∧
    ContentSigned P cs tc.signature_pub .PrivateMessage (contentOf m sd pc) (protectionContext cs tc) pc.auth.signature ∧
    ContentIs pc.content want

end Rmls.Spec
