import Verif.Model.Client
import Verif.Spec.Welcome
import Verif.Spec.Framing
import Verif.Spec.Group
import Verif.Spec.Integrity
import Verif.Spec.Proposal
/-
Joining a group with a welcome (RFC 9420 section 12.4.3.1), and the checks on a commit (12.4.2).
-/
namespace Rmls.Spec
open Enc

/-- The first extension of this type has these data. -/
def FirstExtension (ty : ExtensionType) (exts : Extensions) (data : Bytes) : Prop :=
  ∃ before after, exts = before ++ ⟨ty, data⟩ :: after ∧ ∀ e ∈ before, e.extension_type ≠ ty

/-- `psks` are the first of the external PSKs with the ids in the list; all the ids are external. -/
inductive Supplies (external : List (Bytes × Bytes)) : List PreSharedKeyID → List Bytes → Prop
  | nil : Supplies external [] []
  | cons {i nonce psk : Bytes} {ids : List PreSharedKeyID} {psks : List Bytes} {before after : List (Bytes × Bytes)} :
      external = before ++ (i, psk) :: after → (∀ e ∈ before, e.1 ≠ i) → Supplies external ids psks →
      Supplies external (⟨.External i, nonce⟩ :: ids) (psk :: psks)

/-- The tree is sent separately, or in the extension of the group info. -/
def SentTree (given : Option Bytes) (gi : GroupInfo) (raw : Bytes) : Prop :=
  given = some raw ∨ given = none ∧ FirstExtension .RatchetTree gi.extensions raw

/-- Section 12.4.3.1: the state with which the owner of the key package joins. -/
structure Joined (P : CryptoProvider) (h : Hpke) (digest : Bytes → Bytes) (w : Welcome) (kp : KeyPackage)
    (priv : Bytes) (external : List (Bytes × Bytes)) (given : Option Bytes) (s : PassiveClient.State) : Prop where
  /-- the secrets are those sealed for the reference of this key package -/
  secrets : HpkeSuite w.cipher_suite ∧ (labelled (text "Welcome") w.encrypted_group_info).fits ∧
    (groupSecrets s.group_secrets).fits ∧ ∃ ref e rest, IsRef P kp ref ∧ FirstFor ref w.secrets e ∧
      P.hpke_open w.cipher_suite priv (labelled (text "Welcome") w.encrypted_group_info).bytes
        e.encrypted_group_secrets.kem_output e.encrypted_group_secrets.ciphertext =
        .ok ((groupSecrets s.group_secrets).bytes ++ rest)
  /-- the PSK secret is made of the PSKs that the secrets name -/
  psks : ∃ ks, Supplies external s.group_secrets.psk_ids ks ∧
    PskFold h s.group_secrets.psk_ids.length 0 (zeros h.kdf_extract_size) (s.group_secrets.psk_ids.zip ks) s.psk_secret
  /-- the group info is what these secrets open -/
  info : s.group_info.WF ∧ (groupInfo s.group_info).fits ∧ ∃ key nonce rest,
    WelcomeKeys h s.group_secrets.joiner_secret s.psk_secret key nonce ∧
      h.aead_open key nonce w.encrypted_group_info [] = .ok ((groupInfo s.group_info).bytes ++ rest)
  /-- the tree is the one sent -/
  tree : ∃ raw rest, SentTree given s.group_info raw ∧ RatchetTree.deserialize raw = .ok (s.tree, rest)
  /-- the group info is signed by a member -/
  signer : ∃ l, s.tree[2 * s.group_info.signer.toNat]?.join = some (.Leaf l) ∧
    GroupInfoSigned P l.payload.signature_key s.group_info
  /-- and confirmed with the secrets of the epoch -/
  confirmed : ∃ key, ConfirmationKey h s.group_info.group_context s.group_secrets.joiner_secret s.psk_secret key ∧
    MacOf P s.group_info.group_context.cipher_suite key s.group_info.group_context.confirmed_transcript_hash
      s.group_info.confirmation_tag
  suite : s.group_info.group_context.cipher_suite = kp.payload.cipher_suite
  /-- the tree is not empty and valid in the context of the group -/
  valid : ∃ K, s.tree.length + 1 = 2 ^ (K + 1) ∧
    TreeValid P digest (fun x => s.tree[x]?.join) K (2 ^ K) s.group_info.group_context 0
  /-- the joiner is a member -/
  member : s.tree[2 * s.leaf]?.join = some (.Leaf kp.payload.leaf_node)
  epoch : EpochSecret h s.group_info.group_context s.group_secrets.joiner_secret s.psk_secret s.epoch_secret

/-- Section 12.4.2 and 7.3: the leaf of a path by the member at `c` is valid in its place, keys of members are not used
again, except that the committer may keep the signature key. -/
structure PathChecked (P : CryptoProvider) (cs : CipherSuite) (ctx : GroupContext) (t : RatchetTree) (c : LeafIndex)
    (p : UpdatePath) : Prop where
  source : ∃ hash, p.leaf_node.payload.leaf_node_source = .Commit hash
  valid : LeafValid P p.leaf_node cs ctx.group_id c (SupportedCred (fun x => t[x]?.join) ((t.length + 1) / 2)) 0
  signature_key : ∀ i l, t[2 * i]?.join = some (.Leaf l) → l.payload.signature_key = p.leaf_node.payload.signature_key →
    i = c.toNat
  encryption_key : ∀ i l, t[2 * i]?.join = some (.Leaf l) →
    l.payload.encryption_key ≠ p.leaf_node.payload.encryption_key ∧
    ∀ n ∈ p.nodes, l.payload.encryption_key ≠ n.encryption_key

/-- Section 12.4.2: the message is a commit of the member at `c`, in the client's epoch, authentic, and with a valid list of
proposals, all by value and none a PSK, and with a valid path if there has to be one. -/
structure CommitChecked (P : CryptoProvider) (h : Hpke) (cs : CipherSuite) (s : PassiveClient.State) (m : PublicMessage)
    (c : LeafIndex) (ps : List Proposal) (path : Option UpdatePath) : Prop where
  epoch : m.content.epoch = s.group_info.group_context.epoch
  sender : m.content.sender = .Member c
  signed : ∃ l, s.tree[2 * c.toNat]?.join = some (.Leaf l) ∧
    ContentSigned P cs l.payload.signature_key .PublicMessage m.content s.group_info.group_context m.auth.signature
  tag : ∃ key tag, Derives h s.epoch_secret (text "membership") key ∧ m.membership_tag = some tag ∧
    (authenticatedContentTBM m.content m.auth s.group_info.group_context).fits ∧
    MacOf P cs key (authenticatedContentTBM m.content m.auth s.group_info.group_context).bytes tag
  content : m.content.content = .Commit ⟨ps.map .Proposal, path⟩
  proposals : ProposalsValid (ps.map fun p => (p, c)) c
  psks : ∀ k, Proposal.PreSharedKey k ∉ ps
  needed : path = none → PathOptional ps
  path : ∀ p, path = some p → PathChecked P cs s.group_info.group_context s.tree c p

end Rmls.Spec
