import Verif.Spec.Client
/-
What the passive client is given, and when it is content with it.
-/
namespace Rmls.Spec
open Enc PassiveClient

/-- The bytes are this message, with more behind it or not. -/
def Carries (raw : Bytes) (w : WireMessage) : Prop :=
  w.WF ∧ ∃ rest, (mlsMessage ⟨.MLS10, w⟩).fits ∧ raw = (mlsMessage ⟨.MLS10, w⟩).bytes ++ rest

/-- What is sealed for the public key, with this entropy, opens with the private key, for one message. -/
def OpensOnce (P : CryptoProvider) (cs : CipherSuite) (rnd pub priv info plain : Bytes) : Prop :=
  ∃ kem cipher, P.hpke_seal cs rnd pub info plain = .ok (kem, cipher) ∧ P.hpke_open cs priv info kem cipher = .ok plain

/-- What is signed with the private key is accepted under the public key, for one message. -/
def VerifiesOnce (P : CryptoProvider) (cs : CipherSuite) (pub priv message : Bytes) : Prop :=
  ∃ s signature, P.signature cs = .ok s ∧ s.sign priv message = .ok signature ∧ s.verify pub message signature = .ok ()

/-- The message of the checks of key pairs. -/
def checkInfo : Bytes := (labelled (text "bar") []).bytes
def checkContent : Bytes := (labelled (text "bar") (text "foo")).bytes

/-- The client reads a welcome and the key package it is for, its private keys fit, it joins, and the authenticator is
the expected one. -/
structure Entered (P : CryptoProvider) (h : Hpke) (digest : Bytes → Bytes) (rnd rnd' : Bytes) (cs : CipherSuite) (tc : Input)
    (w : Welcome) (kp : KeyPackage) (s : State) : Prop where
  welcome : Carries tc.welcome (.Welcome w)
  package : Carries tc.key_package (.KeyPackage kp)
  suite : HpkeSuite cs
  init_key : OpensOnce P cs rnd kp.payload.init_key tc.init_priv checkInfo (text "foo")
  encryption_key : OpensOnce P cs rnd' kp.payload.leaf_node.payload.encryption_key tc.encryption_priv checkInfo (text "foo")
  signature_key : VerifiesOnce P cs kp.payload.leaf_node.payload.signature_key tc.signature_priv checkContent
  joined : Joined P h digest w kp tc.init_priv tc.external_psks tc.ratchet_tree s
  authenticator : Derives h s.epoch_secret (text "authentication") tc.initial_epoch_authenticator

/-- The commit of the first epoch after joining, if there is one, is checked, its proposals are applied to one copy of the
tree and its path is merged into another. -/
def FirstCommit (P : CryptoProvider) (h : Hpke) (cs : CipherSuite) (s : State) (epochs : List Bytes)
    (out : Option (RatchetTree × RatchetTree)) : Prop :=
  (epochs = [] ∧ out = none) ∨
  ∃ raw later m nt t c ps path, epochs = raw :: later ∧ Carries raw (.PublicMessage m) ∧ out = some (nt, t) ∧
    CommitChecked P h cs s m c ps path ∧ s.tree.apply ps (List.replicate ps.length c) = .ok nt ∧
    (path = none → t = s.tree) ∧ ∀ p, path = some p → s.tree.merge_update_path P cs c.toNat p = (t, .ok ())

/-- A welcome without PSKs opens for the owner of the key package: the secrets are those sealed for its reference, they open
the group info, and that is signed with the key and confirmed with the secrets of the epoch. -/
structure Opened (P : CryptoProvider) (h h' : Hpke) (priv signer : Bytes) (w : Welcome) (kp : KeyPackage) (gs : GroupSecrets)
    (gi : GroupInfo) : Prop where
  secrets : HpkeSuite w.cipher_suite ∧ (labelled (text "Welcome") w.encrypted_group_info).fits ∧ (groupSecrets gs).fits ∧
    ∃ ref e rest, IsRef P kp ref ∧ FirstFor ref w.secrets e ∧
      P.hpke_open w.cipher_suite priv (labelled (text "Welcome") w.encrypted_group_info).bytes
        e.encrypted_group_secrets.kem_output e.encrypted_group_secrets.ciphertext = .ok ((groupSecrets gs).bytes ++ rest)
  info : gi.WF ∧ (groupInfo gi).fits ∧ ∃ key nonce rest, WelcomeKeys h gs.joiner_secret [] key nonce ∧
    h.aead_open key nonce w.encrypted_group_info [] = .ok ((groupInfo gi).bytes ++ rest)
  signed : GroupInfoSigned P signer gi
  confirmed : ∃ key, ConfirmationKey h' gi.group_context gs.joiner_secret [] key ∧
    MacOf P gi.group_context.cipher_suite key gi.group_context.confirmed_transcript_hash gi.confirmation_tag

end Rmls.Spec
