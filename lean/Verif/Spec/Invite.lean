import Verif.Spec.Sending
import Verif.Spec.Client
import Verif.Model.Welcome
import Verif.Model.KeyPackage
/-
Letting others in.  The library has no function that makes a welcome; this is the program that an application writes with its
functions, after RFC 9420, section 12.4.3.1.
-/
namespace Rmls.Spec
open Enc

/-- Somebody who is let in: their key package, the randomness for encrypting to them, and the path secret, if there is one. -/
structure Invited where
  kp : KeyPackage
  rnd : Bytes
  path_secret : Option Bytes

/-- What is to be in a welcome. -/
structure Invitation where
  context : GroupContext
  extensions : Extensions
  signer : LeafIndex
  joiner_secret : Bytes
  psk_ids : List PreSharedKeyID
  psks : List Bytes
  invited : List Invited

def Invitation.secrets (v : Invitation) (x : Invited) : GroupSecrets := ⟨v.joiner_secret, x.path_secret, v.psk_ids⟩

/-- Everything has an encoding that leaves room for the signature, the tag and the labels. -/
structure Invitation.Fits (v : Invitation) : Prop where
  context : (groupContext v.context).fits
  extensions : (Rmls.Spec.extensions v.extensions).fits
  info : (groupContext v.context).bytes.length + (Rmls.Spec.extensions v.extensions).bytes.length + 1024 < 2 ^ 30
  ids : ∀ id ∈ v.psk_ids, (preSharedKeyID id).fits ∧ (preSharedKeyID id).bytes.length < 2 ^ 29
  secrets : ∀ x ∈ v.invited, (groupSecrets (v.secrets x)).fits ∧ (groupSecrets (v.secrets x)).bytes.length < 2 ^ 31
  packages : ∀ x ∈ v.invited, (keyPackage x.kp).fits ∧ (keyPackage x.kp).bytes.length < 2 ^ 30

/-- The group info with its confirmation tag and signature, and the PSK secret and epoch secret. -/
def makeInfo (P : CryptoProvider) (cs : CipherSuite) (priv : Bytes) (v : Invitation) : Res (GroupInfo × Bytes × Bytes) := do
  let psk ← extract_psk_secret P cs v.psk_ids v.psks
  let e ← v.context.extract_epoch_secret P v.joiner_secret psk
  let key ← P.derive_secret cs e SECRET_LABEL_CONFIRM
  let tag ← P.sign_mac cs key v.context.confirmed_transcript_hash
  let unsigned : GroupInfo := ⟨v.context, v.extensions, tag, v.signer, []⟩
  let tbs ← unsigned.serialize_base
  let signature ← P.sign_with_label cs priv (text "GroupInfoTBS") tbs
  pure ({ unsigned with signature }, psk, e)

/-- The group info, sealed. -/
def sealInfo (P : CryptoProvider) (cs : CipherSuite) (joiner psk : Bytes) (gi : GroupInfo) : Res Bytes := do
  let raw ← gi.serialize
  let s ← extract_welcome_secret P cs joiner psk
  let h ← P.hpke cs
  let key ← P.expand_with_label cs s (text "key") [] (UInt16.ofNat h.aead_key_size)
  let nonce ← P.expand_with_label cs s (text "nonce") [] (UInt16.ofNat h.aead_nonce_size)
  h.aead_seal key nonce raw []

/-- One entry. -/
def makeEntry (P : CryptoProvider) (cs : CipherSuite) (v : Invitation) (sealed : Bytes) (x : Invited) :
    Res EncryptedGroupSecrets := do
  let ref ← x.kp.generate_ref P
  let raw ← (v.secrets x).serialize
  let (kem_output, ciphertext) ← P.encrypt_with_label x.rnd cs x.kp.payload.init_key (text "Welcome") sealed raw
  pure ⟨ref, ⟨kem_output, ciphertext⟩⟩

def makeEntries (P : CryptoProvider) (cs : CipherSuite) (v : Invitation) (sealed : Bytes) :
    List Invited → Res (List EncryptedGroupSecrets)
  | [] => .ok []
  | x :: rest => do
    let e ← makeEntry P cs v sealed x
    let es ← makeEntries P cs v sealed rest
    pure (e :: es)

/-- The welcome; with the group info that is in it, the PSK secret and the epoch secret. -/
def invite (P : CryptoProvider) (cs : CipherSuite) (priv : Bytes) (v : Invitation) :
    Res (Welcome × GroupInfo × Bytes × Bytes) := do
  let (gi, psk, e) ← makeInfo P cs priv v
  let sealed ← sealInfo P cs v.joiner_secret psk gi
  let secrets ← makeEntries P cs v sealed v.invited
  pure (⟨cs, secrets, sealed⟩, gi, psk, e)

/-- Everything of less than 2^31 bytes can be encrypted to the public key. -/
def CanEncrypt (P : CryptoProvider) (cs : CipherSuite) (pub : Bytes) : Prop :=
  ∀ rnd info plain, plain.length < 2 ^ 31 → ∃ kem cipher, P.hpke_seal cs rnd pub info plain = .ok (kem, cipher)

end Rmls.Spec
