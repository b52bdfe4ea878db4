import Verif.Model.KeySchedule
/-
`rmls/src/framing/group_info.rs` and `rmls/src/framing/welcome.rs`: the functions (the wire types are in
`Verif.Model.Wire`).
-/
namespace Rmls

/-- `GroupInfo::verify_signature`, `rmls/src/framing/group_info.rs:68-85`. -/
def GroupInfo.verify_signature (P : CryptoProvider) (x : GroupInfo) (signer_pub : Bytes) : Res Unit := do
  let tbs ← x.serialize_base
  P.verify_with_label x.group_context.cipher_suite signer_pub (ascii "GroupInfoTBS") tbs x.signature

/-- `GroupInfo::verify_confirmation_tag`, `rmls/src/framing/group_info.rs:87-106`. -/
def GroupInfo.verify_confirmation_tag (P : CryptoProvider) (x : GroupInfo) (joiner_secret psk_secret : Bytes) :
    Res Unit := do
  let epoch_secret ← x.group_context.extract_epoch_secret P joiner_secret psk_secret
  let confirmation_key ← P.derive_secret x.group_context.cipher_suite epoch_secret SECRET_LABEL_CONFIRM
  P.verify_mac x.group_context.cipher_suite confirmation_key x.group_context.confirmed_transcript_hash
    x.confirmation_tag

/-- The loop of `verify_single_reinit_or_branch_psk`, `rmls/src/framing/group_info.rs:170-178`. -/
def GroupSecrets.countReinitOrBranch : List PreSharedKeyID → Nat → Nat
  | [], n => n
  | psk :: rest, n =>
    match psk.psk with
    | .Resumption resumption =>
      match resumption.usage with
      | .Reinit => countReinitOrBranch rest (n + 1)
      | .Branch => countReinitOrBranch rest (n + 1)
      | .Application => countReinitOrBranch rest n
    | .External _ => countReinitOrBranch rest n

/-- `GroupSecrets::verify_single_reinit_or_branch_psk`, `rmls/src/framing/group_info.rs:169-180`. -/
def GroupSecrets.verify_single_reinit_or_branch_psk (x : GroupSecrets) : Bool :=
  countReinitOrBranch x.psk_ids 0 ≤ 1

/-- The loop of `Welcome::find_secret`, `rmls/src/framing/welcome.rs:69-73`. -/
def Welcome.findLoop (r : KeyPackageRef) : List EncryptedGroupSecrets → Option EncryptedGroupSecrets
  | [] => none
  | sec :: rest => if sec.new_member = r then some sec else findLoop r rest

/-- `Welcome::find_secret`, `rmls/src/framing/welcome.rs:68-75`. -/
def Welcome.find_secret (x : Welcome) (r : KeyPackageRef) : Option EncryptedGroupSecrets :=
  findLoop r x.secrets

/-- `Welcome::decrypt_group_secrets`, `rmls/src/framing/welcome.rs:77-97`. -/
def Welcome.decrypt_group_secrets (P : CryptoProvider) (x : Welcome) (r : KeyPackageRef)
    (init_key_priv : Bytes) : Res GroupSecrets :=
  match x.find_secret r with
  | some sec => do
    let raw_group_secrets ← P.decrypt_with_label x.cipher_suite init_key_priv (ascii "Welcome")
      x.encrypted_group_info sec.encrypted_group_secrets.kem_output sec.encrypted_group_secrets.ciphertext
    deserialize_exact GroupSecrets.deserialize raw_group_secrets
  | none => .err .EncryptedGroupSecretsNotFoundForProvidedKeyPackageRef

/-- `Welcome::decrypt_group_info`, `rmls/src/framing/welcome.rs:99-138`. -/
def Welcome.decrypt_group_info (P : CryptoProvider) (x : Welcome) (joiner_secret psk_secret : Bytes) :
    Res GroupInfo := do
  let welcome_secret ← extract_welcome_secret P x.cipher_suite joiner_secret psk_secret
  let hpke ← P.hpke x.cipher_suite
  let welcome_nonce ← P.expand_with_label x.cipher_suite welcome_secret (ascii "nonce") []
    (UInt16.ofNat hpke.aead_nonce_size)
  let welcome_key ← P.expand_with_label x.cipher_suite welcome_secret (ascii "key") []
    (UInt16.ofNat hpke.aead_key_size)
  let raw_group_info ← hpke.aead_open welcome_key welcome_nonce x.encrypted_group_info []
  deserialize_exact GroupInfo.deserialize raw_group_info

end Rmls
