import Verif.Model.Crypto
/-
`rmls/src/key_schedule/mod.rs`: the functions (the wire types are in `Verif.Model.Wire`).
-/
namespace Rmls

/-- `GroupContext::extract_joiner_secret`, `rmls/src/key_schedule/mod.rs:124-145`. -/
def GroupContext.extract_joiner_secret (P : CryptoProvider) (ctx : GroupContext)
    (prev_init_secret commit_secret : Bytes) : Res Bytes := do
  let hpke ← P.hpke ctx.cipher_suite
  let extracted ← hpke.kdf_extract commit_secret prev_init_secret
  let raw_group_context ← ctx.serialize
  let hpke ← P.hpke ctx.cipher_suite
  P.expand_with_label ctx.cipher_suite extracted (ascii "joiner") raw_group_context
    (UInt16.ofNat hpke.kdf_extract_size)

/-- The argument `if psk_secret.is_empty() { &zero } else { psk_secret }` of
`rmls/src/key_schedule/mod.rs:159-163,189-193`. -/
def pskOrZero (size : Nat) (psk_secret : Bytes) : Bytes :=
  if psk_secret.isEmpty then List.replicate size 0 else psk_secret

/-- `GroupContext::extract_epoch_secret`, `rmls/src/key_schedule/mod.rs:147-177`. -/
def GroupContext.extract_epoch_secret (P : CryptoProvider) (ctx : GroupContext)
    (joiner_secret psk_secret : Bytes) : Res Bytes := do
  let hpke ← P.hpke ctx.cipher_suite
  let extracted ← hpke.kdf_extract (pskOrZero hpke.kdf_extract_size psk_secret) joiner_secret
  let raw_group_context ← ctx.serialize
  P.expand_with_label ctx.cipher_suite extracted (ascii "epoch") raw_group_context
    (UInt16.ofNat hpke.kdf_extract_size)

/-- `extract_welcome_secret`, `rmls/src/key_schedule/mod.rs:180-198`. -/
def extract_welcome_secret (P : CryptoProvider) (cs : CipherSuite) (joiner_secret psk_secret : Bytes) :
    Res Bytes := do
  let hpke ← P.hpke cs
  let extracted ← hpke.kdf_extract (pskOrZero hpke.kdf_extract_size psk_secret) joiner_secret
  P.derive_secret cs extracted (ascii "welcome")

/-- `rmls/src/key_schedule/mod.rs:200`. -/
def SECRET_LABEL_INIT : Bytes := ascii "init"
/-- `rmls/src/key_schedule/mod.rs:201`. -/
def SECRET_LABEL_SENDER_DATA : Bytes := ascii "sender data"
/-- `rmls/src/key_schedule/mod.rs:202`. -/
def SECRET_LABEL_ENCRYPTION : Bytes := ascii "encryption"
/-- `rmls/src/key_schedule/mod.rs:203`. -/
def SECRET_LABEL_EXPORTER : Bytes := ascii "exporter"
/-- `rmls/src/key_schedule/mod.rs:204`. -/
def SECRET_LABEL_EXTERNAL : Bytes := ascii "external"
/-- `rmls/src/key_schedule/mod.rs:205`. -/
def SECRET_LABEL_CONFIRM : Bytes := ascii "confirm"
/-- `rmls/src/key_schedule/mod.rs:206`. -/
def SECRET_LABEL_MEMBERSHIP : Bytes := ascii "membership"
/-- `rmls/src/key_schedule/mod.rs:207`. -/
def SECRET_LABEL_RESUMPTION : Bytes := ascii "resumption"
/-- `rmls/src/key_schedule/mod.rs:208`. -/
def SECRET_LABEL_AUTHENTICATION : Bytes := ascii "authentication"

/-- `ConfirmedTranscriptHashInput::hash`, `rmls/src/key_schedule/mod.rs:272-285`. -/
def ConfirmedTranscriptHashInput.hash (P : CryptoProvider) (x : ConfirmedTranscriptHashInput) (cs : CipherSuite)
    (interim_transcript_hash_before : Bytes) : Res Bytes := do
  let raw_input ← x.serialize
  let h ← P.hash cs
  pure (h.digest (interim_transcript_hash_before ++ raw_input))

/-- `next_interim_transcript_hash`, `rmls/src/key_schedule/mod.rs:304-319`. -/
def next_interim_transcript_hash (P : CryptoProvider) (cs : CipherSuite)
    (confirmed_transcript_hash confirmation_tag : Bytes) : Res Bytes := do
  let raw_input ← serialize_opaque_vec confirmation_tag
  let h ← P.hash cs
  pure (h.digest (confirmed_transcript_hash ++ raw_input))

/-- The loop of `extract_psk_secret`, `rmls/src/key_schedule/mod.rs:594-617`: `i` is the index, `psk_secret` the
accumulator, `count` is `psk_ids.len()`. -/
def pskLoop (P : CryptoProvider) (cs : CipherSuite) (size count : Nat) :
    Nat → Bytes → List (PreSharedKeyID × Bytes) → Res Bytes
  | _, psk_secret, [] => .ok psk_secret
  | i, psk_secret, (id, psk) :: rest => do
    let hpke ← P.hpke cs
    let psk_extracted ← hpke.kdf_extract psk (List.replicate size 0)
    let raw_psklabel ← PSKLabel.serialize { id, index := UInt16.ofNat i, count := UInt16.ofNat count }
    let psk_input ← P.expand_with_label cs psk_extracted (ascii "derived psk") raw_psklabel (UInt16.ofNat size)
    let psk_secret ← hpke.kdf_extract psk_secret psk_input
    pskLoop P cs size count (i + 1) psk_secret rest

/-- `extract_psk_secret`, `rmls/src/key_schedule/mod.rs:580-620`. -/
def extract_psk_secret (P : CryptoProvider) (cs : CipherSuite) (psk_ids : List PreSharedKeyID)
    (psks : List Bytes) : Res Bytes :=
  if psk_ids.length ≠ psks.length then .err .PskIDsAndPskLenNotMatch
  else do
    let hpke ← P.hpke cs
    pskLoop P cs hpke.kdf_extract_size psk_ids.length 0 (List.replicate hpke.kdf_extract_size 0)
      (psk_ids.zip psks)

end Rmls
