import Verif.Model.Receiver
/-
The key schedule over several epochs, as `rmls/src/key_schedule/key_schedule_test.rs` runs it: the one place in the repository
in which the functions of the key schedule are put together.  The comparison with the expected values is left out, and the
group contexts, which the test builds from the test vector, are arguments.
-/
namespace Rmls
namespace Epochs

/-- What enters the key schedule in an epoch, `rmls/src/key_schedule/key_schedule_test.rs:154-162,168,180`. -/
structure Input where
  ctx : GroupContext
  commit_secret : Bytes
  psk_secret : Bytes

/-- The epoch secret, from the init secret of the epoch before, `rmls/src/key_schedule/key_schedule_test.rs:167-168,179-180`. -/
def epochSecret (P : CryptoProvider) (init_secret : Bytes) (e : Input) : Res Bytes := do
  let joiner_secret ← e.ctx.extract_joiner_secret P init_secret e.commit_secret
  e.ctx.extract_epoch_secret P joiner_secret e.psk_secret

/-- The loop of `key_schedule_test`, `rmls/src/key_schedule/key_schedule_test.rs:150-202`: the init secret after some epochs.
The other secrets of the epoch are derived in the same way and are left out. -/
def run (P : CryptoProvider) (cs : CipherSuite) : Bytes → List Input → Res Bytes
  | init_secret, [] => .ok init_secret
  | init_secret, e :: rest => do
    let epoch_secret ← epochSecret P init_secret e
    let init_secret ← P.derive_secret cs epoch_secret SECRET_LABEL_INIT
    run P cs init_secret rest

end Epochs

/-- Key and nonce for the content of a message: the part of the sender that comes before the message is put together,
`rmls/src/group/group_test.rs:218-227,239-258` with `rmls/src/framing/private_message.rs:328-329`. -/
def MessageProtection.messageKeys (P : CryptoProvider) (cs : CipherSuite) (num_leaves : Nat) (encryption_secret : Bytes)
    (li : Nat) (content_type : ContentType) (generation : UInt32) (guard : Bytes) : Res (Bytes × Bytes) := do
  let secret ← ratchetRoot P cs num_leaves encryption_secret li content_type
  let secret ← seek P cs generation 4294967296 secret
  derive_private_message_key_and_nonce P cs secret guard

end Rmls
