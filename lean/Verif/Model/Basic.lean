/-
Results, errors and byte readers shared by the whole model.
-/
namespace Rmls

/-- `bytes::Bytes`, `Vec<u8>` and `&[u8]`. -/
abbrev Bytes := List UInt8

/-- `rmls/src/utilities/error.rs:7-165` (`Error`).  Simplified: payloads that are strings or
foreign error values (`RingCryptoError`, `RustCryptoError`, `HpkeError`, `SerdeJson`, `Sec1`, `Ecdsa`,
`SignatureDigest`, `Other`) are merged into `Other`; they only arise inside the crypto backends. -/
inductive Error where
  | BufferTooSmall
  | InvalidVariableLengthIntegerPrefix
  | MinimumEncodingWasNotUsed
  | VarintExceeds30Bits
  | OpaqueSizeExceedsMaximumValueOfU32
  | InvalidOptionalValue
  | InputContainsExcessBytes (n : Nat)
  | InvalidSibling
  | InvalidSignatureSchemeValue (v : UInt16)
  | InvalidLeafNodeSourceValue (v : UInt8)
  | InvalidExtensionTypeValue (v : UInt16)
  | InvalidProposalTypeValue (v : UInt16)
  | InvalidCredentialTypeValue
  | InvalidContentTypeValue (v : UInt8)
  | InvalidResumptionPSKUsageValue (v : UInt8)
  | InvalidPskTypeValue (v : UInt8)
  | InvalidSenderTypeValue (v : UInt8)
  | InvalidProposalOrRefValue (v : UInt8)
  | InvalidWireFormatValue (v : UInt16)
  | InvalidCipherSuiteValue (v : UInt16)
  | LeafNodeSignatureVerificationFailed
  | VerifyConfirmationTagFailed
  | CredentialTypeUsedByLeafNodeNotSupportedByAllMembers (v : UInt16)
  | LifetimeVerificationFailed
  | ExtensionTypeUsedByLeafNodeNotSupportedByThatLeafNode (v : UInt16)
  | DuplicateSignatureKeyInRatchetTree
  | DuplicateEncryptionKeyInRatchetTree
  | InvalidNodeTypeValue (v : UInt8)
  | InvalidLeafNode
  | InvalidParentNode
  | InvalidChildren
  | TreeHashVerificationFailed
  | ParentHashesVerificationFailed
  | UnmergedLeafIsNotDescendantOfTheParentNode
  | NonBlankIntermediateNodeMissingUnmergedLeaf
  | UpdatePathAndFilteredDirectPathHasDifferentNode
  | ParentHashMismatchForUpdatePathLeafNode
  | InvalidEd25519PrivateKey
  | InvalidECDSAPrivateKey
  | UnsupportedKem
  | UnsupportedEcdsa
  | UnsupportedEd448
  | UnsupportedCipherSuite
  | UnsupportedHkpeKem
  | KeyPackageVersionNotMatchGroupContext
  | CipherSuiteNotMatchGroupContext
  | CipherSuiteNotMatchSignatureScheme
  | KeyPackageContainsLeafNodeWithInvalidSource
  | InvalidKeyPackageSignature
  | KeyPackageEncryptionKeyAndInitKeyIdentical
  | ProposalsLenNotMatchSendersLen
  | MultipleAddProposalsHaveTheSameSignatureKey
  | UpdateProposalGeneratedByTheCommitter
  | MultipleUpdateRemoveProposalsApplyToTheSameLeaf
  | RemoveProposalRemovesTheCommitter
  | MultiplePSKProposalsReferenceTheSamePSKId
  | MultipleGroupContextExtensionsProposals
  | ReinitProposalTogetherWithAnyOtherProposal
  | ExternalInitProposalNotAllowed
  | EncryptedGroupSecretsNotFoundForProvidedKeyPackageRef
  | PskIDsAndPskLenNotMatch
  | ConfirmedTranscriptHashInputContainContentCommitOnly
  | SenderMemberAndNewMemberCommitNoGroupContext
  | NonceAndReuseGuardLenNotMatch
  | PaddingContainsNonZeroBytes
  | InvalidProtocolVersion (v : UInt16)
  | NoMatchingKeyPackage
  | Other
  deriving DecidableEq, Repr

/-- The two ways in which Rust code fails without returning: a panic, or a loop that never ends. -/
inductive Fault where
  | panic
  | hang
  deriving DecidableEq, Repr

/-- `rmls/src/utilities/error.rs:5` (`Result<T>`), extended with the explicit failures of `Fault`. -/
inductive Res (α : Type u) where
  | ok (a : α)
  | err (e : Error)
  | fault (f : Fault)
  deriving DecidableEq, Repr

namespace Res

/-- The `?` operator: errors (and faults) propagate. -/
@[inline] def bind {α : Type u} {β : Type v} (x : Res α) (f : α → Res β) : Res β :=
  match x with
  | ok a => f a
  | err e => err e
  | fault f => fault f

instance : Monad Res where
  pure := ok
  bind := bind

/-- `Result::is_ok` on a computation that did not fault (used only through `toOption`). -/
def toOption {α : Type u} : Res α → Option α
  | ok a => some a
  | _ => none

/-- Two writers one after the other on the same output buffer. -/
def app (x y : Res Bytes) : Res Bytes :=
  match x with
  | ok a => match y with
    | ok b => ok (a ++ b)
    | err e => err e
    | fault f => fault f
  | err e => err e
  | fault f => fault f

end Res

@[inherit_doc] infixr:65 " +++ " => Res.app

/-- A reader on a `bytes::Buf`: takes the remaining bytes, returns the value and what remains. -/
def De (α : Type u) := Bytes → Res (α × Bytes)

namespace De

@[inline] def pure {α : Type u} (a : α) : De α := fun b => .ok (a, b)

@[inline] def bind {α : Type u} {β : Type v} (d : De α) (f : α → De β) : De β := fun b =>
  match d b with
  | .ok (a, r) => f a r
  | .err e => .err e
  | .fault f => .fault f

instance : Monad De where
  pure := De.pure
  bind := De.bind

/-- `return Err(e)` inside a reader. -/
def fail {α : Type u} (e : Error) : De α := fun _ => .err e

/-- A computation that does not touch the buffer, followed by `?`. -/
def lift {α : Type u} (x : Res α) : De α := fun b =>
  match x with
  | .ok a => .ok (a, b)
  | .err e => .err e
  | .fault f => .fault f

end De

/-- Big-endian bytes of `v`, `n` of them (`BufMut::put_u8/16/32/64` of the `bytes` crate). -/
def beBytes : Nat → Nat → Bytes
  | 0, _ => []
  | n + 1, v => UInt8.ofNat (v / 256 ^ n) :: beBytes n v

/-- Value of a big-endian byte string (`Buf::get_u8/16/32/64` of the `bytes` crate). -/
def beNat (bs : Bytes) : Nat := bs.foldl (fun a b => a * 256 + b.toNat) 0

/-- `Buf::get_uN`: panics when fewer than `n` bytes remain (`bytes` crate contract). -/
def getBE (n : Nat) : De Nat := fun b =>
  if b.length < n then .fault .panic else .ok (beNat (b.take n), b.drop n)

/-- `if buf.remaining() < n { return Err(Error::BufferTooSmall) }`; `n = 1` is `!buf.has_remaining()`. -/
def need (n : Nat) : De Unit := fun b =>
  if b.length < n then .err .BufferTooSmall else .ok ((), b)

def get_u8 : De UInt8 := fun b =>
  match getBE 1 b with
  | .ok (v, r) => .ok (UInt8.ofNat v, r)
  | .err e => .err e
  | .fault f => .fault f

def get_u16 : De UInt16 := fun b =>
  match getBE 2 b with
  | .ok (v, r) => .ok (UInt16.ofNat v, r)
  | .err e => .err e
  | .fault f => .fault f

def get_u32 : De UInt32 := fun b =>
  match getBE 4 b with
  | .ok (v, r) => .ok (UInt32.ofNat v, r)
  | .err e => .err e
  | .fault f => .fault f

def get_u64 : De UInt64 := fun b =>
  match getBE 8 b with
  | .ok (v, r) => .ok (UInt64.ofNat v, r)
  | .err e => .err e
  | .fault f => .fault f

def put_u8 (v : UInt8) : Res Bytes := .ok (beBytes 1 v.toNat)
def put_u16 (v : UInt16) : Res Bytes := .ok (beBytes 2 v.toNat)
def put_u32 (v : UInt32) : Res Bytes := .ok (beBytes 4 v.toNat)
def put_u64 (v : UInt64) : Res Bytes := .ok (beBytes 8 v.toNat)

/-- `BufMut::put` / `put_slice`. -/
def put_slice (v : Bytes) : Res Bytes := .ok v

/-- `Buf::copy_to_bytes(n)` / `copy_to_slice`: panics when fewer than `n` bytes remain. -/
def copy_to_bytes (n : Nat) : De Bytes := fun b =>
  if b.length < n then .fault .panic else .ok (b.take n, b.drop n)

end Rmls
