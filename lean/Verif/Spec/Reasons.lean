import Verif.Model.Basic
/-
What the errors say (`rmls/src/utilities/error.rs`), as statements about the input.
-/
namespace Rmls.Spec

/-- The values that are defined for the enumerations of the wire format (RFC 9420 sections 6, 7.2, 8.4, 12.1, 12.4, 17;
RFC 8446 section 4.2.3 for signature schemes). -/
def definedSchemes : List UInt16 := [0x0403, 0x0503, 0x0603, 0x0807, 0x0808]
def definedProposals : List UInt16 := [1, 2, 3, 4, 5, 6, 7]
def definedFormats : List UInt16 := [1, 2, 3, 4, 5]

/-- Errors that a reader has reason to report, and what they say of the value that they name: it is not defined. -/
def readError : Error → Prop
  | .BufferTooSmall | .InvalidVariableLengthIntegerPrefix | .MinimumEncodingWasNotUsed | .InvalidOptionalValue
  | .InvalidCredentialTypeValue | .ConfirmedTranscriptHashInputContainContentCommitOnly
  | .PaddingContainsNonZeroBytes => True
  | .InvalidSignatureSchemeValue v => v ∉ definedSchemes
  | .InvalidProposalTypeValue v => v ∉ definedProposals
  | .InvalidWireFormatValue v => v ∉ definedFormats
  | .InvalidProtocolVersion v => v ≠ 1
  | .InvalidLeafNodeSourceValue v => v ∉ [1, 2, 3]
  | .InvalidContentTypeValue v => v ∉ [1, 2, 3]
  | .InvalidSenderTypeValue v => v ∉ [1, 2, 3, 4]
  | .InvalidResumptionPSKUsageValue v => v ∉ [1, 2, 3]
  | .InvalidPskTypeValue v => v ∉ [1, 2]
  | .InvalidProposalOrRefValue v => v ∉ [1, 2]
  | .InvalidNodeTypeValue v => v ∉ [1, 2]
  | _ => False

/-- The bytes of the value that a reader names. -/
def reported : Error → Bytes
  | .InvalidSignatureSchemeValue v | .InvalidProposalTypeValue v | .InvalidWireFormatValue v
  | .InvalidProtocolVersion v => [UInt8.ofNat (v.toNat / 256), UInt8.ofNat (v.toNat % 256)]
  | .InvalidLeafNodeSourceValue v | .InvalidContentTypeValue v | .InvalidSenderTypeValue v
  | .InvalidResumptionPSKUsageValue v | .InvalidPskTypeValue v | .InvalidProposalOrRefValue v
  | .InvalidNodeTypeValue v => [v]
  | _ => []

end Rmls.Spec
