import Verif.Spec.Framing
import Verif.Spec.TreeHash
/-
The key schedule, PSK secrets, transcript hashes, the secret tree and the ratchets (RFC 9420 sections 8, 8.2, 8.4, 9),
as relations between inputs and outputs over the primitives of a suite.
-/
namespace Rmls.Spec
open Enc

/-- `KDF.Extract(salt, ikm) = out`. -/
def Extracts (h : Hpke) (salt ikm out : Bytes) : Prop := h.kdf_extract ikm salt = .ok out

/-- `ExpandWithLabel(secret, label, context, length) = out`. -/
def Expands (h : Hpke) (secret label context : Bytes) (length : Nat) (out : Bytes) : Prop :=
  length < 2 ^ 16 ∧ (kdfLabel length label context).fits ∧
  h.kdf_expand secret (kdfLabel length label context).bytes (UInt16.ofNat length) = .ok out

/-- `DeriveSecret(secret, label) = out`. -/
def Derives (h : Hpke) (secret label out : Bytes) : Prop := Expands h secret label [] h.kdf_extract_size out

/-- The sizes of the suite are numbers that the RFC can write down. -/
def Sizes (h : Hpke) : Prop :=
  h.kdf_extract_size < 2 ^ 16 ∧ h.aead_nonce_size < 2 ^ 16 ∧ h.aead_key_size < 2 ^ 16

/-- What RFC 5869 says of HKDF-Expand: with a key that is at least as long as the output of the hash, every output of up to
255 times that length can be had, and an output of that length can be a key again.  Both providers are such expanders, if the
libraries return as many bytes as they are asked for: `C48_expander`. -/
structure Expander (h : Hpke) : Prop where
  expands : ∀ secret info (n : UInt16), h.kdf_extract_size ≤ secret.length → n.toNat ≤ 255 * h.kdf_extract_size →
    ∃ out, h.kdf_expand secret info n = .ok out
  long : ∀ secret info out, h.kdf_expand secret info (UInt16.ofNat h.kdf_extract_size) = .ok out →
    h.kdf_extract_size ≤ out.length

/-- What RFC 5869 says of HKDF-Extract: it does not fail, and its output can be a key of HKDF-Expand, at least if the salt
could be one. -/
structure Extractor (h : Hpke) : Prop where
  extracts : ∀ secret salt, ∃ out, h.kdf_extract secret salt = .ok out
  long : ∀ secret salt out, h.kdf_extract_size ≤ salt.length → h.kdf_extract secret salt = .ok out →
    h.kdf_extract_size ≤ out.length

/-- A string of `n` zero bytes. -/
def zeros (n : Nat) : Bytes := List.replicate n 0

/-- The PSK secret, or zeros if there is none. -/
def pskInput (h : Hpke) : Bytes → Bytes
  | [] => zeros h.kdf_extract_size
  | psk => psk

/-- Section 8, figure 22, first step: `init_secret` from the top, `commit_secret` from the left. -/
def JoinerSecret (h : Hpke) (ctx : GroupContext) (init commit out : Bytes) : Prop :=
  (groupContext ctx).fits ∧ ∃ x, Extracts h init commit x ∧
    Expands h x (text "joiner") (groupContext ctx).bytes h.kdf_extract_size out

/-- Second step: `joiner_secret` from the top, `psk_secret` from the left. -/
def MemberSecret (h : Hpke) (joiner psk out : Bytes) : Prop := Extracts h joiner (pskInput h psk) out

def WelcomeSecret (h : Hpke) (joiner psk out : Bytes) : Prop :=
  ∃ x, MemberSecret h joiner psk x ∧ Derives h x (text "welcome") out

def EpochSecret (h : Hpke) (ctx : GroupContext) (joiner psk out : Bytes) : Prop :=
  (groupContext ctx).fits ∧ ∃ x, MemberSecret h joiner psk x ∧
    Expands h x (text "epoch") (groupContext ctx).bytes h.kdf_extract_size out

/-- Section 8.4: `psk_secret_[i]` for the PSKs from index `i` on, starting from `psk_secret_[i] = acc`. -/
inductive PskFold (h : Hpke) (count : Nat) : Nat → Bytes → List (PreSharedKeyID × Bytes) → Bytes → Prop
  | done {i : Nat} {acc : Bytes} : PskFold h count i acc [] acc
  | step {i : Nat} {acc psk extracted input next out : Bytes} {id : PreSharedKeyID}
      {rest : List (PreSharedKeyID × Bytes)} :
      Extracts h (zeros h.kdf_extract_size) psk extracted →
      i < 2 ^ 16 → count < 2 ^ 16 → (struct [preSharedKeyID id, uint 2 i, uint 2 count]).fits →
      Expands h extracted (text "derived psk") (struct [preSharedKeyID id, uint 2 i, uint 2 count]).bytes
        h.kdf_extract_size input →
      Extracts h input acc next →
      PskFold h count (i + 1) next rest out →
      PskFold h count i acc ((id, psk) :: rest) out

/-- One commit of a group's history: what section 8.2 hashes into the transcript, and the confirmation tag. -/
structure TranscriptStep where
  input : ConfirmedTranscriptHashInput
  tag : Bytes

/-- The step is a commit. -/
def TranscriptStep.IsCommit (s : TranscriptStep) : Prop := ∃ c, s.input.content.content = .Commit c

/-- Section 8.2: from one pair of confirmed and interim transcript hash, the commits lead to another pair. -/
inductive Transcript (H : Bytes → Bytes) : Bytes × Bytes → List TranscriptStep → Bytes × Bytes → Prop
  | done {x : Bytes × Bytes} : Transcript H x [] x
  | commit {confirmed interim : Bytes} {s : TranscriptStep} {rest : List TranscriptStep} {out : Bytes × Bytes} :
      s.IsCommit → (confirmedTranscriptHashInput s.input).fits → (opq s.tag).fits →
      Transcript H (H (interim ++ (confirmedTranscriptHashInput s.input).bytes),
        H (H (interim ++ (confirmedTranscriptHashInput s.input).bytes) ++ (opq s.tag).bytes)) rest out →
      Transcript H (confirmed, interim) (s :: rest) out

/-- Every string hashed on the way. -/
def transcriptInputs (H : Bytes → Bytes) : Bytes → List TranscriptStep → List Bytes
  | _, [] => []
  | interim, s :: rest =>
    let confirmedInput := interim ++ (confirmedTranscriptHashInput s.input).bytes
    let interimInput := H confirmedInput ++ (opq s.tag).bytes
    confirmedInput :: interimInput :: transcriptInputs H (H interimInput) rest

/-- The secret of the node at level `k`, position `i` of the secret tree of height `K` (section 9). -/
inductive NodeSecret (h : Hpke) (encryption_secret : Bytes) (K : Nat) : Nat → Nat → Bytes → Prop
  | root : NodeSecret h encryption_secret K K 0 encryption_secret
  | left {k i : Nat} {s out : Bytes} : NodeSecret h encryption_secret K (k + 1) i s →
      Expands h s (text "tree") (text "left") h.kdf_extract_size out →
      NodeSecret h encryption_secret K k (2 * i) out
  | right {k i : Nat} {s out : Bytes} : NodeSecret h encryption_secret K (k + 1) i s →
      Expands h s (text "tree") (text "right") h.kdf_extract_size out →
      NodeSecret h encryption_secret K k (2 * i + 1) out

/-- `DeriveTreeSecret` of section 9.1. -/
def TreeDerives (h : Hpke) (secret label : Bytes) (generation length : Nat) (out : Bytes) : Prop :=
  generation < 2 ^ 32 ∧ Expands h secret label (uint 4 generation).bytes length out

/-- The secret of generation `n` of the ratchet that starts with `s` (section 9.1). -/
inductive GenerationSecret (h : Hpke) (s : Bytes) : Nat → Bytes → Prop
  | first : GenerationSecret h s 0 s
  | next {n : Nat} {x y : Bytes} : GenerationSecret h s n x →
      TreeDerives h x (text "secret") n h.kdf_extract_size y → GenerationSecret h s (n + 1) y

end Rmls.Spec
