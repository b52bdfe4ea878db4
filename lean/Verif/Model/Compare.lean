import Verif.Model.Framing
import Verif.Model.Welcome
/-
The checks of the tags once more, with the bytes counted that the comparison of the tag looks at.

The code compares tags with `==` on slices (`rmls/src/crypto/provider/mod.rs:224`).  The language leaves open how that
comparison is done; it is modelled as the plain loop: first the lengths, then byte after byte until two differ.  The
implementation that the compiler chooses may look at several bytes at a time, but it may stop at the first difference and
nothing in the code keeps it from doing so.  Computing the tag is not counted.
-/
namespace Rmls.Compare

/-- Bytes one after the other until two differ: whether none do, and how many pairs were looked at. -/
def bytes : Bytes → Bytes → Bool × Nat
  | x :: a, y :: b =>
    if x = y then
      let (same, n) := bytes a b
      (same, n + 1)
    else (false, 1)
  | [], [] => (true, 0)
  | _, _ => (false, 0)

/-- `==` on slices as used by `rmls/src/crypto/provider/mod.rs:224`: slices of different lengths differ at once. -/
def slices (a b : Bytes) : Bool × Nat :=
  if a.length = b.length then bytes a b else (false, 0)

/-- `verify_mac`, `rmls/src/crypto/provider/mod.rs:217-229`, and the number of pairs of bytes compared. -/
def verify_mac (P : CryptoProvider) (cs : CipherSuite) (key message tag : Bytes) : Res Unit × Nat :=
  match P.sign_mac cs key message with
  | .ok t =>
    let (same, n) := slices tag t
    (if same then .ok () else .err .VerifyConfirmationTagFailed, n)
  | .err e => (.err e, 0)
  | .fault f => (.fault f, 0)

/-- `PublicMessage::verify_membership_tag`, `rmls/src/framing/public_message.rs:120-149`, counted. -/
def verify_membership_tag (P : CryptoProvider) (cs : CipherSuite) (x : PublicMessage) (membership_key : Bytes)
    (ctx : GroupContext) : Res Unit × Nat :=
  match x.content.sender with
  | .External _ => (.ok (), 0)
  | .NewMemberProposal => (.ok (), 0)
  | .NewMemberCommit => (.ok (), 0)
  | .Member _ =>
    match x.membership_tag with
    | some membership_tag =>
      match (x.authenticated_content_tbm ctx).serialize with
      | .ok raw => verify_mac P cs membership_key raw membership_tag
      | .err _ => (.err .VerifyConfirmationTagFailed, 0)
      | .fault f => (.fault f, 0)
    | none => (.ok (), 0)

/-- `FramedContentAuthData::verify_confirmation_tag`, `rmls/src/framing/mod.rs:787-804`, counted. -/
def verify_confirmation_tag (P : CryptoProvider) (cs : CipherSuite) (x : FramedContentAuthData)
    (confirmation_key confirmed_transcript_hash : Bytes) : Res Unit × Nat :=
  if x.confirmation_tag.isEmpty then (.err .VerifyConfirmationTagFailed, 0)
  else verify_mac P cs confirmation_key confirmed_transcript_hash x.confirmation_tag

end Rmls.Compare
