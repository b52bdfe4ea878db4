import Verif.Spec.KeySchedule
/-
Welcome messages and confirmation tags (RFC 9420 sections 8.1, 8.4, 12.4.3.1).
-/
namespace Rmls.Spec
open Enc

/-- A resumption PSK with usage `reinit` or `branch`. -/
def ReinitOrBranch (x : PreSharedKeyID) : Prop :=
  ∃ r, x.psk = .Resumption r ∧ (r.usage = .Reinit ∨ r.usage = .Branch)

/-- `s` is the first of the entries addressed to `r`. -/
def FirstFor (r : KeyPackageRef) (entries : List EncryptedGroupSecrets) (s : EncryptedGroupSecrets) : Prop :=
  ∃ before after, entries = before ++ s :: after ∧ s.new_member = r ∧ ∀ e ∈ before, e.new_member ≠ r

/-- The suites for which the library can encrypt to public keys. -/
def HpkeSuite (cs : CipherSuite) : Prop := cipherSuite cs = uint 2 1 ∨ cipherSuite cs = uint 2 2 ∨ cipherSuite cs = uint 2 3

/-- The private key opens what was sealed to the public key. -/
def HpkePair (P : CryptoProvider) (cs : CipherSuite) (priv pub : Bytes) : Prop :=
  ∀ rnd info plain kem cipher, P.hpke_seal cs rnd pub info plain = .ok (kem, cipher) →
    P.hpke_open cs priv info kem cipher = .ok plain

/-- Section 12.4.3.1: key and nonce of the encrypted group info. -/
def WelcomeKeys (h : Hpke) (joiner psk key nonce : Bytes) : Prop :=
  ∃ s, WelcomeSecret h joiner psk s ∧ Expands h s (text "key") [] h.aead_key_size key ∧
    Expands h s (text "nonce") [] h.aead_nonce_size nonce

/-- The confirmation key of the epoch that the joiner secret and the PSK secret lead to. -/
def ConfirmationKey (h : Hpke) (ctx : GroupContext) (joiner psk key : Bytes) : Prop :=
  ∃ e, EpochSecret h ctx joiner psk e ∧ Derives h e (text "confirm") key

end Rmls.Spec
