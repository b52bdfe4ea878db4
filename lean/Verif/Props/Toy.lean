import Verif.Model.Crypto
/-
A small provider that satisfies every law assumed of the primitives anywhere in the property theorems, so
that the hypotheses of those theorems can be met.  It is of course not secure.
-/
namespace Rmls

/-- "Digest" and "MAC" are injective encodings of their arguments. -/
def toyHash : Hash where
  size := 4
  digest b := b
  mac k b := k ++ b

def toyHpke : Hpke where
  kem_derive_key_pair ikm := .ok { private_key := ikm, public_key := ikm }
  kdf_expand s _ n := .ok (List.replicate n.toNat (s.headD 0))
  kdf_extract s salt := .ok (salt ++ s)
  kdf_extract_size := 4
  aead_nonce_size := 12
  aead_key_size := 16
  aead_open k n c a := if (k ++ n ++ a).isPrefixOf c then .ok (c.drop (k ++ n ++ a).length) else .err .Other
  aead_seal k n p a := .ok (k ++ n ++ a ++ p)

def toySignature : Signature where
  signature_key_pair r := .ok { private_key := r, public_key := r, signature_scheme := .ED25519 }
  signature_scheme := .ED25519
  sign k m := .ok (k ++ m)
  verify k m s := if s = k ++ m then .ok () else .err .Other

def toyProvider : CryptoProvider where
  supports _ := true
  hash _ := .ok toyHash
  hpke _ := .ok toyHpke
  signature _ := .ok toySignature
  hpke_seal _ r pk i p := .ok (r, pk ++ i ++ p)
  hpke_open _ sk i _ c := if (sk ++ i).isPrefixOf c then .ok (c.drop (sk ++ i).length) else .err .Other

end Rmls
