import Verif.Exec.Follow
import Verif.Model.Vectors
import Verif.Model.Receiver
import Lean.Data.Json
/-
Runs the model, with the algorithms of `Verif.Exec.Crypto`, on the test vectors in `/repo/rmls/test-vectors`.  This is a test of
how faithful the model is: the drivers are those of the repository's own tests (`Verif.Model.Vectors`).  How to run it is said
in DESIGN.md.
-/
namespace Rmls.Exec
open Lean Rmls.Vectors

/-- A hexadecimal digit. -/
def hexv (c : Char) : UInt8 :=
  if c.isDigit then (c.toNat - 48).toUInt8 else (c.toNat - 87).toUInt8
/-- `hex::serde`. -/
def unhex (s : String) : Bytes :=
  let rec go : List Char → Bytes
    | a :: b :: r => (hexv a * 16 + hexv b) :: go r
    | _ => []
  go s.toList
/-- A field of an object. -/
def get (j : Json) (k : String) : Json := (j.getObjVal? k).toOption.getD .null
/-- A field that is a string. -/
def str (j : Json) (k : String) : String := ((get j k).getStr?.toOption).getD "??"
/-- A field that is a hexadecimal string. -/
def hx (j : Json) (k : String) : Bytes := unhex (str j k)
/-- A field that is a number. -/
def nat (j : Json) (k : String) : Nat := ((get j k).getNat?.toOption).getD 999999
/-- A field that is an array. -/
def arr (j : Json) (k : String) : List Json := (((get j k).getArr?.toOption).getD #[]).toList
/-- A number or null. -/
def onat (j : Json) : Option Nat := j.getNat?.toOption
/-- A hexadecimal string. -/
def hxs (j : Json) : Bytes := unhex (j.getStr?.toOption.getD "??")
/-- A hexadecimal string or null. -/
def ohx (j : Json) : Option Bytes := (j.getStr?.toOption).map unhex
/-- The number of the cipher suite. -/
def suite (j : Json) : UInt16 := (nat j "cipher_suite").toUInt16

/-- `load_test_vector`, `rmls/src/utilities/serde/serde_test.rs:14-22`. -/
def load (f : String) : IO (List Json) := do
  let s ← IO.FS.readFile s!"/repo/rmls/test-vectors/{f}.json"
  match Json.parse s with
  | .ok j => return (j.getArr?.toOption.getD #[]).toList
  | .error e => throw (IO.userError e)

/-- An outcome in words. -/
def showRes {α} : Res α → String
  | .ok _ => "ok"
  | .err e => s!"err {repr e}"
  | .fault f => s!"fault {repr f}"

/-- Runs `test` on every case of a file whose suite is supported. -/
def each (P : CryptoProvider) (f : String) (always : Bool) (test : CipherSuite → Json → Res Unit) : IO Unit := do
  let cases ← load f
  let mut ok := 0
  let mut bad := 0
  let mut skip := 0
  let mut i := 0
  for j in cases do
    let cs := CipherSuite.ofU16 (suite j)
    if always || P.supports cs then
      match test cs j with
      | .ok () => ok := ok + 1
      | r => bad := bad + 1; IO.println s!"  {f}[{i}] suite {suite j}: {showRes r}"
    else skip := skip + 1
    i := i + 1
  IO.println s!"{f}: {ok} passed, {bad} failed, {skip} not supported"
  (← IO.getStdout).flush

/-- What is drawn where randomness is needed. -/
def entropy : Bytes := List.replicate 32 7
/-- The bytes of a reuse guard. -/
def guard4 : Bytes := [1, 2, 3, 4]

/-- The case of a passive client. -/
def input (j : Json) : PassiveClient.Input :=
  { external_psks := (arr j "external_psks").map fun p => (hx p "psk_id", hx p "psk")
    key_package := hx j "key_package", signature_priv := hx j "signature_priv"
    encryption_priv := hx j "encryption_priv", init_priv := hx j "init_priv", welcome := hx j "welcome"
    ratchet_tree := ohx (get j "ratchet_tree")
    initial_epoch_authenticator := hx j "initial_epoch_authenticator"
    epochs := (arr j "epochs").map fun e => hx e "commit" }

/-- `passive_client_test` on a case. -/
def passive (P : CryptoProvider) (cs : CipherSuite) (j : Json) : Res Unit := do
  let _ ← PassiveClient.passive_client_test P entropy entropy cs (input j)
  pure ()

/-- Follows all epochs of a case. -/
def followAll (P : CryptoProvider) (mend : Bool) (cs : CipherSuite) (tag : String) (j : Json) : IO Unit := do
  let tc := input j
  match joinMember P cs tc with
  | .ok m0 =>
    let mut m := m0
    let mut i := 0
    for e in arr j "epochs" do
      match follow P cs mend tc.external_psks m ((arr e "proposals").map hxs) (hx e "commit") with
      | .ok (m', a) =>
        if a = hx e "epoch_authenticator" then m := m'
        else IO.println s!"{tag} epoch {i}: wrong authenticator"; return
      | r => IO.println s!"{tag} epoch {i}: {showRes r}; array of {m.tree.length} slots"; return
      i := i + 1
    IO.println s!"{tag}: {i} epochs followed, leaves {m.tree.num_leaves}"
  | r => IO.println s!"{tag}: join {showRes r}"

/-- Follows all epochs of all cases of a file. -/
def followFile (P : CryptoProvider) (mend : Bool) (f : String) : IO Unit := do
  let mut i := 0
  for j in ← load f do
    let cs := CipherSuite.ofU16 (suite j)
    if P.supports cs then followAll P mend cs s!"{f}[{i}] suite {suite j}" j
    (← IO.getStdout).flush
    i := i + 1

/-- All files. -/
def all (P : CryptoProvider) : IO Unit := do
  let each := each P
  each "tree-math" true fun _ j => tree_math_test
    { n_leaves := nat j "n_leaves", n_nodes := nat j "n_nodes", root := nat j "root"
      left := (arr j "left").map onat, right := (arr j "right").map onat
      parent := (arr j "parent").map onat, sibling := (arr j "sibling").map onat }
  each "crypto-basics" false fun cs j =>
    let r := get j "ref_hash"; let e := get j "expand_with_label"; let d := get j "derive_secret"
    let t := get j "derive_tree_secret"; let s := get j "sign_with_label"; let h := get j "encrypt_with_label"
    crypto_basics_test P entropy cs
    { cipher_suite := suite j
      ref_hash_label := ascii (str r "label"), ref_hash_value := hx r "value", ref_hash_out := hx r "out"
      expand_secret := hx e "secret", expand_label := ascii (str e "label"), expand_context := hx e "context"
      expand_length := (nat e "length").toUInt16, expand_out := hx e "out"
      derive_label := ascii (str d "label"), derive_secret := hx d "secret", derive_out := hx d "out"
      tree_secret := hx t "secret", tree_label := ascii (str t "label"), tree_generation := (nat t "generation").toUInt32
      tree_length := (nat t "length").toUInt16, tree_out := hx t "out"
      sign_priv := hx s "priv", sign_pub := hx s "pub", sign_content := hx s "content"
      sign_label := ascii (str s "label"), sign_signature := hx s "signature"
      encrypt_priv := hx h "priv", encrypt_pub := hx h "pub", encrypt_label := ascii (str h "label")
      encrypt_context := hx h "context", encrypt_plaintext := hx h "plaintext"
      encrypt_kem_output := hx h "kem_output", encrypt_ciphertext := hx h "ciphertext" }
  each "psk_secret" false fun cs j => psk_secret_test P cs
    { cipher_suite := suite j, psk_secret := hx j "psk_secret"
      psks := (arr j "psks").map fun p => { psk_id := hx p "psk_id", psk := hx p "psk", psk_nonce := hx p "psk_nonce" } }
  each "key-schedule" false fun cs j => key_schedule_test P cs
    { cipher_suite := suite j, group_id := hx j "group_id", initial_init_secret := hx j "initial_init_secret"
      epochs := (arr j "epochs").map fun e =>
        let x := get e "exporter"
        { tree_hash := hx e "tree_hash", commit_secret := hx e "commit_secret", psk_secret := hx e "psk_secret"
          confirmed_transcript_hash := hx e "confirmed_transcript_hash", group_context := hx e "group_context"
          joiner_secret := hx e "joiner_secret", welcome_secret := hx e "welcome_secret", init_secret := hx e "init_secret"
          sender_data_secret := hx e "sender_data_secret", encryption_secret := hx e "encryption_secret"
          exporter_secret := hx e "exporter_secret", epoch_authenticator := hx e "epoch_authenticator"
          external_secret := hx e "external_secret", confirmation_key := hx e "confirmation_key"
          membership_key := hx e "membership_key", resumption_psk := hx e "resumption_psk"
          external_pub := hx e "external_pub"
          exporter := { label := ascii (str x "label"), context := hx x "context", length := (nat x "length").toUInt32
                        secret := hx x "secret" } } }
  each "transcript-hashes" false fun cs j => transcript_hashes_test P cs
    { cipher_suite := suite j, confirmation_key := hx j "confirmation_key"
      authenticated_content := hx j "authenticated_content"
      interim_transcript_hash_before := hx j "interim_transcript_hash_before"
      confirmed_transcript_hash_after := hx j "confirmed_transcript_hash_after"
      interim_transcript_hash_after := hx j "interim_transcript_hash_after" }
  each "secret-tree" false fun cs j =>
    let s := get j "sender_data"
    secret_tree_test P cs
    { cipher_suite := suite j, sender_data_secret := hx s "sender_data_secret", ciphertext := hx s "ciphertext"
      key := hx s "key", nonce := hx s "nonce", encryption_secret := hx j "encryption_secret"
      leaves := (arr j "leaves").map fun l => (l.getArr?.toOption.getD #[]).toList.map fun g =>
        { generation := (nat g "generation").toUInt32, handshake_key := hx g "handshake_key"
          handshake_nonce := hx g "handshake_nonce", application_key := hx g "application_key"
          application_nonce := hx g "application_nonce" } }
  each "messages" true fun _ j => messages_test
    { mls_welcome := hx j "mls_welcome", mls_group_info := hx j "mls_group_info"
      mls_key_package := hx j "mls_key_package", ratchet_tree := hx j "ratchet_tree"
      group_secrets := hx j "group_secrets", add_proposal := hx j "add_proposal"
      update_proposal := hx j "update_proposal", remove_proposal := hx j "remove_proposal"
      pre_shared_key_proposal := hx j "pre_shared_key_proposal", re_init_proposal := hx j "re_init_proposal"
      external_init_proposal := hx j "external_init_proposal"
      group_context_extensions_proposal := hx j "group_context_extensions_proposal", commit := hx j "commit"
      public_message_application := hx j "public_message_application"
      public_message_proposal := hx j "public_message_proposal", public_message_commit := hx j "public_message_commit"
      private_message := hx j "private_message" }
  each "message-protection" false fun cs j => message_protection_test P guard4 cs
    { cipher_suite := suite j, group_id := hx j "group_id", epoch := (nat j "epoch").toUInt64
      tree_hash := hx j "tree_hash", confirmed_transcript_hash := hx j "confirmed_transcript_hash"
      signature_priv := hx j "signature_priv", signature_pub := hx j "signature_pub"
      encryption_secret := hx j "encryption_secret", sender_data_secret := hx j "sender_data_secret"
      membership_key := hx j "membership_key", proposal := hx j "proposal", proposal_pub := hx j "proposal_pub"
      proposal_priv := hx j "proposal_priv", commit := hx j "commit", commit_pub := hx j "commit_pub"
      commit_priv := hx j "commit_priv", application := hx j "application", application_priv := hx j "application_priv" }
  each "tree-validation" false fun cs j => tree_validation_test P cs
    { cipher_suite := suite j, tree := hx j "tree", group_id := hx j "group_id"
      resolutions := (arr j "resolutions").map fun l => (l.getArr?.toOption.getD #[]).toList.map fun x => (onat x).getD 0
      tree_hashes := (arr j "tree_hashes").map hxs }
  each "tree-operations" false fun cs j => tree_operations_test P cs
    { cipher_suite := suite j, tree_before := hx j "tree_before", proposal := hx j "proposal"
      proposal_sender := (nat j "proposal_sender").toUInt32, tree_after := hx j "tree_after"
      tree_hash_after := hx j "tree_hash_after", tree_hash_before := hx j "tree_hash_before" }
  each "treekem" false fun cs j => tree_kem_test P cs
    { cipher_suite := suite j, group_id := hx j "group_id", epoch := (nat j "epoch").toUInt64
      confirmed_transcript_hash := hx j "confirmed_transcript_hash", ratchet_tree := hx j "ratchet_tree"
      leaves_private := (arr j "leaves_private").map fun l =>
        { index := (nat l "index").toUInt32, encryption_priv := hx l "encryption_priv"
          signature_priv := hx l "signature_priv"
          path_secrets := (arr l "path_secrets").map fun p => ((nat p "node").toUInt32, hx p "path_secret") }
      update_paths := (arr j "update_paths").map fun u =>
        { sender := (nat u "sender").toUInt32, update_path := hx u "update_path"
          path_secrets := (arr u "path_secrets").map ohx, commit_secret := hx u "commit_secret"
          tree_hash_after := hx u "tree_hash_after" } }
  each "welcome" false fun _ j => do
    let _ ← welcome_test P (hx j "init_priv") (hx j "signer_pub") (hx j "key_package") (hx j "welcome")
    pure ()
  each "passive-client-welcome" false (passive P)
  each "passive-client-handling-commit" false (passive P)
  each "passive-client-random" false (passive P)

/-- The drivers on all files, then the member that follows all epochs, for both providers. -/
def run : IO Unit := do
  for (name, P) in [("RustCryptoProvider", RustCryptoProvider primitives), ("RingCryptoProvider", RingCryptoProvider primitives)] do
    IO.println name
    IO.println s!"signature_key_pair: {showRes (signature_key_pair_test P entropy [1, 2, 3, 4, 5, 6, 7])}"
    all P
    followFile P false "passive-client-handling-commit"
    followFile P false "passive-client-random"
    IO.println "with the defect of `remove` mended:"
    followFile P true "passive-client-random"

end Rmls.Exec

/-- The program. -/
def main : IO Unit := Rmls.Exec.run
