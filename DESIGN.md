# DESIGN — a machine-checked model of webrtc-rs/rmls

This directory models the Rust crate in `/repo/rmls/src` in Lean 4 and proves the properties of
`properties.jsonl` about the model.  The Rust code was read as text; nothing was executed.  There is no
mechanical extraction: the fidelity of the model rests on reading, on the `file:lines` citation above every
definition, and on the mutation log in `seeded/LOG.jsonl`.

## Layout

* `lean/Verif/Model/*.lean` – the model, one Lean definition per Rust function.
* `lean/Verif/Spec/*.lean` – independent specifications (RFC presentation language, binary-tree geometry,
  resolutions, tree hashes, membership maps, key-schedule equations ...).  These do not use the model's helper
  functions; they share its data types.
* `lean/Verif/Proofs/*.lean` – helper lemmas.
* `lean/Verif/Props/*.lean` – the property theorems (named in `MANIFEST.json`), each next to an `example` or a
  lemma showing that its hypotheses are met in a non-trivial case.
* `lean/Verif/Exec/*.lean` – runs the model on the repository's test vectors; no theorem depends on it.

Theorem names begin with the property.  `_refuted` marks the negation of a property, by a concrete witness;
`_partial` marks what is true of a property that is false or not fully proved, and says what is missing.

## Trusted base

1. Lean's kernel (Lean 4.33.0), and Mathlib's/core's definitions of lists, natural numbers and fixed-width
   integers that occur in statements.
2. The axioms `propext`, `Classical.choice`, `Quot.sound`, per theorem in the last section.  No others, no
   `sorry`, no `native_decide`, no compiled code.
3. That the model is what the code does: the citations, and the conventions and simplifications below.
4. That the specifications in `Spec/` say what RFC 9420 says.
5. The behaviour of what is outside the crate, which enters theorems as explicit hypotheses (next section).

### Assumed of the outside

* `Vec`, `Bytes`, `HashMap`, `HashSet`, iterators, `RwLock`: as documented.  `HashSet`/`HashMap` are lists or
  predicates; the code never observes iteration order.
* `bytes::Buf`: `get_u8/16/32/64` and `copy_to_bytes` panic on short buffers, `remaining` is exact.
* The crypto libraries (`sha2`, `hmac`, `hkdf`, `aes-gcm`, `chacha20poly1305`, `hpke-rs`, `ed25519-dalek`, `p256`,
  `ring`): arbitrary functions of their arguments.  A theorem that needs a law (AEAD, HPKE or signature
  correctness, one digest length) has it as a hypothesis, and a toy instance satisfies it.  Nothing is assumed as
  to security: binding statements are "equal, or here are two different inputs with one digest".
  The secrecy statements (C76, C77) are about attackers whose only operation on secrets is calling the KDF forwards
  (`Spec.Computes`); inverting it or guessing a secret is not among their moves.
* The random number generator and the clock are parameters.
* Memory is sufficient and the stack deep enough.  `usize` has at least 32 bits.
* The lock of the key store is fair game for the scheduler: C45 is about every interleaving; a poisoned lock (a
  panic while it is held) is not modelled, no code panics while holding it.

## Modelling conventions and simplifications

* `Bytes` is `List UInt8`.  A `Buf` reader is a function from the remaining bytes to a value and the rest.  A
  `BufMut` writer is modelled by the bytes it appends; what a writer that fails half way has put into the buffer
  is not modelled, callers discard it.
* `Result<T>` is `Res α = ok a | err e | fault f` with `f = panic | hang`.  `fault panic` is a Rust panic (slice out
  of range, short buffer, arithmetic overflow, over-wide shift, `ilog2 0`, `unwrap`); `fault hang` is a loop that
  makes no progress or exceeds a bound shown never to be reached.
* `u8/u16/u32/u64` *fields* are `UInt8/16/32/64`.  Node and leaf indices in tree arithmetic are `Nat`; each
  operation that could overflow is an explicit panic: the semantics of a build with overflow checks.  The functions
  that depend on this are modelled a second time for a build without (`Model/Release`), in which loops get an
  arbitrary number of rounds; C69 relates the two.
* Newtypes around byte strings (keys, secrets, tags, signatures, identities) are erased to `Bytes`.
* Where bytes are said to determine a value, enumerations are in the representation that reading produces (the
  hypotheses `WF`): `Unsupported(1)` would be written like `MLS10`, and is never read.
* `&mut self` methods return the new value; `merge_update_path` returns it also on error.
* Loops become structural recursion, over the data or over fuel that is shown sufficient.

## What is modelled

| file of `rmls/src` | model | not modelled |
|---|---|---|
| `utilities/serde`, `utilities/error` | `Serde`, `Basic` | `Display`, conversions of foreign errors (all are `Other`) |
| `utilities/tree_math` | `TreeMath`, `Release` | |
| `utilities/serde/serde_test.rs` (passive client) | `Client` | loading the test vector from its file |
| `group/group_test.rs` (private and public messages, welcome) | `Receiver`, `MessageWork` | comparison with the expected bytes |
| `key_schedule/key_schedule_test.rs` (the loop over epochs) | `Epochs` | comparison with the expected values; the group contexts are arguments; the secrets other than `init` are C32 |
| `crypto/{mod,cipher_suite,credential,key_pair,config}` | `Enums`, `Wire`, `Suites`, `Config` | `Debug`/`Display` |
| `crypto/provider/mod` | `Crypto`, `Suites` | |
| `crypto/provider/{rust,ring}` and submodules | `Suites` | inside of the libraries; `drop`/zeroisation |
| `crypto/provider/key_store` | `KeyStore`, `Threads` | lock poisoning |
| `crypto/provider/rand` | `Threads` (which bytes of the key stream a request is given); elsewhere random bytes are a parameter | the key stream itself; lock poisoning; the end of the stream after 2^68 words |
| `extensibility` | `Enums`, `Wire` |  |
| `framing/mod`, `public_message`, `private_message` | `Wire`, `Framing` |  |
| `framing/proposal`, `commit` | `Wire`, `Proposal` | |
| `framing/group_info`, `welcome` | `Wire`, `Welcome` | |
| `key_package` | `Wire`, `KeyPackage`, `Group` | |
| `key_schedule` | `Wire`, `KeySchedule` | |
| `secret_tree` | `SecretTree`, `Release` | |
| `ratchet_tree` | `Wire`, `LeafNode`, `RatchetTree`, `Release`, `Work`, `MergeWork`, `ApplyWork`, `Tables` | |
| `group` | `Group` | `evolution` is empty in the repository |
| all `*_test.rs` that run test vectors | `Vectors`, `Client`, `Receiver` | loading the vectors from their files (done by `Exec/Run.lean`, outside of the proofs); the numbers and byte strings in JSON are taken as numbers and bytes |

Trivial accessors, `Deref`, `Default` and constructors are structure fields and literals in the model.

## The model run on the repository's test vectors

A theorem about the model is worth as much as the model is faithful.  The build of the repository cannot be run here, but its
test vectors (`/repo/rmls/test-vectors`) can be put to the model: `Verif/Exec/Crypto.lean` has the cryptographic algorithms of
suites 1 to 3 as total functions, written from their standards, `Verif/Exec/Run.lean` reads the files and runs the drivers of
`Verif/Model/{Vectors,Receiver,Client}.lean`, which model the repository's own tests.  No theorem depends on these files.  To run:

    cd lean && lake build Verif.Exec.Run
    leanc -O2 -o /tmp/run $(find .lake/build/ir/Verif/Model .lake/build/ir/Verif/Exec -name '*.c') && /tmp/run

With `RustCryptoProvider` every case of a supported suite passes in every file that the repository's tests read: tree-math 10,
crypto-basics 3, psk_secret 33, key-schedule 3, transcript-hashes 3, secret-tree 9, messages 300, message-protection 3,
tree-validation 42, tree-operations 5, treekem 33, welcome 3, passive-client-welcome 24, passive-client-handling-commit 39.
The same with `RingCryptoProvider`, but for message-protection, where the driver models the default build: the tag that ring leaves
behind the plaintext (C59) is taken for padding and refused; with `decrypt_content_ring`, as in that build, it passes.

Three things are learnt from `passive-client-random`, which the repository's tests leave out ("TODO", `serde_test.rs:365-366`):

* The model fails on it with the same error, `ParentHashMismatchForUpdatePathLeafNode`, as the comment there says the code does.
  The cause is the one named at C68 below: the path is merged into the tree before the proposals.
* `Verif/Exec/Follow.lean` is a member that goes on after the first commit, with the library's functions in the order of the RFC.
  It follows epochs 0 to 12 and fails in epoch 13: the array has 64 slots, is full, and `add` puts a leaf where a parent
  belongs.  This is the defect of C13, C62, C64 and C70 (`remove` leaves an array of even length), met in a published vector.
* With that one defect mended (`applyMended`) the member follows all 200 epochs, agrees with every epoch authenticator, and
  `verify_integrity` accepts the tree of every epoch.

## Plan per property

| id | model | proof |
|----|-------|-------|
| C01 | `serialize_varint`/`deserialize_varint` over byte lists | exact characterisation `decode b = ok (v, r) ↔ b = header v ++ r` against an arithmetic spec of the header |
| C02 | every reader/writer pair | compositional codec laws; well-formedness = enum values canonical, member public messages carry a tag, version MLS 1.0 where the reader insists |
| C03 | same | converse law: `decode b = (x, r) → encode x ++ r = b` and the value is well-formed |
| C04 | writers vs. an interpreter of the RFC presentation language (`Spec.Wire`) | equality of bytes for every type; a member's message without membership tag is the exception, exactly described |
| C05 | readers with explicit panics | false: refutations (short lifetime, short unmerged-leaf entry, one-byte proposal type); `_partial`: exact list of types that cannot panic, and panic-freedom of all types given those sites do not fire |
| C06 | readers with explicit `hang` | no reader returns `hang`, every vector element consumes input |
| C07 | `deserialize_exact` | false: refutation; `_partial`: what is accepted is a valid encoding followed by ignored bytes |
| C08 | writers | never fault; succeed iff the variable fields of the RFC encoding are below 2^30 bytes; three exceptions (no tag, no context, no commit), each exactly described |
| C09 | `RatchetTree` reader/writer | node-wise preservation, minimal full size, trailing-blank removal |
| C10, C11 | `tree_math` | node coordinates (level, position): closed forms for every function; ancestors/cover by induction on level |
| C12 | `parent` chain with explicit overflow | false: refutations; `_partial`: exact range in which the walk succeeds |
| C13–C15 | `add/update/remove` over node arrays | exact post-state of every slot; refutations for empty and shrunk trees |
| C16 | all operations | inductive invariant over histories, failed merges included |
| C17 | `add/update/remove` | simulation of a membership map over histories |
| C18 | `resolve` | equality with a structurally recursive spec on a subtree, and the exact condition for a panic, plus emptiness/ordering consequences |
| C19, C54 | `verify_integrity` | equivalence with `Spec.TreeValid`; refutation for blank unmerged leaves |
| C20, C21 | `compute_tree_hash` | induction on level; collision extraction; locality; exclusion = blanking |
| C22–C24 | `merge_update_path` | exact post-state on success; parent-hash chain; refutation of atomicity and of the one-member case |
| C25 | `supported_creds` | refutation with duplicate capability entries; exact for duplicate-free capabilities |
| C26, C27 | proposal list functions | iff with a declarative rule set |
| C28 | `apply` | three folds over filtered subsequences |
| C29–C31, C50, C52 | labelled inputs and TBS structures | injectivity of the encodings from the codec laws |
| C32, C33 | key schedule | equality with RFC equations over abstract `Extract`/`Expand` |
| C34 | transcript hashes | induction on histories, collision extraction |
| C35, C36 | secret tree and ratchets | node secret = derivation along the path; iterate of the step |
| C37–C39 | private messages | xor algebra; AEAD laws; zero padding characterisation |
| C40, C41 | public messages | sign/verify laws; refutation of the missing-tag case, exact acceptance condition |
| C42 | `Lifetime::verify` | refutation (test is inverted); `_partial`: exact acceptance condition |
| C43 | key package construction | refutation with a toy scheme (signs with the public key); exact condition |
| C44, C53 | verification decisions | iff with a declarative rule set; refutation of leaf coverage |
| C45 | key store | trace semantics of tasks with lock acquire/release; linearisation by induction over interleavings |
| C46, C57, C58 | builder, `from_welcome`, creation | exact final store; single use; refutation of failure atomicity and of the joined group's contents |
| C47 | welcome | first-match lookup; HPKE/AEAD round trip |
| C48 | provider tables | all 16-bit values by case analysis; built-in rows; sizes |
| C49, C51 | small decisions | iff with counting/lookup specs |
| C55 | confirmation tags | iff with the MAC equation |
| C56 | `KeyPackageRef` | equality with `RefHash`; collision extraction |
| C59 | AEAD wrappers of both providers | exact results from the cipher's laws; refutation for ring's in-place open |
| C60 | `KeyPackage::new`, ECDSA key decoding | panic condition; refutation for suite 2 |
| C61 | signature key generation of both providers | from the libraries' sign/verify law |
| C62 | `add/update/remove/merge_update_path` | inductive invariant (each parent hash found on one side, stored hashes come from known inputs) over histories; then C19; refutations for rejected paths and even arrays |
| C63 | both providers end to end; `decrypt_content` of both builds | composition of C38, C47, C48, C59, C61; refutation of the padding check in the ring build |
| C64 | tree arrays of old members and of a joiner, both under the same events | relation "equal, or one blank slot more" between the arrays; simulation of every operation by induction over the history; refutation with a full even array |
| C65 | `verify_proposal_list` with `apply` and `merge_update_path` on reachable trees | induction over the updates, removes and adds with the membership map as abstraction; capacity of the array from the shape invariant of C64; refutation in a group of two |
| C66 | passive client of `serde_test.rs` (joining): welcome, PSKs, tree, group info, key schedule | exact characterisation by composing C19, C32, C33, C47, C49, C50, C51, C55, C56; completeness for honest welcomes with C47 and C64; equal tree hash implies equal tree by C20 |
| C67 | `deserialize_opaque_vec`, `deserialize_vector`, tree reader | induction over the element loop with the bytes left as measure |
| C68 | passive client of `serde_test.rs` (commits), `keys` | exact characterisation by composing C25, C26, C27, C28, C30, C41, C44; refutations for the order of proposals and path, and for keys of inner nodes |
| C69 | `Model/Release`: tree arithmetic, ratchet tree and secret tree with wrapping `u32` | agreement by one congruence lemma per construct, by induction on the rounds; non-termination by showing that the indices outside the tree are closed under `parent` |
| C70 | passive client of `serde_test.rs` (commits) on two arrays for one tree | step by step simulation of `handleCommit`, with the array of an old member one blank slot longer; adds by induction on the blank leaves; refutation with a concrete commit |
| C71 | sender and receiver of `group_test.rs` (`Model/Receiver`) | exact characterisation by composing C02, C03, C30, C35, C36, C38; the search loop equals `n`-fold `derive_next` by induction on the rounds left; histories by C64 |
| C72 | sender of `group_test.rs` up to key and nonce (`Model/Epochs`: `messageKeys`), over the loop of `key_schedule_test.rs` | secrets as terms (`Spec/Derivation`: `Recipe`); equal secrets have the same term or two calls made on the way collide, by induction on terms; labels and contexts are told apart by the codec laws; the term of a leaf determines depth and path by induction on the depth |
| C73 | loop of `key_schedule_test.rs` (`Model/Epochs`: `run`) | same technique; the chain of init secrets by induction on the two histories, newest epoch first |
| C74 | readers and writers of the extension contents vs. `Spec/Extensions` | from C02, C04, C08, C09 for four of them; external senders: the reader takes the whole vector for the first field |
| C75 | `verify_integrity`, `KeyPackage::verify`, `supported_creds` | C19 and C25 for what is checked; witness tree for what is not |
| C76 | C72's derivations; who computes what by KDF calls (`Spec/Secrecy.lean`, no code) | induction on the attacker's calls: a reached secret is known, or all inputs of its call are reached, or calls collide; what may be kept is not part of the key's derivation |
| C77 | C73's derivations; attacker as in C76 | as C76; the new epoch's secrets are not part of earlier derivations |
| C78 | `PassiveClient.join`, `authenticator`, the key schedule | C66 for what a joiner has checked; secrets as terms as in C72; tree from the tree hash (C20) |
| C79 | `verify_integrity`, the reader of trees | witness trees; C16 and C64 for trees of a group |
| C80 | sender and receiver of public messages of `group_test.rs` (`Model/Receiver`) | from C02, C03, C30, C40, C41, C64 |
| C81 | same, and `handleCommit` | C30 for members; independence of the state for outside senders; witnesses |
| C82 | same | witness; case analysis of `handleCommit` |
| C83 | `passive_client_test` and `welcome_test` as a whole | C66, C68, C47, C50, C55, C56 behind the reader of messages (C02, C03) |
| C84 | everything that handles received data, with providers that do not panic | each call returns, by induction on lists and trees; the readers by C04; where there is a panic, a witness |
| C85 | as C26, C28, C68 | two lists that differ in what is not looked at have one outcome, by induction; any packages get through by C68 and C84; witnesses |
| C86 | as C22 | merging two paths that differ in ciphertexts gives one tree, by induction on the path; witness |
| C87 | as C35, C36, C76 | the way down to a leaf splits at each node over it, so the kept node is enough; the partial from C76 |
| C88 | as C46 | from C46; entries that are not in the store drop out, by induction |
| C89 | as C80, C68, C38 | witnesses through C80; the partials by cases |
| C90 | as C19 and C62 | invariant over all changes, started from acceptance instead of a first member; witness trees |
| C91 | the builder, `LeafNode::verify` through C19 | induction over the calls; counting of credential types |
| C92 | a counting version of `verify_integrity` (digests, leaf checks, comparisons of unmerged leaves), equal results; not counted: the steps of `resolve` and of the search for a parent hash, look-ups in hash sets, and the bytes per digest | sum over the array of the subtree sizes; a potential over the ancestors of a leaf; a family of accepted trees for the lower bound |
| C93 | the test drivers (`Model/Vectors`) | a separate statement of what a right vector is (`Spec/Vectors`); equivalences from C09, C11, C13–C15, C20, C22, C23, C30–C38, C44, C68, C71, C80; induction on the lists of a vector; refutations for all vectors by changing the fields that are not looked at |
| C94 | all readers | a law for readers, closed under sequencing (`Proofs/Cut`): accepted parts are extended freely, all shorter ones are refused for their length or panic, other errors persist; a separate collecting loop (`Spec/Stream`), induction on the pieces |
| C95 | all readers, `LeafNode::verify`, `KeyPackage::verify`, `verify_proposal_list`, `verify_integrity`, `merge_update_path`, `decrypt_group_secrets`, `from_welcome` | what each error claims, as a predicate on the rejected thing (`Spec/Reasons`, `Spec/Defects`); a law for the errors of readers, closed under sequencing (`Proofs/ReadErrors`); the first failing check by induction over leaves, parents and the walk to the root (`Proofs/Defects`) |
| C96 | `CryptoConfigBuilder`, `GroupConfigBuilder`, credential constructors and accessors | last setting of each kind, by induction over the calls; C43, C57 and C02 for what others read |
| C97 | the receiver of `group_test.rs` with its calls of the KDF counted (`Model/MessageWork`) | same results; exact count by induction over the levels of the secret tree and over the loop that looks for the generation; a family of accepted messages of one length for the refutation |
| C98 | `Rand::fill` on the shared generator, with its lock, among threads that run any programs of calls (`Model/Threads`) | the locks make calls atomic (invariant of the machine); position of the generator by induction over the run; pieces of the stream by their indices |
| C99 | `from_welcome` as a program of calls of the key store, run by any number of threads (`Model/Threads`) | refuted by running the threads in step, for every number of them; what is left by following the calls of one thread through a run |
| C100 | the functions that use the provider as programs of calls; lock machine and machine with atomic calls (`Model/Threads`) | the two machines refine each other; non-interference by induction over the run from its front, with a store of the thread's own that agrees on the keys nobody else changes |
| C101 | the transcript hash functions, the key schedule, `verify_confirmation_tag` | same authenticator, same group context (secrets as terms, C72/C73); same transcript hash, same commits (C34); the last tag is a MAC under the same key |
| C102 | `apply`, `update`, `remove`, `verify_proposal_list` | a general lemma on permuted monadic folds whose steps commute in pairs; exact effect of two removes (`remove_two`); partial: removes of blank leaves, and trees with inner nodes over one side only, are refuted |
| C103 | a counting version of `merge_update_path` (digests, nodes visited by `resolve`, unmerged leaves copied), equal results | the siblings of a path and the path are disjoint subtrees: induction up the path with the weight of a subtree as potential; the filtered path is a sublist of the path |
| C104 | `add`, `update`, `remove`, `merge_update_path` | effect of each on the length of the array; induction over the history with the largest number of occupied leaf slots as the bound |
| C105 | `Capabilities::{deserialize,serialize}`, `LeafNode::verify`, `KeyPackage::verify`, `supported_creds`, `verify_integrity` | reading from raw numbers through C02, C04, C08; the relation `GreasedNode` between trees carried through the exact conditions of C19, C25, C44 |
| C106 | `add`, `update`, `remove`, `merge_update_path` | knowledge of people as a relation beside the tree (`Spec/Knowledge.lean`); induction over the history with the slot by slot effects of C13 to C15 and C22, the resolution lemmas of C11, and the level at which two leaves part (`parting`); the knowledge gained from a path is shown to be the closure under the deduction rules `Deduces` |
| C107 | `verify_integrity`, `verify_parent_hashes`, `find_parent_hash`, `compute_parent_hash` | chains of parent hashes as an inductive relation (`Spec/Chain.lean`); induction on the level over the exact conditions of C19; injectivity of `ParentHashInput`; for honest groups the invariant of C62 with the rest of the resolution |
| C108 | `verify_mac`, `verify_membership_tag`, `verify_confirmation_tag`, counted (`Model/Compare.lean`) | work of the comparison of slices as a loop; the adversary as a program with an oracle (`Spec/Compare.lean`); induction on the bytes still unknown |
| C109 | `aead_open`, `aead_seal` of both providers; `derive_private_message_key_and_nonce`, `expand_sender_data_*`, `PrivateMessage::new` | case analysis over the ciphers against the table of RFC 9180; sizes through `expand_with_label`; composition of `Returns` |
| C110 | `PrivateMessage::new` and all it calls | the ideal of AEAD security as a hypothesis; a simulator that knows only what is shown (`Spec/Hidden.lean`); from `C38_built` |
| C111 | `verify_proposal_list`, the commit handling of the client | sections 12.1.4 and 12.1.5 stated by themselves; from `C26_exact`, `C68_exact_partial`; counter-example |
| C112 | `resolve`, `compute_tree_hash`, `derive_children` | the fuel of the model read as room on the stack; independence of the fuel by induction over the level, and its necessity |
| C113 | `apply`, `add`, `remove` with counters (`Model/ApplyWork.lean`) | the counting version proved equal; upper bound by induction over the proposals with the list of the leaves taken; lower bound by the invariant that the first n leaves stay taken |
| C114 | the functions that use `HashSet` and `HashMap`, with the tables as parameters (`Model/Tables.lean`) | simulation: a table and a list with the same entries give the same outcome, by induction over each loop; two runs agree because both equal the model |
| C115 | the resolutions of the copath as the code computes them (`copath`, `resolve`), against a count over the nodes of the tree | sums over subtrees split along the path; a member below every parent that it does not list as unmerged is an invariant of histories; different leaves below a node are no more than the members below it |
| C116 | the receiver and sender of `group_test.rs` over the model of `PrivateMessage`; what was sealed and what a forgery is, in `Spec/Forgery.lean` | unique decoding of the additional data, the keys as recipes, and determinism of sealing |
| C117 | the verification and signing functions, the receivers of `group_test.rs` and the client; what was signed and what a forgery is, in `Spec/Author.lean` | unique decoding of labels and of the four signed structures |
| C118 | the tag functions of public messages, the receiver of `group_test.rs` and the client; what was tagged and what a forgery is, in `Spec/Tag.lean` | unique decoding of `AuthenticatedContentTBM` |
| C119 | the senders of `group_test.rs` and what they call, down to the providers; what fits and the sizes of the standards in `Spec/Sending.lean` | totality of key derivation, of encodings below 2^30 bytes and of sealing, put together with C71 and C80 |
| C120 | joining (C66), sending (C119) and the functions a welcome is made with; the inviting program in `Spec/Invite.lean` | totality of every step by lengths, then C66 and C119 |
| C121 | building (C43, C57, C60) and joining (C46) | totality of every step by lengths; the refusals from the exact conditions of C43 and C57 |
| C122 | joining (C66), sending (C119), merging (C22), the client (C68) | the filtered path is not empty if there is another leaf; C22 gives the parent hash; the leaf is valid because the old one was; the sizes by comparing encodings |
| C123 | merging (C22, C23), the checks of the client (C68), of trees (C19) | the invariant of C90 gives the parent hashes; exchanging nodes by ones that can be encoded keeps the tree hash defined; keys by the place they have on the path; induction over the paths |
| C124 | merging (C22), the checks of the client (C68), acceptable trees (C123) | one turn as in C122; the members, their signature keys and the lengths of their paths are the same after it, the keys in the tree are old or of the path; induction over the schedule |
| C125 | add, update, remove, merge (C13–C15, C22, C23), the checks of trees (C19) | an invariant: that of C90, and each leaf is good by itself and beside each other; every change keeps it; a tree with it passes every check of C19; induction over the history |
| C126 | add (C13), the checks of trees (C19), making a welcome (C120), joining (C66), private messages (C119) | those who are added are in the tree afterwards; the history is orderly (C125), so the tree passes the checks; with that C120 applies |
| C127 | the client's handling of commits (C68), `apply` (C28), the rules of C125 | the proposals are split into removes and adds (updates are excluded by the check of the committer); removes and adds are shown to be steps of an orderly history, the adds by induction with conditions on the tree before the commit only; then C125 |

## Where the code disagrees with its claim

Each is a theorem ending in `_refuted` (or named below), with a concrete witness.

* `deserialize_exact` accepts trailing bytes (C07).
* Readers panic: lifetime of a leaf, unmerged leaves of a parent, proposal type (C05).
* The ratchet tree reader accepts trailing blanks (C03, C09).
* A member's public message without membership tag, as `PublicMessage::new` returns it, is written without complaint; the
  bytes lack the last field and cannot be read back (C04, C08).
* Tree arithmetic overflows for huge indices; the empty tree panics (C12, C13, C20); `resolve` panics on unmerged
  leaf indices from 2^31 (C18).
* `remove` leaves an array of even length; a later `add` to it writes the leaf into an inner slot and the member
  is lost (C13, C15, C17), after which the tree has no hash (C62).
* `verify_integrity` accepts blank unmerged leaves (C54), and lists of them out of order or with repetitions (C79).
* The checks on a public message never look at the group id and epoch it names; messages of external senders pass in every
  group and epoch (C81), and application data passes in the clear (C82).
* `merge_update_path` changes the tree before it checks the path (C24, C62), and rejects every path of a member
  alone in the group (C22).
* `supported_creds` counts a type twice that a member repeats (C25).
* PSK index and count wrap at 65536 (C33).
* `SecretTree::new` fails unless the number of leaves is a power of two; `derive_next` panics at the last
  generation (C35, C36).
* `verify_membership_tag` accepts a member's message without a tag (C41).
* `Lifetime::verify` accepts exactly the expired (C42).
* `LeafNode::new` and `KeyPackage::from_keys` sign with the public key (C43); in suite 2 that panics (C60).
* `KeyPackage::verify` does not check the leaf's signature (C53).
* `ExternalSendersExtension` is one sender where RFC 9420 has a vector of them, so that the two never
  understand each other (C74).
* Required capabilities are read nowhere: a tree is accepted whose members lack them (C75).
* `from_welcome` deletes the key package before checking the rest, and returns the default group (C46, C58).
* The ring provider's `aead_open` returns 16 bytes too many (C59); the padding check is compiled out of that build,
  so that this goes unnoticed (C63).
* `remove` leaves an array of even length, the parser makes one of odd length: when the tree is full the next
  `add` grows a joiner's tree properly while the old members lose the new member (C64).
* A commit that removes members and adds others can lose those added: in a group of two, replacing the other
  member passes the check, is applied without error, and leaves the committer alone (C65).
* The passive client merges the path of a commit into the tree without the proposals, so that it rejects honest
  commits that add a member and have a path; `keys` does not return the keys of inner nodes, so that a path can
  use them again, after which no joiner accepts the tree (C68).
* In a build without overflow checks an index outside the tree does not panic but never ends: at the top node of the
  `u32` range `parent` wraps to the rightmost leaf and starts again (`direct_path` appends to a vector meanwhile).  A
  removal that passes `verify_proposal_list`, or a tree with an unmerged leaf outside it whose hashes and leaves are in
  order, is enough.  And `node_index` wraps, so that leaf index i + 2^31 is leaf i: a committer can remove themselves (C69).
* After a group has shrunk, an old member's array has even length.  A commit that adds a member is then accepted by old
  members and by those who joined since, but the former do not have the new member in the tree and fail to compute its
  hash (C70, from C64).
* Received data can make the client panic: a tree without nodes, which is read from the byte 0; a tree that lists an
  unmerged leaf outside of it; the plaintext of a private message that ends within an Add proposal; a Remove of a leaf
  outside of the tree, which passes `verify_proposal_list` (C84).
* A commit is not checked for what it adds, updates or removes: any key packages with different signature keys get into
  the tree, unsigned, for another suite, or with the keys of a member, after which nobody can join; a leaf that is blank
  can be removed (C85).
* The ciphertexts of a path are not looked at; a path without any is merged (C86).
* `SecretTree` keeps the secrets of all its nodes, the encryption secret among them, and nothing deletes them, so that
  every key of an epoch can be computed again from the tree (C87).
* `from_welcome` takes the first entry that names something in the key store, which holds private keys under the public
  keys as well.  An entry that names the init key of a package, in front of the right one, makes the join fail (C88).
* Public messages are not checked for who may send what: commits and application data of external senders pass the
  signature check, which is all there is for them (C89).
* A tree that was accepted can become unacceptable by an ordinary change: adding in the place of a blank leaf that a lower
  parent lists as unmerged, removing such that a parent is left outside of the tree, or adding a leaf node that carries a
  parent hash (C90).
* The defaults of the key package builder are of no use: the lifetime from zero to zero is never accepted, and without
  capabilities the credential type of the member counts as not supported (C91).
* Unmerged leaves may be listed many times, and every one of them is searched for in every list on the way up: the check of
  a tree with three members can take a number of comparisons that is quadratic in the bytes of the tree (C92).
* The conformance tests do not look at everything in the vectors: not at secrets in TreeKEM, not at the exporter, the external
  key and the epoch authenticator of an epoch, not at three of the proposals, and not at whether a message is of the kind the
  field is for; lists may be cut short (C93).
* A message that is cut off in a lifetime makes the reader panic, and a vector whose announced length ends inside an element is
  reported as a buffer that is too small although no further bytes can mend it: a receiver that waits for more waits for
  ever (C94).
* Some errors are not true of what is rejected: an unknown version in a group context is reported as an invalid proposal type
  (`key_schedule/mod.rs:90-92`), a failed membership tag as a failed confirmation tag, an unmerged leaf elsewhere in the tree as
  missing from an intermediate node (C95).
* Nothing bounds how far ahead the generation of a private message may be: a message of a member, of a fixed small length, makes the
  receiver derive up to 2^32 - 1 secrets (C97; `group_test.rs:285-287`, the library has no limit to apply).
* `Group::from_welcome` looks a key package up, deletes it, looks its init key up and deletes that in four separate calls and ignores what
  `delete` gives back: any number of threads that join with the same welcome at the same time can all succeed (C99; `creation.rs:46-65`).
* C102: `verify_proposal_list` does not check that removed leaves are occupied. In an array of 7 slots with members 0 and 2, the removes [2, 3] panic (the first cuts the array to 2 slots) while [3, 2] succeed. With a crafted non-blank parent over leaves 0-3 of 8 whose members are 0, 1 and 5, removes [5, 0] leave the parent behind in the slot right of the tree and [0, 5] blank it, so members who apply the removes in different orders disagree.
* **Parent hashes (C107).** RFC 9420 section 7.9.2 asks that the resolution of the child on the side of the parent hash consists of the node that carries it and of unmerged leaves of the parent. `verify_parent_hashes` (`ratchet_tree/mod.rs:622-685`) only looks for some node of the resolution that carries the hash. A tree in which members below a parent were neither sent its key nor listed as unmerged is accepted (`C107_refuted`).
* **Comparison of tags (C108).** `verify_mac` (`crypto/provider/mod.rs:224`) compares the tag with `==` on slices, which may stop at the first difference. With the work of such a comparison visible, a tag is found byte by byte (`C108_forged`). The model of the comparison is an assumption: the language promises neither that it stops early nor that it does not.
* **Sizes of keys (C109).** `aead_open` and `aead_seal` of the RustCrypto provider (`crypto/provider/rust/hpke.rs:115-233`) mean to return an error for a key or nonce of the wrong size, but `try_into` from a slice to `&GenericArray` is the blanket conversion over `From<&[T]>`, which panics (`generic-array` 0.14; the same conversion is called as `into` in `rust/signature.rs:75`). The `map_err` is dead code. Nothing in the library derives keys of a wrong size.
* C111: `verify_proposal_list` does not look into proposals for pre-shared keys (length of the nonce, use) or for re-initialisation (version), RFC 9420 sections 12.1.4 and 12.1.5: `C111_refuted`, `C111_psk_any`, `C111_reinit_any`.
* C113: `add` searches for a free leaf from the left each time (`ratchet_tree/mod.rs:734-744`), so that k adds to a full tree of k members look at k squared slots (`C113_refuted`).
* C121: with suite 2 (P-256 and ECDSA) no key package can be built with a generated key pair, see C60.
* C122: a member who is alone in the tree cannot renew their keys, see C22.
* C123: the client accepts paths after which no newcomer accepts the tree: with one key at two places of the path (`C123_twice_refuted`), or from a member whose new leaf no longer supports a credential type that is in use (`C123_capabilities_refuted`).
* C125: after a removal the next member to be added can end up at an inner node, and then nobody accepts the tree (`C125_lost_refuted`); a leaf that lists a credential type twice locks everybody out (`C125_repeated_refuted`).
* C127: a commit that keeps to the rules leaves a tree that newcomers accept unless it adds after it has emptied the right half of the tree: if the first of two members replaces the second by a third, the third is put at an inner node and nobody accepts the tree (`C127_replaced_refuted`). See C85 for what the client does not check.

## Axioms per theorem

<!-- axioms -->
* **no axioms**: C18_nonblank, C42_expired_refuted, C45_readers, C45_separate, C58_created_partial,
  C61_refused, C93_refuted_unsupported.
* **`propext`**: C03_ratchet_tree_refuted, C05_refuted, C05_refuted_parts, C07_refuted,
  C108_leak_partial, C108_none, C108_same, C108_same_confirmation, C108_same_membership,
  C109_rust_refuted, C110_providers, C114_keys, C114_proposals, C12_empty, C13_add_empty_refuted,
  C15_shape_refuted, C20_empty_panics, C25_repeated_refuted, C41_refuted, C47_find, C48_hash,
  C48_hpke, C48_kem, C48_label_unsupported, C48_signature, C61_all_schemes, C61_generated, C61_pair,
  C61_verify, C62_even_refuted, C62_rejected_refuted, C66_find, C70_no_adds, C93_refuted_messages,
  C93_refuted_treekem, C95_tag_refuted, C95_version_refuted.
* **`Quot.sound`, `propext`**: C01_varint_writes, C04_rfc_bytes_partial,
  C04_rfc_bytes_private_content, C04_rfc_bytes_ratchet_tree, C04_untagged,
  C05_proposal_type_panics_iff, C08_error_partial, C08_no_commit, C08_no_context,
  C08_succeeds_iff_partial, C08_succeeds_iff_ratchet_tree, C09_trailing_blanks, C100_alone,
  C100_atomic, C100_create, C103_same, C104_add, C104_size, C108_forged, C108_forged_confirmation,
  C108_forged_membership, C108_refuted, C109_right_partial, C109_ring, C10_coordinates,
  C10_in_order, C10_level, C10_width, C113_same, C114_creds, C114_hash, C114_merge, C115_blanks,
  C115_least, C119_application, C12_get_leaf_exact, C12_node_index_exact, C12_walk_refuted,
  C16_needs_last, C18_large_unmerged_refuted, C21_without_exists, C22_outside, C24_refuted,
  C26_total, C27_exact, C28_apply, C28_interleaving, C29_decrypt, C29_derive, C29_encrypt,
  C29_expand, C29_ref_hash, C29_sign, C29_verify, C35_unique, C41_exact, C45_contents,
  C45_linearizable, C47_find_none, C48_errors, C48_expand_ring, C48_expand_rust, C48_expander,
  C48_label, C48_supported, C48_table, C55_binds, C55_commit, C61_bad_key, C61_key_size,
  C66_find_none, C69_alias_refuted, C69_changing_partial, C69_merging_partial,
  C69_navigation_partial, C69_reading_partial, C84_providers, C85_blind, C86_blind,
  C93_crypto_basics, C94_cut_tree_partial, C94_final, C94_final_accepted, C94_final_tree,
  C94_refuted_cut, C95_tag, C96_credential, C98_given, C98_guards, C98_once, C98_order, C98_threads.
* **`Classical.choice`, `Quot.sound`, `propext`**: C01_varint_range, C01_varint_reads,
  C02_round_trip, C03_canonical, C03_injective, C03_prefix_free, C04_untagged_refuted,
  C04_untagged_unreadable, C05_lifetime_panics_iff, C05_mls_message_partial,
  C05_never_panics_partial, C06_terminates, C06_terminates_private_content,
  C06_terminates_ratchet_tree, C07_exact_partial, C07_refuted_everywhere, C08_never_faults,
  C09_extension, C09_injective, C09_read_full, C09_round_trip, C09_round_trip_exact, C100_build,
  C100_build_fails, C100_join, C100_progress, C101_commits, C101_fork, C102_blank_refuted,
  C102_half_refuted, C102_order_partial, C102_removes_partial, C102_updates, C103_full, C103_merge,
  C104_grown, C104_last, C104_roomy, C105_creds, C105_key_package, C105_leaf, C105_read, C105_tree,
  C106_commit_secret, C106_exact, C106_outsider, C106_path, C106_rules, C106_who, C107_binding,
  C107_chain_partial, C107_honest, C107_refuted, C109_derived, C109_library, C10_children,
  C10_consistent, C10_leaf, C10_leaf_index, C10_left_right, C10_num_leaves, C10_parent,
  C10_parent_child, C10_root, C10_sibling, C110_hidden, C110_length, C110_length_seen, C110_same,
  C111_blind, C111_commit_any, C111_partial, C111_psk_any, C111_refuted, C111_reinit_any, C112_hash,
  C112_hash_tight, C112_over, C112_resolve, C112_resolve_tight, C112_root, C112_secret_tight,
  C112_secret_tree, C113_grown, C113_least, C113_partial, C113_refuted, C113_remove, C114_commit,
  C114_integrity, C114_join, C114_leaf, C114_run, C115_code, C115_full, C115_members, C115_merged,
  C116_made, C116_sent, C117_commit, C117_group_info, C117_join, C117_key_package, C117_leaf,
  C117_message, C117_private, C117_public, C117_signs, C118_commit, C118_covers, C118_made,
  C118_one, C118_sent, C119_members, C119_members_public, C119_private, C119_providers, C119_public,
  C119_too_long, C119_too_long_public, C11_ancestors, C11_copath, C11_direct_path, C11_partition,
  C120_invites, C120_joins, C120_talk, C121_builds, C121_joins, C121_providers_partial,
  C121_refused, C121_refuted, C121_scheme, C121_unsupported, C122_alone, C122_renews,
  C123_capabilities_refuted, C123_client_partial, C123_forever_partial, C123_stays_partial,
  C123_twice_refuted, C124_length, C124_round, C124_schedule, C125_always_partial,
  C125_from_partial, C125_lost_refuted, C125_repeated_refuted, C126_admits, C127_adds_partial,
  C127_both_partial, C127_removes_partial, C127_replaced_refuted, C12_operations_partial,
  C12_remove_refuted, C12_update_dropped_refuted, C12_update_refuted, C12_walk_exact,
  C13_add_even_refuted, C13_add_free, C13_add_grow_partial, C14_update, C15_others_kept,
  C15_remove_last_member, C15_remove_partial, C16_history, C16_members, C16_reachable, C16_resolve,
  C17_history_partial, C17_lost_refuted, C17_progress, C18_antichain, C18_complete, C18_empty,
  C18_nodup, C18_panics, C18_resolve_partial, C18_resolve_small, C18_sound, C19_exact, C19_sound,
  C20_binding, C20_binding_array, C20_heights, C20_rfc, C20_root, C21_exclusion, C21_local,
  C22_accepts, C22_alone_fails, C22_effect, C22_exact, C22_filtered, C22_wrong_count,
  C23_parent_hashes, C24_frame_partial, C25_exact, C25_partial, C26_exact, C26_order,
  C29_one_meaning, C29_separated, C30_binding, C30_one_message, C30_verify, C31_binding,
  C31_position, C31_verifies, C32_context, C32_derived, C32_distinct, C32_epoch, C32_joiner,
  C32_welcome, C33_binding, C33_commits, C33_fold_partial, C33_mismatch, C33_refuted, C33_succeeds,
  C34_confirmed, C34_hashes, C34_interim, C34_messages, C35_labels, C35_ratchet_root, C35_secrets,
  C35_succeeds, C36_generation, C36_key_nonce, C36_reach, C36_separated, C37_distinct, C37_nonce,
  C37_sender_data, C38_built, C38_content, C38_round_trip, C38_sender_data, C39_nonzero,
  C39_padding, C40_builds, C40_verifies, C41_wire_partial, C42_exact, C42_partial,
  C42_valid_refuted, C43_contents, C43_exact, C43_refuted, C43_verifies_partial, C44_key_package,
  C44_leaf, C44_total, C45_exclusive, C45_progress, C46_failing_partial, C46_filed, C46_refuted,
  C46_removed, C46_succeeds, C46_used_once, C47_group_info, C47_group_secrets, C47_not_addressed,
  C47_own_entry, C47_round_trip, C49_exact, C50_binding, C50_one_info, C50_verify, C51_complete,
  C51_exact, C52_bytes, C52_kinds, C53_covers_partial, C53_refuted, C54_partial, C54_refuted,
  C55_group_info, C56_identifies, C56_ref, C57_failing, C57_filed, C57_join, C57_settings,
  C57_stored, C58_refuted, C59_open_rust, C59_refuted, C59_ring_partial, C59_rust, C59_seal,
  C60_partial, C60_refuted, C62_accepted_partial, C62_both_used, C62_linked, C62_one_side,
  C62_unmerged, C63_padding_any, C63_padding_refuted, C63_ring, C63_ring_content, C63_rust,
  C63_welcome, C64_agree, C64_follow_partial, C64_merge_result, C64_read, C64_refuted,
  C65_commit_partial, C65_path, C65_refuted, C66_exact, C66_same, C66_welcome, C67_opaque, C67_tree,
  C67_vector, C68_client_partial, C68_exact_partial, C68_honest_partial, C68_joined, C68_keys,
  C68_refuted, C68_reused_refuted, C69_checking_partial, C69_commit_refuted, C69_committer_refuted,
  C69_direct_path_refuted, C69_integrity_refuted, C69_merge_refuted, C69_remove_refuted,
  C69_secrets_partial, C69_unmerged_refuted, C69_update_refuted, C70_apply_partial, C70_refuted,
  C70_verdict_partial, C71_accepted, C71_delivers, C71_exact, C71_loop, C71_members, C71_ready,
  C72_unique, C72_used, C73_agree, C73_history, C73_same_length, C74_contents_partial,
  C74_external_senders_refuted, C75_blind, C75_partial, C75_refuted, C76_code, C76_forward,
  C77_code, C77_locked_out, C78_joiners, C78_member, C78_member_tree, C78_tags, C79_read_partial,
  C79_refuted, C80_delivers, C80_exact, C80_members, C81_commit_refuted, C81_inside_partial,
  C81_outside, C81_refuted, C82_client_partial, C82_refuted, C83_encryption_pair, C83_exact,
  C83_one_message, C83_passes, C83_signature_pair, C83_welcome, C84_accepted, C84_checks,
  C84_commit_partial, C84_commit_refuted, C84_content_partial, C84_content_refuted, C84_secrets,
  C84_tree_partial, C84_tree_refuted, C85_any, C85_partial, C85_refuted, C85_remove_refuted,
  C86_partial, C86_refuted, C87_kept, C87_ratchet_partial, C87_refuted, C88_blocked, C88_partial,
  C88_refuted, C89_client_partial, C89_private_partial, C89_refuted, C90_blank_refuted,
  C90_half_refuted, C90_partial, C90_source_refuted, C90_unordered, C91_capabilities_refuted,
  C91_lifetime_refuted, C91_partial, C91_settings, C92_partial, C92_read_partial, C92_refuted,
  C92_refuted_factor, C92_same, C93_key_pairs, C93_key_schedule_partial, C93_messages_partial,
  C93_operations, C93_protection_partial, C93_protection_private_partial,
  C93_protection_public_partial, C93_psk, C93_refuted_key_schedule, C93_refuted_protection,
  C93_refuted_short, C93_secret_tree, C93_transcript, C93_tree_math, C93_tree_validation_partial,
  C93_treekem_partial, C94_collected, C94_collected_partial, C94_cut, C94_cut_message,
  C94_cut_partial, C94_private_wait, C94_refuted_wait, C95_commit, C95_credential_refuted, C95_join,
  C95_key_package, C95_leaf, C95_lifetime_refuted, C95_path_hash_partial, C95_path_length,
  C95_proposals, C95_reading, C95_reading_partial, C95_single_refuted, C95_tree,
  C95_unmerged_refuted, C95_welcome, C96_crypto_config, C96_group, C96_group_config, C96_package,
  C97_chosen, C97_exact, C97_outsiders, C97_partial, C97_refuted, C97_same, C97_sends,
  C99_gone_partial, C99_late_partial, C99_refuted, C99_removed_once_partial.
<!-- end axioms -->
