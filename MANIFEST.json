{"claims": [
{"property": "C01", "status": "proved", "theorems": ["Rmls.C01_varint_writes", "Rmls.C01_varint_reads", "Rmls.C01_varint_range"], "note": "Reader and writer both characterised exactly by the RFC header function."},
{"property": "C02", "status": "proved", "theorems": ["Rmls.C02_round_trip"], "note": "All 55 entries of Spec.wireCodecs; the ratchet tree container is C09, private message plaintext C39."},
{"property": "C03", "status": "proved", "theorems": ["Rmls.C03_canonical", "Rmls.C03_injective", "Rmls.C03_prefix_free", "Rmls.C03_ratchet_tree_refuted"], "note": "All entries of Spec.wireCodecs; refuted for the ratchet tree container (trailing blanks), see C09."},
{"property": "C04", "status": "partial", "theorems": ["Rmls.C04_rfc_bytes_partial", "Rmls.C04_rfc_bytes_ratchet_tree", "Rmls.C04_rfc_bytes_private_content", "Rmls.C04_untagged", "Rmls.C04_untagged_unreadable", "Rmls.C04_untagged_refuted"], "note": "False of a member's public message without membership tag (as PublicMessage::new returns it): it is written without the last field and cannot be read back (C04_untagged, C04_untagged_unreadable, C04_untagged_refuted). Everything else: proved against Spec.Enc, a transcription of the RFC presentation language. ExternalSendersExtension is one sender where the RFC has a vector; the model and spec follow the code there."},
{"property": "C05", "status": "partial", "theorems": ["Rmls.C05_refuted", "Rmls.C05_refuted_parts", "Rmls.C05_never_panics_partial", "Rmls.C05_mls_message_partial", "Rmls.C05_lifetime_panics_iff", "Rmls.C05_proposal_type_panics_iff"], "note": "False: refuted by concrete inputs. Proved for the types without leaf lifetime / unmerged leaves; a whole message can panic only as public message or key package."},
{"property": "C06", "status": "proved", "theorems": ["Rmls.C06_terminates", "Rmls.C06_terminates_ratchet_tree", "Rmls.C06_terminates_private_content"], "note": "All wire types, ratchet tree with padding loop, private content with padding loop."},
{"property": "C07", "status": "partial", "theorems": ["Rmls.C07_refuted", "Rmls.C07_exact_partial", "Rmls.C07_refuted_everywhere"], "note": "False: trailing bytes are ignored by every type. Proved: accepted iff a prefix is the encoding."},
{"property": "C08", "status": "partial", "theorems": ["Rmls.C08_succeeds_iff_partial", "Rmls.C08_succeeds_iff_ratchet_tree", "Rmls.C08_error_partial", "Rmls.C08_never_faults", "Rmls.C08_no_context", "Rmls.C08_no_commit"], "note": "Success iff the RFC encoding fits, errors are the size errors, no faults, provided the message of a member has its membership tag, signed content its group context, and transcript input is a commit. Outside: a missing tag is silently left out (C04_untagged), a missing context and a transcript input that is no commit are errors of their own (C08_no_context, C08_no_commit)."},
{"property": "C09", "status": "proved", "theorems": ["Rmls.C09_round_trip", "Rmls.C09_round_trip_exact", "Rmls.C09_extension", "Rmls.C09_read_full", "Rmls.C09_trailing_blanks", "Rmls.C09_injective"], "note": "Same node at every index, minimal full length, injective; exact round trip for minimal full trees."},
{"property": "C10", "status": "proved", "theorems": ["Rmls.C10_in_order", "Rmls.C10_coordinates", "Rmls.C10_num_leaves", "Rmls.C10_root", "Rmls.C10_width", "Rmls.C10_level", "Rmls.C10_leaf", "Rmls.C10_leaf_index", "Rmls.C10_children", "Rmls.C10_left_right", "Rmls.C10_parent", "Rmls.C10_sibling", "Rmls.C10_consistent", "Rmls.C10_parent_child"], "note": "In-order numbering, coordinates, root, level, children, parent, sibling, leaf index; also as interface-only consistency laws. Debug (overflow checked) semantics, at most 2^31 leaves."},
{"property": "C11", "status": "proved", "theorems": ["Rmls.C11_direct_path", "Rmls.C11_ancestors", "Rmls.C11_copath", "Rmls.C11_partition"], "note": "Direct path = ancestors bottom up, characterised by leaf-set inclusion; copath = siblings; node and copath partition the leaves."},
{"property": "C12", "status": "partial", "theorems": ["Rmls.C12_update_refuted", "Rmls.C12_remove_refuted", "Rmls.C12_update_dropped_refuted", "Rmls.C12_operations_partial", "Rmls.C12_get_leaf_exact", "Rmls.C12_walk_exact", "Rmls.C12_node_index_exact", "Rmls.C12_empty", "Rmls.C12_walk_refuted"], "note": "False: panics exactly characterised for walks, leaf index conversion, update, remove; a dropped update characterised."},
{"property": "C13", "status": "partial", "theorems": ["Rmls.C13_add_free", "Rmls.C13_add_grow_partial", "Rmls.C13_add_even_refuted", "Rmls.C13_add_empty_refuted"], "note": "Exact post-state for a free slot, and for growing arrays of odd size. False for arrays of even size (left by remove): the member is lost. Adding to an empty tree panics."},
{"property": "C14", "status": "proved", "theorems": ["Rmls.C14_update"], "note": "Exact post-state of every slot."},
{"property": "C15", "status": "partial", "theorems": ["Rmls.C15_remove_partial", "Rmls.C15_remove_last_member", "Rmls.C15_others_kept", "Rmls.C15_shape_refuted"], "note": "Exact post-state; everything holds but the array keeps one slot too many (even size), which C13 trips over."},
{"property": "C16", "status": "proved", "theorems": ["Rmls.C16_history", "Rmls.C16_members", "Rmls.C16_reachable", "Rmls.C16_resolve", "Rmls.C16_needs_last"], "note": "Inductive invariant over all histories of add, update, remove and merge steps, including failed merges and adds that lose the member, from every well-formed tree (in particular a new group). C16_needs_last shows why the invariant speaks about the slot left over in even-length arrays."},
{"property": "C17", "status": "partial", "theorems": ["Rmls.C17_progress", "Rmls.C17_history_partial", "Rmls.C17_lost_refuted"], "note": "Simulation over all histories of legal operations; adds to full even-size arrays (member lost, refuted) and to empty trees (panic) excluded."},
{"property": "C18", "status": "partial", "theorems": ["Rmls.C18_resolve_partial", "Rmls.C18_panics", "Rmls.C18_resolve_small", "Rmls.C18_large_unmerged_refuted", "Rmls.C18_empty", "Rmls.C18_nonblank", "Rmls.C18_sound", "Rmls.C18_complete", "Rmls.C18_nodup", "Rmls.C18_antichain"], "note": "For every tree and node resolve returns exactly the recursion of RFC 9420 section 4.1.1, unless this lists a leaf whose node index does not fit 32 bits, which the wire format allows: then it panics (C18_panics, C18_large_unmerged_refuted). Soundness, completeness, absence of duplicates and the antichain property of the recursion are proved separately."},
{"property": "C19", "status": "proved", "theorems": ["Rmls.C19_sound", "Rmls.C19_exact"], "note": "Acceptance is equivalent to Spec.TreeValid (tree hash, parent hashes, leaves, distinct keys, unmerged leaves) for every nonempty array of fewer than 2^32 slots with nothing outside its perfect tree; the direction claimed holds for every array. Unmerged leaves need not be occupied: C54."},
{"property": "C20", "status": "proved", "theorems": ["Rmls.C20_rfc", "Rmls.C20_root", "Rmls.C20_binding", "Rmls.C20_heights", "Rmls.C20_binding_array", "Rmls.C20_empty_panics"], "note": "Root hash = RFC 9420 7.8 recursion (exact, with the exact error condition); binding up to an explicit collision between an input hashed for one tree and one hashed for the other. Leaves in canonical enum representation. The slot left over in even-length arrays is not part of the tree and not covered. The empty tree panics (C20_empty_panics)."},
{"property": "C21", "status": "proved", "theorems": ["Rmls.C21_local", "Rmls.C21_exclusion", "Rmls.C21_without_exists"], "note": "Equality of results including errors; existence of the reduced tree shown separately."},
{"property": "C22", "status": "proved", "theorems": ["Rmls.C22_filtered", "Rmls.C22_effect", "Rmls.C22_accepts", "Rmls.C22_alone_fails", "Rmls.C22_wrong_count", "Rmls.C22_exact", "Rmls.C22_outside"], "note": "Exact post-state of every slot after every successful merge from a leaf in the array, for arrays of every size; the exact condition for success where unmerged leaf indices are below 2^31 (others can panic, C18). A path is never accepted from a member alone in the group (C22_alone_fails). A sender outside of the array is not covered: C22_outside."},
{"property": "C23", "status": "proved", "theorems": ["Rmls.C23_parent_hashes"], "note": "Parent hashes recomputed in the merged tree by a separate definition of RFC 9420 section 7.9, with the tree hash of C20."},
{"property": "C24", "status": "partial", "theorems": ["Rmls.C24_frame_partial", "Rmls.C24_refuted"], "note": "False: the ancestors are cleared before the path is checked (C24_refuted). Proved: in every outcome nothing but the ancestors changes, the leaf only on success."},
{"property": "C25", "status": "partial", "theorems": ["Rmls.C25_exact", "Rmls.C25_partial", "Rmls.C25_repeated_refuted"], "note": "Exact: a type is returned iff its occurrences over all members number as many as the members. That is 'supported by every member' when no member repeats a type (C25_partial), false otherwise (C25_repeated_refuted)."},
{"property": "C26", "status": "proved", "theorems": ["Rmls.C26_exact", "Rmls.C26_total", "Rmls.C26_order"], "note": "C26_exact: verify_proposal_list accepts exactly the lists described by an independent specification (Spec.ProposalsValid), for all lists; C26_total: it never panics; C26_order: acceptance does not depend on order."},
{"property": "C27", "status": "proved", "theorems": ["Rmls.C27_exact"], "note": "C27_exact: proposal_list_needs_path returns false exactly when the list is non-empty and made of add, PSK and reinit proposals only."},
{"property": "C28", "status": "proved", "theorems": ["Rmls.C28_apply", "Rmls.C28_interleaving"], "note": "Equality of results (including errors and panics) with updates, then removes, then adds, each in list order; needs a sender for each proposal."},
{"property": "C29", "status": "proved", "theorems": ["Rmls.C29_expand", "Rmls.C29_derive", "Rmls.C29_sign", "Rmls.C29_verify", "Rmls.C29_encrypt", "Rmls.C29_decrypt", "Rmls.C29_ref_hash", "Rmls.C29_separated", "Rmls.C29_one_meaning"], "note": "Bytes fed to the primitives by every labelled operation equal the RFC structures, and those encodings are injective in label, context and length and pairwise separated. The primitives themselves are parameters."},
{"property": "C30", "status": "proved", "theorems": ["Rmls.C30_binding", "Rmls.C30_verify", "Rmls.C30_one_message"], "note": "Signed bytes are injective in all fields and, for members and external joiners, the context; verification is accepted exactly for a signature over these bytes; so under a binding signature scheme one signature fits one message in one group state."},
{"property": "C31", "status": "proved", "theorems": ["Rmls.C31_binding", "Rmls.C31_verifies", "Rmls.C31_position"], "note": "Signed bytes determine every field of the leaf payload and, for update and commit leaves, group id and leaf index; hence a signature accepted at two places (under a signature scheme in which no two messages share a signature) is one leaf at one place."},
{"property": "C32", "status": "proved", "theorems": ["Rmls.C32_joiner", "Rmls.C32_welcome", "Rmls.C32_epoch", "Rmls.C32_derived", "Rmls.C32_distinct", "Rmls.C32_context"], "note": "Joiner, welcome, epoch and derived secrets are equivalent to the RFC's extract/expand chain over the primitives; labels are distinct and the expanded inputs bind label and context. Sizes of the suite below 2^16 (true of every suite)."},
{"property": "C33", "status": "partial", "theorems": ["Rmls.C33_commits", "Rmls.C33_fold_partial", "Rmls.C33_mismatch", "Rmls.C33_succeeds", "Rmls.C33_binding", "Rmls.C33_refuted"], "note": "False from 65536 PSKs on, where index and count wrap silently (C33_refuted). Below that, equivalent to the RFC's iteration (C33_fold_partial); the secret commits to the whole list of ids and PSKs up to an explicit collision (C33_commits); the only failure is a length mismatch, for primitives that do what RFC 5869 says (Expander, Extractor), as both providers do (C48_expander)."},
{"property": "C34", "status": "proved", "theorems": ["Rmls.C34_hashes", "Rmls.C34_confirmed", "Rmls.C34_interim", "Rmls.C34_messages"], "note": "The functions compute the hashes of section 8.2; histories of equal length and start with equal confirmed (interim) hash are equal up to the last tag (entirely), or two of the hashed strings collide. Digests of one length."},
{"property": "C35", "status": "proved", "theorems": ["Rmls.C35_secrets", "Rmls.C35_unique", "Rmls.C35_succeeds", "Rmls.C35_ratchet_root", "Rmls.C35_labels"], "note": "For every full tree (the numbers of leaves an MLS tree has) every node gets its RFC secret; success for exactly the powers of two up to 2^31, exact outcome otherwise; ratchet roots and distinct labels. Where success is claimed, the encryption secret has at least the length of the hash and the KDF does what RFC 5869 says (Expander), as in both providers (C48_expander)."},
{"property": "C36", "status": "proved", "theorems": ["Rmls.C36_generation", "Rmls.C36_key_nonce", "Rmls.C36_reach", "Rmls.C36_separated"], "note": "Equivalence with the RFC's recursion for every generation; exactly the generations below 2^32 are reachable and the step beyond panics; inputs for key, nonce, successor and all generations are pairwise different. Reachability is for secrets of at least the length of the hash and a KDF as in RFC 5869 (Expander, C48_expander)."},
{"property": "C37", "status": "proved", "theorems": ["Rmls.C37_nonce", "Rmls.C37_distinct", "Rmls.C37_sender_data"], "note": "Exact bytes of the nonce; different 4-byte guards give different nonces and equal keys; only the first four bytes are affected."},
{"property": "C38", "status": "proved", "theorems": ["Rmls.C38_built", "Rmls.C38_sender_data", "Rmls.C38_content", "Rmls.C38_round_trip"], "note": "Building, sender-data decryption and content decryption are each equivalent to sections 6.3.1/6.3.2 over the primitives; round trip and signature under AEAD and signature correctness. The content check is that of the build without RingCryptoProvider."},
{"property": "C39", "status": "proved", "theorems": ["Rmls.C39_padding", "Rmls.C39_nonzero"], "note": "Accepted iff encoding followed by zeros (RustCryptoProvider build)."},
{"property": "C40", "status": "proved", "theorems": ["Rmls.C40_verifies", "Rmls.C40_builds"], "note": "Built and tagged messages verify under matching keys (C40_verifies), and building succeeds when the primitives do and the encodings fit (C40_builds). A matching key pair is a hypothesis."},
{"property": "C41", "status": "partial", "theorems": ["Rmls.C41_exact", "Rmls.C41_refuted", "Rmls.C41_wire_partial"], "note": "False: a member's message without tag is accepted (C41_refuted). Exact condition in C41_exact; the claim holds for messages read from the wire (C41_wire_partial)."},
{"property": "C42", "status": "partial", "theorems": ["Rmls.C42_exact", "Rmls.C42_valid_refuted", "Rmls.C42_expired_refuted", "Rmls.C42_partial"], "note": "False: acceptance is exactly 'expired, and long enough in microseconds' (C42_exact); both halves of the claim are refuted by witnesses."},
{"property": "C43", "status": "partial", "theorems": ["Rmls.C43_contents", "Rmls.C43_verifies_partial", "Rmls.C43_exact", "Rmls.C43_refuted"], "note": "False: construction signs with the public key (C43_refuted); exact condition in C43_exact; contents proved."},
{"property": "C44", "status": "proved", "theorems": ["Rmls.C44_leaf", "Rmls.C44_key_package", "Rmls.C44_total"], "note": "Exact conditions, as an iff, for leaf and key package verification; never faults when the signature primitive does not."},
{"property": "C45", "status": "proved", "theorems": ["Rmls.C45_linearizable", "Rmls.C45_contents", "Rmls.C45_separate", "Rmls.C45_progress", "Rmls.C45_readers", "Rmls.C45_exclusive"], "note": "Every interleaving of any number of tasks, with the lock's acquire/release as atomic steps; answers and final contents are those of running the calls one at a time in lock order."},
{"property": "C46", "status": "partial", "theorems": ["Rmls.C46_succeeds", "Rmls.C46_removed", "Rmls.C46_used_once", "Rmls.C46_filed", "Rmls.C46_failing_partial", "Rmls.C46_refuted"], "note": "Proved: exactly when joining succeeds, that a join removes the package and init key and nothing else, and that no package is used twice. Refuted for failing joins (C46_refuted): the key package is deleted before the init key is checked, so a failing join may lose it; C46_failing_partial bounds the loss."},
{"property": "C47", "status": "proved", "theorems": ["Rmls.C47_find", "Rmls.C47_find_none", "Rmls.C47_group_secrets", "Rmls.C47_not_addressed", "Rmls.C47_own_entry", "Rmls.C47_group_info", "Rmls.C47_round_trip"], "note": "Lookup returns the first entry with the reference; decryption of secrets and info equivalent to section 12.4.3.1 (trailing bytes after the decrypted structures are ignored, see C07); round trip under HPKE and AEAD correctness."},
{"property": "C48", "status": "proved", "theorems": ["Rmls.C48_supported", "Rmls.C48_table", "Rmls.C48_hash", "Rmls.C48_hpke", "Rmls.C48_expand_rust", "Rmls.C48_expand_ring", "Rmls.C48_expander", "Rmls.C48_kem", "Rmls.C48_errors", "Rmls.C48_signature", "Rmls.C48_label", "Rmls.C48_label_unsupported"], "note": "Both providers, all 65536 code points; all seven rows of the built-in table; sizes, HMAC extraction and HKDF expansion; HPKE type parameters of the labelled encryption agree with the table. The providers have the KDF of RFC 5869 (C48_expander); C48_errors says what the operations refuse and how."},
{"property": "C49", "status": "proved", "theorems": ["Rmls.C49_exact"], "note": "Exact for every list."},
{"property": "C50", "status": "proved", "theorems": ["Rmls.C50_binding", "Rmls.C50_verify", "Rmls.C50_one_info"], "note": "Signed bytes determine context, extensions, confirmation tag and signer; verification is accepted exactly for a signature over these bytes."},
{"property": "C51", "status": "proved", "theorems": ["Rmls.C51_exact", "Rmls.C51_complete"], "note": "Exact result (C51_exact), leaves that cannot be encoded included: they are not found; every stored leaf is found in every tree with distinct encryption keys (C51_complete). Leaves in canonical representation, trees of fewer than 2^32 slots."},
{"property": "C52", "status": "proved", "theorems": ["Rmls.C52_bytes", "Rmls.C52_kinds"], "note": "Signed bytes of the four kinds differ; under a binding signature scheme no signature is accepted for two kinds."},
{"property": "C53", "status": "partial", "theorems": ["Rmls.C53_refuted", "Rmls.C53_covers_partial"], "note": "False: the leaf signature is not checked (C53_refuted). Proved: the key package signature covers the whole leaf including its signature (C53_covers_partial)."},
{"property": "C54", "status": "partial", "theorems": ["Rmls.C54_refuted", "Rmls.C54_partial"], "note": "False: blank leaves may be listed (C54_refuted). Proved: they are leaf places below the parent."},
{"property": "C55", "status": "proved", "theorems": ["Rmls.C55_commit", "Rmls.C55_group_info", "Rmls.C55_binds"], "note": "Both checks equivalent to the MAC of section 8.1/6.1."},
{"property": "C56", "status": "proved", "theorems": ["Rmls.C56_ref", "Rmls.C56_identifies"], "note": "Reference equals section 5.2's KeyPackageRef; equal references mean equal packages or an explicit hash collision."},
{"property": "C57", "status": "proved", "theorems": ["Rmls.C57_stored", "Rmls.C57_failing", "Rmls.C57_settings", "Rmls.C57_join", "Rmls.C57_filed"], "note": "Exact contents of the store after building, failing builds included; a built package is one that a later join finds."},
{"property": "C58", "status": "partial", "theorems": ["Rmls.C58_refuted", "Rmls.C58_created_partial"], "note": "Creation uses the settings given (C58_created_partial). Refuted for joining (C58_refuted): from_welcome always returns the default group."},
{"property": "C59", "status": "partial", "theorems": ["Rmls.C59_seal", "Rmls.C59_open_rust", "Rmls.C59_rust", "Rmls.C59_ring_partial", "Rmls.C59_refuted"], "note": "Proved for the RustCrypto provider (C59_rust, with exact conditions C59_seal and C59_open_rust). Refuted for the ring provider (C59_refuted): it returns the plaintext followed by 16 bytes; C59_ring_partial."},
{"property": "C60", "status": "partial", "theorems": ["Rmls.C60_refuted", "Rmls.C60_partial"], "note": "Proved for suites 1 and 3 and any keys (C60_partial). Refuted for suite 2 (C60_refuted): with any generated key pair the call panics, because the public key is passed to ECDSA signing."},
{"property": "C61", "status": "proved", "theorems": ["Rmls.C61_generated", "Rmls.C61_key_size", "Rmls.C61_bad_key", "Rmls.C61_verify", "Rmls.C61_all_schemes", "Rmls.C61_refused", "Rmls.C61_pair"], "note": "From the correctness of the signature libraries, both providers, every supported suite. C61_refused: the schemes that are not implemented are refused with one error everywhere."},
{"property": "C62", "status": "partial", "theorems": ["Rmls.C62_linked", "Rmls.C62_one_side", "Rmls.C62_unmerged", "Rmls.C62_both_used", "Rmls.C62_accepted_partial", "Rmls.C62_rejected_refuted", "Rmls.C62_even_refuted"], "note": "Proved for every history in which paths are accepted and members are added where there is a free slot or the array has odd length. Refuted otherwise: a rejected path leaves a tree that fails the check (C62_rejected_refuted); adding to a full array of even length gives a tree without a tree hash (C62_even_refuted)."},
{"property": "C63", "status": "partial", "theorems": ["Rmls.C63_ring_content", "Rmls.C63_rust", "Rmls.C63_ring", "Rmls.C63_welcome", "Rmls.C63_padding_any", "Rmls.C63_padding_refuted"], "note": "Round trips proved for both providers and every supported suite from the laws of the libraries. Refuted for padding in the RingCryptoProvider build (C63_padding_refuted): the check is compiled out, any padding is accepted (C63_ring_content is the exact condition); with the RustCrypto provider it is C39."},
{"property": "C64", "status": "partial", "theorems": ["Rmls.C64_read", "Rmls.C64_agree", "Rmls.C64_follow_partial", "Rmls.C64_merge_result", "Rmls.C64_refuted"], "note": "Proved for every history in which members are added where there is a free slot or the array has odd length (C64_follow_partial). Refuted otherwise (C64_refuted): after a removal the old members' array has one slot more than a joiner's, and the next add to the full tree reaches the joiner's tree but is lost from the old members'."},
{"property": "C65", "status": "partial", "theorems": ["Rmls.C65_commit_partial", "Rmls.C65_path", "Rmls.C65_refuted"], "note": "Proved for every reachable tree if the added members fit below the least power of two above the members that stay, or the array has odd length and nobody is removed (C65_commit_partial, C65_path). Refuted otherwise (C65_refuted): in a group of two, a commit that replaces the other member loses the new one."},
{"property": "C66", "status": "proved", "theorems": ["Rmls.C66_find", "Rmls.C66_find_none", "Rmls.C66_exact", "Rmls.C66_welcome", "Rmls.C66_same"], "note": "For the passive client of serde_test.rs, the one place where the library's functions are put together to join a group; less than 65536 PSKs (C33). The library's own Group::from_welcome is C46/C58."},
{"property": "C67", "status": "proved", "theorems": ["Rmls.C67_opaque", "Rmls.C67_vector", "Rmls.C67_tree"], "note": "For the readers of byte strings, of vectors with any element reader, and of trees."},
{"property": "C68", "status": "partial", "theorems": ["Rmls.C68_keys", "Rmls.C68_exact_partial", "Rmls.C68_joined", "Rmls.C68_honest_partial", "Rmls.C68_refuted", "Rmls.C68_reused_refuted", "Rmls.C68_client_partial"], "note": "The checks are characterised exactly (C68_exact_partial), and honest commits that leave the tree alone are accepted. Refuted: the path is merged into the tree without the proposals, so that an honest commit that adds a member is rejected (C68_refuted); keys of inner nodes can be used again, which makes a tree that no joiner accepts (C68_reused_refuted)."},
{"property": "C69", "status": "partial", "theorems": ["Rmls.C69_navigation_partial", "Rmls.C69_reading_partial", "Rmls.C69_checking_partial", "Rmls.C69_changing_partial", "Rmls.C69_merging_partial", "Rmls.C69_secrets_partial", "Rmls.C69_direct_path_refuted", "Rmls.C69_alias_refuted", "Rmls.C69_update_refuted", "Rmls.C69_remove_refuted", "Rmls.C69_merge_refuted", "Rmls.C69_commit_refuted", "Rmls.C69_committer_refuted", "Rmls.C69_unmerged_refuted", "Rmls.C69_integrity_refuted"], "note": "Every function that depends on u32 arithmetic agrees with its checked version whenever that one comes back (C69_*_partial). Refuted without overflow checks: paths, updates, removals, merges and the check of a tree run for ever for a leaf index outside the tree, also by an accepted proposal list (C69_direct_path_refuted, C69_update_refuted, C69_remove_refuted, C69_merge_refuted, C69_commit_refuted, C69_unmerged_refuted, C69_integrity_refuted); index i + 2^31 stands for leaf i, so that a committer can remove themselves (C69_alias_refuted, C69_committer_refuted)."},
{"property": "C70", "status": "partial", "theorems": ["Rmls.C70_apply_partial", "Rmls.C70_verdict_partial", "Rmls.C70_no_adds", "Rmls.C70_refuted"], "note": "Two members with the same tree end alike on every message, and on every list of proposals, as long as the members added fit into the blank leaves of an old member's array of even length (C70_verdict_partial, C70_apply_partial); commits without adds always do (C70_no_adds). Refuted otherwise: both accept a commit with an add, and have different trees (C70_refuted)."},
{"property": "C71", "status": "proved", "theorems": ["Rmls.C71_loop", "Rmls.C71_accepted", "Rmls.C71_exact", "Rmls.C71_delivers", "Rmls.C71_ready", "Rmls.C71_members"], "note": "What the receiver of group_test.rs accepts is characterised from the secrets of the epoch on (C71_accepted), exactly for a KDF as in RFC 5869 and an encryption secret of at least the length of the hash (C71_exact, C71_loop); every message built is delivered (C71_delivers), between any two members of a group whatever its history (C71_members), and every member's ratchet reaches every generation (C71_ready)."},
{"property": "C72", "status": "proved", "theorems": ["Rmls.C72_used", "Rmls.C72_unique"], "note": "Equal message keys mean the same epoch, leaf, kind, generation, and with equal nonces the same guard, or an explicit collision of two KDF calls of the two derivations (C72_unique); the content is sealed with that key and nonce (C72_used). free_collide shows a KDF without collisions."},
{"property": "C73", "status": "proved", "theorems": ["Rmls.C73_history", "Rmls.C73_same_length", "Rmls.C73_agree"], "note": "Equal epoch secrets mean equal epochs back to where the shorter history starts, or an explicit collision (C73_history, C73_same_length); equal epochs mean equal secrets (C73_agree)."},
{"property": "C74", "status": "partial", "theorems": ["Rmls.C74_contents_partial", "Rmls.C74_external_senders_refuted"], "note": "Application id, required capabilities, external pub and ratchet tree are written and read as in RFC 9420 (C74_contents_partial). Refuted for external senders: the RFC content of whatever list of senders is rejected, and what the library writes is the content of no list (C74_external_senders_refuted)."},
{"property": "C75", "status": "partial", "theorems": ["Rmls.C75_blind", "Rmls.C75_refuted", "Rmls.C75_partial"], "note": "In an accepted tree every member supports the credentials of all members and the extensions of its own leaf, if no member lists a credential type twice (C75_partial). Refuted: the checks do not depend on the group's extensions (C75_blind), and a tree is accepted of which no member meets the required capabilities (C75_refuted)."},
{"property": "C76", "status": "proved", "theorems": ["Rmls.C76_code", "Rmls.C76_forward"], "note": "The attacker makes any calls of the KDF (Computes) from what may be kept (Keeps) and any other knowledge; C76_forward: reaching the key means knowing a secret of its derivation, or everything the derivation starts from, or a collision. C76_code ties the secrets to what the code computes. Inverting the KDF is outside the attacker's moves; that the application erases secrets is its own matter, the library keeps none."},
{"property": "C77", "status": "proved", "theorems": ["Rmls.C77_locked_out", "Rmls.C77_code"], "note": "As C76, from all init and epoch secrets of earlier epochs: reaching a secret of the new epoch means knowing a secret of its derivation, or computing the commit secret and the PSK input, or a collision (C77_locked_out); C77_code ties the secrets to what the code computes."},
{"property": "C78", "status": "proved", "theorems": ["Rmls.C78_joiners", "Rmls.C78_tags", "Rmls.C78_member", "Rmls.C78_member_tree"], "note": "Two joiners with one authenticator (C78_joiners) or one confirmation tag (C78_tags), and a member and a joiner with one authenticator (C78_member, and C78_member_tree for the tree of a member with any history), agree on context, secrets and tree, or there is an explicit collision of KDF calls, of the MAC or of the tree hash."},
{"property": "C79", "status": "partial", "theorems": ["Rmls.C79_refuted", "Rmls.C79_read_partial"], "note": "Refuted: trees are accepted with an unsorted list and with a repeated leaf, which is then twice in the resolution (C79_refuted). The tree that a joiner reads from a group, whatever its history, has sorted lists of members (C79_read_partial)."},
{"property": "C80", "status": "proved", "theorems": ["Rmls.C80_exact", "Rmls.C80_delivers", "Rmls.C80_members"], "note": "What is accepted exactly, from the bytes (C80_exact); what a sender of any kind builds is accepted (C80_delivers), and by members of a group of any history, who compute the membership key and look up the signature key themselves (C80_members)."},
{"property": "C81", "status": "partial", "theorems": ["Rmls.C81_outside", "Rmls.C81_inside_partial", "Rmls.C81_refuted", "Rmls.C81_commit_refuted"], "note": "Refuted: messages of external senders and of those who propose themselves are accepted in every state if in one (C81_outside), also if they name another group and epoch (C81_refuted); the client compares epochs but accepts a commit that names another group (C81_commit_refuted). A message of a member, or of who joins with it, is accepted in one state only (C81_inside_partial)."},
{"property": "C82", "status": "partial", "theorems": ["Rmls.C82_refuted", "Rmls.C82_client_partial"], "note": "Refuted: application data is signed, tagged, written in the clear and accepted (C82_refuted). The client takes only commits for commits (C82_client_partial)."},
{"property": "C83", "status": "proved", "theorems": ["Rmls.C83_one_message", "Rmls.C83_encryption_pair", "Rmls.C83_signature_pair", "Rmls.C83_exact", "Rmls.C83_passes", "Rmls.C83_welcome"], "note": "Exactly what the client accepts, from the bytes on (C83_exact, C83_encryption_pair, C83_signature_pair, C83_one_message), that matching inputs pass (C83_passes), and the opening of a welcome without PSKs (C83_welcome). As in C66 the suite is that of the welcome and the key package, and there are less than 2^16 PSKs."},
{"property": "C84", "status": "partial", "theorems": ["Rmls.C84_providers", "Rmls.C84_checks", "Rmls.C84_secrets", "Rmls.C84_content_partial", "Rmls.C84_content_refuted", "Rmls.C84_tree_partial", "Rmls.C84_tree_refuted", "Rmls.C84_accepted", "Rmls.C84_commit_partial", "Rmls.C84_commit_refuted"], "note": "Refuted: a tree without nodes or with an unmerged leaf outside of it (C84_tree_refuted), a truncated proposal in a private message (C84_content_refuted), and the removal of a leaf outside of the tree (C84_commit_refuted) panic. All checks, derivations and openings return (C84_providers, C84_checks, C84_secrets), also the check of a tree that lists only leaves inside (C84_tree_partial), all that is done with an accepted tree (C84_accepted), the opening of content that can be read (C84_content_partial), and the application of a commit about members (C84_commit_partial)."},
{"property": "C85", "status": "partial", "theorems": ["Rmls.C85_blind", "Rmls.C85_any", "Rmls.C85_partial", "Rmls.C85_refuted", "Rmls.C85_remove_refuted"], "note": "Refuted: the check of the proposals sees of a key package only the signature key and nothing of an updated leaf (C85_blind), any key packages with different signature keys are accepted (C85_any), also an unsigned one with the keys of a member, after which no joiner accepts the tree (C85_refuted), and so is the removal of a blank leaf (C85_remove_refuted). What is checked is in C85_partial."},
{"property": "C86", "status": "partial", "theorems": ["Rmls.C86_blind", "Rmls.C86_partial", "Rmls.C86_refuted"], "note": "Refuted: merging does not look at the ciphertexts (C86_blind), and a path without any is accepted (C86_refuted). There is a node for each resolution that is to be encrypted to (C86_partial)."},
{"property": "C87", "status": "partial", "theorems": ["Rmls.C87_kept", "Rmls.C87_ratchet_partial", "Rmls.C87_refuted"], "note": "Refuted: the tree keeps every secret over a leaf, and each is enough for every key of the leaf (C87_kept, C87_refuted). A ratchet that has gone on does not give away earlier keys, without the tree (C87_ratchet_partial)."},
{"property": "C88", "status": "partial", "theorems": ["Rmls.C88_blocked", "Rmls.C88_partial", "Rmls.C88_refuted"], "note": "Refuted: an entry in front that names something in the store which is not a key package, like the init key, makes the join fail (C88_blocked, C88_refuted). Entries that name nothing in the store do not matter (C88_partial)."},
{"property": "C89", "status": "partial", "theorems": ["Rmls.C89_refuted", "Rmls.C89_private_partial", "Rmls.C89_client_partial"], "note": "Refuted: the checks accept commits and application data of external senders, a removal by one who proposes to join, and application data of one who joins (C89_refuted). Private messages are members' (C89_private_partial), and so are the commits of the client (C89_client_partial)."},
{"property": "C90", "status": "partial", "theorems": ["Rmls.C90_partial", "Rmls.C90_blank_refuted", "Rmls.C90_unordered", "Rmls.C90_half_refuted", "Rmls.C90_source_refuted"], "note": "Refuted for three kinds of accepted trees and additions: a blank leaf that is unmerged at a lower parent only (C90_blank_refuted), a parent with no member below one child, which is left outside of the tree by a removal (C90_half_refuted), and a new member whose leaf node carries a parent hash (C90_source_refuted). For all other accepted trees, acceptance is kept through every sequence of changes whose paths do not hash to what is already beside them (C90_partial)."},
{"property": "C91", "status": "partial", "theorems": ["Rmls.C91_settings", "Rmls.C91_lifetime_refuted", "Rmls.C91_capabilities_refuted", "Rmls.C91_partial"], "note": "Settings are kept, in any order (C91_settings). Refuted: without a lifetime, no tree with the leaf node is ever accepted (C91_lifetime_refuted); without capabilities, none in which nobody lists a credential type twice (C91_capabilities_refuted). With both set suitably only the signature is left to check (C91_partial)."},
{"property": "C92", "status": "partial", "theorems": ["Rmls.C92_same", "Rmls.C92_partial", "Rmls.C92_read_partial", "Rmls.C92_refuted", "Rmls.C92_refuted_factor"], "note": "Proved for hash computations, at most twice the slots times the logarithm plus two, and signature checks, at most one per member (C92_partial, C92_read_partial), by a counting version of the check with the same results (C92_same). Refuted for the comparisons in the lists of unmerged leaves: they are at most the square of the number of entries, and accepted trees with three members reach that (C92_refuted, C92_refuted_factor)."},
{"property": "C93", "status": "partial", "theorems": ["Rmls.C93_tree_math", "Rmls.C93_messages_partial", "Rmls.C93_protection_public_partial", "Rmls.C93_protection_private_partial", "Rmls.C93_protection_partial", "Rmls.C93_refuted_key_schedule", "Rmls.C93_refuted_treekem", "Rmls.C93_refuted_messages", "Rmls.C93_refuted_short", "Rmls.C93_refuted_unsupported", "Rmls.C93_refuted_protection", "Rmls.C93_crypto_basics", "Rmls.C93_key_pairs", "Rmls.C93_psk", "Rmls.C93_key_schedule_partial", "Rmls.C93_transcript", "Rmls.C93_secret_tree", "Rmls.C93_tree_validation_partial", "Rmls.C93_treekem_partial", "Rmls.C93_operations"], "note": "Proved as an equivalence for tree math, crypto basics, key pairs, PSK secrets, transcript hashes, secret trees and tree operations, and for what is looked at in messages, key schedules, tree validation, TreeKEM and message protection. Refuted for the rest: the drivers do not look at the epoch authenticator, the exporter and the external key of an epoch (C93_refuted_key_schedule), at any secret of TreeKEM (C93_refuted_treekem), at three kinds of proposals and at the kind of a message (C93_refuted_messages, C93_refuted_protection), at lists that are too short (C93_refuted_short), or at vectors with suites the provider does not support (C93_refuted_unsupported)."},
{"property": "C94", "status": "partial", "theorems": ["Rmls.C94_refuted_cut", "Rmls.C94_refuted_wait", "Rmls.C94_cut_partial", "Rmls.C94_cut", "Rmls.C94_cut_message", "Rmls.C94_cut_tree_partial", "Rmls.C94_final", "Rmls.C94_final_tree", "Rmls.C94_final_accepted", "Rmls.C94_collected_partial", "Rmls.C94_collected", "Rmls.C94_private_wait"], "note": "Proved for all 55 wire types and ratchet trees that no part of an encoding is accepted and that it is refused for its length or panics (C94_cut_partial, C94_cut_tree_partial), that other verdicts are final (C94_final, C94_final_accepted, C94_final_tree), and that delivery in pieces ends with the message (C94_collected_partial); without panics for types that never panic, and for private messages, welcomes and group infos (C94_cut, C94_cut_message, C94_collected). Refuted: a cut key package panics (C94_refuted_cut), and a malformed welcome is called too short whatever follows (C94_refuted_wait); for private messages the wait is bounded (C94_private_wait)."},
{"property": "C95", "status": "partial", "theorems": ["Rmls.C95_commit", "Rmls.C95_tree", "Rmls.C95_reading", "Rmls.C95_version_refuted", "Rmls.C95_reading_partial", "Rmls.C95_leaf", "Rmls.C95_key_package", "Rmls.C95_proposals", "Rmls.C95_path_length", "Rmls.C95_path_hash_partial", "Rmls.C95_single_refuted", "Rmls.C95_welcome", "Rmls.C95_join", "Rmls.C95_credential_refuted", "Rmls.C95_lifetime_refuted", "Rmls.C95_tag", "Rmls.C95_tag_refuted", "Rmls.C95_unmerged_refuted"], "note": "Proved for all readers of types without a group context (C95_reading), leaves (C95_leaf), key packages (C95_key_package), proposals (C95_proposals), trees (C95_tree), the length of update paths (C95_path_length), the secrets of welcomes (C95_welcome), joining (C95_join) and membership tags (C95_tag, one error for whatever is wrong with them); C95_tree and C95_leaf take support of credential types, lifetimes and unmerged leaves as the code does. Refuted: an unknown version in a group context is reported as a proposal type (C95_version_refuted), a type that all members list as not supported by all (C95_credential_refuted), a lifetime in the middle of it (C95_lifetime_refuted), a membership tag as a confirmation tag (C95_tag_refuted), a leaf that is no descendant as missing from a node in between (C95_unmerged_refuted), and every path of a member who is alone as having the wrong parent hash (C95_single_refuted)."},
{"property": "C96", "status": "proved", "theorems": ["Rmls.C96_crypto_config", "Rmls.C96_group_config", "Rmls.C96_group", "Rmls.C96_credential", "Rmls.C96_package"], "note": "C96_crypto_config, C96_group_config and C96_group for configurations and created groups, C96_credential for the accessors, C96_package for readers of packages whose registry values are not aliases of known ones. Groups joined by a welcome do not get their configuration: that is C58."},
{"property": "C97", "status": "partial", "theorems": ["Rmls.C97_same", "Rmls.C97_exact", "Rmls.C97_partial", "Rmls.C97_outsiders", "Rmls.C97_sends", "Rmls.C97_chosen", "Rmls.C97_refuted"], "note": "Proved exactly: an accepted message takes two derivations per parent of the secret tree, five more and one for every generation up to its own (C97_exact, on a counting receiver with the same results, C97_same); C97_partial bounds every message by four per leaf and the generation that its sender data claims, C97_outsiders by the group alone if the sender data does not open. C97_sends says when sending succeeds, C97_chosen that the sender chooses the work. Missing because it is false: a bound on the generation; messages of one length take up to 2^32 - 1 derivations (C97_refuted)."},
{"property": "C98", "status": "proved", "theorems": ["Rmls.C98_order", "Rmls.C98_once", "Rmls.C98_threads", "Rmls.C98_given", "Rmls.C98_guards"], "note": "On a machine with the two locks of a provider in which reading an object and writing it back are separate steps: C98_order gives the bytes of every request exactly, C98_once and C98_threads that pieces do not overlap, C98_given that the program goes on with these bytes, C98_guards the reuse guards of two threads. The key stream of the generator is a parameter and is taken to be endless."},
{"property": "C99", "status": "partial", "theorems": ["Rmls.C99_refuted", "Rmls.C99_gone_partial", "Rmls.C99_late_partial", "Rmls.C99_removed_once_partial"], "note": "Proved: after a successful join the package and its init key are gone, whatever other threads did meanwhile (C99_gone_partial); a join that begins when its packages are gone is refused (C99_late_partial); of the threads that delete a key only one gets its value back (C99_removed_once_partial). Missing because it is false: for every number of threads and every situation in which a join can succeed there is an interleaving in which all of them succeed with the same package (C99_refuted)."},
{"property": "C100", "status": "proved", "theorems": ["Rmls.C100_atomic", "Rmls.C100_progress", "Rmls.C100_alone", "Rmls.C100_join", "Rmls.C100_build", "Rmls.C100_build_fails", "Rmls.C100_create"], "note": "C100_atomic: with the locks threads can do exactly what they can do with whole calls one at a time. C100_progress: a thread that has not ended can move or waits for one that can. C100_alone: non-interference for every program of calls; C100_join, C100_build, C100_build_fails and C100_create apply it to the functions of the library, whose sequential models they meet again. A thread is disturbed only by changes of keys that it uses."},
{"property": "C101", "status": "proved", "theorems": ["Rmls.C101_commits", "Rmls.C101_fork"], "note": "C101_commits and its consequence C101_fork. The group context of the last epoch carries the confirmed transcript hash and counts the epochs; the last confirmation tag, which that hash does not cover, is assumed to have been checked with verify_confirmation_tag."},
{"property": "C102", "status": "partial", "theorems": ["Rmls.C102_removes_partial", "Rmls.C102_updates", "Rmls.C102_order_partial", "Rmls.C102_blank_refuted", "Rmls.C102_half_refuted"], "note": "Updates of different leaves commute always (C102_updates), removes of different members commute exactly in trees whose inner nodes are used on both sides (C102_removes_partial), so a commit accepted by verify_proposal_list has the same effect in every order (C102_order_partial). Refuted in general: a remove of a blank leaf panics in one order and succeeds in the other (C102_blank_refuted); with a crafted inner node that verify_integrity accepts, one order leaves a stale parent behind (C102_half_refuted)."},
{"property": "C103", "status": "proved", "theorems": ["Rmls.C103_same", "Rmls.C103_merge", "Rmls.C103_full"], "note": "C103_same: the counting version has the results of the model and leaves the same tree. C103_merge: the bounds, whatever the outcome. C103_full: below one digest and one visit per slot if the array is full. Not counted: the rounds of the walks up the tree (at most 31 each), look-ups in the direct path, moving the results of resolve from level to level, the bytes that go through a digest."},
{"property": "C104", "status": "proved", "theorems": ["Rmls.C104_add", "Rmls.C104_size", "Rmls.C104_grown", "Rmls.C104_roomy", "Rmls.C104_last"], "note": "C104_add: exactly when and by how much an add grows the array. C104_size: the bound over all histories, without assumptions on the tree or the arguments. C104_roomy, C104_grown: the sharper bound 4 M - 5 where every add finds a leaf slot (no add to a full array of even length, see C13). C104_last: the bound by the index of a present member."},
{"property": "C105", "status": "proved", "theorems": ["Rmls.C105_read", "Rmls.C105_leaf", "Rmls.C105_key_package", "Rmls.C105_creds", "Rmls.C105_tree"], "note": "C105_read: from the raw numbers of the five lists. C105_leaf, C105_key_package, C105_tree: acceptance is kept. C105_creds: the known credential types supported by all members are the same ones."},
{"property": "C106", "status": "proved", "theorems": ["Rmls.C106_exact", "Rmls.C106_who", "Rmls.C106_outsider", "Rmls.C106_path", "Rmls.C106_rules", "Rmls.C106_commit_secret"], "note": "C106_exact, C106_who, C106_outsider, C106_path over the inductive `Lives`. C106_rules: what is taken to be learned from a path is exactly what the deduction rules of the RFC give; C106_commit_secret: the commit secret can be deduced by exactly the members. Senders are taken to follow the protocol (path secrets are encrypted to the resolutions, every key pair is made once, RFC 9420 sections 7.4 and 7.5): encrypting a path is not in the code, whose paths are made by others. What the adding of a member to an array of even length and a rejected path do to the tree is in C13 and C62."},
{"property": "C107", "status": "partial", "theorems": ["Rmls.C107_chain_partial", "Rmls.C107_binding", "Rmls.C107_honest", "Rmls.C107_refuted"], "note": "C107_chain_partial: the chain exists in every accepted tree and ends in a signed leaf below the parent. C107_binding: the leaf fixes the chain, or a collision is known. C107_honest: in honest groups all three conditions of the RFC hold. C107_refuted: verify_parent_hashes does not check that the rest of the resolution is unmerged, and accepts a tree in which a member below the root was never sent its key and is not listed."},
{"property": "C108", "status": "partial", "theorems": ["Rmls.C108_same", "Rmls.C108_same_membership", "Rmls.C108_same_confirmation", "Rmls.C108_leak_partial", "Rmls.C108_none", "Rmls.C108_refuted", "Rmls.C108_forged", "Rmls.C108_forged_membership", "Rmls.C108_forged_confirmation"], "note": "False: verify_mac compares with == on slices. C108_refuted: for every key and message two wrong tags take different work. C108_forged, C108_forged_membership, C108_forged_confirmation: an explicit adversary that sees only verdicts and counts finds the tag of any message with at most 256 attempts per byte. C108_leak_partial: the length of the shared prefix is all that shows. The work counted is that of a comparison byte by byte that stops at the first difference; which one the compiler chooses is not determined by the code. C108_same*: counting changes no verdict."},
{"property": "C109", "status": "partial", "theorems": ["Rmls.C109_ring", "Rmls.C109_rust_refuted", "Rmls.C109_right_partial", "Rmls.C109_derived", "Rmls.C109_library"], "note": "C109_ring: the ring provider refuses wrong sizes with an error. C109_rust_refuted: the RustCrypto provider panics on every wrong size, because try_into from a slice to a reference to a GenericArray goes through the panicking From. C109_right_partial: with right sizes neither panics. C109_derived, C109_library: what the library derives has the right size for any input, and protecting a message returns if signing does, given that HKDF gives the number of bytes asked for."},
{"property": "C110", "status": "proved", "theorems": ["Rmls.C110_hidden", "Rmls.C110_same", "Rmls.C110_length", "Rmls.C110_length_seen", "Rmls.C110_providers"], "note": "C110_hidden: with an ideal AEAD (ciphertexts depend on the additional data and the length only) the message equals one made up from what is shown. C110_same: two senders, one message. C110_length, C110_length_seen: the length of application data is exactly what can be read off, no padding is added. C110_providers: both providers add 16 bytes. Signatures are taken to have one length, as those of Ed25519; the length of an ECDSA signature shows as well."},
{"property": "C111", "status": "partial", "theorems": ["Rmls.C111_blind", "Rmls.C111_psk_any", "Rmls.C111_reinit_any", "Rmls.C111_commit_any", "Rmls.C111_partial", "Rmls.C111_refuted"], "note": "C111_refuted: the list that asks for a branching key without a nonce is accepted, and the client accepts a commit to re-initialise the group with version 0. C111_blind: ids of keys can be replaced by whatever others without a change of the verdict. C111_psk_any, C111_reinit_any, C111_commit_any: all such proposals are accepted. C111_partial: no id comes twice, and who re-initialises does nothing else."},
{"property": "C112", "status": "proved", "theorems": ["Rmls.C112_resolve", "Rmls.C112_hash", "Rmls.C112_hash_tight", "Rmls.C112_resolve_tight", "Rmls.C112_over", "Rmls.C112_secret_tree", "Rmls.C112_secret_tight", "Rmls.C112_root"], "note": "C112_resolve, C112_hash, C112_secret_tree: with room for level + 1 nested calls the result is the one without a limit. C112_hash_tight, C112_resolve_tight, C112_secret_tight: with less it is not. C112_over: an index whose level exceeds 31 is refused before any nested call. C112_root: the level of the root is at most 31 and at most the logarithm of the length of the array. Frames of other functions are not counted, these do not recurse."},
{"property": "C113", "status": "partial", "theorems": ["Rmls.C113_same", "Rmls.C113_partial", "Rmls.C113_least", "Rmls.C113_remove", "Rmls.C113_grown", "Rmls.C113_refuted"], "note": "C113_same: the counting version has the result of the model. C113_partial: removes times leaves plus adds times members, and slots appended in proportion to the members. C113_least: each add looks at every member on the left of the first gap. C113_refuted: a valid commit of k adds to a full tree of k members looks at k squared slots, for every k with room for indices."},
{"property": "C114", "status": "proved", "theorems": ["Rmls.C114_creds", "Rmls.C114_keys", "Rmls.C114_leaf", "Rmls.C114_hash", "Rmls.C114_integrity", "Rmls.C114_proposals", "Rmls.C114_merge", "Rmls.C114_join", "Rmls.C114_commit", "Rmls.C114_run"], "note": "The functions that use hash tables are modelled once more with the tables as parameters, and proved equal to the functions with lists for all tables that satisfy Spec.LawfulTables. Assumed of the tables: membership after insertion and removal, and that for visits each entry once."},
{"property": "C115", "status": "proved", "theorems": ["Rmls.C115_code", "Rmls.C115_members", "Rmls.C115_blanks", "Rmls.C115_least", "Rmls.C115_full", "Rmls.C115_merged"], "note": "Code against specification (C115_code), the bound by the other members in every history (C115_members), by blanks and unmerged leaves (C115_blanks), from below (C115_least), the best case (C115_full), and after a merge (C115_merged)."},
{"property": "C116", "status": "proved", "theorems": ["Rmls.C116_sent", "Rmls.C116_made"], "note": "The reduction: acceptance gives either the sent message, or an explicit forgery (something opens with a key of the epoch and no sender has sealed it), or an explicit collision of two calls of the KDF made for two message keys. The two uses of the AEAD are told apart by their additional data alone, and the sender data is bound to the content by the sample of the ciphertext. The receiver is the one of the repository's test and is given the leaf; the theorem asks that it is the leaf in the sender data, which the code does not compare. A message that is sent again is accepted again: the receiver has no state."},
{"property": "C117", "status": "proved", "theorems": ["Rmls.C117_leaf", "Rmls.C117_key_package", "Rmls.C117_group_info", "Rmls.C117_message", "Rmls.C117_private", "Rmls.C117_public", "Rmls.C117_commit", "Rmls.C117_join", "Rmls.C117_signs"], "note": "The reduction: acceptance gives the statement in the record, or an explicit forgery (a signature accepted under the key on bytes that none of the statements has). The record may contain statements under labels of their own. The state of the group is not covered for external senders and new members' proposals (C81 shows what follows). For the client, the commit is tied to the key of the member's leaf in its tree, the path's leaf to its place, and on joining the group info to a leaf and every leaf of the tree to its key. `C117_signs` says that the library's own signers make such statements; that leaf and key package are signed with the public key is C43."},
{"property": "C118", "status": "proved", "theorems": ["Rmls.C118_covers", "Rmls.C118_sent", "Rmls.C118_commit", "Rmls.C118_made", "Rmls.C118_one"], "note": "The reduction: acceptance gives the message itself in the record of what was tagged, or an explicit forgery; with a MAC without collisions under the key, one tag is accepted with one message in one state only (`C118_one`). `C118_made` says that what a member sends with the library is tagged in this sense. Only members' messages bear a tag; that a message put together in memory without one passes the check is C41."},
{"property": "C119", "status": "proved", "theorems": ["Rmls.C119_private", "Rmls.C119_too_long", "Rmls.C119_application", "Rmls.C119_public", "Rmls.C119_too_long_public", "Rmls.C119_members", "Rmls.C119_members_public", "Rmls.C119_providers"], "note": "Sending has no hypothesis that something succeeds: `C119_private` and `C119_public` give the message and its encoding, `C119_members` and `C119_members_public` add delivery after every history, and `C119_providers` shows that both providers satisfy the hypotheses in every supported suite with every key pair they generate, given the sizes of the primitives (`SizedPrimitives`). `C119_too_long` is the other direction. Delivery of private messages needs an AEAD that opens what it seals: this the RustCrypto provider has, and the ring provider has not (C59)."},
{"property": "C120", "status": "proved", "theorems": ["Rmls.C120_invites", "Rmls.C120_joins", "Rmls.C120_talk"], "note": "The library has no function that makes a welcome: `invite` (`Spec/Invite.lean`) is the program that an application writes with its functions. `C120_invites`: it succeeds. `C120_joins`: everybody who is addressed joins with the passive client. `C120_talk`: both together, and messages (C119). That the tree is valid is a hypothesis (C62, C90). Key packages with equal references are excluded; by C56 they are equal or collide. That the providers meet the hypotheses is `C119_providers` and `C48_expander`; the ring provider does not open what it seals (C59)."},
{"property": "C121", "status": "partial", "theorems": ["Rmls.C121_builds", "Rmls.C121_refused", "Rmls.C121_scheme", "Rmls.C121_unsupported", "Rmls.C121_providers_partial", "Rmls.C121_refuted", "Rmls.C121_joins"], "note": "False for suite 2: building panics for everything that has an encoding (`C121_refuted`, from C60), because the public key is used for signing. `C121_builds`: any provider, if the public key signs. `C121_providers_partial`: both providers in the other supported suites. `C121_refused`, `C121_scheme`, `C121_unsupported`: what is refused, with the store unchanged. `C121_joins`: what was built is accepted by `Group::from_welcome` (which checks nothing else, C58), if the two derived keys and the reference differ. That the packages do not verify is C43."},
{"property": "C122", "status": "proved", "theorems": ["Rmls.C122_renews", "Rmls.C122_alone"], "note": "`C122_renews`: the member's key signs and its signatures are accepted (both providers have this for generated keys: `C119_providers`), digests have at most 256 bytes, and the commit fits. Which parent hash is needed is not computed by the library for a sender; the theorem says that exactly such a hash exists. `C122_alone`: why not if alone; RFC 9420 allows such a commit, see C22."},
{"property": "C123", "status": "partial", "theorems": ["Rmls.C123_stays_partial", "Rmls.C123_forever_partial", "Rmls.C123_client_partial", "Rmls.C123_twice_refuted", "Rmls.C123_capabilities_refuted"], "note": "The code violates it. `C123_twice_refuted`: the keys of a path are not compared with each other, so a client that has joined accepts a path with one key at two places, and nobody accepts the tree after it. `C123_capabilities_refuted`: the capabilities of the new leaf are not compared with the credentials of the others, with the same result. Keys of inner nodes: `C68_reused_refuted`. Proved (`C123_client_partial`, `C123_stays_partial`, `C123_forever_partial`): with new, distinct keys, and the same supported credentials as before, the tree is accepted, after any number of such paths. Also assumed: unmerged leaves are members and both children of a parent have members below (without these see C90), no older node carries the parent hash of a new parent, and no proposals that change the tree, because the client merges paths without them (C68)."},
{"property": "C124", "status": "proved", "theorems": ["Rmls.C124_length", "Rmls.C124_round", "Rmls.C124_schedule"], "note": "`C124_schedule` by induction over the schedule, `C124_round` for one turn, `C124_length` for the lengths of the paths. As in C123, unmerged leaves are members and both children of a parent have members below; the members' keys sign and their signatures are accepted (`C119_providers`), digests have at most 256 bytes, and the leaf and path fit into a message. The exception (an older node that carries the hash of a newer parent) is part of the statement."},
{"property": "C125", "status": "partial", "theorems": ["Rmls.C125_always_partial", "Rmls.C125_from_partial", "Rmls.C125_lost_refuted", "Rmls.C125_repeated_refuted"], "note": "The code violates it in two ways. `C125_lost_refuted`: after a removal the array can have even length, and the next member who is added is put at an inner node (C13, C15); nobody accepts the tree after that. `C125_repeated_refuted`: a member who lists a credential type twice is counted twice, so nobody can join. Proved (`C125_always_partial`, `C125_from_partial`): otherwise the tree is accepted, after any history from a founder, or from any accepted tree. Also assumed: lists of unmerged leaves are short enough to be written down, and no older node carries the parent hash of a new parent. The lifetimes of key packages are left out, as the client does (time 0)."},
{"property": "C126", "status": "proved", "theorems": ["Rmls.C126_admits"], "note": "`C126_admits`. The tree is not assumed to be valid: that follows from the rules (C125). Assumed of the group: the rules of C125, with room for every addition. The welcome is made by the program of C120, because the library has no function for it."},
{"property": "C127", "status": "partial", "theorems": ["Rmls.C127_adds_partial", "Rmls.C127_removes_partial", "Rmls.C127_both_partial", "Rmls.C127_replaced_refuted"], "note": "`C127_adds_partial` for commits that remove nobody, to an array of odd length: the members and all who are added are in the tree and nobody else, newcomers accept it. `C127_removes_partial` for commits that add nobody: the other members are in the tree and nobody else, newcomers accept it. That a commit has no updates follows from its being accepted. The conditions on those who are added are on the tree before the commit and on each other. `C127_both_partial` for commits that remove and add, if somebody in the right half of the tree stays. Missing: commits that remove everybody in the right half and add, for which it is false (`C127_replaced_refuted`: the second of two members is replaced by a third, who is lost, and nobody accepts the tree); the client itself checks none of the conditions (C85)."}
]}
