{"id": "C01", "title": "Length prefixes have exactly one accepted encoding", "statement": "Writing a length prefix and reading it back yields the same number and leaves the following bytes untouched; a length prefix is accepted on input only in the one shortest form that the writer itself produces, and numbers of 2^30 or more are refused.", "quantifier": "every number, every byte string, every suffix", "why_tests_cant": "There are 2^30 lengths and unboundedly many byte strings; uniqueness of the accepted form is a statement about all of them.", "anchors": ["rmls/src/utilities/serde/mod.rs: serialize_varint, deserialize_varint, serialize_opaque_vec, deserialize_opaque_vec"]}
{"id": "C02", "title": "Every wire type survives a round trip", "statement": "Serializing any well-formed value of a wire type (messages, key packages, group infos, welcomes, commits, proposals, leaf nodes, credentials, extensions, PSK ids, sender data, ...) and deserializing the bytes, followed by anything, gives back the same value and leaves exactly what followed.", "quantifier": "every well-formed value of every wire type and every suffix of following bytes", "why_tests_cant": "The test vectors exercise a handful of literal messages; nested vectors and variants make the value space infinite.", "anchors": ["rmls/src/framing/mod.rs: MLSMessage, FramedContent, Content, Sender, WireMessage", "rmls/src/key_package/mod.rs: KeyPackage", "rmls/src/ratchet_tree/leaf_node.rs: LeafNode", "rmls/src/framing/proposal.rs: Proposal", "rmls/src/framing/commit.rs: Commit", "rmls/src/framing/welcome.rs: Welcome", "rmls/src/framing/group_info.rs: GroupInfo, GroupSecrets", "rmls/src/key_schedule/mod.rs: GroupContext, PreSharedKeyID", "rmls/src/extensibility/mod.rs: Extensions"]}
{"id": "C03", "title": "Accepted bytes are canonical (no malleability)", "statement": "If any byte string is accepted as a wire value, serializing the value reproduces exactly the bytes that were consumed, so two different byte strings never decode to the same message and a signature checked over a re-serialization covers the received bytes.", "quantifier": "every byte string and every wire type (the ratchet tree container excepted, see C09)", "why_tests_cant": "A test can only try chosen byte strings; malleability is about the ones nobody chose.", "anchors": ["rmls/src/utilities/serde/mod.rs: Deserializer, deserialize_vector, deserialize_optional", "rmls/src/framing/mod.rs: MLSMessage::deserialize", "rmls/src/key_package/mod.rs: KeyPackage::deserialize"]}
{"id": "C04", "title": "The bytes on the wire are the RFC 9420 encoding", "statement": "Whenever serialization succeeds, the bytes are exactly those prescribed by the RFC 9420 presentation language for the structure: fields in order, big-endian integers, variable-size length headers, 0/1 presence octets.", "quantifier": "every value of every wire type", "why_tests_cant": "Round trips cannot see an error made consistently in reader and writer, and test vectors only cover the variants that appear in them.", "anchors": ["rmls/src/framing/mod.rs", "rmls/src/framing/proposal.rs", "rmls/src/framing/commit.rs", "rmls/src/framing/group_info.rs", "rmls/src/framing/welcome.rs", "rmls/src/key_schedule/mod.rs", "rmls/src/key_package/mod.rs", "rmls/src/ratchet_tree/mod.rs", "rmls/src/ratchet_tree/leaf_node.rs", "rmls/src/ratchet_tree/parent_node.rs", "rmls/src/extensibility/mod.rs", "rmls/src/crypto/credential.rs"]}
{"id": "C05", "title": "Parsing untrusted bytes never panics", "statement": "Deserializing any byte string as any wire type returns a value or an error; it never aborts the process.", "quantifier": "every byte string and every wire type", "why_tests_cant": "Requires covering every truncation and every length of every nested structure.", "anchors": ["rmls/src/framing/mod.rs: MLSMessage::deserialize", "rmls/src/ratchet_tree/leaf_node.rs: Lifetime::deserialize", "rmls/src/ratchet_tree/parent_node.rs: ParentNode::deserialize", "rmls/src/framing/proposal.rs: ProposalType::deserialize"]}
{"id": "C06", "title": "Parsing untrusted bytes always terminates", "statement": "Deserializing any byte string as any wire type finishes: no element parser inside a vector can succeed without consuming input.", "quantifier": "every byte string and every wire type", "why_tests_cant": "Non-termination on some input cannot be ruled out by running other inputs.", "anchors": ["rmls/src/utilities/serde/mod.rs: deserialize_vector", "rmls/src/framing/mod.rs: MLSMessage::deserialize", "rmls/src/ratchet_tree/mod.rs: RatchetTree::deserialize"]}
{"id": "C07", "title": "Exact parsing rejects left-over bytes", "statement": "deserialize_exact succeeds only if the whole input is one encoded value; trailing bytes are an error.", "quantifier": "every byte string and wire type", "why_tests_cant": "Needs all inputs; test vectors never carry trailing bytes.", "anchors": ["rmls/src/utilities/serde/mod.rs: Deserializer::deserialize_exact", "rmls/src/utilities/error.rs: Error::InputContainsExcessBytes"]}
{"id": "C08", "title": "Serialization fails only for oversized data", "statement": "Serializing a value either produces bytes or, if some variable-length field reaches 2^30 bytes, reports an error; it never panics and never silently truncates.", "quantifier": "every value of every wire type", "why_tests_cant": "Values at the 2^30 limit are impractical to test and there are infinitely many below it.", "anchors": ["rmls/src/utilities/serde/mod.rs: serialize_varint, serialize_opaque_vec, serialize_vector"]}
{"id": "C09", "title": "A ratchet tree keeps all its nodes across the wire", "statement": "Serializing a ratchet tree and reading it back gives a tree with the same node at every index; the tree read back is a full binary tree of the smallest size that holds the last non-blank node; and serialization removes exactly the trailing blanks.", "quantifier": "every ratchet tree and every byte string read as one", "why_tests_cant": "Depends on the position of the last non-blank node for every size of tree.", "anchors": ["rmls/src/ratchet_tree/mod.rs: RatchetTree::serialize, RatchetTree::deserialize"]}
{"id": "C10", "title": "Tree navigation is consistent", "statement": "In the array representation, children, parent, sibling, level and root agree with the full binary tree: a child's parent is the node, the sibling relation is symmetric and irreflexive, leaves are exactly the even indices, a parent is one level above, and only the root has no parent.", "quantifier": "every node of every tree up to the 2^32 index range", "why_tests_cant": "The bit tricks must be right for all 32-bit indices and all sizes.", "anchors": ["rmls/src/utilities/tree_math/mod.rs: NumLeaves::root, parent, sibling, NodeIndex::left, right, children, level, is_leaf, leaf_index, LeafIndex::node_index"]}
{"id": "C11", "title": "Direct path and copath are the ancestors and their siblings", "statement": "For every node of a tree the direct path is exactly the list of its proper ancestors from the parent up to the root, its length is the difference of levels, and the subtrees hanging off the copath together with the node itself partition the leaves of the tree.", "quantifier": "every node of every tree size", "why_tests_cant": "Covers all tree sizes and all nodes.", "anchors": ["rmls/src/utilities/tree_math/mod.rs: NumLeaves::direct_path, NumLeaves::copath"]}
{"id": "C12", "title": "Out-of-range leaf indices are handled gracefully", "statement": "Tree operations given a leaf index outside the tree return or leave the tree unchanged; they neither panic nor loop forever.", "quantifier": "every tree and every leaf index", "why_tests_cant": "Leaf indices come from the network; the failing ones are exactly those tests do not use.", "anchors": ["rmls/src/utilities/tree_math/mod.rs: NumLeaves::parent, NumLeaves::direct_path, LeafIndex::node_index", "rmls/src/ratchet_tree/mod.rs: RatchetTree::update, remove, get_leaf, verify_integrity"]}
{"id": "C13", "title": "Adding a member uses the leftmost free slot", "statement": "Adding a leaf stores it at the leftmost blank leaf, or, when every leaf is occupied, doubles the tree and stores it at the first new leaf; every other leaf is unchanged, and the new leaf is recorded as unmerged at exactly the non-blank ancestors.", "quantifier": "every tree and leaf node", "why_tests_cant": "Depends on the whole occupancy pattern of the tree.", "anchors": ["rmls/src/ratchet_tree/mod.rs: RatchetTree::add"]}
{"id": "C14", "title": "Updating a member replaces its leaf and blanks its path", "statement": "Updating a member's leaf replaces that leaf, blanks every ancestor of it, and changes nothing else.", "quantifier": "every tree, every leaf in the tree and every new leaf node", "why_tests_cant": "All sizes and positions.", "anchors": ["rmls/src/ratchet_tree/mod.rs: RatchetTree::update"]}
{"id": "C15", "title": "Removing a member blanks its leaf and path and shrinks the tree", "statement": "Removing a member blanks its leaf and all of its ancestors, keeps every other member at its index, and shrinks the tree to the smallest full binary tree that still holds the rightmost member.", "quantifier": "every tree and every leaf in it", "why_tests_cant": "All occupancy patterns; the existing test compares only serialized bytes, which hide the in-memory shape.", "anchors": ["rmls/src/ratchet_tree/mod.rs: RatchetTree::remove"]}
{"id": "C16", "title": "Unmerged-leaf lists stay sorted and valid forever", "statement": "After any history of adds, updates, removes and path merges on a well-formed tree, every parent's unmerged-leaves list is strictly increasing and names only occupied leaves below that parent.", "quantifier": "every finite history of tree operations", "why_tests_cant": "An invariant over unbounded histories.", "anchors": ["rmls/src/ratchet_tree/mod.rs: RatchetTree::add, update, remove, merge_update_path", "rmls/src/ratchet_tree/parent_node.rs: ParentNode"]}
{"id": "C17", "title": "The tree is a faithful membership list over any history", "statement": "After any history of add, update and remove, looking up a leaf index returns the leaf most recently stored there and not since removed, and blank otherwise.", "quantifier": "every finite history of adds, updates and removes and every leaf index", "why_tests_cant": "Refinement over unbounded histories; interaction of shrink and grow.", "anchors": ["rmls/src/ratchet_tree/mod.rs: RatchetTree::add, update, remove, get_leaf"]}
{"id": "C18", "title": "Resolution covers exactly the members below a node", "statement": "The resolution of a node is the RFC 9420 list: non-blank nodes only in descending position of the subtree, empty exactly when the whole subtree is blank, listing the node itself and its unmerged leaves if it is not blank; no listed non-leaf is an ancestor of another listed subtree node unless through unmerged leaves.", "quantifier": "every tree and every node", "why_tests_cant": "Recursive over trees of any shape.", "anchors": ["rmls/src/ratchet_tree/mod.rs: RatchetTree::resolve"]}
{"id": "C19", "title": "A verified tree has no duplicate keys and valid unmerged leaves", "statement": "If tree verification succeeds, the tree hash equals the group context's, all members' signature keys are pairwise different, all encryption keys (members and parents) are pairwise different, every leaf passed leaf verification, every unmerged leaf lies below its parent, and every non-blank parent between the two also lists it.", "quantifier": "every tree, group context and provider", "why_tests_cant": "Quantifies over adversarial trees.", "anchors": ["rmls/src/ratchet_tree/mod.rs: RatchetTree::verify_integrity, has_unmerged_leaf"]}
{"id": "C20", "title": "The tree hash commits to the whole tree", "statement": "If two trees with the same number of leaves have the same root tree hash then they have equal nodes everywhere, unless the two computations exhibit two different inputs with the same digest.", "quantifier": "every pair of trees and every hash function (enumerations in leaves in the representation that reading produces)", "why_tests_cant": "Binding is a statement about all pairs.", "anchors": ["rmls/src/ratchet_tree/mod.rs: compute_tree_hash, compute_root_tree_hash, serialize_leaf_node_hash_input, serialize_parent_node_hash_input"]}
{"id": "C21", "title": "Tree hashes depend only on the subtree and implement exclusion exactly", "statement": "The hash of a node is unchanged by changes outside its subtree, and the hash with a set of excluded leaves equals the plain hash of the tree in which those leaves are blanked and dropped from unmerged lists.", "quantifier": "every tree, node and excluded set", "why_tests_cant": "All trees and sets.", "anchors": ["rmls/src/ratchet_tree/mod.rs: compute_tree_hash, hash_parent_node_input"]}
{"id": "C22", "title": "Merging a commit path installs exactly that path", "statement": "When merging an update path succeeds, the sender's leaf is the path's leaf, each node of the filtered direct path holds the corresponding public key with no unmerged leaves, every other ancestor of the sender is blank, and nothing else changed; the number of path nodes equals the length of the filtered direct path.", "quantifier": "every tree, every leaf of its array as the sender, and every update path", "why_tests_cant": "All trees and paths.", "anchors": ["rmls/src/ratchet_tree/mod.rs: merge_update_path, filtered_direct_path"]}
{"id": "C23", "title": "A merged commit path is parent-hash valid", "statement": "After a successful merge, the new leaf's parent hash and each new parent's parent hash equal the parent-hash values recomputed from the merged tree along the path up to the root, whose own parent hash is empty.", "quantifier": "every tree, every leaf of its array as the sender, and every update path", "why_tests_cant": "All trees and paths; chains of any length.", "anchors": ["rmls/src/ratchet_tree/mod.rs: merge_update_path, verify_parent_hashes", "rmls/src/ratchet_tree/parent_node.rs: compute_parent_hash"]}
{"id": "C24", "title": "A rejected commit path leaves the tree unchanged", "statement": "If merging an update path returns an error the tree is as before.", "quantifier": "every tree, sender and update path", "why_tests_cant": "Every failing input and failing point.", "anchors": ["rmls/src/ratchet_tree/mod.rs: merge_update_path"]}
{"id": "C25", "title": "Supported credentials are those every member supports", "statement": "The computed set of supported credential types contains a type exactly when every member's capabilities list it.", "quantifier": "every tree and every capability list", "why_tests_cant": "Depends on all multisets of capability entries.", "anchors": ["rmls/src/ratchet_tree/mod.rs: supported_creds"]}
{"id": "C26", "title": "A commit's proposal list is accepted exactly when valid", "statement": "Proposal-list validation succeeds exactly when the list obeys the RFC 9420 section 12.2 rules implemented here: matching senders, no self update by the committer, no self remove, no leaf updated or removed twice, no duplicate added signature keys, no duplicate PSK, at most one group-context-extensions, re-init only alone, external-init never.", "quantifier": "every list of proposals, senders and committer", "why_tests_cant": "All lists and orders.", "anchors": ["rmls/src/framing/proposal.rs: verify_proposal_list"]}
{"id": "C27", "title": "A path is demanded exactly for lists that need one", "statement": "A commit needs an update path exactly when its proposal list is empty or contains an update, remove, external-init or group-context-extensions proposal.", "quantifier": "every list of proposals", "why_tests_cant": "All lists.", "anchors": ["rmls/src/framing/proposal.rs: proposal_list_needs_path"]}
{"id": "C28", "title": "Applying proposals does not depend on interleaving", "statement": "The tree produced by applying a proposal list depends only on the subsequences of updates, removes and adds, which are applied in that order of kinds; other proposals have no effect on the tree.", "quantifier": "every tree and proposal list", "why_tests_cant": "All interleavings of all lists.", "anchors": ["rmls/src/ratchet_tree/mod.rs: RatchetTree::apply"]}
{"id": "C29", "title": "Labelled crypto inputs are domain separated", "statement": "Two labelled operations feed the same bytes to the underlying KDF, signature, HPKE or hash primitive only if their label, context and output length are the same.", "quantifier": "every label, context, length", "why_tests_cant": "Collisions of encodings can only be excluded for all inputs by proof.", "anchors": ["rmls/src/crypto/provider/mod.rs: expand_with_label, derive_secret, sign_with_label, verify_with_label, encrypt_with_label, decrypt_with_label, ref_hash, mls_prefix_label_data"]}
{"id": "C30", "title": "A message signature covers the whole message and, for members, the group state", "statement": "Two framed contents have the same signed bytes only if version, wire format, group id, epoch, sender, authenticated data and content are equal, and, when the sender is a member or an external joiner, the group contexts are equal too.", "quantifier": "every pair of contents and contexts (enumerations in the representation that reading produces)", "why_tests_cant": "All pairs.", "anchors": ["rmls/src/framing/mod.rs: FramedContentTBS, FramedContentAuthData::verify_signature, AuthenticatedContent::framed_content_tbs"]}
{"id": "C31", "title": "A leaf signature covers the leaf and its place", "statement": "Two leaf nodes have the same signed bytes only if their contents agree and, for update and commit leaves, the group id and leaf index agree; so such a signature is not valid for another position.", "quantifier": "every pair of leaves, groups and positions (enumerations in the representation that reading produces)", "why_tests_cant": "All pairs.", "anchors": ["rmls/src/ratchet_tree/leaf_node.rs: LeafNodeTBS, LeafNode::verify_signature, TreeInfoTBS"]}
{"id": "C32", "title": "The key schedule follows RFC 9420", "statement": "Joiner, welcome and epoch secrets and every secret derived from the epoch secret are the RFC 9420 section 8 extract/expand chain of the inputs with the right labels, contexts and sizes, and labels of the derived secrets are pairwise distinct.", "quantifier": "every provider, context and secret", "why_tests_cant": "Swapped arguments or labels on unexercised inputs escape vectors.", "anchors": ["rmls/src/key_schedule/mod.rs: GroupContext::extract_joiner_secret, extract_epoch_secret, extract_welcome_secret, SECRET_LABEL_*"]}
{"id": "C33", "title": "The PSK secret is the RFC 9420 fold and binds ids, index and count", "statement": "The PSK secret is the RFC 9420 section 8.4 iteration over all PSKs in order with their id, index and count, fails exactly on a length mismatch, and different (id, index, count) give different label inputs.", "quantifier": "every list of PSK ids and PSKs", "why_tests_cant": "Lists of any length.", "anchors": ["rmls/src/key_schedule/mod.rs: extract_psk_secret, PSKLabel"]}
{"id": "C34", "title": "The transcript hash commits to the whole history", "statement": "If two commit histories of the same length and starting point end in the same confirmed transcript hash, they consist of the same commits with the same signatures, or a digest collision is exhibited.", "quantifier": "every pair of histories of any length", "why_tests_cant": "Unbounded histories.", "anchors": ["rmls/src/key_schedule/mod.rs: ConfirmedTranscriptHashInput, next_interim_transcript_hash"]}
{"id": "C35", "title": "The secret tree gives each leaf its RFC 9420 secret", "statement": "Building the secret tree for a full tree succeeds and the secret at each node is obtained from the encryption secret by following left/right derivations along the path; the ratchet roots use distinct labels for handshake and application.", "quantifier": "every number of leaves, node and provider", "why_tests_cant": "All sizes.", "anchors": ["rmls/src/secret_tree/mod.rs: SecretTree::new, derive_children, get, derive_ratchet_root"]}
{"id": "C36", "title": "The message ratchet produces the RFC 9420 generation keys", "statement": "Advancing the ratchet n times yields the secret of generation n, whose key, nonce and successor are labelled with the generation; advancing is defined for every generation below 2^32-1.", "quantifier": "every generation number", "why_tests_cant": "All n.", "anchors": ["rmls/src/secret_tree/mod.rs: RatchetSecret::derive_key, derive_nonce, derive_next"]}
{"id": "C37", "title": "Different reuse guards give different nonces", "statement": "For the same generation, two different reuse guards always give two different AEAD nonces, and only the first four nonce bytes are affected.", "quantifier": "every nonce and pair of guards", "why_tests_cant": "2^64 pairs per nonce.", "anchors": ["rmls/src/framing/private_message.rs: derive_private_message_key_and_nonce"]}
{"id": "C38", "title": "Private messages decrypt to what was sent and verify", "statement": "With a correct AEAD and signature scheme, a private message built by a member decrypts, with the matching secrets, to the same sender data and content, and the reconstructed authenticated content verifies under the sender's key.", "quantifier": "every content, context, secret, sender data", "why_tests_cant": "All contents and keys.", "anchors": ["rmls/src/framing/private_message.rs: PrivateMessage::new, decrypt_sender_data, decrypt_content, authenticated_content", "rmls/src/framing/mod.rs: encrypt_sender_data, sample_ciphertext"]}
{"id": "C39", "title": "Padding must be zero", "statement": "Decrypted private content is accepted only if everything after the content and its authentication data is zero bytes; any number of zero bytes is accepted.", "quantifier": "every plaintext and padding length", "why_tests_cant": "All paddings.", "anchors": ["rmls/src/framing/private_message.rs: PrivateMessageContent::deserialize"]}
{"id": "C40", "title": "Public messages built by a member verify", "statement": "A public message signed and tagged with given keys passes signature and membership verification under the matching keys and same context.", "quantifier": "every content, context and keys", "why_tests_cant": "All inputs.", "anchors": ["rmls/src/framing/public_message.rs: PublicMessage::new, sign_membership_tag, verify_membership_tag", "rmls/src/framing/mod.rs: AuthenticatedContent::new"]}
{"id": "C41", "title": "Member messages without a valid membership tag are rejected", "statement": "Verifying the membership tag of a message sent by a member succeeds only if the tag is present and is the MAC of the authenticated content.", "quantifier": "every public message, key and context", "why_tests_cant": "All messages, including ones never put on the wire.", "anchors": ["rmls/src/framing/public_message.rs: PublicMessage::verify_membership_tag"]}
{"id": "C42", "title": "Lifetimes are enforced", "statement": "A key package lifetime is accepted exactly when the current time lies between not_before and not_after and the total range is acceptable.", "quantifier": "every lifetime and current time", "why_tests_cant": "All pairs of 64-bit times and clocks.", "anchors": ["rmls/src/ratchet_tree/leaf_node.rs: Lifetime::verify"]}
{"id": "C43", "title": "Freshly built key packages verify", "statement": "A key package built from a matching signature key pair passes its own signature checks under a correct signature scheme.", "quantifier": "every credential, key pair, and crypto config", "why_tests_cant": "All keys and schemes.", "anchors": ["rmls/src/key_package/mod.rs: KeyPackage::new, from_keys, verify_signature", "rmls/src/ratchet_tree/leaf_node.rs: LeafNode::new"]}
{"id": "C44", "title": "Leaf and key package verification checks exactly the required conditions", "statement": "Leaf-node verification succeeds exactly when signature, credential support, extension capabilities, lifetime (if checked) and key uniqueness conditions hold; key package verification succeeds exactly when version and suite match the context, the leaf comes from a key package, the key package signature verifies and init and encryption keys differ.", "quantifier": "every leaf, key package, context and provider", "why_tests_cant": "All combinations of failing conditions.", "anchors": ["rmls/src/ratchet_tree/leaf_node.rs: LeafNode::verify", "rmls/src/key_package/mod.rs: KeyPackage::verify"]}
{"id": "C45", "title": "The key store behaves as a map", "statement": "Under any interleaving of store, retrieve and delete by any callers, retrieve returns the value last stored under the key and not deleted since, and operations on other keys do not interfere.", "quantifier": "every interleaving and history", "why_tests_cant": "All schedules.", "anchors": ["rmls/src/crypto/provider/key_store.rs: MemoryKeyStore"]}
{"id": "C46", "title": "A key package is used for at most one welcome", "statement": "Joining from a welcome deletes the matched key package and its init key, so the same package cannot be used again, and keeps all unrelated keys; a failing join leaves the stored keys unchanged.", "quantifier": "every key store state and welcome", "why_tests_cant": "All store states and failure points.", "anchors": ["rmls/src/group/creation.rs: Group::from_welcome", "rmls/src/key_package/builder.rs: KeyPackageBuilder::build"]}
{"id": "C47", "title": "A welcome yields its secrets to the addressed member only through its own entry", "statement": "Looking up a key package reference returns the first entry with that reference and nothing else; group secrets and group info encrypted for it decrypt to the originals under correct HPKE and AEAD.", "quantifier": "every welcome and reference", "why_tests_cant": "All welcomes.", "anchors": ["rmls/src/framing/welcome.rs: Welcome::find_secret, decrypt_group_secrets, decrypt_group_info"]}
{"id": "C48", "title": "Cipher suite support is consistent", "statement": "For every cipher suite value, the provider offers hash, HPKE and signature exactly when it reports the suite as supported, the listed supported suites are exactly those, and the algorithms are the ones RFC 9420 assigns.", "quantifier": "every 16-bit cipher suite value", "why_tests_cant": "All 65536 code points.", "anchors": ["rmls/src/crypto/provider/rust.rs: RustCryptoProvider", "rmls/src/crypto/cipher_suite.rs"]}
{"id": "C49", "title": "At most one re-init or branch PSK", "statement": "The group-secrets check accepts exactly the PSK lists in which at most one entry is a resumption PSK with usage reinit or branch.", "quantifier": "every list of PSK ids", "why_tests_cant": "All lists.", "anchors": ["rmls/src/framing/group_info.rs: GroupSecrets::verify_single_reinit_or_branch_psk"]}
{"id": "C50", "title": "The group info signature covers everything but itself", "statement": "Two group infos have the same signed bytes only if group context, extensions, confirmation tag and signer agree.", "quantifier": "every pair of group infos", "why_tests_cant": "All pairs.", "anchors": ["rmls/src/framing/group_info.rs: GroupInfo::serialize_base, verify_signature"]}
{"id": "C51", "title": "A leaf is found only where it is stored", "statement": "Searching the tree for a leaf returns an index only if that exact leaf is stored there, returns the first leaf carrying its encryption key, and finds every stored leaf in trees with distinct encryption keys.", "quantifier": "every tree of fewer than 2^32 slots and every leaf that can be encoded", "why_tests_cant": "All trees.", "anchors": ["rmls/src/ratchet_tree/mod.rs: RatchetTree::find_leaf"]}
{"id": "C52", "title": "Signatures of different kinds are never interchangeable", "statement": "Bytes signed as a leaf node, key package, group info or framed content are never equal across kinds, so a signature of one kind never verifies as another kind over the same primitive message.", "quantifier": "every pair of signed objects of different kinds", "why_tests_cant": "All pairs.", "anchors": ["rmls/src/crypto/provider/mod.rs: sign_with_label", "rmls/src/key_package/mod.rs: KeyPackage::verify_signature", "rmls/src/framing/group_info.rs: GroupInfo::verify_signature", "rmls/src/ratchet_tree/leaf_node.rs: LeafNode::verify_signature", "rmls/src/framing/mod.rs: FramedContentAuthData::verify_signature"]}
{"id": "C53", "title": "Key package verification covers the leaf", "statement": "A key package accepted by verification contains a leaf node whose own signature verifies.", "quantifier": "every key package, context and provider", "why_tests_cant": "An attacker chooses the key package.", "anchors": ["rmls/src/key_package/mod.rs: KeyPackage::verify", "rmls/src/ratchet_tree/leaf_node.rs: LeafNode::verify_signature"]}
{"id": "C54", "title": "Verified trees list only members as unmerged", "statement": "In a tree accepted by tree verification every unmerged leaf of every parent is occupied by a member (RFC 9420 section 12.4.3.1).", "quantifier": "every tree, group context and provider", "why_tests_cant": "Quantifies over adversarial trees.", "anchors": ["rmls/src/ratchet_tree/mod.rs: RatchetTree::verify_integrity"]}
{"id": "C55", "title": "Confirmation tags are checked against the right key and transcript", "statement": "A commit's confirmation tag is accepted exactly when it is present and is the MAC of the confirmed transcript hash under the confirmation key; a group info's tag exactly when it is the MAC of the context's confirmed transcript hash under the confirmation key that the joiner and PSK secrets lead to in that context.", "quantifier": "every tag, key, hash, context and secrets", "why_tests_cant": "All inputs, including absent tags.", "anchors": ["rmls/src/framing/mod.rs: FramedContentAuthData::verify_confirmation_tag", "rmls/src/framing/group_info.rs: GroupInfo::verify_confirmation_tag"]}
{"id": "C56", "title": "Key package references identify key packages", "statement": "The reference of a key package is the hash of section 5.2 over its encoding with the key package label, so two packages of one cipher suite with equal references are equal unless the hash collides on their encodings.", "quantifier": "every pair of key packages and every provider", "why_tests_cant": "Injectivity over all key packages; tests compare a few.", "anchors": ["rmls/src/key_package/mod.rs: KeyPackage::generate_ref"]}
{"id": "C57", "title": "Building a key package stores its keys under their names", "statement": "After a key package is built the key store holds the package under its reference, its init key pair and its encryption key pair under their public keys, and everything else unchanged; the package carries the settings given to the builder; a build that fails before storing changes nothing; a package built can be joined with.", "quantifier": "every builder, provider and store", "why_tests_cant": "Quantifies over all stores and settings.", "anchors": ["rmls/src/key_package/builder.rs: KeyPackageBuilder::build"]}
{"id": "C58", "title": "A group is the one it was created as or welcomed to", "statement": "Creating a group gives the group id and settings asked for; joining from a welcome gives the group described by the welcome's group info.", "quantifier": "every configuration and welcome", "why_tests_cant": "All welcomes; needs the result related to the decrypted group info.", "anchors": ["rmls/src/group/creation.rs: Group::new, Group::from_welcome"]}
{"id": "C59", "title": "Decryption returns exactly the plaintext", "statement": "For both crypto providers and every supported suite, opening what was sealed under the same key, nonce and additional data returns exactly the plaintext; keys and nonces of other than the cipher's sizes are refused; what is opened is what the cipher of the suite decrypts.", "quantifier": "every suite, key, nonce, plaintext and additional data, both providers", "why_tests_cant": "Quantifies over all plaintexts and both wrappers; trailing bytes are masked by lenient parsing in the tests.", "anchors": ["rmls/src/crypto/provider/rust/hpke.rs: aead_open, aead_seal", "rmls/src/crypto/provider/ring/hpke.rs: aead_open, aead_seal"]}
{"id": "C60", "title": "Making a key package never panics", "statement": "With any supported suite and a signature key pair generated for it, making a key package returns a key package or an error and never panics.", "quantifier": "every supported suite, key pair, credential, lifetime, capabilities and extensions", "why_tests_cant": "Absence of panics over all inputs; the tests use one suite.", "anchors": ["rmls/src/key_package/mod.rs: KeyPackage::new", "rmls/src/ratchet_tree/leaf_node.rs: LeafNode::new", "rmls/src/crypto/provider/rust/signature.rs: sign"]}
{"id": "C61", "title": "Generated signature keys work", "statement": "In every supported suite a generated signature key pair carries the suite's scheme, signing any message with its private key succeeds, and the public key verifies the signature.", "quantifier": "every suite, message and randomness, both providers", "why_tests_cant": "All messages and keys.", "anchors": ["rmls/src/crypto/provider/rust/signature.rs: signature_key_pair, sign, verify", "rmls/src/crypto/provider/ring/signature.rs: signature_key_pair, sign, verify"]}
{"id": "C62", "title": "A group's tree stays acceptable", "statement": "The tree of a group stays acceptable to new members through every history of adding, updating, removing and merging paths whose keys are new: every parent is vouched for by a parent hash below exactly one of its children, every unmerged leaf is listed all the way up, members are below both children of every parent, and so verify_integrity finds nothing wrong with parents.", "quantifier": "every history of any length from the creation of a group, every provider and hash function (a violation is a collision between two known inputs)", "why_tests_cant": "Holds over unbounded histories of operations that interact; a bug shows only after particular sequences of blanking, growing and joining.", "anchors": ["rmls/src/ratchet_tree/mod.rs: add, update, remove, merge_update_path, verify_parent_hashes, verify_integrity, compute_parent_hashes"]}
{"id": "C63", "title": "Messages and welcomes survive both providers", "statement": "With each of the two crypto providers, in every supported suite, a private message built with a generated signature key decrypts to the sender data and content put in and its signature verifies; a group info sealed for a welcome is read back; a decrypted message is accepted only if everything after its content is zero.", "quantifier": "every suite, key, secret, content, sender data and group context, both builds, any libraries that decrypt and verify what they encrypted and signed", "why_tests_cant": "The builds differ by conditional compilation and by wrapper bugs that hide each other; tests run one build on a few vectors.", "anchors": ["rmls/src/framing/private_message.rs: PrivateMessage::new, decrypt_sender_data, decrypt_content, PrivateMessageContent::deserialize (both features)", "rmls/src/framing/welcome.rs: decrypt_group_info", "rmls/src/crypto/provider/ring/hpke.rs: aead_open", "rmls/src/crypto/provider/rust/hpke.rs: aead_open"]}
{"id": "C64", "title": "A joiner keeps the same tree as the old members", "statement": "In a group of honest history, a member who reads the tree from the wire gets the nodes the old members have; from then on, while both go through the same events, both have the same nodes, tree hash, resolution, paths, supported credentials and keys, accept the same update paths and judge the tree alike.", "quantifier": "every history before and after joining, of any length, every provider", "why_tests_cant": "Old members' arrays come from operations, the joiner's from the parser; they differ only after particular removals, and the effect shows events later.", "anchors": ["rmls/src/ratchet_tree/mod.rs: serialize, deserialize, add, update, remove, merge_update_path, num_leaves, compute_root_tree_hash, verify_integrity"]}
{"id": "C65", "title": "A commit's proposals change exactly the members they name", "statement": "In a group of honest history, applying a proposal list that passes the check succeeds; the removed members are gone, the updated ones have their new leaf, the added ones are at the leftmost free leaves in the order of the list, and nobody else changes, in particular not the committer, who alone gets a new leaf by the path.", "quantifier": "every history, membership, valid list of proposals in any interleaving, and path", "why_tests_cant": "Updates, removes and adds interact through blanking, truncation and reuse of places; the tests apply single proposals.", "anchors": ["rmls/src/framing/proposal.rs: verify_proposal_list", "rmls/src/ratchet_tree/mod.rs: apply, merge_update_path"]}
{"id": "C66", "title": "Joining a group with a welcome", "statement": "A client joins exactly if everything fits together: the secrets are sealed for its key package, they open the group info, the tree is valid in the context of the group info, the group info is signed by a member and confirmed with the secrets, and the client is itself a member. A welcome made by an honest member is accepted, and the client ends up with that member's secrets, group info and tree.", "quantifier": "every welcome, key package, PSK store, separately sent tree and history of the group", "why_tests_cant": "The known-answer tests replay a few recorded groups; they cannot show that nothing else is accepted, nor that every honest welcome is.", "anchors": ["rmls/src/utilities/serde/serde_test.rs: passive_client_test (joining)", "rmls/src/framing/welcome.rs", "rmls/src/ratchet_tree/mod.rs: verify_integrity, find_leaf", "rmls/src/extensibility/mod.rs: find_extension_data"]}
{"id": "C67", "title": "What is read is not larger than the message", "statement": "A byte string that is read is part of the input; a vector has fewer elements than the input has bytes; a tree has less than twice as many slots as the input has bytes.", "quantifier": "every input, and every reader of elements", "why_tests_cant": "A length prefix can announce a gigabyte; tests only read what was written by an honest peer.", "anchors": ["rmls/src/utilities/serde/mod.rs: deserialize_opaque_vec, deserialize_vector", "rmls/src/ratchet_tree/mod.rs: deserialize"]}
{"id": "C68", "title": "Handling a commit", "statement": "A client accepts a message exactly if it is an authentic commit of a member in the client's epoch, with a valid list of proposals by value and, where there has to be one, a path whose leaf is valid and whose keys are not in use; it then has the tree with the proposals applied and the path merged into it.", "quantifier": "every state of a client after joining, and every message", "why_tests_cant": "Messages of a dishonest member, and commits with both proposals and a path, are not in the test vectors (one such vector is commented out).", "anchors": ["rmls/src/utilities/serde/serde_test.rs: passive_client_test (commits)", "rmls/src/framing/proposal.rs: verify_proposal_list", "rmls/src/ratchet_tree/mod.rs: keys, supported_creds, apply, merge_update_path"]}
{"id": "C69", "title": "Builds without overflow checks", "statement": "A release build, in which u32 arithmetic wraps and shift distances are taken modulo 32, behaves like a build with overflow checks wherever the latter comes back; and there too no leaf index makes a tree operation run for ever or reach the leaf of another index.", "quantifier": "every tree, leaf index, proposal list, path, provider and number of loop rounds", "why_tests_cant": "Tests run in the dev profile only, with overflow checks and with indices inside the tree; non-termination cannot be tested.", "anchors": ["rmls/src/utilities/tree_math/mod.rs", "rmls/src/ratchet_tree/mod.rs: get_leaf, resolve, add, update, remove, apply, merge_update_path, verify_integrity", "rmls/src/secret_tree/mod.rs: new, derive_next", "Cargo.toml: profile"]}
{"id": "C70", "title": "A joiner judges commits like the old members", "statement": "A member who read the tree from the wire and an old member, who agree on the group context and the epoch secret, end alike on every message: both accept it and arrive at the same nodes and tree hashes, or both return the same error, or both panic.", "quantifier": "every history of a group, every pair of members with the same tree, every provider and every message, authentic or not", "why_tests_cant": "The arrays of the two differ in length only after certain removals; tests have one member's view only.", "anchors": ["rmls/src/utilities/serde/serde_test.rs: passive_client_test (commits)", "rmls/src/ratchet_tree/mod.rs: apply, add, update, remove, merge_update_path, deserialize"]}
{"id": "C71", "title": "Members of an epoch read each other's private messages", "statement": "In a group, whatever its history, a private message that a member builds from the secret tree of the epoch is read by every other member who has the same tree (or read it from the wire) and the same epoch secret: content, sender, generation and reuse guard are those that went in, for every leaf, kind of content and generation. What a receiver accepts is exactly what opens with the secrets RFC 9420 derives for that leaf and generation and carries the leaf's signature, and the search for the generation ends.", "quantifier": "every history, pair of members, leaf, generation, content, provider, and every byte string received", "why_tests_cant": "The test has two leaves, leaf 1 and generation 0 only (with a TODO for others); what is accepted is a statement about all byte strings.", "anchors": ["rmls/src/group/group_test.rs: test_message_protection_priv, decrypt_private_message", "rmls/src/secret_tree/mod.rs: new, derive_ratchet_root, derive_next", "rmls/src/framing/private_message.rs: new, decrypt_sender_data, decrypt_content, authenticated_content"]}
{"id": "C72", "title": "No message key belongs to two messages", "statement": "Two private messages whose content is sealed with the same key are messages of the same epoch (same group context, same commit and PSK secrets as far back as both histories go), in trees of the same size, by the same leaf, of the same kind and generation; and if the nonce is the same too, the reuse guard is. Otherwise two calls of the KDF that were actually made to derive the two keys have different inputs and the same output.", "quantifier": "every pair of histories, epochs, groups, leaves, kinds of content, generations and reuse guards, every provider", "why_tests_cant": "A test compares the keys of a few leaves and generations; separation of all keys of all epochs is a statement about all pairs of derivations.", "anchors": ["rmls/src/secret_tree/mod.rs: new, derive_children, derive_ratchet_root, derive_next, derive_key, derive_nonce", "rmls/src/key_schedule/mod.rs: extract_joiner_secret, extract_epoch_secret", "rmls/src/framing/private_message.rs: new, derive_private_message_key_and_nonce"]}
{"id": "C73", "title": "The epoch secret commits to the epochs before it", "statement": "If two members, of whatever groups, end up with the same epoch secret, then this epoch and every earlier one had the same group context, commit secret and PSK secret for both, back to where one of them came in with the init secret the other had derived; or two calls of the KDF that were actually made collide. Members who start alike and see the same epochs have the same secrets.", "quantifier": "every pair of histories of any lengths, every start, every provider", "why_tests_cant": "The known-answer test runs along recorded histories; that no other history leads to the same secret is a statement about all pairs of histories.", "anchors": ["rmls/src/key_schedule/key_schedule_test.rs: key_schedule_test", "rmls/src/key_schedule/mod.rs: extract_joiner_secret, extract_epoch_secret", "rmls/src/crypto/provider/mod.rs: derive_secret, expand_with_label"]}
{"id": "C74", "title": "Extension contents are those of RFC 9420", "statement": "For each standard extension (application id, ratchet tree, required capabilities, external pub, external senders) the library writes exactly the content RFC 9420 defines, and reads that content back.", "quantifier": "every content that fits the encoding", "why_tests_cant": "Tests of the library round-trip its own bytes; agreement with the RFC's format for all contents is a statement about all values.", "anchors": ["rmls/src/extensibility/mod.rs: ApplicationIdExtension, RequiredCapabilitiesExtension, ExternalPubExtension, ExternalSendersExtension", "rmls/src/ratchet_tree/mod.rs: serialize, deserialize"]}
{"id": "C75", "title": "Members have the capabilities the group requires", "statement": "A tree accepted for a group context in which there is a required_capabilities extension has only members whose capabilities cover what is required; and every member supports the credentials of all members and the extensions of its leaf.", "quantifier": "every tree, group context, provider and time", "why_tests_cant": "No test has a group with required capabilities; that no accepted tree has an incapable member is a statement about all trees.", "anchors": ["rmls/src/ratchet_tree/mod.rs: verify_integrity, supported_creds", "rmls/src/ratchet_tree/leaf_node.rs: verify", "rmls/src/key_package/mod.rs: verify", "rmls/src/extensibility/mod.rs: RequiredCapabilitiesExtension"]}
{"id": "C76", "title": "Old message keys cannot be recomputed from what is kept", "statement": "Once a member has dropped the epoch secret, the encryption secret, the secrets of the tree nodes above its leaf and the secrets of the ratchet up to and including a generation, the message key of that generation cannot be computed any more by calls of the KDF from all that may remain: the other secrets of the epoch (also the init secret, hence all later epochs), the other nodes of the secret tree, other ratchets, later generations, and keys and nonces of other messages. Whoever computes it knew a secret on its derivation path, or all the secrets the group's history started with, or has found a collision of the KDF.", "quantifier": "every history, epoch, tree size, leaf, kind of content, generation, every set of extra knowledge and every sequence of KDF calls, every provider", "why_tests_cant": "A test can try some derivations; that none of unboundedly many leads to the key is a statement about all sequences of calls.", "anchors": ["rmls/src/secret_tree/mod.rs: new, derive_children, derive_ratchet_root, derive_next, derive_key, derive_nonce", "rmls/src/key_schedule/mod.rs: extract_joiner_secret, extract_epoch_secret", "rmls/src/crypto/provider/mod.rs: derive_secret, expand_with_label"]}
{"id": "C77", "title": "A commit secret locks out who does not have it", "statement": "Who knows the init and epoch secrets of all earlier epochs of a group, but not the commit secret (or not the PSK) of the new epoch, cannot compute the new epoch secret, any secret derived from it, or any message key of the epoch by calls of the KDF; unless they already knew a secret on its derivation path or have found a collision of the KDF.", "quantifier": "every history, new epoch, secret or message key of it, every set of extra knowledge and every sequence of KDF calls, every provider", "why_tests_cant": "That no sequence of derivations leads to the new secrets is a statement about all sequences, which no test can try.", "anchors": ["rmls/src/key_schedule/mod.rs: extract_joiner_secret, extract_epoch_secret, derive secrets", "rmls/src/key_schedule/key_schedule_test.rs: key_schedule_test", "rmls/src/secret_tree/mod.rs: new, derive_children, derive_next, derive_key"]}
{"id": "C78", "title": "One epoch authenticator, one group", "statement": "Members who have the same epoch authenticator, or who have joined with the same confirmation tag, are in the same group and epoch: they have the same group context (with tree hash and transcript hash), epoch secret, PSK secret and joiner secret, and the same tree; unless calls of the KDF, MAC inputs or inputs of the tree hash that were actually made collide.", "quantifier": "every pair of joins with whatever welcomes, every member with any history and any joiner, every provider", "why_tests_cant": "The passive client tests compare the authenticator of a few recorded groups with the expected one; that no two different groups have the same one is a statement about all pairs.", "anchors": ["rmls/src/utilities/serde/serde_test.rs: passive_client_test", "rmls/src/key_schedule/mod.rs: extract_epoch_secret, extract_joiner_secret", "rmls/src/framing/group_info.rs: verify_confirmation_tag", "rmls/src/ratchet_tree/mod.rs: verify_integrity, compute_root_tree_hash"]}
{"id": "C79", "title": "Unmerged leaves of accepted trees are sorted", "statement": "In a tree accepted by tree verification the unmerged leaves of every parent are strictly increasing (RFC 9420 section 7.1, and the comment on the field).", "quantifier": "every tree, group context, provider and time", "why_tests_cant": "Tests verify a few recorded trees, all made by honest members; that no accepted tree has a list out of order is a statement about all trees.", "anchors": ["rmls/src/ratchet_tree/mod.rs: verify_integrity, has_unmerged_leaf, resolve", "rmls/src/ratchet_tree/parent_node.rs: ParentNode, deserialize"]}
{"id": "C80", "title": "Members of an epoch accept each other's public messages", "statement": "In a group, whatever its history, a public message that a member signs and tags is accepted by every other member with the same tree (or one read from the wire), group state and epoch secret, each of whom computes the membership key on their own: it says what the sender put in. What a receiver accepts is exactly the encoding of a public message, with more bytes behind it or not, that is signed with the key and, if the sender is a member, carries the MAC under the membership key for this group state.", "quantifier": "every history, pair of members, content, sender, provider, and every byte string received", "why_tests_cant": "The test has recorded messages of one sender in one state; what is accepted is a statement about all byte strings.", "anchors": ["rmls/src/group/group_test.rs: test_message_protection_pub, verify_public_message", "rmls/src/framing/public_message.rs: new, sign_membership_tag, verify_membership_tag", "rmls/src/framing/mod.rs: verify_signature, MLSMessage"]}
{"id": "C81", "title": "A public message is accepted only in the group and epoch it names", "statement": "The checks on a public message (signature and membership tag) and the passive client accept it only if the group id and the epoch it names are those of the receiver's group state.", "quantifier": "every receiver, group state, sender and byte string", "why_tests_cant": "Tests use messages in their own group only; that no message of another group or epoch passes is a statement about all pairs of messages and states.", "anchors": ["rmls/src/framing/mod.rs: verify_signature, framed_content_tbs", "rmls/src/framing/public_message.rs: verify_membership_tag", "rmls/src/utilities/serde/serde_test.rs: passive_client_test", "rmls/src/group/group_test.rs: verify_public_message"]}
{"id": "C82", "title": "Application data is not sent or accepted in the clear", "statement": "Application data is not put into a public message, and a public message with application data is not accepted (RFC 9420 section 6: applications must use PrivateMessage for application data).", "quantifier": "every content, receiver and byte string", "why_tests_cant": "Tests leave the public form of application data out; that none is accepted is a statement about all messages.", "anchors": ["rmls/src/framing/public_message.rs: new, deserialize", "rmls/src/group/group_test.rs: verify_public_message"]}
{"id": "C83", "title": "The passive client, from bytes to outcome", "statement": "The client that reads a welcome, a key package, a tree and a commit as bytes accepts exactly if they are the encodings of such messages (with more bytes behind or not), its private keys open and sign one message each for its public keys, it joins as RFC 9420 says with the expected epoch authenticator, and the commit is a valid one; the bytes carry one message only. Likewise the opening of a welcome without PSKs.", "quantifier": "every byte string, key, PSK, tree, provider", "why_tests_cant": "The recorded vectors are a few accepted runs; what else would be accepted is a statement about all inputs.", "anchors": ["rmls/src/utilities/serde/serde_test.rs: passive_client_test, deserialize_message, check_encryption_key_pair, check_signature_key_pair", "rmls/src/group/group_test.rs: welcome_test"]}
{"id": "C84", "title": "Received data does not make the client panic", "statement": "Whatever is received, the checks of signatures, tags, trees, proposals and key packages, the opening of welcomes and messages, and the application of a commit return a value or an error; they do not panic.", "quantifier": "every message, tree, commit, context, secret and provider that does not itself panic", "why_tests_cant": "A panic needs one particular malformed input; tests run a few well-formed ones and a few malformed ones.", "anchors": ["rmls/src/ratchet_tree/mod.rs: verify_integrity, merge_update_path, apply, add, keys, supported_creds, find_leaf", "rmls/src/framing/mod.rs: verify_signature, verify_confirmation_tag", "rmls/src/framing/private_message.rs: decrypt_sender_data, decrypt_content", "rmls/src/framing/welcome.rs", "rmls/src/crypto/provider/rust/hpke.rs", "rmls/src/crypto/provider/ring/hpke.rs"]}
{"id": "C85", "title": "What a commit adds, updates and removes is checked", "statement": "A commit is accepted only if the key packages it adds are valid in the group (signed, for its suite and version, with keys nobody else has), the leaves it updates are valid in their places, and the members it removes are in the group (RFC 9420 sections 10.1, 7.3, 12.1).", "quantifier": "every group state, commit, key package, leaf and provider", "why_tests_cant": "Tests apply a few recorded commits, all of them honest; that no bad proposal gets through is a statement about all commits.", "anchors": ["rmls/src/framing/proposal.rs: verify_proposal_list", "rmls/src/ratchet_tree/mod.rs: apply, add, update, remove", "rmls/src/utilities/serde/serde_test.rs: passive_client_test", "rmls/src/key_package/mod.rs: verify"]}
{"id": "C86", "title": "A path is encrypted to the group", "statement": "A path is accepted only if each of its nodes has one ciphertext for each node of the resolution of the child on the copath (RFC 9420 section 7.5, 7.6).", "quantifier": "every tree, sender, path and provider", "why_tests_cant": "The recorded paths are all complete; that no incomplete path is accepted is a statement about all paths and trees.", "anchors": ["rmls/src/ratchet_tree/mod.rs: merge_update_path, filtered_direct_path", "rmls/src/utilities/serde/serde_test.rs: passive_client_test"]}
{"id": "C87", "title": "Used message keys are not kept", "statement": "After the key of a message has been used, it cannot be computed from what the secret tree and the ratchets hold: secrets are deleted as soon as something derived from them has been used (RFC 9420 section 9.2).", "quantifier": "every tree size, leaf, kind of content, generation, encryption secret and KDF", "why_tests_cant": "Tests compare keys with recorded ones; what could be computed from the values that remain is a statement about all computations.", "anchors": ["rmls/src/secret_tree/mod.rs: new, derive_children, derive_ratchet_root, derive_next"]}
{"id": "C88", "title": "Other entries of a welcome do not get in the way", "statement": "Whether a client can join with a welcome depends only on the entry for its key package, not on the other entries.", "quantifier": "every key store, welcome and list of entries", "why_tests_cant": "Tests have welcomes with few entries made by honest members; an attacker may add any entries.", "anchors": ["rmls/src/group/creation.rs: from_welcome", "rmls/src/key_store/mod.rs: retrieve"]}
{"id": "C89", "title": "Who may send what", "statement": "A message is accepted only if its sender may send such content: external senders and those who propose themselves send proposals of certain kinds, those who join by themselves send a commit with a path, application data is from members (RFC 9420 sections 6, 12.1.8, 12.4.3.2).", "quantifier": "every sender, content, receiver and byte string", "why_tests_cant": "The recorded messages are all of members; what is accepted of others is a statement about all messages.", "anchors": ["rmls/src/framing/mod.rs: verify_signature", "rmls/src/framing/public_message.rs: verify_membership_tag", "rmls/src/framing/private_message.rs: decrypt_content", "rmls/src/utilities/serde/serde_test.rs: passive_client_test"]}
{"id": "C90", "title": "A tree that was accepted stays acceptable", "statement": "If a tree was accepted by a new member, then after any sequence of valid changes to the group (adding, updating and removing members, accepted paths) the tree is one that the next new member accepts: every parent is still vouched for from below on exactly one side, and its unmerged leaves are still listed.", "quantifier": "every accepted tree, whoever made it, every sequence of changes and every hash function", "why_tests_cant": "Tests check recorded trees and single changes of honest trees; that no accepted tree turns into one that is rejected is a statement about all trees and histories.", "anchors": ["rmls/src/ratchet_tree/mod.rs: verify_integrity, verify_parent_hashes, add, update, remove, merge_update_path"]}
{"id": "C91", "title": "A built key package can be used", "statement": "Whatever settings are made on a key package builder, in whatever order, the package has the last value of each and usable defaults for the others: the leaf node of the package passes the checks for a tree with it.", "quantifier": "every sequence of settings, configuration, credential, key store, tree, time and provider", "why_tests_cant": "Tests build a package with one set of settings; the defaults and all orders of settings are not covered.", "anchors": ["rmls/src/key_package/builder.rs: new, with_*, build", "rmls/src/ratchet_tree/leaf_node.rs: Lifetime::verify, LeafNode::verify", "rmls/src/ratchet_tree/mod.rs: verify_integrity, supported_creds"]}
{"id": "C92", "title": "Checking a received tree takes work in proportion to its size", "statement": "The check of a received tree, whatever the tree and the outcome, takes a number of hash computations, signature checks and comparisons of unmerged leaves that is in proportion, up to a logarithmic factor, to the number of bytes that the tree was read from.", "quantifier": "every tree, context, time and provider, and every byte string that a tree is read from", "why_tests_cant": "Tests measure recorded trees; the worst tree of a size is not among them.", "anchors": ["rmls/src/ratchet_tree/mod.rs: verify_integrity, verify_parent_hashes, compute_tree_hash, has_unmerged_leaf"]}
{"id": "C93", "title": "A test vector passes exactly if it is right", "statement": "A test vector of the interoperability suite passes the repository's test for it exactly if every value in it is the one that RFC 9420 gives: tree math, tree validation, TreeKEM, tree operations, secret tree, crypto basics, PSK secret, key schedule, transcript hashes, messages and message protection.", "quantifier": "every vector, whatever its contents, and every provider", "why_tests_cant": "That recorded right vectors pass says nothing about whether wrong ones would fail; the tests themselves are not tested.", "anchors": ["rmls/src/utilities/tree_math/tree_math_test.rs: tree_math_test", "rmls/src/ratchet_tree/ratchet_tree_test.rs: tree_validation_test, tree_kem_test, tree_operations_test", "rmls/src/secret_tree/secret_tree_test.rs: secret_tree_test", "rmls/src/crypto/crypto_test.rs", "rmls/src/key_schedule/key_schedule_test.rs: psk_secret_test, key_schedule_test, transcript_hashes_test", "rmls/src/framing/framing_test.rs: messages_test", "rmls/src/group/group_test.rs: message_protection_test"]}
{"id": "C94", "title": "A message may arrive in pieces", "statement": "While a message has arrived in part, the reader says that the buffer is too small, and it says so only then: every part of an encoding that lacks bytes at the end is refused with that error, any other verdict on a byte string stays the same when more bytes follow, and an encoding delivered in any pieces is collected to exactly the message that was sent.", "quantifier": "every wire type, every value, every place where the encoding is cut, every way to deliver it in pieces and every byte string that follows", "why_tests_cant": "Tests read complete messages, or a few that are cut by hand; the place of the cut and the message are not covered.", "anchors": ["rmls/src/utilities/serde/mod.rs: Deserializer, deserialize_varint, deserialize_opaque_vec, deserialize_vector", "rmls/src/framing/mod.rs: MLSMessage::deserialize", "rmls/src/ratchet_tree/leaf_node.rs: Lifetime::deserialize"]}
{"id": "C95", "title": "A rejection names its cause", "statement": "When something received is rejected, the error that is reported is true of it: a value that cannot be read is named, it is in the input and it is not one that is defined; a leaf, key package, list of proposals, tree or update path that fails its checks has the defect that the error describes; secrets and packages are reported as missing only if they are.", "quantifier": "every wire type and byte string; every leaf, key package, list of proposals, tree, update path, welcome and store; every clock", "why_tests_cant": "Tests look at whether an input is rejected, and for the wrong reason they pass as well; which of many checks fails first depends on the whole input.", "anchors": ["rmls/src/utilities/error.rs: Error", "rmls/src/ratchet_tree/leaf_node.rs: LeafNode::verify", "rmls/src/key_package/mod.rs: KeyPackage::verify", "rmls/src/framing/proposal.rs: verify_proposal_list", "rmls/src/ratchet_tree/mod.rs: RatchetTree::verify_integrity, merge_update_path", "rmls/src/framing/welcome.rs: Welcome::decrypt_group_secrets", "rmls/src/group/creation.rs: Group::from_welcome", "rmls/src/key_schedule/mod.rs: GroupContext::deserialize"]}
{"id": "C96", "title": "What an application configures is what others see", "statement": "Whatever calls are made on the builders of configurations, in whatever order and however often, a configuration has the last value of each setting and MLS 1.0 with suite 1 where nothing was set; a group that is created has it, and whoever reads a key package built with it reads that version and suite and, through the accessors, exactly the identity or the certificates that it was built for.", "quantifier": "every sequence of calls; every credential, signature key, provider and store; every bytes after the package", "why_tests_cant": "Tests use one configuration in one order of calls and never read the package back.", "anchors": ["rmls/src/crypto/config.rs: CryptoConfigBuilder", "rmls/src/group/config.rs: GroupConfigBuilder", "rmls/src/crypto/credential.rs: Credential::identity, Credential::certificates", "rmls/src/group/creation.rs: Group::new", "rmls/src/key_package/builder.rs: KeyPackageBuilder::build"]}
{"id": "C97", "title": "Reading a private message takes work in proportion to the group and the message", "statement": "The number of key derivations that it takes to read a received private message, whatever it contains and whether it is accepted or not, is bounded in proportion to the number of leaves of the group and the length of the message.", "quantifier": "every provider, group size, epoch secrets, message and generation", "why_tests_cant": "Tests read messages of the first generations; the work is chosen by whoever sends the message.", "anchors": ["rmls/src/secret_tree/mod.rs: SecretTree::new, RatchetSecret::derive_next", "rmls/src/framing/private_message.rs: PrivateMessage::decrypt_sender_data, decrypt_content", "rmls/src/group/group_test.rs: decrypt_private_message"]}
{"id": "C98", "title": "Random bytes are handed out once", "statement": "When any number of threads draw random bytes from one provider at the same time, every request is given the next bytes of the generator's key stream, and no byte of the stream is given to two requests, of one thread or of two.", "quantifier": "every key stream, every number of threads, every program of calls, every interleaving of the steps of taking a lock, reading, writing back and releasing", "why_tests_cant": "A test sees a few interleavings; that bytes are given out twice under others would not be noticed.", "anchors": ["rmls/src/crypto/provider/rand.rs: RandChacha::fill", "rmls/src/crypto/provider/mod.rs: Rand", "rmls/src/framing/mod.rs: SenderData::new"]}
{"id": "C99", "title": "A key package is used once also when threads join at the same time", "statement": "When several threads that share a provider join with the same key package at the same time, at most one of them succeeds.", "quantifier": "every provider, store, welcome, number of threads and interleaving", "why_tests_cant": "Tests join from one thread; the interleavings in which the property fails are rare.", "anchors": ["rmls/src/group/creation.rs: Group::from_welcome", "rmls/src/crypto/provider/key_store.rs: MemoryKeyStore"]}
{"id": "C100", "title": "Threads that use different keys do not notice each other", "statement": "When threads share a provider, a thread that builds a key package, joins or creates a group returns what it would return if it ran alone, and leaves the entries it uses as it would alone, as long as no other thread changes them; and no thread waits for ever.", "quantifier": "every provider, store, key stream, number of threads, programs of the threads and interleaving", "why_tests_cant": "The interleavings are too many to test, and a test cannot see what did not happen.", "anchors": ["rmls/src/key_package/builder.rs: KeyPackageBuilder::build", "rmls/src/group/creation.rs: Group::new, Group::from_welcome", "rmls/src/crypto/provider/key_store.rs: MemoryKeyStore", "rmls/src/crypto/provider/rand.rs: RandChacha"]}
{"id": "C101", "title": "One epoch authenticator, one history of commits", "statement": "Members of a group that was started in one state, each with the commits they have handled, who arrive at the same epoch authenticator have handled the same commits, byte for byte with signatures and confirmation tags, and have the same epoch secret and key schedule inputs. Once two members have handled different commits for an epoch, their authenticators differ for ever. Unless calls of the KDF or inputs of the transcript hashes that were actually made collide.", "quantifier": "every provider with digests of one length, start state, pair of histories of any length and pair of key schedule inputs", "why_tests_cant": "A test compares authenticators of members that agree; that no pair of diverging histories ever meets again is a statement about all pairs of histories.", "anchors": ["rmls/src/key_schedule/mod.rs: ConfirmedTranscriptHashInput::hash, next_interim_transcript_hash, extract_joiner_secret, extract_epoch_secret", "rmls/src/framing/mod.rs: FramedContentAuthData::verify_confirmation_tag, AuthenticatedContent::confirmed_transcript_hash_input"]}
{"id": "C102", "title": "The order of the proposals in a commit does not matter", "statement": "Two members who list the same proposals of a commit in different orders (for example because references and proposals by value were collected differently) get the same ratchet tree: updates and removes may be listed in any order, among themselves and among the other proposals; only the adds must be listed in the same order, since they take the leftmost blank leaves in turn.", "quantifier": "for all trees, all lists of proposals with their senders that pass verify_proposal_list, and all permutations of them that keep the order of the adds", "why_tests_cant": "The orders of n proposals are n! and their effect depends on where the array is cut after each remove; tests apply one order. The failures need a remove of a blank leaf after a cut, or a crafted inner node over members on one side only.", "anchors": ["rmls/src/ratchet_tree/mod.rs: apply, add, update, remove", "rmls/src/framing/proposal.rs: verify_proposal_list"]}
{"id": "C103", "title": "Merging a commit is linear in the tree", "statement": "Whatever path a committer sends and however the merge ends, merge_update_path computes at most twice as many digests as the ratchet tree has slots (fewer than the slots if the array is full), resolve visits at most twice as many nodes, and copies no more unmerged leaves than the nodes of the tree list: a commit cannot make a member work more than in proportion to the tree it holds already.", "quantifier": "for all providers, cipher suites, trees of fewer than 2^32 slots (also crafted ones), senders and update paths, and for all outcomes", "why_tests_cant": "resolve and the tree hash recurse over subtrees once per level of the sender's path, so the total could be the slots times the height or worse; how the subtrees overlap over all shapes, blanks and senders is not seen in tests of small trees, which measure no work.", "anchors": ["rmls/src/ratchet_tree/mod.rs: merge_update_path, filtered_direct_path, resolve, compute_tree_hash", "rmls/src/ratchet_tree/parent_node.rs: compute_parent_hash"]}
{"id": "C104", "title": "The array of the tree is no longer than the group was ever large", "statement": "However members come and go, the array that holds the ratchet tree has at most four times as many slots (and one) as the group had members at its largest: adds reuse blank leaves and the array grows only when every leaf is occupied; updates and commit paths never make it longer; and removes cut it, so that at every time it is at most four times as long as the index of some present member (and two slots).", "quantifier": "for all sequences of adds, updates, removes and merged or rejected paths of any length, with any arguments, and all limits on the number of members", "why_tests_cant": "A leak of slots would show only after long histories; the array is private, its length depends on the order in which members leave, and tests run a handful of operations.", "anchors": ["rmls/src/ratchet_tree/mod.rs: add, update, remove, merge_update_path"]}
{"id": "C105", "title": "Values that nobody knows do not get in the way", "statement": "Capabilities are read whatever 16-bit numbers their five lists hold, keep them and are written back as the same bytes; and a leaf, a key package or a whole ratchet tree that passes validation still passes when unknown versions, cipher suites, extension types, proposal types and credential types are put into the capabilities, and extensions of unknown types that the capabilities list are put among the extensions, once hashes and signatures are made for the new content.", "quantifier": "for all capabilities, leaves, key packages and trees, all positions and numbers of unknown values, all providers", "why_tests_cant": "The unknown values can stand anywhere in five lists of every member; the reserved values of RFC 9420 section 13.5 exist because implementations pass their tests and then reject unknown values in the field.", "anchors": ["rmls/src/ratchet_tree/leaf_node.rs: Capabilities, LeafNode::verify", "rmls/src/ratchet_tree/mod.rs: supported_creds, verify_integrity", "rmls/src/key_package/mod.rs: KeyPackage::verify"]}
{"id": "C106", "title": "The private key of a node is known to the members below it and to nobody else", "statement": "In every history of a group in which members are added (where there is a place, C13), update, are removed and send paths that are accepted, the private key of every node that is not blank is known to exactly those people who sit at a leaf below the node and have not joined since the key of the node was made. Hence people who were removed and keep every key they ever had know no key of the tree until they are added again, and the last key of an accepted path is known to exactly the members.", "quantifier": "for all histories of any length, all trees that come about, all nodes, all people, who keep all keys they ever had", "why_tests_cant": "It is a statement about what each of any number of people knows after any number of operations, including people who have left; tests run one history and look at public keys only.", "anchors": ["rmls/src/ratchet_tree/mod.rs: add, update, remove, merge_update_path, resolve"]}
{"id": "C107", "title": "Every parent of an accepted tree is vouched for by a member", "statement": "For every parent node of a tree that verify_integrity accepts there is a member below it whose signed leaf node carries a parent hash at the end of a chain of parent hashes from that parent down (RFC 9420 section 7.9.2), everything else in the resolutions on the way joined after the parent was set, and the signed leaf fixes the keys, parent hashes and sibling tree hashes of all parents of its chain.", "quantifier": "for all accepted trees of any size, all parents, all pairs of trees that share a leaf, all histories of honest groups", "why_tests_cant": "The chain runs over as many levels as the tree has, through blank nodes and unmerged leaves; an attacker chooses the tree, and only an argument for all trees shows that no parent without a member behind it slips through.", "anchors": ["rmls/src/ratchet_tree/mod.rs: verify_integrity, verify_parent_hashes, find_parent_hash", "rmls/src/ratchet_tree/parent_node.rs: compute_parent_hash", "rmls/src/ratchet_tree/leaf_node.rs: LeafNode::verify_signature"]}
{"id": "C108", "title": "Rejecting a tag does not reveal the right one", "statement": "The work of checking a membership tag or a confirmation tag is the same for all wrong tags of the right length, so that whoever sends tags and watches how long they take to be rejected learns nothing about the right tag.", "quantifier": "for all providers, keys, messages and tags, and all adaptive attempts", "why_tests_cant": "Every test sees the right verdict. What leaks is how the verdict is reached, and what an observer makes of it over many attempts.", "anchors": ["rmls/src/crypto/provider/mod.rs: verify_mac", "rmls/src/framing/public_message.rs: PublicMessage::verify_membership_tag", "rmls/src/framing/mod.rs: FramedContentAuthData::verify_confirmation_tag"]}
{"id": "C109", "title": "Keys and nonces of a wrong size are refused, not crashed on", "statement": "Sealing and opening with a key or a nonce that does not have the size of the cipher of the suite fails with an error; the keys and nonces that the library derives always have that size, so that protecting and opening messages never fails for it.", "quantifier": "for all suites, keys, nonces, data, secrets, generations, guards and ciphertexts, with both providers", "why_tests_cant": "Tests use keys of the right size. The code looks as if it returned an error (try_into with map_err), and the conversion it calls panics instead.", "anchors": ["rmls/src/crypto/provider/rust/hpke.rs: aead_open, aead_seal", "rmls/src/crypto/provider/ring/hpke.rs: aead_open, aead_seal", "rmls/src/framing/private_message.rs: PrivateMessage::new, derive_private_message_key_and_nonce", "rmls/src/framing/mod.rs: expand_sender_data_key, expand_sender_data_nonce"]}
{"id": "C110", "title": "A private message shows only group, epoch, kind, authenticated data and length", "statement": "To somebody without the keys of the group a private message says which group and epoch it belongs to, whether it holds application data, a proposal or a commit, the authenticated data and how long the content is, and nothing else: not who sent it, how many messages they sent before, or what it says.", "quantifier": "for all providers whose AEAD hides what it seals, all secrets, senders, generations and contents", "why_tests_cant": "Tests compare messages with expected bytes. That the bytes do not depend on the sender or the content is a statement about pairs of runs.", "anchors": ["rmls/src/framing/private_message.rs: PrivateMessage::new, encrypt_private_message_content, PrivateContentAAD::serialize, PrivateMessageContent::serialize", "rmls/src/framing/mod.rs: encrypt_sender_data, SenderDataAAD::serialize, SenderData::new"]}
{"id": "C111", "title": "Proposals for pre-shared keys and re-initialisation are valid", "statement": "A list of proposals is accepted only if every proposal to use a pre-shared key carries a nonce of the length of the hash and is not for re-initialising or branching, and a proposal to re-initialise the group does not go back to an older version of the protocol.", "quantifier": "for all lists of proposals, senders, ids, nonces, uses, versions, and for all states of a client", "why_tests_cant": "A test has a few lists. That an acceptance check never looks at a field is a statement about all values of the field.", "anchors": ["rmls/src/framing/proposal.rs: verify_proposal_list, ReInitProposal, PreSharedKeyProposal", "rmls/src/key_schedule/mod.rs: PreSharedKeyID", "rmls/src/utilities/serde/serde_test.rs: passive_client_test"]}
{"id": "C112", "title": "Recursion is no deeper than the tree is high", "statement": "The functions that call themselves (resolving a node, hashing the tree, deriving the tree of message secrets) are never nested deeper than the level of the node they start at plus one: logarithmic in the size of what was received, and never more than 32. So no received tree can overflow the stack.", "quantifier": "for all trees, whatever is in them, all nodes, all excluded leaves, all providers, all sizes", "why_tests_cant": "A test has trees of a few leaves. A stack overflow shows with an input nobody tried.", "anchors": ["rmls/src/ratchet_tree/mod.rs: RatchetTree::resolve, RatchetTree::compute_tree_hash", "rmls/src/secret_tree/mod.rs: SecretTree::new, SecretTree::derive_children", "rmls/src/utilities/tree_math/mod.rs: NodeIndex::children, NodeIndex::level"]}
{"id": "C113", "title": "Applying a commit takes work in proportion to the tree and the commit", "statement": "Applying the proposals of a valid commit to the tree looks at a number of slots in proportion to the size of the tree plus the number of proposals, and appends no more blank slots than that. So no commit of a size the network lets through can keep a client busy.", "quantifier": "for all trees, all lists of proposals that pass the check, all senders", "why_tests_cant": "A test commits a few proposals to a tree of a few leaves; a quadratic loop shows with neither.", "anchors": ["rmls/src/ratchet_tree/mod.rs: RatchetTree::apply, RatchetTree::add, RatchetTree::remove", "rmls/src/group/proposal/mod.rs: verify_proposal_list"]}
{"id": "C114", "title": "The same input gives the same verdict on every run", "statement": "Hash sets and maps of the standard library are seeded anew on every run and visited in an order that differs from run to run. Whether a tree, a proposal list, a welcome or a commit is accepted, the reason for a refusal, and the trees and keys that result depend on the input alone, not on that order.", "quantifier": "for all implementations of hash sets and maps with the documented behaviour, all trees, proposals, messages and states, any two runs", "why_tests_cant": "A test run draws one seed, and two clients of one test usually agree; a dependence on the order shows once in many runs.", "anchors": ["rmls/src/ratchet_tree/mod.rs: RatchetTree::supported_creds, RatchetTree::keys, RatchetTree::verify_integrity, RatchetTree::compute_tree_hash, RatchetTree::merge_update_path", "rmls/src/ratchet_tree/leaf_node.rs: LeafNode::verify", "rmls/src/framing/proposal.rs: verify_proposal_list", "rmls/src/utilities/serde/serde_test.rs: passive_client_test"]}
{"id": "C115", "title": "A path costs what the state of the tree demands", "statement": "The encryptions that a path of a member needs, one for each node in the resolutions that the code computes along the copath, are at least the nodes of the path; never more than there are other members, in any history of adds, updates, removes and merged or rejected paths; never more than one for each level and one for each blank parent and each unmerged leaf; exactly the height of the tree when nothing is blank or unmerged; and after a path has been merged every subtree with its sender is reached by one encryption.", "quantifier": "for all trees reached by any history from any founder, all members as senders, and all trees whatever for the bounds by blanks", "why_tests_cant": "The cost depends on the whole history of the tree, and the bound by the number of members needs that below every parent key there is a member who holds it, an invariant over histories; tests measure single trees.", "anchors": ["rmls/src/ratchet_tree/mod.rs: RatchetTree::resolve, RatchetTree::filtered_direct_path, RatchetTree::merge_update_path, RatchetTree::add, RatchetTree::remove", "rmls/src/utilities/tree_math/mod.rs: NumLeaves::copath"]}
{"id": "C116", "title": "A private message that is accepted was sent", "statement": "What a receiver with the secrets of an epoch accepts as a private message from the leaf that its sender data names is byte for byte a message that some member of the epoch has made, with the same group id, epoch, kind, authenticated data, sender data and content: nobody without the keys can make one up, change one, or put one together from parts of others, unless the AEAD opens something that no sender has sealed or the KDF collides.", "quantifier": "every provider, every tree size, epoch, list of sent messages and received byte string", "why_tests_cant": "An attacker may recombine the parts of any messages; tests decrypt messages as they were made.", "anchors": ["rmls/src/framing/private_message.rs: PrivateMessage::new, decrypt_sender_data, decrypt_content, derive_private_message_key_and_nonce", "rmls/src/framing/mod.rs: expand_sender_data_key, expand_sender_data_nonce", "rmls/src/secret_tree/mod.rs: SecretTree::new, derive_ratchet_root, RatchetSecret", "rmls/src/group/group_test.rs: decrypt_private_message, test_message_protection_priv"]}
{"id": "C117", "title": "What is accepted in somebody's name they have signed", "statement": "If a leaf, key package, group info, private or public message, or commit is accepted under a signature key, then the holder of that key has signed exactly this object: a leaf that is not from a key package for this position of this group, a group info with this context, extensions, tag and signer, a message with this content, sender, authenticated data and wire format, and, from a member or an external joiner, in this state of the group. Nothing else that the holder has signed, of any kind or under any other label, can be passed off as it, unless a signature is accepted on something that they have not signed.", "quantifier": "every provider, cipher suite, key, finite record of what the holders have signed, and every object, message, commit or welcome received", "why_tests_cant": "The claim is about everything that a key may ever sign; tests verify single signatures.", "anchors": ["rmls/src/ratchet_tree/leaf_node.rs: verify_signature, new", "rmls/src/key_package/mod.rs: verify_signature, new", "rmls/src/framing/group_info.rs: verify_signature", "rmls/src/framing/mod.rs: AuthenticatedContent::new, verify_signature", "rmls/src/group/group_test.rs: decrypt_private_message", "rmls/src/utilities/serde/serde_test.rs: passive_client_test", "rmls/src/crypto/provider/mod.rs: sign_with_label, verify_with_label"]}
{"id": "C118", "title": "The membership tag covers the whole message and the state of the group", "statement": "A public message of a member that is accepted in an epoch, by a receiver or by the client handling a commit, is, with its content, sender, group, epoch, authenticated data, signature and confirmation tag, one that somebody has tagged with the membership key of the epoch in this state of the group: nothing of a tagged message can be changed, and it cannot be moved to another state, unless a message bears a valid tag on something that nobody has tagged.", "quantifier": "every provider, group state, key, finite record of what was tagged, and every received byte string or commit", "why_tests_cant": "An attacker may change any part of any message; tests check tags as they were made and at most a few changes.", "anchors": ["rmls/src/framing/public_message.rs: authenticated_content_tbm, sign_membership_tag, verify_membership_tag", "rmls/src/framing/mod.rs: AuthenticatedContentTBM, FramedContentAuthData", "rmls/src/group/group_test.rs: verify_public_message, test_message_protection_pub", "rmls/src/utilities/serde/serde_test.rs: passive_client_test (commits)"]}
{"id": "C119", "title": "A member can always send, and what they send arrives", "statement": "Whatever the history of a group, every member can send, in every generation, as a private message and, with authenticated data, as a public one, every content that leaves room for the signature in the encoding; the message serialises, and every member with the same epoch secret and the same tree, in memory or read from the wire, reads exactly this content, whatever bytes follow. Nothing longer than the encoding allows is ever sent.", "quantifier": "every provider with the sizes of the standards (both providers of the library have them) and, for reading private messages, an AEAD that opens what it seals (RustCrypto has it; ring sends, but does not open: C59), every supported suite, group history, member, generation, reuse guard, group context, epoch and content", "why_tests_cant": "A refusal or a panic while sending may depend on one length, leaf or generation; tests send a few short messages in trees of fixed size.", "anchors": ["rmls/src/framing/private_message.rs: PrivateMessage::new, encrypt_private_message_content, derive_private_message_key_and_nonce", "rmls/src/framing/public_message.rs: PublicMessage::new, sign_membership_tag", "rmls/src/framing/mod.rs: sign_framed_content, SenderData, FramedContentTBS", "rmls/src/secret_tree/mod.rs: derive_tree_secret, derive_ratchet_root, RatchetSecret", "rmls/src/group/group_test.rs: test_message_protection_pub, test_message_protection_priv"]}
{"id": "C120", "title": "Whoever is let in joins and can talk to the group", "statement": "A member of a group, whatever its history, can make a welcome with the library's functions for any list of key packages, with PSKs and path secrets, if everything has an encoding; every owner of one of them who has the PSKs joins with it and has the epoch secret, the group context and the tree of the member; and from then on everybody in the tree, old and new, can send the others private messages that they read.", "quantifier": "every provider that does what RFC 5869, 5116 and 9180 say and has an AEAD that opens what it seals, every group history with a valid tree, every member as inviter, list of key packages with different references, and content", "why_tests_cant": "Whether an invitation works depends on the history of the tree, the PSKs, the sizes of all parts and the order of the entries; tests read single welcomes made by other implementations, and none is made by the library.", "anchors": ["rmls/src/framing/welcome.rs: find_secret, decrypt_group_secrets, decrypt_group_info", "rmls/src/framing/group_info.rs: verify_signature, verify_confirmation_tag, serialize_base", "rmls/src/key_schedule/mod.rs: extract_psk_secret, extract_welcome_secret, GroupContext::extract_epoch_secret", "rmls/src/crypto/provider/mod.rs: encrypt_with_label, sign_with_label, sign_mac", "rmls/src/utilities/serde/serde_test.rs: passive_client_test (joining)"]}
{"id": "C121", "title": "A key package can be made of everything that has an encoding", "statement": "With a supported suite and a signature key pair that the provider generated for it, `KeyPackageBuilder::build` succeeds for every credential and all settings that have encodings (and leave room for keys and signatures), whatever is in the key store; the package can be read back, and a welcome that names it is accepted. Something without an encoding, a key pair of another scheme, and an unsupported suite are refused, and the store is then as before.", "quantifier": "every library meeting the standards, both providers, every supported suite, generated key pair, credential, list of settings, randomness and key store", "why_tests_cant": "Tests build a few packages with short fields; that no combination of settings, sizes and keys makes building fail or leave something behind is a claim about all of them, and a panic in one suite shows only with real keys of that suite.", "anchors": ["rmls/src/key_package/builder.rs: KeyPackageBuilder::build", "rmls/src/key_package/mod.rs: KeyPackage::new, from_keys, generate_ref", "rmls/src/ratchet_tree/leaf_node.rs: LeafNode::new", "rmls/src/crypto/provider/mod.rs: sign_with_label, ref_hash", "rmls/src/group/creation.rs: Group::from_welcome"]}
{"id": "C122", "title": "A member who is not alone can renew their keys", "statement": "In every group that a client has joined, every member who is not the only one can renew their keys: for new keys of their choice, as many as their filtered direct path is long, there are a parent hash and a signature for their leaf such that the commit with this path can be sent, and every client of the group accepts it and arrives at the same tree, with the new keys in it. A member who is alone cannot: no commit of theirs with a path is accepted.", "quantifier": "every cryptography meeting the standards, welcome, joined client, member, key, list of path nodes, list of proposals that leave the tree alone, and client with the same state", "why_tests_cant": "Tests replay the commits of recorded groups; that the checks of the leaf, the parent hashes and the message never contradict each other, so that no tree leaves a member without an acceptable path, is a claim about all trees.", "anchors": ["rmls/src/utilities/serde/serde_test.rs: passive_client_test", "rmls/src/ratchet_tree/mod.rs: merge_update_path, filtered_direct_path, verify_integrity", "rmls/src/ratchet_tree/leaf_node.rs: LeafNode::verify", "rmls/src/framing/public_message.rs: PublicMessage::new, sign_membership_tag"]}
{"id": "C123", "title": "A commit that members accept does not lock out newcomers", "statement": "When a client accepts a commit with a path in a tree that newcomers accept, then newcomers accept the tree at which it arrives, with its tree hash in the group context. The same holds after any number of such commits.", "quantifier": "every cryptography with digests of limited size, tree, group context, client, member, commit with a path, and sequence of paths", "why_tests_cant": "A member and a newcomer run different checks on the same data: one looks at the path, the other at the whole tree. Tests join recorded groups; whether the checks on paths are enough for the checks on trees is a claim about all trees and paths.", "anchors": ["rmls/src/utilities/serde/serde_test.rs: passive_client_test", "rmls/src/ratchet_tree/mod.rs: merge_update_path, verify_integrity, keys, supported_creds", "rmls/src/ratchet_tree/leaf_node.rs: LeafNode::verify"]}
{"id": "C124", "title": "The keys of a group can be renewed again and again", "statement": "In a tree that newcomers accept and that has at least two members, any schedule of renewals, however long and by whichever members in whichever order, with new keys of their choice, can be carried out: for each turn there are a parent hash and a signature with which the path passes the checks of the other members and is merged, and after all turns newcomers accept the tree. The number of nodes on a member's path is the same in every turn and depends only on who is in the group. The only exception is a turn in which an older node already carries the parent hash of a parent made in this turn.", "quantifier": "every cryptography meeting the standards, tree, group context, and schedule with new distinct keys", "why_tests_cant": "A test runs a few commits. That no sequence of accepted renewals leads to a tree in which somebody has no acceptable path, or which newcomers refuse, is a claim about unbounded sequences.", "anchors": ["rmls/src/ratchet_tree/mod.rs: merge_update_path, filtered_direct_path, verify_integrity, keys, supported_creds", "rmls/src/ratchet_tree/leaf_node.rs: LeafNode::verify", "rmls/src/utilities/serde/serde_test.rs: passive_client_test"]}
{"id": "C125", "title": "A group that keeps to the rules can always be joined", "statement": "When a founder and everybody who is added, updates or commits afterwards uses leaf nodes that are signed, support the credentials in use and have keys of their own, and paths have new keys, then newcomers accept the tree of the group at every time, with any group context that has its tree hash.", "quantifier": "every cryptography with digests of limited size, founder, group context, and sequence of additions, updates, removals and paths of any length", "why_tests_cant": "Whether a group locks itself out depends on its whole history: parent hashes, unmerged leaves, key uniqueness and credential counts interact over many changes. Tests replay a few recorded histories.", "anchors": ["rmls/src/ratchet_tree/mod.rs: add, update, remove, merge_update_path, verify_integrity, keys, supported_creds", "rmls/src/ratchet_tree/leaf_node.rs: LeafNode::verify"]}
{"id": "C126", "title": "Whoever is added to a group that keeps to the rules can join it and talk", "statement": "In a group that keeps to the rules of C125, whatever its history, any number of others are added by the leaf nodes of their key packages, each where there is room, and a member makes a welcome with the tree hash of the tree after that. The welcome can be made; everybody who was added joins with it and arrives at the epoch secret of the others; and from then on everybody in the tree can send private messages that fit, which everybody else reads.", "quantifier": "every cryptography whose primitives are correct, with digests of limited size; every founder, history, list of newcomers, PSK, sender, generation and content", "why_tests_cant": "A group that works today can lock out newcomers tomorrow: whether they can join depends on every change since the founding. Tests let recorded newcomers join recorded groups.", "anchors": ["rmls/src/ratchet_tree/mod.rs: add, verify_integrity", "rmls/src/framing/welcome.rs: find_secret, decrypt_group_secrets, decrypt_group_info", "rmls/src/utilities/serde/serde_test.rs: passive_client_test", "rmls/src/framing/private_message.rs: PrivateMessage"]}
{"id": "C127", "title": "A commit that keeps to the rules leaves a group that can be joined", "statement": "A client is in a group that has kept to the rules of C125 and accepts a commit. If everybody the commit adds has a leaf node from a key package that is good beside all members and beside the others who are added, and everybody it removes is a member, then the tree at which the client arrives has exactly the members it should have, and newcomers accept it with every group context that has its tree hash.", "quantifier": "every cryptography with a hash of limited size, every history of the group, every state of the client with its tree, every accepted commit with its proposals and path", "why_tests_cant": "The checks that a commit passes on arrival and the checks by which newcomers judge the tree are different code and are made at different times; whether the first imply the second depends on the whole history and on all proposals together. Tests handle a few recorded commits, and nobody joins afterwards.", "anchors": ["rmls/src/utilities/serde/serde_test.rs: passive_client_test", "rmls/src/framing/proposal.rs: verify_proposal_list", "rmls/src/ratchet_tree/mod.rs: apply, add, remove, verify_integrity"]}
