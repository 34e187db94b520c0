{"id": "C01", "title": "Merkle trie operations answer like a set", "statement": "Starting from an empty trie, after any history of successful or rejected `add`/`delete` calls with elements of one fixed length, `add(x)` returns true exactly when x was not yet a member (and makes it one), `delete(x)` returns true exactly when x was a member (and removes it), and every other member is untouched.", "quantifier": "every finite sequence of add/delete calls over byte strings of one common non-zero length, every starting set reachable that way", "why_tests_cant": "a test runs a handful of insertion orders; the node-splitting, chain-building and collapse cases depend on the whole history and on which node identifiers are reused", "anchors": ["src/crypto/merkletrie/trie.rs: Trie::add, Trie::delete", "src/crypto/merkletrie/node.rs: Node::find, Node::add, Node::remove", "src/crypto/merkletrie/cache.rs"]}
{"id": "C02", "title": "Merkle trie root hash is independent of history", "statement": "Any two histories of add/delete calls (with root-hash queries interleaved anywhere) that end with the same set of elements report the same root hash; asking for the root hash never changes any later answer.", "quantifier": "all pairs of finite histories, including interleaved root_hash calls, over elements of one common length", "why_tests_cant": "two nodes of the network must agree on the hash although they inserted in different orders; the set of orders is unbounded", "anchors": ["src/crypto/merkletrie/trie.rs: Trie::root_hash", "src/crypto/merkletrie/node.rs: Node::calculate_hash"]}
{"id": "C03", "title": "Merkle trie root hash binds the set", "statement": "If the underlying hash is collision free, two tries with equal root hashes contain the same elements, each trie holding elements of one length and the two lengths being equal or not differing by a multiple of 256.", "quantifier": "all pairs of reachable tries, all collision-free hashes", "why_tests_cant": "a collision of the encoding (not of the hash) would be a specific unlucky pair of sets; sampling cannot exclude it", "anchors": ["src/crypto/merkletrie/node.rs: Node::calculate_hash", "src/crypto/merkletrie/trie.rs: Trie::root_hash"]}
{"id": "C04", "title": "Merkle trie storage does not leak nodes", "statement": "After any history, the stored nodes are exactly those reachable from the root: no node reachable from the root is missing, no unreachable node remains, and once every element has been deleted the store is empty.", "quantifier": "every finite history of add/delete calls over one element length", "why_tests_cant": "leaks and dangling references only show for particular split/collapse sequences; identifiers are reassigned on each operation", "anchors": ["src/crypto/merkletrie/cache.rs: allocate_new_node, set_node, delete_node", "src/crypto/merkletrie/node.rs: Node::add, Node::remove"]}
{"id": "C05", "title": "Merkle trie rejects elements of a different length", "statement": "An element whose length differs from that of the stored elements is rejected with a length-mismatch error by both `add` and `delete`, never by a crash, and leaves the trie unchanged.", "quantifier": "every reachable trie and every byte string of another length", "why_tests_cant": "the crash needs a specific prefix relation between the new element and a stored one", "anchors": ["src/crypto/merkletrie/trie.rs: Trie::add, Trie::delete"]}
{"id": "C06", "title": "256-bit set behaves like a set of byte values", "statement": "After any sequence of set/clear calls on indices below 256, `bit(i)` is set exactly when the last call naming i was a set, and `is_zero` holds exactly when no index is set.", "quantifier": "every finite sequence of set/clear calls, every index 0..255", "why_tests_cant": "word-boundary and shift mistakes affect single indices after particular sequences", "anchors": ["src/crypto/merkletrie/bitset.rs: Bitset::set_bit, clear_bit, bit, is_zero"]}
{"id": "C07", "title": "Merkle array proofs are complete", "statement": "For every array and every list of in-range positions (any order, with repetitions), `prove` succeeds and `verify` of the proof against the array's root accepts the claimed (position, element hash) map.", "quantifier": "all arrays of up to 2^64 elements, all non-empty position lists within range", "why_tests_cant": "partial trees of odd sizes with missing siblings multiply out to unboundedly many shapes", "anchors": ["src/crypto/merklearray/merkle.rs: Tree::from_array, Tree::prove, verify", "src/crypto/merklearray/partial.rs: PartialLayer::up", "src/crypto/merklearray/layer.rs: Layer::up"]}
{"id": "C08", "title": "Merkle array proofs are binding", "statement": "If hashing is collision free, an accepted proof against the root of an honestly built tree only speaks the truth: when the claimed hashes are those of objects, each object is the element at its position. For bare hashes, two accepted proofs of the same number of levels against the same root cannot claim different hashes for the same position; in particular a proof against an honestly built tree of that depth only verifies the elements the tree really holds at these positions (absent padding positions verify only as the zero hash).", "quantifier": "all arrays, all claimed element maps, all proofs an adversary may supply", "why_tests_cant": "soundness quantifies over every adversarial proof", "anchors": ["src/crypto/merklearray/merkle.rs: verify", "src/crypto/merklearray/partial.rs: PartialLayer::up"]}
{"id": "C09", "title": "Merkle array proving handles its position list robustly", "statement": "`prove` fails exactly when some requested position is out of range, the proof does not depend on the order or repetition of the requested positions, and proving nothing yields an empty proof.", "quantifier": "all arrays and all position lists", "why_tests_cant": "order and duplicates range over all permutations", "anchors": ["src/crypto/merklearray/merkle.rs: Tree::prove"]}
{"id": "C10", "title": "Mnemonic round trip", "statement": "For every 32-byte key, `key_to_mnemonic` yields 25 words of the word list and `mnemonic_to_key` of these words returns the same key.", "quantifier": "all 2^256 keys, every checksum hash function", "why_tests_cant": "2^256 keys; carry and end-of-buffer handling of 11-bit packing depends on values", "anchors": ["src/crypto/mnemonic.rs: key_to_mnemonic, mnemonic_to_key, to_base11, to_base8"]}
{"id": "C11", "title": "Only the canonical mnemonic of a key is accepted", "statement": "Every word list accepted by `mnemonic_to_key` is the one `key_to_mnemonic` prints for the returned key; a list of another length, with an unknown word, with surplus high bits in the last data word or with a wrong checksum word is rejected with the documented error.", "quantifier": "all lists of strings", "why_tests_cant": "2048^25 word lists", "anchors": ["src/crypto/mnemonic.rs: mnemonic_to_key, checksum"]}
{"id": "C12", "title": "Address text round trip and canonicity", "statement": "Parsing the printed form of an address gives the address back, distinct addresses print differently, and every string the parser accepts is the printed form of the result.", "quantifier": "all 2^256 addresses, all strings, every checksum hash", "why_tests_cant": "the space of strings is unbounded; base32 trailing bits create near-duplicates", "anchors": ["src/data/basics/address.rs: Display, FromStr"]}
{"id": "C13", "title": "Address parsing never crashes", "statement": "For every input string the address parser returns an address or an error.", "quantifier": "all strings", "why_tests_cant": "the crashing strings need a checksum computed for an over-long payload; random tests never hit one", "anchors": ["src/data/basics/address.rs: FromStr::from_str"]}
{"id": "C14", "title": "Domain separation of hashed and signed objects", "statement": "The byte string that is hashed or signed for an object determines the kind of the object: representations of objects with different domain tags are never equal, whatever their contents.", "quantifier": "all pairs of tags, all pairs of payloads", "why_tests_cant": "payloads are arbitrary byte strings; the property is about all concatenations", "anchors": ["src/protocol/hash.rs: HashID constants", "src/crypto/hashable.rs: Hashable::hash_rep"]}
{"id": "C15", "title": "Hash text form round trip", "statement": "Parsing the printed base32 form of a 32-byte hash returns it, and only canonical 52-character forms of 32-byte values parse.", "quantifier": "all 32-byte hashes, all strings", "why_tests_cant": "2^256 values, unbounded strings", "anchors": ["src/crypto/hashable.rs: CryptoHash Display, TryFrom"]}
{"id": "C16", "title": "Multisig verification enforces the threshold", "statement": "When multisig verification accepts, the address is the one derived from the version, threshold and key list, the threshold is at least 1, at least threshold positions carry a signature and every signature present verifies under the key of its position.", "quantifier": "all messages, addresses, multisig structures (any number of subsignatures)", "why_tests_cant": "a forged structure may mix missing, invalid, duplicate and default entries arbitrarily", "anchors": ["src/crypto/multisig.rs: verify, batch_verify", "src/crypto/batch_verifier.rs"]}
{"id": "C17", "title": "Multisig signing and assembly is complete", "statement": "If at least threshold key holders each produce a partial multisignature over the same key list, assembling them in any order gives a multisignature that verifies for the derived address.", "quantifier": "all key lists of up to 255 keys, thresholds, signer subsets and assembly orders; if the first key is the blank one (1 followed by zeros) its holder must be among the signers", "why_tests_cant": "subsets and orders are exponential", "anchors": ["src/crypto/multisig.rs: sign, assemble, verify"]}
{"id": "C18", "title": "Merging multisignatures loses and invents nothing", "statement": "A successful merge contains a signature at a position exactly when one of the inputs does and that signature comes from an input; merging is commutative and idempotent on success and rejects structurally different inputs.", "quantifier": "all pairs of multisig structures", "why_tests_cant": "any overlap pattern of signature positions", "anchors": ["src/crypto/multisig.rs: merge, add_sigs"]}
{"id": "C19", "title": "Multisig address binds version, threshold and key list", "statement": "If hashing is collision free, two (version, threshold, key list) triples with the same derived address are equal; invalid versions and thresholds are rejected.", "quantifier": "all pairs of triples, any number of keys", "why_tests_cant": "injectivity over unbounded lists", "anchors": ["src/crypto/multisig.rs: from_pks"]}
{"id": "C20", "title": "Batch signature verification is the conjunction of single verifications", "statement": "A batch verifies exactly when it is non-empty and every enqueued (key, message, signature) verifies, independent of enqueue order.", "quantifier": "all batches and orders", "why_tests_cant": "unbounded batches", "anchors": ["src/crypto/batch_verifier.rs: enqueue, verify"]}
{"id": "C21", "title": "One-time signatures verify for every identifier in range", "statement": "From freshly generated secrets covering a range of batches, after any history of delete-before calls, signing for an identifier not yet deleted and inside the range (batch in the range, offset below the number of keys per batch) produces a signature that verifies for that identifier, message and public key.", "quantifier": "all ranges, all identifiers, all histories of deletions", "why_tests_cant": "the two-level key state depends on the whole deletion history", "anchors": ["src/crypto/ots.rs: OTSSecrets::generate, sign, delete_before", "src/crypto/ots.rs: OTS::verify"]}
{"id": "C22", "title": "One-time signature keys are forward secure", "statement": "After delete_before(id), no retained secret can sign for any identifier lexicographically below id: signing there yields the empty signature, and no history of later calls makes it possible again.", "quantifier": "all ranges, identifiers and later call histories", "why_tests_cant": "forward security is a statement about every later call sequence", "anchors": ["src/crypto/ots.rs: delete_before, sign"]}
{"id": "C23", "title": "Deleting old one-time keys keeps the future ones", "statement": "delete_before(id, n) never removes the ability to sign for identifiers at or after id with an offset below n (the number of keys per batch) that were signable before. Offsets of n or more in the batch being expanded are given up.", "quantifier": "all secrets states reachable by deletions, all identifiers", "why_tests_cant": "boundary cases at batch ends depend on both components", "anchors": ["src/crypto/ots.rs: delete_before"]}
{"id": "C24", "title": "VRF proofs verify and outputs are unique", "statement": "A proof made with a secret key verifies under its public key and yields the same output as computed from the proof; two accepted encodings with the same curve point gamma give the same output. The secret scalar is the one of RFC 8032.", "quantifier": "all keys, messages, nonces; any prime-order group and hash functions", "why_tests_cant": "algebraic identity over the whole group", "anchors": ["src/crypto/vrf.rs: prove, verify, hash"]}
{"id": "C25", "title": "Rounds map one-to-one to one-time signature identifiers", "statement": "For a positive dilution the identifier of a round has offset below the dilution, determines the round, and identifiers are ordered lexicographically as the rounds are.", "quantifier": "all rounds and dilutions", "why_tests_cant": "2^128 pairs", "anchors": ["src/data/basics/units.rs: Round::ots_id"]}
{"id": "C26", "title": "Round arithmetic helpers", "statement": "Capped subtraction is never negative and exact when possible; rounding up to a multiple returns the least multiple not below the round, or fails explicitly on zero divisor or overflow.", "quantifier": "all u64 pairs", "why_tests_cant": "2^128 pairs; overflow region is a thin set", "anchors": ["src/data/basics/units.rs: Round::sub_capped, round_up_to_multiple_of"]}
{"id": "C27", "title": "Generated participation keys cover the validity interval", "statement": "Participation keys generated for rounds first..last with a positive dilution can sign for every round in the interval.", "quantifier": "all first<=last, all dilutions", "why_tests_cant": "boundary rounds of the first and last batch for each dilution", "anchors": ["src/data/account.rs: fill_db_with_participation_keys"]}
{"id": "C28", "title": "Participation key persistence is crash consistent", "statement": "Whatever the crash point, restoring after persisting participation keys over older ones gives either the old or the new keys in full.", "quantifier": "all crash points between the individual writes, all old and new keys", "why_tests_cant": "crash points between writes are not reachable from a unit test", "anchors": ["src/data/account.rs: Participation::persist, restore, persist_new_parent"]}
{"id": "C29", "title": "Deleting old participation keys is crash safe and restorable", "statement": "delete_old_keys followed by restore gives the same participation with voting secrets advanced to the requested round; at any crash point the restored secrets are those before or after.", "quantifier": "all participations, rounds and crash points", "why_tests_cant": "crash points and all key states", "anchors": ["src/data/account.rs: Participation::delete_old_keys, restore"]}
{"id": "C30", "title": "Account manager keeps exactly the registered, unexpired keys", "statement": "After any history of add_participation and delete_old_keys, a key is listed for a round and able to sign it exactly if it was added, covers the round, could sign when added, and every deletion since kept the round; adding the same key twice has no effect; a deletion never drops the next round's key.", "quantifier": "all histories of add/delete", "why_tests_cant": "histories are unbounded", "anchors": ["src/data/account_manager.rs: AccountManager::keys, has_live_keys, add_participation, delete_old_keys"]}
{"id": "C31", "title": "Protocol upgrade proposals can be made, approved and switched to", "statement": "With no pending proposal, a block may propose a new protocol version with a delay in the allowed window; with enough approvals the network switches at the announced round and not otherwise.", "quantifier": "all upgrade states, votes and rounds", "why_tests_cant": "a state machine over thousands of rounds", "anchors": ["src/data/bookkeeping/block.rs: UpgradeState::apply_upgrade_vote"]}
{"id": "C32", "title": "The protocol only changes at a scheduled switch with enough approvals", "statement": "Along any sequence of accepted upgrade votes the current protocol changes only in the switch round of the pending proposal and only if that proposal had collected at least the threshold of approvals.", "quantifier": "all histories of votes from all starting states", "why_tests_cant": "histories over all rounds", "anchors": ["src/data/bookkeeping/block.rs: UpgradeState::apply_upgrade_vote"]}
{"id": "C33", "title": "Approval counting is exact and bounded by the voting window", "statement": "The approval count of a pending proposal equals the number of approving blocks since it was proposed; approvals at or after the vote deadline are rejected.", "quantifier": "all histories", "why_tests_cant": "history dependent counter", "anchors": ["src/data/bookkeeping/block.rs: UpgradeState::apply_upgrade_vote"]}
{"id": "C34", "title": "A block assembled on a parent passes the header checks against it", "statement": "A new block built on a parent header satisfies every check that validation performs on the pair: next round, parent hash, timestamps, genesis id and hash, upgrade state.", "quantifier": "all parent headers and clock readings", "why_tests_cant": "all parent states", "anchors": ["src/data/bookkeeping/block.rs: Block::new, Header::pre_check"]}
{"id": "C35", "title": "Block timestamps are monotone and bounded", "statement": "The timestamp of a new block is at least its parent's and exceeds it by at most the protocol's maximum increment unless the parent has timestamp zero, whatever the local clock says.", "quantifier": "all parent timestamps, clock values, increments", "why_tests_cant": "2^192 combinations; clock skew in both directions", "anchors": ["src/data/bookkeeping/block.rs: Block::new"]}
{"id": "C36", "title": "Reward distribution conserves the rewards rate", "statement": "In each round with reward units whose sums fit into 64 bits, the increase of the rewards level times the total reward units plus the new residue equals the rewards rate plus the old residue, and in every other round level and residue stay; so over any number of rounds nothing is lost or made up; the residue stays below the number of reward units.", "quantifier": "all reward states, pool balances, unit totals, any number of rounds", "why_tests_cant": "conservation across unbounded rounds", "anchors": ["src/data/bookkeeping/block.rs: RewardsState::next_state"]}
{"id": "C37", "title": "The rewards rate never promises more than the pool holds", "statement": "When the rewards rate is recomputed, rate times the refresh interval (plus owed residue, plus the minimum balance) does not exceed the incentive pool balance.", "quantifier": "all pool balances, parameters and residues", "why_tests_cant": "all u64 balances", "anchors": ["src/data/bookkeeping/block.rs: RewardsState::next_state", "src/data/bookkeeping/genesis.rs: create_block"]}
{"id": "C38", "title": "Signed transactions survive block encoding", "statement": "Encoding a signed transaction into a block and decoding it with the same header returns the same transaction and apply data; where the protocol stores transactions without genesis fields, transactions of another network are rejected.", "quantifier": "all transactions and block headers", "why_tests_cant": "flag combinations with all genesis values", "anchors": ["src/data/bookkeeping/block.rs: encode_signed_tx, decode_signed_tx"]}
{"id": "C39", "title": "Block transactions are grouped faithfully", "statement": "Grouping a block's transactions keeps all of them in order, puts transactions in one group exactly when they are adjacent with the same non-zero group id, and leaves transactions without group id alone.", "quantifier": "all transaction lists", "why_tests_cant": "unbounded lists and group patterns", "anchors": ["src/data/bookkeeping/block.rs: decode_payset_groups", "src/data/bookkeeping/block.rs: signed_txs_to_group"]}
{"id": "C40", "title": "Transaction liveness window", "statement": "A transaction is accepted as alive in a round exactly when the round lies in its validity window and its genesis id and hash fit the block's network.", "quantifier": "all rounds, windows and genesis values", "why_tests_cant": "boundary rounds, empty genesis values", "anchors": ["src/data/transactions/transaction.rs: Header::alive"]}
{"id": "C41", "title": "Well-formed transactions respect the protocol limits", "statement": "If a transaction is accepted as well-formed then its type is enabled in the protocol, its validity interval is ordered and not longer than the maximum life, its note is not too long, its fee satisfies the minimum unless exempt, and its sender is neither zero nor the rewards pool.", "quantifier": "all transactions, special addresses and protocol parameters", "why_tests_cant": "dozens of independent parameters", "anchors": ["src/data/transactions/transaction.rs: Transaction::is_well_formed"]}
{"id": "C42", "title": "A transaction paying exactly the minimum fee is well-formed", "statement": "Without fee pooling, a payment that satisfies every documented limit and pays exactly the minimum fee is accepted.", "quantifier": "all protocols without fee pooling and payments", "why_tests_cant": "an off-by-one at one fee value per parameter set", "anchors": ["src/data/transactions/transaction.rs: Transaction::is_well_formed"]}
{"id": "C43", "title": "Checking a transaction never crashes", "statement": "The well-formedness check returns success or an error for every transaction and parameter set.", "quantifier": "all transactions including adversarial ones", "why_tests_cant": "crash needs sender equal to the rewards pool or page counts that overflow", "anchors": ["src/data/transactions/transaction.rs: Transaction::is_well_formed"]}
{"id": "C44", "title": "Key registration coherence", "statement": "With coherence checks enabled, an accepted key registration either sets all participation fields with an ordered, non-empty voting interval not starting after last-valid+1, or clears all of them.", "quantifier": "all key registration field combinations", "why_tests_cant": "2^6 zero-patterns times all rounds", "anchors": ["src/data/transactions/keyreg.rs: check_coherency"]}
{"id": "C45", "title": "Application account and app references are resolved consistently", "statement": "Resolving an index and looking up its address (or app id) are mutually inverse: index 0 means the sender (or the called app), a listed entry gives its position, anything else is an error.", "quantifier": "all sender/list/index combinations", "why_tests_cant": "unbounded lists with duplicates", "anchors": ["src/data/transactions/application.rs: address_by_index, index_by_address, app_id_by_index, index_by_app_id"]}
{"id": "C46", "title": "Group fee pooling charges every transaction", "statement": "The fee credit of a group is the sum of its fees minus the minimum fee for every transaction except compact-cert transactions, and groups that pay less are rejected.", "quantifier": "all groups and fees", "why_tests_cant": "all fee distributions in groups", "anchors": ["src/data/transactions/signed_tx.rs: fee_credit"]}
{"id": "C47", "title": "Signing records the right authorizer", "statement": "A transaction signed with a key pair verifies under the address it names as authorizer: the sender when the sender signs, otherwise the signer recorded as auth address.", "quantifier": "all transactions, all key pairs whose address is not the zero address", "why_tests_cant": "all combinations of sender and signer, including the zero address", "anchors": ["src/data/transactions/transaction.rs: Transaction::sign", "src/data/transactions/signed_tx.rs: SignedTx::authorizer"]}
{"id": "C48", "title": "Relevant addresses cover every account a payment or asset transfer touches", "statement": "The relevant addresses of a transaction contain sender, fee sink, receivers, close-to addresses and the clawed-back asset holder, and match_address is true for exactly these.", "quantifier": "all transactions, addresses", "why_tests_cant": "all field combinations", "anchors": ["src/data/transactions/transaction.rs: relevant_addrs, match_address"]}
{"id": "C49", "title": "Reward application conserves algos", "statement": "Applying rewards up to a level adds exactly (level difference) x (whole reward units) to balance and rewarded counter, non-participating accounts are unchanged, and applying twice at the same level is the same as once.", "quantifier": "all accounts and levels", "why_tests_cant": "all u64 values, overflow behaviour", "anchors": ["src/data/basics/user_balance.rs: AccountData::with_updated_rewards"]}
{"id": "C50", "title": "Applying rewards in steps or at once", "statement": "For a participating account whose whole reward units do not change, applying rewards at an intermediate level and then the final level pays what a single application pays; in general it never pays less.", "quantifier": "all accounts and level sequences", "why_tests_cant": "compounding over unbounded level sequences", "anchors": ["src/data/basics/user_balance.rs: with_updated_rewards, pending_rewards"]}
{"id": "C51", "title": "Minimum balance is monotone and saturates", "statement": "The minimum balance of an account never overflows, is at least the protocol minimum, and does not decrease when assets, apps or schema entries are added.", "quantifier": "all accounts and parameters", "why_tests_cant": "all u64 parameters including the saturation region", "anchors": ["src/data/basics/user_balance.rs: min_balance", "src/data/basics/teal.rs: StateSchema"]}
{"id": "C52", "title": "Normalized online balance orders accounts like rewarded balances", "statement": "Ordering online accounts by normalized balance at the time of their last update is consistent with the order of their balances with rewards applied at any common later level, and computing it never crashes.", "quantifier": "all account pairs and levels", "why_tests_cant": "an order statement over all pairs; overflow of one intermediate product", "anchors": ["src/data/basics/user_balance.rs: normalized_online_balance"]}
{"id": "C53", "title": "State schema arithmetic", "statement": "Schema addition and subtraction saturate, addition is commutative, associative and monotone, and subtracting what was added restores the schema when no saturation happened; the entry count and required balance are monotone.", "quantifier": "all schemas", "why_tests_cant": "u64 saturation", "anchors": ["src/data/basics/teal.rs: StateSchema::add_schema, sub_schema, num_entries, min_balance"]}
{"id": "C54", "title": "State deltas within limits", "statement": "A state delta is valid exactly when every key and every stored value, and for byte values their sum, is within the protocol limits, and, unless it is empty, the protocol allows keys at all; converting values to deltas and back is lossless.", "quantifier": "all deltas, iteration orders and limits", "why_tests_cant": "unbounded maps", "anchors": ["src/data/basics/teal.rs: StateDelta::is_valid, TealValue::to_value_delta, ValueDelta::to_teal_value"]}
{"id": "C55", "title": "Sortition weight depends on the VRF output", "statement": "Two credentials whose VRF outputs differ are sampled from different hashes, so that membership is not the same for all VRF outputs.", "quantifier": "all VRF outputs, members", "why_tests_cant": "requires comparing all outputs; the encoding silently drops a field", "anchors": ["src/data/committee/credential.rs: UnauthenticatedCredential::verify"]}
{"id": "C56", "title": "Lowest credential output is the minimum over all weight units", "statement": "The lowest output of a credential of weight w is the minimum of the w hashes for sub-users 0..w-1 (or 1..w), and never ranks a credential by an empty minimum.", "quantifier": "all weights and hashes", "why_tests_cant": "weight-1 credentials are the edge case; minimum over any number of hashes", "anchors": ["src/data/committee/credential.rs: Credential::lowest_output, lt"]}
{"id": "C57", "title": "Sortition selects a bounded, monotone number of seats", "statement": "The number of selected seats is at most the stake and is the least count whose cumulative probability reaches the draw, hence monotone in the draw.", "quantifier": "all stakes, cumulative distributions and draws", "why_tests_cant": "all draws and stakes", "anchors": ["src/data/committee/sortition.rs: select"]}
{"id": "C58", "title": "Committee membership verification", "statement": "A credential verifies only if its VRF proof is valid under the registered selection key and it has positive weight; the weight never exceeds the account's voting stake.", "quantifier": "all credentials and membership data", "why_tests_cant": "adversarial credentials", "anchors": ["src/data/committee/credential.rs: verify"]}
{"id": "C59", "title": "Merging consensus overrides is deterministic", "statement": "Merging a set of configured protocol overrides into the built-in ones gives one well-defined result, independent of map iteration order, and never crashes: deleted versions disappear together with upgrades to them, others are added or replaced.", "quantifier": "all maps and all iteration orders", "why_tests_cant": "hash-map iteration order is random per process", "anchors": ["src/config/consensus.rs: ConsensusProtocols::merge"]}
{"id": "C60", "title": "Saving an empty override set removes the override file", "statement": "After saving an empty set of overrides there is no override file, and saving then loading a non-empty set gives the merged result.", "quantifier": "all file-system states and override sets", "why_tests_cant": "depends on prior file existence", "anchors": ["src/config/consensus.rs: save_configurable_consensus, preload_configurable_consensus_protocols"]}
{"id": "C61", "title": "Built-in protocol table is coherent", "statement": "For every built-in protocol the upgrade delay of each approved upgrade lies in the protocol's window (or is zero where there is none), each approved target exists in the table and is newer, thresholds do not exceed committee sizes, and following approved upgrades from any released version ends in V30.", "quantifier": "every protocol version in the table, every upgrade path", "why_tests_cant": "a statement about all paths through the table", "anchors": ["src/config/consensus.rs: init_consensus_protocols"]}
{"id": "C62", "title": "Key file names identify account and interval", "statement": "The part-key file name of an account and interval is recognised as such, gives back the account name, and different (account, interval) pairs have different names; root key file names likewise.", "quantifier": "all account names (any string) and round intervals", "why_tests_cant": "account names may contain dots, digits and suffixes", "anchors": ["src/config/keyfile.rs"]}
{"id": "C63", "title": "A relay is always archival", "statement": "After loading a configuration with a non-empty listen address the node is archival and serves ledger and blocks; other settings are those of the file.", "quantifier": "all configuration files", "why_tests_cant": "all settings combinations", "anchors": ["src/config/mod.rs: Local::merge_from_file"]}
{"id": "C64", "title": "Bootstrap list contains no empty entry", "statement": "The DNS bootstrap list for a network never contains an empty entry and joining it loses only empty entries.", "quantifier": "all bootstrap strings and networks", "why_tests_cant": "arbitrary separators", "anchors": ["src/config/mod.rs: Local::dns_bootsrap_array, dns_bootstrap"]}
{"id": "C65", "title": "Payments never close to their sender and the fee sink pays only the rewards pool", "statement": "A payment check rejects closing to the sender itself and spending from the fee sink to anyone but the rewards pool (and never with close).", "quantifier": "all payments and special addresses", "why_tests_cant": "all address coincidences", "anchors": ["src/data/transactions/payment.rs: check_spender"]}
{"id": "C66", "title": "Block encoding of a transaction determines its genesis flags", "statement": "The encoding of a transaction-in-block that is hashed into the block's transaction commitment determines the transaction, its apply data and both genesis flags.", "quantifier": "all pairs of transactions in blocks", "why_tests_cant": "a collision of the encoding is a specific pair of values; tests compare decoded values only", "anchors": ["src/data/transactions/signed_tx.rs: SignedTxInBlock", "src/protocol/codec.rs: encode"]}
{"id": "C67", "title": "Signed transactions round trip through the codec", "statement": "Decoding the encoding of a signed transaction returns that signed transaction.", "quantifier": "all signed transactions (any combination of sig, msig, lsig, auth address)", "why_tests_cant": "all combinations of omitted fields", "anchors": ["src/data/transactions/signed_tx.rs: SignedTx", "src/protocol/codec.rs: encode, decode"]}
{"id": "C68", "title": "Merkle trie nodes survive serialisation", "statement": "A stored node that is loaded again is the node that was stored: leaf or inner, its hash bytes and all children.", "quantifier": "all nodes with any child set and hash of up to 255 bytes (leaf: any length)", "why_tests_cant": "2^256 child sets", "anchors": ["src/crypto/merkletrie/node.rs: Node::serialize, Node::deserialize"]}
{"id": "C69", "title": "Genesis block rewards rate", "statement": "The genesis block's rewards rate times the refresh interval does not exceed the rewards pool balance (less the minimum balance where the protocol says so), and creation fails explicitly when the pool is missing or underfunded.", "quantifier": "all genesis allocations and protocols", "why_tests_cant": "all u64 balances", "anchors": ["src/data/bookkeeping/genesis.rs: create_block"]}
{"id": "C70", "title": "Network message tags are unambiguous", "statement": "Every message tag is two bytes, tags are pairwise distinct, and a list of tags joined with commas can be split back.", "quantifier": "all tags and all lists of tags", "why_tests_cant": "lists are unbounded", "anchors": ["src/protocol/tags.rs"]}
{"id": "C71", "title": "Adding signatures to a multisignature loses nothing and is all or nothing", "statement": "A successful add_sigs leaves a position signed exactly if it was signed before or one of the added multisignatures signs it, with that very signature; keys, version and threshold never change; a failed add_sigs leaves the multisignature as it was.", "quantifier": "all multisignatures and all lists of added multisignatures", "why_tests_cant": "conflicts may sit at any position of any of the added signatures", "anchors": ["src/crypto/multisig.rs: MultisigSignature::add_sigs, matches"]}
{"id": "C72", "title": "Application accounts are distinct", "statement": "Two applications with the same account address have the same index, and no object of another kind hashes to an application's address, unless an explicit pair of strings collides under the hash.", "quantifier": "all pairs of 64-bit application indices, all other hashed objects, all hash functions", "why_tests_cant": "2^128 pairs of indices; collisions are adversarial", "anchors": ["src/data/basics/user_balance.rs: AppIndex address", "src/protocol/hash.rs"]}
{"id": "C73", "title": "Account status names round trip", "statement": "A string is read as a status exactly when it is the printed name of that status, and the names are distinct.", "quantifier": "all strings", "why_tests_cant": "all strings that are not names must be rejected", "anchors": ["src/data/basics/user_balance.rs: Status"]}
{"id": "C74", "title": "The hash of a balance record binds its contents", "statement": "Balance records with different addresses or account data hash differently unless the hash function collides.", "quantifier": "all pairs of balance records", "why_tests_cant": "tests hash one record", "anchors": ["src/data/basics/user_balance.rs: BalanceRecord"]}
{"id": "C75", "title": "Schema of a key value store", "statement": "The schema computed for a key/value store counts exactly its integer and byte-slice entries, in any iteration order, and the counts add up to the number of entries.", "quantifier": "all stores", "why_tests_cant": "stores of any size with any mix of values", "anchors": ["src/data/basics/teal.rs: to_state_schema"]}
{"id": "C79", "title": "The announced protocol version comes true", "statement": "The version that next_version_info announces for a round is the version that every chain of accepted blocks runs at that round, and no chain changes protocol before it; an announced version is never missing.", "quantifier": "all upgrade states reachable from genesis, all later votes", "why_tests_cant": "depends on every possible continuation of the chain", "anchors": ["src/data/bookkeeping/block.rs: BlockHeader::next_version_info"]}
{"id": "C76", "title": "Checking a header leaves the parent alone", "statement": "Checking a block header against its parent changes nothing: the parent header is the same afterwards, and repeating the check gives the same verdict.", "quantifier": "all pairs of headers", "why_tests_cant": "the side effect shows only for blocks that vote on a pending upgrade", "anchors": ["src/data/bookkeeping/block.rs: BlockHeader::pre_check, UpgradeState::apply_upgrade_vote"]}
{"id": "C77", "title": "Any received block can be checked against its header", "statement": "contents_match_header answers for every block, also malformed ones: yes exactly if every entry decodes and the header carries the commitment of the payset.", "quantifier": "all blocks and protocols", "why_tests_cant": "blocks come from untrusted peers with arbitrary entries", "anchors": ["src/data/bookkeeping/block.rs: contents_match_header, payset_commit", "src/crypto/merklearray/merkle.rs: Tree::from_block"]}
{"id": "C80", "title": "Genesis ids identify network and schema", "statement": "Two genesis configurations with the same id have the same network and the same schema id.", "quantifier": "all network names and schema ids", "why_tests_cant": "all pairs of strings", "anchors": ["src/data/bookkeeping/genesis.rs: Genesis::id"]}
{"id": "C81", "title": "A transaction has one stored form in a block", "statement": "Two entries of a payset that decode, with the same header, to the same transaction and apply data are the same entry.", "quantifier": "all headers and entries", "why_tests_cant": "malleability may hide in any flag combination", "anchors": ["src/data/bookkeeping/block.rs: decode_signed_tx, encode_signed_tx"]}
{"id": "C82", "title": "The block digest binds the header", "statement": "Two block headers with the same digest are equal, the protocol state they claim included, unless two explicit strings collide under the hash.", "quantifier": "all pairs of headers, all hash functions", "why_tests_cant": "collisions are adversarial", "anchors": ["src/data/bookkeeping/block.rs: Block::digest, BlockHeader"]}
{"id": "C78", "title": "The transaction root binds the payset", "statement": "Two paysets that match the same block header are the same, entry by entry and flag by flag, unless the hash fails on explicit strings hashed for the two; the root of a Merkle array binds the whole array, its length included.", "quantifier": "all headers, all pairs of paysets of any length, all 32-byte hash functions", "why_tests_cant": "collisions and second preimages are adversarial; trees of any shape", "anchors": ["src/data/bookkeeping/block.rs: contents_match_header, payset_commit", "src/crypto/merklearray/merkle.rs: Tree::from_block", "src/data/transactions/payset.rs: Payset::commit"]}
{"id": "C83", "title": "Transaction ids identify transactions", "statement": "Two transactions with the same id are equal, and no other kind of hashed object has a transaction's id, unless two explicit strings collide under the hash.", "quantifier": "all pairs of transactions of every type, all hash functions", "why_tests_cant": "needs the encoding to be injective on all values of every field", "anchors": ["src/data/transactions/transaction.rs: Transaction::id", "src/protocol/codec.rs: encode"]}
{"id": "C84", "title": "Group ids bind the members and their order", "statement": "Equal transaction group ids (or ids of lists of signed transactions) mean equal lists in the same order, and the two kinds of id, which share a domain tag, are never hashed from the same string.", "quantifier": "all lists of hashes and of signed transactions", "why_tests_cant": "lists of any length; the shared tag rules out the usual domain separation argument", "anchors": ["src/data/transactions/transaction.rs: TxGroup", "src/data/signed_tx_group.rs: SignedTxVec::id"]}
{"id": "C85", "title": "One accepted byte string per transaction", "statement": "A transaction is accepted by the decoder from exactly one byte string, the one the encoder writes, so that bytes and values identify each other.", "quantifier": "all byte strings and transactions", "why_tests_cant": "malleable encodings are adversarial byte strings", "anchors": ["src/protocol/codec.rs: encode, decode"]}
{"id": "C86", "title": "The encoding is a function of the value", "statement": "Two equal transactions in a block (equal apply data included) have the same encoding, hence the same digest, on every node.", "quantifier": "all apply data, all iteration orders of the maps inside", "why_tests_cant": "hash map iteration order is randomised per process; a single run always agrees with itself", "anchors": ["src/data/transactions/transaction.rs: ApplyData, EvalDelta", "src/data/transactions/payset.rs: Payset::commit"]}
{"id": "C87", "title": "One-time key certificates name their slot", "statement": "The strings signed to certify one-time batch and offset keys determine the key, the batch and the offset; a batch certificate is never an offset certificate.", "quantifier": "all keys, batches and offsets", "why_tests_cant": "all u64 pairs and all keys", "anchors": ["src/crypto/ots.rs: OTSSubkeyBatchID, OTSSubkeyOffsetID", "src/protocol/codec.rs: encode"]}
{"id": "C88", "title": "Sortition is fair", "statement": "With the same draw, more stake or a larger committee never gives fewer seats and more stake of others never more; over all digests, the share that gives more than j seats is the binomial tail probability up to one part in 2^256 - 1 (exact arithmetic).", "quantifier": "all stakes, totals, committee sizes, digests", "why_tests_cant": "2^256 digests; statistical tests bound the error only loosely", "anchors": ["src/data/committee/sortition.rs: select, sortition_binomial_cdf_walk"]}
{"id": "C89", "title": "Credential tie breaking is a stable strict order", "statement": "Comparing credentials is irreflexive and transitive, repeating lowest_output gives the same value although it changes the credential, and lowest_output_digest never fails and prints exactly that value (the winning unit's digest).", "quantifier": "all credentials and weights", "why_tests_cant": "loops over up to 2^64 units; values with leading zeros are rare", "anchors": ["src/data/committee/credential.rs: lowest_output, lowest_output_digest, lt"]}
{"id": "C90", "title": "Root accounts can be generated and restored", "statement": "Root::generate makes an account from any 32-byte seed without failing, and Root::restore gives back the same key; on an empty store it reports NotFound.", "quantifier": "all seeds, all stores", "why_tests_cant": "one random seed per run; the failure is in the size handed to the key constructor", "anchors": ["src/data/account.rs: Root::generate, Root::import, Root::restore"]}
{"id": "C91", "title": "Several managed participation keys stay restorable", "statement": "After the manager deletes old keys of all the participations it manages, restoring a participation gives that participation with its own advanced secrets.", "quantifier": "all sets of managed participations, all iteration orders", "why_tests_cant": "needs several participations and a hash map order", "anchors": ["src/data/account_manager.rs: AccountManager::delete_old_keys", "src/data/account.rs: Participation::delete_old_keys, restore"]}
{"id": "C92", "title": "Old keys can be deleted after every block", "statement": "Given the header of any block this node makes, AccountManager::delete_old_keys deletes the old keys of every managed participation without crashing.", "quantifier": "all headers made by Block::new and Genesis::create_block, all managers", "why_tests_cant": "the crash depends on how the headers are built", "anchors": ["src/data/account_manager.rs: AccountManager::delete_old_keys", "src/data/bookkeeping/block.rs: Block::new", "src/data/bookkeeping/genesis.rs: create_block"]}
{"id": "C93", "title": "Generated participation keys can be registered and then used", "statement": "The registration transaction of freshly generated participation keys is well formed, and the voting key it registers verifies the signatures the generated keys make for every round of the registered interval.", "quantifier": "all accounts, intervals, dilutions, seeds, consensus parameters", "why_tests_cant": "combines generation, the coherence check and signing for all rounds", "anchors": ["src/data/account.rs: generate_registration_transaction, fill_db_with_participation_keys", "src/data/transactions/keyreg.rs"]}
{"id": "C94", "title": "Settings missing from the configuration file keep their defaults", "statement": "Loading a configuration file that sets only some settings succeeds, with the default for every setting it leaves out (the doc comment of load_from_disk).", "quantifier": "all sets of settings present in the file", "why_tests_cant": "2^87 sets of present settings", "anchors": ["src/config/mod.rs: Local::load_from_disk, load_from_file, merge_from_file", "src/config/default.rs"]}
{"id": "C95", "title": "A saved phonebook is loaded back", "statement": "After save_phonebook_to_disk, load_phonebook returns the saved entries.", "quantifier": "all lists of entries", "why_tests_cant": "all entry lists; the loading code reads another type", "anchors": ["src/config/mod.rs: load_phonebook, save_phonebook_to_disk"]}
{"id": "C96", "title": "A saved configuration is loaded back", "statement": "After save_to_disk, load_from_disk returns the saved settings.", "quantifier": "all configurations", "why_tests_cant": "all settings combinations", "anchors": ["src/config/mod.rs: Local::save_to_disk, save_to_file, load_from_file"]}
{"id": "C97", "title": "Validation and DNSSEC flags mean the documented bits", "statement": "Each of the seven flag functions depends on exactly its documented bit, with the documented polarity; modes 0, 3 and 12 select the documented checks.", "quantifier": "all flag words", "why_tests_cant": "2^32 flag words", "anchors": ["src/config/mod.rs: dnssec_srv_enforced .. catchup_verify_apply_data"]}
{"id": "C98", "title": "Amounts: reward units round down and sums never wrap", "statement": "The number of reward units of a balance is the number of whole units it contains (undefined exactly for a zero unit); splitting a balance never gains a unit and loses at most one. A sum of two amounts or rounds is exact or fails explicitly.", "quantifier": "all balances, units, and pairs of 64-bit amounts", "why_tests_cant": "2^128 pairs; the carry cases and the overflow region are thin sets", "anchors": ["src/data/basics/units.rs: MicroAlgos::reward_units, Add for MicroAlgos, Add for Round"]}
{"id": "C99", "title": "Trimming a hash keeps exactly its first eight bytes", "statement": "Converting a hash to 64 bits never fails, gives the little-endian value of its first eight bytes, and identifies two hashes exactly when these bytes agree; a hash is reported zero exactly when every byte is zero.", "quantifier": "all 32-byte hashes", "why_tests_cant": "2^256 values", "anchors": ["src/crypto/hashable.rs: CryptoHash::trim_to_u64, is_zero"]}
{"id": "C100", "title": "One-time signatures cannot be moved to another message or round", "statement": "If the underlying signatures are unforgeable and the random keys are distinct, then after any history of generating, signing and deleting, a one-time signature that verifies for an identifier and a message is on exactly an identifier and a message that the owner asked to sign.", "quantifier": "all histories of generate, sign and delete_before calls, all candidate signatures, identifiers and messages", "why_tests_cant": "the adversary combines certificates and signatures from the whole history arbitrarily", "anchors": ["src/crypto/ots.rs: OTS::verify, OTSSecrets::sign, generate, delete_before"]}
{"id": "C101", "title": "Accepted headers extend their parent", "statement": "A header is accepted on a parent exactly when it is for the next round, names the parent's digest, has a timestamp in the allowed window, carries the genesis id and (exactly where supported) genesis hash of the parent's network, and its upgrade state is the result of its vote.", "quantifier": "all headers, parents and protocol tables", "why_tests_cant": "the space of header pairs; each missing check leaves all ordinary blocks accepted", "anchors": ["src/data/bookkeeping/block.rs: BlockHeader::pre_check"]}
{"id": "C102", "title": "A digest determines the whole chain below it", "statement": "Two chains of accepted headers that start from the same trusted header and end in the same digest are the same chain, upgrade states included, or contain two headers that are a hash collision; rounds are consecutive, the genesis id (once set) and, under protocols that have it, the genesis hash never change and time never goes back along a chain.", "quantifier": "all chains of any length, all hash functions", "why_tests_cant": "chains of any length, adversarial headers", "anchors": ["src/data/bookkeeping/block.rs: BlockHeader::pre_check, Block::digest"]}
{"id": "C103", "title": "A new block carries the network and votes honestly", "statement": "A block assembled on a parent keeps the genesis id and hash and the special addresses, is empty and commits to that, and approves a pending upgrade exactly when voting is open and the protocol lists that upgrade.", "quantifier": "all parents, clocks and protocol tables", "why_tests_cant": "voting states are reached only after thousands of rounds", "anchors": ["src/data/bookkeeping/block.rs: Block::new, process_upgrade_params"]}
{"id": "C104", "title": "The genesis block describes the configured network", "statement": "The genesis block has round 0, no parent, the configured id, timestamp, special addresses and protocol, the genesis hash as seed and (where supported) as genesis hash, and its contents match its header.", "quantifier": "all configurations, protocols and hash functions", "why_tests_cant": "depends on the commitment type of each protocol and on the hash", "anchors": ["src/data/bookkeeping/genesis.rs: Genesis::create_block", "src/data/bookkeeping/block.rs: Block::contents_match_header"]}
{"id": "C105", "title": "The Merkle leaves of a block", "statement": "The array form of a payset has one leaf per transaction, in order, binding the transaction id and the stored form, the same leaves as the payset commitment; an undecodable entry is reported as an error.", "quantifier": "all paysets and headers", "why_tests_cant": "paysets of any length with errors at any position", "anchors": ["src/data/bookkeeping/tx_merkle.rs: TxMerkleArray::from_block", "src/crypto/merklearray/merkle.rs: Tree::from_block"]}
{"id": "C106", "title": "Voting stake and key dilution", "statement": "Exactly online accounts have voting stake, namely their balance; collecting rewards never lowers it. The key dilution is the registered one or else the protocol default and is never zero under a built-in protocol.", "quantifier": "all accounts, protocols and reward levels", "why_tests_cant": "all balances and levels", "anchors": ["src/data/basics/user_balance.rs: AccountData::voting_stake, key_dilution, with_updated_rewards"]}
{"id": "C107", "title": "Amounts, receivers and logic signature sizes", "statement": "Only payments report an amount, payments and asset transfers report their receiver, nothing else does; the size of a logic signature is the total number of bytes of its program and arguments.", "quantifier": "all transactions and logic signatures", "why_tests_cant": "all transaction kinds and argument lists", "anchors": ["src/data/transactions/transaction.rs: tx_amount, get_receiver_address", "src/data/transactions/logicsig.rs: LogicSig::len"]}
{"id": "C108", "title": "The sender of compact certificates is reserved", "statement": "The reserved sender address is the hash of one fixed string of the special address kind; any other object with this address is a hash collision. A well-formed compact certificate transaction has this sender and no fee, note, group, lease or rekeying.", "quantifier": "all hashable objects, all transactions", "why_tests_cant": "quantifies over all preimages", "anchors": ["src/data/transactions/compactcert.rs: COMPACT_CERT_SENDER", "src/data/transactions/transaction.rs: is_well_formed"]}
{"id": "C109", "title": "A trie survives closing and opening its storage", "statement": "Opening a trie on the storage of an earlier trie gives a trie with the same elements and the same root hash.", "quantifier": "all histories of the first trie, all later histories, all hash functions", "why_tests_cant": "quantifies over all histories before and after reopening", "anchors": ["src/crypto/merkletrie/trie.rs: Trie::new", "src/crypto/merkletrie/cache.rs: MerkleTrieCache::new"]}
{"id": "C110", "title": "Key files and mnemonics made by algokey agree", "statement": "generate, export and import agree: the key file has the seed shown as mnemonic, the address file the address of its public key; exporting the key file shows the same mnemonic and address, and importing the mnemonic writes the same two files. No other file changes.", "quantifier": "all seeds, all pairs of different file names, all states of the file system", "why_tests_cant": "2^256 seeds; depends on the checksum of each", "anchors": ["src/bin/algokey/generate.rs: GenerateCmd::entrypoint", "src/bin/algokey/export.rs: ExportCmd::entrypoint", "src/bin/algokey/import.rs: ImportCmd::entrypoint"]}
{"id": "C111", "title": "algokey reports failure", "statement": "generate, import and export end normally only if the key they handle is valid and every file they were asked to write was written; otherwise they end with a failure status and leave the files alone.", "quantifier": "all phrases, key files and file systems", "why_tests_cant": "all invalid phrases and all patterns of write failures", "anchors": ["src/bin/algokey/generate.rs: GenerateCmd::entrypoint", "src/bin/algokey/import.rs: ImportCmd::entrypoint", "src/bin/algokey/export.rs: ExportCmd::entrypoint"]}
{"id": "C112", "title": "algokey sign signs the transaction", "statement": "With exactly one of a valid key file and a valid mnemonic, sign writes the signed form of the transaction in the input file to the output file.", "quantifier": "all keys, transactions and file systems", "why_tests_cant": "quantifies over all keys and transactions", "anchors": ["src/bin/algokey/sign.rs: SignCmd::entrypoint, load_keyfile_or_mnemonic"]}
{"id": "C113", "title": "The default key dilution is about the square root of the interval", "statement": "Without a dilution, algokey part generate uses one more than the whole square root of last - first (computed in floating point, exact for intervals below 2^52 rounds and off by at most one for every other, never 0 and never overflowing), so that the number of batch keys is at most one more than the dilution.", "quantifier": "all intervals", "why_tests_cant": "floating point rounding over all 64-bit differences", "anchors": ["src/bin/algokey/part.rs: PartGenerateCmd::entrypoint"]}
{"id": "C114", "title": "Participation keys made by algokey are stored and cover the interval", "statement": "For a valid parent and an ordered interval, part generate completes, shows parent, interval, dilution, first batch and public keys, and its keys sign for every round of the interval; part info afterwards shows the same. When it does not complete it stores nothing.", "quantifier": "all intervals, dilutions, parents, keys and previous contents of the store", "why_tests_cant": "all intervals and dilutions, all earlier stores", "anchors": ["src/bin/algokey/part.rs: PartGenerateCmd::entrypoint, PartInfoCmd::entrypoint", "src/data/account.rs: fill_db_with_participation_keys, restore"]}
{"id": "C115", "title": "Invalid arguments of algokey part are reported", "statement": "An interval in the wrong order, a parent that is not an address and a missing key store are reported with a message and a failure status, not by a crash.", "quantifier": "all arguments and stores", "why_tests_cant": "all invalid parents and intervals", "anchors": ["src/bin/algokey/part.rs: PartGenerateCmd, PartInfoCmd, PartReparentCmd"]}
{"id": "C116", "title": "Reparenting changes only the parent", "statement": "part reparent replaces the parent of the stored keys and nothing else: restoring gives the same keys, interval and dilution with the new parent, and no other entry of the store changes.", "quantifier": "all stored keys and all parent addresses", "why_tests_cant": "all keys and addresses", "anchors": ["src/bin/algokey/part.rs: PartReparentCmd::entrypoint", "src/data/account.rs: persist_new_parent"]}
{"id": "C117", "title": "Participation key files are independent", "statement": "Keys generated into one key file are not affected by generating keys into another.", "quantifier": "all pairs of file names, all keys", "why_tests_cant": "quantifies over all pairs of generate calls", "anchors": ["src/bin/algokey/part.rs: PartGenerateCmd::entrypoint, PartInfoCmd::entrypoint", "src/data/account.rs: KEY_STORE"]}
{"id": "C118", "title": "Exactly the well-formed transactions are read", "statement": "Decoding bytes gives a transaction exactly when they begin with a MessagePack map with texts and integers as keys, in which the type occurs once under its name, every field of that type once under its name or position, and every common field at most once under its name, with values of the right kind and size; what is read is always within the ranges of its types with keys the library accepts, fields given twice are refused. The same for signed transactions and their signatures.", "quantifier": "all byte strings, all transactions and signed transactions", "why_tests_cant": "all byte strings, well-formed or not", "anchors": ["src/data/transactions/transaction.rs: Transaction, Header, TxFields", "src/data/transactions/signed_tx.rs: SignedTx", "src/protocol/codec.rs: decode"]}
{"id": "C119", "title": "The codec implements MessagePack without ambiguity", "statement": "The reader accepts a byte string exactly when it begins with a MessagePack representation of a value and returns this value and the rest; representations are unambiguous; the writer produces a representation, never longer than any other of the same value.", "quantifier": "all values without extension types, all byte strings", "why_tests_cant": "all nested values and all byte strings", "anchors": ["src/protocol/codec.rs: encode, decode"]}
{"id": "C120", "title": "Transactions are written under their wire names without default fields", "statement": "The bytes of a transaction represent a map with exactly one entry for each field of its type and each common field that is not the default, under the wire name, with the value of the field. A signed transaction is written as the list of those parts it has, in order.", "quantifier": "all transactions and signed transactions", "why_tests_cant": "all combinations of default and other fields in all types", "anchors": ["src/data/transactions/transaction.rs: Transaction, Header, TxFields", "src/data/transactions/signed_tx.rs: SignedTx", "src/protocol/codec.rs: encode"]}
{"id": "C121", "title": "Transactions are written in canonical form", "statement": "The fields of an encoded transaction are in ascending order of their names, each at most once, as the canonical encoding of Algorand (over which identifiers and signatures are computed) requires.", "quantifier": "all transactions", "why_tests_cant": "all combinations of fields", "anchors": ["src/data/transactions/transaction.rs: Transaction, Header, TxFields", "src/protocol/codec.rs: encode"]}
{"id": "C122", "title": "The genesis hash identifies the network", "statement": "Two genesis configurations with the same hash agree in every field: network, schema, protocol, special addresses, timestamp, comments, and every field of every allocated account; or the two strings hashed are a collision. The hash of no other kind of object equals it without such a collision.", "quantifier": "all pairs of genesis configurations with any allocations", "why_tests_cant": "all pairs of configurations with nested accounts, assets and applications", "anchors": ["src/data/bookkeeping/genesis.rs: Hashable for Genesis", "src/data/basics/user_balance.rs: AccountData"]}
{"id": "C123", "title": "The genesis hash depends on nothing but the genesis data", "statement": "The hash of the same genesis data (the same allocations with the same assets and applications) is the same in every run and on every node.", "quantifier": "all genesis configurations, all orders in which hash maps yield their entries", "why_tests_cant": "hash map order differs from run to run", "anchors": ["src/data/bookkeeping/genesis.rs: Hashable for Genesis", "src/data/basics/user_balance.rs: AccountData (HashMap fields)"]}
{"id": "C124", "title": "Encoded genesis data can be loaded", "statement": "Loading a file with the encoding of genesis data gives this data.", "quantifier": "all genesis configurations with any allocations", "why_tests_cant": "all configurations with nested accounts", "anchors": ["src/data/bookkeeping/genesis.rs: load_from_file", "src/data/basics/address.rs: Serialize for Address"]}
{"id": "C125", "title": "Files without genesis data are reported", "statement": "If the file does not exist or does not hold genesis data, load_from_file returns an error.", "quantifier": "all files", "why_tests_cant": "all file contents", "anchors": ["src/data/bookkeeping/genesis.rs: load_from_file"]}
{"id": "C126", "title": "Exactly the well-formed genesis files are loaded", "statement": "A file is loaded exactly when it begins with a MessagePack representation of genesis data: structs as lists of their values in order or as maps with each field exactly once under its name or position and no keys but texts and integers, variants by name or position, integers in their ranges, texts in UTF-8, valid keys; of several entries of a map with the same key the last one counts. What is loaded is the data represented.", "quantifier": "all byte strings, all genesis configurations", "why_tests_cant": "all byte strings, well-formed or not", "anchors": ["src/data/bookkeeping/genesis.rs: load_from_file, Genesis, GenesisAllocation", "src/data/basics/user_balance.rs: AccountData, AssetParams, AppParams"]}
{"id": "C127", "title": "Storage failures never lead to wrong answers", "statement": "If calls on a merkle trie whose storage can fail at any access all return an answer, the answers are those of the set of elements: a failed access is never hidden behind an answer.", "quantifier": "all histories of calls, all patterns of failing storage accesses", "why_tests_cant": "all combinations of histories and failing accesses", "anchors": ["src/crypto/merkletrie/trie.rs: Trie::add, delete, root_hash", "src/crypto/merkletrie/cache.rs: MerkleTrieCache", "src/crypto/merkletrie/node.rs: Node::add, remove, calculate_hash"]}
{"id": "C128", "title": "A failed trie call changes nothing", "statement": "If a call on a merkle trie fails because of its storage, the trie holds the same elements as before: later calls, on a storage that works again, give the answers of the set without the failed call, and do not fail.", "quantifier": "all histories of calls, all patterns of failing storage accesses", "why_tests_cant": "all combinations of histories and failing accesses", "anchors": ["src/crypto/merkletrie/trie.rs: Trie::add, delete, root_hash (rollback comments)", "src/crypto/merkletrie/cache.rs: set_node, delete_node"]}
{"id": "C129", "title": "Storage failures are returned as errors", "statement": "A call on a merkle trie whose storage fails returns the storage error; it does not panic, and the trie stays usable.", "quantifier": "all histories of calls, all patterns of failing storage accesses", "why_tests_cant": "all combinations of histories and failing accesses", "anchors": ["src/crypto/merkletrie/trie.rs: Trie::add (unwrap)", "src/crypto/merkletrie/cache.rs: CacheError::StorageAccessFailed"]}
{"id": "C130", "title": "Block headers survive being sent", "statement": "A block header that is encoded and decoded again is the same header, so that the block before it accepts the one exactly if it accepts the other.", "quantifier": "all block headers", "why_tests_cant": "all headers, protocol versions and states of an upgrade", "anchors": ["src/data/bookkeeping/block.rs: BlockHeader, RewardsState, UpgradeVote, UpgradeState, CompactCertState", "src/protocol/codec.rs: encode, decode"]}
{"id": "C131", "title": "Exactly the well-formed headers are read", "statement": "A byte string is read as a block header exactly when it begins with a MessagePack representation of a header: structs as lists of their values in order or as maps with each field exactly once under its name or position and no keys but texts and integers, versions by name or position, integers in their ranges, hashes of 32 bytes, texts in UTF-8. What is read is the header represented.", "quantifier": "all byte strings, all headers", "why_tests_cant": "all byte strings, well-formed or not", "anchors": ["src/data/bookkeeping/block.rs: BlockHeader, RewardsState, UpgradeVote, CompactCertState", "src/protocol/codec.rs: decode"]}
{"id": "C132", "title": "Paysets survive being sent", "statement": "A payset that is encoded and decoded again is the same payset: the same transactions, with the same effects (inner transactions included) and the same genesis flags.", "quantifier": "all paysets", "why_tests_cant": "all paysets, inner transactions nested to any depth, all combinations of flags and signatures", "anchors": ["src/data/transactions/payset.rs: Payset", "src/data/transactions/signed_tx.rs: SignedTxInBlock, SignedTxWithAD", "src/data/transactions/transaction.rs: ApplyData", "src/data/transactions/teal.rs: EvalDelta", "src/protocol/codec.rs: encode, decode"]}
{"id": "C133", "title": "Exactly the well-formed paysets are read", "statement": "A byte string is read as a payset exactly when it begins with a MessagePack representation of one: a list of transactions with their effects (inner transactions nested to any depth) and genesis flags, structs as lists of values in order or as maps with fields under names or positions, missing fields only where there is a default. What is read is the payset represented.", "quantifier": "all byte strings, all paysets", "why_tests_cant": "all byte strings, well-formed or not, nested to any depth", "anchors": ["src/data/transactions/payset.rs: Payset", "src/data/transactions/signed_tx.rs: SignedTxInBlock, SignedTxWithAD", "src/data/transactions/transaction.rs: ApplyData", "src/data/transactions/teal.rs: EvalDelta", "src/protocol/codec.rs: decode"]}
{"id": "C134", "title": "The size estimate is the size with a signature", "statement": "estimate_encoded_size is the length of the encoding of the transaction with a plain signature, so that fees can be computed from it.", "quantifier": "all transactions", "why_tests_cant": "all transactions, notes of any length", "anchors": ["src/data/transactions/transaction.rs: Transaction::estimate_encoded_size", "src/data/transactions/signed_tx.rs: SignedTx::get_encoded_length"]}
{"id": "C135", "title": "The root of the global configuration is available", "statement": "get_global_config_file_root returns the root set last, or ~/.algorand if none was set, which is created if it is not there; it fails only if there is no home directory or the directory cannot be created, and gives the same answer on every call.", "quantifier": "all home directories, all states of the file system", "why_tests_cant": "all states of the file system and outcomes of creating directories", "anchors": ["src/config/mod.rs: get_global_config_file_root, get_default_config_file_path"]}
{"id": "C136", "title": "Overriding the configuration root can be undone", "statement": "set_global_config_file_root returns the root it replaces, so that setting this one again restores it; in between every query answers the root set last, and every configuration file lies in it under its name.", "quantifier": "all sequences of calls, from one or several threads", "why_tests_cant": "all sequences and interleavings of calls", "anchors": ["src/config/mod.rs: set_global_config_file_root, get_global_config_file_root, get_config_file_path"]}
{"id": "C137", "title": "Settings are read from config.json of the directory", "statement": "load_from_disk and merge_from_dir read the file config.json in the given directory and depend on no other file.", "quantifier": "all directories, all file systems", "why_tests_cant": "all file systems", "anchors": ["src/config/mod.rs: Local::load_from_disk, Local::merge_from_dir"]}
{"id": "C138", "title": "Saving goes to the given directory", "statement": "save_phonebook_to_disk writes phonebook.json in the given directory, where load_phonebook looks for it, and changes no other file; a problem with the path is returned as an error.", "quantifier": "all directories, all environments", "why_tests_cant": "all directory names and environments", "anchors": ["src/config/mod.rs: save_phonebook_to_disk, load_phonebook, Local::save_to_disk"]}
{"id": "C139", "title": "Wrapping keeps signed transactions", "statement": "wrap_signed_txs_with_ad returns the given transactions in the same order, each with empty effects, and their encoding adds nothing but the marker of the wrapping.", "quantifier": "all lists of signed transactions", "why_tests_cant": "all lists", "anchors": ["src/data/transactions/signed_tx.rs: wrap_signed_txs_with_ad, SignedTxInBlock::get_encoded_length"]}
{"id": "C140", "title": "Merkle trie answers every history, whatever the lengths", "statement": "For every sequence of add, delete and root_hash calls on a new trie, with byte strings of any lengths, the answer of each call (yes, no, root hash, error or crash) is that of a set kept beside the trie: deleting a string of another length than the first element was is refused, adding a string that has a member as a start or is the start of a member crashes, and everything else works. A trie that has become empty again behaves like a new one.", "quantifier": "all finite histories over all byte strings, no restriction on lengths", "why_tests_cant": "histories mixing lengths depend on prefix relations between the strings that random tests practically never hit", "anchors": ["src/crypto/merkletrie/trie.rs: Trie::add, Trie::delete, Trie::root_hash", "src/crypto/merkletrie/node.rs: Node::find, Node::add, Node::remove, Node::calculate_hash"]}
{"id": "C141", "title": "Merkle trie root hash binds the set whatever the lengths", "statement": "If the underlying hash is collision free, two tries with equal root hashes contain the same elements, whatever the lengths of the elements.", "quantifier": "all pairs of histories, all hash functions", "why_tests_cant": "the confusing pair of sets has to be constructed against the encoding; no random test meets it", "anchors": ["src/crypto/merkletrie/node.rs: Node::calculate_hash", "src/crypto/merkletrie/trie.rs: Trie::root_hash"]}
{"id": "C142", "title": "Merkle trie stores what the set prescribes", "statement": "After any history that did not crash, the storage of the trie holds exactly one node per member and one per string that two different members start with; the node of a member holds the rest of it after its shortest unshared start, the node of a shared string has one child for each byte that follows it in a member. Hence the number of stored nodes depends on the set alone, not on the history, and is at most the total length of the members plus their number.", "quantifier": "all finite histories over all byte strings, all hash functions", "why_tests_cant": "tests compare root hashes; a leaked or duplicated node under an unused identifier shows up in no answer", "anchors": ["src/crypto/merkletrie/node.rs: Node::add, Node::remove", "src/crypto/merkletrie/cache.rs: MerkleTrieCache", "src/crypto/merkletrie/storage.rs: InMemoryStorage"]}
{"id": "C143", "title": "Saved consensus overrides are loaded back", "statement": "A table of consensus parameters saved with save_configurable_consensus is read back as the same table, with every parameter of every version, all upgrade delays and durations, in whatever order the map is iterated. A file is read exactly if it is an object whose members are named after versions and give each of the 98 parameters exactly once with a value of its type; of two members for one version the last counts; any other file is refused and nothing is loaded.", "quantifier": "all tables, all JSON values, all directories and files", "why_tests_cant": "there are 98 parameters and 32 versions; a test compares a few parameters of one table", "anchors": ["src/config/consensus.rs: save_configurable_consensus, preload_configurable_consensus_protocols, load_configurable_consensus_protocols, ConsensusParams, ConsensusProtocols", "src/protocol/consensus.rs: ConsensusVersion"]}
{"id": "C144", "title": "An override without parameters deletes the version", "statement": "A version that the override file names with no parameters is removed from the table, together with the upgrades to it, as the comment in merge says; a file that cannot be used does not bring the program down.", "quantifier": "all override files, all tables", "why_tests_cant": "needs hand-written files; the tests have none", "anchors": ["src/config/consensus.rs: ConsensusProtocols::merge, CONSENSUS, load_configurable_consensus_protocols"]}
{"id": "C145", "title": "A refused transaction is told the reason", "statement": "When alive or is_well_formed refuses a transaction, the error names a rule that the transaction breaks, and the values in the error are the value of the transaction and the limit that the message calls them.", "quantifier": "all transactions, contexts, special addresses and consensus parameters", "why_tests_cant": "tests check that a bad transaction is refused, at most with one expected error per rule; combinations of broken rules and limits are unbounded", "anchors": ["src/data/transactions/transaction.rs: Transaction::is_well_formed, Header::alive", "src/data/transactions/payment.rs: check_spender", "src/data/transactions/errors.rs: InvalidTx"]}
{"id": "C146", "title": "A refused block or stored transaction is told the reason", "statement": "When pre_check refuses a header, or encode_signed_tx or decode_signed_tx a transaction, the error names a rule that is broken, and the values in the error are the actual and the expected one in the places that the message gives them.", "quantifier": "all headers, parents, votes, upgrade states, protocol tables, transactions, hash functions", "why_tests_cant": "exchanged values in an error are only seen when an error is read; every test of the error only matches its kind", "anchors": ["src/data/bookkeeping/block.rs: BlockHeader::pre_check, UpgradeState::apply_upgrade_vote, BlockHeader::encode_signed_tx, BlockHeader::decode_signed_tx", "src/data/bookkeeping/errors.rs: InvalidBlock"]}
{"id": "C147", "title": "The message of a refusal tells which refusal it is", "statement": "Two different refusals of transactions, or of blocks, never have the same message: the text determines the kind and every value.", "quantifier": "all pairs of errors with all values", "why_tests_cant": "there are about seventy kinds with unbounded values; a pair with one text has to be searched for", "anchors": ["src/data/transactions/errors.rs: InvalidTx", "src/data/transactions/payment.rs: PaymentError", "src/data/bookkeeping/errors.rs: InvalidBlock", "src/data/basics/units.rs: Display for MicroAlgos, Display for Round", "src/crypto/hashable.rs: Display for CryptoHash"]}
{"id": "C148", "title": "A refused multisignature operation is told the reason", "statement": "When deriving an address, signing, merging, adding, assembling or verifying is refused, the error names a fault that is there and reports the values that differ: unknown version and threshold for an address or signature, a wrong address, a key that is not in the list, the first two thresholds or versions that differ, lists of keys that differ, two signatures for one position, and too few signatures only if there are too few.", "quantifier": "all multisignatures, lists of partial multisignatures, keys, messages and addresses", "why_tests_cant": "several faults can be present at once and lists are unbounded; tests check that some error comes, not that the reported fault is present", "anchors": ["src/crypto/multisig.rs: MultisigAddr::from_pks, sign, MultisigSignature::assemble, verify, batch_verify, add_sigs, merge, matches"]}
{"id": "C149", "title": "Assembling keeps the signatures handed in", "statement": "Assembling succeeds exactly for two or more partial multisignatures of one group of keys and never panics; the result has every signature handed in, in whatever order, and conflicting signatures are refused as merging refuses them.", "quantifier": "all lists of partial multisignatures", "why_tests_cant": "the number, order and content of the partial multisignatures are unbounded", "anchors": ["src/crypto/multisig.rs: MultisigSignature::assemble, merge, add_sigs"]}
{"id": "C150", "title": "Printed values can be read back", "statement": "The text of a VRF key, transaction id, amount, round, program value or multisignature error determines the value, and so does what algokey prints about a participation key for all the values it shows.", "quantifier": "all values", "why_tests_cant": "injectivity is about all pairs of values; tests compare single texts", "anchors": ["src/crypto/vrf.rs: Display for VrfPublicKey", "src/data/transactions/transaction.rs: Display for TxID, TryFrom<&str> for TxID", "src/data/basics/units.rs: Display for MicroAlgos, Display for Round", "src/data/basics/teal.rs: Display for TealType, Display for TealValue", "src/crypto/multisig.rs: MultisigError", "src/bin/algokey/part.rs: print_participation_key"]}
{"id": "C151", "title": "Asking for a proof leaves the caller's list of positions alone", "statement": "After Tree::prove the list of positions passed in by mutable reference is what it was.", "quantifier": "all trees and lists of positions", "why_tests_cant": "tests pass temporary lists, mostly of one position or in order, and do not look at them afterwards", "anchors": ["src/crypto/merklearray/merkle.rs: Tree::prove"]}
{"id": "C152", "title": "JSON files are standard JSON, and what the node writes it can read", "statement": "A text is read exactly if it is JSON by RFC 8259 with at most 127 nested arrays and objects, with exactly one value; strings with any characters and integers of 64 bits are read exactly. What is written for a value is JSON for it and is read back as it. So overrides of consensus parameters are read back from the text of the file, and a file of overrides is refused exactly if its text is not JSON of a table.", "quantifier": "all texts; all values without floating point numbers and nested at most 127 deep; all tables of parameters and lists of phonebook entries", "why_tests_cant": "texts are unbounded, with white space, escapes, surrogates and numbers at the limits; tests read a few fixed files", "anchors": ["src/config/consensus.rs: save_configurable_consensus, preload_configurable_consensus_protocols", "src/config/mod.rs: Local::load, load_phonebook, save_phonebook_to_disk"]}
{"id": "C153", "title": "Sortition does not panic", "statement": "As its documentation says, sortition returns a number of seats for any inputs and never panics.", "quantifier": "all stakes, total stakes, expected committee sizes and digests, any floating point arithmetic", "why_tests_cant": "the inputs are unbounded; the only test uses a committee smaller than the total stake", "anchors": ["src/data/committee/sortition.rs: select, sortition_binomial_cdf_walk"]}
{"id": "C154", "title": "Who has a header can be shown its transactions and no others", "statement": "For a block whose contents match its header (under a protocol with a Merkle commitment), Merkle proofs made from the block for any of its places are accepted against the root in the header; and a proof accepted against that root, or the root in any header with the same digest, claims only transactions that are in the block at the claimed places, unless the strings hashed contain a collision or a preimage of zero.", "quantifier": "all blocks, sets of places, claims, proofs and hash functions with 32-byte digests", "why_tests_cant": "claims and proofs come from an adversary; the property composes the commitment, the encoding and the tree", "anchors": ["src/data/bookkeeping/tx_merkle.rs: TxMerkleArray::from_block, TxMerkleElem::to_be_hashed", "src/data/bookkeeping/block.rs: Block::payset_commit, Block::contents_match_header, BlockHeader::decode_signed_tx", "src/crypto/merklearray/merkle.rs: Tree::from_block, Tree::prove, verify"]}
{"id": "C155", "title": "Failures of the key store are reported", "statement": "Persisting a participation or a new parent, importing a root account and generating participation keys return normally exactly if no access to the storage failed, and then what was stored is restored after any crash; otherwise they return the storage error and do not panic. Restoring reports failing reads, changes nothing, and otherwise returns what is stored.", "quantifier": "all keys, contents of the storage, patterns of failing accesses and crashes", "why_tests_cant": "tests run on a storage that does not fail; every access can fail, and a crash can follow at any point", "anchors": ["src/data/account.rs: Root::import, Root::restore, Participation::restore, Participation::persist, persist_new_parent, fill_db_with_participation_keys"]}
{"id": "C156", "title": "Deleted keys stay deleted", "statement": "When deleting old keys of a participation or of all managed participations has returned normally, no restart brings back a key for an older round, whatever accesses failed before and whatever crash follows; and no failure loses a key that was not to be deleted.", "quantifier": "all participations, histories of deletions, patterns of failing accesses and crashes", "why_tests_cant": "forward security is about all continuations after a failure or a crash; tests run on a storage that does not fail", "anchors": ["src/data/account.rs: Participation::delete_old_keys", "src/data/account_manager.rs: AccountManager::delete_old_keys"]}
{"id": "C157", "title": "Private key files are readable by their owner only", "statement": "After algokey generate or import, finished or interrupted, the file with the private key can be read and written by its owner and by nobody else, and no other file holds anything of the key.", "quantifier": "all keys, file names, files that exist already with any permissions, umasks and interruptions", "why_tests_cant": "permissions depend on the files that are there before and on the umask; tests start in an empty directory, if they look at permissions at all", "anchors": ["src/bin/algokey/generate.rs: GenerateCmd::entrypoint, write_sk, write_pk", "src/bin/algokey/import.rs: ImportCmd::entrypoint, write_sk, write_pk"]}
{"id": "C158", "title": "An interrupted save keeps the old contents or has the new ones", "statement": "If saving consensus overrides or writing a key file stops at any point, by a full disk or a crash, what is read afterwards are the old contents or the new ones, and never anything else.", "quantifier": "all old and new contents and all points of interruption", "why_tests_cant": "an interruption can come after any number of bytes; tests save without interruptions", "anchors": ["src/config/consensus.rs: save_configurable_consensus, load_configurable_consensus_protocols", "src/bin/algokey/generate.rs: write_sk", "src/bin/algokey/import.rs: write_sk", "src/bin/algokey/export.rs: load_sk"]}
{"id": "C159", "title": "The merkle trie asks its storage only for the path to an element", "statement": "Adding or deleting an element accesses the storage a number of times bounded by the length of the element alone, however many elements there are; over any history of calls the storage is accessed at most 518 L + 4 times per change of an element of L bytes and twice per query of the root hash, so a root hash is recomputed only where something changed, and asking again costs two accesses.", "quantifier": "all tries, elements, contents of the storage and histories of calls", "why_tests_cant": "a bound on cost over all sizes and histories; a test observes the answers, which a full recomputation gives as well", "anchors": ["src/crypto/merkletrie/trie.rs: Trie::add, Trie::delete, Trie::root_hash", "src/crypto/merkletrie/node.rs: find, add, remove, calculate_hash", "src/crypto/merkletrie/cache.rs: get_node, set_node"]}
{"id": "C160", "title": "Nodes in memory are used without asking the storage", "statement": "A node of the trie that is in the cache is used as it is: the storage is not asked for it, so calls that need only such nodes succeed while the storage cannot be reached.", "quantifier": "all tries, cached nodes and failures of the storage", "why_tests_cant": "that an access does not happen can be observed only by failing it; tests use a storage that does not fail", "anchors": ["src/crypto/merkletrie/cache.rs: get_node"]}
{"id": "C161", "title": "Damaged nodes of the merkle trie are reported", "statement": "For all bytes found in the storage, reading them as a node gives the node they stand for, or reports that they are no node; it never crashes.", "quantifier": "all byte strings and sizes of memory", "why_tests_cant": "the bytes are arbitrary; tests read what was written", "anchors": ["src/crypto/merkletrie/node.rs: Node::deserialize", "src/crypto/merkletrie/cache.rs: get_node, CacheError::NodeDecodingFailure"]}
{"id": "C162", "title": "A node cut short is not mistaken for another", "statement": "If only a beginning of a stored node is there, reading it reports that it is no node.", "quantifier": "all nodes and all points where they are cut", "why_tests_cant": "all cuts of all nodes; tests read what was written", "anchors": ["src/crypto/merkletrie/node.rs: Node::serialize, Node::deserialize"]}
{"id": "C163", "title": "Hashing to the curve always succeeds", "statement": "For every VRF key and message, hashing the message to the curve gives a point and never crashes; the point is eight times the point that the Elligator map of the draft assigns to the hash, and it lies in the group generated by the base point.", "quantifier": "all keys and messages", "why_tests_cant": "the map divides and takes roots; whether it is defined everywhere depends on all values of a hash", "anchors": ["src/crypto/vrf.rs: hash_to_curve, TruncHasher"]}
{"id": "C164", "title": "All accepted proofs for a key and a message give the same output", "statement": "For every public key, including keys chosen to deceive, and every message, two accepted VRF proofs have the same output, except if a hash of commitments hits the only value that can be answered.", "quantifier": "all public keys, messages and accepted proofs", "why_tests_cant": "tests prove with honest keys; the property is about all keys and proofs that anybody can make", "anchors": ["src/crypto/vrf.rs: VrfPublicKey::verify_bytes, VrfProof::to_output"]}
{"id": "C165", "title": "VRF outputs differ between messages and need the secret key", "statement": "Under every public key that is accepted, the outputs for different messages are different, and a proof can only be made with the secret key.", "quantifier": "all public keys, messages and proofs", "why_tests_cant": "tests use keys made from random seeds; nobody tries the keys without a secret", "anchors": ["src/crypto/vrf.rs: VrfPublicKey::verify_bytes, to_point, VrfPublicKey::default"]}
{"id": "C166", "title": "A VRF proof has one form", "statement": "Of two accepted proofs with the same point, challenge and response, none differs from the other.", "quantifier": "all public keys, messages and proofs", "why_tests_cant": "tests compare a proof with itself; the other encodings of a point are never tried", "anchors": ["src/crypto/vrf.rs: VrfProof::decode, VrfPublicKey::verify_bytes"]}
{"id": "C167", "title": "What is signed is accepted, and signatures cannot be altered in their second half", "statement": "For every secret key and message the signature is accepted under the public key; exactly those signatures are accepted that satisfy the equation of RFC 8032 with a canonical response, so no accepted signature has a second one with the same first half.", "quantifier": "all secret keys, public keys, messages and signatures", "why_tests_cant": "an equation in a group of 2^252 elements; tests try single keys and messages", "anchors": ["src/crypto/batch_verifier.rs: BatchVerifier::verify", "src/crypto/multisig.rs: sign, MultisigSignature::verify", "src/crypto/ots.rs: OTSSecrets::sign, OTS::verify"]}
{"id": "C168", "title": "Keys that belong to nobody sign nothing", "statement": "Under a public key that no secret key has, such as the blank key or the zero address, no signature is accepted.", "quantifier": "all messages and signatures", "why_tests_cant": "tests sign with key pairs; keys of small order are never tried", "anchors": ["src/crypto/batch_verifier.rs: BatchVerifier::verify", "src/crypto/multisig.rs: MultisigSignature::verify, from_pks", "src/crypto/ots.rs: OTS::verify"]}
{"id": "C169", "title": "Seats in committees are drawn anew for every round", "statement": "Whether an account has seats in a committee, and how many, is drawn anew for every selector (round, period, step and seed); nobody can register a selection key under which the draw is always the same, and credentials can be made by the owner of the key only.", "quantifier": "all accounts, selection keys, selectors, protocols and proofs", "why_tests_cant": "the keys are chosen by whoever registers them; tests register keys made from random seeds", "anchors": ["src/data/committee/credential.rs: UnauthenticatedCredential::verify", "src/data/transactions/keyreg.rs: check_coherency", "src/crypto/vrf.rs: VrfPublicKey::verify_bytes"]}
{"id": "C170", "title": "Hash prefixes and message tags are those of the Algorand protocol", "statement": "For every kind of object that is hashed or signed, the prefix is the one of the Algorand protocol, and so are the tags of messages; in particular the sender of compact certificates is the address that it has on the network.", "quantifier": "all kinds of objects and messages, all payloads", "why_tests_cant": "tests compare the program with itself; another prefix gives another hash only on the network", "anchors": ["src/protocol/hash.rs: PROGRAM_DATA, SPECIAL_ADDR", "src/protocol/tags.rs", "src/data/transactions/compactcert.rs: COMPACT_CERT_SENDER", "src/crypto/hashable.rs: hash_rep"]}
{"id": "C171", "title": "Stored key pairs whose halves do not belong together are noticed", "statement": "Restoring a stored key pair (the root key of an account, a one-time voting key, a selection key) whose secret and public halves do not belong together reports an error, so that whatever was restored signs for its own address and signing never gives the secret away.", "quantifier": "all stored records, keys and messages", "why_tests_cant": "tests restore what they stored; damaged records, of which there are 2^512, are not tried", "anchors": ["src/data/account.rs: Root::restore", "src/data/account.rs: Participation::restore", "src/crypto/ots.rs: EphemeralSubkey, OTSSecrets (deserialization)", "src/crypto/vrf.rs: VrfKeypair (deserialization)"]}
{"id": "C172", "title": "The parameters of every version are those of the Algorand protocol", "statement": "For every version of the protocol, the built-in table has the parameters, approved upgrades and delays of the Algorand network, the versions before 7 have none, and every version has the name under which the network knows it.", "quantifier": "all versions and parameters", "why_tests_cant": "tests do not read the table; a single wrong number makes the node leave the network at some block", "anchors": ["src/config/consensus.rs: init_consensus_protocols", "src/protocol/consensus.rs: ConsensusVersion"]}
{"id": "C173", "title": "The default settings are those of the reference node", "statement": "Every setting has, by default, the value of the reference node: a node that is not configured does not listen, is not archival, offers its interface on the local machine only, and validates relay addresses, certificates and the contents of blocks.", "quantifier": "all settings", "why_tests_cant": "tests do not look at the 95 values; an unsafe default shows only in operation", "anchors": ["src/config/default.rs: Local::default", "src/config/mod.rs: Local"]}
{"id": "C174", "title": "A generated key can be written down, restored and used", "statement": "For every key made by algokey generate, the phrase shown restores on any machine the same key file and the same address, exporting the key file shows the same phrase and address, the address parses to the public key of the key, and whatever is signed with the restored key (in particular a transaction, whose authorizer is the address shown) is accepted under it. This holds for SHA-512/256, the shipped word list and Ed25519 as they are.", "quantifier": "all keys, machines (file systems), messages and transactions", "why_tests_cant": "the chain from the random seed over words, address text and signature runs over all 2^256 keys; tests run single steps on a few keys", "anchors": ["src/bin/algokey/generate.rs: GenerateCmd::entrypoint", "src/bin/algokey/import.rs: ImportCmd::entrypoint", "src/bin/algokey/export.rs: ExportCmd::entrypoint", "src/crypto/mnemonic.rs: key_to_mnemonic, mnemonic_to_key", "src/data/basics/address.rs: Display, FromStr"]}
{"id": "C175", "title": "A damaged key store is reported, not a crash", "statement": "Restoring keys from a store whose records are missing, cut or replaced by other bytes gives an error; it does not crash the program. What is restored is what the records say.", "quantifier": "all contents of the store", "why_tests_cant": "which records crash depends on the order in which the six records are read and on the lengths and encodings of all of them; tests restore stores that were written by the same code", "anchors": ["src/data/account.rs: Root::restore", "src/data/account.rs: Participation::restore"]}
{"id": "C176", "title": "A merkle proof is unique and holds nothing superfluous", "statement": "The proof for a set of elements of an array consists of exactly the hashes that a verifier cannot compute from those elements: one for every node whose sibling has a requested element below it while it has none, level by level and from left to right. One element needs as many hashes as the tree is high. No other proof of the same elements is accepted: one with a hash changed, dropped, added or moved is refused (unless the hash function is broken).", "quantifier": "all arrays, all sets of positions, all proofs", "why_tests_cant": "the proofs that must be refused are all other lists of hashes; a test tries a handful of corruptions of a handful of proofs", "anchors": ["src/crypto/merklearray/merkle.rs: Tree::prove", "src/crypto/merklearray/merkle.rs: Tree::verify", "src/crypto/merklearray/partial.rs: PartialLayer::up"]}
{"id": "C177", "title": "A release build computes the same as a checked one", "statement": "Compiled without overflow checks (`cargo build --release`), every function gives the same answer as with them; where the checked build stops because a number does not fit, the release build does not go on with a wrong number: balances, rounds, timestamps, deadlines and key ranges are never silently wrapped around.", "quantifier": "all inputs of all functions that add, subtract or multiply machine integers", "why_tests_cant": "tests run in one build mode, and the inputs that wrap are at the far end of 64 bits; that the two builds agree everywhere else is a statement about all inputs", "anchors": ["src/data/basics/user_balance.rs: AccountData::with_updated_rewards", "src/data/bookkeeping/block.rs: Block::new", "src/data/bookkeeping/block.rs: UpgradeState::apply_upgrade_vote", "src/crypto/ots.rs: OTSSecrets::delete_before", "src/data/account.rs: Participation::fill_db_with_participation_keys", "Cargo.toml"]}
{"id": "C178", "title": "A stored trie takes a bounded number of bytes", "statement": "No stored node of the merkle trie takes more than MAX_NODE_SERIALIZED_SIZE bytes; current_storage_size is zero exactly if the trie is empty, and is bounded by a constant for each node, hence, for hashes, for each member; get_child_count is the number of different bytes that follow the string of a node in members.", "quantifier": "all finite histories over all byte strings, both storages, all hash functions", "why_tests_cant": "A test measures the storage of one set (50000 hashes); the bound concerns every set and every history, in particular nodes with 256 children and identifiers of ten bytes.", "anchors": ["src/crypto/merkletrie/storage.rs:37-39", "src/crypto/merkletrie/storage.rs:67-74", "src/crypto/merkletrie/trie.rs:13-15", "src/crypto/merkletrie/node.rs:217-232", "src/crypto/merkletrie/node.rs:259-271"]}
{"id": "C179", "title": "A crashed deletion of keys does no lasting harm", "statement": "If OTSSecrets::delete_before crashes and the caller survives (because the operating system has no randomness for a key it draws, or the batch is the last 64-bit number), then later calls on the same keys work: a later delete_before deletes, identifiers at or after the one given are still signed verifiably, no signature is made with a key that belongs to another identifier, and the account manager goes on deleting the keys of all accounts.", "quantifier": "all sets of keys, all identifiers, all histories of calls, all failures of the source of randomness, all orders of accounts", "why_tests_cant": "Tests use a working source of randomness and never go on after a crash; the state left by a crash depends on which of many draws failed, and the lock shows its effect only in later calls.", "anchors": ["src/crypto/ots.rs:149-151", "src/crypto/ots.rs:223-294", "src/crypto/ots.rs:299-313", "src/data/account.rs:205-222", "src/data/account_manager.rs:100-148"]}
{"id": "C180", "title": "Blocks can be assembled for ever", "statement": "Starting from the genesis block of a network, Block::new can be called again and again, each time on the header it made before; no call crashes whatever the clock shows, every block passes pre_check against the one before it and matches its header, rounds count up by one, and timestamps follow the clock but never go back nor advance by more than the allowed increment.", "quantifier": "all genesis data and built-in protocols, all lengths of chains, all readings of the clock", "why_tests_cant": "A test assembles one block; the property concerns every later block, whose parent was itself assembled, and every behaviour of the clock.", "anchors": ["src/data/bookkeeping/block.rs:235-274", "src/data/bookkeeping/block.rs:356-427", "src/data/bookkeeping/genesis.rs:70-120"]}
{"id": "C181", "title": "Rewards are neither created nor lost over whole histories", "statement": "Take any set of accounts and any history in which rounds advance the rewards state with the reward units that the accounts hold, and accounts are brought up to date, pay each other and change their status, each after being brought up to date. What the accounts hold and are owed grows by exactly what the rounds took for them; this and the residue are never more than the rates of the rounds and the residue at the start, and exactly that when the sums fit into 64 bits and some reward unit exists. The counters of rewards grow (modulo 2^64) by what accounts got, and an account can be brought up to date at any point unless its balance would not fit into 64 bits.", "quantifier": "all sets of accounts, all histories of rounds, updates, payments and changes of status", "why_tests_cant": "A test follows one account over a round or two; conservation concerns sums over all accounts with different bases after arbitrary histories.", "anchors": ["src/data/bookkeeping/block.rs: RewardsState::next_state", "src/data/basics/user_balance.rs: AccountData::with_updated_rewards", "src/data/basics/user_balance.rs: AccountData::pending_rewards"]}
{"id": "C182", "title": "Rounding to double precision does not disturb the sortition", "statement": "In IEEE double precision, whatever the distribution function computes: the sortition crashes exactly if there is no stake or the committee is larger than the total stake after rounding, so never for a committee up to the total stake, and the verification of a credential crashes in no other case than its own checks; a larger draw never means fewer seats; and if the distribution function is accurate up to some error, the seats lie between those of exact arithmetic for draws lower and higher by that error, 2^-53, and 2^-51 of the expected seats.", "quantifier": "all stakes, totals, committee sizes, draws and distribution functions", "why_tests_cant": "The test draws a thousand random values for one stake and accepts two percent; rounding matters for rare draws and large numbers.", "anchors": ["src/data/committee/sortition.rs:20-47", "src/data/committee/credential.rs:97-121"]}
{"id": "C183", "title": "Reserving memory in advance never crashes", "statement": "Generating participation keys for an ordered interval with a positive dilution, through the API or with algokey part generate, and making a batch verifier of any capacity complete for all arguments; and the room reserved changes no result.", "quantifier": "all intervals, dilutions, capacities, sizes of keys in memory and amounts of memory", "why_tests_cant": "Tests use intervals of a few thousand rounds and capacities up to a hundred.", "anchors": ["src/crypto/ots.rs:115-117", "src/data/account.rs:232-269", "src/bin/algokey/part.rs:79-99", "src/crypto/batch_verifier.rs:27-35"]}
{"id": "C184", "title": "Dividing stake over accounts gains no seats", "statement": "Over all draws of the sortition, in exact arithmetic, an account has on average as many seats as its stake times the committee size divided by the total stake, and the accounts that hold all stake have on average the committee size. The distribution of the number of seats that several accounts have together depends on the sum of their stakes only, up to one part in 2^256 for every account: neither dividing stake over many accounts nor joining it changes the chances. In double precision the same holds up to the error of the library's distribution function and 2^-53 for every account and 2^-51 of the expected seats.", "quantifier": "all total stakes, committee sizes up to the total stake, stakes, numbers of accounts, ways of dividing the stake and numbers of seats; all combinations of draws", "why_tests_cant": "The test takes a thousand random draws for one stake and accepts a deviation of two percent of the mean; no test has two accounts.", "anchors": ["src/data/committee/sortition.rs:20-47"]}
{"id": "C185", "title": "A mistyped recovery phrase is noticed", "statement": "When the last word of a valid phrase is replaced by another word of the list, the phrase is refused because of its checksum. Two valid phrases that differ give different keys, and they end in the same word exactly when eleven bits of the hashes of the two keys agree; so a mistake among the first 24 words, one word or many, replaced, exchanged or shifted, goes unnoticed only by that accident. In place 24 only the first eight words of the list are valid; with one of them, whatever words of the list stand before, exactly one last word is valid.", "quantifier": "all word lists of 2048 different words, hash functions of 32 bytes, phrases, keys and replacements", "why_tests_cant": "There are 2047 wrong last words and more than two thousand to the power of 24 other mistakes for every phrase; tests try one.", "anchors": ["src/crypto/mnemonic.rs:73-114", "src/crypto/mnemonic.rs:47-56"]}
{"id": "C186", "title": "A mistyped address is noticed", "statement": "When any of the last six characters of a valid address are replaced, parsing answers with an error. Two valid address texts that differ mean different addresses, and they can end in the same six characters only when the hashes of the two addresses agree in their last 28 bits; so a mistake among the first 52 characters goes unnoticed only by that accident or when the end is mistyped to match.", "quantifier": "all hash functions of 32 bytes, texts, addresses and replacements", "why_tests_cant": "The tests use one address and put a character outside the alphabet at its end; every address has more than a billion texts over the alphabet that differ in the last six characters only.", "anchors": ["src/data/basics/address.rs:42-46", "src/data/basics/address.rs:59-71", "src/data/basics/address.rs:79-107"]}
