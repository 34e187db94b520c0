# Design

A Lean 4 model of the logic in `/repo/src` (algorand-rs) with machine-checked
proofs of the properties in `properties.jsonl`.  `MANIFEST.json` maps every
property to its theorems; `seeded/LOG.jsonl` records the wrong programs the
theorems were tested against.

## Layout

* `lean/Verif/Base/*`   helper lemmas that know nothing about the repository
* `lean/Verif/Curve/*`  Curve25519: the field, the group of points and its laws,
  the orders of the base point and of the group
* `lean/Verif/Model/*`  executable model, one file per source module, each
  definition cites file and lines in `/repo/src`
* `lean/Verif/Lemmas/*` invariants and helper lemmas
* `lean/Verif/Props/*`  independent specifications, the property theorems, and
  beside each theorem an `example` showing that its hypotheses can be met
* `lean/Verif/Validation/*` test vectors of the repository run on the model

The theorems of property `Cnn` are named `Verif.Props.Cnn_...`.  A theorem
whose name ends in `_partial` proves less than the property says; what is
missing is in its comment and in the note of the manifest.  In almost every such
case the property is false of the code, and another theorem of the same
property (`_violated`, `_crashes`, `_lost`, ...) proves that from a concrete
witness or, where possible, for all inputs.

## Modelling conventions

* A Rust panic (index out of bounds, `unwrap`, `unreachable!`, arithmetic
  overflow, division by zero) is an explicit outcome (`Res.panic` in
  `Verif/Base/Res.lean`), never a junk value.  Overflow of `+ - *` is a panic,
  as in builds with overflow checks (`Verif/Model/Release.lean` has the same
  functions for builds without, compared in C177); where the source uses `wrapping_*`,
  `saturating_*` or `checked_*` the model does the same.
* `&mut self` methods return the new state.
* Unsigned integers are `Nat`; where the property depends on the width, the
  bound (`2^64`, `2^32`, `2^8`) is explicit in the model.
* Hash functions, signature schemes, curve groups, floating point and random
  generators are parameters.  What is assumed about them is a hypothesis of the
  theorem that needs it.  No hash is assumed to be injective (a 32-byte digest
  is not): binding theorems conclude "the two values are equal, or here are two
  different strings, both hashed by the code on these inputs, with the same
  digest".
* `HashMap` iteration order is a list order, universally quantified where the
  code iterates.
* The key-value store (`sled`) is a map; every operation returns its inserts in
  program order, a crash keeps a prefix of them.
* Command line programs are functions from the arguments and a file system to
  an exit (normal, error exit, panic) and a file system.

## Trusted base

* Lean's kernel and at most the axioms `propext`, `Classical.choice`,
  `Quot.sound`.  The list per theorem is at the end of this file.  No axioms are
  added, nothing is proved by compiled code (`native_decide`, `bv_decide`),
  there is no `sorry`.
* The reading of the Rust source recorded in the comments of `Verif/Model`.
* Behaviour of external crates, as stated in the models:
  * `ed25519-dalek` 1.0.1 / `ed25519` 1.5.2: in most theorems signing and
    verification are a parameter (`verify pk m (sign sk m)` holds where used). For
    Ed25519 itself (`Model/Ed25519.lean`, from RFC 8032) this is proved (C167), and
    C17, C21, C27, C47 are restated without it. The strict verification of one-time
    signatures refuses a signature with nonce zero (`C167_strict_iff`); for it the
    theorems hold with such signatures added (`lenient`, `C21_ed25519`).
    Serde form of public keys (byte strings) and signatures (64-tuples). Key pairs
    whose halves do not belong together are modelled for C171 only (`pairScheme`);
    elsewhere a key pair is determined by its secret half.
  * `curve25519-dalek`: in most theorems a commutative group with a prime-order
    subgroup, encoding and decoding of points and scalars (`Vrf.Curve`,
    `GoodCurve`). For Curve25519 itself (`Verif/Curve`, `Model/Curve25519.lean`, from
    RFC 8032 and the documentation of the crate) all of this is proved
    (`ed25519_good`).
  * `sha2`: parameters with the right output length; SHA-512 is in
    `Model/Sha512.lean` (from FIPS 180-4).
  * `data-encoding`: base 32 without padding, canonical, checks trailing bits;
    this codec is itself modelled and proved inverse.
  * `rmp` 0.8.11, `rmp-serde` 1.1.1, `serde` 1.0.148: the bytes of MessagePack are
    modelled (`Model/Msgpack.lean`), and what the derived implementations write
    and read (`Model/Codec.lean`): structs as arrays, `flatten` as maps through
    buffered content, omitted fields leave no trace.
  * `serde_json` 1.0.89: text to value and back is a parameter (`JsonLib`) of most
    theorems; the reader and the pretty writer are modelled in
    `Model/JsonText.lean` (C152) and instantiate it. What the derived
    implementations accept is modelled.
  * `statrs` 0.16.0, `num` 0.4 and `f64`: the parameter `Floats`; the theorems
    that need numbers use exact rational arithmetic, those of C182 the doubles of
    `Model/Double.lean`.
  * `sled`: inserts become durable in program order.
  * Rust's standard library string functions, per their documentation.
* Type inference by `rustc` where the text leaves it open
  (`serde_json::from_str(..)?;` as a statement reads `()`).

## What is modelled

Every function of the following files that computes something observable:
`crypto/{batch_verifier,hashable,mnemonic,multisig,ots,vrf}.rs`,
`crypto/merklearray/*`, `crypto/merkletrie/*`, `protocol/{codec,consensus,hash,tags}.rs`,
`config/{mod,default,keyfile,consensus}.rs`, `data/{account,account_manager,signed_tx_group}.rs`,
`data/basics/*`, `data/bookkeeping/*`, `data/committee/*`, `data/transactions/*`,
`bin/algokey/*`.

## Validation of the model

Unit tests of the repository that have fixed expected values are run on the model
by `Validation/Vectors.lean` while it is compiled (`#guard`, with an executable
SHA-512/256): root hashes of the merkle trie (additions and removals with 40
elements instead of 1000), hashes and addresses, mnemonics, multisignature
addresses, checks of transactions. `Validation/Vrf.lean` runs the three VRF test
vectors (public key, point, proof, output) and three test vectors of RFC 8032 for
signatures on the curve of `Verif/Curve`. All agree. These are
tests of the transcription; no theorem depends on them.

## What is not modelled

* Threads: `rayon` maps are pure, the mutexes of `account.rs`, `ots.rs` and
  `account_manager.rs` are ignored (the borrow checker makes calls sequential), except
  that the lock of the one-time keys refuses deletions after a crash
  (`Model/OtsGuard.lean`). The lock of the configuration root is modelled
  (`Model/RootThreads.lean`).
* Input/output errors of the file system other than a missing file, and other
  than those of replacing a file (`Model/FileSave.lean`). Errors of
  the storage of a merkle trie are modelled (`Model/TrieFault.lean`; a failed
  write leaves the stored contents alone), and so are those of `sled` under the
  key store (`Model/StoreFault.lean`); a crash of the machine is modelled for the
  key store only.
* Memory: allocation failure (except for the hash of a stored trie node,
  `Model/NodeBytes.lean`, and for room reserved in advance, `Model/Capacity.lean`), timing, erasure of secrets.
* The numerical algorithms of `statrs` (`Binomial::cdf`); conversion, division
  and comparison of `f64` are modelled (`Model/Double.lean`), assuming that
  `BigRational::to_f64` rounds correctly.
* The values of floating point numbers in JSON, and the leniency of `serde_json`
  towards values it skips; MessagePack extension types, enum variants written as maps,
  and the width of integers used as keys of maps that stand for structs (the values are
  positions of fields; inside a transaction `serde` refuses some widths).
* Soundness of the cryptographic primitives themselves (unforgeability of
  Ed25519, Fiat-Shamir in the VRF); where needed it is an explicit hypothesis.
* Logging, telemetry, `Debug` and `print` functions, parsing of the command line
  by `clap`, commented-out code, and `config/{version,buildvars}.rs`, which are not
  part of the crate (their `mod` lines are commented out).

## Plan per property

| id | model | method |
|----|-------|--------|
| C01, C02, C04 | node store keyed by id, `find/add/remove/calculate_hash`, `Trie::{add,delete,root_hash}` | refinement: the store represents an inductive tree, the tree represents a set; invariant by induction over the history |
| C03 | same, hash as parameter | injectivity of the node encoding, induction over the tree, explicit collisions |
| C05 | same | witness of the panic (refutation) + partial for `delete` |
| C06 | four 64-bit words | refinement to `Nat → Bool` |
| C07, C08, C09 | `Layer::up`, `PartialLayer::up`, `prove`, `verify` | induction over levels, invariant relating partial layer to full layer |
| C10, C11 | base 11 / base 8 repacking, checksum, word list as duplicate-free list of 2048 words | arithmetic of little-endian digit lists |
| C12, C13, C15 | base32 encoder/decoder, address/hash text forms | round trip + canonicity; panic witness |
| C14, C70 | table of tags | finite table + prefix-freeness lemma for all payloads |
| C16–C20, C71 | multisig as list of (key, optional signature), batch verifier | induction over subsignatures |
| C21–C23, C100 | one-time signature secrets as in source, abstract key derivation | invariant by induction over `delete_before` histories; C100 is a reduction to unforgeability with a run of signing and deleting calls |
| C24 | abstract prime-order group | algebra, special soundness |
| C25, C26, C98, C99 | `Round`, `MicroAlgos`, `CryptoHash` on bounded naturals | omega/div-mod lemmas |
| C27–C29, C90, C93 | participation keys and key store | C25 + C21; crash prefixes of the insert list; codec round trip of the stored values |
| C30, C91, C92 | association list of participations | induction over histories, any iteration order |
| C31–C33, C79 | `UpgradeState` machine | refutation of C31, invariants over histories |
| C34, C35, C76, C101–C103 | `Block::new`, `pre_check` | case analysis; C102 by induction over chains |
| C36, C37, C69, C104 | rewards arithmetic with overflow panics, genesis block | div-mod arithmetic, induction over rounds; refutation of C37 |
| C38, C39, C81 | transaction (de)coding in block, grouping | case analysis; induction over lists |
| C40–C44, C46–C48, C65, C107, C108 | transaction checks with all fields they read | decision logic; refutations for C42, C43, C46 |
| C45 | index lookups | list lemmas |
| C49–C54, C72–C75, C106 | account data, schemas, deltas | arithmetic with saturation |
| C55–C58, C88, C89 | credentials with hash parameters, cdf walk | decision logic; refutations for C55, C56; binomial distribution over the rationals for C57, C88 |
| C59–C61 | protocol table and merge, all iteration orders | refutation for order dependence; finite table proofs |
| C62 | file names as character lists | list lemmas, decimal printing |
| C63, C64, C94–C97 | configuration loading, string splitting, flags | list lemmas, bit lemmas |
| C66, C67, C83–C87 | MessagePack bytes and the derived readers | collision witness, exact set of surviving values, prefix-freeness by induction over value trees |
| C68 | node serialisation | round trip |
| C77, C78, C80, C82, C105 | payset commitments, digests, genesis ids | Merkle binding (C08) composed with the codec |
| C109 | trie reopened on its storage | simulation: the computations on a storage with more nodes agree; refuted for the contents |
| C110, C111, C112 | `algokey` generate, export, import, sign | composition of the mnemonic and address round trips; refuted for write failures and for sign |
| C113 | default dilution | bounds on the correctly rounded square root |
| C114, C115, C116, C117 | `algokey part` | composition of key generation and the store round trip; refuted for crashes and file names |
| C118, C120 | transaction and signed transaction codec | equivalence of the reader with a relational specification of the wire format; the writer meets it |
| C119 | MessagePack reader and writer | equivalence with an inductive grammar |
| C121 | order of written fields | refuted; distinctness by sublists of the name table |
| C122, C123, C124, C125, C126 | genesis data: hash, encoding, loading | injectivity by round trip; refuted for map order, addresses and missing files; equivalence of the reader with a relational specification |
| C127, C128, C129 | merkle trie on a failing storage | refinement of every function by the one on a working storage, an invariant kept by failed queries; refuted for failed updates |
| C130, C131, C132 | block headers and paysets on the wire | equivalence of the header reader with a relational specification; exact result of reading back, by mutual induction over inner transactions; refuted for the upgrade state and the genesis flags |
| C133 | reading of paysets | equivalence of the reader with a relational specification, by induction on the depth of the value |
| C134, C139 | sizes of transactions, wrapping | exact length of the encoding; refuted for the estimate |
| C135, C136, C137, C138 | places of configuration files | induction over sequences of calls and over interleavings of threads; refuted for existing directories, two threads that override, and environment variables |
| C140 | merkle trie with elements of any lengths | invariant over every history, prefix relations decide between answer and crash |
| C141 | root hash over elements of any lengths | induction over prefix-free sets; refuted by two sets that hash the same strings |
| C142 | nodes stored by the merkle trie | bijection between identifiers and strings built by induction over the representation |
| C143, C144 | the file of consensus overrides | round trip and equivalence of the reader with a relational specification; refuted for entries without parameters |
| C145, C146 | reasons given for refusals | case analysis of every check against a specification of every error; refuted for fees, program lengths, rounds, votes and stored transactions |
| C147 | messages of refusals | injectivity: incomparable constant starts, values delimited by constant parts; refuted for payments, genesis hashes and deadlines |
| C148, C149 | multisignatures: reasons of refusals, assembling | case analysis against a specification of every error, induction over the partial multisignatures; refuted for blank entries and conflicts |
| C150 | texts of values | round trips (Base64) and injectivity of lines; refuted for program values |
| C151 | the list passed to `Tree::prove` | sorting is a permutation; refuted for lists out of order |
| C152 | the text of JSON files (`Model/JsonText.lean`) | the reader is equivalent to an inductive grammar (soundness by induction on fuel, completeness by induction on length), the writer produces texts of the grammar |
| C153 | sortition (`Model/Committee.lean`) | decision logic: exact condition for the panic; crash for every size above the total stake in exact arithmetic |
| C154 | payset commitment, leaves, Merkle proofs and header digest | composition of C07, C08, C78 and C82: completeness, and binding up to explicit collisions |
| C155, C156 | the key store with failing accesses (`Model/StoreFault.lean`) | case analysis over the first failing access; invariant over histories of deletions: what any crash leaves signs at most for rounds not covered by reported deletions; refuted for generating keys and for the manager |
| C157, C158 | permissions of files, interrupted saves (`Model/FileSave.lean`) | case analysis over where writing stops; no proper beginning of the text of a JSON object is JSON (from C152); refuted for files that exist and for old contents |
| C159, C160 | storage accesses of the trie (`Lemmas/TrieCost.lean`) | cost judgement over the storage monad, induction over the key; refuted for cached nodes |
| C161, C162 | stored trie nodes from any bytes (`Model/NodeBytes.lean`) | the reader is equivalent to a relational grammar; exact condition for the crash; refuted for lengths of hashes and for nodes cut between children |
| C163, C164, C165, C166 | the VRF on Curve25519 (`Curve/*`, `Model/Curve25519.lean`) | field arithmetic for the Elligator map, special soundness after multiplication by the cofactor; refuted for keys of small order and for the sign bit of points with x = 0 |
| C167, C168 | Ed25519 (`Model/Ed25519.lean`) | the verification is equivalent to the equation of RFC 8032; orders of points; refuted for the blank key and the zero address |
| C169 | committees with chosen selection keys | the draw under a key of small order does not depend on the selector; keys made from seeds by special soundness |
| C170 | hash prefixes and tags | comparison with the table of the protocol, for all kinds and payloads; refuted for two prefixes |
| C171 | stored key pairs (`Pair`, `pairScheme`) | linear algebra modulo the group order; refuted for root, voting and selection keys |
| C172 | all protocol versions (`Model/Consensus.lean`) | a history per parameter, compared with the table of all versions; the finite table is lifted to all names |
| C173 | default settings (`Model/Config.lean`) | comparison with a separate list of what is switched on; composition with loading of files |
| C174 | from a mnemonic to an accepted payment | composition of C10, C110, C17 and C167 with the concrete digest, word list and curve |
| C175 | restoring keys from any store (`restore`, `restoreRoot`) | case analysis over the six records against a relational specification: every store is restored, reported or fatal, exactly as described; refuted for missing and cut records |
| C176 | merkle array proofs | level-wise description of the positions needed; backward induction over the rounds of `verify` from the root, using injectivity of the pair encoding |
| C177 | all functions with machine arithmetic, once more without overflow checks (`Verif/Model/Release.lean`) | relation `Agree` between the two builds closed under sequencing and branching; modular arithmetic over the integers; refuted by wrapped balances, rounds, timestamps and key ranges |
| C178 | sizes of stored nodes, of the storage, numbers of children | induction over the representation invariant |
| C179 | deletion of one-time keys that crashes, at key set and account manager | states left by a crash with the lock and a failing source of randomness; case analysis, induction over later calls; refuted for later deletions and signatures |
| C180 | chains of assembled blocks | induction over the chain with an invariant of headers |
| C181 | rewards over histories of sets of accounts | induction over histories; sums over lists with one entry replaced |
| C182 | the sortition in double precision (`Verif/Model/Double.lean`) | rounding as nearest multiple of a power of two: monotone, relative error, nearest among all doubles; quotient of two different doubles never rounds to one; Lipschitz bound of the binomial distribution |
| C183 | memory reserved in advance (`Verif/Model/Capacity.lean`) | exact condition on the number of batch keys; bound on the batches of the default dilution from C113; refinement of the model without memory |
| C184 | sortition over several accounts, exact arithmetic and doubles | sum over thresholds of C88's number of draws; binomial distributions of the same probability add up (induction over trials); induction over accounts with an error for each; for doubles the error of C182_close, by shifting draws |
| C185 | phrases with mistakes (`mnemonic_to_key`) | digits in base 2048 determine a number (induction over the places) and so the key; acceptance is C11; a key for every completion from the conversion of the 24 numbers back to bytes |
| C186 | address texts with mistakes (`Address::from_str`) | bits of a prefix and of a suffix of a base32 text (induction over characters); accepted texts are canonical by C12 |

## Disagreements between code and documented intent

Found while proving; each is a theorem.  "Doc" is what the comments, names or
tests of the repository, or the Algorand specification it ports, ask for.

| property | what the code does | theorem |
|---|---|---|
| C05 | `add` has no length check: an element of another length is accepted or makes the trie panic (`delete` checks) | `C05_refuted_accepted`, `C05_refuted_panic` |
| C13 | strings that decode to more than 36 bytes and end in a matching checksum hit `unreachable!` | `C13_parser_panics` |
| C27 | key dilution 0 panics (division by zero) instead of an error | `C27_refused` |
| C28 | `persist` makes six separate inserts; a crash in between leaves a mixture of the old and the new key | `C28_violated` |
| C30 | `keys(round)` goes on listing a participation after its one-time keys for that round were deleted | `C30_listed` |
| C31 | a proposal is only accepted if `next_protocol == Some(current)`, but it is `None` when nothing is pending: no upgrade can ever start, and block assembly fails wherever an upgrade is offered | `C31_proposal_always_rejected`, `C31_never_upgrades`, `C31_only_newest_runs` |
| C34 | consequently `Block::new` panics on parents of every built-in protocol but the newest | `C34_crashes` |
| C37 | `checked_add` of the reserve where the Go code subtracts: the minimum balance is added to the pool instead of being kept back | `C37_reserve_is_added`, `C37_violated` |
| C42 | fee check is `<=`: exactly the minimum fee is refused | `C42_minimum_fee_always_rejected` |
| C43 | `unreachable!`-style panics for sender = rewards pool, overflow for key registrations valid until 2^64-1 and for overridden page limits | `C43_rewards_pool_panics`, `C43_last_round_panics`, `C43_pages_panic` |
| C46 | the fee test is inverted: only compact certificates are charged | `C46_ordinary_groups_free`, `C46_cert_groups_rejected` |
| C52 | normalised balance multiplies in 64 bits before dividing: panics from 18.5 million algos on, and reverses orders between different rewards bases | `C52_crashes_iff`, `C52_order_violated` |
| C55 | the VRF output is marked `#[serde(skip)]` in the hashed credential: with domain separation the weight of an account is the same in every round | `C55_same_in_every_round`, `C55_excluded_forever` |
| C56 | the loop runs over units 1..w-1 instead of 0..w-1 (or 1..w): weight one has lowest output 0 and always wins | `C56_weight_one_wins`, `C56_last_unit_ignored` |
| C59 | merging overrides iterates a `HashMap`: crash or different tables depending on the order | `C59_merge_crashes`, `C59_merge_order_dependent` |
| C60 | saving an empty set removes the file and then writes it again | `C60_empty_save_leaves_file` |
| C62 | `is_root_key_filename` calls the function for participation keys and is always false; `trim_end_matches` strips repeated suffixes | `C62_root_never_recognised`, `C62_violated` |
| C66 | omitted fields leave no trace in an array: the two genesis flags encode alike | `C66_flags_collide` |
| C67 | `Address` is written as a binary string and read as a tuple; `SignedTx` is an array whose omitted fields shift: signed transactions cannot be decoded | `C67_signed_lost`, `C67_sender_lost` |
| C69 | an underfunded rewards pool is accepted, a missing one panics; `create_block` never returns an error | `C69_never_an_error`, `C69_underfunded_accepted` |
| C71 | `add_sigs` stops at the first mismatch and keeps what it already added | `C71_not_atomic` |
| C74 | all fields of `BalanceRecord` are skipped by the encoder: all records hash alike | `C74_hash_binds_nothing` |
| C76 | `pre_check` applies the vote to the parent it is given | `C76_parent_overwritten`, `C76_not_repeatable` |
| C77 | undecodable entries panic under a Merkle commitment | `C77_crashes` |
| C78 | flat commitments of protocols v11 to v15 do not bind the genesis flags | `C78_flat_ambiguous` |
| C80 | network names with a dash give ambiguous genesis ids | `C80_dash_collides` |
| C81 | protocols that store transactions unchanged ignore the flags: several stored forms | `C81_flags_ignored` |
| C82 | the upgrade state is skipped by the encoder: the block digest does not bind it | `C82_upgrade_state_unbound` |
| C85 | bytes after a value, longer integer forms and reordered maps are accepted | `C85_trailing_ignored`, `C85_two_strings`, `C85_long_forms` |
| C86 | `HashMap`s are written in iteration order: equal values have different encodings and commitments | `C86_order_matters`, `C86_digest_differs` |
| C90 | `Keypair::from_bytes` needs 64 bytes, `Root::import` is given 32: always panics | `C90_violated` |
| C91 | all participations share the entry `part-voting`: deleting old keys overwrites the others | `C91_violated`, `C91_last_wins` |
| C92 | `delete_old_keys` indexes `compact_certs`, which is empty in every header built here: panics | `C92_violated` |
| C93 | a registration valid for round 0 only is refused | `C93_round_zero_refused` |
| C94 | a configuration file must name every setting; nothing is merged with the defaults | `C94_violated` |
| C95 | the saved phonebook cannot be loaded: the result of parsing is discarded and typed `()` | `C95_violated`, `C95_never_entries` |
| C96 | `save_to_file` writes nothing | `C96_violated` |
| C104 | the genesis root is always the flat commitment, so under a Merkle protocol the genesis block does not match its header | `C104_newest_genesis_mismatch` |
| C109 | `Trie::new` ignores the storage: a trie cannot be opened again | `C109_violated`, `C109_reopened_is_empty` |
| C110 | with one name for both files the address overwrites the key | `C110_one_name_loses_key` |
| C111 | `generate` and `import` end with status 0 although the key file was not written | `C111_violated` |
| C112 | `sign` gives 32 bytes to `Keypair::from_bytes` and opens the output file for reading: it never signs anything | `C112_never_signs`, `C112_key_refused` |
| C115 | `part generate` unwraps the parent and underflows on inverted intervals; `part info` panics without keys | `C115_violated`, `C115_no_keys_panics` |
| C117 | the `--keyfile` argument of `part` is ignored, all keys live in one store | `C117_violated`, `C117_second_replaces_first` |
| C121 | fields are written in declaration order, not sorted by name | `C121_violated` |
| C123 | hash maps are encoded in iteration order: the genesis hash of an account with two assets is not determined | `C123_violated` |
| C124 | addresses are written as byte strings and read as arrays: encoded genesis data with allocations cannot be loaded | `C124_violated` |
| C125 | `load_from_file` unwraps: missing files and JSON texts panic instead of giving an error | `C125_violated` |
| C128 | nodes are overwritten in place and the cache before the storage: after a failed `add` or `delete` the trie crashes or gives a wrong root hash | `C128_violated`, `C128_violated_silently`, `C128_violated_delete` |
| C129 | the first `add` unwraps the result of the store, after setting the root: a failure panics and leaves an unusable trie | `C129_violated`, `C129_violated_after` |
| C130 | the upgrade state of a header is skipped by serde: a header is refused by its parent after being sent | `C130_violated`, `C130_violated_check` |
| C132 | false genesis flags are left out of a list: the genesis hash flag alone is read as the genesis id flag, and transactions without all three signatures are not read at all | `C132_violated_silently`, `C132_lost` |
| C134 | `estimate_encoded_size` is the constant 200: too low for every longer note | `C134_violated`, `C134_violated_above` |
| C135 | the root is stored before the directory is created, and creating fails if it exists: the first query fails on every machine with ~/.algorand, later ones succeed | `C135_violated`, `C135_violated_not_there` |
| C136 | overriding a root that was never set, while another thread asks for it, returns no root although the other thread got the default one | `C136_violated_unset` |
| C136 | `set_global_config_file_root` takes the lock twice: two threads can both be told the old root | `C136_violated_threads` |
| C138 | variables in the path are expanded when saving but not when loading, and an unset one panics | `C138_violated`, `C138_violated_panic` |
| C141 | the length of a child's hash is hashed as one byte (`len() as u8`): two elements of 510 bytes have the root hash of four elements of 254 bytes, for every hash function | `C141_violated` |
| C144 | an override entry must give all 98 parameters: `{}` does not delete a version but makes the file unusable, and `CONSENSUS` unwraps the error | `C144_violated`, `C144_global` |
| C145 | the minimum fee is compared with `<=`, and the error of programs that are too long together carries the limit for one program | `C145_fee_violated`, `C145_programs_violated` |
| C146 | `WrongRound` is built with the expected round first; `CompetingProposal` and `ApprovalAfterDeadline` are returned when nothing is proposed; `encode_signed_tx` exchanges the values of a mismatch | `C146_round_swapped`, `C146_competing_violated`, `C146_deadline_violated`, `C146_store_violated` |
| C147 | the format string of `InvalidTx::GenesisHashMismatch` shows `{0}` twice; `InvalidPayment` and `ApprovalAfterDeadline` show no values | `C147_hash_violated`, `C147_payment_violated`, `C147_deadline_violated` |
| C148 | `batch_verify` reports a blank first entry as a wrong number of signatures | `C148_verify_violated` |
| C149 | `assemble` overwrites a signature given earlier for the same position; `merge` and `add_sigs` refuse | `C149_conflict_violated` |
| C150 | `Display for TealValue` prints bytes in hexadecimal and numbers in decimal without a mark | `C150_value_violated` |
| C151 | `Tree::prove` sorts the caller's list | `C151_reordered_violated` |
| C153 | `select` says it should not panic for any inputs; `Binomial::new(p, n).unwrap()` panics for every expected size above the total stake | `C153_crashes` |
| C155 | `fill_db_with_participation_keys` has an error for a failing storage but unwraps it | `C155_generate_violated` |
| C156 | `AccountManager::delete_old_keys` only logs a failing storage; the keys deleted in memory come back with the next start | `C156_violated` |
| C157 | `mode(0o600)` applies to new files only; a key written over a file that others can read is readable by others | `C157_violated` |
| C158 | files are truncated before they are written; an interruption destroys the old overrides or key, and a cut file of overrides crashes the next start | `C158_overrides_violated`, `C158_key_violated` |
| C160 | `get_node` loads the node from the storage before it looks whether it is cached | `C160_violated` |
| C161 | `vec![0; hash_length]` is allocated before the bytes of the hash are there | `C161_violated` |
| C162 | the children of a stored node have neither a count nor an end mark | `C162_violated` |
| C165 | `VrfPublicKey::verify_bytes` accepts keys of small order, among them the default key | `C165_violated`, `C165_default_key_violated` |
| C166 | points are read from forms that `compress` never writes | `C166_violated` |
| C168 | `BatchVerifier` and multisignatures use `verify`, not `verify_strict`; the blank key and the zero address are keys of small order | `C168_blank_key_violated`, `C168_multisig_violated`, `C168_zero_address_violated` |
| C169 | key registrations with a selection key of small order are accepted; under the blank key everybody can show the same seats in every round | `C169_blank_key_violated`, `C169_blank_key_registered` |
| C170 | two hash prefixes differ from those of the network; so does the sender of compact certificates, and genuine ones are refused | `C170_violated`, `C170_cert_sender_violated`, `C170_cert_refused_violated` |
| C171 | restored key pairs are not checked: the halves need not belong together | `C171_root_violated`, `C171_subkey_violated` |
| C171 | signing with a pair whose public half was changed gives the secret scalar away | `C171_leak_violated` |
| C171 | the same holds for selection keys | `C171_vrf_violated` |
| C175 | `Participation::restore` has an error for missing entries but unwraps them and their lengths | `C175_violated` |
| C177 | no profile enables overflow checks in release builds, and plain `+ - *` are used on values from outside | `C177_violated_balance`, `C177_violated_generate`, `C177_violated_delete`, `C177_violated_timestamp` |
| C178 | A node of the trie that holds a member of 2998 bytes or more takes more than MAX_NODE_SERIALIZED_SIZE bytes. | `C178_violated_long` |
| C178 | A tree of the database reports the size zero whatever it holds. | `C178_violated_database` |
| C179 | `delete_before` unwraps the write lock: after one crash (no randomness, or the last 64-bit batch) every later deletion crashes, also for the accounts the manager visits later; and a crash while a batch is split leaves its new keys where those of the batch before are looked for, so `sign` for an old identifier gives a signature that verifies for a later one | `C179_stuck`, `C179_manager_stuck`, `C179_wrong_identifier`, `C179_violated` |
| C180 | a network whose genesis names a built-in protocol other than the newest never gets its first block | `C180_violated` |
| C183 | `with_capacity` panics for more than `isize::MAX` bytes: participation keys for 2^63 rounds with dilution one, batch verifiers of capacity 2^63 | `C183_violated`, `C183_batch_verifier_violated` |

## Axioms per theorem

Generated with `#print axioms` for every theorem of `MANIFEST.json`.
`P` = `propext`, `C` = `Classical.choice`, `Q` = `Quot.sound`.

**none** (19): `C113_given_dilution`, `C135_no_home`, `C136_calls_partial`, `C136_restore_partial`, `C138_violated_panic`, `C143_names`, `C150_type`, `C21_snapshot`, `C37_violated`, `C52_not_online`, `C52_order_violated`, `C56_weight_one_empty`, `C73_names_distinct`, `C73_status_names`, `C74_hash_binds_nothing`, `C80_dash_collides`, `C82_digest_binds_body_partial`, `C82_upgrade_state_unbound`, `C95_saved_partial`

**P** (78): `C106_voting_stake`, `C107_amount_and_receiver`, `C107_logicsig_size`, `C118_positions`, `C136_absolute`, `C136_one_writer_partial`, `C136_path`, `C136_program_order`, `C136_violated_threads`, `C136_violated_unset`, `C137_config_of_dir`, `C137_separator`, `C138_phonebook_partial`, `C138_violated`, `C145_alive`, `C145_fee_violated`, `C145_programs_violated`, `C146_fetch`, `C146_store_partial`, `C146_store_violated`, `C147_cause`, `C153_panics_iff`, `C177_addAmount_partial`, `C177_applyUpgradeVote_partial`, `C177_deleteBefore_partial`, `C177_deleteOldKeys_partial`, `C177_feeCredit_partial`, `C177_generate_partial`, `C177_indexByAddress_partial`, `C177_indexByAppId_partial`, `C177_isWellFormed_partial`, `C177_money_partial`, `C177_newTimestamp_partial`, `C177_nextState_partial`, `C177_nextVersionInfo_partial`, `C177_pendingRewards_partial`, `C177_preCheck_partial`, `C177_roundUp_partial`, `C177_sign_partial`, `C177_toStateSchema_partial`, `C177_violated_balance`, `C177_violated_round`, `C177_withUpdatedRewards_partial`, `C177_wrapping32`, `C179_sign`, `C179_violated`, `C24_nonce_reuse`, `C30_identity`, `C31_proposal_always_rejected`, `C40_no_panic`, `C42_minimum_fee_violated`, `C43_last_round_panics`, `C43_pages_panic`, `C43_rewards_pool_never_rejected`, `C43_rewards_pool_panics`, `C46_violated`, `C47_auth_address`, `C47_authorizer_verifies`, `C49_not_participating`, `C54_conversion`, `C59_full_claim_false`, `C59_merge_crashes`, `C59_merge_order_dependent`, `C65_errors`, `C66_flags_collide`, `C70_tags_wellformed`, `C71_not_atomic`, `C74_claim_false`, `C76_rest_kept_partial`, `C80_genesis_id_partial`, `C86_small_maps_partial`, `C95_never_entries`, `C95_violated`, `C96_unchanged_partial`, `C96_violated`, `C97_modes`, `C98_reward_units`, `C99_is_zero`

**Q** (2): `C36_no_crash`, `C79_total`

**PQ** (177): `C01_spec_membership`, `C06_out_of_range_panics`, `C07_empty`, `C07_proof_digests`, `C104_genesis_block`, `C106_key_dilution`, `C109_reopened_is_empty`, `C114_failure_stores_nothing`, `C115_no_keys_panics`, `C115_violated`, `C11_unknown_word`, `C11_wrong_length`, `C122_no_other_object`, `C125_violated`, `C126_other_keys_refused`, `C129_violated`, `C129_violated_after`, `C134_signed_length`, `C134_violated`, `C134_violated_above`, `C135_first_use_partial`, `C135_violated`, `C135_violated_not_there`, `C139_length_in_block`, `C139_wrap`, `C139_written`, `C143_reads`, `C143_refines`, `C143_saved_is_loaded`, `C144_deletes_partial`, `C146_competing_violated`, `C146_deadline_violated`, `C146_reason_partial`, `C146_round_swapped`, `C147_deadline_violated`, `C147_hash_violated`, `C147_ids_violated`, `C147_payment_violated`, `C148_address`, `C148_sign`, `C148_verify_violated`, `C14_domain_separation`, `C14_hash_obj_injective`, `C14_prefix_free`, `C150_base64`, `C150_hex`, `C150_multisig_message`, `C150_numbers`, `C150_value_partial`, `C150_value_violated`, `C150_vrf_key`, `C156_memory`, `C158_refines`, `C159_changes`, `C15_errors`, `C160_memory_wins_partial`, `C160_violated`, `C161_crash_iff`, `C161_exact`, `C161_violated`, `C162_violated`, `C172_parameters`, `C175_crash_iff_partial`, `C175_reported_partial`, `C175_restored_partial`, `C175_root_partial`, `C177_fillDb_partial`, `C177_manager_partial`, `C177_newBlock_partial`, `C177_nextRound_partial`, `C177_normalizedOnlineBalance_partial`, `C177_partGenerate_partial`, `C177_processUpgradeParams_partial`, `C177_violated_delete`, `C177_violated_generate`, `C177_violated_keyreg`, `C177_violated_last_round`, `C177_violated_pages`, `C177_violated_proposal`, `C177_violated_timestamp`, `C177_wrapping`, `C178_violated_database`, `C178_violated_long`, `C179_manager_stuck`, `C179_retained`, `C179_stuck`, `C179_works_partial`, `C180_violated`, `C183_batch_verifier`, `C183_crash_stores_nothing`, `C183_large_dilution_partial`, `C183_same`, `C19_address_binding`, `C19_address_total`, `C20_batch_is_conjunction`, `C20_batch_order`, `C21_total`, `C24_output_of_accepted`, `C24_same_gamma_same_output`, `C24_verify_total`, `C25_ots_id_monotone`, `C25_ots_id_panics_iff`, `C25_ots_id_unique`, `C26_round_up_least`, `C26_round_up_panics_iff`, `C26_sub_capped`, `C27_refused`, `C29_total`, `C30_has_live_keys`, `C30_needed_kept`, `C31_build_iff`, `C31_never_upgrades`, `C31_only_newest_runs`, `C32_builtin_table_ok`, `C32_switch_needs_votes`, `C33_bounded_by_window`, `C33_count_exact`, `C33_late_rejected`, `C34_crashes`, `C37_always_overpromises`, `C37_overflowing_reserve`, `C37_rate_partial`, `C37_refresh_schedule`, `C37_reserve_is_added`, `C38_encodable_iff`, `C38_rest_untouched`, `C38_stored`, `C41_builtin_params_fit`, `C42_minimum_fee_always_rejected`, `C47_signed_bytes_inj`, `C48_match_iff`, `C48_receiver_relevant`, `C49_succeeds_iff`, `C51_account_data`, `C51_exact`, `C52_crashes`, `C52_crashes_iff`, `C53_add_laws`, `C53_monotone`, `C53_price_additive`, `C55_excluded_forever`, `C55_output_hashed_partial`, `C55_same_in_every_round`, `C58_rejections`, `C59_merge_partial`, `C60_empty_save_leaves_file`, `C60_save_load_partial`, `C61_names_distinct`, `C61_paths_end_in_v30`, `C61_rows_coherent`, `C61_v30_reachable`, `C62_names_distinct`, `C62_others_unchanged`, `C62_recognised_sound`, `C63_relay`, `C64_network_inserted`, `C64_no_empty`, `C69_never_an_error`, `C69_rate_partial`, `C69_underfunded_accepted`, `C72_app_addresses`, `C74_domain_partial`, `C75_counts_total`, `C75_schema_counts`, `C77_crashes`, `C78_flat_ambiguous`, `C80_exact_partial`, `C81_flags_ignored`, `C83_tx_id_kind`, `C86_order_matters`, `C89_strict_order`, `C92_deletes_partial`, `C92_exact_partial`, `C92_violated`, `C98_add_exact`, `C99_trim_bytes`, `C99_trim_prefix`

**PCQ** (450): `C01_trie_is_set`, `C02_history_independent`, `C02_queries_do_not_disturb`, `C02_root_hash_is_function_of_set`, `C03_collision_free`, `C03_root_hash_binds`, `C04_storage_is_reachable`, `C05_delete_rejects_partial`, `C05_other_length_partial`, `C05_refuted_accepted`, `C05_refuted_panic`, `C06_bitset_refines_set`, `C06_is_zero_iff`, `C07_proofs_verify`, `C07_root_spec`, `C08_binding`, `C08_honest_tree`, `C08_positions_bounded`, `C08_two_proofs_agree`, `C09_prove_set`, `C09_prove_total`, `C100_unforgeable`, `C101_accepted_iff`, `C102_chain_consistent`, `C102_digest_determines_chain`, `C102_genesis_hash`, `C102_time`, `C103_new_block`, `C104_genesis_contents_partial`, `C104_newest_genesis_mismatch`, `C105_leaves`, `C106_rewards_keep_stake`, `C108_only_sender`, `C108_reserved_sender`, `C109_starts_empty_partial`, `C109_violated`, `C10_key_to_mnemonic_spec`, `C10_phrase_roundtrip`, `C10_roundtrip`, `C10_shipped`, `C110_export`, `C110_generate`, `C110_import`, `C110_import_export`, `C110_one_name_loses_key`, `C111_export_partial`, `C111_invalid_phrase_partial`, `C111_violated`, `C112_key_refused`, `C112_never_signs`, `C112_one_source_partial`, `C113_batches`, `C113_default_dilution`, `C113_every_batches`, `C113_every_interval`, `C114_generates`, `C114_info_after_generate`, `C115_reparent_reports_partial`, `C116_reparent`, `C117_same_name_partial`, `C117_second_replaces_first`, `C117_violated`, `C118_other_keys_refused`, `C118_reads`, `C118_reads_signed`, `C118_signed_well_formed`, `C118_twice_refused`, `C118_well_formed`, `C119_reader`, `C119_representable`, `C119_unambiguous`, `C119_writer`, `C11_accepted_is_canonical`, `C11_accepts_iff`, `C11_injective`, `C11_phrase_iff`, `C11_phrase_never_panics`, `C11_words_unique`, `C11_wrong_checksum`, `C120_writes`, `C120_writes_signed`, `C121_distinct_partial`, `C121_violated`, `C122_hash_identifies`, `C123_all_violated`, `C123_exact_partial`, `C123_small_maps_partial`, `C123_violated`, `C124_load_saved_partial`, `C124_violated`, `C125_only_genesis_partial`, `C126_loads`, `C126_positions`, `C126_written`, `C127_answers_right`, `C128_early_partial`, `C128_queries_partial`, `C128_root_hash_partial`, `C128_violated`, `C128_violated_delete`, `C128_violated_root_hash`, `C128_violated_silently`, `C129_reported_partial`, `C12_accepted_is_canonical`, `C12_display_injective`, `C12_roundtrip`, `C12_shipped`, `C130_digest_partial`, `C130_read_back_partial`, `C130_violated`, `C130_violated_check`, `C131_positions`, `C131_reads`, `C131_sizes`, `C132_lost`, `C132_read_back_partial`, `C132_survivors_partial`, `C132_violated_silently`, `C133_reads`, `C133_written`, `C134_right_iff_partial`, `C13_no_panic_right_length_partial`, `C13_panics_iff_partial`, `C13_parser_panics`, `C140_emptied_is_new`, `C140_every_history`, `C140_reuse`, `C141_binds_partial`, `C141_violated`, `C142_count`, `C142_history_independent`, `C142_shape`, `C143_field_names`, `C143_refuses`, `C144_global`, `C144_violated`, `C145_builtin_partial`, `C145_programs`, `C145_reason_partial`, `C147_block_partial`, `C147_tx_partial`, `C148_add`, `C148_assemble`, `C148_merge`, `C148_verify_partial`, `C149_assemble`, `C149_conflict_violated`, `C149_keeps`, `C150_participation`, `C150_txid`, `C151_positions_partial`, `C151_reordered_violated`, `C152_nesting`, `C152_overrides`, `C152_overrides_refused`, `C152_phonebook`, `C152_reads`, `C152_unambiguous`, `C152_written`, `C153_crashes`, `C153_returns_partial`, `C154_by_digest`, `C154_can_be_shown`, `C154_nothing_else`, `C155_generate_partial`, `C155_generate_violated`, `C155_import`, `C155_new_parent`, `C155_persist`, `C155_restore`, `C155_restore_root`, `C156_history_partial`, `C156_manager_partial`, `C156_manager_writes`, `C156_participation_partial`, `C156_returns`, `C156_violated`, `C157_new_file`, `C157_private_partial`, `C157_refines`, `C157_violated`, `C158_key_partial`, `C158_key_violated`, `C158_never_misread_partial`, `C158_overrides_violated`, `C159_again`, `C159_counted`, `C159_total`, `C15_accepts_iff`, `C15_base32_bijective`, `C15_roundtrip`, `C161_reported_partial`, `C161_written`, `C162_cut_partial`, `C163_hash_to_curve`, `C164_one_output`, `C164_same_output`, `C165_default_key_violated`, `C165_other_outputs_partial`, `C165_violated`, `C166_one_form_partial`, `C166_violated`, `C167_accepts_iff`, `C167_fresh_nonce`, `C167_keys_read`, `C167_one_response`, `C167_sign_verifies`, `C167_strict_accepts_iff`, `C167_strict_and_lenient`, `C167_strict_iff`, `C167_strict_one_response`, `C168_blank_key_violated`, `C168_multisig_violated`, `C168_one_time_partial`, `C168_strict_partial`, `C168_zero_address_violated`, `C169_blank_key_registered`, `C169_blank_key_violated`, `C169_fresh_partial`, `C16_accept_iff`, `C16_reject`, `C16_threshold`, `C170_cert_refused_violated`, `C170_cert_sender_violated`, `C170_prefixes_partial`, `C170_violated`, `C171_intact`, `C171_leak_violated`, `C171_record_partial`, `C171_root_violated`, `C171_signs_iff`, `C171_subkey_violated`, `C171_vrf_violated`, `C172_names`, `C173_defaults`, `C173_file`, `C173_meaning`, `C174_backup`, `C174_spends`, `C175_violated`, `C176_contents`, `C176_length`, `C176_one_proof`, `C176_same_length`, `C177_balance_exact`, `C177_normalized_crash_iff`, `C178_children`, `C178_empty`, `C178_hashes`, `C178_node_partial`, `C178_total`, `C179_crash_iff`, `C179_future`, `C179_manager_works_partial`, `C179_retry`, `C179_wrong_identifier`, `C17_assemble_verifies`, `C17_blank_first`, `C17_ed25519`, `C17_holders`, `C17_shipped`, `C17_single_verifies`, `C180_chain_partial`, `C181_conserved`, `C181_nothing_lost`, `C181_update_succeeds`, `C182_close`, `C182_conversion`, `C182_crash_iff`, `C182_crashes`, `C182_monotone`, `C182_nearest`, `C182_own_credential`, `C182_returns`, `C182_ties`, `C182_verify_crash_iff`, `C183_batch_verifier_violated`, `C183_crash_iff`, `C183_default_dilution_partial`, `C183_violated`, `C184_committee_size`, `C184_divided`, `C184_divided_double`, `C184_mean`, `C184_no_gain`, `C184_total`, `C184_total_double`, `C185_completion`, `C185_last_word`, `C185_last_word_refused`, `C185_mistake`, `C185_place`, `C186_end`, `C186_end_refused`, `C186_mistake`, `C18_merge_assoc`, `C18_merge_comm`, `C18_merge_idem`, `C18_merge_spec`, `C18_nothing_lost`, `C21_ed25519`, `C21_exact`, `C21_exact_ed25519`, `C21_sign_verifies`, `C22_forward_secure`, `C22_retained_keys`, `C23_beyond_given_up`, `C23_future_kept`, `C24_accepts_iff`, `C24_curve25519`, `C24_other_output_is_lucky`, `C24_prove_spec`, `C24_prove_verifies`, `C24_secret_scalar`, `C24_special_soundness`, `C27_covers_interval`, `C27_ed25519`, `C27_only_interval_batches`, `C28_crash_partial`, `C28_first_crash_panics`, `C28_roundtrip`, `C28_violated`, `C29_advanced`, `C29_crash_iff`, `C29_crash_safe`, `C30_add_once`, `C30_available`, `C30_ed25519`, `C30_listed`, `C31_upgrade_partial`, `C32_history`, `C32_step`, `C34_crash_iff`, `C34_new_block_passes_partial`, `C34_newest_returns`, `C35_checked`, `C35_crash_iff`, `C35_new_block`, `C35_timestamp`, `C36_conserves`, `C36_never_overpays`, `C36_otherwise_kept`, `C36_round_conserves`, `C38_roundtrip`, `C39_decode_payset_groups`, `C39_inverse`, `C39_signed_txs_to_group`, `C39_unique`, `C40_alive_iff`, `C41_accepted_iff`, `C41_accepted_within_limits`, `C42_above_minimum_partial`, `C43_crash_iff_partial`, `C43_no_panic_builtin_partial`, `C43_no_panic_partial`, `C44_accepted`, `C44_coherent_iff`, `C45_address_inverse`, `C45_address_of_index`, `C45_app_of_index`, `C45_index_of_address`, `C45_index_of_app`, `C46_cert_groups_rejected`, `C46_fee_credit_partial`, `C46_ordinary_groups_free`, `C47_ed25519`, `C49_exact_amount`, `C49_idempotent`, `C50_equal_when_units_fixed`, `C50_steps_pay_no_less`, `C51_monotone`, `C52_normalized_partial`, `C53_sub_add`, `C54_order`, `C54_valid_iff`, `C55_equal_in_every_round`, `C55_equal_partial`, `C56_last_unit_ignored`, `C56_minimum_partial`, `C56_weight_one_wins`, `C57_exact`, `C57_least_count`, `C57_monotone`, `C58_accepted`, `C58_curve25519`, `C58_own_credential`, `C58_selected`, `C59_crash_iff_partial`, `C59_exact_partial`, `C59_order_independent_partial`, `C62_names`, `C62_partkey_partial`, `C62_root_never_recognised`, `C62_rootkey_partial`, `C62_violated`, `C63_field_names`, `C63_loads`, `C65_spender_iff`, `C66_determined_partial`, `C67_any_lost`, `C67_sender_lost`, `C67_signed_lost`, `C67_survivors_partial`, `C67_transaction_partial`, `C68_node_roundtrip`, `C68_serialize_injective`, `C70_comma_lists_unambiguous`, `C71_add_sigs_any_outcome_partial`, `C71_add_sigs_success`, `C76_not_repeatable`, `C76_parent_overwritten`, `C76_repeat_iff_partial`, `C77_answers_partial`, `C78_builtin_merkle_binds`, `C78_flat_binds_partial`, `C78_merkle_binds`, `C78_root_binds_array`, `C79_next_round`, `C79_upgrade_announced`, `C81_exact_partial`, `C81_unique_form_partial`, `C82_digest_concrete_partial`, `C83_tx_id_binds`, `C84_group_id_binds`, `C84_same_tag_no_confusion`, `C84_vec_id_binds`, `C85_long_forms`, `C85_prefix_free_partial`, `C85_signed_prefix_free_partial`, `C85_trailing_ignored`, `C85_two_strings`, `C86_digest_differs`, `C86_exact_partial`, `C87_certificates_name_slot`, `C88_larger_committee`, `C88_larger_total`, `C88_more_stake`, `C88_share_of_draws`, `C89_digest`, `C90_restored_partial`, `C90_violated`, `C91_last_wins`, `C91_single_partial`, `C91_violated`, `C93_registers`, `C93_round_zero_refused`, `C94_full_file_partial`, `C94_violated`, `C97_flags`, `C98_reward_units_split`
