{
 "claims": [
  {
   "property": "C01",
   "status": "proved",
   "theorems": [
    "Verif.Props.C01_spec_membership",
    "Verif.Props.C01_trie_is_set"
   ],
   "note": "Every history of add, delete and root_hash calls with elements of one length below 2^32 runs without error, and the answers are those of a set."
  },
  {
   "property": "C02",
   "status": "proved",
   "theorems": [
    "Verif.Props.C02_history_independent",
    "Verif.Props.C02_queries_do_not_disturb",
    "Verif.Props.C02_root_hash_is_function_of_set"
   ],
   "note": "The root hash is an explicit function of the member set; equal sets give equal root hashes; root_hash calls can be removed from a history without changing other answers."
  },
  {
   "property": "C03",
   "status": "proved",
   "theorems": [
    "Verif.Props.C03_collision_free",
    "Verif.Props.C03_root_hash_binds"
   ],
   "note": "Equal root hashes mean equal sets, or an explicit collision (or preimage of the zero digest) among the strings that were hashed. The digest is a parameter with 32-byte output."
  },
  {
   "property": "C04",
   "status": "proved",
   "theorems": [
    "Verif.Props.C04_storage_is_reachable"
   ],
   "note": "The stored nodes are exactly those reachable from the root by following stored children; empty set, empty store."
  },
  {
   "property": "C05",
   "status": "partial",
   "theorems": [
    "Verif.Props.C05_delete_rejects_partial",
    "Verif.Props.C05_other_length_partial",
    "Verif.Props.C05_refuted_accepted",
    "Verif.Props.C05_refuted_panic"
   ],
   "note": "Violated by the code: add has no length check and panics (witness) or accepts (witness). Proved for delete. C05_other_length_partial says exactly when add crashes and when it accepts."
  },
  {
   "property": "C06",
   "status": "proved",
   "theorems": [
    "Verif.Props.C06_bitset_refines_set",
    "Verif.Props.C06_is_zero_iff",
    "Verif.Props.C06_out_of_range_panics"
   ],
   "note": "Every call sequence with indices < 256, plus the panic outside."
  },
  {
   "property": "C07",
   "status": "proved",
   "theorems": [
    "Verif.Props.C07_empty",
    "Verif.Props.C07_proof_digests",
    "Verif.Props.C07_proofs_verify",
    "Verif.Props.C07_root_spec"
   ],
   "note": "Any array up to 2^64 elements, any non-empty position list, any listing of the element map; the root is also tied to an independent recursive specification."
  },
  {
   "property": "C08",
   "status": "proved",
   "theorems": [
    "Verif.Props.C08_binding",
    "Verif.Props.C08_honest_tree",
    "Verif.Props.C08_positions_bounded",
    "Verif.Props.C08_two_proofs_agree"
   ],
   "note": "Any adversarial proof; conclusion is the truth of the claim or an explicit collision / zero preimage among the strings hashed. The digest is a parameter with 32-byte output."
  },
  {
   "property": "C09",
   "status": "proved",
   "theorems": [
    "Verif.Props.C09_prove_set",
    "Verif.Props.C09_prove_total"
   ],
   "note": "All arrays and position lists."
  },
  {
   "property": "C10",
   "status": "proved",
   "theorems": [
    "Verif.Props.C10_key_to_mnemonic_spec",
    "Verif.Props.C10_phrase_roundtrip",
    "Verif.Props.C10_roundtrip",
    "Verif.Props.C10_shipped"
   ],
   "note": "Any duplicate-free list of 2048 words; the shipped list is checked in the kernel; phrase form included."
  },
  {
   "property": "C11",
   "status": "proved",
   "theorems": [
    "Verif.Props.C11_accepted_is_canonical",
    "Verif.Props.C11_accepts_iff",
    "Verif.Props.C11_injective",
    "Verif.Props.C11_phrase_iff",
    "Verif.Props.C11_phrase_never_panics",
    "Verif.Props.C11_unknown_word",
    "Verif.Props.C11_words_unique",
    "Verif.Props.C11_wrong_checksum",
    "Verif.Props.C11_wrong_length"
   ],
   "note": "Acceptance is characterised by an independent digit specification; the texts that are read as given words are exactly those with the words in order, separated by white space (Unicode White_Space, listed) and with any white space around them; every rejection class has its error; no panic."
  },
  {
   "property": "C12",
   "status": "proved",
   "theorems": [
    "Verif.Props.C12_accepted_is_canonical",
    "Verif.Props.C12_display_injective",
    "Verif.Props.C12_roundtrip",
    "Verif.Props.C12_shipped"
   ],
   "note": "All addresses and byte strings; base32 codec proved canonical."
  },
  {
   "property": "C13",
   "status": "partial",
   "theorems": [
    "Verif.Props.C13_no_panic_right_length_partial",
    "Verif.Props.C13_panics_iff_partial",
    "Verif.Props.C13_parser_panics"
   ],
   "note": "Violated: C13_parser_panics gives a crashing string for every address. Proved: exact set of crashing inputs; no crash for 58-character input. Missing: the claim itself is false of the code."
  },
  {
   "property": "C14",
   "status": "proved",
   "theorems": [
    "Verif.Props.C14_domain_separation",
    "Verif.Props.C14_hash_obj_injective",
    "Verif.Props.C14_prefix_free"
   ],
   "note": "All pairs of the 32 tags by kernel evaluation of the whole table, lifted to all payloads."
  },
  {
   "property": "C15",
   "status": "proved",
   "theorems": [
    "Verif.Props.C15_accepts_iff",
    "Verif.Props.C15_base32_bijective",
    "Verif.Props.C15_errors",
    "Verif.Props.C15_roundtrip"
   ],
   "note": "All hashes and byte strings."
  },
  {
   "property": "C16",
   "status": "proved",
   "theorems": [
    "Verif.Props.C16_accept_iff",
    "Verif.Props.C16_reject",
    "Verif.Props.C16_threshold"
   ],
   "note": "Acceptance, rejection and errors are characterised exactly; Ed25519 and the digest are parameters."
  },
  {
   "property": "C17",
   "status": "proved",
   "theorems": [
    "Verif.Props.C17_assemble_verifies",
    "Verif.Props.C17_blank_first",
    "Verif.Props.C17_ed25519",
    "Verif.Props.C17_holders",
    "Verif.Props.C17_shipped",
    "Verif.Props.C17_single_verifies"
   ],
   "note": "Any list of at least two signing calls covering threshold positions of at most 255 keys, with the holder of the first key among them if this key is the blank one (C17_blank_first: otherwise the result is never accepted); one signer alone is also covered. Assumes only that honest Ed25519 signatures verify."
  },
  {
   "property": "C18",
   "status": "proved",
   "theorems": [
    "Verif.Props.C18_merge_assoc",
    "Verif.Props.C18_merge_comm",
    "Verif.Props.C18_merge_idem",
    "Verif.Props.C18_merge_spec",
    "Verif.Props.C18_nothing_lost"
   ],
   "note": "Exact characterisation of merge; commutative, idempotent, associative."
  },
  {
   "property": "C19",
   "status": "proved",
   "theorems": [
    "Verif.Props.C19_address_binding",
    "Verif.Props.C19_address_total"
   ],
   "note": "All parameters; equal addresses mean equal parameters or an explicit collision."
  },
  {
   "property": "C20",
   "status": "proved",
   "theorems": [
    "Verif.Props.C20_batch_is_conjunction",
    "Verif.Props.C20_batch_order"
   ],
   "note": "All batches and permutations."
  },
  {
   "property": "C21",
   "status": "proved",
   "theorems": [
    "Verif.Props.C21_ed25519",
    "Verif.Props.C21_exact",
    "Verif.Props.C21_exact_ed25519",
    "Verif.Props.C21_sign_verifies",
    "Verif.Props.C21_snapshot",
    "Verif.Props.C21_total"
   ],
   "note": "All ranges below 2^64, all deletion histories with a fixed number of keys per batch, any fresh keys, any encoding. Assumes only that honest Ed25519 signatures verify."
  },
  {
   "property": "C22",
   "status": "proved",
   "theorems": [
    "Verif.Props.C22_forward_secure",
    "Verif.Props.C22_retained_keys"
   ],
   "note": "Empty signature after any history containing a deletion above the identifier; separately, which secrets are retained. Unforgeability of Ed25519 itself is not modelled."
  },
  {
   "property": "C23",
   "status": "proved",
   "theorems": [
    "Verif.Props.C23_beyond_given_up",
    "Verif.Props.C23_future_kept"
   ],
   "note": "Every state reachable by deletions; offsets beyond the keys per batch are shown to be given up."
  },
  {
   "property": "C24",
   "status": "proved",
   "theorems": [
    "Verif.Props.C24_accepts_iff",
    "Verif.Props.C24_curve25519",
    "Verif.Props.C24_nonce_reuse",
    "Verif.Props.C24_other_output_is_lucky",
    "Verif.Props.C24_output_of_accepted",
    "Verif.Props.C24_prove_spec",
    "Verif.Props.C24_prove_verifies",
    "Verif.Props.C24_same_gamma_same_output",
    "Verif.Props.C24_secret_scalar",
    "Verif.Props.C24_special_soundness",
    "Verif.Props.C24_verify_total"
   ],
   "note": "Any commutative group with a subgroup of order l at least 2^128 containing the base point and all Elligator images, any SHA-512 of the right length. Uniqueness beyond equal gamma is proved as special soundness; soundness of Fiat-Shamir itself is not modelled."
  },
  {
   "property": "C25",
   "status": "proved",
   "theorems": [
    "Verif.Props.C25_ots_id_monotone",
    "Verif.Props.C25_ots_id_panics_iff",
    "Verif.Props.C25_ots_id_unique"
   ],
   "note": "All rounds and dilutions; zero dilution panics (stated)."
  },
  {
   "property": "C26",
   "status": "proved",
   "theorems": [
    "Verif.Props.C26_round_up_least",
    "Verif.Props.C26_round_up_panics_iff",
    "Verif.Props.C26_sub_capped"
   ],
   "note": "All naturals with the 64-bit overflow check explicit."
  },
  {
   "property": "C27",
   "status": "proved",
   "theorems": [
    "Verif.Props.C27_covers_interval",
    "Verif.Props.C27_ed25519",
    "Verif.Props.C27_only_interval_batches",
    "Verif.Props.C27_refused"
   ],
   "note": "Exact set of rounds: those of the batches of the interval. Zero dilution panics. If there is memory for the keys: C183."
  },
  {
   "property": "C28",
   "status": "partial",
   "theorems": [
    "Verif.Props.C28_crash_partial",
    "Verif.Props.C28_first_crash_panics",
    "Verif.Props.C28_roundtrip",
    "Verif.Props.C28_violated"
   ],
   "note": "Violated: C28_violated (persist makes six separate inserts). Proved: round trip without a crash, and exactly what every crash point leaves."
  },
  {
   "property": "C29",
   "status": "proved",
   "theorems": [
    "Verif.Props.C29_advanced",
    "Verif.Props.C29_crash_iff",
    "Verif.Props.C29_crash_safe",
    "Verif.Props.C29_total"
   ],
   "note": "All crash points, exact set of rounds that can still be signed, and exactly when it crashes."
  },
  {
   "property": "C30",
   "status": "proved",
   "theorems": [
    "Verif.Props.C30_add_once",
    "Verif.Props.C30_available",
    "Verif.Props.C30_ed25519",
    "Verif.Props.C30_has_live_keys",
    "Verif.Props.C30_identity",
    "Verif.Props.C30_listed",
    "Verif.Props.C30_needed_kept"
   ],
   "note": "All histories and iteration orders. keys() itself keeps listing a key after its secrets were deleted (C30_listed)."
  },
  {
   "property": "C31",
   "status": "partial",
   "theorems": [
    "Verif.Props.C31_build_iff",
    "Verif.Props.C31_never_upgrades",
    "Verif.Props.C31_only_newest_runs",
    "Verif.Props.C31_proposal_always_rejected",
    "Verif.Props.C31_upgrade_partial"
   ],
   "note": "Violated: next_protocol is None when nothing is pending but the code compares it with the current version, so C31_proposal_always_rejected and C31_never_upgrades hold for every chain, and C31_only_newest_runs says block assembly works only where no upgrade is offered. C31_upgrade_partial proves the claim from states that mark 'no proposal' the way the code tests for it."
  },
  {
   "property": "C32",
   "status": "proved",
   "theorems": [
    "Verif.Props.C32_builtin_table_ok",
    "Verif.Props.C32_history",
    "Verif.Props.C32_step",
    "Verif.Props.C32_switch_needs_votes"
   ],
   "note": "All chains from sound states (every genesis state is one), in terms of states and in terms of the votes alone. Tables with positive voting window and default delay, which C32_builtin_table_ok shows for the built-in one."
  },
  {
   "property": "C33",
   "status": "proved",
   "theorems": [
    "Verif.Props.C33_bounded_by_window",
    "Verif.Props.C33_count_exact",
    "Verif.Props.C33_late_rejected"
   ],
   "note": "All chains from any state; late approvals are rejected in every state."
  },
  {
   "property": "C34",
   "status": "partial",
   "theorems": [
    "Verif.Props.C34_crash_iff",
    "Verif.Props.C34_crashes",
    "Verif.Props.C34_new_block_passes_partial",
    "Verif.Props.C34_newest_returns"
   ],
   "note": "Violated: C34_crashes, on parents of every built-in protocol but the newest assembly panics. Proved: whenever it returns, all checks pass against the parent exactly when the parent carries the genesis fields the protocol asks for, and for the newest protocol it returns for every clock reading; C34_crash_iff gives the exact condition of the crash and excludes errors."
  },
  {
   "property": "C35",
   "status": "proved",
   "theorems": [
    "Verif.Props.C35_checked",
    "Verif.Props.C35_crash_iff",
    "Verif.Props.C35_new_block",
    "Verif.Props.C35_timestamp"
   ],
   "note": "Exact clamp; both for assembled and for checked headers. C35_crash_iff gives the only crash."
  },
  {
   "property": "C36",
   "status": "proved",
   "theorems": [
    "Verif.Props.C36_conserves",
    "Verif.Props.C36_never_overpays",
    "Verif.Props.C36_no_crash",
    "Verif.Props.C36_otherwise_kept",
    "Verif.Props.C36_round_conserves"
   ],
   "note": "Any number of rounds, any protocols, pools and units; rounds without units or with sums above 64 bits keep level and residue. Unconditionally never more is paid than due."
  },
  {
   "property": "C37",
   "status": "partial",
   "theorems": [
    "Verif.Props.C37_always_overpromises",
    "Verif.Props.C37_overflowing_reserve",
    "Verif.Props.C37_rate_partial",
    "Verif.Props.C37_refresh_schedule",
    "Verif.Props.C37_reserve_is_added",
    "Verif.Props.C37_violated"
   ],
   "note": "Violated: checked_add where checked_sub is meant, C37_reserve_is_added for every refresh, C37_violated for the newest protocol. Proved: bounds of the promise actually made."
  },
  {
   "property": "C38",
   "status": "proved",
   "theorems": [
    "Verif.Props.C38_encodable_iff",
    "Verif.Props.C38_rest_untouched",
    "Verif.Props.C38_roundtrip",
    "Verif.Props.C38_stored"
   ],
   "note": "All headers, transactions, flags; exact set of encodable transactions."
  },
  {
   "property": "C39",
   "status": "proved",
   "theorems": [
    "Verif.Props.C39_decode_payset_groups",
    "Verif.Props.C39_inverse",
    "Verif.Props.C39_signed_txs_to_group",
    "Verif.Props.C39_unique"
   ],
   "note": "Grouping meets a specification that C39_unique shows to have one solution; inverse to flattening."
  },
  {
   "property": "C40",
   "status": "proved",
   "theorems": [
    "Verif.Props.C40_alive_iff",
    "Verif.Props.C40_no_panic"
   ],
   "note": "Exact characterisation, never crashes; any header and network."
  },
  {
   "property": "C41",
   "status": "proved",
   "theorems": [
    "Verif.Props.C41_accepted_iff",
    "Verif.Props.C41_accepted_within_limits",
    "Verif.Props.C41_builtin_params_fit"
   ],
   "note": "C41_accepted_iff gives the exact set of accepted transactions; accepted ones keep every documented limit. Protocol limits below 2^32 (arguments) and 2^64-1 (schema entries), which C41_builtin_params_fit shows for all built-in protocols."
  },
  {
   "property": "C42",
   "status": "partial",
   "theorems": [
    "Verif.Props.C42_above_minimum_partial",
    "Verif.Props.C42_minimum_fee_always_rejected",
    "Verif.Props.C42_minimum_fee_violated"
   ],
   "note": "Violated: C42_minimum_fee_violated, and C42_minimum_fee_always_rejected for every transaction. Proved for fees above the minimum."
  },
  {
   "property": "C43",
   "status": "partial",
   "theorems": [
    "Verif.Props.C43_crash_iff_partial",
    "Verif.Props.C43_last_round_panics",
    "Verif.Props.C43_no_panic_builtin_partial",
    "Verif.Props.C43_no_panic_partial",
    "Verif.Props.C43_pages_panic",
    "Verif.Props.C43_rewards_pool_never_rejected",
    "Verif.Props.C43_rewards_pool_panics"
   ],
   "note": "Violated: crashes for sender = rewards pool, for online key registrations valid until round 2^64-1, and for override protocols whose page product exceeds 32 bits. C43_crash_iff_partial: exactly which transactions crash the check when page products fit 32 bits, in particular under all built-in protocols; C43_no_panic_partial: without a crash otherwise."
  },
  {
   "property": "C44",
   "status": "proved",
   "theorems": [
    "Verif.Props.C44_accepted",
    "Verif.Props.C44_coherent_iff"
   ],
   "note": "Exact characterisation of the coherence check for last valid rounds below 2^64-1 (at the bound it crashes, see C43)."
  },
  {
   "property": "C45",
   "status": "proved",
   "theorems": [
    "Verif.Props.C45_address_inverse",
    "Verif.Props.C45_address_of_index",
    "Verif.Props.C45_app_of_index",
    "Verif.Props.C45_index_of_address",
    "Verif.Props.C45_index_of_app"
   ],
   "note": "Both directions, for addresses and application ids; first match with duplicates."
  },
  {
   "property": "C46",
   "status": "partial",
   "theorems": [
    "Verif.Props.C46_cert_groups_rejected",
    "Verif.Props.C46_fee_credit_partial",
    "Verif.Props.C46_ordinary_groups_free",
    "Verif.Props.C46_violated"
   ],
   "note": "Violated: only compact certificates are charged; C46_ordinary_groups_free and C46_cert_groups_rejected hold for all groups. The exact result of the code is C46_fee_credit_partial."
  },
  {
   "property": "C47",
   "status": "proved",
   "theorems": [
    "Verif.Props.C47_auth_address",
    "Verif.Props.C47_authorizer_verifies",
    "Verif.Props.C47_ed25519",
    "Verif.Props.C47_signed_bytes_inj"
   ],
   "note": "Any signature scheme accepting its own signatures; key pairs whose address is not the zero address."
  },
  {
   "property": "C48",
   "status": "proved",
   "theorems": [
    "Verif.Props.C48_match_iff",
    "Verif.Props.C48_receiver_relevant"
   ],
   "note": "Exact set of addresses."
  },
  {
   "property": "C49",
   "status": "proved",
   "theorems": [
    "Verif.Props.C49_exact_amount",
    "Verif.Props.C49_idempotent",
    "Verif.Props.C49_not_participating",
    "Verif.Props.C49_succeeds_iff"
   ],
   "note": "Exact amounts, exactly when it succeeds, idempotence; any account, protocol and level."
  },
  {
   "property": "C50",
   "status": "proved",
   "theorems": [
    "Verif.Props.C50_equal_when_units_fixed",
    "Verif.Props.C50_steps_pay_no_less"
   ],
   "note": "Any list of intermediate levels: never less, and equal when the whole reward units do not change."
  },
  {
   "property": "C51",
   "status": "proved",
   "theorems": [
    "Verif.Props.C51_account_data",
    "Verif.Props.C51_exact",
    "Verif.Props.C51_monotone"
   ],
   "note": "The minimum balance is the exact sum capped at 2^64-1; monotone in every component."
  },
  {
   "property": "C52",
   "status": "partial",
   "theorems": [
    "Verif.Props.C52_crashes",
    "Verif.Props.C52_crashes_iff",
    "Verif.Props.C52_normalized_partial",
    "Verif.Props.C52_not_online",
    "Verif.Props.C52_order_violated"
   ],
   "note": "Violated: C52_crashes (18.5 million algos crash, C52_crashes_iff says exactly when) and C52_order_violated (order can be reversed for different rewards bases). Proved for products below 2^64 and equal rewards bases."
  },
  {
   "property": "C53",
   "status": "proved",
   "theorems": [
    "Verif.Props.C53_add_laws",
    "Verif.Props.C53_monotone",
    "Verif.Props.C53_price_additive",
    "Verif.Props.C53_sub_add"
   ],
   "note": "Saturating, commutative, associative, monotone, invertible exactly without saturation, price additive."
  },
  {
   "property": "C54",
   "status": "proved",
   "theorems": [
    "Verif.Props.C54_conversion",
    "Verif.Props.C54_order",
    "Verif.Props.C54_valid_iff"
   ],
   "note": "Exact characterisation of validity, independent of order; conversions round trip for values made by the constructors."
  },
  {
   "property": "C55",
   "status": "partial",
   "theorems": [
    "Verif.Props.C55_equal_in_every_round",
    "Verif.Props.C55_equal_partial",
    "Verif.Props.C55_excluded_forever",
    "Verif.Props.C55_output_hashed_partial",
    "Verif.Props.C55_same_in_every_round"
   ],
   "note": "Violated from v16 on (credential domain separation): C55_same_in_every_round, C55_excluded_forever, because the VRF output is skipped by the encoder. Proved without domain separation, also for comparison with == (C55_equal_partial, which with domain separation still tells members apart)."
  },
  {
   "property": "C56",
   "status": "partial",
   "theorems": [
    "Verif.Props.C56_last_unit_ignored",
    "Verif.Props.C56_minimum_partial",
    "Verif.Props.C56_weight_one_empty",
    "Verif.Props.C56_weight_one_wins"
   ],
   "note": "Violated: weight one gives 0 (C56_weight_one_empty, C56_weight_one_wins) and the last unit never counts (C56_last_unit_ignored). Proved: exact minimum over units 1..w-1."
  },
  {
   "property": "C57",
   "status": "proved",
   "theorems": [
    "Verif.Props.C57_exact",
    "Verif.Props.C57_least_count",
    "Verif.Props.C57_monotone"
   ],
   "note": "For arbitrary floating point operations, and in exact arithmetic with the binomial distribution; C182 for double precision."
  },
  {
   "property": "C58",
   "status": "proved",
   "theorems": [
    "Verif.Props.C58_accepted",
    "Verif.Props.C58_curve25519",
    "Verif.Props.C58_own_credential",
    "Verif.Props.C58_rejections",
    "Verif.Props.C58_selected"
   ],
   "note": "Soundness, completeness for the key owner, and rejections. C58_curve25519: on Curve25519, without assumptions about the curve."
  },
  {
   "property": "C59",
   "status": "partial",
   "theorems": [
    "Verif.Props.C59_crash_iff_partial",
    "Verif.Props.C59_exact_partial",
    "Verif.Props.C59_full_claim_false",
    "Verif.Props.C59_merge_crashes",
    "Verif.Props.C59_merge_order_dependent",
    "Verif.Props.C59_merge_partial",
    "Verif.Props.C59_order_independent_partial"
   ],
   "note": "Violated: C59_merge_crashes and C59_merge_order_dependent give override sets that crash or give different tables depending on the iteration order. C59_exact_partial: exactly the override sets are merged as documented in every order that do not delete a version with an upgrade to a deleted one and do not override it with this upgrade; C59_crash_iff_partial: exactly which orders crash."
  },
  {
   "property": "C60",
   "status": "partial",
   "theorems": [
    "Verif.Props.C60_empty_save_leaves_file",
    "Verif.Props.C60_save_load_partial"
   ],
   "note": "Violated: an empty save recreates the file it just removed and fails when there was none. Proved: that file has no effect on loading, and non-empty sets save and load as the merge."
  },
  {
   "property": "C61",
   "status": "proved",
   "theorems": [
    "Verif.Props.C61_names_distinct",
    "Verif.Props.C61_paths_end_in_v30",
    "Verif.Props.C61_rows_coherent",
    "Verif.Props.C61_v30_reachable"
   ],
   "note": "Whole transcribed table; paths by induction. Also delays in window, names fit, thresholds above one half."
  },
  {
   "property": "C62",
   "status": "partial",
   "theorems": [
    "Verif.Props.C62_names",
    "Verif.Props.C62_names_distinct",
    "Verif.Props.C62_others_unchanged",
    "Verif.Props.C62_partkey_partial",
    "Verif.Props.C62_recognised_sound",
    "Verif.Props.C62_root_never_recognised",
    "Verif.Props.C62_rootkey_partial",
    "Verif.Props.C62_violated"
   ],
   "note": "Violated: C62_violated (suffix stripped repeatedly) and C62_root_never_recognised. Proved: exact condition for part keys, soundness, distinct names, others unchanged."
  },
  {
   "property": "C63",
   "status": "proved",
   "theorems": [
    "Verif.Props.C63_field_names",
    "Verif.Props.C63_loads",
    "Verif.Props.C63_relay"
   ],
   "note": "Exact condition for loading an object; JSON text parsing is a parameter."
  },
  {
   "property": "C64",
   "status": "proved",
   "theorems": [
    "Verif.Props.C64_network_inserted",
    "Verif.Props.C64_no_empty"
   ],
   "note": "All identifiers and networks."
  },
  {
   "property": "C65",
   "status": "proved",
   "theorems": [
    "Verif.Props.C65_errors",
    "Verif.Props.C65_spender_iff"
   ],
   "note": "Exact characterisation."
  },
  {
   "property": "C66",
   "status": "partial",
   "theorems": [
    "Verif.Props.C66_determined_partial",
    "Verif.Props.C66_flags_collide"
   ],
   "note": "Violated: C66_flags_collide, the two single-flag entries encode alike. Proved: the encoding determines transaction, apply data and the number of flags, exactly."
  },
  {
   "property": "C67",
   "status": "partial",
   "theorems": [
    "Verif.Props.C67_any_lost",
    "Verif.Props.C67_sender_lost",
    "Verif.Props.C67_signed_lost",
    "Verif.Props.C67_survivors_partial",
    "Verif.Props.C67_transaction_partial"
   ],
   "note": "Violated: C67_signed_lost (nothing signed with Transaction::sign decodes), C67_any_lost, C67_sender_lost. Proved: exact set of values that survive."
  },
  {
   "property": "C68",
   "status": "proved",
   "theorems": [
    "Verif.Props.C68_node_roundtrip",
    "Verif.Props.C68_serialize_injective"
   ],
   "note": "Round trip of every node and injectivity of the stored form."
  },
  {
   "property": "C69",
   "status": "partial",
   "theorems": [
    "Verif.Props.C69_never_an_error",
    "Verif.Props.C69_rate_partial",
    "Verif.Props.C69_underfunded_accepted"
   ],
   "note": "Violated: never an error (C69_never_an_error), underfunded pools are accepted, a missing pool crashes. Proved: the rate is the largest the pool can pay."
  },
  {
   "property": "C70",
   "status": "proved",
   "theorems": [
    "Verif.Props.C70_comma_lists_unambiguous",
    "Verif.Props.C70_tags_wellformed"
   ],
   "note": "Whole tag table, all lists of tags."
  },
  {
   "property": "C71",
   "status": "partial",
   "theorems": [
    "Verif.Props.C71_add_sigs_any_outcome_partial",
    "Verif.Props.C71_add_sigs_success",
    "Verif.Props.C71_not_atomic"
   ],
   "note": "Violated: C71_not_atomic shows a failed add_sigs that leaves new signatures behind. Proved: exact effect on success; on failure existing signatures, keys and parameters are kept and nothing is invented."
  },
  {
   "property": "C72",
   "status": "proved",
   "theorems": [
    "Verif.Props.C72_app_addresses"
   ],
   "note": "All indices below 2^64 and any hash."
  },
  {
   "property": "C73",
   "status": "proved",
   "theorems": [
    "Verif.Props.C73_names_distinct",
    "Verif.Props.C73_status_names"
   ],
   "note": "All strings."
  },
  {
   "property": "C74",
   "status": "partial",
   "theorems": [
    "Verif.Props.C74_claim_false",
    "Verif.Props.C74_domain_partial",
    "Verif.Props.C74_hash_binds_nothing"
   ],
   "note": "Violated: the hashed body is empty, all records hash alike (C74_hash_binds_nothing, C74_claim_false). Proved: domain separation only."
  },
  {
   "property": "C75",
   "status": "proved",
   "theorems": [
    "Verif.Props.C75_counts_total",
    "Verif.Props.C75_schema_counts"
   ],
   "note": "All stores with fewer than 2^64 entries."
  },
  {
   "property": "C79",
   "status": "proved",
   "theorems": [
    "Verif.Props.C79_next_round",
    "Verif.Props.C79_total",
    "Verif.Props.C79_upgrade_announced"
   ],
   "note": "All sound states and all continuations."
  },
  {
   "property": "C76",
   "status": "partial",
   "theorems": [
    "Verif.Props.C76_not_repeatable",
    "Verif.Props.C76_parent_overwritten",
    "Verif.Props.C76_repeat_iff_partial",
    "Verif.Props.C76_rest_kept_partial"
   ],
   "note": "Violated: C76_parent_overwritten for every accepted header, C76_not_repeatable for a valid child that is rejected the second time. C76_repeat_iff_partial: exactly which accepted headers are accepted again; C76_rest_kept_partial: the rest of the parent is kept."
  },
  {
   "property": "C77",
   "status": "partial",
   "theorems": [
    "Verif.Props.C77_answers_partial",
    "Verif.Props.C77_crashes"
   ],
   "note": "Violated: C77_crashes, every undecodable entry under a Merkle commitment. Proved: exact answer for blocks whose entries decode."
  },
  {
   "property": "C80",
   "status": "partial",
   "theorems": [
    "Verif.Props.C80_dash_collides",
    "Verif.Props.C80_exact_partial",
    "Verif.Props.C80_genesis_id_partial"
   ],
   "note": "Violated for network names with a dash (C80_dash_collides). C80_exact_partial: exactly which configurations share an id. Proved for names without a dash."
  },
  {
   "property": "C81",
   "status": "partial",
   "theorems": [
    "Verif.Props.C81_exact_partial",
    "Verif.Props.C81_flags_ignored",
    "Verif.Props.C81_unique_form_partial"
   ],
   "note": "Violated for protocols that store transactions unchanged (C81_flags_ignored). C81_exact_partial: exactly the headers under which every transaction has one stored form."
  },
  {
   "property": "C82",
   "status": "partial",
   "theorems": [
    "Verif.Props.C82_digest_binds_body_partial",
    "Verif.Props.C82_digest_concrete_partial",
    "Verif.Props.C82_upgrade_state_unbound"
   ],
   "note": "Violated: C82_upgrade_state_unbound. Proved for all other fields, also with the concrete MessagePack encoding (C82_digest_concrete_partial)."
  },
  {
   "property": "C78",
   "status": "partial",
   "theorems": [
    "Verif.Props.C78_builtin_merkle_binds",
    "Verif.Props.C78_flat_ambiguous",
    "Verif.Props.C78_flat_binds_partial",
    "Verif.Props.C78_merkle_binds",
    "Verif.Props.C78_root_binds_array"
   ],
   "note": "Proved for Merkle commitments (all built-in protocols from v26) and flat ones that require the genesis hash (v16 to v25). Violated for v11 to v15: C78_flat_ambiguous."
  },
  {
   "property": "C83",
   "status": "proved",
   "theorems": [
    "Verif.Props.C83_tx_id_binds",
    "Verif.Props.C83_tx_id_kind"
   ],
   "note": "Concrete encoding; explicit collision otherwise."
  },
  {
   "property": "C84",
   "status": "proved",
   "theorems": [
    "Verif.Props.C84_group_id_binds",
    "Verif.Props.C84_same_tag_no_confusion",
    "Verif.Props.C84_vec_id_binds"
   ],
   "note": "Both kinds of id, and no confusion between them."
  },
  {
   "property": "C85",
   "status": "partial",
   "theorems": [
    "Verif.Props.C85_long_forms",
    "Verif.Props.C85_prefix_free_partial",
    "Verif.Props.C85_signed_prefix_free_partial",
    "Verif.Props.C85_trailing_ignored",
    "Verif.Props.C85_two_strings"
   ],
   "note": "Violated: C85_trailing_ignored, C85_two_strings, C85_long_forms. Proved: what is written is injective and prefix free."
  },
  {
   "property": "C86",
   "status": "partial",
   "theorems": [
    "Verif.Props.C86_digest_differs",
    "Verif.Props.C86_exact_partial",
    "Verif.Props.C86_order_matters",
    "Verif.Props.C86_small_maps_partial"
   ],
   "note": "Violated: C86_order_matters, C86_digest_differs. C86_exact_partial: exactly the apply data without a map of two entries, anywhere inside, have one encoding."
  },
  {
   "property": "C87",
   "status": "proved",
   "theorems": [
    "Verif.Props.C87_certificates_name_slot"
   ],
   "note": "Concrete encoding of the identifiers."
  },
  {
   "property": "C88",
   "status": "proved",
   "theorems": [
    "Verif.Props.C88_larger_committee",
    "Verif.Props.C88_larger_total",
    "Verif.Props.C88_more_stake",
    "Verif.Props.C88_share_of_draws"
   ],
   "note": "In exact rational arithmetic; C182 bounds what rounding to f64 can change, given the accuracy of statrs."
  },
  {
   "property": "C89",
   "status": "proved",
   "theorems": [
    "Verif.Props.C89_digest",
    "Verif.Props.C89_strict_order"
   ],
   "note": "All credentials made by verification."
  },
  {
   "property": "C90",
   "status": "partial",
   "theorems": [
    "Verif.Props.C90_restored_partial",
    "Verif.Props.C90_violated"
   ],
   "note": "Violated: C90_violated, importing a 32-byte seed always panics. Proved for 64-byte key pairs."
  },
  {
   "property": "C91",
   "status": "partial",
   "theorems": [
    "Verif.Props.C91_last_wins",
    "Verif.Props.C91_single_partial",
    "Verif.Props.C91_violated"
   ],
   "note": "Violated: C91_violated, all participations share one store entry. Proved for a single managed participation."
  },
  {
   "property": "C92",
   "status": "partial",
   "theorems": [
    "Verif.Props.C92_deletes_partial",
    "Verif.Props.C92_exact_partial",
    "Verif.Props.C92_violated"
   ],
   "note": "Violated: C92_violated, headers made here have no compact certificate entry. C92_exact_partial: exactly when the keys are deleted, away from the last rounds of 64 bits."
  },
  {
   "property": "C93",
   "status": "proved",
   "theorems": [
    "Verif.Props.C93_registers",
    "Verif.Props.C93_round_zero_refused"
   ],
   "note": "For registered intervals that end after round 0; round 0 alone is refused by the coherence check (C93_round_zero_refused)."
  },
  {
   "property": "C94",
   "status": "partial",
   "theorems": [
    "Verif.Props.C94_full_file_partial",
    "Verif.Props.C94_violated"
   ],
   "note": "Violated: C94_violated, every setting must be present and nothing is merged. Proved for complete files."
  },
  {
   "property": "C95",
   "status": "partial",
   "theorems": [
    "Verif.Props.C95_never_entries",
    "Verif.Props.C95_saved_partial",
    "Verif.Props.C95_violated"
   ],
   "note": "Violated for all entries: C95_violated, C95_never_entries. Proved: saving writes the entries in order and touches no other file."
  },
  {
   "property": "C96",
   "status": "partial",
   "theorems": [
    "Verif.Props.C96_unchanged_partial",
    "Verif.Props.C96_violated"
   ],
   "note": "Violated: C96_violated, save_to_file writes nothing. Proved: settings read from the file and saved back unchanged are loaded back (C96_unchanged_partial)."
  },
  {
   "property": "C97",
   "status": "proved",
   "theorems": [
    "Verif.Props.C97_flags",
    "Verif.Props.C97_modes"
   ],
   "note": "All flag words."
  },
  {
   "property": "C98",
   "status": "proved",
   "theorems": [
    "Verif.Props.C98_add_exact",
    "Verif.Props.C98_reward_units",
    "Verif.Props.C98_reward_units_split"
   ],
   "note": "Overflow is modelled as an explicit failure (checked arithmetic, as in builds with overflow checks)."
  },
  {
   "property": "C99",
   "status": "proved",
   "theorems": [
    "Verif.Props.C99_is_zero",
    "Verif.Props.C99_trim_bytes",
    "Verif.Props.C99_trim_prefix"
   ],
   "note": ""
  },
  {
   "property": "C100",
   "status": "proved",
   "theorems": [
    "Verif.Props.C100_unforgeable"
   ],
   "note": "For the MessagePack encoding of the certificates. Unforgeability and freshness of the keys of the run are hypotheses; sequential calls."
  },
  {
   "property": "C101",
   "status": "proved",
   "theorems": [
    "Verif.Props.C101_accepted_iff"
   ],
   "note": "Exact acceptance condition of pre_check; the two size conditions only exclude overflow of u64, which panics."
  },
  {
   "property": "C102",
   "status": "proved",
   "theorems": [
    "Verif.Props.C102_chain_consistent",
    "Verif.Props.C102_digest_determines_chain",
    "Verif.Props.C102_genesis_hash",
    "Verif.Props.C102_time"
   ],
   "note": "For the MessagePack encoding of the code and any hash; concludes equality of chains or an explicit collision."
  },
  {
   "property": "C103",
   "status": "proved",
   "theorems": [
    "Verif.Props.C103_new_block"
   ],
   "note": "The vote: with no proposal pending the code's own proposal is always refused (C31), so an assembled block never proposes."
  },
  {
   "property": "C104",
   "status": "partial",
   "theorems": [
    "Verif.Props.C104_genesis_block",
    "Verif.Props.C104_genesis_contents_partial",
    "Verif.Props.C104_newest_genesis_mismatch"
   ],
   "note": "Fields proved. Contents: under the Merkle commitment (the newest protocol) the genesis block does not match its own header, because the genesis root is always the flat commitment (C104_newest_genesis_mismatch)."
  },
  {
   "property": "C105",
   "status": "proved",
   "theorems": [
    "Verif.Props.C105_leaves"
   ],
   "note": ""
  },
  {
   "property": "C106",
   "status": "proved",
   "theorems": [
    "Verif.Props.C106_key_dilution",
    "Verif.Props.C106_rewards_keep_stake",
    "Verif.Props.C106_voting_stake"
   ],
   "note": ""
  },
  {
   "property": "C107",
   "status": "proved",
   "theorems": [
    "Verif.Props.C107_amount_and_receiver",
    "Verif.Props.C107_logicsig_size"
   ],
   "note": ""
  },
  {
   "property": "C108",
   "status": "proved",
   "theorems": [
    "Verif.Props.C108_only_sender",
    "Verif.Props.C108_reserved_sender"
   ],
   "note": ""
  },
  {
   "property": "C109",
   "status": "partial",
   "theorems": [
    "Verif.Props.C109_reopened_is_empty",
    "Verif.Props.C109_starts_empty_partial",
    "Verif.Props.C109_violated"
   ],
   "note": "Violated for every non-empty trie: C109_violated, C109_reopened_is_empty. Proved: the left-over nodes do no harm, a trie on any storage behaves like a set that starts empty."
  },
  {
   "property": "C110",
   "status": "proved",
   "theorems": [
    "Verif.Props.C110_export",
    "Verif.Props.C110_generate",
    "Verif.Props.C110_import",
    "Verif.Props.C110_import_export",
    "Verif.Props.C110_one_name_loses_key"
   ],
   "note": "SHA-512/256 and the derivation of public keys are parameters of known output size. With one name for both files the key is overwritten (C110_one_name_loses_key)."
  },
  {
   "property": "C111",
   "status": "partial",
   "theorems": [
    "Verif.Props.C111_export_partial",
    "Verif.Props.C111_invalid_phrase_partial",
    "Verif.Props.C111_violated"
   ],
   "note": "Violated for write failures: C111_violated, the commands end normally and the key is in no file. Proved for invalid phrases and key files."
  },
  {
   "property": "C112",
   "status": "partial",
   "theorems": [
    "Verif.Props.C112_key_refused",
    "Verif.Props.C112_never_signs",
    "Verif.Props.C112_one_source_partial"
   ],
   "note": "Violated always: C112_never_signs, C112_key_refused. Proved: giving both sources or none is refused."
  },
  {
   "property": "C113",
   "status": "proved",
   "theorems": [
    "Verif.Props.C113_batches",
    "Verif.Props.C113_default_dilution",
    "Verif.Props.C113_every_batches",
    "Verif.Props.C113_every_interval",
    "Verif.Props.C113_given_dilution"
   ],
   "note": "Floating point conversion and square root are modelled with correct rounding (IEEE 754 binary64, ties to even). Below 2^52 exact (C113_default_dilution); for every interval the root is the whole root or one more (C113_every_interval), and the number of batch keys is at most one more than the dilution (C113_every_batches)."
  },
  {
   "property": "C114",
   "status": "proved",
   "theorems": [
    "Verif.Props.C114_failure_stores_nothing",
    "Verif.Props.C114_generates",
    "Verif.Props.C114_info_after_generate"
   ],
   "note": "For last + 1 < 2^64 and fewer than 2^32 batch keys (the limit of MessagePack arrays)."
  },
  {
   "property": "C115",
   "status": "partial",
   "theorems": [
    "Verif.Props.C115_no_keys_panics",
    "Verif.Props.C115_reparent_reports_partial",
    "Verif.Props.C115_violated"
   ],
   "note": "Violated: C115_violated, C115_no_keys_panics. Proved: reparent reports texts of the length of an address that are not one."
  },
  {
   "property": "C116",
   "status": "proved",
   "theorems": [
    "Verif.Props.C116_reparent"
   ],
   "note": ""
  },
  {
   "property": "C117",
   "status": "partial",
   "theorems": [
    "Verif.Props.C117_same_name_partial",
    "Verif.Props.C117_second_replaces_first",
    "Verif.Props.C117_violated"
   ],
   "note": "Violated: C117_violated, C117_second_replaces_first: the file name is not used."
  },
  {
   "property": "C118",
   "status": "proved",
   "theorems": [
    "Verif.Props.C118_other_keys_refused",
    "Verif.Props.C118_positions",
    "Verif.Props.C118_reads",
    "Verif.Props.C118_reads_signed",
    "Verif.Props.C118_signed_well_formed",
    "Verif.Props.C118_twice_refused",
    "Verif.Props.C118_well_formed"
   ],
   "note": "Extension types and the nesting limit of rmp-serde are not modelled, nor variants written as maps, nor the width in which integers used as keys (positions of fields) are written; text fields must be UTF-8 (utf8_iff)."
  },
  {
   "property": "C119",
   "status": "proved",
   "theorems": [
    "Verif.Props.C119_reader",
    "Verif.Props.C119_representable",
    "Verif.Props.C119_unambiguous",
    "Verif.Props.C119_writer"
   ],
   "note": "Extension types and the nesting limit of rmp-serde are not modelled; floats are kept as their bytes."
  },
  {
   "property": "C120",
   "status": "proved",
   "theorems": [
    "Verif.Props.C120_writes",
    "Verif.Props.C120_writes_signed"
   ],
   "note": ""
  },
  {
   "property": "C121",
   "status": "partial",
   "theorems": [
    "Verif.Props.C121_distinct_partial",
    "Verif.Props.C121_violated"
   ],
   "note": "Violated: C121_violated, for every transaction with a sender and a fee. Proved: no field is written twice."
  },
  {
   "property": "C122",
   "status": "proved",
   "theorems": [
    "Verif.Props.C122_hash_identifies",
    "Verif.Props.C122_no_other_object"
   ],
   "note": "SHA-512/256 is a parameter; equal hashes give equal data or an explicit collision. Data within the ranges of its types (strings UTF-8, fewer than 2^32 entries, no key twice in a map)."
  },
  {
   "property": "C123",
   "status": "partial",
   "theorems": [
    "Verif.Props.C123_all_violated",
    "Verif.Props.C123_exact_partial",
    "Verif.Props.C123_small_maps_partial",
    "Verif.Props.C123_violated"
   ],
   "note": "Violated: C123_violated, and C123_all_violated for all genesis data with a map of two entries. C123_exact_partial: exactly the genesis data without such a map have one encoding."
  },
  {
   "property": "C124",
   "status": "partial",
   "theorems": [
    "Verif.Props.C124_load_saved_partial",
    "Verif.Props.C124_violated"
   ],
   "note": "Violated for any allocation unless rmp-serde hands out byte strings as arrays (parameter binAsSeq): C124_violated. The theorem gives the result exactly."
  },
  {
   "property": "C125",
   "status": "partial",
   "theorems": [
    "Verif.Props.C125_only_genesis_partial",
    "Verif.Props.C125_violated"
   ],
   "note": "Violated: C125_violated, missing files and every text file (in particular JSON) crash. Proved: nothing but genesis data is loaded."
  },
  {
   "property": "C126",
   "status": "proved",
   "theorems": [
    "Verif.Props.C126_loads",
    "Verif.Props.C126_other_keys_refused",
    "Verif.Props.C126_positions",
    "Verif.Props.C126_written"
   ],
   "note": "Extension types and the nesting limit of rmp-serde are not modelled, nor variants written as maps, nor the width in which integers used as keys are written."
  },
  {
   "property": "C127",
   "status": "proved",
   "theorems": [
    "Verif.Props.C127_answers_right"
   ],
   "note": "A failed write is assumed to leave the stored contents as they were."
  },
  {
   "property": "C128",
   "status": "partial",
   "theorems": [
    "Verif.Props.C128_early_partial",
    "Verif.Props.C128_queries_partial",
    "Verif.Props.C128_root_hash_partial",
    "Verif.Props.C128_violated",
    "Verif.Props.C128_violated_delete",
    "Verif.Props.C128_violated_root_hash",
    "Verif.Props.C128_violated_silently"
   ],
   "note": "Violated: C128_violated, C128_violated_root_hash, C128_violated_silently, C128_violated_delete (crash, or a wrong root hash, after a failed add or delete). Proved for failed calls that would not change the set, in particular root_hash, and (C128_early_partial) for calls that fail while they search, before their first store."
  },
  {
   "property": "C129",
   "status": "partial",
   "theorems": [
    "Verif.Props.C129_reported_partial",
    "Verif.Props.C129_violated",
    "Verif.Props.C129_violated_after"
   ],
   "note": "Violated: C129_violated, the first add panics and leaves an unusable trie (C129_violated_after). Proved for all other calls."
  },
  {
   "property": "C130",
   "status": "partial",
   "theorems": [
    "Verif.Props.C130_digest_partial",
    "Verif.Props.C130_read_back_partial",
    "Verif.Props.C130_violated",
    "Verif.Props.C130_violated_check"
   ],
   "note": "Violated: C130_violated (the upgrade state is not written), C130_violated_check (an accepted header is refused after being sent). Proved: every other field is read back, and the digest is the same, provided that rmp-serde hands out byte strings as arrays (parameter binAsSeq)."
  },
  {
   "property": "C131",
   "status": "proved",
   "theorems": [
    "Verif.Props.C131_positions",
    "Verif.Props.C131_reads",
    "Verif.Props.C131_sizes"
   ],
   "note": "Relative to the MessagePack reader of C119. The upgrade state of what is read is always the default."
  },
  {
   "property": "C132",
   "status": "partial",
   "theorems": [
    "Verif.Props.C132_lost",
    "Verif.Props.C132_read_back_partial",
    "Verif.Props.C132_survivors_partial",
    "Verif.Props.C132_violated_silently"
   ],
   "note": "Violated: C132_lost (nothing is read unless each transaction has all three signatures), C132_violated_silently (the genesis hash flag alone is read as the genesis id flag). The theorems say exactly what is read."
  },
  {
   "property": "C133",
   "status": "proved",
   "theorems": [
    "Verif.Props.C133_reads",
    "Verif.Props.C133_written"
   ],
   "note": "Relative to the MessagePack grammar of C119. The nesting limit of rmp-serde is not modelled."
  },
  {
   "property": "C134",
   "status": "partial",
   "theorems": [
    "Verif.Props.C134_right_iff_partial",
    "Verif.Props.C134_signed_length",
    "Verif.Props.C134_violated",
    "Verif.Props.C134_violated_above"
   ],
   "note": "Violated: C134_violated (the estimate is the constant 200, too low for every note of 133 bytes or more), C134_violated_above. The exact size with a plain signature is proved, and the transactions for which the estimate is right."
  },
  {
   "property": "C135",
   "status": "partial",
   "theorems": [
    "Verif.Props.C135_first_use_partial",
    "Verif.Props.C135_no_home",
    "Verif.Props.C135_violated",
    "Verif.Props.C135_violated_not_there"
   ],
   "note": "Violated: C135_violated (the first call fails if ~/.algorand is there already; later calls succeed), C135_violated_not_there. Proved for a directory that is not there and can be created, and without a home directory."
  },
  {
   "property": "C136",
   "status": "partial",
   "theorems": [
    "Verif.Props.C136_absolute",
    "Verif.Props.C136_calls_partial",
    "Verif.Props.C136_one_writer_partial",
    "Verif.Props.C136_path",
    "Verif.Props.C136_program_order",
    "Verif.Props.C136_restore_partial",
    "Verif.Props.C136_violated_threads",
    "Verif.Props.C136_violated_unset"
   ],
   "note": "Violated between threads: C136_violated_threads (two overrides; the lock is released between reading and writing), C136_violated_unset (an override and a query, no root set yet). Proved for all interleavings of any number of threads of which one overrides, and for calls one after the other."
  },
  {
   "property": "C137",
   "status": "proved",
   "theorems": [
    "Verif.Props.C137_config_of_dir",
    "Verif.Props.C137_separator"
   ],
   "note": "Paths are joined as on Unix; no file system links."
  },
  {
   "property": "C138",
   "status": "partial",
   "theorems": [
    "Verif.Props.C138_phonebook_partial",
    "Verif.Props.C138_violated",
    "Verif.Props.C138_violated_panic"
   ],
   "note": "Violated: C138_violated (variables are expanded when saving but not when loading), C138_violated_panic (unset variables crash). shellexpand is a parameter. Proved for paths that the expansion does not change."
  },
  {
   "property": "C139",
   "status": "proved",
   "theorems": [
    "Verif.Props.C139_length_in_block",
    "Verif.Props.C139_wrap",
    "Verif.Props.C139_written"
   ],
   "note": ""
  },
  {
   "property": "C140",
   "status": "proved",
   "theorems": [
    "Verif.Props.C140_emptied_is_new",
    "Verif.Props.C140_every_history",
    "Verif.Props.C140_reuse"
   ],
   "note": "No hypothesis on the lengths. Recursion over nodes has a depth budget in the model; the theorem shows it is never used up."
  },
  {
   "property": "C141",
   "status": "partial",
   "theorems": [
    "Verif.Props.C141_binds_partial",
    "Verif.Props.C141_violated"
   ],
   "note": "Violated: C141_violated (for every hash function four elements of 254 bytes and two of 510 bytes have the same root hash: child lengths are hashed modulo 256). Proved for members whose lengths are equal or differ modulo 256, mixed lengths allowed."
  },
  {
   "property": "C142",
   "status": "proved",
   "theorems": [
    "Verif.Props.C142_count",
    "Verif.Props.C142_history_independent",
    "Verif.Props.C142_shape"
   ],
   "note": ""
  },
  {
   "property": "C143",
   "status": "proved",
   "theorems": [
    "Verif.Props.C143_field_names",
    "Verif.Props.C143_names",
    "Verif.Props.C143_reads",
    "Verif.Props.C143_refines",
    "Verif.Props.C143_refuses",
    "Verif.Props.C143_saved_is_loaded"
   ],
   "note": "serde_json's text level is a parameter: hypothesis that the printed JSON value is parsed back (discharged for the modelled library in C152_overrides). What serde derives for the types is modelled."
  },
  {
   "property": "C144",
   "status": "partial",
   "theorems": [
    "Verif.Props.C144_deletes_partial",
    "Verif.Props.C144_global",
    "Verif.Props.C144_violated"
   ],
   "note": "Violated: C144_violated (a version with an empty object, or with any parameter missing, makes the whole file refused; in the working directory every use of CONSENSUS then crashes). Proved: an entry with all parameters and no approved upgrades deletes; without a file the built-in table is used."
  },
  {
   "property": "C145",
   "status": "partial",
   "theorems": [
    "Verif.Props.C145_alive",
    "Verif.Props.C145_builtin_partial",
    "Verif.Props.C145_fee_violated",
    "Verif.Props.C145_programs",
    "Verif.Props.C145_programs_violated",
    "Verif.Props.C145_reason_partial"
   ],
   "note": "Violated: C145_fee_violated (a fee equal to the minimum is called less than it), C145_programs_violated (programs too long together are reported with the limit for one). Proved for alive, and for every other error of is_well_formed; for the built-in protocols only the fee remains."
  },
  {
   "property": "C146",
   "status": "partial",
   "theorems": [
    "Verif.Props.C146_competing_violated",
    "Verif.Props.C146_deadline_violated",
    "Verif.Props.C146_fetch",
    "Verif.Props.C146_reason_partial",
    "Verif.Props.C146_round_swapped",
    "Verif.Props.C146_store_partial",
    "Verif.Props.C146_store_violated"
   ],
   "note": "Violated: C146_round_swapped (always), C146_competing_violated and C146_deadline_violated (without a next protocol), C146_store_violated (values of a mismatch exchanged). Proved for every other refusal."
  },
  {
   "property": "C147",
   "status": "partial",
   "theorems": [
    "Verif.Props.C147_block_partial",
    "Verif.Props.C147_cause",
    "Verif.Props.C147_deadline_violated",
    "Verif.Props.C147_hash_violated",
    "Verif.Props.C147_ids_violated",
    "Verif.Props.C147_payment_violated",
    "Verif.Props.C147_tx_partial"
   ],
   "note": "Violated: C147_hash_violated (expected genesis hash never shown), C147_payment_violated (one message for three refusals; their source() differs), C147_deadline_violated (values not shown), C147_ids_violated (ids with spaces). Proved for everything else."
  },
  {
   "property": "C148",
   "status": "partial",
   "theorems": [
    "Verif.Props.C148_add",
    "Verif.Props.C148_address",
    "Verif.Props.C148_assemble",
    "Verif.Props.C148_merge",
    "Verif.Props.C148_sign",
    "Verif.Props.C148_verify_partial",
    "Verif.Props.C148_verify_violated"
   ],
   "note": "Exact (iff) for from_pks and sign; for merge, add_sigs and assemble the reported fault is present with the reported values and every fault is refused. Violated for verify: C148_verify_violated (a blank first entry is reported as a wrong number of signatures although enough valid ones are there)."
  },
  {
   "property": "C149",
   "status": "partial",
   "theorems": [
    "Verif.Props.C149_assemble",
    "Verif.Props.C149_conflict_violated",
    "Verif.Props.C149_keeps"
   ],
   "note": "C149_assemble is the exact behaviour (the last signature given for a position wins); C149_keeps: without conflicts nothing is lost and the order does not matter. Violated: C149_conflict_violated (a valid signature is dropped in favour of a later invalid one, where merge and add_sigs refuse)."
  },
  {
   "property": "C150",
   "status": "partial",
   "theorems": [
    "Verif.Props.C150_base64",
    "Verif.Props.C150_hex",
    "Verif.Props.C150_multisig_message",
    "Verif.Props.C150_numbers",
    "Verif.Props.C150_participation",
    "Verif.Props.C150_txid",
    "Verif.Props.C150_type",
    "Verif.Props.C150_value_partial",
    "Verif.Props.C150_value_violated",
    "Verif.Props.C150_vrf_key"
   ],
   "note": "Violated for program values: C150_value_violated (bytes 0x12 and the number 12 have one text); proved within a type and for all other values. BASE64 and HEXLOWER are the external crate's, modelled after RFC 4648."
  },
  {
   "property": "C151",
   "status": "partial",
   "theorems": [
    "Verif.Props.C151_positions_partial",
    "Verif.Props.C151_reordered_violated"
   ],
   "note": "Violated: C151_reordered_violated (the list is sorted in place). Proved: the same positions with the same multiplicities, ascending lists unchanged, asking again gives the same."
  },
  {
   "property": "C152",
   "status": "proved",
   "theorems": [
    "Verif.Props.C152_nesting",
    "Verif.Props.C152_overrides",
    "Verif.Props.C152_overrides_refused",
    "Verif.Props.C152_phonebook",
    "Verif.Props.C152_reads",
    "Verif.Props.C152_unambiguous",
    "Verif.Props.C152_written"
   ],
   "note": "The reader and the pretty writer of serde_json are modelled after their published source (external crate). Simplified: floating point numbers have no value; skipped values are checked like others."
  },
  {
   "property": "C153",
   "status": "partial",
   "theorems": [
    "Verif.Props.C153_crashes",
    "Verif.Props.C153_panics_iff",
    "Verif.Props.C153_returns_partial"
   ],
   "note": "Violated: C153_panics_iff (exactly when the library refuses the quotient as a probability), C153_crashes (every expected size above the total stake). Proved otherwise, in exact arithmetic; C182_crash_iff says exactly when in double precision."
  },
  {
   "property": "C154",
   "status": "proved",
   "theorems": [
    "Verif.Props.C154_by_digest",
    "Verif.Props.C154_can_be_shown",
    "Verif.Props.C154_nothing_else"
   ],
   "note": "Protocols with Merkle commitment. The stored form is determined up to which of the two genesis flags is set (C66); the transaction exactly."
  },
  {
   "property": "C155",
   "status": "partial",
   "theorems": [
    "Verif.Props.C155_generate_partial",
    "Verif.Props.C155_generate_violated",
    "Verif.Props.C155_import",
    "Verif.Props.C155_new_parent",
    "Verif.Props.C155_persist",
    "Verif.Props.C155_restore",
    "Verif.Props.C155_restore_root"
   ],
   "note": "Violated: C155_generate_violated (fill_db_with_participation_keys unwraps the storage error). Proved for persisting, new parents, importing and restoring, and for generating without a failure. Accesses fail one by one by an arbitrary schedule; a failed insert stores nothing; a crash keeps a prefix of the inserts since the last flush."
  },
  {
   "property": "C156",
   "status": "partial",
   "theorems": [
    "Verif.Props.C156_history_partial",
    "Verif.Props.C156_manager_partial",
    "Verif.Props.C156_manager_writes",
    "Verif.Props.C156_memory",
    "Verif.Props.C156_participation_partial",
    "Verif.Props.C156_returns",
    "Verif.Props.C156_violated"
   ],
   "note": "Violated: C156_violated (AccountManager::delete_old_keys only logs the error, and the old keys are restored by the next start). Proved for one participation, over all histories and failures (C156_history_partial); for the manager: memory is independent of failures, and without a failure all writes are permanent (C156_manager_writes) and one participation is restored (several: C91)."
  },
  {
   "property": "C157",
   "status": "partial",
   "theorems": [
    "Verif.Props.C157_new_file",
    "Verif.Props.C157_private_partial",
    "Verif.Props.C157_refines",
    "Verif.Props.C157_violated"
   ],
   "note": "Violated: C157_violated (a file that exists keeps its permissions). Proved for new files and for files that are private already. C157_refines: the contents are those of Verif.Algokey."
  },
  {
   "property": "C158",
   "status": "partial",
   "theorems": [
    "Verif.Props.C158_key_partial",
    "Verif.Props.C158_key_violated",
    "Verif.Props.C158_never_misread_partial",
    "Verif.Props.C158_overrides_violated",
    "Verif.Props.C158_refines"
   ],
   "note": "Violated: C158_overrides_violated, C158_key_violated (the file is emptied before it is written). Proved: nothing but the old or the new contents is ever read, a file cut short is refused. Texts are cut between characters."
  },
  {
   "property": "C159",
   "status": "proved",
   "theorems": [
    "Verif.Props.C159_again",
    "Verif.Props.C159_changes",
    "Verif.Props.C159_counted",
    "Verif.Props.C159_total"
   ],
   "note": "C159_counted shows that the count is that of the accesses that can be observed by letting them fail. The model counts load_node and store_node; C127-C129 treat the accesses that fail."
  },
  {
   "property": "C160",
   "status": "partial",
   "theorems": [
    "Verif.Props.C160_memory_wins_partial",
    "Verif.Props.C160_violated"
   ],
   "note": "Violated: C160_violated (get_node loads from the storage before it looks whether the node is cached). Proved: the cached node is the one used."
  },
  {
   "property": "C161",
   "status": "partial",
   "theorems": [
    "Verif.Props.C161_crash_iff",
    "Verif.Props.C161_exact",
    "Verif.Props.C161_reported_partial",
    "Verif.Props.C161_violated",
    "Verif.Props.C161_written"
   ],
   "note": "Violated: C161_violated (the memory for the hash is allocated before the bytes are there; ten bytes panic with a capacity overflow on every machine). C161_exact: exactly the bytes of a grammar are read; C161_crash_iff: exact condition for the crash. Numbers are those of read_varint of integer-encoding 3.0.4 (ten bytes, modulo 2^64)."
  },
  {
   "property": "C162",
   "status": "partial",
   "theorems": [
    "Verif.Props.C162_cut_partial",
    "Verif.Props.C162_violated"
   ],
   "note": "Violated: C162_violated (the children have no count and no end mark). Proved: leaves cut short are refused; what is read from an inner node has its hash and a part of its children."
  },
  {
   "property": "C163",
   "status": "proved",
   "theorems": [
    "Verif.Props.C163_hash_to_curve"
   ],
   "note": "On the concrete curve (Model/Curve25519.lean). The map is the one of curve25519-dalek, written from the draft and the documentation of the crate; the repository's test vectors are run on it."
  },
  {
   "property": "C164",
   "status": "proved",
   "theorems": [
    "Verif.Props.C164_one_output",
    "Verif.Props.C164_same_output"
   ],
   "note": "Without assumptions about key, proof or curve. The exception is explicit (LuckyProof): a challenge, a hash of the commitments, equal to the only one that can be answered."
  },
  {
   "property": "C165",
   "status": "partial",
   "theorems": [
    "Verif.Props.C165_default_key_violated",
    "Verif.Props.C165_other_outputs_partial",
    "Verif.Props.C165_violated"
   ],
   "note": "Violated: C165_violated (the blank key: everybody has a proof for every message, always with the same output), C165_default_key_violated (VrfPublicKey::default(), for numbers whose challenge is a multiple of four). Proved for keys not of small order, up to explicit collisions of SHA-512 and lucky proofs. That proofs need the secret key is not proved (it rests on discrete logarithms)."
  },
  {
   "property": "C166",
   "status": "partial",
   "theorems": [
    "Verif.Props.C166_one_form_partial",
    "Verif.Props.C166_violated"
   ],
   "note": "Violated: C166_violated (the sign bit of a point with x = 0 is not looked at). Proved for points in canonical form."
  },
  {
   "property": "C167",
   "status": "proved",
   "theorems": [
    "Verif.Props.C167_accepts_iff",
    "Verif.Props.C167_fresh_nonce",
    "Verif.Props.C167_keys_read",
    "Verif.Props.C167_one_response",
    "Verif.Props.C167_sign_verifies",
    "Verif.Props.C167_strict_accepts_iff",
    "Verif.Props.C167_strict_and_lenient",
    "Verif.Props.C167_strict_iff",
    "Verif.Props.C167_strict_one_response"
   ],
   "note": "On the concrete curve and SHA-512 (Model/Ed25519.lean, written from RFC 8032; its test vectors are run). C21, C27, C47 and C17 follow for Ed25519 without assumptions about the scheme. The strict verification of one-time signatures accepts what was signed exactly if the nonce is not zero (C167_strict_iff). C167_fresh_nonce: different messages are signed with different nonces, up to an explicit coincidence of SHA-512. The strict verification is characterised exactly (C167_strict_accepts_iff) and related to the other one (C167_strict_and_lenient); C167_keys_read: which bytes are read as keys and signatures."
  },
  {
   "property": "C168",
   "status": "partial",
   "theorems": [
    "Verif.Props.C168_blank_key_violated",
    "Verif.Props.C168_multisig_violated",
    "Verif.Props.C168_one_time_partial",
    "Verif.Props.C168_strict_partial",
    "Verif.Props.C168_zero_address_violated"
   ],
   "note": "Violated: C168_blank_key_violated, C168_multisig_violated, C168_zero_address_violated (BatchVerifier and multisignatures do not verify strictly). Proved for one-time signatures (C168_strict_partial, C168_one_time_partial): no key of small order is accepted."
  },
  {
   "property": "C169",
   "status": "partial",
   "theorems": [
    "Verif.Props.C169_blank_key_registered",
    "Verif.Props.C169_blank_key_violated",
    "Verif.Props.C169_fresh_partial"
   ],
   "note": "Violated: C169_blank_key_violated (the blank selection key: the same seats for every selector, and everybody can show them), C169_blank_key_registered (it can be registered). Proved without domain separation for keys made from seeds, up to explicit collisions and lucky proofs; with domain separation C55 refutes it for all keys."
  },
  {
   "property": "C170",
   "status": "partial",
   "theorems": [
    "Verif.Props.C170_cert_refused_violated",
    "Verif.Props.C170_cert_sender_violated",
    "Verif.Props.C170_prefixes_partial",
    "Verif.Props.C170_violated"
   ],
   "note": "Violated: C170_violated (\"prog_data\" and \"special_addr\" instead of \"ProgData\" and \"SpecialAddr\"), C170_cert_sender_violated (concretely, with SHA-512/256), C170_cert_refused_violated. Proved for the other 30 kinds and all tags. The specification is the table of go-algorand, which the repository says it is a clone of."
  },
  {
   "property": "C171",
   "status": "partial",
   "theorems": [
    "Verif.Props.C171_intact",
    "Verif.Props.C171_leak_violated",
    "Verif.Props.C171_record_partial",
    "Verif.Props.C171_root_violated",
    "Verif.Props.C171_signs_iff",
    "Verif.Props.C171_subkey_violated",
    "Verif.Props.C171_vrf_violated"
   ],
   "note": "Violated: C171_root_violated and C171_subkey_violated (a record with any secret half is restored without an error, and what it signs is refused), C171_vrf_violated (the same for selection keys), C171_leak_violated (two signatures of one message by pairs with the same secret half and different public halves give the secret scalar away). Proved: exactly which records are restored (C171_record_partial), exactly when a restored pair signs for its address (C171_signs_iff), intact pairs sign as their secret key does (C171_intact)."
  },
  {
   "property": "C172",
   "status": "proved",
   "theorems": [
    "Verif.Props.C172_names",
    "Verif.Props.C172_parameters"
   ],
   "note": "The specification is a history per parameter (when it was set, to what), written down separately from the table, which derives each version from the one before. Its values are those of go-algorand, which the repository says it is a clone of. All 31 versions, 98 parameters."
  },
  {
   "property": "C173",
   "status": "proved",
   "theorems": [
    "Verif.Props.C173_defaults",
    "Verif.Props.C173_file",
    "Verif.Props.C173_meaning"
   ],
   "note": "The specification lists the switches that are on, the texts that are not empty, the numbers that are not zero and the times, as in go-algorand. The version of the settings is 0 (the source says that it need not be that of go-algorand)."
  },
  {
   "property": "C174",
   "status": "proved",
   "theorems": [
    "Verif.Props.C174_backup",
    "Verif.Props.C174_spends"
   ],
   "note": "All seeds and file systems; the digest, word list and curve are the concrete ones, nothing is assumed about them. Reading files is the model of C110; Ed25519 is the model of C167."
  },
  {
   "property": "C175",
   "status": "partial",
   "theorems": [
    "Verif.Props.C175_crash_iff_partial",
    "Verif.Props.C175_reported_partial",
    "Verif.Props.C175_restored_partial",
    "Verif.Props.C175_root_partial",
    "Verif.Props.C175_violated"
   ],
   "note": "Violated: C175_violated (the records of fixed size are unwrapped, so a missing or cut record crashes; so does an empty store). Exactly which stores give which participation (C175_restored_partial), which damage is reported (C175_reported_partial) and which crashes (C175_crash_iff_partial). The root key is restored without a crash from any store (C175_root_partial)."
  },
  {
   "property": "C176",
   "status": "proved",
   "theorems": [
    "Verif.Props.C176_contents",
    "Verif.Props.C176_length",
    "Verif.Props.C176_one_proof",
    "Verif.Props.C176_same_length"
   ],
   "note": "C176_contents: exactly which hashes, in which order. C176_length: how many. C176_one_proof, C176_same_length: any accepted proof for claims about objects is the one `prove` returns, or explicit strings that were hashed collide (or hash to the zero digest)."
  },
  {
   "property": "C177",
   "status": "partial",
   "theorems": [
    "Verif.Props.C177_addAmount_partial",
    "Verif.Props.C177_applyUpgradeVote_partial",
    "Verif.Props.C177_balance_exact",
    "Verif.Props.C177_deleteBefore_partial",
    "Verif.Props.C177_deleteOldKeys_partial",
    "Verif.Props.C177_feeCredit_partial",
    "Verif.Props.C177_fillDb_partial",
    "Verif.Props.C177_generate_partial",
    "Verif.Props.C177_indexByAddress_partial",
    "Verif.Props.C177_indexByAppId_partial",
    "Verif.Props.C177_isWellFormed_partial",
    "Verif.Props.C177_manager_partial",
    "Verif.Props.C177_money_partial",
    "Verif.Props.C177_newBlock_partial",
    "Verif.Props.C177_newTimestamp_partial",
    "Verif.Props.C177_nextRound_partial",
    "Verif.Props.C177_nextState_partial",
    "Verif.Props.C177_nextVersionInfo_partial",
    "Verif.Props.C177_normalizedOnlineBalance_partial",
    "Verif.Props.C177_normalized_crash_iff",
    "Verif.Props.C177_partGenerate_partial",
    "Verif.Props.C177_pendingRewards_partial",
    "Verif.Props.C177_preCheck_partial",
    "Verif.Props.C177_processUpgradeParams_partial",
    "Verif.Props.C177_roundUp_partial",
    "Verif.Props.C177_sign_partial",
    "Verif.Props.C177_toStateSchema_partial",
    "Verif.Props.C177_violated_balance",
    "Verif.Props.C177_violated_delete",
    "Verif.Props.C177_violated_generate",
    "Verif.Props.C177_violated_keyreg",
    "Verif.Props.C177_violated_last_round",
    "Verif.Props.C177_violated_pages",
    "Verif.Props.C177_violated_proposal",
    "Verif.Props.C177_violated_round",
    "Verif.Props.C177_violated_timestamp",
    "Verif.Props.C177_withUpdatedRewards_partial",
    "Verif.Props.C177_wrapping",
    "Verif.Props.C177_wrapping32"
   ],
   "note": "Violated: C177_violated_balance (an account that earns rewards is left with a millionth of its money), _keyreg, _timestamp, _delete (deleting keys up to the last batch deletes none), _generate (keys valid for all rounds without any key), _proposal, _round, _pages. The _partial theorems: wherever the checked build does not crash, the release build has the same outcome, function by function. C177_balance_exact: a release balance is right modulo 2^64, so right exactly if the true amount is a u64. C177_wrapping: the wrapping operations are those of machine words."
  },
  {
   "property": "C178",
   "status": "partial",
   "theorems": [
    "Verif.Props.C178_children",
    "Verif.Props.C178_empty",
    "Verif.Props.C178_hashes",
    "Verif.Props.C178_node_partial",
    "Verif.Props.C178_total",
    "Verif.Props.C178_violated_database",
    "Verif.Props.C178_violated_long"
   ],
   "note": "Violated for members of 2998 bytes or more (C178_violated_long) and by the size that a tree of the database reports, always zero (C178_violated_database). Proved for members of up to 181 bytes after every history; the size reported by the storage in memory is zero exactly for the empty set (C178_empty), at most 45 bytes for each node and 1485 for each member if members are hashes (C178_hashes), in general C178_total; C178_children for the number of children. Node identifiers are assumed to be below 2^64, as the counter is a u64."
  },
  {
   "property": "C179",
   "status": "partial",
   "theorems": [
    "Verif.Props.C179_crash_iff",
    "Verif.Props.C179_future",
    "Verif.Props.C179_manager_stuck",
    "Verif.Props.C179_manager_works_partial",
    "Verif.Props.C179_retained",
    "Verif.Props.C179_retry",
    "Verif.Props.C179_sign",
    "Verif.Props.C179_stuck",
    "Verif.Props.C179_violated",
    "Verif.Props.C179_works_partial",
    "Verif.Props.C179_wrong_identifier"
   ],
   "note": "Violated: C179_stuck and C179_manager_stuck (after a crash every later deletion crashes, and accounts visited later are never cleaned), C179_wrong_identifier and C179_violated (a signature made with the key of another identifier, for which it verifies). Proved: when a deletion crashes (C179_crash_iff), what is left (C179_retained), identifiers at or after the given one are still signed (C179_future), a snapshot repairs the keys (C179_retry), and without a crash everything is as in C21-C23 and C30."
  },
  {
   "property": "C180",
   "status": "partial",
   "theorems": [
    "Verif.Props.C180_chain_partial",
    "Verif.Props.C180_violated"
   ],
   "note": "Violated for every built-in protocol but the newest: the first block crashes (C180_violated). Proved for the newest protocol by induction over the chain, for genesis data with an id and a nonzero hash, fewer than 2^64 rounds and clocks that stay 25 below 2^64."
  },
  {
   "property": "C181",
   "status": "proved",
   "theorems": [
    "Verif.Props.C181_conserved",
    "Verif.Props.C181_nothing_lost",
    "Verif.Props.C181_update_succeeds"
   ],
   "note": "C181_conserved for all histories, C181_nothing_lost for the exact sum when nothing overflows, C181_update_succeeds. The ledger itself is not in the repository: the histories are those of the specification in Props/Ledger.lean, built from next_rewards_state and with_updated_rewards; accounts start with a base not above the level."
  },
  {
   "property": "C182",
   "status": "proved",
   "theorems": [
    "Verif.Props.C182_close",
    "Verif.Props.C182_conversion",
    "Verif.Props.C182_crash_iff",
    "Verif.Props.C182_crashes",
    "Verif.Props.C182_monotone",
    "Verif.Props.C182_nearest",
    "Verif.Props.C182_own_credential",
    "Verif.Props.C182_returns",
    "Verif.Props.C182_ties",
    "Verif.Props.C182_verify_crash_iff"
   ],
   "note": "Conversion, division, comparison and rounding of the draw are modelled exactly (C182_nearest and C182_ties: the nearest double, ties to even; C182_conversion: the same conversion as in algokey). Binomial::cdf of statrs is a parameter; its accuracy is a hypothesis of C182_close only. Assumed: BigRational::to_f64 rounds correctly."
  },
  {
   "property": "C183",
   "status": "partial",
   "theorems": [
    "Verif.Props.C183_batch_verifier",
    "Verif.Props.C183_batch_verifier_violated",
    "Verif.Props.C183_crash_iff",
    "Verif.Props.C183_crash_stores_nothing",
    "Verif.Props.C183_default_dilution_partial",
    "Verif.Props.C183_large_dilution_partial",
    "Verif.Props.C183_same",
    "Verif.Props.C183_violated"
   ],
   "note": "Violated: C183_violated and C183_batch_verifier_violated (with_capacity panics above isize::MAX bytes). Exact conditions: C183_crash_iff, C183_batch_verifier. Proved: nothing is stored by a crash, results are otherwise those of the model without memory, the default dilution of algokey needs room for less than 2^32 + 3 batch keys for any interval, large dilutions never exceed the address space. The size of a key in memory is a parameter."
  },
  {
   "property": "C184",
   "status": "proved",
   "theorems": [
    "Verif.Props.C184_committee_size",
    "Verif.Props.C184_divided",
    "Verif.Props.C184_divided_double",
    "Verif.Props.C184_mean",
    "Verif.Props.C184_no_gain",
    "Verif.Props.C184_total",
    "Verif.Props.C184_total_double"
   ],
   "note": "C184_mean, C184_committee_size, C184_divided, C184_no_gain; C184_total: the sortition has a result for every draw. In exact arithmetic with independent draws, each of the 2^256 digests counted once. C184_divided_double: in double precision, given the accuracy of Binomial::cdf of statrs (a hypothesis, as in C182_close); the means are proved in exact arithmetic only."
  },
  {
   "property": "C185",
   "status": "proved",
   "theorems": [
    "Verif.Props.C185_completion",
    "Verif.Props.C185_last_word",
    "Verif.Props.C185_last_word_refused",
    "Verif.Props.C185_mistake",
    "Verif.Props.C185_place"
   ],
   "note": "C185_last_word, C185_last_word_refused (the error), C185_mistake (exactly when two phrases share their last word), C185_place, C185_completion. For an arbitrary hash of 32 bytes; how often eleven bits agree by accident is a property of the hash and not stated."
  },
  {
   "property": "C186",
   "status": "proved",
   "theorems": [
    "Verif.Props.C186_end",
    "Verif.Props.C186_end_refused",
    "Verif.Props.C186_mistake"
   ],
   "note": "C186_end, C186_end_refused, C186_mistake. For an arbitrary hash of 32 bytes; how often 28 bits agree by accident is a property of the hash and not stated."
  }
 ]
}