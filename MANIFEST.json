{
 "claims": [
  {
   "property": "C01",
   "status": "proved",
   "theorems": [
    "Verif.C01_u64_roundtrip",
    "Verif.C01_u32_roundtrip",
    "Verif.C01_u16_roundtrip",
    "Verif.C01_u64_format",
    "Verif.C01_u64_prefix_free"
   ],
   "note": "u64/u32/u16 round trip in every stream, exact base-128 format, minimal length, prefix freeness."
  },
  {
   "property": "C02",
   "status": "proved",
   "theorems": [
    "Verif.C02_i64_roundtrip",
    "Verif.C02_i32_roundtrip",
    "Verif.C02_i16_roundtrip",
    "Verif.C02_zigzag64_bijective",
    "Verif.C02_zigzag64_value"
   ],
   "note": "i64/i32/i16 round trip; ZigZag value formula and bijectivity on 64 bits."
  },
  {
   "property": "C03",
   "status": "proved",
   "theorems": [
    "Verif.C03_get_u64_some",
    "Verif.C03_get_u64_none",
    "Verif.C03_get_u32_iff",
    "Verif.C03_get_u16_iff",
    "Verif.C03_overlong_accepted"
   ],
   "note": "Complete characterisation of success and failure on arbitrary input; non-canonical forms witnessed."
  },
  {
   "property": "C04",
   "status": "proved",
   "theorems": [
    "Verif.C04_bits_roundtrip",
    "Verif.C04_short_string_roundtrip",
    "Verif.C04_short_string_too_long",
    "Verif.C04_vec_roundtrip",
    "Verif.C04_option_roundtrip",
    "Verif.C04_opt_box_roundtrip",
    "Verif.C04_u32_be_roundtrip",
    "Verif.C04_option_swallows_errors"
   ],
   "note": "Bits, short strings, Vec, Option, Option<Box>, big-endian u32; get_option swallowing errors witnessed."
  },
  {
   "property": "C05",
   "status": "partial",
   "theorems": [
    "Verif.C05_try_from_u64",
    "Verif.C05_try_from_i64",
    "Verif.C05_checked_add",
    "Verif.C05_checked_sub",
    "Verif.C05_checked_mul",
    "Verif.C05_checked_mul_u32_partial",
    "Verif.C05_mul_u32_zero_violates",
    "Verif.C05_from_str_violates",
    "Verif.C05_checked_sum",
    "Verif.C05_box_value_roundtrip",
    "Verif.C05_parsed_in_bounds",
    "Verif.C05_obtainable_in_bounds_partial",
    "Verif.C05_token_try_from",
    "Verif.C05_token_checked_add",
    "Verif.C05_token_checked_sub"
   ],
   "note": "Exact results and error conditions of every checked operation; closure under all operation sequences. Full statement false: checked_mul_u32 by zero and FromStr leave the bounds (negations proved)."
  },
  {
   "property": "C06",
   "status": "proved",
   "theorems": [
    "Verif.C06_select_conserves",
    "Verif.C06_release_wraps",
    "Verif.C06_select_no_panic"
   ],
   "note": "Subset, conservation of every token and of value (exact unless u64 sums wrap, which needs a release build and more than 2^64 nanoErg; wrapping witnessed), valid change boxes, no panics. Holds for every HashMap iteration order."
  },
  {
   "property": "C07",
   "status": "partial",
   "theorems": [
    "Verif.C07_select_complete_partial",
    "Verif.C07_many_tokens_incomplete"
   ],
   "note": "Completeness proved when at most 122 distinct tokens occur in the inputs; counterexample proved for 123."
  },
  {
   "property": "C08",
   "status": "partial",
   "theorems": [
    "Verif.C08_build_conserves",
    "Verif.C08_build_conserves_release_partial",
    "Verif.C08_build_shape",
    "Verif.C08_outputs_valid",
    "Verif.C08_release_wraps",
    "Verif.C08_small_box_panics"
   ],
   "note": "Debug builds: exact conservation and shape. Release builds: under no-wrap hypotheses, wrapping witnessed."
  },
  {
   "property": "C09",
   "status": "proved",
   "theorems": [
    "Verif.C09_token_balance",
    "Verif.C09_only_mint_creates",
    "Verif.C09_burn_needs_exact_permit"
   ],
   "note": "Exact per-token balance inputs = outputs + permits for every id except the first input id."
  },
  {
   "property": "C10",
   "status": "proved",
   "theorems": [
    "Verif.C10_ignores_proofs",
    "Verif.C10_bytes_injective",
    "Verif.C10_commits",
    "Verif.C10_signing_keeps_id",
    "Verif.C10_signing_total"
   ],
   "note": "Any transactions within the bounds of TxIoVec, any hash and codecs of trees and nested boxes that round-trip; equal ids give equal essence or an explicit collision."
  },
  {
   "property": "C11",
   "status": "proved",
   "theorems": [
    "Verif.C11_token_table_limit",
    "Verif.C11_roundtrip",
    "Verif.C11_box_roundtrip",
    "Verif.C11_candidate_roundtrip",
    "Verif.C11_constructor_total",
    "Verif.C11_read_good",
    "Verif.C11_token_index",
    "Verif.C11_roundtrip_nested",
    "Verif.C11_read_good_nested",
    "Verif.C11_repeated_table_shifts"
   ],
   "note": "Transactions, boxes and candidates, box constants nested to any depth; the ErgoTree codec is a parameter that round-trips. Repeated ids in a hand-made token table shift indices (witness)."
  },
  {
   "property": "C12",
   "status": "partial",
   "theorems": [
    "Verif.C12_same_expr",
    "Verif.C12_same_exprs",
    "Verif.C12_bytes_panic",
    "Verif.C12_of_map",
    "Verif.C12_to_map",
    "Verif.C12_map_roundtrip",
    "Verif.C12_get_constant",
    "Verif.C12_get_constant_read",
    "Verif.C12_get_violates",
    "Verif.C12_get_partial",
    "Verif.C12_names",
    "Verif.C12_names_panic",
    "Verif.C12_numbers",
    "Verif.C12_roundtrip",
    "Verif.C12_unparseable",
    "Verif.C12_bytes",
    "Verif.C12_read_good"
   ],
   "note": "Maps, get_constant, names, numbers and codec proved; lookup by `get` is wrong for every id (C12_get_violates); a name of one two-byte character panics (C12_names_panic)."
  },
  {
   "property": "C13",
   "status": "proved",
   "theorems": [
    "Verif.C13_roundtrip",
    "Verif.C13_prefix_free",
    "Verif.C13_refused_iff",
    "Verif.C13_parsed",
    "Verif.C13_reparse",
    "Verif.C13_not_canonical"
   ],
   "note": "All types accepted by the writer (everything except SFunc), any stream, prefix free; reader total and its results well-formed. Several encodings of one type exist (witness)."
  },
  {
   "property": "C14",
   "status": "proved",
   "theorems": [
    "Verif.C14_roundtrip",
    "Verif.C14_data_roundtrip",
    "Verif.C14_prefix_free",
    "Verif.C14_parsed",
    "Verif.C14_long_collection_panics",
    "Verif.C14_long_bigint_refused",
    "Verif.C14_bigint_read",
    "Verif.C14_option_refused",
    "Verif.C14_not_canonical"
   ],
   "note": "All well-typed constants, boxes through any box codec that itself round-trips; collections above 65535 items panic and Option literals are refused (proved)."
  },
  {
   "property": "C15",
   "status": "proved",
   "theorems": [
    "Verif.C15_roundtrip",
    "Verif.C15_prefix_free",
    "Verif.C15_parsed_bounded",
    "Verif.C15_threshold_truncated"
   ],
   "note": "All trees, any stream; injective and prefix free; everything read is within bounds. Reader truncation of thresholds above 255 witnessed."
  },
  {
   "property": "C16",
   "status": "proved",
   "theorems": [
    "Verif.C16_cand",
    "Verif.C16_cor",
    "Verif.C16_threshold"
   ],
   "note": "Meaning preserved for every assignment, no panic; constants removed from the children unless a single surviving child is returned unchanged (example shows that case)."
  },
  {
   "property": "C17",
   "status": "proved",
   "theorems": [
    "Verif.C17_sound",
    "Verif.C17_sound_variables",
    "Verif.C17_parameters",
    "Verif.C17_ground",
    "Verif.C17_idempotent_partial",
    "Verif.C17_complete",
    "Verif.C17_many",
    "Verif.C17_unit_breaks_law",
    "Verif.C17_variables_on_the_right"
   ],
   "note": "Soundness, completeness and consistency for types without type variables on the right. The stronger law of the doc comment is false for Unit and for type variables on the right (witnesses); the _partial theorem is that law without them."
  },
  {
   "property": "C18",
   "status": "proved",
   "theorems": [
    "Verif.C18_multiply",
    "Verif.C18_faithful",
    "Verif.C18_add",
    "Verif.C18_modulus_irreducible",
    "Verif.C18_mul_by_i8",
    "Verif.C18_comm",
    "Verif.C18_assoc",
    "Verif.C18_distrib",
    "Verif.C18_one",
    "Verif.C18_add_self",
    "Verif.C18_no_zero_divisors"
   ],
   "note": "multiply is the polynomial product modulo the pentanomial; irreducibility of the modulus proved; field laws follow"
  },
  {
   "property": "C19",
   "status": "proved",
   "theorems": [
    "Verif.C19_invert",
    "Verif.C19_invert_unique",
    "Verif.C19_invert_zero",
    "Verif.C19_pow2To2ToK",
    "Verif.C19_sqr"
   ],
   "note": "inverse, uniqueness, zero; power_2_to_2_to_k for every k including beyond the tables"
  },
  {
   "property": "C20",
   "status": "proved",
   "theorems": [
    "Verif.C20_evaluate",
    "Verif.C20_interpolate",
    "Verif.C20_unique",
    "Verif.C20_length_mismatch",
    "Verif.C20_bytes",
    "Verif.C20_bytes_canonical",
    "Verif.C20_element_bytes",
    "Verif.C20_bytes_element",
    "Verif.C20_conflict_unreported"
   ],
   "note": "distinct non-zero points; conflicting data (a zero point) is not reported, witness C20_conflict_unreported"
  },
  {
   "property": "C21",
   "status": "partial",
   "theorems": [
    "Verif.C21_accepted_partial",
    "Verif.C21_trivial",
    "Verif.C21_refused",
    "Verif.C21_trivial_false",
    "Verif.C21_only_provable",
    "Verif.C21_duplicate_or_rejected",
    "Verif.C21_threshold_panic"
   ],
   "note": "Completeness of the single-signer prover for every tree with distinct OR children and satisfiable thresholds, any group, hash, randomness and message; refusal without sufficient secrets. Duplicate OR children yield rejected proofs and k>n panics (witnesses proved)."
  },
  {
   "property": "C22",
   "status": "proved",
   "theorems": [
    "Verif.C22_roundtrip",
    "Verif.C22_parsed_consistent"
   ],
   "note": "Round trip for every consistent tree of a bounded proposition, any trailing bytes; everything parsed is consistent."
  },
  {
   "property": "C23",
   "status": "proved",
   "theorems": [
    "Verif.C23_sound",
    "Verif.C23_complete",
    "Verif.C23_empty",
    "Verif.C23_malleable",
    "Verif.C23_unreduced_response",
    "Verif.C23_threshold_panic"
   ],
   "note": "Acceptance characterised in both directions; ignored trailing bytes, unreduced responses and the k>n panic witnessed."
  },
  {
   "property": "C24",
   "status": "proved",
   "theorems": [
    "Verif.C24_leaf",
    "Verif.C24_tree",
    "Verif.C24_accepted",
    "Verif.C24_simulated",
    "Verif.C24_indistinguishable"
   ],
   "note": "Extraction for leaves and whole trees (any nesting of AND, OR, threshold), simulator validity and bijection with real transcripts."
  },
  {
   "property": "C25",
   "status": "proved",
   "theorems": [
    "Verif.C25_injective",
    "Verif.C25_challenge",
    "Verif.C25_counts_fit"
   ],
   "note": "Injectivity of the hashed bytes together with the message; equal challenges give an explicit truncated-hash collision otherwise."
  },
  {
   "property": "C26",
   "status": "proved",
   "theorems": [
    "Verif.C26_proof_by_index",
    "Verif.C26_out_of_range",
    "Verif.C26_proof_by_element",
    "Verif.C26_absent_element",
    "Verif.C26_empty"
   ],
   "note": "Any nonempty leaf list, any hash; also lookup by element and the empty tree."
  },
  {
   "property": "C27",
   "status": "proved",
   "theorems": [
    "Verif.C27_sound",
    "Verif.C27_forgery_collides"
   ],
   "note": "Proofs of any length; collision exhibited among the inputs hashed by tree and proof."
  },
  {
   "property": "C28",
   "status": "proved",
   "theorems": [
    "Verif.C28_complete",
    "Verif.C28_bad_indices"
   ],
   "note": "Any nonempty list of indices; validation is defined by well-founded recursion, so it terminates."
  },
  {
   "property": "C29",
   "status": "partial",
   "theorems": [
    "Verif.C29_position_not_authenticated",
    "Verif.C29_duplicates_unchecked",
    "Verif.C29_members_partial"
   ],
   "note": "Positions are not authenticated by the code (witness for every hash function); what holds is membership for distinct positions."
  },
  {
   "property": "C30",
   "status": "partial",
   "theorems": [
    "Verif.C30_zero_hash_lost",
    "Verif.C30_roundtrip_partial",
    "Verif.C30_writable",
    "Verif.C30_canonical"
   ],
   "note": "An all-zero proof hash is read back as empty (witness); everything else round-trips."
  },
  {
   "property": "C31",
   "status": "partial",
   "theorems": [
    "Verif.C31_roundtrip",
    "Verif.C31_pack_partial",
    "Verif.C31_debug",
    "Verif.C31_violation_release",
    "Verif.C31_update",
    "Verif.C31_chain",
    "Verif.C31_violation_negative"
   ],
   "note": "All vectors a checked build packs (characterised exactly) are unpacked unchanged; runs of more than 255 equal ids panic or, without overflow checks, are lost; a header of negative level makes the update panic (witnesses). Update and whole-chain form for all chains."
  },
  {
   "property": "C32",
   "status": "partial",
   "theorems": [
    "Verif.C32_step",
    "Verif.C32_anchored",
    "Verif.C32_valid_means",
    "Verif.C32_valid_kept",
    "Verif.C32_valid_partial",
    "Verif.C32_violation_first",
    "Verif.C32_asymmetric_partial",
    "Verif.C32_violation_different_m",
    "Verif.C32_violation_cycle"
   ],
   "note": "Anchoring, replacement only by a better proof, validity once a valid proof has been seen; the first proof is stored unchecked, and better-than has cycles (witnesses)."
  },
  {
   "property": "C33",
   "status": "proved",
   "theorems": [
    "Verif.C33_highest",
    "Verif.C33_other_genesis",
    "Verif.C33_common",
    "Verif.C33_symm"
   ],
   "note": "For all chains of rising heights with one genesis; none for different genesis; symmetric."
  },
  {
   "property": "C34",
   "status": "partial",
   "theorems": [
    "Verif.C34_roundtrip",
    "Verif.C34_roundtrip_same",
    "Verif.C34_read_good",
    "Verif.C34_id_commits",
    "Verif.C34_violation_fields",
    "Verif.C34_violation_nonce",
    "Verif.C34_violation_new_fields",
    "Verif.C34_preheader"
   ],
   "note": "Round trip for headers within bounds, everything read is within bounds, ids commit to all fields up to an explicit collision. n_bits above 32 bits, version-1 solution fields of a version-2 header, short nonces and the extra fields of later versions are lost (witnesses)."
  },
  {
   "property": "C35",
   "status": "partial",
   "theorems": [
    "Verif.C35_arith_exact",
    "Verif.C35_never_wraps",
    "Verif.C35_compare",
    "Verif.C35_remainder",
    "Verif.C35_remainder_big",
    "Verif.C35_violation_min_rem",
    "Verif.C35_bitwise",
    "Verif.C35_invert",
    "Verif.C35_negate",
    "Verif.C35_mixed_refused",
    "Verif.C35_upcast",
    "Verif.C35_downcast",
    "Verif.C35_violation_downcast_refused",
    "Verif.C35_node"
   ],
   "note": "Exact integer semantics of + - * / min max bit operations negation and comparisons on all five numeric types, overflow and division by zero refused. `MIN % -1` is refused although the remainder is 0, Byte to Short and BigInt downcasts are refused (witnesses)."
  },
  {
   "property": "C36",
   "status": "partial",
   "theorems": [
    "Verif.C36_longToByteArray",
    "Verif.C36_byteArrayToBigInt",
    "Verif.C36_byteArrayToLong_partial",
    "Verif.C36_long_roundtrip_partial",
    "Verif.C36_violation_byteArrayToLong",
    "Verif.C36_nodes",
    "Verif.C36_short_refused"
   ],
   "note": "longToByteArray and byteArrayToBigInt exact for all inputs; byteArrayToLong is right exactly when the lower seven bytes do not disturb each other (iff proved), otherwise wrong (witness)."
  },
  {
   "property": "C37",
   "status": "partial",
   "theorems": [
    "Verif.C37_bindings_kept_partial",
    "Verif.C37_bindings_decide",
    "Verif.C37_siblings_partial",
    "Verif.C37_violation_top",
    "Verif.C37_violation_siblings",
    "Verif.C37_violation_block_twice",
    "Verif.C37_violation_func_twice"
   ],
   "note": "Every expression that binds no variable twice at once, in every non-empty environment; the empty environment (where scripts start) and repeated binders break it (witnesses)."
  },
  {
   "property": "C38",
   "status": "partial",
   "theorems": [
    "Verif.C38_strict_node",
    "Verif.C38_append",
    "Verif.C38_append_mixed",
    "Verif.C38_slice",
    "Verif.C38_size",
    "Verif.C38_byIndex",
    "Verif.C38_byIndex_default",
    "Verif.C38_updated",
    "Verif.C38_updateMany",
    "Verif.C38_patch_partial",
    "Verif.C38_violation_patch",
    "Verif.C38_zip",
    "Verif.C38_indices",
    "Verif.C38_indexOf_partial",
    "Verif.C38_violation_indexOf",
    "Verif.C38_violation_updated_type",
    "Verif.C38_map",
    "Verif.C38_filter",
    "Verif.C38_exists",
    "Verif.C38_forall",
    "Verif.C38_fold"
   ],
   "note": "All listed operations, for all collections shorter than 2^31 and all index arguments, except: patch with negative arguments and indexOf with a start index, which deviate (witnesses). Higher-order operations for every lambda that computes a function; evaluation under no cost limit."
  },
  {
   "property": "C39",
   "status": "partial",
   "theorems": [
    "Verif.C39_roundtrip_partial",
    "Verif.C39_injective_partial",
    "Verif.C39_parse_stable",
    "Verif.C39_accepts",
    "Verif.C39_rejects_partial",
    "Verif.C39_nothing_dropped",
    "Verif.C39_violation_dropped",
    "Verif.C39_violation_texts",
    "Verif.C39_violation_lenient",
    "Verif.C39_violation_next",
    "Verif.C39_whitespace",
    "Verif.C39_next",
    "Verif.C39_ledger",
    "Verif.C39_violation_bits",
    "Verif.C39_violation_depth"
   ],
   "note": "Display and parse are inverse for all paths with indices in range, any depth; accepted texts characterised. Invalid components are dropped instead of rejected, next leaves the range (witnesses)."
  },
  {
   "property": "C40",
   "status": "partial",
   "theorems": [
    "Verif.C40_child",
    "Verif.C40_derive",
    "Verif.C40_master",
    "Verif.C40_hardened_refused",
    "Verif.C40_staged",
    "Verif.C40_staged_partial",
    "Verif.C40_path",
    "Verif.C40_bip32",
    "Verif.C40_skip",
    "Verif.C40_parent_recoverable",
    "Verif.C40_violation_short",
    "Verif.C40_violation_skipped",
    "Verif.C40_violation_range"
   ],
   "note": "Public and secret derivation commute for every group of prime order, MAC, index and any number of skipped indices; staged derivation; equal to BIP-32. Short paths panic, staging is refused after a skipped index (witnesses)."
  },
  {
   "property": "C41",
   "status": "partial",
   "theorems": [
    "Verif.C41_roundtrip_partial",
    "Verif.C41_network",
    "Verif.C41_injective_partial",
    "Verif.C41_checksum",
    "Verif.C41_canonical_partial",
    "Verif.C41_violation_empty",
    "Verif.C41_violation_trailing",
    "Verif.C41_violation_head"
   ],
   "note": "Round trip and rejection by the other network for all addresses but the empty P2S; accepted bytes re-encode for P2S and P2SH. Trailing bytes of P2PK and head bytes of no network are accepted (witnesses for all inputs). Base58 is a parameter."
  },
  {
   "property": "C42",
   "status": "partial",
   "theorems": [
    "Verif.C42_new",
    "Verif.C42_new_plain",
    "Verif.C42_proposition_partial",
    "Verif.C42_with_constant",
    "Verif.C42_replaced_proposition_partial",
    "Verif.C42_inline_constant_violates",
    "Verif.C42_new_placeholder_violates"
   ],
   "note": "new/proposition/with_constant proved for trees whose root holds no constants of its own (all trees made by new). proposition is wrong for a root with inline constants and new confuses existing placeholders (witnesses). substConstants of the evaluator is not covered here."
  },
  {
   "property": "C43",
   "status": "partial",
   "theorems": [
    "Verif.C43_header",
    "Verif.C43_header_bytes",
    "Verif.C43_roundtrip",
    "Verif.C43_bytes_roundtrip",
    "Verif.C43_reread",
    "Verif.C43_unparsed_bytes",
    "Verif.C43_unparsed_in_box_partial",
    "Verif.C43_unparsed_in_box_violates",
    "Verif.C43_trailing_bytes_violates",
    "Verif.C43_many_constants_violates",
    "Verif.C43_leaked_variable_violates",
    "Verif.C43_tree_codec"
   ],
   "note": "Round trip, re-reading and verbatim unparsed bytes proved; inside a box unused header bits and overlong sizes are lost, trailing body bytes are dropped, trees with more than 4096 constants cannot be read back, variables leak between trees of one reader (witnesses). Method tables are a parameter."
  },
  {
   "property": "C44",
   "status": "partial",
   "theorems": [
    "Verif.C44_history_partial",
    "Verif.C44_isolation",
    "Verif.C44_violation_public",
    "Verif.C44_commitments",
    "Verif.C44_generate",
    "Verif.C44_extract",
    "Verif.C44_violation_leak"
   ],
   "note": "After every history an input gets exactly its own hints. The second half fails: own commitments, with the secret random scalar, are always on the public side, and the secret key can be computed from them and the signature (proved for all histories, groups and keys)."
  },
  {
   "property": "C45",
   "status": "partial",
   "theorems": [
    "Verif.C45_indexes_partial",
    "Verif.C45_indexes_panic",
    "Verif.C45_violation_zero_window",
    "Verif.C45_table_monotone",
    "Verif.C45_table_bound",
    "Verif.C45_hit",
    "Verif.C45_hit_value"
   ],
   "note": "Indexes below N, exact panic condition (a zero index panics, witness), monotone table size with its exact maximum; hits for all headers of version 2 and above."
  },
  {
   "property": "C46",
   "status": "proved",
   "theorems": [
    "Verif.C46_value",
    "Verif.C46_sign",
    "Verif.C46_exact",
    "Verif.C46_violation_zero"
   ],
   "note": "For all 64-bit inputs; zero difficulty makes max_level_of panic (shown)."
  },
  {
   "property": "C47",
   "status": "partial",
   "theorems": [
    "Verif.C47_size_byte",
    "Verif.C47_ip_size",
    "Verif.C47_addr",
    "Verif.C47_version",
    "Verif.C47_feature",
    "Verif.C47_roundtrip_partial",
    "Verif.C47_injective",
    "Verif.C47_reread",
    "Verif.C47_refused",
    "Verif.C47_violation_agent",
    "Verif.C47_violation_port",
    "Verif.C47_violation_ignored"
   ],
   "note": "Round trip, prefix freedom, refusal of everything outside the limits, and everything read can be written again. An empty agent name is written but not read; ports above 65535, the size byte and bytes behind a feature are ignored when reading (proved)."
  },
  {
   "property": "C48",
   "status": "proved",
   "theorems": [
    "Verif.C48_extension",
    "Verif.C48_proof",
    "Verif.C48_proof_bytes",
    "Verif.C48_prover_result",
    "Verif.C48_read_good",
    "Verif.C48_full_extension_lost",
    "Verif.C48_long_proof_lost"
   ],
   "note": "Bounds are exactly where it stops holding: 256 variables or 65536 proof bytes are lost (witnesses)."
  },
  {
   "property": "C49",
   "status": "proved",
   "theorems": [
    "Verif.C49_outputs",
    "Verif.C49_box_id_commits",
    "Verif.C49_outputs_distinct",
    "Verif.C49_box_id_fixes_transaction"
   ],
   "note": "Up to explicit collisions of the box hash."
  },
  {
   "property": "C50",
   "status": "partial",
   "theorems": [
    "Verif.C50_roundtrip",
    "Verif.C50_substituting",
    "Verif.C50_injective",
    "Verif.C50_reread",
    "Verif.C50_bools_operand_violates",
    "Verif.C50_long_collection_violates"
   ],
   "note": "All well-formed expressions whose binary operations do not start with a literal Boolean collection, for which the round trip fails (witness); counts above the length fields are truncated (proved). Method tables and the box codec are parameters."
  },
  {
   "property": "C51",
   "status": "proved",
   "theorems": [
    "Verif.C51_levels",
    "Verif.C51_tx_roundtrip",
    "Verif.C51_box_roundtrip",
    "Verif.C51_tx_commits"
   ],
   "note": "For every nesting depth; inner trees are read by a fresh reader (the sharing of reader state is stated in C43)."
  },
  {
   "property": "C52",
   "status": "partial",
   "theorems": [
    "Verif.C52_flatMap_partial",
    "Verif.C52_violation_bytes",
    "Verif.C52_violation_type",
    "Verif.C52_join_bytes"
   ],
   "note": "Items are concatenated in order for bodies giving non-byte collections; element type is wrong and byte collections always fail (witnesses)."
  },
  {
   "property": "C53",
   "status": "partial",
   "theorems": [
    "Verif.C53_limit",
    "Verif.C53_stack",
    "Verif.C53_violation_loop"
   ],
   "note": "Termination under a cost limit and independence of the stack size for all scripts; reduce_to_crypto sets no limit and a 30-byte script makes it recurse without end (witness with bytes)."
  },
  {
   "property": "C54",
   "status": "partial",
   "theorems": [
    "Verif.C54_violation_closure",
    "Verif.C54_violation_dynamic",
    "Verif.C54_apply_partial"
   ],
   "note": "Functions are dynamically scoped: closures fail and callers capture variables (witnesses); the _partial theorem is what does hold."
  },
  {
   "property": "C55",
   "status": "partial",
   "theorems": [
    "Verif.C55_violation_panic",
    "Verif.C55_result_partial"
   ],
   "note": "Boolean, proposition and error results; false and errors only for scripts that the diagnostic printer leaves unchanged (the rest is C66); a script of type SigmaProp whose other branch is an Int panics (witness with bytes)."
  },
  {
   "property": "C56",
   "status": "partial",
   "theorems": [
    "Verif.C56_prove_partial",
    "Verif.C56_violation_m_zero",
    "Verif.C56_violation_all_suffix"
   ],
   "note": "For every chain in which each block has at least level 0, with 1 <= m and two blocks before the suffix; m = 0 and k = length - 1 panic (witnesses)."
  },
  {
   "property": "C57",
   "status": "partial",
   "theorems": [
    "Verif.C57_violation_any_header",
    "Verif.C57_violation_panic",
    "Verif.C57_members_partial"
   ],
   "note": "Fails: the check does not look at the header, so any interlinks can be attached to any header; a proof without interlinks panics. Proved: what an accepted proof does say."
  },
  {
   "property": "C58",
   "status": "partial",
   "theorems": [
    "Verif.C58_interlink_proof",
    "Verif.C58_checked_partial",
    "Verif.C58_violation_other_fields"
   ],
   "note": "Valid for the root of the extension and lists exactly the interlink fields; accepted by check_interlinks_proof only when the extension has no other fields (witness)."
  },
  {
   "property": "C59",
   "status": "partial",
   "theorems": [
    "Verif.C59_popow_roundtrip_partial",
    "Verif.C59_roundtrip_partial",
    "Verif.C59_injective_partial",
    "Verif.C59_violation_sizes"
   ],
   "note": "Round trip for headers with correct ids, 32-byte interlinks and Merkle proofs without all-zero hashes (see C30, C34); embedded sizes are not checked (proved)."
  },
  {
   "property": "C60",
   "status": "partial",
   "theorems": [
    "Verif.C60_best_partial",
    "Verif.C60_monotone",
    "Verif.C60_violation_m_zero",
    "Verif.C60_violation_negative"
   ],
   "note": "For m >= 1, levels not negative and scores below 2^64; m = 0 never ends and a negative level counts as a huge one (proved)."
  },
  {
   "property": "C61",
   "status": "partial",
   "theorems": [
    "Verif.C61_p2pk",
    "Verif.C61_p2s_bytes",
    "Verif.C61_p2s_partial",
    "Verif.C61_unparsed",
    "Verif.C61_p2sh_means",
    "Verif.C61_p2sh_recreate",
    "Verif.C61_violation_p2sh_bytes",
    "Verif.C61_violation_p2sh_unspendable",
    "Verif.C61_violation_p2sh_recreate",
    "Verif.C61_violation_p2pk_header"
   ],
   "note": "P2PK and P2S hold; the P2SH script can neither be parsed back nor evaluated, and several trees have one address (proved for all hashes and contexts)."
  },
  {
   "property": "C62",
   "status": "proved",
   "theorems": [
    "Verif.C62_addr",
    "Verif.C62_from_addr_version",
    "Verif.C62_history",
    "Verif.C62_keys",
    "Verif.C62_answers",
    "Verif.C62_from_addr"
   ],
   "note": "For all histories of calls, by induction; the HashMap is a finite map."
  },
  {
   "property": "C63",
   "status": "proved",
   "theorems": [
    "Verif.C63_session"
   ],
   "note": "For all AND propositions (Schnorr and Diffie-Hellman leaves, any nesting), any number of signers, any arrangement of the hints; over any group and hash. Propositions with OR or threshold are C92."
  },
  {
   "property": "C64",
   "status": "partial",
   "theorems": [
    "Verif.C64_context",
    "Verif.C64_missing_box",
    "Verif.C64_same",
    "Verif.C64_accepted_partial",
    "Verif.C64_refused",
    "Verif.C64_single",
    "Verif.C64_hints_isolated",
    "Verif.C64_bound",
    "Verif.C64_verify"
   ],
   "note": "Script reduction is a parameter (any function of tree and context). Contexts, identity of the signed transaction, refusal, single inputs, isolation of hints and binding of proofs are proved for all transactions; acceptance within the bounds of C21 (no repeated OR branches, thresholds within the number of children)."
  },
  {
   "property": "C65",
   "status": "partial",
   "theorems": [
    "Verif.C65_agrees",
    "Verif.C65_made",
    "Verif.C65_transfer",
    "Verif.C65_commitments",
    "Verif.C65_extract",
    "Verif.C65_violation_replaced",
    "Verif.C65_violation_panic"
   ],
   "note": "Agreement, transfer and commitments proved for every reduced transaction the library makes. Since the field unsigned_tx is public, a caller can also hold reduced transactions for which signing gives an invalid transaction or panics (witnesses)."
  },
  {
   "property": "C66",
   "status": "partial",
   "theorems": [
    "Verif.C66_rebuilt",
    "Verif.C66_prints_partial",
    "Verif.C66_one_evaluation_partial",
    "Verif.C66_source",
    "Verif.C66_read_partial",
    "Verif.C66_violation_panic",
    "Verif.C66_violation_indent",
    "Verif.C66_violation_accepts"
   ],
   "note": "Proved for scripts that print and whose function bodies have no Coll[Boolean] of constants; where an accepted result can come from is proved for all scripts (C66_source). Violated: parsed scripts with an ill-typed fold, upcast or collection, also in dead code, panic; named functions under filter make the indentation underflow; a script that fails can be accepted by the second evaluation (witnesses)."
  },
  {
   "property": "C67",
   "status": "partial",
   "theorems": [
    "Verif.C67_value_partial",
    "Verif.C67_no_type_error_partial",
    "Verif.C67_reduce_partial",
    "Verif.C67_violation_register",
    "Verif.C67_violation_state_root",
    "Verif.C67_violation_get_reg",
    "Verif.C67_violation_flat_map",
    "Verif.C67_violation_unimplemented"
   ],
   "note": "Type soundness for all scripts following the rules of Spec/Typing.lean, with the method table and code from registers and variables. Violated outside them: a register read at another type (then reduce_to_crypto panics), Header.stateRoot, Box.getReg, Coll.flatMap; five declared methods of Context are not implemented (witnesses)."
  },
  {
   "property": "C68",
   "status": "partial",
   "theorems": [
    "Verif.C68_depth",
    "Verif.C68_terminates",
    "Verif.C68_closed",
    "Verif.C68_reduce_partial",
    "Verif.C68_violation_deserialize"
   ],
   "note": "Proved for all scripts following the typing rules when code from outside has bounded size and loads no further code; code that loads itself never ends (witness). For reduce_to_crypto when the printer copies the script."
  },
  {
   "property": "C69",
   "status": "partial",
   "theorems": [
    "Verif.C69_agrees_partial",
    "Verif.C69_total_partial",
    "Verif.C69_reduce_partial",
    "Verif.C69_closed",
    "Verif.C69_violation_rebind",
    "Verif.C69_violation_closure"
   ],
   "note": "Proved for all scripts following the typing rules in which functions are not data (they are defined, named, called or handed to collection methods). Violated for functions computed by a block, and for names defined again (witnesses). The meaning of the basic operations on values is that of the model."
  },
  {
   "property": "C70",
   "status": "partial",
   "theorems": [
    "Verif.C70_node",
    "Verif.C70_boolean",
    "Verif.C70_not",
    "Verif.C70_sigma_and",
    "Verif.C70_sigma_or",
    "Verif.C70_atLeast_partial",
    "Verif.C70_atLeast_refused",
    "Verif.C70_violation_atLeast",
    "Verif.C70_keys"
   ],
   "note": "Proved for all Boolean collections and for 2 to 255 propositions with 0 <= k <= n. atLeast of a single proposition and a bound above the number of propositions are errors although their meaning is clear (witnesses)."
  },
  {
   "property": "C71",
   "status": "partial",
   "theorems": [
    "Verif.C71_substitutes",
    "Verif.C71_proposition_partial",
    "Verif.C71_refused",
    "Verif.C71_lengths",
    "Verif.C71_unparsed",
    "Verif.C71_violation_bytes"
   ],
   "note": "Proved for all scripts in byte form and all replacements; the result is required to be within the size limits of its fields. Byte constants can never be replaced, since a Coll[Byte] of new values is refused (proved for all inputs)."
  },
  {
   "property": "C72",
   "status": "partial",
   "theorems": [
    "Verif.C72_registers",
    "Verif.C72_additional",
    "Verif.C72_register_range",
    "Verif.C72_getVar",
    "Verif.C72_selfBoxIndex",
    "Verif.C72_xor_partial",
    "Verif.C72_violation_xor",
    "Verif.C72_point",
    "Verif.C72_violation_point",
    "Verif.C72_exp_partial",
    "Verif.C72_violation_exp",
    "Verif.C72_propBytes",
    "Verif.C72_propBytes_key",
    "Verif.C72_avl_flags",
    "Verif.C72_avl_allowed",
    "Verif.C72_avl_modify",
    "Verif.C72_avl_lookup",
    "Verif.C72_avl_set_flags",
    "Verif.C72_last_root",
    "Verif.C72_deserialize",
    "Verif.C72_deserialize_refused"
   ],
   "note": "xor for equal lengths, powers for exponents below the order, decodePoint on encodings; outside them: xor and Global.xor differ on strings of different lengths, other exponents are refused, many strings decode to the neutral element (proved). The group, the AVL verifier and boxes are parameters."
  },
  {
   "property": "C73",
   "status": "partial",
   "theorems": [
    "Verif.C73_operands",
    "Verif.C73_accepted",
    "Verif.C73_typed_partial",
    "Verif.C73_tree_partial",
    "Verif.C73_violation_if",
    "Verif.C73_violation_items",
    "Verif.C73_violation_function",
    "Verif.C73_violation_scope",
    "Verif.C73_violation_option_flag"
   ],
   "note": "Node rules proved for everything a reader accepts; typing proved under the stated residue. Not enforced by the reader (witnesses): types of the branches of a condition and of the items of a collection, scope of variables, functions where values are wanted; any nonzero byte marks an optional operand."
  },
  {
   "property": "C74",
   "status": "partial",
   "theorems": [
    "Verif.C74_hex",
    "Verif.C74_amounts",
    "Verif.C74_candidate_roundtrip",
    "Verif.C74_box_roundtrip",
    "Verif.C74_good_box",
    "Verif.C74_tree_box_roundtrip",
    "Verif.C74_id",
    "Verif.C74_declared_id",
    "Verif.C74_field_order",
    "Verif.C74_other_fields",
    "Verif.C74_null_id",
    "Verif.C74_repeated_field",
    "Verif.C74_register_order",
    "Verif.C74_reads_partial",
    "Verif.C74_stable",
    "Verif.C74_tree_reread",
    "Verif.C74_panics",
    "Verif.C74_bounds_violates",
    "Verif.C74_twins_violate"
   ],
   "note": "Round trips, ids, field order, stability and the only panic (a register named by one two-byte character) proved for all boxes and JSON objects. Violated: values and amounts are not checked against the bounds of BoxValue and TokenAmount, and a tree may be followed by bytes, so that two different boxes with the same bytes and id can be read (witnesses)."
  },
  {
   "property": "C75",
   "status": "partial",
   "theorems": [
    "Verif.C75_roundtrip",
    "Verif.C75_unsigned_roundtrip",
    "Verif.C75_good_tx",
    "Verif.C75_id",
    "Verif.C75_content",
    "Verif.C75_wrong_id",
    "Verif.C75_reads_partial",
    "Verif.C75_stable",
    "Verif.C75_outputs_candidates",
    "Verif.C75_fields",
    "Verif.C75_output_ids_violate"
   ],
   "note": "Round trips, id, labels of outputs and stability proved for all transactions and JSON objects. Violated: transaction id, index and id of the outputs in JSON are not compared with the transaction (witness)."
  },
  {
   "property": "C76",
   "status": "partial",
   "theorems": [
    "Verif.C76_roundtrip",
    "Verif.C76_proof_roundtrip",
    "Verif.C76_reads",
    "Verif.C76_names",
    "Verif.C76_names_violate",
    "Verif.C76_trailing_violates",
    "Verif.C76_empty_proof_violates"
   ],
   "note": "Round trips proved for all extensions and proofs other than Some([]). Violated: names 1 and 01 are merged, bytes behind a constant are ignored, Some([]) becomes Empty (witnesses)."
  },
  {
   "property": "C77",
   "status": "partial",
   "theorems": [
    "Verif.C77_proposition_roundtrip",
    "Verif.C77_proposition_reads",
    "Verif.C77_position",
    "Verif.C77_hint_roundtrip",
    "Verif.C77_hint_reads",
    "Verif.C77_same_proof",
    "Verif.C77_library_hints",
    "Verif.C77_bag_roundtrip",
    "Verif.C77_session",
    "Verif.C77_panics_partial",
    "Verif.C77_threshold_panic",
    "Verif.C77_condition_violates",
    "Verif.C77_empty_position_violates",
    "Verif.C77_point_trailing_violates",
    "Verif.C77_proof_trailing_violates",
    "Verif.C77_secret_violates",
    "Verif.C77_field_order"
   ],
   "note": "Round trips, well-formedness of what is read, equality of proofs and the joint session proved for all inputs. Violated: a threshold larger than the number of children is read and then panics the reader of proof hints (shown to be the only panic), the tag of a constant is ignored, the empty position is not read back, bytes behind points and proofs are ignored and secrets are reduced (witnesses)."
  },
  {
   "property": "C78",
   "status": "proved",
   "theorems": [
    "Verif.C78_session",
    "Verif.C78_send_memory",
    "Verif.C78_send_json",
    "Verif.C78_join"
   ],
   "note": "For every way to send bags that loses at most the commitments inside proofs (shown for memory and JSON) and every way to put bags together that loses nothing (shown for add_hints_for_input)."
  },
  {
   "property": "C79",
   "status": "partial",
   "theorems": [
    "Verif.C79_total",
    "Verif.C79_bip39",
    "Verif.C79_words",
    "Verif.C79_injective",
    "Verif.C79_generate",
    "Verif.C79_lists",
    "Verif.C79_language",
    "Verif.C79_characters_partial",
    "Verif.C79_french_violates"
   ],
   "note": "Both directions proved for all languages, entropies and phrases, with the word lists as data. Violated: the first word of the French list begins with the mark U+FEFF, so the word abaisser is never produced nor read (C79_french_violates, for every hash function). SHA-256 is a parameter, PBKDF2 is not modelled."
  },
  {
   "property": "C80",
   "status": "partial",
   "theorems": [
    "Verif.C80_bytes_roundtrip",
    "Verif.C80_bytes_reads",
    "Verif.C80_dlog_canonical",
    "Verif.C80_dht_canonical_violates",
    "Verif.C80_biguint_partial",
    "Verif.C80_biguint_violates",
    "Verif.C80_hex",
    "Verif.C80_json_roundtrip",
    "Verif.C80_json_agrees",
    "Verif.C80_json_violates",
    "Verif.C80_address",
    "Verif.C80_spends_partial",
    "Verif.C80_random",
    "Verif.C80_inconsistent_violates"
   ],
   "note": "Round trips, what is read, addresses and spending proved for all keys. Violated: JSON reduces numbers outside of the group instead of refusing them, from_biguint cuts numbers to 256 bits, points beginning with 0 are not canonical, and the tuple is not compared with the number, so a key can be read that makes rejected proofs (witnesses)."
  },
  {
   "property": "C81",
   "status": "partial",
   "theorems": [
    "Verif.C81_roundtrip",
    "Verif.C81_injective",
    "Verif.C81_typed",
    "Verif.C81_bytes",
    "Verif.C81_exact",
    "Verif.C81_digest",
    "Verif.C81_mismatch_partial",
    "Verif.C81_longer_tuple_violates",
    "Verif.C81_empty_violates",
    "Verif.C81_option_not_storable",
    "Verif.C81_dlog",
    "Verif.C81_value",
    "Verif.C81_option_value_violates"
   ],
   "note": "Round trip, types, bytes, scripts and extraction at the right type proved for all types. Violated: a tuple with more items than asked for is extracted and loses items, an empty collection is extracted at every vector type (witnesses; C81_mismatch_partial says that there are no other cases). Options have no byte form and lose their type on the way back from a script."
  },
  {
   "property": "C82",
   "status": "proved",
   "theorems": [
    "Verif.Props.C82_refines",
    "Verif.Props.C82_panic",
    "Verif.Props.C82_consistent",
    "Verif.Props.C82_sorted",
    "Verif.Props.C82_stale_slot"
   ],
   "note": "For every element type and every sequence of calls. C82_stale_slot shows what the caller has to see to: slots are used again."
  },
  {
   "property": "C83",
   "status": "partial",
   "theorems": [
    "Verif.Props.C83_delay",
    "Verif.Props.C83_resolves",
    "Verif.Props.C83_next_event",
    "Verif.Props.C83_gone_partial",
    "Verif.Props.C83_reset_gone_violates",
    "Verif.Props.C83_past_violates",
    "Verif.Props.C83_micro",
    "Verif.Props.C83_race_violates"
   ],
   "note": "Proved for all sequences of calls, each call being one step. Violated: after the timer is gone a reset of a resolved delay leaves it resolved; a delay reset to the past is pending until the timer is polled and advanced, against the documentation; with several threads a reset can pair the new generation with the old deadline so that the delay resolves early (witnesses). Wakers and wrapping generations are not modelled."
  },
  {
   "property": "C84",
   "status": "partial",
   "theorems": [
    "Verif.Props.C84_next",
    "Verif.Props.C84_panic",
    "Verif.Props.C84_zero_violates",
    "Verif.Props.C84_poll",
    "Verif.Props.C84_rate",
    "Verif.Props.C84_gone_violates",
    "Verif.Props.C84_elapsed_violates"
   ],
   "note": "Grid, rate and the exact conditions for a panic proved. Violated: a zero interval panics, an interval on a timer that is gone yields at every poll, SystemTime::elapsed is reversed (witnesses). Overflow of instants is not modelled."
  },
  {
   "property": "C85",
   "status": "proved",
   "theorems": [
    "Verif.C85_tokens",
    "Verif.C85_lossless",
    "Verif.C85_grammar",
    "Verif.C85_accepts",
    "Verif.C85_unambiguous",
    "Verif.C85_errors"
   ],
   "note": "For all texts. The generated scanner of the crate logos is modelled by its documented rule (longest match); the nesting of calls is not limited as on the real stack."
  },
  {
   "property": "C86",
   "status": "partial",
   "theorems": [
    "Verif.C86_compiles",
    "Verif.C86_panics",
    "Verif.C86_errors",
    "Verif.C86_meaning_partial",
    "Verif.C86_tree",
    "Verif.C86_no_proposition_violates",
    "Verif.C86_operators_violate",
    "Verif.C86_dropped_violates",
    "Verif.C86_types_violate",
    "Verif.C86_height_violates",
    "Verif.C86_exponential_violates"
   ],
   "note": "Exact conditions for success, panic and each kind of error proved, and that the expression is worth what the main statement is. Violated: - * / panic; statements in parentheses or with a sign and definitions are dropped; operands below the top may have different types; HEIGHT below the top is not found; type inference takes exponential time; no proposition ever comes out of a compiled script (witnesses or for all texts)."
  },
  {
   "property": "C87",
   "status": "partial",
   "theorems": [
    "Verif.C87_inside",
    "Verif.C87_described_partial",
    "Verif.C87_whole_violates",
    "Verif.C87_line_partial",
    "Verif.C87_line_violates"
   ],
   "note": "All positions are inside the text; a description fails exactly if a position is at byte 0. Violated: errors at byte 0 panic, errors at the beginning of a line are said to span several lines (for all such texts)."
  },
  {
   "property": "C88",
   "status": "partial",
   "theorems": [
    "Verif.C88_roundtrip_partial",
    "Verif.C88_no_distance_violates",
    "Verif.C88_parsed_violates",
    "Verif.C88_fields",
    "Verif.C88_required",
    "Verif.C88_id_violates",
    "Verif.C88_node_text_violates",
    "Verif.C88_distance",
    "Verif.C88_distance_number",
    "Verif.C88_distance_text",
    "Verif.C88_votes_string",
    "Verif.C88_votes_array_partial",
    "Verif.C88_votes_cut_violates",
    "Verif.C88_votes_panic_violates"
   ],
   "note": "Full for headers with a distance; distances and votes in strings characterised exactly. Violated: headers without a distance (all of version 2 read from bytes) cannot be read back, the id is not checked, votes in a list are cut or panic, headers of the same block from a node and from bytes differ (for all such headers)."
  },
  {
   "property": "C89",
   "status": "partial",
   "theorems": [
    "Verif.C89_merkle_roundtrip",
    "Verif.C89_batch_roundtrip",
    "Verif.C89_levels",
    "Verif.C89_leaf_violates",
    "Verif.C89_nipopow_roundtrip_partial",
    "Verif.C89_nipopow_violates",
    "Verif.C89_block_roundtrip_partial",
    "Verif.C89_block_violates",
    "Verif.C89_block_content"
   ],
   "note": "Merkle and batch proofs in full, levels characterised exactly; NiPoPoW proofs and blocks if all headers have a distance. Violated: with a header without a distance they cannot be read back; leaf data of any length is accepted."
  },
  {
   "property": "C90",
   "status": "partial",
   "theorems": [
    "Verif.C90_seeds",
    "Verif.C90_complete",
    "Verif.C90_result",
    "Verif.C90_once_partial",
    "Verif.C90_twice_violates",
    "Verif.C90_no_panic"
   ],
   "note": "The result in full, with and without timeout. Violated: a seed that is reported as a peer is asked twice, though every node is said to be queried exactly once; bound of two proved."
  },
  {
   "property": "C91",
   "status": "partial",
   "theorems": [
    "Verif.C91_progress_partial",
    "Verif.C91_bounded",
    "Verif.C91_timeout_partial",
    "Verif.C91_late_violates",
    "Verif.C91_parallel_violates",
    "Verif.C91_dead_violates"
   ],
   "note": "Bounded length and freedom from deadlock if no task dies; after the timeout at most as many nodes as the channel holds are asked. Violated: a seed whose host cannot be resolved makes the search hang even after the timeout, the limit on parallel tasks has no effect, nodes are asked after the timeout."
  },
  {
   "property": "C92",
   "status": "partial",
   "theorems": [
    "Verif.C92_session_partial",
    "Verif.C92_k_of_n",
    "Verif.C92_too_many_violates",
    "Verif.C92_nested_violates",
    "Verif.C92_same_key_violates"
   ],
   "note": "Proved for parties that are just enough, when the children left out are single statements and absent keys occur once; so k of n different keys in full. Violated: more signers than k, an absent subtree, an absent key that occurs twice."
  },
  {
   "property": "C93",
   "status": "partial",
   "theorems": [
    "Verif.C93_version_partial",
    "Verif.C93_patch_violates",
    "Verif.C93_major_violates",
    "Verif.C93_json"
   ],
   "note": "Exact: right for all versions but two families. Violated: 4.0.c with c in 2..9 and 11..99 counts as new enough, majors 10..39, 100..399 and so on as too old."
  },
  {
   "property": "C94",
   "status": "partial",
   "theorems": [
    "Verif.C94_address",
    "Verif.C94_brackets",
    "Verif.C94_no_panic",
    "Verif.C94_json",
    "Verif.C94_url_partial",
    "Verif.C94_scope_violates"
   ],
   "note": "Exact characterisation of what is read, no panic, round trip. Violated: an IPv6 address with a scope is read, but its URL panics (assuming of the library that such a text has a percent sign and that no URL has one in its host)."
  },
  {
   "property": "C95",
   "status": "partial",
   "theorems": [
    "Verif.C95_result",
    "Verif.C95_complete",
    "Verif.C95_whole",
    "Verif.C95_throttle",
    "Verif.C95_no_panic",
    "Verif.C95_time",
    "Verif.C95_once_first",
    "Verif.C95_once_partial",
    "Verif.C95_again_violates"
   ],
   "note": "All proved but one clause. Violated: a continued scan sends its first request without looking at the visited nodes, so it asks a node again (C95_again_violates)."
  },
  {
   "property": "C96",
   "status": "partial",
   "theorems": [
    "Verif.C96_stuck_partial",
    "Verif.C96_bounded",
    "Verif.C96_timeout_partial",
    "Verif.C96_lost_violates",
    "Verif.C96_late_violates",
    "Verif.C96_single_violates",
    "Verif.C96_small_violates"
   ],
   "note": "Bounded number of steps, nothing new asked after the timeout, and if a call is stuck then with a node that answered /info and was not asked for its peers. Violated: the loop looks at the pending requests only when a message comes, so this happens (always with a single seed that answers); /peers/all failing with a network error sends no message; limits below four send nothing but the first request."
  },
  {
   "property": "C97",
   "status": "partial",
   "theorems": [
    "Verif.C97_getters",
    "Verif.C97_build",
    "Verif.C97_refused",
    "Verif.C97_minted",
    "Verif.C97_overflow_violates",
    "Verif.C97_min_value_partial",
    "Verif.C97_min_value_thrice",
    "Verif.C97_box_size",
    "Verif.C97_small_box_panics_violates",
    "Verif.C97_zero_per_byte_violates",
    "Verif.C97_in_tx_builder",
    "Verif.C97_min_value_violates",
    "Verif.C97_box_below_min_violates"
   ],
   "note": "Contents, refusals and the check of the value proved for all sequences of calls. Violated: building a box of less than 30 bytes panics (any script up to 12 bytes with the default settings, everything with zero per byte); the answer of calc_min_box_value() can be too low once it is set (exactly when it takes more bytes than the old value, three rounds are always enough); the bytes counted are those of the candidate, so a box can lie below the minimum of the box it becomes."
  },
  {
   "property": "C98",
   "status": "partial",
   "theorems": [
    "Verif.C98_sound",
    "Verif.C98_first_partial",
    "Verif.C98_all_partial",
    "Verif.C98_complete",
    "Verif.C98_error",
    "Verif.C98_made",
    "Verif.C98_interpreter",
    "Verif.C98_duplicate_input_violates",
    "Verif.C98_zero_bytes_violates"
   ],
   "note": "Proved: what is accepted (C98_sound, C98_made), completeness for every accepted transaction, agreement for the first input that spends the box and for transactions that spend no box twice, errors otherwise; the interpreter model meets the hypothesis (C98_interpreter). Violated: of several inputs that spend the box only the first is checked; a proof present with no bytes is false here and an error in the verifier."
  },
  {
   "property": "C99",
   "status": "proved",
   "theorems": [
    "Verif.C99_to_int",
    "Verif.C99_of_int",
    "Verif.C99_inverse",
    "Verif.C99_secp",
    "Verif.C99_exp",
    "Verif.C99_no_int"
   ],
   "note": "The bytes and shifts of the conversions are modelled; the multiplication of a point by a scalar is that of an abstract module over the scalars."
  },
  {
   "property": "C100",
   "status": "partial",
   "theorems": [
    "Verif.Props.C100_future",
    "Verif.Props.C100_items",
    "Verif.Props.C100_stream",
    "Verif.Props.C100_gone_violates"
   ],
   "note": "Proved for all programs that do not drop the timer. Violated when the timer is gone: TimedOut comes at once and at every poll, however long the timeout."
  },
  {
   "property": "C101",
   "status": "partial",
   "theorems": [
    "Verif.C101_read_partial",
    "Verif.C101_accepts",
    "Verif.C101_unambiguous",
    "Verif.C101_typed_partial",
    "Verif.C101_type",
    "Verif.C101_shown",
    "Verif.C101_round_trip_partial",
    "Verif.C101_tuple",
    "Verif.C101_tuple_violates",
    "Verif.C101_mixed_violates",
    "Verif.C101_long_first_violates",
    "Verif.C101_small_types_violates",
    "Verif.C101_empty_violates",
    "Verif.C101_number_violates"
   ],
   "note": "Proved for whole numbers, arrays of uniform elements and non-empty collections. Violated: tuples are shown without their marker and come back as collections (even ill typed) or not at all; Boolean is not read, Byte and Short come back as Int; empty arrays panic; fractions, large numbers and NaN are silently changed."
  },
  {
   "property": "C102",
   "status": "partial",
   "theorems": [
    "Verif.C102_accepts",
    "Verif.C102_headers_partial",
    "Verif.C102_defaults_violates",
    "Verif.C102_rest",
    "Verif.C102_limit_partial",
    "Verif.C102_limit_violates",
    "Verif.C102_replace"
   ],
   "note": "Proved for default headers with one value per name and limits below 2^31 milliseconds. Violated otherwise: of several default values only the last is sent, and longer limits wrap around to zero or negative ones. The answer is the subject of C108."
  },
  {
   "property": "C103",
   "status": "partial",
   "theorems": [
    "Verif.C103_path",
    "Verif.C103_distinct",
    "Verif.C103_sent",
    "Verif.C103_content",
    "Verif.C103_key_partial",
    "Verif.C103_key_violates",
    "Verif.C103_limit_partial",
    "Verif.C103_limit_violates"
   ],
   "note": "Proved for keys of printable ASCII characters and limits below 2^31 milliseconds. Violated otherwise: another key is silently replaced by the text None, and a longer limit may become zero. The address is an arbitrary base URL to which the path is appended. In the builds that do not target wasm32 the crate reqwest is used instead of the modelled client."
  },
  {
   "property": "C104",
   "status": "partial",
   "theorems": [
    "Verif.C104_since",
    "Verif.C104_add",
    "Verif.C104_elapsed",
    "Verif.C104_system_elapsed_violates",
    "Verif.C104_next_partial",
    "Verif.C104_next_ok",
    "Verif.C104_next_violates",
    "Verif.C104_fraction_violates"
   ],
   "note": "Proved for Instant and, except elapsed, for SystemTime, and for intervals of whole milliseconds. Violated: SystemTime::elapsed fails as soon as time has passed; intervals with a fraction of a millisecond get a next time in the past. Rounding of floating point numbers is not modelled."
  },
  {
   "property": "C105",
   "status": "partial",
   "theorems": [
    "Verif.C105_chain_partial",
    "Verif.C105_provable",
    "Verif.C105_continued",
    "Verif.C105_header",
    "Verif.C105_work",
    "Verif.C105_target",
    "Verif.C105_lost_links_violates",
    "Verif.C105_later_partial",
    "Verif.C105_later_violates",
    "Verif.C105_short_sum_violates",
    "Verif.C105_panic_violates"
   ],
   "note": "Proved for every stream that gives out its blocks, in builds with overflow checks or for levels up to 254, assuming that a hit below the target has no negative level (floating point is not modelled). Violated: a zero index makes the generator panic; an error while computing the interlinks of a start block is dropped and the second block panics. For later versions (next_block only) the solution is the verifier's only if the sum of the elements is at least 2^247, and the header is not read back as it was. That numeric_hash ends is not provable for an arbitrary hash."
  },
  {
   "property": "C106",
   "status": "partial",
   "theorems": [
    "Verif.C106_proof_size",
    "Verif.C106_signed_size",
    "Verif.C106_estimate_partial",
    "Verif.C106_estimate_violates",
    "Verif.C106_long_proof_violates"
   ],
   "note": "Proved for proofs of every proposition and, for proofs below 65536 bytes, for signed transactions. Violated: the estimate is too small by 54 bytes for every input, because the mock proof is a vector of the two bytes 0 and 24; the byte form of a proof of 65536 bytes or more states a wrong length."
  },
  {
   "property": "C107",
   "status": "partial",
   "theorems": [
    "Verif.C107_signs",
    "Verif.C107_refuses",
    "Verif.C107_keeps_partial",
    "Verif.C107_bound",
    "Verif.C107_mnemonic",
    "Verif.C107_message_spends",
    "Verif.C107_bad_secret_violates"
   ],
   "note": "Proved for keys; for other propositions with secrets that fit their tuples. Violated: a signed message is a spending proof when the message is the bytes to sign of a transaction (no domain separation), and a Diffie-Hellman secret that does not fit its tuple hides the right one."
  },
  {
   "property": "C108",
   "status": "partial",
   "theorems": [
    "Verif.C108_value",
    "Verif.C108_honest",
    "Verif.C108_errors",
    "Verif.C108_limit_partial",
    "Verif.C108_limit_violates",
    "Verif.C108_status_violates",
    "Verif.C108_other_violates",
    "Verif.C108_panic_violates",
    "Verif.C108_timeout_violates",
    "Verif.C108_no_cors_violates",
    "Verif.C108_error_for_status",
    "Verif.C108_headers",
    "Verif.C108_content_length"
   ],
   "note": "Exact characterisation of values and errors, honest answers, headers and status proved. Violated: the time limit ends with the head of the answer, the status is not looked at, header, proof and transaction are not compared with those asked for, a bad header makes the caller panic, is_timeout is never true, answers in the mode no-cors panic. The parsers of URLs and of JSON text are parameters; times of the browser are arbitrary."
  },
  {
   "property": "C109",
   "status": "partial",
   "theorems": [
    "Verif.C109_no_ub_partial",
    "Verif.C109_null_ub_violates",
    "Verif.C109_null_partial",
    "Verif.C109_null_panic_violates",
    "Verif.C109_key_null",
    "Verif.C109_makes",
    "Verif.C109_makes_not",
    "Verif.C109_frame",
    "Verif.C109_frame_run",
    "Verif.C109_no_leak",
    "Verif.C109_delete",
    "Verif.C109_reads",
    "Verif.C109_to_bytes",
    "Verif.C109_error_text",
    "Verif.C109_contents",
    "Verif.C109_get_copy",
    "Verif.C109_token_round_trip",
    "Verif.C109_strings_violates"
   ],
   "note": "Exact effects of 28 functions on the memory, frame, no leaks, contents of collections after any program proved. Violated: null for a buffer, a C string or an unchecked result is undefined (an empty byte array from a null pointer included); functions without an error in their type panic on null; a deleted collection of strings leaves its own object behind. Other functions of the interface (boxes, transactions, wallets) are not modelled."
  },
  {
   "property": "C110",
   "status": "partial",
   "theorems": [
    "Verif.C110_start",
    "Verif.C110_start_null",
    "Verif.C110_completion_once",
    "Verif.C110_completion_answer",
    "Verif.C110_exactly_once_partial",
    "Verif.C110_abort_final",
    "Verif.C110_abort_ends",
    "Verif.C110_abort_calls",
    "Verif.C110_delete_handle",
    "Verif.C110_swift",
    "Verif.C110_abort_safe_partial",
    "Verif.C110_abort_violates",
    "Verif.C110_silent_violates",
    "Verif.C110_over",
    "Verif.C110_handle_violates"
   ],
   "note": "At most one completion, its contents, finality of an abort outside a poll, independence of the handle, the arguments and exactly one call without abort, panic and deletion proved for all interleavings. Violated: an abort after the completion, a second abort and an abort during a poll call both functions or one twice, and the Swift closure is used after it was freed; a panic in the query, the deletion of the runtime and refused arguments end without any call; a null variable for the handle is undefined. Tokio and Abortable are modelled by what they promise."
  },
  {
   "property": "C111",
   "status": "partial",
   "theorems": [
    "Verif.C111_texts",
    "Verif.C111_candidate",
    "Verif.C111_box",
    "Verif.C111_input",
    "Verif.C111_unsigned_input",
    "Verif.C111_transaction",
    "Verif.C111_unsigned_transaction",
    "Verif.C111_reads_box",
    "Verif.C111_reads_transaction",
    "Verif.C111_box_names",
    "Verif.C111_input_names",
    "Verif.C111_register_names",
    "Verif.C111_unsigned_input_violates",
    "Verif.C111_header",
    "Verif.C111_proofs",
    "Verif.C111_block",
    "Verif.C111_propositions",
    "Verif.C111_hints",
    "Verif.C111_hint_bags",
    "Verif.C111_node"
   ],
   "note": "The forms are written down with the literal names, apart from the model; writers proved to write exactly them, readers of boxes and transactions to read every value of them, aliases proved. Violated: an unsigned input whose box is called id is refused, although inputs and data inputs allow it. Reading any value of the form is proved for boxes and transactions only; the others have the round trips of C76 to C79 and C85."
  },
  {
   "property": "C112",
   "status": "proved",
   "theorems": [
    "Verif.C112_token",
    "Verif.C112_box",
    "Verif.C112_transaction",
    "Verif.C112_unsigned_transaction",
    "Verif.C112_numbers",
    "Verif.C112_plain"
   ],
   "note": "Form, round trip through from_json and the bound on the numbers proved for all objects; the plain form is proved to have numbers as large as the amounts (C112_plain), which is why EIP-12 exists. The conversion of the JSON value to a JavaScript object (serde-wasm-bindgen) is not modelled."
  },
  {
   "property": "C113",
   "status": "partial",
   "theorems": [
    "Verif.C113_numbers",
    "Verif.C113_types_written",
    "Verif.C113_types_partial",
    "Verif.C113_short_pair_violates",
    "Verif.C113_proposition",
    "Verif.C113_constant_partial",
    "Verif.C113_box_partial",
    "Verif.C113_transaction_partial",
    "Verif.C113_reduced_partial",
    "Verif.C113_expression_partial",
    "Verif.C113_tree_partial",
    "Verif.C113_codes",
    "Verif.C113_header_without_pow",
    "Verif.C113_header",
    "Verif.C113_batch",
    "Verif.C113_nipopow",
    "Verif.C113_signature",
    "Verif.C113_fiat_shamir",
    "Verif.C113_peer"
   ],
   "note": "Every writer of the model is proved to give the form written down in Spec/Wire.lean and Spec/WireChain.lean. Partial because the code writes a pair of two Shorts with two bytes instead of the code 87 (C113_short_pair_violates), which concerns everything that contains a type. The forms were written down by hand from the tables of codes in the source and from what is generally known of the protocol; no protocol document was at hand to compare with."
  },
  {
   "property": "C114",
   "status": "partial",
   "theorems": [
    "Verif.C114_text",
    "Verif.C114_add",
    "Verif.C114_box_value",
    "Verif.C114_token_amount",
    "Verif.C114_bytes",
    "Verif.C114_number_partial",
    "Verif.C114_number_violates",
    "Verif.C114_longs",
    "Verif.C114_longs_read",
    "Verif.C114_tokens",
    "Verif.C114_get_partial",
    "Verif.C114_get_violates",
    "Verif.C114_headers"
   ],
   "note": "Texts, sums, amounts, bytes, arrays of Longs, Tokens and headers are proved in full. Partial because as_num gives the same JavaScript number for different integers above 2^53 (C114_number_violates; proved: it is always the nearest double, exact up to 2^53) and because the collections other than Tokens panic on an index beyond the end (C114_get_violates)."
  }
 ]
}