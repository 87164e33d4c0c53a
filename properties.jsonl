{"id": "C01", "title": "Unsigned VLQ integers round-trip inside any byte stream", "statement": "For every u64 value, the bytes written by put_u64 followed by arbitrary further bytes are read back by get_u64 as exactly that value, leaving exactly the further bytes unread; the same holds for put_u32/get_u32 and put_u16/get_u16. The written form is between 1 and 10 bytes, and two different values never share a written form, nor is one written form a proper prefix of another.", "quantifier": "all 2^64 values and all continuations of the stream", "why_tests_cant": "2^64 values times arbitrary suffixes; the loop-termination byte and the continuation bit interact at every 7-bit boundary.", "anchors": ["sigma-ser/src/vlq_encode.rs: put_u64, put_u32, put_u16, get_u64, get_u32, get_u16"]}
{"id": "C02", "title": "Signed VLQ/ZigZag integers round-trip, including negative i32 that are widened to ten bytes", "statement": "For every i16, i32 and i64 value, the signed writers followed by the signed readers return the same value and leave the rest of the stream untouched; ZigZag is a bijection between i64 and u64 that maps small absolute values to small codes.", "quantifier": "all i16, i32, i64 values and all stream continuations", "why_tests_cant": "Sign extension of the 32-bit ZigZag code to 64 bits only shows on values of large magnitude; exhaustive testing of i64 is impossible.", "anchors": ["sigma-ser/src/zig_zag_encode.rs", "sigma-ser/src/vlq_encode.rs: put_i16, put_i32, put_i64, get_i16, get_i32, get_i64"]}
{"id": "C03", "title": "VLQ reading is total and bounded; non-canonical encodings are the only ambiguity", "statement": "get_u64 on an arbitrary byte string either fails, or consumes between 1 and 10 bytes and yields a 64-bit value which, re-encoded, is never longer than what was consumed. It fails exactly when the string ends before a terminating byte among the first ten, or the first ten bytes all carry the continuation bit. (Re-encoding is not the identity: overlong forms and excess bits of byte ten are accepted.)", "quantifier": "all byte strings", "why_tests_cant": "The input space is all byte strings; malleability is a statement about every string that decodes to the same value.", "anchors": ["sigma-ser/src/vlq_encode.rs: get_u64"]}
{"id": "C04", "title": "Bit vectors, short strings, length-prefixed lists and options round-trip", "statement": "put_bits/get_bits with the right bit count, put_short_string/get_short_string for strings up to 255 bytes, Vec<T> serialization and put_option/get_option all round-trip in any stream, for every element codec that itself round-trips.", "quantifier": "all boolean vectors, byte strings, lists and element codecs", "why_tests_cant": "Lengths not divisible by eight, empty inputs and arbitrary element codecs have to compose.", "anchors": ["sigma-ser/src/vlq_encode.rs: put_bits, get_bits, put_short_string, get_short_string, put_option, get_option", "sigma-ser/src/scorex_serialize.rs: Vec<T>"]}
{"id": "C05", "title": "Box values and token amounts stay inside protocol bounds under every checked operation", "statement": "Every BoxValue obtained through the public constructors and arithmetic (try_from, checked_add, checked_sub, checked_mul, sums, parsing) lies in [MIN_RAW, i64::MAX], every TokenAmount in [1, i64::MAX]; results equal the exact integer result whenever they are returned, and an error is returned exactly when the exact result is out of bounds.", "quantifier": "all sequences of operations and operands", "why_tests_cant": "Boundary overflow of 64-bit arithmetic over arbitrary operation sequences.", "anchors": ["ergotree-ir/src/chain/ergo_box/box_value.rs", "ergotree-ir/src/chain/token.rs"]}
{"id": "C06", "title": "Box selection returns a subset that covers the target with exact change", "statement": "Whenever SimpleBoxSelector::select succeeds, the selected boxes are a sub-sequence of the inputs, each used once; the selected nanoErg total equals target plus the sum over change boxes, and for every token id the selected total equals the target amount plus the total in change boxes.", "quantifier": "all input lists, targets and token bags", "why_tests_cant": "Conservation must hold for each token id over arbitrary input sets and orders.", "anchors": ["ergo-lib/src/wallet/box_selector/simple.rs: SimpleBoxSelector::select", "ergo-lib/src/wallet/box_selector.rs: sum_tokens, sum_value, subtract_tokens, make_change_boxes"]}
{"id": "C07", "title": "Box selection fails only when funds are insufficient", "statement": "If the inputs in total contain the target value and tokens (and a change box can be afforded out of all the inputs) then select succeeds.", "quantifier": "all input lists, targets and token bags", "why_tests_cant": "Completeness quantifies over all inputs on which the greedy pass could get stuck.", "anchors": ["ergo-lib/src/wallet/box_selector/simple.rs: SimpleBoxSelector::select"]}
{"id": "C08", "title": "A built transaction conserves nanoErgs", "statement": "Whenever TxBuilder::build succeeds, the sum of input values equals the sum of output candidate values plus the fee (the fee box included in outputs), with no 64-bit overflow.", "quantifier": "all selections, outputs, fees, data inputs and context extensions", "why_tests_cant": "Value conservation over arbitrary output lists including overflow corner cases.", "anchors": ["ergo-lib/src/wallet/tx_builder.rs: build_tx"]}
{"id": "C09", "title": "No token is created except the single allowed mint, and no token burns without a permit", "statement": "Whenever build succeeds, every token id whose output amount exceeds its input amount is the id of the first input (minting), and at most one such id exists; every token whose input amount exceeds its output amount is covered by burn permits for exactly the burnt amount, and there are no unused permits.", "quantifier": "all token bags in inputs, outputs and permits", "why_tests_cant": "A statement about every token id in arbitrary multisets.", "anchors": ["ergo-lib/src/wallet/tx_builder.rs: build_tx, check_enough_token_burn_permit, check_unused_token_burn_permit"]}
{"id": "C10", "title": "Transaction id ignores proofs and commits to everything else", "statement": "The message signed / transaction id is the same for transactions differing only in spending proofs, and two transactions with equal bytes-to-sign have equal inputs (without proofs), data inputs and output candidates.", "quantifier": "all transactions", "why_tests_cant": "Injectivity of a serialization is a statement about pairs of arbitrary transactions.", "anchors": ["ergo-lib/src/chain/transaction.rs: bytes_to_sign, calc_tx_id, Transaction::new", "ergo-lib/src/chain/transaction/unsigned.rs"]}
{"id": "C11", "title": "Transactions survive serialization with an indexed token table", "statement": "Parsing the serialization of any well-formed transaction returns the same inputs, data inputs and outputs; every token index written in an output refers to that token's id in the digest table.", "quantifier": "all transactions within size limits", "why_tests_cant": "Token-id de-duplication across outputs makes correctness depend on global structure.", "anchors": ["ergo-lib/src/chain/transaction.rs: sigma_serialize, sigma_parse", "ergotree-ir/src/chain/ergo_box.rs: serialize_box_with_indexed_digests, parse_box_with_indexed_digests"]}
{"id": "C12", "title": "Registers R4..R9 are densely packed and addressable", "statement": "Constructing non-mandatory registers from a map succeeds exactly when the defined ids form a prefix R4,R5,...; every defined register is returned unchanged by lookup under its own id and undefined ids give none; serialization round-trips.", "quantifier": "all register maps and ids", "why_tests_cant": "All combinations of register ids and values, and every lookup id.", "anchors": ["ergotree-ir/src/chain/ergo_box/register.rs: NonMandatoryRegisters::new, get, get_constant, try_from, sigma_serialize, sigma_parse"]}
{"id": "C13", "title": "Type codes identify types", "statement": "Serializing any supported type and parsing it back (in any stream) yields the same type; consequently distinct types have distinct, prefix-free encodings. Parsing terminates on every input and never yields an over-wide tuple.", "quantifier": "all types of any nesting depth", "why_tests_cant": "Types nest without bound, and the compact embeddings collide at nested collections/pairs/options.", "anchors": ["ergotree-ir/src/serialization/types.rs: TypeCode, SType::sigma_serialize, SType::parse_with_type_code"]}
{"id": "C14", "title": "Constants round-trip with their type", "statement": "For every well-typed constant of a serializable type (numbers, booleans, group elements, sigma propositions, byte strings, nested collections, tuples), serialize then parse gives the same constant and consumes exactly the written bytes.", "quantifier": "all well-typed values of any nesting", "why_tests_cant": "Values nest without bound, and element encodings depend on the type (bit-packing of booleans, native byte arrays).", "anchors": ["ergotree-ir/src/serialization/data.rs: DataSerializer", "ergotree-ir/src/serialization/constant.rs", "ergotree-ir/src/mir/constant.rs"]}
{"id": "C15", "title": "Sigma propositions round-trip", "statement": "Every SigmaBoolean tree (threshold parameter at most 255, 2..255 children) serializes and parses back to itself in any stream.", "quantifier": "all proposition trees", "why_tests_cant": "Trees of unbounded depth and all widths.", "anchors": ["ergotree-ir/src/serialization/sigmaboolean.rs", "ergotree-ir/src/sigma_protocol/sigma_boolean/cand.rs", "ergotree-ir/src/sigma_protocol/sigma_boolean/cor.rs", "ergotree-ir/src/sigma_protocol/sigma_boolean/cthreshold.rs"]}
{"id": "C16", "title": "Normalization of conjunctions, disjunctions and thresholds preserves meaning", "statement": "For every assignment of provability to leaves, Cand::normalized, Cor::normalized and Cthreshold::reduce return a proposition that is provable exactly when all / any / at least k of the children are; none of them panics; the result contains no trivially true or false child at top level.", "quantifier": "all child lists, all k, all assignments of leaves", "why_tests_cant": "Threshold reduction mutates a running k and child count; correctness depends on every order and mix of trivial children.", "anchors": ["ergotree-ir/src/sigma_protocol/sigma_boolean/cand.rs: normalized", "ergotree-ir/src/sigma_protocol/sigma_boolean/cor.rs: normalized", "ergotree-ir/src/sigma_protocol/sigma_boolean/cthreshold.rs: reduce"]}
{"id": "C17", "title": "Type unification is sound", "statement": "When unify_types(t1, t2) succeeds with a substitution, applying it to t1 yields t2 (for t2 without type variables), up to the wildcard type SAny; unify_many is consistent across positions: one type variable never gets two different types.", "quantifier": "all pairs of types, all depths", "why_tests_cant": "Types of arbitrary depth with shared variables.", "anchors": ["ergotree-ir/src/types/type_unify.rs"]}
{"id": "C18", "title": "GF(2^192) multiplication is field multiplication", "statement": "The windowed table multiply of two 192-bit elements equals multiplication of polynomials over GF(2) modulo x^192+x^7+x^2+x+1; mul_by_i8 agrees with it; hence commutative, associative, distributive with 1 as identity.", "quantifier": "all pairs of 192-bit elements", "why_tests_cant": "2^384 pairs; window tables and reduction constants can be wrong on a single bit pattern.", "anchors": ["gf2_192/src/gf2_192.rs: multiply, mul_by_i8, Add"]}
{"id": "C19", "title": "GF(2^192) inversion inverts every nonzero element", "statement": "For every nonzero element z, invert(z) * z = 1; squaring tables compute z^(2^(2^k)) for all z and k.", "quantifier": "all nonzero 192-bit elements", "why_tests_cant": "Relies on tables of 7x192 words and irreducibility of the modulus.", "anchors": ["gf2_192/src/gf2_192.rs: invert, power_2_to_2_to_k, POW_TABLE_0, POW_TABLE_1, POW_TABLE_2"]}
{"id": "C20", "title": "Polynomial interpolation hits every requested point", "statement": "Gf2_192Poly::interpolate on distinct nonzero one-byte points (with a given value at zero) returns a polynomial of degree at most the number of points whose evaluate at each point returns the given value and at zero returns the value at zero; to_bytes / from bytes round-trips.", "quantifier": "all point sets and values", "why_tests_cant": "Arbitrary values in a field of 2^192 elements, all subsets of points.", "anchors": ["gf2_192/src/gf2_192poly.rs: interpolate, evaluate, to_bytes"]}
{"id": "C21", "title": "Every proof the prover generates is accepted by the verifier", "statement": "For any proposition tree, any set of secrets sufficient to prove it, any randomness and any message: the proof bytes produced by the prover are accepted by the verifier for the same proposition and message.", "quantifier": "all proposition trees, secrets, randomness, messages", "why_tests_cant": "Unbounded trees mixing real and simulated AND/OR/THRESHOLD/Schnorr/DHT nodes; challenge distribution is a global constraint.", "anchors": ["ergotree-interpreter/src/sigma_protocol/prover.rs", "ergotree-interpreter/src/sigma_protocol/verifier.rs", "ergotree-interpreter/src/sigma_protocol/dlog_protocol.rs", "ergotree-interpreter/src/sigma_protocol/dht_protocol.rs"]}
{"id": "C22", "title": "Proof serialization is faithful", "statement": "Parsing the serialized proof of a consistent proof tree against the same proposition reconstructs the same challenges and responses at every node.", "quantifier": "all proof trees", "why_tests_cant": "Challenges are omitted from bytes and recomputed from XOR / polynomial evaluation.", "anchors": ["ergotree-interpreter/src/sigma_protocol/sig_serializer.rs: serialize_sig, parse_sig_compute_challenges"]}
{"id": "C23", "title": "The verifier only accepts consistent challenges and valid transcripts", "statement": "If verification accepts, then every node's challenge is determined as the protocol demands (AND children share, OR children XOR to the parent, THRESHOLD children lie on a polynomial of degree n-k through the parent), every leaf commitment satisfies the Schnorr/DH equation, and the root challenge equals the hash of commitments and message.", "quantifier": "all byte strings offered as proofs, all propositions", "why_tests_cant": "Adversarial inputs range over all byte strings.", "anchors": ["ergotree-interpreter/src/sigma_protocol/verifier.rs: verify_signature, check_commitments, compute_commitments", "ergotree-interpreter/src/sigma_protocol/sig_serializer.rs"]}
{"id": "C24", "title": "Special soundness: two accepting leaf transcripts reveal the witness", "statement": "Two accepting transcripts of the discrete-log (or DH-tuple) protocol with the same commitment and different challenges determine the secret; simulated transcripts always verify.", "quantifier": "all group elements, challenges, responses", "why_tests_cant": "Algebraic statement over the whole group.", "anchors": ["ergotree-interpreter/src/sigma_protocol/dlog_protocol.rs", "ergotree-interpreter/src/sigma_protocol/dht_protocol.rs"]}
{"id": "C25", "title": "Fiat-Shamir transcript is injective", "statement": "The byte string hashed for the challenge determines the proposition tree shape, all leaf propositions and all commitments.", "quantifier": "all proof trees", "why_tests_cant": "Injectivity on unbounded trees.", "anchors": ["ergotree-interpreter/src/sigma_protocol/fiat_shamir.rs: fiat_shamir_tree_to_bytes"]}
{"id": "C26", "title": "Merkle proofs of every leaf of every tree validate", "statement": "For every non-empty list of leaves and every index, proof_by_index gives a proof whose leaf is that leaf and which is valid against root_hash; out-of-range indices give none.", "quantifier": "all leaf lists, all indices, any hash function", "why_tests_cant": "All tree sizes, including odd and non-power-of-two with empty padding nodes.", "anchors": ["ergo-merkle-tree/src/merkletree.rs", "ergo-merkle-tree/src/merkleproof.rs"]}
{"id": "C27", "title": "A valid Merkle proof shows membership unless the hash collides", "statement": "If a proof is valid against the root of a tree, then its leaf data is one of the tree's leaves, or an explicit pair of distinct inputs with the same hash is exhibited among the data hashed by tree and proof.", "quantifier": "all trees, all proofs of any length, any hash function", "why_tests_cant": "Adversarial proofs of any length and side pattern.", "anchors": ["ergo-merkle-tree/src/merkleproof.rs: valid", "ergo-merkle-tree/src/lib.rs: prefixed_hash, prefixed_hash2"]}
{"id": "C28", "title": "Batch Merkle proofs validate for every index set and terminate on every input", "statement": "For every tree and every nonempty set of valid indices, proof_by_indices gives a proof accepted by valid for the tree's root; validation terminates on every proof.", "quantifier": "all leaf lists, all index sets", "why_tests_cant": "Combinatorial: every subset of leaves of every tree size.", "anchors": ["ergo-merkle-tree/src/merkletree.rs: proof_by_indices, build_multiproof", "ergo-merkle-tree/src/batchmerkleproof.rs: valid, validate"]}
{"id": "C29", "title": "Batch Merkle proofs authenticate the claimed leaf positions", "statement": "If a batch proof is valid for a root, each (index, hash) it lists is the hash of the leaf at that index (unless the hash collides).", "quantifier": "all proofs", "why_tests_cant": "Adversarial proofs.", "anchors": ["ergo-merkle-tree/src/batchmerkleproof.rs: valid"]}
{"id": "C30", "title": "Batch Merkle proof bytes round-trip", "statement": "Serializing and parsing a batch Merkle proof returns it unchanged.", "quantifier": "all batch proofs", "why_tests_cant": "Fixed-size fields and a zero-hash sentinel.", "anchors": ["ergo-merkle-tree/src/batchmerkleproof.rs: scorex_serialize, scorex_parse"]}
{"id": "C31", "title": "Interlink vectors survive packing", "statement": "unpack_interlinks(pack_interlinks(v)) = v for every non-empty interlink vector; update_interlinks keeps genesis first and never shortens the vector.", "quantifier": "all interlink vectors", "why_tests_cant": "Run-length counters are single bytes; runs of any length and number.", "anchors": ["ergo-nipopow/src/nipopow_algos.rs: pack_interlinks, unpack_interlinks, update_interlinks"]}
{"id": "C32", "title": "NiPoPoW verifier state only improves and only holds anchored valid proofs", "statement": "After any sequence of processed proofs the stored best proof starts at the configured genesis, and it changes only to a proof that is better than the previous one; a stored proof is valid.", "quantifier": "all histories of processed proofs", "why_tests_cant": "History-dependent statement over arbitrary sequences.", "anchors": ["ergo-nipopow/src/nipopow_verifier.rs: process", "ergo-nipopow/src/nipopow_proof.rs: is_better_than, has_valid_connections"]}
{"id": "C33", "title": "Lowest common ancestor is the highest shared header", "statement": "For chains with strictly increasing heights and the same first header, lowest_common_ancestor returns the common header of maximal height.", "quantifier": "all pairs of chains", "why_tests_cant": "Arbitrary forks and interleavings of headers.", "anchors": ["ergo-nipopow/src/nipopow_algos.rs: lowest_common_ancestor"]}
{"id": "C34", "title": "Block headers round-trip and their id commits to all fields", "statement": "Parsing a serialized header yields the same header with id equal to the hash of the bytes.", "quantifier": "all headers", "why_tests_cant": "Variable-length fields and version-dependent layout.", "anchors": ["ergo-chain-types/src/header.rs: scorex_serialize, scorex_parse, serialize_without_pow"]}
{"id": "C35", "title": "Script arithmetic is exact or fails", "statement": "Evaluating +,-,*,/,% , negation, casts and comparisons on Byte, Short, Int, Long and BigInt returns the exact mathematical result in range or an error, never a wrapped value.", "quantifier": "all operand pairs of each numeric type", "why_tests_cant": "Operand space 2^512 for BigInt; overflow corner cases.", "anchors": ["ergotree-interpreter/src/eval/bin_op.rs", "ergotree-interpreter/src/eval/upcast.rs", "ergotree-interpreter/src/eval/downcast.rs", "ergotree-interpreter/src/eval/negation.rs", "ergotree-ir/src/bigint256.rs"]}
{"id": "C36", "title": "Byte-array conversions are inverse", "statement": "byteArrayToLong(longToByteArray(x)) = x for every Long, and byteArrayToBigInt interprets big-endian two's complement.", "quantifier": "all 64-bit values / all byte arrays", "why_tests_cant": "2^64 values; sign-extension effects.", "anchors": ["ergotree-interpreter/src/eval/byte_array_to_long.rs", "ergotree-interpreter/src/eval/long_to_byte_array.rs", "ergotree-interpreter/src/eval/byte_array_to_bigint.rs"]}
{"id": "C37", "title": "Evaluation does not disturb variables of enclosing scopes", "statement": "Evaluating any sub-expression in a non-empty environment leaves all variable bindings as they were, so sibling expressions do not influence each other.", "quantifier": "all expressions and environments", "why_tests_cant": "Arbitrary nesting of blocks, lambdas and collection operations with shadowing.", "anchors": ["ergotree-interpreter/src/eval/block.rs", "ergotree-interpreter/src/eval/apply.rs", "ergotree-interpreter/src/eval/coll_map.rs", "ergotree-interpreter/src/eval/coll_filter.rs", "ergotree-interpreter/src/eval/coll_fold.rs"]}
{"id": "C38", "title": "Collection operations agree with their sequence meaning", "statement": "slice, append, byIndex, updated, updateMany, patch, zip, indices, indexOf, map, filter, fold, exists, forall compute the corresponding sequence operations for all collections and index arguments.", "quantifier": "all collections and index arguments", "why_tests_cant": "Negative and out-of-range indices over arbitrary sizes.", "anchors": ["ergotree-interpreter/src/eval/coll_slice.rs", "ergotree-interpreter/src/eval/scoll.rs", "ergotree-interpreter/src/eval/coll_by_index.rs", "ergotree-interpreter/src/eval/coll_append.rs"]}
{"id": "C39", "title": "Derivation paths print and parse back", "statement": "Displaying any derivation path and parsing the text yields the same path; text with an invalid component is rejected.", "quantifier": "all paths / all strings", "why_tests_cant": "Paths of any depth, arbitrary strings.", "anchors": ["ergo-lib/src/wallet/derivation_path.rs: Display, FromStr"]}
{"id": "C40", "title": "Public and secret key derivation commute", "statement": "For a non-hardened path, deriving the child secret key then taking its public key equals deriving the child public key from the parent's public key; deriving in stages equals deriving in one go.", "quantifier": "all keys, chain codes, paths, any MAC function", "why_tests_cant": "Depends on group homomorphism and retry-on-invalid behaviour for all keys.", "anchors": ["ergo-lib/src/wallet/ext_secret_key.rs: child, derive", "ergo-lib/src/wallet/ext_pub_key.rs: child, derive"]}
{"id": "C41", "title": "Addresses round-trip and are network-separated", "statement": "Encoding an address for a network and parsing it returns the address and network; the encoder of the other network rejects it; any accepted byte string re-encodes to itself.", "quantifier": "all addresses and byte strings", "why_tests_cant": "Checksums and prefixes over all content bytes.", "anchors": ["ergotree-ir/src/chain/address.rs: AddressEncoder, NetworkAddress"]}
{"id": "C42", "title": "ErgoTree constants can be replaced without touching the script", "statement": "Replacing constant i of a segregated ErgoTree with a constant of the same type changes only that constant; type changes and out-of-range indices are refused; the proposition is the body with placeholders replaced by the constants.", "quantifier": "all trees, indices, constants", "why_tests_cant": "All constant tables and bodies.", "anchors": ["ergotree-ir/src/ergo_tree.rs: with_constant, proposition, constants_len", "ergotree-interpreter/src/eval/subst_const.rs"]}
{"id": "C43", "title": "ErgoTree headers and sized trees round-trip", "statement": "Serializing an ErgoTree and parsing it returns the same tree, including trees whose body could not be parsed; unparsed trees re-serialize to the very bytes received.", "quantifier": "all trees / all byte strings", "why_tests_cant": "Arbitrary body bytes, header bit combinations.", "anchors": ["ergotree-ir/src/ergo_tree.rs: sigma_serialize, sigma_parse", "ergotree-ir/src/ergo_tree/tree_header.rs"]}
{"id": "C44", "title": "Multi-signature hint bags do not leak or mix inputs", "statement": "Hints added for an input are returned for that input only, and secret randomness (own commitments) is only held on the secret side of the bag.", "quantifier": "all sequences of bag operations", "why_tests_cant": "Arbitrary histories of bag updates.", "anchors": ["ergo-lib/src/wallet/multi_sig.rs: TransactionHintsBag"]}
{"id": "C45", "title": "Autolykos index generation and table size are well defined", "statement": "gen_indexes returns k indexes below N for every seed hash and calc_big_n is monotone in height and fits the 32-bit bound the code comments rely on.", "quantifier": "all seeds and heights", "why_tests_cant": "All 256-bit seeds and all 32-bit heights.", "anchors": ["ergo-nipopow/src/autolykos_pow_scheme.rs: gen_indexes, calc_big_n, as_unsigned_byte_array"]}
{"id": "C46", "title": "Compact difficulty bits decode as documented", "statement": "decode_compact_bits yields sign * mantissa * 256^(size-3) (mantissa truncated for small sizes), and is non-negative iff the sign bit is clear.", "quantifier": "all 32-bit compact values", "why_tests_cant": "2^32 values against an arithmetic formula.", "anchors": ["ergo-nipopow/src/nipopow_algos.rs: decode_compact_bits"]}
{"id": "C47", "title": "Peer specification messages round-trip", "statement": "PeerSpec, PeerFeature, PeerAddr, ProtocolVersion serialize and parse to themselves within protocol limits.", "quantifier": "all peer specs with IPv4 addresses", "why_tests_cant": "Nested optional and length-prefixed fields.", "anchors": ["ergo-p2p/src/peer_spec.rs", "ergo-p2p/src/peer_feature.rs", "ergo-chain-types/src/peer_addr.rs"]}
{"id": "C48", "title": "Context extensions and prover results round-trip", "statement": "A context extension (at most 255 entries) and a proof (at most 65535 bytes) serialize and parse back to the same value.", "quantifier": "all maps and byte strings", "why_tests_cant": "Length counters are truncated casts.", "anchors": ["ergotree-interpreter/src/sigma_protocol/prover/context_extension.rs", "ergotree-interpreter/src/sigma_protocol/prover/prover_result.rs"]}
{"id": "C49", "title": "Output boxes get unique ids tied to their transaction", "statement": "The outputs of a constructed transaction are its candidates in order, labelled with the transaction id and their index; a box id determines the box contents, the creating transaction and the index (barring hash collisions), so two outputs never share an id.", "quantifier": "all transactions, all pairs of outputs", "why_tests_cant": "Statement about pairs of arbitrary boxes and transactions.", "anchors": ["ergo-lib/src/chain/transaction.rs: Transaction::new", "ergotree-ir/src/chain/ergo_box.rs: from_box_candidate, calc_box_id"]}
{"id": "C50", "title": "Script expressions survive a trip through bytes", "statement": "Serializing any expression tree and parsing it, with any bytes behind it, returns the same tree and leaves those bytes; a parser that substitutes placeholders returns the tree with every placeholder replaced by its constant; two expressions never share their bytes; whatever is parsed can be written and parsed again.", "quantifier": "all expressions of any size and depth, all byte strings", "why_tests_cant": "Expressions are unbounded recursive trees over 70 node kinds with a type environment threaded through the parser.", "anchors": ["ergotree-ir/src/serialization/expr.rs: Expr::sigma_serialize, Expr::parse_with_tag", "ergotree-ir/src/serialization/bin_op.rs", "ergotree-ir/src/mir/*.rs: sigma_parse, sigma_serialize"]}
{"id": "C51", "title": "Boxes inside scripts inside boxes", "statement": "The box and transaction codecs and id commitments keep holding when scripts are real ErgoTrees whose constants contain boxes, which have scripts and registers in turn, to any nesting depth.", "quantifier": "all nesting depths, all transactions and boxes", "why_tests_cant": "Nesting depth is unbounded; tests have at most one level.", "anchors": ["ergotree-ir/src/chain/ergo_box.rs", "ergotree-ir/src/ergo_tree.rs", "ergotree-ir/src/serialization/data.rs", "ergo-lib/src/chain/transaction.rs"]}
{"id": "C52", "title": "flatMap concatenates the results of its calls", "statement": "coll.flatMap(f) is the concatenation of f(x) for the items x in order, a collection with the element type of the inner collections, including byte collections.", "quantifier": "all collections, all lambdas the interpreter accepts in flatMap", "why_tests_cant": "Collection lengths are unbounded; the only test uses one collection of Long collections and forgets the element type.", "anchors": ["ergotree-interpreter/src/eval/scoll.rs: FLATMAP_EVAL_FN", "ergotree-ir/src/mir/value.rs: CollKind::from_vec_vec"]}
{"id": "C53", "title": "Scripts cannot make the interpreter run for ever", "statement": "Evaluation of any script on any context ends; with a cost limit L it ends within L nested steps, and the outcome of an evaluation that ends does not depend on the room there is for nested calls.", "quantifier": "all scripts, contexts, environments and limits", "why_tests_cant": "Non-termination and unbounded recursion are about all executions of all scripts.", "anchors": ["ergotree-interpreter/src/eval.rs: reduce_to_crypto", "ergotree-interpreter/src/eval/cost_accum.rs: CostAccumulator::add", "ergotree-interpreter/src/eval/expr.rs: Expr::eval"]}
{"id": "C54", "title": "Functions use the variables in force where they are written", "statement": "Calling a function evaluates its body with the parameters bound to the arguments and all other variables as they were where the function was created.", "quantifier": "all functions, call sites and environments", "why_tests_cant": "A statement about all pairs of creation and call environments.", "anchors": ["ergotree-interpreter/src/eval/apply.rs", "ergotree-interpreter/src/eval/func_value.rs", "ergotree-ir/src/mir/value.rs: Lambda"]}
{"id": "C55", "title": "Reducing a script gives a proposition or an error", "statement": "reduce_to_crypto never panics: the result is the proposition the script evaluates to (a Boolean counting as the trivial one) or an error.", "quantifier": "all scripts of type Boolean or SigmaProp, all contexts", "why_tests_cant": "Every well-typed script on every context.", "anchors": ["ergotree-interpreter/src/eval.rs: reduce_to_crypto", "ergotree-interpreter/src/eval/error.rs: wrap_spanned_with_src"]}
{"id": "C56", "title": "The NiPoPoW prover makes valid, sufficient proofs", "statement": "From the chain of a full node prove(k, m) returns a proof that is_valid accepts, that starts at the first block, ends with the last k blocks, contains only blocks of the chain in order, and for each level contains the last m superblocks of the part before the suffix.", "quantifier": "all chains, levels, k and m within the chain length", "why_tests_cant": "The recursion over levels and the linkage through interlinks depend on the whole level structure of the chain.", "anchors": ["ergo-nipopow/src/nipopow_algos.rs: prove, update_interlinks", "ergo-nipopow/src/nipopow_proof.rs: is_valid"]}
{"id": "C57", "title": "Interlinks are accepted only if the header commits to them", "statement": "check_interlinks_proof returns true only if the interlinks are committed to by the header's extension root, and it never panics on parsed input.", "quantifier": "all headers, interlink vectors and Merkle proofs", "why_tests_cant": "A statement about all forged proofs.", "anchors": ["ergo-nipopow/src/nipopow_proof.rs: PoPowHeader::check_interlinks_proof"]}
{"id": "C58", "title": "Proofs of interlinks made from an extension are accepted", "statement": "proof_for_interlink_vector of a block's extension is valid for the extension's Merkle root, lists exactly the interlink fields, and passes check_interlinks_proof.", "quantifier": "all extensions", "why_tests_cant": "All field lists and positions of the interlink fields among other fields.", "anchors": ["ergo-nipopow/src/nipopow_algos.rs: proof_for_interlink_vector, extension_batch_proof_for, extension_merkletree"]}
{"id": "C59", "title": "NiPoPoW proofs survive serialization", "statement": "Parsing a serialized NipopowProof (with any bytes behind it) returns the same proof; distinct proofs have distinct bytes; a byte string is read only if the embedded sizes are right.", "quantifier": "all proofs, any number of headers", "why_tests_cant": "Unbounded nested length-prefixed structures.", "anchors": ["ergo-nipopow/src/nipopow_proof.rs: ScorexSerializable for NipopowProof, ScorexSerializable for PoPowHeader"]}
{"id": "C60", "title": "The chain score is the best over all levels", "statement": "best_arg(chain, m) is the maximum of 2^level * (number of headers at that level or above) over level 0 and all levels with at least m headers; it grows when the chain grows; computing it ends.", "quantifier": "all chains and m", "why_tests_cant": "A maximum over all levels of chains of any length.", "anchors": ["ergo-nipopow/src/nipopow_algos.rs: best_arg, max_level_of"]}
{"id": "C61", "title": "The script of an address belongs to the address", "statement": "Address::script of a P2PK, P2SH or P2S address is a tree whose serialized bytes parse back to it and can be evaluated, and recreate_from_ergo_tree of that tree gives the address; different scripts have different addresses.", "quantifier": "all keys, script hashes and trees, all spending contexts for P2SH", "why_tests_cant": "Tests compare recreate(script(a)) with a; they neither serialize nor evaluate the script, nor look at other trees that give the same address.", "anchors": ["ergotree-ir/src/chain/address.rs: Address::script, Address::recreate_from_ergo_tree"]}
{"id": "C62", "title": "The peer database answers from its history", "statement": "After any sequence of add_or_update_peer and remove_peer calls, get_peer_by_addr returns the information last added with that address and not removed since; every entry is stored once, under its own address; adding returns the replaced entry; only peers without an address are refused, and refused calls change nothing.", "quantifier": "all sequences of calls, all peers and addresses", "why_tests_cant": "Tests do one call on a random database; the claim is about all histories.", "anchors": ["ergo-p2p/src/peer_database/in_memory.rs: InMemoryPeerDatabase", "ergo-p2p/src/peer_spec.rs: PeerSpec::addr"]}
{"id": "C63", "title": "Several parties can sign an AND proposition together", "statement": "If the keys of an AND proposition are distributed over several signers, and each in turn signs with their own commitments, everybody's public commitments and the hints extracted by bag_for_multi_sig from the previous signature, then all signing steps succeed and the last signature is accepted by the ordinary verifier.", "quantifier": "all AND propositions of any depth, all numbers and orders of signers, all orders of hints, all randomness and messages", "why_tests_cant": "Tests run two or three fixed signers on one proposition; the claim is an induction over the signing rounds.", "anchors": ["ergo-lib/src/wallet/multi_sig.rs: bag_for_multi_sig, generate_commitments_for", "ergotree-interpreter/src/sigma_protocol/prover.rs: generate_proof"]}
{"id": "C64", "title": "Signing adds proofs and nothing else, and the proofs are accepted", "statement": "sign_transaction evaluates the script of each input in the context the transaction describes (SELF, INPUTS, OUTPUTS, data inputs, variables, height). It returns the unsigned transaction with proofs: same id, inputs, variables, data inputs and outputs. If the wallet can prove what each script asks, signing succeeds and the verifier accepts every input; if it cannot prove one, signing is refused. sign_tx_input gives the input that sign_transaction puts at its place, hints of other inputs have no influence, and an accepted proof cannot be moved to a transaction that does something else.", "quantifier": "all transactions, boxes, scripts (as reductions), wallets, randomness and hints", "why_tests_cant": "The tests sign with one to ten known keys and verify with an arbitrary context; the claim is about every transaction and script.", "anchors": ["ergo-lib/src/wallet/signing.rs: sign_transaction, sign_tx_input, make_context, ErgoTransaction", "ergo-lib/src/wallet/tx_context.rs: TransactionContext::new, get_input_box", "ergotree-interpreter/src/sigma_protocol/prover.rs: Prover::prove", "ergotree-interpreter/src/sigma_protocol/verifier.rs: Verifier::verify"]}
{"id": "C65", "title": "A reduced transaction is as good as the transaction for signing", "statement": "Signing the result of reduce_tx gives the same result as signing the transaction, with any hints, also after the reduced transaction was serialized and parsed elsewhere; commitments made from it are the same too; signing it never panics.", "quantifier": "all transactions, contexts, wallets and hints; all reduced transactions a caller can hold", "why_tests_cant": "Unbounded inputs and propositions; the test signs one reduced transaction and does not compare.", "anchors": ["ergo-lib/src/chain/transaction/reduced.rs: reduce_tx, ReducedTransaction", "ergo-lib/src/wallet/signing.rs: sign_reduced_transaction", "ergo-lib/src/wallet.rs: generate_commitments_for_reduced_transaction", "ergo-lib/src/wallet/multi_sig.rs: generate_commitments"]}
{"id": "C66", "title": "Explaining a failed script does not change the verdict", "statement": "reduce_to_crypto returns what one evaluation of the script gives: a Boolean, a proposition, or the error. To explain the result false or an error it prints the script and, after an error, evaluates the printed script again. The printing never panics, the printed script is the same script up to the form of constant collections, and the second evaluation does not accept what the first refused.", "quantifier": "all scripts that parse, all contexts and both build modes", "why_tests_cant": "Tests print a handful of scripts that compile from source; the claim is about every script a box can carry, also dead code in it.", "anchors": ["ergotree-interpreter/src/eval.rs: reduce_to_crypto", "ergotree-ir/src/pretty_printer/print.rs: Print", "ergotree-ir/src/pretty_printer.rs: PosTrackingWriter", "ergotree-ir/src/mir/expr.rs: Expr::print"]}
{"id": "C67", "title": "Types of scripts can be relied on", "statement": "A script whose operands have the types its nodes require, and that reads registers and variables at the types they hold, evaluates only to values of the type Expr::tpe declares; no node or method sees an operand of the wrong type; a script of type SigmaProp or Boolean gives a proposition or an error, not a panic.", "quantifier": "all scripts following the typing rules, all contexts, any sizes", "why_tests_cant": "A type soundness theorem: an induction over all scripts and evaluations; tests evaluate single nodes.", "anchors": ["ergotree-ir/src/mir/expr.rs: Expr::tpe", "ergotree-ir/src/types/smethod.rs: SMethod::specialize_for", "ergotree-interpreter/src/eval/expr.rs: Expr::eval", "ergotree-interpreter/src/eval.rs: reduce_to_crypto, smethod_eval_fn", "ergotree-interpreter/src/eval/extract_reg_as.rs"]}
{"id": "C68", "title": "Typed scripts terminate within a stack bounded by their size", "statement": "The evaluation of a script that follows the typing rules ends, and its calls are never nested deeper than the script has nodes (code loaded from registers or variables counted in), whatever the context and although no cost limit is set.", "quantifier": "all scripts following the typing rules, all contexts", "why_tests_cant": "Termination for all scripts cannot be tested; it needs an order on functions and the scopes they were made in.", "anchors": ["ergotree-interpreter/src/eval/expr.rs: Expr::eval", "ergotree-interpreter/src/eval/apply.rs", "ergotree-interpreter/src/eval/deserialize_context.rs", "ergotree-interpreter/src/eval/deserialize_register.rs"]}
{"id": "C69", "title": "Scripts mean what they say", "statement": "The interpreter computes the mathematical meaning of a script: the meaning of a node is determined by the meanings of its operands, a variable means what the definition visible at its place says, functions are functions of their arguments, && and || and if skip what is not needed, and neither the mutable environment nor the order of cost accounting nor the stack shows through. reduce_to_crypto gives the proposition the script means.", "quantifier": "all typed scripts, contexts and stack depths", "why_tests_cant": "An adequacy theorem between an interpreter with mutable state and a compositional semantics; tests evaluate single scripts.", "anchors": ["ergotree-interpreter/src/eval/expr.rs: Expr::eval", "ergotree-interpreter/src/eval/block.rs", "ergotree-interpreter/src/eval/apply.rs", "ergotree-interpreter/src/eval/func_value.rs", "ergotree-interpreter/src/eval/coll_map.rs", "ergotree-interpreter/src/eval/coll_fold.rs", "ergotree-interpreter/src/eval/bin_op.rs", "ergotree-interpreter/src/eval.rs: reduce_to_crypto"]}
{"id": "C70", "title": "Logical and sigma operators mean what they say", "statement": "allOf is true exactly if all items are, anyOf if one is, xorOf if an odd number is. p1 && ... && pn of propositions can be proved exactly when all of them can, p1 || ... || pn when one can, atLeast(k, props) when at least k of them can. Operands are evaluated once, from left to right.", "quantifier": "all Boolean collections, all propositions, all bounds k, all provers (assignments of provable leaves)", "why_tests_cant": "Quantifies over all propositions and over who can prove them; tests evaluate a few literals.", "anchors": ["ergotree-interpreter/src/eval/atleast.rs", "ergotree-interpreter/src/eval/and.rs", "ergotree-interpreter/src/eval/or.rs", "ergotree-interpreter/src/eval/xor_of.rs", "ergotree-interpreter/src/eval/sigma_and.rs", "ergotree-interpreter/src/eval/sigma_or.rs", "ergotree-interpreter/src/eval/bool_to_sigma.rs"]}
{"id": "C71", "title": "substConstants replaces the named constants and nothing else", "statement": "substConstants(bytes, positions, values) on the bytes of a script with segregated constants gives the bytes of the same script in which the constants at the given positions have the given values (of the same type), the last one if a position is named twice. Positions that do not exist, values of another type and lists of different length are refused.", "quantifier": "all scripts with byte form, all positions and values", "why_tests_cant": "A statement about parsing the result for all scripts; tests replace two constants of one script.", "anchors": ["ergotree-interpreter/src/eval/subst_const.rs", "ergotree-ir/src/ergo_tree.rs: ErgoTree::with_constant", "ergotree-ir/src/mir/constant.rs: TryFrom<Value> for Constant"]}
{"id": "C72", "title": "Scripts see the chain data as it is", "statement": "R0..R3 of a box are its value, script, tokens and creation info; other registers and context variables are what was stored, None if absent, and an error if out of range or of another type. selfBoxIndex points at SELF. xor works byte by byte; a group element is decoded from its encoding; exponents add up; propBytes is the script of the proposition; authenticated trees are modified only as their flags allow and only to the digest the proof gives; code loaded from a variable is evaluated only if it parses and has the stated type.", "quantifier": "all boxes, contexts, byte strings, group elements, trees and proofs", "why_tests_cant": "Relates several nodes and methods to each other for all data; tests look at one node with one value.", "anchors": ["ergotree-interpreter/src/eval/extract_reg_as.rs", "ergotree-ir/src/chain/ergo_box.rs: ErgoBox::get_register", "ergotree-interpreter/src/eval/get_var.rs", "ergotree-interpreter/src/eval/scontext.rs", "ergotree-interpreter/src/eval/xor.rs", "ergotree-interpreter/src/eval/sglobal.rs", "ergotree-interpreter/src/eval/decode_point.rs", "ergotree-interpreter/src/eval/exponentiate.rs", "ergotree-interpreter/src/eval/savltree.rs", "ergotree-interpreter/src/eval/sigma_prop_bytes.rs", "ergotree-interpreter/src/eval/deserialize_context.rs"]}
{"id": "C73", "title": "What is read is well formed, and typed up to a stated residue", "statement": "A script read from bytes obeys the rules of its nodes everywhere: constants have their types, operands have the types the operator wants, a field is selected from a tuple that has it, a function is applied to arguments of its parameter types, a method is in the table and gets operands of its declared types. If moreover variables are used in scope and functions are not data and the few untested nodes have suitable operands, the script follows the typing rules, so its evaluation meets no type error.", "quantifier": "all byte strings, readers, constants and method tables", "why_tests_cant": "Quantifies over all byte strings a reader accepts; tests try single scripts, mostly well formed ones.", "anchors": ["ergotree-ir/src/serialization/expr.rs: Expr::parse_with_tag", "ergotree-ir/src/mir/expr.rs: check_post_eval_tpe", "ergotree-ir/src/mir/select_field.rs: SelectField::new", "ergotree-ir/src/mir/apply.rs: Apply::new", "ergotree-ir/src/mir/method_call.rs: MethodCall::new", "ergotree-ir/src/types/smethod.rs: SMethod::specialize_for", "ergotree-ir/src/ergo_tree.rs: ErgoTree::proposition", "ergotree-ir/src/mir/if_op.rs", "ergotree-ir/src/mir/collection.rs"]}
{"id": "C74", "title": "A box survives its JSON form, and its id is that of its contents", "statement": "Every box and candidate is written to JSON and read back the same, whatever order a hash map gives the registers. A box read from JSON has the id computed from its contents; a declared id is optional and only the right one is accepted. The order of fields and of registers and unknown fields do not matter; a field given twice is refused. Hexadecimal text is read in either case; amounts are numbers or canonical decimal text. What was read is written and read again as the same box, its registers are serializable and without gaps. The bounds of values and amounts hold, and the id determines the box.", "quantifier": "all boxes, all JSON objects, all register orders, all codecs of trees and nested boxes", "why_tests_cant": "Round trips and refusals over all boxes and all JSON objects; tests use a few captured node responses and random boxes without declared ids that are wrong.", "anchors": ["ergotree-ir/src/chain/json/ergo_box.rs: ErgoBoxJson, TryFrom<ErgoBoxJson> for ErgoBox", "ergotree-ir/src/chain/json/ergo_tree.rs", "ergotree-ir/src/chain/json/token.rs", "ergotree-ir/src/chain/json/box_value.rs", "ergotree-ir/src/chain/ergo_box/register.rs: TryFrom<String> for NonMandatoryRegisterId", "ergotree-ir/src/chain/json.rs"]}
{"id": "C75", "title": "A transaction survives its JSON form, and its id is checked", "statement": "Signed and unsigned transactions are written to JSON and read back the same. A signed transaction is accepted only with the id computed from its signed bytes, and its outputs are labelled with that id and their positions. What is read has between 1 and 65535 inputs and outputs, distinct context variables, no malformed proofs, and can be written and read again. The ids the JSON gives to the outputs agree with the transaction.", "quantifier": "all transactions, all JSON objects", "why_tests_cant": "Quantifies over all transactions and all JSON objects with any declared id; tests read a few.", "anchors": ["ergo-lib/src/chain/json/transaction.rs", "ergo-lib/src/chain/transaction/input.rs", "ergo-lib/src/chain/transaction/data_input.rs", "ergo-lib/src/chain/transaction.rs: Transaction::new_from_vec", "ergo-lib/src/chain/transaction/unsigned.rs: UnsignedTransaction::new_from_vec"]}
{"id": "C76", "title": "Context extensions and proofs survive their JSON form", "statement": "A context extension is read back from JSON with the same variables, constants and order; names are the decimal numbers of the variables. A proof with its extension is read back; a proof given as plain text has an empty extension. Different JSON entries are different variables, and no bytes of a constant are ignored.", "quantifier": "all extensions, proofs and JSON values", "why_tests_cant": "All names and all constants; tests use two variables with canonical names.", "anchors": ["ergo-lib/src/chain/json/context_extension.rs", "ergotree-interpreter/src/sigma_protocol/prover/context_extension.rs: TryFrom<IndexMap<String, String>>", "ergotree-interpreter/src/sigma_protocol/prover/prover_result.rs", "ergo-lib/src/chain/transaction/input/prover_result/json.rs"]}
{"id": "C77", "title": "Propositions and hints survive their JSON form, and signing with hints sent as JSON gives the same signatures", "statement": "Every proposition, node position and hint is written to JSON and read back the same (the commitments inside a proof hint, which are not sent, are dropped); so is the bag of hints of a transaction, for every input and whatever order a hash map gives. The prover makes the same proof from hints sent as JSON as from the hints themselves, and several signers who exchange all hints as JSON complete an AND proposition with an accepted signature. What is read is well formed: connectives have 2 to 255 children, a proof fits its proposition, positions are not empty. The reader does not panic; the tag of a constant tells its value; a text of a point, proof or secret has no ignored bytes.", "quantifier": "all propositions, hints, bags, JSON values, sets of signers, messages and randomness", "why_tests_cant": "Equality of proofs for all propositions and hints with and without the JSON step; tests serialize a bag and compare it with itself, and use at most three signers.", "anchors": ["ergotree-interpreter/src/json.rs", "ergo-lib/src/chain/json/hint.rs", "ergo-lib/src/wallet/multi_sig.rs: TransactionHintsBag", "ergotree-interpreter/src/sigma_protocol/prover/hint.rs", "ergotree-interpreter/src/sigma_protocol/unproven_tree.rs: NodePosition"]}
{"id": "C78", "title": "Several wallets sign a transaction together", "statement": "Several wallets, none of which knows the secrets of another, each call generate_commitments for their own keys and send the public hints to the others, in memory or as JSON; then one after the other calls sign_transaction with its own commitments, the received ones and the hints extracted from the transaction of the one before with extract_hints. If every input's script reduces to true or to an AND proposition (nested as one likes) whose leaves belong to the wallets, each to one, every call succeeds and the last transaction is the unsigned one with proofs, all of which the verifier accepts. It does not matter in which order bags and hash maps hold the hints.", "quantifier": "all transactions, numbers of inputs and wallets, AND propositions, secrets, randomness, orders of hints", "why_tests_cant": "Tests sign one input with two or three fixed wallets in one order and pass hints in memory.", "anchors": ["ergo-lib/src/wallet/multi_sig.rs: generate_commitments, extract_hints, TransactionHintsBag", "ergo-lib/src/wallet/signing.rs: sign_transaction, sign_tx_input", "ergo-lib/src/wallet.rs", "ergo-lib/src/chain/json/hint.rs"]}
{"id": "C79", "title": "A mnemonic phrase encodes its entropy as BIP-39 prescribes", "statement": "In every language, from_entrophy gives a phrase exactly for entropies of 16, 20, 24, 28 or 32 bytes, refuses others and never panics. Reading the phrase as BIP-39 prescribes gives the entropy back, and every phrase of 12, 15, 18, 21 or 24 listed words with a right checksum is the phrase of some entropy; so different entropies have different phrases. generate succeeds exactly for the five strengths. Every word list has 2048 distinct words, none of which contains the delimiter or characters other than letters. Names of languages are read back.", "quantifier": "all languages, entropies, strengths, hash functions, phrases", "why_tests_cant": "A statement in both directions about 2^256 entropies and all texts, in eight languages; tests compare 24 fixed English vectors.", "anchors": ["ergo-lib/src/wallet/mnemonic_generator.rs: MnemonicGenerator, WordList, Language", "ergo-lib/src/wallet/wordlist"]}
{"id": "C80", "title": "Secret keys survive their byte and JSON forms and spend from their address", "statement": "Bytes, JSON and hexadecimal text of a secret key, single or Diffie-Hellman tuple, are read back as the same key. Exactly 32 bytes of a number below the group order, or 164 bytes of such a number and four points, are a key. The forms agree on which numbers are keys. The address of a key has a script, which is the public image of the key, and a prover holding the key makes a proof of it that is accepted, for every message.", "quantifier": "all keys, byte strings, JSON values, group orders up to 256 bits, messages, randomness", "why_tests_cant": "Keys are 256-bit numbers and points; tests use random keys and never look at numbers outside of the group or tuples that do not fit.", "anchors": ["ergo-lib/src/wallet/secret_key.rs: SecretKey", "ergotree-interpreter/src/sigma_protocol/private_input.rs: DlogProverInput, DhTupleProverInput"]}
{"id": "C81", "title": "Rust values stored in constants come back", "statement": "Turning a Rust value into a Constant and extracting at the same Rust type gives the value back, for every nesting of vectors, options and tuples; different values give different constants. A value without options is stored as a constant whose type has a byte form and which belongs to its type, and it survives bytes and scripts. A constant of the type of T, e.g. one read from the chain, is extracted as T without loss. Extraction at a type that does not match is an error.", "quantifier": "all Rust types with both conversions, all values, all constants", "why_tests_cant": "The conversions are generic: infinitely many types arise from Vec, Option and tuples; tests try a dozen.", "anchors": ["ergotree-ir/src/mir/constant.rs: Into<Constant>, TryExtractFrom, TryFrom<Value>", "ergotree-ir/src/mir/value.rs: StoreWrapped", "ergotree-ir/src/types/stype.rs: LiftIntoSType"]}
{"id": "C82", "title": "The heap of timers behaves as a store with a least element", "statement": "Whatever calls are made on the heap of timers, in whatever order: a push uses a free slot, peek and pop give a least element, a removal by slot gives what was pushed there, nothing is lost or duplicated, the consistency check of the code would pass after every call, and the only panic is the removal of a slot that is not in use. Pushing and popping everything sorts.", "quantifier": "all element types with a total preorder, all sequences of calls", "why_tests_cant": "Tests run a few sequences; the links between items, slab and free list can break only in long mixed sequences.", "anchors": ["ergo-rest/src/wasm_timer/timer/heap.rs: Heap::{push, peek, pop, remove, percolate_up, percolate_down, assert_consistent}"]}
{"id": "C83", "title": "A delay resolves exactly when its time has come", "statement": "Whatever delays are created, reset and dropped on a timer, nothing panics, and each delay behaves as if it were alone: it is resolved exactly if since its deadline was last set the timer was polled and then advanced to the deadline or beyond. After a poll and advances the next event of the timer is the earliest deadline that is not resolved. When the timer is dropped, resolved delays stay resolved and the others fail.", "quantifier": "all numbers of delays, all sequences of calls, all instants", "why_tests_cant": "Delays share a heap, a list and generation counters; interference shows only for particular orders of resets, polls and advances.", "anchors": ["ergo-rest/src/wasm_timer/timer.rs: Timer::{poll, advance_to, next_event, update_or_add, remove, invalidate, drop}", "ergo-rest/src/wasm_timer/timer/delay.rs: Delay::{new_handle, reset_at, poll, drop}", "ergo-rest/src/wasm_timer/timer/arc_list.rs: ArcList::{push, take, pop}", "ergo-rest/src/wasm_timer/timer/global/desktop.rs: run"]}
{"id": "C84", "title": "An interval keeps to its grid and never runs ahead", "statement": "The next deadline of an interval is the first time after now on the grid of the previous deadline; the item number y is yielded only after the timer was advanced to first + (y - 1) * interval, however the interval is polled. Computing the next deadline panics exactly in the cases listed.", "quantifier": "all deadlines, intervals, clock readings and sequences of polls and other calls on the timer", "why_tests_cant": "Late polls skip items; tests use small regular cases and not the limits of the arithmetic.", "anchors": ["ergo-rest/src/wasm_timer/timer/interval.rs: Interval::poll_next, next_interval, duration_to_nanos", "ergo-rest/src/wasm_timer/wasm.rs: SystemTime::{duration_since, elapsed}"]}
{"id": "C85", "title": "ErgoScript texts are read as the grammar says", "statement": "The scanner cuts a text into the longest tokens, keywords before identifiers. No text makes the parser panic, and the syntax tree has every character of the text. The parser reports no error exactly for the programs of the grammar, and then gives their tree: products bind stronger than sums, operators of the same strength group to the left, a sign applies to the operand behind it; a text has only one such tree. Errors are at tokens of the text.", "quantifier": "all texts, of any length and nesting", "why_tests_cant": "Tests fix the trees of some dozen texts; event lists with forward parents can go wrong only for certain nestings and mixtures of errors.", "anchors": ["ergoscript-compiler/src/lexer.rs: Lexer", "ergoscript-compiler/src/lexer/token_kind.rs: TokenKind", "ergoscript-compiler/src/parser.rs: Parser", "ergoscript-compiler/src/parser/marker.rs: Marker, CompletedMarker", "ergoscript-compiler/src/parser/sink.rs: Sink::finish", "ergoscript-compiler/src/parser/grammar.rs, grammar/expr.rs, grammar/stmt.rs", "ergoscript-compiler/src/parser/parse.rs: parse"]}
{"id": "C86", "title": "A compiled script means what its text says", "statement": "A text is compiled, without a panic and in a reasonable time, to an expression that evaluates to what the text is worth, or it is refused with an error if it is not well formed or not well typed. The tree made of it holds that expression and can guard a box.", "quantifier": "all texts, all contexts of evaluation", "why_tests_cant": "Each pass is tested on a few small texts; what the passes do together with nested operands, several statements and mixed types is not.", "anchors": ["ergoscript-compiler/src/compiler.rs: compile_expr, compile, compile_hir", "ergoscript-compiler/src/ast.rs: Root, Expr, BinaryExpr, Literal", "ergoscript-compiler/src/hir.rs: lower, Expr::lower", "ergoscript-compiler/src/hir/rewrite.rs: rewrite", "ergoscript-compiler/src/binder.rs: Binder::bind", "ergoscript-compiler/src/type_infer.rs: assign_type", "ergoscript-compiler/src/mir/lower.rs: lower", "ergotree-ir/src/type_check.rs: type_check"]}
{"id": "C87", "title": "Errors of the compiler can be described and point at the right line", "statement": "The positions named by an error of the compiler are inside the text, a description can be made of every error, and it shows the line on which the error is.", "quantifier": "all texts and all errors that the compiler gives for them", "why_tests_cant": "Tests describe a handful of errors in the middle of a line; the beginning of the text and of a line are not among them.", "anchors": ["ergoscript-compiler/src/error.rs: pretty_error_desc", "ergoscript-compiler/src/compiler.rs: CompileError::pretty_desc", "ergoscript-compiler/src/parser/parse_error.rs: ParseError::pretty_desc"]}
{"id": "C88", "title": "Block headers survive their JSON form", "statement": "A header written as JSON is read back as the same header, whether it came from bytes or from JSON. A text is accepted only if every field is given once, with the fixed sizes; order and further fields do not matter. Votes and distances are read from their spellings only, no text makes the reader panic, and the id belongs to the contents. A block has the same header whether it is read from bytes or from a node.", "quantifier": "all headers, all JSON trees, all spellings of numbers and votes", "why_tests_cant": "Tests read some node responses, all with a distance and votes in a string, and never write one.", "anchors": ["ergo-chain-types/src/header.rs: Header, AutolykosSolution", "ergo-chain-types/src/json/votes.rs", "ergo-chain-types/src/json/autolykos_solution.rs", "ergo-chain-types/src/votes.rs: Votes", "ergo-chain-types/src/digest32.rs: Digest"]}
{"id": "C89", "title": "Merkle proofs, NiPoPoW proofs and blocks survive their JSON form", "statement": "Proofs and blocks written as JSON are read back unchanged. Levels of proofs are read from pairs or objects of a hash of 32 bytes, or none, and a side, and lengths other than documented are refused. A block has at least one transaction, with ids that belong to their contents.", "quantifier": "all proofs with any number of levels, all blocks, all JSON trees", "why_tests_cant": "Tests read one proof of each kind from a node.", "anchors": ["ergo-merkle-tree/src/json.rs: MerkleProofJson, LevelNodeJson, BatchMerkleProofJson", "ergo-merkle-tree/src/merkleproof.rs: MerkleProof, NodeSide", "ergo-nipopow/src/nipopow_proof.rs: PoPowHeader, NipopowProof", "ergo-lib/src/chain/block.rs: FullBlock, BlockTransactions"]}
{"id": "C90", "title": "Peer discovery finds exactly the active nodes that can be reached", "statement": "When the search for peers ends without a timeout, in a network whose nodes keep giving the same answers, its result is exactly the set of active nodes that can be reached from the seeds over active nodes, without the seeds. With a timeout the result has exactly the nodes that answered. No node is asked twice and the count of open requests never goes below zero.", "quantifier": "all networks, all sets of seeds, all interleavings of the tasks, all channel capacities", "why_tests_cant": "The outcome depends on the interleaving of tasks and the answers of a network; tests query one live node.", "anchors": ["ergo-rest/src/api/peer_discovery_internals/non_chrome.rs: peer_discovery_impl, spawn_http_request_task, Msg"]}
{"id": "C91", "title": "Peer discovery ends, and with the timeout", "statement": "The search never gets stuck, takes a number of steps bounded by the nodes that are named, has at most max_parallel_tasks tasks under way, and returns what it has when the timeout is reached.", "quantifier": "all executions, all answers of the nodes, all channel capacities", "why_tests_cant": "Deadlock, termination and parallelism are about all interleavings.", "anchors": ["ergo-rest/src/api/peer_discovery_internals/non_chrome.rs: peer_discovery_inner, peer_discovery_impl, spawn_http_request_task", "ergo-rest/src/api/node.rs: peer_discovery"]}
{"id": "C92", "title": "Those who suffice can sign together while others are absent", "statement": "If the parties present hold secrets that make a proposition with AND, OR and thresholds true, and each in turn signs with their own commitments, everybody's public commitments and the hints extracted by bag_for_multi_sig from the previous signature (real for the keys that have signed, simulated for the absent ones), then all signing steps succeed and the last signature is accepted by the ordinary verifier. In particular any k of n holders of different keys can sign for k of n.", "quantifier": "all propositions of any shape and depth, all groups and orders of signers, all orders of hints, all randomness and messages", "why_tests_cant": "Tests run 2 of 3, 3 of 4 and 7 of 10 with fixed signers; the claim is about all propositions and is an induction over the signing rounds in which simulated challenges have to stay the same.", "anchors": ["ergo-lib/src/wallet/multi_sig.rs: bag_for_multi_sig, generate_commitments_for", "ergotree-interpreter/src/sigma_protocol/prover.rs: generate_proof, mark_real, polish_simulated, simulate_and_commit, proving", "ergotree-interpreter/src/sigma_protocol/prover/hint.rs"]}
{"id": "C93", "title": "The version of a node is compared by its numbers", "statement": "is_at_least_version_4_0_100 tells for every node version a.b.c (with or without a suffix behind a dash) whether it is at least 4.0.100. Name and version survive their JSON form.", "quantifier": "all versions, all suffixes", "why_tests_cant": "The function compares texts; a test can only try some versions, and there are none.", "anchors": ["ergo-rest/src/node_info.rs: NodeInfo, is_at_least_version_4_0_100"]}
{"id": "C94", "title": "Addresses reported by nodes are read and can be used", "statement": "The address of a peer is read in exactly the ways nodes report it: as text of a socket address or without the brackets around an IPv6 address, behind a slash or not; it is then the address meant. No answer makes the reader panic, peers survive their JSON form, and a URL can be made of every address read.", "quantifier": "all texts and JSON values, all addresses; the text form of socket addresses and URLs is a parameter", "why_tests_cant": "Two texts are tested; the claim is about every answer of an untrusted node.", "anchors": ["ergo-rest/src/peer_info.rs: PeerInfo, parse_peer_addr_with_leading_slash", "ergo-chain-types/src/peer_addr.rs: PeerAddr, as_http_url", "ergo-chain-types/src/peer_connection_dir.rs: ConnectionDirection"]}
{"id": "C95", "title": "A scan for peers with Chrome finds the reachable active nodes and keeps Chrome's limit", "statement": "Over any number of calls and timeouts: the active peers are exactly the nodes that gave their peers and are not seeds, each once; when nothing is pending they are all active nodes that can be reached from the seeds; a call without a timeout leaves nothing pending; visited nodes are not asked again; the requests under way with their preflights, and the preflights Chrome holds on to, stay within the limit; the counter does not underflow; the time for the search is the one given less 80 seconds.", "quantifier": "all networks, answers, interleavings of the tasks, numbers of calls, limits and times", "why_tests_cant": "Depends on how the tasks interleave and on browsers; the tests need a browser and the network and check that something is found.", "anchors": ["ergo-rest/src/api/peer_discovery_internals/chrome.rs: peer_discovery_inner_chrome, peer_discovery_impl_chrome, spawn_http_request_task_chrome, ChromePeerDiscoveryScan"]}
{"id": "C96", "title": "A call of the scan with Chrome ends", "statement": "In every execution a call ends after a bounded number of steps; after the timeout no new nodes are asked, and what is left to do is kept for the next call.", "quantifier": "all networks, answers, interleavings, numbers of calls and limits", "why_tests_cant": "A hanging search only shows as a test that takes too long, in some interleavings; no test covers failing nodes.", "anchors": ["ergo-rest/src/api/peer_discovery_internals/chrome.rs: peer_discovery_impl_chrome, spawn_http_request_task_chrome, Msg, NodeRequest"]}
{"id": "C97", "title": "The box builder makes the box that was asked for", "statement": "After any sequence of calls, build() gives a box with the value, script, height, tokens and registers that the last calls asked for, and only if registers have no gap, a minted token is alone and described in R4, R5, R6, there are at most 122 tokens and the value covers size times minimal value per byte; otherwise it answers with an error. The value answered by calc_min_box_value() is enough.", "quantifier": "all sequences of calls, values, scripts, registers, tokens and serializers", "why_tests_cant": "Each test makes a handful of calls on one builder; which value is enough depends on the size, which depends on the value.", "anchors": ["ergo-lib/src/chain/ergo_box/box_builder.rs: ErgoBoxCandidateBuilder, build_box_unchecked, build_box, calc_min_box_value, calc_box_size_bytes, mint_token", "ergotree-ir/src/chain/ergo_box/box_value.rs: BoxValue::try_from"]}
{"id": "C98", "title": "Checking a P2PK input without a context agrees with the verifier", "statement": "verify_p2pk_input(box) is true exactly when the verifier accepts every input of the transaction that spends the box in its context, for boxes guarded by a constant proposition; a box that is not spent or has another script is an error, and the message is that whose hash is the transaction id.", "quantifier": "all transactions, boxes, proofs, contexts, hash functions and interpreters that reduce a constant to itself", "why_tests_cant": "Tests verify one signed transaction each; agreement of two verifiers on all proofs, valid or not, is a statement about all byte strings.", "anchors": ["ergo-lib/src/chain/transaction.rs: Transaction::verify_p2pk_input, verify_tx_input_proof", "ergotree-interpreter/src/eval.rs: extract_sigma_boolean", "ergotree-interpreter/src/sigma_protocol/verifier.rs: verify_signature, Verifier::verify"]}
{"id": "C99", "title": "Scalars and 256-bit integers stand for the same numbers", "statement": "A scalar of the group becomes an integer exactly if it is at most 2^255 - 1, an integer a scalar exactly if it is not negative and below the order; both keep the number and undo each other; raising a point to an integer adds it to itself that many times.", "quantifier": "all scalars, integers of 256 bits and group orders up to 2^256", "why_tests_cant": "The test checks random scalars shifted by one bit; edges at 2^255 and at the order are never drawn.", "anchors": ["ergotree-ir/src/sigma_protocol/dlog_group.rs: scalar_to_bigint256, bigint256_to_scalar, biguint_to_bytes, order", "ergotree-ir/src/bigint256.rs: TryFrom<BigUint>", "ergotree-interpreter/src/eval/exponentiate.rs: Exponentiate::eval", "ergo-chain-types/src/ec_point.rs: exponentiate"]}
{"id": "C100", "title": "A timeout passes results on and fails exactly when time is up", "statement": "A future or stream with a timeout answers with the answer of the wrapped one whenever that has one, in the same order, and otherwise with TimedOut exactly if the timer has reached the deadline, which for a stream is dur after its last answer.", "quantifier": "all programs using the timer, all other delays, all sequences of polls, answers and times", "why_tests_cant": "Tests wait for real time to pass once; the order of polls, timer ticks and answers is not under their control.", "anchors": ["ergo-rest/src/wasm_timer/timer/ext.rs: Timeout::poll, TimeoutStream::poll_next"]}
{"id": "C101", "title": "JavaScript values and constants stand for each other", "statement": "from_js reads a JavaScript value as the constant it stands for (numbers as Int, decimal strings as Long, BigInt as BigInt, byte arrays as Coll[Byte], arrays as collections, marked arrays as tuples) and refuses others; the constant is well typed; what to_js shows is read back as the same constant.", "quantifier": "all JavaScript values of any depth, all constants of any type and size", "why_tests_cant": "Tests convert a few literals; the values a page may hand over, nested and mixed, are unlimited.", "anchors": ["bindings/ergo-lib-wasm/src/ast/js_conv.rs: constant_from_js, tuple_from_js, coll_long_from_js, constant_to_js, array_as_tuple", "bindings/ergo-lib-wasm/src/ast.rs: Constant::from_js, to_js, array_as_tuple"]}
{"id": "C102", "title": "A request carries what its builder was asked for", "statement": "send issues a request exactly if the URL has a host and every call on the builder made sense; it then has the method, the URL with all queries, the last body, mode, credentials and time limit asked for, and for every header name the values asked for, else the default ones of the client.", "quantifier": "all sequences of calls on a builder, all header maps, default headers, URLs and time limits", "why_tests_cant": "Tests build a few requests; the order and repetition of calls and headers is unlimited.", "anchors": ["ergo-rest/src/reqwest/wasm/request.rs: RequestBuilder", "ergo-rest/src/reqwest/wasm/client.rs: Client::request, merge_headers, fetch, ClientBuilder::default_headers, timeout", "ergo-rest/src/reqwest/util.rs: replace_headers", "ergo-rest/src/reqwest/into_url.rs: into_url"]}
{"id": "C103", "title": "A query to a node is sent to its own path with the configured key and time limit", "statement": "Each query of the node API sends one GET request whose path is different for different queries, with the headers accept, content-type and the configured api_key, and is aborted after the configured time; a NiPoPoW proof of length zero is refused before anything is sent.", "quantifier": "all node configurations, block and transaction ids and lengths", "why_tests_cant": "Tests need a running node and query one fixed id.", "anchors": ["ergo-rest/src/api/node.rs: get_info, get_header, get_nipopow_proof_by_header_id, get_blocks_header_id_proof_for_tx_id", "ergo-rest/src/api.rs: set_req_headers, build_client", "ergo-rest/src/node_conf.rs: get_node_api_header"]}
{"id": "C104", "title": "The clock of the browser build measures time", "statement": "Adding a duration to a point in time and asking for the time between gives the duration up to a millisecond; elapsed gives the time since; the next time of an interval is the first multiple after now.", "quantifier": "all points in time, durations and intervals", "why_tests_cant": "Tests of intervals run with the standard clock; the browser clock has no tests.", "anchors": ["ergo-rest/src/wasm_timer/wasm.rs: Instant, SystemTime", "ergo-rest/src/wasm_timer/timer/interval.rs: next_interval"]}
{"id": "C105", "title": "Generated chains are chains", "statement": "The blocks of a block stream have heights 1, 2, 3, and so on, every block names the one before as parent and carries the interlinks that result from it, the proofs of interlinks pass, ids are the hashes of the header bytes, headers commit to extension and transactions and have a valid proof of work; a NiPoPoW proof made from them is valid, and a stream started from a block continues its chain.", "quantifier": "all numbers of blocks, random draws, start blocks, hash functions", "why_tests_cant": "The tests draw a few chains at random and check single relations on them.", "anchors": ["ergo-chain-generation/src/chain_generation.rs: block_stream, next_block, prove_block, generate_element, numeric_hash, transactions_root", "ergo-chain-generation/src/lib.rs: TryInto<PoPowHeader>"]}
{"id": "C106", "title": "Sizes are known before signing", "statement": "The size of a proof is fixed by its proposition, whatever the secrets, message, randomness and hints; the size of a signed transaction is the size of its bytes to sign and the sizes of the proofs of its inputs; estimate_tx_size_bytes of the transaction builder is the size of the transaction once signed with one key per input.", "quantifier": "all propositions, transactions, wallets, hints, messages", "why_tests_cant": "The test of the estimate checks that it is positive.", "anchors": ["ergo-lib/src/wallet/tx_builder.rs: estimate_tx_size_bytes", "ergotree-interpreter/src/sigma_protocol/prover.rs: generate_proof", "ergotree-interpreter/src/sigma_protocol/sig_serializer.rs: serialize_sig", "ergo-lib/src/chain/transaction.rs: sigma_serialize"]}
{"id": "C107", "title": "A wallet signs messages with its keys", "statement": "For every secret given to a wallet, at the start or later, every message can be signed with its address, and verify_signature accepts the signature; a wallet without the secret signs nothing for the address; adding secrets takes nothing away; a signature is for one message; the wallet of a mnemonic phrase signs for the address of the master key of its BIP-39 seed; a signed message is not a spending proof.", "quantifier": "all lists of secrets, addresses, messages, phrases and passwords, randomness", "why_tests_cant": "Tests sign one message with one secret.", "anchors": ["ergo-lib/src/wallet.rs: from_mnemonic, from_secrets, add_secret, sign_message", "ergo-lib/src/wallet/mnemonic.rs: to_seed", "bindings/ergo-lib-c-core/src/wallet.rs: wallet_sign_message_using_p2pk, verify_signature", "bindings/ergo-lib-wasm/src/wallet.rs: sign_message_using_p2pk"]}
{"id": "C108", "title": "The answer to a query is what was asked for, in time", "statement": "A query to a node gives a value only if the node answers with success, within the time limit, with JSON of the thing asked for; an honest answer in time is what comes out; the error says what went wrong (sending, status, timeout, decoding); no answer makes the caller panic.", "quantifier": "all queries, configurations, answers with any status, headers and body, and times of arrival", "why_tests_cant": "The tests ask live nodes.", "anchors": ["ergo-rest/src/api/node.rs: get_info, get_header, get_nipopow_proof_by_header_id, get_blocks_header_id_proof_for_tx_id", "ergo-rest/src/reqwest/wasm/client.rs: fetch", "ergo-rest/src/reqwest/wasm/response.rs: json, bytes, error_for_status, content_length", "ergo-rest/src/reqwest/error.rs: is_timeout, is_status"]}
{"id": "C109", "title": "The C interface keeps to the rules of its pointers", "statement": "A call of the C interface with null or live pointers of the right types is never undefined; a null pointer where an object is needed gives an error that names the argument and changes nothing else; a successful call allocates exactly the object asked for at a fresh address and puts the pointer in the variable of the caller; objects that are not deleted or added to never change; every object live after a call was live before or its pointer was handed to the caller; a collection holds what was added, in order, as copies.", "quantifier": "all modelled calls, all memories, all programs of calls, all allocators", "why_tests_cant": "The tests of the bindings make a handful of calls with good pointers; what other memory does in between, leaks and null pointers are not observed.", "anchors": ["bindings/ergo-lib-c-core/src/util.rs: const_ptr_as_ref, mut_ptr_as_mut, byte_array_from_raw_parts, deref_eq", "bindings/ergo-lib-c-core/src/collections.rs: collection_new, collection_delete, collection_len, collection_get, collection_add", "bindings/ergo-lib-c-core/src/token.rs: token_new, token_get_id, token_get_amount", "bindings/ergo-lib-c-core/src/ergo_box.rs: box_value_sum_of, box_id_to_bytes", "bindings/ergo-lib-c-core/src/secret_key.rs: secret_key_from_bytes", "bindings/ergo-lib-c/src/macros.rs: make_collection, make_ffi_eq", "bindings/ergo-lib-c/src/lib.rs: ergo_lib_error_to_string, delete_ptr", "bindings/ergo-lib-c-core/src/rest/c_string_collection.rs: delete_c_string_collection"]}
{"id": "C110", "title": "A request ends with exactly one call of the caller", "statement": "A request started through the C interface calls the completion function at most once, with the data of the caller and with what the query gave, a value or an error; an abort stops it, so that the completion function is not called any more and the abort function is called once; deleting the handle does not disturb it; together the two functions are called exactly once, which is what the Swift closures need to be freed exactly once.", "quantifier": "all interleavings of the threads of the runtime with aborts and deletions of the caller, all answers, all arguments", "why_tests_cant": "The races between the runtime and the aborting thread do not show in tests; the tests of the Swift library make a few requests to live nodes.", "anchors": ["bindings/ergo-lib-c-core/src/rest/api/callback.rs: CompletionCallback, AbortCallback", "bindings/ergo-lib-c-core/src/rest/api/request_handle.rs: RequestHandle::abort", "bindings/ergo-lib-c-core/src/rest/api/node.rs: rest_api_node_get_info, rest_api_node_peer_discovery", "bindings/ergo-lib-c-core/src/rest/api/node/abortable.rs: spawn_abortable", "bindings/ergo-lib-ios/Sources/ErgoLib/WrapClosure.swift: wrapClosureRawPtr"]}
{"id": "C111", "title": "The JSON of the library is the JSON of the node", "statement": "Boxes, candidates, inputs, transactions, unsigned transactions, headers, Merkle proofs, NiPoPoW proofs, blocks, propositions, hints and what a node says of itself are written as objects with exactly the names and tags of the API of the node, with bytes as lower case hexadecimal text and numbers in decimal; every JSON value of that form is read, with registers in any order, amounts as numbers or as texts, and with the other names the explorer uses.", "quantifier": "all objects the writers accept, all orders of the registers, all values of the forms", "why_tests_cant": "A round trip, tested or proved, is blind to a name that writer and reader share; the tests pin a few samples only.", "anchors": ["ergotree-ir/src/chain/json/ergo_box.rs: ErgoBoxJson", "ergotree-ir/src/chain/json/token.rs: TokenJson", "ergo-lib/src/chain/json/transaction.rs: TransactionJson, UnsignedTransactionJson", "ergo-lib/src/chain/json/hint.rs: CommitmentHintJson, PublicKeyJson", "ergotree-interpreter/src/json/hint.rs", "ergo-chain-types/src/header.rs: Header", "ergo-merkle-tree/src/json.rs", "ergo-nipopow/src/nipopow_proof.rs", "ergo-rest/src/node_info.rs: NodeInfo", "ergo-rest/src/peer_info.rs: PeerInfo"]}
{"id": "C112", "title": "JSON for JavaScript (EIP-12) loses nothing", "statement": "The JSON form of EIP-12 of tokens, boxes, transactions and unsigned transactions that the bindings give to JavaScript has every amount as a text and every number below 2^32, so that JavaScript represents all of it exactly; what is written is read back by from_json as the same object.", "quantifier": "all tokens, boxes, candidates, transactions and unsigned transactions the writers accept", "why_tests_cant": "Amounts above 2^53 are silently rounded by JavaScript; a test sees it only if it uses such an amount in every place.", "anchors": ["bindings/ergo-lib-wasm/src/json.rs: ErgoBoxJsonEip12, TransactionJsonEip12, UnsignedTransactionJsonEip12, TokenJsonEip12", "bindings/ergo-lib-c-core/src/json.rs", "bindings/ergo-lib-wasm/src/transaction.rs: to_js_eip12", "bindings/ergo-lib-wasm/src/ergo_box.rs: to_js_eip12"]}
{"id": "C113", "title": "The binary forms are those of the protocol", "statement": "The bytes written for numbers, types, propositions, constants, registers, boxes, transactions, reduced transactions, expressions, trees, headers, NiPoPoW and Merkle proofs, peers, signatures, and the bytes hashed for the challenge of a signature, are those of the Ergo protocol: every field in its place, every count, every code.", "quantifier": "all values the writers accept, of any size and depth", "why_tests_cant": "Round trips cannot see an error that writer and reader share, and comparing with recorded bytes covers only what was recorded; other nodes compute ids and signatures over exactly these bytes.", "anchors": ["sigma-ser/src/vlq_encode.rs", "ergotree-ir/src/serialization/types.rs", "ergotree-ir/src/serialization/op_code.rs", "ergotree-ir/src/serialization/data.rs", "ergotree-ir/src/serialization/expr.rs", "ergotree-ir/src/chain/ergo_box.rs", "ergo-lib/src/chain/transaction.rs", "ergo-lib/src/chain/transaction/reduced.rs", "ergo-chain-types/src/header.rs", "ergo-nipopow/src/nipopow_proof.rs", "ergo-merkle-tree/src/batchmerkleproof.rs", "ergotree-interpreter/src/sigma_protocol/sig_serializer.rs", "ergotree-interpreter/src/sigma_protocol/fiat_shamir.rs", "ergo-p2p/src/peer_spec.rs"]}
{"id": "C114", "title": "Numbers and collections pass through JavaScript unchanged", "statement": "A 64-bit number handed to JavaScript as text, as amount, as bytes or as number, and taken back, is the same number; texts and numbers that are not amounts are refused; sums are exact or refused; the collections give the element at an index and refuse an index beyond the end; a state context takes exactly ten headers.", "quantifier": "all 64-bit integers, all texts, all collections and indexes", "why_tests_cant": "JavaScript numbers lose digits only above 2^53, which test amounts do not reach, and a test of an index beyond the end would stop the test program.", "anchors": ["bindings/ergo-lib-wasm/src/utils.rs: I64", "bindings/ergo-lib-wasm/src/ergo_box.rs: BoxValue", "bindings/ergo-lib-wasm/src/token.rs: TokenAmount, Tokens", "bindings/ergo-lib-wasm/src/ast.rs: from_i64_str_array, to_i64_str_array", "bindings/ergo-lib-wasm/src/box_coll.rs", "bindings/ergo-lib-wasm/src/block_header.rs"]}
