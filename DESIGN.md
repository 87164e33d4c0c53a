# Formal model of sigma-rust in Lean 4

## 1. What this is

`lean/Verif/Model/*.lean` transcribes selected Rust functions of `/repo` into total, computable Lean functions.
`lean/Verif/Spec/*.lean` states, independently of the transcription, what a user relies on.
`lean/Verif/Proofs/*.lean` holds helper lemmas, `lean/Verif/Props/*.lean` the property theorems
(with a concrete non-trivial `example` next to each).  `properties.jsonl` lists the properties in words,
`MANIFEST.json` maps each to theorem names, `seeded/LOG.jsonl` records mutation experiments.

## 2. Trusted base

* Lean 4.33.0's kernel, and the three standard axioms `propext`, `Classical.choice`, `Quot.sound`
  (each property theorem depends on a subset of these; no own axioms, no `sorry`, no `native_decide`, no `bv_decide`).
* The reading of the Rust source: every definition of the model cites the file and lines it was taken from.
  Nothing checks mechanically that the Lean text equals the Rust text.
* Rust semantics assumed: fixed-width integers are modelled by `BitVec n` or by `Nat`/`Int` with explicit range checks;
  overflow of unchecked arithmetic is modelled as a panic (debug/overflow-checks) unless said otherwise;
  `as` casts truncate/sign-extend; `HashMap`/`BTreeMap` are finite maps.
* External crates are abstract parameters of the theorems: Blake2b (any function `List Byte -> Digest`), HMAC-SHA512,
  secp256k1 (any module over `ZMod q` with an injective 33-byte encoding; `q` prime only in C24), Base58.

## 3. Conventions

* A byte is `BitVec 8` (`Byte`); streams are `List Byte`; a reader is `List Byte -> Option (value x rest)` (`Parser`).
* Unchecked machine arithmetic is evaluated under a `Mode` parameter: `debug` panics on overflow, `release` wraps.
  Theorems hold for both modes unless they name one.
* Recursive readers are least fixed points of productive functionals (`Model/Fix.lean`), total without fuel.
* A Rust panic is an explicit outcome (`.panic`), distinct from an `Err`.
* When the code violates a property, the negation is proved on a concrete witness, the strongest true version
  keeps the suffix `_partial`, and the finding is listed in section 5.

## 4. Plan per property

| id | modelled | how proved |
|----|----------|-----------|
| C01-C03 | vlq_encode.rs, zig_zag_encode.rs byte for byte | induction on the number of 7-bit groups; BitVec reasoning for ZigZag |
| C04 | put_bits/get_bits, short strings, Vec and Option codecs | induction on list / chunking by 8 |
| C05 | box_value.rs, token.rs | range arithmetic; invariant over operation sequences |
| C06-C07 | box_selector/simple.rs and helpers | loop invariants over the input list; C07 has a counterexample |
| C08-C09 | tx_builder.rs build_tx with token maps as finite functions | algebra of sums; per-token reasoning |
| C10-C11 | transaction.rs, ergo_box.rs indexed digests | codec combinators; index table lemmas |
| C12 | register.rs | list reasoning; lookup bug witnessed |
| C13 | types.rs SType codec | structural induction on types with continuation streams |
| C14 | data.rs / constant.rs | induction on types, values indexed by typing relation |
| C15-C16 | sigma_boolean: codec, normalized, reduce | structural induction; loop invariant |
| C17 | type_unify.rs | mutual induction on types |
| C18-C20 | gf2_192 crate, words as `BitVec 64` | refinement to a quotient ring GF(2)[x]; kernel evaluation for finite tables, lifted by linearity |
| C21-C25 | prover/verifier/serializer/fiat-shamir over abstract group and hash | structural induction over proposition trees |
| C26-C30 | ergo-merkle-tree crate over an abstract hash | array-heap invariants; collision extraction |
| C31-C34, C45-C46, C56-C60 | ergo-nipopow, header.rs, autolykos | run-length induction, history invariants, invariants of the level recursion, codec combinators |
| C35-C38, C52-C55 | eval of arithmetic, conversions, scoping, collections, termination, result | exact integer semantics; fuel-indexed evaluator with environment invariant |
| C39-C41, C61 | derivation_path.rs, ext_*_key.rs, address.rs | string lemmas; homomorphism; prefix arithmetic; evaluation of the P2SH script |
| C42-C43, C50-C51 | ergo_tree.rs, tree_header.rs, serialization/expr.rs and the mir nodes | mutual induction over expressions with the table of variable types; parallel induction on the two writers for segregation; induction on nesting depth |
| C44, C63 | multi_sig.rs: bags, commitments, extraction; with the prover and verifier of C21 | induction over the history of the bag; explicit form of all prover passes on AND propositions, then induction over the turns of the signers |
| C64, C65 | signing.rs, tx_context.rs, reduced.rs over the models of transactions, prover and verifier; script reduction is a parameter | loop inversion lemmas per input; composition with C10_bytes_injective, C21_accepted_partial, C21_refused, C44_isolation; codec lemmas for transactions and propositions |
| C66 | pretty_printer/print.rs (what it rebuilds, its panics and indentation, not its text), reduce_to_crypto in full | mutual induction over expressions; a refinement relation between the evaluations of a script and of the script rewritten |
| C67, C68 | the method table (types/*.rs) and a separate type system for scripts | one induction over the recursion budget for soundness and depth; functions carry the scope and a rank below the node that made them |
| C69 | a compositional semantics (environment of meanings, functions as functions), Spec/Denotation.lean | simulation by induction on the stack depth, using the type soundness invariant of C67; functions are related extensionally |
| C70 | the nodes `and`, `or`, `xorOf`, `sigma`, `atleast` of the interpreter | by the theorems on normalization (C16) and induction over the items |
| C71 | `substConstants` with the reader and writer of trees | invariant of the replacement loop, then the round trip of trees (C43) |
| C72 | registers, variables, group elements, byte strings, AVL trees, loaded code; the group and the AVL verifier are parameters | case analysis on the nodes, induction over bytes |
| C73 | the reader's tests at each node and the typing rules they leave open | postconditions of parsers, induction over scripts with the scope |
| C74 | readers and writers of boxes over a JSON syntax tree | characterisation of the reader by its fields, round trips from the binary codecs |
| C75 | readers and writers of signed and unsigned transactions | the constructor of transactions (C49) and C74 |
| C76 | readers and writers of extensions and proofs | insertion order of maps, decimal names |
| C77 | readers and writers of propositions, positions, hints and bags of hints | round trips by induction, the prover does not look at what is lost, refinement of C63 |
| C78 | a session over the modelled calls, parametric in sending and joining bags | invariant per input over the turns (C63), C64, C65, C77 |
| C79 | the generator with the texts of the eight word lists as data; a reader of phrases after BIP-39 | bits of numbers, pieces of eleven bits, joining and splitting; checks of the lists in the kernel lifted by lemmas |
| C80 | readers and writers of secret keys, their addresses | codec lemmas, C21, C61, C77 |
| C81 | codes of the Rust types with both conversions, the conversions by recursion over the code | mutual induction over codes; C14; the lemma on values of C71 |
| C82 | heap.rs as a list of items with slots, a slab and its free list | refinement of a store `slot → element`; invariants on links, order and free list; swaps as exchanges of two positions |
| C83 | nodes, list of updates, heap and delays as one state; calls as steps; smaller steps for the race | simulation: each delay follows its own small automaton (`Spec.Timer.Delay`); C82 |
| C84 | next_interval on natural numbers with the checks of the code; polls of an interval mixed with other calls | arithmetic of the grid; induction over the calls on top of C83 |
| C85 | scanner as longest match; parser state with events, markers and forward parents; sink with rowan's builder | a direct recursive parser; simulation of events and sink; soundness, completeness and uniqueness against a grammar (`Spec.Script`) |
| C86 | ast, hir, rewrite, binder, assign_type (with a counter of calls), mir lowering, type check, compile | each pass characterised on the trees of the grammar; classification of all texts; evaluation by C35; reduction by C66 |
| C87 | pretty_error_desc with the panics of its arithmetic and look-ups | invariant: errors are at tokens; counting of line feeds before a byte |
| C88 | header, solution and votes to and from JSON trees; decimal spellings of `BigInt`; `serde(default)` with null | round trip field by field; spellings as a separate relation (`Spec.SpellsInt`); panics at header level |
| C89 | level nodes, Merkle and batch proofs, headers with interlinks, NiPoPoW proofs, full blocks | round trips; blocks by C75 |
| C90 | transition system of task 1, task 2 and the spawned tasks with two bounded channels; URLs without port are abstract | invariants by induction on executions; the network and reachability are specified apart (`Spec.Discovery`) |
| C91 | the same, with a potential | the potential goes down with every step; enabled step in every state that is not final |
| C92 | the same parts as C63, with simulated hints | explicit form of all prover passes on propositions with absent leaves, then induction over the turns; the set of parties that sign is specified apart (`Spec.JointSign`) |
| C93 | node_info.rs; texts are lists of scalar values | comparison of texts against numbers by cases on the digits; versions are specified by their numbers (`Spec.NodeResp`) |
| C94 | peer_info.rs, peer_addr.rs; socket addresses and URLs as parameters | both directions against the specified ways to report an address |
| C95 | chrome.rs as a transition system over several calls: task 1 with its heaps and counters, the channel of requests, the spawned tasks and their messages in order | inductive invariants over executions (what the counters count, where a request is, which messages follow which); specification in terms of events (`Spec.Chrome`) and `Spec.Discovery.Reach` |
| C96 | the same | a potential that decreases in every step but for what calls, new nodes and lists of peers add; analysis of states in which nothing can happen; witnesses for the violations |
| C97 | `box_builder.rs` as a record with its setters, `build_box_unchecked`, `build_box`, `calc_*` with `i64` arithmetic per build mode | the calls as a list, the specification by the last call about each part (`Spec.BoxBuilder`); induction over the calls; length of the VLQ form for the minimal value |
| C98 | `verify_p2pk_input`, `extract_sigma_boolean` on top of the signing model | case analysis on proof and proposition, first match in the list of inputs |
| C99 | both conversions with their bytes and shifts, `order`, `exponentiate` | sum of shifted bytes is the big-endian value; value of a scalar below the order |
| C100 | `Timeout` and `TimeoutStream` on top of the timer model of C83; the wrapped future is what it answers at each poll | induction over the steps with the invariant of the timer, agreement of the delays except the one that is reset |
| C101 | `js_conv.rs` both ways over a syntax tree of JavaScript values; numbers as binary fractions with NaN and infinities | relation `JsForm` between values and typed literals; mutual induction over values and over literals |
| C102 | header maps as association lists, every call of the builder, `replace_headers`, `merge_headers`, `default_headers`, `fetch` up to the call of the browser | headers as functions from names to values; induction over the calls; an error stays |
| C103 | paths, headers and client of the four queries on top of C102 | segments have no slash, so the path determines them |
| C104 | `wasm.rs` with exact times in nanoseconds, `next_interval` on them | integer arithmetic with truncation to milliseconds |
| C105 | `block_stream` and what it calls, with the random draws given; versions 1 and 2 | invariant of the blocks by induction over the stream, composed with C31, C34, C56, C58; group arithmetic for the equation |
| C106 | `estimate_tx_size_bytes` on the built transaction; prover and serializers as in C21 and C11 | every pass of the prover keeps the size of the tree; induction over inputs |
| C107 | `Wallet::from_mnemonic`, `from_secrets`, `add_secret`, `sign_message`, `Mnemonic::to_seed`, `sign_message_using_p2pk`, `verify_signature` of the bindings; prover and verifier as in C21 | secrets are a growing list; completeness of the prover is monotone in it; two accepted messages under one signature are a collision |
| C108 | `fetch` after the call of the browser, `Response`, `reqwest::Error`, the four queries of `api/node.rs`; the browser by when its promises settle and with what | case distinction on who comes first, timer or head; round trips of C88, C89 |
| C109 | heap of objects behind pointers, variables and buffers of the caller; `util.rs`, `collections.rs`, `token.rs`, `secret_key.rs`, box ids and values of `ergo_box.rs`, errors and strings, their functions with C linkage; undefined behaviour as an end of its own | an effect relation for every call, from it frame and invariants by induction over programs |
| C110 | one request as a transition system: polls by the runtime, the flag and callback of an abort, deletions; the checks of arguments; reference count of the Swift closure | invariants by induction over the interleaved actions |
| C111 | the forms of the JSON values with literal names, as a specification apart from the model | writers unfolded against the forms; readers by lookup over the fields of the forms |
| C112 | the writers of `bindings/*/src/json.rs` | form of each writer, then a bound over the form; round trip by the readers of C111 |
| C113 | the writers of the codecs, without their readers | a second description of every form as a relation between value and bytes (`Spec/Wire.lean`, `Spec/WireChain.lean`), by induction on the value |
| C114 | `I64`, `BoxValue`, `TokenAmount`, arrays of Longs, `get` and `add` of the collections, headers of a state context in the JavaScript bindings; the JSON reader of single numbers is a parameter | case analysis and arithmetic; nearest double through the absence of doubles between two neighbours; arrays by induction |
| C49 | Transaction::new, from_box_candidate | injectivity of the box codec; collision extraction |
| C47-C48 | ergo-p2p codecs, context extension, proof bytes | codec combinators |
| C62 | ergo-p2p peer database | induction over the history of calls, against a specification on histories |

## 5. Findings (code deviates from the property)

Each finding is a theorem about the model, proved on a concrete witness.

* C03: over-long VLQ encodings are accepted (`C03_*`); C04: `get_option` turns a failing inner reader into `None`.
* C05: `BoxValue::checked_mul_u32(0)` and `FromStr` leave the documented bounds.
* C06/C08: unchecked `u64` sums wrap in release builds.
* C07: the simple selector fails with more than 122 distinct tokens in the inputs although a selection exists.
* C11: the reader de-duplicates a token table with repeated ids, shifting later indices.
* C12: `NonMandatoryRegisters::get` uses the id (4..9) as a position: R4 gives R8's value, most ids give nothing.
* C13: `SFunc` cannot be serialized; several byte strings read as one type.
* C14: collections longer than 65535 panic on serialization; `Option` literals are refused; `Boolean`, `BigInt` and AVL flag
  bytes are read non-canonically.
* C15: the reader truncates a threshold above 255.  C16: a single surviving child is returned un-normalised.
* C17: `unify(T, Unit)` succeeds, `unify(Unit, Unit)` fails; type variables on the right side give wrong substitutions.
* C20: conflicting interpolation points (one at zero) are not reported.
* C21: an OR with equal children yields a proof that the verifier rejects; thresholds with `k > n` panic.
* C23: trailing proof bytes are ignored; an unreduced response is accepted.
* C29: batch Merkle proofs do not authenticate positions.  C30: an all-zero proof hash is read back as the empty node.
* C48: a context extension with 256 variables is written with count 0; proofs of 65536 bytes likewise; `Some([])` reads as `Empty`.
* C42: `ErgoTree::proposition` of a segregated tree whose root has constants of its own (accepted by the parser) replaces them by
  entries of the constant table; `ErgoTree::new` takes placeholders already in the expression for its own.
* C43: unparsed trees inside a box are rebuilt from the parsed header and size, so bits 5..7 of the header and overlong sizes are
  lost; a sized tree drops bytes behind its root; `ErgoTree::new` makes trees with more than 4096 constants that nobody can read;
  the table of variable types is shared by all trees read with one reader, so a tree with an undefined variable is accepted
  after one that defines it.  (Not modelled: an unsized tree inside a box constant also overwrites the constant store of the
  outer reader.)
* C50: a binary operation whose left operand is a `BoolConstants` collection is read back as something else; counts above the
  width of their length field are truncated.
* C34: a header with `n_bits` above 32 bits or with version-1 solution fields under version 2 is written without them; a nonce
  shorter than eight bytes is written but cannot be read; the extra bytes of headers above version 1 are skipped on reading and so
  are not committed to by the recomputed id.
* C35: `MIN % -1` is refused, `Byte` to `Short` and all `BigInt` downcasts are refused although the value fits.
* C36: `byteArrayToLong` sign-extends each byte before adding, so any byte above 127 behind the first spoils the result.
* C38: `patch` with a negative start appends or (debug) panics or (release) duplicates the collection; `indexOf` ignores its start
  index and returns it when the item is absent; `updated` builds ill-typed collections.
* C52: `flatMap` fails on all non-empty collections when the body gives byte collections, and otherwise labels the result with
  the wrong element type.
* C37: in the empty environment, in which every script starts, the variables of a block stay bound after it (`{ val x = 3; x } + x` is
  6); a block or function that binds one variable twice leaves it changed.
* C53: `reduce_to_crypto` sets no cost limit, and a script of 30 bytes that redefines a function variable recurses without end.
* C54: functions have dynamic scope: `((x) => (y) => x + y)(1)(2)` is an error.
* C55: the branches of `If` need not have one type, so a script of type `SigmaProp` can have an `Int` as result; then
  `reduce_to_crypto` panics.
* C31: `pack_interlinks` counts in bytes: 256 equal ids (a chain with levels above 255) panic with overflow checks and disappear
  without; `update_interlinks` panics on a header whose level is negative.
* C32: the verifier stores the first proof with the right genesis id without checking it; "better than" is not antisymmetric for
  proofs with different `m` and has cycles among proofs with one `m`.
* C45: `gen_indexes` panics when one of the 32 indexes is 0 (four zero bytes in the seed are enough), since zero has no digits
  and the first of them is read; the comment's bound on N is not attained (the maximum is 2143944600).
* C46: a header with compact difficulty 0 makes `max_level_of` divide by zero.
* C56: `prove` panics for `m = 0`, and (with overflow checks) for `k = chain.len() - 1`.
* C57: `check_interlinks_proof` rebuilds the tree from the interlinks themselves and never looks at the header's extension root:
  any interlinks are accepted with any header; it panics on a Merkle proof without interlinks.  `is_valid` checks no proof of work.
* C58: `check_interlinks_proof` refuses honest blocks whose extension has other fields.
* C59: embedded sizes are read and ignored (one of them even when unreadable).
* C60: `best_arg` does not end for `m = 0` and treats negative levels as levels above 2^31.
* C39: `DerivationPath::from_str` drops components that do not parse (`m/44'/429'/O'/0/0` is a shorter path) instead of failing;
  quotes may stand anywhere in a component; `next` of the last normal index gives an index whose text is no index and whose bits
  are those of a hardened one.
* C40: `derive` panics on paths shorter than the key's; after an index was skipped the key carries another path than the
  requested one, so that staged derivation is refused; skipping goes past the last normal index.
* C41: the empty P2S address is written but not read; a P2PK address may carry any bytes behind the key, so it has many texts;
  a test network encoder accepts head bytes of no network.
* C61: the P2SH script hashes the `Option` instead of its contents (`OptionGet` is missing): its bytes do not parse (a box with it
  makes the whole transaction unreadable) and its evaluation fails in every context, so such boxes are unspendable.  When a tree is
  turned into an address the hashed expression is not looked at, and a public key in a tree with another header loses the header.
* C47: an empty agent name is written but refused by the reader; a declared address with a port above 65535 is read as no address
  without an error; the size byte before a declared address and bytes behind the address inside a feature are not looked at.
* C44: `add_hints_for_input` and `replace_hints_for_input` put own commitments, with their secret random scalars, on the public side;
  whoever sees `public_hints` computes the secret key from the published signature.
* C65: `ReducedTransaction::unsigned_tx` is public; after replacing it, `sign_reduced_transaction` takes the message from the new
  transaction and the context variables from the old one (the result has another id and an invalid proof), or panics when the new one
  has more inputs.
* C66: after an error `reduce_to_crypto` evaluates the script a second time, as rebuilt by the printer, and returns that outcome.
  The rebuilt script can accept what the script refused: `Collection::new` turns a `Coll[Boolean]` of constants into one constant, and
  functions are compared by their bodies.  (In the code `==` on functions also compares source positions, which the printer changes; this
  is not modelled.)  After the result `false` or an error the printer `unwrap`s checked constructors: a fold, upcast or collection that
  parses but is ill typed, even in dead code, panics in the verifier.  `Filter` and `Fold` take back one indentation that only a function
  written in place has added: with a named function the counter goes below zero (panic in debug builds).
* C67: `SELF.R4[SigmaProp].get` is accepted as a script; when R4 holds an `Int`, the type is not checked, the script evaluates to the `Int`, and `reduce_to_crypto`
  panics (`C67_violation_register`). `Header.stateRoot` is declared `AvlTree` and gives bytes, `Box.getReg` has a type variable as its type, `Coll.flatMap` fails on byte
  collections and mislabels the others, `CONTEXT.{INPUTS, OUTPUTS, HEIGHT, SELF, minerPubKey}` as methods always fail (`C67_violation_*`).
* C68: `executeFromVar[SigmaProp](1)` with its own bytes in variable 1 overflows the stack (`C68_violation_deserialize`).
* C69: functions do not keep the variables they use. `{ val x0 = 0; val f = { val x1 = 1; (x3) => x1 + x3 }; f(2) }` fails instead of giving 3
  (`C69_violation_closure`); a name defined again in an inner block changes functions defined outside (`C69_violation_rebind`).
* C70: `atLeast(1, Coll(p))` is an error, as is `atLeast(3, Coll(p, q))`, instead of `p` and `false` (`C70_violation_atLeast`); a script with such a
  branch cannot be spent at all.
* C71: the new values of `substConstants` may not be a `Coll[Byte]`, so constants of type `Byte` can never be replaced (`C71_violation_bytes`).
* C72: `xor(a, b)` on strings of different lengths keeps the tail of `a`, while `Global.xor(a, b)` takes the arguments in the other order and keeps the tail of
  `b` (`C72_violation_xor`). `decodePoint` takes every string of at least 33 bytes that starts with 0 for the neutral element, and ignores bytes behind the
  first 33 (`C72_violation_point`). `exp` refuses exponents below 0 and from the group order on (`C72_violation_exp`).
* C73: the reader accepts a condition whose branches have different types (`C73_violation_if`: type `Boolean`, value an `Int`), a collection whose items
  have another type (`C73_violation_items`), a function where its result is wanted (`C73_violation_function`), a variable outside its block
  (`C73_violation_scope`), and any nonzero byte as the mark of a present optional operand (`C73_violation_option_flag`: one script, many byte forms).
* C12: `NonMandatoryRegisterId::try_from(String)` slices the text after its first byte before checking it: a name that is one character of two bytes (`"\u00e9"`)
  panics (`C12_names_panic`), also as a register name in the JSON of a box.
* C74: JSON does not check the bounds of `BoxValue` and `TokenAmount`: a box with value 0 is read, and its bytes cannot be read (`C74_bounds_violates`). The
  tree of a JSON box may be any bytes, also a tree with bytes behind it, which is kept as unparsed. In the bytes of the box they pass for the fields after the
  tree, so two boxes with different scripts, heights and registers have the same bytes and the same id (`C74_twins_violate`, for every hash function): the id
  check of the reader does not tell them apart.
* C75: transaction id, index and box id of the outputs in the JSON of a transaction are not compared with the transaction (`C75_output_ids_violate`).
* C76: the names `1`, `01` and `+1` of an extension are one variable, the last entry wins (`C76_names_violate`); bytes behind a constant are ignored
  (`C76_trailing_violates`); a proof `Some([])` becomes `Empty` (`C76_empty_proof_violates`).
* C77: the JSON reader of propositions does not compare a threshold with the number of children; a proof hint for "3 of 2" then panics (`C77_threshold_panic`).
  The tags 300 and 301 of constant propositions do not matter, only the field `condition` (`C77_condition_violates`). The empty position is written but not
  read (`C77_empty_position_violates`). Bytes behind points and proofs are ignored (`C77_point_trailing_violates`, `C77_proof_trailing_violates`), secrets
  at or above the group order are reduced (`C77_secret_violates`).
* C79: `wordlist/french.txt` begins with the mark U+FEFF, and `include_str!` keeps it. Every French phrase that should have the word `abaisser` has the mark
  in front of it, and so has another seed than the same phrase typed by hand; 16 zero bytes are an example (`C79_french_violates`).
* C80: JSON accepts numbers at or above the group order and reduces them (`C80_json_violates`), `from_biguint` accepts numbers of more than 256 bits and
  cuts them although its documentation says otherwise (`C80_biguint_violates`), 33 bytes beginning with 0 are the neutral element
  (`C80_dht_canonical_violates`), a tuple that does not belong to its number is accepted and gives rejected proofs (`C80_inconsistent_violates`).
* C81: `try_extract_into` reads a longer tuple as a shorter one and drops the rest, and reads an empty collection at any element type, although the trait
  promises "an error if type does not match" (`C81_longer_tuple_violates`, `C81_empty_violates`). `Constant::try_from(Value)` gives an option the type of
  its content (`C81_option_value_violates`).
* C83: `_reset` raises the generation before it stores the deadline, so a timer thread between the two can resolve the delay at the old deadline
  (`C83_race_violates`). A resolved delay that is reset after the timer is gone is resolved at once (`C83_reset_gone_violates`). "If the time is in the
  past the delay resolves immediately when polled" is false before the timer runs (`C83_past_violates`).
* C84: `Interval` with a zero duration panics with a division by zero (`C84_zero_violates`). On a timer that is gone it yields at every poll
  (`C84_gone_violates`). `SystemTime::elapsed` computes `self - now` and fails for every past time (`C84_elapsed_violates`).
* C86: `1 - 2`, `2 * 3`, `4 / 2` panic in `assign_type` (`todo!`, `C86_operators_violate`; `C86_panics` has the exact condition). `(1) HEIGHT` and
  `val HEIGHT = 5 HEIGHT` are compiled to `HEIGHT` (`C86_dropped_violates`). `1 + 2L + 3` is accepted and fails when it is evaluated (`C86_types_violate`).
  `HEIGHT + 1 + 2` is refused (`C86_height_violates`). `1+1+…+1` takes exponential time (`C86_exponential_violates`). Compiled scripts are
  numbers and so guard nothing: reduction never gives a proposition (`C86_no_proposition_violates`).
* C87: `pretty_error_desc` computes `start - 1`; so errors at byte 0 panic, among them every error for an empty text or for several statements
  (`C87_described_partial`, `C87_whole_violates`), and an error at the beginning of a line is said to span several lines (`C87_line_violates`).
* C88: `AutolykosSolution` writes `"d": null` for a missing distance and refuses to read it (`serde(default)` is for an absent field only), so
  every header of version 2 read from bytes is written as JSON that cannot be read (`C88_no_distance_violates`, `C88_parsed_violates`). The id is
  taken from the text (`C88_id_violates`). Votes in a list: `as_u64().unwrap() as u8` panics for negative numbers, fractions and numbers
  beyond 64 bits (`C88_votes_panic_violates`) and cuts others (`C88_votes_cut_violates`). Nodes give `w` and `d` for version 2, so headers of the
  same block from a node and from bytes are unequal with equal ids (`C88_node_text_violates`).
* C89: the same for NiPoPoW proofs and blocks (`C89_nipopow_violates`, `C89_block_violates`); `leafData` is documented as 32 bytes and accepted
  at any length (`C89_leaf_violates`).
* C90: seeds are not entered in `visited_peers` when they are sent, so a seed that is named as a peer before its own answer is handled is asked
  again (`C90_twice_violates`), against "any given ergo node is queried exactly once".
* C91: `url.socket_addrs(..).unwrap()` panics in the spawned task if a host does not resolve; no message is sent, `count` stays above zero and
  the search waits for ever, even after the timeout (`C91_dead_violates`). `buffer_unordered` limits futures that only spawn, so all seeds are queried at
  once whatever `max_parallel_tasks` is (`C91_parallel_violates`). The timeout only stops new peers (`C91_late_violates`).
* C92: when more than k parties announced commitments, `polish_simulated` marks the surplus children simulated, step 5 gives such a leaf
  the announced commitment instead of simulating it, it never gets a response and signing fails (`C92_too_many_violates`). Simulated hints exist for leaves only: the challenge of an
  absent compound branch is drawn anew by every signer, so the last signature is invalid (`C92_nested_violates`). Hints for simulated leaves are looked up by
  image, not by position, so an absent key occurring twice gets one answer for both (`C92_same_key_violates`).
* C93: versions are compared as texts: 4.0.99 counts as at least 4.0.100 (`C93_patch_violates`) and 10.0.0 does not (`C93_major_violates`).
* C94: `as_http_url` unwraps; `SocketAddr` accepts and prints scopes (`[fe80::1%1]:9030`), the `url` crate refuses them. A node that lists such a peer makes
  `peer_discovery` panic (`C94_scope_violates`).
* C95: `peer_discovery_impl_chrome` sends the first pending request of a call without checking `visited_peers`: a continued scan can ask again a node that was
  found inactive (`C95_again_violates`). Only for the first request: `C95_once_partial`.
* C96: after a good `/info` the request for the peers is put into the heap, but the heap is looked at only when the next message arrives. If none is under way the
  call hangs, timeout or not: always with a single seed that answers (`C96_single_violates`), and whenever the last node to answer is active
  (`C96_stuck_partial` shows it is the only way, apart from the next two). If the timeout comes in between, the request is moved to the next call but still
  counted in this one, which therefore does not end (`C96_late_violates`).
* C96: a `/peers/all` request failing with a network error other than Chrome's abort sends no message, contrary to the comment at `chrome.rs:375-377`
  (`C96_lost_violates`); the same if the host of a node cannot be resolved.
* C96: `max_parallel_requests` may be one or two; then no peer is ever found (`C96_small_violates`).
* Seen in passing in chrome.rs: the loop ends with `count` zero, not `chrome_request_count` as the comment at lines 140-144 says; the task of the timeout unwraps
  the result of sending the signal, which fails if the call has returned before.
* C97: `build()` and `calc_min_box_value()` unwrap `BoxValue::try_from(size * min_value_per_byte)`, which is an error below 10800: they panic for boxes of less than
  30 bytes, e.g. any box guarded by `sigmaProp(true)` without tokens and registers (`C97_small_box_panics_violates`), and always with
  `set_min_box_value_per_byte(0)` (`C97_zero_per_byte_violates`).
* C97: the value answered by `calc_min_box_value()`, once set, may take more bytes than the one before, and `build()` fails with `BoxValueTooLow`
  (`C97_min_value_violates`; exactly then by `C97_min_value_partial`); `C97_min_value_thrice` shows that three rounds are enough.
* C97: the size is that of the candidate; the box in a transaction has at least 33 bytes more (`C97_box_size`), so its value may be below the minimum per byte
  (`C97_box_below_min_violates`).
* C98: of two inputs that spend the same box `verify_p2pk_input` looks at the first only; the second may carry no proof (`C98_duplicate_input_violates`). A proof
  that is present with zero bytes is `Ok(false)` here and an error in `Verifier::verify` (`C98_zero_bytes_violates`).
* C100: when the timer is gone, a future or stream with a timeout fails with `TimedOut` at once and at every poll (`C100_gone_violates`); `is_ready()` on the delay
  does not tell an error from the deadline.
* C101: `to_js` shows a tuple as a plain array, so `from_js` reads it as a collection (`C101_tuple_violates`), as a collection with elements of other types that is no
  constant of any type (`C101_mixed_violates`), or refuses it (`C101_long_first_violates`). Boolean is shown and not read, Byte and Short come back as Int
  (`C101_small_types_violates`). An empty array and a marked array of fewer than two items panic (`C101_empty_violates`). Every number is accepted as an Int: fractions
  are cut, numbers out of range become a bound, NaN becomes zero (`C101_number_violates`).
* C102: `default_headers` inserts value by value, so of several values of a name only the last stays (`C102_defaults_violates`). `fetch` casts the milliseconds of the
  limit to `i32`, so limits of 2^31 ms and more give negative timers or, at multiples of 2^32 ms, abort the request at once (`C102_limit_violates`, `C103_limit_violates`).
* C103: an API key that is no header value (a line break at its end, a letter beyond ASCII) is silently replaced by `None` and the request sent (`C103_key_violates`).
* C104: `SystemTime::elapsed` of the browser build computes `self - now`, so it fails once any time has passed (`C104_system_elapsed_violates`). Durations are cut to
  milliseconds, so the next time of an interval shorter than a millisecond is never in the future (`C104_next_violates`), and that of 1.3 ms need not be
  (`C104_fraction_violates`).
* C105: `next_block` drops errors of `unpack_interlinks` and `update_interlinks` (`unwrap_or_default`): the next block has no interlinks and the one after it panics
  (`C105_lost_links_violates`). A zero index in `gen_indexes` panics (`C105_panic_violates`, same cause as C45). For versions other than 1 `prove_block` hashes the minimal
  signed bytes of the sum, `pow_hit` its 32 bytes: below `2^247` the hits differ (`C105_short_sum_violates`); it also records a one-time key and a distance that are never
  read back (`C105_later_violates`).
* C106: `estimate_tx_size_bytes` uses the mock proof `vec![0u8, SOUNDNESS_BYTES as u8]`, two bytes instead of the 56 of a `ProveDlog` proof: for a transaction
  with `n` inputs signed with one key each, the estimate is `54 * n` bytes too small (`C106_estimate_violates`, for all transactions).
* C107: `sign_message` and the signing of inputs use the same message format: a signature of a message chosen by somebody else is a valid proof for a transaction whose
  bytes to sign are this message (`C107_message_spends`).  The wallet takes `DhtSecretKey`s that do not fit their tuple, and the prover takes the first one of the tuple
  (`C107_bad_secret_violates`).
* C108: in the browser build the timer of a request is cleared when the head of the answer is there, so a node that never ends its answer keeps a query waiting for ever
  (`C108_limit_violates`); the queries do not look at the status (`C108_status_violates`) nor compare the header, NiPoPoW proof or Merkle proof with what was asked for
  (`C108_other_violates`); a header with a negative vote panics the caller (`C108_panic_violates`); `is_timeout` is false for every error, also that of the timer
  (`C108_timeout_violates`); an opaque answer, the only kind there is in the mode `no-cors`, has no URL and panics (`C108_no_cors_violates`).
* C109: `byte_array_from_raw_parts` with null and length 0 (an empty array) is undefined, as are null results of the functions on keys and texts and null C strings
  (`C109_null_ub_violates`); the functions that return no error panic when given null (`C109_null_panic_violates`); `delete_c_string_collection` frees the strings but not the
  collection it was given (`C109_strings_violates`).
* C110: `RequestHandle::abort` calls the abort function whatever the state of the request is: after the completion, twice, or while the query is about to complete; the Swift
  closure is then used after it was freed (`C110_abort_violates`).  A query that panics, a deleted runtime and refused arguments call nothing, so that `getInfoAsync` and the others
  wait for ever (`C110_silent_violates`).  The variable for the handle is not checked for null (`C110_handle_violates`).
* C111: the reader of unsigned inputs knows `boxId` only, while the readers of inputs and data inputs also take `id`, the name the explorer uses (`C111_unsigned_input_violates`).
* C113: `TypeCode` has no writer for the one byte code 87 of `(Short, Short)`, which the reader knows; the pair is written as `63 3` (`ergotree-ir/src/serialization/types.rs`, see also C13).
* C114: `I64::as_num` gives the same JavaScript number for 2^53 and 2^53 + 1 (`bindings/ergo-lib-wasm/src/utils.rs:42-44`); `get` of all collections but `Tokens` panics on an index beyond the end (`box_coll.rs:58-60` and others).

## 6. What is modelled and what is not

Each definition cites its lines; this table lists the Rust files each module of the model cites.
`AXIOMS.txt` lists the axioms of every theorem of the manifest (output of `#print axioms`; regenerate with `tools/docs.py`).

| module | Rust files |
|---|---|
| Address | ergotree-ir/src/chain/address.rs |
| Arith | bit_inversion.rs, byte_array_to_bigint.rs, byte_array_to_long.rs, ergotree-interpreter/src/eval/bin_op.rs, ergotree-interpreter/src/eval/downcast.rs, ergotree-ir/src/bigint256.rs, long_to_byte_array.rs, negation.rs, sglobal.rs, upcast.rs, xor.rs |
| Autolykos | ergo-nipopow/src/autolykos_pow_scheme.rs, ergo-nipopow/src/nipopow_algos.rs |
| Base | ergotree-ir/src/serialization/serializable.rs, ergotree-ir/src/serialization/sigmaboolean.rs, ergotree-ir/src/serialization/types.rs, ergotree-ir/src/sigma_protocol/sigma_boolean/cand.rs, ergotree-ir/src/types/stype_param.rs, sigma-ser/src/vlq_encode.rs |
| BigInt | ergo-nipopow/src/autolykos_pow_scheme.rs, ergotree-ir/src/bigint256.rs, ergotree-ir/src/serialization/data.rs |
| Box | ergo-lib/src/chain/transaction.rs, ergotree-ir/src/chain/ergo_box.rs, serialization/data.rs |
| BoxBuilder | ergo-lib/src/chain/ergo_box/box_builder.rs, ergotree-ir/src/mir/constant.rs |
| BoxSelector | ergo-lib/src/wallet/box_selector.rs, ergo-lib/src/wallet/box_selector/simple.rs, ergotree-ir/src/chain/ergo_box.rs, ergotree-ir/src/chain/token.rs, tx_builder.rs |
| CApi | bindings/ergo-lib-c-core/src/collections.rs, bindings/ergo-lib-c-core/src/ergo_box.rs, bindings/ergo-lib-c-core/src/error.rs, bindings/ergo-lib-c-core/src/rest/c_string_collection.rs, bindings/ergo-lib-c-core/src/secret_key.rs, bindings/ergo-lib-c-core/src/token.rs, bindings/ergo-lib-c-core/src/util.rs, bindings/ergo-lib-c/src/lib.rs, bindings/ergo-lib-c/src/macros.rs, bindings/ergo-lib-c/src/token.rs, byte_array.rs, ergo-chain-types/src/digest32.rs, ergotree-interpreter/src/sigma_protocol/private_input.rs, ergotree-ir/src/chain/token.rs |
| ChainGen | ergo-chain-generation/src/chain_generation.rs, ergo-chain-generation/src/lib.rs, ergo-nipopow/src/nipopow_algos.rs |
| Chrome | ergo-rest/src/api/peer_discovery_internals/chrome.rs, non_chrome.rs |
| Constant | chain/ergo_box.rs, ergotree-ir/src/mir/avl_tree_data.rs, ergotree-ir/src/mir/constant.rs, ergotree-ir/src/mir/value.rs, ergotree-ir/src/serialization/constant.rs, ergotree-ir/src/serialization/data.rs, sigma-ser/src/vlq_encode.rs |
| DerivationPath | ergo-lib/src/wallet/derivation_path.rs |
| Discovery | ergo-rest/src/api/peer_discovery_internals/non_chrome.rs |
| EcPoint | ergo-chain-types/src/ec_point.rs |
| Eip12 | bindings/ergo-lib-c-core/src/json.rs, bindings/ergo-lib-wasm/src/ergo_box.rs, bindings/ergo-lib-wasm/src/json.rs, bindings/ergo-lib-wasm/src/token.rs, bindings/ergo-lib-wasm/src/transaction.rs |
| ErgoTree | ergo_box.rs, ergotree-ir/src/ergo_tree.rs, ergotree-ir/src/ergo_tree/tree_header.rs |
| Eval | bin_op.rs, coll_exists.rs, coll_fold.rs, coll_forall.rs, create_avl_tree.rs, create_prove_dh_tuple.rs, deserialize_context.rs, deserialize_register.rs, downcast.rs, ergotree-interpreter/src/eval.rs, ergotree-interpreter/src/eval/apply.rs, ergotree-interpreter/src/eval/block.rs, ergotree-interpreter/src/eval/coll_by_index.rs, ergotree-interpreter/src/eval/collection.rs, error.rs, eval/coll_map.rs, eval/cost_accum.rs, eval/costs.rs, eval/expr.rs, eval/val_use.rs, extract_reg_as.rs, func_value.rs, get_var.rs, if_op.rs, method_call.rs, mir/coll_filter.rs, property_call.rs, scoll.rs, select_field.rs, sigma_and.rs, sigma_or.rs, soption.rs, tree_lookup.rs, tuple.rs, upcast.rs |
| EvalOps | and.rs, atleast.rs, bit_inversion.rs, bool_to_sigma.rs, byte_array_to_bigint.rs, byte_array_to_long.rs, calc_blake2b256.rs, calc_sha256.rs, chain/ergo_box.rs, chain/ergo_box/register/id.rs, coll_append.rs, coll_size.rs, create_avl_tree.rs, create_provedlog.rs, decode_point.rs, ergo-chain-types/src/ec_point.rs, ergotree-interpreter/src/eval/coll_by_index.rs, ergotree-interpreter/src/eval/coll_slice.rs, ergotree-interpreter/src/eval/scoll.rs, ergotree-ir/src/types/sbox.rs, eval.rs, eval/context.rs, eval/cost_accum.rs, eval/savltree.rs, exponentiate.rs, expr.rs, extract_amount.rs, extract_bytes.rs, extract_bytes_with_no_ref.rs, extract_creation_info.rs, extract_id.rs, extract_reg_as.rs, extract_script_bytes.rs, global_vars.rs, logical_not.rs, long_to_byte_array.rs, multiply_group.rs, negation.rs, option_get.rs, option_get_or_else.rs, option_is_defined.rs, or.rs, scontext.rs, sglobal.rs, sgroup_elem.rs, sigma_prop_bytes.rs, sigma_protocol/sigma_boolean.rs, subst_const.rs, tree_lookup.rs, types/savltree.rs, types/sheader.rs, types/spreheader.rs, xor.rs, xor_of.rs |
| EvalValue | coll_slice.rs, ergotree-interpreter/src/eval.rs, ergotree-interpreter/src/eval/atleast.rs, ergotree-interpreter/src/eval/bin_op.rs, ergotree-interpreter/src/eval/coll_by_index.rs, ergotree-interpreter/src/eval/env.rs, ergotree-interpreter/src/eval/error.rs, ergotree-interpreter/src/eval/scoll.rs, ergotree-ir/src/mir/constant.rs, ergotree-ir/src/mir/value.rs, eval/cost_accum.rs |
| Expr | and.rs, atleast.rs, bit_inversion.rs, block.rs, bool_to_sigma.rs, byte_array_to_bigint.rs, byte_array_to_long.rs, calc_blake2b256.rs, calc_sha256.rs, coll_append.rs, coll_exists.rs, coll_fold.rs, coll_forall.rs, coll_map.rs, coll_size.rs, coll_slice.rs, create_prove_dh_tuple.rs, create_provedlog.rs, decode_point.rs, deserialize_context.rs, deserialize_register.rs, downcast.rs, ergo_tree.rs, ergotree-ir/src/serialization/types.rs, ergotree-ir/src/types/stype.rs, exponentiate.rs, extract_reg_as.rs, get_var.rs, if_op.rs, logical_not.rs, long_to_byte_array.rs, mir/apply.rs, mir/bin_op.rs, mir/coll_by_index.rs, mir/coll_filter.rs, mir/collection.rs, mir/constant.rs, mir/create_avl_tree.rs, mir/expr.rs, mir/func_value.rs, mir/global_vars.rs, mir/method_call.rs, mir/property_call.rs, mir/select_field.rs, mir/sigma_and.rs, mir/sigma_or.rs, mir/tuple.rs, mir/unary_op.rs, mir/val_use.rs, multiply_group.rs, negation.rs, option_get.rs, option_get_or_else.rs, option_is_defined.rs, or.rs, serialization/bin_op.rs, serialization/constant_placeholder.rs, serialization/constant_store.rs, serialization/expr.rs, serialization/method_call.rs, serialization/op_code.rs, serialization/property_call.rs, serialization/serializable.rs, serialization/sigma_byte_reader.rs, serialization/sigma_byte_writer.rs, serialization/val_def_type_store.rs, sigma_prop_bytes.rs, subst_const.rs, tree_lookup.rs, types/sfunc.rs, types/smethod.rs, types/stype_companion.rs, upcast.rs, val_def.rs, xor.rs, xor_of.rs |
| ExtKey | ergo-lib/src/wallet/ext_pub_key.rs, ergo-lib/src/wallet/ext_secret_key.rs, ergotree-interpreter/src/sigma_protocol/private_input.rs |
| Extension | ergo-lib/src/chain/transaction/input/prover_result.rs, ergotree-interpreter/src/sigma_protocol/prover/context_extension.rs, ergotree-interpreter/src/sigma_protocol/prover/prover_result.rs |
| FMap | ergo-lib/src/wallet/box_selector/simple.rs, ergotree-interpreter/src/eval/env.rs |
| Fix | ergotree-ir/src/serialization/serializable.rs, ergotree-ir/src/serialization/sigmaboolean.rs |
| Gf | gf2_192/src/gf2_192.rs, gf2_192/src/gf2_192poly.rs, gf2_192/src/lib.rs |
| GfTables | gf2_192/src/gf2_192.rs |
| Hash | sigma-util/src/hash.rs |
| Header | digest32.rs, ergo-chain-types/src/header.rs, ergo-chain-types/src/preheader.rs, votes.rs |
| Http | ergo-rest/src/api.rs, ergo-rest/src/api/node.rs, ergo-rest/src/node_conf.rs, ergo-rest/src/reqwest/into_url.rs, ergo-rest/src/reqwest/util.rs, ergo-rest/src/reqwest/wasm/body.rs, ergo-rest/src/reqwest/wasm/client.rs, ergo-rest/src/reqwest/wasm/request.rs |
| HttpAnswer | ergo-rest/src/api/node.rs, ergo-rest/src/error.rs, ergo-rest/src/reqwest/error.rs, ergo-rest/src/reqwest/wasm/client.rs, ergo-rest/src/reqwest/wasm/mod.rs, ergo-rest/src/reqwest/wasm/response.rs |
| JsConv | bigint256.rs, bindings/ergo-lib-wasm/src/ast/js_conv.rs, ergotree-ir/src/types/stuple.rs |
| Json | ergo-chain-types/src/base16_bytes.rs, ergo-chain-types/src/digest32.rs, ergo-chain-types/src/json/votes.rs, ergo-lib/src/chain/json/context_extension.rs, ergo-lib/src/chain/json/transaction.rs, ergo-lib/src/chain/transaction/data_input.rs, ergo-lib/src/chain/transaction/input.rs, ergo-lib/src/chain/transaction/input/prover_result.rs, ergo-lib/src/chain/transaction/input/prover_result/json.rs, ergo-lib/src/chain/transaction/unsigned.rs, ergotree-interpreter/src/sigma_protocol/prover/context_extension.rs, ergotree-interpreter/src/sigma_protocol/prover/prover_result.rs, ergotree-ir/src/chain/ergo_box/register.rs, ergotree-ir/src/chain/json.rs, ergotree-ir/src/chain/json/box_value.rs, ergotree-ir/src/chain/json/ergo_box.rs, ergotree-ir/src/chain/json/ergo_tree.rs, ergotree-ir/src/chain/json/token.rs, ergotree-ir/src/chain/token.rs |
| JsonChain | base16_bytes.rs, ergo-chain-types/src/block_id.rs, ergo-chain-types/src/digest32.rs, ergo-chain-types/src/ec_point.rs, ergo-chain-types/src/header.rs, ergo-chain-types/src/json/autolykos_solution.rs, ergo-chain-types/src/json/votes.rs, ergo-chain-types/src/votes.rs, ergo-lib/src/chain/block.rs, ergo-merkle-tree/src/batchmerkleproof.rs, ergo-merkle-tree/src/json.rs, ergo-merkle-tree/src/merkleproof.rs, ergo-nipopow/src/nipopow_proof.rs |
| JsonHint | dht_protocol.rs, dlog_protocol.rs, ergo-chain-types/src/ec_point.rs, ergo-lib/src/chain/json/hint.rs, ergotree-interpreter/src/json/hint.rs, ergotree-interpreter/src/sigma_protocol.rs, ergotree-interpreter/src/sigma_protocol/challenge.rs, ergotree-interpreter/src/sigma_protocol/fiat_shamir.rs, ergotree-interpreter/src/sigma_protocol/prover/hint.rs, ergotree-interpreter/src/sigma_protocol/unchecked_tree.rs, ergotree-interpreter/src/sigma_protocol/wscalar.rs, ergotree-ir/src/chain/json/sigma_protocol.rs, sigma_boolean.rs |
| Merkle | ergo-merkle-tree/src/batchmerkleproof.rs, ergo-merkle-tree/src/lib.rs, ergo-merkle-tree/src/merkleproof.rs, ergo-merkle-tree/src/merkletree.rs |
| Methods | types/savltree.rs, types/sbox.rs, types/scoll.rs, types/scontext.rs, types/sfunc.rs, types/sglobal.rs, types/sgroup_elem.rs, types/sheader.rs, types/smethod.rs, types/soption.rs, types/spreheader.rs, types/stype_companion.rs, types/stype_param.rs |
| Mnemonic | ergo-lib/src/wallet/mnemonic_generator.rs |
| MultiSig | ergo-lib/src/wallet/multi_sig.rs, ergotree-interpreter/src/sigma_protocol/prover/hint.rs |
| Nested | ergotree-ir/src/ergo_tree.rs, ergotree-ir/src/mir/constant.rs |
| Nesting | ergo_box.rs, ergotree-ir/src/mir/constant.rs, ergotree-ir/src/serialization/data.rs |
| Nipopow | ergo-chain-types/src/extensioncandidate.rs, ergo-nipopow/src/nipopow_algos.rs, ergo-nipopow/src/nipopow_proof.rs, nipopow_verifier.rs |
| NipopowCodec | ergo-nipopow/src/nipopow_proof.rs |
| NodeResp | ergo-chain-types/src/peer_addr.rs, ergo-chain-types/src/peer_connection_dir.rs, ergo-rest/src/node_info.rs, ergo-rest/src/peer_info.rs, peer_discovery_internals.rs |
| Out | ergo-lib/src/chain/transaction.rs, ergotree-ir/src/chain/ergo_box.rs, sigma-ser/src/vlq_encode.rs |
| Peer | ergo-chain-types/src/peer_addr.rs, ergo-chain-types/src/peer_connection_dir.rs, ergo-p2p/src/peer_database.rs, ergo-p2p/src/peer_database/in_memory.rs, ergo-p2p/src/peer_feature.rs, ergo-p2p/src/peer_info.rs, ergo-p2p/src/peer_spec.rs, ergo-p2p/src/protocol_version.rs, sigma-ser/src/vlq_encode.rs |
| Printer | ergotree-ir/src/pretty_printer.rs, ergotree-ir/src/pretty_printer/print.rs, mir/coll_fold.rs, mir/collection.rs, mir/upcast.rs |
| Prover | dht_protocol.rs, dlog_protocol.rs, ergotree-interpreter/src/sigma_protocol/fiat_shamir.rs, ergotree-interpreter/src/sigma_protocol/proof_tree.rs, ergotree-interpreter/src/sigma_protocol/prover.rs, ergotree-interpreter/src/sigma_protocol/unchecked_tree.rs, private_input.rs, prover/hint.rs, unproven_tree.rs |
| Register | ergotree-ir/src/chain/ergo_box/register.rs, ergotree-ir/src/mir/tuple.rs, ergotree-ir/src/serialization/expr.rs, register/id.rs, register/value.rs, serialization/op_code.rs, sigma_byte_reader.rs |
| Requests | bindings/ergo-lib-c-core/src/rest/api/callback.rs, bindings/ergo-lib-c-core/src/rest/api/node.rs, bindings/ergo-lib-c-core/src/rest/api/node/abortable.rs, bindings/ergo-lib-c-core/src/rest/api/request_handle.rs, bindings/ergo-lib-c-core/src/rest/api/runtime.rs, bindings/ergo-lib-c-core/src/util.rs, bindings/ergo-lib-c/src/rest/api/request_handle.rs, bindings/ergo-lib-c/src/rest/api/runtime.rs |
| RustConst | ergotree-ir/src/mir/constant.rs, ergotree-ir/src/mir/value.rs, ergotree-ir/src/types/stype.rs |
| SType | ergotree-ir/src/serialization/types.rs, ergotree-ir/src/types/sfunc.rs, ergotree-ir/src/types/stuple.rs, ergotree-ir/src/types/stype.rs, ergotree-ir/src/types/stype_param.rs |
| ScalarInt | ergo-chain-types/src/ec_point.rs, ergotree-interpreter/src/eval/exponentiate.rs, ergotree-ir/src/bigint256.rs, ergotree-ir/src/sigma_protocol/dlog_group.rs |
| ScriptCompiler | binder.rs, ergoscript-compiler/src/ast.rs, ergoscript-compiler/src/compiler.rs, ergoscript-compiler/src/error.rs, ergoscript-compiler/src/type_infer.rs, ergotree-ir/src/type_check.rs, hir.rs, hir/rewrite.rs, mir/lower.rs, script_env.rs |
| ScriptLexer | ergoscript-compiler/src/lexer.rs, ergoscript-compiler/src/lexer/token_kind.rs, parser/parse.rs |
| ScriptParser | ergoscript-compiler/src/parser.rs, ergoscript-compiler/src/parser/sink.rs, grammar.rs, grammar/expr.rs, grammar/stmt.rs, hir.rs, parser/event.rs, parser/marker.rs, parser/parse.rs, parser/parse_error.rs, parser/source.rs, syntax.rs |
| SecretKey | ergo-lib/src/wallet/secret_key.rs, ergotree-interpreter/src/sigma_protocol/private_input.rs |
| SigmaBoolean | /sigma_boolean/cand.rs, /sigma_boolean/cor.rs, /sigma_boolean/cthreshold.rs, ergotree-ir/src/serialization/op_code.rs, ergotree-ir/src/serialization/sigmaboolean.rs, ergotree-ir/src/sigma_protocol/sigma_boolean.rs, ergotree-ir/src/sigma_protocol/sigma_boolean/cand.rs, ergotree-ir/src/sigma_protocol/sigma_boolean/cthreshold.rs |
| SigmaTree | challenge.rs, dht_protocol.rs, dlog_protocol.rs, ergo-chain-types/src/ec_point.rs, ergo_tree.rs, ergotree-interpreter/src/sigma_protocol/fiat_shamir.rs, ergotree-interpreter/src/sigma_protocol/sig_serializer.rs, ergotree-interpreter/src/sigma_protocol/wscalar.rs, gf2_192.rs, proof_tree.rs, sigma-ser/src/vlq_encode.rs, sigma_boolean.rs, sigma_protocol.rs, unchecked_tree.rs, unproven_tree.rs, verifier.rs |
| Signing | ergo-lib/src/chain/transaction/reduced.rs, ergo-lib/src/wallet/multi_sig.rs, ergo-lib/src/wallet/signing.rs, ergo-lib/src/wallet/tx_context.rs, ergo_state_context.rs, ergotree-interpreter/src/eval/context.rs, ergotree-interpreter/src/sigma_protocol/prover.rs, ergotree-interpreter/src/sigma_protocol/verifier.rs, eval.rs, wallet.rs |
| Timeout | ergo-rest/src/wasm_timer/timer/ext.rs |
| Timer | ergo-rest/src/wasm_timer/timer.rs, ergo-rest/src/wasm_timer/timer/delay.rs, timer/arc_list.rs, timer/global/desktop.rs, timer/interval.rs, wasm.rs |
| TimerHeap | ergo-rest/src/wasm_timer/timer/heap.rs |
| Transaction | ergo-lib/src/chain/transaction.rs, transaction/data_input.rs, transaction/input.rs, transaction/unsigned.rs |
| TxBuilder | ergo-lib/src/chain/ergo_box/box_builder.rs, ergo-lib/src/chain/transaction/unsigned.rs, ergo-lib/src/wallet/tx_builder.rs, ergotree-ir/src/chain/ergo_box.rs |
| TxSize | ergo-lib/src/wallet/tx_builder.rs, ergotree-interpreter/src/sigma_protocol.rs |
| Unify | ergotree-ir/src/types/type_unify.rs, sfunc.rs, stuple.rs, stype.rs |
| Value | ergo-lib/src/wallet/box_selector.rs, ergo-lib/src/wallet/box_selector/simple.rs, ergotree-ir/src/chain/ergo_box/box_value.rs, ergotree-ir/src/chain/token.rs |
| VerifyApi | ergo-lib/src/chain/transaction.rs, ergotree-interpreter/src/eval.rs, ergotree-ir/src/mir/constant.rs |
| Vlq | ergo-chain-types/src/header.rs, ergo-merkle-tree/src/batchmerkleproof.rs, sigma-ser/src/scorex_serialize.rs, sigma-ser/src/vlq_encode.rs, sigma-ser/src/zig_zag_encode.rs |
| Wallet | bindings/ergo-lib-c-core/src/wallet.rs, bindings/ergo-lib-wasm/src/wallet.rs, ergo-lib-wasm/src/verifier.rs, ergo-lib/src/wallet.rs, ergo-lib/src/wallet/mnemonic.rs, ext_secret_key.rs, prover.rs, secret_key.rs, wallet/signing.rs |
| WasmNum | bindings/ergo-lib-wasm/src/ast.rs, bindings/ergo-lib-wasm/src/block_header.rs, bindings/ergo-lib-wasm/src/box_coll.rs, bindings/ergo-lib-wasm/src/data_input.rs, bindings/ergo-lib-wasm/src/ergo_box.rs, bindings/ergo-lib-wasm/src/input.rs, bindings/ergo-lib-wasm/src/secret_key.rs, bindings/ergo-lib-wasm/src/token.rs, bindings/ergo-lib-wasm/src/utils.rs, box_value.rs |
| WasmTime | ergo-rest/src/wasm_timer/timer/interval.rs, ergo-rest/src/wasm_timer/wasm.rs |
| WordLists | ergo-lib/src/wallet/mnemonic_generator.rs |

Not modelled:

* Cryptographic primitives and external crates: Blake2b, SHA-2, HMAC, PBKDF2, secp256k1, Base58, Base16, UTF-8 (these are parameters or left out),
  random number generators (all randomness is an argument), `bounded-vec` and `indexmap` beyond their length and order rules.
* JSON of parameters. Node responses, headers, Merkle and NiPoPoW proofs, blocks, boxes, transactions, extensions, proofs, propositions and hints
  are modelled from the JSON syntax tree on; the reader of the text is serde's. `Display`/`Debug` texts other than derivation paths,
  addresses, register names and languages.
* `ergo-rest` except the timers, the search for peers and the requests (URLs and the texts of URL and JSON parsers are abstract, multipart forms are left out) (of the timers wakers, the global handle and the wasm scheduling are left out), the texts of the messages of `ergoscript-compiler`, the fake proof of work in the tests of `ergo-chain-generation`, the connection handling of `ergo-p2p`, all bindings except the conversion of JavaScript values, the numbers, amounts, arrays of Longs and collections of the JavaScript interface, and the memory of the C interface for collections, tokens, keys, box ids and values, errors and strings, and the callbacks of its requests.
* NFKD normalization and PBKDF2 behind `mnemonic.rs` (parameters of the model), `source_span`.
* Of `pretty_printer`: the text it writes and the source positions it assigns.  In the code `==` on functions (`bin_op.rs`) compares
  positions as well; here functions are equal if their parameters and bodies are.
* The AVL tree verifier (crate `ergo_avltree_rust`) is an arbitrary function, `World.avl`.  The methods of `savltree.rs` are modelled on
  top of it, so the theorems cover scripts that use them but say nothing about the correctness of AVL proofs.
* Error payloads: an error is one value, except in the interpreter where its kind is kept.
