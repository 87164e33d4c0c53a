Not modelled:

* Cryptographic primitives and external crates: Blake2b, SHA-2, HMAC, PBKDF2, secp256k1, Base58, Base16, UTF-8 (these are parameters or left out),
  random number generators (all randomness is an argument), `bounded-vec` and `indexmap` beyond their length and order rules.
* JSON of parameters. Node responses, headers, Merkle and NiPoPoW proofs, blocks, boxes, transactions, extensions, proofs, propositions and hints
  are modelled from the JSON syntax tree on; the reader of the text is serde's. `Display`/`Debug` texts other than derivation paths,
  addresses, register names and languages.
* `ergo-rest` except the timers, the search for peers and the requests (URLs and the texts of URL and JSON parsers are abstract, multipart forms are left out) (of the timers wakers, the global handle and the wasm scheduling are left out), the texts of the messages of `ergoscript-compiler`, the fake proof of work in the tests of `ergo-chain-generation`, the connection handling of `ergo-p2p`, all bindings except the conversion of JavaScript values, the numbers, amounts, arrays of Longs and collections of the JavaScript interface, and the memory of the C interface for collections, tokens, keys, box ids and values, errors and strings, and the callbacks of its requests.
* NFKD normalization and PBKDF2 behind `mnemonic.rs` (parameters of the model), `source_span`.
* Of `pretty_printer`: the text it writes and the source positions it assigns.  In the code `==` on functions (`bin_op.rs`) compares
  positions as well; here functions are equal if their parameters and bodies are.
* The AVL tree verifier (crate `ergo_avltree_rust`) is an arbitrary function, `World.avl`.  The methods of `savltree.rs` are modelled on
  top of it, so the theorems cover scripts that use them but say nothing about the correctness of AVL proofs.
* Error payloads: an error is one value, except in the interpreter where its kind is kept.
