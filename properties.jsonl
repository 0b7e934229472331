{"id": "C01", "title": "Pure signatures always verify", "statement": "If a key pair comes from try_keygen_with_rng or keygen_with_seeds, and sk.try_sign_with_rng(rng, m, ctx, hedged) returns Ok(sig), then pk.verify(m, sig, ctx) returns true.", "quantifier": "every parameter set, every hash function behaviour, every key-generation and signing RNG behaviour, every message, every context of at most 255 bytes, hedged or not", "why_tests_cant": "Messages, contexts, seeds and RNG outputs range over unbounded or astronomically large sets; the digest selects one of up to 2^68 leaf keys, and a test exercises a handful of them.", "anchors": ["src/lib.rs: try_sign_with_rng, verify", "src/slh.rs: slh_sign_internal, slh_verify_internal", "src/hypertree.rs", "src/xmss.rs", "src/wots.rs", "src/fors.rs"]}
{"id": "C02", "title": "Pre-hash signatures always verify", "statement": "If sk.try_hash_sign_with_rng(rng, m, ctx, ph, hedged) returns Ok(sig) for a generated key pair, then pk.hash_verify(m, sig, ctx, ph) returns true.", "quantifier": "every parameter set, every hash behaviour, every RNG behaviour, message, context of at most 255 bytes, each of the four pre-hash functions, hedged or not", "why_tests_cant": "Same unbounded domain as C01, multiplied by the pre-hash choice; the repository itself notes that no external vectors exist for the hash variants.", "anchors": ["src/lib.rs: try_hash_sign_with_rng, hash_verify", "src/hashers.rs: hash_message"]}
{"id": "C03", "title": "Signatures still verify after keys travel as bytes", "statement": "After serialising and deserialising both keys, and after deriving the public key with get_public_key, signatures made by the transported private key verify under the transported public key; and every private key accepted by PrivateKey::try_from_bytes signs verifiably for the public key get_public_key returns.", "quantifier": "every parameter set, every 4n-byte string accepted as private key, every message, context, RNG, pure and pre-hash", "why_tests_cant": "The set of accepted private-key byte strings cannot be enumerated; a test only exercises keys that keygen produced.", "anchors": ["src/lib.rs: SerDes for PublicKey, SerDes for PrivateKey, get_public_key"]}
{"id": "C04", "title": "Over-long contexts are refused everywhere, without side effects", "statement": "If ctx is longer than 255 bytes, try_sign_with_rng and try_hash_sign_with_rng return Err(\"ctx must be less than 256 bytes\") without drawing from the RNG, and verify and hash_verify return false; contexts of 0..255 bytes are never refused for their length.", "quantifier": "every parameter set, key, message, signature, RNG, context of any length", "why_tests_cant": "Context length is unbounded; the boundary must hold with every key and message.", "anchors": ["src/lib.rs: try_sign_with_rng, try_hash_sign_with_rng, verify, hash_verify"]}
{"id": "C05", "title": "Signing fails only for the documented reasons", "statement": "try_sign_with_rng and try_hash_sign_with_rng return Err exactly when the context exceeds 255 bytes or (hedged and the single RNG draw fails); otherwise they return Ok. Hedged signing makes exactly one RNG draw of n bytes, deterministic signing makes none, and signing never panics.", "quantifier": "every parameter set, private key value (even inconsistent ones), message, context, RNG, build mode", "why_tests_cant": "Absence of panics and of spurious errors over all digests and keys is a universal statement; overflow or indexing slips may hit only rare digests.", "anchors": ["src/lib.rs: try_sign_with_rng", "src/slh.rs: slh_sign_with_rng, slh_sign_internal", "src/hypertree.rs: ht_sign", "src/fors.rs: fors_sign"]}
{"id": "C06", "title": "Key generation fails only when the RNG fails, and draws exactly three seeds", "statement": "try_keygen_with_rng draws n bytes three times in order (SK.seed, SK.prf, PK.seed); it returns Err exactly when one of those draws fails, with no draw after the failing one, and otherwise Ok with the keys determined by the three drawn seeds; it never panics.", "quantifier": "every parameter set, every RNG state machine, every failure point", "why_tests_cant": "RNG failures at each draw and all RNG state machines cannot be enumerated.", "anchors": ["src/slh.rs: slh_keygen_with_rng, slh_keygen_internal", "src/lib.rs: try_keygen_with_rng"]}
{"id": "C07", "title": "Seeded key generation equals RNG key generation with the same seeds", "statement": "keygen_with_seeds(a,b,c) with n-byte seeds returns exactly what try_keygen_with_rng returns for an RNG that yields a, b, c; it never panics for n-byte seeds. With seeds of any other length it panics (the seed length is not tied to the parameter set by the type system).", "quantifier": "every parameter set, all seeds of all lengths", "why_tests_cant": "Seeds are 3n arbitrary bytes.", "anchors": ["src/traits.rs: keygen_with_seeds, DummyRng"]}
{"id": "C08", "title": "Deterministic signing is a function of key, message and context", "statement": "With hedged = false, try_sign_with_rng and try_hash_sign_with_rng return the same result whatever RNG is supplied, and leave that RNG untouched.", "quantifier": "every parameter set, key, message, context, every pair of RNGs", "why_tests_cant": "Independence from a parameter quantifies over all values of it.", "anchors": ["src/slh.rs: slh_sign_with_rng"]}
{"id": "C09", "title": "Hedged signing depends on the RNG only through one n-byte draw", "statement": "Two hedged signing calls whose single draw yields the same n bytes return the same signature, and hedged signing whose draw yields PK.seed equals deterministic signing.", "quantifier": "every parameter set, key, message, context, every pair of RNGs", "why_tests_cant": "Quantifies over all RNG behaviours.", "anchors": ["src/slh.rs: slh_sign_with_rng", "src/lib.rs: try_sign_with_rng"]}
{"id": "C10", "title": "Verification is total", "statement": "verify and hash_verify return a boolean, never panic and never loop, on any signature bytes, public-key bytes, message and context.", "quantifier": "every parameter set, every SIG_LEN-byte string, every public key, message, context, build mode", "why_tests_cant": "Attacker-chosen input space of 2^(8*SIG_LEN); fuzzing samples it.", "anchors": ["src/lib.rs: verify, hash_verify", "src/helpers.rs: deserialize, base_2b, to_int", "src/xmss.rs: xmss_pk_from_sig"]}
{"id": "C11", "title": "Public-key encoding is a bijection", "statement": "PublicKey::try_from_bytes accepts every PK_LEN-byte string, into_bytes inverts it, and try_from_bytes(into_bytes(pk)) gives back pk: PK.seed followed by PK.root.", "quantifier": "every parameter set, every public key, every byte string of the right length", "why_tests_cant": "Round trip over all byte strings.", "anchors": ["src/lib.rs: SerDes for PublicKey"]}
{"id": "C12", "title": "Private-key decoding accepts exactly consistent keys", "statement": "PrivateKey::try_from_bytes returns Ok exactly when the last n bytes are the root FIPS 205 key generation derives from the contained SK.seed and PK.seed, and Err(\"Corrupted key\") otherwise; into_bytes of an accepted key returns the original bytes; bytes of any generated key are accepted and decode to that key; it never panics.", "quantifier": "every parameter set, every SK_LEN-byte string, every seed triple", "why_tests_cant": "2^(32n) byte strings.", "anchors": ["src/lib.rs: SerDes for PrivateKey"]}
{"id": "C13", "title": "Private-key decoding does not and cannot validate SK.prf", "statement": "Whether PrivateKey::try_from_bytes accepts does not depend on the n bytes of SK.prf: replacing them in an accepted key always gives another accepted key, with the same public key.", "quantifier": "every parameter set, every accepted private key, every replacement SK.prf", "why_tests_cant": "A universal independence statement.", "anchors": ["src/lib.rs: SerDes for PrivateKey"]}
{"id": "C14", "title": "Signature encoding is a bijection with the FIPS 205 layout", "statement": "Decoding the bytes of a signature recovers it, encoding a decoded byte string gives the same bytes, every byte of the SIG_LEN-byte string is significant, and components appear in the order R, then per FORS tree secret and authentication path, then per layer WOTS+ signature and authentication path.", "quantifier": "every parameter set, every signature structure, every SIG_LEN-byte string", "why_tests_cant": "Round trip over all byte strings.", "anchors": ["src/helpers.rs: serialize, deserialize"]}
{"id": "C15", "title": "get_public_key returns the key pair's public key", "statement": "For every generated key pair, sk.get_public_key() equals the generated pk; for every private key its bytes are the last 2n bytes of the private key's encoding.", "quantifier": "every parameter set, every RNG or seed triple, every private key", "why_tests_cant": "All key pairs.", "anchors": ["src/lib.rs: get_public_key"]}
{"id": "C16", "title": "Message encoding is injective and separates pure from pre-hash", "statement": "The byte string hashed for (m, ctx) in pure mode determines m and ctx (for contexts up to 255 bytes), and is never equal to the one hashed for any (digest, ctx', ph) in pre-hash mode, so no two different pure requests and no pure/pre-hash pair are ever signed as the same string.", "quantifier": "all messages, contexts up to 255 bytes, pre-hash functions", "why_tests_cant": "Injectivity over unbounded strings.", "anchors": ["src/lib.rs: try_sign_with_rng, try_hash_sign_with_rng, verify, hash_verify"]}
{"id": "C17", "title": "Pre-hash encoding determines context, hash function and digest", "statement": "The byte string hashed in pre-hash mode determines ctx, the pre-hash function and the message digest; two pre-hash requests encode equally only if contexts and functions agree and the digests are equal.", "quantifier": "all messages, contexts up to 255 bytes, pre-hash functions", "why_tests_cant": "Injectivity over unbounded strings.", "anchors": ["src/lib.rs: try_hash_sign_with_rng", "src/hashers.rs: hash_message"]}
{"id": "C18", "title": "Key generation conforms to FIPS 205", "statement": "The bytes of the keys returned by try_keygen_with_rng equal those of FIPS 205 Algorithms 18/21 on the drawn seeds.", "quantifier": "every parameter set, all seeds, all hash behaviours", "why_tests_cant": "Known-answer tests cover a few seeds.", "anchors": ["src/slh.rs: slh_keygen_internal", "src/xmss.rs: xmss_node", "src/wots.rs: wots_pkgen, chain"]}
{"id": "C19", "title": "Signing conforms to FIPS 205", "statement": "The signature bytes returned by try_sign_with_rng and try_hash_sign_with_rng equal the output of FIPS 205 Algorithms 22/23 (over 19) on the same key, message, context and additional randomness.", "quantifier": "every parameter set, key, message, context up to 255 bytes, randomness, hash behaviour", "why_tests_cant": "Known-answer tests cover a few inputs.", "anchors": ["src/slh.rs: slh_sign_internal", "src/fors.rs: fors_sign", "src/hypertree.rs: ht_sign", "src/helpers.rs: serialize"]}
{"id": "C20", "title": "Verification conforms to FIPS 205", "statement": "verify and hash_verify return exactly the boolean of FIPS 205 Algorithms 24/25 (over 20).", "quantifier": "every parameter set, public key, message, context, signature bytes, hash behaviour", "why_tests_cant": "Known-answer tests cover a few inputs; a verifier that accepts too much on rare inputs passes them all.", "anchors": ["src/slh.rs: slh_verify_internal", "src/fors.rs: fors_pk_from_sig", "src/hypertree.rs: ht_verify", "src/xmss.rs: xmss_pk_from_sig", "src/wots.rs: wots_pk_from_sig"]}
{"id": "C21", "title": "Hash constructions conform to FIPS 205 section 11", "statement": "For each parameter set H_msg, PRF, PRF_msg, F, H and T_l are computed on exactly the byte strings FIPS 205 section 11 prescribes (SHAKE256; or MGF1, HMAC, zero padding, address compression and truncation over SHA-256/SHA-512), without panicking.", "quantifier": "every parameter set, all inputs, all behaviours of the underlying SHA-2/SHA-3 functions", "why_tests_cant": "Equality of functions over all inputs.", "anchors": ["src/hashers.rs: shake, sha2_cat_1, sha2_cat_3_5, hash_message", "src/helpers.rs: to_32_bytes, to_22_bytes"]}
{"id": "C22", "title": "Integer and digit conversions are exact", "statement": "Byte string to integer, integer to byte string, and base-2^b digit extraction compute the mathematical big-endian values for every input the API can produce, with no overflow or wrap-around losing information.", "quantifier": "all byte strings and digit widths 1..15 within the stated length bounds", "why_tests_cant": "Machine-integer wrap-around at rare values.", "anchors": ["src/helpers.rs: to_int, to_byte, base_2b"]}
{"id": "C23", "title": "WOTS+ checksum prevents digit domination", "statement": "For two different n-byte values, each one's signed digit string (message digits plus checksum digits) has a position where it is strictly smaller than the other's, so no WOTS+ signature can be turned into one on another value by only moving chains forward.", "quantifier": "all pairs of distinct n-byte values, every parameter set", "why_tests_cant": "Pairs of n-byte strings, 2^(16n).", "anchors": ["src/wots.rs: wots_sign, wots_pk_from_sig", "src/helpers.rs: base_2b, to_byte"]}
{"id": "C24", "title": "Digest splitting stays in range", "statement": "The tree index, leaf index and FORS indices derived from any message digest lie in [0,2^(h-h/d)), [0,2^(h/d)) and [0,2^a), equal the FIPS 205 big-endian fields, and the digest is exactly long enough.", "quantifier": "every parameter set, every digest", "why_tests_cant": "All m-byte digests.", "anchors": ["src/slh.rs: slh_sign_internal, slh_verify_internal"]}
{"id": "C25", "title": "Secret values never share a PRF input", "statement": "Any two different secret components (FORS leaf secrets or WOTS+ chain secrets, at any position of the hypertree) of one key are derived from different PRF input strings, in the SHAKE encoding and in the compressed SHA-2 encoding.", "quantifier": "every parameter set, every pair of positions", "why_tests_cant": "Pairwise distinctness over more than 2^64 positions.", "anchors": ["src/helpers.rs: Adrs", "src/fors.rs: fors_sk_gen", "src/wots.rs: wots_pkgen, wots_sign"]}
{"id": "C26", "title": "An accepted signature is the honest one, or exhibits a hash break", "statement": "If a generated public key accepts any (m, ctx, sig), then either sig is byte for byte what the private key's owner's signer would output for the randomizer R contained in sig, or sig yields explicitly two different inputs with the same F, H or T_l value (same seed and address), or it contains a WOTS+ chain value that lies strictly earlier in an honest chain than the one the honest signer ever publishes.", "quantifier": "every parameter set, hash behaviour, key pair, message, context, signature bytes", "why_tests_cant": "Quantifies over all forgeries.", "anchors": ["src/slh.rs: slh_verify_internal", "src/hypertree.rs: ht_verify", "src/xmss.rs: xmss_pk_from_sig", "src/wots.rs: wots_pk_from_sig", "src/fors.rs: fors_pk_from_sig"]}
{"id": "C27", "title": "Altering a valid signature without touching R needs a hash break", "statement": "If sig was produced by signing (m, ctx) and sig' differs from sig but has the same first n bytes and is also accepted for (m, ctx), then sig' exhibits a hash collision or an unpublished WOTS+ chain value as in C26.", "quantifier": "every parameter set, hash behaviour, key pair, message, context, every altered signature", "why_tests_cant": "All alterations of all signatures.", "anchors": ["src/slh.rs: slh_verify_internal", "src/lib.rs: verify"]}
{"id": "C28", "title": "Results do not depend on build mode or word size", "statement": "Key generation, signing, verification and (de)serialisation give identical results with and without overflow checks and debug assertions, and for any usize of at least 16 bits.", "quantifier": "all API inputs, all build configurations", "why_tests_cant": "Tests run in one configuration.", "anchors": ["Cargo.toml: profiles", "src/*.rs: all arithmetic"]}
{"id": "C29", "title": "Key generation control flow is independent of the secrets", "statement": "The sequence of branches, loop trip counts, array indices and hash-call shapes performed by key generation is the same for any two seed triples.", "quantifier": "every parameter set, every pair of seed triples, all hash behaviours", "why_tests_cant": "A 2-safety property over all pairs of secrets; dudect only gives statistical evidence.", "anchors": ["src/slh.rs: slh_keygen_internal", "src/xmss.rs: xmss_node", "src/wots.rs: wots_pkgen"]}
{"id": "C30", "title": "Signing control flow depends only on public data", "statement": "Two signing runs with private keys that have the same public key, on the same message and context, that output the same signature, perform the same sequence of branches, loop trip counts, array indices and hash-call shapes.", "quantifier": "every parameter set, every pair of private keys and runs", "why_tests_cant": "A 2-safety property over all pairs of secrets.", "anchors": ["src/slh.rs: slh_sign_internal", "src/wots.rs: wots_sign", "src/fors.rs: fors_sign"]}
{"id": "C31", "title": "Verification work is bounded", "statement": "Verification performs at most a fixed number of hash computations given by the parameter set, whatever the signature, key, message and context.", "quantifier": "every parameter set and every input", "why_tests_cant": "Worst case over all inputs.", "anchors": ["src/slh.rs: slh_verify_internal", "src/wots.rs: chain"]}
{"id": "C32", "title": "Every key obtainable through the API is consistent", "statement": "In any history of key generation, seeded key generation, (de)serialisation, cloning, get_public_key and signing calls, every private key in circulation signs verifiably for the public key it reports, and signing never changes any key.", "quantifier": "all finite histories of API calls, all RNGs", "why_tests_cant": "Unbounded histories.", "anchors": ["src/lib.rs", "src/traits.rs"]}
{"id": "C33", "title": "Zeroizing a key erases every byte", "statement": "After zeroize on a private or public key, its serialised form is all zero bytes.", "quantifier": "every parameter set, every key", "why_tests_cant": "All key values. (Erasure of memory on drop and of stack copies is outside an executable model.)", "anchors": ["src/types.rs: SlhPrivateKey, SlhPublicKey", "src/lib.rs: PrivateKey, PublicKey"]}
{"id": "C34", "title": "C key generation writes a matching pair or nothing", "statement": "slh_dsa_sha2_128f_keygen returns NULL_PTR_ERROR or KEYGEN_ERROR leaving the outputs untouched, or OK with the serialisation of a generated key pair in the two outputs. The codes are those of the C header and of the Python class, all different.", "quantifier": "all pointer combinations, RNGs and previous buffer contents", "why_tests_cant": "All RNG behaviours and buffer contents.", "anchors": ["ffi/src/lib.rs: slh_dsa_sha2_128f_keygen"]}
{"id": "C35", "title": "C signing and verification agree with the Rust API", "statement": "slh_dsa_sha2_128f_sign returns OK exactly when the pointers are present, the key decodes and the RNG does not fail, and then the output buffer verifies with slh_dsa_sha2_128f_verify under the matching public key; on every error the output buffer is untouched; verify returns OK exactly when the Rust verification accepts with empty context, else VERIFY_ERROR.", "quantifier": "all buffers, messages, keys and RNGs", "why_tests_cant": "All inputs.", "anchors": ["ffi/src/lib.rs: slh_dsa_sha2_128f_sign, slh_dsa_sha2_128f_verify"]}
{"id": "C36", "title": "C entry points are safe for every argument", "statement": "Every C entry point returns an error code, and never exhibits undefined behaviour or aborts, when given null pointers or a negative length.", "quantifier": "all argument combinations", "why_tests_cant": "All argument combinations; undefined behaviour may pass tests silently.", "anchors": ["ffi/src/lib.rs"]}
{"id": "C37", "title": "The raw test-only interface signs without domain separation", "statement": "_test_only_raw_sign and _test_only_raw_verify are mutually consistent, and a raw signature on the bytes 0, len(ctx), ctx, m is a valid pure signature on (m, ctx): the raw interface offers no separation from the pure one.", "quantifier": "every parameter set, key pair, message, context up to 255 bytes, RNG", "why_tests_cant": "All messages.", "anchors": ["src/lib.rs: _test_only_raw_sign, _test_only_raw_verify"]}
{"id": "C38", "title": "The parameter table is internally consistent", "statement": "For each of the twelve sets the published lengths satisfy the FIPS 205 formulas: SIG_LEN = (1 + k(1+a) + h + d*len)n, PK_LEN = 2n, SK_LEN = 4n, len = 2n+3, h = d*h', and the digest length is the sum of its fields.", "quantifier": "all twelve parameter sets", "why_tests_cant": "Each test sees one set at a time and only via end-to-end behaviour.", "anchors": ["src/lib.rs: slh_dsa_* constants"]}
{"id": "C39", "title": "The public key does not depend on SK.prf", "statement": "Two key generations with equal SK.seed and PK.seed give equal public keys whatever SK.prf is.", "quantifier": "every parameter set, all seeds", "why_tests_cant": "All seeds.", "anchors": ["src/slh.rs: slh_keygen_internal"]}
{"id": "C40", "title": "Signing is stateless", "statement": "Signing any sequence of messages with one key, in any order and interleaved with anything else, gives for each request the result of signing it alone with the same randomness.", "quantifier": "all finite sequences of signing requests", "why_tests_cant": "Unbounded histories.", "anchors": ["src/lib.rs: Signer for PrivateKey"]}
{"id": "C41", "title": "C signing and verification: exact behaviour on every argument", "statement": "slh_dsa_sha2_128f_sign and slh_dsa_sha2_128f_verify return a code, abort, or have undefined behaviour exactly as follows: NULL_PTR_ERROR when a checked pointer is null (key and output/signature; for signing also the message); abort when the checked pointers are present and message_len is negative; undefined behaviour when the length is acceptable and message_buf does not point to that many readable bytes (for verification this includes a null message_buf); a result code in all other cases.", "quantifier": "all argument combinations, all RNGs that do not panic", "why_tests_cant": "All argument combinations; undefined behaviour may pass tests silently.", "anchors": ["ffi/src/lib.rs: slh_dsa_sha2_128f_sign, slh_dsa_sha2_128f_verify"]}
{"id": "C42", "title": "Every WOTS+ key signs only one value", "statement": "Two signatures made with one private key, for any messages, contexts, modes and randomness, that use the same leaf of layer j of the hypertree contain the same WOTS+ signature and authentication path in that layer. So no one-time key of the hypertree ever signs two different values, although signing keeps no state.", "quantifier": "every parameter set, hash behaviour, private key, pair of signatures made with it, layer", "why_tests_cant": "Reusing a one-time key needs two signatures that meet in a leaf of an intermediate layer; random tests seldom meet below the top layers and vectors check one signature at a time.", "anchors": ["src/hypertree.rs: ht_sign", "src/xmss.rs: xmss_sign", "src/fors.rs: fors_sign, fors_pk_from_sig"]}
{"id": "C43", "title": "Every hash of a key has its own address", "statement": "Each place of a key where a hash is computed (WOTS+ chain step, WOTS+ public key, XMSS node, FORS node, FORS roots, secret value) has an address different from that of every other place, both as 32 bytes and in the compressed 22-byte form of the SHA-2 sets; and the functions compute those hashes at those addresses.", "quantifier": "every parameter set, every pair of places", "why_tests_cant": "2^h leaves; a collision of addresses does not change whether signatures verify.", "anchors": ["src/types.rs: Adrs", "src/wots.rs", "src/xmss.rs", "src/fors.rs", "src/hypertree.rs"]}
{"id": "C44", "title": "Decoding a private key shows only the comparison of the roots", "statement": "What an observer of branches, trip counts, indices, slice bounds, variable-time comparisons and hash-call shapes sees of PrivateKey::try_from_bytes is the same for all inputs, except for the operands of the final comparison: the root recomputed from the two seeds, and the stored root. In particular decoding two accepted keys with the same public key looks the same.", "quantifier": "every parameter set, hash behaviour, pair of byte strings of length SK_LEN", "why_tests_cant": "A 2-safety property over all pairs of secrets.", "anchors": ["src/lib.rs: SerDes for PrivateKey, try_from_bytes"]}
{"id": "C45", "title": "Signing work is bounded", "statement": "Signing performs at most a fixed number of hash computations given by the parameter set, whatever the key, message, context and randomness, even if it fails; pre-hash signing one more.", "quantifier": "every parameter set and every input; every RNG that does not itself use the crate's hash functions", "why_tests_cant": "Worst case over all inputs.", "anchors": ["src/slh.rs: slh_sign_internal", "src/fors.rs: fors_sign", "src/xmss.rs: xmss_sign", "src/hypertree.rs: ht_sign"]}
{"id": "C46", "title": "Key generation and key decoding work is bounded", "statement": "Key generation (with an RNG or from seeds) and decoding a private key perform at most as many hash computations as one XMSS tree of height h' needs.", "quantifier": "every parameter set, all seeds, all byte strings, every RNG that does not itself use the crate's hash functions", "why_tests_cant": "Worst case over all inputs.", "anchors": ["src/slh.rs: slh_keygen_internal", "src/xmss.rs: xmss_node", "src/lib.rs: try_from_bytes"]}
{"id": "C47", "title": "Exactly the necessary hashes, none twice", "statement": "Key generation hashes exactly once at every place (chain step, key compression, tree node, secret value) of the top XMSS tree and nowhere else; signing makes the calls of PRF_msg and H_msg and then exactly one call at each place of the selected FORS key and of the trees on its path, except what it leaves to the verifier in the top tree; verification makes the calls of H_msg and then exactly one call at each place between the signature and the public key. Pre-hash variants first hash the message. A run that fails hashes nothing of the key. Calls at different places never coincide, so no hash of the key's structure is computed twice.", "quantifier": "every parameter set, key, message, context, signature bytes and build; every RNG that does not itself use the hash functions; every behaviour of the hash functions", "why_tests_cant": "A redundant or misplaced hash does not change any output; the set of places depends on the digest and cannot be enumerated over all inputs.", "anchors": ["src/wots.rs", "src/xmss.rs", "src/hypertree.rs", "src/fors.rs", "src/slh.rs", "src/hashers.rs"]}
{"id": "C48", "title": "What a new signature needs after any history of signing", "statement": "Let a generated key answer any sequence of signing requests (pure or pre-hash, hedged or not, any messages, contexts and RNG, with other use of the RNG in between). If afterwards the public key accepts a signature for a message, context and mode that is not one of the answers, then one of these holds: two messages collide under the pre-hash; the signature exhibits a second preimage of F, H or T or a WOTS+ chain value before the one the owner publishes; the signature contains a FORS secret of the key that no answered signature opens; or the digest of a fresh (randomizer, message) pair selects only FORS secrets that answered signatures opened. Every signature made opens exactly the FORS secrets its digest selects.", "quantifier": "every parameter set, every hash function behaviour, every generated key, every finite history of requests, every candidate signature, message, context and mode", "why_tests_cant": "It speaks about all histories and all adversarial signatures; a test cannot enumerate forgeries, nor tell a forgery that breaks a hash from one that exploits a flaw of the code.", "anchors": ["src/slh.rs: slh_sign_internal, slh_verify_internal", "src/fors.rs: fors_sign, fors_pk_from_sig", "src/lib.rs: try_sign_with_rng, try_hash_sign_with_rng, verify, hash_verify"]}
{"id": "C49", "title": "One signature for two messages needs a break", "statement": "If a generated public key accepts the same signature bytes for two formatted messages, then one of the acceptances exhibits a hash break, or two different secret values of the key are equal, or H_msg selects the same FORS key and the same leaves for both messages. If the key's owner made the signature for one of the messages, the break is on the other message's side.", "quantifier": "every parameter set, hash behaviour, generated key, signature bytes and pair of messages/contexts/modes", "why_tests_cant": "Quantifies over all signature byte strings and pairs of messages.", "anchors": ["src/slh.rs: slh_verify_internal", "src/fors.rs: fors_pk_from_sig", "src/hypertree.rs: ht_verify"]}
{"id": "C50", "title": "The public key binds the secret seed", "statement": "If two byte strings decode to private keys with the same public key, then they have the same SK.seed, or the hash functions collide at a place of the top XMSS tree, or PRF maps two different inputs, one for each seed, to the same value at every one of the secret places of that tree.", "quantifier": "every parameter set, every hash behaviour, every pair of byte strings that decode", "why_tests_cant": "Quantifies over all pairs of keys; a pair with equal public keys cannot be found by sampling.", "anchors": ["src/slh.rs: slh_keygen_internal", "src/xmss.rs: xmss_node", "src/wots.rs: wots_pkgen"]}
{"id": "C51", "title": "The fuzz targets never crash and their tests hold", "statement": "fuzz_sign and fuzz_verify return for every input in every build. In fuzz_sign every signature made is accepted by the generated key for the message and the cut context, and without hedging signing never fails. In fuzz_verify tests 1, 2 and 3 answer true whenever signing succeeded; test 4 uses a genuine signature and a different message of the same length, and an answer true implies a hash break, equal secrets, or equal selections by H_msg. For inputs of 32 to 254 bytes the message is empty and test 4 is never run.", "quantifier": "all fuzz inputs, all builds, every RNG behaviour and hash behaviour", "why_tests_cant": "Fuzzing samples inputs; the claim is for all of them, and covers what the targets do not assert (they drop the results).", "anchors": ["fuzz/fuzz_targets/fuzz_sign.rs", "fuzz/fuzz_targets/fuzz_verify.rs"]}
{"id": "C52", "title": "The Python wrapper agrees with the Rust API, up to 2^31 bytes", "statement": "Key objects are made only from byte strings of the right length. keygen raises if the RNG fails, else gives the serialised generated pair. For messages of less than 2^31 bytes sign and verify do what the Rust API does with an empty context (signing hedged); verify raises for signatures of another length, sign raises for an undecodable key or a failing RNG; keygen, sign, verify in a row gives True. Limits: if the message length modulo 2^32 is at least 2^31 the process is aborted, and a message followed by any multiple of 2^32 bytes is treated as the message alone, by sign and by verify. There is no undefined behaviour on targets with at least 32 bits.", "quantifier": "all messages of any length, all byte strings as keys and signatures, every RNG behaviour, every hash behaviour, all builds", "why_tests_cant": "The limits need messages of 2 GiB and more, and the equivalence is over all inputs.", "anchors": ["ffi/fips205.py", "ffi/src/lib.rs"]}
{"id": "C53", "title": "A whole session shows nothing but its public outputs", "statement": "Take two runs of any sequence of API calls (generating keys with or without seeds, encoding, decoding, cloning, signing, hash-signing) that differ only in secret inputs: the seeds, the private key bytes decoded (both valid), and what the RNGs deliver. If after every call the public keys and signatures published are the same, the sequences of observable events (branches, memory offsets, hash calls and their lengths) are the same. The same holds for the C entry points for key generation (no condition on outputs at all) and signing, also with addresses into different memories, and serialising any two keys looks the same.", "quantifier": "all sequences of calls of any length, all keys, seeds and messages, all pairs of RNGs that fail alike, every hash behaviour, all 12 sets, all builds", "why_tests_cant": "A timing test samples single calls with noise; this is about all pairs of sessions.", "anchors": ["src/lib.rs", "src/slh.rs", "src/traits.rs", "ffi/src/lib.rs"]}
{"id": "C54", "title": "Exact number of hash computations", "statement": "A successful key generation, and decoding any bytes as a private key, computes exactly the hashes of one full XMSS tree: 2^h'(16 len + 1) + 2^h' - 1. Verifying any bytes computes exactly those of H_msg plus k(1+a)+1 plus, for each of the d layers, the sum over the chains of 15 minus the digit, plus 1 + h'. A successful signature costs exactly those of PRF_msg and H_msg plus the k FORS trees, the FORS key and d full XMSS trees, minus what the verifier computes in the top tree. Pre-hash variants take one more; over-long contexts none. Two runs of signing with any keys and messages differ by at most 15 len hashes.", "quantifier": "all keys, messages, contexts, signature bytes, RNGs, hash behaviours, all 12 sets, all builds", "why_tests_cant": "Tests do not count hash calls, and counting samples does not show the number is exact for every input.", "anchors": ["src/wots.rs", "src/xmss.rs", "src/hypertree.rs", "src/fors.rs", "src/slh.rs"]}
{"id": "C55", "title": "An observer counts exactly the hashes that are computed", "statement": "The hash calls an observer of control flow sees (which function, how many bytes in all its updates) are, in order, exactly the calls made, and runs end alike with and without the observer. Hence the exact numbers of C54 are what an observer counts: key generation and private-key decoding always show one full XMSS tree; signing shows a number determined by the digits the signature itself shows for the top layer; verification one determined by the digits the signature shows.", "quantifier": "all keys, messages, contexts, signature bytes, RNGs that do not use the crate's hash functions, hash behaviours, all 12 sets, all builds, API and C interface", "why_tests_cant": "A timing test samples runs; it cannot show that the number of hashes is exactly a function of public data.", "anchors": ["src/slh.rs", "src/lib.rs", "src/hashers.rs", "ffi/src/lib.rs"]}
{"id": "C56", "title": "What the timing experiment of the repository measures", "statement": "For any 16 bytes z delivered by its RNG, one measurement of dudect/src/main.rs ends without a panic in every build; each of its two rounds makes the key pair of Algorithm 18 and the signature of Algorithm 19 with all seeds and the randomness equal to z. Key generation looks the same to an observer of control flow for all z. Measurements for any two z (and any hash functions) differ by at most 1050 of more than four million hash computations. The two classes of the experiment can differ in that number although the code is right, because z is also published as PK.seed.", "quantifier": "all RNG outputs, all hash behaviours, all builds", "why_tests_cant": "The experiment samples two values of z on one machine and judges by statistics.", "anchors": ["dudect/src/main.rs", "src/slh.rs", "src/lib.rs"]}
{"id": "C57", "title": "Exit code of the C test program", "statement": "ffi/tests/baseline.c ends without undefined behaviour or abort for every content of its uninitialised variables and every behaviour of the operating system's RNG. It exits with 1 exactly when the RNG failed in key generation or signing, or the signature made for one message is accepted for the other; otherwise with 0. If the RNG works, exit code 1 exhibits a break of the hash functions or a message pair selecting the same FORS leaves.", "quantifier": "all RNGs, all initial memory contents, all hash behaviours, all builds", "why_tests_cant": "The program is itself a test, run for one RNG output.", "anchors": ["ffi/tests/baseline.c", "ffi/src/lib.rs"]}
{"id": "C58", "title": "A test vector passes exactly if it is a vector of FIPS 205", "statement": "A key generation vector passes exactly if its keys are those of Algorithm 18 for its seeds. A signature vector whose private key has the right length and root passes exactly if its signature is that of Algorithm 19 with the given randomness, or PK.seed when deterministic. A verification vector passes exactly if its verdict is that of Algorithm 20, public keys and signatures of the wrong length being rejected. A vector of py_vectors.rs passes exactly if the signature is that of Algorithms 18 and 19. With data of the wrong length or a private key with a wrong root the test programs panic.", "quantifier": "all vectors, all hash behaviours, all 12 sets, all builds", "why_tests_cant": "Vectors are finitely many; this says which vectors at all can pass.", "anchors": ["tests/nist_acvp_vectors/mod.rs", "tests/py_vectors.rs", "src/lib.rs"]}
{"id": "C59", "title": "When the round trip tests pass", "statement": "The crate's own round trip test, with any RNG that works, passes unless a signature it expects to be rejected is accepted, and then shows a break of the hash functions, or FORS leaves selected twice. The ignored test tests/messages.rs signs with an empty context and verifies with another one, so whatever its constants and its RNG, it can pass only if a signature is accepted for a message it was not made for.", "quantifier": "all RNGs, all expected constants, all hash behaviours, all 12 sets, all builds", "why_tests_cant": "The tests run with one seed.", "anchors": ["src/lib.rs", "tests/messages.rs"]}
{"id": "C60", "title": "Accepted signatures fit together whoever made the key", "statement": "Let one public key, chosen by anybody in any way, accept two signatures. Then wherever both verifications hash at the same place of the hypertree or the FORS trees, they hash the same bytes; or they hash different bytes there to the same value; or they use a one-time key for two different values, and then each signature contains a chain value from which one in the other is computed. With the same digest the signatures agree after the randomizer, so an accepted signature cannot be altered there. Signatures made through the API with one private key show neither exception. A public seed, a digest and a signature are accepted by at most one public key.", "quantifier": "all public keys, all signatures, all messages, all hash behaviours, all 12 sets, all builds", "why_tests_cant": "Speaks about all keys and signatures an adversary may choose; finding a violating pair would need a search through all of them.", "anchors": ["src/lib.rs", "src/slh.rs", "src/hypertree.rs", "src/xmss.rs", "src/wots.rs", "src/fors.rs"]}
{"id": "C61", "title": "How many digests known signatures cover", "statement": "Let any signatures of a generated key be known. Another accepted pair of signature and formatted message shows a break of F, H, T or an unpublished chain value, or contains a FORS secret no known signature opens, or its digest, computed for a randomizer and message not among the known ones, selects only FORS leaves the known digests select. Of all m-byte digests, at most the fraction (sum of r^k over the FORS keys used, r the number of known digests selecting that key) / 2^(h + k a) does so; with q known signatures and no FORS key selected more than r times, at most q r^(k-1) / 2^(h + k a).", "quantifier": "all keys, all lists of known signatures, all hash behaviours, all 12 sets", "why_tests_cant": "Counts digests among 256^m.", "anchors": ["src/slh.rs", "src/fors.rs", "src/lib.rs"]}
{"id": "C62", "title": "FORS security level after 2^64 signatures", "statement": "Let the H_msg digests of q signatures and of one more message run through all possibilities. The fraction of cases in which the last digest selects only FORS leaves that the digests of the signatures select is at most 2^(-k a) times the sum over j of S(k,j) (q/2^h)^j, with S(k,j) the number of ways to divide k things into j classes. For every q up to 2^64 it is at most 2^-133 (128s), 2^-128 (128f), 2^-193 (192s), 2^-194 (192f), 2^-255 (256s and 256f); for T further messages at most T times that.", "quantifier": "all numbers of signatures up to 2^64, all numbers of tries, all 12 sets", "why_tests_cant": "Counts histories of up to 2^64 digests.", "anchors": ["src/slh.rs", "src/fors.rs", "src/lib.rs"]}
{"id": "C63", "title": "Hashes are computed in the order of the standard", "statement": "Record every call of SHA-256, SHA-512, SHAKE128 and SHAKE256 with its input. Verification of any bytes makes the calls of algorithm 24 (25 for the pre-hash variant, 20 for the raw one), in the standard's order, and returns its result. Signing that succeeds makes the calls of algorithm 22 (23, 19) for the randomness it drew, in order, and returns its signature; signing that fails makes none, or the pre-hash only. Key generation and decoding a private key make the calls of algorithm 18 for their seeds, in order.", "quantifier": "all keys, seeds, messages, contexts, signatures, RNGs, hash behaviours, builds, all 12 sets", "why_tests_cant": "Equality of whole call sequences with hundreds of thousands of hashes, for all inputs; output tests do not see redundant, repeated or reordered hashing.", "anchors": ["src/slh.rs", "src/hypertree.rs", "src/xmss.rs", "src/wots.rs", "src/fors.rs", "src/hashers.rs", "src/lib.rs"]}
{"id": "C64", "title": "The C entry points write only their output buffers", "statement": "Take the memory of the calling process, with addresses as arguments. Key generation that returns has changed memory only if it returned OK, and then only in the two output buffers; signing only in the signature buffer. On OK the buffers hold the serialised pair, or the signature the Rust API makes for the key and message found in memory; verification says what the Rust API says of the bytes in memory. Behaviour is undefined exactly if an address is neither null nor usable, if two buffers of a call overlap, or (verification) if the message is null. Key generation, signing and verification in four separate buffers with a working generator return OK three times. Where the behaviour is defined, the call with addresses looks to an observer of control flow exactly like the call on the contents of the buffers.", "quantifier": "all memories, addresses, lengths, messages, RNGs, hash behaviours, builds", "why_tests_cant": "Says which bytes of the whole address space stay as they were and which pointer arguments are misuse; tests pass a few well-formed buffers and look at outputs.", "anchors": ["ffi/src/lib.rs", "ffi/fips205.h"]}
{"id": "C65", "title": "A covered digest is all a forger needs", "statement": "The converse of C61. Anyone who holds signatures of one key and finds a randomizer R of n bytes and a message whose digest is covered by the digests of those signatures can put a signature together from parts of the known ones, without the private key, and verify (hash_verify) accepts it for every message and context with that formatted message. The number of covered digests is exact: the fraction is the sum over the FORS keys used of the product over the k trees of the number of leaves disclosed, over 2^(h+ka); after one signature it is 2^-(h+ka).", "quantifier": "all generated keys, known signatures, randomizers, messages, contexts, pre-hashes, hash behaviours, builds, all 12 sets", "why_tests_cant": "A covered digest that is not of a known signature is out of reach of tests (about 2^-128 or less); the statement shows the bound of C61, C62 is about real forgeries and is tight.", "anchors": ["src/slh.rs", "src/fors.rs", "src/lib.rs"]}
{"id": "C66", "title": "Forging with chosen messages when H_msg is random", "statement": "Run slh_sign_internal and slh_verify with H_msg replaced by a random function and PRF_msg by random randomizers. A forger who knows the key pair's public part (indeed any strategy at all, of any complexity) chooses messages to be signed and points at which to evaluate H_msg, each depending on all answers so far, and ends with a message and a signature. Let them ask for q signatures and T evaluations with q(1 + T/2^(8n)) <= 2^64. Then the probability that verification accepts a pair that was not handed out is at most the probability that it is accepted and shows a break of something else (a second preimage of F, H or T, an unpublished chain value, or a FORS secret that no signature handed out opens) plus (T+1)/2^L, L being 133, 128, 193, 194, 255, 255 for the 128s, 128f, 192s, 192f, 256s, 256f sets. There is no further loss, in particular none for randomizers that the forger has guessed. The game never panics, and every signature handed out is accepted. Conversely a collision of H_msg for the randomizer of a signature gives a forgery that breaks nothing else.", "quantifier": "all generated keys, all adaptive forgers, all q and T within the bound, all finite message sets, all behaviours of the other hash functions, builds, all 12 sets; probability over all functions and randomizers", "why_tests_cant": "A statement on the probability of events of about 2^-128 over all adaptive strategies and all functions.", "anchors": ["src/slh.rs", "src/fors.rs", "src/lib.rs"]}
{"id": "C67", "title": "Forging when the hash functions are random functions", "statement": "Take the first n bytes of the outputs of SHA-256, SHA-512 and SHAKE256, as functions of the complete input, to be random (the remaining bytes may be anything), H_msg to be a random function and the randomizers of the signatures and the secret seed given to keygen_with_seeds to be random; PK.seed and SK.prf may be anything. The code generates the key, signs and verifies with these functions, composing the inputs itself. A forger who is given the public key, and who asks for q signatures of chosen messages, T values of H_msg and Q values of the hash functions, in any order and depending on all answers so far, ends with an accepted pair of message and signature that was not handed out with probability at most (T+1)/2^L + 2(Q+v)/2^(8n), v being the number of hash evaluations of one verification (under 2^15), if q(1 + T/2^(8n)) <= 2^64. So with up to 2^63 signatures and 2^t evaluations of each kind, t between 15 and 8n, the probability is at most 2^(t+3-8n). The game never panics.", "quantifier": "all 12 parameter sets, all adaptive forgers, all q, T, Q, all PK.seed and SK.prf, all finite message sets, builds; probability over all functions, secret seeds and randomizers", "why_tests_cant": "A bound near 2^-128 on the success of every adaptive strategy, over all functions; any slip in the addresses or in the composition of hash inputs that makes two places share an input, or in signing that reveals a further chain value or FORS secret, makes it false without any test noticing.", "anchors": ["src/slh.rs", "src/hypertree.rs", "src/xmss.rs", "src/wots.rs", "src/fors.rs", "src/hashers.rs", "src/traits.rs"]}
{"id": "C68", "title": "Forging against the SHAKE parameter sets when SHAKE256 is a random function", "statement": "Replace nothing in the hash function tables of the code. For the six SHAKE parameter sets, take SHAKE256 (as a function of the complete input, with outputs of at least m bytes) to be a random function and SK.seed and SK.prf, given to keygen_with_seeds, to be random. PK.seed may be anything that is not the beginning of an address of the key, for example anything whose first byte is not zero. The code generates the key, signs (slh_sign_with_rng, deterministic or hedged with bytes that the forger chooses) and verifies. A forger who is given the public key, and who asks for q signatures of chosen messages and Q values of SHAKE256, in any order and depending on all answers so far, ends with an accepted pair of message and signature that was not handed out with probability at most (Q+1)/2^L + (2(Q+v) + Q + q + 2)/2^(8n), with L as in C66 and v as in C67, if q(1 + Q/2^(8n)) <= 2^64. So with up to 2^63 signatures and 2^t evaluations (t between 15 and 8n, q <= 2^t) the probability is at most 2^(t+4-8n). The game never panics.", "quantifier": "the 6 SHAKE parameter sets, all adaptive forgers, all q, Q, all such PK.seed, all finite message sets, all values of the hedging bytes, builds; probability over all functions and secret seeds", "why_tests_cant": "As C67, and it also depends on PRF_msg and H_msg: a randomizer computed from public values, a message hash that does not depend on the randomizer, the root or part of the message, or inputs of the two functions that can coincide with other inputs make it false, while all signatures still verify.", "anchors": ["src/slh.rs", "src/hashers.rs", "src/lib.rs", "src/traits.rs"]}
{"id": "C69", "title": "Forging against the SHA2 parameter sets when SHA-256 and SHA-512 are random functions", "statement": "Replace nothing in the hash function tables of the code. For the six SHA2 parameter sets, take SHA-256 and SHA-512 (as functions of the complete input) to be independent random functions and SK.seed and SK.prf, given to keygen_with_seeds, to be random. PK.seed may be anything except the three constant strings of bytes 0, 0x36 and 0x5c, or it is random as well (then add 3/2^(8n)). H_msg and PRF_msg are the compositions of the code: MGF1 over a hash of R, PK.seed, the root and the message, and HMAC. The code generates the key, signs (slh_sign_with_rng, deterministic or hedged with bytes that the forger chooses) and verifies. A forger who is given the public key, and who asks for q signatures of chosen messages and Q values of the two functions, in any order and depending on all answers so far, ends with an accepted pair of message and signature that was not handed out with probability at most (Q+1)/2^L + (2(Q+v) + 2Q + N)/2^(8n) + (q^2 + N^2)/2^(8h), where N = Q+2q+2, h is 32 in category 1 and 64 otherwise, L is as in C66 and v as in C67, if q(1 + Q/2^(8n)) <= 2^64. So with up to 2^63 signatures and 2^t evaluations (t between 15 and 8n, q <= 2^t) the probability is at most 2^(t+5-8n). The game never panics.", "quantifier": "the 6 SHA2 parameter sets, all adaptive forgers, all q, Q, all such PK.seed, all finite message sets, all values of the hedging bytes, builds; probability over all functions and seeds", "why_tests_cant": "As C68, and it also depends on the shape of HMAC and MGF1: an HMAC whose outer hash is missing, a message hash whose MGF1 seed lacks R or PK.seed or whose inner hash lacks part of its input, or a dropped block padding that lets inputs of two functions coincide make it false, while all signatures still verify.", "anchors": ["src/slh.rs", "src/hashers.rs", "src/lib.rs", "src/traits.rs"]}
{"id": "C70", "title": "Forging with the public API when the hash functions are random functions", "statement": "Take the hash functions that the crate uses (SHA-256, SHA-512, SHAKE128, SHAKE256, as functions of the complete input) to be random functions and SK.seed and SK.prf, given to keygen_with_seeds, to be random. A user of the API who has the public key calls try_sign_with_rng and try_hash_sign_with_rng q times, with messages, contexts (also too long ones), pre-hash functions, the hedged flag and the behaviour of the random number generator (bytes or failure) of their choice, and evaluates the hash functions at Q points, in any order and depending on all answers so far. They win if they end with a signature that verify or hash_verify accepts for some mode, context and message, unless this very signature was handed out for the same mode (pure or the same pre-hash function), context and message. Then they win with probability at most that of C68 (SHAKE) or C69 (SHA2) for Q+q+1 evaluations, plus N^2/2^257 where N bounds the number of hash evaluations in the whole game. So with a PK.seed that does not begin with one of the bytes 0, 0x36, 0x5c, up to 2^63 signatures, and 2^t evaluations (t between 22 and 8n, q 2^22 <= 2^t, Q+q+1 < 2^t), for every parameter set the probability is at most 2^(t+5-8n) + 2^(2t+3-256). No call in the game panics.", "quantifier": "all 12 parameter sets, all adaptive users of the API, all q, Q, contexts, modes, hedging, generator failures, messages up to any length L that the domain of the functions contains, builds; probability over all functions and seeds", "why_tests_cant": "It is about all strategies of a user of the API. A context that is not part of what is signed, a missing domain separation byte or length byte, a missing OID, a pre-hash cut short, or a malleable part of the signature make it false, while all signatures still verify.", "anchors": ["src/lib.rs", "src/slh.rs", "src/hashers.rs", "src/helpers.rs", "src/traits.rs"]}
{"id": "C71", "title": "Forging with the public API against generated keys when the hash functions are random functions", "statement": "Take the hash functions that the crate uses to be random functions, and the three strings that try_keygen_with_rng draws from its random number generator to be random. Key generation succeeds. A user of the API who gets the public key and plays as in C70 (adaptive calls of try_sign_with_rng and try_hash_sign_with_rng with everything of their choice, and Q evaluations of the hash functions) wins with probability at most the bound of C70 for their parameter set, plus 3/256^n (SHA2) or, for SHAKE, the number of addresses that are used with a key (at most 2^86) divided by 2^256: no condition on PK.seed is left. So with up to 2^63 signatures and 2^t evaluations (t between 22 and 8n, q 2^22 <= 2^t, Q+q+1 < 2^t), for every parameter set the probability is at most 2^(t+5-8n) + 2^(2t+3-256) + 2^(-170).", "quantifier": "all 12 parameter sets, all adaptive users of the API, all q, Q, contexts, modes, hedging, generator failures, messages up to any length L that the domain of the functions contains, builds; probability over all functions and all random bytes of key generation", "why_tests_cant": "It is about all strategies of a user of the API and all keys. Key generation that reuses one random string for two seeds, or a public key whose bytes are arranged so that message hashing collides with hashing inside the tree, would make it false, while all signatures still verify.", "anchors": ["src/lib.rs", "src/slh.rs", "src/hashers.rs", "src/helpers.rs", "src/types.rs"]}
{"id": "C72", "title": "The documentation examples and the benchmark program work for every parameter set", "statement": "The examples in the documentation of the crate (try_keygen, keygen_with_seeds, try_sign, try_hash_sign, the with_rng variants, verify, hash_verify, SerDes), run with any of the twelve parameter sets, any of the four pre-hash functions, any build and any random number generator, end without a panic: their assertion that the signature verifies with the decoded public key holds. They return an error only if the generator failed, and then one of the four messages of the crate. The example of get_public_key derives the generated public key. The benchmark program panics only if the generator fails, at an unwrap of its setup; otherwise its setup holds keys and a signature for each of the twelve parameter sets exactly once, its verification closures return true in every build, and its signing closures, however often Criterion runs them, return the one signature of the setup without using the generator; its key generation closures return in every round, with a key pair if the generator works.", "quantifier": "all parameter sets, pre-hash functions, hash functions, builds, random number generators and their states, numbers of rounds", "why_tests_cant": "The documentation tests run the examples with one parameter set and one generator that does not fail; the benchmark does not check what its closures return.", "anchors": ["src/traits.rs", "src/lib.rs", "benches/benchmark.rs", "README.md"]}
{"id": "C73", "title": "Forging when many keys are generated with the API", "statement": "Take the hash functions that the crate uses to be random functions. Let U keys be generated with try_keygen_with_rng, one after the other with one random number generator, for the same or for different parameter sets, from random strings. A user who gets all public keys, adaptively has q signatures made with keys of their choice (try_sign_with_rng and try_hash_sign_with_rng, with everything of their choice as in C70), gets as many of the private keys as they like, at any time, and evaluates the hash functions Q times, makes verify or hash_verify accept, for a key that they did not get, a signature that was not handed out for this key, mode, context and message, with probability at most the sum over the keys of the bound of C71 for Q + (q+U) 2^22 evaluations. In bits, if all keys have seeds of at least n bytes, q <= 2^63, and Q + (q+U) 2^22 + q + 1 < 2^t with t <= 8n: at most U (2^(t+5-8n) + 2^(2t+3-256) + 2^(-170)). In particular signatures made with one key pass with no other key, also not with one for another parameter set that shares the hash function.", "quantifier": "all U, all choices of parameter sets, all adaptive users of the API, all q, Q, contexts, modes, hedging, generator failures, messages up to any length L that the domain of the functions contains, builds; probability over all functions and all random bytes", "why_tests_cant": "It is about all strategies of a user of the API against any number of keys. Keys that share something they should not, or a hash that ignores the key, would make it false, while all signatures still verify.", "anchors": ["src/lib.rs", "src/slh.rs", "src/hashers.rs", "src/helpers.rs", "src/types.rs"]}
{"id": "C74", "title": "Calls made at the same time do not disturb each other", "statement": "Let any number of threads call the API at the same time: generate keys, decode, encode and clone them, sign with keys that all threads share, with one random number generator that all calls share (such as the OsRng of try_keygen, try_sign and try_hash_sign), while a scheduler decides in any way whose draw is served next. Then every call that has ended returned exactly what it returns when it is made alone with a generator that gives the same bytes, and every answer of the generator went to exactly one call. A call ends, without a panic, as soon as its own draws have been served (at most three for key generation, one for a hedged signature, none otherwise), whatever other calls do. At all times every private key signs verifiably for the public key it reports, generated pairs belong together, every signature made is accepted by the public key of its signer, and no key or signature is ever changed by another call.", "quantifier": "all parameter sets, all numbers of calls, all interleavings of their draws, all generators (also ones that fail), all arguments, all builds", "why_tests_cant": "Tests exercise few interleavings; a failure that needs two key generations to alternate their draws in a certain way shows only under that schedule.", "anchors": ["src/traits.rs", "src/lib.rs", "src/slh.rs"]}
{"id": "C75", "title": "Forging with the entry points for C", "statement": "Take the hash function that the C library uses (SHA-256) to be a random function, and what the operating system provides to slh_dsa_sha2_128f_keygen to be random. A C program that gets the public key buffer, adaptively lets slh_dsa_sha2_128f_sign sign q messages of its choice (readable buffers with any length, any previous contents of the output buffer, any behaviour of the operating system's generator, failures included), and evaluates the hash function Q times, makes slh_dsa_sha2_128f_verify return SLH_DSA_OK for a message and a signature that were not handed out together with probability at most the bound of C71 for SLH-DSA-SHA2-128f; in bits, with q <= 2^63, q 2^22 <= 2^t and Q + q + 1 < 2^t: at most 2^(t+5-128) + 2^(2t+3-256) + 2^(-170). The game itself always runs to its end: nothing aborts and no behaviour is undefined.", "quantifier": "all adaptive C programs, all q, Q, message buffers and lengths, contents of the output buffers, generator failures, builds with a usize of at least 31 bits; probability over all functions and all random bytes", "why_tests_cant": "It is about all strategies of a C program. An entry point that signs the wrong part of the buffer, returns a success code without a check, or loses the key between the calls would make it false for inputs that no test contains.", "anchors": ["ffi/src/lib.rs", "src/lib.rs", "src/slh.rs", "src/hashers.rs"]}
{"id": "C76", "title": "One signature for two messages", "statement": "A signer who makes key and signature as they like cannot have one signature accepted for two messages. For all hash functions and all public keys, however made: if a signature is accepted (verify or hash_verify, any contexts) for two formatted messages, then the two verifications hash two different things with the same result, or a WOTS+ chain comes back to a value it had before, or the two digests select the same leaf and begin with the same n bytes. Take the hash functions to be random functions: a player who evaluates them Q times and then presents public key bytes, a signature and two different requests (pure or pre-hash, context, message) has it accepted for both with probability at most N(2N+1)/(2 256^n), with N = Q + 2(verifyWork+1) evaluations in total; with Q < 2^t, t >= 16: at most 2^(2t+3-8n). Decoding the key and both verifications never panic.", "quantifier": "all adaptive players, all Q, public key bytes, signatures, contexts, messages, modes, builds, all 12 parameter sets; probability over all functions", "why_tests_cant": "It is about all keys, also those that no key generation would make. A verifier that ignores part of the message, of the context or of the digest accepts signatures for several messages, and tests with honest signatures do not see it.", "anchors": ["src/lib.rs", "src/slh.rs", "src/fors.rs", "src/xmss.rs", "src/wots.rs", "src/hashers.rs"]}
{"id": "C77", "title": "The machine arithmetic the other properties rest on is that of Rust", "statement": "The operations in which all code of the crate is expressed behave as the Rust reference says. Addition, subtraction and multiplication of u32, u64 and usize give the exact result if it fits; otherwise they panic in builds with overflow checks and wrap around in others. Shifts lose the bits shifted out and treat too large amounts alike. Division panics exactly for a zero divisor. `as` truncates, try_from gives the same number or fails, to_be_bytes and from_be_bytes are big-endian. Indexing and slicing give the named part and panic exactly if it does not exist; copy_from_slice replaces exactly the named part and panics if the lengths differ. Loops run their body for each number of the range in order, those with `?` or return end at the first error, while loops run as long as the condition holds; debug_assert is not evaluated in release builds. An observer sees exactly indices, bounds, trip counts and loop conditions.", "quantifier": "all operands, lists, positions, loop bodies and builds (any width of usize from 16 bits)", "why_tests_cant": "Overflow and wrap-around happen at values that no test reaches, and differ between builds.", "anchors": ["src/helpers.rs", "src/hashers.rs", "src/wots.rs", "src/xmss.rs", "src/fors.rs", "src/hypertree.rs", "src/slh.rs"]}
{"id": "C78", "title": "One signature, one key and one message", "statement": "A signature made with fresh random bytes is accepted for the signer's own public key and request and for nothing else, even if the private key was chosen by the person who wants it accepted elsewhere. Take the hash functions to be random functions. A player evaluates them, adaptively, Q times in all. At some point they present private key bytes and a request (pure or pre-hash, context, message). If try_from_bytes accepts the key, the request is signed hedged with n uniformly random bytes, and the player sees the signature. At the end they present public key bytes and a request. The chance that this public key differs from get_public_key of the signer, or the request from the one signed, and that verification accepts the signature, is at most (len+k+6) N(N+2)/(2 256^n), with N = Q + treeWork + signMost + verifyWork + 3; with Q < 2^t, t >= 23: at most 2^(2t+9-8n). Decoding, signing and verification never panic.", "quantifier": "all adaptive players, all Q, private key bytes, public key bytes, contexts, messages, modes, builds, all 12 parameter sets; probability over the random bytes and all functions", "why_tests_cant": "It is about keys made to fit a given signature. A verifier that leaves PK.seed, PK.root or part of the message out of the digest, or a signer that ignores its random bytes, passes all tests with honest keys.", "anchors": ["src/lib.rs", "src/slh.rs", "src/fors.rs", "src/xmss.rs", "src/wots.rs", "src/hashers.rs"]}
{"id": "C79", "title": "A message that is not known cannot be signed again", "statement": "Who sees the signature of a message, but not the message, cannot produce a signature of it for another public key, context or mode, even if they chose the first private key. Take the hash functions to be random functions. A player evaluates them, adaptively, Q times, then presents private key bytes, a context, a mode (pure or a pre-hash function) and W different messages of at most L bytes. If try_from_bytes accepts the key, one of the messages, drawn at random and not told to the player, is signed hedged with n random bytes. The player sees the signature, evaluates the functions Q' times and presents public key bytes, a context, a mode and a signature. The chance that the public key differs from get_public_key of the signer, or context or mode from those of the signer, and that verification accepts the new signature for the message that was drawn, is at most 2N/W + (len+k+6) N(N+2)/(2 256^n), with N = Q + Q' + signMost + verifyWork + 8; with Q + Q' < 2^t, t >= 23: at most 2^(t+2)/W + 2^(2t+9-8n). Decoding, signing and verification never panic.", "quantifier": "all adaptive players, all Q, Q', W, L, private and public key bytes, contexts, modes, sets of messages, builds, all 12 parameter sets; probability over the message, the random bytes and all functions", "why_tests_cant": "It is about players who know a digest but not the message. A digest that hashes the message apart from the key, so that one can go on from a hash of the message, or that leaves out PK.root or the context, passes all tests with honest keys.", "anchors": ["src/lib.rs", "src/slh.rs", "src/fors.rs", "src/xmss.rs", "src/wots.rs", "src/hashers.rs"]}
{"id": "C80", "title": "What a passing NIST vector suite means", "statement": "Each of the three test suites over the NIST files (key generation, signing, verification), run on any file of vectors, passes if and only if the file has the right algorithm, mode and revision, and every test in every group that is named after one of the 12 parameter sets of FIPS 205 Table 2 is a vector of FIPS 205: all fields are hexadecimal (even length, either case); for key generation, the keys are those of Algorithm 18 for the seeds; for signing, the private key has the root of its seeds and the signature is that of Algorithm 19 with the additional randomness, or with PK.seed in deterministic groups; for verification, testPassed says whether the key has the right length and Algorithm 20 accepts, and a panic counts as not accepted. In builds without overflow checks this is for files of fewer than 2^31 tests, since the counter of failures may come back to 0. Groups with any other name are skipped: a file with only such groups passes, whatever it contains.", "quantifier": "all files of vectors (any groups, tests, strings), all hash functions, all builds", "why_tests_cant": "It is about the tests: a suite that skips a parameter set, compares nothing, or counts failures in a way that hides one passes with the shipped files.", "anchors": ["tests/nist_acvp_vectors/mod.rs"]}
{"id": "C81", "title": "The programs that print keys", "statement": "Running ffi/fips205.py as a program either raises an exception, and then the operating system's random number generator failed, or prints True followed by all bytes of a generated public key and of its private key in hexadecimal (the private key is shown in full by repr). No behaviour is undefined and the printed result is never False. The function sign of the wasm example, with its calls adapted to the present version of the crate, returns for every message a text with the message, a generated key pair and a signature that this key made for the UTF-8 bytes of the message, all in full in hexadecimal; it does not panic if the generator works.", "quantifier": "all generators and generator states, all hash functions, all messages (wasm), all builds with a usize of at least 32 bits (Python)", "why_tests_cant": "Neither program is part of the test suites, and a run shows one key only.", "anchors": ["ffi/fips205.py", "wasm/src/lib.rs"]}
{"id": "C82", "title": "No two private keys with one root", "statement": "Take the hash functions to be random functions. A player evaluates them Q times, adaptively, and presents the bytes of two private keys, chosen as they like. The chance that try_from_bytes accepts both, that PK.root (the last n bytes) is the same, and that the bytes differ outside SK.prf (that is, in SK.seed or PK.seed), is at most N^2 / (2 * 256^n), where N is Q plus the hashes of the two decodings. In bits: with less than 2^t evaluations, t >= 20, at most 2^(2t+1-8n). In particular a stored private key in which SK.seed or PK.seed was exchanged or corrupted is not accepted with its old root, unless a collision of the hash functions was found; and nobody can hold two seeds for one public key.", "quantifier": "all adaptive players, all numbers of evaluations, all parameter sets, all builds", "why_tests_cant": "It bounds what an adversary can find who chooses all bytes; a test can only show that some changed keys are refused.", "anchors": ["src/lib.rs:369-383", "src/slh.rs:30-81", "src/xmss.rs", "src/wots.rs"]}
{"id": "C83", "title": "Finding a private key", "statement": "Take the hash functions to be random functions. U keys are generated with try_keygen_with_rng from uniform random bytes. A player gets the U public keys, q signatures for requests of their choice (pure or pre-hash, hedged or deterministic, with random bytes of their choice), as many of the private keys as they ask for, and Q evaluations of the functions, all adaptively, and then presents a number u and the bytes of a private key. The chance that try_from_bytes accepts these bytes, that get_public_key of the result is the public key with number u, and that the private key with number u was not handed out, is at most the sum over the keys of the forging bound of C71 with Q + (q + U + 1) 2^22 evaluations. In bits, with less than 2^t evaluations in all, seeds of n bytes, t <= 8n and q <= 2^63: at most U (2^(t+5-8n) + 2^(2t+3-256) + 2^(-170)). So signatures and public keys do not give away SK.seed, whatever SK.prf is put beside it.", "quantifier": "all adaptive players, all numbers of keys, signatures and evaluations within the bound, all mixtures of parameter sets, all builds", "why_tests_cant": "It bounds what an adversary can compute from everything the API gives out; a test can only show that one particular attack fails.", "anchors": ["src/lib.rs:186-203", "src/lib.rs:212-289", "src/lib.rs:369-383", "src/slh.rs"]}
{"id": "C84", "title": "Every selection of features is complete", "statement": "A user of the crate selects any of the 13 features (the twelve parameter sets and default-rng). Whatever they select: (a) every function, type, method and constant that is compiled names only such as are compiled too, directly and through any number of steps, so no selection fails to build because of a name that is left out, and a parameter set has the same complete code in every selection; (b) the modules of exactly the selected parameter sets are there, with all their functions, and the functions that use the generator of the operating system (try_keygen, try_sign, try_hash_sign) exactly with default-rng; (c) a parameter set uses the hash functions of its own family; (d) no code is dead, which the crate forbids, exactly if at least one parameter set is selected.", "quantifier": "all 8192 selections of features, all items of the source, all chains of uses", "why_tests_cant": "Tests are built with the default features, or a few selections; there are 8192 of them.", "anchors": ["Cargo.toml:31-47", "src/lib.rs:448-1026", "src/hashers.rs:18-26", "src/hashers.rs:98-99", "src/hashers.rs:204-210", "src/helpers.rs:229-267", "src/traits.rs:6-7", "src/traits.rs:56-59"]}
{"id": "C85", "title": "What a weak random number generator costs", "statement": "The bounds on forging (C70, C71, C73) and on finding a private key (C83) take the strings that key generation draws to be uniform. Let them come from a generator with any distribution instead, correlated between keys or not, that does not depend on the hash functions (which are random functions). If no draw is more than c times as likely as in the uniform case, every bound grows by the factor c at most: a generator that loses k bits of min-entropy costs at most k bits of security. If the distribution has statistical distance d from the uniform one, every bound grows by d at most. With keygen_with_seeds only SK.seed and SK.prf have to be unpredictable; PK.seed may be known before (if it does not begin with 0, 0x36 or 0x5c).", "quantifier": "all distributions of the generator, all c and d, all adaptive users of the API, all q, Q, all 12 parameter sets and mixtures of them, builds; chance over all functions and the draws", "why_tests_cant": "A property of distributions: no run shows that a generator is biased, or what the bias costs.", "anchors": ["src/lib.rs:186-216", "src/slh.rs:14-88", "src/traits.rs:147-162"]}
{"id": "C86", "title": "Generated keys differ", "statement": "Let U keys be generated with try_keygen_with_rng, one after the other with one generator, for the same or for different parameter sets with seeds of at least n bytes. Whatever the hash functions are: all generations succeed, and if the strings drawn are uniform, the chance that two of the keys have the same serialised public key, or the same serialised private key, or the same SK.seed, SK.prf or PK.seed, is at most 3 U (U-1) / (2 256^n); with U <= 2^t at most 2^(2t+1-8n). With a generator that makes no draw more than c times as likely as a uniform one it is at most c times this.", "quantifier": "all U, all choices of parameter sets, all hash behaviours, all distributions of the generator, builds", "why_tests_cant": "Collisions of keys are never seen in tests, also not if there are too many of them by orders of magnitude.", "anchors": ["src/lib.rs:186-203", "src/slh.rs:14-88"]}
{"id": "C87", "title": "Hash computations that go wrong", "statement": "Let the calls of the hash functions be answered by a unit with a state that may give any answer of the right length to any call: a defective processor or accelerator, or an attacker who disturbs it. Still no function of the API panics, in any build. try_keygen_with_rng keeps the strings it drew and returns keys with one common root; only the root depends on the unit. try_sign_with_rng and try_hash_sign_with_rng return Err exactly in the documented cases (context over 255 bytes, RNG failed) and otherwise Ok: no error of the unit is ever noticed or reported. verify and hash_verify return a Boolean, false for contexts over 255 bytes; their verdict is worth nothing then: a unit that always answers PK.root makes them accept everything. PrivateKey::try_from_bytes returns the key the bytes encode or 'Corrupted key', never another key. A key generated with errors, written with into_bytes and read again with hash functions that work, is accepted exactly if its root is the right one, and then all its signatures verify. With a unit that makes no error all functions return what the other properties say.", "quantifier": "all units (state spaces, states, answers), all RNGs, keys, messages, contexts, signatures, 12 parameter sets, builds", "why_tests_cant": "Faults depend on the hardware and on the attacker; injecting one fault at one call of some parameter set says nothing about the others.", "anchors": ["src/lib.rs:186-383", "src/slh.rs:12-350", "src/hashers.rs:26-360", "src/hypertree.rs:14-170", "src/fors.rs:14-260"]}
{"id": "C88", "title": "Errors in signing that verification does not notice", "statement": "Let a private key be read from bytes with hash functions that work, and let try_sign_with_rng or try_hash_sign_with_rng then run with a unit that answers some calls of the hash functions wrongly. If none of the wrong answers was given to a call that verification of the resulting signature makes, and none to a call that reading the key makes, the signature is accepted by verify (hash_verify), whatever the errors were. In terms of places: wrong answers for nodes below the tree at the top that do not lie between the signature and the public key, in particular for any secret value there, go unnoticed; so do wrong answers in deriving the randomizer. Checking a signature after signing therefore does not protect from faults: the signer signs with a one-time key whatever root the faulty tree below has. Recording the wrong answers does not change the run.", "quantifier": "all units, keys, RNGs, messages, contexts, pre-hash functions, hedged or not, 12 parameter sets, builds", "why_tests_cant": "The number of places where a fault can occur is astronomical, and a faulty signature that is accepted looks to a test like a correct one.", "anchors": ["src/slh.rs:90-236", "src/hypertree.rs:13-96", "src/xmss.rs:13-190", "src/fors.rs:102-260", "src/lib.rs:186-383"]}
{"id": "C89", "title": "A one-time key used twice is all a forger needs", "statement": "Let a public key, whoever made it, accept two signatures that use a one-time key of layer j for two values (the exception of C60). Let a forger choose a secret seed, a randomizer and a message that select this one-time key, such that each digit of the value at layer j of the forger's own trees is at least as large as the digit of one of the two values. Then the string made of the forger's own signature up to layer j, of the one-time signature got by hashing on from the two known ones, and of the rest of the first known signature is a signature that every call of verify and hash_verify for this message accepts. It is computed without the private key. Two accepted signatures with different values at the same leaf of the same tree always meet in a collision or are such a pair; so one faulty signature of the kind of C88 beside a correct one breaks the key.", "quantifier": "all hash functions, public keys, accepted signatures, layers, forger's seeds, randomizers, messages, contexts, pre-hash functions, 12 parameter sets, builds", "why_tests_cant": "The signatures concerned are those a correct signer never makes; that a forged one is accepted concerns all messages and all pairs of signatures.", "anchors": ["src/slh.rs:241-355", "src/hypertree.rs:100-161", "src/xmss.rs:132-203", "src/wots.rs:16-50", "src/wots.rs:183-251", "src/lib.rs:281-316"]}
{"id": "C90", "title": "One set of seeds for two parameter sets", "statement": "Every parameter set has a partner with the same hash functions and the same n, which differs only in the shape of the trees (s and f). Let keygen_with_seeds make a key for each of the two from the same SK.seed and PK.seed, and let each sign through the API. Wherever the two signatures use the same leaf of the same tree in the same layer, their one-time signatures contain values of the same chains, which begin with the same secret values; wherever they publish the FORS secret with the same number at the same leaf, they publish the same value. So a forger who has such a pair of signatures can forge for either set: for every message whose digest selects this leaf, and every secret seed of the forger's own for which each digit of the value to be signed is at least as large as that of one of the two values, the string put together as in C89 is accepted by every call of verify and hash_verify. Seeds must not be used for two parameter sets.", "quantifier": "all hash functions, seeds, signing calls with either key, layers, forger's seeds, randomizers, messages, contexts, pre-hash functions, 12 parameter sets and their partners, builds", "why_tests_cant": "Signatures of two sets that meet at a leaf are too rare to be found by testing; the claim concerns all of them, and all forged messages.", "anchors": ["src/traits.rs:147-165", "src/slh.rs:14-88", "src/slh.rs:139-240", "src/wots.rs:16-182", "src/fors.rs:12-36", "src/xmss.rs:78-130", "src/hashers.rs:15-318", "src/slh.rs:241-355"]}
{"id": "C91", "title": "Different keys share no hash inputs", "statement": "Record every call of SHA-256, SHA-512, SHAKE128 and SHAKE256 with its input. In every run of key generation, seeded key generation, decoding of a private key, pure, pre-hash and raw signing, and pure, pre-hash and raw verification (of any bytes, accepted or not), every input, apart from the pre-hash and the inputs of PRF_msg, contains the PK.seed of the key: at its beginning and followed by three bytes zero, or directly after the n bytes of the randomizer. So two runs for keys with different PK.seed, of parameter sets with the same n, have no input in common, provided that neither PK.seed begins with three bytes zero: a hash that an attacker computes serves against one key only. Without this condition it is false for SHAKE with n = 16: there is a public key, whose bytes are an address, for which raw verification of some bytes makes a call that generating any given key makes.", "quantifier": "all runs of the API, keys, seeds, messages, contexts, pre-hash functions, signature bytes, RNGs that do not use the hash functions, pairs of parameter sets with the same n, hash behaviours, builds", "why_tests_cant": "The claim compares the inputs of all pairs of runs; a test sees results, not inputs, and a missing seed in one of the calls leaves all round trips intact.", "anchors": ["src/hashers.rs:15-318", "src/slh.rs:14-88", "src/slh.rs:139-240", "src/slh.rs:241-355", "src/lib.rs:193-390"]}
{"id": "C92", "title": "Strings made up blindly", "statement": "Take the hash functions to be random functions. (1) Any string of the length of a signature, made up without looking at the hash functions, is accepted by verify for a given public key, message and context of at most 255 bytes with probability exactly 256^-n, whatever the string is; the same for hash_verify if the message does not begin with PK.seed and three bytes zero; provided that PK.seed does not begin with three bytes zero. This holds too if public key, message, context and signature are drawn by any rule that does not look at the functions, and T such strings are accepted with probability at most T * 256^-n. (2) Any string of the length of a private key is accepted by try_from_bytes with probability exactly 256^-n (for a key that was generated and then damaged see C100). (3) With given seeds, keygen_with_seeds returns every PK.root with probability exactly 256^-n; a public key generated from uniform random bytes is a uniform string of 2n bytes, every string having probability 256^-2n.", "quantifier": "all signature strings, public keys with the condition, messages, contexts, pre-hash functions, private key strings, seeds, distributions of the choices, 12 parameter sets, builds; probability over all functions (and the seeds)", "why_tests_cant": "The probability is 2^-128 or less, so no test ever meets an accepted string; a verifier that compares fewer bytes of the root, or has strings it always accepts, passes all tests.", "anchors": ["src/slh.rs:14-78", "src/slh.rs:241-355", "src/lib.rs:193-390", "src/hypertree.rs:100-161", "src/xmss.rs:132-203"]}
{"id": "C93", "title": "Signatures are spread evenly over the few-time keys", "statement": "Take the hash functions to be random functions with outputs of at least 64 bytes. Let a key pair be made by keygen_with_seeds from any seeds, PK.seed not beginning with three bytes zero, and let try_sign_with_rng sign any request (message, context of at most 255 bytes, deterministic or hedged with any random bytes), chosen without looking at the hash functions. (1) For the returned signature every m-byte digest is equally likely (256^-m each); the same for try_hash_sign_with_rng. (2) Each of the 2^h FORS keys, given by tree and leaf, signs the request (the verifier selects it and the signature contains a secret of each of its trees) with probability exactly 2^-h; of any q requests q / 2^h are signed by a given FORS key on average. (3) Two requests for different messages or contexts are signed by the same FORS key with probability exactly 2^-h for the SHAKE parameter sets and at most 2^-h + 2^-256 for all; with q different requests, any two share a FORS key with probability at most q(q-1)/2 times that. Left out are, for the SHA2 sets, formatted messages of the one length hLen + 4 - n, for pre-hash signing messages as long as the input of the last hash, and for (3) with SHA2 two values of PK.seed.", "quantifier": "all seeds and requests with the conditions, lists of requests, pre-hash functions, builds, 12 parameter sets; probability over all functions", "why_tests_cant": "A bias in the choice of the FORS key (bits dropped from the tree or leaf index, digest bytes used twice, an index that depends on the message length) leaves every signature valid and shows only in the distribution over 2^63 or more keys; it would make FORS keys be reused far sooner than the security level allows.", "anchors": ["src/slh.rs:139-230", "src/slh.rs:90-128", "src/hashers.rs:40-68", "src/hashers.rs:113-168", "src/hashers.rs:232-287", "src/lib.rs:212-275"]}
{"id": "C94", "title": "What signing and verification cost on average", "statement": "Take the hash functions to be random functions with outputs of at least n bytes. Let a key pair be made by keygen_with_seeds from any seeds, PK.seed not beginning with three bytes zero and, for the SHAKE sets, SK.prf different from PK.seed, and let try_sign_with_rng sign any request (message, context of at most 255 bytes, deterministic or hedged with any random bytes), chosen without looking at the hash functions. Let E be the average over all n-byte strings of the steps that a WOTS+ signature of the string leaves to the verifier. (1) 15/2 len1 <= E <= 15/2 len1 + 45, where len1 = 2n. (2) Signing computes on average exactly the hashes of PRF_msg and H_msg, of the k FORS trees and the FORS key and of d full XMSS trees, minus E + 1 + h'. (3) Verifying that signature computes on average exactly the hashes of H_msg plus k(1+a) + 1 plus d(E + 1 + h').", "quantifier": "all seeds and requests with the conditions, builds, 12 parameter sets; average over all functions", "why_tests_cant": "The average is over all hash functions; a test sees a few runs, whose counts differ by up to 15 len for each layer, so that a bias in the signed digits or a small extra cost in some layer is lost in the noise. Only for the whole distribution does the average show that the values signed in every layer are evenly distributed.", "anchors": ["src/slh.rs:139-230", "src/slh.rs:276-355", "src/wots.rs:112-251", "src/xmss.rs:78-203", "src/hypertree.rs:13-161", "src/fors.rs:102-263"]}
{"id": "C95", "title": "What arrives damaged or mixed up is refused", "statement": "A key is generated with try_keygen_with_rng, any list of calls of try_sign_with_rng and try_hash_sign_with_rng is made (any messages, contexts, modes, hedged or not, any behaviour of the generator), and T parcels, each with mode, context, message and signature, are delivered by a channel and checked with verify or hash_verify. The channel may damage, mix up, drop, repeat or replace what was sent, depending in any way on the public key and on all signatures, and on noise, but not on the hash functions. Nothing panics. A parcel that is one of those sent is always accepted. If the hash functions are random functions and the strings drawn by key generation are random, all T verdicts are right (a parcel is accepted exactly if mode, context, message and signature are together one of those sent), except with a chance of at most T (2^(t+5-8n) + 2^(2t+3-256) + 2^-170), where fewer than 2^(t-22) signatures are made, at most 2^63. So a thousand signatures that are all damaged, or whose messages are exchanged, are all refused but for a chance of 2^-80.", "quantifier": "all lists of calls, all channels, all T, t with the conditions, all 12 parameter sets, builds; probability over all functions, the random bytes of key generation and the noise", "why_tests_cant": "Tests flip a few bits of a few signatures and see that they are refused. That every change is noticed, in whatever byte and whatever combination, exchange of parts between valid signatures included, is a statement about all of 2^62848 or more possible deliveries for each signature.", "anchors": ["src/lib.rs:186-316", "src/slh.rs:90-355"]}
{"id": "C96", "title": "Verification is as good as asking the signer", "statement": "U users generate keys with try_keygen_with_rng, for the same or different parameter sets. An environment (any program, adaptive) gets the public keys, has q signatures made with try_sign_with_rng and try_hash_sign_with_rng by any of the users (everything of its choice, the behaviour of the generator included), gets the private keys of users of its choice at times of its choice, has T signatures verified with verify and hash_verify for any of the users, and evaluates the hash functions Q times. Compare with an ideal world, where the verdict for (user, mode, context, message, signature) is true exactly if the user made this signature for this mode, context and message, as long as the private key of this user was not handed out; after that it is the verdict of the API. In both worlds nothing panics and key generation succeeds. If the hash functions are random functions and the strings drawn by key generation are random, what the environment sees is the same in both worlds, except with a chance of at most T U (2^(t+5-8n) + 2^(2t+3-256) + 2^-170), where Q + T 2^15 + (q+U) 2^22 + q + 1 < 2^t, t <= 8n, q <= 2^63 and all users have seeds of at least n bytes. So no test of what it sees has a chance that differs by more than this between the worlds. A program proved correct with an ideal signature register is correct with this crate.", "quantifier": "all environments, U, q, T, Q, parameter sets of the users, builds; probability over all functions and all random bytes of key generation", "why_tests_cant": "The environment stands for every program that uses the crate; it sees the verdicts and may use them for its next request. Only a proof for all adaptive environments allows to replace the signature scheme by a register in arguments about other programs.", "anchors": ["src/lib.rs:186-316", "src/slh.rs:14-355"]}
{"id": "C97", "title": "For C programs verification is as good as asking the signer", "statement": "A C program (any program, adaptive) calls slh_dsa_sha2_128f_keygen, gets the public key buffer, calls slh_dsa_sha2_128f_sign for q messages of its choice (readable buffers with any length, any contents of the output buffer, any behaviour of the operating system's generator, failures included), calls slh_dsa_sha2_128f_verify T times for messages and signatures of its choice, and evaluates the hash function Q times. It sees all return codes and output buffers. Compare with an ideal world, where the verification function returns SLH_DSA_OK exactly if an earlier call of the signing function returned SLH_DSA_OK for these message bytes with this signature in its buffer, and SLH_DSA_VERIFY_ERROR otherwise. In both worlds nothing aborts, no behaviour is undefined and key generation succeeds. If the hash function is a random function and what the operating system provides for key generation is random, the program sees the same in both worlds, except with a chance of at most T (2^(t+5-128) + 2^(2t+3-256) + 2^-170), where q 2^22 <= 2^t, Q + q + 1 < 2^t, 22 <= t <= 128 and q <= 2^63.", "quantifier": "all adaptive C programs, all q, T, Q, message buffers and lengths, contents of the output buffers, generator failures, builds with a usize of at least 31 bits; probability over all functions and all random bytes of key generation", "why_tests_cant": "The program stands for every C program that uses the library with readable buffers, and uses the return codes for its next calls; tests run a few fixed programs.", "anchors": ["ffi/src/lib.rs:39-108", "src/lib.rs:186-316"]}
{"id": "C98", "title": "Signatures do not repeat", "statement": "Let the hash functions be random functions. A signature returned by try_sign_with_rng or try_hash_sign_with_rng, by a key made with keygen_with_seeds from any seeds, hedged or not, begins with each n-byte randomizer R with probability exactly 1/256^n. Take any two such signatures and suppose that they differ in SK.prf, in the random bytes (PK.seed if signing is deterministic), in the message, in the context, or in the pre-hash function (or its absence). They begin with the same R with probability exactly 1/256^n for pure signing with the SHAKE parameter sets and at most 1/256^n + 2^-255 for all. Of q such signatures some two share R with probability at most q(q-1)/2 times that. If moreover the random number generator draws its bytes at random, then of q hedged signatures of any messages by any keys, all of the same message by the same key if one likes, some two begin with the same R, or are the same, with probability at most q(q-1)/2 (2/256^n + 2^-255). Messages that are pre-hashed must not begin with the secret SK.prf of the keys (for SHA2: with SK.prf padded and masked as a block of HMAC).", "quantifier": "all parameter sets, builds, seeds (also weak ones), messages, contexts, pre-hash functions, random bytes, q; probability over all functions in the place of the hash functions (and, for the last part, over all random bytes)", "why_tests_cant": "A test may see that two signatures differ; that no pair of requests is likely to share a randomizer (for instance as bytes are left out, as message and random bytes are run together, or as the random bytes are ignored for some parameter set) is about all pairs and a probability of 2^-128.", "anchors": ["src/lib.rs:212-223", "src/lib.rs:226-246", "src/slh.rs:145-161", "src/hashers.rs:59-65", "src/hashers.rs:163-168", "src/hashers.rs:282-287"]}
{"id": "C99", "title": "For Python programs verification is as good as asking the signer", "statement": "A Python program (any program, adaptive) calls keygen, gets the PublicKey object, calls sign of the PrivateKey for q messages of its choice of at most L < 2^31 bytes (with any behaviour of the operating system's generator, failures included), calls verify T times for such messages and signatures of its choice of any length, and evaluates the hash function Q times. It sees all results and exceptions. Compare with an ideal world, where verify returns True exactly if an earlier call of sign returned this signature for this message, False otherwise, and raises for signatures of another length than 17088 bytes. In both worlds nothing aborts, no behaviour is undefined and key generation succeeds. If the hash function is a random function and what the operating system provides for key generation is random, the program sees the same in both worlds, except with a chance of at most T (2^(t+5-128) + 2^(2t+3-256) + 2^-170), where q 2^22 <= 2^t, Q + q + 1 < 2^t, 22 <= t <= 128 and q <= 2^63. For longer messages this is false, whatever the hash function is: a program that has a message signed and the signature verified for the message with 2^32 j more bytes (j > 0) sees True, where the ideal world answers False.", "quantifier": "all adaptive Python programs, all q, T, Q, messages of less than 2^31 bytes (and, for the limit, all messages with 2^32 j bytes more), signatures of any length, generator failures, builds with a usize of at least 31 bits; probability over all functions and all random bytes of key generation", "why_tests_cant": "The program stands for every Python program that uses the wrapper, and uses results and exceptions for its next calls; tests run a few fixed programs.", "anchors": ["ffi/fips205.py:79-168", "ffi/src/lib.rs:39-108", "src/lib.rs:186-316"]}
{"id": "C100", "title": "Stored private keys that are damaged are refused", "statement": "Generate a key with keygen_with_seeds from any strings, store the bytes of into_bytes, let them be damaged, and read them with try_from_bytes. The damage is any function of the stored bytes: flipped bits, bytes lost, moved or mixed up, all depending on each other; only it does not look at the hash functions. (1) If SK.prf alone is changed, the key is accepted, always. (2) If PK.root is changed but SK.seed and PK.seed are not, it is refused, always. (3) If PK.seed is changed, whatever else is, it is accepted with probability exactly 256^-n over all functions in the place of the hash functions. (4) If SK.seed or PK.seed is changed, whatever else is (PK.root too), it is accepted with probability at most 2^40 / 2^(8n). (5) For every damage, also one that changes some keys and spares others, the chance that bytes outside SK.prf are changed and the key is accepted is at most 2^40 / 2^(8n).", "quantifier": "all parameter sets, builds, seeds, kinds of damage; (1), (2) all hash functions, (3)-(5) probability over all functions in their place", "why_tests_cant": "A test damages some bytes of some keys; that no combination of changes passes unnoticed, except in SK.prf, is about all keys and all kinds of damage, and a probability of at most 2^-88.", "anchors": ["src/lib.rs:355-385", "src/traits.rs:147-151", "src/slh.rs:14-78", "src/xmss.rs:13-66"]}
