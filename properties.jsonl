{"id": "C01", "title": "Index PIR returns the stored row", "statement": "For a shard built from a list of base64 elements, the row parsed from the server's response to a fresh query for index i is exactly the i-th element split into plaintext_bits-wide little-endian digits, whenever the accumulated LWE noise of every column lies in the half-open window (-D/2, D/2], D = 2^(32-plaintext_bits).", "quantifier": "all databases, sizes, seeds, PRG outputs, secrets, ternary errors and indices for which query generation succeeds", "why_tests_cant": "the test queries 10 indices of one random database; the claim is over every database, secret and error vector", "anchors": ["src/api.rs: Shard::from_base64_strings, QueryParams::generate_query, Shard::respond, parse_resp_as_row", "src/db/mod.rs: generate_params_rhs, mult_left, mult_right"]}
{"id": "C02", "title": "Exact decryption-error boundary", "statement": "A single coordinate decodes to the stored plaintext digit if and only if the noise (taken mod 2^32 as a signed number) is > -D/2 and <= D/2; one step outside on either side decodes to a neighbouring digit.", "quantifier": "all u32 noise values, all digits, all plaintext_bits in 1..=31", "why_tests_cant": "a boundary off by one is hit with negligible probability by random sampling", "anchors": ["src/api.rs: parse_resp_as_row", "src/utils.rs: lwe"]}
{"id": "C03", "title": "Worst-case parameter guarantee", "statement": "If m*(2^plaintext_bits - 1) < 2^(31-plaintext_bits) then index retrieval is correct for every random choice whatsoever (decryption errors impossible).", "quantifier": "all databases within the parameter bound and all ternary vectors", "why_tests_cant": "random tests cannot rule out a bad ternary vector", "anchors": ["src/api.rs", "src/utils.rs: random_ternary"]}
{"id": "C04", "title": "Keyword PIR returns the stored value", "statement": "For a KV shard successfully built from key/value pairs whose key hashes are pairwise distinct, the row parsed from the response to a fresh query for a stored key equals the stored value modulo 2^plaintext_bits, column by column, whenever the noise lies in the window of C02.", "quantifier": "all key/value sets, filter seeds, unused-slot randomness, PRG outputs, secrets, ternary errors (release builds: no filter slot shared by 64 or more keys)", "why_tests_cant": "tests cover 10 keys of one random database", "anchors": ["src/api.rs: KVShard, QueryParams<KVDatabase,FilterParams>", "src/db/kv.rs", "bff-modp/src/prelude/bfusep.rs"]}
{"id": "C05", "title": "Query parameters are single-use", "statement": "In any sequence of generate_query calls on one QueryParams object (index or keyword) at most one call yields a query, every call after the first returns the reuse error, and the `used` flag never goes back to false; the secret vectors are never modified.", "quantifier": "all call histories of any length, including failing and panicking first calls", "why_tests_cant": "the test makes two calls; the claim ranges over all histories", "anchors": ["src/api.rs: generate_query, QueryParams.used", "src/errors.rs: ErrorQueryParamsReused"]}
{"id": "C06", "title": "Outcome of a fresh index query", "statement": "generate_query on fresh parameters and an in-range index i yields a query exactly when mask[i] + D < 2^32 (D = 2^(32-plaintext_bits)); the query is then the mask with D added at i. Otherwise it returns ErrorOverflownAdd. Out-of-range indices panic. In all three cases the parameters are consumed. (The unconditional claim 'a fresh query always succeeds' is refuted, for every plaintext_bits.)", "quantifier": "all mask vectors and in-range indices", "why_tests_cant": "failure probability 2^-plaintext_bits per query; a 10-query test with 11 bits passes 99.5% of the time", "anchors": ["src/api.rs: QueryParams<IndexDatabase>::generate_query", "src/errors.rs: ErrorOverflownAdd"]}
{"id": "C07", "title": "Keyword query hides the key given a uniform mask", "statement": "For every key the map from mask vector to query vector is a bijection on u32 vectors of the matrix height, so if the mask is uniform the query distribution is independent of the key.", "quantifier": "all keys, filter parameters with in-range slots, all mask vectors", "why_tests_cant": "a distributional claim over 2^(32m) masks", "anchors": ["src/api.rs: QueryParams<KVDatabase>::generate_query"]}
{"id": "C08", "title": "Exact support of index queries", "statement": "The vectors that can be output as a query for index i, over all masks, are exactly the vectors of length m whose coordinate i is at least D. (Hence the claim that the support is independent of the index is refuted: for any i != j some query for i can never be a query for j, so a server seeing it can rule out j.)", "quantifier": "all indices and query vectors", "why_tests_cant": "observing one query never reveals the skew; it is a statement about the whole output set", "anchors": ["src/api.rs: QueryParams<IndexDatabase>::generate_query"]}
{"id": "C09", "title": "Reusing a mask reveals the query", "statement": "Two queries produced from the same mask (a clone or a reset `used` flag) differ exactly by D times the difference of the two selection vectors; for keyword queries likewise, so the server learns both selections.", "quantifier": "all masks and all pairs of indices/keys", "why_tests_cant": "relates two executions", "anchors": ["src/api.rs: QueryParams (Clone, pub used)", "benches/bench.rs: _qp.used = false"]}
{"id": "C10", "title": "Bit/byte codec round trip", "statement": "Bytes to little-endian bits and back is the identity on every byte string, and bits to bytes to bits is the identity up to zero padding to a whole byte. The byte position, which the code computes in f64, is exact for every string of at most 2^53 bits.", "quantifier": "all byte strings and bit strings of any length", "why_tests_cant": "unbounded input space", "anchors": ["src/utils.rs: format::bytes_to_bits_le, bits_to_bytes_le"]}
{"id": "C11", "title": "u32/bit codec", "statement": "For n <= 32 converting a u32 to n bits and back yields x mod 2^n; more than 32 bits is refused with an input-size error, and asking for more than 32 bits of a u32 panics.", "quantifier": "all u32 values, all lengths", "why_tests_cant": "2^32 x 33 cases and an unbounded error range", "anchors": ["src/utils.rs: u32_to_bits_le, bits_to_u32_le, u32_sized_bytes_from_vec"]}
{"id": "C12", "title": "Rows are base-2^b digits of the element", "statement": "Row construction splits an element into digits: digit i equals floor(N / 2^(i*b)) mod 2^b where N is the element read as a little-endian integer; every digit is < 2^b.", "quantifier": "all byte strings, 1 <= b <= 32, all element sizes the string is long enough for", "why_tests_cant": "all lengths and alignments of chunk versus byte boundaries", "anchors": ["src/db/index.rs: construct_row", "src/db/kv.rs: construct_row"]}
{"id": "C13", "title": "Element round trip when b does not divide elem_size", "statement": "Encoding an element of elem_size bits as a row and decoding it as bytes returns the original bytes when plaintext_bits does not divide elem_size.", "quantifier": "all elements, elem_size, plaintext_bits with b not dividing elem_size", "why_tests_cant": "all alignments", "anchors": ["src/utils.rs: bytes_from_u32_slice", "src/db/index.rs: construct_row"]}
{"id": "C14", "title": "Element decoding when plaintext_bits divides elem_size", "statement": "When plaintext_bits divides elem_size the last digit of the row is dropped: decoding returns exactly the first elem_size - plaintext_bits bits of the element; the element survives iff plaintext_bits < 8 and its top plaintext_bits bits are zero. (Hence the round-trip claim for every parameter choice is refuted, e.g. elem_size 256 with 8-bit plaintexts returns 31 bytes.)", "quantifier": "all elements and parameters", "why_tests_cant": "the tests only use parameters with a non-zero remainder", "anchors": ["src/utils.rs: bytes_from_u32_slice (remainder)"]}
{"id": "C15", "title": "Base64 round trip and accepted strings", "statement": "Decoding the base64 encoding of any byte string returns it, and the encoding is injective with length 4*ceil(n/3). The decoder accepts exactly the strings that are the encoding of some byte string with some (possibly none) of its trailing '=' omitted, and then returns that byte string; every other string is an error, never a panic.", "quantifier": "all byte strings and all character strings", "why_tests_cant": "unbounded input space", "anchors": ["src/utils.rs: base64_from_u32_slice", "src/db/index.rs: construct_row (base64::decode)"]}
{"id": "C16", "title": "Row iterator lists the stored elements in order", "statement": "into_row_iter on an index shard yields exactly the m base64 strings the shard was built from, in order (plaintext_bits not dividing elem_size).", "quantifier": "all element lists and sizes", "why_tests_cant": "unbounded databases", "anchors": ["src/api.rs: Shard::into_row_iter", "src/db/index.rs: get_db_entry"]}
{"id": "C17", "title": "Element length handling at construction", "statement": "Row construction panics exactly when the element has fewer than (row_width-1)*plaintext_bits bits, returns an error on malformed base64, and ignores bits past row_width*plaintext_bits.", "quantifier": "all elements and parameters", "why_tests_cant": "all lengths; panics are not exercised by tests", "anchors": ["src/db/index.rs: construct_row", "src/db/kv.rs: construct_row"]}
{"id": "C18", "title": "Row width", "statement": "The row width is the least w with w*plaintext_bits >= elem_size; plaintext_bits = 0 panics.", "quantifier": "all elem_size, plaintext_bits", "why_tests_cant": "unbounded integers", "anchors": ["src/db/index.rs: get_row_width", "src/db/kv.rs: get_row_width"]}
{"id": "C19", "title": "Scaling constants", "statement": "For 1 <= b <= 31 the scaling factor times 2^b is 2^32 and the rounding floor is half the factor; b = 0 gives factor 0 (every parse panics); 32 <= b < 2^32 panics; and a larger b is silently reduced modulo 2^32 first.", "quantifier": "all plaintext_bits", "why_tests_cant": "includes the out-of-range values tests never use", "anchors": ["src/utils.rs: lwe"]}
{"id": "C20", "title": "Server response is the matrix-vector product", "statement": "respond returns Ok exactly when the query length equals the matrix height, with one u32 per row-width column, each the inner product mod 2^32 of the query with that column; any other length panics (no Err).", "quantifier": "all databases and queries", "why_tests_cant": "all lengths and contents", "anchors": ["src/api.rs: Shard::respond, KVShard::respond", "src/utils.rs: vec_mult_u32_u32"]}
{"id": "C21", "title": "Server response is linear", "statement": "The response to q1+q2 deserialises to the sum (coordinatewise mod 2^32) of what the responses to q1 and q2 deserialise to, for queries of the right length; and the response to a query that is c at i and 0 elsewhere deserialises to c times row i of the digit matrix.", "quantifier": "all query pairs, all request histories", "why_tests_cant": "relates several executions", "anchors": ["src/api.rs: respond"]}
{"id": "C22", "title": "Response serialisation round trip", "statement": "Deserialising a serialised response returns it, for any number of columns; every strict prefix is refused.", "quantifier": "all responses and truncation points", "why_tests_cant": "unbounded lengths", "anchors": ["src/api.rs: respond (bincode), Response"]}
{"id": "C23", "title": "Matrix transposition", "statement": "Transposing a non-empty rectangular matrix with at least one column twice is the identity and exchanges coordinates; switch_fmt twice restores the database; an empty matrix panics; column extraction equals the transposed row.", "quantifier": "all matrices", "why_tests_cant": "unbounded sizes", "anchors": ["src/utils.rs: swap_matrix_fmt, get_matrix_second_at", "src/db: switch_fmt"]}
{"id": "C24", "title": "Server and client derive the same public matrix", "statement": "The client matrix expanded from the published seed equals the matrix used by the server to build the public right-hand side, for every seed and PRG, and the right-hand side is its product with the database.", "quantifier": "all seeds, dimensions, databases", "why_tests_cant": "unbounded dimensions", "anchors": ["src/db/mod.rs: CommonParams::from, generate_params_rhs", "src/utils.rs: generate_lwe_matrix_from_seed"]}
{"id": "C25", "title": "Parameter dimension checks", "statement": "Building query parameters fails with an input-size error exactly when the secret length disagrees with the common or public matrix dimension, and otherwise yields vectors of height m and of row width.", "quantifier": "all parameter pairs, including mismatched shards", "why_tests_cant": "all mismatches", "anchors": ["src/db/mod.rs: mult_left, mult_right", "src/api.rs: QueryParams::new"]}
{"id": "C26", "title": "Ternary sampler range and consumption", "statement": "Every sampled error/secret coordinate is 0, 1 or 2^32-1, and a sample consumes exactly the random words up to the first one not exceeding the rejection bound.", "quantifier": "all random tapes", "why_tests_cant": "2^32 values per word, unbounded rejections", "anchors": ["src/utils.rs: random_ternary, random_ternary_vector"]}
{"id": "C27", "title": "Exact distribution of the ternary sampler", "statement": "Among all 2^32 random words, 1431655765 make a sample return 0, 1431655764 return 1, 1431655764 return -1, and exactly 3 are rejected. (So exact uniformity is refuted; the bias is one word.)", "quantifier": "all 2^32 random words", "why_tests_cant": "a bias of one part in 2^32 cannot be measured", "anchors": ["src/utils.rs: TERNARY_INTERVAL_SIZE, random_ternary"]}
{"id": "C28", "title": "Key-value filter recovers every stored datum", "statement": "If BinaryFuseP32 construction returns Ok for a plaintext modulus dividing 2^32 then retrieving any input key yields the datum of the last input key having the same 64-bit hash, modulo the plaintext modulus; with pairwise distinct hashes this is the key's own datum.", "quantifier": "all key sets, data, seeds, labels, sizes, unused-slot random contents, any values of the floating-point size formula, plaintext moduli dividing 2^32 and below 2^32; release profile: no slot hit by 64 or more keys (the u8 counters wrap); debug profile: no such condition", "why_tests_cant": "every peeling order must work; tests use random keys", "anchors": ["bff-modp/src/prelude/bfusep.rs: bfusep_from_impl, bfusep_retrieve_impl", "bff-modp/src/bfusep32.rs"]}
{"id": "C29", "title": "Filter construction is total", "statement": "On well-formed input BinaryFuseP32 construction never panics and never loops forever: it returns Ok or the construction error (release profile: provided no slot is hit by 64 or more keys).", "quantifier": "all key sets, seeds, data", "why_tests_cant": "termination and bounds over all inputs", "anchors": ["bff-modp/src/prelude/bfusep.rs"]}
{"id": "C30", "title": "Retrying construction cannot help", "statement": "The outcome of BinaryFuseP32 construction is the same for every positive retry limit: the seed is never changed, so if the first attempt fails all of them fail.", "quantifier": "all inputs and positive retry limits (release profile: no slot hit by 64 or more keys)", "why_tests_cant": "failure probability is tiny on random keys", "anchors": ["bff-modp/src/prelude/bfusep.rs: bfusep_from_impl"]}
{"id": "C31", "title": "Slot indices are in range and distinct", "statement": "The three slots of every key lie in three consecutive segments, hence are pairwise distinct and below the fingerprint array length.", "quantifier": "all 64-bit hashes and all filter geometries", "why_tests_cant": "2^64 hashes", "anchors": ["bff-modp/src/prelude/bfuse.rs: hash_of_hash", "bff-modp/src/prelude/bfusep.rs: bfusep_from_impl"]}
{"id": "C32", "title": "Hash finaliser is a bijection", "statement": "mix64, and mix for any fixed seed, is a bijection of u64; distinct 64-bit keys never collide under any seed.", "quantifier": "all 2^64 keys and seeds", "why_tests_cant": "2^64 inputs", "anchors": ["bff-modp/src/murmur3.rs: mix64", "bff-modp/src/prelude/mod.rs: mix"]}
{"id": "C33", "title": "Rearranged 256-bit keys always collide", "statement": "The hash of a 256-bit key is invariant under every permutation of its four words, for every seed, so slots, key fingerprint and the retrieved value of a key and its rearrangements always coincide. (The claim that rearranged keys hash differently is refuted.)", "quantifier": "all keys, seeds, permutations", "why_tests_cant": "random keys never collide", "anchors": ["bff-modp/src/prelude/mod.rs: mix256"]}
{"id": "C34", "title": "Colliding keys share one datum", "statement": "Two keys with the same hash under the filter's seed always retrieve the same value; after a successful construction it is the datum inserted last. (The claim that distinct keys are retrieved independently is refuted by a construction that succeeds on two distinct keys, the first returning the second's datum with no error.)", "quantifier": "all key sets", "why_tests_cant": "needs colliding keys", "anchors": ["bff-modp/src/prelude/bfusep.rs: hm_keys, duplicates"]}
{"id": "C35", "title": "Exactly the moduli dividing 2^32 work", "statement": "Among plaintext moduli in [256, 2^32), every successful construction retrieves every datum correctly (modulo the modulus) if and only if the modulus divides 2^32. (The claim that any modulus >= 256 works is refuted at 257.)", "quantifier": "all moduli", "why_tests_cant": "tests use 1024", "anchors": ["bff-modp/src/prelude/bfusep.rs: entry, mask", "bff-modp/src/bfusep32.rs: from_slice"]}
{"id": "C36", "title": "Client unmasking agrees with filter retrieval", "statement": "Adding the three published column entries at the slots the client computes and unmasking with the client's key fingerprint gives, mod 2^b, what the server-side filter retrieve returns, for every key present or absent.", "quantifier": "all keys, filters, columns", "why_tests_cant": "all keys", "anchors": ["src/db/kv.rs: FilterParams::get_hash_evals, unmask_value, get_columns", "bff-modp/src/bfusep32.rs: hash_eval, get_key_fingerprint, retrieve"]}
{"id": "C37", "title": "All columns share one geometry", "statement": "Every column filter of a KV database has the same seed and geometry as the published filter parameters, and all columns have the same height, so one query serves all columns.", "quantifier": "all kv sets and widths", "why_tests_cant": "unbounded widths", "anchors": ["src/db/kv.rs: StorageFilters::from_kvs"]}
{"id": "C38", "title": "Columns fail or succeed together", "statement": "For fixed seed and keys, the success of filter construction does not depend on the data column, its label or the unused-slot randomness.", "quantifier": "all columns", "why_tests_cant": "relates executions", "anchors": ["src/db/kv.rs: from_kvs", "bff-modp/src/prelude/bfusep.rs"]}
{"id": "C39", "title": "Absent keys give no error", "statement": "Querying a key that is not in the database still yields Ok with row_width digits each below 2^b: absence is not detectable from the API. Digit j of that row is exactly the sum of the key's three cells in column j and its fingerprint modulo 2^b if and only if the noise on column j is in the decryption window.", "quantifier": "all absent keys", "why_tests_cant": "all keys", "anchors": ["src/api.rs: QueryParams<KVDatabase>::parse_resp_as_row"]}
{"id": "C40", "title": "BinaryFuse8/16/32 have no false negatives", "statement": "If construction returns Ok every input key is reported as contained.", "quantifier": "all key sets, fingerprint widths, unused-slot contents, size values (release builds: the seed of the returned filter loads no slot with 64 or more keys, a condition C82 shows to be needed; seeds tried before do not matter)", "why_tests_cant": "all key sets", "anchors": ["bff-modp/src/prelude/bfuse.rs", "bff-modp/src/bfuse8.rs", "bff-modp/src/bfuse16.rs", "bff-modp/src/bfuse32.rs"]}
{"id": "C41", "title": "Xor8/16/32 have no false negatives", "statement": "Whenever construction terminates every input key is reported as contained; construction never panics on distinct keys, and its result does not depend on how long it is observed; lookups of any key in the result return a verdict.", "quantifier": "all key sets and fingerprint widths", "why_tests_cant": "all key sets", "anchors": ["bff-modp/src/prelude/xor.rs", "bff-modp/src/xor8.rs", "bff-modp/src/xor16.rs", "bff-modp/src/xor32.rs"]}
{"id": "C42", "title": "Xor construction diverges on duplicate keys", "statement": "With a repeated key Xor construction panics in debug builds and, without debug assertions, never terminates.", "quantifier": "all key lists containing a duplicate, all numbers of attempts", "why_tests_cant": "non-termination cannot be tested", "anchors": ["bff-modp/src/prelude/xor.rs: loop"]}
{"id": "C43", "title": "Fuse8/16/32 have no false negatives", "statement": "If construction returns Ok every input key is reported as contained.", "quantifier": "all key sets and fingerprint widths", "why_tests_cant": "all key sets", "anchors": ["bff-modp/src/prelude/fuse.rs", "bff-modp/src/fuse8.rs", "bff-modp/src/fuse16.rs", "bff-modp/src/fuse32.rs"]}
{"id": "C44", "title": "Fuse construction on small inputs", "statement": "When the computed capacity is below 102, Fuse construction never returns an error: a non-empty key set panics in every build, and the empty key set yields a filter on which every lookup panics. (The claim that small inputs return Err is refuted.)", "quantifier": "all small key sets", "why_tests_cant": "tests use 1000 keys", "anchors": ["bff-modp/src/prelude/fuse.rs: fuse_from_impl"]}
{"id": "C45", "title": "HashProxy has no false negatives", "statement": "A HashProxy over any filter without false negatives reports every key it was built from as contained; over Xor filters, a hash collision between keys makes construction panic (debug) or never return (release).", "quantifier": "all key types, hashers, filters", "why_tests_cant": "all keys", "anchors": ["bff-modp/src/hash_proxy.rs"]}
{"id": "C46", "title": "Retry seeds never repeat", "statement": "The seed sequence used by the retrying filters (splitmix64 from 1) has no repetition among its first 2^64 values.", "quantifier": "all pairs of attempts", "why_tests_cant": "2^64 steps", "anchors": ["bff-modp/src/splitmix64.rs"]}
{"id": "C47", "title": "Written parameter files can never be loaded", "statement": "After any successful Shard::write_to_file, IndexParams::load of the parameter path returns an error: the file has lhs_seed and rhs, load requires dim, m, public_seed, rhs, elem_size, plaintext_bits. (The round-trip claim is refuted for every shard.)", "quantifier": "all parameters", "why_tests_cant": "the load path has no test", "anchors": ["src/db/mod.rs: BaseParams::write_to_file", "src/db/index.rs: IndexParams::load"]}
{"id": "C48", "title": "Written database files can never be loaded", "statement": "After any successful Shard::write_to_file, IndexDatabase::from_file of the database path never returns a database, whatever dimensions are given and also when both paths are the same: it returns an error (numbers or an object where strings are expected), or panics when the database has no columns and has a file of its own. (The round-trip claim is refuted for every shard.)", "quantifier": "all databases", "why_tests_cant": "no test", "anchors": ["src/db/index.rs: write_to_file, from_file"]}
{"id": "C49", "title": "Writing a shard touches only its two files", "statement": "write_to_file of either kind of shard changes at most the two named paths whatever fails and whenever; if the first file cannot be created nothing is changed; the parameter file is untouched unless the database file was completely written; the call succeeds iff both writes do, and then the files hold their documents (the parameter document if the paths coincide).", "quantifier": "all file-system states, paths and failure points", "why_tests_cant": "failure points", "anchors": ["src/api.rs: Shard::write_to_file, KVShard::write_to_file"]}
{"id": "C50", "title": "Keyword derivation", "statement": "The 256-bit key of a keyword is determined by SHA-256 of its bytes, never errors, and is injective on digests: keys are equal exactly when digests are equal.", "quantifier": "all keywords", "why_tests_cant": "unbounded strings", "anchors": ["src/utils.rs: sha256_into_u64_sized", "src/db/kv.rs: KeyValue::from_base64_strings"]}
{"id": "C51", "title": "Refused key/value inputs", "statement": "Building a KV shard from strings with different numbers of keys and values returns an error before anything else happens; a malformed value makes the whole construction an error wherever it is, unless some value is valid base64 but too short for its last digit: then construction panics, whatever the other values are.", "quantifier": "all inputs", "why_tests_cant": "all lengths", "anchors": ["src/db/kv.rs: KVDatabase::from_base64_strings"]}
{"id": "C52", "title": "End-to-end bytes and base64", "statement": "When the row is recovered, the parsed bytes/base64 string equal the stored element (plaintext_bits not dividing elem_size), for index and keyword shards built from strings (keyword shards in release builds: no filter slot shared by 64 or more keys).", "quantifier": "all databases and parameters", "why_tests_cant": "all alignments", "anchors": ["src/api.rs: parse_resp_as_bytes, parse_resp_as_base64"]}
{"id": "C53", "title": "Fuse construction refuses duplicate keys", "statement": "In release builds a repeated key makes Fuse8/16/32 construction return the construction error (after all attempts), whenever the capacity is at least 102.", "quantifier": "all key lists with a duplicate, widths, capacities", "why_tests_cant": "all key lists", "anchors": ["bff-modp/src/prelude/fuse.rs: fuse_from_impl"]}
{"id": "C54", "title": "Serde round trip of exchanged structures", "statement": "Serialising index parameters, keyword parameters, filter parameters or query parameters (index or keyword) with serde and deserialising the document gives the value back; in particular a spent query-parameter object stays spent.", "quantifier": "all values of these types", "why_tests_cant": "unbounded matrices", "anchors": ["src/db/index.rs: IndexParams", "src/db/kv.rs: KVParams, FilterParams", "src/api.rs: QueryParams"]}
{"id": "C55", "title": "Loading shards from JSON files", "statement": "A readable file holding an array of strings (for keyword shards: of records with the string fields key and value) gives exactly the shard built from those strings; in every other case IndexDatabase::from_file returns an error while Shard::from_json_file and KVShard::from_json_file panic.", "quantifier": "all file systems and file contents", "why_tests_cant": "all file contents", "anchors": ["src/db/index.rs: from_file", "src/api.rs: Shard::from_json_file, KVShard::from_json_file"]}
{"id": "C56", "title": "Failure rate of retrieval", "statement": "Fix the database, the key or index and the client's secret. Over the words from which the client's error vector is sampled, at most a fraction width * 2*exp(-3*(D/2)^2 / (4*m*(2^b-1)^2)) makes an exchange return a wrong row (D = 2^(32-b), m the matrix height, width the number of columns); for one column with entries c the fraction is at most 2*exp(-3*(D/2)^2/(4*sum c^2)). For the default command-line parameters (2^16 rows, 2^13-bit elements, 10 bits) this is below 2^-58 for index retrieval and below 2^-45 for keyword retrieval, whose matrix has as many rows as the filter has slots; the bound is evaluated likewise at every parameter set of the Makefile's benchmark targets (for 2^18 rows of 10-bit digits it guarantees only 99 of 100, and 92 of 100 for keywords).", "quantifier": "all databases, indices, stored keys, seeds, secrets, parameters; the fraction counts all (2^32-3)^m noise samples", "why_tests_cant": "The failure probability ranges over exponentially many noise vectors; sampling cannot bound 2^-45.", "anchors": ["src/utils.rs: random_ternary, random_ternary_vector, get_rounding_factor", "src/db/mod.rs: mult_left", "src/api.rs: generate_query, respond, parse_resp_as_row", "Makefile: bench-index-standard, bench-keyword-standard, bench-index-all, bench-keyword-all"]}
{"id": "C57", "title": "Filter construction succeeds exactly for peelable keys", "statement": "For distinct keys (distinct hashes) with no overloaded slot, filter construction succeeds if and only if the keys can be ordered so that every key has a slot that no later key uses; equivalently, it fails exactly when some non-empty subset of the keys has no slot used by only one of them. Construction of the keyword filter fails permanently in that case (the seed does not change on retry); the 64-bit-key fuse filters try 1000 seeds and keep the first that works; the xor filter terminates if and only if some seed of its sequence works. The order in which keys are listed does not matter.", "quantifier": "all key sets, orders, data, seeds, array sizes; both build profiles", "why_tests_cant": "completeness of the peeling loop over all hypergraphs", "anchors": ["bff-modp/src/prelude/bfusep.rs: bfusep_from_impl!", "bff-modp/src/prelude/bfuse.rs: bfuse_from_impl!", "bff-modp/src/prelude/fuse.rs: fuse_from_impl!", "bff-modp/src/prelude/xor.rs: xor_from_impl!"]}
{"id": "C58", "title": "Debug and release builds agree", "statement": "Building an index shard, iterating over it, generating index queries, generating keyword queries with filter parameters computed by the library, and parsing responses (row, bytes, base64) have the same outcome in debug and release builds for every input. Building keyword shards and every kind of filter, and keyword queries with foreign filter parameters, differ only by extra panics of debug builds: whenever the debug build does not panic, the release build returns exactly the same value or error; for the keyword filter with no overloaded slot the debug build panics exactly on repeated keys or a modulus below 256.", "quantifier": "all inputs of every public constructor, query and parse function", "why_tests_cant": "Tests run one profile on a few inputs; overflow differences appear only on rare inputs.", "anchors": ["src/utils.rs", "src/api.rs", "src/db/kv.rs", "bff-modp/src/prelude/bfusep.rs", "bff-modp/src/prelude/bfuse.rs", "bff-modp/src/prelude/fuse.rs", "bff-modp/src/prelude/xor.rs"]}
{"id": "C59", "title": "Parsing an arbitrary response", "statement": "For any response vector, honest or not, parsing (index or keyword) panics exactly when it has fewer coordinates than the row width and otherwise returns a row: one digit below 2^b per column, each the multiple of D nearest to (response - right-hand side) (plus the key's fingerprint for keyword retrieval) modulo 2^b; surplus coordinates are ignored, no error is ever returned, and the parsed byte string has a length fixed by the parameters.", "quantifier": "all response vectors, query parameters, keys", "why_tests_cant": "an untrusted server can send any of 2^(32 n) vectors", "anchors": ["src/api.rs: parse_resp_as_row, parse_resp_as_bytes"]}
{"id": "C60", "title": "Responses are malleable", "statement": "Adding k*D to coordinate i of any response adds k modulo 2^b to digit i of the parsed row and changes nothing else, for index and keyword retrieval: results are not authenticated and any digit can be shifted without detection.", "quantifier": "all responses, coordinates, shifts, parameters, keys", "why_tests_cant": "quantifies over all responses and shifts", "anchors": ["src/api.rs: parse_resp_as_row"]}
{"id": "C61", "title": "Outcome of building an index shard", "statement": "For 1 <= plaintext_bits <= 32, Shard::from_base64_strings returns a shard exactly when there are at least m >= 1 strings and each of the first m decodes to enough bits; the shard does not depend on further strings. Otherwise the first offending position below m decides: a missing string or a too short element panics, malformed base64 is an error; m = 0 and plaintext_bits = 0 panic.", "quantifier": "all string lists, seeds, dimensions, sizes, bit widths and both build profiles", "why_tests_cant": "all lists of strings, including arbitrary positions of the first bad one", "anchors": ["src/api.rs: Shard::from_base64_strings", "src/db/index.rs: construct_rows, construct_row", "src/db/mod.rs: get_row_width"]}
{"id": "C62", "title": "Outcome of building a key-value shard", "statement": "KVShard::new never returns an error value: it returns a shard, panics or (release builds, C80) does not return. For well-formed values, distinct hashes and bounded slot loads it returns a shard exactly when the keys can be peeled under the filter seed and panics otherwise. In debug builds plaintext_bits < 8 or a repeated key always panics. The number m given to it plays no part: it is recorded in the database and changes nothing else. Whether a shard can be built does not depend on the values or the initial contents of the arrays: from any pairs with the same keys and values of the same length a shard with the same filter parameters and sizes is built.", "quantifier": "all key-value lists, seeds, parameters", "why_tests_cant": "all key sets and seeds; failure is a rare combinatorial event", "anchors": ["src/api.rs: KVShard::new", "src/db/kv.rs: KVDatabase::new, StorageFilters::from_kvs", "bff-modp/src/prelude/bfusep.rs"]}
{"id": "C63", "title": "What the key-value row iterator yields", "statement": "The row iterator of a key-value shard yields one base64 string per filter slot (as many as the published record count, in general more than the number of keys); string i decodes to the digits of the published matrix at slot i (of the last column only elem_size mod plaintext_bits bits), not to a stored value.", "quantifier": "all key-value shards", "why_tests_cant": "all key sets, seeds and filter contents", "anchors": ["src/api.rs: KVShard::into_row_iter", "src/db/kv.rs: get_db_entry", "src/utils.rs: base64_from_u32_slice"]}
{"id": "C64", "title": "Every cell and every combination of cells can be chosen by some key", "statement": "The hash-to-cell maps of the filters leave no cell unreachable: for Xor8/16/32 (blocks up to 2^20 cells) and Fuse8/16/32 (segments up to 2^20 cells) every seed and every combination of cells, one per block (or one per consecutive segment, for every starting segment), is the combination looked up for some key; for the binary fuse filters and the key-value filter of fewer than 2^27 cells every combination the geometry allows is hit as well. So no part of the array is dead weight and the three positions are not functions of one another.", "quantifier": "all seeds, all sizes within the stated limits, all combinations of cells", "why_tests_cant": "existence of a key for each of n^3 combinations, for every seed and size", "anchors": ["bff-modp/src/prelude/mod.rs: HashSet, reduce, rotl64", "bff-modp/src/prelude/xor.rs", "bff-modp/src/prelude/fuse.rs", "bff-modp/src/prelude/bfuse.rs: hash_of_hash"]}
{"id": "C65", "title": "Failure rate and leakage of index queries under ideal masks", "statement": "If the mask were a uniformly random vector, generate_query for an index would fail with OverflownAdd for exactly a fraction 2^-b of the masks; and because it fails instead of wrapping, what is sent depends on the index: for any two different indices the best distinguisher has advantage exactly 2^-b(1-2^-b) (no test does better, and one test attains it). Key-value queries, which wrap, give every test advantage zero.", "quantifier": "all b in 1..31, all vector lengths, all pairs of indices, all tests on the observed outcome", "why_tests_cant": "exact counts over (2^32)^m masks and over all distinguishers", "anchors": ["src/api.rs: generate_query, QueryParams", "src/utils.rs: get_rounding_factor"]}
{"id": "C66", "title": "Absent keys over the random contents of unused cells", "statement": "With the default uniform-random feature the filters' unused cells hold random words. For BinaryFuse8/16/32 and Fuse8/16/32 with w-bit fingerprints and any key: either the verdict of contains is the same for every initial content, or exactly the fraction 2^-w of the initial contents makes it true; the latter whenever the key uses a cell that no stored key uses (false-positive rate exactly 2^-w). For the key-value filter with a modulus p dividing 2^32, an absent key that uses such a cell reads every value below p for exactly the fraction 1/p of the initial contents.", "quantifier": "all key sets for which construction succeeds (release builds: with a seed that loads no slot with 64 or more keys), all keys, all initial contents (counted exactly)", "why_tests_cant": "exact counts over (2^w)^n array contents, for all key sets and all absent keys", "anchors": ["bff-modp/src/prelude/mod.rs: make_fp_block", "bff-modp/src/prelude/bfuse.rs", "bff-modp/src/prelude/fuse.rs", "bff-modp/src/prelude/bfusep.rs"]}
{"id": "C67", "title": "Any interleaving of clients against one server", "statement": "Take any sequence of API calls by any number of client objects against one shard: objects are created or copied, asked for queries (also repeatedly), the server answers any query ever sent, any number of times and in any order, and any object parses any response ever sent. Then no object has sent two queries; every index query sent is for an existing row and is answered; all answers to one query are equal; and whenever an object has parsed an answer to its own query it obtained a row of the right width, which is the stored row (or the stored value of the key) exactly when the noise of the error vector drawn when that object was made is in the decryption window. Nothing else in the history matters.", "quantifier": "all shards built from well-formed inputs, all tapes, all finite histories of calls (any number of objects, queries, responses)", "why_tests_cant": "histories are unbounded and their interleavings infinite; tests run one client once", "anchors": ["src/api.rs: QueryParams::generate_query, parse_resp_as_row, Shard::respond, KVShard::respond", "src/api.rs: generate_index_query_params, generate_kv_query_params"]}
{"id": "C68", "title": "Copies of query parameters defeat single use", "statement": "After any history, an unused query parameter object can be copied (Clone, or save and restore with serde) and both the object and the copy then send a query. In every history, when two objects drawn from the same randomness have both sent a query, the difference of the queries is D at the first index and -D at the second (for keywords: D times the difference of the slot sets), so an observer learns both indices when they differ, and that they are equal otherwise.", "quantifier": "all shards with 1<=b<=31, all histories, all pairs of queries by copies", "why_tests_cant": "ranges over all histories and all masks; the test suite only checks reuse of one object", "anchors": ["src/api.rs: QueryParams (derive Clone, Serialize, Deserialize; pub used)", "src/api.rs: generate_query"]}
{"id": "C69", "title": "Keyword client without filter parameters", "statement": "A keyword client object restored from a document without (or with a null) extra_params field is accepted. Such an object never sends a query: a fresh one is spent by the attempt and reports the missing filter parameters, a spent one reports reuse; parsing any response, of any length, as a row, as bytes or as base64, reports the missing parameters and never panics.", "quantifier": "all objects with 1<=b<=31, all keys, all responses, both build profiles", "why_tests_cant": "must hold for every response and object contents; no test builds such an object", "anchors": ["src/api.rs: QueryParams<KVDatabase, FilterParams>::generate_query, parse_resp_as_row, parse_resp_as_bytes, parse_resp_as_base64"]}
{"id": "C70", "title": "Key-value server responses are exact, linear and unauthenticated", "statement": "A built key-value shard answers a query with as many words as its published number of cells by the serialised inner products (mod 2^32) of the query with the first ceil(elem_size/plaintext_bits) stored columns; the answer to a sum of queries is the sum of the answers; a query with a single non-zero word c at position i is answered with c times cell i of every column, so any client can read any cell. A query of any other length panics, and when the stored values are shorter than an element every query panics.", "quantifier": "all key-value shards that can be built, all query vectors, both build profiles", "why_tests_cant": "ranges over all query vectors and all databases", "anchors": ["src/api.rs: KVShard::respond", "src/db/kv.rs: KVDatabase::vec_mult, get_row_width_self"]}
{"id": "C71", "title": "Message sizes depend only on public parameters", "statement": "For an index shard the published matrix has ceil(elem_size/plaintext_bits) columns of lwe_dim words, every query produced has m words and every response has 8 + 4*ceil(elem_size/plaintext_bits) bytes, whatever the contents, randomness, index or query. For a key-value shard the same holds with the number of filter cells in place of m, and that number depends only on the number of pairs (and the size parameters computed from it), not on keys, values or seeds.", "quantifier": "all shards, all random tapes, all indices, keys and queries, both build profiles", "why_tests_cant": "must hold for every database content and random tape; a size that leaked contents in a rare case would escape tests", "anchors": ["src/api.rs: Shard::respond, KVShard::respond, generate_query", "bff-modp/src/prelude/bfusep.rs: bfusep_from_impl"]}
{"id": "C72", "title": "Flags and environment variables", "statement": "parse_from_env succeeds exactly when all six variables are set, sizes are decimal numerals (optional +, leading zeros) below 2^64, the element count is an exponent, and the switches are true/false, and returns exactly these values; otherwise it panics. parse_cli_flags succeeds exactly when its two exponents and two sizes are such numerals, returns exactly their values and panics otherwise; it uses the defaults 16, 13, 10, 2048 for missing options and always sets offline and keyword. An exponent e gives 2^e below 32; from 32 on it panics in debug builds and silently gives 0 in release builds.", "quantifier": "all strings and environments, both build profiles", "why_tests_cant": "ranges over all strings; there are no tests of this crate", "anchors": ["pi-rs-cli-utils/src/lib.rs: parse_from_env, parse_cli_flags, parse_exp_to_usize, parse_val_to_bool"]}
{"id": "C73", "title": "Keyword queries with arbitrary filter parameters", "statement": "The client does not check the filter parameters it receives. For every value of the three geometry fields and every key, generate_query on a fresh object spends the object and either panics (exactly when one of the three computed positions is beyond the mask or, in debug builds, when the 32-bit additions overflow) or returns the mask with D added once per occurrence of each position. For keys that do not panic every vector is the query for exactly one mask, so hostile parameters cannot make a query with an ideal mask depend on the key; they can only make the call panic for some keys and not for others.", "quantifier": "all filter parameters, keys, masks, plaintext bits up to 31, both build profiles", "why_tests_cant": "ranges over all parameter values a server could send and all keys; tests only use parameters built by the library", "anchors": ["src/db/kv.rs: FilterParams::get_hash_evals", "bff-modp/src/prelude/bfuse.rs: hash_of_hash", "src/api.rs: generate_query"]}
{"id": "C74", "title": "Size of Xor and Fuse filters, floating-point arithmetic included", "statement": "Xor8/16/32 built from n keys have exactly 3*floor((floor(1.23 n)+32)/3) cells as reported by len() (so between 1.23 n + 28 and 1.23 n + 32): the f64 rounding of 1.23 * n never shows. Fuse8/16/32 built from n >= 90 keys have exactly 102*floor(floor(n/0.879)/102) cells; from 1 to 89 keys construction panics in every build profile; the Fuse filter of the empty set has length 0 and every lookup in it panics.", "quantifier": "every key list of fewer than 2^32 keys, every fingerprint width, both build profiles, every random filling, every number of attempts", "why_tests_cant": "the size depends on IEEE rounding for every n; the panic range and the exactness hold for all n, tests sample a few sizes (1e6)", "anchors": ["bff-modp/src/prelude/xor.rs:xor_from_impl", "bff-modp/src/prelude/fuse.rs:FUSE_OVERHEAD,fuse_from_impl", "bff-modp/src/xor8.rs:len", "bff-modp/src/fuse8.rs:len"]}
{"id": "C75", "title": "Some sizes of Fuse filter can never be built", "statement": "When rounding the capacity floor(n/0.879) down to a multiple of 102 leaves fewer than n + 2 cells, Fuse8/16/32::try_from returns its error for every set of n distinct keys (all 1000 seeds fail). In particular no Fuse filter can be built from 101 to 179 keys: release builds return the error for every key list, debug builds return it for distinct keys and panic for repeated ones.", "quantifier": "every list of keys of such a length, every width, profile and random filling", "why_tests_cant": "an impossibility over all key sets of the size; a test can only observe individual failures, which look like bad luck with the seed", "anchors": ["bff-modp/src/prelude/fuse.rs:fuse_from_impl", "bff-modp/src/fuse8.rs:try_from"]}
{"id": "C76", "title": "Size of binary fuse filters and key-value databases", "statement": "For every logarithm routine with relative error at most 2^-50, every binary fuse filter of 2 to 3.8 billion keys is laid out without integer overflow; its number of cells is at least 1.125 n - 1/2 and more than n, and at most the published n*max(1.125, 0.875 + 0.25 ln 10^6/ln n) plus one segment (or three segments); the segment length is the published 2^floor(ln n/ln 3.33 + 2.25), capped at 2^18, unless the exponent is within 2^-36 of an integer. A filter of at most one key has 12 cells. The matrix of a key-value database of n keys, and so every keyword query, has at least 1.125 n - 1/2 words, and from a million keys on at most 1.125 n + 2^18.", "quantifier": "every number of keys in the range, every key set, every accurate logarithm, both profiles", "why_tests_cant": "floating-point rounding, libm error and u32 overflow must be bounded for all n up to billions", "anchors": ["bff-modp/src/prelude/bfuse.rs:segment_length,size_factor,bfuse_from_impl", "bff-modp/src/prelude/bfusep.rs:bfusep_from_impl", "src/db/kv.rs:KVDatabase"]}
{"id": "C77", "title": "Query privacy reduces to decision-LWE", "statement": "When every query is made with fresh query parameters, telling apart what the server sees for two lists of keys is no easier than telling ternary-secret, ternary-error LWE samples for the public matrix from uniformly random vectors: any test is turned by an explicit construction into two LWE distinguishers whose advantages add up to at least the test's. For row indices the same holds up to 2^-b (1 - 2^-b) per query where the two lists differ, the leakage of the checked addition. The masks clients draw are exactly such LWE samples.", "quantifier": "all public matrices, dimensions, valid filter parameters, plaintext widths, numbers of queries, pairs of lists of keys or in-range indices, and all tests on the tuple of outcomes (of unbounded power), over all client random tapes", "why_tests_cant": "It is a statement about whole probability distributions and about every possible observer; a test sees single queries.", "anchors": ["src/api.rs:QueryParams::new", "src/api.rs:QueryParams::generate_query", "src/db/mod.rs:CommonParams::mult_left", "src/utils.rs:random_ternary_vector"]}
{"id": "C78", "title": "False-positive rate over all keys", "statement": "Whatever its seed and contents, a binary fuse filter with segments of at most 2^14 cells (all filters up to about 4.6 million keys) accepts a fraction 2^-w of all 2^64 keys, with an absolute error of at most (number of cells)/2^32; an Xor filter with fingerprints of at most 11 bits (Xor8) accepts a fraction 2^-w of all keys with an error of at most (cells per block)/2^22.", "quantifier": "every seed, every cell contents, every layout with short segments, every fingerprint width up to 32 (binary fuse) or 11 (Xor), counting over all 2^64 keys", "why_tests_cant": "2^64 keys and all possible filter contents; a sample only estimates the rate of one filter", "anchors": ["bff-modp/src/prelude/mod.rs:fingerprint!", "bff-modp/src/prelude/bfuse.rs:hash_of_hash,bfuse_contains_impl", "bff-modp/src/prelude/xor.rs:xor_h!,xor_contains_impl"]}
{"id": "C79", "title": "Scratch memory reused between attempts leaves no trace", "statement": "The filter constructions keep queues, stacks, counters and tables in fixed arrays that are overwritten in place, popped by decrementing a size variable and reused, without being cleared, by the next attempt. On every input this in-place program has exactly the outcome (filter, error, panic or non-termination) of the construction that starts each attempt from fresh lists; every index it uses is in bounds unless the outcome is a panic; every peeling loop ends within an explicit number of iterations (cells + 2*keys for binary fuse filters, capacity + 3*keys for Fuse, 3*(capacity+32) + 2*keys for Xor); and the left-overs of earlier attempts in the queues and stacks cannot be observed in the result.", "quantifier": "every key list, data, seed, capacity, initial table contents, retry limit and build profile, and every content left in queues and stacks by earlier attempts", "why_tests_cant": "left-over memory matters only after failed attempts, which are rare and depend on the keys; the iteration bound and the absence of stale reads must hold for every key set", "anchors": ["bff-modp/src/prelude/bfusep.rs:bfusep_from_impl!", "bff-modp/src/prelude/bfuse.rs:bfuse_from_impl!", "bff-modp/src/prelude/fuse.rs:fuse_from_impl!", "bff-modp/src/prelude/xor.rs:xor_from_impl!", "bff-modp/src/prelude/mod.rs:make_block!,try_enqueue!"]}
{"id": "C80", "title": "64 keys sharing a slot hang a release build", "statement": "Building a BinaryFuse8/16/32 or BinaryFuseP32 filter, or a key-value database, from 64 keys that share one filter slot (hashes pairwise different and non-zero) never returns in a release build and panics in a debug build; it never yields a filter or an error value. Since the first seed of BinaryFuse8/16/32 is a constant, for every layout there are 64 fixed distinct keys that hang try_from.", "quantifier": "every layout, fingerprint width, initial cell contents, seed, label, modulus, data, and every 64 keys that share a slot", "why_tests_cant": "random keys never share a slot 64 times; non-termination cannot be observed by running a test; the claim is for all such key sets", "anchors": ["bff-modp/src/prelude/bfuse.rs:bfuse_from_impl!", "bff-modp/src/prelude/bfusep.rs:bfusep_from_impl!", "src/db/kv.rs:StorageFilters::from_kvs,KVDatabase::new"]}
{"id": "C81", "title": "Every word of a filter seed matters", "statement": "For a 256-bit key with four equal words, varying any one 8-byte word of the 32-byte filter seed while the other 24 bytes are fixed gives every multiple of 4 as hash, each for exactly 4 of the 2^64 values of that word.", "quantifier": "every key word, every position of the seed word, every content of the other 24 seed bytes, every target hash", "why_tests_cant": "counts over 2^64 seed words for every key", "anchors": ["bff-modp/src/prelude/mod.rs:mix256"]}
{"id": "C82", "title": "An overloaded slot can make a release build return a binary fuse filter that loses keys", "statement": "There are 96 distinct keys (65 of them share one slot in the first round) for which try_from in a release build returns a filter whose contains answers false for one of these keys, for every fingerprint width of at least one bit, every initial content of the cells, and the sizes the code computes for 96 keys under any accurate logarithm; a debug build panics on them. So the absence of false negatives (C40) does need its hypothesis that no slot is shared by 64 keys or more.", "quantifier": "all fingerprint widths, all initial fingerprint contents, all accurate logarithms", "why_tests_cant": "The initial contents are random: a test sees one of them, while the key is lost for all of them, and random key sets never overload a slot.", "anchors": ["bff-modp/src/prelude/bfuse.rs:bfuse_from_impl!", "bff-modp/src/prelude/bfuse.rs:bfuse_contains_impl!", "bff-modp/src/bfuse8.rs:BinaryFuse8::try_from"]}
{"id": "C83", "title": "Which JSON documents load as parameters, and as what", "statement": "A JSON document is accepted as index, filter, keyword or query parameters (or as a key-value element) exactly when it holds every field of that value once, in the form serde writes it: an object in any field order and with any unknown fields, or an array of exactly the fields; numbers out of the range of the field, floats, repeated fields, missing fields (other than extra_params) and seeds that are not 32 bytes are rejected with an error value, never a panic. IndexParams::load returns p iff the file is readable and holds such a document of p.", "quantifier": "all JSON documents, all parameter values, all file systems and paths", "why_tests_cant": "Tests round-trip a few values; that no other document is accepted, and that none panics, ranges over all JSON trees.", "anchors": ["src/db/index.rs:IndexParams::load", "src/db/kv.rs:KVParams", "src/db/kv.rs:FilterParams", "src/api.rs:QueryParams", "src/api.rs:EncodedKV"]}
{"id": "C84", "title": "Filters can be written and read back", "statement": "Serialising any filter (BinaryFuse8/16/32, BinaryFuseP32, Fuse8/16/32, Xor8/16/32, a HashProxy) and deserialising the result gives the same filter. A JSON document is accepted as a filter exactly when it holds every field of that filter once (an object in any order with any other fields, or an array of exactly the fields), with every number in the range of its type; every other document gives an error value, never a panic. A HashProxy document does not identify its key type or hasher.", "quantifier": "all filters of all types and fingerprint widths; all JSON documents", "why_tests_cant": "A test reads back the filters it wrote; the set of accepted documents is infinite and a test cannot show that nothing else is accepted or that no document panics.", "anchors": ["bff-modp/src/bfuse8.rs:BinaryFuse8", "bff-modp/src/bfusep32.rs:BinaryFuseP32", "bff-modp/src/fuse8.rs:Fuse8", "bff-modp/src/xor8.rs:Xor8", "bff-modp/src/hash_proxy.rs:HashProxy"]}
{"id": "C85", "title": "Which lookups in a loaded filter panic", "statement": "A loaded filter can have any field values. A lookup panics exactly when one of its three positions is beyond the fingerprints (for BinaryFuseP32 also when the modulus is 0 modulo 2^32) or, in debug builds, when computing a position overflows; otherwise it answers from the three fingerprints. A filter is safe for every key exactly when it has fingerprints for all segments plus two (binary fuse), for 102 segments (fuse), for three blocks (xor); with fewer, some key makes the lookup panic. Filters returned by the constructors are safe after being written and read back, and still contain their keys.", "quantifier": "all filters with arbitrary field values, all keys, both build profiles", "why_tests_cant": "Whether some of 2^64 keys hits an out-of-range position cannot be found by trying keys, and the field values are arbitrary.", "anchors": ["bff-modp/src/prelude/bfuse.rs:bfuse_contains_impl", "bff-modp/src/prelude/bfusep.rs:bfusep_retrieve_impl", "bff-modp/src/prelude/fuse.rs:fuse_contains_impl", "bff-modp/src/prelude/xor.rs:xor_contains_impl"]}
{"id": "C86", "title": "The database generator and what is served from its file", "statement": "`data/generate_db.py` makes 2^v elements of 2^e BYTES each (v from DB_NUM_ENTRIES_EXP, e from DB_ELEMENT_SIZE_EXP, defaults 16 and 13; DB_ELEMENT_SIZE_BITS is ignored), all 0xFF unless DB_ALL_ONES is exactly \"0\", and replaces the selected file by the JSON array of their base64 encodings; with an exponent that is not a non-negative integer no file is touched. Loading such a file with an element size of k bytes (b not dividing 8k) succeeds when k <= 2^e and serves the first k bytes of every element, silently dropping the rest; with the default settings of generator and flags only the first 1024 of every 8192 bytes are served.", "quantifier": "all environments, random sources, file systems, write failures, seeds, LWE dimensions, element sizes and plaintext sizes", "why_tests_cant": "The claim is about every environment and every element and about bytes that never show up in any output; the defaults alone give 512 MB of data.", "anchors": ["data/generate_db.py:get_random", "data/generate_db.py:get_all_ones", "src/api.rs:Shard::from_json_file"]}
{"id": "C87", "title": "Writing the public flag `used`", "statement": "In any sequence of generate_query calls and writes to the public field `used`, each call returns the reuse error if the flag was last set and otherwise exactly what a fresh copy of the object returns, and nothing but the flag changes. Any two queries produced differ by D at one index and -D at the other, so a server that sees both learns both indices; answers to all of them still decode under the same noise condition. The benchmark loop (reset, query, unwrap) never fails after one success and always produces the same query, and panics in its first iteration if a fresh copy produces no query; the random elements of the benchmarks always build a shard.", "quantifier": "all objects, all sequences of calls and writes, all indices and keys, any number of benchmark iterations, all random bytes", "why_tests_cant": "Ranges over all histories of calls and writes.", "anchors": ["src/api.rs:QueryParams::used", "src/api.rs:generate_query", "benches/bench.rs:_bench_client_query", "benches/bench.rs:generate_db_eles"]}
{"id": "C88", "title": "The zero-fingerprint counter", "statement": "The analysis tool's sliding count never underflows and prints, for every multiple of 333 above the window size, the number of zero fingerprints among the last `window_size` ones, plus one whenever the very first fingerprint of the filter is zero: fingerprint 0 never leaves the window.", "quantifier": "all fingerprint arrays, all positive window sizes, both build profiles", "why_tests_cant": "The off-by-one only shows when the first fingerprint is zero, and the absence of underflow ranges over all arrays.", "anchors": ["bff-modp/analysis/src/zeroes.rs:print_zeroes"]}
{"id": "C89", "title": "Advertised space per key", "statement": "The documentation promises space bounds in bits per key for the filters. For Xor8/16/32 the bound (less than 10/20/40 bits per entry) holds for every filter built from more than 1600 keys and for none built from at most 1400. For Fuse8/16/32 the space never exceeds w/0.879 bits per key, which is reached (and exceeds the promised 9.101/18.202/36.404) whenever the number of keys is a multiple of 44829. Every binary fuse filter built from a million keys has 1130496 cells and meets the documented 9.1/18.1/36.2 bits, and in general a binary fuse filter takes at least about 9 bits per key at 8-bit fingerprints, whatever the rounding of the floating-point logarithm.", "quantifier": "all key lists (below 2^32 keys; up to 3.8e9 for the lower bound), all initial contents, both build profiles, every accurate logarithm", "why_tests_cant": "The tests measure one key count; the bound fails only for particular key counts and depends on rounding.", "anchors": ["bff-modp/src/xor8.rs", "bff-modp/src/fuse8.rs", "bff-modp/src/bfuse8.rs", "bff-modp/src/prelude/fuse.rs", "bff-modp/src/prelude/bfuse.rs"]}
{"id": "C90", "title": "Reading a database object", "statement": "In an index database built from base64 strings that decode to m elements, get_row(j) returns the j-th digits of all the elements (a column of the logical matrix, not record j) and panics from the row width on; get_db_entry(i) panics for i >= m; vec_mult is the exact wrapping inner product with column j and panics exactly when the vector length is not m or j is not below the width; after switch_fmt, get_row(i) is the digits of record i (and panics for i >= m), and switching twice restores the database. With element size 0 there is no column: get_row, vec_mult and switch_fmt panic, every entry (in range or not) is the empty string, and every query of any length gets the empty response. For a key-value shard get_row(j) is the j-th stored column (panics out of range), vec_mult is the inner product with it and panics on other lengths, get_db_entry panics from the matrix height on, switch_fmt transposes and undoes itself; and a stored key can be looked up locally: its three cells in column j and its fingerprint add up to digit j of its value modulo 2^b.", "quantifier": "all base64 inputs, all seeds and sizes with plaintext bits at most 32, all indices and vectors, both build profiles", "why_tests_cant": "Unit tests read a few entries of one shape; the claim covers every shape, index and vector and the exact set of panics.", "anchors": ["src/db/mod.rs:DatabaseMatrix", "src/db/index.rs:get_row,get_db_entry,vec_mult,switch_fmt", "src/utils.rs:swap_matrix_fmt", "src/db/kv.rs: KVDatabase::get_row, vec_mult, switch_fmt, get_db_entry, FilterParams::get_hash_evals"]}
{"id": "C91", "title": "The sizes for which a filter can be built", "statement": "For every n up to 2,500,000 some n distinct keys give an Xor8/16/32 filter at the first attempt; for 90 <= n <= 94,000,000 some n distinct keys give a Fuse8/16/32 filter at the first attempt exactly when n + 2 is at most the number of cells (so the impossible sizes of C75 are precisely the ones of its criterion); for every layout of at most 2^27 cells some n distinct keys give a BinaryFuse8/16/32 filter at the first attempt exactly when n + 2 is at most the number of cells, and the layout computed for any n <= 10^8, with any accurate logarithm, satisfies this. In each case in every build profile, for every width and every random filling. For the keyed filter and key-value shards the same bound is necessary: a filter or key-value shard built from n keys with distinct hashes (in release builds with fewer than 64 keys per slot) has at least n + 2 cells, rows respectively.", "quantifier": "every number of keys in the range; the keys are exhibited by a construction", "why_tests_cant": "a statement about every size: tests build filters of a few sizes from a few key sets and cannot distinguish an impossible size from bad luck", "anchors": ["bff-modp/src/prelude/fuse.rs:fuse_from_impl", "bff-modp/src/prelude/xor.rs:xor_from_impl", "bff-modp/src/prelude/bfuse.rs:bfuse_from_impl", "src/db/kv.rs:KVDatabase::new"]}
{"id": "C92", "title": "Which databases are free of decryption errors", "statement": "Whether an exchange can return a wrong row is decided by the column sums of the database. Key-value: the value of a stored key is returned for all random choices of the client if and only if every column of the built database sums up to less than 2^(31-plaintext_bits). Index: if every column of digits sums up to less than that bound no exchange can return a wrong row, and if some column exceeds it there are random words for which every exchange completes normally and returns a wrong digit in that column. Hence the worst-case condition of C03 cannot be relaxed (for every m with m*(2^b-1) > 2^(31-b) there is such a database), and with the default command-line sizes wrong rows are possible.", "quantifier": "every database, dimension, plaintext size 1..31, public seed, PRG, profile, index or stored key, and all random words", "why_tests_cant": "the failing random words have negligible probability and are never hit by sampling; safety is a statement about all of them", "anchors": ["src/api.rs:generate_query,parse_resp_as_row,respond", "src/utils.rs:random_ternary,get_rounding_floor", "pi-rs-cli-utils/src/lib.rs:parse_cli_flags"]}
{"id": "C93", "title": "How many records one response can reveal", "statement": "The server answers any vector of the right length. For any positions with b*k <= 32 there is a query that depends only on the positions, the digit size and the number of records, and from whose answer every digit of every one of those k records can be read off. No query does better: for every query and any positions with b*k > 32 there are two databases which agree outside these positions, differ in the digits of at least one of them and get the same answer. Key-value: for any stored keys with (b+2)*k <= 34 there is a query that depends only on the keys and the published parameters and from whose answer the values of all k keys can be read off. No query reads the values of keys with b*k > 32: for every list of pairs from which a shard can be built, every query and any positions with b*k > 32 there are two value assignments that differ in one first digit at these positions only, build with the same filter parameters and get the same response.", "quantifier": "all digit sizes 1..31, numbers of records, sets of positions, query vectors, databases, LWE dimensions, seeds and profiles", "why_tests_cant": "Both halves quantify over all databases; the second one over all query vectors as well.", "anchors": ["src/api.rs: Shard::respond", "src/db/index.rs: IndexDatabase::vec_mult", "src/api.rs: KVShard::respond"]}
{"id": "C94", "title": "The client does not check the public matrix it is given", "statement": "Published parameters whose lengths fit are accepted whatever their contents. At every position whose public column is zero the query shows in the clear whether that position is asked for: the word there is 0, 1 or -1 exactly when it is not (index queries; for keyword queries with b <= 30, exactly when it is not one of the key's three slots). In particular a server configured with LWE dimension 0 works and every query of its clients reveals the index.", "quantifier": "all public matrices, parameters, random words, indices, keys, digit sizes, profiles", "why_tests_cant": "It quantifies over all random choices of the client and all positions.", "anchors": ["src/api.rs: QueryParams::new, generate_query, generate_index_query_params, generate_kv_query_params", "src/db/mod.rs: CommonParams::mult_left"]}
{"id": "C95", "title": "What a keyword lookup returns for a key that was never stored", "statement": "Filters and key-value databases fill their arrays with random words before the stored keys are placed. Whether construction succeeds does not depend on those words. For every key and plaintext modulus 2^b (b at most 31), the values the columns hold for the key are, over all initial contents of all columns, jointly equidistributed on the vectors of b-bit values whose entries have fixed residues modulo one power of two 2^t, the same for all columns. If one of the key's three slots is used by no stored key then t = 0: every vector of values is equally likely, independently of what is stored, so nothing tells an absent key from a present one. If the key has the same three slots as a stored key the value is fixed: the stored datum shifted by the difference of the two fingerprints, whatever the random words are.", "quantifier": "all key sets, data, seeds, layouts, builds, keys looked up, initial contents of the arrays", "why_tests_cant": "It is an exact count over (2^32)^(n w) initial contents; a test sees single draws.", "anchors": ["bff-modp/src/prelude/bfusep.rs: bfusep_from_impl!, bfusep_retrieve_impl!", "bff-modp/src/bfusep32.rs: BinaryFuseP32::retrieve, get_fingerprints_mod", "src/db/kv.rs: StorageFilters::from_kvs, KVDatabase::new"]}
{"id": "C96", "title": "Serialised databases and shards are accepted exactly if every field is there once, and no document panics", "statement": "A JSON document is deserialised as an IndexDatabase, KVDatabase, Shard or KVShard exactly if it is an object (or array) holding each field of the type once, with sizes below 2^64 and words below 2^32, unknown keys being ignored; every other document is refused with an error value, never a panic; and every database or shard is read back unchanged from the document written for it.", "quantifier": "every JSON document and every value of the four types", "why_tests_cant": "the documents are unbounded in number and shape (duplicate, missing, unknown fields, numbers out of range); tests try a few well-formed ones", "anchors": ["src/api.rs:Shard", "src/api.rs:KVShard", "src/db/index.rs:IndexDatabase", "src/db/kv.rs:KVDatabase"]}
{"id": "C97", "title": "bincode copies of parameters, client state and shards are faithful, and truncated copies are refused", "statement": "For every serialisable type of the crate (filter parameters, databases, parameters, shards, client state with its used flag, key-value pairs, responses) the bincode reader accepts a byte string exactly if it begins with what is written for some value, and returns that value; different values are written differently; every proper prefix of a written value is refused with an error value. In particular every shard that the constructors return is restored unchanged from its copy, and its copy and the parameters a client downloads have a known size. The reader checks nothing else: there are byte strings read as a shard that panics on every query of the length it advertises.", "quantifier": "every byte string, every value, every shard the constructors return (any data, dimension, element size, plaintext width, filter contents) and every truncation point", "why_tests_cant": "a test round-trips a few values; truncation points, trailing bytes and corrupted lengths range over all byte strings", "anchors": ["src/api.rs:Shard", "src/api.rs:KVShard", "src/api.rs:QueryParams", "src/db/index.rs:IndexParams", "src/db/kv.rs:KVParams", "src/db/kv.rs:FilterParams", "src/db/kv.rs:KeyValue", "src/api.rs:respond"]}
{"id": "C98", "title": "What the files written by write_to_file hold, and what they lose", "statement": "After a successful write_to_file of an index or keyword shard to two different paths, the first file holds the database matrix and the second an object with exactly the members lhs_seed and rhs, the public seed and the right-hand side; both can be recovered from the files and no other file changes. Nothing else is written: two shards built from the same records with element sizes that need the same number of digits write identical files.", "quantifier": "every shard, file system, pair of paths and outcome of the system calls; every pair of shards that differ in the element size", "why_tests_cant": "an equality of files for all shards and the absence of any other information are not observable on examples", "anchors": ["src/api.rs:write_to_file", "src/db/mod.rs:BaseParams::write_to_file", "src/db/index.rs:write_to_file", "src/db/kv.rs:write_to_file"]}
{"id": "C99", "title": "Files as texts: what is read, what is written, and crashes in the middle of a write", "statement": "The reader of JSON files accepts exactly the texts of RFC 8259, each denoting one document, and returns an error for every other text. What the library prints for a document, and what the generator script prints for its list of strings, denotes that document. A text of an array or object that lost anything at its end is never a document. So after a crash or write error at any character of write_to_file, reading either of its two files gives what it gave before, the complete new document, or an error; the parameters file changes only after the database file is complete; from_json_file panics and from_file returns an error on an interrupted file (any array or object text that lost anything at its end, in particular a generated one).", "quantifier": "every text, every document, every character position at which a write stops, every shard of either kind", "why_tests_cant": "the texts, documents and crash points are unbounded in number", "anchors": ["src/api.rs:write_to_file", "src/api.rs:from_json_file", "src/db/index.rs:from_file", "src/db/index.rs:load", "src/db/mod.rs:BaseParams::write_to_file", "data/generate_db.py:json.dump"]}
{"id": "C100", "title": "An overloaded filter slot can drop a stored pair silently in release builds", "statement": "The assumption that no filter slot is used by 64 or more keys is necessary for keyword retrieval: there are 96 key hashes, 66 of them sharing a slot, such that for all 96 pairs whose keys have these hashes a release build of KVShard::new returns (without error or panic) a shard that does not depend on the value of one of the pairs; for some value of that pair every client whose noise is within the correctness window reads something else for its key. A debug build panics on the same pairs. The number of pairs, and so the layout, is one the code itself computes, and keys with these hashes exist.", "quantifier": "all seeds and keys with the given hashes, all values, initial filter contents, plaintext_bits from 1 to 31, element sizes, LWE dimensions, matrices, client randomness", "why_tests_cant": "the event is too rare for random keys to show, and what is claimed is that no value whatever of the pair influences the result", "anchors": ["bff-modp/src/prelude/bfusep.rs: bfusep_from_impl", "src/db/kv.rs: KVDatabase::new", "src/api.rs: KVShard::new, QueryParams::generate_query, QueryParams::parse_resp_as_row"]}
{"id": "C101", "title": "When the benchmark program runs through", "statement": "The benchmark program in index mode panics whenever it is given at most ten records (it always asks for record 10), panics when the mask of record 10 is too large for the checked addition, and otherwise runs through, for every content of its random database, however often the runner calls each benchmark; all strings it parses are then one and the same, namely record 10 if the noise is in the window (whole bytes, b not dividing the size). In keyword mode it stops like the construction of its shard does if that fails; otherwise the online part always runs through, all parsed strings are the same one (the value of the first key if the noise is in the window and further as in C52), and with the offline flag the program runs through if every rebuilding of the shard with new seeds succeeds and otherwise stops like the first one that does not.", "quantifier": "all database contents, seeds, random words, record counts, dimensions, element sizes, plaintext_bits 1..31, iteration counts and both build profiles", "why_tests_cant": "running the benchmarks shows one random database, one seed and the iteration counts the runner happened to choose", "anchors": ["benches/bench.rs:criterion_benchmark", "benches/bench.rs:_bench_client_query", "benches/bench.rs:_bench_client_kv_query", "benches/bench.rs:_bench_db_generation", "benches/bench.rs:_bench_kv_db_generation"]}
{"id": "C102", "title": "Query privacy when the server chooses what is asked next", "statement": "Let a server choose, before each query and from everything it has seen so far, two candidate keys (or row indices), and let a client that makes every query from fresh query parameters always ask for the first, or always for the second. Whatever test the server applies to the whole session, it tells the two clients apart at most as well as two explicit tests tell ternary LWE samples for the public matrix from random vectors (for row indices up to Q 2^-b (1 - 2^-b) for Q queries). Telling Q samples from Q random vectors is in turn at most as easy as Q explicit tests on a single sample put together.", "quantifier": "all public matrices, valid filter parameters, plaintext widths, numbers of queries, adaptive strategies and tests (of unbounded power), over all client random tapes", "why_tests_cant": "A probability over all random tapes, for every adaptive strategy and every test.", "anchors": ["src/api.rs:generate_query", "src/api.rs:QueryParams", "src/utils.rs:random_ternary_vector"]}
{"id": "C103", "title": "A client that shows a parsed row can show which record it asked for", "statement": "The published columns are not checked. A server can publish columns for which every client, whatever its randomness and whatever (honest) public matrix is used, parses its own secret vector from a response of zeros (2 <= b <= 31); the secret and the query determine the index asked for (1 <= b <= 30). So a client whose parsed row becomes known to the server reveals the index, by an explicit computation. For keyword queries: with published columns of zeros the row parsed from a response of zeros is the list of masks of the key, so an attacker with a list of candidate keys with different masks finds the key from the row alone; with trap columns the row minus the masks of the right key is the secret, and the secret and the query give exactly the three slots of the key.", "quantifier": "all public matrices, client tapes, indices for which a query is produced, keys, digit sizes, both build profiles", "why_tests_cant": "The attack must work for every random tape, every index and every matrix.", "anchors": ["src/api.rs:generate_query", "src/api.rs:parse_resp_as_row", "src/api.rs:QueryParams::new"]}
{"id": "C104", "title": "What answering, asking and parsing do with any loaded object", "statement": "Shards and client objects can be loaded from files, so their fields need not fit together. For every value of the fields: answering returns the inner products of the query with the first ceil(elem_size/plaintext_bits) columns if plaintext_bits is not zero and those columns exist and have the query's length, and panics otherwise (m and the published parameters play no part, no error is returned); asking returns the reuse error and changes nothing if the object was used, and otherwise spends it and panics, fails or returns the shifted mask according to plaintext_bits modulo 2^32 and the mask's length; parsing panics exactly when plaintext_bits is zero, is at least 32 modulo 2^32, is zero modulo 2^32 with a digit to parse, or the response or the right-hand side is too short, and otherwise returns the rounded digits; keyword objects without filter parameters return an error.", "quantifier": "all shard objects, client objects, queries, responses, indices and keys; both build profiles", "why_tests_cant": "It is a complete case split over every field value an object can be loaded with.", "anchors": ["src/api.rs:respond", "src/api.rs:generate_query", "src/api.rs:parse_resp_as_row", "src/db/index.rs:vec_mult", "src/db/kv.rs:vec_mult"]}
{"id": "C105", "title": "Digits of 32 bits or more", "statement": "plaintext_bits is not checked when a database is built. For plaintext_bits > 32 an index shard is built exactly when there are m >= 1 strings that decode and (unless elem_size is 0) an element fits in one digit and each has at most 4 bytes; the matrix is then one column of the elements' values; otherwise the first offending position decides between panic, base64 error and input-size error. Whatever was built with plaintext_bits (modulo 2^32) of 32 or more cannot be used: every client object panics when it asks for any index and on every response. A key-value shard with such plaintext_bits is never returned.", "quantifier": "all string lists, key-value lists, seeds, sizes, plaintext_bits >= 32, client tapes, indices, responses; both build profiles", "why_tests_cant": "It is a case split over all sizes and inputs.", "anchors": ["src/db/index.rs:construct_row", "src/db/index.rs:IndexDatabase::new", "src/api.rs:generate_query", "src/api.rs:parse_resp_as_row", "src/db/kv.rs:KVDatabase::new"]}
{"id": "C106", "title": "Machine-word size arithmetic does not change results", "statement": "Sizes are 64-bit words and their products are not checked. For every elem_size and plaintext_bits a word can hold, building an index shard or a key-value shard from strings has the same outcome (value, error or panic) as with unbounded numbers, in both build profiles, provided the decoded strings fit in memory (fewer than 2^63 bits each): a product that wraps around in release builds only occurs where the code panics anyway. Turning a row of digits into bytes has the same outcome for rows of fewer than 2^58 digits and plaintext_bits below 2^63; with plaintext_bits = 2^63 it panics on its allocation where unbounded arithmetic would succeed.", "quantifier": "all elem_size, plaintext_bits < 2^64, all strings, keys, seeds, m; both build profiles", "why_tests_cant": "It compares wrapping and exact arithmetic over all 64-bit sizes.", "anchors": ["src/db/index.rs:construct_row", "src/db/index.rs:get_row_width", "src/db/kv.rs:construct_row", "src/db/kv.rs:get_row_width", "src/utils.rs:bytes_from_u32_slice"]}
{"id": "C107", "title": "Published sizes and overhead", "statement": "For the database sizes of the Makefile (2^14, 2^16, ..., 2^20 pairs), with every logarithm accurate to 2^-50, the filter layout is one exact value; for 2^16 pairs with elem_size 8192 and plaintext_bits 10 every key-value shard that is built has exactly the sizes the README prints (segment length 2048, mask 2047, segment count length 73728, matrix height 77824, width 820), and queries and answers have the sizes that follow. The README's bound of 1.08 on all costs does not hold: for every number of pairs up to 3.8*10^9 a keyword query is more than 1.08 times as long as an index query to a database with the same number of records.", "quantifier": "all key-value contents, seeds, fillings, random tapes, queried keys and indices; all accurate logarithms; both build profiles", "why_tests_cant": "A test measures one database with one floating-point library; the claim covers every content and every rounding of the logarithm within its accuracy, and the overhead claim covers every size.", "anchors": ["README.md", "Makefile", "bff-modp/src/prelude/bfusep.rs:segment_length", "bff-modp/src/prelude/bfusep.rs:size_factor", "src/db/kv.rs:KVDatabase::new"]}
{"id": "C108", "title": "Asking again for the same row gives it away; asking again for a key does not", "statement": "Let a client ask n times for row i, each time with fresh query parameters whose mask is uniformly random (attempts that overflow send nothing), and let the server keep the rows whose word was at least 2^(32-b) in every query it received. Row i is always kept. A wrong row is kept for exactly a fraction (1 - 2^-b (1 - 2^-b))^n of the families of masks, so what is kept is exactly [i] but for a fraction (m-1) times that; 2^(b+1) (ln m + s) attempts are enough for all but a fraction e^-s. Keyword queries accumulate nothing: for any two lists of n keys and any test on everything that is sent, exactly as many families of masks make the test accept.", "quantifier": "all b in 1..31, numbers of rows, rows, numbers of queries, families of masks; for keywords all filter parameters, lists of keys and tests", "why_tests_cant": "Exact counts over ((2^32)^m)^n families of masks.", "anchors": ["src/api.rs: generate_query, QueryParams", "src/utils.rs: get_rounding_factor"]}
{"id": "C109", "title": "A client holding parameters of an earlier database: unchanged columns are exact, changed columns are uniform noise", "statement": "Let a client query with parameters published for an earlier database and let the server of a new database (same dimensions) answer. The exchange succeeds and nothing signals the mismatch. Digit j is read correctly iff the usual noise plus the secret times the public matrix times the change of column j stays within the rounding window; so if column j is the same in both databases the digit is read exactly as with current parameters. If digit j of some record i0 has changed, digit j read for any other record is uniformly distributed over the choices of row i0 of the public matrix, for every fixed secret that is not zero. The same holds for keyword lookups of any key when a filter cell of column j has changed.", "quantifier": "all build profiles, generators, seeds of both servers, pairs of databases of the same dimensions, rows or keys, query randomness; counts over all (2^32)^n values of a row of the public matrix (b <= 16 for the uniformity)", "why_tests_cant": "Exact counts over (2^32)^n rows, for all pairs of databases and all client randomness.", "anchors": ["src/api.rs: QueryParams, Shard::respond, QueryParams::parse_resp_as_row, KVShard, CommonParams", "src/db/index.rs: Database", "src/db/kv.rs: KVDatabase"]}
{"id": "C110", "title": "When the project's own tests pass", "statement": "Each end-to-end test of the project either passes or panics, and exactly when is determined by its random choices. The index test (ten queries) passes iff for each query the mask plus the rounding factor does not overflow and the noise is in the window for each column; for fixed nonzero secrets and noise in the window it passes for exactly a fraction (1-2^-b)^10 of the values of the public matrix rows, so as written (4096 strings, 11 plaintext bits) it fails for more than 1 in 206 and fewer than 1 in 205 of all matrices and noise samples. The reuse test fails for exactly one in 2^b (1 in 1024 as written). The keyword test passes whenever its shard is built, the key hashes differ and the noise is in the window; as written it then fails for fewer than one in 2^39 noise samples, but for at least 6 in 1000 of all tuples of key hashes the shard cannot be built and it panics. The filter tests pass whenever the filter is built, the hashes differ and the data are below the modulus; the one-key and one-pair tests always pass.", "quantifier": "all build profiles, random bytes of the strings and keys, generators, seeds, hash functions, client randomness; counts over all matrix rows and noise samples; sizes are parameters, then fixed to the literals of the tests", "why_tests_cant": "The tests are themselves random: one run cannot tell a test that fails in one run of two hundred from one that never fails, nor why.", "anchors": ["src/api.rs: tests::client_query_to_server_10_times, client_kv_query_to_server_10_times, client_query_to_server_attempt_params_reuse", "src/db/kv.rs: tests::check_consistent_retrieval, check_consistent_hashes, db_check_consistent_retrieval, attempt_actual_mult", "bff-modp/src/bfusep32.rs: test_initialization, test_hashes", "bff-modp/src/bfuse8.rs: test_initialization, test_build_failure_with_subtraction_overflow"]}
{"id": "C111", "title": "The documented size ordering of the filter families holds only from some size on", "statement": "The crate documentation says that an Xor filter is larger than a BinaryFuse and a Fuse filter of the same fingerprint size, and that BinaryFuse and Fuse filters are roughly equivalent in size. For filters built from equally many keys: from 100 to 15800 keys the BinaryFuse filter has more cells than the Xor filter (the documentation is wrong there), from 100000 keys on it has fewer; the Xor filter always has more cells than the Fuse filter; from 90 to 10000 keys the BinaryFuse filter has at least 9% more cells than the Fuse filter, from a million keys on the two differ by at most 2% of the number of keys.", "quantifier": "all numbers of keys up to 3.8 billion, all keys, build profiles, fingerprint sizes, initial contents, and every logarithm routine accurate to 2^-50", "why_tests_cant": "Ranges over all key counts and key sets and over the rounding of the floating-point size formulas.", "anchors": ["bff-modp/src/lib.rs: crate documentation", "bff-modp/src/prelude/bfuse.rs: segment_length, size_factor", "bff-modp/src/prelude/xor.rs", "bff-modp/src/prelude/fuse.rs: FUSE_OVERHEAD"]}
{"id": "C112", "title": "The outcome of a construction in a debug build is determined exactly, whatever the slot load", "statement": "In a debug build, for well-formed input with different hashes: BinaryFuseP32::from_slice panics if and only if some slot is used by 64 or more keys; otherwise it returns a filter if and only if the keys can be peeled and the construction error otherwise. KVShard::new returns a shard if and only if no slot is used by 64 or more keys and the keys can be peeled, and panics in every other case. BinaryFuse8/16/32::try_from goes through its 1000 seeds: the first one under which a slot is overloaded (panic) or the keys can be peeled (filter with that seed) decides, and if there is none the construction error is returned.", "quantifier": "all key sets of any size with different hashes, all data, labels, moduli from 256 to 2^32, seeds, initial contents and fingerprint widths", "why_tests_cant": "Overload of a slot by 64 keys never happens for random keys, so no test meets that case, and the equivalence ranges over all key sets and up to 1000 rounds.", "anchors": ["bff-modp/src/prelude/bfusep.rs: bfusep_from_impl", "bff-modp/src/prelude/bfuse.rs: bfuse_from_impl", "bff-modp/src/bfusep32.rs: from_slice", "src/db/kv.rs: KVDatabase::new", "src/api.rs: KVShard::new"]}
{"id": "C113", "title": "Too many rows for the digit width make retrieval fail for a constant fraction of the random choices", "statement": "The mean square of the noise of a column c over the client's error sample is v = (2863311528/4294967293)\u00b7\u03a3 c\u00b2. As soon as v is at least the square of half the scaling factor, 2^(31-b), at least a fraction (1 - 4^(31-b)/v)\u00b2/3 - 2\u00b7exp(-3\u00b74^31/(4\u00b7\u03a3 c\u00b2)) of the error samples gives a wrong row, for every secret and every index of an index database, and for every stored key of a key-value database. In particular, on a database of m all-ones records with 3\u00b74^(31-b) <= m\u00b7(2^b-1)\u00b2 <= 2^59, at least one error sample in 13 fails, for every index and every secret, although construction, query and answer raise no error because of it.", "quantifier": "all databases, row numbers, digit widths 1 to 31, element sizes, LWE seeds and dimensions, secrets, indices or stored keys, both build profiles; the counts range over all error samples", "why_tests_cant": "A fraction of the 4294967293^m error samples, for every database and secret, cannot be counted by running samples; the repository's tests use small databases, for which the noise is negligible.", "anchors": ["src/api.rs: QueryParams::generate_query, QueryParams::parse_resp_as_row", "src/utils.rs: lwe::random_ternary", "src/db/kv.rs: KVDatabase::new"]}
{"id": "C114", "title": "Retrieval from random databases fails far more rarely than the worst-case bound", "statement": "Fill an index database of m records of L bytes with random bytes, as the benchmarks and tests do. Among all pairs of such a database and an error sample of the client, at most a fraction width\u00b72\u00b7exp(-3\u00b74^(31-b)/(4\u00b7m\u00b7q)\u00b7(1 - correction)) gives a wrong row, where q is the mean square of a uniform b-bit digit (about a third of the square of the largest digit), for every secret, seed, and index; and a shard is built from every such database. At the parameters of the Makefile this is below 2^-40 (2^18 rows in 10-bit digits) and below 2^-85 at all others.", "quantifier": "all numbers of rows, record lengths, digit widths 1 to 31, element sizes, LWE seeds and dimensions, secrets, indices, both build profiles; the count ranges over all databases and all error samples", "why_tests_cant": "256^(L\u00b7m)\u00b74294967293^m pairs of a database and an error sample; an event of probability 2^-40 or less cannot be observed by running.", "anchors": ["src/api.rs: QueryParams::generate_query, QueryParams::parse_resp_as_row", "src/db/index.rs: IndexDatabase::new", "src/utils.rs: lwe::random_ternary", "benches/bench.rs: generate_db_eles", "Makefile"]}
{"id": "C115", "title": "The matrix of a key-value database of random values is uniform, whatever the keys, and retrieval fails as rarely as for random index databases", "statement": "Fix keys for which a key-value database can be built. Whether it can be built depends neither on the values nor on the random initial contents of the filters; over all values (rows of b-bit digits) and all initial contents, every matrix of digits is the server's matrix equally often. Consequently, among all triples of values, initial contents and error samples, at most the fraction width\u00b72\u00b7exp(-3\u00b74^(31-b)/(4\u00b7N\u00b7q)\u00b7(1 - correction)) makes the exchange for a stored key return a wrong value (N slots of the filter, q the mean square of a uniform digit), for every secret. At the parameters of the Makefile this is below 2^-32 (2^18 keys in 10-bit digits) and below 2^-68 at all others.", "quantifier": "all sets of keys for which construction succeeds (in release builds: with fewer than 64 keys per slot), filter seeds, digit widths 1 to 31, element sizes, labels, LWE seeds and dimensions, secrets, stored keys, both build profiles; the counts range over all values, all initial contents and all error samples", "why_tests_cant": "Equality of the frequencies of (2^b)^(N\u00b7width) matrices over all values and all random fills, and an event of probability 2^-32 or less, cannot be observed by running.", "anchors": ["bff-modp/src/bfusep32.rs: BinaryFuseP32", "bff-modp/src/prelude/bfusep.rs: bfusep_from_impl", "src/db/kv.rs: KVDatabase::new, StorageFilters::from_kvs", "src/api.rs: generate_query, parse_resp_as_row"]}
{"id": "C116", "title": "Failure and success rates over the raw output of the random generator, for single requests and for whole adaptive sessions", "statement": "Let the client's randomness be any L words of the operating system's generator, rejected words included, from which secrets and errors are drawn one after the other. (a) Given that enough words are left, the error vector of a request is distributed exactly as if only accepted words were drawn, independently of the secret. (b) N samples need more than N+r words with probability at most (3(N+r)/2^32)^(r+1). (c) An exchange for a row, or for a stored key, returns a wrong answer with probability at most failureBound (the bound of C56). (d) A session of k requests with fresh parameters each, in which every row or key may be chosen by any rule from all earlier answers, contains a wrong answer with probability at most k times that; 2^20 requests at the default sizes: below 2^-38. (e) With r words to spare, a keyword exchange returns exactly the stored value, and an index exchange returns exactly the row or stops with the overflow error before anything is sent, with probability at least 1 minus the bounds of (c) and (b).", "quantifier": "all databases, digit widths 1 to 31, LWE dimensions and generators of the public matrix, both build profiles; all lengths L, session lengths k, selection rules and events on the error vector; counts range over all (2^32)^L outputs of the generator", "why_tests_cant": "The counts range over (2^32)^L outputs; rejections have probability 2^-30 per word and wrong answers 2^-58, and selection rules are arbitrary functions of the past.", "anchors": ["src/utils.rs: random_ternary, random_ternary_vector", "src/api.rs: QueryParams::new, generate_query, parse_resp_as_row", "src/db/mod.rs: CommonParams::mult_left"]}
{"id": "C117", "title": "Random keys: overloaded slots, hangs, lost keys and colliding hashes are negligible", "statement": "(a) For N independent uniform 64-bit keys, any fingerprint width and any geometry, the release-build BinaryFuse constructor reports FilterFailed or returns a filter that contains every key, except for at most a 1000 * cells * C(N,64) * (hits/2^64)^64 share of the key tuples, where hits bounds the number of hashes that touch a slot. (b) At the sizes the library computes, up to 2^24 keys, that share is below 2^-100: the endless loop of C80 and the lost keys of C82 and C100 do not happen by chance. (c) For key-value databases there is, for each size N up to 2^24, a set of tuples of key hashes, at most a N^2/2^65 share of all, outside of which KVShard::new in a release build panics (keys not peelable) or returns a shard that serves every entry, for all values, seeds and client randomness, under the noise condition of C04 alone: no hypothesis on collisions or slot loads remains.", "quantifier": "all key counts, geometries, fingerprint widths and initial cells; counts range over all (2^64)^N tuples of keys or key hashes; all databases, filter seeds, LWE dimensions, generators of the public matrix and client tapes", "why_tests_cant": "The exceptional tuples are a 2^-100 share of (2^64)^N; random tests never meet one, and cannot bound how many there are.", "anchors": ["bff-modp/src/prelude/bfuse.rs: hash_of_hash, bfuse_from_impl", "bff-modp/src/bfusep32.rs: BinaryFuseP32::from_slice", "src/api.rs: KVShard::new, respond, parse_resp_as_row", "src/db/kv.rs: KVDatabase::new"]}
{"id": "C118", "title": "Error messages tell sizes and fixed sentences, never secrets or data", "statement": "(a) Whatever random words are drawn, preparing a request (QueryParams::new, index or keyword) has no error if all columns of the public matrices have dim words, and otherwise fails with 'Unexpected input size error: row_len: <dim>, col_len:<length of the first column that differs>,': the message is decided by public data alone. (b) generate_query fails only with one of two fixed sentences (reused parameters; for index requests: overflow; for keyword requests: missing filter parameters), which contain neither the row or key nor the masks; for keyword requests their appearance depends on neither. (c) bits_to_u32_le fails exactly for more than 32 bits, and its message gives the number of bytes; the message of its code path that would print the bytes never appears. (d) The size message determines both lengths, and all four messages differ. (e) The model with texts has the same outcomes and error kinds as the model without.", "quantifier": "all public matrices, parameters, random tapes, rows, keys, masks, bit strings; both build profiles", "why_tests_cant": "That no input and no secret changes the text is a statement about all of them; a test sees one message at a time.", "anchors": ["src/errors.rs: Display for ErrorUnexpectedInputSize, ErrorQueryParamsReused, ErrorOverflownAdd", "src/utils.rs: vec_mult_u32_u32, bits_to_u32_le, u32_sized_bytes_from_vec", "src/api.rs: QueryParams::new, generate_query", "src/db/mod.rs: mult_left, mult_right"]}
{"id": "C119", "title": "Debug output of the client state gives away the request", "statement": "QueryParams derives Debug. (a) There is one reader that, from what {:?} prints for an index client's QueryParams (before or after the request) and the query on the wire, tells the row asked for. (b) There is one reader that tells the three slots of the key asked for from a keyword client's print and query. (c) Clients whose QueryParams print the same vectors parse every response alike, so the print and the response give the row itself.", "quantifier": "all masks, digit widths 1 to 31, rows, keys, geometries, texts of the remaining fields; both build profiles", "why_tests_cant": "The existence of one reader that is right for every client state is a statement over all states; it needs the printed text to be uniquely readable.", "anchors": ["src/api.rs: derive(Debug) on QueryParams, generate_query, parse_resp_as_row"]}
{"id": "C120", "title": "How often a key-value database cannot be built: at least one filter seed in a thousand, one in 64 for two entries", "statement": "The filter seed of KVShard::new is drawn once and not changed on a retry, so two keys whose hashes select the same three cells make it panic. (a) At a size whose filters have segments of L cells, k of them holding first cells, at least a 1 - exp(-7/16 N(N-1)/(k L^3)) - N^2/2^65 share of all tuples of N key hashes makes KVShard::new panic in either profile, whatever the values and the other parameters. (b) At the sizes the library computes that share is at least 1/1000 for every N from 2 to 2^24. (c) A database of two entries with different key hashes panics exactly if the hashes agree in bits 62-63, 18-19 and 0-1, and is built otherwise; 2^122 - 2^64 of the 2^128 pairs of hashes are such pairs. (d) At the number of entries of the keyword test in src/api.rs (2^12), of the command line's default (2^16) and of the keyword benchmarks in the Makefile the share is at least 6/1000 (3/1000 for 2^17 and 2^19 entries).", "quantifier": "all sizes 2 to 2^24, all tuples of key hashes, databases, filter seeds, initial cells, LWE dimensions, element sizes and widths, both build profiles, every accurate logarithm", "why_tests_cant": "The share ranges over (2^64)^N hash tuples for every N, and the panic must hold for all values and parameters; a test meets it only now and then, as a flaky failure.", "anchors": ["bff-modp/src/prelude/bfusep.rs: bfusep_from_impl", "bff-modp/src/prelude/bfuse.rs: segment_length, size_factor, hash_of_hash", "bff-modp/src/bfusep32.rs: BinaryFuseP32::from_slice", "src/db/kv.rs: KVDatabase::new", "src/api.rs: KVShard::new"]}
{"id": "C121", "title": "How much work the operations do, and that it depends on public sizes only", "statement": "(a) Whenever a shard answers a query it has done exactly (row width) * (length of the query) 32-bit multiplications; computing the public parameters takes exactly (row width) * (LWE dimension) * (rows of the matrix); preparing query parameters takes exactly (LWE dimension) * (columns of the public matrix + row width of the parameters): whatever the database, the query, the seed and the secrets contain. (b) KVShard::new passes over the key set at most 100000 times per word of the first value, on every input. (c) For a well-formed key-value database (distinct hashes, no slot with 64 keys) it makes exactly one pass per column and returns a shard, or exactly 100000 passes and panics; for two records at the sizes the library computes the second case is exactly that the hashes agree in the six bits of C120; at every size from 2 to 2^24 records it is met by at least one in a thousand tuples of key hashes. (d) For distinct keys and no overloaded slot, BinaryFuse8/16/32 and Fuse8/16/32 hash the whole key set t+1 times if seed number t of the splitmix sequence is the first under which the keys can be peeled, and 1000 times if none of the first 1000 is; Xor8/16/32 likewise, without a limit.", "quantifier": "all databases, queries, parameters, public matrices, seeds, random tapes, sizes, both build profiles", "why_tests_cant": "A test can time one run; that the number of operations is the same for every query and database of the same size, and that a failing construction always runs its full 100000 passes, are statements about all runs.", "anchors": ["src/utils.rs: vec_mult_u32_u32", "src/api.rs: Shard::respond, KVShard::respond, KVShard::new, generate_index_query_params, generate_kv_query_params", "src/db/mod.rs: generate_params_rhs, mult_left, mult_right", "src/db/kv.rs: StorageFilters::from_kvs, KVDatabase::new", "bff-modp/src/bfusep32.rs: from_slice", "bff-modp/src/prelude/bfusep.rs: bfusep_from_impl", "bff-modp/src/prelude/bfuse.rs: bfuse_from_impl", "bff-modp/src/prelude/fuse.rs: fuse_from_impl", "bff-modp/src/prelude/xor.rs: xor_from_impl"]}
{"id": "C122", "title": "What the published parameters and a whole adaptive session reveal about the database", "statement": "(a) A client who knows the published parameters and then sends K queries, each chosen from the parameters and all earlier responses, cannot learn more than 32*(LWE dimension + K) bits of the first digits: for any such strategy and any records (keys) whose first digits hold more bits than that there are two databases, equal everywhere else and different in one of these digits, with equal parameters and equal responses throughout. (b) The parameters are worth that much: whoever holds them computes without the server the response to every query that is a weighted sum of the columns of the public matrix; in particular weights under which row i of the public matrix weighs 1 and all other rows 0 turn the parameters into all digits of record i, so a database of no more records than the LWE dimension may be given away entirely without a query. (c) It nearly always is: for m records and LWE dimension n >= m, for all but a share 2^(m-n) of the public matrices there are weights, depending on the matrix only, that turn the published parameters of any such index server into all digits of all its records, and the parameters of any key-value server with m matrix rows into its whole matrix, from which the value of every stored key can be read. Holds for index and key-value servers ((a) and the first part of (b)).", "quantifier": "all strategies and numbers of queries, all databases from which a server can be built, sizes, digit widths up to 31, public seeds, weights", "why_tests_cant": "It is about every strategy, with responses fed back into later queries, and about the existence of indistinguishable databases.", "anchors": ["src/api.rs: Shard::get_base_params, Shard::respond, KVShard::respond", "src/db/mod.rs: generate_params_rhs, CommonParams", "src/db/index.rs: IndexParams::new", "src/db/kv.rs: KVParams::new, vec_mult"]}
