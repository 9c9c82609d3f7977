# Formal model of claucece/chalamet in Lean 4 — design

## 1. Method

`/verif/lean/Verif` contains an executable functional model of the Rust code in `/repo`
(function by function, each definition citing file and lines), small independent
specifications (`Verif/Spec.lean`), helper lemmas, and property theorems (`Verif/Props/*.lean`).
Property theorems live apart from the helper lemmas.

* **Outcomes.** Every fallible Rust function returns `Res α` = `ok a | err e | panic | diverge`.
  `err` is `Result::Err`; `panic` is any Rust panic (index out of bounds, `unwrap`, division by
  zero, checked overflow, `debug_assert`); `diverge` is a `while`/`loop` that does not end (or a
  random tape that is used up by rejection).
* **Mutation** (`&mut self`) returns the new value, also when the call fails.
* **Integers.** `u8/u32/u64/u128` values are `BitVec n` (wrapping where Rust wraps). Where plain
  `+`/`-` is used on a machine integer and the result depends on the build profile, the model
  takes a `Profile` (`debug`: overflow panics and `debug_assert!` is active; `release`: wraps).
  `usize` is `Nat` (unbounded): lengths beyond 2^64 do not exist in memory; C106 proves that 64-bit size
  products give the same outcomes.
* **Randomness** is an explicit argument: `OsRng` is a tape of u32 words, seeds are arguments, the
  contents `make_fp_block!` puts in unused slots are an arbitrary initial array.
* **Floating point** (`segment_length`, `size_factor`, Xor/Fuse capacities, the exact `i as f64/8`
  floor): the two numbers the filter code obtains from libm (shift exponent and capacity) are
  *arbitrary* parameters, so theorems hold whatever libm returns. `floor(i/8)` is `i / 8`
  (exact for i < 2^53).
* **External crates**: `StdRng` (ChaCha) is an arbitrary function from seed and position to words;
  SHA-256 an arbitrary function to 32 bytes; `bincode` and `base64` are modelled concretely from
  their documented formats; `serde_json` at the level of JSON trees (C99 connects trees and texts); `hashbrown::HashMap` is an
  association list with last-insert-wins.

## 2. Properties: what is modelled, how it is proved

| id | model | proof |
|----|-------|-------|
| C01 C04 C52 | whole client/server pipeline | linear algebra over `BitVec 32` as a commutative ring: response - rhs = D*selected + noise; rounding lemma; filter correctness; codec |
| C02 C19 | `lwe`, rounding in `parse_resp_as_row` | integer arithmetic, exact iff |
| C03 | ternary vectors, DB digits | bound on the noise sum by induction |
| C05 | `generate_query` as a state transition | induction over call history |
| C06 C08 | index query | refuted with witness; exact success condition and output support |
| C07 | keyword query | explicit inverse (subtract) |
| C09 | two queries from one mask | ring identity |
| C10-C14 C17 C18 | `utils::format`, `construct_row` | little-endian integer semantics `leNat`; induction. C14 refuted, exact output proved |
| C15 | RFC 4648 codec | induction over 3-byte groups |
| C16 | `into_row_iter` | composition |
| C20 C21 | `respond`, `vec_mult` | induction; ring |
| C22 | bincode of a `Vec<u32>` | induction |
| C23 C24 C25 | matrices, params | induction |
| C26 C27 | `random_ternary` on a tape | induction; counting over intervals (C27 refuted, exact counts) |
| C28 C29 C30 C34 C38 | complete `bfusep_from_impl!` (bucketing, counting, duplicate removal, peeling, assignment) | loop invariants with a ghost multiset of remaining hashes |
| C31 C37 | geometry, `hash_of_hash` | power-of-two xor stays in segment |
| C32 C46 | `mix64`, `splitmix64` | explicit inverses |
| C33 | `mix256` | commutativity of the fold |
| C35 | modulus not dividing 2^32 | refuted by a concrete run evaluated in the kernel |
| C36 C39 | client unmasking | congruence mod 2^b |
| C40 | `bfuse_from_impl!` | same invariants, xor algebra |
| C41 C42 | `xor_from_impl!` | peeling invariants; duplicates are never peeled |
| C43 C44 | `fuse_from_impl!` | peeling invariants; C44 refuted |
| C45 | `HashProxy` | composition |
| C47 C48 C49 | JSON trees, abstract file system | case analysis; C47/C48 refuted for every input |
| C50 C51 | key derivation, KV construction | little-endian injectivity; case analysis |
| C53 | `fuse_from_impl!` on duplicate keys | two equal keys are never both peeled (peeling completeness) |
| C54 C55 | serde derive output as JSON trees; `from_json_file` | case analysis, induction over arrays |
| C56 | the ternary sampler and the noise sum | exponential tail bound with the variance of a ternary sample (1 + 2 cosh x <= 3 exp(x^2/3), termwise), counting samples (no measure theory); keyword sizes through C76; evaluated at the benchmarked parameters |
| C57 | the peeling loops of all four filters | peeling is confluent: any maximal removal sequence empties the key set iff some order does |
| C58 | every function taking a `Profile` | relation `Agree` (debug panics or equals release) preserved by all constructs |
| C59 C60 | `parse_resp_as_*` on arbitrary words | exact formula for each coordinate; ring identity |
| C61 C62 C63 | shard construction and the key-value row iterator end to end | the first failing position decides (`mapRes` over a range); C57 and C29 per column; digits of a Horner sum |
| C64 C65 | the hash-to-cell maps inverted; index and key-value query generation over all masks | explicit preimages through the bijections of C46 and 21-bit windows; exact counting over `Fin m → Fin 2^32` |
| C66 | filter construction as a function of the initial array contents | every cell is an xor-affine function of the initial cells; the verdict is constant or equidistributed |
| C67 C68 | histories of API calls by any number of client objects (`Model/System.lean`), objects copied, messages reordered, repeated, delayed | invariant by induction over the history, combined with C01, C04, C09 |
| C69 | keyword client objects restored without filter parameters | case analysis |
| C70 C71 | `KVShard::respond` on arbitrary queries; all messages of both protocols | ring identity per column; lengths through `mapRes` |
| C73 | keyword queries with arbitrary (server-supplied) filter parameters; overflow checks of `hash_of_hash` in debug builds | case analysis on the checked additions; explicit inverse |
| C72 | `pi-rs-cli-utils` (`Model/Cli.lean`) against an independent notion of decimal numeral | induction over digits, case analysis |
| C74 C75 C76 | the `f64` size computations (`Model/Float.lean`: rational numbers rounded to 53 bits, ties to even; `libm::log` an arbitrary function, assumed accurate to 2^-50 in C76) | error analysis of each rounding; exactness because the products stay within half an ulp of integers; pigeonhole on peeling orders (C57) |
| C77 | whole client runs over all tapes of accepted words; frequencies are rational numbers | the mask is literally an LWE sample; uniform masks are handled by C65 per query and a hybrid argument over independent queries; triangle inequality |
| C78 | `contains` of fixed binary fuse and Xor filters, counted over all 2^64 keys | `mix` is a bijection (C32); group hashes by the bits that only the fingerprint sees; the first (last) slot is monotone in the rest, so its growth bounds the error |
| C79 | the four constructions as in-place array programs (`Model/Arrays.lean`): fixed arrays, size variables, tables reused between attempts, `while` loops with fuel | simulation of the list-level construction step by step; the list model's potential function bounds the loops |
| C80 | one attempt of the binary fuse constructions on 64 hashes with a common slot, both profiles | counter arithmetic mod 256 gives `error`; `continue` leaves the order array full, so the probing loop of the next attempt tests every bucket forever; keys by inverting `mix` |
| C81 | `mix256` as a function of one seed word | composition of bijections, then counting the solutions of `4 u = 4 v` |
| C82 | one attempt of the binary fuse construction on 96 literal keys, symbolic initial cells, sizes in floating point | literal states of the run checked one by one in the kernel (`decide +kernel`, closed terms); cells as a constant xor a set of initial cells, so the two lookups differ for all contents, widths and logarithms; debug panic from C40 and C58 |
| C83 | the serde derives on arbitrary JSON trees, `IndexParams::load` | every decoder is the partial inverse of its encoder (`dec j = ok a ↔ j = enc a`); `Record` (specification) characterises the fields of a struct |
| C84 | the serde derives of all filter types and of `HashProxy` on arbitrary JSON trees | as C83: each decoder is the partial inverse of its encoder, `Record` for the fields; round trip from both |
| C85 | `contains`/`retrieve` of filters with arbitrary fields, with the overflow checks of debug builds | the slots as numbers (`hashOfHash_nat`), three bounded reads; unsafe keys exist because `mix` is a bijection and one chosen hash attains the largest slot |
| C86 | `data/generate_db.py` (`Model/GenDb`), including Python's integer syntax, and loading its file | the document by unfolding; loading through C55/C61 and the digit codec; digits depend on a prefix of the bytes only |
| C87 | histories of `generate_query` calls and writes to the public flag; benchmark loop and data (`Model/Bench`) | induction over the history, then C09 and C01 |
| C88 | the counting loop of `analysis/src/zeroes.rs` (`Model/Zeroes`) | loop invariant by induction |
| C89 | sizes computed by the constructors (`Model/Fuse`, `Model/BFuse`, `Model/Float`) | C74/C76 sizes; logarithm enclosed by exact real bounds |
| C90 | `DatabaseMatrix` methods of the index database (`Model/Db`) | shard inversion, transposition lemmas (C23) |
| C91 | the constructions of the three index filters with their computed sizes | explicit hashes with increasing pivots (surjectivity of the slot functions, C64), inverted through the bijective mixer (C32), peelable by construction (C57) |
| C92 | full index and keyword exchanges (`indexExchange`, `kvExchange`) | the noise is a signed partial sum of a column: bounded by the column sum; conversely prefixes of equal errors step over the window boundary; explicit random words realise them |
| C93 | `Shard::respond` for arbitrary vectors | packing with weights `2^(b*t)` (digits do not interfere below `2^32`); pigeonhole on `2^(b*k) > 2^32` databases per digit column; key-value: the packed query is a combination of the three slot units of each key (Props/KvReveal) |
| C94 | query parameter generation for arbitrary public matrices, both query kinds | masks of zero columns are single ternary errors; adding `D` makes exactly the queried words non-ternary |
| C95 | The array program of the assignment loop is an affine map of the initial contents over `ZMod (2^b)` (Lemmas/FillP); a retrieved value is an affine form whose linear part does not depend on data, label or column; counting solutions of an affine equation gives the exact distribution, per filter and jointly for all columns of a `KVDatabase` (Props/AbsentKeys). |
| C96 | serde-derived JSON readers/writers of the four types (Model/Serde); accepted iff `Spec.Record`; totality; round trip (Props/Serde). |
| C97 | bincode readers and writers as byte-list functions (Model/Serde); one notion `Faithful` (reads exactly what is written) closed under integers, sequences, options and fields, hence for every type; truncation, injectivity and round trip follow once; sizes by counting; shards built by the constructors fit (Props/Serde). |
| C98 | `write_to_file` of both kinds of shard (Model/Files); contents as JSON records, injectivity of the encodings; two shards from the same records and different element sizes write the same files (Props/Written). |
| C99 | JSON texts: printer, reader (recursive descent), files as texts with a crash point at every character (Model/JsonText); the grammar of RFC 8259 as an inductive relation (Lemmas/JsonText); reader sound and complete for it, no proper beginning of an array or object is a document, refinement of the files of Model/Files (Props/JsonText). |
| C100 | 96 hashes, written down; the run of the release construction on them evaluated in the kernel from one literal state to the next, for all keys with these hashes, seeds, values and initial contents at once (the run depends on the hashes only); the resulting stack omits one hash, so the assignment never reads its value; independence of the columns, hence of the shard, of that value; misreading by C39_row_value and uniqueness of cell values (Props/KvLoss). |
| C101 | the benchmark program: data, shard, client and database benchmarks with arbitrary iteration counts (Model/Bench) | composition of C06, C20/C70, C22, C25, C52, C59, C61, C87, C90: each loop body is deterministic, so each loop returns the same value any number of times; the first failing rebuilding decides (Props/BenchRun) |
| C102 | sessions of queries with fresh parameters, each for a key/index chosen from everything seen (Props/Adaptive) | induction on the number of queries with the uniform-mask bounds of C65 for every history; hybrid argument over the position of one sample, exchanging one coordinate of the draws |
| C103 | `generate_index_query_params`, `generate_query`, `parse_resp_as_row` with attacker-made columns (Props/Reaction; keyword queries: Props/KvReaction) | the columns `2^(32-b) e_j` make the decryption of zeros minus the secret; subtracting `s·A` from the query leaves the ternary error except at the index |
| C104 | `respond`, `generate_query`, `parse_resp_as_row` of both kinds on objects with arbitrary fields (Props/AnyObject) | case split on `plaintext_bits` modulo `2^32` (casts and shifts), first bad column or digit of a `mapRes` over a range |
| C105 | `construct_row`, `from_base64_strings`, `KVShard::new` with `plaintext_bits` of 32 or more (Props/Wide) | case split on the first two digits of a row; the modulus cut to 32 bits is zero; C104 |
| C106 | size arithmetic of `construct_row`, `get_row_width`, `bytes_from_u32_slice` in 64-bit words (Model/Usize) against the `Nat` model | a wrapped end bound is below its start, so the slice panics in both; otherwise nothing wraps |
| C107 | sizes published in README/Makefile: `bfLayout` at 2^14..2^20 with any accurate logarithm, `KVShard.new`, query and response lengths | two-sided rational bounds on `log` ratios pin the rounded segment exponent and the number of segments; the overhead bound uses C76 (height ≥ 1.125 n) |
| C108 | families of ideal masks for `n` calls of `generate_query` for one row (index) or any keys (keyword); the observer keeps the rows never below `2^(32-b)` | a family of masks is a product, so the survivors are counted per query (C65) and multiplied; union bound over the rows and `1 - x ≤ e^-x`; for keywords the query is a permutation of the mask, applied componentwise |
| C109 | parameters built from one database, response computed by a shard of another (`staleRead`, `staleKvRead`) | the value parsed is record + carry of (noise + secret · A · change of the column); zero change gives the current-parameters criterion; otherwise the row of the public matrix that meets the changed cell is shifted by a multiple that adds `2^(32-b)`, so all digits are equally frequent |
| C110 | the `#[test]` functions of `src/api.rs`, `src/db/kv.rs` and `bff-modp` as programs whose failing assertion or `unwrap` is a panic (`Model/Tests`); the literals of the tests are parameters, fixed in the theorems about the tests as written | each test reduced to the criteria of C03/C06/C07/C28; counting over rows of the public matrix (each row overflows for exactly one in `2^b` values) and over noise (Hoeffding bound of C50/C55); one-key tests by existence of a peeling order |
| C111 | cells of the three families from C74 (`Xor`, `Fuse`) and C76 (binary fuse, any accurate `log`) | bounds on the ideal capacity from `n^k ≤ 10^j`, segment length against `n` through logarithms; hypotheses met by C91 |
| C112 | debug constructions without the load hypothesis of C57/C62 | the counting pass returns a value or panics; a value means every counter fitted (`count_debug`), which with different hashes bounds every slot load; C57/C62 for the other cases; induction on the rounds for BinaryFuse |
| C113 | lower bound on the failure rate (companion of C56, an upper bound, and C92, single samples) | second and fourth moments of the noise over all samples by induction on the number of rows (`Lemmas/Moments.lean`), Paley–Zygmund inequality, the Hoeffding tail for samples wrapping modulo 2^32; lifted to exchanges with C01 and C04 |
| C114 | average over databases of random bytes (companion of C56 for the workloads of the benchmarks and tests) | moment generating function averaged over the digits of a row (`Lemmas/RandomDb.lean`): sub-Gaussian bound for the ternary error, quadratic bound of exp on [0,1] for the digit; a digit of random bytes is uniform (or a shorter uniform digit at the end); Chernoff, union bound over the columns; lifted with C01 |
| C115 | distribution of the key-value matrix over values and random fills; mean failure rate of keyword retrieval | shifting the initial contents by δ and each datum by the sum of δ over the slots of its key shifts every cell by δ (induction over the assignment stack, `Lemmas/UniformKv.lean`); injections between the fibres give equal counts; then the tail bound of C114 column by column and C04 |
| C116 | failure and success rates counted over all `(2^32)^L` outputs of the generator; adaptive sessions with fresh parameters | recursion on the tape (`cntRaw_sampled`: 3 rejected words, 4294967293 accepted ones) gives exact conditional uniformity and shows that bounds survive preceding samples (`Lemmas/RawTape.lean`); then C01/C04, the tail bound of C56 and induction over the requests |
| C117 | key or hash tuples for which some slot is touched by 64 hashes, counted over all `(2^64)^N` tuples; colliding hashes | a slot is touched through its first cell by an interval of hashes, through the others by residue classes within intervals (`card_on`); choosing 64 of N keys bounds the tuples (`card_tuples`, `Lemmas/Overload.lean`); hashing 64-bit keys is a bijection (C32), so this carries over to keys; then C40, C62, C04 and the layout bounds of C76. For 256-bit keys the hash is not known to be uniform, so the count is over hash tuples |
| C118 | `Model/ErrText.lean`: the fallible functions with the text `Display` prints; forgetting the text gives the model | recursion over the columns: the first column of another length decides (`new_cases`); decimal digits end at the first non-digit, so the lengths can be read back |
| C119 | the text `{:?}` prints for `QueryParams`, the fields after the two vectors left open | the printed list is uniquely readable (`sep_cancel`), so the masks are a function of the text; then C06, C07 give the positions where query and masks differ |
| C120 | the tuples of key hashes of C117; `bfLayout` with the float sizes of C76 | every triple of cells belongs to at least 7/8 of its fair share of the hashes (`sig_card`), so `N` different triples are at most `prod (1 - i c)` (`card_distinct`); the float sizes give `N(N-1) >= 0.0024 k L^3` (`size_ratio`); two keys with the same triple are a core (C57, C62) |
| C121 | `Model/Cost.lean`: the same functions over outcomes with a counter, of multiplications (`src/utils.rs:84`) or of iterations of a retry loop (`bfusep.rs:77`, `bfuse.rs:129`, `fuse.rs:99`, `xor.rs:93`); additions, copies, hashing inside a pass and time are not counted | the counter is erased to the model (`*_fst`), so the counted functions are the modelled ones; counts by induction over the maps and folds; a failed pass leaves the initial state (`attempt_ok`), so all passes are alike |
| C122 | the servers of C20, C70 and C24; `transcript`, the responses to `K` queries each chosen from the earlier ones (a specification, no code) | pigeonhole on `n` words of the parameters and one word per response, the strategy unfolded by induction; exchange of inner products (`dot_transpose`) for the second part; for the third part rows independent modulo 2 have a right inverse modulo 2^32 (a lifted right inverse has a product with odd determinant, a unit), and at most `2^m` choices of coefficients each make a share `2^-n` of the matrices dependent |

Not expressible here: the hardness of LWE itself (C77 proves the reduction to it), timing, memory use, and the probability
over random hash seeds that a key set is peelable (C57 reduces construction failure to exactly that
combinatorial event).

## 3. Trusted base

* **Lean's kernel** (4.33.0) and the definitions it checks. No `native_decide`, no `bv_decide`, no
  own axioms. Every property theorem depends on a subset of `propext`, `Classical.choice`,
  `Quot.sound` (checked with `#print axioms` over all of `Verif/Props`).
* **The model is the program**: the theorems are about `Verif/Model/*.lean`. The correspondence to the
  Rust text is by reading; each definition cites its source lines and its simplifications.

Modelled (model file: source):

| model | source |
|-------|--------|
| `Utils` | `src/utils.rs` (format, matrices, lwe modules), the sampler on a tape |
| `Base64` | crate `base64` STANDARD engine, encode and decode (external, from RFC 4648 and the crate's documented padding policy) |
| `Bincode` | crate `bincode` for `Vec<u32>` (external) |
| `Db` | `src/db/mod.rs`, `src/db/index.rs`, `src/db/kv.rs` |
| `Api` | `src/api.rs` |
| `Usize` | size arithmetic of `src/db/*.rs`, `src/utils.rs` in 64-bit words, compared with `Db`/`Utils` by C106 |
| `Files` | file functions of `src/api.rs` and `src/db/*`, serde derive output as JSON trees |
| `JsonText` | `serde_json::to_writer`, `from_str`, `from_reader` (external, from RFC 8259), `json.dump` of a list of strings; the file functions on texts |
| `Hash` | `bff-modp/src/murmur3.rs`, `splitmix64.rs`, `prelude/mod.rs`, hash functions of the four preludes |
| `BFuse` | `bff-modp/src/prelude/bfusep.rs`, `prelude/bfuse.rs`, `bfusep32.rs`, `bfuse8/16/32.rs` |
| `Cli` | `pi-rs-cli-utils/src/lib.rs`, `str::parse` for unsigned integers and booleans (external) |
| `Float` | `f64` arithmetic of `bff-modp/src/prelude/{bfuse,bfusep,xor,fuse}.rs` and `src/utils.rs:174` (IEEE 754 binary64 as rounded rationals; exponent range unbounded) |
| `Arrays` | `bff-modp/src/prelude/{bfusep,bfuse,fuse,xor}.rs`, the same constructions at the level of mutable arrays; `BFuse` and `Fuse` are proved equal to it (C79) |
| `System` | histories of API calls (not a file of the repository) |
| `FilterSerde` | serde derives of `bff-modp` (`bfuse*.rs`, `fuse*.rs`, `xor*.rs`, `hash_proxy.rs`) as JSON trees, lookups with overflow checks |
| `Serde` | serde derives of `src/api.rs` and `src/db/*` as JSON trees and as `bincode` bytes (external format) |
| `GenDb` | `data/generate_db.py` |
| `Bench` | data and loops of `benches/bench.rs` |
| `Zeroes` | `bff-modp/analysis` counting loop |
| `Tests` | test modules of `src/api.rs`, `src/db/kv.rs`, `bff-modp/src/bfuse*.rs`, `bfusep32.rs` |
| `Fuse` | `bff-modp/src/prelude/fuse.rs`, `prelude/xor.rs`, `hash_proxy.rs`, `fuse*.rs`, `xor*.rs` |

Not modelled: the command-line grammar of crate `clap`, timing in `benches/` (the drivers, their loops and the
random data are modelled, `Model/Bench`; the criterion runner is not), plotting in `bff-modp/analysis` (the counting loop is modelled, `Model/Zeroes`),
console text of the programs (error messages and debug output are: C118, C119); of Python only what `data/generate_db.py` uses (`Model/GenDb`);
`OsRng`, `StdRng`, SHA-256 and libm are arbitrary functions/arguments (section 1); `Vec` allocation failure; files are a map from paths to contents, with crash points between system calls
(C49) and after every character of a write (C99).

## 4. Findings (all proved as theorems)

* C06/C08: a fresh index query fails with `OverflownAdd` for some masks, consumes the parameters, and
  its support depends on the queried index.
* C14: when `plaintext_bits` divides `elem_size` the last digit contributes no bits to the decoded
  bytes.
* C30/C57: retrying filter construction never helps (the seed does not change).
* C33/C34: `mix256` ignores the order of the four key words; colliding keys share one datum.
* C35: only moduli dividing 2^32 are correct; C27: the ternary sampler is biased by one value.
* C42/C45: `Xor` filters never terminate on duplicate keys or hash collisions; C44: `Fuse` filters
  panic below 102 slots of capacity.
* C47/C48: files written by `write_to_file` can never be loaded again.
* C60: responses are malleable, a server can choose the decoded digits' offsets freely.
* C65: even with ideal (uniform) masks an index query leaks: the statistical distance between two
  indices is exactly 2^-b (1 - 2^-b).
* C68: single use is not enforced across copies (`Clone`, serde) of query parameters, and queries of
  two copies reveal both indices.
* C72: an exponent of 32 or more silently configures 0 records in release builds.
* C73: filter parameters received by a client are not checked; unsuitable ones make queries panic for
  some keys only (a selective failure visible to the server). C58: with such parameters debug builds
  panic where release builds wrap around.
* C74/C75: `Fuse` filters panic for 1 to 89 keys and can never be built from 101 to 179 keys (nor for several
  other ranges up to 717), because the capacity is rounded *down* to a multiple of 102 and n keys need n + 2 cells; C91: the
  criterion is exact.
* C80: 64 keys that share a filter slot make `try_from`, `from_slice` and `KVDatabase::new` loop forever in release builds
  (debug builds panic); for `BinaryFuse8/16/32` such keys can be computed in advance because the first seed is a constant.
* C82: 96 distinct keys, 65 of them sharing a slot, make `BinaryFuse8/16/32::try_from` return in release builds a filter that
  denies one of its own keys, for every initial content: the 8-bit counter wraps around to one key and the construction peels a
  hash that belongs to no key. The load hypothesis of C40 is therefore needed.
* C84/C85: serde accepts filters whose fields do not fit together; a lookup in such a filter panics (which keys: C85), so a
  filter from an untrusted source must be checked by the caller before use.
* C86: the generator sizes elements in bytes and ignores `DB_ELEMENT_SIZE_BITS`; with the default settings seven eighths of
  every generated element are silently never served.
* C88: the zero counter of the analysis tool counts fingerprint 0 forever (off by one when it is zero).
* C89: the documented space of `Fuse8/16/32` (9.101/18.202/36.404 bits per key) is exceeded whenever the number of keys is a
  multiple of 44829; the one of `Xor8/16/32` (10/20/40 bits) by every filter of at most 1400 keys.
* C90: `get_row(i)`, documented as the i-th row, returns the i-th *digits of all records*, because entries are stored transposed.
* `BinaryFuseP32::contains` (`bff-modp/src/bfusep32.rs`) is `unimplemented!()`: it panics for every key (not modelled).
* C92: with the default command-line sizes (2^16 records, 10 plaintext bits) correctness is only probabilistic: some databases and
  random choices give a wrong row without any error.
* C94: query generation trusts the published seed, dimension and matrix: there is no check against a degenerate matrix or LWE
  dimension `0` (the constructors accept `lwe_dim = 0`), which turn queries into plaintext.
* C95: a client cannot tell an absent key from a present one: a lookup of a key that was never stored returns a well-formed row,
  uniformly random if one of its slots is fresh, and a fixed wrong row (independent of all randomness) if its slots are taken.
* C97: deserialising a shard checks no dimension: an inconsistent file is accepted and the server panics at the first query.
* C100: 96 pairs, 66 of whose keys share a filter slot, make a release build of `KVShard::new` return a shard that ignores the
  value of one pair: the 8-bit counter wraps around and the hash is taken for a duplicate. Clients read something unrelated.
* C101: the index benchmark is only runnable with more than 10 records (it queries row 10), and it unwraps query generation, so
  every run can abort on an overflowing addition whatever the configuration.
* C103: parsed rows must be kept secret from the server: with columns of the server's making, the row parsed from a response of
  zeros is the client's LWE secret, and the secret together with the query gives the index. Nothing authenticates the columns.
* C107: the README's "all costs bounded by a factor of 1.08" is exceeded for every database size: the matrix of a key-value
  database has at least 1.125 n rows, so keyword queries are always more than 1.08 times as long as index queries. The sizes the
  README prints for 2^16 pairs are correct.
* C108: asking repeatedly for the same row gives it away to a server that can link the queries, even with ideal masks: about
  `2^(b+1) ln m` queries identify the row (b = 10, 2^16 rows: about 23 000 queries). Keyword queries accumulate nothing.
* C109: a client with parameters of an earlier version of the database gets an answer and no error. Digits whose column did not
  change are right; a column in which any record changed reads as uniform noise for every record (and every key), changed or not.
* C110: `client_query_to_server_10_times` is flaky. It unwraps the `OverflownAdd` error of `generate_query`, so it fails for about
  0.49% of its runs (between 1 in 206 and 1 in 205); `client_query_to_server_attempt_params_reuse` fails for 1 run in 1024. The
  keyword test never meets that error.
* C111: the crate documentation calls `Xor` filters larger than `BinaryFuse` filters; from 100 to 15800 keys they are smaller. `Fuse`
  and `BinaryFuse`, documented as roughly equivalent in size, differ by 9% and more up to 10000 keys.
* C113: nothing in the code relates the number of records to the digit width. With 12-bit digits and 2^16 records, or with the default 10-bit digits and 2^24 records, at least one exchange in 13 returns a wrong row on an all-ones database, without an error.
* C114: the failure rate of C56 at 2^18 rows of 10-bit digits (about 1/90 guaranteed) is a worst case over databases; for random databases it is below 2^-40, so the benchmarks say nothing about the worst case.
* C115: nothing about the keys shows in the matrix when the values are uniform digits, and the worst-case failure bound of C56 (8 in 100 at 2^18 keys of 10-bit digits) becomes 2^-32 for such values.
* C117: the load condition that release builds need (and never check) fails for at most one in 2^100 random key sets; hash collisions of 256-bit keys (at most N^2/2^65, about 2^-17 at 2^24 keys) are by far the more likely way to lose an entry, and they too are silent.
* C118: the message of `bits_to_u32_le` speaks of a u16 where a u32 is meant; the message of `u32_sized_bytes_from_vec` would print the data, but no caller reaches it.
* C119: `QueryParams` derives `Debug` and prints its masks, so one logged `{:?}` together with the query on the wire reveals the row (or the slots of the key) and, with the response, the answer.
* C120: at every size from 2 to 2^24 entries at least one filter seed in a thousand (under the assumption that hashes are uniform) makes `KVShard::new` panic, because two keys get the same three cells; for two entries it is exactly one pair of hashes in 64. The filters of the `bff-modp` crate that hash 64-bit keys escape this by changing the seed; the key-value filter does not.
  At the size of the project's own keyword test (4096 entries) and of the command line's default it is 6 in 1000 (`C120_project_sizes`), so that test fails that often (`C110_kv_test_unbuildable`).
* C121: a key set that cannot be peeled (C120) costs 100000 complete passes over the keys, all with the same outcome, before `KVShard::new` panics.
* C122: the published parameters of a database with no more records than the LWE dimension by themselves give away every record, for all but a share `2^(m-n)` of the public matrices (C122(b), (c); 1700 records at the default dimension 1774: all but `2^-74`); a key-value server with that few matrix rows publishes its whole matrix in the same sense; nothing in the protocol hides the database from clients, and the first `n` answers are free.
* C90: a shard built with element size 0 answers every query of any length with the empty response, and its entries, in range or not, are empty strings; only `get_row`, `vec_mult` and `switch_fmt` panic.
