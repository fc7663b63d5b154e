# Formal model of crypto3-hash: design

Source: `/repo` (NilFoundation/crypto3-hash, header-only C++). Nothing is built or run; the
model is written from the text. All paths below are relative to
`/repo/include/nil/crypto3/hash` unless they start with `docs/` or `../detail`.

## 1. Method

* The model is a set of small total Lean 4 functions, one per C++ function, each with a comment
  citing file and lines. C++ undefined behaviour (out-of-range writes, over-wide shifts, loops
  that never end) is a *distinct outcome* (`Except Fault`, or a `Prop` about fuel), never a
  default value.
* Specifications live in separate files (`Verif/Spec/*`), written from the standards (FIPS 180-4,
  FIPS 202, RFC 7693, RFC 9380, Zcash protocol) without using model helpers. Property theorems live
  in `Verif/Props/*`, proofs of helper lemmas in `Verif/Proof/*`.
* Theorems quantify over all messages, cuts, histories, states, compression functions; there is no
  bound on lengths. `decide`-style evaluation is only used for (a) whole finite tables of constants
  and (b) concrete witnesses showing that a claim is false of the code or that hypotheses are
  satisfiable.
* If a claimed property is false of the code, the negation is proved with a concrete witness and
  the largest true part is kept as a `_partial` theorem.

## 2. Trusted base

* Lean 4.33.0 kernel; axioms at most `propext`, `Classical.choice`, `Quot.sound` (checked with
  `#print axioms` over all property theorems, listed one by one in `axioms.txt`; no `sorry`, `native_decide`, `bv_decide`, own axioms).
* The reading of C++ into Lean (function by function, cited).
* Contracts for code that is *not in the repository* (listed in section 3).

* `Verif/Validation/*` are **tests of the model, not proofs**: `#guard` runs the model on the vectors
  of the repository's test suite (`test/*.cpp`, `test/data/*.json`): digests of every hash family, the
  accumulator and preprocessor programs, pack, CRC, Poseidon, FindGroupHash, Pedersen, hash-to-field and
  hash-to-curve. They support the reading of the C++ and are no part of any claim. Not covered: the 4-bit
  chunk samples of `test/pack.cpp` (4-bit words are not modelled) and `test/reinforced_concrete.cpp`
  (C68 and C69 explain why the code does not meet the published function).
* The round constants of the Vesta Poseidon table have no independent source here: no vector in `test/`
  uses them and no Grain parameters reproduce them. Only their number, range and the
  Cauchy form of the Vesta matrix are proved (C64); a wrong digit in that table would not be noticed.

## 3. Not in the repository: assumed contracts

| dependency | contract used by the model |
|---|---|
| `nil/crypto3/detail/inject.hpp` `injector::inject(src, n, dst, cursor, off)` | `dst` keeps its length, stream bits `[cursor, cursor+n)` become bits `[off, off+n)` of `src`, earlier bits unchanged, later bits either kept or cleared (the model quantifies over every injector obeying this); requires `cursor+n <= block_bits`, otherwise fault; the cursor is advanced by `n` |
| `nil/crypto3/detail/pack.hpp` | keeps the bit stream as documented in `docs/pack.md`; a concrete model written from that document is proved to have this property (C52, C123) |
| `static_digest` | array of `digest_bits/8` bytes; default-constructed content arbitrary |
| block ciphers (shacal1/2, md4, md5) | arbitrary functions (parameters); the end-to-end SHA/MD theorems assume `Computes16`: encryption under a 16-word key computes the rounds of the standard (`Spec/Sha.lean`) |
| `nil/crypto3/detail/make_uint_t.hpp` `extract_uint_t<8>(x, i)` | octet `i` of `x`, most significant first (used by Tiger; the published test vectors only hold with this order) |
| Boost.CRC | Rocksoft model CRC, byte at a time (C28) |
| algebra / multiprecision / marshalling | commutative rings / fields / groups, `ZMod p`; decoding functions are parameters |
| algebra, for hash_to_curve | `is_square`, `sqrt` correct on squares; `inversed` of zero is zero; `data % 2` is the parity of the canonical representative; the group of points is any abelian group with a map from affine coordinates. That the two moduli are prime is not assumed: `Proof/Primes.lean` proves it from certificates |
| algebra, for Poseidon | field elements are a commutative ring (`ZMod p` for the instances); `vectmatmul(v, m)` is the row vector times the matrix; `element * int` is multiplication by the residue; literals `_cppuiN` denote the written number even where it needs more than N bits (kimchi tables). The four moduli are not in the repository: they are written down in `Model/PoseidonInst.lean` and proved prime |
| algebra, for Reinforced Concrete | `.data` is the canonical representative and `<`, `%` on elements or `.data` act on it; `inversed` is the field inverse; `matvectmul(m, v)` is the matrix times the column vector |
| algebra, matrix generation | the random elements are an arbitrary sequence; `det` is the determinant (C47) |
| Boost.Accumulators | calls `operator()` of the feature once per push, `result()` per extraction |

The bit-level view: a block (array of words) is represented by its *stream view*, the list of its
`block_bits` bits in the order given by the hash's endianness; word `i` occupies stream bits
`[i*w, (i+1)*w)`.

The assembly versions of the Keccak permutation are modelled instruction by instruction
(`Model/Keccak{X86,Armv8,Avx2,Avx512}.lean`, generated from the text of the headers). Trusted there: the meaning
of the instructions (`Spec/Isa.lean`, written from the manuals: registers of 64, 256 and 512 bits, a memory of bytes, the zero
flag, every immediate; `Proof/Isa.lean` and `Proof/IsaScalar.lean` prove that the models of the instructions agree with it),
that the operands point at disjoint arrays, and that an input operand is not put into a clobbered register. In the model the
flags are only read by the jump after `dec`. The AVX-512 text does not assemble; the model takes the evident meaning of the defective lines.

Of the `__ZKLLVM__` branches the Poseidon one is modelled (C88); the SHA-2 one is a call of a builtin of the compiler and
nothing else (it does not look at `Version`, sha2.hpp:50-62).

Not modelled: printing, compile-time concept checks, the feature-test macros of type_traits.hpp (its traits are, C94).

## 4. Plan per property

| id | model | proof idea |
|---|---|---|
| C01, C02 | `hash_impl`, `block_stream_processor`, `merkle_damgard_construction`, `merkle_damgard_padding` | abstraction invariant "accumulator represents bit string m" preserved by every push; digest of a represented m equals spec(m) |
| C03 | `tiger_padding` | same with byte marker |
| C04-C07 | `sponge_construction`, keccak/sha3 padding and finalizer | same invariant; case split on room in block; C07 negative witness (contract violation for non-byte-aligned lengths) |
| C08, C09 | `haifa_construction`, `blake2b_padding` | same invariant with counters; C08 false for non-empty multiples of 128 bytes: exact description + witness + `_partial` |
| C10, C12, C13, C15, C16 | op histories over the accumulator | corollaries of the invariant, stated over all op lists |
| C11 | the three `operator()` loops | equality of folds |
| C14 | word `process` | false: witness; `_partial` for histories that never complete a block with an aligned word push followed by more data; `C14_exact_*`: every program with word pushes, exactly (`Spec/Lossy.lean` says which blocks are lost; simulation of a construction that skips them) |
| C17 | spec + C02 | padding suffix-free, backward induction over blocks |
| C18 | padded strings | injectivity by last-one position |
| C19 | instrumented compressor (counting state) | instance of C02 with a counter state |
| C20 | 64-bit counter | invariant modulo 2^64 |
| C21, C22 | `keccak_impl.hpp` unrolled round | extensional equality lane by lane; inverse of each step |
| C23, C24 | `blake2b_functions.hpp`, compressor | unfolding; explicit inverses |
| C25, C26 | ripemd / tiger functions | table-driven spec, explicit inverses |
| C27 | compressors | unfolding against spec, word-wise |
| C28 | `crc.hpp`, accumulator | fold over bytes; polynomial division; out-of-range read witness for wide elements |
| C29, C30 | `hash_value.hpp`, `adaptor/hashed.hpp` | output model with bounds |
| C31-C35 | `pedersen.hpp`, lookup, `chunks_per_base_point` | invariant over bits; C33 false: witness; signed-digit uniqueness |
| C36 | `find_group_hash.hpp` | fuel semantics; non-termination when no candidate decodes |
| C37-C40 | `h2f_functions.hpp`, `h2f.hpp` | equality with RFC recursion; C38, C39 false: witnesses |
| C41, C42 | `h2c_functions.hpp` | field algebra; polynomial identity checked on coefficients |
| C43-C47 | `poseidon_*` | composition of bijections; sponge induction; C45-C47 false: witnesses |
| C48 | LFSR generators | invariants of the loops; converse by monotonicity in the fuel |
| C49 | reinforced concrete operators | mixed radix; S-box leaves digit range: witness |
| C50, C51 | `../detail/static_pow.hpp`, `strxor.hpp` | loop invariants |
| C52 | `docs/pack.md` pseudo-code | stream views |
| C53 | tables | whole-table kernel evaluation against derivations |
| C54 | `reset` | equality with fresh object |
| C55 | `pkcs_id` tables | a small DER encoder as specification, whole-table evaluation |
| C56 | `crc.hpp` | the generator is coprime to X and has degree N |
| C57 | `pedersen.hpp` | C31, C34; segments beyond the last one are empty |
| C58 | `h2f.hpp` | OS2IP is a bijection; count the residues |
| C59, C60 | `h2c_functions.hpp`, `h2c.hpp` | C41, C42, C40; no root of the cubic by `X^q mod g`; no kernel point over Fp2; group law of the curve from Mathlib |
| C61-C64 | Poseidon tables, `poseidon_permutation` | LFSR checker run by the kernel, proved correct; Cauchy polynomial argument; C43 |
| C118 | `davies_meyer_compressor.hpp`, `merkle_damgard_construction.hpp` | different blocks are different keys, and a random cipher is independent for different keys; the feed-forward is a bijection and the digest a part of equal fibres; then counting of families |
| C119 | `sponge_construction.hpp`, `keccak.hpp`, `sha3.hpp`, `blake2b.hpp`, `haifa_construction.hpp` | different blocks are different points (sponge) or different keys (BLAKE2b); the values of a random permutation at different points are a uniform injective family, counted over the fibres of the digest (a Cartesian factor of the state); then elementary inequalities |
| C120 | `poseidon_sponge.hpp`, `algorithm/hash.hpp` | C44 and C96_meet for the code; values of a random permutation at different points as in C119; for the attack that meets in the middle: given the values forwards, the inverse at other points is a uniform family of different points outside (equal fibres), counted by the first word; elementary inequalities |
| C121 | `merkle_damgard_construction.hpp`, `davies_meyer_compressor.hpp` | C100 for what the library returns on the two messages; the values of a random cipher under different keys, each at a point and up to a translation depending on the other values, are independent and uniform (equal fibres by composition with transpositions); two uniform families meet; the attacker is a program of queries, its result computed exactly |
| C122 | `tiger.hpp`, `ripemd.hpp`, `merkle_damgard_construction.hpp` | C17 turns a collision into one of the compression function, C25 and C26 give that passes and lines permute the state; one cipher: counting of C91; two lines: an answer completes a point, bad answers counted against the table; preimages by an amortised count (an entry whose other line is unknown has one chance, which the query that uses it takes away) |
| C123 | `docs/pack.md` | positions written as unit, octet, bit; both reversals computed on positions; then as C52 |
| C124 | as C122 | values of a random cipher under different keys are independent; the two lines: bijective in the first value for every second one; then as C118 |
| C125 | `merkle_damgard_construction` for arbitrary template arguments (Model/UserMD.lean: width of `length_type`, absent length field, real size of the block array) | on blocks of the declared size equal to Model/MerkleDamgard.lean with the truncated counter; then the invariant of C01; pack lemmas for the marker and the length field |
| C126 | `feedForwardHash` (Model/UserMD.lean) over Model/Modes.lean | instance of C125; attackers as in C91 with a key that depends on the state, the converter inverted on its range; keys of another size: out-of-range access, dependence on unwritten memory (witness) |
| C127 | `daviesMeyerHash` (Model/UserMD.lean) over Model/Modes.lean | instance of C125; attackers as in C91, for all sizes |
| C128 | the same | values of a random cipher under different keys are independent (Proof/CipherLaw.lean); the padding is injective, also without length field |
| C129 | `sponge_construction`, `haifa_construction` with arbitrary padding functors (Model/UserSponge.lean) | invariant of C01; the functor enters through its contract (`Pads`), which the functors of the library fulfil |
| C130 | the hashes of C91, C92, C93, C96, C122 and C127 over random primitives | union bound over the targets; for the sponges the set of forbidden outputs of the game instead; the digests with a given beginning form a set of `2^(d - z)` digests, and the length of the digest cancels |
| C65-C67 | `poseidon_policy.hpp`, `poseidon.hpp`, `poseidon_sponge.hpp` | case analysis; witnesses |
| C68, C69 | `reinforced_concrete_functions.hpp`, `_operators.hpp` | composition of bijections around Bars; witnesses |
| C70-C72 | `keccak_{x86_64,armv8,avx2}_impl.hpp` | machines generic in the word type; a run on symbolic normal forms (xor of rotated variables and of products of such) is checked by the kernel and proved to simulate the run on 64-bit words; induction over the loop |
| C73 | `keccak_avx512_impl.hpp` | noninterference: elements 0-4 never depend on 5-7; simulation by the machine of the manual; with the right masks and layout the symbolic check of each half of the body |
| C74 | clobber lists, operands, prologue | frame lemmas; witnesses |
| C75 | `keccak_functions.hpp`, `keccak.hpp` | C70-C73 |
| C76 | C04-C06, `Spec/SpongeSecurity.lean` | backward induction over the absorbed blocks with an injective permutation; the two families differ in the last block |
| C77 | C08, C09 | backward induction over the compression inputs (counter and flag included); injectivity of the readout of all eight words |
| C78 | `h2f_suites.hpp`, default parameters | evaluation of the constants; C40 and C60 |
| C79 | C37 | the tag and the length can be read off the end of the hashed string |
| C80, C81 | C28, C56 | quotient ring of GF(2)[x]; the order of x by its powers for each prime factor of 2^32-1, by Horner multiplication in the kernel; counting |
| C82 | `Model/WordOps.lean` (programs with word pushes) | the step lemma of C14 for any bit count; induction over programs; short pushes cannot meet the exception because the word size divides the block size |
| C83 | same model as C07 | relation `BitRep` (octets absorbed, then bits in FIPS order in the cache); the padding's octet reversal meets the code's view exactly when the bits start at a block (or word) boundary |
| C84 | same model as C28 | affinity from `ofWord_xor`; the residue from the register as a polynomial remainder, bijectivity of the last N/8 octets |
| C85 | same model as C01/C02/C27 | `paddedMessage` is a whole number of blocks, so `blocks` of the extended message splits and the fold resumes at the first digest |
| C86 | same models as C02, C05, C06, C08; the counter wraps | `updateWhile_fill`, `sponge_wrap_push` (the push in which the counter wraps), `haifa_result_any`, `C20_encoded_length` |
| C87 | same model as C31; the segment index is reduced modulo 2^32 | `wrappedBase_run` (the model with periodic base points is the same function), `pedersen_ends` |
| C88 | `circuitHash` (Model/Circuit.lean) against the overloads of C44 on `pallasPermute` | the builtin is a parameter with the contract "the permutation of the library"; the witness is computed on natural numbers by the kernel (`roundNat_cast`) |
| C89 | `h2cProcess` on Mathlib's group of the curve | number of points from Jacobi sums of sextic characters (Proof/Eisenstein.lean), trace decided by one point of known order (Proof/CurveTrace.lean, CurveOrder.lean), exponent of E(Fp) from the automorphism (βx, y) (Proof/CurveStructure.lean) |
| C90 | the rounds of `poseidonPermute` one by one (`stateBefore`) | counting spec Spec/PoseidonActive.lean; MDS (C63) for full rounds; for partial rounds an inverse of the rows e_0 M^i, checked for each table (Proof/Observable.lean) |
| C91 | `cipherHash` (Davies–Meyer hash over any cipher), the three modes of Model/Modes.lean | attackers as decision trees over a uniformly random family of permutations (Spec/IdealCipher.lean), probability = quotient of two numbers of ciphers; deterministic attackers only (a randomised one is an average of these) |
| C92 | `spongeConstruction` over any permutation of the lanes | as C91 with a single key; states of the attacked messages in FIPS 202 form (`absorbBlocks`), reduction C76 |
| C93 | `blakeConstructionOf` = `blake2bConstruction` with the rounds as a parameter (`C93_library`) | as C91; whole octets only, since C77_bits_false; reduction as in C77 |
| C94, C95 | overload resolution (Model/Overload.lean: deduction, `enable_if`, conversion ranks, partial ordering) on the declarations of algorithm/hash.hpp and hash_value.hpp | types are first-order terms, `is_iterator` etc. are arbitrary predicates with the sanity conditions `Sane`, `SanePoseidon`; not modelled: explicit template arguments after `Hash`, derived-to-base conversions, braced lists for the initial element; converting constructors of the target of a conversion |
| C96 | `poseidonHash` over any permutation of the states | as C92 with different inner parts of input (first word) and output (last word); reduction C45 |
| C97 | `XmdParams.run` over constructions that compute a random function | counting functions with prescribed digests on the strings of all calls, which are distinct unless two calls meet in the first digest; pointwise lower bounds give the distance of every event |
| C98 | `GroupHashParams.init`/`run`/`process` over constructions that compute a random function | marginals of a random function on the distinct candidates of all messages, a recursion over the candidates for the first one that decodes, fibres of the multiplication by the cofactor |
| C99 | `pedersenHash` with base points from `GroupHashParams.run` over constructions that compute a random function | a collision is a fixed linear relation between the base points (C57), whose law is C98's; a relation with a coefficient prime to the order leaves one value of one base point |
| C100 | accumulator programs over `MDInst.C`, `haifaConstruction`, `spongeConstruction` | the digest of a message is determined by the chaining value after its first whole blocks, the number of them and the rest; converse direction of C17, C76, C77; the rounds of the SHA, MD4, MD5, RIPEMD-256/320 compressors are permutations, so each block has exactly one fixed point (`C100_fixed_points`) |
| C101 | the manual-level machines of Spec/Isa.lean with the observations of Spec/Leakage.lean | events are a function of the pointers; instruction latencies and the compiler's code around the assembly are not modelled |
| C102 | the two worlds of Spec/Indifferentiable.lean: distinguishers, simulators, probabilities | information-theoretic: no claim about the running time of the simulator; `Keccak-f` is replaced by the random permutation |
| C103 | the two worlds of Spec/Indifferentiable.lean | the simulator asks the oracle at most once for each query; the block cipher is replaced by the random cipher |
| C104 | `poseidonHash`; the two worlds of Spec/Indifferentiable.lean | the simulator asks the oracle at most once for each query; lists of at most `N` words for any `N` of two blocks or more |
| C105 | the two worlds of Spec/Indifferentiable.lean, with a keyed cipher | information-theoretic: no claim about the running time of the simulator; the twelve rounds are replaced by the random cipher |
| C106 | Spec/Mac.lean: forgers and what it means to win; a random function of the message | information-theoretic; random permutation (cipher) in place of Keccak-f (the twelve rounds) |
| C107 | Spec/Mac.lean | holds for every cipher, so for the one of the library |
| C108 | Spec/Indifferentiable.lean: distinguishers, simulators, the two worlds | information-theoretic; random cipher in place of the rounds |
| C109 | Spec/Mac.lean: forgers and what it means to win | information-theoretic; random cipher in place of the rounds |
| C110 | Spec/Mac.lean: forgers and what it means to win | holds for every permutation, so for the one of the library where it is one |
| C111 | Spec/Ideal.lean: random permutation, distinguishers, simulators; Spec/Mac.lean: forgers | blocks are filled up with zeros, so the oracle is one on blocks, not on lists (C45 shows what this collides) |
| C112 | Spec/OracleIndiff.lean: distinguishers with a construction and a hash function, simulators of the hash function | bad events (a later hash input of one message meets another message or an earlier query) decided by the first digests alone; otherwise real and ideal runs correspond one to one; the step to field elements by drawing preimages |
| C113 | Spec/IdealCipher.lean | the attacker first hashes the given message; a later answer has one of the L chaining values or the digest to meet (Merkle-Damgård), the digest (sponges), or the value of the one call with the same counter (BLAKE2b); no entry of the given message's own computation repeats |
| C114 | Spec/OracleFinder.lean | C112, and in the ideal world one value of a random function per step; at most 82 (G1) or 18 (G2) field elements are mapped to one point (roots of polynomials: SWU has at most 6 preimages, the isogeny at most its degree), at most h points are sent to one by h_eff (the group order is h·r), so at most p^m·h·82 pairs give one point; each combination of field elements has at most its share (1+p/256^L)/p of the strings |
| C115 | Spec/Sha.lean | the published pairs lead to one chaining value (evaluated by the kernel); equal chaining values and equal lengths stay equal under every continuation; C01, C27 for the code |
| C116 | same models as C05, C06, C08, without the assumption on the digest size | the last bit of the sponge padding lies in `block_bits` but not in the words of the block (case split on room, keccak and sha3); the output of more than 64 octets is out of range for every state; C05, C06, C08 for the other direction |
| C117 | `pedersen.hpp` | C31; the sum over segments is a sum over chunks, each of which adds a multiple of a base point that depends on its position |

## 5. Disagreements found between code and claims

* C14: `process(word)` that completes a block (aligned path) leaves the full block in the cache; the
  next push overwrites it, so the block is never compressed (trivial collisions).
* C13: Tiger's padding writes a whole marker octet; with a bit-granular length leaving fewer than 8
  free bits it writes past the block.
* C20: the 64-bit counter wraps: at nonzero multiples of 2^64 bits the last full block is dropped, and
  SHA-384/512 encode the length only modulo 2^64. The `bits_count` accumulator ignores pushes made
  without an explicit `bits` argument. `C20_any_construction`: the counter is the number of bits modulo 2^64 in every program.
* C26: `tiger<128>`/`tiger<160>` cannot be instantiated (`state_words = DigestBits/64` is 2 while the IV
  has 3 words; basic_tiger_policy.hpp:46-48, tiger_policy.hpp:62-68), so truncation is not realisable.
  Even with a three-word state a 160-bit digest would copy two whole words only and leave 32 bits
  indeterminate (`C26_truncation_false`); whole-word sizes truncate correctly.
* C07: the sponge paddings inject with the `big_octet_little_bit` view although the accumulator fills the block
  in the `big_octet_big_bit` view. C07 reads the pushed bits in the accumulator's own order (the order in which
  `bits` counts them when a push continues an earlier one): for totals that are not whole octets the message
  bits of the last octet are replaced by other bits of that octet (both one-bit messages collide; bits outside
  the message reach the digest), and if at most one (Keccak) or three (SHA-3) bits are free `process_last`
  injects past the end of the block. Byte-aligned totals are correct. Read in the order of FIPS 202 the same
  pushes are correct at block and word starts; that reading is C83. `C07_exact` gives the digest of every such message:
  the one of FIPS 202 for the whole octets followed by the bits `tailSeen`.
* C08: `haifa_construction::digest` compresses a pending full block without the final flag, and the padding
  then leaves the block as it is, so it is compressed again with the flag. For non-empty multiples of 128
  bytes the digest is not RFC 7693's (witness: 128 zero bytes); all other lengths are correct.
* C28: `acc(p, bits=n)` of the CRC accumulators reads `n/8` *elements*, so elements wider than a byte are read
  past the end (`C28_wide_push_false`; the stream processors exclude them by a static assertion). Bit counts
  are ignored for single bytes, and the length of a range is taken modulo 2^61 bytes.
* C51: `strxor` with overlapping, shifted ranges does not xor the original contents (`C51_overlap_false`).
* C55: the SHA-2, SHA-0 and RIPEMD `pkcs_id` tables are not the DER prefixes of their algorithms (see the theorems
  `C55_sha2_false`, `C55_sha2_malformed`, `C55_sha2_empty_false`, `C55_sha0_false`, `C55_ripemd_false`); the other
  tables are correct.
* C29: `operator std::array<T, Size>` copies the whole digest whatever `Size` is: a smaller array is overrun
  (`C29_short_array_false`), a larger one keeps indeterminate elements (`C29_long_array_false`). The conversion
  of a CRC-32 result to `uint32_t` gives the byte-reversed checksum.
* C54: `digest()` does not reset the object (`C54_without_reset_false`), and `haifa_construction::reset(s)` xors
  the parameter word into any given state, so `reset(state())` never restores it (`C54_haifa_reset_state`).
* C31: the empty bit string is padded to three zero bits (the Zcash hash excludes it).
* C33: `process` works on the (mutable) accumulator: it appends the padding to the input and adds the current
  segment to the result without clearing it, so the n-th extraction in a row returns the digest plus n-1 times
  the last segment's term; with base points of order r every second extraction is wrong (`C33_repeat_false`).
  `hashes::pedersen` extracts through the same accumulator and inherits this.
* C35: the factor `chunk_bits + 1` in `get_test_value` equals the largest digit (4) for `chunk_bits = 3` only.
* C36: if none of the 256 candidates decodes, the loop never ends: `i` is a `uint8_t`, so the assertion
  `i < 256` cannot fail (`C36_endless_false`). If the first decodable candidate has small order the code asserts,
  where the Zcash specification takes the next candidate (`C36_small_order_false`). Base point indices reach
  SHA-256 most significant octet first, the specification encodes them least significant first
  (`C36_base_point_index`, all outcomes of an extraction: `C36_exact`); the default hash is SHA-256 instead of BLAKE2s (noted in the source).
* C38: `process` of `h2f`/`h2c` appends `l_i_b_str`, a zero octet, the DST and its length to the accumulator it was
  given, so the second extraction hashes a longer message. Two extractions in a row that agree give a collision of
  the hash (`C38_repeat_collision`); a concrete disagreement is `C38_repeat_false`.
* C37, C39: `expand_message_xmd` copies whole digests into an array of `len_in_bytes` octets: every length that is
  not a positive multiple of the digest size overruns it (`C39_bounds_partial`). The two suites in the library use
  multiples of 64, which are safe. Tags shorter than 16 octets (allowed by RFC 9380 section 3.1 if not empty) are
  refused by an assertion, and tags longer than 255 octets (section 5.3.3) too.
* C59: where a denominator of the isogeny vanishes `iso_map::process` returns the generator `one()`; RFC 9380 says
  the identity. For G1 the kernel of the 11-isogeny is rational and reached by the SWU map: for
  `u = 0x1377c0192d99508a…` the code returns the generator (`C59_g1_false`). There are exactly sixteen such inputs, listed in
  `g1Exceptional` (`C59_g1_exceptional`, `C59_g1_iff`); a message is hashed as RFC 9380 says exactly when it meets none
  of them (`C60_g1_iff`). For G2 there is no such input
  (`C59_g2`). Nobody who asks a random hash few questions meets one of the sixteen (`C114_g1_exceptional`).
* C45: lists are padded with zeros, so a list and the list with zeros appended inside the last block collide
  (`C45_collision`); exactly these lists have the same permutation inputs (`C45_exact`).
* C46: `1 << input_word_size` is an `int` shift: words of 32 or more bits are undefined behaviour
  (`C46_wide_false`). Leading zero words in a group are lost (`C46_leading_zero_false`). If the word size divides the bit
  length of the modulus, groups of one length collide too (`C46_divides_false`).
* C47: the matrix generator computes `x[i] - y[i]` instead of `x[i] - y[j]`, so every candidate has constant rows and
  determinant zero; from width two on it never returns (`C47_false`).  What the three checks of a candidate establish is
  `C47_checks`; with `x[i] - y[j]` the candidates that pass them are the Cauchy matrices all of whose minors are nonzero (`C47_intended`).
* C48, C62: the Poseidon constants generator seeds the S-box tag 1 where the reference for `x^5` uses 0, so it
  reproduces none of the tables stored in the library (`C62_false`); those are the reference ones (`C61_tables`).
* C65: `poseidon_policy<F, 128, 8>` is derived from `base_poseidon_policy<F, 128, 4, …>`: rate 4.
  `poseidon_policy<F, 256, 0>` exists and has rate 0; its `absorb` writes past the state (`C44_rate_zero`).
* C66: `poseidon_compressor::process_block` loops over the state words and reads past the block (always).
* C67: `reset` of the Poseidon sponge calls `std::array::clear` (does not compile when used) and sets the counter to 0
  instead of 1, so that the next element replaces the chaining value: with the array cleared word by word, what the next
  list is hashed to is the continuation of its first element (`C67_exact`), and for every permutation collisions between
  lists hashed after a reset can be written down (`C67_collision`).
* C49, C68: the S-box of Reinforced Concrete inverts digits in the large field (`inversed`) instead of modulo
  `p_min = 659`, so every digit from 2 to 658 leaves its range (`C49_S_false`). Bars then collides (elements 685 and
  29181, and every `e` with the same low two digits as 685, `C68_bars_false`), and the permutation of the only policy of
  the library is not injective for any constants (`C68_false`). All other layers are bijections, and decompose/compose
  are the mixed radix conversions. Digit vectors in range can stand for numbers not below `p`
  (`C49_decompose_compose_false`). Correcting the S-box alone would not help: `decompose` and `compose` take the last bucket as
  the least significant one, and in this order Bar collides even with the S-box of the paper (`C49_order_false`). Read from the
  first bucket on, all digits of `p - 1` are at least 659, and Bar with the S-box of the paper is a permutation (`C49_buckets`).
* C68: what `process_block` would do if field elements had `^=` is `C68_process_block`.
* C69: `generate_mds_matrix` rotates the other way, rows 2 and 3 of `circ(2, 1, 1)` are exchanged.
* Not a property: `reinforced_concrete` is commented out in `test/CMakeLists.txt:85` with `# fails`; `process_block`
  uses `^=` on field elements, which the algebra library does not have.
* C73: the AVX-512 version loads the lanes into elements 3-7 of the registers (`_mm512_set_epi64` takes the highest
  element first) but works on elements 0-4, so its result ignores the 15 lanes with `x >= 2`
  (`C73_avx512_ignores_lanes`, for every content of the mask registers), is not injective and is not Keccak-f
  (`C73_avx512_false`). The mask registers `k1`-`k5` are never set. With both repaired the loop is Keccak-f
  (`C73_avx512_partial`). Besides, the text does not assemble: `%eax`, `%r10` with one percent sign
  (keccak_avx512_impl.hpp:115, 150, 151, 199, 217), a missing newline (line 150) and `$%%zmm5` (line 179).
* C74: the AVX2 version overwrites `r8`, `r9`, `r10` without declaring them (keccak_avx2_impl.hpp:135-137, 299-302); if
  the compiler keeps `[rounds]` in `r8` the loop counter becomes an address and the loop runs off the table of constants
  (`C74_avx2_counter_false`). The x86-64 version moves the register of the input operand `[c]` by 192 bytes
  (`C74_x86_64_operand_false`). The ARMv8 clobber list is complete (`C74_armv8_registers`).
* C77: on byte strings the reduction holds even though the last block is compressed twice. At bit granularity it
  is false: the counter is in octets and the last block is filled with zeros, so `x` and `x0` have the same digest
  (`C77_bits_false`).
* C78: `h2f_default_params::dst` ignores the uniformity count, so the nonuniform variant uses the tag of the uniform suite
  (`…_RO_` instead of `…_NU_`, `C78_nonuniform_false`). The output length still separates the two (C79).
* C83: in the bit order of FIPS 202 a push of `n` bits at the start of a block (or of a word) is padded correctly
  when two (Keccak) or four (SHA-3) bits stay free. With less room the extraction writes outside the block
  (`C83_short_tail_false`), and up to four bits pushed with a block value behind an incomplete block are lost:
  the digest does not depend on them (`C83_after_incomplete_block_false`). In general the first bits of the last,
  incomplete octet are lost, as many as it has but at most those it lacks (`C83_lost_bits`).
* C84: the digest octets in the order they are returned are not a trailer for CRC-32
  (`C84_digest_order_false`); they have to be reversed.
* C85: `C85_truncated_false` is a separation, not an error: SHA-224 and SHA-384 hide part of the chaining value.
* C86 (refuted): `total_seen` has 64 bits. For Keccak and SHA-3 no rate of the library divides 2^64, so when the
  counter wraps inside a block the accumulator loses its place: the first whole number of blocks beyond 2^61 octets
  is hashed without its last `2^61 % rate` octets (`C86_sponge_octets_lost`), which gives collisions
  (`C86_sponge_collisions`), and the digest depends on the cuts (`C86_sponge_two_pieces`, `C86_sponge_false`).
  BLAKE2b hands wrapped counters to the compression (`C86_blake2b_counters`, `C86_blake2b_false`) and drops the last
  block of messages of a non-zero multiple of 2^64 bits (`C86_blake2b_collisions`); so do the Merkle-Damgard hashes
  (`C86_md_collisions`); SHA-384 and SHA-512 encode the length modulo 2^64 (`C86_sha512_false`). For the hashes with
  a 64-bit length field all other lengths are right (`C86_md_partial`).
* C87 (refuted): the segment index is cast to `uint32_t` without a check (pedersen.hpp:122-130), while the Zcash
  definition ends at 2^32 segments. Segment 2^32 uses the base point of segment 0, and exchanging the two gives a
  collision for every choice of base points (`C87_collision`). Up to 2^32 segments the exchange is harmless exactly
  when the base points satisfy no relation (`C87_partial`).
* C88 (refuted): `hash<poseidon>(a, b)` absorbs `b` before `a` in the ordinary build (algorithm/hash.hpp:298-309, the second
  parameter is the "initial element") and `a` before `b` in the circuit build (poseidon.hpp:30-34). The two builds
  disagree, e.g. on (0, 1) (`C88_false`); the ordinary call is always the circuit call with exchanged arguments
  (`C88_exchanged`), and hashing the list [a, b] agrees (`C88_partial`).
* C94 (refuted for three forms). `hash<H>(message, digest)` with two built-in arrays of one element type (or an array and
  a pointer to its element type) is taken for an iterator pair: the unconstrained template `hash(InputIterator,
  InputIterator)` of lines 159-170 is more specialised than `hash(const SinglePassRange &, OutputIterator)`. It compiles,
  reads from `message` up to `digest`, and writes nothing (`C94_arrays_false`, `C94_arrays_read`). Poseidon has no
  overload for braced lists nor for a range with an output iterator or accumulator (`C94_poseidon_missing_false`).
  Poseidon hashes a container of integers and the iterator pair over it differently (`C94_poseidon_octets_false`).
* C95 (refuted for integers): `operator OutputRange` is unconstrained, so it competes with `operator Integral` and neither
  is more specialised; `uint32_t c = hash<crc32_png>(s)` is ambiguous, and `operator Integral` is selected by no target
  type (`C95_integral_false`, `C95_integral_unused`). C29_integral is about the value it would give.
* C116: `keccak_1600<d>` and `sha3<d>` compile for every even `block_bits = 1600 - 2d`, but `block_words = block_bits / 64` is rounded
  down (keccak_policy.hpp:45-47, sha3_policy.hpp:135-137): unless 32 divides `d` the padding writes behind the block in every
  extraction (`C116_sponge_false`, e.g. `keccak_1600<200>`). `blake2b<d>` compiles for `d > 512` and then reads behind the array of 64
  octets (haifa_construction.hpp:124-127, `C116_blake_false`).
* C123 (documentation): the section "Data chunk order reversal" of docs/pack.md (lines 217-230) lets the bit order choose the shift, and the other way round than the pseudocode of imploder and exploder (the unit order, lines 281-285 and 324-328). `C123_prose_false`: that would not keep the bit stream. The pseudocode, the examples of the document and the use in the library agree with each other.
* C125: `merkle_damgard_construction::digest` takes the counter as `length_type`, whose width is that of the length field; a hash with a
  length field of less than 64 bits therefore drops the last block of messages of a multiple of 2^width bits (`C125_wrap`).  No policy
  of the repository has such a field.
* C126: `matyas_meyer_oseas_compressor` and `miyaguchi_preneel_compressor` declare `block_bits = key_bits` and `block_words = key_words`
  (lines 55-56) although `block_type` is the block of the cipher (line 57).  With keys longer than blocks every `digest` accesses memory
  behind the array (`C126_long_key_false`); with shorter keys the digest depends on memory that nobody wrote (`C126_short_key_false`).
  The templates are usable only for ciphers with keys as long as blocks, and nothing checks this.
