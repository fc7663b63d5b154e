{"claims": [
{"property": "C01", "status": "proved", "theorems": ["Verif.Props.C01_incremental_eq_oneshot"], "note": "all 13 Merkle-Damgard hashes"},
{"property": "C02", "status": "proved", "theorems": ["Verif.Props.C02_digest_is_textbook", "Verif.Props.C02_byte_strings", "Verif.Props.C02_padding_minimal", "Verif.Props.C27_sha1", "Verif.Props.C27_sha256", "Verif.Props.C27_sha512", "Verif.Props.C27_md4", "Verif.Props.C27_md5"], "note": ""},
{"property": "C03", "status": "proved", "theorems": ["Verif.Props.C03_tiger_padding"], "note": ""},
{"property": "C04", "status": "proved", "theorems": ["Verif.Props.C04_incremental_eq_oneshot"], "note": "Keccak and SHA-3, every digest size with a word-multiple block, every permutation"},
{"property": "C05", "status": "proved", "theorems": ["Verif.Props.C05_keccak_is_sponge", "Verif.Props.C05_keccak_full"], "note": "every permutation, and end to end with the code's Keccak-f"},
{"property": "C06", "status": "proved", "theorems": ["Verif.Props.C06_sha3_is_sponge", "Verif.Props.C06_sha3_full"], "note": "every permutation, and end to end with the code's Keccak-f"},
{"property": "C07", "status": "partial", "theorems": ["Verif.Props.C07_bit_padding_partial", "Verif.Props.C07_false", "Verif.Props.C07_short_tail_faults", "Verif.Props.C07_one_bit_messages_collide", "Verif.Props.C07_foreign_bit_matters", "Verif.Props.C07_exact", "Verif.Props.C07_tail_bits"], "note": "Claim false for lengths that are not multiples of 8. C07_exact states the digest for every program and every such length: FIPS 202 of the whole octets followed by tailSeen (C07_tail_bits: cache bits behind the message, then message bits in reverse), or an out-of-range injection when at most 1/3 bits are free. The partial theorem covers arbitrary bit pushes with a byte-aligned total."},
{"property": "C08", "status": "partial", "theorems": ["Verif.Props.C08_exact", "Verif.Props.C08_rfc7693_partial", "Verif.Props.C08_false"], "note": "False on non-empty multiples of 128 bytes: the last block is compressed twice (C08_false is a witness, C08_exact says what is computed for every byte string). Proved for all other byte strings and digest sizes up to 64 bytes."},
{"property": "C09", "status": "proved", "theorems": ["Verif.Props.C09_incremental_eq_oneshot", "Verif.Props.C09_calls", "Verif.Props.C09_counters"], "note": "All cuts, element types and range kinds, messages below 2^64 bits; the recorded calls show the byte counter of every compression. On non-empty whole numbers of blocks the last block occurs twice (see C08)."},
{"property": "C10", "status": "proved", "theorems": ["Verif.Props.C10_extraction_does_not_disturb", "Verif.Props.C10_sponge", "Verif.Props.C10_haifa"], "note": ""},
{"property": "C100", "status": "proved", "theorems": ["Verif.Props.C100_multicollision", "Verif.Props.C100_haifa_multicollision", "Verif.Props.C100_fixed_point", "Verif.Props.C100_long_message", "Verif.Props.C100_inner_collision", "Verif.Props.C100_rounds_bijective", "Verif.Props.C100_fixed_points", "Verif.Props.C100_ripemd_fixed_points"], "note": "For any compression function, permutation and injector; the events themselves are hypotheses. For HAIFA the common data must be non-empty because the code compresses the last full block twice (C08)."},
{"property": "C101", "status": "proved", "theorems": ["Verif.Props.C101_x86_64", "Verif.Props.C101_armv8", "Verif.Props.C101_avx2", "Verif.Props.C101_avx512"], "note": "Addresses and jumps in the sense of Spec/Leakage.lean; AVX-512 for given mask registers."},
{"property": "C102", "status": "proved", "theorems": ["Verif.Props.C102_indifferentiable"], "note": "One simulator for all distinguishers; advantage at most N^2/2^(2d); digests are those of runOps and result of the model; the messages are those of whole octets below 2^64 bits. No claim about the running time of the simulator."},
{"property": "C103", "status": "proved", "theorems": ["Verif.Props.C103_distinguishable", "Verif.Props.C103_hashes"], "note": "For every simulator a distinguisher of cost four; the theorem is for every hash whose digest is the whole state, C103_hashes lists them. Over an arbitrary compression cipher; the concrete hashes are such instances by C91."},
{"property": "C104", "status": "proved", "theorems": ["Verif.Props.C104_extension", "Verif.Props.C104_collisions", "Verif.Props.C104_distinguishable"], "note": "Extension for every permutation; distinguisher of cost four for every simulator."},
{"property": "C105", "status": "proved", "theorems": ["Verif.Props.C105_indifferentiable"], "note": "Information-theoretic; cipher uniform among all families of permutations of sixteen words; deterministic adaptive distinguishers; messages of whole octets."},
{"property": "C106", "status": "proved", "theorems": ["Verif.Props.C106_sponge_random", "Verif.Props.C106_sponge_unforgeable", "Verif.Props.C106_blake_random", "Verif.Props.C106_blake_unforgeable"], "note": "Over a random permutation (random cipher); deterministic adaptive adversaries; keys all of one length in whole octets."},
{"property": "C107", "status": "proved", "theorems": ["Verif.Props.C107_forgery", "Verif.Props.C103_hashes"], "note": "The forger knows only the length of the key; C103_hashes lists the hashes to which the conditions apply."},
{"property": "C108", "status": "proved", "theorems": ["Verif.Props.C108_indifferentiable", "Verif.Props.C108_hashes"], "note": "random cipher in place of the rounds; bound (3N^2-N)/2 / 2^s with s the hidden bits, C108_hashes gives s for SHA-224 and SHA-384"},
{"property": "C109", "status": "proved", "theorems": ["Verif.Props.C109_random", "Verif.Props.C109_unforgeable", "Verif.Props.C109_guess", "Verif.Props.C109_forgery"], "note": "random cipher in place of the rounds; upper bounds for distinguishing and forging, and forgers that reach 2^-s"},
{"property": "C11", "status": "proved", "theorems": ["Verif.Props.C11_range_kind_irrelevant"], "note": ""},
{"property": "C110", "status": "proved", "theorems": ["Verif.Props.C110_forgery", "Verif.Props.C110_zero"], "note": "every key, message and permutation; the forger knows only the length of the key"},
{"property": "C111", "status": "proved", "theorems": ["Verif.Props.C111_indifferentiable", "Verif.Props.C111_random", "Verif.Props.C111_unforgeable"], "note": "Instance of the common indifferentiability proof. Permutation idealised; the absorbing and squeezing code is the one of the model (C44)."},
{"property": "C112", "status": "proved", "theorems": ["Verif.Props.C112_indifferentiable", "Verif.Props.C112_hash_to_field", "Verif.Props.C112_code", "Verif.Props.C112_code_field", "Verif.Props.C112_bls12381"], "note": "random hash function in the sense of C97; the simulators are explicit (xmdSimulator, fieldSimulator)"},
{"property": "C113", "status": "proved", "theorems": ["Verif.Props.C113_merkle_damgard", "Verif.Props.C113_sponge", "Verif.Props.C113_blake2b"], "note": "Ideal cipher or random permutation, deterministic adaptive attackers; Merkle-Damgard messages below 2^64 bits; BLAKE2b messages of whole octets. SHA-224 and SHA-384 with their truncation."},
{"property": "C114", "status": "proved", "theorems": ["Verif.Props.C114_collision", "Verif.Props.C114_hit", "Verif.Props.C114_second", "Verif.Props.C114_expand", "Verif.Props.C114_field", "Verif.Props.C114_code", "Verif.Props.C114_g1", "Verif.Props.C114_g2", "Verif.Props.C114_g1_exceptional"], "note": "C114_g1, C114_g2: points extracted by the accumulator around a random hash. C114_g1_exceptional: finding a message where G1 deviates from RFC 9380. C114_collision, C114_hit, C114_second: any function of the expanded octets. C114_expand, C114_field: the outputs themselves."},
{"property": "C115", "status": "proved", "theorems": ["Verif.Props.C115_md4", "Verif.Props.C115_md5", "Verif.Props.C115_sha0", "Verif.Props.C115_sha1", "Verif.Props.C115_code_md4", "Verif.Props.C115_code_md5", "Verif.Props.C115_code_sha0", "Verif.Props.C115_code_sha1"], "note": "The witnesses are the published pairs of Wang et al., Joux et al. and Stevens et al.; each pair is checked by the kernel, the quantification over continuations and programs is proved."},
{"property": "C116", "status": "partial", "theorems": ["Verif.Props.C116_sponge_iff_partial", "Verif.Props.C116_sponge_false", "Verif.Props.C116_blake_iff_partial", "Verif.Props.C116_blake_false"], "note": "The exact sets of working sizes are proved; partial because the templates accept sizes for which every extraction is out of range (negative theorems), and BLAKE2b is wrong after a full last block (C08)."},
{"property": "C117", "status": "proved", "theorems": ["Verif.Props.C117_split", "Verif.Props.C117_inner", "Verif.Props.C117_forgery", "Verif.Props.C117_zero"], "note": "Every key, message and group within the bounds of C31; the shift is an explicit function of the length of the key and the two messages."},
{"property": "C118", "status": "proved", "theorems": ["Verif.Props.C118_law", "Verif.Props.C118_birthday", "Verif.Props.C118_search", "Verif.Props.C118_collision", "Verif.Props.C118_preimage", "Verif.Props.C118_tight"], "note": "C118_law: every property of the family of digests has the probability it has for independent uniform strings. C118_collision and C118_preimage are stated in the games of C91_collision_any and C91_preimage_any."},
{"property": "C119", "status": "proved", "theorems": ["Verif.Props.C119_sponge_birthday", "Verif.Props.C119_sponge_search", "Verif.Props.C119_sponge_collision", "Verif.Props.C119_sponge_preimage", "Verif.Props.C119_sponge_tight", "Verif.Props.C119_blake_law", "Verif.Props.C119_blake_birthday", "Verif.Props.C119_blake_search", "Verif.Props.C119_blake_collision", "Verif.Props.C119_blake_preimage", "Verif.Props.C119_blake_tight"], "note": "Exact probabilities for one-block messages; the collision and preimage theorems are stated in the games of C92_collision_any, C92_preimage_any, C93_collision_any and C93_preimage_any. Digest sizes with 3d <= 1600 for the sponges, at most 64 octets for BLAKE2b."},
{"property": "C12", "status": "proved", "theorems": ["Verif.Props.C12_garbage_never_reaches_digest", "Verif.Props.C12_sponge", "Verif.Props.C12_haifa"], "note": ""},
{"property": "C120", "status": "proved", "theorems": ["Verif.Props.C120_birthday", "Verif.Props.C120_search", "Verif.Props.C120_collision", "Verif.Props.C120_preimage", "Verif.Props.C120_exists", "Verif.Props.C120_tight"], "note": "Random permutation uniform among all permutations of the states; lower bounds for the games of C96."},
{"property": "C121", "status": "proved", "theorems": ["Verif.Props.C121_attack", "Verif.Props.C121_exists", "Verif.Props.C121_tight"], "note": "Fixed-point second-preimage attack over a random cipher; the cipher of cipherHash ranges over all keyed permutations."},
{"property": "C122", "status": "proved", "theorems": ["Verif.Props.C122_tiger_library", "Verif.Props.C122_tiger_collision", "Verif.Props.C122_tiger_preimage", "Verif.Props.C122_ripemd256_library", "Verif.Props.C122_ripemd320_library", "Verif.Props.C122_ripemd128_library", "Verif.Props.C122_ripemd160_library", "Verif.Props.C122_ripemd256_collision", "Verif.Props.C122_ripemd256_preimage", "Verif.Props.C122_ripemd320_collision", "Verif.Props.C122_ripemd320_preimage", "Verif.Props.C122_ripemd128_collision", "Verif.Props.C122_ripemd128_preimage", "Verif.Props.C122_ripemd160_collision", "Verif.Props.C122_ripemd160_preimage", "Verif.Props.Feed.one_collision", "Verif.Props.Feed.one_preimage", "Verif.Props.Feed.two_collision", "Verif.Props.Feed.two_preimage"], "note": "The generic statements are Feed.one_* and Feed.two_*; C122_*_library identifies the library's hashes with their instances."},
{"property": "C123", "status": "proved", "theorems": ["Verif.Props.C123_keeps_stream", "Verif.Props.C123_unpack", "Verif.Props.C123_bijective", "Verif.Props.C123_reversals", "Verif.Props.C123_octets", "Verif.Props.C123_prose_false"], "note": "The pseudocode of docs/pack.md; the description of the chunk order in words contradicts it (C123_prose_false)."},
{"property": "C124", "status": "proved", "theorems": ["Verif.Props.C124_tiger_law", "Verif.Props.C124_tiger_collision", "Verif.Props.C124_tiger_preimage", "Verif.Props.C124_ripemd256_law", "Verif.Props.C124_ripemd256_collision", "Verif.Props.C124_ripemd256_preimage", "Verif.Props.C124_ripemd320_law", "Verif.Props.C124_ripemd320_collision", "Verif.Props.C124_ripemd320_preimage", "Verif.Props.C124_ripemd128_law", "Verif.Props.C124_ripemd128_collision", "Verif.Props.C124_ripemd128_preimage", "Verif.Props.C124_ripemd160_law", "Verif.Props.C124_ripemd160_collision", "Verif.Props.C124_ripemd160_preimage"], "note": "Law of the digests of different one-block messages and lower bounds for the birthday attack and the search in the games of C122. For RIPEMD-128/160 q messages cost 2q queries, so the collision bounds agree up to a factor of four in the number of pairs."},
{"property": "C125", "status": "proved", "theorems": ["Verif.Props.C125_hash", "Verif.Props.C125_wrap", "Verif.Props.C125_collision", "Verif.Props.C125_length_type"], "note": "All template arguments of merkle_damgard_construction with merkle_damgard_padding; C125_wrap shows that the bound on the length is exact."},
{"property": "C126", "status": "partial", "theorems": ["Verif.Props.C126_hash_partial", "Verif.Props.C126_collision_partial", "Verif.Props.C126_preimage_partial", "Verif.Props.C126_long_key_false", "Verif.Props.C126_short_key_false"], "note": "Proved for ciphers with keys as long as blocks. For other key sizes the code is wrong (block_bits = key_bits, but block_type is the block of the cipher): C126_long_key_false, C126_short_key_false."},
{"property": "C127", "status": "proved", "theorems": ["Verif.Props.C127_hash", "Verif.Props.C127_collision", "Verif.Props.C127_preimage"], "note": "For w a multiple of 8 up to 64 and combine function state_adder; the collision bound needs a length field."},
{"property": "C128", "status": "proved", "theorems": ["Verif.Props.C128_law", "Verif.Props.C128_collision", "Verif.Props.C128_preimage"], "note": "Same games as C127; sizes as in C127, with or without length field."},
{"property": "C129", "status": "proved", "theorems": ["Verif.Props.C129_sponge", "Verif.Props.C129_collision", "Verif.Props.C129_haifa", "Verif.Props.C129_haifa_collision"], "note": "The contract of the padding functor is a hypothesis, fulfilled by the functors of the library (spongeInstance_pads, haifaInstance_pads); the finalizer must not fault."},
{"property": "C13", "status": "proved", "theorems": ["Verif.Props.C13_no_out_of_range", "Verif.Props.C13_byte_data", "Verif.Props.C13_tiger_bits_fault", "Verif.Props.C13_sponge_byte_data", "Verif.Props.C13_haifa", "Verif.Props.C13_sponge_unbounded", "Verif.Props.C13_haifa_unbounded", "Verif.Props.C13_words_md", "Verif.Props.C13_words_sponge", "Verif.Props.C13_words_blake2b"], "note": "No bound on the message (also after the bit counter wraps). Tiger with a non-byte length faults (excluded by hypothesis, shown by C13_tiger_bits_fault); sponge hashes at totals that are not whole octets: see C07."},
{"property": "C130", "status": "proved", "theorems": ["Verif.Props.C130_davies_meyer", "Verif.Props.C130_sponge", "Verif.Props.C130_blake2b", "Verif.Props.C130_poseidon", "Verif.Props.C130_tiger", "Verif.Props.C130_ripemd160", "Verif.Props.C130_ripemd128", "Verif.Props.C130_ripemd256", "Verif.Props.C130_ripemd320", "Verif.Props.C130_user", "Verif.Props.C130_prefix", "Verif.Props.C130_user_prefix", "Verif.Props.C130_sponge_prefix", "Verif.Props.C130_blake2b_prefix", "Verif.Props.C130_tiger_prefix", "Verif.Props.C130_ripemd128_prefix", "Verif.Props.C130_ripemd160_prefix", "Verif.Props.C130_ripemd256_prefix", "Verif.Props.C130_ripemd320_prefix", "Verif.Props.C130_search", "Verif.Props.C130_work", "Verif.Props.C130_blake2b_work", "Verif.Props.C130_user_work", "Verif.Props.C130_tiger_work", "Verif.Props.C130_ripemd128_work", "Verif.Props.C130_ripemd160_work", "Verif.Props.C130_ripemd256_work", "Verif.Props.C130_ripemd320_work"], "note": "union bound over the single-target theorems; for the sponges by the game itself, so that the term for inner collisions is counted once; the exact probabilities of exhaustive search from the laws of C118, C119, C124 and C128"},
{"property": "C14", "status": "partial", "theorems": ["Verif.Props.C14_word_pushes_partial", "Verif.Props.C14_completed_block_is_lost", "Verif.Props.C14_false", "Verif.Props.C14_first_word_overwritten", "Verif.Props.C14_exact_md", "Verif.Props.C14_exact_sponge", "Verif.Props.C14_exact_blake2b", "Verif.Props.C14_exact_nothing_lost", "Verif.Props.C14_exact_nothing_lost_blake2b", "Verif.Props.C14_exact_words_md", "Verif.Props.C14_exact_words_sponge", "Verif.Props.C14_exact_words_collide"], "note": "claim is false: a word push that starts word-aligned and completes a block leaves the block to be overwritten. The _partial theorem covers runs that never do this; the C14_exact theorems say what every program computes: the padded message with the lost blocks left out (with whole words only, all blocks but the last)"},
{"property": "C15", "status": "proved", "theorems": ["Verif.Props.C15_empty_update_is_noop", "Verif.Props.C15_bits_argument", "Verif.Props.C15_sponge_bits_argument", "Verif.Props.C15_haifa_bits_argument"], "note": ""},
{"property": "C16", "status": "proved", "theorems": ["Verif.Props.C16_fork", "Verif.Props.C16_sponge_fork", "Verif.Props.C16_haifa_fork"], "note": ""},
{"property": "C17", "status": "proved", "theorems": ["Verif.Props.C17_collision_reduction", "Verif.Props.C17_full_state", "Verif.Props.C17_truncated"], "note": ""},
{"property": "C18", "status": "proved", "theorems": ["Verif.Props.C18_pad101_injective", "Verif.Props.C18_domain_separation", "Verif.Props.C18_absorbed_blocks_injective"], "note": ""},
{"property": "C19", "status": "proved", "theorems": ["Verif.Props.C19_compression_calls", "Verif.Props.C19_number_of_calls", "Verif.Props.C19_sponge_calls", "Verif.Props.C19_haifa_calls"], "note": ""},
{"property": "C20", "status": "proved", "theorems": ["Verif.Props.C20_length_accounting", "Verif.Props.C20_encoded_length", "Verif.Props.C20_bits_count", "Verif.Props.C20_bits_count_ignores_default_push", "Verif.Props.C20_wrapped_counter_drops_last_block", "Verif.Props.C20_any_construction"], "note": "length field modulo 2^64; the wrap of the 64-bit counter is shown to drop the last block"},
{"property": "C21", "status": "proved", "theorems": ["Verif.Props.C21_permutation_is_fips202", "Verif.Props.C21_on_strings"], "note": "keccak_impl.hpp and sha3_functions.hpp"},
{"property": "C22", "status": "proved", "theorems": ["Verif.Props.C22_permutation_bijective", "Verif.Props.C22_absorb_bijective"], "note": ""},
{"property": "C23", "status": "proved", "theorems": ["Verif.Props.C23_compress_is_F", "Verif.Props.C23_compress_bytes"], "note": "All states, message words, 64-bit bit counters (byte counter = eighth, rounded up) and both flags."},
{"property": "C24", "status": "proved", "theorems": ["Verif.Props.C24_g_bijective", "Verif.Props.C24_round_bijective", "Verif.Props.C24_rounds_bijective"], "note": "g on any four different places; every round for any message indices; the 12 rounds."},
{"property": "C25", "status": "proved", "theorems": ["Verif.Props.C25_compress128", "Verif.Props.C25_compress160", "Verif.Props.C25_compress256", "Verif.Props.C25_compress320", "Verif.Props.C25_lines128_bijective", "Verif.Props.C25_lines160_bijective", "Verif.Props.C25_lines256_bijective", "Verif.Props.C25_lines320_bijective", "Verif.Props.C25_digest128", "Verif.Props.C25_digest160", "Verif.Props.C25_digest256", "Verif.Props.C25_digest320"], "note": "Compressors equal the published two-line definition for every state and block; line permutations; end-to-end digests of byte strings."},
{"property": "C26", "status": "partial", "theorems": ["Verif.Props.C26_compress", "Verif.Props.C26_mix_bijective", "Verif.Props.C26_pass_bijective", "Verif.Props.C26_passes_bijective", "Verif.Props.C26_digest", "Verif.Props.C26_truncation_partial", "Verif.Props.C26_tail160", "Verif.Props.C26_truncation_false", "Verif.Props.C26_exact"], "note": "Compression, invertibility and the byte-level digest are proved for every pass count >= 3, with the S-boxes specified by the published generator program. Truncation: tiger<128>/<160> do not compile (two-word state, three-word IV); for a three-word state truncation holds for whole-word sizes and is refuted for 160 bits."},
{"property": "C27", "status": "proved", "theorems": ["Verif.Props.C27_state_adder", "Verif.Props.C27_davies_meyer", "Verif.Props.C27_matyas_meyer_oseas", "Verif.Props.C27_miyaguchi_preneel", "Verif.Props.C27_davies_meyer_fixed_points", "Verif.Props.C27_sha1", "Verif.Props.C27_sha0", "Verif.Props.C27_sha224", "Verif.Props.C27_sha256", "Verif.Props.C27_sha384", "Verif.Props.C27_sha512", "Verif.Props.C27_md4", "Verif.Props.C27_md5"], "note": "modes word by word for every cipher; the SHA/MD hashes end to end for every block cipher that computes the rounds of the standard (Computes16; the ciphers are not in this repository)"},
{"property": "C28", "status": "partial", "theorems": ["Verif.Props.C28_streaming_partial", "Verif.Props.C28_checksum_unique", "Verif.Props.C28_chunking", "Verif.Props.C28_wide_push_false", "Verif.Props.C28_length_wraps", "Verif.Props.C28_bits_argument_ignored"], "note": "All parameters, byte sequences and cuts: digest = octets of the polynomial remainder, no out-of-range read. False for elements wider than a byte pushed directly into the accumulator (C28_wide_push_false) and for single ranges of 2^61 bytes or more (C28_length_wraps)."},
{"property": "C29", "status": "partial", "theorems": ["Verif.Props.C29_array_exact", "Verif.Props.C29_array_partial", "Verif.Props.C29_short_array_false", "Verif.Props.C29_long_array_false", "Verif.Props.C29_range", "Verif.Props.C29_pointer", "Verif.Props.C29_pointer_short", "Verif.Props.C29_back_inserter", "Verif.Props.C29_convert_twice", "Verif.Props.C29_back_inserter_times", "Verif.Props.C29_integral"], "note": "Exact sizes, ranges, iterators and integers of the digest width are right; conversion to a shorter array overruns it, to a longer one leaves indeterminate elements."},
{"property": "C30", "status": "proved", "theorems": ["Verif.Props.C30_merkle_damgard", "Verif.Props.C30_sponge", "Verif.Props.C30_blake2b"], "note": "All sequences of uses, all three construction families; hypotheses restrict each range to lengths for which C02/C05/C08 describe the digest."},
{"property": "C31", "status": "proved", "theorems": ["Verif.Props.C31_zcash", "Verif.Props.C31_empty"], "note": "All groups, bit strings and parameters; sizes below 2^64 bits and 2^32 segments."},
{"property": "C32", "status": "proved", "theorems": ["Verif.Props.C32_incremental"], "note": "Any pieces, ranges or iterators."},
{"property": "C33", "status": "partial", "theorems": ["Verif.Props.C33_repeat_partial", "Verif.Props.C33_history", "Verif.Props.C33_repeat_false"], "note": "False of the code for every message; the exact outputs of every history are proved."},
{"property": "C34", "status": "proved", "theorems": ["Verif.Props.C34_encoding_injective", "Verif.Props.C34_nonzero"], "note": "All admissible c."},
{"property": "C35", "status": "proved", "theorems": ["Verif.Props.C35_largest", "Verif.Props.C35_zcash_bound", "Verif.Props.C35_jubjub"], "note": "All moduli and chunk widths; integers wide enough for modulus*4^(chunk_bits+1)."},
{"property": "C36", "status": "partial", "theorems": ["Verif.Props.C36_find_group_hash_partial", "Verif.Props.C36_process_partial", "Verif.Props.C36_loop_partial", "Verif.Props.C36_endless_false", "Verif.Props.C36_small_order_false", "Verif.Props.C36_base_point_index", "Verif.Props.C36_urs", "Verif.Props.C36_default_dst", "Verif.Props.C36_exact"], "note": "First decodable candidate, for every history; termination is false if no candidate decodes, and small-order candidates trip an assertion."},
{"property": "C37", "status": "partial", "theorems": ["Verif.Props.C37_process_partial", "Verif.Props.C37_expand_message_xmd_partial", "Verif.Props.C37_sha256_partial"], "note": "Equality with RFC 9380 for every message, piecewise feeding, DST of 16..255 octets and every length that is a positive multiple of the digest size (every suite of the library); generic over verified hashes and for FIPS SHA-256. Missing: other lengths, for which the code overruns its output array (C39)."},
{"property": "C38", "status": "partial", "theorems": ["Verif.Props.C38_repeat_false", "Verif.Props.C38_repeat_collision", "Verif.Props.C38_history_partial", "Verif.Props.C38_sha256_history_partial"], "note": "False: extraction changes the accumulator. Exact outputs of every history are proved, equal repeated outputs imply a hash collision, and a concrete SHA-256/BLS12-381 witness is given."},
{"property": "C39", "status": "partial", "theorems": ["Verif.Props.C39_bounds_partial", "Verif.Props.C39_overrun_false"], "note": "False in general: exact characterisation, in range iff len_in_bytes is a positive multiple of the digest size."},
{"property": "C40", "status": "proved", "theorems": ["Verif.Props.C40_hash_to_field", "Verif.Props.C40_canonical", "Verif.Props.C40_suites"], "note": ""},
{"property": "C41", "status": "proved", "theorems": ["Verif.Props.C41_on_curve", "Verif.Props.C41_sign", "Verif.Props.C41_rfc", "Verif.Props.C41_rfc_unique", "Verif.Props.C41_sgn0_fp", "Verif.Props.C41_sgn0_fp2", "Verif.Props.C41_g1", "Verif.Props.C41_g2"], "note": "Every finite field and admissible A, B, Z; for the two suites the conditions (Z non-square, g(B/(ZA)) square, no root of g) are proved, and the sign is that of u without exception."},
{"property": "C42", "status": "proved", "theorems": ["Verif.Props.C42_evaluation", "Verif.Props.C42_g1", "Verif.Props.C42_g2"], "note": "Over every field of characteristic p (with a root of -1 for G2); the polynomial identity is evaluated on the coefficient tables."},
{"property": "C43", "status": "proved", "theorems": ["Verif.Props.C43_permutation", "Verif.Props.C43_bijective", "Verif.Props.C43_injective", "Verif.Props.C43_assertions"], "note": "Generic in the field, width, tables and round counts, both round orders; the instances with the library tables are separate."},
{"property": "C44", "status": "proved", "theorems": ["Verif.Props.C44_digest", "Verif.Props.C44_overloads", "Verif.Props.C44_interleaved", "Verif.Props.C44_library", "Verif.Props.C44_rate_zero"], "note": "Every list, every rate of at least one, every permutation; C44_rate_zero shows the out-of-range write at rate zero."},
{"property": "C45", "status": "partial", "theorems": ["Verif.Props.C45_false", "Verif.Props.C45_exact", "Verif.Props.C45_same_digest", "Verif.Props.C45_partial", "Verif.Props.C45_collision"], "note": "False as stated: no padding, so trailing zeros in an incomplete block are identified. C45_exact says exactly which lists are identified; C45_partial covers lists of equal length or full blocks; C45_collision reduces every other collision to the permutation."},
{"property": "C46", "status": "partial", "theorems": ["Verif.Props.C46_words", "Verif.Props.C46_wide_false", "Verif.Props.C46_leading_zero_false", "Verif.Props.C46_partial", "Verif.Props.C46_exact", "Verif.Props.C46_collide", "Verif.Props.C46_divides_false"], "note": "False as stated: undefined shift for words of 32 or more bits, and leading zero words of the last group are lost. C46_partial: injective on containers of equal length of words below 32 bits. C46_exact: containers of any lengths collide iff they agree up to zeros in front of the last group"},
{"property": "C47", "status": "partial", "theorems": ["Verif.Props.C47_false", "Verif.Props.C47_partial", "Verif.Props.C47_checks", "Verif.Props.C47_intended"], "note": "False: from width two on the generator never returns. Only width one is covered by C47_partial. C47_checks says which elements pass the checks, C47_intended that the matrix of the paper would then be MDS."},
{"property": "C48", "status": "proved", "theorems": ["Verif.Props.C48_poseidon", "Verif.Props.C48_reinforced_concrete", "Verif.Props.C48_nonzero", "Verif.Props.C48_update", "Verif.Props.C48_unique", "Verif.Props.C48_complete", "Verif.Props.C48_returns_iff", "Verif.Props.C48_reinforced_concrete_complete", "Verif.Props.C48_reinforced_concrete_library"], "note": "Both generators: what they return are the constants of the specified procedure (canonical, unique), they return with enough fuel exactly when the stream has enough words below the modulus, and the register is never zero. That the S-box tag differs from the reference is C62."},
{"property": "C49", "status": "partial", "theorems": ["Verif.Props.C49_concrete", "Verif.Props.C49_bricks_spec", "Verif.Props.C49_bricks", "Verif.Props.C49_bricks_library", "Verif.Props.C49_decompose", "Verif.Props.C49_compose_decompose", "Verif.Props.C49_library", "Verif.Props.C49_decompose_compose", "Verif.Props.C49_decompose_compose_false", "Verif.Props.C49_S_partial", "Verif.Props.C49_S_false", "Verif.Props.C49_bar", "Verif.Props.C49_buckets", "Verif.Props.C49_order_false"], "note": "Concrete and Bricks are bijections, decompose gives the mixed radix digits, compose inverts it on canonical elements. False of the code: the S-box leaves the digit range for every digit from 2 to p_min-1; moreover the buckets are taken in the wrong order, so that Bar would collide even with the right S-box (C49_order_false), while the reversed order gives a permutation (C49_buckets)."},
{"property": "C50", "status": "proved", "theorems": ["Verif.Props.C50_pow", "Verif.Props.C50_negative", "Verif.Props.C50_iterations", "Verif.Props.C50_no_overflow"], "note": "All bases and exponents."},
{"property": "C51", "status": "proved", "theorems": ["Verif.Props.C51_strxor", "Verif.Props.C51_involution", "Verif.Props.C51_commutative", "Verif.Props.C51_unequal", "Verif.Props.C51_overlap_false"], "note": "Separate or identical ranges; overlapping shifted ranges are shown to fail."},
{"property": "C52", "status": "proved", "theorems": ["Verif.Props.C52_pack_keeps_stream", "Verif.Props.C52_unpack", "Verif.Props.C52_pack_bijective", "Verif.Props.C52_views"], "note": "all octet and bit orders, all unit sizes (whole octets) one of which divides the other; the model is written from docs/pack.md, the pack header itself is not in the repository"},
{"property": "C53", "status": "proved", "theorems": ["Verif.Props.C53_sha2_initial_values", "Verif.Props.C53_blake2b_initial_value", "Verif.Props.C53_nibble_initial_values", "Verif.Props.C53_tiger_initial_value", "Verif.Props.C53_keccak_constants", "Verif.Props.C53_blake2b_sigma", "Verif.Props.C53_ripemd_rows", "Verif.Props.C53_ripemd_constants", "Verif.Props.C53_sha_md_ivs", "Verif.Props.C53_tiger_sboxes"], "note": "Whole tables against their published derivations."},
{"property": "C54", "status": "proved", "theorems": ["Verif.Props.C54_merkle_damgard", "Verif.Props.C54_blake2b", "Verif.Props.C54_sponge", "Verif.Props.C54_crc", "Verif.Props.C54_without_reset_false", "Verif.Props.C54_haifa_reset_state", "Verif.Props.C54_reset_state"], "note": "All histories and messages. Observations: digest() without reset() leaves the finished state in place, and haifa reset(s) never stores s itself."},
{"property": "C55", "status": "partial", "theorems": ["Verif.Props.C55_digest_info_partial", "Verif.Props.C55_sha2_false", "Verif.Props.C55_sha2_malformed", "Verif.Props.C55_ripemd_false", "Verif.Props.C55_sha2_exact", "Verif.Props.C55_sha2_empty_false", "Verif.Props.C55_sha0_false"], "note": "SHA-2 tables (empty for SHA-224 and SHA-384), the SHA-0 table (the one of SHA-1) and the RIPEMD table (but for 160 bits) are wrong; the others are proved to be DER DigestInfo prefixes."},
{"property": "C56", "status": "proved", "theorems": ["Verif.Props.C56_burst_errors"], "note": "All parameters with odd polynomial whose digest size is a number of octets (the exploder of pack needs 8 to divide it)."},
{"property": "C57", "status": "proved", "theorems": ["Verif.Props.C57_collision_relation"], "note": "All pairs."},
{"property": "C58", "status": "proved", "theorems": ["Verif.Props.C58_balanced", "Verif.Props.C58_statistical_distance", "Verif.Props.C58_bls12381"], "note": ""},
{"property": "C59", "status": "partial", "theorems": ["Verif.Props.C59_g1_false", "Verif.Props.C59_g1_partial", "Verif.Props.C59_g2", "Verif.Props.C59_g1_exceptional", "Verif.Props.C59_g1_iff"], "note": "G2 holds for every element. G1 fails exactly on sixteen elements (C59_g1_exceptional, C59_g1_iff), those mapped to the kernel of the 11-isogeny (generator instead of identity)."},
{"property": "C60", "status": "partial", "theorems": ["Verif.Props.C60_g2", "Verif.Props.C60_g1_partial", "Verif.Props.C60_effective_cofactors", "Verif.Props.C60_g2_points", "Verif.Props.C60_g1_points_partial", "Verif.Props.C60_g1_messages_partial", "Verif.Props.C60_g1_exact", "Verif.Props.C60_g1_iff"], "note": "G2 complete; G1 except for messages with a field element among the sixteen exceptional ones (C59): C60_g1_exact says what is computed for every message, C60_g1_iff that with the generator as one() the result is the right one exactly when neither field element is exceptional. C60_g2_points and C60_g1_messages_partial state it in the group of the curve (Mathlib). One extraction per accumulator (C38)."},
{"property": "C61", "status": "proved", "theorems": ["Verif.Props.C61_tables", "Verif.Props.C61_unique"], "note": "Kernel evaluation of the LFSR through a checker proved correct (Proof/GrainCheck.lean)."},
{"property": "C62", "status": "partial", "theorems": ["Verif.Props.C62_false"], "note": "False: the generator seeds S-box tag 1, the stored tables have tag 0; for all four tables the first constant already differs."},
{"property": "C63", "status": "proved", "theorems": ["Verif.Props.C63_mds"], "note": "All six matrices have Cauchy form; Cauchy matrices over a field are MDS."},
{"property": "C64", "status": "proved", "theorems": ["Verif.Props.C64_bijective", "Verif.Props.C64_policies", "Verif.Props.C64_bits"], "note": "Primality of the four moduli is proved by certificates."},
{"property": "C65", "status": "partial", "theorems": ["Verif.Props.C65_false", "Verif.Props.C65_partial"], "note": "False for security 128 and rate 8, whose policy has rate 4."},
{"property": "C66", "status": "partial", "theorems": ["Verif.Props.C66_false"], "note": "False: every call reads past the block."},
{"property": "C67", "status": "partial", "theorems": ["Verif.Props.C67_false", "Verif.Props.C67_partial", "Verif.Props.C67_exact", "Verif.Props.C67_collision"], "note": "False (reset sets the counter to 0, the constructor to 1): after a reset the first element is the chaining value (C67_exact), so collisions can be written down for every permutation (C67_collision); state.clear() on std::array does not even compile, the model reads it as clearing the words."},
{"property": "C68", "status": "partial", "theorems": ["Verif.Props.C68_partial", "Verif.Props.C68_bars_false", "Verif.Props.C68_false", "Verif.Props.C68_spec", "Verif.Props.C68_process_block", "Verif.Props.C68_process_block_inputs"], "note": "False of the code: with the only policy of the library the permutation is not injective, for any constants. Proved: no read outside the constants, and it is a bijection exactly when Bars is."},
{"property": "C69", "status": "partial", "theorems": ["Verif.Props.C69_partial", "Verif.Props.C69_false"], "note": "False of the code: rows two and three are exchanged."},
{"property": "C70", "status": "proved", "theorems": ["Verif.Props.C70_x86_64_is_fips202", "Verif.Props.C70_x86_64_instructions", "Verif.Props.C70_x86_64_manual", "Verif.Props.C70_x86_64_deterministic"], "note": "Instruction-level model; any initial registers and local arrays."},
{"property": "C71", "status": "proved", "theorems": ["Verif.Props.C71_armv8_is_fips202", "Verif.Props.C71_armv8_instructions", "Verif.Props.C71_armv8_manual"], "note": "Instruction-level model; any initial registers and stack words."},
{"property": "C72", "status": "proved", "theorems": ["Verif.Props.C72_avx2_is_fips202", "Verif.Props.C72_avx2_instructions", "Verif.Props.C72_avx2_manual"], "note": "Instruction-level model; the counter is 24 by hypothesis of the model (see C74)."},
{"property": "C73", "status": "partial", "theorems": ["Verif.Props.C73_avx512_ignores_lanes", "Verif.Props.C73_avx512_false", "Verif.Props.C73_avx512_partial", "Verif.Props.C73_avx512_instructions", "Verif.Props.C73_avx512_manual_partial", "Verif.Props.C73_avx512_layout", "Verif.Props.C73_avx512_computes"], "note": "False of the code for every content of the mask registers: the lanes are loaded into the wrong elements. Partial: with the right layout and masks the loop is Keccak-f."},
{"property": "C74", "status": "partial", "theorems": ["Verif.Props.C74_x86_64_registers_partial", "Verif.Props.C74_x86_64_operand_false", "Verif.Props.C74_armv8_registers", "Verif.Props.C74_avx2_counter_false", "Verif.Props.C74_avx2_registers_false", "Verif.Props.C74_avx2_partial"], "note": "True of ARMv8. False of AVX2 (r8-r10 undeclared) and of the x86-64 input operand [c]."},
{"property": "C75", "status": "partial", "theorems": ["Verif.Props.C75_builds_agree_partial", "Verif.Props.C75_processBlock_partial", "Verif.Props.C75_builds", "Verif.Props.C75_avx512_false", "Verif.Props.C75_digest_partial"], "note": "True of every build except 64-bit x86 with CRYPTO3_HAS_AVX512, where it is false."},
{"property": "C76", "status": "proved", "theorems": ["Verif.Props.C76_sponge_collision", "Verif.Props.C76_keccak_injective"], "note": "Both families and across them, every injective permutation (Keccak-f is one), histories with extractions anywhere as long as each is of a message the code supports."},
{"property": "C77", "status": "partial", "theorems": ["Verif.Props.C77_haifa_collision", "Verif.Props.C77_blake2b_collision", "Verif.Props.C77_bits_false", "Verif.Props.C77_truncated"], "note": "Proved for HAIFA over every compression function and for BLAKE2b-512 on byte strings. False for bit strings: the octet counter does not separate x from x0."},
{"property": "C78", "status": "partial", "theorems": ["Verif.Props.C78_suites", "Verif.Props.C78_lengths", "Verif.Props.C78_default_dst", "Verif.Props.C78_nonuniform_false", "Verif.Props.C78_default_g2", "Verif.Props.C78_default_g1_partial", "Verif.Props.C78_default_h2f", "Verif.Props.C78_assertions"], "note": "False for the nonuniform variant, whose default tag is that of the uniform suite. Everything else is proved (G1 points up to the exceptional inputs of C59)."},
{"property": "C79", "status": "proved", "theorems": ["Verif.Props.C79_msg_prime_injective", "Verif.Props.C79_expand_collision", "Verif.Props.C79_sha256_collision"], "note": ""},
{"property": "C80", "status": "proved", "theorems": ["Verif.Props.C80_errors_exact", "Verif.Props.C80_two_bits", "Verif.Props.C80_crc32_order", "Verif.Props.C80_crc32_two_bits", "Verif.Props.C80_odd_errors", "Verif.Props.C80_crc32_odd_undetected"], "note": "CRC-32 has an odd number of terms, so odd numbers of errors are not all detected (C80_crc32_odd_undetected)."},
{"property": "C81", "status": "proved", "theorems": ["Verif.Props.C81_suffix"], "note": ""},
{"property": "C82", "status": "proved", "theorems": ["Verif.Props.C82_md", "Verif.Props.C82_md_partial_words", "Verif.Props.C82_md_bytes", "Verif.Props.C82_sponge", "Verif.Props.C82_sponge_partial_words", "Verif.Props.C82_blake2b"], "note": "All three construction families; the exception is the defect of C14."},
{"property": "C83", "status": "partial", "theorems": ["Verif.Props.C83_block_partial", "Verif.Props.C83_word_partial", "Verif.Props.C83_block_full_partial", "Verif.Props.C83_short_tail_false", "Verif.Props.C83_after_incomplete_block_false", "Verif.Props.C83_lost_bits"], "note": "Proved for a push at a block or word start with room for the padding; refuted where no room is left (write outside the block) and behind an incomplete block (bits lost)."},
{"property": "C84", "status": "proved", "theorems": ["Verif.Props.C84_affine", "Verif.Props.C84_frame", "Verif.Props.C84_crc32_frame", "Verif.Props.C84_digest_order_false"], "note": "The digest octets in the returned order are not a valid CRC-32 trailer (C84_digest_order_false); reversed they are."},
{"property": "C85", "status": "proved", "theorems": ["Verif.Props.C85_extension", "Verif.Props.C85_cipher_hash", "Verif.Props.C85_collision_extends", "Verif.Props.C85_truncated_false", "Verif.Props.C17_full_state"], "note": "Full-state digests are all Merkle-Damgard hashes but SHA-224 and SHA-384 (C17_full_state)."},
{"property": "C86", "status": "partial", "theorems": ["Verif.Props.C86_md_partial", "Verif.Props.C86_md_collisions", "Verif.Props.C86_sha512_false", "Verif.Props.C86_blake2b_counters", "Verif.Props.C86_blake2b_false", "Verif.Props.C86_blake2b_collisions", "Verif.Props.C86_sponge_octets_lost", "Verif.Props.C86_sponge_collisions", "Verif.Props.C86_sponge_two_pieces", "Verif.Props.C86_sponge_false"], "note": "The code is wrong: the 64-bit bit counter wraps. Proved: the standard digest for the hashes with a 64-bit length field except for non-zero multiples of 2^64 bits (there the last block is dropped: collisions); SHA-384/512 encode the length modulo 2^64; BLAKE2b compresses with wrapped counters; Keccak and SHA-3 lose octets and depend on the cuts."},
{"property": "C87", "status": "partial", "theorems": ["Verif.Props.C87_partial", "Verif.Props.C87_collision", "Verif.Props.C87_index_wraps", "Verif.Props.C87_history"], "note": "The code is wrong for more than 2^32 segments: the index wraps and segments 2^32 apart can be exchanged. Proved: the exact digest and history for any number of segments (below 2^64 bits), the collision, and the exchange criterion up to 2^32 segments."},
{"property": "C88", "status": "partial", "theorems": ["Verif.Props.C88_partial", "Verif.Props.C88_false", "Verif.Props.C88_exchanged"], "note": "False as stated: the two-argument overload of the ordinary build absorbs its second argument first (C88_false, witness 0 and 1). Proved: agreement with the list overloads and with the exchanged call, for every builtin that computes the permutation."},
{"property": "C89", "status": "proved", "theorems": ["Verif.Props.C89_g1", "Verif.Props.C89_g2", "Verif.Props.C89_clear_cofactor", "Verif.Props.C89_group_orders", "Verif.Props.C89_parameters"], "note": "The group is that of the curve (Mathlib), its order computed in Lean; no point count is assumed. One extraction per accumulator (C38)."},
{"property": "C90", "status": "proved", "theorems": ["Verif.Props.C90_states", "Verif.Props.C90_active", "Verif.Props.C90_instances"], "note": "Counts are over the S-box inputs of the code, tied to permute round by round; MDS and observability are proved for each table."},
{"property": "C91", "status": "proved", "theorems": ["Verif.Props.C91_collision", "Verif.Props.C91_collision_any", "Verif.Props.C91_preimage", "Verif.Props.C91_preimage_any", "Verif.Props.C91_davies_meyer", "Verif.Props.C91_matyas_meyer_oseas", "Verif.Props.C91_miyaguchi_preneel", "Verif.Props.C91_converter_needed", "Verif.Props.C91_hashes"], "note": "Random cipher uniform among all families of permutations; deterministic adaptive attackers."},
{"property": "C92", "status": "proved", "theorems": ["Verif.Props.C92_collision", "Verif.Props.C92_collision_any", "Verif.Props.C92_preimage", "Verif.Props.C92_preimage_any", "Verif.Props.C92_sizes"], "note": "Random permutation uniform among all permutations of the 25 lanes; deterministic adaptive attackers."},
{"property": "C93", "status": "proved", "theorems": ["Verif.Props.C93_library", "Verif.Props.C93_collision", "Verif.Props.C93_collision_any", "Verif.Props.C93_preimage", "Verif.Props.C93_preimage_any"], "note": "Ideal cipher uniform among all families of permutations of sixteen words; deterministic adaptive attackers; messages of whole octets."},
{"property": "C94", "status": "partial", "theorems": ["Verif.Props.C94_iterators", "Verif.Props.C94_iterators_output", "Verif.Props.C94_iterators_accumulator", "Verif.Props.C94_range", "Verif.Props.C94_range_output", "Verif.Props.C94_range_output_partial", "Verif.Props.C94_range_accumulator", "Verif.Props.C94_lists", "Verif.Props.C94_arrays_false", "Verif.Props.C94_arrays_read", "Verif.Props.C94_iterators_read", "Verif.Props.C94_poseidon_iterators", "Verif.Props.C94_poseidon_elements", "Verif.Props.C94_poseidon_element", "Verif.Props.C94_poseidon_integers", "Verif.Props.C94_poseidon_missing_false", "Verif.Props.C94_poseidon_octets_false", "Verif.Props.C94_traits"], "note": "All forms resolve as intended except: two built-in arrays (or array and pointer) of the same element type are taken for an iterator pair; Poseidon lacks braced lists and range+output/accumulator; Poseidon hashes integers differently through iterators than through the container."},
{"property": "C95", "status": "partial", "theorems": ["Verif.Props.C95_arrays", "Verif.Props.C95_result", "Verif.Props.C95_string", "Verif.Props.C95_container", "Verif.Props.C95_integral_false", "Verif.Props.C95_integral_unused"], "note": "All targets except integers, for which the conversion is ambiguous or picks the container operator."},
{"property": "C96", "status": "proved", "theorems": ["Verif.Props.C96_collision", "Verif.Props.C96_collision_any", "Verif.Props.C96_preimage", "Verif.Props.C96_preimage_any", "Verif.Props.C96_meet"], "note": "Random permutation uniform among all permutations of the states; deterministic adaptive attackers; lists that agree after filling up with zeros are excluded (they always collide, C45)."},
{"property": "C97", "status": "proved", "theorems": ["Verif.Props.C97_joint", "Verif.Props.C97_uniform", "Verif.Props.C97_hash_to_field", "Verif.Props.C97_code", "Verif.Props.C97_code_field", "Verif.Props.C97_bls12381"], "note": "Constructions that compute a random function exist (collectingXmd_random); for lengths that are not multiples of the digest size the code overruns its output array (C39)."},
{"property": "C98", "status": "proved", "theorems": ["Verif.Props.C98_outcomes", "Verif.Props.C98_termination", "Verif.Props.C98_uniform", "Verif.Props.C98_success", "Verif.Props.C98_jubjub", "Verif.Props.C98_base_points"], "note": "Exact joint law of the outcomes of find_group_hash over all functions from the candidates to the digests. One number of encodings per point (t) is a hypothesis on the decoder, which is external; the examples use a group with the numbers of Jubjub and SHA-256's construction around the random function."},
{"property": "C99", "status": "proved", "theorems": ["Verif.Props.C99_collision", "Verif.Props.C99_messages", "Verif.Props.C99_preimage"], "note": "Messages fixed before the hash function. The examples have the numbers of Jubjub (order proved prime) and SHA-256's construction around the random function."}
]}
