Axioms of every theorem in MANIFEST.json (output of `#print axioms`; all names are in Verif.Props).

C01_incremental_eq_oneshot: propext, Classical.choice, Quot.sound
C02_byte_strings: propext, Classical.choice, Quot.sound
C02_digest_is_textbook: propext, Classical.choice, Quot.sound
C02_padding_minimal: propext, Classical.choice, Quot.sound
C03_tiger_padding: propext, Classical.choice, Quot.sound
C04_incremental_eq_oneshot: propext, Classical.choice, Quot.sound
C05_keccak_full: propext, Classical.choice, Quot.sound
C05_keccak_is_sponge: propext, Classical.choice, Quot.sound
C06_sha3_full: propext, Classical.choice, Quot.sound
C06_sha3_is_sponge: propext, Classical.choice, Quot.sound
C07_bit_padding_partial: propext, Classical.choice, Quot.sound
C07_exact: propext, Classical.choice, Quot.sound
C07_false: propext, Classical.choice, Quot.sound
C07_foreign_bit_matters: propext, Classical.choice, Quot.sound
C07_one_bit_messages_collide: propext, Classical.choice, Quot.sound
C07_short_tail_faults: propext, Classical.choice, Quot.sound
C07_tail_bits: propext, Quot.sound
C08_exact: propext, Classical.choice, Quot.sound
C08_false: propext, Classical.choice, Quot.sound
C08_rfc7693_partial: propext, Classical.choice, Quot.sound
C09_calls: propext, Classical.choice, Quot.sound
C09_counters: propext, Quot.sound
C09_incremental_eq_oneshot: propext, Classical.choice, Quot.sound
C100_fixed_point: propext, Classical.choice, Quot.sound
C100_fixed_points: propext, Classical.choice, Quot.sound
C100_haifa_multicollision: propext, Classical.choice, Quot.sound
C100_inner_collision: propext, Classical.choice, Quot.sound
C100_long_message: propext, Classical.choice, Quot.sound
C100_multicollision: propext, Classical.choice, Quot.sound
C100_ripemd_fixed_points: propext, Quot.sound
C100_rounds_bijective: propext, Classical.choice, Quot.sound
C101_armv8: propext, Classical.choice, Quot.sound
C101_avx2: propext, Classical.choice, Quot.sound
C101_avx512: propext, Classical.choice, Quot.sound
C101_x86_64: propext, Classical.choice, Quot.sound
C102_indifferentiable: propext, Classical.choice, Quot.sound
C103_distinguishable: propext, Classical.choice, Quot.sound
C103_hashes: propext
C104_collisions: propext, Classical.choice, Quot.sound
C104_distinguishable: propext, Classical.choice, Quot.sound
C104_extension: propext, Classical.choice, Quot.sound
C105_indifferentiable: propext, Classical.choice, Quot.sound
C106_blake_random: propext, Classical.choice, Quot.sound
C106_blake_unforgeable: propext, Classical.choice, Quot.sound
C106_sponge_random: propext, Classical.choice, Quot.sound
C106_sponge_unforgeable: propext, Classical.choice, Quot.sound
C107_forgery: propext, Classical.choice, Quot.sound
C108_hashes: propext
C108_indifferentiable: propext, Classical.choice, Quot.sound
C109_forgery: propext, Classical.choice, Quot.sound
C109_guess: propext, Classical.choice, Quot.sound
C109_random: propext, Classical.choice, Quot.sound
C109_unforgeable: propext, Classical.choice, Quot.sound
C10_extraction_does_not_disturb: propext, Classical.choice, Quot.sound
C10_haifa: propext, Classical.choice, Quot.sound
C10_sponge: propext, Classical.choice, Quot.sound
C110_forgery: propext, Classical.choice, Quot.sound
C110_zero: propext, Classical.choice, Quot.sound
C111_indifferentiable: propext, Classical.choice, Quot.sound
C111_random: propext, Classical.choice, Quot.sound
C111_unforgeable: propext, Classical.choice, Quot.sound
C112_bls12381: propext, Classical.choice, Quot.sound
C112_code: propext, Classical.choice, Quot.sound
C112_code_field: propext, Classical.choice, Quot.sound
C112_hash_to_field: propext, Classical.choice, Quot.sound
C112_indifferentiable: propext, Classical.choice, Quot.sound
C113_blake2b: propext, Classical.choice, Quot.sound
C113_merkle_damgard: propext, Classical.choice, Quot.sound
C113_sponge: propext, Classical.choice, Quot.sound
C114_code: propext, Classical.choice, Quot.sound
C114_collision: propext, Classical.choice, Quot.sound
C114_expand: propext, Classical.choice, Quot.sound
C114_field: propext, Classical.choice, Quot.sound
C114_g1: propext, Classical.choice, Quot.sound
C114_g1_exceptional: propext, Classical.choice, Quot.sound
C114_g2: propext, Classical.choice, Quot.sound
C114_hit: propext, Classical.choice, Quot.sound
C114_second: propext, Classical.choice, Quot.sound
C115_code_md4: propext, Classical.choice, Quot.sound
C115_code_md5: propext, Classical.choice, Quot.sound
C115_code_sha0: propext, Classical.choice, Quot.sound
C115_code_sha1: propext, Classical.choice, Quot.sound
C115_md4: propext, Quot.sound
C115_md5: propext, Quot.sound
C115_sha0: propext, Quot.sound
C115_sha1: propext, Quot.sound
C116_blake_false: propext, Quot.sound
C116_blake_iff_partial: propext, Classical.choice, Quot.sound
C116_sponge_false: propext, Classical.choice, Quot.sound
C116_sponge_iff_partial: propext, Classical.choice, Quot.sound
C117_forgery: propext, Classical.choice, Quot.sound
C117_inner: propext, Classical.choice, Quot.sound
C117_split: propext, Classical.choice, Quot.sound
C117_zero: propext, Classical.choice, Quot.sound
C118_birthday: propext, Classical.choice, Quot.sound
C118_collision: propext, Classical.choice, Quot.sound
C118_law: propext, Classical.choice, Quot.sound
C118_preimage: propext, Classical.choice, Quot.sound
C118_search: propext, Classical.choice, Quot.sound
C118_tight: propext, Classical.choice, Quot.sound
C119_blake_birthday: propext, Classical.choice, Quot.sound
C119_blake_collision: propext, Classical.choice, Quot.sound
C119_blake_law: propext, Classical.choice, Quot.sound
C119_blake_preimage: propext, Classical.choice, Quot.sound
C119_blake_search: propext, Classical.choice, Quot.sound
C119_blake_tight: propext, Classical.choice, Quot.sound
C119_sponge_birthday: propext, Classical.choice, Quot.sound
C119_sponge_collision: propext, Classical.choice, Quot.sound
C119_sponge_preimage: propext, Classical.choice, Quot.sound
C119_sponge_search: propext, Classical.choice, Quot.sound
C119_sponge_tight: propext, Classical.choice, Quot.sound
C11_range_kind_irrelevant: propext
C120_birthday: propext, Classical.choice, Quot.sound
C120_collision: propext, Classical.choice, Quot.sound
C120_exists: propext, Classical.choice, Quot.sound
C120_preimage: propext, Classical.choice, Quot.sound
C120_search: propext, Classical.choice, Quot.sound
C120_tight: propext, Classical.choice, Quot.sound
C121_attack: propext, Classical.choice, Quot.sound
C121_exists: propext, Classical.choice, Quot.sound
C121_tight: propext, Classical.choice, Quot.sound
C122_ripemd128_collision: propext, Classical.choice, Quot.sound
C122_ripemd128_library: propext, Classical.choice, Quot.sound
C122_ripemd128_preimage: propext, Classical.choice, Quot.sound
C122_ripemd160_collision: propext, Classical.choice, Quot.sound
C122_ripemd160_library: propext, Classical.choice, Quot.sound
C122_ripemd160_preimage: propext, Classical.choice, Quot.sound
C122_ripemd256_collision: propext, Classical.choice, Quot.sound
C122_ripemd256_library: propext, Classical.choice, Quot.sound
C122_ripemd256_preimage: propext, Classical.choice, Quot.sound
C122_ripemd320_collision: propext, Classical.choice, Quot.sound
C122_ripemd320_library: propext, Classical.choice, Quot.sound
C122_ripemd320_preimage: propext, Classical.choice, Quot.sound
C122_tiger_collision: propext, Classical.choice, Quot.sound
C122_tiger_library: propext, Classical.choice, Quot.sound
C122_tiger_preimage: propext, Classical.choice, Quot.sound
C123_bijective: propext, Classical.choice, Quot.sound
C123_keeps_stream: propext, Classical.choice, Quot.sound
C123_octets: propext, Quot.sound
C123_prose_false: propext
C123_reversals: propext, Quot.sound
C123_unpack: propext, Classical.choice, Quot.sound
C124_ripemd128_collision: propext, Classical.choice, Quot.sound
C124_ripemd128_law: propext, Classical.choice, Quot.sound
C124_ripemd128_preimage: propext, Classical.choice, Quot.sound
C124_ripemd160_collision: propext, Classical.choice, Quot.sound
C124_ripemd160_law: propext, Classical.choice, Quot.sound
C124_ripemd160_preimage: propext, Classical.choice, Quot.sound
C124_ripemd256_collision: propext, Classical.choice, Quot.sound
C124_ripemd256_law: propext, Classical.choice, Quot.sound
C124_ripemd256_preimage: propext, Classical.choice, Quot.sound
C124_ripemd320_collision: propext, Classical.choice, Quot.sound
C124_ripemd320_law: propext, Classical.choice, Quot.sound
C124_ripemd320_preimage: propext, Classical.choice, Quot.sound
C124_tiger_collision: propext, Classical.choice, Quot.sound
C124_tiger_law: propext, Classical.choice, Quot.sound
C124_tiger_preimage: propext, Classical.choice, Quot.sound
C125_collision: propext, Classical.choice, Quot.sound
C125_hash: propext, Classical.choice, Quot.sound
C125_length_type: propext, Quot.sound
C125_wrap: propext, Classical.choice, Quot.sound
C126_collision_partial: propext, Classical.choice, Quot.sound
C126_hash_partial: propext, Classical.choice, Quot.sound
C126_long_key_false: propext, Quot.sound
C126_preimage_partial: propext, Classical.choice, Quot.sound
C126_short_key_false: propext, Quot.sound
C127_collision: propext, Classical.choice, Quot.sound
C127_hash: propext, Classical.choice, Quot.sound
C127_preimage: propext, Classical.choice, Quot.sound
C128_collision: propext, Classical.choice, Quot.sound
C128_law: propext, Classical.choice, Quot.sound
C128_preimage: propext, Classical.choice, Quot.sound
C129_collision: propext, Classical.choice, Quot.sound
C129_haifa: propext, Classical.choice, Quot.sound
C129_haifa_collision: propext, Classical.choice, Quot.sound
C129_sponge: propext, Classical.choice, Quot.sound
C12_garbage_never_reaches_digest: propext, Classical.choice, Quot.sound
C12_haifa: propext, Classical.choice, Quot.sound
C12_sponge: propext, Classical.choice, Quot.sound
C130_blake2b: propext, Classical.choice, Quot.sound
C130_blake2b_prefix: propext, Classical.choice, Quot.sound
C130_blake2b_work: propext, Classical.choice, Quot.sound
C130_davies_meyer: propext, Classical.choice, Quot.sound
C130_poseidon: propext, Classical.choice, Quot.sound
C130_prefix: propext, Classical.choice, Quot.sound
C130_ripemd128: propext, Classical.choice, Quot.sound
C130_ripemd128_prefix: propext, Classical.choice, Quot.sound
C130_ripemd128_work: propext, Classical.choice, Quot.sound
C130_ripemd160: propext, Classical.choice, Quot.sound
C130_ripemd160_prefix: propext, Classical.choice, Quot.sound
C130_ripemd160_work: propext, Classical.choice, Quot.sound
C130_ripemd256: propext, Classical.choice, Quot.sound
C130_ripemd256_prefix: propext, Classical.choice, Quot.sound
C130_ripemd256_work: propext, Classical.choice, Quot.sound
C130_ripemd320: propext, Classical.choice, Quot.sound
C130_ripemd320_prefix: propext, Classical.choice, Quot.sound
C130_ripemd320_work: propext, Classical.choice, Quot.sound
C130_search: propext, Classical.choice, Quot.sound
C130_sponge: propext, Classical.choice, Quot.sound
C130_sponge_prefix: propext, Classical.choice, Quot.sound
C130_tiger: propext, Classical.choice, Quot.sound
C130_tiger_prefix: propext, Classical.choice, Quot.sound
C130_tiger_work: propext, Classical.choice, Quot.sound
C130_user: propext, Classical.choice, Quot.sound
C130_user_prefix: propext, Classical.choice, Quot.sound
C130_user_work: propext, Classical.choice, Quot.sound
C130_work: propext, Classical.choice, Quot.sound
C13_byte_data: propext, Classical.choice, Quot.sound
C13_haifa: propext, Classical.choice, Quot.sound
C13_haifa_unbounded: propext, Classical.choice, Quot.sound
C13_no_out_of_range: propext, Classical.choice, Quot.sound
C13_sponge_byte_data: propext, Classical.choice, Quot.sound
C13_sponge_unbounded: propext, Classical.choice, Quot.sound
C13_tiger_bits_fault: propext, Quot.sound
C13_words_blake2b: propext, Classical.choice, Quot.sound
C13_words_md: propext, Classical.choice, Quot.sound
C13_words_sponge: propext, Classical.choice, Quot.sound
C14_completed_block_is_lost: propext, Classical.choice, Quot.sound
C14_exact_blake2b: propext, Classical.choice, Quot.sound
C14_exact_md: propext, Classical.choice, Quot.sound
C14_exact_nothing_lost: propext, Quot.sound
C14_exact_nothing_lost_blake2b: propext, Quot.sound
C14_exact_sponge: propext, Classical.choice, Quot.sound
C14_exact_words_collide: propext, Classical.choice, Quot.sound
C14_exact_words_md: propext, Classical.choice, Quot.sound
C14_exact_words_sponge: propext, Classical.choice, Quot.sound
C14_false: propext, Classical.choice, Quot.sound
C14_first_word_overwritten: propext, Quot.sound
C14_word_pushes_partial: propext, Classical.choice, Quot.sound
C15_bits_argument: propext, Classical.choice, Quot.sound
C15_empty_update_is_noop: propext
C15_haifa_bits_argument: propext, Classical.choice, Quot.sound
C15_sponge_bits_argument: propext, Classical.choice, Quot.sound
C16_fork: propext, Classical.choice, Quot.sound
C16_haifa_fork: propext, Classical.choice, Quot.sound
C16_sponge_fork: propext, Classical.choice, Quot.sound
C17_collision_reduction: propext, Classical.choice, Quot.sound
C17_full_state: none
C17_truncated: propext, Classical.choice, Quot.sound
C18_absorbed_blocks_injective: propext, Classical.choice, Quot.sound
C18_domain_separation: propext, Quot.sound
C18_pad101_injective: propext
C19_compression_calls: propext, Classical.choice, Quot.sound
C19_haifa_calls: propext
C19_number_of_calls: propext, Quot.sound
C19_sponge_calls: propext, Classical.choice, Quot.sound
C20_any_construction: propext, Quot.sound
C20_bits_count: propext, Classical.choice, Quot.sound
C20_bits_count_ignores_default_push: propext, Classical.choice, Quot.sound
C20_encoded_length: propext, Classical.choice, Quot.sound
C20_length_accounting: propext, Classical.choice, Quot.sound
C20_wrapped_counter_drops_last_block: propext, Classical.choice, Quot.sound
C21_on_strings: propext, Classical.choice, Quot.sound
C21_permutation_is_fips202: propext, Classical.choice, Quot.sound
C22_absorb_bijective: propext, Classical.choice, Quot.sound
C22_permutation_bijective: propext, Classical.choice, Quot.sound
C23_compress_bytes: propext, Classical.choice, Quot.sound
C23_compress_is_F: propext, Classical.choice, Quot.sound
C24_g_bijective: propext, Classical.choice, Quot.sound
C24_round_bijective: propext, Classical.choice, Quot.sound
C24_rounds_bijective: propext, Classical.choice, Quot.sound
C25_compress128: propext, Quot.sound
C25_compress160: propext, Quot.sound
C25_compress256: propext, Quot.sound
C25_compress320: propext, Quot.sound
C25_digest128: propext, Classical.choice, Quot.sound
C25_digest160: propext, Classical.choice, Quot.sound
C25_digest256: propext, Classical.choice, Quot.sound
C25_digest320: propext, Classical.choice, Quot.sound
C25_lines128_bijective: propext, Quot.sound
C25_lines160_bijective: propext, Quot.sound
C25_lines256_bijective: propext, Quot.sound
C25_lines320_bijective: propext, Quot.sound
C26_compress: propext, Classical.choice, Quot.sound
C26_digest: propext, Classical.choice, Quot.sound
C26_exact: propext, Classical.choice, Quot.sound
C26_mix_bijective: propext, Classical.choice, Quot.sound
C26_pass_bijective: propext, Classical.choice, Quot.sound
C26_passes_bijective: propext, Classical.choice, Quot.sound
C26_tail160: propext, Classical.choice, Quot.sound
C26_truncation_false: propext, Classical.choice, Quot.sound
C26_truncation_partial: propext, Classical.choice, Quot.sound
C27_davies_meyer: propext, Classical.choice, Quot.sound
C27_davies_meyer_fixed_points: propext, Classical.choice, Quot.sound
C27_matyas_meyer_oseas: propext, Classical.choice, Quot.sound
C27_md4: propext, Classical.choice, Quot.sound
C27_md5: propext, Classical.choice, Quot.sound
C27_miyaguchi_preneel: propext, Classical.choice, Quot.sound
C27_sha0: propext, Classical.choice, Quot.sound
C27_sha1: propext, Classical.choice, Quot.sound
C27_sha224: propext, Classical.choice, Quot.sound
C27_sha256: propext, Classical.choice, Quot.sound
C27_sha384: propext, Classical.choice, Quot.sound
C27_sha512: propext, Classical.choice, Quot.sound
C27_state_adder: propext, Classical.choice, Quot.sound
C28_bits_argument_ignored: propext, Quot.sound
C28_checksum_unique: propext, Classical.choice, Quot.sound
C28_chunking: propext, Classical.choice, Quot.sound
C28_length_wraps: propext, Quot.sound
C28_streaming_partial: propext, Classical.choice, Quot.sound
C28_wide_push_false: propext, Quot.sound
C29_array_exact: propext, Classical.choice, Quot.sound
C29_array_partial: propext, Classical.choice, Quot.sound
C29_back_inserter: propext
C29_back_inserter_times: propext
C29_convert_twice: propext, Classical.choice, Quot.sound
C29_integral: propext, Quot.sound
C29_long_array_false: propext, Classical.choice, Quot.sound
C29_pointer: propext, Classical.choice, Quot.sound
C29_pointer_short: propext, Classical.choice, Quot.sound
C29_range: propext
C29_short_array_false: propext, Classical.choice, Quot.sound
C30_blake2b: propext, Classical.choice, Quot.sound
C30_merkle_damgard: propext, Classical.choice, Quot.sound
C30_sponge: propext, Classical.choice, Quot.sound
C31_empty: propext, Classical.choice, Quot.sound
C31_zcash: propext, Classical.choice, Quot.sound
C32_incremental: propext, Classical.choice, Quot.sound
C33_history: propext, Classical.choice, Quot.sound
C33_repeat_false: propext, Classical.choice, Quot.sound
C33_repeat_partial: propext, Classical.choice, Quot.sound
C34_encoding_injective: propext, Classical.choice, Quot.sound
C34_nonzero: propext, Classical.choice, Quot.sound
C35_jubjub: propext, Classical.choice, Quot.sound
C35_largest: propext, Classical.choice, Quot.sound
C35_zcash_bound: propext, Classical.choice, Quot.sound
C36_base_point_index: propext, Classical.choice, Quot.sound
C36_default_dst: propext, Classical.choice, Quot.sound
C36_endless_false: propext, Classical.choice, Quot.sound
C36_exact: propext, Classical.choice, Quot.sound
C36_find_group_hash_partial: propext, Classical.choice, Quot.sound
C36_loop_partial: propext, Classical.choice, Quot.sound
C36_process_partial: propext, Classical.choice, Quot.sound
C36_small_order_false: propext, Classical.choice, Quot.sound
C36_urs: propext, Classical.choice, Quot.sound
C37_expand_message_xmd_partial: propext, Classical.choice, Quot.sound
C37_process_partial: propext, Classical.choice, Quot.sound
C37_sha256_partial: propext, Classical.choice, Quot.sound
C38_history_partial: propext, Classical.choice, Quot.sound
C38_repeat_collision: propext, Classical.choice, Quot.sound
C38_repeat_false: propext, Classical.choice, Quot.sound
C38_sha256_history_partial: propext, Classical.choice, Quot.sound
C39_bounds_partial: propext, Classical.choice, Quot.sound
C39_overrun_false: propext, Classical.choice, Quot.sound
C40_canonical: propext, Quot.sound
C40_hash_to_field: propext, Quot.sound
C40_suites: propext, Classical.choice, Quot.sound
C41_g1: propext, Classical.choice, Quot.sound
C41_g2: propext, Classical.choice, Quot.sound
C41_on_curve: propext, Classical.choice, Quot.sound
C41_rfc: propext, Classical.choice, Quot.sound
C41_rfc_unique: propext, Classical.choice, Quot.sound
C41_sgn0_fp2: propext, Classical.choice, Quot.sound
C41_sgn0_fp: propext, Quot.sound
C41_sign: propext, Classical.choice, Quot.sound
C42_evaluation: propext, Classical.choice, Quot.sound
C42_g1: propext, Classical.choice, Quot.sound
C42_g2: propext, Classical.choice, Quot.sound
C43_assertions: propext, Classical.choice, Quot.sound
C43_bijective: propext, Classical.choice, Quot.sound
C43_injective: propext, Classical.choice, Quot.sound
C43_permutation: propext, Classical.choice, Quot.sound
C44_digest: propext, Classical.choice, Quot.sound
C44_interleaved: propext, Classical.choice, Quot.sound
C44_library: propext, Classical.choice, Quot.sound
C44_overloads: propext, Classical.choice, Quot.sound
C44_rate_zero: propext
C45_collision: propext, Classical.choice, Quot.sound
C45_exact: propext, Quot.sound
C45_false: propext, Classical.choice, Quot.sound
C45_partial: propext, Quot.sound
C45_same_digest: propext, Quot.sound
C46_collide: propext, Classical.choice, Quot.sound
C46_divides_false: propext, Classical.choice, Quot.sound
C46_exact: propext, Classical.choice, Quot.sound
C46_leading_zero_false: propext, Classical.choice, Quot.sound
C46_partial: propext, Classical.choice, Quot.sound
C46_wide_false: propext, Quot.sound
C46_words: propext, Classical.choice, Quot.sound
C47_checks: propext, Classical.choice, Quot.sound
C47_false: propext, Classical.choice, Quot.sound
C47_intended: propext, Classical.choice, Quot.sound
C47_partial: propext, Classical.choice, Quot.sound
C48_complete: propext, Classical.choice, Quot.sound
C48_nonzero: propext, Classical.choice, Quot.sound
C48_poseidon: propext, Classical.choice, Quot.sound
C48_reinforced_concrete: propext, Classical.choice, Quot.sound
C48_reinforced_concrete_complete: propext, Classical.choice, Quot.sound
C48_reinforced_concrete_library: propext, Classical.choice, Quot.sound
C48_returns_iff: propext, Classical.choice, Quot.sound
C48_unique: propext, Classical.choice, Quot.sound
C48_update: propext, Classical.choice, Quot.sound
C49_S_false: propext, Classical.choice, Quot.sound
C49_S_partial: propext, Classical.choice, Quot.sound
C49_bar: propext, Classical.choice, Quot.sound
C49_bricks: propext, Classical.choice, Quot.sound
C49_bricks_library: propext, Classical.choice, Quot.sound
C49_bricks_spec: propext, Classical.choice, Quot.sound
C49_buckets: propext, Classical.choice, Quot.sound
C49_compose_decompose: propext, Classical.choice, Quot.sound
C49_concrete: propext, Classical.choice, Quot.sound
C49_decompose: propext, Classical.choice, Quot.sound
C49_decompose_compose: propext, Classical.choice, Quot.sound
C49_decompose_compose_false: propext, Classical.choice, Quot.sound
C49_library: propext, Classical.choice, Quot.sound
C49_order_false: propext, Classical.choice, Quot.sound
C50_iterations: propext, Classical.choice, Quot.sound
C50_negative: propext, Classical.choice, Quot.sound
C50_no_overflow: propext, Classical.choice, Quot.sound
C50_pow: propext, Classical.choice, Quot.sound
C51_commutative: propext, Quot.sound
C51_involution: propext, Quot.sound
C51_overlap_false: propext, Quot.sound
C51_strxor: propext, Quot.sound
C51_unequal: propext, Quot.sound
C52_pack_bijective: propext, Classical.choice, Quot.sound
C52_pack_keeps_stream: propext, Classical.choice, Quot.sound
C52_unpack: propext, Classical.choice, Quot.sound
C52_views: propext, Quot.sound
C53_blake2b_initial_value: propext, Quot.sound
C53_blake2b_sigma: propext, Quot.sound
C53_keccak_constants: propext, Quot.sound
C53_nibble_initial_values: propext, Quot.sound
C53_ripemd_constants: propext
C53_ripemd_rows: propext
C53_sha2_initial_values: propext, Quot.sound
C53_sha_md_ivs: propext, Classical.choice, Quot.sound
C53_tiger_initial_value: propext, Quot.sound
C53_tiger_sboxes: propext, Classical.choice, Quot.sound
C54_blake2b: propext, Classical.choice, Quot.sound
C54_crc: propext, Quot.sound
C54_haifa_reset_state: propext, Quot.sound
C54_merkle_damgard: propext, Classical.choice, Quot.sound
C54_reset_state: propext, Quot.sound
C54_sponge: propext, Classical.choice, Quot.sound
C54_without_reset_false: propext, Quot.sound
C55_digest_info_partial: propext, Quot.sound
C55_ripemd_false: propext, Classical.choice, Quot.sound
C55_sha0_false: propext, Quot.sound
C55_sha2_empty_false: propext, Quot.sound
C55_sha2_exact: propext
C55_sha2_false: propext, Classical.choice, Quot.sound
C55_sha2_malformed: propext, Classical.choice, Quot.sound
C56_burst_errors: propext, Classical.choice, Quot.sound
C57_collision_relation: propext, Classical.choice, Quot.sound
C58_balanced: propext, Classical.choice, Quot.sound
C58_bls12381: propext, Classical.choice, Quot.sound
C58_statistical_distance: propext, Classical.choice, Quot.sound
C59_g1_exceptional: propext, Classical.choice, Quot.sound
C59_g1_false: propext, Classical.choice, Quot.sound
C59_g1_iff: propext, Classical.choice, Quot.sound
C59_g1_partial: propext, Classical.choice, Quot.sound
C59_g2: propext, Classical.choice, Quot.sound
C60_effective_cofactors: propext, Classical.choice, Quot.sound
C60_g1_exact: propext, Classical.choice, Quot.sound
C60_g1_iff: propext, Classical.choice, Quot.sound
C60_g1_messages_partial: propext, Classical.choice, Quot.sound
C60_g1_partial: propext, Classical.choice, Quot.sound
C60_g1_points_partial: propext, Classical.choice, Quot.sound
C60_g2: propext, Classical.choice, Quot.sound
C60_g2_points: propext, Classical.choice, Quot.sound
C61_tables: propext, Classical.choice, Quot.sound
C61_unique: propext, Classical.choice, Quot.sound
C62_false: propext, Classical.choice, Quot.sound
C63_mds: propext, Classical.choice, Quot.sound
C64_bijective: propext, Classical.choice, Quot.sound
C64_bits: propext
C64_policies: none
C65_false: none
C65_partial: propext
C66_false: propext, Classical.choice, Quot.sound
C67_collision: propext, Classical.choice, Quot.sound
C67_exact: propext, Classical.choice, Quot.sound
C67_false: propext, Classical.choice, Quot.sound
C67_partial: propext, Classical.choice, Quot.sound
C68_bars_false: propext, Classical.choice, Quot.sound
C68_false: propext, Classical.choice, Quot.sound
C68_partial: propext, Classical.choice, Quot.sound
C68_process_block: propext, Classical.choice, Quot.sound
C68_process_block_inputs: propext, Classical.choice, Quot.sound
C68_spec: propext, Classical.choice, Quot.sound
C69_false: propext, Classical.choice, Quot.sound
C69_partial: propext, Classical.choice, Quot.sound
C70_x86_64_deterministic: propext, Quot.sound
C70_x86_64_instructions: propext, Classical.choice, Quot.sound
C70_x86_64_is_fips202: propext, Classical.choice, Quot.sound
C70_x86_64_manual: propext, Classical.choice, Quot.sound
C71_armv8_instructions: propext, Classical.choice, Quot.sound
C71_armv8_is_fips202: propext, Classical.choice, Quot.sound
C71_armv8_manual: propext, Classical.choice, Quot.sound
C72_avx2_instructions: propext, Classical.choice, Quot.sound
C72_avx2_is_fips202: propext, Classical.choice, Quot.sound
C72_avx2_manual: propext, Classical.choice, Quot.sound
C73_avx512_computes: propext, Classical.choice, Quot.sound
C73_avx512_false: propext, Classical.choice, Quot.sound
C73_avx512_ignores_lanes: propext, Classical.choice, Quot.sound
C73_avx512_instructions: propext, Classical.choice, Quot.sound
C73_avx512_layout: propext, Quot.sound
C73_avx512_manual_partial: propext, Classical.choice, Quot.sound
C73_avx512_partial: propext, Classical.choice, Quot.sound
C74_armv8_registers: propext, Classical.choice, Quot.sound
C74_avx2_counter_false: propext, Quot.sound
C74_avx2_partial: propext, Quot.sound
C74_avx2_registers_false: propext, Quot.sound
C74_x86_64_operand_false: propext, Classical.choice, Quot.sound
C74_x86_64_registers_partial: propext, Quot.sound
C75_avx512_false: propext, Classical.choice, Quot.sound
C75_builds: propext
C75_builds_agree_partial: propext, Classical.choice, Quot.sound
C75_digest_partial: propext, Classical.choice, Quot.sound
C75_processBlock_partial: propext, Classical.choice, Quot.sound
C76_keccak_injective: propext, Classical.choice, Quot.sound
C76_sponge_collision: propext, Classical.choice, Quot.sound
C77_bits_false: propext, Classical.choice, Quot.sound
C77_blake2b_collision: propext, Classical.choice, Quot.sound
C77_haifa_collision: propext, Classical.choice, Quot.sound
C77_truncated: propext, Classical.choice, Quot.sound
C78_assertions: propext, Classical.choice, Quot.sound
C78_default_dst: propext, Classical.choice, Quot.sound
C78_default_g1_partial: propext, Classical.choice, Quot.sound
C78_default_g2: propext, Classical.choice, Quot.sound
C78_default_h2f: propext, Classical.choice, Quot.sound
C78_lengths: propext, Classical.choice, Quot.sound
C78_nonuniform_false: propext, Classical.choice, Quot.sound
C78_suites: propext, Classical.choice, Quot.sound
C79_expand_collision: propext, Quot.sound
C79_msg_prime_injective: propext, Quot.sound
C79_sha256_collision: propext, Classical.choice, Quot.sound
C80_crc32_odd_undetected: propext, Quot.sound
C80_crc32_order: propext, Classical.choice, Quot.sound
C80_crc32_two_bits: propext, Classical.choice, Quot.sound
C80_errors_exact: propext, Classical.choice, Quot.sound
C80_odd_errors: propext, Classical.choice, Quot.sound
C80_two_bits: propext, Classical.choice, Quot.sound
C81_suffix: propext, Classical.choice, Quot.sound
C82_blake2b: propext, Classical.choice, Quot.sound
C82_md: propext, Classical.choice, Quot.sound
C82_md_bytes: propext, Classical.choice, Quot.sound
C82_md_partial_words: propext, Classical.choice, Quot.sound
C82_sponge: propext, Classical.choice, Quot.sound
C82_sponge_partial_words: propext, Classical.choice, Quot.sound
C83_after_incomplete_block_false: propext, Classical.choice, Quot.sound
C83_block_full_partial: propext, Classical.choice, Quot.sound
C83_block_partial: propext, Classical.choice, Quot.sound
C83_lost_bits: propext, Classical.choice, Quot.sound
C83_short_tail_false: propext, Classical.choice, Quot.sound
C83_word_partial: propext, Classical.choice, Quot.sound
C84_affine: propext, Classical.choice, Quot.sound
C84_crc32_frame: propext, Classical.choice, Quot.sound
C84_digest_order_false: propext, Quot.sound
C84_frame: propext, Classical.choice, Quot.sound
C85_cipher_hash: propext, Classical.choice, Quot.sound
C85_collision_extends: propext, Quot.sound
C85_extension: propext, Classical.choice, Quot.sound
C85_truncated_false: propext, Quot.sound
C86_blake2b_collisions: propext, Classical.choice, Quot.sound
C86_blake2b_counters: propext, Classical.choice, Quot.sound
C86_blake2b_false: propext, Quot.sound
C86_md_collisions: propext, Classical.choice, Quot.sound
C86_md_partial: propext, Classical.choice, Quot.sound
C86_sha512_false: propext, Classical.choice, Quot.sound
C86_sponge_collisions: propext, Classical.choice, Quot.sound
C86_sponge_false: propext, Classical.choice, Quot.sound
C86_sponge_octets_lost: propext, Classical.choice, Quot.sound
C86_sponge_two_pieces: propext, Classical.choice, Quot.sound
C87_collision: propext, Classical.choice, Quot.sound
C87_history: propext, Classical.choice, Quot.sound
C87_index_wraps: propext, Classical.choice, Quot.sound
C87_partial: propext, Classical.choice, Quot.sound
C88_exchanged: propext, Classical.choice, Quot.sound
C88_false: propext, Classical.choice, Quot.sound
C88_partial: propext, Classical.choice, Quot.sound
C89_clear_cofactor: propext, Classical.choice, Quot.sound
C89_g1: propext, Classical.choice, Quot.sound
C89_g2: propext, Classical.choice, Quot.sound
C89_group_orders: propext, Classical.choice, Quot.sound
C89_parameters: propext, Quot.sound
C90_active: propext, Classical.choice, Quot.sound
C90_instances: propext, Classical.choice, Quot.sound
C90_states: propext, Classical.choice, Quot.sound
C91_collision: propext, Classical.choice, Quot.sound
C91_collision_any: propext, Classical.choice, Quot.sound
C91_converter_needed: propext, Classical.choice, Quot.sound
C91_davies_meyer: propext, Classical.choice, Quot.sound
C91_hashes: propext
C91_matyas_meyer_oseas: propext, Classical.choice, Quot.sound
C91_miyaguchi_preneel: propext, Classical.choice, Quot.sound
C91_preimage: propext, Classical.choice, Quot.sound
C91_preimage_any: propext, Classical.choice, Quot.sound
C92_collision: propext, Classical.choice, Quot.sound
C92_collision_any: propext, Classical.choice, Quot.sound
C92_preimage: propext, Classical.choice, Quot.sound
C92_preimage_any: propext, Classical.choice, Quot.sound
C92_sizes: propext, Quot.sound
C93_collision: propext, Classical.choice, Quot.sound
C93_collision_any: propext, Classical.choice, Quot.sound
C93_library: propext, Classical.choice, Quot.sound
C93_preimage: propext, Classical.choice, Quot.sound
C93_preimage_any: propext, Classical.choice, Quot.sound
C94_arrays_false: propext, Quot.sound
C94_arrays_read: propext
C94_iterators: propext, Quot.sound
C94_iterators_accumulator: propext, Quot.sound
C94_iterators_output: propext, Quot.sound
C94_iterators_read: propext, Classical.choice, Quot.sound
C94_lists: propext, Quot.sound
C94_poseidon_element: propext, Quot.sound
C94_poseidon_elements: propext, Quot.sound
C94_poseidon_integers: propext, Quot.sound
C94_poseidon_iterators: propext, Quot.sound
C94_poseidon_missing_false: propext, Quot.sound
C94_poseidon_octets_false: propext, Classical.choice, Quot.sound
C94_range: propext, Quot.sound
C94_range_accumulator: propext, Quot.sound
C94_range_output: propext, Quot.sound
C94_range_output_partial: propext, Quot.sound
C94_traits: propext, Classical.choice, Quot.sound
C95_arrays: propext, Classical.choice, Quot.sound
C95_container: propext, Quot.sound
C95_integral_false: propext, Quot.sound
C95_integral_unused: propext, Quot.sound
C95_result: propext, Quot.sound
C95_string: propext, Quot.sound
C96_collision: propext, Classical.choice, Quot.sound
C96_collision_any: propext, Classical.choice, Quot.sound
C96_meet: propext, Classical.choice, Quot.sound
C96_preimage: propext, Classical.choice, Quot.sound
C96_preimage_any: propext, Classical.choice, Quot.sound
C97_bls12381: propext, Classical.choice, Quot.sound
C97_code: propext, Classical.choice, Quot.sound
C97_code_field: propext, Classical.choice, Quot.sound
C97_hash_to_field: propext, Classical.choice, Quot.sound
C97_joint: propext, Classical.choice, Quot.sound
C97_uniform: propext, Classical.choice, Quot.sound
C98_base_points: propext, Classical.choice, Quot.sound
C98_jubjub: propext, Classical.choice, Quot.sound
C98_outcomes: propext, Classical.choice, Quot.sound
C98_success: propext, Classical.choice, Quot.sound
C98_termination: propext, Classical.choice, Quot.sound
C98_uniform: propext, Classical.choice, Quot.sound
C99_collision: propext, Classical.choice, Quot.sound
C99_messages: propext, Classical.choice, Quot.sound
C99_preimage: propext, Classical.choice, Quot.sound
Feed.one_collision: propext, Classical.choice, Quot.sound
Feed.one_preimage: propext, Classical.choice, Quot.sound
Feed.two_collision: propext, Classical.choice, Quot.sound
Feed.two_preimage: propext, Classical.choice, Quot.sound
