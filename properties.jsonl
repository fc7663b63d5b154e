{"id": "C01", "title": "Incremental update equals one-shot (Merkle-Damgard hashes)", "statement": "For SHA-0/SHA-1/SHA-2/MD4/MD5/RIPEMD/Tiger, feeding a message through any number of successive hash<H>(piece, acc) calls and then extracting gives the same digest as one hash<H>(whole message) call, wherever the pieces are cut (also cuts inside a block, empty pieces, one byte at a time).", "quantifier": "for every message shorter than 2^64 bits, every way of cutting it into pieces, every compression function and initial value, every content of uninitialised memory", "why_tests_cant": "Tests use a handful of short strings (at most ~80 characters) and a few cuts; the number of cut patterns is exponential and the accumulator has different code paths for every residue of the fill level.", "anchors": [{"file": "include/nil/crypto3/hash/accumulators/hash.hpp", "symbols": ["hash_impl::process", "hash_impl::result"]}, {"file": "include/nil/crypto3/hash/detail/block_stream_processor.hpp", "symbols": ["block_stream_processor"]}, {"file": "include/nil/crypto3/hash/algorithm/hash.hpp", "symbols": ["hash"]}, {"file": "include/nil/crypto3/hash/hash_value.hpp", "symbols": ["range_hash_impl"]}]}
{"id": "C02", "title": "Digest is the textbook Merkle-Damgard hash", "statement": "The digest returned for a message M is: pad M with a 1 bit, zero bits and the bit length so that the total is the least possible multiple of the block size, fold the compression function over the blocks from the initial value, finalise, and keep the first digest_bits bits of the state.", "quantifier": "for every message of fewer than 2^64 bits, every compression function / IV, every block, word and length-field size the policies use", "why_tests_cant": "Known-answer tests cover isolated lengths; an off-by-one at one residue (e.g. exactly one bit of room, exactly the length field left) is missed unless that residue is sampled, and only a proof covers all block counts.", "anchors": [{"file": "include/nil/crypto3/hash/detail/merkle_damgard_construction.hpp", "symbols": ["digest", "append_length", "process_block"]}, {"file": "include/nil/crypto3/hash/detail/merkle_damgard_padding.hpp", "symbols": ["merkle_damgard_padding::operator()"]}, {"file": "include/nil/crypto3/hash/accumulators/hash.hpp", "symbols": ["hash_impl"]}]}
{"id": "C03", "title": "Tiger padding variant", "statement": "Tiger digests use the same construction with the byte 0x01 as the padding marker and a 64-bit length field; for every byte message the padded string is M, 0x01, zero bytes, length, of least possible size.", "quantifier": "for every byte-aligned message shorter than 2^64 bits", "why_tests_cant": "The marker byte is injected with 8 bits rather than 1, so the room tests differ from MD; tests sample few lengths.", "anchors": [{"file": "include/nil/crypto3/hash/detail/tiger/tiger_padding.hpp", "symbols": ["tiger_padding::operator()"]}, {"file": "include/nil/crypto3/hash/tiger.hpp", "symbols": ["tiger::construction"]}, {"file": "include/nil/crypto3/hash/detail/merkle_damgard_construction.hpp", "symbols": ["digest"]}]}
{"id": "C04", "title": "Incremental update equals one-shot (Keccak, SHA-3)", "statement": "Feeding a message to a Keccak or SHA-3 accumulator in arbitrary byte pieces gives the digest of the concatenation.", "quantifier": "for every byte message shorter than 2^64 bits, every cut, every permutation, every rate that is a multiple of 64 bits", "why_tests_cant": "Rates are not powers of two, block boundaries fall at odd places and tests use few long inputs.", "anchors": [{"file": "include/nil/crypto3/hash/accumulators/hash.hpp", "symbols": ["hash_impl"]}, {"file": "include/nil/crypto3/hash/detail/sponge_construction.hpp", "symbols": ["sponge_construction"]}, {"file": "include/nil/crypto3/hash/detail/block_stream_processor.hpp", "symbols": ["block_stream_processor"]}]}
{"id": "C05", "title": "Keccak digest is the sponge with pad10*1", "statement": "For every byte message shorter than 2^61 bytes the Keccak digest equals absorbing M||1||0*||1 (least multiple of the rate) into the zero state and squeezing digest_bits bits, including when the message ends one byte before or exactly at a block boundary.", "quantifier": "for every byte-aligned message shorter than 2^64 bits, every rate multiple of 64, every permutation", "why_tests_cant": "The padding has a two-block path and an in-block path; tests hit a few lengths.", "anchors": [{"file": "include/nil/crypto3/hash/detail/sponge_construction.hpp", "symbols": ["digest"]}, {"file": "include/nil/crypto3/hash/detail/keccak/keccak_padding.hpp", "symbols": ["operator()", "process_last", "is_last_block"]}, {"file": "include/nil/crypto3/hash/detail/keccak/keccak_finalizer.hpp", "symbols": ["keccak_1600_finalizer"]}]}
{"id": "C06", "title": "SHA-3 digest is the sponge with suffix 01 and pad10*1", "statement": "For every byte message shorter than 2^61 bytes the SHA-3 digest equals absorbing M||01||1||0*||1 into the zero state and squeezing digest_bits bits (FIPS 202).", "quantifier": "for every byte-aligned message shorter than 2^64 bits, every rate multiple of 64, every permutation", "why_tests_cant": "Same as for Keccak; in addition the three-bit suffix interacts with the last word of the block.", "anchors": [{"file": "include/nil/crypto3/hash/detail/sha3/sha3_padding.hpp", "symbols": ["operator()", "process_last"]}, {"file": "include/nil/crypto3/hash/detail/sponge_construction.hpp", "symbols": ["digest"]}, {"file": "include/nil/crypto3/hash/detail/sha3/sha3_finalizer.hpp", "symbols": ["sha3_finalizer"]}]}
{"id": "C07", "title": "Bit-granular Keccak/SHA-3 padding", "statement": "The sponge digest follows pad10*1 for messages whose bit length is not a multiple of eight (the accumulator accepts an explicit bit count).", "quantifier": "for every bit message, in particular those leaving 1 to 3 free bits in the block", "why_tests_cant": "No test pushes a non-byte-aligned amount into a sponge hash.", "anchors": [{"file": "include/nil/crypto3/hash/detail/keccak/keccak_padding.hpp", "symbols": ["operator()", "process_last"]}, {"file": "include/nil/crypto3/hash/detail/sha3/sha3_padding.hpp", "symbols": ["operator()", "process_last"]}, {"file": "include/nil/crypto3/hash/accumulators/hash.hpp", "symbols": ["process"]}]}
{"id": "C08", "title": "BLAKE2b digest follows RFC 7693", "statement": "For every byte message shorter than 2^61 bytes the unkeyed BLAKE2b digest is the fold of the compression function over the zero-padded blocks with the byte counter, the final flag being set exactly once, on the last block.", "quantifier": "for every byte message shorter than 2^61 bytes and every digest size, including non-empty multiples of 128 bytes", "why_tests_cant": "Tests use lengths up to 62 bytes plus 'a' and 'abc', so no test reaches a full final block.", "anchors": [{"file": "include/nil/crypto3/hash/detail/haifa_construction.hpp", "symbols": ["process_block", "digest", "reset"]}, {"file": "include/nil/crypto3/hash/detail/blake2b/blake2b_padding.hpp", "symbols": ["operator()"]}, {"file": "include/nil/crypto3/hash/blake2b.hpp", "symbols": ["blake2b_compressor::process_block"]}]}
{"id": "C09", "title": "Incremental update equals one-shot (BLAKE2b)", "statement": "Feeding a message to a BLAKE2b accumulator in arbitrary byte pieces gives the digest of the concatenation, and the byte counter handed to every compression is the number of bytes up to the end of that block.", "quantifier": "for every byte message shorter than 2^64 bits and every cut", "why_tests_cant": "The running total is passed to the compression function, so a wrong total at one cut pattern only shows for that pattern.", "anchors": [{"file": "include/nil/crypto3/hash/accumulators/hash.hpp", "symbols": ["hash_impl::process"]}, {"file": "include/nil/crypto3/hash/detail/haifa_construction.hpp", "symbols": ["process_block"]}]}
{"id": "C10", "title": "Extracting a digest does not disturb the accumulator", "statement": "extract::hash<H>(acc) may be called any number of times at any point; each call returns the digest of what was fed so far and later updates behave as if no extraction had happened.", "quantifier": "for every interleaving of updates and extractions on one accumulator, all block hashes (Merkle-Damgard, sponge, HAIFA)", "why_tests_cant": "Interleavings are unbounded; tests extract once or twice at the end.", "anchors": [{"file": "include/nil/crypto3/hash/accumulators/hash.hpp", "symbols": ["hash_impl::result"]}, {"file": "include/nil/crypto3/hash/detail/merkle_damgard_construction.hpp", "symbols": ["digest"]}, {"file": "include/nil/crypto3/hash/detail/sponge_construction.hpp", "symbols": ["digest"]}, {"file": "include/nil/crypto3/hash/detail/haifa_construction.hpp", "symbols": ["digest"]}]}
{"id": "C11", "title": "Iterator category does not matter", "statement": "Hashing a range through random-access iterators, through forward/input iterators or as a container gives the same accumulator state.", "quantifier": "for every range contents and length, every accumulator state before the call, every element width dividing the block", "why_tests_cant": "The code has separate loops per category (bulk and per-element); tests use few lengths for each.", "anchors": [{"file": "include/nil/crypto3/hash/detail/block_stream_processor.hpp", "symbols": ["operator()", "update_n", "update_one"]}]}
{"id": "C12", "title": "Uninitialised and stale memory never reaches the digest", "statement": "Neither the never-written part of the accumulator's block cache nor stale elements left in the stream processor's element buffer influence any digest.", "quantifier": "for every initial content of the caches, every update history", "why_tests_cant": "Uninitialised memory is usually zero in tests; sanitizers only see the executed paths.", "anchors": [{"file": "include/nil/crypto3/hash/accumulators/hash.hpp", "symbols": ["hash_impl::hash_impl", "cache"]}, {"file": "include/nil/crypto3/hash/detail/block_stream_processor.hpp", "symbols": ["cache"]}]}
{"id": "C13", "title": "Streaming never writes outside the block buffer", "statement": "No sequence of hash<H>() calls and no extraction makes the code read or write outside the block cache: every bit-injection request stays within the block.", "quantifier": "for every history of updates and extractions through the public hash() functions with elements of whole octets (for MD4, MD5, RIPEMD, SHA-1, SHA-2 and BLAKE2b with elements of any bit size dividing the block)", "why_tests_cant": "Out-of-range accesses depend on the fill level at each step; only a few levels occur in tests.", "anchors": [{"file": "include/nil/crypto3/hash/accumulators/hash.hpp", "symbols": ["process"]}, {"file": "include/nil/crypto3/hash/detail/merkle_damgard_padding.hpp", "symbols": ["operator()"]}, {"file": "include/nil/crypto3/hash/detail/merkle_damgard_construction.hpp", "symbols": ["append_length"]}]}
{"id": "C14", "title": "Feeding single words equals feeding the same data as blocks", "statement": "Pushing the words of a message one at a time into an accumulator (acc(word)) yields the digest of their concatenation.", "quantifier": "for every sequence of full-word pushes", "why_tests_cant": "The test-suite only pushes fewer words than a block holds before extracting.", "anchors": [{"file": "include/nil/crypto3/hash/accumulators/hash.hpp", "symbols": ["hash_impl::process", "resolve_type"]}]}
{"id": "C15", "title": "Meaning of the bits argument and of empty updates", "statement": "hash<H>(empty range, acc) leaves acc unchanged; acc(block, bits = n) appends exactly the first n bits of the block; n = 0 means the whole block.", "quantifier": "for every accumulator state, every block, every 0 <= n <= block size", "why_tests_cant": "Behaviour at each fill level and each n is a separate case.", "anchors": [{"file": "include/nil/crypto3/hash/accumulators/hash.hpp", "symbols": ["resolve_type", "process"]}, {"file": "include/nil/crypto3/hash/detail/block_stream_processor.hpp", "symbols": ["~block_stream_processor"]}]}
{"id": "C16", "title": "Copies of an accumulator are independent (fork)", "statement": "After copying an accumulator, feeding different continuations to the copies gives the digests of prefix++continuation for each, as the by-value result of hash<H>(range, acc) suggests.", "quantifier": "for every prefix history and every pair of continuations", "why_tests_cant": "Requires all histories; tests do not fork accumulators at every fill level.", "anchors": [{"file": "include/nil/crypto3/hash/algorithm/hash.hpp", "symbols": ["hash"]}, {"file": "include/nil/crypto3/hash/accumulators/hash.hpp", "symbols": ["hash_impl"]}, {"file": "include/nil/crypto3/hash/hash_value.hpp", "symbols": ["ref_hash_impl", "value_hash_impl"]}]}
{"id": "C17", "title": "Collision resistance is inherited from the compression function", "statement": "From any two different messages with the same full-state Merkle-Damgard digest one obtains two different (chaining value, block) inputs on which the compression function collides.", "quantifier": "for all pairs of distinct messages shorter than 2^64 bits, every compression function", "why_tests_cant": "A statement about all pairs of messages; it depends on the padding being suffix-free for every pair of lengths.", "anchors": [{"file": "include/nil/crypto3/hash/detail/merkle_damgard_construction.hpp", "symbols": ["digest", "append_length"]}, {"file": "include/nil/crypto3/hash/detail/merkle_damgard_padding.hpp", "symbols": ["merkle_damgard_padding"]}]}
{"id": "C18", "title": "Sponge padding is injective and Keccak/SHA-3 inputs are domain separated", "statement": "Different messages give different absorbed block sequences, and no Keccak-padded message equals any SHA-3-padded message at the same rate.", "quantifier": "for all pairs of byte messages and every rate of at least 8 bits", "why_tests_cant": "Pairs of messages cannot be enumerated.", "anchors": [{"file": "include/nil/crypto3/hash/detail/keccak/keccak_padding.hpp", "symbols": ["keccak_1600_padding"]}, {"file": "include/nil/crypto3/hash/detail/sha3/sha3_padding.hpp", "symbols": ["sha3_padding"]}]}
{"id": "C19", "title": "Number of compression calls", "statement": "A Merkle-Damgard digest of an n-bit message costs exactly ceil((n+1+length_bits)/block_bits) compression calls however the message is fed; a block is never compressed twice or dropped.", "quantifier": "for every message length and every feeding pattern", "why_tests_cant": "Cost is not observable in digest tests except via collisions.", "anchors": [{"file": "include/nil/crypto3/hash/accumulators/hash.hpp", "symbols": ["hash_impl::process"]}, {"file": "include/nil/crypto3/hash/detail/merkle_damgard_construction.hpp", "symbols": ["digest"]}]}
{"id": "C20", "title": "Message length accounting", "statement": "The accumulator's length equals the number of bits fed; it is a 64-bit counter and the encoded length is the true length modulo 2^64; a bits_count accumulator fed alongside reports the same number when every push has an explicit positive bit count.", "quantifier": "for every update history", "why_tests_cant": "2^64 bits cannot be fed in a test.", "anchors": [{"file": "include/nil/crypto3/hash/accumulators/hash.hpp", "symbols": ["total_seen"]}, {"file": "include/nil/crypto3/hash/accumulators/bits_count.hpp", "symbols": ["bits_count_impl"]}, {"file": "include/nil/crypto3/hash/detail/merkle_damgard_construction.hpp", "symbols": ["append_length"]}]}
{"id": "C21", "title": "Keccak-f[1600] equals FIPS 202", "statement": "The unrolled permutation used by Keccak and SHA-3 equals 24 rounds of theta, rho, pi, chi, iota with the specified rotation offsets and round constants on every 1600-bit state; Keccak's and SHA-3's copies are the same function.", "quantifier": "for all 2^1600 states", "why_tests_cant": "Known answers exercise a few states.", "anchors": [{"file": "include/nil/crypto3/hash/detail/keccak/keccak_impl.hpp", "symbols": ["permute", "round_constants"]}, {"file": "include/nil/crypto3/hash/detail/sha3/sha3_functions.hpp", "symbols": ["permute"]}, {"file": "include/nil/crypto3/hash/keccak.hpp", "symbols": ["keccak_1600_compressor"]}, {"file": "include/nil/crypto3/hash/sha3.hpp", "symbols": ["sha3_compressor"]}]}
{"id": "C22", "title": "Keccak-f[1600] is a bijection", "statement": "No two states are mapped to the same state by the permutation; absorbing is invertible given the block.", "quantifier": "for all pairs of 1600-bit states", "why_tests_cant": "Cannot enumerate state pairs.", "anchors": [{"file": "include/nil/crypto3/hash/detail/keccak/keccak_impl.hpp", "symbols": ["permute"]}, {"file": "include/nil/crypto3/hash/detail/sha3/sha3_functions.hpp", "symbols": ["permute"]}]}
{"id": "C23", "title": "BLAKE2b compression equals RFC 7693 F", "statement": "The compression function applied to any chaining value, block, byte counter and final flag equals RFC 7693's F (12 rounds, message schedule by the ten sigma permutations, G with rotations 32/24/16/63).", "quantifier": "for all states, blocks, counters and flags", "why_tests_cant": "The input space is 2^1600-ish.", "anchors": [{"file": "include/nil/crypto3/hash/blake2b.hpp", "symbols": ["blake2b_compressor::process_block"]}, {"file": "include/nil/crypto3/hash/detail/blake2b/blake2b_functions.hpp", "symbols": ["g", "round"]}]}
{"id": "C24", "title": "BLAKE2b rounds are invertible", "statement": "For a fixed message block the mixing function G, each round and hence the 12-round inner function are permutations of the 16-word working state.", "quantifier": "for all working states and message blocks", "why_tests_cant": "Cannot enumerate.", "anchors": [{"file": "include/nil/crypto3/hash/detail/blake2b/blake2b_functions.hpp", "symbols": ["g", "round"]}]}
{"id": "C25", "title": "RIPEMD compression equals the published definition", "statement": "For RIPEMD-128/160/256/320 the compression of every state and block equals the two-line definition with the published selection, rotation and constant tables, and each line's step sequence is invertible for a fixed block.", "quantifier": "for all states and blocks", "why_tests_cant": "Input space too large; tests cover a few strings.", "anchors": [{"file": "include/nil/crypto3/hash/ripemd.hpp", "symbols": ["ripemd_compressor"]}, {"file": "include/nil/crypto3/hash/detail/ripemd/ripemd_functions.hpp", "symbols": ["transform", "f1", "f2", "f3", "f4", "f5"]}, {"file": "include/nil/crypto3/hash/detail/ripemd/ripemd_policy.hpp", "symbols": ["r1", "r2", "s1", "s2"]}]}
{"id": "C26", "title": "Tiger compression and digest truncation", "statement": "For every state and block, Tiger's compression with P>=3 passes follows the published definition (multipliers 5,7,9,9.., key schedule, feed-forward); the pass and key schedule are invertible; tiger<DigestBits> returns the first DigestBits bits of the state.", "quantifier": "for all states, blocks, pass counts P>=3 and digest sizes 128/160/192", "why_tests_cant": "Input space too large; tests run only Tiger/192.", "anchors": [{"file": "include/nil/crypto3/hash/tiger.hpp", "symbols": ["tiger_compressor::process_block"]}, {"file": "include/nil/crypto3/hash/detail/tiger/tiger_functions.hpp", "symbols": ["mix", "pass"]}, {"file": "include/nil/crypto3/hash/detail/merkle_damgard_construction.hpp", "symbols": ["digest"]}]}
{"id": "C27", "title": "Block-cipher compression modes", "statement": "The Davies-Meyer, Matyas-Meyer-Oseas and Miyaguchi-Preneel compressors compute exactly H'=E_m(H)+H, E_g(H)(m)+m, E_g(H)(m)+H+m with the word-wise combiner, for every block cipher; with the modular-adder combiner every chaining word is added modulo 2^w.", "quantifier": "for all ciphers, states, blocks", "why_tests_cant": "A generic statement about all ciphers.", "anchors": [{"file": "include/nil/crypto3/hash/detail/davies_meyer_compressor.hpp", "symbols": ["davies_meyer_compressor"]}, {"file": "include/nil/crypto3/hash/detail/matyas_meyer_oseas_compressor.hpp", "symbols": ["matyas_meyer_oseas_compressor"]}, {"file": "include/nil/crypto3/hash/detail/miyaguchi_preneel_compressor.hpp", "symbols": ["miyaguchi_preneel_compressor"]}, {"file": "include/nil/crypto3/hash/detail/state_adder.hpp", "symbols": ["state_adder"]}]}
{"id": "C28", "title": "CRC streaming", "statement": "The CRC accumulators give the checksum of the concatenation of all bytes fed, independent of the chunking and iterator category, equal to polynomial division, and no element outside the given range is read.", "quantifier": "for every byte sequence, chunking and CRC parameters; for every element type width", "why_tests_cant": "Chunkings and inputs are unbounded; tests only use byte elements.", "anchors": [{"file": "include/nil/crypto3/hash/crc.hpp", "symbols": ["crc_stream_processor", "basic_crc"]}, {"file": "include/nil/crypto3/hash/detail/crc/accumulator.hpp", "symbols": ["hash_impl"]}]}
{"id": "C29", "title": "Reading a digest out", "statement": "Writing to an output iterator emits exactly the digest bytes in order and returns the advanced iterator; conversion to a range or array yields the digest bytes; no out-of-range write occurs.", "quantifier": "for every digest and every destination array size", "why_tests_cant": "Destination sizes other than the digest size are never tested.", "anchors": [{"file": "include/nil/crypto3/hash/hash_value.hpp", "symbols": ["range_hash_impl::operator std::array", "itr_hash_impl::operator OutputIterator"]}]}
{"id": "C30", "title": "hashed<> adaptor equals hash()", "statement": "range | adaptors::hashed<H> yields the digest of that range alone, however often the shared adaptor object has been used before.", "quantifier": "for every sequence of adaptor uses", "why_tests_cant": "Depends on the history of a global object.", "anchors": [{"file": "include/nil/crypto3/hash/adaptor/hashed.hpp", "symbols": ["operator|", "hashed"]}]}
{"id": "C31", "title": "Pedersen hash equals the Zcash definition", "statement": "The Pedersen digest of a bit string (after padding to a multiple of 3) is the sum over segments of the segment scalar times that segment's base point, the scalar being the windowed signed encoding of its 3-bit chunks.", "quantifier": "for every non-empty bit string of fewer than 2^64 - 3 bits and at most 2^32 segments (where the Zcash definition ends; see C87 beyond it), every group, every chunks-per-segment c >= 2, every base-point function", "why_tests_cant": "Segment boundaries only occur after 189 bits; tests use few lengths.", "anchors": [{"file": "include/nil/crypto3/hash/pedersen.hpp", "symbols": ["pedersen_to_point", "update", "pad_update", "process"]}, {"file": "include/nil/crypto3/hash/detail/pedersen/lookup.hpp", "symbols": ["lookup"]}]}
{"id": "C32", "title": "Pedersen incremental update equals one-shot", "statement": "Feeding bits in arbitrary pieces gives the digest of the concatenation.", "quantifier": "for every bit string within the bounds of C31 and every cut", "why_tests_cant": "Cut positions relative to 3-bit chunks and segments are unbounded.", "anchors": [{"file": "include/nil/crypto3/hash/pedersen.hpp", "symbols": ["update", "internal_accumulator_type"]}]}
{"id": "C33", "title": "Extracting a Pedersen digest twice", "statement": "Extraction is repeatable: extracting again without feeding data returns the same point.", "quantifier": "for every accumulator history", "why_tests_cant": "Tests extract once per accumulator.", "anchors": [{"file": "include/nil/crypto3/hash/pedersen.hpp", "symbols": ["process", "pad_update", "update_result"]}, {"file": "include/nil/crypto3/hash/accumulators/hash.hpp", "symbols": ["hash_impl (find_group_hash/pedersen/h2f/h2c specialisation)"]}]}
{"id": "C34", "title": "Pedersen segment encoding is injective", "statement": "Two different chunk sequences within one segment give different scalars modulo the group order, so equal digests of short inputs never come from the encoding.", "quantifier": "for all pairs of chunk sequences of at most c chunks, every group order r with c admissible for r", "why_tests_cant": "All pairs of segments: about 2^378.", "anchors": [{"file": "include/nil/crypto3/hash/detail/pedersen/lookup.hpp", "symbols": ["lookup"]}, {"file": "include/nil/crypto3/hash/pedersen.hpp", "symbols": ["update_current_segment"]}, {"file": "include/nil/crypto3/hash/detail/pedersen/basic_functions.hpp", "symbols": ["chunks_per_base_point"]}]}
{"id": "C35", "title": "chunks_per_base_point is the largest admissible number", "statement": "The loop computing the number of chunks per base point terminates and returns the largest c satisfying the Zcash bound for the group order (63 for Jubjub).", "quantifier": "for every group order large enough to admit one chunk and every chunk width", "why_tests_cant": "The result is needed for every curve a user instantiates with.", "anchors": [{"file": "include/nil/crypto3/hash/detail/pedersen/basic_functions.hpp", "symbols": ["chunks_per_base_point"]}]}
{"id": "C36", "title": "FindGroupHash returns the first valid candidate", "statement": "find_group_hash returns cofactor times the point decoded from H(dst||urs||message||i) for the least i in 0..255 for which decoding succeeds; the loop terminates; extraction does not change the accumulator.", "quantifier": "for every message, every hash and every decoder", "why_tests_cant": "Failure of all 256 candidates cannot be provoked with a real hash.", "anchors": [{"file": "include/nil/crypto3/hash/find_group_hash.hpp", "symbols": ["process", "init_accumulator", "update"]}]}
{"id": "C37", "title": "expand_message_xmd equals RFC 9380", "statement": "For a freshly initialised accumulator the expanded bytes equal RFC 9380 section 5.3.1 expand_message_xmd(msg, DST, len_in_bytes), for messages fed in any pieces.", "quantifier": "for every message within the length limit of the hash, cut, hash, DST of 16..255 bytes, len_in_bytes with ceil(len/b) <= 255", "why_tests_cant": "Tests use a few messages and one length per suite.", "anchors": [{"file": "include/nil/crypto3/hash/detail/h2f/h2f_functions.hpp", "symbols": ["expand_message_xmd::process", "init_accumulator", "update"]}]}
{"id": "C38", "title": "Extracting hash_to_field / hash_to_curve twice", "statement": "Extraction is repeatable: extracting again without feeding data returns the same field elements / point.", "quantifier": "for every accumulator history", "why_tests_cant": "Tests extract once.", "anchors": [{"file": "include/nil/crypto3/hash/h2f.hpp", "symbols": ["process"]}, {"file": "include/nil/crypto3/hash/h2c.hpp", "symbols": ["process"]}, {"file": "include/nil/crypto3/hash/detail/h2f/h2f_functions.hpp", "symbols": ["process"]}, {"file": "include/nil/crypto3/hash/accumulators/hash.hpp", "symbols": ["hash_impl::result"]}]}
{"id": "C39", "title": "expand_message_xmd output buffer", "statement": "expand_message_xmd never writes outside its len_in_bytes output array.", "quantifier": "for every len_in_bytes and digest size", "why_tests_cant": "Only two lengths, both multiples of the digest size, are ever instantiated.", "anchors": [{"file": "include/nil/crypto3/hash/detail/h2f/h2f_functions.hpp", "symbols": ["expand_message_xmd::process"]}]}
{"id": "C40", "title": "hash_to_field reduces big-endian chunks", "statement": "The i-th field element is the tuple of the big-endian integers of consecutive L-byte chunks of the expanded message reduced modulo p, hence canonical.", "quantifier": "for every expanded byte string", "why_tests_cant": "All byte strings.", "anchors": [{"file": "include/nil/crypto3/hash/h2f.hpp", "symbols": ["process"]}]}
{"id": "C41", "title": "Simplified SWU always lands on the curve", "statement": "The simplified SWU map used for BLS12-381 returns, for every field element u including the exceptional ones, a point satisfying the isogenous curve equation, with the sign of y equal to the sign of u.", "quantifier": "for every finite field, every admissible (A, B, Z) and every u", "why_tests_cant": "The exceptional inputs have probability about 2^-380.", "anchors": [{"file": "include/nil/crypto3/hash/detail/h2c/h2c_functions.hpp", "symbols": ["m2c_simple_swu", "sgn0"]}]}
{"id": "C42", "title": "Isogeny maps send curve points to curve points", "statement": "The rational maps used for BLS12-381 G1 and G2 send every point of the auxiliary curve with non-vanishing denominators to a point of the target curve.", "quantifier": "for every point of the auxiliary curve", "why_tests_cant": "A wrong constant could still agree on sampled points only if astronomically lucky, but vectors do not show that all points are mapped; the polynomial identity does.", "anchors": [{"file": "include/nil/crypto3/hash/detail/h2c/h2c_functions.hpp", "symbols": ["iso_map"]}, {"file": "include/nil/crypto3/hash/detail/h2c/h2c_suites.hpp", "symbols": ["h2c_suite"]}]}
{"id": "C43", "title": "Poseidon permutation is a bijection", "statement": "The Poseidon permutation (both round orders) is injective on states whenever the S-box exponent is coprime to p-1 and the MDS matrix is invertible.", "quantifier": "for all pairs of states, every round-constant table and round counts", "why_tests_cant": "All pairs of states.", "anchors": [{"file": "include/nil/crypto3/hash/detail/poseidon/poseidon_permutation.hpp", "symbols": ["permute"]}, {"file": "include/nil/crypto3/hash/detail/poseidon/poseidon_round_operator.hpp", "symbols": ["full_round", "part_round"]}]}
{"id": "C44", "title": "Poseidon hashing of element lists", "statement": "The Poseidon digest of a list of field elements equals: absorb rate-sized blocks with the permutation applied between blocks, starting from the zero state, with the state between blocks as the code keeps it; all hash() overloads agree (range, iterators, initial element, single element).", "quantifier": "for every list of field elements and rate", "why_tests_cant": "Lists of all lengths.", "anchors": [{"file": "include/nil/crypto3/hash/detail/poseidon/poseidon_sponge.hpp", "symbols": ["absorb", "squeeze", "permute"]}, {"file": "include/nil/crypto3/hash/algorithm/hash.hpp", "symbols": ["hash (poseidon overloads)"]}]}
{"id": "C45", "title": "Different Poseidon inputs are not trivially identified", "statement": "Distinct lists of field elements lead to distinct inputs of the permutation (no trivial collisions).", "quantifier": "for all pairs of lists, in particular lists differing by trailing zeros", "why_tests_cant": "Pairs of lists; tests compare no two inputs of different length.", "anchors": [{"file": "include/nil/crypto3/hash/detail/poseidon/poseidon_sponge.hpp", "symbols": ["absorb", "squeeze"]}]}
{"id": "C46", "title": "Poseidon hashing of integer containers", "statement": "Packing a container of machine words into field elements is injective and well defined for all word sizes.", "quantifier": "for every container contents, length and word size", "why_tests_cant": "Leading-zero and cross-length collisions need pairs; 32/64-bit words are not tested.", "anchors": [{"file": "include/nil/crypto3/hash/algorithm/hash.hpp", "symbols": ["absorb"]}]}
{"id": "C47", "title": "Poseidon MDS generation", "statement": "The generator returns an invertible matrix of the Cauchy form 1/(x_i - y_j) and terminates.", "quantifier": "for every field, width and source of randomness", "why_tests_cant": "A diverging generator shows as a hang, not as a failed assertion; randomness cannot be enumerated.", "anchors": [{"file": "include/nil/crypto3/hash/detail/poseidon/poseidon_constants_generator.hpp", "symbols": ["generate_mds_matrix"]}]}
{"id": "C48", "title": "Poseidon/Reinforced Concrete round-constant generation", "statement": "Every generated round constant is a canonical field element, produced by the 80-bit Grain LFSR in self-shrinking mode; the LFSR state never becomes zero.", "quantifier": "for every number of constants and every parameter set", "why_tests_cant": "Tests compare a few constants.", "anchors": [{"file": "include/nil/crypto3/hash/detail/poseidon/poseidon_constants_generator.hpp", "symbols": ["generate_round_constants", "update_lfsr_state"]}, {"file": "include/nil/crypto3/hash/detail/reinforced_concrete/reinforced_concrete_lfsr.hpp", "symbols": ["generate_round_constants"]}]}
{"id": "C49", "title": "Reinforced Concrete layers", "statement": "Concrete is invertible; Bricks is invertible under the stated non-residue conditions; decompose/compose are mutually inverse mixed-radix conversions on canonical elements; Bars applies the small S-box digit-wise, staying inside the digit ranges.", "quantifier": "for every state", "why_tests_cant": "All states of a 255-bit field.", "anchors": [{"file": "include/nil/crypto3/hash/detail/reinforced_concrete/reinforced_concrete_operators.hpp", "symbols": ["concrete", "bricks", "decompose", "compose", "S", "Bars"]}]}
{"id": "C50", "title": "Compile-time power", "statement": "detail::pow(x, n) equals x^n for every n >= 0 and terminates.", "quantifier": "for every base in a commutative monoid and every exponent", "why_tests_cant": "Unbounded exponents.", "anchors": [{"file": "include/nil/crypto3/detail/static_pow.hpp", "symbols": ["pow"]}]}
{"id": "C51", "title": "strxor", "statement": "strxor writes the element-wise XOR of two equally long ranges, nothing else, and is an involution in either argument.", "quantifier": "for all pairs of equally long ranges", "why_tests_cant": "Unbounded lengths.", "anchors": [{"file": "include/nil/crypto3/detail/strxor.hpp", "symbols": ["strxor"]}]}
{"id": "C52", "title": "Packing keeps the bit stream", "statement": "pack between unit sizes and endiannesses (as documented and as the hashes use it) preserves the bit stream: unpacking returns the input, and whole-digest/whole-block conversion is a bijection.", "quantifier": "for every data and every divisor pair of unit sizes and octet/bit orders", "why_tests_cant": "Data space unbounded.", "anchors": [{"file": "docs/pack.md", "symbols": ["imploder", "exploder"]}, {"file": "include/nil/crypto3/hash/detail/block_stream_processor.hpp", "symbols": ["process_block"]}, {"file": "include/nil/crypto3/hash/detail/merkle_damgard_construction.hpp", "symbols": ["digest"]}]}
{"id": "C53", "title": "Standard constants", "statement": "Initial values and tables are those of the standards: SHA-1/SHA-2/MD4/MD5/RIPEMD/BLAKE2b/Tiger initial values satisfy their published derivations (square-root digits, counting nibbles), BLAKE2b sigma rows and RIPEMD selection rows are permutations, Keccak constants come from the FIPS 202 LFSR.", "quantifier": "for all entries of all tables", "why_tests_cant": "A wrong entry in an untested variant (e.g. RIPEMD-320) is visible only through that variant.", "anchors": [{"file": "include/nil/crypto3/hash/detail/sha2/sha2_policy.hpp", "symbols": ["iv_generator"]}, {"file": "include/nil/crypto3/hash/detail/blake2b/blake2b_policy.hpp", "symbols": ["iv_generator"]}, {"file": "include/nil/crypto3/hash/detail/ripemd/ripemd_policy.hpp", "symbols": ["r1", "r2", "s1", "s2", "iv_generator"]}, {"file": "include/nil/crypto3/hash/detail/keccak/keccak_impl.hpp", "symbols": ["round_constants"]}]}
{"id": "C54", "title": "Construction objects can be reused after reset", "statement": "Calling reset() on a construction and hashing again gives the digest of the new message only, and end-of-message never leaves data from the previous message.", "quantifier": "for every earlier history and every message", "why_tests_cant": "Histories are unbounded.", "anchors": [{"file": "include/nil/crypto3/hash/detail/merkle_damgard_construction.hpp", "symbols": ["reset"]}, {"file": "include/nil/crypto3/hash/detail/haifa_construction.hpp", "symbols": ["reset"]}, {"file": "include/nil/crypto3/hash/crc.hpp", "symbols": ["basic_crc::end_message"]}]}
{"id": "C55", "title": "DigestInfo prefixes", "statement": "Every pkcs_id constant is the DER encoding of an X.509 DigestInfo whose AlgorithmIdentifier has the object identifier of that hash and NULL parameters and whose OCTET STRING has the length of that digest.", "quantifier": "for every hash policy that defines pkcs_id and every digest value appended to it", "why_tests_cant": "No test in the repository uses the constants; a wrong byte only shows when a signature is exchanged with another implementation.", "anchors": [{"file": "include/nil/crypto3/hash/detail/sha2/sha2_policy.hpp", "symbols": ["pkcs_id"]}, {"file": "include/nil/crypto3/hash/detail/ripemd/ripemd_policy.hpp", "symbols": ["pkcs_id"]}, {"file": "include/nil/crypto3/hash/detail/sha3/sha3_policy.hpp", "symbols": ["pkcs_id"]}, {"file": "include/nil/crypto3/hash/detail/md5/md5_policy.hpp", "symbols": ["pkcs_id"]}]}
{"id": "C56", "title": "CRC detects burst errors", "statement": "For a CRC of N bits whose polynomial has a constant term, two byte strings of equal length that differ only inside a window of at most N consecutive transmitted bits have different digests.", "quantifier": "for all parameters, lengths, positions and error patterns", "why_tests_cant": "There are unboundedly many messages, positions and patterns.", "anchors": [{"file": "include/nil/crypto3/hash/crc.hpp", "symbols": ["basic_crc"]}]}
{"id": "C57", "title": "Pedersen collisions give relations between base points", "statement": "If two bit strings whose paddings differ have the same Pedersen digest, then the difference of their segment scalars is a linear relation between the base points whose coefficients are not all divisible by the group order.", "quantifier": "for all pairs of non-empty bit strings within the bounds of C31, every group, every admissible number of chunks per segment, every base-point function", "why_tests_cant": "Collisions cannot be exhibited by tests; the reduction must hold for all of them.", "anchors": [{"file": "include/nil/crypto3/hash/pedersen.hpp", "symbols": ["update", "process"]}, {"file": "include/nil/crypto3/hash/detail/pedersen/lookup.hpp", "symbols": ["lookup"]}]}
{"id": "C58", "title": "hash_to_field is close to uniform", "statement": "Reducing a uniformly random string of L octets as the code does gives every residue modulo p with floor(N/p) or floor(N/p)+1 preimages (N = 256^L), so the statistical distance to the uniform distribution on field elements is at most p/(2N); for the suites of the library it is at most 2^-132 per coordinate.", "quantifier": "for every L, every modulus and every residue", "why_tests_cant": "The distribution over 256^64 strings cannot be sampled finely enough to see a bias of this size, and a wrong reduction width (L too small) passes every functional test.", "anchors": [{"file": "include/nil/crypto3/hash/h2f.hpp", "symbols": ["process"]}, {"file": "include/nil/crypto3/hash/detail/h2f/h2f_suites.hpp", "symbols": ["h2f_suite::L"]}]}
{"id": "C59", "title": "map_to_curve is RFC 9380's on every field element", "statement": "map_to_curve (simplified SWU followed by the isogeny) never reads outside its tables and returns for every field element the point RFC 9380 section 6.6.3 prescribes, including the elements that the SWU map sends to the kernel of the isogeny, where the specification returns the identity.", "quantifier": "for every element of the base field of BLS12-381 (G1) and of its quadratic extension (G2)", "why_tests_cant": "The exceptional inputs of the 11-isogeny are a handful of elements out of 2^381; no random test meets them, and the constants can only be checked as a polynomial identity.", "anchors": [{"file": "include/nil/crypto3/hash/detail/h2c/h2c_functions.hpp", "symbols": ["m2c_simple_swu_zeroAB", "iso_map", "map_to_curve"]}]}
{"id": "C60", "title": "hash_to_curve from the message to the point", "statement": "Feeding a message in any pieces to the h2c accumulator over SHA-256 and extracting once gives hash_to_curve of RFC 9380: the two field elements of hash_to_field, mapped to the curve, added, and multiplied by the effective cofactor of the curve family.", "quantifier": "for every message, every split into pieces, every admissible tag, and every group the points are embedded in", "why_tests_cant": "Tests cover a few messages with one way of feeding them; the statement needs all messages, all splits and all values of the intermediate field elements.", "anchors": [{"file": "include/nil/crypto3/hash/h2c.hpp", "symbols": ["process"]}, {"file": "include/nil/crypto3/hash/detail/h2c/h2c_functions.hpp", "symbols": ["ep_map", "clear_cofactor"]}, {"file": "include/nil/crypto3/hash/detail/h2c/h2c_suites.hpp", "symbols": ["h_eff"]}]}
{"id": "C61", "title": "Poseidon constants tables are the reference ones", "statement": "The round constants and matrices of original_constants.hpp are, entry for entry, what the reference Grain LFSR procedure gives for a prime field of 254 or 255 bits, the state width and round numbers of the policy (S-box tag 0): self-shrunk output after 160 discarded bits, rejection of words not below the modulus, then 2t words x, y without rejection and the Cauchy matrix 1/(x_i + y_j); and this determines every entry.", "quantifier": "for every entry of all four tables", "why_tests_cant": "The unit tests hash a handful of vectors; a single wrong digit in one of 1300 constants of a table without a vector would go unnoticed, and a comparison with an independent derivation of all constants needs a proof that the derivation is the specified one.", "anchors": [{"file": "include/nil/crypto3/hash/detail/poseidon/original_constants.hpp", "symbols": ["mds_matrix", "round_constants"]}]}
{"id": "C62", "title": "The constants generator reproduces the tables", "statement": "poseidon_constants_generator, run with the parameters of a policy, yields the round constants that the library stores for this policy.", "quantifier": "for each of the four stored tables", "why_tests_cant": "The generator is not run by any test against the tables.", "anchors": [{"file": "include/nil/crypto3/hash/detail/poseidon/poseidon_constants_generator.hpp", "symbols": ["generate_round_constants", "get_lfsr_init_state"]}, {"file": "include/nil/crypto3/hash/detail/poseidon/original_constants.hpp", "symbols": ["round_constants"]}]}
{"id": "C63", "title": "The Poseidon matrices are maximum distance separable", "statement": "For each of the six matrices of the library and every nonzero vector v, v and Mv together have at least t+1 nonzero words.", "quantifier": "for all nonzero vectors over the field, all six matrices", "why_tests_cant": "There are p^t vectors; the branch number is a statement about all of them.", "anchors": [{"file": "include/nil/crypto3/hash/detail/poseidon/original_constants.hpp", "symbols": ["mds_matrix"]}, {"file": "include/nil/crypto3/hash/detail/poseidon/kimchi_constants.hpp", "symbols": ["mds_matrix"]}]}
{"id": "C64", "title": "The six Poseidon permutations of the library", "statement": "The permutation of each policy for which the library has constants never faults, is the permutation of the specification with the tables of the library, and is a bijection on states.", "quantifier": "for all states over the respective field, all six instances", "why_tests_cant": "Bijectivity over 2^760 states cannot be tested; it needs primality of the modulus, the exponent coprime to p-1 and an invertible matrix.", "anchors": [{"file": "include/nil/crypto3/hash/detail/poseidon/poseidon_permutation.hpp", "symbols": ["permute"]}, {"file": "include/nil/crypto3/hash/detail/poseidon/poseidon_constants.hpp", "symbols": ["poseidon_constants"]}]}
{"id": "C65", "title": "Poseidon policies have the requested rate", "statement": "For every security level and rate for which poseidon_policy is specialised, the policy's rate (block_words) is the requested rate and the state has one word more.", "quantifier": "for all security levels and rates", "why_tests_cant": "No test instantiates the unusual combinations.", "anchors": [{"file": "include/nil/crypto3/hash/detail/poseidon/poseidon_policy.hpp", "symbols": ["poseidon_policy"]}]}
{"id": "C66", "title": "Poseidon block compressor stays inside the block", "statement": "poseidon_compressor::process_block reads only elements of the block it is given.", "quantifier": "for all states and blocks", "why_tests_cant": "The class is not instantiated by any test.", "anchors": [{"file": "include/nil/crypto3/hash/poseidon.hpp", "symbols": ["poseidon_compressor::process_block"]}]}
{"id": "C67", "title": "Poseidon sponge reset", "statement": "After reset() the sponge hashes every list as a fresh sponge does.", "quantifier": "for all permutations, sponge states and lists", "why_tests_cant": "reset is not called by any test.", "anchors": [{"file": "include/nil/crypto3/hash/detail/poseidon/poseidon_sponge.hpp", "symbols": ["reset"]}]}
{"id": "C68", "title": "The Reinforced Concrete permutation is a bijection", "statement": "permute never reads outside the table of constants and is a bijection on states.", "quantifier": "for every state over the field and every table of constants of the required length", "why_tests_cant": "Collisions of a permutation of 2^765 states are not found by testing; here they exist because the small S-box leaves its digit range.", "anchors": [{"file": "include/nil/crypto3/hash/detail/reinforced_concrete/reinforced_concrete_functions.hpp", "symbols": ["permute"]}, {"file": "include/nil/crypto3/hash/detail/reinforced_concrete/reinforced_concrete_operators.hpp", "symbols": ["Bars", "S"]}]}
{"id": "C69", "title": "The Concrete matrix is circ(2,1,1)", "statement": "The matrix that the Concrete layer multiplies with is the circulant matrix circ(2,1,1) of the Reinforced Concrete specification.", "quantifier": "for every prime field and every entry", "why_tests_cant": "The test of Reinforced Concrete is disabled; invertibility of the layer does not depend on the order of the rows.", "anchors": [{"file": "include/nil/crypto3/hash/detail/reinforced_concrete/reinforced_concrete_operators.hpp", "symbols": ["generate_mds_matrix"]}]}
{"id": "C70", "title": "The x86-64 Keccak assembly is Keccak-f[1600]", "statement": "keccak_1600_x86_64_impl::permute leaves KECCAK-p[1600,24] of FIPS 202 in the state array, runs the loop body 24 times and accesses nothing outside its four arrays.", "quantifier": "for every state and every initial content of the registers and of the local arrays", "why_tests_cant": "1600 bits of state and arbitrary register contents; tests compare a few digests on one machine.", "anchors": [{"file": "include/nil/crypto3/hash/detail/keccak/keccak_x86_64_impl.hpp", "symbols": ["permute"]}]}
{"id": "C71", "title": "The ARMv8 Keccak assembly is Keccak-f[1600]", "statement": "keccak_1600_armv8_impl::permute leaves KECCAK-p[1600,24] of FIPS 202 in the state array, uses four words of stack and restores the stack pointer.", "quantifier": "for every state and every initial content of the registers and the stack", "why_tests_cant": "Not even compiled on the machines that run the tests; 1600 bits of state.", "anchors": [{"file": "include/nil/crypto3/hash/detail/keccak/keccak_armv8_impl.hpp", "symbols": ["permute"]}]}
{"id": "C72", "title": "The AVX2 Keccak assembly is Keccak-f[1600]", "statement": "keccak_1600_avx2_impl::permute, with the loop counter 24, computes KECCAK-p[1600,24] of FIPS 202.", "quantifier": "for every state and every initial content of ymm7..ymm15", "why_tests_cant": "Only compiled when CRYPTO3_HAS_AVX2 is defined; 1600 bits of state.", "anchors": [{"file": "include/nil/crypto3/hash/detail/keccak/keccak_avx2_impl.hpp", "symbols": ["permute"]}]}
{"id": "C73", "title": "The AVX-512 Keccak assembly is Keccak-f[1600]", "statement": "keccak_1600_avx512_impl::permute computes KECCAK-p[1600,24] of FIPS 202.", "quantifier": "for every state and every initial content of the mask and vector registers", "why_tests_cant": "Only compiled when CRYPTO3_HAS_AVX512 is defined, and then rejected by the assembler; the content of the mask registers cannot be enumerated.", "anchors": [{"file": "include/nil/crypto3/hash/detail/keccak/keccak_avx512_impl.hpp", "symbols": ["permute"]}]}
{"id": "C74", "title": "The Keccak assembly changes only what it declares", "statement": "Each asm statement leaves every register unchanged that is neither an output operand nor in its clobber list, and works for every register allocation that its constraints allow.", "quantifier": "for every initial register content and every allocation of the operands", "why_tests_cant": "The effect depends on the register allocation of one compiler version at one call site.", "anchors": [{"file": "include/nil/crypto3/hash/detail/keccak/keccak_x86_64_impl.hpp", "symbols": ["permute"]}, {"file": "include/nil/crypto3/hash/detail/keccak/keccak_armv8_impl.hpp", "symbols": ["permute"]}, {"file": "include/nil/crypto3/hash/detail/keccak/keccak_avx2_impl.hpp", "symbols": ["permute"]}]}
{"id": "C75", "title": "The Keccak digest does not depend on the build", "statement": "impl_type and const_impl_type compute the same permutation, so process_block has the same effect in every build configuration and at compile time.", "quantifier": "for every architecture, every combination of CRYPTO3_HAS_AVX512 and CRYPTO3_HAS_AVX2, every state and block", "why_tests_cant": "A test run sees one configuration.", "anchors": [{"file": "include/nil/crypto3/hash/detail/keccak/keccak_functions.hpp", "symbols": ["impl_type", "const_impl_type"]}, {"file": "include/nil/crypto3/hash/keccak.hpp", "symbols": ["process_block"]}]}
{"id": "C76", "title": "Sponge collisions come from the permutation", "statement": "Two different messages with the same Keccak or SHA-3 digest (also the same message under the two families) exhibit two final states with equal output bits, two intermediate states with equal capacity and different rate parts, or a return to the all-zero state.", "quantifier": "for all pairs of distinct messages, histories of calls, digest sizes and injective permutations", "why_tests_cant": "Statement about all pairs of messages; no collision can be sampled.", "anchors": [{"file": "include/nil/crypto3/hash/detail/sponge_construction.hpp", "symbols": ["process_block", "digest"]}, {"file": "include/nil/crypto3/hash/detail/keccak/keccak_padding.hpp", "symbols": ["keccak_1600_padding"]}, {"file": "include/nil/crypto3/hash/detail/sha3/sha3_padding.hpp", "symbols": ["sha3_padding"]}]}
{"id": "C77", "title": "BLAKE2b collisions come from the compression function", "statement": "Two different messages with the same BLAKE2b-512 digest exhibit two different inputs of the compression function F (chaining value, block, counter, flag), used while hashing them, with the same output.", "quantifier": "for all pairs of distinct messages (bit strings and byte strings), histories of calls, and every compression function with an injective readout", "why_tests_cant": "Statement about all pairs of messages; no collision can be sampled.", "anchors": [{"file": "include/nil/crypto3/hash/detail/haifa_construction.hpp", "symbols": ["process_block", "digest"]}, {"file": "include/nil/crypto3/hash/blake2b.hpp", "symbols": ["process_block"]}]}
{"id": "C78", "title": "The hash-to-field suites are those of RFC 9380", "statement": "The suite identifiers, extension degrees, security level and L of the two suites, the output lengths and the default domain separation tags are those of RFC 9380, so that h2f and h2c with default parameters compute hash_to_field and hash_to_curve with the tags of its test vectors; the nonuniform variant uses the _NU_ tag.", "quantifier": "for every message and split, both suites, both uniformity counts", "why_tests_cant": "The tests compare a few messages for the uniform variant only.", "anchors": [{"file": "include/nil/crypto3/hash/detail/h2f/h2f_suites.hpp", "symbols": ["h2f_suite"]}, {"file": "include/nil/crypto3/hash/h2f.hpp", "symbols": ["h2f_default_params"]}, {"file": "include/nil/crypto3/hash/h2c.hpp", "symbols": ["h2c_default_params"]}]}
{"id": "C79", "title": "expand_message_xmd separates domains", "statement": "Calls that differ in the message, the domain separation tag or the output length hash different strings, and if their outputs begin with the same digest-sized block they exhibit a collision of the hash.", "quantifier": "for all pairs of messages, tags of at most 255 octets and lengths below 65536, and every hash", "why_tests_cant": "Statement about all pairs of calls.", "anchors": [{"file": "include/nil/crypto3/hash/detail/h2f/h2f_functions.hpp", "symbols": ["expand_message_xmd::process"]}]}
{"id": "C80", "title": "Which errors the CRC detects", "statement": "Two messages of equal length have the same digest exactly if the generator divides their difference; two flipped bits at distance d go unnoticed exactly if the order of x modulo the generator divides d; for crc32_png the order is 2^32-1, so every double-bit error in a message below 2^32 bits is detected; a generator with an even number of terms detects every odd number of errors.", "quantifier": "for all pairs of messages, every width and generator with nonzero constant term", "why_tests_cant": "2^32-1 distances times all messages.", "anchors": [{"file": "include/nil/crypto3/hash/crc.hpp", "symbols": ["basic_crc", "crc32_png"]}]}
{"id": "C81", "title": "The CRC is balanced", "statement": "After any message exactly one continuation of DigestBits/8 octets leads to a given digest.", "quantifier": "for every message, every digest, every generator with nonzero constant term", "why_tests_cant": "2^32 continuations per message.", "anchors": [{"file": "include/nil/crypto3/hash/crc.hpp", "symbols": ["basic_crc::digest"]}]}
{"id": "C82", "title": "Word pushes with a bit count", "statement": "A program that mixes ranges, blocks, acc(word, bits = n) with any 0 <= n <= word size and extractions outputs the digests of the message fed so far, unless a word push that starts at a multiple of the word size completes a block and more data follows; pushes of fewer bits than a word are therefore always right, and feeding a byte string one byte at a time gives the one-shot digest.", "quantifier": "for every such program, every hash family, every fill level, every content of the uninitialised cache", "why_tests_cant": "The test suites push bytes and words at a few fill levels; the interleavings are unbounded.", "anchors": [{"file": "include/nil/crypto3/hash/accumulators/hash.hpp", "symbols": ["hash_impl::process", "resolve_type"]}]}
{"id": "C83", "title": "Bit messages of the sponge hashes in FIPS 202 order", "statement": "Feeding whole octets and then n bits with an explicit bit count gives the FIPS 202 digest of the octets' bits (least significant first, appendix B.1) followed by the first n bits of the pushed value in the same order, as the NIST samples of the test suite expect.", "quantifier": "for every program of whole blocks or words followed by one push of n bits, every n, every digest size of Keccak and SHA-3, every content of the uninitialised cache", "why_tests_cant": "The test suite has samples of 5 and 30 bits at the start of a block only; fill levels, counts and contents are unbounded.", "anchors": [{"file": "include/nil/crypto3/hash/accumulators/hash.hpp", "symbols": ["hash_impl::process"]}, {"file": "include/nil/crypto3/hash/detail/sha3/sha3_padding.hpp", "symbols": ["operator()", "process_last"]}, {"file": "include/nil/crypto3/hash/detail/keccak/keccak_padding.hpp", "symbols": ["operator()", "process_last"]}]}
{"id": "C84", "title": "CRC is affine; frames with their CRC leave a constant", "statement": "The digest of the exclusive or of three messages of equal length is the exclusive or of their digests. If input and remainder are reflected alike, a message followed by N/8 octets has the residue digest, one constant independent of the message, exactly when those octets are the digest in transmission order; for CRC-32 the constant is 21 44 df 1c and the order is the reverse of the returned octets.", "quantifier": "for all messages, all trailers, every odd polynomial of every octet width", "why_tests_cant": "Three messages and a trailer of arbitrary contents and length; the converse (no other trailer passes) quantifies over all trailers.", "anchors": [{"file": "include/nil/crypto3/hash/crc.hpp", "symbols": ["basic_crc", "crc32_png"]}]}
{"id": "C85", "title": "Length extension of the Merkle-Damgard hashes", "statement": "For a hash whose digest is the whole chaining value, the digest of a message followed by its padding and any data is computed from the digest and the length of the message and the data, without the message and the initial value; hence collisions of equal length extend. For the truncated hashes this fails.", "quantifier": "for all messages and extensions, all programs feeding them, every compression function, every content of the uninitialised cache", "why_tests_cant": "The relation holds between digests of two unbounded messages for every compression function.", "anchors": [{"file": "include/nil/crypto3/hash/detail/merkle_damgard_construction.hpp", "symbols": ["digest", "process_block"]}, {"file": "include/nil/crypto3/hash/detail/merkle_damgard_padding.hpp", "symbols": ["merkle_damgard_padding"]}, {"file": "include/nil/crypto3/hash/detail/davies_meyer_compressor.hpp", "symbols": ["davies_meyer_compressor"]}]}
{"id": "C86", "title": "Messages of 2^64 bits and more", "statement": "The digest of a message of 2^64 bits or more is the one its standard defines: FIPS 202 sets no limit for Keccak and SHA-3, FIPS 180-4 allows less than 2^128 bits for SHA-384 and SHA-512, RFC 7693 less than 2^128 octets for BLAKE2b; MD4, MD5, RIPEMD and Tiger take the length modulo 2^64.", "quantifier": "for all messages of 2^64 bits or more, all ways of feeding them", "why_tests_cant": "No test can feed 2^61 octets; the behaviour depends on the 64-bit counter wrapping.", "anchors": [{"file": "include/nil/crypto3/hash/accumulators/hash.hpp", "symbols": ["total_seen", "process"]}, {"file": "include/nil/crypto3/hash/detail/sponge_construction.hpp", "symbols": ["digest"]}, {"file": "include/nil/crypto3/hash/detail/haifa_construction.hpp", "symbols": ["process_block", "digest"]}, {"file": "include/nil/crypto3/hash/detail/merkle_damgard_construction.hpp", "symbols": ["append_length"]}]}
{"id": "C87", "title": "Every Pedersen segment has its own base point", "statement": "The base point of segment i of a Pedersen input is the one of index i, so exchanging two segments never leaves the digest unchanged for a reason that is independent of the base points.", "quantifier": "for every bit string, any number of segments, every group and base-point function", "why_tests_cant": "The index is a 32-bit integer; a test would have to hash more than 2^32 segments (about 100 GB for Jubjub).", "anchors": [{"file": "include/nil/crypto3/hash/pedersen.hpp", "symbols": ["update_new_segment", "update", "supplied_chunks"]}]}
{"id": "C88", "title": "The Poseidon hash of two elements is the same in the circuit build and in the ordinary build", "statement": "When the compiler builtin computes the Pallas permutation of the library, the call hash<poseidon>(a, b) compiled for circuits (macro __ZKLLVM__) gives the value of the same call compiled ordinarily, and of the ordinary hash of the list [a, b].", "quantifier": "for all pairs of elements of the Pallas base field and every builtin that computes the permutation", "why_tests_cant": "The two builds never run in the same test program; the circuit branch needs a compiler that the test suite does not use.", "anchors": [{"file": "include/nil/crypto3/hash/poseidon.hpp", "symbols": ["process", "__builtin_assigner_poseidon_pallas_base"]}, {"file": "include/nil/crypto3/hash/algorithm/hash.hpp", "symbols": ["hash", "__ZKLLVM__"]}]}
{"id": "C89", "title": "hash_to_curve returns points of the subgroup of prime order", "statement": "For G1 and G2 of BLS12-381, the point extracted for any message is killed by the prime r = z^4 - z^2 + 1, i.e. it is in the subgroup of exactly r points: multiplying by the constant h_eff of the suite clears the cofactor of the whole group of the curve.", "quantifier": "for every message, every split into pieces, every admissible tag, exceptional inputs of the isogeny included; for the cofactor, every point of the curve", "why_tests_cant": "Tests check single points. For G1 the factor h_eff is smaller than the cofactor, so that it kills every point is a fact about the structure of the group; the messages that reach the exceptional branch cannot be found by sampling.", "anchors": [{"file": "include/nil/crypto3/hash/detail/h2c/h2c_functions.hpp", "symbols": ["clear_cofactor", "ep_map"]}, {"file": "include/nil/crypto3/hash/detail/h2c/h2c_suites.hpp", "symbols": ["h_eff"]}, {"file": "include/nil/crypto3/hash/h2c.hpp", "symbols": ["process"]}]}
{"id": "C90", "title": "Any two Poseidon states activate many S-boxes", "statement": "For each of the six Poseidon permutations of the library and any two different input states, following both through the rounds of permute, the inputs of at least 35 S-boxes differ (three words), 36 (five words) and 108 (Mina): at least t + 1 in every two consecutive full rounds and at least one in every t consecutive partial rounds. In particular no difference passes through the partial rounds without touching an S-box.", "quantifier": "for every pair of different states, every policy whose tables satisfy the algebraic conditions, and each of the six tables", "why_tests_cant": "That no difference avoids the S-box of the partial rounds is a statement about all of F^t; the weak matrices for which it fails pass every test vector.", "anchors": [{"file": "include/nil/crypto3/hash/detail/poseidon/poseidon_permutation.hpp", "symbols": ["permute"]}, {"file": "include/nil/crypto3/hash/detail/poseidon/poseidon_round_operator.hpp", "symbols": ["full_round", "part_round"]}, {"file": "include/nil/crypto3/hash/detail/poseidon/original_constants.hpp", "symbols": ["mds"]}, {"file": "include/nil/crypto3/hash/detail/poseidon/kimchi_constants.hpp", "symbols": ["mds"]}]}
{"id": "C91", "title": "Davies-Meyer hashes are collision and preimage resistant with an ideal cipher", "statement": "If the block cipher behind SHA-0, SHA-1, SHA-2, MD4 or MD5 is a random cipher that an attacker may query q times in both directions, then the digests that the library computes for two different messages of the attacker's choice, l blocks together, are equal with probability at most (q+l)(q+l-1)/2 * 2^-digest (up to a factor 2^state/(2^state-q-l)), and the digest of a message of the attacker's choice is a prescribed one with probability at most (q+l) * 2^-digest: padding, length encoding, chaining, truncation and feed-forward lose nothing. The Davies-Meyer, Matyas-Meyer-Oseas and Miyaguchi-Preneel compressors of the library have the birthday bound of the full state; for the last two this needs a key converter that is injective on states.", "quantifier": "for every adaptive attacker, every number of queries below 2^state, every sequence of feeding calls, every IV and every word size", "why_tests_cant": "A probability over all block ciphers and all adaptive attackers; no test set approximates it.", "anchors": [{"file": "include/nil/crypto3/hash/detail/davies_meyer_compressor.hpp", "symbols": ["process_block"]}, {"file": "include/nil/crypto3/hash/detail/matyas_meyer_oseas_compressor.hpp", "symbols": ["process_block"]}, {"file": "include/nil/crypto3/hash/detail/miyaguchi_preneel_compressor.hpp", "symbols": ["process_block"]}, {"file": "include/nil/crypto3/hash/detail/merkle_damgard_construction.hpp", "symbols": ["process_block", "digest"]}, {"file": "include/nil/crypto3/hash/detail/state_adder.hpp", "symbols": ["operator()"]}]}
{"id": "C92", "title": "Sponge hashes are collision and preimage resistant with a random permutation", "statement": "If Keccak-f[1600] is replaced by a random permutation that an attacker may query q times in both directions, then the digests that the library computes with Keccak or SHA-3 of d = 224, 256, 384 or 512 bits for two different messages of the attacker's choice, l blocks together (or for one message in the two families), are equal with probability at most (q+l)(q+l-1)/2 * 2^-d + (q+l)^2 * 2^-2d, and the digest of a message of the attacker's choice is a prescribed one with probability at most (q+l) * 2^-d + (q+l)^2 * 2^-2d, both up to a factor 2^1600/(2^1600-q-l): the padding, the byte and bit order conversions and the block buffering of the library lose nothing.", "quantifier": "for every adaptive attacker, every number of queries below 2^1600, every sequence of feeding calls, every digest size with 3d <= 1600", "why_tests_cant": "A probability over all permutations of 1600 bits and all adaptive attackers; no test set approximates it.", "anchors": [{"file": "include/nil/crypto3/hash/detail/sponge_construction.hpp", "symbols": ["process_block", "digest"]}, {"file": "include/nil/crypto3/hash/detail/keccak/keccak_finalizer.hpp", "symbols": ["operator()"]}, {"file": "include/nil/crypto3/hash/detail/sha3/sha3_finalizer.hpp", "symbols": ["operator()"]}, {"file": "include/nil/crypto3/hash/detail/keccak/keccak_padding.hpp", "symbols": ["operator()"]}, {"file": "include/nil/crypto3/hash/detail/sha3/sha3_padding.hpp", "symbols": ["operator()"]}]}
{"id": "C93", "title": "BLAKE2b is collision and preimage resistant with an ideal cipher for rounds", "statement": "If the twelve rounds of BLAKE2b are replaced by a random block cipher on sixteen words, keyed by the message block, that an attacker may query q times in both directions, then the digests of nn octets that the library computes for two different octet strings of the attacker's choice, l compressions together, are equal with probability at most (q+l)(q+l-1)/2 * 2^-(8 nn), and the digest of a message of the attacker's choice is a prescribed one with probability at most (q+l) * 2^-(8 nn), up to a factor 2^1024/(2^1024-q-l): counter, final flag, zero padding and the second compression of a last full block lose nothing.", "quantifier": "for every adaptive attacker, every number of queries below 2^1024, every sequence of feeding calls of whole octets, every digest size", "why_tests_cant": "A probability over all block ciphers and all adaptive attackers; no test set approximates it.", "anchors": [{"file": "include/nil/crypto3/hash/blake2b.hpp", "symbols": ["process_block"]}, {"file": "include/nil/crypto3/hash/detail/haifa_construction.hpp", "symbols": ["process_block", "digest", "reset"]}, {"file": "include/nil/crypto3/hash/detail/blake2b/blake2b_policy.hpp", "symbols": ["iv_generator"]}]}
{"id": "C94", "title": "Every way of calling hash() means the function intended for it", "statement": "For all argument types: a call hash<H>(...) with an iterator pair, a range or an initializer list, alone, with an output iterator or with an accumulator, compiles without ambiguity to the overload for that combination, and the different ways of passing the same data reach functions that hash the same data; is_poseidon is true of exactly the Poseidon hashes.", "quantifier": "for all argument types, value categories and const qualifications, for Poseidon and all other hashes", "why_tests_cant": "Overload resolution happens at compile time; a test program fixes the argument types, and wrong choices are about all types a user may pass.", "anchors": [{"file": "include/nil/crypto3/hash/algorithm/hash.hpp", "symbols": ["hash"]}, {"file": "include/nil/crypto3/hash/type_traits.hpp", "symbols": ["is_poseidon", "is_pedersen", "is_h2f", "is_h2c", "is_find_group_hash"]}]}
{"id": "C95", "title": "Every conversion of a hash result means the operator intended for it", "statement": "The result of hash<H>(...) converts to the digest type, to std::array and boost::array, to std::string, to other containers and to built-in integers that can hold the digest, each without ambiguity by the conversion operator written for it.", "quantifier": "for all target types, digest sizes and hashes", "why_tests_cant": "Which operator is chosen is decided by the compiler for each target type; tests fix a few target types and cannot contain a conversion that does not compile.", "anchors": [{"file": "include/nil/crypto3/hash/hash_value.hpp", "symbols": ["range_hash_impl", "operator Integral", "operator OutputRange", "operator result_type"]}]}
{"id": "C96", "title": "Poseidon is collision and preimage resistant with a random permutation", "statement": "If the Poseidon permutation is replaced by a random permutation of the states that an attacker may query q times in both directions, then the digests that the library computes for two lists of field elements of the attacker's choice that differ after filling up with zeros to whole blocks, b blocks together, are equal with probability at most (q+b)^2 / p, and the digest of a list of the attacker's choice is a prescribed one with probability at most ((q+b)^2 + (q+b)) / p, both up to a factor p^t/(p^t-q-b), where p is the size of the field and t the number of words of the state. The square for preimages is due to the design: the digest is the whole chaining value, so a forward value that meets a backward one gives a preimage.", "quantifier": "for every finite field, every rate of at least one, every adaptive attacker, every number of queries below p^t", "why_tests_cant": "A probability over all permutations of the states and all adaptive attackers; no test set approximates it.", "anchors": [{"file": "include/nil/crypto3/hash/detail/poseidon/poseidon_sponge.hpp", "symbols": ["absorb", "squeeze"]}, {"file": "include/nil/crypto3/hash/algorithm/hash.hpp", "symbols": ["hash (poseidon overloads)"]}]}
{"id": "C97", "title": "expand_message_xmd and hash_to_field are uniform with a random hash", "statement": "If the hash function is a random function with digests of b octets, the expanded octets of one call of expand_message_xmd are exactly uniform, and those of q calls that differ in message, tag or length are jointly as good as independent uniform strings: no event on the outputs differs in probability by more than q(q-1)/2 * ell / 256^b, where ell is the largest number of output blocks. The field elements that hash_to_field returns for q such calls are jointly uniform up to q(q-1)/2 * ell / 256^b + q*count*m*p / 256^L; for the suites of the library up to q(q-1)*count*m / 2^256 + q*count*m / 2^131.", "quantifier": "for every digest and block size, any number of different calls within the limits of RFC 9380 and output lengths that are multiples of the digest size, every event on the outputs", "why_tests_cant": "A probability over all hash functions; the chaining of the output blocks must not let two calls or two blocks hash the same string, which shows only in a proof.", "anchors": [{"file": "include/nil/crypto3/hash/detail/h2f/h2f_functions.hpp", "symbols": ["expand_message_xmd::process"]}, {"file": "include/nil/crypto3/hash/h2f.hpp", "symbols": ["process"]}]}
{"id": "C98", "title": "find_group_hash returns uniform independent points with a random hash", "statement": "If the hash function is a random function with digests of b octets, what find_group_hash does for q different messages is independent from message to message: the search does not end with probability r^256, where r is the share of the digests that are no encoding of a point, and otherwise yields a multiple of the cofactor. If every point of a finite group has the same number t of encodings, r = 1 - t|G|/256^b and every multiple of the cofactor has the same probability (1 - r^256)/(number of multiples); the zero multiple is an assertion failure. So the base points that the Pedersen hash makes from segment indices below 2^32 are independent and uniform; for a group with the numbers of Jubjub all q of them exist except with probability q(2^-222 + 1/order).", "quantifier": "for every group, decoder and cofactor, every digest size, any number of different messages fed in any pieces, every hash construction of the library's shape that computes a random function", "why_tests_cant": "A probability over all hash functions; which of the 256 candidates decodes must not make one point likelier than another, and two messages must never hash the same candidate.", "anchors": [{"file": "include/nil/crypto3/hash/find_group_hash.hpp", "symbols": ["init_accumulator", "process"]}, {"file": "include/nil/crypto3/hash/pedersen.hpp", "symbols": ["current_base_point", "update_new_segment"]}]}
{"id": "C99", "title": "Pedersen digests of fixed messages do not collide with a random hash", "statement": "If the hash function under find_group_hash is a random function, every point has the same number of encodings and the multiples of the cofactor form a group of prime order l, then two bit strings with different paddings that were chosen before the hash function have the same Pedersen digest with probability at most 1/l, N such strings contain a collision with probability at most N(N-1)/(2l), and the digest of one such string is a given point with probability at most 1/l. The base points are those that the code itself computes from the segment indices.", "quantifier": "for all non-empty bit strings of fewer than 2^64 - 3 bits and at most 2^32 segments, every group, decoder, admissible number of chunks per segment and hash construction of the library's shape that computes a random function", "why_tests_cant": "A probability over all hash functions; needs that the base points of different segments are independent and that no two paddings have segment scalars congruent modulo the order.", "anchors": [{"file": "include/nil/crypto3/hash/pedersen.hpp", "symbols": ["update", "update_new_segment", "pad_update", "process"]}, {"file": "include/nil/crypto3/hash/find_group_hash.hpp", "symbols": ["process"]}]}
{"id": "C100", "title": "Events inside the iteration carry over to the digests", "statement": "If a Merkle-Damgard or HAIFA compression function has t collisions one after the other, starting at the initial value, then the 2^t ways to choose one block of each pair, followed by any common (for HAIFA non-empty) data, are 2^t different messages that all get one digest. A Davies-Meyer compressor over a block cipher has exactly one fixed point per block, and a fixed point with a link into a longer Merkle-Damgard message yields a different-looking message of the same length with the same digest. If two sequences of whole blocks bring a sponge to the same capacity part, then for every next block there is a partner block such that the two messages, with any common data appended, get the same digest.", "quantifier": "for all numbers t, compression functions, permutations, common data, injectors, and all programs on the accumulator that feed the messages in any pieces", "why_tests_cant": "2^t messages for every t, and no collision of the real compression functions is at hand; the statement has to hold for arbitrary compression functions and for every way to feed the messages.", "anchors": [{"file": "include/nil/crypto3/hash/detail/merkle_damgard_construction.hpp", "symbols": ["process_block", "digest"]}, {"file": "include/nil/crypto3/hash/detail/haifa_construction.hpp", "symbols": ["process_block", "digest"]}, {"file": "include/nil/crypto3/hash/detail/sponge_construction.hpp", "symbols": ["process_block", "digest"]}, {"file": "include/nil/crypto3/hash/detail/davies_meyer_compressor.hpp", "symbols": ["process_block"]}]}
{"id": "C101", "title": "The assembly versions of Keccak-f are constant time", "statement": "On the machines of the processor manuals, the sequence of memory accesses and of jumps of each of the four assembly versions of Keccak-f[1600] depends only on the addresses of its arrays (for AVX-512 also on the mask registers), not on the contents of the state, of the scratch arrays, of the registers or of any other memory. The loops run 24 times (12 for AVX-512). All accesses are inside the state, the scratch arrays, the tables of constants (for AVX-512 if the mask k1 selects at most the first quadword) and 32 bytes below the ARMv8 stack pointer, and the constants are never written. Every word of the state is read and written by the x86-64 and ARMv8 code, all round constants are read by the x86-64 and AVX2 code and (if k1 selects the first quadword) by the AVX-512 code, and the AVX2 code reads its tables completely and nothing else.", "quantifier": "for all machines, all contents of memory and registers, all placements of the arrays including overlapping ones", "why_tests_cant": "The property compares pairs of executions over all 2^1600 states; timing tests see only a few states and are noisy.", "anchors": [{"file": "include/nil/crypto3/hash/detail/keccak/keccak_x86_64_impl.hpp", "symbols": ["permute"]}, {"file": "include/nil/crypto3/hash/detail/keccak/keccak_armv8_impl.hpp", "symbols": ["permute"]}, {"file": "include/nil/crypto3/hash/detail/keccak/keccak_avx2_impl.hpp", "symbols": ["permute"]}, {"file": "include/nil/crypto3/hash/detail/keccak/keccak_avx512_impl.hpp", "symbols": ["permute"]}]}
{"id": "C102", "title": "The sponge hashes are indifferentiable from a random oracle", "statement": "For every Keccak and SHA-3 digest size d with 3d <= 1600, in particular 224, 256, 384 and 512, over a random permutation of the state that can be queried in both directions, the digests that the library returns through its accumulator interface are indifferentiable from a random oracle: there is one simulator of the permutation, which asks the oracle at most once for each query and does not see the digests the distinguisher asks for, such that every adaptive distinguisher that makes queries to the permutation and asks for digests of messages of its choice, in either family and split into any calls, at a total cost of N permutation calls, has an advantage of at most N^2 / 2^(2d).", "quantifier": "for all adaptive distinguishers, all costs N, all programs of calls for each message, all injectors, all contents of the cache", "why_tests_cant": "The statement is about probabilities over all permutations of 2^1600 states and all random functions, and over all distinguishers.", "anchors": [{"file": "include/nil/crypto3/hash/keccak.hpp", "symbols": ["process_block"]}, {"file": "include/nil/crypto3/hash/sha3.hpp", "symbols": ["process_block"]}, {"file": "include/nil/crypto3/hash/detail/sponge_construction.hpp", "symbols": ["process_block", "digest"]}, {"file": "include/nil/crypto3/hash/detail/keccak/keccak_padding.hpp", "symbols": ["process_last"]}, {"file": "include/nil/crypto3/hash/detail/sha3/sha3_padding.hpp", "symbols": ["process_last"]}]}
{"id": "C103", "title": "The hashes that return the whole state are not indifferentiable from a random oracle", "statement": "For SHA-0, SHA-1, SHA-256, SHA-512, MD4 and MD5, whose digest is the whole chaining value, over a random block cipher that can be queried in both directions: whatever simulator of the cipher is taken, even one without bound on its running time that asks the oracle once for each query, there is a distinguisher that asks for two digests and makes one cipher query, at a total cost of four cipher calls, that always outputs one with the digests the library returns through its accumulator interface, for every cipher, and that outputs one with a random oracle and the simulator with a probability of at most 2^-256 + 2^-(digest bits).", "quantifier": "for all simulators, all ciphers, all initial values, all injectors, all contents of the digest buffer", "why_tests_cant": "The statement is about every simulator and about probabilities over all random functions; the distinguisher depends on the simulator.", "anchors": [{"file": "include/nil/crypto3/hash/detail/merkle_damgard_construction.hpp", "symbols": ["digest", "process_block"]}, {"file": "include/nil/crypto3/hash/detail/merkle_damgard_padding.hpp", "symbols": ["merkle_damgard_padding"]}, {"file": "include/nil/crypto3/hash/detail/davies_meyer_compressor.hpp", "symbols": ["davies_meyer_compressor"]}]}
{"id": "C104", "title": "Poseidon digests can be continued", "statement": "The digest of a Poseidon hash is the whole chaining value: the digest of a list, filled up with zeros to whole blocks and followed by any further elements, is computed from the digest of the list and those elements without knowing the list, and a collision stays one under any continuation. Hence the hash is not indifferentiable from a random oracle, not even from one that identifies the lists that the library identifies by zeros: for every simulator of a random permutation there is a distinguisher that asks for two digests, of one block and of two, and makes one query, that always outputs one with the library, and outputs one with a random oracle and the simulator with a probability of at most p^-rate + 1/p.", "quantifier": "for every field, every rate of at least one, every permutation (extension), every pair of lists, every simulator", "why_tests_cant": "The statement is about every permutation and list, and about every simulator and all random functions.", "anchors": [{"file": "include/nil/crypto3/hash/detail/poseidon/poseidon_sponge.hpp", "symbols": ["absorb", "squeeze", "permute"]}, {"file": "include/nil/crypto3/hash/algorithm/hash.hpp", "symbols": ["hash"]}]}
{"id": "C105", "title": "BLAKE2b is indifferentiable from a random oracle", "statement": "If the twelve rounds of BLAKE2b are replaced by a random block cipher on sixteen words, keyed by the message block and open to queries in both directions, then the digests of nn <= 64 octets that the library returns through its accumulator interface are indifferentiable from a random oracle: there is one simulator of the cipher, which asks the oracle at most once for each query and does not see the digests the distinguisher asks for, such that every adaptive distinguisher that makes queries to the cipher and asks for digests of octet strings of its choice, split into any calls, at a total cost of N calls of the compression function, has an advantage of at most N^2 / 2^512 + N(N-1) / 2^1025.", "quantifier": "for all adaptive distinguishers, all costs N, all digest sizes of whole octets, all programs of calls for each message, all injectors, all contents of the cache", "why_tests_cant": "The statement is about probabilities over all block ciphers with 2^1024 keys on 2^1024 states and all random functions, and over all distinguishers.", "anchors": [{"file": "include/nil/crypto3/hash/blake2b.hpp", "symbols": ["process_block"]}, {"file": "include/nil/crypto3/hash/detail/haifa_construction.hpp", "symbols": ["process_block", "digest", "reset"]}, {"file": "include/nil/crypto3/hash/detail/blake2b/blake2b_policy.hpp", "symbols": ["iv_generator"]}]}
{"id": "C106", "title": "A secret key in front of the message authenticates it, for Keccak, SHA-3 and BLAKE2b", "statement": "Feed a random secret key of whole octets to the library and then the message, and take the digest as authentication code.  For the Keccak and SHA-3 hashes of d bits over a random permutation, an adaptive adversary that queries the permutation in both directions and asks for the codes of messages of its choice, split into any calls, at a total cost of N permutation calls, cannot tell the codes from the values of a random function of the message, independent of the permutation, but with an advantage of 2 N^2/2^2d + N/K, where K is the number of keys; and it outputs a right code for a message for which it did not ask with probability at most 2 N^2/2^2d + N/K + 2^-d.  The same for BLAKE2b with nn <= 64 octets of output over a random cipher in place of the twelve rounds, with N^2/2^512 + N(N-1)/2^1025 for N^2/2^2d and 8 nn for d.", "quantifier": "for all adaptive adversaries, all costs N, all sets of keys of the same length and all ways of feeding them, all messages that fit the 64-bit counter together with the key, all programs of calls, all injectors, all contents of the cache", "why_tests_cant": "The statement is about probabilities over all keys, all permutations of 2^1600 states (all ciphers with 2^1024 keys) and all random functions, and over all adversaries.", "anchors": [{"file": "include/nil/crypto3/hash/detail/sponge_construction.hpp", "symbols": ["process_block", "digest"]}, {"file": "include/nil/crypto3/hash/detail/haifa_construction.hpp", "symbols": ["process_block", "digest"]}, {"file": "include/nil/crypto3/hash/keccak.hpp", "symbols": ["keccak_1600"]}, {"file": "include/nil/crypto3/hash/sha3.hpp", "symbols": ["sha3"]}, {"file": "include/nil/crypto3/hash/blake2b.hpp", "symbols": ["process_block"]}]}
{"id": "C107", "title": "A secret key in front of the message does not authenticate it, for SHA-0, SHA-1, SHA-256, SHA-512, MD4 and MD5", "statement": "For the hashes of the library in Davies-Meyer mode whose digest is the whole chaining value, with any cipher: whoever knows the length of the secret key and the digest of key and message, for one message of whole octets, gets the digest of key and a longer message with one query to the cipher, for every key.", "quantifier": "for all keys, all ways of feeding them, all messages (with two blocks to spare below 2^64 bits), all ciphers and initial values, all injectors", "why_tests_cant": "The forger is one program that wins for every key and every cipher, whose number is beyond any test.", "anchors": [{"file": "include/nil/crypto3/hash/detail/merkle_damgard_construction.hpp", "symbols": ["process_block", "digest"]}, {"file": "include/nil/crypto3/hash/detail/davies_meyer_compressor.hpp", "symbols": ["process_block"]}]}
{"id": "C108", "title": "SHA-224 and SHA-384 over a random cipher are indifferentiable from a random oracle", "statement": "For the hashes of the library in Davies-Meyer mode, with a random block cipher in place of the rounds: there is a simulator of the cipher, asking the random oracle for at most one digest per query, such that every adaptive distinguisher that asks for digests of messages (split into any calls) and queries the cipher in both directions, at a total cost of N cipher calls, tells the library with the cipher from the random oracle with the simulator with an advantage of at most (3 N^2 - N)/2 / 2^s, where s is the number of bits of the chaining value that the digest does not show: 32 for SHA-224 and 128 for SHA-384.  (For s = 0 the bound says nothing, and C103 shows that the claim is false there.)", "quantifier": "for all adaptive distinguishers, all costs N, all programs of calls with messages shorter than 2^64 bits that the library hashes as the standard says, all initial values, all injectors, all contents of the cache", "why_tests_cant": "The statement is about probabilities over all ciphers with 2^512 or 2^1024 keys and over all random functions, and over all distinguishers.", "anchors": [{"file": "include/nil/crypto3/hash/detail/merkle_damgard_construction.hpp", "symbols": ["process_block", "digest"]}, {"file": "include/nil/crypto3/hash/detail/davies_meyer_compressor.hpp", "symbols": ["process_block"]}, {"file": "include/nil/crypto3/hash/sha2.hpp", "symbols": ["sha2"]}, {"file": "include/nil/crypto3/hash/detail/sha2/sha2_policy.hpp", "symbols": ["sha2_policy"]}]}
{"id": "C109", "title": "A secret key in front of the message, for SHA-224 and SHA-384: how much the hidden bits protect", "statement": "Feed a random secret key of whole octets and then the message to a hash of the library in Davies-Meyer mode over a random cipher that hides s bits of the chaining value.  An adaptive adversary of cost N tells the digests from the values of a random function of the message with an advantage of at most (3 N^2 - N)/2^s + N/K, and forges with probability at most that plus 2^-digest, where K is the number of keys.  On the other side, for every key and cipher one of 2^s forgers that each ask for the digest of one message and one cipher query wins, so one of them wins with probability at least 2^-s: 2^-32 for SHA-224, although its digest has 224 bits.", "quantifier": "for all adaptive adversaries, all costs N, all sets of keys of the same length and all ways of feeding them, all messages that fit the 64-bit counter together with the key, all programs of calls, all initial values, all injectors", "why_tests_cant": "The statement is about probabilities over all keys, all ciphers and all random functions, and over all adversaries.", "anchors": [{"file": "include/nil/crypto3/hash/detail/merkle_damgard_construction.hpp", "symbols": ["process_block", "digest"]}, {"file": "include/nil/crypto3/hash/detail/davies_meyer_compressor.hpp", "symbols": ["process_block"]}, {"file": "include/nil/crypto3/hash/sha2.hpp", "symbols": ["sha2"]}]}
{"id": "C110", "title": "A secret key in front of the elements does not authenticate them, for Poseidon", "statement": "For the Poseidon hash of the library over any permutation, with a secret list of elements as key in front of the message: whoever knows the length of the key and the digest of key and message, for one message, gets the digest of key and a longer message that ends with elements of choice, with one query to the permutation; and unless key and message fill whole blocks, the digest is also that of the message with a zero behind, without a query.", "quantifier": "for every field, every rate of at least one, every key, every message, every permutation", "why_tests_cant": "The forger is one program that wins for every key and every permutation of the states, whose number is beyond any test.", "anchors": [{"file": "include/nil/crypto3/hash/detail/poseidon/poseidon_sponge.hpp", "symbols": ["absorb", "squeeze"]}, {"file": "include/nil/crypto3/hash/algorithm/hash.hpp", "symbols": ["hash"]}]}
{"id": "C111", "title": "Poseidon on one block over a random permutation is indifferentiable from a random oracle, and authenticates with a key in the block", "statement": "For the Poseidon hash of the library on lists of at most one block (rate) of elements, over a random permutation of the states: there is a simulator that asks a random oracle on blocks at most one digest per query and that no distinguisher of cost N tells from the permutation with an advantage above N/p + N(N-1)/2/p^rate, p being the number of elements. So with a secret key of k elements in front of the list, inside the block, the digests look like a random function up to twice that and N/p^k, and forging one succeeds with at most 1/p more. (For longer lists C104 and C110 show the contrary.)", "quantifier": "for every finite ring, every rate of at least one, every key length, every N, every distinguisher and every forger of that cost", "why_tests_cant": "A bound over all adaptive strategies of an adversary and an average over all permutations of the states.", "anchors": [{"file": "include/nil/crypto3/hash/detail/poseidon/poseidon_sponge.hpp", "symbols": ["absorb", "squeeze"]}, {"file": "include/nil/crypto3/hash/algorithm/hash.hpp", "symbols": ["hash"]}]}
{"id": "C112", "title": "expand_message_xmd and hash_to_field are indifferentiable from random functions", "statement": "If the hash function is a random function with digests of b octets, expand_message_xmd cannot be told from a random function even by someone who can call the hash function too: there is a simulator of the hash function, which sees only the calls of the hash function and asks the random function for at most one value per call, such that every adaptive program with N calls in all outputs one with probabilities that differ by at most N(N-1)/2 * ell / 256^b, ell being the largest number of output blocks. The same holds for hash_to_field and a random function with values in the field, up to N * count*m*p / 256^L more; for the suites of the library the sum is N(N-1)*count*m / 2^256 + N*count*m / 2^131. It holds for the code: the calls are messages fed to the accumulator by any operations.", "quantifier": "for every digest and block size, every finite set of calls within the limits of RFC 9380 with output lengths that are multiples of the digest size, every N and every adaptive program with N calls", "why_tests_cant": "A bound over all adaptive programs and an average over all hash functions, against a simulator that must answer queries without knowing which messages were asked.", "anchors": [{"file": "include/nil/crypto3/hash/detail/h2f/h2f_functions.hpp", "symbols": ["expand_message_xmd::process"]}, {"file": "include/nil/crypto3/hash/h2f.hpp", "symbols": ["process"]}]}
{"id": "C113", "title": "Second preimages: the length of the given message matters for the Merkle-Damgard hashes only", "statement": "If the block cipher (SHA-0, SHA-1, SHA-2, MD4, MD5), the permutation (Keccak, SHA-3) or the rounds (BLAKE2b) are random, then for every given message, taking L calls, an attacker with q queries in both directions finds another message of at most l calls for which the library returns the same digest with probability at most (L+q+l) * (L + 2^(state-digest)) / (2^state - (L+q+l)) for the Merkle-Damgard hashes, ((L+q+l)^2 * 2^-2d + (L+q+l) * 2^-d) * 2^1600 / (2^1600 - (L+q+l)) for the sponge hashes, and (q+l) * 2^-(8 nn) * 2^1024 / (2^1024 - (L+q+l)) for BLAKE2b with nn octets of output. Only the first bound loses a factor of the length of the message, which is what the attack of C100 on long messages gains; the counter of BLAKE2b prevents it.", "quantifier": "for every given message, every adaptive attacker, every number of queries below the number of states, every sequence of feeding calls", "why_tests_cant": "A probability over all ciphers and a maximum over all adaptive attackers; no second preimage of the library's hashes is known that a test could show.", "anchors": [{"file": "include/nil/crypto3/hash/detail/davies_meyer_compressor.hpp", "symbols": ["process_block"]}, {"file": "include/nil/crypto3/hash/detail/merkle_damgard_construction.hpp", "symbols": ["process_block", "digest"]}, {"file": "include/nil/crypto3/hash/detail/state_adder.hpp", "symbols": ["operator()"]}, {"file": "include/nil/crypto3/hash/detail/sponge_construction.hpp", "symbols": ["process_block", "digest"]}, {"file": "include/nil/crypto3/hash/blake2b.hpp", "symbols": ["process_block"]}, {"file": "include/nil/crypto3/hash/detail/haifa_construction.hpp", "symbols": ["process_block", "digest", "reset"]}]}
{"id": "C114", "title": "hash_to_curve with a random hash is collision and preimage resistant, and nobody finds an exceptional input", "statement": "If the hash function is random, an adaptive program with N calls of it finds two different messages (or tags) for which the accumulator of hash_to_curve extracts the same point with probability at most (N+2)(N+1)/2 * (2^-248 + 4 * 2^-256) for G1 and (N+2)(N+1)/2 * (2^-250 + 8 * 2^-256) for G2; a message with a given point with probability at most (N+1) * 2^-248 + 2N(N+1) * 2^-256 (G1); another message with the point of a given one with similar probability. It finds a message for which the point for G1 differs from RFC 9380 (an exceptional input of the isogeny, see C59 and C60) with probability at most (N+1) * 2^-375 + 2N(N+1) * 2^-256. The same holds for the outputs of expand_message_xmd and hash_to_field themselves, with the bounds of a random function of their size plus (N+2)(N+1)/2 * ell * 256^-b.", "quantifier": "for every adaptive program, every number of calls, every finite set of messages and tags, every way to feed them, every implementation of is_square and sqrt that meets its contract", "why_tests_cant": "A probability over all hash functions and a maximum over all adaptive programs. No collision of the library's hash_to_curve is known that a test could show, and no message with an exceptional field element will ever be found by testing.", "anchors": [{"file": "include/nil/crypto3/hash/h2c.hpp", "symbols": ["process"]}, {"file": "include/nil/crypto3/hash/detail/h2c/h2c_functions.hpp", "symbols": ["m2c_simple_swu", "iso_map", "map_to_curve", "ep_map", "clear_cofactor"]}, {"file": "include/nil/crypto3/hash/detail/h2f/h2f_functions.hpp", "symbols": ["expand_message_xmd::process"]}, {"file": "include/nil/crypto3/hash/h2f.hpp", "symbols": ["process"]}]}
{"id": "C115", "title": "MD4, MD5, SHA-0 and SHA-1 are not collision resistant, whatever follows", "statement": "For each of MD4, MD5, SHA-0 and SHA-1 there are two different octet strings of whole blocks and equal length (64, 128, 256, 320 octets) such that the accumulator of the library gives the same digest for both of them followed by any continuation, if its block cipher computes the published rounds. In particular a secret key behind the message does not authenticate it: for every key the two messages have the same tag.", "quantifier": "for every continuation (every key), every way of feeding the two messages, every content of uninitialised memory, every cipher that computes the rounds of the standard", "why_tests_cant": "The agreement is claimed for all continuations, including secret ones, and all ways of cutting the messages into pieces.", "anchors": [{"file": "include/nil/crypto3/hash/md4.hpp", "symbols": ["md4"]}, {"file": "include/nil/crypto3/hash/md5.hpp", "symbols": ["md5"]}, {"file": "include/nil/crypto3/hash/sha.hpp", "symbols": ["sha"]}, {"file": "include/nil/crypto3/hash/sha1.hpp", "symbols": ["sha1"]}, {"file": "include/nil/crypto3/hash/detail/davies_meyer_compressor.hpp", "symbols": ["process_block"]}, {"file": "include/nil/crypto3/hash/detail/merkle_damgard_construction.hpp", "symbols": ["digest"]}]}
{"id": "C116", "title": "the digest sizes for which the sponge and BLAKE2b templates work", "statement": "keccak_1600<d> and sha3<d> give the sponge digest of FIPS 202 for all octet strings exactly if d is a multiple of 32 (0 < d <= 796, a block of at least one octet); for every other d the block of 1600 - 2d bits is not a whole number of words, nothing rejects the instantiation, and every extraction writes outside the block. blake2b gives the digest of RFC 7693 for all octet strings not ending with a full block exactly if the digest has at most 64 octets; for every larger size every extraction reads behind the state.", "quantifier": "for every digest size, every permutation of the sponge, every accumulator state, every message, every content of uninitialised memory", "why_tests_cant": "The size is a template parameter with infinitely many values and the claim about each of them is over all messages and accumulator states.", "anchors": [{"file": "include/nil/crypto3/hash/detail/keccak/keccak_policy.hpp", "symbols": ["block_words"]}, {"file": "include/nil/crypto3/hash/detail/sha3/sha3_policy.hpp", "symbols": ["block_words"]}, {"file": "include/nil/crypto3/hash/detail/blake2b/blake2b_policy.hpp", "symbols": ["digest_bits"]}, {"file": "include/nil/crypto3/hash/detail/haifa_construction.hpp", "symbols": ["digest"]}, {"file": "include/nil/crypto3/hash/detail/keccak/keccak_padding.hpp", "symbols": ["operator()"]}, {"file": "include/nil/crypto3/hash/detail/sha3/sha3_padding.hpp", "symbols": ["operator()"]}]}
{"id": "C117", "title": "A secret key does not authenticate a message with the Pedersen hash", "statement": "The Pedersen digest of a bit string of whole chunks followed by another one is the digest of the first plus a point that depends on the second and on the length of the first only. Hence whoever knows the length of a secret key and the digest of key and message, for one message, knows the digest of the key and every message that agrees with it up to the end of the chunk that the key begins; the same with a second secret behind the message, for messages of the same length. Unless the bits are whole chunks a zero bit behind them does not change the digest.", "quantifier": "for all secrets, all messages within the bounds of C31, every group, every chunks-per-segment c >= 2, every base-point function", "why_tests_cant": "The digests of infinitely many messages under every key are claimed to follow from one digest; tests only compare single digests.", "anchors": [{"file": "include/nil/crypto3/hash/pedersen.hpp", "symbols": ["update_current_segment", "update_new_segment", "pad_update", "process"]}, {"file": "include/nil/crypto3/hash/detail/pedersen/lookup.hpp", "symbols": ["process"]}]}
{"id": "C118", "title": "The bounds for the Davies-Meyer hashes with an ideal cipher are attained", "statement": "If the block cipher behind SHA-0, SHA-1, SHA-2, MD4 or MD5 is a random cipher, the digests that the library computes for different messages of one block are independent and uniform. So two of q such messages collide with probability exactly 1 - N(N-1)...(N-q+1)/N^q, where N = 2^digest, and one of them has a prescribed digest with probability exactly 1 - (1-1/N)^q; the attackers that ask these q queries win the games of C91 with probability at least q(q-1)/(q(q-1)+2N) and q/(q+N): the upper bounds of C91 are best possible up to a constant factor.", "quantifier": "for every number q of messages, every family of programs that feed different messages of one block, every property of the family of digests, every IV, word size and target; for the attackers every q up to 2^256", "why_tests_cant": "It is a statement about the distribution of the digests over all block ciphers and about numbers of messages that nobody can hash.", "anchors": [{"file": "include/nil/crypto3/hash/detail/davies_meyer_compressor.hpp", "symbols": ["process_block"]}, {"file": "include/nil/crypto3/hash/detail/merkle_damgard_construction.hpp", "symbols": ["process_block", "digest"]}, {"file": "include/nil/crypto3/hash/detail/state_adder.hpp", "symbols": ["operator()"]}]}
{"id": "C119", "title": "The bounds for the sponge hashes and for BLAKE2b with ideal primitives are attained", "statement": "Let N = 2^d. If Keccak-f[1600] is a random permutation, then among q different messages of one block (of either family, with 3d <= 1600) two have the same digest of d bits with probability exactly 1 - N(N-1)...(N-q+1) M^q / (NM(NM-1)...(NM-q+1)), where NM = 2^1600, and one of them has a prescribed digest with probability exactly 1 - (NM-M)(NM-M-1)...(NM-M-q+1) / (NM(NM-1)...(NM-q+1)). If the twelve rounds of BLAKE2b are a random cipher, the digests of different messages of one block and one length are independent and uniform. The attackers that ask these q queries win the games of C92 and C93 with probability at least q(q-1)(M-1)/(q(q-1)(M-1)+2NM), q(q-1)/(q(q-1)+2N) and q/(q+N): the upper bounds of C92 and C93 are best possible up to a constant factor.", "quantifier": "for every number q of messages, every family of programs that feed different messages of one block, every digest size, every target; for the attackers every q up to 2^512", "why_tests_cant": "It is a statement about the distribution of the digests over all permutations of 1600 bits and all ciphers on 1024 bits, for numbers of messages that nobody can hash.", "anchors": [{"file": "include/nil/crypto3/hash/detail/sponge_construction.hpp", "symbols": ["process_block", "digest"]}, {"file": "include/nil/crypto3/hash/sha3.hpp", "symbols": ["process_block"]}, {"file": "include/nil/crypto3/hash/keccak.hpp", "symbols": ["process_block"]}, {"file": "include/nil/crypto3/hash/blake2b.hpp", "symbols": ["process_block"]}, {"file": "include/nil/crypto3/hash/detail/haifa_construction.hpp", "symbols": ["process_block", "digest"]}]}
{"id": "C120", "title": "The bounds for Poseidon with a random permutation are attained, for preimages by meeting in the middle", "statement": "Let p be the number of field elements, n the rate, N = p, M = p^n. If the Poseidon permutation is a random permutation of the states, then among q different blocks two have the same digest with probability exactly 1 - N(N-1)...(N-q+1) M^q / (NM(NM-1)...(NM-q+1)), and one has a prescribed digest with probability exactly 1 - (NM-M)...(NM-M-q+1) / (NM(NM-1)...(NM-q+1)). The attacker that asks these q queries wins the collision game of C96 with probability at least q(q-1)(M-1)/(q(q-1)(M-1)+2NM). The attacker that hashes a different blocks and goes back from b different states whose last word is the wanted digest wins the preimage game of C96 with probability at least (1 - a(a+1)/(2N)) ab(M-1)/(ab(M-1)+NM), with a list of two blocks. For all the fields of the library, 2^127 queries therefore find a collision with probability more than 1/10 and a preimage of any digest with probability more than 1/20: preimages of a digest of 255 bits cost no more than collisions.", "quantifier": "for every finite ring of field elements, every rate of at least one, every number of queries up to the number of blocks, every target", "why_tests_cant": "It is a statement about the distribution of the digests over all permutations of the states, for attackers that nobody can run.", "anchors": [{"file": "include/nil/crypto3/hash/detail/poseidon/poseidon_sponge.hpp", "symbols": ["absorb", "squeeze"]}, {"file": "include/nil/crypto3/hash/algorithm/hash.hpp", "symbols": ["hash (poseidon overloads)"]}]}
{"id": "C121", "title": "The second-preimage bound for the Merkle-Damgård hashes is attained on long messages", "statement": "Let the block cipher of a hash that the library builds with merkle_damgard_construction and davies_meyer_compressor be a random cipher, N = 2^state, and let a message of less than 2^64 bits begin with l + 1 different blocks. There is an attacker that decrypts zero under a keys (each gives a fixed point of the compression function), hashes b first blocks, follows the chaining values of the message and tries c linking blocks, so a + b + (l + 1) + c queries, and that finds another message of the same length and the same number of cipher calls for which the library returns the same digest with probability at least (1 - b(b-1)/2N) ab/(ab+N) (1 - l(l-1)/2N) cl/(cl+N). The factor of the message length in the bound of C113 is therefore real: for SHA-256 and a message that begins with 2^54 + 1 different blocks 2^203 queries succeed with probability at least 1/9, for every initial value, every contents of the memory and every way of feeding the message.", "quantifier": "for every such hash and policy, every initial value, every message shorter than 2^64 bits that begins with different blocks, all numbers of queries with enough blocks for them, every program of calls that feeds the message", "why_tests_cant": "It is a statement about all ciphers and an attacker with more queries than any machine can make.", "anchors": [{"file": "include/nil/crypto3/hash/detail/merkle_damgard_construction.hpp", "symbols": ["process_block", "digest"]}, {"file": "include/nil/crypto3/hash/detail/davies_meyer_compressor.hpp", "symbols": ["process_block"]}, {"file": "include/nil/crypto3/hash/sha2.hpp", "symbols": ["sha2"]}, {"file": "include/nil/crypto3/hash/md5.hpp", "symbols": ["md5"]}]}
{"id": "C122", "title": "Tiger and the RIPEMD hashes resist collisions and preimages when their passes and lines are random ciphers", "statement": "Tiger and the four RIPEMD hashes have no davies_meyer_compressor, but their compressors run a permutation keyed by the block on the chaining value and combine its result with the chaining value: Tiger the passes (exclusive-or, subtraction, addition), RIPEMD-256 and RIPEMD-320 the rounds with exchanges (addition), RIPEMD-128 and RIPEMD-160 two lines side by side (crosswise addition). With the library's own passes and lines this is exactly the library's hash, for any number of passes. With random ciphers instead (two independent ones for the two lines), N = 2^state: an attacker with q queries (encryptions or decryptions) finds two programs of calls that feed different messages and return the same digest, of together at most l cipher calls (one per block, two for two lines), with probability at most (q+l)(q+l-1)/2/(N-(q+l)); and one with a given digest with probability at most (q+l)/(N-(q+l)).", "quantifier": "for Tiger with every number of passes and RIPEMD-128/160/256/320, every adaptive attacker, every target, every content of the memory and every bit injector", "why_tests_cant": "It is a statement about all ciphers and all attackers.", "anchors": [{"file": "include/nil/crypto3/hash/tiger.hpp", "symbols": ["process_block"]}, {"file": "include/nil/crypto3/hash/ripemd.hpp", "symbols": ["process_block"]}, {"file": "include/nil/crypto3/hash/detail/merkle_damgard_construction.hpp", "symbols": ["process_block", "digest"]}]}
{"id": "C123", "title": "Packing keeps the bit stream for units of any number of octets", "statement": "docs/pack.md describes pack for units of any number of octets (the hashes of the library use single octets, C52). The pseudocode of imploder, exploder and the equal-size case, with its two-step reversals (octets of the chunk and octets of each unit for the unit order, octets of each unit and bits of each octet for the bit order), keeps the bit stream: the units of the chunks in their order, the bits of each unit in their order. Packing back returns the input, packing is a bijection between sequences of chunks, the reversals exchange whole units and reverse the bits inside each unit, and with the octet as unit it is the algorithm of C52.", "quantifier": "for every unit of whole octets, every pair of chunk sizes in whole units one of which divides the other, all four orders on each side, every sequence of chunks", "why_tests_cant": "Unit and chunk sizes and the data are unbounded.", "anchors": [{"file": "docs/pack.md", "symbols": ["Unit order reversal", "Bit order reversal", "Imploder", "Exploder", "Equal size case"]}]}
{"id": "C124", "title": "Tiger and RIPEMD over random ciphers: the bounds of C122 are attained", "statement": "With random ciphers in place of the passes of Tiger and of the lines of the RIPEMD hashes, what the library returns for different messages of one block is distributed like independent uniform strings: every property of the family of digests has exactly that probability. Hence the birthday attack with q messages finds a collision with probability at least q(q-1)/(q(q-1)+2*2^d) and the search finds a preimage with probability at least q/(q+2^d), in the same games as the upper bounds of C122; a message costs one query, two for RIPEMD-128 and RIPEMD-160, whose two lines are separate ciphers.", "quantifier": "for the five hashes, every family of different messages of one block, every property of the digests, every number of messages up to 2^256, every target", "why_tests_cant": "A statement about the probability over all ciphers on the state; no test draws a random cipher on 192 bits, and the families are unbounded.", "anchors": [{"file": "include/nil/crypto3/hash/tiger.hpp", "symbols": ["process_block"]}, {"file": "include/nil/crypto3/hash/ripemd.hpp", "symbols": ["process_block"]}, {"file": "include/nil/crypto3/hash/detail/merkle_damgard_construction.hpp", "symbols": ["process_block", "digest"]}]}
{"id": "C125", "title": "merkle_damgard_construction is the Merkle-Damgard hash for all template arguments", "statement": "For every compression function, initial value and finalizer, every word size of whole octets, every block, digest and length field size that the template admits, an absent length field included, and both octet orders, every extraction in every program of calls on the accumulator is the textbook hash (one bit, zeros, length, iteration, truncation) of everything fed before, provided that the message length fits the length field (64 bits if it is longer, one word if it is absent). The bound is needed: the counter is truncated to the type of the length field, and when it becomes zero the last block is dropped, so that messages of a multiple of 2^T bits that differ only in their last block collide for every compression function. With a length field, a collision of the hash gives a collision of the compression function or of the truncated output.", "quantifier": "for all template arguments, all programs of calls, all message lengths in the range; for the wrap, all messages of k*2^T bits below 2^64", "why_tests_cant": "The policies of the repository instantiate only nine points of the parameter space; the statement is about every compression function and every size.", "anchors": [{"file": "include/nil/crypto3/hash/detail/merkle_damgard_construction.hpp", "symbols": ["digest", "append_length", "process_block", "reset", "length_type"]}, {"file": "include/nil/crypto3/hash/detail/merkle_damgard_padding.hpp", "symbols": ["operator()"]}]}
{"id": "C126", "title": "Hashes over the Matyas-Meyer-Oseas and Miyaguchi-Preneel compressors", "statement": "merkle_damgard_construction over matyas_meyer_oseas_compressor or miyaguchi_preneel_compressor, for any block cipher, key converter, word size, block size, length field and digest size, computes the iterated hash with the textbook compression function; with a random cipher and an injective key converter, q queries and messages of l blocks give a collision with probability at most (q+l)(q+l-1)/2 * 2^-digest and a prescribed digest with probability at most (q+l) * 2^-digest, up to the factor 2^state/(2^state-q-l).", "quantifier": "for every cipher, every key converter, all sizes, every program of calls, every adaptive attacker", "why_tests_cant": "Nothing in the repository instantiates the two templates, so no test touches them; the bounds range over all ciphers and attackers.", "anchors": [{"file": "include/nil/crypto3/hash/detail/matyas_meyer_oseas_compressor.hpp", "symbols": ["process_block", "block_bits", "block_type"]}, {"file": "include/nil/crypto3/hash/detail/miyaguchi_preneel_compressor.hpp", "symbols": ["process_block", "block_bits", "block_type"]}, {"file": "include/nil/crypto3/hash/detail/merkle_damgard_construction.hpp", "symbols": ["digest", "process_block"]}]}
{"id": "C127", "title": "Hashes over the Davies-Meyer compressor and any cipher", "statement": "merkle_damgard_construction over davies_meyer_compressor and state_adder, for any block cipher, word size of whole octets, block and key size, length field and digest size, computes the iterated hash with the compression function h + E(block, h) in every program of calls; with a random cipher, q queries and messages of l blocks give a collision with probability at most (q+l)(q+l-1)/2 * 2^-digest and a prescribed digest with probability at most (q+l) * 2^-digest, up to the factor 2^state/(2^state-q-l).", "quantifier": "for every cipher, all sizes, every program of calls, every adaptive attacker", "why_tests_cant": "The policies of the repository instantiate the template with a few ciphers; the statement is about every cipher and every attacker.", "anchors": [{"file": "include/nil/crypto3/hash/detail/davies_meyer_compressor.hpp", "symbols": ["process_block", "block_bits", "block_type"]}, {"file": "include/nil/crypto3/hash/detail/state_adder.hpp", "symbols": ["operator()"]}, {"file": "include/nil/crypto3/hash/detail/merkle_damgard_construction.hpp", "symbols": ["digest", "process_block"]}]}
{"id": "C128", "title": "The bounds of C127 are attained", "statement": "Over a random cipher, for all sizes of C127, the digests of different messages of one block are independent and uniform: every property of a family of q digests has the probability that it has for q random strings. So the attacker that hashes q such messages wins the collision game of C127 with probability at least q(q-1)/(q(q-1)+2*2^digest) and the preimage game with probability at least q/(q+2^digest).", "quantifier": "for all sizes, all families of different messages of one block, all properties of the family of digests", "why_tests_cant": "The distribution over all ciphers cannot be sampled.", "anchors": [{"file": "include/nil/crypto3/hash/detail/davies_meyer_compressor.hpp", "symbols": ["process_block"]}, {"file": "include/nil/crypto3/hash/detail/merkle_damgard_construction.hpp", "symbols": ["digest", "process_block"]}]}
{"id": "C129", "title": "sponge_construction and haifa_construction for all template arguments", "statement": "For every compressor, initial value, finalizer, padding functor and all sizes: if the padding functor implements a padding rule (it looks only at the bits of the message), every extraction in every program of calls on the accumulator is, for sponge_construction, the output of absorbing the whole blocks of the message and then the one or two blocks that the rule makes of the rest, and for haifa_construction, the iteration over all whole blocks with the number of bits so far, followed by one call with the final flag on what the rule makes of the last part, which for a message of whole blocks is its last block once more. With an injective rule, a collision of a sponge digest gives a collision of the compressor, a way back to the initial value, or two final states with the same output; a collision of a HAIFA digest, with a rule injective on parts of the same length, gives a collision of the compressor (in state, block, counter and flag) or two final states with the same output. The Keccak, SHA-3 and BLAKE2b constructions are instances.", "quantifier": "for all template arguments, all programs of calls, all messages below 2^64 bits that the rule covers", "why_tests_cant": "The repository instantiates the templates with three padding functors; the statement is about every functor and compressor.", "anchors": [{"file": "include/nil/crypto3/hash/detail/sponge_construction.hpp", "symbols": ["digest", "process_block"]}, {"file": "include/nil/crypto3/hash/detail/haifa_construction.hpp", "symbols": ["digest", "process_block"]}]}
{"id": "C130", "title": "Several targets and proofs of work", "statement": "Let a finite set of digests be fixed before the primitive of a hash is drawn at random (a list of stolen digests, the digests with leading zeros). An attacker with q queries whose message takes l further calls reaches some digest of the set with probability at most the size of the set times the bound for one digest; this holds for the Davies-Meyer hashes of the library, for Davies-Meyer over any cipher, for BLAKE2b, Tiger and RIPEMD-128/160/256/320. For Keccak, SHA-3 and Poseidon only the term for the output grows with the set, the term for two equal inner parts does not. The digest begins with z given bits with probability at most (q + l) * 2^(s - z) / (2^s - (q + l)), s the bits of the state, for the Davies-Meyer hashes, BLAKE2b, Tiger and RIPEMD, and with the term for inner parts added for Keccak and SHA-3. Conversely, hashing q different messages of one block with a Davies-Meyer hash of the library meets a set T of digests of d bits with probability exactly 1 - (1 - |T| / 2^d)^q, and a given beginning of z bits with probability exactly 1 - (1 - 2^-z)^q; the latter also holds for BLAKE2b, Tiger, RIPEMD-128/160/256/320 and Davies-Meyer over any cipher.", "quantifier": "for all attackers (adaptive, both directions), all sets of digests, all prefixes up to the length of the digest, all programs of calls they output", "why_tests_cant": "The probability is over all ciphers or permutations; no test ranges over those, or over all attackers.", "anchors": [{"file": "include/nil/crypto3/hash/detail/merkle_damgard_construction.hpp", "symbols": ["digest", "process_block"]}, {"file": "include/nil/crypto3/hash/detail/davies_meyer_compressor.hpp", "symbols": ["process_block"]}, {"file": "include/nil/crypto3/hash/detail/sponge_construction.hpp", "symbols": ["digest"]}, {"file": "include/nil/crypto3/hash/detail/haifa_construction.hpp", "symbols": ["digest"]}]}
