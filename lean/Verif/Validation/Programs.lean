import Verif.Validation.Basic
/-
Tests, not proofs: the accumulator and preprocessor cases of test/*.cpp (all except the loops of a million
pushes), with the calls in the order of the source.  Each runs with both reference injectors and with
different contents of the uninitialised cache.
-/
namespace Verif.Validation

-- test/md4.cpp:133 md4_accumulator1
#guard md4S.run [
  .block [0x61] 8, .check "bde52cb31de33e46245e05fbdbd6fb24"]

-- test/md4.cpp:147 md4_accumulator2
#guard md4S.run [
  .block [0x636261] 24, .check "a448017aaf21d8525fc10ae87aa6729d"]

-- test/md4.cpp:161 md4_accumulator3
#guard md4S.run [
  .block [0x61616161, 0x61616161, 0x61616161, 0x61616161, 0x61616161, 0x61616161, 0x61616161, 0x61616161, 0x61616161, 0x61616161, 0x61616161, 0x61616161, 0x61616161, 0x61616161, 0x10261, 0x67283609] 456,
  .check "872097e6f78e3b53f890459d03bc6fb7",
  .block [0x61616161, 0x61616161, 0x61616161, 0x61616161, 0x61616161, 0x616161, 0x82934724, 0xa0a93453, 0x293c203d, 0x6e6f7071, 0x6f707172, 0x70717273, 0x71727374, 0x72737475, 0x0, 0x0] 184,
  .check "721a93b051049c47487b06a59acc7d64"]

-- test/md4.cpp:187 md4_preprocessor1
#guard md4S.run [
  .check "31d6cfe0d16ae931b73c59d7e0c089c0"]

-- test/md4.cpp:198 md4_preprocessor2
#guard md4S.run [
  .word 0x61 8, .word 0x62 8, .word 0x63 8, .check "a448017aaf21d8525fc10ae87aa6729d"]

-- test/md4.cpp:228 md4_preprocessor4
#guard md4S.run [
  .word 0x31 8, .word 0x32 8, .word 0x33 8, .word 0x34 8, .word 0x35 8, .word 0x36 8, .word 0x37 8,
  .word 0x38 8, .word 0x39 8, .word 0x30 8, .word 0x31 8, .word 0x32 8, .word 0x33 8, .word 0x34 8,
  .word 0x35 8, .word 0x36 8, .word 0x37 8, .word 0x38 8, .word 0x39 8, .word 0x30 8, .word 0x31 8,
  .word 0x32 8, .word 0x33 8, .word 0x34 8, .word 0x35 8, .word 0x36 8, .word 0x37 8, .word 0x38 8,
  .word 0x39 8, .word 0x30 8, .word 0x31 8, .word 0x32 8, .word 0x33 8, .word 0x34 8, .word 0x35 8,
  .word 0x36 8, .word 0x37 8, .word 0x38 8, .word 0x39 8, .word 0x30 8, .word 0x31 8, .word 0x32 8,
  .word 0x33 8, .word 0x34 8, .word 0x35 8, .word 0x36 8, .word 0x37 8, .word 0x38 8, .word 0x39 8,
  .word 0x30 8, .word 0x31 8, .word 0x32 8, .word 0x33 8, .word 0x34 8, .word 0x35 8, .word 0x36 8,
  .word 0x37 8, .word 0x38 8, .word 0x39 8, .word 0x30 8, .word 0x31 8, .word 0x32 8, .word 0x33 8,
  .word 0x34 8, .word 0x35 8, .word 0x36 8, .word 0x37 8, .word 0x38 8, .word 0x39 8, .word 0x30 8,
  .word 0x31 8, .word 0x32 8, .word 0x33 8, .word 0x34 8, .word 0x35 8, .word 0x36 8, .word 0x37 8,
  .word 0x38 8, .word 0x39 8, .word 0x30 8, .check "e33b4ddc9c38f2199c3e7b164fcc0536"]

-- test/md5.cpp:133 md5_accumulator1
#guard md5S.run [
  .block [0x61] 8, .check "0cc175b9c0f1b6a831c399e269772661"]

-- test/md5.cpp:147 md5_accumulator2
#guard md5S.run [
  .block [0x636261] 24, .check "900150983cd24fb0d6963f7d28e17f72"]

-- test/md5.cpp:161 md5_accumulator3
#guard md5S.run [
  .block [0xa3a3a3a3, 0xa3a3a3a3, 0xa3a3a3a3, 0xa3a3a3a3, 0xa3a3a3a3, 0xa3a3a3a3, 0xa3a3a3a3, 0xa3a3a3a3, 0xa3a3a3a3, 0xa3a3a3a3, 0xa3a3a3a3, 0xa3a3a3a3, 0xa3a3a3a3, 0xa3a3a3a3, 0x102a3, 0x67283609] 456,
  .check "2d8dc29362bb044de17c01817e0b6808",
  .block [0xa3a3a3a3, 0xa3a3a3a3, 0xa3a3a3a3, 0xa3a3a3a3, 0xa3a3a3a3, 0xa3a3a3, 0x82934724, 0xa0a93453, 0x293c203d, 0x6e6f7071, 0x6f707172, 0x70717273, 0x71727374, 0x72737475, 0x0, 0x0] 184,
  .check "4229f60b21858cbd30d41b3ad26cb274"]

-- test/md5.cpp:187 md5_preprocessor1
#guard md5S.run [
  .check "d41d8cd98f00b204e9800998ecf8427e"]

-- test/md5.cpp:198 md5_preprocessor2
#guard md5S.run [
  .word 0x61 8, .word 0x62 8, .word 0x63 8, .check "900150983cd24fb0d6963f7d28e17f72"]

-- test/md5.cpp:228 md5_preprocessor4
#guard md5S.run [
  .word 0x31 8, .word 0x32 8, .word 0x33 8, .word 0x34 8, .word 0x35 8, .word 0x36 8, .word 0x37 8,
  .word 0x38 8, .word 0x39 8, .word 0x30 8, .word 0x31 8, .word 0x32 8, .word 0x33 8, .word 0x34 8,
  .word 0x35 8, .word 0x36 8, .word 0x37 8, .word 0x38 8, .word 0x39 8, .word 0x30 8, .word 0x31 8,
  .word 0x32 8, .word 0x33 8, .word 0x34 8, .word 0x35 8, .word 0x36 8, .word 0x37 8, .word 0x38 8,
  .word 0x39 8, .word 0x30 8, .word 0x31 8, .word 0x32 8, .word 0x33 8, .word 0x34 8, .word 0x35 8,
  .word 0x36 8, .word 0x37 8, .word 0x38 8, .word 0x39 8, .word 0x30 8, .word 0x31 8, .word 0x32 8,
  .word 0x33 8, .word 0x34 8, .word 0x35 8, .word 0x36 8, .word 0x37 8, .word 0x38 8, .word 0x39 8,
  .word 0x30 8, .word 0x31 8, .word 0x32 8, .word 0x33 8, .word 0x34 8, .word 0x35 8, .word 0x36 8,
  .word 0x37 8, .word 0x38 8, .word 0x39 8, .word 0x30 8, .word 0x31 8, .word 0x32 8, .word 0x33 8,
  .word 0x34 8, .word 0x35 8, .word 0x36 8, .word 0x37 8, .word 0x38 8, .word 0x39 8, .word 0x30 8,
  .word 0x31 8, .word 0x32 8, .word 0x33 8, .word 0x34 8, .word 0x35 8, .word 0x36 8, .word 0x37 8,
  .word 0x38 8, .word 0x39 8, .word 0x30 8, .check "57edf4a22be3c955ac49da2e2107b67a"]

-- test/sha.cpp:118 sha_accumulator1
#guard sha0S.run [
  .block [0x61626300] 24, .check "0164b8a914cd2a5e74c4f7ff082c4d97f1edf880"]

-- test/sha.cpp:133 sha_accumulator2
#guard sha0S.run [
  .block [0x61626364, 0x62636465, 0x63646566, 0x64656667, 0x65666768, 0x66676869, 0x6768696a, 0x68696a6b, 0x696a6b6c, 0x6a6b6c6d, 0x6b6c6d6e, 0x6c6d6e6f, 0x6d6e6f70, 0x6e6f7071, 0x0, 0x0] 448,
  .check "d2516ee1acfa5baf33dfc1c471e438449ef134c8"]

-- test/sha.cpp:149 sha_preprocessor1
#guard sha0S.run [
  .word 0x61000000 8, .word 0x62000000 8, .word 0x63000000 8,
  .check "0164b8a914cd2a5e74c4f7ff082c4d97f1edf880"]

-- test/sha1.cpp:134 sha1_accumulator1
#guard sha1S.run [
  .block [0x61000000] 8, .check "86f7e437faa5a7fce15d1ddcb9eaeaea377667b8"]

-- test/sha1.cpp:150 sha1_accumulator2
#guard sha1S.run [
  .block [0x61626300] 24, .check "a9993e364706816aba3e25717850c26c9cd0d89d"]

-- test/sha1.cpp:166 sha1_accumulator3
#guard sha1S.run [
  .block [0x61626364, 0x62636465, 0x63646566, 0x64656667, 0x65666768, 0x66676869, 0x6768696a, 0x68696a6b, 0x696a6b6c, 0x6a6b6c6d, 0x6b6c6d6e, 0x6c6d6e6f, 0x6d010101, 0x1010101, 0x80000000, 0x0] 392,
  .check "9d47791975c530645ad3568e80f88d7da4c52c3b",
  .block [0x6e6f706e, 0x6f707100, 0x6d6e6f70, 0x6e6f7071, 0x6d6e6f70, 0x6e6f7071, 0x168696a, 0x68696a6b, 0x696a6b6c, 0x6a6b6c6d, 0x6b6c6d6e, 0x6c6d6e6f, 0x6d010170, 0x6e6f7071, 0x80080000, 0x0] 56,
  .check "84983e441c3bd26ebaae4aa1f95129e5e54670f1"]

-- test/sha1.cpp:192 sha1_accumulator4
#guard sha1S.run [
  .block [0x61626364, 0x65666768, 0x62636465, 0x66676869, 0x63646566, 0x6768696a, 0x64656667, 0x68696a6b, 0x65666768, 0x696a6b6c, 0x66676869, 0x6a6b6c6d, 0x6768696a, 0x6b6c6d6e, 0x68696a6b, 0x6c6d6e6f] 512,
  .check "b85d6468bd3a73794bceaf812239cc1fe460ab95",
  .block [0x696a6b6c, 0x6d6e6f70, 0x6a6b6c6d, 0x6e6f7071, 0x6b6c6d6e, 0x6f707172, 0x6c6d6e6f, 0x70717273, 0x6d6e6f70, 0x71727374, 0x6e6f7071, 0x72737475, 0x6d010170, 0x6e6f7071, 0x80080000, 0x0] 384,
  .check "a49b2446a02c645bf419f995b67091253a04a259"]

-- test/sha1.cpp:219 sha1_preprocessor1
#guard sha1S.run [
  .check "da39a3ee5e6b4b0d3255bfef95601890afd80709"]

-- test/sha1.cpp:230 sha1_preprocessor2
#guard sha1S.run [
  .word 0x61000000 8, .word 0x62000000 8, .word 0x63000000 8,
  .check "a9993e364706816aba3e25717850c26c9cd0d89d"]

-- test/sha2.cpp:298 sha2_256_accumulator2
#guard sha256S.run [
  .block [0x61626300] 24, .check "ba7816bf8f01cfea414140de5dae2223b00361a396177a9cb410ff61f20015ad"]

-- test/sha2.cpp:313 sha2_256_accumulator3
#guard sha256S.run [
  .block [0x61626364, 0x62636465, 0x63646566, 0x64656667, 0x65666768, 0x66676869, 0x6768696a, 0x68696a6b, 0x696a6b6c, 0x6a6b6c6d, 0x6b6c6d6e, 0x6c6d6e6f, 0x61010101, 0x1010101, 0x80000000, 0x0] 392,
  .check "1afbf54773a9a85be9ba0b691b6b21560772969e1bec2dd3cd77a56f39ba61bf",
  .block [0x6d6e6f70, 0x6e6f7071, 0x6d6e6f70, 0x6e6f7071, 0x6d6e6f70, 0x6e6f7071, 0x168696a, 0x68696a6b, 0x696a6b6c, 0x6a6b6c6d, 0x6b6c6d6e, 0x6c6d6e6f, 0x6d010170, 0x6e6f7071, 0x80080000, 0x0] 192,
  .check "26eba60be9d10a6484d03392b011d481b33e9b0038175942876ced989c68cab1"]

-- test/sha2.cpp:340 sha2_384_accumulator2
#guard sha384S.run [
  .block [0x6162630000000000] 24,
  .check "cb00753f45a35e8bb5a03d699ac65007272c32ab0eded1631a8b605a43ff5bed8086072ba1e7cc2358baeca134c825a7"]

-- test/sha2.cpp:359 sha2_384_accumulator3
#guard sha384S.run [
  .block [0x6162636465666768, 0x6263646566676869, 0x636465666768696a, 0x6465666768696a6b, 0x65666768696a6b6c, 0x666768696a6b6c6d, 0x6768696a6b6c6d6e, 0x68696a6b6c6d6e6f, 0x696a6b6c6d6e6f70, 0x6a6b6c6d6e6f7071, 0x6b6c6d6e6f707172, 0x6c6d6e6f70717273, 0x6d6e6f7071727374, 0x6e6f707172737475, 0x0, 0x0] 896,
  .check "09330c33f71147e83d192fc782cd1b4753111b173b3b05d22fa08086e3b0f712fcc7c71a557e2db966c3e9fa91746039"]

-- test/sha2.cpp:380 sha2_512_accumulator2
#guard sha512S.run [
  .block [0x6162630000000000] 24,
  .check "ddaf35a193617abacc417349ae20413112e6fa4e89a97ea20a9eeee64b55d39a2192992a274fc1a836ba3c23a3feebbd454d4423643ce80e2a9ac94fa54ca49f"]

-- test/sha2.cpp:398 sha2_512_accumulator3
#guard sha512S.run [
  .block [0x6162636465666768, 0x6263646566676869, 0x636465666768696a, 0x6465666768696a6b, 0x65666768696a6b6c, 0x666768696a6b6c6d, 0x6768696a6b6c6d6e, 0x68696a6b6c6d6e6f, 0x696a6b6c6d6e6f70, 0x6a6b6c6d6e6f7071, 0x6b6c6d6e6f707172, 0x6c6d6e6f70717273, 0x6d6e6f7071727374, 0x6e6f707172737475, 0x0, 0x0] 896,
  .check "8e959b75dae313da8cf4f72814fc143f8f7779c6eb9f7fa17299aeadb6889018501d289e4900f7e4331b99dec4b5433ac7d329eeb6dd26545e96e55b874be909"]

-- test/sha2.cpp:430 sha256_preprocessor1
#guard sha256S.run [
  .check "e3b0c44298fc1c149afbf4c8996fb92427ae41e4649b934ca495991b7852b855"]

-- test/sha2.cpp:441 sha256_preprocessor2
#guard sha256S.run [
  .word 0x61000000 8, .word 0x62000000 8, .word 0x63000000 8,
  .check "ba7816bf8f01cfea414140de5dae2223b00361a396177a9cb410ff61f20015ad"]

-- test/sha2.cpp:457 sha256_preprocessor3
#guard sha256S.run [
  .word 0x61000000 8, .word 0x61000000 8, .word 0x61000000 8, .word 0x61000000 8, .word 0x61000000 8,
  .word 0x61000000 8, .word 0x61000000 8, .word 0x61000000 8, .word 0x61000000 8, .word 0x61000000 8,
  .word 0x61000000 8, .word 0x61000000 8, .word 0x61000000 8, .word 0x61000000 8, .word 0x61000000 8,
  .word 0x61000000 8, .word 0x61000000 8, .word 0x61000000 8, .word 0x61000000 8, .word 0x61000000 8,
  .word 0x61000000 8, .word 0x61000000 8, .word 0x61000000 8, .word 0x61000000 8, .word 0x61000000 8,
  .word 0x61000000 8, .word 0x61000000 8, .word 0x61000000 8, .word 0x61000000 8, .word 0x61000000 8,
  .word 0x61000000 8, .word 0x61000000 8, .word 0x61000000 8, .word 0x61000000 8, .word 0x61000000 8,
  .word 0x61000000 8, .word 0x61000000 8, .word 0x61000000 8, .word 0x61000000 8, .word 0x61000000 8,
  .word 0x61000000 8, .word 0x61000000 8, .word 0x61000000 8, .word 0x61000000 8, .word 0x61000000 8,
  .word 0x61000000 8, .word 0x61000000 8, .word 0x61000000 8, .word 0x61000000 8, .word 0x61000000 8,
  .word 0x61000000 8, .word 0x61000000 8, .word 0x61000000 8, .word 0x61000000 8, .word 0x61000000 8,
  .word 0x61000000 8, .word 0x61000000 8, .word 0x61000000 8, .word 0x61000000 8, .word 0x61000000 8,
  .word 0x61000000 8, .word 0x61000000 8,
  .check "f506898cc7c2e092f9eb9fadae7ba50383f5b46a2a4fe5597dbb553a78981268"]

-- test/sha2.cpp:473 sha256_preprocessor4
#guard sha256S.run [
  .block [0x61616161, 0x61616161, 0x61616161, 0x61616161, 0x61616161, 0x61616161, 0x61616161, 0x61616161, 0x61616161, 0x61616161, 0x61616161, 0x61616161, 0x61616161, 0x61616161, 0x61616161, 0x61610101] 496,
  .word 0x61000000 8, .check "7d3e74a05d7db15bce4ad9ec0658ea98e3f06eeecf16b4c6fff2da457ddc2f34"]

-- test/sha2.cpp:495 sha256_preprocessor5
#guard sha256S.run [
  .block [0x61616161, 0x61616161, 0x61616161, 0x61616161, 0x61616161, 0x61616161, 0x61616161, 0x61616161, 0x61616161, 0x61616161, 0x61616161, 0x61616161, 0x61616161, 0x61616161, 0x61616161, 0x61616101] 504,
  .check "7d3e74a05d7db15bce4ad9ec0658ea98e3f06eeecf16b4c6fff2da457ddc2f34"]

-- test/sha2.cpp:533 sha384_preprocessor1
#guard sha384S.run [
  .check "38b060a751ac96384cd9327eb1b1e36a21fdb71114be07434c0cc7bf63f6e1da274edebfe76f65fbd51ad2f14898b95b"]

-- test/sha2.cpp:547 sha384_preprocessor2
#guard sha384S.run [
  .word 0x6100000000000000 8, .word 0x6200000000000000 8, .word 0x6300000000000000 8,
  .check "cb00753f45a35e8bb5a03d699ac65007272c32ab0eded1631a8b605a43ff5bed8086072ba1e7cc2358baeca134c825a7"]

-- test/sha2.cpp:584 sha512_preprocessor1
#guard sha512S.run [
  .check "cf83e1357eefb8bdf1542850d66d8007d620e4050b5715dc83f4a921d36ce9ce47d0d13c5d85f2b0ff8318d2877eec2f63b931bd47417a81a538327af927da3e"]

-- test/sha2.cpp:598 sha512_preprocessor2
#guard sha512S.run [
  .word 0x6100000000000000 8, .word 0x6200000000000000 8, .word 0x6300000000000000 8,
  .check "ddaf35a193617abacc417349ae20413112e6fa4e89a97ea20a9eeee64b55d39a2192992a274fc1a836ba3c23a3feebbd454d4423643ce80e2a9ac94fa54ca49f"]

-- test/ripemd.cpp:301 ripemd_128_accumulator1
#guard ripemd128S.run [
  .block [0x61] 8, .check "86be7afa339d0fc7cfc785e72f578d33"]

-- test/ripemd.cpp:315 ripemd_128_accumulator2
#guard ripemd128S.run [
  .block [0x636261] 24, .check "c14a12199c66e4ba84636b0f69144c77"]

-- test/ripemd.cpp:329 ripemd_128_accumulator3
#guard ripemd128S.run [
  .block [0x61616161, 0x61616161, 0x61616161, 0x61616161, 0x61616161, 0x61616161, 0x61616161, 0x61616161, 0x61616161, 0x61616161, 0x61616161, 0x61616161, 0x61616161, 0x61616161, 0x10261, 0x67283609] 456,
  .check "d6a7de242c383193285db1de0459c32c",
  .block [0x61616161, 0x61616161, 0x61616161, 0x61616161, 0x61616161, 0x616161, 0x82934724, 0xa0a93453, 0x293c203d, 0x6e6f7071, 0x6f707172, 0x70717273, 0x71727374, 0x72737475, 0x0, 0x0] 184,
  .check "d7fc37ea6df34cb33825447bf29abbb9"]

-- test/ripemd.cpp:356 ripemd_160_accumulator1
#guard ripemd160S.run [
  .block [0x61] 8, .check "0bdc9d2d256b3ee9daae347be6f4dc835a467ffe"]

-- test/ripemd.cpp:370 ripemd_160_accumulator2
#guard ripemd160S.run [
  .block [0x636261] 24, .check "8eb208f7e05d987a9b044a8e98c6b087f15a0bfc"]

-- test/ripemd.cpp:384 ripemd_160_accumulator3
#guard ripemd160S.run [
  .block [0x61616161, 0x61616161, 0x61616161, 0x61616161, 0x61616161, 0x61616161, 0x61616161, 0x61616161, 0x61616161, 0x61616161, 0x61616161, 0x61616161, 0x61616161, 0x61616161, 0x10261, 0x67283609] 456,
  .check "eed82d19d597ab275b550ff3d6e0bc2a75350388",
  .block [0x61616161, 0x61616161, 0x61616161, 0x61616161, 0x61616161, 0x616161, 0x82934724, 0xa0a93453, 0x293c203d, 0x6e6f7071, 0x6f707172, 0x70717273, 0x71727374, 0x72737475, 0x0, 0x0] 184,
  .check "228d437346bbf829f53490e0a5ef176c5068163f"]

-- test/ripemd.cpp:411 ripemd_256_accumulator1
#guard ripemd256S.run [
  .block [0x61] 8, .check "f9333e45d857f5d90a91bab70a1eba0cfb1be4b0783c9acfcd883a9134692925"]

-- test/ripemd.cpp:425 ripemd_256_accumulator2
#guard ripemd256S.run [
  .block [0x636261] 24, .check "afbd6e228b9d8cbbcef5ca2d03e6dba10ac0bc7dcbe4680e1e42d2e975459b65"]

-- test/ripemd.cpp:439 ripemd_256_accumulator3
#guard ripemd256S.run [
  .block [0x61616161, 0x61616161, 0x61616161, 0x61616161, 0x61616161, 0x61616161, 0x61616161, 0x61616161, 0x61616161, 0x61616161, 0x61616161, 0x61616161, 0x61616161, 0x61616161, 0x10261, 0x67283609] 456,
  .check "b01629f9a960bbb1aa2a9e0e74319909a9f839570b1c932e59a382923bae1812",
  .block [0x61616161, 0x61616161, 0x61616161, 0x61616161, 0x61616161, 0x616161, 0x82934724, 0xa0a93453, 0x293c203d, 0x6e6f7071, 0x6f707172, 0x70717273, 0x71727374, 0x72737475, 0x0, 0x0] 184,
  .check "e6676aa1b6c0da12250437daec6af99857923fe3cef841c2385a851a869e234a"]

-- test/ripemd.cpp:466 ripemd_320_accumulator1
#guard ripemd320S.run [
  .block [0x61] 8, .check "ce78850638f92658a5a585097579926dda667a5716562cfcf6fbe77f63542f99b04705d6970dff5d"]

-- test/ripemd.cpp:483 ripemd_320_accumulator2
#guard ripemd320S.run [
  .block [0x636261] 24,
  .check "de4c01b3054f8930a79d09ae738e92301e5a17085beffdc1b8d116713e74f82fa942d64cdbc4682d"]

-- test/ripemd.cpp:500 ripemd_320_accumulator3
#guard ripemd320S.run [
  .block [0x61616161, 0x61616161, 0x61616161, 0x61616161, 0x61616161, 0x61616161, 0x61616161, 0x61616161, 0x61616161, 0x61616161, 0x61616161, 0x61616161, 0x61616161, 0x61616161, 0x10261, 0x67283609] 456,
  .check "2c38e9ceaad3a53d60f0e38db6d1d4d21d71159655185b7fa1b85f351c503cdac99f12f583a833a3",
  .block [0x61616161, 0x61616161, 0x61616161, 0x61616161, 0x61616161, 0x616161, 0x82934724, 0xa0a93453, 0x293c203d, 0x6e6f7071, 0x6f707172, 0x70717273, 0x71727374, 0x72737475, 0x0, 0x0] 184,
  .check "bfe9b13c79cefa874b7deba22e653a8826f0d769fb8cecf05c90bfe5ba3a19967ce5a7cc65c0c584"]

-- test/ripemd.cpp:533 ripemd_128_preprocessor1
#guard ripemd128S.run [
  .check "cdf26213a150dc3ecb610f18f6b38b46"]

-- test/ripemd.cpp:544 ripemd_128_preprocessor2
#guard ripemd128S.run [
  .word 0x61 8, .word 0x62 8, .word 0x63 8, .check "c14a12199c66e4ba84636b0f69144c77"]

-- test/ripemd.cpp:560 ripemd_160_preprocessor1
#guard ripemd160S.run [
  .check "9c1185a5c5e9fc54612808977ee8f548b2258d31"]

-- test/ripemd.cpp:571 ripemd_160_preprocessor2
#guard ripemd160S.run [
  .word 0x61 8, .word 0x62 8, .word 0x63 8, .check "8eb208f7e05d987a9b044a8e98c6b087f15a0bfc"]

-- test/ripemd.cpp:603 ripemd_256_preprocessor1
#guard ripemd256S.run [
  .check "02ba4c4e5f8ecd1877fc52d64d30e37a2d9774fb1e5d026380ae0168e3c5522d"]

-- test/ripemd.cpp:614 ripemd_256_preprocessor2
#guard ripemd256S.run [
  .word 0x61 8, .word 0x62 8, .word 0x63 8,
  .check "afbd6e228b9d8cbbcef5ca2d03e6dba10ac0bc7dcbe4680e1e42d2e975459b65"]

-- test/ripemd.cpp:630 ripemd_320_preprocessor1
#guard ripemd320S.run [
  .check "22d65d5661536cdc75c1fdf5c6de7b41b9f27325ebc61e8557177d705a0ec880151c3a32a00899b8"]

-- test/ripemd.cpp:644 ripemd_320_preprocessor2
#guard ripemd320S.run [
  .word 0x61 8, .word 0x62 8, .word 0x63 8,
  .check "de4c01b3054f8930a79d09ae738e92301e5a17085beffdc1b8d116713e74f82fa942d64cdbc4682d"]

-- test/keccak.cpp:290 keccak_224_accumulator
#guard (keccakS 224).run [
  .block [0x6162630000000000] 24, .check "c30411768506ebe1c2871b1ee2e87d38df342317300a9b97a95ec6a8"]

-- test/keccak.cpp:306 keccak_256_accumulator
#guard (keccakS 256).run [
  .block [0x6162630000000000] 24, .check "4e03657aea45a94fc7d47ba826c8d667c0d1e6e33a64a036ec44f58fa12d6c45"]

-- test/keccak.cpp:322 keccak_384_accumulator
#guard (keccakS 384).run [
  .block [0x6162630000000000] 24,
  .check "f7df1165f033337be098e7d288ad6a2f74409d7a60b49c36642218de161b1f99f8c681e4afaf31a34db29fb763e3c28e"]

-- test/keccak.cpp:341 keccak_512_accumulator
#guard (keccakS 512).run [
  .block [0x6162630000000000] 24,
  .check "18587dc2ea106b9a1563e32b3312421ca164c7f1f07bc922a9c83d77cea3a1e5d0c69910739025372dc14ac9642629379540c17e2a65b19d77aa511a9d00bb96"]

-- test/keccak.cpp:364 keccak_224_preprocessor1
#guard (keccakS 224).run [
  .check "f71837502ba8e10837bdd8d365adb85591895602fc552b48b7390abd"]

-- test/keccak.cpp:375 keccak_224_preprocessor2
#guard (keccakS 224).run [
  .word 0x6100000000000000 8, .word 0x6200000000000000 8, .word 0x6300000000000000 8,
  .check "c30411768506ebe1c2871b1ee2e87d38df342317300a9b97a95ec6a8"]

-- test/keccak.cpp:391 keccak_256_preprocessor1
#guard (keccakS 256).run [
  .check "c5d2460186f7233c927e7db2dcc703c0e500b653ca82273b7bfad8045d85a470"]

-- test/keccak.cpp:402 keccak_256_preprocessor2
#guard (keccakS 256).run [
  .word 0x6100000000000000 8, .word 0x6200000000000000 8, .word 0x6300000000000000 8,
  .check "4e03657aea45a94fc7d47ba826c8d667c0d1e6e33a64a036ec44f58fa12d6c45"]

-- test/keccak.cpp:418 keccak_384_preprocessor1
#guard (keccakS 384).run [
  .check "2c23146a63a29acf99e73b88f8c24eaa7dc60aa771780ccc006afbfa8fe2479b2dd2b21362337441ac12b515911957ff"]

-- test/keccak.cpp:432 keccak_384_preprocessor2
#guard (keccakS 384).run [
  .word 0x6100000000000000 8, .word 0x6200000000000000 8, .word 0x6300000000000000 8,
  .check "f7df1165f033337be098e7d288ad6a2f74409d7a60b49c36642218de161b1f99f8c681e4afaf31a34db29fb763e3c28e"]

-- test/keccak.cpp:451 keccak_512_preprocessor1
#guard (keccakS 512).run [
  .check "0eab42de4c3ceb9235fc91acffe746b29c29a8c366b7c60e4e67c466f36a4304c00fa9caf9d87976ba469bcbe06713b435f091ef2769fb160cdab33d3670680e"]

-- test/keccak.cpp:465 keccak_512_preprocessor2
#guard (keccakS 512).run [
  .word 0x6100000000000000 8, .word 0x6200000000000000 8, .word 0x6300000000000000 8,
  .check "18587dc2ea106b9a1563e32b3312421ca164c7f1f07bc922a9c83d77cea3a1e5d0c69910739025372dc14ac9642629379540c17e2a65b19d77aa511a9d00bb96"]

-- test/sha3.cpp:342 sha3_224_accumulator1
#guard (sha3S 224).run [
  .block [0x1300000000000000] 5, .check "ffbad5da96bad71789330206dc6768ecaeb1b32dca6b3301489674ab"]

-- test/sha3.cpp:357 sha3_224_accumulator2
#guard (sha3S 224).run [
  .block [0x53587b1900000000] 30, .check "d666a514cc9dba25ac1ba69ed3930460deaac9851b5f0baab007df3b"]

-- test/sha3.cpp:372 sha3_224_accumulator3
#guard (sha3S 224).run [
  .block [0x6162630000000000] 24, .check "e642824c3f8cf24ad09234ee7d3c766fc9a3a5168d0c94ad73b46fdf"]

-- test/sha3.cpp:388 sha3_224_accumulator4
#guard (sha3S 224).run [
  .block [0xa3a3a3a3a3a3a3a3, 0xa3a3a3a3a3a3a3a3, 0xa3a3a3a3a3a3a3a3, 0xa3a3a3a3a3a3a3a3, 0xa3a3a3a3a3a3a3a3, 0xa3a3a3a3a3a3a3a3, 0xa3a3a3a3a3a3a3a3, 0xa3a3a3a3a3a3a3a3, 0xa3a3a3a3a3a3a3a3, 0xa3a3a3a3a3a3a3a3, 0xa3a3a3a3a3a3a3a3, 0xa3a3a3a3a3a3a3a3, 0xa3a3a3a3a3a3a3a3, 0xa3a3a3a3a3a3a3a3, 0xa3a3a3a3a3a3a3a3, 0xa3a3a3a3a3a3a3a3, 0xa3000102094000b8, 0x67283609c1251003] 1032,
  .check "f434c78aa907e811d189dfe93223461f4fa0bcc28d5b445e70b24cc8",
  .block [0xa3a3a3a3a3a3a3a3, 0xa3a3a3a3a3a3a3a3, 0xa3a3a3a3a3a3a3a3, 0xa3a3a3a3a3a3a3a3, 0xa3a3a3a3a3a3a3a3, 0xa3a3a3a3a3a3a3a3, 0xa3a3a3a3a3a3a3a3, 0xa3a3a3a3a3a3a3a3, 0xa3a3a3a3a3a3a300, 0x6a6b6c6d6e6f7071, 0x6b6c6d6e6f707172, 0x6c6d6e6f70717273, 0x6d6e6f7071727374, 0x6e6f707172737475, 0x0, 0x0, 0xc5000102094000b8, 0x67283609c1251003] 568,
  .check "9376816aba503f72f96ce7eb65ac095deee3be4bf9bbc2a1cb7e11e0"]

-- test/sha3.cpp:422 sha3_256_accumulator1
#guard (sha3S 256).run [
  .block [0x1300000000000000] 5, .check "7b0047cf5a456882363cbf0fb05322cf65f4b7059a46365e830132e3b5d957af"]

-- test/sha3.cpp:437 sha3_256_accumulator2
#guard (sha3S 256).run [
  .block [0x6162630000000000] 24, .check "3a985da74fe225b2045c172d6bd390bd855f086e3e9d525b46bfe24511431532"]

-- test/sha3.cpp:453 sha3_256_accumulator3
#guard (sha3S 256).run [
  .block [0xa3a3a3a3a3a3a3a3, 0xa3a3a3a3a3a3a3a3, 0xa3a3a3a3a3a3a3a3, 0xa3a3a3a3a3a3a3a3, 0xa3a3a3a3a3a3a3a3, 0xa3a3a3a3a3a3a3a3, 0xa3a3a3a3a3a3a3a3, 0xa3a3a3a3a3a3a3a3, 0xa3a3a3a3a3a3a3a3, 0xa3a3a3a3a3a3a3a3, 0xa3a3a3a3a3a3a3a3, 0xa3a3a3a3a3a3a3a3, 0xa3a3a3a3a3a3a3a3, 0xa3a3a3a3a3a3a3a3, 0xa3a3a3a3a3a3a3a3, 0xa3a3a3a3a3a3a3a3, 0xa3000102094000b8] 1032,
  .check "7e23024b73e352998831831553db3c2867858bb4889d53a3be1af099dd79c0e1",
  .block [0xa3a3a3a3a3a3a3a3, 0xa3a3a3a3a3a3a3a3, 0xa3a3a3a3a3a3a3a3, 0xa3a3a3a3a3a3a3a3, 0xa3a3a3a3a3a3a3a3, 0xa3a3a3a3a3a3a3a3, 0xa3a3a3a3a3a3a3a3, 0xa3a3a3a3a3a3a3a3, 0xa3a3a3a3a3a3a300, 0x6a6b6c6d6e6f7071, 0x6b6c6d6e6f707172, 0x6c6d6e6f70717273, 0x6d6e6f7071727374, 0x6e6f707172737475, 0x0, 0x0, 0xc5000102094000b8] 568,
  .check "79f38adec5c20307a98ef76e8324afbfd46cfd81b22e3973c65fa1bd9de31787"]

-- test/sha3.cpp:487 sha3_384_accumulator1
#guard (sha3S 384).run [
  .block [0x1300000000000000] 5,
  .check "737c9b491885e9bf7428e792741a7bf8dca9653471c3e148473f2c236b6a0a6455eb1dce9f779b4b6b237fef171b1c64"]

-- test/sha3.cpp:505 sha3_384_accumulator2
#guard (sha3S 384).run [
  .block [0x6162630000000000] 24,
  .check "ec01498288516fc926459f58e2c6ad8df9b473cb0fc08c2596da7cf0e49be4b298d88cea927ac7f539f1edf228376d25"]

-- test/sha3.cpp:524 sha3_384_accumulator3
#guard (sha3S 384).run [
  .block [0xa3a3a3a3a3a3a3a3, 0xa3a3a3a3a3a3a3a3, 0xa3a3a3a3a3a3a3a3, 0xa3a3a3a3a3a3a3a3, 0xa3a3a3a3a3a3a3a3, 0xa3a3a3a3a3a3a3a3, 0xa3a3a3a3a3a3a3a3, 0xa3a3a3a3a3a3a3a3, 0xa3a3a3a3a3a3a3a3, 0xa3a3a3a3a3a3a3a3, 0xa3a3a3a3a3a3a3a3, 0xa3a3a3a3a3a3a3a3, 0xa3a3000102030405] 784,
  .check "c64ede18dc59558ee999ee4c10e3b00566b63bd8b5417b797bcd0efa5c71db6d3107b481933b6fe4be882e3822bd4578",
  .block [0xa3a3a3a3a3a3a3a3, 0xa3a3a3a3a3a3a3a3, 0xa3a3a3a3a3a3a3a3, 0xa3a3a3a3a3a3a3a3, 0xa3a3a3a3a3a3a3a3, 0xa3a3a3a3a3a3a3a3, 0xa3a3a3a3a3a3a3a3, 0xa3a3a3a3a3a3a3a3, 0xa3a3a3a3a3a3a3a3, 0xa3a3a3a3a3a3a3a3, 0xa3a3a3a3a3a3a3a3, 0xa3a3a3a3a3a3a3a3, 0xa3a3a3a3a3a37374] 816,
  .check "1881de2ca7e41ef95dc4732b8f5f002b189cc1e42b74168ed1732649ce1dbcdd76197a31fd55ee989f2d7050dd473e8f"]

-- test/sha3.cpp:562 sha3_512_accumulator1
#guard (sha3S 512).run [
  .block [0x1300000000000000] 5,
  .check "a13e01494114c09800622a70288c432121ce70039d753cadd2e006e4d961cb27544c1481e5814bdceb53be6733d5e099795e5e81918addb058e22a9f24883f37"]

-- test/sha3.cpp:580 sha3_512_accumulator2
#guard (sha3S 512).run [
  .block [0x6162630000000000] 24,
  .check "b751850b1a57168a5693cd924b6b096e08f621827444f70d884f5d0240d2712e10e116e9192af3c91a7ec57647e3934057340b4cf408d5a56592f8274eec53f0"]

-- test/sha3.cpp:599 sha3_512_accumulator3
#guard (sha3S 512).run [
  .block [0xa3a3a3a3a3a3a3a3, 0xa3a3a3a3a3a3a3a3, 0xa3a3a3a3a3a3a3a3, 0xa3a3a3a3a3a3a3a3, 0xa3a3a3a3a3a3a3a3, 0xa3a3a3a3a3a3a3a3, 0xa3a3a3a3a3a3a3a3, 0xa3a3a3a3a3a3a3a3, 0xa3a3a3a3a3a3a3a3] 576,
  .check "d24ce75b87c7be36e3fedbaa285f563d3efcc13663f5eb2fdd0c60033dab04e894d343b3971bc0c9ba30e0dde18106cbaaa955c8c3c0bf1ec3490aafcae15788",
  .block [0xa3a3a3a3a3a3a3a3, 0xa3a3a3a3a3a3a3a3, 0xa3a3a3a3a3a3a3a3, 0xa3a3a3a3a3a3a3a3, 0xa3a3a3a3a3a3a3a3, 0xa3a3a3a3a3a3a3a3, 0xa3a3a3a3a3a3a3a3, 0xa3a3a3a3a3a3a3a3, 0xa3a3a3a3a3a3a3ff] 568,
  .check "1b307700232bb68bb21801114085485d7c5f1c1e77eb143fbea9572d2845c2448a9349de9c34c870206e76cc6aab80365139828ca190d351fc70b83bf893076a",
  .block [0xa3a3a3a3a3a3a3a3, 0xa3a3a3a3a3a3a3a3, 0xa3a3a3a3a3a3a3a3, 0xa3a3a3a3a3a3a3a3, 0xa3a3a3a3a3a3a3a3, 0xa3a3a3a3a3a3a3a3, 0xa3a3a3a3a3a3a3a3, 0xa300901278231349, 0x5867344857584354] 456,
  .check "e76dfad22084a8b1467fcf2ffa58361bec7628edf5f3fdc0e4805dc48caeeca81b7c13c30adf52a3659584739a2df46be589c51ca1a4a8416df6545a1ce8ba00"]

-- test/sha3.cpp:647 sha3_224_preprocessor1
#guard (sha3S 224).run [
  .check "6b4e03423667dbb73b6e15454f0eb1abd4597f9a1b078e3f5b5a6bc7"]

-- test/sha3.cpp:658 sha3_224_preprocessor2
#guard (sha3S 224).run [
  .word 0x6100000000000000 8, .word 0x6200000000000000 8, .word 0x6300000000000000 8,
  .check "e642824c3f8cf24ad09234ee7d3c766fc9a3a5168d0c94ad73b46fdf"]

-- test/sha3.cpp:690 sha3_256_preprocessor1
#guard (sha3S 256).run [
  .check "a7ffc6f8bf1ed76651c14756a061d662f580ff4de43b49fa82d80a4b80f8434a"]

-- test/sha3.cpp:701 sha3_256_preprocessor2
#guard (sha3S 256).run [
  .word 0x6100000000000000 8, .word 0x6200000000000000 8, .word 0x6300000000000000 8,
  .check "3a985da74fe225b2045c172d6bd390bd855f086e3e9d525b46bfe24511431532"]

-- test/sha3.cpp:733 sha3_384_preprocessor1
#guard (sha3S 384).run [
  .check "0c63a75b845e4f7d01107d852e4c2485c51a50aaaa94fc61995e71bbee983a2ac3713831264adb47fb6bd1e058d5f004"]

-- test/sha3.cpp:747 sha3_384_preprocessor2
#guard (sha3S 384).run [
  .word 0x6100000000000000 8, .word 0x6200000000000000 8, .word 0x6300000000000000 8,
  .check "ec01498288516fc926459f58e2c6ad8df9b473cb0fc08c2596da7cf0e49be4b298d88cea927ac7f539f1edf228376d25"]

-- test/sha3.cpp:785 sha3_512_preprocessor1
#guard (sha3S 512).run [
  .check "a69f73cca23a9ac5c8b567dc185a756e97c982164fe25859e0d1dcc1475c80a615b2123af1f5f94c11e3e9402c3ac558f500199d95b6d3e301758586281dcd26"]

-- test/sha3.cpp:799 sha3_512_preprocessor2
#guard (sha3S 512).run [
  .word 0x6100000000000000 8, .word 0x6200000000000000 8, .word 0x6300000000000000 8,
  .check "b751850b1a57168a5693cd924b6b096e08f621827444f70d884f5d0240d2712e10e116e9192af3c91a7ec57647e3934057340b4cf408d5a56592f8274eec53f0"]

-- test/blake2b.cpp:432 blake2b_224_accumulator1
#guard (blake2bS 224).run [
  .block [0x61] 8, .check "c05d5ea0257c7a4604122b8e99a0093f89d0797ef06a7f0af65a3560"]

-- test/blake2b.cpp:446 blake2b_224_accumulator2
#guard (blake2bS 224).run [
  .block [0x636261] 24, .check "9bd237b02a29e43bdd6738afa5b53ff0eee178d6210b618e4511aec8"]

-- test/blake2b.cpp:460 blake2b_256_accumulator1
#guard (blake2bS 256).run [
  .block [0x61] 8, .check "8928aae63c84d87ea098564d1e03ad813f107add474e56aedd286349c0c03ea4"]

-- test/blake2b.cpp:474 blake2b_256_accumulator2
#guard (blake2bS 256).run [
  .block [0x636261] 24, .check "bddd813c634239723171ef3fee98579b94964e3bb1cb3e427262c8c068d52319"]

-- test/blake2b.cpp:488 blake2b_384_accumulator1
#guard (blake2bS 384).run [
  .block [0x61] 8,
  .check "7d40de16ff771d4595bf70cbda0c4ea0a066a6046fa73d34471cd4d93d827d7c94c29399c50de86983af1ec61d5dcef0"]

-- test/blake2b.cpp:505 blake2b_384_accumulator2
#guard (blake2bS 384).run [
  .block [0x636261] 24,
  .check "6f56a82c8e7ef526dfe182eb5212f7db9df1317e57815dbda46083fc30f54ee6c66ba83be64b302d7cba6ce15bb556f4"]

-- test/blake2b.cpp:522 blake2b_512_accumulator1
#guard (blake2bS 512).run [
  .block [0x61] 8,
  .check "333fcb4ee1aa7c115355ec66ceac917c8bfd815bf7587d325aec1864edd24e34d5abe2c6b1b5ee3face62fed78dbef802f2a85cb91d455a8f5249d330853cb3c"]

-- test/blake2b.cpp:539 blake2b_512_accumulator2
#guard (blake2bS 512).run [
  .block [0x636261] 24,
  .check "ba80a53f981c4d0d6a2797b69f12f6e94c212f14685ac4b74b12bb6fdbffa2d17d87c5392aab792dc252d5de4533cc9518d38aa8dbf1925ab92386edd4009923"]

-- test/blake2b.cpp:556 blake2b_224_preprocessor1
#guard (blake2bS 224).run [
  .check "836cc68931c2e4e3e838602eca1902591d216837bafddfe6f0c8cb07"]

-- test/blake2b.cpp:567 blake2b_224_preprocessor2
#guard (blake2bS 224).run [
  .word 0x61 8, .word 0x62 8, .word 0x63 8,
  .check "9bd237b02a29e43bdd6738afa5b53ff0eee178d6210b618e4511aec8"]

-- test/blake2b.cpp:583 blake2b_256_preprocessor1
#guard (blake2bS 256).run [
  .check "0e5751c026e543b2e8ab2eb06099daa1d1e5df47778f7787faab45cdf12fe3a8"]

-- test/blake2b.cpp:594 blake2b_256_preprocessor2
#guard (blake2bS 256).run [
  .word 0x61 8, .word 0x62 8, .word 0x63 8,
  .check "bddd813c634239723171ef3fee98579b94964e3bb1cb3e427262c8c068d52319"]

-- test/blake2b.cpp:610 blake2b_384_preprocessor1
#guard (blake2bS 384).run [
  .check "b32811423377f52d7862286ee1a72ee540524380fda1724a6f25d7978c6fd3244a6caf0498812673c5e05ef583825100"]

-- test/blake2b.cpp:624 blake2b_384_preprocessor2
#guard (blake2bS 384).run [
  .word 0x61 8, .word 0x62 8, .word 0x63 8,
  .check "6f56a82c8e7ef526dfe182eb5212f7db9df1317e57815dbda46083fc30f54ee6c66ba83be64b302d7cba6ce15bb556f4"]

-- test/blake2b.cpp:643 blake2b_512_preprocessor1
#guard (blake2bS 512).run [
  .check "786a02f742015903c6c6fd852552d272912f4740e15847618a86e217f71f5419d25e1031afee585313896444934eb04b903a685b1448b755d56f701afe9be2ce"]

-- test/blake2b.cpp:657 blake2b_512_preprocessor2
#guard (blake2bS 512).run [
  .word 0x61 8, .word 0x62 8, .word 0x63 8,
  .check "ba80a53f981c4d0d6a2797b69f12f6e94c212f14685ac4b74b12bb6fdbffa2d17d87c5392aab792dc252d5de4533cc9518d38aa8dbf1925ab92386edd4009923"]

end Verif.Validation
