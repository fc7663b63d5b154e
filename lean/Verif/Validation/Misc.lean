import Verif.Model.Pack
import Verif.Model.Crc
/-
Tests, not proofs: the samples of test/pack.cpp (the model of `pack` follows docs/pack.md; 4-bit chunks are not
modelled) and test/crc.cpp.
-/
namespace Verif.Validation

-- test/pack.cpp:44 bubb_to_bubb_1
#guard packAll bigOctetBigBit bigOctetBigBit 8 16 [0x12, 0x34, 0x56, 0x78] == [0x1234, 0x5678]
-- test/pack.cpp:54 bubb_to_bubb_2
#guard packAll bigOctetBigBit bigOctetBigBit 16 32 [0x1234, 0x5678, 0x90ab, 0xcdef] == [0x12345678, 0x90abcdef]
-- test/pack.cpp:64 bubb_to_bulb_1
#guard packAll bigOctetBigBit bigOctetLittleBit 8 32 [0x12, 0x34, 0x56, 0x78] == [0x482c6a1e]
-- test/pack.cpp:74 bubb_to_bulb_2
#guard packAll bigOctetBigBit bigOctetLittleBit 16 32 [0x1234, 0x5678, 0x90ab, 0xcdef] == [0x482c6a1e, 0x09d5b3f7]
-- test/pack.cpp:84 bubb_to_lubb_1
#guard packAll bigOctetBigBit littleOctetBigBit 8 64 [0x12, 0x34, 0x56, 0x78, 0x90, 0xab, 0xcd, 0xef] == [0xefcdab9078563412]
-- test/pack.cpp:94 bubb_to_lubb_2
#guard packAll bigOctetBigBit littleOctetBigBit 16 32 [0x1234, 0x5678, 0x90ab, 0xcdef] == [0x78563412, 0xefcdab90]
-- test/pack.cpp:104 bubb_to_lulb_1
#guard packAll bigOctetBigBit littleOctetLittleBit 16 32 [0x1234, 0x5678] == [0x1e6a2c48]
-- test/pack.cpp:114 bubb_to_lulb_2
#guard packAll bigOctetBigBit littleOctetLittleBit 8 16 [0x12, 0x34, 0x56, 0x78] == [0x2c48, 0x1e6a]
-- test/pack.cpp:124 lubb_to_bubb_1
#guard packAll littleOctetBigBit bigOctetBigBit 16 64 [0x1234, 0x5678, 0x90ab, 0xcdef] == [0x34127856ab90efcd]
-- test/pack.cpp:134 lubb_to_bubb_2
#guard packAll littleOctetBigBit bigOctetBigBit 8 16 [0x12, 0x34, 0x56, 0x78] == [0x1234, 0x5678]
-- test/pack.cpp:144 lubb_to_bulb_1
#guard packAll littleOctetBigBit bigOctetLittleBit 32 64 [0x12345678, 0x90abcdef] == [0x1e6a2c48f7b3d509]
-- test/pack.cpp:154 lubb_to_bulb_2
#guard packAll littleOctetBigBit bigOctetLittleBit 8 16 [0x12, 0x34, 0x56, 0x78] == [0x482c, 0x6a1e]
-- test/pack.cpp:164 lubb_to_lubb_1
#guard packAll littleOctetBigBit littleOctetBigBit 8 16 [0x56, 0x78] == [0x7856]
-- test/pack.cpp:174 lubb_to_lubb_2
#guard packAll littleOctetBigBit littleOctetBigBit 16 32 [0x1234, 0x5678, 0x90ab, 0xcdef] == [0x56781234, 0xcdef90ab]
-- test/pack.cpp:184 lubb_to_lulb_1
#guard packAll littleOctetBigBit littleOctetLittleBit 8 32 [0x12, 0x34, 0x56, 0x78, 0x90, 0xab, 0xcd, 0xef] == [0x1e6a2c48, 0xf7b3d509]
-- test/pack.cpp:194 lubb_to_lulb_2
#guard packAll littleOctetBigBit littleOctetLittleBit 16 32 [0x1234, 0x5678, 0x90ab, 0xcdef] == [0x6a1e482c, 0xb3f709d5]
-- test/pack.cpp:204 bulb_to_bubb_1
#guard packAll bigOctetLittleBit bigOctetBigBit 8 64 [0x12, 0x34, 0x56, 0x78, 0x90, 0xab, 0xcd, 0xef, 0x48, 0x2c, 0x6a, 0x1e, 0x09, 0xd5, 0xb3, 0xf7] == [0x482c6a1e09d5b3f7, 0x1234567890abcdef]
-- test/pack.cpp:215 bulb_to_bubb_2
#guard packAll bigOctetLittleBit bigOctetBigBit 16 32 [0x1234, 0x5678, 0x90ab, 0xcdef] == [0x482c6a1e, 0x09d5b3f7]
-- test/pack.cpp:225 bulb_to_bulb_1
#guard packAll bigOctetLittleBit bigOctetLittleBit 16 32 [0x1234, 0x5678, 0x90ab, 0xcdef] == [0x12345678, 0x90abcdef]
-- test/pack.cpp:235 bulb_to_bulb_2
#guard packAll bigOctetLittleBit bigOctetLittleBit 8 16 [0x12, 0x34, 0x56, 0x78] == [0x1234, 0x5678]
-- test/pack.cpp:245 bulb_to_lubb_1
#guard packAll bigOctetLittleBit littleOctetBigBit 16 64 [0x1234, 0x5678, 0x90ab, 0xcdef, 0x482c, 0x6a1e, 0x09d5, 0xb3f7] == [0xf7b3d5091e6a2c48, 0xefcdab9078563412]
-- test/pack.cpp:255 bulb_to_lubb_2
#guard packAll bigOctetLittleBit littleOctetBigBit 8 16 [0x12, 0x34, 0x56, 0x78] == [0x2c48, 0x1e6a]
-- test/pack.cpp:265 bulb_to_lulb_1
#guard packAll bigOctetLittleBit littleOctetLittleBit 32 64 [0x12345678, 0x90abcdef, 0x482c6a1e, 0x09d5b3f7] == [0xefcdab9078563412, 0xf7b3d5091e6a2c48]
-- test/pack.cpp:275 bulb_to_lulb_2
#guard packAll bigOctetLittleBit littleOctetLittleBit 8 16 [0x12, 0x34, 0x56, 0x78] == [0x3412, 0x7856]
-- test/pack.cpp:285 lulb_to_bubb_1
#guard packAll littleOctetLittleBit bigOctetBigBit 8 16 [0x48, 0x2c, 0x6a, 0x1e] == [0x1234, 0x5678]
-- test/pack.cpp:295 lulb_to_bubb_2
#guard packAll littleOctetLittleBit bigOctetBigBit 16 32 [0x1234, 0x5678, 0x90ab, 0xcdef] == [0x2c481e6a, 0xd509f7b3]
-- test/pack.cpp:305 lulb_to_bulb_1
#guard packAll littleOctetLittleBit bigOctetLittleBit 16 32 [0x09d5, 0xb3f7] == [0xd509f7b3]
-- test/pack.cpp:315 lulb_to_bulb_2
#guard packAll littleOctetLittleBit bigOctetLittleBit 8 16 [0x12, 0x34, 0x56, 0x78] == [0x1234, 0x5678]
-- test/pack.cpp:325 lulb_to_lubb_1
#guard packAll littleOctetLittleBit littleOctetBigBit 16 64 [0x482c, 0x6a1e, 0x09d5, 0xb3f7] == [0xcdef90ab56781234]
-- test/pack.cpp:335 lulb_to_lubb_2
#guard packAll littleOctetLittleBit littleOctetBigBit 8 16 [0x12, 0x34, 0x56, 0x78] == [0x2c48, 0x1e6a]
-- test/pack.cpp:345 lulb_to_lulb_1
#guard packAll littleOctetLittleBit littleOctetLittleBit 32 64 [0x12345678, 0x90abcdef, 0x482c6a1e, 0x09d5b3f7] == [0x90abcdef12345678, 0x09d5b3f7482c6a1e]
-- test/pack.cpp:355 lulb_to_lulb_2
#guard packAll littleOctetLittleBit littleOctetLittleBit 8 16 [0x12, 0x34, 0x56, 0x78] == [0x3412, 0x7856]
-- test/pack.cpp:369 bubb_to_bubb_1
#guard packAll bigOctetBigBit bigOctetBigBit 16 8 [0x1234, 0x5678] == [0x12, 0x34, 0x56, 0x78]
-- test/pack.cpp:379 bubb_to_bubb_2
#guard packAll bigOctetBigBit bigOctetBigBit 32 16 [0x12345678, 0x90abcdef] == [0x1234, 0x5678, 0x90ab, 0xcdef]
-- test/pack.cpp:389 bubb_to_bulb_1
#guard packAll bigOctetBigBit bigOctetLittleBit 32 8 [0x482c6a1e] == [0x12, 0x34, 0x56, 0x78]
-- test/pack.cpp:399 bubb_to_bulb_2
#guard packAll bigOctetBigBit bigOctetLittleBit 32 16 [0x482c6a1e, 0x09d5b3f7] == [0x1234, 0x5678, 0x90ab, 0xcdef]
-- test/pack.cpp:409 bubb_to_lubb_1
#guard packAll bigOctetBigBit littleOctetBigBit 64 8 [0xefcdab9078563412] == [0xef, 0xcd, 0xab, 0x90, 0x78, 0x56, 0x34, 0x12]
-- test/pack.cpp:419 bubb_to_lubb_2
#guard packAll bigOctetBigBit littleOctetBigBit 32 16 [0x78563412, 0xefcdab90] == [0x5678, 0x1234, 0xcdef, 0x90ab]
-- test/pack.cpp:429 bubb_to_lulb_1
#guard packAll bigOctetBigBit littleOctetLittleBit 32 16 [0x1e6a2c48] == [0x5678, 0x1234]
-- test/pack.cpp:439 bubb_to_lulb_2
#guard packAll bigOctetBigBit littleOctetLittleBit 16 8 [0x2c48, 0x1e6a] == [0x34, 0x12, 0x78, 0x56]
-- test/pack.cpp:449 lubb_to_bubb_1
#guard packAll littleOctetBigBit bigOctetBigBit 64 16 [0x34127856ab90efcd] == [0xcdef, 0x90ab, 0x5678, 0x1234]
-- test/pack.cpp:459 lubb_to_bubb_2
#guard packAll littleOctetBigBit bigOctetBigBit 16 8 [0x1234, 0x5678] == [0x34, 0x12, 0x78, 0x56]
-- test/pack.cpp:469 lubb_to_bulb_1
#guard packAll littleOctetBigBit bigOctetLittleBit 64 32 [0x1e6a2c48f7b3d509] == [0x90abcdef, 0x12345678]
-- test/pack.cpp:479 lubb_to_bulb_2
#guard packAll littleOctetBigBit bigOctetLittleBit 16 8 [0x482c, 0x6a1e] == [0x34, 0x12, 0x78, 0x56]
-- test/pack.cpp:489 lubb_to_lubb_1
#guard packAll littleOctetBigBit littleOctetBigBit 16 8 [0x7856] == [0x56, 0x78]
-- test/pack.cpp:499 lubb_to_lubb_2
#guard packAll littleOctetBigBit littleOctetBigBit 32 16 [0x56781234, 0xcdef90ab] == [0x1234, 0x5678, 0x90ab, 0xcdef]
-- test/pack.cpp:509 lubb_to_lulb_1
#guard packAll littleOctetBigBit littleOctetLittleBit 32 8 [0x1e6a2c48, 0xf7b3d509] == [0x12, 0x34, 0x56, 0x78, 0x90, 0xab, 0xcd, 0xef]
-- test/pack.cpp:519 lubb_to_lulb_2
#guard packAll littleOctetBigBit littleOctetLittleBit 32 16 [0x6a1e482c, 0xb3f709d5] == [0x1234, 0x5678, 0x90ab, 0xcdef]
-- test/pack.cpp:529 bulb_to_bubb_1
#guard packAll bigOctetLittleBit bigOctetBigBit 64 8 [0x482c6a1e09d5b3f7, 0x1234567890abcdef] == [0x12, 0x34, 0x56, 0x78, 0x90, 0xab, 0xcd, 0xef, 0x48, 0x2c, 0x6a, 0x1e, 0x09, 0xd5, 0xb3, 0xf7]
-- test/pack.cpp:540 bulb_to_bubb_2
#guard packAll bigOctetLittleBit bigOctetBigBit 32 16 [0x482c6a1e, 0x09d5b3f7] == [0x1234, 0x5678, 0x90ab, 0xcdef]
-- test/pack.cpp:550 bulb_to_bulb_1
#guard packAll bigOctetLittleBit bigOctetLittleBit 32 16 [0x12345678, 0x90abcdef] == [0x1234, 0x5678, 0x90ab, 0xcdef]
-- test/pack.cpp:560 bulb_to_bulb_2
#guard packAll bigOctetLittleBit bigOctetLittleBit 16 8 [0x1234, 0x5678] == [0x12, 0x34, 0x56, 0x78]
-- test/pack.cpp:570 bulb_to_lubb_1
#guard packAll bigOctetLittleBit littleOctetBigBit 64 16 [0xf7b3d5091e6a2c48, 0xefcdab9078563412] == [0xcdef, 0x90ab, 0x5678, 0x1234, 0xb3f7, 0x09d5, 0x6a1e, 0x482c]
-- test/pack.cpp:580 bulb_to_lubb_2
#guard packAll bigOctetLittleBit littleOctetBigBit 16 8 [0x2c48, 0x1e6a] == [0x34, 0x12, 0x78, 0x56]
-- test/pack.cpp:590 bulb_to_lulb_1
#guard packAll bigOctetLittleBit littleOctetLittleBit 64 32 [0xefcdab9078563412, 0xf7b3d5091e6a2c48] == [0x90abcdef, 0x12345678, 0x09d5b3f7, 0x482c6a1e]
-- test/pack.cpp:600 bulb_to_lulb_2
#guard packAll bigOctetLittleBit littleOctetLittleBit 16 8 [0x3412, 0x7856] == [0x34, 0x12, 0x78, 0x56]
-- test/pack.cpp:610 lulb_to_bubb_1
#guard packAll littleOctetLittleBit bigOctetBigBit 16 8 [0x1234, 0x5678] == [0x2c, 0x48, 0x1e, 0x6a]
-- test/pack.cpp:620 lulb_to_bubb_2
#guard packAll littleOctetLittleBit bigOctetBigBit 32 16 [0x2c481e6a, 0xd509f7b3] == [0x5678, 0x1234, 0xcdef, 0x90ab]
-- test/pack.cpp:630 lulb_to_bulb_1
#guard packAll littleOctetLittleBit bigOctetLittleBit 32 16 [0xd509f7b3] == [0xb3f7, 0x09d5]
-- test/pack.cpp:640 lulb_to_bulb_2
#guard packAll littleOctetLittleBit bigOctetLittleBit 16 8 [0x1234, 0x5678] == [0x34, 0x12, 0x78, 0x56]
-- test/pack.cpp:650 lulb_to_lubb_1
#guard packAll littleOctetLittleBit littleOctetBigBit 64 16 [0xcdef90ab56781234] == [0x482c, 0x6a1e, 0x09d5, 0xb3f7]
-- test/pack.cpp:660 lulb_to_lubb_2
#guard packAll littleOctetLittleBit littleOctetBigBit 16 8 [0x2c48, 0x1e6a] == [0x12, 0x34, 0x56, 0x78]
-- test/pack.cpp:670 lulb_to_lulb_1
#guard packAll littleOctetLittleBit littleOctetLittleBit 64 32 [0x90abcdef12345678, 0x09d5b3f7482c6a1e] == [0x12345678, 0x90abcdef, 0x482c6a1e, 0x09d5b3f7]
-- test/pack.cpp:680 lulb_to_lulb_2
#guard packAll littleOctetLittleBit littleOctetLittleBit 16 8 [0x3412, 0x7856] == [0x12, 0x34, 0x56, 0x78]
-- test/pack.cpp:694 bubb_to_bubb_1
#guard packAll bigOctetBigBit bigOctetBigBit 32 32 [0x01928374, 0x65473829] == [0x01928374, 0x65473829]
-- test/pack.cpp:704 bubb_to_bubb_2
#guard packAll bigOctetBigBit bigOctetBigBit 8 8 [0x01, 0x23] == [0x01, 0x23]
-- test/pack.cpp:724 lubb_to_lubb_1
#guard packAll littleOctetBigBit littleOctetBigBit 32 32 [0x01928374, 0x65473829] == [0x01928374, 0x65473829]
-- test/pack.cpp:734 lubb_to_lubb_2
#guard packAll littleOctetBigBit littleOctetBigBit 8 8 [0x01, 0x23] == [0x01, 0x23]
-- test/pack.cpp:754 bulb_to_bulb_1
#guard packAll bigOctetLittleBit bigOctetLittleBit 32 32 [0x01928374, 0x65473829] == [0x01928374, 0x65473829]
-- test/pack.cpp:764 bulb_to_bulb_2
#guard packAll bigOctetLittleBit bigOctetLittleBit 8 8 [0x01, 0x23] == [0x01, 0x23]
-- test/pack.cpp:784 lulb_to_lulb_1
#guard packAll littleOctetLittleBit littleOctetLittleBit 32 32 [0x01928374, 0x65473829] == [0x01928374, 0x65473829]
-- test/pack.cpp:794 lulb_to_lulb_2
#guard packAll littleOctetLittleBit littleOctetLittleBit 8 8 [0x01, 0x23] == [0x01, 0x23]
-- test/pack.cpp:814 bubb_to_lubb_1
#guard packAll bigOctetBigBit littleOctetBigBit 8 8 [0x89, 0xad, 0x56, 0xef] == [0x89, 0xad, 0x56, 0xef]
-- test/pack.cpp:834 bubb_to_lubb_3
#guard packAll bigOctetBigBit littleOctetBigBit 16 16 [0x89ad, 0x56ef, 0x7340, 0x12cb] == [0xad89, 0xef56, 0x4073, 0xcb12]
-- test/pack.cpp:845 bubb_to_bulb_1
#guard packAll bigOctetBigBit bigOctetLittleBit 8 8 [0x89, 0xad, 0x56, 0xef] == [0x91, 0xb5, 0x6a, 0xf7]
-- test/pack.cpp:856 bubb_to_bulb_2
#guard packAll bigOctetBigBit bigOctetLittleBit 16 16 [0x89ad, 0x56ef, 0x7340, 0x12cb] == [0x91b5, 0x6af7, 0xce02, 0x48d3]
-- test/pack.cpp:867 bubb_to_lulb_1
#guard packAll bigOctetBigBit littleOctetLittleBit 8 8 [0x89, 0xad, 0x56, 0xef] == [0x91, 0xb5, 0x6a, 0xf7]
-- test/pack.cpp:878 bubb_to_lulb_2
#guard packAll bigOctetBigBit littleOctetLittleBit 16 16 [0x89ad, 0x56ef, 0x7340, 0x12cb] == [0xb591, 0xf76a, 0x02ce, 0xd348]
-- test/pack.cpp:889 lubb_to_bubb_1
#guard packAll littleOctetBigBit bigOctetBigBit 8 8 [0x89, 0xad, 0x56, 0xef] == [0x89, 0xad, 0x56, 0xef]
-- test/pack.cpp:909 lubb_to_bubb_3
#guard packAll littleOctetBigBit bigOctetBigBit 32 32 [0x89ad56ef, 0x734012cb] == [0xef56ad89, 0xcb124073]
-- test/pack.cpp:920 lubb_to_bulb_1
#guard packAll littleOctetBigBit bigOctetLittleBit 8 8 [0x89, 0xad, 0x56, 0xef] == [0x91, 0xb5, 0x6a, 0xf7]
-- test/pack.cpp:931 lubb_to_bulb_2
#guard packAll littleOctetBigBit bigOctetLittleBit 32 32 [0x89ad56ef, 0x734012cb] == [0xf76ab591, 0xd34802ce]
-- test/pack.cpp:942 lubb_to_lulb_1
#guard packAll littleOctetBigBit littleOctetLittleBit 8 8 [0x89, 0xad, 0x56, 0xef] == [0x91, 0xb5, 0x6a, 0xf7]
-- test/pack.cpp:953 lubb_to_lulb_2
#guard packAll littleOctetBigBit littleOctetLittleBit 32 32 [0x89ad56ef, 0x734012cb] == [0x91b56af7, 0xce0248d3]
-- test/pack.cpp:964 lulb_to_bubb_1
#guard packAll littleOctetLittleBit bigOctetBigBit 8 8 [0x89, 0xad, 0x56, 0xef] == [0x91, 0xb5, 0x6a, 0xf7]
-- test/pack.cpp:975 lulb_to_bubb_2
#guard packAll littleOctetLittleBit bigOctetBigBit 16 16 [0x0f19, 0x5628, 0xca73, 0xbe4d] == [0x98f0, 0x146a, 0xce53, 0xb27d]
-- test/pack.cpp:986 lulb_to_bulb_1
#guard packAll littleOctetLittleBit bigOctetLittleBit 8 8 [0x89, 0xad, 0x56, 0xef] == [0x89, 0xad, 0x56, 0xef]
-- test/pack.cpp:996 lulb_to_bulb_2
#guard packAll littleOctetLittleBit bigOctetLittleBit 16 16 [0x0f19, 0x5628, 0xca73, 0xbe4d] == [0x190f, 0x2856, 0x73ca, 0x4dbe]
-- test/pack.cpp:1007 lulb_to_lubb_1
#guard packAll littleOctetLittleBit littleOctetBigBit 8 8 [0x89, 0xad, 0x56, 0xef] == [0x91, 0xb5, 0x6a, 0xf7]
-- test/pack.cpp:1018 lulb_to_lubb_2
#guard packAll littleOctetLittleBit littleOctetBigBit 16 16 [0x0f19, 0x5628, 0xca73, 0xbe4d] == [0xf098, 0x6a14, 0x53ce, 0x7db2]
-- test/pack.cpp:1029 bulb_to_bubb_1
#guard packAll bigOctetLittleBit bigOctetBigBit 8 8 [0x89, 0xad, 0x56, 0xef] == [0x91, 0xb5, 0x6a, 0xf7]
-- test/pack.cpp:1040 bulb_to_bubb_2
#guard packAll bigOctetLittleBit bigOctetBigBit 16 16 [0x0f19, 0x5628, 0xca73, 0xbe4d] == [0xf098, 0x6a14, 0x53ce, 0x7db2]
-- test/pack.cpp:1051 bulb_to_lubb_1
#guard packAll bigOctetLittleBit littleOctetBigBit 8 8 [0x89, 0xad, 0x56, 0xef] == [0x91, 0xb5, 0x6a, 0xf7]
-- test/pack.cpp:1062 bulb_to_lubb_2
#guard packAll bigOctetLittleBit littleOctetBigBit 16 16 [0x0f19, 0x5628, 0xca73, 0xbe4d] == [0x98f0, 0x146a, 0xce53, 0xb27d]
-- test/pack.cpp:1073 bulb_to_lulb_1
#guard packAll bigOctetLittleBit littleOctetLittleBit 8 8 [0x89, 0xad, 0x56, 0xef] == [0x89, 0xad, 0x56, 0xef]
-- test/pack.cpp:1083 bulb_to_lulb_2
#guard packAll bigOctetLittleBit littleOctetLittleBit 16 16 [0x0f19, 0x5628, 0xca73, 0xbe4d] == [0x190f, 0x2856, 0x73ca, 0x4dbe]

/-- `hash<crc32_png>(string)`. -/
def crcOf (s : String) : Option (List Nat) :=
  match Crc.crc32Png.feed Crc.crc32Png.init .all (s.toUTF8.toList.map (·.toNat)) with
  | .ok r => some (Crc.crc32Png.digest r)
  | .error _ => none

-- test/crc.cpp:44
#guard crcOf "" == some [0x00, 0x00, 0x00, 0x00]
#guard crcOf "a" == some [0xe8, 0xb7, 0xbe, 0x43]
#guard crcOf "abc" == some [0x35, 0x24, 0x41, 0xc2]
#guard crcOf "message digest" == some [0x20, 0x15, 0x9d, 0x7f]
#guard crcOf "abcdefghijklmnopqrstuvwxyz" == some [0x4c, 0x27, 0x50, 0xbd]
#guard crcOf "ABCDEFGHIJKLMNOPQRSTUVWXYZabcdefghijklmnopqrstuvwxyz0123456789" == some [0x1f, 0xc2, 0xe6, 0xd2]
#guard crcOf "12345678901234567890123456789012345678901234567890123456789012345678901234567890" == some [0x7c, 0xa9, 0x4a, 0x72]

end Verif.Validation
