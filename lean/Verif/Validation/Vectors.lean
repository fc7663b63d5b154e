import Verif.Validation.Basic
/-
Tests, not proofs: every message of the JSON files under /repo/test/data (read through test/*.cpp), hashed
by the model.
-/
namespace Verif.Validation

-- test/data/md4.json
#guard md4S.strings [
  ("a", "bde52cb31de33e46245e05fbdbd6fb24"), ("abc", "a448017aaf21d8525fc10ae87aa6729d"),
  ("message digest", "d9130a8164549fe818874806e1c7014b"),
  ("abcdefghijklmnopqrstuvwxyz", "d79e1c308aa5bbcdeea8ed63df412da9"),
  ("ABCDEFGHIJKLMNOPQRSTUVWXYZabcdefghijklmnopqrstuvwxyz0123456789", "043f8582f241db351ce627e153e7f0e4"),
  ("12345678901234567890123456789012345678901234567890123456789012345678901234567890", "e33b4ddc9c38f2199c3e7b164fcc0536")]

-- test/data/md5.json
#guard md5S.strings [
  ("a", "0cc175b9c0f1b6a831c399e269772661"), ("abc", "900150983cd24fb0d6963f7d28e17f72"),
  ("message digest", "f96b697d7cb7938d525a2f31aaf161d0"),
  ("abcdefghijklmnopqrstuvwxyz", "c3fcd3d76192e4007dfb496cca67e13b"),
  ("The quick brown fox jumped over the lazy dog's back", "e38ca1d920c4b8b8d3946b2c72f01680"),
  ("abcdbcdecdefdefgefghfghighijhijkijkljklmklmnlmnomnopnopq", "8215ef0796a20bcaaae116d3876c664a"),
  ("ABCDEFGHIJKLMNOPQRSTUVWXYZabcdefghijklmnopqrstuvwxyz0123456789", "d174ab98d277d9f5a5611c2c9f419d9f"),
  ("12345678901234567890123456789012345678901234567890123456789012345678901234567890", "57edf4a22be3c955ac49da2e2107b67a")]

-- test/data/sha.json
#guard sha0S.strings [
  ("abc", "0164b8a914cd2a5e74c4f7ff082c4d97f1edf880"),
  ("abcdbcdecdefdefgefghfghighijhijkijkljklmklmnlmnomnopnopq", "d2516ee1acfa5baf33dfc1c471e438449ef134c8")]

-- test/data/sha1.json
#guard sha1S.strings [
  ("a", "86f7e437faa5a7fce15d1ddcb9eaeaea377667b8"), ("abc", "a9993e364706816aba3e25717850c26c9cd0d89d"),
  ("message digest", "c12252ceda8be8994d5fa0290a47231c1d16aae3"),
  ("abcdefghijklmnopqrstuvwxyz", "32d10c7b8cf96570ca04ce37f2a19d84240d3a89"),
  ("abcdbcdecdefdefgefghfghighijhijkijkljklmklmnlmnomnopnopq", "84983e441c3bd26ebaae4aa1f95129e5e54670f1"),
  ("ABCDEFGHIJKLMNOPQRSTUVWXYZabcdefghijklmnopqrstuvwxyz0123456789", "761c457bf73b14d27e9e9265c46f4b4dda11f940"),
  ("abcdefghbcdefghicdefghijdefghijkefghijklfghijklmghijklmnhijklmnoijklmnopjklmnopqklmnopqrlmnopqrsmnopqrstnopqrstu", "a49b2446a02c645bf419f995b67091253a04a259")]

-- test/data/sha2.json data_224
#guard sha224S.strings [
  ("a", "abd37534c7d9a2efb9465de931cd7055ffdb8879563ae98078d6d6d5"),
  ("abc", "23097d223405d8228642a477bda255b32aadbce4bda0b3f7e36c9da7"),
  ("message digest", "2cb21c83ae2f004de7e81c3c7019cbcb65b71ab656b22d6d0c39b8eb"),
  ("abcdefghijklmnopqrstuvwxyz", "45a5f72c39c5cff2522eb3429799e49e5f44b356ef926bcf390dccc2"),
  ("abcdbcdecdefdefgefghfghighijhijkijkljklmklmnlmnomnopnopq", "75388b16512776cc5dba5da1fd890150b0c6455cb4f58b1952522525"),
  ("ABCDEFGHIJKLMNOPQRSTUVWXYZabcdefghijklmnopqrstuvwxyz0123456789", "bff72b4fcb7d75e5632900ac5f90d219e05e97a7bde72e740db393d9")]

-- test/data/sha2.json data_256
#guard sha256S.strings [
  ("a", "ca978112ca1bbdcafac231b39a23dc4da786eff8147c4e72b9807785afee48bb"),
  ("abc", "ba7816bf8f01cfea414140de5dae2223b00361a396177a9cb410ff61f20015ad"),
  ("message digest", "f7846f55cf23e14eebeab5b4e1550cad5b509e3348fbc4efa3a1413d393cb650"),
  ("abcdefghijklmnopqrstuvwxyz", "71c480df93d6ae2f1efad1447c66c9525e316218cf51fc8d9ed832f2daf18b73"),
  ("abcdbcdecdefdefgefghfghighijhijkijkljklmklmnlmnomnopnopq", "248d6a61d20638b8e5c026930c3e6039a33ce45964ff2167f6ecedd419db06c1"),
  ("ABCDEFGHIJKLMNOPQRSTUVWXYZabcdefghijklmnopqrstuvwxyz0123456789", "db4bfcbd4da0cd85a60c3c37d3fbd8805c77f15fc6b1fdfe614ee0a7c8fdb4c0")]

-- test/data/sha2.json data_384
#guard sha384S.strings [
  ("a", "54a59b9f22b0b80880d8427e548b7c23abd873486e1f035dce9cd697e85175033caa88e6d57bc35efae0b5afd3145f31"),
  ("abc", "cb00753f45a35e8bb5a03d699ac65007272c32ab0eded1631a8b605a43ff5bed8086072ba1e7cc2358baeca134c825a7"),
  ("message digest", "473ed35167ec1f5d8e550368a3db39be54639f828868e9454c239fc8b52e3c61dbd0d8b4de1390c256dcbb5d5fd99cd5"),
  ("abcdefghijklmnopqrstuvwxyz", "feb67349df3db6f5924815d6c3dc133f091809213731fe5c7b5f4999e463479ff2877f5f2936fa63bb43784b12f3ebb4"),
  ("abcdbcdecdefdefgefghfghighijhijkijkljklmklmnlmnomnopnopq", "3391fdddfc8dc7393707a65b1b4709397cf8b1d162af05abfe8f450de5f36bc6b0455a8520bc4e6f5fe95b1fe3c8452b"),
  ("ABCDEFGHIJKLMNOPQRSTUVWXYZabcdefghijklmnopqrstuvwxyz0123456789", "1761336e3f7cbfe51deb137f026f89e01a448e3b1fafa64039c1464ee8732f11a5341a6f41e0c202294736ed64db1a84")]

-- test/data/sha2.json data_512
#guard sha512S.strings [
  ("a", "1f40fc92da241694750979ee6cf582f2d5d7d28e18335de05abc54d0560e0f5302860c652bf08d560252aa5e74210546f369fbbbce8c12cfc7957b2652fe9a75"),
  ("abc", "ddaf35a193617abacc417349ae20413112e6fa4e89a97ea20a9eeee64b55d39a2192992a274fc1a836ba3c23a3feebbd454d4423643ce80e2a9ac94fa54ca49f"),
  ("message digest", "107dbf389d9e9f71a3a95f6c055b9251bc5268c2be16d6c13492ea45b0199f3309e16455ab1e96118e8a905d5597b72038ddb372a89826046de66687bb420e7c"),
  ("abcdefghijklmnopqrstuvwxyz", "4dbff86cc2ca1bae1e16468a05cb9881c97f1753bce3619034898faa1aabe429955a1bf8ec483d7421fe3c1646613a59ed5441fb0f321389f77f48a879c7b1f1"),
  ("abcdbcdecdefdefgefghfghighijhijkijkljklmklmnlmnomnopnopq", "204a8fc6dda82f0a0ced7beb8e08a41657c16ef468b228a8279be331a703c33596fd15c13b1b07f9aa1d3bea57789ca031ad85c7a71dd70354ec631238ca3445"),
  ("ABCDEFGHIJKLMNOPQRSTUVWXYZabcdefghijklmnopqrstuvwxyz0123456789", "1e07be23c26a86ea37ea810c8ec7809352515a970e9253c26f536cfc7a9996c45c8370583e0a78fa4a90041d71a4ceab7423f19c71b9d5a3e01249f0bebd5894")]

-- test/data/ripemd.json data_128
#guard ripemd128S.strings [
  ("a", "86be7afa339d0fc7cfc785e72f578d33"), ("abc", "c14a12199c66e4ba84636b0f69144c77"),
  ("message digest", "9e327b3d6e523062afc1132d7df9d1b8"),
  ("abcdefghijklmnopqrstuvwxyz", "fd2aa607f71dc8f510714922b371834e"),
  ("abcdbcdecdefdefgefghfghighijhijkijkljklmklmnlmnomnopnopq", "a1aa0689d0fafa2ddc22e88b49133a06"),
  ("ABCDEFGHIJKLMNOPQRSTUVWXYZabcdefghijklmnopqrstuvwxyz0123456789", "d1e959eb179c911faea4624c60c5c702")]

-- test/data/ripemd.json data_160
#guard ripemd160S.strings [
  ("a", "0bdc9d2d256b3ee9daae347be6f4dc835a467ffe"), ("abc", "8eb208f7e05d987a9b044a8e98c6b087f15a0bfc"),
  ("message digest", "5d0689ef49d2fae572b881b123a85ffa21595f36"),
  ("abcdefghijklmnopqrstuvwxyz", "f71c27109c692c1b56bbdceb5b9d2865b3708dbc"),
  ("abcdbcdecdefdefgefghfghighijhijkijkljklmklmnlmnomnopnopq", "12a053384a9c0c88e405a06c27dcf49ada62eb2b"),
  ("ABCDEFGHIJKLMNOPQRSTUVWXYZabcdefghijklmnopqrstuvwxyz0123456789", "b0e20b6e3116640286ed3a87a5713079b21f5189")]

-- test/data/ripemd.json data_256
#guard ripemd256S.strings [
  ("a", "f9333e45d857f5d90a91bab70a1eba0cfb1be4b0783c9acfcd883a9134692925"),
  ("abc", "afbd6e228b9d8cbbcef5ca2d03e6dba10ac0bc7dcbe4680e1e42d2e975459b65"),
  ("message digest", "87e971759a1ce47a514d5c914c392c9018c7c46bc14465554afcdf54a5070c0e"),
  ("abcdefghijklmnopqrstuvwxyz", "649d3034751ea216776bf9a18acc81bc7896118a5197968782dd1fd97d8d5133"),
  ("abcdbcdecdefdefgefghfghighijhijkijkljklmklmnlmnomnopnopq", "3843045583aac6c8c8d9128573e7a9809afb2a0f34ccc36ea9e72f16f6368e3f"),
  ("ABCDEFGHIJKLMNOPQRSTUVWXYZabcdefghijklmnopqrstuvwxyz0123456789", "5740a408ac16b720b84424ae931cbb1fe363d1d0bf4017f1a89f7ea6de77a0b8")]

-- test/data/ripemd.json data_320
#guard ripemd320S.strings [
  ("a", "ce78850638f92658a5a585097579926dda667a5716562cfcf6fbe77f63542f99b04705d6970dff5d"),
  ("abc", "de4c01b3054f8930a79d09ae738e92301e5a17085beffdc1b8d116713e74f82fa942d64cdbc4682d"),
  ("message digest", "3a8e28502ed45d422f68844f9dd316e7b98533fa3f2a91d29f84d425c88d6b4eff727df66a7c0197"),
  ("abcdefghijklmnopqrstuvwxyz", "cabdb1810b92470a2093aa6bce05952c28348cf43ff60841975166bb40ed234004b8824463e6b009"),
  ("abcdbcdecdefdefgefghfghighijhijkijkljklmklmnlmnomnopnopq", "d034a7950cf722021ba4b84df769a5de2060e259df4c9bb4a4268c0e935bbc7470a969c9d072a1ac"),
  ("ABCDEFGHIJKLMNOPQRSTUVWXYZabcdefghijklmnopqrstuvwxyz0123456789", "ed544940c86d67f250d232c30b7b3e5770e0c60c8cb9a4cafe3b11388af9920e1b99230b843c86a4")]

-- test/data/tiger.json data_192
#guard tigerS.strings [
  ("a", "77befbef2e7ef8ab2ec8f93bf587a7fc613e247f5f247809"),
  ("abc", "2aab1484e8c158f2bfb8c5ff41b57a525129131c957b5f93"),
  ("message digest", "d981f8cb78201a950dcf3048751e441c517fca1aa55a29f6"),
  ("abcdefghijklmnopqrstuvwxyz", "1714a472eee57d30040412bfcc55032a0b11602ff37beee9"),
  ("abcdbcdecdefdefgefghfghighijhijkijkljklmklmnlmnomnopnopq", "0f7bf9a19b9c58f2b7610df7e84f0ac3a71c631e7b53f78e"),
  ("ABCDEFGHIJKLMNOPQRSTUVWXYZabcdefghijklmnopqrstuvwxyz0123456789", "8dcea680a17583ee502ba38a3c368651890ffbccdc49a8cc"),
  ("12345678901234567890123456789012345678901234567890123456789012345678901234567890", "1c14795529fd9f207a958f84c52f11e887fa0cabdfd91bfd")]

-- test/data/keccak.json data_224
#guard (keccakS 224).strings [
  ("a", "7cf87d912ee7088d30ec23f8e7100d9319bff090618b439d3fe91308"),
  ("abc", "c30411768506ebe1c2871b1ee2e87d38df342317300a9b97a95ec6a8"),
  ("message digest", "b53b2cd638f440fa49916036acdb22245673992fb1b1963b96fb9e93"),
  ("abcdefghijklmnopqrstuvwxyz", "162bab64dc3ba594bd3b43fd8abec4aa03b36c2784cac53a58f9b076"),
  ("abcdbcdecdefdefgefghfghighijhijkijkljklmklmnlmnomnopnopq", "e51faa2b4655150b931ee8d700dc202f763ca5f962c529eae55012b6"),
  ("ABCDEFGHIJKLMNOPQRSTUVWXYZabcdefghijklmnopqrstuvwxyz0123456789", "4fb72d7b6b24bd1f5d4b8ef559fd9188eb66caa01bce34c621a05412")]

-- test/data/keccak.json data_256
#guard (keccakS 256).strings [
  ("a", "3ac225168df54212a25c1c01fd35bebfea408fdac2e31ddd6f80a4bbf9a5f1cb"),
  ("abc", "4e03657aea45a94fc7d47ba826c8d667c0d1e6e33a64a036ec44f58fa12d6c45"),
  ("message digest", "856ab8a3ad0f6168a4d0ba8d77487243f3655db6fc5b0e1669bc05b1287e0147"),
  ("abcdefghijklmnopqrstuvwxyz", "9230175b13981da14d2f3334f321eb78fa0473133f6da3de896feb22fb258936"),
  ("abcdbcdecdefdefgefghfghighijhijkijkljklmklmnlmnomnopnopq", "45d3b367a6904e6e8d502ee04999a7c27647f91fa845d456525fd352ae3d7371"),
  ("ABCDEFGHIJKLMNOPQRSTUVWXYZabcdefghijklmnopqrstuvwxyz0123456789", "6e61c013aef4c6765389ffcd406dd72e7e061991f4a3a8018190db86bd21ebb4")]

-- test/data/keccak.json data_384
#guard (keccakS 384).strings [
  ("a", "85e964c0843a7ee32e6b5889d50e130e6485cffc826a30167d1dc2b3a0cc79cba303501a1eeaba39915f13baab5abacf"),
  ("abc", "f7df1165f033337be098e7d288ad6a2f74409d7a60b49c36642218de161b1f99f8c681e4afaf31a34db29fb763e3c28e"),
  ("message digest", "8a377db088c43e44040a2bfb26676704999d90527913cabff0a3484825daa54d3061e67da7d836a0805356962af310e8"),
  ("abcdefghijklmnopqrstuvwxyz", "c5a708ec2178d8c398461547435e482cee0d85de3d75ddbff54e6606a7e9f994f023a6033b2bf4c516a5f71fc7470d1a"),
  ("abcdbcdecdefdefgefghfghighijhijkijkljklmklmnlmnomnopnopq", "b41e8896428f1bcbb51e17abd6acc98052a3502e0d5bf7fa1af949b4d3c855e7c4dc2c390326b3f3e74c7b1e2b9a3657"),
  ("ABCDEFGHIJKLMNOPQRSTUVWXYZabcdefghijklmnopqrstuvwxyz0123456789", "7377c5707506575c26937f3df0d44a773f8c7452c074ee1725c1ab62f741f95059459d64caebf35a7c247fe28616cab6")]

-- test/data/keccak.json data_512
#guard (keccakS 512).strings [
  ("a", "9c46dbec5d03f74352cc4a4da354b4e9796887eeb66ac292617692e765dbe400352559b16229f97b27614b51dbfbbb14613f2c10350435a8feaf53f73ba01c7c"),
  ("abc", "18587dc2ea106b9a1563e32b3312421ca164c7f1f07bc922a9c83d77cea3a1e5d0c69910739025372dc14ac9642629379540c17e2a65b19d77aa511a9d00bb96"),
  ("message digest", "cccc49fa63822b00004cf6c889b28a035440ffb3ef50e790599935518e2aefb0e2f1839170797f7763a5c43b2dcf02abf579950e36358d6d04dfddc2abac7545"),
  ("abcdefghijklmnopqrstuvwxyz", "e55bdca64dfe33f36ae3153c727833f9947d92958073f4dd02e38a82d8acb282b1ee1330a68252a54c6d3d27306508ca765acd45606caeaf51d6bdc459f551f1"),
  ("abcdbcdecdefdefgefghfghighijhijkijkljklmklmnlmnomnopnopq", "6aa6d3669597df6d5a007b00d09c20795b5c4218234e1698a944757a488ecdc09965435d97ca32c3cfed7201ff30e070cd947f1fc12b9d9214c467d342bcba5d"),
  ("ABCDEFGHIJKLMNOPQRSTUVWXYZabcdefghijklmnopqrstuvwxyz0123456789", "d5fa6b93d54a87bbde52dbb44daf96a3455daef9d60cdb922bc4b72a5bbba97c5bf8c59816fede302fc64e98ce1b864df7be671c968e43d1bae23ad76a3e702d")]

-- test/data/sha3.json data_224
#guard (sha3S 224).strings [
  ("a", "9e86ff69557ca95f405f081269685b38e3a819b309ee942f482b6a8b"),
  ("abc", "e642824c3f8cf24ad09234ee7d3c766fc9a3a5168d0c94ad73b46fdf"),
  ("message digest", "18768bb4c48eb7fc88e5ddb17efcf2964abd7798a39d86a4b4a1e4c8"),
  ("abcdefghijklmnopqrstuvwxyz", "5cdeca81e123f87cad96b9cba999f16f6d41549608d4e0f4681b8239"),
  ("abcdbcdecdefdefgefghfghighijhijkijkljklmklmnlmnomnopnopq", "8a24108b154ada21c9fd5574494479ba5c7e7ab76ef264ead0fcce33"),
  ("ABCDEFGHIJKLMNOPQRSTUVWXYZabcdefghijklmnopqrstuvwxyz0123456789", "a67c289b8250a6f437a20137985d605589a8c163d45261b15419556e")]

-- test/data/sha3.json data_256
#guard (sha3S 256).strings [
  ("a", "80084bf2fba02475726feb2cab2d8215eab14bc6bdd8bfb2c8151257032ecd8b"),
  ("abc", "3a985da74fe225b2045c172d6bd390bd855f086e3e9d525b46bfe24511431532"),
  ("message digest", "edcdb2069366e75243860c18c3a11465eca34bce6143d30c8665cefcfd32bffd"),
  ("abcdefghijklmnopqrstuvwxyz", "7cab2dc765e21b241dbc1c255ce620b29f527c6d5e7f5f843e56288f0d707521"),
  ("abcdbcdecdefdefgefghfghighijhijkijkljklmklmnlmnomnopnopq", "41c0dba2a9d6240849100376a8235e2c82e1b9998a999e21db32dd97496d3376"),
  ("ABCDEFGHIJKLMNOPQRSTUVWXYZabcdefghijklmnopqrstuvwxyz0123456789", "a79d6a9da47f04a3b9a9323ec9991f2105d4c78a7bc7beeb103855a7a11dfb9f")]

-- test/data/sha3.json data_384
#guard (sha3S 384).strings [
  ("a", "1815f774f320491b48569efec794d249eeb59aae46d22bf77dafe25c5edc28d7ea44f93ee1234aa88f61c91912a4ccd9"),
  ("abc", "ec01498288516fc926459f58e2c6ad8df9b473cb0fc08c2596da7cf0e49be4b298d88cea927ac7f539f1edf228376d25"),
  ("message digest", "d9519709f44af73e2c8e291109a979de3d61dc02bf69def7fbffdfffe662751513f19ad57e17d4b93ba1e484fc1980d5"),
  ("abcdefghijklmnopqrstuvwxyz", "fed399d2217aaf4c717ad0c5102c15589e1c990cc2b9a5029056a7f7485888d6ab65db2370077a5cadb53fc9280d278f"),
  ("abcdbcdecdefdefgefghfghighijhijkijkljklmklmnlmnomnopnopq", "991c665755eb3a4b6bbdfb75c78a492e8c56a22c5c4d7e429bfdbc32b9d4ad5aa04a1f076e62fea19eef51acd0657c22"),
  ("ABCDEFGHIJKLMNOPQRSTUVWXYZabcdefghijklmnopqrstuvwxyz0123456789", "d5b972302f5080d0830e0de7b6b2cf383665a008f4c4f386a61112652c742d20cb45aa51bd4f542fc733e2719e999291")]

-- test/data/sha3.json data_512
#guard (sha3S 512).strings [
  ("a", "697f2d856172cb8309d6b8b97dac4de344b549d4dee61edfb4962d8698b7fa803f4f93ff24393586e28b5b957ac3d1d369420ce53332712f997bd336d09ab02a"),
  ("abc", "b751850b1a57168a5693cd924b6b096e08f621827444f70d884f5d0240d2712e10e116e9192af3c91a7ec57647e3934057340b4cf408d5a56592f8274eec53f0"),
  ("message digest", "3444e155881fa15511f57726c7d7cfe80302a7433067b29d59a71415ca9dd141ac892d310bc4d78128c98fda839d18d7f0556f2fe7acb3c0cda4bff3a25f5f59"),
  ("abcdefghijklmnopqrstuvwxyz", "af328d17fa28753a3c9f5cb72e376b90440b96f0289e5703b729324a975ab384eda565fc92aaded143669900d761861687acdc0a5ffa358bd0571aaad80aca68"),
  ("abcdbcdecdefdefgefghfghighijhijkijkljklmklmnlmnomnopnopq", "04a371e84ecfb5b8b77cb48610fca8182dd457ce6f326a0fd3d7ec2f1e91636dee691fbe0c985302ba1b0d8dc78c086346b533b49c030d99a27daf1139d6e75e"),
  ("ABCDEFGHIJKLMNOPQRSTUVWXYZabcdefghijklmnopqrstuvwxyz0123456789", "d1db17b4745b255e5eb159f66593cc9c143850979fc7a3951796aba80165aab536b46174ce19e3f707f0e5c6487f5f03084bc0ec9461691ef20113e42ad28163")]

-- test/data/blake2b.json data_224
#guard (blake2bS 224).strings [
  ("a", "c05d5ea0257c7a4604122b8e99a0093f89d0797ef06a7f0af65a3560"),
  ("abc", "9bd237b02a29e43bdd6738afa5b53ff0eee178d6210b618e4511aec8"),
  ("message digest", "f305a410b733771b7c5c8ad1041e356ff1da48c51792dfe319ba286b"),
  ("abcdefghijklmnopqrstuvwxyz", "7a04e26d7180b9c5e494558dab986f7e8243891a4bb50c45201a16c9"),
  ("abcdbcdecdefdefgefghfghighijhijkijkljklmklmnlmnomnopnopq", "2634ceb48faf94cd6a424287aab968ce3fef39ee5d841760aa5b3164"),
  ("ABCDEFGHIJKLMNOPQRSTUVWXYZabcdefghijklmnopqrstuvwxyz0123456789", "6116b617e7e51e0032dbd2b3db8b6004b15bda4916b19f2737d95e43")]

-- test/data/blake2b.json data_256
#guard (blake2bS 256).strings [
  ("a", "8928aae63c84d87ea098564d1e03ad813f107add474e56aedd286349c0c03ea4"),
  ("abc", "bddd813c634239723171ef3fee98579b94964e3bb1cb3e427262c8c068d52319"),
  ("message digest", "31a65b562925c6ffefdafa0ad830f4e33eff148856c2b4754de273814adf8b85"),
  ("abcdefghijklmnopqrstuvwxyz", "117ad6b940f5e8292c007d9c7e7350cd33cf85b5887e8da71c7957830f536e7c"),
  ("abcdbcdecdefdefgefghfghighijhijkijkljklmklmnlmnomnopnopq", "5f7a93da9c5621583f22e49e8e91a40cbba37536622235a380f434b9f68e49c4"),
  ("ABCDEFGHIJKLMNOPQRSTUVWXYZabcdefghijklmnopqrstuvwxyz0123456789", "63f74bf0df57c4fd10f949edbe1cb7f6e374ecab882616381d6d999fda748b93")]

-- test/data/blake2b.json data_384
#guard (blake2bS 384).strings [
  ("a", "7d40de16ff771d4595bf70cbda0c4ea0a066a6046fa73d34471cd4d93d827d7c94c29399c50de86983af1ec61d5dcef0"),
  ("abc", "6f56a82c8e7ef526dfe182eb5212f7db9df1317e57815dbda46083fc30f54ee6c66ba83be64b302d7cba6ce15bb556f4"),
  ("message digest", "44c3965bd8f02ed299ad52ffb5bba7c448df242073c5520dc091a0cc55d024cdd51569c339d0bf2b6cd746708683a0ef"),
  ("abcdefghijklmnopqrstuvwxyz", "5cad60ce23b9dc62eabdd149a16307ef916e0637506fa10cf8c688430da6c978a0cb7857fd138977bd281e8cfd5bfd1f"),
  ("abcdbcdecdefdefgefghfghighijhijkijkljklmklmnlmnomnopnopq", "5643daabfc919190d373a3d58935804d731b58812f30184f98793f7321d0cb34bb41b217fabce6bdf28ca6be1c923b81"),
  ("ABCDEFGHIJKLMNOPQRSTUVWXYZabcdefghijklmnopqrstuvwxyz0123456789", "b4975ee19a4f559e3d3497df0db1e5c6b79988b7d7e85c1f064ceaa72a418c484e4418b775c77af8d2651872547c8e9f")]

-- test/data/blake2b.json data_512
#guard (blake2bS 512).strings [
  ("a", "333fcb4ee1aa7c115355ec66ceac917c8bfd815bf7587d325aec1864edd24e34d5abe2c6b1b5ee3face62fed78dbef802f2a85cb91d455a8f5249d330853cb3c"),
  ("abc", "ba80a53f981c4d0d6a2797b69f12f6e94c212f14685ac4b74b12bb6fdbffa2d17d87c5392aab792dc252d5de4533cc9518d38aa8dbf1925ab92386edd4009923"),
  ("message digest", "3c26ce487b1c0f062363afa3c675ebdbf5f4ef9bdc022cfbef91e3111cdc283840d8331fc30a8a0906cff4bcdbcd230c61aaec60fdfad457ed96b709a382359a"),
  ("abcdefghijklmnopqrstuvwxyz", "c68ede143e416eb7b4aaae0d8e48e55dd529eafed10b1df1a61416953a2b0a5666c761e7d412e6709e31ffe221b7a7a73908cb95a4d120b8b090a87d1fbedb4c"),
  ("abcdbcdecdefdefgefghfghighijhijkijkljklmklmnlmnomnopnopq", "7285ff3e8bd768d69be62b3bf18765a325917fa9744ac2f582a20850bc2b1141ed1b3e4528595acc90772bdf2d37dc8a47130b44f33a02e8730e5ad8e166e888"),
  ("ABCDEFGHIJKLMNOPQRSTUVWXYZabcdefghijklmnopqrstuvwxyz0123456789", "99964802e5c25e703722905d3fb80046b6bca698ca9e2cc7e49b4fe1fa087c2edf0312dfbb275cf250a1e542fd5dc2edd313f9c491127c2e8c0c9b24168e2d50")]

end Verif.Validation
