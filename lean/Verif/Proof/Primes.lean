import Verif.Proof.Primality
/- Primality certificates (kernel-checked) for the moduli that the code uses. -/
namespace Verif

theorem prime_7 : Nat.Prime 7 := by norm_num

theorem prime_19 : Nat.Prime 19 := by norm_num

theorem prime_79 : Nat.Prime 79 := by norm_num

theorem prime_139 : Nat.Prime 139 := by norm_num

theorem prime_179 : Nat.Prime 179 := by norm_num

theorem prime_223 : Nat.Prime 223 := by norm_num

theorem prime_431 : Nat.Prime 431 := by norm_num

theorem prime_557 : Nat.Prime 557 := by norm_num

theorem prime_577 : Nat.Prime 577 := by norm_num

theorem prime_661 : Nat.Prime 661 := by norm_num

theorem prime_853 : Nat.Prime 853 := by norm_num

theorem prime_1193 : Nat.Prime 1193 := by norm_num

theorem prime_1327 : Nat.Prime 1327 := by norm_num

theorem prime_1637 : Nat.Prime 1637 := by norm_num

theorem prime_6871 : Nat.Prime 6871 := by norm_num

theorem prime_15053 : Nat.Prime 15053 := by norm_num

theorem prime_18329 : Nat.Prime 18329 := by norm_num

theorem prime_19441 : Nat.Prime 19441 := by norm_num

theorem prime_26647 : Nat.Prime 26647 := by norm_num

theorem prime_49411 : Nat.Prime 49411 := by norm_num

theorem prime_93001 : Nat.Prime 93001 := by norm_num

theorem prime_110573 : Nat.Prime 110573 := by norm_num

theorem prime_390791 : Nat.Prime 390791 := by norm_num

theorem prime_597593 : Nat.Prime 597593 := by norm_num

theorem prime_609743 : Nat.Prime 609743 := by norm_num

theorem prime_906349 : Nat.Prime 906349 := by norm_num

theorem prime_2508409 : Nat.Prime 2508409 :=
  pocklington 2 [79, 7, 7] (by
    intro x hx
    simp only [List.mem_cons, List.not_mem_nil, or_false] at hx
    rcases hx with rfl | rfl | rfl
    · exact prime_79
    · exact prime_7
    · exact prime_7) (by decide +kernel)

theorem prime_2529403 : Nat.Prime 2529403 :=
  pocklington 2 [18329] (by
    intro x hx
    rw [List.mem_singleton.1 hx]; exact prime_18329) (by decide +kernel)

theorem prime_2653753 : Nat.Prime 2653753 :=
  pocklington 2 [110573] (by
    intro x hx
    rw [List.mem_singleton.1 hx]; exact prime_110573) (by decide +kernel)

theorem prime_7238773 : Nat.Prime 7238773 :=
  pocklington 2 [557, 19] (by
    intro x hx
    simp only [List.mem_cons, List.not_mem_nil, or_false] at hx
    rcases hx with rfl | rfl
    · exact prime_557
    · exact prime_19) (by decide +kernel)

theorem prime_28955093 : Nat.Prime 28955093 :=
  pocklington 2 [7238773] (by
    intro x hx
    rw [List.mem_singleton.1 hx]; exact prime_7238773) (by decide +kernel)

theorem prime_52437899 : Nat.Prime 52437899 :=
  pocklington 2 [609743] (by
    intro x hx
    rw [List.mem_singleton.1 hx]; exact prime_609743) (by decide +kernel)

theorem prime_63690073 : Nat.Prime 63690073 :=
  pocklington 2 [2653753] (by
    intro x hx
    rw [List.mem_singleton.1 hx]; exact prime_2653753) (by decide +kernel)

theorem prime_84387119 : Nat.Prime 84387119 :=
  pocklington 2 [15053] (by
    intro x hx
    rw [List.mem_singleton.1 hx]; exact prime_15053) (by decide +kernel)

theorem prime_254760293 : Nat.Prime 254760293 :=
  pocklington 2 [63690073] (by
    intro x hx
    rw [List.mem_singleton.1 hx]; exact prime_63690073) (by decide +kernel)

theorem prime_278589361 : Nat.Prime 278589361 :=
  pocklington 2 [1193, 139] (by
    intro x hx
    simp only [List.mem_cons, List.not_mem_nil, or_false] at hx
    rcases hx with rfl | rfl
    · exact prime_1193
    · exact prime_139) (by decide +kernel)

theorem prime_639533339 : Nat.Prime 639533339 :=
  pocklington 2 [1637, 853] (by
    intro x hx
    simp only [List.mem_cons, List.not_mem_nil, or_false] at hx
    rcases hx with rfl | rfl
    · exact prime_1637
    · exact prime_853) (by decide +kernel)

theorem prime_12048837557 : Nat.Prime 12048837557 :=
  pocklington 2 [93001, 661] (by
    intro x hx
    simp only [List.mem_cons, List.not_mem_nil, or_false] at hx
    rcases hx with rfl | rfl
    · exact prime_93001
    · exact prime_661) (by decide +kernel)

theorem prime_15901472849 : Nat.Prime 15901472849 :=
  pocklington 2 [6871, 1327] (by
    intro x hx
    simp only [List.mem_cons, List.not_mem_nil, or_false] at hx
    rcases hx with rfl | rfl
    · exact prime_6871
    · exact prime_1327) (by decide +kernel)

theorem prime_820411570919 : Nat.Prime 820411570919 :=
  pocklington 2 [84387119] (by
    intro x hx
    rw [List.mem_singleton.1 hx]; exact prime_84387119) (by decide +kernel)

theorem prime_5156902474397 : Nat.Prime 5156902474397 :=
  pocklington 2 [12048837557] (by
    intro x hx
    rw [List.mem_singleton.1 hx]; exact prime_12048837557) (by decide +kernel)

theorem prime_16902042922351 : Nat.Prime 16902042922351 :=
  pocklington 2 [390791, 431] (by
    intro x hx
    simp only [List.mem_cons, List.not_mem_nil, or_false] at hx
    rcases hx with rfl | rfl
    · exact prime_390791
    · exact prime_431) (by decide +kernel)

theorem prime_32365871172251 : Nat.Prime 32365871172251 :=
  pocklington 2 [577, 223, 179] (by
    intro x hx
    simp only [List.mem_cons, List.not_mem_nil, or_false] at hx
    rcases hx with rfl | rfl | rfl
    · exact prime_577
    · exact prime_223
    · exact prime_179) (by decide +kernel)

theorem prime_47248110014797 : Nat.Prime 47248110014797 :=
  pocklington 2 [28955093] (by
    intro x hx
    rw [List.mem_singleton.1 hx]; exact prime_28955093) (by decide +kernel)

theorem prime_63177380930137 : Nat.Prime 63177380930137 :=
  pocklington 2 [278589361] (by
    intro x hx
    rw [List.mem_singleton.1 hx]; exact prime_278589361) (by decide +kernel)

theorem prime_194780710125271 : Nat.Prime 194780710125271 :=
  pocklington 2 [49411, 19441] (by
    intro x hx
    simp only [List.mem_cons, List.not_mem_nil, or_false] at hx
    rcases hx with rfl | rfl
    · exact prime_49411
    · exact prime_19441) (by decide +kernel)

theorem prime_388390454067013 : Nat.Prime 388390454067013 :=
  pocklington 2 [32365871172251] (by
    intro x hx
    rw [List.mem_singleton.1 hx]; exact prime_32365871172251) (by decide +kernel)

theorem prime_1670836401704629 : Nat.Prime 1670836401704629 :=
  pocklington 2 [5156902474397] (by
    intro x hx
    rw [List.mem_singleton.1 hx]; exact prime_5156902474397) (by decide +kernel)

theorem prime_2173413060680663 : Nat.Prime 2173413060680663 :=
  pocklington 2 [47248110014797] (by
    intro x hx
    rw [List.mem_singleton.1 hx]; exact prime_47248110014797) (by decide +kernel)

theorem prime_65865678001877903 : Nat.Prime 65865678001877903 :=
  pocklington 2 [639533339] (by
    intro x hx
    rw [List.mem_singleton.1 hx]; exact prime_639533339) (by decide +kernel)

theorem prime_73779548989605253 : Nat.Prime 73779548989605253 :=
  pocklington 2 [597593, 26647] (by
    intro x hx
    simp only [List.mem_cons, List.not_mem_nil, or_false] at hx
    rcases hx with rfl | rfl
    · exact prime_597593
    · exact prime_26647) (by decide +kernel)

theorem prime_350605278225487801 : Nat.Prime 350605278225487801 :=
  pocklington 2 [194780710125271] (by
    intro x hx
    rw [List.mem_singleton.1 hx]; exact prime_194780710125271) (by decide +kernel)

theorem prime_big_28011117 : Nat.Prime 508427015291575028011117 :=
  pocklington 2 [63177380930137] (by
    intro x hx
    rw [List.mem_singleton.1 hx]; exact prime_63177380930137) (by decide +kernel)

theorem prime_big_785002799 : Nat.Prime 156083864923250991785002799 :=
  pocklington 2 [73779548989605253] (by
    intro x hx
    rw [List.mem_singleton.1 hx]; exact prime_73779548989605253) (by decide +kernel)

theorem prime_big_469338081 : Nat.Prime 13818364434197438864469338081 :=
  pocklington 2 [65865678001877903] (by
    intro x hx
    rw [List.mem_singleton.1 hx]; exact prime_65865678001877903) (by decide +kernel)

theorem prime_big_172366171 : Nat.Prime 1390531981722550240790289364172366171 :=
  pocklington 2 [388390454067013, 15901472849] (by
    intro x hx
    simp only [List.mem_cons, List.not_mem_nil, or_false] at hx
    rcases hx with rfl | rfl
    · exact prime_388390454067013
    · exact prime_15901472849) (by decide +kernel)

theorem prime_big_929463819 : Nat.Prime 2696004397602955738648534912929463819 :=
  pocklington 2 [350605278225487801, 820411570919] (by
    intro x hx
    simp only [List.mem_cons, List.not_mem_nil, or_false] at hx
    rcases hx with rfl | rfl
    · exact prime_350605278225487801
    · exact prime_820411570919) (by decide +kernel)

theorem prime_big_335110909 : Nat.Prime 64406061401325646461747376276669182911234205142335110909 :=
  quad_certificate 2 (64406061401325646461747376276669182911234205142335110906, 64406061401325646461747376276669182911234205142335110907) [1390531981722550240790289364172366171] (by
    intro x hx
    rw [List.mem_singleton.1 hx]; exact prime_big_172366171) (by decide +kernel)

theorem prime_altbn128_r : Nat.Prime 21888242871839275222246405745257275088548364400416034343698204186575808495617 :=
  pocklington 2 [13818364434197438864469338081, 1670836401704629] (by
    intro x hx
    simp only [List.mem_cons, List.not_mem_nil, or_false] at hx
    rcases hx with rfl | rfl
    · exact prime_big_469338081
    · exact prime_1670836401704629) (by decide +kernel)

theorem prime_pallas_p : Nat.Prime 28948022309329048855892746252171976963363056481941560715954676764349967630337 :=
  quad_certificate 5 (14474011154664524427946373126085988481681528240970780357977338382174983815167, 14474011154664524427946373126085988481681528240970780357977338382174983815168) [64406061401325646461747376276669182911234205142335110909] (by
    intro x hx
    rw [List.mem_singleton.1 hx]; exact prime_big_335110909) (by decide +kernel)

theorem prime_vesta_p : Nat.Prime 28948022309329048855892746252171976963363056481941647379679742748393362948097 :=
  quad_certificate 5 (14474011154664524427946373126085988481681528240970823689839871374196681474047, 14474011154664524427946373126085988481681528240970823689839871374196681474048) [2696004397602955738648534912929463819, 508427015291575028011117] (by
    intro x hx
    simp only [List.mem_cons, List.not_mem_nil, or_false] at hx
    rcases hx with rfl | rfl
    · exact prime_big_929463819
    · exact prime_big_28011117) (by decide +kernel)

theorem prime_bls12381_r : Nat.Prime 52435875175126190479447740508185965837690552500527637822603658699938581184513 :=
  pocklington 2 [254760293, 254760293, 52437899, 2529403, 2508409, 906349] (by
    intro x hx
    simp only [List.mem_cons, List.not_mem_nil, or_false] at hx
    rcases hx with rfl | rfl | rfl | rfl | rfl | rfl
    · exact prime_254760293
    · exact prime_254760293
    · exact prime_52437899
    · exact prime_2529403
    · exact prime_2508409
    · exact prime_906349) (by decide +kernel)

theorem prime_big_572867063 : Nat.Prime 307202528959414010196955747273574637769335820764971303266458398669801375004184727427572867063 :=
  quad_certificate 5 (153601264479707005098477873636787318884667910382485651633229199334900687502092363713786433530, 153601264479707005098477873636787318884667910382485651633229199334900687502092363713786433531) [156083864923250991785002799, 2173413060680663, 16902042922351] (by
    intro x hx
    simp only [List.mem_cons, List.not_mem_nil, or_false] at hx
    rcases hx with rfl | rfl | rfl
    · exact prime_big_785002799
    · exact prime_2173413060680663
    · exact prime_16902042922351) (by decide +kernel)

theorem prime_big_471317109 : Nat.Prime 845817742016413227687614079825846186930871263723374447449716427752331287085975880059739566595311847852471317109 :=
  pocklington 2 [307202528959414010196955747273574637769335820764971303266458398669801375004184727427572867063] (by
    intro x hx
    rw [List.mem_singleton.1 hx]; exact prime_big_572867063) (by decide +kernel)

theorem prime_bls12381_p : Nat.Prime 4002409555221667393417789825735904156556882819939007885332058136124031650490837864442687629129015664037894272559787 :=
  quad_certificate 2 (4002409555221667393417789825735904156556882819939007885332058136124031650490837864442687629129015664037894272559784, 4002409555221667393417789825735904156556882819939007885332058136124031650490837864442687629129015664037894272559785) [845817742016413227687614079825846186930871263723374447449716427752331287085975880059739566595311847852471317109] (by
    intro x hx
    rw [List.mem_singleton.1 hx]; exact prime_big_471317109) (by decide +kernel)

end Verif
