import Verif.Proof.Primes
/- Primality certificate (kernel-checked) for the order of the prime-order subgroup of Jubjub. -/
namespace Verif

theorem prime_43 : Nat.Prime 43 := by norm_num

theorem prime_1571 : Nat.Prime 1571 := by norm_num

theorem prime_2837227 : Nat.Prime 2837227 :=
  pocklington 2 [1571, 43] (by
    intro x hx
    simp only [List.mem_cons, List.not_mem_nil, or_false] at hx
    rcases hx with rfl | rfl
    · exact prime_1571
    · exact prime_43) (by decide +kernel)

theorem prime_187256983 : Nat.Prime 187256983 :=
  pocklington 2 [2837227] (by
    intro x hx
    rw [List.mem_singleton.1 hx]; exact prime_2837227) (by decide +kernel)

theorem prime_2567293236931 : Nat.Prime 2567293236931 :=
  pocklington 2 [187256983] (by
    intro x hx
    rw [List.mem_singleton.1 hx]; exact prime_187256983) (by decide +kernel)

theorem prime_431305263804409 : Nat.Prime 431305263804409 :=
  pocklington 2 [2567293236931] (by
    intro x hx
    rw [List.mem_singleton.1 hx]; exact prime_2567293236931) (by decide +kernel)

theorem prime_203928654140967434528233 : Nat.Prime 203928654140967434528233 :=
  pocklington 2 [431305263804409] (by
    intro x hx
    rw [List.mem_singleton.1 hx]; exact prime_431305263804409) (by decide +kernel)

theorem prime_567097 : Nat.Prime 567097 := by norm_num

theorem prime_62701 : Nat.Prime 62701 := by norm_num

theorem prime_16356472538621 : Nat.Prime 16356472538621 :=
  pocklington 2 [567097, 62701] (by
    intro x hx
    simp only [List.mem_cons, List.not_mem_nil, or_false] at hx
    rcases hx with rfl | rfl
    · exact prime_567097
    · exact prime_62701) (by decide +kernel)

theorem prime_623312455501769069 : Nat.Prime 623312455501769069 :=
  pocklington 2 [16356472538621] (by
    intro x hx
    rw [List.mem_singleton.1 hx]; exact prime_16356472538621) (by decide +kernel)

theorem prime_255074062430788457494141376149 : Nat.Prime 255074062430788457494141376149 :=
  pocklington 2 [623312455501769069] (by
    intro x hx
    rw [List.mem_singleton.1 hx]; exact prime_623312455501769069) (by decide +kernel)

theorem prime_jubjub : Nat.Prime 6554484396890773809930967563523245729705921265872317281365359162392183254199 :=
  pocklington 2 [255074062430788457494141376149, 203928654140967434528233] (by
    intro x hx
    simp only [List.mem_cons, List.not_mem_nil, or_false] at hx
    rcases hx with rfl | rfl
    · exact prime_255074062430788457494141376149
    · exact prime_203928654140967434528233) (by decide +kernel)

end Verif
