import Mathlib.Tactic.IntervalCases
import Verif.Props.Sponge
import Verif.Model.KeccakSelect
import Verif.Proof.KeccakX86
import Verif.Proof.KeccakArmv8
import Verif.Proof.KeccakAvx2
import Verif.Proof.KeccakAvx512
import Verif.Props.Keccak
/- C70-C75: the assembly versions of the Keccak permutation and the choice between them. -/
namespace Verif.Props

open Spec

/-- C70: the x86-64 version leaves KECCAK-p[1600, 24] of FIPS 202 in the state array, whatever the registers
and the local arrays hold at the start, without an access outside the four arrays; the loop body runs 24
times (the pointer to the constants advances by eight bytes each time). -/
theorem C70_x86_64_is_fips202 (fuel : Nat) (hf : 24 ≤ fuel) (regs B C : List (BitVec 64)) (hr : regs.length = 16)
    (hB : B.length = 25) (hC : C.length = 10) (A : Lanes) :
    ∃ (m : X86.Machine (BitVec 64)) (R : Lanes), X86.run fuel regs B C A = some m ∧ m.A = R.toList ∧
      R.array = Keccak.permutation A.array ∧ m.pos = 8 * 24 := by
  obtain ⟨m, e, h, _, _, hp, _⟩ := X86.run_eq fuel hf regs B C hr hB hC A
  exact ⟨m, keccakPermute A, e, h, C21_permutation_is_fips202 A, hp⟩

/-- The first lane of the zero state after a run on a machine whose registers and arrays are not zero. -/
example : ∃ m, X86.run 24 ((List.range 16).map (BitVec.ofNat 64)) (List.replicate 25 7) (List.replicate 10 9)
    (Vector.replicate 25 0) = some m ∧ m.A[0]? = some 0xF1258F7940E1DDE7#64 := by
  obtain ⟨m, e, h, _⟩ := X86.run_eq 24 (le_refl _) ((List.range 16).map (BitVec.ofNat 64)) (List.replicate 25 7)
    (List.replicate 10 9) (by decide) (by decide) (by decide) (Vector.replicate 25 0)
  exact ⟨m, e, by rw [h]; decide +kernel⟩

/-- C71: the ARMv8 version leaves KECCAK-p[1600, 24] of FIPS 202 in the state array, whatever the registers and
the words below the stack pointer hold at the start, using four words of the stack; the stack pointer is
restored. -/
theorem C71_armv8_is_fips202 (regs stack : List (BitVec 64)) (hr : regs.length = 31) (hs : stack.length = 4)
    (A : Lanes) : ∃ (m : Armv8.Machine (BitVec 64)) (R : Lanes), Armv8.run regs stack A = some m ∧
      m.A = R.toList ∧ R.array = Keccak.permutation A.array ∧ m.sp = 0 := by
  obtain ⟨m, e, h, sp, _⟩ := Armv8.run_eq regs stack hr hs A
  exact ⟨m, keccakPermute A, e, h, C21_permutation_is_fips202 A, sp⟩

example : ∃ m, Armv8.run ((List.range 31).map (BitVec.ofNat 64)) [1, 2, 3, 4] (Vector.replicate 25 0) = some m ∧
    m.A[0]? = some 0xF1258F7940E1DDE7#64 := by
  obtain ⟨m, e, h, _⟩ := Armv8.run_eq ((List.range 31).map (BitVec.ofNat 64)) [1, 2, 3, 4] (by decide) (by decide)
    (Vector.replicate 25 0)
  exact ⟨m, e, by rw [h]; decide +kernel⟩

/-- C72: the AVX2 version computes KECCAK-p[1600, 24] of FIPS 202, whatever the registers `ymm7`..`ymm15` hold
at the start, provided that the loop counter is 24 (see C74 for the counter). -/
theorem C72_avx2_is_fips202 (fuel : Nat) (hf : 24 ≤ fuel) (rest : List (Avx2.V4 (BitVec 64)))
    (hr : rest.length = 9) (A : Lanes) :
    ∃ R : Lanes, Avx2.run fuel rest A = some R.toList ∧ R.array = Keccak.permutation A.array :=
  ⟨keccakPermute A, Avx2.run_eq fuel hf rest hr A, C21_permutation_is_fips202 A⟩

example : ((Avx2.run 24 (List.replicate 9 ⟨1, 2, 3, 4⟩) (Vector.replicate 25 0)).map fun l => l[0]?) =
    some (some 0xF1258F7940E1DDE7#64) := by decide +kernel

/-- C73: two states that agree in the lanes with `x < 2` have the same result in the AVX-512 version, whatever the mask
registers hold. -/
theorem C73_avx512_ignores_lanes (k : Nat → List Bool) (fuel : Nat) (rest : List (List (BitVec 64)))
    (A A' : Lanes) (h : ∀ i (hi : i < 25), i % 5 < 2 → A[i] = A'[i]) :
    Avx512.run k fuel rest A = Avx512.run k fuel rest A' := Avx512.run_low k fuel rest A A' h

/-- Two different states with this property. -/
example : (Vector.replicate 25 0 : Lanes) ≠ (Vector.replicate 25 0).set 2 1 ∧
    ∀ i (hi : i < 25), i % 5 < 2 → (Vector.replicate 25 0 : Lanes)[i] = ((Vector.replicate 25 0).set 2 1 : Lanes)[i] := by
  decide

/-- C73 is false: whatever the mask registers and the other registers hold, the AVX-512 version differs from Keccak-f on some state. -/
theorem C73_avx512_false (k : Nat → List Bool) (fuel : Nat) (rest : List (List (BitVec 64))) :
    ¬ ∀ A : Lanes, ∃ R : Lanes, Avx512.run k fuel rest A = some R.toList ∧
      R.array = Keccak.permutation A.array := by
  intro h
  have key : ∀ A : Lanes, Avx512.run k fuel rest A = some (keccakPermute A).toList := by
    intro A
    obtain ⟨R, e, hR⟩ := h A
    rw [e, show R = keccakPermute A from ?_]
    have hh := hR.trans (C21_permutation_is_fips202 A).symm
    apply Vector.ext
    intro i hi
    apply BitVec.eq_of_getLsbD_eq
    intro z hz
    have := congrFun (congrFun (congrFun hh ⟨i % 5, Nat.mod_lt _ (by omega)⟩) ⟨i / 5, by omega⟩) ⟨z, hz⟩
    have e : 5 * (i / 5) + i % 5 = i := by omega
    rw [BitVec.getLsbD_eq_getElem hz, BitVec.getLsbD_eq_getElem hz]
    simpa [Lanes.array, e] using this
  have e := C73_avx512_ignores_lanes k fuel rest (Vector.replicate 25 0) ((Vector.replicate 25 0).set 2 1) (by decide)
  rw [key, key] at e
  have e2 := Vector.toList_inj.1 (Option.some.inj e)
  have := C22_permutation_bijective.1 e2
  revert this
  decide

/-- C73, the part that holds: if the lanes were loaded into elements 0-4 and the mask registers held 1, 2, 4, 8,
16 the loop would compute Keccak-f. Missing: the function loads the lanes into elements 3-7 and sets no mask. -/
theorem C73_avx512_partial (fuel : Nat) (hf : 12 ≤ fuel) (A : Lanes) (top : List (BitVec 64)) (ht : top.length = 3)
    (rest : List (List (BitVec 64))) (hr : rest.map List.length = List.replicate 8 8) :
    ∃ R : Lanes, Avx512.finish Avx512.masksRight fuel
        (Avx512.packRight (fun i => A.toList.getD i 0) top ++ rest) = some R.toList ∧
      R.array = Keccak.permutation A.array :=
  ⟨keccakPermute A, Avx512.finish_right fuel hf A top ht rest hr, C21_permutation_is_fips202 A⟩

example : ((Avx512.finish Avx512.masksRight 12 (Avx512.packRight (fun _ => 0) [1, 2, 3] ++
    List.replicate 8 [1, 2, 3, 4, 5, 6, 7, 8])).map fun l => l[0]?) = some (some 0xF1258F7940E1DDE7#64) := by
  decide +kernel

/-- C73, where the lanes go: element `x + 3` of register `y` holds lane `5y + x`, elements 0-2 are zero. -/
theorem C73_avx512_layout (a : Nat → BitVec 64) (y x : Nat) (hy : y < 5) (hx : x < 5) :
    (Avx512.pack a).length = 5 ∧ (Avx512.pack a)[y]?.map List.length = some 8 ∧
    ((Avx512.pack a)[y]?).bind (·[x + 3]?) = some (a (5 * y + x)) ∧
    (x < 3 → ((Avx512.pack a)[y]?).bind (·[x]?) = some 0) := by
  interval_cases y <;> interval_cases x <;> exact ⟨rfl, rfl, rfl, by first | exact fun _ => rfl | (intro h; omega)⟩

/-- Lane 23 is element 6 of register 4. -/
example (a : Nat → BitVec 64) : ((Avx512.pack a)[4]?).bind (·[6]?) = some (a 23) :=
  (C73_avx512_layout a 4 3 (by decide) (by decide)).2.2.1

/-- C73, what the version computes: even with the masks that the algorithm needs, Keccak-f of the state whose
lanes are moved three columns to the right, the lanes with `x ≥ 2` being lost and the first three columns zero. -/
theorem C73_avx512_computes (fuel : Nat) (hf : 12 ≤ fuel) (A : Lanes) (rest : List (List (BitVec 64)))
    (hr : rest.map List.length = List.replicate 8 8) :
    ∃ S R : Lanes, Avx512.run Avx512.masksRight fuel rest A = some R.toList ∧
      R.array = Keccak.permutation S.array ∧
      ∀ i (hi : i < 25), S[i] = if i % 5 < 3 then 0#64 else A[i - 3] := by
  refine ⟨Avx512.loaded A, keccakPermute (Avx512.loaded A), Avx512.finish_shape fuel hf _ _ (Avx512.shape_pack A rest hr),
    C21_permutation_is_fips202 _, fun i hi => ?_⟩
  simp [Avx512.loaded]

example : ∃ S R : Lanes, Avx512.run Avx512.masksRight 12 (List.replicate 8 [1, 2, 3, 4, 5, 6, 7, 8])
    ((Vector.replicate 25 0).set 1 7) = some R.toList ∧ R.array = Keccak.permutation S.array ∧ S[4] = 7 := by
  obtain ⟨S, R, h1, h2, h3⟩ := C73_avx512_computes 12 (by decide) ((Vector.replicate 25 0).set 1 7)
    (List.replicate 8 [1, 2, 3, 4, 5, 6, 7, 8]) (by decide)
  exact ⟨S, R, h1, h2, by rw [h3 4 (by decide)]; decide⟩

/-- With the layout of the code and the right masks the zero state is still permuted correctly (all lanes are
equal), but the state with lane 2 set is not. -/
example : Avx512.run Avx512.masksRight 12 (List.replicate 8 [1, 2, 3, 4, 5, 6, 7, 8]) ((Vector.replicate 25 0).set 2 1) ≠
    some (keccakPermute ((Vector.replicate 25 0).set 2 1)).toList := by decide +kernel

/-- C74, x86-64: a register that is not in the clobber list keeps its value. -/
theorem C74_x86_64_registers_partial (fuel : Nat) (regs B C : List (BitVec 64)) (A : Lanes)
    (m : X86.Machine (BitVec 64)) (h : X86.run fuel regs B C A = some m) (n : Nat) (hn : n ∉ X86.clobbers) :
    m.regs[n]? = regs[n]? := by
  obtain ⟨m1, e1, h⟩ := Option.bind_eq_some_iff.1 h
  have hb : ∀ i ∈ X86.body, i.dest ≠ some (.reg n) := by
    intro i hi
    have : X86.body.all (fun i => match i.dest with
      | some (.reg k) => X86.clobbers.contains k
      | _ => true) = true := by decide +kernel
    have hi := List.all_eq_true.1 this i hi
    intro hd
    rw [hd] at hi
    exact hn (by simpa using hi)
  rw [X86.loop_regs n hb fuel m1 m h]
  have h13 : n ≠ 13 := by
    intro h
    subst h
    exact hn (by decide)
  exact (X86.step_frame e1).2.2 n (by intro he; exact h13 (by cases he; rfl))

/-- C74 is false of the x86-64 version: `[c]` is declared as an input operand only, but its register is moved 192 bytes
further. -/
theorem C74_x86_64_operand_false (fuel : Nat) (hf : 24 ≤ fuel) (regs B C : List (BitVec 64)) (hr : regs.length = 16)
    (hB : B.length = 25) (hC : C.length = 10) (A : Lanes) :
    ∃ m, X86.run fuel regs B C A = some m ∧ m.pos ≠ 0 := by
  obtain ⟨m, e, _, _, _, hp, _⟩ := X86.run_eq fuel hf regs B C hr hB hC A
  exact ⟨m, e, by omega⟩

/-- C74, ARMv8: every register that is not in the clobber list keeps its value, and the stack pointer its own. -/
theorem C74_armv8_registers (regs stack : List (BitVec 64)) (hr : regs.length = 31) (hs : stack.length = 4)
    (A : Lanes) (m : Armv8.Machine (BitVec 64)) (h : Armv8.run regs stack A = some m) (n : Nat)
    (hn : n ∉ Armv8.clobbers) : m.regs[n]? = regs[n]? ∧ m.sp = 0 := by
  refine ⟨?_, ?_⟩
  · refine Armv8.exec_frame Armv8.program h n fun i hi hd => hn ?_
    have := List.all_eq_true.1 (List.all_eq_true.1 Armv8.program_dests i hi) n hd
    simpa using this
  · obtain ⟨m', e, _, sp, _⟩ := Armv8.run_eq regs stack hr hs A
    rw [e] at h
    cases h
    exact sp

/-- Registers 1, 18 and 29 are such registers (one of them holds the pointer to the state). -/
example : ∀ n ∈ [1, 18, 29], n ∉ Armv8.clobbers := by decide

/-- C74 is false of the AVX2 version: `r8`, `r9`, `r10` are overwritten but not declared. If the compiler puts
the operand `[rounds]` into `r8`, which the clobber list allows, the loop counter is the address of `rho_l`
instead of 24, and for an address above 24 the loop reads beyond the table of constants, whatever the registers hold. -/
theorem C74_avx2_counter_false (rhoL rhoR c : BitVec 64) (g : Nat → BitVec 64) (hL : 24 < rhoL.toNat) :
    8 ∉ Avx2.gprClobbers ∧ Avx2.prologue 8 rhoL rhoR c g 3 = rhoL ∧
    ∀ fuel ymm, Avx2.loop fuel (Avx2.prologue 8 rhoL rhoR c g 3) ⟨ymm, Avx2.constantsV, 0⟩ = none := by
  have e : Avx2.prologue 8 rhoL rhoR c g 3 = rhoL := by simp [Avx2.prologue]
  refine ⟨by decide, e, fun fuel ymm => ?_⟩
  rw [e]
  exact Avx2.loop_past Avx2.constants 24 0 (by decide) fuel rhoL _ hL rfl rfl

example : 24 < (0x7ffff7dd0040 : BitVec 64).toNat := by decide

/-- The same for `r8`, `r9`, `r10` themselves: another value of the program kept in one of them is lost. -/
theorem C74_avx2_registers_false (rounds : Nat) (rhoL rhoR c : BitVec 64) (n : Nat) (hn : n ∈ [8, 9, 10]) :
    n ∉ Avx2.gprClobbers ∧ ∃ g, Avx2.prologue rounds rhoL rhoR c g n ≠ g n := by
  simp only [List.mem_cons, List.not_mem_nil, or_false] at hn
  rcases hn with rfl | rfl | rfl
  · exact ⟨by decide, fun _ => rhoL + 1, by simp [Avx2.prologue]⟩
  · exact ⟨by decide, fun _ => rhoR + 1, by simp [Avx2.prologue]⟩
  · exact ⟨by decide, fun _ => c + 1, by simp [Avx2.prologue]⟩

example : ∃ g, Avx2.prologue 8 0x404020 0x4040e0 0x4041a0 g 9 ≠ g 9 :=
  (C74_avx2_registers_false 8 0x404020 0x4040e0 0x4041a0 9 (by decide)).2

/-- C74, AVX2, the part that holds: if `[rounds]` is in any other register the counter is 24, and every register
that is not declared (`rbx` is) keeps its value but for `r8`, `r9`, `r10`. -/
theorem C74_avx2_partial (rounds : Nat) (rhoL rhoR c : BitVec 64) (g : Nat → BitVec 64)
    (hr : rounds ∉ [8, 9, 10]) (hg : g rounds = 24) :
    Avx2.prologue rounds rhoL rhoR c g 3 = 24 ∧
    ∀ n, n ∉ Avx2.gprClobbers → n ∉ [8, 9, 10] → Avx2.prologue rounds rhoL rhoR c g n = g n := by
  simp only [List.mem_cons, List.not_mem_nil, or_false, not_or] at hr
  refine ⟨by simp [Avx2.prologue, hr, hg], fun n hc hn => ?_⟩
  simp only [Avx2.gprClobbers, List.mem_cons, List.not_mem_nil, or_false, not_or] at hc hn
  simp [Avx2.prologue, hc, hn]

example : Avx2.prologue 0 1000 2000 3000 (fun n => if n = 0 then 24 else 5) 3 = 24 := by decide

open KeccakSelect

/-- C75: in every build other than AVX-512 the version chosen for run time computes the same function as the
version chosen for compile time, whatever the machine holds at the start. -/
theorem C75_builds_agree_partial (b : Build) (hb : implType b ≠ .avx512) (j : Junk) (hj : j.Valid) (A : Lanes) :
    permute j A (implType b) = permute j A (constImplType b) := by
  have key : ∀ i, i ≠ .avx512 → permute j A i = some (keccakPermute A).toList := by
    intro i hi
    cases i with
    | portable => rfl
    | x86_64 =>
      obtain ⟨m, e, h, _⟩ := X86.run_eq 24 (le_refl _) j.regs16 j.B j.C hj.regs16 hj.B hj.C A
      unfold permute
      rw [e, ← h]
      rfl
    | armv8 =>
      obtain ⟨m, e, h, _⟩ := Armv8.run_eq j.regs31 j.stack hj.regs31 hj.stack A
      unfold permute
      rw [e, ← h]
      rfl
    | avx2 => exact Avx2.run_eq 24 (le_refl _) j.ymm hj.ymm A
    | avx512 => exact absurd rfl hi
  rw [key _ hb, key _ (by unfold constImplType; decide)]

/-- C75, the compressor: in these builds `process_block`, at run time as well as at compile time, is the sponge
step with Keccak-f, so that every theorem about the Keccak sponge holds of all of them. -/
theorem C75_processBlock_partial (b : Build) (hb : implType b ≠ .avx512) (constEvaluated : Bool) (j : Junk)
    (hj : j.Valid) (blockBits : Nat) (state : Lanes) (block : Bits) :
    processBlock b constEvaluated j blockBits state block =
      some (spongeCompress keccakPermute blockBits state block) := by
  have e : ∀ A, permute j A (if constEvaluated then constImplType b else implType b) =
      some (keccakPermute A).toList := by
    intro A
    cases constEvaluated
    · exact (C75_builds_agree_partial b hb j hj A)
    · rfl
  unfold processBlock spongeCompress
  simp only [e, Option.bind_some]
  rw [dif_pos (by simp)]
  rfl

/-- The permutation that a build calls; `j A` is what the machine holds when it is called on the state `A`. -/
def buildPermute (b : Build) (constEvaluated : Bool) (j : Lanes → Junk) (A : Lanes) : Lanes :=
  match permute (j A) A (if constEvaluated then constImplType b else implType b) with
  | some l => if h : l.length = 25 then ⟨l.toArray, by simpa using h⟩ else A
  | none => A

/-- C75, the digest: in these builds `hash<keccak_1600<d>>(bytes)` is the Keccak digest of the byte string. -/
theorem C75_digest_partial (b : Build) (hb : implType b ≠ .avx512) (constEvaluated : Bool) (j : Lanes → Junk)
    (hj : ∀ A, (j A).Valid) {d : Nat} (S : SpongeSize d) (JP J : Injector) (garbage : Bits)
    (hgb : garbage.length = spongeBlockBits d) (kind : RangeKind) (cache0 bytes : List Nat)
    (hc : cache0.length = spongeBlockBits d / 8) (hlen : bytes.length < 2 ^ 61) :
    hashOnce (spongeConstruction .keccak (buildPermute b constEvaluated j) d JP) J (wordElem bigOctetBigBit 8) kind
      garbage cache0 bytes = .ok (octetBits (keccakFips d (fipsBits bytes))) := by
  have e : buildPermute b constEvaluated j = keccakPermute := by
    funext A
    have : permute (j A) A (if constEvaluated then constImplType b else implType b) =
        some (keccakPermute A).toList := by
      cases constEvaluated
      · exact C75_builds_agree_partial b hb (j A) (hj A) A
      · rfl
    unfold buildPermute
    rw [this]
    simp only
    rw [dif_pos (by simp)]
    rfl
  rw [e]
  exact C05_keccak_full JP J S garbage hgb kind cache0 bytes hc hlen

/-- The builds meant: all but 64-bit x86 with `CRYPTO3_HAS_AVX512`. -/
theorem C75_builds (b : Build) : implType b = .avx512 ↔ b.arch = .x86_64 ∧ b.avx512 = true := by
  rcases b with ⟨a, b5, b2⟩
  cases a with
  | x86_64 => cases b5 <;> cases b2 <;> simp [implType]
  | arm v => by_cases h : 8 ≤ v <;> simp [implType, h]
  | other => simp [implType]

/-- C75 is false of the AVX-512 build: whatever the machine holds, run time and compile time differ on some state. -/
theorem C75_avx512_false (b : Build) (hb : implType b = .avx512) (j : Junk) :
    ∃ A, permute j A (implType b) ≠ permute j A (constImplType b) := by
  by_contra h
  simp only [not_exists, not_not] at h
  rw [hb] at h
  exact C73_avx512_false j.masks 24 j.zmm fun A => ⟨keccakPermute A, h A, C21_permutation_is_fips202 A⟩

example : implType ⟨.x86_64, true, true⟩ = .avx512 ∧ implType ⟨.x86_64, false, true⟩ = .avx2 ∧
    implType ⟨.x86_64, false, false⟩ = .x86_64 ∧ implType ⟨.arm 8, false, false⟩ = .armv8 ∧
    implType ⟨.arm 7, false, false⟩ = .portable ∧ implType ⟨.other, true, true⟩ = .portable := by decide

/-- A machine that meets the hypotheses. -/
example : (⟨List.replicate 16 1, List.replicate 25 2, List.replicate 10 3, List.replicate 31 4, List.replicate 4 5,
    List.replicate 9 ⟨1, 2, 3, 4⟩, List.replicate 8 (List.replicate 8 6), fun _ => []⟩ : Junk).Valid :=
  ⟨rfl, rfl, rfl, rfl, rfl, rfl, rfl⟩

/-- `C75_digest_partial` on such a machine: the AVX2 build at run time, three bytes. -/
example : hashOnce (spongeConstruction .keccak (buildPermute ⟨.x86_64, false, true⟩ false fun _ =>
      ⟨List.replicate 16 1, List.replicate 25 2, List.replicate 10 3, List.replicate 31 4, List.replicate 4 5,
        List.replicate 9 ⟨1, 2, 3, 4⟩, List.replicate 8 (List.replicate 8 6), fun _ => []⟩) 256 spliceInjector)
      clearingInjector (wordElem bigOctetBigBit 8) .container (List.replicate 1088 true) (List.replicate 136 7)
      [97, 98, 99] = .ok (octetBits (keccakFips 256 (fipsBits [97, 98, 99]))) :=
  C75_digest_partial _ (by decide) _ _ (fun _ => ⟨rfl, rfl, rfl, rfl, rfl, rfl, rfl⟩) sizes.2.1 _ _ _
    List.length_replicate _ _ _ List.length_replicate (by decide)

/-- General register 14 is outside the clobber list of the x86_64 block. -/
example : ∃ m, X86.run 24 ((List.range 16).map (BitVec.ofNat 64)) (List.replicate 25 7) (List.replicate 10 9)
    (Vector.replicate 25 0) = some m ∧ m.regs[14]? = some 14 ∧ m.pos ≠ 0 := by
  obtain ⟨m, e, h⟩ := C74_x86_64_operand_false 24 (le_refl _) ((List.range 16).map (BitVec.ofNat 64))
    (List.replicate 25 7) (List.replicate 10 9) (by decide) (by decide) (by decide) (Vector.replicate 25 0)
  exact ⟨m, e, (C74_x86_64_registers_partial 24 _ _ _ _ m e 14 (by decide)).trans (by decide), h⟩

/-- An x86_64 build without AVX: the assembly and the constant-evaluated code give the same state. -/
example (A : Lanes) (constEvaluated : Bool) (block : Bits) :=
  let j : Junk := ⟨List.replicate 16 1, List.replicate 25 2, List.replicate 10 3, List.replicate 31 4,
    List.replicate 4 5, List.replicate 9 ⟨1, 2, 3, 4⟩, List.replicate 8 (List.replicate 8 6), fun _ => []⟩
  And.intro (C75_builds_agree_partial ⟨.x86_64, false, false⟩ (by decide) j ⟨rfl, rfl, rfl, rfl, rfl, rfl, rfl⟩ A)
    (C75_processBlock_partial ⟨.x86_64, false, true⟩ (by decide) constEvaluated j ⟨rfl, rfl, rfl, rfl, rfl, rfl, rfl⟩
      1088 A block)

end Verif.Props
