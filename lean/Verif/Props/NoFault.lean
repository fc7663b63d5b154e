import Verif.Props.Sponge
import Verif.Props.Blake2b
import Verif.Props.MerkleDamgard2
/-
C13 without a bound on the message, for the sponge hashes and BLAKE2b: also after the bit counter has wrapped around.
-/
namespace Verif.Props

open Spec

section
variable {σ δ : Type}

/-- The buffer has its size, and the wrapped bit counter agrees with the bits fed modulo `t`. -/
def Sized (C : Construction σ δ) (t : Nat) (a : Acc σ) (m : Bits) : Prop :=
  a.cache.length = C.blockBits ∧ a.total % t = m.length % t

theorem wrap64_mod {t : Nat} (ht : t ∣ 2 ^ 64) (n : Nat) : wrap64 n % t = n % t := Nat.mod_mod_of_dvd n ht

theorem sized_flush {C : Construction σ δ} {t : Nat} {a : Acc σ} {m : Bits} (h : Sized C t a m) :
    Sized C t (a.flush C) m := by
  unfold Acc.flush
  split
  · exact h
  · exact h

theorem sized_append {C : Construction σ δ} {J : Injector} {t : Nat} (ht : t ∣ 2 ^ 64) (hB : 0 < C.blockBits) {a : Acc σ}
    {m value : Bits} {bits : Nat} (h : Sized C t a m) (hb : bits ≤ C.blockBits) (hv : value.length = C.blockBits) :
    ∃ a', a.append C J value bits = .ok a' ∧ Sized C t a' (m ++ value.take bits) := by
  obtain ⟨hc, htot⟩ := h
  have hlt := Nat.mod_lt a.total hB
  have hl : (m ++ value.take bits).length = m.length + bits := by
    rw [List.length_append, List.length_take, hv, Nat.min_eq_left hb]
  have hadd : ∀ n, (a.total + n) % t = (m.length + n) % t := fun n => by
    rw [Nat.add_mod, htot, ← Nat.add_mod]
  unfold Acc.append
  simp only
  generalize hnew : (if C.blockBits - a.total % C.blockBits > bits then bits else C.blockBits - a.total % C.blockBits) = new
  have hn1 : new ≤ bits := by rw [← hnew]; split <;> omega
  have hn2 : a.total % C.blockBits + new ≤ C.blockBits := by rw [← hnew]; split <;> omega
  have hn3 : new < bits → a.total % C.blockBits + new = C.blockBits := by rw [← hnew]; split <;> omega
  rw [J.run_ok (by omega) (by omega)]
  have hlen := J.length_inject value new a.cache (a.total % C.blockBits) 0 (by omega) (by omega)
  simp only [bind, Except.bind]
  split
  · split
    · rw [J.run_ok (by omega) (by omega)]
      refine ⟨_, rfl, ?_, ?_⟩
      · show (J.inject _ _ _ _ _).length = _
        rw [J.length_inject _ _ _ _ _ (by omega) (by omega), hlen, hc]
      · show wrap64 (wrap64 (a.total + new) + (bits - new)) % t = _
        rw [wrap64_mod ht, Nat.add_mod, wrap64_mod ht, ← Nat.add_mod, hl, Nat.add_assoc, hadd]
        congr 2
        omega
    · refine ⟨_, rfl, hlen.trans hc, ?_⟩
      show wrap64 (a.total + new) % t = _
      rw [wrap64_mod ht, hl, hadd]
      congr 2
      omega
  · refine ⟨_, rfl, hlen.trans hc, ?_⟩
    show wrap64 (a.total + new) % t = _
    rw [wrap64_mod ht, hl, hadd]
    congr 2
    omega

theorem sized_pushes (C : Construction σ δ) (J : Injector) {t : Nat} (ht : t ∣ 2 ^ 64) (hB : 0 < C.blockBits)
    (hw : 0 < C.wordBits) (hwB : C.wordBits ∣ C.blockBits) :
    Pushes (fun a v n => Acc.pushBlock C J a v n) C.blockBits (fun _ => True) (Sized C t) where
  mono _ _ := trivial
  push := by
    intro a m value bits h h0 hb hv _
    unfold Acc.pushBlock
    rw [if_neg (by omega)]
    unfold Acc.processBlockValue
    obtain ⟨hc, htot⟩ := sized_flush h
    have hl : (m ++ value.take bits).length = m.length + bits := by
      rw [List.length_append, List.length_take, hv, Nat.min_eq_left hb]
    have hsum : wrap64 ((a.flush C).total + bits) % t = (m ++ value.take bits).length % t := by
      rw [wrap64_mod ht, Nat.add_mod, htot, ← Nat.add_mod, hl]
    simp only
    split
    · exact sized_append ht hB (sized_flush h) hb hv
    · split
      · exact ⟨_, rfl, hv, hsum⟩
      · have hn : (bits / C.wordBits + (if bits % C.wordBits ≠ 0 then 1 else 0)) * C.wordBits ≤ C.blockBits := by
          obtain ⟨q, hq⟩ := hwB
          have : bits / C.wordBits + (if bits % C.wordBits ≠ 0 then 1 else 0) ≤ q := by
            have hdm := Nat.div_add_mod bits C.wordBits
            have hle : bits / C.wordBits ≤ q := by
              rw [hq] at hb
              exact Nat.div_le_of_le_mul hb
            by_cases h' : bits % C.wordBits = 0
            · simp only [h', ne_eq, not_true_eq_false, if_false]; omega
            · rw [if_pos h']
              have : bits / C.wordBits ≠ q := by
                intro he
                rw [he] at hdm
                omega
              omega
          calc _ ≤ q * C.wordBits := Nat.mul_le_mul_right _ this
            _ = C.blockBits := by rw [Nat.mul_comm, ← hq]
        rw [if_pos ⟨by omega, by omega⟩]
        refine ⟨_, rfl, ?_, hsum⟩
        simp only [List.length_append, List.length_take, List.length_drop]
        omega

/-- Programs never fault if extraction from a buffer of the right size never faults. -/
theorem runOps_sized {C : Construction σ δ} {J : Injector} {t : Nat} (ht : t ∣ 2 ^ 64) (hB : 0 < C.blockBits)
    (hw : 0 < C.wordBits) (hwB : C.wordBits ∣ C.blockBits) {Good : Bits → Prop}
    (hC : ∀ a m, Sized C t a m → Good m → ∃ d, a.result C = .ok d) (ops : List Op) :
    ∀ {a : Acc σ} {m : Bits} {out : List δ}, Sized C t a m → (∀ op ∈ ops, op.WellTyped C.blockBits) →
      GoodExtracts C.blockBits Good m ops → ∃ r, runOps C J a out ops = .ok r := by
  induction ops with
  | nil => intro a m out _ _ _; exact ⟨_, rfl⟩
  | cons op ops ih =>
    intro a m out h hwt hg
    have hwts : ∀ o ∈ ops, o.WellTyped C.blockBits := fun o ho => hwt o (by simp [ho])
    have hop := hwt op (by simp)
    simp only [runOps]
    cases op with
    | extract =>
      obtain ⟨d, hd⟩ := hC a m h hg.1
      simp only [Op.run, hd]
      exact ih h hwts hg.2
    | feed E k cache0 xs =>
      obtain ⟨h1, h2, h3⟩ := hop
      obtain ⟨a', e, r⟩ := feedSet_rep (sized_pushes C J ht hB hw hwB) ⟨hB, h1, h2⟩ h k cache0 xs h3 trivial
      have e' : a.feed C J E k cache0 xs = .ok a' := e
      simp only [Op.run, e']
      exact ih r hwts hg
    | block value bits =>
      obtain ⟨h1, h2⟩ := hop
      have key : ∃ a', a.pushBlock C J value bits = .ok a' ∧ Sized C t a' (m ++ (Op.block value bits).stream C.blockBits) := by
        by_cases h0 : bits = 0
        · subst h0
          obtain ⟨a', e, r⟩ := (sized_pushes C J ht hB hw hwB).push h hB (Nat.le_refl _) h1 trivial
          refine ⟨a', ?_, ?_⟩
          · rw [← e]
            unfold Acc.pushBlock
            rw [if_pos rfl, if_neg (by omega)]
          · simpa only [Op.stream, if_true, List.take_of_length_le (Nat.le_of_eq h1)] using r
        · obtain ⟨a', e, r⟩ := (sized_pushes C J ht hB hw hwB).push h (by omega) h2 h1 trivial
          exact ⟨a', e, by simpa only [Op.stream, if_neg h0] using r⟩
      obtain ⟨a', e, r⟩ := key
      simp only [Op.run, e]
      exact ih r hwts hg

end

theorem spongeOutput_ok (permute : Lanes → Lanes) {d : Nat} (S : SpongeSize d) (s : Lanes) :
    ∃ r, spongeOutput permute d s = .ok r := by
  obtain ⟨hB, h64, h1600, h8d, hB64⟩ := S.facts
  have hd := S.lt
  obtain ⟨T, e, _⟩ := spongeFinalize_ok permute (spongeBlockBits d) d hB h64 (by omega) s
  unfold spongeOutput
  rw [e]
  simp only [bind, Except.bind]
  rw [if_pos (by rw [arrayView_eq, length_flipOctets, length_fipsState]; omega)]
  exact ⟨_, rfl⟩

/-- C13 (sponge), no bound: programs whose data are whole octets at every extraction never leave the block buffer, however
much data was fed. -/
theorem C13_sponge_unbounded (k : SpongeKind) (permute : Lanes → Lanes) {d : Nat} (S : SpongeSize d) (JP J : Injector)
    (garbage : Bits) (hgb : garbage.length = spongeBlockBits d) (ops : List Op)
    (hwt : ∀ op ∈ ops, op.WellTyped (spongeBlockBits d))
    (hg : GoodExtracts (spongeBlockBits d) (fun m => 8 ∣ m.length) [] ops) :
    ∃ r, runOps (spongeConstruction k permute d JP) J
        (Acc.init (spongeConstruction k permute d JP) garbage) [] ops = .ok r := by
  obtain ⟨hB, h64, h1600, h8d, hB64⟩ := S.facts
  refine runOps_sized (C := spongeConstruction k permute d JP) (t := 8) (by decide) hB (by show 0 < 64; omega) h64
    (Good := fun m => 8 ∣ m.length) ?_ ops ⟨hgb, rfl⟩ hwt hg
  rintro a m ⟨hc, ht⟩ hm
  show ∃ r, spongeDigest k (spongeBlockBits d) _ _ JP a.st a.cache a.total = .ok r
  have h8 : 8 ∣ a.total % spongeBlockBits d := by
    refine (Nat.dvd_mod_iff (Nat.dvd_trans (by decide) h64)).2 ?_
    omega
  have hlt := Nat.mod_lt a.total hB
  have hfit : a.total % spongeBlockBits d + 8 ≤ spongeBlockBits d := by omega
  unfold spongeDigest
  simp only
  replace hc : a.cache.length = spongeBlockBits d := hc
  rw [k.pad_eq JP a.cache (a.total % spongeBlockBits d) hc hfit]
  exact spongeOutput_ok permute S _

/-- C13 (HAIFA), no bound: no program leaves the block buffer, for any bit lengths. -/
theorem C13_haifa_unbounded (nn : Nat) (hnn : nn ≤ 64) (JP J : Injector) (garbage : Bits) (hgb : garbage.length = 1024)
    (ops : List Op) (hwt : ∀ op ∈ ops, op.WellTyped 1024) :
    ∃ r, runOps (blake2bConstruction (8 * nn) JP) J
      (Acc.init (blake2bConstruction (8 * nn) JP) garbage) [] ops = .ok r := by
  have hgood : ∀ (ops : List Op) (m : Bits), GoodExtracts 1024 (fun _ => True) m ops := by
    intro ops
    induction ops with
    | nil => intro m; trivial
    | cons op ops ih =>
      intro m
      cases op with
      | extract => exact ⟨trivial, ih m⟩
      | feed => exact ih _
      | block => exact ih _
  refine runOps_sized (C := blake2bConstruction (8 * nn) JP) (t := 1) (by decide) (by show 0 < 1024; omega)
    (by show 0 < 64; omega) (by show 64 ∣ 1024; decide) (Good := fun _ => True) ?_ ops ⟨hgb, rfl⟩ hwt (hgood ops [])
  rintro a m ⟨hc, _⟩ _
  replace hc : a.cache.length = 1024 := hc
  show ∃ r, haifaDigest 1024 64 _ _ JP a.st a.cache a.total = .ok r
  unfold haifaDigest
  simp only
  have hpad : ∃ b, blake2bPad 1024 64 JP a.cache a.total = .ok b := by
    unfold blake2bPad
    split
    · simp only
      have h1 : a.total / 64 % (1024 / 64) < 16 := Nat.mod_lt _ (by decide)
      rw [if_pos (by split <;> omega)]
      split
      · rename_i hr
        rw [JP.run_ok]
        · exact ⟨_, rfl⟩
        · simp only [List.length_append, List.length_take, List.length_replicate, hc]
          omega
        · rw [List.length_replicate]; omega
      · exact ⟨_, rfl⟩
    · exact ⟨_, rfl⟩
  obtain ⟨b, e⟩ := hpad
  rw [e]
  exact ⟨_, blakeOutput_eq nn hnn _⟩

/-- More than 2^64 bits: 2^60 full blocks, one more with 8 bits, and an extraction. -/
example (k : SpongeKind) (JP J : Injector) (value : Bits) (hv : value.length = 1088) :
    ∃ r, runOps (spongeConstruction k keccakPermute 256 JP) J
      (Acc.init (spongeConstruction k keccakPermute 256 JP) (List.replicate 1088 true)) []
      (List.replicate (2 ^ 60) (.block value 0) ++ [.block value 8, .extract]) = .ok r := by
  have hs : spongeBlockBits 256 = 1088 := rfl
  generalize 2 ^ 60 = n
  refine C13_sponge_unbounded k keccakPermute sizes.2.1 JP J _ (by rw [List.length_replicate, hs]) _ ?_
    (goodExtracts_of_streams _ 8 _ [] (by simp) ?_)
  · intro op hop
    rw [List.mem_append, List.mem_replicate] at hop
    simp only [List.mem_cons, List.not_mem_nil, or_false] at hop
    rcases hop with ⟨_, rfl⟩ | rfl | rfl
    · exact ⟨hv, Nat.zero_le _⟩
    · exact ⟨hv, by decide⟩
    · trivial
  · intro op hop
    rw [List.mem_append, List.mem_replicate] at hop
    simp only [List.mem_cons, List.not_mem_nil, or_false] at hop
    rcases hop with ⟨_, rfl⟩ | rfl | rfl
    · show 8 ∣ (value.take _).length
      rw [List.length_take, hv]
      decide
    · show 8 ∣ (value.take _).length
      rw [List.length_take, hv]
      decide
    · exact ⟨0, rfl⟩

example (JP J : Injector) (value : Bits) (hv : value.length = 1024) :
    ∃ r, runOps (blake2bConstruction (8 * 64) JP) J
      (Acc.init (blake2bConstruction (8 * 64) JP) (List.replicate 1024 true)) []
      (List.replicate (2 ^ 60) (.block value 0) ++ [.block value 3, .extract]) = .ok r := by
  refine C13_haifa_unbounded 64 (by decide) JP J _ List.length_replicate _ ?_
  intro op hop
  rw [List.mem_append, List.mem_replicate] at hop
  simp only [List.mem_cons, List.not_mem_nil, or_false] at hop
  rcases hop with ⟨_, rfl⟩ | rfl | rfl
  · exact ⟨hv, Nat.zero_le _⟩
  · exact ⟨hv, by decide⟩
  · trivial

end Verif.Props
