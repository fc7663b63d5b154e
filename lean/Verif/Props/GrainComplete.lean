import Verif.Proof.GrainComplete
import Verif.Proof.GrainCheck
import Verif.Props.ReinforcedConcrete
/-
C48: the generators of round constants return the specified constants, given enough fuel, exactly when there are some.
-/
namespace Verif.Props
open Spec.Grain

/-- **C48, Poseidon, converse.** If the specified procedure yields constants, the generator returns them with all
sufficiently large fuels. -/
theorem C48_complete (n p t RF RP : Nat) (hn : 0 < n) (cs : List Nat) (hl : cs.length = (RF + RP) * t)
    (h : Generates (seq (initial 1 1 n t RF RP)) n p cs) :
    ∃ bitFuel fuel rows, rows.flatten = cs ∧ ∀ bf f, bitFuel ≤ bf → fuel ≤ f →
      generateRoundConstants bf f n p t RF RP = some rows := by
  obtain ⟨bf, f, rows, e⟩ := lfsrRows_complete (t := t) (seq_recurrence _) hn (RF + RP)
    (N := 0) (window_init n t RF RP) (lfsrInit_alive n t RF RP) (hl ▸ avail_of_generates h)
  have e' : generateRoundConstants bf f n p t RF RP = some rows := e
  obtain ⟨l1, l2, _, g⟩ := C48_poseidon bf f n p t RF RP rows e'
  refine ⟨bf, f, rows, C48_unique _ n p hn _ _ g h ?_, fun bf' f' hb hf => lfsrRows_mono hb hf e⟩
  rw [hl, List.length_flatten]
  have : rows.map List.length = List.replicate (RF + RP) t := by
    rw [List.eq_replicate_iff]
    refine ⟨by simpa using l1, ?_⟩
    intro x hx
    obtain ⟨row, hr, rfl⟩ := List.mem_map.1 hx
    exact l2 row hr
  rw [this, List.sum_replicate, smul_eq_mul]

/-- The constants of the toy parameters come back with every larger fuel. -/
example : ∃ bitFuel fuel rows, ∀ bf f, bitFuel ≤ bf → fuel ≤ f →
    generateRoundConstants bf f 4 13 2 2 0 = some rows := by
  obtain ⟨rows, e⟩ := Option.ne_none_iff_exists'.1
    (show generateRoundConstants 20 20 4 13 2 2 0 ≠ none by decide +kernel)
  obtain ⟨l1, l2, _, g⟩ := C48_poseidon 20 20 4 13 2 2 0 rows e
  have hl : rows.flatten.length = 4 := by
    match rows, l1 with
    | [a, b], _ => simp [l2 a (by simp), l2 b (by simp)]
  obtain ⟨bf, f, rows, _, h⟩ := C48_complete 4 13 2 2 0 (by decide) rows.flatten hl g
  exact ⟨bf, f, rows, h⟩

/-- The generator of Poseidon returns for some fuel exactly when the stream contains enough words below the modulus. -/
theorem C48_returns_iff (n p t RF RP : Nat) (hn : 0 < n) :
    (∃ bf f rows, generateRoundConstants bf f n p t RF RP = some rows) ↔
      ∃ cs : List Nat, cs.length = (RF + RP) * t ∧ Generates (seq (initial 1 1 n t RF RP)) n p cs := by
  constructor
  · rintro ⟨bf, f, rows, e⟩
    obtain ⟨l1, l2, _, g⟩ := C48_poseidon bf f n p t RF RP rows e
    refine ⟨rows.flatten, ?_, g⟩
    rw [List.length_flatten]
    have : rows.map List.length = List.replicate (RF + RP) t := by
      rw [List.eq_replicate_iff]
      refine ⟨by simpa using l1, ?_⟩
      intro x hx
      obtain ⟨row, hr, rfl⟩ := List.mem_map.1 hx
      exact l2 row hr
    rw [this, List.sum_replicate, smul_eq_mul]
  · rintro ⟨cs, hl, g⟩
    obtain ⟨bf, f, rows, _, h⟩ := C48_complete n p t RF RP hn cs hl g
    exact ⟨bf, f, rows, h bf f le_rfl le_rfl⟩

/-- Four 4-bit constants below 13 exist. -/
example : ∃ cs : List Nat, cs.length = (2 + 0) * 2 ∧ Generates (seq (initial 1 1 4 2 2 0)) 4 13 cs := by
  obtain ⟨rows, e⟩ := Option.ne_none_iff_exists'.1
    (show generateRoundConstants 20 20 4 13 2 2 0 ≠ none by decide +kernel)
  exact (C48_returns_iff 4 13 2 2 0 (by decide)).1 ⟨_, _, rows, e⟩

/-- **C48, Reinforced Concrete, converse.** -/
theorem C48_reinforced_concrete_complete (n p t RP : Nat) (hn : 0 < n) (cs : List Nat) (hl : cs.length = 2 * (RP + 1) * t)
    (h : Generates (seq (initial 1 1 n t (2 * (RP + 1)) RP)) n p cs) :
    ∃ bitFuel fuel, ∀ bf f, bitFuel ≤ bf → fuel ≤ f → rcConstants bf f n p t RP = some cs := by
  obtain ⟨bf, f, r, _, e, _⟩ := lfsrRow_complete (k := 0) (seq_recurrence _) hn (2 * (RP + 1) * t)
    (N := 0) (window_init n t (2 * (RP + 1)) RP) (lfsrInit_alive n t (2 * (RP + 1)) RP)
    (by rw [Nat.add_zero, ← hl]; exact avail_of_generates h)
  have e' : ∀ bf' f', bf ≤ bf' → f ≤ f' → rcConstants bf' f' n p t RP = some r.1 := by
    intro bf' f' hb hf
    rw [rcConstants, lfsrRow_mono hb hf e]; rfl
  obtain ⟨l, _, g⟩ := C48_reinforced_concrete bf f n p t RP r.1 (e' bf f le_rfl le_rfl)
  have := C48_unique _ n p hn _ _ g h (by rw [l, hl])
  rw [this] at e'
  exact ⟨bf, f, e'⟩

example : ∃ cs : List Nat, cs.length = 6 ∧ ∃ bitFuel fuel, ∀ bf f, bitFuel ≤ bf → fuel ≤ f →
    rcConstants bf f 4 13 3 0 = some cs := by
  obtain ⟨rows, e⟩ := Option.ne_none_iff_exists'.1
    (show generateRoundConstants 40 40 4 13 3 2 0 ≠ none by decide +kernel)
  obtain ⟨cs, hl, g⟩ := (C48_returns_iff 4 13 3 2 0 (by decide)).1 ⟨_, _, rows, e⟩
  exact ⟨cs, hl, C48_reinforced_concrete_complete 4 13 3 0 (by decide) cs hl g⟩

theorem shrunk_cut (b : Nat → Bool) (m N : Nat) (l : List Bool) (h : l <+: shrunk b m N) : ∃ N', shrunk b m N' = l := by
  induction N with
  | zero =>
    have : l = [] := by simpa [shrunk] using h
    exact ⟨0, by simp [shrunk, this]⟩
  | succ N ih =>
    rw [shrunk_succ] at h
    by_cases hb : b (m + 2 * N)
    · rw [if_pos hb] at h
      rcases List.prefix_concat_iff.1 h with h | h
      · exact ⟨N + 1, by rw [shrunk_succ, if_pos hb, h]⟩
      · exact ih h
    · rw [if_neg hb, List.append_nil] at h
      exact ih h

/-- The constants of the whole procedure are those of the first part. -/
theorem GeneratesAll.constants {b : Nat → Bool} {n p : Nat} {cs xy : List Nat} (h : GeneratesAll b n p cs xy) :
    Generates b n p cs := by
  obtain ⟨N, words, extra, hl, hs, hc, hg, _⟩ := h
  obtain ⟨N', hN⟩ := shrunk_cut b 240 N words.flatten (by rw [hs, List.flatten_append]; exact List.prefix_append _ _)
  exact ⟨N', words, fun w hw => hl w (List.mem_append_left _ hw), hN, hc, hg⟩

/-- The constants of Reinforced Concrete over the scalar field of BLS12-381. -/
def rcBls12Constants : List Nat := [
  15125044968495379971680259479869287942215345964814483592216415498850775381550,
  22642686676262134360141192348439912570267635920815776878087578082776678344156,
  4603274117154385564367799122754110443738388219468300858542516790038615430424,
  29701319609344614489027017796860483531796481565168618012848131334686908657294,
  27719221889269908424864726577307276364440650770258914614256757119329593445945,
  22573855601160917674725839997465042855384094384778899529925024024564042643421,
  38745348250019330179112109062701278744970936251240110699086828556642986952295,
  23100762905960312726197672377141759583227538853316118127811420455737134920766,
  14138541009615232824299074699372474144310165169463414569874689124006322478929,
  23262422836033299550203685218162955204914565428810868464811321072623997596087,
  18099644532485034181169879439151980797177907723073994752772722457702104724549,
  23363386507660767615724309721825717357008144195317719931949106735591591300239,
  17250412420784381943176979839748110709596851044810283899470280710271327655199,
  19358945813400497671221903441113529076504140341553334160738712974392373328592,
  6046618130628758033110939860764345250974318235023741235824975236891950698891,
  40607571869377165937400818030196053420141519017656163300440551196154617217819,
  52344712028467886596148690793740287238350290901854847601172474940847377249713,
  21283452765539339476736848617112839981312714570782810696331221686051685381776,
  13020675975084867566243933732739503329132774825597811428231023721787643257277,
  1636271828325956697736523135878731103721808381311565641387010852421172360931,
  32458781286080327884177540095852359163837019756394832534425644315811084917025,
  11258355593618554198077989868746759394661091278988530411880369533792083019153,
  10241038248624642584304222155438299059488893548162185584655826100266770767584,
  46962309782963825887582059052331267270120559769746607976890378726900928360883]

set_option maxRecDepth 100000 in
theorem rcBls12_generates : GeneratesAll (seq (initial 1 1 255 3 8 3)) 255 bls12Scalar rcBls12Constants
    [20909609671568536132867510660842785121957699198964276271493995879121925906308] :=
  GrainCheck.checkFrom_right 1 255 3 8 3 bls12Scalar 6000 (by decide) _ _ (by decide +kernel)

/-- **C48, the policy of the library.** With enough fuel the generator of Reinforced Concrete returns these 24
constants, which are those of the specified procedure. -/
theorem C48_reinforced_concrete_library :
    (∃ bitFuel fuel, ∀ bf f, bitFuel ≤ bf → fuel ≤ f →
      rcConstants bf f 255 bls12Scalar 3 rcBls12.partRounds = some rcBls12Constants) ∧
    Generates (seq (initial 1 1 255 3 8 3)) 255 bls12Scalar rcBls12Constants := by
  have g := GeneratesAll.constants rcBls12_generates
  exact ⟨C48_reinforced_concrete_complete 255 bls12Scalar 3 3 (by decide) _ (by decide) g, g⟩

end Verif.Props
