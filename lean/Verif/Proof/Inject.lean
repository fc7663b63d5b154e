import Verif.Proof.Accumulator
/- Consequences of the injector contract used by the paddings. -/
namespace Verif

/-- Writing over the whole rest of the block determines the block. -/
theorem Injector.inject_to_end (J : Injector) {src dst : Bits} {cursor n off : Nat}
    (h : cursor + n = dst.length) (h' : off + n ≤ src.length) :
    J.inject src n dst cursor off = dst.take cursor ++ (src.drop off).take n := by
  have := J.take_inject src n dst cursor off (by omega) h'
  rwa [List.take_of_length_le] at this
  rw [J.length_inject _ _ _ _ _ (by omega) h']; omega

/-- Writing in front of zeros leaves zeros behind the written bits. -/
theorem Injector.inject_onto_zeros (J : Injector) {src pre : Bits} {n k off : Nat} (hn : n ≤ k)
    (h' : off + n ≤ src.length) :
    J.inject src n (pre ++ List.replicate k false) pre.length off =
      pre ++ (src.drop off).take n ++ List.replicate (k - n) false := by
  have hlen : pre.length + n ≤ (pre ++ List.replicate k false).length := by simp; omega
  have ht := J.take_inject src n (pre ++ List.replicate k false) pre.length off hlen h'
  have hl := J.length_inject src n (pre ++ List.replicate k false) pre.length off hlen h'
  have hr := J.rest_inject src n (pre ++ List.replicate k false) pre.length off hlen h'
  rw [List.take_append_of_le_length (Nat.le_refl _), List.take_of_length_le (Nat.le_refl _)] at ht
  generalize J.inject src n (pre ++ List.replicate k false) pre.length off = r at *
  have hxl : (pre ++ (src.drop off).take n).length = pre.length + n := by
    simp; omega
  rw [← List.take_append_drop (pre.length + n) r, ht]
  congr 1
  apply List.ext_getElem?
  intro i
  rw [List.getElem?_drop]
  simp only [List.length_append, List.length_replicate] at hl
  by_cases hi : i < k - n
  · have e : (List.replicate (k - n) false)[i]? = some false := by
      rw [List.getElem?_replicate, if_pos hi]
    rw [e]
    rcases hr (pre.length + n + i) (by omega) with h1 | h1
    · rw [h1, List.getElem?_append_right (by omega), List.getElem?_replicate, if_pos (by omega)]
    · exact h1
  · rw [List.getElem?_eq_none (by omega), List.getElem?_eq_none (by simp; omega)]

end Verif
