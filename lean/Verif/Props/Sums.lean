import Verif.Proofs.Sum
import Verif.Spec.RatFmt

/-!
# C46 Unrolled summation equals the plain sum
-/

namespace Verif

variable {K : Type} [Field K] [LinearOrder K]

/-- C46 (`fast_sum`): in exact arithmetic the unrolled sum is the plain sum of all elements, for every
length, infinities and NaN included. -/
theorem C46_fast_sum (m : Fmt K) [m.Exact] (values : List (FX m)) :
    fastSum values = values.sum := by
  simpa [fastSum] using lanes_sum values

/-- C46 (`fast_sum` on finite values): the result is the field sum of the values. -/
theorem C46_fast_sum_finite (m : Fmt K) [m.Exact] (values : List K) :
    fastSum (values.map (FX.fin : K → FX m)) = FX.fin values.sum := by
  rw [C46_fast_sum, sum_fin]

/-- C46 (`fast_f64_sum`): the sum is taken over the converted values and converted back once. -/
theorem C46_fast_f64_sum (m32 m64 : Fmt K) [m64.Exact] (values : List (FX m32)) :
    fastF64Sum (D := FX m64) values = down (values.map (up : FX m32 → FX m64)).sum := by
  have := lanes_sum (values.map (up : FX m32 → FX m64))
  rw [List.length_map] at this
  simp only [fastF64Sum]
  rw [← this]

/-- C46 (`fast_f64_sum` on finite values). -/
theorem C46_fast_f64_sum_finite (m32 m64 : Fmt K) [m32.Exact] [m64.Exact] (values : List K) :
    fastF64Sum (D := FX m64) (values.map (FX.fin : K → FX m32)) = FX.fin values.sum := by
  rw [C46_fast_f64_sum, List.map_map]
  have : ((up : FX m32 → FX m64) ∘ FX.fin : K → FX m64) = FX.fin := by funext q; rfl
  rw [this, sum_fin, FX.down_fin]

/-- C46 (`naive_sum`): the plain loop gives the plain sum, so in exact arithmetic the unrolled sum agrees with it. -/
theorem C46_naive_sum (m : Fmt K) [m.Exact] (values : List (FX m)) :
    naiveSum values = values.sum ∧ fastSum values = naiveSum values := by
  have h : naiveSum values = values.sum := by
    unfold naiveSum
    rw [foldl_add_eq_sum]
    exact Fl.AddLaws.zero_add _
  exact ⟨h, by rw [h, C46_fast_sum]⟩

example : fastSum ((List.range 37).map fun n => q n) = q 666 := by
  decide +kernel

end Verif
