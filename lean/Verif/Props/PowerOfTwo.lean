import Verif.Props.Scaling
import Verif.Proofs.PowerOfTwo
import Verif.Spec.ExampleFloat

/-!
# C126: changing the unit of the targets or of the weights by a power of two, in floating point

C82 and C83 are about exact arithmetic and any factor.  Here the results of all operations are rounded to a given
number of bits, as by the machine, and the factor is a power of two: training gives the same trees bit by bit, up
to the factor.  The exponents are not bounded; what this leaves out is shown by `C126_range`, and `C126_agrees`
says where the rounding is that of `f32` and `f64`.
-/

namespace Verif

open scoped Verif

set_option linter.unusedSectionVars false

section
variable {p q : Nat} {M N : ℚ} {e32 l32 s32 e64 l64 s64 : ℚ → RV ℚ}

/-- **C126** (targets).  All results are rounded to `p` bits (single precision) or `q` bits (double precision).
With squared loss, multiplying the targets, `l1`, `max_delta_step` and the given base score by `2 ^ k` and `gamma`
by `4 ^ k` multiplies the fitted base score, all values and all recorded metrics by exactly `2 ^ k` and all gains
by exactly `4 ^ k`, and changes nothing else. -/
theorem C126_targets (k : ℤ) {R' : Type}
    {env : Env R' (FX (Ieee.wide p M e32 l32 s32)) (FX (Ieee.wide q N e64 l64 s64))} (henv : env.Comparing)
    {b : Booster (FX (Ieee.wide p M e32 l32 s32)) (FX (Ieee.wide q N e64 l64 s64))}
    {X : Matrix (FX (Ieee.wide q N e64 l64 s64))} {y w : List (FX (Ieee.wide q N e64 l64 s64))}
    {ev : Option (List (EvalSet (FX (Ieee.wide q N e64 l64 s64))))} (ho : b.objectiveType = .squaredLoss)
    (hm : ev = none ∨ b.metric = .rootMeanSquaredError ∧
      ∀ x : ℚ, 0 ≤ x → s64 (2 ^ k * 2 ^ k * x) = (s64 x).smul (2 ^ k)) :
    (b.smulUnit (2 ^ k)).fit env X (y.map (FX.smul (2 ^ k))) w
        (ev.map fun (es : List (EvalSet (FX (Ieee.wide q N e64 l64 s64)))) => es.map (EvalSet.smulUnit (2 ^ k))) =
      (do let (b', r) ← b.fit env X y w ev
          .ok (b'.smulUnit (2 ^ k), r)) := by
  rw [← Ieee.pow2_eq] at hm ⊢
  have h1 := Ieee.wide_scalesBy p M e32 l32 s32 k
  have h2 := Ieee.wide_scalesBy q N e64 l64 s64 k
  have hk := Ieee.pow2_pos k
  refine fit_smulUnit hk henv ho (hm.imp id fun ⟨h3, h4⟩ => ⟨h3, fun x => ?_⟩)
  cases x with
  | fin a =>
    show (if Ieee.pow2 k * Ieee.pow2 k * a < 0 then FX.nan else FX.ofRV (s64 (Ieee.pow2 k * Ieee.pow2 k * a))) =
      FX.smul (Ieee.pow2 k) (if a < 0 then FX.nan else FX.ofRV (s64 a))
    by_cases ha : a < 0
    · rw [if_pos ha, if_pos (mul_neg_of_pos_of_neg (mul_pos hk hk) ha)]; rfl
    · rw [if_neg ha, if_neg (not_lt.2 (mul_nonneg (mul_pos hk hk).le (not_lt.1 ha))), h4 a (not_lt.1 ha)]
      cases s64 a <;> rfl
  | nan => rfl
  | ninf => rfl
  | pinf => rfl

/-- **C126** (weights).  Multiplying all sample weights (also those of evaluation sets), `l1`, `l2`, `gamma` and
`min_leaf_weight` by `2 ^ k` multiplies all covers and gains by exactly `2 ^ k` and changes nothing else, for
every objective and metric: the values, splits, base score, evaluation history and best iteration are the same
bit by bit. -/
theorem C126_weights (k : ℤ) {R' : Type}
    {env : Env R' (FX (Ieee.wide p M e32 l32 s32)) (FX (Ieee.wide q N e64 l64 s64))} (henv : env.Comparing)
    {b : Booster (FX (Ieee.wide p M e32 l32 s32)) (FX (Ieee.wide q N e64 l64 s64))}
    {X : Matrix (FX (Ieee.wide q N e64 l64 s64))} {y w : List (FX (Ieee.wide q N e64 l64 s64))}
    {ev : Option (List (EvalSet (FX (Ieee.wide q N e64 l64 s64))))} :
    (b.smulWeights (2 ^ k)).fit env X y (w.map (FX.smul (2 ^ k)))
        (ev.map fun (es : List (EvalSet (FX (Ieee.wide q N e64 l64 s64)))) =>
          es.map (EvalSet.smulWeights (2 ^ k))) =
      (do let (b', r) ← b.fit env X y w ev
          .ok (b'.smulWeights (2 ^ k), r)) := by
  rw [← Ieee.pow2_eq]
  have h1 := Ieee.wide_scalesBy p M e32 l32 s32 k
  have h2 := Ieee.wide_scalesBy q N e64 l64 s64 k
  exact fit_smulWeights (Ieee.pow2_pos k) henv

/-- **C126** (predictions).  The rounded predictions of the first changed booster are exactly `2 ^ k` times those of
the original, and those of the second are the same. -/
theorem C126_predict (k : ℤ) (b : Booster (FX (Ieee.wide p M e32 l32 s32)) (FX (Ieee.wide q N e64 l64 s64)))
    (X : Matrix (FX (Ieee.wide q N e64 l64 s64))) :
    (b.smulUnit (2 ^ k)).predict X = (do let out ← b.predict X; .ok (out.map (FX.smul (2 ^ k)))) ∧
      (b.smulWeights (2 ^ k)).predict X = b.predict X := by
  rw [← Ieee.pow2_eq]
  have h1 := Ieee.wide_scalesBy p M e32 l32 s32 k
  have h2 := Ieee.wide_scalesBy q N e64 l64 s64 k
  exact ⟨predict_smulUnit (Ieee.pow2_pos k) b X, predict_smulWeights (Ieee.pow2_pos k) b X⟩

/-- **C126** (the products are those of the machine).  On numbers of the format, the exact product by `2 ^ k` is the
product that the machine computes. -/
theorem C126_product (k : ℤ) (a : ℚ) (ha : Ieee.wideRnd p a = a) :
    (FX.fin (2 ^ k) * FX.fin a : FX (Ieee.wide p M e32 l32 s32)) = FX.smul (2 ^ k) (FX.fin a) := by
  rw [← Ieee.pow2_eq]
  show FX.fin (Ieee.wideRnd p (Ieee.pow2 k * a)) = FX.fin (Ieee.pow2 k * a)
  rw [Ieee.wideRnd_mul, ha]

end

/-- **C126** (agreement).  For results of normal size, rounding without a bound on exponents is the rounding of
`f32` and of `f64`. -/
theorem C126_agrees (e l s : ℚ → RV ℚ) (a : ℚ) :
    (a = 0 ∨ 2 ^ (-126 : ℤ) ≤ |a| → |a| ≤ (2 ^ 24 - 1) * 2 ^ 104 →
      (Ieee.b32 e l s).rnd a = (Ieee.wide 24 ((2 ^ 24 - 1) * 2 ^ 104) e l s).rnd a) ∧
    (a = 0 ∨ 2 ^ (-1022 : ℤ) ≤ |a| → |a| ≤ (2 ^ 53 - 1) * 2 ^ 971 →
      (Ieee.b64 e l s).rnd a = (Ieee.wide 53 ((2 ^ 53 - 1) * 2 ^ 971) e l s).rnd a) := by
  constructor
  · intro h1 h2
    refine Ieee.fmt_eq_wide (by norm_num) (M := ((2 ^ 24 - 1) * 2 ^ 104 : Nat)) (by decide +kernel) ?_ ?_ e l s
    · refine h1.imp id fun h => ?_
      show Ieee.pow2 (-126) ≤ |a|
      rw [Ieee.pow2_eq]; exact h
    · rw [Nat.cast_mul, Nat.cast_pow, Nat.cast_sub (Nat.one_le_two_pow), Nat.cast_pow]
      exact h2
  · intro h1 h2
    refine Ieee.fmt_eq_wide (by norm_num) (M := ((2 ^ 53 - 1) * 2 ^ 971 : Nat)) (by decide +kernel) ?_ ?_ e l s
    · refine h1.imp id fun h => ?_
      show Ieee.pow2 (-1022) ≤ |a|
      rw [Ieee.pow2_eq]; exact h
    · rw [Nat.cast_mul, Nat.cast_pow, Nat.cast_sub (Nat.one_le_two_pow), Nat.cast_pow]
      exact h2

/-! ## Concrete cases -/

/-- Single precision without bounds on exponents. -/
abbrev W32 := FX (Ieee.wide 24 (2 ^ 128) ratFmt.expF ratFmt.lnF (Ieee.digitSqrt 52))

/-- Double precision without bounds on exponents. -/
abbrev W64 := FX (Ieee.wide 53 (2 ^ 128) ratFmt.expF ratFmt.lnF (Ieee.digitSqrt 52))

/-- The environment of the example. -/
def wideEnv : Env Nat W32 W64 :=
  { sorter := exSorter, heap := fun _ => { pick := fun _ l => exPick l }
    rng := { seed := id, genF := fun r => (0, r), genD := fun r => (0, r), choose := fun r l n => (l.take n, r) } }

theorem wideEnv_comparing : wideEnv.Comparing where
  natural := exSorter_natural
  heap _ := fun _ l l' h hc => exPick_byOrder l l' h hc

/-- Targets that need rounding. -/
def wideY : List W64 := [FX.rd (1/10), FX.rd (101/10), FX.rd (203/10), FX.rd (51/10)]

/-- Two columns. -/
def wideX : Matrix W64 := { data := [0, 0, 1, 1, 0, 1, 0, 1], rows := 4, cols := 2 }

/-- A default booster with squared loss, two trees, and parameters that matter. -/
def wideB : Option (Booster W32 W64) :=
  (Booster.default W32 W64).map fun b =>
    { b with objectiveType := .squaredLoss, iterations := 2, learningRate := FX.rd (3/10), l1 := FX.rd (1/10)
             gamma := FX.rd (7/10), maxDeltaStep := FX.rd (13/2)
             evaluationMetric := some .rootMeanSquaredError }

/-- The square root of the example meets the hypothesis of `C126_targets`. -/
theorem wide_sqrt (k : ℤ) (x : ℚ) (hx : 0 ≤ x) :
    Ieee.digitSqrt 52 (2 ^ k * 2 ^ k * x) = (Ieee.digitSqrt 52 x).smul (2 ^ k) := by
  rw [← Ieee.pow2_eq]
  rcases hx.eq_or_lt with h | h
  · subst h
    rw [mul_zero]
    have : Ieee.digitSqrt 52 0 = .fin 0 := by decide +kernel
    rw [this]
    show RV.fin 0 = RV.fin (Ieee.pow2 k * 0)
    rw [mul_zero]
  · exact Ieee.digitSqrt_mul 52 h k

/-- The values of the nodes. -/
def wideValues : List (List W32) :=
  [[0, -6291457/8388608, 3/4, -5473567/4194304, 11072961/67108864, 7109345/4194304, -9311355/16777216],
    [0, -5335155/8388608, 5335155/8388608, -1163133/1048576, 9412017/67108864, 12085887/8388608,
      -1978663/4194304]].map (·.map FX.fin)

/-- The fit of the example: two trees with three splits each; the values of the second and third node of the first
tree would be opposite if nothing were rounded. -/
theorem wide_fit : ∃ b b', wideB = some b ∧ b.objectiveType = .squaredLoss ∧ b.metric = .rootMeanSquaredError ∧
    b.fit wideEnv wideX wideY (List.replicate 4 1) (some [{ data := wideX, y := wideY, w := List.replicate 4 1 }]) =
      .ok (b', .ok ()) ∧ b'.trees.map (fun t => t.nodes.map fun n => n.weightValue) = wideValues := by
  have : (match wideB with
    | some b => match b.fit wideEnv wideX wideY (List.replicate 4 1)
        (some [{ data := wideX, y := wideY, w := List.replicate 4 1 }]) with
      | .ok (b', .ok ()) => decide (b.objectiveType = .squaredLoss ∧ b.metric = .rootMeanSquaredError ∧
          b'.trees.map (fun t => t.nodes.map fun n => n.weightValue) = wideValues)
      | _ => false
    | none => false) = true := by decide +kernel
  split at this
  · rename_i b hb
    split at this
    · rename_i b' h
      obtain ⟨h1, h2, h3⟩ := of_decide_eq_true this
      exact ⟨b, b', hb, h1, h2, h, h3⟩
    · cases this
  · cases this

/-- `C126_targets` for the example and the factor 8. -/
example : ∃ b b2, wideB = some b ∧
    (b.smulUnit (2 ^ (3 : ℤ))).fit wideEnv wideX (wideY.map (FX.smul (2 ^ (3 : ℤ)))) (List.replicate 4 1)
      (some [{ data := wideX, y := wideY.map (FX.smul (2 ^ (3 : ℤ))), w := List.replicate 4 1 }]) =
      .ok (b2, .ok ()) ∧
    b2.trees.map (fun t => t.nodes.map fun n => n.weightValue) =
      wideValues.map (·.map (FX.smul (2 ^ (3 : ℤ)))) := by
  obtain ⟨b, b', hb, h1, h2, h, h3⟩ := wide_fit
  have key := C126_targets 3 wideEnv_comparing (b := b) (X := wideX) (y := wideY) (w := List.replicate 4 1)
    (ev := some [{ data := wideX, y := wideY, w := List.replicate 4 1 }]) h1 (.inr ⟨h2, wide_sqrt 3⟩)
  rw [h] at key
  refine ⟨b, _, hb, key, ?_⟩
  rw [← h3]
  simp only [Booster.smulUnit, Tree.smulValues, List.map_map, Function.comp_def]

/-- `C126_weights` for the example and the factor 1/4: the same values. -/
example : ∃ b b2, wideB = some b ∧
    (b.smulWeights (2 ^ (-2 : ℤ))).fit wideEnv wideX wideY ((List.replicate 4 1).map (FX.smul (2 ^ (-2 : ℤ))))
      (some [{ data := wideX, y := wideY, w := (List.replicate 4 1).map (FX.smul (2 ^ (-2 : ℤ))) }]) =
      .ok (b2, .ok ()) ∧
    b2.trees.map (fun t => t.nodes.map fun n => n.weightValue) = wideValues := by
  obtain ⟨b, b', hb, h1, h2, h, h3⟩ := wide_fit
  have key := C126_weights (-2) wideEnv_comparing (b := b) (X := wideX) (y := wideY) (w := List.replicate 4 1)
    (ev := some [{ data := wideX, y := wideY, w := List.replicate 4 1 }])
  rw [h] at key
  refine ⟨b, _, hb, key, ?_⟩
  rw [← h3]
  simp only [Booster.smulWeights, Tree.smulCover, List.map_map, Function.comp_def]

/-- One row, one tree, no shrinkage. -/
def unitB : Option (Booster F32 F64) :=
  (Booster.default F32 F64).map fun b =>
    { b with objectiveType := .squaredLoss, iterations := 1, learningRate := 1, baseScore := 0
             initializeBaseScore := false, l2 := 0 }

/-- The prediction for the one row of the booster fitted to it. -/
def unitPredict (y : ℚ) : Option (List F64) :=
  match unitB with
  | some b => match b.fit floatEnv { data := [0], rows := 1, cols := 1 } [FX.fin y] [1] none with
    | .ok (b', .ok ()) => match b'.predict { data := [0], rows := 1, cols := 1 } with
      | .ok l => some l
      | _ => none
    | _ => none
  | none => none

/-- **C126** (other factors).  In `f32` and `f64` a target and its triple, both exact, are fitted by 1 and by
`3 + 2 ^ -22`: with a factor that is not a power of two the fitted model is not the same in another unit. -/
theorem C126_other_factors : unitPredict (1 + 15 / 2 ^ 28) = some [FX.fin 1] ∧
    unitPredict (3 * (1 + 15 / 2 ^ 28)) = some [FX.fin (3 + 1 / 2 ^ 22)] ∧
    (FX.fin 3 * FX.fin (1 + 15 / 2 ^ 28) : F64) = FX.fin (3 * (1 + 15 / 2 ^ 28)) := by
  decide +kernel

/-- **C126** (range).  With the exponents of `f32` bounded from below the statement fails for the factor
`2 ^ -140`: the target `1 + 2 ^ -23` is fitted exactly, but `2 ^ -140` times it is fitted by `2 ^ -140`. -/
theorem C126_range : unitPredict (1 + 1 / 2 ^ 23) = some [FX.fin (1 + 1 / 2 ^ 23)] ∧
    unitPredict (1 / 2 ^ 140 * (1 + 1 / 2 ^ 23)) = some [FX.fin (1 / 2 ^ 140)] := by
  decide +kernel

end Verif
