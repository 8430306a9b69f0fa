import Verif.Props.Boosting
import Verif.Spec.ExampleFit
import Mathlib.Tactic.NormNum

/-!
# C89: the default metric of the squared loss

Without an evaluation metric the squared loss is monitored by the root mean squared log error, which is NaN as
soon as one target is below -1.
-/

namespace Verif

open scoped Verif

set_option linter.unusedSectionVars false

namespace FX
variable {K : Type} [Field K] [LinearOrder K] {m : Fmt K}

theorem add_nan (x : FX m) : x + nan = nan := by cases x <;> rfl
theorem nan_add (x : FX m) : nan + x = nan := by cases x <;> rfl
theorem nan_mul (x : FX m) : nan * x = nan := by cases x <;> rfl
theorem nan_sub (x : FX m) : nan - x = nan := by cases x <;> rfl
theorem nan_div (x : FX m) : nan / x = nan := by cases x <;> rfl

theorem foldl_nan (l : List (FX m)) : l.foldl (· + ·) nan = nan := by
  induction l with
  | nil => rfl
  | cons a l ih => rw [List.foldl_cons, nan_add, ih]

/-- A NaN among the terms makes the sum NaN. -/
theorem foldl_mem_nan {l : List (FX m)} (h : nan ∈ l) (s : FX m) : l.foldl (· + ·) s = nan := by
  induction l generalizing s with
  | nil => cases h
  | cons a l ih =>
    rw [List.foldl_cons]
    rcases List.mem_cons.1 h with h | h
    · rw [← h, add_nan, foldl_nan]
    · exact ih h _

end FX

section
variable {K : Type} [Field K] [LinearOrder K] {m32 m64 : Fmt K}

/-- The root mean squared log error with a target below -1 (and a prediction and a weight for it) is NaN. -/
theorem rmsle_nan {y p w : List (FX m64)} {i : Nat} {a : K} (hy : y[i]? = some (FX.fin a)) (ha : a + 1 < 0)
    (hp : i < p.length) (hw : i < w.length) : rmsleMetric y p w = FX.nan := by
  unfold rmsleMetric weightedTerms
  dsimp only
  rw [FX.foldl_mem_nan, FX.nan_div]
  · rfl
  · rw [List.mem_map]
    refine ⟨(FX.fin a, p[i], w[i]), ?_, ?_⟩
    · apply List.mem_of_getElem? (i := i)
      unfold zip3
      rw [List.getElem?_zip_eq_some, List.getElem?_zip_eq_some]
      exact ⟨hy, List.getElem?_eq_getElem hp, List.getElem?_eq_getElem hw⟩
    · have e : Fl.ln1p (FX.fin a : FX m64) = FX.nan := by
        show (if a + 1 < 0 then FX.nan else _ : FX m64) = _
        rw [if_pos ha]
      simp only [e, FX.nan_sub, FX.nan_mul]

/-- **C89** (the default).  The metric monitored when none is given: the log loss for the logistic loss, the root
mean squared log error for the squared loss. -/
theorem C89_default {F D : Type} (b : Booster F D) :
    b.metric = match b.evaluationMetric, b.objectiveType with
      | some x, _ => x
      | none, .logLoss => .logLoss
      | none, .squaredLoss => .rootMeanSquaredLogError := by
  unfold Booster.metric
  cases b.evaluationMetric with
  | some x => rfl
  | none => cases b.objectiveType <;> rfl

/-- **C89** (history).  A fit with the squared loss, no evaluation metric and an evaluation set with a target
below -1 records NaN for this set after every tree. -/
theorem C89_history {R : Type} {env : Env R (FX m32) (FX m64)} {b b' : Booster (FX m32) (FX m64)}
    {data : Matrix (FX m64)} {y w : List (FX m64)} {es : List (EvalSet (FX m64))}
    (h : b.fit env data y w (some es) = .ok (b', .ok ())) (ho : b.objectiveType = .squaredLoss)
    (hm : b.evaluationMetric = none) (hb : b.trees ≠ [] ∨ b.evaluationHistory = none)
    (hsz : ∀ e ∈ es, e.y.length = e.data.rows ∧ e.w.length = e.data.rows)
    {j i : Nat} {e : EvalSet (FX m64)} {a : K} (he : es[j]? = some e) (hy : e.y[i]? = some (FX.fin a))
    (ha : a + 1 < 0) (hi : b'.trees ≠ []) :
    ∃ H, b'.evaluationHistory = some H ∧ H.rows = b'.trees.length ∧
      ∀ k < b'.trees.length, H.get k j = .ok FX.nan := by
  have hes : es ≠ [] := by rintro rfl; cases he
  obtain ⟨H, h1, h2, _, h3⟩ := C21_history h hes (fun e he => (hsz e he).1) hb hi
  refine ⟨H, h1, h2, fun k hk => ?_⟩
  obtain ⟨p, m, g1, g2, g3⟩ := h3 k j e hk he
  have hmem := List.mem_of_getElem? he
  have hlen : i < e.y.length := (List.getElem?_eq_some_iff.1 hy).1
  have hp : p.length = e.data.rows := by
    rw [Booster.predict, Res.bind_eq_ok] at g1
    obtain ⟨ts, _, g1⟩ := g1
    rw [predictFold_length g1, List.length_replicate]
  have e1 : b.metric = .rootMeanSquaredLogError := by rw [C89_default, hm, ho]
  rw [e1] at g2
  have g2 : Res.ok (rmsleMetric e.y p e.w) = .ok m := g2
  rw [rmsle_nan hy ha (by rw [hp, ← (hsz e hmem).1]; exact hlen)
    (by rw [(hsz e hmem).2, ← (hsz e hmem).1]; exact hlen)] at g2
  rw [g3, ← g2]

/-- **C89** (early stopping).  If that set is the last one and early stopping is on, the best iteration is 0, so
predictions use the first tree only, and training stops after `max(rounds, 1) + 1` trees, however good or bad the
model is. -/
theorem C89_early_stopping {R : Type} {env : Env R (FX m32) (FX m64)} {b b' : Booster (FX m32) (FX m64)}
    {data : Matrix (FX m64)} {y w : List (FX m64)} {es : List (EvalSet (FX m64))} {rounds : Nat}
    (h : b.fit env data y w (some es) = .ok (b', .ok ())) (ho : b.objectiveType = .squaredLoss)
    (hm : b.evaluationMetric = none) (hr : b.earlyStoppingRounds = some rounds)
    (hb : b.trees ≠ [] ∨ b.evaluationHistory = none)
    (hsz : ∀ e ∈ es, e.y.length = e.data.rows ∧ e.w.length = e.data.rows)
    {i : Nat} {e : EvalSet (FX m64)} {a : K} (he : es.getLast? = some e) (hy : e.y[i]? = some (FX.fin a))
    (ha : a + 1 < 0) (hi : b'.trees ≠ []) :
    b'.bestIteration = some 0 ∧ b'.predictionIteration = some 1 ∧
      b'.trees.length = min b.iterations (max rounds 1 + 1) := by
  have hes : es ≠ [] := by rintro rfl; cases he
  rw [List.getLast?_eq_getElem?] at he
  obtain ⟨H, hH, _, hnan⟩ := C89_history h ho hm hb hsz he hy ha hi
  obtain ⟨H', ms, best, h1, h2, h3, h4, h5, h6, h7, h8⟩ := C20_early_stopping h hes hr hb hi
  rw [hH] at h1
  cases h1
  have hpos : 0 < b'.trees.length := List.length_pos_iff.2 hi
  have hall : ∀ (k : Nat) (m : FX m64), ms[k]? = some m → m = FX.nan := by
    intro k m hk
    have := h3 k m hk
    rw [hnan k (by rw [← h2]; exact (List.getElem?_eq_some_iff.1 hk).1)] at this
    exact (Res.ok.inj this).symm
  have nobetter : ∀ mx (x y : FX m64), x = FX.nan → ¬ Better mx x y := by
    rintro mx x y rfl ⟨hx, _⟩
    cases hx
  have h0 : ∀ n, 0 < n → FirstBestAt b.metric.maximize (ms.take n) 0 := by
    intro n hn
    have h0' : (ms.take n)[0]? = some ms[0] := by
      rw [List.getElem?_take_of_lt hn]
      exact List.getElem?_eq_getElem (by omega)
    refine ⟨_, h0', fun j z hz => nobetter _ _ _ (hall j z ?_), fun j z hj => absurd hj (by omega)⟩
    rw [List.getElem?_take] at hz
    split at hz
    · exact hz
    · cases hz
  have hbest : best = 0 := by
    have := h0 ms.length (by omega)
    rw [List.take_length] at this
    exact h6.unique this
  subst hbest
  refine ⟨h4, h5, ?_⟩
  have hle : b'.trees.length ≤ b.iterations := by
    obtain ⟨base, binned, st, stop, N, hT⟩ := Booster.fit_trace h
    rw [hT.length]
    exact hT.le
  have hle2 : b'.trees.length ≤ max rounds 1 + 1 := by
    by_contra hc
    have := h7 (b'.trees.length - 2) (by omega) 0 (h0 _ (by omega))
    omega
  by_cases hlt : b'.trees.length < b.iterations
  · have := h8 hlt
    omega
  · omega

end

/-! ## A concrete case -/

/-- Five trees are asked for, early stopping after two rounds. -/
def exDefault : Booster Q Q :=
  { exFresh with iterations := 5, earlyStoppingRounds := some 2, evaluationMetric := none }

/-- Fitting targets of which one is -2: three of five trees are grown and one is used. -/
example : ∃ b', exDefault.fit exEnv exX [q (-2), q 0, q 1, q 3, q 3, q 5] exW
      (some [{ data := exX, y := [q (-2), q 0, q 1, q 3, q 3, q 5], w := exW }]) = .ok (b', .ok ()) ∧
    b'.bestIteration = some 0 ∧ b'.predictionIteration = some 1 ∧ b'.trees.length = 3 := by
  have : (match exDefault.fit exEnv exX [q (-2), q 0, q 1, q 3, q 3, q 5] exW
      (some [{ data := exX, y := [q (-2), q 0, q 1, q 3, q 3, q 5], w := exW }]) with
    | .ok (b', .ok ()) => decide (b'.trees ≠ [])
    | _ => false) = true := by decide +kernel
  split at this
  · rename_i b' h
    refine ⟨b', h, ?_⟩
    exact C89_early_stopping (i := 0) (a := -2) h rfl rfl rfl (.inr rfl)
      (by intro e he; rw [List.mem_singleton.1 he]; exact ⟨rfl, rfl⟩) rfl rfl (by norm_num) (of_decide_eq_true this)
  · cases this

end Verif
