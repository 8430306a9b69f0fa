import Verif.Model.Utils

/-!
# Objectives and metrics (`src/objective.rs`, `src/metric.rs`)
-/

namespace Verif

open scoped Verif

/-- `ObjectiveType` (src/objective.rs 6-10). -/
inductive ObjectiveType where
  | logLoss
  | squaredLoss
  deriving DecidableEq, Repr

/-- `Metric` (src/metric.rs 34-40). -/
inductive Metric where
  | auc
  | logLoss
  | rootMeanSquaredLogError
  | rootMeanSquaredError
  deriving DecidableEq, Repr

section
variable {F D : Type} [Fl D]

/-- `y.iter().zip(yhat).zip(sample_weight)`. -/
def zip3 {T : Type} (a b c : List T) : List (T × T × T) := a.zip (b.zip c)

/-- The logistic transform inlined in the objectives (src/objective.rs 43, 65). -/
def logistic (x : D) : D := 1 / (1 + Fl.exp (-x))

/-- One term of `LogLoss::calc_loss` (src/objective.rs 42-45), before the cast. -/
def logLossTerm (y yhat w : D) : D :=
  let p := logistic yhat;
  (-(y * Fl.ln p + (1 - y) * Fl.ln (1 - p))) * w

/-- One gradient of `LogLoss::calc_grad_hess` (src/objective.rs 64-70), before the cast. -/
def logLossGrad (y yhat w : D) : D := (logistic yhat - y) * w

/-- One hessian of `LogLoss::calc_grad_hess` (src/objective.rs 64-70), before the cast. -/
def logLossHess (_y yhat w : D) : D := logistic yhat * (1 - logistic yhat) * w

/-- One term of `SquaredLoss::calc_loss` (src/objective.rs 88-91), before the cast. -/
def squaredLossTerm (y yhat w : D) : D := (y - yhat) * (y - yhat) * w

/-- One gradient of `SquaredLoss::calc_grad_hess` (src/objective.rs 107-113), before the cast. -/
def squaredLossGrad (y yhat w : D) : D := (yhat - y) * w

/-- One hessian of `SquaredLoss::calc_grad_hess` (src/objective.rs 107-113), before the cast. -/
def squaredLossHess (_y _yhat w : D) : D := w

/-- `calc_loss` of the objective (src/objective.rs 38-47, 84-93). -/
def calcLoss [FlCast F D] (o : ObjectiveType) (y yhat w : List D) : List F :=
  (zip3 y yhat w).map fun t => match o with
    | .logLoss => down (logLossTerm t.1 t.2.1 t.2.2)
    | .squaredLoss => down (squaredLossTerm t.1 t.2.1 t.2.2)

/-- `gradient_hessian_callables` and `calc_grad_hess` (src/objective.rs 12-17, 60-72, 107-113). -/
def calcGradHess [FlCast F D] (o : ObjectiveType) (y yhat w : List D) : List F × List F :=
  ((zip3 y yhat w).map fun t => match o with
    | .logLoss => (down (logLossGrad t.1 t.2.1 t.2.2), down (logLossHess t.1 t.2.1 t.2.2))
    | .squaredLoss =>
      (down (squaredLossGrad t.1 t.2.1 t.2.2), down (squaredLossHess t.1 t.2.1 t.2.2))).unzip

/-- The accumulation loop of `calc_init` (src/objective.rs 50-55, 96-101); `sample_weight[i]` panics
when the weights are shorter than `y`. -/
def initSums (y w : List D) : Res (D × D) :=
  Res.foldM' (fun (s : D × D) (p : D × Nat) => do
    let wi ← idx w p.2
    .ok (s.1 + wi * p.1, s.2 + wi)) (0, 0) y.zipIdx

/-- `calc_init_callables` and `calc_init` (src/objective.rs 19-24, 49-57, 95-104). -/
def calcInit (o : ObjectiveType) (y w : List D) : Res D := do
  let (ytot, ntot) ← initSums y w
  match o with
  | .logLoss => .ok (Fl.ln (ytot / (ntot - ytot)))
  | .squaredLoss => .ok (ytot / ntot)

/-- `default_metric` (src/objective.rs 74-76, 114-116). -/
def ObjectiveType.defaultMetric : ObjectiveType → Metric
  | .logLoss => .logLoss
  | .squaredLoss => .rootMeanSquaredLogError

/-- `is_comparison_better` (src/metric.rs 12-31). -/
def isComparisonBetter (value comparison : D) (maximize : Bool) : Bool :=
  match isNaN value, isNaN comparison with
  | true, true => false
  | false, true => false
  | true, false => true
  | false, false => if maximize then value <ᶠ comparison else comparison <ᶠ value

/-- Weighted mean of the terms: the shared shape of `log_loss`, `root_mean_squared_log_error`
and `root_mean_squared_error` (src/metric.rs 126-167). -/
def weightedTerms (term : D → D → D → D) (y yhat w : List D) : D :=
  let z := zip3 y yhat w
  let res := (z.map fun t => term t.1 t.2.1 t.2.2).foldl (· + ·) 0
  let wsum := (z.map fun t => t.2.2).foldl (· + ·) 0
  res / wsum

/-- `log_loss` (src/metric.rs 126-139). -/
def logLossMetric (y yhat w : List D) : D := weightedTerms logLossTerm y yhat w

/-- `root_mean_squared_log_error` (src/metric.rs 141-153). -/
def rmsleMetric (y yhat w : List D) : D :=
  Fl.sqrt (weightedTerms (fun y p w =>
    (Fl.ln1p y - Fl.ln1p p) * (Fl.ln1p y - Fl.ln1p p) * w) y yhat w)

/-- `root_mean_squared_error` (src/metric.rs 155-167). -/
def rmseMetric (y yhat w : List D) : D :=
  Fl.sqrt (weightedTerms (fun y p w => (y - p) * (y - p) * w) y yhat w)

/-- `trapezoid_area` (src/metric.rs 169-171). -/
def trapezoidArea (x0 x1 y0 y1 : D) : D := Fl.abs (x0 - x1) * (y0 + y1) * (1 / Fl.ofNat 2)

/-- Accumulators of `roc_auc_score`. -/
structure AucState (D : Type) where
  /-- area so far -/
  auc : D
  /-- false positives -/
  fp : D
  /-- true positives -/
  tp : D
  /-- false positives at the last threshold -/
  fpPrev : D
  /-- true positives at the last threshold -/
  tpPrev : D

/-- Loop of `roc_auc_score` (src/metric.rs 185-195) over the sorted `(score, label, weight)`; `prev` is
the previous score. -/
def aucLoop : List (D × D × D) → D → AucState D → AucState D
  | [], _, s => s
  | (p, label, w) :: l, prev, s =>
    let s := if !(p =ᶠ prev) then
        { s with auc := s.auc + trapezoidArea s.fpPrev s.fp s.tpPrev s.tp
                 tpPrev := s.tp, fpPrev := s.fp }
      else s
    aucLoop l p { s with fp := s.fp + (1 - label) * w, tp := s.tp + label * w }

/-- `roc_auc_score` (src/metric.rs 173-205).  Panics: no rows, `yhat` or the weights shorter than
`y`.  The code sorts row numbers by score; the model sorts the `(score, label, weight)` triples, which
differs at most in how ties are ordered. -/
def rocAucScore (S : Sorter) (y yhat sampleWeight : List D) : Res D := do
  let rows ← Res.mapM' (fun (p : D × Nat) => do
    let s ← idx yhat p.2
    let w ← idx sampleWeight p.2
    pure (s, p.1, w)) y.zipIdx
  let sorted := S.sort (fun a b => Fl.tle b.1 a.1) rows
  match sorted with
  | [] => .panic
  | (p, label, w) :: l =>
    let s := aucLoop l p
      { auc := 0, fp := (1 - label) * w, tp := label * w, fpPrev := 0, tpPrev := 0 }
    let auc := s.auc + trapezoidArea s.fpPrev s.fp s.tpPrev s.tp
    if s.fp ≤ᶠ 0 || s.tp ≤ᶠ 0 then .ok (0 / (0 * 0)) else .ok (auc / (s.tp * s.fp))

/-- `metric_callables`: the metric (src/metric.rs 66-79). -/
def Metric.eval (S : Sorter) (m : Metric) (y yhat w : List D) : Res D :=
  match m with
  | .auc => rocAucScore S y yhat w
  | .logLoss => .ok (logLossMetric y yhat w)
  | .rootMeanSquaredLogError => .ok (rmsleMetric y yhat w)
  | .rootMeanSquaredError => .ok (rmseMetric y yhat w)

/-- `metric_callables`: is larger better (src/metric.rs 66-79). -/
def Metric.maximize : Metric → Bool
  | .auc => true
  | _ => false

end

end Verif
