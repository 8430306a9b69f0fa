import Verif.Proofs.ScaleData

/-!
# Scaled runs: metrics
-/

namespace Verif

open scoped Verif

set_option linter.unusedSectionVars false

section
variable {D : Type} [Fl D]

theorem zip3_maps (f g h : D → D) (y p w : List D) :
    zip3 (y.map f) (p.map g) (w.map h) = (zip3 y p w).map fun t => (f t.1, g t.2.1, h t.2.2) := by
  unfold zip3
  rw [List.zip_map, List.zip_map]
  rfl

/-- The weighted mean of mapped terms. -/
theorem weightedTerms_maps {f g h φ ψ : D → D} {term : D → D → D → D}
    (ht : ∀ y p w, term (f y) (g p) (h w) = φ (term y p w)) (ha : ∀ x y, φ (x + y) = φ x + φ y) (h0 : φ 0 = 0)
    (hb : ∀ x y, h (x + y) = h x + h y) (hb0 : h 0 = 0) (hd : ∀ x y, φ x / h y = ψ (x / y)) (y p w : List D) :
    weightedTerms term (y.map f) (p.map g) (w.map h) = ψ (weightedTerms term y p w) := by
  unfold weightedTerms
  dsimp only
  rw [zip3_maps, List.map_map, List.map_map, ← hd]
  have e1 : (zip3 y p w).map ((fun t : D × D × D => term t.1 t.2.1 t.2.2) ∘ fun t => (f t.1, g t.2.1, h t.2.2)) =
      ((zip3 y p w).map fun t => term t.1 t.2.1 t.2.2).map φ := by
    rw [List.map_map]
    exact List.map_congr_left fun t _ => ht _ _ _
  have e2 : (zip3 y p w).map ((fun t : D × D × D => t.2.2) ∘ fun t => (f t.1, g t.2.1, h t.2.2)) =
      ((zip3 y p w).map fun t => t.2.2).map h := by
    rw [List.map_map]; rfl
  rw [e1, e2]
  have f1 := foldl_scale φ ha ((zip3 y p w).map fun t => term t.1 t.2.1 t.2.2) 0
  have f2 := foldl_scale h hb ((zip3 y p w).map fun t => t.2.2) 0
  rw [h0] at f1
  rw [hb0] at f2
  rw [f1, f2]

end

section
variable {K : Type} [Field K] [LinearOrder K] [IsStrictOrderedRing K] {m64 : Fmt K} {c : K} [m64.ScalesBy c]

/-- Image of the accumulators of the AUC. -/
def aucScale (c : K) (s : AucState (FX m64)) : AucState (FX m64) :=
  { auc := FX.smul (c * c) s.auc, fp := FX.smul c s.fp, tp := FX.smul c s.tp, fpPrev := FX.smul c s.fpPrev
    tpPrev := FX.smul c s.tpPrev }

theorem trapezoid_smul (hc : 0 < c) (a b x y : FX m64) :
    trapezoidArea (FX.smul c a) (FX.smul c b) (FX.smul c x) (FX.smul c y) =
      FX.smul (c * c) (trapezoidArea a b x y) := by
  unfold trapezoidArea
  rw [← FX.smul_sub, ← FX.smul_abs hc, ← FX.smul_add, FX.smul_mul_smul hc hc, ← FX.smul_mul (mul_pos hc hc)]

theorem aucLoop_smul (hc : 0 < c) : ∀ (l : List (FX m64 × FX m64 × FX m64)) (prev : FX m64)
    (s : AucState (FX m64)), aucLoop (l.map fun t => (t.1, t.2.1, FX.smul c t.2.2)) prev (aucScale c s) =
      aucScale c (aucLoop l prev s) := by
  intro l
  induction l with
  | nil => intros; rfl
  | cons a l ih =>
    obtain ⟨p, label, w⟩ := a
    intro prev s
    simp only [List.map_cons, aucLoop]
    rw [← ih]
    congr 1
    split
    · simp only [aucScale, trapezoid_smul hc, FX.smul_add, FX.smul_mul_right hc]
    · simp only [aucScale, FX.smul_add, FX.smul_mul_right hc]

theorem rocAuc_smul (hc : 0 < c) {S : Sorter} (hS : S.Natural) (y p w : List (FX m64)) :
    rocAucScore S y p (w.map (FX.smul c)) = rocAucScore S y p w := by
  unfold rocAucScore
  refine Res.bind_image_eq (φ := List.map fun t : FX m64 × FX m64 × FX m64 => (t.1, t.2.1, FX.smul c t.2.2)) ?_
    fun rows _ => ?_
  · refine Res.mapM'_same (fun q => ?_) _
    exact Res.bind_same fun s _ => Res.bind_image (φ := FX.smul c) (idx_map _ _ _) fun u _ => rfl
  · dsimp only
    rw [hS (fun t : FX m64 × FX m64 × FX m64 => (t.1, t.2.1, FX.smul c t.2.2)) (fun a b => Fl.tle b.1 a.1)
      (fun a b => Fl.tle b.1 a.1) rows (fun _ _ _ _ => rfl)]
    cases S.sort (fun a b : FX m64 × FX m64 × FX m64 => Fl.tle b.1 a.1) rows with
    | nil => rfl
    | cons a l =>
      obtain ⟨s, label, u⟩ := a
      simp only [List.map_cons]
      have e : ({ auc := 0, fp := (1 - label) * FX.smul c u, tp := label * FX.smul c u, fpPrev := 0, tpPrev := 0 } :
          AucState (FX m64)) = aucScale c { auc := 0, fp := (1 - label) * u, tp := label * u, fpPrev := 0
                                            tpPrev := 0 } := by
        simp only [aucScale, FX.smul_zero, FX.smul_mul_right hc]
      rw [e, aucLoop_smul hc]
      generalize aucLoop l s { auc := 0, fp := (1 - label) * u, tp := label * u, fpPrev := 0, tpPrev := 0 } = st
      simp only [aucScale, FX.smul_le_zero hc, trapezoid_smul hc, ← FX.smul_add, FX.smul_mul_smul hc hc,
        FX.smul_div_smul (mul_pos hc hc)]

theorem metric_weights (hc : 0 < c) {S : Sorter} (hS : S.Natural) (mt : Metric) (y p w : List (FX m64)) :
    mt.eval S y p (w.map (FX.smul c)) = mt.eval S y p w := by
  have key : ∀ term : FX m64 → FX m64 → FX m64 → FX m64,
      (∀ y p w, term y p (FX.smul c w) = FX.smul c (term y p w)) →
      weightedTerms term y p (w.map (FX.smul c)) = weightedTerms term y p w := by
    intro term ht
    have := weightedTerms_maps (f := id) (g := id) (h := FX.smul c) (φ := FX.smul c) (ψ := id) (term := term)
      ht (FX.smul_add c) (FX.smul_zero c) (FX.smul_add c) (FX.smul_zero c) (fun x y => FX.smul_div_smul hc x y) y p w
    rwa [List.map_id, List.map_id] at this
  unfold Metric.eval
  cases mt with
  | auc => exact rocAuc_smul hc hS y p w
  | logLoss =>
    simp only
    unfold logLossMetric
    rw [key]
    intro y p w
    unfold logLossTerm
    exact (FX.smul_mul_right hc _ _).symm
  | rootMeanSquaredLogError =>
    simp only
    unfold rmsleMetric
    rw [key]
    intro y p w
    exact (FX.smul_mul_right hc _ _).symm
  | rootMeanSquaredError =>
    simp only
    unfold rmseMetric
    rw [key]
    intro y p w
    exact (FX.smul_mul_right hc _ _).symm

theorem rmse_smul (hc : 0 < c) (hq : ∀ x : FX m64, Fl.sqrt (FX.smul (c * c) x) = FX.smul c (Fl.sqrt x))
    (y p w : List (FX m64)) :
    rmseMetric (y.map (FX.smul c)) (p.map (FX.smul c)) w = FX.smul c (rmseMetric y p w) := by
  unfold rmseMetric
  rw [← hq]
  have := weightedTerms_maps (f := FX.smul c) (g := FX.smul c) (h := id) (φ := FX.smul (c * c))
    (ψ := FX.smul (c * c)) (term := fun y p w : FX m64 => (y - p) * (y - p) * w)
    (fun y p w => by
      show (FX.smul c y - FX.smul c p) * (FX.smul c y - FX.smul c p) * w = _
      rw [← FX.smul_sub, FX.smul_mul_smul hc hc, ← FX.smul_mul (mul_pos hc hc)])
    (FX.smul_add _) (FX.smul_zero _) (fun _ _ => rfl) rfl
    (fun x y => (FX.smul_div (mul_pos hc hc) x y).symm) y p w
  rw [List.map_id] at this
  rw [this]

end

end Verif
