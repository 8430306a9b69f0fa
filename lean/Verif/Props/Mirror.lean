import Verif.Proofs.Mirror
import Verif.Proofs.ScaleMetric
import Verif.Props.Scaling
import Verif.Props.MonotoneFloat

/-!
# C84: mirrored targets

With squared loss the sign of the targets does not matter: negating the targets negates the model.  This holds in
floating point arithmetic, exactly.
-/

namespace Verif

open scoped Verif

set_option linter.unusedSectionVars false

section
variable {K : Type} [Field K] [LinearOrder K] [IsStrictOrderedRing K] {m32 m64 : Fmt K} [m32.Rounds] [m64.Rounds]

/-- The maps of targets, weights and metrics for mirrored targets. -/
def mirrorData (m64 : Fmt K) : DataMap (FX m64) := { y := fun x => -x, w := id, m := id }

/-- The parameters stay. -/
def sameParams (F : Type) : ParamMap F :=
  { l1 := id, l2 := id, gamma := id, maxDeltaStep := id, minLeafWeight := id }

theorem mirrored_eq (b : Booster (FX m32) (FX m64)) :
    b.mirrored = b.scale (mirrorScale m32 m64) (mirrorData m64) (sameParams (FX m32)) := by
  unfold Booster.mirrored Booster.scale
  have e2 : (b.evaluationHistory.map fun h => { h with data := h.data.map (mirrorData m64).m }) =
      b.evaluationHistory := by
    cases b.evaluationHistory with
    | none => rfl
    | some h =>
      show some { h with data := h.data.map id } = some h
      rw [List.map_id]
  rw [e2]
  rfl

theorem rmse_mirror (y p w : List (FX m64)) :
    rmseMetric (y.map fun x => -x) (p.map fun x => -x) w = rmseMetric y p w := by
  unfold rmseMetric
  congr 1
  have := weightedTerms_maps (f := fun x : FX m64 => -x) (g := fun x => -x) (h := id) (φ := id) (ψ := id)
    (term := fun y p w => (y - p) * (y - p) * w) (fun y p w => by
      show (-y - -p) * (-y - -p) * w = (y - p) * (y - p) * w
      rw [← FX.neg_sub', FX.neg_mul_neg']) (fun _ _ => rfl) rfl (fun _ _ => rfl) rfl (fun _ _ => rfl) y p w
  rwa [List.map_id] at this

/-- **C84**.  In floating point arithmetic (any format whose rounding is monotone and odd) with squared loss:
negating the targets (also those of the evaluation sets) and the given base score negates the fitted base score
and every node value and changes nothing else: splits, gains, covers, evaluation history, best iteration and any
error or panic are the same.  There are no monotone constraints, children are not forced to bound the parent, `l1`
and `max_delta_step` are not negative, and evaluation sets are absent or the metric is the root mean squared
error. -/
theorem C84_fit {R' : Type} {env : Env R' (FX m32) (FX m64)} (henv : env.Comparing)
    {b : Booster (FX m32) (FX m64)} {X : Matrix (FX m64)} {y w : List (FX m64)}
    {ev : Option (List (EvalSet (FX m64)))} (ho : b.objectiveType = .squaredLoss)
    (hl1 : (b.l1 <ᶠ 0) = false) (hmds : (b.maxDeltaStep <ᶠ 0) = false)
    (hmono : ∀ f c, (f, c) ∈ b.monotoneConstraints.getD [] → c = .unconstrained)
    (hforce : b.createMissingBranch = true → b.forceChildrenToBoundParent = false)
    (hm : ev = none ∨ b.metric = .rootMeanSquaredError) :
    b.mirrored.fit env X (y.map (- ·)) w (ev.map fun (es : List (EvalSet (FX m64))) => es.map EvalSet.mirrored) =
      (do let (b', r) ← b.fit env X y w ev
          .ok (b'.mirrored, r)) := by
  have key := Booster.fit_scale (σ := mirrorScale m32 m64) (δ := mirrorData m64) (P := sameParams (FX m32))
    (env := env) (b := b) (X := X) (y := y) (w := w) (ev := ev) mirrorScale_laws
    ⟨FX.neg_nan, fun _ => rfl, fun _ => rfl⟩ henv.heap
    (splitter_scaled (by
      have e : (b.scale (mirrorScale m32 m64) (mirrorData m64) (sameParams (FX m32))).splitter.params =
          b.splitter.params := by
        rw [splitter_params_eq, splitter_params_eq]; rfl
      rw [e]
      rw [splitter_params_eq]
      refine mirrorScale_params hl1 hmds fun f => ?_
      show noConstraint (List.lookup f (b.monotoneConstraints.getD [])) = true
      cases h : List.lookup f (b.monotoneConstraints.getD []) with
      | none => rfl
      | some c =>
        obtain ⟨l1, l2, h1, _⟩ := List.lookup_eq_some_iff.1 h
        rw [hmono f c (by rw [h1]; simp)]
        rfl) fun h => .inl (hforce h))
    ⟨⟨fun y p w => by
        rw [ho]
        show calcGradHess (F := FX m32) .squaredLoss [-y] [-p] [w] = _
        simp only [calcGradHess, zip3, List.zip_cons_cons, List.zip_nil_left, List.map_cons, List.map_nil,
          List.unzip_cons, List.unzip_nil, squaredLossGrad, squaredLossHess, ← FX.neg_sub', ← FX.neg_mul',
          FX.neg_down]
        rfl⟩,
      hm.imp id fun h1 => ⟨fun y p w => by
          rw [h1]
          show Res.ok (rmseMetric (y.map fun x => -x) (p.map fun x => -x) (w.map id)) = _
          rw [List.map_id, rmse_mirror]
          rfl,
        fun x y => rfl⟩,
      fun _ => mirrorScale_goss henv.natural⟩
    (by show binMatrix env.sorter X (w.map id) _ _ = _; rw [List.map_id])
    (fun _ _ => by
      rw [ho]
      unfold calcInit
      refine Res.bind_image (initSums_maps (φ := fun x => -x) (ψ := id) (χ := fun x => -x) (fun s w y => ?_)
        (fun _ _ => rfl) FX.neg_zero' rfl y w) fun r _ => ?_
      · show _ = -s + w * -y
        rw [FX.neg_add', FX.mul_neg']
      · show Res.ok (-r.1 / r.2) = Res.ok (-(r.1 / r.2))
        rw [FX.neg_div'])
  rw [← mirrored_eq] at key
  have e2 : (mirrorData m64).w = id := rfl
  have e3 : EvalSet.scale (mirrorData m64) = EvalSet.mirrored := by
    funext e
    unfold EvalSet.scale EvalSet.mirrored
    rw [e2, List.map_id]
    rfl
  rw [e2, List.map_id, e3] at key
  refine Eq.trans key ?_
  cases b.fit env X y w ev with
  | ok r =>
    refine congrArg Res.ok ?_
    show (_, r.2) = _
    rw [← mirrored_eq]
  | panic => rfl
  | diverge => rfl

/-- **C84** (predictions).  The predictions of the second booster are the negated predictions of the first, for
any data. -/
theorem C84_predict (b : Booster (FX m32) (FX m64)) (X : Matrix (FX m64)) :
    b.mirrored.predict X = (do let out ← b.predict X; .ok (out.map (- ·))) := by
  rw [mirrored_eq, Booster.predict_scale mirrorScale_laws]
  cases b.predict X <;> rfl

end

/-! ## A concrete case -/

/-- The environment of the floating point examples meets the hypotheses. -/
theorem floatEnv_comparing : floatEnv.Comparing where
  natural := exSorter_natural
  heap _ := fun _ l l' h hc => exPick_byOrder l l' h hc

/-- A booster without constraints, with all sorts of rounding errors. -/
def mirB : Option (Booster F32 F64) :=
  mfB.map fun b => { b with monotoneConstraints := none, initializeBaseScore := true, l1 := f32 (1/10)
                            maxDeltaStep := f32 (65/10), evaluationMetric := some .rootMeanSquaredError }

/-- Base score and values. -/
def mirValues (b : Booster F32 F64) : F64 × List (List F32) :=
  (b.baseScore, b.trees.map fun t => t.nodes.map fun n => n.weightValue)

/-- A fit with rounding errors meets the hypotheses of `C84_fit`: the values of the mirrored fit are the negated
values. -/
example : ∃ b b' b2, mirB = some b ∧
    b.fit floatEnv mfX mfY (List.replicate 4 1)
      (some [{ data := mfX, y := mfY, w := List.replicate 4 1 }]) = .ok (b', .ok ()) ∧
    b.mirrored.fit floatEnv mfX (mfY.map (- ·)) (List.replicate 4 1)
      (some [{ data := mfX, y := mfY.map (- ·), w := List.replicate 4 1 }]) = .ok (b2, .ok ()) ∧
    (mirValues b').1 = FX.fin (5010254585449677/562949953421312) ∧
    (mirValues b2).1 = FX.fin (-5010254585449677/562949953421312) ∧
    ((mirValues b').2[0]?.bind (·[4]?) : Option F32) = some (FX.fin (11072961/67108864)) ∧
    ((mirValues b2).2[0]?.bind (·[4]?) : Option F32) = some (FX.fin (-11072961/67108864)) := by
  have : (match mirB with
    | none => false
    | some b => decide (b.objectiveType = .squaredLoss ∧ (b.l1 <ᶠ 0) = false ∧ (b.maxDeltaStep <ᶠ 0) = false ∧
        b.monotoneConstraints = none ∧ b.createMissingBranch = false ∧ b.metric = .rootMeanSquaredError) &&
      match b.fit floatEnv mfX mfY (List.replicate 4 1)
        (some [{ data := mfX, y := mfY, w := List.replicate 4 1 }]) with
      | .ok (b', .ok ()) => decide ((mirValues b').1 = FX.fin (5010254585449677/562949953421312) ∧
          ((mirValues b').2[0]?.bind (·[4]?) : Option F32) = some (FX.fin (11072961/67108864)))
      | _ => false) = true := by decide +kernel
  split at this
  · cases this
  · rename_i b hb
    rw [Bool.and_eq_true] at this
    obtain ⟨h1, this⟩ := this
    obtain ⟨h1, h2, h3, h4, h5, h6⟩ := of_decide_eq_true h1
    split at this
    · rename_i b' h
      obtain ⟨h7, h8⟩ := of_decide_eq_true this
      have key := C84_fit floatEnv_comparing (b := b) (X := mfX) (y := mfY) (w := List.replicate 4 1)
        (ev := some [{ data := mfX, y := mfY, w := List.replicate 4 1 }]) h1 h2 h3
        (by rw [h4]; intro f c hc; cases hc) (by rw [h5]; intro h; cases h) (.inr h6)
      rw [h] at key
      refine ⟨b, b', _, hb, h, key, h7, ?_, h8, ?_⟩
      · show -(mirValues b').1 = _
        rw [h7]
        show FX.fin (-(5010254585449677/562949953421312)) = _
        norm_num
      · have e : (mirValues b'.mirrored).2 = (mirValues b').2.map (·.map (- ·)) := by
          simp only [mirValues, Booster.mirrored, Tree.mirrored, List.map_map, Function.comp_def]
        rw [e, List.getElem?_map]
        cases h9 : (mirValues b').2[0]? with
        | none => rw [h9] at h8; cases h8
        | some l =>
          rw [h9] at h8
          show (l.map (- ·))[4]? = _
          have h8 : l[4]? = some (FX.fin (11072961/67108864)) := h8
          rw [List.getElem?_map, h8]
          show some (FX.fin (-(11072961/67108864))) = _
          norm_num
    · cases this

end Verif
