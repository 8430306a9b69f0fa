import Verif.Proofs.Idle
import Verif.Props.Boosting
import Verif.Props.Copies

/-!
# C115: settings that do not apply have no influence

The seed and the generator without sampling, the rates of another way of sampling, the treatment of missing branches
when none are made, metric and patience without evaluation data, the base score when it is computed from the data.
-/

namespace Verif

open scoped Verif

section
variable {R R' F D : Type} [Fl F] [Fl D] [FlCast F D]

theorem drawSame_idle (env : Env R F D) {b : Booster F D} {p : IdleParams F D} {e : Prop} (hp : p.For b e)
    (X : Matrix D) : DrawSame env env Eq p b X.index X.cols := by
  rintro r _ grad hess rfl
  refine ⟨?_, rfl, rfl⟩
  have e : sampleIndex env.sorter env.rng b.sampleMethod p.subsample p.topRate p.otherRate r X.index grad hess =
      sampleIndex env.sorter env.rng b.sampleMethod b.subsample b.topRate b.otherRate r X.index grad hess := by
    cases h : b.sampleMethod with
    | none => rfl
    | random => rw [hp.subsample h]; rfl
    | goss => rw [(hp.rates h).1, (hp.rates h).2]; rfl
  rw [e]
  exact Res.Rel.refl (fun _ => ⟨rfl, rfl, rfl, rfl⟩) _

/-- **C115** (settings).  Settings that do not apply are carried through `fit` and have no influence on anything else:
result, trees, history, also panics.  Any arithmetic, any environment. -/
theorem C115_settings (env : Env R F D) {b : Booster F D} {p : IdleParams F D} {ev : Option (List (EvalSet D))}
    (hp : p.For b (ev ≠ none)) (hs : p.seed = b.seed) (hn : p.nbins = b.nbins) (X : Matrix D) (y w : List D) :
    (b.withIdle p).fit env X y w ev = (b.fit env X y w ev >>= fun r => .ok (r.1.withIdle p, r.2)) := by
  exact fit_idle (ρ := Eq) rfl rfl (drawSame_idle env hp X) hp (by rw [hs]) y w (by rw [hn])

/-- **C115** (seed and generator).  Without sampling of rows and columns the seed and the random generator have no
influence.  Any arithmetic. -/
theorem C115_seed {env : Env R F D} {env' : Env R' F D} (hS : env'.sorter = env.sorter) (hH : env'.heap = env.heap)
    {b : Booster F D} (hm : b.sampleMethod = .none) (hc : (b.colsampleBytree =ᶠ 1) = true) {p : IdleParams F D}
    {ev : Option (List (EvalSet D))} (hp : p.For b (ev ≠ none)) (hn : p.nbins = b.nbins) (X : Matrix D) (y w : List D) :
    (b.withIdle p).fit env' X y w ev = (b.fit env X y w ev >>= fun r => .ok (r.1.withIdle p, r.2)) := by
  refine fit_idle (ρ := fun _ _ => True) hS hH ?_ hp trivial y w (by rw [hn])
  intro r r' grad hess _
  rw [hm]
  refine ⟨⟨rfl, rfl, rfl, trivial⟩, ?_, trivial⟩
  unfold sampleColumns
  rw [if_pos hc, if_pos hc]

/-- **C115** (number of bins).  Once the different values of every column fit in the bins (one more is allowed), the
number of bins has no influence either.  Any arithmetic whose comparison is a strict order. -/
theorem C115_nbins [Fl.OrdLaws D] {env : Env R F D} (hS : env.sorter.Ok) {b : Booster F D} {X : Matrix D}
    (hX : X.Shaped) {p : IdleParams F D} {ev : Option (List (EvalSet D))} (hp : p.For b (ev ≠ none))
    (hs : p.seed = b.seed) (hn : ∀ c < X.cols, X.Few b.missing (b.nbins + 1) c)
    (hn' : ∀ c < X.cols, X.Few b.missing (p.nbins + 1) c) (y w : List D) :
    (b.withIdle p).fit env X y w ev = (b.fit env X y w ev >>= fun r => .ok (r.1.withIdle p, r.2)) := by
  refine fit_idle (ρ := Eq) rfl rfl ?_ hp (by rw [hs]) y w
    (binMatrix_few hS hX (fun c hc => ⟨hn c hc, hn' c hc⟩) w)
  exact drawSame_idle env hp X

/-- **C115** (base score).  When the base score is computed from the data, the value set before the fit has no
influence.  Any arithmetic. -/
theorem C115_base_score (env : Env R F D) {b b' : Booster F D} (hi : b.initializeBaseScore = true) (s : D)
    {X : Matrix D} {y w : List D} {ev : Option (List (EvalSet D))} (h : b.fit env X y w ev = .ok (b', .ok ())) :
    ({ b with baseScore := s }).fit env X y w ev = .ok (b', .ok ()) := by
  unfold Booster.fit at h ⊢
  split at h
  · cases h
  · rw [← h]
    have e : fitTrees env { b with baseScore := s } X y w ({ b with baseScore := s } : Booster F D).splitter ev =
        fitTrees env b X y w b.splitter ev := by
      rw [show ({ b with baseScore := s } : Booster F D).splitter = b.splitter from rfl, fitTrees_eq_rest,
        fitTrees_eq_rest]
      have h0 : (if ({ b with baseScore := s } : Booster F D).trees.isEmpty then { b with baseScore := s }
            else ({ b with baseScore := s } : Booster F D).reset) =
          { (if b.trees.isEmpty then b else b.reset) with baseScore := s } := by
        dsimp only
        split <;> rfl
      have hi0 : (if b.trees.isEmpty then b else b.reset).initializeBaseScore = true := by
        split <;> exact hi
      rw [h0]
      generalize (if b.trees.isEmpty then b else b.reset) = b0 at hi0
      dsimp only
      rw [if_pos hi0, if_pos hi0]
    rw [e]

end

/-! ## With sampling the seed matters -/

/-- Rows are drawn. -/
def exDraws (seed : Nat) : Booster Q Q :=
  { exFresh with iterations := 1, sampleMethod := .random, subsample := q (1/2), seed := seed }

/-- **C115** (the condition is needed).  With random sampling of rows two seeds can give different trees. -/
theorem C115_sampling : ∃ b1 b2, (exDraws 0).fit exEnv exX exY exW none = .ok (b1, .ok ()) ∧
    (exDraws 3).fit exEnv exX exY exW none = .ok (b2, .ok ()) ∧ b1.trees ≠ b2.trees := by
  have : (match (exDraws 0).fit exEnv exX exY exW none, (exDraws 3).fit exEnv exX exY exW none with
    | .ok (b1, .ok ()), .ok (b2, .ok ()) => decide (b1.trees ≠ b2.trees)
    | _, _ => false) = true := by decide +kernel
  split at this
  · next b1 b2 h1 h2 => exact ⟨b1, b2, h1, h2, by simpa using this⟩
  · cases this

/-! ## Examples -/

/-- Other values for all idle settings. -/
def exIdle : IdleParams Q Q :=
  { seed := 77, nbins := 8, subsample := q (1/3), topRate := q (1/4), otherRate := q (1/5), logIterations := 3
    metadata := [("a", "b")], terminateMissingFeatures := [1], missingNodeTreatment := .assignToParent
    forceChildrenToBoundParent := true, evaluationMetric := some .rootMeanSquaredError, earlyStoppingRounds := some 9 }

/-- C115: the settings are idle for a fit without evaluation data, and the fit succeeds and splits. -/
example : exIdle.For exStop (none ≠ (none : Option (List (EvalSet Q)))) ∧ exStop.sampleMethod = .none ∧
    (exStop.colsampleBytree =ᶠ 1) = true ∧ exStop.initializeBaseScore = true ∧
    exIdle.earlyStoppingRounds ≠ exStop.earlyStoppingRounds ∧
    ∃ b' : Booster Q Q, exStop.fit exEnv exX exY exW none = .ok (b', .ok ()) ∧ ∃ t ∈ b'.trees, 1 < t.nodes.length := by
  refine ⟨⟨fun h => (by cases h), fun h => (by cases h), fun h => (by cases h), fun h => absurd rfl h⟩, rfl, by decide +kernel,
    rfl, by decide, ?_⟩
  have : (match exStop.fit exEnv exX exY exW none with
    | .ok (b', .ok ()) => b'.trees.any fun t => decide (1 < t.nodes.length)
    | _ => false) = true := by decide +kernel
  split at this
  · next b' h =>
    simp only [List.any_eq_true, decide_eq_true_eq] at this
    exact ⟨b', h, this⟩
  · cases this

/-- C115: the six rows of the example have at most six different values, so 5 bins are as good as 8. -/
example : exEnv.sorter.Ok ∧ exX.Shaped ∧ (∀ c < exX.cols, exX.Few exStop.missing (exStop.nbins + 1) c) ∧
    (∀ c < exX.cols, exX.Few exStop.missing (5 + 1) c) ∧ exStop.nbins = 8 := by
  have key : ∀ c < exX.cols, exX.Few exStop.missing 6 c := by
    intro c hc
    refine ⟨[q 1, q 2, q 3, q 4, q 5, q 6], le_refl _, fun i v h hm => ?_⟩
    have hv : v ∈ exX.data := List.mem_of_getElem? h
    simp only [exX, List.mem_cons, List.not_mem_nil, or_false] at hv
    rcases hv with rfl | rfl | rfl | rfl | rfl | rfl | rfl | rfl | rfl | rfl | rfl | rfl <;> first
      | exact absurd rfl hm
      | simp
  refine ⟨exEnv_natural.sorter, by unfold Matrix.Shaped; decide, fun c hc => ?_, key, rfl⟩
  obtain ⟨L, h1, h2⟩ := key c hc
  exact ⟨L, le_trans h1 (by decide), h2⟩

/-- C115: with random sampling `subsample` must stay, the rates of GOSS are idle. -/
example : ({ exIdle with subsample := q (1/2), seed := 3 } : IdleParams Q Q).For (exDraws 3) (none ≠ (none : Option (List (EvalSet Q)))) :=
  ⟨fun _ => rfl, fun h => (by cases h), fun h => (by cases h), fun h => absurd rfl h⟩

end Verif
