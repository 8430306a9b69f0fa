import Verif.Proofs.Drawn
import Verif.Props.Shift
import Verif.Spec.ExampleFit

/-!
# C139: rows that are never drawn have no say

`fit_trees` samples the rows of every tree (src/gradientbooster.rs 493-509, 576-586, src/sampler.rs 37-55) and `Tree::fit`
reads the gradients through the sample (src/tree.rs 50-65).  A row that is drawn in no iteration therefore cannot
influence the model, except through the initial score and the bins.
-/

namespace Verif

open scoped Verif

set_option linter.unusedSectionVars false

section
variable {R F D : Type} [Fl F] [Fl D] [FlCast F D]

/-- **C139** (one tree).  With either sampling method a tree depends on the gradients and hessians of the rows it was
given only. -/
theorem C139_tree {c c' : GrowCfg F D} {sm : SampleMethod} {index : List Nat} (hm : sm ≠ .none)
    (hc : c' = { c with train := { c.train with grad := c'.train.grad, hess := c'.train.hess } })
    (hg : ∀ i ∈ index, c'.train.grad[i]? = c.train.grad[i]? ∧ c'.train.hess[i]? = c.train.hess[i]?) :
    Tree.fit c' sm index = Tree.fit c sm index := by
  rw [hc]
  exact treeFit_sameOn hm hg

theorem validate_clean {y w : List D} (hy : ∀ v ∈ y, isNaN v = false)
    (hw : ∀ v ∈ w, isNaN v = false ∧ (v <ᶠ 0) = false) (ev : Option (List (EvalSet D))) :
    validateFit y w ev = match ev with | none => .ok () | some es => validateEvals es 0 := by
  have h1 : y.any isNaN = false := by rw [List.any_eq_false]; intro v hv; rw [hy v hv]; simp
  have h2 : (w.filter fun i => isNaN i || i <ᶠ 0) = [] := by
    rw [List.filter_eq_nil_iff]; intro v hv; rw [(hw v hv).1, (hw v hv).2]; simp
  unfold validateFit validatePositiveNotNanVec validatePositiveVec validateNotNanVec
  rw [h1, h2]
  rfl

/-- **C139** (targets and weights).  Rows are drawn at random and the initial score is given.  Let other targets and
weights be as valid as the first, agree with them on every row that the generator draws in one of the iterations, and
give the same bins.  Then the fits are the same, with the same outcome. -/
theorem C139_rows {env : Env R F D} {b : Booster F D} {X : Matrix D} {y y' w w' : List D}
    {ev : Option (List (EvalSet D))} (hm : b.sampleMethod = .random) (hb : b.initializeBaseScore = false)
    (hlen : y'.length = y.length) (hy : ∀ v ∈ y, isNaN v = false) (hy' : ∀ v ∈ y', isNaN v = false)
    (hw : ∀ v ∈ w, isNaN v = false ∧ (v <ᶠ 0) = false) (hw' : ∀ v ∈ w', isNaN v = false ∧ (v <ᶠ 0) = false)
    (hbin : binMatrix env.sorter X w' b.nbins b.missing = binMatrix env.sorter X w b.nbins b.missing)
    (hd : ∀ i, EverDrawn env.rng b.subsample b.colsampleBytree X.rows X.cols (env.rng.seed b.seed) b.iterations i →
      y'[i]? = y[i]? ∧ w'[i]? = w[i]?) :
    b.fit env X y' w' ev = b.fit env X y w ev := by
  have main : fitTrees env b X y w b.splitter ev = fitTrees env b X y' w' b.splitter ev := by
    rw [fitTrees_eq_rest, fitTrees_eq_rest]
    dsimp only
    have hb0 : (if b.trees.isEmpty then b else b.reset).initializeBaseScore = false := by split <;> exact hb
    have hs : (if b.trees.isEmpty then b else b.reset).sampleMethod = .random := by split <;> exact hm
    have e1 : (if b.trees.isEmpty then b else b.reset).subsample = b.subsample := by split <;> rfl
    have e2 : (if b.trees.isEmpty then b else b.reset).colsampleBytree = b.colsampleBytree := by split <;> rfl
    have e3 : (if b.trees.isEmpty then b else b.reset).seed = b.seed := by split <;> rfl
    have e4 : (if b.trees.isEmpty then b else b.reset).iterations = b.iterations := by split <;> rfl
    have e5 : (if b.trees.isEmpty then b else b.reset).nbins = b.nbins := by split <;> rfl
    have e6 : (if b.trees.isEmpty then b else b.reset).missing = b.missing := by split <;> rfl
    generalize (if b.trees.isEmpty then b else b.reset) = b0 at *
    rw [hb0]
    simp only [Bool.false_eq_true, if_false]
    unfold fitRest
    dsimp only
    rw [e5, e6, hbin, hlen, e3, e4]
    refine Res.Rel.eq (Res.Rel.bind (Res.Rel.of_eq rfl) fun bd _ _ _ e => ?_)
    subst e
    refine Res.Rel.bind (fitLoop_drawn (y := y) (y' := y') (w := w) (w' := w') b.iterations 0 _
      (calcGradHess (F := F) b0.objectiveType y' (List.replicate y.length b0.baseScore) w').1
      (calcGradHess (F := F) b0.objectiveType y' (List.replicate y.length b0.baseScore) w').2 hs e1 e2 fun k hk => ?_)
      fun s s' _ _ (hss : s.booster = s'.booster) => hss
    obtain ⟨p1, p2⟩ := hd k hk
    exact ⟨p1, p2, calcGradHess_at _ _ p1 p2⟩
  unfold Booster.fit
  rw [validate_clean hy' hw', validate_clean hy hw, main]

/-- **C139** (targets).  With random sampling and a given initial score the target of a row that is never drawn can be
replaced by any number that is not NaN: the fit is the same. -/
theorem C139_targets {env : Env R F D} {b : Booster F D} {X : Matrix D} {y y' w : List D}
    {ev : Option (List (EvalSet D))} (hm : b.sampleMethod = .random) (hb : b.initializeBaseScore = false)
    (hlen : y'.length = y.length) (hy : ∀ v ∈ y, isNaN v = false) (hy' : ∀ v ∈ y', isNaN v = false)
    (hw : ∀ v ∈ w, isNaN v = false ∧ (v <ᶠ 0) = false)
    (hd : ∀ i, EverDrawn env.rng b.subsample b.colsampleBytree X.rows X.cols (env.rng.seed b.seed) b.iterations i →
      y'[i]? = y[i]?) :
    b.fit env X y' w ev = b.fit env X y w ev :=
  C139_rows hm hb hlen hy hy' hw hw rfl fun i hi => ⟨hd i hi, rfl⟩

end

/-! ## Examples -/

/-- Two trees on half of the rows, the initial score given. -/
def exHalf (init : Bool) : Booster Q Q :=
  { exFresh with iterations := 2, sampleMethod := .random, subsample := q (1/2), seed := 0
                 initializeBaseScore := init, colsampleBytree := q 1 }

/-- Another target for the last row. -/
def exYOther : List Q := [q 0, q 0, q 1, q 3, q 3, q 900]

/-- The rows drawn by two iterations are the first five. -/
theorem exHalf_drawn {i : Nat} (h : EverDrawn exEnv.rng (exHalf false).subsample (exHalf false).colsampleBytree exX.rows
    exX.cols (exEnv.rng.seed (exHalf false).seed) (exHalf false).iterations i) : i < 5 := by
  obtain ⟨k, hk, hi, x, hx, hlt⟩ := h
  have hk : k < 2 := hk
  have hi : i < 6 := hi
  by_contra hc
  have : i = 5 := by omega
  subst this
  have h01 : k = 0 ∨ k = 1 := by omega
  rcases h01 with rfl | rfl
  · have e : (draws exEnv.rng.genF (stateAt exEnv.rng (exHalf false).colsampleBytree exX.rows exX.cols
        (exEnv.rng.seed (exHalf false).seed) 0) exX.rows)[5]? = some (q (5/7)) := by decide +kernel
    rw [e] at hx
    cases hx
    exact absurd hlt (by decide +kernel)
  · have e : (draws exEnv.rng.genF (stateAt exEnv.rng (exHalf false).colsampleBytree exX.rows exX.cols
        (exEnv.rng.seed (exHalf false).seed) 1) exX.rows)[5]? = some (q (4/7)) := by decide +kernel
    rw [e] at hx
    cases hx
    exact absurd hlt (by decide +kernel)

/-- C139: the last row is never drawn, its target goes from 5 to 900, and the fit is the same; it succeeds and splits. -/
example : (exHalf false).fit exEnv exX exYOther exW none = (exHalf false).fit exEnv exX exY exW none ∧
    ∃ b', (exHalf false).fit exEnv exX exY exW none = .ok (b', .ok ()) ∧ ∃ t ∈ b'.trees, 1 < t.nodes.length := by
  refine ⟨C139_targets rfl rfl rfl (by decide +kernel) (by decide +kernel) (by decide +kernel) fun i hi => ?_, ?_⟩
  · have := exHalf_drawn hi
    have h : ∀ i < 5, exYOther[i]? = exY[i]? := by decide +kernel
    exact h i this
  · have : (match (exHalf false).fit exEnv exX exY exW none with
      | .ok (b', .ok ()) => b'.trees.any fun t => decide (1 < t.nodes.length)
      | _ => false) = true := by decide +kernel
    split at this
    · next b' hb =>
      simp only [List.any_eq_true, decide_eq_true_eq] at this
      exact ⟨b', hb, this⟩
    · cases this

/-- **C139** (the condition is needed).  With an initial score computed from the targets a row that is never drawn
changes the model. -/
theorem C139_initial_score : ∃ b1 b2, (exHalf true).fit exEnv exX exY exW none = .ok (b1, .ok ()) ∧
    (exHalf true).fit exEnv exX exYOther exW none = .ok (b2, .ok ()) ∧ b1.baseScore ≠ b2.baseScore ∧
    b1.trees ≠ b2.trees := by
  have : (match (exHalf true).fit exEnv exX exY exW none, (exHalf true).fit exEnv exX exYOther exW none with
    | .ok (b1, .ok ()), .ok (b2, .ok ()) => decide (b1.baseScore ≠ b2.baseScore) && decide (b1.trees ≠ b2.trees)
    | _, _ => false) = true := by decide +kernel
  split at this
  · next b1 b2 h1 h2 =>
    simp only [Bool.and_eq_true, decide_eq_true_eq] at this
    exact ⟨b1, b2, h1, h2, this.1, this.2⟩
  · cases this

end Verif
