import Verif.Model.ParallelFit
import Verif.Props.Parallel
import Verif.Proofs.Flag
import Verif.Spec.ExampleFit
import Verif.Props.Range

/-!
# C18 for training: the parallel flag does not change the model
-/

namespace Verif

open scoped Verif

set_option linter.unusedSectionVars false

variable {R F D : Type} [Fl F] [Fl D] [FlCast F D]

section
variable {P : Division} (hP : ∀ rows cols, (P rows cols).items = cols)
include hP

theorem histPar_eq (t : TrainData F D) (index : List Nat) (i j : Nat) :
    t.histPar P index i j = t.hist index i j := by
  unfold TrainData.histPar TrainData.hist
  refine Res.bind_congr fun rows _ => ?_
  exact C18_histogram _ _ _ _ _ _ _ _ (hP _ _)

theorem splitNodePar_eq (s : Splitter F) (t : TrainData F D) (nNodes : Nat) (node : SNode F D) (index : List Nat) :
    splitNodePar P s t nNodes node index = splitNode s t nNodes node index := by
  unfold splitNodePar splitNode
  refine Res.bind_congr fun best _ => ?_
  cases best with
  | none => rfl
  | some info =>
    cases s with
    | imputer p =>
      show imputerHandlePar P t info nNodes node index = imputerHandle t info nNodes node index
      unfold imputerHandlePar imputerHandle
      simp only [histPar_eq hP]
    | branch p =>
      show branchHandlePar P p t info nNodes node index = branchHandle p t info nNodes node index
      unfold branchHandlePar branchHandle branchHistsPar branchHists
      simp only [histPar_eq hP]

theorem growLoopPar_eq (c : GrowCfg F D) : ∀ (n : Nat) (s : GrowState F D), growLoopPar P c n s = growLoop c n s
  | 0, s => rfl
  | n + 1, s => by
    unfold growLoopPar growLoop
    have e : growStepPar P c s = growStep c s := by
      unfold growStepPar growStep
      simp only [splitNodePar_eq hP]
    rw [e]
    congr 2
    funext s'
    exact growLoopPar_eq c n s'

/-- A tree grown in parallel is the tree grown sequentially, faults included. -/
theorem Tree.fitPar_eq (c : GrowCfg F D) (sm : SampleMethod) (index : List Nat) :
    Tree.fitPar P c sm index = Tree.fit c sm index := by
  unfold Tree.fitPar Tree.fit growInitPar growInit
  simp only [growLoopPar_eq hP, C18_histogram _ _ _ _ _ _ _ _ (hP _ _)]

end

/-- The pool does its work: every histogram is divided into its columns in order, every row of the training data
and of every evaluation set is predicted once. -/
structure PoolRun.Complete (P : PoolRun) (data : Matrix D) (ev : Option (List (EvalSet D))) : Prop where
  divide : ∀ i rows cols, (P.divide i rows cols).items = cols
  train : ∀ i, Verif.Complete data.rows 1 (P.sched i 0)
  evals : ∀ i es, ev = some es → ∀ k e, es[k]? = some e → Verif.Complete e.data.rows 1 (P.sched i (k + 1))

theorem evalLoopPar_ok {S : Sorter} {t : Tree F D} {i n : Nat} {σ : Nat → List Nat} :
    ∀ (l : List (TrainEval D)) (k : Nat) (b : Booster F D) (best : Option D) (stop : Bool)
      (r : List (TrainEval D) × List D × Booster F D × Option D × Bool),
      (∀ j e, l[j]? = some e → Complete e.data.rows 1 (σ (k + j))) →
      (evalLoopPar σ S t i n l k b best stop = .ok r ↔ evalLoop S t i n l k b best stop = .ok r)
  | [], k, b, best, stop, r, _ => Iff.rfl
  | e :: l, k, b, best, stop, r, h => by
    have h0 := h 0 e rfl
    unfold evalLoopPar evalLoop
    simp only [Res.bind_eq_ok]
    refine exists_congr fun preds => ?_
    rw [Tree.predictPar_eq_ok (by simpa using h0)]
    refine and_congr_right fun _ => exists_congr fun m => and_congr_right fun _ => ?_
    refine exists_congr fun r' => and_congr_left fun _ => ?_
    refine evalLoopPar_ok l (k + 1) _ _ _ r' fun j e' he' => ?_
    have := h (j + 1) e' (by simpa using he')
    rwa [show k + 1 + j = k + (j + 1) by omega]

theorem evalSetsPar_ok {S : Sorter} {t : Tree F D} {i : Nat} {σ : Nat → List Nat} {b : Booster F D}
    {es : Option (List (TrainEval D))} {best : Option D}
    {r : Booster F D × Option (List (TrainEval D)) × Option D × Bool}
    (h : ∀ l, es = some l → ∀ (j : Nat) e, l[j]? = some e → Complete e.data.rows 1 (σ j)) :
    evalSetsPar σ S t i b es best = .ok r ↔ evalSets S t i b es best = .ok r := by
  cases es with
  | none => exact Iff.rfl
  | some l =>
    unfold evalSetsPar evalSets
    simp only [Res.bind_eq_ok]
    refine exists_congr fun x => and_congr_left fun _ => ?_
    exact evalLoopPar_ok l 0 _ _ _ x fun j e he => by simpa using h l rfl j e he

theorem evalLoop_data {S : Sorter} {t : Tree F D} {i n : Nat} : ∀ (l : List (TrainEval D)) (k : Nat)
    (b : Booster F D) (best : Option D) (stop : Bool) (es : List (TrainEval D))
    (r : List D × Booster F D × Option D × Bool), evalLoop S t i n l k b best stop = .ok (es, r) →
    es.map (fun e => e.data) = l.map fun e => e.data
  | [], k, b, best, stop, es, r, h => by
    cases Res.ok.inj h
    rfl
  | e :: l, k, b, best, stop, es, r, h => by
    unfold evalLoop at h
    obtain ⟨preds, _, h⟩ := Res.bind_eq_ok.1 h
    obtain ⟨m, _, h⟩ := Res.bind_eq_ok.1 h
    obtain ⟨⟨es', ms, b', best', stop'⟩, h1, h⟩ := Res.bind_eq_ok.1 h
    have e1 := Res.ok.inj h
    have e2 := (Prod.ext_iff.1 e1).1
    simp only at e2
    rw [← e2, List.map_cons, List.map_cons, evalLoop_data l _ _ _ _ _ _ h1]

theorem evalSets_data {S : Sorter} {t : Tree F D} {i : Nat} {b b' : Booster F D}
    {es es' : Option (List (TrainEval D))} {best best' : Option D} {stop : Bool}
    (h : evalSets S t i b es best = .ok (b', es', best', stop)) :
    es'.map (List.map fun e => e.data) = es.map (List.map fun e => e.data) := by
  cases es with
  | none => cases Res.ok.inj h; rfl
  | some l =>
    unfold evalSets at h
    obtain ⟨⟨es'', ms, b'', best'', stop'⟩, h1, h⟩ := Res.bind_eq_ok.1 h
    obtain ⟨b3, _, h⟩ := Res.bind_eq_ok.1 h
    have e1 := Res.ok.inj h
    have e2 := (Prod.ext_iff.1 (Prod.ext_iff.1 e1).2).1
    simp only at e2
    rw [← e2, Option.map_some, Option.map_some, evalLoop_data _ _ _ _ _ _ _ h1]

/-- The evaluation sets of the state are scheduled completely. -/
def PoolRun.Covers (P : PoolRun) (es : Option (List (TrainEval D))) : Prop :=
  ∀ (l : List (Matrix D)), es.map (List.map fun e => e.data) = some l → ∀ (i j : Nat) X, l[j]? = some X →
    Verif.Complete X.rows 1 (P.sched i (j + 1))

theorem fitIterationPar_ok {P : PoolRun} {env : Env R F D} {data : Matrix D} {y w : List D} {sp : Splitter F}
    {bdata : Matrix Nat} {cuts : JaggedMatrix D} {i : Nat} {s : FitState R F D} {r : FitState R F D × Bool}
    (hd : ∀ i rows cols, (P.divide i rows cols).items = cols)
    (ht : ∀ i, Complete data.rows 1 (P.sched i 0)) (he : P.Covers s.evals) :
    fitIterationPar P env data y w sp bdata cuts i s = .ok r ↔
      fitIteration env data y w sp bdata cuts i s = .ok r := by
  unfold fitIterationPar fitIteration
  simp only [Tree.fitPar_eq (hd i), Res.bind_eq_ok]
  refine exists_congr fun a => and_congr_right fun _ => exists_congr fun t => and_congr_right fun _ => ?_
  refine exists_congr fun preds => ?_
  rw [Tree.predictPar_eq_ok (ht i)]
  refine and_congr_right fun _ => exists_congr fun x => and_congr_left fun _ => ?_
  refine evalSetsPar_ok fun l hl j e hj => ?_
  exact he (l.map fun e => e.data) (by rw [hl]; rfl) i j e.data (by rw [List.getElem?_map, hj]; rfl)

theorem fitIteration_covers {P : PoolRun} {env : Env R F D} {data : Matrix D} {y w : List D} {sp : Splitter F}
    {bdata : Matrix Nat} {cuts : JaggedMatrix D} {i : Nat} {s s' : FitState R F D} {stop : Bool}
    (h : fitIteration env data y w sp bdata cuts i s = .ok (s', stop)) (he : P.Covers s.evals) :
    P.Covers s'.evals := by
  unfold fitIteration at h
  obtain ⟨a, _, h⟩ := Res.bind_eq_ok.1 h
  obtain ⟨t, _, h⟩ := Res.bind_eq_ok.1 h
  obtain ⟨preds, _, h⟩ := Res.bind_eq_ok.1 h
  obtain ⟨⟨b', es', best', stop'⟩, h1, h⟩ := Res.bind_eq_ok.1 h
  have e := evalSets_data h1
  have e' : s'.evals = es' := by
    dsimp only at h
    split at h <;> (have := (Prod.ext_iff.1 (Res.ok.inj h)).1; simp only at this; rw [← this])
  unfold PoolRun.Covers
  rw [e', e]
  exact he

theorem fitLoopPar_ok {P : PoolRun} {env : Env R F D} {data : Matrix D} {y w : List D} {sp : Splitter F}
    {bdata : Matrix Nat} {cuts : JaggedMatrix D}
    (hd : ∀ i rows cols, (P.divide i rows cols).items = cols)
    (ht : ∀ i, Complete data.rows 1 (P.sched i 0)) :
    ∀ (n i : Nat) (s r : FitState R F D), P.Covers s.evals →
      (fitLoopPar P env data y w sp bdata cuts n i s = .ok r ↔
        fitLoop env data y w sp bdata cuts n i s = .ok r)
  | 0, i, s, r, _ => Iff.rfl
  | n + 1, i, s, r, he => by
    unfold fitLoopPar fitLoop
    simp only [Res.bind_eq_ok, fitIterationPar_ok hd ht he]
    refine exists_congr fun x => and_congr_right fun hx => ?_
    obtain ⟨s', stop⟩ := x
    dsimp only
    cases stop
    · exact fitLoopPar_ok hd ht n (i + 1) s' r (fitIteration_covers hx he)
    · exact Iff.rfl

/-- **C18** (training).  Whatever the thread pool does, training with `parallel = true` succeeds exactly when
sequential training does, with the same booster and result. -/
theorem C18_fit {P : PoolRun} {env : Env R F D} {b : Booster F D} {data : Matrix D} {y w : List D}
    {ev : Option (List (EvalSet D))} (hP : P.Complete data ev) (r : Booster F D × Except ForustError Unit) :
    b.fitRun P env data y w ev = .ok r ↔ b.fit env data y w ev = .ok r := by
  unfold Booster.fitRun Booster.fit
  cases validateFit y w ev with
  | error e => exact Iff.rfl
  | ok u =>
    dsimp only
    by_cases hp : b.parallel = true
    · simp only [hp, if_true, Res.bind_eq_ok]
      refine exists_congr fun b' => and_congr_left fun _ => ?_
      unfold fitTreesPar fitTrees
      dsimp only
      generalize (if b.trees.isEmpty then b else b.reset) = c
      have tail : ∀ d : Booster F D, ((do
          let binned ← binMatrix env.sorter data w d.nbins d.missing
          let s ← fitLoopPar P env data y w b.splitter
            { data := binned.binned, rows := data.rows, cols := data.cols }
            binned.cuts d.iterations 0 (fitStart env d y w ev)
          Res.ok s.booster) = Res.ok b' ↔ (do
          let binned ← binMatrix env.sorter data w d.nbins d.missing
          let s ← fitLoop env data y w b.splitter
            { data := binned.binned, rows := data.rows, cols := data.cols }
            binned.cuts d.iterations 0 (fitStart env d y w ev)
          Res.ok s.booster) = Res.ok b') := by
        intro d
        simp only [Res.bind_eq_ok]
        refine exists_congr fun bin => and_congr_right fun _ => ?_
        refine exists_congr fun s => and_congr_left fun _ => ?_
        refine fitLoopPar_ok hP.divide hP.train _ _ _ s ?_
        intro l hl i j X hj
        cases ev with
        | none => cases hl
        | some es =>
          simp only [fitStart, Option.map_some, List.map_map, Option.some.injEq] at hl
          rw [← hl, List.getElem?_map] at hj
          cases hej : es[j]? with
          | none => rw [hej] at hj; cases hj
          | some e =>
            rw [hej] at hj
            simp only [Option.map_some, Option.some.injEq] at hj
            rw [← hj]
            exact hP.evals i es rfl j e hej
      by_cases hc : c.initializeBaseScore = true
      · rw [if_pos hc, if_pos hc]
        cases hi : calcInit c.objectiveType y w with
        | ok s => exact tail { c with baseScore := s }
        | panic => exact Iff.rfl
        | diverge => exact Iff.rfl
      · rw [if_neg hc, if_neg hc]
        exact tail c
    · rw [if_neg hp]

/-- **C18** (the flag).  Two boosters that differ in the flag only are trained to boosters that differ in the flag
only, with the same result; in particular to the same trees, base score, history and best iteration. -/
theorem C18_flag {P P' : PoolRun} {env : Env R F D} {b : Booster F D} {data : Matrix D} {y w : List D}
    {ev : Option (List (EvalSet D))} (hP : P.Complete data ev) (hP' : P'.Complete data ev)
    {b' : Booster F D} {r : Except ForustError Unit}
    (h : { b with parallel := true }.fitRun P env data y w ev = .ok (b', r)) :
    b'.parallel = true ∧
      { b with parallel := false }.fitRun P' env data y w ev = .ok ({ b' with parallel := false }, r) := by
  rw [C18_fit hP] at h
  rw [C18_fit hP']
  have e1 := Booster.fit_flag env b data y w ev true
  have e2 := Booster.fit_flag env b data y w ev false
  obtain ⟨⟨b0, r0⟩, h0, h1⟩ := Res.bind_eq_ok.1 (e1.symm.trans h)
  have e3 := Res.ok.inj h1
  obtain ⟨e4, e5⟩ := Prod.ext_iff.1 e3
  simp only at e4 e5
  refine ⟨by rw [← e4]; rfl, ?_⟩
  refine e2.trans ?_
  rw [h0, Res.ok_bind, ← e4, ← e5]
  rfl

/-! ### Examples -/

/-- The pool may process rows backwards and halve the columns. -/
def exPool (rows : Nat) : PoolRun where
  divide _ _ cols := .node (.leaf (cols.take 1)) (.leaf (cols.drop 1))
  sched _ _ := (List.range rows).reverse

theorem exPool_complete {data : Matrix D} : (exPool data.rows).Complete data none where
  divide _ _ cols := List.take_append_drop 1 cols
  train _ := by
    refine ⟨fun i hi => by simpa [exPool] using hi, fun i hi => ?_⟩
    show (List.range data.rows).reverse.count i = 1
    rw [List.count_reverse]
    exact List.count_eq_one_of_mem List.nodup_range (List.mem_range.2 hi)
  evals _ _ h := by cases h

/-- The numbers of nodes of the trees, if training succeeds. -/
def treeSizes (r : Res (Booster F D × Except ForustError Unit)) : List Nat :=
  match r with
  | .ok (b, .ok ()) => b.trees.map fun t => t.nodes.length
  | _ => []

/-- A parallel fit and a sequential one. -/
example : treeSizes ({ exFresh with parallel := true }.fitRun (exPool exX.rows) exEnv exX exY exW none) = [7, 7] ∧
    treeSizes ({ exFresh with parallel := false }.fitRun (exPool exX.rows) exEnv exX exY exW none) = [7, 7] := by
  constructor <;> decide +kernel

/-- A tree with one leaf. -/
def stump (v : F32) : Tree F32 F64 :=
  { nodes := [{ num := 0, weightValue := v, hessianSum := 1, depth := 0, splitValue := 0, splitFeature := 0
                splitGain := 0, missingNode := 0, leftChild := 0, rightChild := 0, isLeaf := true }] }

/-- Three trees with values 1, 2^-53, 2^-53. -/
def pdSums : Option (Booster F32 F64) :=
  wB.map fun b =>
    { b with trees := [stump 1, stump (f32 (1 / 2 ^ 53)), stump (f32 (1 / 2 ^ 53))], predictionIteration := none }

/-- **C18** (partial dependence needs associativity).  In `f64` the parallel sum of `value_partial_dependence`
depends on how the pool divides the trees: of two divisions of the same three trees one gives 1, the sequential
value, the other 1 + 2^-52. -/
theorem C18_partial_dependence_rounding :
    ∃ d d' : List F64 → SplitTree F64, (∀ l, (d l).items = l) ∧ (∀ l, (d' l).items = l) ∧
      (pdSums.map fun b => b.valuePartialDependence 0 0) = some (.ok (FX.fin 1)) ∧
      (pdSums.map fun b => b.valuePartialDependencePar d 0 0) = some (.ok (FX.fin 1)) ∧
      (pdSums.map fun b => b.valuePartialDependencePar d' 0 0) = some (.ok (FX.fin (1 + 1 / 2 ^ 52))) := by
  refine ⟨fun l => .leaf l, fun l => .node (.leaf (l.take 1)) (.leaf (l.drop 1)), fun _ => rfl,
    fun l => List.take_append_drop 1 l, ?_, ?_, ?_⟩ <;> decide +kernel

end Verif
