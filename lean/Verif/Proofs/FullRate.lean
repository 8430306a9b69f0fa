import Verif.Proofs.Drawn
import Verif.Proofs.PyBooster
import Verif.Props.Sums
import Verif.Props.Shift

/-!
# Drawing all rows and drawing none at random
-/

namespace Verif

open scoped Verif

set_option linter.unusedSectionVars false

section any
variable {R F D : Type} [Fl F] [Fl D] [FlCast F D]

/-- The same booster with random sampling of rows at a rate and another seed. -/
def Booster.drawing (b : Booster F D) (rate : F) (seed : Nat) : Booster F D :=
  { b with sampleMethod := .random, subsample := rate, seed := seed }

theorem earlyStopUpdate_drawing (b : Booster F D) (rate : F) (seed : Nat) (i : Nat) (m : D) (mx : Bool) (best : Option D)
    (stop : Bool) : earlyStopUpdate (b.drawing rate seed) i m mx best stop =
      (((earlyStopUpdate b i m mx best stop).1.drawing rate seed), (earlyStopUpdate b i m mx best stop).2) := by
  unfold earlyStopUpdate
  change (match b.earlyStoppingRounds with
    | none => _
    | some rounds => _) = _
  cases b.earlyStoppingRounds with
  | none => rfl
  | some rounds =>
    cases best with
    | none => rfl
    | some v =>
      dsimp only
      split
      · rfl
      · change (match b.bestIteration with
          | some bi => _
          | none => _) = _
        cases b.bestIteration <;> rfl

theorem evalLoop_drawing (S : Sorter) (t : Tree F D) (i n : Nat) (rate : F) (seed : Nat) :
    ∀ (l : List (TrainEval D)) (k : Nat) (b : Booster F D) (best : Option D) (stop : Bool),
    evalLoop S t i n l k (b.drawing rate seed) best stop =
      (evalLoop S t i n l k b best stop >>= fun r =>
        .ok (r.1, r.2.1, r.2.2.1.drawing rate seed, r.2.2.2)) := by
  intro l
  induction l with
  | nil => intro k b best stop; rfl
  | cons e l ih =>
    intro k b best stop
    simp only [evalLoop, Res.bind_assoc']
    change (t.predict e.data b.missing >>= _) = _
    refine Res.bind_congr fun preds _ => ?_
    change (b.metric.eval S e.y _ e.w >>= _) = _
    refine Res.bind_congr fun m _ => ?_
    by_cases hk : k + 1 = n
    · simp only [hk, if_true]
      have e0 : (b.drawing rate seed).metric = b.metric := rfl
      simp only [e0, earlyStopUpdate_drawing, ih, Res.bind_assoc']
      refine Res.bind_congr fun r _ => rfl
    · simp only [hk, if_false]
      rw [ih, Res.bind_assoc']
      refine Res.bind_congr fun r _ => rfl

theorem evalSets_drawing (S : Sorter) (t : Tree F D) (i : Nat) (b : Booster F D) (rate : F) (seed : Nat)
    (es : Option (List (TrainEval D))) (best : Option D) :
    evalSets S t i (b.drawing rate seed) es best =
      (evalSets S t i b es best >>= fun r => .ok (r.1.drawing rate seed, r.2)) := by
  cases es with
  | none => rfl
  | some es =>
    have hw : withHistory (b.drawing rate seed) es.length = (withHistory b es.length).drawing rate seed := by
      unfold withHistory
      change (match b.evaluationHistory with
        | none => _
        | some _ => _) = _
      cases b.evaluationHistory <;> rfl
    have ha : ∀ (b : Booster F D) (ms : List D),
        appendHistory (b.drawing rate seed) ms = (appendHistory b ms >>= fun c => .ok (c.drawing rate seed)) := by
      intro b ms
      unfold appendHistory
      change (match b.evaluationHistory with
        | none => _
        | some h => _) = _
      cases b.evaluationHistory with
      | none => rfl
      | some h => dsimp only; rw [Res.bind_assoc']; exact Res.bind_congr fun _ _ => rfl
    simp only [evalSets, hw, evalLoop_drawing, Res.bind_assoc']
    refine Res.bind_congr fun r _ => ?_
    simp only [Res.ok_bind]
    rw [ha, Res.bind_assoc']
    exact Res.bind_congr fun _ _ => rfl

/-- All rows are drawn when every number of the generator is below the rate. -/
theorem randomSample_full {g : Rng R F D} {rate : F} (h : ∀ r, ((g.genF r).1 <ᶠ rate) = true) (r : R) (l : List Nat) :
    (randomSample g rate r l).1 = l := by
  induction l generalizing r with
  | nil => rfl
  | cons i l ih =>
    rw [randomSample]
    dsimp only
    rw [if_pos (h r)]
    dsimp only
    rw [ih]

theorem mapM'_idx_range {α : Type} (l : List α) : Res.mapM' (idx l) (List.range l.length) = .ok l := by
  rw [Res.mapM'_eq_ok]
  refine List.forall₂_iff_get.2 ⟨by simp, fun i h1 h2 => ?_⟩
  simp [idx, List.getElem?_eq_getElem h2]

/-- The plain sum of the rows equals the unrolled one. -/
def SumsAgree (F D : Type) [Fl F] [Fl D] [FlCast F D] : Prop :=
  ∀ l : List F, (down ((l.map (up : F → D)).foldl (· + ·) 0) : F) = fastF64Sum (D := D) l

/-- A tree on all rows, gathered or not. -/
theorem treeFit_full (hsum : SumsAgree F D) (c : GrowCfg F D) {n : Nat} (hg : c.train.grad.length = n)
    (hh : c.train.hess.length = n) : Tree.fit c .random (List.range n) = Tree.fit c .none (List.range n) := by
  have e1 : Res.mapM' (idx c.train.grad) (List.range n) = .ok c.train.grad := by rw [← hg]; exact mapM'_idx_range _
  have e2 : Res.mapM' (idx c.train.hess) (List.range n) = .ok c.train.hess := by rw [← hh]; exact mapM'_idx_range _
  have e3 : ∀ cols, histogramMatrix c.train.data c.train.cuts c.train.grad c.train.hess (List.range n) cols true =
      histogramMatrix c.train.data c.train.cuts c.train.grad c.train.hess (List.range n) cols false := by
    intro cols
    unfold histogramMatrix
    simp only [if_true, e1, e2]
    rfl
  have e4 : growInit c .random (List.range n) = growInit c .none (List.range n) := by
    unfold growInit rootSums
    dsimp only
    rw [e1, e2]
    simp only [Res.ok_bind]
    rw [hsum, hsum, e3]
  unfold Tree.fit
  rw [e4]

theorem sampleColumns_all {g : Rng R F D} {rate : D} (h : (rate =ᶠ 1) = true) (r r' : R) (cols : Nat) :
    (sampleColumns g rate r cols).1 = (sampleColumns g rate r' cols).1 := by
  unfold sampleColumns
  rw [if_pos h, if_pos h]

/-- The state of the run with sampling. -/
def FitState.drawing (s : FitState R F D) (rate : F) (seed : Nat) (r : R) : FitState R F D :=
  { s with booster := s.booster.drawing rate seed, rng := r }

theorem fitIteration_full (hsum : SumsAgree F D) {env : Env R F D} {X : Matrix D} {y w : List D} {sp : Splitter F}
    {bdata : Matrix Nat} {cuts : JaggedMatrix D} {rate : F} {seed : Nat}
    (hd : ∀ r, ((env.rng.genF r).1 <ᶠ rate) = true) (hy : y.length = X.rows) (hw : w.length = X.rows) {i : Nat}
    {s : FitState R F D} (hm : s.booster.sampleMethod = .none) (hc : (s.booster.colsampleBytree =ᶠ 1) = true)
    (hp : s.yhat.length = X.rows) (hg : s.grad.length = X.rows) (hh : s.hess.length = X.rows) (r : R) :
    Res.Rel (fun a b => b.2 = a.2 ∧ (∃ r', b.1 = a.1.drawing rate seed r') ∧ a.1.yhat.length = X.rows ∧
        (a.2 = false → a.1.grad.length = X.rows ∧ a.1.hess.length = X.rows))
      (fitIteration env X y w sp bdata cuts i s)
      (fitIteration env X y w sp bdata cuts i (s.drawing rate seed r)) := by
  unfold fitIteration sampleIndex
  dsimp only [FitState.drawing, Booster.drawing]
  rw [hm]
  dsimp only [bind, Res.bind]
  have h1 : (randomSample env.rng rate r X.index).1 = X.index := randomSample_full hd r _
  generalize randomSample env.rng rate r X.index = rs at *
  obtain ⟨ch, ex, r1⟩ := rs
  dsimp only at *
  subst h1
  have h2 := sampleColumns_all (g := env.rng) hc s.rng r1 X.cols
  generalize sampleColumns env.rng s.booster.colsampleBytree s.rng X.cols = sc at *
  generalize sampleColumns env.rng s.booster.colsampleBytree r1 X.cols = sc' at *
  obtain ⟨cols, r2⟩ := sc
  obtain ⟨cols', r2'⟩ := sc'
  dsimp only at *
  subst h2
  have ht := treeFit_full hsum (GrowCfg.mk sp (TrainData.mk bdata cuts s.grad s.hess cols) s.booster.maxLeaves
      s.booster.maxDepth s.booster.growPolicy (env.heap i)) hg hh
  refine Res.Rel.bind (Res.Rel.of_eq ht.symm) fun tree _ _ _ e => ?_
  subst e
  refine Res.Rel.bind (Res.Rel.of_eq rfl) fun preds _ _ _ e => ?_
  subst e
  have he := evalSets_drawing env.sorter tree i s.booster rate seed s.evals s.best
  unfold Booster.drawing at he
  rw [he]
  generalize evalSets env.sorter tree i s.booster s.evals s.best = ev
  cases ev with
  | panic => trivial
  | diverge => trivial
  | ok ev =>
    obtain ⟨b, evals, best, stop⟩ := ev
    dsimp only [bind, Res.bind]
    have hl : (addPreds s.yhat preds).length = X.rows := by rw [length_addPreds, hp]
    cases stop with
    | true => exact ⟨rfl, ⟨r2', rfl⟩, hl, fun h => by cases h⟩
    | false =>
      obtain ⟨l1, l2⟩ := calcGradHess_length (F := F) b.objectiveType y (addPreds s.yhat preds) w hy hl hw
      exact ⟨rfl, ⟨r2', rfl⟩, hl, fun _ => ⟨l1, l2⟩⟩

theorem fitLoop_full (hsum : SumsAgree F D) {env : Env R F D} {X : Matrix D} {y w : List D} {sp : Splitter F}
    {bdata : Matrix Nat} {cuts : JaggedMatrix D} {rate : F} {seed : Nat}
    (hd : ∀ r, ((env.rng.genF r).1 <ᶠ rate) = true) (hy : y.length = X.rows) (hw : w.length = X.rows) :
    ∀ (n i : Nat) (s : FitState R F D), s.booster.sampleMethod = .none → (s.booster.colsampleBytree =ᶠ 1) = true →
      s.yhat.length = X.rows → s.grad.length = X.rows → s.hess.length = X.rows → ∀ r,
    Res.Rel (fun a b => b.booster = a.booster.drawing rate seed) (fitLoop env X y w sp bdata cuts n i s)
      (fitLoop env X y w sp bdata cuts n i (s.drawing rate seed r))
  | 0, _, _, _, _, _, _, _, _ => rfl
  | n + 1, i, s, hm, hc, hp, hg, hh, r => by
    simp only [fitLoop]
    refine (fitIteration_full hsum hd hy hw hm hc hp hg hh r).bind fun a b ha _ hab => ?_
    obtain ⟨s1, st⟩ := a
    obtain ⟨s1', st'⟩ := b
    obtain ⟨e1, ⟨r', e2⟩, e3, e4⟩ := hab
    dsimp only at *
    subst e1
    subst e2
    split
    · exact rfl
    · rename_i hst
      obtain ⟨g1, g2⟩ := e4 (by simpa using hst)
      obtain ⟨_, _, _, _, hstep⟩ := fitIteration_ok ha
      have hsame := hstep.same
      unfold Booster.SameParams at hsame
      exact fitLoop_full hsum hd hy hw n (i + 1) s1 (by rw [hsame]; exact hm) (by rw [hsame]; exact hc) e3 g1 g2 r'

theorem fitRest_full (hsum : SumsAgree F D) {env : Env R F D} {b : Booster F D} {X : Matrix D} {y w : List D}
    {sp : Splitter F} {ev : Option (List (EvalSet D))} {rate : F} {seed : Nat}
    (hd : ∀ r, ((env.rng.genF r).1 <ᶠ rate) = true) (hy : y.length = X.rows) (hw : w.length = X.rows)
    (hm : b.sampleMethod = .none) (hc : (b.colsampleBytree =ᶠ 1) = true) :
    Res.Rel (fun a c => c = a.drawing rate seed) (fitRest env X y w sp ev b)
      (fitRest env X y w sp ev (b.drawing rate seed)) := by
  unfold fitRest
  dsimp only
  refine Res.Rel.bind (Res.Rel.of_eq rfl) fun bd _ _ _ e => ?_
  subst e
  obtain ⟨l1, l2⟩ := calcGradHess_length (F := F) b.objectiveType y (List.replicate y.length b.baseScore) w hy
    (by rw [List.length_replicate, hy]) hw
  refine Res.Rel.bind (fitLoop_full (rate := rate) (seed := seed) hsum hd hy hw b.iterations 0
    { booster := b, yhat := List.replicate y.length b.baseScore
      grad := (calcGradHess (F := F) b.objectiveType y (List.replicate y.length b.baseScore) w).1
      hess := (calcGradHess (F := F) b.objectiveType y (List.replicate y.length b.baseScore) w).2
      evals := ev.map fun es => es.map fun e =>
        { toEvalSet := e, yhat := List.replicate e.y.length b.baseScore : TrainEval D }
      best := none, rng := env.rng.seed b.seed } hm hc (by rw [List.length_replicate, hy]) l1 l2
      (env.rng.seed seed)) fun s s' _ _ (hss : s'.booster = _) => hss

end any

section exact
variable {K : Type} [Field K] [LinearOrder K]

/-- With an exact wide format the sums agree; the narrow one may round. -/
theorem sumsAgree_exact (m32 m64 : Fmt K) [m64.Exact] : SumsAgree (FX m32) (FX m64) := by
  intro l
  rw [C46_fast_f64_sum, foldl_add_eq_sum]
  congr 1
  exact Fl.AddLaws.zero_add _

end exact

end Verif
