import Verif.Spec.Idle
import Verif.Proofs.RelateFit
import Verif.Proofs.Boost
import Verif.Props.Shift
import Verif.Proofs.ExtraCol

/-!
# Settings that do not apply are carried through training
-/

namespace Verif

open scoped Verif

set_option linter.unusedSectionVars false

variable {R R' F D : Type} [Fl F] [Fl D] [FlCast F D] {p : IdleParams F D}

theorem earlyStopUpdate_idle {b : Booster F D} (he : p.earlyStoppingRounds = b.earlyStoppingRounds) (i : Nat) (m : D)
    (mx : Bool) (best : Option D) (stop : Bool) :
    earlyStopUpdate (b.withIdle p) i m mx best stop =
      ((earlyStopUpdate b i m mx best stop).1.withIdle p, (earlyStopUpdate b i m mx best stop).2) := by
  unfold earlyStopUpdate
  rw [show (b.withIdle p).earlyStoppingRounds = b.earlyStoppingRounds from he,
    show (b.withIdle p).bestIteration = b.bestIteration from rfl]
  generalize b.earlyStoppingRounds = er
  generalize b.bestIteration = bi
  cases er with
  | none => rfl
  | some r =>
    cases best with
    | none => rfl
    | some v =>
      dsimp only
      split
      · rfl
      · cases bi <;> rfl

theorem earlyStopUpdate_fields (b : Booster F D) (i : Nat) (m : D) (mx : Bool) (best : Option D) (stop : Bool) :
    (earlyStopUpdate b i m mx best stop).1.earlyStoppingRounds = b.earlyStoppingRounds ∧
      (earlyStopUpdate b i m mx best stop).1.evaluationMetric = b.evaluationMetric := by
  unfold earlyStopUpdate
  split
  · exact ⟨rfl, rfl⟩
  · split
    · exact ⟨rfl, rfl⟩
    · split
      · exact ⟨rfl, rfl⟩
      · split <;> exact ⟨rfl, rfl⟩

theorem evalLoop_idle {S : Sorter} {t : Tree F D} {i n : Nat} : ∀ (l : List (TrainEval D)) (k : Nat)
    {b : Booster F D} (_ : p.evaluationMetric = b.evaluationMetric ∧ p.earlyStoppingRounds = b.earlyStoppingRounds)
    (best : Option D) (stop : Bool),
    Res.Rel (fun r r' => r' = (r.1, r.2.1, r.2.2.1.withIdle p, r.2.2.2))
      (evalLoop S t i n l k b best stop) (evalLoop S t i n l k (b.withIdle p) best stop)
  | [], _, _, _, _, _ => rfl
  | e :: l, k, b, hp, best, stop => by
    simp only [evalLoop]
    have hm : (b.withIdle p).metric = b.metric := by
      unfold Booster.metric
      rw [show (b.withIdle p).evaluationMetric = b.evaluationMetric from hp.1]
      rfl
    rw [hm, show (b.withIdle p).missing = b.missing from rfl]
    refine (Res.Rel.of_eq rfl).bind fun q q' _ _ e0 => ?_
    subst e0
    refine (Res.Rel.of_eq rfl).bind fun m m' _ _ e0 => ?_
    subst e0
    rw [earlyStopUpdate_idle hp.2]
    have key : ∀ u : Booster F D × Option D × Bool,
        (p.evaluationMetric = u.1.evaluationMetric ∧ p.earlyStoppingRounds = u.1.earlyStoppingRounds) →
        Res.Rel (fun r r' => r' = (r.1, r.2.1, r.2.2.1.withIdle p, r.2.2.2))
          (evalLoop S t i n l (k + 1) u.1 u.2.1 u.2.2 >>= fun x =>
            .ok ({ e with yhat := addPreds e.yhat q } :: x.1, m :: x.2.1, x.2.2.1, x.2.2.2.1, x.2.2.2.2))
          (evalLoop S t i n l (k + 1) (u.1.withIdle p) u.2.1 u.2.2 >>= fun x =>
            .ok ({ e with yhat := addPreds e.yhat q } :: x.1, m :: x.2.1, x.2.2.1, x.2.2.2.1, x.2.2.2.2)) := by
      intro u hu
      refine (evalLoop_idle l (k + 1) hu u.2.1 u.2.2).bind fun r r' _ _ hr => ?_
      subst hr
      exact rfl
    by_cases hkn : k + 1 = n
    · simp only [hkn, if_true]
      obtain ⟨f1, f2⟩ := earlyStopUpdate_fields b i m b.metric.maximize best stop
      have := key (earlyStopUpdate b i m b.metric.maximize best stop) ⟨hp.1.trans f2.symm, hp.2.trans f1.symm⟩
      rw [hkn] at this
      exact this
    · simp only [hkn, if_false]
      exact key (b, best, stop) hp

theorem evalSets_idle {S : Sorter} {t : Tree F D} {i : Nat} (ev : Option (List (TrainEval D))) {b : Booster F D}
    (hp : ev ≠ none → p.evaluationMetric = b.evaluationMetric ∧ p.earlyStoppingRounds = b.earlyStoppingRounds)
    (best : Option D) :
    Res.Rel (fun r r' => r' = (r.1.withIdle p, r.2)) (evalSets S t i b ev best) (evalSets S t i (b.withIdle p) ev best) := by
  cases ev with
  | none => exact rfl
  | some l =>
    simp only [evalSets]
    have hh : withHistory (b.withIdle p) l.length = (withHistory b l.length).withIdle p := by
      unfold withHistory
      rw [show (b.withIdle p).evaluationHistory = b.evaluationHistory from rfl]
      generalize b.evaluationHistory = eh
      cases eh <;> rfl
    have hf : p.evaluationMetric = (withHistory b l.length).evaluationMetric ∧
        p.earlyStoppingRounds = (withHistory b l.length).earlyStoppingRounds := by
      unfold withHistory
      split <;> exact hp (by simp)
    rw [hh]
    refine (evalLoop_idle l 0 hf best false).bind fun r r' _ _ hr => ?_
    subst hr
    obtain ⟨es, ms, b1, be, st⟩ := r
    dsimp only
    have ha : Res.Rel (fun x x' => x' = Booster.withIdle x p) (appendHistory b1 ms) (appendHistory (b1.withIdle p) ms) := by
      unfold appendHistory
      rw [show (b1.withIdle p).evaluationHistory = b1.evaluationHistory from rfl]
      generalize b1.evaluationHistory = eh
      cases eh with
      | none => exact rfl
      | some h =>
        refine (Res.Rel.of_eq rfl).bind fun x x' _ _ e => ?_
        subst e
        exact rfl
    refine ha.bind fun b2 b2' _ _ e => ?_
    subst e
    exact rfl

/-- The draws of two runs agree, whatever the gradients. -/
def DrawSame (env : Env R F D) (env' : Env R' F D) (ρ : R → R' → Prop) (p : IdleParams F D) (b : Booster F D)
    (index : List Nat) (cols : Nat) : Prop :=
  ∀ r r' grad hess, ρ r r' →
    Res.Rel (fun a a' => a'.1 = a.1 ∧ a'.2.1 = a.2.1 ∧ a'.2.2.1 = a.2.2.1 ∧ ρ a.2.2.2 a'.2.2.2)
      (sampleIndex env.sorter env.rng b.sampleMethod b.subsample b.topRate b.otherRate r index grad hess)
      (sampleIndex env'.sorter env'.rng b.sampleMethod p.subsample p.topRate p.otherRate r' index grad hess) ∧
    (sampleColumns env'.rng b.colsampleBytree r' cols).1 = (sampleColumns env.rng b.colsampleBytree r cols).1 ∧
    ρ (sampleColumns env.rng b.colsampleBytree r cols).2 (sampleColumns env'.rng b.colsampleBytree r' cols).2

/-- Two states that differ in idle settings and in the generator only. -/
structure FitIdle (ρ : R → R' → Prop) (p : IdleParams F D) (b : Booster F D) (evaluates : Prop) (s : FitState R F D)
    (s' : FitState R' F D) : Prop where
  same : b.SameParams s.booster
  booster : s'.booster = s.booster.withIdle p
  yhat : s'.yhat = s.yhat
  grad : s'.grad = s.grad
  hess : s'.hess = s.hess
  evals : s'.evals = s.evals
  evaluates : s.evals ≠ none → evaluates
  best : s'.best = s.best
  rng : ρ s.rng s'.rng

theorem evalSets_none {S : Sorter} {t : Tree F D} {i : Nat} {ev : Option (List (TrainEval D))} {b : Booster F D}
    {best : Option D} {r : Booster F D × Option (List (TrainEval D)) × Option D × Bool}
    (h : evalSets S t i b ev best = .ok r) (he : r.2.1 ≠ none) : ev ≠ none := by
  rintro rfl
  cases h
  exact he rfl

theorem fitIteration_idle {env : Env R F D} {env' : Env R' F D} (hS : env'.sorter = env.sorter)
    (hH : env'.heap = env.heap) {ρ : R → R' → Prop} {b : Booster F D} {X : Matrix D} {evaluates : Prop}
    (hd : DrawSame env env' ρ p b X.index X.cols) (hp : p.For b evaluates) {y w : List D} {sp : Splitter F}
    {bdata : Matrix Nat} {cuts : JaggedMatrix D} {i : Nat} {s : FitState R F D} {s' : FitState R' F D}
    (h : FitIdle ρ p b evaluates s s') :
    Res.Rel (fun r r' => FitIdle ρ p b evaluates r.1 r'.1 ∧ r'.2 = r.2)
      (fitIteration env X y w sp bdata cuts i s) (fitIteration env' X y w sp bdata cuts i s') := by
  obtain ⟨hsame, hb, hy, hg, hh, hev, hevl, hbest, hrn⟩ := h
  have e := hsame
  unfold Booster.SameParams at e
  have e1 : s.booster.sampleMethod = b.sampleMethod := by rw [e]
  have e2 : s.booster.subsample = b.subsample := by rw [e]
  have e3 : s.booster.topRate = b.topRate := by rw [e]
  have e4 : s.booster.otherRate = b.otherRate := by rw [e]
  have e5 : s.booster.colsampleBytree = b.colsampleBytree := by rw [e]
  have e6 : s.booster.evaluationMetric = b.evaluationMetric := by rw [e]
  have e7 : s.booster.earlyStoppingRounds = b.earlyStoppingRounds := by rw [e]
  unfold fitIteration
  dsimp only
  rw [hb, hy, hg, hh, hbest, hev]
  rw [show (s.booster.withIdle p).sampleMethod = s.booster.sampleMethod from rfl,
    show (s.booster.withIdle p).subsample = p.subsample from rfl,
    show (s.booster.withIdle p).topRate = p.topRate from rfl,
    show (s.booster.withIdle p).otherRate = p.otherRate from rfl,
    show (s.booster.withIdle p).colsampleBytree = s.booster.colsampleBytree from rfl,
    show (s.booster.withIdle p).maxLeaves = s.booster.maxLeaves from rfl,
    show (s.booster.withIdle p).maxDepth = s.booster.maxDepth from rfl,
    show (s.booster.withIdle p).growPolicy = s.booster.growPolicy from rfl,
    show (s.booster.withIdle p).missing = s.booster.missing from rfl, e1, e2, e3, e4, e5]
  refine (hd _ _ _ _ hrn).1.bind fun a a' _ _ ha => ?_
  obtain ⟨chosen, g, hs, rng⟩ := a
  obtain ⟨chosen', g', hs', rng'⟩ := a'
  obtain ⟨rfl, rfl, rfl, hr⟩ := ha
  dsimp only at hr ⊢
  obtain ⟨-, c1, c2⟩ := hd _ _ [] [] hr
  rw [c1, hH, hS]
  refine (Res.Rel.of_eq rfl).bind fun tree tree' _ _ e0 => ?_
  subst e0
  refine (Res.Rel.of_eq rfl).bind fun preds preds' _ _ e0 => ?_
  subst e0
  refine (evalSets_idle s.evals (fun hne => ?_) s.best).bind fun x x' h1 _ hx => ?_
  · rw [e6, e7]; exact hp.evals (hevl hne)
  · subst hx
    obtain ⟨b1, ev1, be1, st⟩ := x
    dsimp only
    have hs1 : b.SameParams { b1 with trees := b1.trees ++ [tree] } :=
      (hsame.trans (evalSets_same h1).1).trans rfl
    have hev1 : ev1 ≠ none → evaluates := fun hne => hevl (evalSets_none h1 hne)
    cases st with
    | true => exact ⟨⟨hs1, rfl, rfl, rfl, rfl, rfl, hev1, rfl, c2⟩, rfl⟩
    | false => exact ⟨⟨hs1, rfl, rfl, rfl, rfl, rfl, hev1, rfl, c2⟩, rfl⟩

theorem fitLoop_idle {env : Env R F D} {env' : Env R' F D} (hS : env'.sorter = env.sorter)
    (hH : env'.heap = env.heap) {ρ : R → R' → Prop} {b : Booster F D} {X : Matrix D} {evaluates : Prop}
    (hd : DrawSame env env' ρ p b X.index X.cols) (hp : p.For b evaluates) {y w : List D} {sp : Splitter F}
    {bdata : Matrix Nat} {cuts : JaggedMatrix D} : ∀ (n i : Nat) {s : FitState R F D} {s' : FitState R' F D},
    FitIdle ρ p b evaluates s s' →
    Res.Rel (FitIdle ρ p b evaluates) (fitLoop env X y w sp bdata cuts n i s) (fitLoop env' X y w sp bdata cuts n i s')
  | 0, _, _, _, h => h
  | n + 1, i, s, s', h => by
    simp only [fitLoop]
    refine (fitIteration_idle hS hH hd hp h).bind fun r r' _ _ hr => ?_
    obtain ⟨s1, st⟩ := r
    obtain ⟨s1', st'⟩ := r'
    obtain ⟨h1, h2⟩ := hr
    dsimp only at h1 h2 ⊢
    subst h2
    split
    · exact h1
    · exact fitLoop_idle hS hH hd hp n (i + 1) h1

theorem fitRest_idle {env : Env R F D} {env' : Env R' F D} (hS : env'.sorter = env.sorter)
    (hH : env'.heap = env.heap) {ρ : R → R' → Prop} {b : Booster F D} {X : Matrix D}
    {ev : Option (List (EvalSet D))} (hd : DrawSame env env' ρ p b X.index X.cols) (hp : p.For b (ev ≠ none))
    (hr : ρ (env.rng.seed b.seed) (env'.rng.seed p.seed)) {y w : List D} {sp : Splitter F}
    (hn : binMatrix env.sorter X w p.nbins b.missing = binMatrix env.sorter X w b.nbins b.missing) :
    Res.Rel (fun r r' => r' = r.withIdle p) (fitRest env X y w sp ev b) (fitRest env' X y w sp ev (b.withIdle p)) := by
  unfold fitRest
  rw [hS]
  rw [show (b.withIdle p).nbins = p.nbins from rfl, show (b.withIdle p).missing = b.missing from rfl, hn,
    show (b.withIdle p).iterations = b.iterations from rfl, show (b.withIdle p).baseScore = b.baseScore from rfl,
    show (b.withIdle p).objectiveType = b.objectiveType from rfl]
  refine (Res.Rel.of_eq rfl).bind fun bd bd' _ _ e => ?_
  subst e
  refine (fitLoop_idle hS hH hd hp _ _ ?_).bind fun s s' _ _ h => ?_
  · exact ⟨.refl b, rfl, rfl, rfl, rfl, rfl, fun h => by
      rintro rfl
      exact h rfl, rfl, hr⟩
  · exact h.booster

/-- Idle settings and two generators. -/
theorem fit_idle {env : Env R F D} {env' : Env R' F D} (hS : env'.sorter = env.sorter)
    (hH : env'.heap = env.heap) {ρ : R → R' → Prop} {b : Booster F D} {X : Matrix D}
    {ev : Option (List (EvalSet D))} (hd : DrawSame env env' ρ p b X.index X.cols) (hp : p.For b (ev ≠ none))
    (hr : ρ (env.rng.seed b.seed) (env'.rng.seed p.seed)) (y w : List D)
    (hn : binMatrix env.sorter X w p.nbins b.missing = binMatrix env.sorter X w b.nbins b.missing) :
    (b.withIdle p).fit env' X y w ev = (b.fit env X y w ev >>= fun r => .ok (r.1.withIdle p, r.2)) := by
  have hsp : (b.withIdle p).splitter = b.splitter := by
    unfold Booster.splitter
    rw [show (b.withIdle p).createMissingBranch = b.createMissingBranch from rfl]
    dsimp only
    split
    · rename_i hc
      obtain ⟨h1, h2, h3⟩ := hp.missing hc
      rw [show (b.withIdle p).terminateMissingFeatures = b.terminateMissingFeatures from h1,
        show (b.withIdle p).missingNodeTreatment = b.missingNodeTreatment from h2,
        show (b.withIdle p).forceChildrenToBoundParent = b.forceChildrenToBoundParent from h3]
      rfl
    · rfl
  symm
  apply Res.Rel.eq
  unfold Booster.fit
  split
  · exact rfl
  · rw [hsp, fitTrees_eq_rest, fitTrees_eq_rest, Res.bind_assoc']
    have h0 : (if (b.withIdle p).trees.isEmpty then b.withIdle p else (b.withIdle p).reset) =
        (if b.trees.isEmpty then b else b.reset).withIdle p := by
      rw [show (b.withIdle p).trees = b.trees from rfl]
      split <;> rfl
    have hd0 : DrawSame env env' ρ p (if b.trees.isEmpty then b else b.reset) X.index X.cols := by
      split <;> exact hd
    have hp0 : p.For (if b.trees.isEmpty then b else b.reset) (ev ≠ none) := by
      split <;> exact ⟨hp.subsample, hp.rates, hp.missing, hp.evals⟩
    have hr0 : ρ (env.rng.seed (if b.trees.isEmpty then b else b.reset).seed) (env'.rng.seed p.seed) := by
      split <;> exact hr
    have hn0 : binMatrix env.sorter X w p.nbins (if b.trees.isEmpty then b else b.reset).missing =
        binMatrix env.sorter X w (if b.trees.isEmpty then b else b.reset).nbins
          (if b.trees.isEmpty then b else b.reset).missing := by
      split <;> exact hn
    rw [h0]
    clear hd hp hr h0 hn
    generalize (if b.trees.isEmpty then b else b.reset) = b0 at *
    dsimp only
    rw [show (b0.withIdle p).initializeBaseScore = b0.initializeBaseScore from rfl,
      show (b0.withIdle p).objectiveType = b0.objectiveType from rfl]
    suffices hk : Res.Rel (fun r r' => r' = Booster.withIdle r p)
        (if b0.initializeBaseScore = true then do
            let s ← calcInit b0.objectiveType y w
            fitRest env X y w b.splitter ev { b0 with baseScore := s }
          else fitRest env X y w b.splitter ev b0)
        (if b0.initializeBaseScore = true then do
            let s ← calcInit b0.objectiveType y w
            fitRest env' X y w b.splitter ev { b0.withIdle p with baseScore := s }
          else fitRest env' X y w b.splitter ev (b0.withIdle p)) by
      refine hk.bind fun r r' _ _ e => ?_
      subst e
      exact rfl
    split
    · refine (Res.Rel.of_eq rfl).bind fun s s' _ _ e => ?_
      subst e
      exact fitRest_idle (b := { b0 with baseScore := s }) hS hH hd0
        ⟨hp0.subsample, hp0.rates, hp0.missing, hp0.evals⟩ hr0 hn0
    · exact fitRest_idle hS hH hd0 hp0 hr0 hn0

/-! ## The number of bins -/

theorem percentilesOrValue_few [Fl.OrdLaws D] {S : Sorter} (hS : S.Ok) {v : List D} (w : List D) {L : List D}
    (hL : ∀ x ∈ v, x ∈ L) {n n' : Nat} (h : L.length ≤ n + 1) (h' : L.length ≤ n' + 1) :
    percentilesOrValue S v w (binPcts n') = percentilesOrValue S v w (binPcts n) := by
  unfold percentilesOrValue
  by_cases hn : ∀ a ∈ v, isNaN a = false
  · obtain ⟨s, hs, hp, ho⟩ := sortPartialCmp_spec hS id v hn
    rw [hs, Res.ok_bind, Res.ok_bind]
    have hi := dedup_increasing (l := s) ho
    have hnd : (dedupF s).Nodup := hi.imp fun h e => by
      subst e
      rw [Fl.OrdLaws.lt_irrefl] at h
      cases h
    have hle : (dedupF s).length ≤ L.length := by
      refine (List.subperm_of_subset hnd fun x hx => ?_).length_le
      exact hL x (hp.mem_iff.1 (dedup_mem hx))
    have e : ∀ k, (binPcts k : List D).length = k := fun k => by simp [binPcts]
    dsimp only
    rw [e, e, if_pos (by omega), if_pos (by omega)]
  · by_cases h2 : 2 ≤ v.length
    · have : sortPartialCmp S id v = .panic := by
        unfold sortPartialCmp
        rw [if_pos]
        refine ⟨h2, ?_⟩
        simpa using hn
      rw [this]
      rfl
    · have : sortPartialCmp S id v = .ok (S.sort (fun a b => id a ≤ᶠ id b) v) := by
        unfold sortPartialCmp
        rw [if_neg]
        exact fun h => h2 h.1
      rw [this, Res.ok_bind, Res.ok_bind]
      have h3 := dedup_length (S.sort (fun a b => id a ≤ᶠ id b) v)
      rw [(hS.perm _ _).length_eq] at h3
      have e : ∀ k, (binPcts k : List D).length = k := fun k => by simp [binPcts]
      dsimp only
      rw [e, e, if_pos (by omega), if_pos (by omega)]

theorem binMatrix_few [Fl.OrdLaws D] {S : Sorter} (hS : S.Ok) {X : Matrix D} (hX : X.Shaped) {missing : D} {n n' : Nat}
    (h : ∀ c < X.cols, X.Few missing (n + 1) c ∧ X.Few missing (n' + 1) c) (w : List D) :
    binMatrix S X w n' missing = binMatrix S X w n missing := by
  unfold binMatrix
  have e : Res.mapM' (fun i => do
        let c ← X.getCol i
        colCuts S c w n' missing) (List.range X.cols) =
      Res.mapM' (fun i => do
        let c ← X.getCol i
        colCuts S c w n missing) (List.range X.cols) := by
    refine Res.mapM'_congr fun c hc => ?_
    have hc := List.mem_range.1 hc
    obtain ⟨⟨L, hl, hL⟩, L', hl', hL'⟩ := h c hc
    rw [Matrix.getCol_eq hX hc, Res.ok_bind, Res.ok_bind]
    unfold colCuts
    cases hk : filterMissing missing ((X.column c).zip w) with
    | panic => rfl
    | diverge => rfl
    | ok kept =>
      rw [Res.ok_bind, Res.ok_bind]
      obtain ⟨-, rfl⟩ := filterMissing_eq_ok.1 hk
      have hmem : ∀ x ∈ (((X.column c).zip w).filter fun x => !decide (IsMissing missing x.1)).map Prod.fst,
          (∃ i, X.entry i c = some x) ∧ ¬ IsMissing missing x := by
        intro x hx
        obtain ⟨p, hp, rfl⟩ := List.mem_map.1 hx
        obtain ⟨h1, h2⟩ := List.mem_filter.1 hp
        have h3 := (List.of_mem_zip (show (p.1, p.2) ∈ _ from h1)).1
        obtain ⟨i, hi⟩ := List.getElem?_of_mem h3
        have hlt : i < X.rows := by
          rw [← Matrix.column_length hX hc]
          exact (List.getElem?_eq_some_iff.1 hi).1
        rw [Matrix.column_getElem? X hlt] at hi
        exact ⟨⟨i, hi⟩, by simpa using h2⟩
      rcases Nat.le_total n n' with hnn | hnn
      · rw [percentilesOrValue_few (n := n) (n' := n') hS _ (L := L) (fun x hx => hL _ x (hmem x hx).1.choose_spec (hmem x hx).2) hl
          (by omega)]
      · rw [percentilesOrValue_few (n := n) (n' := n') hS _ (L := L') (fun x hx => hL' _ x (hmem x hx).1.choose_spec (hmem x hx).2)
          (by omega) hl']
  rw [e]

end Verif
