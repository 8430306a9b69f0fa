import Verif.Model.Usize
import Verif.Proofs.Pivot
import Verif.Proofs.Kids
import Verif.Proofs.ScaleData

/-!
# No subtraction of indices or counts goes below zero: lemmas

`Ext x x'`: where `x` returns, `x'` returns the same.
-/

namespace Verif

open scoped Verif

/-- `x'` returns what `x` returns, where `x` returns. -/
def Res.Ext {α : Type} (x x' : Res α) : Prop := ∀ r, x = .ok r → x' = .ok r

namespace Res

variable {α β : Type}

theorem Ext.rfl' {x : Res α} : Ext x x := fun _ h => h

theorem Ext.of_eq {x x' : Res α} (h : x' = x) : Ext x x' := by subst h; exact Ext.rfl'

theorem Ext.bind {x x' : Res α} {f f' : α → Res β} (hx : Ext x x')
    (hf : ∀ a, x = .ok a → Ext (f a) (f' a)) : Ext (x >>= f) (x' >>= f') := by
  intro r h
  cases x with
  | ok a => rw [hx a rfl]; exact hf a rfl r h
  | panic => cases h
  | diverge => cases h

theorem Ext.same {x : Res α} {f f' : α → Res β} (hf : ∀ a, x = .ok a → Ext (f a) (f' a)) :
    Ext (x >>= f) (x >>= f') := Ext.bind Ext.rfl' hf

end Res

open Res

theorem UsizeSub.bind (u : UsizeSub) {β : Type} {a b : Nat} (h : b ≤ a) (f : Nat → Res β) :
    (u.sub a b >>= f) = f (a - b) := by rw [u.exact a b h]; rfl

section pivots
variable (u : UsizeSub)

theorem pivotHighU_eq (index feature : List Nat) (split : Nat) (mr : Bool) (low : Nat) :
    ∀ n high, pivotHighU u index feature split mr low n high =
      pivotHigh index feature split mr low n high := by
  intro n
  induction n with
  | zero => intro high; rfl
  | succ n ih =>
    intro high
    simp only [pivotHighU, pivotHigh]
    split
    · refine Res.bind_eq fun i _ => Res.bind_eq fun h _ => ?_
      split
      · rfl
      · rw [u.bind (by omega), ih]
    · rfl

theorem pivotLoopU_eq (feature : List Nat) (split : Nat) (mr : Bool) (maxIdx : Nat) :
    ∀ n index low high, pivotLoopU u feature split mr maxIdx n index low high =
      pivotLoop feature split mr maxIdx n index low high := by
  intro n
  induction n with
  | zero => intros; rfl
  | succ n ih =>
    intro index low high
    simp only [pivotLoopU, pivotLoop, pivotHighU_eq, ih]

theorem pivotOnSplitU_eq (index feature : List Nat) (split : Nat) (mr : Bool) :
    pivotOnSplitU u index feature split mr = pivotOnSplit index feature split mr := by
  simp only [pivotOnSplitU, pivotOnSplit, pivotLoopU_eq]

theorem pivotXHighU_eq (feature : List Nat) (split : Nat) :
    ∀ n index missing low high, pivotXHighU u feature split n index missing low high =
      pivotXHigh feature split n index missing low high := by
  intro n
  induction n with
  | zero => intros; rfl
  | succ n ih =>
    intro index missing low high
    simp only [pivotXHighU, pivotXHigh]
    split
    · refine Res.bind_eq fun i _ => Res.bind_eq fun h _ => ?_
      have key : ∀ (x : List Nat × Nat × Nat),
          (if h < split then .ok (x.1, x.2.1, x.2.2, high)
            else u.sub high 1 >>= fun high => pivotXHighU u feature split n x.1 x.2.1 x.2.2 high) =
          (if h < split then Res.ok (x.1, x.2.1, x.2.2, high)
            else pivotXHigh feature split n x.1 x.2.1 x.2.2 (high - 1)) := by
        intro x
        rw [u.bind (by omega), ih]
      by_cases h0 : h = 0
      · rw [if_pos h0, if_pos h0]
        exact Res.bind_eq fun ix _ => key _
      · rw [if_neg h0, if_neg h0]
        exact key _
    · rfl

theorem pivotXLoopU_eq (feature : List Nat) (split maxIdx : Nat) :
    ∀ n index missing low high, pivotXLoopU u feature split maxIdx n index missing low high =
      pivotXLoop feature split maxIdx n index missing low high := by
  intro n
  induction n with
  | zero => intros; rfl
  | succ n ih =>
    intro index missing low high
    simp only [pivotXLoopU, pivotXLoop, pivotXHighU_eq, ih]

theorem pivotOnSplitExcludeMissingU_eq (index feature : List Nat) (split : Nat) :
    pivotOnSplitExcludeMissingU u index feature split =
      pivotOnSplitExcludeMissing index feature split := by
  simp only [pivotOnSplitExcludeMissingU, pivotOnSplitExcludeMissing, pivotXLoopU_eq]

end pivots

section trees
variable {F D : Type} [Fl F] [Fl D] [FlCast F D] (u : UsizeSub)

theorem imputerHandleU_ext (t : TrainData F D) (info : SplitInfo F D) (nNodes : Nat)
    (node : SNode F D) (index : List Nat) :
    Ext (imputerHandle t info nNodes node index) (imputerHandleU u t info nNodes node index) := by
  unfold imputerHandle imputerHandleU
  dsimp only
  refine Ext.same fun mr _ => Ext.same fun rows hrows => Ext.same fun feature _ => ?_
  rw [pivotOnSplitU_eq]
  refine Ext.same ?_
  rintro ⟨rows', split⟩ hp
  have h1 := (pivotOnSplit_ok hp).2
  rw [slice_length hrows] at h1
  have h2 := (slice_ok_iff.1 hrows).1
  dsimp only
  rw [u.bind h2, u.bind (by omega), u.bind (by omega)]
  exact Ext.rfl'

theorem branchHandleU_ext (p : BranchParams F) (t : TrainData F D) (info : SplitInfo F D)
    (nNodes : Nat) (node : SNode F D) (index : List Nat) :
    Ext (branchHandle p t info nNodes node index)
      (branchHandleU u p t info nNodes node index) := by
  unfold branchHandle branchHandleU
  dsimp only
  refine Ext.same ?_
  rintro ⟨isLeaf, minfo⟩ _
  refine Ext.same fun rows hrows => Ext.same fun feature _ => ?_
  rw [pivotOnSplitExcludeMissingU_eq]
  refine Ext.same ?_
  rintro ⟨rows', mSplit, split⟩ hp
  have h2 := (slice_ok_iff.1 hrows).1
  dsimp only
  by_cases hc : mSplit ≤ split ∧ split ≤ node.stopIdx - node.startIdx
  · rw [u.bind h2, u.bind hc.2, u.bind (by omega), u.bind (by omega), u.bind (by omega)]
    have e : decide (mSplit ≤ split ∧ split ≤ node.stopIdx - node.startIdx) = true := decide_eq_true hc
    rw [e]
    exact Ext.rfl'
  · have e : decide (mSplit ≤ split ∧ split ≤ node.stopIdx - node.startIdx) = false :=
      decide_eq_false hc
    rw [e]
    intro r h
    cases h

theorem splitNodeU_ext (s : Splitter F) (t : TrainData F D) (nNodes : Nat) (node : SNode F D)
    (index : List Nat) : Ext (splitNode s t nNodes node index) (splitNodeU u s t nNodes node index) := by
  unfold splitNode splitNodeU
  refine Ext.same fun best _ => ?_
  cases best with
  | none => exact Ext.rfl'
  | some info =>
    cases s with
    | imputer _ => exact imputerHandleU_ext u t info nNodes node index
    | branch p => exact branchHandleU_ext u p t info nNodes node index

theorem growStepU_ext (c : GrowCfg F D) {s : GrowState F D} (hs : 1 ≤ s.nLeaves) :
    Ext (growStep c s) (growStepU u c s) := by
  unfold growStep growStepU
  refine Ext.same ?_
  rintro ⟨node, queue⟩ _
  dsimp only
  split
  · exact Ext.rfl'
  · rw [u.bind hs]
    exact Ext.bind (splitNodeU_ext u _ _ _ _ _) fun _ _ => Ext.rfl'

theorem growStep_leaves {c : GrowCfg F D} {s s' : GrowState F D} (hs : 1 ≤ s.nLeaves)
    (h : growStep c s = .ok s') : 1 ≤ s'.nLeaves := by
  unfold growStep at h
  obtain ⟨⟨node, queue⟩, _, h⟩ := Res.bind_eq_ok.1 h
  dsimp only at h
  split at h
  · cases h; exact hs
  · obtain ⟨⟨node', index, new⟩, _, h⟩ := Res.bind_eq_ok.1 h
    dsimp only at h
    split at h
    · cases h; show 1 ≤ s.nLeaves - 1 + 1; omega
    · obtain ⟨n, _, h⟩ := Res.bind_eq_ok.1 h
      cases h
      show 1 ≤ s.nLeaves - 1 + new.length
      omega

theorem growLoopU_ext (c : GrowCfg F D) : ∀ n (s : GrowState F D), 1 ≤ s.nLeaves →
    Ext (growLoop c n s) (growLoopU u c n s) := by
  intro n
  induction n with
  | zero => intro s _; exact Ext.rfl'
  | succ n ih =>
    intro s hs
    unfold growLoop growLoopU
    split
    · exact Ext.rfl'
    · exact Ext.bind (growStepU_ext u c hs) fun s' h => ih s' (growStep_leaves hs h)

theorem Tree.fitU_ext (c : GrowCfg F D) (sm : SampleMethod) (index : List Nat) :
    Ext (Tree.fit c sm index) (Tree.fitU u c sm index) := by
  unfold Tree.fit Tree.fitU
  refine Ext.same fun s hs => Ext.bind (growLoopU_ext u c _ s ?_) fun _ _ => Ext.rfl'
  unfold growInit at hs
  dsimp only at hs
  obtain ⟨⟨g, h, sort⟩, _, hs⟩ := Res.bind_eq_ok.1 hs
  obtain ⟨hists, _, hs⟩ := Res.bind_eq_ok.1 hs
  cases hs
  exact Nat.le_refl 1

end trees

section booster
variable {F D : Type} [Fl F] [Fl D] [FlCast F D] (u : UsizeSub)

/-- A recorded best iteration is one of the past when there is a best metric. -/
def BestBefore (i : Nat) (b : Booster F D) (best : Option D) : Prop :=
  best.isSome = true → ∀ bi, b.bestIteration = some bi → bi ≤ i

omit [Fl F] [FlCast F D] in
theorem earlyStopUpdateU_eq {b : Booster F D} {i : Nat} {best : Option D} (h : BestBefore i b best)
    (m : D) (mx stop : Bool) :
    earlyStopUpdateU u b i m mx best stop = .ok (earlyStopUpdate b i m mx best stop) := by
  unfold earlyStopUpdateU earlyStopUpdate
  cases b.earlyStoppingRounds with
  | none => rfl
  | some rounds =>
    cases best with
    | none => rfl
    | some v =>
      dsimp only
      split
      · rfl
      · cases hb : b.bestIteration with
        | none => rfl
        | some bi => dsimp only; rw [u.bind (h rfl bi hb)]

omit [Fl F] [FlCast F D] in
theorem earlyStopUpdate_best {b : Booster F D} {i : Nat} {best : Option D} (h : BestBefore i b best)
    (m : D) (mx stop : Bool) :
    BestBefore i (earlyStopUpdate b i m mx best stop).1 (earlyStopUpdate b i m mx best stop).2.1 := by
  have hu : ∀ v, BestBefore i (b.updateBestIteration i) (some v) := by
    intro v _ bi hbi
    cases hbi
    exact Nat.le_refl _
  unfold earlyStopUpdate
  cases b.earlyStoppingRounds with
  | none => exact h
  | some rounds =>
    cases best with
    | none => exact hu _
    | some v =>
      dsimp only
      split
      · exact hu _
      · cases hb : b.bestIteration with
        | none => exact h
        | some bi => exact h

theorem evalLoopU_ext (S : Sorter) (t : Tree F D) (i n : Nat) :
    ∀ (l : List (TrainEval D)) k (b : Booster F D) best stop, BestBefore i b best →
      Ext (evalLoop S t i n l k b best stop) (evalLoopU u S t i n l k b best stop) ∧
      ∀ r, evalLoop S t i n l k b best stop = .ok r → BestBefore i r.2.2.1 r.2.2.2.1 := by
  intro l
  induction l with
  | nil => intro k b best stop h; exact ⟨Ext.rfl', fun r hr => by cases hr; exact h⟩
  | cons e l ih =>
    intro k b best stop h
    unfold evalLoop evalLoopU
    constructor
    · refine Ext.same fun preds _ => ?_
      dsimp only
      refine Ext.same fun m _ => ?_
      by_cases hk : k + 1 = n
      · rw [if_pos hk, if_pos hk, earlyStopUpdateU_eq u h]
        exact Ext.bind (ih _ _ _ _ (earlyStopUpdate_best h _ _ _)).1 fun _ _ => Ext.rfl'
      · rw [if_neg hk, if_neg hk]
        exact Ext.bind (ih _ _ _ _ h).1 fun _ _ => Ext.rfl'
    · intro r hr
      obtain ⟨preds, _, hr⟩ := Res.bind_eq_ok.1 hr
      dsimp only at hr
      obtain ⟨m, _, hr⟩ := Res.bind_eq_ok.1 hr
      by_cases hk : k + 1 = n
      · rw [if_pos hk] at hr
        obtain ⟨⟨es, ms, b', best', stop'⟩, h1, hr⟩ := Res.bind_eq_ok.1 hr
        cases hr
        exact (ih _ _ _ _ (earlyStopUpdate_best h _ _ _)).2 (es, ms, b', best', stop') h1
      · rw [if_neg hk] at hr
        obtain ⟨⟨es, ms, b', best', stop'⟩, h1, hr⟩ := Res.bind_eq_ok.1 hr
        cases hr
        exact (ih _ _ _ _ h).2 (es, ms, b', best', stop') h1

omit [Fl F] [Fl D] [FlCast F D] in
theorem withHistory_best (b : Booster F D) (n : Nat) :
    (withHistory b n).bestIteration = b.bestIteration := by
  unfold withHistory; split <;> rfl

omit [Fl F] [Fl D] [FlCast F D] in
theorem appendHistory_best {b b' : Booster F D} {ms : List D} (h : appendHistory b ms = .ok b') :
    b'.bestIteration = b.bestIteration := by
  unfold appendHistory at h
  split at h
  · cases h; rfl
  · obtain ⟨x, _, h⟩ := Res.bind_eq_ok.1 h
    cases h; rfl

theorem evalSetsU_ext (S : Sorter) (t : Tree F D) (i : Nat) {b : Booster F D}
    (evals : Option (List (TrainEval D))) {best : Option D} (h : BestBefore i b best) :
    Ext (evalSets S t i b evals best) (evalSetsU u S t i b evals best) ∧
    ∀ r, evalSets S t i b evals best = .ok r → BestBefore i r.1 r.2.2.1 := by
  cases evals with
  | none => exact ⟨Ext.rfl', fun r hr => by cases hr; exact h⟩
  | some es =>
    have h' : BestBefore i (withHistory b es.length) best := fun hb bi hbi =>
      h hb bi ((withHistory_best b es.length).symm.trans hbi)
    obtain ⟨h1, h2⟩ := evalLoopU_ext u S t i es.length es 0 _ best false h'
    unfold evalSets evalSetsU
    constructor
    · exact Ext.bind h1 fun _ _ => Ext.rfl'
    · intro r hr
      obtain ⟨⟨es', ms, b', best', stop'⟩, h3, hr⟩ := Res.bind_eq_ok.1 hr
      dsimp only at hr
      obtain ⟨b'', h4, hr⟩ := Res.bind_eq_ok.1 hr
      cases hr
      intro hb bi hbi
      exact h2 _ h3 hb bi ((appendHistory_best h4).symm.trans hbi)

variable {R : Type}

theorem fitIterationU_ext (env : Env R F D) (data : Matrix D) (y w : List D)
    (splitter : Splitter F) (bdata : Matrix Nat) (cuts : JaggedMatrix D) (i : Nat)
    {s : FitState R F D} (h : BestBefore i s.booster s.best) :
    Ext (fitIteration env data y w splitter bdata cuts i s)
      (fitIterationU u env data y w splitter bdata cuts i s) ∧
    ∀ r, fitIteration env data y w splitter bdata cuts i s = .ok r →
      BestBefore i r.1.booster r.1.best := by
  unfold fitIteration fitIterationU
  constructor
  · dsimp only
    refine Ext.same ?_
    rintro ⟨chosen, grad, hess, rng⟩ _
    dsimp only
    refine Ext.bind (Tree.fitU_ext u _ _ _) fun tree _ => Ext.same fun preds _ => ?_
    exact Ext.bind (evalSetsU_ext u _ _ _ _ h).1 fun _ _ => Ext.rfl'
  · intro r hr
    dsimp only at hr
    obtain ⟨⟨chosen, grad, hess, rng⟩, _, hr⟩ := Res.bind_eq_ok.1 hr
    dsimp only at hr
    obtain ⟨tree, _, hr⟩ := Res.bind_eq_ok.1 hr
    obtain ⟨preds, _, hr⟩ := Res.bind_eq_ok.1 hr
    obtain ⟨⟨b', evals', best', stop'⟩, h3, hr⟩ := Res.bind_eq_ok.1 hr
    have h4 := (evalSetsU_ext u _ _ _ _ h).2 _ h3
    dsimp only at hr
    split at hr
    · cases hr; exact h4
    · cases hr; exact h4

theorem fitLoopU_ext (env : Env R F D) (data : Matrix D) (y w : List D)
    (splitter : Splitter F) (bdata : Matrix Nat) (cuts : JaggedMatrix D) :
    ∀ n i (s : FitState R F D), BestBefore i s.booster s.best →
      Ext (fitLoop env data y w splitter bdata cuts n i s)
        (fitLoopU u env data y w splitter bdata cuts n i s) := by
  intro n
  induction n with
  | zero => intro i s _; exact Ext.rfl'
  | succ n ih =>
    intro i s hs
    unfold fitLoop fitLoopU
    obtain ⟨h1, h2⟩ := fitIterationU_ext u env data y w splitter bdata cuts i hs
    refine Ext.bind h1 ?_
    rintro ⟨s', stop⟩ hr
    dsimp only
    split
    · exact Ext.rfl'
    · refine ih _ _ fun hb bi hbi => ?_
      have := h2 _ hr hb bi hbi
      omega

theorem Booster.fitU_ext (env : Env R F D) (b : Booster F D) (data : Matrix D) (y w : List D)
    (ev : Option (List (EvalSet D))) : Ext (b.fit env data y w ev) (b.fitU u env data y w ev) := by
  unfold Booster.fit Booster.fitU
  cases validateFit y w ev with
  | error e => exact Ext.rfl'
  | ok _ =>
    refine Ext.bind ?_ fun _ _ => Ext.rfl'
    unfold fitTrees fitTreesU
    dsimp only
    have key : ∀ b1 : Booster F D, Ext
        (binMatrix env.sorter data w b1.nbins b1.missing >>= fun binned =>
          fitLoop env data y w b.splitter
            { data := binned.binned, rows := data.rows, cols := data.cols } binned.cuts b1.iterations 0
            { booster := b1, yhat := List.replicate y.length b1.baseScore
              grad := (calcGradHess (F := F) b1.objectiveType y
                (List.replicate y.length b1.baseScore) w).1
              hess := (calcGradHess (F := F) b1.objectiveType y
                (List.replicate y.length b1.baseScore) w).2
              evals := ev.map fun es => es.map fun e =>
                { toEvalSet := e, yhat := List.replicate e.y.length b1.baseScore : TrainEval D }
              best := none, rng := env.rng.seed b1.seed } >>= fun s => .ok s.booster)
        (binMatrix env.sorter data w b1.nbins b1.missing >>= fun binned =>
          fitLoopU u env data y w b.splitter
            { data := binned.binned, rows := data.rows, cols := data.cols } binned.cuts b1.iterations 0
            { booster := b1, yhat := List.replicate y.length b1.baseScore
              grad := (calcGradHess (F := F) b1.objectiveType y
                (List.replicate y.length b1.baseScore) w).1
              hess := (calcGradHess (F := F) b1.objectiveType y
                (List.replicate y.length b1.baseScore) w).2
              evals := ev.map fun es => es.map fun e =>
                { toEvalSet := e, yhat := List.replicate e.y.length b1.baseScore : TrainEval D }
              best := none, rng := env.rng.seed b1.seed } >>= fun s => .ok s.booster) := by
      intro b1
      refine Ext.same fun binned _ => ?_
      refine Ext.bind (fitLoopU_ext u _ _ _ _ _ _ _ _ _ _ ?_) fun _ _ => Ext.rfl'
      intro h
      cases h
    generalize (if b.trees.isEmpty = true then b else b.reset) = b0
    by_cases hi : b0.initializeBaseScore = true
    · rw [if_pos hi, if_pos hi]
      exact Ext.same fun s _ => key _
    · rw [if_neg hi, if_neg hi]
      exact key _

end booster

section shapley
variable {F D : Type} [Fl F] (u : UsizeSub)

theorem extendLoopU_eq (depth : Nat) (zero one : F) : ∀ i (p : List (PathElement F)), i ≤ depth →
    extendLoopU u depth zero one i p = extendLoop depth zero one i p := by
  intro i
  induction i with
  | zero => intros; rfl
  | succ i ih =>
    intro p hi
    unfold extendLoopU extendLoop
    refine Res.bind_eq ?_
    rintro ⟨e, p1⟩ _
    dsimp only
    refine Res.bind_eq fun p2 _ => Res.bind_eq ?_
    rintro ⟨e2, p3⟩ _
    dsimp only
    rw [u.bind (by omega)]
    exact Res.bind_eq fun p4 _ => ih p4 (by omega)

theorem extendPathU_eq (p : List (PathElement F)) (depth : Nat) (zero one : F) (feature : Nat) :
    extendPathU u p depth zero one feature = extendPath p depth zero one feature := by
  unfold extendPathU extendPath
  exact Res.bind_eq fun p1 _ => extendLoopU_eq u depth zero one depth p1 (Nat.le_refl _)

theorem unwindLoopU_eq (depth : Nat) (zero one : F) : ∀ i next (p : List (PathElement F)), i ≤ depth →
    unwindLoopU u depth zero one i next p = unwindLoop depth zero one i next p := by
  intro i
  induction i with
  | zero => intros; rfl
  | succ i ih =>
    intro next p hi
    unfold unwindLoopU unwindLoop
    refine Res.bind_eq ?_
    rintro ⟨e, p1⟩ _
    dsimp only
    split
    · refine Res.bind_eq fun p2 _ => ?_
      rw [u.bind (by omega)]
      exact ih _ _ (by omega)
    · rw [u.bind (by omega)]
      exact Res.bind_eq fun p2 _ => ih _ _ (by omega)

theorem unwindPathU_eq (p : List (PathElement F)) (depth k : Nat) :
    unwindPathU u p depth k = unwindPath p depth k := by
  unfold unwindPathU unwindPath
  refine Res.bind_eq ?_
  rintro ⟨e, p1⟩ _
  refine Res.bind_eq ?_
  rintro ⟨l, p2⟩ _
  dsimp only
  rw [unwindLoopU_eq u _ _ _ _ _ _ (Nat.le_refl _)]

theorem unwoundLoopU_eq (depth : Nat) (zero one : F) :
    ∀ i next total (p : List (PathElement F)), i ≤ depth →
    unwoundLoopU u depth zero one i next total p = unwoundLoop depth zero one i next total p := by
  intro i
  induction i with
  | zero => intros; rfl
  | succ i ih =>
    intro next total p hi
    unfold unwoundLoopU unwoundLoop
    dsimp only
    split
    · refine Res.bind_eq ?_
      rintro ⟨e, p1⟩ _
      dsimp only
      rw [u.bind (by omega)]
      exact ih _ _ _ (by omega)
    · split
      · refine Res.bind_eq ?_
        rintro ⟨e, p1⟩ _
        dsimp only
        rw [u.bind (by omega)]
        exact ih _ _ _ (by omega)
      · refine Res.bind_eq ?_
        rintro ⟨e, p1⟩ _
        dsimp only
        rw [ih _ _ _ (by omega)]

theorem unwoundPathSumU_eq (p : List (PathElement F)) (depth k : Nat) :
    unwoundPathSumU u p depth k = unwoundPathSum p depth k := by
  unfold unwoundPathSumU unwoundPathSum
  refine Res.bind_eq ?_
  rintro ⟨e, p1⟩ _
  refine Res.bind_eq ?_
  rintro ⟨l, p2⟩ _
  dsimp only
  rw [unwoundLoopU_eq u _ _ _ _ _ _ _ (Nat.le_refl _)]

variable [Fl D] [FlCast F D]

theorem leafContribsU_eq (p : List (PathElement F)) (depth : Nat) (value : F) :
    ∀ n i (c : List D), leafContribsU u p depth value n i c = leafContribs p depth value n i c := by
  intro n
  induction n with
  | zero => intros; rfl
  | succ n ih =>
    intro i c
    unfold leafContribsU leafContribs
    simp only [unwoundPathSumU_eq, ih]

/-- The feature of the element that was put on an empty path. -/
theorem extendPath_nil {zero one : F} {feature : Nat} {p : List (PathElement F)}
    (h : extendPath [] 0 zero one feature = .ok p) :
    p = [{ feature, zero, one, pweight := 1 }] := by
  cases h
  rfl

theorem treeShapU_eq (nodes : List (Node F D)) (row : List D) (missing : D) :
    ∀ fuel i depth (path : List (PathElement F)) pz po pf (c : List D),
      (depth = 0 → path = [] ∧ row.length ≤ pf) →
      treeShapU u nodes row missing fuel i depth path pz po pf c =
        treeShap nodes row missing fuel i depth path pz po pf c := by
  intro fuel
  induction fuel with
  | zero => intros; rfl
  | succ fuel ih =>
    intro i depth path pz po pf c h0
    unfold treeShapU treeShap
    refine Res.bind_eq fun node _ => ?_
    rw [extendPathU_eq]
    refine Res.bind_eq fun path1 hp => ?_
    split
    · rw [leafContribsU_eq]
    · refine Res.bind_eq fun v hv => Res.bind_eq fun next _ => ?_
      dsimp only
      refine Res.bind_eq fun k hk => ?_
      have key : ∀ (iz io : F) (p : List (PathElement F)) (d : Nat),
          Res.foldM' (fun (contribs : List D) (ci : Nat × Nat) => do
            let c ← idx nodes ci.1
            treeShapU u nodes row missing fuel ci.1 (d + 1) p ((c.hessianSum / node.hessianSum) * iz)
              (if ci.2 = 0 then io else 0) node.splitFeature contribs)
            c (hotColdChildren next node).zipIdx =
          Res.foldM' (fun (contribs : List D) (ci : Nat × Nat) => do
            let c ← idx nodes ci.1
            treeShap nodes row missing fuel ci.1 (d + 1) p ((c.hessianSum / node.hessianSum) * iz)
              (if ci.2 = 0 then io else 0) node.splitFeature contribs)
            c (hotColdChildren next node).zipIdx := by
        intro iz io p d
        congr 1
        funext contribs ci
        exact Res.bind_eq fun c _ => ih _ _ _ _ _ _ _ (fun h => absurd h (Nat.succ_ne_zero d))
      by_cases hne : k ≠ depth + 1
      · rw [if_pos hne, if_pos hne]
        have hd : 1 ≤ depth := by
          rcases Nat.eq_zero_or_pos depth with hz | hz
          · exfalso
            obtain ⟨h1, h2⟩ := h0 hz
            subst hz
            subst h1
            rw [extendPath_nil hp] at hk
            have hlt : node.splitFeature < row.length :=
              (List.getElem?_eq_some_iff.1 (idx_eq_ok.1 hv)).1
            have hf : ¬ pf = node.splitFeature := by omega
            simp only [findOnPath, idx, List.getElem?_cons_zero, Nat.le_refl, if_true] at hk
            change (if pf = node.splitFeature then Res.ok 0 else Res.ok 1) = Res.ok k at hk
            rw [if_neg hf] at hk
            cases hk
            exact hne rfl
          · exact hz
        refine Res.bind_eq ?_
        rintro ⟨e, p2⟩ _
        dsimp only
        rw [unwindPathU_eq]
        refine Res.bind_eq fun p3 _ => ?_
        rw [u.bind hd]
        exact key _ _ _ _
      · rw [if_neg hne, if_neg hne]
        exact key _ _ _ _

theorem Tree.contribShapleyU_eq (t : Tree F D) (row contribs : List D) (missing : D) :
    t.contribShapleyU u row contribs missing = t.contribShapley row contribs missing := by
  unfold Tree.contribShapleyU Tree.contribShapley
  refine Res.bind_eq fun avg _ => Res.bind_eq fun c _ => ?_
  exact treeShapU_eq u _ _ _ _ _ _ _ _ _ _ _ fun _ => ⟨rfl, by omega⟩

theorem Booster.shapleyRowsU_eq (b : Booster F D) (data : Matrix D) :
    b.shapleyRowsU u data = b.contribRows data .shapley := by
  unfold Booster.shapleyRowsU Booster.contribRows contribsRowAlone
  simp only [Tree.contribShapleyU_eq, rowPredFn]

end shapley

end Verif
