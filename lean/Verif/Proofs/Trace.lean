import Verif.Proofs.Boost

/-!
# The states of the boosting loop
-/

namespace Verif

open scoped Verif

variable {F D : Type} [Fl F] [Fl D] [FlCast F D] {R : Type}

set_option linter.unusedSectionVars false

/-- The loop goes through states `st 0, …, st N`. -/
theorem fitLoop_states {env : Env R F D} {data : Matrix D} {y w : List D} {splitter : Splitter F}
    {bdata : Matrix Nat} {cuts : JaggedMatrix D} : ∀ n i (s s' : FitState R F D),
    fitLoop env data y w splitter bdata cuts n i s = .ok s' →
    ∃ (st : Nat → FitState R F D) (stop : Nat → Bool) (N : Nat), N ≤ n ∧ st 0 = s ∧ st N = s' ∧
      (∀ k < N, fitIteration env data y w splitter bdata cuts (i + k) (st k) =
        .ok (st (k + 1), stop k)) ∧
      (∀ k, k + 1 < N → stop k = false) ∧ (N < n → 0 < N ∧ stop (N - 1) = true) := by
  intro n
  induction n with
  | zero =>
    intro i s s' h
    simp only [fitLoop, Res.ok.injEq] at h
    subst h
    exact ⟨fun _ => s, fun _ => false, 0, le_refl _, rfl, rfl, by omega, by omega, by omega⟩
  | succ n ih =>
    intro i s s' h
    simp only [fitLoop, Res.bind_eq_ok, Prod.exists] at h
    obtain ⟨s1, b, h1, h⟩ := h
    cases b with
    | true =>
      simp only [if_true, Res.ok.injEq] at h
      subst h
      refine ⟨fun k => if k = 0 then s else s1, fun _ => true, 1, by omega, rfl, rfl, ?_, by omega,
        fun _ => ⟨by omega, rfl⟩⟩
      intro k hk
      obtain rfl : k = 0 := by omega
      exact h1
    | false =>
      simp only [Bool.false_eq_true, if_false] at h
      obtain ⟨st, stop, N, a1, a2, a3, a4, a5, a6⟩ := ih (i + 1) s1 s' h
      refine ⟨fun k => match k with | 0 => s | k + 1 => st k,
        fun k => match k with | 0 => false | k + 1 => stop k, N + 1, by omega, rfl, a3, ?_, ?_, ?_⟩
      · intro k hk
        cases k with
        | zero => show _ = Res.ok (st 0, false); rw [a2]; exact h1
        | succ k =>
          have := a4 k (by omega)
          rw [show i + (k + 1) = i + 1 + k by omega]
          exact this
      · intro k hk
        cases k with
        | zero => rfl
        | succ k => exact a5 k (by omega)
      · intro hN
        obtain ⟨b1, b2⟩ := a6 (by omega)
        refine ⟨by omega, ?_⟩
        obtain ⟨N', rfl⟩ : ∃ N', N = N' + 1 := ⟨N - 1, by omega⟩
        simpa using b2

/-- A fit went through the states `st 0, …, st N`; `stop k` tells whether iteration `k` stopped it. -/
structure FitTrace (env : Env R F D) (b : Booster F D) (data : Matrix D) (y w : List D)
    (ev : Option (List (EvalSet D))) (b' : Booster F D) (base : D) (binned : BinnedData D)
    (st : Nat → FitState R F D) (stop : Nat → Bool) (N : Nat) : Prop where
  valid : validateFit y w ev = .ok ()
  base_eq : if b.initializeBaseScore then calcInit b.objectiveType y w = .ok base
    else base = b.baseScore
  bin_eq : binMatrix env.sorter data w b.nbins b.missing = .ok binned
  start : st 0 = fitStart env { b.start with baseScore := base } y w ev
  last : (st N).booster = b'
  le : N ≤ b.iterations
  step : ∀ k < N, fitIteration env data y w b.splitter
    { data := binned.binned, rows := data.rows, cols := data.cols } binned.cuts k (st k) =
      .ok (st (k + 1), stop k)
  cont : ∀ k, k + 1 < N → stop k = false
  ended : N < b.iterations → 0 < N ∧ stop (N - 1) = true

theorem Booster.fit_trace {env : Env R F D} {b b' : Booster F D} {data : Matrix D} {y w : List D}
    {ev : Option (List (EvalSet D))} (h : b.fit env data y w ev = .ok (b', .ok ())) :
    ∃ base binned st stop N, FitTrace env b data y w ev b' base binned st stop N := by
  unfold Booster.fit at h
  split at h
  · cases h
  · rename_i hv
    simp only [Res.bind_eq_ok, Res.ok.injEq, Prod.mk.injEq, and_true] at h
    obtain ⟨b1, h, rfl⟩ := h
    obtain ⟨base, binned, s, hb, hbin, hl, rfl⟩ := fitTrees_eq_ok.1 h
    obtain ⟨st, stop, N, a1, a2, rfl, a4, a5, a6⟩ := fitLoop_states _ _ _ _ hl
    refine ⟨base, binned, st, stop, N, ⟨hv, hb, hbin, a2, rfl, a1, ?_, a5, a6⟩⟩
    intro k hk
    have := a4 k hk
    rwa [Nat.zero_add] at this

section
variable {env : Env R F D} {b b' : Booster F D} {data : Matrix D} {y w : List D}
  {ev : Option (List (EvalSet D))} {base : D} {binned : BinnedData D} {st : Nat → FitState R F D}
  {stop : Nat → Bool} {N : Nat}

theorem FitTrace.same (h : FitTrace env b data y w ev b' base binned st stop N) :
    ∀ k, k ≤ N → ({ b with baseScore := base } : Booster F D).SameParams (st k).booster := by
  intro k
  induction k with
  | zero =>
    intro _
    rw [h.start, fitStart]
    unfold Booster.SameParams
    rw [b.start_eq]
  | succ k ih =>
    intro hk
    obtain ⟨cfg, chosen, tree, preds, hI⟩ := fitIteration_ok (h.step k (by omega))
    exact (ih (by omega)).trans hI.same

theorem FitTrace.treesLen (h : FitTrace env b data y w ev b' base binned st stop N) :
    ∀ k, k ≤ N → (st k).booster.trees.length = k := by
  intro k
  induction k with
  | zero =>
    intro _
    rw [h.start, fitStart]
    show b.start.trees.length = 0
    rw [b.start_eq]; rfl
  | succ k ih =>
    intro hk
    obtain ⟨cfg, chosen, tree, preds, hI⟩ := fitIteration_ok (h.step k (by omega))
    rw [hI.trees_eq, List.length_append, ih (by omega)]; rfl

theorem FitTrace.length (h : FitTrace env b data y w ev b' base binned st stop N) :
    b'.trees.length = N := by
  rw [← h.last]; exact h.treesLen N (le_refl _)

theorem FitTrace.trees (h : FitTrace env b data y w ev b' base binned st stop N) :
    ∀ k, k ≤ N → (st k).booster.trees = b'.trees.take k := by
  have : ∀ d k, k + d = N → (st k).booster.trees = b'.trees.take k := by
    intro d
    induction d with
    | zero =>
      intro k hk
      obtain rfl : k = N := by omega
      rw [← h.last, List.take_of_length_le (by rw [h.treesLen k (le_refl _)])]
    | succ d ih =>
      intro k hk
      obtain ⟨cfg, chosen, tree, preds, hI⟩ := fitIteration_ok (h.step k (by omega))
      have e := ih (k + 1) (by omega)
      rw [hI.trees_eq] at e
      have l := h.treesLen k (by omega)
      have := congrArg (List.take k) e
      rw [List.take_take, min_eq_left (by omega), List.take_left' l] at this
      exact this
  intro k hk
  exact this (N - k) k (by omega)

/-- The predictions of a list of trees, as `predict` adds them up. -/
def predictFold (missing : D) (data : Matrix D) (start : List D) (ts : List (Tree F D)) :
    Res (List D) :=
  Res.foldM' (fun (acc : List D) (t : Tree F D) => do
    let p ← t.predict data missing
    .ok (addPreds acc p)) start ts

theorem FitTrace.yhat (h : FitTrace env b data y w ev b' base binned st stop N) :
    ∀ k, k ≤ N → predictFold b.missing data (List.replicate y.length base) (b'.trees.take k) =
      .ok (st k).yhat := by
  intro k
  induction k with
  | zero => intro _; rw [h.start]; rfl
  | succ k ih =>
    intro hk
    obtain ⟨cfg, chosen, tree, preds, hI⟩ := fitIteration_ok (h.step k (by omega))
    rw [← h.trees (k + 1) hk, hI.trees_eq, h.trees k (by omega), predictFold, Res.foldM'_append]
    rw [show Res.foldM' _ _ (b'.trees.take k) = _ from ih (by omega), Res.ok_bind]
    have hm : (st k).booster.missing = b.missing := by
      have := h.same k (by omega)
      unfold Booster.SameParams at this
      rw [this]
    have hp := hI.preds_eq
    rw [hm] at hp
    rw [Res.foldM'_cons, hp, Res.ok_bind, Res.ok_bind, hI.yhat_eq]
    rfl

theorem FitTrace.grad (h : FitTrace env b data y w ev b' base binned st stop N) :
    ∀ k < N, ((st k).grad, (st k).hess) = calcGradHess b.objectiveType y (st k).yhat w := by
  intro k hk
  cases k with
  | zero =>
    rw [h.start]
    have : b.start.objectiveType = b.objectiveType := by rw [b.start_eq]
    show _ = calcGradHess b.objectiveType y (List.replicate y.length base) w
    rw [← this]; rfl
  | succ k =>
    obtain ⟨cfg, chosen, tree, preds, hI⟩ := fitIteration_ok (h.step k (by omega))
    rw [hI.grad_eq (h.cont k hk)]
    have := h.same k (by omega)
    unfold Booster.SameParams at this
    rw [this]

/-- Iteration `k` of a fit: the tree with its sample. -/
structure TreeAt (env : Env R F D) (b : Booster F D) (data : Matrix D) (y w : List D)
    (binned : BinnedData D) (yhat : List D) (k : Nat) (t : Tree F D) (cfg : GrowCfg F D)
    (rows : List Nat) : Prop where
  fitted : FittedBy env b data { data := binned.binned, rows := data.rows, cols := data.cols }
    binned.cuts t cfg rows
  heap : cfg.heap = env.heap k
  sample : ∃ r1 r2, sampleIndex env.sorter env.rng b.sampleMethod b.subsample b.topRate b.otherRate r1
    data.index (calcGradHess b.objectiveType y yhat w).1 (calcGradHess b.objectiveType y yhat w).2 =
      .ok (rows, cfg.train.grad, cfg.train.hess, r2)

theorem FitTrace.treeAt (h : FitTrace env b data y w ev b' base binned st stop N) {k : Nat}
    {t : Tree F D} (ht : b'.trees[k]? = some t) :
    ∃ cfg rows, TreeAt env b data y w binned (st k).yhat k t cfg rows := by
  have hk : k < N := by rw [← h.length]; exact (List.getElem?_eq_some_iff.1 ht).1
  obtain ⟨cfg, chosen, tree, preds, hI⟩ := fitIteration_ok (h.step k hk)
  have hsame := h.same k (by omega)
  unfold Booster.SameParams at hsame
  have hc := hI.cfg_eq
  obtain ⟨r1, r2, h1, h2, h3⟩ := hI.sample
  have hfit := hI.tree_eq
  have e1 : (st k).booster.sampleMethod = b.sampleMethod := by rw [hsame]
  have e2 : (st k).booster.subsample = b.subsample := by rw [hsame]
  have e3 : (st k).booster.topRate = b.topRate := by rw [hsame]
  have e4 : (st k).booster.otherRate = b.otherRate := by rw [hsame]
  have e5 : (st k).booster.colsampleBytree = b.colsampleBytree := by rw [hsame]
  have e6 : (st k).booster.maxLeaves = b.maxLeaves := by rw [hsame]
  have e7 : (st k).booster.maxDepth = b.maxDepth := by rw [hsame]
  have e8 : (st k).booster.growPolicy = b.growPolicy := by rw [hsame]
  rw [e1] at hfit
  rw [e1, e2, e3, e4] at h1
  rw [e5] at h2
  rw [e6, e7, e8] at hc
  have htree : tree = t := by
    have e := h.trees (k + 1) (by omega)
    rw [hI.trees_eq, h.trees k (by omega), List.take_add_one, ht] at e
    simpa using e
  subst htree
  have hg := h.grad k hk
  refine ⟨cfg, chosen, ⟨⟨hfit, ?_, ?_, ?_, ?_, ?_, ?_, ⟨r1, r2, h2⟩, ⟨_, _, _, _, h1⟩⟩, ?_, ⟨(st k).rng, r1, ?_⟩⟩⟩
  · rw [hc]
  · rw [hc]
  · rw [hc]
  · rw [hc]
  · rw [hc]
  · rw [hc]
  · rw [hc]
  · rw [← hg]; exact h1

end

end Verif
