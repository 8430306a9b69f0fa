import Verif.Proofs.CopiesFit
import Verif.Proofs.Tapes
import Verif.Proofs.FullRate
import Verif.Spec.Tapes

/-!
# GOSS which keeps all rows
-/

namespace Verif

open scoped Verif

set_option linter.unusedSectionVars false

section any
variable {R F D : Type} [Fl F] [Fl D] [FlCast F D]

/-- The same booster with gradient based sampling of rows. -/
def Booster.topped (b : Booster F D) (top other : D) : Booster F D :=
  { b with sampleMethod := .goss, topRate := top, otherRate := other }

theorem earlyStopUpdate_topped (b : Booster F D) (top other : D) (i : Nat) (m : D) (mx : Bool) (best : Option D)
    (stop : Bool) : earlyStopUpdate (b.topped top other) i m mx best stop =
      (((earlyStopUpdate b i m mx best stop).1.topped top other), (earlyStopUpdate b i m mx best stop).2) := by
  unfold earlyStopUpdate
  change (match b.earlyStoppingRounds with
    | none => _
    | some rounds => _) = _
  cases b.earlyStoppingRounds with
  | none => rfl
  | some rounds =>
    cases best with
    | none => rfl
    | some v =>
      dsimp only
      split
      · rfl
      · change (match b.bestIteration with
          | some bi => _
          | none => _) = _
        cases b.bestIteration <;> rfl

theorem evalLoop_topped (S : Sorter) (t : Tree F D) (i n : Nat) (top other : D) :
    ∀ (l : List (TrainEval D)) (k : Nat) (b : Booster F D) (best : Option D) (stop : Bool),
    evalLoop S t i n l k (b.topped top other) best stop =
      (evalLoop S t i n l k b best stop >>= fun r =>
        .ok (r.1, r.2.1, r.2.2.1.topped top other, r.2.2.2)) := by
  intro l
  induction l with
  | nil => intro k b best stop; rfl
  | cons e l ih =>
    intro k b best stop
    simp only [evalLoop, Res.bind_assoc']
    change (t.predict e.data b.missing >>= _) = _
    refine Res.bind_congr fun preds _ => ?_
    change (b.metric.eval S e.y _ e.w >>= _) = _
    refine Res.bind_congr fun m _ => ?_
    by_cases hk : k + 1 = n
    · simp only [hk, if_true]
      have e0 : (b.topped top other).metric = b.metric := rfl
      simp only [e0, earlyStopUpdate_topped, ih, Res.bind_assoc']
      refine Res.bind_congr fun r _ => rfl
    · simp only [hk, if_false]
      rw [ih, Res.bind_assoc']
      refine Res.bind_congr fun r _ => rfl

theorem evalSets_topped (S : Sorter) (t : Tree F D) (i : Nat) (b : Booster F D) (top other : D)
    (es : Option (List (TrainEval D))) (best : Option D) :
    evalSets S t i (b.topped top other) es best =
      (evalSets S t i b es best >>= fun r => .ok (r.1.topped top other, r.2)) := by
  cases es with
  | none => rfl
  | some es =>
    have hw : withHistory (b.topped top other) es.length = (withHistory b es.length).topped top other := by
      unfold withHistory
      change (match b.evaluationHistory with
        | none => _
        | some _ => _) = _
      cases b.evaluationHistory <;> rfl
    have ha : ∀ (b : Booster F D) (ms : List D),
        appendHistory (b.topped top other) ms = (appendHistory b ms >>= fun c => .ok (c.topped top other)) := by
      intro b ms
      unfold appendHistory
      change (match b.evaluationHistory with
        | none => _
        | some h => _) = _
      cases b.evaluationHistory with
      | none => rfl
      | some h => dsimp only; rw [Res.bind_assoc']; exact Res.bind_congr fun _ _ => rfl
    simp only [evalSets, hw, evalLoop_topped, Res.bind_assoc']
    refine Res.bind_congr fun r _ => ?_
    simp only [Res.ok_bind]
    rw [ha, Res.bind_assoc']
    exact Res.bind_congr fun _ _ => rfl

/-- GOSS which keeps all rows: the rows in some order, no number drawn, no gradient changed. -/
theorem gossSample_all {S : Sorter} (hS : S.Ok) {g : Rng R F D} {a b : D} {r : R} {index : List Nat}
    {grad hess : List F} (hn : Fl.toNat (a * (Fl.ofNat index.length : D)) = index.length)
    (hg : index.length ≤ grad.length) :
    ∃ rows : List Nat, rows.Perm (List.range index.length) ∧ gossSample S g a b r index grad hess = .ok (rows, grad, hess, r) := by
  obtain ⟨keys, hkeys⟩ := Res.mapM'_exists (l := List.range index.length) (f := fun i => do
      let x ← idx grad i
      pure (i, Fl.abs x)) (fun i hi => by
    have : i < grad.length := lt_of_lt_of_le (List.mem_range.1 hi) hg
    rw [idx_of_lt this]; exact ⟨_, rfl⟩)
  obtain ⟨k1, k2⟩ := keys_eq hkeys
  have hp := hS.perm (fun p q : Nat × F => Fl.tle q.2 p.2) keys
  have hperm : ((S.sort (fun p q : Nat × F => Fl.tle q.2 p.2) keys).map Prod.fst).Perm (List.range index.length) := by
    rw [← k1]; exact hp.map _
  refine ⟨_, hperm, ?_⟩
  have hlen := hperm.length_eq
  rw [List.length_range] at hlen
  have hu := (slice_eq_ok (l := (S.sort (fun p q : Nat × F => Fl.tle q.2 p.2) keys).map Prod.fst) (i := 0)
    (j := index.length)).2 ⟨Nat.zero_le _, hlen.ge, rfl⟩
  have hk' : Res.mapM' (fun i => do
      let x ← idx grad i
      pure (i, Fl.abs x)) (List.range index.length) = .ok keys := hkeys
  simp only [gossSample, hk', Res.ok_bind, hn, hu]
  rw [List.drop_eq_nil_of_le hlen.le]
  simp only [gossLoop, Res.ok_bind, List.append_nil, List.drop_zero, Nat.sub_zero]
  rw [List.take_of_length_le hlen.le]

theorem fitIteration_topped {env : Env R F D} {data : Matrix D} {y w : List D} {sp : Splitter F}
    {bdata : Matrix Nat} {cuts : JaggedMatrix D} {i : Nat} {s s' : FitState R F D} {stop : Bool} {rows : List Nat}
    (hs : s.booster.sampleMethod = .goss)
    (hk : gossSample env.sorter env.rng s.booster.topRate s.booster.otherRate s.rng data.index s.grad s.hess =
      .ok (rows, s.grad, s.hess, s.rng))
    (h : fitIteration env data y w sp bdata cuts i s = .ok (s', stop)) :
    ∃ tree preds b1 ev best,
      Tree.fit { splitter := sp, train := { data := bdata, cuts, grad := s.grad, hess := s.hess
                                            colIndex := (sampleColumns env.rng s.booster.colsampleBytree
                                              s.rng data.cols).1 }
                 maxLeaves := s.booster.maxLeaves, maxDepth := s.booster.maxDepth
                 policy := s.booster.growPolicy, heap := env.heap i } .goss rows = .ok tree ∧
      tree.predict data s.booster.missing = .ok preds ∧
      evalSets env.sorter tree i s.booster s.evals s.best = .ok (b1, ev, best, stop) ∧
      s'.booster = { b1 with trees := b1.trees ++ [tree] } ∧ s'.yhat = addPreds s.yhat preds ∧
      s'.evals = ev ∧ s'.best = best ∧
      s'.rng = (sampleColumns env.rng s.booster.colsampleBytree s.rng data.cols).2 := by
  simp only [fitIteration, hs, sampleIndex, hk, Res.ok_bind] at h
  simp only [Res.bind_eq_ok] at h
  obtain ⟨tree, h1, preds, h2, ⟨b1, ev, best, st⟩, h3, h⟩ := h
  cases st with
  | true =>
    simp only [if_true, Res.ok.injEq, Prod.mk.injEq] at h
    obtain ⟨rfl, rfl⟩ := h
    exact ⟨tree, preds, b1, ev, best, h1, h2, h3, rfl, rfl, rfl, rfl, rfl⟩
  | false =>
    simp only [Bool.false_eq_true, if_false, Res.ok.injEq, Prod.mk.injEq] at h
    obtain ⟨rfl, rfl⟩ := h
    exact ⟨tree, preds, b1, ev, best, h1, h2, h3, rfl, rfl, rfl, rfl, rfl⟩

end any

section exact
variable {K : Type} [Field K] [LinearOrder K] [IsStrictOrderedRing K] {m32 m64 : Fmt K} [m32.Exact] [m64.Exact]

theorem fibSum_id (n : Nat) (v : Nat → K) : FibSum id n n v v := by
  intro r hr
  have : ((List.range n).filter fun r' => decide (id r' = r)) = [r] := by
    have := List.nodup_range (n := n) |>.filter fun r' => decide (id r' = r)
    refine (List.perm_singleton.1 ?_)
    refine (List.perm_ext_iff_of_nodup this (by simp)).2 fun a => ?_
    simp only [List.mem_filter, List.mem_range, id, decide_eq_true_eq, List.mem_singleton]
    constructor
    · exact fun h => h.2
    · rintro rfl; exact ⟨hr, rfl⟩
  rw [this]
  simp

/-- The rows of the root in another order. -/
theorem treeFit_reordered {c : GrowCfg (FX m32) (FX m64)} {gv hv : Nat → K} (hh : c.heap.ByScore)
    (hT : TrainOk c.train gv hv) (hpos : (0 <ᶠ c.splitter.params.minLeafWeight) = true)
    (hg : c.train.grad.length = c.train.data.rows) (hhl : c.train.hess.length = c.train.data.rows)
    {sm : SampleMethod} (hsm : sm ≠ .none) {rows : List Nat} (hp : rows.Perm (List.range c.train.data.rows))
    {r r' : Tree (FX m32) (FX m64)} (e : Tree.fit c .none (List.range c.train.data.rows) = .ok r)
    (e' : Tree.fit c sm rows = .ok r') : r' = r := by
  have hC : CfgCopy id c c gv hv gv hv :=
    ⟨rfl, rfl, rfl, rfl, rfl, hh, ⟨rfl, rfl, fun r h => h, fun r h => ⟨r, h, rfl⟩,
      fun col _ f f' h1 h2 r' _ => by rw [h1] at h2; cases h2; rfl, fibSum_id _ _, fibSum_id _ _⟩, hT, hT, hpos⟩
  simp only [Tree.fit, Res.bind_eq_ok, Res.ok.injEq] at e e'
  obtain ⟨s0, e0, s1, e1, nodes, e2, rfl⟩ := e
  obtain ⟨s0', e0', s1', e1', nodes', e2', rfl⟩ := e'
  obtain ⟨_, _, _, _, _, _, gs, hI⟩ := growInit_inv e0
  obtain ⟨_, _, _, _, _, _, gs', hI'⟩ := growInit_inv e0'
  have hst : GrowCopy id c.train c.train gv hv gv hv s0 s0' := by
    simp only [growInit, Res.bind_eq_ok, Prod.exists, Res.ok.injEq] at e0 e0'
    obtain ⟨g, h, so, c1, hi, c2, rfl⟩ := e0
    obtain ⟨g', h', so', c1', hi', c2', rfl⟩ := e0'
    have hN := root_sums hT (fun _ => ⟨by rw [hg], by rw [hg, hhl]⟩) c1 c2 c.splitter.params
      (List.range c.train.data.rows).length
    have hN' := root_sums hT (fun h => absurd h hsm) c1' c2' c.splitter.params rows.length
    have ho : Over id c.train.data.rows c.train.data.rows (List.range c.train.data.rows) rows :=
      (Over.range fun r h => h).perm (.refl _) hp
    have e1 : g' = g := by
      have h1 := hN.grad
      have h2 := hN'.grad
      rw [show rowSum gv _ = rowSum gv _ from ho.sum (fibSum_id _ _)] at h2
      exact h2.trans h1.symm
    have e2 : h' = h := by
      have h1 := hN.hess
      have h2 := hN'.hess
      rw [show rowSum hv _ = rowSum hv _ from ho.sum (fibSum_id _ _)] at h2
      exact h2.trans h1.symm
    subst e1; subst e2
    refine ⟨rfl, rfl, rfl, rfl, .cons ⟨rfl, _, _, ?_, ?_, ho, hN, hN'⟩ .nil⟩
    · rw [slice_ok_iff]; exact ⟨Nat.zero_le _, le_refl _, by simp [SNode.new]⟩
    · rw [slice_ok_iff]; exact ⟨Nat.zero_le _, le_refl _, by simp [SNode.new]⟩
  have := growLoop_copy hC _ hI hI' hst e1 e1'
  rw [this, e2] at e2'
  cases e2'; rfl

end exact

end Verif
