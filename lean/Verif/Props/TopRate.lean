import Verif.Proofs.TopRate
import Verif.Props.TotalAny
import Verif.Props.GossMean
import Verif.Props.Copies
import Verif.Props.FullRate
import Verif.Props.Additive

/-!
# C142: GOSS with `top_rate` one is no sampling

`GossSampler` keeps the `top_rate * n` rows of the largest gradients and draws from the rest (src/sampler.rs 78-109).
With `top_rate` one nothing is left to draw from: the rows are only put into another order, no gradient is multiplied
and the generator is not asked.  The tree then starts from the reordered rows.
-/

namespace Verif

open scoped Verif

set_option linter.unusedSectionVars false

section
variable {K : Type} [Field K] [LinearOrder K] [IsStrictOrderedRing K] {m32 m64 : Fmt K} [m32.Exact] [m64.Exact]
variable {R : Type} {env : Env R (FX m32) (FX m64)} {b b1 : Booster (FX m32) (FX m64)} {X : Matrix (FX m64)}
  {y w : List K} {ev : Option (List (EvalSet (FX m64)))} {l1 l2 mds lr : K}

/-- A rate of one keeps all rows. -/
theorem toNat_top_one (hT : m64.Truncates) (n : Nat) : Fl.toNat ((1 : FX m64) * (Fl.ofNat n : FX m64)) = n := by
  have e : (1 : FX m64) * (Fl.ofNat n : FX m64) = FX.fin (n : K) := by
    rw [FX.ofNat_eq, FX.one_def, FX.fin_mul, one_mul]
  rw [e]
  change m64.toNatF (n : K) = n
  obtain ⟨h1, h2⟩ := hT (n : K) (Nat.cast_nonneg n)
  have h1 : m64.toNatF (n : K) ≤ n := by exact_mod_cast h1
  have h2 : n < m64.toNatF (n : K) + 1 := by exact_mod_cast h2
  omega

/-- The run with GOSS, if it returns, returns the same model. -/
theorem fit_topped (hP : PlainFit env b X y w ev b1 l1 l2 mds lr) (hn : b.sampleMethod = .none)
    (hh : ∀ i, (env.heap i).ByScore) (hT : m64.Truncates) {other : FX m64} {b1' : Booster (FX m32) (FX m64)}
    (hfit : (b.topped 1 other).fit env X (y.map FX.fin) (w.map FX.fin) ev = .ok (b1', .ok ())) :
    b1' = b1.topped 1 other := by
  obtain ⟨base, binned, st, stop, N, hT⟩ := Booster.fit_trace hP.fit
  obtain ⟨base', binned', st', stop', N', hT'⟩ := Booster.fit_trace hfit
  have hbase : base' = base := by
    have a := hT.base_eq
    have a' := hT'.base_eq
    change if b.initializeBaseScore = true then calcInit b.objectiveType _ _ = _ else _ at a'
    split at a
    · next hi => rw [if_pos hi, a] at a'; injection a' with a'; exact a'.symm
    · next hi => rw [if_neg hi] at a'; rw [a, a']; rfl
  subst hbase
  have hbin : binned' = binned := by
    have a := hT.bin_eq
    have a' := hT'.bin_eq
    change binMatrix env.sorter X _ b.nbins b.missing = _ at a'
    rw [a] at a'; injection a' with a'; exact a'.symm
  subst hbin
  have hsplit : (b.topped 1 other).splitter = b.splitter := rfl
  have main : ∀ k : Nat, k ≤ N → k ≤ N' → (st' k).booster = (st k).booster.topped 1 other ∧
      (st' k).evals = (st k).evals ∧ (st' k).best = (st k).best ∧ (st' k).rng = (st k).rng ∧
      (st' k).yhat = (st k).yhat ∧ ∀ j : Nat, j + 1 = k → stop' j = stop j := by
    intro k
    induction k with
    | zero =>
      intro _ _
      rw [hT.start, hT'.start]
      have hst : (b.topped 1 other).start = b.start.topped 1 other := by
        unfold Booster.start
        change (if b.trees.isEmpty then _ else _) = _
        split <;> rfl
      rw [hst]
      exact ⟨rfl, rfl, rfl, rfl, rfl, by omega⟩
    | succ k ih =>
      intro hk hk'
      obtain ⟨i1, i2, i3, i4, i5, _⟩ := ih (by omega) (by omega)
      have hsame := hT.same k (by omega)
      have hsm : (st k).booster.sampleMethod = .none := by
        unfold Booster.SameParams at hsame; rw [hsame]; exact hn
      obtain ⟨t, p, bb, e, be, a1, a2, a3, a4, a5, a6, a7, a8⟩ :=
        fitIteration_none hsm (hT.step k (by omega))
      obtain ⟨q, hq⟩ := hP.yhat hT k (by omega)
      have hg := hT.grad k (by omega)
      have hg' := hT'.grad k (by omega)
      change _ = calcGradHess b.objectiveType _ _ _ at hg'
      rw [i5, ← hg] at hg'
      injection hg' with hg1 hg2
      rw [hq] at hg
      have hql : q.length = X.rows := by
        have := predictFold_length (hT.yhat k (by omega))
        rw [hq] at this
        simpa [hP.ylen] using this
      have hf := calcGradHess_fin (m32 := m32) hP.exp y q w hP.nonneg
      have hl := calcGradHess_length (F := FX m32) (n := X.rows) b.objectiveType (y.map FX.fin : List (FX m64))
        (q.map FX.fin) (w.map FX.fin) (by simp [hP.ylen]) (by simp [hql]) (by simp [hP.wlen])
      rw [← hg] at hf hl
      have hil : X.index.length = X.rows := by simp [Matrix.index]
      obtain ⟨rows, hrows, hgo⟩ := gossSample_all (b := other) hP.sorter (g := env.rng) (a := (1 : FX m64))
        (r := (st k).rng) (index := X.index) (grad := (st k).grad) (hess := (st k).hess)
        (toNat_top_one ‹_› _) (by rw [hil]; exact hl.1.ge)
      obtain ⟨t', p', bb', e', be', a1', a2', a3', a4', a5', a6', a7', a8'⟩ :=
        fitIteration_topped (rows := rows) (by rw [i1]; rfl)
          (by rw [i1, i4, hg1, hg2]; exact hgo) (hT'.step k (by omega))
      rw [i1, i4, hg1, hg2] at a1'
      have hsc := sampleColumns_sorted hP.rng (rate := (st k).booster.colsampleBytree) (r := (st k).rng)
        (cols := X.cols)
        (cs := (sampleColumns env.rng (st k).booster.colsampleBytree (st k).rng X.cols).1)
        (r' := (sampleColumns env.rng (st k).booster.colsampleBytree (st k).rng X.cols).2) rfl
      have ok := trainOf_ok hP.sorter hP.shaped hP.wlen.ge hP.max hT.bin_eq hsc.1 hsc.2.1
        hf.1.finRows hf.2.fin.finRows
      have hpos : (0 <ᶠ b.splitter.params.minLeafWeight) = true := by
        have : b.splitter.params.minLeafWeight = b.minLeafWeight := by
          unfold Booster.splitter; split <;> rfl
        rw [this]; exact hP.minLeafWeight
      have ht : t' = t := by
        rw [hil] at hrows
        exact treeFit_reordered (hh k) ok hpos hl.1 hl.2 (sm := .goss) (by simp) hrows a1 a1'
      subst ht
      rw [i1] at a2'
      rw [i1, i2, i3, evalSets_topped, a3] at a3'
      simp only [Res.ok_bind, Res.ok.injEq, Prod.mk.injEq] at a3'
      obtain ⟨rfl, rfl, rfl, e4⟩ := a3'
      change t'.predict X (st k).booster.missing = _ at a2'
      rw [a2] at a2'
      injection a2' with a2'
      refine ⟨by rw [a4, a4']; rfl, by rw [a6, a6'], by rw [a7, a7'], ?_, ?_, ?_⟩
      · rw [a8, a8', i1, i4]; rfl
      · rw [a5, a5', i5, a2']
      · intro j hj
        obtain rfl : j = k := by omega
        exact e4.symm
  have hN : N = N' := by
    rcases Nat.lt_trichotomy N N' with hlt | he | hlt
    · obtain ⟨c1, c2⟩ := hT.ended (by have := hT'.le; exact lt_of_lt_of_le hlt this)
      have := (main N (le_refl _) (by omega)).2.2.2.2.2 (N - 1) (by omega)
      rw [c2, hT'.cont (N - 1) (by omega)] at this
      cases this
    · exact he
    · obtain ⟨c1, c2⟩ := hT'.ended (by have := hT.le; exact lt_of_lt_of_le hlt this)
      have := (main N' (by omega) (le_refl _)).2.2.2.2.2 (N' - 1) (by omega)
      rw [c2, hT.cont (N' - 1) (by omega)] at this
      cases this
  subst hN
  rw [← hT.last, ← hT'.last]
  exact (main N (le_refl _) (le_refl _)).1

/-- **C142**.  `b` does not sample rows; columns it may sample.  `b.fit` returned `b1`.  The same booster with GOSS,
`top_rate` one and any `other_rate` also returns, and returns `b1`: the same trees, history, best iteration and base
score.  In exact arithmetic, for finite targets and weights, a heap which picks by gain, and `create_missing_branch` or
`force_children_to_bound_parent` off (with both on a fit may panic, C62). -/
theorem C142_fit (hP : PlainFit env b X y w ev b1 l1 l2 mds lr) (hn : b.sampleMethod = .none)
    (hA : AnyArgs env b X (y.map FX.fin) (w.map FX.fin)) (hev : EvalArgs X b ev) (hh : ∀ i, (env.heap i).ByScore)
    (hT : m64.Truncates) (other : FX m64) :
    ({ b with sampleMethod := .goss, topRate := 1, otherRate := other } : Booster (FX m32) (FX m64)).fit env X
        (y.map FX.fin) (w.map FX.fin) ev =
      .ok ({ b1 with sampleMethod := .goss, topRate := 1, otherRate := other }, .ok ()) := by
  have hA' : AnyArgs env (b.topped 1 other) X (y.map FX.fin) (w.map FX.fin) :=
    ⟨hA.sorter, hA.rng, hA.heap, hA.shaped, hA.ylen, hA.wlen, hA.readable, hA.bins, hA.minLeafWeight,
      fun _ => (toNat_top_one hT X.rows).le, hA.free⟩
  obtain ⟨base, binned, st, stop, N, hT1⟩ := Booster.fit_trace hP.fit
  obtain ⟨b1', h1⟩ := (C77_fit hA' ⟨hev.nonempty, hev.ok, hev.fresh⟩).1 ((validateFit_ok _ _ _).1 hT1.valid)
  rw [fit_topped hP hn hh hT h1] at h1
  exact h1

end

/-! ## Examples -/

/-- A fit of two splits per tree with all hypotheses, whose rows GOSS takes in another order. -/
example : ∃ b1, PlainFit exEnv (exDepth 2) exAnd [0, 0, 0, 4] (List.replicate 4 (1 : ℚ)) none b1 0 0 0 (1/2) ∧
    (exDepth 2).sampleMethod = .none ∧ AnyArgs exEnv (exDepth 2) exAnd (([0, 0, 0, 4] : List ℚ).map FX.fin)
      ((List.replicate 4 (1 : ℚ)).map FX.fin) ∧ EvalArgs exAnd (exDepth 2) none ∧ (∀ i, (exEnv.heap i).ByScore) ∧
    ratFmt.Truncates ∧ (∃ t ∈ b1.trees, 3 < t.nodes.length) ∧
    gossSample exEnv.sorter exEnv.rng (q 1) (q (1/5)) 0 exAnd.index [q 1, q (-2), q 3, q (-4)] [q 1, q 1, q 1, q 1] =
      .ok ([3, 2, 1, 0], [q 1, q (-2), q 3, q (-4)], [q 1, q 1, q 1, q 1], 0) := by
  have : (match (exDepth 2).fit exEnv exAnd [q 0, q 0, q 0, q 4] [q 1, q 1, q 1, q 1] none with
    | .ok (b', .ok ()) => b'.trees.any fun t => decide (3 < t.nodes.length)
    | _ => false) = true := by decide +kernel
  split at this
  · rename_i b' h
    simp only [List.any_eq_true, decide_eq_true_eq] at this
    refine ⟨b', exDepth_plain h, rfl, ?_, ⟨by simp, by simp, .inr rfl⟩, exEnv_natural.heap, ratFmt_truncates, this,
      by decide +kernel⟩
    exact
      { sorter := exSorter_ok, rng := exRng_ok, heap := fun _ => exHeap_ok, shaped := rfl, ylen := rfl
        wlen := rfl, readable := by decide +kernel, bins := by decide, minLeafWeight := by decide +kernel
        goss := fun h => (nomatch h)
        free := .inl rfl }
  · cases this

/-- Targets of which two share a lane of the unrolled sum. -/
def lanedY : List F64 :=
  [f64 (-2 ^ 60), f64 (2 ^ 60)] ++ List.replicate 14 (f64 0) ++ [f64 (-1)] ++ List.replicate 15 (f64 0)

/-- **C142** (rounding).  In `f32` and `f64` the claim is false: on 32 rows the order of the additions without sampling
loses the small gradient, and the order of GOSS does not. -/
theorem C142_rounded : ∃ b, cancelB = some b ∧ b.sampleMethod = .none ∧ lanedY.length = cancelX.rows ∧
    firstOf (b.fit floatEnv cancelX lanedY (List.replicate 32 1) none) = some (f64 0) ∧
    firstOf (({ b with sampleMethod := .goss, topRate := 1 } : Booster F32 F64).fit floatEnv cancelX lanedY
      (List.replicate 32 1) none) = some (f64 (-1/32)) := by
  have : (match cancelB with
    | some b => decide (b.sampleMethod = .none ∧
        firstOf (b.fit floatEnv cancelX lanedY (List.replicate 32 1) none) = some (f64 0) ∧
        firstOf (({ b with sampleMethod := .goss, topRate := 1 } : Booster F32 F64).fit floatEnv cancelX lanedY
          (List.replicate 32 1) none) = some (f64 (-1/32)))
    | none => false) = true := by decide +kernel
  split at this
  · rename_i b hb
    obtain ⟨h1, h2, h3⟩ := of_decide_eq_true this
    exact ⟨b, hb, h1, rfl, h2, h3⟩
  · cases this

end Verif
