import Verif.Props.WeightAverage
import Verif.Proofs.Rounds
import Verif.Proofs.ZeroGrad
import Verif.Props.TotalAny
import Verif.Spec.ExampleFloat

/-!
# C152: stronger regularisation never enlarges a node value
-/

set_option linter.unusedSectionVars false
set_option linter.unusedTactic false
set_option linter.unreachableTactic false

namespace Verif

open scoped Verif

section
variable {K : Type} [Field K] [LinearOrder K] [IsStrictOrderedRing K] {m : Fmt K} [hm : m.Rounds]

/-- The gradient brought nearer to zero by `l1`. -/
def nearer (g l1 : K) : K := if l1 < g then g - l1 else if g < -l1 then g + l1 else 0

theorem nearer_zero (g : K) : nearer g 0 = g := by
  unfold nearer
  split
  · simp
  · split
    · simp
    · linarith

theorem nearer_abs {g l l' : K} (h0 : 0 ≤ l) (h : l ≤ l') : |nearer g l'| ≤ |nearer g l| := by
  unfold nearer
  split_ifs <;> first
    | (exfalso; linarith)
    | exact le_refl _
    | (rw [abs_zero]; exact abs_nonneg _)
    | (rw [abs_of_nonneg (by linarith), abs_of_nonneg (by linarith)]; linarith)
    | (rw [abs_of_nonpos (by linarith), abs_of_nonpos (by linarith)]; linarith)

theorem l1Regularization_rd {g l : K} (hg : m.Repr g) :
    l1Regularization (FX.fin g : FX m) (FX.fin l) = FX.rd (nearer g l) := by
  unfold l1Regularization
  simp only [FX.zero_def, FX.feq_fin, FX.lt_fin, FX.neg_fin, decide_eq_true_eq]
  split
  · rename_i h
    rw [h, nearer_zero]
    unfold FX.rd
    rw [hg]; rfl
  · unfold nearer
    split
    · rw [sub_eq_add_neg]; rfl
    · split
      · rfl
      · unfold FX.rd
        rw [hm.zero]; rfl

theorem abs_rd (a : K) : FX.abs (FX.rd a : FX m) = FX.rd |a| := by
  rcases le_total 0 a with h | h
  · rw [abs_of_nonneg h]
    have := hm.mono h
    rw [hm.zero] at this
    unfold FX.rd
    cases e : m.rnd a with
    | ninf => rw [e] at this; exact absurd this id
    | pinf => rfl
    | fin x =>
      rw [e] at this
      show FX.fin |x| = FX.fin x
      rw [abs_of_nonneg this]
  · rw [abs_of_nonpos h]
    have := hm.mono h
    rw [hm.zero] at this
    unfold FX.rd
    rw [hm.neg]
    cases e : m.rnd a with
    | ninf => rfl
    | pinf => rw [e] at this; exact absurd this id
    | fin x =>
      rw [e] at this
      show FX.fin |x| = FX.fin (-x)
      rw [abs_of_nonpos this]

theorem rd_le {a b : K} (h : a ≤ b) : ((FX.rd a : FX m) ≤ᶠ FX.rd b) = true := by
  have := hm.mono h
  unfold FX.rd
  cases ea : m.rnd a <;> cases eb : m.rnd b <;> rw [ea, eb] at this <;> first
    | rfl
    | exact absurd this id
    | exact decide_eq_true this

/-- The sum of two numbers that are not negative, one of them positive. -/
theorem rd_sum {h l : K} (h0 : 0 ≤ h) (l0 : 0 ≤ l) (hh : m.Repr h) (hl : m.Repr l) (hp : 0 < h + l) :
    (FX.rd (h + l) : FX m) = FX.pinf ∨ ∃ d, 0 < d ∧ (FX.rd (h + l) : FX m) = FX.fin d := by
  have h1 := hm.mono (show h ≤ h + l by linarith)
  have h2 := hm.mono (show l ≤ h + l by linarith)
  rw [hh] at h1
  rw [hl] at h2
  unfold FX.rd
  cases e : m.rnd (h + l) with
  | ninf => rw [e] at h1; exact absurd h1 id
  | pinf => exact .inl rfl
  | fin d =>
    rw [e] at h1 h2
    refine .inr ⟨d, ?_, rfl⟩
    have h1 : h ≤ d := h1
    have h2 : l ≤ d := h2
    rcases lt_or_eq_of_le h0 with h3 | h3
    · linarith
    · have : 0 < l := by linarith
      linarith

/-- The size of a quotient. -/
theorem quot_le {r r' d d' : K} (hr : |r'| ≤ |r|) (hd : 0 < d) (hdd : d ≤ d') :
    (FX.abs (FX.div (FX.fin r' : FX m) (FX.fin d')) ≤ᶠ FX.abs (FX.div (FX.fin r : FX m) (FX.fin d))) = true := by
  have hd' : 0 < d' := lt_of_lt_of_le hd hdd
  have e : ∀ {a c : K}, 0 < c → FX.div (FX.fin a : FX m) (FX.fin c) = FX.rd (a / c) := fun {a c} hc => by
    show (if c = 0 then FX.sinf a else FX.rd (a / c)) = _
    rw [if_neg hc.ne']
  rw [e hd, e hd', abs_rd, abs_rd]
  refine rd_le ?_
  rw [abs_div, abs_div, abs_of_pos hd, abs_of_pos hd']
  exact div_le_div₀ (abs_nonneg _) hr hd hdd

theorem fx_le_trans {a b c : FX m} (h1 : (a ≤ᶠ b) = true) (h2 : (b ≤ᶠ c) = true) : (a ≤ᶠ c) = true := by
  cases a <;> cases b <;> first
    | (cases h1; done)
    | (cases c <;> first
        | (cases h2; done)
        | rfl
        | (cases h1; done)
        | (have h1 := of_decide_eq_true h1; have h2 := of_decide_eq_true h2; exact decide_eq_true (le_trans h1 h2)))

theorem rd_bounded {a g : K} (hg : m.Repr g) (h : |a| ≤ |g|) : ∃ x, (FX.rd a : FX m) = FX.fin x := by
  have hn : m.Repr (-g) := by
    unfold Fmt.Repr
    rw [hm.neg, hg]; rfl
  have h1 := abs_le.1 h
  have : ∃ y, m.rnd a = .fin y ∧ -|g| ≤ y ∧ y ≤ |g| := by
    rcases le_total 0 g with h0 | h0
    · rw [abs_of_nonneg h0] at h1 ⊢
      exact Fmt.Rounds.between hn hg h1.1 h1.2
    · rw [abs_of_nonpos h0, neg_neg] at h1 ⊢
      exact Fmt.Rounds.between hg hn h1.1 h1.2
  obtain ⟨y, hy, -⟩ := this
  exact ⟨y, by unfold FX.rd; rw [hy]; rfl⟩

theorem abs_neg_fx (x : FX m) : Fl.abs (-x) = Fl.abs x := by
  cases x <;> first
    | rfl
    | exact congrArg FX.fin (abs_neg _)

/-- The size of a step that is limited by `mds`, 0 meaning no limit. -/
theorem clamp_abs {mds : K} (h0 : 0 ≤ mds) (w : FX m) :
    Fl.abs (if !((FX.fin mds : FX m) =ᶠ 0) && (FX.fin mds : FX m) <ᶠ Fl.abs w then Fl.copysign (FX.fin mds) w else w) =
      if 0 < mds ∧ ((FX.fin mds : FX m) <ᶠ Fl.abs w) = true then FX.fin mds else Fl.abs w := by
  simp only [FX.zero_def, FX.feq_fin, Bool.and_eq_true, Bool.not_eq_true', decide_eq_false_iff_not]
  by_cases h1 : mds = 0
  · simp [h1]
  · have h2 : 0 < mds := lt_of_le_of_ne h0 (Ne.symm h1)
    simp only [h1, not_false_eq_true, true_and, h2]
    split
    · show FX.abs (if FX.isNeg w then FX.neg (FX.abs (FX.fin mds)) else FX.abs (FX.fin mds)) = _
      split
      · show FX.fin |(-|mds|)| = FX.fin mds
        rw [abs_neg, abs_abs, abs_of_pos h2]
      · show FX.fin |(|mds|)| = FX.fin mds
        rw [abs_abs, abs_of_pos h2]
    · rfl

/-! ### C152 -/

/-- C152.  Any rounding arithmetic.  Raising `l1` or `l2`, lowering `max_delta_step`, or more second derivative with
the same gradient never makes the value of a node larger. -/
theorem C152_weight {l1 l1' l2 l2' mds mds' g h h' : K} (a1 : 0 ≤ l1) (b1 : l1 ≤ l1') (a2 : 0 ≤ l2) (b2 : l2 ≤ l2')
    (a3 : 0 ≤ mds) (b3 : mds = 0 ∧ 0 ≤ mds' ∨ 0 < mds' ∧ mds' ≤ mds) (a4 : 0 ≤ h) (b4 : h ≤ h') (hp : 0 < h + l2)
    (rg : m.Repr g) (rh : m.Repr h) (rl : m.Repr l2) (rh' : m.Repr h') (rl' : m.Repr l2') :
    (Fl.abs (weight (FX.fin l1' : FX m) (FX.fin l2') (FX.fin mds') (FX.fin g) (FX.fin h')) ≤ᶠ
      Fl.abs (weight (FX.fin l1 : FX m) (FX.fin l2) (FX.fin mds) (FX.fin g) (FX.fin h))) = true := by
  have hquot : ((Fl.abs (-(l1Regularization (FX.fin g : FX m) (FX.fin l1') / (FX.fin h' + FX.fin l2')))) ≤ᶠ
      Fl.abs (-(l1Regularization (FX.fin g : FX m) (FX.fin l1) / (FX.fin h + FX.fin l2)))) = true := by
    rw [l1Regularization_rd rg, l1Regularization_rd rg, abs_neg_fx, abs_neg_fx]
    have hng : |nearer g l1| ≤ |g| := by
      have := nearer_abs (g := g) (le_refl 0) a1
      rwa [nearer_zero] at this
    have hnn := nearer_abs (g := g) a1 b1
    obtain ⟨r, hr⟩ := rd_bounded (m := m) rg hng
    obtain ⟨r', hr'⟩ := rd_bounded (m := m) rg (hnn.trans hng)
    have hrr : |r'| ≤ |r| := by
      have := rd_le (m := m) hnn
      rw [← abs_rd, ← abs_rd, hr, hr'] at this
      exact of_decide_eq_true this
    rw [hr, hr']
    show (FX.abs (FX.div (FX.fin r') (FX.rd (h' + l2'))) ≤ᶠ FX.abs (FX.div (FX.fin r) (FX.rd (h + l2)))) = true
    have hdd := rd_le (m := m) (show h + l2 ≤ h' + l2' by linarith)
    rcases rd_sum (m := m) (a4.trans b4) (a2.trans b2) rh' rl' (by linarith) with e' | ⟨d', hd', e'⟩
    · rw [e']
      rcases rd_sum (m := m) a4 a2 rh rl hp with e | ⟨d, hd, e⟩
      · rw [e]
        exact decide_eq_true le_rfl
      · rw [e]
        show ((FX.fin |0| : FX m) ≤ᶠ FX.abs (if d = 0 then FX.sinf r else FX.rd (r / d))) = true
        rw [if_neg hd.ne', abs_rd, abs_zero]
        have := rd_le (m := m) (abs_nonneg (r / d))
        rwa [FX.rd_zero] at this
    · rw [e'] at hdd ⊢
      rcases rd_sum (m := m) a4 a2 rh rl hp with e | ⟨d, hd, e⟩
      · rw [e] at hdd; cases hdd
      · rw [e] at hdd ⊢
        exact quot_le hrr hd (of_decide_eq_true hdd)
  have hm0 : 0 ≤ mds' := by
    rcases b3 with h | h
    · exact h.2
    · exact h.1.le
  unfold weight
  dsimp only
  rw [clamp_abs a3, clamp_abs hm0]
  generalize Fl.abs (-(l1Regularization (FX.fin g : FX m) (FX.fin l1') / (FX.fin h' + FX.fin l2'))) = W' at hquot ⊢
  generalize Fl.abs (-(l1Regularization (FX.fin g : FX m) (FX.fin l1) / (FX.fin h + FX.fin l2))) = W at hquot ⊢
  have hlt : ∀ {a b : FX m}, (a <ᶠ b) = true → (a ≤ᶠ b) = true := by
    intro a b h
    cases a <;> cases b <;> first
      | rfl
      | (cases h; done)
      | exact decide_eq_true (le_of_lt (of_decide_eq_true h))
  rcases b3 with ⟨h1, -⟩ | ⟨h1, h2⟩
  · rw [if_neg (c := 0 < mds ∧ _) (by rw [h1]; simp)]
    split
    · rename_i h3
      exact fx_le_trans (hlt h3.2) hquot
    · exact hquot
  · have h4 : ((FX.fin mds' : FX m) ≤ᶠ FX.fin mds) = true := decide_eq_true h2
    split
    · rename_i h3
      split
      · exact h4
      · exact fx_le_trans (hlt h3.2) hquot
    · rename_i h3
      split
      · refine fx_le_trans ?_ h4
        have h5 : ¬ ((FX.fin mds' : FX m) <ᶠ W') = true := fun h => h3 ⟨h1, h⟩
        cases W' with
        | nan => cases hquot
        | ninf => rfl
        | pinf => exact absurd rfl h5
        | fin x =>
          rw [FX.lt_fin, decide_eq_true_eq, not_lt] at h5
          exact decide_eq_true h5
      · exact hquot

/-- C152.  The same of the gain of a node, as long as the square of the gradient does not overflow. -/
theorem C152_gain {l2 l2' g h h' sq : K} (a2 : 0 ≤ l2) (b2 : l2 ≤ l2') (a4 : 0 ≤ h) (b4 : h ≤ h') (hp : 0 < h + l2)
    (hsq : (FX.fin g : FX m) * FX.fin g = FX.fin sq) (rh : m.Repr h) (rl : m.Repr l2) (rh' : m.Repr h')
    (rl' : m.Repr l2') :
    (gain (FX.fin l2' : FX m) (FX.fin g) (FX.fin h') ≤ᶠ gain (FX.fin l2 : FX m) (FX.fin g) (FX.fin h)) = true := by
  unfold gain
  rw [hsq]
  have h0 : 0 ≤ sq := by
    have h1 : (FX.rd (g * g) : FX m) = FX.fin sq := hsq
    have := rd_le (m := m) (mul_self_nonneg g)
    rw [FX.rd_zero, h1] at this
    exact of_decide_eq_true this
  show (FX.div (FX.fin sq) (FX.rd (h' + l2')) ≤ᶠ FX.div (FX.fin sq) (FX.rd (h + l2))) = true
  have hdd := rd_le (m := m) (show h + l2 ≤ h' + l2' by linarith)
  rcases rd_sum (m := m) (a4.trans b4) (a2.trans b2) rh' rl' (by linarith) with e' | ⟨d', hd', e'⟩
  · rw [e']
    rcases rd_sum (m := m) a4 a2 rh rl hp with e | ⟨d, hd, e⟩
    · rw [e]
      exact decide_eq_true le_rfl
    · rw [e]
      show ((FX.fin 0 : FX m) ≤ᶠ (if d = 0 then FX.sinf sq else FX.rd (sq / d))) = true
      rw [if_neg hd.ne']
      have := rd_le (m := m) (div_nonneg h0 hd.le)
      rwa [FX.rd_zero] at this
  · rw [e'] at hdd ⊢
    rcases rd_sum (m := m) a4 a2 rh rl hp with e | ⟨d, hd, e⟩
    · rw [e] at hdd; cases hdd
    · rw [e] at hdd ⊢
      show ((if d' = 0 then FX.sinf sq else FX.rd (sq / d') : FX m) ≤ᶠ
        (if d = 0 then FX.sinf sq else FX.rd (sq / d))) = true
      rw [if_neg hd.ne', if_neg hd'.ne']
      exact rd_le (div_le_div_of_nonneg_left h0 hd (of_decide_eq_true hdd))

end

section
variable {K : Type} [Field K] [LinearOrder K] [IsStrictOrderedRing K] {m32 m64 : Fmt K}
  [m32.Exact] [m64.Exact]
variable {R R' : Type} {env : Env R (FX m32) (FX m64)} {env' : Env R' (FX m32) (FX m64)}
  {b b' c c' : Booster (FX m32) (FX m64)} {X : Matrix (FX m64)} {y w : List K}
  {ev ev' : Option (List (EvalSet (FX m64)))}

/-- The value of the root of a tree. -/
theorem root_step {l1 l2 mds lr : K} {binned : BinnedData (FX m64)} {p : List K} {k : Nat}
    {cfg : GrowCfg (FX m32) (FX m64)} {rows : List Nat} {t : Tree (FX m32) (FX m64)}
    (hP : PlainTree env b X y w l1 l2 mds lr binned p k t cfg rows) (hl : 0 ≤ l1) (hm : 0 ≤ mds)
    (hb : b.createMissingBranch = false) (hc : b.monotoneConstraints = none) {n : Node (FX m32) (FX m64)}
    (hn : t.nodes[0]? = some n) : ∃ x, n.weightValue = FX.fin (x * lr) ∧
      IsStep l1 l2 mds (rows.map (rowVals cfg.train.grad)).sum (rows.map (rowVals cfg.train.hess)).sum x := by
  obtain ⟨q, hq⟩ := hP.imputer hb
  obtain ⟨o, gs, nodes, hV⟩ := hP.trained.view hP.treeAt.fitted.fit
  obtain ⟨x, hx, hstep⟩ := C02_value hP.trained hP.treeAt.fitted.fit hP.params.l1_eq hP.params.l2_eq hP.params.mds_eq
    hP.params.lr_eq hl hm (hP.unconstrained hc) (by intro p' hp'; rw [hq] at hp'; cases hp') hn
    (hV.no_onlyMissing hq 0) (by rintro ⟨p', hp', -⟩; rw [hq] at hp'; cases hp')
    (by rw [rowsAt_sum, passSum_root]; exact hP.params.root)
  rw [rowsAt_sum, rowsAt_sum, passSum_root, passSum_root] at hstep
  exact ⟨x, hx, hstep⟩

/-- C152.  Exact arithmetic.  Two fits to the same data from the same base score and at the same learning rate,
without sampling, constraints and missing branches: the one with the stronger regularisation has the smaller value at
the root of the first tree, whatever their other settings. -/
theorem C152_root {l1 l1' l2 l2' mds mds' lr : K} (h : PlainFit env b X y w ev b' l1 l2 mds lr)
    (h' : PlainFit env' c X y w ev' c' l1' l2' mds' lr) (ho : c.objectiveType = b.objectiveType)
    (hbase : c'.baseScore = b'.baseScore) (hs : b.sampleMethod = .none) (hs' : c.sampleMethod = .none)
    (hb : b.createMissingBranch = false) (hb' : c.createMissingBranch = false) (hc : b.monotoneConstraints = none)
    (hc' : c.monotoneConstraints = none) (a1 : 0 ≤ l1) (b1 : l1 ≤ l1') (b2 : l2 ≤ l2')
    (a3 : 0 ≤ mds) (b3 : mds = 0 ∧ 0 ≤ mds' ∨ 0 < mds' ∧ mds' ≤ mds) {t t' : Tree (FX m32) (FX m64)}
    (ht : b'.trees[0]? = some t) (ht' : c'.trees[0]? = some t') :
    ∃ (n n' : Node (FX m32) (FX m64)) (v v' : K), t.nodes[0]? = some n ∧ t'.nodes[0]? = some n' ∧
      n.weightValue = FX.fin v ∧ n'.weightValue = FX.fin v' ∧ |v'| ≤ |v| := by
  obtain ⟨base, binned, st, stop, N, hT⟩ := Booster.fit_trace h.fit
  obtain ⟨base', binned', st', stop', N', hT'⟩ := Booster.fit_trace h'.fit
  have hbb : base' = base := by
    have h1 := hT.final
    have h2 := hT'.final
    rw [h1, h2] at hbase
    exact hbase
  subst hbb
  obtain ⟨p, hp⟩ := h.yhat hT 0 (Nat.zero_le _)
  have hy0 : (st' 0).yhat = (st 0).yhat := by rw [hT.start, hT'.start]; rfl
  obtain ⟨cfg, rows, hA⟩ := h.tree_of hT ht hp
  obtain ⟨cfg', rows', hA'⟩ := h'.tree_of hT' ht' (hy0.trans hp)
  obtain ⟨r1, r2, hsa⟩ := hA.treeAt.sample
  obtain ⟨r1', r2', hsa'⟩ := hA'.treeAt.sample
  rw [hs] at hsa
  rw [hs', ho] at hsa'
  simp only [sampleIndex, Res.ok.injEq, Prod.mk.injEq] at hsa hsa'
  obtain ⟨e1, e2, e3, -⟩ := hsa
  obtain ⟨e1', e2', e3', -⟩ := hsa'
  have hwf := h.explainable.wf t (List.mem_of_getElem? ht)
  have hwf' := h'.explainable.wf t' (List.mem_of_getElem? ht')
  have hn := List.getElem?_eq_getElem (List.length_pos_iff.2 hwf.nonempty)
  have hn' := List.getElem?_eq_getElem (List.length_pos_iff.2 hwf'.nonempty)
  have hm0 : 0 ≤ mds' := by
    rcases b3 with h | h
    · exact h.2
    · exact h.1.le
  obtain ⟨x, hx, hst⟩ := root_step hA a1 a3 hb hc hn
  obtain ⟨x', hx', hst'⟩ := root_step hA' (a1.trans b1) hm0 hb' hc' hn'
  refine ⟨_, _, _, _, hn, hn', hx, hx', ?_⟩
  have hpos := hA.params.root
  have hpos' := hA'.params.root
  rw [abs_mul, abs_mul]
  refine mul_le_mul_of_nonneg_right ?_ (abs_nonneg _)
  rw [← e1', ← e2', ← e3', e1, e2, e3] at hst' 
  rw [← e1', ← e3', e1, e3] at hpos'
  have hh : 0 ≤ (rows.map (rowVals cfg.train.hess)).sum := List.sum_nonneg (by
    intro v hv
    obtain ⟨r, hr, rfl⟩ := List.mem_map.1 hv
    exact hA.params.hess r hr)
  have hrep : ∀ a : K, m32.Repr a := fun a => Fmt.Exact.rnd_eq a
  obtain ⟨z, g1, -, g3⟩ := C53_weight (m := m32) (g := (rows.map (rowVals cfg.train.grad)).sum) hpos a1 a3
  obtain ⟨z', g1', -, g3'⟩ := C53_weight (m := m32) (g := (rows.map (rowVals cfg.train.grad)).sum) hpos'
    (a1.trans b1) hm0
  have := C152_weight (m := m32) (g := (rows.map (rowVals cfg.train.grad)).sum) a1 b1 h.l2_nonneg b2 a3 b3 hh le_rfl
    hpos (hrep _) (hrep _) (hrep _) (hrep _) (hrep _)
  rw [g1, g1'] at this
  rw [g3 x hst, g3' x' hst']
  exact of_decide_eq_true this

end

/-! ### The hypotheses are met -/

/-- In binary32 with the gradient -11 and the hessian 6: `l1 = l2 = 1/2` gives 10.5/6.5 and `l1 = l2 = 1` gives 10/7,
both rounded. -/
example : weight (FX.fin (1/2) : F32) (FX.fin (1/2)) (FX.fin 0) (FX.fin (-11)) (FX.fin 6) =
      FX.fin (3387707 / 2097152) ∧
    weight (FX.fin 1 : F32) (FX.fin 1) (FX.fin 0) (FX.fin (-11)) (FX.fin 6) = FX.fin (5991863 / 4194304) ∧
    f32Fmt.Repr (-11) ∧ f32Fmt.Repr 6 ∧ f32Fmt.Repr (1/2) ∧ f32Fmt.Repr 1 := by
  unfold Fmt.Repr
  decide +kernel

theorem exStrong_plain {d : Nat} {b' : Booster Q Q}
    (h : ({ exDepth d with l1 := q 1, l2 := q 1 }).fit exEnv exAnd [q 0, q 0, q 0, q 4] [q 1, q 2, q 1, q 3] none =
      .ok (b', .ok ())) :
    PlainFit exEnv { exDepth d with l1 := q 1, l2 := q 1 } exAnd [0, 0, 0, 4] [(1 : ℚ), 2, 1, 3] none b' 1 1 0
      (1/2) where
  sorter := exSorter_ok
  rng := exRng_ok
  shaped := rfl
  ylen := rfl
  wlen := rfl
  max := by
    show ∀ v ∈ exAnd.data, ¬IsMissing FX.nan v → (v ≤ᶠ Fl.maxv) = true
    decide +kernel
  minLeafWeight := by
    show FX.fin 0 ≤ᶠ q 1
    decide
  l1_eq := rfl
  l2_eq := rfl
  mds_eq := rfl
  lr_eq := rfl
  l2_nonneg := zero_le_one
  positive := .inl one_pos
  goss := fun h => nomatch h
  exp := fun h => nomatch h
  base := fun s hs => by
    have hs : s = exFresh.baseScore := hs
    rw [hs]; exact ⟨_, rfl⟩
  fit := h

/-- Two fits to the weighted data: the root of the first tree is 17/28 without regularisation and 15/32 with
`l1 = l2 = 1`. -/
example : ∃ b' c' : Booster Q Q,
    PlainFit exEnv (exDepth 2) exAnd [0, 0, 0, 4] [(1 : ℚ), 2, 1, 3] none b' 0 0 0 (1/2) ∧
    PlainFit exEnv { exDepth 2 with l1 := q 1, l2 := q 1 } exAnd [0, 0, 0, 4] [(1 : ℚ), 2, 1, 3] none c' 1 1 0 (1/2) ∧
    c'.baseScore = b'.baseScore ∧
    b'.trees.map (fun t => t.nodes.map (·.weightValue)) = [[q (17/28), q (-1/4), q (5/4), q (-1/4), q (7/4)],
      [q (17/56), q (-1/8), q (5/8), q (-1/8), q (7/8)]] ∧
    c'.trees.map (fun t => t.nodes.map (·.weightValue)) = [[q (15/32), q (-1/16), q (9/10), q 0, q (19/16)],
      [q (33/128), q (-5/128), q (87/160), q 0, q (95/128)]] := by
  have : (match (exDepth 2).fit exEnv exAnd [q 0, q 0, q 0, q 4] [q 1, q 2, q 1, q 3] none,
      ({ exDepth 2 with l1 := q 1, l2 := q 1 }).fit exEnv exAnd [q 0, q 0, q 0, q 4] [q 1, q 2, q 1, q 3] none with
    | .ok (b', .ok ()), .ok (c', .ok ()) => decide (c'.baseScore = b'.baseScore ∧
      b'.trees.map (fun t => t.nodes.map (·.weightValue)) = [[q (17/28), q (-1/4), q (5/4), q (-1/4), q (7/4)],
        [q (17/56), q (-1/8), q (5/8), q (-1/8), q (7/8)]] ∧
      c'.trees.map (fun t => t.nodes.map (·.weightValue)) = [[q (15/32), q (-1/16), q (9/10), q 0, q (19/16)],
        [q (33/128), q (-5/128), q (87/160), q 0, q (95/128)]])
    | _, _ => false) = true := by decide +kernel
  split at this
  · rename_i b' c' h h'
    exact ⟨b', c', exWeighted_plain h, exStrong_plain h', of_decide_eq_true this⟩
  · cases this

end Verif
