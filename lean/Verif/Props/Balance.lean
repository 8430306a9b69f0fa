import Verif.Proofs.Balance
import Verif.Props.Objective

/-!
# C122: the predictions are balanced in every leaf
-/

namespace Verif

open scoped Verif

set_option linter.unusedSectionVars false

section
variable {K : Type} [Field K] [LinearOrder K] [IsStrictOrderedRing K] {m32 m64 : Fmt K}
  [m32.Exact] [m64.Exact]

/-- The weighted sum of the residuals of some rows. -/
def residual (y w p : List K) (rows : List Nat) : K :=
  (rows.map fun i => w.getD i 0 * (y.getD i 0 - p.getD i 0)).sum

open Classical in
/-- The rows among the first `n` that a tree leads to the leaf of row `r`. -/
noncomputable def leafMates (t : Tree (FX m32) (FX m64)) (X : Matrix (FX m64)) (missing : FX m64) (n r : Nat) :
    List Nat :=
  (List.range n).filter fun i => decide (t.predictLeaf X i missing = t.predictLeaf X r missing)

variable {X : Matrix (FX m64)} {w : List K} {R : Type} {env : Env R (FX m32) (FX m64)}
  {b b' : Booster (FX m32) (FX m64)} {y : List K} {ev : Option (List (EvalSet (FX m64)))} {l1 l2 mds lr : K}

theorem residual_step {p p' : List K} {x : K} (rows : List Nat)
    (h : ∀ r ∈ rows, p'.getD r 0 = p.getD r 0 + x) :
    residual y w p' rows = -((rows.map fun i => w.getD i 0 * (p.getD i 0 - y.getD i 0)).sum +
      (rows.map fun i => w.getD i 0).sum * x) ∧
    residual y w p rows = -(rows.map fun i => w.getD i 0 * (p.getD i 0 - y.getD i 0)).sum := by
  unfold residual
  induction rows with
  | nil => simp
  | cons a rows ih =>
    obtain ⟨h1, h2⟩ := ih fun r hr => h r (List.mem_cons_of_mem _ hr)
    simp only [List.map_cons, List.sum_cons]
    rw [h1, h2, h a List.mem_cons_self]
    constructor <;> ring

/-- One round in one leaf. -/
theorem balance_leaf (h : PlainFit env b X y w ev b' l1 l2 mds lr) (ho : b.objectiveType = .squaredLoss)
    (hs : b.sampleMethod = .none) (hc : b.monotoneConstraints = none) (hl1 : 0 ≤ l1) (hmds : 0 ≤ mds)
    (hm : b.createMissingBranch = false ∨
      (b.forceChildrenToBoundParent = false ∧ ∀ v ∈ X.data, ¬ IsMissing b.missing v))
    {k : Nat} (hk : k < b'.trees.length) :
    ∃ p p' : List K, ({ b' with predictionIteration := some k }).predict X = .ok (p.map FX.fin) ∧
      ({ b' with predictionIteration := some (k + 1) }).predict X = .ok (p'.map FX.fin) ∧
      ∀ r < y.length, ∃ G H x, residual y w p (leafMates b'.trees[k] X b.missing y.length r) = -G ∧
        residual y w p' (leafMates b'.trees[k] X b.missing y.length r) = -(G + H * (x * lr)) ∧
        0 ≤ H ∧ 0 < H + l2 ∧ IsStep l1 l2 mds G H x := by
  obtain ⟨p, p', binned, cfg, v, h1, h2, hA, hadd, hval, hgh⟩ := booster_round h hs hk
  refine ⟨p, p', h1, h2, fun r hr => ?_⟩
  obtain ⟨i, n, x, hn1, hn2, hx, hiff, hr', hnn, hpos, hstep⟩ :=
    hA.leaf_step hc hl1 hmds hm (List.mem_range.2 hr)
  have hrows : leafMates b'.trees[k] X b.missing y.length r =
      rowsAt b'.trees[k] X b.missing (List.range y.length) i := by
    unfold leafMates rowsAt
    refine List.filter_congr fun j hj => ?_
    simp only [decide_eq_decide]
    rw [hr', hiff j hj]
  have hgv : ∀ j < y.length, rowVals cfg.train.grad j = w.getD j 0 * (p.getD j 0 - y.getD j 0) ∧
      rowVals cfg.train.hess j = w.getD j 0 := by
    intro j hj
    obtain ⟨a1, a2⟩ := hgh j hj
    rw [a1, a2, ho]
    simp only [ObjectiveType.gradOf, ObjectiveType.hessOf, squaredLossGrad, squaredLossHess, FX.fin_sub,
      FX.fin_mul, FX.down_fin, FX.val, and_true]
    ring
  have hsub : ∀ j ∈ rowsAt b'.trees[k] X b.missing (List.range y.length) i, j < y.length :=
    fun j hj => List.mem_range.1 (List.mem_filter.1 hj).1
  have eg : (rowsAt b'.trees[k] X b.missing (List.range y.length) i).map (rowVals cfg.train.grad) =
      (rowsAt b'.trees[k] X b.missing (List.range y.length) i).map
        fun j => w.getD j 0 * (p.getD j 0 - y.getD j 0) :=
    List.map_congr_left fun j hj => (hgv j (hsub j hj)).1
  have eh : (rowsAt b'.trees[k] X b.missing (List.range y.length) i).map (rowVals cfg.train.hess) =
      (rowsAt b'.trees[k] X b.missing (List.range y.length) i).map fun j => w.getD j 0 :=
    List.map_congr_left fun j hj => (hgv j (hsub j hj)).2
  rw [eg, eh] at hstep
  rw [eh] at hnn hpos
  have hmove : ∀ j ∈ rowsAt b'.trees[k] X b.missing (List.range y.length) i,
      p'.getD j 0 = p.getD j 0 + x * lr := by
    intro j hj
    have hj' := hsub j hj
    rw [hadd j hj']
    have hre : Reaches b'.trees[k].nodes (X.entry j) b.missing i := by
      have := (List.mem_filter.1 hj).2
      simpa using this
    have := hval j (List.mem_range.2 hj') n ((hiff j (List.mem_range.2 hj')).2 hre)
    rw [hx] at this
    rw [FX.fin.inj this]
  obtain ⟨e1, e2⟩ := residual_step (y := y) (w := w) _ hmove
  rw [hrows]
  exact ⟨_, _, x, e2, e1, hnn, hpos, hstep⟩

/-- C122.  With SquaredLoss and without sampling, regularisation and constraints, each tree multiplies the weighted
sum of the residuals of the training rows in each of its leaves by `1 - learning_rate`; with a learning rate of 1
they are balanced in every leaf. -/
theorem C122_leaf (h : PlainFit env b X y w ev b' 0 0 0 lr) (ho : b.objectiveType = .squaredLoss)
    (hs : b.sampleMethod = .none) (hc : b.monotoneConstraints = none)
    (hm : b.createMissingBranch = false ∨
      (b.forceChildrenToBoundParent = false ∧ ∀ v ∈ X.data, ¬ IsMissing b.missing v))
    {k : Nat} (hk : k < b'.trees.length) :
    ∃ p p' : List K, ({ b' with predictionIteration := some k }).predict X = .ok (p.map FX.fin) ∧
      ({ b' with predictionIteration := some (k + 1) }).predict X = .ok (p'.map FX.fin) ∧
      ∀ r < y.length, residual y w p' (leafMates b'.trees[k] X b.missing y.length r) =
        (1 - lr) * residual y w p (leafMates b'.trees[k] X b.missing y.length r) := by
  obtain ⟨p, p', h1, h2, h3⟩ := balance_leaf h ho hs hc le_rfl le_rfl hm hk
  refine ⟨p, p', h1, h2, fun r hr => ?_⟩
  obtain ⟨G, H, x, e1, e2, hH, hpos, hstep⟩ := h3 r hr
  rw [add_zero] at hpos
  have := hstep.newton hpos
  have e : H * x = -G := by linarith
  rw [e1, e2, ← mul_assoc, e]
  ring

/-- C122.  With any regularisation and a learning rate between 0 and 1, each tree brings the weighted sum of the
residuals in each of its leaves nearer to 0, without changing its sign. -/
theorem C122_shrink (h : PlainFit env b X y w ev b' l1 l2 mds lr) (ho : b.objectiveType = .squaredLoss)
    (hs : b.sampleMethod = .none) (hc : b.monotoneConstraints = none) (hl1 : 0 ≤ l1) (hmds : 0 ≤ mds)
    (hlr : 0 ≤ lr) (hlr1 : lr ≤ 1)
    (hm : b.createMissingBranch = false ∨
      (b.forceChildrenToBoundParent = false ∧ ∀ v ∈ X.data, ¬ IsMissing b.missing v))
    {k : Nat} (hk : k < b'.trees.length) :
    ∃ p p' : List K, ({ b' with predictionIteration := some k }).predict X = .ok (p.map FX.fin) ∧
      ({ b' with predictionIteration := some (k + 1) }).predict X = .ok (p'.map FX.fin) ∧
      ∀ r < y.length,
        0 ≤ residual y w p' (leafMates b'.trees[k] X b.missing y.length r) *
          residual y w p (leafMates b'.trees[k] X b.missing y.length r) ∧
        |residual y w p' (leafMates b'.trees[k] X b.missing y.length r)| ≤
          |residual y w p (leafMates b'.trees[k] X b.missing y.length r)| := by
  obtain ⟨p, p', h1, h2, h3⟩ := balance_leaf h ho hs hc hl1 hmds hm hk
  refine ⟨p, p', h1, h2, fun r hr => ?_⟩
  obtain ⟨G, H, x, e1, e2, hH, hpos, hstep⟩ := h3 r hr
  obtain ⟨a1, a2⟩ := hstep.nearer hH h.l2_nonneg hl1 hlr hlr1
  rw [e1, e2, abs_neg, abs_neg, neg_mul_neg]
  exact ⟨a1, a2⟩

theorem sum_filter_split (F : Nat → K) (P : Nat → Bool) (rows : List Nat) :
    (rows.map F).sum = ((rows.filter P).map F).sum + ((rows.filter fun r => !P r).map F).sum := by
  induction rows with
  | nil => simp
  | cons a rows ih =>
    cases h : P a <;> simp [h, ih] <;> ring

open Classical in
/-- If a sum vanishes over each class of rows it vanishes over all rows. -/
theorem sum_classes {A : Type} (g : Nat → A) (F : Nat → K) : ∀ (n : Nat) (rows : List Nat), rows.length ≤ n →
    (∀ r ∈ rows, ((rows.filter fun i => decide (g i = g r)).map F).sum = 0) → (rows.map F).sum = 0 := by
  intro n
  induction n with
  | zero =>
    intro rows hl _
    rw [List.length_eq_zero_iff.1 (Nat.le_zero.1 hl)]; rfl
  | succ n ih =>
    intro rows hl h
    cases rows with
    | nil => rfl
    | cons r rows =>
      rw [sum_filter_split F (fun i => decide (g i = g r)), h r List.mem_cons_self, zero_add]
      have e : (r :: rows).filter (fun i => !decide (g i = g r)) = rows.filter (fun i => !decide (g i = g r)) := by
        simp
      rw [e]
      refine ih _ ((List.length_filter_le _ _).trans (by simpa using hl)) fun r' hr' => ?_
      obtain ⟨hr1, hr2⟩ := List.mem_filter.1 hr'
      have hne : g r' ≠ g r := by simpa using hr2
      have := h r' (List.mem_cons_of_mem _ hr1)
      rw [← e, List.filter_filter]
      rw [← this]
      congr 2
      refine List.filter_congr fun i _ => ?_
      by_cases hi : g i = g r'
      · have : g i ≠ g r := hi ▸ hne
        simp [hi, hne]
      · simp [hi]

theorem fin_map_inj {p q : List K} (h : (p.map FX.fin : List (FX m64)) = q.map FX.fin) : p = q :=
  List.map_injective_iff.2 (fun _ _ e => FX.fin.inj e) h

theorem range_map_zip (f : K → K → K) : ∀ {a b : List K}, a.length = b.length →
    ((List.range b.length).map fun i => f (a.getD i 0) (b.getD i 0)) = List.zipWith f a b := by
  intro a b hl
  refine List.ext_getElem (by simp [hl]) fun i h1 h2 => ?_
  have h3 : i < b.length := by simpa using h1
  simp [h3, hl]

theorem residual_zip {y w p : List K} (hw : w.length = y.length) (hp : p.length = y.length) :
    residual y w p (List.range y.length) =
      (List.zipWith (· * ·) w y).sum - (List.zipWith (· * ·) w p).sum := by
  have e1 := range_map_zip (fun a b => a * b) (a := w) (b := y) hw
  have e2 := range_map_zip (fun a b => a * b) (a := w) (b := p) (hw.trans hp.symm)
  rw [hp] at e2
  rw [← e1, ← e2]
  unfold residual
  generalize List.range y.length = l
  induction l with
  | nil => simp
  | cons i l ih =>
    simp only [List.map_cons, List.sum_cons, ih]
    ring

theorem sum_map_sub_mul (f g : Nat → K) (c : K) (l : List Nat) :
    (l.map fun i => f i - c * g i).sum = (l.map f).sum - c * (l.map g).sum := by
  induction l with
  | nil => simp
  | cons i l ih =>
    simp only [List.map_cons, List.sum_cons, ih]
    ring

/-- C122.  Over all training rows, the weighted sum of the residuals after `k` trees is `(1 - learning_rate) ^ k`
times that of the base score. -/
theorem C122_total (h : PlainFit env b X y w ev b' 0 0 0 lr) (ho : b.objectiveType = .squaredLoss)
    (hs : b.sampleMethod = .none) (hc : b.monotoneConstraints = none)
    (hm : b.createMissingBranch = false ∨
      (b.forceChildrenToBoundParent = false ∧ ∀ v ∈ X.data, ¬ IsMissing b.missing v)) :
    ∃ base, b'.baseScore = FX.fin base ∧ ∀ k, k ≤ b'.trees.length →
    ∃ p : List K, ({ b' with predictionIteration := some k }).predict X = .ok (p.map FX.fin) ∧
      residual y w p (List.range y.length) =
        (1 - lr) ^ k * residual y w (List.replicate y.length base) (List.range y.length) := by
  obtain ⟨base, binned, st, stop, N, hT⟩ := Booster.fit_trace h.fit
  obtain ⟨base, rfl⟩ := h.base base hT.base_eq
  have hf := hT.final
  unfold Booster.SameParams at hf
  refine ⟨base, by rw [hf], fun k => ?_⟩
  induction k with
  | zero =>
    intro _
    refine ⟨List.replicate y.length base, ?_, by rw [pow_zero, one_mul]⟩
    rw [List.map_replicate]
    exact predict_prefix (n := y.length) h.ylen (base := FX.fin base) (by rw [hf]) (Nat.zero_le _) rfl
  | succ k ih =>
    intro hk
    obtain ⟨p0, hp0, e0⟩ := ih (by omega)
    obtain ⟨p, p', h1, h2, h3⟩ := C122_leaf h ho hs hc hm (k := k) (by omega)
    rw [hp0] at h1
    have := fin_map_inj (Res.ok.inj h1)
    subst this
    refine ⟨p', h2, ?_⟩
    have hz := sum_classes (fun i => (b'.trees[k]).predictLeaf X i b.missing)
      (fun i => w.getD i 0 * (y.getD i 0 - p'.getD i 0) - (1 - lr) * (w.getD i 0 * (y.getD i 0 - p0.getD i 0)))
      _ (List.range y.length) le_rfl (fun r hr => by
        have := h3 r (List.mem_range.1 hr)
        unfold residual leafMates at this
        rw [sum_map_sub_mul, sub_eq_zero]
        convert this)
    rw [sum_map_sub_mul, sub_eq_zero] at hz
    have e : residual y w p' (List.range y.length) = (1 - lr) * residual y w p0 (List.range y.length) := hz
    rw [e, e0, pow_succ]
    ring

/-- C122.  With the base score initialised, the weighted mean of the predictions on the training data is that of the
targets, after any number of trees. -/
theorem C122_mean (h : PlainFit env b X y w ev b' 0 0 0 lr) (ho : b.objectiveType = .squaredLoss)
    (hs : b.sampleMethod = .none) (hc : b.monotoneConstraints = none)
    (hm : b.createMissingBranch = false ∨
      (b.forceChildrenToBoundParent = false ∧ ∀ v ∈ X.data, ¬ IsMissing b.missing v))
    (hi : b.initializeBaseScore = true) (hw : 0 < w.sum) (k : Nat) (hk : k ≤ b'.trees.length) :
    ∃ p : List K, ({ b' with predictionIteration := some k }).predict X = .ok (p.map FX.fin) ∧
      (List.zipWith (· * ·) w p).sum = (List.zipWith (· * ·) w y).sum := by
  have hl : w.length = y.length := h.wlen.trans h.ylen.symm
  obtain ⟨base, hb, hall⟩ := C122_total h ho hs hc hm
  obtain ⟨base', _, hb', hmean, -⟩ := C42_mean h.fit hi ho hl hw
  rw [hb] at hb'
  have := FX.fin.inj hb'
  subst this
  obtain ⟨p, hp, hr⟩ := hall k hk
  have hplen : p.length = y.length := by
    have hp' := hp
    unfold Booster.predict at hp'
    rw [Res.bind_eq_ok] at hp'
    obtain ⟨ts, _, hp'⟩ := hp'
    have := predictFold_length (missing := b'.missing) (data := X) (ts := ts) hp'
    rw [List.length_map, List.length_replicate] at this
    rw [this, h.ylen]
  refine ⟨p, hp, ?_⟩
  have h0 : residual y w (List.replicate y.length base) (List.range y.length) = 0 := by
    rw [residual_zip hl (by simp)]
    have : (List.zipWith (· * ·) w (List.replicate y.length base)).sum = w.sum * base := by
      rw [← hl]
      clear * -
      induction w with
      | nil => simp
      | cons x w ih =>
        simp only [List.length_cons, List.replicate_succ, List.zipWith_cons_cons, List.sum_cons, ih]
        ring
    rw [this, hmean]
    field_simp
    ring
  rw [h0, mul_zero, residual_zip hl hplen] at hr
  linarith

end

/-! ### Examples -/

/-- Missing values are imputed, without regularisation and with a learning rate of 1/2; two iterations. -/
def exBalanced : Booster Q Q :=
  { exMixed with monotoneConstraints := none, iterations := 2, l1 := q 0, l2 := q 0, learningRate := q (1 / 2) }

/-- The hypotheses are met with two trees; the residuals sum to 13 at first, to 13/2 after one tree and to 13/4 after
two. -/
example : ∃ b', PlainFit exEnv exBalanced boundZ [1, 4, 4, 4, 1, -1]
      (List.replicate 6 (1 : ℚ)) none b' 0 0 0 (1 / 2) ∧ exBalanced.createMissingBranch = false ∧
      b'.trees.length = 2 ∧ b'.trees.all (fun t => decide (1 < t.nodes.length)) = true ∧
    ∃ p0 p1 p2 : List ℚ, ({ b' with predictionIteration := some 0 }).predict boundZ = .ok (p0.map FX.fin) ∧
      ({ b' with predictionIteration := some 1 }).predict boundZ = .ok (p1.map FX.fin) ∧
      ({ b' with predictionIteration := some 2 }).predict boundZ = .ok (p2.map FX.fin) ∧
      residual [1, 4, 4, 4, 1, -1] (List.replicate 6 (1 : ℚ)) p0 (List.range 6) = 13 ∧
      residual [1, 4, 4, 4, 1, -1] (List.replicate 6 (1 : ℚ)) p1 (List.range 6) = 13 / 2 ∧
      residual [1, 4, 4, 4, 1, -1] (List.replicate 6 (1 : ℚ)) p2 (List.range 6) = 13 / 4 := by
  have : (match exBalanced.fit exEnv boundZ ([1, 4, 4, 4, 1, -1].map q) (List.replicate 6 (q 1)) none with
    | .ok (b', .ok ()) => decide (b'.trees.length = 2 ∧ b'.trees.all (fun t => decide (1 < t.nodes.length)) = true)
    | _ => false) = true := by decide +kernel
  split at this
  · rename_i b' h
    obtain ⟨h0, h00⟩ := of_decide_eq_true this
    have hP : PlainFit exEnv exBalanced boundZ [1, 4, 4, 4, 1, -1]
      (List.replicate 6 (1 : ℚ)) none b' 0 0 0 (1 / 2) :=
      boundPlain rfl rfl rfl rfl le_rfl rfl rfl rfl rfl ⟨_, rfl⟩ rfl rfl rfl rfl (by decide +kernel) h
    obtain ⟨base, hb, hall⟩ := C122_total hP rfl rfl rfl (.inl rfl)
    have hbase : base = 0 := by
      obtain ⟨base', binned, st, stop, N, hT⟩ := Booster.fit_trace h
      have hf := hT.final
      unfold Booster.SameParams at hf
      have e := hT.base_eq
      rw [if_neg (by decide)] at e
      rw [hf, e] at hb
      exact (FX.fin.inj hb).symm
    subst hbase
    obtain ⟨p0, a0, b0⟩ := hall 0 (by omega)
    obtain ⟨p1, a1, b1⟩ := hall 1 (by omega)
    obtain ⟨p2, a2, b2⟩ := hall 2 (by omega)
    refine ⟨b', hP, rfl, h0, h00, p0, p1, p2, a0, a1, a2, ?_, ?_, ?_⟩
    · exact b0.trans (by decide +kernel)
    · exact b1.trans (by decide +kernel)
    · exact b2.trans (by decide +kernel)
  · cases this

/-- With the base score initialised the hypotheses of `C122_mean` are met. -/
example : ∃ b', PlainFit exEnv { exBalanced with initializeBaseScore := true } boundZ [1, 4, 4, 4, 1, -1]
      (List.replicate 6 (1 : ℚ)) none b' 0 0 0 (1 / 2) ∧ b'.trees.length = 2 := by
  have : (match ({ exBalanced with initializeBaseScore := true } : Booster Q Q).fit exEnv boundZ
        ([1, 4, 4, 4, 1, -1].map q) (List.replicate 6 (q 1)) none with
    | .ok (b', .ok ()) => decide (b'.trees.length = 2)
    | _ => false) = true := by decide +kernel
  split at this
  · rename_i b' h
    have h0 := of_decide_eq_true this
    refine ⟨b', ?_, h0⟩
    exact {
      sorter := exSorter_ok
      rng := exRng_ok
      shaped := rfl
      ylen := rfl
      wlen := rfl
      max := by decide +kernel
      minLeafWeight := by decide +kernel
      l1_eq := rfl
      l2_eq := rfl
      mds_eq := rfl
      lr_eq := rfl
      l2_nonneg := le_rfl
      positive := .inr ⟨rfl, 1, by simp, by norm_num⟩
      goss := fun h => nomatch h
      exp := fun h => nomatch h
      base := by
        intro s hs
        have e : calcInit .squaredLoss (([1, 4, 4, 4, 1, -1] : List ℚ).map FX.fin : List Q)
          ((List.replicate 6 (1 : ℚ)).map FX.fin) = .ok (FX.fin (13 / 6)) := by decide +kernel
        rw [if_pos rfl] at hs
        have := e.symm.trans hs
        exact ⟨_, (Res.ok.inj this).symm⟩
      fit := h }
  · cases this

/-- The proviso on missing values is needed: in the fit of `C52_counterexample`, with a learning rate of 2, the sum of
the residuals goes from 13 to -65/3 instead of -13. -/
theorem C122_missing_branch : ∃ b', PlainFit exEnv exFast boundZ [1, 4, 4, 4, 1, -1]
      (List.replicate 6 (1 : ℚ)) none b' 0 0 0 2 ∧ exFast.objectiveType = .squaredLoss ∧
      exFast.sampleMethod = .none ∧ exFast.monotoneConstraints = none ∧ exFast.createMissingBranch = true ∧
    ∃ p : List ℚ, ({ b' with predictionIteration := some 1 }).predict boundZ = .ok (p.map FX.fin) ∧
      residual [1, 4, 4, 4, 1, -1] (List.replicate 6 (1 : ℚ)) (List.replicate 6 0) (List.range 6) = 13 ∧
      residual [1, 4, 4, 4, 1, -1] (List.replicate 6 (1 : ℚ)) p (List.range 6) = -65 / 3 := by
  have : (match exFast.fit exEnv boundZ ([1, 4, 4, 4, 1, -1].map q) (List.replicate 6 (q 1)) none with
    | .ok (b', .ok ()) =>
      decide (({ b' with predictionIteration := some 1 }).predict boundZ =
          .ok (([2, 8, 8, 8, 13 / 3, 13 / 3] : List ℚ).map FX.fin))
    | _ => false) = true := by decide +kernel
  split at this
  · rename_i b' h
    have h2 := of_decide_eq_true this
    exact ⟨b', boundPlain rfl rfl rfl rfl le_rfl rfl rfl rfl rfl ⟨_, rfl⟩ rfl rfl rfl rfl (by decide +kernel) h,
      rfl, rfl, rfl, rfl, _, h2, by decide +kernel, by decide +kernel⟩
  · cases this

end Verif
