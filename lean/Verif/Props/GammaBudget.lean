import Verif.Props.TotalGain
import Verif.Props.LogLossDescent
import Verif.Props.Splits

/-!
# C135: gamma limits the number of splits of the whole model

Every split has a gain above `gamma`, and the gains are amounts of training loss.  So the loss of the base
score limits the number of splits of all trees together, however many trees are grown.
-/

namespace Verif

open scoped Verif

set_option linter.unusedSectionVars false

/-- The number of splits of all trees. -/
def Booster.splitCount {F D : Type} (b : Booster F D) : Nat :=
  ((b.trees.flatMap Tree.nodes).filter fun n => !n.isLeaf).length

/-- The number of trees that are not a single leaf. -/
def Booster.splitTrees {F D : Type} (b : Booster F D) : Nat :=
  (b.trees.filter fun t => 1 < t.nodes.length).length

section
variable {K : Type} [Field K] [LinearOrder K] [IsStrictOrderedRing K] {m32 m64 : Fmt K}
  [m32.Exact] [m64.Exact]
variable {X : Matrix (FX m64)} {w : List K}
variable {R : Type} {env : Env R (FX m32) (FX m64)} {b b' : Booster (FX m32) (FX m64)}
  {y : List K} {ev : Option (List (EvalSet (FX m64)))} {l1 l2 mds lr : K}

/-- If every tree lowers a loss, all trees together do. -/
theorem telescope_loss (h : PlainFit env b X y w ev b' l1 l2 mds lr) (L : List K → K)
    (δ : Tree (FX m32) (FX m64) → K)
    (hround : ∀ (k : Nat) (hk : k < b'.trees.length), ∃ p p' : List K,
      ({ b' with predictionIteration := some k }).predict X = .ok (p.map FX.fin) ∧
      ({ b' with predictionIteration := some (k + 1) }).predict X = .ok (p'.map FX.fin) ∧
      L p' + δ b'.trees[k] ≤ L p) :
    ∃ p p' : List K, ({ b' with predictionIteration := some 0 }).predict X = .ok (p.map FX.fin) ∧
      ({ b' with predictionIteration := some b'.trees.length }).predict X = .ok (p'.map FX.fin) ∧
      L p' + (b'.trees.map δ).sum ≤ L p := by
  obtain ⟨p, hp⟩ := h.predict_first (Nat.zero_le _)
  have key : ∀ k, k ≤ b'.trees.length → ∃ p' : List K,
      ({ b' with predictionIteration := some k }).predict X = .ok (p'.map FX.fin) ∧
      L p' + ((b'.trees.take k).map δ).sum ≤ L p := by
    intro k
    induction k with
    | zero => intro _; exact ⟨p, hp, by simp⟩
    | succ k ih =>
      intro hk
      obtain ⟨p1, hp1, hle⟩ := ih (by omega)
      obtain ⟨p2, p3, hp2, hp3, hf⟩ := hround k (show k < b'.trees.length by omega)
      rw [hp1] at hp2
      have e := map_fin_inj (Res.ok.inj hp2)
      subst e
      refine ⟨p3, hp3, ?_⟩
      rw [List.take_add_one, List.getElem?_eq_getElem (show k < b'.trees.length by omega)]
      simp only [Option.toList_some, List.map_append, List.map_cons, List.map_nil, List.sum_append, List.sum_cons,
        List.sum_nil, add_zero]
      linarith
  obtain ⟨p', hp', hle⟩ := key _ le_rfl
  rw [List.take_length] at hle
  exact ⟨p, p', hp, hp', hle⟩

theorem mul_length_le {α : Type} (l : List α) (f : α → K) (γ : K) (h : ∀ a ∈ l, γ ≤ f a) :
    γ * l.length ≤ (l.map f).sum := by
  induction l with
  | nil => simp
  | cons a l ih =>
    have h1 := ih fun a ha => h a (by simp [ha])
    have h2 := h a (by simp)
    simp only [List.map_cons, List.sum_cons, List.length_cons]
    push_cast
    rw [mul_add]
    linarith

/-- The gains of all trees outweigh `gamma` times the number of splits. -/
theorem gamma_splits (h : PlainFit env b X y w ev b' l1 l2 mds lr) {γ : K} (hγ : b.gamma = FX.fin γ)
    (h0 : 0 ≤ γ) (hm : b.WeightsOfGains) :
    γ * b'.splitCount ≤ (b'.trees.map Tree.gainSum).sum ∧ b'.splitTrees ≤ b'.splitCount := by
  have hgam : ((0 : FX m32) ≤ᶠ b.gamma) = true := by
    rw [hγ, FX.zero_def, FX.le_fin]; exact decide_eq_true h0
  have hfin := h.finiteStats hgam hm
  have hwf : ∀ t ∈ b'.trees, t.Wf := fun t ht => by
    obtain ⟨_, _, _, _, _, hA⟩ := h.tree_mem ht
    exact Tree.fit_wf hA.treeAt.fitted.fit
  have hg : ∀ t ∈ b'.trees, ∀ n ∈ t.nodes, n.isLeaf = false → γ ≤ n.splitGain.val := by
    intro t ht n hn hl
    have := C08_gamma env b b' X _ _ ev h.fit t ht n hn hl
    obtain ⟨x, hx⟩ := (hfin t ht n hn hl).1
    rw [hγ, hx, FX.lt_fin] at this
    rw [hx]
    exact (of_decide_eq_true this).le
  unfold Booster.splitCount Booster.splitTrees
  generalize b'.trees = ts at hg hwf
  induction ts with
  | nil => simp
  | cons t ts ih =>
    obtain ⟨i1, i2⟩ := ih (fun s hs => hg s (by simp [hs])) (fun s hs => hwf s (by simp [hs]))
    have h1 := mul_length_le (t.nodes.filter fun n => !n.isLeaf) (fun n => n.splitGain.val) γ (by
      intro n hn
      obtain ⟨a, b⟩ := List.mem_filter.1 hn
      exact hg t (by simp) n a (by simpa using b))
    simp only [List.flatMap_cons, List.filter_append, List.length_append, List.map_cons, List.sum_cons]
    refine ⟨?_, ?_⟩
    · push_cast
      rw [mul_add]
      have : ((t.nodes.filter fun n => !n.isLeaf).map fun n => n.splitGain.val).sum = t.gainSum := rfl
      linarith
    · rw [List.filter_cons]
      split
      · rename_i hl
        have hl : 1 < t.nodes.length := by simpa using hl
        have : 0 < (t.nodes.filter fun n => !n.isLeaf).length := by
          rw [List.length_pos_iff]
          intro hnil
          have hw := hwf t (by simp)
          obtain ⟨n0, hn0⟩ : ∃ n0, t.nodes[0]? = some n0 := ⟨_, List.getElem?_eq_getElem (by omega)⟩
          have hl0 : n0.isLeaf = true := by
            by_contra hc
            have : n0 ∈ t.nodes.filter fun n => !n.isLeaf :=
              List.mem_filter.2 ⟨List.mem_of_getElem? hn0, by simpa using hc⟩
            rw [hnil] at this
            cases this
          have hp := (walk_perm hw hw.kidsStats).length_eq
          have hkid : t.at_ Node.kidsStats 0 = [] := by simp [Tree.at_, hn0, Node.kidsStats, hl0]
          obtain ⟨j, hj⟩ : ∃ j, t.nodes.length = j + 1 := ⟨t.nodes.length - 1, by omega⟩
          rw [hj, walk, hkid] at hp
          simp at hp
          omega
        simp only [List.length_cons]
        omega
      · omega

theorem sqLoss_nonneg (h : PlainFit env b X y w ev b' l1 l2 mds lr) (p : List K) : 0 ≤ sqLoss y w p := by
  refine List.sum_nonneg fun x hx => ?_
  obtain ⟨i, hi, rfl⟩ := List.mem_map.1 hx
  have hiw : i < w.length := by rw [h.wlen, ← h.ylen]; exact List.mem_range.1 hi
  refine mul_nonneg ?_ (sq_nonneg _)
  rw [show w.getD i 0 = w[i] by simp [hiw]]
  exact h.nonneg _ (List.getElem_mem hiw)

/-- **C135** (squared loss).  The number of splits of all trees together, times `gamma` and the learning rate, is at
most the squared error of the base score; so is the number of trees that split at all. -/
theorem C135_squared (h : PlainFit env b X y w ev b' l1 l2 mds lr) (ho : b.objectiveType = .squaredLoss)
    (hs : b.sampleMethod = .none) (hl1 : 0 ≤ l1) (hmds : 0 ≤ mds) (hlr : 0 ≤ lr) (hlr1 : lr ≤ 1)
    {γ : K} (hγ : b.gamma = FX.fin γ) (h0 : 0 ≤ γ) (hm : b.WeightsOfGains) :
    ∃ p : List K, ({ b' with predictionIteration := some 0 }).predict X = .ok (p.map FX.fin) ∧
      lr * γ * b'.splitCount ≤ sqLoss y w p ∧ b'.splitTrees ≤ b'.splitCount := by
  have hgam : ((0 : FX m32) ≤ᶠ b.gamma) = true := by
    rw [hγ, FX.zero_def, FX.le_fin]; exact decide_eq_true h0
  obtain ⟨p, p', h1, h2, h3⟩ := telescope_loss h (sqLoss y w) (fun t => lr * t.gainSum)
    (fun k hk => C134_fall h ho hs hl1 hmds hlr hlr1 hgam hm hk)
  obtain ⟨g1, g2⟩ := gamma_splits h hγ h0 hm
  refine ⟨p, h1, ?_, g2⟩
  have := mul_le_mul_of_nonneg_left g1 hlr
  have hn := sqLoss_nonneg h p'
  have e : (b'.trees.map fun t => lr * t.gainSum).sum = lr * (b'.trees.map Tree.gainSum).sum :=
    (mul_sum_map _ _ _).symm
  rw [e] at h3
  rw [mul_assoc]
  linarith

end

section

variable {Rg : Type} {env : Env Rg R R} {b b' : Booster R R} {X : Matrix R} {y w : List ℝ}
  {ev : Option (List (EvalSet R))} {l1 l2 mds lr : ℝ}

theorem logisticLoss_nonneg (h : PlainFit env b X y w ev b' l1 l2 mds lr) (hy : ∀ a ∈ y, 0 ≤ a ∧ a ≤ 1)
    (p : List ℝ) : 0 ≤ logisticLoss y w p := by
  refine List.sum_nonneg fun x hx => ?_
  obtain ⟨i, hi, rfl⟩ := List.mem_map.1 hx
  have hiy := List.mem_range.1 hi
  have hiw : i < w.length := by rw [h.wlen, ← h.ylen]; exact hiy
  refine mul_nonneg ?_ ?_
  · rw [show w.getD i 0 = w[i] by simp [hiw]]
    exact h.nonneg _ (List.getElem_mem hiw)
  · obtain ⟨a1, a2⟩ := hy _ (List.getElem_mem hiy)
    rw [show y.getD i 0 = y[i] by simp [hiy]]
    set x := p.getD i 0
    have e1 : x ≤ Real.log (1 + Real.exp x) := by
      rw [Real.le_log_iff_exp_le (by linarith [Real.exp_pos x])]
      linarith
    have e2 : 0 ≤ Real.log (1 + Real.exp x) := Real.log_nonneg (by linarith [Real.exp_pos x])
    rcases le_total 0 x with hx | hx
    · nlinarith
    · nlinarith

/-- **C134** (log loss).  With steps short enough every tree lowers the logistic loss of the training data by at
least half of the learning rate times the sum of its gains. -/
theorem C134_logistic (h : PlainFit env b X y w ev b' l1 l2 mds lr) (ho : b.objectiveType = .logLoss)
    (hs : b.sampleMethod = .none) (hl1 : 0 ≤ l1) (hmds : 0 < mds) (hlr : 0 ≤ lr)
    (hexp : Real.exp (lr * mds) ≤ 1 + lr * mds + lr * mds ^ 2 / 2)
    (hgam : ((0 : R) ≤ᶠ b.gamma) = true) (hm : b.WeightsOfGains) {k : Nat} (hk : k < b'.trees.length) :
    ∃ p p' : List ℝ, ({ b' with predictionIteration := some k }).predict X = .ok (p.map FX.fin) ∧
      ({ b' with predictionIteration := some (k + 1) }).predict X = .ok (p'.map FX.fin) ∧
      logisticLoss y w p' + lr / 2 * b'.trees[k].gainSum ≤ logisticLoss y w p := by
  refine logistic_round_by (κ := 1 / lr) (δ := fun t => lr / 2 * t.gainSum) h ho hs hmds hlr ?_
    (fun binned p k t cfg rows hA v hv' => ?_) hk
  · rcases hlr.eq_or_lt with rfl | hlr
    · simp
    · have : 1 / lr / 2 * (lr * mds) ^ 2 = lr * mds ^ 2 / 2 := by field_simp
      linarith
  · have := hA.gains_le (κ := 1 / lr) hl1 hmds.le hlr (by
      rcases hlr.eq_or_lt with rfl | hlr
      · simp
      · rw [div_mul_cancel₀ _ hlr.ne']) hgam hm hv'
    refine this.trans (le_of_eq ?_)
    ring

/-- **C135** (log loss).  The same, with half of the learning rate, for labels between 0 and 1. -/
theorem C135_logistic (h : PlainFit env b X y w ev b' l1 l2 mds lr) (ho : b.objectiveType = .logLoss)
    (hs : b.sampleMethod = .none) (hl1 : 0 ≤ l1) (hmds : 0 < mds) (hlr : 0 ≤ lr)
    (hexp : Real.exp (lr * mds) ≤ 1 + lr * mds + lr * mds ^ 2 / 2) (hy : ∀ a ∈ y, 0 ≤ a ∧ a ≤ 1)
    {γ : ℝ} (hγ : b.gamma = FX.fin γ) (h0 : 0 ≤ γ) (hm : b.WeightsOfGains) :
    ∃ p : List ℝ, ({ b' with predictionIteration := some 0 }).predict X = .ok (p.map FX.fin) ∧
      lr / 2 * γ * b'.splitCount ≤ logisticLoss y w p ∧ b'.splitTrees ≤ b'.splitCount := by
  have hgam : ((0 : R) ≤ᶠ b.gamma) = true := by
    rw [hγ, FX.zero_def, FX.le_fin]; exact decide_eq_true h0
  obtain ⟨p, p', h1, h2, h3⟩ := telescope_loss h (logisticLoss y w) (fun t => lr / 2 * t.gainSum)
    (fun k hk => C134_logistic h ho hs hl1 hmds hlr hexp hgam hm hk)
  obtain ⟨g1, g2⟩ := gamma_splits h hγ h0 hm
  refine ⟨p, h1, ?_, g2⟩
  have := mul_le_mul_of_nonneg_left g1 (show 0 ≤ lr / 2 by linarith)
  have hn := logisticLoss_nonneg h hy p'
  have e : (b'.trees.map fun t => lr / 2 * t.gainSum).sum = lr / 2 * (b'.trees.map Tree.gainSum).sum :=
    (mul_sum_map _ _ _).symm
  rw [e] at h3
  rw [mul_assoc]
  linarith

end

/-- Six trees with `gamma = 1`. -/
def exGamma : Booster Q Q := { exDepth 2 with iterations := 6, gamma := q 1 }

/-- The hypotheses of `C135_squared` are met: of six trees one splits, twice, and the squared error of the base
score is 13. -/
example : ∃ b', PlainFit exEnv exGamma exAnd [0, 0, 0, 4] (List.replicate 4 (1 : ℚ)) none b' 0 0 0 (1/2) ∧
      exGamma.gamma = q 1 ∧ exGamma.WeightsOfGains ∧ b'.trees.length = 6 ∧ b'.splitTrees = 1 ∧ b'.splitCount = 2 := by
  have : (match exGamma.fit exEnv exAnd [q 0, q 0, q 0, q 4] [q 1, q 1, q 1, q 1] none with
    | .ok (b', .ok ()) => decide (b'.trees.length = 6 ∧ b'.splitTrees = 1 ∧ b'.splitCount = 2)
    | _ => false) = true := by decide +kernel
  split at this
  · rename_i b' h
    refine ⟨b', ?_, rfl, .inl rfl, of_decide_eq_true this⟩
    exact { sorter := exSorter_ok, rng := exRng_ok, shaped := rfl, ylen := rfl, wlen := rfl
            max := by
              show ∀ v ∈ exAnd.data, ¬IsMissing FX.nan v → (v ≤ᶠ Fl.maxv) = true
              decide +kernel
            minLeafWeight := by
              show FX.fin 0 ≤ᶠ q 1
              decide
            l1_eq := rfl, l2_eq := rfl, mds_eq := rfl, lr_eq := rfl, l2_nonneg := le_rfl
            positive := .inr ⟨rfl, 1, by simp, one_pos⟩
            goss := fun h => nomatch h
            exp := fun h => nomatch h
            base := fun s hs => by
              have hs : s = exFresh.baseScore := hs
              rw [hs]; exact ⟨_, rfl⟩
            fit := h }
  · cases this

/-- The hypotheses of `C134_logistic` and `C135_logistic` are met with `max_delta_step = 1`, a learning rate of `1/4`
and `gamma = 1/10`. -/
example : ∃ b' : Booster R R,
    PlainFit realEnv { pairBooster 1 (1/4) with iterations := 100, maxLeaves := 8, gamma := FX.fin (1/10) } pairX
        [0, 1] [1, 1] none b' 0 0 1 (1/4) ∧
      Real.exp (1/4 * 1) ≤ 1 + 1/4 * 1 + 1/4 * 1 ^ 2 / 2 ∧ b'.trees.length = 100 ∧ (0 : ℝ) ≤ 1/10 ∧
      ∀ a ∈ ([0, 1] : List ℝ), 0 ≤ a ∧ a ≤ 1 := by
  set b : Booster R R := { pairBooster 1 (1/4) with iterations := 100, maxLeaves := 8, gamma := FX.fin (1/10) }
  have hsafe : SafeArgs realEnv b pairX [0, 1] [1, 1] 0 0 1 (1/4) :=
    pair_safe _ rfl rfl rfl rfl rfl rfl rfl rfl rfl
  have hbase : BaseOk b [0, 1] [1, 1] := ⟨Real.log 99, rfl⟩
  obtain ⟨b', hfit⟩ := (C62_fit hsafe hbase (ev := none) ⟨by simp, by simp, .inr rfl⟩).2 (by simp)
  refine ⟨b', hsafe.plain hbase hfit, ?_, C20_no_evaluation hfit, by norm_num, by simp⟩
  have := Real.abs_exp_sub_one_sub_id_le (x := 1/4) (by rw [abs_of_nonneg] <;> norm_num)
  have := (abs_le.1 this).2
  norm_num at *
  linarith

end Verif
