import Verif.Proofs.Finite

/-!
# C09: `max_delta_step` bounds every node value
-/

namespace Verif

open scoped Verif

set_option linter.unusedSectionVars false

section
variable {K : Type} [Field K] [LinearOrder K] [IsStrictOrderedRing K] {m32 m64 : Fmt K}
  [m32.Exact] [m64.Exact]
variable {S : Sorter} {X : Matrix (FX m64)} {w : List K} {nbins : Nat} {missing : FX m64}
  {gv hv : Nat → K} {c : GrowCfg (FX m32) (FX m64)} {sm : SampleMethod} {rows : List Nat}
  {t : Tree (FX m32) (FX m64)}

theorem stepK_abs {l1 l2 mds g h : K} (hm : 0 < mds) : |stepK l1 l2 mds g h| ≤ mds := by
  unfold stepK
  simp only
  split
  · split
    · rw [abs_neg, abs_abs, abs_of_pos hm]
    · rw [abs_abs, abs_of_pos hm]
  · rename_i h
    rw [not_and, not_lt] at h
    exact h hm.ne'

/-- **C09.**  With a positive `max_delta_step`, the value of every node, internal or leaf, of a fitted
tree is a finite number of magnitude at most `learning_rate * max_delta_step`.  Both splitters, all
treatments of missing branches, any monotone constraints, children forced to bound their parent or
not. -/
theorem C09_tree (h : TrainedOn S X w nbins missing gv hv c sm rows) (hf : Tree.fit c sm rows = .ok t)
    {l1 l2 mds lr : K} (hP : PlainParams c hv rows l1 l2 mds lr) (hm : 0 < mds) (hlr : 0 ≤ lr) :
    ∀ n ∈ t.nodes, ∃ x, n.weightValue = FX.fin x ∧ |x| ≤ lr * mds := by
  obtain ⟨o, gs, nodes, hV⟩ := h.view hf
  intro n hn
  obtain ⟨i, hi⟩ := List.mem_iff_getElem?.1 hn
  have hB : ∀ b : K, Between fun x : K => |x| ≤ b := by
    intro b x y p hx hy h1 h2
    rw [abs_le] at *
    exact ⟨by linarith [hx.1], by linarith [hy.2]⟩
  have hst := hV.stateIn h hP (hB mds) fun _ _ _ => stepK_abs hm
  refine hV.valueIn h hP.hess (C := fun _ x => |x| ≤ lr * mds) (fun _ => hB _) ?_
    (fun _ _ _ _ _ _ hx => hx) (fun _ _ _ _ _ _ hx => hx) hi
  intro j g hg
  obtain ⟨x, h1, h2⟩ := (hst j g hg).weight
  refine ⟨x * lr, by rw [h1, hP.lr_eq, FX.fin_mul], ?_⟩
  show |x * lr| ≤ lr * mds
  rw [abs_mul, abs_of_nonneg hlr, mul_comm]
  exact mul_le_mul_of_nonneg_left h2 hlr

/-- **C09** (boosters).  In every tree of a booster fitted on finite data with a positive
`max_delta_step`, all node values are at most `learning_rate * max_delta_step` in magnitude. -/
theorem C09_booster {R : Type} {env : Env R (FX m32) (FX m64)} {b b' : Booster (FX m32) (FX m64)}
    {y : List K} {ev : Option (List (EvalSet (FX m64)))} {l1 l2 mds lr : K}
    (h : PlainFit env b X y w ev b' l1 l2 mds lr) (hm : 0 < mds) (hlr : 0 ≤ lr) :
    ∀ t ∈ b'.trees, ∀ n ∈ t.nodes, ∃ x, n.weightValue = FX.fin x ∧ |x| ≤ lr * mds := by
  intro t ht
  obtain ⟨binned, p, k, cfg, rows, hA⟩ := h.tree_mem ht
  exact C09_tree hA.trained hA.treeAt.fitted.fit hA.params hm hlr

end

/-! ### Examples -/

/-- Fits of the example data are plain. -/
theorem exPlain {b b' : Booster Q Q} {l1 l2 mds lr : ℚ} (h1 : b.l1 = FX.fin l1) (h2 : b.l2 = FX.fin l2)
    (h3 : b.maxDeltaStep = FX.fin mds) (h4 : b.learningRate = FX.fin lr) (h5 : 0 ≤ l2)
    (h6 : b.minLeafWeight = q 1) (h7 : b.sampleMethod = .none) (h8 : b.objectiveType = .squaredLoss)
    (h9 : b.initializeBaseScore = false) (h10 : b.baseScore.IsFin) (h11 : b.missing = FX.nan)
    (h : b.fit exEnv exX exY exW none = .ok (b', .ok ())) :
    PlainFit exEnv b exX [0, 0, 1, 3, 3, 5] (List.replicate 6 (1 : ℚ)) none b' l1 l2 mds lr where
  sorter := exSorter_ok
  rng := exRng_ok
  shaped := rfl
  ylen := rfl
  wlen := rfl
  max := by
    rw [h11]
    decide +kernel
  minLeafWeight := by rw [h6]; decide
  l1_eq := h1
  l2_eq := h2
  mds_eq := h3
  lr_eq := h4
  l2_nonneg := h5
  positive := .inr ⟨h7, 1, by simp, by norm_num⟩
  goss := by rw [h7]; exact fun h => nomatch h
  exp := by rw [h8]; exact fun h => nomatch h
  base := by
    rw [h9]
    rintro s rfl
    exact h10
  fit := h

/-- A booster with a step limit, ternary splits, averaged missing leaves and a monotone constraint. -/
def exLimited : Booster Q Q :=
  { exFresh with maxDeltaStep := q (1/2), createMissingBranch := true, iterations := 3
                 missingNodeTreatment := .averageLeafWeight, monotoneConstraints := some [(0, .positive)]
                 initializeBaseScore := false }

/-- The hypotheses of `C09_booster` are met, and the bound is reached. -/
example : ∃ b', PlainFit exEnv exLimited exX [0, 0, 1, 3, 3, 5] (List.replicate 6 (1 : ℚ)) none b' 0 0
      (1/2) (1/2) ∧ b'.trees.map (fun t => t.nodes.map fun n => n.weightValue) =
        [[q (1/4)], [q (1/4)],
        [q (1/24), q (1/24), q (-1/4), q (3/16), q (3/16), q 0, q (1/4)]] := by
  have : (match exLimited.fit exEnv exX exY exW none with
    | .ok (b', .ok ()) => decide (b'.trees.map (fun t => t.nodes.map fun n => n.weightValue) =
        [[q (1/4)], [q (1/4)],
        [q (1/24), q (1/24), q (-1/4), q (3/16), q (3/16), q 0, q (1/4)]])
    | _ => false) = true := by decide +kernel
  split at this
  · rename_i b' h
    exact ⟨b', exPlain rfl rfl rfl rfl le_rfl rfl rfl rfl rfl ⟨_, rfl⟩ rfl h, of_decide_eq_true this⟩
  · cases this

end Verif
