import Verif.Props.AverageLeaf
import Verif.Props.Monotone

/-!
# C38: `force_children_to_bound_parent`
-/

namespace Verif

open scoped Verif

set_option linter.unusedSectionVars false

/-- `v` lies between `x` and `y`. -/
def LiesBetween {K : Type} [LE K] (x y v : K) : Prop := (x ≤ v ∧ v ≤ y) ∨ (y ≤ v ∧ v ≤ x)

section
variable {K : Type} [Field K] [LinearOrder K] [IsStrictOrderedRing K] {m32 m64 : Fmt K}
  [m32.Exact] [m64.Exact]
variable {S : Sorter} {X : Matrix (FX m64)} {w : List K} {nbins : Nat} {missing : FX m64}
  {gv hv : Nat → K} {c : GrowCfg (FX m32) (FX m64)} {sm : SampleMethod} {rows : List Nat}
  {t : Tree (FX m32) (FX m64)}

/-- `bound_to_parent` does what it says. -/
theorem boundToParent_between (p l r : K) : ∃ x y, boundToParent (FX.fin p : FX m32) (FX.fin l) (FX.fin r) =
    (FX.fin x, FX.fin y) ∧ LiesBetween x y p := by
  unfold boundToParent between LiesBetween
  simp only [FX.lt_fin, FX.le_fin, decide_eq_true_eq]
  by_cases h1 : r < l
  · simp only [h1, if_true, Bool.and_eq_true, decide_eq_true_eq]
    by_cases h2 : p ≤ l ∧ r ≤ p
    · rw [if_pos h2]
      exact ⟨l, r, rfl, .inr ⟨h2.2, h2.1⟩⟩
    · rw [if_neg h2]
      by_cases h3 : l < p
      · rw [if_pos h3]
        exact ⟨p, r, rfl, .inr ⟨by linarith, le_rfl⟩⟩
      · rw [if_neg h3]
        rw [not_lt] at h3
        exact ⟨l, p, rfl, .inr ⟨le_rfl, h3⟩⟩
  · simp only [h1, if_false, Bool.and_eq_true, decide_eq_true_eq]
    rw [not_lt] at h1
    by_cases h2 : l ≤ p ∧ p ≤ r
    · rw [if_pos h2]
      exact ⟨l, r, rfl, .inl h2⟩
    · rw [if_neg h2]
      by_cases h3 : r < p
      · rw [if_pos h3]
        exact ⟨l, p, rfl, .inl ⟨by linarith, le_rfl⟩⟩
      · rw [if_neg h3]
        rw [not_lt] at h3
        exact ⟨p, r, rfl, .inl ⟨le_rfl, h3⟩⟩

/-- **C38** (trees, partial).  With `create_missing_branch` and `force_children_to_bound_parent`, the value
of every internal node of a fitted tree lies between the values of its left and right child, unless
AverageLeafWeight rewrites the values.  Full claim: for both splitters and without panics; both are
false, see `C38_ignored` and `C38_panic`. -/
theorem C38_tree_partial (h : TrainedOn S X w nbins missing gv hv c sm rows)
    (hf : Tree.fit c sm rows = .ok t) {l1 l2 mds lr : K} (hP : PlainParams c hv rows l1 l2 mds lr)
    (hlr : 0 ≤ lr) {p : BranchParams (FX m32)} (hp : c.splitter = .branch p)
    (hforce : p.forceChildrenToBoundParent = true)
    (hm : p.missingNodeTreatment ≠ .averageLeafWeight)
    (n : Node (FX m32) (FX m64)) (hn : n ∈ t.nodes) (hl : n.isLeaf = false) :
    ∃ (l r : Node (FX m32) (FX m64)) (v vl vr : K), t.nodes[n.leftChild]? = some l ∧
      t.nodes[n.rightChild]? = some r ∧ n.weightValue = FX.fin v ∧ l.weightValue = FX.fin vl ∧
      r.weightValue = FX.fin vr ∧ LiesBetween vl vr v := by
  obtain ⟨o, gs, nodes, hV⟩ := h.view hf
  have hnodes : t.nodes = nodes := by
    have hc := hV.clean
    rw [hp] at hc
    exact cleanUpSplits_branch hm hc
  obtain ⟨i, hi⟩ := List.mem_iff_getElem?.1 hn
  obtain ⟨g, info, k, kids, hI⟩ := hV.cert.internal hV.shape hi hl
  obtain ⟨a, lg, lh, rg, rh, mg, mh, clg, clh, crg, crh, hE⟩ := hV.evalFacts h hP.hess hI
  obtain ⟨gl, gr, x1, x2, x3, x4, _⟩ := hI.sides
  have hst := hV.stateIn h hP (B := fun _ => True) (fun _ _ _ _ _ _ _ => trivial) fun _ _ _ => trivial
  have hcw : ∀ x y, 0 < y → ValIn (fun _ => True) (p.cw a (FX.fin x) (FX.fin y)) := by
    intro x y hy
    have := hP.l2_nonneg
    have hpp : p.toSplitParams = c.splitter.params := by rw [hp]; rfl
    simp only [SplitParams.cw, hpp, hP.l1_eq, hP.l2_eq, hP.mds_eq, hE.lower, hE.upper]
    exact constrainedWeight_in (by linarith) trivial (hst i g hI.ghost).low (hst i g hI.ghost).high _
  obtain ⟨rfl, rfl, rfl, rfl, d5, _⟩ := hE.branch p hp
  obtain ⟨xl, hxl, _⟩ := hcw clg clh hE.lpos
  obtain ⟨xr, hxr, _⟩ := hcw crg crh hE.rpos
  obtain ⟨xp, hxp, _⟩ := (hst i g hI.ghost).weight
  obtain ⟨y, z, e1, e2⟩ := boundToParent_between (m32 := m32) xp xl xr
  unfold branchChildWeights at d5
  rw [hE.lg_eq, hE.lh_eq, hE.rg_eq, hE.rh_eq, hE.parent, hxl, hxr, hxp] at d5
  simp only [hforce, if_true, e1, Res.bind_eq_ok, Res.ok.injEq, Prod.mk.injEq] at d5
  obtain ⟨_, _, _, _, d6, d7⟩ := d5
  obtain ⟨nl, y1, y2, _⟩ := hV.cert.nodeOf x1
  obtain ⟨nr, z1, z2, _⟩ := hV.cert.nodeOf x2
  obtain ⟨n0, w1, w2, _⟩ := hV.cert.nodeOf hI.ghost
  rw [← hnodes, hi] at w1; cases w1
  refine ⟨nl, nr, xp * lr, y * lr, z * lr, by rw [hnodes]; exact y1, by rw [hnodes]; exact z1, ?_, ?_, ?_, ?_⟩
  · rw [w2.weight, hxp, hP.lr_eq, FX.fin_mul]
  · rw [y2.weight, x3.weight, ← d6, hP.lr_eq, FX.fin_mul]
  · rw [z2.weight, x4.weight, ← d7, hP.lr_eq, FX.fin_mul]
  · rcases e2 with ⟨h1, h2⟩ | ⟨h1, h2⟩
    · exact .inl ⟨mul_le_mul_of_nonneg_right h1 hlr, mul_le_mul_of_nonneg_right h2 hlr⟩
    · exact .inr ⟨mul_le_mul_of_nonneg_right h1 hlr, mul_le_mul_of_nonneg_right h2 hlr⟩

/-- **C38** (AverageLeafWeight, partial).  With AverageLeafWeight, forced or not, the value of an internal
node whose missing child is a leaf lies between the values of its left and right child.  Full claim: for
all internal nodes; it is false, see `C38_average`. -/
theorem C38_average_partial (h : TrainedOn S X w nbins missing gv hv c sm rows)
    (hf : Tree.fit c sm rows = .ok t) (hh : ∀ r ∈ rows, 0 ≤ hv r) (hfin : t.FiniteValues)
    {p : BranchParams (FX m32)} (hp : c.splitter = .branch p)
    (ha : p.missingNodeTreatment = .averageLeafWeight)
    (n m : Node (FX m32) (FX m64)) (hn : n ∈ t.nodes) (hl : n.isLeaf = false)
    (hm : t.nodes[n.missingNode]? = some m) (hml : m.isLeaf = true) :
    ∃ (l r : Node (FX m32) (FX m64)) (v vl vr : K), t.nodes[n.leftChild]? = some l ∧
      t.nodes[n.rightChild]? = some r ∧ n.weightValue = FX.fin v ∧ l.weightValue = FX.fin vl ∧
      r.weightValue = FX.fin vr ∧ LiesBetween vl vr v := by
  obtain ⟨l, r, m', v, vl, vr, vm, cl, cr, cm, hnl, hnr, hnm, e1, e2, e3, e4, f1, f1', f2, f2', f3, f3',
    f4, k1, k2⟩ := C35_tree h hf hh hfin hp ha n hn hl
  rw [hm] at hnm; cases hnm
  obtain ⟨_, hv'⟩ := k1 hml
  refine ⟨l, r, v, vl, vr, hnl, hnr, e1, e2, e3, ?_⟩
  have hne : cl + cr ≠ 0 := by positivity
  have : v = (vl * cl + vr * cr) / (cl + cr) := by rw [eq_div_iff hne]; exact hv'
  rw [this]
  exact avg_between f1'.le f2'.le (by linarith)

/-- **C38** (boosters, partial).  The same for every tree of a booster fitted on finite data. -/
theorem C38_booster_partial {R : Type} {env : Env R (FX m32) (FX m64)} {b b' : Booster (FX m32) (FX m64)}
    {y : List K} {ev : Option (List (EvalSet (FX m64)))} {l1 l2 mds lr : K}
    (h : PlainFit env b X y w ev b' l1 l2 mds lr) (hlr : 0 ≤ lr) (hb : b.createMissingBranch = true)
    (hforce : b.forceChildrenToBoundParent = true) (t : Tree (FX m32) (FX m64)) (ht : t ∈ b'.trees)
    (n m : Node (FX m32) (FX m64)) (hn : n ∈ t.nodes) (hl : n.isLeaf = false)
    (hm : t.nodes[n.missingNode]? = some m)
    (ha : b.missingNodeTreatment = .averageLeafWeight → m.isLeaf = true) :
    ∃ (l r : Node (FX m32) (FX m64)) (v vl vr : K), t.nodes[n.leftChild]? = some l ∧
      t.nodes[n.rightChild]? = some r ∧ n.weightValue = FX.fin v ∧ l.weightValue = FX.fin vl ∧
      r.weightValue = FX.fin vr ∧ LiesBetween vl vr v := by
  obtain ⟨binned, p, k, cfg, rows, hA⟩ := h.tree_mem ht
  have hp := hA.treeAt.fitted.splitter.trans (splitter_branch hb)
  by_cases hav : b.missingNodeTreatment = .averageLeafWeight
  · exact C38_average_partial hA.trained hA.treeAt.fitted.fit hA.params.hess hA.values hp hav n m hn hl hm
      (ha hav)
  · exact C38_tree_partial hA.trained hA.treeAt.fitted.fit hA.params hlr hp hforce hav n hn hl

end

/-! ### The flag is not enough -/

/-- Six rows, three features. -/
def boundX : Matrix Q := { data := [0,0,0,0,1,1, 0,1,0,1,0,1, 0,0,1,1,0,0].map q, rows := 6, cols := 3 }

/-- The splitter which imputes missing values, with the flag set; features 0 and 2 are constrained. -/
def exForced : Booster Q Q :=
  { exMixed with maxDepth := 3, monotoneConstraints := some [(0, .positive), (2, .positive)]
                 forceChildrenToBoundParent := true }

/-- The splitter with a missing branch, with the flag set, for a matrix whose first feature only is
constrained. -/
def exForcedBranch : Booster Q Q :=
  { exMixed with createMissingBranch := true, forceChildrenToBoundParent := true }

/-- Feature 0 is missing in the last two rows, feature 1 in all others. -/
def boundY : Matrix Q :=
  { data := [q 0, q 1, q 1, q 1, FX.nan, FX.nan, FX.nan, FX.nan, FX.nan, FX.nan, q 0, q 1], rows := 6, cols := 2 }

/-- Feature 0 of `boundY` alone. -/
def boundZ : Matrix Q := { data := [q 0, q 1, q 1, q 1, FX.nan, FX.nan], rows := 6, cols := 1 }

/-- The missing branch is split further and the values are averaged. -/
def exForcedAverage : Booster Q Q :=
  { exForcedBranch with maxDepth := 3, monotoneConstraints := none, allowMissingSplits := true
                        missingNodeTreatment := .averageLeafWeight }

/-- The flag with the missing branch split further, without averages. -/
def exForcedNone : Booster Q Q := { exForcedAverage with missingNodeTreatment := .none }

theorem boundPlain {b b' : Booster Q Q} {X : Matrix Q} {y : List ℚ} {l1 l2 mds lr : ℚ}
    (h1 : b.l1 = FX.fin l1) (h2 : b.l2 = FX.fin l2)
    (h3 : b.maxDeltaStep = FX.fin mds) (h4 : b.learningRate = FX.fin lr) (h5 : 0 ≤ l2)
    (h6 : b.minLeafWeight = q 1) (h7 : b.sampleMethod = .none) (h8 : b.objectiveType = .squaredLoss)
    (h9 : b.initializeBaseScore = false) (h10 : b.baseScore.IsFin) (h11 : b.missing = FX.nan)
    (hX : X.Shaped) (hy : y.length = X.rows) (hr : X.rows = 6)
    (hmax : ∀ v ∈ X.data, ¬ IsMissing (FX.nan : Q) v → (v ≤ᶠ Fl.maxv) = true)
    (h : b.fit exEnv X (y.map q) (List.replicate 6 (q 1)) none = .ok (b', .ok ())) :
    PlainFit exEnv b X y (List.replicate 6 (1 : ℚ)) none b' l1 l2 mds lr where
  sorter := exSorter_ok
  rng := exRng_ok
  shaped := hX
  ylen := hy
  wlen := by simp [hr]
  max := by rw [h11]; exact hmax
  minLeafWeight := by rw [h6]; decide
  l1_eq := h1
  l2_eq := h2
  mds_eq := h3
  lr_eq := h4
  l2_nonneg := h5
  positive := .inr ⟨h7, 1, by simp, by norm_num⟩
  goss := by rw [h7]; exact fun h => nomatch h
  exp := by rw [h8]; exact fun h => nomatch h
  base := by
    rw [h9]
    rintro s rfl
    exact h10
  fit := h

/-- **C38** is false for the splitter which imputes missing values: the flag is set, but node 4 has value
17/2 while its children have values 9 and 11. -/
theorem C38_ignored : ∃ b' t n l r, PlainFit exEnv exForced boundX [0, 0, 9, 11, 12, 12]
      (List.replicate 6 (1 : ℚ)) none b' 0 0 0 1 ∧ exForced.forceChildrenToBoundParent = true ∧
      b'.trees = [t] ∧ t.nodes[4]? = some n ∧ n.isLeaf = false ∧
      t.nodes[n.leftChild]? = some l ∧ t.nodes[n.rightChild]? = some r ∧
      n.weightValue = FX.fin (17 / 2) ∧ l.weightValue = FX.fin 9 ∧ r.weightValue = FX.fin 11 := by
  have : (match exForced.fit exEnv boundX ([0, 0, 9, 11, 12, 12].map q) (List.replicate 6 (q 1)) none with
    | .ok (b', .ok ()) =>
      match b'.trees with
      | [t] =>
        match t.nodes[4]? with
        | some n =>
          match t.nodes[n.leftChild]?, t.nodes[n.rightChild]? with
          | some l, some r => decide (n.isLeaf = false ∧ n.weightValue = q (17 / 2) ∧
              l.weightValue = q 9 ∧ r.weightValue = q 11)
          | _, _ => false
        | none => false
      | _ => false
    | _ => false) = true := by decide +kernel
  split at this
  · rename_i b' h
    split at this
    · rename_i t ht
      split at this
      · rename_i n hn
        split at this
        · rename_i l r hl hr
          obtain ⟨h1, h2, h3, h4⟩ := of_decide_eq_true this
          exact ⟨b', t, n, l, r, boundPlain rfl rfl rfl rfl le_rfl rfl rfl rfl rfl ⟨_, rfl⟩ rfl rfl rfl rfl
            (by decide +kernel) h, rfl, ht, hn, h1, hl, hr, h2, h3, h4⟩
        · cases this
      · cases this
    · cases this
  · cases this

/-- **C38**: with the missing branch, one constrained and one unconstrained feature, the assertions on the
bounds fail and `fit` panics (the data of `C11_counterexample`; without the flag it does not panic). -/
theorem C38_panic :
    exForcedBranch.fit exEnv monoX [q 0, q 10, q 20, q 5] (List.replicate 4 (q 1)) none = .panic ∧
    ∃ b', { exForcedBranch with forceChildrenToBoundParent := false }.fit exEnv monoX
      [q 0, q 10, q 20, q 5] (List.replicate 4 (q 1)) none = .ok (b', .ok ()) := by
  constructor
  · have : (match exForcedBranch.fit exEnv monoX [q 0, q 10, q 20, q 5] (List.replicate 4 (q 1)) none with
      | .panic => true
      | _ => false) = true := by decide +kernel
    split at this
    · assumption
    · cases this
  · have : (match { exForcedBranch with forceChildrenToBoundParent := false }.fit exEnv monoX
        [q 0, q 10, q 20, q 5] (List.replicate 4 (q 1)) none with
      | .ok (_, .ok ()) => true
      | _ => false) = true := by decide +kernel
    split at this
    · rename_i b' h
      exact ⟨b', h⟩
    · cases this

/-- **C38** is false with AverageLeafWeight when the missing branch is split further: the root has value
21/2 while its left and right child have values 0 and 10. -/
theorem C38_average : ∃ b' t n l r, PlainFit exEnv exForcedAverage boundY [0, 9, 9, 9, 6, 27]
      (List.replicate 6 (1 : ℚ)) none b' 0 0 0 1 ∧ exForcedAverage.forceChildrenToBoundParent = true ∧
      exForcedAverage.createMissingBranch = true ∧
      b'.trees = [t] ∧ t.nodes[0]? = some n ∧ n.isLeaf = false ∧
      t.nodes[n.leftChild]? = some l ∧ t.nodes[n.rightChild]? = some r ∧
      n.weightValue = FX.fin (21 / 2) ∧ l.weightValue = FX.fin 0 ∧ r.weightValue = FX.fin 10 := by
  have : (match exForcedAverage.fit exEnv boundY ([0, 9, 9, 9, 6, 27].map q) (List.replicate 6 (q 1)) none with
    | .ok (b', .ok ()) =>
      match b'.trees with
      | [t] =>
        match t.nodes[0]? with
        | some n =>
          match t.nodes[n.leftChild]?, t.nodes[n.rightChild]? with
          | some l, some r => decide (n.isLeaf = false ∧ n.weightValue = q (21 / 2) ∧
              l.weightValue = q 0 ∧ r.weightValue = q 10)
          | _, _ => false
        | none => false
      | _ => false
    | _ => false) = true := by decide +kernel
  split at this
  · rename_i b' h
    split at this
    · rename_i t ht
      split at this
      · rename_i n hn
        split at this
        · rename_i l r hl hr
          obtain ⟨h1, h2, h3, h4⟩ := of_decide_eq_true this
          exact ⟨b', t, n, l, r, boundPlain rfl rfl rfl rfl le_rfl rfl rfl rfl rfl ⟨_, rfl⟩ rfl rfl rfl rfl
            (by decide +kernel) h, rfl, rfl, ht, hn, h1, hl, hr, h2, h3, h4⟩
        · cases this
      · cases this
    · cases this
  · cases this

/-- The hypotheses of the partial theorem are met, and the bounding changes values: the right child of the
root would have value 9 without the flag, but has value 10 like the root. -/
example : ∃ b' t n l r, PlainFit exEnv { exForcedNone with maxDepth := 1 } boundZ [0, 9, 9, 9, 6, 27]
      (List.replicate 6 (1 : ℚ)) none b' 0 0 0 1 ∧
      b'.trees = [t] ∧ t.nodes[0]? = some n ∧ n.isLeaf = false ∧
      t.nodes[n.leftChild]? = some l ∧ t.nodes[n.rightChild]? = some r ∧
      n.weightValue = FX.fin 10 ∧ l.weightValue = FX.fin 0 ∧ r.weightValue = FX.fin 10 := by
  have : (match { exForcedNone with maxDepth := 1 }.fit exEnv boundZ ([0, 9, 9, 9, 6, 27].map q) (List.replicate 6 (q 1)) none with
    | .ok (b', .ok ()) =>
      match b'.trees with
      | [t] =>
        match t.nodes[0]? with
        | some n =>
          match t.nodes[n.leftChild]?, t.nodes[n.rightChild]? with
          | some l, some r => decide (n.isLeaf = false ∧ n.weightValue = q 10 ∧
              l.weightValue = q 0 ∧ r.weightValue = q 10)
          | _, _ => false
        | none => false
      | _ => false
    | _ => false) = true := by decide +kernel
  split at this
  · rename_i b' h
    split at this
    · rename_i t ht
      split at this
      · rename_i n hn
        split at this
        · rename_i l r hl hr
          obtain ⟨h1, h2, h3, h4⟩ := of_decide_eq_true this
          exact ⟨b', t, n, l, r, boundPlain rfl rfl rfl rfl le_rfl rfl rfl rfl rfl ⟨_, rfl⟩ rfl rfl rfl rfl
            (by decide +kernel) h, ht, hn, h1, hl, hr, h2, h3, h4⟩
        · cases this
      · cases this
    · cases this
  · cases this

end Verif
