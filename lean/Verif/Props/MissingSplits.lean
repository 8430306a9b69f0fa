import Verif.Props.Range

/-!
# C106: splits that only separate missing values

Without `allow_missing_splits`, and always with a separate branch for missing values, both sides of every
split hold training rows that have a value of the split feature.
-/

namespace Verif

open scoped Verif

set_option linter.unusedSectionVars false

section
variable {K : Type} [Field K] [LinearOrder K] [IsStrictOrderedRing K] {m32 m64 : Fmt K}
  [m32.Exact] [m64.Exact]

variable {S : Sorter} {X : Matrix (FX m64)} {w : List K} {nbins : Nat} {missing : FX m64}
  {gv hv : Nat → K} {c : GrowCfg (FX m32) (FX m64)} {sm : SampleMethod} {rows : List Nat}
  {t : Tree (FX m32) (FX m64)}

/-- The row has a value of the split feature of `n`, and the value is (`below = true`) or is not
(`below = false`) below the split value. -/
def presentOn (X : Matrix (FX m64)) (missing : FX m64) (n : Node (FX m32) (FX m64)) (below : Bool) (r : Nat) :
    Bool :=
  match X.entry r n.splitFeature with
  | some v => decide (¬ IsMissing missing v) && ((v <ᶠ n.splitValue) == below)
  | none => false

/-- The splitter never accepts a split that only separates missing values. -/
def Splitter.NeedsBoth {F : Type} (s : Splitter F) : Prop :=
  ∀ p, s = .imputer p → p.allowMissingSplits = false

theorem imputerEvaluateSplit_both {F : Type} [Fl F] {p : SplitParams F} {a : SplitArgs F} {x}
    (h : imputerEvaluateSplit p a = some x) (hp : p.allowMissingSplits = false) :
    (a.lh <ᶠ p.minLeafWeight) = false ∧ (a.rh <ᶠ p.minLeafWeight) = false := by
  unfold imputerEvaluateSplit at h
  split at h
  · cases h
  · simp only [hp, Bool.not_false, Bool.true_and] at h
    split at h
    · cases h
    · rename_i hc
      simp only [Bool.or_eq_true, not_or, Bool.not_eq_true] at hc
      exact ⟨hc.2, hc.1⟩

theorem evaluateSplit_both {F : Type} [Fl F] {s : Splitter F} {a : SplitArgs F} {x}
    (h : s.evaluateSplit a = .ok (some x)) (hs : s.NeedsBoth) :
    (a.lh <ᶠ s.params.minLeafWeight) = false ∧ (a.rh <ᶠ s.params.minLeafWeight) = false := by
  cases s with
  | imputer p =>
    simp only [Splitter.evaluateSplit, Res.ok.injEq] at h
    exact imputerEvaluateSplit_both h (hs p rfl)
  | branch p =>
    obtain ⟨l, r, m⟩ := x
    obtain ⟨_, _, _, h1, h2, _⟩ := branchEvaluateSplit_some h
    exact ⟨h1, h2⟩

/-- **C106** (partial: exact arithmetic).  Without `allow_missing_splits`, or with a branch for missing values,
the training rows that reach a split and have a value of its feature below the split value have a sum of
hessians that is not less than `min_leaf_weight`; so have those whose value is not below.  Full claim: also for
the arithmetic of the program; it is false, see `C106_counterexample`. -/
theorem C106_tree_partial (h : TrainedOn S X w nbins missing gv hv c sm rows)
    (hf : Tree.fit c sm rows = .ok t) (hs : c.splitter.NeedsBoth)
    {i : Nat} {n : Node (FX m32) (FX m64)} (hn : t.nodes[i]? = some n) (hl : n.isLeaf = false)
    (below : Bool) :
    (FX.fin (((rowsAt t X missing rows i).filter (presentOn X missing n below)).map hv).sum
      <ᶠ c.splitter.params.minLeafWeight) = false := by
  obtain ⟨o, gs, nodes, hV⟩ := h.view hf
  obtain ⟨g, info, k, kids, hI⟩ := hV.cert.internal hV.shape hn hl
  obtain ⟨f, cu, b, mr, hF⟩ := hV.splitFacts h hI
  obtain ⟨l, r, hev, _⟩ := hF.eval
  obtain ⟨k1, k2⟩ := evaluateSplit_both hev hs
  have key : ∀ r ∈ g.rows, presentOn X missing n below r =
      [if below then BinSide.left else .right].contains (binSide (b + 1) (f.getD r 0)) := by
    intro r hr
    obtain ⟨v, e1, e2, e3, e4⟩ := h.rawOk _ hF.mem f cu hF.col hF.cuts r (hV.lt _ _ hI.ghost r hr)
    unfold presentOn binSide
    rw [hI.feature, e1, hI.value]
    by_cases hm : IsMissing missing v
    · rw [if_pos (e3 hm)]
      cases below <;> simp [hm]
    · have hlt := hF.lt
      obtain ⟨a1, a2⟩ := e4 hm (by omega)
      have a3 := a2 b _ hF.value
      rw [if_neg a1]
      by_cases hb : f.getD r 0 < b + 1
      · rw [if_pos hb]
        have := a3.1 hb
        cases below <;> simp [hm, this]
      · rw [if_neg hb]
        have : (v <ᶠ info.splitValue) = false := by
          rw [← Bool.not_eq_true]; exact fun h' => hb (a3.2 h')
        cases below <;> simp [hm, this]
  have hsum : (((rowsAt t X missing rows i).filter (presentOn X missing n below)).map hv).sum =
      rowSum hv (rowsOn f (b + 1) [if below then BinSide.left else .right] g.rows) := by
    rw [((hV.rowsAt h.nodup hI.ghost).filter _).map hv |>.sum_eq, rowSum, rowsOn,
      List.filter_congr key]
  rw [hsum]
  cases below with
  | true => exact k1
  | false => exact k2

/-- **C106** (partial: exact arithmetic) for whole boosters.  Without `allow_missing_splits`, or with a branch
for missing values, for every split of every fitted tree there are training rows that reach it with a value of
its feature on either side of the split value.  Full claim: also for the arithmetic of the program; it is
false, see `C106_counterexample`. -/
theorem C106_present_partial {R : Type} {env : Env R (FX m32) (FX m64)} {b b' : Booster (FX m32) (FX m64)}
    {y : List K} {ev : Option (List (EvalSet (FX m64)))} {l1 l2 mds lr : K}
    (h : PlainFit env b X y w ev b' l1 l2 mds lr)
    (hs : b.createMissingBranch = true ∨ b.allowMissingSplits = false) (ht : t ∈ b'.trees) {i : Nat}
    {n : Node (FX m32) (FX m64)} (hn : t.nodes[i]? = some n) (hl : n.isLeaf = false) :
    (∃ r < X.rows, ∃ v, Reaches t.nodes (X.entry r) b.missing i ∧ X.entry r n.splitFeature = some v ∧
      ¬ IsMissing b.missing v ∧ (v <ᶠ n.splitValue) = true) ∧
    (∃ r < X.rows, ∃ v, Reaches t.nodes (X.entry r) b.missing i ∧ X.entry r n.splitFeature = some v ∧
      ¬ IsMissing b.missing v ∧ (v <ᶠ n.splitValue) = false) := by
  obtain ⟨binned, p, k, cfg, rows, hA⟩ := h.tree_mem ht
  have hnb : cfg.splitter.NeedsBoth := by
    rw [hA.treeAt.fitted.splitter]
    intro p hp
    rcases hs with hs | hs
    · rw [splitter_branch hs] at hp; cases hp
    · have := splitter_params b
      rw [hp] at this
      simp only [Splitter.params] at this
      rw [this]; exact hs
  have key : ∀ below, ∃ r < X.rows, ∃ v, Reaches t.nodes (X.entry r) b.missing i ∧
      X.entry r n.splitFeature = some v ∧ ¬ IsMissing b.missing v ∧ (v <ᶠ n.splitValue) = below := by
    intro below
    have hk := C106_tree_partial hA.trained hA.treeAt.fitted.fit hnb hn hl below
    cases he : (rowsAt t X b.missing rows i).filter (presentOn X b.missing n below) with
    | nil =>
      rw [he] at hk
      have := hA.trained.pos
      rw [List.map_nil, List.sum_nil] at hk
      rw [FX.zero_def] at this
      rw [this] at hk; cases hk
    | cons r rs =>
      have hr : r ∈ (rowsAt t X b.missing rows i).filter (presentOn X b.missing n below) := by
        rw [he]; simp
      obtain ⟨h1, h2⟩ := List.mem_filter.1 hr
      unfold rowsAt at h1
      rw [List.mem_filter] at h1
      unfold presentOn at h2
      split at h2
      · rename_i v hv
        rw [Bool.and_eq_true, decide_eq_true_eq, beq_iff_eq] at h2
        exact ⟨r, hA.trained.rows_lt r h1.1, v, by simpa using h1.2, hv, h2⟩
      · cases h2
  exact ⟨key true, key false⟩

end

/-! ### No `l2` -/

section
variable {K : Type} [Field K] [LinearOrder K] [IsStrictOrderedRing K] {m32 m64 : Fmt K}

theorem nan_add' (x : FX m32) : (FX.nan : FX m32) + x = FX.nan := by cases x <;> rfl

theorem add_nan' (x : FX m32) : x + (FX.nan : FX m32) = FX.nan := by cases x <;> rfl

theorem mul_nan' (x : FX m32) : x * (FX.nan : FX m32) = FX.nan := by cases x <;> rfl

theorem sub_nan' (x : FX m32) : x - (FX.nan : FX m32) = FX.nan := by cases x <;> rfl

theorem nan_lt' (x : FX m32) : ((FX.nan : FX m32) <ᶠ x) = false := by cases x <;> rfl

theorem lt_nan' (x : FX m32) : (x <ᶠ (FX.nan : FX m32)) = false := by cases x <;> rfl

/-- Without `l2` the gain of a side without gradients and hessians is not a number. -/
theorem gain_empty [hm : m32.Rounds] {p : SplitParams (FX m32)} {a : SplitArgs (FX m32)} (h2 : p.l2 = 0)
    (h1 : (0 ≤ᶠ p.l1) = true) : gainGivenWeight p.l2 0 0 (p.cw a 0 0) = FX.nan := by
  have hl : l1Regularization 0 p.l1 = 0 := by
    unfold l1Regularization
    rw [FX.zero_def] at h1 ⊢
    cases hp : p.l1 with
    | nan => rw [hp] at h1; cases h1
    | ninf => rw [hp] at h1; cases h1
    | pinf => rfl
    | fin x =>
      rw [hp] at h1
      simp only [FX.le_fin, decide_eq_true_eq] at h1
      simp only [FX.feq_fin, FX.lt_fin, FX.neg_fin, decide_eq_true_eq]
      split
      · rfl
      · rw [if_neg (by linarith), if_neg (by linarith)]
  have hz : (0 : FX m32) + 0 = 0 := by
    show FX.rd ((0 : K) + 0) = FX.fin 0
    rw [add_zero, FX.rd, hm.zero]; rfl
  have hd : (0 : FX m32) / 0 = FX.nan := by
    show (if (0 : K) = 0 then FX.sinf (0 : K) else _) = FX.nan
    rw [if_pos rfl]; unfold FX.sinf; simp
  have hw : weight p.l1 p.l2 p.maxDeltaStep 0 0 = FX.nan := by
    unfold weight
    rw [hl, h2, hz, hd]
    show (if (!(p.maxDeltaStep =ᶠ 0) && (p.maxDeltaStep <ᶠ (FX.nan : FX m32))) = true then _ else FX.nan) = _
    rw [lt_nan', Bool.and_false]; rfl
  have hc : p.cw a 0 0 = FX.nan := by
    unfold SplitParams.cw constrainedWeight
    simp only [hw, lt_nan', nan_lt', Bool.false_eq_true, if_false, ite_self]
  unfold gainGivenWeight
  rw [hc, mul_nan', nan_add']
  rfl

/-- **C107.**  In any arithmetic that rounds like the standard: with `l2 = 0` a candidate whose left bins hold
no gradient and no hessian is refused, even with `allow_missing_splits`. -/
theorem C107_candidate [hm : m32.Rounds] {p : SplitParams (FX m32)} {a : SplitArgs (FX m32)} (h2 : p.l2 = 0)
    (h1 : (0 ≤ᶠ p.l1) = true) (hw : (0 <ᶠ p.minLeafWeight) = true) (hg : a.lg = 0) (hh : a.lh = 0) :
    imputerEvaluateSplit p a = none := by
  have hn : gainGivenWeight p.l2 a.lg a.lh (p.cw a a.lg a.lh) = FX.nan := by
    rw [hg, hh]; exact gain_empty h2 h1
  unfold imputerEvaluateSplit
  split
  · rfl
  · simp only [hn, sub_nan', lt_nan', Bool.false_eq_true, if_false]
    split
    · rfl
    · split
      all_goals simp only [hh, hw, Bool.or_true, if_true]

variable [m32.Exact] [m64.Exact] {X : Matrix (FX m64)} {w : List K} {t : Tree (FX m32) (FX m64)}

/-- **C107.**  In exact arithmetic, when missing values are imputed and `l2 = 0`, every split of a fitted tree
is reached by training rows with a value of its feature below the split value: the missing values never get a
left child of their own, even with `allow_missing_splits`. -/
theorem C107_left_present {R : Type} {env : Env R (FX m32) (FX m64)} {b b' : Booster (FX m32) (FX m64)}
    {y : List K} {ev : Option (List (EvalSet (FX m64)))} {l1 mds lr : K}
    (h : PlainFit env b X y w ev b' l1 0 mds lr) (hl1 : 0 ≤ l1) (ht : t ∈ b'.trees) {i : Nat}
    {n : Node (FX m32) (FX m64)} (hn : t.nodes[i]? = some n) (hl : n.isLeaf = false) :
    ∃ r < X.rows, ∃ v, Reaches t.nodes (X.entry r) b.missing i ∧ X.entry r n.splitFeature = some v ∧
      ¬ IsMissing b.missing v ∧ (v <ᶠ n.splitValue) = true := by
  by_cases hb : b.createMissingBranch = true
  · exact (C106_present_partial h (.inl hb) ht hn hl).1
  obtain ⟨binned, p, k, cfg, rows, hA⟩ := h.tree_mem ht
  have hT := hA.trained
  obtain ⟨o, gs, nodes, hV⟩ := hT.view hA.treeAt.fitted.fit
  obtain ⟨g, info, k, kids, hI⟩ := hV.cert.internal hV.shape hn hl
  obtain ⟨f, cu, bn, mr, hF⟩ := hV.splitFacts hT hI
  obtain ⟨l, r, hev, _⟩ := hF.eval
  have hsp := hA.treeAt.fitted.splitter
  have hpar := splitter_params b
  cases hs : cfg.splitter with
  | branch q =>
    rw [hs] at hsp
    unfold Booster.splitter at hsp
    simp only [Bool.not_eq_true] at hb
    simp only [hb, Bool.false_eq_true, if_false] at hsp
    cases hsp
  | imputer q =>
    rw [hs] at hsp hev
    rw [← hsp] at hpar
    simp only [Splitter.params] at hpar
    simp only [Splitter.evaluateSplit, Res.ok.injEq] at hev
    by_contra hne
    have hempty : rowsOn f (bn + 1) [.left] g.rows = [] := by
      rw [List.eq_nil_iff_forall_not_mem]
      intro r hr
      rw [rowsOn, List.mem_filter] at hr
      obtain ⟨hr, hside⟩ := hr
      obtain ⟨v, e1, e2, e3, e4⟩ := hT.rawOk _ hF.mem f cu hF.col hF.cuts r (hV.lt _ _ hI.ghost r hr)
      have hrr := hV.sub _ _ hI.ghost r hr
      unfold binSide at hside
      by_cases h0 : f.getD r 0 = 0
      · rw [if_pos h0] at hside; cases hside
      rw [if_neg h0] at hside
      by_cases h1 : f.getD r 0 < bn + 1
      · have hm : ¬ IsMissing b.missing v := fun hm => h0 (e3 hm)
        have hlt := hF.lt
        exact hne ⟨r, hT.rows_lt r hrr, v, (hV.reaches i g hI.ghost r hrr).2 hr, by rw [hI.feature]; exact e1,
          hm, by rw [hI.value]; exact ((e4 hm (by omega)).2 bn _ hF.value).1 h1⟩
      · rw [if_neg h1] at hside; cases hside
    rw [C107_candidate (by rw [hpar]; exact h.l2_eq)
      (by rw [hpar]; show (0 ≤ᶠ b.l1) = true; rw [h.l1_eq]; simpa [FX.zero_def] using hl1)
      (by rw [hpar]; exact h.minLeafWeight)
      (by show FX.fin (rowSum _ (rowsOn f (bn + 1) [.left] g.rows)) = 0; rw [hempty]; rfl)
      (by show FX.fin (rowSum _ (rowsOn f (bn + 1) [.left] g.rows)) = 0; rw [hempty]; rfl)] at hev
    cases hev

end

/-! ### The flag matters -/

/-- One column; the last two of six rows have no value. -/
def msX : Matrix Q := { data := [q 1, q 2, q 1, q 2, FX.nan, FX.nan], rows := 6, cols := 1 }

/-- Boosters with and without `allow_missing_splits`. -/
def msB (allow : Bool) : Booster Q Q :=
  { exFresh with allowMissingSplits := allow, iterations := 1, l2 := q 1, initializeBaseScore := false }

/-- Targets that depend on whether there is a value, and less on the value. -/
def msY : List ℚ := [0, 1, 0, 1, 9, 9]

/-- **C106**: the flag matters.  With `allow_missing_splits` the root of this fit is a split at the least
value of the column: no row has a value below it, and its left child is for the two rows without a value.
Without the flag, the root is split elsewhere. -/
theorem C106_allowed :
    (∃ b' t n, PlainFit exEnv (msB true) msX msY (List.replicate 6 (1 : ℚ)) none b' 0 1 0 (1 / 2) ∧
      b'.trees = [t] ∧ t.nodes[0]? = some n ∧ n.isLeaf = false ∧ n.splitFeature = 0 ∧
      n.splitValue = q 1 ∧ n.missingNode = n.leftChild ∧
      ∀ v ∈ msX.data, IsMissing b'.missing v ∨ (v <ᶠ n.splitValue) = false) ∧
    (∃ b' t n, PlainFit exEnv (msB false) msX msY (List.replicate 6 (1 : ℚ)) none b' 0 1 0 (1 / 2) ∧
      b'.trees = [t] ∧ t.nodes[0]? = some n ∧ n.isLeaf = false ∧ n.splitFeature = 0 ∧
      n.splitValue = q 2) := by
  constructor
  · have : (match (msB true).fit exEnv msX (msY.map q) exW none with
      | .ok (b', .ok ()) =>
        match b'.trees with
        | [t] =>
          match t.nodes[0]? with
          | some n => decide (n.isLeaf = false ∧ n.splitFeature = 0 ∧
              n.splitValue = q 1 ∧ n.missingNode = n.leftChild ∧
              ∀ v ∈ msX.data, IsMissing b'.missing v ∨ (v <ᶠ n.splitValue) = false)
          | _ => false
        | _ => false
      | _ => false) = true := by decide +kernel
    split at this
    · rename_i b' hf
      split at this
      · rename_i t ht
        split at this
        · rename_i n hn
          exact ⟨b', t, n, boundPlain rfl rfl rfl rfl (by norm_num) rfl rfl rfl rfl ⟨_, rfl⟩ rfl rfl rfl rfl
            (by decide +kernel) hf, ht, hn, of_decide_eq_true this⟩
        · cases this
      · cases this
    · cases this
  · have : (match (msB false).fit exEnv msX (msY.map q) exW none with
      | .ok (b', .ok ()) =>
        match b'.trees with
        | [t] =>
          match t.nodes[0]? with
          | some n => decide (n.isLeaf = false ∧ n.splitFeature = 0 ∧ n.splitValue = q 2)
          | _ => false
        | _ => false
      | _ => false) = true := by decide +kernel
    split at this
    · rename_i b' hf
      split at this
      · rename_i t ht
        split at this
        · rename_i n hn
          exact ⟨b', t, n, boundPlain rfl rfl rfl rfl (by norm_num) rfl rfl rfl rfl ⟨_, rfl⟩ rfl rfl rfl rfl
            (by decide +kernel) hf, ht, hn, of_decide_eq_true this⟩
        · cases this
      · cases this
    · cases this

/-- **C107**: the case matters.  `allow_missing_splits` is on and the targets depend mostly on whether there is a
value; with `l2 = 0` the only split of the fit is at 2, and its right child, a leaf, holds the rows without a
value together with half of the others.  With `l2 = 1` they are split off, see `C106_allowed`. -/
theorem C107_witness : ∃ b' t n, PlainFit exEnv { msB true with l2 := q 0 } msX msY
      (List.replicate 6 (1 : ℚ)) none b' 0 0 0 (1 / 2) ∧
    b'.trees = [t] ∧ t.nodes.length = 3 ∧ t.nodes[0]? = some n ∧ n.isLeaf = false ∧ n.splitFeature = 0 ∧
    n.splitValue = q 2 ∧ n.missingNode = n.rightChild := by
  have : (match { msB true with l2 := q 0 }.fit exEnv msX (msY.map q) exW none with
    | .ok (b', .ok ()) =>
      match b'.trees with
      | [t] =>
        match t.nodes[0]? with
        | some n => decide (t.nodes.length = 3 ∧ n.isLeaf = false ∧ n.splitFeature = 0 ∧
            n.splitValue = q 2 ∧ n.missingNode = n.rightChild)
        | _ => false
      | _ => false
    | _ => false) = true := by decide +kernel
  split at this
  · rename_i b' hf
    split at this
    · rename_i t ht
      split at this
      · rename_i n hn
        obtain ⟨h1, h2⟩ := of_decide_eq_true this
        exact ⟨b', t, n, boundPlain rfl rfl rfl rfl (by norm_num) rfl rfl rfl rfl ⟨_, rfl⟩ rfl rfl rfl rfl
          (by decide +kernel) hf, ht, h1, hn, h2⟩
      · cases this
    · cases this
  · cases this

/-! ### Floating point -/

/-- **C106** is false in floating point.  `allow_missing_splits` is off and there is nothing missing; node 1 is
a split of the second column at 3; none of the training rows with a second value of 3 or more is in the left
child of the root, node 1. -/
theorem C106_counterexample : ∃ b b' t n, wB = some b ∧
    { b with allowMissingSplits := false }.fit floatEnv wX wY wW none = .ok (b', .ok ()) ∧ b'.trees = [t] ∧
    (0 <ᶠ b.minLeafWeight) = true ∧ b.createMissingBranch = false ∧
    t.nodes[1]? = some n ∧ n.isLeaf = false ∧ n.splitFeature = 1 ∧ n.splitValue = f64 3 ∧
    (∀ v ∈ wX.data, ¬ IsMissing b'.missing v) ∧
    ∀ r < wX.rows, ∀ v, wX.entry r 1 = some v → (v <ᶠ n.splitValue) = false →
      ¬ Reaches t.nodes (wX.entry r) b'.missing 1 := by
  have : (match wB with
    | some b =>
      match { b with allowMissingSplits := false }.fit floatEnv wX wY wW none with
      | .ok (b', .ok ()) =>
        match b'.trees with
        | [t] =>
          match t.nodes[1]? with
          | some n => decide ((0 <ᶠ b.minLeafWeight) = true ∧ b.createMissingBranch = false ∧
              n.isLeaf = false ∧ n.splitFeature = 1 ∧ n.splitValue = f64 3 ∧
              (∀ v ∈ wX.data, ¬ IsMissing b'.missing v) ∧
              ∀ r ∈ List.range wX.rows, ∀ v ∈ wX.entry r 1, (v <ᶠ n.splitValue) = false →
                ∀ m ∈ t.nodes, m.isLeaf = false → ∀ x ∈ wX.entry r m.splitFeature,
                  m.childFor b'.missing x ≠ 1)
          | _ => false
        | _ => false
      | _ => false
    | none => false) = true := by decide +kernel
  split at this
  · rename_i b hb
    split at this
    · rename_i b' hf
      split at this
      · rename_i t ht
        split at this
        · rename_i n hn
          obtain ⟨h1, h2, h3, h4, h5, h6, h7⟩ := of_decide_eq_true this
          refine ⟨b, b', t, n, hb, hf, ht, h1, h2, hn, h3, h4, h5, h6, fun r hr v hv hlt hre => ?_⟩
          have hk := h7 r (List.mem_range.2 hr) v hv hlt
          generalize hj : 1 = j at hre
          cases hre with
          | root => cases hj
          | step _ a2 a3 a4 _ => exact hk _ (List.mem_of_getElem? a2) a3 _ a4 hj.symm
        · cases this
      · cases this
    · cases this
  · cases this

end Verif
