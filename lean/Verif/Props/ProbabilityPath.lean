import Mathlib.Analysis.SpecialFunctions.Sigmoid
import Verif.Props.Contrib
import Verif.Props.LogLossDescent
import Verif.Spec.ProbPath

/-!
# C147: ProbabilityChange contributions follow the path
-/

set_option linter.unusedSectionVars false

namespace Verif

open scoped Verif

section any
variable {F D : Type} [Fl F] [Fl D] [FlCast F D]

theorem contribWalk_chance {nodes : List (Node F D)} {row : List D} {missing lo : D} {entry : Nat → Option D}
    (hrow : ∀ f, idx row f = Res.ofOption (entry f)) {i : Nat} {steps : List (Step F D)}
    (hp : Path nodes entry missing i steps) {leaf : Node F D} (hr : Route nodes entry missing i leaf) {fuel : Nat}
    (hf : steps.length < fuel) (cs : List D) (hcs : cs.length = row.length + 1) :
    ∃ cs', contribWalk nodes row missing (deltaProb nodes lo) fuel i cs = .ok (cs', leaf) ∧
      cs'.length = cs.length ∧ (∀ s ∈ steps, s.node.splitFeature < row.length) ∧
      ∀ f : Nat, cs'[f]? = (cs[f]?).map fun a => steps.foldl (Step.addChance lo f) a := by
  induction hp generalizing fuel cs with
  | @leaf i n h1 h2 =>
    obtain ⟨fuel, rfl⟩ : ∃ f, fuel = f + 1 := ⟨fuel - 1, by omega⟩
    have : leaf = n := by
      cases hr with
      | leaf g1 g2 => rw [h1] at g1; cases g1; rfl
      | step g1 g2 => rw [h1] at g1; cases g1; simp_all
    refine ⟨cs, by simp [contribWalk, idx_eq_ok.2 h1, h2, this], rfl, by simp, fun f => ?_⟩
    simp
  | @step i n c l r v steps h1 h2 h3 h4 h5 h6 h7 h8 ih =>
    obtain ⟨fuel, rfl⟩ : ∃ f, fuel = f + 1 := ⟨fuel - 1, by omega⟩
    have hr' : Route nodes entry missing (n.childFor missing v) leaf := by
      cases hr with
      | leaf g1 g2 => rw [h1] at g1; cases g1; simp_all
      | step g1 g2 g3 g4 g5 =>
        rw [h1] at g1; cases g1
        rw [h3] at g3; cases g3
        exact g5
    have hv : idx row n.splitFeature = .ok v := by rw [hrow, h3]; rfl
    have hflt := lt_of_idx_eq_ok hv
    have hcslt : n.splitFeature < cs.length := by omega
    simp only [List.length_cons] at hf
    obtain ⟨cs', e1, e2, e3, e4⟩ := ih hr' (fuel := fuel) (by omega)
      (cs.set n.splitFeature (cs[n.splitFeature] +
        (chance (up c.weightValue + lo) - chance (up n.weightValue + lo)))) (by simpa using hcs)
    refine ⟨cs', ?_, by simpa using e2, ?_, fun f => ?_⟩
    · rw [contribWalk]
      simp only [idx_eq_ok.2 h1, Res.ok_bind, h2, hv, getChildIdx_eq, h4, if_true, deltaProb, idx_eq_ok.2 h5,
        Bool.false_eq_true, if_false, addAt, idx_of_lt hcslt]
      exact e1
    · intro s' hs'
      rcases List.mem_cons.1 hs' with rfl | hs'
      · exact hflt
      · exact e3 s' hs'
    · rw [e4 f, List.getElem?_set]
      by_cases h : n.splitFeature = f
      · subst h
        rw [if_pos rfl, if_pos hcslt, List.getElem?_eq_getElem hcslt]
        simp [Step.addChance]
      · rw [if_neg h]
        simp [Step.addChance, h]

theorem foldl_addChance_of_ne (lo : D) (f : Nat) (steps : List (Step F D)) (a : D)
    (h : ∀ s ∈ steps, s.node.splitFeature ≠ f) : steps.foldl (Step.addChance lo f) a = a := by
  induction steps generalizing a with
  | nil => rfl
  | cons s steps ih =>
    rw [List.foldl_cons, show Step.addChance lo f a s = a from if_neg (h s (by simp))]
    exact ih a fun s hs => h s (by simp [hs])

theorem fold_visits {ts : List (Tree F D)} {row : List D} {missing : D} {entry : Nat → Option D}
    (hrow : ∀ f, idx row f = Res.ofOption (entry f)) (hwf : ∀ t ∈ ts, t.Wf) {ls : List (Node F D)}
    (hl : Leaves ts entry missing ls) (cs : List D) (lo : D) (hcs : cs.length = row.length + 1) :
    ∃ cs' lo', Res.foldM' (fun (s : List D × D) (t : Tree F D) => t.contribProb row s.1 missing s.2) (cs, lo) ts =
        .ok (cs', lo') ∧
      cs'.length = cs.length ∧ ∃ vs : List (Visit F D), Visits entry missing lo ts vs ∧
        (∀ f : Nat, f < row.length → cs'[f]? = (cs[f]?).map fun a => vs.foldl (Visit.addTo f) a) ∧
        cs'[row.length]? = (cs[row.length]?).map fun a => vs.foldl Visit.addBias a := by
  unfold Leaves at hl
  induction hl generalizing cs lo with
  | nil => exact ⟨cs, lo, rfl, rfl, [], .nil, by simp, by simp⟩
  | @cons t l ts ls h1 _ ih =>
    obtain ⟨k, hk⟩ := h1.exists_n
    obtain ⟨p, hp, e⟩ := path_of_route (hwf t (by simp)) hk
    have hroot : ∃ n : Node F D, t.nodes[0]? = some n := by
      cases h1 with
      | leaf h => exact ⟨_, h⟩
      | step h => exact ⟨_, h⟩
    obtain ⟨root, hroot⟩ := hroot
    have hlast : row.length < cs.length := by omega
    obtain ⟨c1, w1, w2, w3, w4⟩ := contribWalk_chance (lo := lo) hrow hp h1 (e ▸ hk.lt_length)
      (cs.set row.length (cs[row.length] + (chance (lo + up root.weightValue) - chance lo))) (by simpa using hcs)
    rw [List.length_set] at w2
    obtain ⟨c2, lo2, v1, v2, vs, v3, v5, v6⟩ := ih (fun t ht => hwf t (by simp [ht])) c1 (lo + up l.weightValue)
      (by omega)
    refine ⟨c2, lo2, ?_, by omega, _ :: vs, .cons hroot hp h1 v3, fun f hf => ?_, ?_⟩
    · rw [Res.foldM'_cons]
      have : t.contribProb row cs missing lo = .ok (c1, lo + up l.weightValue) := by
        rw [Tree.contribProb, idx_eq_ok.2 hroot]
        have h' : cs.length - 1 = row.length := by omega
        have h'' : (odds : D → D) = chance := rfl
        simp only [Res.ok_bind, _root_.Verif.addBias, addAt, h', idx_of_lt hlast, h'', w1]
      simp only [this]
      exact v1
    · rw [v5 f hf, w4 f, List.getElem?_set, if_neg (by omega), Option.map_map]
      rfl
    · rw [v6, w4, List.getElem?_set, if_pos rfl, if_pos hlast, List.getElem?_eq_getElem hlast]
      simp only [Option.map_some, List.foldl_cons, Option.some.injEq]
      rw [foldl_addChance_of_ne _ _ _ _ fun s hs => (w3 s hs).ne]
      rfl

/-- C147.  Any arithmetic.  For a LogLoss model and method ProbabilityChange: the entry of feature `f` is 0 to which
the changes of the probability at the steps that test `f` are added, tree by tree and step by step, where the log odds
of the trees before are added to the values of the nodes.  The last entry is the probability of the base score to which
the changes from before each tree to its root are added. -/
theorem C147_path (b : Booster F D) (ho : b.objectiveType = .logLoss) (data : Matrix D) (hd : data.Shaped)
    (hwf : ∀ t ∈ b.trees, t.Wf) (out : List D) (h : b.predict data = .ok out) :
    ∃ rows : List (List D), b.predictContributions data .probabilityChange = .ok rows.flatten ∧
      rows.length = data.rows ∧ ∀ (i : Nat) (r : List D), rows[i]? = some r →
        r.length = data.cols + 1 ∧ ∃ vs : List (Visit F D),
          Visits (data.entry i) b.missing b.baseScore (b.trees.take b.used) vs ∧
          (∀ f, f < data.cols → r[f]? = some (vs.foldl (Visit.addTo f) 0)) ∧
          r[data.cols]? = some (vs.foldl Visit.addBias (0 + chance b.baseScore)) := by
  rw [C19_prediction_iteration] at h
  obtain ⟨h1, h2, h3⟩ := h
  have hmem : ∀ t, t ∈ b.trees.take b.used → t ∈ b.trees := fun t ht => List.mem_of_mem_take ht
  have row : ∀ i, i < data.rows → ∃ r : List D,
      contribsRowProb b (b.trees.take b.used) data i = .ok r ∧ r.length = data.cols + 1 ∧
      ∃ vs : List (Visit F D),
          Visits (data.entry i) b.missing b.baseScore (b.trees.take b.used) vs ∧
          (∀ f, f < data.cols → r[f]? = some (vs.foldl (Visit.addTo f) 0)) ∧
          r[data.cols]? = some (vs.foldl Visit.addBias (0 + chance b.baseScore)) := by
    intro i hi
    obtain ⟨ls, hls, -⟩ := h3 i _ (List.getElem?_eq_getElem (by omega : i < out.length))
    obtain ⟨r, hr, hlen, hrow⟩ := getRow_entry hd hi
    obtain ⟨cs, lo, hcs, hl, vs, hv, hf, hbias⟩ := fold_visits hrow
      (fun t ht => hwf t (hmem t ht)) hls (initContribs data.cols (odds b.baseScore)) b.baseScore
      (by simp [initContribs, hlen])
    refine ⟨cs, by rw [contribsRowProb, hr, Res.ok_bind, hcs]; rfl, ?_, vs, hv, ?_, ?_⟩
    · rw [hl]; simp [initContribs]
    · intro f hf'
      rw [hf f (by omega), initContribs, List.getElem?_append_left (by simpa using hf'),
        List.getElem?_replicate, if_pos hf']; rfl
    · rw [← hlen, hbias, hlen, initContribs, List.getElem?_append_right (by simp)]
      simp only [List.length_replicate, Nat.sub_self, List.getElem?_cons_zero, Option.map_some]
      rfl
  obtain ⟨rows, hrows⟩ : ∃ rs, Res.mapM' (contribsRowProb b (b.trees.take b.used) data) data.index =
      .ok rs := Res.mapM'_exists fun i hi => by
        rw [Matrix.index, List.mem_range] at hi
        obtain ⟨r, hr, -⟩ := row i hi; exact ⟨r, hr⟩
  have hf := Res.mapM'_eq_ok.1 hrows
  rw [forall₂_index] at hf
  refine ⟨rows, ?_, hf.1, fun i r hr => ?_⟩
  · rw [Booster.predictContributions, Booster.contribRows]
    simp only [ho, predictionTrees_eq_ok.2 (⟨h1, rfl⟩ : _ ∧ b.trees.take b.used = _), Res.ok_bind, hrows]
  · have hi : i < data.rows := by rw [← hf.1]; exact (List.getElem?_eq_some_iff.1 hr).1
    obtain ⟨r', e, h⟩ := row i hi
    have := hf.2 i r hr
    rw [e] at this; cases this
    exact h

end any

section real

theorem chance_fin (x : ℝ) : (chance (.fin x) : R) = .fin (Real.sigmoid x) := by
  have := C14_logistic x
  rw [one_div, ← Real.sigmoid_def] at this
  exact this

/-- The logistic function is flat. -/
theorem sigmoid_sub_le (a b : ℝ) : |Real.sigmoid a - Real.sigmoid b| ≤ |a - b| / 4 := by
  have := Convex.norm_image_sub_le_of_norm_deriv_le (f := Real.sigmoid) (s := Set.univ) (C := 1 / 4)
    (x := b) (y := a) (fun x _ => differentiableAt_sigmoid) (fun x _ => by
      rw [Real.deriv_sigmoid, Real.norm_eq_abs, abs_le]
      have h1 := Real.sigmoid_pos x
      have h2 := Real.sigmoid_lt_one x
      constructor
      · nlinarith
      · nlinarith [sq_nonneg (Real.sigmoid x - 1 / 2)]) convex_univ trivial trivial
  rw [Real.norm_eq_abs, Real.norm_eq_abs] at this
  linarith

/-- The changes of the node value at the steps that test `f`. -/
noncomputable def Visit.changes (f : Nat) (v : Visit R R) : List ℝ :=
  (v.steps.filter fun s => s.node.splitFeature = f).map fun s => s.child.weightValue.val - s.node.weightValue.val

theorem addChance_fin {nodes : List (Node R R)} (hv : ∀ n ∈ nodes, n.weightValue.IsFin) {row : Nat → Option R}
    {missing : R} {i : Nat} {steps : List (Step R R)} (hp : Path nodes row missing i steps) (lo a : ℝ) (f : Nat) :
    ∃ d : ℝ, steps.foldl (Step.addChance (.fin lo) f) (.fin a) = .fin (a + d) ∧
      |d| ≤ ((((steps.filter fun s => s.node.splitFeature = f).map fun s =>
        s.child.weightValue.val - s.node.weightValue.val).map (|·|)).sum) / 4 ∧
      ((∀ s ∈ steps, s.node.splitFeature = f → s.node.weightValue.val ≤ s.child.weightValue.val) → 0 ≤ d) ∧
      ((∀ s ∈ steps, s.node.splitFeature = f → s.child.weightValue.val ≤ s.node.weightValue.val) → d ≤ 0) := by
  induction hp generalizing a with
  | leaf => exact ⟨0, by simp, by simp, by simp, by simp⟩
  | @step i n c l r v steps h1 h2 h3 h4 h5 h6 h7 h8 ih =>
    obtain ⟨x, hx⟩ := hv n (List.mem_of_getElem? h1)
    obtain ⟨y, hy⟩ := hv c (List.mem_of_getElem? h5)
    rw [List.foldl_cons]
    by_cases e : n.splitFeature = f
    · obtain ⟨d, e1, e2, e3, e4⟩ := ih (a + (Real.sigmoid (y + lo) - Real.sigmoid (x + lo)))
      refine ⟨Real.sigmoid (y + lo) - Real.sigmoid (x + lo) + d, ?_, ?_, fun h => ?_, fun h => ?_⟩
      · rw [Step.addChance, if_pos e]
        simp only [hx, hy, FX.up_fin, FX.fin_add, chance_fin, FX.fin_sub]
        rw [e1, add_assoc]
      · rw [List.filter_cons_of_pos (by simpa using e)]
        rw [List.map_cons, List.map_cons, List.sum_cons]
        have h0 : |c.weightValue.val - n.weightValue.val| = |y - x| := by rw [hx, hy]; rfl
        have h1 := sigmoid_sub_le (y + lo) (x + lo)
        rw [show y + lo - (x + lo) = y - x by ring] at h1
        have h2 := abs_add_le (Real.sigmoid (y + lo) - Real.sigmoid (x + lo)) d
        refine h2.trans ?_
        rw [add_div]
        refine add_le_add (h1.trans_eq ?_) e2
        rw [← h0]
      · have g := e3 fun s hs => h s (List.mem_cons_of_mem _ hs)
        have := h _ List.mem_cons_self e
        simp only [hx, hy, FX.val] at this
        have := Real.sigmoid_le (show x + lo ≤ y + lo by linarith)
        linarith
      · have g := e4 fun s hs => h s (List.mem_cons_of_mem _ hs)
        have := h _ List.mem_cons_self e
        simp only [hx, hy, FX.val] at this
        have := Real.sigmoid_le (show y + lo ≤ x + lo by linarith)
        linarith
    · obtain ⟨d, e1, e2, e3, e4⟩ := ih a
      refine ⟨d, ?_, ?_, fun h => e3 fun s hs => h s (List.mem_cons_of_mem _ hs),
        fun h => e4 fun s hs => h s (List.mem_cons_of_mem _ hs)⟩
      · rw [Step.addChance, if_neg e, e1]
      · rw [List.filter_cons_of_neg (by simpa using e)]
        exact e2

theorem visits_fin {row : Nat → Option R} {missing : R} {ts : List (Tree R R)} (hv : ∀ t ∈ ts, t.FiniteValues)
    {lo : ℝ} {vs : List (Visit R R)} (h : Visits row missing (.fin lo) ts vs) (a : ℝ) (f : Nat) :
    ∃ d : ℝ, vs.foldl (Visit.addTo f) (.fin a) = .fin (a + d) ∧
      |d| ≤ ((vs.flatMap (Visit.changes f)).map (|·|)).sum / 4 ∧
      ((∀ v ∈ vs, ∀ x ∈ v.changes f, 0 ≤ x) → 0 ≤ d) ∧ ((∀ v ∈ vs, ∀ x ∈ v.changes f, x ≤ 0) → d ≤ 0) := by
  generalize hl : (FX.fin lo : R) = l at h
  induction h generalizing lo a with
  | nil => exact ⟨0, by simp, by simp, by simp, by simp⟩
  | @cons l t ts root leaf steps vs h1 h2 h3 h4 ih =>
    subst hl
    have hleaf : leaf.weightValue.IsFin := by
      have : ∀ {j : Nat} {l : Node R R}, Route t.nodes row missing j l → l.weightValue.IsFin := by
        intro j l h
        induction h with
        | leaf a b => exact hv t (by simp) _ (List.mem_of_getElem? a)
        | step _ _ _ _ _ ih => exact ih
      exact this h3
    obtain ⟨w, hw⟩ := hleaf
    obtain ⟨d, e1, e2, e3, e4⟩ := addChance_fin (hv t (by simp)) h2 lo a f
    obtain ⟨d', f1, f2, f3, f4⟩ := ih (fun t ht => hv t (by simp [ht])) (a + d) (lo := lo + w) (by
      rw [hw, FX.up_fin, FX.fin_add])
    refine ⟨d + d', ?_, ?_, fun h => ?_, fun h => ?_⟩
    · rw [List.foldl_cons, Visit.addTo]
      simp only
      rw [e1, f1, add_assoc]
    · rw [List.flatMap_cons, List.map_append, List.sum_append, add_div]
      exact (abs_add_le _ _).trans (add_le_add e2 f2)
    · refine add_nonneg (e3 fun s hs hf => ?_) (f3 fun v hv => h v (List.mem_cons_of_mem _ hv))
      have := h _ List.mem_cons_self _ (List.mem_map.2 ⟨s, List.mem_filter.2 ⟨hs, by simpa using hf⟩, rfl⟩)
      linarith
    · refine add_nonpos (e4 fun s hs hf => ?_) (f4 fun v hv => h v (List.mem_cons_of_mem _ hv))
      have := h _ List.mem_cons_self _ (List.mem_map.2 ⟨s, List.mem_filter.2 ⟨hs, by simpa using hf⟩, rfl⟩)
      linarith

/-- C147, size and sign.  Real arithmetic, with the real exponential.  The contribution of a feature to the probability
is at most a quarter of the sum of the sizes of the changes of the node values at the steps that test the feature.  When
none of these steps lowers the node value, the contribution is not negative; when none raises it, it is not positive. -/
theorem C147_bound (b : Booster R R) (ho : b.objectiveType = .logLoss) (data : Matrix R) (hd : data.Shaped)
    (hwf : ∀ t ∈ b.trees, t.Wf) (hv : ∀ t ∈ b.trees, t.FiniteValues) (hb : b.baseScore.IsFin) (out : List R)
    (h : b.predict data = .ok out) :
    ∃ rows : List (List R), b.predictContributions data .probabilityChange = .ok rows.flatten ∧
      rows.length = data.rows ∧ ∀ (i : Nat) (r : List R), rows[i]? = some r →
        r.length = data.cols + 1 ∧ ∃ vs : List (Visit R R),
          Visits (data.entry i) b.missing b.baseScore (b.trees.take b.used) vs ∧
          ∀ f, f < data.cols → ∃ d : ℝ, r[f]? = some (.fin d) ∧
            |d| ≤ ((vs.flatMap (Visit.changes f)).map (|·|)).sum / 4 ∧
            ((∀ v ∈ vs, ∀ x ∈ v.changes f, 0 ≤ x) → 0 ≤ d) ∧ ((∀ v ∈ vs, ∀ x ∈ v.changes f, x ≤ 0) → d ≤ 0) := by
  obtain ⟨rows, e, hl, H⟩ := C147_path b ho data hd hwf out h
  obtain ⟨base, hb⟩ := hb
  refine ⟨rows, e, hl, fun i r hr => ?_⟩
  obtain ⟨hlen, vs, h1, h2, -⟩ := H i r hr
  refine ⟨hlen, vs, h1, fun f hf => ?_⟩
  rw [hb] at h1
  obtain ⟨d, e1, e2, e3, e4⟩ := visits_fin (fun t ht => hv t (List.mem_of_mem_take ht)) h1 0 f
  refine ⟨d, ?_, e2, e3, e4⟩
  rw [h2 f hf, FX.zero_def, e1, zero_add]

end real

/-! ### The hypotheses are met -/

/-- Two trees, three rows, finite values; the contributions exist. -/
example : ∃ out r, exBooster.objectiveType = .logLoss ∧ exData.Shaped ∧ (∀ t ∈ exBooster.trees, t.Wf) ∧
    exBooster.predict exData = .ok out ∧ exBooster.predictContributions exData .probabilityChange = .ok r ∧
    r.length = 9 := by
  have : (match exBooster.predict exData, exBooster.predictContributions exData .probabilityChange with
    | .ok _, .ok r => decide (r.length = 9)
    | _, _ => false) = true := by decide +kernel
  split at this
  · rename_i out r h1 h2
    exact ⟨out, r, rfl, rfl, exBooster_wf, h1, h2, of_decide_eq_true this⟩
  · cases this

/-- A node in real arithmetic. -/
noncomputable def realNode (num : Nat) (w : ℝ) (isLeaf : Bool) (l r : Nat) : Node R R :=
  { num, weightValue := .fin w, hessianSum := .fin 1, depth := 0, splitValue := .fin 1, splitFeature := 0
    splitGain := .fin 1, missingNode := l, leftChild := l, rightChild := r, isLeaf }

/-- A stump that takes the log odds from 0 to -1 or 2. -/
noncomputable def realStump : Tree R R :=
  { nodes := [realNode 0 0 false 1 2, realNode 1 (-1) true 0 0, realNode 2 2 true 0 0] }

/-- A LogLoss model in real arithmetic that meets the hypotheses, and whose row goes to the right. -/
example : ∃ (b : Booster R R) (data : Matrix R) (out : List R), b.objectiveType = .logLoss ∧ data.Shaped ∧
    data.rows = 1 ∧ b.trees = [realStump] ∧ (∀ t ∈ b.trees, t.Wf) ∧ (∀ t ∈ b.trees, t.FiniteValues) ∧
    b.baseScore.IsFin ∧ b.predict data = .ok out := by
  refine ⟨{ pairBooster 1 1 with trees := [realStump] }, { data := [.fin 3], rows := 1, cols := 1 },
    [.fin (Real.log 99) + up (realNode 2 2 true 0 0).weightValue], rfl, rfl, rfl, rfl, ?_, ?_, ⟨_, rfl⟩, ?_⟩
  · intro t ht
    rw [List.mem_singleton.1 ht]
    exact Tree.wf_of_check _ rfl
  · intro t ht
    rw [List.mem_singleton.1 ht]
    intro n hn
    simp only [realStump, List.mem_cons, List.not_mem_nil, or_false] at hn
    rcases hn with rfl | rfl | rfl <;> exact ⟨_, rfl⟩
  · rw [C19_prediction_iteration]
    refine ⟨le_rfl, rfl, fun i v hv => ?_⟩
    cases i with
    | succ i => simp at hv
    | zero =>
      cases hv
      refine ⟨[realNode 2 2 true 0 0], .cons ?_ .nil, rfl⟩
      refine .step (v := .fin 3) (n := realNode 0 0 false 1 2) rfl rfl rfl (.inl rfl) ?_
      have : (realNode 0 0 false 1 2).childFor (.nan : R) (.fin 3) = 2 := by
        have h1 : ¬IsMissing (.nan : R) (.fin 3) := fun h => by simp [IsMissing] at h
        have h2 : ((.fin 3 : R) <ᶠ .fin 1) = false := by
          show decide ((3 : ℝ) < 1) = false
          norm_num
        rw [Node.childFor, if_neg h1]
        show (if ((.fin 3 : R) <ᶠ .fin 1) = true then 1 else 2) = 2
        rw [h2]
        rfl
      have e : ({ pairBooster 1 1 with trees := [realStump] } : Booster R R).missing = .nan := rfl
      rw [e, this]
      exact .leaf rfl rfl

end Verif
