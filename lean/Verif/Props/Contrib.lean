import Verif.Proofs.ContribRows
import Verif.Spec.RealFmt
import Verif.Proofs.Path
import Verif.Proofs.Sum

/-!
# C12, C13, C14, C59 Contributions
-/

namespace Verif

open scoped Verif

section exact
variable {K : Type} [Field K] [LinearOrder K] {m32 m64 : Fmt K} [m32.Exact] [m64.Exact]

/-- C12.  Exact arithmetic.  When `predict` succeeds, so does `predict_contributions` with method
Weight; it returns one group of `cols + 1` numbers per row, and the sum of the group is the predicted
value of the row. -/
theorem C12_weight_sum (b : Booster (FX m32) (FX m64)) (data : Matrix (FX m64)) (hd : data.Shaped)
    (hv : ∀ t ∈ b.trees, t.FiniteValues) (hb : b.baseScore.IsFin) (out : List (FX m64))
    (h : b.predict data = .ok out) :
    ∃ rows : List (List K), b.predictContributions data .weight = .ok (rows.flatten.map FX.fin) ∧
      (∀ r ∈ rows, r.length = data.cols + 1) ∧ out = rows.map fun r => FX.fin r.sum := by
  rw [C19_prediction_iteration] at h
  obtain ⟨h1, h2, h3⟩ := h
  obtain ⟨base, hbase⟩ := hb
  rw [hbase] at h3
  have hv' : ∀ t ∈ b.trees.take b.used, t.FiniteValues := fun t ht => hv t (List.mem_of_mem_take ht)
  obtain ⟨rows, e, hl, hs⟩ := rows_collect (f := contribsRowAlone b (b.trees.take b.used) .weight data)
    (data.cols + 1) id h2 (by
      intro i o ho
      obtain ⟨ls, hls, rfl⟩ := (h3 i o ho).fin hv'
      have hi : i < data.rows := by rw [← h2]; exact (List.getElem?_eq_some_iff.1 ho).1
      obtain ⟨r, hr, hlen, hrow⟩ := getRow_entry hd hi
      obtain ⟨cs, hcs, hl, hs⟩ := fold_contribs (m := m64) hls (fun l => l.weightValue.val)
        (fun c t => rowPredFn .weight t r c b.missing) (data.cols + 1)
        (fun t l ht hr cs hcs => by
          obtain ⟨cs', e1, e2, e3⟩ := contribWeight_sum (hv' t ht) hrow hr cs (by omega)
          exact ⟨cs', e1, by omega, e3⟩)
        (List.replicate data.cols 0 ++ [base]) (by simp)
      refine ⟨cs, ?_, hl, ?_⟩
      · rw [contribsRowAlone, hr, Res.ok_bind, hbase, initContribs_eq]; exact hcs
      · rw [hs, sum_init]; rfl)
  refine ⟨rows, ?_, hl, by simpa using hs⟩
  rw [Booster.predictContributions, contribRows_alone b data (by simp) (by simp),
    predictionTrees_eq_ok.2 ⟨h1, rfl⟩]
  simp only [Res.ok_bind, e, List.map_flatten]

/-- C13.  The same for method Average, for well-formed trees whose covers are finite and not zero at
internal nodes. -/
theorem C13_average_sum (b : Booster (FX m32) (FX m64)) (data : Matrix (FX m64)) (hd : data.Shaped)
    (hv : ∀ t ∈ b.trees, t.FiniteValues) (hb : b.baseScore.IsFin)
    (hwf : ∀ t ∈ b.trees, t.Wf) (hc : ∀ t ∈ b.trees, t.CoversOk) (out : List (FX m64))
    (h : b.predict data = .ok out) :
    ∃ rows : List (List K), b.predictContributions data .average = .ok (rows.flatten.map FX.fin) ∧
      (∀ r ∈ rows, r.length = data.cols + 1) ∧ out = rows.map fun r => FX.fin r.sum := by
  rw [C19_prediction_iteration] at h
  obtain ⟨h1, h2, h3⟩ := h
  obtain ⟨base, hbase⟩ := hb
  rw [hbase] at h3
  have hmem : ∀ t, t ∈ b.trees.take b.used → t ∈ b.trees := fun t ht => List.mem_of_mem_take ht
  obtain ⟨ws, hws⟩ : ∃ ws, Res.mapM' Tree.distributeLeafWeights (b.trees.take b.used) = .ok ws :=
    Res.mapM'_exists fun t ht => by
      obtain ⟨w, hw, -⟩ := distributeLeafWeights_spec (hwf t (hmem t ht)); exact ⟨w, hw⟩
  have hws' := Res.mapM'_eq_ok.1 hws
  have fold : ∀ {ts : List (Tree (FX m32) (FX m64))} {ws : List (List (FX m64))}
      {row : Nat → Option (FX m64)} {r : List (FX m64)} {ls : List (Node (FX m32) (FX m64))}
      (_ : List.Forall₂ (fun t w => Tree.distributeLeafWeights t = .ok w) ts ws)
      (_ : ∀ t ∈ ts, t ∈ b.trees) (_ : Leaves ts row b.missing ls)
      (_ : ∀ f, idx r f = Res.ofOption (row f)) (cs : List K) (_ : cs.length = r.length + 1),
      ∃ cs' : List K, Res.foldM' (fun c (tw : Tree (FX m32) (FX m64) × List (FX m64)) =>
        tw.1.contribAverage r c tw.2 b.missing) (cs.map FX.fin) (ts.zip ws) = .ok (cs'.map FX.fin) ∧
        cs'.length = r.length + 1 ∧
        cs'.sum = ls.foldl (fun a (l : Node (FX m32) (FX m64)) => a + l.weightValue.val) cs.sum := by
    intro ts ws row r ls hw hm hl hrow
    unfold Leaves at hl
    induction hw generalizing ls with
    | nil => cases hl; intro cs hcs; exact ⟨cs, rfl, hcs, rfl⟩
    | @cons t w ts ws hw _ ih =>
      cases hl with
      | @cons _ l _ ls hl hls =>
        intro cs hcs
        have htm := hm t (by simp)
        obtain ⟨cs', e1, e2, e3⟩ :=
          contribAverage_sum (hwf t htm) (hv t htm) (hc t htm) hw hrow hl cs hcs
        obtain ⟨cs'', e4, e5, e6⟩ := ih (fun t ht => hm t (by simp [ht])) hls cs' e2
        refine ⟨cs'', ?_, e5, ?_⟩
        · simp only [List.zip_cons_cons, Res.foldM'_cons, e1, Res.ok_bind, e4]
        · rw [e6, e3]; rfl
  obtain ⟨rows, e, hl, hs⟩ := rows_collect
    (f := contribsRowAverage b (b.trees.take b.used) ws data)
    (data.cols + 1) id h2 (by
      intro i o ho
      obtain ⟨ls, hls, rfl⟩ := (h3 i o ho).fin fun t ht => hv t (hmem t ht)
      have hi : i < data.rows := by rw [← h2]; exact (List.getElem?_eq_some_iff.1 ho).1
      obtain ⟨r, hr, hlen, hrow⟩ := getRow_entry hd hi
      obtain ⟨cs, hcs, hl, hs⟩ := fold hws' hmem hls hrow (List.replicate data.cols 0 ++ [base])
        (by simp [hlen])
      refine ⟨cs, ?_, by omega, ?_⟩
      · rw [contribsRowAverage, hr, Res.ok_bind, hbase, initContribs_eq]; exact hcs
      · rw [hs, sum_init]; rfl)
  refine ⟨rows, ?_, hl, by simpa using hs⟩
  rw [Booster.predictContributions, Booster.contribRows,
    predictionTrees_eq_ok.2 ⟨h1, rfl⟩]
  simp only [Res.ok_bind, hws, e, List.map_flatten]

/-- C14.  The same for method ProbabilityChange of a LogLoss model: the sums are the logistic transform
`σ` of the predicted log odds. -/
theorem C14_probability_sum (b : Booster (FX m32) (FX m64)) (ho : b.objectiveType = .logLoss)
    (data : Matrix (FX m64)) (hd : data.Shaped) (hv : ∀ t ∈ b.trees, t.FiniteValues) (base : K)
    (hb : b.baseScore = .fin base) (σ : K → K)
    (hσ : ∀ x : K, odds (.fin x : FX m64) = .fin (σ x)) (out : List (FX m64))
    (h : b.predict data = .ok out) :
    ∃ (rows : List (List K)) (ps : List K),
      b.predictContributions data .probabilityChange = .ok (rows.flatten.map FX.fin) ∧
      (∀ r ∈ rows, r.length = data.cols + 1) ∧ out = ps.map FX.fin ∧
      rows.map List.sum = ps.map σ := by
  rw [C19_prediction_iteration] at h
  obtain ⟨h1, h2, h3⟩ := h
  rw [hb] at h3
  have hmem : ∀ t, t ∈ b.trees.take b.used → t ∈ b.trees := fun t ht => List.mem_of_mem_take ht
  have fold : ∀ {ts : List (Tree (FX m32) (FX m64))}
      {row : Nat → Option (FX m64)} {r : List (FX m64)} {ls : List (Node (FX m32) (FX m64))}
      (_ : ∀ t ∈ ts, t ∈ b.trees) (_ : Leaves ts row b.missing ls)
      (_ : ∀ f, idx r f = Res.ofOption (row f)) (cs : List K) (lo : K) (_ : cs.length = r.length + 1),
      ∃ cs' : List K, Res.foldM' (fun (s : List (FX m64) × FX m64) (t : Tree (FX m32) (FX m64)) =>
        t.contribProb r s.1 b.missing s.2) (cs.map FX.fin, .fin lo) ts = .ok (cs'.map FX.fin,
          .fin (ls.foldl (fun a (l : Node (FX m32) (FX m64)) => a + l.weightValue.val) lo)) ∧
        cs'.length = r.length + 1 ∧
        cs'.sum = cs.sum
          + (σ (ls.foldl (fun a (l : Node (FX m32) (FX m64)) => a + l.weightValue.val) lo) - σ lo) := by
    intro ts row r ls hm hl hrow
    unfold Leaves at hl
    induction hl with
    | nil => intro cs lo hcs; exact ⟨cs, rfl, hcs, by simp⟩
    | @cons t l ts ls hl _ ih =>
      intro cs lo hcs
      obtain ⟨cs', e1, e2, e3⟩ :=
        contribProb_sum (hv t (hm t (by simp))) hσ hrow hl cs lo hcs
      obtain ⟨cs'', e4, e5, e6⟩ := ih (fun t ht => hm t (by simp [ht])) cs' (lo + l.weightValue.val) e2
      refine ⟨cs'', ?_, e5, ?_⟩
      · simp only [Res.foldM'_cons, e1, Res.ok_bind, e4, List.foldl_cons]
      · rw [e6, e3, List.foldl_cons]; ring
  obtain ⟨rows, e, hl, hs⟩ := rows_collect (f := contribsRowProb b (b.trees.take b.used) data)
    (data.cols + 1) odds h2 (by
      intro i o ho
      obtain ⟨ls, hls, rfl⟩ := (h3 i o ho).fin fun t ht => hv t (hmem t ht)
      have hi : i < data.rows := by rw [← h2]; exact (List.getElem?_eq_some_iff.1 ho).1
      obtain ⟨r, hr, hlen, hrow⟩ := getRow_entry hd hi
      obtain ⟨cs, hcs, hl, hs⟩ := fold hmem hls hrow (List.replicate data.cols 0 ++ [σ base]) base
        (by simp [hlen])
      refine ⟨cs, ?_, by omega, ?_⟩
      · rw [contribsRowProb, hr, Res.ok_bind, hb, hσ, initContribs_eq, hcs]; rfl
      · rw [hs, sum_init, hσ]; simp)
  have hfin : ∀ o ∈ out, o = FX.fin o.val := by
    intro o ho
    obtain ⟨i, hi, rfl⟩ := List.getElem_of_mem ho
    obtain ⟨ls, -, e⟩ := (h3 i _ (List.getElem?_eq_getElem hi)).fin fun t ht => hv t (hmem t ht)
    rw [e]; rfl
  refine ⟨rows, out.map FX.val, ?_, hl, ?_, ?_⟩
  · rw [Booster.predictContributions, Booster.contribRows]
    simp only [ho, predictionTrees_eq_ok.2 (⟨h1, rfl⟩ : _ ∧ b.trees.take b.used = _), Res.ok_bind, e,
      List.map_flatten]
  · rw [List.map_map]
    conv_lhs => rw [← List.map_id out]
    exact List.map_congr_left fun o ho => by simpa using hfin o ho
  · have := congrArg (List.map FX.val) hs
    simp only [List.map_map] at this
    have e2 : rows.map List.sum = rows.map (FX.val ∘ fun r => (FX.fin r.sum : FX m64)) :=
      List.map_congr_left fun _ _ => rfl
    rw [e2, ← this, List.map_map]
    refine List.map_congr_left fun o ho => ?_
    simp only [Function.comp_apply]
    rw [hfin o ho, hσ]; rfl

/-- C14.  Other objectives are refused. -/
theorem C14_other_objectives {F D : Type} [Fl F] [Fl D] [FlCast F D] (b : Booster F D)
    (ho : b.objectiveType ≠ .logLoss) (data : Matrix D) :
    b.predictContributions data .probabilityChange = .panic := by
  cases h : b.objectiveType with
  | logLoss => exact absurd h ho
  | squaredLoss => simp [Booster.predictContributions, Booster.contribRows, h]

/-- C14.  With the real exponential, `σ` is the logistic function `1 / (1 + e^-x)`. -/
theorem C14_logistic (x : ℝ) : odds (.fin x : R) = .fin (1 / (1 + Real.exp (-x))) := by
  have h : (Fl.exp (.fin (-x)) : R) = .fin (Real.exp (-x)) := rfl
  rw [odds, FX.neg_fin, h, FX.one_def, FX.fin_add, FX.fin_div _ _ (by positivity)]

end exact

section path
variable {F D : Type} [Fl F] [Fl D] [FlCast F D]

/-- C59.  Any arithmetic.  For the three difference methods: the entry of feature `f` is 0 to which the
changes of the steps that test `f` are added, tree by tree and step by step; steps into a missing
branch add nothing; the bias is the base score. -/
theorem C59_difference (m : ContributionsMethod) (hm : IsDifference m) (b : Booster F D)
    (data : Matrix D) (hd : data.Shaped) (hwf : ∀ t ∈ b.trees, t.Wf) (out : List D)
    (h : b.predict data = .ok out) :
    ∃ rows : List (List D), b.predictContributions data m = .ok rows.flatten ∧
      rows.length = data.rows ∧ ∀ (i : Nat) (r : List D), rows[i]? = some r →
        r.length = data.cols + 1 ∧ ∃ paths : List (List (Step F D)),
          List.Forall₂ (fun (t : Tree F D) p => Path t.nodes (data.entry i) b.missing 0 p)
            (b.trees.take b.used) paths ∧
          (∀ f, f < data.cols → r[f]? = some (paths.flatten.foldl (Step.addTo m f) 0)) ∧
          r[data.cols]? = some (0 + b.baseScore) := by
  rw [C19_prediction_iteration] at h
  obtain ⟨h1, h2, h3⟩ := h
  have hmem : ∀ t, t ∈ b.trees.take b.used → t ∈ b.trees := fun t ht => List.mem_of_mem_take ht
  have row : ∀ i, i < data.rows → ∃ r : List D,
      contribsRowAlone b (b.trees.take b.used) m data i = .ok r ∧ r.length = data.cols + 1 ∧
      ∃ paths : List (List (Step F D)),
          List.Forall₂ (fun (t : Tree F D) p => Path t.nodes (data.entry i) b.missing 0 p)
            (b.trees.take b.used) paths ∧
          (∀ f, f < data.cols → r[f]? = some (paths.flatten.foldl (Step.addTo m f) 0)) ∧
          r[data.cols]? = some (0 + b.baseScore) := by
    intro i hi
    obtain ⟨ls, hls, -⟩ := h3 i _ (List.getElem?_eq_getElem (by omega : i < out.length))
    obtain ⟨r, hr, hlen, hrow⟩ := getRow_entry hd hi
    obtain ⟨cs, hcs, hl, paths, hp, hb, hg⟩ := fold_paths hm hrow
      (fun t ht => hwf t (hmem t ht)) hls (initContribs data.cols b.baseScore)
      (by simp [initContribs, hlen])
    refine ⟨cs, by rw [contribsRowAlone, hr, Res.ok_bind]; exact hcs, ?_, paths, hp, ?_, ?_⟩
    · rw [hl]; simp [initContribs]
    · intro f hf
      rw [hg f, initContribs, List.getElem?_append_left (by simpa using hf),
        List.getElem?_replicate, if_pos hf]; rfl
    · rw [hg, initContribs, List.getElem?_append_right (by simp)]
      simp only [List.length_replicate, Nat.sub_self, List.getElem?_cons_zero, Option.map_some]
      rw [foldl_addTo_of_ne]
      intro s hs
      have := hb s hs
      left; omega
  obtain ⟨rows, hrows⟩ : ∃ rs, Res.mapM' (contribsRowAlone b (b.trees.take b.used) m data) data.index =
      .ok rs := Res.mapM'_exists fun i hi => by
        rw [Matrix.index, List.mem_range] at hi
        obtain ⟨r, hr, -⟩ := row i hi; exact ⟨r, hr⟩
  have hf := Res.mapM'_eq_ok.1 hrows
  rw [forall₂_index] at hf
  refine ⟨rows, ?_, hf.1, fun i r hr => ?_⟩
  · have ha : m ≠ .average := by rcases hm with rfl | rfl | rfl <;> simp
    have hp : m ≠ .probabilityChange := by rcases hm with rfl | rfl | rfl <;> simp
    rw [Booster.predictContributions, contribRows_alone b data ha hp,
      predictionTrees_eq_ok.2 ⟨h1, rfl⟩]
    simp only [Res.ok_bind, hrows]
  · have hi : i < data.rows := by rw [← hf.1]; exact (List.getElem?_eq_some_iff.1 hr).1
    obtain ⟨r', e, h⟩ := row i hi
    have := hf.2 i r hr
    rw [e] at this; cases this
    exact h

/-- C59.  So a feature that no step of the row's paths tests, except in steps into a missing branch,
gets 0. -/
theorem C59_untested (m : ContributionsMethod) (f : Nat) (steps : List (Step F D))
    (h : ∀ s ∈ steps, s.node.splitFeature ≠ f ∨ s.toMissing = true) :
    steps.foldl (Step.addTo m f) (0 : D) = 0 := foldl_addTo_of_ne m f steps 0 h

/-- C59.  In exact arithmetic the bias entry is the base score itself. -/
theorem C59_bias {K : Type} [Field K] [LinearOrder K] {m : Fmt K} [m.Exact] (x : FX m) :
    0 + x = x := _root_.Verif.Fl.AddLaws.zero_add x

end path

/-! ### The hypotheses are met -/

example : exData.Shaped := rfl
example : exBooster.baseScore.IsFin := ⟨_, rfl⟩
theorem exBooster_finite : ∀ t ∈ exBooster.trees, t.FiniteValues := by
  intro t ht
  simp only [exBooster, List.mem_cons, List.not_mem_nil, or_false] at ht
  rcases ht with rfl | rfl <;> intro n hn <;>
    simp only [exTree, exTree2, List.mem_cons, List.not_mem_nil, or_false] at hn
  · rcases hn with rfl | rfl | rfl | rfl | rfl | rfl <;> exact ⟨_, rfl⟩
  · rcases hn with rfl | rfl | rfl <;> exact ⟨_, rfl⟩
theorem exBooster_covers : ∀ t ∈ exBooster.trees, t.CoversOk := by
  intro t ht
  simp only [exBooster, List.mem_cons, List.not_mem_nil, or_false] at ht
  rcases ht with rfl | rfl <;> intro n hn <;>
    simp only [exTree, exTree2, List.mem_cons, List.not_mem_nil, or_false] at hn
  · rcases hn with rfl | rfl | rfl | rfl | rfl | rfl <;> exact ⟨_, rfl, by decide⟩
  · rcases hn with rfl | rfl | rfl <;> exact ⟨_, rfl, by decide⟩

theorem exBooster_wf : ∀ t ∈ exBooster.trees, t.Wf := by
  intro t ht
  simp only [exBooster, List.mem_cons, List.not_mem_nil, or_false] at ht
  rcases ht with rfl | rfl
  · exact Tree.wf_of_check _ (by decide +kernel)
  · exact Tree.wf_of_check _ (by decide +kernel)
example (x : ℚ) : odds (.fin x : Q) = .fin (1 / (1 + if 0 ≤ -x then 1 + -x else 1 / (1 - -x))) := by
  have h : (Fl.exp (.fin (-x)) : Q) = .fin (if 0 ≤ -x then 1 + -x else 1 / (1 - -x)) := rfl
  have hp : (0 : ℚ) < if 0 ≤ -x then 1 + -x else 1 / (1 - -x) := by
    split
    · linarith
    · apply one_div_pos.2; linarith
  rw [odds, FX.neg_fin, h, FX.one_def, FX.fin_add, FX.fin_div _ _ (by positivity)]
example : exBooster.predictContributions exData .weight =
    .ok [q (-1/4), q (37/12), q 1, q (3/2), q (-1/3), q 1, q (-1/4), q (-11/12), q 1] := by
  decide +kernel
example : exBooster.predictContributions exData .average =
    .ok [q (-2/15), q (5/3), q (23/10), q (1/5), q (-1/3), q (23/10), q (-2/15), q (-7/3), q (23/10)] := by
  decide +kernel
example : exBooster.predictContributions exData .branchDifference =
    .ok [q (-7/4), q (8/3), q (1/2), q (7/4), q (-2/3), q (1/2), q (-7/4), q (2/3), q (1/2)] := by
  decide +kernel

end Verif
