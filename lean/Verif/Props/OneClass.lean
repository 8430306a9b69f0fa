import Verif.Props.Settled
import Verif.Props.DefaultMetric
import Verif.Props.Json

/-!
# C132: labels of one class

With the logistic loss and a computed base score, labels of one class give an infinite base score.  No tree changes
it, all predictions are this class with certainty, the log loss of these right predictions is NaN, and the saved model
cannot be loaded.
-/

namespace Verif

open scoped Verif

set_option linter.unusedSectionVars false

section
variable {K : Type} [Field K] [LinearOrder K] [IsStrictOrderedRing K] {m32 m64 : Fmt K} [h32 : m32.Rounds]
  [h64 : m64.Rounds] [m32.Embeds m64]

/-- The label of a class: 1 or 0. -/
def labelOf (m : Fmt K) (c : Bool) : FX m := FX.fin (if c then 1 else 0)

/-- The log odds of a class that is certain. -/
def certain (m : Fmt K) (c : Bool) : FX m := if c then FX.pinf else FX.ninf

/-- Usable weights: finite numbers of the format. -/
def UsableWeights {m : Fmt K} (w : List (FX m)) : Prop := ∀ x ∈ w, ∃ q, x = FX.fin q ∧ m.rnd q = .fin q

theorem initSums_one {c : Bool} : ∀ (y w : List (FX m64)) (k : Nat) (v : List (FX m64)) (a : FX m64),
    (∀ x ∈ y, x = labelOf m64 c) → v.drop k = w → w.length = y.length → UsableWeights w → a.InFormat →
    Res.foldM' (fun (s : FX m64 × FX m64) (p : FX m64 × Nat) => do
      let wi ← idx v p.2
      .ok (s.1 + wi * p.1, s.2 + wi)) (if c then a else 0, a) (y.zipIdx k) =
      .ok (if c then w.foldl (· + ·) a else 0, w.foldl (· + ·) a)
  | [], w, k, v, a, _, _, hl, _, _ => by
    have : w = [] := List.length_eq_zero_iff.1 hl
    subst this; rfl
  | y :: ys, [], k, v, a, _, _, hl, _, _ => by simp at hl
  | y :: ys, x :: w, k, v, a, hy, hv, hl, hw, ha => by
    obtain ⟨q, rfl, hq⟩ := hw x (by simp)
    have hk : v[k]? = some (FX.fin q) := by
      have := congrArg (fun l : List (FX m64) => l[0]?) hv
      simpa using this
    rw [List.zipIdx_cons, Res.foldM'_cons]
    simp only [idx, hk, Res.ofOption_some, Res.ok_bind]
    have hstep : ((if c then a else 0) + FX.fin q * y : FX m64) = if c then a + FX.fin q else 0 := by
      rw [hy y (by simp), labelOf]
      cases c with
      | true =>
        have : (FX.fin q * FX.fin 1 : FX m64) = FX.fin q := by
          change FX.rd (q * 1) = _
          rw [mul_one, FX.rd, hq]; rfl
        simp [this]
      | false =>
        have : (FX.fin q * FX.fin 0 : FX m64) = 0 := by
          change FX.rd (q * 0) = _
          rw [mul_zero]; exact FX.rd_zero
        simp only [Bool.false_eq_true, if_false, this]
        exact FX.zero_add_zero
    rw [hstep]
    exact initSums_one ys w (k + 1) v (a + FX.fin q) (fun x hx => hy x (by simp [hx]))
      (by rw [← List.drop_drop, hv]; rfl) (by simpa using hl) (fun x hx => hw x (by simp [hx]))
      (FX.add_inFormat _ _)

theorem foldl_add_inFormat {m : Fmt K} [m.Rounds] : ∀ (w : List (FX m)) (a : FX m), a.InFormat →
    (w.foldl (· + ·) a).InFormat
  | [], _, h => h
  | _ :: w, _, _ => foldl_add_inFormat w _ (FX.add_inFormat _ _)

/-- **C132** (base score).  The computed log odds of labels of one class are infinite: in floating point arithmetic,
for weights whose sum is positive and does not overflow. -/
theorem C132_init {c : Bool} {y w : List (FX m64)} {s : K} (hy : ∀ x ∈ y, x = labelOf m64 c)
    (hl : w.length = y.length) (hw : UsableWeights w) (hs : w.foldl (· + ·) (0 : FX m64) = FX.fin s) (hpos : 0 < s) :
    calcInit .logLoss y w = .ok (certain m64 c) := by
  unfold calcInit initSums
  have h0 : (0 : FX m64).InFormat := by
    intro q e
    cases e; exact h64.zero
  have := initSums_one (c := c) y w 0 w 0 hy rfl hl hw h0
  have e0 : ((0 : FX m64), (0 : FX m64)) = (if c then 0 else 0, 0) := by simp
  rw [e0, this, Res.ok_bind, hs]
  cases c with
  | true =>
    simp only [if_true, certain]
    have : (FX.fin s - FX.fin s : FX m64) = FX.fin 0 := by
      change FX.rd (s + -s) = _
      rw [add_neg_cancel]; exact FX.rd_zero
    rw [this]
    have : (FX.fin s / FX.fin 0 : FX m64) = FX.pinf := by
      change (if (0 : K) = 0 then FX.sinf s else _) = _
      rw [if_pos rfl, FX.sinf, if_pos hpos]
    rw [this]; rfl
  | false =>
    simp only [Bool.false_eq_true, if_false, certain]
    have hin : m64.rnd s = .fin s := foldl_add_inFormat w 0 h0 s hs
    have : (FX.fin s - 0 : FX m64) = FX.fin s := by
      change FX.rd (s + -0) = _
      rw [neg_zero, add_zero, FX.rd, hin]; rfl
    rw [this]
    have : ((0 : FX m64) / FX.fin s : FX m64) = FX.fin 0 := by
      change (if s = 0 then FX.sinf 0 else FX.rd (0 / s)) = _
      rw [if_neg hpos.ne', zero_div]; exact FX.rd_zero
    rw [this]
    change Res.ok (if (0 : K) < 0 then FX.nan else if (0 : K) = 0 then FX.ninf else _) = _
    rw [if_neg (lt_irrefl _), if_pos rfl]

/-- The probability of the log odds of a certain class is its label. -/
theorem logistic_certain (h1 : m64.Repr 1) (c : Bool) : logistic (certain m64 c) = labelOf m64 c := by
  cases c with
  | true =>
    change FX.div (FX.fin 1) (FX.add (FX.fin 1) (FX.fin 0)) = _
    have : FX.add (FX.fin 1) (FX.fin 0) = (FX.fin 1 : FX m64) := by
      change FX.rd ((1 : K) + 0) = _
      rw [add_zero, FX.rd, h1]; rfl
    rw [this]
    change (if (1 : K) = 0 then _ else FX.rd ((1 : K) / 1)) = _
    rw [if_neg one_ne_zero, div_one, FX.rd, h1]; rfl
  | false => rfl

/-- At the log odds of a certain class the gradients and the hessians of its rows are zero. -/
theorem one_class_zero (h1 : m64.Repr 1) {c : Bool} {y w : List (FX m64)} (hy : ∀ x ∈ y, x = labelOf m64 c)
    (hw : UsableWeights w) (n : Nat) :
    (∀ x ∈ (calcGradHess (F := FX m32) .logLoss y (List.replicate n (certain m64 c)) w).1, x = 0) ∧
    ∀ x ∈ (calcGradHess (F := FX m32) .logLoss y (List.replicate n (certain m64 c)) w).2, x = 0 := by
  unfold calcGradHess
  simp only [List.unzip_eq_map, List.map_map]
  have key : ∀ t ∈ zip3 y (List.replicate n (certain m64 c)) w,
      t.1 = labelOf m64 c ∧ t.2.1 = certain m64 c ∧ ∃ q, t.2.2 = FX.fin q := by
    rintro ⟨a, b, d⟩ ht
    obtain ⟨ha, hbd⟩ := List.of_mem_zip ht
    obtain ⟨hb, hd⟩ := List.of_mem_zip hbd
    obtain ⟨q, hq, _⟩ := hw d hd
    exact ⟨hy a ha, List.eq_of_mem_replicate hb, q, hq⟩
  have hz : ∀ q : K, (FX.fin 0 * FX.fin q : FX m64) = 0 := by
    intro q
    change FX.rd ((0 : K) * q) = _
    rw [zero_mul]; exact FX.rd_zero
  constructor
  · intro x hx
    obtain ⟨t, ht, rfl⟩ := List.mem_map.1 hx
    obtain ⟨e1, e2, q, e3⟩ := key t ht
    simp only [Function.comp_apply, logLossGrad]
    rw [e1, e2, e3, logistic_certain h1]
    have e4 : (labelOf m64 c - labelOf m64 c : FX m64) = FX.fin 0 := by
      change FX.rd (_ + -_) = _
      rw [add_neg_cancel]; exact FX.rd_zero
    rw [e4, hz]; exact FX.down_zero
  · intro x hx
    obtain ⟨t, ht, rfl⟩ := List.mem_map.1 hx
    obtain ⟨e1, e2, q, e3⟩ := key t ht
    simp only [Function.comp_apply, logLossHess]
    rw [e2, e3, logistic_certain h1]
    have e4 : (labelOf m64 c * (1 - labelOf m64 c) : FX m64) = FX.fin 0 := by
      cases c with
      | true =>
        have : ((1 : FX m64) - labelOf m64 true : FX m64) = FX.fin 0 := by
          change FX.rd ((1 : K) + -1) = _
          rw [add_neg_cancel]; exact FX.rd_zero
        rw [this]
        change FX.rd ((1 : K) * 0) = _
        rw [mul_zero]; exact FX.rd_zero
      | false =>
        have : ((1 : FX m64) - labelOf m64 false : FX m64) = FX.fin 1 := by
          change FX.rd ((1 : K) + -0) = _
          rw [neg_zero, add_zero, FX.rd, h1]; rfl
        rw [this]
        change FX.rd ((0 : K) * 1) = _
        rw [zero_mul]; exact FX.rd_zero
    rw [e4, hz]
    exact FX.down_zero

theorem one_class_settled (h1 : m64.Repr 1) {c : Bool} {y w : List (FX m64)} (hy : ∀ x ∈ y, x = labelOf m64 c)
    (hw : UsableWeights w) (n : Nat) :
    (∀ x ∈ (calcGradHess (F := FX m32) .logLoss y (List.replicate n (certain m64 c)) w).1, x = 0) ∧
    ∀ x ∈ (calcGradHess (F := FX m32) .logLoss y (List.replicate n (certain m64 c)) w).2,
      ((0 : FX m32) ≤ᶠ x) = true := by
  obtain ⟨g1, g2⟩ := one_class_zero (m32 := m32) h1 hy hw n
  refine ⟨g1, fun x hx => ?_⟩
  rw [g2 x hx]
  exact FX.pos0_fin.2 le_rfl

variable {R : Type} {env : Env R (FX m32) (FX m64)} {b b' : Booster (FX m32) (FX m64)} {X : Matrix (FX m64)}
  {y w : List (FX m64)} {ev : Option (List (EvalSet (FX m64)))}

theorem certain_inFormat (m : Fmt K) (c : Bool) : (certain m c).InFormat := by
  intro q e
  cases c <;> cases e

/-- **C132** (the model).  Fit a booster with the logistic loss and a computed base score, without GOSS sampling, to
labels of one class, in floating point arithmetic.  The base score is infinite, all trees are single leaves of value
zero, and every row of every matrix is predicted to be of this class with probability exactly 1 or 0, whatever number
of trees is used. -/
theorem C132_fit (h : b.fit env X y w ev = .ok (b', .ok ())) (hp : Regular b.splitter.params)
    (hgoss : b.sampleMethod ≠ .goss) (hobj : b.objectiveType = .logLoss) (hi : b.initializeBaseScore = true)
    (hyl : y.length = X.rows) (h1 : m64.Repr 1) {c : Bool} {s : K} (hy : ∀ x ∈ y, x = labelOf m64 c)
    (hl : w.length = y.length) (hw : UsableWeights w) (hs : w.foldl (· + ·) (0 : FX m64) = FX.fin s) (hpos : 0 < s) :
    b'.baseScore = certain m64 c ∧ (∀ t ∈ b'.trees, t.IsZero) ∧
      ∀ k ≤ b'.trees.length, ∀ Z : Matrix (FX m64),
        ({ b' with predictionIteration := some k } : Booster (FX m32) (FX m64)).predict Z =
          .ok (List.replicate Z.rows (certain m64 c)) ∧
        (List.replicate Z.rows (certain m64 c)).map logistic = List.replicate Z.rows (labelOf m64 c) := by
  have hbase : b'.baseScore = certain m64 c := by
    obtain ⟨base, binned, st, stop, N, hT⟩ := Booster.fit_trace h
    have hb := hT.base_eq
    rw [if_pos hi, hobj, C132_init hy hl hw hs hpos] at hb
    have hf := hT.final
    unfold Booster.SameParams at hf
    rw [hf]
    exact (Res.ok.inj hb).symm
  have hin : b'.baseScore.InFormat := by rw [hbase]; exact certain_inFormat _ _
  have hpred : ∀ Z : Matrix (FX m64), ({ b' with predictionIteration := some 0 } : Booster (FX m32) (FX m64)).predict Z =
      .ok (List.replicate Z.rows (certain m64 c)) := by
    intro Z
    rw [predict_firstTrees (Nat.zero_le _), hbase]
    rfl
  obtain ⟨g1, g2⟩ := one_class_settled (m32 := m32) h1 hy hw X.rows
  rw [← hobj] at g1 g2
  obtain ⟨h2, h3⟩ := C118_settled h hp hgoss hyl hin (Nat.zero_le _) (hpred X) g1 g2
  refine ⟨hbase, fun t ht => ?_, fun k hk Z => ⟨?_, ?_⟩⟩
  · obtain ⟨k, hk⟩ := List.mem_iff_getElem?.1 ht
    exact h2 k t (Nat.zero_le _) hk
  · rw [h3 k (Nat.zero_le _) hk Z, hpred Z]
  · rw [List.map_replicate, logistic_certain h1]

/-- The log loss of one certain and right prediction is NaN: zero times the logarithm of zero. -/
theorem logLossTerm_certain (h1 : m64.Repr 1) (c : Bool) (w : FX m64) :
    logLossTerm (labelOf m64 c) (certain m64 c) w = FX.nan := by
  unfold logLossTerm
  rw [logistic_certain h1]
  dsimp only
  cases c with
  | true =>
    have e1 : ((1 : FX m64) - labelOf m64 true : FX m64) = FX.fin 0 := by
      change FX.rd ((1 : K) + -1) = _
      rw [add_neg_cancel]; exact FX.rd_zero
    have e2 : Fl.ln (FX.fin 0 : FX m64) = FX.ninf := by
      change (if (0 : K) < 0 then FX.nan else if (0 : K) = 0 then FX.ninf else _) = _
      rw [if_neg (lt_irrefl _), if_pos rfl]
    have e3 : (FX.fin 0 * FX.ninf : FX m64) = FX.nan := by
      change FX.sinf (-0) = _
      simp [FX.sinf]
    rw [e1, e2, e3, FX.add_nan]
    exact FX.nan_mul _
  | false =>
    have e2 : Fl.ln (labelOf m64 false) = FX.ninf := by
      change (if (0 : K) < 0 then FX.nan else if (0 : K) = 0 then FX.ninf else _) = _
      rw [if_neg (lt_irrefl _), if_pos rfl]
    have e3 : (labelOf m64 false * FX.ninf : FX m64) = FX.nan := by
      change FX.sinf (-0) = _
      simp [FX.sinf]
    rw [e2, e3, FX.nan_add]
    exact FX.nan_mul _

/-- **C132** (the metric).  If such a fit monitors the log loss, then the history is NaN at every iteration for every
evaluation set with at least one row of this class, although the prediction of this row is right. -/
theorem C132_history {es : List (EvalSet (FX m64))} (h : b.fit env X y w (some es) = .ok (b', .ok ()))
    (hp : Regular b.splitter.params)
    (hgoss : b.sampleMethod ≠ .goss) (hobj : b.objectiveType = .logLoss) (hi : b.initializeBaseScore = true)
    (hyl : y.length = X.rows) (h1 : m64.Repr 1) {c : Bool} {s : K} (hy : ∀ x ∈ y, x = labelOf m64 c)
    (hl : w.length = y.length) (hw : UsableWeights w) (hs : w.foldl (· + ·) (0 : FX m64) = FX.fin s) (hpos : 0 < s)
    (hm : b.evaluationMetric = none ∨ b.evaluationMetric = some .logLoss)
    (hb : b.trees ≠ [] ∨ b.evaluationHistory = none)
    (hsz : ∀ e ∈ es, e.y.length = e.data.rows ∧ e.w.length = e.data.rows)
    {j i : Nat} {e : EvalSet (FX m64)} (he : es[j]? = some e) (hyi : e.y[i]? = some (labelOf m64 c))
    (ht : b'.trees ≠ []) :
    ∃ H, b'.evaluationHistory = some H ∧ H.rows = b'.trees.length ∧
      ∀ k < b'.trees.length, H.get k j = .ok FX.nan := by
  have hes : es ≠ [] := by rintro rfl; cases he
  obtain ⟨H, g1, g2, _, g3⟩ := C21_history h hes (fun e he => (hsz e he).1) hb ht
  refine ⟨H, g1, g2, fun k hk => ?_⟩
  obtain ⟨p, m, f1, f2, f3⟩ := g3 k j e hk he
  have hmem := List.mem_of_getElem? he
  have hlen : i < e.y.length := (List.getElem?_eq_some_iff.1 hyi).1
  have hpr := ((C132_fit h hp hgoss hobj hi hyl h1 hy hl hw hs hpos).2.2 (k + 1) hk e.data).1
  rw [f1] at hpr
  obtain rfl := Res.ok.inj hpr
  have e1 : b.metric = .logLoss := by
    rw [C89_default, hobj]
    rcases hm with hm | hm <;> rw [hm]
  rw [e1] at f2
  have f2 : Res.ok (logLossMetric e.y (List.replicate e.data.rows (certain m64 c)) e.w) = .ok m := f2
  have hn : logLossMetric e.y (List.replicate e.data.rows (certain m64 c)) e.w = FX.nan := by
    unfold logLossMetric weightedTerms
    dsimp only
    rw [FX.foldl_mem_nan, FX.nan_div]
    rw [List.mem_map]
    have hiw : i < e.w.length := by rw [(hsz e hmem).2, ← (hsz e hmem).1]; exact hlen
    refine ⟨(labelOf m64 c, certain m64 c, e.w[i]), ?_, logLossTerm_certain h1 c _⟩
    apply List.mem_of_getElem? (i := i)
    unfold zip3
    rw [List.getElem?_zip_eq_some, List.getElem?_zip_eq_some]
    refine ⟨hyi, ?_, List.getElem?_eq_getElem hiw⟩
    rw [List.getElem?_replicate, if_pos (by rw [← (hsz e hmem).1]; exact hlen)]
  rw [f3, ← Res.ok.inj f2, hn]

/-- **C132** (saving).  The saved text of such a model cannot be loaded. -/
theorem C132_save (h : b.fit env X y w ev = .ok (b', .ok ())) (hp : Regular b.splitter.params)
    (hgoss : b.sampleMethod ≠ .goss) (hobj : b.objectiveType = .logLoss) (hi : b.initializeBaseScore = true)
    (hyl : y.length = X.rows) (h1 : m64.Repr 1) {c : Bool} {s : K} (hy : ∀ x ∈ y, x = labelOf m64 c)
    (hl : w.length = y.length) (hw : UsableWeights w) (hs : w.foldl (· + ·) (0 : FX m64) = FX.fin s) (hpos : 0 < s) :
    ∃ e, Booster.fromJson b'.jsonDump = .error e := by
  have hbase := (C132_fit h hp hgoss hobj hi hyl h1 hy hl hw hs hpos).1
  cases hd : Booster.fromJson b'.jsonDump with
  | error e => exact ⟨e, rfl⟩
  | ok x =>
    exfalso
    rw [Booster.fromJson, Booster.jsonDump] at hd
    cases hd' : decBooster (.obj (boosterMembers b')) with
    | none => rw [hd'] at hd; cases hd
    | some x' =>
      have := toF64_some (F := FX m32) (decBooster_inv hd').baseScore
      rw [hbase] at this
      cases c <;> cases this

/-! ### Without l2 -/

theorem l1Regularization_zero {l : FX m32} (a : (l <ᶠ 0) = false) : l1Regularization (0 : FX m32) l = 0 := by
  unfold l1Regularization
  cases l with
  | nan => rfl
  | ninf => cases a
  | pinf => rfl
  | fin q =>
    rw [FX.zero_def, FX.lt_fin, decide_eq_false_iff_not, not_lt] at a
    rw [FX.zero_def, FX.feq_fin, FX.lt_fin, FX.neg_fin, FX.lt_fin]
    simp only [decide_eq_true_eq]
    split
    · rfl
    · rw [if_neg (by linarith), if_neg (by linarith)]

/-- The value of a leaf without gradient, hessian and l2 is NaN: zero divided by zero. -/
theorem weight_nan {l1 mds : FX m32} (a : (l1 <ᶠ 0) = false) : weight l1 0 mds 0 0 = FX.nan := by
  unfold weight
  rw [l1Regularization_zero a, FX.zero_add_zero]
  have : (0 / 0 : FX m32) = FX.nan := by
    change (if (0 : K) = 0 then FX.sinf 0 else _) = _
    simp [FX.sinf]
  rw [this]
  cases mds <;> first | rfl | simp [show (-FX.nan : FX m32) = FX.nan from rfl, show Fl.abs (FX.nan : FX m32) = FX.nan from rfl, show ∀ q : K, Fl.lt (FX.fin q : FX m32) FX.nan = false from fun _ => rfl]

theorem addPreds_nan {m : Fmt K} : ∀ (n : Nat) (p : List (FX m)),
    addPreds (List.replicate n FX.nan) p = List.replicate n FX.nan
  | 0, _ => by cases ‹List (FX m)› <;> rfl
  | _ + 1, [] => rfl
  | n + 1, p :: ps => by
    rw [List.replicate_succ, addPreds, FX.nan_add, addPreds_nan n ps]

theorem addPreds_all_nan {m : Fmt K} (x : FX m) : ∀ n : Nat,
    addPreds (List.replicate n x) (List.replicate n FX.nan) = List.replicate n FX.nan
  | 0 => rfl
  | n + 1 => by
    rw [List.replicate_succ, List.replicate_succ, addPreds, FX.add_nan, addPreds_all_nan x n]

theorem predictFold_nan {missing : FX m64} {Z : Matrix (FX m64)} {n : Nat} : ∀ {ts : List (Tree (FX m32) (FX m64))}
    {out : List (FX m64)}, predictFold missing Z (List.replicate n FX.nan) ts = .ok out →
    out = List.replicate n FX.nan
  | [], out, h => by
    simp only [predictFold, Res.foldM', Res.ok.injEq] at h; exact h.symm
  | t :: ts, out, h => by
    unfold predictFold at h
    rw [Res.foldM'_cons, Res.bind_eq_ok] at h
    obtain ⟨acc', h1, h2⟩ := h
    rw [Res.bind_eq_ok] at h1
    obtain ⟨p, _, h1⟩ := h1
    injection h1 with h1
    subst h1
    rw [addPreds_nan] at h2
    exact predictFold_nan h2

theorem predict_leaf {t : Tree (FX m32) (FX m64)} {n : Node (FX m32) (FX m64)} (h1 : t.nodes = [n])
    (h2 : n.isLeaf = true) (Z : Matrix (FX m64)) (missing : FX m64) :
    t.predict Z missing = .ok (List.replicate Z.rows (up n.weightValue)) := by
  have : ∀ i, t.predictLeaf Z i missing = .ok n := by
    intro i
    unfold Tree.predictLeaf
    rw [h1]
    simp [leafFrom, idx, h2]
  unfold Tree.predict Matrix.index
  generalize hl : List.range Z.rows = l
  have hlen : Z.rows = l.length := by rw [← hl]; simp
  rw [hlen]
  clear hl hlen
  induction l with
  | nil => rfl
  | cons i l ih =>
    rw [Res.mapM'_cons, this i, ih]
    simp only [Res.ok_bind]
    rfl

/-- **C132** (without l2).  With l2 = 0 the first tree of such a fit is a single leaf of value NaN, and with this tree all
predictions for all data are NaN. -/
theorem C132_no_l2 (h : b.fit env X y w ev = .ok (b', .ok ())) (hl2 : b.splitter.params.l2 = 0)
    (hl1 : (b.splitter.params.l1 <ᶠ 0) = false) (hgamma : (b.splitter.params.gamma <ᶠ 0) = false)
    (hmlw : ((0 : FX m32) ≤ᶠ b.splitter.params.minLeafWeight) = true)
    (hgoss : b.sampleMethod ≠ .goss) (hobj : b.objectiveType = .logLoss) (hi : b.initializeBaseScore = true)
    (hyl : y.length = X.rows) (h1 : m64.Repr 1) {c : Bool} {s : K} (hy : ∀ x ∈ y, x = labelOf m64 c)
    (hl : w.length = y.length) (hw : UsableWeights w) (hs : w.foldl (· + ·) (0 : FX m64) = FX.fin s) (hpos : 0 < s) :
    (∀ t, b'.trees[0]? = some t → ∃ n, t.nodes = [n] ∧ n.isLeaf = true ∧ n.weightValue = FX.nan) ∧
      ∀ k ≤ b'.trees.length, 0 < k → ∀ (Z : Matrix (FX m64)) (p : List (FX m64)),
        ({ b' with predictionIteration := some k } : Booster (FX m32) (FX m64)).predict Z = .ok p →
        p = List.replicate Z.rows FX.nan := by
  obtain ⟨base, binned, st, stop, N, hT⟩ := Booster.fit_trace h
  have hbase : base = certain m64 c := by
    have hb := hT.base_eq
    rw [if_pos hi, hobj, C132_init hy hl hw hs hpos] at hb
    exact (Res.ok.inj hb).symm
  have hfirst : ∀ t, b'.trees[0]? = some t → ∃ n, t.nodes = [n] ∧ n.isLeaf = true ∧ n.weightValue = FX.nan := by
    intro t ht
    obtain ⟨cfg, rows, hA⟩ := hT.treeAt ht
    obtain ⟨r1, r2, hsm⟩ := hA.sample
    obtain ⟨e1, e2⟩ := sampleIndex_same hgoss hsm
    have hy0 := hT.yhat 0 (Nat.zero_le _)
    have hy0 : (st 0).yhat = List.replicate y.length (certain m64 c) := by
      rw [List.take_zero, hbase] at hy0
      exact (Res.ok.inj hy0).symm
    rw [hy0] at e1 e2
    obtain ⟨g1, g2⟩ := one_class_settled (m32 := m32) h1 hy hw y.length
    rw [← hobj, ← e1] at g1
    rw [← hobj, ← e2] at g2
    have hz : ∀ x ∈ cfg.train.hess, x = 0 := by
      rw [e2, hobj]
      exact (one_class_zero h1 hy hw y.length).2
    have hsp := hA.fitted.splitter
    obtain ⟨n, hs', f1, f2, f3, _, f5⟩ := fit_zero_grad (c := cfg) (by rw [hsp, hl2]; exact FX.NN.zero)
      (by rw [hsp]; exact hgamma) (by rw [hsp]; exact hmlw) g1 g2 hA.fitted.fit
    refine ⟨n, f1, f2, ?_⟩
    rw [f3, f5 hz, hsp]
    rw [hl2, weight_nan hl1, FX.nan_mul]
  refine ⟨hfirst, fun k hk hk0 Z p hp => ?_⟩
  rw [predict_firstTrees hk] at hp
  obtain ⟨t, ts, hts⟩ : ∃ t ts, b'.trees = t :: ts := by
    cases e : b'.trees with
    | nil => rw [e] at hk; simp at hk; omega
    | cons t ts => exact ⟨t, ts, rfl⟩
  obtain ⟨n, f1, f2, f3⟩ := hfirst t (by rw [hts]; rfl)
  obtain ⟨k, rfl⟩ : ∃ k', k = k' + 1 := ⟨k - 1, by omega⟩
  rw [hts, List.take_succ_cons] at hp
  unfold predictFold at hp
  rw [Res.foldM'_cons, predict_leaf f1 f2, Res.ok_bind, f3] at hp
  have e : addPreds (List.replicate Z.rows b'.baseScore) (List.replicate Z.rows (up (FX.nan : FX m32) : FX m64)) =
      List.replicate Z.rows FX.nan := addPreds_all_nan _ _
  rw [e] at hp
  exact predictFold_nan hp

end

/-! ### A concrete case -/

/-- A default booster of three trees: logistic loss, base score computed. -/
def exOneClass : Option (Booster F32 F64) :=
  (Booster.default F32 F64).map fun b =>
    { b with objectiveType := .logLoss, iterations := 3, initializeBaseScore := true }

/-- C132: in floating point, three trees fitted to three rows of class 1 with different weights, with an evaluation set
that has rows of both classes. -/
example : ∃ b r, exOneClass = some b ∧ Regular b.splitter.params ∧ b.sampleMethod ≠ .goss ∧
    b.objectiveType = .logLoss ∧ b.initializeBaseScore = true ∧ b.evaluationMetric = none ∧
    b.evaluationHistory = none ∧
    b.fit floatEnv ⟨[0, 1, 2].map f64, 3, 1⟩ (List.replicate 3 (f64 1)) ([1, 2, 3].map f64)
      (some [⟨⟨[0, 1].map f64, 2, 1⟩, [f64 0, f64 1], [f64 1, f64 1]⟩]) = .ok (r, .ok ()) ∧
    ([1, 2, 3].map f64).foldl (· + ·) (0 : F64) = FX.fin 6 ∧ r.trees.length = 3 := by
  have : (match exOneClass with
    | some b => (match b.fit floatEnv ⟨[0, 1, 2].map f64, 3, 1⟩ (List.replicate 3 (f64 1)) ([1, 2, 3].map f64)
        (some [⟨⟨[0, 1].map f64, 2, 1⟩, [f64 0, f64 1], [f64 1, f64 1]⟩]), b.sampleMethod, b.objectiveType,
        b.evaluationMetric, b.evaluationHistory with
      | .ok (r, .ok ()), .none, .logLoss, .none, .none => decide (r.trees.length = 3 ∧ b.initializeBaseScore = true ∧
            b.splitter.params.l1 = FX.fin 0 ∧ b.splitter.params.l2 = FX.fin 1 ∧
            b.splitter.params.maxDeltaStep = FX.fin 0 ∧ b.splitter.params.gamma = FX.fin 0 ∧
            b.splitter.params.minLeafWeight = FX.fin 1 ∧
            (match b.splitter.params.learningRate with | .fin _ => true | _ => false) = true)
      | _, _, _, _, _ => false)
    | _ => false) = true := by decide +kernel
  split at this
  next b hb =>
    split at this
    next r hr e1 e2 e3 e4 =>
      obtain ⟨g1, g2, f1, f2, f3, f4, f5, f6⟩ := of_decide_eq_true this
      have hreg : Regular b.splitter.params := by
        refine ⟨?_, ?_, ?_, ?_, ?_, ?_, ?_⟩
        · rw [f1]; decide +kernel
        · rw [f2]; decide +kernel
        · rw [f2]
          intro q hq
          cases hq
          decide +kernel
        · rw [f3]; decide +kernel
        · rw [f4]; decide +kernel
        · rw [f5]; decide +kernel
        · split at f6
          next q hq => exact ⟨q, hq⟩
          next => cases f6
      exact ⟨b, r, hb, hreg, (by rw [e1]; exact fun h => by cases h), e2, g2, e3, e4, hr, by decide +kernel, g1⟩
    next => cases this
  next => cases this

/-- C132: one and the weights 1, 2, 3 are numbers of the format. -/
example : f64Fmt.Repr 1 ∧ UsableWeights ([1, 2, 3].map f64 : List F64) := by
  refine ⟨by unfold Fmt.Repr; decide +kernel, ?_⟩
  intro x hx
  simp only [List.map_cons, List.map_nil, List.mem_cons, List.not_mem_nil, or_false] at hx
  rcases hx with hx | hx | hx
  · exact ⟨1, hx.trans (by decide +kernel), by decide +kernel⟩
  · exact ⟨2, hx.trans (by decide +kernel), by decide +kernel⟩
  · exact ⟨3, hx.trans (by decide +kernel), by decide +kernel⟩

/-- C132: the same booster with l2 = 0 predicts NaN. -/
example : (match exOneClass.map fun b => ({ b with l2 := f32 0 } : Booster F32 F64) with
    | some b => (match b.fit floatEnv ⟨[0, 1, 2].map f64, 3, 1⟩ (List.replicate 3 (f64 1)) ([1, 2, 3].map f64) none with
      | .ok (r, .ok ()) => (match r.predict ⟨[0, 1].map f64, 2, 1⟩ with
        | .ok p => decide (r.trees.length = 3 ∧ b.splitter.params.l2 = 0 ∧ p = [FX.nan, FX.nan])
        | _ => false)
      | _ => false)
    | _ => false) = true := by decide +kernel

end Verif
