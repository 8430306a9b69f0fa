import Verif.Proofs.Bounds
import Verif.Props.Cover

/-!
# Fits on finite data stay finite
-/

namespace Verif

open scoped Verif

set_option linter.unusedSectionVars false

section
variable {K : Type} [Field K] [LinearOrder K] [IsStrictOrderedRing K] {m32 m64 : Fmt K}
  [m32.Exact] [m64.Exact]

/-- All node values of a fitted tree are finite. -/
theorem fit_finiteValues {S : Sorter} {X : Matrix (FX m64)} {w : List K} {nbins : Nat} {missing : FX m64}
    {gv hv : Nat → K} {c : GrowCfg (FX m32) (FX m64)} {sm : SampleMethod} {rows : List Nat}
    {t : Tree (FX m32) (FX m64)} (h : TrainedOn S X w nbins missing gv hv c sm rows)
    (hf : Tree.fit c sm rows = .ok t) {l1 l2 mds lr : K} (hP : PlainParams c hv rows l1 l2 mds lr) :
    t.FiniteValues := by
  obtain ⟨o, gs, nodes, hV⟩ := h.view hf
  intro n hn
  obtain ⟨i, hi⟩ := List.mem_iff_getElem?.1 hn
  have hB : Between fun _ : K => True := fun _ _ _ _ _ _ _ => trivial
  have hst := hV.stateIn h hP hB fun _ _ _ => trivial
  obtain ⟨x, hx, _⟩ := hV.valueIn h hP.hess (C := fun _ _ => True) (fun _ => hB) (by
    intro j g hg
    obtain ⟨x, h1, _⟩ := (hst j g hg).weight
    exact ⟨x * lr, by rw [h1, hP.lr_eq, FX.fin_mul], trivial⟩)
    (fun _ _ _ _ _ _ hx => hx) (fun _ _ _ _ _ _ hx => hx) hi
  exact ⟨x, hx⟩

/-- All elements are finite. -/
def AllFin {m : Fmt K} (l : List (FX m)) : Prop := ∀ x ∈ l, ∃ q, x = FX.fin q

/-- All elements are finite and not negative. -/
def AllNonneg {m : Fmt K} (l : List (FX m)) : Prop := ∀ x ∈ l, ∃ q, x = FX.fin q ∧ 0 ≤ q

theorem AllNonneg.fin {m : Fmt K} {l : List (FX m)} (h : AllNonneg l) : AllFin l := fun x hx => by
  obtain ⟨q, h, _⟩ := h x hx
  exact ⟨q, h⟩

theorem AllFin.eq_map {m : Fmt K} {l : List (FX m)} (h : AllFin l) : ∃ v : List K, l = v.map FX.fin := by
  induction l with
  | nil => exact ⟨[], rfl⟩
  | cons x l ih =>
    obtain ⟨q, rfl⟩ := h x (by simp)
    obtain ⟨v, rfl⟩ := ih fun y hy => h y (by simp [hy])
    exact ⟨q :: v, rfl⟩

/-- The numbers of a list of finite numbers. -/
def rowVals {m : Fmt K} (l : List (FX m)) (r : Nat) : K :=
  match l[r]? with
  | some x => x.val
  | none => 0

theorem AllFin.finRows {m : Fmt K} {l : List (FX m)} (h : AllFin l) : FinRows l (rowVals l) := by
  intro r x hx
  obtain ⟨q, rfl⟩ := h x (List.mem_of_getElem? hx)
  unfold rowVals
  rw [hx]; rfl

theorem AllNonneg.rowVals {m : Fmt K} {l : List (FX m)} (h : AllNonneg l) (r : Nat) :
    0 ≤ rowVals l r := by
  unfold Verif.rowVals
  split
  · rename_i x hx
    obtain ⟨q, rfl, hq⟩ := h x (List.mem_of_getElem? hx)
    exact hq
  · exact le_refl _

/-- `exp` of the format is finite and positive. -/
def ExpPos (m : Fmt K) : Prop := ∀ x : K, ∃ e, m.expF x = RV.fin e ∧ 0 < e

theorem logistic_fin (he : ExpPos m64) (x : K) :
    ∃ p, logistic (FX.fin x : FX m64) = FX.fin p ∧ 0 < p ∧ p < 1 := by
  obtain ⟨e, h1, h2⟩ := he (-x)
  have hx : Fl.exp (-(FX.fin x : FX m64)) = FX.fin e := by
    rw [FX.neg_fin]
    show FX.ofRV (m64.expF (-x)) = _
    rw [h1]; rfl
  have hp : (0 : K) < 1 + e := by linarith
  refine ⟨1 / (1 + e), ?_, by positivity, by rw [div_lt_one hp]; linarith⟩
  unfold logistic
  rw [hx]
  simp only [FX.one_def, FX.fin_add, FX.fin_div _ _ hp.ne']

/-- Gradient and hessian of one row. -/
theorem gradHess_fin {o : ObjectiveType} (he : o = .logLoss → ExpPos m64) (y p w : K) (hw : 0 ≤ w) :
    ∃ g h, o.gradOf (FX.fin y : FX m64) (FX.fin p) (FX.fin w) = FX.fin g ∧
      o.hessOf (FX.fin y : FX m64) (FX.fin p) (FX.fin w) = FX.fin h ∧ 0 ≤ h ∧ (0 < w → 0 < h) := by
  cases o with
  | squaredLoss =>
    exact ⟨(p - y) * w, w, by simp [ObjectiveType.gradOf, squaredLossGrad],
      by simp [ObjectiveType.hessOf, squaredLossHess], hw, id⟩
  | logLoss =>
    obtain ⟨q, h1, h2, h3⟩ := logistic_fin (he rfl) p
    refine ⟨(q - y) * w, q * (1 - q) * w, ?_, ?_, ?_, fun h => ?_⟩
    · simp [ObjectiveType.gradOf, logLossGrad, h1]
    · simp [ObjectiveType.hessOf, logLossHess, h1, FX.one_def]
    · have : 0 < 1 - q := by linarith
      positivity
    · have : 0 < 1 - q := by linarith
      positivity

theorem calcGradHess_fin {o : ObjectiveType} (he : o = .logLoss → ExpPos m64) (y p w : List K)
    (hw : ∀ x ∈ w, 0 ≤ x) :
    AllFin (calcGradHess (F := FX m32) o (y.map FX.fin : List (FX m64)) (p.map FX.fin) (w.map FX.fin)).1 ∧
    AllNonneg (calcGradHess (F := FX m32) o (y.map FX.fin : List (FX m64)) (p.map FX.fin)
      (w.map FX.fin)).2 := by
  induction y generalizing p w with
  | nil => simp [calcGradHess, zip3, AllFin, AllNonneg]
  | cons a y ih =>
    cases p with
    | nil => simp [calcGradHess, zip3, AllFin, AllNonneg]
    | cons b p =>
      cases w with
      | nil => simp [calcGradHess, zip3, AllFin, AllNonneg]
      | cons c w =>
        obtain ⟨h1, h2⟩ := ih p w fun x hx => hw x (by simp [hx])
        obtain ⟨g, h, e1, e2, e3, _⟩ := gradHess_fin he a b c (hw c (by simp))
        have key : calcGradHess (F := FX m32) o ((a :: y).map FX.fin : List (FX m64))
            ((b :: p).map FX.fin) ((c :: w).map FX.fin) =
            (FX.fin g :: (calcGradHess (F := FX m32) o (y.map FX.fin : List (FX m64)) (p.map FX.fin)
              (w.map FX.fin)).1, FX.fin h :: (calcGradHess (F := FX m32) o
              (y.map FX.fin : List (FX m64)) (p.map FX.fin) (w.map FX.fin)).2) := by
          unfold calcGradHess zip3
          simp only [List.map_cons, List.zip_cons_cons, List.unzip_cons]
          cases o with
          | logLoss =>
            simp only [ObjectiveType.gradOf, ObjectiveType.hessOf] at e1 e2
            simp only [e1, e2, FX.down_fin]
          | squaredLoss =>
            simp only [ObjectiveType.gradOf, ObjectiveType.hessOf] at e1 e2
            simp only [e1, e2, FX.down_fin]
        rw [key]
        refine ⟨fun x hx => ?_, fun x hx => ?_⟩
        · rcases List.mem_cons.1 hx with rfl | hx
          · exact ⟨g, rfl⟩
          · exact h1 x hx
        · rcases List.mem_cons.1 hx with rfl | hx
          · exact ⟨h, rfl, e3⟩
          · exact h2 x hx

variable {R : Type}

theorem gossLoop_fin {g : Rng R (FX m32) (FX m64)} {f : K} (hf : 0 ≤ f) {sub : FX m64} :
    ∀ (l : List Nat) (r : R) (grad hess : List (FX m32)) u grad' hess' r',
    gossLoop g (FX.fin f) sub r l grad hess = .ok (u, grad', hess', r') → AllFin grad → AllNonneg hess →
    AllFin grad' ∧ AllNonneg hess' := by
  intro l
  induction l with
  | nil =>
    intro r grad hess u grad' hess' r' h h1 h2
    simp only [gossLoop, Res.ok.injEq, Prod.mk.injEq] at h
    obtain ⟨_, rfl, rfl, _⟩ := h
    exact ⟨h1, h2⟩
  | cons i l ih =>
    intro r grad hess u grad' hess' r' h h1 h2
    simp only [gossLoop] at h
    split at h
    · simp only [Res.bind_eq_ok, Prod.exists, Res.ok.injEq, Prod.mk.injEq] at h
      obtain ⟨gi, e1, hi, e2, u', g', h', r'', e3, _, rfl, rfl, _⟩ := h
      rw [idx_eq_ok] at e1 e2
      obtain ⟨x, rfl⟩ := h1 gi (List.mem_of_getElem? e1)
      obtain ⟨y, rfl, hy⟩ := h2 hi (List.mem_of_getElem? e2)
      refine ih _ _ _ _ _ _ _ e3 (fun z hz => ?_) (fun z hz => ?_)
      · rcases List.mem_or_eq_of_mem_set hz with hz | rfl
        · exact h1 z hz
        · exact ⟨x * f, by rw [FX.fin_mul]⟩
      · rcases List.mem_or_eq_of_mem_set hz with hz | rfl
        · exact h2 z hz
        · exact ⟨y * f, by rw [FX.fin_mul], mul_nonneg hy hf⟩
    · exact ih _ _ _ _ _ _ _ h h1 h2

/-- Rates of GOSS that scale by a finite number that is not negative. -/
def GossOk (topRate otherRate : FX m64) : Prop :=
  ∃ a b : K, topRate = FX.fin a ∧ otherRate = FX.fin b ∧ a ≤ 1 ∧ 0 < b

theorem sampleIndex_fin {S : Sorter} {g : Rng R (FX m32) (FX m64)} {sm : SampleMethod} {s : FX m32}
    {a b : FX m64} (hg : sm = .goss → GossOk a b) {r r' : R} {index rows : List Nat}
    {grad hess grad' hess' : List (FX m32)}
    (h : sampleIndex S g sm s a b r index grad hess = .ok (rows, grad', hess', r'))
    (h1 : AllFin grad) (h2 : AllNonneg hess) : AllFin grad' ∧ AllNonneg hess' := by
  unfold sampleIndex at h
  split at h
  · cases h; exact ⟨h1, h2⟩
  · simp only [Res.ok.injEq, Prod.mk.injEq] at h
    obtain ⟨_, rfl, rfl, _⟩ := h
    exact ⟨h1, h2⟩
  · obtain ⟨x, y, rfl, rfl, hx, hy⟩ := hg rfl
    unfold gossSample at h
    simp only [Res.bind_eq_ok, Prod.exists, Res.ok.injEq, Prod.mk.injEq] at h
    obtain ⟨keys, _, used, _, u, g', h', r'', e, _, rfl, rfl, _⟩ := h
    have hf : (down ((1 - (FX.fin x : FX m64)) / FX.fin y) : FX m32) = FX.fin ((1 - x) / y) := by
      rw [FX.one_def, FX.fin_sub, FX.fin_div _ _ hy.ne', FX.down_fin]
    rw [hf] at e
    exact gossLoop_fin (div_nonneg (by linarith) hy.le) _ _ _ _ _ _ _ _ e h1 h2

theorem predict_fin {t : Tree (FX m32) (FX m64)} (ht : t.FiniteValues) {X : Matrix (FX m64)}
    {missing : FX m64} {p : List (FX m64)} (h : t.predict X missing = .ok p) : AllFin p := by
  rw [Tree.predict_eq_ok] at h
  intro x hx
  obtain ⟨j, hj⟩ := List.mem_iff_getElem?.1 hx
  obtain ⟨l, h1, rfl⟩ := h.2 j x hj
  obtain ⟨q, hq⟩ := ht l h1.mem.1
  exact ⟨q, by rw [hq, FX.up_fin]⟩

theorem addPreds_fin {a p : List (FX m64)} (h1 : AllFin a) (h2 : AllFin p) : AllFin (addPreds a p) := by
  intro x hx
  obtain ⟨j, hj⟩ := List.mem_iff_getElem?.1 hx
  rw [getElem?_addPreds] at hj
  split at hj
  · rename_i u v hu hv
    cases hj
    obtain ⟨u', rfl⟩ := h1 u (List.mem_of_getElem? hu)
    obtain ⟨v', rfl⟩ := h2 v (List.mem_of_getElem? hv)
    exact ⟨u' + v', by rw [FX.fin_add]⟩
  · rename_i u hu _
    cases hj
    exact h1 x (List.mem_of_getElem? hu)
  · cases hj

/-- A successful call of `fit` on finite data with finite parameters, such that no division by zero can
occur: either `l2` is positive, or all rows are used and some weight is positive. -/
structure PlainFit (env : Env R (FX m32) (FX m64)) (b : Booster (FX m32) (FX m64)) (X : Matrix (FX m64))
    (y w : List K) (ev : Option (List (EvalSet (FX m64)))) (b' : Booster (FX m32) (FX m64))
    (l1 l2 mds lr : K) : Prop where
  sorter : env.sorter.Ok
  rng : env.rng.Ok
  shaped : X.Shaped
  ylen : y.length = X.rows
  wlen : w.length = X.rows
  max : ∀ v ∈ X.data, ¬ IsMissing b.missing v → (v ≤ᶠ Fl.maxv) = true
  minLeafWeight : (0 <ᶠ b.minLeafWeight) = true
  l1_eq : b.l1 = FX.fin l1
  l2_eq : b.l2 = FX.fin l2
  mds_eq : b.maxDeltaStep = FX.fin mds
  lr_eq : b.learningRate = FX.fin lr
  l2_nonneg : 0 ≤ l2
  positive : 0 < l2 ∨ (b.sampleMethod = .none ∧ ∃ x ∈ w, 0 < x)
  goss : b.sampleMethod = .goss → GossOk b.topRate b.otherRate
  exp : b.objectiveType = .logLoss → ExpPos m64
  base : ∀ s, (if b.initializeBaseScore then
    calcInit b.objectiveType (y.map FX.fin : List (FX m64)) (w.map FX.fin) = .ok s else s = b.baseScore) →
    s.IsFin
  fit : b.fit env X (y.map FX.fin) (w.map FX.fin) ev = .ok (b', .ok ())

variable {env : Env R (FX m32) (FX m64)} {b b' : Booster (FX m32) (FX m64)} {X : Matrix (FX m64)}
  {y w : List K} {ev : Option (List (EvalSet (FX m64)))} {l1 l2 mds lr : K}

/-- Tree `k` of such a fit: it was grown from finite predictions `p` of the earlier trees. -/
structure PlainTree (env : Env R (FX m32) (FX m64)) (b : Booster (FX m32) (FX m64)) (X : Matrix (FX m64))
    (y w : List K) (l1 l2 mds lr : K) (binned : BinnedData (FX m64)) (p : List K) (k : Nat)
    (t : Tree (FX m32) (FX m64)) (cfg : GrowCfg (FX m32) (FX m64)) (rows : List Nat) : Prop where
  treeAt : TreeAt env b X (y.map FX.fin) (w.map FX.fin) binned (p.map FX.fin) k t cfg rows
  len : p.length = X.rows
  trained : TrainedOn env.sorter X w b.nbins b.missing (rowVals cfg.train.grad) (rowVals cfg.train.hess)
    cfg b.sampleMethod rows
  params : PlainParams cfg (rowVals cfg.train.hess) rows l1 l2 mds lr
  values : t.FiniteValues

theorem PlainFit.nonneg (h : PlainFit env b X y w ev b' l1 l2 mds lr) : ∀ x ∈ w, 0 ≤ x := by
  obtain ⟨base, binned, st, stop, N, hT⟩ := Booster.fit_trace h.fit
  intro x hx
  by_contra hlt
  refine (validateFit_ok _ _ _).1 hT.valid (.inr (.inl ⟨FX.fin x, List.mem_map_of_mem hx, ?_⟩))
  right
  simp only [FX.zero_def, FX.lt_fin, decide_eq_true_eq]
  exact not_le.1 hlt

theorem PlainFit.tree_of (h : PlainFit env b X y w ev b' l1 l2 mds lr) {base : FX m64}
    {binned : BinnedData (FX m64)} {st : Nat → FitState R (FX m32) (FX m64)} {stop : Nat → Bool} {N : Nat}
    (hT : FitTrace env b X (y.map FX.fin) (w.map FX.fin) ev b' base binned st stop N) {k : Nat}
    {t : Tree (FX m32) (FX m64)} (ht : b'.trees[k]? = some t) {p : List K}
    (hp : (st k).yhat = p.map FX.fin) :
    ∃ cfg rows, PlainTree env b X y w l1 l2 mds lr binned p k t cfg rows := by
  obtain ⟨cfg, rows, hA⟩ := hT.treeAt ht
  obtain ⟨a1, a2⟩ := hT.trainedOn h.sorter h.rng h.shaped (by simpa using h.ylen) h.wlen h.max
    h.minLeafWeight ht hA
  rw [hp] at hA a1
  obtain ⟨r1, r2, hs⟩ := hA.sample
  obtain ⟨c1, c2⟩ := calcGradHess_fin (m32 := m32) h.exp y p w h.nonneg
  obtain ⟨d1, d2⟩ := sampleIndex_fin h.goss hs c1 c2
  have htr := a2 _ _ d1.finRows d2.fin.finRows
  have hnn : ∀ r ∈ rows, 0 ≤ rowVals cfg.train.hess r := fun r _ => d2.rowVals r
  have hP : PlainParams cfg (rowVals cfg.train.hess) rows l1 l2 mds lr := by
    refine ⟨?_, ?_, ?_, ?_, h.l2_nonneg, hnn, ?_⟩
    · rw [hA.fitted.splitter, ← h.l1_eq]; unfold Booster.splitter; split <;> rfl
    · rw [hA.fitted.splitter, ← h.l2_eq]; unfold Booster.splitter; split <;> rfl
    · rw [hA.fitted.splitter, ← h.mds_eq]; unfold Booster.splitter; split <;> rfl
    · rw [hA.fitted.splitter, ← h.lr_eq]; unfold Booster.splitter; split <;> rfl
    · have hsum : 0 ≤ (rows.map (rowVals cfg.train.hess)).sum := List.sum_nonneg (by
        intro x hx
        obtain ⟨r, hr, rfl⟩ := List.mem_map.1 hx
        exact hnn r hr)
      rcases h.positive with hl | ⟨hn, x, hx, hx0⟩
      · linarith
      · rw [hn] at hs
        simp only [sampleIndex, Res.ok.injEq, Prod.mk.injEq] at hs
        obtain ⟨e1, e2, e3, _⟩ := hs
        obtain ⟨j, hj⟩ := List.mem_iff_getElem?.1 hx
        have hjl : j < X.rows := by rw [← h.wlen]; exact (List.getElem?_eq_some_iff.1 hj).1
        obtain ⟨yj, hyj⟩ : ∃ v, y[j]? = some v := ⟨_, List.getElem?_eq_getElem (by rw [h.ylen]; exact hjl)⟩
        have hlen : p.length = X.rows := by simpa using a1
        obtain ⟨pj, hpj⟩ : ∃ v, p[j]? = some v := ⟨_, List.getElem?_eq_getElem (by rw [hlen]; exact hjl)⟩
        obtain ⟨_, g2⟩ := calcGradHess_get (F := FX m32) b.objectiveType (y.map FX.fin : List (FX m64))
          (p.map FX.fin) (w.map FX.fin) j (yi := FX.fin yj) (pi := FX.fin pj) (wi := FX.fin x)
          (by simp [hyj]) (by simp [hpj]) (by simp [hj])
        obtain ⟨g, hh, _, e5, _, e6⟩ := gradHess_fin h.exp yj pj x hx0.le
        rw [e3, e5, FX.down_fin] at g2
        have hrv : rowVals cfg.train.hess j = hh := by unfold rowVals; rw [g2]; rfl
        have hmem : j ∈ rows := by rw [← e1]; simpa [Matrix.index] using hjl
        have hle : rowVals cfg.train.hess j ≤ (rows.map (rowVals cfg.train.hess)).sum :=
          List.single_le_sum (by
            intro x hx
            obtain ⟨r, hr, rfl⟩ := List.mem_map.1 hx
            exact hnn r hr) _ (List.mem_map_of_mem hmem)
        have := e6 hx0
        have := h.l2_nonneg
        rw [hrv] at hle
        linarith
  exact ⟨cfg, rows, hA, by simpa using a1, htr, hP, fit_finiteValues htr hA.fitted.fit hP⟩

/-- All predictions during such a fit are finite. -/
theorem PlainFit.yhat (h : PlainFit env b X y w ev b' l1 l2 mds lr) {base : FX m64}
    {binned : BinnedData (FX m64)} {st : Nat → FitState R (FX m32) (FX m64)} {stop : Nat → Bool} {N : Nat}
    (hT : FitTrace env b X (y.map FX.fin) (w.map FX.fin) ev b' base binned st stop N) :
    ∀ k, k ≤ N → ∃ p : List K, (st k).yhat = p.map FX.fin := by
  intro k
  induction k with
  | zero =>
    intro _
    have h0 := hT.yhat 0 (Nat.zero_le _)
    simp only [List.take_zero, predictFold, Res.foldM', Res.ok.injEq, List.length_map] at h0
    obtain ⟨s, rfl⟩ := h.base base hT.base_eq
    exact ⟨List.replicate y.length s, by rw [← h0, List.map_replicate]⟩
  | succ k ih =>
    intro hk
    obtain ⟨p, hp⟩ := ih (by omega)
    obtain ⟨t, ht⟩ : ∃ t, b'.trees[k]? = some t :=
      ⟨_, List.getElem?_eq_getElem (by rw [hT.length]; omega)⟩
    obtain ⟨cfg, rows, hA⟩ := h.tree_of hT ht hp
    have h1 := hT.yhat k (by omega)
    have h2 := hT.yhat (k + 1) hk
    rw [List.take_add_one, ht, predictFold, Res.foldM'_append] at h2
    rw [predictFold] at h1
    rw [h1, Res.ok_bind] at h2
    simp only [Option.toList_some, Res.foldM'_cons, Res.foldM', Res.bind_eq_ok, Res.ok.injEq] at h2
    obtain ⟨a, ⟨q, h3, rfl⟩, h4⟩ := h2
    refine AllFin.eq_map ?_
    rw [← h4, hp]
    refine addPreds_fin ?_ (predict_fin hA.values h3)
    intro x hx
    obtain ⟨q, _, rfl⟩ := List.mem_map.1 hx
    exact ⟨q, rfl⟩

/-- Every tree of such a fit is plain. -/
theorem PlainFit.tree (h : PlainFit env b X y w ev b' l1 l2 mds lr) {k : Nat}
    {t : Tree (FX m32) (FX m64)} (ht : b'.trees[k]? = some t) :
    ∃ binned p cfg rows, PlainTree env b X y w l1 l2 mds lr binned p k t cfg rows := by
  obtain ⟨base, binned, st, stop, N, hT⟩ := Booster.fit_trace h.fit
  have hk : k < N := by rw [← hT.length]; exact (List.getElem?_eq_some_iff.1 ht).1
  obtain ⟨p, hp⟩ := h.yhat hT k (by omega)
  obtain ⟨cfg, rows, hA⟩ := h.tree_of hT ht hp
  exact ⟨binned, p, cfg, rows, hA⟩

theorem PlainFit.tree_mem (h : PlainFit env b X y w ev b' l1 l2 mds lr)
    {t : Tree (FX m32) (FX m64)} (ht : t ∈ b'.trees) :
    ∃ binned p k cfg rows, PlainTree env b X y w l1 l2 mds lr binned p k t cfg rows := by
  obtain ⟨k, hk⟩ := List.mem_iff_getElem?.1 ht
  obtain ⟨binned, p, cfg, rows, hA⟩ := h.tree hk
  exact ⟨binned, p, k, cfg, rows, hA⟩

end

end Verif
