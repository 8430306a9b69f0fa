import Verif.Proofs.CopiesPick
import Verif.Props.Increasing
import Verif.Spec.ExampleFit

/-!
# C72, C73, C74: order and repetition of rows, rows of weight zero

In exact arithmetic and without sampling of rows, the model does not depend on the order of the rows, and
a row can be replaced by copies of it that share its weight.  With rounding both are false in general:
sums in another order round differently.
-/

namespace Verif

open scoped Verif

set_option linter.unusedSectionVars false

variable {K : Type} [Field K] [LinearOrder K] [IsStrictOrderedRing K] {m32 m64 : Fmt K}
  [m32.Exact] [m64.Exact] {R : Type}

section
variable {σ : Nat → Nat} {env : Env R (FX m32) (FX m64)} {b : Booster (FX m32) (FX m64)}
  {X X' : Matrix (FX m64)} {y y' w w' : List K} {l1 l2 mds lr : K}
  {ev : Option (List (EvalSet (FX m64)))}

/-- **C72** (copies, exact arithmetic).  If the rows of a data set are replaced by copies, in any order,
that share the weights of the rows, then `fit` gives the same booster, in all its fields, or the same
error. -/
theorem C72_copies (h : SafeArgs env b X y w l1 l2 mds lr) (hbase : BaseOk b y w)
    (hev : EvalArgs X b ev) (hn : b.sampleMethod = .none) (hh : ∀ i, (env.heap i).ByScore)
    (hc : Copies σ X X' y y' w w') (hX' : X'.Shaped) (hy' : y'.length = X'.rows)
    (hw' : w'.length = X'.rows) (h0' : ∀ x ∈ w', 0 ≤ x) :
    b.fit env X' (y'.map FX.fin) (w'.map FX.fin) ev = b.fit env X (y.map FX.fin) (w.map FX.fin) ev ∧
      ∃ out, b.fit env X (y.map FX.fin) (w.map FX.fin) ev = .ok out := by
  have h' := hc.safe h hn hX' hy' hw' h0'
  have hbase' : BaseOk b y' w' := by
    unfold BaseOk
    rw [calcInit_copy hc h.ylen h.wlen hy' hw']
    exact hbase
  have hev' : EvalArgs X' b ev := ⟨hev.nonempty, fun es e x hx => by rw [hc.cols]; exact hev.ok es e x hx, hev.fresh⟩
  obtain ⟨out, r, ho⟩ := (C62_fit h hbase hev).1
  obtain ⟨out', r', ho'⟩ := (C62_fit h' hbase' hev').1
  refine ⟨?_, _, ho⟩
  have hv : validateFit (y'.map FX.fin : List (FX m64)) (w'.map FX.fin) ev =
      validateFit (y.map FX.fin : List (FX m64)) (w.map FX.fin) ev := by
    rw [validateFit_fin h0', validateFit_fin h.nonneg]
  cases hval : validateFit (y.map FX.fin : List (FX m64)) (w.map FX.fin) ev with
  | error e =>
    unfold Booster.fit
    rw [hv, hval]
  | ok u =>
    have hr : r = .ok () := by
      rw [Booster.fit, hval] at ho
      simp only [Res.bind_eq_ok, Res.ok.injEq, Prod.mk.injEq] at ho
      obtain ⟨_, _, _, e⟩ := ho
      exact e.symm
    have hr' : r' = .ok () := by
      rw [Booster.fit, hv, hval] at ho'
      simp only [Res.bind_eq_ok, Res.ok.injEq, Prod.mk.injEq] at ho'
      obtain ⟨_, _, _, e⟩ := ho'
      exact e.symm
    subst hr hr'
    rw [ho, ho', fit_copy (h.plain hbase ho) (h'.plain hbase' ho') hc hn hh]

end

section
variable {env : Env R (FX m32) (FX m64)} {b : Booster (FX m32) (FX m64)}
  {X : Matrix (FX m64)} {y w : List K} {l1 l2 mds lr : K} {ev : Option (List (EvalSet (FX m64)))}

/-- **C72** (order of the rows, exact arithmetic).  `rows` is any order of the rows of the training data;
the features, targets and weights are put in that order.  `fit` gives the same booster, in all its
fields, or the same error. -/
theorem C72_row_order (h : SafeArgs env b X y w l1 l2 mds lr) (hbase : BaseOk b y w)
    (hev : EvalArgs X b ev) (hn : b.sampleMethod = .none) (hh : ∀ i, (env.heap i).ByScore)
    {rows : List Nat} (hp : rows.Perm (List.range X.rows)) :
    b.fit env (X.pickRows rows) ((pick y rows).map FX.fin) ((pick w rows).map FX.fin) ev =
        b.fit env X (y.map FX.fin) (w.map FX.fin) ev ∧
      ∃ out, b.fit env X (y.map FX.fin) (w.map FX.fin) ev = .ok out := by
  have hr : ∀ r ∈ rows, r < X.rows := fun r hr => List.mem_range.1 (hp.mem_iff.1 hr)
  have hry : ∀ r ∈ rows, r < y.length := by rw [h.ylen]; exact hr
  have hrw : ∀ r ∈ rows, r < w.length := by rw [h.wlen]; exact hr
  refine C72_copies h hbase hev hn hh (copies_pick (c := fun r => w[r]?.getD 0) h.shaped hr h.ylen
    (fun r hr => hp.mem_iff.2 (List.mem_range.2 hr)) (fun i hi => by rw [pick_get hrw hi]) ?_)
    (pickRows_shaped h.shaped hr) (pick_length hry) (pick_length hrw) ?_
  · intro r hr
    rw [hp.count_eq, List.count_eq_one_of_mem List.nodup_range (List.mem_range.2 hr), Nat.cast_one, one_mul,
      List.getElem?_eq_getElem (by rw [h.wlen]; exact hr)]
    rfl
  · intro x hx
    obtain ⟨r, _, e⟩ := List.mem_filterMap.1 hx
    exact h.nonneg x (List.mem_of_getElem? e)

/-- **C73** (weights that are whole numbers, exact arithmetic).  Row `r` has the weight `ks[r]`, a positive
whole number.  `fit` gives the same booster, in all its fields, as on the data in which row `r` is
repeated `ks[r]` times and all weights are 1, that is as `fit_unweighted` on the repeated rows. -/
theorem C73_integer_weights {ks : List Nat} (h : SafeArgs env b X y (ks.map fun k : Nat => (k : K)) l1 l2 mds lr)
    (hbase : BaseOk b y (ks.map fun k : Nat => (k : K)))
    (hev : EvalArgs X b ev) (hn : b.sampleMethod = .none) (hh : ∀ i, (env.heap i).ByScore)
    (hk : ∀ k ∈ ks, 1 ≤ k) :
    b.fitUnweighted env (X.pickRows (repeatRows ks)) ((pick y (repeatRows ks)).map FX.fin) ev =
        b.fit env X (y.map FX.fin) ((ks.map fun k : Nat => (k : K)).map FX.fin) ev ∧
      ∃ out, b.fit env X (y.map FX.fin) ((ks.map fun k : Nat => (k : K)).map FX.fin) ev = .ok out := by
  have hkl : ks.length = X.rows := by simpa using h.wlen
  have hr : ∀ r ∈ repeatRows ks, r < X.rows := by
    intro r hr
    obtain ⟨a, ha, hm⟩ := List.mem_flatMap.1 hr
    rw [List.eq_of_mem_replicate hm, ← hkl]
    exact List.mem_range.1 ha
  have hry : ∀ r ∈ repeatRows ks, r < y.length := by rw [h.ylen]; exact hr
  have hmem : ∀ r < X.rows, r ∈ repeatRows ks := by
    intro r hr
    rw [← hkl] at hr
    rw [← List.count_pos_iff, repeatRows_count ks hr, List.getElem?_eq_getElem hr]
    exact hk _ (List.getElem_mem hr)
  have := C72_copies (w' := List.replicate (repeatRows ks).length 1) h hbase hev hn hh
    (copies_pick (c := fun _ => 1) h.shaped hr h.ylen hmem
      (fun i hi => by rw [List.getElem?_replicate, if_pos hi]; rfl) ?_)
    (pickRows_shaped h.shaped hr) (pick_length hry) (by simp [Matrix.pickRows]) ?_
  · unfold Booster.fitUnweighted
    rw [List.map_replicate] at this
    exact this
  · intro r hr
    rw [← hkl] at hr
    rw [repeatRows_count ks hr]
    simp [hr]
  · intro x hx
    rw [List.eq_of_mem_replicate hx]; exact zero_le_one

/-- **C74** (rows of weight zero; part of the claim, exact arithmetic).  Rows of weight zero, whatever
their targets, may be dropped if each of them has the features of a row that is kept.  `rows` lists
the rows that are kept, in any order.

Missing: the features must occur in a row that is kept.  Without that the claim is false, see
`C74_counterexample`. -/
theorem C74_zero_weight_partial (h : SafeArgs env b X y w l1 l2 mds lr) (hbase : BaseOk b y w)
    (hev : EvalArgs X b ev) (hn : b.sampleMethod = .none) (hh : ∀ i, (env.heap i).ByScore)
    {rows : List Nat} (hr : ∀ r ∈ rows, r < X.rows) (hnd : rows.Nodup)
    (hdrop : ∀ r < X.rows, r ∉ rows → w[r]? = some 0 ∧
      ∃ s ∈ rows, ∀ j < X.cols, X.entry r j = X.entry s j) :
    b.fit env (X.pickRows rows) ((pick y rows).map FX.fin) ((pick w rows).map FX.fin) ev =
        b.fit env X (y.map FX.fin) (w.map FX.fin) ev ∧
      ∃ out, b.fit env X (y.map FX.fin) (w.map FX.fin) ev = .ok out := by
  have hry : ∀ r ∈ rows, r < y.length := by rw [h.ylen]; exact hr
  have hrw : ∀ r ∈ rows, r < w.length := by rw [h.wlen]; exact hr
  obtain ⟨σ, hc⟩ := copies_drop h.shaped h.ylen h.wlen hr hnd hdrop
  have h1 := hc.safe_rev h hn (pickRows_shaped h.shaped hr) (pick_length hry) (pick_length hrw)
  have hbase' : BaseOk b (pick y rows) (pick w rows) := by
    unfold BaseOk at hbase ⊢
    rw [calcInit_copy hc (pick_length hry) (pick_length hrw) h.ylen h.wlen] at hbase
    exact hbase
  have hev' : EvalArgs (X.pickRows rows) b ev := ⟨hev.nonempty, hev.ok, hev.fresh⟩
  obtain ⟨e, out, ho⟩ := C72_copies h1 hbase' hev' hn hh hc h.shaped h.ylen h.wlen h.nonneg
  exact ⟨e.symm, out, by rw [e, ho]⟩

end

/-! ## The counterexample -/

/-- One feature with the values 1, 2, 3. -/
def exThree : Matrix Q := { data := [q 1, q 2, q 3], rows := 3, cols := 1 }

/-- The prediction for the value 5/2 after a fit. -/
def exAtFiveHalves (X : Matrix Q) (y w : List Q) : Option Q :=
  match exFresh.fit exEnv X y w none with
  | .ok (b, .ok ()) =>
    match b.predict { data := [q (5/2)], rows := 1, cols := 1 } with
    | .ok [p] => some p
    | _ => none
  | _ => none

/-- **C74** (the general claim is false).  The second of three rows has weight zero.  Its value 2 becomes
the limit of a bin all the same, and the split is made at 2; without the row it is made at 3.  Hence the
predictions for 5/2 differ. -/
theorem C74_counterexample : ∃ p p',
    exAtFiveHalves exThree [q 0, q 0, q 4] [q 1, q 0, q 1] = some p ∧
    exAtFiveHalves (exThree.pickRows [0, 2]) [q 0, q 4] [q 1, q 1] = some p' ∧ p ≠ p' := by
  have h : ((exAtFiveHalves exThree [q 0, q 0, q 4] [q 1, q 0, q 1]).bind fun p =>
      (exAtFiveHalves (exThree.pickRows [0, 2]) [q 0, q 4] [q 1, q 1]).bind fun p' =>
      some (decide (p ≠ p'))) = some true := by decide +kernel
  simp only [Option.bind_eq_some_iff, Option.some.injEq, decide_eq_true_eq] at h
  obtain ⟨p, h1, p', h2, h3⟩ := h
  exact ⟨p, p', h1, h2, h3⟩

/-! ## Examples -/

/-- C72: another order of the six rows. -/
example : SafeArgs exEnv exLimited exX [0, 0, 1, 3, 3, 5] (List.replicate 6 (1 : ℚ)) 0 0 (1/2) (1/2) ∧
    BaseOk exLimited [0, 0, 1, 3, 3, 5] (List.replicate 6 (1 : ℚ)) ∧ EvalArgs exX exLimited none ∧
    exLimited.sampleMethod = .none ∧ (∀ i, (exEnv.heap i).ByScore) ∧
    [5, 0, 3, 1, 2, 4].Perm (List.range exX.rows) :=
  ⟨exSafe rfl rfl rfl rfl le_rfl rfl rfl rfl rfl (by decide) (.inr (.inl rfl)),
    ⟨(exLimited.baseScore).val, rfl⟩, ⟨by simp, by simp, .inr rfl⟩, rfl, exEnv_natural.heap, by decide⟩

/-- The six rows with other weights. -/
theorem exSafe_weights {w : List ℚ} (hw : w.length = 6) (h0 : ∀ x ∈ w, 0 ≤ x) (h1 : ∃ x ∈ w, 0 < x) :
    SafeArgs exEnv exLimited exX [0, 0, 1, 3, 3, 5] w 0 0 (1/2) (1/2) :=
  { exSafe (b := exLimited) (l1 := 0) (l2 := 0) (mds := 1/2) (lr := 1/2) rfl rfl rfl rfl le_rfl rfl rfl rfl
      rfl (by decide) (.inr (.inl rfl)) with
    wlen := hw
    nonneg := h0
    positive := .inr ⟨rfl, h1⟩ }

/-- C73: rows of weights 1, 2 and 3. -/
example : SafeArgs exEnv exLimited exX [0, 0, 1, 3, 3, 5] ([1, 2, 1, 3, 1, 2].map fun k : Nat => (k : ℚ)) 0 0
      (1/2) (1/2) ∧
    BaseOk exLimited [0, 0, 1, 3, 3, 5] ([1, 2, 1, 3, 1, 2].map fun k : Nat => (k : ℚ)) ∧
    (∀ k ∈ [1, 2, 1, 3, 1, 2], 1 ≤ k) ∧ repeatRows [1, 2, 1, 3, 1, 2] = [0, 1, 1, 2, 3, 3, 3, 4, 5, 5] :=
  ⟨exSafe_weights rfl (by simp) ⟨1, by simp, by norm_num⟩, ⟨(exLimited.baseScore).val, rfl⟩, by decide,
    by decide⟩

/-- Four rows; the last has the features of the second, weight zero and a target of its own. -/
def exTwinRow : Matrix Q := exX.pickRows [0, 1, 2, 1]

/-- C74: the last row may be dropped. -/
example : SafeArgs exEnv exLimited exTwinRow [0, 1, 3, 9] [1, 1, 1, 0] 0 0 (1/2) (1/2) ∧
    BaseOk exLimited [0, 1, 3, 9] [1, 1, 1, 0] ∧ EvalArgs exTwinRow exLimited none ∧
    (∀ r ∈ [0, 1, 2], r < exTwinRow.rows) ∧ [0, 1, 2].Nodup ∧
    ∀ r < exTwinRow.rows, r ∉ [0, 1, 2] → ([1, 1, 1, 0] : List ℚ)[r]? = some 0 ∧
      ∃ s ∈ [0, 1, 2], ∀ j < exTwinRow.cols, exTwinRow.entry r j = exTwinRow.entry s j := by
  refine ⟨?_, ⟨(exLimited.baseScore).val, rfl⟩, ⟨by simp, by simp, .inr rfl⟩, by decide, by decide, ?_⟩
  · exact { exSafe (b := exLimited) (l1 := 0) (l2 := 0) (mds := 1/2) (lr := 1/2) rfl rfl rfl rfl le_rfl rfl
        rfl rfl rfl (by decide) (.inr (.inl rfl)) with
      shaped := by unfold Matrix.Shaped; decide +kernel
      ylen := rfl
      wlen := rfl
      nonneg := by simp
      max := by decide +kernel
      readable := fun _ _ => .inl rfl
      positive := .inr ⟨rfl, 1, by simp, by norm_num⟩
      goss := fun h => nomatch h
      free := .inr (.inl rfl) }
  · decide +kernel

end Verif
