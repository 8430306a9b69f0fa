import Verif.Model.PyArrays
import Verif.Spec.ExamplePy
import Mathlib.Tactic.Ring
import Mathlib.Data.List.Induction

/-!
# C119: the layout of arrays in memory

A data frame or array of features may lie in memory in any way: rows first, columns first, a slice, a reversed view.
The crate gets its values column by column.  Targets and weights of type `float64` must be contiguous; otherwise
`fit` fails.
-/

namespace Verif

open scoped Verif

section
variable {D : Type}

/-- The array holds these numbers. -/
def PyVec.Holds (a : PyVec D) (l : List D) : Prop := l.length = a.len ∧ ∀ i, i < a.len → a.at? i = l[i]?

/-- The array holds this table, a list of rows. -/
def PyMat.Holds (a : PyMat D) (t : List (List D)) : Prop :=
  t.length = a.rows ∧ (∀ r ∈ t, r.length = a.cols) ∧
    ∀ i j, i < a.rows → j < a.cols → a.at? i j = t[i]?.bind (·[j]?)

/-- The array can be read in place or is converted. -/
def PyVec.Readable (a : PyVec D) : Prop := a.double = false ∨ a.step = 1 ∨ a.len ≤ 1

theorem filterMap_range_eq {α : Type} (f : Nat → Option α) (l : List α) (h : ∀ i, i < l.length → f i = l[i]?) :
    (List.range l.length).filterMap f = l := by
  induction l using List.reverseRecOn with
  | nil => rfl
  | append_singleton l a ih =>
    rw [List.length_append, List.length_singleton, List.range_succ, List.filterMap_append, ih]
    · have := h l.length (by simp)
      simp at this
      simp [this]
    · intro i hi
      rw [h i (by simp; omega), List.getElem?_append_left hi]

theorem PyVec.Holds.toList_eq {a : PyVec D} {l : List D} (h : a.Holds l) : a.toList = l := by
  unfold PyVec.toList
  rw [← h.1]
  exact filterMap_range_eq _ _ fun i hi => h.2 i (h.1 ▸ hi)

/-- The memory of an array with unit step. -/
theorem PyVec.Holds.take {a : PyVec D} {l : List D} (h : a.Holds l) (hs : a.len ≤ 1 ∨ a.step = 1) :
    (a.mem.drop a.start).take a.len = l := by
  apply List.ext_getElem?
  intro i
  by_cases hi : i < a.len
  · rw [List.getElem?_take, if_pos hi, List.getElem?_drop, ← h.2 i hi]
    unfold PyVec.at?
    have e : (a.start : Int) + i * a.step = ((a.start + i : Nat) : Int) := by
      rcases hs with hs | hs
      · obtain rfl : i = 0 := by omega
        simp
      · rw [hs]; push_cast; ring
    simp only [e]
    rw [if_neg (by omega), Int.toNat_natCast]
  · rw [List.getElem?_take, if_neg hi, List.getElem?_eq_none (by rw [h.1]; omega)]

/-- **C119** (targets and weights).  The crate reads the numbers of the array if it is contiguous or not of type
`float64`; otherwise there is an error. -/
theorem C119_vector {a : PyVec D} {l : List D} (h : a.Holds l) :
    (a.Readable → a.convert.asSlice = .ok l) ∧ (¬ a.Readable → a.convert.asSlice = .error .valueError) := by
  unfold PyVec.Readable PyVec.convert PyVec.asSlice
  cases hd : a.double with
  | false =>
    refine ⟨fun _ => ?_, fun hn => absurd (Or.inl rfl) hn⟩
    simp only [Bool.false_eq_true, if_false, or_true, if_true, List.drop_zero, h.toList_eq, ← h.1, List.take_length]
  | true =>
    simp only [if_true, Bool.true_eq_false, false_or]
    constructor
    · intro hs
      rw [if_pos hs.symm, h.take hs.symm]
    · intro hs
      rw [if_neg fun hh => hs hh.symm]

/-- The columns of a table, one after the other. -/
def columnMajor (t : List (List D)) (cols : Nat) : List D :=
  (List.range cols).flatMap fun j => t.filterMap (·[j]?)

theorem filterMap_rows {t : List (List D)} {rows : Nat} (hl : t.length = rows) {g : Nat → Option D} {j : Nat}
    (h : ∀ i, i < rows → g i = t[i]?.bind (·[j]?)) :
    (List.range rows).filterMap g = t.filterMap (·[j]?) := by
  subst hl
  induction t using List.reverseRecOn with
  | nil => rfl
  | append_singleton t a ih =>
    rw [List.length_append, List.length_singleton, List.range_succ, List.filterMap_append, List.filterMap_append, ih]
    · have := h t.length (by simp)
      simp at this
      simp [List.filterMap, this]
    · intro i hi
      rw [h i (by simp; omega), List.getElem?_append_left hi]

theorem PyMat.ravelF_mem {a : PyMat D} {t : List (List D)} (h : a.Holds t) :
    a.ravelF.mem = columnMajor t a.cols := by
  unfold PyMat.ravelF columnMajor
  simp only
  rw [List.flatMap_def, List.flatMap_def]
  congr 1
  apply List.map_congr_left
  intro j hj
  exact filterMap_rows h.1 fun i hi => h.2.2 i j hi (List.mem_range.1 hj)

theorem flatMap_getElem? {α : Type} {n c : Nat} {f : Nat → List α} (hf : ∀ i, i < n → (f i).length = c) {i j : Nat}
    (hi : i < n) (hj : j < c) : ((List.range n).flatMap f)[i * c + j]? = (f i)[j]? := by
  induction n with
  | zero => omega
  | succ n ih =>
    have hlen : ((List.range n).flatMap f).length = n * c := by
      rw [List.length_flatMap]
      have : (List.range n).map (fun i => (f i).length) = List.replicate n c := by
        rw [List.eq_replicate_iff]
        refine ⟨by simp, fun x hx => ?_⟩
        obtain ⟨k, hk, rfl⟩ := List.mem_map.1 hx
        exact hf k (by have := List.mem_range.1 hk; omega)
      rw [this]; simp
    rw [List.range_succ, List.flatMap_append]
    by_cases hin : i < n
    · have : i * c + j < n * c := by
        have : (i + 1) * c ≤ n * c := Nat.mul_le_mul_right c hin
        rw [Nat.succ_mul] at this
        omega
      rw [List.getElem?_append_left (by rw [hlen]; exact this)]
      exact ih (fun k hk => hf k (by omega)) hin
    · obtain rfl : i = n := by omega
      rw [List.getElem?_append_right (by rw [hlen]; omega), hlen, Nat.add_sub_cancel_left]
      simp

/-- The conversion to `float64` keeps the table. -/
theorem PyMat.Holds.astype {a : PyMat D} {t : List (List D)} (h : a.Holds t) : a.astype.Holds t := by
  unfold PyMat.astype
  split
  · exact h
  · refine ⟨h.1, h.2.1, fun i j hi hj => ?_⟩
    simp only at hi hj
    have hrow : ∀ k, k < a.rows → ((List.range a.cols).filterMap fun j => a.at? k j) = t[k]?.getD [] := by
      intro k hk
      have hk' : k < t.length := by rw [h.1]; exact hk
      rw [List.getElem?_eq_getElem hk', Option.getD_some, ← h.2.1 _ (List.getElem_mem hk')]
      refine filterMap_range_eq _ _ fun j hj => ?_
      rw [h.2.2 k j hk (by rw [← h.2.1 _ (List.getElem_mem hk')]; exact hj), List.getElem?_eq_getElem hk']
      rfl
    have hi' : i < t.length := by rw [h.1]; exact hi
    change (if ((0 : Nat) : Int) + (i : Int) * (a.cols : Int) + (j : Int) * 1 < 0 then none
      else ((List.range a.rows).flatMap fun i => (List.range a.cols).filterMap fun j => a.at? i j)[
        (((0 : Nat) : Int) + (i : Int) * (a.cols : Int) + (j : Int) * 1).toNat]?) = _
    have e : ((0 : Nat) : Int) + (i : Int) * (a.cols : Int) + (j : Int) * 1 = ((i * a.cols + j : Nat) : Int) := by
      push_cast; ring
    rw [e, if_neg (by omega), Int.toNat_natCast]
    rw [flatMap_getElem? (c := a.cols) (fun k hk => ?_) hi hj, hrow i hi, List.getElem?_eq_getElem hi']
    · rfl
    · rw [hrow k hk]
      have hk' : k < t.length := by rw [h.1]; exact hk
      rw [List.getElem?_eq_getElem hk', Option.getD_some]
      exact h.2.1 _ (List.getElem_mem hk')

theorem PyMat.astype_shape (a : PyMat D) : a.astype.rows = a.rows ∧ a.astype.cols = a.cols := by
  unfold PyMat.astype
  split <;> exact ⟨rfl, rfl⟩

theorem column_length {t : List (List D)} {cols j : Nat} (hc : ∀ r ∈ t, r.length = cols) (hj : j < cols) :
    (t.filterMap (·[j]?)).length = t.length := by
  induction t with
  | nil => rfl
  | cons r t ih =>
    have := hc r (by simp)
    rw [List.filterMap_cons, List.getElem?_eq_getElem (by omega)]
    simp only [List.length_cons]
    rw [ih fun r hr => hc r (by simp [hr])]

theorem columnMajor_length {t : List (List D)} {cols : Nat} (hc : ∀ r ∈ t, r.length = cols) :
    (columnMajor t cols).length = t.length * cols := by
  unfold columnMajor
  rw [List.length_flatMap]
  have : (List.range cols).map (fun j => (t.filterMap (·[j]?)).length) = List.replicate cols t.length := by
    rw [List.eq_replicate_iff]
    refine ⟨by simp, fun x hx => ?_⟩
    obtain ⟨k, hk, rfl⟩ := List.mem_map.1 hx
    exact column_length hc (List.mem_range.1 hk)
  rw [this]; simp [Nat.mul_comm]

/-- **C119** (features).  However the table lies in memory, the crate gets a matrix with the same shape and the same
element in every place, determined by the table alone. -/
theorem C119_frame {X : PyFrame D} {t : List (List D)} (h : X.array.Holds t) :
    ∃ M : Matrix D, X.convert = .ok { columns := X.columns, data := M } ∧
      M = { data := columnMajor t X.array.cols, rows := X.array.rows, cols := X.array.cols } ∧
      ∀ i j v, i < X.array.rows → j < X.array.cols → X.array.at? i j = some v → M.get i j = .ok v := by
  obtain ⟨e1, e2⟩ := X.array.astype_shape
  have ha := h.astype
  have hm := PyMat.ravelF_mem ha
  refine ⟨_, ?_, rfl, ?_⟩
  · unfold PyFrame.convert PyVec.asSlice
    simp only
    rw [if_pos (show _ ∨ X.array.astype.ravelF.step = 1 from Or.inr rfl)]
    have hs : X.array.astype.ravelF.start = 0 := rfl
    have hl : X.array.astype.ravelF.len = (columnMajor t X.array.cols).length := by
      rw [columnMajor_length h.2.1, h.1, ← e1, ← e2]; rfl
    rw [hs, hm, hl, e1, e2, List.drop_zero, List.take_length]
    rfl
  · intro i j v hi hj hv
    rw [h.2.2 i j hi hj] at hv
    unfold Matrix.get idx Matrix.itemIndex columnMajor
    simp only
    have e : 1 * i + j * X.array.rows = j * X.array.rows + i := by ring
    rw [e, flatMap_getElem? (c := X.array.rows) (fun k hk => ?_) hj hi]
    · have : ∀ (t : List (List D)) (i : Nat), (∀ r ∈ t, r.length = X.array.cols) → (t.filterMap fun r => r[j]?)[i]? = t[i]?.bind fun r => r[j]? := by
        intro t
        induction t with
        | nil => simp
        | cons r t ih =>
          intro i hc
          have hr := hc r (by simp)
          rw [List.filterMap_cons, List.getElem?_eq_getElem (l := r) (i := j) (by omega)]
          cases i with
          | zero => simp [List.getElem?_eq_getElem (show j < r.length by omega)]
          | succ i => simpa using ih i fun r hr => hc r (by simp [hr])
      rw [this t i h.2.1, hv]
      rfl
    · rw [column_length h.2.1 hk, h.1]

/-- The entry of `evaluation_data` holds this evaluation set. -/
structure PyEvalArr.Holds (e : PyEvalArr D) (s : PyEval D) : Prop where
  frame : e.frame.convert = .ok s.frame
  y : e.y.Holds s.y ∧ e.y.Readable
  w : (e.w = none ∧ s.w = none) ∨ ∃ a l, e.w = some a ∧ s.w = some l ∧ a.Holds l ∧ a.Readable

variable {F : Type} [Fl F] [Fl D] [FlCast F D]

omit [Fl F] in
/-- **C119** (predictions).  Arrays that hold the same table under the same names have the same predictions. -/
theorem C119_predict {X Z : PyFrame D} {t : List (List D)} (h : X.array.Holds t) (hZ : Z.array.Holds t)
    (hc : Z.columns = X.columns) (hs : Z.array.cols = X.array.cols) (o : PyBooster F D) :
    o.predictArrays Z = o.predictArrays X := by
  obtain ⟨M, h1, h2, _⟩ := C119_frame h
  obtain ⟨M', h1', h2', _⟩ := C119_frame hZ
  unfold PyBooster.predictArrays
  rw [h1, h1', h2, h2', hc, hs, ← h.1, ← hZ.1]

omit [Fl D] in
theorem sliceWeights_eq {w : Option (PyVec D)} {l : Option (List D)}
    (h : (w = none ∧ l = none) ∨ ∃ a s, w = some a ∧ l = some s ∧ a.Holds s ∧ a.Readable) :
    sliceWeights w = .ok l := by
  rcases h with ⟨rfl, rfl⟩ | ⟨a, s, rfl, rfl, h1, h2⟩
  · rfl
  · change (a.convert.asSlice >>= fun l => Except.ok (some l)) = _
    rw [(C119_vector h1).1 h2]
    rfl

theorem PyEvalArr.Holds.slices {e : PyEvalArr D} {s : PyEval D} (h : e.Holds s) : e.slices = .ok s := by
  unfold PyEvalArr.slices
  rw [h.frame, (C119_vector h.y.1).1 h.y.2, sliceWeights_eq h.w]
  rfl

theorem pyMap_forall₂ {α β : Type} {f : α → Except PyErr β} {l : List α} {s : List β}
    (h : List.Forall₂ (fun a b => f a = .ok b) l s) : pyMap f l = .ok s := by
  induction h with
  | nil => rfl
  | cons h _ ih => unfold pyMap; rw [h, ih]; rfl

/-- The evaluation data hold these evaluation sets. -/
def EvalsHold : Option (List (PyEvalArr D)) → Option (List (PyEval D)) → Prop
  | none, none => True
  | some es, some ss => List.Forall₂ PyEvalArr.Holds es ss
  | _, _ => False

/-- **C119** (training).  `fit` on arrays that can be read is `fit` on the numbers they hold: the layout has no
influence. -/
theorem C119_fit_partial {R : Type} {J : PyJson} {env : Env R F D} {o : PyBooster F D} {X : PyFrame D} {f : Frame D}
    {y : PyVec D} {ys : List D} {w : Option (PyVec D)} {ws : Option (List D)}
    {evals : Option (List (PyEvalArr D))} {es : Option (List (PyEval D))}
    (hX : X.convert = .ok f) (hy : y.Holds ys) (hyr : y.Readable)
    (hw : (w = none ∧ ws = none) ∨ ∃ a s, w = some a ∧ ws = some s ∧ a.Holds s ∧ a.Readable)
    (he : EvalsHold evals es) :
    o.fitArrays J env X y w evals = o.fit J env f ys ws es := by
  have h1 : sliceEvals evals = .ok es := by
    rcases evals with _ | a <;> rcases es with _ | s
    · rfl
    · exact absurd he id
    · exact absurd he id
    change (pyMap PyEvalArr.slices a >>= fun l => Except.ok (some l)) = _
    rw [pyMap_forall₂ (List.Forall₂.imp (R := PyEvalArr.Holds) (fun _ _ h => h.slices) he)]
    rfl
  have h2 : sliceAll y w evals = .ok (ys, ws, es) := by
    unfold sliceAll
    rw [(C119_vector hy).1 hyr, sliceWeights_eq hw, h1]
    rfl
  have h3 : ∀ o : PyBooster F D, pyMap (fun e : PyEvalArr D => o.validateFeatures (e.frame.columns.getD [])) (evals.getD [])
      = pyMap (fun e : PyEval D => o.validateFeatures e.frame.features) (es.getD []) := by
    intro o
    rcases evals with _ | a <;> rcases es with _ | s
    · rfl
    · exact absurd he id
    · exact absurd he id
    simp only [Option.getD_some]
    change List.Forall₂ PyEvalArr.Holds a s at he
    clear h1 h2
    induction he with
    | nil => rfl
    | cons h _ ih =>
      unfold pyMap
      rw [ih]
      congr 2
      have := h.frame
      unfold PyFrame.convert at this
      simp only at this
      cases hh : PyVec.asSlice _ with
      | error e => rw [hh] at this; cases this
      | ok v =>
        rw [hh] at this
        have := Except.ok.inj this
        rw [← this]; rfl
  unfold PyBooster.fitArrays PyBooster.fit
  rw [hX]
  dsimp only
  cases pyFitConstraints f.columns _ with
  | error e => rfl
  | ok m =>
    dsimp only
    cases pyFitTerminate f.columns _ with
    | error e => rfl
    | ok t =>
      dsimp only
      rw [h3]
      cases pyMap _ (es.getD []) with
      | error e => rfl
      | ok l =>
        dsimp only
        rw [h2]
        dsimp only
        congr 1
        funext r
        rcases r with ⟨b, _ | ⟨⟨⟩⟩⟩ <;> rfl

/-- **C119** (training, rejected).  Targets of type `float64` with a step between two elements are never accepted:
`fit` raises an exception, and trains nothing. -/
theorem C119_rejected {R : Type} {J : PyJson} {env : Env R F D} {o : PyBooster F D} {X : PyFrame D} {y : PyVec D}
    {w : Option (PyVec D)} {evals : Option (List (PyEvalArr D))} (hd : y.double = true) (hs : y.step ≠ 1)
    (hl : 2 ≤ y.len) :
    ∃ o' e, o.fitArrays J env X y w evals = .ok (o', .error e) ∧ o'.booster.trees = o.booster.trees := by
  have h : y.convert.asSlice = .error .valueError := by
    unfold PyVec.convert PyVec.asSlice
    rw [if_pos hd, if_neg (by rintro (h | h); omega; exact hs h)]
  have h2 : sliceAll y w evals = .error .valueError := by
    unfold sliceAll; rw [h]; rfl
  have hdesc : ∀ f : Frame D, (o.describe J f).booster.trees = o.booster.trees := by
    intro f
    unfold PyBooster.describe PyBooster.setMeta Booster.insertMetadata
    dsimp only
    split <;> rfl
  unfold PyBooster.fitArrays
  cases X.convert with
  | error e => exact ⟨_, _, rfl, rfl⟩
  | ok f =>
    dsimp only
    split
    · exact ⟨_, _, rfl, hdesc f⟩
    split
    · exact ⟨_, _, rfl, hdesc f⟩
    split
    · exact ⟨_, _, rfl, hdesc f⟩
    rw [h2]
    exact ⟨_, _, rfl, hdesc f⟩

end

/-- The features of the examples with their rows one after the other. -/
def exRows : List (List Q) :=
  (List.range exX.rows).map fun i => (List.range exX.cols).filterMap fun j => exX.data[j * exX.rows + i]?

/-- As an array in the usual order of numpy. -/
def exLayout : PyFrame Q :=
  { columns := none
    array := { mem := exRows.flatten, start := 0, rows := exX.rows, cols := exX.cols, step0 := exX.cols, step1 := 1
               double := true } }

/-- The same table, last row first in memory, and of another type. -/
def exLayoutRev : PyFrame Q :=
  { columns := none
    array := { mem := exRows.reverse.flatten, start := (exX.rows - 1) * exX.cols, rows := exX.rows, cols := exX.cols
               step0 := -exX.cols, step1 := 1, double := false } }

/-- The targets of the examples. -/
def exLayoutY : PyVec Q := { mem := exY, start := 0, len := exY.length, step := 1, double := true }

/-- The same targets as the first column of an array with two columns. -/
def exLayoutStep (double : Bool) : PyVec Q :=
  { mem := exY.flatMap fun v => [v, q 0], start := 0, len := exY.length, step := 2, double }

/-- Do the array and the table agree? -/
def PyMat.agrees (a : PyMat Q) (t : List (List Q)) : Bool :=
  decide (t.length = a.rows ∧ (∀ r ∈ t, r.length = a.cols) ∧
    ∀ i ∈ List.range a.rows, ∀ j ∈ List.range a.cols, a.at? i j = t[i]?.bind (·[j]?))

theorem PyMat.holds_of_agrees {a : PyMat Q} {t : List (List Q)} (h : a.agrees t = true) : a.Holds t := by
  obtain ⟨h1, h2, h3⟩ := of_decide_eq_true h
  exact ⟨h1, h2, fun i j hi hj => h3 i (List.mem_range.2 hi) j (List.mem_range.2 hj)⟩

/-- Do the array and the list agree? -/
def PyVec.agrees (a : PyVec Q) (l : List Q) : Bool :=
  decide (l.length = a.len ∧ ∀ i ∈ List.range a.len, a.at? i = l[i]?)

theorem PyVec.holds_of_agrees {a : PyVec Q} {l : List Q} (h : a.agrees l = true) : a.Holds l := by
  obtain ⟨h1, h2⟩ := of_decide_eq_true h
  exact ⟨h1, fun i hi => h2 i (List.mem_range.2 hi)⟩

/-- C119: two layouts of one table with several rows and columns, and of one list of targets. -/
example : exLayout.array.Holds exRows ∧ exLayoutRev.array.Holds exRows ∧ exLayout.array.mem ≠ exLayoutRev.array.mem ∧
    1 < exX.rows ∧ 1 < exX.cols ∧ (exceptValue exLayout.convert).map Frame.data = some exX ∧ exLayoutY.Holds exY ∧ exLayoutY.Readable ∧
    (exLayoutStep false).Holds exY ∧ (exLayoutStep false).Readable :=
  ⟨PyMat.holds_of_agrees (by decide +kernel), PyMat.holds_of_agrees (by decide +kernel), by decide +kernel,
    by decide, by decide, by decide +kernel, PyVec.holds_of_agrees (by decide +kernel), .inr (.inl rfl),
    PyVec.holds_of_agrees (by decide +kernel), .inl rfl⟩

/-- C119 is false of targets: these two arrays of type `float64` hold the same numbers, `fit` succeeds with the
one and fails with the other. -/
theorem C119_counterexample : ∃ (o o' o'' : PyBooster Q Q) (e : PyErr), pyNew exJson exParams = .ok o ∧
    exLayoutY.Holds exY ∧ (exLayoutStep true).Holds exY ∧
    o.fitArrays exJson exEnv exLayout exLayoutY none none = .ok (o', .ok ()) ∧ o'.booster.trees.length = 2 ∧
    o.fitArrays exJson exEnv exLayout (exLayoutStep true) none none = .ok (o'', .error e) := by
  have h : ((exceptValue (pyNew exJson exParams)).bind fun o =>
      (resValue (o.fitArrays exJson exEnv exLayout exLayoutY none none)).bind fun r =>
        (exceptValue r.2).bind fun _ => some (o, r.1, decide (r.1.booster.trees.length = 2))).map (fun r => r.2.2) =
      some true := by decide +kernel
  simp only [Option.map_eq_some_iff, Option.bind_eq_some_iff, Option.some.injEq] at h
  obtain ⟨_, ⟨o, h1, ⟨o', r⟩, h2, u, h3, rfl⟩, h4⟩ := h
  obtain ⟨o'', e, h5, _⟩ := C119_rejected (J := exJson) (env := exEnv) (o := o) (X := exLayout) (y := exLayoutStep true)
    (w := none) (evals := none) rfl (by decide) (by decide)
  have h3 := exceptValue_eq h3
  simp only at h3
  subst h3
  exact ⟨o, o', o'', e, exceptValue_eq h1, PyVec.holds_of_agrees (by decide +kernel),
    PyVec.holds_of_agrees (by decide +kernel), resValue_eq h2, of_decide_eq_true h4, h5⟩

end Verif
