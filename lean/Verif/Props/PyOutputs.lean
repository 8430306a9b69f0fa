import Verif.Proofs.PyBooster
import Verif.Proofs.ContribLength
import Verif.Props.Predict
import Verif.Props.Boosting
import Verif.Props.Contrib
import Verif.Spec.ExamplePy

/-!
# C64: the arrays returned by the Python class
-/

namespace Verif

open scoped Verif

variable {F D : Type} [Fl F] [Fl D] [FlCast F D] {R : Type}

set_option linter.unusedSectionVars false

/-! ### Reshaping -/

theorem filterMap_range {α : Type} {f : Nat → Option α} : ∀ {n : Nat}, (∀ c < n, ∃ v, f c = some v) →
    ((List.range n).filterMap f).length = n ∧ ∀ k < n, ((List.range n).filterMap f)[k]? = f k := by
  intro n
  induction n with
  | zero => intro _; exact ⟨rfl, fun k hk => absurd hk (Nat.not_lt_zero k)⟩
  | succ n ih =>
    intro h
    obtain ⟨h1, h2⟩ := ih fun c hc => h c (by omega)
    obtain ⟨v, hv⟩ := h n (by omega)
    have e : (List.range (n + 1)).filterMap f = (List.range n).filterMap f ++ [v] := by
      rw [List.range_succ, List.filterMap_append]; simp [hv]
    rw [e]
    refine ⟨by simp [h1], fun k hk => ?_⟩
    by_cases hkn : k < n
    · rw [List.getElem?_append_left (by omega), h2 k hkn]
    · have : k = n := by omega
      subst this
      rw [List.getElem?_append_right (by omega), h1]; simp [hv]

/-- In Fortran order entry `(r, c)` is the one at `c * rows + r`. -/
theorem reshapeF_spec {α : Type} {l : List α} {rows cols : Nat} (h : l.length = rows * cols) :
    ∃ L, reshapeF l rows cols = .ok L ∧ L.length = rows ∧ ∀ r < rows, ∃ row, L[r]? = some row ∧
      row.length = cols ∧ ∀ c < cols, row[c]? = l[c * rows + r]? := by
  rw [reshapeF, if_pos h]
  refine ⟨_, rfl, by simp, fun r hr => ?_⟩
  have hs : ∀ c < cols, ∃ v, l[c * rows + r]? = some v := by
    intro c hc
    have : c * rows + r < l.length := by
      rw [h]
      calc c * rows + r < c * rows + rows := by omega
        _ = (c + 1) * rows := by rw [Nat.succ_mul]
        _ ≤ cols * rows := Nat.mul_le_mul_right _ hc
        _ = rows * cols := Nat.mul_comm _ _
    exact ⟨_, List.getElem?_eq_getElem this⟩
  obtain ⟨h1, h2⟩ := filterMap_range hs
  exact ⟨_, by rw [List.getElem?_map, List.getElem?_range hr]; rfl, h1, h2⟩

/-- In C order entry `(r, c)` is the one at `r * cols + c`. -/
theorem reshapeC_spec {α : Type} {l : List α} {rows cols : Nat} (h : l.length = rows * cols) :
    ∃ L, reshapeC l rows cols = .ok L ∧ L.length = rows ∧ ∀ r < rows, ∃ row, L[r]? = some row ∧
      row.length = cols ∧ ∀ c < cols, row[c]? = l[r * cols + c]? := by
  rw [reshapeC, if_pos h]
  refine ⟨_, rfl, by simp, fun r hr => ?_⟩
  refine ⟨_, by rw [List.getElem?_map, List.getElem?_range hr]; rfl, ?_, ?_⟩
  · rw [List.length_take, List.length_drop, h]
    have : r * cols + cols ≤ rows * cols := by
      rw [← Nat.succ_mul]; exact Nat.mul_le_mul_right _ hr
    omega
  · intro c hc
    rw [List.getElem?_take_of_lt hc, List.getElem?_drop]

theorem flatten_length_of {α : Type} {n : Nat} : ∀ {ls : List (List α)}, (∀ l ∈ ls, l.length = n) →
    ls.flatten.length = ls.length * n := by
  intro ls
  induction ls with
  | nil => intro _; simp
  | cons l ls ih =>
    intro h
    rw [List.flatten_cons, List.length_append, h l (by simp), ih fun x hx => h x (by simp [hx]),
      List.length_cons, Nat.succ_mul, Nat.add_comm]

/-- Reshaping the concatenation of rows of one length gives the rows back. -/
theorem reshapeC_flatten {α : Type} {ls : List (List α)} {n : Nat} (h : ∀ l ∈ ls, l.length = n) :
    reshapeC ls.flatten ls.length n = .ok ls := by
  obtain ⟨L, h1, h2, h3⟩ := reshapeC_spec (flatten_length_of h)
  rw [h1]
  congr 1
  apply List.ext_getElem?
  intro r
  by_cases hr : r < ls.length
  · obtain ⟨row, e, hl, hrow⟩ := h3 r hr
    rw [e, List.getElem?_eq_getElem hr]
    congr 1
    apply List.ext_getElem?
    intro c
    by_cases hc : c < n
    · rw [hrow c hc, Nat.mul_comm, flatten_get ls r _ (List.getElem?_eq_getElem hr) h c hc]
    · rw [List.getElem?_eq_none (by omega), List.getElem?_eq_none
        (by rw [h _ (List.getElem_mem hr)]; omega)]
  · rw [List.getElem?_eq_none (by omega), List.getElem?_eq_none (by omega)]

/-! ### C64 -/

/-- **C64.**  When the frame passes the check of the column names and the crate's call returns,
`predict_leaf_indices` returns a matrix with a row per row of the frame and a column per tree in use, and
the entry of row `r` and column `k` is the number of the leaf that row `r` reaches in tree `k`. -/
theorem C64_leaf_indices (o : PyBooster F D) (X : Frame D) (hX : o.validateFeatures X.features = .ok ())
    (flat : List Nat) (h : o.booster.predictLeafIndices X.data = .ok flat) :
    ∃ L, o.predictLeafIndices X = .ok (.ok L) ∧ L.length = X.data.rows ∧
      ∀ r < X.data.rows, ∃ row, L[r]? = some row ∧ row.length = o.booster.used ∧
        ∀ (k : Nat) (t : Tree F D), k < o.booster.used → o.booster.trees[k]? = some t →
          ∃ l, Route t.nodes (X.data.entry r) o.booster.missing 0 l ∧ row[k]? = some l.num := by
  obtain ⟨h1, h2, h3⟩ := (C47_leaf_indices o.booster X.data flat).1 h
  obtain ⟨L, e, hL, hrow⟩ := reshapeF_spec (rows := X.data.rows) (cols := o.booster.used)
    (by rw [h2, Nat.mul_comm])
  have hn : (match o.booster.predictionIteration with
      | none => o.booster.trees.length
      | some n => n) = o.booster.used := by
    unfold Booster.used; cases o.booster.predictionIteration <;> rfl
  refine ⟨L, ?_, hL, fun r hr => ?_⟩
  · simp only [PyBooster.predictLeafIndices, hX, h, Res.ok_bind]
    exact congrArg Res.ok ((congrArg _ hn).trans e)
  · obtain ⟨row, a1, a2, a3⟩ := hrow r hr
    refine ⟨row, a1, a2, fun k t hk ht => ?_⟩
    obtain ⟨l, hl, hg⟩ := h3 k r t hk ht hr
    exact ⟨l, hl, by rw [a3 k hk, hg]⟩

/-- **C64.**  `predict_contributions` returns a matrix with a row per row of the frame and one column more
than the frame; entry `(r, c)` is entry `r * (cols + 1) + c` of the crate's result. -/
theorem C64_contributions (o : PyBooster F D) (X : Frame D) (hX : o.validateFeatures X.features = .ok ())
    (name : String) (m : ContributionsMethod)
    (hm : ContributionsMethod.ofName (contributionName name) = some m)
    (flat : List D) (h : o.booster.predictContributions X.data m = .ok flat) :
    ∃ L, o.predictContributions X name = .ok (.ok L) ∧ L.length = X.data.rows ∧
      ∀ r < X.data.rows, ∃ row, L[r]? = some row ∧ row.length = X.data.cols + 1 ∧
        ∀ c ≤ X.data.cols, row[c]? = flat[r * (X.data.cols + 1) + c]? := by
  have h' := h
  simp only [Booster.predictContributions, Res.bind_eq_ok, Res.ok.injEq] at h
  obtain ⟨rows, hr, rfl⟩ := h
  obtain ⟨l1, l2⟩ := contribRows_lengths hr
  obtain ⟨L, e, hL, hrow⟩ := reshapeC_spec (l := rows.flatten) (rows := X.data.rows)
    (cols := X.data.cols + 1) (by rw [flatten_length_of l2, l1])
  refine ⟨L, ?_, hL, fun r hr => ?_⟩
  · simp only [PyBooster.predictContributions, hX, hm, h', Res.ok_bind, e]
  · obtain ⟨row, a1, a2, a3⟩ := hrow r hr
    exact ⟨row, a1, a2, fun c hc => a3 c (by omega)⟩

/-- **C64** (sums).  In exact arithmetic, for the method "Weight" or "weight", each row of the returned
matrix sums to the entry of `predict` for that row. -/
theorem C64_rows_sum {K : Type} [Field K] [LinearOrder K] [IsStrictOrderedRing K] {m32 m64 : Fmt K}
    [m32.Exact] [m64.Exact] (o : PyBooster (FX m32) (FX m64)) (X : Frame (FX m64)) (hs : X.data.Shaped)
    (hv : ∀ t ∈ o.booster.trees, t.FiniteValues) (hb : o.booster.baseScore.IsFin) (name : String)
    (hn : name = "Weight" ∨ name = "weight") (out : List (FX m64))
    (h : o.predict X = .ok (.ok out)) :
    ∃ L : List (List K), o.predictContributions X name = .ok (.ok (L.map fun r => r.map FX.fin)) ∧
      (∀ r ∈ L, r.length = X.data.cols + 1) ∧ out = L.map fun r => FX.fin r.sum := by
  unfold PyBooster.predict at h
  cases hX : o.validateFeatures X.features with
  | error e => rw [hX] at h; cases h
  | ok u =>
    simp only [hX, Res.bind_eq_ok, Res.ok.injEq, Except.ok.injEq] at h
    obtain ⟨out', hp, rfl⟩ := h
    obtain ⟨rows, e, hl, hsum⟩ := C12_weight_sum o.booster X.data hs hv hb out' hp
    refine ⟨rows, ?_, hl, hsum⟩
    have hm : ContributionsMethod.ofName (contributionName name) = some .weight := by
      rcases hn with rfl | rfl <;> rfl
    have hlen : rows.length = X.data.rows := by
      have := congrArg List.length hsum
      rw [List.length_map] at this
      rw [← this]
      exact ((C19_prediction_iteration o.booster X.data out').1 hp).2.1
    have hr : reshapeC ((rows.flatten.map FX.fin : List (FX m64))) X.data.rows (X.data.cols + 1) =
        .ok (rows.map fun r => r.map FX.fin) := by
      rw [List.map_flatten]
      have := reshapeC_flatten (ls := rows.map fun r => r.map (FX.fin (m := m64)))
        (n := X.data.cols + 1) (by
          intro l hl'
          obtain ⟨r, hr, rfl⟩ := List.mem_map.1 hl'
          rw [List.length_map]; exact hl r hr)
      rw [List.length_map, hlen] at this
      exact this
    simp only [PyBooster.predictContributions, hX, hm, e, Res.ok_bind, hr]

theorem history_shape [Fl.OrdLaws D] {env : Env R F D} {b b' : Booster F D} {data : Matrix D}
    {y w : List D} {es : List (EvalSet D)}
    (h : b.fit env data y w (some es) = .ok (b', .ok ())) (hes : es ≠ [])
    (hb : b.trees ≠ [] ∨ b.evaluationHistory = none) (hi : b'.trees ≠ []) {H : RowMajorMatrix D}
    (hH : b'.evaluationHistory = some H) :
    H.stride1 = 1 ∧ H.stride2 = H.cols ∧ H.data.length = H.rows * H.cols := by
  obtain ⟨base, binned, st, stop, N, hT⟩ := Booster.fit_trace h
  obtain ⟨rows, hI, _⟩ := hT.evalInv hes N (le_refl _)
  have hstart : b.start.evaluationHistory = none := by
    unfold Booster.start
    split
    · rename_i hc
      rcases hb with hb | hb
      · exact absurd (List.isEmpty_iff.1 hc) hb
      · exact hb
    · rfl
  have hN : 0 < N := by
    rw [← hT.length]; exact List.length_pos_iff.2 hi
  have hH' := hI.hist hstart hN
  rw [hT.last, hH] at hH'
  obtain rfl := Option.some.inj hH'
  refine ⟨rfl, rfl, ?_⟩
  dsimp only
  rw [← hI.len]
  refine flatten_length_of ?_
  intro r hr
  obtain ⟨i, hi, rfl⟩ := List.getElem_of_mem hr
  exact (hI.row i _ (List.getElem?_eq_getElem hi)).length_eq.symm

/-- **C64.**  After a successful `fit` with evaluation data `get_evaluation_history` returns a matrix with a
row per tree and a column per evaluation set; entry `(k, j)` is the metric on set `j` of the predictions of
the model with the first `k + 1` trees.  The weights of a set given without weights are ones. -/
theorem C64_history [Fl.OrdLaws D] {J : PyJson} {env : Env R F D} {o o' : PyBooster F D} {X : Frame D}
    {y : List D} {w : Option (List D)} {es : List (PyEval D)}
    (h : o.fit J env X y w (some es) = .ok (o', .ok ())) (hes : es ≠ [])
    (hsz : ∀ e ∈ es, e.y.length = e.frame.data.rows)
    (ho : o.booster.trees ≠ [] ∨ o.booster.evaluationHistory = none) (hi : o'.booster.trees ≠ []) :
    ∃ L, o'.evaluationHistory = .ok (some L) ∧ L.length = o'.booster.trees.length ∧
      ∀ k < o'.booster.trees.length, ∃ row, L[k]? = some row ∧ row.length = es.length ∧
        ∀ (j : Nat) (e : PyEval D), es[j]? = some e → ∃ p v,
          ({ o'.booster with predictionIteration := some (k + 1) }).predict e.frame.data = .ok p ∧
          o'.booster.metric.eval env.sorter e.y p
            (e.w.getD (List.replicate e.frame.data.rows 1)) = .ok v ∧ row[j]? = some v := by
  cases pyFit_iff.1 h with
  | @done b m t us _ _ _ hc =>
    dsimp only at hi ⊢
    simp only [Option.map_some] at hc
    have ho' : (o.ready J X m t).trees ≠ [] ∨ (o.ready J X m t).evaluationHistory = none := by
      have := describe_booster J o X
      unfold PyBooster.ready
      dsimp only
      rw [this]; exact ho
    obtain ⟨H, hH, h1, h2, h3⟩ := C21_history hc (by simpa using hes) (by
      intro e he
      obtain ⟨e', he', rfl⟩ := List.mem_map.1 he
      exact hsz e' he') ho' hi
    rw [List.length_map] at h2
    have hmet : (o.ready J X m t).metric = b.metric := by
      obtain ⟨-, -, k2⟩ := Booster.fit_keeps hc
      rw [k2]; rfl
    obtain ⟨s1, s2, s3⟩ := history_shape hc (by simpa using hes) ho' hi hH
    obtain ⟨L, e, hL, hrow⟩ := reshapeC_spec s3
    refine ⟨L, ?_, by rw [hL, h1], fun k hk => ?_⟩
    · simp only [PyBooster.evaluationHistory, hH, e]; rfl
    · obtain ⟨row, a1, a2, a3⟩ := hrow k (by omega)
      refine ⟨row, a1, by rw [a2, h2], fun j ev hj => ?_⟩
      have hjl := (List.getElem?_eq_some_iff.1 hj).1
      obtain ⟨p, v, p1, p2, p3⟩ := h3 k j ev.toSet hk (by rw [List.getElem?_map, hj]; rfl)
      refine ⟨p, v, p1, by rw [← hmet]; exact p2, ?_⟩
      rw [a3 j (by omega)]
      simp only [RowMajorMatrix.get, idx_eq_ok, s1, s2, Nat.mul_one] at p3
      rw [Nat.mul_comm]; exact p3

/-! ### Examples -/

/-- Fitted on a data frame with an evaluation set, asked on an array. -/
example : ∃ o o' : PyBooster Q Q, o.fit exJson exEnv exFrame exY none (some [exPyEval]) = .ok (o', .ok ()) ∧
    o.booster.evaluationHistory = none ∧ o'.booster.trees ≠ [] ∧
    o'.validateFeatures exArray.features = .ok () ∧
    o'.predictLeafIndices exArray = .ok (.ok [[3, 3], [3, 3], [4, 4], [5, 5], [5, 5], [6, 6]]) ∧
    o'.predictContributions exArray "weight" = .ok (.ok [[q (-3/2), q 0, q 2], [q (-3/2), q 0, q 2],
      [q (-3/4), q 0, q 2], [q (3/4), q 0, q 2], [q (3/4), q 0, q 2], [q (9/4), q 0, q 2]]) ∧
    o'.evaluationHistory = .ok (some [[q (5/6)], [q (5/24)]]) := by
  have h : (match exFitted exFrame exY (some [exPyEval]) with
    | some o => decide (o.booster.trees ≠ [] ∧ o.validateFeatures exArray.features = .ok () ∧
        o.predictLeafIndices exArray = .ok (.ok [[3, 3], [3, 3], [4, 4], [5, 5], [5, 5], [6, 6]]) ∧
        o.predictContributions exArray "weight" = .ok (.ok [[q (-3/2), q 0, q 2], [q (-3/2), q 0, q 2],
          [q (-3/4), q 0, q 2], [q (3/4), q 0, q 2], [q (3/4), q 0, q 2], [q (9/4), q 0, q 2]]) ∧
        o.evaluationHistory = .ok (some [[q (5/6)], [q (5/24)]]))
    | none => false) = true := by decide +kernel
  split at h
  · rename_i o ho
    obtain ⟨_, o0, hn, hf⟩ := exFitted_made ho
    obtain ⟨b, hb, rfl⟩ := pyInit_eq_ok.1 hn
    exact ⟨_, o, hf, (crateNew_init hb).2.2.2.1, of_decide_eq_true h⟩
  · cases h

end Verif
