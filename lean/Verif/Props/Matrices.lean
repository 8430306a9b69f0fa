import Verif.Proofs.Data

/-!
# C57 Matrix views agree
-/

namespace Verif

variable {T : Type}

/-- C57 (column-major matrix).  In a matrix whose buffer has `rows * cols` entries, the entry at
`(i, j)` is the buffer entry at `j * rows + i`, and it is what `get` returns, what stands at place `j`
of `get_row i` (which has `cols` entries) and at place `i` of `get_col j` (which has `rows`
entries). -/
theorem C57_column_major_views (m : Matrix T) (hlen : m.data.length = m.rows * m.cols)
    (i j : Nat) (hi : i < m.rows) (hj : j < m.cols) :
    ∃ x row col, m.data[j * m.rows + i]? = some x ∧ m.get i j = .ok x ∧
      m.getRow i = .ok row ∧ row.length = m.cols ∧ row[j]? = some x ∧
      m.getCol j = .ok col ∧ col.length = m.rows ∧ col[i]? = some x := by
  have hjr : (j + 1) * m.rows ≤ m.rows * m.cols := by
    rw [Nat.mul_comm m.rows]; exact Nat.mul_le_mul_right _ hj
  have hlt : j * m.rows + i < m.data.length := by
    rw [hlen]; rw [Nat.succ_mul] at hjr; omega
  refine ⟨m.data[j * m.rows + i], stepAux m.rows 0 (m.data.drop i),
    (m.data.drop (j * m.rows)).take m.rows, List.getElem?_eq_getElem hlt, ?_, ?_, ?_, ?_, ?_, ?_, ?_⟩
  · have : m.itemIndex i j = j * m.rows + i := by simp [Matrix.itemIndex]; omega
    simp [Matrix.get, this, idx_of_lt hlt]
  · simp [Matrix.getRow]; omega
  · have key : ∀ k, (stepAux m.rows 0 (m.data.drop i))[k]? = m.data[i + k * m.rows]? := by
      intro k; rw [getElem?_stepAux _ (by omega)]; simp
    apply Nat.le_antisymm
    · by_contra hc
      have h1 : m.cols < (stepAux m.rows 0 (m.data.drop i)).length := by omega
      have := key m.cols
      rw [List.getElem?_eq_getElem h1, List.getElem?_eq_none] at this
      · simp at this
      · rw [hlen, Nat.mul_comm]; omega
    · by_contra hc
      have h1 : (stepAux m.rows 0 (m.data.drop i)).length < m.cols := by omega
      have h2 := key (stepAux m.rows 0 (m.data.drop i)).length
      rw [List.getElem?_eq_none (le_refl _), eq_comm, List.getElem?_eq_none_iff, hlen] at h2
      have h3 : ((stepAux m.rows 0 (m.data.drop i)).length + 1) * m.rows ≤ m.cols * m.rows :=
        Nat.mul_le_mul_right _ h1
      rw [Nat.succ_mul, Nat.mul_comm m.cols] at h3
      omega
  · rw [getElem?_stepAux _ (by omega), List.getElem?_drop]
    rw [← List.getElem?_eq_getElem hlt]; congr 1; omega
  · rw [Matrix.getCol, Matrix.getColSlice, slice_eq_ok]
    rw [Nat.succ_mul] at hjr
    simp only [Matrix.itemIndex]
    refine ⟨by omega, by omega, ?_⟩
    congr 2 <;> omega
  · rw [Nat.succ_mul] at hjr
    simp; omega
  · rw [List.getElem?_take_of_lt hi, List.getElem?_drop, List.getElem?_eq_getElem hlt]

/-- A row-major matrix as `RowMajorMatrix::new` and `append_row` build it. -/
structure RowMajorMatrix.Wf (m : RowMajorMatrix T) : Prop where
  stride1 : m.stride1 = 1
  stride2 : m.stride2 = m.cols
  length : m.data.length = m.rows * m.cols

/-- C57 (row-major matrix).  Appending `k` whole rows keeps all old entries readable and makes the new
entries readable below them. -/
theorem C57_append_rows (m : RowMajorMatrix T) (hm : m.Wf) (hc : 0 < m.cols) (items : List T)
    (k : Nat) (hk : items.length = k * m.cols) :
    ∃ m', m.appendRow items = .ok m' ∧ m'.Wf ∧ m'.cols = m.cols ∧ m'.rows = m.rows + k ∧
      (∀ i j, i < m.rows → j < m.cols → m'.get i j = m.get i j ∧ ∃ x, m.get i j = .ok x) ∧
      (∀ i j, i < k → j < m.cols → ∃ x, items[i * m.cols + j]? = some x ∧
        m'.get (m.rows + i) j = .ok x) := by
  have hdiv : items.length / m.cols = k := by rw [hk, Nat.mul_div_cancel _ hc]
  have hmod : items.length % m.cols = 0 := by simp [hk]
  refine ⟨{ m with rows := m.rows + k, data := m.data ++ items }, ?_, ?_, rfl, rfl, ?_, ?_⟩
  · rw [RowMajorMatrix.appendRow]; simp [hmod, hdiv]; omega
  · exact ⟨hm.stride1, hm.stride2, by simp [hm.length, hk, Nat.add_mul]⟩
  · intro i j hi hj
    have h1 : (i + 1) * m.cols ≤ m.rows * m.cols := Nat.mul_le_mul_right _ hi
    rw [Nat.succ_mul] at h1
    have hlt : m.stride2 * i + j * m.stride1 < m.data.length := by
      rw [hm.stride1, hm.stride2, hm.length, Nat.mul_comm m.cols]; omega
    refine ⟨?_, _, idx_of_lt hlt⟩
    simp only [RowMajorMatrix.get, idx]
    rw [List.getElem?_append_left hlt]
  · intro i j hi hj
    have h1 : (i + 1) * m.cols ≤ k * m.cols := Nat.mul_le_mul_right _ hi
    rw [Nat.succ_mul] at h1
    have hlt : i * m.cols + j < items.length := by omega
    refine ⟨_, List.getElem?_eq_getElem hlt, ?_⟩
    simp only [RowMajorMatrix.get, idx, hm.stride1, hm.stride2]
    have : m.cols * (m.rows + i) + j * 1 = m.data.length + (i * m.cols + j) := by
      rw [hm.length, Nat.mul_add, Nat.mul_comm m.cols, Nat.mul_comm m.cols]; omega
    rw [this, List.getElem?_append_right (by omega)]
    simp [List.getElem?_eq_getElem hlt]

/-- C57 (row-major matrix).  Starting from the empty matrix, any number of appended rows can be read
back. -/
theorem C57_append_read_back (c : Nat) (hc : 0 < c) (rows : List (List T))
    (hr : ∀ r ∈ rows, r.length = c) :
    ∃ m, Res.foldM' RowMajorMatrix.appendRow (RowMajorMatrix.new [] 0 c) rows = .ok m ∧
      m.rows = rows.length ∧ m.cols = c ∧
      ∀ (i j : Nat) (r : List T) (x : T), rows[i]? = some r → r[j]? = some x → m.get i j = .ok x := by
  suffices H : ∀ m : RowMajorMatrix T, m.Wf → m.cols = c →
      ∃ m', Res.foldM' RowMajorMatrix.appendRow m rows = .ok m' ∧
        m'.rows = m.rows + rows.length ∧ m'.cols = c ∧
        (∀ i j, i < m.rows → j < c → m'.get i j = m.get i j) ∧
        ∀ (i j : Nat) (r : List T) (x : T), rows[i]? = some r → r[j]? = some x →
          m'.get (m.rows + i) j = .ok x by
    obtain ⟨m', h1, h2, h3, -, h5⟩ := H (RowMajorMatrix.new [] 0 c) ⟨rfl, rfl, by simp [RowMajorMatrix.new]⟩ rfl
    refine ⟨m', h1, by simpa [RowMajorMatrix.new] using h2, h3, ?_⟩
    simpa [RowMajorMatrix.new] using h5
  induction rows with
  | nil => intro m _ hcm; exact ⟨m, rfl, by simp, hcm, by simp, by simp⟩
  | cons r rows ih =>
    intro m hm hcm
    obtain ⟨m1, h1, hw1, hc1, hr1, hold, hnew⟩ :=
      C57_append_rows m hm (by omega) r 1 (by simp [hr r (by simp), hcm])
    obtain ⟨m2, h2, hr2, hc2, hold2, hnew2⟩ := ih (fun s hs => hr s (by simp [hs])) m1 hw1 (by omega)
    refine ⟨m2, by simp [h1, h2], by simp [hr2, hr1]; omega, hc2, ?_, ?_⟩
    · intro i j hi hj
      rw [hold2 i j (by omega) hj]
      exact (hold i j hi (by omega)).1
    · intro i j s x hs hx
      cases i with
      | zero =>
        simp at hs; subst hs
        have hj : j < m.cols := by
          have := (List.getElem?_eq_some_iff.1 hx).1
          rw [hr r (by simp)] at this; omega
        obtain ⟨y, hy, hg⟩ := hnew 0 j (by omega) hj
        rw [hold2 _ _ (by omega) (by omega), Nat.add_zero]
        rw [Nat.add_zero] at hg
        simp at hy; rw [hg]; rw [hx] at hy; simp_all
      | succ i =>
        have := hnew2 i j s x (by simpa using hs) hx
        rw [hr1] at this
        rw [← this]; congr 1; omega

/-- C57 (row-major matrix).  `append_row` panics exactly when the number of items is not a multiple
of the number of columns, or there are no columns. -/
theorem C57_append_panics (m : RowMajorMatrix T) (items : List T) :
    m.appendRow items = .panic ↔ m.cols = 0 ∨ ¬ m.cols ∣ items.length := by
  unfold RowMajorMatrix.appendRow
  rw [Nat.dvd_iff_mod_eq_zero]
  split
  · simp [*]
  · split <;> simp [*]

example : (Matrix.mk [1, 2, 3, 4, 5, 6] 2 3).getRow 1 = .ok [2, 4, 6] := by decide
example : (Matrix.mk [1, 2, 3, 4, 5, 6] 2 3).getCol 1 = .ok [3, 4] := by decide
example : (RowMajorMatrix.new [1, 2] 1 2).Wf := ⟨rfl, rfl, rfl⟩
example : (RowMajorMatrix.new [1, 2] 1 2).appendRow [3] = .panic := by decide

end Verif
