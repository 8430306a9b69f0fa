import Verif.Proofs.Pivot

/-!
# C30: partitioning the rows of a node

The specification `BinSide` says where a binned value goes: bin 0 is the missing bin.
-/

namespace Verif

/-- Where a binned value goes at a split bin. -/
inductive BinSide where
  | missing
  | left
  | right
  deriving DecidableEq, Repr

/-- Bin 0 is missing; other bins go left when they are below the split bin. -/
def binSide (split b : Nat) : BinSide :=
  if b = 0 then .missing else if b < split then .left else .right

/-- Rows of `index` whose bin is on one of the sides `s`. -/
def rowsOn (feature : List Nat) (split : Nat) (s : List BinSide) (index : List Nat) : List Nat :=
  index.filter fun r => s.contains (binSide split (feature.getD r 0))

/-- The sides that a binary split sends left. -/
def leftSides (missingRight : Bool) : List BinSide :=
  if missingRight then [.left] else [.missing, .left]

/-- The sides that a binary split sends right. -/
def rightSides (missingRight : Bool) : List BinSide :=
  if missingRight then [.missing, .right] else [.right]

theorem goesLeft_iff (feature : List Nat) (split : Nat) (mr : Bool) (r : Nat) :
    goesLeft feature split mr r = (leftSides mr).contains (binSide split (feature.getD r 0)) := by
  unfold goesLeft missingGoesLeft leftSides binSide
  by_cases h0 : feature.getD r 0 = 0
  · rw [if_pos h0, if_pos h0]; cases mr <;> rfl
  · rw [if_neg h0, if_neg h0]
    by_cases h1 : feature.getD r 0 < split
    · rw [if_pos h1, decide_eq_true h1]; cases mr <;> rfl
    · rw [if_neg h1, decide_eq_false h1]; cases mr <;> rfl

theorem goesRight_iff (feature : List Nat) (split : Nat) (mr : Bool) (r : Nat) :
    (!goesLeft feature split mr r) =
      (rightSides mr).contains (binSide split (feature.getD r 0)) := by
  rw [goesLeft_iff]
  generalize binSide split (feature.getD r 0) = s
  cases mr <;> cases s <;> rfl

theorem mem_take_getD {l : List Nat} {k r : Nat} (h : r ∈ l.take k) :
    ∃ j, j < k ∧ j < l.length ∧ l.getD j 0 = r := by
  obtain ⟨j, hj, rfl⟩ := List.getElem_of_mem h
  rw [List.length_take] at hj
  have : j < l.length := by omega
  exact ⟨j, by omega, this, by rw [getD_of_lt this]; simp⟩

theorem mem_drop_getD {l : List Nat} {k r : Nat} (h : r ∈ l.drop k) :
    ∃ j, k ≤ j ∧ j < l.length ∧ l.getD j 0 = r := by
  obtain ⟨j, hj, rfl⟩ := List.getElem_of_mem h
  rw [List.length_drop] at hj
  have : k + j < l.length := by omega
  exact ⟨k + j, by omega, this, by rw [getD_of_lt this]; simp⟩

theorem filter_all {p : Nat → Bool} {l : List Nat} (h : ∀ r ∈ l, p r = true) : l.filter p = l :=
  List.filter_eq_self.2 h

theorem filter_none {p : Nat → Bool} {l : List Nat} (h : ∀ r ∈ l, p r = false) :
    l.filter p = [] :=
  List.filter_eq_nil_iff.2 fun r hr => by simp [h r hr]

/-- **C30** (binary splits, `pivot_on_split`): the rows are permuted; when at least one row goes
right, the rows before the boundary are exactly the rows that go left and the rows from the boundary
on are exactly those that go right. -/
theorem C30_binary {index feature : List Nat} {split : Nat} {mr : Bool}
    (hf : ∀ r ∈ index, r < feature.length)
    (hr : rowsOn feature split (rightSides mr) index ≠ []) :
    ∃ index' k, pivotOnSplit index feature split mr = .ok (index', k) ∧ index'.Perm index ∧
      (index'.take k).Perm (rowsOn feature split (leftSides mr) index) ∧
      (index'.drop k).Perm (rowsOn feature split (rightSides mr) index) := by
  have hne : index ≠ [] := by rintro rfl; exact hr rfl
  obtain ⟨index', k, h1, h2, h3, h4, h5, h6⟩ := pivotOnSplit_spec (split := split) (mr := mr) hne hf
  have hlen : index'.length = index.length := h2.length_eq
  have hk : goesLeft feature split mr (index'.getD k 0) = false := by
    by_cases hlt : k < index.length - 1
    · exact h6 hlt
    · by_contra hc
      apply hr
      refine filter_none fun r hr => ?_
      obtain ⟨j, hj, rfl⟩ := List.getElem_of_mem (h2.mem_iff.2 hr)
      rw [← goesRight_iff, ← getD_of_lt hj]
      by_cases hjk : j < k
      · rw [h4 j hjk]; rfl
      · have : j = k := by omega
        subst this; simpa using hc
  have hL : ∀ r ∈ index'.take k, goesLeft feature split mr r = true := by
    intro r hr
    obtain ⟨j, a, _, rfl⟩ := mem_take_getD hr
    exact h4 j a
  have hR : ∀ r ∈ index'.drop k, goesLeft feature split mr r = false := by
    intro r hr
    obtain ⟨j, a, b, rfl⟩ := mem_drop_getD hr
    by_cases hjk : j = k
    · subst hjk; exact hk
    · exact h5 j (by omega) (by omega)
  refine ⟨index', k, h1, h2, ?_, ?_⟩
  · have := h2.filter (goesLeft feature split mr)
    rw [← List.take_append_drop k index', List.filter_append, filter_all hL, filter_none hR,
      List.append_nil] at this
    unfold rowsOn
    rw [List.filter_congr (q := goesLeft feature split mr) fun r _ => (goesLeft_iff ..).symm]
    exact this
  · have := h2.filter (fun r => !goesLeft feature split mr r)
    rw [← List.take_append_drop k index', List.filter_append,
      filter_none (p := fun r => !goesLeft feature split mr r) fun r hr => by simp [hL r hr],
      filter_all (p := fun r => !goesLeft feature split mr r) fun r hr => by simp [hR r hr],
      List.nil_append] at this
    unfold rowsOn
    rw [List.filter_congr (q := fun r => !goesLeft feature split mr r)
      fun r _ => (goesRight_iff ..).symm]
    exact this

/-- **C30** (binary splits, one-sided case): when no row goes right the boundary is the last
position instead of the end: the last row is counted on the wrong side. -/
theorem C30_binary_one_sided {index feature : List Nat} {split : Nat} {mr : Bool}
    (hf : ∀ r ∈ index, r < feature.length) (hne : index ≠ [])
    (hr : rowsOn feature split (rightSides mr) index = []) :
    ∃ index', pivotOnSplit index feature split mr = .ok (index', index.length - 1) ∧
      index'.Perm index := by
  obtain ⟨index', k, h1, h2, h3, h4, h5, h6⟩ := pivotOnSplit_spec (split := split) (mr := mr) hne hf
  have hall : ∀ r ∈ index, goesLeft feature split mr r = true := by
    intro r hri
    have := List.filter_eq_nil_iff.1 hr r hri
    rw [← goesRight_iff] at this
    simpa using this
  have hk : k = index.length - 1 := by
    by_contra hc
    have := h6 (by omega)
    rw [hall _ (h2.mem_iff.1 (getD_mem (by rw [h2.length_eq]; omega)))] at this
    cases this
  subst hk
  exact ⟨index', h1, h2⟩

/-- **C30** (ternary splits, `pivot_on_split_exclude_missing`): the rows are permuted; when at least
one row goes right, the missing rows come first, then the rows below the split bin, then the rows
that go right, with the reported boundaries. -/
theorem C30_ternary {index feature : List Nat} {split : Nat} (hs : 0 < split)
    (hf : ∀ r ∈ index, r < feature.length)
    (hr : rowsOn feature split [.right] index ≠ []) :
    ∃ index' m k, pivotOnSplitExcludeMissing index feature split = .ok (index', m, k) ∧
      index'.Perm index ∧ m ≤ k ∧ k < index.length ∧
      (index'.take m).Perm (rowsOn feature split [.missing] index) ∧
      ((index'.drop m).take (k - m)).Perm (rowsOn feature split [.left] index) ∧
      (index'.drop k).Perm (rowsOn feature split [.right] index) := by
  have hne : index ≠ [] := by rintro rfl; exact hr rfl
  obtain ⟨index', m, k, h1, hI, h6⟩ := pivotOnSplitExcludeMissing_spec hs hne hf
  have hlen : index'.length = index.length := hI.perm.length_eq
  have side0 : ∀ b, b = 0 → binSide split b = .missing := fun b h => by simp [binSide, h]
  have side1 : ∀ b, b ≠ 0 → b < split → binSide split b = .left := fun b h h' => by
    simp [binSide, h, h']
  have side2 : ∀ b, split ≤ b → binSide split b = .right := fun b h => by
    have h0 : b ≠ 0 := by omega
    have h1 : ¬ b < split := by omega
    simp [binSide, h0, h1]
  have hkl := hI.ll
  have hmk := hI.ml
  have hk : split ≤ feature.getD (index'.getD k 0) 0 := by
    by_cases hlt : k < index.length - 1
    · exact h6 hlt
    · by_contra hc
      apply hr
      refine filter_none fun r hr => ?_
      obtain ⟨j, hj, rfl⟩ := List.getElem_of_mem (hI.perm.mem_iff.2 hr)
      rw [← getD_of_lt hj]
      by_cases hjm : j < m
      · rw [side0 _ (hI.miss j hjm)]; rfl
      · by_cases hjk : j < k
        · have := hI.left j (by omega) hjk
          rw [side1 _ this.1 this.2]; rfl
        · have : j = k := by omega
          subst this
          by_cases h0 : feature.getD (index'.getD j 0) 0 = 0
          · rw [side0 _ h0]; rfl
          · rw [side1 _ h0 (by omega)]; rfl
  have hM : ∀ r ∈ index'.take m, binSide split (feature.getD r 0) = .missing := by
    intro r hr
    obtain ⟨j, a, _, rfl⟩ := mem_take_getD hr
    exact side0 _ (hI.miss j a)
  have hL : ∀ r ∈ (index'.drop m).take (k - m), binSide split (feature.getD r 0) = .left := by
    intro r hr
    rw [← List.drop_take] at hr
    obtain ⟨j, a, b, rfl⟩ := mem_drop_getD hr
    rw [List.length_take] at b
    have hj : (index'.take k).getD j 0 = index'.getD j 0 := by
      rw [getD_of_lt (by rw [List.length_take]; omega), getD_of_lt (by omega)]; simp
    rw [hj]
    have := hI.left j a (by omega)
    exact side1 _ this.1 this.2
  have hR : ∀ r ∈ index'.drop k, binSide split (feature.getD r 0) = .right := by
    intro r hr
    obtain ⟨j, a, b, rfl⟩ := mem_drop_getD hr
    by_cases hjk : j = k
    · subst hjk; exact side2 _ hk
    · exact side2 _ (hI.right j (by omega) b)
  have hdec : index' = index'.take m ++ ((index'.drop m).take (k - m) ++ index'.drop k) := by
    conv_lhs => rw [← List.take_append_drop m index', ← List.take_append_drop (k - m) (index'.drop m)]
    rw [List.drop_drop]
    congr 3; omega
  have key : ∀ s : BinSide, (rowsOn feature split [s] index').Perm (rowsOn feature split [s] index) :=
    fun s => hI.perm.filter _
  refine ⟨index', m, k, h1, hI.perm, hmk, by omega, ?_, ?_, ?_⟩
  · refine List.Perm.trans ?_ (key .missing)
    conv_rhs => rw [hdec]
    rw [rowsOn, List.filter_append, List.filter_append, filter_all (l := index'.take m)
      fun r hr => by rw [hM r hr]; rfl,
      filter_none (l := (index'.drop m).take (k - m)) fun r hr => by rw [hL r hr]; rfl,
      filter_none (l := index'.drop k) fun r hr => by rw [hR r hr]; rfl]
    simp
  · refine List.Perm.trans ?_ (key .left)
    conv_rhs => rw [hdec]
    rw [rowsOn, List.filter_append, List.filter_append, filter_none (l := index'.take m)
      fun r hr => by rw [hM r hr]; rfl,
      filter_all (l := (index'.drop m).take (k - m)) fun r hr => by rw [hL r hr]; rfl,
      filter_none (l := index'.drop k) fun r hr => by rw [hR r hr]; rfl]
    simp
  · refine List.Perm.trans ?_ (key .right)
    conv_rhs => rw [hdec]
    rw [rowsOn, List.filter_append, List.filter_append, filter_none (l := index'.take m)
      fun r hr => by rw [hM r hr]; rfl,
      filter_none (l := (index'.drop m).take (k - m)) fun r hr => by rw [hL r hr]; rfl,
      filter_all (l := index'.drop k) fun r hr => by rw [hR r hr]; rfl]
    simp

/-- **C30** (ternary splits, one-sided case): when no row goes right the second boundary is the last
position instead of the end. -/
theorem C30_ternary_one_sided {index feature : List Nat} {split : Nat} (hs : 0 < split)
    (hf : ∀ r ∈ index, r < feature.length) (hne : index ≠ [])
    (hr : rowsOn feature split [.right] index = []) :
    ∃ index' m, pivotOnSplitExcludeMissing index feature split = .ok (index', m, index.length - 1) ∧
      index'.Perm index := by
  obtain ⟨index', m, k, h1, hI, h6⟩ := pivotOnSplitExcludeMissing_spec hs hne hf
  have hlen : index'.length = index.length := hI.perm.length_eq
  have hkl := hI.ll
  have hk : k = index.length - 1 := by
    by_contra hc
    have := h6 (by omega)
    have hmem := hI.perm.mem_iff.1 (getD_mem hkl)
    have h := List.filter_eq_nil_iff.1 hr _ hmem
    have h0 : feature.getD (index'.getD k 0) 0 ≠ 0 := by omega
    have h1 : ¬ feature.getD (index'.getD k 0) 0 < split := by omega
    rw [binSide, if_neg h0, if_neg h1] at h
    exact h rfl
  subst hk
  exact ⟨index', m, h1, hI.perm⟩

/-- Five rows, bins `[2, 0, 1, 3, 0]`, split bin 2. -/
example : rowsOn [2, 0, 1, 3, 0] 2 [.right] [0, 1, 2, 3, 4] = [0, 3] ∧
    rowsOn [2, 0, 1, 3, 0] 2 (rightSides true) [0, 1, 2, 3, 4] = [0, 1, 3, 4] ∧
    pivotOnSplit [0, 1, 2, 3, 4] [2, 0, 1, 3, 0] 2 true = .ok ([2, 1, 0, 3, 4], 1) ∧
    pivotOnSplit [0, 1, 2, 3, 4] [2, 0, 1, 3, 0] 2 false = .ok ([4, 1, 2, 3, 0], 3) ∧
    pivotOnSplitExcludeMissing [0, 1, 2, 3, 4] [2, 0, 1, 3, 0] 2 = .ok ([4, 1, 2, 3, 0], 2, 3) := by
  decide

/-- The one-sided cases: three rows below the split bin, boundary 2 instead of 3. -/
example : rowsOn [1, 1, 1] 2 [.right] [0, 1, 2] = [] ∧
    pivotOnSplit [0, 1, 2] [1, 1, 1] 2 false = .ok ([0, 1, 2], 2) ∧
    pivotOnSplitExcludeMissing [0, 1, 2] [1, 1, 0] 2 = .ok ([0, 1, 2], 0, 2) := by
  decide

end Verif
