import Verif.Model.Utils
import Verif.Proofs.Data

/-!
# The partition routines (`pivot_on_split`, `pivot_on_split_exclude_missing`)

`pivotOnSplit_spec` and `pivotOnSplitExcludeMissing_spec` describe the results of the two loops.
-/

namespace Verif

theorem getD_of_lt {l : List Nat} {k : Nat} (h : k < l.length) : l.getD k 0 = l[k] := by
  simp [List.getD_eq_getElem?_getD, h]

theorem idx_getD {l : List Nat} {k : Nat} (h : k < l.length) : idx l k = .ok (l.getD k 0) := by
  rw [idx_of_lt h, getD_of_lt h]

theorem getD_mem {l : List Nat} {k : Nat} (h : k < l.length) : l.getD k 0 ∈ l := by
  rw [getD_of_lt h]; exact List.getElem_mem h

/-- What swapping two elements does. -/
theorem swapIdx_spec {l : List Nat} {i j : Nat} (hi : i < l.length) (hj : j < l.length) :
    ∃ l', swapIdx l i j = .ok l' ∧ l'.Perm l ∧
      ∀ k, l'.getD k 0 = if k = j then l.getD i 0 else if k = i then l.getD j 0 else l.getD k 0 := by
  refine ⟨(l.set i (l.getD j 0)).set j (l.getD i 0), ?_, ?_, ?_⟩
  · simp [swapIdx, idx_getD hi, idx_getD hj]
  · rw [getD_of_lt hi, getD_of_lt hj]
    exact List.set_set_perm hi hj
  · intro k
    simp only [List.getD_eq_getElem?_getD, List.getElem?_set, List.length_set]
    by_cases h1 : k = j
    · subst h1; simp [hj]
    · by_cases h2 : k = i
      · subst h2
        simp [h1, Ne.symm h1, hi]
      · simp [h1, h2, Ne.symm h1, Ne.symm h2]

section plain
variable {feature : List Nat} {split : Nat} {mr : Bool}

/-- Does row `r` go left? -/
def goesLeft (feature : List Nat) (split : Nat) (mr : Bool) (r : Nat) : Bool :=
  missingGoesLeft split (feature.getD r 0) mr

theorem pivotLow_spec {index : List Nat} {maxIdx : Nat} (hm : maxIdx < index.length)
    (hf : ∀ r ∈ index, r < feature.length) :
    ∀ n low, low ≤ maxIdx → maxIdx - low ≤ n → ∃ low',
      pivotLow index feature split mr maxIdx n low = .ok low' ∧ low ≤ low' ∧ low' ≤ maxIdx ∧
      (∀ k, low ≤ k → k < low' → goesLeft feature split mr (index.getD k 0) = true) ∧
      (low' < maxIdx → goesLeft feature split mr (index.getD low' 0) = false) := by
  intro n
  induction n with
  | zero =>
    intro low hl hn
    refine ⟨low, ?_, le_refl _, hl, fun k _ _ => by omega, fun h => by omega⟩
    simp [pivotLow]; omega
  | succ n ih =>
    intro low hl hn
    by_cases h : low < maxIdx
    · have hlen : low < index.length := by omega
      simp only [pivotLow, h, if_true, idx_getD hlen, Res.ok_bind, idx_getD (hf _ (getD_mem hlen))]
      by_cases hg : missingGoesLeft split (feature.getD (index.getD low 0) 0) mr = true
      · obtain ⟨low', h1, h2, h3, h4, h5⟩ := ih (low + 1) (by omega) (by omega)
        refine ⟨low', by rw [if_pos hg, h1], by omega, h3, ?_, h5⟩
        intro k hk hk'
        by_cases hkl : k = low
        · subst hkl; exact hg
        · exact h4 k (by omega) hk'
      · refine ⟨low, by rw [if_neg hg], le_refl _, hl, fun k _ _ => by omega, fun _ => ?_⟩
        exact Bool.eq_false_iff.2 hg
    · exact ⟨low, by simp [pivotLow, h], le_refl _, hl, fun k _ _ => by omega, fun h' => by omega⟩

theorem pivotHigh_spec {index : List Nat} {low : Nat}
    (hf : ∀ r ∈ index, r < feature.length) :
    ∀ n high, high < index.length → high - low ≤ n → ∃ high',
      pivotHigh index feature split mr low n high = .ok high' ∧ high' ≤ high ∧
      (low ≤ high → low ≤ high') ∧
      (∀ k, high' < k → k ≤ high → goesLeft feature split mr (index.getD k 0) = false) ∧
      (low < high' → goesLeft feature split mr (index.getD high' 0) = true) := by
  intro n
  induction n with
  | zero =>
    intro high hl hn
    refine ⟨high, ?_, le_refl _, id, fun k _ _ => by omega, fun h => by omega⟩
    simp [pivotHigh]; omega
  | succ n ih =>
    intro high hl hn
    by_cases h : low < high
    · simp only [pivotHigh, h, if_true, idx_getD hl, Res.ok_bind, idx_getD (hf _ (getD_mem hl))]
      by_cases hg : missingGoesLeft split (feature.getD (index.getD high 0) 0) mr = true
      · exact ⟨high, by rw [if_pos hg], le_refl _, id, fun k _ _ => by omega, fun _ => hg⟩
      · obtain ⟨high', h1, h2, h3, h4, h5⟩ := ih (high - 1) (by omega) (by omega)
        refine ⟨high', by rw [if_neg hg, h1], by omega, fun _ => h3 (by omega), ?_, h5⟩
        intro k hk hk'
        by_cases hkl : k = high
        · subst hkl; exact Bool.eq_false_iff.2 hg
        · exact h4 k hk (by omega)
    · exact ⟨high, by simp [pivotHigh, h], le_refl _, id, fun k _ _ => by omega,
        fun h' => by omega⟩

theorem pivotLoop_spec {index0 : List Nat} (hf : ∀ r ∈ index0, r < feature.length) :
    ∀ n (index : List Nat) low high, index.Perm index0 → low ≤ high + 1 → low < index.length →
      high < index.length →
      (∀ k, k < low → goesLeft feature split mr (index.getD k 0) = true) →
      (∀ k, high < k → k < index.length → goesLeft feature split mr (index.getD k 0) = false) →
      (low = high → high = index.length - 1 ∨ goesLeft feature split mr (index.getD low 0) = false) →
      (high - low < n ∨
        (high - low ≤ n ∧ goesLeft feature split mr (index.getD low 0) = true)) →
      ∃ index' low', pivotLoop feature split mr (index.length - 1) n index low high
          = .ok (index', low') ∧ index'.Perm index0 ∧ low' < index.length ∧
        (∀ k, k < low' → goesLeft feature split mr (index'.getD k 0) = true) ∧
        (∀ k, low' < k → k < index.length → goesLeft feature split mr (index'.getD k 0) = false) ∧
        (low' < index.length - 1 → goesLeft feature split mr (index'.getD low' 0) = false) := by
  intro n
  induction n with
  | zero =>
    intro index low high hp hlh hl hh hL hR hE hn
    refine ⟨index, low, ?_, hp, hl, hL, fun k hk hk' => hR k (by omega) hk', fun h => ?_⟩
    · simp [pivotLoop]; omega
    · rcases hn with hn | ⟨hn, hg⟩
      · omega
      · rcases Nat.lt_or_ge high low with h1 | h1
        · exact hR low h1 hl
        · rcases hE (by omega) with h2 | h2
          · omega
          · exact h2
  | succ n ih =>
    intro index low high hp hlh hl hh hL hR hE hn
    by_cases hlt : low < high
    · have hf' : ∀ r ∈ index, r < feature.length := fun r hr => hf r (hp.mem_iff.1 hr)
      obtain ⟨low', a1, a2, a3, a4, a5⟩ := pivotLow_spec (split := split) (mr := mr)
        (maxIdx := index.length - 1) (by omega) hf' (index.length - 1 + 1) low (by omega) (by omega)
      obtain ⟨high', b1, b2, b3, b4, b5⟩ := pivotHigh_spec (split := split) (mr := mr) (low := low')
        hf' (index.length - 1 + 1) high hh (by omega)
      simp only [pivotLoop, hlt, if_true, a1, Res.ok_bind, b1]
      have hL' : ∀ k, k < low' → goesLeft feature split mr (index.getD k 0) = true := by
        intro k hk
        by_cases h : k < low
        · exact hL k h
        · exact a4 k (by omega) hk
      have hR' : ∀ k, high' < k → k < index.length →
          goesLeft feature split mr (index.getD k 0) = false := by
        intro k hk hk'
        by_cases h : k ≤ high
        · exact b4 k hk h
        · exact hR k (by omega) hk'
      have hle : low' ≤ high + 1 := by
        by_contra hc
        have := hR (high + 1) (by omega) (by omega)
        rw [hL' (high + 1) (by omega)] at this
        cases this
      by_cases hsw : low' < high'
      · simp only [hsw, if_true]
        obtain ⟨ix, s1, s2, s3⟩ := swapIdx_spec (l := index) (i := high') (j := low') (by omega)
          (by omega)
        have hlen : ix.length = index.length := s2.length_eq
        simp only [s1, Res.ok_bind]
        have hlow : goesLeft feature split mr (ix.getD low' 0) = true := by
          rw [s3, if_pos rfl]; exact b5 hsw
        rw [← hlen]
        refine ih ix low' high' (s2.trans hp) (by omega) (by omega) (by omega) ?_ ?_ ?_ ?_
        · intro k hk
          rw [s3, if_neg (by omega), if_neg (by omega)]
          exact hL' k hk
        · intro k hk hk'
          rw [s3, if_neg (by omega), if_neg (by omega)]
          exact hR' k hk (by omega)
        · intro h; omega
        · rcases hn with hn | ⟨hn, hg⟩
          · right; exact ⟨by omega, hlow⟩
          · have : low < low' := by
              rcases Nat.lt_or_ge low low' with h | h
              · exact h
              · have : low' = low := by omega
                subst this
                rw [a5 (by omega)] at hg; cases hg
            right; exact ⟨by omega, hlow⟩
      · simp only [hsw, if_false, Res.pure_def, Res.ok_bind]
        refine ⟨index, low', ?_, hp, by omega, hL', fun k hk hk' => hR' k (by omega) hk', a5⟩
        cases n <;> simp [pivotLoop, hsw]
    · refine ⟨index, low, by simp [pivotLoop, hlt], hp, hl, hL,
        fun k hk hk' => hR k (by omega) hk', fun h => ?_⟩
      rcases Nat.lt_or_ge high low with h1 | h1
      · exact hR low h1 hl
      · rcases hE (by omega) with h2 | h2
        · omega
        · exact h2

/-- `pivot_on_split`: a permutation of the rows; everything before the boundary goes left,
everything after it goes right, and so does the row at the boundary unless it is the last one. -/
theorem pivotOnSplit_spec {index : List Nat} (hne : index ≠ [])
    (hf : ∀ r ∈ index, r < feature.length) :
    ∃ index' k, pivotOnSplit index feature split mr = .ok (index', k) ∧ index'.Perm index ∧
      k < index.length ∧
      (∀ j, j < k → goesLeft feature split mr (index'.getD j 0) = true) ∧
      (∀ j, k < j → j < index.length → goesLeft feature split mr (index'.getD j 0) = false) ∧
      (k < index.length - 1 → goesLeft feature split mr (index'.getD k 0) = false) := by
  have hlen : 0 < index.length := List.length_pos_iff.2 hne
  simp only [pivotOnSplit, Nat.ne_of_gt hlen, if_false]
  refine pivotLoop_spec hf _ index 0 _ (List.Perm.refl _) (by omega) (by omega) (by omega)
    (fun k hk => by omega) (fun k hk hk' => by omega) (fun h => by omega) (by omega)

end plain

section exclude
variable {feature : List Nat} {split : Nat}

/-- The state of `pivot_on_split_exclude_missing`: missing rows first, then rows below the split
bin, then unknown rows, then (after `high`) rows that go right. -/
structure XInv (feature : List Nat) (split : Nat) (index0 index : List Nat) (m low high : Nat) :
    Prop where
  perm : index.Perm index0
  ml : m ≤ low
  lh : low ≤ high + 1
  hl : high < index.length
  ll : low < index.length
  miss : ∀ k, k < m → feature.getD (index.getD k 0) 0 = 0
  left : ∀ k, m ≤ k → k < low → feature.getD (index.getD k 0) 0 ≠ 0 ∧
    feature.getD (index.getD k 0) 0 < split
  right : ∀ k, high < k → k < index.length → split ≤ feature.getD (index.getD k 0) 0

theorem pivotXLow_spec {index0 : List Nat} (hs : 0 < split)
    (hf : ∀ r ∈ index0, r < feature.length) {high : Nat} :
    ∀ n (index : List Nat) m low, XInv feature split index0 index m low high →
      index.length - 1 - low ≤ n → ∃ index' m' low',
      pivotXLow feature split (index.length - 1) n index m low = .ok (index', m', low') ∧
      XInv feature split index0 index' m' low' high ∧ low ≤ low' ∧
      (low' < index.length - 1 → split ≤ feature.getD (index'.getD low' 0) 0) ∧
      (low' = low → index' = index) := by
  intro n
  induction n with
  | zero =>
    intro index m low hI hn
    have := hI.ll
    refine ⟨index, m, low, ?_, hI, le_refl _, fun h => by omega, fun _ => rfl⟩
    simp [pivotXLow]; omega
  | succ n ih =>
    intro index m low hI hn
    have hf' : ∀ r ∈ index, r < feature.length := fun r hr => hf r (hI.perm.mem_iff.1 hr)
    by_cases h : low < index.length - 1
    · have hlen : low < index.length := hI.ll
      simp only [pivotXLow, h, if_true, idx_getD hlen, Res.ok_bind, idx_getD (hf' _ (getD_mem hlen))]
      have hlow : split > feature.getD (index.getD low 0) 0 → low < high + 1 := by
        intro hlt
        by_contra hc
        have := hI.right low (by omega) hlen
        omega
      by_cases h0 : feature.getD (index.getD low 0) 0 = 0
      · obtain ⟨ix, s1, s2, s3⟩ := swapIdx_spec (l := index) (i := m) (j := low)
          (by have := hI.ml; omega) hlen
        have hlen' : ix.length = index.length := s2.length_eq
        simp only [h0, if_true, s1, Res.ok_bind, Res.pure_def, hs]
        have hml := hI.ml
        have hI' : XInv feature split index0 ix (m + 1) (low + 1) high := by
          refine ⟨s2.trans hI.perm, by omega, by have := hlow (by omega); omega,
            by have := hI.hl; omega, by omega, ?_, ?_, ?_⟩
          · intro k hk
            rw [s3]
            by_cases k1 : k = low
            · have : m = low := by omega
              subst this; simp only [k1, if_true]; exact h0
            · rw [if_neg k1]
              by_cases k2 : k = m
              · simp only [k2, if_true]; exact h0
              · rw [if_neg k2]; exact hI.miss k (by omega)
          · intro k hk hk'
            rw [s3]
            by_cases k1 : k = low
            · simp only [k1, if_true]; exact hI.left m (le_refl _) (by omega)
            · rw [if_neg k1, if_neg (by omega)]; exact hI.left k (by omega) (by omega)
          · intro k hk hk'
            have := hlow (by omega)
            rw [s3, if_neg (by omega), if_neg (by omega)]; exact hI.right k hk (by omega)
        obtain ⟨i', m', l', c1, c2, c3, c4, c5⟩ := ih ix (m + 1) (low + 1) hI' (by omega)
        rw [hlen'] at c1 c4
        exact ⟨i', m', l', c1, c2, by omega, c4, fun h => by omega⟩
      · simp only [h0, if_false, Res.pure_def, Res.ok_bind]
        by_cases hlt : feature.getD (index.getD low 0) 0 < split
        · simp only [hlt, if_true]
          have hI' : XInv feature split index0 index m (low + 1) high := by
            refine ⟨hI.perm, by have := hI.ml; omega, by have := hlow hlt; omega,
              hI.hl, by omega, hI.miss, ?_, hI.right⟩
            intro k hk hk'
            by_cases k1 : k = low
            · subst k1; exact ⟨h0, hlt⟩
            · exact hI.left k hk (by omega)
          obtain ⟨i', m', l', c1, c2, c3, c4, c5⟩ := ih index m (low + 1) hI' (by omega)
          exact ⟨i', m', l', c1, c2, by omega, c4, fun h => by omega⟩
        · simp only [hlt, if_false]
          exact ⟨index, m, low, rfl, hI, le_refl _, fun _ => by omega, fun _ => rfl⟩
    · exact ⟨index, m, low, by simp [pivotXLow, h], hI, le_refl _, fun h' => by omega, fun _ => rfl⟩

theorem pivotXHigh_spec {index0 : List Nat} (hs : 0 < split)
    (hf : ∀ r ∈ index0, r < feature.length) :
    ∀ n (index : List Nat) m low high, XInv feature split index0 index m low high →
      (low < index.length - 1 → split ≤ feature.getD (index.getD low 0) 0) → high - low ≤ n →
      ∃ index' m' low' high',
      pivotXHigh feature split n index m low high = .ok (index', m', low', high') ∧
      XInv feature split index0 index' m' low' high' ∧ high' ≤ high ∧
      ((low' = low ∧ (low' < index.length - 1 → split ≤ feature.getD (index'.getD low' 0) 0) ∧
          (low' < high' → feature.getD (index'.getD high' 0) 0 < split ∧
            feature.getD (index'.getD high' 0) 0 ≠ 0)) ∨
        (low' = low + 1 ∧ m' = low' ∧ low' ≤ high' ∧
          split ≤ feature.getD (index'.getD high' 0) 0)) := by
  intro n
  induction n with
  | zero =>
    intro index m low high hI hR hn
    refine ⟨index, m, low, high, ?_, hI, le_refl _, Or.inl ⟨rfl, hR, fun h => by omega⟩⟩
    simp [pivotXHigh]; omega
  | succ n ih =>
    intro index m low high hI hR hn
    have hf' : ∀ r ∈ index, r < feature.length := fun r hr => hf r (hI.perm.mem_iff.1 hr)
    by_cases h : low < high
    · have hlen : high < index.length := hI.hl
      have hml := hI.ml
      simp only [pivotXHigh, h, if_true, idx_getD hlen, Res.ok_bind,
        idx_getD (hf' _ (getD_mem hlen))]
      by_cases h0 : feature.getD (index.getD high 0) 0 = 0
      · obtain ⟨ix, s1, s2, s3⟩ := swapIdx_spec (l := index) (i := m) (j := high) (by omega) hlen
        have hlen' : ix.length = index.length := s2.length_eq
        simp only [h0, if_true, s1, Res.ok_bind, Res.pure_def, hs]
        by_cases hlm : low < m + 1
        · have hm : m = low := by omega
          subst hm
          simp only [Nat.lt_succ_self, if_true]
          refine ⟨ix, m + 1, m + 1, high, rfl, ?_, le_refl _, Or.inr ⟨rfl, rfl, by omega, ?_⟩⟩
          · refine ⟨s2.trans hI.perm, le_refl _, by omega, by omega, by omega, ?_,
              fun k _ _ => by omega, ?_⟩
            · intro k hk
              rw [s3, if_neg (by omega)]
              by_cases k1 : k = m
              · simp only [k1, if_true]; exact h0
              · rw [if_neg k1]; exact hI.miss k (by omega)
            · intro k hk hk'
              rw [s3, if_neg (by omega), if_neg (by omega)]; exact hI.right k hk (by omega)
          · rw [s3, if_pos rfl]; exact hR (by omega)
        · simp only [hlm, if_false]
          refine ⟨ix, m + 1, low, high, rfl, ?_, le_refl _, Or.inl ⟨rfl, ?_, ?_⟩⟩
          · refine ⟨s2.trans hI.perm, by omega, by omega, by omega, by omega, ?_, ?_, ?_⟩
            · intro k hk
              rw [s3, if_neg (by omega)]
              by_cases k1 : k = m
              · simp only [k1, if_true]; exact h0
              · rw [if_neg k1]; exact hI.miss k (by omega)
            · intro k hk hk'
              rw [s3, if_neg (by omega), if_neg (by omega)]; exact hI.left k (by omega) hk'
            · intro k hk hk'
              rw [s3, if_neg (by omega), if_neg (by omega)]; exact hI.right k hk (by omega)
          · intro h'
            rw [s3, if_neg (by omega), if_neg (by omega)]; exact hR h'
          · intro _
            rw [s3, if_pos rfl]
            have := hI.left m (le_refl _) (by omega)
            exact ⟨this.2, this.1⟩
      · simp only [h0, if_false, Res.pure_def, Res.ok_bind]
        by_cases hlt : feature.getD (index.getD high 0) 0 < split
        · simp only [hlt, if_true]
          exact ⟨index, m, low, high, rfl, hI, le_refl _, Or.inl ⟨rfl, hR, fun _ => ⟨hlt, h0⟩⟩⟩
        · simp only [hlt, if_false]
          have hI' : XInv feature split index0 index m low (high - 1) := by
            refine ⟨hI.perm, hI.ml, by omega, by omega, hI.ll, hI.miss, hI.left, ?_⟩
            intro k hk hk'
            by_cases k1 : k = high
            · subst k1; omega
            · exact hI.right k (by omega) hk'
          obtain ⟨i', m', l', h', c1, c2, c3, c4⟩ := ih index m low (high - 1) hI' hR (by omega)
          exact ⟨i', m', l', h', c1, c2, by omega, c4⟩
    · exact ⟨index, m, low, high, by simp [pivotXHigh, h], hI, le_refl _,
        Or.inl ⟨rfl, hR, fun h' => by omega⟩⟩

/-- Swapping inside the unknown part keeps the invariant. -/
theorem XInv.swap {index0 index ix : List Nat} {m low high : Nat}
    (hI : XInv feature split index0 index m low high) (hlh : low < high)
    (s2 : ix.Perm index)
    (s3 : ∀ k, ix.getD k 0 = if k = low then index.getD high 0 else if k = high then
      index.getD low 0 else index.getD k 0) : XInv feature split index0 ix m low high := by
  have hlen' : ix.length = index.length := s2.length_eq
  have hml := hI.ml
  have hl := hI.hl
  refine ⟨s2.trans hI.perm, hml, hI.lh, by omega, by omega, ?_, ?_, ?_⟩
  · intro k hk
    rw [s3, if_neg (by omega), if_neg (by omega)]; exact hI.miss k hk
  · intro k hk hk'
    rw [s3, if_neg (by omega), if_neg (by omega)]; exact hI.left k hk hk'
  · intro k hk hk'
    rw [s3, if_neg (by omega), if_neg (by omega)]; exact hI.right k hk (by omega)

theorem pivotXLoop_spec {index0 : List Nat} (hs : 0 < split)
    (hf : ∀ r ∈ index0, r < feature.length) :
    ∀ n (index : List Nat) m low high, XInv feature split index0 index m low high →
      (low = high → high = index.length - 1 ∨ split ≤ feature.getD (index.getD low 0) 0) →
      (high - low < n ∨ (high - low ≤ n ∧ feature.getD (index.getD low 0) 0 < split)) →
      ∃ index' m' low', pivotXLoop feature split (index.length - 1) n index m low high
          = .ok (index', m', low') ∧ XInv feature split index0 index' m' low' low' ∧
        (low' < index.length - 1 → split ≤ feature.getD (index'.getD low' 0) 0) := by
  have stop : ∀ (index : List Nat) m low high, XInv feature split index0 index m low high →
      ¬ low < high → XInv feature split index0 index m low low := by
    intro index m low high hI h
    exact ⟨hI.perm, hI.ml, by omega, hI.ll, hI.ll, hI.miss, hI.left,
      fun k hk hk' => hI.right k (by omega) hk'⟩
  have stop2 : ∀ (index : List Nat) m low high, XInv feature split index0 index m low high →
      ¬ low < high →
      (low = high → high = index.length - 1 ∨ split ≤ feature.getD (index.getD low 0) 0) →
      low < index.length - 1 → split ≤ feature.getD (index.getD low 0) 0 := by
    intro index m low high hI h hE h'
    rcases Nat.lt_or_ge high low with h1 | h1
    · exact hI.right low h1 hI.ll
    · rcases hE (by omega) with h2 | h2
      · omega
      · exact h2
  intro n
  induction n with
  | zero =>
    intro index m low high hI hE hn
    have hnl : ¬ low < high := by omega
    exact ⟨index, m, low, by simp [pivotXLoop, hnl], stop _ _ _ _ hI hnl,
      stop2 _ _ _ _ hI hnl hE⟩
  | succ n ih =>
    intro index m low high hI hE hn
    by_cases hlt : low < high
    · obtain ⟨i1, m1, l1, a1, a2, a3, a4, a5⟩ := pivotXLow_spec hs hf (index.length - 1 + 1) index m
        low hI (by omega)
      have hlen1 : i1.length = index.length := (a2.perm.trans hI.perm.symm).length_eq
      obtain ⟨i2, m2, l2, h2, b1, b2, b3, b4⟩ := pivotXHigh_spec hs hf (index.length - 1 + 1) i1 m1
        l1 high a2 (by rw [hlen1]; exact a4) (by have := hI.hl; omega)
      have hlen2 : i2.length = index.length := (b2.perm.trans hI.perm.symm).length_eq
      rw [hlen1] at b4
      simp only [pivotXLoop, hlt, if_true, a1, Res.ok_bind, b1]
      have hmv : high - l1 ≤ n := by
        rcases hn with hn | ⟨hn, hg⟩
        · omega
        · have : l1 ≠ low := by
            intro h
            have := a4 (by have := hI.hl; omega)
            rw [a5 h, h] at this
            omega
          omega
      by_cases hsw : l2 < h2
      · simp only [hsw, if_true]
        obtain ⟨ix, s1, s2, s3⟩ := swapIdx_spec (l := i2) (i := h2) (j := l2) b2.hl b2.ll
        have hlen : ix.length = index.length := s2.length_eq.trans hlen2
        simp only [s1, Res.ok_bind]
        rw [← hlen]
        have hmain : high - l1 ≤ n ∧ _ := ⟨hmv, b4⟩
        refine ih ix m2 l2 h2 (b2.swap hsw s2 s3) (fun h => by omega) ?_
        rcases b4 with ⟨c1, c2, c3⟩ | ⟨c1, c2, c3, c4⟩
        · right
          refine ⟨by omega, ?_⟩
          rw [s3, if_pos rfl]; exact (c3 hsw).1
        · left; omega
      · simp only [hsw, if_false, Res.pure_def, Res.ok_bind]
        have hE2 : l2 < index.length - 1 → split ≤ feature.getD (i2.getD l2 0) 0 := by
          intro h'
          rcases b4 with ⟨c1, c2, c3⟩ | ⟨c1, c2, c3, c4⟩
          · exact c2 h'
          · have : l2 = h2 := by omega
            subst this; exact c4
        refine ⟨i2, m2, l2, ?_, stop _ _ _ _ b2 hsw, hE2⟩
        cases n <;> simp [pivotXLoop, hsw]
    · exact ⟨index, m, low, by simp [pivotXLoop, hlt], stop _ _ _ _ hI hlt,
        stop2 _ _ _ _ hI hlt hE⟩

/-- `pivot_on_split_exclude_missing`: a permutation of the rows; missing rows before the first
boundary, rows below the split bin between the boundaries, rows that go right after the second one,
and the row at the second boundary goes right unless it is the last row. -/
theorem pivotOnSplitExcludeMissing_spec {index : List Nat} (hs : 0 < split) (hne : index ≠ [])
    (hf : ∀ r ∈ index, r < feature.length) :
    ∃ index' m k, pivotOnSplitExcludeMissing index feature split = .ok (index', m, k) ∧
      XInv feature split index index' m k k ∧
      (k < index.length - 1 → split ≤ feature.getD (index'.getD k 0) 0) := by
  have hlen : 0 < index.length := List.length_pos_iff.2 hne
  simp only [pivotOnSplitExcludeMissing, Nat.ne_of_gt hlen, if_false]
  exact pivotXLoop_spec hs hf _ index 0 0 _
    ⟨List.Perm.refl _, le_refl _, by omega, by omega, by omega, fun k hk => by omega,
      fun k hk hk' => by omega, fun k hk hk' => by omega⟩ (fun h => by omega) (by omega)

end exclude

/-! ### What success of the partition routines implies without further assumptions -/

theorem swapIdx_ok {l l' : List Nat} {i j : Nat} (h : swapIdx l i j = .ok l') : l'.Perm l := by
  simp only [swapIdx, Res.bind_eq_ok] at h
  obtain ⟨a, ha, b, hb, _⟩ := h
  obtain ⟨l2, h2, hp, _⟩ := swapIdx_spec (lt_of_idx_eq_ok ha) (lt_of_idx_eq_ok hb)
  have h' : swapIdx l i j = .ok l' := by
    simp only [swapIdx, Res.bind_eq_ok]; exact ⟨a, ha, b, hb, ‹_›⟩
  rw [h2] at h'
  injection h' with h'
  exact h' ▸ hp

section ok
variable {feature : List Nat} {split : Nat} {mr : Bool}

theorem pivotLow_ok {index : List Nat} {maxIdx : Nat} : ∀ n low low', low ≤ maxIdx →
    pivotLow index feature split mr maxIdx n low = .ok low' → low' ≤ maxIdx := by
  intro n
  induction n with
  | zero =>
    intro low low' hl h
    simp only [pivotLow] at h
    split at h
    · cases h
    · injection h with h; omega
  | succ n ih =>
    intro low low' hl h
    simp only [pivotLow] at h
    split at h
    · simp only [Res.bind_eq_ok] at h
      obtain ⟨a, ha, b, hb, h⟩ := h
      split at h
      · exact ih (low + 1) low' (by omega) h
      · injection h with h; omega
    · injection h with h; omega

theorem pivotLoop_ok {maxIdx : Nat} : ∀ n index low high index' low', low ≤ maxIdx →
    pivotLoop feature split mr maxIdx n index low high = .ok (index', low') →
    index'.Perm index ∧ low' ≤ maxIdx := by
  intro n
  induction n with
  | zero =>
    intro index low high index' low' hl h
    simp only [pivotLoop] at h
    split at h
    · cases h
    · cases h; exact ⟨List.Perm.refl _, hl⟩
  | succ n ih =>
    intro index low high index' low' hl h
    simp only [pivotLoop] at h
    split at h
    · simp only [Res.bind_eq_ok] at h
      obtain ⟨a, ha, b, hb, h⟩ := h
      have hla := pivotLow_ok _ _ _ hl ha
      split at h
      · simp only [Res.bind_eq_ok] at h
        obtain ⟨ix, hix, h⟩ := h
        obtain ⟨h1, h2⟩ := ih ix a b index' low' hla h
        exact ⟨h1.trans (swapIdx_ok hix), h2⟩
      · simp only [Res.pure_def, Res.ok_bind] at h
        exact ih index a b index' low' hla h
    · cases h; exact ⟨List.Perm.refl _, hl⟩

/-- If `pivot_on_split` succeeds it permutes the rows and the boundary is inside. -/
theorem pivotOnSplit_ok {index index' : List Nat} {k : Nat}
    (h : pivotOnSplit index feature split mr = .ok (index', k)) :
    index'.Perm index ∧ k < index.length := by
  simp only [pivotOnSplit] at h
  split at h
  · cases h
  · obtain ⟨h1, h2⟩ := pivotLoop_ok _ _ _ _ _ _ (by omega) h
    exact ⟨h1, by omega⟩

theorem pivotXLow_ok {maxIdx : Nat} : ∀ n index m low index' m' low',
    pivotXLow feature split maxIdx n index m low = .ok (index', m', low') →
    index'.Perm index := by
  intro n
  induction n with
  | zero =>
    intro index m low index' m' low' h
    simp only [pivotXLow] at h
    split at h
    · cases h
    · cases h; exact List.Perm.refl _
  | succ n ih =>
    intro index m low index' m' low' h
    simp only [pivotXLow] at h
    split at h
    · simp only [Res.bind_eq_ok] at h
      obtain ⟨a, ha, b, hb, h⟩ := h
      split at h
      · simp only [Res.pure_def, Res.ok_bind, Res.bind_eq_ok] at h
        obtain ⟨ix, hix, h⟩ := h
        have hp := swapIdx_ok hix
        split at h
        · exact (ih _ _ _ _ _ _ h).trans hp
        · cases h; exact hp
      · simp only [Res.pure_def, Res.ok_bind] at h
        split at h
        · exact ih _ _ _ _ _ _ h
        · cases h; exact List.Perm.refl _
    · cases h; exact List.Perm.refl _

theorem pivotXHigh_ok : ∀ n index m low high index' m' low' high',
    pivotXHigh feature split n index m low high = .ok (index', m', low', high') →
    index'.Perm index := by
  intro n
  induction n with
  | zero =>
    intro index m low high index' m' low' high' h
    simp only [pivotXHigh] at h
    split at h
    · cases h
    · cases h; exact List.Perm.refl _
  | succ n ih =>
    intro index m low high index' m' low' high' h
    simp only [pivotXHigh] at h
    split at h
    · simp only [Res.bind_eq_ok] at h
      obtain ⟨a, ha, b, hb, h⟩ := h
      split at h
      · simp only [Res.pure_def, Res.ok_bind, Res.bind_eq_ok] at h
        obtain ⟨ix, hix, h⟩ := h
        have hp := swapIdx_ok hix
        split at h
        · simp only [Res.ok.injEq, Prod.mk.injEq] at h
          obtain ⟨rfl, _⟩ := h
          exact hp
        · exact (ih _ _ _ _ _ _ _ _ h).trans hp
      · simp only [Res.pure_def, Res.ok_bind] at h
        split at h
        · cases h; exact List.Perm.refl _
        · exact ih _ _ _ _ _ _ _ _ h
    · cases h; exact List.Perm.refl _

theorem pivotXLoop_ok {maxIdx : Nat} : ∀ n index m low high index' m' low',
    pivotXLoop feature split maxIdx n index m low high = .ok (index', m', low') →
    index'.Perm index := by
  intro n
  induction n with
  | zero =>
    intro index m low high index' m' low' h
    simp only [pivotXLoop] at h
    split at h
    · cases h
    · cases h; exact List.Perm.refl _
  | succ n ih =>
    intro index m low high index' m' low' h
    simp only [pivotXLoop] at h
    split at h
    · simp only [Res.bind_eq_ok] at h
      obtain ⟨⟨i1, m1, l1⟩, h1, ⟨i2, m2, l2, h2⟩, hb, h⟩ := h
      have p1 := pivotXLow_ok _ _ _ _ _ _ _ h1
      have p2 := pivotXHigh_ok _ _ _ _ _ _ _ _ _ hb
      split at h
      · simp only [Res.bind_eq_ok] at h
        obtain ⟨ix, hix, h⟩ := h
        exact (ih _ _ _ _ _ _ _ h).trans ((swapIdx_ok hix).trans (p2.trans p1))
      · simp only [Res.pure_def, Res.ok_bind] at h
        exact (ih _ _ _ _ _ _ _ h).trans (p2.trans p1)
    · cases h; exact List.Perm.refl _

/-- If `pivot_on_split_exclude_missing` succeeds it permutes the rows. -/
theorem pivotOnSplitExcludeMissing_ok {index index' : List Nat} {m k : Nat}
    (h : pivotOnSplitExcludeMissing index feature split = .ok (index', m, k)) :
    index'.Perm index := by
  simp only [pivotOnSplitExcludeMissing] at h
  split at h
  · cases h
  · exact pivotXLoop_ok _ _ _ _ _ _ _ _ h

/-! ### Without missing rows the missing segment is empty -/

theorem pivotXLow_none {maxIdx : Nat} : ∀ n index m low index' m' low',
    (∀ r ∈ index, feature[r]? ≠ some 0) →
    pivotXLow feature split maxIdx n index m low = .ok (index', m', low') → m' = m := by
  intro n
  induction n with
  | zero =>
    intro index m low index' m' low' _ h
    simp only [pivotXLow] at h
    split at h
    · cases h
    · cases h; rfl
  | succ n ih =>
    intro index m low index' m' low' hno h
    simp only [pivotXLow] at h
    split at h
    · simp only [Res.bind_eq_ok, idx_eq_ok] at h
      obtain ⟨a, ha, b, hb, h⟩ := h
      split at h
      · rename_i h0
        subst h0
        exact absurd hb (hno a (List.mem_of_getElem? ha))
      · simp only [Res.pure_def, Res.ok_bind] at h
        split at h
        · exact ih _ _ _ _ _ _ hno h
        · cases h; rfl
    · cases h; rfl

theorem pivotXHigh_none : ∀ n index m low high index' m' low' high',
    (∀ r ∈ index, feature[r]? ≠ some 0) →
    pivotXHigh feature split n index m low high = .ok (index', m', low', high') → m' = m := by
  intro n
  induction n with
  | zero =>
    intro index m low high index' m' low' high' _ h
    simp only [pivotXHigh] at h
    split at h
    · cases h
    · cases h; rfl
  | succ n ih =>
    intro index m low high index' m' low' high' hno h
    simp only [pivotXHigh] at h
    split at h
    · simp only [Res.bind_eq_ok, idx_eq_ok] at h
      obtain ⟨a, ha, b, hb, h⟩ := h
      split at h
      · rename_i h0
        subst h0
        exact absurd hb (hno a (List.mem_of_getElem? ha))
      · simp only [Res.pure_def, Res.ok_bind] at h
        split at h
        · cases h; rfl
        · exact ih _ _ _ _ _ _ _ _ hno h
    · cases h; rfl

theorem pivotXLoop_none {maxIdx : Nat} : ∀ n index m low high index' m' low',
    (∀ r ∈ index, feature[r]? ≠ some 0) →
    pivotXLoop feature split maxIdx n index m low high = .ok (index', m', low') → m' = m := by
  intro n
  induction n with
  | zero =>
    intro index m low high index' m' low' _ h
    simp only [pivotXLoop] at h
    split at h
    · cases h
    · cases h; rfl
  | succ n ih =>
    intro index m low high index' m' low' hno h
    simp only [pivotXLoop] at h
    split at h
    · simp only [Res.bind_eq_ok] at h
      obtain ⟨⟨i1, m1, l1⟩, h1, ⟨i2, m2, l2, h2⟩, hb, h⟩ := h
      have p1 := pivotXLow_ok _ _ _ _ _ _ _ h1
      have p2 := pivotXHigh_ok _ _ _ _ _ _ _ _ _ hb
      have e1 := pivotXLow_none _ _ _ _ _ _ _ hno h1
      have hno1 : ∀ r ∈ i1, feature[r]? ≠ some 0 := fun r hr => hno r (p1.mem_iff.1 hr)
      have e2 := pivotXHigh_none _ _ _ _ _ _ _ _ _ hno1 hb
      have hno2 : ∀ r ∈ i2, feature[r]? ≠ some 0 := fun r hr => hno1 r (p2.mem_iff.1 hr)
      simp only at h e1 e2
      subst e1 e2
      split at h
      · simp only [Res.bind_eq_ok] at h
        obtain ⟨ix, hix, h⟩ := h
        exact ih _ _ _ _ _ _ _ (fun r hr => hno2 r ((swapIdx_ok hix).mem_iff.1 hr)) h
      · simp only [Res.pure_def, Res.ok_bind] at h
        exact ih _ _ _ _ _ _ _ hno2 h
    · cases h; rfl

/-- If no row is in the missing bin, the missing segment is empty. -/
theorem pivotOnSplitExcludeMissing_none {index index' : List Nat} {m k : Nat}
    (hno : ∀ r ∈ index, feature[r]? ≠ some 0)
    (h : pivotOnSplitExcludeMissing index feature split = .ok (index', m, k)) : m = 0 := by
  simp only [pivotOnSplitExcludeMissing] at h
  split at h
  · cases h
  · exact pivotXLoop_none _ _ _ _ _ _ _ _ hno h

end ok

end Verif
