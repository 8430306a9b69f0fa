import Verif.Proofs.GrowTree
import Verif.Proofs.Data

/-!
# Loops end

No step of growing a tree runs forever, whatever the data: the fuel of the model's loops suffices.
-/

namespace Verif

open scoped Verif

/-- Like `Res.bind_ne_diverge`, with the value known. -/
theorem Res.bind_ne_diverge' {α β : Type} {a : Res α} {f : α → Res β} (ha : a ≠ .diverge)
    (hf : ∀ x, a = .ok x → f x ≠ .diverge) : (a >>= f) ≠ .diverge := by
  cases a with
  | ok x => exact hf x rfl
  | panic => intro h; cases h
  | diverge => exact absurd rfl ha

theorem Res.foldM'_ne_diverge {α β : Type} {f : β → α → Res β} (h : ∀ b a, f b a ≠ .diverge) :
    ∀ (l : List α) (b : β), Res.foldM' f b l ≠ .diverge := by
  intro l
  induction l with
  | nil => intro b h; cases h
  | cons a l ih =>
    intro b
    rw [Res.foldM'_cons]
    exact Res.bind_ne_diverge (h b a) fun x => ih x

theorem Res.ofOption_ne_diverge {α : Type} (o : Option α) : Res.ofOption o ≠ .diverge := by
  cases o <;> simp [Res.ofOption]

theorem slice_ne_diverge {T : Type} (l : List T) (i j : Nat) : slice l i j ≠ .diverge := by
  unfold slice; split <;> simp

theorem Matrix.getCol_ne_diverge {T : Type} (m : Matrix T) (j : Nat) : m.getCol j ≠ .diverge := by
  unfold Matrix.getCol Matrix.getColSlice; exact slice_ne_diverge _ _ _

theorem swapIdx_ne_diverge (l : List Nat) (i j : Nat) : swapIdx l i j ≠ .diverge :=
  Res.bind_ne_diverge (idx_ne_diverge _ _) fun _ => Res.bind_ne_diverge (idx_ne_diverge _ _) fun _ => by simp

/-! ### The partition routines -/

section
variable {feature : List Nat} {split : Nat} {mr : Bool}

/-- The row at position `k`, if it can be read, goes left. -/
def ReadsLeft (feature : List Nat) (split : Nat) (mr : Bool) (index : List Nat) (k : Nat) : Prop :=
  ∀ i l, idx index k = .ok i → idx feature i = .ok l → missingGoesLeft split l mr = true

theorem pivotLow_nd {index : List Nat} {maxIdx : Nat} : ∀ n low, maxIdx - low ≤ n →
    pivotLow index feature split mr maxIdx n low ≠ .diverge := by
  intro n
  induction n with
  | zero =>
    intro low h
    rw [pivotLow, if_neg (by omega)]; simp
  | succ n ih =>
    intro low h
    rw [pivotLow]
    split
    · refine Res.bind_ne_diverge (idx_ne_diverge _ _) fun i =>
        Res.bind_ne_diverge (idx_ne_diverge _ _) fun l => ?_
      split
      · exact ih _ (by omega)
      · simp
    · simp

theorem pivotLow_adv {index : List Nat} {maxIdx : Nat} : ∀ n low low',
    pivotLow index feature split mr maxIdx n low = .ok low' → low ≤ low' ∧
      (0 < n → low < maxIdx → ReadsLeft feature split mr index low → low < low') := by
  intro n
  induction n with
  | zero =>
    intro low low' h
    rw [pivotLow] at h
    split at h
    · cases h
    · cases h; exact ⟨le_refl _, fun h => by omega⟩
  | succ n ih =>
    intro low low' h
    rw [pivotLow] at h
    split at h
    · simp only [Res.bind_eq_ok] at h
      obtain ⟨i, hi, l, hl, h⟩ := h
      split at h
      · have := (ih _ _ h).1
        exact ⟨by omega, fun _ _ _ => by omega⟩
      · rename_i hg
        cases h
        exact ⟨le_refl _, fun _ _ hR => absurd (hR i l hi hl) hg⟩
    · cases h
      exact ⟨le_refl _, fun _ h _ => by omega⟩

theorem pivotHigh_nd {index : List Nat} {low : Nat} : ∀ n high, high - low ≤ n →
    pivotHigh index feature split mr low n high ≠ .diverge := by
  intro n
  induction n with
  | zero =>
    intro high h
    rw [pivotHigh, if_neg (by omega)]; simp
  | succ n ih =>
    intro high h
    rw [pivotHigh]
    split
    · refine Res.bind_ne_diverge (idx_ne_diverge _ _) fun i =>
        Res.bind_ne_diverge (idx_ne_diverge _ _) fun l => ?_
      split
      · simp
      · exact ih _ (by omega)
    · simp

theorem pivotHigh_adv {index : List Nat} {low : Nat} : ∀ n high high',
    pivotHigh index feature split mr low n high = .ok high' → high' ≤ high ∧
      (low < high' → ReadsLeft feature split mr index high') := by
  intro n
  induction n with
  | zero =>
    intro high high' h
    rw [pivotHigh] at h
    split at h
    · cases h
    · cases h; exact ⟨le_refl _, fun h => by omega⟩
  | succ n ih =>
    intro high high' h
    rw [pivotHigh] at h
    split at h
    · simp only [Res.bind_eq_ok] at h
      obtain ⟨i, hi, l, hl, h⟩ := h
      split at h
      · rename_i hg
        cases h
        refine ⟨le_refl _, fun _ i' l' hi' hl' => ?_⟩
        rw [hi] at hi'; cases hi'
        rw [hl] at hl'; cases hl'
        exact hg
      · have := ih _ _ h
        exact ⟨by omega, this.2⟩
    · cases h; exact ⟨le_refl _, fun h => by omega⟩

theorem swapIdx_get {l l' : List Nat} {i j : Nat} (h : swapIdx l i j = .ok l') :
    idx l' j = idx l i ∧ l'.length = l.length ∧ i < l.length ∧ j < l.length := by
  unfold swapIdx at h
  simp only [Res.bind_eq_ok, Res.ok.injEq] at h
  obtain ⟨a, ha, b, hb, rfl⟩ := h
  have h1 := lt_of_idx_eq_ok ha
  have h2 := lt_of_idx_eq_ok hb
  refine ⟨?_, by simp, h1, h2⟩
  rw [ha, idx_eq_ok, List.getElem?_set_self (by simpa using h2)]

theorem pivotLoop_nd {maxIdx : Nat} : ∀ n index low high, high ≤ maxIdx →
    (high - low < n ∨ (high - low ≤ n ∧ ReadsLeft feature split mr index low)) →
    pivotLoop feature split mr maxIdx n index low high ≠ .diverge := by
  intro n
  induction n with
  | zero =>
    intro index low high hm h
    rw [pivotLoop, if_neg (by omega)]; simp
  | succ n ih =>
    intro index low high hm h
    rw [pivotLoop]
    split
    · rename_i hlt
      refine Res.bind_ne_diverge' (pivotLow_nd _ _ (by omega)) fun low' hl => ?_
      refine Res.bind_ne_diverge' (pivotHigh_nd _ _ (by omega)) fun high' hh => ?_
      obtain ⟨a1, a2⟩ := pivotLow_adv _ _ _ hl
      obtain ⟨b1, b2⟩ := pivotHigh_adv _ _ _ hh
      split
      · rename_i hsw
        refine Res.bind_ne_diverge' (swapIdx_ne_diverge _ _ _) fun ix hix => ?_
        refine ih _ _ _ (by omega) (.inr ⟨?_, ?_⟩)
        · rcases h with h | ⟨h, hR⟩
          · omega
          · have := a2 (by omega) (by omega) hR
            omega
        · intro i l hi hl'
          rw [(swapIdx_get hix).1] at hi
          exact b2 hsw i l hi hl'
      · rename_i hsw
        simp only [Res.pure_def, Res.ok_bind]
        cases n <;> simp [pivotLoop, hsw]
    · simp

theorem pivotOnSplit_ne_diverge (index feature : List Nat) (split : Nat) (mr : Bool) :
    pivotOnSplit index feature split mr ≠ .diverge := by
  unfold pivotOnSplit
  split
  · simp
  · exact pivotLoop_nd _ _ _ _ (le_refl _) (.inl (by omega))

end

section
variable {feature : List Nat} {split : Nat}

/-- The row at position `k`, if it can be read, has a bin below the split. -/
def ReadsBelow (feature : List Nat) (split : Nat) (index : List Nat) (k : Nat) : Prop :=
  ∀ i l, idx index k = .ok i → idx feature i = .ok l → l < split

theorem pivotXLow_succ {maxIdx n m low : Nat} {index : List Nat} :
    pivotXLow feature split maxIdx (n + 1) index m low =
      if low < maxIdx then do
        let i ← idx index low
        let l ← idx feature i
        let p ← (if l = 0 then do
            let ix ← swapIdx index m low
            Res.ok (ix, m + 1)
          else Res.ok (index, m))
        if l < split then pivotXLow feature split maxIdx n p.1 p.2 (low + 1)
        else Res.ok (p.1, p.2, low)
      else Res.ok (index, m, low) := by
  rw [pivotXLow]
  split
  · congr 1; funext i
    congr 1; funext l
    by_cases h : l = 0
    · simp only [if_pos h, Res.bind_assoc', Res.pure_def, Res.ok_bind]
    · simp only [if_neg h, Res.pure_def, Res.ok_bind]
  · rfl

theorem pivotXLow_nd {maxIdx : Nat} : ∀ n index m low, maxIdx - low ≤ n →
    pivotXLow feature split maxIdx n index m low ≠ .diverge := by
  intro n
  induction n with
  | zero =>
    intro index m low h
    rw [pivotXLow, if_neg (by omega)]; simp
  | succ n ih =>
    intro index m low h
    rw [pivotXLow_succ]
    split
    · refine Res.bind_ne_diverge (idx_ne_diverge _ _) fun i =>
        Res.bind_ne_diverge (idx_ne_diverge _ _) fun l => Res.bind_ne_diverge ?_ fun p => ?_
      · split
        · exact Res.bind_ne_diverge (swapIdx_ne_diverge _ _ _) fun _ => by simp
        · simp
      · split
        · exact ih _ _ _ (by omega)
        · simp
    · simp

theorem pivotXLow_adv {maxIdx : Nat} : ∀ n index m low index' m' low',
    pivotXLow feature split maxIdx n index m low = .ok (index', m', low') → m ≤ index.length →
    low ≤ low' ∧ m ≤ m' ∧ m' ≤ index'.length ∧ index'.length = index.length ∧
      (0 < n → low < maxIdx → ReadsBelow feature split index low → low < low') := by
  intro n
  induction n with
  | zero =>
    intro index m low index' m' low' h hm
    rw [pivotXLow] at h
    split at h
    · cases h
    · cases h; exact ⟨le_refl _, le_refl _, hm, rfl, fun h => by omega⟩
  | succ n ih =>
    intro index m low index' m' low' h hm
    rw [pivotXLow_succ] at h
    split at h
    · simp only [Res.bind_eq_ok, Prod.exists] at h
      obtain ⟨i, hi, l, hl, ix, mx, hx, h⟩ := h
      have hx' : m ≤ mx ∧ mx ≤ ix.length ∧ ix.length = index.length := by
        split at hx
        · simp only [Res.bind_eq_ok, Res.ok.injEq, Prod.mk.injEq] at hx
          obtain ⟨ix', hs, rfl, rfl⟩ := hx
          have := swapIdx_get hs
          omega
        · simp only [Res.ok.injEq, Prod.mk.injEq] at hx
          obtain ⟨rfl, rfl⟩ := hx
          omega
      split at h
      · have := ih _ _ _ _ _ _ h hx'.2.1
        refine ⟨by omega, by omega, by omega, by omega, fun _ _ _ => by omega⟩
      · rename_i hg
        cases h
        refine ⟨le_refl _, by omega, by omega, by omega, fun _ _ hR => absurd (hR i l hi hl) hg⟩
    · cases h
      exact ⟨le_refl _, le_refl _, hm, rfl, fun _ h _ => by omega⟩

theorem pivotXHigh_succ {n m low high : Nat} {index : List Nat} :
    pivotXHigh feature split (n + 1) index m low high =
      if low < high then do
        let i ← idx index high
        let l ← idx feature i
        let p ← (if l = 0 then do
            let ix ← swapIdx index m high
            Res.ok (ix, m + 1, if low < m + 1 then m + 1 else low)
          else Res.ok (index, m, low))
        if l < split then Res.ok (p.1, p.2.1, p.2.2, high)
        else pivotXHigh feature split n p.1 p.2.1 p.2.2 (high - 1)
      else Res.ok (index, m, low, high) := by
  rw [pivotXHigh]
  split
  · congr 1; funext i
    congr 1; funext l
    by_cases h : l = 0
    · simp only [if_pos h, Res.bind_assoc', Res.pure_def, Res.ok_bind]
    · simp only [if_neg h, Res.pure_def, Res.ok_bind]
  · rfl

theorem pivotXHigh_nd : ∀ n index m low high, high - low ≤ n →
    pivotXHigh feature split n index m low high ≠ .diverge := by
  intro n
  induction n with
  | zero =>
    intro index m low high h
    rw [pivotXHigh, if_neg (by omega)]; simp
  | succ n ih =>
    intro index m low high h
    rw [pivotXHigh_succ]
    split
    · refine Res.bind_ne_diverge (idx_ne_diverge _ _) fun i =>
        Res.bind_ne_diverge (idx_ne_diverge _ _) fun l => Res.bind_ne_diverge' ?_ fun p hp => ?_
      · split
        · exact Res.bind_ne_diverge (swapIdx_ne_diverge _ _ _) fun _ => by simp
        · simp
      · obtain ⟨ix, mx, lx⟩ := p
        have : low ≤ lx := by
          split at hp
          · simp only [Res.bind_eq_ok, Res.ok.injEq, Prod.mk.injEq] at hp
            obtain ⟨ix', hs, rfl, rfl, rfl⟩ := hp
            split <;> omega
          · simp only [Res.ok.injEq, Prod.mk.injEq] at hp
            omega
        simp only
        split
        · simp
        · exact ih _ _ _ _ (by omega)
    · simp

theorem pivotXHigh_adv : ∀ n index m low high index' m' low' high',
    pivotXHigh feature split n index m low high = .ok (index', m', low', high') → m ≤ index.length →
    low ≤ low' ∧ m ≤ m' ∧ m' ≤ index'.length ∧ index'.length = index.length ∧ high' ≤ high ∧
      (low' < high' → m < m' ∨ ReadsBelow feature split index' high') := by
  intro n
  induction n with
  | zero =>
    intro index m low high index' m' low' high' h hm
    rw [pivotXHigh] at h
    split at h
    · cases h
    · cases h; exact ⟨le_refl _, le_refl _, hm, rfl, le_refl _, fun h => by omega⟩
  | succ n ih =>
    intro index m low high index' m' low' high' h hm
    rw [pivotXHigh_succ] at h
    split at h
    · simp only [Res.bind_eq_ok, Prod.exists] at h
      obtain ⟨i, hi, l, hl, ix, mx, lx, hx, h⟩ := h
      have hx' : m ≤ mx ∧ mx ≤ ix.length ∧ ix.length = index.length ∧ low ≤ lx ∧
          (m < mx ∨ ix = index) := by
        split at hx
        · simp only [Res.bind_eq_ok, Res.ok.injEq, Prod.mk.injEq] at hx
          obtain ⟨ix', hs, rfl, rfl, rfl⟩ := hx
          have := swapIdx_get hs
          refine ⟨by omega, by omega, by omega, by split <;> omega, by omega⟩
        · simp only [Res.ok.injEq, Prod.mk.injEq] at hx
          obtain ⟨rfl, rfl, rfl⟩ := hx
          exact ⟨le_refl _, hm, rfl, le_refl _, .inr rfl⟩
      split at h
      · rename_i hg
        cases h
        refine ⟨by omega, by omega, by omega, by omega, le_refl _, fun _ => ?_⟩
        rcases hx'.2.2.2.2 with h | rfl
        · exact .inl h
        · right
          intro i' l' hi' hl'
          rw [hi] at hi'; cases hi'
          rw [hl] at hl'; cases hl'
          exact hg
      · have := ih _ _ _ _ _ _ _ _ h hx'.2.1
        refine ⟨by omega, by omega, by omega, by omega, by omega, fun hlt => ?_⟩
        rcases this.2.2.2.2.2 hlt with h | h
        · left; omega
        · exact .inr h
    · cases h; exact ⟨le_refl _, le_refl _, hm, rfl, le_refl _, fun h => by omega⟩

theorem pivotXLoop_nd {maxIdx : Nat} : ∀ n index m low high, high ≤ maxIdx → m ≤ index.length →
    (high - low + (index.length - m) < n ∨
      (high - low + (index.length - m) ≤ n ∧ ReadsBelow feature split index low)) →
    pivotXLoop feature split maxIdx n index m low high ≠ .diverge := by
  intro n
  induction n with
  | zero =>
    intro index m low high hm hml h
    rw [pivotXLoop, if_neg (by omega)]; simp
  | succ n ih =>
    intro index m low high hm hml h
    rw [pivotXLoop]
    split
    · rename_i hlt
      refine Res.bind_ne_diverge' (pivotXLow_nd _ _ _ _ (by omega)) fun p1 h1 => ?_
      obtain ⟨i1, m1, l1⟩ := p1
      obtain ⟨a1, a2, a3, a4, a5⟩ := pivotXLow_adv _ _ _ _ _ _ _ h1 hml
      refine Res.bind_ne_diverge' (pivotXHigh_nd _ _ _ _ _ (by omega)) fun p2 h2 => ?_
      obtain ⟨i2, m2, l2, hi2⟩ := p2
      obtain ⟨b1, b2, b3, b4, b5, b6⟩ := pivotXHigh_adv _ _ _ _ _ _ _ _ _ h2 a3
      simp only
      split
      · rename_i hsw
        refine Res.bind_ne_diverge' (swapIdx_ne_diverge _ _ _) fun ix hix => ?_
        obtain ⟨s1, s2, s3, s4⟩ := swapIdx_get hix
        refine ih _ _ _ _ (by omega) (by omega) ?_
        have hadv : ReadsBelow feature split index low → low < l1 := a5 (by omega) (by omega)
        rcases b6 hsw with hb | hb
        · left
          rcases h with h | ⟨h, hR⟩
          · omega
          · have := hadv hR; omega
        · right
          refine ⟨?_, ?_⟩
          · rcases h with h | ⟨h, hR⟩
            · omega
            · have := hadv hR; omega
          · intro i l hi hl'
            rw [s1] at hi
            exact hb i l hi hl'
      · rename_i hsw
        simp only [Res.pure_def, Res.ok_bind]
        cases n <;> simp [pivotXLoop, hsw]
    · simp

theorem pivotOnSplitExcludeMissing_ne_diverge (index feature : List Nat) (split : Nat) :
    pivotOnSplitExcludeMissing index feature split ≠ .diverge := by
  unfold pivotOnSplitExcludeMissing
  split
  · simp
  · exact pivotXLoop_nd _ _ _ _ _ (le_refl _) (by omega) (.inl (by omega))

end


/-! ### Histograms and splits -/

section
variable {F D : Type} [Fl F] [Fl D] [FlCast F D]

set_option linter.unusedSectionVars false


theorem Res.ok_ne_diverge {α : Type} (a : α) : Res.ok a ≠ .diverge := fun h => nomatch h

theorem Res.panic_ne_diverge {α : Type} : (Res.panic : Res α) ≠ .diverge := fun h => nomatch h

theorem Res.assert_ne_diverge (b : Bool) : Res.assert b ≠ .diverge := by cases b <;> simp [Res.assert]

/-- Walk through a program, checking that no step of it diverges; the given lemmas come first. -/
syntax "nd" "[" term,* "]" : tactic

macro_rules
  | `(tactic| nd [$ts,*]) => do
    let alts ← ts.getElems.mapM fun t => `(tactic| with_reducible apply $t)
    let tac ← `(tactic| first
      $[| $alts:tactic]*
      | with_reducible assumption
      | with_reducible exact idx_ne_diverge _ _
      | with_reducible exact slice_ne_diverge _ _ _
      | with_reducible exact Matrix.getCol_ne_diverge _ _
      | with_reducible exact Res.ofOption_ne_diverge _
      | with_reducible exact Res.assert_ne_diverge _
      | with_reducible refine Res.mapM'_ne_diverge fun _ _ => ?_
      | with_reducible refine Res.foldM'_ne_diverge (fun _ _ => ?_) _ _
      | with_reducible refine Res.bind_ne_diverge ?_ fun _ => ?_
      | exact Res.panic_ne_diverge
      | exact Res.ok_ne_diverge _
      | split
      | dsimp only)
    `(tactic| repeat' ($tac:tactic))

theorem JaggedMatrix.getCol_ne_diverge {T : Type} (m : JaggedMatrix T) (j : Nat) :
    m.getCol j ≠ .diverge := by
  unfold JaggedMatrix.getCol; nd []

theorem createFeatureHistogram_ne_diverge (f : List Nat) (c : List D) (g h : List F) (ix : List Nat) :
    createFeatureHistogram f c g h ix ≠ .diverge := by
  unfold createFeatureHistogram histAdd; nd []

theorem scanEnds_ne_diverge {T : Type} (cuts : JaggedMatrix T) (l : List Nat) :
    ∀ s, scanEnds cuts s l ≠ .diverge := by
  induction l with
  | nil => intro s; simp [scanEnds]
  | cons c l ih =>
    intro s
    rw [scanEnds]
    nd [JaggedMatrix.getCol_ne_diverge, ih]

theorem histogramMatrix_ne_diverge (data : Matrix Nat) (cuts : JaggedMatrix D) (grad hess : List F)
    (index colIndex : List Nat) (sort : Bool) :
    histogramMatrix data cuts grad hess index colIndex sort ≠ .diverge := by
  unfold histogramMatrix
  nd [JaggedMatrix.getCol_ne_diverge, scanEnds_ne_diverge, createFeatureHistogram_ne_diverge]

theorem TrainData.hist_ne_diverge (t : TrainData F D) (index : List Nat) (i j : Nat) :
    t.hist index i j ≠ .diverge := by
  unfold TrainData.hist; nd [histogramMatrix_ne_diverge]

theorem evaluateSplit_ne_diverge (s : Splitter F) (a : SplitArgs F) : s.evaluateSplit a ≠ .diverge := by
  unfold Splitter.evaluateSplit branchEvaluateSplit branchChildWeights
  nd []

theorem evalCandidate_ne_diverge (s : Splitter F) (node : SNode F D) (f : Nat) (c : Option Constraint)
    (m b : Bin F D) (i : Nat) (cg ch : F) : evalCandidate s node f c m b i cg ch ≠ .diverge := by
  unfold evalCandidate
  nd [evaluateSplit_ne_diverge]

theorem bestFeatureLoop_ne_diverge (s : Splitter F) (node : SNode F D) (f : Nat)
    (c : Option Constraint) (m : Bin F D) (l : List (Bin F D)) :
    ∀ i cg ch best, bestFeatureLoop s node f c m l i cg ch best ≠ .diverge := by
  induction l with
  | nil => intro i cg ch best; simp [bestFeatureLoop]
  | cons b l ih =>
    intro i cg ch best
    rw [bestFeatureLoop]
    exact Res.bind_ne_diverge (evalCandidate_ne_diverge _ _ _ _ _ _ _ _ _) fun _ => ih _ _ _ _

theorem bestFeatureSplit_ne_diverge (s : Splitter F) (node : SNode F D) (f i : Nat) :
    bestFeatureSplit s node f i ≠ .diverge := by
  unfold bestFeatureSplit
  nd [JaggedMatrix.getCol_ne_diverge, bestFeatureLoop_ne_diverge]

theorem bestSplit_ne_diverge (s : Splitter F) (node : SNode F D) (cols : List Nat) :
    bestSplit s node cols ≠ .diverge := by
  unfold bestSplit
  generalize 0 = i, (0 : F) = g, (none : Option (SplitInfo F D)) = best
  induction cols generalizing i g best with
  | nil => simp [bestSplitLoop]
  | cons f l ih =>
    rw [bestSplitLoop]
    nd [bestFeatureSplit_ne_diverge, ih]

theorem splitNode_ne_diverge (s : Splitter F) (t : TrainData F D) (n : Nat) (node : SNode F D)
    (index : List Nat) : splitNode s t n node index ≠ .diverge := by
  unfold splitNode
  refine Res.bind_ne_diverge (bestSplit_ne_diverge _ _ _) fun r => ?_
  split
  · simp
  · split
    · unfold imputerHandle MissingInfo.goesRight
      nd [TrainData.hist_ne_diverge, pivotOnSplit_ne_diverge]
    · unfold branchHandle BranchParams.missingChild branchHists
      nd [TrainData.hist_ne_diverge, pivotOnSplitExcludeMissing_ne_diverge]

/-! ### Growing -/

theorem popNode_ne_diverge (hp : HeapPick F D) (policy : GrowPolicy) (n : Nat) (q : List (SNode F D)) :
    popNode hp policy n q ≠ .diverge := by
  unfold popNode; nd []

theorem growStep_ne_diverge (c : GrowCfg F D) (s : GrowState F D) : growStep c s ≠ .diverge := by
  unfold growStep
  nd [splitNode_ne_diverge, popNode_ne_diverge]

/-- Children are at most three. -/
theorem arity_le (s : Splitter F) : s.arity ≤ 3 := by cases s <;> simp [Splitter.arity]

/-- A measure that every iteration decreases bounds the number of iterations. -/
theorem growLoop_nd_of {c : GrowCfg F D} (P : GrowState F D → Prop) (Φ : GrowState F D → Nat)
    (hzero : ∀ s, P s → Φ s = 0 → growDone c s = true)
    (hstep : ∀ s s', P s → growDone c s = false → growStep c s = .ok s' → P s' ∧ Φ s' < Φ s) :
    ∀ n s, P s → Φ s ≤ n → growLoop c n s ≠ .diverge := by
  intro n
  induction n with
  | zero =>
    intro s hP hn
    rw [growLoop, if_pos (hzero s hP (by omega))]
    simp
  | succ n ih =>
    intro s hP hn
    rw [growLoop]
    split
    · simp
    · rename_i hd
      refine Res.bind_ne_diverge' (growStep_ne_diverge c s) fun s' hs' => ?_
      obtain ⟨h1, h2⟩ := hstep s s' hP (by simpa using hd) hs'
      exact ih s' h1 (by omega)

theorem length_filter_numberKids (k : Nat) (kids : List (Kid F D)) (f : SNode F D → Bool) :
    ((numberKids k kids).filter f).reverse.length ≤ kids.length := by
  rw [List.length_reverse]
  exact (List.length_filter_le _ _).trans (le_of_eq (length_numberKids _ _))

/-- With a leaf limit: the measure is the number of open nodes plus three times the number of leaves
that may still be added. -/
theorem growLoop_leaves_nd {c : GrowCfg F D} {n : Nat} {s : GrowState F D} (h1 : 1 ≤ s.nLeaves)
    (hn : s.queue.length + 3 * (c.maxLeaves - s.nLeaves) ≤ n) : growLoop c n s ≠ .diverge := by
  refine growLoop_nd_of (fun s => 1 ≤ s.nLeaves)
    (fun s => s.queue.length + 3 * (c.maxLeaves - s.nLeaves)) ?_ ?_ n s h1 hn
  · intro s _ h
    have : s.queue = [] := List.length_eq_zero_iff.1 (by omega)
    simp [growDone, this]
  · intro s s' hp hd hs
    obtain ⟨node, queue, hpop, h, _⟩ := growStep_ok hs
    have hlen : s.queue.length = queue.length + 1 := by
      have := (popNode_ok hpop).1.length_eq; simpa using this
    have hlt : s.nLeaves + 1 ≤ c.maxLeaves := by
      simp only [growDone, Bool.or_eq_false_iff, Splitter.newLeavesAdded] at hd
      have := of_decide_eq_false hd.2
      omega
    rcases h with ⟨_, _, hq, _, hl, _⟩ | ⟨_, info, rows, kids, node', nd, _, hdone, _, _, hq, hl, _⟩
    · rw [hq]; omega
    · have := length_filter_numberKids s.nNodes kids fun n => !n.isMissingLeaf
      have ha := hdone.arity
      have h2 := arity_pos c.splitter
      have h3 := arity_le c.splitter
      rw [hq, List.length_append]; omega

/-- The measure for a depth limit. -/
def depthMeasure (d : Nat) (q : List (SNode F D)) : Nat := (q.map fun n => 4 ^ (d + 1 - n.depth)).sum

theorem depthMeasure_kids {d e k : Nat} {kids : List (Kid F D)} (f : SNode F D → Bool)
    (h : ∀ kid ∈ kids, kid.sn.depth = e + 1) :
    depthMeasure d ((numberKids k kids).filter f) ≤ kids.length * 4 ^ (d - e) := by
  induction kids generalizing k with
  | nil => simp [depthMeasure, numberKids]
  | cons a l ih =>
    have h1 := ih (k := k + 1) fun kid hk => h kid (List.mem_cons_of_mem _ hk)
    have h2 := h a (List.mem_cons_self ..)
    rw [numberKids, List.length_cons, Nat.add_mul, Nat.one_mul]
    have h3 : d + 1 - (e + 1) = d - e := by omega
    rw [List.filter_cons]
    split
    · simp only [depthMeasure, List.map_cons, List.sum_cons, h2, h3] at h1 ⊢
      omega
    · exact h1.trans (Nat.le_add_right _ _)

/-- With a depth limit. -/
theorem growLoop_depth_nd {c : GrowCfg F D} {n : Nat} {s : GrowState F D}
    (hn : depthMeasure c.maxDepth s.queue ≤ n) : growLoop c n s ≠ .diverge := by
  refine growLoop_nd_of (fun _ => True) (fun s => depthMeasure c.maxDepth s.queue) ?_ ?_ n s trivial hn
  · intro s _ h
    cases hq : s.queue with
    | nil => simp [growDone, hq]
    | cons a l =>
      rw [hq] at h
      simp only [depthMeasure, List.map_cons, List.sum_cons] at h
      have := Nat.pow_pos (n := c.maxDepth + 1 - a.depth) (show 0 < 4 by omega)
      omega
  · intro s s' _ _ hs
    refine ⟨trivial, ?_⟩
    obtain ⟨node, queue, hpop, h, _⟩ := growStep_ok hs
    have hperm := (popNode_ok hpop).1
    have hsum : depthMeasure c.maxDepth s.queue =
        4 ^ (c.maxDepth + 1 - node.depth) + depthMeasure c.maxDepth queue := by
      have := (hperm.map fun n => 4 ^ (c.maxDepth + 1 - n.depth)).sum_nat
      simpa [depthMeasure] using this
    have hpos := Nat.pow_pos (n := c.maxDepth + 1 - node.depth) (show 0 < 4 by omega)
    rcases h with ⟨_, _, hq, _, hl, _⟩ | ⟨hd, info, rows, kids, node', nd, _, hdone, _, _, hq, hl, _⟩
    · rw [hq, hsum]; omega
    · have hk := depthMeasure_kids (d := c.maxDepth) (e := node.depth) (k := s.nNodes) (kids := kids)
        (fun n => !n.isMissingLeaf) fun kid hk => (kidsOf_fresh hdone.kids_eq kid hk).2
      have ha := hdone.arity
      have h3 := arity_le c.splitter
      have hq' : depthMeasure c.maxDepth s'.queue =
          depthMeasure c.maxDepth ((numberKids s.nNodes kids).filter fun n => !n.isMissingLeaf) +
            depthMeasure c.maxDepth queue := by
        rw [hq]; simp [depthMeasure, List.sum_append]
      have e : c.maxDepth + 1 - node.depth = (c.maxDepth - node.depth) + 1 := by omega
      have hp := Nat.pow_pos (n := c.maxDepth - node.depth) (show 0 < 4 by omega)
      rw [hq', hsum, e, pow_succ]
      have : kids.length * 4 ^ (c.maxDepth - node.depth) ≤ 3 * 4 ^ (c.maxDepth - node.depth) :=
        Nat.mul_le_mul_right _ (by omega)
      omega

/-- More fuel does not change the result of a finished loop. -/
theorem growLoop_mono {c : GrowCfg F D} : ∀ n m s, n ≤ m → growLoop c n s ≠ .diverge →
    growLoop c m s = growLoop c n s := by
  intro n
  induction n with
  | zero =>
    intro m s _ h
    rw [growLoop] at h
    split at h
    · rename_i hd
      cases m <;> simp [growLoop, hd]
    · exact absurd rfl h
  | succ n ih =>
    intro m s hm h
    obtain ⟨m, rfl⟩ : ∃ k, m = k + 1 := ⟨m - 1, by omega⟩
    rw [growLoop] at h ⊢
    rw [growLoop]
    split
    · rfl
    · rename_i hd
      rw [if_neg hd] at h
      cases hg : growStep c s with
      | panic => rfl
      | diverge => rfl
      | ok s' =>
        rw [hg] at h
        exact ih m s' (by omega) h

/-- The number of iterations is at most the fuel. -/
theorem growLoop_steps {c : GrowCfg F D} : ∀ n s s', growLoop c n s = .ok s' → s'.step ≤ s.step + n := by
  intro n
  induction n with
  | zero =>
    intro s s' h
    rw [growLoop] at h
    split at h
    · cases h; omega
    · cases h
  | succ n ih =>
    intro s s' h
    rw [growLoop] at h
    split at h
    · cases h; omega
    · rw [Res.bind_eq_ok] at h
      obtain ⟨s1, h1, h2⟩ := h
      obtain ⟨_, _, _, _, h3⟩ := growStep_ok h1
      have := ih _ _ h2
      omega

/-! ### The clean-up -/

theorem updateAverage_ne_diverge : ∀ (fuel : Nat) (nodes : List (Node F D)) (i : Nat),
    (∀ (i : Nat) (n : Node F D) (j : Nat), nodes[i]? = some n → n.IsChild j →
      i < j ∧ j < nodes.length) →
    i < nodes.length → nodes.length - i ≤ fuel → updateAverage fuel nodes i ≠ .diverge := by
  intro fuel
  induction fuel with
  | zero => intro nodes i _ h1 h2; omega
  | succ fuel ih =>
    intro nodes i hc hi hf
    have shape : ∀ nodes' : List (Node F D), SameShape nodes nodes' →
        ∀ (i : Nat) (n : Node F D) (j : Nat), nodes'[i]? = some n → n.IsChild j →
          i < j ∧ j < nodes'.length := by
      intro nodes' hs i n j hn hj
      obtain ⟨n0, w, h0, rfl⟩ := hs.inv hn
      rw [hs.1]
      exact hc i n0 j h0 hj
    have sub : ∀ nodes' : List (Node F D), SameShape nodes nodes' → ∀ j, i < j → j < nodes.length →
        updateAverage fuel nodes' j ≠ .diverge := by
      intro nodes' hs j h1 h2
      exact ih nodes' j (shape nodes' hs) (by rw [hs.1]; exact h2) (by rw [hs.1]; omega)
    rw [updateAverage]
    refine Res.bind_ne_diverge' (idx_ne_diverge _ _) fun node hn => ?_
    rw [idx_eq_ok] at hn
    split
    · simp
    · rename_i hl
      have hl : node.isLeaf = false := by simpa using hl
      have hr := hc i node node.rightChild hn ⟨hl, .inr (.inl rfl)⟩
      have hleft := hc i node node.leftChild hn ⟨hl, .inl rfl⟩
      have hm := hc i node node.missingNode hn ⟨hl, .inr (.inr rfl)⟩
      refine Res.bind_ne_diverge' (idx_ne_diverge _ _) fun rn _ => ?_
      refine Res.bind_ne_diverge' (sub _ (.refl _) _ hr.1 hr.2) fun p1 h1 => ?_
      obtain ⟨n1, a1⟩ := p1
      have s1 := updateAverage_shape _ _ _ _ _ h1
      refine Res.bind_ne_diverge' (idx_ne_diverge _ _) fun ln _ => ?_
      refine Res.bind_ne_diverge' (sub _ s1 _ hleft.1 hleft.2) fun p2 h2 => ?_
      obtain ⟨n2, a2⟩ := p2
      have s2 := s1.trans (updateAverage_shape _ _ _ _ _ h2)
      refine Res.bind_ne_diverge' (idx_ne_diverge _ _) fun mn _ => ?_
      have h3 := sub _ s2 _ hm.1 hm.2
      nd []

theorem cleanUpSplits_ne_diverge {s : Splitter F} {nodes : List (Node F D)}
    (h : Tree.Wf (⟨nodes⟩ : Tree F D)) : cleanUpSplits s nodes ≠ .diverge := by
  have := updateAverage_ne_diverge nodes.length nodes 0 h.child
    (List.length_pos_iff.2 h.nonempty) (by omega)
  unfold cleanUpSplits
  nd []

theorem growInit_ne_diverge (c : GrowCfg F D) (sm : SampleMethod) (index : List Nat) :
    growInit c sm index ≠ .diverge := by
  unfold growInit rootSums
  nd [histogramMatrix_ne_diverge]

/-- Fitting a tree returns a tree or panics. -/
theorem Tree.fit_ne_diverge (c : GrowCfg F D) (sm : SampleMethod) (index : List Nat) :
    Tree.fit c sm index ≠ .diverge := by
  unfold Tree.fit
  refine Res.bind_ne_diverge' (growInit_ne_diverge c sm index) fun s hs => ?_
  have hs0 := hs
  simp only [growInit, Res.bind_eq_ok, Prod.exists, Res.ok.injEq] at hs0
  obtain ⟨g, h, sort, _, hists, _, rfl⟩ := hs0
  refine Res.bind_ne_diverge' (growLoop_leaves_nd (le_refl _) ?_) fun s' hs' => ?_
  · simp only [pushNode, List.length_cons, List.length_nil, growFuel]; omega
  · obtain ⟨_, _, _, _, _, _, gs, hI⟩ := growInit_inv hs
    obtain ⟨⟨gs', hI'⟩, _⟩ := growLoop_inv _ _ _ _ hI hs'
    have hne : 0 < gs'.length := by
      obtain ⟨g0, h0, _⟩ := hI'.root
      exact (List.getElem?_eq_some_iff.1 h0).1.pos
    have := cleanUpSplits_ne_diverge (s := c.splitter) (hI'.cert.wf (.refl _) hne)
    nd []

/-! ### Walks on a tree -/

theorem leafFrom_ne_diverge {t : Tree F D} (hw : t.Wf) {get : Nat → Res D} (hg : ∀ f, get f ≠ .diverge)
    (missing : D) : ∀ fuel i, i < t.nodes.length → t.nodes.length - i ≤ fuel →
    leafFrom t.nodes get missing fuel i ≠ .diverge := by
  intro fuel
  induction fuel with
  | zero => intro i h1 h2; omega
  | succ fuel ih =>
    intro i h1 h2
    rw [leafFrom]
    refine Res.bind_ne_diverge' (idx_ne_diverge _ _) fun node hn => ?_
    rw [idx_eq_ok] at hn
    split
    · simp
    · rename_i hl
      have hl : node.isLeaf = false := by simpa using hl
      refine Res.bind_ne_diverge (hg _) fun v => Res.bind_ne_diverge' ?_ fun c hc => ?_
      · unfold Node.getChildIdx isMissing; nd []
      · have hchild : node.IsChild c := by
          refine ⟨hl, ?_⟩
          simp only [Node.getChildIdx, Res.bind_eq_ok, Res.ok.injEq] at hc
          obtain ⟨b, _, rfl⟩ := hc
          split
          · exact .inr (.inr rfl)
          · split
            · exact .inl rfl
            · exact .inr (.inl rfl)
        have := hw.child i node c hn hchild
        exact ih c this.2 (by omega)

theorem Matrix.get_ne_diverge {T : Type} (m : Matrix T) (i j : Nat) : m.get i j ≠ .diverge := by
  unfold Matrix.get; nd []

theorem Tree.predict_ne_diverge {t : Tree F D} (hw : t.Wf) (data : Matrix D) (missing : D) :
    t.predict data missing ≠ .diverge := by
  have h0 : 0 < t.nodes.length := List.length_pos_iff.2 hw.nonempty
  unfold Tree.predict Tree.predictLeaf
  refine Res.mapM'_ne_diverge fun i _ => Res.bind_ne_diverge ?_ fun _ => by simp
  exact leafFrom_ne_diverge hw (fun f => Matrix.get_ne_diverge _ _ _) _ _ _ h0 (by omega)

/-! ### Boosting -/

theorem rocAucScore_ne_diverge (S : Sorter) (y p w : List D) : rocAucScore S y p w ≠ .diverge := by
  unfold rocAucScore; nd []

theorem Metric.eval_ne_diverge (S : Sorter) (m : Metric) (y p w : List D) :
    m.eval S y p w ≠ .diverge := by
  unfold Metric.eval; nd [rocAucScore_ne_diverge]

theorem evalLoop_ne_diverge (S : Sorter) {t : Tree F D} (hw : t.Wf) (i n : Nat)
    (es : List (TrainEval D)) : ∀ k b best stop, evalLoop S t i n es k b best stop ≠ .diverge := by
  induction es with
  | nil => intro k b best stop; simp [evalLoop]
  | cons e l ih =>
    intro k b best stop
    rw [evalLoop]
    refine Res.bind_ne_diverge (Tree.predict_ne_diverge hw _ _) fun preds =>
      Res.bind_ne_diverge (Metric.eval_ne_diverge _ _ _ _ _) fun m => Res.bind_ne_diverge ?_ fun r => ?_
    · nd [ih]
    · nd []

theorem evalSets_ne_diverge (S : Sorter) {t : Tree F D} (hw : t.Wf) (i : Nat) (b : Booster F D)
    (es : Option (List (TrainEval D))) (best : Option D) : evalSets S t i b es best ≠ .diverge := by
  cases es with
  | none => simp [evalSets]
  | some es =>
    rw [evalSets]
    unfold appendHistory RowMajorMatrix.appendRow
    nd [evalLoop_ne_diverge S hw]

theorem gossLoop_ne_diverge {R : Type} (g : Rng R F D) (fact : F) (ss : D) (l : List Nat) :
    ∀ r grad hess, gossLoop g fact ss r l grad hess ≠ .diverge := by
  induction l with
  | nil => intro r grad hess; simp [gossLoop]
  | cons a l ih =>
    intro r grad hess
    rw [gossLoop]
    nd [ih]

theorem sampleIndex_ne_diverge {R : Type} (S : Sorter) (g : Rng R F D) (m : SampleMethod) (ss : F)
    (a b : D) (r : R) (index : List Nat) (grad hess : List F) :
    sampleIndex S g m ss a b r index grad hess ≠ .diverge := by
  unfold sampleIndex gossSample
  nd [gossLoop_ne_diverge]

theorem fitIteration_ne_diverge {R : Type} (env : Env R F D) (data : Matrix D) (y w : List D)
    (sp : Splitter F) (bd : Matrix Nat) (cuts : JaggedMatrix D) (i : Nat) (s : FitState R F D) :
    fitIteration env data y w sp bd cuts i s ≠ .diverge := by
  unfold fitIteration
  refine Res.bind_ne_diverge (sampleIndex_ne_diverge _ _ _ _ _ _ _ _ _ _) fun p => ?_
  refine Res.bind_ne_diverge' (Tree.fit_ne_diverge _ _ _) fun t ht => ?_
  have hw := Tree.fit_wf ht
  nd [Tree.predict_ne_diverge hw, evalSets_ne_diverge env.sorter hw]

theorem fitLoop_ne_diverge {R : Type} (env : Env R F D) (data : Matrix D) (y w : List D)
    (sp : Splitter F) (bd : Matrix Nat) (cuts : JaggedMatrix D) :
    ∀ n i s, fitLoop env data y w sp bd cuts n i s ≠ .diverge := by
  intro n
  induction n with
  | zero => intro i s; simp [fitLoop]
  | succ n ih =>
    intro i s
    rw [fitLoop]
    nd [fitIteration_ne_diverge, ih]

/-! ### Binning -/

theorem mapBinLoop_ne_diverge (x : List D) (v : D) : ∀ n low high, high - low ≤ n → low ≤ high →
    mapBinLoop x v n low high ≠ .diverge := by
  intro n
  induction n with
  | zero =>
    intro low high h1 h2
    rw [mapBinLoop, if_pos (by omega)]; simp
  | succ n ih =>
    intro low high h1 h2
    rw [mapBinLoop]
    split
    · simp
    · refine Res.bind_ne_diverge (idx_ne_diverge _ _) fun xm => ?_
      split
      · exact ih _ _ (by omega) (by omega)
      · exact ih _ _ (by omega) (by omega)

theorem filterMissing_ne_diverge (missing : D) (l : List (D × D)) :
    filterMissing missing l ≠ .diverge := by
  induction l with
  | nil => simp [filterMissing]
  | cons p l ih =>
    unfold filterMissing isMissing
    nd []

theorem sortPartialCmp_ne_diverge (S : Sorter) {α : Type} (key : α → D) (l : List α) :
    sortPartialCmp S key l ≠ .diverge := by
  unfold sortPartialCmp; nd []

theorem percentilesOrValue_ne_diverge (S : Sorter) (v w p : List D) :
    percentilesOrValue S v w p ≠ .diverge := by
  unfold percentilesOrValue percentiles
  nd [sortPartialCmp_ne_diverge]

theorem mapBin_ne_diverge (x : List D) (v missing : D) : mapBin x v missing ≠ .diverge := by
  have := mapBinLoop_ne_diverge x v (x.length + 1) 0 x.length (by omega) (by omega)
  unfold mapBin
  nd []

/-- `binMatrix_ne_diverge` without laws. -/
theorem binMatrix_ne_diverge' (S : Sorter) (data : Matrix D) (w : List D) (nbins : Nat) (missing : D) :
    binMatrix S data w nbins missing ≠ .diverge := by
  unfold binMatrix colCuts binMatrixFromCuts
  nd [JaggedMatrix.getCol_ne_diverge, filterMissing_ne_diverge, percentilesOrValue_ne_diverge,
    mapBin_ne_diverge]

end

end Verif
