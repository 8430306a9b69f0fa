import Verif.Proofs.Hist
import Verif.Proofs.GrowView
import Verif.Props.Partition
import Mathlib.Tactic.Linarith
import Mathlib.Tactic.LinearCombination

/-!
# The sums of a node are the sums over its rows
-/

namespace Verif

open scoped Verif

set_option linter.unusedSectionVars false

/-- Sum of a row quantity over rows. -/
def rowSum {K : Type} [Add K] [Zero K] (v : Nat → K) (rows : List Nat) : K := (rows.map v).sum

section
variable {K : Type} [Field K] [LinearOrder K] [IsStrictOrderedRing K] {m32 m64 : Fmt K}
  [m32.Exact] [m64.Exact]

theorem rowSum_perm {v : Nat → K} {a b : List Nat} (h : a.Perm b) : rowSum v a = rowSum v b :=
  (h.map _).sum_eq

theorem rowSum_filter_add {v : Nat → K} {p q s : Nat → Bool} {rows : List Nat}
    (h1 : ∀ r ∈ rows, s r = (p r || q r)) (h2 : ∀ r ∈ rows, (p r && q r) = false) :
    rowSum v (rows.filter s) = rowSum v (rows.filter p) + rowSum v (rows.filter q) := by
  unfold rowSum
  induction rows with
  | nil => simp
  | cons r rows ih =>
    have e := ih (fun x hx => h1 x (List.mem_cons_of_mem _ hx))
      (fun x hx => h2 x (List.mem_cons_of_mem _ hx))
    have a := h1 r (List.mem_cons_self ..)
    have b := h2 r (List.mem_cons_self ..)
    simp only [List.filter_cons, a]
    cases hp : p r <;> cases hq : q r <;> simp [hp, hq] at b ⊢ <;> linear_combination e

theorem rowsOn_nil_sum {v : Nat → K} {f : List Nat} {split : Nat} {s : List BinSide} {rows : List Nat}
    (h : rowsOn f split s rows = []) : rowSum v (rowsOn f split s rows) = 0 := by
  rw [h]; rfl

/-- Missing rows are the rows of bin 0. -/
theorem binSum_missing {v : Nat → K} {f : List Nat} {split : Nat} {rows : List Nat}
    (hr : ∀ r ∈ rows, r < f.length) : binSum f v rows 0 = rowSum v (rowsOn f split [.missing] rows) := by
  unfold binSum rowSum rowsOn
  congr 2
  refine List.filter_congr fun r h => ?_
  have := hr r h
  rw [List.getElem?_eq_getElem this, List.getD_eq_getElem?_getD, List.getElem?_eq_getElem this,
    Option.getD_some]
  unfold binSide
  by_cases h0 : f[r] = 0
  · simp [h0]
  · by_cases h1 : f[r] < split <;> simp [h0, h1]

/-- Left rows are the rows of the first bins. -/
theorem binSum_left {v : Nat → K} {f : List Nat} {rows : List Nat} (hr : ∀ r ∈ rows, r < f.length)
    (i : Nat) : ((List.range i).map fun k => binSum f v rows (k + 1)).sum =
      rowSum v (rowsOn f (i + 1) [.left] rows) := by
  induction i with
  | zero =>
    have : rowsOn f (0 + 1) [.left] rows = [] := by
      unfold rowsOn
      refine List.filter_eq_nil_iff.2 fun r _ => ?_
      unfold binSide
      by_cases h0 : f.getD r 0 = 0
      · rw [if_pos h0]; simp
      · rw [if_neg h0, if_neg (by omega)]; simp
    rw [this]; rfl
  | succ i ih =>
    rw [List.range_succ, List.map_append, List.sum_append, ih]
    simp only [List.map_cons, List.map_nil, List.sum_cons, List.sum_nil, add_zero]
    unfold rowsOn
    rw [rowSum_filter_add (s := fun r => [BinSide.left].contains (binSide (i + 1 + 1) (f.getD r 0)))
      (p := fun r => [BinSide.left].contains (binSide (i + 1) (f.getD r 0)))
      (q := fun r => decide (f[r]? = some (i + 1)))]
    · rfl
    · intro r h
      have := hr r h
      rw [List.getElem?_eq_getElem this, List.getD_eq_getElem?_getD, List.getElem?_eq_getElem this,
        Option.getD_some]
      generalize f[r] = b
      unfold binSide
      by_cases h0 : b = 0
      · subst h0; simp
      · by_cases h1 : b < i + 1
        · simp [h0, h1, show b < i + 1 + 1 by omega, show b ≠ i + 1 by omega]
        · by_cases h2 : b = i + 1
          · simp [h2]
          · simp [h0, h1, h2, show ¬ b < i + 1 + 1 by omega]
    · intro r h
      have := hr r h
      rw [List.getElem?_eq_getElem this, List.getD_eq_getElem?_getD, List.getElem?_eq_getElem this,
        Option.getD_some]
      generalize f[r] = b
      unfold binSide
      by_cases h2 : b = i + 1
      · subst h2; simp
      · simp [h2]

theorem rowSum_two_l (v : Nat → K) (f : List Nat) (split : Nat) (rows : List Nat) :
    rowSum v (rowsOn f split [.missing, .left] rows) =
      rowSum v (rowsOn f split [.left] rows) + rowSum v (rowsOn f split [.missing] rows) := by
  unfold rowsOn
  refine rowSum_filter_add (fun r _ => ?_) (fun r _ => ?_) <;>
    cases binSide split (f.getD r 0) <;> rfl

theorem rowSum_two_r (v : Nat → K) (f : List Nat) (split : Nat) (rows : List Nat) :
    rowSum v (rowsOn f split [.missing, .right] rows) =
      rowSum v (rowsOn f split [.right] rows) + rowSum v (rowsOn f split [.missing] rows) := by
  unfold rowsOn
  refine rowSum_filter_add (fun r _ => ?_) (fun r _ => ?_) <;>
    cases binSide split (f.getD r 0) <;> rfl

theorem filter_perm3 {p q s : Nat → Bool} (h : ∀ r, (p r = true ∧ q r = false ∧ s r = false) ∨
    (p r = false ∧ q r = true ∧ s r = false) ∨ (p r = false ∧ q r = false ∧ s r = true))
    (rows : List Nat) : rows.Perm (rows.filter p ++ (rows.filter q ++ rows.filter s)) := by
  induction rows with
  | nil => simp
  | cons r rows ih =>
    rcases h r with ⟨a, b, c⟩ | ⟨a, b, c⟩ | ⟨a, b, c⟩ <;>
      simp only [List.filter_cons, a, b, c, if_true, Bool.false_eq_true, if_false]
    · exact ih.cons r
    · exact (ih.cons r).trans List.perm_middle.symm
    · refine (ih.cons r).trans ?_
      rw [← List.append_assoc, ← List.append_assoc]
      exact List.perm_middle.symm

/-- The three parts of the rows. -/
theorem rowsOn_perm3 (f : List Nat) (split : Nat) (rows : List Nat) :
    rows.Perm (rowsOn f split [.missing] rows ++
      (rowsOn f split [.left] rows ++ rowsOn f split [.right] rows)) := by
  unfold rowsOn
  refine filter_perm3 (fun r => ?_) rows
  cases binSide split (f.getD r 0) <;> decide

theorem rowSum_three (v : Nat → K) (f : List Nat) (split : Nat) (rows : List Nat) :
    rowSum v rows = rowSum v (rowsOn f split [.left] rows) + rowSum v (rowsOn f split [.missing] rows) +
      rowSum v (rowsOn f split [.right] rows) := by
  rw [rowSum_perm (rowsOn_perm3 f split rows)]
  simp only [rowSum, List.map_append, List.sum_append]
  ring

theorem rowsOn_perm2 (f : List Nat) (split : Nat) (mr : Bool) (rows : List Nat) :
    rows.Perm (rowsOn f split (leftSides mr) rows ++ rowsOn f split (rightSides mr) rows) := by
  unfold rowsOn
  have : ∀ r, (rightSides mr).contains (binSide split (f.getD r 0)) =
      !(leftSides mr).contains (binSide split (f.getD r 0)) := by
    intro r
    cases mr <;> cases binSide split (f.getD r 0) <;> rfl
  simp only [this]
  exact (List.filter_append_perm _ _).symm

theorem gradSum_fin (m : List (Bin (FX m32) (FX m64))) (S : List K)
    (h : m.map Bin.grad = S.map FX.fin) : gradSum m = FX.fin S.sum := by
  rw [gradSum, h, foldl_add_eq_sum, sum_fin, FX.zero_def, FX.fin_add, zero_add]

theorem hessSum_fin (m : List (Bin (FX m32) (FX m64))) (S : List K)
    (h : m.map Bin.hess = S.map FX.fin) : hessSum m = FX.fin S.sum := by
  rw [hessSum, h, foldl_add_eq_sum, sum_fin, FX.zero_def, FX.fin_add, zero_add]

variable {t : TrainData (FX m32) (FX m64)} {gv hv : Nat → K}

/-- The sums of the node are the sums over the rows. -/
structure NodeSums (t : TrainData (FX m32) (FX m64)) (gv hv : Nat → K) (sn : SNode (FX m32) (FX m64))
    (rows : List Nat) : Prop where
  grad : sn.gradientSum = FX.fin (rowSum gv rows)
  hess : sn.hessianSum = FX.fin (rowSum hv rows)
  hist : sn.isMissingLeaf = false → HistOf t gv hv rows sn.histograms

/-- The sums of a candidate split. -/
def candArgs (sn : SNode (FX m32) (FX m64)) (f : List Nat) (split : Nat) (gv hv : Nat → K)
    (rows : List Nat) (constraint : Option Constraint) : SplitArgs (FX m32) where
  lg := FX.fin (rowSum gv (rowsOn f split [.left] rows))
  lh := FX.fin (rowSum hv (rowsOn f split [.left] rows))
  rg := FX.fin (rowSum gv (rowsOn f split [.right] rows))
  rh := FX.fin (rowSum hv (rowsOn f split [.right] rows))
  mg := FX.fin (rowSum gv (rowsOn f split [.missing] rows))
  mh := FX.fin (rowSum hv (rowsOn f split [.missing] rows))
  lower := sn.lowerBound
  upper := sn.upperBound
  parentWeight := sn.weightValue
  constraint := constraint

theorem getCol_length {T : Type} {m : Matrix T} {j : Nat} {c : List T} (h : m.getCol j = .ok c) :
    c.length = m.rows := by
  unfold Matrix.getCol Matrix.getColSlice Matrix.itemIndex at h
  obtain ⟨h1, h2, rfl⟩ := slice_eq_ok.1 h
  rw [List.length_take, List.length_drop]; omega

/-- The arguments of a candidate split. -/
theorem candidate_args {sn : SNode (FX m32) (FX m64)} {rows : List Nat}
    (hN : NodeSums t gv hv sn rows) (hml : sn.isMissingLeaf = false)
    (hlt : ∀ r ∈ rows, r < t.data.rows) {j i feature : Nat} {missing bin : Bin (FX m32) (FX m64)}
    {bins : List (Bin (FX m32) (FX m64))} (h1 : t.colIndex[j]? = some feature)
    (h2 : sn.histograms.getCol j = .ok (missing :: bins)) (h3 : bins[i]? = some bin) :
    ∃ f c, t.data.getCol feature = .ok f ∧ t.cuts.getCol feature = .ok c ∧
      i + 1 < c.length ∧ c[i]? = some bin.cut ∧ f.length = t.data.rows ∧
      ∀ ct, candArgs sn f (i + 1) gv hv rows ct =
      { lg := gradSum (bins.take i), lh := hessSum (bins.take i)
        rg := sn.gradientSum - gradSum (bins.take i) - missing.grad
        rh := sn.hessianSum - hessSum (bins.take i) - missing.hess
        mg := missing.grad, mh := missing.hess
        lower := sn.lowerBound, upper := sn.upperBound, parentWeight := sn.weightValue
        constraint := ct } := by
  obtain ⟨hs, hj, hf⟩ := hN.hist hml
  have hjlt : j < t.colIndex.length := (List.getElem?_eq_some_iff.1 h1).1
  obtain ⟨h, hh, f, c, e1, e2, e3, e4⟩ : ∃ h, hs[j]? = some h ∧ ∃ f c, t.data.getCol feature = .ok f ∧
      t.cuts.getCol feature = .ok c ∧ c ≠ [] ∧ h = colHist f c gv hv rows := by
    have hjl : j < hs.length := by rw [← hf.length_eq]; exact hjlt
    refine ⟨hs[j], List.getElem?_eq_getElem hjl, ?_⟩
    have := (List.forall₂_iff_get.1 hf).2 j hjlt hjl
    rw [List.getElem?_eq_getElem hjlt] at h1
    injection h1 with h1
    simpa [h1] using this
  rw [hj.getCol, hh, Res.ofOption_some, Res.ok.injEq] at h2
  subst h2
  have hlen := length_colHist (m32 := m32) (f := f) (gv := gv) (hv := hv) (rows := rows) e3
  rw [← e4] at hlen
  have hb : ∀ k, (missing :: bins)[k]? = (cutCol c)[k]?.map fun x =>
      ({ grad := FX.fin (binSum f gv rows k), hess := FX.fin (binSum f hv rows k), cut := x } :
        Bin (FX m32) (FX m64)) := by
    intro k; rw [e4, colHist, getElem?_mkHist]
  have hil : i < bins.length := (List.getElem?_eq_some_iff.1 h3).1
  rw [List.length_cons] at hlen
  have hfr : ∀ r ∈ rows, r < f.length := by rw [getCol_length e1]; exact hlt
  have hm := hb 0
  simp only [List.getElem?_cons_zero, cutCol, Option.map_some, Option.some.injEq] at hm
  have hbin := hb (i + 1)
  have hci : i < c.length := by omega
  rw [List.getElem?_cons_succ, h3, cutCol, List.getElem?_cons_succ, List.getElem?_take,
    if_pos (by omega), List.getElem?_eq_getElem hci, Option.map_some, Option.some.injEq] at hbin
  have hbk : ∀ k, k < bins.length → bins[k]?.map Bin.grad = some (FX.fin (binSum f gv rows (k + 1))) ∧
      bins[k]?.map Bin.hess = some (FX.fin (binSum f hv rows (k + 1))) := by
    intro k hk
    have := hb (k + 1)
    rw [List.getElem?_cons_succ] at this
    rw [this, cutCol, List.getElem?_cons_succ, List.getElem?_take, if_pos (by omega),
      List.getElem?_eq_getElem (by omega)]
    simp
  have hg : gradSum (bins.take i) = FX.fin (rowSum gv (rowsOn f (i + 1) [.left] rows)) := by
    rw [← binSum_left hfr, gradSum_fin]
    apply List.ext_getElem?
    intro k
    by_cases hk : k < i
    · rw [List.getElem?_map, List.getElem?_take, if_pos hk, (hbk k (by omega)).1]
      simp [hk]
    · rw [List.getElem?_eq_none (by simp; omega), List.getElem?_eq_none (by simp; omega)]
  have hh' : hessSum (bins.take i) = FX.fin (rowSum hv (rowsOn f (i + 1) [.left] rows)) := by
    rw [← binSum_left hfr, hessSum_fin]
    apply List.ext_getElem?
    intro k
    by_cases hk : k < i
    · rw [List.getElem?_map, List.getElem?_take, if_pos hk, (hbk k (by omega)).2]
      simp [hk]
    · rw [List.getElem?_eq_none (by simp; omega), List.getElem?_eq_none (by simp; omega)]
  refine ⟨f, c, e1, e2, by omega, by simp only [hbin]; exact List.getElem?_eq_getElem hci,
    getCol_length e1, fun ct => ?_⟩
  rw [hg, hh', hm, hN.grad, hN.hess]
  simp only [candArgs, FX.fin_sub]
  rw [binSum_missing (split := i + 1) hfr, binSum_missing (split := i + 1) hfr]
  rw [rowSum_three gv f (i + 1) rows, rowSum_three hv f (i + 1) rows]
  congr 2 <;> ring

/-- The sums a candidate split is evaluated on. -/
theorem candidate_sums {s : Splitter (FX m32)} {sn : SNode (FX m32) (FX m64)} {rows : List Nat}
    (hN : NodeSums t gv hv sn rows) (hml : sn.isMissingLeaf = false)
    (hlt : ∀ r ∈ rows, r < t.data.rows)
    (hsm : ∀ col ∈ t.colIndex, ∀ c, t.cuts.getCol col = .ok c → c.length ≤ 65536)
    {j i : Nat} {info : SplitInfo (FX m32) (FX m64)} (hc : IsCandidate s sn t.colIndex j i info) :
    ∃ f c, t.data.getCol info.splitFeature = .ok f ∧ t.cuts.getCol info.splitFeature = .ok c ∧
      info.splitFeature ∈ t.colIndex ∧ i + 1 < c.length ∧ c[i]? = some info.splitValue ∧
      info.splitBin = i + 1 ∧ f.length = t.data.rows ∧
      ∃ l r, s.evaluateSplit (candArgs sn f (i + 1) gv hv rows
          (s.params.getConstraint info.splitFeature)) = .ok (some (l, r, info.missingNode)) ∧
        l.grad = info.leftNode.grad ∧ l.cover = info.leftNode.cover ∧
        l.weight = info.leftNode.weight ∧ r.grad = info.rightNode.grad ∧
        r.cover = info.rightNode.cover ∧ r.weight = info.rightNode.weight := by
  obtain ⟨feature, missing, bins, bin, h1, h2, h3, h4⟩ := hc.made
  obtain ⟨f, c, e1, e2, e3, e4, e5, e6⟩ := candidate_args hN hml hlt h1 h2 h3
  have hmem : feature ∈ t.colIndex := List.mem_of_getElem? h1
  have hcl := hsm feature hmem c e2
  obtain ⟨l, r, m, g, k1, k2, k3, rfl⟩ := evalCandidate_some.1 h4
  refine ⟨f, c, e1, e2, hmem, e3, e4, Nat.mod_eq_of_lt (by omega), e5, l, r, ?_, rfl, rfl, rfl, rfl, rfl,
    rfl⟩
  simp only
  rw [e6]
  exact k1

/-- The sums of the two sides of a binary split, and their weights. -/
theorem imputer_sums {p : SplitParams (FX m32)} {a : SplitArgs (FX m32)} {l r : NodeInfo (FX m32)}
    {m : MissingInfo (FX m32)} {rg rh mg mh : K} (erg : a.rg = FX.fin rg) (erh : a.rh = FX.fin rh)
    (emg : a.mg = FX.fin mg) (emh : a.mh = FX.fin mh)
    (h : imputerEvaluateSplit p a = some (l, r, m)) :
    l.weight = p.cw a l.grad l.cover ∧ r.weight = p.cw a r.grad r.cover ∧
    ((m = .left ∧ l.grad = a.lg + a.mg ∧ l.cover = a.lh + a.mh ∧ r.grad = a.rg ∧ r.cover = a.rh) ∨
     (m = .right ∧ l.grad = a.lg ∧ l.cover = a.lh ∧ r.grad = a.rg + a.mg ∧ r.cover = a.rh + a.mh)) := by
  unfold imputerEvaluateSplit at h
  split at h
  · cases h
  · simp only at h
    split at h
    · cases h
    · split at h
      · split at h
        all_goals
          split at h
          · cases h
          · simp only [Option.some.injEq, Prod.mk.injEq] at h
            obtain ⟨rfl, rfl, rfl⟩ := h
            simp [mkInfo]
      · rename_i h0
        split at h
        · cases h
        · simp only [Option.some.injEq, Prod.mk.injEq] at h
          obtain ⟨rfl, rfl, rfl⟩ := h
          rw [emg, emh] at h0
          simp only [FX.zero_def, FX.feq_fin, Bool.or_eq_true, Bool.not_eq_true', not_or,
            Bool.not_eq_false, decide_eq_true_eq] at h0
          refine ⟨rfl, rfl, .inr ⟨rfl, rfl, rfl, ?_, ?_⟩⟩
          · simp only [mkInfo]; rw [emg, erg, h0.1]; simp
          · simp only [mkInfo]; rw [emh, erh, h0.2]; simp

theorem pos_of_cover {x : K} {w : FX m32} (hw : (0 <ᶠ w) = true)
    (h : ((FX.fin x : FX m32) <ᶠ w) = false) : 0 < x := by
  cases w with
  | nan => cases hw
  | ninf => cases hw
  | pinf => cases h
  | fin q =>
    simp only [FX.zero_def, FX.lt_fin, decide_eq_true_eq, decide_eq_false_iff_not, not_lt] at hw h
    exact lt_of_lt_of_le hw h

/-- Everything the induction needs to know about the training data. -/
structure TrainOk (t : TrainData (FX m32) (FX m64)) (gv hv : Nat → K) : Prop where
  laid : t.Laid
  grad : FinRows t.grad gv
  hess : FinRows t.hess hv
  small : ∀ col ∈ t.colIndex, ∀ c, t.cuts.getCol col = .ok c → c.length ≤ 65536

/-- Where a kid's rows come from, in terms of the bins of the split feature. -/
def kidSides (s : Splitter (FX m32)) (mr : Bool) : List (List BinSide) :=
  match s with
  | .imputer _ => [leftSides mr, rightSides mr]
  | .branch _ => [[.missing], [.left], [.right]]

/-- A split of a node with correct sums makes children with correct sums; the rows of the children
are the rows on their side of the split. -/
theorem kids_sums (hT : TrainOk t gv hv) {s : Splitter (FX m32)}
    (hpos : (0 <ᶠ s.params.minLeafWeight) = true) {sn : SNode (FX m32) (FX m64)} {rows : List Nat}
    (hN : NodeSums t gv hv sn rows) (hml : sn.isMissingLeaf = false)
    (hlt : ∀ r ∈ rows, r < t.data.rows) {j i : Nat} {info : SplitInfo (FX m32) (FX m64)}
    (hc : IsCandidate s sn t.colIndex j i info) {kids : List (Kid (FX m32) (FX m64))}
    (hk : kidsOf s t sn rows info = .ok kids) :
    ∃ f c, t.data.getCol info.splitFeature = .ok f ∧ t.cuts.getCol info.splitFeature = .ok c ∧
      info.splitFeature ∈ t.colIndex ∧ i + 1 < c.length ∧ c[i]? = some info.splitValue ∧
      info.splitBin = i + 1 ∧ f.length = t.data.rows ∧
      (∃ l r, s.evaluateSplit (candArgs sn f (i + 1) gv hv rows
          (s.params.getConstraint info.splitFeature)) = .ok (some (l, r, info.missingNode)) ∧
        l.grad = info.leftNode.grad ∧ l.cover = info.leftNode.cover ∧
        l.weight = info.leftNode.weight ∧ r.grad = info.rightNode.grad ∧
        r.cover = info.rightNode.cover ∧ r.weight = info.rightNode.weight) ∧
      ∃ mr, (∀ p, s = .imputer p → info.missingNode.goesRight = .ok mr) ∧
        List.Forall₂ (fun kid sides => kid.rows.Perm (rowsOn f (i + 1) sides rows) ∧
          NodeSums t gv hv kid.sn kid.rows) kids (kidSides s mr) := by
  obtain ⟨f, c, h1, h2, h3, h4, h5, h6, h7, l, r, he, g1, g2, g3, g4, g5, g6⟩ :=
    candidate_sums hN hml hlt hT.small hc
  refine ⟨f, c, h1, h2, h3, h4, h5, h6, h7, ⟨l, r, he, g1, g2, g3, g4, g5, g6⟩, ?_⟩
  have hfr : ∀ r ∈ rows, r < f.length := by rw [h7]; exact hlt
  have hH := hN.hist hml
  cases s with
  | imputer p =>
    obtain ⟨mr, feature, rows', k, kl, kr, a1, a2, a3, a4, rfl, a5, a6, a7, a8, a9, a10⟩ :=
      imputerKids_view hk
    rw [h1] at a2; injection a2 with a2; subst a2
    simp only [Splitter.evaluateSplit, Res.ok.injEq] at he
    obtain ⟨_, hcr, _⟩ := imputerEvaluateSplit_some he
    obtain ⟨_, _, hsums⟩ := imputer_sums rfl rfl rfl rfl he
    -- sums on both sides
    have key : l.grad = FX.fin (rowSum gv (rowsOn f (i + 1) (leftSides mr) rows)) ∧
        l.cover = FX.fin (rowSum hv (rowsOn f (i + 1) (leftSides mr) rows)) ∧
        r.grad = FX.fin (rowSum gv (rowsOn f (i + 1) (rightSides mr) rows)) ∧
        r.cover = FX.fin (rowSum hv (rowsOn f (i + 1) (rightSides mr) rows)) := by
      rcases hsums with ⟨e, b1, b2, b3, b4⟩ | ⟨e, b1, b2, b3, b4⟩
      · rw [e] at a1; injection a1 with a1; subst a1
        rw [b1, b2, b3, b4]
        simp only [leftSides, rightSides, Bool.false_eq_true, if_false, rowSum_two_l, candArgs,
          FX.fin_add, and_self]
      · rw [e] at a1; injection a1 with a1; subst a1
        rw [b1, b2, b3, b4]
        simp only [leftSides, rightSides, if_true, rowSum_two_r, candArgs, FX.fin_add, and_self]
    have hne : rowsOn f (i + 1) (rightSides mr) rows ≠ [] := by
      intro e
      rw [key.2.2.2] at hcr
      have := pos_of_cover hpos hcr
      rw [e] at this
      exact absurd this (by simp [rowSum])
    obtain ⟨index', k', d1, d2, d3, d4⟩ := C30_binary hfr hne
    rw [h6, d1] at a3
    simp only [Res.ok.injEq, Prod.mk.injEq] at a3
    obtain ⟨rfl, rfl⟩ := a3
    have hpm := rowsOn_perm2 f (i + 1) mr rows
    have hists : HistOf t gv hv (index'.take k') kl.sn.histograms ∧
        HistOf t gv hv (index'.drop k') kr.sn.histograms := by
      have hperm : rows.Perm (index'.take k' ++ index'.drop k') := hpm.trans (d3.symm.append d4.symm)
      unfold imputerKidHists at a4
      split at a4
      · simp only [Res.bind_eq_ok, Res.ok.injEq, Prod.mk.injEq] at a4
        obtain ⟨lh, b1, rfl, b2⟩ := a4
        have := histRows_histOf hT.laid hT.grad hT.hess b1
        refine ⟨this, ?_⟩
        rw [← b2]; exact hH.sub this hperm
      · simp only [Res.bind_eq_ok, Res.ok.injEq, Prod.mk.injEq] at a4
        obtain ⟨rh, b1, b2, rfl⟩ := a4
        have := histRows_histOf hT.laid hT.grad hT.hess b1
        refine ⟨?_, this⟩
        rw [← b2]; exact hH.sub this (hperm.trans List.perm_append_comm)
    refine ⟨mr, fun _ _ => a1, ?_⟩
    refine .cons ⟨by rw [a5]; exact d3, ?_, ?_, fun _ => by rw [a5]; exact hists.1⟩
      (.cons ⟨by rw [a6]; exact d4, ?_, ?_, fun _ => by rw [a6]; exact hists.2⟩ .nil)
    · rw [a7.grad, ← g1, key.1, a5, rowSum_perm d3]
    · rw [a7.cover, ← g2, key.2.1, a5, rowSum_perm d3]
    · rw [a8.grad, ← g4, key.2.2.1, a6, rowSum_perm d4]
    · rw [a8.cover, ← g5, key.2.2.2, a6, rowSum_perm d4]
  | branch p =>
    obtain ⟨isLeaf, minfo, feature, rows', jm, k, km, kl, kr, b1, a2, a3, _, _, a4, rfl, c1, c2, c3, d1, d2, d3,
      d4, d5, d6⟩ := branchKids_view hk
    rw [h1] at a2; injection a2 with a2; subst a2
    obtain ⟨lw, rw', q1, q2, q3, q4, q5, q6⟩ := branchEvaluateSplit_some he
    have hne : rowsOn f (i + 1) [.right] rows ≠ [] := by
      intro e
      have := pos_of_cover hpos (x := rowSum hv (rowsOn f (i + 1) [.right] rows)) q3
      rw [e] at this
      exact absurd this (by simp [rowSum])
    obtain ⟨index', m', k', p1, p2, p3, p4, p5, p6, p7⟩ := C30_ternary (by omega) hfr hne
    rw [h6, p1] at a3
    simp only [Res.ok.injEq, Prod.mk.injEq] at a3
    obtain ⟨rfl, rfl, rfl⟩ := a3
    have hpm := rowsOn_perm3 f (i + 1) rows
    obtain ⟨M, hM⟩ : ∃ M, M = index'.take m' := ⟨_, rfl⟩
    obtain ⟨L, hL⟩ : ∃ L, L = (index'.drop m').take (k' - m') := ⟨_, rfl⟩
    obtain ⟨Rr, hR⟩ : ∃ Rr, Rr = index'.drop k' := ⟨_, rfl⟩
    rw [← hM] at p5 c1 a4
    rw [← hL] at p6 c2 a4
    rw [← hR] at p7 c3 a4
    have hperm : rows.Perm (M ++ (L ++ Rr)) := hpm.trans (p5.symm.append (p6.symm.append p7.symm))
    have hists : (km.sn.isMissingLeaf = false → HistOf t gv hv M km.sn.histograms) ∧
        HistOf t gv hv L kl.sn.histograms ∧ HistOf t gv hv Rr kr.sn.histograms := by
      unfold branchKidHists at a4
      simp only at a4
      split at a4
      · rename_i hm0
        have hMnil : M = [] := List.length_eq_zero_iff.1 hm0
        rw [hMnil, List.nil_append] at hperm
        have hfalse : km.sn.isMissingLeaf = false → HistOf t gv hv M km.sn.histograms := by
          intro e
          rw [d4, c1] at e
          simp [hm0] at e
        refine ⟨hfalse, ?_⟩
        split at a4
        · simp only [Res.bind_eq_ok, Res.ok.injEq, Prod.mk.injEq] at a4
          obtain ⟨rh, e1, _, e2, rfl⟩ := a4
          have := histRows_histOf hT.laid hT.grad hT.hess e1
          refine ⟨?_, this⟩
          rw [← e2]; exact hH.sub this (hperm.trans List.perm_append_comm)
        · simp only [Res.bind_eq_ok, Res.ok.injEq, Prod.mk.injEq] at a4
          obtain ⟨lh, e1, _, rfl, e2⟩ := a4
          have := histRows_histOf hT.laid hT.grad hT.hess e1
          refine ⟨this, ?_⟩
          rw [← e2]; exact hH.sub this hperm
      · split at a4
        · simp only [Res.bind_eq_ok, Res.ok.injEq, Prod.mk.injEq] at a4
          obtain ⟨lh, e1, rh, e2, e3, rfl, rfl⟩ := a4
          have l1 := histRows_histOf hT.laid hT.grad hT.hess e1
          have l2 := histRows_histOf hT.laid hT.grad hT.hess e2
          refine ⟨fun _ => ?_, l1, l2⟩
          rw [← e3]
          refine hH.sub2 l1 l2 (hperm.trans ?_)
          rw [← List.append_assoc L Rr M]
          exact List.perm_append_comm
        · split at a4
          · simp only [Res.bind_eq_ok, Res.ok.injEq, Prod.mk.injEq] at a4
            obtain ⟨mh, e1, rh, e2, rfl, e3, rfl⟩ := a4
            have l1 := histRows_histOf hT.laid hT.grad hT.hess e1
            have l2 := histRows_histOf hT.laid hT.grad hT.hess e2
            refine ⟨fun _ => l1, ?_, l2⟩
            rw [← e3]
            exact hH.sub2 l1 l2 (hperm.trans (List.perm_append_comm.append_left M))
          · simp only [Res.bind_eq_ok, Res.ok.injEq, Prod.mk.injEq] at a4
            obtain ⟨mh, e1, lh, e2, rfl, rfl, e3⟩ := a4
            have l1 := histRows_histOf hT.laid hT.grad hT.hess e1
            have l2 := histRows_histOf hT.laid hT.grad hT.hess e2
            refine ⟨fun _ => l1, l2, ?_⟩
            rw [← e3]
            exact hH.sub2 l1 l2 hperm
    have hmi : minfo.grad = FX.fin (rowSum gv (rowsOn f (i + 1) [.missing] rows)) ∧
        minfo.cover = FX.fin (rowSum hv (rowsOn f (i + 1) [.missing] rows)) := by
      unfold BranchParams.missingChild at b1
      rw [q6] at b1
      split at b1
      · rename_i e
        split at e
        · injection e with e
          simp only [Res.ok.injEq, Prod.mk.injEq] at b1
          rw [← b1.2, ← e]; exact ⟨rfl, rfl⟩
        · cases e
      · rename_i e
        split at e
        · cases e
        · injection e with e
          simp only [Res.ok.injEq, Prod.mk.injEq] at b1
          rw [← b1.2, ← e]; exact ⟨rfl, rfl⟩
      · cases b1
    refine ⟨false, (fun p h => nomatch h), ?_⟩
    refine .cons ⟨by rw [c1]; exact p5, ?_, ?_, by rw [c1]; exact hists.1⟩
      (.cons ⟨by rw [c2]; exact p6, ?_, ?_, fun _ => by rw [c2]; exact hists.2.1⟩
        (.cons ⟨by rw [c3]; exact p7, ?_, ?_, fun _ => by rw [c3]; exact hists.2.2⟩ .nil))
    · rw [d1.grad, c1, rowSum_perm p5]
      split <;> exact hmi.1
    · rw [d1.cover, c1, rowSum_perm p5]
      split <;> exact hmi.2
    · rw [d2.grad, ← g1, q4, c2, rowSum_perm p6]; rfl
    · rw [d2.cover, ← g2, q4, c2, rowSum_perm p6]; rfl
    · rw [d3.grad, ← g4, q5, c3, rowSum_perm p7]; rfl
    · rw [d3.cover, ← g5, q5, c3, rowSum_perm p7]; rfl

end

end Verif
