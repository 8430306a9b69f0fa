import Verif.Proofs.Hist
import Verif.Proofs.Bins
import Verif.Spec.ExampleFit

/-!
# C31: histograms of the children of a node
-/

namespace Verif

open scoped Verif

set_option linter.unusedSectionVars false

/-- A strictly increasing list of `n` numbers below `n` is `0, …, n - 1`. -/
theorem eq_range_of_sorted {l : List Nat} {n : Nat} (hs : l.Pairwise (· < ·)) (hl : ∀ x ∈ l, x < n)
    (hn : l.length = n) : l = List.range n := by
  apply List.ext_getElem (by simp [hn])
  intro i h1 h2
  rw [List.getElem_range]
  have lo : ∀ i (h : i < l.length), i ≤ l[i] := by
    intro i
    induction i with
    | zero => intro _; omega
    | succ i ih =>
      intro h
      have h1 := ih (by omega)
      have h2 := List.pairwise_iff_getElem.1 hs i (i + 1) (by omega) h (by omega)
      omega
  have hi : ∀ j (h : j < l.length), l[j] + (l.length - j) ≤ n := by
    intro j h
    have : ∀ d j (h : j < l.length), d + j + 1 = l.length → l[j] + (l.length - j) ≤ n := by
      intro d
      induction d with
      | zero => intro j h e; have := hl _ (List.getElem_mem h); omega
      | succ d ih =>
        intro j h e
        have h1 := ih (j + 1) (by omega) (by omega)
        have h2 := List.pairwise_iff_getElem.1 hs j (j + 1) h (by omega) (by omega)
        omega
    exact this (l.length - j - 1) j h (by omega)
  have a := lo i h1
  have b := hi i h1
  omega

/-- What training reads after binning. -/
def trainOf {F D : Type} (X : Matrix D) (bd : BinnedData D) (grad hess : List F) (cols : List Nat) :
    TrainData F D :=
  { data := { data := bd.binned, rows := X.rows, cols := X.cols }, cuts := bd.cuts, grad, hess
    colIndex := cols }

theorem trainOf_laid {F D : Type} [Fl D] [Fl.OrdLaws D] {X : Matrix D} {bd : BinnedData D} {S : Sorter} {w : List D}
    {nbins : Nat} {missing : D} (hX : X.Shaped) (hw : X.rows ≤ w.length)
    (hb : binMatrix S X w nbins missing = .ok bd) {cols : List Nat} (hs : cols.Pairwise (· < ·))
    (hc : ∀ c ∈ cols, c < X.cols) {grad hess : List F} : (trainOf X bd grad hess cols).Laid := by
  obtain ⟨cutss, hB⟩ := binMatrix_binned hX hw hb
  exact ⟨⟨cutss, hB.jagged, hB.len⟩, fun h => eq_range_of_sorted hs hc h⟩

section
variable {K : Type} [Field K] [LinearOrder K] {m32 m64 : Fmt K} [m32.Exact] [m64.Exact]
variable {S : Sorter} {X : Matrix (FX m64)} {w : List (FX m64)} {nbins : Nat} {missing : FX m64}
  {bd : BinnedData (FX m64)} {cols : List Nat} {grad hess : List (FX m32)} {gv hv : Nat → K}

/-- The histograms of the rows over the columns in use, as the splitter asks for them. -/
def histOf (X : Matrix (FX m64)) (bd : BinnedData (FX m64)) (cols : List Nat)
    (grad hess : List (FX m32)) (rows : List Nat) (sort : Bool) :
    Res (JaggedMatrix (Bin (FX m32) (FX m64))) :=
  histogramMatrix { data := bd.binned, rows := X.rows, cols := X.cols } bd.cuts grad hess rows cols sort

/-- **C31** (what a histogram holds): for each column in use, the histogram has one bin per cut; bin
`b` holds the sums of the gradients and hessians of the rows whose value is in bin `b`, and the cut
value that bounds it from below. -/
theorem C31_direct (hX : X.Shaped) (hw : X.rows ≤ w.length)
    (hb : binMatrix S X w nbins missing = .ok bd) (hs : cols.Pairwise (· < ·))
    (hc : ∀ c ∈ cols, c < X.cols) (hg : FinRows grad gv) (hh : FinRows hess hv) {rows : List Nat}
    {m : JaggedMatrix (Bin (FX m32) (FX m64))} (h : histOf X bd cols grad hess rows true = .ok m)
    {k col : Nat} (hk : cols[k]? = some col) :
    ∃ f cuts hist, ({ data := bd.binned, rows := X.rows, cols := X.cols } : Matrix Nat).getCol col = .ok f ∧
      bd.cuts.getCol col = .ok cuts ∧ m.getCol k = .ok hist ∧ hist.length = cuts.length ∧
      ∀ b x, hist[b]? = some x →
        x.grad = FX.fin (((rows.filter fun r => f[r]? = some b).map gv).sum) ∧
        x.hess = FX.fin (((rows.filter fun r => f[r]? = some b).map hv).sum) ∧
        some x.cut = if b = 0 then some Fl.nan else cuts[b - 1]? := by
  have hl := trainOf_laid (grad := grad) (hess := hess) hX hw hb hs hc
  obtain ⟨hss, hj, hf⟩ := histRows_histOf (t := trainOf X bd grad hess cols) hl hg hh h
  have hlt := (List.getElem?_eq_some_iff.1 hk).1
  have hlt2 : k < hss.length := by rw [← hf.length_eq]; exact hlt
  obtain ⟨f, c, e1, e2, e3, e4⟩ := hf.get hlt hlt2
  have ek : cols.get ⟨k, hlt⟩ = col := by
    simpa using (List.getElem?_eq_some_iff.1 hk).2
  rw [show (trainOf X bd grad hess cols).colIndex.get ⟨k, hlt⟩ = col from ek] at e1 e2
  simp only [List.get_eq_getElem] at e4
  refine ⟨f, c, hss[k], e1, e2, ?_, ?_, ?_⟩
  · rw [hj.getCol, List.getElem?_eq_getElem hlt2]; rfl
  · rw [e4, length_colHist e3]
  · intro b x hx
    rw [e4, colHist, getElem?_mkHist, Option.map_eq_some_iff] at hx
    obtain ⟨ct, hct, rfl⟩ := hx
    refine ⟨rfl, rfl, ?_⟩
    cases b with
    | zero => simp only [cutCol, List.getElem?_cons_zero] at hct; simpa using hct.symm
    | succ b =>
      simp only [cutCol, List.getElem?_cons_succ] at hct
      rw [List.getElem?_take] at hct
      split at hct
      · simpa using hct.symm
      · cases hct

/-- **C31** (order): the histograms do not depend on the order of the rows. -/
theorem C31_order (hX : X.Shaped) (hw : X.rows ≤ w.length)
    (hb : binMatrix S X w nbins missing = .ok bd) (hs : cols.Pairwise (· < ·))
    (hc : ∀ c ∈ cols, c < X.cols) (hg : FinRows grad gv) (hh : FinRows hess hv)
    {rows rows' : List Nat} (hp : rows.Perm rows') {m : JaggedMatrix (Bin (FX m32) (FX m64))}
    (h : histOf X bd cols grad hess rows true = .ok m) :
    histOf X bd cols grad hess rows' true = .ok m := by
  have hl := trainOf_laid (grad := grad) (hess := hess) hX hw hb hs hc
  obtain ⟨m', e1, e2, e3, e4⟩ := histRows_total h (by simp) hp.symm.subset
  have a := histRows_histOf (t := trainOf X bd grad hess cols) hl hg hh h
  have b := histRows_histOf (t := trainOf X bd grad hess cols) hl hg hh e1
  rw [histOf, e1, (a.perm hp).ext b e3.symm e4.symm]

/-- The root histograms may be computed over all rows without gathering the gradients. -/
theorem histOf_root (hX : X.Shaped) (hw : X.rows ≤ w.length)
    (hb : binMatrix S X w nbins missing = .ok bd) (hs : cols.Pairwise (· < ·))
    (hc : ∀ c ∈ cols, c < X.cols) (hg : FinRows grad gv) (hh : FinRows hess hv) {rows : List Nat}
    {sort : Bool} (hsort : sort = false → rows = List.range grad.length ∧ hess.length = grad.length)
    {m : JaggedMatrix (Bin (FX m32) (FX m64))} (h : histOf X bd cols grad hess rows sort = .ok m) :
    HistOf (trainOf X bd grad hess cols) gv hv rows m := by
  have hl := trainOf_laid (grad := grad) (hess := hess) hX hw hb hs hc
  cases sort with
  | true => exact histRows_histOf (t := trainOf X bd grad hess cols) hl hg hh h
  | false =>
    obtain ⟨rfl, e⟩ := hsort rfl
    exact histAll_histOf (t := trainOf X bd grad hess cols) hl hg hh rfl e h

theorem root_total {rows : List Nat} {sort : Bool}
    (hsort : sort = false → rows = List.range grad.length ∧ hess.length = grad.length) :
    sort = false → rows.length = grad.length ∧ rows.length = hess.length ∧
      ∀ x ∈ rows, x < grad.length := by
  intro h
  obtain ⟨rfl, e⟩ := hsort h
  exact ⟨by simp, by simp [e], fun x hx => List.mem_range.1 hx⟩

/-- **C31** (subtraction): if the rows of the parent are those of two children, then subtracting the
histograms of one child from those of the parent gives exactly the histograms that direct construction
over the rows of the other child gives.  The parent's may have been computed without gathering. -/
theorem C31_subtract (hX : X.Shaped) (hw : X.rows ≤ w.length)
    (hb : binMatrix S X w nbins missing = .ok bd) (hs : cols.Pairwise (· < ·))
    (hc : ∀ c ∈ cols, c < X.cols) (hg : FinRows grad gv) (hh : FinRows hess hv)
    {rows l r : List Nat} {sort : Bool}
    (hsort : sort = false → rows = List.range grad.length ∧ hess.length = grad.length)
    (hp : rows.Perm (l ++ r)) {P C : JaggedMatrix (Bin (FX m32) (FX m64))}
    (hP : histOf X bd cols grad hess rows sort = .ok P)
    (hC : histOf X bd cols grad hess l true = .ok C) :
    histOf X bd cols grad hess r true = .ok (histFromParentChild P C) := by
  obtain ⟨m', e1, e2, e3, e4⟩ := histRows_total hP (root_total hsort)
    (r := r) fun x hx => hp.symm.subset (List.mem_append_right _ hx)
  obtain ⟨m'', f1, f2, f3, f4⟩ := histRows_total hP (root_total hsort)
    (r := l) fun x hx => hp.symm.subset (List.mem_append_left _ hx)
  have : m'' = C := by
    have := f1.symm.trans hC
    injection this
  subst this
  have a := histOf_root hX hw hb hs hc hg hh hsort hP
  have b := histOf_root hX hw hb hs hc hg hh (sort := true) (by simp) hC
  have c := histOf_root hX hw hb hs hc hg hh (sort := true) (by simp) e1
  rw [histOf, e1]
  congr 1
  refine c.ext (a.sub b hp) ?_ ?_
  · simp only [histFromParentChild]; rw [e3, f3]
  · simp only [histFromParentChild]; rw [e4, f4]

/-- **C31** (subtraction of two siblings): the same for the splits with a missing branch. -/
theorem C31_subtract_two (hX : X.Shaped) (hw : X.rows ≤ w.length)
    (hb : binMatrix S X w nbins missing = .ok bd) (hs : cols.Pairwise (· < ·))
    (hc : ∀ c ∈ cols, c < X.cols) (hg : FinRows grad gv) (hh : FinRows hess hv)
    {rows l l' r : List Nat} {sort : Bool}
    (hsort : sort = false → rows = List.range grad.length ∧ hess.length = grad.length)
    (hp : rows.Perm (l ++ (l' ++ r))) {P C C' : JaggedMatrix (Bin (FX m32) (FX m64))}
    (hP : histOf X bd cols grad hess rows sort = .ok P)
    (hC : histOf X bd cols grad hess l true = .ok C)
    (hC' : histOf X bd cols grad hess l' true = .ok C') :
    histOf X bd cols grad hess r true = .ok (histFromParentTwoChildren P C C') := by
  obtain ⟨m', e1, e2, e3, e4⟩ := histRows_total hP (root_total hsort)
    (r := r) fun x hx => hp.symm.subset (List.mem_append_right _ (List.mem_append_right _ hx))
  obtain ⟨m'', f1, f2, f3, f4⟩ := histRows_total hP (root_total hsort)
    (r := l) fun x hx => hp.symm.subset (List.mem_append_left _ hx)
  have : m'' = C := by
    have := f1.symm.trans hC
    injection this
  subst this
  have a := histOf_root hX hw hb hs hc hg hh hsort hP
  have b := histOf_root hX hw hb hs hc hg hh (sort := true) (by simp) hC
  have b' := histOf_root hX hw hb hs hc hg hh (sort := true) (by simp) hC'
  have c := histOf_root hX hw hb hs hc hg hh (sort := true) (by simp) e1
  rw [histOf, e1]
  congr 1
  refine c.ext (a.sub2 b b' hp) ?_ ?_
  · simp only [histFromParentTwoChildren]; rw [e3, f3]
  · simp only [histFromParentTwoChildren]; rw [e4, f4]

end

/-- Gradients of the example rows. -/
def exGrad : List Q := [q 1, q (-2), q 3, q (1/2), q 5, q (-1)]

/-- The hypotheses hold for the example data with a column sample, and the bins are not trivial. -/
example : exX.Shaped ∧ (∃ bd, binMatrix exSorter exX exW 8 FX.nan = .ok bd ∧
    (match histOf exX bd [1] exGrad exW [0, 1, 2, 3, 4, 5] false,
        histOf exX bd [1] exGrad exW [0, 3, 4] true, histOf exX bd [1] exGrad exW [5, 1, 2] true with
    | .ok P, .ok C, .ok r => r = histFromParentChild P C ∧ P.data.length = 4 ∧
        P.data.map Bin.grad = [q 3, q (7/2), q (-1), q 1]
    | _, _, _ => False)) := by
  refine ⟨rfl, ?_⟩
  have : (match binMatrix exSorter exX exW 8 FX.nan with
    | .ok bd => (match histOf exX bd [1] exGrad exW [0, 1, 2, 3, 4, 5] false,
        histOf exX bd [1] exGrad exW [0, 3, 4] true, histOf exX bd [1] exGrad exW [5, 1, 2] true with
      | .ok P, .ok C, .ok r => decide (r.data = (histFromParentChild P C).data ∧
        r.ends = (histFromParentChild P C).ends ∧ r.cols = (histFromParentChild P C).cols ∧
        r.nRecords = (histFromParentChild P C).nRecords ∧ P.data.length = 4 ∧
        P.data.map Bin.grad = [q 3, q (7/2), q (-1), q 1])
      | _, _, _ => false)
    | _ => false) = true := by decide +kernel
  split at this
  · rename_i bd hbd
    refine ⟨bd, hbd, ?_⟩
    split at this
    · rename_i P C r hP hC hr

      obtain ⟨h1, h2, h3, h4, h5⟩ := of_decide_eq_true this
      exact ⟨by cases r; simp_all, h5⟩
    · cases this
  · cases this

end Verif
