import Verif.Proofs.NodeSums
import Mathlib.Algebra.BigOperators.Group.Finset.Basic
import Mathlib.Algebra.BigOperators.Group.Finset.Sigma

/-!
# Copies of rows: lists of rows and their sums

Row `r'` of a second data set is a copy of row `σ r'` of the first.
-/

namespace Verif

open scoped Verif

set_option linter.unusedSectionVars false

section
variable {K : Type} [AddCommMonoid K]

/-- The quantity of a row is the sum of the quantities of its copies. -/
def FibSum (σ : Nat → Nat) (n n' : Nat) (v v' : Nat → K) : Prop :=
  ∀ r < n, v r = (((List.range n').filter fun r' => σ r' = r).map v').sum

/-- The rows of the second list are the copies of the rows of the first. -/
structure Over (σ : Nat → Nat) (n n' : Nat) (rows rows' : List Nat) : Prop where
  nodup : rows.Nodup
  nodup' : rows'.Nodup
  lt : ∀ r ∈ rows, r < n
  mem : ∀ r', r' ∈ rows' ↔ r' < n' ∧ σ r' ∈ rows

theorem sum_toFinset_nodup (v : Nat → K) {rows : List Nat} (h : rows.Nodup) :
    (rows.map v).sum = ∑ r ∈ rows.toFinset, v r := (List.sum_toFinset v h).symm

theorem Over.sum {σ : Nat → Nat} {n n' : Nat} {rows rows' : List Nat} (h : Over σ n n' rows rows')
    {v v' : Nat → K} (hv : FibSum σ n n' v v') : (rows'.map v').sum = (rows.map v).sum := by
  rw [sum_toFinset_nodup v h.nodup, sum_toFinset_nodup v' h.nodup',
    ← Finset.sum_fiberwise_of_maps_to (s := rows'.toFinset) (t := rows.toFinset) (g := σ)
      (fun r hr => by rw [List.mem_toFinset] at hr ⊢; exact ((h.mem r).1 hr).2)]
  refine Finset.sum_congr rfl fun r hr => ?_
  rw [List.mem_toFinset] at hr
  rw [hv r (h.lt r hr), sum_toFinset_nodup _ (List.nodup_range.filter _)]
  refine Finset.sum_congr ?_ fun _ _ => rfl
  ext r'
  simp only [Finset.mem_filter, List.mem_toFinset, List.mem_filter, List.mem_range,
    decide_eq_true_eq, h.mem]
  constructor
  · rintro ⟨⟨h1, _⟩, h2⟩; exact ⟨h1, h2⟩
  · rintro ⟨h1, h2⟩; exact ⟨⟨h1, by rw [h2]; exact hr⟩, h2⟩

theorem Over.filter {σ : Nat → Nat} {n n' : Nat} {rows rows' : List Nat}
    (h : Over σ n n' rows rows') {p p' : Nat → Bool} (hp : ∀ r' < n', p' r' = p (σ r')) :
    Over σ n n' (rows.filter p) (rows'.filter p') := by
  refine ⟨h.nodup.filter _, h.nodup'.filter _, fun r hr => h.lt r (List.mem_of_mem_filter hr), ?_⟩
  intro r'
  rw [List.mem_filter, List.mem_filter, h.mem]
  constructor
  · rintro ⟨⟨h1, h2⟩, h3⟩; exact ⟨h1, h2, by rw [← hp r' h1]; exact h3⟩
  · rintro ⟨h1, h2, h3⟩; exact ⟨⟨h1, h2⟩, by rw [hp r' h1]; exact h3⟩

theorem Over.perm {σ : Nat → Nat} {n n' : Nat} {rows rows' a a' : List Nat}
    (h : Over σ n n' rows rows') (ha : a.Perm rows) (ha' : a'.Perm rows') : Over σ n n' a a' :=
  ⟨ha.nodup_iff.2 h.nodup, ha'.nodup_iff.2 h.nodup', fun r hr => h.lt r (ha.mem_iff.1 hr),
    fun r' => by rw [ha'.mem_iff, ha.mem_iff, h.mem]⟩

theorem Over.nil_iff {σ : Nat → Nat} {n n' : Nat} {rows rows' : List Nat}
    (h : Over σ n n' rows rows') (honto : ∀ r < n, ∃ r' < n', σ r' = r) : rows' = [] ↔ rows = [] := by
  constructor
  · intro e
    refine List.eq_nil_iff_forall_not_mem.2 fun r hr => ?_
    obtain ⟨r', h1, h2⟩ := honto r (h.lt r hr)
    have := (h.mem r').2 ⟨h1, by rw [h2]; exact hr⟩
    rw [e] at this; cases this
  · intro e
    refine List.eq_nil_iff_forall_not_mem.2 fun r hr => ?_
    have := ((h.mem r).1 hr).2
    rw [e] at this; cases this

theorem Over.range {σ : Nat → Nat} {n n' : Nat} (hlt : ∀ r' < n', σ r' < n) :
    Over σ n n' (List.range n) (List.range n') := by
  refine ⟨List.nodup_range, List.nodup_range, fun r hr => List.mem_range.1 hr, fun r' => ?_⟩
  rw [List.mem_range, List.mem_range]
  exact ⟨fun h => ⟨h, hlt r' h⟩, fun h => h.1⟩

end

section
variable {K : Type} [Field K] [LinearOrder K] [IsStrictOrderedRing K] {m32 m64 : Fmt K}
  [m32.Exact] [m64.Exact]

/-- Sums over the rows of a bin. -/
theorem Over.binSum {σ : Nat → Nat} {n n' : Nat} {rows rows' : List Nat} (h : Over σ n n' rows rows')
    {f f' : List Nat} (hf : ∀ r' < n', f'[r']? = f[σ r']?) {v v' : Nat → K}
    (hv : FibSum σ n n' v v') (b : Nat) : Verif.binSum f' v' rows' b = Verif.binSum f v rows b :=
  (h.filter (p := fun r => decide (f[r]? = some b)) (p' := fun r => decide (f'[r]? = some b))
    fun r' hr' => by rw [hf r' hr']).sum hv

/-- What relates the training data of two runs. -/
structure TrainCopy (σ : Nat → Nat) (t t' : TrainData (FX m32) (FX m64)) (gv hv gv' hv' : Nat → K) :
    Prop where
  cols : t'.colIndex = t.colIndex
  cuts : t'.cuts = t.cuts
  lt : ∀ r' < t'.data.rows, σ r' < t.data.rows
  onto : ∀ r < t.data.rows, ∃ r' < t'.data.rows, σ r' = r
  bins : ∀ col ∈ t.colIndex, ∀ f f', t.data.getCol col = .ok f → t'.data.getCol col = .ok f' →
    ∀ r' < t'.data.rows, f'[r']? = f[σ r']?
  grad : FibSum σ t.data.rows t'.data.rows gv gv'
  hess : FibSum σ t.data.rows t'.data.rows hv hv'

variable {σ : Nat → Nat} {t t' : TrainData (FX m32) (FX m64)} {gv hv gv' hv' : Nat → K}

/-- The histograms have the same columns. -/
theorem TrainCopy.hist (h : TrainCopy σ t t' gv hv gv' hv') {rows rows' : List Nat}
    (ho : Over σ t.data.rows t'.data.rows rows rows') {H H' : JaggedMatrix (Bin (FX m32) (FX m64))}
    (hH : HistOf t gv hv rows H) (hH' : HistOf t' gv' hv' rows' H') (j : Nat) :
    H'.getCol j = H.getCol j := by
  obtain ⟨hs, j1, f1⟩ := hH
  obtain ⟨hs', j2, f2⟩ := hH'
  rw [h.cols] at f2
  have : hs' = hs := by
    clear j1 j2
    have hb := h.bins
    generalize t.colIndex = ci at f1 f2 hb
    induction f1 generalizing hs' with
    | nil => cases f2; rfl
    | @cons col h0 ci hs e _ ih =>
      cases f2 with
      | cons e' h'' =>
        obtain ⟨f, c, e1, e2, e3, rfl⟩ := e
        obtain ⟨f', c', e1', e2', e3', rfl⟩ := e'
        rw [h.cuts, e2] at e2'; cases e2'
        rw [ih _ h'' fun c hc => hb c (List.mem_cons_of_mem _ hc)]
        congr 1
        have hf := hb col (List.mem_cons_self ..) f f' e1 e1'
        exact mkHist_congr _ (fun b _ => ho.binSum hf h.grad b) (fun b _ => ho.binSum hf h.hess b)
  rw [j1.getCol, j2.getCol, this]

end

end Verif
