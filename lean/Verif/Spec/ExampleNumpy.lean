import Verif.Spec.PyDependence
import Verif.Spec.ExampleFit
import Verif.Spec.TreeWf
import Verif.Proofs.Order
import Mathlib.Data.Rat.Floor
import Mathlib.Tactic.Linarith

/-!
# Quantiles with linear interpolation, in exact arithmetic
-/

namespace Verif

open scoped Verif

set_option linter.unusedSimpArgs false

/-- Linear interpolation in a list of numbers. -/
def lerpAt (a : List ℚ) (h : ℚ) : ℚ :=
  let k := ⌊h⌋₊
  let x := a[k]?.getD 0
  let y := a[k + 1]?.getD x
  x + (y - x) * (h - k)

/-- `np.linspace(lo, hi, num=n)`. -/
def linspace (lo hi : ℚ) (n : Nat) : List ℚ :=
  (List.range n).map fun i : Nat => lo + (hi - lo) * ((i : ℚ) / (n - 1 : Nat))

/-- `np.quantile` with the default method. -/
def linNumpy : Numpy Q :=
  { quantiles := fun values n lo hi =>
      if values = [] ∨ values.any (fun v => !isFinite v) ∨ !isFinite lo ∨ !isFinite hi then .error .valueError
      else
        let a := (values.map FX.val).insertionSort (· ≤ ·)
        .ok ((linspace lo.val hi.val n).map fun p => q (lerpAt a (p * (a.length - 1 : Nat)))) }

theorem lerp_bounds {x y t : ℚ} (h : x ≤ y) (h0 : 0 ≤ t) (h1 : t ≤ 1) :
    x ≤ x + (y - x) * t ∧ x + (y - x) * t ≤ y := by
  constructor <;> nlinarith

theorem sorted_get {a : List ℚ} (ha : a.Pairwise (· ≤ ·)) {i j : Nat} {x y : ℚ} (hij : i ≤ j)
    (hx : a[i]? = some x) (hy : a[j]? = some y) : x ≤ y := by
  rcases Nat.lt_or_eq_of_le hij with h | rfl
  · obtain ⟨h1, rfl⟩ := List.getElem?_eq_some_iff.1 hx
    obtain ⟨h2, rfl⟩ := List.getElem?_eq_some_iff.1 hy
    exact List.pairwise_iff_getElem.1 ha _ _ _ _ h
  · rw [hx] at hy; injection hy with hy; exact hy.le

/-- The interpolated value lies between its neighbours. -/
theorem lerpAt_between {a : List ℚ} (ha : a.Pairwise (· ≤ ·)) {h : ℚ} (h0 : 0 ≤ h)
    (h1 : h ≤ (a.length - 1 : Nat)) (hne : a ≠ []) :
    ∃ x y, a[⌊h⌋₊]? = some x ∧ (a[⌊h⌋₊ + 1]?.getD x = y) ∧ y ∈ a ∧ x ≤ y ∧
      lerpAt a h = x + (y - x) * (h - ⌊h⌋₊) ∧ x ≤ lerpAt a h ∧ lerpAt a h ≤ y := by
  have hl : 0 < a.length := List.length_pos_iff.2 hne
  have hk : ⌊h⌋₊ < a.length := by
    have : ⌊h⌋₊ ≤ a.length - 1 := by
      rw [← Nat.floor_natCast (R := ℚ) (a.length - 1)]; exact Nat.floor_mono h1
    omega
  have hxy : a[⌊h⌋₊]? = some a[⌊h⌋₊] := List.getElem?_eq_getElem hk
  have hle : a[⌊h⌋₊] ≤ a[⌊h⌋₊ + 1]?.getD a[⌊h⌋₊] := by
    cases e : a[⌊h⌋₊ + 1]? with
    | none => exact le_refl _
    | some y => exact sorted_get ha (Nat.le_succ _) hxy e
  have hf0 : 0 ≤ h - ⌊h⌋₊ := by linarith [Nat.floor_le h0]
  have hf1 : h - ⌊h⌋₊ ≤ 1 := by linarith [Nat.lt_floor_add_one h]
  have hb := lerp_bounds hle hf0 hf1
  have he : lerpAt a h = a[⌊h⌋₊] + (a[⌊h⌋₊ + 1]?.getD a[⌊h⌋₊] - a[⌊h⌋₊]) * (h - ⌊h⌋₊) := by
    unfold lerpAt
    dsimp only
    rw [hxy]
    rfl
  refine ⟨_, _, hxy, rfl, ?_, hle, he, by rw [he]; exact hb.1, by rw [he]; exact hb.2⟩
  cases e : a[⌊h⌋₊ + 1]? with
  | none => exact List.getElem_mem hk
  | some y => exact List.mem_of_getElem? e

theorem lerpAt_mono {a : List ℚ} (ha : a.Pairwise (· ≤ ·)) {h h' : ℚ} (h0 : 0 ≤ h) (hh : h ≤ h')
    (h1 : h' ≤ (a.length - 1 : Nat)) (hne : a ≠ []) : lerpAt a h ≤ lerpAt a h' := by
  obtain ⟨x, y, e1, e2, _, e3, e4, e5, e6⟩ := lerpAt_between ha h0 (hh.trans h1) hne
  obtain ⟨x', y', f1, f2, _, f3, f4, f5, f6⟩ := lerpAt_between ha (h0.trans hh) h1 hne
  rcases Nat.lt_or_eq_of_le (Nat.floor_mono hh) with hlt | heq
  · refine e6.trans (le_trans ?_ f5)
    cases e : a[⌊h⌋₊ + 1]? with
    | none =>
      rw [List.getElem?_eq_none_iff] at e
      have := (List.getElem?_eq_some_iff.1 f1).1
      omega
    | some z =>
      rw [e] at e2
      subst e2
      exact sorted_get ha hlt e f1
  · rw [heq] at e1 e2 e4
    rw [e1] at f1
    injection f1 with f1
    subst f1
    rw [e2] at f2
    subst f2
    rw [e4, f4]
    nlinarith

theorem isFinite_val {v : Q} (h : isFinite v = true) : v = q v.val := by
  cases v <;> simp_all [isFinite, q, FX.val] <;> first | rfl | simp_all [Fl.lt, FX.lt]

/-- It meets the contract. -/
theorem linNumpy_ok : linNumpy.Ok := by
  intro values n lo hi hne hfin h0 h1 h2
  have flo : isFinite lo = true := by
    cases lo <;> cases hi <;> simp_all [isFinite, Fl.le, FX.le, Fl.lt, FX.lt, FX.zero_def, FX.one_def]
  have fhi : isFinite hi = true := by
    cases lo <;> cases hi <;> simp_all [isFinite, Fl.le, FX.le, Fl.lt, FX.lt, FX.zero_def, FX.one_def]
  have hcond : ¬ (values = [] ∨ values.any (fun v => !isFinite v) = true ∨ (!isFinite lo) = true ∨
      (!isFinite hi) = true) := by
    rintro (h | h | h | h)
    · exact hne h
    · obtain ⟨v, hv, hb⟩ := List.any_eq_true.1 h
      rw [hfin v hv] at hb; cases hb
    · rw [flo] at h; cases h
    · rw [fhi] at h; cases h
  rw [isFinite_val flo, isFinite_val fhi] at h1
  rw [isFinite_val flo] at h0
  rw [isFinite_val fhi] at h2
  have k0 : 0 ≤ lo.val := by simpa [q, FX.zero_def] using h0
  have k1 : lo.val ≤ hi.val := by simpa [q] using h1
  have k2 : hi.val ≤ 1 := by simpa [q, FX.one_def] using h2
  have hs : ((values.map FX.val).insertionSort (· ≤ ·)).Pairwise (· ≤ ·) :=
    List.pairwise_insertionSort (· ≤ ·) (values.map FX.val)
  have hmem : ∀ x ∈ (values.map FX.val).insertionSort (· ≤ ·), q x ∈ values := by
    intro x hx
    have := ((List.perm_insertionSort (· ≤ ·) (values.map FX.val)).mem_iff).1 hx
    obtain ⟨v, hv, rfl⟩ := List.mem_map.1 this
    rw [← isFinite_val (hfin v hv)]; exact hv
  have hane : (values.map FX.val).insertionSort (· ≤ ·) ≠ [] := by
    intro e
    have := (List.perm_insertionSort (· ≤ ·) (values.map FX.val)).length_eq
    rw [e] at this
    exact hne (List.length_eq_zero_iff.1 (by simpa using this.symm))
  generalize ha : (values.map FX.val).insertionSort (· ≤ ·) = a at hs hmem hane
  have hstep : ∀ i < n, 0 ≤ ((i : ℚ) / (n - 1 : Nat)) ∧ ((i : ℚ) / (n - 1 : Nat)) ≤ 1 := by
    intro i hi
    refine ⟨by positivity, ?_⟩
    refine div_le_one_of_le₀ ?_ (by positivity)
    exact_mod_cast (by omega : i ≤ n - 1)
  have hlev : ∀ i < n, 0 ≤ lo.val + (hi.val - lo.val) * ((i : ℚ) / (n - 1 : Nat)) ∧
      lo.val + (hi.val - lo.val) * ((i : ℚ) / (n - 1 : Nat)) ≤ 1 := by
    intro i hi
    obtain ⟨q1, q2⟩ := hstep i hi
    constructor <;> nlinarith
  have hpos : (0 : ℚ) ≤ ((a.length - 1 : Nat) : ℚ) := by positivity
  refine ⟨(linspace lo.val hi.val n).map fun p => q (lerpAt a (p * (a.length - 1 : Nat))), ?_, ?_, ?_, ?_⟩
  · unfold linNumpy
    dsimp only
    rw [if_neg hcond, ha]
  · simp [linspace]
  · unfold linspace
    rw [List.map_map, List.pairwise_map]
    refine List.Pairwise.imp_of_mem ?_ List.pairwise_lt_range
    intro i j hii hj hij
    obtain ⟨q1, q2⟩ := hlev i (List.mem_range.1 hii)
    obtain ⟨r1, r2⟩ := hlev j (List.mem_range.1 hj)
    have hdiv : ((i : ℚ) / (n - 1 : Nat)) ≤ ((j : ℚ) / (n - 1 : Nat)) := by
      have : (i : ℚ) ≤ j := by exact_mod_cast hij.le
      exact div_le_div_of_nonneg_right this (by positivity)
    simp only [Function.comp, q, FX.le_fin, decide_eq_true_eq]
    refine lerpAt_mono hs (mul_nonneg q1 hpos) (mul_le_mul_of_nonneg_right ?_ hpos) ?_ hane
    · nlinarith
    · nlinarith
  · intro g hg
    unfold linspace at hg
    rw [List.map_map] at hg
    obtain ⟨i, hii, rfl⟩ := List.mem_map.1 hg
    obtain ⟨q1, q2⟩ := hlev i (List.mem_range.1 hii)
    obtain ⟨x, y, e1, _, e3, _, _, e6, e7⟩ := lerpAt_between hs
      (h := (lo.val + (hi.val - lo.val) * ((i : ℚ) / (n - 1 : Nat))) * (a.length - 1 : Nat))
      (mul_nonneg q1 hpos) (by nlinarith) hane
    refine ⟨q x, hmem x (List.mem_of_getElem? e1), q y, hmem y e3, ?_, ?_⟩
    · simpa [q] using e6
    · simpa [q] using e7

end Verif
