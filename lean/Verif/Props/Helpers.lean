import Verif.Model.Helpers
import Verif.Props.Layout
import Verif.Props.Text
import Verif.Props.Binning
import Mathlib.Tactic.Linarith
import Mathlib.Tactic.FieldSimp
import Mathlib.Tactic.IntervalCases
import Mathlib.Data.Rat.Floor

/-!
# C154: the functions used by tests
-/

set_option linter.unusedSectionVars false

namespace Verif

open scoped Verif

section
variable {D : Type}

/-- The crate reads the numbers of an array of the right type that is contiguous and refuses all others. -/
theorem typed_holds {a : PyVec D} {l : List D} (h : a.Holds l) :
    (a.double = true ∧ (a.len ≤ 1 ∨ a.step = 1) → a.typed = .ok l) ∧
    (¬ (a.double = true ∧ (a.len ≤ 1 ∨ a.step = 1)) → a.typed = .error .valueError) := by
  unfold PyVec.typed PyVec.asSlice
  constructor
  · rintro ⟨h1, h2⟩
    rw [if_pos h1, if_pos h2, h.take h2]
  · intro hn
    split
    · rename_i h1
      rw [if_neg fun h2 => hn ⟨h1, h2⟩]
    · rfl

end

section
variable {K : Type} [Field K] [LinearOrder K] [IsStrictOrderedRing K] {m : Fmt K} [m.Exact]

/-- C154.  `percentiles` of the Python module, for contiguous double arrays: for every level the least value whose
cumulated weight reaches it, in the order of the levels; any other array is refused. -/
theorem C154_percentiles {S : Sorter} (hS : S.Ok) {av aw al : PyVec (FX m)} (v w levels : List K)
    (hv : av.Holds (v.map FX.fin)) (hwt : aw.Holds (w.map FX.fin)) (hl : al.Holds (levels.map FX.fin))
    (hlen : v.length = w.length) (hw : ∀ x ∈ w, 0 ≤ x) (hpos : 0 < w.sum) (hne : levels ≠ [])
    (hinc : levels.Pairwise (· ≤ ·)) (h01 : ∀ q ∈ levels, 0 ≤ q ∧ q < 1) :
    ((∀ a ∈ [av, aw, al], a.double = true ∧ (a.len ≤ 1 ∨ a.step = 1)) →
      ∃ xs : List K, pyPercentiles S av aw al = .ok (.ok (xs.map FX.fin)) ∧ xs.Pairwise (· ≤ ·) ∧
        List.Forall₂ (fun q x => x ∈ v ∧
          q * w.sum ≤ (((v.zip w).filter fun p => p.1 ≤ x).map Prod.snd).sum ∧
          ∀ y ∈ v, q * w.sum ≤ (((v.zip w).filter fun p => p.1 ≤ y).map Prod.snd).sum → x ≤ y) levels xs) ∧
    ((∃ a ∈ [av, aw, al], ¬ (a.double = true ∧ (a.len ≤ 1 ∨ a.step = 1))) →
      pyPercentiles S av aw al = .error .valueError) := by
  constructor
  · intro h
    obtain ⟨xs, h1, h2, h3⟩ := C45_percentiles (m := m) hS v w levels hlen hw hpos hne hinc h01
    refine ⟨xs, ?_, h2, h3⟩
    unfold pyPercentiles
    rw [(typed_holds hv).1 (h _ (by simp)), (typed_holds hwt).1 (h _ (by simp)), (typed_holds hl).1 (h _ (by simp))]
    show Except.ok (percentiles S _ _ _) = _
    rw [h1]
  · rintro ⟨a, ha, hn⟩
    unfold pyPercentiles
    by_cases c1 : av.double = true ∧ (av.len ≤ 1 ∨ av.step = 1)
    · rw [(typed_holds hv).1 c1]
      by_cases c2 : aw.double = true ∧ (aw.len ≤ 1 ∨ aw.step = 1)
      · rw [(typed_holds hwt).1 c2]
        by_cases c3 : al.double = true ∧ (al.len ≤ 1 ∨ al.step = 1)
        · simp only [List.mem_cons, List.not_mem_nil, or_false] at ha
          rcases ha with rfl | rfl | rfl <;> contradiction
        · rw [(typed_holds hl).2 c3]; rfl
      · rw [(typed_holds hwt).2 c2]; rfl
    · rw [(typed_holds hv).2 c1]; rfl

end

section
variable {T : Type}

/-- C154.  `print_matrix` prints the table whose columns the array lists one after the other: a line for each row, the
numbers separated by spaces, and an empty line. -/
theorem C154_print (sh : T → String) {x : PyVec T} {l : List T} (hx : x.Holds l)
    (hc : x.double = true ∧ (x.len ≤ 1 ∨ x.step = 1)) (t : List (List T)) (cols : Nat) (h0 : 0 < cols)
    (ht : ∀ r ∈ t, r.length = cols)
    (hl : ∀ i j, i < t.length → j < cols → l[j * t.length + i]? = t[i]?.bind (·[j]?)) :
    printMatrix sh x t.length cols =
      .ok (.ok (String.join (t.map fun r => " ".intercalate (r.map sh) ++ "\n") ++ "\n")) := by
  unfold printMatrix
  rw [(typed_holds hx).1 hc]
  have := C88_display sh ({ data := l, rows := t.length, cols := cols } : Matrix T) t h0 rfl ht (by
    intro i j r v hr hv
    have hi := (List.getElem?_eq_some_iff.1 hr).1
    have hj : j < cols := by
      have := (List.getElem?_eq_some_iff.1 hv).1
      rwa [ht r (List.mem_of_getElem? hr)] at this
    have := hl i j hi hj
    rw [hr, Option.bind_some, hv] at this
    unfold Matrix.get Matrix.itemIndex
    rw [idx_eq_ok]
    simp only
    rw [show 1 * i + j * t.length = j * t.length + i by ring]
    exact this)
  show Except.ok _ = _
  rw [this]
  rfl

end

section
variable {K : Type} [Field K] [LinearOrder K] [IsStrictOrderedRing K] [FloorRing K]

theorem roundAway_neg (x : K) : roundAway (-x) = -roundAway x := by
  unfold roundAway
  rcases lt_trichotomy x 0 with h | h | h
  · rw [if_pos (by linarith), if_neg (not_le.2 h), neg_neg]
  · subst h
    have : ⌊(0 : K) + 1 / 2⌋ = 0 := by
      rw [Int.floor_eq_iff]; norm_num
    simp only [neg_zero, le_refl, if_true, this, Int.cast_zero]
  · rw [if_neg (by linarith), if_pos h.le, neg_neg]

theorem roundAway_near (x : K) : |roundAway x - x| ≤ 1 / 2 := by
  have key : ∀ y : K, 0 ≤ y → |roundAway y - y| ≤ 1 / 2 := by
    intro y hy
    unfold roundAway
    rw [if_pos hy, abs_le]
    have h1 := Int.floor_le (y + 1 / 2)
    have h2 := Int.lt_floor_add_one (y + 1 / 2)
    constructor <;> linarith
  rcases le_total 0 x with h | h
  · exact key x h
  · have := key (-x) (by linarith)
    rwa [roundAway_neg, ← abs_neg, show -(-roundAway x - -x) = roundAway x - x by ring] at this

theorem roundAway_int (x : K) : ∃ z : ℤ, roundAway x = z := by
  unfold roundAway
  split
  · exact ⟨_, rfl⟩
  · exact ⟨-⌊-x + 1 / 2⌋, by push_cast; rfl⟩

theorem roundAway_tie {x : K} {z r : ℤ} (hr : roundAway x = r) (h : (z : K) + r = 2 * x) : |(z : K)| ≤ |(r : K)| := by
  have key : ∀ {x : K} {z r : ℤ}, 0 ≤ x → roundAway x = r → (z : K) + r = 2 * x → |(z : K)| ≤ |(r : K)| := by
    intro x z r h0 hr h
    unfold roundAway at hr
    rw [if_pos h0] at hr
    have hr := Int.cast_injective hr
    have h1 := Int.floor_le (x + 1 / 2)
    have h2 := Int.lt_floor_add_one (x + 1 / 2)
    rw [hr] at h1 h2
    have hr0 : (0 : K) ≤ r := by
      have : (0 : ℤ) ≤ r := by rw [← hr]; exact Int.floor_nonneg.2 (by linarith)
      exact_mod_cast this
    rw [abs_of_nonneg hr0, abs_le]
    rcases le_or_gt (z : K) r with h3 | h3
    · constructor <;> linarith
    · exfalso
      have : r + 1 ≤ z := by exact_mod_cast h3
      have : (r : K) + 1 ≤ z := by exact_mod_cast this
      linarith
  rcases le_total 0 x with h0 | h0
  · exact key h0 hr h
  · have := key (x := -x) (z := -z) (r := -r) (by linarith) (by rw [roundAway_neg, hr]; push_cast; rfl)
      (by push_cast; linarith)
    push_cast at this
    rwa [abs_neg, abs_neg] at this

/-- C154.  Exact arithmetic.  `precision_round` gives a decimal number with `precision` digits after the point that no
other such number is nearer than; of two equally near ones the one farther from zero. -/
theorem C154_round (n : K) (k : ℤ) :
    (∃ z : ℤ, precisionRound n k = z / 10 ^ k) ∧
    |precisionRound n k - n| ≤ 1 / 2 / 10 ^ k ∧
    (∀ z : ℤ, |precisionRound n k - n| ≤ |(z : K) / 10 ^ k - n|) ∧
    ∀ z : ℤ, |precisionRound n k - n| = |(z : K) / 10 ^ k - n| → |(z : K) / 10 ^ k| ≤ |precisionRound n k| := by
  have hp : (0 : K) < 10 ^ k := zpow_pos (by norm_num) k
  have e : ∀ a : K, |a / 10 ^ k - n| = |a - n * 10 ^ k| / 10 ^ k := by
    intro a
    rw [show a / 10 ^ k - n = (a - n * 10 ^ k) / 10 ^ k by field_simp, abs_div, abs_of_pos hp]
  obtain ⟨r, hr⟩ := roundAway_int (n * (10 : K) ^ k)
  have hnear := roundAway_near (n * (10 : K) ^ k)
  have hpr : precisionRound n k = (r : K) / 10 ^ k := by
    unfold precisionRound; simp only; rw [hr]
  rw [hr] at hnear
  have hbest : ∀ z : ℤ, |(r : K) - n * 10 ^ k| ≤ |(z : K) - n * 10 ^ k| := by
    intro z
    rcases eq_or_ne z r with rfl | hz
    · exact le_rfl
    · have h1 : (1 : K) ≤ |(z : K) - r| := by
        have : (1 : ℤ) ≤ |z - r| := Int.one_le_abs (sub_ne_zero.2 hz)
        have h2 : ((1 : ℤ) : K) ≤ ((|z - r| : ℤ) : K) := Int.cast_le.2 this
        push_cast at h2
        exact h2
      have h3 : |(z : K) - r| ≤ |(z : K) - n * 10 ^ k| + |(r : K) - n * 10 ^ k| := by
        have := abs_sub_le (z : K) (n * 10 ^ k) r
        rwa [abs_sub_comm (n * 10 ^ k) (r : K)] at this
      linarith
  refine ⟨⟨r, hpr⟩, ?_, ?_, ?_⟩
  · rw [hpr, e]
    exact div_le_div_of_nonneg_right hnear hp.le
  · intro z
    rw [hpr, e, e]
    exact div_le_div_of_nonneg_right (hbest z) hp.le
  · intro z hz
    rw [hpr, e, e] at hz
    have hz : |(r : K) - n * 10 ^ k| = |(z : K) - n * 10 ^ k| := by
      field_simp at hz
      exact hz
    rw [hpr, abs_div, abs_div]
    refine div_le_div_of_nonneg_right ?_ (abs_nonneg _)
    generalize n * (10 : K) ^ k = x at hr hz hnear
    have hcase : (z : K) = r ∨ (z : K) + r = 2 * x := by
      rcases abs_eq_abs.1 hz with h | h
      · left; linarith
      · right; linarith
    rcases hcase with h | h
    · rw [h]
    · exact roundAway_tie hr h

end

/-! ### The hypotheses are met -/

example : precisionRound (3333 / 10000 : ℚ) 1 = 3 / 10 ∧ precisionRound (-1 / 4 : ℚ) 1 = -3 / 10 ∧
    precisionRound (1234 : ℚ) (-2) = 1200 := by decide +kernel

/-- Every second number of the memory 0, 9, 1, 9, 2, 9 is not contiguous; the array 3, 1, 2 is. -/
example : (⟨[q 3, q 1, q 2], 0, 3, 1, true⟩ : PyVec Q).Holds ([3, 1, 2].map FX.fin) ∧
    pyPercentiles exSorter ⟨[q 3, q 1, q 2], 0, 3, 1, true⟩ ⟨[q 1, q 1, q 2], 0, 3, 1, true⟩
      ⟨[q (1/4), q (1/2)], 0, 2, 1, true⟩ = .ok (.ok [q 1, q 2]) ∧
    pyPercentiles exSorter ⟨[q 0, q 9, q 1, q 9, q 2, q 9], 0, 3, 2, true⟩ ⟨[q 1, q 1, q 2], 0, 3, 1, true⟩
      ⟨[q (1/4), q (1/2)], 0, 2, 1, true⟩ = .error .valueError := by
  refine ⟨⟨rfl, fun i hi => ?_⟩, by decide +kernel, by decide +kernel⟩
  have hi : i < 3 := hi
  interval_cases i <;> rfl

example : printMatrix (fun n : Nat => toString n) ⟨[1, 2, 3, 4, 5, 6], 0, 6, 1, true⟩ 2 3 =
    .ok (.ok "1 3 5\n2 4 6\n\n") := by decide +kernel

end Verif
