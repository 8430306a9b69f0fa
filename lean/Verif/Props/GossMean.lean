import Verif.Proofs.Tapes
import Verif.Proofs.Finite
import Verif.Spec.RatFmt
import Verif.Spec.Sorting

/-!
# C98: what sampling keeps on average

Every tree under GOSS is grown on the rows of large gradient and a random part of the others, whose
gradients and hessians are amplified to make up for the missing ones.  On average over all outcomes of
the generator the sums seen by the tree are those of the whole data, up to the rounding of the two
row counts.
-/

namespace Verif

open scoped Verif

set_option linter.unusedSectionVars false

section
variable {K : Type} [Field K] [LinearOrder K] [IsStrictOrderedRing K] {m32 m64 : Fmt K}

theorem sumOver_append {m : Fmt K} (v : List (FX m)) (Q : Nat → Bool) (a b : List Nat) :
    sumOver v Q (a ++ b) = sumOver v Q a + sumOver v Q b := by
  simp [sumOver]

theorem sumOver_perm {m : Fmt K} (v : List (FX m)) (Q : Nat → Bool) {a b : List Nat}
    (h : a.Perm b) : sumOver v Q a = sumOver v Q b :=
  ((h.filter Q).map _).sum_eq

theorem sumOver_eq {m : Fmt K} (v : List (FX m)) (Q : Nat → Bool) (l : List Nat) :
    sumOver v Q l = (l.map fun i => if Q i then ((v[i]?).map FX.val).getD 0 else 0).sum := by
  induction l with
  | nil => rfl
  | cons a l ih =>
    simp only [sumOver, List.filter_cons] at ih ⊢
    cases h : Q a <;> simp [h, ih]

theorem sumOver_scaled [m32.Exact] {v v' : List (FX m32)} {c : K} (Q : Nat → Bool) {l : List Nat}
    (hv : AllFin v) (h : ∀ i ∈ l, ∃ x, v[i]? = some x ∧ v'[i]? = some (x * FX.fin c)) :
    sumOver v' Q l = c * sumOver v Q l := by
  rw [sumOver_eq, sumOver_eq, ← sum_mul_map]
  congr 1
  refine List.map_congr_left fun i hi => ?_
  obtain ⟨x, e1, e2⟩ := h i hi
  obtain ⟨q, rfl⟩ := hv x (List.mem_of_getElem? e1)
  rw [e1, e2]
  cases Q i
  · simp
  · simp [FX.val]; ring

theorem sumOver_same {v v' : List (FX m32)} (Q : Nat → Bool) {l : List Nat}
    (h : ∀ i ∈ l, v'[i]? = v[i]?) : sumOver v' Q l = sumOver v Q l := by
  rw [sumOver_eq, sumOver_eq]
  congr 1
  exact List.map_congr_left fun i hi => by rw [h i hi]

/-- The sums of gradients and hessians over the sampled rows in `Q` after GOSS has drawn the numbers
`t`. -/
def gossTotal (S : Sorter) (a b : FX m64) (index : List Nat) (grad hess : List (FX m32))
    (Q : Nat → Bool) (t : List K) : K × K :=
  match gossSample S tapeRng a b t index grad hess with
  | .ok (rows, grad', hess', _) => (sumOver grad' Q rows, sumOver hess' Q rows)
  | _ => (0, 0)

/-- The part of the small rows' sums which is kept on average: the factor `(1-α)/β` times the share of
numbers below the threshold `⌊βn⌋ / (n - top)`. -/
def gossShare (m64 : Fmt K) (M : Nat) (α β : K) (n top : Nat) : K :=
  (1 - α) / β * ((below M ((m64.toNatF (β * n) : K) / ((n : K) - (top : K))) : K) / M)

variable [m32.Exact] [m64.Exact]

/-- **C98** (GOSS).  The rows are divided into `top`, the `⌊α n⌋` rows of largest absolute gradient, and
the others, by the gradients alone.  Sampling succeeds whatever numbers are drawn, and on average over
all outcomes the sums over the sampled rows of any set `Q` (for example a node, or a bin of a
histogram) are the sum over `top` plus the sum over the other rows times `gossShare`. -/
theorem C98_goss (hT : m64.Truncates) {S : Sorter} (hS : S.Ok) {α β : K} (ha0 : 0 ≤ α) (ha1 : α ≤ 1)
    (hb : 0 < β) {index : List Nat} {grad hess : List (FX m32)} (hg : index.length ≤ grad.length)
    (hh : index.length ≤ hess.length) (fg : AllFin grad) (fh : AllFin hess) :
    ∃ top rest : List Nat, (top ++ rest).Perm (List.range index.length) ∧
      ((top.length : K) ≤ α * index.length ∧ α * index.length < (top.length : K) + 1) ∧
      (∀ i ∈ top, ∀ j ∈ rest, ∃ gi gj : K, grad[i]? = some (FX.fin gi) ∧ grad[j]? = some (FX.fin gj) ∧
        |gj| ≤ |gi|) ∧
      (∀ t : List K, t.length = index.length → ∃ r,
        gossSample S tapeRng (FX.fin α : FX m64) (FX.fin β) t index grad hess = .ok r) ∧
      ∀ (Q : Nat → Bool) (M : Nat), 0 < M →
        meanOf (fun t => (gossTotal S (FX.fin α : FX m64) (FX.fin β) index grad hess Q t).1)
            (tapes M index.length) =
          sumOver grad Q top + gossShare m64 M α β index.length top.length * sumOver grad Q rest ∧
        meanOf (fun t => (gossTotal S (FX.fin α : FX m64) (FX.fin β) index grad hess Q t).2)
            (tapes M index.length) =
          sumOver hess Q top + gossShare m64 M α β index.length top.length * sumOver hess Q rest := by
  have hn0 : (0 : K) ≤ index.length := Nat.cast_nonneg _
  obtain ⟨t1, t2⟩ := hT (α * index.length) (mul_nonneg ha0 hn0)
  have hk : m64.toNatF (α * index.length) ≤ index.length := by
    have : (m64.toNatF (α * index.length) : K) ≤ (index.length : K) := by nlinarith
    exact_mod_cast this
  obtain ⟨order, hperm, hsort, hrun⟩ := gossSample_tape (m32 := m32) (m64 := m64) hS hb.ne' hg hh hk
  have hlen : order.length = index.length := by rw [hperm.length_eq, List.length_range]
  have hnd : order.Nodup := hperm.nodup_iff.2 List.nodup_range
  have htop : (order.take (m64.toNatF (α * index.length))).length = m64.toNatF (α * index.length) := by
    rw [List.length_take, hlen]; omega
  refine ⟨order.take (m64.toNatF (α * index.length)), order.drop (m64.toNatF (α * index.length)),
    ?_, ?_, ?_, ?_, ?_⟩
  · rw [List.take_append_drop]; exact hperm
  · rw [htop]; exact ⟨t1, t2⟩
  · intro i hi j hj
    rw [← List.take_append_drop (m64.toNatF (α * index.length)) order, List.pairwise_append] at hsort
    obtain ⟨x, y, e1, e2, e3⟩ := hsort.2.2 i hi j hj
    obtain ⟨gi, rfl⟩ := fg x (List.mem_of_getElem? e1)
    obtain ⟨gj, rfl⟩ := fg y (List.mem_of_getElem? e2)
    refine ⟨gi, gj, e1, e2, ?_⟩
    rw [FX.abs_fin, FX.abs_fin] at e3
    simpa [Fl.tle, FX.tle, FX.le] using e3
  · intro t ht
    obtain ⟨g', h', t', h1, _⟩ := hrun t ht
    exact ⟨_, h1⟩
  · intro Q M hM
    rw [htop]
    have hdis : ∀ t : List K, ∀ i ∈ order.take (m64.toNatF (α * index.length)),
        i ∉ pickBy (fun x => decide (x < (m64.toNatF (β * index.length) : K) /
              ((index.length : K) - (m64.toNatF (α * index.length) : K))))
              (order.drop (m64.toNatF (α * index.length))) t := by
      intro t i hi hmem
      have h2 := (pickBy_sublist _ _ _).subset hmem
      rw [← List.take_append_drop (m64.toNatF (α * index.length)) order, List.nodup_append] at hnd
      exact hnd.2.2 i hi i h2 rfl
    have key : ∀ t ∈ (tapes M index.length : List (List K)),
        gossTotal S (FX.fin α : FX m64) (FX.fin β) index grad hess Q t =
          (sumOver grad Q (order.take (m64.toNatF (α * index.length))) + (1 - α) / β *
            ((pickBy (fun x => decide (x < (m64.toNatF (β * index.length) : K) /
              ((index.length : K) - (m64.toNatF (α * index.length) : K))))
              (order.drop (m64.toNatF (α * index.length))) t).map
              fun i => if Q i then ((grad[i]?).map FX.val).getD 0 else 0).sum,
           sumOver hess Q (order.take (m64.toNatF (α * index.length))) + (1 - α) / β *
            ((pickBy (fun x => decide (x < (m64.toNatF (β * index.length) : K) /
              ((index.length : K) - (m64.toNatF (α * index.length) : K))))
              (order.drop (m64.toNatF (α * index.length))) t).map
              fun i => if Q i then ((hess[i]?).map FX.val).getD 0 else 0).sum) := by
      intro t ht
      obtain ⟨g', h', t', h1, h2, h3⟩ := hrun t (tapes_mem_length ht)
      rw [gossTotal, h1]
      simp only
      rw [sumOver_append, sumOver_append, ← sumOver_eq, ← sumOver_eq,
        sumOver_same (v := grad) (v' := g') Q (fun i hi => (h3 i (hdis t i hi)).1),
        sumOver_same (v := hess) (v' := h') Q (fun i hi => (h3 i (hdis t i hi)).2),
        sumOver_scaled (v' := g') Q fg (fun i hi => by
          obtain ⟨x, y, e1, e2, e3, e4⟩ := h2 i hi; exact ⟨x, e1, e3⟩),
        sumOver_scaled (v' := h') Q fh (fun i hi => by
          obtain ⟨x, y, e1, e2, e3, e4⟩ := h2 i hi; exact ⟨y, e2, e4⟩)]
    have hdl : (order.drop (m64.toNatF (α * index.length))).length ≤ index.length := by
      rw [List.length_drop, hlen]; omega
    constructor
    · rw [meanOf_congr (fun t ht => congrArg Prod.fst (key t ht))]
      simp only
      rw [meanOf_affine _ _ _ (tapes_ne_nil hM _), mean_tapes hM _ _ _ _ hdl, ← sumOver_eq, gossShare]
      ring
    · rw [meanOf_congr (fun t ht => congrArg Prod.snd (key t ht))]
      simp only
      rw [meanOf_affine _ _ _ (tapes_ne_nil hM _), mean_tapes hM _ _ _ _ hdl, ← sumOver_eq, gossShare]
      ring

/-- **C98** (no bias): when `α n` and `β n` are whole numbers, and so is the number of outcomes below the
threshold, the sums over any set of rows are on average those of the whole data. -/
theorem C98_unbiased (hT : m64.Truncates) {S : Sorter} (hS : S.Ok) {α β : K} (ha0 : 0 ≤ α)
    (ha1 : α < 1) (hb : 0 < β) (hab : α + β ≤ 1) {index : List Nat} {grad hess : List (FX m32)}
    (hg : index.length ≤ grad.length) (hh : index.length ≤ hess.length) (fg : AllFin grad)
    (fh : AllFin hess) {A B c M : Nat} (hA : α * index.length = A) (hB : β * index.length = B)
    (hM : 0 < M) (hc : β / (1 - α) * M = c) (Q : Nat → Bool) :
    meanOf (fun t => (gossTotal S (FX.fin α : FX m64) (FX.fin β) index grad hess Q t).1)
        (tapes M index.length) = sumOver grad Q (List.range index.length) ∧
    meanOf (fun t => (gossTotal S (FX.fin α : FX m64) (FX.fin β) index grad hess Q t).2)
        (tapes M index.length) = sumOver hess Q (List.range index.length) := by
  obtain ⟨top, rest, h1, ⟨h2, h3⟩, _, _, h4⟩ := C98_goss hT hS ha0 ha1.le hb hg hh fg fh
  obtain ⟨e1, e2⟩ := h4 Q M hM
  have ha : (0 : K) < 1 - α := by linarith
  have hnat : ∀ {x : K} {A k : Nat}, x = A → (k : K) ≤ x → x < (k : K) + 1 → k = A := by
    intro x A k h hl hu
    rw [h] at hl hu
    have a1 : k ≤ A := by exact_mod_cast hl
    have a2 : A < k + 1 := by exact_mod_cast hu
    omega
  have ht : top.length = A := hnat hA h2 h3
  have hn0 : (0 : K) ≤ index.length := Nat.cast_nonneg _
  obtain ⟨b1, b2⟩ := hT (β * index.length) (mul_nonneg hb.le hn0)
  have hBB : m64.toNatF (β * index.length) = B := hnat hB b1 b2
  have hshare : index.length ≠ 0 → gossShare m64 M α β index.length top.length = 1 := by
    intro hne
    have hnp : (0 : K) < index.length := by exact_mod_cast Nat.pos_of_ne_zero hne
    have hp : ((B : K) / ((index.length : K) - (A : K))) = β / (1 - α) := by
      rw [← hA, ← hB]
      have : (index.length : K) - α * index.length = (1 - α) * index.length := by ring
      rw [this, mul_div_mul_right _ _ hnp.ne']
    rw [gossShare, hBB, ht, hp, below_nat hM (div_nonneg hb.le ha.le)
      (by rw [div_le_one ha]; linarith) hc]
    field_simp
  have hfin : ∀ (v : List (FX m32)), sumOver v Q top +
      gossShare m64 M α β index.length top.length * sumOver v Q rest =
      sumOver v Q (List.range index.length) := by
    intro v
    rw [← sumOver_perm v Q h1, sumOver_append]
    by_cases hne : index.length = 0
    · have : rest = [] := by
        have := h1.length_eq
        rw [List.length_append, List.length_range, hne] at this
        exact List.length_eq_zero_iff.1 (by omega)
      rw [this]; simp [sumOver]
    · rw [hshare hne, one_mul]
  rw [e1, e2, hfin, hfin]
  exact ⟨rfl, rfl⟩

/-- **C98** (size of the bias): the factor by which the sums over the small rows are wrong on average is
between `1 - 1/(βn) - 1/((1-α)n)` and `1 + (1-α)/(βM)`: it tends to 1 as the data grows. -/
theorem C98_bias (hT : m64.Truncates) {α β : K} (ha1 : α < 1) (hb : 0 < β)
    (hab : α + β ≤ 1) {n top M : Nat} (hn : 0 < n) (hM : 0 < M)
    (ht : (top : K) ≤ α * n ∧ α * n < (top : K) + 1) :
    1 - 1 / (β * n) - 1 / ((1 - α) * n) ≤ gossShare m64 M α β n top ∧
      gossShare m64 M α β n top < 1 + (1 - α) / (β * M) := by
  have hnp : (0 : K) < n := by exact_mod_cast hn
  have hMp : (0 : K) < M := by exact_mod_cast hM
  have ha : (0 : K) < 1 - α := by linarith
  obtain ⟨b1, b2⟩ := hT (β * n) (mul_nonneg hb.le hnp.le)
  have hN : (0 : K) < (1 - α) * n := mul_pos ha hnp
  have hd : (1 - α) * n ≤ (n : K) - top := by linarith [ht.1]
  have hd' : (n : K) - top < (1 - α) * n + 1 := by linarith [ht.2]
  have hdp : (0 : K) < (n : K) - top := lt_of_lt_of_le hN hd
  have hB0 : (0 : K) ≤ m64.toNatF (β * n) := Nat.cast_nonneg _
  have hbn : (0 : K) < β * n := mul_pos hb hnp
  have hp0 : 0 ≤ (m64.toNatF (β * n) : K) / ((n : K) - top) := div_nonneg hB0 hdp.le
  have hple : (m64.toNatF (β * n) : K) / ((n : K) - top) ≤ β / (1 - α) := by
    rw [div_le_div_iff₀ hdp ha]
    nlinarith
  have hp1 : (m64.toNatF (β * n) : K) / ((n : K) - top) ≤ 1 :=
    hple.trans (by rw [div_le_one ha]; linarith)
  obtain ⟨l, u⟩ := below_le hM hp0 hp1
  have hf : (0 : K) < (1 - α) / β := div_pos ha hb
  constructor
  · have h1 : (1 - α) / β * ((m64.toNatF (β * n) : K) / ((n : K) - top)) ≤ gossShare m64 M α β n top :=
      mul_le_mul_of_nonneg_left l hf.le
    refine le_trans ?_ h1
    have h2 : (1 - α) / β * ((m64.toNatF (β * n) : K) / ((n : K) - top)) =
        ((m64.toNatF (β * n) : K) / (β * n)) * (((1 - α) * n) / ((n : K) - top)) := by
      field_simp
    rw [h2]
    have h3 : 1 - 1 / (β * n) ≤ (m64.toNatF (β * n) : K) / (β * n) := by
      rw [le_div_iff₀ hbn, sub_mul, one_div, inv_mul_cancel₀ hbn.ne']; linarith
    have h4 : 1 - 1 / ((1 - α) * n) ≤ ((1 - α) * n) / ((n : K) - top) := by
      rw [le_div_iff₀ hdp]
      have h5 : 1 / ((1 - α) * n) * ((1 - α) * n) = 1 := by field_simp
      have h6 : 0 < 1 / ((1 - α) * n) := by positivity
      by_cases h7 : 1 - 1 / ((1 - α) * n) ≤ 0
      · exact le_trans (mul_nonpos_of_nonpos_of_nonneg h7 hdp.le) hN.le
      · have h8 : (1 - 1 / ((1 - α) * n)) * ((n : K) - top) ≤
            (1 - 1 / ((1 - α) * n)) * ((1 - α) * n + 1) :=
          mul_le_mul_of_nonneg_left hd'.le (not_le.1 h7).le
        nlinarith
    have h3' : (m64.toNatF (β * n) : K) / (β * n) ≤ 1 := by rw [div_le_one hbn]; exact b1
    have h4' : ((1 - α) * n) / ((n : K) - top) ≤ 1 := by rw [div_le_one hdp]; exact hd
    nlinarith [mul_nonneg (sub_nonneg.2 h3') (sub_nonneg.2 h4')]
  · have h1 : gossShare m64 M α β n top < (1 - α) / β *
        ((m64.toNatF (β * n) : K) / ((n : K) - top) + 1 / M) := mul_lt_mul_of_pos_left u hf
    refine lt_of_lt_of_le h1 ?_
    have h2 : (1 - α) / β * ((m64.toNatF (β * n) : K) / ((n : K) - top)) ≤ (1 - α) / β * (β / (1 - α)) :=
      mul_le_mul_of_nonneg_left hple hf.le
    have h3 : (1 - α) / β * (β / (1 - α)) = 1 := by field_simp
    have h4 : (1 - α) / β * (1 / M) = (1 - α) / (β * M) := by field_simp
    rw [mul_add, h4]
    linarith

/-- **C98** (few rows): with fewer than `1/β` rows none of the small rows is ever sampled. -/
theorem C98_few (hT : m64.Truncates) {α β : K} (hb : 0 < β) {n top M : Nat} (hn : β * n < 1) :
    gossShare m64 M α β n top = 0 := by
  obtain ⟨b1, _⟩ := hT (β * n) (mul_nonneg hb.le (Nat.cast_nonneg _))
  have : m64.toNatF (β * n) = 0 := by
    have h : (m64.toNatF (β * n) : K) < 1 := lt_of_le_of_lt b1 hn
    have : m64.toNatF (β * n) < 1 := by exact_mod_cast h
    omega
  have hz : below M (0 : K) = 0 := by
    unfold below
    rw [List.length_eq_zero_iff, List.filter_eq_nil_iff]
    intro u _
    simp only [decide_eq_true_eq, not_lt]
    exact div_nonneg (Nat.cast_nonneg _) (Nat.cast_nonneg _)
  rw [gossShare, this, Nat.cast_zero, zero_div, hz]
  simp

/-- **C98** (rates above one together): with `α + β > 1` every row is sampled (once `βn` is whole), and
the small rows count for less than their share: nothing in the program excludes such rates. -/
theorem C98_over (hT : m64.Truncates) {α β : K} (ha1 : α < 1) (hb : 0 < β)
    (hab : 1 < α + β) {n top M A B : Nat} (hn : 0 < n) (hM : 0 < M) (hA : α * n = A) (hB : β * n = B)
    (ht : top = A) : gossShare m64 M α β n top = (1 - α) / β ∧ (1 - α) / β < 1 := by
  have hnp : (0 : K) < n := by exact_mod_cast hn
  have hMp : (0 : K) < M := by exact_mod_cast hM
  have ha : (0 : K) < 1 - α := by linarith
  obtain ⟨b1, b2⟩ := hT (β * n) (mul_nonneg hb.le hnp.le)
  have hBB : m64.toNatF (β * n) = B := by
    rw [hB] at b1 b2 ⊢
    have a1 : m64.toNatF (B : K) ≤ B := by exact_mod_cast b1
    have a2 : B < m64.toNatF (B : K) + 1 := by exact_mod_cast b2
    omega
  have hall : below M ((B : K) / ((n : K) - (A : K))) = M := by
    have hgt : 1 < (B : K) / ((n : K) - (A : K)) := by
      rw [← hA, ← hB]
      have : (n : K) - α * n = (1 - α) * n := by ring
      rw [this, mul_div_mul_right _ _ hnp.ne', one_lt_div ha]
      linarith
    unfold below
    rw [List.filter_eq_self.2, List.length_range]
    intro u hu
    rw [List.mem_range] at hu
    simp only [decide_eq_true_eq]
    refine lt_trans ?_ hgt
    rw [div_lt_one hMp]
    exact_mod_cast hu
  refine ⟨?_, by rw [div_lt_one hb]; linarith⟩
  rw [gossShare, hBB, ht, hall, div_self hMp.ne', mul_one]

/-- **C98** (random sampling): on average the sum over the sampled rows of any set is the sum over all
of them times the share of numbers below `subsample`, which is `subsample` up to one part in `M`. -/
theorem C98_random {s : K} (h0 : 0 ≤ s) (h1 : s ≤ 1) (index : List Nat) (v : List (FX m32))
    (Q : Nat → Bool) {M : Nat} (hM : 0 < M) :
    meanOf (fun t => sumOver v Q
        (randomSample (tapeRng (m32 := m32) (m64 := m64)) (FX.fin s) t index).1) (tapes M index.length) =
      (below M s : K) / M * sumOver v Q index ∧
    s ≤ (below M s : K) / M ∧ (below M s : K) / M < s + 1 / M := by
  refine ⟨?_, below_le hM h0 h1⟩
  rw [sumOver_eq v Q index, ← mean_tapes hM _ _ _ _ (le_refl _)]
  refine meanOf_congr fun t ht => ?_
  rw [(randomSample_eq _ _ _ _).1, draws_tapeF _ _ (by rw [tapes_mem_length ht]), pickBy_map,
    pickBy_take _ _ _ (le_refl _), sumOver_eq]
  simp

end

/-- Cutting off the fraction of a rational number. -/
theorem ratFmt_truncates : ratFmt.Truncates := by
  intro q hq
  have h1 : (ratFmt.toNatF q) = q.floor.toNat := rfl
  rw [h1]
  have h0 : 0 ≤ q.floor := Rat.le_floor_iff.2 (by simpa using hq)
  have h2 : ((q.floor.toNat : Nat) : ℚ) = (q.floor : ℚ) := by
    have : ((q.floor.toNat : Nat) : ℤ) = q.floor := Int.toNat_of_nonneg h0
    exact_mod_cast congrArg (fun z : ℤ => (z : ℚ)) this
  rw [h2]
  exact ⟨Rat.floor_le q, by exact_mod_cast Rat.lt_floor_add_one q⟩

/-- Five rows, `α = 1/5`, `β = 2/5`: one row is kept, each of the four others is drawn when its number
is below 1/2; with numbers 0 and 1/2 the averages over the 32 outcomes are the sums of the data. -/
example :
    let grad : List Q := [q 1, q (-9), q 2, q 4, q (-3)]
    let hess : List Q := [q 1, q 2, q 3, q 4, q 5]
    meanOf (fun t => (gossTotal exSorter (q (1/5) : Q) (q (2/5)) (List.range 5) grad hess
      (fun i => decide (i < 4)) t).1) (tapes 2 5) = -2 ∧
    meanOf (fun t => (gossTotal exSorter (q (1/5) : Q) (q (2/5)) (List.range 5) grad hess
      (fun _ => true) t).2) (tapes 2 5) = 15 ∧
    (gossTotal exSorter (q (1/5) : Q) (q (2/5)) (List.range 5) grad hess (fun _ => true)
      [0, 1/2, 1/2, 0, 1/2]).1 = -9 + 2 * 4 + 2 * 1 := by
  decide +kernel

/-- The same from the theorem. -/
example : meanOf (fun t => (gossTotal (m32 := ratFmt) (m64 := ratFmt) exSorter (.fin (1/5)) (.fin (2/5))
      (List.range 5) [q 1, q (-9), q 2, q 4, q (-3)] [q 1, q 2, q 3, q 4, q 5] (fun _ => true) t).1)
      (tapes 2 5) =
    sumOver [q 1, q (-9), q 2, q 4, q (-3)] (fun _ => true) (List.range 5) :=
  (C98_unbiased ratFmt_truncates exSorter_ok (by norm_num) (by norm_num) (by norm_num) (by norm_num)
    (by simp) (by simp) (by simp [AllFin, q]) (by simp [AllFin, q]) (A := 1) (B := 2) (c := 1) (M := 2)
    (by norm_num) (by norm_num) (by norm_num) (by norm_num) _).1

/-- Default rates and nine rows: no small row is ever drawn, and the average is far from the sum. -/
example :
    gossShare ratFmt (2 ^ 52) (1/5) (1/10) 9 1 = 0 := C98_few ratFmt_truncates (by norm_num) (by norm_num)

end Verif
