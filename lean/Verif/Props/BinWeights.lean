import Mathlib.Data.Finset.Max
import Verif.Proofs.CopiesBins
import Verif.Props.Binning
import Verif.Spec.ExampleFit

/-!
# C136 No bin holds much more than its share of the weight
-/

namespace Verif

open scoped Verif

set_option linter.unusedSectionVars false

variable {K : Type} [Field K] [LinearOrder K] [IsStrictOrderedRing K]

/-- The sum of the weights of the rows among the first `rows` that satisfy `P`. -/
noncomputable def weightWhere (w : List K) (rows : Nat) (P : Nat → Prop) : K :=
  open Classical in (((List.range rows).filter fun i => P i).map fun i => w[i]?.getD 0).sum

/-- Sums over disjoint parts of a list. -/
theorem filter_add_le {I : List Nat} {w : Nat → K} (hw : ∀ i ∈ I, 0 ≤ w i) {p a c : Nat → Bool}
    (ha : ∀ i ∈ I, a i = true → c i = true) (hb : ∀ i ∈ I, p i = true → c i = true ∧ a i = false) :
    ((I.filter p).map w).sum + ((I.filter a).map w).sum ≤ ((I.filter c).map w).sum := by
  induction I with
  | nil => simp
  | cons i I ih =>
    have := ih (fun k hk => hw k (by simp [hk])) (fun k hk => ha k (by simp [hk]))
      (fun k hk => hb k (by simp [hk]))
    have h0 := hw i (by simp)
    have h1 := ha i (by simp)
    have h2 := hb i (by simp)
    simp only [List.filter_cons]
    cases ep : p i <;> cases ea : a i <;> cases ec : c i <;> simp_all <;> linarith

/-- The core of C136: if `xs` are the least values at which the share of the weight reaches the levels
`0/n, 1/n, …`, then rows that lie on the same sides of all `xs` as the value `x0`, without those at the
greatest of the `xs` up to `x0`, weigh no more than one `n`-th. -/
theorem levels_rest {I : List Nat} {x w : Nat → K} (hw : ∀ i ∈ I, 0 ≤ w i) {n : Nat} (hn : 0 < n)
    {xs : List K} (hxs : List.Forall₂ (fun q z => z ∈ I.map x ∧
      q * (I.map w).sum ≤ ((I.filter fun i => x i ≤ z).map w).sum ∧
      ∀ y ∈ I.map x, q * (I.map w).sum ≤ ((I.filter fun i => x i ≤ y).map w).sum → z ≤ y)
      ((List.range n).map fun k : Nat => (k : K) / n) xs) {x0 : K} (hx0 : x0 ∈ I.map x) :
    ∃ c ∈ xs, c ≤ x0 ∧ ∀ p : Nat → Bool, (∀ i ∈ I, p i = true → ∀ z ∈ xs, z ≤ x i ↔ z ≤ x0) →
      n * ((I.filter fun i => p i && decide (x i ≠ c)).map w).sum ≤ (I.map w).sum := by
  have hnK : (0 : K) < n := by exact_mod_cast hn
  set T := (I.map w).sum with hT
  have hlen : xs.length = n := by simpa using hxs.length_eq.symm
  have hnn : ∀ q : Nat → Bool, 0 ≤ ((I.filter q).map w).sum := fun q =>
    List.sum_nonneg fun a ha => by
      obtain ⟨i, hi, rfl⟩ := List.mem_map.1 ha
      exact hw i (List.mem_of_mem_filter hi)
  have hget : ∀ k (hk : k < n), xs[k]'(hlen ▸ hk) ∈ I.map x ∧
      (k : K) / n * T ≤ ((I.filter fun i => x i ≤ xs[k]'(hlen ▸ hk)).map w).sum ∧
      ∀ y ∈ I.map x, (k : K) / n * T ≤ ((I.filter fun i => x i ≤ y).map w).sum →
        xs[k]'(hlen ▸ hk) ≤ y := by
    intro k hk
    have := (List.forall₂_iff_get.1 hxs).2 k (by simpa using hk) (hlen ▸ hk)
    simp only [List.get_eq_getElem, List.getElem_map, List.getElem_range] at this
    exact this
  -- the greatest level whose value is not above `x0`
  have h0 : xs[0]'(hlen ▸ hn) ≤ x0 := (hget 0 hn).2.2 x0 hx0 (by simpa using hnn _)
  obtain ⟨k, hk, hkx, hkm⟩ : ∃ k, ∃ hk : k < n, xs[k]'(hlen ▸ hk) ≤ x0 ∧
      ∀ (h : k + 1 < n), x0 < xs[k + 1]'(hlen ▸ h) := by
    by_contra hno
    push Not at hno
    have : ∀ k (hk : k < n), xs[k]'(hlen ▸ hk) ≤ x0 := by
      intro k
      induction k with
      | zero => intro _; exact h0
      | succ k ih =>
        intro hk
        obtain ⟨_, h⟩ := hno k (by omega) (ih (by omega))
        exact h
    obtain ⟨h, _⟩ := hno (n - 1) (by omega) (this _ (by omega))
    omega
  refine ⟨_, List.getElem_mem _, hkx, fun p hp => ?_⟩
  set c := xs[k]'(hlen ▸ hk) with hc
  have hcmem : c ∈ xs := List.getElem_mem _
  have h1 := (hget k hk).2.1
  rw [← hc] at h1
  -- everything below the next level's value
  have h2 : ∃ q : Nat → Bool, (∀ i ∈ I, p i = true → q i = true) ∧
      (∀ i ∈ I, x i ≤ c → q i = true) ∧ ((I.filter q).map w).sum ≤ ((k : K) + 1) / n * T := by
    have hT0 : 0 ≤ T := by simpa using hnn fun _ => true
    by_cases hk1 : k + 1 < n
    · set z := xs[k + 1]'(hlen ▸ hk1) with hz
      have hcz : c < z := lt_of_le_of_lt hkx (hkm hk1)
      refine ⟨fun i => decide (x i < z), fun i hi hpi => ?_, fun i hi h => ?_, ?_⟩
      · have := (hp i hi hpi z (List.getElem_mem _)).not.2 (not_le.2 (hkm hk1))
        simpa using this
      · simpa using lt_of_le_of_lt h hcz
      · have hcI := (hget k hk).1
        rw [← hc] at hcI
        obtain ⟨y, hy, hmax⟩ := ((I.map x).toFinset.filter (· < z)).exists_max_image id
          ⟨c, by simpa using ⟨by simpa using hcI, hcz⟩⟩
        have hy' : y ∈ I.map x ∧ y < z := by simpa using hy
        have hlt : ((I.filter fun i => x i ≤ y).map w).sum < ((k + 1 : Nat) : K) / n * T := by
          by_contra hge
          exact absurd ((hget (k + 1) hk1).2.2 y hy'.1 (not_lt.1 hge)) (not_le.2 hy'.2)
        have e : (I.filter fun i => decide (x i < z)) = I.filter fun i => decide (x i ≤ y) := by
          refine List.filter_congr fun i hi => ?_
          rw [decide_eq_decide]
          refine ⟨fun h => hmax (x i) ?_, fun h => lt_of_le_of_lt h hy'.2⟩
          simpa using ⟨⟨i, hi, rfl⟩, h⟩
        rw [e]
        push_cast at hlt
        exact hlt.le
    · have e : (k : K) + 1 = n := by
        have : k + 1 = n := by omega
        exact_mod_cast this
      refine ⟨fun _ => true, fun _ _ _ => rfl, fun _ _ _ => rfl, ?_⟩
      rw [e, div_self hnK.ne', one_mul]
      simp [hT]
  obtain ⟨q, hq1, hq2, hq3⟩ := h2
  have h3 := filter_add_le hw (p := fun i => p i && decide (x i ≠ c)) (a := fun i => decide (x i ≤ c))
    (c := q) (fun i hi h => hq2 i hi (by simpa using h)) (fun i hi h => by
      simp only [Bool.and_eq_true, decide_eq_true_eq] at h
      refine ⟨hq1 i hi h.1, ?_⟩
      have hci := (hp i hi h.1 c hcmem).2 hkx
      simpa using lt_of_le_of_ne hci (Ne.symm h.2))
  have h4 : ((I.filter fun i => p i && decide (x i ≠ c)).map w).sum ≤ T / n := by
    have : ((k : K) + 1) / n * T = (k : K) / n * T + T / n := by ring
    linarith
  rw [mul_comm]
  exact (le_div_iff₀ hnK).1 h4

variable {m : Fmt K} [m.Exact]

/-- Row `i` has the value `v` in column `j`, which is not missing, and was put in bin `b`. -/
def InBin (data : Matrix (FX m)) (missing : FX m) (bd : BinnedData (FX m)) (j b i : Nat) (v : FX m) :
    Prop :=
  data.entry i j = some v ∧ ¬ IsMissing missing v ∧
    (Matrix.mk bd.binned data.rows data.cols).entry i j = some b

/-- C136.  Take any bin of any column after binning with finite values and weights that are not
negative.  The rows of the bin that do not stand at its least value weigh together at most one
`nbins`-th of the weight of all rows of the column that are not missing.  (Exact arithmetic.) -/
theorem C136_balance {S : Sorter} (hS : S.Ok) {data : Matrix (FX m)} {w : List K} {nbins : Nat}
    {missing : FX m} {bd : BinnedData (FX m)} (hm : data.Shaped) (hw : data.rows ≤ w.length)
    (hfin : ∀ v ∈ data.data, ¬ IsMissing missing v → ∃ x, v = FX.fin x ∧ (v ≤ᶠ Fl.maxv) = true)
    (hw0 : ∀ x ∈ w, 0 ≤ x) (h : binMatrix S data (w.map FX.fin) nbins missing = .ok bd)
    (j : Nat) (hj : j < data.cols) (b : Nat) :
    ∃ c : K, (∀ i < data.rows, ∀ x, InBin data missing bd j b i (FX.fin x) → c ≤ x) ∧
      nbins * weightWhere w data.rows
          (fun i => ∃ x, InBin data missing bd j b i (FX.fin x) ∧ x ≠ c) ≤
        weightWhere w data.rows (fun i => ∃ v, data.entry i j = some v ∧ ¬ IsMissing missing v) := by
  classical
  have hw' : data.rows ≤ (w.map (FX.fin : K → FX m)).length := by simpa using hw
  have hwn : ∀ i : Nat, 0 ≤ w[i]?.getD 0 := by
    intro i
    cases e : w[i]? with
    | none => simp
    | some x => exact hw0 x (List.mem_of_getElem? e)
  have hnn : ∀ P, 0 ≤ weightWhere w data.rows P := fun P =>
    List.sum_nonneg fun a ha => by
      obtain ⟨i, _, rfl⟩ := List.mem_map.1 ha
      exact hwn i
  -- a bin without rows
  by_cases hemp : ∃ i < data.rows, ∃ x, InBin data missing bd j b i (FX.fin x)
  swap
  · refine ⟨0, fun i hi x hx => absurd ⟨i, hi, x, hx⟩ hemp, ?_⟩
    have e : weightWhere w data.rows
        (fun i => ∃ x, InBin data missing bd j b i (FX.fin x) ∧ x ≠ 0) = 0 := by
      unfold weightWhere
      rw [List.filter_eq_nil_iff.2]
      · rfl
      · intro i hi
        simp only [decide_eq_true_eq]
        rintro ⟨x, hx, _⟩
        exact hemp ⟨i, List.mem_range.1 hi, x, hx⟩
    rw [e, mul_zero]
    exact hnn _
  obtain ⟨i0, hi0, x0, hb0⟩ := hemp
  obtain ⟨cutss, hb⟩ := binMatrix_binned hm hw' h
  have hjl : j < cutss.length := hb.len ▸ hj
  have hcl := Matrix.column_length hm hj
  have hcj := List.getElem?_eq_getElem hjl
  have hmade := hb.made j _ hcj
  have hmax : ∀ v ∈ data.data, ¬ IsMissing missing v → (v ≤ᶠ Fl.maxv) = true := fun v hv hvm => by
    obtain ⟨_, _, h⟩ := hfin v hv hvm
    exact h
  have hspec := colCuts_spec hS (by rw [hcl]; exact hw') hmade
    (fun v hv => hmax v (Matrix.mem_column hv))
  obtain ⟨hread, ws, cs, hws, hcs, ecuts⟩ := colCuts_form (by rw [hcl]; exact hw') hmade
  have hn : ∀ a ∈ present missing (data.column j), isNaN a = false := fun a ha =>
    num_of_not_missing (hread a (mem_present.1 ha).1) (mem_present.1 ha).2
  obtain ⟨hcsorted, hcsmem, _⟩ := percentilesOrValue_spec hS hn hcs
  -- every value of `cs` is a cut
  have hcut : ∀ z ∈ cs, ∃ y ∈ cutss[j], (y =ᶠ z) = true := by
    intro z hz
    rw [ecuts]
    refine dedup_cover (List.pairwise_append.2 ⟨hcsorted, List.pairwise_singleton _ _, ?_⟩) ?_
      (List.mem_append_left _ hz)
    · intro a ha b hb
      rw [List.mem_singleton.1 hb]
      obtain ⟨g1, g2⟩ := mem_present.1 (hcsmem a ha)
      exact hmax a (Matrix.mem_column g1) g2
    · intro a ha
      rcases List.mem_append.1 ha with h | h
      · exact hn a (hcsmem a h)
      · rw [List.mem_singleton.1 h]; exact Fl.OrdLaws.maxv_num
  -- rows of the same bin lie on the same side of every value of `cs`
  have hside : ∀ i < data.rows, ∀ x, InBin data missing bd j b i (FX.fin x) → ∀ z : K,
      (FX.fin z : FX m) ∈ cs → (z ≤ x ↔ z ≤ x0) := by
    have key : ∀ i < data.rows, ∀ x, InBin data missing bd j b i (FX.fin x) →
        ∀ (k : Nat) (a : FX m), cutss[j][k]? = some a → ((a ≤ᶠ FX.fin x) = true ↔ k < b) := by
      intro i hi x ⟨k1, k2, k3⟩
      obtain ⟨k, hk1, hk2, hk3⟩ := mapBin_spec hspec.increasing
        (num_of_not_missing (hb.readable _ (List.mem_of_getElem? k1)) k2) k2
      obtain ⟨b', hbin, hmap⟩ := hb.bin i j _ _ hi k1 hcj
      have ebb : b' = b := by
        have := k3
        simp only [Matrix.entry] at this
        rw [hbin] at this
        exact Option.some.inj this
      subst ebb
      rw [hk3] at hmap
      injection hmap with hmap
      split at hmap
      · injection hmap with hmap
        subst hmap
        exact hk2
      · cases hmap
    intro i hi x hx z hz
    obtain ⟨y, hy, e⟩ := hcut _ hz
    obtain ⟨k, hk⟩ := List.mem_iff_getElem?.1 hy
    have e1 := key i hi x hx k y hk
    have e2 := key i0 hi0 x0 hb0 k y hk
    obtain ⟨a1, a2⟩ := Fl.feq_iff_le.1 e
    have e3 : ∀ u : K, (y ≤ᶠ FX.fin u) = true ↔ z ≤ u := by
      intro u
      constructor
      · intro h
        have := Fl.le_trans a2 h
        simpa using this
      · intro h
        exact Fl.le_trans a1 (by simpa using h)
    rw [← e3, ← e3, e1, e2]
  -- the rows that are not missing, as numbers
  set I := (List.range data.rows).filter
    fun i => decide (∃ v, data.entry i j = some v ∧ ¬ IsMissing missing v) with hI
  set x : Nat → K := fun i => match data.entry i j with | some (FX.fin u) => u | _ => 0 with hx
  set wf : Nat → K := fun i => w[i]?.getD 0 with hwf
  have hxI : ∀ i ∈ I, data.entry i j = some (FX.fin (x i)) ∧
      ¬ IsMissing missing (FX.fin (x i) : FX m) ∧ i < data.rows := by
    intro i hi
    obtain ⟨k1, k2⟩ := List.mem_filter.1 hi
    obtain ⟨v, e, hv⟩ := of_decide_eq_true k2
    obtain ⟨u, rfl, _⟩ := hfin v (List.mem_of_getElem? e) hv
    have : x i = u := by simp only [hx, e]
    rw [this]
    exact ⟨e, hv, List.mem_range.1 k1⟩
  have hcol : (data.column j).zip (w.map (FX.fin : K → FX m)) =
      (List.range data.rows).map fun i => ((data.entry i j).getD 0, FX.fin (wf i)) := by
    refine List.ext_getElem (by simp [hcl]; omega) fun i h1 h2 => ?_
    have hi : i < data.rows := by simpa using h2
    have e1 : data.entry i j = some ((data.column j)[i]'(by omega)) := by
      rw [← Matrix.column_getElem? data hi, List.getElem?_eq_getElem]
    have e2 : wf i = w[i]'(by omega) := by
      simp [hwf, List.getElem?_eq_getElem (show i < w.length by omega)]
    simp [e1, e2]
  have hkept : ((data.column j).zip (w.map (FX.fin : K → FX m))).filter
      (fun p => !decide (IsMissing missing p.1)) = I.map fun i => (FX.fin (x i), FX.fin (wf i)) := by
    rw [hcol, List.filter_map]
    have e : (List.range data.rows).filter ((fun p : FX m × FX m => !decide (IsMissing missing p.1)) ∘
        fun i => ((data.entry i j).getD 0, FX.fin (wf i))) = I := by
      rw [hI]
      refine List.filter_congr fun i hi => ?_
      have hi := List.mem_range.1 hi
      have e1 : data.entry i j = some ((data.column j)[i]'(by omega)) := by
        rw [← Matrix.column_getElem? data hi, List.getElem?_eq_getElem]
      simp [e1]
    rw [e]
    refine List.map_congr_left fun i hi => ?_
    rw [(hxI i hi).1]
    rfl
  have hpres : present missing (data.column j) = (I.map x).map FX.fin := by
    rw [present, ← zip_filter_fst _ _ (w.map (FX.fin : K → FX m)) (by rw [hcl]; exact hw'), hkept]
    simp [Function.comp_def]
  have hws' : ws = (I.map wf).map FX.fin := by
    rw [hws, hkept]
    simp [Function.comp_def]
  have hwI : ∀ i ∈ I, 0 ≤ wf i := fun i _ => hwn i
  have hT : weightWhere w data.rows (fun i => ∃ v, data.entry i j = some v ∧ ¬ IsMissing missing v) =
      (I.map wf).sum := by
    unfold weightWhere
    rw [hI]
    congr 2
    refine List.filter_congr fun i _ => ?_
    rw [decide_eq_decide]
  have hi0I : i0 ∈ I := List.mem_filter.2 ⟨List.mem_range.2 hi0, decide_eq_true ⟨_, hb0.1, hb0.2.1⟩⟩
  have hx0 : x i0 = x0 := by simp only [hx, hb0.1]
  have hx0I : x0 ∈ I.map x := List.mem_map.2 ⟨i0, hi0I, hx0⟩
  -- the rest of the bin as a part of `I`
  have hrest : ∀ c : K, weightWhere w data.rows
      (fun i => ∃ x, InBin data missing bd j b i (FX.fin x) ∧ x ≠ c) =
      ((I.filter fun i => decide (InBin data missing bd j b i (FX.fin (x i))) &&
        decide (x i ≠ c)).map wf).sum := by
    intro c
    unfold weightWhere
    rw [hI, List.filter_filter]
    congr 2
    refine List.filter_congr fun i hi => ?_
    rw [← Bool.decide_and, ← Bool.decide_and, decide_eq_decide]
    constructor
    · rintro ⟨u, hu, hne⟩
      have : x i = u := by simp only [hx, hu.1]
      rw [this]
      exact ⟨⟨hu, hne⟩, _, hu.1, hu.2.1⟩
    · rintro ⟨⟨hu, hne⟩, _⟩
      exact ⟨_, hu, hne⟩
  -- what a suitable value `c` gives
  have hIsum : 0 ≤ (I.map wf).sum := List.sum_nonneg fun a ha => by
    obtain ⟨i, hi, rfl⟩ := List.mem_map.1 ha
    exact hwI i hi
  rcases hIsum.lt_or_eq with hpos | hzero
  swap
  · -- no weight at all
    obtain ⟨c, hc, hmin⟩ := ((I.filter fun i =>
      decide (InBin data missing bd j b i (FX.fin (x i)))).map x).toFinset.exists_min_image id
      ⟨x0, by
        simp only [List.mem_toFinset, List.mem_map, List.mem_filter, decide_eq_true_eq]
        exact ⟨i0, ⟨hi0I, by rw [hx0]; exact hb0⟩, hx0⟩⟩
    refine ⟨c, fun i hi u hu => ?_, ?_⟩
    · have e : x i = u := by simp only [hx, hu.1]
      refine hmin u ?_
      simp only [List.mem_toFinset, List.mem_map, List.mem_filter, decide_eq_true_eq]
      exact ⟨i, ⟨List.mem_filter.2 ⟨List.mem_range.2 hi, decide_eq_true ⟨_, hu.1, hu.2.1⟩⟩,
        by rw [e]; exact hu⟩, e⟩
    · rw [hrest, hT, ← hzero]
      have h1 := filter_add_le hwI (p := fun i => decide (InBin data missing bd j b i (FX.fin (x i))) &&
        decide (x i ≠ c)) (a := fun _ => false) (c := fun _ => true) (fun _ _ _ => rfl)
        (fun _ _ _ => ⟨rfl, rfl⟩)
      have h2 : (0 : K) ≤ nbins := Nat.cast_nonneg _
      simp only [List.filter_false, List.map_nil, List.sum_nil, add_zero, List.filter_true,
        ← hzero] at h1
      nlinarith
  suffices hc : ∃ c : K, (FX.fin c : FX m) ∈ cs ∧ c ≤ x0 ∧
      nbins * ((I.filter fun i => decide (InBin data missing bd j b i (FX.fin (x i))) &&
        decide (x i ≠ c)).map wf).sum ≤ (I.map wf).sum by
    obtain ⟨c, hc, hcx, hle⟩ := hc
    refine ⟨c, fun i hi u hu => (hside i hi u hu c hc).2 hcx, ?_⟩
    rw [hrest, hT]
    exact hle
  unfold percentilesOrValue at hcs
  obtain ⟨s, k1, k2, k3⟩ := sortPartialCmp_spec hS (id : FX m → FX m) _ hn
  rw [k1, Res.ok_bind] at hcs
  simp only at hcs
  split at hcs
  · -- every value is a cut
    injection hcs with hcs
    have hall : ∀ i ∈ I, (FX.fin (x i) : FX m) ∈ cs := by
      intro i hi
      have : (FX.fin (x i) : FX m) ∈ s := by
        rw [k2.mem_iff, hpres]
        exact List.mem_map.2 ⟨_, List.mem_map.2 ⟨i, hi, rfl⟩, rfl⟩
      obtain ⟨y, hy, e⟩ := dedup_cover k3 (fun a ha => hn a (k2.mem_iff.1 ha)) this
      rw [← hcs]
      have hyp := k2.mem_iff.1 (dedup_mem hy)
      rw [hpres] at hyp
      obtain ⟨u, _, rfl⟩ := List.mem_map.1 hyp
      have : u = x i := by simpa using e
      rwa [← this]
    refine ⟨x0, hx0 ▸ hall i0 hi0I, le_rfl, ?_⟩
    have e : (I.filter fun i => decide (InBin data missing bd j b i (FX.fin (x i))) &&
        decide (x i ≠ x0)) = [] := by
      refine List.filter_eq_nil_iff.2 fun i hi => ?_
      rw [← Bool.decide_and, decide_eq_true_eq]
      rintro ⟨hbi, hne⟩
      have hir := (hxI i hi).2.2
      have h1 := (hside i hir _ hbi (x i) (hall i hi)).1 le_rfl
      have h2 := (hside i hir _ hbi x0 (hx0 ▸ hall i0 hi0I)).2 le_rfl
      exact hne (le_antisymm h1 h2)
    rw [e]
    simpa using hIsum
  · next hmany =>
    by_cases hnb : nbins = 0
    · -- no levels: `percentiles` panics
      subst hnb
      unfold percentiles at hcs
      simp only [Res.bind_eq_ok] at hcs
      obtain ⟨_, _, hcs⟩ := hcs
      cases hcs
    · have hnK : (0 : K) < nbins := by exact_mod_cast Nat.pos_of_ne_zero hnb
      rw [hpres, hws', binPcts_fin hnb] at hcs
      obtain ⟨xs, hxs, _, hfor⟩ := C45_percentiles (m := m) hS (I.map x) (I.map wf)
        ((List.range nbins).map fun k : Nat => (k : K) / nbins) (by simp)
        (fun a ha => by
          obtain ⟨i, hi, rfl⟩ := List.mem_map.1 ha
          exact hwI i hi) hpos (by simpa using hnb)
        (by
          rw [List.pairwise_map]
          refine List.pairwise_lt_range.imp fun {a b} hab => ?_
          have : (a : K) ≤ b := by exact_mod_cast hab.le
          exact div_le_div_of_nonneg_right this hnK.le)
        (by
          intro q hq
          obtain ⟨k, hk, rfl⟩ := List.mem_map.1 hq
          have : (k : K) < nbins := by exact_mod_cast List.mem_range.1 hk
          exact ⟨div_nonneg (Nat.cast_nonneg _) hnK.le, (div_lt_one hnK).2 this⟩)
      rw [hxs] at hcs
      injection hcs with hcs
      have hzip : ∀ y : K, ((((I.map x).zip (I.map wf)).filter fun p => p.1 ≤ y).map Prod.snd).sum =
          ((I.filter fun i => x i ≤ y).map wf).sum := by
        intro y
        rw [List.zip_map', List.filter_map, List.map_map]
        rfl
      simp only [hzip] at hfor
      obtain ⟨c, hc, hcx, hle⟩ := levels_rest hwI (Nat.pos_of_ne_zero hnb) hfor hx0I
      refine ⟨c, hcs ▸ List.mem_map.2 ⟨c, hc, rfl⟩, hcx, hle _ fun i hi hbi z hz => ?_⟩
      exact hside i (hxI i hi).2.2 _ (of_decide_eq_true hbi) z (hcs ▸ List.mem_map.2 ⟨z, hz, rfl⟩)

/-- The number of rows among the first `rows` that satisfy `P`. -/
noncomputable def countWhere (rows : Nat) (P : Nat → Prop) : Nat :=
  open Classical in ((List.range rows).filter fun i => P i).length

/-- C136, equal weights.  If all weights are 1 and no value of the column stands in two rows, no bin
has more rows than one `nbins`-th of the rows that are not missing, plus one. -/
theorem C136_count {S : Sorter} (hS : S.Ok) {data : Matrix (FX m)} {w : List K} {nbins : Nat}
    {missing : FX m} {bd : BinnedData (FX m)} (hm : data.Shaped) (hw : data.rows ≤ w.length)
    (hfin : ∀ v ∈ data.data, ¬ IsMissing missing v → ∃ x, v = FX.fin x ∧ (v ≤ᶠ Fl.maxv) = true)
    (hw1 : ∀ x ∈ w, x = 1) (h : binMatrix S data (w.map FX.fin) nbins missing = .ok bd)
    (j : Nat) (hj : j < data.cols)
    (hdist : ∀ i < data.rows, ∀ i' < data.rows, ∀ v, data.entry i j = some v →
      ¬ IsMissing missing v → data.entry i' j = some v → i = i') (b : Nat) :
    nbins * countWhere data.rows (fun i => ∃ v, InBin data missing bd j b i v) ≤
      countWhere data.rows (fun i => ∃ v, data.entry i j = some v ∧ ¬ IsMissing missing v) + nbins := by
  classical
  obtain ⟨c, _, hle⟩ := C136_balance hS hm hw hfin (fun x hx => by rw [hw1 x hx]; exact zero_le_one) h
    j hj b
  have hone : ∀ P, weightWhere w data.rows P = (countWhere data.rows P : K) := by
    intro P
    unfold weightWhere countWhere
    have : ((List.range data.rows).filter fun i => decide (P i)).map (fun i => w[i]?.getD 0) =
        List.replicate ((List.range data.rows).filter fun i => decide (P i)).length (1 : K) := by
      refine List.eq_replicate_iff.2 ⟨by simp, fun a ha => ?_⟩
      obtain ⟨i, hi, rfl⟩ := List.mem_map.1 ha
      have hi := List.mem_range.1 (List.mem_of_mem_filter hi)
      have hiw : i < w.length := by omega
      rw [List.getElem?_eq_getElem hiw]
      exact hw1 _ (List.getElem_mem _)
    rw [this]
    simp
  rw [hone, hone] at hle
  have hle' := (by exact_mod_cast hle : _ * _ ≤ _)
  have hcount : countWhere data.rows (fun i => ∃ v, InBin data missing bd j b i v) ≤
      countWhere data.rows (fun i => ∃ x, InBin data missing bd j b i (FX.fin x) ∧ x ≠ c) + 1 := by
    unfold countWhere
    beta_reduce
    set L := (List.range data.rows).filter fun i => decide (∃ v, InBin data missing bd j b i v) with hL
    have h1 := L.length_eq_length_filter_add
      fun i => decide (∃ x, InBin data missing bd j b i (FX.fin x) ∧ x ≠ c)
    have h2 : (L.filter fun i => decide (∃ x, InBin data missing bd j b i (FX.fin x) ∧ x ≠ c)).length ≤
        ((List.range data.rows).filter
          fun i => decide (∃ x, InBin data missing bd j b i (FX.fin x) ∧ x ≠ c)).length := by
      rw [hL, List.filter_filter]
      refine (List.monotone_filter_right _ fun i hi => ?_).length_le
      exact (Bool.and_eq_true_iff.1 hi).1
    have h3 : (L.filter fun i => !decide (∃ x, InBin data missing bd j b i (FX.fin x) ∧ x ≠ c)).length ≤
        1 := by
      have hall : ∀ i ∈ L.filter
          (fun i => !decide (∃ x, InBin data missing bd j b i (FX.fin x) ∧ x ≠ c)),
          i < data.rows ∧ data.entry i j = some (FX.fin c) ∧ ¬ IsMissing missing (FX.fin c : FX m) := by
        intro i hi
        obtain ⟨k1, k2⟩ := List.mem_filter.1 hi
        obtain ⟨k3, k4⟩ := List.mem_filter.1 k1
        obtain ⟨v, hv⟩ := of_decide_eq_true k4
        obtain ⟨x, rfl, _⟩ := hfin v (List.mem_of_getElem? hv.1) hv.2.1
        have : x = c := by
          by_contra hne
          rw [decide_eq_true ⟨x, hv, hne⟩] at k2
          cases k2
        subst this
        exact ⟨List.mem_range.1 k3, hv.1, hv.2.1⟩
      have hnd := ((List.nodup_range (n := data.rows)).filter
        fun i => decide (∃ v, InBin data missing bd j b i v)).filter
        fun i => !decide (∃ x, InBin data missing bd j b i (FX.fin x) ∧ x ≠ c)
      rw [← hL] at hnd
      generalize L.filter
        (fun i => !decide (∃ x, InBin data missing bd j b i (FX.fin x) ∧ x ≠ c)) = l at hall hnd
      match l, hall, hnd with
      | [], _, _ => simp
      | [_], _, _ => simp
      | a :: a' :: l, hall, hnd =>
        obtain ⟨r1, e1, g1⟩ := hall a (by simp)
        obtain ⟨r2, e2, _⟩ := hall a' (by simp)
        have := hdist a r1 a' r2 _ e1 g1 e2
        subst this
        simp at hnd
    omega
  calc _ ≤ nbins * (countWhere data.rows
        (fun i => ∃ x, InBin data missing bd j b i (FX.fin x) ∧ x ≠ c) + 1) :=
        Nat.mul_le_mul_left _ hcount
    _ ≤ _ := by rw [Nat.mul_add, Nat.mul_one]; exact Nat.add_le_add_right hle' _

/-- A column of eight values for two bins: more values than bins, so the cuts are percentiles. -/
def binCol : Matrix Q :=
  { data := [q 3, q 1, q 8, q 2, q 6, q 4, q 7, q 5], rows := 8, cols := 1 }

/-- The hypotheses of `C136_balance` and `C136_count` are met; the second bin has one row more than
half of the rows. -/
example : binCol.Shaped ∧
    (∀ v ∈ binCol.data, ¬ IsMissing (FX.nan : Q) v → ∃ x, v = FX.fin x ∧ (v ≤ᶠ Fl.maxv) = true) ∧
    (∀ i < binCol.rows, ∀ i' < binCol.rows, ∀ v, binCol.entry i 0 = some v →
      ¬ IsMissing (FX.nan : Q) v → binCol.entry i' 0 = some v → i = i') ∧
    ∃ bd, binMatrix exSorter binCol ((List.replicate 8 (1 : ℚ)).map FX.fin) 2 FX.nan = .ok bd ∧
      bd.binned = [1, 1, 2, 1, 2, 2, 2, 2] := by
  refine ⟨rfl, ?_, ?_, ?_⟩
  · intro v hv _
    simp only [binCol, List.mem_cons, List.not_mem_nil, or_false] at hv
    rcases hv with rfl | rfl | rfl | rfl | rfl | rfl | rfl | rfl <;> exact ⟨_, rfl, by decide +kernel⟩
  · have : ∀ i < 8, ∀ i' < 8, binCol.entry i 0 = binCol.entry i' 0 → i = i' := by decide +kernel
    exact fun i hi i' hi' v h1 _ h2 => this i hi i' hi' (h1.trans h2.symm)
  · have : (match binMatrix exSorter binCol ((List.replicate 8 (1 : ℚ)).map FX.fin) 2 FX.nan with
        | .ok bd => decide (bd.binned = [1, 1, 2, 1, 2, 2, 2, 2])
        | _ => false) = true := by decide +kernel
    split at this
    · next bd h => exact ⟨bd, h, of_decide_eq_true this⟩
    · cases this

end Verif
