import Verif.Props.Binning
import Verif.Proofs.Rounds
import Verif.Props.TotalAny

/-!
# C28 in floating point arithmetic: bin 0 is for missing values
-/

namespace Verif

open scoped Verif

set_option linter.unusedSectionVars false

section
variable {K : Type} [Field K] [LinearOrder K] [IsStrictOrderedRing K] {m : Fmt K} [hm : m.Rounds]

/-- A result of rounding that is at least `a`, possibly plus infinity. -/
def FX.AtLeast (a : K) (x : FX m) : Prop := x = .pinf ∨ ∃ b, x = .fin b ∧ m.Repr b ∧ a ≤ b

theorem FX.AtLeast.mono {a b : K} {x : FX m} (h : x.AtLeast b) (hab : a ≤ b) : x.AtLeast a := by
  rcases h with h | ⟨c, h, hr, hc⟩
  · exact .inl h
  · exact .inr ⟨c, h, hr, hab.trans hc⟩

theorem FX.AtLeast.rd {a x : K} (ha : m.Repr a) (h : a ≤ x) : (FX.rd x : FX m).AtLeast a := by
  unfold FX.rd
  have := hm.mono h
  rw [ha] at this
  cases e : m.rnd x with
  | ninf => rw [e] at this; exact this.elim
  | pinf => exact .inl rfl
  | fin y => rw [e] at this; exact .inr ⟨y, rfl, hm.idem e, this⟩

theorem FX.AtLeast.add {a : K} (ha : m.Repr a) {x y : FX m} (hx : x.AtLeast a) (hy : y.AtLeast 0) :
    (x + y).AtLeast a := by
  show (FX.add x y).AtLeast a
  rcases hx with rfl | ⟨b, rfl, hb, hab⟩ <;> rcases hy with rfl | ⟨c, rfl, hc, h0⟩
  · exact .inl rfl
  · exact .inl rfl
  · exact .inl rfl
  · exact FX.AtLeast.rd ha (by linarith)

theorem FX.AtLeast.add' {a : K} (ha : m.Repr a) {x y : FX m} (hx : x.AtLeast 0) (hy : y.AtLeast a) :
    (x + y).AtLeast a := by
  show (FX.add x y).AtLeast a
  rcases hx with rfl | ⟨b, rfl, hb, hab⟩ <;> rcases hy with rfl | ⟨c, rfl, hc, h0⟩
  · exact .inl rfl
  · exact .inl rfl
  · exact .inl rfl
  · exact FX.AtLeast.rd ha (by linarith)

theorem zero_atLeast : (0 : FX m).AtLeast (0 : K) := .inr ⟨0, rfl, hm.zero, le_rfl⟩

theorem foldl_atLeast {a : K} (ha : m.Repr a) : ∀ (l : List (FX m)) (s : FX m), (∀ x ∈ l, x.AtLeast (0 : K)) →
    (s.AtLeast a ∨ (s.AtLeast (0 : K) ∧ ∃ x ∈ l, x.AtLeast a)) → (l.foldl (· + ·) s).AtLeast a
  | [], s, _, h => by
    rcases h with h | ⟨_, x, hx, _⟩
    · exact h
    · cases hx
  | y :: l, s, h0, h => by
    rw [List.foldl_cons]
    have hl := fun x hx => h0 x (List.mem_cons_of_mem y hx)
    have hy := h0 y (List.mem_cons_self)
    refine foldl_atLeast ha l _ hl ?_
    rcases h with h | ⟨hs, x, hx, hxa⟩
    · exact .inl (h.add ha hy)
    · rcases List.mem_cons.1 hx with rfl | hx
      · exact .inl (hs.add' ha hxa)
      · exact .inr ⟨hs.add hm.zero hy, x, hx, hxa⟩

theorem foldLanes_atLeast {a : K} (ha : m.Repr a) : ∀ (n : Nat) (acc l : List (FX m)), acc.length = lanes →
    (∀ x ∈ acc, x.AtLeast (0 : K)) → (∀ x ∈ l, x.AtLeast (0 : K)) →
    (∀ x ∈ (foldLanes n acc l).1, x.AtLeast (0 : K)) ∧ (∀ x ∈ (foldLanes n acc l).2, x.AtLeast (0 : K)) ∧
      (((∃ x ∈ acc, x.AtLeast a) ∨ ∃ x ∈ l, x.AtLeast a) →
        (∃ x ∈ (foldLanes n acc l).1, x.AtLeast a) ∨ ∃ x ∈ (foldLanes n acc l).2, x.AtLeast a)
  | 0, _, _, _, h1, h2 => ⟨h1, h2, id⟩
  | n + 1, acc, l, hlen, h1, h2 => by
    unfold foldLanes
    split
    · exact ⟨h1, h2, id⟩
    · rename_i hl
      have htl : (l.take lanes).length = lanes := by rw [List.length_take]; omega
      have hal : (addLanes acc (l.take lanes)).length = lanes := by
        unfold addLanes; rw [List.length_zipWith, hlen, htl, Nat.min_self]
      have hget : ∀ i (hi : i < lanes), ∃ z ∈ addLanes acc (l.take lanes),
          z = acc[i]'(hlen ▸ hi) + (l.take lanes)[i]'(by rw [htl]; exact hi) := by
        intro i hi
        refine ⟨(addLanes acc (l.take lanes))[i]'(by rw [hal]; exact hi), List.getElem_mem _, ?_⟩
        simp only [addLanes, List.getElem_zipWith]
      have h1' : ∀ x ∈ addLanes acc (l.take lanes), x.AtLeast (0 : K) := by
        intro x hx
        obtain ⟨i, hi, rfl⟩ := List.getElem_of_mem hx
        simp only [addLanes, List.getElem_zipWith]
        exact (h1 _ (List.getElem_mem _)).add hm.zero (h2 _ (List.mem_of_mem_take (List.getElem_mem _)))
      obtain ⟨k1, k2, k3⟩ := foldLanes_atLeast ha n (addLanes acc (l.take lanes)) (l.drop lanes) hal h1'
        fun x hx => h2 x (List.mem_of_mem_drop hx)
      refine ⟨k1, k2, fun h => k3 ?_⟩
      rcases h with ⟨x, hx, hxa⟩ | ⟨x, hx, hxa⟩
      · obtain ⟨i, hi, rfl⟩ := List.getElem_of_mem hx
        obtain ⟨z, hz, e⟩ := hget i (hlen ▸ hi)
        exact .inl ⟨z, hz, e ▸ hxa.add ha (h2 _ (List.mem_of_mem_take (List.getElem_mem _)))⟩
      · rw [← List.take_append_drop lanes l, List.mem_append] at hx
        rcases hx with hx | hx
        · obtain ⟨i, hi, rfl⟩ := List.getElem_of_mem hx
          obtain ⟨z, hz, e⟩ := hget i (htl ▸ hi)
          exact .inl ⟨z, hz, e ▸ (h1 _ (List.getElem_mem _)).add' ha hxa⟩
        · exact .inr ⟨x, hx, hxa⟩

/-- The sum of numbers that are not negative is at least each of them, with rounding. -/
theorem fastSum_atLeast {a : K} (ha : m.Repr a) {l : List (FX m)} (h0 : ∀ x ∈ l, x.AtLeast (0 : K)) {x : FX m}
    (hx : x ∈ l) (hxa : x.AtLeast a) : (fastSum l).AtLeast a := by
  unfold fastSum
  obtain ⟨k1, k2, k3⟩ := foldLanes_atLeast ha l.length (List.replicate lanes 0) l List.length_replicate
    (fun y hy => by rw [List.eq_of_mem_replicate hy]; exact zero_atLeast) h0
  have k4 := k3 (.inr ⟨x, hx, hxa⟩)
  generalize foldLanes l.length (List.replicate lanes 0) l = r at k1 k2 k4
  obtain ⟨acc, rem⟩ := r
  dsimp only at k1 k2 k4 ⊢
  have z1 := foldl_atLeast hm.zero acc (0 : FX m) k1 (.inl zero_atLeast)
  have z2 := foldl_atLeast hm.zero rem (0 : FX m) k2 (.inl zero_atLeast)
  rcases k4 with k4 | k4
  · exact (foldl_atLeast ha acc _ k1 (.inr ⟨zero_atLeast, k4⟩)).add ha z2
  · exact FX.AtLeast.add' ha z1 (foldl_atLeast ha rem _ k2 (.inr ⟨zero_atLeast, k4⟩))

/-- **C28**, bin 0, with rounding.  If the weights are numbers of the format, not negative, and some row of the column
that is not missing has a positive weight, a value gets bin 0 exactly if it is missing: also when the sum of the weights
is rounded or overflows.

Not true without the condition on the weights, see `C28_counterexample`. -/
theorem C28_missing_float_partial (h1r : m.Repr 1) {S : Sorter} (hS : S.Ok) {data : Matrix (FX m)} {w : List K}
    {nbins : Nat} {missing : FX m} {bd : BinnedData (FX m)} (hsh : data.Shaped) (hw : data.rows ≤ w.length)
    (hmax : ∀ v ∈ data.data, ¬ IsMissing missing v → (v ≤ᶠ Fl.maxv) = true)
    (h : binMatrix S data (w.map FX.fin) nbins missing = .ok bd) (j : Nat) (hj : j < data.cols)
    (hw0 : ∀ x ∈ w, m.Repr x ∧ 0 ≤ x)
    (hpos : ∃ i < data.rows, ∃ v, data.entry i j = some v ∧ ¬ IsMissing missing v ∧
      ∃ x, w[i]? = some x ∧ 0 < x)
    (i : Nat) (hi : i < data.rows) (v : FX m) (hv : data.entry i j = some v) :
    ∃ b, (Matrix.mk bd.binned data.rows data.cols).entry i j = some b ∧
      (b = 0 ↔ IsMissing missing v) := by
  have hw' : data.rows ≤ (w.map (FX.fin : K → FX m)).length := by simpa using hw
  obtain ⟨cutss, hb⟩ := binMatrix_binned hsh hw' h
  have hjl : j < cutss.length := hb.len ▸ hj
  have hcl := Matrix.column_length hsh hj
  have hcj := List.getElem?_eq_getElem hjl
  have hspec := colCuts_spec hS (by rw [hcl]; exact hw') (hb.made j _ hcj)
    (fun v hv => hmax v (Matrix.mem_column hv))
  obtain ⟨b, hbin, hmap⟩ := hb.bin i j v _ hi hv hcj
  refine ⟨b, hbin, ?_⟩
  by_cases hmi : IsMissing missing v
  · rw [mapBin_of_missing _ hmi] at hmap
    injection hmap with hmap
    injection hmap with hmap
    exact ⟨fun _ => hmi, fun _ => hmap.symm⟩
  · have hnum := num_of_not_missing (hb.readable v (List.mem_of_getElem? hv)) hmi
    obtain ⟨k, hk1, hk2, hk3⟩ := mapBin_spec hspec.increasing hnum hmi
    rw [hk3] at hmap
    injection hmap with hmap
    split at hmap
    · injection hmap with hmap
      subst hmap
      refine ⟨fun h0 => ?_, fun h => absurd h hmi⟩
      -- the rows that are not missing, with their weights
      set kept := ((data.column j).zip (w.map (FX.fin : K → FX m))).filter
        fun x => !decide (IsMissing missing x.1) with hkept
      have hall : ∀ p ∈ kept, ∃ x, m.Repr x ∧ 0 ≤ x ∧ p.2 = FX.fin x := by
        intro p hp
        obtain ⟨x, hx, e⟩ := List.mem_map.1 (List.of_mem_zip (List.mem_of_mem_filter hp)).2
        exact ⟨x, (hw0 x hx).1, (hw0 x hx).2, e.symm⟩
      have hkn : ∀ x ∈ kept.map Prod.snd, x.AtLeast (0 : K) := by
        intro x hx
        obtain ⟨p, hp, rfl⟩ := List.mem_map.1 hx
        obtain ⟨y, h1, h2, h3⟩ := hall p hp
        exact .inr ⟨y, h3, h1, h2⟩
      obtain ⟨i0, hi0, v0, hv0, hvm0, x0, hx0, hpos0⟩ := hpos
      have hmem : (v0, (FX.fin x0 : FX m)) ∈ kept := by
        refine List.mem_filter.2 ⟨List.mem_iff_getElem?.2 ⟨i0, ?_⟩, by simpa using hvm0⟩
        rw [List.getElem?_zip_eq_some]
        exact ⟨by rw [Matrix.column_getElem? data hi0, hv0], by simp [hx0]⟩
      have hr0 := (hw0 x0 (List.mem_of_getElem? hx0)).1
      have hsum : (fastSum (kept.map Prod.snd)).AtLeast x0 :=
        fastSum_atLeast hr0 hkn (List.mem_map.2 ⟨_, hmem, rfl⟩) (.inr ⟨x0, rfl, hr0, le_rfl⟩)
      obtain ⟨c0, hc0, hfirst⟩ := colCuts_first hS (by rw [hcl]; exact hw') (hb.made j _ hcj)
        (fun hnb x hx => by
          rw [← hkept] at hx ⊢
          obtain ⟨y, hy1, hy2, hy3⟩ := hall x hx
          rw [hy3]
          have e0 : (Fl.ofNat 0 / Fl.ofNat nbins : FX m) = FX.fin 0 := by
            have hz : (Fl.ofNat 0 : FX m) = FX.fin 0 := by
              show FX.rd ((0 : Nat) : K) = _
              rw [Nat.cast_zero, FX.rd, hm.zero]; rfl
            have hn : (Fl.ofNat nbins : FX m).AtLeast (1 : K) := by
              show (FX.rd (nbins : K) : FX m).AtLeast 1
              exact FX.AtLeast.rd h1r (by exact_mod_cast Nat.one_le_iff_ne_zero.2 hnb)
            rw [hz]
            rcases hn with hn | ⟨c, hn, _, hc⟩
            · rw [hn]; rfl
            · rw [hn]
              show FX.div _ _ = _
              rw [FX.div, if_neg (by linarith), zero_div, FX.rd, hm.zero]; rfl
          have e1 : ((FX.fin y : FX m) / fastSum (kept.map Prod.snd)).AtLeast (0 : K) := by
            show (FX.div _ _).AtLeast _
            rcases hsum with hs | ⟨c, hs, _, hc⟩
            · rw [hs]; exact .inr ⟨0, rfl, hm.zero, le_rfl⟩
            · rw [hs, FX.div, if_neg (by linarith)]
              exact FX.AtLeast.rd hm.zero (div_nonneg hy2 (by linarith))
          rw [e0]
          rcases zero_atLeast.add hm.zero e1 with e | ⟨c, e, _, hc⟩
          · rw [e]; rfl
          · rw [e]; exact decide_eq_true hc)
      have hvc : v ∈ data.column j := by
        rw [← Matrix.column_getElem? data hi] at hv
        exact List.mem_of_getElem? hv
      have := (hk2 0 c0 hc0).1 (hfirst v hvc hmi)
      omega
    · cases hmap

end

/-- C28 in `f64`: one bin, four values and a missing one, weights whose sum is rounded. -/
example : f64Fmt.Repr 1 ∧ exSorter.Ok ∧
    let data : Matrix F64 := { data := [f64 2, f64 1, FX.nan, f64 3, f64 (1/10)], rows := 5, cols := 1 }
    let w : List ℚ := [2 ^ 53, 1, 1, 1, 0]
    data.Shaped ∧ data.rows ≤ w.length ∧ (∀ v ∈ data.data, ¬ IsMissing (FX.nan : F64) v → (v ≤ᶠ Fl.maxv) = true) ∧
    (∃ bd, binMatrix exSorter data (w.map FX.fin) 1 FX.nan = .ok bd ∧ bd.binned = [1, 1, 0, 1, 1]) ∧
    (∀ x ∈ w, f64Fmt.Repr x ∧ 0 ≤ x) ∧
    (∃ i < data.rows, ∃ v, data.entry i 0 = some v ∧ ¬ IsMissing (FX.nan : F64) v ∧ ∃ x, w[i]? = some x ∧ 0 < x) ∧
    fastSum (w.map (FX.fin : ℚ → F64)) ≠ FX.fin w.sum := by
  have hr : ∀ x ∈ ([2 ^ 53, 1, 1, 1, 0] : List ℚ), f64Fmt.Repr x ∧ 0 ≤ x := by
    unfold Fmt.Repr
    decide +kernel
  refine ⟨(hr 1 (by simp)).1, exSorter_ok, by unfold Matrix.Shaped; decide +kernel, by decide, by decide +kernel, ?_, hr,
    ⟨0, by decide, f64 2, rfl, by decide +kernel, 2 ^ 53, rfl, by norm_num⟩, by decide +kernel⟩
  have h : (match binMatrix exSorter ({ data := [f64 2, f64 1, FX.nan, f64 3, f64 (1/10)], rows := 5, cols := 1 } :
      Matrix F64) (([2 ^ 53, 1, 1, 1, 0] : List ℚ).map FX.fin) 1 FX.nan with
      | .ok bd => decide (bd.binned = [1, 1, 0, 1, 1])
      | _ => false) = true := by decide +kernel
  split at h
  · rename_i bd e
    exact ⟨bd, e, of_decide_eq_true h⟩
  · cases h

end Verif
