import Verif.Props.Binning

/-!
# C155 The level 1 of the weighted percentiles
-/

namespace Verif

open scoped Verif

set_option linter.unusedSectionVars false

section
variable {K : Type} [Field K] [LinearOrder K] [IsStrictOrderedRing K] {m : Fmt K} [m.Exact]
  {V : Type} [LinearOrder V]

/-- `pctLoop_exact` for levels that increase strictly and may end with 1. -/
theorem pctLoop_top {emb : V → FX m} (hE : ValueEmb emb) (all : List (V × K)) (last : V)
    (hs : (all.map Prod.fst).Pairwise (· ≤ ·)) (hw : ∀ p ∈ all, 0 ≤ p.2) (htop : IsPercentile all 1 last)
    (hT : 0 < (all.map Prod.snd).sum) : ∀ (l pre : List (V × K)) (cv : FX m) (q : K) (qs : List K)
      (p : List (FX m)), all = pre ++ l → (q :: qs).Pairwise (· < ·) →
      (∀ x ∈ q :: qs, 0 ≤ x ∧ x ≤ 1) →
      (pre = [] ∨ (pre.map Prod.snd).sum < q * (all.map Prod.snd).sum) →
      ∃ xs, pctLoop (FX.fin (all.map Prod.snd).sum) (emb last)
          (l.map fun a => (emb a.1, (FX.fin a.2 : FX m))) cv
          (FX.fin ((pre.map Prod.snd).sum / (all.map Prod.snd).sum)) (FX.fin q) (qs.map FX.fin) p =
          p ++ xs.map emb ∧ List.Forall₂ (IsPercentile all) (q :: qs) xs := by
  set T := (all.map Prod.snd).sum with hTd
  intro l
  induction l with
  | nil =>
    intro pre cv q qs p e hq hq1 hpre
    exfalso
    rw [List.append_nil] at e
    subst e
    rcases hpre with h | h
    · subst h; simp [hTd] at hT
    · have := (hq1 q (by simp)).2
      rw [← hTd] at h
      nlinarith
  | cons a l ih =>
    obtain ⟨v, w⟩ := a
    intro pre cv q qs p e hq hq1 hpre
    have hcv : (if (cv =ᶠ emb v) = true then cv else emb v) = emb v := by
      split
      · next h => exact hE.eq _ _ h
      · rfl
    have hcu : (FX.fin ((pre.map Prod.snd).sum / T) : FX m) + FX.fin w / FX.fin T =
        FX.fin (((pre ++ [(v, w)]).map Prod.snd).sum / T) := by
      rw [FX.fin_div _ _ hT.ne', FX.fin_add]
      simp [add_div]
    have hsum : ((pre ++ [(v, w)]).map Prod.snd).sum = (pre.map Prod.snd).sum + w := by simp
    have hw0 := hw
    rw [e] at hw0
    have hs0 := hs
    rw [e] at hs0
    have here : ∀ q, q ≤ ((pre ++ [(v, w)]).map Prod.snd).sum / T →
        (pre = [] ∨ (pre.map Prod.snd).sum < q * T) → IsPercentile all q v := by
      intro q h1 h2
      rw [le_div_iff₀ hT, hsum] at h1
      rw [hTd] at h1 h2
      rw [e] at h1 h2 ⊢
      exact isPercentile_here hs0 hw0 h1 h2
    simp only [List.map_cons, pctLoop, hcv, hcu]
    by_cases hle : q ≤ ((pre ++ [(v, w)]).map Prod.snd).sum / T
    · have hcond : ((FX.fin q : FX m) =ᶠ 0 ||
          (FX.fin q : FX m) ≤ᶠ FX.fin (((pre ++ [(v, w)]).map Prod.snd).sum / T)) = true := by
        rw [FX.le_fin, decide_eq_true hle, Bool.or_true]
      rw [if_pos hcond]
      rcases pctWhile_exact (m := m) (((pre ++ [(v, w)]).map Prod.snd).sum / T) (emb v) qs q p with
        ⟨h1, h2⟩ | ⟨l1, q', qs', e1, h1, h2, h3⟩
      · rw [h1]
        refine ⟨(q :: qs).map fun _ => v, by simp, ?_⟩
        rw [List.forall₂_map_right_iff, List.forall₂_same]
        intro x hx
        refine here x (h2 x hx) (hpre.imp_right fun h => lt_of_lt_of_le h ?_)
        rcases List.mem_cons.1 hx with hx | hx
        · rw [hx]
        · exact mul_le_mul_of_nonneg_right ((List.pairwise_cons.1 hq).1 x hx).le hT.le
      · rw [h3]
        have hq' : (l1 ++ q' :: qs').Pairwise (· < ·) := e1 ▸ hq
        rw [List.pairwise_append] at hq'
        obtain ⟨xs, hxs, hf⟩ := ih (pre ++ [(v, w)]) (emb v) q' qs'
          (p ++ l1.map fun _ => emb v) (by rw [e]; simp) hq'.2.1
          (fun x hx => hq1 x (by rw [e1]; exact List.mem_append_right _ hx))
          (.inr ((div_lt_iff₀ hT).1 h2))
        refine ⟨l1.map (fun _ => v) ++ xs, ?_, ?_⟩
        · simp only
          rw [hxs]
          simp
        · rw [e1]
          refine List.rel_append ?_ hf
          rw [List.forall₂_map_right_iff, List.forall₂_same]
          intro x hx
          refine here x (h1 x hx) (hpre.imp_right fun h => lt_of_lt_of_le h ?_)
          have : x ∈ q :: qs := by rw [e1]; exact List.mem_append_left _ hx
          rcases List.mem_cons.1 this with hx | hx
          · rw [hx]
          · exact mul_le_mul_of_nonneg_right ((List.pairwise_cons.1 hq).1 x hx).le hT.le
    · have hlt := not_le.1 hle
      have h0 : 0 ≤ ((pre ++ [(v, w)]).map Prod.snd).sum / T :=
        div_nonneg (sum_snd_nonneg fun a ha => hw a (by
          rw [e]
          rcases List.mem_append.1 ha with h | h
          · exact List.mem_append_left _ h
          · exact List.mem_append_right _ (by rw [List.mem_singleton.1 h]; simp))) hT.le
      have hq0 : q ≠ 0 := (lt_of_le_of_lt h0 hlt).ne'
      have hcond : ¬ ((FX.fin q : FX m) =ᶠ 0 ||
          (FX.fin q : FX m) ≤ᶠ FX.fin (((pre ++ [(v, w)]).map Prod.snd).sum / T)) = true := by
        rw [FX.le_fin, decide_eq_false hle, FX.zero_def, FX.feq_fin, decide_eq_false hq0]; simp
      rw [if_neg hcond]
      by_cases hq1' : q = 1
      · have h1 : ((FX.fin q : FX m) =ᶠ 1) = true := by
          rw [FX.one_def, FX.feq_fin]
          simpa using hq1'
        have hnil : qs = [] := by
          cases qs with
          | nil => rfl
          | cons x l =>
            have h2 := (List.pairwise_cons.1 hq).1 x (by simp)
            have h3 := (hq1 x (by simp)).2
            linarith
        subst hnil
        rw [if_pos h1]
        exact ⟨[last], by simp, .cons (hq1' ▸ htop) .nil⟩
      · have h1 : ¬ ((FX.fin q : FX m) =ᶠ 1) = true := by
          rw [FX.one_def, FX.feq_fin]
          simpa using hq1'
        rw [if_neg h1]
        exact ih (pre ++ [(v, w)]) (emb v) q qs p (by rw [e]; simp) hq hq1
          (.inr ((div_lt_iff₀ hT).1 hlt))

/-- If every weight is positive, all of the weight is reached at the last of the sorted values only. -/
theorem isPercentile_last {all : List (V × K)} {a : V × K} (hl : all.getLast? = some a)
    (hs : (all.map Prod.fst).Pairwise (· ≤ ·)) (hw : ∀ p ∈ all, 0 < p.2) : IsPercentile all 1 a.1 := by
  obtain ⟨pre, rfl⟩ := List.getLast?_eq_some_iff.1 hl
  have hle : ∀ p ∈ pre ++ [a], p.1 ≤ a.1 := by
    intro p hp
    rcases List.mem_append.1 hp with h | h
    · rw [List.map_append, List.pairwise_append] at hs
      exact hs.2.2 p.1 (List.mem_map_of_mem h) a.1 (by simp)
    · rw [List.mem_singleton.1 h]
  refine ⟨⟨a.2, by simp⟩, ?_, fun y hy h => ?_⟩
  · unfold weightUpTo
    rw [List.filter_eq_self.2 fun p hp => decide_eq_true (hle p hp), one_mul]
  · by_contra hlt
    have hlt := not_le.1 hlt
    have hf : (pre ++ [a]).filter (fun p => decide (p.1 ≤ y.1)) = pre.filter fun p => decide (p.1 ≤ y.1) := by
      simp [List.filter_append, hlt]
    have hsub : ((pre.filter fun p => decide (p.1 ≤ y.1)).map Prod.snd).sum ≤ (pre.map Prod.snd).sum :=
      List.Sublist.sum_le_sum (List.Sublist.map _ List.filter_sublist) fun b hb => by
        obtain ⟨p, hp, rfl⟩ := List.mem_map.1 hb
        exact (hw p (List.mem_append_left _ hp)).le
    have ha := hw a (by simp)
    unfold weightUpTo at h
    rw [hf] at h
    simp only [List.map_append, List.sum_append, List.map_cons, List.map_nil, List.sum_cons, List.sum_nil] at h
    linarith

end

section exact
variable {K : Type} [Field K] [LinearOrder K] [IsStrictOrderedRing K] {m : Fmt K} [m.Exact]

/-- C155 (exact arithmetic).  For positive weights and levels in `[0, 1]` that increase strictly, `percentiles`
returns one value per level: the least value at which the share of the weight reaches the level.  If the last level
is 1, the last value is the greatest of the data. -/
theorem C155_levels {S : Sorter} (hS : S.Ok) (v w levels : List K) (hlen : v.length = w.length) (hv : v ≠ [])
    (hw : ∀ x ∈ w, 0 < x) (hne : levels ≠ [])
    (hinc : levels.Pairwise (· < ·)) (h01 : ∀ q ∈ levels, 0 ≤ q ∧ q ≤ 1) :
    ∃ xs : List K, percentiles S (v.map (FX.fin : K → FX m)) (w.map FX.fin) (levels.map FX.fin) =
        .ok (xs.map FX.fin) ∧ xs.Pairwise (· ≤ ·) ∧
      List.Forall₂ (fun q x => x ∈ v ∧
        q * w.sum ≤ (((v.zip w).filter fun p => p.1 ≤ x).map Prod.snd).sum ∧
        (∀ y ∈ v, q * w.sum ≤ (((v.zip w).filter fun p => p.1 ≤ y).map Prod.snd).sum → x ≤ y) ∧
        (q = 1 → ∀ y ∈ v, y ≤ x))
        levels xs := by
  have hn : ∀ a ∈ v.map (FX.fin : K → FX m), isNaN a = false := by
    intro a ha
    obtain ⟨x, _, rfl⟩ := List.mem_map.1 ha
    rfl
  have hvne := hv
  have hwne : w ≠ [] := by
    intro h
    rw [h] at hlen
    exact hv (List.eq_nil_of_length_eq_zero hlen)
  have hpos : 0 < w.sum := List.sum_pos w hw hwne
  obtain ⟨c, hc⟩ := percentiles_total hS hn (w := w.map FX.fin) (pcts := levels.map FX.fin)
    (by simp [hlen]) (by simpa using hvne) (by simpa using hne)
  obtain ⟨hsorted, -, -⟩ := percentiles_spec hS hn hc
  obtain ⟨cur, rest, v0, w0, tl, last, e, _, hp, hs, hl, ec⟩ := percentiles_form hS hn hc
  obtain ⟨q, qs, rfl⟩ : ∃ q qs, levels = q :: qs := List.exists_cons_of_ne_nil hne
  simp only [List.map_cons, List.cons.injEq] at e
  obtain ⟨rfl, rfl⟩ := e
  -- the sorted pairs
  have hzip : (v.map (FX.fin : K → FX m)).zip (w.map (FX.fin : K → FX m)) =
      (v.zip w).map fun a => (FX.fin a.1, FX.fin a.2) := by
    rw [List.zip_map]; rfl
  rw [hzip] at hp
  obtain ⟨all, hall, eall⟩ : ∃ all : List (K × K), all.Perm (v.zip w) ∧
      (v0, w0) :: tl = all.map fun a => ((FX.fin a.1 : FX m), (FX.fin a.2 : FX m)) := by
    have he := congrFun (congrFun (List.eq_map_comp_perm
      fun a : K × K => ((FX.fin a.1 : FX m), (FX.fin a.2 : FX m))) ((v0, w0) :: tl)) (v.zip w)
    obtain ⟨all, h1, h2⟩ := he.mpr hp
    exact ⟨all, h2, h1⟩
  have hsum : (all.map Prod.snd).sum = w.sum := by
    have := (hall.map Prod.snd).sum_eq
    rw [this, List.map_snd_zip hlen.ge]
  have hup : ∀ x, weightUpTo all x = (((v.zip w).filter fun p => p.1 ≤ x).map Prod.snd).sum :=
    fun x => ((hall.filter _).map _).sum_eq
  have hws : ∀ p ∈ all, 0 < p.2 := fun p hp => hw _ (List.of_mem_zip (hall.mem_iff.1 hp)).2
  have hs' : (all.map Prod.fst).Pairwise (· ≤ ·) := by
    rw [eall, List.map_map] at hs
    have := List.pairwise_map.1 hs
    refine List.pairwise_map.2 (this.imp fun h => ?_)
    simpa using h
  obtain ⟨a, ha, rfl⟩ : ∃ a, all.getLast? = some a ∧ last = FX.fin a.1 := by
    rw [eall, List.getLast?_map] at hl
    cases e : all.getLast? with
    | none => rw [e] at hl; simp at hl
    | some a => rw [e] at hl; exact ⟨a, rfl, by simpa using hl.symm⟩
  have htop := isPercentile_last ha hs' hws
  obtain ⟨xs, hxs, hf⟩ := pctLoop_top valueEmb_fin all a.1 hs' (fun p hp => (hws p hp).le) htop
    (by rw [hsum]; exact hpos) all [] v0 q qs [] rfl
    hinc h01 (.inl rfl)
  rw [C46_fast_sum_finite, ← hsum, eall] at ec
  simp only [List.map_nil, List.sum_nil, zero_div, List.nil_append] at hxs
  rw [FX.zero_def, hxs] at ec
  refine ⟨xs, by rw [hc, ec], ?_, ?_⟩
  · rw [ec] at hsorted
    refine (List.pairwise_map.1 hsorted).imp fun h => ?_
    simpa using h
  · refine hf.imp fun lv x hx => ?_
    obtain ⟨⟨wx, hmem⟩, h2, h3⟩ := hx
    rw [hsum, hup] at h2
    have hall' : ∀ y ∈ v, ∃ z, (y, z) ∈ all := fun y hy => by
      obtain ⟨i, hi, e⟩ := List.getElem_of_mem hy
      exact ⟨w[i]'(hlen ▸ hi), hall.mem_iff.2 (List.mem_iff_getElem.2 ⟨i, by simp [hi, hlen ▸ hi], by simp [e]⟩)⟩
    refine ⟨(List.of_mem_zip (hall.mem_iff.1 hmem)).1, h2, fun y hy h => ?_, fun e1 y hy => ?_⟩
    rotate_left
    · obtain ⟨z, hz⟩ := hall' y hy
      rw [e1, ← hup] at h2
      have hm := htop.least _ hmem (by rw [hsum]; exact h2)
      obtain ⟨pre, rfl⟩ := List.getLast?_eq_some_iff.1 ha
      refine le_trans ?_ hm
      rcases List.mem_append.1 hz with h | h
      · rw [List.map_append, List.pairwise_append] at hs'
        exact hs'.2.2 y (List.mem_map.2 ⟨_, h, rfl⟩) a.1 (by simp)
      · rw [← List.mem_singleton.1 h]
    obtain ⟨i, hi, e⟩ := List.getElem_of_mem hy
    have hy' : (y, w[i]'(hlen ▸ hi)) ∈ all :=
      hall.mem_iff.2 (List.mem_iff_getElem.2 ⟨i, by simp [hi, hlen ▸ hi], by simp [e]⟩)
    refine h3 _ hy' ?_
    rw [hsum, hup]; exact h

end exact

/-! ### The hypotheses are met, and what happens without them -/

/-- The values 3, 1, 2 with the weights 1, 1, 2 and the levels 0, 1/2, 1. -/
example : exSorter.Ok ∧ (∀ x ∈ [(1 : ℚ), 1, 2], 0 < x) ∧
    [(0 : ℚ), 1/2, 1].Pairwise (· < ·) ∧ (∀ x ∈ [(0 : ℚ), 1/2, 1], 0 ≤ x ∧ x ≤ 1) ∧
    percentiles exSorter [q 3, q 1, q 2] [q 1, q 1, q 2] [q 0, q (1/2), q 1] =
      .ok [q 1, q 2, q 3] := by
  refine ⟨exSorter_ok, by norm_num, by norm_num, by norm_num, ?_⟩
  decide +kernel

/-- C155: the levels have to differ.  The level 1 asked for twice is answered once if a value lies between the one
that reaches the earlier level and the last one, so the result is then shorter than the list of levels. -/
theorem C155_twice :
    percentiles exSorter [q 3, q 1, q 4, q 2] [q 1, q 1, q 1, q 1] [q (1/2), q 1, q 1] = .ok [q 2, q 4] ∧
    percentiles exSorter [q 3, q 1, q 2] [q 1, q 1, q 2] [q (1/2), q 1, q 1] = .ok [q 2, q 3, q 3] := by
  decide +kernel

/-- C155: the weights have to be positive.  The greatest value has no weight here: with the level 1 alone it is
returned though the value 2 already reaches all of the weight, and with the level 3/4 before it, it is not. -/
theorem C155_no_weight : percentiles exSorter [q 3, q 1, q 2] [q 0, q 1, q 1] [q 1] = .ok [q 3] ∧
    percentiles exSorter [q 3, q 1, q 2] [q 0, q 1, q 1] [q (3/4), q 1] = .ok [q 2, q 2] := by
  decide +kernel

end Verif
