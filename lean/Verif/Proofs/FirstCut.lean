import Verif.Proofs.Bins
import Verif.Props.Sums
import Mathlib.Algebra.Order.BigOperators.Group.List

/-!
# The first cut of a column in exact arithmetic

A column either has a first cut not above any of its values, or no cut but the final `f64::MAX`.
-/

namespace Verif

open scoped Verif

variable {K : Type} [Field K] [LinearOrder K] [IsStrictOrderedRing K] {m : Fmt K} [m.Exact]

set_option linter.unusedSectionVars false

/-- Finite weights that are not negative, and how the kept ones look. -/
theorem kept_weights {col : List (FX m)} {w : List K} (p : FX m × FX m → Bool)
    (hw0 : ∀ x ∈ w, 0 ≤ x) :
    ∃ ws : List K, ((col.zip (w.map (FX.fin : K → FX m))).filter p).map Prod.snd = ws.map FX.fin ∧
      ∀ x ∈ ws, 0 ≤ x := by
  have hgen : ∀ l : List (FX m × FX m), (∀ p ∈ l, ∃ x ∈ w, p.2 = FX.fin x) →
      ∃ ws : List K, l.map Prod.snd = ws.map FX.fin ∧ ∀ x ∈ ws, 0 ≤ x := by
    intro l
    induction l with
    | nil => intro _; exact ⟨[], rfl, by simp⟩
    | cons p l ih =>
      intro hl
      obtain ⟨ws, e, h0⟩ := ih fun q hq => hl q (by simp [hq])
      obtain ⟨x, hx, ex⟩ := hl p (by simp)
      refine ⟨x :: ws, by simp [ex, e], ?_⟩
      intro y hy
      rcases List.mem_cons.1 hy with hy | hy
      · rw [hy]; exact hw0 x hx
      · exact h0 y hy
  refine hgen _ fun q hq => ?_
  obtain ⟨x, hx, e⟩ := List.mem_map.1 (List.of_mem_zip (List.mem_of_mem_filter hq)).2
  exact ⟨x, hx, e.symm⟩

theorem sum_eq_zero_all {ws : List K} (h0 : ∀ x ∈ ws, 0 ≤ x) (hs : ws.sum = 0) : ∀ x ∈ ws, x = 0 := by
  intro x hx
  exact le_antisymm (hs ▸ List.single_le_sum h0 x hx) (h0 x hx)

/-- With a total weight of zero no level is reached. -/
theorem pctLoop_zero_total {last : FX m} : ∀ (l : List (FX m × FX m)) (cv cuml : FX m)
    (pcts p : List (FX m)), (∀ x ∈ l, x.2 = FX.fin 0) →
    pctLoop (FX.fin 0) last l cv cuml (FX.fin 0) pcts p = p := by
  intro l
  induction l with
  | nil => intro _ _ _ _ _; rfl
  | cons vw l ih =>
    obtain ⟨v, w⟩ := vw
    intro cv cuml pcts p hl
    have hw : w = FX.fin 0 := hl (v, w) (by simp)
    subst hw
    have hn : cuml + (FX.fin 0 : FX m) / FX.fin 0 = FX.nan := by
      have : (FX.fin 0 : FX m) / FX.fin 0 = FX.nan := by
        change FX.div (FX.fin 0) (FX.fin 0) = _
        simp [FX.div, FX.sinf]
      rw [this]
      cases cuml <;> rfl
    unfold pctLoop
    simp only [hn]
    rw [if_pos (by rw [FX.zero_def]; simp)]
    cases pcts with
    | nil =>
      have : pctWhile (FX.nan : FX m) (if (cv =ᶠ v) = true then cv else v) (FX.fin 0) [] p =
          (p, some (FX.fin 0, [])) := rfl
      rw [this]
      exact ih _ _ _ _ fun x hx => hl x (by simp [hx])
    | cons a b =>
      have : pctWhile (FX.nan : FX m) (if (cv =ᶠ v) = true then cv else v) (FX.fin 0) (a :: b) p =
          (p, some (FX.fin 0, a :: b)) := rfl
      rw [this]
      exact ih _ _ _ _ fun x hx => hl x (by simp [hx])

/-- If the column has a cut besides the final one, the first is not above any value. -/
theorem first_cut {S : Sorter} (hS : S.Ok) {col : List (FX m)} {w : List K} {nbins : Nat}
    {missing : FX m} {cuts : List (FX m)} (hlen : col.length ≤ w.length) (hw0 : ∀ x ∈ w, 0 ≤ x)
    (h : colCuts S col (w.map FX.fin) nbins missing = .ok cuts) (h2 : 2 ≤ cuts.length) :
    ∃ c0, cuts[0]? = some c0 ∧ ∀ v ∈ col, ¬ IsMissing missing v → (c0 ≤ᶠ v) = true := by
  have hlen' : col.length ≤ (w.map (FX.fin : K → FX m)).length := by simpa using hlen
  obtain ⟨ws, hws, hws0⟩ := kept_weights (col := col)
    (fun x => !decide (IsMissing missing x.1)) hw0
  have hsum : fastSum (((col.zip (w.map (FX.fin : K → FX m))).filter
      fun x => !decide (IsMissing missing x.1)).map Prod.snd) = (FX.fin ws.sum : FX m) := by
    rw [hws, C46_fast_sum_finite]
  rcases (List.sum_nonneg hws0).lt_or_eq with hpos | hzero
  · refine colCuts_first hS hlen' h fun hnb x hx => ?_
    have hx2 : x.2 ∈ ws.map (FX.fin : K → FX m) := hws ▸ List.mem_map.2 ⟨x, hx, rfl⟩
    obtain ⟨q, hq, e⟩ := List.mem_map.1 hx2
    have hnb' : (nbins : K) ≠ 0 := by exact_mod_cast hnb
    rw [hsum, ← e, FX.ofNat_eq, FX.ofNat_eq, FX.fin_div _ _ hnb', FX.fin_div _ _ hpos.ne',
      FX.zero_def, FX.fin_add, FX.le_fin]
    simp only [Nat.cast_zero, zero_div, zero_add, decide_eq_true_eq]
    exact div_nonneg (hws0 q hq) hpos.le
  · obtain ⟨h1, ws', c, hws', hc, rfl⟩ := colCuts_form hlen' h
    have hn : ∀ a ∈ present missing col, isNaN a = false := fun a ha =>
      num_of_not_missing (h1 a (mem_present.1 ha).1) (mem_present.1 ha).2
    rw [← List.head?_eq_getElem?, dedup_head?]
    obtain ⟨s, k1, k2, k3⟩ := sortPartialCmp_spec hS (id : FX m → FX m) _ hn
    unfold percentilesOrValue at hc
    rw [k1, Res.ok_bind] at hc
    simp only at hc
    split at hc
    · injection hc with hc
      subst hc
      cases s with
      | nil =>
        exfalso
        simp [dedupF, dedupF.go] at h2
      | cons a l =>
        refine ⟨a, by simp [dedupF], fun v hv hvm => ?_⟩
        rcases List.mem_cons.1 (k2.mem_iff.2 (mem_present.2 ⟨hv, hvm⟩)) with e | hx'
        · rw [e]; exact Fl.le_refl (hn a (k2.mem_iff.1 (by simp)))
        · exact (List.pairwise_cons.1 k3).1 v hx'
    · exfalso
      obtain ⟨cur, rest, v0, w0, tl, last, e, _, hp, _, _, rfl⟩ := percentiles_form hS hn hc
      have hcur : cur = FX.fin 0 := by
        cases nbins with
        | zero => simp [binPcts] at e
        | succ n =>
          simp only [binPcts, List.range_succ_eq_map, List.map_cons, List.cons.injEq] at e
          rw [← e.1, FX.ofNat_eq, FX.ofNat_eq, FX.fin_div _ _ (by exact_mod_cast Nat.succ_ne_zero n)]
          simp
      have hz : ∀ x ∈ (v0, w0) :: tl, x.2 = FX.fin 0 := by
        intro x hx
        have := (List.of_mem_zip (hp.mem_iff.1 hx)).2
        rw [hws', hws] at this
        obtain ⟨q, hq, e⟩ := List.mem_map.1 this
        rw [← e, sum_eq_zero_all hws0 hzero.symm q hq]
      have hf : fastSum ws' = (FX.fin 0 : FX m) := by rw [hws', hsum, ← hzero]
      rw [hf, hcur, pctLoop_zero_total _ _ _ _ _ hz] at h2
      simp [dedupF, dedupF.go] at h2

end Verif
