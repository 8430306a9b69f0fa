import Verif.Proofs.Bins
import Verif.Proofs.Sum
import Mathlib.Tactic.FieldSimp
import Mathlib.Tactic.Linarith
import Mathlib.Tactic.Positivity
import Mathlib.Algebra.Order.BigOperators.Group.List

/-!
# The loop of the weighted percentiles in exact arithmetic
-/

namespace Verif

open scoped Verif

variable {K : Type} [Field K] [LinearOrder K] [IsStrictOrderedRing K] {m : Fmt K} [m.Exact]
  {V : Type} [LinearOrder V]

set_option linter.unusedSectionVars false

/-- Weight of the values that are at most `x`. -/
def weightUpTo (vals : List (V × K)) (x : V) : K := ((vals.filter fun p => p.1 ≤ x).map Prod.snd).sum

/-- `x` is the least value at which the share of the weight reaches `q`. -/
structure IsPercentile (vals : List (V × K)) (q : K) (x : V) : Prop where
  mem : ∃ w, (x, w) ∈ vals
  reached : q * (vals.map Prod.snd).sum ≤ weightUpTo vals x
  least : ∀ y ∈ vals, q * (vals.map Prod.snd).sum ≤ weightUpTo vals y.1 → x ≤ y.1

theorem pctWhile_exact (c : K) (v : FX m) : ∀ (qs : List K) (q : K) (p : List (FX m)),
    (pctWhile (FX.fin c) v (FX.fin q) (qs.map FX.fin) p =
        (p ++ (q :: qs).map (fun _ => v), none) ∧ ∀ x ∈ q :: qs, x ≤ c) ∨
    ∃ l1 q' qs', q :: qs = l1 ++ q' :: qs' ∧ (∀ x ∈ l1, x ≤ c) ∧ c < q' ∧
      pctWhile (FX.fin c) v (FX.fin q) (qs.map FX.fin) p =
        (p ++ l1.map (fun _ => v), some (FX.fin q', qs'.map FX.fin)) := by
  intro qs
  induction qs with
  | nil =>
    intro q p
    by_cases h : q ≤ c
    · left; simp [pctWhile, h]
    · right; exact ⟨[], q, [], rfl, by simp, not_le.1 h, by simp [pctWhile, h]⟩
  | cons n qs ih =>
    intro q p
    by_cases h : q ≤ c
    · rcases ih n (p ++ [v]) with ⟨h1, h2⟩ | ⟨l1, q', qs', e, h1, h2, h3⟩
      · left
        refine ⟨?_, ?_⟩
        · simp only [List.map_cons, pctWhile, FX.le_fin, h, decide_true, if_true]
          rw [h1]; simp
        · intro x hx
          rcases List.mem_cons.1 hx with hx | hx
          · rw [hx]; exact h
          · exact h2 x hx
      · right
        refine ⟨q :: l1, q', qs', by rw [e]; rfl, ?_, h2, ?_⟩
        · intro x hx
          rcases List.mem_cons.1 hx with hx | hx
          · rw [hx]; exact h
          · exact h1 x hx
        · simp only [List.map_cons, pctWhile, FX.le_fin, h, decide_true, if_true]
          rw [h3]; simp
    · right
      exact ⟨[], q, n :: qs, rfl, by simp, not_le.1 h, by simp [pctWhile, h]⟩

theorem sum_snd_nonneg {l : List (V × K)} (h : ∀ p ∈ l, 0 ≤ p.2) : 0 ≤ (l.map Prod.snd).sum := by
  apply List.sum_nonneg
  intro x hx
  obtain ⟨p, hp, rfl⟩ := List.mem_map.1 hx
  exact h p hp

/-- Rows up to and including `v` weigh at least as much as a prefix ending in `v`. -/
theorem weightUpTo_ge {pre l : List (V × K)} {v : V} {w : K}
    (hs : ((pre ++ (v, w) :: l).map Prod.fst).Pairwise (· ≤ ·)) (hw : ∀ p ∈ pre ++ (v, w) :: l, 0 ≤ p.2) :
    (pre.map Prod.snd).sum + w ≤ weightUpTo (pre ++ (v, w) :: l) v := by
  unfold weightUpTo
  rw [List.filter_append, List.filter_cons]
  have h1 : pre.filter (fun p => decide (p.1 ≤ v)) = pre := by
    rw [List.filter_eq_self]
    intro p hp
    rw [List.map_append, List.pairwise_append] at hs
    exact decide_eq_true (hs.2.2 p.1 (List.mem_map_of_mem hp) v (by simp))
  rw [h1]
  simp only [le_refl, decide_true, if_true, List.map_append, List.map_cons, List.sum_append,
    List.sum_cons]
  have := sum_snd_nonneg (l := l.filter fun p => decide (p.1 ≤ v)) (fun p hp =>
    hw p (List.mem_append_right _ (List.mem_cons_of_mem _ (List.mem_of_mem_filter hp))))
  linarith

/-- Values below `v` weigh at most as much as the prefix before `v`. -/
theorem weightUpTo_lt {pre l : List (V × K)} {v y : V} {w : K}
    (hs : ((pre ++ (v, w) :: l).map Prod.fst).Pairwise (· ≤ ·)) (hw : ∀ p ∈ pre ++ (v, w) :: l, 0 ≤ p.2)
    (hy : y < v) : weightUpTo (pre ++ (v, w) :: l) y ≤ (pre.map Prod.snd).sum := by
  unfold weightUpTo
  rw [List.filter_append]
  have h2 : ((v, w) :: l).filter (fun p => decide (p.1 ≤ y)) = [] := by
    rw [List.filter_eq_nil_iff]
    intro p hp
    have hvp : v ≤ p.1 := by
      rcases List.mem_cons.1 hp with h | h
      · rw [h]
      · rw [List.map_append, List.pairwise_append, List.map_cons, List.pairwise_cons] at hs
        exact hs.2.1.1 p.1 (List.mem_map_of_mem h)
    simp only [decide_eq_true_eq, not_le]
    exact lt_of_lt_of_le hy hvp
  rw [h2, List.append_nil]
  have : ((pre.filter fun p => decide (p.1 ≤ y)).map Prod.snd).Sublist (pre.map Prod.snd) :=
    List.filter_sublist.map _
  apply this.sum_le_sum
  intro a ha
  obtain ⟨p, hp, rfl⟩ := List.mem_map.1 ha
  exact hw p (List.mem_append_left _ hp)

theorem isPercentile_here {pre l : List (V × K)} {v : V} {w q : K}
    (hs : ((pre ++ (v, w) :: l).map Prod.fst).Pairwise (· ≤ ·)) (hw : ∀ p ∈ pre ++ (v, w) :: l, 0 ≤ p.2)
    (hq : q * ((pre ++ (v, w) :: l).map Prod.snd).sum ≤ (pre.map Prod.snd).sum + w)
    (hpre : pre = [] ∨ (pre.map Prod.snd).sum < q * ((pre ++ (v, w) :: l).map Prod.snd).sum) :
    IsPercentile (pre ++ (v, w) :: l) q v := by
  refine ⟨⟨w, by simp⟩, hq.trans (weightUpTo_ge hs hw), fun y hy h => ?_⟩
  by_contra hc
  have hc := not_le.1 hc
  have h2 := weightUpTo_lt hs hw hc
  rcases hpre with h0 | h0
  · subst h0
    simp only [List.nil_append, List.map_cons, List.pairwise_cons] at hs
    rcases List.mem_cons.1 hy with h | h
    · rw [h] at hc; exact lt_irrefl _ hc
    · exact absurd (hs.1 y.1 (List.mem_map_of_mem h)) (not_le.2 hc)
  · exact absurd (h.trans h2) (not_le.2 h0)

/-- A type of values inside the number type. -/
structure ValueEmb (emb : V → FX m) : Prop where
  le : ∀ a b, (emb a ≤ᶠ emb b) = decide (a ≤ b)
  eq : ∀ x v, (x =ᶠ emb v) = true → x = emb v

theorem valueEmb_fin : ValueEmb (m := m) FX.fin where
  le a b := FX.le_fin a b
  eq x v h := by cases x <;> simp_all [Fl.feq, FX.feq]

theorem pctLoop_exact {emb : V → FX m} (hE : ValueEmb emb) (all : List (V × K)) (last : FX m)
    (hs : (all.map Prod.fst).Pairwise (· ≤ ·)) (hw : ∀ p ∈ all, 0 ≤ p.2)
    (hT : 0 < (all.map Prod.snd).sum) : ∀ (l pre : List (V × K)) (cv : FX m) (q : K) (qs : List K)
      (p : List (FX m)), all = pre ++ l → (q :: qs).Pairwise (· ≤ ·) →
      (∀ x ∈ q :: qs, 0 ≤ x ∧ x < 1) →
      (pre = [] ∨ (pre.map Prod.snd).sum < q * (all.map Prod.snd).sum) →
      ∃ xs, pctLoop (FX.fin (all.map Prod.snd).sum) last
          (l.map fun a => (emb a.1, (FX.fin a.2 : FX m))) cv
          (FX.fin ((pre.map Prod.snd).sum / (all.map Prod.snd).sum)) (FX.fin q) (qs.map FX.fin) p =
          p ++ xs.map emb ∧ List.Forall₂ (IsPercentile all) (q :: qs) xs := by
  set T := (all.map Prod.snd).sum with hTd
  intro l
  induction l with
  | nil =>
    intro pre cv q qs p e hq hq1 hpre
    exfalso
    rw [List.append_nil] at e
    subst e
    rcases hpre with h | h
    · subst h; simp [hTd] at hT
    · have := (hq1 q (by simp)).2
      rw [← hTd] at h
      nlinarith
  | cons a l ih =>
    obtain ⟨v, w⟩ := a
    intro pre cv q qs p e hq hq1 hpre
    have hcv : (if (cv =ᶠ emb v) = true then cv else emb v) = emb v := by
      split
      · next h => exact hE.eq _ _ h
      · rfl
    have hcu : (FX.fin ((pre.map Prod.snd).sum / T) : FX m) + FX.fin w / FX.fin T =
        FX.fin (((pre ++ [(v, w)]).map Prod.snd).sum / T) := by
      rw [FX.fin_div _ _ hT.ne', FX.fin_add]
      simp [add_div]
    have hsum : ((pre ++ [(v, w)]).map Prod.snd).sum = (pre.map Prod.snd).sum + w := by simp
    have hw0 := hw
    rw [e] at hw0
    have hs0 := hs
    rw [e] at hs0
    have here : ∀ q, q ≤ ((pre ++ [(v, w)]).map Prod.snd).sum / T →
        (pre = [] ∨ (pre.map Prod.snd).sum < q * T) → IsPercentile all q v := by
      intro q h1 h2
      rw [le_div_iff₀ hT, hsum] at h1
      rw [hTd] at h1 h2
      rw [e] at h1 h2 ⊢
      exact isPercentile_here hs0 hw0 h1 h2
    simp only [List.map_cons, pctLoop, hcv, hcu]
    by_cases hle : q ≤ ((pre ++ [(v, w)]).map Prod.snd).sum / T
    · have hcond : ((FX.fin q : FX m) =ᶠ 0 ||
          (FX.fin q : FX m) ≤ᶠ FX.fin (((pre ++ [(v, w)]).map Prod.snd).sum / T)) = true := by
        rw [FX.le_fin, decide_eq_true hle, Bool.or_true]
      rw [if_pos hcond]
      rcases pctWhile_exact (m := m) (((pre ++ [(v, w)]).map Prod.snd).sum / T) (emb v) qs q p with
        ⟨h1, h2⟩ | ⟨l1, q', qs', e1, h1, h2, h3⟩
      · rw [h1]
        refine ⟨(q :: qs).map fun _ => v, by simp, ?_⟩
        rw [List.forall₂_map_right_iff, List.forall₂_same]
        intro x hx
        refine here x (h2 x hx) (hpre.imp_right fun h => lt_of_lt_of_le h ?_)
        rcases List.mem_cons.1 hx with hx | hx
        · rw [hx]
        · exact mul_le_mul_of_nonneg_right ((List.pairwise_cons.1 hq).1 x hx) hT.le
      · rw [h3]
        have hq' : (l1 ++ q' :: qs').Pairwise (· ≤ ·) := e1 ▸ hq
        rw [List.pairwise_append] at hq'
        obtain ⟨xs, hxs, hf⟩ := ih (pre ++ [(v, w)]) (emb v) q' qs'
          (p ++ l1.map fun _ => emb v) (by rw [e]; simp) hq'.2.1
          (fun x hx => hq1 x (by rw [e1]; exact List.mem_append_right _ hx))
          (.inr ((div_lt_iff₀ hT).1 h2))
        refine ⟨l1.map (fun _ => v) ++ xs, ?_, ?_⟩
        · simp only
          rw [hxs]
          simp
        · rw [e1]
          refine List.rel_append ?_ hf
          rw [List.forall₂_map_right_iff, List.forall₂_same]
          intro x hx
          refine here x (h1 x hx) (hpre.imp_right fun h => lt_of_lt_of_le h ?_)
          have : x ∈ q :: qs := by rw [e1]; exact List.mem_append_left _ hx
          rcases List.mem_cons.1 this with hx | hx
          · rw [hx]
          · exact mul_le_mul_of_nonneg_right ((List.pairwise_cons.1 hq).1 x hx) hT.le
    · have hlt := not_le.1 hle
      have h0 : 0 ≤ ((pre ++ [(v, w)]).map Prod.snd).sum / T :=
        div_nonneg (sum_snd_nonneg fun a ha => hw a (by
          rw [e]
          rcases List.mem_append.1 ha with h | h
          · exact List.mem_append_left _ h
          · exact List.mem_append_right _ (by rw [List.mem_singleton.1 h]; simp))) hT.le
      have hq0 : q ≠ 0 := (lt_of_le_of_lt h0 hlt).ne'
      have hcond : ¬ ((FX.fin q : FX m) =ᶠ 0 ||
          (FX.fin q : FX m) ≤ᶠ FX.fin (((pre ++ [(v, w)]).map Prod.snd).sum / T)) = true := by
        rw [FX.le_fin, decide_eq_false hle, FX.zero_def, FX.feq_fin, decide_eq_false hq0]; simp
      have h1 : ¬ ((FX.fin q : FX m) =ᶠ 1) = true := by
        rw [FX.one_def, FX.feq_fin]
        simpa using (hq1 q (by simp)).2.ne
      rw [if_neg hcond, if_neg h1]
      exact ih (pre ++ [(v, w)]) (emb v) q qs p (by rw [e]; simp) hq hq1
        (.inr ((div_lt_iff₀ hT).1 hlt))

end Verif
