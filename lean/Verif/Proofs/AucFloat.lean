import Verif.Props.Auc
import Verif.Proofs.Grid
import Verif.Proofs.Rounds
import Mathlib.Tactic.Positivity

/-!
# The AUC in floating point arithmetic

With labels 0 and 1 and whole weights the sums and areas of `roc_auc_score` are multiples of one half; as long
as the format represents them, only the final division rounds.
-/

namespace Verif

open scoped Verif

set_option linter.unusedSectionVars false

section
variable {K : Type} [Field K] [LinearOrder K] [IsStrictOrderedRing K] {m : Fmt K} {N T : Nat}

/-- A row with a numeric score, label 0 or 1, and a whole weight. -/
structure ScoredRow.Whole (r : ScoredRow m) : Prop where
  num : isNaN r.score = false
  label : r.label = 0 ∨ r.label = 1
  weight : ∃ k : Nat, r.weight = k

theorem ScoredRow.Whole.ok {r : ScoredRow m} (h : r.Whole) : r.Ok where
  num := h.num
  label_nonneg := by rcases h.label with e | e <;> rw [e] <;> norm_num
  label_le := by rcases h.label with e | e <;> rw [e] <;> norm_num
  weight_nonneg := by obtain ⟨k, e⟩ := h.weight; rw [e]; positivity

theorem ScoredRow.Whole.pos_nat {r : ScoredRow m} (h : r.Whole) : ∃ k : Nat, r.pos = k := by
  obtain ⟨k, e⟩ := h.weight
  unfold ScoredRow.pos
  rcases h.label with e' | e'
  · exact ⟨0, by rw [e']; simp⟩
  · exact ⟨k, by rw [e', e]; simp⟩

theorem ScoredRow.Whole.neg_nat {r : ScoredRow m} (h : r.Whole) : ∃ k : Nat, r.neg = k := by
  obtain ⟨k, e⟩ := h.weight
  unfold ScoredRow.neg
  rcases h.label with e' | e'
  · exact ⟨k, by rw [e', e]; simp⟩
  · exact ⟨0, by rw [e']; simp⟩

theorem sum_nat {α : Type} {f : α → K} : ∀ {l : List α}, (∀ x ∈ l, ∃ k : Nat, f x = k) →
    ∃ k : Nat, (l.map f).sum = k
  | [], _ => ⟨0, by simp⟩
  | a :: l, h => by
    obtain ⟨i, hi⟩ := h a (by simp)
    obtain ⟨j, hj⟩ := sum_nat (l := l) fun x hx => h x (by simp [hx])
    exact ⟨i + j, by rw [List.map_cons, List.sum_cons, hi, hj]; push_cast; ring⟩

theorem twice_sum_nat {α : Type} {f : α → K} : ∀ {l : List α}, (∀ x ∈ l, ∃ k : Nat, 2 * f x = k) →
    ∃ k : Nat, 2 * (l.map f).sum = k
  | [], _ => ⟨0, by simp⟩
  | a :: l, h => by
    obtain ⟨i, hi⟩ := h a (by simp)
    obtain ⟨j, hj⟩ := twice_sum_nat (l := l) fun x hx => h x (by simp [hx])
    exact ⟨i + j, by rw [List.map_cons, List.sum_cons, mul_add, hi, hj]; push_cast; ring⟩

theorem posWeight_nat {l : List (ScoredRow m)} (h : ∀ r ∈ l, r.Whole) : ∃ k : Nat, posWeight l = k :=
  sum_nat fun r hr => (h r hr).pos_nat

theorem negWeight_nat {l : List (ScoredRow m)} (h : ∀ r ∈ l, r.Whole) : ∃ k : Nat, negWeight l = k :=
  sum_nat fun r hr => (h r hr).neg_nat

/-- Twice the number of correctly ranked pairs is whole. -/
theorem pairSum_nat {p n : List (ScoredRow m)} (hp : ∀ r ∈ p, r.Whole) (hn : ∀ r ∈ n, r.Whole) :
    ∃ k : Nat, 2 * pairSum p n = k := by
  have h : ∀ a ∈ p, ∃ k : Nat, 2 * (n.map fun b => a.pos * b.neg * pairValue a.score b.score).sum = k := by
    intro a ha
    refine twice_sum_nat fun b hb => ?_
    obtain ⟨i, hi⟩ := (hp a ha).pos_nat
    obtain ⟨j, hj⟩ := (hn b hb).neg_nat
    rw [hi, hj]
    unfold pairValue
    split
    · exact ⟨2 * (i * j), by push_cast; ring⟩
    · split
      · exact ⟨0, by push_cast; ring⟩
      · exact ⟨i * j, by push_cast; ring⟩
  unfold pairSum
  exact twice_sum_nat h

theorem half_grid {x : K} {n : Nat} (h : 2 * x = n) (hn : 2 * x ≤ N) : OnGrid (1 / 2) N x := by
  refine ⟨n, ?_, by rw [← h]; ring⟩
  rw [h] at hn
  exact_mod_cast hn

theorem nat_grid {x : K} {n : Nat} (h : x = n) (hn : 2 * x ≤ N) : OnGrid (1 / 2) N x :=
  half_grid (n := 2 * n) (by rw [h]; push_cast; ring) hn

theorem Fmt.Grid.mul (G : m.Grid (1 / 2) N) {a b : K} (h : OnGrid (1 / 2) N (a * b)) :
    (FX.fin a * FX.fin b : FX m) = FX.fin (a * b) := G.rd h

variable [hR : m.Rounds]

/-- One half, as the code writes it. -/
theorem Fmt.Grid.half (G : m.Grid (1 / 2) N) (hN : 1 ≤ N) : (1 / Fl.ofNat 2 : FX m) = FX.fin (1 / 2) := by
  have e : (Fl.ofNat 2 : FX m) = FX.fin 2 := by
    show (FX.rd ((2 : Nat) : K) : FX m) = _
    rw [FX.rd, show ((2 : Nat) : K) = 2 by norm_num, hR.two]
    rfl
  rw [e, FX.one_def]
  show FX.div (FX.fin 1) (FX.fin 2) = _
  rw [FX.div, if_neg (by norm_num)]
  exact G.rd ⟨1, hN, by norm_num⟩

theorem trapezoid_whole (G : m.Grid (1 / 2) N) (hN : 1 ≤ N) {x0 x1 y0 y1 : Nat} (h : x0 ≤ x1)
    (h1 : 2 * x1 ≤ N) (h2 : 2 * (y0 + y1) ≤ N) (h3 : 2 * ((x1 - x0) * (y0 + y1)) ≤ N) :
    trapezoidArea (FX.fin (x0 : K) : FX m) (FX.fin (x1 : K)) (FX.fin (y0 : K)) (FX.fin (y1 : K)) =
      FX.fin (((x1 : K) - x0) * (y0 + y1) * (1 / 2)) := by
  have hle : (x0 : K) ≤ x1 := by exact_mod_cast h
  have hc : ((x1 - x0 : Nat) : K) = (x1 : K) - x0 := by rw [Nat.cast_sub h]
  have e1 : (FX.fin (x0 : K) - FX.fin (x1 : K) : FX m) = FX.fin ((x0 : K) - x1) := by
    show (FX.rd ((x0 : K) + -(x1 : K)) : FX m) = _
    have := G.rd (x := (x1 : K) - x0) (nat_grid (n := x1 - x0) hc.symm (by
      have : 2 * (x1 - x0) ≤ N := by omega
      rw [← hc]; exact_mod_cast this))
    rw [show (x0 : K) + -(x1 : K) = -((x1 : K) - x0) by ring, FX.rd, hR.neg]
    rw [FX.rd] at this
    cases hz : m.rnd ((x1 : K) - x0) with
    | ninf => rw [hz] at this; cases this
    | pinf => rw [hz] at this; cases this
    | fin z =>
      rw [hz] at this
      cases this
      show FX.fin _ = _
      congr 1
      ring
  have e2 : (FX.fin (y0 : K) + FX.fin (y1 : K) : FX m) = FX.fin ((y0 : K) + y1) :=
    G.add (nat_grid (n := y0 + y1) (by push_cast; ring) (by exact_mod_cast h2))
  have e3 : |(x0 : K) - x1| = (x1 : K) - x0 := by rw [abs_of_nonpos (by linarith)]; ring
  have e4 : (FX.fin ((x1 : K) - x0) * FX.fin ((y0 : K) + y1) : FX m) =
      FX.fin (((x1 : K) - x0) * (y0 + y1)) :=
    G.mul (nat_grid (n := (x1 - x0) * (y0 + y1)) (by rw [← hc]; push_cast; ring) (by
      rw [← hc]; exact_mod_cast h3))
  unfold trapezoidArea
  rw [e1, e2, FX.abs_fin, e3, e4, G.half hN]
  refine G.mul (half_grid (n := (x1 - x0) * (y0 + y1)) (by rw [← hc]; push_cast; ring) ?_)
  rw [← hc]
  have : (x1 - x0) * (y0 + y1) ≤ N := by omega
  have := (Nat.cast_le (α := K)).2 this
  push_cast at this ⊢
  linarith

/-- The bounds that make everything representable: total weight at most `T`. -/
structure Fits (m : Fmt K) (N T : Nat) : Prop where
  grid : m.Grid (1 / 2) N
  square : T * T ≤ N
  four : 4 * T ≤ N
  two : 2 ≤ N

/-- The area of a group is exact. -/
theorem area_whole (hF : Fits m N T) {a g : List (ScoredRow m)} (ha : ∀ r ∈ a, r.Whole) (hg : ∀ r ∈ g, r.Whole)
    (hT : posWeight (a ++ g) + negWeight (a ++ g) ≤ T) :
    trapezoidArea (FX.fin (negWeight a) : FX m) (FX.fin (negWeight (a ++ g))) (FX.fin (posWeight a))
        (FX.fin (posWeight (a ++ g))) =
      FX.fin ((negWeight (a ++ g) - negWeight a) * (posWeight a + posWeight (a ++ g)) * (1 / 2)) := by
  obtain ⟨na, e1⟩ := negWeight_nat ha
  obtain ⟨pa, e2⟩ := posWeight_nat ha
  obtain ⟨ng, e3⟩ := negWeight_nat hg
  obtain ⟨pg, e4⟩ := posWeight_nat hg
  rw [posWeight_append, negWeight_append, e1, e2, e3, e4] at hT ⊢
  have hT' : pa + pg + (na + ng) ≤ T := by exact_mod_cast hT
  have h1 := hF.square
  have h2 := hF.four
  have := trapezoid_whole hF.grid (le_trans (by norm_num) hF.two) (x0 := na) (x1 := na + ng) (y0 := pa) (y1 := pa + pg) (by omega)
    (by omega) (by omega) (by
      rw [Nat.add_sub_cancel_left]
      have : 4 * ((pa + pg) * ng) ≤ T * T := by nlinarith [sq_nonneg ((pa : ℤ) + pg - ng)]
      nlinarith)
  push_cast at this
  exact this

/-- What one row adds. -/
theorem row_whole (hF : Fits m N T) {r : ScoredRow m} (hr : r.Whole) (hT : r.weight ≤ T) :
    ((1 - FX.fin r.label) * FX.fin r.weight : FX m) = FX.fin r.neg ∧
    (FX.fin r.label * FX.fin r.weight : FX m) = FX.fin r.pos := by
  obtain ⟨k, e3⟩ := hr.weight
  have hN' : (2 : K) ≤ N := by exact_mod_cast hF.two
  have one : (FX.fin 1 - FX.fin 0 : FX m) = FX.fin 1 := by
    have := hF.grid.sub (a := 1) (b := 0) (nat_grid (n := 1) (by norm_num) (by linarith))
    rwa [sub_zero] at this
  have zero : (FX.fin 1 - FX.fin 1 : FX m) = FX.fin 0 := by
    have := hF.grid.sub (a := 1) (b := 1) (nat_grid (n := 0) (by norm_num) (by linarith))
    rwa [sub_self] at this
  have hk' : (4 : K) * k ≤ N := by
    have : ((4 * T : Nat) : K) ≤ N := by exact_mod_cast hF.four
    push_cast at this
    linarith
  have hk0 : (0 : K) ≤ k := Nat.cast_nonneg k
  have mul0 : (FX.fin 0 * FX.fin (k : K) : FX m) = FX.fin 0 := by
    have := hF.grid.mul (a := 0) (b := (k : K)) (nat_grid (n := 0) (by simp) (by linarith))
    rwa [zero_mul] at this
  have mul1 : (FX.fin 1 * FX.fin (k : K) : FX m) = FX.fin (k : K) := by
    have := hF.grid.mul (a := 1) (b := (k : K)) (nat_grid (n := k) (by simp) (by linarith))
    rwa [one_mul] at this
  unfold ScoredRow.neg ScoredRow.pos
  rw [e3, FX.one_def]
  rcases hr.label with e | e <;> rw [e]
  · rw [one, mul0, mul1]
    simp
  · rw [zero, mul0, mul1]
    simp

/-- Labels and weights of one row. -/
theorem step_whole (hF : Fits m N T) {a : List (ScoredRow m)} {r : ScoredRow m} (ha : ∀ r ∈ a, r.Whole)
    (hr : r.Whole) (hT : posWeight (a ++ [r]) + negWeight (a ++ [r]) ≤ T) :
    (FX.fin (negWeight a) + (1 - FX.fin r.label) * FX.fin r.weight : FX m) = FX.fin (negWeight (a ++ [r])) ∧
    (FX.fin (posWeight a) + FX.fin r.label * FX.fin r.weight : FX m) = FX.fin (posWeight (a ++ [r])) := by
  have h3 := posWeight_nonneg fun r hr => (ha r hr).ok
  have h4 := negWeight_nonneg fun r hr => (ha r hr).ok
  have hP : posWeight (a ++ [r]) = posWeight a + r.pos := by
    rw [posWeight_append]; simp [posWeight]
  have hQ : negWeight (a ++ [r]) = negWeight a + r.neg := by
    rw [negWeight_append]; simp [negWeight]
  have hw : r.pos + r.neg = r.weight := by unfold ScoredRow.pos ScoredRow.neg; ring
  obtain ⟨f1, f2⟩ := row_whole hF hr (by rw [hP, hQ] at hT; linarith)
  have hT4 : ((4 * T : Nat) : K) ≤ N := by exact_mod_cast hF.four
  push_cast at hT4
  have hag : ∀ x ∈ a ++ [r], x.Whole := fun x hx => (List.mem_append.1 hx).elim (ha x) fun h => by
    rw [List.mem_singleton.1 h]; exact hr
  obtain ⟨i, hi⟩ := negWeight_nat hag
  obtain ⟨j, hj⟩ := posWeight_nat hag
  have h5 := hr.ok.pos_nonneg
  have h6 := hr.ok.neg_nonneg
  rw [f1, f2]
  refine ⟨?_, ?_⟩
  · rw [hQ]
    exact hF.grid.add (nat_grid (n := i) (by rw [← hQ, hi]) (by linarith))
  · rw [hP]
    exact hF.grid.add (nat_grid (n := j) (by rw [← hP, hj]) (by linarith))

/-- The area so far plus the next one. -/
theorem sum_whole (hF : Fits m N T) {a g : List (ScoredRow m)} {v : FX m} (ha : ∀ r ∈ a, r.Whole)
    (hg : ∀ r ∈ g, r.Whole) (hgv : ∀ x ∈ g, x.score = v) (hav : ∀ x ∈ a, (v <ᶠ x.score) = true)
    (hT : posWeight (a ++ g) + negWeight (a ++ g) ≤ T) :
    (FX.fin (pairSum a a) + trapezoidArea (FX.fin (negWeight a)) (FX.fin (negWeight (a ++ g)))
        (FX.fin (posWeight a)) (FX.fin (posWeight (a ++ g))) : FX m) = FX.fin (pairSum (a ++ g) (a ++ g)) := by
  have hag : ∀ r ∈ a ++ g, r.Whole := fun r hr => (List.mem_append.1 hr).elim (ha r) (hg r)
  have e : pairSum a a + (negWeight (a ++ g) - negWeight a) * (posWeight a + posWeight (a ++ g)) * (1 / 2) =
      pairSum (a ++ g) (a ++ g) := by
    rw [pairSum_group hgv hav, negWeight_append]
    ring
  rw [area_whole hF ha hg hT, ← e]
  obtain ⟨n, hn⟩ := pairSum_nat hag hag
  refine hF.grid.add (half_grid (n := n) (by rw [e, hn]) ?_)
  rw [e]
  have h1 := (pairSum_le (fun r hr => (hag r hr).ok) (fun r hr => (hag r hr).ok)).2
  have h2 := posWeight_nonneg fun r hr => (hag r hr).ok
  have h3 := negWeight_nonneg fun r hr => (hag r hr).ok
  have h4 : ((T * T : Nat) : K) ≤ N := by exact_mod_cast hF.square
  push_cast at h4
  nlinarith [sq_nonneg (posWeight (a ++ g) - negWeight (a ++ g))]

theorem score_eq {a b : FX m} (h : (a =ᶠ b) = true) : a = b := by
  cases a <;> cases b <;> simp_all [Fl.feq, FX.feq]

/-- The loop, after the rows `a` with higher scores and the rows `g` with score `v`. -/
theorem aucLoop_whole (hF : Fits m N T) (l a g : List (ScoredRow m)) (v : FX m)
    (hw : ∀ r ∈ a ++ g ++ l, r.Whole) (hT : posWeight (a ++ g ++ l) + negWeight (a ++ g ++ l) ≤ T)
    (hg : ∀ x ∈ g, x.score = v) (ha : ∀ x ∈ a, (v <ᶠ x.score) = true)
    (hv : isNaN v = false) (hle : ∀ x ∈ l, (x.score ≤ᶠ v) = true)
    (hs : l.Pairwise fun x y => (y.score ≤ᶠ x.score) = true) :
    ∃ s : AucState (FX m), aucLoop (l.map ScoredRow.toTriple) v
        { auc := FX.fin (pairSum a a), fp := FX.fin (negWeight (a ++ g)), tp := FX.fin (posWeight (a ++ g))
          fpPrev := FX.fin (negWeight a), tpPrev := FX.fin (posWeight a) } = s ∧
      s.auc + trapezoidArea s.fpPrev s.fp s.tpPrev s.tp =
        FX.fin (pairSum (a ++ g ++ l) (a ++ g ++ l)) ∧
      s.fp = FX.fin (negWeight (a ++ g ++ l)) ∧ s.tp = FX.fin (posWeight (a ++ g ++ l)) := by
  induction l generalizing a g v with
  | nil =>
    refine ⟨_, rfl, ?_, by simp [aucLoop], by simp [aucLoop]⟩
    rw [List.append_nil] at hw hT ⊢
    exact sum_whole hF (fun r hr => hw r (by simp [hr])) (fun r hr => hw r (by simp [hr])) hg ha hT
  | cons r l ih =>
    obtain ⟨hs1, hs2⟩ := List.pairwise_cons.1 hs
    have hr : r.Whole := hw r (by simp)
    have hrv := hle r (by simp)
    have hl : ∀ x ∈ l, x.Whole := fun x hx => hw x (by simp [hx])
    have e : a ++ g ++ r :: l = a ++ g ++ [r] ++ l := by simp
    rw [e] at hT hw ⊢
    have hmono : ∀ p s : List (ScoredRow m), (∀ x ∈ s, x.Whole) → posWeight (p ++ s) + negWeight (p ++ s) ≤ T →
        posWeight p + negWeight p ≤ T := by
      intro p s h1 h2
      have h3 := posWeight_nonneg fun r hr => (h1 r hr).ok
      have h4 := negWeight_nonneg fun r hr => (h1 r hr).ok
      rw [posWeight_append, negWeight_append] at h2
      linarith
    have hT1 := hmono _ _ hl hT
    have hT2 := hmono _ [r] (fun x hx => by rw [List.mem_singleton.1 hx]; exact hr) hT1
    obtain ⟨hstep, hstep'⟩ := step_whole hF (a := a ++ g) (r := r) (fun x hx => hw x (by
      rw [List.append_assoc]; exact List.mem_append_left _ hx)) hr hT1
    rw [List.map_cons, show r.toTriple = (r.score, FX.fin r.label, FX.fin r.weight) from rfl, aucLoop]
    dsimp only
    by_cases he : (r.score =ᶠ v) = true
    · have hrv' : r.score = v := score_eq he
      have := ih a (g ++ [r]) v (by rw [← List.append_assoc]; exact hw)
        (by rw [← List.append_assoc]; exact hT)
        (by
          intro x hx
          rcases List.mem_append.1 hx with h | h
          · exact hg x h
          · rw [List.mem_singleton.1 h]; exact hrv')
        ha hv (fun x hx => hle x (by simp [hx])) hs2
      rw [← List.append_assoc] at this
      simp only [he, Bool.not_true, Bool.false_eq_true, if_false, hstep, hstep']
      rw [hrv']
      exact this
    · have hlt : (r.score <ᶠ v) = true := by
        have h1 := (Fl.OrdLaws.le_iff _ _ hr.num hv).1 hrv
        cases h : (r.score <ᶠ v) with
        | true => rfl
        | false => exact absurd ((Fl.OrdLaws.feq_iff _ _ hr.num hv).2 ⟨h, h1⟩) he
      have := ih (a ++ g) [r] r.score hw hT
        (by
          intro x hx
          rw [List.mem_singleton.1 hx])
        (by
          intro x hx
          rcases List.mem_append.1 hx with h | h
          · exact Fl.OrdLaws.lt_trans _ _ _ hlt (ha x h)
          · rw [hg x h]; exact hlt)
        hr.num hs1 hs2
      have harea := sum_whole hF (a := a) (g := g) (fun x hx => hw x (by simp [hx]))
        (fun x hx => hw x (by simp [hx])) hg ha hT2
      rw [Bool.not_eq_true] at he
      simp only [he, Bool.not_false, if_true, hstep, hstep', harea]
      exact this

end

end Verif
