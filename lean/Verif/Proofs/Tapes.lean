import Verif.Spec.Tapes
import Verif.Proofs.Sampling
import Verif.Proofs.TotalFit
import Mathlib.Tactic.FieldSimp
import Mathlib.Tactic.Ring
import Mathlib.Tactic.Linarith

/-!
# Lemmas about averages over all outcomes
-/

namespace Verif

set_option linter.unusedSectionVars false

open scoped Verif

section
variable {K : Type} [Field K]

theorem length_tapes (M : Nat) (n : Nat) : (tapes M n : List (List K)).length = M ^ n := by
  induction n with
  | zero => rfl
  | succ n ih =>
    simp [tapes, List.length_flatMap, ih, pow_succ, Nat.mul_comm]

theorem tapes_mem_length {M n : Nat} {t : List K} (h : t ∈ (tapes M n : List (List K))) :
    t.length = n := by
  induction n generalizing t with
  | zero => simp [tapes] at h; simp [h]
  | succ n ih =>
    simp only [tapes, List.mem_flatMap, List.mem_map] at h
    obtain ⟨_, _, t', h', rfl⟩ := h
    simp [ih h']

theorem sum_flatMap {α β : Type} (f : α → K) (l : List β) (g : β → List α) :
    ((l.flatMap g).map f).sum = (l.map fun b => ((g b).map f).sum).sum := by
  induction l with
  | nil => simp
  | cons b l ih => simp [ih]

theorem sum_add_map {α : Type} (f g : α → K) (l : List α) :
    (l.map fun x => f x + g x).sum = (l.map f).sum + (l.map g).sum := by
  induction l with
  | nil => simp
  | cons b l ih => simp only [List.map_cons, List.sum_cons, ih]; ring

theorem sum_const_map {α : Type} (c : K) (l : List α) : (l.map fun _ => c).sum = l.length * c := by
  induction l with
  | nil => simp
  | cons b l ih => simp only [List.map_cons, List.sum_cons, ih, List.length_cons]; push_cast; ring

theorem sum_mul_map {α : Type} (c : K) (f : α → K) (l : List α) :
    (l.map fun x => c * f x).sum = c * (l.map f).sum := by
  induction l with
  | nil => simp
  | cons b l ih => simp only [List.map_cons, List.sum_cons, ih]; ring

theorem sum_ite_map {α : Type} (P : α → Prop) [DecidablePred P] (c : K) (l : List α) :
    (l.map fun x => if P x then c else 0).sum = (l.filter fun x => decide (P x)).length * c := by
  induction l with
  | nil => simp
  | cons b l ih =>
    simp only [List.map_cons, List.sum_cons, ih, List.filter_cons]
    by_cases h : P b
    · simp [h]; ring
    · simp [h]

variable [LinearOrder K]

/-- The total over all sequences of the sum over the elements drawn. -/
theorem sum_tapes {α : Type} (M : Nat) (p : K) (f : α → K) (n : Nat) (l : List α)
    (h : l.length ≤ n) :
    ((tapes M n : List (List K)).map fun t => ((pickBy (fun x => decide (x < p)) l t).map f).sum).sum * M =
      (M : K) ^ n * below M p * (l.map f).sum := by
  induction n generalizing l with
  | zero =>
    have : l = [] := List.length_eq_zero_iff.1 (by omega)
    subst this
    simp [tapes, pickBy]
  | succ n ih =>
    cases l with
    | nil => simp [pickBy]
    | cons a l =>
      have hl := ih l (by simpa using h)
      rw [tapes, sum_flatMap]
      have : ∀ u : Nat, (((tapes M n : List (List K)).map fun t => ((u : K) / M) :: t).map
          fun t => ((pickBy (fun x => decide (x < p)) (a :: l) t).map f).sum).sum =
          (if ((u : K) / M) < p then (M : K) ^ n * f a else 0) +
          ((tapes M n : List (List K)).map
            fun t => ((pickBy (fun x => decide (x < p)) l t).map f).sum).sum := by
        intro u
        rw [List.map_map]
        by_cases hu : ((u : K) / M) < p
        · rw [if_pos hu, ← Nat.cast_pow, ← length_tapes (K := K) M n, ← sum_const_map, ← sum_add_map]
          congr 1
          refine List.map_congr_left fun t _ => ?_
          simp [pickBy_cons, hu]
        · rw [if_neg hu, zero_add]
          congr 1
          refine List.map_congr_left fun t _ => ?_
          simp [pickBy_cons, hu]
      rw [List.map_congr_left (fun u _ => this u), sum_add_map, sum_ite_map, sum_const_map,
        List.length_range, add_mul, mul_assoc (M : K), hl]
      simp only [List.map_cons, List.sum_cons, below]
      ring

/-- The average over all sequences of the sum over the elements drawn. -/
theorem mean_tapes [IsStrictOrderedRing K] {α : Type} {M : Nat} (hM : 0 < M) (p : K) (f : α → K)
    (n : Nat) (l : List α) (h : l.length ≤ n) :
    meanOf (fun t => ((pickBy (fun x => decide (x < p)) l t).map f).sum) (tapes M n : List (List K)) =
      (below M p : K) / M * (l.map f).sum := by
  have h1 := sum_tapes M p f n l h
  have h2 : (M : K) ≠ 0 := by exact_mod_cast hM.ne'
  rw [meanOf, length_tapes]
  push_cast
  rw [div_eq_iff (pow_ne_zero _ h2)]
  field_simp
  rw [h1]; ring

theorem meanOf_congr {α : Type} {f g : α → K} {l : List α} (h : ∀ x ∈ l, f x = g x) :
    meanOf f l = meanOf g l := by
  rw [meanOf, meanOf, List.map_congr_left h]

theorem meanOf_affine {α : Type} [IsStrictOrderedRing K] (c d : K) (f : α → K) {l : List α}
    (h : l ≠ []) : meanOf (fun x => c + d * f x) l = c + d * meanOf f l := by
  have h2 : (l.length : K) ≠ 0 := by
    have : 0 < l.length := List.length_pos_iff.2 h
    exact_mod_cast this.ne'
  rw [meanOf, meanOf, sum_add_map, sum_const_map, sum_mul_map]
  field_simp

theorem tapes_ne_nil {M : Nat} (hM : 0 < M) (n : Nat) : (tapes M n : List (List K)) ≠ [] := by
  rw [← List.length_pos_iff, length_tapes]
  exact Nat.pow_pos hM

/-- The share of numbers below `p` is `p`, up to one number. -/
theorem below_le [IsStrictOrderedRing K] {M : Nat} (hM : 0 < M) {p : K} (h0 : 0 ≤ p) (h1 : p ≤ 1) :
    p ≤ (below M p : K) / M ∧ (below M p : K) / M < p + 1 / M := by
  have hm : (0 : K) < M := by exact_mod_cast hM
  -- the numbers below `p` are an initial segment
  have key : ∀ N : Nat, N ≤ M →
      ∃ c, ((List.range N).filter fun u : Nat => decide ((u : K) / (M : K) < p)).length = c ∧
        c ≤ N ∧ (∀ u < c, (u : K) < p * M) ∧ (c < N → p * M ≤ (c : K)) := by
    intro N
    induction N with
    | zero => intro _; exact ⟨0, rfl, le_refl _, by omega, by omega⟩
    | succ N ih =>
      intro hN
      obtain ⟨c, e1, e2, e3, e4⟩ := ih (by omega)
      rw [List.range_succ, List.filter_append, List.length_append, e1]
      by_cases hlt : (N : K) / M < p
      · have hlt' : (N : K) < p * M := (div_lt_iff₀ hm).1 hlt
        have hcN : c = N := by
          by_contra hne
          have := e4 (by omega)
          have : (c : K) < N := by exact_mod_cast (show c < N by omega)
          linarith
        subst hcN
        refine ⟨c + 1, by simp [hlt], le_refl _, ?_, by omega⟩
        intro u hu
        have : (u : K) ≤ c := by exact_mod_cast (show u ≤ c by omega)
        linarith
      · have hge : p * M ≤ (N : K) := by
          rw [div_lt_iff₀ hm] at hlt; exact not_lt.1 hlt
        refine ⟨c, by simp [hlt], by omega, e3, ?_⟩
        intro _
        rcases Nat.lt_or_ge c N with h | h
        · exact e4 h
        · have : c = N := by omega
          rw [this]; exact hge
  obtain ⟨c, e1, e2, e3, e4⟩ := key M (le_refl _)
  have hb : below M p = c := e1
  rw [hb]
  constructor
  · rw [le_div_iff₀ hm]
    rcases Nat.lt_or_ge c M with h | h
    · exact e4 h
    · have : c = M := by omega
      rw [this]
      nlinarith
  · rw [div_lt_iff₀ hm, add_mul, one_div, inv_mul_cancel₀ hm.ne']
    rcases Nat.eq_zero_or_pos c with h | h
    · rw [h]; push_cast
      nlinarith [mul_nonneg h0 hm.le]
    · have := e3 (c - 1) (by omega)
      have hc : ((c - 1 : Nat) : K) = (c : K) - 1 := by
        rw [Nat.cast_sub (by omega)]; simp
      rw [hc] at this
      linarith

theorem below_nat [IsStrictOrderedRing K] {M : Nat} (hM : 0 < M) {p : K} (h0 : 0 ≤ p) (h1 : p ≤ 1)
    {c : Nat} (hc : p * M = c) : (below M p : K) / M = p := by
  have hm : (0 : K) < M := by exact_mod_cast hM
  obtain ⟨a, b⟩ := below_le hM h0 h1
  rw [le_div_iff₀ hm, hc] at a
  rw [div_lt_iff₀ hm, add_mul, one_div, inv_mul_cancel₀ hm.ne', hc] at b
  have a' : c ≤ below M p := by exact_mod_cast a
  have b' : below M p < c + 1 := by exact_mod_cast b
  have : below M p = c := by omega
  rw [this, ← hc]
  field_simp

end

section
variable {K : Type} [Field K] [LinearOrder K] [IsStrictOrderedRing K] {m32 m64 : Fmt K}

theorem draws_tapeD (t : List K) (n : Nat) (h : n ≤ t.length) :
    draws (tapeRng (m32 := m32) (m64 := m64)).genD t n = (t.take n).map FX.fin := by
  induction n generalizing t with
  | zero => simp [draws]
  | succ n ih =>
    cases t with
    | nil => simp at h
    | cons x t =>
      rw [List.take_succ_cons, List.map_cons]
      exact congrArg _ (ih t (by simpa using h))

theorem draws_tapeF (t : List K) (n : Nat) (h : n ≤ t.length) :
    draws (tapeRng (m32 := m32) (m64 := m64)).genF t n = (t.take n).map FX.fin := by
  induction n generalizing t with
  | zero => simp [draws]
  | succ n ih =>
    cases t with
    | nil => simp at h
    | cons x t =>
      rw [List.take_succ_cons, List.map_cons]
      exact congrArg _ (ih t (by simpa using h))

theorem pickBy_take {α T : Type} (test : T → Bool) (l : List α) (xs : List T) {n : Nat}
    (h : l.length ≤ n) : pickBy test l (xs.take n) = pickBy test l xs := by
  unfold pickBy
  congr 2
  induction l generalizing xs n with
  | nil => simp
  | cons a l ih =>
    cases xs with
    | nil => simp
    | cons x xs =>
      cases n with
      | zero => simp at h
      | succ n => simp [ih xs (by simpa using h)]

theorem pickBy_map {α T U : Type} (test : T → Bool) (g : U → T) (l : List α) (xs : List U) :
    pickBy test l (xs.map g) = pickBy (fun x => test (g x)) l xs := by
  induction l generalizing xs with
  | nil => simp [pickBy]
  | cons a l ih =>
    cases xs with
    | nil => simp [pickBy]
    | cons x xs => rw [List.map_cons, pickBy_cons, pickBy_cons, ih]

/-- GOSS with a given sequence of numbers: the order of the rows does not depend on the sequence. -/
theorem gossSample_tape [m32.Exact] [m64.Exact] {S : Sorter} (hS : S.Ok) {a b : K} (hb : b ≠ 0)
    {index : List Nat} {grad hess : List (FX m32)} (hg : index.length ≤ grad.length)
    (hh : index.length ≤ hess.length) (hk : m64.toNatF (a * index.length) ≤ index.length) :
    ∃ order : List Nat, order.Perm (List.range index.length) ∧
      order.Pairwise (fun i j => ∃ x y, grad[i]? = some x ∧ grad[j]? = some y ∧
        Fl.tle (Fl.abs y) (Fl.abs x) = true) ∧
      ∀ t : List K, t.length = index.length → ∃ grad' hess' t',
        gossSample S tapeRng (FX.fin a : FX m64) (FX.fin b) t index grad hess =
          .ok (order.take (m64.toNatF (a * index.length)) ++
            pickBy (fun x => decide (x < (m64.toNatF (b * index.length) : K) /
              ((index.length : K) - (m64.toNatF (a * index.length) : K))))
              (order.drop (m64.toNatF (a * index.length))) t, grad', hess', t') ∧
        (∀ i ∈ pickBy (fun x => decide (x < (m64.toNatF (b * index.length) : K) /
              ((index.length : K) - (m64.toNatF (a * index.length) : K))))
              (order.drop (m64.toNatF (a * index.length))) t, ∃ x y, grad[i]? = some x ∧
          hess[i]? = some y ∧ grad'[i]? = some (x * FX.fin ((1 - a) / b)) ∧
          hess'[i]? = some (y * FX.fin ((1 - a) / b))) ∧
        ∀ i, i ∉ pickBy (fun x => decide (x < (m64.toNatF (b * index.length) : K) /
              ((index.length : K) - (m64.toNatF (a * index.length) : K))))
              (order.drop (m64.toNatF (a * index.length))) t →
          grad'[i]? = grad[i]? ∧ hess'[i]? = hess[i]? := by
  set n := index.length with hn
  set k := m64.toNatF (a * n) with hkd
  obtain ⟨keys, hkeys⟩ := Res.mapM'_exists (l := List.range n) (f := fun i => do
      let x ← idx grad i
      pure (i, Fl.abs x)) (fun i hi => by
    have : i < grad.length := lt_of_lt_of_le (List.mem_range.1 hi) hg
    rw [idx_of_lt this]; exact ⟨_, rfl⟩)
  obtain ⟨k1, k2⟩ := keys_eq hkeys
  set sk := S.sort (fun p q : Nat × FX m32 => Fl.tle q.2 p.2) keys with hsk
  have hp : sk.Perm keys := hS.perm _ keys
  have hperm : (sk.map Prod.fst).Perm (List.range n) := by rw [← k1]; exact hp.map _
  have hlen : (sk.map Prod.fst).length = n := by rw [hperm.length_eq, List.length_range]
  have hnd : (sk.map Prod.fst).Nodup := hperm.nodup_iff.2 List.nodup_range
  have hpw : sk.Pairwise (fun p q => Fl.tle q.2 p.2 = true) :=
    hS.sorted _ _ (fun a _ b _ c _ e1 e2 => Fl.TotLaws.trans _ _ _ e2 e1)
      (fun a _ b _ => Fl.TotLaws.total _ _)
  refine ⟨sk.map Prod.fst, hperm, ?_, ?_⟩
  · rw [List.pairwise_map]
    refine hpw.imp_of_mem fun {p q} hp' hq' h => ?_
    obtain ⟨x, e1, e2⟩ := k2 p (hp.subset hp')
    obtain ⟨y, e3, e4⟩ := k2 q (hp.subset hq')
    exact ⟨x, y, e1, e3, by rw [← e2, ← e4]; exact h⟩
  · intro t htl
    have hu := (slice_eq_ok (l := sk.map Prod.fst) (i := 0) (j := k)).2
      ⟨Nat.zero_le _, by rw [hlen]; exact hk, rfl⟩
    obtain ⟨⟨u, g', h', r'⟩, hx⟩ := gossLoop_total (g := tapeRng (m32 := m32) (m64 := m64))
      (fact := FX.fin ((1 - a) / b))
      (ss := (FX.fin (m64.toNatF (b * n) : K) / (FX.fin (n : K) - FX.fin (k : K)) : FX m64))
      ((sk.map Prod.fst).drop k) t grad hess (fun i hi => by
        have := List.mem_range.1 (hperm.mem_iff.1 (List.mem_of_mem_drop hi))
        exact ⟨lt_of_lt_of_le this hg, lt_of_lt_of_le this hh⟩)
    obtain ⟨c1, _, _, c4, c5⟩ := gossLoop_ok (hnd.sublist (List.drop_sublist _ _)) hx
    have hpick : u = pickBy (fun x => decide (x < (m64.toNatF (b * n) : K) / ((n : K) - (k : K))))
        ((sk.map Prod.fst).drop k) t := by
      rw [c1, draws_tapeD _ _ (by rw [List.length_drop, hlen, htl]; omega), pickBy_map]
      rcases Nat.lt_or_ge k n with hlt | hge
      · have hne : (n : K) - (k : K) ≠ 0 := by
          have : (k : K) < n := by exact_mod_cast hlt
          exact (sub_pos.2 this).ne'
        rw [pickBy_take _ _ _ (le_refl _)]
        simp [FX.fin_div _ _ hne]
      · have : (sk.map Prod.fst).drop k = [] := List.drop_eq_nil_of_le (by rw [hlen]; exact hge)
        rw [this]; rfl
    subst hpick
    refine ⟨g', h', r', ?_, c4, c5⟩
    have e1 : (Fl.toNat ((FX.fin a : FX m64) * Fl.ofNat n)) = k := by
      rw [FX.ofNat_eq, FX.fin_mul]; rfl
    have e2 : (Fl.toNat ((FX.fin b : FX m64) * Fl.ofNat n)) = m64.toNatF (b * n) := by
      rw [FX.ofNat_eq, FX.fin_mul]; rfl
    have e3 : (down ((1 - (FX.fin a : FX m64)) / FX.fin b) : FX m32) = FX.fin ((1 - a) / b) := by
      rw [FX.one_def, FX.fin_sub, FX.fin_div _ _ hb, FX.down_fin]
    have hk' : Res.mapM' (fun i => do
        let x ← idx grad i
        pure (i, Fl.abs x)) (List.range n) = .ok keys := hkeys
    simp only [gossSample, ← hn, hk', Res.ok_bind, e1, e2, e3, ← hsk, hu]
    simp only [FX.ofNat_eq, hx, Res.ok_bind, List.drop_zero, Nat.sub_zero]

end

end Verif
