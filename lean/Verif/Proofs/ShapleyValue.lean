import Mathlib.Algebra.BigOperators.Group.Finset.Powerset
import Mathlib.Algebra.BigOperators.Intervals
import Mathlib.Tactic.FieldSimp
import Mathlib.Tactic.Ring
import Mathlib.Tactic.Linarith
import Verif.Spec.Shapley

/-!
# Shapley values: linearity, efficiency, players without influence, product games
-/

namespace Verif

open scoped BigOperators Nat

set_option linter.unusedSectionVars false

variable {K : Type} [Field K] [LinearOrder K] [IsStrictOrderedRing K]

theorem fact_ne (n : Nat) : ((n ! : ℕ) : K) ≠ 0 := by exact_mod_cast Nat.factorial_ne_zero n

theorem succ_ne (n : Nat) : ((n : K) + 1) ≠ 0 := by exact_mod_cast Nat.succ_ne_zero n

theorem shapleyValue_add (N : Finset Nat) (u v : Finset Nat → K) (f : Nat) :
    shapleyValue N (fun S => u S + v S) f = shapleyValue N u f + shapleyValue N v f := by
  unfold shapleyValue
  rw [← Finset.sum_add_distrib]
  exact Finset.sum_congr rfl fun S _ => by ring

theorem shapleyValue_zero (N : Finset Nat) (f : Nat) : shapleyValue N (fun _ => (0 : K)) f = 0 := by
  unfold shapleyValue
  exact Finset.sum_eq_zero fun S _ => by ring

theorem shapleyValue_mul (N : Finset Nat) (c : K) (v : Finset Nat → K) (f : Nat) :
    shapleyValue N (fun S => c * v S) f = c * shapleyValue N v f := by
  unfold shapleyValue
  rw [Finset.mul_sum]
  exact Finset.sum_congr rfl fun S _ => by ring

theorem shapleyValue_sum {α : Type} (N : Finset Nat) (l : List α) (v : α → Finset Nat → K) (f : Nat) :
    shapleyValue N (fun S => (l.map fun a => v a S).sum) f = (l.map fun a => shapleyValue N (v a) f).sum := by
  induction l with
  | nil => exact shapleyValue_zero N f
  | cons a l ih =>
    simp only [List.map_cons, List.sum_cons]
    rw [shapleyValue_add, ih]

/-- The weight of a set of `s` players among `m` others. -/
def cw (m s : Nat) : K := ((s ! : ℕ) : K) * ((m - s)! : ℕ) / ((m + 1)! : ℕ)

theorem cw_step {m s : Nat} (h : s ≤ m) : (cw (m + 1) s : K) + cw (m + 1) (s + 1) = cw m s := by
  unfold cw
  obtain ⟨k, rfl⟩ := Nat.exists_eq_add_of_le h
  have e1 : s + k + 1 - s = k + 1 := by omega
  have e2 : s + k + 1 - (s + 1) = k := by omega
  have e3 : s + k - s = k := by omega
  rw [e1, e2, e3, Nat.factorial_succ k, Nat.factorial_succ s, Nat.factorial_succ (s + k + 1)]
  have h1 := fact_ne (K := K) (s + k + 1)
  have h2 := succ_ne (K := K) (s + k + 1)
  push_cast at h2 ⊢
  field_simp
  ring

theorem shapleyValue_eq {N : Finset Nat} {f : Nat} (hf : f ∈ N) (v : Finset Nat → K) :
    shapleyValue N v f =
      ∑ S ∈ (N.erase f).powerset, cw (N.erase f).card S.card * (v (insert f S) - v S) := by
  unfold shapleyValue
  refine Finset.sum_congr rfl fun S _ => ?_
  unfold cw
  have h1 : (N.erase f).card = N.card - 1 := Finset.card_erase_of_mem hf
  have h2 : 0 < N.card := Finset.card_pos.2 ⟨f, hf⟩
  rw [h1, show N.card - 1 + 1 = N.card by omega, show N.card - 1 - S.card = N.card - S.card - 1 by omega]

/-- Players without influence can be left out. -/
theorem sum_null (P R : Finset Nat) (u : Finset Nat → K) (hd : Disjoint P R)
    (hu : ∀ g ∈ R, ∀ S, u (insert g S) = u S) :
    ∑ S ∈ (P ∪ R).powerset, cw (P ∪ R).card S.card * u S = ∑ S ∈ P.powerset, cw P.card S.card * u S := by
  induction R using Finset.induction_on with
  | empty => simp
  | insert g R hg ih =>
    have hgP : g ∉ P := fun h => Finset.disjoint_left.1 hd h (Finset.mem_insert_self g R)
    have hgU : g ∉ P ∪ R := by simp [hgP, hg]
    rw [← ih (Finset.disjoint_of_subset_right (Finset.subset_insert g R) hd)
      (fun x hx => hu x (Finset.mem_insert_of_mem hx)), Finset.union_insert, Finset.sum_powerset_insert hgU,
      ← Finset.sum_add_distrib, Finset.card_insert_of_notMem hgU]
    refine Finset.sum_congr rfl fun S hS => ?_
    have hSU := Finset.mem_powerset.1 hS
    have hgS : g ∉ S := fun h => hgU (hSU h)
    rw [Finset.card_insert_of_notMem hgS, hu g (Finset.mem_insert_self g R), ← add_mul,
      cw_step (Finset.card_le_card hSU)]

/-- The coefficients of the product of `z + o x` over the list. -/
def coef : List (K × K) → Nat → K
  | [], 0 => 1
  | [], _ + 1 => 0
  | (z, _) :: L, 0 => z * coef L 0
  | (z, o) :: L, j + 1 => z * coef L (j + 1) + o * coef L j

theorem coef_gt (L : List (K × K)) {j : Nat} (h : L.length < j) : coef L j = 0 := by
  induction L generalizing j with
  | nil => cases j with
    | zero => simp at h
    | succ j => rfl
  | cons a L ih =>
    obtain ⟨z, o⟩ := a
    cases j with
    | zero => simp at h
    | succ j =>
      simp only [List.length_cons] at h
      rw [coef, ih (by omega), ih (by omega)]
      ring

theorem coef_perm {L L' : List (K × K)} (h : L.Perm L') (j : Nat) : coef L j = coef L' j := by
  induction h generalizing j with
  | nil => rfl
  | cons a _ ih =>
    obtain ⟨z, o⟩ := a
    cases j with
    | zero => simp only [coef, ih]
    | succ j => simp only [coef, ih]
  | swap a b L =>
    obtain ⟨z, o⟩ := a
    obtain ⟨z', o'⟩ := b
    match j with
    | 0 => simp only [coef]; ring
    | 1 => simp only [coef]; ring
    | j + 2 => simp only [coef]; ring
  | trans _ _ ih1 ih2 => rw [ih1, ih2]

theorem coef_zero_of_mem {L : List (K × K)} (h : ((0 : K), (0 : K)) ∈ L) (j : Nat) : coef L j = 0 := by
  rw [coef_perm (List.perm_cons_erase h)]
  cases j <;> simp [coef]

/-- The product game: each listed player contributes its second number when present, its first when
absent. -/
def prodGame (L : List (Nat × K × K)) (S : Finset Nat) : K :=
  (L.map fun x => if x.1 ∈ S then x.2.2 else x.2.1).prod

theorem prodGame_nil (S : Finset Nat) : prodGame ([] : List (Nat × K × K)) S = 1 := rfl

theorem prodGame_cons (x : Nat × K × K) (L : List (Nat × K × K)) (S : Finset Nat) :
    prodGame (x :: L) S = (if x.1 ∈ S then x.2.2 else x.2.1) * prodGame L S := by
  simp [prodGame]

theorem prodGame_append (L L' : List (Nat × K × K)) (S : Finset Nat) :
    prodGame (L ++ L') S = prodGame L S * prodGame L' S := by
  simp [prodGame]

theorem prodGame_perm {L L' : List (Nat × K × K)} (h : L.Perm L') (S : Finset Nat) :
    prodGame L S = prodGame L' S := (h.map _).prod_eq

theorem prodGame_insert {L : List (Nat × K × K)} {g : Nat} (h : g ∉ L.map Prod.fst) (S : Finset Nat) :
    prodGame L (insert g S) = prodGame L S := by
  unfold prodGame
  congr 1
  refine List.map_congr_left fun x hx => ?_
  have : x.1 ≠ g := fun e => h (List.mem_map.2 ⟨x, hx, e⟩)
  simp [Finset.mem_insert, this]

/-- A weighted sum over all sets of players of the product game. -/
theorem sum_prodGame (L : List (Nat × K × K)) (hn : (L.map Prod.fst).Nodup) (c : Nat → K) :
    ∑ S ∈ (L.map Prod.fst).toFinset.powerset, c S.card * prodGame L S =
      ∑ j ∈ Finset.range (L.length + 1), c j * coef (L.map Prod.snd) j := by
  induction L generalizing c with
  | nil => simp [prodGame, coef]
  | cons x L ih =>
    obtain ⟨f, z, o⟩ := x
    simp only [List.map_cons, List.nodup_cons] at hn
    have hf : f ∉ (L.map Prod.fst).toFinset := by simpa using hn.1
    rw [List.map_cons, List.toFinset_cons, Finset.sum_powerset_insert hf]
    have e1 : ∑ S ∈ (L.map Prod.fst).toFinset.powerset, c S.card * prodGame ((f, z, o) :: L) S =
        z * ∑ S ∈ (L.map Prod.fst).toFinset.powerset, c S.card * prodGame L S := by
      rw [Finset.mul_sum]
      refine Finset.sum_congr rfl fun S hS => ?_
      have : f ∉ S := fun h => hf (Finset.mem_powerset.1 hS h)
      rw [prodGame_cons, if_neg this]
      ring
    have e2 : ∑ S ∈ (L.map Prod.fst).toFinset.powerset,
          c (insert f S).card * prodGame ((f, z, o) :: L) (insert f S) =
        o * ∑ S ∈ (L.map Prod.fst).toFinset.powerset, c (S.card + 1) * prodGame L S := by
      rw [Finset.mul_sum]
      refine Finset.sum_congr rfl fun S hS => ?_
      have : f ∉ S := fun h => hf (Finset.mem_powerset.1 hS h)
      rw [prodGame_cons, if_pos (Finset.mem_insert_self f S), Finset.card_insert_of_notMem this,
        prodGame_insert hn.1]
      ring
    rw [e1, e2, ih hn.2, ih hn.2 (fun j => c (j + 1)), List.length_cons, Finset.sum_range_succ' _ (L.length + 1)]
    simp only [List.map_cons, coef]
    have e3 : ∑ j ∈ Finset.range (L.length + 1), c (j + 1) * (z * coef (L.map Prod.snd) (j + 1) +
          o * coef (L.map Prod.snd) j) =
        z * ∑ j ∈ Finset.range (L.length + 1), c (j + 1) * coef (L.map Prod.snd) (j + 1) +
          o * ∑ j ∈ Finset.range (L.length + 1), c (j + 1) * coef (L.map Prod.snd) j := by
      rw [Finset.mul_sum, Finset.mul_sum, ← Finset.sum_add_distrib]
      exact Finset.sum_congr rfl fun j _ => by ring
    rw [e3]
    have e4 : ∑ j ∈ Finset.range (L.length + 1), c j * coef (L.map Prod.snd) j =
        ∑ j ∈ Finset.range (L.length + 1), c (j + 1) * coef (L.map Prod.snd) (j + 1) +
          c 0 * coef (L.map Prod.snd) 0 := by
      rw [Finset.sum_range_succ' _ L.length, Finset.sum_range_succ _ L.length,
        coef_gt (L.map Prod.snd) (j := L.length + 1) (by simp)]
      ring
    rw [e4]
    ring

/-- The weights that the path keeps: `coef` weighted by the number of orders. -/
def pw (L : List (K × K)) (j : Nat) : K := coef L j * cw L.length j

theorem pw_gt (L : List (K × K)) {j : Nat} (h : L.length < j) : pw L j = 0 := by
  rw [pw, coef_gt L h, zero_mul]

theorem pw_perm {L L' : List (K × K)} (h : L.Perm L') (j : Nat) : pw L j = pw L' j := by
  rw [pw, pw, coef_perm h, h.length_eq]

theorem cw_low {m s : Nat} (h : s ≤ m) : (cw (m + 1) s : K) = cw m s * ((m + 1 - s : ℕ) : K) / ((m + 2 : ℕ) : K) := by
  unfold cw
  obtain ⟨k, rfl⟩ := Nat.exists_eq_add_of_le h
  have e1 : s + k + 1 - s = k + 1 := by omega
  have e3 : s + k - s = k := by omega
  rw [e1, e3, Nat.factorial_succ k, Nat.factorial_succ (s + k + 1)]
  have h1 := fact_ne (K := K) (s + k + 1)
  have h2 := succ_ne (K := K) (s + k + 1)
  have h3 : ((s : K) + k + 2) ≠ 0 := by
    have := h2
    push_cast at this
    convert this using 1
    ring
  push_cast at h2 ⊢
  field_simp
  ring

theorem cw_high {m s : Nat} (h : s ≤ m) : (cw (m + 1) (s + 1) : K) = cw m s * ((s + 1 : ℕ) : K) / ((m + 2 : ℕ) : K) := by
  unfold cw
  obtain ⟨k, rfl⟩ := Nat.exists_eq_add_of_le h
  have e2 : s + k + 1 - (s + 1) = k := by omega
  have e3 : s + k - s = k := by omega
  rw [e2, e3, Nat.factorial_succ s, Nat.factorial_succ (s + k + 1)]
  have h1 := fact_ne (K := K) (s + k + 1)
  have h2 := succ_ne (K := K) (s + k + 1)
  have h3 : ((s : K) + k + 2) ≠ 0 := by
    have := h2
    push_cast at this
    convert this using 1
    ring
  push_cast at h2 ⊢
  field_simp
  ring

theorem pw_cons_zero (z o : K) (L : List (K × K)) :
    pw ((z, o) :: L) 0 = z * pw L 0 * ((L.length + 1 : ℕ) : K) / ((L.length + 2 : ℕ) : K) := by
  simp only [pw, coef, List.length_cons]
  rw [cw_low (Nat.zero_le _), Nat.sub_zero]
  ring

theorem pw_cons_succ (z o : K) (L : List (K × K)) {j : Nat} (h : j ≤ L.length) :
    pw ((z, o) :: L) (j + 1) = z * pw L (j + 1) * ((L.length - j : ℕ) : K) / ((L.length + 2 : ℕ) : K) +
      o * pw L j * ((j + 1 : ℕ) : K) / ((L.length + 2 : ℕ) : K) := by
  simp only [pw, coef, List.length_cons]
  rcases Nat.lt_or_ge j L.length with hj | hj
  · rw [add_mul, cw_high h]
    have e : (cw (L.length + 1) (j + 1) : K) = cw L.length (j + 1) * ((L.length - j : ℕ) : K) / ((L.length + 2 : ℕ) : K) := by
      rw [cw_low (by omega), show L.length + 1 - (j + 1) = L.length - j by omega]
    rw [cw_high h] at e
    rw [mul_assoc z, e]
    have e2 : o * coef L j * (cw L.length (j + 1) * ((L.length - j : ℕ) : K) / ((L.length + 2 : ℕ) : K)) =
        o * coef L j * (cw L.length j * ((j + 1 : ℕ) : K) / ((L.length + 2 : ℕ) : K)) := by rw [e]
    rw [e2]
    ring
  · rw [coef_gt L (by omega : L.length < j + 1), cw_high h]
    ring

/-- Shapley value of a listed player of the product game. -/
theorem shapley_prodGame {N : Finset Nat} {L : List (Nat × K × K)} (hn : (L.map Prod.fst).Nodup)
    (hN : ∀ x ∈ L, x.1 ∈ N) {k : Nat} {x : Nat × K × K} (hx : L[k]? = some x) :
    shapleyValue N (prodGame L) x.1 =
      (∑ j ∈ Finset.range L.length, pw ((L.eraseIdx k).map Prod.snd) j) * (x.2.2 - x.2.1) := by
  have hk := (List.getElem?_eq_some_iff.1 hx).1
  have hperm : L.Perm (x :: L.eraseIdx k) := by
    have := List.getElem_cons_eraseIdx_perm hk
    rw [(List.getElem?_eq_some_iff.1 hx).2] at this
    exact this.symm
  have hxm : x ∈ L := List.mem_of_getElem? hx
  have hn' : ((x :: L.eraseIdx k).map Prod.fst).Nodup := (hperm.map Prod.fst).nodup_iff.1 hn
  simp only [List.map_cons, List.nodup_cons] at hn'
  rw [shapleyValue_eq (hN x hxm)]
  have hdiff : ∀ S ∈ (N.erase x.1).powerset, prodGame L (insert x.1 S) - prodGame L S =
      prodGame (L.eraseIdx k) S * (x.2.2 - x.2.1) := by
    intro S hS
    have : x.1 ∉ S := fun h => by simpa using Finset.mem_powerset.1 hS h
    rw [prodGame_perm hperm, prodGame_perm hperm, prodGame_cons, prodGame_cons,
      if_pos (Finset.mem_insert_self _ _), if_neg this, prodGame_insert hn'.1]
    ring
  rw [Finset.sum_congr rfl fun S hS => by rw [hdiff S hS, ← mul_assoc], ← Finset.sum_mul]
  congr 1
  set L' := L.eraseIdx k with hL'
  set P := (L'.map Prod.fst).toFinset with hP
  have hPN : P ⊆ N.erase x.1 := by
    intro g hg
    rw [hP, List.mem_toFinset] at hg
    refine Finset.mem_erase.2 ⟨fun e => hn'.1 (e ▸ hg), ?_⟩
    obtain ⟨y, hy, rfl⟩ := List.mem_map.1 hg
    exact hN y (List.mem_of_mem_eraseIdx hy)
  have hu : P ∪ (N.erase x.1 \ P) = N.erase x.1 := Finset.union_sdiff_of_subset hPN
  have hnull := sum_null P (N.erase x.1 \ P) (prodGame L') Finset.disjoint_sdiff (fun g hg S => by
    refine prodGame_insert ?_ S
    have := (Finset.mem_sdiff.1 hg).2
    rwa [hP, List.mem_toFinset] at this)
  rw [hu] at hnull
  rw [hnull, hP, sum_prodGame L' hn'.2]
  have hlen : L'.length + 1 = L.length := by rw [hL', List.length_eraseIdx_of_lt hk]; omega
  have hcard : (L'.map Prod.fst).toFinset.card = L'.length := by
    rw [List.toFinset_card_of_nodup hn'.2, List.length_map]
  rw [hlen]
  refine Finset.sum_congr rfl fun j _ => ?_
  rw [hcard, pw, List.length_map]
  ring

/-- A player that is not listed gets nothing. -/
theorem shapley_prodGame_null {N : Finset Nat} {L : List (Nat × K × K)} {f : Nat}
    (hf : f ∉ L.map Prod.fst) : shapleyValue N (prodGame L) f = 0 := by
  unfold shapleyValue
  refine Finset.sum_eq_zero fun S _ => ?_
  rw [prodGame_insert hf]
  ring

/-- The Shapley values of all players add up to the value of all players over that of none. -/
theorem shapley_efficient (N : Finset Nat) (v : Finset Nat → K) :
    ∑ f ∈ N, shapleyValue N v f = v N - v ∅ := by
  set n := N.card with hncard
  have hw : ∀ f ∈ N, shapleyValue N v f =
      ∑ T ∈ N.powerset, ((if f ∈ T then cw (n - 1) (T.card - 1) * v T else 0) -
        (if f ∈ T then 0 else cw (n - 1) T.card * v T)) := by
    intro f hf
    have hins : insert f (N.erase f) = N := Finset.insert_erase hf
    rw [shapleyValue_eq hf]
    conv_rhs => rw [← hins]
    rw [Finset.sum_powerset_insert (Finset.notMem_erase f N), ← Finset.sum_add_distrib]
    refine Finset.sum_congr rfl fun S hS => ?_
    have : f ∉ S := fun h => by simpa using Finset.mem_powerset.1 hS h
    rw [if_neg this, if_neg this, if_pos (Finset.mem_insert_self f S), if_pos (Finset.mem_insert_self f S),
      Finset.card_insert_of_notMem this, Finset.card_erase_of_mem hf]
    simp only [Nat.add_sub_cancel]
    ring
  rw [Finset.sum_congr rfl hw, Finset.sum_comm]
  have hT : ∀ T ∈ N.powerset, (∑ f ∈ N, ((if f ∈ T then cw (n - 1) (T.card - 1) * v T else 0) -
        (if f ∈ T then 0 else cw (n - 1) T.card * v T))) =
      ((T.card : K) * cw (n - 1) (T.card - 1) - ((n - T.card : ℕ) : K) * cw (n - 1) T.card) * v T := by
    intro T hT
    have hTN := Finset.mem_powerset.1 hT
    have h1 : (N.filter fun f => f ∈ T) = T := by
      ext f
      simp only [Finset.mem_filter]
      exact ⟨fun h => h.2, fun h => ⟨hTN h, h⟩⟩
    have h2 : (N.filter fun f => ¬ f ∈ T).card = n - T.card := by
      have := Finset.card_filter_add_card_filter_not (s := N) (fun f => f ∈ T)
      rw [h1] at this
      omega
    rw [Finset.sum_sub_distrib, ← Finset.sum_filter, h1, Finset.sum_const, nsmul_eq_mul]
    have h3 : ∑ f ∈ N, (if f ∈ T then (0 : K) else cw (n - 1) T.card * v T) =
        ∑ f ∈ N with ¬ f ∈ T, cw (n - 1) T.card * v T := by
      rw [Finset.sum_filter]
      exact Finset.sum_congr rfl fun f _ => by split <;> simp_all
    rw [h3, Finset.sum_const, h2, nsmul_eq_mul]
    ring
  rw [Finset.sum_congr rfl hT]
  rcases Nat.eq_zero_or_pos n with hn | hn
  · have hN : N = ∅ := Finset.card_eq_zero.1 (hncard ▸ hn)
    subst hN
    simp [hn]
  · -- only the empty set and `N` remain
    have hne : N ≠ ∅ := by
      rintro rfl
      simp at hncard
      omega
    have hmid : ∀ T ∈ N.powerset, T ≠ ∅ → T ≠ N →
        ((T.card : K) * cw (n - 1) (T.card - 1) - ((n - T.card : ℕ) : K) * cw (n - 1) T.card) * v T = 0 := by
      intro T hT h0 h1
      have hTN := Finset.mem_powerset.1 hT
      have hc0 : 0 < T.card := Finset.card_pos.2 (Finset.nonempty_iff_ne_empty.2 h0)
      have hc1 : T.card < n := Finset.card_lt_card (Finset.ssubset_iff_subset_ne.2 ⟨hTN, h1⟩)
      obtain ⟨s, hs⟩ : ∃ s, T.card = s + 1 := ⟨T.card - 1, by omega⟩
      obtain ⟨k, hk⟩ : ∃ k, n = s + k + 2 := ⟨n - s - 2, by omega⟩
      rw [hs, hk, show s + k + 2 - 1 = s + k + 1 by omega, show s + k + 2 - (s + 1) = k + 1 by omega,
        show s + 1 - 1 = s by omega]
      unfold cw
      rw [show s + k + 1 - s = k + 1 by omega, show s + k + 1 - (s + 1) = k by omega,
        Nat.factorial_succ k, Nat.factorial_succ s]
      push_cast
      ring
    have hsub : ({∅, N} : Finset (Finset Nat)) ⊆ N.powerset := by
      intro T hT
      simp only [Finset.mem_insert, Finset.mem_singleton] at hT
      rcases hT with rfl | rfl <;> simp
    rw [← Finset.sum_subset hsub (fun T hT hT' => by
      simp only [Finset.mem_insert, Finset.mem_singleton, not_or] at hT'
      exact hmid T hT hT'.1 hT'.2), Finset.sum_pair hne.symm, ← hncard]
    obtain ⟨k, hk⟩ : ∃ k, n = k + 1 := ⟨n - 1, by omega⟩
    rw [hk]
    simp only [Finset.card_empty, Nat.add_sub_cancel, Nat.sub_self, Nat.sub_zero, Nat.cast_zero, zero_mul,
      zero_sub, sub_zero, cw, Nat.factorial_zero, Nat.cast_one]
    have h1 := fact_ne (K := K) k
    have h2 := succ_ne (K := K) k
    rw [Nat.factorial_succ k]
    push_cast
    field_simp
    ring

end Verif
