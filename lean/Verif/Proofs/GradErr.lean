import Verif.Proofs.RoundError
import Verif.Proofs.GridTree

/-!
# Rounding errors of the gradient sums

Error bounds for the gradient halves of histograms and nodes.  All errors are measured against the sum of the
absolute gradients of the rows the tree was fitted on.
-/

namespace Verif

open scoped Verif

set_option linter.unusedSectionVars false

section
variable {K : Type} [Field K] [LinearOrder K] [IsStrictOrderedRing K] {m32 m64 : Fmt K}

/-- Sums of numbers of `m32` that are computed in `m64` lose at most a share of `u` when they are converted to
`m32`.  `P` holds of all such sums. -/
structure Fmt.Narrows (m32 m64 : Fmt K) (u : K) (P : K → Prop) : Prop where
  nonneg : 0 ≤ u
  of_repr : ∀ {a : K}, m32.Repr a → P a
  add : ∀ {a b z : K}, P a → P b → m64.rnd (a + b) = .fin z → P z
  down : ∀ {a z : K}, P a → m32.rnd a = .fin z → |z - a| ≤ u * |a|

theorem Fmt.Accurate.weaken {m : Fmt K} {u v : K} (h : m.Accurate u) (huv : u ≤ v) : m.Accurate v where
  nonneg := h.nonneg.trans huv
  add ha hb hz := (h.add ha hb hz).trans (mul_le_mul_of_nonneg_right huv (abs_nonneg _))

section near
variable {m : Fmt K} {v : K}

theorem NearX.widen (hv : 0 ≤ v) {k : Nat} {x : FX m} {s a b : K} (h : NearX v k x s a) (hab : a ≤ b) :
    NearX v k x s b := by
  refine ⟨h.size.trans hab, fun z e => ⟨(h.near z e).1, h.size.trans hab, ?_⟩⟩
  refine (h.near z e).2.err.trans (mul_le_mul_of_nonneg_left hab ?_)
  have := one_le_pow_u hv k
  linarith

theorem NearX.neg [hr : m.Rounds] {k : Nat} {x : FX m} {s a : K} (h : NearX v k x s a) :
    NearX v k (-x) (-s) a := by
  refine ⟨by rw [abs_neg]; exact h.size, fun z e => ?_⟩
  cases x with
  | fin q =>
    have e : FX.fin (-q) = (FX.fin z : FX m) := e
    cases e
    obtain ⟨h1, h2⟩ := h.near q rfl
    refine ⟨?_, by rw [abs_neg]; exact h2.size, ?_⟩
    · have := hr.neg q
      rw [show m.rnd q = .fin q from h1] at this
      exact this
    · rw [show -q - -s = -(q - s) by ring, abs_neg]; exact h2.err
  | nan => cases e
  | ninf => cases e
  | pinf => cases e

/-- One rounded addition of two approximations measured against the same size. -/
theorem NearX.add_in [hm : m.Accurate v] [hr : m.Rounds] {i j : Nat} {x y : FX m} {s t a : K}
    (h1 : NearX v i x s a) (h2 : NearX v j y t a) (hst : |s + t| ≤ a) :
    NearX v (i + j + 1) (x + y) (s + t) a := by
  refine ⟨hst, fun z e => ?_⟩
  obtain ⟨x', y', rfl, rfl, hz⟩ := FX.add_eq_fin e
  obtain ⟨r1, n1⟩ := h1.near _ rfl
  obtain ⟨r2, n2⟩ := h2.near _ rfl
  refine ⟨hr.idem hz, hst, ?_⟩
  have hv := hm.nonneg
  have ha : 0 ≤ a := (abs_nonneg _).trans hst
  have er := hm.add r1 r2 hz
  have e1 := n1.err
  have e2 := n2.err
  have hP := one_le_pow_u hv i
  have hQ := one_le_pow_u hv j
  rw [show i + j + 1 = (i + j) + 1 from rfl, pow_succ, pow_add]
  obtain ⟨P, hPe⟩ : ∃ P, P = (1 + v) ^ i := ⟨_, rfl⟩
  obtain ⟨Q, hQe⟩ : ∃ Q, Q = (1 + v) ^ j := ⟨_, rfl⟩
  rw [← hPe] at e1 hP ⊢
  rw [← hQe] at e2 hQ ⊢
  have hd : |(x' + y') - (s + t)| ≤ (P - 1) * a + (Q - 1) * a := by
    rw [show (x' + y') - (s + t) = (x' - s) + (y' - t) by ring]
    exact (abs_add_le _ _).trans (add_le_add e1 e2)
  have hxy : |x' + y'| ≤ (P - 1) * a + (Q - 1) * a + a := by
    rw [show x' + y' = ((x' + y') - (s + t)) + (s + t) by ring]
    exact (abs_add_le _ _).trans (add_le_add hd hst)
  have hpq : (P - 1) * a + (Q - 1) * a + a ≤ P * Q * a := by
    have : 0 ≤ (P - 1) * (Q - 1) * a := mul_nonneg (mul_nonneg (by linarith) (by linarith)) ha
    nlinarith
  have hvv : v * |x' + y'| ≤ v * ((P - 1) * a + (Q - 1) * a + a) := mul_le_mul_of_nonneg_left hxy hv
  have hvq : v * ((P - 1) * a + (Q - 1) * a + a) ≤ v * (P * Q * a) := mul_le_mul_of_nonneg_left hpq hv
  rw [show z - (s + t) = (z - (x' + y')) + ((x' + y') - (s + t)) by ring]
  refine (abs_add_le _ _).trans ?_
  calc |z - (x' + y')| + |x' + y' - (s + t)| ≤ v * (P * Q * a) + ((P - 1) * a + (Q - 1) * a) := by linarith
    _ ≤ v * (P * Q * a) + (P * Q * a - a) := by linarith
    _ = (P * Q * (1 + v) - 1) * a := by ring

theorem NearX.sub_in [hm : m.Accurate v] [hr : m.Rounds] {i j : Nat} {x y : FX m} {s t a : K}
    (h1 : NearX v i x s a) (h2 : NearX v j y t a) (hst : |s - t| ≤ a) :
    NearX v (i + j + 1) (x - y) (s - t) a := by
  have := h1.add_in h2.neg (by rw [← sub_eq_add_neg]; exact hst)
  rw [← sub_eq_add_neg] at this
  exact this

theorem NearX.zero [hr : m.Rounds] : NearX v 0 (0 : FX m) 0 0 := by
  have := NearX.of (u := v) (x := (0 : FX m)) (v := 0) (fun q e => by cases e; exact hr.zero) rfl
  rwa [abs_zero] at this

end near

variable {u32 u64 v : K} {P : K → Prop} {n : Nat}

/-- Converting a sum to `m32`. -/
theorem NearX.narrow (hN : m32.Narrows m64 u32 P) [h64 : m64.Accurate u64] [hr : m32.Rounds]
    (hv : (1 + u32) * (1 + u64) ^ n ≤ 1 + v) {x : FX m64} {s a : K} (h : NearX u64 n x s a)
    (hP : ∀ z, x = .fin z → P z) : NearX v 1 (down x : FX m32) s a := by
  refine ⟨h.size, fun z e => ?_⟩
  cases x with
  | nan => cases e
  | ninf => cases e
  | pinf => cases e
  | fin y =>
    obtain ⟨_, n1⟩ := h.near y rfl
    have hz : m32.rnd y = .fin z := by
      have e : FX.ofRV (m32.rnd y) = (FX.fin z : FX m32) := e
      cases hr : m32.rnd y with
      | ninf => rw [hr] at e; cases e
      | pinf => rw [hr] at e; cases e
      | fin w => rw [hr] at e; cases e; rfl
    refine ⟨hr.idem hz, h.size, ?_⟩
    have e1 := hN.down (hP y rfl) hz
    have e2 := n1.err
    have ha : 0 ≤ a := (abs_nonneg _).trans h.size
    obtain ⟨B, hB⟩ : ∃ B, B = (1 + u64) ^ n := ⟨_, rfl⟩
    rw [← hB] at e2 hv
    have hy : |y| ≤ B * a := by
      rw [show y = (y - s) + s by ring]
      refine (abs_add_le _ _).trans ?_
      have := h.size
      linarith [sub_mul B 1 a]
    have h1 : u32 * |y| ≤ u32 * (B * a) := mul_le_mul_of_nonneg_left hy hN.nonneg
    have h2 : ((1 + u32) * B) * a ≤ (1 + v) * a := mul_le_mul_of_nonneg_right hv ha
    rw [show z - s = (z - y) + (y - s) by ring, pow_one]
    refine (abs_add_le _ _).trans ?_
    nlinarith

/-- The value satisfies `P`, or it is not finite. -/
def FX.PX {m : Fmt K} (P : K → Prop) (x : FX m) : Prop := ∀ z, x = .fin z → P z

theorem FX.PX.add (hN : m32.Narrows m64 u32 P) {x y : FX m64} (hx : x.PX P) (hy : y.PX P) : (x + y).PX P := by
  intro z e
  obtain ⟨x', y', rfl, rfl, hz⟩ := FX.add_eq_fin e
  exact hN.add (hx _ rfl) (hy _ rfl) hz

theorem FX.PX.zero (hN : m32.Narrows m64 u32 P) [hr : m32.Rounds] : (0 : FX m64).PX P := by
  intro z e
  cases e
  exact hN.of_repr hr.zero

theorem FX.PX.foldl (hN : m32.Narrows m64 u32 P) : ∀ (l : List (FX m64)) (x : FX m64), x.PX P →
    (∀ y ∈ l, y.PX P) → (l.foldl (· + ·) x).PX P
  | [], x, hx, _ => hx
  | y :: l, x, hx, h => FX.PX.foldl hN l (x + y) (hx.add hN (h y (by simp))) fun z hz => h z (by simp [hz])

theorem FX.PX.lanes (hN : m32.Narrows m64 u32 P) : ∀ (n : Nat) (T L : List (FX m64)),
    (∀ x ∈ T, x.PX P) → (∀ x ∈ L, x.PX P) →
    (∀ x ∈ (foldLanes n T L).1, x.PX P) ∧ ∀ x ∈ (foldLanes n T L).2, x.PX P := by
  intro n
  induction n with
  | zero => intro T L hT hL; exact ⟨hT, hL⟩
  | succ n ih =>
    intro T L hT hL
    rw [foldLanes]
    split
    · exact ⟨hT, hL⟩
    · refine ih _ _ ?_ fun x hx => hL x (List.mem_of_mem_drop hx)
      intro x hx
      rw [addLanes, List.mem_iff_getElem?] at hx
      obtain ⟨i, hi⟩ := hx
      rw [List.getElem?_zipWith_eq_some] at hi
      obtain ⟨a, b, h1, h2, rfl⟩ := hi
      exact (hT a (List.mem_of_getElem? h1)).add hN
        (hL b (List.mem_of_mem_take (List.mem_of_getElem? h2)))

/-! ### Sums of absolute values -/

variable {gv : Nat → K}

theorem rowSum_abs (gv : Nat → K) : ∀ rows : List Nat, |rowSum gv rows| ≤ rowSum (fun r => |gv r|) rows
  | [] => by simp [rowSum]
  | r :: rows => by
    have := rowSum_abs gv rows
    simp only [rowSum, List.map_cons, List.sum_cons] at this ⊢
    exact (abs_add_le _ _).trans (by linarith)

theorem rowSum_nonneg {w : Nat → K} (hw : ∀ r, 0 ≤ w r) : ∀ rows : List Nat, 0 ≤ rowSum w rows
  | [] => by simp [rowSum]
  | r :: rows => by
    have := rowSum_nonneg hw rows
    have h0 := hw r
    simp only [rowSum, List.map_cons, List.sum_cons] at this ⊢
    linarith

/-- `rows` is a part of `rows0`. -/
def PartOf (rows rows0 : List Nat) : Prop := ∃ rest, rows0.Perm (rows ++ rest)

theorem PartOf.refl (rows : List Nat) : PartOf rows rows := ⟨[], by simp⟩

theorem PartOf.trans {a b c : List Nat} (h1 : PartOf a b) (h2 : PartOf b c) : PartOf a c := by
  obtain ⟨r1, p1⟩ := h1
  obtain ⟨r2, p2⟩ := h2
  exact ⟨r1 ++ r2, by rw [← List.append_assoc]; exact p2.trans (p1.append_right r2)⟩

theorem PartOf.filter (p : Nat → Bool) (rows : List Nat) : PartOf (rows.filter p) rows :=
  ⟨rows.filter fun r => !p r, (List.filter_append_perm p rows).symm⟩

theorem PartOf.rowSum_le {w : Nat → K} (hw : ∀ r, 0 ≤ w r) {a b : List Nat} (h : PartOf a b) :
    rowSum w a ≤ rowSum w b := by
  obtain ⟨r, p⟩ := h
  have := rowSum_nonneg hw r
  rw [rowSum_perm p]
  simp only [rowSum, List.map_append, List.sum_append] at this ⊢
  linarith

theorem PartOf.filterBoth {a b : List Nat} (h : PartOf a b) (p : Nat → Bool) :
    PartOf (a.filter p) (b.filter p) := by
  obtain ⟨r, h⟩ := h
  exact ⟨r.filter p, by rw [← List.filter_append]; exact h.filter p⟩

theorem PartOf.abs_le {a b : List Nat} (h : PartOf a b) :
    |rowSum gv a| ≤ rowSum (fun r => |gv r|) b :=
  (rowSum_abs gv a).trans (h.rowSum_le fun r => abs_nonneg _)

end

end Verif
