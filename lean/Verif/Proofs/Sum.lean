import Verif.Model.Utils
import Mathlib.Algebra.BigOperators.Group.List.Basic
import Mathlib.Algebra.Order.Field.Basic

/-!
# Sums: addition laws of exact arithmetic, chunked summation
-/

namespace Verif

/-- Addition is associative and commutative with unit `0`; holds in exact arithmetic including the
infinities and NaN. -/
class Fl.AddLaws (F : Type) [Fl F] : Prop where
  add_assoc : ∀ a b c : F, a + b + c = a + (b + c)
  add_comm : ∀ a b : F, a + b = b + a
  zero_add : ∀ a : F, 0 + a = a

instance {K : Type} [Field K] [LinearOrder K] (m : Fmt K) [m.Exact] : Fl.AddLaws (FX m) where
  add_assoc a b c := by
    cases a <;> cases b <;> cases c <;>
      first
        | rfl
        | (simp only [FX.fin_add]; first | rfl | rw [add_assoc])
  add_comm a b := by
    cases a <;> cases b <;>
      first
        | rfl
        | (simp only [FX.fin_add, add_comm])
  zero_add a := by
    cases a <;> first | rfl | (rw [FX.zero_def]; simp)

/-- The commutative monoid of an arithmetic with `AddLaws`. -/
@[reducible] def Fl.addCommMonoid (F : Type) [Fl F] [L : Fl.AddLaws F] : AddCommMonoid F where
  add_assoc := L.add_assoc
  add_comm := L.add_comm
  zero_add := L.zero_add
  add_zero a := by rw [L.add_comm, L.zero_add]
  nsmul := nsmulRec

variable {F : Type} [Fl F]

theorem foldl_add_eq_sum [Fl.AddLaws F] (l : List F) (a : F) :
    l.foldl (· + ·) a = a + l.sum := by
  let _ := Fl.addCommMonoid F
  induction l generalizing a with
  | nil => simp
  | cons x l ih => simp [ih, add_assoc]

theorem sum_addLanes [Fl.AddLaws F] (acc chunk : List F) (h : acc.length = chunk.length) :
    (addLanes acc chunk).sum = acc.sum + chunk.sum := by
  let _ := Fl.addCommMonoid F
  induction acc generalizing chunk with
  | nil => cases chunk <;> simp_all [addLanes]
  | cons a acc ih =>
    cases chunk with
    | nil => simp at h
    | cons b chunk =>
      have := ih chunk (by simpa using h)
      simp only [addLanes] at this
      simp only [addLanes, List.zipWith_cons_cons, List.sum_cons, this]
      exact add_add_add_comm a b _ _

theorem foldLanes_sum [Fl.AddLaws F] (n : Nat) (acc l : List F) (ha : acc.length = lanes) :
    (foldLanes n acc l).1.sum + (foldLanes n acc l).2.sum = acc.sum + l.sum := by
  let _ := Fl.addCommMonoid F
  induction n generalizing acc l with
  | zero => rfl
  | succ n ih =>
    unfold foldLanes
    split
    · rfl
    · next h =>
      have hl : (l.take lanes).length = lanes := by simp; omega
      rw [ih _ _ (by simp [addLanes, ha, hl]), sum_addLanes _ _ (by rw [ha, hl]), add_assoc,
        ← List.sum_append, List.take_append_drop]

theorem sum_replicate_zero [Fl.AddLaws F] (n : Nat) : (List.replicate n (0 : F)).sum = 0 := by
  let _ := Fl.addCommMonoid F
  simp

/-- The lane-wise sum equals the plain sum. -/
theorem lanes_sum [Fl.AddLaws F] (l : List F) :
    (foldLanes l.length (List.replicate lanes 0) l).1.foldl (· + ·) 0 +
      (foldLanes l.length (List.replicate lanes 0) l).2.foldl (· + ·) 0 = l.sum := by
  let _ := Fl.addCommMonoid F
  rw [foldl_add_eq_sum, foldl_add_eq_sum, zero_add, zero_add, foldLanes_sum _ _ _ (by simp),
    sum_replicate_zero, zero_add]

theorem sum_fin {K : Type} [Field K] [LinearOrder K] {m : Fmt K} [m.Exact] (l : List K) :
    (l.map (FX.fin : K → FX m)).sum = FX.fin l.sum := by
  induction l with
  | nil => rfl
  | cons a l ih => simp [ih]

end Verif
