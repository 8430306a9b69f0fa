import Verif.Proofs.JsonTyped
import Verif.Spec.RatFmt

/-!
# Numbers in texts: a way to write rationals

The numerator, a point, and the denominator: not decimal notation, but a JSON number from which the rational is read
back; it stands in for the shortest decimal notation of floats.
-/

namespace Verif

/-- Write a rational. -/
def exPrint : Q → List Char
  | .fin x => (if x.num < 0 then ['-'] else []) ++ (Nat.repr x.num.natAbs).toList ++ '.' :: (Nat.repr x.den).toList
  | _ => []

/-- Read it. -/
def exRead (s : List Char) : Option Q :=
  let (m, r) := readMinus s
  match (String.ofList (r.takeWhile jsonDigit)).toNat?,
      (String.ofList (r.dropWhile jsonDigit).tail).toNat? with
  | some a, some b => some (.fin (if m.isEmpty then (a : ℚ) / b else - ((a : ℚ) / b)))
  | _, _ => none

/-- The oracle for the examples. -/
def exNumText : NumText Q Q := ⟨exPrint, exPrint, exRead, exRead⟩

theorem repr_digits (n : Nat) : ∀ c ∈ (Nat.repr n).toList, jsonDigit c = true := by
  intro c hc
  rw [Nat.toList_repr] at hc
  exact jsonDigit_of_isDigit (Nat.isDigit_of_mem_toDigits (by decide) (by decide) hc)

theorem repr_ne_nil (n : Nat) : (Nat.repr n).toList ≠ [] := by
  rw [Nat.toList_repr]; exact Nat.toDigits_ne_nil

theorem readMinus_digits {s : List Char} (x : List Char) (h : ∀ c ∈ s, jsonDigit c = true) (hs : s ≠ []) :
    readMinus (s ++ x) = ([], s ++ x) := by
  cases s with
  | nil => exact absurd rfl hs
  | cons c s =>
    have hm : c ≠ '-' := by
      rintro rfl
      have := h '-' List.mem_cons_self
      revert this; decide
    rw [List.cons_append]; unfold readMinus; dsimp only; rw [if_neg hm]

theorem span_point {s : List Char} (x : List Char) (h : ∀ c ∈ s, jsonDigit c = true) :
    (s ++ '.' :: x).takeWhile jsonDigit = s ∧ (s ++ '.' :: x).dropWhile jsonDigit = '.' :: x := by
  induction s with
  | nil => exact ⟨rfl, rfl⟩
  | cons c s ih =>
    obtain ⟨h1, h2⟩ := ih fun d hd => h d (List.mem_cons_of_mem _ hd)
    rw [List.cons_append, List.takeWhile_cons, List.dropWhile_cons, if_pos (h c List.mem_cons_self),
      if_pos (h c List.mem_cons_self), h1, h2]
    exact ⟨rfl, rfl⟩

theorem exRead_exPrint (x : ℚ) : exRead (exPrint (.fin x)) = some (.fin x) := by
  have hm := readMinus_digits ('.' :: (Nat.repr x.den).toList) (repr_digits x.num.natAbs) (repr_ne_nil _)
  obtain ⟨h1, h2⟩ := span_point (Nat.repr x.den).toList (repr_digits x.num.natAbs)
  have hd : (x.num : ℚ) / x.den = x := Rat.num_div_den x
  unfold exPrint
  dsimp only
  split
  · rename_i hx
    have e : (['-'] ++ (Nat.repr x.num.natAbs).toList ++ '.' :: (Nat.repr x.den).toList) =
      '-' :: ((Nat.repr x.num.natAbs).toList ++ '.' :: (Nat.repr x.den).toList) := rfl
    have e2 : ∀ l, readMinus ('-' :: l) = (['-'], l) := fun _ => rfl
    rw [e, exRead, e2]
    dsimp only
    rw [h1, h2, List.tail_cons, String.ofList_toList, String.ofList_toList, Nat.toNat?_repr, Nat.toNat?_repr]
    dsimp only
    have e3 : ((x.num.natAbs : ℕ) : ℚ) = - (x.num : ℚ) := by
      have : ((x.num.natAbs : ℕ) : ℤ) = - x.num := by omega
      rw [← Int.cast_natCast, this, Int.cast_neg]
    rw [e3, List.isEmpty_cons, if_neg (by simp), neg_div, neg_neg, hd]
  · rename_i hx
    rw [List.nil_append, exRead, hm]
    dsimp only
    rw [h1, h2, List.tail_cons, String.ofList_toList, String.ofList_toList, Nat.toNat?_repr, Nat.toNat?_repr]
    dsimp only
    have e3 : ((x.num.natAbs : ℕ) : ℚ) = (x.num : ℚ) := by
      have : ((x.num.natAbs : ℕ) : ℤ) = x.num := by omega
      rw [← Int.cast_natCast, this]
    rw [e3, List.isEmpty_nil, if_pos rfl, hd]

theorem readInt_point (n : Nat) (x : List Char) :
    readInt ((Nat.repr n).toList ++ '.' :: x) = some ((Nat.repr n).toList, '.' :: x) := by
  obtain ⟨h1, h2⟩ := span_point x (repr_digits n)
  cases h : (Nat.repr n).toList with
  | nil => exact absurd h (repr_ne_nil n)
  | cons c l =>
    rw [h, List.cons_append] at h1 h2
    rw [List.cons_append]
    unfold readInt
    dsimp only
    split
    · rename_i h0
      have hl : l = [] := by
        by_cases hn : n = 0
        · subst hn
          rw [Nat.toList_repr, Nat.toDigits_of_lt_base (by decide)] at h
          cases h; rfl
        · rw [Nat.toList_repr] at h
          exact absurd h0 (toDigits_first hn c l h)
      subst hl; rfl
    · unfold readDigits
      dsimp only
      rw [h1, h2, List.isEmpty_cons, if_neg (by simp)]

theorem readFraction_repr (n : Nat) :
    readFraction ('.' :: (Nat.repr n).toList) = some ('.' :: (Nat.repr n).toList, []) := by
  unfold readFraction
  dsimp only
  rw [if_pos rfl]
  unfold readDigits
  dsimp only
  rw [takeWhile_of_all (repr_digits n), dropWhile_of_all (repr_digits n)]
  cases h : (Nat.repr n).toList with
  | nil => exact absurd h (repr_ne_nil n)
  | cons c l => rfl

theorem readNumber_exPrint (x : ℚ) : readNumber (exPrint (.fin x)) = some (exPrint (.fin x), []) := by
  have hm := readMinus_digits ('.' :: (Nat.repr x.den).toList) (repr_digits x.num.natAbs) (repr_ne_nil _)
  have e4 : readExponent [] = some ([], []) := rfl
  have e2 : ∀ l, readMinus ('-' :: l) = (['-'], l) := fun _ => rfl
  unfold exPrint
  dsimp only
  split
  · unfold readNumber
    rw [List.append_assoc, List.singleton_append, e2]
    simp only [readInt_point, readFraction_repr, e4, Option.bind_eq_bind, Option.bind_some, List.append_nil,
      List.append_assoc, List.cons_append, List.nil_append]
  · unfold readNumber
    rw [List.nil_append, hm]
    simp only [readInt_point, readFraction_repr, e4, Option.bind_eq_bind, Option.bind_some, List.append_nil,
      List.nil_append]

theorem exNumText_exact : exNumText.Exact := by
  have key : ∀ x : Q, isFinite x = true → ∃ r, x = .fin r := by
    intro x hx
    cases x with
    | fin r => exact ⟨r, rfl⟩
    | nan => exact absurd hx (by decide)
    | pinf => exact absurd hx (by decide)
    | ninf => exact absurd hx (by decide)
  refine ⟨?_, ?_, ?_, ?_⟩ <;> (intro x hx; obtain ⟨r, rfl⟩ := key x hx)
  · exact readNumber_exPrint r
  · exact exRead_exPrint r
  · exact readNumber_exPrint r
  · exact exRead_exPrint r

end Verif
