import Verif.Model.Binning
import Verif.Proofs.Data

/-!
# Jagged matrices: columns and their end offsets
-/

namespace Verif

variable {T : Type}

/-- End offsets of consecutive columns, starting at `s`. -/
def endsOf (s : Nat) : List (List T) → List Nat
  | [] => []
  | l :: ls => (s + l.length) :: endsOf (s + l.length) ls

/-- The matrix holds these columns. -/
structure Jagged (ls : List (List T)) (m : JaggedMatrix T) : Prop where
  data_eq : m.data = ls.flatten
  ends_eq : m.ends = endsOf 0 ls

theorem length_endsOf (s : Nat) (ls : List (List T)) : (endsOf s ls).length = ls.length := by
  induction ls generalizing s with
  | nil => rfl
  | cons l ls ih => simp [endsOf, ih]

theorem getElem?_endsOf (s : Nat) (ls : List (List T)) (j : Nat) (h : j < ls.length) :
    (endsOf s ls)[j]? = some (s + (ls.take (j + 1)).flatten.length) := by
  induction ls generalizing s j with
  | nil => simp at h
  | cons l ls ih =>
    cases j with
    | zero => simp [endsOf]
    | succ j =>
      have := ih (s + l.length) j (by simpa using h)
      rw [endsOf, List.getElem?_cons_succ, this]
      simp [Nat.add_assoc]

theorem endsOf_append (s : Nat) (ls ls' : List (List T)) :
    endsOf s (ls ++ ls') = endsOf s ls ++ endsOf (s + ls.flatten.length) ls' := by
  induction ls generalizing s with
  | nil => simp [endsOf]
  | cons l ls ih => simp [endsOf, ih, Nat.add_assoc]

theorem endsOf_congr {T' : Type} (s : Nat) (ls : List (List T)) (ls' : List (List T'))
    (h : ls.map List.length = ls'.map List.length) : endsOf s ls = endsOf s ls' := by
  induction ls generalizing s ls' with
  | nil => cases ls' with
    | nil => rfl
    | cons _ _ => simp at h
  | cons l ls ih => cases ls' with
    | nil => simp at h
    | cons l' ls' =>
      simp only [List.map_cons, List.cons.injEq] at h
      rw [endsOf, endsOf, h.1, ih _ _ h.2]

theorem getLast?_endsOf (s : Nat) (ls : List (List T)) (h : ls ≠ []) :
    (endsOf s ls).getLast? = some (s + ls.flatten.length) := by
  rw [List.getLast?_eq_getElem?, length_endsOf,
    getElem?_endsOf _ _ _ (by have := List.length_pos_iff.2 h; omega)]
  congr 4
  rw [List.take_of_length_le (by omega)]

/-- Reading a column. -/
theorem Jagged.getCol {ls : List (List T)} {m : JaggedMatrix T} (h : Jagged ls m) (j : Nat) :
    m.getCol j = Res.ofOption ls[j]? := by
  unfold JaggedMatrix.getCol
  rw [h.ends_eq, h.data_eq, length_endsOf]
  by_cases hj : j < ls.length
  · rw [decide_eq_true hj, Res.assert_true, Res.ok_bind]
    have h0 : ∀ k : Nat → Res (List T),
        (if j = 0 then (Res.ok 0).bind k else (idx (endsOf 0 ls) (j - 1)).bind k) =
        k (ls.take j).flatten.length := by
      intro k
      split
      · next h => subst h; simp [Res.bind]
      · next h =>
        rw [idx_eq_ok.2 (getElem?_endsOf 0 ls (j - 1) (by omega)), Nat.zero_add,
          Nat.sub_add_cancel (by omega)]
        rfl
    refine (h0 _).trans ?_
    beta_reduce
    rw [idx_eq_ok.2 (getElem?_endsOf 0 ls j hj), Res.ok_bind, Nat.zero_add,
      List.getElem?_eq_getElem hj, Res.ofOption_some, slice_eq_ok]
    have h1 : (ls.take (j + 1)).flatten = (ls.take j).flatten ++ ls[j] := by
      rw [List.take_succ_eq_append_getElem hj, List.flatten_append]; simp only [List.flatten_cons, List.flatten_nil, List.append_nil]
    have h2 : ls.flatten = (ls.take j).flatten ++ (ls[j] ++ (ls.drop (j + 1)).flatten) := by
      conv_lhs => rw [← List.take_append_drop (j + 1) ls, List.flatten_append, h1]
      rw [List.append_assoc]
    refine ⟨by rw [h1, List.length_append]; omega, ?_, ?_⟩
    · rw [h1, h2]; simp
    · rw [h1, List.length_append, Nat.add_sub_cancel_left, h2, List.drop_left, List.take_left]
  · rw [decide_eq_false hj, Res.assert_false, List.getElem?_eq_none (by omega)]
    rfl

theorem Jagged.unique {ls ls' : List (List T)} {m : JaggedMatrix T} (h : Jagged ls m)
    (h' : Jagged ls' m) : ls = ls' := by
  apply List.ext_getElem?
  intro j
  have := (h.getCol j).symm.trans (h'.getCol j)
  cases h1 : ls[j]? <;> cases h2 : ls'[j]? <;> simp_all

theorem Jagged.pushCuts {ls : List (List T)} {m : JaggedMatrix T} (h : Jagged ls m)
    (c : List T) : Jagged (ls ++ [c]) (pushCuts m c) := by
  constructor
  · simp [Verif.pushCuts, h.data_eq]
  · simp only [Verif.pushCuts]
    rw [h.ends_eq, endsOf_append]
    by_cases hl : ls = []
    · subst hl; simp [endsOf]
    · rw [getLast?_endsOf 0 ls hl]; simp [endsOf]

theorem Jagged.foldl_pushCuts (cs : List (List T)) :
    Jagged cs (cs.foldl Verif.pushCuts JaggedMatrix.empty) := by
  have : ∀ (ls : List (List T)) (m : JaggedMatrix T), Jagged ls m →
      Jagged (ls ++ cs) (cs.foldl Verif.pushCuts m) := by
    induction cs with
    | nil => intro ls m h; simpa using h
    | cons c cs ih =>
      intro ls m h
      have := ih (ls ++ [c]) _ (h.pushCuts c)
      simpa using this
  simpa using this [] JaggedMatrix.empty ⟨rfl, rfl⟩

end Verif
