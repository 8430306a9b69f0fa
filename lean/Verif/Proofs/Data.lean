import Verif.Model.Data

/-!
# Lemmas on containers
-/

namespace Verif

variable {T : Type}

theorem Res.mapM'_exists {α β : Type} {f : α → Res β} {l : List α} (h : ∀ a ∈ l, ∃ b, f a = .ok b) :
    ∃ bs, Res.mapM' f l = .ok bs := by
  induction l with
  | nil => exact ⟨[], rfl⟩
  | cons a l ih =>
    obtain ⟨b, hb⟩ := h a (by simp)
    obtain ⟨bs, hbs⟩ := ih fun x hx => h x (by simp [hx])
    exact ⟨b :: bs, by simp [hb, hbs]⟩

theorem Res.bind_ne_diverge {α β : Type} {a : Res α} {f : α → Res β} (ha : a ≠ .diverge)
    (hf : ∀ x, f x ≠ .diverge) : (a >>= f) ≠ .diverge := by
  cases a with
  | ok x => exact hf x
  | panic => intro h; cases h
  | diverge => exact absurd rfl ha

theorem Res.mapM'_ne_diverge {α β : Type} {f : α → Res β} {l : List α}
    (h : ∀ a ∈ l, f a ≠ .diverge) : Res.mapM' f l ≠ .diverge := by
  induction l with
  | nil => simp
  | cons a l ih =>
    rw [Res.mapM'_cons]
    exact Res.bind_ne_diverge (h a (by simp)) fun b =>
      Res.bind_ne_diverge (ih fun x hx => h x (by simp [hx])) fun bs => by simp

theorem Res.eq_panic {α : Type} {a : Res α} (h : ∀ x, a ≠ .ok x) (h' : a ≠ .diverge) :
    a = .panic := by
  cases a with
  | ok x => exact absurd rfl (h x)
  | panic => rfl
  | diverge => exact absurd rfl h'

theorem idx_eq_ok {l : List T} {i : Nat} {x : T} : idx l i = .ok x ↔ l[i]? = some x :=
  Res.ofOption_eq_ok

theorem idx_of_lt {l : List T} {i : Nat} (h : i < l.length) : idx l i = .ok l[i] := by
  simp [idx, List.getElem?_eq_getElem h]

theorem idx_cases (l : List T) (i : Nat) :
    (i < l.length ∧ ∃ x, idx l i = .ok x) ∨ (l.length ≤ i ∧ idx l i = .panic) := by
  by_cases h : i < l.length
  · exact .inl ⟨h, _, idx_of_lt h⟩
  · exact .inr ⟨by omega, by simp [idx, List.getElem?_eq_none (Nat.le_of_not_lt h)]⟩

theorem idx_ne_diverge (l : List T) (i : Nat) : idx l i ≠ .diverge := by
  rcases idx_cases l i with ⟨_, x, h⟩ | ⟨_, h⟩ <;> simp [h]

theorem lt_of_idx_eq_ok {l : List T} {i : Nat} {x : T} (h : idx l i = .ok x) : i < l.length := by
  rw [idx_eq_ok] at h
  exact (List.getElem?_eq_some_iff.1 h).1

theorem slice_eq_ok {l r : List T} {i j : Nat} :
    slice l i j = .ok r ↔ i ≤ j ∧ j ≤ l.length ∧ r = (l.drop i).take (j - i) := by
  unfold slice
  split
  · next h => simp [h.1, h.2, eq_comm]
  · next h => simp; intro a b; exact absurd ⟨a, b⟩ h

theorem getElem?_stepAux (n : Nat) (hn : 0 < n) (l : List T) (k j : Nat) :
    (stepAux n k l)[j]? = l[k + j * n]? := by
  induction l generalizing k j with
  | nil => simp [stepAux]
  | cons a l ih =>
    cases k with
    | zero =>
      cases j with
      | zero => simp [stepAux]
      | succ j =>
        simp only [stepAux, List.getElem?_cons_succ, ih]
        have : 0 + (j + 1) * n = (n - 1 + j * n) + 1 := by
          rw [Nat.succ_mul]; omega
        rw [this, List.getElem?_cons_succ]
    | succ k =>
      simp only [stepAux, ih]
      have : k + 1 + j * n = (k + j * n) + 1 := by omega
      rw [this, List.getElem?_cons_succ]

end Verif
