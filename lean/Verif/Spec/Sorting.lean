import Verif.Spec.ExampleFit

/-!
# The example sorter satisfies the assumption about sorting
-/

namespace Verif

theorem pairwise_orderedInsert {α : Type} {r : α → α → Prop} [DecidableRel r] {a : α} {l : List α}
    (ht : ∀ x ∈ a :: l, ∀ y ∈ a :: l, ∀ z ∈ a :: l, r x y → r y z → r x z)
    (hc : ∀ x ∈ a :: l, ∀ y ∈ a :: l, r x y ∨ r y x) (hl : l.Pairwise r) :
    (l.orderedInsert r a).Pairwise r := by
  induction l with
  | nil => simp
  | cons b l ih =>
    obtain ⟨h1, h2⟩ := List.pairwise_cons.1 hl
    rw [List.orderedInsert_cons]
    split
    · next hab =>
      refine List.pairwise_cons.2 ⟨fun x hx => ?_, hl⟩
      rcases List.mem_cons.1 hx with e | hx
      · rw [e]; exact hab
      · exact ht a (by simp) b (by simp) x (by simp [hx]) hab (h1 x hx)
    · next hab =>
      have sub : ∀ {x}, x ∈ a :: l → x ∈ a :: b :: l := by
        intro x hx
        rcases List.mem_cons.1 hx with e | hx
        · simp [e]
        · simp [hx]
      refine List.pairwise_cons.2 ⟨fun x hx => ?_, ih
        (fun x hx y hy z hz => ht x (sub hx) y (sub hy) z (sub hz))
        (fun x hx y hy => hc x (sub hx) y (sub hy)) h2⟩
      rw [List.mem_orderedInsert] at hx
      rcases hx with e | hx
      · rw [e]
        rcases hc a (by simp) b (by simp) with h | h
        · exact absurd h hab
        · exact h
      · exact h1 x hx

theorem pairwise_insertionSort' {α : Type} {r : α → α → Prop} [DecidableRel r] {l : List α}
    (ht : ∀ x ∈ l, ∀ y ∈ l, ∀ z ∈ l, r x y → r y z → r x z)
    (hc : ∀ x ∈ l, ∀ y ∈ l, r x y ∨ r y x) : (l.insertionSort r).Pairwise r := by
  induction l with
  | nil => simp
  | cons a l ih =>
    have mem : ∀ {x}, x ∈ a :: l.insertionSort r ↔ x ∈ a :: l := by
      intro x; simp
    rw [List.insertionSort_cons]
    apply pairwise_orderedInsert
    · exact fun x hx y hy z hz => ht x (mem.1 hx) y (mem.1 hy) z (mem.1 hz)
    · exact fun x hx y hy => hc x (mem.1 hx) y (mem.1 hy)
    · exact ih (fun x hx y hy z hz => ht x (by simp [hx]) y (by simp [hy]) z (by simp [hz]))
        (fun x hx y hy => hc x (by simp [hx]) y (by simp [hy]))

theorem exSorter_ok : exSorter.Ok where
  perm _ l := List.perm_insertionSort _ l
  sorted _ _ ht hc := pairwise_insertionSort' ht hc

end Verif
