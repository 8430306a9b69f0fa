import Verif.Model.Sampler
import Verif.Proofs.Order
import Verif.Proofs.Data
import Mathlib.Data.List.Perm.Basic
import Mathlib.Data.List.Nodup

/-!
# Facts about row and column sampling
-/

namespace Verif

open scoped Verif

set_option linter.unusedSectionVars false

variable {R F D : Type} [Fl F] [Fl D] [FlCast F D]

/-- The next `n` numbers of a generator. -/
def draws {T : Type} (gen : R → T × R) : R → Nat → List T
  | _, 0 => []
  | r, n + 1 => (gen r).1 :: draws gen (gen r).2 n

theorem length_draws {T : Type} (gen : R → T × R) (r : R) (n : Nat) : (draws gen r n).length = n := by
  induction n generalizing r with
  | zero => rfl
  | succ n ih => simp [draws, ih]

/-- The elements whose number satisfies a test, in order. -/
def pickBy {α T : Type} (test : T → Bool) (l : List α) (xs : List T) : List α :=
  ((l.zip xs).filter fun p => test p.2).map Prod.fst

theorem pickBy_cons {α T : Type} (test : T → Bool) (a : α) (l : List α) (x : T) (xs : List T) :
    pickBy test (a :: l) (x :: xs) =
      if test x = true then a :: pickBy test l xs else pickBy test l xs := by
  unfold pickBy
  rw [List.zip_cons_cons, List.filter_cons]
  split <;> rfl

theorem pickBy_sublist {α T : Type} (test : T → Bool) (l : List α) (xs : List T) :
    (pickBy test l xs).Sublist l := by
  induction l generalizing xs with
  | nil => simp [pickBy]
  | cons a l ih =>
    cases xs with
    | nil => simp [pickBy]
    | cons x xs =>
      rw [pickBy_cons]
      split
      · exact (ih xs).cons_cons a
      · exact (ih xs).cons a

theorem pickBy_perm {α T : Type} (test : T → Bool) (l : List α) (xs : List T)
    (h : l.length ≤ xs.length) : (pickBy test l xs ++ pickBy (fun x => !test x) l xs).Perm l := by
  induction l generalizing xs with
  | nil => simp [pickBy]
  | cons a l ih =>
    cases xs with
    | nil => simp at h
    | cons x xs =>
      rw [pickBy_cons, pickBy_cons]
      have := ih xs (by simpa using h)
      cases hx : test x
      · simp only [Bool.false_eq_true, if_false, Bool.not_false, if_true]
        exact List.perm_middle.trans (this.cons a)
      · simp only [if_true, Bool.not_true, Bool.false_eq_true, if_false, List.cons_append]
        exact this.cons a

theorem randomSample_eq (g : Rng R F D) (s : F) (r : R) (index : List Nat) :
    (randomSample g s r index).1 = pickBy (fun x => x <ᶠ s) index (draws g.genF r index.length) ∧
    (randomSample g s r index).2.1 =
      pickBy (fun x => !(x <ᶠ s)) index (draws g.genF r index.length) := by
  induction index generalizing r with
  | nil => exact ⟨rfl, rfl⟩
  | cons i l ih =>
    obtain ⟨h1, h2⟩ := ih (g.genF r).2
    rw [List.length_cons, draws, pickBy_cons, pickBy_cons, randomSample]
    simp only
    split
    · rename_i hx
      simp only [hx, Bool.not_true, Bool.false_eq_true, if_false]
      exact ⟨by rw [h1], h2⟩
    · rename_i hx
      simp only [Bool.not_eq_true] at hx
      simp only [hx, Bool.not_false, if_true]
      exact ⟨h1, by rw [h2]⟩

theorem gossLoop_ok {g : Rng R F D} {fact : F} {s : D} {l : List Nat} :
    ∀ {r r' : R} {grad hess grad' hess' : List F} {u : List Nat}, l.Nodup →
      gossLoop g fact s r l grad hess = .ok (u, grad', hess', r') →
      u = pickBy (fun x => x <ᶠ s) l (draws g.genD r l.length) ∧
      grad'.length = grad.length ∧ hess'.length = hess.length ∧
      (∀ i ∈ u, ∃ x y, grad[i]? = some x ∧ hess[i]? = some y ∧
        grad'[i]? = some (x * fact) ∧ hess'[i]? = some (y * fact)) ∧
      ∀ i, i ∉ u → grad'[i]? = grad[i]? ∧ hess'[i]? = hess[i]? := by
  induction l with
  | nil =>
    intro r r' grad hess grad' hess' u _ h
    cases h
    exact ⟨rfl, rfl, rfl, by simp, fun _ _ => ⟨rfl, rfl⟩⟩
  | cons i l ih =>
    intro r r' grad hess grad' hess' u hnd h
    obtain ⟨hi, hnd⟩ := List.nodup_cons.1 hnd
    rw [List.length_cons, draws, pickBy_cons]
    rw [gossLoop] at h
    simp only at h
    split at h
    · rename_i hx
      rw [if_pos hx]
      simp only [Res.bind_eq_ok] at h
      obtain ⟨gi, e1, hi', e2, ⟨u', g', h', r''⟩, e3, h⟩ := h
      simp only [Res.ok.injEq, Prod.mk.injEq] at h
      obtain ⟨rfl, rfl, rfl, rfl⟩ := h
      obtain ⟨a1, a2, a3, a4, a5⟩ := ih hnd e3
      rw [idx_eq_ok] at e1 e2
      have hiu : i ∉ u' := by
        rw [a1]; exact fun h => hi ((pickBy_sublist _ _ _).subset h)
      have l1 := (List.getElem?_eq_some_iff.1 e1).1
      have l2 := (List.getElem?_eq_some_iff.1 e2).1
      refine ⟨by rw [a1], by rw [a2, List.length_set], by rw [a3, List.length_set], ?_, ?_⟩
      · intro j hj
        rcases List.mem_cons.1 hj with rfl | hj
        · obtain ⟨b1, b2⟩ := a5 _ hiu
          refine ⟨gi, hi', e1, e2, ?_, ?_⟩
          · rw [b1, List.getElem?_set_self l1]
          · rw [b2, List.getElem?_set_self l2]
        · have hne : i ≠ j := by rintro rfl; exact hiu hj
          obtain ⟨x, y, c1, c2, c3, c4⟩ := a4 j hj
          rw [List.getElem?_set_ne hne] at c1 c2
          exact ⟨x, y, c1, c2, c3, c4⟩
      · intro j hj
        have hne : i ≠ j := by rintro rfl; exact hj (List.mem_cons_self ..)
        obtain ⟨b1, b2⟩ := a5 j (fun h => hj (List.mem_cons_of_mem _ h))
        rw [List.getElem?_set_ne hne] at b1 b2
        exact ⟨b1, b2⟩
    · rename_i hx
      rw [if_neg hx]
      exact ih hnd h

theorem keys_eq {grad : List F} {n : Nat} {keys : List (Nat × F)}
    (h : Res.mapM' (fun i => do
      let x ← idx grad i
      pure (i, Fl.abs x)) (List.range n) = .ok keys) :
    keys.map Prod.fst = List.range n ∧
    ∀ p ∈ keys, ∃ x, grad[p.1]? = some x ∧ p.2 = Fl.abs x := by
  rw [Res.mapM'_eq_ok] at h
  generalize List.range n = l at h ⊢
  induction h with
  | nil => simp
  | cons h _ ih =>
    simp only [Res.bind_eq_ok, Res.pure_def, Res.ok.injEq] at h
    obtain ⟨x, hx, rfl⟩ := h
    refine ⟨by simp [ih.1], ?_⟩
    intro p hp
    rcases List.mem_cons.1 hp with rfl | hp
    · exact ⟨x, idx_eq_ok.1 hx, rfl⟩
    · exact ih.2 p hp

/-- The parts of a GOSS sample. -/
theorem gossSample_parts {S : Sorter} (hS : S.Ok) {g : Rng R F D} {a b : D} {r r' : R}
    {index rows : List Nat} {grad hess grad' hess' : List F}
    (h : gossSample S g a b r index grad hess = .ok (rows, grad', hess', r')) :
    ∃ (order : List Nat) (keys : List (Nat × F)) (k : Nat) (u : List Nat) (s : D),
      order = keys.map Prod.fst ∧ order.Perm (List.range index.length) ∧
      (∀ p ∈ keys, ∃ x, grad[p.1]? = some x ∧ p.2 = Fl.abs x) ∧
      (∃ l, keys = S.sort (fun p q => Fl.tle q.2 p.2) l) ∧
      k = Fl.toNat (a * Fl.ofNat index.length) ∧ k ≤ index.length ∧
      s = Fl.ofNat (Fl.toNat (b * Fl.ofNat index.length)) / (Fl.ofNat index.length - Fl.ofNat k) ∧
      rows = order.take k ++ u ∧
      u = pickBy (fun x => x <ᶠ s) (order.drop k) (draws g.genD r (index.length - k)) ∧
      grad'.length = grad.length ∧ hess'.length = hess.length ∧
      (∀ i ∈ u, ∃ x y, grad[i]? = some x ∧ hess[i]? = some y ∧
        grad'[i]? = some (x * down ((1 - a) / b)) ∧ hess'[i]? = some (y * down ((1 - a) / b))) ∧
      ∀ i, i ∉ u → grad'[i]? = grad[i]? ∧ hess'[i]? = hess[i]? := by
  unfold gossSample at h
  simp only [Res.bind_eq_ok] at h
  obtain ⟨keys, h1, used, h2, ⟨u, g', h', r''⟩, h3, h⟩ := h
  simp only [Res.ok.injEq, Prod.mk.injEq] at h
  obtain ⟨rfl, rfl, rfl, rfl⟩ := h
  obtain ⟨k1, k2⟩ := keys_eq h1
  have hp := hS.perm (fun p q : Nat × F => Fl.tle q.2 p.2) keys
  have hperm : ((S.sort (fun p q : Nat × F => Fl.tle q.2 p.2) keys).map Prod.fst).Perm
      (List.range index.length) := by rw [← k1]; exact hp.map _
  have hlen : ((S.sort (fun p q : Nat × F => Fl.tle q.2 p.2) keys).map Prod.fst).length =
      index.length := by rw [hperm.length_eq, List.length_range]
  obtain ⟨s1, s2, s3⟩ := slice_eq_ok.1 h2
  rw [hlen] at s2
  have hnd : ((S.sort (fun p q : Nat × F => Fl.tle q.2 p.2) keys).map Prod.fst).Nodup :=
    hperm.nodup_iff.2 List.nodup_range
  obtain ⟨c1, c2⟩ := gossLoop_ok (hnd.sublist (List.drop_sublist _ _)) h3
  refine ⟨_, S.sort (fun p q : Nat × F => Fl.tle q.2 p.2) keys, _, u, _, rfl, hperm,
    fun p hp' => k2 p (hp.subset hp'), ⟨keys, rfl⟩, rfl, s2, rfl, ?_, ?_, c2⟩
  · rw [s3]; simp
  · rw [c1, List.length_drop, hlen]

/-- The sampled rows are distinct rows of the data. -/
theorem sampleIndex_rows {S : Sorter} (hS : S.Ok) {g : Rng R F D} {m : SampleMethod} {s : F} {a b : D}
    {r r' : R} {n : Nat} {rows : List Nat} {grad hess grad' hess' : List F}
    (h : sampleIndex S g m s a b r (List.range n) grad hess = .ok (rows, grad', hess', r')) :
    rows.Nodup ∧ (∀ i ∈ rows, i < n) ∧ grad'.length = grad.length ∧ hess'.length = hess.length := by
  unfold sampleIndex at h
  split at h
  · cases h
    exact ⟨List.nodup_range, by simp, rfl, rfl⟩
  · simp only [Res.ok.injEq, Prod.mk.injEq] at h
    obtain ⟨rfl, rfl, rfl, _⟩ := h
    rw [(randomSample_eq _ _ _ _).1]
    refine ⟨List.nodup_range.sublist (pickBy_sublist _ _ _), ?_, rfl, rfl⟩
    intro i hi
    simpa using (pickBy_sublist _ _ _).subset hi
  · obtain ⟨order, keys, k, u, s, _, h2, _, _, _, _, _, h8, h9, h10, h11, _⟩ :=
      gossSample_parts hS h
    rw [List.length_range] at h2
    have hsub : rows.Sublist order := by
      rw [h8]
      conv => rhs; rw [← List.take_append_drop k order]
      rw [h9]
      exact (List.Sublist.refl _).append (pickBy_sublist _ _ _)
    refine ⟨(h2.nodup_iff.2 List.nodup_range).sublist hsub, ?_, h10, h11⟩
    intro i hi
    simpa using h2.subset (hsub.subset hi)

/-- The sampled columns are distinct columns in increasing order. -/
theorem sampleColumns_sorted {g : Rng R F D} (hg : g.Ok) {rate : D} {r r' : R} {cols : Nat}
    {cs : List Nat} (h : sampleColumns g rate r cols = (cs, r')) :
    cs.Pairwise (· < ·) ∧ (∀ f ∈ cs, f < cols) ∧
    cs.length = if rate =ᶠ 1 then cols else min (Fl.toNat (Fl.ofNat cols * rate)) cols := by
  unfold sampleColumns at h
  split at h
  · rename_i h1
    cases h
    rw [if_pos h1]
    exact ⟨List.pairwise_lt_range, by simp, by simp⟩
  · rename_i h1
    rw [if_neg h1]
    simp only [Prod.mk.injEq] at h
    obtain ⟨rfl, _⟩ := h
    have hp := List.perm_insertionSort (· ≤ ·)
      (g.choose r (List.range cols) (Fl.toNat (Fl.ofNat cols * rate))).1
    have hs := hg.subperm r (List.range cols) (Fl.toNat (Fl.ofNat cols * rate))
    have hnd : (g.choose r (List.range cols) (Fl.toNat (Fl.ofNat cols * rate))).1.Nodup :=
      hs.elim fun _ h => h.1.nodup_iff.1 (List.nodup_range.sublist h.2)
    refine ⟨?_, ?_, ?_⟩
    · have h1 := List.pairwise_insertionSort (· ≤ ·)
        (g.choose r (List.range cols) (Fl.toNat (Fl.ofNat cols * rate))).1
      have h2 : (List.insertionSort (· ≤ ·)
        (g.choose r (List.range cols) (Fl.toNat (Fl.ofNat cols * rate))).1).Nodup :=
          hp.nodup_iff.2 hnd
      exact (h1.and h2).imp fun h => lt_of_le_of_ne h.1 h.2
    · intro f hf
      simpa using hs.subset (hp.subset hf)
    · rw [hp.length_eq, hg.length, List.length_range]

end Verif
