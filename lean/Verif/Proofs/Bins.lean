import Verif.Proofs.Jagged
import Verif.Proofs.Order
import Verif.Proofs.Route
import Mathlib.Data.List.Perm.Basic

/-!
# Cut values and bins
-/

namespace Verif

open scoped Verif

set_option linter.unusedSectionVars false

section search
variable {F : Type} [Fl F]

/-- The binary search finds the boundary of a monotone predicate. -/
theorem mapBinLoop_spec (x : List F) (v : F)
    (hmono : ∀ (i j : Nat) (a b : F), i ≤ j → x[i]? = some a → x[j]? = some b → (b ≤ᶠ v) = true → (a ≤ᶠ v) = true) :
    ∀ (n low high : Nat), high - low ≤ n → low ≤ high → high ≤ x.length →
      (∀ (i : Nat) (a : F), i < low → x[i]? = some a → (a ≤ᶠ v) = true) →
      (∀ (i : Nat) (a : F), high ≤ i → x[i]? = some a → (a ≤ᶠ v) = false) →
      ∃ k, mapBinLoop x v n low high = .ok k ∧ k ≤ x.length ∧
        ∀ (i : Nat) (a : F), x[i]? = some a → ((a ≤ᶠ v) = true ↔ i < k) := by
  have fin : ∀ k, k ≤ x.length → (∀ (i : Nat) (a : F), i < k → x[i]? = some a → (a ≤ᶠ v) = true) →
      (∀ (i : Nat) (a : F), k ≤ i → x[i]? = some a → (a ≤ᶠ v) = false) →
      ∀ (i : Nat) (a : F), x[i]? = some a → ((a ≤ᶠ v) = true ↔ i < k) := by
    intro k _ h1 h2 i a ha
    constructor
    · intro h
      by_contra hc
      rw [h2 i a (by omega) ha] at h; cases h
    · intro h; exact h1 i a h ha
  intro n
  induction n with
  | zero =>
    intro low high hn hle hx h1 h2
    have : low = high := by omega
    subst this
    exact ⟨low, by simp [mapBinLoop], hx, fin low hx h1 h2⟩
  | succ n ih =>
    intro low high hn hle hx h1 h2
    unfold mapBinLoop
    split
    · next he => subst he; exact ⟨low, rfl, hx, fin low hx h1 h2⟩
    · next hne =>
      have hm : (low + high) / 2 < x.length := by omega
      simp only [idx_of_lt hm, Res.ok_bind]
      have hg := List.getElem?_eq_getElem hm
      split
      · next hc =>
        exact ih _ _ (by omega) (by omega) hx
          (fun i a hi ha => hmono i _ a _ (by omega) ha hg hc) h2
      · next hc =>
        refine ih _ _ (by omega) (by omega) (by omega) h1 (fun i a hi ha => ?_)
        cases hav : (a ≤ᶠ v)
        · rfl
        · exact absurd (hmono _ i _ a hi hg ha hav) hc

theorem mapBin_of_missing (x : List F) {v missing : F} (h : IsMissing missing v) :
    mapBin x v missing = .ok (some 0) := by
  unfold mapBin
  unfold IsMissing at h
  split at h
  · simp [h]
  · simp [h]

end search

section ord
variable {F : Type} [Fl F] [Fl.OrdLaws F]

theorem mono_of_increasing {x : List F} (hx : x.Pairwise fun a b => (a <ᶠ b) = true) (v : F)
    (i j : Nat) (a b : F) (hij : i ≤ j) (ha : x[i]? = some a) (hb : x[j]? = some b)
    (h : (b ≤ᶠ v) = true) : (a ≤ᶠ v) = true := by
  rcases Nat.eq_or_lt_of_le hij with he | hl
  · subst he; rw [ha] at hb; injection hb with hb; rw [hb]; exact h
  · obtain ⟨h1, e1⟩ := List.getElem?_eq_some_iff.1 ha
    obtain ⟨h2, e2⟩ := List.getElem?_eq_some_iff.1 hb
    have := List.pairwise_iff_getElem.1 hx i j h1 h2 hl
    rw [e1, e2] at this
    exact Fl.le_trans (Fl.le_of_lt this) h

/-- The bin of a value that is not missing: the number of cuts not above it, if it fits. -/
theorem mapBin_spec {x : List F} (hx : x.Pairwise fun a b => (a <ᶠ b) = true) {v missing : F}
    (hv : isNaN v = false) (hm : ¬ IsMissing missing v) :
    ∃ k, k ≤ x.length ∧ (∀ (i : Nat) (a : F), x[i]? = some a → ((a ≤ᶠ v) = true ↔ i < k)) ∧
      mapBin x v missing = .ok (if k < 65536 then some k else none) := by
  have hne : (v =ᶠ missing) = false := by
    unfold IsMissing at hm
    split at hm
    · next h =>
      cases hc : (v =ᶠ missing)
      · rfl
      · rw [(Fl.OrdLaws.feq_num _ _ hc).2] at h; cases h
    · simpa using hm
  obtain ⟨k, h1, h2, h3⟩ := mapBinLoop_spec x v (mono_of_increasing hx v) (x.length + 1) 0 x.length
    (by omega) (by omega) le_rfl (fun i a hi => absurd hi (by omega)) (fun i a hi ha => by
      rw [List.getElem?_eq_none hi] at ha; cases ha)
  refine ⟨k, h2, h3, ?_⟩
  unfold mapBin
  rw [hv, hne, h1]
  rfl

/-! ## Removal of duplicates -/

/-- Not decreasing. -/
abbrev Sorted (l : List F) : Prop := l.Pairwise fun a b => (a ≤ᶠ b) = true

/-- Strictly increasing. -/
abbrev Increasing (l : List F) : Prop := l.Pairwise fun a b => (a <ᶠ b) = true

theorem dedupGo_mem {a : F} {l : List F} {x : F} (h : x ∈ dedupF.go a l) : x ∈ l := by
  induction l generalizing a with
  | nil => simp [dedupF.go] at h
  | cons b l ih =>
    unfold dedupF.go at h
    split at h
    · exact List.mem_cons_of_mem _ (ih h)
    · rcases List.mem_cons.1 h with h | h
      · rw [h]; simp
      · exact List.mem_cons_of_mem _ (ih h)

theorem dedup_mem {l : List F} {x : F} (h : x ∈ dedupF l) : x ∈ l := by
  cases l with
  | nil => simp [dedupF] at h
  | cons a l =>
    rcases List.mem_cons.1 h with h | h
    · rw [h]; simp
    · exact List.mem_cons_of_mem _ (dedupGo_mem h)

theorem dedupGo_increasing {a : F} {l : List F} (h : Sorted (a :: l)) :
    Increasing (a :: dedupF.go a l) := by
  induction l generalizing a with
  | nil => simp [dedupF.go]
  | cons b l ih =>
    obtain ⟨h1, h2⟩ := List.pairwise_cons.1 h
    obtain ⟨h3, h4⟩ := List.pairwise_cons.1 h2
    unfold dedupF.go
    split
    · exact ih (List.pairwise_cons.2 ⟨fun x hx => h1 x (List.mem_cons_of_mem _ hx), h4⟩)
    · next hne =>
      have hab := Fl.lt_of_le_of_ne (h1 b (by simp)) (by simpa using hne)
      have := ih h2
      refine List.pairwise_cons.2 ⟨fun x hx => ?_, this⟩
      rcases List.mem_cons.1 hx with hx | hx
      · rw [hx]; exact hab
      · exact Fl.OrdLaws.lt_trans _ _ _ hab ((List.pairwise_cons.1 this).1 x hx)

theorem dedup_increasing {l : List F} (h : Sorted l) : Increasing (dedupF l) := by
  cases l with
  | nil => exact List.Pairwise.nil
  | cons a l => exact dedupGo_increasing h

theorem dedupGo_cover {a : F} {l : List F} (h : Sorted (a :: l)) {x : F} (hx : x ∈ l) :
    ∃ y ∈ a :: dedupF.go a l, (y =ᶠ x) = true := by
  induction l generalizing a with
  | nil => simp at hx
  | cons b l ih =>
    obtain ⟨h1, h2⟩ := List.pairwise_cons.1 h
    obtain ⟨h3, h4⟩ := List.pairwise_cons.1 h2
    unfold dedupF.go
    split
    · next heq =>
      rcases List.mem_cons.1 hx with hx | hx
      · subst hx; exact ⟨a, by simp, heq⟩
      · exact ih (List.pairwise_cons.2 ⟨fun x hx => h1 x (List.mem_cons_of_mem _ hx), h4⟩) hx
    · rcases List.mem_cons.1 hx with hx | hx
      · subst hx
        exact ⟨x, by simp, Fl.feq_iff_le.2 ⟨Fl.le_refl (Fl.OrdLaws.le_num _ _ (h1 x (by simp))).2,
          Fl.le_refl (Fl.OrdLaws.le_num _ _ (h1 x (by simp))).2⟩⟩
      · obtain ⟨y, hy, e⟩ := ih h2 hx
        exact ⟨y, List.mem_cons_of_mem _ hy, e⟩

/-- Every element is equal to one that is kept. -/
theorem dedup_cover {l : List F} (h : Sorted l) (hn : ∀ a ∈ l, isNaN a = false) {x : F}
    (hx : x ∈ l) : ∃ y ∈ dedupF l, (y =ᶠ x) = true := by
  cases l with
  | nil => simp at hx
  | cons a l =>
    rcases List.mem_cons.1 hx with hx | hx
    · subst hx
      exact ⟨x, by simp [dedupF], Fl.feq_iff_le.2 ⟨Fl.le_refl (hn _ (by simp)), Fl.le_refl (hn _ (by simp))⟩⟩
    · exact dedupGo_cover h hx

/-- A list that increases strictly loses nothing. -/
theorem dedupGo_of_increasing {a : F} {l : List F} (h : Increasing (a :: l)) : dedupF.go a l = l := by
  induction l generalizing a with
  | nil => rfl
  | cons b l ih =>
    obtain ⟨h1, h2⟩ := List.pairwise_cons.1 h
    unfold dedupF.go
    have : (a =ᶠ b) = false := by
      cases hc : (a =ᶠ b)
      · rfl
      · have := Fl.not_lt_of_le (Fl.feq_iff_le.1 hc).2
        rw [h1 b (by simp)] at this; cases this
    rw [if_neg (by simp [this]), ih h2]

theorem dedupGo_append_last {a m : F} {l : List F} (h : Sorted (a :: (l ++ [m]))) :
    ∃ init last, a :: dedupF.go a (l ++ [m]) = init ++ [last] ∧ (last =ᶠ m) = true ∧
      ∀ x ∈ init, x ∈ a :: l := by
  induction l generalizing a with
  | nil =>
    simp only [List.nil_append, dedupF.go]
    have hm := (List.pairwise_cons.1 h).1 m (by simp)
    split
    · next hc => exact ⟨[], a, rfl, hc, by simp⟩
    · exact ⟨[a], m, rfl, Fl.feq_iff_le.2 ⟨Fl.le_refl (Fl.OrdLaws.le_num _ _ hm).2,
        Fl.le_refl (Fl.OrdLaws.le_num _ _ hm).2⟩, by simp⟩
  | cons b l ih =>
    obtain ⟨h1, h2⟩ := List.pairwise_cons.1 h
    obtain ⟨h3, h4⟩ := List.pairwise_cons.1 h2
    simp only [List.cons_append, dedupF.go]
    split
    · obtain ⟨init, last, e, hl, hi⟩ :=
        ih (List.pairwise_cons.2 ⟨fun x hx => h1 x (List.mem_cons_of_mem _ hx), h4⟩)
      refine ⟨init, last, e, hl, fun x hx => ?_⟩
      have := hi x hx
      simp only [List.mem_cons] at this ⊢
      tauto
    · obtain ⟨init, last, e, hl, hi⟩ := ih h2
      refine ⟨a :: init, last, by rw [e]; rfl, hl, fun x hx => ?_⟩
      rcases List.mem_cons.1 hx with hx | hx
      · rw [hx]; simp
      · exact List.mem_cons_of_mem _ (hi x hx)

theorem dedup_append_last {c : List F} {m : F} (h : Sorted (c ++ [m])) (hm : isNaN m = false) :
    ∃ init last, dedupF (c ++ [m]) = init ++ [last] ∧ (last =ᶠ m) = true ∧ ∀ x ∈ init, x ∈ c := by
  cases c with
  | nil => exact ⟨[], m, rfl, Fl.feq_iff_le.2 ⟨Fl.le_refl hm, Fl.le_refl hm⟩, by simp⟩
  | cons a l => exact dedupGo_append_last h

/-! ## Sorting -/

theorem sortPartialCmp_spec {S : Sorter} (hS : S.Ok) {α : Type} (key : α → F) (l : List α)
    (hn : ∀ a ∈ l, isNaN (key a) = false) :
    ∃ s, sortPartialCmp S key l = .ok s ∧ s.Perm l ∧
      s.Pairwise fun a b => (key a ≤ᶠ key b) = true := by
  refine ⟨S.sort (fun a b => key a ≤ᶠ key b) l, ?_, hS.perm _ _, ?_⟩
  · unfold sortPartialCmp
    rw [if_neg]
    rintro ⟨_, h⟩
    obtain ⟨a, ha, hc⟩ := List.any_eq_true.1 h
    rw [hn a ha] at hc; cases hc
  · exact hS.sorted _ _ (fun a _ b _ c _ h h' => Fl.le_trans h h')
      (fun a ha b hb => Fl.le_total (hn a ha) (hn b hb))

/-! ## Percentiles -/

/-- What the loop preserves: the output does not decrease and consists of values already seen. -/
theorem pctWhile_spec {cuml value : F} (hv : isNaN value = false) {S : F → Prop} (hS : S value) :
    ∀ (pcts : List F) (cur : F) (p : List F), Sorted p → (∀ x ∈ p, (x ≤ᶠ value) = true ∧ S x) →
      Sorted (pctWhile cuml value cur pcts p).1 ∧
        ∀ x ∈ (pctWhile cuml value cur pcts p).1, (x ≤ᶠ value) = true ∧ S x := by
  have push : ∀ p : List F, Sorted p → (∀ x ∈ p, (x ≤ᶠ value) = true ∧ S x) →
      Sorted (p ++ [value]) ∧ ∀ x ∈ p ++ [value], (x ≤ᶠ value) = true ∧ S x := by
    intro p hp hx
    refine ⟨List.pairwise_append.2 ⟨hp, List.pairwise_singleton _ _, fun a ha b hb => ?_⟩,
      fun x hx' => ?_⟩
    · rw [List.mem_singleton.1 hb]; exact (hx a ha).1
    · rcases List.mem_append.1 hx' with h | h
      · exact hx x h
      · rw [List.mem_singleton.1 h]; exact ⟨Fl.le_refl hv, hS⟩
  intro pcts
  induction pcts with
  | nil =>
    intro cur p hp hx
    unfold pctWhile
    split
    · exact push p hp hx
    · exact ⟨hp, hx⟩
  | cons nxt rest ih =>
    intro cur p hp hx
    unfold pctWhile
    split
    · obtain ⟨h1, h2⟩ := push p hp hx
      exact ih nxt (p ++ [value]) h1 h2
    · exact ⟨hp, hx⟩

/-- Levels left. -/
def levelsLeft : Option (F × List F) → Nat
  | none => 0
  | some (_, r) => 1 + r.length

theorem pctWhile_length {cuml value : F} : ∀ (pcts : List F) (cur : F) (p : List F),
    (pctWhile cuml value cur pcts p).1.length + levelsLeft (pctWhile cuml value cur pcts p).2 =
      p.length + 1 + pcts.length := by
  intro pcts
  induction pcts with
  | nil => intro cur p; unfold pctWhile; split <;> simp [levelsLeft]
  | cons nxt rest ih =>
    intro cur p
    unfold pctWhile
    split
    · rw [ih]; simp; omega
    · simp [levelsLeft]; omega

theorem pctLoop_spec {total last : F} (S : F → Prop) (hl : S last) :
    ∀ (l : List (F × F)) (curValue cuml curPct : F) (pcts p : List F),
      Sorted (curValue :: l.map Prod.fst) → (∀ x ∈ l, S x.1) → S curValue →
      isNaN curValue = false → (∀ x ∈ l, (x.1 ≤ᶠ last) = true) →
      Sorted p → (∀ x ∈ p, (x ≤ᶠ curValue) = true ∧ S x) →
      Sorted (pctLoop total last l curValue cuml curPct pcts p) ∧
        ∀ x ∈ pctLoop total last l curValue cuml curPct pcts p, S x := by
  intro l
  induction l with
  | nil => intro cv cu cp pcts p _ _ _ _ _ hp hx; exact ⟨hp, fun x h => (hx x h).2⟩
  | cons vw l ih =>
    obtain ⟨v, w⟩ := vw
    intro cv cu cp pcts p hs hS hcv hn hlast hp hx
    unfold pctLoop
    simp only
    obtain ⟨h1, h2⟩ := List.pairwise_cons.1 hs
    simp only [List.map_cons] at h1 h2
    obtain ⟨h3, h4⟩ := List.pairwise_cons.1 h2
    have hcvv := h1 v (by simp)
    -- the current value
    set c : F := if (cv =ᶠ v) = true then cv else v with hc
    have hSc : S c := by rw [hc]; split; exacts [hcv, hS (v, w) (by simp)]
    have hnc : isNaN c = false := by
      rw [hc]; split; exacts [hn, (Fl.OrdLaws.le_num _ _ hcvv).2]
    have hge : (cv ≤ᶠ c) = true := by rw [hc]; split; exacts [Fl.le_refl hn, hcvv]
    have hcl : (c ≤ᶠ v) = true := by
      rw [hc]; split; exacts [hcvv, Fl.le_refl (Fl.OrdLaws.le_num _ _ hcvv).2]
    have hsc : Sorted (c :: l.map Prod.fst) :=
      List.pairwise_cons.2 ⟨fun a ha => Fl.le_trans hcl (h3 a ha), h4⟩
    have hpx : ∀ x ∈ p, (x ≤ᶠ c) = true ∧ S x := fun x h =>
      ⟨Fl.le_trans (hx x h).1 hge, (hx x h).2⟩
    have hlast' : ∀ x ∈ l, (x.1 ≤ᶠ last) = true := fun x h => hlast x (List.mem_cons_of_mem _ h)
    have hS' : ∀ x ∈ l, S x.1 := fun x h => hS x (List.mem_cons_of_mem _ h)
    split
    · obtain ⟨w1, w2⟩ := pctWhile_spec (cuml := cu + w / total) hnc hSc pcts cp p hp hpx
      split
      · next e => rw [e] at w1 w2; exact ⟨w1, fun x h => (w2 x h).2⟩
      · next e => rw [e] at w1 w2; exact ih _ _ _ _ _ hsc hS' hSc hnc hlast' w1 w2
    · split
      · have hcl' : (c ≤ᶠ last) = true := Fl.le_trans hcl (hlast (v, w) (by simp))
        refine ⟨List.pairwise_append.2 ⟨hp, List.pairwise_singleton _ _, fun a ha b hb => ?_⟩,
          fun x h => ?_⟩
        · rw [List.mem_singleton.1 hb]; exact Fl.le_trans (hpx a ha).1 hcl'
        · rcases List.mem_append.1 h with h | h
          · exact (hpx x h).2
          · rw [List.mem_singleton.1 h]; exact hl
      · exact ih _ _ _ _ _ hsc hS' hSc hnc hlast' hp hpx

theorem pctLoop_length {total last : F} : ∀ (l : List (F × F)) (curValue cuml curPct : F)
    (pcts p : List F), (pctLoop total last l curValue cuml curPct pcts p).length
      ≤ p.length + 1 + pcts.length := by
  intro l
  induction l with
  | nil => intro _ _ _ pcts p; simp [pctLoop]; omega
  | cons vw l ih =>
    intro cv cu cp pcts p
    unfold pctLoop
    simp only
    split
    · have := pctWhile_length (cuml := cu + vw.2 / total)
        (value := if (cv =ᶠ vw.1) = true then cv else vw.1) pcts cp p
      split
      · next e => rw [e] at this; simp only [levelsLeft] at this; omega
      · next e =>
        rw [e] at this; simp only [levelsLeft] at this
        refine (ih _ _ _ _ _).trans ?_
        omega
    · split
      · simp
      · exact ih _ _ _ _ _

/-- The first percentile is the least value, if the level counts as reached after one row. -/
theorem pctWhile_head {cuml value : F} : ∀ (pcts : List F) (cur : F) (p : List F) (x : F),
    p.head? = some x → (pctWhile cuml value cur pcts p).1.head? = some x := by
  intro pcts
  induction pcts with
  | nil => intro cur p x h; unfold pctWhile; split <;> simp [h]
  | cons nxt rest ih =>
    intro cur p x h
    unfold pctWhile
    split
    · exact ih _ _ _ (by simp [h])
    · exact h

theorem pctLoop_head {total last : F} : ∀ (l : List (F × F)) (curValue cuml curPct : F)
    (pcts p : List F) (x : F), p.head? = some x →
      (pctLoop total last l curValue cuml curPct pcts p).head? = some x := by
  intro l
  induction l with
  | nil => intro _ _ _ pcts p x h; exact h
  | cons vw l ih =>
    intro cv cu cp pcts p x h
    unfold pctLoop
    simp only
    split
    · have := pctWhile_head (cuml := cu + vw.2 / total)
        (value := if (cv =ᶠ vw.1) = true then cv else vw.1) pcts cp p x h
      split
      · next e => rw [e] at this; exact this
      · next e => rw [e] at this; exact ih _ _ _ _ _ _ this
    · split
      · simp [h]
      · exact ih _ _ _ _ _ _ h

/-! ## The percentiles of a list -/

theorem percentiles_form {S : Sorter} (hS : S.Ok) {v w pcts c : List F}
    (hn : ∀ a ∈ v, isNaN a = false) (h : percentiles S v w pcts = .ok c) :
    ∃ cur rest v0 w0 tl last, pcts = cur :: rest ∧ v.length ≤ w.length ∧
      ((v0, w0) :: tl).Perm (v.zip w) ∧ Sorted (((v0, w0) :: tl).map Prod.fst) ∧
      (((v0, w0) :: tl).getLast?.map Prod.fst) = some last ∧
      c = pctLoop (fastSum w) last ((v0, w0) :: tl) v0 0 cur rest [] := by
  obtain ⟨order, h1, h2, h3⟩ := sortPartialCmp_spec hS (fun i => v[i]?.getD (0 : F))
    (List.range v.length) (fun i hi => by
      have hi := List.mem_range.1 hi
      simp only [List.getElem?_eq_getElem hi, Option.getD_some]
      exact hn _ (List.getElem_mem hi))
  unfold percentiles at h
  rw [h1, Res.ok_bind] at h
  cases pcts with
  | nil => cases h
  | cons cur rest =>
    simp only [Res.bind_eq_ok] at h
    obtain ⟨vals, hv, h⟩ := h
    rw [Res.mapM'_eq_ok] at hv
    have hv' : List.Forall₂ (fun i (p : F × F) => v[i]? = some p.1 ∧ w[i]? = some p.2) order vals := by
      refine hv.imp fun i p hp => ?_
      simp only [Res.bind_eq_ok, idx_eq_ok] at hp
      obtain ⟨a, ha, b, hb, e⟩ := hp
      injection e with e
      rw [← e]; exact ⟨ha, hb⟩
    cases vals with
    | nil => cases h
    | cons p tl =>
      obtain ⟨v0, w0⟩ := p
      have hlen : v.length ≤ w.length := by
        by_contra hc
        have hmem : w.length ∈ order := h2.mem_iff.2 (List.mem_range.2 (by omega))
        obtain ⟨hl, hg⟩ := List.forall₂_iff_get.1 hv'
        obtain ⟨k, hk, e⟩ := List.getElem_of_mem hmem
        have hp := hg k hk (hl ▸ hk)
        simp only [List.get_eq_getElem, e] at hp
        rw [List.getElem?_eq_none le_rfl] at hp
        cases hp.2
      have hvals : (v0, w0) :: tl = order.map fun i => (v[i]?.getD 0, w[i]?.getD 0) := by
        apply List.ext_getElem (by rw [List.length_map, hv'.length_eq])
        intro k hk hk'
        have := (List.forall₂_iff_get.1 hv').2 k (by simpa using hk') hk
        simp only [List.get_eq_getElem] at this
        rw [List.getElem_map, this.1, this.2]
        rfl
      have hzip : (List.range v.length).map (fun i => (v[i]?.getD 0, w[i]?.getD 0)) = v.zip w := by
        apply List.ext_getElem (by simp [hlen])
        intro k hk hk'
        simp only [List.length_map, List.length_range] at hk
        simp only [List.getElem_map, List.getElem_range, List.getElem_zip]
        rw [List.getElem?_eq_getElem hk, List.getElem?_eq_getElem (show k < w.length by omega)]
        rfl
      obtain ⟨last, hlast⟩ : ∃ last, (((v0, w0) :: tl).getLast?.map Prod.fst) = some last := by
        rw [List.getLast?_cons]; exact ⟨_, rfl⟩
      refine ⟨cur, rest, v0, w0, tl, last, rfl, hlen, ?_, ?_, hlast, ?_⟩
      · rw [hvals, ← hzip]; exact h2.map _
      · rw [hvals, List.map_map]
        exact List.pairwise_map.2 h3
      · simp only [hlast, Option.getD_some] at h
        injection h with h
        exact h.symm

theorem last_max {l : List (F × F)} {last : F} (hn : ∀ a ∈ l, isNaN a.1 = false)
    (hs : Sorted (l.map Prod.fst)) (hl : l.getLast?.map Prod.fst = some last) :
    (∃ w, (last, w) ∈ l) ∧ ∀ x ∈ l, (x.1 ≤ᶠ last) = true := by
  obtain ⟨p, hp, e⟩ := Option.map_eq_some_iff.1 hl
  have hmem := List.mem_of_getLast? hp
  refine ⟨⟨p.2, by rw [← e]; exact hmem⟩, fun x hx => ?_⟩
  obtain ⟨l', rfl⟩ := List.getLast?_eq_some_iff.1 hp
  rcases List.mem_append.1 hx with h | h
  · rw [List.map_append] at hs
    rw [← e]
    exact (List.pairwise_append.1 hs).2.2 x.1 (List.mem_map_of_mem h) p.1 (by simp)
  · rw [List.mem_singleton.1 h, ← e]; exact Fl.le_refl (hn p hmem)

theorem percentiles_spec {S : Sorter} (hS : S.Ok) {v w pcts c : List F}
    (hn : ∀ a ∈ v, isNaN a = false) (h : percentiles S v w pcts = .ok c) :
    Sorted c ∧ (∀ x ∈ c, x ∈ v) ∧ c.length ≤ pcts.length := by
  obtain ⟨cur, rest, v0, w0, tl, last, rfl, hlen, hp, hs, hl, rfl⟩ := percentiles_form hS hn h
  have hfst : ∀ p ∈ (v0, w0) :: tl, p.1 ∈ v := fun p hm =>
    (List.of_mem_zip (hp.mem_iff.1 hm)).1
  have hnum : ∀ p ∈ (v0, w0) :: tl, isNaN p.1 = false := fun p hm => hn _ (hfst p hm)
  obtain ⟨⟨wl, hlm⟩, hmax⟩ := last_max hnum hs hl
  have h0 := hfst (v0, w0) (by simp)
  have := pctLoop_spec (total := fastSum w) (last := last) (fun x => x ∈ v) (hfst _ hlm)
    ((v0, w0) :: tl) v0 0 cur rest [] (by
      refine List.pairwise_cons.2 ⟨fun a ha => ?_, hs⟩
      simp only [List.map_cons, List.mem_cons] at ha
      rcases ha with ha | ha
      · rw [ha]; exact Fl.le_refl (hn _ h0)
      · exact (List.pairwise_cons.1 hs).1 a ha) hfst h0 (hn _ h0) hmax List.Pairwise.nil (by simp)
  refine ⟨this.1, this.2, ?_⟩
  have := pctLoop_length (total := fastSum w) (last := last) ((v0, w0) :: tl) v0 0 cur rest []
  simp only [List.length_nil, List.length_cons] at this ⊢
  omega

theorem percentiles_total {S : Sorter} (hS : S.Ok) {v w pcts : List F}
    (hn : ∀ a ∈ v, isNaN a = false) (hlen : v.length ≤ w.length) (hv : v ≠ []) (hp : pcts ≠ []) :
    ∃ c, percentiles S v w pcts = .ok c := by
  obtain ⟨o, ho, hperm, _⟩ := sortPartialCmp_spec hS (fun i => v[i]?.getD (0 : F))
    (List.range v.length) (fun i hi => by
      have hi := List.mem_range.1 hi
      simp only [List.getElem?_eq_getElem hi, Option.getD_some]
      exact hn _ (List.getElem_mem hi))
  unfold percentiles
  rw [ho, Res.ok_bind]
  cases pcts with
  | nil => exact absurd rfl hp
  | cons cur rest =>
    simp only
    obtain ⟨vals, hvals⟩ := Res.mapM'_exists (l := o) (f := fun i => do
      let a ← idx v i
      let w ← idx w i
      pure (a, w)) (fun i hi => by
        have hi := List.mem_range.1 (hperm.mem_iff.1 hi)
        rw [idx_of_lt hi, Res.ok_bind, idx_of_lt (show i < w.length by omega), Res.ok_bind]
        exact ⟨_, rfl⟩)
    rw [hvals, Res.ok_bind]
    cases vals with
    | nil =>
      have h0 := (Res.mapM'_eq_ok.1 hvals).length_eq
      rw [hperm.length_eq, List.length_range] at h0
      exact absurd (List.eq_nil_of_length_eq_zero h0) hv
    | cons p tl => exact ⟨_, rfl⟩

theorem percentiles_head {S : Sorter} (hS : S.Ok) {v w c : List F} {cur : F} {rest : List F}
    (hn : ∀ a ∈ v, isNaN a = false) (h : percentiles S v w (cur :: rest) = .ok c)
    (hw : ∀ x ∈ v.zip w, (cur ≤ᶠ 0 + x.2 / fastSum w) = true) :
    ∃ x0, c.head? = some x0 ∧ x0 ∈ v ∧ ∀ x ∈ v, (x0 ≤ᶠ x) = true := by
  obtain ⟨cur, rest, v0, w0, tl, last, e, hlen, hp, hs, hl, rfl⟩ := percentiles_form hS hn h
  cases e
  have hfst : ∀ p ∈ (v0, w0) :: tl, p.1 ∈ v := fun p hm =>
    (List.of_mem_zip (hp.mem_iff.1 hm)).1
  have h0 := hfst (v0, w0) (by simp)
  refine ⟨v0, ?_, h0, fun x hx => ?_⟩
  · have hc := hw (v0, w0) (hp.mem_iff.1 (by simp))
    simp only at hc
    unfold pctLoop
    simp only [hc, Bool.or_true, if_true, ite_self]
    have hw : ∀ (pcts : List F) , (pctWhile (0 + w0 / fastSum w) v0 cur pcts []).1.head? = some v0 := by
      intro pcts
      cases pcts with
      | nil => unfold pctWhile; rw [if_pos hc]; rfl
      | cons nxt rest => unfold pctWhile; rw [if_pos hc]; exact pctWhile_head _ _ _ _ rfl
    split
    · next e => have := hw rest; rw [e] at this; exact this
    · next e => have := hw rest; rw [e] at this; exact pctLoop_head _ _ _ _ _ _ _ this
  · have : ∃ p ∈ (v0, w0) :: tl, p.1 = x := by
      obtain ⟨k, hk, e⟩ := List.getElem_of_mem hx
      refine ⟨(v[k], w[k]), hp.mem_iff.2 (List.mem_iff_getElem.2 ⟨k, by simp; omega, by simp⟩), e⟩
    obtain ⟨p, hpm, rfl⟩ := this
    rcases List.mem_cons.1 hpm with h | h
    · rw [h]; exact Fl.le_refl (hn _ h0)
    · exact (List.pairwise_cons.1 hs).1 p.1 (List.mem_map_of_mem h)

end ord

/-! ## The cuts of a column -/

section cuts
variable {D : Type} [Fl D]

theorem filterMissing_eq_ok {missing : D} {l r : List (D × D)} :
    filterMissing missing l = .ok r ↔ (∀ x ∈ l, Readable missing x.1) ∧
      r = l.filter fun x => !decide (IsMissing missing x.1) := by
  induction l generalizing r with
  | nil => simp [filterMissing, eq_comm]
  | cons p l ih =>
    obtain ⟨v, w⟩ := p
    simp only [filterMissing, Res.bind_eq_ok, isMissing_eq, List.mem_cons, forall_eq_or_imp]
    constructor
    · rintro ⟨b, hb, r', hr, e⟩
      split at hb
      · next hread =>
        injection hb with hb
        injection e with e
        obtain ⟨h1, rfl⟩ := ih.1 hr
        refine ⟨⟨hread, h1⟩, ?_⟩
        rw [← e, ← hb, List.filter_cons]
        by_cases hm : IsMissing missing v <;> simp [hm]
      · cases hb
    · rintro ⟨⟨h1, h2⟩, rfl⟩
      refine ⟨_, by rw [if_pos h1], _, ih.2 ⟨h2, rfl⟩, ?_⟩
      rw [List.filter_cons]
      by_cases hm : IsMissing missing v <;> simp [hm]

/-- A readable value that is not missing is a number. -/
theorem num_of_not_missing {missing v : D} (h1 : Readable missing v) (h2 : ¬ IsMissing missing v) :
    isNaN v = false := by
  rcases h1 with h | h
  · unfold IsMissing at h2
    rw [if_pos h] at h2
    simpa using h2
  · exact h

variable [Fl.OrdLaws D]

/-- What is known about the cut values of a column. -/
structure CutsFor (vals : List D) (cuts : List D) : Prop where
  increasing : Increasing cuts
  last : ∃ init last, cuts = init ++ [last] ∧ (last =ᶠ Fl.maxv) = true ∧ ∀ x ∈ init, x ∈ vals

/-- The values of a column that are not missing. -/
def present (missing : D) (col : List D) : List D := col.filter fun v => !decide (IsMissing missing v)

theorem mem_present {missing : D} {col : List D} {v : D} :
    v ∈ present missing col ↔ v ∈ col ∧ ¬ IsMissing missing v := by simp [present]

theorem zip_filter_fst {α β : Type} (p : α → Bool) (l : List α) (w : List β) (h : l.length ≤ w.length) :
    ((l.zip w).filter fun x => p x.1).map Prod.fst = l.filter p := by
  induction l generalizing w with
  | nil => rfl
  | cons a l ih =>
    cases w with
    | nil => simp at h
    | cons b w =>
      have := ih w (by simpa using h)
      simp only [List.zip_cons_cons, List.filter_cons]
      split
      · simp [this]
      · exact this

theorem colCuts_form {S : Sorter} {col w : List D} {nbins : Nat} {missing : D} {cuts : List D}
    (hlen : col.length ≤ w.length) (h : colCuts S col w nbins missing = .ok cuts) :
    (∀ v ∈ col, Readable missing v) ∧ ∃ ws c,
      ws = (((col.zip w).filter fun x => !decide (IsMissing missing x.1)).map Prod.snd) ∧
      percentilesOrValue S (present missing col) ws (binPcts nbins) = .ok c ∧
      cuts = dedupF (c ++ [Fl.maxv]) := by
  unfold colCuts at h
  simp only [Res.bind_eq_ok] at h
  obtain ⟨kept, hk, c, hc, e⟩ := h
  obtain ⟨h1, rfl⟩ := filterMissing_eq_ok.1 hk
  injection e with e
  refine ⟨fun v hv => ?_, _, c, rfl, ?_, e.symm⟩
  · obtain ⟨k, hk, e⟩ := List.getElem_of_mem hv
    have := h1 (col[k], w[k]) (List.mem_iff_getElem.2 ⟨k, by simp; omega, by simp⟩)
    rw [← e]; exact this
  · rw [zip_filter_fst (fun v => !decide (IsMissing missing v)) _ _ hlen] at hc; exact hc

theorem percentilesOrValue_spec {S : Sorter} (hS : S.Ok) {v w pcts c : List D}
    (hn : ∀ a ∈ v, isNaN a = false) (h : percentilesOrValue S v w pcts = .ok c) :
    Sorted c ∧ (∀ x ∈ c, x ∈ v) ∧ c.length ≤ pcts.length + 1 := by
  obtain ⟨s, h1, h2, h3⟩ := sortPartialCmp_spec hS (id : D → D) v hn
  unfold percentilesOrValue at h
  rw [h1, Res.ok_bind] at h
  simp only at h
  split at h
  · next hl =>
    injection h with h
    subst h
    exact ⟨(dedup_increasing h3).imp fun h => Fl.le_of_lt h, fun x hx => h2.mem_iff.1 (dedup_mem hx), hl⟩
  · obtain ⟨a, b, c⟩ := percentiles_spec hS hn h
    exact ⟨a, b, by omega⟩

theorem dedup_length (l : List D) : (dedupF l).length ≤ l.length := by
  have : ∀ (l : List D) (a : D), (dedupF.go a l).length ≤ l.length := by
    intro l
    induction l with
    | nil => intro a; simp [dedupF.go]
    | cons b l ih =>
      intro a
      unfold dedupF.go
      split
      · have := ih a; simp; omega
      · have := ih b; simp; omega
  cases l with
  | nil => simp [dedupF]
  | cons a l => have := this l a; simp [dedupF]; omega

theorem colCuts_length {S : Sorter} (hS : S.Ok) {col w : List D} {nbins : Nat} {missing : D}
    {cuts : List D} (hlen : col.length ≤ w.length) (h : colCuts S col w nbins missing = .ok cuts) :
    cuts.length ≤ nbins + 2 := by
  obtain ⟨h1, ws, c, hws, hc, rfl⟩ := colCuts_form hlen h
  have hn : ∀ a ∈ present missing col, isNaN a = false := fun a ha =>
    num_of_not_missing (h1 a (mem_present.1 ha).1) (mem_present.1 ha).2
  obtain ⟨hs, hm, hcl⟩ := percentilesOrValue_spec hS hn hc
  have h2 := dedup_length (c ++ [Fl.maxv])
  simp only [List.length_append, List.length_singleton] at h2
  simp only [binPcts, List.length_map, List.length_range] at hcl
  omega

theorem colCuts_spec {S : Sorter} (hS : S.Ok) {col w : List D} {nbins : Nat} {missing : D}
    {cuts : List D} (hlen : col.length ≤ w.length) (h : colCuts S col w nbins missing = .ok cuts)
    (hmax : ∀ v ∈ col, ¬ IsMissing missing v → (v ≤ᶠ Fl.maxv) = true) :
    CutsFor (present missing col) cuts := by
  obtain ⟨h1, ws, c, hws, hc, rfl⟩ := colCuts_form hlen h
  have hn : ∀ a ∈ present missing col, isNaN a = false := fun a ha =>
    num_of_not_missing (h1 a (mem_present.1 ha).1) (mem_present.1 ha).2
  obtain ⟨hs, hm, hcl⟩ := percentilesOrValue_spec hS hn hc
  have hs' : Sorted (c ++ [Fl.maxv]) := List.pairwise_append.2
    ⟨hs, List.pairwise_singleton _ _, fun a ha b hb => by
      rw [List.mem_singleton.1 hb]
      obtain ⟨k1, k2⟩ := mem_present.1 (hm a ha)
      exact hmax a k1 k2⟩
  obtain ⟨init, last, e, hl, hi⟩ := dedup_append_last hs' Fl.OrdLaws.maxv_num
  exact ⟨dedup_increasing hs', init, last, e, hl, fun x hx => hm x (hi x hx)⟩

/-- The cuts of a column can be computed: all entries readable, at least one bin. -/
theorem colCuts_total {S : Sorter} (hS : S.Ok) {col w : List D} {nbins : Nat} {missing : D}
    (hr : ∀ v ∈ col, Readable missing v) (hnb : nbins ≠ 0) :
    ∃ cuts, colCuts S col w nbins missing = .ok cuts := by
  set kept := (col.zip w).filter fun x => !decide (IsMissing missing x.1) with hk
  have hf : filterMissing missing (col.zip w) = .ok kept :=
    filterMissing_eq_ok.2 ⟨fun x hx => hr _ (List.of_mem_zip hx).1, rfl⟩
  have hn : ∀ a ∈ kept.map Prod.fst, isNaN a = false := by
    intro a ha
    obtain ⟨x, hx, rfl⟩ := List.mem_map.1 ha
    obtain ⟨h1, h2⟩ := List.mem_filter.1 hx
    exact num_of_not_missing (hr _ (List.of_mem_zip h1).1) (by simpa using h2)
  obtain ⟨s, k1, k2, k3⟩ := sortPartialCmp_spec hS (id : D → D) _ hn
  have : ∃ c, percentilesOrValue S (kept.map Prod.fst) (kept.map Prod.snd) (binPcts nbins) = .ok c := by
    unfold percentilesOrValue
    rw [k1, Res.ok_bind]
    simp only
    split
    · exact ⟨_, rfl⟩
    · next hc =>
      refine percentiles_total hS hn (by simp) (fun h0 => hc ?_) (fun h0 => hnb ?_)
      · have h3 : s = [] := List.eq_nil_of_length_eq_zero (by rw [k2.length_eq, h0]; rfl)
        rw [h3]; simp [dedupF]
      · simpa [binPcts] using congrArg List.length h0
  obtain ⟨c, hc⟩ := this
  refine ⟨dedupF (c ++ [Fl.maxv]), ?_⟩
  unfold colCuts
  rw [hf, Res.ok_bind, hc, Res.ok_bind]

theorem dedup_head? (l : List D) : (dedupF l).head? = l.head? := by
  cases l <;> rfl

/-- The least cut is not above any value: always if the distinct values fit in the bins, otherwise if
the first level counts as reached after one row. -/
theorem colCuts_first {S : Sorter} (hS : S.Ok) {col w : List D} {nbins : Nat} {missing : D}
    {cuts : List D} (hlen : col.length ≤ w.length) (h : colCuts S col w nbins missing = .ok cuts)
    (hw : nbins ≠ 0 → ∀ x ∈ (col.zip w).filter fun x => !decide (IsMissing missing x.1),
      ((Fl.ofNat 0 / Fl.ofNat nbins : D) ≤ᶠ 0 + x.2 /
        fastSum (((col.zip w).filter fun x => !decide (IsMissing missing x.1)).map Prod.snd)) = true) :
    ∃ c0, cuts[0]? = some c0 ∧ ∀ v ∈ col, ¬ IsMissing missing v → (c0 ≤ᶠ v) = true := by
  obtain ⟨h1, ws, c, hws, hc, rfl⟩ := colCuts_form hlen h
  have hn : ∀ a ∈ present missing col, isNaN a = false := fun a ha =>
    num_of_not_missing (h1 a (mem_present.1 ha).1) (mem_present.1 ha).2
  rw [← List.head?_eq_getElem?, dedup_head?]
  obtain ⟨hs, hm, hcl⟩ := percentilesOrValue_spec hS hn hc
  have key : (∀ x ∈ present missing col, ∃ c0, c.head? = some c0 ∧ (c0 ≤ᶠ x) = true) := by
    obtain ⟨s, k1, k2, k3⟩ := sortPartialCmp_spec hS (id : D → D) _ hn
    unfold percentilesOrValue at hc
    rw [k1, Res.ok_bind] at hc
    simp only at hc
    split at hc
    · injection hc with hc
      subst hc
      intro x hx
      rw [dedup_head?]
      have hx' := k2.mem_iff.2 hx
      cases s with
      | nil => simp at hx'
      | cons a l =>
        refine ⟨a, rfl, ?_⟩
        rcases List.mem_cons.1 hx' with e | hx'
        · rw [e]; exact Fl.le_refl (hn a (k2.mem_iff.1 (by simp)))
        · exact (List.pairwise_cons.1 k3).1 x hx'
    · by_cases hnb : nbins = 0
      · subst hnb
        simp only [binPcts, List.range_zero, List.map_nil] at hc
        unfold percentiles at hc
        obtain ⟨o, ho, _⟩ := sortPartialCmp_spec hS (fun i => (present missing col)[i]?.getD (0 : D))
          (List.range (present missing col).length) (fun i hi => by
            have hi := List.mem_range.1 hi
            simp only [List.getElem?_eq_getElem hi, Option.getD_some]
            exact hn _ (List.getElem_mem hi))
        rw [ho] at hc
        cases hc
      · obtain ⟨n, rfl⟩ := Nat.exists_eq_succ_of_ne_zero hnb
        have e : (binPcts (n + 1) : List D) = (Fl.ofNat 0 / Fl.ofNat (n + 1)) ::
            (List.range n).map fun i => Fl.ofNat (i + 1) / Fl.ofNat (n + 1) := by
          simp [binPcts, List.range_succ_eq_map, Function.comp_def]
        rw [Nat.succ_eq_add_one, e] at hc
        have hz : (present missing col).zip ws =
            (col.zip w).filter fun x => !decide (IsMissing missing x.1) := by
          rw [hws, present, ← zip_filter_fst (fun v => !decide (IsMissing missing v)) col w hlen]
          exact (List.zip_of_prod rfl rfl).symm
        obtain ⟨x0, a, b, d⟩ := percentiles_head hS hn hc (by
          rw [hz, hws]
          exact hw hnb)
        exact fun x hx => ⟨x0, a, d x hx⟩
  cases c with
  | nil =>
    refine ⟨Fl.maxv, rfl, fun v hv hnm => ?_⟩
    obtain ⟨_, h, _⟩ := key v (mem_present.2 ⟨hv, hnm⟩)
    cases h
  | cons a l =>
    refine ⟨a, rfl, fun v hv hnm => ?_⟩
    obtain ⟨c0, h, hle⟩ := key v (mem_present.2 ⟨hv, hnm⟩)
    cases h
    exact hle

theorem mapBinLoop_total (x : List D) (v : D) : ∀ (n low high : Nat), high - low ≤ n → low ≤ high →
    high ≤ x.length → ∃ k, mapBinLoop x v n low high = .ok k ∧ k ≤ x.length := by
  intro n
  induction n with
  | zero =>
    intro low high hn hle hx
    have : low = high := by omega
    subst this
    exact ⟨low, by simp [mapBinLoop], hx⟩
  | succ n ih =>
    intro low high hn hle hx
    unfold mapBinLoop
    split
    · next he => exact ⟨low, rfl, by omega⟩
    · have hm : (low + high) / 2 < x.length := by omega
      simp only [idx_of_lt hm, Res.ok_bind]
      split
      · exact ih _ _ (by omega) (by omega) hx
      · exact ih _ _ (by omega) (by omega) (by omega)

theorem mapBin_total (x : List D) (v missing : D) : ∃ k, k ≤ x.length ∧
    (mapBin x v missing = .ok (some 0) ∨
      mapBin x v missing = .ok (if k < 65536 then some k else none)) := by
  unfold mapBin
  split
  · exact ⟨0, Nat.zero_le _, .inl rfl⟩
  · obtain ⟨k, h1, h2⟩ := mapBinLoop_total x v (x.length + 1) 0 x.length (by omega) (by omega) le_rfl
    exact ⟨k, h2, .inr (by rw [h1]; rfl)⟩

/-! ## The binned matrix -/

/-- The values of a column. -/
def Matrix.column {T : Type} (m : Matrix T) (j : Nat) : List T := (m.data.drop (j * m.rows)).take m.rows

theorem Matrix.Shaped.col_le {T : Type} {m : Matrix T} (hm : m.Shaped) {j : Nat} (hj : j < m.cols) :
    j * m.rows + m.rows ≤ m.data.length := by
  have := Nat.mul_le_mul_right m.rows hj
  rw [Nat.succ_mul, Nat.mul_comm m.cols] at this
  rw [hm]; exact this

theorem Matrix.getCol_eq {T : Type} {m : Matrix T} (hm : m.Shaped) {j : Nat} (hj : j < m.cols) :
    m.getCol j = .ok (m.column j) := by
  have := hm.col_le hj
  rw [Matrix.getCol, Matrix.getColSlice, slice_eq_ok]
  simp only [Matrix.itemIndex]
  refine ⟨by omega, by omega, ?_⟩
  unfold Matrix.column
  congr 2 <;> omega

theorem Matrix.column_length {T : Type} {m : Matrix T} (hm : m.Shaped) {j : Nat} (hj : j < m.cols) :
    (m.column j).length = m.rows := by
  have := hm.col_le hj
  simp [Matrix.column]; omega

theorem Matrix.column_getElem? {T : Type} (m : Matrix T) {i j : Nat} (hi : i < m.rows) :
    (m.column j)[i]? = m.entry i j := by
  simp [Matrix.column, Matrix.entry, hi]

theorem Matrix.mem_column {T : Type} {m : Matrix T} {j : Nat} {v : T} (h : v ∈ m.column j) :
    v ∈ m.data := List.mem_of_mem_drop (List.mem_of_mem_take h)

/-- What is known about a binned matrix. -/
structure Binned (data : Matrix D) (w : List D) (S : Sorter) (nbins : Nat) (missing : D)
    (cutss : List (List D)) (bd : BinnedData D) : Prop where
  readable : ∀ v ∈ data.data, Readable missing v
  jagged : Jagged cutss bd.cuts
  len : cutss.length = data.cols
  made : ∀ j c, cutss[j]? = some c → colCuts S (data.column j) w nbins missing = .ok c
  size : bd.binned.length = data.data.length
  bin : ∀ i j v c, i < data.rows → data.entry i j = some v → cutss[j]? = some c →
    ∃ k, bd.binned[j * data.rows + i]? = some k ∧ mapBin c v missing = .ok (some k)

theorem binMatrix_binned {S : Sorter} {data : Matrix D} {w : List D} {nbins : Nat} {missing : D}
    {bd : BinnedData D} (hm : data.Shaped) (hw : data.rows ≤ w.length)
    (h : binMatrix S data w nbins missing = .ok bd) :
    ∃ cutss, Binned data w S nbins missing cutss bd := by
  unfold binMatrix at h
  simp only [Res.bind_eq_ok] at h
  obtain ⟨cutss, h1, binned, h2, e⟩ := h
  injection e with e
  subst e
  rw [Res.mapM'_eq_ok] at h1
  have hlen : cutss.length = data.cols := by rw [← h1.length_eq]; simp
  have hj := Jagged.foldl_pushCuts cutss
  have hmade : ∀ j c, cutss[j]? = some c → colCuts S (data.column j) w nbins missing = .ok c := by
    intro j c hc
    obtain ⟨hlt, ec⟩ := List.getElem?_eq_some_iff.1 hc
    have := (List.forall₂_iff_get.1 h1).2 j (by simpa [← hlen] using hlt) hlt
    simp only [List.get_eq_getElem, List.getElem_range, ec] at this
    rw [Matrix.getCol_eq hm (hlen ▸ hlt), Res.ok_bind] at this
    exact this
  unfold binMatrixFromCuts at h2
  rw [Res.mapM'_eq_ok] at h2
  have hsz : binned.length = data.data.length := by rw [← h2.length_eq]; simp
  have hbin : ∀ k v, data.data[k]? = some v → ∃ c b, cutss[k / data.rows]? = some c ∧
      binned[k]? = some b ∧ mapBin c v missing = .ok (some b) := by
    intro k v hv
    obtain ⟨hlt, ev⟩ := List.getElem?_eq_some_iff.1 hv
    have := (List.forall₂_iff_get.1 h2).2 k (by simpa using hlt) (hsz ▸ hlt)
    simp only [List.get_eq_getElem, List.getElem_zipIdx, ev, Nat.zero_add] at this
    split at this
    · cases this
    · simp only [Res.bind_eq_ok, hj.getCol, Res.ofOption_eq_ok] at this
      obtain ⟨c, hc, b, hb, e⟩ := this
      rw [e] at hb
      exact ⟨c, _, hc, List.getElem?_eq_getElem (hsz ▸ hlt), hb⟩
  have hdiv : ∀ i j : Nat, i < data.rows → (j * data.rows + i) / data.rows = j := by
    intro i j hi
    rw [Nat.mul_comm, Nat.mul_add_div (by omega), Nat.div_eq_of_lt hi, Nat.add_zero]
  refine ⟨cutss, ?_, hj, hlen, hmade, hsz, ?_⟩
  · intro v hv
    obtain ⟨k, hk, e⟩ := List.getElem_of_mem hv
    obtain ⟨c, b, hc, _, _⟩ := hbin k v (by rw [List.getElem?_eq_getElem hk, e])
    have hlt := (List.getElem?_eq_some_iff.1 hc).1
    have hcol := hmade _ c hc
    have hr : 0 < data.rows := by
      rcases Nat.eq_zero_or_pos data.rows with h0 | h0
      · rw [hm, h0] at hk; omega
      · exact h0
    refine (colCuts_form (by rw [Matrix.column_length hm (hlen ▸ hlt)]; exact hw) hcol).1 v ?_
    have := data.column_getElem? (i := k % data.rows) (j := k / data.rows) (Nat.mod_lt _ hr)
    rw [Matrix.entry, Nat.mul_comm, Nat.div_add_mod, List.getElem?_eq_getElem hk, e] at this
    exact List.mem_of_getElem? this
  · intro i j v c hi hv hc
    obtain ⟨c', b, hc', hb, hbin⟩ := hbin (j * data.rows + i) v hv
    rw [hdiv i j hi, hc] at hc'
    cases hc'
    exact ⟨b, hb, hbin⟩

theorem binMatrix_total {S : Sorter} (hS : S.Ok) {data : Matrix D} {w : List D} {nbins : Nat}
    {missing : D} (hm : data.Shaped) (hw : data.rows ≤ w.length)
    (hr : ∀ v ∈ data.data, Readable missing v) (h0 : nbins ≠ 0) (h1 : nbins ≤ 65533) :
    ∃ bd, binMatrix S data w nbins missing = .ok bd := by
  obtain ⟨cutss, hc⟩ := Res.mapM'_exists (l := List.range data.cols) (f := fun i => do
      let c ← data.getCol i
      colCuts S c w nbins missing) (fun j hj => by
    have hj := List.mem_range.1 hj
    rw [Matrix.getCol_eq hm hj, Res.ok_bind]
    exact colCuts_total hS
      (fun v hv => hr v (Matrix.mem_column hv)) h0)
  have hc' := Res.mapM'_eq_ok.1 hc
  have hlen : cutss.length = data.cols := by rw [← hc'.length_eq]; simp
  have hj := Jagged.foldl_pushCuts cutss
  obtain ⟨binned, hb⟩ := Res.mapM'_exists (l := data.data.zipIdx) (f := fun (p : D × Nat) => do
    if data.rows = 0 then Res.panic else
    let c ← (cutss.foldl pushCuts JaggedMatrix.empty).getCol (p.2 / data.rows)
    let b ← mapBin c p.1 missing
    Res.ofOption b) (fun p hp => by
    obtain ⟨v, k⟩ := p
    have hk : k < data.data.length := by
      have := List.snd_lt_of_mem_zipIdx hp; simpa using this
    have hr0 : data.rows ≠ 0 := by intro h; rw [hm, h] at hk; omega
    have hkc : k / data.rows < cutss.length := by
      rw [hlen, Nat.div_lt_iff_lt_mul (by omega), Nat.mul_comm]; rw [hm] at hk; exact hk
    simp only [hr0, if_false, hj.getCol, List.getElem?_eq_getElem hkc, Res.ofOption_some, Res.ok_bind]
    have hcl : cutss[k / data.rows].length ≤ nbins + 2 := by
      have := (List.forall₂_iff_get.1 hc').2 (k / data.rows) (by simpa [← hlen] using hkc) hkc
      simp only [List.get_eq_getElem, List.getElem_range] at this
      rw [Matrix.getCol_eq hm (hlen ▸ hkc), Res.ok_bind] at this
      exact colCuts_length hS (by rw [Matrix.column_length hm (hlen ▸ hkc)]; exact hw) this
    obtain ⟨q, hq, h | h⟩ := mapBin_total cutss[k / data.rows] v missing
    · rw [h]; exact ⟨0, rfl⟩
    · rw [h, if_pos (by omega)]; exact ⟨q, rfl⟩)
  refine ⟨{ binned := binned, cuts := cutss.foldl pushCuts JaggedMatrix.empty
            nunique := cutss.map List.length }, ?_⟩
  unfold binMatrix
  rw [hc, Res.ok_bind]
  simp only [binMatrixFromCuts]
  rw [hb, Res.ok_bind]

end cuts

end Verif
