import Verif.Model.Booster
import Verif.Proofs.Path

/-!
# Lengths of the rows of contributions
-/

namespace Verif

open scoped Verif

variable {F D : Type} [Fl F] [Fl D] [FlCast F D]

set_option linter.unusedSectionVars false

theorem addAt_length {c c' : List D} {i : Nat} {v : D} (h : addAt c i v = .ok c') :
    c'.length = c.length := by
  simp only [addAt, Res.bind_eq_ok, Res.ok.injEq] at h
  obtain ⟨x, -, rfl⟩ := h
  simp

theorem contribWalk_length {nodes : List (Node F D)} {row : List D} {missing : D}
    {delta : Nat → Node F D → Nat → Res (Option D)} : ∀ (fuel i : Nat) (c c' : List D) (n : Node F D),
    contribWalk nodes row missing delta fuel i c = .ok (c', n) → c'.length = c.length := by
  intro fuel
  induction fuel with
  | zero => intro i c c' n h; cases h
  | succ fuel ih =>
    intro i c c' n h
    rw [contribWalk, Res.bind_eq_ok] at h
    obtain ⟨node, -, h⟩ := h
    split at h
    · simp only [Res.ok.injEq, Prod.mk.injEq] at h
      rw [h.1]
    · simp only [Res.bind_eq_ok] at h
      obtain ⟨v, -, child, -, d, -, h⟩ := h
      cases d with
      | none =>
        simp only [Res.pure_def, Res.ok_bind] at h
        exact ih _ _ _ _ h
      | some d =>
        simp only [Res.bind_eq_ok] at h
        obtain ⟨c1, h1, h⟩ := h
        rw [ih _ _ _ _ h, addAt_length h1]

theorem leafContribs_length {p : List (PathElement F)} {depth : Nat} {value : F} : ∀ (n i : Nat)
    (c c' : List D), leafContribs p depth value n i c = .ok c' → c'.length = c.length := by
  intro n
  induction n with
  | zero => intro i c c' h; cases h; rfl
  | succ n ih =>
    intro i c c' h
    simp only [leafContribs, Res.bind_eq_ok] at h
    obtain ⟨w, -, el, -, c1, h1, h⟩ := h
    rw [ih _ _ _ h, addAt_length h1]

theorem foldM'_length {α : Type} {f : List D → α → Res (List D)} {l : List α}
    (hf : ∀ c a c', f c a = .ok c' → c'.length = c.length) : ∀ (c c' : List D),
    Res.foldM' f c l = .ok c' → c'.length = c.length := by
  induction l with
  | nil => intro c c' h; cases h; rfl
  | cons a l ih =>
    intro c c' h
    rw [Res.foldM'_cons, Res.bind_eq_ok] at h
    obtain ⟨c1, h1, h⟩ := h
    rw [ih _ _ h, hf _ _ _ h1]

theorem treeShap_length {nodes : List (Node F D)} {row : List D} {missing : D} : ∀ (fuel i depth : Nat)
    (path : List (PathElement F)) (pz po : F) (pf : Nat) (c c' : List D),
    treeShap nodes row missing fuel i depth path pz po pf c = .ok c' → c'.length = c.length := by
  intro fuel
  induction fuel with
  | zero => intro i depth path pz po pf c c' h; cases h
  | succ fuel ih =>
    intro i depth path pz po pf c c' h
    rw [treeShap] at h
    rw [Res.bind_eq_ok] at h
    obtain ⟨node, -, h⟩ := h
    rw [Res.bind_eq_ok] at h
    obtain ⟨path', -, h⟩ := h
    split at h
    · exact leafContribs_length _ _ _ _ h
    · rw [Res.bind_eq_ok] at h
      obtain ⟨v, -, h⟩ := h
      rw [Res.bind_eq_ok] at h
      obtain ⟨next, -, h⟩ := h
      rw [Res.bind_eq_ok] at h
      obtain ⟨k, -, h⟩ := h
      split at h
      · rw [Res.bind_eq_ok] at h
        obtain ⟨e, -, h⟩ := h
        rw [Res.bind_eq_ok] at h
        obtain ⟨pp, -, h⟩ := h
        refine foldM'_length ?_ _ _ h
        intro c a c' hc
        rw [Res.bind_eq_ok] at hc
        obtain ⟨ch, -, hc⟩ := hc
        exact ih _ _ _ _ _ _ _ _ hc
      · refine foldM'_length ?_ _ _ h
        intro c a c' hc
        rw [Res.bind_eq_ok] at hc
        obtain ⟨ch, -, hc⟩ := hc
        exact ih _ _ _ _ _ _ _ _ hc

theorem rowPredFn_length {m : ContributionsMethod} {t : Tree F D} {row c c' : List D} {missing : D}
    (h : rowPredFn m t row c missing = .ok c') : c'.length = c.length := by
  cases m with
  | weight =>
    simp only [rowPredFn, Tree.contribWeight, Res.bind_eq_ok, Res.ok.injEq] at h
    obtain ⟨root, -, c1, h1, ⟨c2, n⟩, h2, rfl⟩ := h
    rw [contribWalk_length _ _ _ _ _ h2, addAt_length h1]
  | branchDifference =>
    simp only [rowPredFn, Tree.contribBranch, Res.bind_eq_ok, Res.ok.injEq] at h
    obtain ⟨⟨c2, n⟩, h2, rfl⟩ := h
    exact contribWalk_length _ _ _ _ _ h2
  | midpointDifference =>
    simp only [rowPredFn, Tree.contribMidpoint, Res.bind_eq_ok, Res.ok.injEq] at h
    obtain ⟨⟨c2, n⟩, h2, rfl⟩ := h
    exact contribWalk_length _ _ _ _ _ h2
  | modeDifference =>
    simp only [rowPredFn, Tree.contribMode, Res.bind_eq_ok, Res.ok.injEq] at h
    obtain ⟨⟨c2, n⟩, h2, rfl⟩ := h
    exact contribWalk_length _ _ _ _ _ h2
  | shapley =>
    simp only [rowPredFn, Tree.contribShapley, Res.bind_eq_ok] at h
    obtain ⟨avg, -, c1, h1, h⟩ := h
    rw [treeShap_length _ _ _ _ _ _ _ _ _ h, addAt_length h1]
  | average => cases h
  | probabilityChange => cases h

theorem initContribs_length (cols : Nat) (bias : D) : (initContribs cols bias).length = cols + 1 := by
  simp [initContribs]

theorem mapM'_lengths {f : Nat → Res (List D)} {n : Nat} (hf : ∀ i r, f i = .ok r → r.length = n)
    {l : List Nat} {rows : List (List D)} (h : Res.mapM' f l = .ok rows) :
    rows.length = l.length ∧ ∀ r ∈ rows, r.length = n := by
  have := Res.mapM'_eq_ok.1 h
  refine ⟨this.length_eq.symm, ?_⟩
  clear h
  induction this with
  | nil => intro r hr; cases hr
  | cons h1 _ ih =>
    intro r hr
    rcases List.mem_cons.1 hr with rfl | hr
    · exact hf _ _ h1
    · exact ih r hr

/-- The contributions have a row per row of the data, each with an entry per column and one for the
bias. -/
theorem contribRows_lengths {b : Booster F D} {data : Matrix D} {m : ContributionsMethod}
    {rows : List (List D)} (h : b.contribRows data m = .ok rows) :
    rows.length = data.rows ∧ ∀ r ∈ rows, r.length = data.cols + 1 := by
  have hidx : data.index.length = data.rows := by simp [Matrix.index]
  by_cases ha : m = .average
  · subst ha
    simp only [Booster.contribRows, Res.bind_eq_ok] at h
    obtain ⟨ts, -, ws, -, h⟩ := h
    rw [← hidx]
    refine mapM'_lengths ?_ h
    intro i r hr
    simp only [contribsRowAverage, Res.bind_eq_ok] at hr
    obtain ⟨row, -, hr⟩ := hr
    rw [foldM'_length ?_ _ _ hr, initContribs_length]
    intro c a c' hc
    simp only [Tree.contribAverage, Res.bind_eq_ok, Res.ok.injEq] at hc
    obtain ⟨root, -, c1, h1, ⟨c2, n⟩, h2, rfl⟩ := hc
    rw [contribWalk_length _ _ _ _ _ h2, addAt_length h1]
  · by_cases hp : m = .probabilityChange
    · subst hp
      simp only [Booster.contribRows] at h
      split at h
      · simp only [Res.bind_eq_ok] at h
        obtain ⟨ts, -, h⟩ := h
        rw [← hidx]
        refine mapM'_lengths ?_ h
        intro i r hr
        simp only [contribsRowProb, Res.bind_eq_ok, Res.ok.injEq] at hr
        obtain ⟨row, -, ⟨c, lo⟩, hr, rfl⟩ := hr
        have key : ∀ (l : List (Tree F D)) (s s' : List D × D),
            Res.foldM' (fun (s : List D × D) (t : Tree F D) =>
              t.contribProb row s.1 b.missing s.2) s l = .ok s' → s'.1.length = s.1.length := by
          intro l
          induction l with
          | nil => intro s s' h; cases h; rfl
          | cons t l ih =>
            intro s s' h
            rw [Res.foldM'_cons, Res.bind_eq_ok] at h
            obtain ⟨s1, h1, h⟩ := h
            rw [ih _ _ h]
            simp only [Tree.contribProb, Res.bind_eq_ok, Res.ok.injEq] at h1
            obtain ⟨root, -, c1, h1, ⟨c2, n⟩, h2, rfl⟩ := h1
            exact (contribWalk_length _ _ _ _ _ h2).trans (addAt_length h1)
        rw [key _ _ _ hr, initContribs_length]
      · cases h
    · rw [contribRows_alone b data ha hp, Res.bind_eq_ok] at h
      obtain ⟨ts, -, h⟩ := h
      rw [← hidx]
      refine mapM'_lengths ?_ h
      intro i r hr
      simp only [contribsRowAlone, Res.bind_eq_ok] at hr
      obtain ⟨row, -, hr⟩ := hr
      rw [foldM'_length ?_ _ _ hr, initContribs_length]
      intro c t c' hc
      exact rowPredFn_length hc

end Verif
