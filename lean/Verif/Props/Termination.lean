import Verif.Proofs.Diverge
import Verif.Props.Cover

/-!
# C49 Fitting terminates

All theorems hold for any arithmetic, any data and any behaviour of the sort, the heap and the random
generator.
-/

namespace Verif

open scoped Verif

section
variable {R F D : Type} [Fl F] [Fl D] [FlCast F D]

set_option linter.unusedSectionVars false

/-- `n` iterations of the loop of `Tree::fit` lead from `s` to `s'`: the loop condition holds before
each of them and its body runs to the end. -/
inductive Iterates (c : GrowCfg F D) : Nat → GrowState F D → GrowState F D → Prop
  | done (s : GrowState F D) : Iterates c 0 s s
  | step {n : Nat} {s s1 s' : GrowState F D} (open_ : s.queue ≠ [])
      (leaves : s.nLeaves + 1 ≤ c.maxLeaves) (body : growStep c s = .ok s1)
      (rest : Iterates c n s1 s') : Iterates c (n + 1) s s'

theorem growDone_false {c : GrowCfg F D} {s : GrowState F D} (h : s.queue ≠ [])
    (hl : s.nLeaves + 1 ≤ c.maxLeaves) : growDone c s = false := by
  simp only [growDone, Bool.or_eq_false_iff, List.isEmpty_eq_false_iff, Splitter.newLeavesAdded]
  exact ⟨h, decide_eq_false (by omega)⟩

theorem Iterates.diverge {c : GrowCfg F D} : ∀ {n : Nat} {s s' : GrowState F D},
    Iterates c (n + 1) s s' → growLoop c n s = .diverge := by
  intro n
  induction n with
  | zero =>
    intro s s' h
    cases h with
    | step h1 h2 h3 h4 => simp [growLoop, growDone_false h1 h2]
  | succ n ih =>
    intro s s' h
    cases h with
    | step h1 h2 h3 h4 =>
      rw [growLoop, if_neg (by simp [growDone_false h1 h2]), h3]
      exact ih h4

theorem Iterates.prefix {c : GrowCfg F D} : ∀ {m n : Nat} {s s' : GrowState F D},
    Iterates c n s s' → m ≤ n → ∃ s1, Iterates c m s s1 := by
  intro m
  induction m with
  | zero => intro n s s' _ _; exact ⟨s, .done s⟩
  | succ m ih =>
    intro n s s' h hm
    cases h with
    | done => omega
    | step h1 h2 h3 h4 =>
      obtain ⟨s1, hs1⟩ := ih h4 (by omega)
      exact ⟨s1, .step h1 h2 h3 hs1⟩

theorem Iterates.le {c : GrowCfg F D} {n N : Nat} {s s' : GrowState F D} (h : Iterates c n s s')
    (hN : growLoop c N s ≠ .diverge) : n ≤ N := by
  by_contra hlt
  obtain ⟨s1, h1⟩ := h.prefix (m := N + 1) (by omega)
  exact hN h1.diverge

/-- C49, finite leaf limit.  From the initial state the loop of `Tree::fit` runs at most
`3 * max_leaves + 1` times, whatever the depth limit. -/
theorem C49_leaf_limit (c : GrowCfg F D) (sm : SampleMethod) (index : List Nat) (s s' : GrowState F D)
    (n : Nat) (h0 : growInit c sm index = .ok s) (h : Iterates c n s s') : n ≤ 3 * c.maxLeaves + 1 := by
  simp only [growInit, Res.bind_eq_ok, Prod.exists, Res.ok.injEq] at h0
  obtain ⟨g, hs, sort, _, hists, _, rfl⟩ := h0
  refine h.le (growLoop_leaves_nd (le_refl _) ?_)
  simp only [pushNode, List.length_cons, List.length_nil]; omega

/-- C49, finite depth limit.  From the initial state the loop of `Tree::fit` runs at most
`4 ^ (max_depth + 1)` times, whatever the leaf limit. -/
theorem C49_depth_limit (c : GrowCfg F D) (sm : SampleMethod) (index : List Nat)
    (s s' : GrowState F D) (n : Nat) (h0 : growInit c sm index = .ok s) (h : Iterates c n s s') :
    n ≤ 4 ^ (c.maxDepth + 1) := by
  simp only [growInit, Res.bind_eq_ok, Prod.exists, Res.ok.injEq] at h0
  obtain ⟨g, hs, sort, _, hists, _, rfl⟩ := h0
  refine h.le (growLoop_depth_nd ?_)
  simp [pushNode, depthMeasure, SNode.new]

/-- C49.  Fitting a tree (with its partitions of the rows and the final clean-up) returns a tree or
panics; it does not run forever. -/
theorem C49_tree (c : GrowCfg F D) (sm : SampleMethod) (index : List Nat) :
    (∃ t, Tree.fit c sm index = .ok t) ∨ Tree.fit c sm index = .panic := by
  have := Tree.fit_ne_diverge c sm index
  cases h : Tree.fit c sm index with
  | ok t => exact .inl ⟨t, rfl⟩
  | panic => exact .inr rfl
  | diverge => exact absurd h this

/-- C49.  `fit` of a booster returns or panics; it does not run forever. -/
theorem C49_booster (env : Env R F D) (b : Booster F D) (data : Matrix D) (y w : List D)
    (ev : Option (List (EvalSet D))) :
    (∃ r, b.fit env data y w ev = .ok r) ∨ b.fit env data y w ev = .panic := by
  have : b.fit env data y w ev ≠ .diverge := by
    unfold Booster.fit fitTrees calcInit initSums
    split
    · simp
    · nd [binMatrix_ne_diverge', fitLoop_ne_diverge]
  cases h : b.fit env data y w ev with
  | ok t => exact .inl ⟨t, rfl⟩
  | panic => exact .inr rfl
  | diverge => exact absurd h this

end

/-! ### Examples -/

/-- The loop runs: on the example data the first iteration pops the root and splits it. -/
example : ∃ bd s s', binMatrix exSorter exX exW 8 FX.nan = .ok bd ∧
    growInit (exCfg bd) .none [0, 1, 2, 3, 4, 5] = .ok s ∧ Iterates (exCfg bd) 2 s s' ∧
    s'.nodes.length = 7 := by
  have : (match binMatrix exSorter exX exW 8 FX.nan with
    | .ok bd => (match growInit (exCfg bd) .none [0, 1, 2, 3, 4, 5] with
      | .ok s => (match growStep (exCfg bd) s with
        | .ok s1 => (match growStep (exCfg bd) s1 with
          | .ok s2 => decide (s.queue.length = 1 ∧ s.nLeaves = 1 ∧ s1.queue.length = 3 ∧ s1.nLeaves = 3 ∧
              s2.nodes.length = 7)
          | _ => false)
        | _ => false)
      | _ => false)
    | _ => false) = true := by decide +kernel
  split at this
  · rename_i bd hbd
    split at this
    · rename_i s hs
      split at this
      · rename_i s1 hs1
        split at this
        · rename_i s2 hs2
          have := of_decide_eq_true this
          refine ⟨bd, s, s2, hbd, hs, .step ?_ ?_ hs1 (.step ?_ ?_ hs2 (.done _)), this.2.2.2.2⟩
          · intro e; rw [e] at this; simp at this
          · show s.nLeaves + 1 ≤ 5; omega
          · intro e; rw [e] at this; simp at this
          · show s1.nLeaves + 1 ≤ 5; omega
        · cases this
      · cases this
    · cases this
  · cases this

end Verif
