import Verif.Spec.Path
import Verif.Proofs.ContribRows

/-!
# The difference methods follow the path
-/

namespace Verif

open scoped Verif

variable {F D : Type} [Fl F] [Fl D] [FlCast F D]

set_option linter.unusedSectionVars false

theorem contribRows_alone (b : Booster F D) (data : Matrix D) {m : ContributionsMethod}
    (ha : m ≠ .average) (hp : m ≠ .probabilityChange) :
    b.contribRows data m = (b.predictionTrees >>= fun ts =>
      Res.mapM' (contribsRowAlone b ts m data) data.index) := by
  cases m <;> first | rfl | exact absurd rfl ha | exact absurd rfl hp

/-- The three methods of C59. -/
def IsDifference (m : ContributionsMethod) : Prop :=
  m = .branchDifference ∨ m = .midpointDifference ∨ m = .modeDifference

theorem path_of_route {t : Tree F D} (ht : t.Wf) {row : Nat → Option D} {missing : D} {k i : Nat}
    {l : Node F D} (h : RouteN t.nodes row missing k i l) :
    ∃ steps, Path t.nodes row missing i steps ∧ steps.length = k := by
  induction h with
  | leaf h1 h2 => exact ⟨[], .leaf h1 h2, rfl⟩
  | @step k i n l v h1 h2 h3 h4 h5 ih =>
    obtain ⟨steps, ih, e⟩ := ih
    have c1 := (ht.child i n n.leftChild h1 ⟨h2, .inl rfl⟩).2
    have c2 := (ht.child i n n.rightChild h1 ⟨h2, .inr (.inl rfl)⟩).2
    have hc : n.childFor missing v < t.nodes.length := by
      cases h5 with
      | leaf h => exact (List.getElem?_eq_some_iff.1 h).1
      | step h => exact (List.getElem?_eq_some_iff.1 h).1
    exact ⟨_, .step h1 h2 h3 h4 (List.getElem?_eq_getElem hc) (List.getElem?_eq_getElem c1)
      (List.getElem?_eq_getElem c2) ih, by simp [e]⟩

/-- Per-step delta of a method. -/
def deltaOf (m : ContributionsMethod) (nodes : List (Node F D)) :
    Nat → Node F D → Nat → Res (Option D) :=
  match m with
  | .branchDifference => deltaBranch nodes
  | .midpointDifference => deltaMidpoint nodes
  | _ => deltaMode nodes

theorem otherChild_eq {nodes : List (Node F D)} {n l r : Node F D} {j : Nat}
    (hl : nodes[n.leftChild]? = some l) (hr : nodes[n.rightChild]? = some r) :
    otherChild nodes n j = .ok (if j = n.leftChild then r else l) := by
  unfold otherChild
  split
  · exact idx_eq_ok.2 hr
  · exact idx_eq_ok.2 hl

theorem deltaOf_eq {m : ContributionsMethod} (hm : IsDifference m) {nodes : List (Node F D)}
    {n c l r : Node F D} {i j : Nat} (hc : nodes[j]? = some c) (hl : nodes[n.leftChild]? = some l)
    (hr : nodes[n.rightChild]? = some r) (s : Step F D)
    (hs : s = { node := n, child := c, left := l, right := r, wentLeft := j = n.leftChild
                toMissing := j = n.missingNode ∧ n.missingNode ≠ n.leftChild ∧
                  n.missingNode ≠ n.rightChild }) :
    deltaOf m nodes i n j = .ok (if s.toMissing then none else some (s.change m)) := by
  have ht : n.stepsToMissing j = s.toMissing := by
    rw [hs, Bool.eq_iff_iff, Node.stepsToMissing, Bool.and_eq_true, hasMissingBranch_iff, beq_iff_eq,
      decide_eq_true_iff]; tauto
  have e1 := idx_eq_ok.2 hc
  have e2 := otherChild_eq (j := j) hl hr
  have e3 := idx_eq_ok.2 hl
  have e4 := idx_eq_ok.2 hr
  have ho : (if s.wentLeft then s.right else s.left) = if j = n.leftChild then r else l := by
    rw [hs]; simp
  have hc' : s.child = c := by rw [hs]
  have hl' : s.left = l := by rw [hs]
  have hr' : s.right = r := by rw [hs]
  cases h : s.toMissing with
  | true =>
    rw [h] at ht
    rcases hm with rfl | rfl | rfl
    · simp [deltaOf, deltaBranch, ht]
    · simp [deltaOf, deltaMidpoint, ht, e1]
    · simp [deltaOf, deltaMode, ht]
  | false =>
    rw [h] at ht
    rcases hm with rfl | rfl | rfl
    · simp only [deltaOf, deltaBranch, ht, e1, e2, Res.ok_bind, Step.change, ho, hc']; rfl
    · simp only [deltaOf, deltaMidpoint, ht, e1, e2, Res.ok_bind, Step.change, ho, hc']; rfl
    · simp only [deltaOf, deltaMode, ht, e1, e3, e4, Res.ok_bind, Step.change, hc', hl', hr']; rfl

theorem foldl_addTo_of_ne (m : ContributionsMethod) (f : Nat) (steps : List (Step F D)) (a : D)
    (h : ∀ s ∈ steps, s.node.splitFeature ≠ f ∨ s.toMissing = true) :
    steps.foldl (Step.addTo m f) a = a := by
  induction steps generalizing a with
  | nil => rfl
  | cons s steps ih =>
    rw [List.foldl_cons]
    have : Step.addTo m f a s = a := by
      unfold Step.addTo
      rw [if_neg]
      rintro ⟨h1, h2⟩
      rcases h s (by simp) with h | h
      · exact h h1
      · simp [h2] at h
    rw [this]
    exact ih a fun s hs => h s (by simp [hs])

theorem contribWalk_path {m : ContributionsMethod} (hm : IsDifference m) {nodes : List (Node F D)}
    {row : List D} {missing : D} {entry : Nat → Option D}
    (hrow : ∀ f, idx row f = Res.ofOption (entry f)) {i : Nat} {steps : List (Step F D)}
    (hp : Path nodes entry missing i steps) {fuel : Nat} (hf : steps.length < fuel) (cs : List D)
    (hcs : cs.length = row.length + 1) :
    ∃ cs' l, contribWalk nodes row missing (deltaOf m nodes) fuel i cs = .ok (cs', l) ∧
      cs'.length = cs.length ∧ (∀ s ∈ steps, s.node.splitFeature < row.length) ∧
      ∀ f : Nat, cs'[f]? = (cs[f]?).map fun a => steps.foldl (Step.addTo m f) a := by
  induction hp generalizing fuel cs with
  | @leaf i n h1 h2 =>
    obtain ⟨fuel, rfl⟩ : ∃ f, fuel = f + 1 := ⟨fuel - 1, by omega⟩
    refine ⟨cs, n, by simp [contribWalk, idx_eq_ok.2 h1, h2], rfl, by simp, fun f => ?_⟩
    simp
  | @step i n c l r v steps h1 h2 h3 h4 h5 h6 h7 h8 ih =>
    obtain ⟨fuel, rfl⟩ : ∃ f, fuel = f + 1 := ⟨fuel - 1, by omega⟩
    have hv : idx row n.splitFeature = .ok v := by rw [hrow, h3]; rfl
    have hflt := lt_of_idx_eq_ok hv
    generalize hs : ({ node := n, child := c, left := l, right := r
                       wentLeft := n.childFor missing v = n.leftChild
                       toMissing := n.childFor missing v = n.missingNode ∧ n.missingNode ≠ n.leftChild ∧
                         n.missingNode ≠ n.rightChild } : Step F D) = s at *
    have hnode : s.node = n := by rw [← hs]
    have hδ := deltaOf_eq hm (i := i) h5 h6 h7 s hs.symm
    have hcslt : n.splitFeature < cs.length := by omega
    simp only [List.length_cons] at hf
    rw [contribWalk]
    simp only [idx_eq_ok.2 h1, Res.ok_bind, h2, hv, getChildIdx_eq, h4, if_true, hδ,
      Bool.false_eq_true, if_false]
    cases ht : s.toMissing with
    | true =>
      simp only [if_true, Res.pure_def, Res.ok_bind]
      obtain ⟨cs', lf, e1, e2, e3, e4⟩ := ih (fuel := fuel) (by omega) cs hcs
      refine ⟨cs', lf, e1, e2, ?_, fun f => ?_⟩
      · intro s' hs'
        rcases List.mem_cons.1 hs' with rfl | hs'
        · rw [hnode]; exact hflt
        · exact e3 s' hs'
      · rw [e4 f]
        simp [Step.addTo, ht]
    | false =>
      obtain ⟨cs', lf, e1, e2, e3, e4⟩ := ih (fuel := fuel) (by omega)
        (cs.set n.splitFeature (cs[n.splitFeature] + s.change m)) (by simpa using hcs)
      refine ⟨cs', lf, ?_, by simpa using e2, ?_, fun f => ?_⟩
      · simp only [Bool.false_eq_true, if_false, addAt, idx_of_lt hcslt, Res.ok_bind]
        exact e1
      · intro s' hs'
        rcases List.mem_cons.1 hs' with rfl | hs'
        · rw [hnode]; exact hflt
        · exact e3 s' hs'
      · rw [e4 f, List.getElem?_set]
        by_cases h : n.splitFeature = f
        · subst h
          rw [if_pos rfl, if_pos hcslt, List.getElem?_eq_getElem hcslt]
          simp [Step.addTo, ht, hnode]
        · rw [if_neg h]
          simp [Step.addTo, hnode, h]

theorem rowPredFn_diff {m : ContributionsMethod} (hm : IsDifference m) (t : Tree F D)
    (row c : List D) (missing : D) :
    rowPredFn m t row c missing = (contribWalk t.nodes row missing (deltaOf m t.nodes)
      t.nodes.length 0 c >>= fun r => .ok r.1) := by
  rcases hm with rfl | rfl | rfl <;> rfl

theorem fold_paths {m : ContributionsMethod} (hm : IsDifference m) {ts : List (Tree F D)}
    {row : List D} {missing : D} {entry : Nat → Option D}
    (hrow : ∀ f, idx row f = Res.ofOption (entry f)) (hwf : ∀ t ∈ ts, t.Wf) {ls : List (Node F D)}
    (hl : Leaves ts entry missing ls) (cs : List D) (hcs : cs.length = row.length + 1) :
    ∃ cs', Res.foldM' (fun c t => rowPredFn m t row c missing) cs ts = .ok cs' ∧
      cs'.length = cs.length ∧ ∃ paths : List (List (Step F D)),
        List.Forall₂ (fun (t : Tree F D) p => Path t.nodes entry missing 0 p) ts paths ∧
        (∀ s ∈ paths.flatten, s.node.splitFeature < row.length) ∧
        ∀ f : Nat, cs'[f]? = (cs[f]?).map fun a => paths.flatten.foldl (Step.addTo m f) a := by
  unfold Leaves at hl
  induction hl generalizing cs with
  | nil => exact ⟨cs, rfl, rfl, [], .nil, by simp, by simp⟩
  | @cons t l ts ls h1 _ ih =>
    obtain ⟨k, hk⟩ := h1.exists_n
    obtain ⟨p, hp, e⟩ := path_of_route (hwf t (by simp)) hk
    obtain ⟨c1, l1, w1, w2, w3, w4⟩ := contribWalk_path hm hrow hp (e ▸ hk.lt_length) cs hcs
    obtain ⟨c2, v1, v2, ps, v3, v4, v5⟩ := ih (fun t ht => hwf t (by simp [ht])) c1 (by omega)
    refine ⟨c2, ?_, by omega, p :: ps, .cons hp v3, ?_, fun f => ?_⟩
    · rw [Res.foldM'_cons, rowPredFn_diff hm, w1]
      exact v1
    · intro s hs
      rw [List.flatten_cons, List.mem_append] at hs
      rcases hs with hs | hs
      · exact w3 s hs
      · exact v4 s hs
    · rw [v5 f, w4 f, Option.map_map, List.flatten_cons]
      congr 1
      funext a
      simp [List.foldl_append]

end Verif
