import Verif.Proofs.ColumnOrder
import Verif.Props.SelectColumns

/-!
# C131: the order of the columns decides between equal gains only
-/

namespace Verif

open scoped Verif

section
variable {F D : Type} [Fl F] [Fl D] [FlCast F D] [Fl.OrdLaws F]

/-- **C131** (training).  `keep` lists all column numbers in some order.  If the fit succeeds and at no node that was
searched another column offers the gain of the split found, then the fit on the reordered columns, with constraints and
terminated features renumbered and evaluation data reordered in the same way, returns the fitted model with the features
renumbered: all trees, values, statistics, the evaluation history and the best iteration agree.  In any arithmetic whose
comparison is a strict order. -/
theorem C131_fit {R : Type} {env : Env R F D} (hh : ∀ i, (env.heap i).ByScore) {X : Matrix D}
    (hX : X.Shaped) {keep : List Nat} (hperm : keep.Perm (List.range X.cols)) {y w : List D}
    {ev : Option (List (EvalSet D))}
    (hev : ∀ es, ev = some es → ∀ e ∈ es, e.data.Shaped ∧ e.data.cols = X.cols)
    {b : Booster F D} (hcs : (b.colsampleBytree =ᶠ 1) = true) {r : Booster F D} {res : Except ForustError Unit}
    (h : b.fit env X y w ev = .ok (r, res)) (hcl : b.fitsClearly env X y w ev = true) :
    (b.renumber keep).fit env (X.select keep) y w (ev.map fun es => es.map fun e => e.select keep) =
      .ok (r.renumber keep, res) := by
  refine fit_perm hh hX hperm (fun es he e hm => ⟨(hev es he e hm).1, fun c hc => ?_⟩) hcs h hcl
  rw [(hev es he e hm).2]
  rwa [hperm.mem_iff, List.mem_range] at hc

/-- **C131** (predictions).  The model trained on the reordered columns predicts for reordered data what the model
trained on the columns as they were predicts for the data as they were. -/
theorem C131_same {R : Type} {env : Env R F D} (hh : ∀ i, (env.heap i).ByScore) {X Z : Matrix D}
    (hX : X.Shaped) (hZ : Z.Shaped) (hZX : Z.cols = X.cols) {keep : List Nat} (hperm : keep.Perm (List.range X.cols))
    {y w : List D} {b : Booster F D} (hcs : (b.colsampleBytree =ᶠ 1) = true) {r : Booster F D}
    (h : b.fit env X y w none = .ok (r, .ok ())) (hcl : b.fitsClearly env X y w none = true) :
    ∃ r', (b.renumber keep).fit env (X.select keep) y w none = .ok (r', .ok ()) ∧
      r'.predict (Z.select keep) = r.predict Z ∧ r'.predictLeafIndices (Z.select keep) = r.predictLeafIndices Z := by
  have hu : r.UsesOnly keep := by
    intro t ht n hn hl
    obtain ⟨base, binned, st, stop, N, hT⟩ := Booster.fit_trace h
    obtain ⟨k, hk⟩ := List.getElem?_of_mem ht
    obtain ⟨cfg, rows, hA⟩ := hT.treeAt hk
    have hf := Tree.fit_features hA.fitted.fit n hn hl
    obtain ⟨r1, r2, hc⟩ := hA.fitted.columns
    unfold sampleColumns at hc
    rw [if_pos hcs] at hc
    rw [← (Prod.mk.inj hc).1] at hf
    exact hperm.mem_iff.2 hf
  have hkz : ∀ c ∈ keep, c < Z.cols := fun c hc => by rw [hZX]; rwa [hperm.mem_iff, List.mem_range] at hc
  exact ⟨_, C131_fit hh hX hperm (by simp) hcs h hcl, C113_predict hZ hkz hu⟩

omit [Fl D] [FlCast F D] [Fl.OrdLaws F] in
/-- **C131** (what must not be equal).  The check at a node passes when every candidate split of another column has a
gain that is not as large as that of the best split. -/
theorem C131_clear {s : Splitter F} {node : SNode F D} {cols : List Nat} {x : SplitInfo F D}
    (h : bestSplit s node cols = .ok (some x))
    (hc : ∀ j i c f, IsCandidate s node cols j i c → cols[j]? = some f → f ≠ x.splitFeature →
      (x.splitGain ≤ᶠ c.splitGain) = false) : clearNode s node cols = true := by
  unfold clearNode
  rw [h]
  dsimp only
  rw [List.all_eq_true]
  rintro ⟨f, j⟩ hf
  rw [List.mem_zipIdx_iff_getElem?] at hf
  dsimp only at hf ⊢
  by_cases hx : f = x.splitFeature
  · simp [hx]
  · rw [Bool.or_eq_true]
    right
    split
    · rename_i z hz
      obtain ⟨missing, bins, cs, h1, h2, h3⟩ := bestFeatureSplit_ok hz
      rcases foldl_better_mem _ _ h3.symm with e | e
      · cases e
      · obtain ⟨⟨i, c⟩, hc1, hc2⟩ := List.mem_map.1 e
        dsimp only at hc2
        subst hc2
        obtain ⟨_, bin, g1, g2⟩ := (featureCands_mem bins bins 0 cs (by simp) h2 i c).1 hc1
        have := hc j i c f ⟨f, missing, bins, bin, hf, h1, g1, g2⟩ hf hx
        simp [this]
    · rfl

end

/-! ## Examples -/

/-- Six rows, three columns with missing values. -/
def exTwoUsed : Matrix Q :=
  { data := [q 1, q 1, q 1, q 2, q 2, q 2,  q 5, q 1, q 5, q 1, FX.nan, q 1,  q 1, FX.nan, q 2, q 1, q 1, q 2]
    rows := 6, cols := 3 }

/-- A booster with a constraint on the third column and early stopping. -/
def exTwoBooster : Booster Q Q := { exStop with monotoneConstraints := some [(2, .positive)] }

/-- The evaluation set of the example. -/
def exTwoSets : List (EvalSet Q) := [{ data := exTwoUsed, y := exY, w := exW }]

/-- The trees of a fit split on the first and on the third column. -/
def usesFirstAndThird (m : Bool) : Bool :=
  match ({ exTwoBooster with createMissingBranch := m } : Booster Q Q).fit exEnv exTwoUsed exY exW (some exTwoSets) with
  | .ok (b', .ok ()) => (b'.trees.any fun t => t.nodes.any fun n => !n.isLeaf && decide (n.splitFeature = 0)) &&
      b'.trees.any fun t => t.nodes.any fun n => !n.isLeaf && decide (n.splitFeature = 2)
  | _ => false

/-- C131: both splitters, missing values, early stopping; the trees use two of the columns. -/
example : (∀ i, (exEnv.heap i).ByScore) ∧ exTwoUsed.Shaped ∧ [2, 0, 1].Perm (List.range exTwoUsed.cols) ∧
    (∀ es, some exTwoSets = some es → ∀ e ∈ es, e.data.Shaped ∧ e.data.cols = exTwoUsed.cols) ∧
    (exTwoBooster.colsampleBytree =ᶠ 1) = true ∧
    (exTwoBooster.renumber [2, 0, 1]).monotoneConstraints = some [(0, .positive)] ∧
    ∀ m, usesFirstAndThird m = true ∧
      ({ exTwoBooster with createMissingBranch := m } : Booster Q Q).fitsClearly exEnv exTwoUsed exY exW
        (some exTwoSets) = true := by
  refine ⟨exEnv_natural.heap, by unfold Matrix.Shaped; decide, by decide, ?_, by decide +kernel, rfl, ?_⟩
  · rintro es ⟨⟩ e he
    rw [List.mem_singleton.1 he]
    exact ⟨by unfold Matrix.Shaped; decide, rfl⟩
  · decide +kernel

/-- C131: with two columns that order the rows in the same way the check fails, and C113_order shows that the order then
decides. -/
example : exOnce.fitsClearly exEnv exTied [q 0, q 0, q 4] [q 1, q 1, q 1] none = false := by decide +kernel

end Verif
