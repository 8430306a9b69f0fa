import Verif.Proofs.SelectFit
import Verif.Spec.SelectColumns
import Verif.Props.ExtraColumn

/-!
# C113: columns that no split uses can be left out of the training data

Train a model, keep the columns that its splits use (and perhaps others), in their order, and train again on these
columns with the parameters renumbered: the second model is the first one with the features renumbered, node by node
and in every field.
-/

namespace Verif

open scoped Verif

section
variable {F D : Type} [Fl F] [Fl D] [FlCast F D]

/-- **C113** (training).  `keep` lists column numbers in increasing order.  If the fit succeeds and every split of the
fitted model is on one of the columns `keep`, then the fit on these columns only, with constraints and terminated
features renumbered and with evaluation data cut in the same way, returns the fitted model with the features
renumbered: all trees, values, statistics, the evaluation history and the best iteration agree.  In any arithmetic
whose comparison is a strict order. -/
theorem C113_fit [Fl.OrdLaws F] {R : Type} {env : Env R F D} (hh : ∀ i, (env.heap i).ByScore) {X : Matrix D}
    (hX : X.Shaped) {keep : List Nat} (hinc : keep.Pairwise (· < ·)) (hk : ∀ c ∈ keep, c < X.cols) {y w : List D}
    {ev : Option (List (EvalSet D))}
    (hev : ∀ es, ev = some es → ∀ e ∈ es, e.data.Shaped ∧ ∀ c ∈ keep, c < e.data.cols)
    {b : Booster F D} (hcs : (b.colsampleBytree =ᶠ 1) = true) {r : Booster F D} {res : Except ForustError Unit}
    (h : b.fit env X y w ev = .ok (r, res)) (hu : r.UsesOnly keep) :
    (b.renumber keep).fit env (X.select keep) y w (ev.map fun es => es.map fun e => e.select keep) =
      .ok (r.renumber keep, res) :=
  fit_sel hh hX hinc hk hev hcs h hu

/-- **C113** (predictions).  The renumbered model predicts the same values and the same leaves for data cut to the
columns `keep`, here in any order. -/
theorem C113_predict {X : Matrix D} (hX : X.Shaped) {keep : List Nat} (hk : ∀ c ∈ keep, c < X.cols)
    {b : Booster F D} (hb : b.UsesOnly keep) :
    (b.renumber keep).predict (X.select keep) = b.predict X ∧
      (b.renumber keep).predictLeafIndices (X.select keep) = b.predictLeafIndices X :=
  ⟨boosterPredict_sel hX hk hb, boosterLeaves_sel hX hk hb⟩

/-- **C113** (both).  Hence the model trained on the columns `keep` predicts for data cut to these columns what the
model trained on all columns predicts for the whole data. -/
theorem C113_same [Fl.OrdLaws F] {R : Type} {env : Env R F D} (hh : ∀ i, (env.heap i).ByScore) {X Z : Matrix D}
    (hX : X.Shaped) (hZ : Z.Shaped) {keep : List Nat} (hinc : keep.Pairwise (· < ·)) (hk : ∀ c ∈ keep, c < X.cols)
    (hkz : ∀ c ∈ keep, c < Z.cols) {y w : List D} {b : Booster F D} (hcs : (b.colsampleBytree =ᶠ 1) = true)
    {r : Booster F D} {res : Except ForustError Unit}
    (h : b.fit env X y w none = .ok (r, res)) (hu : r.UsesOnly keep) :
    ∃ r', (b.renumber keep).fit env (X.select keep) y w none = .ok (r', res) ∧
      r'.predict (Z.select keep) = r.predict Z := by
  refine ⟨_, fit_sel hh hX hinc hk (by simp) hcs h hu, ?_⟩
  exact boosterPredict_sel hZ hkz hu

end

/-- **C113** (what is kept).  Column `j` of the cut data is column `keep[j]` of the data. -/
theorem C113_entries {T : Type} {X : Matrix T} (hX : X.Shaped) {keep : List Nat} (hk : ∀ c ∈ keep, c < X.cols)
    {i j c : Nat} (hi : i < X.rows) (hj : keep[j]? = some c) :
    (X.select keep).entry i j = X.entry i c ∧ (X.select keep).Shaped :=
  ⟨Matrix.select_entry hX hk hi hj, Matrix.select_shaped hX hk⟩

/-! ## The order of the columns matters -/

/-- Three rows, two columns that order the rows in the same way. -/
def exTied : Matrix Q := { data := [q 1, q 2, q 3, q 4, q 5, q 6], rows := 3, cols := 2 }

/-- One tree. -/
def exOnce : Booster Q Q := { exFresh with iterations := 1 }

/-- **C113** (the order must be kept).  If the kept columns are put in another order, another model can result: of two
equally good columns the first wins. -/
theorem C113_order : ∃ b1 b2, exOnce.fit exEnv exTied [q 0, q 0, q 4] [q 1, q 1, q 1] none = .ok (b1, .ok ()) ∧
    b1.UsesOnly [1, 0] ∧
    (exOnce.renumber [1, 0]).fit exEnv (exTied.select [1, 0]) [q 0, q 0, q 4] [q 1, q 1, q 1] none = .ok (b2, .ok ()) ∧
    b2.trees ≠ (b1.renumber [1, 0]).trees := by
  have : (match exOnce.fit exEnv exTied [q 0, q 0, q 4] [q 1, q 1, q 1] none,
      (exOnce.renumber [1, 0]).fit exEnv (exTied.select [1, 0]) [q 0, q 0, q 4] [q 1, q 1, q 1] none with
    | .ok (b1, .ok ()), .ok (b2, .ok ()) => decide (b2.trees ≠ (b1.renumber [1, 0]).trees) &&
        decide (∀ t ∈ b1.trees, ∀ n ∈ t.nodes, n.isLeaf = false → n.splitFeature ∈ [1, 0])
    | _, _ => false) = true := by decide +kernel
  split at this
  · next b1 b2 h1 h2 =>
    rw [Bool.and_eq_true, decide_eq_true_eq, decide_eq_true_eq] at this
    exact ⟨b1, b2, h1, this.2, h2, this.1⟩
  · cases this

/-! ## Examples -/

/-- Six rows, three columns; the first column says nothing. -/
def exNoise : Matrix Q :=
  { data := [q 2, q 9, q 9, q 2, q 2, q 9] ++ exX.data, rows := 6, cols := 3 }

/-- Evaluation sets for three columns, a constraint on the second column. -/
def exNoiseSets : List (EvalSet Q) := [{ data := exNoise, y := exY, w := exW }]

/-- The booster of the example. -/
def exNoiseBooster : Booster Q Q :=
  { exStop with monotoneConstraints := some [(0, .negative), (1, .positive)] }

/-- C113: the fit uses the columns 1 and 2 only, and it uses column 1. -/
example : (∀ i, (exEnv.heap i).ByScore) ∧ exNoise.Shaped ∧ [1, 2].Pairwise (· < ·) ∧ (∀ c ∈ [1, 2], c < exNoise.cols) ∧
    (∀ es, some exNoiseSets = some es → ∀ e ∈ es, e.data.Shaped ∧ ∀ c ∈ [1, 2], c < e.data.cols) ∧
    (exNoiseBooster.colsampleBytree =ᶠ 1) = true ∧
    (exNoiseBooster.renumber [1, 2]).monotoneConstraints = some [(0, .positive)] ∧
    ∃ b' : Booster Q Q, exNoiseBooster.fit exEnv exNoise exY exW (some exNoiseSets) = .ok (b', .ok ()) ∧
      b'.UsesOnly [1, 2] ∧ ∃ t ∈ b'.trees, ∃ n ∈ t.nodes, n.isLeaf = false ∧ n.splitFeature = 1 := by
  refine ⟨exEnv_natural.heap, by unfold Matrix.Shaped; decide, by decide, by decide, ?_, by decide +kernel, rfl, ?_⟩
  · rintro es ⟨⟩ e he
    rw [List.mem_singleton.1 he]
    exact ⟨by unfold Matrix.Shaped; decide, by decide⟩
  · have : (match exNoiseBooster.fit exEnv exNoise exY exW (some exNoiseSets) with
      | .ok (b', .ok ()) => decide (∀ t ∈ b'.trees, ∀ n ∈ t.nodes, n.isLeaf = false → n.splitFeature ∈ [1, 2]) &&
          b'.trees.any fun t => t.nodes.any fun n => !n.isLeaf && decide (n.splitFeature = 1)
      | _ => false) = true := by decide +kernel
    split at this
    · next b' h =>
      simp only [List.any_eq_true, Bool.and_eq_true, Bool.not_eq_true', decide_eq_true_eq] at this
      obtain ⟨hu, t, ht, n, hn, h1, h2⟩ := this
      exact ⟨b', h, hu, t, ht, n, hn, h1, h2⟩
    · cases this

end Verif
