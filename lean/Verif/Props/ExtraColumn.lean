import Verif.Proofs.ExtraRun
import Verif.Props.Copies
import Verif.Props.Boosting

/-!
# C103: a column that brings nothing new

A copy of a column, a constant column, or a column of missing values only, appended at the right end of the data,
does not change the fitted model at all: the booster is the same, tree by tree and in every field.  For a copy this is
the rule that the earliest of equally good features wins.
-/

namespace Verif

open scoped Verif

section
variable {F D : Type} [Fl F] [Fl D] [FlCast F D] [Fl.OrdLaws F]

/-- **C103** (copies).  Append a copy of the column `j`, with the same monotone constraint.  If the fit succeeds, the
fit on the wider data returns the same booster and the same result, in any arithmetic whose comparison is a strict
order, for both ways to treat missing values, with and without evaluation data. -/
theorem C103_copy {R : Type} {env : Env R F D} (hh : ∀ i, (env.heap i).ByScore) {X : Matrix D} (hX : X.Shaped)
    {j : Nat} (hj : j < X.cols) {col : List D} (hlen : col.length = X.rows)
    (hcol : ∀ i < X.rows, col[i]? = X.entry i j) {b : Booster F D} (hcs : (b.colsampleBytree =ᶠ 1) = true)
    (hct : (b.monotoneConstraints.getD []).lookup X.cols = (b.monotoneConstraints.getD []).lookup j)
    {y w : List D} {ev ev' : Option (List (EvalSet D))} (hev : EvalsWiden ev ev')
    {r : Booster F D × Except ForustError Unit} (h : b.fit env X y w ev = .ok r) :
    b.fit env (X.addCol col) y w ev' = .ok r := by
  have hc : col = X.column j := by
    apply List.ext_getElem?
    intro i
    by_cases hi : i < X.rows
    · rw [hcol i hi, Matrix.column_getElem? X hi]
    · rw [List.getElem?_eq_none (by omega), List.getElem?_eq_none]
      rw [Matrix.column_length hX hj]; omega
  refine fit_wide hh (X.addCol_widens col) hev hcs (fun bd hbd => ?_) h
  obtain ⟨cc, bc, h1, h2, h3, h4⟩ := binMatrix_col hX hbd hj
  obtain ⟨n, h5⟩ := binMatrix_addCol hX hbd hlen (by rw [hc]; exact h1) (by rw [hc]; exact h3)
  obtain ⟨cl, hJ, hcl, hS⟩ := binMatrix_shape hX hbd
  refine ⟨_, h5, HistExt (cl.map List.length) cc.length fun ls e => ls[j]? = some e, fun grad hess => ?_⟩
  refine trainExt_copy hJ hcl hS hj h4 h2 ?_ grad hess
  have hp : b.splitter.params.constraintsMap = b.monotoneConstraints.getD [] := by
    unfold Booster.splitter
    dsimp only
    split <;> rfl
  unfold SplitParams.getConstraint
  rw [hp]
  exact hct

end

section
variable {K : Type} [Field K] [LinearOrder K] [IsStrictOrderedRing K] {m32 m64 : Fmt K} [m32.Rounds]

/-- **C103** (columns of one value).  Append a column that holds the same value in every row, be it a number or the
mark of missing values.  If the fit succeeds, the fit on the wider data returns the same booster and the same result.
The splitter must refuse splits with an empty side: it makes missing branches, or it does not split missing values off
alone, or leaves need a positive weight. -/
theorem C103_constant {R : Type} {env : Env R (FX m32) (FX m64)} (hS : env.sorter.Ok)
    (hh : ∀ i, (env.heap i).ByScore) {X : Matrix (FX m64)} (hX : X.Shaped) (h0 : 0 < X.cols)
    {b : Booster (FX m32) (FX m64)} {v : FX m64} (hv : Readable b.missing v)
    (hcs : (b.colsampleBytree =ᶠ 1) = true)
    (hs : b.createMissingBranch = true ∨ b.allowMissingSplits = false ∨ (0 <ᶠ b.minLeafWeight) = true)
    {y w : List (FX m64)} {ev ev' : Option (List (EvalSet (FX m64)))} (hev : EvalsWiden ev ev')
    {r : Booster (FX m32) (FX m64) × Except ForustError Unit} (h : b.fit env X y w ev = .ok r) :
    b.fit env (X.addCol (List.replicate X.rows v)) y w ev' = .ok r := by
  refine fit_wide hh (X.addCol_widens _) hev hcs (fun bd hbd => ?_) h
  obtain ⟨cc, bc, h1, h2, h3, h4⟩ := constant_cuts hS hv X.rows w b.nbins
  obtain ⟨n, h5⟩ := binMatrix_addCol hX hbd (by simp) h1 h2
  obtain ⟨cl, hJ, hcl, hS⟩ := binMatrix_shape hX hbd
  refine ⟨_, h5, HistExt (cl.map List.length) cc.length fun _ e => Idle e, fun grad hess => ?_⟩
  refine trainExt_idle ?_ ?_ hJ hcl hS h0 h3 h4 grad hess
  · show FX.rd ((0 : K) + -0) = FX.fin 0
    rw [neg_zero, add_zero, FX.rd, Fmt.Rounds.zero (m := m32)]
    rfl
  · unfold Splitter.RefusesEmpty Booster.splitter
    dsimp only
    split
    · exact Or.inl ⟨_, rfl⟩
    · rename_i hb
      rcases hs with hs | hs
      · exact absurd hs hb
      · exact Or.inr hs

end

section
variable {F D : Type} [Fl F] [Fl D] [FlCast F D]

/-- **C103** (predictions).  A model predicts the same values and the same leaves for data to which columns have been
appended. -/
theorem C103_predict {X X' : Matrix D} (hW : X.Widens X') (b : Booster F D) :
    (∀ p, b.predict X = .ok p → b.predict X' = .ok p) ∧
      ∀ l, b.predictLeafIndices X = .ok l → b.predictLeafIndices X' = .ok l :=
  ⟨fun _ h => boosterPredict_wide hW h, fun _ h => boosterLeaves_wide hW h⟩

end

/-! ## A copy without the constraint -/

/-- The first column must not act downwards, the data say that it acts upwards. -/
def exDown : Booster Q Q := { exFresh with monotoneConstraints := some [(0, .negative)], iterations := 1 }

/-- **C103** (the constraint must be copied).  A copy of a constrained column that is left free changes the model. -/
theorem C103_constraint : ∃ b1 b2, exDown.fit exEnv exThree [q 0, q 0, q 4] [q 1, q 1, q 1] none = .ok (b1, .ok ()) ∧
    exDown.fit exEnv (exThree.addCol [q 1, q 2, q 3]) [q 0, q 0, q 4] [q 1, q 1, q 1] none = .ok (b2, .ok ()) ∧
    b1.trees ≠ b2.trees := by
  have : (match exDown.fit exEnv exThree [q 0, q 0, q 4] [q 1, q 1, q 1] none,
      exDown.fit exEnv (exThree.addCol [q 1, q 2, q 3]) [q 0, q 0, q 4] [q 1, q 1, q 1] none with
    | .ok (b1, .ok ()), .ok (b2, .ok ()) => decide (b1.trees ≠ b2.trees)
    | _, _ => false) = true := by decide +kernel
  split at this
  · next b1 b2 h1 h2 => exact ⟨b1, b2, h1, h2, by simpa using this⟩
  · cases this

/-! ## Examples -/

/-- The evaluation sets on wider data. -/
def exWideSets : List (EvalSet Q) := exSets.map fun e => { e with data := e.data.addCol (List.replicate 6 (q 7)) }

/-- C103: six rows with missing values, early stopping, both splitters; the copied column is the one that the trees
use. -/
example : (∀ i, (exEnv.heap i).ByScore) ∧ exEnv.sorter.Ok ∧ exX.Shaped ∧
    [q 1, q 2, q 3, q 4, q 5, q 6].length = exX.rows ∧
    (∀ i < exX.rows, [q 1, q 2, q 3, q 4, q 5, q 6][i]? = exX.entry i 0) ∧
    (exStop.colsampleBytree =ᶠ 1) = true ∧
    (exStop.monotoneConstraints.getD []).lookup exX.cols = (exStop.monotoneConstraints.getD []).lookup 0 ∧
    EvalsWiden (some exSets) (some exWideSets) ∧ Readable exStop.missing (q 7) ∧ Readable exStop.missing FX.nan ∧
    (0 <ᶠ exStop.minLeafWeight) = true ∧
    ∃ b' : Booster Q Q, exStop.fit exEnv exX exY exW (some exSets) = .ok (b', .ok ()) ∧
      ∃ t ∈ b'.trees, ∃ n ∈ t.nodes, n.isLeaf = false ∧ n.splitFeature = 0 := by
  refine ⟨exEnv_natural.heap, exEnv_natural.sorter, by unfold Matrix.Shaped; decide, rfl, by decide +kernel,
    by decide +kernel, rfl, ?_, .inl rfl, .inl rfl, by decide +kernel, ?_⟩
  · show List.Forall₂ _ _ _
    unfold exWideSets
    rw [List.forall₂_map_right_iff]
    exact List.forall₂_same.2 fun e _ => ⟨e.data.addCol_widens _, rfl, rfl⟩
  · have : (match exStop.fit exEnv exX exY exW (some exSets) with
      | .ok (b', .ok ()) => b'.trees.any fun t => t.nodes.any fun n => !n.isLeaf && decide (n.splitFeature = 0)
      | _ => false) = true := by decide +kernel
    split at this
    · next b' h =>
      simp only [List.any_eq_true, Bool.and_eq_true, Bool.not_eq_true', decide_eq_true_eq] at this
      obtain ⟨t, ht, n, hn, h1, h2⟩ := this
      exact ⟨b', h, t, ht, n, hn, h1, h2⟩
    · cases this

end Verif
