import Verif.Props.Predict
import Verif.Props.Matrices

/-!
# C17 Prediction of a row handed over as a slice
-/

namespace Verif

open scoped Verif

variable {F D : Type} [Fl D]

/-- Reading a row first and then an entry is reading the entry, also where both panic. -/
theorem getRow_idx {T : Type} (m : Matrix T) (i : Nat) (hi : i < m.rows) :
    ∃ row, m.getRow i = .ok row ∧ ∀ j, idx row j = m.get i j := by
  refine ⟨stepAux m.rows 0 (m.data.drop i), ?_, fun j => ?_⟩
  · simp [Matrix.getRow]; omega
  · unfold Matrix.get Matrix.itemIndex idx
    rw [getElem?_stepAux _ (by omega), List.getElem?_drop]
    congr 2
    omega

/-- **C17** (`predict_row_from_row_slice`).  Predicting each row as a slice of its own gives the predictions of the
whole matrix: the same values, and a panic in the same cases. -/
theorem C17_row_slice [FlCast F D] (t : Tree F D) (m : Matrix D) (missing : D) :
    t.predict m missing =
      Res.mapM' (fun i => m.getRow i >>= fun row => t.predictRow row missing) (List.range m.rows) := by
  unfold Tree.predict
  refine Res.mapM'_congr fun i hi => ?_
  obtain ⟨row, hr, hg⟩ := getRow_idx m i (List.mem_range.1 hi)
  rw [hr]
  show _ = t.predictRow row missing
  unfold Tree.predictRow Tree.predictLeaf
  rw [show idx row = m.get i from funext hg]

/-- **C17** (one row).  If the tree predicts `v` for row `i`, the slice of that row is predicted `v`. -/
theorem C17_row_slice_value [FlCast F D] (t : Tree F D) (m : Matrix D) (missing : D)
    (out : List D) (h : t.predict m missing = .ok out) (i : Nat) (v : D)
    (hv : out[i]? = some v) : ∃ row, m.getRow i = .ok row ∧ t.predictRow row missing = .ok v := by
  rw [C17_row_slice t m missing, Res.mapM'_eq_ok, List.forall₂_iff_get] at h
  obtain ⟨hl, hv'⟩ := List.getElem?_eq_some_iff.1 hv
  have hi : i < (List.range m.rows).length := by rw [h.1]; exact hl
  have := h.2 i hi hl
  rw [List.get_eq_getElem, List.get_eq_getElem, List.getElem_range, hv', Res.bind_eq_ok] at this
  exact this

/-- The rows of `exData`, one with two missing entries, under a tree with missing branches. -/
example : exTree.predict exData FX.nan = Res.mapM' (fun row => exTree.predictRow row FX.nan)
    [[q 1, q 7], [q 3, q 1], [FX.nan, FX.nan]] ∧
    (match exTree.predict exData FX.nan with | .ok out => decide (out.length = 3) | _ => false) = true := by
  decide +kernel

end Verif
