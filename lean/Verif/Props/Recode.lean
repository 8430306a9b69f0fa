import Verif.Proofs.Recode
import Verif.Props.Boosting

/-!
# C105: the code for missing values does not matter

NaN or a number that does not occur otherwise: the fitted models and all their outputs are the same.
-/

namespace Verif

open scoped Verif

section
variable {F D : Type} [Fl F] [Fl D] [FlCast F D] {m' : D}

/-- **C105** (training).  Take the code `m'` for missing values in place of the code of the booster, and recode the data
and the evaluation data.  Then `fit` ends in the same way (success, error or panic) and the booster it leaves behind
differs in the code for missing values only.  Any arithmetic. -/
theorem C105_fit {R : Type} (env : Env R F D) (b : Booster F D) {X X' : Matrix D} (hX : X.Recoded b.missing m' X')
    (y w : List D) {ev ev' : Option (List (EvalSet D))} (hev : EvalsRecoded b.missing m' ev ev') :
    (b.withMissing m').fit env X' y w ev' = (do
      let r ← b.fit env X y w ev
      .ok (r.1.withMissing m', r.2)) := by
  unfold Booster.fit
  rw [validateFit_recoded hev]
  cases validateFit y w ev with
  | error e => rfl
  | ok u =>
    dsimp only
    have key := fitTrees_recoded hX (y := y) (w := w) (sp := b.splitter) (env := env) hev
    rw [show (b.withMissing m').splitter = b.splitter from rfl]
    cases h1 : fitTrees env b X y w b.splitter ev <;>
      cases h2 : fitTrees env (b.withMissing m') X' y w b.splitter ev' <;> rw [h1, h2] at key <;> first
        | exact key.elim
        | rfl
        | skip
    have key : _ = _ := key
    rw [key]
    rfl

/-- **C105** (outputs).  On recoded data the predictions, the leaf indices and the contributions of every method are
the same.  Any arithmetic. -/
theorem C105_predict (b : Booster F D) {X X' : Matrix D} (hX : X.Recoded b.missing m' X') :
    (b.withMissing m').predict X' = b.predict X ∧
      (b.withMissing m').predictLeafIndices X' = b.predictLeafIndices X ∧
      ∀ m, (b.withMissing m').predictContributions X' m = b.predictContributions X m := by
  refine ⟨?_, ?_, fun m => ?_⟩
  · unfold Booster.predict
    rw [hX.rows, show (b.withMissing m').predictionTrees = b.predictionTrees from rfl,
      show (b.withMissing m').missing = m' from rfl, show (b.withMissing m').baseScore = b.baseScore from rfl]
    simp only [treePredict_recoded hX]
  · unfold Booster.predictLeafIndices
    rw [show (b.withMissing m').predictionTrees = b.predictionTrees from rfl,
      show (b.withMissing m').missing = m' from rfl]
    simp only [treeLeaves_recoded hX]
  · unfold Booster.predictContributions
    rw [contribRows_recoded hX]

theorem partialDependence_recoded {m v v' : D} (h : Recoded m m' v v') (nodes : List (Node F D)) (f : Nat) :
    ∀ (fuel i : Nat) (p : F), partialDependence nodes f v' m' fuel i p = partialDependence nodes f v m fuel i p
  | 0, _, _ => rfl
  | fuel + 1, i, p => by
    rw [partialDependence, partialDependence]
    simp only [h.child, partialDependence_recoded h nodes f fuel]

/-- **C105** (partial dependence).  The partial dependence on a recoded value is the same. -/
theorem C105_dependence (b : Booster F D) {v v' : D} (h : Recoded b.missing m' v v') (f : Nat) :
    (b.withMissing m').valuePartialDependence f v' = b.valuePartialDependence f v := by
  unfold Booster.valuePartialDependence Tree.valuePartialDependence
  rw [show (b.withMissing m').predictionTrees = b.predictionTrees from rfl,
    show (b.withMissing m').missing = m' from rfl, show (b.withMissing m').baseScore = b.baseScore from rfl]
  simp only [partialDependence_recoded h]

end

/-- The data of the example with -999 in place of NaN. -/
def exXCoded : Matrix Q := { exX with data := exX.data.map fun v => if isNaN v then q (-999) else v }

/-- The evaluation sets with -999 in place of NaN. -/
def exSetsCoded : List (EvalSet Q) := exSets.map fun e => { e with data := exXCoded }

theorem exX_recoded : exX.Recoded FX.nan (q (-999)) exXCoded := by
  refine ⟨rfl, rfl, ?_⟩
  unfold exXCoded
  dsimp only
  rw [List.forall₂_map_right_iff, List.forall₂_same]
  intro v hv
  have h : ∀ v ∈ exX.data, isNaN v = true ∨ (isNaN v = false ∧ (v =ᶠ (FX.nan : Q)) = false ∧ (v =ᶠ q (-999)) = false) := by
    decide +kernel
  rcases h v hv with h | ⟨h1, h2, h3⟩
  · rw [if_pos h]
    exact .inl ⟨.inl ⟨rfl, h⟩, .inr ⟨by decide +kernel, by decide +kernel, by decide +kernel⟩⟩
  · rw [if_neg (by simp [h1])]
    exact .inr ⟨rfl, ⟨h1, h2⟩, h1, h3⟩

/-- C105: data with missing values, two evaluation sets, a fit that makes trees; the two matrices differ. -/
example : exStop.missing = FX.nan ∧ exX.Recoded exStop.missing (q (-999)) exXCoded ∧
    EvalsRecoded exStop.missing (q (-999)) (some exSets) (some exSetsCoded) ∧ exXCoded.data ≠ exX.data ∧
    (∃ b' : Booster Q Q, exStop.fit exEnv exX exY exW (some exSets) = .ok (b', .ok ()) ∧ b'.trees ≠ [] ∧
      (exStop.withMissing (q (-999))).fit exEnv exXCoded exY exW (some exSetsCoded) =
        .ok (b'.withMissing (q (-999)), .ok ())) := by
  have hm : exStop.missing = FX.nan := rfl
  have hs : EvalsRecoded exStop.missing (q (-999)) (some exSets) (some exSetsCoded) :=
    .cons ⟨exX_recoded, rfl, rfl⟩ (.cons ⟨exX_recoded, rfl, rfl⟩ .nil)
  refine ⟨hm, exX_recoded, hs, by decide +kernel, ?_⟩
  have h : (match exStop.fit exEnv exX exY exW (some exSets) with
      | .ok (b', .ok ()) => !b'.trees.isEmpty
      | _ => false) = true := by decide +kernel
  split at h
  case h_2 => cases h
  rename_i b' e
  refine ⟨b', e, (fun h0 => by rw [h0] at h; cases h), ?_⟩
  rw [C105_fit exEnv exStop exX_recoded exY exW hs, e]
  rfl

/-- C105: a value to ask the partial dependence for. -/
example : Recoded (FX.nan : Q) (q (-999)) FX.nan (q (-999)) ∧ Recoded (FX.nan : Q) (q (-999)) (q 3) (q 3) :=
  ⟨.inl ⟨.inl ⟨rfl, rfl⟩, .inr ⟨by decide +kernel, by decide +kernel, by decide +kernel⟩⟩,
   .inr ⟨rfl, ⟨by decide +kernel, by decide +kernel⟩, by decide +kernel, by decide +kernel⟩⟩

end Verif
