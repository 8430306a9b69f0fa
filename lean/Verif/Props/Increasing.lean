import Verif.Proofs.RelateContrib
import Verif.Props.Sampling
import Verif.Spec.Sorting
import Mathlib.Algebra.Order.Ring.Defs
import Mathlib.Order.Monotone.Basic
import Mathlib.Tactic.Linarith

/-!
# C63: transforming the features by increasing functions

Training looks at the features through comparisons only: applying an order-preserving function to each
column leaves the fitted model the same up to the split values, which are transformed alike. This holds for
any arithmetic, for every objective, sampling method, growth policy and missing-node treatment.
-/

namespace Verif

open scoped Verif

set_option linter.unusedSectionVars false

section
variable {F D : Type} [Fl F] [Fl D] [FlCast F D]
variable {φ : Nat → D → D} {dom : Nat → D → Prop}

/-- The fit on transformed features ends as the fit on the original features does (an error of validation,
a panic or success); in the last case the fitted boosters differ in the split values only, which are
transformed by the function of their feature. -/
theorem C63_fit {R : Type} {env : Env R F D} (henv : EnvNatural env) (b : Booster F D)
    (hφ : Respects φ b.missing dom) {X : Matrix D} (hX : X.Within dom) (y w : List D)
    (ev : Option (List (EvalSet D))) (hev : ∀ es, ev = some es → ∀ e ∈ es, e.data.Within dom) :
    b.fit env (X.mapCols φ) y w (ev.map fun es => es.map (EvalSet.mapCols φ)) = (do
      let r ← b.fit env X y w ev
      .ok (match r.2 with
        | .ok () => (r.1.mapSplits φ, r.2)
        | .error _ => r)) := by
  unfold Booster.fit
  rw [validateFit_mapCols]
  cases validateFit y w ev with
  | error e => rfl
  | ok u =>
    dsimp only
    have key := fitTrees_sim henv hφ hX (y := y) (w := w) (sp := b.splitter) hev
    revert key
    cases fitTrees env b X y w b.splitter ev <;>
      cases fitTrees env b (X.mapCols φ) y w b.splitter (ev.map fun es => es.map (EvalSet.mapCols φ)) <;>
      intro key <;> first
      | exact key.elim
      | rfl
      | (have key : BoosterSim φ b.missing dom _ _ := key
         simp only [Res.ok_bind]
         rw [key.mapSplits])

/-- A successful fit and the fit on the transformed features. -/
theorem fit_boosterSim {R : Type} {env : Env R F D} (henv : EnvNatural env) {b b' : Booster F D}
    (hφ : Respects φ b.missing dom) {X : Matrix D} (hX : X.Within dom) {y w : List D}
    {ev : Option (List (EvalSet D))} (hev : ∀ es, ev = some es → ∀ e ∈ es, e.data.Within dom)
    (h : b.fit env X y w ev = .ok (b', .ok ())) : BoosterSim φ b.missing dom b' (b'.mapSplits φ) := by
  have key := fitTrees_sim henv hφ hX (y := y) (w := w) (sp := b.splitter) hev
  unfold Booster.fit at h
  split at h
  · simp at h
  · obtain ⟨b1, h1, h2⟩ := Res.bind_eq_ok.1 h
    simp only [Res.ok.injEq, Prod.mk.injEq, and_true] at h2
    subst h2
    rw [h1] at key
    generalize fitTrees env b (X.mapCols φ) y w b.splitter (ev.map fun es => es.map (EvalSet.mapCols φ)) = r
      at key
    cases r with
    | ok b2 =>
      have key : BoosterSim φ b.missing dom b1 b2 := key
      rw [← key.mapSplits]
      exact key
    | panic => exact key.elim
    | diverge => exact key.elim

/-- The fitted booster, with its split values transformed, gives to transformed data the predictions, leaf
indices and contributions (of every method) that the fitted booster gives to the original data. -/
theorem C63_predict {R : Type} {env : Env R F D} (henv : EnvNatural env) {b b' : Booster F D}
    (hφ : Respects φ b.missing dom) {X : Matrix D} (hX : X.Within dom) {y w : List D}
    {ev : Option (List (EvalSet D))} (hev : ∀ es, ev = some es → ∀ e ∈ es, e.data.Within dom)
    (h : b.fit env X y w ev = .ok (b', .ok ())) {Z : Matrix D} (hZ : Z.Within dom) :
    (b'.mapSplits φ).predict (Z.mapCols φ) = b'.predict Z ∧
      (b'.mapSplits φ).predictLeafIndices (Z.mapCols φ) = b'.predictLeafIndices Z ∧
      ∀ m, (b'.mapSplits φ).predictContributions (Z.mapCols φ) m = b'.predictContributions Z m :=
  have key := fit_boosterSim henv hφ hX hev h
  ⟨boosterPredict_sim hφ key hZ, boosterLeaves_sim hφ key hZ, contributions_sim hφ key hZ⟩

/-- The partial dependence on a transformed value and the feature importances are those of the original. -/
theorem C63_dependence {R : Type} {env : Env R F D} (henv : EnvNatural env) {b b' : Booster F D}
    (hφ : Respects φ b.missing dom) {X : Matrix D} (hX : X.Within dom) {y w : List D}
    {ev : Option (List (EvalSet D))} (hev : ∀ es, ev = some es → ∀ e ∈ es, e.data.Within dom)
    (h : b.fit env X y w ev = .ok (b', .ok ())) :
    (∀ j x, dom j x → (b'.mapSplits φ).valuePartialDependence j (φ j x) = b'.valuePartialDependence j x) ∧
      ∀ S m normalize, (b'.mapSplits φ).featureImportance S m normalize =
        b'.featureImportance S m normalize :=
  have key := fit_boosterSim henv hφ hX hev h
  ⟨fun _ _ hx => valuePartialDependence_sim hφ key hx, fun S m n => featureImportance_sim key S m n⟩

/-- Training on transformed features and predicting transformed data gives the predictions of training on
the original features and predicting the original data. -/
theorem C63_invariant {R : Type} {env : Env R F D} (henv : EnvNatural env) {b b' : Booster F D}
    (hφ : Respects φ b.missing dom) {X : Matrix D} (hX : X.Within dom) {y w : List D}
    {ev : Option (List (EvalSet D))} (hev : ∀ es, ev = some es → ∀ e ∈ es, e.data.Within dom)
    (h : b.fit env X y w ev = .ok (b', .ok ())) :
    ∃ b'', b.fit env (X.mapCols φ) y w (ev.map fun es => es.map (EvalSet.mapCols φ)) = .ok (b'', .ok ()) ∧
      b''.trees.length = b'.trees.length ∧ b''.bestIteration = b'.bestIteration ∧
      b''.evaluationHistory = b'.evaluationHistory ∧
      ∀ Z : Matrix D, Z.Within dom → b''.predict (Z.mapCols φ) = b'.predict Z ∧
        b''.predictLeafIndices (Z.mapCols φ) = b'.predictLeafIndices Z ∧
        ∀ m, b''.predictContributions (Z.mapCols φ) m = b'.predictContributions Z m := by
  refine ⟨b'.mapSplits φ, ?_, ?_, rfl, rfl, fun Z hZ => C63_predict henv hφ hX hev h hZ⟩
  · rw [C63_fit henv b hφ hX y w ev hev, h]; rfl
  · simp [Booster.mapSplits]

end

/-! ## Increasing functions of the numbers -/

section
variable {K : Type} [Field K] [LinearOrder K] [IsStrictOrderedRing K]

/-- A function of the numbers, extended to NaN and the infinities, which it leaves alone. -/
def FX.extend {m : Fmt K} (f : K → K) : FX m → FX m
  | .fin x => .fin (f x)
  | v => v

/-- The finite values lie in the set. -/
def FinIn {m : Fmt K} (s : Nat → Set K) (j : Nat) (v : FX m) : Prop := ∀ x, v = .fin x → x ∈ s j

/-- Functions strictly increasing on the values of the columns (`s j`), keeping below the greatest number
and keeping the missing value apart, meet the hypothesis on the transformation. -/
theorem C63_increasing {m : Fmt K} {f : Nat → K → K} {s : Nat → Set K} {missing : FX m}
    (hf : ∀ j, StrictMonoOn (f j) (s j)) (hmax : ∀ j, ∀ x ∈ s j, x < m.maxF ∧ f j x < m.maxF)
    (hmiss : ∀ c, missing = .fin c → ∀ j, ∀ x ∈ s j, f j x = c ↔ x = c) :
    Respects (fun j => FX.extend (f j)) missing (FinIn s) where
  nan j a _ := by cases a <;> rfl
  sentinel j a ha := by
    cases a with
    | fin x =>
      cases missing with
      | fin c => simp only [FX.extend, FX.feq_fin]; simp only [hmiss c rfl j x (ha x rfl)]
      | _ => rfl
    | _ => rfl
  lt j a b ha hb _ _ := by
    cases a with
    | fin x =>
      cases b with
      | fin y => simp only [FX.extend, FX.lt_fin]; simp only [(hf j).lt_iff_lt (ha x rfl) (hb y rfl)]
      | _ => rfl
    | _ => cases b <;> rfl
  le j a b ha hb _ _ := by
    cases a with
    | fin x =>
      cases b with
      | fin y => simp only [FX.extend, FX.le_fin]; simp only [(hf j).le_iff_le (ha x rfl) (hb y rfl)]
      | _ => rfl
    | _ => cases b <;> rfl
  feq j a b ha hb _ _ := by
    cases a with
    | fin x =>
      cases b with
      | fin y => simp only [FX.extend, FX.feq_fin]; simp only [(hf j).injOn.eq_iff (ha x rfl) (hb y rfl)]
      | _ => rfl
    | _ => cases b <;> rfl
  max_le j a ha _ := by
    cases a with
    | fin x =>
      have := hmax j x (ha x rfl)
      show decide (m.maxF ≤ f j x) = decide (m.maxF ≤ x)
      rw [decide_eq_false (not_le.2 this.2), decide_eq_false (not_le.2 this.1)]
    | _ => rfl
  feq_max j a ha _ := by
    cases a with
    | fin x =>
      have := hmax j x (ha x rfl)
      show decide (f j x = m.maxF) = decide (x = m.maxF)
      rw [decide_eq_false this.2.ne, decide_eq_false this.1.ne]
    | _ => rfl

end

/-! ## A concrete case -/

/-- Insertion sort depends on the comparisons only. -/
theorem exSorter_natural : exSorter.Natural := by
  intro α β f le le' l h
  exact (List.map_insertionSort (r := fun a b => le a b = true) (s := fun a b => le' a b = true) f l
    fun a ha b hb => by rw [h a ha b hb]).symm

/-- The heap of the examples looks at scores only. -/
theorem exPick_byScore {F D : Type} [Fl F] : ∀ l l' : List (SNode F D),
    l.map SNode.gainValue = l'.map SNode.gainValue → exPick l = exPick l'
  | [], [], _ => rfl
  | [], _ :: _, h => by simp at h
  | _ :: _, [], h => by simp at h
  | [_], [_], _ => rfl
  | [_], _ :: _ :: _, h => by simp at h
  | _ :: _ :: _, [_], h => by simp at h
  | a :: b :: l, a' :: b' :: l', h => by
    have h1 : a.gainValue = a'.gainValue := by simp at h; exact h.1
    have h2 : (b :: l).map SNode.gainValue = (b' :: l').map SNode.gainValue := by simp at h ⊢; exact h.2
    have ih := exPick_byScore (b :: l) (b' :: l') h2
    rw [exPick, exPick, ih]
    have h3 := congrArg (fun x => x[exPick (b' :: l')]?) h2
    simp only [List.getElem?_map] at h3
    cases h4 : (b :: l)[exPick (b' :: l')]? <;> cases h5 : (b' :: l')[exPick (b' :: l')]? <;>
      rw [h4, h5] at h3
    · simp at h3
    · simp at h3
    · simp only [Option.map_some, Option.some.injEq] at h3
      simp only [h3, h1]

/-- The environment of the examples meets the hypotheses. -/
theorem exEnv_natural : EnvNatural exEnv where
  sorter := exSorter_ok
  natural := exSorter_natural
  rng := exRng_ok
  heap _ := fun _ l l' h => exPick_byScore l l' h

/-- The first column is doubled and shifted, the second is squared. -/
def exIncr : Nat → ℚ → ℚ := fun j x => if j = 0 then 2 * x + 1 else x * x

/-- The hypotheses on the transformation and the data are met. -/
theorem exIncr_ok : Respects (fun j => FX.extend (exIncr j)) exFresh.missing (FinIn fun _ => Set.Icc 1 6) ∧
    exX.Within (FinIn fun _ => Set.Icc (1 : ℚ) 6) := by
  refine ⟨C63_increasing ?_ ?_ ?_, ?_⟩
  · intro j x hx y hy hxy
    obtain ⟨h1, _⟩ := hx
    obtain ⟨h2, _⟩ := hy
    unfold exIncr
    split <;> nlinarith
  · intro j x hx
    obtain ⟨h1, h2⟩ := hx
    have e : ratFmt.maxF = (10 : ℚ) ^ 100 := rfl
    have h3 : (100 : ℚ) < 10 ^ 100 := by norm_num
    unfold exIncr
    rw [e]
    exact ⟨by linarith, by split <;> nlinarith⟩
  · intro c hc; cases hc
  · intro p v hv x hx
    have : ∀ v ∈ exX.data, (match v with
      | .fin x => decide (1 ≤ x ∧ x ≤ 6)
      | _ => true) = true := by decide +kernel
    have := this v (List.mem_of_getElem? hv)
    rw [hx] at this
    exact of_decide_eq_true this

/-- Split features and values of the trees. -/
def splitsOf (b : Booster Q Q) : List (List (Nat × Q)) :=
  b.trees.map fun t => (t.nodes.filter fun n => !n.isLeaf).map fun n => (n.splitFeature, n.splitValue)

/-- The fit of the example, on the features and on the transformed features: the same splits, with
transformed values. -/
example : ∃ b' b'' : Booster Q Q, exFresh.fit exEnv exX exY exW none = .ok (b', .ok ()) ∧
    exFresh.fit exEnv (exX.mapCols fun j => FX.extend (exIncr j)) exY exW none = .ok (b'', .ok ()) ∧
    splitsOf b' = [[(0, q 4), (0, q 3), (0, q 6)], [(0, q 4), (0, q 3), (0, q 6)]] ∧
    splitsOf b'' = [[(0, q 9), (0, q 7), (0, q 13)], [(0, q 9), (0, q 7), (0, q 13)]] := by
  have : (match exFresh.fit exEnv exX exY exW none with
    | .ok (b', .ok ()) => decide (splitsOf b' = [[(0, q 4), (0, q 3), (0, q 6)], [(0, q 4), (0, q 3), (0, q 6)]] ∧
        splitsOf (b'.mapSplits fun j => FX.extend (exIncr j)) =
          [[(0, q 9), (0, q 7), (0, q 13)], [(0, q 9), (0, q 7), (0, q 13)]])
    | _ => false) = true := by decide +kernel
  split at this
  · rename_i b' h
    refine ⟨b', b'.mapSplits fun j => FX.extend (exIncr j), h, ?_, of_decide_eq_true this⟩
    exact (C63_fit exEnv_natural exFresh exIncr_ok.1 exIncr_ok.2 exY exW none (fun _ h => nomatch h)).trans
      (by rw [h]; rfl)
  · cases this

end Verif
