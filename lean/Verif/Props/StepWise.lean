import Verif.Proofs.SameSides
import Verif.Proofs.RelateFit
import Verif.Props.Increasing
import Verif.Props.MissingSplits

/-!
# C111: predictions change at training values only

Every split value of a fitted tree is a value of the training data.  Between two neighbouring training values, and
above the greatest, predictions are constant.
-/

namespace Verif

open scoped Verif

set_option linter.unusedSectionVars false

section
variable {F D : Type} [Fl F] [Fl D] [FlCast F D]
variable {R : Type} {env : Env R F D} {b b' : Booster F D} {X : Matrix D} {y w : List D}
  {ev : Option (List (EvalSet D))}

/-- The values of column `j`. -/
def Matrix.colVal (X : Matrix D) (j : Nat) (v : D) : Prop := ∃ p : Nat, X.data[p]? = some v ∧ p / X.rows = j

theorem Matrix.mapCols_id (X : Matrix D) : X.mapCols (fun _ v => v) = X := by
  unfold Matrix.mapCols
  congr 1
  apply List.ext_getElem?
  intro i
  simp

theorem respects_id {missing : D} {dom : Nat → D → Prop} : Respects (fun _ v => v) missing dom where
  nan _ _ _ := rfl
  sentinel _ _ _ := rfl
  lt _ _ _ _ _ _ _ := rfl
  le _ _ _ _ _ _ _ := rfl
  feq _ _ _ _ _ _ _ := rfl
  max_le _ _ _ _ := rfl
  feq_max _ _ _ _ := rfl

/-- **C111** (split values).  Every split value of a fitted tree is one of the numbers in the column of its feature in
the training data.  Any arithmetic. -/
theorem C111_value (henv : EnvNatural env) (hX : X.Shaped) (h : b.fit env X y w ev = .ok (b', .ok ()))
    {t : Tree F D} (ht : t ∈ b'.trees) {n : Node F D} (hn : n ∈ t.nodes) (hl : n.isLeaf = false) :
    Present b.missing n.splitValue ∧ ∃ r < X.rows, X.entry r n.splitFeature = some n.splitValue := by
  obtain ⟨base, bd, st, stop, N, hTr⟩ := Booster.fit_trace h
  obtain ⟨k, hk⟩ := List.mem_iff_getElem?.1 ht
  obtain ⟨cfg, rows, hA⟩ := hTr.treeAt hk
  have hF := hA.fitted
  have hbd := hTr.bin_eq
  have hw : X.Within X.colVal := fun p v hp => ⟨p, hp, rfl⟩
  have key := binMatrix_sim henv.natural henv.sorter (respects_id (missing := b.missing)) hw w b.nbins
  rw [X.mapCols_id, hbd] at key
  obtain ⟨_, cs, cs', hj, hj', hlen, hlen', hcut⟩ := key
  obtain ⟨r1, r2, hcol⟩ := hF.columns
  have hsc := sampleColumns_sorted henv.rng hcol
  have hT : TrainSim (SplitVal (fun _ v => v) b.missing X.colVal) cfg.train cfg.train := by
    have hlaid : cfg.train.Laid := by
      refine ⟨⟨cs, by rw [hF.cuts_eq]; exact hj, by rw [hF.data_eq]; exact hlen⟩, fun hl => ?_⟩
      rw [hF.data_eq] at hl ⊢
      exact eq_range_of_sorted hsc.1 hsc.2.1 hl
    refine ⟨hlaid, hlaid, rfl, rfl, rfl, rfl, rfl, fun j => ?_⟩
    rw [hF.cuts_eq]
    refine (hcut j).mono fun c c' _ _ hc => ⟨hc.length, ?_⟩
    obtain ⟨d, e, e', rfl, rfl, hd, _⟩ := hc
    simp only [List.length_append, List.length_map, List.length_singleton, Nat.add_sub_cancel]
    rw [List.take_left' rfl, List.take_left' (by simp), List.forall₂_map_right_iff]
    exact List.forall₂_same.2 fun a ha => ⟨hd a ha, rfl⟩
  have hheap : cfg.heap.ByScore := by rw [hA.heap]; exact henv.heap k
  have hfit := treeFit_sim (V := SplitVal (fun _ v => v) b.missing X.colVal)
    (c := cfg) (c' := cfg) ⟨hT, rfl, rfl, rfl, rfl, rfl, hheap⟩ b.sampleMethod rows
  rw [hF.fit] at hfit
  have hfit : List.Forall₂ (NodeSim (SplitVal (fun _ v => v) b.missing X.colVal)) t.nodes t.nodes := hfit
  obtain ⟨i, hi⟩ := List.mem_iff_getElem?.1 hn
  have hnode : NodeSim (SplitVal (fun _ v => v) b.missing X.colVal) n n := by
    have hi' := List.getElem?_eq_some_iff.1 hi
    obtain ⟨hlt, e⟩ := hi'
    have := List.Forall₂.get hfit hlt hlt
    simpa [e] using this
  rcases hnode with ⟨hl', _⟩ | ⟨_, v, _, ⟨⟨p, hp, hpj⟩, hpr⟩, _⟩
  · rw [hl] at hl'; cases hl'
  refine ⟨hpr, p % X.rows, ?_, ?_⟩
  · have hlt := (List.getElem?_eq_some_iff.1 hp).1
    rw [hX] at hlt
    rcases Nat.eq_zero_or_pos X.rows with h0 | h0
    · rw [h0] at hlt; simp at hlt
    · exact Nat.mod_lt _ h0
  · unfold Matrix.entry
    rw [← hpj, Nat.mul_comm, Nat.div_add_mod]
    exact hp

theorem together_child {missing : D} {n : Node F D} {v v' : D}
    (hv : Present missing n.splitValue ∧ ∃ r < X.rows, X.entry r n.splitFeature = some n.splitValue)
    (h : X.Together missing n.splitFeature v v') : n.getChildIdx v' missing = n.getChildIdx v missing := by
  obtain ⟨hp, r, hr, he⟩ := hv
  unfold Node.getChildIdx
  rcases h with ⟨h1, h2⟩ | ⟨h1, h2, h3⟩
  · rw [h1.isMissing, h2.isMissing]; rfl
  · rw [present_iff.1 h1, present_iff.1 h2, Res.ok_bind, Res.ok_bind]
    simp only [Bool.false_eq_true, if_false, h3 r hr _ he hp]

/-- The fitted model keeps the code for missing values. -/
theorem fit_missing (h : b.fit env X y w ev = .ok (b', .ok ())) : b'.missing = b.missing := by
  obtain ⟨_, _, st, _, N, hT⟩ := Booster.fit_trace h
  have e := hT.same N (le_refl _)
  rw [hT.last] at e
  unfold Booster.SameParams at e
  rw [e]

/-- **C111** (steps).  Two matrices whose entries are not separated by training values get the same predictions,
leaves and contributions of every method.  Any arithmetic. -/
theorem C111_step (henv : EnvNatural env) (hX : X.Shaped) (h : b.fit env X y w ev = .ok (b', .ok ()))
    {Z Z' : Matrix D} (hZ : Z.Alike (X.Together b.missing) Z') :
    b'.predict Z' = b'.predict Z ∧ b'.predictLeafIndices Z' = b'.predictLeafIndices Z ∧
      ∀ m, b'.predictContributions Z' m = b'.predictContributions Z m := by
  have key : SameSides b' Z Z' :=
    { rows := hZ.rows, cols := hZ.cols, shaped := hZ.shaped, shaped' := hZ.shaped'
      side := fun t ht n hn hl i hi v v' hv hv' => by
        rw [fit_missing h]
        exact together_child (C111_value henv hX h ht hn hl)
          (hZ.entry i hi _ ((entry_lt hZ.shaped hi).1 ⟨v, hv⟩) v v' hv hv') }
  exact ⟨key.predict.1, key.predict.2, key.contributions⟩

/-- **C111** (partial dependence).  The partial dependence has steps at training values only.  Any arithmetic. -/
theorem C111_dependence (henv : EnvNatural env) (hX : X.Shaped) (h : b.fit env X y w ev = .ok (b', .ok ()))
    {f : Nat} {v v' : D} (hv : X.Together b.missing f v v') :
    b'.valuePartialDependence f v' = b'.valuePartialDependence f v := by
  unfold Booster.valuePartialDependence Tree.valuePartialDependence
  rcases e : b'.predictionTrees with ts | _ | _
  · rw [Res.ok_bind, Res.ok_bind]
    refine congrArg (fun x => Bind.bind x _) (Res.mapM'_congr fun t ht => ?_)
    refine partialDependence_same (fun n hn hl hf => ?_) _ _ _
    rw [fit_missing h]
    exact together_child (C111_value henv hX h (predictionTrees_mem e t ht) hn hl) (by rw [hf]; exact hv)
  · rfl
  · rfl

end

section
variable {F D : Type} [Fl F] [Fl D] [FlCast F D] [Fl.OrdLaws D]
variable {R : Type} {env : Env R F D} {b b' : Booster F D} {X : Matrix D} {y w : List D}
  {ev : Option (List (EvalSet D))}

theorem floor_together {missing : D} {j : Nat} {v v' : D} (h : X.FloorOf missing j v v') :
    X.Together missing j v v' := by
  rcases h with ⟨rfl, hm | hp⟩ | ⟨hp, hp', hx, hle, hg⟩
  · exact .inl ⟨hm, hm⟩
  · exact .inr ⟨hp, hp, fun _ _ _ _ _ => rfl⟩
  refine .inr ⟨hp, hp', fun r hr u hu hpu => ?_⟩
  rw [Bool.eq_iff_iff]
  constructor
  · intro h1
    by_contra h2
    have h3 := (Fl.OrdLaws.le_iff u v hpu.1 hp.1).2 (by simpa using h2)
    have h4 := (Fl.OrdLaws.le_iff u v' hpu.1 hp'.1).1 (hg r hr u hu hpu h3)
    rw [h1] at h4; cases h4
  · intro h1
    have h2 := (Fl.OrdLaws.le_iff v' v hp'.1 hp.1).1 hle
    rcases Fl.OrdLaws.cotrans v u v' hp'.1 h1 with h3 | h3
    · rw [h2] at h3; cases h3
    · exact h3

/-- **C111** (rounding down).  Replacing a number by the greatest training value of its column that is not above it
(in particular a number above the training range by the greatest training value) does not change the outputs of the
model.  Any arithmetic with an ordered comparison. -/
theorem C111_floor (henv : EnvNatural env) (hX : X.Shaped) (h : b.fit env X y w ev = .ok (b', .ok ()))
    {Z Z' : Matrix D} (hZ : Z.Alike (X.FloorOf b.missing) Z') :
    b'.predict Z' = b'.predict Z ∧ b'.predictLeafIndices Z' = b'.predictLeafIndices Z ∧
      ∀ m, b'.predictContributions Z' m = b'.predictContributions Z m :=
  C111_step henv hX h ⟨hZ.rows, hZ.cols, hZ.shaped, hZ.shaped', fun i hi j hj v v' hv hv' =>
    floor_together (hZ.entry i hi j hj v v' hv hv')⟩

end

section
variable {K : Type} [Field K] [LinearOrder K] [IsStrictOrderedRing K] {m32 m64 : Fmt K}
  [m32.Exact] [m64.Exact]
variable {R : Type} {env : Env R (FX m32) (FX m64)} {b b' : Booster (FX m32) (FX m64)} {X : Matrix (FX m64)}
  {y w : List K} {ev : Option (List (EvalSet (FX m64)))} {l1 l2 mds lr : K}

/-- **C111** (below the training range).  In exact arithmetic, without `allow_missing_splits` or with a branch
for missing values, a number below all training values of its column may be replaced by the least of them.  With
`allow_missing_splits` it may not, see `C111_below_counterexample`. -/
theorem C111_below (h : PlainFit env b X y w ev b' l1 l2 mds lr)
    (hs : b.createMissingBranch = true ∨ b.allowMissingSplits = false)
    {Z Z' : Matrix (FX m64)} (hZ : Z.Alike (X.RaisedTo b.missing) Z') :
    b'.predict Z' = b'.predict Z ∧ b'.predictLeafIndices Z' = b'.predictLeafIndices Z ∧
      ∀ m, b'.predictContributions Z' m = b'.predictContributions Z m := by
  have key : SameSides b' Z Z' :=
    { rows := hZ.rows, cols := hZ.cols, shaped := hZ.shaped, shaped' := hZ.shaped'
      side := fun t ht n hn hl i hi v v' hv hv' => by
        rw [fit_missing h.fit]
        obtain ⟨k, hk⟩ := List.mem_iff_getElem?.1 hn
        obtain ⟨⟨r, hr, u, _, hu, hum, hlt⟩, _⟩ := C106_present_partial h hs ht hk hl
        have hP := hZ.entry i hi _ ((entry_lt hZ.shaped hi).1 ⟨v, hv⟩) v v' hv hv'
        rcases hP with ⟨rfl, _⟩ | ⟨hp, hp', hx, hall⟩
        · rfl
        have hun : isNaN u = false := (Fl.OrdLaws.lt_num _ _ hlt).1
        obtain ⟨h1, h2⟩ := hall r hr u hu ⟨hun, hum⟩
        unfold Node.getChildIdx
        rw [present_iff.1 hp, present_iff.1 hp', Res.ok_bind, Res.ok_bind]
        have h3 : (v <ᶠ n.splitValue) = true := Fl.OrdLaws.lt_trans _ _ _ h1 hlt
        have h4 : (v' <ᶠ n.splitValue) = true := by
          rcases Fl.OrdLaws.cotrans u n.splitValue v' hp'.1 hlt with h5 | h5
          · rw [(Fl.OrdLaws.le_iff v' u hp'.1 hun).1 h2] at h5; cases h5
          · exact h5
        rw [h3, h4] }
  exact ⟨key.predict.1, key.predict.2, key.contributions⟩

end

/-! ### Examples -/

/-- The first prediction. -/
def headPrediction (r : Res (Booster Q Q × Except ForustError Unit)) (v : Q) : Option Q :=
  match r with
  | .ok (b, .ok ()) =>
    match b.predict { data := [v], rows := 1, cols := 1 } with
    | .ok l => l.head?
    | _ => none
  | _ => none

instance (X : Matrix Q) (missing : Q) (j : Nat) (v v' : Q) : Decidable (X.FloorOf missing j v v') :=
  decidable_of_iff ((v' = v ∧ (((isNaN missing = true ∧ isNaN v = true) ∨
      (isNaN missing = false ∧ isNaN v = false ∧ (v =ᶠ missing) = true)) ∨
        (isNaN v = false ∧ ¬ IsMissing missing v))) ∨
    ((isNaN v = false ∧ ¬ IsMissing missing v) ∧ (isNaN v' = false ∧ ¬ IsMissing missing v') ∧
      (∃ r < X.rows, X.entry r j = some v') ∧ (v' ≤ᶠ v) = true ∧
      ∀ r < X.rows, ∀ u ∈ X.entry r j, (isNaN u = false ∧ ¬ IsMissing missing u) → (u ≤ᶠ v) = true →
        (u ≤ᶠ v') = true)) Iff.rfl

/-- Two rows beyond and between the training values. -/
def exBetween : Matrix Q := { data := [q 10, q (5 / 2), q (3 / 2), FX.nan], rows := 2, cols := 2 }

/-- The greatest training values not above them. -/
def exFloored : Matrix Q := { data := [q 6, q 2, q 1, FX.nan], rows := 2, cols := 2 }

theorem exBetween_alike : exBetween.Alike (exX.FloorOf exFresh.missing) exFloored where
  rows := rfl
  cols := rfl
  shaped := rfl
  shaped' := rfl
  entry := by
    have : ∀ i < 2, ∀ j < 2, ∀ v ∈ exBetween.entry i j, ∀ v' ∈ exFloored.entry i j,
        exX.FloorOf exFresh.missing j v v' := by decide +kernel
    intro i hi j hj v v' h h'
    exact this i hi j hj v h v' h'

/-- C111: a fit on six rows, two new rows, one of them with a value above the training range and one with a missing
value. -/
example : ∃ b', exFresh.fit exEnv exX exY exW none = .ok (b', .ok ()) ∧
    b'.predict exFloored = b'.predict exBetween ∧ b'.predict exBetween ≠ .panic := by
  have : (match exFresh.fit exEnv exX exY exW none with
      | .ok (b', .ok ()) => decide (b'.predict exBetween ≠ .panic)
      | _ => false) = true := by decide +kernel
  split at this
  · rename_i b' hf
    exact ⟨b', hf, (C111_floor exEnv_natural (show exX.Shaped from rfl) hf exBetween_alike).1, of_decide_eq_true this⟩
  · cases this

/-- One row with one value. -/
def exOne (v : Q) : Matrix Q := { data := [v], rows := 1, cols := 1 }

/-- C111: without `allow_missing_splits` the model predicts the same for 0, below the training values 1 and 2, as
for 1. -/
example : ∃ b', PlainFit exEnv (msB false) msX msY (List.replicate 6 (1 : ℚ)) none b' 0 1 0 (1 / 2) ∧
    b'.predict (exOne (q 1)) = b'.predict (exOne (q 0)) := by
  obtain ⟨_, b', _, _, hP, _⟩ := C106_allowed
  refine ⟨b', hP, (C111_below hP (.inr rfl) (Z := exOne (q 0)) (Z' := exOne (q 1))
    ⟨rfl, rfl, rfl, rfl, fun i hi j hj v v' hv hv' => ?_⟩).1⟩
  have hi0 : i = 0 := by simpa [exOne] using hi
  have hj0 : j = 0 := by simpa [exOne] using hj
  subst hi0 hj0
  cases hv
  cases hv'
  refine .inr ⟨⟨rfl, by decide +kernel⟩, ⟨rfl, by decide +kernel⟩, ⟨0, by decide, rfl⟩, fun r hr u hu hp => ?_⟩
  have : ∀ r < 6, ∀ u ∈ msX.entry r 0, isNaN u = false → (q 0 <ᶠ u) = true ∧ (q 1 ≤ᶠ u) = true := by
    decide +kernel
  exact this r hr u hu hp.1

/-- **C111** (below the training range).  With `allow_missing_splits` a number below every training value can go with
the missing values: the training values are 1 and 2; the model predicts the same for 0 as for a missing value, and not
the same as for 1. -/
theorem C111_below_counterexample :
    headPrediction ((msB true).fit exEnv msX (msY.map q) exW none) (q 0) =
      headPrediction ((msB true).fit exEnv msX (msY.map q) exW none) FX.nan ∧
    headPrediction ((msB true).fit exEnv msX (msY.map q) exW none) (q 0) = some (q (10 / 3)) ∧
    headPrediction ((msB true).fit exEnv msX (msY.map q) exW none) (q 1) = some (q (1 / 3)) := by
  refine ⟨?_, ?_, ?_⟩ <;> decide +kernel

end Verif
