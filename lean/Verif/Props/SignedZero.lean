import Verif.Spec.SignedZero
import Verif.Props.Increasing
import Verif.Props.Recode
import Verif.Model.Builder

/-!
# C127: the sign of zero in the features does not matter
-/

namespace Verif

open scoped Verif

set_option linter.unusedSectionVars false

section
variable {K : Type} [Field K] [LinearOrder K] {m m32 m64 : Fmt K}

/-- Forgetting the sign of zero respects all comparisons. -/
theorem SZ.plus_respects (missing : SZ m) : Respects (fun _ => SZ.plus) missing fun _ _ => True where
  nan _ _ _ := rfl
  sentinel _ _ _ := rfl
  lt _ _ _ _ _ _ _ := rfl
  le _ _ _ _ _ _ _ := rfl
  feq _ _ _ _ _ _ _ := rfl
  max_le _ _ _ _ := rfl
  feq_max _ _ _ _ := rfl

theorem Matrix.mapCols_const {D : Type} (f : D → D) (X : Matrix D) :
    X.mapCols (fun _ => f) = { X with data := X.data.map f } := by
  unfold Matrix.mapCols
  congr 1
  have : X.data.zipIdx.map (fun p => f p.1) = (X.data.zipIdx.map Prod.fst).map f := by rw [List.map_map]; rfl
  rw [this, List.zipIdx_map_fst]

theorem Matrix.SameUpToZero.mapCols {X X' : Matrix (SZ m)} (h : X.SameUpToZero X') :
    X'.mapCols (fun _ => SZ.plus) = X.mapCols fun _ => SZ.plus := by
  rw [Matrix.mapCols_const, Matrix.mapCols_const]
  have e : X'.data.map SZ.plus = X.data.map SZ.plus := by
    have := congrArg (List.map (SZ.of (m := m))) h.data
    rwa [List.map_map, List.map_map] at this
  cases X; cases X'
  simp only [Matrix.mk.injEq]
  exact ⟨e, h.rows, h.cols⟩

theorem evals_mapCols : ∀ {ev ev' : Option (List (EvalSet (SZ m)))}, EvalsSameUpToZero ev ev' →
    (ev'.map fun es => es.map (EvalSet.mapCols fun _ => SZ.plus)) =
      ev.map fun es => es.map (EvalSet.mapCols fun _ => SZ.plus)
  | none, none, _ => rfl
  | none, some _, h => h.elim
  | some _, none, h => h.elim
  | some l, some l', h => by
    have h' : List.Forall₂ EvalSet.SameUpToZero l l' := h
    clear h
    simp only [Option.map_some, Option.some.injEq]
    induction h' with
    | nil => rfl
    | cons ha _ ih =>
      rw [List.map_cons, List.map_cons, ih]
      congr 1
      unfold EvalSet.mapCols
      rw [ha.data.mapCols, ha.y, ha.w]

theorem Node.same_of_plus {n n' : Node (SZ m32) (SZ m64)}
    (h : n'.mapSplit (fun _ => SZ.plus) = n.mapSplit fun _ => SZ.plus) : n.SameUpToZero n' := by
  have hl : ∀ k : Node (SZ m32) (SZ m64), (k.mapSplit fun _ => SZ.plus).isLeaf = k.isLeaf := by
    intro k
    unfold Node.mapSplit
    split <;> rfl
  have hn : n'.isLeaf = n.isLeaf := by rw [← hl n', h, hl]
  unfold Node.mapSplit at h
  cases hf : n.isLeaf with
  | true =>
    rw [if_pos (hn.trans hf), if_pos hf] at h
    exact .inl h
  | false =>
    rw [if_neg (by rw [hn, hf]; exact Bool.false_ne_true), if_neg (by rw [hf]; exact Bool.false_ne_true)] at h
    have e1 : n'.splitValue.plus = n.splitValue.plus := congrArg Node.splitValue h
    have e2 : n' = { n with splitValue := n'.splitValue } :=
      congrArg (fun k : Node (SZ m32) (SZ m64) => { k with splitValue := n'.splitValue }) h
    have e3 : n'.splitValue.value = n.splitValue.value := by
      simpa only [SZ.plus, SZ.of.injEq] using e1
    have e4 : n'.splitValue = n.splitValue → n' = n := fun h5 => by rw [e2, h5]
    cases h6 : n.splitValue with
    | nzero =>
      rw [h6] at e3
      exact .inr ⟨e2, hf, by rw [h6]; rfl, e3⟩
    | of x =>
      cases h7 : n'.splitValue with
      | nzero =>
        rw [h7, h6] at e3
        exact .inr ⟨e2, hf, by rw [h6]; exact e3.symm, by rw [h7]; rfl⟩
      | of z =>
        rw [h7, h6] at e3
        have e3 : z = x := e3
        exact .inl (e4 (by rw [h7, h6, e3]))

theorem Booster.same_of_plus {b b' : Booster (SZ m32) (SZ m64)}
    (h : b'.mapSplits (fun _ => SZ.plus) = b.mapSplits fun _ => SZ.plus) : b.SameUpToZero b' := by
  obtain ⟨h1, h2⟩ : b' = { b with trees := b'.trees } ∧
      b'.trees.map (Tree.mapSplits fun _ => SZ.plus) = b.trees.map (Tree.mapSplits fun _ => SZ.plus) := by
    cases b
    cases b'
    simp only [Booster.mapSplits, Booster.mk.injEq] at h ⊢
    simp only [h, and_self]
  refine ⟨h1, ?_⟩
  rw [← List.forall₂_eq_eq_eq, List.forall₂_map_left_iff, List.forall₂_map_right_iff] at h2
  refine (List.Forall₂.flip h2).imp fun t t' h => ?_
  have h : t'.mapSplits (fun _ => SZ.plus) = t.mapSplits fun _ => SZ.plus := h
  simp only [Tree.mapSplits, Tree.mk.injEq] at h
  rw [← List.forall₂_eq_eq_eq, List.forall₂_map_left_iff, List.forall₂_map_right_iff] at h
  exact (List.Forall₂.flip h).imp fun _ _ h => Node.same_of_plus h

/-- **C127** (training).  The arithmetic has two zeros.  Data, and data of evaluation sets, that differ in the signs of
zeros only: training ends alike (an error, a panic, or success), and in the last case the fitted boosters differ in
the signs of zero split values only and give the same predictions, leaf indices and contributions (of every method)
to any data that differ in the signs of zeros only. -/
theorem C127_fit {R : Type} {env : Env R (SZ m32) (SZ m64)} (henv : EnvNatural env) (b : Booster (SZ m32) (SZ m64))
    {X X' : Matrix (SZ m64)} (hX : X.SameUpToZero X') (y w : List (SZ m64))
    {ev ev' : Option (List (EvalSet (SZ m64)))} (hev : EvalsSameUpToZero ev ev') :
    match b.fit env X y w ev, b.fit env X' y w ev' with
    | .ok (b1, .ok ()), .ok (b2, .ok ()) => b1.SameUpToZero b2 ∧
        ∀ Z Z' : Matrix (SZ m64), Z.SameUpToZero Z' → b2.predict Z' = b1.predict Z ∧
          b2.predictLeafIndices Z' = b1.predictLeafIndices Z ∧
          ∀ c, b2.predictContributions Z' c = b1.predictContributions Z c
    | .ok (b1, .error e), .ok (b2, .error e') => b2 = b1 ∧ e' = e
    | .panic, .panic => True
    | .diverge, .diverge => True
    | _, _ => False := by
  have hw : ∀ Z : Matrix (SZ m64), Z.Within fun _ _ => True := fun _ _ _ _ => trivial
  have hw' : ∀ ev : Option (List (EvalSet (SZ m64))), ∀ es, ev = some es → ∀ e ∈ es,
      e.data.Within fun _ _ => True := fun _ _ _ _ _ => hw _
  have k1 := C63_fit henv b (SZ.plus_respects b.missing) (hw X) y w ev (hw' ev)
  have k2 := C63_fit henv b (SZ.plus_respects b.missing) (hw X') y w ev' (hw' ev')
  rw [hX.mapCols, evals_mapCols hev, k1] at k2
  cases h1 : b.fit env X y w ev with
  | panic => cases h2 : b.fit env X' y w ev' <;> rw [h1, h2] at k2 <;> first | trivial | exact absurd k2 (by simp)
  | diverge => cases h2 : b.fit env X' y w ev' <;> rw [h1, h2] at k2 <;> first | trivial | exact absurd k2 (by simp)
  | ok r1 =>
    cases h2 : b.fit env X' y w ev' with
    | panic => rw [h1, h2] at k2; cases k2
    | diverge => rw [h1, h2] at k2; cases k2
    | ok r2 =>
      obtain ⟨b1, e1⟩ := r1
      obtain ⟨b2, e2⟩ := r2
      rw [h1, h2] at k2
      simp only [Res.ok_bind, Res.ok.injEq] at k2
      cases e1 with
      | error e1 =>
        cases e2 with
        | error e2 =>
          simp only [Prod.mk.injEq, Except.error.injEq] at k2
          exact ⟨k2.1.symm, k2.2.symm⟩
        | ok u => simp at k2
      | ok u =>
        cases e2 with
        | error e2 => simp at k2
        | ok u2 =>
          simp only [Prod.mk.injEq, and_true] at k2
          refine ⟨Booster.same_of_plus k2.symm, fun Z Z' hZ => ?_⟩
          obtain ⟨p1, p2, p3⟩ := C63_predict henv (SZ.plus_respects b.missing) (hw X) (hw' ev) h1 (hw Z)
          obtain ⟨q1, q2, q3⟩ := C63_predict henv (SZ.plus_respects b.missing) (hw X') (hw' ev') h2 (hw Z')
          rw [hZ.mapCols, ← k2] at q1 q2
          refine ⟨q1.symm.trans p1, q2.symm.trans p2, fun c => ?_⟩
          have := q3 c
          rw [hZ.mapCols, ← k2] at this
          exact this.symm.trans (p3 c)

/-- **C127** (missing value).  A zero as the code for missing values: its sign does not matter.  With the other zero as
the code, `fit` on data without NaN ends alike, the boosters differ in the code only, and outputs are the same. -/
theorem C127_missing {R : Type} (env : Env R (SZ m32) (SZ m64)) (b : Booster (SZ m32) (SZ m64)) {z : SZ m64}
    (hb : b.missing.value = .fin 0) (hz : z.value = .fin 0) {X : Matrix (SZ m64)}
    (hX : ∀ v ∈ X.data, isNaN v = false) (y w : List (SZ m64)) :
    (b.withMissing z).fit env X y w none = (do
      let r ← b.fit env X y w none
      .ok (r.1.withMissing z, r.2)) ∧
    (b.withMissing z).predict X = b.predict X := by
  have key : X.Recoded b.missing z X := by
    refine ⟨rfl, rfl, List.forall₂_same.2 fun v hv => ?_⟩
    have n0 : ∀ u : SZ m64, u.value = .fin 0 → isNaN u = false := fun u hu => by
      show isNaN u.value = false
      rw [hu]; rfl
    cases h : v =ᶠ b.missing with
    | true =>
      refine .inl ⟨.inr ⟨n0 _ hb, hX v hv, h⟩, .inr ⟨n0 _ hz, hX v hv, ?_⟩⟩
      have h : (v.value =ᶠ b.missing.value) = true := h
      show (v.value =ᶠ z.value) = true
      rw [hz, ← hb]; exact h
    | false =>
      refine .inr ⟨rfl, ⟨hX v hv, h⟩, ⟨hX v hv, ?_⟩⟩
      have h : (v.value =ᶠ b.missing.value) = false := h
      show (v.value =ᶠ z.value) = false
      rw [hz, ← hb]; exact h
  exact ⟨C105_fit env b key y w (ev := none) (ev' := none) trivial, (C105_predict b key).1⟩

end

/-! ## Concrete cases -/

/-- Rational numbers with two zeros. -/
abbrev ZQ := SZ ratFmt

/-- The environment of the examples. -/
def zeroEnv : Env Nat ZQ ZQ :=
  { sorter := exSorter, heap := fun _ => { pick := fun _ l => exPick l }
    rng := { seed := id, genF := fun r => (0, r), genD := fun r => (0, r), choose := fun r l n => (l.take n, r) } }

/-- A rational number. -/
def zq (x : ℚ) : ZQ := .of (.fin x)

/-- A column with positive zeros. -/
def zeroX : Matrix ZQ := { data := [zq (-1), zq 0, zq (-1), zq 2, zq 0, zq 2], rows := 6, cols := 1 }

/-- The column with two negative zeros. -/
def zeroX' : Matrix ZQ := { data := [zq (-1), .nzero, zq (-1), zq 2, .nzero, zq 2], rows := 6, cols := 1 }

/-- Targets. -/
def zeroY : List ZQ := [zq 0, zq 3, zq 0, zq 3, zq 3, zq 5]

/-- A default booster with squared loss and one tree. -/
def zeroB : Option (Booster ZQ ZQ) :=
  (Booster.default ZQ ZQ).map fun b => { b with objectiveType := .squaredLoss, iterations := 1 }

/-- The split values of the booster fitted to the data. -/
def zeroSplits (X : Matrix ZQ) : Option (List ZQ) :=
  match zeroB with
  | some b => match b.fit zeroEnv X zeroY (List.replicate 6 1) none with
    | .ok (b', .ok ()) => some (b'.trees.flatMap fun t => (t.nodes.filter fun n => !n.isLeaf).map Node.splitValue)
    | _ => none
  | none => none

/-- The hypotheses of `C127_fit` are met. -/
theorem zeroEnv_natural : EnvNatural zeroEnv where
  sorter := exSorter_ok
  natural := exSorter_natural
  rng := { subperm := fun _ l n => ⟨l.take n, .refl _, List.take_sublist n l⟩
           length := fun _ l n => by simp [zeroEnv, List.length_take] }
  heap _ := fun _ l l' h => exPick_byScore l l' h

theorem zeroX_same : zeroX.SameUpToZero zeroX' := ⟨rfl, rfl, by decide +kernel⟩

/-- **C127** (the split values show the sign).  The fitted boosters are not always the same: here the one split is at
the zero that occurs in the data, and its sign is that of the data. -/
theorem C127_split_value : zeroSplits zeroX = some [zq 0] ∧ zeroSplits zeroX' = some [.nzero] := by
  decide +kernel

/-- The two fits of the example predict the same, whatever the signs of zeros in the data. -/
example : ∃ b b1 b2, zeroB = some b ∧ b.fit zeroEnv zeroX zeroY (List.replicate 6 1) none = .ok (b1, .ok ()) ∧
    b.fit zeroEnv zeroX' zeroY (List.replicate 6 1) none = .ok (b2, .ok ()) ∧ b2.predict zeroX = b1.predict zeroX' := by
  have h1 : (match zeroB with
    | some b => match b.fit zeroEnv zeroX zeroY (List.replicate 6 1) none with
      | .ok (_, .ok ()) => true
      | _ => false
    | none => false) = true := by decide +kernel
  split at h1
  · rename_i b hb
    split at h1
    · rename_i b1 hf
      have key := C127_fit zeroEnv_natural b zeroX_same zeroY (List.replicate 6 1) (ev := none) (ev' := none) trivial
      rw [hf] at key
      split at key
      · rename_i h3 h4
        simp only [Res.ok.injEq, Prod.mk.injEq, and_true] at h3
        subst h3
        exact ⟨b, b1, _, hb, hf, h4, (key.2 zeroX' zeroX ⟨rfl, rfl, zeroX_same.data.symm⟩).1⟩
      · rename_i h3 _
        simp at h3
      · rename_i h3 _
        simp at h3
      · rename_i h3 _
        simp at h3
      · exact key.elim
    · cases h1
  · cases h1

/-- A zero as code for missing values: the hypotheses of `C127_missing`. -/
example : ((zeroB.map fun b => decide ((b.withMissing (zq 0)).missing.value = .fin 0)) = some true) ∧
    (SZ.nzero : ZQ).value = .fin 0 ∧ ∀ v ∈ zeroX'.data, isNaN v = false := by
  decide +kernel

/-- The rules for the two zeros: comparisons do not tell them apart, division and the total order do. -/
example : ((SZ.nzero : ZQ) =ᶠ zq 0) = true ∧ (zq 1 / SZ.nzero : ZQ) = .of .ninf ∧ Fl.tle (zq 0) (SZ.nzero : ZQ) = false ∧
    (SZ.nzero + SZ.nzero : ZQ) = .nzero ∧ (SZ.nzero + zq 0 : ZQ) = zq 0 ∧ (zq (-2) * zq 0 : ZQ) = .nzero ∧
    (-(zq 0) : ZQ) = .nzero ∧ (zq 3 - zq 3 : ZQ) = zq 0 := by
  decide +kernel

end Verif
