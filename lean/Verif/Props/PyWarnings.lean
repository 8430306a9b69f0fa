import Verif.Model.PyWarnings
import Verif.Props.Shift
import Verif.Props.LastSet
import Verif.Props.PyDependence
import Verif.Spec.ExamplePy

/-!
# C137 The warnings of the Python class say what happens
-/

namespace Verif

open scoped Verif

section
variable {F D : Type} [Fl F] [Fl D] [FlCast F D] {R : Type}

/-- The same instance with another base score. -/
def PyBooster.withBase (o : PyBooster F D) (s : D) : PyBooster F D :=
  { o with booster := { o.booster with baseScore := s }, params := { o.params with baseScore := s } }

theorem crateNew_base {p : PyParams D} {b : Booster F D} (h : crateNew p = .ok b) (s : D) :
    crateNew { p with baseScore := s } = .ok { b with baseScore := s } := by
  obtain ⟨ob, sm, gp, em, mt, h1, h2, h3, h4, h5, h6, h7, h8⟩ := crateNew_eq_ok.1 h
  refine crateNew_eq_ok.2 ⟨ob, sm, gp, em, mt, h1, h2, h3, h4, h5, h6, ?_, h8⟩
  rw [h7]
  rfl

theorem pyNew_base {J : PyJson} {p : PyParams D} {o : PyBooster F D} (h : pyNew J p = .ok o) (s : D) :
    pyNew J { p with baseScore := s } = .ok (o.withBase s) := by
  unfold pyNew pyInit at h ⊢
  cases hc : crateNew (F := F) p with
  | error e => rw [hc] at h; cases h
  | ok b =>
    rw [hc] at h
    rw [crateNew_base hc s]
    injection h with h
    rw [← h]
    rfl

/-- With `initialize_base_score` the base score of the booster is not looked at. -/
theorem Booster.fit_base {env : Env R F D} {b b' : Booster F D} {X : Matrix D} {y w : List D}
    {ev : Option (List (EvalSet D))} (hi : b.initializeBaseScore = true) (s : D)
    (h : b.fit env X y w ev = .ok (b', .ok ())) :
    ({ b with baseScore := s } : Booster F D).fit env X y w ev = .ok (b', .ok ()) := by
  have hind : ∀ y w sp ev, fitTrees env ({ b with baseScore := s }) X y w sp ev =
      fitTrees env b X y w sp ev := by
    intro y w sp ev
    rw [fitTrees_eq_rest, fitTrees_eq_rest]
    dsimp only
    by_cases ht : b.trees.isEmpty = true
    · simp only [ht, if_true, hi]
    · simp only [ht, if_false, Booster.reset, hi, if_true, Bool.false_eq_true]
  unfold Booster.fit at h ⊢
  split at h
  · simp at h
  · rw [hind]
    exact h

theorem initWarnings_eq {p : PyParams D} : initWarnings p = [.baseScore] ↔
    (p.baseScore =ᶠ Fl.ofNat 1 / Fl.ofNat 2) = false ∧ p.initializeBaseScore = true := by
  unfold initWarnings
  split <;> simp_all

theorem pyNew_booster {J : PyJson} {p : PyParams D} {o : PyBooster F D} (h : pyNew J p = .ok o) :
    o.booster.initializeBaseScore = p.initializeBaseScore ∧ o.booster.baseScore = p.baseScore ∧
      o.params.initializeBaseScore = p.initializeBaseScore ∧ o.booster.evaluationHistory = none := by
  unfold pyNew pyInit at h
  cases hc : crateNew (F := F) p with
  | error e => rw [hc] at h; cases h
  | ok b =>
    rw [hc] at h
    obtain ⟨ob, sm, gp, em, mt, -, -, -, -, -, -, h7, -⟩ := crateNew_eq_ok.1 hc
    injection h with h
    rw [← h, h7]
    exact ⟨rfl, rfl, rfl, rfl⟩

/-- What a successful `fit` did. -/
theorem PyBooster.fit_ok {J : PyJson} {env : Env R F D} {o o' : PyBooster F D} {X : Frame D} {y : List D}
    {w : Option (List D)} {evals : Option (List (PyEval D))} :
    o.fit J env X y w evals = .ok (o', .ok ()) ↔ ∃ m t l b,
      pyFitConstraints X.columns (o.params.monotoneConstraints.getD []) = .ok m ∧
      pyFitTerminate X.columns (o.params.terminateMissingFeatures.getD []) = .ok t ∧
      pyMap (fun e : PyEval D => (o.describe J X).validateFeatures e.frame.features) (evals.getD []) =
        .ok l ∧
      ({ (o.describe J X).booster with
          monotoneConstraints := some m, terminateMissingFeatures := t } : Booster F D).fit env X.data y
        (w.getD (List.replicate y.length 1)) (evals.map fun es => es.map PyEval.toSet) = .ok (b, .ok ()) ∧
      o' = { o.describe J X with booster := b, params := { o.params with baseScore := b.baseScore } } := by
  have hp : (o.describe J X).params = o.params := by
    unfold PyBooster.describe
    dsimp only
    split <;> rfl
  unfold PyBooster.fit
  dsimp only
  rw [hp]
  cases h1 : pyFitConstraints X.columns (o.params.monotoneConstraints.getD []) with
  | error e => simp
  | ok m =>
    dsimp only
    cases h2 : pyFitTerminate X.columns (o.params.terminateMissingFeatures.getD []) with
    | error e => simp
    | ok t =>
      dsimp only
      unfold PyBooster.validateFeatures
      dsimp only
      cases h3 : pyMap (fun e : PyEval D => match (o.describe J X).featureNames with
          | some names => if e.frame.features ≠ [] ∧ e.frame.features ≠ names then
              Except.error PyErr.valueError else .ok ()
          | none => .ok ())
          (evals.getD []) with
      | error e => simp
      | ok l =>
        simp only [Res.bind_eq_ok, Except.ok.injEq, exists_and_left, exists_eq_left']
        constructor
        · rintro ⟨⟨b, r⟩, hb, hr⟩
          cases r with
          | error e => simp at hr
          | ok u =>
            simp only [Res.ok.injEq, Prod.mk.injEq, and_true] at hr
            exact ⟨b, hb, hr.symm⟩
        · rintro ⟨b, hb, rfl⟩
          exact ⟨(b, .ok ()), hb, rfl⟩

theorem PyBooster.describe_withBase (J : PyJson) (o : PyBooster F D) (X : Frame D) (s : D) :
    (o.withBase s).describe J X = (o.describe J X).withBase s := by
  unfold PyBooster.describe
  dsimp only
  split <;> rfl

/-- C137, base score.  If the constructor warns that the base score will not be used, it is not: every
successful `fit` gives the very same instance for every other base score `s`. -/
theorem C137_ignored {J : PyJson} {p : PyParams D} (hw : initWarnings p = [.baseScore])
    {o o' : PyBooster F D} (ho : pyNew J p = .ok o) {env : Env R F D} {X : Frame D} {y : List D}
    {w : Option (List D)} {evals : Option (List (PyEval D))}
    (h : o.fit J env X y w evals = .ok (o', .ok ())) (s : D) :
    ∃ o2, pyNew J { p with baseScore := s } = .ok o2 ∧
      o2.fit J env X y w evals = .ok (o', .ok ()) := by
  refine ⟨o.withBase s, pyNew_base ho s, ?_⟩
  obtain ⟨m, t, l, b, h1, h2, h3, h4, h5⟩ := PyBooster.fit_ok.1 h
  have hi : (o.describe J X).booster.initializeBaseScore = true := by
    have : (o.describe J X).booster.initializeBaseScore = o.booster.initializeBaseScore := by
      unfold PyBooster.describe
      dsimp only
      split <;> rfl
    rw [this, (pyNew_booster ho).1]
    exact (initWarnings_eq.1 hw).2
  refine PyBooster.fit_ok.2 ⟨m, t, l, b, h1, h2, ?_, ?_, ?_⟩
  · rw [PyBooster.describe_withBase]
    exact h3
  · rw [PyBooster.describe_withBase]
    exact Booster.fit_base (b := { (o.describe J X).booster with
      monotoneConstraints := some m, terminateMissingFeatures := t }) hi s h4
  · rw [PyBooster.describe_withBase, h5]
    rfl

/-- C137, base score.  If the constructor does not warn and the base score given is not 0.5, the fitted
model has that base score. -/
theorem C137_used {J : PyJson} {p : PyParams D} (hw : initWarnings p = [])
    (hs : (p.baseScore =ᶠ Fl.ofNat 1 / Fl.ofNat 2) = false)
    {o o' : PyBooster F D} (ho : pyNew J p = .ok o) {env : Env R F D} {X : Frame D} {y : List D}
    {w : Option (List D)} {evals : Option (List (PyEval D))}
    (h : o.fit J env X y w evals = .ok (o', .ok ())) :
    o'.booster.baseScore = p.baseScore ∧ o'.params.baseScore = p.baseScore := by
  have hi : p.initializeBaseScore = false := by
    cases e : p.initializeBaseScore with
    | false => rfl
    | true =>
      rw [initWarnings_eq.2 ⟨hs, e⟩] at hw
      cases hw
  obtain ⟨m, t, l, b, h1, h2, h3, h4, rfl⟩ := PyBooster.fit_ok.1 h
  obtain ⟨base, binned, st, stop, N, hT⟩ := Booster.fit_trace h4
  have hd : (o.describe J X).booster.initializeBaseScore = o.booster.initializeBaseScore ∧
      (o.describe J X).booster.baseScore = o.booster.baseScore := by
    unfold PyBooster.describe
    dsimp only
    split <;> exact ⟨rfl, rfl⟩
  obtain ⟨n1, n2, -, -⟩ := pyNew_booster ho
  have hb := hT.base_eq
  rw [if_neg (by dsimp only; rw [hd.1, n1, hi]; simp)] at hb
  dsimp only at hb
  rw [hd.2, n2] at hb
  have hsame : (st N).booster.baseScore = base := congrArg Booster.baseScore (hT.same N (le_refl _))
  rw [hT.last, hb] at hsame
  exact ⟨hsame, hsame⟩

/-- C137, `set_params` after `fit`.  Once an instance with `initialize_base_score` has been fitted, every
call of `set_params` that leaves `base_score` and `initialize_base_score` alone warns, unless the base score
that was calculated happens to be 0.5. -/
theorem C137_after_fit {J : PyJson} {p : PyParams D} (hi : p.initializeBaseScore = true)
    {o o' : PyBooster F D} (ho : pyNew J p = .ok o) {env : Env R F D} {X : Frame D} {y : List D}
    {w : Option (List D)} {evals : Option (List (PyEval D))}
    (h : o.fit J env X y w evals = .ok (o', .ok ())) {update : PyParams D → PyParams D}
    (hu : (update o'.getParams).baseScore = o'.getParams.baseScore)
    (hu' : (update o'.getParams).initializeBaseScore = o'.getParams.initializeBaseScore) :
    o'.setParamsWarnings update = [.baseScore] ↔
      (o'.booster.baseScore =ᶠ Fl.ofNat 1 / Fl.ofNat 2) = false := by
  obtain ⟨m, t, l, b, h1, h2, h3, h4, rfl⟩ := PyBooster.fit_ok.1 h
  unfold PyBooster.setParamsWarnings
  rw [initWarnings_eq, hu, hu']
  have : ({ o.describe J X with booster := b, params := { o.params with baseScore := b.baseScore } } :
      PyBooster F D).getParams.initializeBaseScore = true := by
    show o.params.initializeBaseScore = true
    rw [(pyNew_booster ho).2.2.1, hi]
  rw [this]
  exact ⟨fun h => h.1, fun h => ⟨h, rfl⟩⟩

theorem pyMap_length {α β : Type} {f : α → Except PyErr β} : ∀ {l : List α} {r : List β},
    pyMap f l = .ok r → r.length = l.length
  | [], r, h => by cases h; rfl
  | a :: l, r, h => by
    unfold pyMap at h
    cases h1 : f a with
    | error e => rw [h1] at h; cases h
    | ok b =>
      cases h2 : pyMap f l with
      | error e => rw [h1, h2] at h; cases h
      | ok bs =>
        rw [h1, h2] at h
        injection h with h
        rw [← h]
        simp [pyMap_length h2]

theorem pyMap_mem {α β : Type} {f : α → Except PyErr β} : ∀ {l : List α} {r : List β},
    pyMap f l = .ok r → ∀ a ∈ l, ∃ b, f a = .ok b
  | [], r, h, a, ha => by simp at ha
  | a :: l, r, h, c, hc => by
    unfold pyMap at h
    cases h1 : f a with
    | error e => rw [h1] at h; cases h
    | ok b =>
      cases h2 : pyMap f l with
      | error e => rw [h1, h2] at h; cases h
      | ok bs =>
        rcases List.mem_cons.1 hc with rfl | hc
        · exact ⟨b, h1⟩
        · exact pyMap_mem h2 c hc

/-- C137, evaluation sets.  A `fit` that succeeds warns exactly if more than one evaluation set was passed.
It then gives what it would have given for the last set alone, except for the evaluation history. -/
theorem C137_sets {J : PyJson} {o o' : PyBooster F D}
    (hb : o.booster.trees ≠ [] ∨ o.booster.evaluationHistory = none) {env : Env R F D} {X : Frame D}
    {y : List D} {w : Option (List D)} {evals : Option (List (PyEval D))}
    (h : o.fit J env X y w evals = .ok (o', .ok ())) :
    (o.fitWarnings J X evals = [.manySets] ↔ 1 < (evals.getD []).length) ∧
    (o.fitWarnings J X evals = [] ↔ (evals.getD []).length ≤ 1) ∧
    (o.fitWarnings J X evals = [.manySets] → ∃ es e o2, evals = some (es ++ [e]) ∧ es ≠ [] ∧
      o.fit J env X y w (some [e]) = .ok (o2, .ok ()) ∧
      o2 = { o' with booster := { o'.booster with evaluationHistory := o2.booster.evaluationHistory } }) := by
  obtain ⟨m, t, l, b, h1, h2, h3, h4, h5⟩ := PyBooster.fit_ok.1 h
  have hd : (o.describe J X).params = o.params ∧
      (o.describe J X).booster.trees = o.booster.trees ∧
      (o.describe J X).booster.evaluationHistory = o.booster.evaluationHistory := by
    unfold PyBooster.describe
    dsimp only
    split <;> exact ⟨rfl, rfl, rfl⟩
  have hw : o.fitWarnings J X evals = if 1 < (evals.getD []).length then [.manySets] else [] := by
    unfold PyBooster.fitWarnings
    dsimp only
    rw [hd.1, h1]
    dsimp only
    rw [h2]
    dsimp only
    rw [h3]
    dsimp only
    rw [pyMap_length h3]
  have k1 : o.fitWarnings J X evals = [.manySets] ↔ 1 < (evals.getD []).length := by
    rw [hw]; split <;> simp_all
  refine ⟨k1, by rw [hw]; split <;> simp_all, fun hm => ?_⟩
  have hlen := k1.1 hm
  cases evals with
  | none => simp at hlen
  | some l0 =>
    simp only [Option.getD_some] at hlen h3
    obtain ⟨es, e, rfl⟩ : ∃ es e, l0 = es ++ [e] :=
      ⟨l0.dropLast, l0.getLast (by rintro rfl; simp at hlen), (List.dropLast_append_getLast _).symm⟩
    have hne : es ≠ [] := by rintro rfl; simp at hlen
    have h4' : ({ (o.describe J X).booster with
          monotoneConstraints := some m, terminateMissingFeatures := t } : Booster F D).fit env X.data y
        (w.getD (List.replicate y.length 1)) (some (es.map PyEval.toSet ++ [e.toSet])) =
          .ok (b, .ok ()) := by
      simpa using h4
    obtain ⟨r', g1, g2, -⟩ := C117_fit (by
      show (o.describe J X).booster.trees ≠ [] ∨ (o.describe J X).booster.evaluationHistory = none
      rw [hd.2.1, hd.2.2]; exact hb) h4'
    obtain ⟨u, hu⟩ := pyMap_mem h3 e (by simp)
    refine ⟨es, e, _, rfl, hne, PyBooster.fit_ok.2 ⟨m, t, [u], r', h1, h2, ?_, ?_, rfl⟩, ?_⟩
    · simp only [Option.getD_some, pyMap, hu]
      rfl
    · simpa using g1
    · rw [h5]
      dsimp only
      have : r'.baseScore = b.baseScore := by rw [g2]
      rw [this, ← g2]

/-- C137, names in `partial_dependence`.  Without a warning a feature given by name is looked up among the
names seen by `fit`, so frames with the same values under that name give the same result whatever the order
of their columns.  With a warning the feature that is explained is the one whose number is the position of
the column in the frame passed now. -/
theorem C137_order {N : Numpy D} {S : Sorter} {o : PyBooster F D} {X : Frame D} {s : String} {col : Nat}
    {cols : List String} (hX : X.columns = some cols) (hc : OnlyAt cols s col) (samples : Option Nat)
    (ex : Bool) (lo hi : D) :
    (o.dependenceWarnings X (.str s) = [] → ∀ (X' : Frame D) cols' col', X'.columns = some cols' →
      OnlyAt cols' s col' → X.column col = X'.column col' →
      o.partialDependence N S X (.str s) samples ex lo hi =
        o.partialDependence N S X' (.str s) samples ex lo hi) ∧
    (o.dependenceWarnings X (.str s) = [.columnOrder] → col < X.data.cols →
      o.partialDependence N S X (.str s) samples ex lo hi =
        o.partialDependence N S X (.int col) samples ex lo hi) := by
  cases hn : o.featureNames with
  | none =>
    have hw : o.dependenceWarnings X (.str s) = [.columnOrder] := by
      simp [PyBooster.dependenceWarnings, hX, positions_only hc, hn]
    refine ⟨by rw [hw]; simp, fun _ hlt => ?_⟩
    unfold PyBooster.partialDependence
    rw [(Means.name hX hc (by rw [hn]; exact hc)).input, (Means.number hlt).input]
  | some names =>
    have hw : o.dependenceWarnings X (.str s) = [] := by
      simp [PyBooster.dependenceWarnings, hX, positions_only hc, hn]
    refine ⟨fun _ X' cols' col' hX' hc' hv => ?_, by rw [hw]; simp⟩
    unfold PyBooster.partialDependence
    have : o.dependenceInput X (.str s) = o.dependenceInput X' (.str s) := by
      simp [PyBooster.dependenceInput, hX, hX', positions_only hc, positions_only hc', hn, hv]
    rw [this]

end

/-- C137, `set_params` after `fit`, an instance of `C137_after_fit`: an instance made with
the default base score, without any warning, and fitted warns that the base score is being modified when `set_params` is called to change nothing. -/
theorem C137_after_fit_case : initWarnings exParams = [] ∧
    ∃ o o' : PyBooster Q Q, pyNew exJson exParams = .ok o ∧
      o.fit exJson exEnv exFrame exY none none = .ok (o', .ok ()) ∧
      o'.setParamsWarnings id = [.baseScore] := by
  refine ⟨by decide +kernel, ?_⟩
  have h : ((exFitted exFrame exY none).bind fun o' =>
      some (decide (o'.setParamsWarnings id = [.baseScore]))) = some true := by decide +kernel
  obtain ⟨o', h1, h2⟩ := Option.bind_eq_some_iff.1 h
  obtain ⟨_, o, h3, h4⟩ := exFitted_made h1
  exact ⟨o, o', h3, h4, by simpa using h2⟩

/-- The hypotheses of `C137_ignored` are met: a base score of 3 draws the warning. -/
example : initWarnings { exParams with baseScore := q 3 } = [.baseScore] ∧
    ∃ o o' : PyBooster Q Q, pyNew exJson { exParams with baseScore := q 3 } = .ok o ∧
      o.fit exJson exEnv exFrame exY none none = .ok (o', .ok ()) ∧ o'.booster.trees ≠ [] := by
  refine ⟨by decide +kernel, ?_⟩
  have hq : ((exceptValue (pyNew (F := Q) exJson { exParams with baseScore := q 3 })).bind fun o =>
      (pyFitted o exFrame exY none).bind fun o' => some (decide (o'.booster.trees ≠ []))) = some true := by
    decide +kernel
  obtain ⟨o, k1, k2⟩ := Option.bind_eq_some_iff.1 hq
  obtain ⟨o', k3, k4⟩ := Option.bind_eq_some_iff.1 k2
  refine ⟨o, o', ?_, ?_, by simpa using k4⟩
  · unfold exceptValue at k1
    split at k1
    · rename_i hh; cases k1; exact hh
    · cases k1
  · unfold pyFitted at k3
    split at k3
    · rename_i hh; cases k3; exact hh
    · cases k3

/-- The hypotheses of `C137_used` are met: base score 3 without `initialize_base_score`. -/
example : initWarnings { exParams with baseScore := q 3, initializeBaseScore := false } = [] ∧
    (q 3 =ᶠ (Fl.ofNat 1 / Fl.ofNat 2 : Q)) = false ∧
    ((exceptValue (pyNew (F := Q) exJson
        { exParams with baseScore := q 3, initializeBaseScore := false })).bind fun o =>
      (pyFitted o exFrame exY none).bind fun o' => some (decide (o'.booster.trees ≠ []))) =
      some true := by
  refine ⟨by decide +kernel, by decide +kernel, by decide +kernel⟩

/-- Two evaluation sets draw the warning of `C137_sets`, one does not. -/
example : ((exPyNew).bind fun o => (pyFitted o exFrame exY
      (some [⟨exFrame, exY, none⟩, ⟨exFrame, exY, none⟩])).bind fun o' =>
      some (decide (o.fitWarnings exJson exFrame
        (some [⟨exFrame, exY, none⟩, ⟨exFrame, exY, none⟩]) = [.manySets] ∧
        o.fitWarnings exJson exFrame (some [⟨exFrame, exY, none⟩]) = [] ∧
        o.booster.evaluationHistory = none ∧ o'.booster.trees ≠ []))) = some true := by
  decide +kernel

/-- Both cases of `C137_order` occur: a name with a model fitted on an array, and on a data frame. -/
example : (((exFitted exArray exY none).bind fun o =>
      some (decide (o.dependenceWarnings exFrame (.str "b") = [.columnOrder]))) = some true) ∧
    (((exFitted exFrame exY none).bind fun o =>
      some (decide (o.dependenceWarnings exFrame (.str "b") = []))) = some true) ∧
    OnlyAt ["a", "b"] "b" 1 := by
  refine ⟨by decide +kernel, by decide +kernel, rfl, fun i hi => ?_⟩
  match i, hi with
  | 0, hi => simp at hi
  | 1, _ => rfl
  | n + 2, hi => simp at hi

end Verif
