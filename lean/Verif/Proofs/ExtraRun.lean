import Verif.Proofs.ExtraFit
import Verif.Proofs.RelateFit

/-!
# One more column: the boosting loop and predictions
-/

namespace Verif

open scoped Verif

set_option linter.unusedSectionVars false

variable {F D : Type} [Fl F] [Fl D] [FlCast F D]

/-! ## Predictions -/

theorem leafFrom_wide {nodes : List (Node F D)} {get get' : Nat → Res D} {missing : D}
    (hg : ∀ j v, get j = .ok v → get' j = .ok v) : ∀ (fuel i : Nat) (n : Node F D),
    leafFrom nodes get missing fuel i = .ok n → leafFrom nodes get' missing fuel i = .ok n
  | 0, _, _, h => by cases h
  | fuel + 1, i, n, h => by
    rw [leafFrom] at h ⊢
    obtain ⟨m, h1, h⟩ := Res.bind_eq_ok.1 h
    refine Res.bind_eq_ok.2 ⟨m, h1, ?_⟩
    split at h
    · rename_i hl; rw [if_pos hl]; exact h
    · rename_i hl
      rw [if_neg hl]
      obtain ⟨v, h2, h⟩ := Res.bind_eq_ok.1 h
      obtain ⟨c, h3, h⟩ := Res.bind_eq_ok.1 h
      exact Res.bind_eq_ok.2 ⟨v, hg _ _ h2, Res.bind_eq_ok.2 ⟨c, h3, leafFrom_wide hg fuel c n h⟩⟩

theorem treePredict_wide {X X' : Matrix D} (hW : X.Widens X') {t : Tree F D} {missing : D} {p : List D}
    (h : t.predict X missing = .ok p) : t.predict X' missing = .ok p := by
  unfold Tree.predict at h ⊢
  rw [show X'.index = X.index by unfold Matrix.index; rw [hW.rows]]
  rw [Res.mapM'_eq_ok] at h ⊢
  refine h.imp fun i v hi => ?_
  obtain ⟨n, h1, h2⟩ := Res.bind_eq_ok.1 hi
  exact Res.bind_eq_ok.2 ⟨n, leafFrom_wide (fun j v hj => hW.get hj) _ _ _ h1, h2⟩

theorem treeLeaves_wide {X X' : Matrix D} (hW : X.Widens X') {t : Tree F D} {missing : D} {p : List Nat}
    (h : t.predictLeafIndices X missing = .ok p) : t.predictLeafIndices X' missing = .ok p := by
  unfold Tree.predictLeafIndices at h ⊢
  rw [show X'.index = X.index by unfold Matrix.index; rw [hW.rows]]
  rw [Res.mapM'_eq_ok] at h ⊢
  refine h.imp fun i v hi => ?_
  obtain ⟨n, h1, h2⟩ := Res.bind_eq_ok.1 hi
  exact Res.bind_eq_ok.2 ⟨n, leafFrom_wide (fun j v hj => hW.get hj) _ _ _ h1, h2⟩

theorem boosterPredict_wide {X X' : Matrix D} (hW : X.Widens X') {b : Booster F D} {p : List D}
    (h : b.predict X = .ok p) : b.predict X' = .ok p := by
  unfold Booster.predict at h ⊢
  rw [hW.rows]
  obtain ⟨ts, h1, h⟩ := Res.bind_eq_ok.1 h
  refine Res.bind_eq_ok.2 ⟨ts, h1, ?_⟩
  clear h1
  generalize List.replicate X.rows b.baseScore = acc at h ⊢
  induction ts generalizing acc with
  | nil => exact h
  | cons t ts ih =>
    rw [Res.foldM'_cons] at h ⊢
    obtain ⟨a, h1, h⟩ := Res.bind_eq_ok.1 h
    obtain ⟨q, h2, h1⟩ := Res.bind_eq_ok.1 h1
    exact Res.bind_eq_ok.2 ⟨a, Res.bind_eq_ok.2 ⟨q, treePredict_wide hW h2, h1⟩, ih _ h⟩

theorem boosterLeaves_wide {X X' : Matrix D} (hW : X.Widens X') {b : Booster F D} {p : List Nat}
    (h : b.predictLeafIndices X = .ok p) : b.predictLeafIndices X' = .ok p := by
  unfold Booster.predictLeafIndices at h ⊢
  obtain ⟨ts, h1, h⟩ := Res.bind_eq_ok.1 h
  obtain ⟨ls, h2, h⟩ := Res.bind_eq_ok.1 h
  refine Res.bind_eq_ok.2 ⟨ts, h1, Res.bind_eq_ok.2 ⟨ls, ?_, h⟩⟩
  rw [Res.mapM'_eq_ok] at h2 ⊢
  exact h2.imp fun t l ht => treeLeaves_wide hW ht

/-! ## Evaluation sets -/

/-- Two evaluation sets with their predictions. -/
def EvWide (e e' : TrainEval D) : Prop := e.toEvalSet.Widens e'.toEvalSet ∧ e'.yhat = e.yhat

/-- Optional evaluation sets. -/
def EvsWide : Option (List (TrainEval D)) → Option (List (TrainEval D)) → Prop
  | none, none => True
  | some l, some l' => List.Forall₂ EvWide l l'
  | _, _ => False

theorem evalLoop_wide {S : Sorter} {t : Tree F D} {i n : Nat} {l l' : List (TrainEval D)}
    (hl : List.Forall₂ EvWide l l') : ∀ (k : Nat) (b : Booster F D) (best : Option D) (stop : Bool),
      Res.Imp (fun r r' => List.Forall₂ EvWide r.1 r'.1 ∧ r'.2 = r.2)
        (evalLoop S t i n l k b best stop) (evalLoop S t i n l' k b best stop) := by
  induction hl with
  | nil => intro k b best stop; exact .ok ⟨.nil, rfl⟩
  | cons he _ ih =>
    rename_i e e' l l' _
    intro k b best stop
    obtain ⟨⟨h1, h2, h3⟩, h4⟩ := he
    simp only [evalLoop]
    refine (Res.Imp.of_eq fun p hp => treePredict_wide h1 hp).bind fun p p' _ _ e0 => ?_
    subst e0
    rw [h2, h3, h4]
    refine (Res.Imp.same _).bind fun m m' _ _ e0 => ?_
    subst e0
    refine (ih (k + 1) _ _ _).bind fun r r' _ _ hr => ?_
    obtain ⟨es, ms, b1, be, st⟩ := r
    obtain ⟨es', ms', b1', be', st'⟩ := r'
    obtain ⟨g1, g2⟩ := hr
    dsimp only at g1 g2 ⊢
    cases g2
    exact .ok ⟨.cons ⟨⟨h1, h2, h3⟩, rfl⟩ g1, rfl⟩

theorem evalSets_wide {S : Sorter} {t : Tree F D} {i : Nat} {l l' : Option (List (TrainEval D))}
    (hl : EvsWide l l') (b : Booster F D) (best : Option D) :
    Res.Imp (fun r r' => r'.1 = r.1 ∧ EvsWide r.2.1 r'.2.1 ∧ r'.2.2 = r.2.2)
      (evalSets S t i b l best) (evalSets S t i b l' best) := by
  cases l <;> cases l' <;> first
    | exact hl.elim
    | exact .ok ⟨rfl, trivial, rfl⟩
    | skip
  rename_i l l'
  have hl : List.Forall₂ EvWide l l' := hl
  simp only [evalSets]
  rw [← hl.length_eq]
  refine (evalLoop_wide hl 0 _ best false).bind fun r r' _ _ hr => ?_
  obtain ⟨es, ms, b1, be, st⟩ := r
  obtain ⟨es', ms', b1', be', st'⟩ := r'
  obtain ⟨g1, g2⟩ := hr
  dsimp only at g1 g2 ⊢
  cases g2
  refine (Res.Imp.same _).bind fun b2 b2' _ _ e => ?_
  subst e
  exact .ok ⟨rfl, g1, rfl⟩

/-! ## The boosting loop -/

/-- Two states of the boosting loop. -/
structure FitWide {R : Type} (s s' : FitState R F D) : Prop where
  booster : s'.booster = s.booster
  yhat : s'.yhat = s.yhat
  grad : s'.grad = s.grad
  hess : s'.hess = s.hess
  evals : EvsWide s.evals s'.evals
  best : s'.best = s.best
  rng : s'.rng = s.rng

variable {E : JaggedMatrix (Bin F D) → JaggedMatrix (Bin F D) → Prop}

theorem fitIteration_wide {R : Type} {env : Env R F D} (hp : ∀ i, (env.heap i).ByScore) {X X' : Matrix D}
    (hW : X.Widens X') {y w : List D} {sp : Splitter F} {bdata bdata' : Matrix Nat} {cuts cuts' : JaggedMatrix D}
    (hT : ∀ grad hess, TrainExt sp E { data := bdata, cuts, grad, hess, colIndex := List.range X.cols }
      { data := bdata', cuts := cuts', grad, hess, colIndex := List.range X'.cols })
    {i : Nat} {s s' : FitState R F D} (hcs : (s.booster.colsampleBytree =ᶠ 1) = true) (h : FitWide s s') :
    Res.Imp (fun r r' => FitWide r.1 r'.1 ∧ r'.2 = r.2 ∧ (r.1.booster.colsampleBytree =ᶠ 1) = true)
      (fitIteration env X y w sp bdata cuts i s) (fitIteration env X' y w sp bdata' cuts' i s') := by
  obtain ⟨hb, hy, hg, hh, hev, hbest, hr⟩ := h
  unfold fitIteration
  dsimp only
  rw [hb, hy, hg, hh, hr, hbest, show X'.index = X.index by unfold Matrix.index; rw [hW.rows]]
  refine (Res.Imp.same _).bind fun r r' _ _ e => ?_
  subst e
  obtain ⟨chosen, g, hs, rng⟩ := r
  dsimp only
  unfold sampleColumns
  rw [if_pos hcs, if_pos hcs]
  dsimp only
  refine (Res.Imp.of_eq fun t ht => treeFit_ext (E := E)
    (by exact ⟨hT g hs, rfl, rfl, rfl, rfl, rfl, hp i⟩) _ _ ht).bind fun t t' _ _ e => ?_
  subst e
  refine (Res.Imp.of_eq fun p hp => treePredict_wide hW hp).bind fun p p' _ _ e => ?_
  subst e
  refine (evalSets_wide hev s.booster s.best).bind fun r r' hr1 _ hr => ?_
  obtain ⟨b1, ev1, be1, st⟩ := r
  obtain ⟨b1', ev1', be1', st'⟩ := r'
  obtain ⟨h1, h2, h3⟩ := hr
  dsimp only at h1 h2 h3 ⊢
  cases h3
  subst h1
  have hsame := (evalSets_same hr1).1
  have hcs1 : (b1'.colsampleBytree =ᶠ 1) = true := by
    unfold Booster.SameParams at hsame
    rw [hsame]
    exact hcs
  cases st with
  | true => exact .ok ⟨⟨rfl, rfl, rfl, rfl, h2, rfl, rfl⟩, rfl, hcs1⟩
  | false => exact .ok ⟨⟨rfl, rfl, rfl, rfl, h2, rfl, rfl⟩, rfl, hcs1⟩

theorem fitLoop_wide {R : Type} {env : Env R F D} (hp : ∀ i, (env.heap i).ByScore) {X X' : Matrix D}
    (hW : X.Widens X') {y w : List D} {sp : Splitter F} {bdata bdata' : Matrix Nat} {cuts cuts' : JaggedMatrix D}
    (hT : ∀ grad hess, TrainExt sp E { data := bdata, cuts, grad, hess, colIndex := List.range X.cols }
      { data := bdata', cuts := cuts', grad, hess, colIndex := List.range X'.cols }) :
    ∀ (n i : Nat) {s s' : FitState R F D}, (s.booster.colsampleBytree =ᶠ 1) = true → FitWide s s' →
    Res.Imp FitWide (fitLoop env X y w sp bdata cuts n i s) (fitLoop env X' y w sp bdata' cuts' n i s')
  | 0, _, _, _, _, h => .ok h
  | n + 1, i, s, s', hcs, h => by
    simp only [fitLoop]
    refine (fitIteration_wide hp hW hT hcs h).bind fun r r' _ _ hr => ?_
    obtain ⟨s1, st⟩ := r
    obtain ⟨s1', st'⟩ := r'
    obtain ⟨h1, h2, h3⟩ := hr
    dsimp only at h1 h2 h3 ⊢
    subst h2
    split
    · exact .ok h1
    · exact fitLoop_wide hp hW hT n (i + 1) h3 h1

theorem evalsWiden_start {ev ev' : Option (List (EvalSet D))} (h : EvalsWiden ev ev') (base : D) :
    EvsWide (ev.map fun es => es.map fun e =>
        { toEvalSet := e, yhat := List.replicate e.y.length base : TrainEval D })
      (ev'.map fun es => es.map fun e =>
        { toEvalSet := e, yhat := List.replicate e.y.length base : TrainEval D }) := by
  cases ev with
  | none => cases ev' with
    | none => trivial
    | some _ => exact h.elim
  | some l => cases ev' with
    | none => exact h.elim
    | some l' =>
      show List.Forall₂ _ (l.map _) (l'.map _)
      rw [List.forall₂_map_left_iff, List.forall₂_map_right_iff]
      exact List.Forall₂.imp (fun e e' he => ⟨he, by dsimp only; rw [he.y]⟩) h

theorem fitRest_wide {R : Type} {env : Env R F D} (hp : ∀ i, (env.heap i).ByScore) {X X' : Matrix D}
    (hW : X.Widens X') {y w : List D} {sp : Splitter F} {ev ev' : Option (List (EvalSet D))}
    (hev : EvalsWiden ev ev') {b : Booster F D} (hcs : (b.colsampleBytree =ᶠ 1) = true)
    (hbin : ∀ bd, binMatrix env.sorter X w b.nbins b.missing = .ok bd →
      ∃ bd', binMatrix env.sorter X' w b.nbins b.missing = .ok bd' ∧ ∃ E, ∀ grad hess, TrainExt sp E
        { data := { data := bd.binned, rows := X.rows, cols := X.cols }, cuts := bd.cuts, grad, hess
          colIndex := List.range X.cols }
        { data := { data := bd'.binned, rows := X'.rows, cols := X'.cols }, cuts := bd'.cuts, grad, hess
          colIndex := List.range X'.cols }) {r : Booster F D}
    (h : fitRest env X y w sp ev b = .ok r) : fitRest env X' y w sp ev' b = .ok r := by
  unfold fitRest at h ⊢
  obtain ⟨bd, h1, h⟩ := Res.bind_eq_ok.1 h
  obtain ⟨s, h2, h⟩ := Res.bind_eq_ok.1 h
  obtain ⟨bd', h1', E, hT⟩ := hbin bd h1
  refine Res.bind_eq_ok.2 ⟨bd', h1', ?_⟩
  obtain ⟨s', h2', hs⟩ := fitLoop_wide hp hW hT b.iterations 0 (s' :=
    { booster := b, yhat := List.replicate y.length b.baseScore
      grad := (calcGradHess (F := F) b.objectiveType y (List.replicate y.length b.baseScore) w).1
      hess := (calcGradHess (F := F) b.objectiveType y (List.replicate y.length b.baseScore) w).2
      evals := ev'.map fun es => es.map fun e =>
        { toEvalSet := e, yhat := List.replicate e.y.length b.baseScore : TrainEval D }
      best := none, rng := env.rng.seed b.seed }) hcs (by
      exact ⟨rfl, rfl, rfl, rfl, evalsWiden_start hev b.baseScore, rfl, rfl⟩) s h2
  refine Res.bind_eq_ok.2 ⟨s', h2', ?_⟩
  rw [hs.booster]
  exact h

theorem validateEvals_wide : ∀ {l l' : List (EvalSet D)} (_ : List.Forall₂ EvalSet.Widens l l') (i : Nat),
    validateEvals l' i = validateEvals l i
  | _, _, .nil, _ => rfl
  | _, _, .cons he h, i => by
    rw [validateEvals, validateEvals, he.y, he.w]
    simp only [validateEvals_wide h]

/-- The fit on wider data. -/
theorem fit_wide {R : Type} {env : Env R F D} (hp : ∀ i, (env.heap i).ByScore) {X X' : Matrix D}
    (hW : X.Widens X') {y w : List D} {ev ev' : Option (List (EvalSet D))}
    (hev : EvalsWiden ev ev') {b : Booster F D} (hcs : (b.colsampleBytree =ᶠ 1) = true)
    (hbin : ∀ bd, binMatrix env.sorter X w b.nbins b.missing = .ok bd →
      ∃ bd', binMatrix env.sorter X' w b.nbins b.missing = .ok bd' ∧ ∃ E, ∀ grad hess, TrainExt b.splitter E
        { data := { data := bd.binned, rows := X.rows, cols := X.cols }, cuts := bd.cuts, grad, hess
          colIndex := List.range X.cols }
        { data := { data := bd'.binned, rows := X'.rows, cols := X'.cols }, cuts := bd'.cuts, grad, hess
          colIndex := List.range X'.cols }) {r : Booster F D × Except ForustError Unit}
    (h : b.fit env X y w ev = .ok r) : b.fit env X' y w ev' = .ok r := by
  have hv : validateFit y w ev' = validateFit y w ev := by
    unfold validateFit
    cases ev <;> cases ev' <;> first
      | exact hev.elim
      | rfl
      | (simp only [validateEvals_wide hev])
  unfold Booster.fit at h ⊢
  rw [hv]
  split at h
  · exact h
  · obtain ⟨b', h1, h⟩ := Res.bind_eq_ok.1 h
    refine Res.bind_eq_ok.2 ⟨b', ?_, h⟩
    rw [fitTrees_eq_rest] at h1 ⊢
    have h0 : (if b.trees.isEmpty then b else b.reset).colsampleBytree = b.colsampleBytree ∧
        (if b.trees.isEmpty then b else b.reset).nbins = b.nbins ∧
        (if b.trees.isEmpty then b else b.reset).missing = b.missing := by
      split
      · exact ⟨rfl, rfl, rfl⟩
      · exact ⟨rfl, rfl, rfl⟩
    generalize (if b.trees.isEmpty then b else b.reset) = b0 at h0 h1
    dsimp only at h1 ⊢
    split at h1
    · rename_i hi
      rw [if_pos hi]
      obtain ⟨s, h2, h1⟩ := Res.bind_eq_ok.1 h1
      refine Res.bind_eq_ok.2 ⟨s, h2, ?_⟩
      refine fitRest_wide hp hW hev (by dsimp only; rw [h0.1]; exact hcs) ?_ h1
      dsimp only
      rw [h0.2.1, h0.2.2]
      exact hbin
    · rename_i hi
      rw [if_neg hi]
      refine fitRest_wide hp hW hev (by rw [h0.1]; exact hcs) ?_ h1
      rw [h0.2.1, h0.2.2]
      exact hbin

end Verif
