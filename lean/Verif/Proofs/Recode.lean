import Verif.Spec.Recode
import Verif.Proofs.RelateContrib

/-!
# Two codes for missing values: simulation
-/

namespace Verif

open scoped Verif

set_option linter.unusedSectionVars false

variable {F D : Type} [Fl F] [Fl D] [FlCast F D] {m m' : D}

theorem Marks.isMissing {v : D} (h : Marks m v) : isMissing v m = .ok true := by
  unfold Verif.isMissing
  rcases h with ⟨h1, h2⟩ | ⟨h1, h2, h3⟩
  · rw [if_pos h1, h2]
  · rw [if_neg (by simp [h1]), if_neg (by simp [h2]), h3]

theorem Plain.isMissing {v : D} (h : Plain m v) : isMissing v m = .ok false := by
  unfold Verif.isMissing
  obtain ⟨h1, h2⟩ := h
  by_cases hm : isNaN m = true
  · rw [if_pos hm, h1]
  · rw [if_neg hm, if_neg (by simp [h1]), h2]

theorem Recoded.isMissing {v v' : D} (h : Recoded m m' v v') : isMissing v' m' = isMissing v m := by
  rcases h with ⟨h1, h2⟩ | ⟨rfl, h1, h2⟩
  · rw [h1.isMissing, h2.isMissing]
  · rw [h1.isMissing, h2.isMissing]

theorem Recoded.child {v v' : D} (h : Recoded m m' v v') (n : Node F D) :
    n.getChildIdx v' m' = n.getChildIdx v m := by
  unfold Node.getChildIdx
  rcases h with ⟨h1, h2⟩ | ⟨rfl, h1, h2⟩
  · rw [h1.isMissing, h2.isMissing]; rfl
  · rw [h1.isMissing, h2.isMissing]

theorem Marks.mapBin {v : D} (h : Marks m v) (x : List D) : mapBin x v m = .ok (some 0) := by
  unfold Verif.mapBin
  rcases h with ⟨h1, h2⟩ | ⟨h1, h2, h3⟩
  · rw [if_pos (by simp [h2])]
  · rw [if_pos (by simp [h3])]

theorem Recoded.mapBin {v v' : D} (h : Recoded m m' v v') (x : List D) : mapBin x v' m' = mapBin x v m := by
  rcases h with ⟨h1, h2⟩ | ⟨rfl, ⟨h1, h2⟩, _, h3⟩
  · rw [h1.mapBin, h2.mapBin]
  · unfold Verif.mapBin; rw [h2, h3]

/-! ## Binning -/

theorem filterMissing_recoded : ∀ {l l' : List D} (w : List D), List.Forall₂ (Recoded m m') l l' →
    filterMissing m' (l'.zip w) = filterMissing m (l.zip w)
  | _, _, w, .nil => rfl
  | _, _, [], .cons _ _ => rfl
  | _, _, a :: w, .cons h hl => by
    simp only [List.zip_cons_cons, filterMissing]
    rw [filterMissing_recoded w hl, h.isMissing]
    rcases h with ⟨h1, h2⟩ | ⟨rfl, h1, h2⟩
    · rw [h1.isMissing, Res.ok_bind, Res.ok_bind]; rfl
    · rfl

theorem colCuts_recoded {S : Sorter} {l l' : List D} (h : List.Forall₂ (Recoded m m') l l') (w : List D)
    (nbins : Nat) : colCuts S l' w nbins m' = colCuts S l w nbins m := by
  unfold colCuts
  rw [filterMissing_recoded w h]

theorem getCol_recoded {X X' : Matrix D} (h : X.Recoded m m' X') (j : Nat) :
    Res.Rel (List.Forall₂ (Recoded m m')) (X.getCol j) (X'.getCol j) := by
  unfold Matrix.getCol Matrix.getColSlice slice Matrix.itemIndex
  rw [h.rows, ← h.data.length_eq]
  split
  · exact List.forall₂_take _ (List.forall₂_drop _ h.data)
  · trivial

theorem zipIdx_recoded {l l' : List D} (h : List.Forall₂ (Recoded m m') l l') : ∀ k : Nat,
    List.Forall₂ (fun p p' : D × Nat => Recoded m m' p.1 p'.1 ∧ p'.2 = p.2) (l.zipIdx k) (l'.zipIdx k) := by
  induction h with
  | nil => intro k; exact .nil
  | cons hab _ ih => intro k; exact .cons ⟨hab, rfl⟩ (ih (k + 1))

theorem binMatrix_recoded {S : Sorter} {X X' : Matrix D} (h : X.Recoded m m' X') (w : List D) (nbins : Nat) :
    binMatrix S X' w nbins m' = binMatrix S X w nbins m := by
  unfold binMatrix
  rw [h.cols]
  have e1 : Res.mapM' (fun i => X'.getCol i >>= fun c => colCuts S c w nbins m') (List.range X.cols) =
      Res.mapM' (fun i => X.getCol i >>= fun c => colCuts S c w nbins m) (List.range X.cols) := by
    refine Res.mapM'_congr fun i _ => ?_
    exact (Res.Rel.eq ((getCol_recoded h i).bind fun c c' _ _ hc => Res.Rel.of_eq (colCuts_recoded hc w nbins).symm)).symm
  rw [e1]
  congr 1; funext cols
  dsimp only
  congr 1
  unfold binMatrixFromCuts
  rw [h.rows]
  refine mapM'_rel (zipIdx_recoded h.data 0) fun p p' hp => ?_
  obtain ⟨h1, h2⟩ := hp
  rw [h2]
  split
  · rfl
  · congr 1; funext c
    rw [h1.mapBin]

/-! ## Routing -/

theorem idx_recoded {l l' : List D} (h : List.Forall₂ (Recoded m m') l l') (i : Nat) :
    Res.Rel (Recoded m m') (idx l i) (idx l' i) := idx_sim h i

theorem leafFrom_recoded {nodes : List (Node F D)} {get get' : Nat → Res D}
    (hg : ∀ j, Res.Rel (Recoded m m') (get j) (get' j)) : ∀ (fuel i : Nat),
    leafFrom nodes get' m' fuel i = leafFrom nodes get m fuel i
  | 0, _ => rfl
  | fuel + 1, i => by
    rw [leafFrom, leafFrom]
    refine (Res.Rel.eq ((Res.Rel.of_eq rfl).bind fun n n' _ _ e => ?_)).symm
    subst e
    split
    · exact Res.Rel.of_eq rfl
    · refine (hg n.splitFeature).bind fun v v' _ _ hv => ?_
      rw [hv.child]
      refine (Res.Rel.of_eq rfl).bind fun c c' _ _ e => ?_
      subst e
      exact Res.Rel.of_eq (leafFrom_recoded hg fuel c).symm

theorem get_recoded {X X' : Matrix D} (h : X.Recoded m m' X') (i j : Nat) :
    Res.Rel (Recoded m m') (X.get i j) (X'.get i j) := by
  unfold Matrix.get Matrix.itemIndex
  rw [h.rows]
  exact idx_recoded h.data _

theorem treePredict_recoded {X X' : Matrix D} (h : X.Recoded m m' X') (t : Tree F D) :
    t.predict X' m' = t.predict X m := by
  unfold Tree.predict Tree.predictLeaf
  rw [show X'.index = X.index by unfold Matrix.index; rw [h.rows]]
  refine Res.mapM'_congr fun i _ => ?_
  rw [leafFrom_recoded fun j => get_recoded h i j]

theorem treeLeaves_recoded {X X' : Matrix D} (h : X.Recoded m m' X') (t : Tree F D) :
    t.predictLeafIndices X' m' = t.predictLeafIndices X m := by
  unfold Tree.predictLeafIndices Tree.predictLeaf
  rw [show X'.index = X.index by unfold Matrix.index; rw [h.rows]]
  refine Res.mapM'_congr fun i _ => ?_
  rw [leafFrom_recoded fun j => get_recoded h i j]

/-! ## Contributions -/

theorem stepAux_recoded (k : Nat) {l l' : List D} (h : List.Forall₂ (Recoded m m') l l') : ∀ j : Nat,
    List.Forall₂ (Recoded m m') (stepAux k j l) (stepAux k j l') := by
  induction h with
  | nil => intro j; unfold stepAux; exact .nil
  | cons hab _ ih =>
    intro j
    cases j with
    | zero => exact .cons hab (ih _)
    | succ j => exact ih j

theorem getRow_recoded {X X' : Matrix D} (h : X.Recoded m m' X') (i : Nat) :
    Res.Rel (List.Forall₂ (Recoded m m')) (X.getRow i) (X'.getRow i) := by
  unfold Matrix.getRow
  rw [h.rows]
  split
  · trivial
  · exact stepAux_recoded _ (List.forall₂_drop _ h.data) _

theorem contribWalk_recoded {nodes : List (Node F D)} {row row' : List D}
    (hr : List.Forall₂ (Recoded m m') row row') {delta : Nat → Node F D → Nat → Res (Option D)} :
    ∀ (fuel i : Nat) (c : List D),
    contribWalk nodes row' m' delta fuel i c = contribWalk nodes row m delta fuel i c
  | 0, _, _ => rfl
  | fuel + 1, i, c => by
    rw [contribWalk, contribWalk]
    refine (Res.Rel.eq ((Res.Rel.of_eq rfl).bind fun n n' _ _ e => ?_)).symm
    subst e
    split
    · exact Res.Rel.of_eq rfl
    · refine (idx_recoded hr n.splitFeature).bind fun v v' _ _ hv => ?_
      rw [hv.child]
      refine (Res.Rel.of_eq rfl).bind fun ch ch' _ _ e => ?_
      subst e
      refine (Res.Rel.of_eq rfl).bind fun d d' _ _ e => ?_
      subst e
      simp only [contribWalk_recoded hr fuel ch]
      exact Res.Rel.of_eq rfl

theorem treeShap_recoded {nodes : List (Node F D)} {row row' : List D}
    (hr : List.Forall₂ (Recoded m m') row row') : ∀ (fuel i depth : Nat) (p : List (PathElement F)) (pz po : F)
    (pf : Nat) (c : List D),
    treeShap nodes row' m' fuel i depth p pz po pf c = treeShap nodes row m fuel i depth p pz po pf c
  | 0, _, _, _, _, _, _, _ => rfl
  | fuel + 1, i, depth, p, pz, po, pf, c => by
    rw [treeShap, treeShap]
    refine (Res.Rel.eq ((Res.Rel.of_eq rfl).bind fun n n' _ _ e => ?_)).symm
    subst e
    refine (Res.Rel.of_eq rfl).bind fun q q' _ _ e => ?_
    subst e
    split
    · exact Res.Rel.of_eq rfl
    · refine (idx_recoded hr n.splitFeature).bind fun v v' _ _ hv => ?_
      rw [hv.child]
      simp only [treeShap_recoded hr fuel]
      exact Res.Rel.of_eq rfl

theorem rowPredFn_recoded {row row' : List D} (hr : List.Forall₂ (Recoded m m') row row')
    (meth : ContributionsMethod) (t : Tree F D) (c : List D) :
    rowPredFn meth t row' c m' = rowPredFn meth t row c m := by
  cases meth <;>
    simp only [rowPredFn, Tree.contribWeight, Tree.contribBranch, Tree.contribMidpoint, Tree.contribMode,
      Tree.contribShapley, contribWalk_recoded hr, treeShap_recoded hr, hr.length_eq]

theorem contribRows_recoded {X X' : Matrix D} {b : Booster F D} (h : X.Recoded b.missing m' X')
    (meth : ContributionsMethod) : (b.withMissing m').contribRows X' meth = b.contribRows X meth := by
  have hidx : X'.index = X.index := by unfold Matrix.index; rw [h.rows]
  have hp : (b.withMissing m').predictionTrees = b.predictionTrees := rfl
  have alone : ∀ ts meth i, contribsRowAlone (b.withMissing m') ts meth X' i = contribsRowAlone b ts meth X i := by
    intro ts meth i
    unfold contribsRowAlone
    refine (Res.Rel.eq ((getRow_recoded h i).bind fun r r' _ _ hr => Res.Rel.of_eq ?_)).symm
    rw [h.cols]
    show _ = Res.foldM' (fun c t => rowPredFn meth t r' c m') (initContribs X.cols b.baseScore) ts
    simp only [rowPredFn_recoded hr]
  have avg : ∀ ts ws i, contribsRowAverage (b.withMissing m') ts ws X' i = contribsRowAverage b ts ws X i := by
    intro ts ws i
    unfold contribsRowAverage
    refine (Res.Rel.eq ((getRow_recoded h i).bind fun r r' _ _ hr => Res.Rel.of_eq ?_)).symm
    rw [h.cols]
    show _ = Res.foldM' (fun c (tw : Tree F D × List D) => tw.1.contribAverage r' c tw.2 m')
      (initContribs X.cols b.baseScore) (ts.zip ws)
    simp only [Tree.contribAverage, contribWalk_recoded hr]
  have prob : ∀ ts i, contribsRowProb (b.withMissing m') ts X' i = contribsRowProb b ts X i := by
    intro ts i
    unfold contribsRowProb
    refine (Res.Rel.eq ((getRow_recoded h i).bind fun r r' _ _ hr => Res.Rel.of_eq ?_)).symm
    rw [h.cols]
    show _ = (Res.foldM' (fun (s : List D × D) (t : Tree F D) => t.contribProb r' s.1 m' s.2)
      (initContribs X.cols (odds b.baseScore), b.baseScore) ts >>= fun x => Res.ok x.1)
    simp only [Tree.contribProb, contribWalk_recoded hr]
  unfold Booster.contribRows
  rw [hp, hidx, show (b.withMissing m').objectiveType = b.objectiveType from rfl]
  simp only [funext (alone _ _), funext (avg _ _), funext (prob _)]

/-! ## Evaluation sets -/

/-- Two evaluation sets with their predictions. -/
def EvRecoded (m m' : D) (e e' : TrainEval D) : Prop := e.toEvalSet.Recoded m m' e'.toEvalSet ∧ e'.yhat = e.yhat

/-- Optional evaluation sets. -/
def EvsRecoded (m m' : D) : Option (List (TrainEval D)) → Option (List (TrainEval D)) → Prop
  | none, none => True
  | some l, some l' => List.Forall₂ (EvRecoded m m') l l'
  | _, _ => False

theorem earlyStopUpdate_recoded (b : Booster F D) (i : Nat) (v : D) (mx : Bool) (best : Option D) (stop : Bool) :
    earlyStopUpdate (b.withMissing m') i v mx best stop =
      ((earlyStopUpdate b i v mx best stop).1.withMissing m', (earlyStopUpdate b i v mx best stop).2) := by
  unfold earlyStopUpdate
  rw [show (b.withMissing m').earlyStoppingRounds = b.earlyStoppingRounds from rfl,
    show (b.withMissing m').bestIteration = b.bestIteration from rfl]
  cases b.earlyStoppingRounds with
  | none => rfl
  | some r =>
    cases best with
    | none => rfl
    | some v =>
      dsimp only
      split
      · rfl
      · cases b.bestIteration <;> rfl

theorem evalLoop_recoded {S : Sorter} {t : Tree F D} {i n : Nat} {l l' : List (TrainEval D)}
    (hl : List.Forall₂ (EvRecoded m m') l l') : ∀ (k : Nat) (b : Booster F D) (best : Option D) (stop : Bool),
      b.missing = m →
      Res.Rel (fun r r' => List.Forall₂ (EvRecoded m m') r.1 r'.1 ∧ r'.2.1 = r.2.1 ∧
          r'.2.2.1 = r.2.2.1.withMissing m' ∧ r'.2.2.2 = r.2.2.2)
        (evalLoop S t i n l k b best stop) (evalLoop S t i n l' k (b.withMissing m') best stop) := by
  induction hl with
  | nil => intro k b best stop _; exact ⟨.nil, rfl, rfl, rfl⟩
  | cons he _ ih =>
    rename_i e e' l l' _
    intro k b best stop hm
    obtain ⟨hW, hy⟩ := he
    simp only [evalLoop]
    have hp : t.predict e'.data (b.withMissing m').missing = t.predict e.data b.missing := by
      rw [show (b.withMissing m').missing = m' from rfl, hm]
      exact treePredict_recoded hW.data t
    rw [hp]
    refine (Res.Rel.of_eq rfl).bind fun p p' _ _ e0 => ?_
    subst e0
    rw [show (b.withMissing m').metric = b.metric from rfl, hW.y, hW.w, hy]
    refine (Res.Rel.of_eq rfl).bind fun v v' _ _ e0 => ?_
    subst e0
    have key : ∀ (x x' : Booster F D × Option D × Bool), x.1.missing = m →
        x' = (x.1.withMissing m', x.2) →
        Res.Rel (fun r r' => List.Forall₂ (EvRecoded m m') r.1 r'.1 ∧ r'.2.1 = r.2.1 ∧
          r'.2.2.1 = r.2.2.1.withMissing m' ∧ r'.2.2.2 = r.2.2.2)
          (do
            let (es, ms, b, best, stop) ← evalLoop S t i n l (k + 1) x.1 x.2.1 x.2.2
            .ok ({ e with yhat := addPreds e.yhat p } :: es, v :: ms, b, best, stop))
          (do
            let (es, ms, b, best, stop) ← evalLoop S t i n l' (k + 1) x'.1 x'.2.1 x'.2.2
            .ok ({ e' with yhat := addPreds e.yhat p } :: es, v :: ms, b, best, stop)) := by
      rintro x x' hx rfl
      refine (ih (k + 1) x.1 x.2.1 x.2.2 hx).bind fun r r' _ _ hr => ?_
      obtain ⟨es, ms, b1, be, st⟩ := r
      obtain ⟨es', ms', b1', be', st'⟩ := r'
      obtain ⟨h1, h2, h3, h4⟩ := hr
      dsimp only at h1 h2 h3 h4 ⊢
      subst h2 h3
      exact ⟨.cons ⟨hW, rfl⟩ h1, rfl, rfl, h4⟩
    split
    · refine key _ _ ?_ (earlyStopUpdate_recoded b i v b.metric.maximize best stop)
      have := (earlyStopUpdate_same b i v b.metric.maximize best stop).1
      unfold Booster.SameParams at this
      rw [this]
      exact hm
    · exact key (b, best, stop) _ hm rfl

theorem evalSets_recoded {S : Sorter} {t : Tree F D} {i : Nat} {l l' : Option (List (TrainEval D))}
    (hl : EvsRecoded m m' l l') (b : Booster F D) (best : Option D) (hm : b.missing = m) :
    Res.Rel (fun r r' => r'.1 = r.1.withMissing m' ∧ EvsRecoded m m' r.2.1 r'.2.1 ∧ r'.2.2 = r.2.2)
      (evalSets S t i b l best) (evalSets S t i (b.withMissing m') l' best) := by
  cases l <;> cases l' <;> first
    | exact hl.elim
    | exact ⟨rfl, trivial, rfl⟩
    | skip
  rename_i l l'
  have hl : List.Forall₂ (EvRecoded m m') l l' := hl
  simp only [evalSets]
  have e1 : withHistory (b.withMissing m') l'.length = (withHistory b l.length).withMissing m' := by
    unfold withHistory
    rw [show (b.withMissing m').evaluationHistory = b.evaluationHistory from rfl, hl.length_eq]
    cases b.evaluationHistory <;> rfl
  rw [e1, ← hl.length_eq]
  have hm' : (withHistory b l.length).missing = m := by
    have := (withHistory_same b l.length).1
    unfold Booster.SameParams at this
    rw [this]
    exact hm
  refine (evalLoop_recoded hl 0 _ best false hm').bind fun r r' _ _ hr => ?_
  obtain ⟨es, ms, b1, be, st⟩ := r
  obtain ⟨es', ms', b1', be', st'⟩ := r'
  obtain ⟨h1, h2, h3, h4⟩ := hr
  dsimp only at h1 h2 h3 h4 ⊢
  subst h2 h3
  have ha : Res.Rel (fun r r' => r' = r.withMissing m') (appendHistory b1 ms')
      (appendHistory (b1.withMissing m') ms') := by
    unfold appendHistory
    rw [show (b1.withMissing m').evaluationHistory = b1.evaluationHistory from rfl]
    cases b1.evaluationHistory with
    | none => exact rfl
    | some h =>
      dsimp only
      refine (Res.Rel.of_eq rfl).bind fun p p' _ _ e0 => ?_
      subst e0
      exact rfl
  refine ha.bind fun b2 b2' _ _ hb => ?_
  exact ⟨hb, h1, h4⟩

/-! ## The boosting loop -/

/-- Two states of the boosting loop. -/
structure FitRecoded (m m' : D) {R : Type} (s s' : FitState R F D) : Prop where
  missing : s.booster.missing = m
  booster : s'.booster = s.booster.withMissing m'
  yhat : s'.yhat = s.yhat
  grad : s'.grad = s.grad
  hess : s'.hess = s.hess
  evals : EvsRecoded m m' s.evals s'.evals
  best : s'.best = s.best
  rng : s'.rng = s.rng

theorem fitIteration_recoded {R : Type} {env : Env R F D} {X X' : Matrix D} (hX : X.Recoded m m' X') {y w : List D}
    {sp : Splitter F} {bdata : Matrix Nat} {cuts : JaggedMatrix D} {i : Nat} {s s' : FitState R F D}
    (h : FitRecoded m m' s s') :
    Res.Rel (fun r r' => FitRecoded m m' r.1 r'.1 ∧ r'.2 = r.2)
      (fitIteration env X y w sp bdata cuts i s) (fitIteration env X' y w sp bdata cuts i s') := by
  obtain ⟨hm, hb, hy, hg, hh, hev, hbest, hr⟩ := h
  unfold fitIteration
  dsimp only
  rw [hb, hy, hg, hh, hr, hbest]
  rw [show X'.index = X.index by unfold Matrix.index; rw [hX.rows], hX.cols]
  refine (Res.Rel.of_eq rfl).bind fun r r' _ _ e => ?_
  subst e
  obtain ⟨chosen, g, hs, rng⟩ := r
  dsimp only
  rw [show (s.booster.withMissing m').colsampleBytree = s.booster.colsampleBytree from rfl]
  generalize sampleColumns env.rng s.booster.colsampleBytree rng X.cols = sc
  obtain ⟨ci, rng2⟩ := sc
  dsimp only
  refine (Res.Rel.of_eq rfl).bind fun t t' _ _ e => ?_
  subst e
  have hp : t.predict X' (s.booster.withMissing m').missing = t.predict X s.booster.missing := by
    rw [show (s.booster.withMissing m').missing = m' from rfl, hm]
    exact treePredict_recoded hX t
  rw [hp]
  refine (Res.Rel.of_eq rfl).bind fun p p' _ _ e => ?_
  subst e
  refine (evalSets_recoded hev s.booster s.best hm).bind fun r r' hr1 _ hr => ?_
  obtain ⟨b1, ev1, be1, st⟩ := r
  obtain ⟨b1', ev1', be1', st'⟩ := r'
  obtain ⟨h1, h2, h3⟩ := hr
  dsimp only at h1 h2 h3 ⊢
  cases h3
  subst h1
  have hsame := evalSets_same hr1
  have hm1 : b1.missing = m := by
    have := hsame.1
    unfold Booster.SameParams at this
    rw [this]
    exact hm
  cases st with
  | true => exact ⟨⟨hm1, rfl, rfl, rfl, rfl, h2, rfl, rfl⟩, rfl⟩
  | false => exact ⟨⟨hm1, rfl, rfl, rfl, rfl, h2, rfl, rfl⟩, rfl⟩

theorem fitLoop_recoded {R : Type} {env : Env R F D} {X X' : Matrix D} (hX : X.Recoded m m' X') {y w : List D}
    {sp : Splitter F} {bdata : Matrix Nat} {cuts : JaggedMatrix D} : ∀ (n i : Nat) {s s' : FitState R F D},
    FitRecoded m m' s s' → Res.Rel (FitRecoded m m')
      (fitLoop env X y w sp bdata cuts n i s) (fitLoop env X' y w sp bdata cuts n i s')
  | 0, _, _, _, h => h
  | n + 1, i, s, s', h => by
    simp only [fitLoop]
    refine (fitIteration_recoded hX h).bind fun r r' _ _ hr => ?_
    obtain ⟨s1, st⟩ := r
    obtain ⟨s1', st'⟩ := r'
    obtain ⟨h1, h2⟩ := hr
    dsimp only at h1 h2 ⊢
    subst h2
    split
    · exact h1
    · exact fitLoop_recoded hX n (i + 1) h1

theorem fitRest_recoded {R : Type} {env : Env R F D} {X X' : Matrix D} {b : Booster F D}
    (hX : X.Recoded b.missing m' X') {y w : List D} {sp : Splitter F} {ev ev' : Option (List (EvalSet D))}
    (hev : EvalsRecoded b.missing m' ev ev') :
    Res.Rel (fun r r' => r' = r.withMissing m') (fitRest env X y w sp ev b)
      (fitRest env X' y w sp ev' (b.withMissing m')) := by
  unfold fitRest
  dsimp only
  have e : binMatrix env.sorter X' w (b.withMissing m').nbins (b.withMissing m').missing =
      binMatrix env.sorter X w b.nbins b.missing := binMatrix_recoded hX w b.nbins
  rw [e, hX.rows, hX.cols]
  refine (Res.Rel.of_eq rfl).bind fun bd bd' _ _ e => ?_
  subst e
  refine (fitLoop_recoded hX b.iterations 0 ?_).bind fun s s' _ _ hs => hs.booster
  refine ⟨rfl, rfl, rfl, rfl, rfl, ?_, rfl, rfl⟩
  cases ev <;> cases ev' <;> first
    | exact hev.elim
    | trivial
    | skip
  rename_i l l'
  have hev : List.Forall₂ (EvalSet.Recoded b.missing m') l l' := hev
  show List.Forall₂ _ _ _
  rw [List.forall₂_map_left_iff, List.forall₂_map_right_iff]
  exact hev.imp fun e e' he => ⟨he, by dsimp only; rw [he.y]; rfl⟩

theorem fitTrees_recoded {R : Type} {env : Env R F D} {X X' : Matrix D} {b : Booster F D}
    (hX : X.Recoded b.missing m' X') {y w : List D} {sp : Splitter F} {ev ev' : Option (List (EvalSet D))}
    (hev : EvalsRecoded b.missing m' ev ev') :
    Res.Rel (fun r r' => r' = r.withMissing m') (fitTrees env b X y w sp ev)
      (fitTrees env (b.withMissing m') X' y w sp ev') := by
  rw [fitTrees_eq_rest, fitTrees_eq_rest]
  have h0 : (if (b.withMissing m').trees.isEmpty then b.withMissing m' else (b.withMissing m').reset) =
      (if b.trees.isEmpty then b else b.reset).withMissing m' := by
    rw [show (b.withMissing m').trees = b.trees from rfl]
    split <;> rfl
  have h1 : (if b.trees.isEmpty then b else b.reset).missing = b.missing := by split <;> rfl
  rw [h0]
  rw [← h1] at hX hev
  generalize (if b.trees.isEmpty then b else b.reset) = b0 at hX hev
  dsimp only
  rw [show (b0.withMissing m').initializeBaseScore = b0.initializeBaseScore from rfl,
    show (b0.withMissing m').objectiveType = b0.objectiveType from rfl]
  split
  · refine (Res.Rel.of_eq rfl).bind fun s s' _ _ e => ?_
    subst e
    exact fitRest_recoded (b := { b0 with baseScore := s }) hX hev
  · exact fitRest_recoded hX hev

theorem validateEvals_recoded {l l' : List (EvalSet D)} (h : List.Forall₂ (EvalSet.Recoded m m') l l') : ∀ i : Nat,
    validateEvals l' i = validateEvals l i := by
  induction h with
  | nil => intro i; rfl
  | cons he _ ih => intro i; simp only [validateEvals]; rw [he.y, he.w, ih]

theorem validateFit_recoded {ev ev' : Option (List (EvalSet D))} (h : EvalsRecoded m m' ev ev') (y w : List D) :
    validateFit y w ev' = validateFit y w ev := by
  unfold validateFit
  cases ev <;> cases ev' <;> first
    | exact h.elim
    | rfl
    | skip
  rename_i l l'
  dsimp only
  rw [validateEvals_recoded h]

end Verif
