import Verif.Proofs.RelateGrow
import Verif.Proofs.RelateBins
import Verif.Proofs.Boost
import Verif.Props.Histograms
import Verif.Props.Shift

/-!
# Fits on transformed features
-/

namespace Verif

open scoped Verif

set_option linter.unusedSectionVars false

variable {F D : Type} [Fl F] [Fl D] [FlCast F D]
variable {φ : Nat → D → D} {missing : D} {dom : Nat → D → Prop}

/-- A split value that is a value of the data, and its image. -/
def SplitVal (φ : Nat → D → D) (missing : D) (dom : Nat → D → Prop) (j : Nat) (c c' : D) : Prop :=
  (dom j c ∧ Present missing c) ∧ c' = φ j c

/-- Two trees. -/
def TreeSim (φ : Nat → D → D) (missing : D) (dom : Nat → D → Prop) (t t' : Tree F D) : Prop :=
  List.Forall₂ (NodeSim (SplitVal φ missing dom)) t.nodes t'.nodes

theorem NodeSim.mapSplit {n n' : Node F D} (h : NodeSim (SplitVal φ missing dom) n n') :
    n' = n.mapSplit φ := by
  unfold Node.mapSplit
  rcases h with ⟨hl, rfl⟩ | ⟨hl, v, rfl, _, rfl⟩
  · rw [if_pos hl]
  · rw [if_neg (by simp [hl])]

theorem TreeSim.mapSplits {t t' : Tree F D} (h : TreeSim φ missing dom t t') : t' = t.mapSplits φ := by
  unfold TreeSim at h
  obtain ⟨ns⟩ := t
  obtain ⟨ns'⟩ := t'
  unfold Tree.mapSplits
  congr 1
  dsimp only at h ⊢
  induction h with
  | nil => rfl
  | cons h _ ih => rw [List.map_cons, ← h.mapSplit, ih]

theorem trees_mapSplits {ts ts' : List (Tree F D)} (h : List.Forall₂ (TreeSim φ missing dom) ts ts') :
    ts' = ts.map (Tree.mapSplits φ) := by
  induction h with
  | nil => rfl
  | cons h _ ih => rw [List.map_cons, ← h.mapSplits, ih]

/-! ## Prediction -/

theorem leafFrom_sim (hφ : Respects φ missing dom) {ns ns' : List (Node F D)}
    (h : List.Forall₂ (NodeSim (SplitVal φ missing dom)) ns ns') {get get' : Nat → Res D}
    (hg : ∀ j, Res.Rel (fun v v' => dom j v ∧ v' = φ j v) (get j) (get' j)) : ∀ (fuel i : Nat),
    Res.Rel (NodeSim (SplitVal φ missing dom)) (leafFrom ns get missing fuel i)
      (leafFrom ns' get' missing fuel i)
  | 0, _ => trivial
  | fuel + 1, i => by
    unfold leafFrom
    refine (idx_sim h i).bind fun n n' _ _ hn => ?_
    rcases id hn with ⟨hl, rfl⟩ | ⟨hl, v, rfl, ⟨hd, hp⟩, rfl⟩
    · rw [if_pos hl, if_pos hl]; exact hn
    · rw [if_neg (by simp [hl]), if_neg (by simp [hl])]
      dsimp only
      refine (hg n.splitFeature).bind fun v v' _ _ hv => ?_
      obtain ⟨hdv, rfl⟩ := hv
      unfold Node.getChildIdx
      rw [Res.bind_assoc', Res.bind_assoc', hφ.isMissing hdv]
      refine (Res.Rel.of_eq rfl).bind fun b b' hb _ e => ?_
      subst e
      cases b with
      | true => exact leafFrom_sim hφ h hg fuel _
      | false =>
        simp only [Res.ok_bind, Bool.false_eq_true, if_false]
        rw [hφ.lt _ v n.splitValue hdv hd (present_iff.2 hb) hp]
        exact leafFrom_sim hφ h hg fuel _

theorem get_mapCols {X : Matrix D} (hX : X.Within dom) {row : Nat} (hr : row < X.rows) (j : Nat) :
    Res.Rel (fun v v' => dom j v ∧ v' = φ j v) (X.get row j) ((X.mapCols φ).get row j) := by
  unfold Matrix.get Matrix.itemIndex idx
  rw [show (X.mapCols φ).rows = X.rows from rfl, getElem?_mapCols]
  have hq : (1 * row + j * X.rows) / X.rows = j := by
    rw [Nat.one_mul, Nat.mul_comm, Nat.add_mul_div_left _ _ (by omega), Nat.div_eq_of_lt hr, Nat.zero_add]
  rw [hq]
  cases h : X.data[1 * row + j * X.rows]? with
  | none => trivial
  | some v =>
    have := hX _ _ h
    rw [hq] at this
    exact ⟨this, rfl⟩

theorem predictLeaf_sim (hφ : Respects φ missing dom) {t t' : Tree F D} (h : TreeSim φ missing dom t t')
    {X : Matrix D} (hX : X.Within dom) {row : Nat} (hr : row < X.rows) :
    Res.Rel (NodeSim (SplitVal φ missing dom)) (t.predictLeaf X row missing)
      (t'.predictLeaf (X.mapCols φ) row missing) := by
  unfold Tree.predictLeaf
  rw [← h.length_eq]
  exact leafFrom_sim hφ h (fun j => get_mapCols hX hr j) _ _

theorem NodeSim.weight_eq {V : Nat → D → D → Prop} {n n' : Node F D} (h : NodeSim V n n') :
    n'.weightValue = n.weightValue ∧ n'.num = n.num := by
  obtain ⟨v, rfl⟩ := h.leaf_eq
  exact ⟨rfl, rfl⟩

theorem treePredict_sim (hφ : Respects φ missing dom) {t t' : Tree F D} (h : TreeSim φ missing dom t t')
    {X : Matrix D} (hX : X.Within dom) : t'.predict (X.mapCols φ) missing = t.predict X missing := by
  unfold Tree.predict
  show Res.mapM' _ X.index = _
  refine Res.mapM'_congr fun i hi => ?_
  rw [Matrix.index, List.mem_range] at hi
  exact (Res.Rel.eq ((predictLeaf_sim hφ h hX hi).bind fun n n' _ _ hn => by
    rw [hn.weight_eq.1]; rfl)).symm

theorem leafIndices_sim (hφ : Respects φ missing dom) {t t' : Tree F D} (h : TreeSim φ missing dom t t')
    {X : Matrix D} (hX : X.Within dom) :
    t'.predictLeafIndices (X.mapCols φ) missing = t.predictLeafIndices X missing := by
  unfold Tree.predictLeafIndices
  show Res.mapM' _ X.index = _
  refine Res.mapM'_congr fun i hi => ?_
  rw [Matrix.index, List.mem_range] at hi
  exact (Res.Rel.eq ((predictLeaf_sim hφ h hX hi).bind fun n n' _ _ hn => by
    rw [hn.weight_eq.2]; rfl)).symm

/-! ## Evaluation sets -/

/-- The booster with other trees. -/
def Booster.withTrees (b : Booster F D) (ts : List (Tree F D)) : Booster F D := { b with trees := ts }

/-- Two evaluation sets with their predictions. -/
def EvSim (φ : Nat → D → D) (dom : Nat → D → Prop) (e e' : TrainEval D) : Prop :=
  e' = { e with data := e.data.mapCols φ } ∧ e.data.Within dom

theorem earlyStopUpdate_trees (b : Booster F D) (ts : List (Tree F D)) (i : Nat) (m : D) (mx : Bool)
    (best : Option D) (stop : Bool) : earlyStopUpdate (b.withTrees ts) i m mx best stop =
      ((earlyStopUpdate b i m mx best stop).1.withTrees ts, (earlyStopUpdate b i m mx best stop).2) := by
  unfold earlyStopUpdate
  rw [show (b.withTrees ts).earlyStoppingRounds = b.earlyStoppingRounds from rfl,
    show (b.withTrees ts).bestIteration = b.bestIteration from rfl]
  cases b.earlyStoppingRounds with
  | none => rfl
  | some r =>
    cases best with
    | none => rfl
    | some v =>
      dsimp only
      split
      · rfl
      · cases b.bestIteration <;> rfl

theorem evalLoop_sim (hφ : Respects φ missing dom) {S : Sorter} {t t' : Tree F D}
    (ht : TreeSim φ missing dom t t') {i n : Nat} (ts : List (Tree F D)) {l l' : List (TrainEval D)}
    (hl : List.Forall₂ (EvSim φ dom) l l') : ∀ (k : Nat) (b : Booster F D) (best : Option D) (stop : Bool),
      b.missing = missing →
      Res.Rel (fun r r' => List.Forall₂ (EvSim φ dom) r.1 r'.1 ∧ r'.2.1 = r.2.1 ∧
          r'.2.2.1 = r.2.2.1.withTrees ts ∧ r'.2.2.2 = r.2.2.2)
        (evalLoop S t i n l k b best stop) (evalLoop S t' i n l' k (b.withTrees ts) best stop) := by
  induction hl with
  | nil => intro k b best stop _; exact ⟨.nil, rfl, rfl, rfl⟩
  | cons he _ ih =>
    rename_i e e' l l' _
    intro k b best stop hm
    obtain ⟨rfl, hW⟩ := he
    simp only [evalLoop]
    have hp : t'.predict (e.data.mapCols φ) (b.withTrees ts).missing = t.predict e.data b.missing := by
      rw [show (b.withTrees ts).missing = b.missing from rfl, hm]
      exact treePredict_sim hφ ht hW
    rw [hp]
    refine (Res.Rel.of_eq rfl).bind fun p p' _ _ e0 => ?_
    subst e0
    rw [show (b.withTrees ts).metric = b.metric from rfl]
    refine (Res.Rel.of_eq rfl).bind fun m m' _ _ e0 => ?_
    subst e0
    have key : ∀ (x x' : Booster F D × Option D × Bool), x.1.missing = missing →
        x' = (x.1.withTrees ts, x.2) → Res.Rel (fun r r' => List.Forall₂ (EvSim φ dom) r.1 r'.1 ∧ r'.2.1 = r.2.1 ∧
          r'.2.2.1 = r.2.2.1.withTrees ts ∧ r'.2.2.2 = r.2.2.2)
          (do
            let (es, ms, b, best, stop) ← evalLoop S t i n l (k + 1) x.1 x.2.1 x.2.2
            .ok ({ e with yhat := addPreds e.yhat p } :: es, m :: ms, b, best, stop))
          (do
            let (es, ms, b, best, stop) ← evalLoop S t' i n l' (k + 1) x'.1 x'.2.1 x'.2.2
            .ok ({ e with data := e.data.mapCols φ, yhat := addPreds e.yhat p } :: es, m :: ms, b, best, stop)) := by
      rintro x x' hx rfl
      refine (ih (k + 1) x.1 x.2.1 x.2.2 hx).bind fun r r' _ _ hr => ?_
      obtain ⟨es, ms, b1, be, st⟩ := r
      obtain ⟨es', ms', b1', be', st'⟩ := r'
      obtain ⟨h1, h2, h3, h4⟩ := hr
      dsimp only at h1 h2 h3 h4 ⊢
      subst h2 h3
      exact ⟨.cons ⟨rfl, hW⟩ h1, rfl, rfl, h4⟩
    split
    · refine key _ _ ?_ (earlyStopUpdate_trees b ts i m b.metric.maximize best stop)
      have := (earlyStopUpdate_same b i m b.metric.maximize best stop).1
      unfold Booster.SameParams at this
      rw [this]
      exact hm
    · exact key (b, best, stop) _ hm rfl

theorem withHistory_trees (b : Booster F D) (ts : List (Tree F D)) (n : Nat) :
    withHistory (b.withTrees ts) n = (withHistory b n).withTrees ts := by
  unfold withHistory
  rw [show (b.withTrees ts).evaluationHistory = b.evaluationHistory from rfl]
  cases b.evaluationHistory <;> rfl

theorem appendHistory_trees (b : Booster F D) (ts : List (Tree F D)) (ms : List D) :
    Res.Rel (fun r r' => r' = r.withTrees ts) (appendHistory b ms) (appendHistory (b.withTrees ts) ms) := by
  unfold appendHistory
  rw [show (b.withTrees ts).evaluationHistory = b.evaluationHistory from rfl]
  cases b.evaluationHistory with
  | none => exact rfl
  | some h =>
    dsimp only
    refine (Res.Rel.of_eq rfl).bind fun p p' _ _ e0 => ?_
    subst e0
    exact rfl

/-- Optional evaluation sets. -/
def EvsSim (φ : Nat → D → D) (dom : Nat → D → Prop) : Option (List (TrainEval D)) →
    Option (List (TrainEval D)) → Prop
  | none, none => True
  | some l, some l' => List.Forall₂ (EvSim φ dom) l l'
  | _, _ => False

theorem evalSets_sim (hφ : Respects φ missing dom) {S : Sorter} {t t' : Tree F D}
    (ht : TreeSim φ missing dom t t') {i : Nat} (ts : List (Tree F D)) {l l' : Option (List (TrainEval D))}
    (hl : EvsSim φ dom l l') (b : Booster F D) (best : Option D) (hm : b.missing = missing) :
    Res.Rel (fun r r' => r'.1 = r.1.withTrees ts ∧ EvsSim φ dom r.2.1 r'.2.1 ∧ r'.2.2 = r.2.2)
      (evalSets S t i b l best) (evalSets S t' i (b.withTrees ts) l' best) := by
  cases l <;> cases l' <;> first
    | exact hl.elim
    | exact ⟨rfl, trivial, rfl⟩
    | skip
  rename_i l l'
  have hl : List.Forall₂ (EvSim φ dom) l l' := hl
  simp only [evalSets]
  rw [← hl.length_eq, withHistory_trees]
  have hm' : (withHistory b l.length).missing = missing := by
    have := (withHistory_same b l.length).1
    unfold Booster.SameParams at this
    rw [this]
    exact hm
  refine (evalLoop_sim hφ ht ts hl 0 _ best false hm').bind fun r r' _ _ hr => ?_
  obtain ⟨es, ms, b1, be, st⟩ := r
  obtain ⟨es', ms', b1', be', st'⟩ := r'
  obtain ⟨h1, h2, h3, h4⟩ := hr
  dsimp only at h1 h2 h3 h4 ⊢
  subst h2 h3
  refine (appendHistory_trees b1 ts ms').bind fun b2 b2' _ _ hb => ?_
  exact ⟨hb, h1, h4⟩

/-! ## The boosting loop -/

/-- Two states of the boosting loop. -/
structure FitSim (φ : Nat → D → D) (missing : D) (dom : Nat → D → Prop) {R : Type} (s s' : FitState R F D) :
    Prop where
  sentinel : s.booster.missing = missing
  booster : ∃ ts, s'.booster = s.booster.withTrees ts ∧
    List.Forall₂ (TreeSim φ missing dom) s.booster.trees ts
  yhat : s'.yhat = s.yhat
  grad : s'.grad = s.grad
  hess : s'.hess = s.hess
  evals : EvsSim φ dom s.evals s'.evals
  best : s'.best = s.best
  rng : s'.rng = s.rng

theorem fitIteration_sim (hφ : Respects φ missing dom) {R : Type} {env : Env R F D} (henv : EnvNatural env)
    {X : Matrix D} (hX : X.Within dom) {y w : List D} {sp : Splitter F} {bd bd' : BinnedData D}
    (hbin : bd'.binned = bd.binned) {cs cs' : List (List D)} (hj : Jagged cs bd.cuts) (hj' : Jagged cs' bd'.cuts)
    (hlen : cs.length = X.cols) (hlen' : cs'.length = X.cols)
    (hcut : ∀ j, Res.Rel (CutSim (φ j) fun a => dom j a ∧ Present missing a) (bd.cuts.getCol j) (bd'.cuts.getCol j))
    {i : Nat} {s s' : FitState R F D} (h : FitSim φ missing dom s s') :
    Res.Rel (fun r r' => FitSim φ missing dom r.1 r'.1 ∧ r'.2 = r.2)
      (fitIteration env X y w sp { data := bd.binned, rows := X.rows, cols := X.cols } bd.cuts i s)
      (fitIteration env (X.mapCols φ) y w sp { data := bd'.binned, rows := X.rows, cols := X.cols } bd'.cuts i s') := by
  obtain ⟨hm, ⟨ts, hb, hts⟩, hy, hg, hh, hev, hbest, hr⟩ := h
  unfold fitIteration
  dsimp only
  rw [hb, hy, hg, hh, hr, hbest, hbin]
  rw [show (X.mapCols φ).index = X.index from rfl, show (X.mapCols φ).cols = X.cols from rfl]
  refine (Res.Rel.of_eq rfl).bind fun r r' _ _ e => ?_
  subst e
  obtain ⟨chosen, g, hs, rng⟩ := r
  dsimp only
  have hsc := sampleColumns_sorted henv.rng (rate := s.booster.colsampleBytree) (r := rng) (cols := X.cols)
    (cs := (sampleColumns env.rng s.booster.colsampleBytree rng X.cols).1)
    (r' := (sampleColumns env.rng s.booster.colsampleBytree rng X.cols).2) rfl
  rw [show (s.booster.withTrees ts).colsampleBytree = s.booster.colsampleBytree from rfl]
  generalize sampleColumns env.rng s.booster.colsampleBytree rng X.cols = sc at hsc
  obtain ⟨ci, rng2⟩ := sc
  dsimp only at hsc ⊢
  have hT : TrainSim (SplitVal φ missing dom)
      ({ data := { data := bd.binned, rows := X.rows, cols := X.cols }, cuts := bd.cuts, grad := g, hess := hs
         colIndex := ci } : TrainData F D)
      { data := { data := bd.binned, rows := X.rows, cols := X.cols }, cuts := bd'.cuts, grad := g, hess := hs
        colIndex := ci } := by
    refine ⟨⟨⟨cs, hj, hlen⟩, fun hl => eq_range_of_sorted hsc.1 hsc.2.1 hl⟩,
      ⟨⟨cs', hj', hlen'⟩, fun hl => eq_range_of_sorted hsc.1 hsc.2.1 hl⟩, rfl, rfl, rfl, rfl, ?_, ?_⟩
    · show bd'.cuts.ends = bd.cuts.ends
      rw [hj.ends_eq, hj'.ends_eq]
      apply endsOf_congr
      apply List.ext_getElem?
      intro j
      have := hcut j
      rw [hj.getCol, hj'.getCol] at this
      rw [List.getElem?_map, List.getElem?_map]
      cases h1 : cs[j]? <;> cases h2 : cs'[j]? <;> rw [h1, h2] at this <;> first
        | exact this.elim
        | rfl
        | (simp only [Option.map_some]; exact congrArg some (CutSim.length this).symm)
    · intro j
      refine (hcut j).mono fun c c' _ _ hc => ⟨hc.length, ?_⟩
      obtain ⟨d, e, e', rfl, rfl, hd, _⟩ := hc
      simp only [List.length_append, List.length_map, List.length_singleton, Nat.add_sub_cancel]
      rw [List.take_left' rfl, List.take_left' (by simp), List.forall₂_map_right_iff]
      exact List.forall₂_same.2 fun a ha => ⟨hd a ha, rfl⟩
  refine Res.Rel.bind (treeFit_sim (V := SplitVal φ missing dom)
    (by exact ⟨hT, rfl, rfl, rfl, rfl, rfl, henv.heap i⟩) _ _) fun t t' _ _ ht => ?_
  have ht : TreeSim φ missing dom t t' := ht
  have hp : t'.predict (X.mapCols φ) (s.booster.withTrees ts).missing = t.predict X s.booster.missing := by
    rw [show (s.booster.withTrees ts).missing = s.booster.missing from rfl, hm]
    exact treePredict_sim hφ ht hX
  rw [hp]
  refine (Res.Rel.of_eq rfl).bind fun p p' _ _ e => ?_
  subst e
  refine (evalSets_sim hφ ht ts hev s.booster s.best hm).bind fun r r' hr1 _ hr => ?_
  obtain ⟨b1, ev1, be1, st⟩ := r
  obtain ⟨b1', ev1', be1', st'⟩ := r'
  obtain ⟨h1, h2, h3⟩ := hr
  dsimp only at h1 h2 h3 ⊢
  cases h3
  subst h1
  have hsame := evalSets_same hr1
  have hm1 : b1.missing = missing := by
    have := hsame.1
    unfold Booster.SameParams at this
    rw [this]
    exact hm
  have htr : List.Forall₂ (TreeSim φ missing dom) (b1.trees ++ [t]) (ts ++ [t']) := by
    rw [hsame.2]
    exact List.rel_append hts (.cons ht .nil)
  cases st with
  | true => exact ⟨⟨hm1, ⟨ts ++ [t'], rfl, htr⟩, rfl, rfl, rfl, h2, rfl, rfl⟩, rfl⟩
  | false => exact ⟨⟨hm1, ⟨ts ++ [t'], rfl, htr⟩, rfl, rfl, rfl, h2, rfl, rfl⟩, rfl⟩

theorem fitLoop_sim (hφ : Respects φ missing dom) {R : Type} {env : Env R F D} (henv : EnvNatural env)
    {X : Matrix D} (hX : X.Within dom) {y w : List D} {sp : Splitter F} {bd bd' : BinnedData D}
    (hbin : bd'.binned = bd.binned) {cs cs' : List (List D)} (hj : Jagged cs bd.cuts) (hj' : Jagged cs' bd'.cuts)
    (hlen : cs.length = X.cols) (hlen' : cs'.length = X.cols)
    (hcut : ∀ j, Res.Rel (CutSim (φ j) fun a => dom j a ∧ Present missing a) (bd.cuts.getCol j) (bd'.cuts.getCol j)) :
    ∀ (n i : Nat) {s s' : FitState R F D}, FitSim φ missing dom s s' →
    Res.Rel (FitSim φ missing dom)
      (fitLoop env X y w sp { data := bd.binned, rows := X.rows, cols := X.cols } bd.cuts n i s)
      (fitLoop env (X.mapCols φ) y w sp { data := bd'.binned, rows := X.rows, cols := X.cols } bd'.cuts n i s')
  | 0, _, _, _, h => h
  | n + 1, i, s, s', h => by
    simp only [fitLoop]
    refine (fitIteration_sim hφ henv hX hbin hj hj' hlen hlen' hcut h).bind fun r r' _ _ hr => ?_
    obtain ⟨s1, st⟩ := r
    obtain ⟨s1', st'⟩ := r'
    obtain ⟨h1, h2⟩ := hr
    dsimp only at h1 h2 ⊢
    subst h2
    split
    · exact h1
    · exact fitLoop_sim hφ henv hX hbin hj hj' hlen hlen' hcut n (i + 1) h1

/-- Two fitted boosters. -/
def BoosterSim (φ : Nat → D → D) (missing : D) (dom : Nat → D → Prop) (b b' : Booster F D) : Prop :=
  b.missing = missing ∧ ∃ ts, b' = b.withTrees ts ∧ List.Forall₂ (TreeSim φ missing dom) b.trees ts

theorem fitRest_sim (hφ : Respects φ missing dom) {R : Type} {env : Env R F D} (henv : EnvNatural env)
    {X : Matrix D} (hX : X.Within dom) {y w : List D} {sp : Splitter F} {ev : Option (List (EvalSet D))}
    (hev : ∀ es, ev = some es → ∀ e ∈ es, e.data.Within dom) {b : Booster F D} (hb : b.trees = [])
    (hm : b.missing = missing) :
    Res.Rel (BoosterSim φ missing dom) (fitRest env X y w sp ev b)
      (fitRest env (X.mapCols φ) y w sp (ev.map fun es => es.map (EvalSet.mapCols φ)) b) := by
  unfold fitRest
  dsimp only
  rw [hm]
  refine (binMatrix_sim henv.natural henv.sorter hφ hX w b.nbins).bind fun bd bd' _ _ hbd => ?_
  obtain ⟨hbin, cs, cs', hj, hj', hlen, hlen', hcut⟩ := hbd
  refine (fitLoop_sim hφ henv hX hbin hj hj' hlen hlen' hcut b.iterations 0 ?_).bind fun s s' _ _ hs => ?_
  · refine ⟨hm, ⟨b.trees, rfl, by rw [hb]; exact .nil⟩, rfl, rfl, rfl, ?_, rfl, rfl⟩
    cases ev with
    | none => trivial
    | some es =>
      show List.Forall₂ _ (es.map _) ((es.map (EvalSet.mapCols φ)).map _)
      rw [List.map_map, List.forall₂_map_left_iff, List.forall₂_map_right_iff]
      exact List.forall₂_same.2 fun e he => ⟨rfl, hev es rfl e he⟩
  · exact ⟨hs.sentinel, hs.booster⟩

theorem fitTrees_sim {R : Type} {env : Env R F D} (henv : EnvNatural env) {b : Booster F D}
    (hφ : Respects φ b.missing dom) {X : Matrix D} (hX : X.Within dom) {y w : List D} {sp : Splitter F}
    {ev : Option (List (EvalSet D))} (hev : ∀ es, ev = some es → ∀ e ∈ es, e.data.Within dom) :
    Res.Rel (BoosterSim φ b.missing dom) (fitTrees env b X y w sp ev)
      (fitTrees env b (X.mapCols φ) y w sp (ev.map fun es => es.map (EvalSet.mapCols φ))) := by
  rw [fitTrees_eq_rest, fitTrees_eq_rest]
  have h0 : (if b.trees.isEmpty then b else b.reset).trees = [] ∧
      (if b.trees.isEmpty then b else b.reset).missing = b.missing := by
    split
    · rename_i h; exact ⟨by simpa using h, rfl⟩
    · exact ⟨rfl, rfl⟩
  generalize (if b.trees.isEmpty then b else b.reset) = b0 at h0
  dsimp only
  split
  · refine (Res.Rel.of_eq rfl).bind fun s s' _ _ e => ?_
    subst e
    exact fitRest_sim hφ henv hX hev h0.1 h0.2
  · exact fitRest_sim hφ henv hX hev h0.1 h0.2

theorem validateEvals_mapCols (φ : Nat → D → D) : ∀ (es : List (EvalSet D)) (i : Nat),
    validateEvals (es.map (EvalSet.mapCols φ)) i = validateEvals es i
  | [], _ => rfl
  | e :: es, i => by
    simp only [List.map_cons, validateEvals, EvalSet.mapCols]
    rw [← validateEvals_mapCols φ es (i + 1)]

theorem validateFit_mapCols (φ : Nat → D → D) (y w : List D) (ev : Option (List (EvalSet D))) :
    validateFit y w (ev.map fun es => es.map (EvalSet.mapCols φ)) = validateFit y w ev := by
  unfold validateFit
  cases ev with
  | none => rfl
  | some es => simp only [Option.map_some, validateEvals_mapCols]

theorem BoosterSim.mapSplits {b b' : Booster F D} (h : BoosterSim φ missing dom b b') :
    b' = b.mapSplits φ := by
  obtain ⟨_, ts, rfl, hts⟩ := h
  unfold Booster.mapSplits Booster.withTrees
  rw [trees_mapSplits hts]

theorem forall₂_take_len {α β : Type} {R : α → β → Prop} {l : List α} {l' : List β}
    (h : List.Forall₂ R l l') (n : Nat) : List.Forall₂ R (l.take n) (l'.take n) := List.forall₂_take n h

theorem predictionTrees_sim {b b' : Booster F D} (h : BoosterSim φ missing dom b b') :
    Res.Rel (List.Forall₂ (TreeSim φ missing dom)) b.predictionTrees b'.predictionTrees := by
  obtain ⟨_, ts, rfl, hts⟩ := h
  unfold Booster.predictionTrees
  rw [show (b.withTrees ts).predictionIteration = b.predictionIteration from rfl,
    show (b.withTrees ts).trees = ts from rfl, ← hts.length_eq]
  dsimp only
  split
  · exact List.forall₂_take _ hts
  · trivial

theorem boosterPredict_sim (hφ : Respects φ missing dom) {b b' : Booster F D} (h : BoosterSim φ missing dom b b')
    {X : Matrix D} (hX : X.Within dom) : b'.predict (X.mapCols φ) = b.predict X := by
  unfold Booster.predict
  refine (Res.Rel.eq ((predictionTrees_sim h).bind fun ts ts' e1 e2 hts => ?_)).symm
  clear e1 e2
  obtain ⟨hm, ts0, rfl, _⟩ := h
  rw [show (b.withTrees ts0).missing = b.missing from rfl, hm,
    show (b.withTrees ts0).baseScore = b.baseScore from rfl, show (X.mapCols φ).rows = X.rows from rfl]
  generalize List.replicate X.rows b.baseScore = acc
  refine Res.Rel.of_eq ?_
  induction hts generalizing acc with
  | nil => rfl
  | cons ht _ ih =>
    rw [Res.foldM'_cons, Res.foldM'_cons, treePredict_sim hφ ht hX]
    simp only [Res.bind_assoc', Res.ok_bind, ih]

theorem boosterLeaves_sim (hφ : Respects φ missing dom) {b b' : Booster F D} (h : BoosterSim φ missing dom b b')
    {X : Matrix D} (hX : X.Within dom) : b'.predictLeafIndices (X.mapCols φ) = b.predictLeafIndices X := by
  unfold Booster.predictLeafIndices
  refine (Res.Rel.eq ((predictionTrees_sim h).bind fun ts ts' _ _ hts => ?_)).symm
  obtain ⟨hm, ts0, rfl, _⟩ := h
  rw [show (b.withTrees ts0).missing = b.missing from rfl, hm]
  refine Res.Rel.bind (Res.Rel.mapM' (R := Eq) hts fun t t' ht => ?_) fun l l' _ _ hl => ?_
  · rw [leafIndices_sim hφ ht hX]; exact Res.Rel.of_eq rfl
  · have : l = l' := List.forall₂_eq_eq_eq ▸ hl
    rw [this]; rfl

end Verif
