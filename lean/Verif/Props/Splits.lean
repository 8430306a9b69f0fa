import Verif.Props.Growth
import Verif.Proofs.Order
import Verif.Proofs.Contrib
import Mathlib.Tactic.Linarith
import Mathlib.Tactic.Ring

/-!
# C08, C50 The chosen split; C34, C36 The value of missing branches
-/

namespace Verif

open scoped Verif

variable {R F D : Type} [Fl F] [Fl D] [FlCast F D]

set_option linter.unusedSectionVars false

/-! ### C50 -/

/-- The children of the candidate violate the constraint of the feature. -/
def Violates (constraint : Option Constraint) (l r : NodeInfo F) : Prop :=
  (constraint = some .positive ∧ (r.weight ≤ᶠ l.weight) = true) ∨
    (constraint = some .negative ∧ (l.weight ≤ᶠ r.weight) = true)

instance (constraint : Option Constraint) (l r : NodeInfo F) : Decidable (Violates constraint l r) := by
  unfold Violates; infer_instance

/-- The score of a split: the scores of the children minus the score of the node and `gamma`; minus
infinity if the constraint is violated. -/
def splitScore (s : Splitter F) (node : SNode F D) (feature : Nat) (l r : NodeInfo F)
    (m : MissingInfo F) : F :=
  if Violates (s.params.getConstraint feature) l r then ninf
  else l.gain + r.gain + (match m with
    | .branch i => i.gain
    | .leaf i => i.gain
    | _ => 0) - node.gainValue - s.params.gamma

/-- A candidate of the node: feature number `j` of the columns in use, cut number `i`.  The left side is
the bins `1..i`, the right side is the rest of the node without the missing bin 0; the children are
those returned by `evaluate_split`. -/
structure Scored (s : Splitter F) (node : SNode F D) (cols : List Nat) (j i feature : Nat) (cut : D)
    (l r : NodeInfo F) (m : MissingInfo F) (score : F) : Prop where
  feature_eq : cols[j]? = some feature
  evaluated : ∃ missing bins bin, node.histograms.getCol j = .ok (missing :: bins) ∧
    bins[i]? = some bin ∧ bin.cut = cut ∧
    s.evaluateSplit
      { lg := ((bins.take i).map Bin.grad).foldl (· + ·) 0
        lh := ((bins.take i).map Bin.hess).foldl (· + ·) 0
        rg := node.gradientSum - ((bins.take i).map Bin.grad).foldl (· + ·) 0 - missing.grad
        rh := node.hessianSum - ((bins.take i).map Bin.hess).foldl (· + ·) 0 - missing.hess
        mg := missing.grad, mh := missing.hess
        lower := node.lowerBound, upper := node.upperBound, parentWeight := node.weightValue
        constraint := s.params.getConstraint feature } = .ok (some (l, r, m))
  score_eq : score = splitScore s node feature l r m

theorem splitScore_eq (s : Splitter F) (node : SNode F D) (feature : Nat) (l r : NodeInfo F)
    (m : MissingInfo F) : splitScore s node feature l r m =
      cullGain (node.getSplitGain l r m s.params.gamma) l.weight r.weight
        (s.params.getConstraint feature) := by
  unfold splitScore SNode.getSplitGain
  cases hc : s.params.getConstraint feature with
  | none => cases m <;> simp [Violates, cullGain]
  | some c => cases c <;> cases m <;> simp [Violates, cullGain]

/-- Candidates that the loop keeps, in terms of `Scored`. -/
theorem isCandidate_iff {s : Splitter F} {node : SNode F D} {cols : List Nat} {j i : Nat}
    {info : SplitInfo F D} : IsCandidate s node cols j i info → ∃ feature cut l r m score,
      Scored s node cols j i feature cut l r m score ∧ (score ≤ᶠ 0) = false ∧
      info.splitGain = (if isNaN score then 0 else score) ∧ info.splitFeature = feature ∧
      info.splitValue = cut ∧ info.splitBin = (i + 1) % 65536 ∧ info.missingNode = m ∧
      info.leftNode.weight = l.weight ∧ info.rightNode.weight = r.weight ∧
      info.leftNode.gain = l.gain ∧ info.rightNode.gain = r.gain ∧
      info.leftNode.grad = l.grad ∧ info.rightNode.grad = r.grad ∧
      info.leftNode.cover = l.cover ∧ info.rightNode.cover = r.cover := by
  rintro ⟨f, m, bs, bin, h1, h2, h3, h4⟩
  obtain ⟨l, r, mi, g, he, hg, hp, rfl⟩ := evalCandidate_some.1 h4
  rw [← splitScore_eq] at hg
  exact ⟨f, bin.cut, l, r, mi, g, ⟨h1, ⟨m, bs, bin, h2, h3, rfl, he⟩, hg⟩, hp, rfl, rfl, rfl, rfl, rfl, rfl,
    rfl, rfl, rfl, rfl, rfl, rfl, rfl⟩

theorem Scored.isCandidate {s : Splitter F} {node : SNode F D} {cols : List Nat} {j i feature : Nat}
    {cut : D} {l r : NodeInfo F} {m : MissingInfo F} {score : F}
    (h : Scored s node cols j i feature cut l r m score) (hs : (score ≤ᶠ 0) = false) :
    ∃ info, IsCandidate s node cols j i info ∧
      info.splitGain = (if isNaN score then 0 else score) := by
  obtain ⟨h1, ⟨mb, bs, bin, h2, h3, rfl, he⟩, hsc⟩ := h
  rw [splitScore_eq] at hsc
  subst hsc
  exact ⟨_, ⟨feature, mb, bs, bin, h1, h2, h3, evalCandidate_some.2 ⟨l, r, m, _, he, rfl, hs, rfl⟩⟩, rfl⟩

section order
variable [Fl.OrdLaws F]

/-- C50.  When a node is split, the chosen candidate has a positive score, no candidate of the node has
a larger one, and candidates that come earlier (smaller position of the feature, then smaller bin) do
not reach it. -/
theorem C50_best (s : Splitter F) (node : SNode F D) (cols : List Nat) (b : SplitInfo F D)
    (h : bestSplit s node cols = .ok (some b)) :
    ∃ j i l r score, Scored s node cols j i b.splitFeature b.splitValue l r b.missingNode score ∧
      b.splitBin = (i + 1) % 65536 ∧ b.leftNode.weight = l.weight ∧ b.rightNode.weight = r.weight ∧
      b.leftNode.cover = l.cover ∧ b.rightNode.cover = r.cover ∧
      ((0 : F) <ᶠ score) = true ∧
      ∀ j' i' feature' cut' l' r' m' score',
        Scored s node cols j' i' feature' cut' l' r' m' score' →
        (score <ᶠ score') = false ∧
        (j' < j ∨ j' = j ∧ i' < i → (score ≤ᶠ score') = false) := by
  obtain ⟨hpos, j, i, hc, hall⟩ := bestSplit_best h
  obtain ⟨f, cut, l, r, m, score, h1, h2, h3, rfl, rfl, h4, rfl, h5, h6, _, _, _, _, h7, h8⟩ :=
    isCandidate_iff hc
  have hnum : isNaN score = false := by
    cases hn : isNaN score
    · rfl
    · rw [h3, hn, if_pos rfl] at hpos
      rw [Fl.OrdLaws.lt_irrefl] at hpos; cases hpos
  have hg : b.splitGain = score := by rw [h3, hnum]; rfl
  rw [hg] at hpos
  refine ⟨j, i, l, r, score, h1, h4, h5, h6, h7, h8, hpos, ?_⟩
  intro j' i' f' cut' l' r' m' score' hs'
  by_cases hle : (score' ≤ᶠ 0) = true
  · have hn' := (Fl.OrdLaws.le_num _ _ hle).1
    have h0 := (Fl.OrdLaws.le_iff _ _ hn' Fl.OrdLaws.zero_num).1 hle
    have hlt : (score' <ᶠ score) = true := Fl.lt_of_not_of_lt hn' h0 hpos
    refine ⟨Fl.lt_asymm hlt, fun _ => ?_⟩
    cases hx : (score ≤ᶠ score')
    · rfl
    · rw [(Fl.OrdLaws.le_iff _ _ hnum hn').1 hx] at hlt; cases hlt
  · obtain ⟨info', hc', hg'⟩ := hs'.isCandidate (by simpa using hle)
    obtain ⟨a1, a2⟩ := hall j' i' info' hc'
    cases hn' : isNaN score' with
    | true =>
      refine ⟨?_, fun _ => ?_⟩
      · cases hx : (score <ᶠ score')
        · rfl
        · have := (Fl.OrdLaws.lt_num _ _ hx).2
          rw [hn'] at this; cases this
      · cases hx : (score ≤ᶠ score')
        · rfl
        · have := (Fl.OrdLaws.le_num _ _ hx).2
          rw [hn'] at this; cases this
    | false =>
      rw [hn'] at hg'
      simp only [Bool.false_eq_true, if_false] at hg'
      rw [hg, hg'] at a1 a2
      refine ⟨a1, fun hp => ?_⟩
      have hlt := a2 hp
      cases hx : (score ≤ᶠ score')
      · rfl
      · rw [(Fl.OrdLaws.le_iff _ _ hnum hn').1 hx] at hlt; cases hlt

/-- C50.  When the search finds no split, no candidate has a positive score; so the node stays a
leaf only then. -/
theorem C50_none (s : Splitter F) (node : SNode F D) (cols : List Nat)
    (h : bestSplit s node cols = .ok none) (j i feature : Nat) (cut : D) (l r : NodeInfo F)
    (m : MissingInfo F) (score : F) (hs : Scored s node cols j i feature cut l r m score) :
    ((0 : F) <ᶠ score) = false := by
  cases hx : ((0 : F) <ᶠ score)
  · rfl
  · have hn := (Fl.OrdLaws.lt_num _ _ hx).2
    have hle : (score ≤ᶠ 0) = false := by
      cases hy : (score ≤ᶠ 0)
      · rfl
      · rw [(Fl.OrdLaws.le_iff _ _ hn Fl.OrdLaws.zero_num).1 hy] at hx; cases hx
    obtain ⟨info, hc, hg⟩ := hs.isCandidate hle
    have := bestSplit_best h j i info hc
    rw [hg, hn] at this
    simp only [Bool.false_eq_true, if_false] at this
    rw [hx] at this; cases this

end order

/-! ### C08 -/

/-- Laws of subtraction needed for C08; they hold in IEEE-754 arithmetic. -/
class Fl.GainLaws (F : Type) [Fl F] extends Fl.OrdLaws F where
  sub_zero : ∀ a : F, a - 0 = a
  lt_of_sub_pos : ∀ a b : F, ((0 : F) <ᶠ (a - b)) = true → (b <ᶠ a) = true
  ninf_neg : ((0 : F) <ᶠ ninf) = false

instance {K : Type} [Field K] [LinearOrder K] [IsStrictOrderedRing K] (m : Fmt K) [m.Exact] :
    Fl.GainLaws (FX m) where
  sub_zero a := by cases a <;> first | rfl | (rw [FX.zero_def]; simp)
  lt_of_sub_pos a b h := by
    cases a <;> cases b <;>
      first
        | rfl
        | (simp only [FX.zero_def, FX.fin_sub, FX.lt_fin, decide_eq_true_eq, sub_pos] at h ⊢; exact h)
  ninf_neg := rfl

/-- C08.  Every split of a fitted tree stores a gain strictly above `gamma`. -/
theorem C08_gamma [Fl.GainLaws F] (env : Env R F D) (b b' : Booster F D) (data : Matrix D)
    (y w : List D) (ev : Option (List (EvalSet D))) (h : b.fit env data y w ev = .ok (b', .ok ()))
    (t : Tree F D) (ht : t ∈ b'.trees) (n : Node F D) (hn : n ∈ t.nodes) (hl : n.isLeaf = false) :
    (b.gamma <ᶠ n.splitGain) = true := by
  obtain ⟨_, _, hts⟩ := Booster.fit_trees h
  obtain ⟨cfg, rows, hF⟩ := hts t ht
  obtain ⟨g, hs, sort, hists, nodes, gs, nl, _, _, hc, hcert, _⟩ := Tree.fit_cert hF.fit
  obtain ⟨i, hi⟩ := List.mem_iff_getElem?.1 hn
  obtain ⟨g, info, k, kids, hI⟩ := hcert.internal (cleanUpSplits_shape hc) hi hl
  obtain ⟨hpos, j, i', hcand, _⟩ := bestSplit_best hI.isSplit.best
  obtain ⟨f, m, bs, bin, h1, h2, h3, h4⟩ := hcand
  obtain ⟨l, r, mi, x, he, hg, hp, hinfo⟩ := evalCandidate_some.1 h4
  have hx : ((0 : F) <ᶠ x) = true := by
    rw [hinfo] at hpos
    simp only at hpos
    split at hpos
    · rw [Fl.OrdLaws.lt_irrefl] at hpos; cases hpos
    · exact hpos
  have hstored : n.splitGain = g.sn.getSplitGain l r mi 0 := by rw [hI.gain, hinfo]; rfl
  have hgain : x = g.sn.getSplitGain l r mi cfg.splitter.params.gamma := by
    rw [hg] at hx ⊢
    unfold cullGain at hx ⊢
    split at hx
    · rfl
    · rfl
    · split at hx
      · rw [Fl.GainLaws.ninf_neg] at hx; cases hx
      · rename_i hle; rw [if_neg hle]
    · split at hx
      · rw [Fl.GainLaws.ninf_neg] at hx; cases hx
      · rename_i hle; rw [if_neg hle]
  have hgam : cfg.splitter.params.gamma = b.gamma := by rw [hF.splitter, splitter_params]
  rw [hgain, hgam] at hx
  rw [hstored]
  unfold SNode.getSplitGain at hx ⊢
  simp only at hx ⊢
  rw [Fl.GainLaws.sub_zero]
  exact Fl.GainLaws.lt_of_sub_pos _ _ hx

/-- C08.  The stored gain is the scores of the children minus the score of the node. -/
theorem C08_gain [Fl.GainLaws F] (env : Env R F D) (b b' : Booster F D) (data : Matrix D)
    (y w : List D) (ev : Option (List (EvalSet D))) (h : b.fit env data y w ev = .ok (b', .ok ()))
    (t : Tree F D) (ht : t ∈ b'.trees) (n : Node F D) (hn : n ∈ t.nodes) (hl : n.isLeaf = false) :
    ∃ (sn : SNode F D) (info : SplitInfo F D) (cols : List Nat),
      bestSplit b.splitter sn cols = .ok (some info) ∧
      n.splitGain = info.leftNode.gain + info.rightNode.gain + (match info.missingNode with
        | .branch i => i.gain
        | .leaf i => i.gain
        | _ => 0) - sn.gainValue := by
  obtain ⟨_, _, hts⟩ := Booster.fit_trees h
  obtain ⟨cfg, rows, hF⟩ := hts t ht
  obtain ⟨g, hs, sort, hists, nodes, gs, nl, _, _, hc, hcert, _⟩ := Tree.fit_cert hF.fit
  obtain ⟨i, hi⟩ := List.mem_iff_getElem?.1 hn
  obtain ⟨g, info, k, kids, hI⟩ := hcert.internal (cleanUpSplits_shape hc) hi hl
  refine ⟨g.sn, info, _, by rw [← hF.splitter]; exact hI.isSplit.best, ?_⟩
  rw [hI.gain]
  unfold SNode.getSplitGain
  rw [Fl.GainLaws.sub_zero]
  cases info.missingNode <;> rfl

/-! ### C34 -/

theorem cleanUpSplits_branch {p : BranchParams F} (hp : p.missingNodeTreatment ≠ .averageLeafWeight)
    {nodes nodes' : List (Node F D)} (h : cleanUpSplits (.branch p) nodes = .ok nodes') :
    nodes' = nodes := by
  unfold cleanUpSplits at h
  simp only [if_neg hp] at h
  injection h with h
  exact h.symm

/-- C34.  With AssignToParent the dedicated missing child of every split of a fitted tree stores
exactly the value of its parent. -/
theorem C34_parent_value (env : Env R F D) (b b' : Booster F D) (data : Matrix D) (y w : List D)
    (ev : Option (List (EvalSet D))) (h : b.fit env data y w ev = .ok (b', .ok ()))
    (hb : b.createMissingBranch = true) (hm : b.missingNodeTreatment = .assignToParent)
    (t : Tree F D) (ht : t ∈ b'.trees) (n : Node F D) (hn : n ∈ t.nodes) (hl : n.isLeaf = false) :
    n.missingNode ≠ n.leftChild ∧ n.missingNode ≠ n.rightChild ∧
      ∃ m, t.nodes[n.missingNode]? = some m ∧ m.weightValue = n.weightValue := by
  obtain ⟨_, _, hts⟩ := Booster.fit_trees h
  obtain ⟨cfg, rows, hF⟩ := hts t ht
  have hp := hF.splitter.trans (splitter_branch hb)
  obtain ⟨g, hs, sort, hists, nodes, gs, nl, _, _, hc, hcert, _⟩ := Tree.fit_cert hF.fit
  have hnodes : t.nodes = nodes := by
    rw [hp] at hc
    exact cleanUpSplits_branch (by show b.missingNodeTreatment ≠ _; rw [hm]; decide) hc
  rw [hnodes] at hn ⊢
  obtain ⟨i, hi⟩ := List.mem_iff_getElem?.1 hn
  obtain ⟨g, info, k, kids, hI⟩ := hcert.internal (.refl _) hi hl
  obtain ⟨gm, isLeaf, minfo, feature, rows', j, k', e1, e2, e3, e4, _, e5, e6, _, e7, e8⟩ :=
    hI.missingSide hp
  obtain ⟨nm, d1, d2, _⟩ := hcert.nodeOf e4
  obtain ⟨n', d3, d4, _⟩ := hcert.nodeOf hI.ghost
  rw [hi] at d3; cases d3
  refine ⟨e7, e8, nm, d1, ?_⟩
  have hw := e6.weight
  rw [if_pos (show b.branchParams.missingNodeTreatment = .assignToParent from hm)] at hw
  rw [d2.weight, d4.weight, hw]

theorem contribWalk_keep {nodes : List (Node F D)} {row : List D} {missing : D} {f : Nat} {v : D}
    (hv : idx row f = .ok v) (hmiss : IsMissing missing v) (h00 : (0 : D) + 0 = 0)
    {delta : Nat → Node F D → Nat → Res (Option D)}
    (hd : ∀ (i : Nat) (n : Node F D), nodes[i]? = some n → n.isLeaf = false → n.splitFeature = f →
      ∀ d, delta i n n.missingNode = .ok d → d = some 0 ∨ d = none) :
    ∀ (fuel i : Nat) (cs cs' : List D) (l : Node F D), cs[f]? = some 0 →
      contribWalk nodes row missing delta fuel i cs = .ok (cs', l) →
      cs'[f]? = some 0 ∧ cs'.length = cs.length := by
  intro fuel
  induction fuel with
  | zero => intro i cs cs' l _ h; cases h
  | succ fuel ih =>
    intro i cs cs' l hcs h
    rw [contribWalk, Res.bind_eq_ok] at h
    obtain ⟨n, hn, h⟩ := h
    rw [idx_eq_ok] at hn
    split at h
    · cases h; exact ⟨hcs, rfl⟩
    · rename_i hl
      simp only [Res.bind_eq_ok] at h
      obtain ⟨x, hx, c, hc, d, hdd, h⟩ := h
      have key : ∃ cs1 : List D, (cs1[f]? = some 0 ∧ cs1.length = cs.length) ∧
          contribWalk nodes row missing delta fuel c cs1 = .ok (cs', l) := by
        cases d with
        | none => exact ⟨cs, ⟨hcs, rfl⟩, h⟩
        | some d =>
          simp only [addAt, Res.bind_eq_ok, idx_eq_ok, Res.ok.injEq] at h
          obtain ⟨_, ⟨a, ha, rfl⟩, h⟩ := h
          refine ⟨_, ⟨?_, by simp⟩, h⟩
          rw [List.getElem?_set]
          by_cases hf : n.splitFeature = f
          · rw [hf] at hx ha
            rw [hv] at hx; cases hx
            rw [getChildIdx_eq] at hc
            have hread : Readable missing v := by
              unfold IsMissing at hmiss
              unfold Readable
              cases hnm : isNaN missing with
              | true => exact .inl rfl
              | false =>
                right
                by_contra hr
                rw [if_neg (by simp [Readable, hnm]; simpa using hr)] at hc
                cases hc
            rw [if_pos hread] at hc
            injection hc with hc
            have : c = n.missingNode := by
              rw [← hc]; unfold Node.childFor; rw [if_pos hmiss]
            subst this
            rcases hd i n hn (by simpa using hl) hf _ hdd with h0 | h0
            · injection h0 with h0
              subst h0
              rw [hcs] at ha; cases ha
              have hlt := (List.getElem?_eq_some_iff.1 hcs).1
              rw [if_pos hf, if_pos (by rw [hf]; exact hlt), h00]
            · cases h0
          · rw [if_neg hf]; exact hcs
      obtain ⟨cs1, key, h⟩ := key
      obtain ⟨a, b⟩ := ih c cs1 cs' l key.1 h
      exact ⟨a, b.trans key.2⟩

theorem flatten_getElem? {α : Type} {k : Nat} {ls : List (List α)} (h : ∀ l ∈ ls, l.length = k)
    {i j : Nat} (hj : j < k) : ls.flatten[i * k + j]? = ls[i]?.bind fun l => l[j]? := by
  induction ls generalizing i with
  | nil => simp
  | cons l ls ih =>
    have hl := h l (by simp)
    cases i with
    | zero =>
      simp only [List.flatten_cons, Nat.zero_mul, Nat.zero_add, List.getElem?_cons_zero,
        Option.bind_some]
      rw [List.getElem?_append_left (by omega)]
    | succ i =>
      rw [List.flatten_cons, List.getElem?_cons_succ, ← ih fun l hl => h l (by simp [hl]),
        List.getElem?_append_right (by rw [hl, Nat.succ_mul]; omega)]
      congr 1
      rw [hl, Nat.succ_mul]; omega

/-- C34.  So with method Weight a feature that is missing in a row contributes exactly 0 to it.  The two
hypotheses on the numbers (`0 + 0 = 0`, and `x - x = 0` for the node values) hold in IEEE arithmetic
whenever the node values are finite. -/
theorem C34_no_contribution (env : Env R F D) (b b' : Booster F D) (data : Matrix D) (y w : List D)
    (ev : Option (List (EvalSet D))) (h : b.fit env data y w ev = .ok (b', .ok ()))
    (hb : b.createMissingBranch = true) (hm : b.missingNodeTreatment = .assignToParent)
    (h00 : (0 : D) + 0 = 0)
    (hsub : ∀ t ∈ b'.trees, ∀ n ∈ t.nodes, (up n.weightValue : D) - up n.weightValue = 0)
    (X : Matrix D) (hX : X.Shaped) (out : List D) (hout : b'.predictContributions X .weight = .ok out)
    (i f : Nat) (v : D) (hi : i < X.rows) (hf : f < X.cols) (hv : X.entry i f = some v)
    (hmiss : IsMissing b'.missing v) : out[i * (X.cols + 1) + f]? = some 0 := by
  simp only [Booster.predictContributions, Booster.contribRows, Res.bind_eq_ok, Res.ok.injEq] at hout
  obtain ⟨rows, ⟨ts, hts, hrows⟩, rfl⟩ := hout
  rw [Res.mapM'_eq_ok] at hrows
  have htsub : ∀ t ∈ ts, t ∈ b'.trees := by
    intro t ht
    unfold Booster.predictionTrees at hts
    simp only at hts
    split at hts
    · cases hts; exact List.mem_of_mem_take ht
    · cases hts
  -- one tree keeps the entry
  have hstep : ∀ (r : List D), r.length = X.cols → (∀ g v, r[g]? = some v → X.entry i g = some v) →
      r[f]? = some v → ∀ t ∈ ts, ∀ cs cs', cs.length = X.cols + 1 → cs[f]? = some 0 →
      t.contribWeight r cs b'.missing = .ok cs' → cs'.length = X.cols + 1 ∧ cs'[f]? = some 0 := by
    intro r hr _ hrf t ht cs cs' hcl hc0 hcw
    simp only [Tree.contribWeight, Res.bind_eq_ok, addBias, addAt, idx_eq_ok, Res.ok.injEq,
      Prod.exists] at hcw
    obtain ⟨root, _, cs1, ⟨x, hx, rfl⟩, cs2, l, hw, rfl⟩ := hcw
    have h1 : (cs.set (cs.length - 1) (x + up root.weightValue))[f]? = some 0 := by
      rw [List.getElem?_set, if_neg (by omega)]; exact hc0
    obtain ⟨a1, a2⟩ := contribWalk_keep (idx_eq_ok.2 hrf) hmiss h00 (by
      intro i n hn hl _ d hd
      left
      obtain ⟨_, _, m, hm1, hm2⟩ := C34_parent_value env b b' data y w ev h hb hm t (htsub t ht) n
        (List.mem_of_getElem? hn) hl
      simp only [deltaWeight, idx_eq_ok.2 hm1, Res.ok_bind, Res.ok.injEq] at hd
      rw [← hd, hm2, hsub t (htsub t ht) n (List.mem_of_getElem? hn)]) _ _ _ _ _ h1 hw
    exact ⟨by rw [a2]; simpa using hcl, a1⟩
  have hfold : ∀ (r : List D), r.length = X.cols → (∀ g v, r[g]? = some v → X.entry i g = some v) →
      r[f]? = some v → ∀ (ts' : List (Tree F D)), (∀ t ∈ ts', t ∈ ts) → ∀ cs cs',
      cs.length = X.cols + 1 → cs[f]? = some 0 →
      Res.foldM' (fun c t => rowPredFn .weight t r c b'.missing) cs ts' = .ok cs' →
      cs'.length = X.cols + 1 ∧ cs'[f]? = some 0 := by
    intro r hr hre hrf ts'
    induction ts' with
    | nil => intro _ cs cs' h1 h2 h3; cases h3; exact ⟨h1, h2⟩
    | cons t ts' ih =>
      intro hsub' cs cs' h1 h2 h3
      rw [Res.foldM'_cons, Res.bind_eq_ok] at h3
      obtain ⟨c1, h4, h5⟩ := h3
      obtain ⟨g1, g2⟩ := hstep r hr hre hrf t (hsub' t (by simp)) cs c1 h1 h2 h4
      exact ih (fun t ht => hsub' t (by simp [ht])) c1 cs' g1 g2 h5
  -- lengths of all rows
  have hlen : ∀ row ∈ rows, row.length = X.cols + 1 := by
    intro row hrow
    obtain ⟨k, hk⟩ := List.mem_iff_getElem?.1 hrow
    obtain ⟨hklt, hk'⟩ := List.getElem?_eq_some_iff.1 hk
    have h2 := (List.forall₂_iff_get.1 hrows).2 k (by
      rw [(List.forall₂_iff_get.1 hrows).1]; exact hklt) hklt
    simp only [List.get_eq_getElem] at h2
    rw [hk'] at h2
    simp only [contribsRowAlone, Res.bind_eq_ok] at h2
    obtain ⟨r, hr, h2⟩ := h2
    have hgen : ∀ (ts' : List (Tree F D)) (cs cs' : List D),
        Res.foldM' (fun c t => rowPredFn .weight t r c b'.missing) cs ts' = .ok cs' →
        cs'.length = cs.length := by
      intro ts'
      induction ts' with
      | nil => intro cs cs' h; cases h; rfl
      | cons t ts' ih =>
        intro cs cs' h
        rw [Res.foldM'_cons, Res.bind_eq_ok] at h
        obtain ⟨c1, h4, h5⟩ := h
        rw [ih c1 cs' h5]
        simp only [rowPredFn, Tree.contribWeight, Res.bind_eq_ok, addBias, addAt, idx_eq_ok,
          Res.ok.injEq, Prod.exists] at h4
        obtain ⟨root, _, cs1, ⟨x, hx, rfl⟩, cs2, l, hw, rfl⟩ := h4
        rw [contribWalk_length _ _ _ _ _ hw]; simp
    rw [hgen _ _ _ h2]; simp [initContribs]
  rw [flatten_getElem? hlen (by omega)]
  have hilt : i < rows.length := by
    rw [← hrows.length_eq]; simpa [Matrix.index] using hi
  rw [List.getElem?_eq_getElem hilt, Option.bind_some]
  have h2 := (List.forall₂_iff_get.1 hrows).2 i (by simpa [Matrix.index] using hi) hilt
  simp only [List.get_eq_getElem, contribsRowAlone, Res.bind_eq_ok, Matrix.index,
    List.getElem_range] at h2
  obtain ⟨r, hr, h2⟩ := h2
  obtain ⟨r', hr', hl', hrow'⟩ := getRow_entry hX hi
  rw [hr] at hr'; cases hr'
  have he : ∀ g, r[g]? = X.entry i g ∨ True := fun _ => .inr trivial
  have hrf : r[f]? = some v := by
    have := hrow' f
    rw [hv] at this
    exact idx_eq_ok.1 this
  refine (hfold r hl' ?_ hrf ts (fun _ h => h) _ _ (by simp [initContribs]) ?_ h2).2
  · intro g x hx
    have := hrow' g
    rw [idx, hx] at this
    cases hxe : X.entry i g with
    | none => rw [hxe] at this; cases this
    | some z => rw [hxe] at this; cases this; rfl
  · rw [initContribs, List.getElem?_append_left (by simpa using hf), List.getElem?_replicate,
      if_pos hf]
where
  contribWalk_length {nodes : List (Node F D)} {row : List D} {missing : D}
      {delta : Nat → Node F D → Nat → Res (Option D)} : ∀ (fuel i : Nat) (cs cs' : List D)
      (l : Node F D), contribWalk nodes row missing delta fuel i cs = .ok (cs', l) →
      cs'.length = cs.length := by
    intro fuel
    induction fuel with
    | zero => intro i cs cs' l h; cases h
    | succ fuel ih =>
      intro i cs cs' l h
      rw [contribWalk, Res.bind_eq_ok] at h
      obtain ⟨n, hn, h⟩ := h
      split at h
      · cases h; rfl
      · simp only [Res.bind_eq_ok] at h
        obtain ⟨x, hx, c, hc, d, hdd, h⟩ := h
        cases d with
        | none => exact ih _ _ _ _ h
        | some d =>
          simp only [addAt, Res.bind_eq_ok, idx_eq_ok, Res.ok.injEq] at h
          obtain ⟨_, ⟨a, ha, rfl⟩, h⟩ := h
          rw [ih _ _ _ _ h]
          simp

/-! ### C50, further -/

/-- Every split of a fitted tree was found by the search `C50_best` is about: the node stores the feature
and the value of the candidate, and the search ran on a record with the node's value and cover and the
columns of the tree. -/
theorem C50_fitted (env : Env R F D) (b b' : Booster F D) (data : Matrix D) (y w : List D)
    (ev : Option (List (EvalSet D))) (h : b.fit env data y w ev = .ok (b', .ok ()))
    (t : Tree F D) (ht : t ∈ b'.trees) :
    ∃ cols r1 r2, sampleColumns env.rng b.colsampleBytree r1 data.cols = (cols, r2) ∧
    ∀ n ∈ t.nodes, n.isLeaf = false → ∃ sn info, bestSplit b.splitter sn cols = .ok (some info) ∧
      n.splitFeature = info.splitFeature ∧ n.splitValue = info.splitValue ∧
      n.hessianSum = sn.hessianSum := by
  obtain ⟨_, _, hts⟩ := Booster.fit_trees h
  obtain ⟨cfg, rows, hF⟩ := hts t ht
  obtain ⟨r1, r2, hcol⟩ := hF.columns
  refine ⟨cfg.train.colIndex, r1, r2, hcol, fun n hn hl => ?_⟩
  obtain ⟨g, hs, sort, hists, nodes, gs, nl, _, _, hc, hcert, _⟩ := Tree.fit_cert hF.fit
  obtain ⟨i, hi⟩ := List.mem_iff_getElem?.1 hn
  have hsh := cleanUpSplits_shape hc
  obtain ⟨g, info, k, kids, hI⟩ := hcert.internal hsh hi hl
  obtain ⟨n', d3, d4, _⟩ := hcert.nodeOf hI.ghost
  obtain ⟨n0, w, hn0, rfl⟩ := hsh.inv hi
  rw [hn0] at d3; cases d3
  exact ⟨g.sn, info, by rw [← hF.splitter]; exact hI.isSplit.best, hI.feature, hI.value, d4.cover⟩

section exact
variable {K : Type} [Field K] [LinearOrder K] [IsStrictOrderedRing K] {m32 m64 : Fmt K} [m32.Exact]
  [m64.Exact]

/-- C50.  The binary splitter sends the missing rows to the side that gives the larger total, the
right side on ties.  `gl`, `gr` are the scores of both sides without the missing rows, `totl`, `totr`
the totals with the missing rows on the left or on the right, minus infinity where the constraint would
be violated. -/
theorem C50_missing_side (p : SplitParams (FX m32)) (a : SplitArgs (FX m32)) (l r : NodeInfo (FX m32))
    (m : MissingInfo (FX m32)) (h : imputerEvaluateSplit p a = some (l, r, m))
    (hm : a.mg ≠ FX.fin 0 ∨ a.mh ≠ FX.fin 0) (gl gr : K)
    (wl wr wml wmr gml gmr totl totr : FX m32)
    (hwl : wl = p.cw a a.lg a.lh) (hwr : wr = p.cw a a.rg a.rh)
    (hwml : wml = p.cw a (a.lg + a.mg) (a.lh + a.mh)) (hwmr : wmr = p.cw a (a.rg + a.mg) (a.rh + a.mh))
    (hgl : gainGivenWeight p.l2 a.lg a.lh wl = FX.fin gl)
    (hgr : gainGivenWeight p.l2 a.rg a.rh wr = FX.fin gr)
    (hgml : gml = gainGivenWeight p.l2 (a.lg + a.mg) (a.lh + a.mh) wml)
    (hgmr : gmr = gainGivenWeight p.l2 (a.rg + a.mg) (a.rh + a.mh) wmr)
    (htl : totl = (if (a.constraint = some .positive ∧ (wr ≤ᶠ wml) = true) ∨
      (a.constraint = some .negative ∧ (wml ≤ᶠ wr) = true) then FX.ninf else gml) + FX.fin gr)
    (htr : totr = FX.fin gl + (if (a.constraint = some .positive ∧ (wmr ≤ᶠ wl) = true) ∨
      (a.constraint = some .negative ∧ (wl ≤ᶠ wmr) = true) then FX.ninf else gmr)) :
    (m = .left ∧ l.weight = wml ∧ r.weight = wr ∧ l.gain + r.gain = totl ∧ (totr <ᶠ totl) = true) ∨
    (m = .right ∧ l.weight = wl ∧ r.weight = wmr ∧ l.gain + r.gain = totr ∧ (totr <ᶠ totl) = false) := by
  have hcull : ∀ g w1 w2 : FX m32, (if (a.constraint = some .positive ∧ (w2 ≤ᶠ w1) = true) ∨
      (a.constraint = some .negative ∧ (w1 ≤ᶠ w2) = true) then FX.ninf else g) =
      cullGain g w1 w2 a.constraint := by
    intro g w1 w2
    cases hc : a.constraint with
    | none => simp [cullGain]
    | some c => cases c <;> simp [cullGain]
  rw [hcull] at htl htr
  have hcmp : ((cullGain gmr wl wmr a.constraint - FX.fin gr) <ᶠ
      (cullGain gml wml wr a.constraint - FX.fin gl)) = (totr <ᶠ totl) := by
    rw [htl, htr]
    cases cullGain gmr wl wmr a.constraint <;> cases cullGain gml wml wr a.constraint <;>
      first
        | rfl
        | (simp only [FX.fin_sub, FX.fin_add, FX.lt_fin]
           apply decide_eq_decide.2
           constructor <;> intro h <;> linarith)
        | (simp only [FX.fin_sub, FX.fin_add]
           rfl)
  have hm' : (!(a.mg =ᶠ 0) || !(a.mh =ᶠ 0)) = true := by
    rw [Bool.or_eq_true, Bool.not_eq_true', Bool.not_eq_true']
    have hz : ∀ x : FX m32, x ≠ FX.fin 0 → (x =ᶠ 0) = false := by
      intro x hx
      cases x with
      | fin v => rw [FX.zero_def, FX.feq_fin]; exact decide_eq_false fun hv => hx (by rw [hv])
      | _ => rfl
    exact hm.imp (hz _) (hz _)
  rw [hwl] at hgl hcmp htr
  rw [hwr] at hgr hcmp htl
  rw [hwml] at hgml hcmp htl
  rw [hwmr] at hgmr hcmp htr
  rw [hgml] at hcmp htl
  rw [hgmr] at hcmp htr
  rw [← hgl, ← hgr] at hcmp
  unfold imputerEvaluateSplit at h
  split at h
  · cases h
  · simp only [hcmp] at h
    split at h
    · cases h
    · cases hlt : (totr <ᶠ totl)
      · right
        simp only [hlt, Bool.false_eq_true, if_false] at h
        split at h
        · cases h
        · simp only [Option.some.injEq, Prod.mk.injEq] at h
          obtain ⟨rfl, rfl, rfl⟩ := h
          exact ⟨rfl, hwl.symm, hwmr.symm, by rw [htr, ← hgl]; rfl, rfl⟩
      · left
        simp only [hlt, if_true] at h
        split at h
        · cases h
        · simp only [Option.some.injEq, Prod.mk.injEq] at h
          obtain ⟨rfl, rfl, rfl⟩ := h
          exact ⟨rfl, hwml.symm, hwr.symm, by rw [htl, ← hgr]; rfl, rfl⟩

/-! ### C36 -/

omit [IsStrictOrderedRing K] [m64.Exact] in
theorem FX.mul_eq_fin {a b : FX m32} {z : K} (h : a * b = FX.fin z) :
    ∃ x y, a = FX.fin x ∧ b = FX.fin y ∧ z = x * y := by
  have hs : ∀ x : K, (FX.sinf x : FX m32) ≠ FX.fin z := by
    intro x hx
    unfold FX.sinf at hx
    split at hx
    · cases hx
    · split at hx <;> cases hx
  cases a <;> cases b <;>
    first
      | (refine ⟨_, _, rfl, rfl, ?_⟩
         rw [FX.fin_mul] at h
         injection h with h
         exact h.symm)
      | exact absurd h (hs _)
      | cases h

/-- C36.  With AverageNodeWeight the missing child of every split stores the average of the values of
the left and right child, weighted by their covers (all in exact arithmetic; the values and covers
finite, the covers not summing to 0). -/
theorem C36_average (env : Env R (FX m32) (FX m64)) (b b' : Booster (FX m32) (FX m64))
    (data : Matrix (FX m64)) (y w : List (FX m64)) (ev : Option (List (EvalSet (FX m64))))
    (h : b.fit env data y w ev = .ok (b', .ok ())) (hb : b.createMissingBranch = true)
    (hm : b.missingNodeTreatment = .averageNodeWeight) (t : Tree (FX m32) (FX m64)) (ht : t ∈ b'.trees)
    (n : Node (FX m32) (FX m64)) (hn : n ∈ t.nodes) (hl : n.isLeaf = false)
    (l r : Node (FX m32) (FX m64)) (hll : t.nodes[n.leftChild]? = some l)
    (hrr : t.nodes[n.rightChild]? = some r) (lv rv lc rc : K) (h1 : l.weightValue = FX.fin lv)
    (h2 : r.weightValue = FX.fin rv) (h3 : l.hessianSum = FX.fin lc) (h4 : r.hessianSum = FX.fin rc)
    (h0 : lc + rc ≠ 0) :
    n.missingNode ≠ n.leftChild ∧ n.missingNode ≠ n.rightChild ∧
      ∃ m, t.nodes[n.missingNode]? = some m ∧
        m.weightValue = FX.fin ((lv * lc + rv * rc) / (lc + rc)) := by
  obtain ⟨_, _, hts⟩ := Booster.fit_trees h
  obtain ⟨cfg, rows, hF⟩ := hts t ht
  have hp := hF.splitter.trans (splitter_branch hb)
  obtain ⟨g, hs, sort, hists, nodes, gs, nl, _, _, hc, hcert, _⟩ := Tree.fit_cert hF.fit
  have hnodes : t.nodes = nodes := by
    rw [hp] at hc
    exact cleanUpSplits_branch (by show b.missingNodeTreatment ≠ _; rw [hm]; decide) hc
  rw [hnodes] at hn hll hrr ⊢
  obtain ⟨i, hi⟩ := List.mem_iff_getElem?.1 hn
  obtain ⟨g, info, k, kids, hI⟩ := hcert.internal (.refl _) hi hl
  obtain ⟨gm, isLeaf, minfo, feature, rows', j, k', e1, e2, e3, e4, _, e5, e6, _, e7, e8⟩ :=
    hI.missingSide hp
  obtain ⟨nm, d1, d2, _⟩ := hcert.nodeOf e4
  obtain ⟨gl, gr, f1, f2, f3, f4, _⟩ := hI.sides
  obtain ⟨nl', q1, q2, _⟩ := hcert.nodeOf f1
  obtain ⟨nr', q3, q4, _⟩ := hcert.nodeOf f2
  rw [hll] at q1; cases q1
  rw [hrr] at q3; cases q3
  refine ⟨e7, e8, nm, d1, ?_⟩
  have hw := e6.weight
  rw [if_neg (show b.branchParams.missingNodeTreatment ≠ .assignToParent by
    show b.missingNodeTreatment ≠ _; rw [hm]; decide)] at hw
  obtain ⟨j, i', hcand⟩ := bestSplit_mem hI.isSplit.best
  obtain ⟨f, mb, bs, bin, c1, c2, c3, c4⟩ := hcand
  obtain ⟨li, ri, mi, x, he, _, _, hinfo⟩ := evalCandidate_some.1 c4
  rw [hp] at he
  obtain ⟨lw, rw', _, _, _, hli, hri, hmi'⟩ := branchEvaluateSplit_some he
  have hlw : li.weight = lw := by rw [hli]; rfl
  have hrw : ri.weight = rw' := by rw [hri]; rfl
  have hmi : minfo.weight = (rw' * ri.cover + lw * li.cover) / (ri.cover + li.cover) := by
    rw [BranchParams.missingChild, hinfo] at e1
    simp only at e1
    have hbw : ∀ a, branchMissingWeight b.branchParams a lw rw' = (rw' * a.rh + lw * a.lh) / (a.rh + a.lh) := by
      intro a
      unfold branchMissingWeight
      rw [show b.branchParams.missingNodeTreatment = .averageNodeWeight from hm]
    rw [hli, hri]
    split at hmi' <;> rw [hmi'] at e1 <;> simp only [Res.ok.injEq, Prod.mk.injEq] at e1 <;>
      (rw [← e1.2]; simp only [hbw]; rfl)
  have lw1 := q2.weight
  have rw1 := q4.weight
  have lc1 := q2.cover
  have rc1 := q4.cover
  rw [f3.weight, hinfo] at lw1
  rw [f4.weight, hinfo] at rw1
  rw [f3.cover, hinfo] at lc1
  rw [f4.cover, hinfo] at rc1
  rw [h1] at lw1
  rw [h2] at rw1
  rw [h3] at lc1
  rw [h4] at rc1
  simp only at lw1 rw1 lc1 rc1
  rw [hlw] at lw1
  rw [hrw] at rw1
  obtain ⟨a, lr, u1, u2, u3⟩ := FX.mul_eq_fin lw1.symm
  obtain ⟨a', lr', u4, u5, u6⟩ := FX.mul_eq_fin rw1.symm
  rw [u2] at u5
  injection u5 with u5
  subst u5
  rw [d2.weight, hw, hmi, ← lc1, ← rc1, u1, u4, u2]
  rw [FX.fin_mul, FX.fin_mul, FX.fin_add, FX.fin_add, FX.fin_div _ _ (by rw [add_comm]; exact h0),
    FX.fin_mul, u3, u6]
  congr 1
  rw [add_comm rc lc, div_mul_eq_mul_div]
  congr 1
  ring

end exact

/-! ### Examples -/

/-- A fit whose trees split, with a positive `gamma`. -/
example : ∃ b', { exFresh with gamma := q (1/4) }.fit exEnv exX exY exW none = .ok (b', .ok ()) ∧
    ∃ t ∈ b'.trees, ∃ n ∈ t.nodes, n.isLeaf = false := by
  have : (match { exFresh with gamma := q (1/4) }.fit exEnv exX exY exW none with
    | .ok (b', .ok ()) => b'.trees.any fun t => t.nodes.any fun n => !n.isLeaf
    | _ => false) = true := by decide +kernel
  split at this
  · rename_i b' h
    obtain ⟨t, ht, h2⟩ := List.any_eq_true.1 this
    obtain ⟨n, hn, h3⟩ := List.any_eq_true.1 h2
    exact ⟨b', h, t, ht, n, hn, by simpa using h3⟩
  · cases this

/-- A fit with AssignToParent, and a row of its training data with a missing value, whose contribution
is computed. -/
example : ∃ b' out, { exFresh with createMissingBranch := true }.fit exEnv exX exY exW none =
      .ok (b', .ok ()) ∧ (∃ t ∈ b'.trees, ∃ n ∈ t.nodes, n.isLeaf = false) ∧
    b'.predictContributions exX .weight = .ok out ∧ IsMissing b'.missing (FX.nan : Q) ∧
    exX.entry 1 1 = some FX.nan ∧ out[1 * (2 + 1) + 1]? = some 0 ∧ out[0 * (2 + 1) + 0]? ≠ some 0 := by
  have : (match { exFresh with createMissingBranch := true }.fit exEnv exX exY exW none with
    | .ok (b', .ok ()) =>
      match b'.predictContributions exX .weight with
      | .ok out => (b'.trees.any fun t => t.nodes.any fun n => !n.isLeaf) &&
          decide (isNaN b'.missing = true ∧ out[1 * (2 + 1) + 1]? = some 0 ∧
            out[0 * (2 + 1) + 0]? ≠ some 0)
      | _ => false
    | _ => false) = true := by decide +kernel
  split at this
  · rename_i b' h
    split at this
    · rename_i out h'
      rw [Bool.and_eq_true, decide_eq_true_eq] at this
      obtain ⟨h1, h2, h3, h4⟩ := this
      obtain ⟨t, ht, h5⟩ := List.any_eq_true.1 h1
      obtain ⟨n, hn, h6⟩ := List.any_eq_true.1 h5
      exact ⟨b', out, h, ⟨t, ht, n, hn, by simpa using h6⟩, h',
        by unfold IsMissing; rw [h2]; rfl, rfl, h3, h4⟩
    · cases this
  · cases this

/-- A fit with AverageNodeWeight and splits. -/
example : ∃ b', { exFresh with createMissingBranch := true, missingNodeTreatment := .averageNodeWeight
      }.fit exEnv exX exY exW none = .ok (b', .ok ()) ∧
    ∃ t ∈ b'.trees, ∃ n ∈ t.nodes, n.isLeaf = false := by
  have : (match { exFresh with createMissingBranch := true
                               missingNodeTreatment := .averageNodeWeight
      }.fit exEnv exX exY exW none with
    | .ok (b', .ok ()) => b'.trees.any fun t => t.nodes.any fun n => !n.isLeaf
    | _ => false) = true := by decide +kernel
  split at this
  · rename_i b' h
    obtain ⟨t, ht, h2⟩ := List.any_eq_true.1 this
    obtain ⟨n, hn, h3⟩ := List.any_eq_true.1 h2
    exact ⟨b', h, t, ht, n, hn, by simpa using h3⟩
  · cases this

end Verif
