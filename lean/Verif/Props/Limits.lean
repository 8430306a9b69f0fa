import Verif.Proofs.Cut
import Verif.Props.Policies

/-!
# C108: limits only cut trees

All theorems hold for any arithmetic and any data.
-/

namespace Verif

open scoped Verif

set_option linter.unusedSectionVars false

section
variable {R F D : Type} [Fl F] [Fl D] [FlCast F D]

/-- Two splits ask the same question. -/
structure SameQuestion (n n' : Node F D) : Prop where
  feature : n'.splitFeature = n.splitFeature
  value : n'.splitValue = n.splitValue
  gain : n'.splitGain = n.splitGain

/-- The values of inner nodes are replaced by averages after the tree is grown. -/
def Splitter.Averages (s : Splitter F) : Prop :=
  ∃ p, s = .branch p ∧ p.missingNodeTreatment = .averageLeafWeight

theorem cleanUpSplits_of_not {s : Splitter F} (hs : ¬ s.Averages) {N M : List (Node F D)}
    (h : cleanUpSplits s N = .ok M) : M = N := by
  unfold cleanUpSplits at h
  split at h
  · cases h; rfl
  · rename_i p
    split at h
    · rename_i hp; exact absurd ⟨p, rfl, hp⟩ hs
    · cases h; rfl

/-- Two fits of trees from the same data. -/
theorem Tree.fit_alike {c c' : GrowCfg F D} (hs : c'.splitter = c.splitter) (ht : c'.train = c.train)
    {sm : SampleMethod} {index : List Nat} {t t' : Tree F D} (h : Tree.fit c sm index = .ok t)
    (h' : Tree.fit c' sm index = .ok t') :
    ∃ N gs N' gs', Cert c (fun _ => c.maxLeaves ≤ t.nodes.countP Node.isLeaf) gs N ∧
      cleanUpSplits c.splitter N = .ok t.nodes ∧
      Cert c' (fun _ => c'.maxLeaves ≤ t'.nodes.countP Node.isLeaf) gs' N' ∧
      cleanUpSplits c'.splitter N' = .ok t'.nodes ∧ Alike gs gs' 0 0 := by
  obtain ⟨g, hs1, sort, hists, N, gs, nl, a1, a2, a3, a4, ⟨g0, a5, a6, a7⟩, a8, _⟩ := Tree.fit_cert h
  obtain ⟨g', hs', sort', hists', N', gs', nl', b1, b2, b3, b4, ⟨g0', b5, b6, b7⟩, b8, _⟩ :=
    Tree.fit_cert h'
  refine ⟨N, gs, N', gs', ?_, a3, ?_, b3, g0, g0', a5, b5, ?_, by rw [a7, b7]⟩
  · rw [(cleanUpSplits_shape a3).countP, a8]
    exact a4.mono fun _ h => .inl (by omega)
  · rw [(cleanUpSplits_shape b3).countP, b8]
    exact b4.mono fun _ h => .inl (by omega)
  · rw [ht, a1] at b1; cases b1
    rw [ht, a2] at b2; cases b2
    rw [b6, a6, hs]; rfl

/-- **C108** (depth).  Fit two trees to the same data with the same splitter, the second with at least the depth
limit of the first and fewer leaves than its leaf limit; policies, heaps and the leaf limit of the first may be
anything.  Then each node that a row passes in the first tree has a counterpart that the row passes in the
second: at the same depth, with the same cover, value (unless values are averaged afterwards) and, if it is
split, the same split.  If the first tree too has fewer leaves than its limit, the counterpart of a leaf is
split only when the leaf is as deep as the limit allows. -/
theorem C108_cut (c c' : GrowCfg F D) (hs : c'.splitter = c.splitter) (ht : c'.train = c.train)
    (hd : c.maxDepth ≤ c'.maxDepth) (sm : SampleMethod) (index : List Nat) (t t' : Tree F D)
    (h : Tree.fit c sm index = .ok t) (h' : Tree.fit c' sm index = .ok t')
    (hl' : t'.nodes.countP Node.isLeaf < c'.maxLeaves) (row : Nat → Option D) (missing : D) (i : Nat)
    (hr : Reaches t.nodes row missing i) (n : Node F D) (hn : t.nodes[i]? = some n) :
    ∃ i' n', Reaches t'.nodes row missing i' ∧ t'.nodes[i']? = some n' ∧ n'.depth = n.depth ∧
      n'.hessianSum = n.hessianSum ∧ (¬ c.splitter.Averages → n'.weightValue = n.weightValue) ∧
      (n.isLeaf = false → n'.isLeaf = false ∧ SameQuestion n n') ∧
      (t.nodes.countP Node.isLeaf < c.maxLeaves → n.isLeaf = true → n'.isLeaf = false →
        c.maxDepth ≤ n.depth) := by
  obtain ⟨N, gs, N', gs', hC, hcl, hC', hcl', h0⟩ := Tree.fit_alike hs ht h h'
  have hsh := cleanUpSplits_shape hcl
  have hsh' := cleanUpSplits_shape hcl'
  have inner : ∀ {i i'}, Twin c.splitter.arity gs gs' i i' → ∀ {n0 n0'}, N[i]? = some n0 →
      N'[i']? = some n0' → n0.isLeaf = false → n0'.isLeaf = false := by
    intro i i' hT n0 n0' e e' hlf
    obtain ⟨g, g', m, m', hg, hg', hsn, hm, hm', _, _, _, _, hml, hml', _⟩ := hT.common hs ht hC hC' h0
    rw [e] at hm; cases hm
    rw [e'] at hm'; cases hm'
    rw [← Bool.not_eq_true]
    intro hlf'
    rcases (hC'.leaf i' g' hg' (hml'.1 hlf')).2 with hx | hx
    · omega
    · obtain ⟨g1, info, k, kids, hI⟩ := hC.internal (.refl _) e hlf
      have := hI.ghost; rw [hg] at this; cases this
      rcases hx with hx | hx | hx
      · rw [hsn] at hx
        have hx : g.sn.isMissingLeaf = true := hx
        rw [hI.isSplit.notMissing] at hx; cases hx
      · rw [hsn] at hx
        have := hI.isSplit.depth
        have hx : c'.maxDepth < g.sn.depth + 1 := hx
        omega
      · rw [hsn, bestSplit_num, hs, ht, hI.isSplit.best] at hx; cases hx
  -- the counterpart of a node
  have key : ∀ i, Reaches t.nodes row missing i → ∃ i', Twin c.splitter.arity gs gs' i i' ∧
      Reaches t'.nodes row missing i' := by
    intro i hr
    induction hr with
    | root => exact ⟨0, .root, .root⟩
    | @step i n v hr hn hlf hv hrd ih =>
      obtain ⟨i', hT, hr'⟩ := ih
      obtain ⟨g, g', m, m', hg, hg', hsn, hm, hm', _, _, _, _, _, _, hx⟩ := hT.common hs ht hC hC' h0
      obtain ⟨n0, w, hn0, rfl⟩ := hsh.inv hn
      rw [hm] at hn0; cases hn0
      have hlf' := inner hT hm hm' hlf
      obtain ⟨w', hw'⟩ := hsh'.2 i' m' hm'
      obtain ⟨x1, x2, _, x3, x4, x5⟩ := hx hlf hlf'
      refine ⟨Node.childFor { m' with weightValue := w' } missing v, ?_,
        hr'.step hw' hlf' (by rw [← hv]; exact congrArg row x1) hrd⟩
      unfold Node.childFor
      simp only [x2]
      split
      · exact x5
      · split
        · exact x3
        · exact x4
  obtain ⟨i', hT, hr'⟩ := key i hr
  obtain ⟨g, g', m, m', hg, hg', hsn, hm, hm', e1, e2, e3, e3', hml, hml', hx⟩ := hT.common hs ht hC hC' h0
  obtain ⟨n0, w, hn0, rfl⟩ := hsh.inv hn
  rw [hm] at hn0; cases hn0
  obtain ⟨w', hw'⟩ := hsh'.2 i' m' hm'
  refine ⟨i', _, hr', hw', e3, e2, fun hav => ?_, fun hlf => ?_, fun hlim hlf hlf' => ?_⟩
  · have a1 := cleanUpSplits_of_not hav hcl
    have a2 := cleanUpSplits_of_not (by rw [hs]; exact hav) hcl'
    rw [a1, hm] at hn
    rw [a2, hm'] at hw'
    injection hn with hn; injection hw' with hw'
    have b1 := congrArg Node.weightValue hn
    have b2 := congrArg Node.weightValue hw'
    rw [← b1, ← b2, e1]
  · have hlf' := inner hT hm hm' hlf
    obtain ⟨x1, x2, x3, _⟩ := hx hlf hlf'
    exact ⟨hlf', x1, x2, x3⟩
  · have hlf : m.isLeaf = true := hlf
    have hlf' : m'.isLeaf = false := hlf'
    rcases (hC.leaf i g hg (hml.1 hlf)).2 with hy | hy
    · omega
    · obtain ⟨g1, info, k, kids, hI⟩ := hC'.internal (.refl _) hm' hlf'
      have := hI.ghost; rw [hg'] at this; cases this
      rcases hy with hy | hy | hy
      · have := hI.isSplit.notMissing
        rw [hsn] at this
        have this : g.sn.isMissingLeaf = false := this
        rw [hy] at this; cases this
      · show c.maxDepth ≤ m.depth
        omega
      · have := hI.isSplit.best
        rw [hsn, bestSplit_num, hs, ht, hy] at this; cases this

/-! ### Leaf limits -/

/-- The second list of nodes continues the first: splits stay, leaves keep their value, cover and depth. -/
structure Continues (N N' : List (Node F D)) : Prop where
  length : N.length ≤ N'.length
  node : ∀ (i : Nat) (n : Node F D), N[i]? = some n → ∃ n', N'[i]? = some n' ∧ n'.num = n.num ∧
    n'.weightValue = n.weightValue ∧ n'.hessianSum = n.hessianSum ∧ n'.depth = n.depth ∧
    (n.isLeaf = false → n' = n)

theorem Continues.refl (N : List (Node F D)) : Continues N N :=
  ⟨le_refl _, fun _ n h => ⟨n, h, rfl, rfl, rfl, rfl, fun _ => rfl⟩⟩

theorem Continues.trans {N N' M : List (Node F D)} (h : Continues N N') (h' : Continues N' M) :
    Continues N M := by
  refine ⟨h.length.trans h'.length, fun i n hn => ?_⟩
  obtain ⟨n', a1, a2, a3, a4, a5, a6⟩ := h.node i n hn
  obtain ⟨m, b1, b2, b3, b4, b5, b6⟩ := h'.node i n' a1
  refine ⟨m, b1, b2.trans a2, b3.trans a3, b4.trans a4, b5.trans a5, fun hl => ?_⟩
  have := a6 hl
  subst this
  exact b6 hl

/-- One iteration continues the tree. -/
theorem growStep_continues {c : GrowCfg F D} {root : SNode F D} {index : List Nat} {s s' : GrowState F D}
    {gs : List (Ghost F D)} (hI : Inv c root index s gs) (hd : growDone c s = false)
    (h : growStep c s = .ok s') : Continues s.nodes s'.nodes ∧ ∃ gs', Inv c root index s' gs' := by
  obtain ⟨node, queue, hpop, hx, _⟩ := growStep_ok h
  rcases hx with ⟨a1, a2, a3, a4, a5, a6⟩ | ⟨hdp, info, rows, kids, node', nn, b1, b2, b3, b4, b5, b6, b7⟩
  · refine ⟨?_, gs, hI.leaf hpop a1 a2 a3 a4 a5 a6⟩
    rw [a1]; exact .refl _
  · refine ⟨?_, hI.split hd hpop hdp b1 b2 b3 b4 b5 b6 b7⟩
    obtain ⟨g, g1, g2, g3, _⟩ := hI.queue node ((popNode_ok hpop).1.mem_iff.2 (by simp))
    have hleaf := (hI.cert.leaf _ g g1 g3).1
    rw [b3] at hleaf
    injection hleaf with hleaf
    have hlf : nn.isLeaf = true := by
      rw [hleaf]; exact (hI.cert.num _ g g1).2
    rw [b4]
    refine ⟨by simp, fun i n hn => ?_⟩
    have hi := (List.getElem?_eq_some_iff.1 hn).1
    rw [List.getElem?_append_left (by simpa using hi)]
    by_cases hin : node.num = i
    · subst hin
      rw [b3] at hn; cases hn
      refine ⟨_, List.getElem?_set_self hi, rfl, rfl, rfl, rfl, fun h => ?_⟩
      rw [hlf] at h; cases h
    · refine ⟨n, by rw [List.getElem?_set_ne hin]; exact hn, rfl, rfl, rfl, rfl, fun _ => rfl⟩

theorem growLoop_continues {c : GrowCfg F D} {root : SNode F D} {index : List Nat} : ∀ (fuel : Nat)
    {s r : GrowState F D}, (∃ gs, Inv c root index s gs) → growLoop c fuel s = .ok r →
      Continues s.nodes r.nodes := by
  intro fuel
  induction fuel with
  | zero =>
    intro s r _ h
    rw [growLoop] at h
    split at h
    · cases h; exact .refl _
    · cases h
  | succ fuel ih =>
    rintro s r ⟨gs, hI⟩ h
    rw [growLoop] at h
    split at h
    · cases h; exact .refl _
    · rename_i hd
      rw [Res.bind_eq_ok] at h
      obtain ⟨s1, h1, h2⟩ := h
      obtain ⟨k1, k2⟩ := growStep_continues hI (by simpa using hd) h1
      exact k1.trans (ih k2 h2)

/-- Loops with different leaf limits. -/
theorem growLoop_limits {c c' : GrowCfg F D} (hs : c'.splitter = c.splitter) (ht : c'.train = c.train)
    (hd : c'.maxDepth = c.maxDepth) (hp : c'.policy = c.policy) (hh : c'.heap = c.heap)
    (hm : c.maxLeaves ≤ c'.maxLeaves) {root : SNode F D} {index : List Nat} : ∀ (fuel fuel' : Nat)
    {s r r' : GrowState F D}, (∃ gs, Inv c' root index s gs) → growLoop c fuel s = .ok r →
      growLoop c' fuel' s = .ok r' →
      Continues r.nodes r'.nodes ∧ (r'.nodes = r.nodes ∨ c.maxLeaves ≤ r.nLeaves) := by
  have hstep : ∀ s : GrowState F D, growStep c' s = growStep c s := by
    intro s
    unfold growStep
    simp only [hs, ht, hd, hp, hh]
  intro fuel
  induction fuel with
  | zero =>
    intro fuel' s r r' hI h h'
    rw [growLoop] at h
    split at h
    · rename_i hdone
      cases h
      refine ⟨growLoop_continues _ hI h', ?_⟩
      simp only [growDone, Bool.or_eq_true, Splitter.newLeavesAdded] at hdone
      rcases hdone with hq | hq
      · left
        have : growDone c' s = true := by simp [growDone, hq]
        cases fuel' <;> (rw [growLoop, if_pos this] at h'; cases h'; rfl)
      · exact .inr (by have := of_decide_eq_true hq; omega)
    · cases h
  | succ fuel ih =>
    intro fuel' s r r' hI h h'
    rw [growLoop] at h
    split at h
    · rename_i hdone
      cases h
      refine ⟨growLoop_continues _ hI h', ?_⟩
      simp only [growDone, Bool.or_eq_true, Splitter.newLeavesAdded] at hdone
      rcases hdone with hq | hq
      · left
        have : growDone c' s = true := by simp [growDone, hq]
        cases fuel' <;> (rw [growLoop, if_pos this] at h'; cases h'; rfl)
      · exact .inr (by have := of_decide_eq_true hq; omega)
    · rename_i hdone
      have hdone' : growDone c' s = false := by
        simp only [growDone, Splitter.newLeavesAdded, Bool.or_eq_true, not_or] at hdone
        refine growDone_false (fun he => hdone.1 (by simp [he])) ?_
        by_contra hlt
        exact hdone.2 (decide_eq_true (by omega))
      rw [Res.bind_eq_ok] at h
      obtain ⟨s1, h1, h2⟩ := h
      cases fuel' with
      | zero => rw [growLoop, if_neg (by simp [hdone'])] at h'; cases h'
      | succ fuel' =>
        rw [growLoop, if_neg (by simp [hdone']), hstep, h1, Res.ok_bind] at h'
        obtain ⟨gs, hI⟩ := hI
        exact ih fuel' (growStep_continues hI hdone' ((hstep s).trans h1)).2 h2 h'

/-- **C108** (leaves).  Raise only the leaf limit.  Then the tree grows on: it has at least as many nodes, and
every node is found at the same place, with the same cover, depth and value (unless values are averaged
afterwards); a split stays as it is, with the same children.  If anything is different, the first tree had
reached its leaf limit. -/
theorem C108_leaves (c c' : GrowCfg F D) (hs : c'.splitter = c.splitter) (ht : c'.train = c.train)
    (hd : c'.maxDepth = c.maxDepth) (hp : c'.policy = c.policy) (hh : c'.heap = c.heap)
    (hm : c.maxLeaves ≤ c'.maxLeaves) (sm : SampleMethod) (index : List Nat) (t t' : Tree F D)
    (h : Tree.fit c sm index = .ok t) (h' : Tree.fit c' sm index = .ok t') :
    t.nodes.length ≤ t'.nodes.length ∧
    (∀ (i : Nat) (n : Node F D), t.nodes[i]? = some n → ∃ n', t'.nodes[i]? = some n' ∧
      n'.num = n.num ∧ n'.hessianSum = n.hessianSum ∧ n'.depth = n.depth ∧
      (¬ c.splitter.Averages → n'.weightValue = n.weightValue) ∧
      (n.isLeaf = false → n' = { n with weightValue := n'.weightValue })) ∧
    (t' = t ∨ c.maxLeaves ≤ t.nodes.countP Node.isLeaf) := by
  simp only [Tree.fit, Res.bind_eq_ok, Res.ok.injEq] at h h'
  obtain ⟨s0, h0, s, hl, nodes, hc, rfl⟩ := h
  obtain ⟨s0', h0', s', hl', nodes', hc', rfl⟩ := h'
  have : s0' = s0 := by
    unfold growInit at h0 h0'
    simp only [hs, ht] at h0'
    rw [h0] at h0'; cases h0'; rfl
  subst this
  obtain ⟨_, _, _, _, _, _, gs0, hI0⟩ := growInit_inv h0'
  obtain ⟨_, _, _, _, _, _, gs1, hI1⟩ := growInit_inv h0
  obtain ⟨hC, hor⟩ := growLoop_limits hs ht hd hp hh hm _ _ ⟨gs0, hI0⟩ hl hl'
  obtain ⟨⟨gs, hI⟩, _⟩ := growLoop_inv _ _ _ _ hI1 hl
  have hsh := cleanUpSplits_shape hc
  have hsh' := cleanUpSplits_shape hc'
  refine ⟨?_, fun i n hn => ?_, ?_⟩
  · show nodes.length ≤ nodes'.length
    rw [hsh.1, hsh'.1]; exact hC.length
  · obtain ⟨n0, w, hn0, rfl⟩ := hsh.inv hn
    obtain ⟨m, a1, a2, a3, a4, a5, a6⟩ := hC.node i n0 hn0
    obtain ⟨w', hw'⟩ := hsh'.2 i m a1
    refine ⟨_, hw', a2, a4, a5, fun hav => ?_, fun hlf => ?_⟩
    · have e1 := cleanUpSplits_of_not hav hc
      have e2 := cleanUpSplits_of_not (by rw [hs]; exact hav) hc'
      subst e1 e2
      have hn : s.nodes[i]? = some { n0 with weightValue := w } := hn
      rw [hn0] at hn
      rw [a1] at hw'
      injection hn with hn; injection hw' with hw'
      have b1 := congrArg Node.weightValue hn
      have b2 := congrArg Node.weightValue hw'
      rw [← b1, ← b2, a3]
    · rw [a6 hlf]
  · rcases hor with hor | hor
    · left
      rw [hor, hs, hc] at hc'
      cases hc'; rfl
    · right
      show c.maxLeaves ≤ nodes.countP Node.isLeaf
      rw [hsh.countP, hI.leaves]; exact hor

/-! ### Boosters -/

/-- The first tree of a booster. -/
theorem Booster.fit_first {env : Env R F D} {b b' : Booster F D} {data : Matrix D} {y w : List D}
    {ev : Option (List (EvalSet D))} (h : b.fit env data y w ev = .ok (b', .ok ())) {t : Tree F D}
    (ht : b'.trees[0]? = some t) :
    ∃ base binned chosen grad hess r, (if b.initializeBaseScore then
        calcInit b.objectiveType y w = .ok base else base = b.baseScore) ∧
      binMatrix env.sorter data w b.nbins b.missing = .ok binned ∧
      (sampleIndex env.sorter env.rng b.sampleMethod b.subsample b.topRate b.otherRate (env.rng.seed b.seed)
        data.index (calcGradHess (F := F) b.objectiveType y (List.replicate y.length base) w).1
        (calcGradHess (F := F) b.objectiveType y (List.replicate y.length base) w).2 =
          .ok (chosen, grad, hess, r)) ∧
      Tree.fit { splitter := b.splitter
                 train := { data := { data := binned.binned, rows := data.rows, cols := data.cols }
                            cuts := binned.cuts, grad, hess
                            colIndex := (sampleColumns env.rng b.colsampleBytree r data.cols).1 }
                 maxLeaves := b.maxLeaves, maxDepth := b.maxDepth, policy := b.growPolicy
                 heap := env.heap 0 } b.sampleMethod chosen = .ok t := by
  obtain ⟨base, binned, st, stop, N, T⟩ := Booster.fit_trace h
  have hN : 0 < N := by
    have := T.length
    have h0 := (List.getElem?_eq_some_iff.1 ht).1
    omega
  have s1 := T.step 0 hN
  have hst := T.start
  have htr := T.trees 1 hN
  rw [hst] at s1
  rw [b.start_eq] at s1
  simp only [fitIteration, fitStart] at s1
  rw [Res.bind_eq_ok] at s1
  obtain ⟨⟨chosen, grad, hess, r1⟩, h1, h2⟩ := s1
  refine ⟨base, binned, chosen, grad, hess, r1, T.base_eq, T.bin_eq, h1, ?_⟩
  simp only at h2
  generalize hsc : sampleColumns env.rng b.colsampleBytree r1 data.cols = sc at h2
  obtain ⟨colIndex, r2⟩ := sc
  simp only [Res.bind_eq_ok] at h2
  obtain ⟨t1, ht1, preds, hp, ⟨b1, ev1, best1, st1⟩, he, h2⟩ := h2
  have e1 : (st 1).booster.trees = [t1] := by
    have := (evalSets_same he).2
    simp only at this
    split at h2 <;>
    · simp only [Res.ok.injEq, Prod.mk.injEq] at h2
      rw [show (1 : Nat) = 0 + 1 from rfl, ← h2.1]
      simp [this]
  rw [e1] at htr
  have : t1 = t := by
    have := congrArg (fun l => l[0]?) htr
    simp only [List.getElem?_take, ht] at this
    simpa using this
  rw [← this]
  simpa [hsc] using ht1

/-- **C108** (boosters).  Two fits that differ only in the limits on depth and leaves, the grow policy and the
behaviour of the heap: for the first trees `C108_cut` holds, and if only the leaf limits differ, `C108_leaves`. -/
theorem C108_booster (env env' : Env R F D) (hS : env'.sorter = env.sorter) (hR : env'.rng = env.rng)
    (b b1 b2 : Booster F D) (p : GrowPolicy) (depth leaves : Nat) (data : Matrix D) (y w : List D)
    (ev : Option (List (EvalSet D))) (h1 : b.fit env data y w ev = .ok (b1, .ok ()))
    (h2 : ({ b with growPolicy := p, maxDepth := depth, maxLeaves := leaves } : Booster F D).fit env' data y w
      ev = .ok (b2, .ok ())) (t t' : Tree F D) (ht : b1.trees[0]? = some t) (ht' : b2.trees[0]? = some t') :
    (b.maxDepth ≤ depth → t'.nodes.countP Node.isLeaf < leaves → ∀ (row : Nat → Option D) (missing : D)
      (i : Nat), Reaches t.nodes row missing i → ∀ n, t.nodes[i]? = some n →
      ∃ i' n', Reaches t'.nodes row missing i' ∧ t'.nodes[i']? = some n' ∧ n'.depth = n.depth ∧
        n'.hessianSum = n.hessianSum ∧ (¬ b.splitter.Averages → n'.weightValue = n.weightValue) ∧
        (n.isLeaf = false → n'.isLeaf = false ∧ SameQuestion n n') ∧
        (t.nodes.countP Node.isLeaf < b.maxLeaves → n.isLeaf = true → n'.isLeaf = false →
          b.maxDepth ≤ n.depth)) ∧
    (depth = b.maxDepth → p = b.growPolicy → env'.heap 0 = env.heap 0 → b.maxLeaves ≤ leaves →
      t.nodes.length ≤ t'.nodes.length ∧
      (∀ (i : Nat) (n : Node F D), t.nodes[i]? = some n → ∃ n', t'.nodes[i]? = some n' ∧
        n'.num = n.num ∧ n'.hessianSum = n.hessianSum ∧ n'.depth = n.depth ∧
        (¬ b.splitter.Averages → n'.weightValue = n.weightValue) ∧
        (n.isLeaf = false → n' = { n with weightValue := n'.weightValue })) ∧
      (t' = t ∨ b.maxLeaves ≤ t.nodes.countP Node.isLeaf)) := by
  obtain ⟨base, binned, chosen, grad, hess, r, a1, a2, a3, a4⟩ := Booster.fit_first h1 ht
  obtain ⟨base', binned', chosen', grad', hess', r', c1, c2, c3, c4⟩ := Booster.fit_first h2 ht'
  have hbase : base' = base := by
    simp only at c1
    split at a1
    · rename_i hi
      rw [if_pos hi, a1] at c1
      cases c1; rfl
    · rename_i hi
      rw [if_neg hi] at c1
      rw [a1, c1]
  subst hbase
  simp only [hS] at c2
  rw [a2] at c2; cases c2
  simp only [hS, hR] at c3
  rw [a3] at c3; cases c3
  simp only [hR] at c4
  refine ⟨fun hd hl row missing i hr n hn => ?_, fun hd hp hh hm => ?_⟩
  · exact C108_cut _ _ (by rfl) (by rfl) hd _ _ t t' a4 c4 hl row missing i hr n hn
  · exact C108_leaves _ _ (by rfl) (by rfl) hd hp hh hm _ _ t t' a4 c4

end

/-! ### Examples -/

/-- The hypotheses of `C108_cut`: a tree of depth 1 and a deeper one. -/
example : ∃ bd t t', binMatrix exSorter exX exW 8 FX.nan = .ok bd ∧
    Tree.fit { exWide bd .lossGuide with maxDepth := 1 } .none [0, 1, 2, 3, 4, 5] = .ok t ∧
    Tree.fit (exWide bd .depthWise) .none [0, 1, 2, 3, 4, 5] = .ok t' ∧ 1 < t.nodes.length ∧
    t.nodes.length < t'.nodes.length ∧ t'.nodes.countP Node.isLeaf < 20 := by
  have : (match binMatrix exSorter exX exW 8 FX.nan with
    | .ok bd => (match Tree.fit { exWide bd .lossGuide with maxDepth := 1 } .none [0, 1, 2, 3, 4, 5],
        Tree.fit (exWide bd .depthWise) .none [0, 1, 2, 3, 4, 5] with
      | .ok t, .ok t' => decide (1 < t.nodes.length ∧ t.nodes.length < t'.nodes.length ∧
          t'.nodes.countP Node.isLeaf < 20)
      | _, _ => false)
    | _ => false) = true := by decide +kernel
  split at this
  · rename_i bd hbd
    split at this
    · rename_i t t' ht ht'
      exact ⟨bd, t, t', hbd, ht, ht', of_decide_eq_true this⟩
    · cases this
  · cases this

/-- The hypotheses of `C108_leaves`: a tree stopped by its leaf limit and one that grows on. -/
example : ∃ bd t t', binMatrix exSorter exX exW 8 FX.nan = .ok bd ∧
    Tree.fit { exWide bd .lossGuide with maxLeaves := 2 } .none [0, 1, 2, 3, 4, 5] = .ok t ∧
    Tree.fit (exWide bd .lossGuide) .none [0, 1, 2, 3, 4, 5] = .ok t' ∧ 1 < t.nodes.length ∧
    t.nodes.length < t'.nodes.length := by
  have : (match binMatrix exSorter exX exW 8 FX.nan with
    | .ok bd => (match Tree.fit { exWide bd .lossGuide with maxLeaves := 2 } .none [0, 1, 2, 3, 4, 5],
        Tree.fit (exWide bd .lossGuide) .none [0, 1, 2, 3, 4, 5] with
      | .ok t, .ok t' => decide (1 < t.nodes.length ∧ t.nodes.length < t'.nodes.length)
      | _, _ => false)
    | _ => false) = true := by decide +kernel
  split at this
  · rename_i bd hbd
    split at this
    · rename_i t t' ht ht'
      exact ⟨bd, t, t', hbd, ht, ht', of_decide_eq_true this⟩
    · cases this
  · cases this

/-- Two boosters for `C108_booster`. -/
example : ∃ b1 b2 t t', ({ exFresh with maxLeaves := 2, growPolicy := .lossGuide } : Booster Q Q).fit exEnv exX
      exY exW none = .ok (b1, .ok ()) ∧
    ({ exFresh with maxLeaves := 20, growPolicy := .depthWise } : Booster Q Q).fit exEnv exX exY exW none =
      .ok (b2, .ok ()) ∧ b1.trees[0]? = some t ∧ b2.trees[0]? = some t' ∧
    t.nodes.length < t'.nodes.length ∧ t'.nodes.countP Node.isLeaf < 20 := by
  have : (match ({ exFresh with maxLeaves := 2, growPolicy := .lossGuide } : Booster Q Q).fit exEnv exX
      exY exW none, ({ exFresh with maxLeaves := 20, growPolicy := .depthWise } : Booster Q Q).fit exEnv exX
      exY exW none with
    | .ok (b1, .ok ()), .ok (b2, .ok ()) => (match b1.trees[0]?, b2.trees[0]? with
      | some t, some t' => decide (t.nodes.length < t'.nodes.length ∧ t'.nodes.countP Node.isLeaf < 20)
      | _, _ => false)
    | _, _ => false) = true := by decide +kernel
  split at this
  · rename_i b1 b2 h1 h2
    split at this
    · rename_i t t' ht ht'
      exact ⟨b1, b2, t, t', h1, h2, ht, ht', of_decide_eq_true this⟩
    · cases this
  · cases this

end Verif
