import Verif.Proofs.Twin
import Verif.Props.Termination

/-!
# C44 Grow policies

All theorems hold for any arithmetic and any data.
-/

namespace Verif

open scoped Verif

section
variable {R F D : Type} [Fl F] [Fl D] [FlCast F D]

set_option linter.unusedSectionVars false

/-- Iteration `n` (from 0) of the loop started in `s0` runs in the state `s` and takes `node` from the
open nodes. -/
def Expands (c : GrowCfg F D) (s0 : GrowState F D) (n : Nat) (s : GrowState F D) (node : SNode F D) :
    Prop :=
  Iterates c n s0 s ∧ s.queue ≠ [] ∧ s.nLeaves + 1 ≤ c.maxLeaves ∧
    ∃ queue, popNode c.heap c.policy s.step s.queue = .ok (node, queue)

theorem Iterates.succ_inv {c : GrowCfg F D} : ∀ {n : Nat} {s s' : GrowState F D},
    Iterates c (n + 1) s s' → ∃ s1, Iterates c n s s1 ∧ s1.queue ≠ [] ∧
      s1.nLeaves + 1 ≤ c.maxLeaves ∧ growStep c s1 = .ok s' := by
  intro n
  induction n with
  | zero =>
    intro s s' h
    cases h with
    | step h1 h2 h3 h4 => cases h4; exact ⟨s, .done s, h1, h2, h3⟩
  | succ n ih =>
    intro s s' h
    cases h with
    | step h1 h2 h3 h4 =>
      obtain ⟨s1, a, b⟩ := ih h4
      exact ⟨s1, .step h1 h2 h3 a, b⟩

theorem Iterates.inv {c : GrowCfg F D} {root : SNode F D} {index : List Nat} : ∀ {n : Nat}
    {s s' : GrowState F D}, Iterates c n s s' → (∃ gs, Inv c root index s gs) →
      ∃ gs, Inv c root index s' gs := by
  intro n
  induction n with
  | zero => intro s s' h hI; cases h; exact hI
  | succ n ih =>
    intro s s' h hI
    cases h with
    | step h1 h2 h3 h4 =>
      obtain ⟨gs, hI⟩ := hI
      refine ih h4 ?_
      obtain ⟨node, queue, hpop, hc, _⟩ := growStep_ok h3
      rcases hc with ⟨a1, a2, a3, a4, a5, a6⟩ | ⟨hdp, info, rows, kids, node', nn, b1, b2, b3, b4, b5,
        b6, b7⟩
      · exact ⟨gs, hI.leaf hpop a1 a2 a3 a4 a5 a6⟩
      · exact hI.split (growDone_false h1 h2) hpop hdp b1 b2 b3 b4 b5 b6 b7

/-- The open nodes of a breadth-first search: depths do not increase from newest to oldest and span at
most two levels. -/
def Levelled (q : List (SNode F D)) (d : Nat) : Prop :=
  (q.map SNode.depth).Pairwise (· ≥ ·) ∧ ∀ n ∈ q, d ≤ n.depth ∧ n.depth ≤ d + 1

theorem depthWise_step {c : GrowCfg F D} (hc : c.policy = .depthWise) {s s' : GrowState F D} {d : Nat}
    (h : Levelled s.queue d) (hs : growStep c s = .ok s') :
    ∃ node queue, popNode c.heap c.policy s.step s.queue = .ok (node, queue) ∧ d ≤ node.depth ∧
      Levelled s'.queue node.depth := by
  obtain ⟨node, queue, hpop, hx, _⟩ := growStep_ok hs
  refine ⟨node, queue, hpop, ?_⟩
  have hq : s.queue = queue ++ [node] := by
    rw [hc] at hpop
    simp only [popNode, Res.bind_eq_ok, Res.ofOption_eq_ok, Res.ok.injEq, Prod.mk.injEq] at hpop
    obtain ⟨a, ha, rfl, rfl⟩ := hpop
    exact (List.dropLast_append_getLast? a ha).symm
  rw [hq] at h
  obtain ⟨h1, h2⟩ := h
  rw [List.map_append, List.pairwise_append] at h1
  obtain ⟨p1, _, p2⟩ := h1
  have hd := (h2 node (by simp)).1
  have hge : ∀ n ∈ queue, node.depth ≤ n.depth ∧ n.depth ≤ node.depth + 1 := by
    intro n hn
    have := p2 n.depth (List.mem_map.2 ⟨n, hn, rfl⟩) node.depth (by simp)
    have := (h2 n (by simp [hn])).2
    exact ⟨by omega, by omega⟩
  refine ⟨hd, ?_⟩
  rcases hx with ⟨_, _, e, _⟩ | ⟨_, info, rows, kids, node', n, _, hdone, _, _, e, _⟩
  · rw [e]; exact ⟨p1, hge⟩
  · have hk : ∀ x ∈ ((numberKids s.nNodes kids).filter fun n => !n.isMissingLeaf).reverse,
        x.depth = node.depth + 1 := by
      intro x hx
      rw [List.mem_reverse, List.mem_filter] at hx
      obtain ⟨j, hj⟩ := List.mem_iff_getElem?.1 hx.1
      rw [getElem?_numberKids, Option.map_eq_some_iff] at hj
      obtain ⟨kid, hkid, rfl⟩ := hj
      exact (kidsOf_fresh hdone.kids_eq kid (List.mem_of_getElem? hkid)).2
    rw [e]
    refine ⟨?_, ?_⟩
    · rw [List.map_append, List.pairwise_append]
      refine ⟨?_, p1, ?_⟩
      · rw [List.pairwise_map]
        refine List.Pairwise.imp_of_mem (R := fun _ _ => True) ?_ (List.pairwise_of_forall fun _ _ => trivial)
        intro a b ha hb _
        rw [hk a ha, hk b hb]
      · intro x hx y hy
        rw [List.mem_map] at hx hy
        obtain ⟨a, ha, rfl⟩ := hx
        obtain ⟨b, hb, rfl⟩ := hy
        have := hk a ha
        have := (hge b hb).2
        omega
    · intro x hx
      rcases List.mem_append.1 hx with hx | hx
      · have := hk x hx; exact ⟨by omega, by omega⟩
      · exact hge x hx

theorem depthWise_levelled {c : GrowCfg F D} (hc : c.policy = .depthWise) {s0 : GrowState F D} {d : Nat}
    (h0 : Levelled s0.queue d) : ∀ {n : Nat} {s : GrowState F D}, Iterates c n s0 s →
      ∃ e, d ≤ e ∧ Levelled s.queue e := by
  intro n
  induction n with
  | zero => intro s h; cases h; exact ⟨d, le_refl _, h0⟩
  | succ n ih =>
    intro s h
    obtain ⟨s1, a, _, _, b⟩ := h.succ_inv
    obtain ⟨e, he, hl⟩ := ih a
    obtain ⟨node, _, _, h1, h2⟩ := depthWise_step hc hl b
    exact ⟨node.depth, he.trans h1, h2⟩

theorem Iterates.det {c : GrowCfg F D} : ∀ {n : Nat} {s a b : GrowState F D}, Iterates c n s a →
    Iterates c n s b → a = b := by
  intro n
  induction n with
  | zero => intro s a b h1 h2; cases h1; cases h2; rfl
  | succ n ih =>
    intro s a b h1 h2
    cases h1 with
    | step _ _ x1 y1 =>
      cases h2 with
      | step _ _ x2 y2 =>
        rw [x1] at x2; cases x2
        exact ih y1 y2

theorem Iterates.split {c : GrowCfg F D} {m : Nat} : ∀ {n : Nat} {s s' : GrowState F D},
    Iterates c (n + m) s s' → ∃ s1, Iterates c n s s1 ∧ Iterates c m s1 s' := by
  intro n
  induction n with
  | zero => intro s s' h; rw [Nat.zero_add] at h; exact ⟨s, .done s, h⟩
  | succ n ih =>
    intro s s' h
    rw [Nat.add_right_comm] at h
    cases h with
    | step h1 h2 h3 h4 =>
      obtain ⟨s1, a, b⟩ := ih h4
      exact ⟨s1, .step h1 h2 h3 a, b⟩

/-- C44, DepthWise.  A node expanded later is not less deep than one expanded earlier. -/
theorem C44_depth_wise (c : GrowCfg F D) (hc : c.policy = .depthWise) (sm : SampleMethod)
    (index : List Nat) (s0 s s' : GrowState F D) (h0 : growInit c sm index = .ok s0) (n m : Nat)
    (a b : SNode F D) (hn : Expands c s0 n s a) (hm : Expands c s0 m s' b) (hnm : n ≤ m) :
    a.depth ≤ b.depth := by
  have hl0 : Levelled s0.queue 0 := by
    simp only [growInit, Res.bind_eq_ok, Prod.exists, Res.ok.injEq] at h0
    obtain ⟨g, hs, sort, _, hists, _, rfl⟩ := h0
    refine ⟨by simp [pushNode], ?_⟩
    intro n hn
    simp only [pushNode, List.mem_singleton] at hn
    subst hn
    simp [SNode.new]
  obtain ⟨i1, _, _, q1, p1⟩ := hn
  obtain ⟨i2, _, _, q2, p2⟩ := hm
  obtain ⟨e, _, hl⟩ := depthWise_levelled hc hl0 i1
  rcases Nat.lt_or_eq_of_le hnm with hlt | rfl
  · obtain ⟨k, rfl⟩ : ∃ k, m = n + (k + 1) := ⟨m - n - 1, by omega⟩
    obtain ⟨s1, j1, j2⟩ := i2.split
    have := i1.det j1
    subst this
    cases j2 with
    | step _ _ x y =>
      obtain ⟨node, queue, hp, _, hl'⟩ := depthWise_step hc hl x
      rw [p1] at hp; cases hp
      obtain ⟨e', he', hl''⟩ := depthWise_levelled hc hl' y
      have hb : b ∈ s'.queue := (popNode_ok p2).1.mem_iff.2 (by simp)
      exact he'.trans (hl''.2 b hb).1
  · have := i1.det i2
    subst this
    rw [p1] at p2; cases p2
    exact le_refl _

/-- C44, LossGuide.  The node `a` expanded is a leaf of the current tree.  Every leaf of the current tree
was created from a node `b` whose own score does not exceed that of `a` (by `total_cmp`), unless `b` cannot
be split: it is a missing leaf, is at the depth limit, or has no split. -/
theorem C44_loss_guide (c : GrowCfg F D) (hc : c.policy = .lossGuide) (hh : c.heap.Ok)
    (sm : SampleMethod) (index : List Nat) (s0 s : GrowState F D) (h0 : growInit c sm index = .ok s0)
    (n : Nat) (a : SNode F D) (hn : Expands c s0 n s a) :
    s.nodes[a.num]? = some (a.asNode c.splitter.params.learningRate) ∧
    (∀ b ∈ s.queue, Fl.tle b.gainValue a.gainValue = true) ∧
    ∀ (i : Nat) (l : Node F D), s.nodes[i]? = some l → l.isLeaf = true → ∃ b : SNode F D,
      l = b.asNode c.splitter.params.learningRate ∧ (Fl.tle b.gainValue a.gainValue = true ∨
        b.isMissingLeaf = true ∨ c.maxDepth < b.depth + 1 ∨
        bestSplit c.splitter b c.train.colIndex = .ok none) := by
  obtain ⟨hit, hq, _, q1, p1⟩ := hn
  obtain ⟨_, _, _, _, _, _, hI⟩ := growInit_inv h0
  obtain ⟨gs, hI⟩ := hit.inv hI
  have hmax : ∀ b ∈ s.queue, Fl.tle b.gainValue a.gainValue = true := by
    intro b hb
    rw [hc] at p1
    simp only [popNode, Res.bind_eq_ok, idx_eq_ok, Res.ok.injEq, Prod.mk.injEq] at p1
    obtain ⟨x, hx, rfl, rfl⟩ := p1
    obtain ⟨hi, rfl⟩ := List.getElem?_eq_some_iff.1 hx
    obtain ⟨i, hi', rfl⟩ := List.getElem_of_mem hb
    exact hh.max s.step s.queue i hi' hi
  obtain ⟨g, g1, g2, g3, _⟩ := hI.queue a ((popNode_ok p1).1.mem_iff.2 (by simp))
  refine ⟨?_, hmax, fun i l hl hleaf => ?_⟩
  · have := (hI.cert.leaf _ g g1 g3).1
    rw [g2] at this; exact this
  · obtain ⟨g', e1, e2⟩ := hI.cert.node hl
    rcases e2 with ⟨e2, rfl, e3⟩ | ⟨info, k, kids, _, hS, rfl⟩
    · exact ⟨g'.sn, rfl, e3.imp (hmax _) id⟩
    · cases hleaf

theorem Tree.fit_twin {c c' : GrowCfg F D} (hc : SameCfg c c') {sm : SampleMethod} {index : List Nat}
    {t t' : Tree F D} (h : Tree.fit c sm index = .ok t) (h' : Tree.fit c' sm index = .ok t')
    (hl : t.nodes.countP Node.isLeaf < c.maxLeaves) (hl' : t'.nodes.countP Node.isLeaf < c'.maxLeaves)
    (get : Nat → Res D) (hg : ∀ f, get f ≠ .diverge) (missing : D) :
    (leafFrom t.nodes get missing t.nodes.length 0 >>= fun n => Res.ok n.weightValue) =
      leafFrom t'.nodes get missing t'.nodes.length 0 >>= fun n => .ok n.weightValue := by
  have hw := Tree.fit_wf h
  have hw' := Tree.fit_wf h'
  obtain ⟨g, hs, sort, hists, N, gs, nl, a1, a2, a3, a4, ⟨g0, a5, a6, a7⟩, a8, _⟩ := Tree.fit_cert h
  obtain ⟨g', hs', sort', hists', N', gs', nl', b1, b2, b3, b4, ⟨g0', b5, b6, b7⟩, b8, _⟩ :=
    Tree.fit_cert h'
  have hn : nl + 1 ≤ c.maxLeaves := by
    rw [(cleanUpSplits_shape a3).countP, a8] at hl; omega
  have hn' : nl' + 1 ≤ c'.maxLeaves := by
    rw [(cleanUpSplits_shape b3).countP, b8] at hl'; omega
  have hF : FullCert c gs N := a4.mono fun sn hsn => by omega
  have hF' : FullCert c' gs' N' := b4.mono fun sn hsn => by omega
  have h0 : Alike gs gs' 0 0 := by
    refine ⟨g0, g0', a5, b5, ?_, by rw [a7, b7]⟩
    rw [hc.train, a1] at b1; cases b1
    rw [hc.train, a2] at b2; cases b2
    rw [b6, a6, hc.splitter]; rfl
  have hwN : Tree.Wf (⟨N⟩ : Tree F D) := a4.wf (.refl _) (List.getElem?_eq_some_iff.1 a5).1
  have hwN' : Tree.Wf (⟨N'⟩ : Tree F D) := b4.wf (.refl _) (List.getElem?_eq_some_iff.1 b5).1
  refine leafFrom_twin (P := Twin c.splitter.arity gs gs')
    (fun i i' hi => hi.final hc hF hF' h0 a3 b3 hwN hwN') get missing _ _ _ _ .root ?_ ?_
  · exact leafFrom_ne_diverge hw hg missing _ _ (List.length_pos_iff.2 hw.nonempty) (by omega)
  · exact leafFrom_ne_diverge hw' hg missing _ _ (List.length_pos_iff.2 hw'.nonempty) (by omega)

/-- C44.  Two trees fitted to the same data with the same splitter and depth limit, each of them with
fewer leaves than its own leaf limit, predict the same (or panic alike) on any data, whatever their
policies and the behaviour of their heaps. -/
theorem C44_same_predictions (c c' : GrowCfg F D) (hs : c'.splitter = c.splitter)
    (ht : c'.train = c.train) (hd : c'.maxDepth = c.maxDepth) (sm : SampleMethod) (index : List Nat)
    (t t' : Tree F D) (h : Tree.fit c sm index = .ok t) (h' : Tree.fit c' sm index = .ok t')
    (hl : t.nodes.countP Node.isLeaf < c.maxLeaves) (hl' : t'.nodes.countP Node.isLeaf < c'.maxLeaves)
    (data : Matrix D) (missing : D) : t.predict data missing = t'.predict data missing := by
  unfold Tree.predict Tree.predictLeaf
  congr 1
  funext i
  have := Tree.fit_twin ⟨hs, ht, hd⟩ h h' hl hl' (data.get i) (fun f => Matrix.get_ne_diverge _ _ _) missing
  have := congrArg (fun r => r >>= fun w => Res.ok (up w : D)) this
  simpa only [Res.bind_assoc', Res.ok_bind] using this

/-! ### Boosters -/

/-- The same booster with another policy and other trees. -/
def Booster.swap (b : Booster F D) (p : GrowPolicy) (ts : List (Tree F D)) : Booster F D :=
  { b with growPolicy := p, trees := ts }

theorem earlyStopUpdate_swap (b : Booster F D) (p : GrowPolicy) (ts : List (Tree F D)) (i : Nat) (m : D)
    (mx : Bool) (best : Option D) (stop : Bool) :
    earlyStopUpdate (b.swap p ts) i m mx best stop =
      ((earlyStopUpdate b i m mx best stop).1.swap p ts, (earlyStopUpdate b i m mx best stop).2) := by
  unfold earlyStopUpdate
  cases h : b.earlyStoppingRounds with
  | none => simp [Booster.swap, h]
  | some r =>
    cases best with
    | none => simp [Booster.swap, h, Booster.updateBestIteration]
    | some v =>
      cases hb : b.bestIteration <;> by_cases hc : isComparisonBetter v m mx = true <;>
        simp [Booster.swap, h, Booster.updateBestIteration, hb, hc]

theorem evalLoop_swap {S : Sorter} {t t' : Tree F D}
    (ht : ∀ data missing, t'.predict data missing = t.predict data missing) (i n : Nat) (p : GrowPolicy)
    (ts : List (Tree F D)) : ∀ (l : List (TrainEval D)) (k : Nat) (b : Booster F D) (best : Option D)
      (stop : Bool), evalLoop S t' i n l k (b.swap p ts) best stop =
        evalLoop S t i n l k b best stop >>= fun r =>
          Res.ok (r.1, r.2.1, r.2.2.1.swap p ts, r.2.2.2) := by
  intro l
  induction l with
  | nil => intro k b best stop; rfl
  | cons e l ih =>
    intro k b best stop
    have hm : (b.swap p ts).metric = b.metric := rfl
    rw [evalLoop, evalLoop]
    simp only [Res.bind_assoc', hm, ht, show (b.swap p ts).missing = b.missing from rfl,
      earlyStopUpdate_swap]
    congr 1
    funext preds
    congr 1
    funext m
    by_cases hk : k + 1 = n
    · simp only [if_pos hk, ih, Res.bind_assoc', Res.ok_bind]
    · simp only [if_neg hk, ih, Res.bind_assoc', Res.ok_bind]

theorem evalSets_swap {S : Sorter} {t t' : Tree F D}
    (ht : ∀ data missing, t'.predict data missing = t.predict data missing) (i : Nat) (p : GrowPolicy)
    (ts : List (Tree F D)) (b : Booster F D) (es : Option (List (TrainEval D))) (best : Option D) :
    evalSets S t' i (b.swap p ts) es best =
      evalSets S t i b es best >>= fun r => Res.ok (r.1.swap p ts, r.2) := by
  cases es with
  | none => rfl
  | some es =>
    have hw : withHistory (b.swap p ts) es.length = (withHistory b es.length).swap p ts := by
      unfold withHistory
      cases h : b.evaluationHistory <;> simp [Booster.swap, h]
    rw [evalSets, evalSets, hw, evalLoop_swap ht]
    simp only [Res.bind_assoc']
    congr 1
    funext r
    have ha : ∀ (b : Booster F D) ms, appendHistory (b.swap p ts) ms =
        appendHistory b ms >>= fun b => Res.ok (b.swap p ts) := by
      intro b ms
      unfold appendHistory
      cases h : b.evaluationHistory with
      | none => simp [Booster.swap, h, Res.pure_def, Res.ok_bind]
      | some hist =>
        simp only [Booster.swap, h, Res.bind_assoc', Res.pure_def, Res.ok_bind]
    simp only [Res.ok_bind, ha, Res.bind_assoc']

theorem fitIteration_swap {env env' : Env R F D} (hS : env'.sorter = env.sorter) (hR : env'.rng = env.rng)
    {data : Matrix D} {y w : List D} {splitter : Splitter F} {bdata : Matrix Nat}
    {cuts : JaggedMatrix D} {i : Nat} {s s1 s1' : FitState R F D} {stop stop' : Bool} {p : GrowPolicy}
    {ts : List (Tree F D)} (h : fitIteration env data y w splitter bdata cuts i s = .ok (s1, stop))
    (h' : fitIteration env' data y w splitter bdata cuts i { s with booster := s.booster.swap p ts } =
      .ok (s1', stop'))
    (hl : ∀ t ∈ s1.booster.trees, t.nodes.countP Node.isLeaf < s.booster.maxLeaves)
    (hl' : ∀ t ∈ s1'.booster.trees, t.nodes.countP Node.isLeaf < s.booster.maxLeaves) :
    stop' = stop ∧ ∃ t t', s1.booster.trees = s.booster.trees ++ [t] ∧
      s1' = { s1 with booster := s1.booster.swap p (ts ++ [t']) } ∧
      ∀ X missing, t'.predict X missing = t.predict X missing := by
  simp only [fitIteration, hS, hR] at h h'
  rw [Res.bind_eq_ok] at h h'
  obtain ⟨⟨chosen, grad, hess, r1⟩, h1, h⟩ := h
  obtain ⟨x, h1', h'⟩ := h'
  have : x = (chosen, grad, hess, r1) := by
    have e : (s.booster.swap p ts).sampleMethod = s.booster.sampleMethod := rfl
    rw [show sampleIndex env.sorter env.rng (s.booster.swap p ts).sampleMethod
      (s.booster.swap p ts).subsample (s.booster.swap p ts).topRate (s.booster.swap p ts).otherRate
      s.rng data.index s.grad s.hess = sampleIndex env.sorter env.rng s.booster.sampleMethod
      s.booster.subsample s.booster.topRate s.booster.otherRate s.rng data.index s.grad s.hess from rfl,
      h1] at h1'
    cases h1'; rfl
  subst this
  simp only [show (s.booster.swap p ts).colsampleBytree = s.booster.colsampleBytree from rfl] at h h'
  generalize sampleColumns env.rng s.booster.colsampleBytree r1 data.cols = sc at h h'
  obtain ⟨colIndex, r2⟩ := sc
  simp only [Res.bind_eq_ok] at h h'
  obtain ⟨t, ht, preds, hp, ⟨b1, ev1, best1, st1⟩, he, h⟩ := h
  obtain ⟨t', ht', preds', hp', ⟨b1', ev1', best1', st1'⟩, he', h'⟩ := h'
  have htrees : ∀ {bb : Booster F D} {x : Option (List (TrainEval D)) × Option D × Bool} {t0 : Tree F D},
      evalSets env.sorter t0 i s.booster s.evals s.best = .ok (bb, x) →
      bb.trees = s.booster.trees := fun h => (evalSets_same h).2
  have e1 : s1.booster.trees = s.booster.trees ++ [t] := by
    rw [← (evalSets_same he).2]
    split at h <;> (cases h; rfl)
  have e2 : t' ∈ s1'.booster.trees := by
    split at h' <;> (cases h'; simp)
  have hpred : ∀ X missing, t'.predict X missing = t.predict X missing := by
    intro X missing
    refine (C44_same_predictions _ _ ?_ ?_ ?_ _ _ t t' ht ht' (hl t (by rw [e1]; simp)) (hl' t' e2) X
      missing).symm <;> rfl
  have hpp : preds' = preds := by
    rw [hpred] at hp'
    rw [show (s.booster.swap p ts).missing = s.booster.missing from rfl, hp] at hp'
    cases hp'; rfl
  subst hpp
  simp only [evalSets_swap hpred, he, Res.ok_bind, Res.ok.injEq, Prod.mk.injEq] at he'
  obtain ⟨rfl, rfl, rfl, rfl⟩ := he'
  refine ⟨?_, t, t', e1, ?_, hpred⟩
  · cases st1
    · simp only [Bool.false_eq_true, if_false] at h h'; cases h; cases h'; rfl
    · simp only [if_true] at h h'; cases h; cases h'; rfl
  · cases st1
    · simp only [Bool.false_eq_true, if_false] at h h'; cases h; cases h'; rfl
    · simp only [if_true] at h h'; cases h; cases h'; rfl

/-- C44 for boosters.  Two fits that differ in the grow policy and in the behaviour of the heap, and whose
trees all have fewer leaves than the limit, have equally many trees and predict the same on any data. -/
theorem C44_booster (env env' : Env R F D) (hS : env'.sorter = env.sorter) (hR : env'.rng = env.rng)
    (b b1 b2 : Booster F D) (p : GrowPolicy) (data : Matrix D) (y w : List D)
    (ev : Option (List (EvalSet D))) (h1 : b.fit env data y w ev = .ok (b1, .ok ()))
    (h2 : ({ b with growPolicy := p } : Booster F D).fit env' data y w ev = .ok (b2, .ok ()))
    (hl1 : ∀ t ∈ b1.trees, t.nodes.countP Node.isLeaf < b.maxLeaves)
    (hl2 : ∀ t ∈ b2.trees, t.nodes.countP Node.isLeaf < b.maxLeaves) :
    b2.trees.length = b1.trees.length ∧ ∀ X, b2.predict X = b1.predict X := by
  obtain ⟨base, binned, st, stop, N, T⟩ := Booster.fit_trace h1
  obtain ⟨base', binned', st', stop', N', T'⟩ := Booster.fit_trace h2
  have hbin : binned' = binned := by
    have := T'.bin_eq
    rw [hS, show ({ b with growPolicy := p } : Booster F D).nbins = b.nbins from rfl,
      show ({ b with growPolicy := p } : Booster F D).missing = b.missing from rfl, T.bin_eq] at this
    cases this; rfl
  subst hbin
  have hbase : base' = base := by
    have e := T.base_eq
    have e' := T'.base_eq
    rw [show ({ b with growPolicy := p } : Booster F D).initializeBaseScore = b.initializeBaseScore
      from rfl] at e'
    split at e
    · rename_i hi
      rw [if_pos hi] at e'
      rw [show ({ b with growPolicy := p } : Booster F D).objectiveType = b.objectiveType from rfl, e]
        at e'
      cases e'; rfl
    · rename_i hi
      rw [if_neg hi] at e'
      rw [e, e']
  subst hbase
  have hstates : ∀ k, k ≤ N → k ≤ N' →
      (∃ ts, st' k = { st k with booster := (st k).booster.swap p ts } ∧
        List.Forall₂ (fun t t' : Tree F D => ∀ X missing, t'.predict X missing = t.predict X missing)
          (st k).booster.trees ts) ∧ ∀ j < k, stop' j = stop j := by
    intro k
    induction k with
    | zero =>
      intro _ _
      refine ⟨⟨[], ?_, ?_⟩, by omega⟩
      · rw [T'.start, T.start, fitStart, fitStart, hR]
        cases ht : b.trees with
        | nil => simp [Booster.start, ht, Booster.swap]
        | cons a l => simp [Booster.start, ht, Booster.swap, Booster.reset]
      · rw [T.start, fitStart]
        have : b.start.trees = [] := by rw [b.start_eq]
        show List.Forall₂ _ b.start.trees []
        rw [this]
        exact .nil
    | succ k ih =>
      intro hk hk'
      obtain ⟨⟨ts, e, hf⟩, hstop⟩ := ih (by omega) (by omega)
      have s1 := T.step k (by omega)
      have s2 := T'.step k (by omega)
      rw [e] at s2
      have hml : (st k).booster.maxLeaves = b.maxLeaves := by
        have := T.same k (by omega)
        unfold Booster.SameParams at this
        rw [this]
      have hm1 : ∀ t ∈ (st (k + 1)).booster.trees, t.nodes.countP Node.isLeaf < b.maxLeaves := by
        intro t ht
        rw [T.trees (k + 1) hk] at ht
        exact hl1 t (List.mem_of_mem_take ht)
      have hm2 : ∀ t ∈ (st' (k + 1)).booster.trees, t.nodes.countP Node.isLeaf < b.maxLeaves := by
        intro t ht
        rw [T'.trees (k + 1) hk'] at ht
        exact hl2 t (List.mem_of_mem_take ht)
      obtain ⟨x1, t, t', x2, x3, x4⟩ := fitIteration_swap hS hR s1 s2 (by rw [hml]; exact hm1)
        (by rw [hml]; exact hm2)
      refine ⟨⟨ts ++ [t'], x3, ?_⟩, ?_⟩
      · rw [x2]
        exact List.rel_append hf (.cons x4 .nil)
      · intro j hj
        rcases Nat.lt_succ_iff_lt_or_eq.1 hj with hj | rfl
        · exact hstop j hj
        · exact x1
  have hN : N' = N := by
    rcases Nat.lt_trichotomy N' N with hlt | heq | hgt
    · have := T'.ended (lt_of_lt_of_le hlt T.le)
      have e := (hstates N' (by omega) (le_refl _)).2 (N' - 1) (by omega)
      rw [this.2] at e
      have := T.cont (N' - 1) (by omega)
      rw [this] at e; cases e
    · exact heq
    · have := T.ended (lt_of_lt_of_le hgt T'.le)
      have e := (hstates N (le_refl _) (by omega)).2 (N - 1) (by omega)
      rw [this.2] at e
      have := T'.cont (N - 1) (by omega)
      rw [this] at e; cases e
  subst hN
  refine ⟨by rw [T.length, T'.length], fun X => ?_⟩
  obtain ⟨⟨ts, e, hf⟩, _⟩ := hstates N' (le_refl _) (le_refl _)
  have hb1 := T.last
  have hb2 := T'.last
  rw [e] at hb2
  rw [hb1] at hb2 hf
  simp only at hb2
  rw [← hb2]
  have hlen := hf.length_eq
  unfold Booster.predict Booster.predictionTrees
  have e1 : (b1.swap p ts).predictionIteration = b1.predictionIteration := rfl
  have e2 : (b1.swap p ts).trees = ts := rfl
  have e3 : (b1.swap p ts).missing = b1.missing := rfl
  have e4 : (b1.swap p ts).baseScore = b1.baseScore := rfl
  simp only [e1, e2, e3, e4, ← hlen]
  split
  · simp only [Res.ok_bind]
    generalize hn : b1.predictionIteration.getD b1.trees.length = n
    have : List.Forall₂ (fun t t' : Tree F D => ∀ X missing, t'.predict X missing = t.predict X missing)
        (b1.trees.take n) (ts.take n) := List.forall₂_take n hf
    generalize b1.trees.take n = l at this
    generalize ts.take n = l' at this
    generalize List.replicate X.rows b1.baseScore = acc
    induction this generalizing acc with
    | nil => rfl
    | cons hd _ ih =>
      rw [Res.foldM'_cons, Res.foldM'_cons, hd]
      congr 1
      funext a
      exact ih a
  · rfl

end

/-! ### Examples -/

theorem exPick_spec {F D : Type} [Fl F] [Fl.TotLaws F] : ∀ l : List (SNode F D), l ≠ [] → ∃ m, l[exPick l]? = some m ∧
    ∀ n ∈ l, Fl.tle n.gainValue m.gainValue = true
  | [], h => absurd rfl h
  | [a], _ => by
    refine ⟨a, rfl, fun n hn => ?_⟩
    rw [List.mem_singleton] at hn
    subst hn
    rcases Fl.TotLaws.total n.gainValue n.gainValue with h | h <;> exact h
  | a :: b :: l, _ => by
    obtain ⟨m, hm, hmax⟩ := exPick_spec (b :: l) (by simp)
    rw [exPick]
    simp only [hm]
    split
    · rename_i h
      refine ⟨a, rfl, fun n hn => ?_⟩
      rcases List.mem_cons.1 hn with rfl | hn
      · rcases Fl.TotLaws.total n.gainValue n.gainValue with h | h <;> exact h
      · exact Fl.TotLaws.trans _ _ _ (hmax n hn) h
    · rename_i h
      refine ⟨m, by simpa using hm, fun n hn => ?_⟩
      rcases List.mem_cons.1 hn with rfl | hn
      · rcases Fl.TotLaws.total n.gainValue m.gainValue with h' | h'
        · exact h'
        · exact absurd h' h
      · exact hmax n hn

/-- The heap of the examples behaves as `BinaryHeap::pop`. -/
theorem exHeap_ok {F D : Type} [Fl F] [Fl.TotLaws F] : (⟨fun _ l => exPick l⟩ : HeapPick F D).Ok where
  lt n l h := by
    obtain ⟨m, hm, _⟩ := exPick_spec l h
    exact (List.getElem?_eq_some_iff.1 hm).1
  max n l i hi hp := by
    obtain ⟨m, hm, hmax⟩ := exPick_spec l (by intro e; subst e; simp at hi)
    obtain ⟨_, rfl⟩ := List.getElem?_eq_some_iff.1 hm
    exact hmax _ (List.getElem_mem hi)

/-- Gradients for which the right part of the tree has the greater scores. -/
def exGrad5 : List Q := [q 3, q 4, q (-2), q (-8), q (-14), q 3]

/-- A configuration whose leaf limit does not bind. -/
def exWide (bd : BinnedData Q) (p : GrowPolicy) : GrowCfg Q Q :=
  { exCfg bd with train := trainOf exX bd exGrad5 exW [0, 1], maxLeaves := 20, maxDepth := 5, policy := p }

/-- The hypotheses of `C44_same_predictions` with two trees that number their nodes differently. -/
example : ∃ bd t t', binMatrix exSorter exX exW 8 FX.nan = .ok bd ∧
    Tree.fit (exWide bd .lossGuide) .none [0, 1, 2, 3, 4, 5] = .ok t ∧
    Tree.fit (exWide bd .depthWise) .none [0, 1, 2, 3, 4, 5] = .ok t' ∧ t ≠ t' ∧
    t.nodes.countP Node.isLeaf < 20 ∧ t'.nodes.countP Node.isLeaf < 20 := by
  have : (match binMatrix exSorter exX exW 8 FX.nan with
    | .ok bd => (match Tree.fit (exWide bd .lossGuide) .none [0, 1, 2, 3, 4, 5],
        Tree.fit (exWide bd .depthWise) .none [0, 1, 2, 3, 4, 5] with
      | .ok t, .ok t' => decide (t ≠ t' ∧ t.nodes.countP Node.isLeaf < 20 ∧
          t'.nodes.countP Node.isLeaf < 20)
      | _, _ => false)
    | _ => false) = true := by decide +kernel
  split at this
  · rename_i bd hbd
    split at this
    · rename_i t t' ht ht'
      have := of_decide_eq_true this
      exact ⟨bd, t, t', hbd, ht, ht', this⟩
    · cases this
  · cases this

/-- The second iteration of `LossGuide` takes the right child of the root (node 3) before the left one;
`DepthWise` takes the left one (node 2). -/
example : ∃ bd s s1 a s' s1' a', binMatrix exSorter exX exW 8 FX.nan = .ok bd ∧
    growInit (exWide bd .lossGuide) .none [0, 1, 2, 3, 4, 5] = .ok s ∧
    Expands (exWide bd .lossGuide) s 1 s1 a ∧ a.num = 3 ∧
    growInit (exWide bd .depthWise) .none [0, 1, 2, 3, 4, 5] = .ok s' ∧
    Expands (exWide bd .depthWise) s' 1 s1' a' ∧ a'.num = 2 := by
  have : (match binMatrix exSorter exX exW 8 FX.nan with
    | .ok bd => (match growInit (exWide bd .lossGuide) .none [0, 1, 2, 3, 4, 5],
        growInit (exWide bd .depthWise) .none [0, 1, 2, 3, 4, 5] with
      | .ok s, .ok s' => (match growStep (exWide bd .lossGuide) s, growStep (exWide bd .depthWise) s' with
        | .ok s1, .ok s1' => (match popNode (exWide bd .lossGuide).heap .lossGuide s1.step s1.queue,
            popNode (exWide bd .lossGuide).heap .depthWise s1'.step s1'.queue with
          | .ok r, .ok r' => decide (r.1.num = 3 ∧ r'.1.num = 2 ∧ s.queue.length = 1 ∧
              s'.queue.length = 1 ∧ s1.queue.length = 2 ∧ s1'.queue.length = 2 ∧ s.nLeaves = 1 ∧
              s'.nLeaves = 1 ∧ s1.nLeaves = 3 ∧ s1'.nLeaves = 3)
          | _, _ => false)
        | _, _ => false)
      | _, _ => false)
    | _ => false) = true := by decide +kernel
  split at this
  · rename_i bd hbd
    split at this
    · rename_i s s' hs hs'
      split at this
      · rename_i s1 s1' hs1 hs1'
        split at this
        · rename_i r r' hr hr'
          obtain ⟨h1, h2, h3, h4, h5, h6, h7, h8, h9, h10⟩ := of_decide_eq_true this
          have ne : ∀ {l : List (SNode Q Q)} {k : Nat}, l.length = k + 1 → l ≠ [] := by
            intro l k h e; subst e; simp at h
          refine ⟨bd, s, s1, r.1, s', s1', r'.1, hbd, hs,
            ⟨.step (ne h3) ?_ hs1 (.done _), ne h5, ?_, r.2, hr⟩, h1, hs',
            ⟨.step (ne h4) ?_ hs1' (.done _), ne h6, ?_, r'.2, hr'⟩, h2⟩ <;>
            simp only [exWide] <;> omega
        · cases this
      · cases this
    · cases this
  · cases this

/-- Two boosters for `C44_booster`: both fits succeed and no tree reaches the leaf limit. -/
example : ∃ b1 b2, ({ exFresh with maxLeaves := 20, growPolicy := .lossGuide } : Booster Q Q).fit exEnv exX
      exY exW none = .ok (b1, .ok ()) ∧
    ({ exFresh with maxLeaves := 20, growPolicy := .depthWise } : Booster Q Q).fit exEnv exX exY exW none =
      .ok (b2, .ok ()) ∧ b1.trees.length = 2 ∧
    (∀ t ∈ b1.trees, t.nodes.countP Node.isLeaf < 20) ∧ ∀ t ∈ b2.trees, t.nodes.countP Node.isLeaf < 20 := by
  have : (match ({ exFresh with maxLeaves := 20, growPolicy := .lossGuide } : Booster Q Q).fit exEnv exX
      exY exW none, ({ exFresh with maxLeaves := 20, growPolicy := .depthWise } : Booster Q Q).fit exEnv exX
      exY exW none with
    | .ok (b1, .ok ()), .ok (b2, .ok ()) => decide (b1.trees.length = 2 ∧
        (∀ t ∈ b1.trees, t.nodes.countP Node.isLeaf < 20) ∧
        ∀ t ∈ b2.trees, t.nodes.countP Node.isLeaf < 20)
    | _, _ => false) = true := by decide +kernel
  split at this
  · rename_i b1 b2 h1 h2
    exact ⟨b1, b2, h1, h2, of_decide_eq_true this⟩
  · cases this

end Verif
