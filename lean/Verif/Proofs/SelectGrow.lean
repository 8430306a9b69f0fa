import Verif.Proofs.ExtraGrow
import Verif.Proofs.GrowTree
import Verif.Spec.SelectColumns

/-!
# Growing on some of the columns: forward simulation

Like `TrainExt`, but the second training data has fewer columns, under new numbers.  A step is followed only when the
feature that the first run chooses is among the columns that stay.
-/

namespace Verif

open scoped Verif

set_option linter.unusedSectionVars false

variable {F D : Type} [Fl F] [Fl D] [FlCast F D]

/-- The splitter with other parameters per feature. -/
def Splitter.withMaps (m : ConstraintMap) (l : List Nat) : Splitter F → Splitter F
  | .imputer p => .imputer { p with constraintsMap := m }
  | .branch p => .branch { p with constraintsMap := m, terminateMissingFeatures := l }

/-- The splitter's list of features whose missing branch is never split. -/
def Splitter.terminates : Splitter F → List Nat
  | .imputer _ => []
  | .branch p => p.terminateMissingFeatures

/-- What the second splitter must offer. -/
structure SplitterSel (keep : List Nat) (s s' : Splitter F) : Prop where
  eq : ∃ m l, s' = s.withMaps m l
  constraint : ∀ f ∈ keep, s'.params.getConstraint (keep.idxOf f) = s.params.getConstraint f
  terminate : ∀ f ∈ keep, s'.terminates.contains (keep.idxOf f) = s.terminates.contains f

/-- The chosen split under the new number of its feature. -/
def SplitInfo.renumber (keep : List Nat) (i : SplitInfo F D) : SplitInfo F D :=
  { i with splitFeature := keep.idxOf i.splitFeature }

/-- What the second training data must offer.  The best split must agree for the nodes with `P`. -/
structure TrainSel (keep : List Nat) (P : SNode F D → Prop) (s s' : Splitter F)
    (E : JaggedMatrix (Bin F D) → JaggedMatrix (Bin F D) → Prop) (t t' : TrainData F D) : Prop where
  grad : t'.grad = t.grad
  hess : t'.hess = t.hess
  col : ∀ c ∈ keep, ∀ v, t.data.getCol c = .ok v → t'.data.getCol (keep.idxOf c) = .ok v
  hist : ∀ index sort, Res.Imp E (histogramMatrix t.data t.cuts t.grad t.hess index t.colIndex sort)
    (histogramMatrix t'.data t'.cuts t.grad t.hess index t'.colIndex sort)
  child : ∀ H H' C C', E H H' → E C C' → E (histFromParentChild H C) (histFromParentChild H' C')
  children : ∀ H H' C C' B B', E H H' → E C C' → E B B' →
    E (histFromParentTwoChildren H C B) (histFromParentTwoChildren H' C' B')
  best : ∀ (node : SNode F D) h' r, E node.histograms h' → bestSplit s node t.colIndex = .ok r →
    (∀ info, r = some info → info.splitFeature ∈ keep) → P node →
    bestSplit s' { node with histograms := h' } t'.colIndex = .ok (r.map (SplitInfo.renumber keep))

variable {keep : List Nat} {P : SNode F D → Prop} {s s' : Splitter F} {E : JaggedMatrix (Bin F D) → JaggedMatrix (Bin F D) → Prop}
  {t t' : TrainData F D}

theorem TrainSel.histSlice (h : TrainSel keep P s s' E t t') (index : List Nat) (i j : Nat) :
    Res.Imp E (t.hist index i j) (t'.hist index i j) := by
  unfold TrainData.hist
  rw [h.grad, h.hess]
  refine (Res.Imp.same _).bind fun r r' _ _ hr => ?_
  subst hr
  exact h.hist r true

/-- Two new nodes: they have no feature yet. -/
def NewSel (E : JaggedMatrix (Bin F D) → JaggedMatrix (Bin F D) → Prop) (n n' : SNode F D) : Prop :=
  (∃ h', n' = { n with histograms := h' } ∧ (n.isMissingLeaf = false → E n.histograms h')) ∧ n.isLeaf = true

/-- Two outcomes of a split. -/
def SplitSel (keep : List Nat) (E : JaggedMatrix (Bin F D) → JaggedMatrix (Bin F D) → Prop)
    (r r' : SNode F D × List Nat × List (SNode F D)) : Prop :=
  r'.2.1 = r.2.1 ∧ List.Forall₂ (NewSel E) r.2.2 r'.2.2 ∧
    (r.2.2 ≠ [] → ∃ h', r'.1 = { r.1 with histograms := h', splitFeature := keep.idxOf r.1.splitFeature })

theorem imputerHandle_sel (h : TrainSel keep P s s' E t t') (info : SplitInfo F D) (hk : info.splitFeature ∈ keep)
    (n : Nat) {node node' : SNode F D} (hn : OpenExt E node node') (index : List Nat) :
    Res.Imp (SplitSel keep E) (imputerHandle t info n node index)
      (imputerHandle t' (info.renumber keep) n node' index) := by
  obtain ⟨h', rfl, hH⟩ := hn
  unfold imputerHandle
  dsimp only [SplitInfo.renumber]
  refine (Res.Imp.same _).bind fun mr mr' _ _ e => ?_
  subst e
  refine (Res.Imp.same _).bind fun rows rows' _ _ e => ?_
  subst e
  refine (Res.Imp.of_eq (h.col _ hk)).bind fun ft ft' _ _ e => ?_
  subst e
  refine (Res.Imp.same _).bind fun r r' _ _ e => ?_
  subst e
  obtain ⟨rows2, split⟩ := r
  dsimp only
  split
  · refine (h.histSlice _ _ _).bind fun a b _ _ hab => ?_
    exact .ok ⟨rfl, .cons ⟨⟨_, rfl, fun _ => hab⟩, rfl⟩
      (.cons ⟨⟨_, rfl, fun _ => h.child _ _ _ _ hH hab⟩, rfl⟩ .nil), fun _ => ⟨h', rfl⟩⟩
  · refine (h.histSlice _ _ _).bind fun a b _ _ hab => ?_
    exact .ok ⟨rfl, .cons ⟨⟨_, rfl, fun _ => h.child _ _ _ _ hH hab⟩, rfl⟩
      (.cons ⟨⟨_, rfl, fun _ => hab⟩, rfl⟩ .nil), fun _ => ⟨h', rfl⟩⟩

theorem branchHists_sel (h : TrainSel keep P s s' E t t') {node : SNode F D} {h' : JaggedMatrix (Bin F D)}
    (hH : E node.histograms h') (index : List Nat) (nm nl nr ms sp : Nat) :
    Res.Imp (fun r r' => (nm ≠ 0 → E r.1 r'.1) ∧ E r.2.1 r'.2.1 ∧ E r.2.2 r'.2.2)
      (branchHists t node index nm nl nr ms sp)
      (branchHists t' { node with histograms := h' } index nm nl nr ms sp) := by
  unfold branchHists
  dsimp only
  split
  · rename_i h0
    split
    · refine (h.histSlice _ _ _).bind fun a b _ _ hab => ?_
      exact .ok ⟨fun hc => absurd h0 hc, h.child _ _ _ _ hH hab, hab⟩
    · refine (h.histSlice _ _ _).bind fun a b _ _ hab => ?_
      exact .ok ⟨fun hc => absurd h0 hc, hab, h.child _ _ _ _ hH hab⟩
  · split
    · refine (h.histSlice _ _ _).bind fun a b _ _ hab => ?_
      refine (h.histSlice _ _ _).bind fun c d _ _ hcd => ?_
      exact .ok ⟨fun _ => h.children _ _ _ _ _ _ hH hab hcd, hab, hcd⟩
    · split
      · refine (h.histSlice _ _ _).bind fun a b _ _ hab => ?_
        refine (h.histSlice _ _ _).bind fun c d _ _ hcd => ?_
        exact .ok ⟨fun _ => hab, h.children _ _ _ _ _ _ hH hab hcd, hcd⟩
      · refine (h.histSlice _ _ _).bind fun a b _ _ hab => ?_
        refine (h.histSlice _ _ _).bind fun c d _ _ hcd => ?_
        exact .ok ⟨fun _ => hab, hcd, h.children _ _ _ _ _ _ hH hab hcd⟩

theorem branchHandle_sel (h : TrainSel keep P s s' E t t') (p p' : BranchParams F)
    (hp : p'.missingNodeTreatment = p.missingNodeTreatment) (info : SplitInfo F D) (hk : info.splitFeature ∈ keep)
    (hterm : p'.terminateMissingFeatures.contains (keep.idxOf info.splitFeature) =
      p.terminateMissingFeatures.contains info.splitFeature) (n : Nat)
    {node node' : SNode F D} (hn : OpenExt E node node') (index : List Nat) :
    Res.Imp (SplitSel keep E) (branchHandle p t info n node index)
      (branchHandle p' t' (info.renumber keep) n node' index) := by
  obtain ⟨h', rfl, hH⟩ := hn
  have hm : p'.missingChild (info.renumber keep) = p.missingChild info := by
    unfold BranchParams.missingChild
    dsimp only [SplitInfo.renumber]
    rw [hterm]
  unfold branchHandle
  rw [hm, hp]
  dsimp only [SplitInfo.renumber]
  refine (Res.Imp.same (p.missingChild info)).bind fun mc mc' _ _ e => ?_
  subst e
  obtain ⟨isLeaf, mi⟩ := mc
  dsimp only
  refine (Res.Imp.same _).bind fun rows rows' _ _ e => ?_
  subst e
  refine (Res.Imp.of_eq (h.col _ hk)).bind fun ft ft' _ _ e => ?_
  subst e
  refine (Res.Imp.same _).bind fun r r' _ _ e => ?_
  subst e
  obtain ⟨rows2, ms, split⟩ := r
  dsimp only
  refine (Res.Imp.same _).bind fun _ _ _ _ _ => ?_
  refine (branchHists_sel h hH _ _ _ _ _ _).bind fun r r' _ _ hr => ?_
  obtain ⟨mh, lh, rh⟩ := r
  obtain ⟨mh', lh', rh'⟩ := r'
  obtain ⟨h1, h2, h3⟩ := hr
  refine .ok ⟨rfl, .cons ⟨⟨mh', rfl, ?_⟩, rfl⟩ (.cons ⟨⟨lh', rfl, fun _ => h2⟩, rfl⟩
    (.cons ⟨⟨rh', rfl, fun _ => h3⟩, rfl⟩ .nil)), fun _ => ⟨h', rfl⟩⟩
  intro hm
  simp only [Bool.or_eq_false_iff, decide_eq_false_iff_not] at hm
  exact h1 hm.2

theorem splitNode_sel (hs : SplitterSel keep s s') (h : TrainSel keep P s s' E t t') (n : Nat)
    {node node' : SNode F D} (hn : OpenExt E node node') (index : List Nat)
    (hk : ∀ info, bestSplit s node t.colIndex = .ok (some info) → info.splitFeature ∈ keep) (hP : P node) :
    Res.Imp (SplitSel keep E) (splitNode s t n node index) (splitNode s' t' n node' index) := by
  unfold splitNode
  obtain ⟨h', rfl, hH⟩ := id hn
  have hb : Res.Imp (fun r r' => r' = r.map (SplitInfo.renumber keep)) (bestSplit s node t.colIndex)
      (bestSplit s' { node with histograms := h' } t'.colIndex) := fun r hr =>
    ⟨_, h.best node h' r hH hr (fun info e => hk info (by rw [hr, e])) hP, rfl⟩
  refine hb.bind fun x x' hx0 _ hx => ?_
  subst hx
  cases x with
  | none => exact .ok ⟨rfl, .nil, fun h => absurd rfl h⟩
  | some info =>
    have hki := hk info hx0
    have hterm := hs.terminate _ hki
    obtain ⟨m, l, rfl⟩ := hs.eq
    cases s with
    | imputer p => exact imputerHandle_sel h info hki n hn index
    | branch p =>
      exact branchHandle_sel h p { p with constraintsMap := m, terminateMissingFeatures := l } rfl info hki hterm n
        hn index

/-- Two states of the loop. -/
structure GrowSel (keep : List Nat) (E : JaggedMatrix (Bin F D) → JaggedMatrix (Bin F D) → Prop)
    (a b : GrowState F D) : Prop where
  nodes : b.nodes = a.nodes.map (Node.renumber keep)
  index : b.index = a.index
  queue : List.Forall₂ (OpenExt E) a.queue b.queue
  nLeaves : b.nLeaves = a.nLeaves
  nNodes : b.nNodes = a.nNodes
  step : b.step = a.step

theorem addNodes_sel (lr : F) {new new' : List (SNode F D)} (h : List.Forall₂ (NewSel E) new new') :
    ∀ {nodes : List (Node F D)} {q q' : List (SNode F D)}, List.Forall₂ (OpenExt E) q q' →
      (addNodes lr (nodes.map (Node.renumber keep)) q' new').1 = (addNodes lr nodes q new).1.map (Node.renumber keep) ∧
        List.Forall₂ (OpenExt E) (addNodes lr nodes q new).2
          (addNodes lr (nodes.map (Node.renumber keep)) q' new').2 := by
  induction h with
  | nil => intro _ _ _ h; exact ⟨rfl, h⟩
  | cons hn _ ih =>
    rename_i n n' l l' _
    intro nodes q q' h2
    obtain ⟨⟨h', rfl, hH⟩, hl⟩ := hn
    unfold addNodes
    have e : nodes.map (Node.renumber keep) ++ [SNode.asNode { n with histograms := h' } lr] =
        (nodes ++ [n.asNode lr]).map (Node.renumber keep) := by
      rw [List.map_append]
      congr 1
      simp [SNode.asNode, Node.renumber, hl]
    rw [e]
    refine ih ?_
    dsimp only
    split
    · exact h2
    · rename_i hm
      exact .cons ⟨h', rfl, hH (by simpa using hm)⟩ h2

/-- Two configurations. -/
structure CfgSel (keep : List Nat) (P : SNode F D → Prop) (E : JaggedMatrix (Bin F D) → JaggedMatrix (Bin F D) → Prop)
    (c c' : GrowCfg F D) : Prop where
  train : TrainSel keep P c.splitter c'.splitter E c.train c'.train
  splitter : SplitterSel keep c.splitter c'.splitter
  maxLeaves : c'.maxLeaves = c.maxLeaves
  maxDepth : c'.maxDepth = c.maxDepth
  policy : c'.policy = c.policy
  heap : c'.heap = c.heap
  byScore : c.heap.ByScore

variable {c c' : GrowCfg F D}

theorem growStep_sel (hc : CfgSel keep P E c c') {a b : GrowState F D} (h : GrowSel keep E a b)
    (hk : ∀ node q info, popNode c.heap c.policy a.step a.queue = .ok (node, q) → node.depth + 1 ≤ c.maxDepth →
      bestSplit c.splitter node c.train.colIndex = .ok (some info) → info.splitFeature ∈ keep)
    (hP : ∀ node q, popNode c.heap c.policy a.step a.queue = .ok (node, q) → node.depth + 1 ≤ c.maxDepth → P node) :
    Res.Imp (GrowSel keep E) (growStep c a) (growStep c' b) := by
  have hlr : c'.splitter.params.learningRate = c.splitter.params.learningRate := by
    obtain ⟨m, l, e⟩ := hc.splitter.eq
    rw [e]
    cases c.splitter <;> rfl
  unfold growStep
  rw [hc.policy, hc.heap, hc.maxDepth, hlr, h.step]
  refine (popNode_ext hc.byScore c.policy a.step h.queue).bind fun r r' hr0 _ hr => ?_
  obtain ⟨node, q⟩ := r
  obtain ⟨node', q'⟩ := r'
  obtain ⟨hn, hq⟩ := hr
  dsimp only at hn hq ⊢
  have hd : node'.depth = node.depth := by obtain ⟨_, rfl, _⟩ := hn; rfl
  have hnum : node'.num = node.num := by obtain ⟨_, rfl, _⟩ := hn; rfl
  rw [hd, hnum, h.index, h.nLeaves, h.nNodes, h.nodes]
  split
  · exact .ok ⟨rfl, rfl, hq, rfl, rfl, rfl⟩
  · rename_i hdep
    refine (splitNode_sel hc.splitter hc.train a.nNodes hn a.index
      (fun info hi => hk node q info hr0 (by omega) hi) (hP node q hr0 (by omega))).bind fun r r' _ _ hr => ?_
    obtain ⟨n1, ix, new⟩ := r
    obtain ⟨n1', ix', new'⟩ := r'
    obtain ⟨e1, e2, e3⟩ := hr
    dsimp only at e1 e2 e3 ⊢
    subst e1
    rw [← e2.length_eq]
    split
    · exact .ok ⟨rfl, rfl, hq, rfl, rfl, rfl⟩
    · rename_i hne
      obtain ⟨h', e3⟩ := e3 (fun h0 => hne (by rw [h0]; rfl))
      subst e3
      have hidx : Res.Imp (fun x x' => x' = Node.renumber keep x) (idx a.nodes node.num)
          (idx (a.nodes.map (Node.renumber keep)) node.num) := by
        intro x hx
        rw [idx_eq_ok] at hx
        exact ⟨_, by rw [idx_eq_ok, List.getElem?_map, hx]; rfl, rfl⟩
      refine hidx.bind fun x x' _ _ hx => ?_
      subst hx
      have e4 : (x.renumber keep).makeParentNode
          { n1 with histograms := h', splitFeature := keep.idxOf n1.splitFeature } =
          (x.makeParentNode n1).renumber keep := by
        simp [Node.makeParentNode, Node.renumber]
      rw [e4, ← List.map_set]
      have := addNodes_sel (keep := keep) c.splitter.params.learningRate e2
        (nodes := a.nodes.set node.num (x.makeParentNode n1)) hq
      exact .ok ⟨this.1, rfl, this.2, rfl, rfl, rfl⟩

theorem growDone_sel (hc : CfgSel keep P E c c') {a b : GrowState F D} (h : GrowSel keep E a b) :
    growDone c' b = growDone c a := by
  unfold growDone
  rw [hc.maxLeaves, h.nLeaves]
  have := h.queue.length_eq
  have e : b.queue.isEmpty = a.queue.isEmpty := by
    cases h1 : a.queue <;> cases h2 : b.queue <;> simp_all
  rw [e]
  rfl

/-- A split node is never touched again. -/
theorem growStep_keeps {root : SNode F D} {ix : List Nat} {a b : GrowState F D} {gs : List (Ghost F D)}
    (hI : Inv c root ix a gs) (h : growStep c a = .ok b) {i : Nat} {n : Node F D} (hi : a.nodes[i]? = some n)
    (hl : n.isLeaf = false) : b.nodes[i]? = some n := by
  obtain ⟨node, queue, hpop, hcase, _⟩ := growStep_ok h
  rcases hcase with ⟨a1, _⟩ | ⟨_, info, rows, kids, node', nn, _, _, b3, b4, _⟩
  · rw [a1]; exact hi
  · have hmem : node ∈ a.queue := (popNode_ok hpop).1.mem_iff.2 (by simp)
    obtain ⟨g, g1, g2, g3, _⟩ := hI.queue node hmem
    have hne : i ≠ node.num := by
      rintro rfl
      have := (hI.cert.leaf _ _ g1 g3).1
      rw [this] at hi
      injection hi with hi
      have h2 := (hI.cert.num _ _ g1).2
      rw [← hi] at hl
      simp [SNode.asNode, h2] at hl
    rw [b4, getElem?_set_append, if_pos (List.getElem?_eq_some_iff.1 hi).1, if_neg hne]
    exact hi

theorem growStep_inv {root : SNode F D} {ix : List Nat} {a b : GrowState F D} {gs : List (Ghost F D)}
    (hI : Inv c root ix a gs) (hd : growDone c a = false) (h : growStep c a = .ok b) : ∃ gs', Inv c root ix b gs' := by
  obtain ⟨node, queue, hpop, hcase, _⟩ := growStep_ok h
  rcases hcase with ⟨a1, a2, a3, a4, a5, a6⟩ | ⟨hdp, info, rows, kids, node', nn, b1, b2, b3, b4, b5, b6, b7⟩
  · exact ⟨gs, hI.leaf hpop a1 a2 a3 a4 a5 a6⟩
  · exact hI.split hd hpop hdp b1 b2 b3 b4 b5 b6 b7

theorem growLoop_keeps {root : SNode F D} {ix : List Nat} : ∀ (k : Nat) {a b : GrowState F D} {gs : List (Ghost F D)},
    Inv c root ix a gs → growLoop c k a = .ok b → ∀ {i : Nat} {n : Node F D}, a.nodes[i]? = some n →
      n.isLeaf = false → b.nodes[i]? = some n
  | 0, a, b, gs, _, h, i, n, hi, _ => by
    unfold growLoop at h
    split at h
    · cases h; exact hi
    · cases h
  | k + 1, a, b, gs, hI, h, i, n, hi, hl => by
    unfold growLoop at h
    split at h
    · cases h; exact hi
    · rename_i hd
      obtain ⟨a1, h1, h2⟩ := Res.bind_eq_ok.1 h
      obtain ⟨gs1, hI1⟩ := growStep_inv hI (by simpa using hd) h1
      exact growLoop_keeps k hI1 h2 (growStep_keeps hI h1 hi hl) hl

theorem growLoop_sel (hc : CfgSel keep (fun _ => True) E c c') {root : SNode F D} {ix : List Nat} :
    ∀ (k : Nat) {a b r : GrowState F D} {gs : List (Ghost F D)}, Inv c root ix a gs → GrowSel keep E a b →
    growLoop c k a = .ok r → (∀ n ∈ r.nodes, n.isLeaf = false → n.splitFeature ∈ keep) →
    ∃ r', growLoop c' k b = .ok r' ∧ GrowSel keep E r r'
  | 0, a, b, r, gs, _, h, hr, _ => by
    unfold growLoop at hr ⊢
    rw [growDone_sel hc h]
    split at hr
    · rename_i hd; cases hr; rw [if_pos hd]; exact ⟨b, rfl, h⟩
    · cases hr
  | k + 1, a, b, r, gs, hI, h, hr, hk => by
    unfold growLoop at hr ⊢
    rw [growDone_sel hc h]
    split at hr
    · rename_i hd; cases hr; rw [if_pos hd]; exact ⟨b, rfl, h⟩
    · rename_i hd
      rw [if_neg hd]
      obtain ⟨a1, h1, h2⟩ := Res.bind_eq_ok.1 hr
      obtain ⟨gs1, hI1⟩ := growStep_inv hI (by simpa using hd) h1
      have huse : ∀ node q info, popNode c.heap c.policy a.step a.queue = .ok (node, q) →
          node.depth + 1 ≤ c.maxDepth →
          bestSplit c.splitter node c.train.colIndex = .ok (some info) → info.splitFeature ∈ keep := by
        intro node q info hp hdep hb
        obtain ⟨node2, q2, hpop, hcase, _⟩ := growStep_ok h1
        rw [hp] at hpop
        cases hpop
        rcases hcase with ⟨_, _, _, _, _, hm | hm⟩ | ⟨_, info2, rows, kids, node', nn, b1, b2, b3, b4, _⟩
        · omega
        · rw [hb] at hm; cases hm
        · rw [hb] at b1
          cases b1
          have hlt := (List.getElem?_eq_some_iff.1 b3).1
          have hpar : a1.nodes[node.num]? = some (nn.makeParentNode node') := by
            rw [b4, getElem?_set_append, if_pos hlt, if_pos rfl]
          have := growLoop_keeps k hI1 h2 hpar rfl
          have hf := hk _ (List.mem_of_getElem? this) rfl
          rw [b2.node_eq] at hf
          cases hsp : c.splitter <;> rw [hsp] at hf <;> exact hf
      obtain ⟨b1, hb1, hab⟩ := growStep_sel hc h huse (fun _ _ _ _ => trivial) a1 h1
      obtain ⟨r', hr', hrr⟩ := growLoop_sel hc k hI1 hab h2 hk
      exact ⟨r', Res.bind_eq_ok.2 ⟨b1, hb1, hr'⟩, hrr⟩

theorem growInit_sel (hc : CfgSel keep P E c c') (sm : SampleMethod) (index : List Nat) :
    Res.Imp (GrowSel keep E) (growInit c sm index) (growInit c' sm index) := by
  obtain ⟨m, l, e⟩ := hc.splitter.eq
  have e1 : c'.splitter.params.l1 = c.splitter.params.l1 ∧ c'.splitter.params.l2 = c.splitter.params.l2 ∧
      c'.splitter.params.maxDeltaStep = c.splitter.params.maxDeltaStep ∧
      c'.splitter.params.learningRate = c.splitter.params.learningRate := by
    rw [e]
    cases c.splitter <;> exact ⟨rfl, rfl, rfl, rfl⟩
  obtain ⟨e1, e2, e3, e4⟩ := e1
  unfold growInit
  dsimp only
  rw [e1, e2, e3, e4, hc.train.grad, hc.train.hess]
  refine (Res.Imp.same _).bind fun r r' _ _ hr => ?_
  subst hr
  obtain ⟨g, h, sort⟩ := r
  dsimp only
  refine (hc.train.hist index sort).bind fun H H' _ _ hH => ?_
  exact .ok ⟨rfl, rfl, .cons ⟨H', rfl, hH⟩ .nil, rfl, rfl, rfl⟩

/-! ## Cleaning up -/

theorem updateAverage_sel : ∀ (fuel : Nat) (nodes : List (Node F D)) (i : Nat),
    Res.Imp (fun r r' => r' = (r.1.map (Node.renumber keep), r.2))
      (updateAverage (D := D) fuel nodes i) (updateAverage (D := D) fuel (nodes.map (Node.renumber keep)) i)
  | 0, _, _ => .diverge
  | fuel + 1, nodes, i => by
    have hidx : ∀ (ns : List (Node F D)) (j : Nat), Res.Imp (fun x x' => x' = Node.renumber keep x) (idx ns j)
        (idx (ns.map (Node.renumber keep)) j) := by
      intro ns j x hx
      rw [idx_eq_ok] at hx
      exact ⟨_, by rw [idx_eq_ok, List.getElem?_map, hx]; rfl, rfl⟩
    have hmod : ∀ (ns : List (Node F D)) (j : Nat) (w : F),
        (ns.map (Node.renumber keep)).modify j (fun n => { n with weightValue := w }) =
          (ns.modify j fun n => { n with weightValue := w }).map (Node.renumber keep) := by
      intro ns j w
      apply List.ext_getElem?
      intro k
      simp only [List.getElem?_modify, List.getElem?_map]
      cases ns[k]? with
      | none => rfl
      | some n => by_cases hj : j = k <;> simp [hj, Node.renumber]
    unfold updateAverage
    refine (hidx _ i).bind fun n n' _ _ hn => ?_
    subst hn
    rw [show (n.renumber keep).isLeaf = n.isLeaf from rfl]
    split
    · exact .ok rfl
    · dsimp only [Node.renumber]
      refine (hidx _ _).bind fun rn rn' _ _ hrn => ?_
      subst hrn
      refine (updateAverage_sel fuel nodes n.rightChild).bind fun r r' _ _ hr => ?_
      obtain ⟨ns, ra⟩ := r
      subst hr
      dsimp only
      refine (hidx _ _).bind fun ln ln' _ _ hln => ?_
      subst hln
      refine (updateAverage_sel fuel ns n.leftChild).bind fun r r' _ _ hr => ?_
      obtain ⟨ns2, la⟩ := r
      subst hr
      dsimp only
      refine (hidx _ _).bind fun mn mn' _ _ hmn => ?_
      subst hmn
      rw [show (mn.renumber keep).isLeaf = mn.isLeaf from rfl, show (mn.renumber keep).hessianSum = mn.hessianSum from rfl]
      split
      · simp only [Res.pure_def, Res.ok_bind, if_true]
        refine .ok ?_
        rw [hmod, hmod]
        rfl
      · refine (updateAverage_sel fuel ns2 n.missingNode).bind fun r r' _ _ hr => ?_
        obtain ⟨ns3, ma⟩ := r
        subst hr
        refine .ok ?_
        dsimp only
        rw [hmod]
        rfl

theorem cleanUpSplits_sel (hs : SplitterSel keep s s') (nodes : List (Node F D)) :
    Res.Imp (fun r r' => r' = r.map (Node.renumber keep)) (cleanUpSplits s nodes)
      (cleanUpSplits s' (nodes.map (Node.renumber keep))) := by
  obtain ⟨m, l, rfl⟩ := hs.eq
  unfold cleanUpSplits
  cases s with
  | imputer p => exact .ok rfl
  | branch p =>
    dsimp only [Splitter.withMaps]
    split
    · rw [List.length_map]
      refine (updateAverage_sel _ nodes 0).bind fun a b _ _ hab => ?_
      subst hab
      exact .ok rfl
    · exact .ok rfl

/-- The grown trees. -/
theorem treeFit_sel (hc : CfgSel keep (fun _ => True) E c c') (sm : SampleMethod) (index : List Nat) {T : Tree F D}
    (h : Tree.fit c sm index = .ok T) (hk : T.UsesOnly keep) : Tree.fit c' sm index = .ok (T.renumber keep) := by
  unfold Tree.fit at h ⊢
  obtain ⟨a, h1, h⟩ := Res.bind_eq_ok.1 h
  obtain ⟨r, h2, h⟩ := Res.bind_eq_ok.1 h
  obtain ⟨ns, h3, h⟩ := Res.bind_eq_ok.1 h
  cases h
  obtain ⟨b, hb, hab⟩ := growInit_sel hc sm index a h1
  obtain ⟨_, _, _, _, _, _, gs, hI⟩ := growInit_inv h1
  have hsh := cleanUpSplits_shape h3
  obtain ⟨r', hr', hrr⟩ := growLoop_sel hc _ hI hab h2 (by
    intro n hn hl
    obtain ⟨i, hi⟩ := List.getElem?_of_mem hn
    obtain ⟨w, hw⟩ := hsh.2 i n hi
    exact hk { n with weightValue := w } (List.mem_of_getElem? hw) hl)
  obtain ⟨ns', h3', e⟩ := cleanUpSplits_sel hc.splitter r.nodes ns h3
  refine Res.bind_eq_ok.2 ⟨b, hb, Res.bind_eq_ok.2 ⟨r', ?_, Res.bind_eq_ok.2 ⟨ns', ?_, ?_⟩⟩⟩
  · rw [show growFuel c' = growFuel c by unfold growFuel; rw [hc.maxLeaves]]; exact hr'
  · rw [hrr.nodes]; exact h3'
  · rw [e]; rfl

end Verif
