import Verif.Proofs.RelateGrow

/-!
# Growing on data with more columns: forward simulation

`TrainExt` says what the second training data must offer so that every step that succeeds on the first also succeeds
on the second, with the same choices.  The relation `E` between the histograms of the two runs is a parameter.
-/

namespace Verif

open scoped Verif

set_option linter.unusedSectionVars false

/-- If the first result is a value, so is the second, and the values are related. -/
def Res.Imp {α β : Type} (R : α → β → Prop) (x : Res α) (y : Res β) : Prop :=
  ∀ a, x = .ok a → ∃ b, y = .ok b ∧ R a b

namespace Res
variable {α β γ δ : Type}

theorem Imp.of_eq {x y : Res α} (h : ∀ a, x = .ok a → y = .ok a) : Imp Eq x y := fun a ha => ⟨a, h a ha, rfl⟩

theorem Imp.same (x : Res α) : Imp Eq x x := fun a ha => ⟨a, ha, rfl⟩

theorem Imp.ok {R : α → β → Prop} {a : α} {b : β} (h : R a b) : Imp R (.ok a) (.ok b) := by
  intro c hc
  cases hc
  exact ⟨b, rfl, h⟩

theorem Imp.bind {R : α → β → Prop} {S : γ → δ → Prop} {x : Res α} {y : Res β} {f : α → Res γ}
    {g : β → Res δ} (h : Imp R x y) (hf : ∀ a b, x = .ok a → y = .ok b → R a b → Imp S (f a) (g b)) :
    Imp S (x >>= f) (y >>= g) := by
  intro c hc
  obtain ⟨a, ha, hc⟩ := Res.bind_eq_ok.1 hc
  obtain ⟨b, hb, hab⟩ := h a ha
  obtain ⟨d, hd, hcd⟩ := hf a b ha hb hab c hc
  exact ⟨d, Res.bind_eq_ok.2 ⟨b, hb, hd⟩, hcd⟩

theorem Imp.mono {R S : α → β → Prop} {x : Res α} {y : Res β} (h : Imp R x y) (hi : ∀ a b, R a b → S a b) :
    Imp S x y := by
  intro a ha
  obtain ⟨b, hb, hab⟩ := h a ha
  exact ⟨b, hb, hi a b hab⟩

theorem Imp.panic {R : α → β → Prop} {y : Res β} : Imp R (.panic) y := fun _ h => by cases h

theorem Imp.diverge {R : α → β → Prop} {y : Res β} : Imp R (.diverge) y := fun _ h => by cases h

theorem Rel.imp {R : α → β → Prop} {x : Res α} {y : Res β} (h : Rel R x y) : Imp R x y := by
  intro a ha
  subst ha
  cases y with
  | ok b => exact ⟨b, rfl, h⟩
  | panic => exact h.elim
  | diverge => exact h.elim

end Res

variable {F D : Type} [Fl F] [Fl D] [FlCast F D]

/-- What the second training data must offer. -/
structure TrainExt (s : Splitter F) (E : JaggedMatrix (Bin F D) → JaggedMatrix (Bin F D) → Prop)
    (t t' : TrainData F D) : Prop where
  grad : t'.grad = t.grad
  hess : t'.hess = t.hess
  col : ∀ c v, t.data.getCol c = .ok v → t'.data.getCol c = .ok v
  hist : ∀ index sort, Res.Imp E (histogramMatrix t.data t.cuts t.grad t.hess index t.colIndex sort)
    (histogramMatrix t'.data t'.cuts t.grad t.hess index t'.colIndex sort)
  child : ∀ H H' C C', E H H' → E C C' → E (histFromParentChild H C) (histFromParentChild H' C')
  children : ∀ H H' C C' B B', E H H' → E C C' → E B B' →
    E (histFromParentTwoChildren H C B) (histFromParentTwoChildren H' C' B')
  best : ∀ (node : SNode F D) h' r, E node.histograms h' → bestSplit s node t.colIndex = .ok r →
    bestSplit s { node with histograms := h' } t'.colIndex = .ok r

variable {s : Splitter F} {E : JaggedMatrix (Bin F D) → JaggedMatrix (Bin F D) → Prop} {t t' : TrainData F D}

theorem TrainExt.histSlice (h : TrainExt s E t t') (index : List Nat) (i j : Nat) :
    Res.Imp E (t.hist index i j) (t'.hist index i j) := by
  unfold TrainData.hist
  rw [h.grad, h.hess]
  refine (Res.Imp.same _).bind fun r r' _ _ hr => ?_
  subst hr
  exact h.hist r true

/-- Two open nodes. -/
def OpenExt (E : JaggedMatrix (Bin F D) → JaggedMatrix (Bin F D) → Prop) (n n' : SNode F D) : Prop :=
  ∃ h', n' = { n with histograms := h' } ∧ E n.histograms h'

/-- Two new nodes. -/
def NewExt (E : JaggedMatrix (Bin F D) → JaggedMatrix (Bin F D) → Prop) (n n' : SNode F D) : Prop :=
  ∃ h', n' = { n with histograms := h' } ∧ (n.isMissingLeaf = false → E n.histograms h')

/-- Two outcomes of a split. -/
def SplitExt (E : JaggedMatrix (Bin F D) → JaggedMatrix (Bin F D) → Prop)
    (r r' : SNode F D × List Nat × List (SNode F D)) : Prop :=
  r'.2.1 = r.2.1 ∧ List.Forall₂ (NewExt E) r.2.2 r'.2.2 ∧ ∃ h', r'.1 = { r.1 with histograms := h' }

theorem imputerHandle_ext (h : TrainExt s E t t') (info : SplitInfo F D) (n : Nat) {node node' : SNode F D}
    (hn : OpenExt E node node') (index : List Nat) :
    Res.Imp (SplitExt E) (imputerHandle t info n node index) (imputerHandle t' info n node' index) := by
  obtain ⟨h', rfl, hH⟩ := hn
  unfold imputerHandle
  dsimp only
  refine (Res.Imp.same _).bind fun mr mr' _ _ e => ?_
  subst e
  refine (Res.Imp.same _).bind fun rows rows' _ _ e => ?_
  subst e
  refine (Res.Imp.of_eq (h.col _)).bind fun ft ft' _ _ e => ?_
  subst e
  refine (Res.Imp.same _).bind fun r r' _ _ e => ?_
  subst e
  obtain ⟨rows2, split⟩ := r
  dsimp only
  split
  · refine (h.histSlice _ _ _).bind fun a b _ _ hab => ?_
    exact .ok ⟨rfl, .cons ⟨_, rfl, fun _ => hab⟩ (.cons ⟨_, rfl, fun _ => h.child _ _ _ _ hH hab⟩ .nil), h', rfl⟩
  · refine (h.histSlice _ _ _).bind fun a b _ _ hab => ?_
    exact .ok ⟨rfl, .cons ⟨_, rfl, fun _ => h.child _ _ _ _ hH hab⟩ (.cons ⟨_, rfl, fun _ => hab⟩ .nil), h', rfl⟩

theorem branchHists_ext (h : TrainExt s E t t') {node : SNode F D} {h' : JaggedMatrix (Bin F D)}
    (hH : E node.histograms h') (index : List Nat) (nm nl nr ms sp : Nat) :
    Res.Imp (fun r r' => (nm ≠ 0 → E r.1 r'.1) ∧ E r.2.1 r'.2.1 ∧ E r.2.2 r'.2.2)
      (branchHists t node index nm nl nr ms sp)
      (branchHists t' { node with histograms := h' } index nm nl nr ms sp) := by
  unfold branchHists
  dsimp only
  split
  · rename_i h0
    split
    · refine (h.histSlice _ _ _).bind fun a b _ _ hab => ?_
      exact .ok ⟨fun hc => absurd h0 hc, h.child _ _ _ _ hH hab, hab⟩
    · refine (h.histSlice _ _ _).bind fun a b _ _ hab => ?_
      exact .ok ⟨fun hc => absurd h0 hc, hab, h.child _ _ _ _ hH hab⟩
  · split
    · refine (h.histSlice _ _ _).bind fun a b _ _ hab => ?_
      refine (h.histSlice _ _ _).bind fun c d _ _ hcd => ?_
      exact .ok ⟨fun _ => h.children _ _ _ _ _ _ hH hab hcd, hab, hcd⟩
    · split
      · refine (h.histSlice _ _ _).bind fun a b _ _ hab => ?_
        refine (h.histSlice _ _ _).bind fun c d _ _ hcd => ?_
        exact .ok ⟨fun _ => hab, h.children _ _ _ _ _ _ hH hab hcd, hcd⟩
      · refine (h.histSlice _ _ _).bind fun a b _ _ hab => ?_
        refine (h.histSlice _ _ _).bind fun c d _ _ hcd => ?_
        exact .ok ⟨fun _ => hab, hcd, h.children _ _ _ _ _ _ hH hab hcd⟩

theorem branchHandle_ext (h : TrainExt s E t t') (p : BranchParams F) (info : SplitInfo F D) (n : Nat)
    {node node' : SNode F D} (hn : OpenExt E node node') (index : List Nat) :
    Res.Imp (SplitExt E) (branchHandle p t info n node index) (branchHandle p t' info n node' index) := by
  obtain ⟨h', rfl, hH⟩ := hn
  unfold branchHandle
  dsimp only
  refine (Res.Imp.same (p.missingChild info)).bind fun mc mc' _ _ e => ?_
  subst e
  obtain ⟨isLeaf, mi⟩ := mc
  dsimp only
  refine (Res.Imp.same _).bind fun rows rows' _ _ e => ?_
  subst e
  refine (Res.Imp.of_eq (h.col _)).bind fun ft ft' _ _ e => ?_
  subst e
  refine (Res.Imp.same _).bind fun r r' _ _ e => ?_
  subst e
  obtain ⟨rows2, ms, split⟩ := r
  dsimp only
  refine (Res.Imp.same _).bind fun _ _ _ _ _ => ?_
  refine (branchHists_ext h hH _ _ _ _ _ _).bind fun r r' _ _ hr => ?_
  obtain ⟨mh, lh, rh⟩ := r
  obtain ⟨mh', lh', rh'⟩ := r'
  obtain ⟨h1, h2, h3⟩ := hr
  refine .ok ⟨rfl, .cons ⟨mh', rfl, ?_⟩ (.cons ⟨lh', rfl, fun _ => h2⟩ (.cons ⟨rh', rfl, fun _ => h3⟩ .nil)), h', rfl⟩
  intro hm
  simp only [Bool.or_eq_false_iff, decide_eq_false_iff_not] at hm
  exact h1 hm.2

theorem splitNode_ext (h : TrainExt s E t t') (n : Nat) {node node' : SNode F D} (hn : OpenExt E node node')
    (index : List Nat) : Res.Imp (SplitExt E) (splitNode s t n node index) (splitNode s t' n node' index) := by
  unfold splitNode
  obtain ⟨h', rfl, hH⟩ := id hn
  refine (Res.Imp.of_eq fun r hr => h.best node h' r hH hr).bind fun x x' _ _ hx => ?_
  subst hx
  cases x with
  | none => exact .ok ⟨rfl, .nil, h', rfl⟩
  | some info =>
    cases s with
    | imputer p => exact imputerHandle_ext h info n hn index
    | branch p => exact branchHandle_ext h p info n hn index

/-- Two states of the loop. -/
structure GrowExt (E : JaggedMatrix (Bin F D) → JaggedMatrix (Bin F D) → Prop) (a b : GrowState F D) : Prop where
  nodes : b.nodes = a.nodes
  index : b.index = a.index
  queue : List.Forall₂ (OpenExt E) a.queue b.queue
  nLeaves : b.nLeaves = a.nLeaves
  nNodes : b.nNodes = a.nNodes
  step : b.step = a.step

theorem popNode_ext {hp : HeapPick F D} (hh : hp.ByScore) (pol : GrowPolicy) (n : Nat) {q q' : List (SNode F D)}
    (h : List.Forall₂ (OpenExt E) q q') :
    Res.Imp (fun r r' => OpenExt E r.1 r'.1 ∧ List.Forall₂ (OpenExt E) r.2 r'.2) (popNode hp pol n q)
      (popNode hp pol n q') := by
  unfold popNode
  cases pol with
  | depthWise =>
    dsimp only
    rw [List.getLast?_eq_getElem?, List.getLast?_eq_getElem?, ← h.length_eq]
    exact (idx_sim h (q.length - 1)).imp.bind fun a b _ _ hab => .ok ⟨hab, forall₂_dropLast h⟩
  | lossGuide =>
    dsimp only
    have e : hp.pick n q' = hp.pick n q := by
      apply hh
      clear hh
      induction h with
      | nil => rfl
      | cons h1 _ ih =>
        obtain ⟨h', rfl, _⟩ := h1
        simp [ih]
    rw [e]
    exact (idx_sim h _).imp.bind fun a b _ _ hab => .ok ⟨hab, forall₂_eraseIdx h _⟩

theorem addNodes_ext (lr : F) {new new' : List (SNode F D)} (h : List.Forall₂ (NewExt E) new new') :
    ∀ {nodes : List (Node F D)} {q q' : List (SNode F D)}, List.Forall₂ (OpenExt E) q q' →
      (addNodes lr nodes q' new').1 = (addNodes lr nodes q new).1 ∧
        List.Forall₂ (OpenExt E) (addNodes lr nodes q new).2 (addNodes lr nodes q' new').2 := by
  induction h with
  | nil => intro _ _ _ h; exact ⟨rfl, h⟩
  | cons hn _ ih =>
    intro nodes q q' h2
    obtain ⟨h', rfl, hH⟩ := hn
    unfold addNodes
    refine ih ?_
    dsimp only
    split
    · exact h2
    · rename_i hm
      exact .cons ⟨h', rfl, hH (by simpa using hm)⟩ h2

/-- Two configurations. -/
structure CfgExt (E : JaggedMatrix (Bin F D) → JaggedMatrix (Bin F D) → Prop) (c c' : GrowCfg F D) : Prop where
  train : TrainExt c.splitter E c.train c'.train
  splitter : c'.splitter = c.splitter
  maxLeaves : c'.maxLeaves = c.maxLeaves
  maxDepth : c'.maxDepth = c.maxDepth
  policy : c'.policy = c.policy
  heap : c'.heap = c.heap
  byScore : c.heap.ByScore

variable {c c' : GrowCfg F D}

theorem growStep_ext (hc : CfgExt E c c') {a b : GrowState F D} (h : GrowExt E a b) :
    Res.Imp (GrowExt E) (growStep c a) (growStep c' b) := by
  unfold growStep
  rw [hc.policy, hc.heap, hc.maxDepth, hc.splitter, h.step]
  refine (popNode_ext hc.byScore c.policy a.step h.queue).bind fun r r' _ _ hr => ?_
  obtain ⟨node, q⟩ := r
  obtain ⟨node', q'⟩ := r'
  obtain ⟨hn, hq⟩ := hr
  dsimp only at hn hq ⊢
  have hd : node'.depth = node.depth := by obtain ⟨_, rfl, _⟩ := hn; rfl
  have hnum : node'.num = node.num := by obtain ⟨_, rfl, _⟩ := hn; rfl
  rw [hd, hnum, h.index, h.nLeaves, h.nNodes, h.nodes]
  split
  · exact .ok ⟨rfl, rfl, hq, rfl, rfl, rfl⟩
  · refine (splitNode_ext hc.train a.nNodes hn a.index).bind fun r r' _ _ hr => ?_
    obtain ⟨n1, ix, new⟩ := r
    obtain ⟨n1', ix', new'⟩ := r'
    obtain ⟨e1, e2, h', e3⟩ := hr
    dsimp only at e1 e2 e3 ⊢
    subst e1 e3
    rw [← e2.length_eq]
    split
    · exact .ok ⟨rfl, rfl, hq, rfl, rfl, rfl⟩
    · refine (Res.Imp.same _).bind fun x x' _ _ hx => ?_
      subst hx
      rw [show x.makeParentNode { n1 with histograms := h' } = x.makeParentNode n1 from rfl]
      have := addNodes_ext c.splitter.params.learningRate e2 (nodes := a.nodes.set node.num (x.makeParentNode n1)) hq
      exact .ok ⟨this.1, rfl, this.2, rfl, rfl, rfl⟩

theorem growDone_ext (hc : CfgExt E c c') {a b : GrowState F D} (h : GrowExt E a b) :
    growDone c' b = growDone c a := by
  unfold growDone
  rw [hc.maxLeaves, hc.splitter, h.nLeaves]
  have := h.queue.length_eq
  have e : b.queue.isEmpty = a.queue.isEmpty := by
    cases h1 : a.queue <;> cases h2 : b.queue <;> simp_all
  rw [e]

theorem growLoop_ext (hc : CfgExt E c c') : ∀ (n : Nat) {a b : GrowState F D}, GrowExt E a b →
    Res.Imp (GrowExt E) (growLoop c n a) (growLoop c' n b)
  | 0, a, b, h => by
    unfold growLoop
    rw [growDone_ext hc h]
    split
    · exact .ok h
    · exact .diverge
  | n + 1, a, b, h => by
    unfold growLoop
    rw [growDone_ext hc h]
    split
    · exact .ok h
    · exact (growStep_ext hc h).bind fun x y _ _ hxy => growLoop_ext hc n hxy

theorem growInit_ext (hc : CfgExt E c c') (sm : SampleMethod) (index : List Nat) :
    Res.Imp (GrowExt E) (growInit c sm index) (growInit c' sm index) := by
  unfold growInit
  dsimp only
  rw [hc.splitter, hc.train.grad, hc.train.hess]
  refine (Res.Imp.same _).bind fun r r' _ _ hr => ?_
  subst hr
  obtain ⟨g, h, sort⟩ := r
  dsimp only
  refine (hc.train.hist index sort).bind fun H H' _ _ hH => ?_
  exact .ok ⟨rfl, rfl, .cons ⟨H', rfl, hH⟩ .nil, rfl, rfl, rfl⟩

/-- The two trees are equal. -/
theorem treeFit_ext (hc : CfgExt E c c') (sm : SampleMethod) (index : List Nat) {T : Tree F D}
    (h : Tree.fit c sm index = .ok T) : Tree.fit c' sm index = .ok T := by
  have key : Res.Imp Eq (Tree.fit c sm index) (Tree.fit c' sm index) := by
    unfold Tree.fit
    refine (growInit_ext hc sm index).bind fun a b _ _ hab => ?_
    rw [show growFuel c' = growFuel c by unfold growFuel; rw [hc.maxLeaves]]
    refine (growLoop_ext hc _ hab).bind fun x y _ _ hxy => ?_
    rw [hc.splitter, hxy.nodes]
    exact .same _
  obtain ⟨b, hb, rfl⟩ := key T h
  exact hb

end Verif
