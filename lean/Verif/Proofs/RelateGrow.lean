import Verif.Proofs.Relate
import Verif.Model.Tree
import Verif.Spec.Relabel

/-!
# Growing does not look at the cut values: splitting and the loop
-/

namespace Verif

open scoped Verif

set_option linter.unusedSectionVars false

variable {F D : Type} [Fl F] [Fl D] [FlCast F D]

/-! ## Choosing a split -/

/-- Two choices that differ in the split value. -/
def InfoSim (V : Nat → D → D → Prop) (i i' : SplitInfo F D) : Prop :=
  ∃ v, i' = { i with splitValue := v } ∧ V i.splitFeature i.splitValue v

/-- Two optional choices. -/
def BestSim (V : Nat → D → D → Prop) : Option (SplitInfo F D) → Option (SplitInfo F D) → Prop
  | none, none => True
  | some i, some i' => InfoSim V i i'
  | _, _ => False

theorem evalCandidate_sim {V : Nat → D → D → Prop} (s : Splitter F) (node : SNode F D)
    (h' : JaggedMatrix (Bin F D)) (f : Nat) (c : Option Constraint) {m m' b b' : Bin F D} (i : Nat) (cg ch : F)
    (hg : m.grad = m'.grad) (hh : m.hess = m'.hess) (hV : V f b.cut b'.cut) :
    Res.Rel (BestSim V) (evalCandidate s node f c m b i cg ch)
      (evalCandidate s { node with histograms := h' } f c m' b' i cg ch) := by
  unfold evalCandidate
  rw [← hg, ← hh]
  dsimp only
  refine (Res.Rel.of_eq rfl).bind fun r r' _ _ hr => ?_
  subst hr
  cases r with
  | none => trivial
  | some x =>
    obtain ⟨l, r, mi⟩ := x
    dsimp only
    rw [show ({ node with histograms := h' } : SNode F D).getSplitGain l r mi s.params.gamma =
      node.getSplitGain l r mi s.params.gamma from rfl]
    split
    · trivial
    · exact ⟨b'.cut, rfl, hV⟩

theorem bestFeatureLoop_sim {V : Nat → D → D → Prop} (s : Splitter F) (node : SNode F D)
    (h' : JaggedMatrix (Bin F D)) (f : Nat) (c : Option Constraint) {m m' : Bin F D}
    (hg : m.grad = m'.grad) (hh : m.hess = m'.hess) :
    ∀ (P : List (Bin F D × Bin F D)) (i : Nat) (cg ch : F) (best best' : Option (SplitInfo F D)),
      (∀ p ∈ P, p.1.grad = p.2.grad ∧ p.1.hess = p.2.hess) → (∀ p ∈ P, V f p.1.cut p.2.cut) →
      BestSim V best best' →
      Res.Rel (BestSim V) (bestFeatureLoop s node f c m (P.map Prod.fst) i cg ch best)
        (bestFeatureLoop s { node with histograms := h' } f c m' (P.map Prod.snd) i cg ch best') := by
  intro P
  induction P with
  | nil => intro i cg ch best best' _ _ hb; exact hb
  | cons p P ih =>
    intro i cg ch best best' hs hV hb
    simp only [List.map_cons, bestFeatureLoop]
    refine (evalCandidate_sim (V := V) s node h' f c i cg ch hg hh (hV p (by simp))).bind
      fun x x' _ _ hx => ?_
    rw [← (hs p (by simp)).1, ← (hs p (by simp)).2]
    refine ih _ _ _ _ _ (fun q hq => hs q (by simp [hq])) (fun q hq => hV q (by simp [hq])) ?_
    cases x <;> cases x' <;> first
      | exact hx.elim
      | exact hb
      | skip
    cases best <;> cases best' <;> first
      | exact hb.elim
      | exact hx
      | skip
    obtain ⟨v, rfl, h1⟩ := hx
    obtain ⟨u, rfl, h2⟩ := hb
    dsimp only
    split
    · exact ⟨v, rfl, h1⟩
    · exact ⟨u, rfl, h2⟩

theorem bestFeatureSplit_sim {V : Nat → D → D → Prop} {CC : List (List (D × D))} (s : Splitter F)
    {node : SNode F D} {h' : JaggedMatrix (Bin F D)} (f k : Nat) (hH : HistSim CC node.histograms h')
    (hC : ∀ c, CC[k]? = some c → ∃ x l, c = x :: l ∧ ∀ p ∈ l, V f p.1 p.2) :
    Res.Rel (BestSim V) (bestFeatureSplit s node f k)
      (bestFeatureSplit s { node with histograms := h' } f k) := by
  unfold bestFeatureSplit
  refine (hH.getCol k).bind fun c c' _ _ hcc => ?_
  obtain ⟨cc, hk, P, rfl, rfl, hP, hs⟩ := hcc
  obtain ⟨x, l, rfl, hV⟩ := hC cc hk
  cases P with
  | nil => simp at hP
  | cons p P =>
    simp only [List.map_cons, List.cons.injEq] at hP
    refine bestFeatureLoop_sim s node h' f _ (hs p (by simp)).1 (hs p (by simp)).2 P 0 0 0 none none
      (fun q hq => hs q (by simp [hq])) ?_ trivial
    intro q hq
    exact hV (cutPair q) (by rw [← hP.2]; exact List.mem_map_of_mem hq)

theorem bestSplitLoop_sim {V : Nat → D → D → Prop} {CC : List (List (D × D))} (s : Splitter F)
    {node : SNode F D} {h' : JaggedMatrix (Bin F D)} (hH : HistSim CC node.histograms h') :
    ∀ (cols : List Nat) (k : Nat) (g : F) (best best' : Option (SplitInfo F D)),
      CutsSim V cols (CC.drop k) → BestSim V best best' →
      Res.Rel (BestSim V) (bestSplitLoop s node cols k g best)
        (bestSplitLoop s { node with histograms := h' } cols k g best') := by
  intro cols
  induction cols with
  | nil => intro k g best best' _ hb; exact hb
  | cons f cols ih =>
    intro k g best best' hC hb
    unfold CutsSim at hC
    obtain ⟨c, CC', h1, h2, h3⟩ := List.forall₂_cons_left_iff.1 hC
    have hk : CC[k]? = some c := by
      have := congrArg (fun l => l[0]?) h3
      simpa using this
    have hd : CC.drop (k + 1) = CC' := by
      rw [← List.tail_drop, h3]; rfl
    simp only [bestSplitLoop]
    refine (bestFeatureSplit_sim (V := V) s f k hH ?_).bind fun x x' _ _ hx => ?_
    · intro c' hc'
      rw [hk] at hc'; cases hc'
      exact h1
    cases x <;> cases x' <;> first
      | exact hx.elim
      | exact ih _ _ _ _ (by rw [hd]; exact h2) hb
      | skip
    obtain ⟨v, rfl, hv⟩ := hx
    dsimp only
    split
    · exact ih _ _ _ _ (by rw [hd]; exact h2) ⟨v, rfl, hv⟩
    · exact ih _ _ _ _ (by rw [hd]; exact h2) hb

/-! ## Splitting a node -/

/-- The cut pairs used in the run. -/
abbrev runCuts (t t' : TrainData F D) : List (List (D × D)) := t.colIndex.map (colPairs t t')

theorem hist_sim {V : Nat → D → D → Prop} {t t' : TrainData F D} (h : TrainSim V t t')
    (index : List Nat) (i j : Nat) :
    Res.Rel (HistSim (runCuts t t')) (t.hist index i j) (t'.hist index i j) := by
  unfold TrainData.hist
  refine (Res.Rel.of_eq rfl).bind fun r r' _ _ hr => ?_
  subst hr
  exact (histogramMatrix_sim h r true).mono fun _ _ _ _ hab => hab.1

/-- Two open nodes. -/
def OpenSim (CC : List (List (D × D))) (n n' : SNode F D) : Prop :=
  ∃ h', n' = { n with histograms := h' } ∧ HistSim CC n.histograms h'

/-- Two new nodes. -/
def NewSim (CC : List (List (D × D))) (n n' : SNode F D) : Prop :=
  n.isLeaf = true ∧ ∃ h', n' = { n with histograms := h' } ∧
    (n.isMissingLeaf = false → HistSim CC n.histograms h')

/-- Two outcomes of a split. -/
def SplitSim (V : Nat → D → D → Prop) (CC : List (List (D × D)))
    (r r' : SNode F D × List Nat × List (SNode F D)) : Prop :=
  r'.2.1 = r.2.1 ∧ List.Forall₂ (NewSim CC) r.2.2 r'.2.2 ∧
    (r.2.2 ≠ [] → ∃ v h', r'.1 = { r.1 with histograms := h', splitValue := v } ∧
      V r.1.splitFeature r.1.splitValue v)

theorem imputerHandle_sim {V : Nat → D → D → Prop} {t t' : TrainData F D} (h : TrainSim V t t')
    {info info' : SplitInfo F D} (hi : InfoSim V info info') (n : Nat) {node node' : SNode F D}
    (hn : OpenSim (runCuts t t') node node') (index : List Nat) :
    Res.Rel (SplitSim V (runCuts t t')) (imputerHandle t info n node index)
      (imputerHandle t' info' n node' index) := by
  obtain ⟨v, rfl, hv⟩ := hi
  obtain ⟨h', rfl, hH⟩ := hn
  unfold imputerHandle
  rw [h.data]
  dsimp only
  refine (Res.Rel.of_eq rfl).bind fun mr mr' _ _ e => ?_
  subst e
  refine (Res.Rel.of_eq rfl).bind fun rows rows' _ _ e => ?_
  subst e
  refine (Res.Rel.of_eq rfl).bind fun ft ft' _ _ e => ?_
  subst e
  refine (Res.Rel.of_eq rfl).bind fun r r' _ _ e => ?_
  subst e
  obtain ⟨rows2, split⟩ := r
  dsimp only
  have fin : ∀ (lh rh lh' rh' : JaggedMatrix (Bin F D)), HistSim (runCuts t t') lh lh' →
      HistSim (runCuts t t') rh rh' → SplitSim V (runCuts t t')
        (node.updateChildren (if mr = true then n + 1 else n) n (n + 1) info,
          writeBack index node.startIdx node.stopIdx rows2,
          [SNode.fromNodeInfo n lh (node.depth + 1) node.startIdx (split + node.startIdx) info.leftNode,
            SNode.fromNodeInfo (n + 1) rh (node.depth + 1) (split + node.startIdx) node.stopIdx
              info.rightNode])
        (({ node with histograms := h' } : SNode F D).updateChildren (if mr = true then n + 1 else n) n (n + 1)
            { info with splitValue := v },
          writeBack index node.startIdx node.stopIdx rows2,
          [SNode.fromNodeInfo n lh' (node.depth + 1) node.startIdx (split + node.startIdx) info.leftNode,
            SNode.fromNodeInfo (n + 1) rh' (node.depth + 1) (split + node.startIdx) node.stopIdx
              info.rightNode]) := by
    intro lh rh lh' rh' h1 h2
    exact ⟨rfl, .cons ⟨rfl, lh', rfl, fun _ => h1⟩ (.cons ⟨rfl, rh', rfl, fun _ => h2⟩ .nil),
      fun _ => ⟨v, h', rfl, hv⟩⟩
  split
  · refine (hist_sim h _ _ _).bind fun a b _ _ hab => ?_
    exact fin _ _ _ _ hab (hH.child hab)
  · refine (hist_sim h _ _ _).bind fun a b _ _ hab => ?_
    exact fin _ _ _ _ (hH.child hab) hab

theorem branchHists_sim {V : Nat → D → D → Prop} {t t' : TrainData F D} (h : TrainSim V t t')
    {node : SNode F D} {h' : JaggedMatrix (Bin F D)} (hH : HistSim (runCuts t t') node.histograms h')
    (index : List Nat) (nm nl nr ms sp : Nat) :
    Res.Rel (fun r r' => (nm ≠ 0 → HistSim (runCuts t t') r.1 r'.1) ∧
        HistSim (runCuts t t') r.2.1 r'.2.1 ∧ HistSim (runCuts t t') r.2.2 r'.2.2)
      (branchHists t node index nm nl nr ms sp)
      (branchHists t' { node with histograms := h' } index nm nl nr ms sp) := by
  unfold branchHists
  dsimp only
  split
  · rename_i h0
    split
    · refine (hist_sim h _ _ _).bind fun a b _ _ hab => ?_
      exact ⟨fun hc => absurd h0 hc, hH.child hab, hab⟩
    · refine (hist_sim h _ _ _).bind fun a b _ _ hab => ?_
      exact ⟨fun hc => absurd h0 hc, hab, hH.child hab⟩
  · split
    · refine (hist_sim h _ _ _).bind fun a b _ _ hab => ?_
      refine (hist_sim h _ _ _).bind fun c d _ _ hcd => ?_
      exact ⟨fun _ => hH.children hab hcd, hab, hcd⟩
    · split
      · refine (hist_sim h _ _ _).bind fun a b _ _ hab => ?_
        refine (hist_sim h _ _ _).bind fun c d _ _ hcd => ?_
        exact ⟨fun _ => hab, hH.children hab hcd, hcd⟩
      · refine (hist_sim h _ _ _).bind fun a b _ _ hab => ?_
        refine (hist_sim h _ _ _).bind fun c d _ _ hcd => ?_
        exact ⟨fun _ => hab, hcd, hH.children hab hcd⟩

theorem branchHandle_sim {V : Nat → D → D → Prop} {t t' : TrainData F D} (h : TrainSim V t t')
    (p : BranchParams F) {info info' : SplitInfo F D} (hi : InfoSim V info info') (n : Nat)
    {node node' : SNode F D} (hn : OpenSim (runCuts t t') node node') (index : List Nat) :
    Res.Rel (SplitSim V (runCuts t t')) (branchHandle p t info n node index)
      (branchHandle p t' info' n node' index) := by
  obtain ⟨v, rfl, hv⟩ := hi
  obtain ⟨h', rfl, hH⟩ := hn
  unfold branchHandle
  rw [h.data]
  dsimp only
  refine (Res.Rel.of_eq (x := p.missingChild info) rfl).bind fun mc mc' _ _ e => ?_
  subst e
  obtain ⟨isLeaf, mi⟩ := mc
  dsimp only
  refine (Res.Rel.of_eq rfl).bind fun rows rows' _ _ e => ?_
  subst e
  refine (Res.Rel.of_eq rfl).bind fun ft ft' _ _ e => ?_
  subst e
  refine (Res.Rel.of_eq rfl).bind fun r r' _ _ e => ?_
  subst e
  obtain ⟨rows2, ms, split⟩ := r
  dsimp only
  refine (Res.Rel.of_eq rfl).bind fun _ _ _ _ _ => ?_
  refine (branchHists_sim h hH _ _ _ _ _ _).bind fun r r' _ _ hr => ?_
  obtain ⟨mh, lh, rh⟩ := r
  obtain ⟨mh', lh', rh'⟩ := r'
  obtain ⟨h1, h2, h3⟩ := hr
  refine ⟨rfl, .cons ⟨rfl, mh', rfl, ?_⟩ (.cons ⟨rfl, lh', rfl, fun _ => h2⟩
    (.cons ⟨rfl, rh', rfl, fun _ => h3⟩ .nil)), fun _ => ⟨v, h', rfl, hv⟩⟩
  intro hm
  simp only [Bool.or_eq_false_iff, decide_eq_false_iff_not] at hm
  exact h1 hm.2

theorem splitNode_sim {V : Nat → D → D → Prop} {t t' : TrainData F D} (h : TrainSim V t t')
    (hC : CutsSim V t.colIndex (runCuts t t')) (s : Splitter F) (n : Nat)
    {node node' : SNode F D} (hn : OpenSim (runCuts t t') node node') (index : List Nat) :
    Res.Rel (SplitSim V (runCuts t t')) (splitNode s t n node index)
      (splitNode s t' n node' index) := by
  unfold splitNode
  rw [h.cols]
  obtain ⟨h', rfl, hH⟩ := id hn
  refine (bestSplitLoop_sim (V := V) s hH t.colIndex 0 0 none none (by simpa using hC) trivial).bind
    fun x x' _ _ hx => ?_
  cases x <;> cases x' <;> first
    | exact hx.elim
    | exact ⟨rfl, .nil, fun hc => absurd rfl hc⟩
    | skip
  cases s with
  | imputer p => exact imputerHandle_sim h hx n hn index
  | branch p => exact branchHandle_sim h p hx n hn index

/-! ## The loop -/

/-- Two nodes of the trees: equal leaves, or splits whose values correspond. -/
def NodeSim (V : Nat → D → D → Prop) (n n' : Node F D) : Prop :=
  (n.isLeaf = true ∧ n' = n) ∨
    (n.isLeaf = false ∧ ∃ v, n' = { n with splitValue := v } ∧ V n.splitFeature n.splitValue v)

/-- Two states of the loop. -/
structure GrowSim (V : Nat → D → D → Prop) (CC : List (List (D × D))) (s s' : GrowState F D) : Prop where
  nodes : List.Forall₂ (NodeSim V) s.nodes s'.nodes
  index : s'.index = s.index
  queue : List.Forall₂ (OpenSim CC) s.queue s'.queue
  nLeaves : s'.nLeaves = s.nLeaves
  nNodes : s'.nNodes = s.nNodes
  step : s'.step = s.step

theorem idx_sim {α β : Type} {R : α → β → Prop} {l : List α} {l' : List β} (h : List.Forall₂ R l l')
    (i : Nat) : Res.Rel R (idx l i) (idx l' i) := by
  unfold idx
  have hl := h.length_eq
  by_cases hi : i < l.length
  · have := (List.forall₂_iff_get.1 h).2 i hi (by omega)
    rw [List.getElem?_eq_getElem hi, List.getElem?_eq_getElem (by omega)]
    exact this
  · rw [List.getElem?_eq_none (by omega), List.getElem?_eq_none (by omega)]
    trivial

theorem forall₂_eraseIdx {α β : Type} {R : α → β → Prop} {l : List α} {l' : List β}
    (h : List.Forall₂ R l l') (i : Nat) : List.Forall₂ R (l.eraseIdx i) (l'.eraseIdx i) := by
  induction h generalizing i with
  | nil => exact .nil
  | cons h1 h2 ih =>
    cases i with
    | zero => exact h2
    | succ i => exact .cons h1 (ih i)

theorem forall₂_set {α β : Type} {R : α → β → Prop} {l : List α} {l' : List β}
    (h : List.Forall₂ R l l') (i : Nat) {a : α} {b : β} (hab : R a b) :
    List.Forall₂ R (l.set i a) (l'.set i b) := by
  induction h generalizing i with
  | nil => exact .nil
  | cons h1 h2 ih =>
    cases i with
    | zero => exact .cons hab h2
    | succ i => exact .cons h1 (ih i)

theorem forall₂_modify {α β : Type} {R : α → β → Prop} {l : List α} {l' : List β}
    (h : List.Forall₂ R l l') (i : Nat) {f : α → α} {g : β → β} (hab : ∀ a b, R a b → R (f a) (g b)) :
    List.Forall₂ R (l.modify i f) (l'.modify i g) := by
  induction h generalizing i with
  | nil => cases i <;> exact .nil
  | cons h1 h2 ih =>
    cases i with
    | zero => exact .cons (hab _ _ h1) h2
    | succ i => exact .cons h1 (ih i)

theorem forall₂_dropLast {α β : Type} {R : α → β → Prop} {l : List α} {l' : List β}
    (h : List.Forall₂ R l l') : List.Forall₂ R l.dropLast l'.dropLast := by
  induction h with
  | nil => exact .nil
  | cons h1 h2 ih =>
    cases h2 with
    | nil => exact .nil
    | cons h3 h4 => exact .cons h1 ih

theorem popNode_sim {CC : List (List (D × D))} {hp : HeapPick F D} (hh : hp.ByScore) (pol : GrowPolicy)
    (n : Nat) {q q' : List (SNode F D)} (h : List.Forall₂ (OpenSim CC) q q') :
    Res.Rel (fun r r' => OpenSim CC r.1 r'.1 ∧ List.Forall₂ (OpenSim CC) r.2 r'.2) (popNode hp pol n q)
      (popNode hp pol n q') := by
  unfold popNode
  cases pol with
  | depthWise =>
    dsimp only
    rw [List.getLast?_eq_getElem?, List.getLast?_eq_getElem?, ← h.length_eq]
    refine (idx_sim h (q.length - 1)).bind fun a b _ _ hab => ?_
    exact ⟨hab, forall₂_dropLast h⟩
  | lossGuide =>
    dsimp only
    have e : hp.pick n q' = hp.pick n q := by
      apply hh
      clear hh
      induction h with
      | nil => rfl
      | cons h1 _ ih =>
        obtain ⟨h', rfl, _⟩ := h1
        simp [ih]
    rw [e]
    refine (idx_sim h _).bind fun a b _ _ hab => ?_
    exact ⟨hab, forall₂_eraseIdx h _⟩

theorem addNodes_sim {V : Nat → D → D → Prop} {CC : List (List (D × D))} (lr : F) {new new' : List (SNode F D)}
    (h : List.Forall₂ (NewSim CC) new new') : ∀ {nodes nodes' : List (Node F D)} {q q' : List (SNode F D)},
      List.Forall₂ (NodeSim V) nodes nodes' → List.Forall₂ (OpenSim CC) q q' →
      List.Forall₂ (NodeSim V) (addNodes lr nodes q new).1 (addNodes lr nodes' q' new').1 ∧
        List.Forall₂ (OpenSim CC) (addNodes lr nodes q new).2 (addNodes lr nodes' q' new').2 := by
  induction h with
  | nil => intro _ _ _ _ h1 h2; exact ⟨h1, h2⟩
  | cons hn _ ih =>
    intro nodes nodes' q q' h1 h2
    obtain ⟨hl, h', rfl, hH⟩ := hn
    unfold addNodes
    refine ih (List.rel_append h1 (.cons (.inl ⟨hl, rfl⟩) .nil)) ?_
    dsimp only
    split
    · exact h2
    · rename_i hm
      exact .cons ⟨h', rfl, hH (by simpa using hm)⟩ h2

/-- Two configurations. -/
structure CfgSim (V : Nat → D → D → Prop) (c c' : GrowCfg F D) : Prop where
  train : TrainSim V c.train c'.train
  splitter : c'.splitter = c.splitter
  maxLeaves : c'.maxLeaves = c.maxLeaves
  maxDepth : c'.maxDepth = c.maxDepth
  policy : c'.policy = c.policy
  heap : c'.heap = c.heap
  byScore : c.heap.ByScore

theorem growStep_sim {V : Nat → D → D → Prop} {c c' : GrowCfg F D} (hc : CfgSim V c c')
    (hC : CutsSim V c.train.colIndex (runCuts c.train c'.train)) {s s' : GrowState F D}
    (h : GrowSim V (runCuts c.train c'.train) s s') :
    Res.Rel (GrowSim V (runCuts c.train c'.train)) (growStep c s) (growStep c' s') := by
  unfold growStep
  rw [hc.policy, hc.heap, hc.maxDepth, hc.splitter, h.step]
  refine (popNode_sim hc.byScore c.policy s.step h.queue).bind fun r r' _ _ hr => ?_
  obtain ⟨node, q⟩ := r
  obtain ⟨node', q'⟩ := r'
  obtain ⟨hn, hq⟩ := hr
  dsimp only at hn hq ⊢
  have hd : node'.depth = node.depth := by obtain ⟨_, rfl, _⟩ := hn; rfl
  have hnum : node'.num = node.num := by obtain ⟨_, rfl, _⟩ := hn; rfl
  rw [hd, hnum, h.index, h.nLeaves, h.nNodes]
  split
  · exact ⟨h.nodes, rfl, hq, rfl, rfl, rfl⟩
  · refine (splitNode_sim hc.train hC c.splitter s.nNodes hn s.index).bind fun r r' _ _ hr => ?_
    obtain ⟨n1, ix, new⟩ := r
    obtain ⟨n1', ix', new'⟩ := r'
    obtain ⟨e1, e2, e3⟩ := hr
    dsimp only at e1 e2 e3 ⊢
    subst e1
    rw [← e2.length_eq]
    split
    · exact ⟨h.nodes, rfl, hq, rfl, rfl, rfl⟩
    · rename_i hne
      obtain ⟨v, h', rfl, hv⟩ := e3 (by intro hc; exact hne (by rw [hc]; rfl))
      refine (idx_sim h.nodes node.num).bind fun a b _ _ hab => ?_
      have hab2 : NodeSim V (a.makeParentNode n1)
          (b.makeParentNode { n1 with histograms := h', splitValue := v }) := by
        refine .inr ⟨rfl, v, ?_, hv⟩
        rcases hab with ⟨_, rfl⟩ | ⟨_, u, rfl, _⟩ <;> rfl
      have := addNodes_sim (V := V) c.splitter.params.learningRate e2 (forall₂_set h.nodes node.num hab2) hq
      exact ⟨this.1, rfl, this.2, rfl, rfl, rfl⟩

theorem growDone_sim {V : Nat → D → D → Prop} {CC : List (List (D × D))} {c c' : GrowCfg F D}
    (hc : CfgSim V c c') {s s' : GrowState F D} (h : GrowSim V CC s s') : growDone c' s' = growDone c s := by
  unfold growDone
  rw [hc.maxLeaves, hc.splitter, h.nLeaves]
  have := h.queue.length_eq
  have e : s'.queue.isEmpty = s.queue.isEmpty := by
    cases h1 : s.queue <;> cases h2 : s'.queue <;> simp_all
  rw [e]

theorem growLoop_sim {V : Nat → D → D → Prop} {c c' : GrowCfg F D} (hc : CfgSim V c c')
    (hC : CutsSim V c.train.colIndex (runCuts c.train c'.train)) : ∀ (n : Nat) {s s' : GrowState F D},
    GrowSim V (runCuts c.train c'.train) s s' →
    Res.Rel (GrowSim V (runCuts c.train c'.train)) (growLoop c n s) (growLoop c' n s')
  | 0, s, s', h => by
    unfold growLoop
    rw [growDone_sim hc h]
    split
    · exact h
    · trivial
  | n + 1, s, s', h => by
    unfold growLoop
    rw [growDone_sim hc h]
    split
    · exact h
    · exact (growStep_sim hc hC h).bind fun a b _ _ hab => growLoop_sim hc hC n hab

theorem growInit_sim {V : Nat → D → D → Prop} {c c' : GrowCfg F D} (hc : CfgSim V c c') (sm : SampleMethod)
    (index : List Nat) : Res.Rel (fun s s' => GrowSim V (runCuts c.train c'.train) s s' ∧
        CutsSim V c.train.colIndex (runCuts c.train c'.train))
      (growInit c sm index) (growInit c' sm index) := by
  unfold growInit
  dsimp only
  rw [hc.splitter, hc.train.grad, hc.train.hess]
  refine (Res.Rel.of_eq rfl).bind fun r r' _ _ hr => ?_
  subst hr
  obtain ⟨g, h, sort⟩ := r
  dsimp only
  have := histogramMatrix_sim hc.train index sort
  rw [hc.train.grad, hc.train.hess] at this
  refine this.bind fun H H' _ _ hH => ?_
  exact ⟨⟨.cons (.inl ⟨rfl, rfl⟩) .nil, rfl, .cons ⟨H', rfl, hH.1⟩ .nil, rfl, rfl, rfl⟩, hH.2⟩

/-! ## Cleaning up -/

theorem NodeSim.leaf_eq {V : Nat → D → D → Prop} {n n' : Node F D} (h : NodeSim V n n') :
    ∃ v, n' = { n with splitValue := v } := by
  rcases h with ⟨_, rfl⟩ | ⟨_, v, rfl, _⟩
  · exact ⟨n'.splitValue, rfl⟩
  · exact ⟨v, rfl⟩

theorem NodeSim.setWeight {V : Nat → D → D → Prop} {n n' : Node F D} (h : NodeSim V n n') (w : F) :
    NodeSim V { n with weightValue := w } { n' with weightValue := w } := by
  rcases h with ⟨hl, rfl⟩ | ⟨hl, v, rfl, hv⟩
  · exact .inl ⟨hl, rfl⟩
  · exact .inr ⟨hl, v, rfl, hv⟩

theorem updateAverage_sim {V : Nat → D → D → Prop} : ∀ (fuel : Nat) {nodes nodes' : List (Node F D)} (i : Nat),
    List.Forall₂ (NodeSim V) nodes nodes' →
    Res.Rel (fun r r' => List.Forall₂ (NodeSim V) r.1 r'.1 ∧ r'.2 = r.2)
      (updateAverage (D := D) fuel nodes i) (updateAverage (D := D) fuel nodes' i)
  | 0, _, _, _, _ => trivial
  | fuel + 1, nodes, nodes', i, h => by
    unfold updateAverage
    refine (idx_sim h i).bind fun n n' _ _ hn => ?_
    obtain ⟨v, rfl⟩ := hn.leaf_eq
    dsimp only
    split
    · exact ⟨h, rfl⟩
    · refine (idx_sim h _).bind fun rn rn' _ _ hrn => ?_
      obtain ⟨v, rfl⟩ := hrn.leaf_eq
      refine (updateAverage_sim fuel n.rightChild h).bind fun r r' _ _ hr => ?_
      obtain ⟨ns, ra⟩ := r
      obtain ⟨ns', ra'⟩ := r'
      obtain ⟨h1, e1⟩ := hr
      dsimp only at h1 e1 ⊢
      subst e1
      refine (idx_sim h1 _).bind fun ln ln' _ _ hln => ?_
      obtain ⟨v, rfl⟩ := hln.leaf_eq
      refine (updateAverage_sim fuel n.leftChild h1).bind fun r r' _ _ hr => ?_
      obtain ⟨ns2, la⟩ := r
      obtain ⟨ns2', la'⟩ := r'
      obtain ⟨h2, e2⟩ := hr
      dsimp only at h2 e2 ⊢
      subst e2
      refine (idx_sim h2 _).bind fun mn mn' _ _ hmn => ?_
      obtain ⟨v, rfl⟩ := hmn.leaf_eq
      dsimp only
      split
      · refine ⟨?_, rfl⟩
        dsimp only
        exact forall₂_modify (forall₂_modify h2 _ fun a b hab => hab.setWeight _) _
          fun a b hab => hab.setWeight _
      · refine (updateAverage_sim fuel n.missingNode h2).bind fun r r' _ _ hr => ?_
        obtain ⟨ns3, ma⟩ := r
        obtain ⟨ns3', ma'⟩ := r'
        obtain ⟨h3, e3⟩ := hr
        dsimp only at h3 e3 ⊢
        subst e3
        exact ⟨forall₂_modify h3 _ fun a b hab => hab.setWeight _, rfl⟩

theorem cleanUpSplits_sim {V : Nat → D → D → Prop} (s : Splitter F) {nodes nodes' : List (Node F D)}
    (h : List.Forall₂ (NodeSim V) nodes nodes') :
    Res.Rel (List.Forall₂ (NodeSim V)) (cleanUpSplits s nodes) (cleanUpSplits s nodes') := by
  unfold cleanUpSplits
  cases s with
  | imputer p => exact h
  | branch p =>
    dsimp only
    split
    · rw [← h.length_eq]
      exact (updateAverage_sim _ 0 h).bind fun a b _ _ hab => hab.1
    · exact h

/-- The grown trees. -/
theorem treeFit_sim {V : Nat → D → D → Prop} {c c' : GrowCfg F D} (hc : CfgSim V c c') (sm : SampleMethod)
    (index : List Nat) : Res.Rel (fun t t' => List.Forall₂ (NodeSim V) t.nodes t'.nodes)
      (Tree.fit c sm index) (Tree.fit c' sm index) := by
  unfold Tree.fit
  refine (growInit_sim hc sm index).bind fun s s' _ _ hs => ?_
  rw [show growFuel c' = growFuel c by unfold growFuel; rw [hc.maxLeaves], hc.splitter]
  refine (growLoop_sim hc hs.2 _ hs.1).bind fun s2 s2' _ _ hs2 => ?_
  exact (cleanUpSplits_sim c.splitter hs2.nodes).bind fun a b _ _ hab => hab

end Verif
