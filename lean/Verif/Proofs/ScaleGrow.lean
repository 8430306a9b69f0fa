import Verif.Proofs.Scale
import Verif.Spec.Units

/-!
# Scaled runs: growing a tree
-/

namespace Verif

open scoped Verif

set_option linter.unusedSectionVars false

variable {F D : Type} [Fl F] [Fl D] [FlCast F D] {σ : Scale F D}

/-! ## Histograms -/

/-- Image of a bin during accumulation. -/
def Bin.scaleD (σ : Scale F D) (b : Bin D D) : Bin D D :=
  { grad := σ.gD b.grad, hess := σ.hD b.hess, cut := b.cut }

/-- Image of the training data. -/
def TrainData.scale (σ : Scale F D) (t : TrainData F D) : TrainData F D :=
  { t with grad := t.grad.map σ.g, hess := t.hess.map σ.h }

theorem List.map_modify' {α β : Type} (φ : α → β) (f : α → α) (f' : β → β) (h : ∀ a, f' (φ a) = φ (f a)) :
    ∀ (l : List α) (k : Nat), (l.map φ).modify k f' = (l.modify k f).map φ
  | [], _ => by simp
  | a :: l, 0 => by simp [h]
  | a :: l, k + 1 => by simp [List.map_modify' φ f f' h l k]

theorem List.map_eraseIdx' {α β : Type} (φ : α → β) : ∀ (l : List α) (k : Nat),
    (l.eraseIdx k).map φ = (l.map φ).eraseIdx k
  | [], _ => by simp
  | a :: l, 0 => by simp
  | a :: l, k + 1 => by simp [List.map_eraseIdx' φ l k]

theorem histAdd_scale (hL : σ.Laws) (feature : List Nat) (hist : List (Bin D D)) (r : Nat × F × F) :
    histAdd feature (hist.map (Bin.scaleD σ)) (r.1, σ.g r.2.1, σ.h r.2.2) =
      List.map (Bin.scaleD σ) <$> histAdd feature hist r := by
  unfold histAdd
  refine Res.bind_same fun b _ => ?_
  rw [Res.map_ok]
  congr 1
  refine List.map_modify' _ _ _ (fun v => ?_) _ _
  simp only [Bin.scaleD, hL.up_g, hL.up_h, hL.gD_add, hL.hD_add]

theorem createFeatureHistogram_scale (hL : σ.Laws) (feature : List Nat) (cuts : List D) (sg sh : List F)
    (index : List Nat) : createFeatureHistogram feature cuts (sg.map σ.g) (sh.map σ.h) index =
      List.map (Bin.scale σ) <$> createFeatureHistogram feature cuts sg sh index := by
  unfold createFeatureHistogram
  split
  · rfl
  · have e1 : ∀ c : D, Bin.scaleD σ (Bin.new c) = Bin.new c := by
      intro c; simp only [Bin.scaleD, Bin.new, hL.gD_zero, hL.hD_zero]
    have e2 : (index.zip ((sg.map σ.g).zip (sh.map σ.h))).map (fun p => (p.1, p.2.1, p.2.2)) =
        ((index.zip (sg.zip sh)).map fun p => (p.1, p.2.1, p.2.2)).map fun r => (r.1, σ.g r.2.1, σ.h r.2.2) := by
      rw [List.zip_map, List.zip_map_right, List.map_map, List.map_map]
      rfl
    rw [e2]
    refine Res.bind_image (φ := List.map (Bin.scaleD σ)) ?_ fun h _ => ?_
    · rw [← Res.foldM'_image (f := histAdd feature) (f' := histAdd feature) (fun s a => histAdd_scale hL feature s a)]
      congr 1
      rw [List.map_cons, e1, List.map_map]
      congr 1
      refine List.map_congr_left fun c _ => (e1 c).symm
    · rw [Res.map_ok, List.map_map, List.map_map]
      congr 1
      refine List.map_congr_left fun b _ => ?_
      simp only [Function.comp, Bin.asF32, Bin.scaleD, Bin.scale, hL.down_g, hL.down_h]

theorem histogramMatrix_scale (hL : σ.Laws) (data : Matrix Nat) (cuts : JaggedMatrix D) (grad hess : List F)
    (index cols : List Nat) (sort : Bool) :
    histogramMatrix data cuts (grad.map σ.g) (hess.map σ.h) index cols sort =
      JaggedMatrix.scale σ <$> histogramMatrix data cuts grad hess index cols sort := by
  have key : ∀ sg sh : List F, (do
        let hists ← Res.mapM' (fun col => do
          let f ← data.getCol col
          let c ← cuts.getCol col
          createFeatureHistogram f c (sg.map σ.g) (sh.map σ.h) index) cols
        let ends ← if cols.length = data.cols then pure cuts.ends else scanEnds cuts 0 cols
        let n := if cols.length = data.cols then cuts.nRecords else ends.sum
        Res.ok { data := hists.flatten, ends, cols := cols.length, nRecords := n : JaggedMatrix (Bin F D) }) =
      JaggedMatrix.scale σ <$> (do
        let hists ← Res.mapM' (fun col => do
          let f ← data.getCol col
          let c ← cuts.getCol col
          createFeatureHistogram f c sg sh index) cols
        let ends ← if cols.length = data.cols then pure cuts.ends else scanEnds cuts 0 cols
        let n := if cols.length = data.cols then cuts.nRecords else ends.sum
        Res.ok { data := hists.flatten, ends, cols := cols.length, nRecords := n }) := by
    intro sg sh
    refine Res.bind_image (φ := List.map (List.map (Bin.scale σ))) ?_ fun hists _ => ?_
    · exact Res.mapM'_same (fun col => Res.bind_same fun f _ => Res.bind_same fun c _ =>
        createFeatureHistogram_scale hL _ _ _ _ _) cols
    · dsimp only
      split
      · refine Res.bind_same fun ends _ => ?_
        rw [Res.map_ok]
        unfold JaggedMatrix.scale
        simp only [List.map_flatten]
      · refine Res.bind_same fun ends _ => ?_
        rw [Res.map_ok]
        unfold JaggedMatrix.scale
        simp only [List.map_flatten]
  unfold histogramMatrix
  cases sort with
  | true =>
    simp only [if_true, Res.pure_def, Res.ok_bind]
    refine Res.bind_image (φ := List.map σ.g) ?_ fun sg _ => ?_
    · exact Res.mapM'_same (fun i => idx_map _ _ _) index
    · refine Res.bind_image (φ := List.map σ.h) ?_ fun sh _ => ?_
      · exact Res.mapM'_same (fun i => idx_map _ _ _) index
      · exact key sg sh
  | false =>
    simp only [Bool.false_eq_true, if_false, Res.pure_def, Res.ok_bind]
    exact key grad hess

theorem hist_scale (hL : σ.Laws) (t : TrainData F D) (index : List Nat) (i j : Nat) :
    (t.scale σ).hist index i j = JaggedMatrix.scale σ <$> t.hist index i j := by
  unfold TrainData.hist
  exact Res.bind_same fun rows _ => histogramMatrix_scale hL _ _ _ _ _ _ _

theorem histFromParentChild_scale (hL : σ.Laws) (r c : JaggedMatrix (Bin F D)) :
    histFromParentChild (r.scale σ) (c.scale σ) = (histFromParentChild r c).scale σ := by
  unfold histFromParentChild JaggedMatrix.scale
  simp only [List.zipWith_map, List.map_zipWith]
  congr 2
  funext x y
  simp only [Bin.fromParentChild, Bin.scale, hL.g_sub, hL.h_sub]

theorem histFromParentTwoChildren_scale (hL : σ.Laws) (r c c' : JaggedMatrix (Bin F D)) :
    histFromParentTwoChildren (r.scale σ) (c.scale σ) (c'.scale σ) =
      (histFromParentTwoChildren r c c').scale σ := by
  unfold histFromParentTwoChildren JaggedMatrix.scale
  simp only [List.zip_map, List.zipWith_map, List.map_zipWith]
  congr 2
  funext x y
  simp only [Bin.fromParentTwoChildren, Bin.scale, hL.g_sub, hL.h_sub, hL.g_add, hL.h_add, Prod.map]

/-! ## Splitting a node -/

/-- Image of the outcome of a split. -/
def splitScale (σ : Scale F D) (r : SNode F D × List Nat × List (SNode F D)) :
    SNode F D × List Nat × List (SNode F D) := (r.1.scale σ, r.2.1, r.2.2.map (SNode.scale σ))

theorem updateChildren_scale (hL : σ.Laws) (s : SNode F D) (m l r : Nat) (i : SplitInfo F D) :
    (s.scale σ).updateChildren m l r (i.scale σ) = (s.updateChildren m l r i).scale σ := by
  unfold SNode.updateChildren
  have := getSplitGain_scale hL s i.leftNode i.rightNode i.missingNode 0
  rw [hL.n_zero] at this
  have e : (s.scale σ).getSplitGain (i.scale σ).leftNode (i.scale σ).rightNode (i.scale σ).missingNode 0 =
      σ.n (s.getSplitGain i.leftNode i.rightNode i.missingNode 0) := this
  rw [e]
  rfl

theorem fromNodeInfo_scale (hL : σ.Laws) (num : Nat) (h : JaggedMatrix (Bin F D)) (d i j : Nat) (x : NodeInfo F) :
    SNode.fromNodeInfo num (h.scale σ) d i j (x.scale σ) = (SNode.fromNodeInfo num h d i j x).scale σ := by
  unfold SNode.fromNodeInfo SNode.scale
  simp only [hL.n_zero]
  rfl

theorem imputerHandle_scale (hL : σ.Laws) (t : TrainData F D) (info : SplitInfo F D) (n : Nat)
    (node : SNode F D) (index : List Nat) :
    imputerHandle (t.scale σ) (info.scale σ) n (node.scale σ) index =
      splitScale σ <$> imputerHandle t info n node index := by
  have fin : ∀ (mr : Bool) (split : Nat) (rows : List Nat) (lh rh : JaggedMatrix (Bin F D)),
      (Res.ok ((node.scale σ).updateChildren (if mr = true then n + 1 else n) n (n + 1) (info.scale σ),
          writeBack index node.startIdx node.stopIdx rows,
          [SNode.fromNodeInfo n (lh.scale σ) (node.depth + 1) node.startIdx (split + node.startIdx)
              (info.scale σ).leftNode,
            SNode.fromNodeInfo (n + 1) (rh.scale σ) (node.depth + 1) (split + node.startIdx) node.stopIdx
              (info.scale σ).rightNode])) =
        splitScale σ <$> Res.ok (node.updateChildren (if mr = true then n + 1 else n) n (n + 1) info,
          writeBack index node.startIdx node.stopIdx rows,
          [SNode.fromNodeInfo n lh (node.depth + 1) node.startIdx (split + node.startIdx) info.leftNode,
            SNode.fromNodeInfo (n + 1) rh (node.depth + 1) (split + node.startIdx) node.stopIdx
              info.rightNode]) := by
    intro mr split rows lh rh
    rw [Res.map_ok, updateChildren_scale hL]
    unfold splitScale
    rw [show (info.scale σ).leftNode = info.leftNode.scale σ from rfl,
      show (info.scale σ).rightNode = info.rightNode.scale σ from rfl, fromNodeInfo_scale hL, fromNodeInfo_scale hL]
    rfl
  unfold imputerHandle
  have e : (info.scale σ).missingNode.goesRight = info.missingNode.goesRight := by
    show (info.missingNode.scale σ).goesRight = _
    cases info.missingNode <;> rfl
  simp only [e]
  rw [show (node.scale σ).startIdx = node.startIdx from rfl, show (node.scale σ).stopIdx = node.stopIdx from rfl,
    show (node.scale σ).depth = node.depth from rfl, show (t.scale σ).data = t.data from rfl,
    show (info.scale σ).splitFeature = info.splitFeature from rfl,
    show (info.scale σ).splitBin = info.splitBin from rfl,
    show (node.scale σ).histograms = node.histograms.scale σ from rfl]
  refine Res.bind_same fun mr _ => Res.bind_same fun rows _ => Res.bind_same fun ft _ =>
    Res.bind_same fun r _ => ?_
  obtain ⟨rows2, split⟩ := r
  dsimp only
  split
  · simp only [Res.pure_def, Res.ok_bind]
    refine Res.bind_image (hist_scale hL _ _ _ _) fun lh _ => ?_
    rw [histFromParentChild_scale hL]
    exact fin mr split rows2 _ _
  · simp only [Res.pure_def, Res.ok_bind]
    refine Res.bind_image (hist_scale hL _ _ _ _) fun rh _ => ?_
    rw [histFromParentChild_scale hL]
    exact fin mr split rows2 _ _

/-- Image of three matrices of histograms. -/
def hists3 (σ : Scale F D) (r : JaggedMatrix (Bin F D) × JaggedMatrix (Bin F D) × JaggedMatrix (Bin F D)) :
    JaggedMatrix (Bin F D) × JaggedMatrix (Bin F D) × JaggedMatrix (Bin F D) :=
  (r.1.scale σ, r.2.1.scale σ, r.2.2.scale σ)

theorem branchHists_scale (hL : σ.Laws) (t : TrainData F D) (node : SNode F D) (index : List Nat)
    (a b c d e : Nat) : branchHists (t.scale σ) (node.scale σ) index a b c d e =
      hists3 σ <$> branchHists t node index a b c d e := by
  have e0 : (JaggedMatrix.empty : JaggedMatrix (Bin F D)) = JaggedMatrix.empty.scale σ := rfl
  unfold branchHists
  rw [show (node.scale σ).startIdx = node.startIdx from rfl, show (node.scale σ).stopIdx = node.stopIdx from rfl,
    show (node.scale σ).histograms = node.histograms.scale σ from rfl]
  dsimp only
  split
  · split
    · refine Res.bind_image (hist_scale hL _ _ _ _) fun rh _ => ?_
      rw [histFromParentChild_scale hL]; rfl
    · refine Res.bind_image (hist_scale hL _ _ _ _) fun rh _ => ?_
      rw [histFromParentChild_scale hL]; rfl
  · split
    · refine Res.bind_image (hist_scale hL _ _ _ _) fun x _ =>
        Res.bind_image (hist_scale hL _ _ _ _) fun y _ => ?_
      rw [histFromParentTwoChildren_scale hL]; rfl
    · split
      · refine Res.bind_image (hist_scale hL _ _ _ _) fun x _ =>
          Res.bind_image (hist_scale hL _ _ _ _) fun y _ => ?_
        rw [histFromParentTwoChildren_scale hL]; rfl
      · refine Res.bind_image (hist_scale hL _ _ _ _) fun x _ =>
          Res.bind_image (hist_scale hL _ _ _ _) fun y _ => ?_
        rw [histFromParentTwoChildren_scale hL]; rfl

theorem branchHandle_scale (hL : σ.Laws) {p p' : BranchParams F}
    (h1 : p'.terminateMissingFeatures = p.terminateMissingFeatures)
    (h2 : p'.missingNodeTreatment = p.missingNodeTreatment) (t : TrainData F D) (info : SplitInfo F D) (n : Nat)
    (node : SNode F D) (index : List Nat) :
    branchHandle p' (t.scale σ) (info.scale σ) n (node.scale σ) index =
      splitScale σ <$> branchHandle p t info n node index := by
  unfold branchHandle
  have e : p'.missingChild (info.scale σ) = (fun r => (r.1, r.2.scale σ)) <$> p.missingChild info := by
    unfold BranchParams.missingChild
    rw [h1, show (info.scale σ).missingNode = info.missingNode.scale σ from rfl]
    cases info.missingNode <;> rfl
  rw [show (node.scale σ).startIdx = node.startIdx from rfl, show (node.scale σ).stopIdx = node.stopIdx from rfl,
    show (node.scale σ).depth = node.depth from rfl, show (t.scale σ).data = t.data from rfl,
    show (info.scale σ).splitFeature = info.splitFeature from rfl,
    show (info.scale σ).splitBin = info.splitBin from rfl, h2]
  dsimp only
  rw [updateChildren_scale hL]
  refine Res.bind_image e fun r _ => ?_
  obtain ⟨leaf, minfo⟩ := r
  dsimp only
  refine Res.bind_same fun rows _ => Res.bind_same fun ft _ => Res.bind_same fun r _ => ?_
  obtain ⟨rows2, ms, split⟩ := r
  dsimp only
  refine Res.bind_same fun _ _ => Res.bind_image (branchHists_scale hL _ _ _ _ _ _ _ _) fun r _ => ?_
  obtain ⟨mh, lh, rh⟩ := r
  simp only [hists3]
  rw [show (info.scale σ).leftNode = info.leftNode.scale σ from rfl,
    show (info.scale σ).rightNode = info.rightNode.scale σ from rfl, fromNodeInfo_scale hL, fromNodeInfo_scale hL]
  have em : (if p.missingNodeTreatment = .assignToParent then
        { minfo.scale σ with weight := (node.scale σ).weightValue } else minfo.scale σ) =
      (if p.missingNodeTreatment = .assignToParent then { minfo with weight := node.weightValue }
        else minfo).scale σ := by
    split <;> rfl
  rw [em, fromNodeInfo_scale hL]
  rfl

theorem splitNode_scale (hL : σ.Laws) {s s' : Splitter F} (hs : s.Scaled σ s') (t : TrainData F D) (n : Nat)
    (node : SNode F D) (index : List Nat) :
    splitNode s' (t.scale σ) n (node.scale σ) index = splitScale σ <$> splitNode s t n node index := by
  unfold splitNode
  refine Res.bind_image (bestSplit_scale hL hs node t.colIndex) fun best _ => ?_
  cases best with
  | none => rfl
  | some info =>
    cases s <;> cases s' <;> first | exact hs.elim | skip
    · exact imputerHandle_scale hL t info n node index
    · exact branchHandle_scale hL hs.2.1 hs.2.2.1 t info n node index

/-! ## The loop -/

/-- Image of the state of the loop. -/
def GrowState.scale (σ : Scale F D) (s : GrowState F D) : GrowState F D :=
  { s with nodes := s.nodes.map (Node.scale σ), queue := s.queue.map (SNode.scale σ) }

/-- The second run. -/
structure GrowCfg.Scaled (σ : Scale F D) (c c' : GrowCfg F D) : Prop where
  splitter : c.splitter.Scaled σ c'.splitter
  train : c'.train = c.train.scale σ
  maxLeaves : c'.maxLeaves = c.maxLeaves
  maxDepth : c'.maxDepth = c.maxDepth
  policy : c'.policy = c.policy
  heap : c'.heap = c.heap
  order : c.heap.ByOrder

theorem popNode_scale (hL : σ.Laws) {hp : HeapPick F D} (hh : hp.ByOrder) (pol : GrowPolicy) (step : Nat)
    (l : List (SNode F D)) : popNode hp pol step (l.map (SNode.scale σ)) =
      (fun r => (r.1.scale σ, r.2.map (SNode.scale σ))) <$> popNode hp pol step l := by
  unfold popNode
  cases pol with
  | depthWise =>
    simp only
    refine Res.bind_image (φ := SNode.scale σ) ?_ fun n _ => ?_
    · rw [List.getLast?_map]
      cases l.getLast? <;> rfl
    · rw [Res.map_ok, List.map_dropLast]
  | lossGuide =>
    simp only
    have e : hp.pick step (l.map (SNode.scale σ)) = hp.pick step l := by
      refine (hh step l _ (by simp) ?_).symm
      intro i j a b a' b' h1 h2 h3 h4
      rw [List.getElem?_map, h1] at h3
      rw [List.getElem?_map, h2] at h4
      cases h3; cases h4
      exact hL.n_tle _ _
    rw [e]
    refine Res.bind_image (idx_map _ _ _) fun n _ => ?_
    rw [Res.map_ok]
    simp only [List.map_eraseIdx']

theorem asNode_scale {lr : F} (hw : ∀ x, σ.w (x * lr) = σ.w x * lr) (s : SNode F D) :
    (s.scale σ).asNode lr = (s.asNode lr).scale σ := by
  unfold SNode.asNode Node.scale
  simp only [hw]
  rfl

theorem addNodes_scale {lr : F} (hw : ∀ x, σ.w (x * lr) = σ.w x * lr) :
    ∀ (new : List (SNode F D)) (nodes : List (Node F D)) (q : List (SNode F D)),
      addNodes lr (nodes.map (Node.scale σ)) (q.map (SNode.scale σ)) (new.map (SNode.scale σ)) =
        ((addNodes lr nodes q new).1.map (Node.scale σ), (addNodes lr nodes q new).2.map (SNode.scale σ)) := by
  intro new
  induction new with
  | nil => intro nodes q; rfl
  | cons n new ih =>
    intro nodes q
    simp only [List.map_cons, addNodes, asNode_scale hw]
    rw [← ih, List.map_append, List.map_singleton]
    congr 1
    rw [show (n.scale σ).isMissingLeaf = n.isMissingLeaf from rfl]
    split <;> rfl

theorem makeParentNode_scale (n : Node F D) (s : SNode F D) :
    (n.scale σ).makeParentNode (s.scale σ) = (n.makeParentNode s).scale σ := rfl

theorem growStep_scale (hL : σ.Laws) {c c' : GrowCfg F D} (hc : c.Scaled σ c') (s : GrowState F D) :
    growStep c' (s.scale σ) = GrowState.scale σ <$> growStep c s := by
  unfold growStep
  rw [hc.heap, hc.policy, hc.maxDepth, hc.train]
  refine Res.bind_image (popNode_scale hL hc.order c.policy s.step s.queue) fun r _ => ?_
  obtain ⟨node, q⟩ := r
  dsimp only
  rw [show (node.scale σ).depth = node.depth from rfl]
  split
  · rfl
  · refine Res.bind_image (splitNode_scale hL hc.splitter c.train s.nNodes node s.index) fun r _ => ?_
    obtain ⟨node', index, new⟩ := r
    simp only [splitScale, List.length_map]
    split
    · rfl
    · refine Res.bind_image (φ := Node.scale σ) (idx_map _ _ _) fun n _ => ?_
      rw [makeParentNode_scale, hc.splitter.params.learningRate]
      have := addNodes_scale hc.splitter.params.scaled new (s.nodes.set node.num (n.makeParentNode node')) q
      rw [List.map_set] at this
      rw [show (GrowState.scale σ s).nodes = s.nodes.map (Node.scale σ) from rfl,
        show (node.scale σ).num = node.num from rfl, this]
      rfl

theorem growLoop_scale (hL : σ.Laws) {c c' : GrowCfg F D} (hc : c.Scaled σ c') :
    ∀ (n : Nat) (s : GrowState F D), growLoop c' n (s.scale σ) = GrowState.scale σ <$> growLoop c n s := by
  have hd : ∀ s : GrowState F D, growDone c' (s.scale σ) = growDone c s := by
    intro s
    unfold growDone GrowState.scale
    rw [hc.maxLeaves]
    cases s.queue <;> rfl
  intro n
  induction n with
  | zero =>
    intro s
    simp only [growLoop, hd]
    split <;> rfl
  | succ n ih =>
    intro s
    simp only [growLoop, hd]
    split
    · rfl
    · exact Res.bind_image (growStep_scale hL hc s) fun s' _ => ih s'

theorem foldl_scale {G : Type} [Add G] (φ : G → G) (h : ∀ x y, φ (x + y) = φ x + φ y) :
    ∀ (l : List G) (a : G), (l.map φ).foldl (· + ·) (φ a) = φ (l.foldl (· + ·) a)
  | [], _ => rfl
  | x :: l, a => by
    simp only [List.map_cons, List.foldl_cons, ← h]
    exact foldl_scale φ h l _

theorem foldLanes_map {G : Type} [Fl G] (φ : G → G) (h : ∀ x y, φ (x + y) = φ x + φ y) :
    ∀ (n : Nat) (acc l : List G), foldLanes n (acc.map φ) (l.map φ) =
      ((foldLanes n acc l).1.map φ, (foldLanes n acc l).2.map φ)
  | 0, _, _ => rfl
  | n + 1, acc, l => by
    simp only [foldLanes, List.length_map]
    split
    · rfl
    · rw [← foldLanes_map φ h n]
      congr 1
      · unfold addLanes
        rw [← List.map_take, List.zipWith_map, List.map_zipWith]
        congr 1
        funext x y
        exact (h x y).symm
      · rw [List.map_drop]

theorem fastSum_map {G : Type} [Fl G] (φ : G → G) (h : ∀ x y, φ (x + y) = φ x + φ y) (h0 : φ 0 = 0)
    (l : List G) : fastSum (l.map φ) = φ (fastSum l) := by
  unfold fastSum
  have e := foldLanes_map φ h l.length (List.replicate lanes 0) l
  rw [List.map_replicate, h0] at e
  have f := foldl_scale φ h
  simp only [List.length_map, e]
  rw [h]
  have f1 := f (foldLanes l.length (List.replicate lanes 0) l).1 0
  have f2 := f (foldLanes l.length (List.replicate lanes 0) l).2 0
  rw [h0] at f1 f2
  rw [f1, f2]

theorem fastF64Sum_map {φ : F → F} {ψ : D → D} (hu : ∀ x, (up (φ x) : D) = ψ (up x))
    (hd : ∀ x : D, (down (ψ x) : F) = φ (down x)) (h : ∀ x y, ψ (x + y) = ψ x + ψ y) (h0 : ψ 0 = 0) (l : List F) :
    fastF64Sum (D := D) (l.map φ) = φ (fastF64Sum (D := D) l) := by
  unfold fastF64Sum
  have e0 : (l.map φ).map (up : F → D) = (l.map (up : F → D)).map ψ := by
    rw [List.map_map, List.map_map]
    exact List.map_congr_left fun x _ => hu x
  have e := foldLanes_map ψ h l.length (List.replicate lanes 0) (l.map (up : F → D))
  rw [List.map_replicate, h0] at e
  have f := foldl_scale ψ h
  simp only [List.length_map, e0, e]
  rw [← hd, h]
  have f1 := f (foldLanes l.length (List.replicate lanes 0) (l.map (up : F → D))).1 0
  have f2 := f (foldLanes l.length (List.replicate lanes 0) (l.map (up : F → D))).2 0
  rw [h0] at f1 f2
  rw [f1, f2]

theorem rootSums_scale (hL : σ.Laws) (sm : SampleMethod) (grad hess : List F) (index : List Nat) :
    rootSums (D := D) sm (grad.map σ.g) (hess.map σ.h) index =
      (fun r => (σ.g r.1, σ.h r.2.1, r.2.2)) <$> rootSums (D := D) sm grad hess index := by
  have fg : ∀ gs : List F, ((gs.map σ.g).map (up : F → D)).foldl (· + ·) 0 =
      σ.gD ((gs.map (up : F → D)).foldl (· + ·) 0) := by
    intro gs
    have := foldl_scale σ.gD hL.gD_add (gs.map (up : F → D)) 0
    rw [hL.gD_zero] at this
    rw [← this, List.map_map, List.map_map]
    congr 1
    exact List.map_congr_left fun x _ => hL.up_g x
  have fh : ∀ gs : List F, ((gs.map σ.h).map (up : F → D)).foldl (· + ·) 0 =
      σ.hD ((gs.map (up : F → D)).foldl (· + ·) 0) := by
    intro gs
    have := foldl_scale σ.hD hL.hD_add (gs.map (up : F → D)) 0
    rw [hL.hD_zero] at this
    rw [← this, List.map_map, List.map_map]
    congr 1
    exact List.map_congr_left fun x _ => hL.up_h x
  have key : (do
        let gs ← Res.mapM' (idx (grad.map σ.g)) index
        let hs ← Res.mapM' (idx (hess.map σ.h)) index
        let g := (gs.map (up : F → D)).foldl (· + ·) 0
        let h := (hs.map (up : F → D)).foldl (· + ·) 0
        Res.ok ((down g : F), (down h : F), true)) =
      (fun (r : F × F × Bool) => (σ.g r.1, σ.h r.2.1, r.2.2)) <$> (do
        let gs ← Res.mapM' (idx grad) index
        let hs ← Res.mapM' (idx hess) index
        let g := (gs.map (up : F → D)).foldl (· + ·) 0
        let h := (hs.map (up : F → D)).foldl (· + ·) 0
        Res.ok ((down g : F), (down h : F), true)) := by
    refine Res.bind_image (φ := List.map σ.g) (Res.mapM'_same (fun i => idx_map _ _ _) index) fun gs _ =>
      Res.bind_image (φ := List.map σ.h) (Res.mapM'_same (fun i => idx_map _ _ _) index) fun hs _ => ?_
    dsimp only
    rw [fg, fh, hL.down_g, hL.down_h]
    rfl
  unfold rootSums
  cases sm with
  | none =>
    simp only
    rw [fastF64Sum_map hL.up_g hL.down_g hL.gD_add hL.gD_zero, fastF64Sum_map hL.up_h hL.down_h hL.hD_add hL.hD_zero]
    rfl
  | random => exact key
  | goss => exact key

theorem growInit_scale (hL : σ.Laws) {c c' : GrowCfg F D} (hc : c.Scaled σ c') (sm : SampleMethod)
    (index : List Nat) : growInit c' sm index = GrowState.scale σ <$> growInit c sm index := by
  unfold growInit
  rw [hc.train]
  have hp := hc.splitter.params
  refine Res.bind_image (rootSums_scale hL sm c.train.grad c.train.hess index) fun r _ => ?_
  obtain ⟨g, h, sort⟩ := r
  dsimp only
  refine Res.bind_image (histogramMatrix_scale hL _ _ _ _ _ _ _) fun hists _ => ?_
  rw [Res.map_ok, hp.gain, hp.weight, hp.learningRate]
  have e : ∀ a b : F, SNode.new 0 (hists.scale σ) (σ.w a) (σ.n b) (σ.g g) (σ.h h) 0 0 index.length ninf inf =
      (SNode.new 0 hists a b g h 0 0 index.length ninf inf).scale σ := by
    intro a b
    unfold SNode.new SNode.scale
    simp only [hL.n_zero, hL.b_ninf, hL.b_inf]
  rw [e, asNode_scale hp.scaled]
  rfl

theorem updateAverage_scale (hL : σ.Laws) : ∀ (n : Nat) (nodes : List (Node F D)) (i : Nat),
    updateAverage n (nodes.map (Node.scale σ)) i =
      (fun (r : List (Node F D) × D) => (r.1.map (Node.scale σ), σ.wD r.2)) <$> updateAverage n nodes i := by
  intro n
  induction n with
  | zero => intro nodes i; rfl
  | succ n ih =>
    intro nodes i
    simp only [updateAverage]
    refine Res.bind_image (φ := Node.scale σ) (idx_map _ _ _) fun node _ => ?_
    rw [show (node.scale σ).isLeaf = node.isLeaf from rfl]
    split
    · rw [Res.map_ok, ← hL.up_w]; rfl
    · refine Res.bind_image (φ := Node.scale σ) (idx_map _ _ _) fun rn _ => ?_
      refine Res.bind_image (ih nodes node.rightChild) fun r1 _ => ?_
      obtain ⟨nodes1, ra⟩ := r1
      dsimp only
      refine Res.bind_image (φ := Node.scale σ) (idx_map _ _ _) fun ln _ => ?_
      refine Res.bind_image (ih nodes1 node.leftChild) fun r2 _ => ?_
      obtain ⟨nodes2, la⟩ := r2
      dsimp only
      refine Res.bind_image (φ := Node.scale σ) (idx_map _ _ _) fun mn _ => ?_
      have em : ∀ (ns : List (Node F D)) (k : Nat) (x : D),
          (ns.map (Node.scale σ)).modify k (fun n => { n with weightValue := down (σ.wD x) }) =
          (ns.modify k fun n => { n with weightValue := down x }).map (Node.scale σ) := by
        intro ns k x
        refine List.map_modify' _ _ _ (fun n => ?_) _ _
        rw [hL.down_w]
        rfl
      have fin : ∀ (ns : List (Node F D)) (x x' : D) (ml : Bool), x' = σ.wD x →
          (Res.ok ((if ml = true then
              ((ns.map (Node.scale σ)).modify node.num fun n => { n with weightValue := down x' }).modify
                node.missingNode fun n => { n with weightValue := down x' }
            else (ns.map (Node.scale σ)).modify node.num fun n => { n with weightValue := down x' }), x')) =
          (fun (r : List (Node F D) × D) => (r.1.map (Node.scale σ), σ.wD r.2)) <$> Res.ok ((if ml = true then
              (ns.modify node.num fun n => { n with weightValue := down x }).modify
                node.missingNode fun n => { n with weightValue := down x }
            else ns.modify node.num fun n => { n with weightValue := down x }), x) := by
        intro ns x x' ml e
        rw [Res.map_ok, e, em, em]
        congr 2
        split <;> rfl
      rw [show (mn.scale σ).isLeaf = mn.isLeaf from rfl]
      split
      · simp only [Res.pure_def, Res.ok_bind]
        refine fin nodes2 _ _ true ?_
        rw [show (rn.scale σ).hessianSum = σ.h rn.hessianSum from rfl,
          show (ln.scale σ).hessianSum = σ.h ln.hessianSum from rfl, hL.up_h, hL.up_h]
        have := hL.wD_avg ra (up rn.hessianSum) la (up ln.hessianSum) 0 0
        rw [hL.wD_zero, hL.hD_zero] at this
        exact this.symm
      · refine Res.bind_image (ih nodes2 node.missingNode) fun r3 _ => ?_
        obtain ⟨nodes3, ma⟩ := r3
        simp only [Res.pure_def, Res.ok_bind]
        refine fin nodes3 _ _ false ?_
        rw [show (rn.scale σ).hessianSum = σ.h rn.hessianSum from rfl,
          show (ln.scale σ).hessianSum = σ.h ln.hessianSum from rfl,
          show (mn.scale σ).hessianSum = σ.h mn.hessianSum from rfl, hL.up_h, hL.up_h, hL.up_h]
        exact (hL.wD_avg ..).symm

theorem cleanUpSplits_scale (hL : σ.Laws) {s s' : Splitter F} (hs : s.Scaled σ s') (nodes : List (Node F D)) :
    cleanUpSplits s' (nodes.map (Node.scale σ)) = List.map (Node.scale σ) <$> cleanUpSplits s nodes := by
  cases s <;> cases s' <;> first | exact hs.elim | skip
  · rfl
  · unfold cleanUpSplits
    simp only [hs.2.2.1, List.length_map]
    split
    · exact Res.bind_image (updateAverage_scale hL _ nodes 0) fun r _ => rfl
    · rfl

/-- Image of a tree. -/
def Tree.scale (σ : Scale F D) (t : Tree F D) : Tree F D := { nodes := t.nodes.map (Node.scale σ) }

theorem Tree.fit_scale (hL : σ.Laws) {c c' : GrowCfg F D} (hc : c.Scaled σ c') (sm : SampleMethod)
    (index : List Nat) : Tree.fit c' sm index = Tree.scale σ <$> Tree.fit c sm index := by
  unfold Tree.fit
  refine Res.bind_image (growInit_scale hL hc sm index) fun s _ => ?_
  have ef : growFuel c' = growFuel c := by unfold growFuel; rw [hc.maxLeaves]
  rw [ef]
  refine Res.bind_image (growLoop_scale hL hc _ s) fun s' _ => ?_
  exact Res.bind_image (cleanUpSplits_scale hL hc.splitter s'.nodes) fun nodes _ => rfl

/-! ## Predictions -/

theorem leafFrom_scale (nodes : List (Node F D)) (get : Nat → Res D) (missing : D) : ∀ (n i : Nat),
    leafFrom (nodes.map (Node.scale σ)) get missing n i = Node.scale σ <$> leafFrom nodes get missing n i := by
  intro n
  induction n with
  | zero => intro i; rfl
  | succ n ih =>
    intro i
    simp only [leafFrom]
    refine Res.bind_image (φ := Node.scale σ) (idx_map _ _ _) fun node _ => ?_
    rw [show (node.scale σ).isLeaf = node.isLeaf from rfl]
    split
    · rfl
    · exact Res.bind_same fun v _ => Res.bind_same fun c _ => ih c

theorem Tree.predict_scale (hL : σ.Laws) (t : Tree F D) (data : Matrix D) (missing : D) :
    (t.scale σ).predict data missing = List.map σ.wD <$> t.predict data missing := by
  unfold Tree.predict
  refine Res.mapM'_same (fun i => ?_) _
  refine Res.bind_image (φ := Node.scale σ) ?_ fun n _ => ?_
  · unfold Tree.predictLeaf Tree.scale
    rw [List.length_map]
    exact leafFrom_scale _ _ _ _ _
  · rw [Res.map_ok, ← hL.up_w]; rfl

end Verif
