import Verif.Model.Booster

/-!
# Scaled runs: splitting a node

Two runs of the code whose gradients, hessians, weights and gains correspond by fixed maps.  The maps commute
with the arithmetic that the code does, so that every state of the second run is the image of the state of the
first.
-/

namespace Verif

open scoped Verif

set_option linter.unusedSectionVars false

namespace Res
variable {α β γ δ : Type}

theorem map_ok (f : α → β) (a : α) : f <$> (ok a) = ok (f a) := rfl

theorem map_panic (f : α → β) : f <$> (panic : Res α) = panic := rfl

theorem map_diverge (f : α → β) : f <$> (diverge : Res α) = diverge := rfl

/-- Sequencing of corresponding steps. -/
theorem bind_image {x : Res α} {x' : Res β} {φ : α → β} {ψ : γ → δ} {k : α → Res γ} {k' : β → Res δ}
    (hx : x' = φ <$> x) (hk : ∀ a, x = ok a → k' (φ a) = ψ <$> k a) : x' >>= k' = ψ <$> (x >>= k) := by
  subst hx
  cases x with
  | ok a => exact hk a rfl
  | panic => rfl
  | diverge => rfl

/-- Sequencing after the same step. -/
theorem bind_same {x : Res α} {ψ : γ → δ} {k : α → Res γ} {k' : α → Res δ}
    (hk : ∀ a, x = ok a → k' a = ψ <$> k a) : x >>= k' = ψ <$> (x >>= k) := by
  cases x with
  | ok a => exact hk a rfl
  | panic => rfl
  | diverge => rfl

theorem mapM'_image {φ : α → β} {ψ : γ → δ} {f : α → Res γ} {f' : β → Res δ} (h : ∀ a, f' (φ a) = ψ <$> f a) :
    ∀ l : List α, mapM' f' (l.map φ) = List.map ψ <$> mapM' f l
  | [] => rfl
  | a :: l => by
    simp only [List.map_cons, mapM'_cons]
    refine bind_image (h a) fun x _ => bind_image (mapM'_image h l) fun y _ => rfl

theorem mapM'_same {ψ : γ → δ} {f : α → Res γ} {f' : α → Res δ} (h : ∀ a, f' a = ψ <$> f a) :
    ∀ l : List α, mapM' f' l = List.map ψ <$> mapM' f l
  | [] => rfl
  | a :: l => by
    simp only [mapM'_cons]
    refine bind_image (h a) fun x _ => bind_image (mapM'_same h l) fun y _ => rfl

theorem foldM'_image {φ : α → β} {ψ : γ → δ} {f : γ → α → Res γ} {f' : δ → β → Res δ}
    (h : ∀ s a, f' (ψ s) (φ a) = ψ <$> f s a) :
    ∀ (l : List α) (s : γ), foldM' f' (ψ s) (l.map φ) = ψ <$> foldM' f s l
  | [], _ => rfl
  | a :: l, s => by
    simp only [List.map_cons, foldM'_cons]
    exact bind_image (h s a) fun x _ => foldM'_image h l x

end Res

theorem idx_map {α β : Type} (f : α → β) (l : List α) (i : Nat) : idx (l.map f) i = f <$> idx l i := by
  unfold idx
  rw [List.getElem?_map]
  cases l[i]? <;> rfl

theorem slice_map {α β : Type} (f : α → β) (l : List α) (i j : Nat) :
    slice (l.map f) i j = List.map f <$> slice l i j := by
  unfold slice
  rw [List.length_map]
  split
  · rw [Res.map_ok]; simp [List.map_take, List.map_drop]
  · rfl

/-- The maps between two runs. -/
structure Scale (F D : Type) where
  /-- gradients -/
  g : F → F
  /-- hessians -/
  h : F → F
  /-- weights -/
  w : F → F
  /-- gains -/
  n : F → F
  /-- bounds -/
  b : F → F
  /-- sums of gradients -/
  gD : D → D
  /-- sums of hessians -/
  hD : D → D
  /-- predictions -/
  wD : D → D

variable {F D : Type}

/-- Image of a `NodeInfo`. -/
def NodeInfo.scale (σ : Scale F D) (i : NodeInfo F) : NodeInfo F :=
  { grad := σ.g i.grad, gain := σ.n i.gain, cover := σ.h i.cover, weight := σ.w i.weight
    lower := σ.b i.lower, upper := σ.b i.upper }

/-- Image of a `MissingInfo`. -/
def MissingInfo.scale (σ : Scale F D) : MissingInfo F → MissingInfo F
  | .left => .left
  | .right => .right
  | .leaf i => .leaf (i.scale σ)
  | .branch i => .branch (i.scale σ)

/-- Image of a `SplitInfo`. -/
def SplitInfo.scale (σ : Scale F D) (i : SplitInfo F D) : SplitInfo F D :=
  { i with splitGain := σ.n i.splitGain, leftNode := i.leftNode.scale σ
           rightNode := i.rightNode.scale σ, missingNode := i.missingNode.scale σ }

/-- Image of a bin. -/
def Bin.scale (σ : Scale F D) (b : Bin F D) : Bin F D :=
  { grad := σ.g b.grad, hess := σ.h b.hess, cut := b.cut }

/-- Image of a matrix of histograms. -/
def JaggedMatrix.scale (σ : Scale F D) (h : JaggedMatrix (Bin F D)) : JaggedMatrix (Bin F D) :=
  { h with data := h.data.map (Bin.scale σ) }

/-- Image of an open node. -/
def SNode.scale (σ : Scale F D) (s : SNode F D) : SNode F D :=
  { s with histograms := s.histograms.scale σ, weightValue := σ.w s.weightValue
           gainValue := σ.n s.gainValue, gradientSum := σ.g s.gradientSum
           hessianSum := σ.h s.hessianSum, splitGain := σ.n s.splitGain
           lowerBound := σ.b s.lowerBound, upperBound := σ.b s.upperBound }

/-- Image of a node of a tree. -/
def Node.scale (σ : Scale F D) (n : Node F D) : Node F D :=
  { n with weightValue := σ.w n.weightValue, hessianSum := σ.h n.hessianSum
           splitGain := σ.n n.splitGain }

/-- Image of the arguments of `evaluate_split`. -/
def SplitArgs.scale (σ : Scale F D) (a : SplitArgs F) : SplitArgs F :=
  { lg := σ.g a.lg, lh := σ.h a.lh, rg := σ.g a.rg, rh := σ.h a.rh, mg := σ.g a.mg, mh := σ.h a.mh
    lower := σ.b a.lower, upper := σ.b a.upper, parentWeight := σ.w a.parentWeight
    constraint := a.constraint }

variable [Fl F] [Fl D] [FlCast F D]

/-- The maps commute with the arithmetic. -/
structure Scale.Laws (σ : Scale F D) : Prop where
  g_add : ∀ x y, σ.g (x + y) = σ.g x + σ.g y
  g_sub : ∀ x y, σ.g (x - y) = σ.g x - σ.g y
  g_zero : σ.g 0 = 0
  g_eq : ∀ x, (σ.g x =ᶠ 0) = (x =ᶠ 0)
  h_add : ∀ x y, σ.h (x + y) = σ.h x + σ.h y
  h_sub : ∀ x y, σ.h (x - y) = σ.h x - σ.h y
  h_zero : σ.h 0 = 0
  h_eq : ∀ x, (σ.h x =ᶠ 0) = (x =ᶠ 0)
  n_add : ∀ x y, σ.n (x + y) = σ.n x + σ.n y
  n_sub : ∀ x y, σ.n (x - y) = σ.n x - σ.n y
  n_zero : σ.n 0 = 0
  n_lt : ∀ x y, (σ.n x <ᶠ σ.n y) = (x <ᶠ y)
  n_le : ∀ x, (σ.n x ≤ᶠ 0) = (x ≤ᶠ 0)
  n_tle : ∀ x y, Fl.tle (σ.n x) (σ.n y) = Fl.tle x y
  n_nan : ∀ x, isNaN (σ.n x) = isNaN x
  n_ninf : σ.n ninf = ninf
  b_ninf : σ.b ninf = ninf
  b_inf : σ.b inf = inf
  w_mid : ∀ x y, σ.w ((x + y) / Fl.ofNat 2) = (σ.w x + σ.w y) / Fl.ofNat 2
  w_avg : ∀ x a y b, σ.w ((x * a + y * b) / (a + b)) =
    (σ.w x * σ.h a + σ.w y * σ.h b) / (σ.h a + σ.h b)
  up_g : ∀ x, (up (σ.g x) : D) = σ.gD (up x)
  down_g : ∀ x : D, (down (σ.gD x) : F) = σ.g (down x)
  gD_add : ∀ x y, σ.gD (x + y) = σ.gD x + σ.gD y
  gD_zero : σ.gD 0 = 0
  up_h : ∀ x, (up (σ.h x) : D) = σ.hD (up x)
  down_h : ∀ x : D, (down (σ.hD x) : F) = σ.h (down x)
  hD_add : ∀ x y, σ.hD (x + y) = σ.hD x + σ.hD y
  hD_zero : σ.hD 0 = 0
  up_w : ∀ x, (up (σ.w x) : D) = σ.wD (up x)
  down_w : ∀ x : D, (down (σ.wD x) : F) = σ.w (down x)
  wD_add : ∀ x y, σ.wD (x + y) = σ.wD x + σ.wD y
  wD_zero : σ.wD 0 = 0
  wD_avg : ∀ x a y b z c, σ.wD ((x * a + y * b + z * c) / (b + a + c)) =
    (σ.wD x * σ.hD a + σ.wD y * σ.hD b + σ.wD z * σ.hD c) / (σ.hD b + σ.hD a + σ.hD c)

/-- The map of weights respects the order, and bounds are mapped like weights. -/
structure Scale.Ordered (σ : Scale F D) : Prop where
  b_eq : σ.b = σ.w
  lt : ∀ x y, (σ.w x <ᶠ σ.w y) = (x <ᶠ y)
  le : ∀ x y, (σ.w x ≤ᶠ σ.w y) = (x ≤ᶠ y)

/-- The parameters of the two runs correspond. -/
structure SplitParams.Scaled (σ : Scale F D) (p p' : SplitParams F) : Prop where
  weight : ∀ x y, weight p'.l1 p'.l2 p'.maxDeltaStep (σ.g x) (σ.h y) = σ.w (weight p.l1 p.l2 p.maxDeltaStep x y)
  gainW : ∀ x y z, gainGivenWeight p'.l2 (σ.g x) (σ.h y) (σ.w z) = σ.n (gainGivenWeight p.l2 x y z)
  gain : ∀ x y, gain p'.l2 (σ.g x) (σ.h y) = σ.n (gain p.l2 x y)
  gamma : p'.gamma = σ.n p.gamma
  minLeafWeight : ∀ x, (σ.h x <ᶠ p'.minLeafWeight) = (x <ᶠ p.minLeafWeight)
  learningRate : p'.learningRate = p.learningRate
  scaled : ∀ x, σ.w (x * p.learningRate) = σ.w x * p.learningRate
  allow : p'.allowMissingSplits = p.allowMissingSplits
  constraints : p'.constraintsMap = p.constraintsMap
  ordered : (∀ f, noConstraint (p.getConstraint f) = true) ∨ σ.Ordered

/-- The splitters of the two runs correspond. -/
def Splitter.Scaled (σ : Scale F D) : Splitter F → Splitter F → Prop
  | .imputer p, .imputer p' => p.Scaled σ p'
  | .branch p, .branch p' => p.toSplitParams.Scaled σ p'.toSplitParams ∧
      p'.terminateMissingFeatures = p.terminateMissingFeatures ∧
      p'.missingNodeTreatment = p.missingNodeTreatment ∧
      p'.forceChildrenToBoundParent = p.forceChildrenToBoundParent ∧
      (p.forceChildrenToBoundParent = false ∨ σ.Ordered)
  | _, _ => False

theorem Splitter.Scaled.params {σ : Scale F D} {s s' : Splitter F} (h : s.Scaled σ s') :
    s.params.Scaled σ s'.params := by
  cases s <;> cases s' <;> first | exact h.elim | exact h | exact h.1

/-! ## Evaluating a candidate -/

section
variable {σ : Scale F D} {p p' : SplitParams F} {a : SplitArgs F}

theorem SplitParams.Scaled.cw (hp : p.Scaled σ p') (hc : noConstraint a.constraint = true ∨ σ.Ordered)
    (x y : F) : p'.cw (a.scale σ) (σ.g x) (σ.h y) = σ.w (p.cw a x y) := by
  unfold SplitParams.cw constrainedWeight
  simp only [SplitArgs.scale, hp.weight]
  split
  · rfl
  · rename_i hn
    obtain h := hc.resolve_left hn
    rw [h.b_eq, h.lt, h.lt]
    split
    · rfl
    · split <;> rfl

theorem cullGain_scale (hL : σ.Laws) {ct : Option Constraint} (hc : noConstraint ct = true ∨ σ.Ordered)
    (x l r : F) : cullGain (σ.n x) (σ.w l) (σ.w r) ct = σ.n (cullGain x l r ct) := by
  unfold cullGain
  split
  · rfl
  · rfl
  · have h : σ.Ordered := hc.resolve_left (by simp [noConstraint])
    rw [h.le]
    split
    · exact hL.n_ninf.symm
    · rfl
  · have h : σ.Ordered := hc.resolve_left (by simp [noConstraint])
    rw [h.le]
    split
    · exact hL.n_ninf.symm
    · rfl

theorem mkInfo_scale (hL : σ.Laws) (g n h w : F) :
    mkInfo (σ.g g) (σ.n n) (σ.h h) (σ.w w) = (mkInfo g n h w).scale σ := by
  unfold mkInfo NodeInfo.scale
  simp only [hL.b_ninf, hL.b_inf]

/-- Image of the outcome of `evaluate_split`. -/
def evalScale (σ : Scale F D) (r : NodeInfo F × NodeInfo F × MissingInfo F) :
    NodeInfo F × NodeInfo F × MissingInfo F := (r.1.scale σ, r.2.1.scale σ, r.2.2.scale σ)

theorem imputerEvaluateSplit_scale (hL : σ.Laws) (hp : p.Scaled σ p')
    (hc : noConstraint a.constraint = true ∨ σ.Ordered) :
    imputerEvaluateSplit p' (a.scale σ) = (imputerEvaluateSplit p a).map (evalScale σ) := by
  unfold imputerEvaluateSplit
  have e : ∀ x y, p'.cw (a.scale σ) (σ.g x) (σ.h y) = σ.w (p.cw a x y) := hp.cw hc
  have hcull : ∀ x l r, cullGain (σ.n x) (σ.w l) (σ.w r) a.constraint = σ.n (cullGain x l r a.constraint) :=
    cullGain_scale hL hc
  have e1 : (a.scale σ).lg = σ.g a.lg := rfl
  have e2 : (a.scale σ).lh = σ.h a.lh := rfl
  have e3 : (a.scale σ).rg = σ.g a.rg := rfl
  have e4 : (a.scale σ).rh = σ.h a.rh := rfl
  have e5 : (a.scale σ).mg = σ.g a.mg := rfl
  have e6 : (a.scale σ).mh = σ.h a.mh := rfl
  have e7 : (a.scale σ).constraint = a.constraint := rfl
  simp only [e1, e2, e3, e4, e5, e6, e7, hL.g_eq, hL.h_eq, hp.allow, ← hL.g_add, ← hL.h_add, e, hp.gainW, hcull,
    hp.minLeafWeight, ← hL.n_sub, hL.n_lt]
  split
  · rfl
  · split
    · rfl
    · split
      · split
        · simp only [hp.minLeafWeight]
          split
          · rfl
          · simp only [mkInfo_scale hL]; rfl
        · simp only [hp.minLeafWeight]
          split
          · rfl
          · simp only [mkInfo_scale hL]; rfl
      · simp only [hp.minLeafWeight]
        split
        · rfl
        · simp only [mkInfo_scale hL]; rfl

theorem between_scale (h : σ.Ordered) (x y z : F) : between (σ.w x) (σ.w y) (σ.w z) = between x y z := by
  unfold between
  simp only [h.lt, h.le]

theorem boundToParent_scale (h : σ.Ordered) (x y z : F) :
    boundToParent (σ.w x) (σ.w y) (σ.w z) = ((boundToParent x y z).1 |> σ.w, (boundToParent x y z).2 |> σ.w) := by
  unfold boundToParent
  simp only [between_scale h, h.lt]
  split
  · rfl
  · split <;> split <;> rfl

variable {q q' : BranchParams F}

theorem branchChildWeights_scale (hp : q.toSplitParams.Scaled σ q'.toSplitParams)
    (hf : q'.forceChildrenToBoundParent = q.forceChildrenToBoundParent)
    (ho : q.forceChildrenToBoundParent = false ∨ σ.Ordered)
    (hc : noConstraint a.constraint = true ∨ σ.Ordered) :
    branchChildWeights q' (a.scale σ) = (fun r => (σ.w r.1, σ.w r.2)) <$> branchChildWeights q a := by
  unfold branchChildWeights
  have e : ∀ x y, q'.toSplitParams.cw (a.scale σ) (σ.g x) (σ.h y) = σ.w (q.toSplitParams.cw a x y) := hp.cw hc
  have e1 : (a.scale σ).lg = σ.g a.lg := rfl
  have e2 : (a.scale σ).lh = σ.h a.lh := rfl
  have e3 : (a.scale σ).rg = σ.g a.rg := rfl
  have e4 : (a.scale σ).rh = σ.h a.rh := rfl
  simp only [e1, e2, e3, e4, e, hf]
  split
  · rename_i h
    have ho : σ.Ordered := ho.resolve_left (by rw [h]; exact Bool.noConfusion)
    have e5 : (a.scale σ).lower = σ.w a.lower := by rw [← ho.b_eq]; rfl
    have e6 : (a.scale σ).upper = σ.w a.upper := by rw [← ho.b_eq]; rfl
    have e7 : (a.scale σ).parentWeight = σ.w a.parentWeight := rfl
    simp only [e5, e6, e7, boundToParent_scale ho, between_scale ho]
    refine Res.bind_same fun _ _ => Res.bind_same fun _ _ => rfl
  · rfl

theorem branchMissingWeight_scale (hL : σ.Laws) (hp : q.toSplitParams.Scaled σ q'.toSplitParams)
    (ht : q'.missingNodeTreatment = q.missingNodeTreatment)
    (hc : noConstraint a.constraint = true ∨ σ.Ordered) (x y : F) :
    branchMissingWeight q' (a.scale σ) (σ.w x) (σ.w y) = σ.w (branchMissingWeight q a x y) := by
  unfold branchMissingWeight
  have e : ∀ x y, q'.toSplitParams.cw (a.scale σ) (σ.g x) (σ.h y) = σ.w (q.toSplitParams.cw a x y) := hp.cw hc
  have e1 : (a.scale σ).lg = σ.g a.lg := rfl
  have e2 : (a.scale σ).lh = σ.h a.lh := rfl
  have e3 : (a.scale σ).rg = σ.g a.rg := rfl
  have e4 : (a.scale σ).rh = σ.h a.rh := rfl
  have e5 : (a.scale σ).mg = σ.g a.mg := rfl
  have e6 : (a.scale σ).mh = σ.h a.mh := rfl
  have e7 : (a.scale σ).parentWeight = σ.w a.parentWeight := rfl
  simp only [e1, e2, e3, e4, e5, e6, e7, ht, ← hL.g_add, ← hL.h_add, e, hL.g_eq, hL.h_eq]
  split
  · rfl
  · rw [hL.h_add, ← hL.w_avg]
  · rw [hL.h_add, ← hL.w_avg]
  · split <;> rfl

theorem branchEvaluateSplit_scale (hL : σ.Laws) (hp : q.toSplitParams.Scaled σ q'.toSplitParams)
    (hf : q'.forceChildrenToBoundParent = q.forceChildrenToBoundParent)
    (ht : q'.missingNodeTreatment = q.missingNodeTreatment)
    (ho : q.forceChildrenToBoundParent = false ∨ σ.Ordered)
    (hc : noConstraint a.constraint = true ∨ σ.Ordered) :
    branchEvaluateSplit q' (a.scale σ) = Option.map (evalScale σ) <$> branchEvaluateSplit q a := by
  unfold branchEvaluateSplit
  have e1 : (a.scale σ).lg = σ.g a.lg := rfl
  have e2 : (a.scale σ).lh = σ.h a.lh := rfl
  have e3 : (a.scale σ).rg = σ.g a.rg := rfl
  have e4 : (a.scale σ).rh = σ.h a.rh := rfl
  have e5 : (a.scale σ).mg = σ.g a.mg := rfl
  have e6 : (a.scale σ).mh = σ.h a.mh := rfl
  simp only [e1, e2, e3, e4, e5, e6, hL.g_eq, hL.h_eq, hp.allow]
  split
  · rfl
  · refine Res.bind_image (branchChildWeights_scale hp hf ho hc) fun r _ => ?_
    obtain ⟨lw, rw⟩ := r
    dsimp only
    simp only [hp.minLeafWeight]
    split
    · rfl
    · simp only [hp.gainW, branchMissingWeight_scale hL hp ht hc, mkInfo_scale hL, Res.map_ok]
      simp only [Option.map_some, evalScale]
      congr 4
      split <;> rfl

theorem evaluateSplit_scale (hL : σ.Laws) {s s' : Splitter F} (hs : s.Scaled σ s')
    (hc : noConstraint a.constraint = true ∨ σ.Ordered) :
    s'.evaluateSplit (a.scale σ) = Option.map (evalScale σ) <$> s.evaluateSplit a := by
  cases s <;> cases s' <;> first | exact hs.elim | skip
  · exact congrArg Res.ok (imputerEvaluateSplit_scale hL hs hc)
  · exact branchEvaluateSplit_scale hL hs.1 hs.2.2.2.1 hs.2.2.1 hs.2.2.2.2 hc

theorem getSplitGain_scale (hL : σ.Laws) (n : SNode F D) (l r : NodeInfo F) (m : MissingInfo F) (x : F) :
    (n.scale σ).getSplitGain (l.scale σ) (r.scale σ) (m.scale σ) (σ.n x) = σ.n (n.getSplitGain l r m x) := by
  unfold SNode.getSplitGain
  cases m <;> simp only [NodeInfo.scale, MissingInfo.scale, SNode.scale, hL.n_add, hL.n_sub, hL.n_zero]

theorem childBounds_scale {ct : Option Constraint} (hc : noConstraint ct = true ∨ σ.Ordered)
    (lo up mid : F) : childBounds ct (σ.b lo) (σ.b up) (σ.w mid) =
      (((σ.b (childBounds ct lo up mid).1.1), σ.b (childBounds ct lo up mid).1.2),
        (σ.b (childBounds ct lo up mid).2.1), σ.b (childBounds ct lo up mid).2.2) := by
  unfold childBounds
  split
  · rfl
  · rfl
  · have h : σ.Ordered := hc.resolve_left (by simp [noConstraint])
    rw [h.b_eq]
  · have h : σ.Ordered := hc.resolve_left (by simp [noConstraint])
    rw [h.b_eq]

theorem evalCandidate_scale (hL : σ.Laws) {s s' : Splitter F} (hs : s.Scaled σ s') (node : SNode F D)
    (f : Nat) {ct : Option Constraint} (hc : noConstraint ct = true ∨ σ.Ordered) (m bin : Bin F D) (i : Nat)
    (cg ch : F) :
    evalCandidate s' (node.scale σ) f ct (m.scale σ) (bin.scale σ) i (σ.g cg) (σ.h ch) =
      Option.map (SplitInfo.scale σ) <$> evalCandidate s node f ct m bin i cg ch := by
  unfold evalCandidate
  refine Res.bind_image (φ := Option.map (evalScale σ)) ?_ fun r _ => ?_
  · rw [← evaluateSplit_scale hL hs (by exact hc)]
    congr 1
    simp only [SplitArgs.scale, SNode.scale, Bin.scale, hL.g_sub, hL.h_sub]
  · cases r with
    | none => rfl
    | some x =>
      obtain ⟨l, r, mi⟩ := x
      simp only [Option.map_some, evalScale, hs.params.gamma, getSplitGain_scale hL]
      have ew : ∀ j : NodeInfo F, (j.scale σ).weight = σ.w j.weight := fun _ => rfl
      simp only [ew, cullGain_scale hL hc, hL.n_le, hL.n_nan, ← hL.w_mid]
      split
      · rfl
      · have eb : ∀ mid, childBounds ct (node.scale σ).lowerBound (node.scale σ).upperBound (σ.w mid) =
            (((σ.b (childBounds ct node.lowerBound node.upperBound mid).1.1),
              σ.b (childBounds ct node.lowerBound node.upperBound mid).1.2),
            (σ.b (childBounds ct node.lowerBound node.upperBound mid).2.1),
              σ.b (childBounds ct node.lowerBound node.upperBound mid).2.2) :=
          fun mid => childBounds_scale hc _ _ mid
        simp only [eb, Res.map_ok, Option.map_some]
        unfold SplitInfo.scale
        congr 2
        simp only [SplitInfo.mk.injEq, true_and, and_true]
        refine ⟨?_, rfl, rfl, rfl⟩
        split
        · exact hL.n_zero.symm
        · rfl

theorem bestFeatureLoop_scale (hL : σ.Laws) {s s' : Splitter F} (hs : s.Scaled σ s') (node : SNode F D)
    (f : Nat) {ct : Option Constraint} (hc : noConstraint ct = true ∨ σ.Ordered) (m : Bin F D) :
    ∀ (bins : List (Bin F D)) (i : Nat) (cg ch : F) (best : Option (SplitInfo F D)),
      bestFeatureLoop s' (node.scale σ) f ct (m.scale σ) (bins.map (Bin.scale σ)) i (σ.g cg) (σ.h ch)
          (best.map (SplitInfo.scale σ)) =
        Option.map (SplitInfo.scale σ) <$> bestFeatureLoop s node f ct m bins i cg ch best := by
  intro bins
  induction bins with
  | nil => intro i cg ch best; rfl
  | cons bin bins ih =>
    intro i cg ch best
    simp only [List.map_cons, bestFeatureLoop]
    refine Res.bind_image (evalCandidate_scale hL hs node f hc m bin i cg ch) fun c _ => ?_
    rw [show (bin.scale σ).grad = σ.g bin.grad from rfl, show (bin.scale σ).hess = σ.h bin.hess from rfl,
      ← hL.g_add, ← hL.h_add, ← ih]
    congr 1
    cases c with
    | none => rfl
    | some c =>
      cases best with
      | none => rfl
      | some b =>
        simp only [Option.map_some]
        rw [show (b.scale σ).splitGain = σ.n b.splitGain from rfl,
          show (c.scale σ).splitGain = σ.n c.splitGain from rfl, hL.n_lt]
        split <;> rfl

omit [Fl F] [Fl D] [FlCast F D] in
theorem JaggedMatrix.scale_getCol (h : JaggedMatrix (Bin F D)) (i : Nat) :
    (h.scale σ).getCol i = List.map (Bin.scale σ) <$> h.getCol i := by
  unfold JaggedMatrix.getCol
  refine Res.bind_same fun _ _ => ?_
  dsimp only
  split
  · exact Res.bind_same fun _ _ => Res.bind_same fun b _ => slice_map _ _ _ _
  · exact Res.bind_same fun _ _ => Res.bind_same fun b _ => slice_map _ _ _ _

theorem bestFeatureSplit_scale (hL : σ.Laws) {s s' : Splitter F} (hs : s.Scaled σ s') (node : SNode F D)
    (f k : Nat) : bestFeatureSplit s' (node.scale σ) f k =
      Option.map (SplitInfo.scale σ) <$> bestFeatureSplit s node f k := by
  unfold bestFeatureSplit
  have hc : s'.params.getConstraint f = s.params.getConstraint f := by
    unfold SplitParams.getConstraint; rw [hs.params.constraints]
  refine Res.bind_image (JaggedMatrix.scale_getCol node.histograms k) fun c _ => ?_
  cases c with
  | nil => rfl
  | cons m bins =>
    simp only [List.map_cons, hc]
    have := bestFeatureLoop_scale hL hs node f (ct := s.params.getConstraint f)
      (hs.params.ordered.imp (fun h => h f) id) m bins 0 0 0 none
    rw [hL.g_zero, hL.h_zero] at this
    exact this

theorem bestSplitLoop_scale (hL : σ.Laws) {s s' : Splitter F} (hs : s.Scaled σ s') (node : SNode F D) :
    ∀ (cols : List Nat) (k : Nat) (x : F) (best : Option (SplitInfo F D)),
      bestSplitLoop s' (node.scale σ) cols k (σ.n x) (best.map (SplitInfo.scale σ)) =
        Option.map (SplitInfo.scale σ) <$> bestSplitLoop s node cols k x best := by
  intro cols
  induction cols with
  | nil => intro k x best; rfl
  | cons f cols ih =>
    intro k x best
    simp only [bestSplitLoop]
    refine Res.bind_image (bestFeatureSplit_scale hL hs node f k) fun c _ => ?_
    cases c with
    | none => exact ih _ _ _
    | some c =>
      simp only [Option.map_some]
      rw [show (c.scale σ).splitGain = σ.n c.splitGain from rfl, hL.n_lt]
      split
      · exact ih _ _ (some c)
      · exact ih _ _ _

theorem bestSplit_scale (hL : σ.Laws) {s s' : Splitter F} (hs : s.Scaled σ s') (node : SNode F D)
    (cols : List Nat) :
    bestSplit s' (node.scale σ) cols = Option.map (SplitInfo.scale σ) <$> bestSplit s node cols := by
  unfold bestSplit
  have := bestSplitLoop_scale hL hs node cols 0 0 none
  rw [hL.n_zero] at this
  exact this

end

end Verif
