import Verif.Proofs.Bounds
import Verif.Proofs.Rounds
import Verif.Spec.Monotone

/-!
# Bounds set by monotone constraints, in any arithmetic

The weights and bounds of the children of a split, without assumptions on the arithmetic, and what follows
for arithmetics in which the midpoint of two numbers lies between them.
-/

namespace Verif

open scoped Verif

set_option linter.unusedSectionVars false

section
variable {F D : Type} [Fl F] [Fl D] [FlCast F D]

/-- A weight that a split can give to a child: a regularised step, clipped if the feature is constrained,
or the weight of the parent. -/
def KidWeight (p : SplitParams F) (sn : SNode F D) (ct : Option Constraint) (w : F) : Prop :=
  (∃ x y, w = constrainedWeight p.l1 p.l2 p.maxDeltaStep x y sn.lowerBound sn.upperBound ct) ∨
    w = sn.weightValue

/-- The treatments of missing values that do not average. -/
def Splitter.NoAverage (s : Splitter F) : Prop :=
  ∀ p, s = .branch p → p.missingNodeTreatment = .none ∨ p.missingNodeTreatment = .assignToParent

theorem evaluateSplit_weights {s : Splitter F} {a : SplitArgs F} {l r : NodeInfo F} {m : MissingInfo F}
    (h : s.evaluateSplit a = .ok (some (l, r, m))) :
    (((∃ x y, l.weight = s.params.cw a x y) ∨ l.weight = a.parentWeight) ∧
    ((∃ x y, r.weight = s.params.cw a x y) ∨ r.weight = a.parentWeight)) ∧
    (s.NoAverage → (∃ p, s = .branch p) → ∃ mi, (m = .branch mi ∨ m = .leaf mi) ∧ mi.lower = a.lower ∧
      mi.upper = a.upper ∧ ((∃ x y, mi.weight = s.params.cw a x y) ∨ mi.weight = a.parentWeight)) := by
  cases s with
  | imputer p =>
    refine ⟨?_, fun _ => fun ⟨_, h⟩ => nomatch h⟩
    simp only [Splitter.evaluateSplit, Res.ok.injEq] at h
    unfold imputerEvaluateSplit at h
    split at h
    · cases h
    · simp only at h
      split at h
      · cases h
      · split at h
        · split at h
          all_goals
            split at h
            · cases h
            · simp only [Option.some.injEq, Prod.mk.injEq] at h
              obtain ⟨rfl, rfl, rfl⟩ := h
              exact ⟨.inl ⟨_, _, rfl⟩, .inl ⟨_, _, rfl⟩⟩
        · split at h
          · cases h
          · simp only [Option.some.injEq, Prod.mk.injEq] at h
            obtain ⟨rfl, rfl, rfl⟩ := h
            exact ⟨.inl ⟨_, _, rfl⟩, .inl ⟨_, _, rfl⟩⟩
  | branch p =>
    obtain ⟨lw, rw, h1, _, _, rfl, rfl, rfl⟩ := branchEvaluateSplit_some h
    have hw : ((∃ x y, lw = p.cw a x y) ∨ lw = a.parentWeight) ∧
        ((∃ x y, rw = p.cw a x y) ∨ rw = a.parentWeight) := by
      unfold branchChildWeights at h1
      simp only at h1
      split at h1
      · simp only [Res.bind_eq_ok, Res.ok.injEq, Prod.mk.injEq] at h1
        obtain ⟨_, _, _, _, rfl, rfl⟩ := h1
        unfold boundToParent
        split
        · exact ⟨.inl ⟨_, _, rfl⟩, .inl ⟨_, _, rfl⟩⟩
        · split <;> split
          · exact ⟨.inr rfl, .inl ⟨_, _, rfl⟩⟩
          · exact ⟨.inl ⟨_, _, rfl⟩, .inr rfl⟩
          · exact ⟨.inl ⟨_, _, rfl⟩, .inr rfl⟩
          · exact ⟨.inr rfl, .inl ⟨_, _, rfl⟩⟩
      · simp only [Res.ok.injEq, Prod.mk.injEq] at h1
        obtain ⟨rfl, rfl⟩ := h1
        exact ⟨.inl ⟨_, _, rfl⟩, .inl ⟨_, _, rfl⟩⟩
    refine ⟨hw, fun hn _ => ⟨{
        grad := a.mg, gain := gainGivenWeight p.l2 a.mg a.mh (branchMissingWeight p a lw rw)
        cover := a.mh, weight := branchMissingWeight p a lw rw, lower := a.lower, upper := a.upper },
      ?_, rfl, rfl, ?_⟩⟩
    · split
      · exact .inl rfl
      · exact .inr rfl
    · show (∃ x y, branchMissingWeight p a lw rw = p.cw a x y) ∨ branchMissingWeight p a lw rw = a.parentWeight
      unfold branchMissingWeight
      rcases hn p rfl with e | e <;> rw [e]
      · simp only
        split
        · exact .inr rfl
        · exact .inl ⟨_, _, rfl⟩
      · exact .inl ⟨_, _, rfl⟩

/-- The score of a child: computed from its sums and its weight, or minus infinity. -/
def KidGain (p : SplitParams F) (grad cover weight gain : F) : Prop :=
  gain = gainGivenWeight p.l2 grad cover weight ∨ gain = ninf

theorem cullGain_kid {p : SplitParams F} {grad cover weight lw rw : F} {ct : Option Constraint} :
    KidGain p grad cover weight (cullGain (gainGivenWeight p.l2 grad cover weight) lw rw ct) := by
  unfold cullGain
  split
  · exact .inl rfl
  · exact .inl rfl
  · split
    · exact .inr rfl
    · exact .inl rfl
  · split
    · exact .inr rfl
    · exact .inl rfl

theorem evaluateSplit_gains {s : Splitter F} {a : SplitArgs F} {l r : NodeInfo F} {m : MissingInfo F}
    (h : s.evaluateSplit a = .ok (some (l, r, m))) :
    (KidGain s.params l.grad l.cover l.weight l.gain ∧ (l.cover <ᶠ s.params.minLeafWeight) = false) ∧
    (KidGain s.params r.grad r.cover r.weight r.gain ∧ (r.cover <ᶠ s.params.minLeafWeight) = false) := by
  cases s with
  | imputer p =>
    simp only [Splitter.evaluateSplit, Res.ok.injEq] at h
    obtain ⟨k1, k2, _⟩ := imputerEvaluateSplit_some h
    refine ⟨⟨?_, k1⟩, ?_, k2⟩
    all_goals
      unfold imputerEvaluateSplit at h
      split at h
      · cases h
      · simp only at h
        split at h
        · cases h
        · split at h
          · split at h
            all_goals
              split at h
              · cases h
              · simp only [Option.some.injEq, Prod.mk.injEq] at h
                obtain ⟨rfl, rfl, rfl⟩ := h
                first
                  | exact .inl rfl
                  | exact cullGain_kid
          · split at h
            · cases h
            · simp only [Option.some.injEq, Prod.mk.injEq] at h
              obtain ⟨rfl, rfl, rfl⟩ := h
              exact .inl rfl
  | branch p =>
    obtain ⟨lw, rw, _, k1, k2, rfl, rfl, rfl⟩ := branchEvaluateSplit_some h
    exact ⟨⟨.inl rfl, k1⟩, .inl rfl, k2⟩

variable {c : GrowCfg F D} {o : SNode F D → Prop} {gs : List (Ghost F D)} {nodes : List (Node F D)}

/-- The scores of the two children of a split, and that of the split. -/
theorem Internal.kidGain [Fl.OrdLaws F] (hz : ((ninf : F) ≤ᶠ 0) = true) {i : Nat} {n : Node F D} {g : Ghost F D}
    {info : SplitInfo F D} {k : Nat} {kids : List (Kid F D)} (hI : Internal c gs nodes i n g info k kids)
    {gl gr : Ghost F D} (hl : gs[n.leftChild]? = some gl) (hr : gs[n.rightChild]? = some gr) :
    ∃ lg rg x y z, ((0 : F) <ᶠ (lg + rg + x - y - z)) = true ∧
      (KidGain c.splitter.params gl.sn.gradientSum gl.sn.hessianSum gl.sn.weightValue lg ∧
        (gl.sn.hessianSum <ᶠ c.splitter.params.minLeafWeight) = false) ∧
      (KidGain c.splitter.params gr.sn.gradientSum gr.sn.hessianSum gr.sn.weightValue rg ∧
        (gr.sn.hessianSum <ᶠ c.splitter.params.minLeafWeight) = false) := by
  obtain ⟨gl', gr', x1, x2, x3, x4, _⟩ := hI.sides
  rw [hl] at x1; cases x1
  rw [hr] at x2; cases x2
  obtain ⟨hpos, j, i', ⟨f, m, bs, bin, h1, h2, h3, h4⟩, _⟩ := bestSplit_best hI.isSplit.best
  obtain ⟨l, r, mi, gg, he, hgg, _, e⟩ := evalCandidate_some.1 h4
  have hE := evaluateSplit_gains he
  rw [x3.grad, x3.cover, x3.weight, x4.grad, x4.cover, x4.weight]
  rw [e] at hpos ⊢
  simp only at hpos ⊢
  split at hpos
  · rw [Fl.OrdLaws.lt_irrefl] at hpos; cases hpos
  · have hnot : ((0 : F) <ᶠ ninf) = false := Fl.not_lt_of_le hz
    have hpos' : ((0 : F) <ᶠ g.sn.getSplitGain l r mi c.splitter.params.gamma) = true := by
      rw [hgg] at hpos
      unfold cullGain at hpos
      split at hpos
      · exact hpos
      · exact hpos
      · split at hpos
        · rw [hnot] at hpos; cases hpos
        · exact hpos
      · split at hpos
        · rw [hnot] at hpos; cases hpos
        · exact hpos
    exact ⟨_, _, _, _, _, hpos', hE⟩

/-- Weights and bounds of the children of a split. -/
structure KidFacts (c : GrowCfg F D) (gs : List (Ghost F D)) (n : Node F D) (g gl gr : Ghost F D)
    (ct : Option Constraint) : Prop where
  left : gs[n.leftChild]? = some gl
  right : gs[n.rightChild]? = some gr
  wl : KidWeight c.splitter.params g.sn ct gl.sn.weightValue
  wr : KidWeight c.splitter.params g.sn ct gr.sn.weightValue
  bounds : ((gl.sn.lowerBound, gl.sn.upperBound), (gr.sn.lowerBound, gr.sn.upperBound)) =
    childBounds ct g.sn.lowerBound g.sn.upperBound
      ((gl.sn.weightValue + gr.sn.weightValue) / Fl.ofNat 2)
  cull : ∃ x, (cullGain x gl.sn.weightValue gr.sn.weightValue ct ≤ᶠ 0) = false
  missing : (∃ p, c.splitter = .branch p) → ∃ gm, gs[n.missingNode]? = some gm ∧
    gm.sn.lowerBound = g.sn.lowerBound ∧ gm.sn.upperBound = g.sn.upperBound ∧
    KidWeight c.splitter.params g.sn ct gm.sn.weightValue
  imputer : (∃ p, c.splitter = .imputer p) → n.missingNode = n.leftChild ∨ n.missingNode = n.rightChild

theorem Internal.kidFacts (ha : c.splitter.NoAverage) {i : Nat} {n : Node F D} {g : Ghost F D}
    {info : SplitInfo F D} {k : Nat} {kids : List (Kid F D)} (hI : Internal c gs nodes i n g info k kids) :
    ∃ gl gr, KidFacts c gs n g gl gr (c.splitter.params.getConstraint n.splitFeature) := by
  obtain ⟨gl, gr, x1, x2, x3, x4, _⟩ := hI.sides
  obtain ⟨b1, b2, b3, b4, sc, hcull⟩ := bestSplit_bounds hI.isSplit.best
  obtain ⟨j, i', ⟨f, m, bs, bin, h1, h2, h3, h4⟩⟩ := bestSplit_mem hI.isSplit.best
  obtain ⟨l, r, mi, gg, he, hgg, _, e⟩ := evalCandidate_some.1 h4
  obtain ⟨⟨wl, wr⟩, wm⟩ := evaluateSplit_weights he
  have el : info.leftNode.weight = l.weight := by rw [e]
  have er : info.rightNode.weight = r.weight := by rw [e]
  have em : info.missingNode = mi := by rw [e]
  have ef : info.splitFeature = f := by rw [e]
  rw [hI.feature]
  refine ⟨gl, gr, x1, x2, ?_, ?_, ?_, ⟨sc, by rw [x3.weight, x4.weight]; exact hcull⟩, ?_, ?_⟩
  · rw [x3.weight, el, ef]; exact wl
  · rw [x4.weight, er, ef]; exact wr
  · rw [x3.weight, x4.weight, x3.lower, x3.upper, x4.lower, x4.upper, b1, b2, b3, b4]
  · rintro ⟨p, hp⟩
    obtain ⟨gm, isLeaf, minfo, feature, rows', j, k', y1, y2, y3, y4, _, y5, y6, _⟩ :=
      hI.missingSide hp
    obtain ⟨mi', z1, z2, z3, z4⟩ := wm ha ⟨p, hp⟩
    rw [← em] at z1
    have := missingChild_eq y1 z1; subst this
    refine ⟨gm, y4, ?_, ?_, ?_⟩
    · rw [y6.lower]
      split <;> exact z2
    · rw [y6.upper]
      split <;> exact z3
    · split at y6
      · exact .inr y6.weight
      · rw [y6.weight, ef]
        exact z4
  · rintro ⟨p, hp⟩
    have e1 := hI.left
    have e2 := hI.right
    have e3 := hI.missing
    rw [hp] at e1 e2 e3
    simp only [Splitter.links] at e1 e2 e3
    rw [e1, e2, e3]
    split
    · exact .inl rfl
    · exact .inr rfl

/-- A property of weights and bounds that holds of regularised steps and infinities, and is kept by
midpoints. -/
structure RepLaws (p : SplitParams F) (Rep : F → Prop) : Prop where
  weight : ∀ x y, Rep (weight p.l1 p.l2 p.maxDeltaStep x y)
  mid : ∀ x y : F, Rep x → Rep y → Rep ((x + y) / Fl.ofNat 2)
  ninf : Rep ninf
  inf : Rep inf

/-- It holds of all weights and bounds. -/
theorem Cert.rep (hC : Cert c o gs nodes) (ha : c.splitter.NoAverage) {Rep : F → Prop}
    (hR : RepLaws c.splitter.params Rep)
    (h0 : ∀ g, gs[0]? = some g → Rep g.sn.weightValue ∧ Rep g.sn.lowerBound ∧ Rep g.sn.upperBound) :
    ∀ (i : Nat) (g : Ghost F D), gs[i]? = some g →
      Rep g.sn.weightValue ∧ Rep g.sn.lowerBound ∧ Rep g.sn.upperBound := by
  refine hC.induct (SameShape.refl _) h0 ?_
  rintro i n g info k kids hn hl hI ⟨hw, hlo, hup⟩
  obtain ⟨gl, gr, hK⟩ := hI.kidFacts ha
  have hkw : ∀ (ct : Option Constraint) (w : F), KidWeight c.splitter.params g.sn ct w → Rep w := by
    rintro ct w (⟨x, y, rfl⟩ | rfl)
    · unfold constrainedWeight
      simp only
      split
      · exact hR.weight _ _
      · split
        · exact hup
        · split
          · exact hlo
          · exact hR.weight _ _
    · exact hw
  have hb := hK.bounds
  have hmid := hR.mid _ _ (hkw _ _ hK.wl) (hkw _ _ hK.wr)
  have : (Rep gl.sn.lowerBound ∧ Rep gl.sn.upperBound) ∧ Rep gr.sn.lowerBound ∧ Rep gr.sn.upperBound := by
    generalize c.splitter.params.getConstraint n.splitFeature = ct at hb
    match ct with
    | none =>
      simp only [childBounds, Prod.mk.injEq] at hb
      obtain ⟨⟨h1, h2⟩, h3, h4⟩ := hb
      rw [h1, h2, h3, h4]; exact ⟨⟨hlo, hup⟩, hlo, hup⟩
    | some .unconstrained =>
      simp only [childBounds, Prod.mk.injEq] at hb
      obtain ⟨⟨h1, h2⟩, h3, h4⟩ := hb
      rw [h1, h2, h3, h4]; exact ⟨⟨hlo, hup⟩, hlo, hup⟩
    | some .negative =>
      simp only [childBounds, Prod.mk.injEq] at hb
      obtain ⟨⟨h1, h2⟩, h3, h4⟩ := hb
      rw [h1, h2, h3, h4]; exact ⟨⟨hmid, hup⟩, hlo, hmid⟩
    | some .positive =>
      simp only [childBounds, Prod.mk.injEq] at hb
      obtain ⟨⟨h1, h2⟩, h3, h4⟩ := hb
      rw [h1, h2, h3, h4]; exact ⟨⟨hlo, hmid⟩, hmid, hup⟩
  refine ⟨fun g' hg' => ?_, fun g' hg' => ?_, fun hp g' hg' => ?_⟩
  · rw [hK.left] at hg'; cases hg'
    exact ⟨hkw _ _ hK.wl, this.1⟩
  · rw [hK.right] at hg'; cases hg'
    exact ⟨hkw _ _ hK.wr, this.2⟩
  · obtain ⟨gm, h1, h2, h3, h4⟩ := hK.missing hp
    rw [h1] at hg'; cases hg'
    rw [h2, h3]
    exact ⟨hkw _ _ h4, hlo, hup⟩

/-- The number lies within the bounds. -/
def InR (lo hi x : F) : Prop := (lo ≤ᶠ x) = true ∧ (x ≤ᶠ hi) = true

/-- What the proof of monotonicity needs of the arithmetic: the computed midpoint of two small numbers lies
between them, and multiplication with the learning rate is monotone. -/
structure MidLaws (F : Type) [Fl F] (lr : F) (Safe Small : F → Prop) : Prop where
  low : ∀ x, Safe x → ((ninf : F) ≤ᶠ x) = true
  high : ∀ x, Safe x → (x ≤ᶠ (inf : F)) = true
  zero : ((ninf : F) ≤ᶠ 0) = true
  mid : ∀ x y, Small x → Small y → (x ≤ᶠ y) = true →
    InR x y ((x + y) / Fl.ofNat 2) ∧ InR x y ((y + x) / Fl.ofNat 2)
  scale : ∀ x y, (x ≤ᶠ y) = true → ((x * lr) ≤ᶠ (y * lr)) = true

variable [Fl.OrdLaws F]

theorem MidLaws.num {lr : F} {Safe Small : F → Prop} (h : MidLaws F lr Safe Small) {x : F} (hx : Safe x) :
    isNaN x = false := (Fl.OrdLaws.le_num _ _ (h.low x hx)).2

theorem InR.trans {lo hi lo' hi' x : F} (h : InR lo hi x) (h1 : (lo' ≤ᶠ lo) = true)
    (h2 : (hi ≤ᶠ hi') = true) : InR lo' hi' x := ⟨Fl.le_trans h1 h.1, Fl.le_trans h.2 h2⟩

/-- The bounds of the children of a split. -/
structure KidOrder (ct : Option Constraint) (g gl gr : SNode F D) : Prop where
  left : InR gl.lowerBound gl.upperBound gl.weightValue
  right : InR gr.lowerBound gr.upperBound gr.weightValue
  subl : ∀ x, InR gl.lowerBound gl.upperBound x → InR g.lowerBound g.upperBound x
  subr : ∀ x, InR gr.lowerBound gr.upperBound x → InR g.lowerBound g.upperBound x
  pos : ct = some .positive → ∀ x y, InR gl.lowerBound gl.upperBound x →
    InR gr.lowerBound gr.upperBound y → (x ≤ᶠ y) = true
  neg : ct = some .negative → ∀ x y, InR gl.lowerBound gl.upperBound x →
    InR gr.lowerBound gr.upperBound y → (y ≤ᶠ x) = true
  free : ¬ Constrained ct → (gl.lowerBound = g.lowerBound ∧ gl.upperBound = g.upperBound) ∧
    gr.lowerBound = g.lowerBound ∧ gr.upperBound = g.upperBound

variable {lr : F} {Safe Small : F → Prop}

/-- The weight of a child is within the bounds of its parent, if the parent's own weight is; a split on an
unconstrained feature needs absent bounds. -/
theorem KidWeight.inR (hL : MidLaws F lr Safe Small) {p : SplitParams F} {sn : SNode F D} {ct : Option Constraint}
    {w : F} (h : KidWeight p sn ct w) (hs : Safe w) (hw : InR sn.lowerBound sn.upperBound sn.weightValue)
    (hc : Constrained ct ∨ (sn.lowerBound = ninf ∧ sn.upperBound = inf)) :
    InR sn.lowerBound sn.upperBound w := by
  rcases hc with hc | ⟨h1, h2⟩
  · rcases h with ⟨x, y, rfl⟩ | rfl
    · have hn : noConstraint ct = false := by rcases hc with rfl | rfl <;> rfl
      have hlu := Fl.le_trans hw.1 hw.2
      obtain ⟨n1, n2⟩ := Fl.OrdLaws.le_num _ _ hlu
      unfold constrainedWeight at hs ⊢
      simp only [hn, Bool.false_eq_true, if_false] at hs ⊢
      split
      · exact ⟨hlu, Fl.le_refl n2⟩
      · rename_i k1
        split
        · exact ⟨Fl.le_refl n1, hlu⟩
        · rename_i k2
          rw [if_neg k1, if_neg k2] at hs
          exact ⟨Fl.le_of_not_lt n1 (hL.num hs) (by simpa using k2),
            Fl.le_of_not_lt (hL.num hs) n2 (by simpa using k1)⟩
    · exact hw
  · rw [h1, h2]
    exact ⟨hL.low _ hs, hL.high _ hs⟩

theorem KidFacts.order (hL : MidLaws F lr Safe Small) {n : Node F D} {g gl gr : Ghost F D}
    {ct : Option Constraint} (hK : KidFacts c gs n g gl gr ct)
    (hw : InR g.sn.lowerBound g.sn.upperBound g.sn.weightValue) (sl : Safe gl.sn.weightValue)
    (sr : Safe gr.sn.weightValue) (ml : Small gl.sn.weightValue) (mr : Small gr.sn.weightValue)
    (hc : Constrained ct ∨ (g.sn.lowerBound = ninf ∧ g.sn.upperBound = inf)) :
    KidOrder ct g.sn gl.sn gr.sn := by
  have wl := hK.wl.inR hL sl hw hc
  have wr := hK.wr.inR hL sr hw hc
  have hb := hK.bounds
  obtain ⟨z, hcull⟩ := hK.cull
  match ct with
  | none =>
    simp only [childBounds, Prod.mk.injEq] at hb
    obtain ⟨⟨h1, h2⟩, h3, h4⟩ := hb
    refine ⟨?_, ?_, ?_, ?_, (fun h => nomatch h), (fun h => nomatch h), fun _ => ⟨⟨h1, h2⟩, h3, h4⟩⟩ <;>
      simp only [h1, h2, h3, h4]
    · exact wl
    · exact wr
    · exact fun _ h => h
    · exact fun _ h => h
  | some .unconstrained =>
    simp only [childBounds, Prod.mk.injEq] at hb
    obtain ⟨⟨h1, h2⟩, h3, h4⟩ := hb
    refine ⟨?_, ?_, ?_, ?_, (fun h => nomatch h), (fun h => nomatch h), fun _ => ⟨⟨h1, h2⟩, h3, h4⟩⟩ <;>
      simp only [h1, h2, h3, h4]
    · exact wl
    · exact wr
    · exact fun _ h => h
    · exact fun _ h => h
  | some .positive =>
    simp only [childBounds, Prod.mk.injEq] at hb
    obtain ⟨⟨h1, h2⟩, h3, h4⟩ := hb
    have hlt : (gl.sn.weightValue ≤ᶠ gr.sn.weightValue) = true := by
      simp only [cullGain] at hcull
      split at hcull
      · rw [hL.zero] at hcull; cases hcull
      · rename_i h
        rcases Fl.le_total (hL.num sl) (hL.num sr) with h' | h'
        · exact h'
        · exact absurd h' h
    obtain ⟨⟨m1, m2⟩, _⟩ := hL.mid _ _ ml mr hlt
    refine ⟨?_, ?_, ?_, ?_, ?_, (fun h => nomatch h), fun h => absurd (.inl rfl) h⟩ <;>
      simp only [h1, h2, h3, h4]
    · exact ⟨wl.1, m1⟩
    · exact ⟨m2, wr.2⟩
    · exact fun x hx => ⟨hx.1, Fl.le_trans hx.2 (Fl.le_trans m2 wr.2)⟩
    · exact fun x hx => ⟨Fl.le_trans (Fl.le_trans wl.1 m1) hx.1, hx.2⟩
    · exact fun _ x y hx hy => Fl.le_trans hx.2 hy.1
  | some .negative =>
    simp only [childBounds, Prod.mk.injEq] at hb
    obtain ⟨⟨h1, h2⟩, h3, h4⟩ := hb
    have hlt : (gr.sn.weightValue ≤ᶠ gl.sn.weightValue) = true := by
      simp only [cullGain] at hcull
      split at hcull
      · rw [hL.zero] at hcull; cases hcull
      · rename_i h
        rcases Fl.le_total (hL.num sl) (hL.num sr) with h' | h'
        · exact absurd h' h
        · exact h'
    obtain ⟨_, m1, m2⟩ := hL.mid _ _ mr ml hlt
    refine ⟨?_, ?_, ?_, ?_, (fun h => nomatch h), ?_, fun h => absurd (.inr rfl) h⟩ <;>
      simp only [h1, h2, h3, h4]
    · exact ⟨m2, wl.2⟩
    · exact ⟨wr.1, m1⟩
    · exact fun x hx => ⟨Fl.le_trans (Fl.le_trans wr.1 m1) hx.1, hx.2⟩
    · exact fun x hx => ⟨hx.1, Fl.le_trans hx.2 (Fl.le_trans m2 wl.2)⟩
    · exact fun _ x y hx hy => Fl.le_trans hy.2 hx.1

/-- The node inherits bounds only from constrained splits above it. -/
def FreeOrBelow (con : Nat → Option Constraint) (nodes : List (Node F D)) (i : Nat) (sn : SNode F D) : Prop :=
  (sn.lowerBound = ninf ∧ sn.upperBound = inf) ∨
    ∃ (a : Nat) (na : Node F D), nodes[a]? = some na ∧ na.isLeaf = false ∧
      Constrained (con na.splitFeature) ∧ Below nodes a i

theorem FreeOrBelow.constrained {con : Nat → Option Constraint} {i : Nat} {sn : SNode F D}
    (h : FreeOrBelow con nodes i sn) (hs : OnlyConstrainedBelow con nodes) {n : Node F D}
    (hn : nodes[i]? = some n) (hl : n.isLeaf = false) :
    Constrained (con n.splitFeature) ∨ (sn.lowerBound = ninf ∧ sn.upperBound = inf) := by
  rcases h with h | ⟨a, na, h1, h2, h3, h4⟩
  · exact .inr h
  · exact .inl (hs a i na n h1 h2 h3 h4 hn hl)

/-- All weights are within the bounds of their nodes. -/
theorem Cert.inBounds (hC : Cert c o gs nodes) (ha : c.splitter.NoAverage) (hL : MidLaws F lr Safe Small)
    (h0 : ∀ g, gs[0]? = some g → g.sn.lowerBound = ninf ∧ g.sn.upperBound = inf)
    (hS : ∀ (i : Nat) (g : Ghost F D), gs[i]? = some g → Safe g.sn.weightValue)
    (hm : ∀ (i : Nat) (n : Node F D), nodes[i]? = some n → n.isLeaf = false → ∀ gl gr,
      gs[n.leftChild]? = some gl → gs[n.rightChild]? = some gr →
      Small gl.sn.weightValue ∧ Small gr.sn.weightValue)
    (hs : OnlyConstrainedBelow c.splitter.params.getConstraint nodes) :
    ∀ (i : Nat) (g : Ghost F D), gs[i]? = some g →
      InR g.sn.lowerBound g.sn.upperBound g.sn.weightValue ∧
      FreeOrBelow c.splitter.params.getConstraint nodes i g.sn := by
  refine hC.induct (SameShape.refl _) ?_ ?_
  · intro g hg
    obtain ⟨e1, e2⟩ := h0 g hg
    refine ⟨?_, .inl ⟨e1, e2⟩⟩
    rw [e1, e2]
    exact ⟨hL.low _ (hS 0 g hg), hL.high _ (hS 0 g hg)⟩
  · rintro i n g info k kids hn hl hI ⟨hw, ho⟩
    obtain ⟨gl, gr, hK⟩ := hI.kidFacts ha
    have hc := ho.constrained hs hn hl
    obtain ⟨ml, mr⟩ := hm i n hn hl gl gr hK.left hK.right
    have hO := hK.order hL hw (hS _ _ hK.left) (hS _ _ hK.right) ml mr hc
    have down : ∀ j, n.IsChild j → ((∃ (a : Nat) (na : Node F D), nodes[a]? = some na ∧
        na.isLeaf = false ∧ Constrained (c.splitter.params.getConstraint na.splitFeature) ∧
        Below nodes a i) ∨ Constrained (c.splitter.params.getConstraint n.splitFeature)) →
        ∃ (a : Nat) (na : Node F D), nodes[a]? = some na ∧
        na.isLeaf = false ∧ Constrained (c.splitter.params.getConstraint na.splitFeature) ∧
        Below nodes a j := by
      rintro j hj (⟨a, na, h1, h2, h3, h4⟩ | h)
      · exact ⟨a, na, h1, h2, h3, .step h4 hn hj⟩
      · exact ⟨i, n, hn, hl, h, .child hn hj⟩
    refine ⟨fun g' hg' => ?_, fun g' hg' => ?_, fun hb gm hgm => ?_⟩
    · rw [hK.left] at hg'; cases hg'
      refine ⟨hO.left, ?_⟩
      by_cases hcon : Constrained (c.splitter.params.getConstraint n.splitFeature)
      · exact .inr (down _ ⟨hl, .inl rfl⟩ (.inr hcon))
      · rcases ho with ⟨h1, h2⟩ | ho
        · obtain ⟨⟨f1, f2⟩, _⟩ := hO.free hcon
          exact .inl ⟨by rw [f1, h1], by rw [f2, h2]⟩
        · exact .inr (down _ ⟨hl, .inl rfl⟩ (.inl ho))
    · rw [hK.right] at hg'; cases hg'
      refine ⟨hO.right, ?_⟩
      by_cases hcon : Constrained (c.splitter.params.getConstraint n.splitFeature)
      · exact .inr (down _ ⟨hl, .inr (.inl rfl)⟩ (.inr hcon))
      · rcases ho with ⟨h1, h2⟩ | ho
        · obtain ⟨_, f1, f2⟩ := hO.free hcon
          exact .inl ⟨by rw [f1, h1], by rw [f2, h2]⟩
        · exact .inr (down _ ⟨hl, .inr (.inl rfl)⟩ (.inl ho))
    · obtain ⟨gm', d1, d2, d3, d4⟩ := hK.missing hb
      rw [d1] at hgm; cases hgm
      refine ⟨?_, ?_⟩
      · rw [d2, d3]
        exact d4.inR hL (hS _ _ d1) hw hc
      · rcases ho with ⟨h1, h2⟩ | ho
        · exact .inl ⟨by rw [d2, h1], by rw [d3, h2]⟩
        · exact .inr (down _ ⟨hl, .inr (.inr rfl)⟩ (.inl ho))

/-- What the bounds of node `i` allow as its value. -/
def AllowedR (gs : List (Ghost F D)) (lr : F) (i : Nat) (x : F) : Prop :=
  ∃ (g : Ghost F D) (y : F), gs[i]? = some g ∧ InR g.sn.lowerBound g.sn.upperBound y ∧ x = y * lr

/-- Values of the tree are allowed; what is allowed below a node is allowed for the node; what is
allowed for the two sides of a constrained split is ordered. -/
theorem Cert.allowed (hC : Cert c o gs nodes) (ha : c.splitter.NoAverage)
    (hL : MidLaws F c.splitter.params.learningRate Safe Small)
    (h0 : ∀ g, gs[0]? = some g → g.sn.lowerBound = ninf ∧ g.sn.upperBound = inf)
    (hS : ∀ (i : Nat) (g : Ghost F D), gs[i]? = some g → Safe g.sn.weightValue)
    (hm : ∀ (i : Nat) (n : Node F D), nodes[i]? = some n → n.isLeaf = false → ∀ gl gr,
      gs[n.leftChild]? = some gl → gs[n.rightChild]? = some gr →
      Small gl.sn.weightValue ∧ Small gr.sn.weightValue)
    (hs : OnlyConstrainedBelow c.splitter.params.getConstraint nodes) :
    (∀ (i : Nat) (n : Node F D), nodes[i]? = some n →
      AllowedR gs c.splitter.params.learningRate i n.weightValue) ∧
    (∀ (i : Nat) (n : Node F D) (j : Nat), nodes[i]? = some n → n.IsChild j →
      ∀ x, AllowedR gs c.splitter.params.learningRate j x → AllowedR gs c.splitter.params.learningRate i x) ∧
    (∀ (i : Nat) (n : Node F D), nodes[i]? = some n → n.isLeaf = false →
      ∀ x y, AllowedR gs c.splitter.params.learningRate n.leftChild x →
      AllowedR gs c.splitter.params.learningRate n.rightChild y →
      (c.splitter.params.getConstraint n.splitFeature = some .positive → (x ≤ᶠ y) = true) ∧
      (c.splitter.params.getConstraint n.splitFeature = some .negative → (y ≤ᶠ x) = true)) := by
  have hb := hC.inBounds ha hL h0 hS hm hs
  have hkid : ∀ (i : Nat) (n : Node F D), nodes[i]? = some n → n.isLeaf = false →
      ∃ g gl gr, gs[i]? = some g ∧
        KidFacts c gs n g gl gr (c.splitter.params.getConstraint n.splitFeature) ∧
        KidOrder (c.splitter.params.getConstraint n.splitFeature) g.sn gl.sn gr.sn := by
    intro i n hn hl
    obtain ⟨g, info, k, kids, hI⟩ := hC.internal (SameShape.refl _) hn hl
    obtain ⟨gl, gr, hK⟩ := hI.kidFacts ha
    obtain ⟨hw, ho⟩ := hb i g hI.ghost
    obtain ⟨ml, mr⟩ := hm i n hn hl gl gr hK.left hK.right
    exact ⟨g, gl, gr, hI.ghost, hK, hK.order hL hw (hS _ _ hK.left) (hS _ _ hK.right) ml mr
      (ho.constrained hs hn hl)⟩
  refine ⟨fun i n hn => ?_, ?_, ?_⟩
  · obtain ⟨g, hg, _⟩ := hC.node hn
    obtain ⟨n', hn', hno, _⟩ := hC.nodeOf hg
    rw [hn] at hn'; cases hn'
    exact ⟨g, _, hg, (hb i g hg).1, hno.weight⟩
  · rintro i n j hn ⟨hl, hj⟩ x ⟨g', y, hg', hy, rfl⟩
    obtain ⟨g, gl, gr, h1, hK, hO⟩ := hkid i n hn hl
    refine ⟨g, y, h1, ?_, rfl⟩
    have hLe : j = n.leftChild → InR g.sn.lowerBound g.sn.upperBound y := by
      rintro rfl
      rw [hK.left] at hg'; cases hg'
      exact hO.subl y hy
    have hRi : j = n.rightChild → InR g.sn.lowerBound g.sn.upperBound y := by
      rintro rfl
      rw [hK.right] at hg'; cases hg'
      exact hO.subr y hy
    rcases hj with hj | hj | hj
    · exact hLe hj
    · exact hRi hj
    · cases hsp : c.splitter with
      | imputer p =>
        rcases hK.imputer ⟨p, hsp⟩ with h | h
        · exact hLe (hj.trans h)
        · exact hRi (hj.trans h)
      | branch p =>
        obtain ⟨gm, d1, d2, d3, _⟩ := hK.missing ⟨p, hsp⟩
        subst hj
        rw [d1] at hg'; cases hg'
        rw [← d2, ← d3]
        exact hy
  · rintro i n hn hl x y ⟨gl', x', h1, h2, rfl⟩ ⟨gr', y', h3, h4, rfl⟩
    obtain ⟨g, gl, gr, e1, hK, hO⟩ := hkid i n hn hl
    rw [hK.left] at h1; cases h1
    rw [hK.right] at h3; cases h3
    exact ⟨fun h => hL.scale _ _ (hO.pos h _ _ h2 h4), fun h => hL.scale _ _ (hO.neg h _ _ h2 h4)⟩

variable [Fl.OrdLaws D]

/-- The value of the leaf of a row is allowed for every node on its way. -/
theorem Route.allowedR {C : Nat → F → Prop} {nodes : List (Node F D)}
    (hv : ∀ (i : Nat) (n : Node F D), nodes[i]? = some n → C i n.weightValue)
    (hm : ∀ (i : Nat) (n : Node F D) (j : Nat), nodes[i]? = some n → n.IsChild j → ∀ x, C j x → C i x)
    {row : Nat → Option D} {missing : D} {i : Nat} {l : Node F D} (h : Route nodes row missing i l) :
    C i l.weightValue := by
  induction h with
  | leaf h1 h2 => exact hv _ _ h1
  | step h1 h2 h3 h4 _ ih =>
    refine hm _ _ _ h1 ⟨h2, ?_⟩ _ ih
    unfold Node.childFor
    split
    · exact .inr (.inr rfl)
    · split
      · exact .inl rfl
      · exact .inr (.inl rfl)

/-- Leaf values of comparable rows are ordered, if allowed values are as in `Cert.allowed`. -/
theorem Route.ordered {C : Nat → F → Prop} {nodes : List (Node F D)} {con : Nat → Option Constraint}
    (hv : ∀ (i : Nat) (n : Node F D), nodes[i]? = some n → C i n.weightValue)
    (hm : ∀ (i : Nat) (n : Node F D) (j : Nat), nodes[i]? = some n → n.IsChild j → ∀ x, C j x → C i x)
    (ho : ∀ (i : Nat) (n : Node F D), nodes[i]? = some n → n.isLeaf = false →
      ∀ x y, C n.leftChild x → C n.rightChild y →
      (con n.splitFeature = some .positive → (x ≤ᶠ y) = true) ∧
      (con n.splitFeature = some .negative → (y ≤ᶠ x) = true))
    (hnum : ∀ (i : Nat) (x : F), C i x → isNaN x = false)
    {f : Nat} {row row' : Nat → Option D} {msg : D} (hr : Comparable con msg f row row') :
    ∀ (i : Nat) (l l' : Node F D), Route nodes row msg i l → Route nodes row' msg i l' →
      (l.weightValue ≤ᶠ l'.weightValue) = true := by
  intro i l l' h
  induction h with
  | leaf h1 h2 =>
    intro h'
    cases h' with
    | leaf g1 g2 =>
      rw [h1] at g1; cases g1
      exact Fl.le_refl (hnum _ _ (hv _ _ h1))
    | step g1 g2 => rw [h1] at g1; cases g1; rw [h2] at g2; cases g2
  | @step i n l v h1 h2 h3 h4 h5 ih =>
    intro h'
    cases h' with
    | leaf g1 g2 => rw [h1] at g1; cases g1; rw [h2] at g2; cases g2
    | @step _ _ _ v' g1 g2 g3 g4 g5 =>
      rw [h1] at g1; cases g1
      by_cases hf : n.splitFeature = f
      · obtain ⟨u, u', e1, e2, e3, e4, e5⟩ := hr.present
        subst hf
        rw [h3] at e1; cases e1
        rw [g3] at e2; cases e2
        have c1 : n.childFor msg v = if (v <ᶠ n.splitValue) = true then n.leftChild else n.rightChild := by
          unfold Node.childFor; rw [if_neg e3]
        have c2 : n.childFor msg v' = if (v' <ᶠ n.splitValue) = true then n.leftChild else n.rightChild := by
          unfold Node.childFor; rw [if_neg e4]
        have a1 := h5.allowedR hv hm
        have a2 := g5.allowedR hv hm
        by_cases p1 : (v <ᶠ n.splitValue) = true <;> by_cases p2 : (v' <ᶠ n.splitValue) = true
        · refine ih ?_
          rw [c1, if_pos p1]
          rw [c2, if_pos p2] at g5
          exact g5
        · rw [c1, if_pos p1] at a1
          rw [c2, if_neg p2] at a2
          rcases e5 with ⟨k1, k2⟩ | ⟨k1, k2⟩
          · exact (ho i n h1 h2 _ _ a1 a2).1 k1
          · exact absurd (Fl.lt_of_le_of_lt k2 p1) p2
        · rw [c1, if_neg p1] at a1
          rw [c2, if_pos p2] at a2
          rcases e5 with ⟨k1, k2⟩ | ⟨k1, k2⟩
          · exact absurd (Fl.lt_of_le_of_lt k2 p2) p1
          · exact (ho i n h1 h2 _ _ a2 a1).2 k1
        · refine ih ?_
          rw [c1, if_neg p1]
          rw [c2, if_neg p2] at g5
          exact g5
      · rw [hr.same _ hf, g3] at h3
        cases h3
        exact ih g5

end

end Verif
