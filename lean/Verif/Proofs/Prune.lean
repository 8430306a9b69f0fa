import Verif.Props.Limits
import Verif.Proofs.Rounds

/-!
# Splitters that differ in gamma
-/

namespace Verif

open scoped Verif

set_option linter.unusedSectionVars false

section
variable {F D : Type} [Fl F] [Fl D] [FlCast F D]

/-- The splitter with another gamma. -/
def Splitter.withGamma : Splitter F → F → Splitter F
  | .imputer p, g => .imputer { p with gamma := g }
  | .branch p, g => .branch { p with gamma := g }

/-- The gain of a split before gamma is subtracted. -/
def SNode.rawGain (sn : SNode F D) (i : SplitInfo F D) : F :=
  i.leftNode.gain + i.rightNode.gain +
    (match i.missingNode with
    | .branch i => i.gain
    | .leaf i => i.gain
    | _ => 0) - sn.gainValue

theorem rawGain_eq (sn : SNode F D) (i : SplitInfo F D) (γ : F) :
    sn.getSplitGain i.leftNode i.rightNode i.missingNode γ = sn.rawGain i - γ := rfl

/-- What is used about subtracting two gammas. -/
structure GammaLaws (γ γ' : F) : Prop where
  anti : ∀ x : F, ((0 : F) <ᶠ x - γ') = true → ((0 : F) <ᶠ x - γ) = true
  strict : ∀ x y : F, (x <ᶠ y) = true → ((0 : F) <ᶠ y - γ) = true → (x - γ <ᶠ y - γ) = true
  strict' : ∀ x y : F, (x <ᶠ y) = true → ((0 : F) <ᶠ y - γ') = true → (x - γ' <ᶠ y - γ') = true
  mono : ∀ x y : F, isNaN y = false → (y <ᶠ x) = false → ((0 : F) <ᶠ x - γ') = true →
    ((0 : F) <ᶠ y - γ') = true
  tie : ∀ x y : F, (x <ᶠ y) = false → (y <ᶠ x) = false → (x - γ <ᶠ y - γ) = false
  tie' : ∀ x y : F, (x <ᶠ y) = false → (y <ᶠ x) = false → (x - γ' <ᶠ y - γ') = false
  num : ∀ x : F, ((0 : F) <ᶠ x - γ) = true → isNaN x = false

theorem withGamma_params (s : Splitter F) (g : F) :
    (s.withGamma g).params = { s.params with gamma := g } := by
  cases s <;> rfl

theorem withGamma_evaluateSplit (s : Splitter F) (g : F) (a : SplitArgs F) :
    (s.withGamma g).evaluateSplit a = s.evaluateSplit a := by
  cases s <;> rfl

theorem withGamma_kidsOf (s : Splitter F) (g x : F) (t : TrainData F D) (sn : SNode F D) (rows : List Nat)
    (info : SplitInfo F D) :
    kidsOf (s.withGamma g) t sn rows { info with splitGain := x } = kidsOf s t sn rows info := by
  cases s <;> rfl

theorem withGamma_links (s : Splitter F) (g x : F) (info : SplitInfo F D) (k : Nat) :
    (s.withGamma g).links { info with splitGain := x } k = s.links info k := by
  cases s <;> rfl

theorem withGamma_arity (s : Splitter F) (g : F) : (s.withGamma g).arity = s.arity := by
  cases s <;> rfl

theorem withGamma_averages (s : Splitter F) (g : F) : (s.withGamma g).Averages ↔ s.Averages := by
  cases s with
  | imputer p => constructor <;> rintro ⟨_, h, _⟩ <;> cases h
  | branch p => constructor <;> rintro ⟨_, h, h'⟩ <;> (cases h; exact ⟨_, rfl, h'⟩)

theorem cullGain_cases (lw rw : F) (ct : Option Constraint) :
    (∀ g, cullGain g lw rw ct = g) ∨ ∀ g, cullGain g lw rw ct = ninf := by
  unfold cullGain
  split
  · exact .inl fun _ => rfl
  · exact .inl fun _ => rfl
  · split
    · exact .inr fun _ => rfl
    · exact .inl fun _ => rfl
  · split
    · exact .inr fun _ => rfl
    · exact .inl fun _ => rfl

section
variable [Fl.OrdLaws F]

theorem le_of_pos {x : F} (h : ((0 : F) <ᶠ x) = true) : (x ≤ᶠ (0 : F)) = false := by
  obtain ⟨h1, h2⟩ := Fl.OrdLaws.lt_num _ _ h
  cases hx : (x ≤ᶠ (0 : F))
  · rfl
  · rw [Fl.OrdLaws.le_iff _ _ h2 h1, h] at hx; cases hx

/-- A candidate with a positive score has a positive score for every gamma below its gain. -/
theorem evalCandidate_gamma (h0 : ((0 : F) <ᶠ ninf) = false) {s : Splitter F} {node : SNode F D}
    {feature : Nat} {ct : Option Constraint} {mb bin : Bin F D} {i : Nat} {cg ch : F} {info : SplitInfo F D}
    (h : evalCandidate s node feature ct mb bin i cg ch = .ok (some info))
    (hp : ((0 : F) <ᶠ info.splitGain) = true) :
    info.splitGain = node.rawGain info - s.params.gamma ∧
    ∀ γ, ((0 : F) <ᶠ node.rawGain info - γ) = true →
      evalCandidate (s.withGamma γ) node feature ct mb bin i cg ch =
        .ok (some { info with splitGain := node.rawGain info - γ }) := by
  obtain ⟨l, r, m, g, e1, e2, e3, rfl⟩ := evalCandidate_some.1 h
  have hg : isNaN g = false := by
    by_contra hc
    simp only [Bool.not_eq_false] at hc
    simp only [hc, if_true] at hp
    rw [Fl.OrdLaws.lt_irrefl] at hp; cases hp
  simp only [hg, Bool.false_eq_true, if_false] at hp ⊢
  have hcull : ∀ x, cullGain x l.weight r.weight ct = x := by
    rcases cullGain_cases l.weight r.weight ct with hc | hc
    · exact hc
    · rw [e2, hc, h0] at hp; cases hp
  rw [hcull] at e2
  refine ⟨e2, fun γ hγ => ?_⟩
  have hγ' : ((0 : F) <ᶠ node.getSplitGain l r m γ) = true := hγ
  refine evalCandidate_some.2 ⟨l, r, m, node.getSplitGain l r m γ, by rw [withGamma_evaluateSplit]; exact e1,
    by rw [hcull, withGamma_params], le_of_pos hγ', ?_⟩
  rw [(Fl.OrdLaws.lt_num _ _ hγ').2]
  rfl

theorem IsCandidate.gamma (h0 : ((0 : F) <ᶠ ninf) = false) {s : Splitter F} {node : SNode F D}
    {cols : List Nat} {j i : Nat} {info : SplitInfo F D} (h : IsCandidate s node cols j i info)
    (hp : ((0 : F) <ᶠ info.splitGain) = true) :
    info.splitGain = node.rawGain info - s.params.gamma ∧
    ∀ γ, ((0 : F) <ᶠ node.rawGain info - γ) = true →
      IsCandidate (s.withGamma γ) node cols j i { info with splitGain := node.rawGain info - γ } := by
  obtain ⟨feature, missing, bins, bin, a1, a2, a3, a4⟩ := h.made
  obtain ⟨b1, b2⟩ := evalCandidate_gamma h0 a4 hp
  refine ⟨b1, fun γ hγ => ⟨feature, missing, bins, bin, a1, a2, a3, ?_⟩⟩
  rw [withGamma_params]
  exact b2 γ hγ

theorem IsCandidate.unique {s : Splitter F} {node : SNode F D} {cols : List Nat} {j i : Nat}
    {info info' : SplitInfo F D} (h : IsCandidate s node cols j i info)
    (h' : IsCandidate s node cols j i info') : info' = info := by
  obtain ⟨feature, missing, bins, bin, a1, a2, a3, a4⟩ := h.made
  obtain ⟨feature', missing', bins', bin', b1, b2, b3, b4⟩ := h'.made
  rw [a1] at b1; cases b1
  rw [a2] at b2; cases b2
  rw [a3] at b3; cases b3
  rw [a4] at b4; cases b4; rfl

theorem withGamma_withGamma (s : Splitter F) (g : F) : (s.withGamma g).withGamma s.params.gamma = s := by
  cases s <;> rfl

/-- A node that is refused stays refused with a larger gamma. -/
theorem bestSplit_refused (h0 : ((0 : F) <ᶠ ninf) = false) {s : Splitter F} {γ : F}
    (anti : ∀ x : F, ((0 : F) <ᶠ x - s.params.gamma) = true → ((0 : F) <ᶠ x - γ) = true)
    {node : SNode F D} {cols : List Nat} {r : Option (SplitInfo F D)}
    (h : bestSplit (s.withGamma γ) node cols = .ok none) (h' : bestSplit s node cols = .ok r) : r = none := by
  cases r with
  | none => rfl
  | some b =>
    obtain ⟨hp, j, i, hc, _⟩ := bestSplit_best h'
    obtain ⟨e1, e2⟩ := hc.gamma h0 hp
    rw [e1] at hp
    have := bestSplit_best h j i _ (e2 γ (anti _ hp))
    rw [anti _ hp] at this; cases this

/-- A node that is split with a larger gamma is split in the same way with the smaller one. -/
theorem bestSplit_gamma (h0 : ((0 : F) <ᶠ ninf) = false) {s : Splitter F} {γ : F}
    (L : GammaLaws γ s.params.gamma) {node : SNode F D} {cols : List Nat} {b' : SplitInfo F D}
    {r : Option (SplitInfo F D)} (h' : bestSplit s node cols = .ok (some b'))
    (h : bestSplit (s.withGamma γ) node cols = .ok r) :
    ∃ x, r = some { b' with splitGain := x } := by
  cases r with
  | none => cases bestSplit_refused h0 L.anti h h'
  | some b =>
    obtain ⟨hp', j', i', hc', hm'⟩ := bestSplit_best h'
    obtain ⟨hp, j, i, hc, hm⟩ := bestSplit_best h
    obtain ⟨e1', e2'⟩ := hc'.gamma h0 hp'
    obtain ⟨e1, e2⟩ := hc.gamma h0 hp
    rw [withGamma_params] at e1
    simp only at e1
    rw [e1'] at hp'
    rw [e1] at hp
    have d' := e2' γ (L.anti _ hp')
    -- the first-best for the smaller gamma has at least the gain of the other
    have hle : (node.rawGain b <ᶠ node.rawGain b') = false := by
      cases hx : (node.rawGain b <ᶠ node.rawGain b')
      · rfl
      · have h1 := L.strict _ _ hx (L.anti _ hp')
        have h2 := (hm j' i' _ d').1
        rw [e1] at h2
        simp only [h1] at h2
        cases h2
    have hpb := L.mono _ _ (L.num _ hp) hle hp'
    have d := e2 s.params.gamma hpb
    rw [withGamma_withGamma] at d
    have hge : (node.rawGain b' <ᶠ node.rawGain b) = false := by
      cases hx : (node.rawGain b' <ᶠ node.rawGain b)
      · rfl
      · have h1 := L.strict' _ _ hx hpb
        have h2 := (hm' j i _ d).1
        rw [e1'] at h2
        simp only [h1] at h2
        cases h2
    have hpos : (j, i) = (j', i') := by
      by_contra hne
      rcases (show PosLt (j', i') (j, i) ∨ PosLt (j, i) (j', i') by
        simp only [PosLt]
        simp only [Prod.mk.injEq] at hne
        omega) with hlt | hlt
      · have h2 := (hm j' i' _ d').2 hlt
        rw [e1] at h2
        have := L.tie _ _ hge hle
        simp only at h2
        rw [this] at h2; cases h2
      · have h2 := (hm' j i _ d).2 hlt
        rw [e1'] at h2
        have := L.tie' _ _ hle hge
        simp only at h2
        rw [this] at h2; cases h2
    cases hpos
    exact ⟨_, congrArg some (IsCandidate.unique d' hc)⟩

/-- A node that only the larger gamma refuses has a gain that is at most that gamma. -/
theorem bestSplit_gamma_none (h0 : ((0 : F) <ᶠ ninf) = false) {s : Splitter F} {γ : F}
    {node : SNode F D} {cols : List Nat} {b : SplitInfo F D}
    (h' : bestSplit s node cols = .ok none)
    (h : bestSplit (s.withGamma γ) node cols = .ok (some b)) :
    ((0 : F) <ᶠ node.rawGain b - s.params.gamma) = false := by
  obtain ⟨hp, j, i, hc, hm⟩ := bestSplit_best h
  obtain ⟨_, e2⟩ := hc.gamma h0 hp
  cases hx : ((0 : F) <ᶠ node.rawGain b - s.params.gamma)
  · rfl
  · have d := e2 _ hx
    rw [withGamma_withGamma] at d
    have := bestSplit_best h' j i _ d
    simp only [hx] at this
    cases this

end

end

/-! ### Trees -/

section
variable {F D : Type} [Fl F] [Fl D] [FlCast F D] [Fl.OrdLaws F]

/-- The nodes `i` and `i'` of two trees are reached from the roots by the same path; the scores of the splits
on the way may differ. -/
inductive Pair (a : Nat) (gs gs' : List (Ghost F D)) : Nat → Nat → Prop
  | root : Pair a gs gs' 0 0
  | child {i i' k k' j : Nat} {g g' : Ghost F D} {info : SplitInfo F D} {x : F} (h : Pair a gs gs' i i')
      (hg : gs[i]? = some g) (hg' : gs'[i']? = some g') (hi : g.info = some (info, k))
      (hi' : g'.info = some ({ info with splitGain := x }, k')) (hj : j < a) :
      Pair a gs gs' (k + j) (k' + j)

variable {c c' : GrowCfg F D} {o o' : SNode F D → Prop} {gs gs' : List (Ghost F D)}
  {N N' : List (Node F D)} {γ : F}

theorem Alike.splitGamma (h0 : ((0 : F) <ᶠ ninf) = false) (L : GammaLaws γ c.splitter.params.gamma)
    (hs : c'.splitter = c.splitter.withGamma γ) (ht : c'.train = c.train) (h : Cert c o gs N)
    (h' : Cert c' o' gs' N') {i i' : Nat} {g g' : Ghost F D} (hg : gs[i]? = some g)
    (hg' : gs'[i']? = some g') (hsn : g'.sn = { g.sn with num := i' }) (hr : g'.rows = g.rows)
    {info info' : SplitInfo F D} {k k' : Nat} (hi : g.info = some (info, k))
    (hi' : g'.info = some (info', k')) :
    ∃ x, info' = { info with splitGain := x } ∧ ∃ kids, IsSplit c gs N i g info k kids ∧
      IsSplit c' gs' N' i' g' info' k' kids := by
  obtain ⟨kids, hS⟩ := h.split i g info k hg hi
  obtain ⟨kids', hS'⟩ := h'.split i' g' info' k' hg' hi'
  have hb := hS'.best
  rw [hsn, bestSplit_num, hs, ht] at hb
  obtain ⟨x, e1⟩ := bestSplit_gamma h0 L hS.best hb
  cases e1
  have e2 : kids' = kids := by
    have := hS'.kids_eq
    rw [hsn, hr, kidsOf_num, hs, ht, withGamma_kidsOf, hS.kids_eq] at this
    cases this; rfl
  subst e2
  exact ⟨x, rfl, kids', hS, hS'⟩

theorem Pair.alike (h0 : ((0 : F) <ᶠ ninf) = false) (L : GammaLaws γ c.splitter.params.gamma)
    (hs : c'.splitter = c.splitter.withGamma γ) (ht : c'.train = c.train) (h : Cert c o gs N)
    (h' : Cert c' o' gs' N') (ha : Alike gs gs' 0 0) {i i' : Nat}
    (hT : Pair c.splitter.arity gs gs' i i') : Alike gs gs' i i' := by
  induction hT with
  | root => exact ha
  | @child i i' k k' j g g' info x hT hg hg' hi hi' hj ih =>
    obtain ⟨g1, g1', a1, a2, hsn, hrows⟩ := ih
    rw [hg] at a1; cases a1
    rw [hg'] at a2; cases a2
    obtain ⟨_, _, kids, hS, hS'⟩ := Alike.splitGamma h0 L hs ht h h' hg hg' hsn hrows hi hi'
    have hlt : j < kids.length := by rw [hS.arity]; exact hj
    obtain ⟨x, x1, x2, x3, _⟩ := hS.kid j _ (List.getElem?_eq_getElem hlt)
    obtain ⟨y, y1, y2, y3, _⟩ := hS'.kid j _ (List.getElem?_eq_getElem hlt)
    exact ⟨x, y, x1, y1, by rw [y2, x2], by rw [y3, x3]⟩

/-- What two nodes reached by the same path have in common. -/
theorem Pair.common (h0 : ((0 : F) <ᶠ ninf) = false) (L : GammaLaws γ c.splitter.params.gamma)
    (hs : c'.splitter = c.splitter.withGamma γ) (ht : c'.train = c.train) (h : Cert c o gs N)
    (h' : Cert c' o' gs' N') (ha : Alike gs gs' 0 0) {i i' : Nat}
    (hT : Pair c.splitter.arity gs gs' i i') : ∃ g g' n n', gs[i]? = some g ∧ gs'[i']? = some g' ∧
      g'.sn = { g.sn with num := i' } ∧
      N[i]? = some n ∧ N'[i']? = some n' ∧ n'.weightValue = n.weightValue ∧
      n'.hessianSum = n.hessianSum ∧ n'.depth = n.depth ∧ n.depth = g.sn.depth ∧
      (n.isLeaf = true ↔ g.info = none) ∧ (n'.isLeaf = true ↔ g'.info = none) ∧
      (n.isLeaf = false → n'.isLeaf = false → n'.splitFeature = n.splitFeature ∧
        n'.splitValue = n.splitValue ∧ n'.splitGain = n.splitGain ∧
        Pair c.splitter.arity gs gs' n.leftChild n'.leftChild ∧
        Pair c.splitter.arity gs gs' n.rightChild n'.rightChild ∧
        Pair c.splitter.arity gs gs' n.missingNode n'.missingNode) := by
  obtain ⟨g, g', hg, hg', hsn, hrows⟩ := hT.alike h0 L hs ht h h' ha
  obtain ⟨n, hn, hnn, hl⟩ := h.nodeOf hg
  obtain ⟨n', hn', hnn', hl'⟩ := h'.nodeOf hg'
  have hlr : c'.splitter.params.learningRate = c.splitter.params.learningRate := by
    rw [hs, withGamma_params]
  refine ⟨g, g', n, n', hg, hg', hsn, hn, hn', ?_, ?_, ?_, hnn.depth, hl, hl', fun e e' => ?_⟩
  · rw [hnn'.weight, hnn.weight, hsn, hlr]
  · rw [hnn'.cover, hnn.cover, hsn]
  · rw [hnn'.depth, hnn.depth, hsn]
  · obtain ⟨g1, info, k, kids, hI⟩ := h.internal (.refl _) hn e
    obtain ⟨g1', info', k', kids', hI'⟩ := h'.internal (.refl _) hn' e'
    have := hI.ghost; rw [hg] at this; cases this
    have := hI'.ghost; rw [hg'] at this; cases this
    obtain ⟨x, rfl, _⟩ := Alike.splitGamma h0 L hs ht h h' hg hg' hsn hrows hI.info_eq hI'.info_eq
    refine ⟨hI'.feature.trans hI.feature.symm, hI'.value.trans hI.value.symm, ?_, ?_⟩
    · rw [hI'.gain, hI.gain, hsn]; rfl
    · have hC : ∀ j, j < c.splitter.arity → Pair c.splitter.arity gs gs' (k + j) (k' + j) :=
        fun j hj => hT.child hg hg' hI.info_eq hI'.info_eq hj
      rw [hI.left, hI.right, hI.missing, hI'.left, hI'.right, hI'.missing, hs, withGamma_links]
      cases hsp : c.splitter with
      | imputer p =>
        rw [hsp] at hC
        have h0 := hC 0 (by simp [Splitter.arity])
        have h1 := hC 1 (by simp [Splitter.arity])
        refine ⟨h0, h1, ?_⟩
        simp only [Splitter.links]
        split
        · exact h0
        · exact h1
      | branch p =>
        rw [hsp] at hC
        exact ⟨hC 1 (by simp [Splitter.arity]), hC 2 (by simp [Splitter.arity]),
          hC 0 (by simp [Splitter.arity])⟩

/-- Two fits of trees from the same data that differ in gamma. -/
theorem Tree.fit_alikeGamma (hs : c'.splitter = c.splitter.withGamma γ)
    (ht : c'.train = c.train) {sm : SampleMethod} {index : List Nat} {t t' : Tree F D}
    (h : Tree.fit c sm index = .ok t) (h' : Tree.fit c' sm index = .ok t') :
    ∃ N gs N' gs', Cert c (fun _ => c.maxLeaves ≤ t.nodes.countP Node.isLeaf) gs N ∧
      cleanUpSplits c.splitter N = .ok t.nodes ∧
      Cert c' (fun _ => c'.maxLeaves ≤ t'.nodes.countP Node.isLeaf) gs' N' ∧
      cleanUpSplits c'.splitter N' = .ok t'.nodes ∧ Alike gs gs' 0 0 := by
  obtain ⟨g, hs1, sort, hists, N, gs, nl, a1, a2, a3, a4, ⟨g0, a5, a6, a7⟩, a8, _⟩ := Tree.fit_cert h
  obtain ⟨g', hs', sort', hists', N', gs', nl', b1, b2, b3, b4, ⟨g0', b5, b6, b7⟩, b8, _⟩ :=
    Tree.fit_cert h'
  refine ⟨N, gs, N', gs', ?_, a3, ?_, b3, g0, g0', a5, b5, ?_, by rw [a7, b7]⟩
  · rw [(cleanUpSplits_shape a3).countP, a8]
    exact a4.mono fun _ h => .inl (by omega)
  · rw [(cleanUpSplits_shape b3).countP, b8]
    exact b4.mono fun _ h => .inl (by omega)
  · rw [ht, a1] at b1; cases b1
    rw [ht, a2] at b2; cases b2
    rw [b6, a6, hs, withGamma_params]; rfl

end

/-! ### Exact arithmetic -/

section
variable {K : Type} [Field K] [LinearOrder K] [IsStrictOrderedRing K] {m : Fmt K}

theorem zero_lt_ninf : ((0 : FX m) <ᶠ (ninf : FX m)) = false := rfl

theorem fx_sub (a b : FX m) : a - b = FX.add a (FX.neg b) := rfl

theorem sub_anti [hm : m.Rounds] {γ γ' : FX m} (h : (γ ≤ᶠ γ') = true) (x : FX m)
    (hx : ((0 : FX m) <ᶠ x - γ') = true) : ((0 : FX m) <ᶠ x - γ) = true := by
  have key : ∀ a b b' : K, b ≤ b' → ((0 : FX m) <ᶠ (FX.rd (a + -b') : FX m)) = true →
      ((0 : FX m) <ᶠ (FX.rd (a + -b) : FX m)) = true := by
    intro a b b' hb h
    have := hm.mono (show a + -b' ≤ a + -b by linarith)
    unfold FX.rd at h ⊢
    cases h1 : m.rnd (a + -b') with
    | ninf => rw [h1] at h; cases h
    | pinf =>
      rw [h1] at this
      cases h2 : m.rnd (a + -b) with
      | ninf => rw [h2] at this; exact this.elim
      | fin c => rw [h2] at this; exact this.elim
      | pinf => rfl
    | fin c =>
      rw [h1] at this h
      cases h2 : m.rnd (a + -b) with
      | ninf => rw [h2] at this; exact this.elim
      | pinf => rfl
      | fin d =>
        rw [h2] at this
        have h : (0 : K) < c := of_decide_eq_true h
        exact decide_eq_true (lt_of_lt_of_le h this)
  rw [fx_sub] at hx ⊢
  cases x <;> cases γ' <;> cases γ <;> simp_all [FX.add, FX.neg, Fl.le, FX.le, Fl.lt, FX.lt, FX.zero_def]
  exact key _ _ _ h hx

theorem gammaLaws_exact [hm : m.Exact] {q : K} {γ' : FX m} (h : ((FX.fin q : FX m) ≤ᶠ γ') = true) :
    GammaLaws (FX.fin q : FX m) γ' where
  anti x hx := sub_anti h x hx
  strict x y hxy hy := by
    rw [fx_sub] at hy ⊢
    rw [fx_sub]
    cases x <;> cases y <;> simp_all [FX.add, FX.neg, Fl.lt, FX.lt, FX.zero_def, FX.rd_eq]
  strict' x y hxy hy := by
    rw [fx_sub] at hy ⊢
    rw [fx_sub]
    cases x <;> cases y <;> cases γ' <;>
      simp_all [FX.add, FX.neg, Fl.lt, FX.lt, FX.zero_def, FX.rd_eq, Fl.le, FX.le]
  mono x y hn hxy hx := by
    rw [fx_sub] at hx ⊢
    cases x <;> cases y <;> cases γ' <;>
      simp_all [FX.add, FX.neg, Fl.lt, FX.lt, FX.zero_def, FX.rd_eq, Fl.le, FX.le]
    linarith
  tie x y h1 h2 := by
    rw [fx_sub, fx_sub]
    cases x <;> cases y <;> simp_all [FX.add, FX.neg, Fl.lt, FX.lt, FX.zero_def, FX.rd_eq]
  tie' x y h1 h2 := by
    rw [fx_sub, fx_sub]
    cases x <;> cases y <;> cases γ' <;>
      simp_all [FX.add, FX.neg, Fl.lt, FX.lt, FX.zero_def, FX.rd_eq, Fl.le, FX.le]
  num x hx := by
    rw [fx_sub] at hx
    cases x <;> simp_all [FX.add, FX.neg, Fl.lt, FX.lt, FX.zero_def]

end

end Verif
