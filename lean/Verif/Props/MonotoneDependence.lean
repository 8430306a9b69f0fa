import Verif.Props.Explained
import Verif.Props.Monotone
import Verif.Props.PartialDependence

/-!
# C71: partial dependence of constrained features
-/

namespace Verif

open scoped Verif

set_option linter.unusedSectionVars false

section
variable {K : Type} [Field K] [LinearOrder K] [IsStrictOrderedRing K] {m32 m64 : Fmt K}
  [m32.Exact] [m64.Exact]
variable {S : Sorter} {X : Matrix (FX m64)} {w : List K} {nbins : Nat} {missing : FX m64}
  {gv hv : Nat → K} {c : GrowCfg (FX m32) (FX m64)} {sm : SampleMethod} {rows : List Nat}
  {t : Tree (FX m32) (FX m64)} {o : SNode (FX m32) (FX m64) → Prop}
  {gs : List (Ghost (FX m32) (FX m64))} {nodes : List (Node (FX m32) (FX m64))}

/-- Covers of fitted trees. -/
theorem FitView.splitCovers (hV : FitView X missing gv hv c rows t o gs nodes)
    (hT : TrainedOn S X w nbins missing gv hv c sm rows) (hh : ∀ r ∈ rows, 0 ≤ hv r) : t.SplitCovers := by
  have cover : ∀ (i : Nat) (n : Node (FX m32) (FX m64)), t.nodes[i]? = some n →
      ∃ g, gs[i]? = some g ∧ n.hessianSum = FX.fin (Verif.rowSum hv g.rows) ∧
        n.hessianSum = g.sn.hessianSum := by
    intro i n hi
    obtain ⟨n0, w0, hn0, rfl⟩ := hV.shape.inv hi
    have hlt := (List.getElem?_eq_some_iff.1 hn0).1
    rw [← hV.cert.len] at hlt
    have hg := List.getElem?_eq_getElem hlt
    obtain ⟨n1, h1, h2, _⟩ := hV.cert.nodeOf hg
    rw [hn0] at h1; cases h1
    exact ⟨_, hg, by show n0.hessianSum = _; rw [h2.cover, (hV.sums _ _ hg).hess], h2.cover⟩
  constructor
  · intro n hn
    obtain ⟨i, hi⟩ := List.mem_iff_getElem?.1 hn
    obtain ⟨g, h1, h2, _⟩ := cover i n hi
    refine ⟨_, h2, ?_⟩
    unfold Verif.rowSum
    refine List.sum_nonneg fun x hx => ?_
    obtain ⟨r, hr, rfl⟩ := List.mem_map.1 hx
    exact hh r (hV.sub _ _ h1 r hr)
  · intro n hn hl j ch hj hch
    obtain ⟨i, hi⟩ := List.mem_iff_getElem?.1 hn
    obtain ⟨g, info, k, kids, hI⟩ := hV.cert.internal hV.shape hi hl
    obtain ⟨a, lg, lh, rg, rh, mg, mh, clg, clh, crg, crh, hE⟩ := hV.evalFacts hT hh hI
    obtain ⟨gl, gr, x1, x2, x3, x4, _⟩ := hI.sides
    obtain ⟨g', y1, _, y3⟩ := cover j ch hch
    rcases hj with rfl | rfl
    · rw [x1] at y1; cases y1
      rw [y3, x3.cover, hE.lcover]; exact hE.lpos
    · rw [x2] at y1; cases y1
      rw [y3, x4.cover, hE.rcover]; exact hE.rpos

theorem Allowed.between {lr : K} (hlr : 0 ≤ lr) (i : Nat) : Between (Allowed gs lr i) := by
  rintro x y p ⟨g, x', h1, h2, rfl⟩ ⟨g', y', h1', h2', rfl⟩ hp hq
  rw [h1] at h1'; cases h1'
  rcases hlr.lt_or_eq with h0 | h0
  · refine ⟨g, p / lr, h1, InB.between _ _ x' y' _ h2 h2' ?_ ?_, by field_simp⟩
    · rw [le_div_iff₀ h0]; exact hp
    · rw [div_le_iff₀ h0]; exact hq
  · refine ⟨g, x', h1, h2, ?_⟩
    rw [← h0] at hp hq ⊢
    rw [mul_zero] at hp hq ⊢
    exact le_antisymm hq hp

/-- A weighted mean lies between. -/
theorem Between.mean {C : K → Prop} (hC : Between C) {x y a b : K} (hx : C x) (hy : C y) (ha : 0 ≤ a)
    (hb : 0 ≤ b) (hab : a + b = 1) : C (a * x + b * y) := by
  obtain rfl : b = 1 - a := by linarith
  rcases le_total x y with h | h
  · exact hC x y _ hx hy (by nlinarith) (by nlinarith)
  · exact hC y x _ hy hx (by nlinarith) (by nlinarith)

/-- The mean over the leaves that can be reached is allowed. -/
theorem Mixture.allowed {C : Nat → K → Prop} {t : Tree (FX m32) (FX m64)} (hcov : t.SplitCovers)
    (hv : ∀ (i : Nat) (n : Node (FX m32) (FX m64)), t.nodes[i]? = some n → ValIn (C i) n.weightValue)
    (hm : ∀ (i : Nat) (n : Node (FX m32) (FX m64)) (j : Nat), t.nodes[i]? = some n → n.IsChild j →
      ∀ x, C j x → C i x) (hC : ∀ i, Between (C i)) {f : Nat} {v msg : FX m64} {i : Nat}
    {ps : List (K × Node (FX m32) (FX m64))} (h : Mixture t.nodes f v msg i ps) : C i (mixValue ps) := by
  induction h with
  | leaf h1 h2 =>
    obtain ⟨x, hx, hx'⟩ := hv _ _ h1
    simpa [mixValue, hx, FX.val] using hx'
  | @known i n ps h1 h2 _ _ ih =>
    refine hm _ _ _ h1 ⟨h2, ?_⟩ _ ih
    unfold Node.childFor
    split
    · exact .inr (.inr rfl)
    · split
      · exact .inl rfl
      · exact .inr (.inl rfl)
  | @two i n l r pl pr h1 h2 _ _ hl hr _ _ il ir =>
    have cl := hcov.2 n (List.mem_of_getElem? h1) h2 _ l (.inl rfl) hl
    have cr := hcov.2 n (List.mem_of_getElem? h1) h2 _ r (.inr rfl) hr
    rw [mixValue_append, mixValue_scale, mixValue_scale]
    refine (hC i).mean (hm _ _ _ h1 ⟨h2, .inl rfl⟩ _ il) (hm _ _ _ h1 ⟨h2, .inr (.inl rfl)⟩ _ ir) ?_ ?_ ?_
    · positivity
    · positivity
    · field_simp
  | @three i n l r m pl pr pm h1 h2 _ _ _ hl hr hmm _ _ _ il ir im =>
    have cl := hcov.2 n (List.mem_of_getElem? h1) h2 _ l (.inl rfl) hl
    have cr := hcov.2 n (List.mem_of_getElem? h1) h2 _ r (.inr rfl) hr
    obtain ⟨cm, em, nm⟩ := hcov.1 m (List.mem_of_getElem? hmm)
    have cm' : 0 ≤ m.hessianSum.val := by rw [em]; exact nm
    rw [mixValue_append, mixValue_append, mixValue_scale, mixValue_scale, mixValue_scale]
    have e1 := (hC i).mean (hm _ _ _ h1 ⟨h2, .inl rfl⟩ _ il) (hm _ _ _ h1 ⟨h2, .inr (.inl rfl)⟩ _ ir)
      (a := l.hessianSum.val / (l.hessianSum.val + r.hessianSum.val))
      (b := r.hessianSum.val / (l.hessianSum.val + r.hessianSum.val))
      (by positivity) (by positivity) (by field_simp)
    have e2 := (hC i).mean e1 (hm _ _ _ h1 ⟨h2, .inr (.inr rfl)⟩ _ im)
      (a := (l.hessianSum.val + r.hessianSum.val) /
        (l.hessianSum.val + r.hessianSum.val + m.hessianSum.val))
      (b := m.hessianSum.val / (l.hessianSum.val + r.hessianSum.val + m.hessianSum.val))
      (by positivity) (by positivity) (by field_simp)
    convert e2 using 1
    field_simp

/-- Means at ordered values of a constrained feature are ordered. -/
theorem Mixture.le {C : Nat → K → Prop} {con : Nat → Option Constraint} {t : Tree (FX m32) (FX m64)}
    (hcov : t.SplitCovers)
    (hv : ∀ (i : Nat) (n : Node (FX m32) (FX m64)), t.nodes[i]? = some n → ValIn (C i) n.weightValue)
    (hm : ∀ (i : Nat) (n : Node (FX m32) (FX m64)) (j : Nat), t.nodes[i]? = some n → n.IsChild j →
      ∀ x, C j x → C i x) (hC : ∀ i, Between (C i))
    (ho : ∀ (i : Nat) (n : Node (FX m32) (FX m64)), t.nodes[i]? = some n → n.isLeaf = false →
      ∀ x y, C n.leftChild x → C n.rightChild y →
      (con n.splitFeature = some .positive → x ≤ y) ∧ (con n.splitFeature = some .negative → y ≤ x))
    {f : Nat} {v v' msg : FX m64} (p1 : ¬ IsMissing msg v) (p2 : ¬ IsMissing msg v')
    (hto : Towards (con f) v v') {i : Nat} {ps ps' : List (K × Node (FX m32) (FX m64))}
    (h : Mixture t.nodes f v msg i ps) (h' : Mixture t.nodes f v' msg i ps') :
    mixValue ps ≤ mixValue ps' := by
  induction h generalizing ps' with
  | @leaf i n h1 h2 =>
    cases h' with
    | leaf g1 g2 => rw [h1] at g1; cases g1; exact le_rfl
    | known g1 g2 => rw [h1] at g1; cases g1; rw [h2] at g2; cases g2
    | two g1 g2 => rw [h1] at g1; cases g1; rw [h2] at g2; cases g2
    | three g1 g2 => rw [h1] at g1; cases g1; rw [h2] at g2; cases g2
  | @known i n ps h1 h2 h3 h4 ih =>
    cases h' with
    | leaf g1 g2 => rw [h1] at g1; cases g1; rw [h2] at g2; cases g2
    | two g1 g2 g3 => rw [h1] at g1; cases g1; exact absurd h3 g3
    | three g1 g2 g3 => rw [h1] at g1; cases g1; exact absurd h3 g3
    | known g1 g2 g3 g4 =>
      rw [h1] at g1; cases g1
      have c1 : n.childFor msg v = if (v <ᶠ n.splitValue) = true then n.leftChild else n.rightChild := by
        unfold Node.childFor; rw [if_neg p1]
      have c2 : n.childFor msg v' = if (v' <ᶠ n.splitValue) = true then n.leftChild else n.rightChild := by
        unfold Node.childFor; rw [if_neg p2]
      have a1 := h4.allowed hcov hv hm hC
      have a2 := g4.allowed hcov hv hm hC
      subst h3
      by_cases q1 : (v <ᶠ n.splitValue) = true <;> by_cases q2 : (v' <ᶠ n.splitValue) = true
      · refine ih ?_
        rw [c1, if_pos q1]
        rw [c2, if_pos q2] at g4
        exact g4
      · rw [c1, if_pos q1] at a1
        rw [c2, if_neg q2] at a2
        rcases hto with ⟨k1, k2⟩ | ⟨k1, k2⟩
        · exact (ho i n h1 h2 _ _ a1 a2).1 k1
        · exact absurd (FX.lt_of_le_of_lt k2 q1) q2
      · rw [c1, if_neg q1] at a1
        rw [c2, if_pos q2] at a2
        rcases hto with ⟨k1, k2⟩ | ⟨k1, k2⟩
        · exact absurd (FX.lt_of_le_of_lt k2 q2) q1
        · exact (ho i n h1 h2 _ _ a2 a1).2 k1
      · refine ih ?_
        rw [c1, if_neg q1]
        rw [c2, if_neg q2] at g4
        exact g4
  | @two i n l r pl pr h1 h2 h3 h4 hl hr _ _ il ir =>
    cases h' with
    | leaf g1 g2 => rw [h1] at g1; cases g1; rw [h2] at g2; cases g2
    | known g1 g2 g3 => rw [h1] at g1; cases g1; exact absurd g3 h3
    | three g1 g2 g3 g4 g5 =>
      rw [h1] at g1; cases g1
      exact absurd h4 (by rintro (e | e); exacts [g4 e, g5 e])
    | two g1 g2 g3 g4 gl gr ml mr =>
      rw [h1] at g1; cases g1
      rw [hl] at gl; cases gl
      rw [hr] at gr; cases gr
      have cl := hcov.2 n (List.mem_of_getElem? h1) h2 _ l (.inl rfl) hl
      have cr := hcov.2 n (List.mem_of_getElem? h1) h2 _ r (.inr rfl) hr
      rw [mixValue_append, mixValue_scale, mixValue_scale, mixValue_append, mixValue_scale, mixValue_scale]
      exact add_le_add (mul_le_mul_of_nonneg_left (il ml) (by positivity))
        (mul_le_mul_of_nonneg_left (ir mr) (by positivity))
  | @three i n l r m pl pr pm h1 h2 h3 h4 h5 hl hr hmm _ _ _ il ir im =>
    cases h' with
    | leaf g1 g2 => rw [h1] at g1; cases g1; rw [h2] at g2; cases g2
    | known g1 g2 g3 => rw [h1] at g1; cases g1; exact absurd g3 h3
    | two g1 g2 g3 g4 =>
      rw [h1] at g1; cases g1
      exact absurd g4 (by rintro (e | e); exacts [h4 e, h5 e])
    | three g1 g2 g3 g4 g5 gl gr gm ml mr mm =>
      rw [h1] at g1; cases g1
      rw [hl] at gl; cases gl
      rw [hr] at gr; cases gr
      rw [hmm] at gm; cases gm
      have cl := hcov.2 n (List.mem_of_getElem? h1) h2 _ l (.inl rfl) hl
      have cr := hcov.2 n (List.mem_of_getElem? h1) h2 _ r (.inr rfl) hr
      obtain ⟨cm, em, nm⟩ := hcov.1 m (List.mem_of_getElem? hmm)
      have cm' : 0 ≤ m.hessianSum.val := by rw [em]; exact nm
      simp only [mixValue_append, mixValue_scale]
      exact add_le_add (add_le_add (mul_le_mul_of_nonneg_left (il ml) (by positivity))
        (mul_le_mul_of_nonneg_left (ir mr) (by positivity)))
        (mul_le_mul_of_nonneg_left (im mm) (by positivity))

/-- **C71** (trees, partial).  If below every split on a constrained feature all splits are on constrained
features, the partial dependence of the tree on a constrained feature is ordered as the constraint asks, for
any two values that are not missing.  Full claim: without the condition on the tree; it is false, see
`C71_counterexample`. -/
theorem C71_tree_partial (h : TrainedOn S X w nbins missing gv hv c sm rows)
    (hf : Tree.fit c sm rows = .ok t) {l1 l2 mds lr : K} (hP : PlainParams c hv rows l1 l2 mds lr)
    (hlr : 0 ≤ lr) (hs : OnlyConstrainedBelow c.splitter.params.getConstraint t.nodes) (hfin : t.FiniteValues)
    (hwf : t.Wf) {f : Nat} {v v' msg : FX m64} (p1 : ¬ IsMissing msg v) (p2 : ¬ IsMissing msg v')
    (r1 : Readable msg v) (r2 : Readable msg v') (hto : Towards (c.splitter.params.getConstraint f) v v') :
    ∃ x x', t.valuePartialDependence f v msg = .ok (FX.fin x) ∧
      t.valuePartialDependence f v' msg = .ok (FX.fin x') ∧ x ≤ x' := by
  obtain ⟨o, gs, nodes, hV⟩ := h.view hf
  have hcov := hV.splitCovers h hP.hess
  obtain ⟨a, b, d⟩ := hV.allowed h hP hlr hs
  obtain ⟨ps, h1, _, _, h4⟩ := C39_mixture t hwf hfin hcov f v msg r1
  obtain ⟨ps', g1, _, _, g4⟩ := C39_mixture t hwf hfin hcov f v' msg r2
  exact ⟨_, _, h4, g4, Mixture.le hcov a b (Allowed.between hlr) d p1 p2 hto h1 g1⟩

/-- **C71** (boosters, partial).  The same for `value_partial_dependence` of fitted boosters, with any number of
trees in use. -/
theorem C71_booster_partial {R : Type} {env : Env R (FX m32) (FX m64)} {b b' : Booster (FX m32) (FX m64)}
    {y : List K} {ev : Option (List (EvalSet (FX m64)))} {l1 l2 mds lr : K}
    (h : PlainFit env b X y w ev b' l1 l2 mds lr) (hlr : 0 ≤ lr)
    (hs : ∀ t ∈ b'.trees, OnlyConstrainedBelow (fun f => b.constraintsMap.lookup f) t.nodes)
    {f : Nat} {v v' : FX m64} (p1 : ¬ IsMissing b.missing v) (p2 : ¬ IsMissing b.missing v')
    (r1 : Readable b.missing v) (r2 : Readable b.missing v')
    (hto : Towards (b.constraintsMap.lookup f) v v') {ts : List (Tree (FX m32) (FX m64))}
    (hts : b'.predictionTrees = .ok ts) :
    ∃ x x', b'.valuePartialDependence f v = .ok (FX.fin x) ∧
      b'.valuePartialDependence f v' = .ok (FX.fin x') ∧ x ≤ x' := by
  obtain ⟨base, binned, st, stop, N, hT⟩ := Booster.fit_trace h.fit
  have hsame := hT.same N (le_refl _)
  unfold Booster.SameParams at hsame
  rw [hT.last] at hsame
  obtain ⟨bs, hbs⟩ : b'.baseScore.IsFin := by
    rw [hsame]; exact h.base base hT.base_eq
  have hmiss : b'.missing = b.missing := by rw [hsame]
  have hsub : ∀ t ∈ ts, t ∈ b'.trees := fun t ht => List.mem_of_mem_take ((predictionTrees_eq_ok.1 hts).2 ▸ ht)
  have hall : ∀ t ∈ ts, t.SplitCovers ∧ t.FiniteValues ∧ t.Wf ∧
      ∃ x x', t.valuePartialDependence f v b'.missing = .ok (FX.fin x) ∧
        t.valuePartialDependence f v' b'.missing = .ok (FX.fin x') ∧ x ≤ x' := by
    intro t ht
    obtain ⟨binned, p, k, cfg, rows, hA⟩ := h.tree_mem (hsub t ht)
    have hcon : cfg.splitter.params.getConstraint = fun f => b.constraintsMap.lookup f := by
      rw [hA.treeAt.fitted.splitter]
      funext g
      unfold Booster.splitter
      split <;> rfl
    have hwf := C03_well_formed env b b' X _ _ ev h.fit t (hsub t ht)
    obtain ⟨o, gs, nodes, hV⟩ := hA.trained.view hA.treeAt.fitted.fit
    refine ⟨hV.splitCovers hA.trained hA.params.hess, hA.values, hwf, ?_⟩
    rw [hmiss]
    exact C71_tree_partial hA.trained hA.treeAt.fitted.fit hA.params hlr
      (by rw [hcon]; exact hs t (hsub t ht)) hA.values hwf p1 p2 r1 r2 (by rw [hcon]; exact hto)
  obtain ⟨xs, e1, e2⟩ := C39_booster b' ts hts (fun t ht => (hall t ht).2.2.1) (fun t ht => (hall t ht).2.1)
    (fun t ht => (hall t ht).1) f v (by rw [hmiss]; exact r1) bs hbs
  obtain ⟨xs', e1', e2'⟩ := C39_booster b' ts hts (fun t ht => (hall t ht).2.2.1)
    (fun t ht => (hall t ht).2.1) (fun t ht => (hall t ht).1) f v' (by rw [hmiss]; exact r2) bs hbs
  refine ⟨_, _, e2, e2', ?_⟩
  have key : ∀ (ts : List (Tree (FX m32) (FX m64))) (xs xs' : List K),
      (∀ t ∈ ts, ∃ x x', t.valuePartialDependence f v b'.missing = .ok (FX.fin x) ∧
        t.valuePartialDependence f v' b'.missing = .ok (FX.fin x') ∧ x ≤ x') →
      List.Forall₂ (fun t x => t.valuePartialDependence f v b'.missing = .ok (.fin x)) ts xs →
      List.Forall₂ (fun t x => t.valuePartialDependence f v' b'.missing = .ok (.fin x)) ts xs' →
      xs.sum ≤ xs'.sum := by
    intro ts xs xs' ha hx
    induction hx generalizing xs' with
    | nil => intro hx'; cases hx'; exact le_rfl
    | @cons t x ts xs hx1 _ ih =>
      intro hx'
      cases hx' with
      | @cons _ x' _ xs' hx1' hx2' =>
        obtain ⟨z, z', z1, z2, z3⟩ := ha t (by simp)
        rw [hx1] at z1; cases z1
        rw [hx1'] at z2; cases z2
        simp only [List.sum_cons]
        exact add_le_add z3 (ih _ (fun t ht => ha t (by simp [ht])) hx2')
  exact add_le_add le_rfl (key ts xs xs' (fun t ht => (hall t ht).2.2.2) e1 e1')

end

/-! ### A violation, and examples -/

/-- Two features, eight rows. -/
def depX : Matrix Q :=
  { data := [q 0, q 0, q 0, q 0, q 1, q 1, q 1, q 1, q 0, q 1, q 1, q 1, q 0, q 1, q 1, q 1], rows := 8, cols := 2 }

/-- Targets. -/
def depY : List ℚ := [-10, 8/3, 8/3, 8/3, 10, -8/3, -8/3, -8/3]

/-- One tree, with a constraint on feature 0 only, and `l2 = 1`. -/
def exDep : Booster Q Q := { exMixed with l2 := q 1 }

/-- **C71** is false in general.  With a Positive constraint on feature 0 and none on feature 1, the partial
dependence falls from 1/4 at the value 0 to -1/4 at the value 1. -/
theorem C71_counterexample :
    ∃ b', PlainFit exEnv exDep depX depY (List.replicate 8 (1 : ℚ)) none b' 0 1 0 1 ∧
      Towards (exDep.constraintsMap.lookup 0) (q 0) (q 1) ∧
      b'.valuePartialDependence 0 (q 0) = .ok (q (1/4)) ∧
      b'.valuePartialDependence 0 (q 1) = .ok (q (-1/4)) := by
  have : (match exDep.fit exEnv depX (depY.map FX.fin) ((List.replicate 8 (1 : ℚ)).map FX.fin) none with
    | .ok (b', .ok ()) => decide (b'.valuePartialDependence 0 (q 0) = .ok (q (1/4)) ∧
        b'.valuePartialDependence 0 (q 1) = .ok (q (-1/4)))
    | _ => false) = true := by decide +kernel
  split at this
  · rename_i b' h
    obtain ⟨h1, h2⟩ := of_decide_eq_true this
    refine ⟨b', ?_, .inl ⟨rfl, by decide⟩, h1, h2⟩
    exact
      { sorter := exSorter_ok, rng := exRng_ok, shaped := rfl, ylen := rfl, wlen := rfl
        max := by decide +kernel
        minLeafWeight := by decide
        l1_eq := rfl, l2_eq := rfl, mds_eq := rfl, lr_eq := rfl, l2_nonneg := by norm_num
        positive := .inl (by norm_num)
        goss := fun h => nomatch h
        exp := fun h => nomatch h
        base := fun s hs => by
          have hs : s = exDep.baseScore := hs
          rw [hs]; exact ⟨_, rfl⟩
        fit := h }
  · cases this

/-- The hypotheses of C71 are met: both features are constrained and split on, and the partial dependence
rises. -/
example : ∃ b' ts, PlainFit exEnv exBoth monoX [0, 10, 20, 5] (List.replicate 4 (1 : ℚ)) none b' 0 0 0 1 ∧
      b'.predictionTrees = .ok ts ∧ (∀ t ∈ b'.trees, ∀ n ∈ t.nodes, n.isLeaf = false →
        Constrained (exBoth.constraintsMap.lookup n.splitFeature)) ∧
      ¬ IsMissing exBoth.missing (q 0) ∧ Readable exBoth.missing (q 0) ∧
      Towards (exBoth.constraintsMap.lookup 0) (q 0) (q 1) ∧
      b'.valuePartialDependence 0 (q 0) = .ok (q (35/8)) ∧
      b'.valuePartialDependence 0 (q 1) = .ok (q (25/2)) := by
  have : (match exBoth.fit exEnv monoX [q 0, q 10, q 20, q 5] (List.replicate 4 (q 1)) none with
    | .ok (b', .ok ()) => decide (b'.predictionTrees.isOk = true ∧
        b'.valuePartialDependence 0 (q 0) = .ok (q (35/8)) ∧
        b'.valuePartialDependence 0 (q 1) = .ok (q (25/2)) ∧
        ∀ t ∈ b'.trees, ∀ n ∈ t.nodes, n.isLeaf = false →
          (exBoth.constraintsMap.lookup n.splitFeature = some .positive ∨
            exBoth.constraintsMap.lookup n.splitFeature = some .negative))
    | _ => false) = true := by decide +kernel
  split at this
  · rename_i b' h
    obtain ⟨h1, h2, h3, h4⟩ := of_decide_eq_true this
    obtain ⟨ts, hts⟩ : ∃ ts, b'.predictionTrees = .ok ts := by
      cases e : b'.predictionTrees with
      | ok ts => exact ⟨ts, rfl⟩
      | panic => rw [e] at h1; cases h1
      | diverge => rw [e] at h1; cases h1
    exact ⟨b', ts, monoPlain rfl rfl rfl rfl le_rfl rfl rfl rfl rfl ⟨_, rfl⟩ rfl h, hts, h4, by decide, by decide,
      .inl ⟨rfl, by decide⟩, h2, h3⟩
  · cases this

end Verif
