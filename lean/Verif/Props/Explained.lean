import Verif.Props.Shapley
import Verif.Props.Growth
import Verif.Proofs.Finite
import Verif.Props.StepLimit

/-!
# C12, C13, C15 for fitted models

The contributions of fitted models add up on new data; the hypotheses of the theorems about single
boosters are met by every fit on finite data.
-/

namespace Verif

open scoped BigOperators

set_option linter.unusedSectionVars false

section exact
variable {K : Type} [Field K] [LinearOrder K] [IsStrictOrderedRing K] {m32 m64 : Fmt K} [m32.Exact]
  [m64.Exact] {R : Type}

/-- The covers of internal nodes are positive. -/
theorem FitView.coversOk {S : Sorter} {X : Matrix (FX m64)} {w : List K} {nbins : Nat} {missing : FX m64}
    {gv hv : Nat → K} {c : GrowCfg (FX m32) (FX m64)} {sm : SampleMethod} {rows : List Nat}
    {t : Tree (FX m32) (FX m64)} {o : SNode (FX m32) (FX m64) → Prop}
    {gs : List (Ghost (FX m32) (FX m64))} {nodes : List (Node (FX m32) (FX m64))}
    (hV : FitView X missing gv hv c rows t o gs nodes)
    (hT : TrainedOn S X w nbins missing gv hv c sm rows) (hh : ∀ r ∈ rows, 0 ≤ hv r) : t.CoversOk := by
  intro n hn
  obtain ⟨i, hi⟩ := List.mem_iff_getElem?.1 hn
  obtain ⟨n0, w0, hn0, rfl⟩ := hV.shape.inv hi
  have hlt := (List.getElem?_eq_some_iff.1 hn0).1
  rw [← hV.cert.len] at hlt
  have hg := List.getElem?_eq_getElem hlt
  obtain ⟨n1, h1, h2, _⟩ := hV.cert.nodeOf hg
  rw [hn0] at h1; cases h1
  refine ⟨Verif.rowSum hv gs[i].rows, by show n0.hessianSum = _; rw [h2.cover, (hV.sums _ _ hg).hess], fun hl => ?_⟩
  obtain ⟨g, info, k, kids, hI⟩ := hV.cert.internal hV.shape hi hl
  obtain rfl : gs[i] = g := by have := hI.ghost; rw [hg] at this; exact Option.some.inj this
  obtain ⟨a, lg, lh, rg, rh, mg, mh, clg, clh, crg, crh, hE⟩ := hV.evalFacts hT hh hI
  obtain ⟨gl, gr, x1, _, x3, _, _, _, x5, _⟩ := hI.sides
  have hsum : Verif.rowSum hv gl.rows = clh := by
    have e1 := (hV.sums _ _ x1).hess
    rw [x3.cover, hE.lcover] at e1
    exact (FX.fin.inj e1).symm
  have hsub : ∀ r ∈ gl.rows, r ∈ gs[i].rows := by
    have hpos : 0 < n0.leftChild := by
      rcases Nat.eq_zero_or_pos n0.leftChild with h0 | h0
      · have := (hV.cert.wf hV.shape (by omega)).child i _ n0.leftChild hi ⟨hl, .inl rfl⟩
        omega
      · exact h0
    obtain ⟨gi, info', k', b1, b2, b3, b4⟩ := hV.cert.parent _ gl x1 hpos
    rw [x5, hg] at b1; cases b1
    rw [hI.info_eq] at b2; cases b2
    obtain ⟨kid, g', d1, d2, _, d3, _⟩ := hI.isSplit.new_lt b3 b4
    have x1' : gs[n0.leftChild]? = some gl := x1
    rw [x1'] at d2; cases d2
    intro r hr
    rw [d3] at hr
    exact hI.isSplit.perm.subset (List.mem_flatMap.2 ⟨kid, List.mem_of_getElem? d1, hr⟩)
  obtain ⟨r, hr, hr0⟩ : ∃ r ∈ gl.rows, 0 < hv r := by
    by_contra hc
    have : Verif.rowSum hv gl.rows = 0 := by
      unfold Verif.rowSum
      refine List.sum_eq_zero fun x hx => ?_
      obtain ⟨r, hr, rfl⟩ := List.mem_map.1 hx
      have h1 := hh r (hV.sub _ _ x1 r hr)
      rcases h1.lt_or_eq with h2 | h2
      · exact absurd ⟨r, hr, h2⟩ hc
      · exact h2.symm
    have := hE.lpos
    linarith
  have : hv r ≤ Verif.rowSum hv gs[i].rows := by
    unfold Verif.rowSum
    refine List.single_le_sum (fun x hx => ?_) _ (List.mem_map_of_mem (hsub r hr))
    obtain ⟨r', hr', rfl⟩ := List.mem_map.1 hx
    exact hh r' (hV.sub i _ hg r' hr')
  exact (lt_of_lt_of_le hr0 this).ne'

/-- C12, C13 and C15 for fitted models.  Exact arithmetic.  For every model fitted on finite data and every
new matrix with at least the columns of the training data whose values can be read, the contributions of
the methods Weight, Average and Shapley exist and add up to the prediction of the row. -/
theorem C15_fitted {env : Env R (FX m32) (FX m64)} {b b' : Booster (FX m32) (FX m64)} {X : Matrix (FX m64)}
    {y w : List K} {ev : Option (List (EvalSet (FX m64)))} {l1 l2 mds lr : K}
    (h : PlainFit env b X y w ev b' l1 l2 mds lr) (data : Matrix (FX m64)) (hd : data.Shaped)
    (hcols : X.cols ≤ data.cols) (hread : ∀ v ∈ data.data, Readable b.missing v) (out : List (FX m64))
    (hout : b'.predict data = .ok out) (m : ContributionsMethod)
    (hm : m = .weight ∨ m = .average ∨ m = .shapley) :
    ∃ rows : List (List K), b'.predictContributions data m = .ok (rows.flatten.map FX.fin) ∧
      (∀ r ∈ rows, r.length = data.cols + 1) ∧ out = rows.map fun r => FX.fin r.sum := by
  obtain ⟨base, binned, st, stop, N, hT⟩ := Booster.fit_trace h.fit
  have hsame := hT.same N (le_refl _)
  unfold Booster.SameParams at hsame
  rw [hT.last] at hsame
  have hb : b'.baseScore.IsFin := by
    rw [hsame]; exact h.base base hT.base_eq
  have hmiss : b'.missing = b.missing := by rw [hsame]
  have hwf : ∀ t ∈ b'.trees, t.Wf := C03_well_formed env b b' X _ _ ev h.fit
  have hv : ∀ t ∈ b'.trees, t.FiniteValues := fun t ht => by
    obtain ⟨binned, p, k, cfg, rows, hP⟩ := h.tree_mem ht
    exact hP.values
  have hc : ∀ t ∈ b'.trees, t.CoversOk := fun t ht => by
    obtain ⟨binned, p, k, cfg, rows, hP⟩ := h.tree_mem ht
    obtain ⟨o, gs, nodes, hV⟩ := hP.trained.view hP.treeAt.fitted.fit
    exact hV.coversOk hP.trained hP.params.hess
  rcases hm with rfl | rfl | rfl
  · exact C12_weight_sum b' data hd hv hb out hout
  · exact C13_average_sum b' data hd hv hb hwf hc out hout
  · refine C15_shapley_sum b' data hd hwf hv hc (fun t ht i hi n hn hl => ?_) hb out hout
    obtain ⟨v, hv⟩ := entry_shaped hd hi
      (lt_of_lt_of_le (fit_featuresBelow h.rng h.fit t ht n hn hl) hcols)
    exact ⟨v, hv, by rw [hmiss]; exact hread v (List.mem_of_getElem? hv)⟩

end exact

/-! ### The hypotheses are met -/

/-- A result, not a fault. -/
def Res.isOk {α : Type} : Res α → Bool
  | .ok _ => true
  | _ => false

/-- New data with a missing value. -/
def exNew : Matrix Q := { data := [q 2, FX.nan, q 5, q 1], rows := 2, cols := 2 }

/-- A fit with ternary splits, new data, and the Shapley contributions of a row. -/
example : ∃ b' out, PlainFit exEnv exLimited exX [0, 0, 1, 3, 3, 5] (List.replicate 6 (1 : ℚ)) none b' 0 0
      (1/2) (1/2) ∧ exNew.Shaped ∧ exX.cols ≤ exNew.cols ∧
      (∀ v ∈ exNew.data, Readable exLimited.missing v) ∧ b'.predict exNew = .ok out ∧
      (b'.predictContributions exNew .shapley).isOk = true := by
  have : (match exLimited.fit exEnv exX exY exW none with
    | .ok (b', .ok ()) => (b'.predict exNew).isOk && (b'.predictContributions exNew .shapley).isOk
    | _ => false) = true := by decide +kernel
  split at this
  · rename_i b' h
    rw [Bool.and_eq_true] at this
    cases hp : b'.predict exNew with
    | ok out =>
      refine ⟨b', out, exPlain rfl rfl rfl rfl le_rfl rfl rfl rfl rfl ⟨_, rfl⟩ rfl h, rfl, le_rfl, ?_, hp, this.2⟩
      decide +kernel
    | panic => rw [hp] at this; cases this.1
    | diverge => rw [hp] at this; cases this.1
  · cases this

end Verif
