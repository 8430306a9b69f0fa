import Verif.Proofs.BestSplit
import Verif.Proofs.GrowView
import Verif.Proofs.Hist
import Verif.Proofs.GridFit
import Verif.Proofs.RoundError
import Verif.Proofs.CleanUp

/-!
# Trees fitted to zero gradients
-/

namespace Verif

open scoped Verif

set_option linter.unusedSectionVars false

/-! ## Signs -/

section
variable {K : Type} [Field K] [LinearOrder K] [IsStrictOrderedRing K] {m : Fmt K}

/-- Not below zero (NaN counts). -/
def FX.NN (x : FX m) : Prop := (x <ᶠ 0) = false

/-- Not above zero (NaN counts). -/
def FX.NP (x : FX m) : Prop := ((0 : FX m) <ᶠ x) = false

theorem FX.nn_fin {q : K} : (FX.fin q : FX m).NN ↔ 0 ≤ q := by
  unfold FX.NN
  rw [FX.zero_def, FX.lt_fin]
  simp

theorem FX.np_fin {q : K} : (FX.fin q : FX m).NP ↔ q ≤ 0 := by
  unfold FX.NP
  rw [FX.zero_def, FX.lt_fin]
  simp

theorem FX.nn_nan : (FX.nan : FX m).NN := rfl
theorem FX.nn_pinf : (FX.pinf : FX m).NN := rfl
theorem FX.np_nan : (FX.nan : FX m).NP := rfl
theorem FX.np_ninf : (FX.ninf : FX m).NP := rfl
theorem FX.not_nn_ninf : ¬ (FX.ninf : FX m).NN := fun h => Bool.noConfusion (show true = false from h)
theorem FX.not_np_pinf : ¬ (FX.pinf : FX m).NP := fun h => Bool.noConfusion (show true = false from h)

theorem FX.NN.neg {x : FX m} (h : x.NN) : (-x).NP := by
  cases x with
  | nan => exact FX.np_nan
  | ninf => exact absurd h FX.not_nn_ninf
  | pinf => exact FX.np_ninf
  | fin q => rw [FX.neg_fin, FX.np_fin]; have := FX.nn_fin.1 h; linarith

theorem FX.NN.sinf {q : K} (h : 0 ≤ q) : (FX.sinf q : FX m).NN := by
  unfold FX.sinf
  split
  · exact FX.nn_pinf
  · rw [if_neg (by linarith)]; exact FX.nn_nan

variable [hm : m.Rounds]

theorem FX.rd_zero : (FX.rd 0 : FX m) = 0 := by
  unfold FX.rd; rw [hm.zero]; rfl

theorem FX.nn_rd {q : K} (h : 0 ≤ q) : (FX.rd q : FX m).NN := by
  rcases rd_nonneg (m := m) h with ⟨y, hy, e⟩ | e
  · rw [e]; exact FX.nn_fin.2 hy
  · rw [e]; exact FX.nn_pinf

theorem FX.np_rd {q : K} (h : q ≤ 0) : (FX.rd q : FX m).NP := by
  have := hm.mono h
  rw [hm.zero] at this
  unfold FX.rd
  cases e : m.rnd q with
  | fin y => rw [e] at this; exact FX.np_fin.2 this
  | pinf => rw [e] at this; exact this.elim
  | ninf => exact FX.np_ninf

theorem FX.NN.add {x y : FX m} (hx : x.NN) (hy : y.NN) : (x + y).NN := by
  change (FX.add x y).NN
  cases x <;> cases y <;> first
    | exact FX.nn_nan
    | exact FX.nn_pinf
    | exact absurd hx FX.not_nn_ninf
    | exact absurd hy FX.not_nn_ninf
    | exact FX.nn_rd (by have := FX.nn_fin.1 hx; have := FX.nn_fin.1 hy; linarith)

theorem FX.NP.add {x y : FX m} (hx : x.NP) (hy : y.NP) : (x + y).NP := by
  change (FX.add x y).NP
  cases x <;> cases y <;> first
    | exact FX.np_nan
    | exact FX.np_ninf
    | exact absurd hx FX.not_np_pinf
    | exact absurd hy FX.not_np_pinf
    | exact FX.np_rd (by have := FX.np_fin.1 hx; have := FX.np_fin.1 hy; linarith)

theorem FX.NP.sub {x y : FX m} (hx : x.NP) (hy : y.NN) : (x - y).NP :=
  hx.add hy.neg

theorem FX.NN.mul {x y : FX m} (hx : x.NN) (hy : y.NN) : (x * y).NN := by
  change (FX.mul x y).NN
  cases x <;> cases y <;> first
    | exact FX.nn_nan
    | exact FX.nn_pinf
    | exact absurd hx FX.not_nn_ninf
    | exact absurd hy FX.not_nn_ninf
    | exact FX.NN.sinf (FX.nn_fin.1 hx)
    | exact FX.NN.sinf (FX.nn_fin.1 hy)
    | exact FX.nn_rd (mul_nonneg (FX.nn_fin.1 hx) (FX.nn_fin.1 hy))

theorem FX.NN.sq (x : FX m) : (x * x).NN := by
  change (FX.mul x x).NN
  cases x <;> first
    | exact FX.nn_nan
    | exact FX.nn_pinf
    | exact FX.nn_rd (mul_self_nonneg _)

theorem FX.NN.zero : (0 : FX m).NN := FX.nn_fin.2 le_rfl

theorem FX.zero_mul_nn (x : FX m) : ((0 : FX m) * x).NN := by
  change (FX.mul (FX.fin 0) x).NN
  cases x with
  | nan => exact FX.nn_nan
  | ninf => exact FX.NN.sinf (by simp)
  | pinf => exact FX.NN.sinf le_rfl
  | fin q => exact FX.nn_rd (by simp)

theorem FX.zero_add_zero : (0 : FX m) + 0 = 0 := by
  change FX.rd ((0 : K) + 0) = _
  rw [add_zero]; exact FX.rd_zero

theorem FX.zero_sub_zero : (0 : FX m) - 0 = 0 := by
  change FX.rd ((0 : K) + -0) = _
  rw [neg_zero, add_zero]; exact FX.rd_zero

theorem FX.zero_div (x : FX m) : (0 : FX m) / x = 0 ∨ (0 : FX m) / x = FX.nan := by
  change FX.div (FX.fin 0) x = _ ∨ FX.div (FX.fin 0) x = _
  cases x with
  | nan => exact .inr rfl
  | ninf => exact .inl rfl
  | pinf => exact .inl rfl
  | fin q =>
    simp only [FX.div]
    split
    · right; simp [FX.sinf]
    · left; rw [_root_.zero_div]; exact FX.rd_zero

theorem FX.NN.down {m' : Fmt K} {x : FX m'} (h : x.NN) : (down x : FX m).NN := by
  cases x with
  | nan => exact FX.nn_nan
  | ninf => exact absurd h FX.not_nn_ninf
  | pinf => exact FX.nn_pinf
  | fin q => exact FX.nn_rd (FX.nn_fin.1 h)

omit hm in
theorem FX.NN.up {m' : Fmt K} {x : FX m} (h : x.NN) : (up x : FX m').NN := by
  cases x with
  | nan => exact FX.nn_nan
  | ninf => exact absurd h FX.not_nn_ninf
  | pinf => exact FX.nn_pinf
  | fin q => exact FX.nn_fin.2 (FX.nn_fin.1 h)

theorem FX.down_zero {m' : Fmt K} : (down (0 : FX m') : FX m) = 0 := FX.rd_zero

/-- Without gradient there is no gain, whatever the value. -/
theorem gain_np {l2 h w : FX m} (hh : (h + l2).NN) : (gainGivenWeight l2 0 h w).NP := by
  unfold gainGivenWeight
  have h2 : (Fl.ofNat 2 * 0 : FX m) = 0 := by
    change FX.mul (FX.rd ((2 : Nat) : K)) (FX.fin 0) = _
    rw [show ((2 : Nat) : K) = 2 by norm_num]
    unfold FX.rd
    rw [hm.two]
    change FX.rd ((2 : K) * 0) = _
    rw [mul_zero]; exact FX.rd_zero
  rw [h2]
  exact ((FX.zero_mul_nn w).add (hh.mul (FX.NN.sq w))).neg

omit hm in
theorem cullGain_np {g l r : FX m} (h : g.NP) : ∀ c, (cullGain g l r c).NP
  | none => h
  | some .unconstrained => h
  | some .negative => by
    show (if (l ≤ᶠ r) = true then (FX.ninf : FX m) else g).NP
    by_cases hc : (l ≤ᶠ r) = true
    · rw [if_pos hc]; exact FX.np_ninf
    · rw [if_neg hc]; exact h
  | some .positive => by
    show (if (r ≤ᶠ l) = true then (FX.ninf : FX m) else g).NP
    by_cases hc : (r ≤ᶠ l) = true
    · rw [if_pos hc]; exact FX.np_ninf
    · rw [if_neg hc]; exact h

omit hm in
/-- Not below a bound that is not negative. -/
theorem FX.nn_of_not_lt {h b : FX m} (hb : ((0 : FX m) ≤ᶠ b) = true) (hh : (h <ᶠ b) = false) : h.NN := by
  cases h with
  | nan => exact FX.nn_nan
  | pinf => exact FX.nn_pinf
  | ninf =>
    exfalso
    revert hh hb
    cases b with
    | nan => intro hb; cases hb
    | ninf => intro hb; cases hb
    | pinf => intro _ hh; cases hh
    | fin q => intro _ hh; cases hh
  | fin x =>
    rw [FX.nn_fin]
    cases b with
    | nan => cases hb
    | ninf => cases hb
    | pinf => cases hh
    | fin q =>
      rw [FX.zero_def, FX.le_fin, decide_eq_true_eq] at hb
      rw [FX.lt_fin, decide_eq_false_iff_not] at hh
      linarith [not_lt.1 hh]

end

/-! ## Candidates -/

section
variable {K : Type} [Field K] [LinearOrder K] [IsStrictOrderedRing K] {m : Fmt K} [hm : m.Rounds]

theorem imputer_np {p : SplitParams (FX m)} {a : SplitArgs (FX m)} (hl2 : p.l2.NN)
    (hw : ((0 : FX m) ≤ᶠ p.minLeafWeight) = true) (h1 : a.lg = 0) (h2 : a.rg = 0) (h3 : a.mg = 0)
    {l r : NodeInfo (FX m)} {mi : MissingInfo (FX m)} (h : imputerEvaluateSplit p a = some (l, r, mi)) :
    l.gain.NP ∧ r.gain.NP := by
  unfold imputerEvaluateSplit at h
  rw [h1, h2, h3, FX.zero_add_zero] at h
  have key : ∀ x w : FX m, (x <ᶠ p.minLeafWeight) = false → (gainGivenWeight p.l2 0 x w).NP :=
    fun x w hx => gain_np ((FX.nn_of_not_lt hw hx).add hl2)
  split at h
  · cases h
  · simp only at h
    split at h
    · cases h
    · split at h
      · split at h
        all_goals
          split at h
          · cases h
          · rename_i hc
            simp only [Bool.or_eq_true, not_or, Bool.not_eq_true] at hc
            injection h with h
            injection h with e1 h
            injection h with e2 e3
            subst e1 e2
            exact ⟨by first | exact cullGain_np (key _ _ hc.2) _ | exact key _ _ hc.2,
              by first | exact cullGain_np (key _ _ hc.1) _ | exact key _ _ hc.1⟩
      · split at h
        · cases h
        · rename_i hc
          simp only [Bool.or_eq_true, not_or, Bool.not_eq_true] at hc
          injection h with h
          injection h with e1 h
          injection h with e2 e3
          subst e1 e2
          exact ⟨key _ _ hc.2, key _ _ hc.1⟩

/-- The gain of the missing node. -/
def MissingInfo.gainOf {F : Type} [Fl F] : MissingInfo F → F
  | .branch i => i.gain
  | .leaf i => i.gain
  | _ => 0

theorem splitter_np {s : Splitter (FX m)} {a : SplitArgs (FX m)} (hl2 : s.params.l2.NN)
    (hw : ((0 : FX m) ≤ᶠ s.params.minLeafWeight) = true) (h1 : a.lg = 0) (h2 : a.rg = 0) (h3 : a.mg = 0)
    (h4 : a.mh.NN)
    {l r : NodeInfo (FX m)} {mi : MissingInfo (FX m)} (h : s.evaluateSplit a = .ok (some (l, r, mi))) :
    l.gain.NP ∧ r.gain.NP ∧ mi.gainOf.NP := by
  cases s with
  | imputer p =>
    simp only [Splitter.evaluateSplit, Res.ok.injEq] at h
    obtain ⟨a1, a2⟩ := imputer_np hl2 hw h1 h2 h3 h
    refine ⟨a1, a2, ?_⟩
    rcases (imputerEvaluateSplit_some h).2.2 with e | e <;> subst e <;> exact FX.np_fin.2 le_rfl
  | branch p =>
    obtain ⟨lw, rw', _, b1, b2, e1, e2, e3⟩ := branchEvaluateSplit_some h
    have key : ∀ x w : FX m, x.NN → (gainGivenWeight p.l2 0 x w).NP := fun x w hx => gain_np (hx.add hl2)
    refine ⟨?_, ?_, ?_⟩
    · rw [e1, h1]; exact key _ _ (FX.nn_of_not_lt hw b1)
    · rw [e2, h2]; exact key _ _ (FX.nn_of_not_lt hw b2)
    · rw [e3, h3]
      split <;> exact key _ _ h4

/-- No split is found in a node without gradients. -/
theorem bestSplit_none_of_zero {D : Type} {s : Splitter (FX m)} {node : SNode (FX m) D} {cols : List Nat}
    (hl2 : s.params.l2.NN) (hg : s.params.gamma.NN) (hw : ((0 : FX m) ≤ᶠ s.params.minLeafWeight) = true)
    (hgrad : node.gradientSum = 0) (hgain : node.gainValue.NN)
    (hb : ∀ x ∈ node.histograms.data, x.grad = 0 ∧ x.hess.NN)
    {r : Option (SplitInfo (FX m) D)} (h : bestSplit s node cols = .ok r) : r = none := by
  cases r with
  | none => rfl
  | some b =>
    exfalso
    obtain ⟨hpos, j, i, ⟨f, mb, bins, bin, _, hcol, hbin, hev⟩, _⟩ := bestSplit_best h
    obtain ⟨l, r, mi, g, he, hgeq, _, rfl⟩ := evalCandidate_some.1 hev
    have hmem : ∀ x ∈ mb :: bins, x ∈ node.histograms.data := by
      have hsl : ∃ i' j', slice node.histograms.data i' j' = .ok (mb :: bins) := by
        unfold JaggedMatrix.getCol at hcol
        rw [Res.bind_eq_ok] at hcol
        obtain ⟨_, _, hcol⟩ := hcol
        split at hcol
        · rw [Res.ok_bind, Res.bind_eq_ok] at hcol
          obtain ⟨j', _, hcol⟩ := hcol
          exact ⟨_, j', hcol⟩
        · rw [Res.bind_eq_ok] at hcol
          obtain ⟨i', _, hcol⟩ := hcol
          rw [Res.bind_eq_ok] at hcol
          obtain ⟨j', _, hcol⟩ := hcol
          exact ⟨i', j', hcol⟩
      obtain ⟨i', j', hsl⟩ := hsl
      rw [slice_eq_ok] at hsl
      intro x hx
      rw [hsl.2.2] at hx
      exact List.mem_of_mem_drop (List.mem_of_mem_take hx)
    have hm0 := hb _ (hmem mb (by simp))
    have hsum : gradSum (bins.take i) = 0 := by
      unfold gradSum
      have : ∀ x ∈ (bins.take i).map Bin.grad, x = (0 : FX m) := by
        intro x hx
        obtain ⟨y, hy, rfl⟩ := List.mem_map.1 hx
        exact (hb _ (hmem y (List.mem_cons_of_mem _ (List.mem_of_mem_take hy)))).1
      generalize (bins.take i).map Bin.grad = l at this
      induction l with
      | nil => rfl
      | cons a l ih =>
        rw [List.foldl_cons, this a (by simp), FX.zero_add_zero]
        exact ih fun x hx => this x (by simp [hx])
    obtain ⟨a1, a2, a3⟩ := splitter_np hl2 hw hsum
      (by simp only [hsum, hgrad, hm0.1]; rw [FX.zero_sub_zero, FX.zero_sub_zero]) hm0.1 hm0.2 he
    have hnp : g.NP := by
      rw [hgeq]
      refine cullGain_np ?_ _
      unfold SNode.getSplitGain
      refine FX.NP.sub (FX.NP.sub (FX.NP.add (FX.NP.add a1 a2) ?_) hgain) hg
      revert a3
      cases mi <;> exact id
    have : ((0 : FX m) <ᶠ (if isNaN g then 0 else g)) = false := by
      split
      · exact FX.np_fin.2 le_rfl
      · exact hnp
    rw [this] at hpos
    cases hpos

end

/-! ## Histograms and sums -/

section
variable {F D : Type} [Fl F] [Fl D] [FlCast F D]

theorem forall₂_mem_right {α β : Type} {R : α → β → Prop} {l : List α} {l' : List β} (h : List.Forall₂ R l l') :
    ∀ b ∈ l', ∃ a ∈ l, R a b := by
  induction h with
  | nil => simp
  | cons h1 _ ih =>
    intro b hb
    rcases List.mem_cons.1 hb with rfl | hb
    · exact ⟨_, by simp, h1⟩
    · obtain ⟨a, ha, hr⟩ := ih b hb
      exact ⟨a, by simp [ha], hr⟩

/-- All bins of a histogram matrix are sums of elements of the two lists. -/
theorem histogramMatrix_all {P Q : D → Prop} {data : Matrix Nat} {cuts : JaggedMatrix D} {grad hess : List F}
    {index cols : List Nat} {sort : Bool} {mx : JaggedMatrix (Bin F D)}
    (h : histogramMatrix data cuts grad hess index cols sort = .ok mx) (P0 : P 0) (Q0 : Q 0)
    (hP : ∀ a, P a → ∀ x ∈ grad, P (a + up x)) (hQ : ∀ a, Q a → ∀ x ∈ hess, Q (a + up x)) :
    ∀ x ∈ mx.data, ∃ a b, P a ∧ Q b ∧ x.grad = down a ∧ x.hess = down b := by
  obtain ⟨sg, sh, hs, ends, e1, e2, e3, _, rfl⟩ := histogramMatrix_form h
  have hsub : (∀ x ∈ sg, x ∈ grad) ∧ ∀ x ∈ sh, x ∈ hess := by
    have key : ∀ (l out : List F), Res.mapM' (idx l) index = .ok out → ∀ x ∈ out, x ∈ l := by
      intro l out ho x hx
      rw [Res.mapM'_eq_ok] at ho
      obtain ⟨r, _, hr⟩ := forall₂_mem_right ho x hx
      exact List.mem_of_getElem? (idx_eq_ok.1 hr)
    cases sort with
    | true => exact ⟨key _ _ (e1 rfl).1, key _ _ (e1 rfl).2⟩
    | false => rw [(e2 rfl).1, (e2 rfl).2]; exact ⟨fun _ => id, fun _ => id⟩
  intro x hx
  simp only at hx
  obtain ⟨hist, hh, hx⟩ := List.mem_flatten.1 hx
  rw [Res.mapM'_eq_ok] at e3
  obtain ⟨col, _, hc⟩ := forall₂_mem_right e3 hist hh
  simp only [Res.bind_eq_ok] at hc
  obtain ⟨f, _, c, _, hc⟩ := hc
  unfold createFeatureHistogram at hc
  split at hc
  · cases hc
  · simp only [Res.bind_eq_ok, Res.ok.injEq] at hc
    obtain ⟨h1, hf, rfl⟩ := hc
    have hall : ∀ v ∈ h1, P v.grad ∧ Q v.hess := by
      have hinit : ∀ v ∈ (Bin.new (Fl.nan : D) :: (c.take (c.length - 1)).map Bin.new), P v.grad ∧ Q v.hess := by
        intro v hv
        rcases List.mem_cons.1 hv with rfl | hv
        · exact ⟨P0, Q0⟩
        · obtain ⟨y, _, rfl⟩ := List.mem_map.1 hv
          exact ⟨P0, Q0⟩
      have hL : ∀ p ∈ (index.zip (sg.zip sh)).map (fun p => (p.1, p.2.1, p.2.2)), p.2.1 ∈ grad ∧ p.2.2 ∈ hess := by
        intro p hp
        obtain ⟨q, hq, rfl⟩ := List.mem_map.1 hp
        have := List.of_mem_zip (List.of_mem_zip hq).2
        exact ⟨hsub.1 _ this.1, hsub.2 _ this.2⟩
      generalize (index.zip (sg.zip sh)).map (fun p => (p.1, p.2.1, p.2.2)) = L at hf hL
      generalize (Bin.new (Fl.nan : D) :: (c.take (c.length - 1)).map Bin.new) = init at hf hinit
      induction L generalizing init with
      | nil => simp only [Res.foldM', Res.ok.injEq] at hf; subst hf; exact hinit
      | cons p L ih =>
        rw [Res.foldM'_cons, Res.bind_eq_ok] at hf
        obtain ⟨h2, a1, a2⟩ := hf
        simp only [histAdd, Res.bind_eq_ok, Res.ok.injEq] at a1
        obtain ⟨b, _, rfl⟩ := a1
        refine ih (fun p hp => hL p (by simp [hp])) _ a2 ?_
        intro v hv
        obtain ⟨i, hi⟩ := List.mem_iff_getElem?.1 hv
        rw [List.getElem?_modify] at hi
        obtain ⟨v0, hv0, rfl⟩ := Option.map_eq_some_iff.1 hi
        have hv0' := hinit v0 (List.mem_of_getElem? hv0)
        by_cases hb : b = i
        · have := hL p (by simp)
          simp only [hb, if_true]
          exact ⟨hP _ hv0'.1 _ this.1, hQ _ hv0'.2 _ this.2⟩
        · simp only [hb, if_false]; exact hv0'
    obtain ⟨v, hv, rfl⟩ := List.mem_map.1 hx
    exact ⟨v.grad, v.hess, (hall v hv).1, (hall v hv).2, rfl, rfl⟩

theorem foldl_all {P : D → Prop} (hadd : ∀ a b, P a → P b → P (a + b)) : ∀ (l : List D) (a : D), P a → (∀ x ∈ l, P x) →
    P (l.foldl (· + ·) a)
  | [], _, ha, _ => ha
  | x :: l, a, ha, h => foldl_all hadd l (a + x) (hadd _ _ ha (h x (by simp))) fun y hy => h y (by simp [hy])

theorem foldLanes_all {P : D → Prop} (hadd : ∀ a b, P a → P b → P (a + b)) : ∀ (n : Nat) (acc l : List D),
    (∀ x ∈ acc, P x) → (∀ x ∈ l, P x) → (∀ x ∈ (foldLanes n acc l).1, P x) ∧ ∀ x ∈ (foldLanes n acc l).2, P x
  | 0, acc, l, ha, hl => ⟨ha, hl⟩
  | n + 1, acc, l, ha, hl => by
    unfold foldLanes
    split
    · exact ⟨ha, hl⟩
    · refine foldLanes_all hadd n _ _ ?_ fun x hx => hl x (List.mem_of_mem_drop hx)
      intro x hx
      unfold addLanes at hx
      rw [← List.map_uncurry_zip_eq_zipWith] at hx
      obtain ⟨p, hp, rfl⟩ := List.mem_map.1 hx
      obtain ⟨h1, h2⟩ := List.of_mem_zip hp
      exact hadd _ _ (ha _ h1) (hl _ (List.mem_of_mem_take h2))

theorem fastF64Sum_all {P : D → Prop} (P0 : P 0) (hadd : ∀ a b, P a → P b → P (a + b)) {l : List F}
    (hl : ∀ x ∈ l, P (up x)) : ∃ a : D, P a ∧ fastF64Sum (D := D) l = down a := by
  unfold fastF64Sum
  have := foldLanes_all hadd l.length (List.replicate lanes (0 : D)) (l.map (up : F → D))
    (fun x hx => by rw [List.eq_of_mem_replicate hx]; exact P0)
    (fun x hx => by obtain ⟨y, hy, rfl⟩ := List.mem_map.1 hx; exact hl y hy)
  exact ⟨_, hadd _ _ (foldl_all hadd _ _ P0 this.1) (foldl_all hadd _ _ P0 this.2), rfl⟩

theorem rootSums_all {P Q : D → Prop} (P0 : P 0) (Q0 : Q 0) (hP : ∀ a b, P a → P b → P (a + b))
    (hQ : ∀ a b, Q a → Q b → Q (a + b)) {sm : SampleMethod} {grad hess : List F} {index : List Nat} {g h : F}
    {sort : Bool} (hg : ∀ x ∈ grad, P (up x)) (hh : ∀ x ∈ hess, Q (up x))
    (e : rootSums (D := D) sm grad hess index = .ok (g, h, sort)) :
    ∃ a b : D, P a ∧ Q b ∧ g = down a ∧ h = down b := by
  have sampled : ∀ gs hs, Res.mapM' (idx grad) index = .ok gs → Res.mapM' (idx hess) index = .ok hs →
      ∃ a b : D, P a ∧ Q b ∧ (down ((gs.map (up : F → D)).foldl (· + ·) 0) : F) = down a ∧
        (down ((hs.map (up : F → D)).foldl (· + ·) 0) : F) = down b := by
    have key : ∀ (l out : List F), Res.mapM' (idx l) index = .ok out → ∀ x ∈ out, x ∈ l := by
      intro l out ho x hx
      rw [Res.mapM'_eq_ok] at ho
      obtain ⟨r, _, hr⟩ := forall₂_mem_right ho x hx
      exact List.mem_of_getElem? (idx_eq_ok.1 hr)
    intro gs hs h1 h2
    refine ⟨_, _, foldl_all hP (gs.map (up : F → D)) 0 P0 ?_, foldl_all hQ (hs.map (up : F → D)) 0 Q0 ?_, rfl, rfl⟩
    · intro x hx
      obtain ⟨y, hy, rfl⟩ := List.mem_map.1 hx
      exact hg y (key _ _ h1 y hy)
    · intro x hx
      obtain ⟨y, hy, rfl⟩ := List.mem_map.1 hx
      exact hh y (key _ _ h2 y hy)
  cases sm with
  | none =>
    simp only [rootSums, Res.ok.injEq, Prod.mk.injEq] at e
    obtain ⟨a, ha, e1⟩ := fastF64Sum_all P0 hP hg
    obtain ⟨b, hb, e2⟩ := fastF64Sum_all Q0 hQ hh
    exact ⟨a, b, ha, hb, by rw [← e.1, e1], by rw [← e.2.1, e2]⟩
  | random =>
    simp only [rootSums, Res.bind_eq_ok, Res.ok.injEq, Prod.mk.injEq] at e
    obtain ⟨gs, h1, hs, h2, rfl, rfl, _⟩ := e
    exact sampled gs hs h1 h2
  | goss =>
    simp only [rootSums, Res.bind_eq_ok, Res.ok.injEq, Prod.mk.injEq] at e
    obtain ⟨gs, h1, hs, h2, rfl, rfl, _⟩ := e
    exact sampled gs hs h1 h2

end

end Verif
