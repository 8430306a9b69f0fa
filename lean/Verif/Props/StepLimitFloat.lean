import Verif.Props.MonotoneFloat

/-!
# C09 in floating point arithmetic
-/

namespace Verif

open scoped Verif

set_option linter.unusedSectionVars false

section
variable {K : Type} [Field K] [LinearOrder K] [IsStrictOrderedRing K] {m32 m64 : Fmt K}
  [h32 : m32.Rounds] [h64 : m64.Rounds]

/-- If it is a finite number, it is one of the format and its magnitude is at most `d`. -/
def FX.Within (d : K) (x : FX m32) : Prop := x.InFormat ∧ ∀ a, x = FX.fin a → |a| ≤ d

theorem FX.mul_eq_rnd {x y : FX m32} {z : K} (h : x * y = FX.fin z) :
    ∃ a b, x = FX.fin a ∧ y = FX.fin b ∧ m32.rnd (a * b) = .fin z := by
  have hs : ∀ a : K, (FX.sinf a : FX m32) ≠ FX.fin z := by
    intro a ha
    unfold FX.sinf at ha
    split at ha
    · cases ha
    · split at ha <;> cases ha
  cases x <;> cases y <;> first | exact absurd h (hs _) | (cases h) | skip
  rename_i a b
  refine ⟨a, b, rfl, rfl, ?_⟩
  have h : FX.rd (a * b) = (FX.fin z : FX m32) := h
  unfold FX.rd at h
  cases e : m32.rnd (a * b) <;> rw [e] at h <;> cases h
  rfl

theorem FX.within_mid {d : K} {x y : FX m32} (hx : x.Within d) (hy : y.Within d) :
    ((x + y) / Fl.ofNat 2).Within d := by
  refine ⟨FX.div_inFormat _ _, fun a e => ?_⟩
  have e2 : (Fl.ofNat 2 : FX m32) = FX.fin 2 := by
    show FX.rd ((2 : Nat) : K) = _
    unfold FX.rd
    rw [Nat.cast_ofNat, h32.two]; rfl
  rw [e2] at e
  cases es : x + y with
  | nan => rw [es] at e; cases e
  | pinf =>
    rw [es] at e
    have e : (if (0 : K) ≤ 2 then (FX.pinf : FX m32) else FX.ninf) = FX.fin a := e
    split at e <;> cases e
  | ninf =>
    rw [es] at e
    have e : (if (0 : K) ≤ 2 then (FX.ninf : FX m32) else FX.pinf) = FX.fin a := e
    split at e <;> cases e
  | fin s =>
    obtain ⟨p, r, rfl, rfl, hs⟩ := FX.add_eq_fin es
    rw [es] at e
    have e : (FX.fin s / FX.fin 2 : FX m32) = FX.fin a := e
    have e : FX.div (FX.fin s) (FX.fin 2) = (FX.fin a : FX m32) := e
    unfold FX.div at e
    simp only at e
    rw [if_neg two_ne_zero] at e
    unfold FX.rd at e
    have hp := abs_le.1 (hx.2 p rfl)
    have hr := abs_le.1 (hy.2 r rfl)
    have rp : m32.Repr p := hx.1 p rfl
    have rr : m32.Repr r := hy.1 r rfl
    rcases le_total p r with h | h
    · obtain ⟨z, h1, h2, h3⟩ := Fmt.Rounds.mid rp rr h hs
      rw [h1] at e; cases e
      exact abs_le.2 ⟨by linarith, by linarith⟩
    · obtain ⟨z, h1, h2, h3⟩ := Fmt.Rounds.mid rr rp h (by rw [add_comm]; exact hs)
      rw [h1] at e; cases e
      exact abs_le.2 ⟨by linarith, by linarith⟩

theorem withinLaws {p : SplitParams (FX m32)} {d : K} (hd : p.maxDeltaStep = FX.fin d) (hpos : 0 < d)
    (hin : p.maxDeltaStep.InFormat) : RepLaws p (FX.Within (m32 := m32) d) where
  weight x y := by
    refine ⟨(repLaws hin).weight x y, ?_⟩
    unfold weight
    simp only
    rw [hd]
    split
    · intro a e
      have e : (if FX.isNeg _ then FX.neg (FX.abs (FX.fin d)) else FX.abs (FX.fin d)) = (FX.fin a : FX m32) := e
      split at e
      · have e : (FX.fin (-|d|) : FX m32) = FX.fin a := e
        cases e
        rw [abs_neg, abs_abs, abs_of_pos hpos]
      · have e : (FX.fin |d| : FX m32) = FX.fin a := e
        cases e
        rw [abs_abs, abs_of_pos hpos]
    · rename_i hc
      intro a e
      rw [e] at hc
      by_contra hlt
      rw [not_le] at hlt
      refine hc ?_
      have h1 : ((FX.fin d : FX m32) =ᶠ 0) = false := decide_eq_false hpos.ne'
      have h2 : ((FX.fin d : FX m32) <ᶠ Fl.abs (FX.fin a)) = true := decide_eq_true hlt
      rw [h1, h2]
      rfl
  mid x y hx hy := FX.within_mid hx hy
  ninf := ⟨(repLaws hin).ninf, fun _ h => by cases h⟩
  inf := ⟨(repLaws hin).inf, fun _ h => by cases h⟩

/-- **C09** (floating point arithmetic).  With a finite positive `max_delta_step`, every finite node value of a
fitted tree has a magnitude of at most the rounded product `max_delta_step * learning_rate`: sums, quotients,
midpoints and products may be rounded, and rounding never carries a value over the limit.  Any gradients,
hessians, weights and monotone constraints, both splitters; the treatments of missing nodes are those that
do not average. -/
theorem C09_float_tree {c : GrowCfg (FX m32) (FX m64)} {sm : SampleMethod} {rows : List Nat} {t : Tree (FX m32) (FX m64)}
    (hf : Tree.fit c sm rows = .ok t) (ha : c.splitter.NoAverage) {d r : K}
    (hd : c.splitter.params.maxDeltaStep = FX.fin d) (hpos : 0 < d) (hin : m32.Repr d)
    (hlr : c.splitter.params.learningRate = FX.fin r) (hr : 0 ≤ r) :
    ∀ n ∈ t.nodes, ∀ v, n.weightValue = FX.fin v →
      ((FX.fin |v| : FX m32) ≤ᶠ c.splitter.params.maxDeltaStep * c.splitter.params.learningRate) = true := by
  obtain ⟨g, hs', sort, hists, nodes, gs, nL, _, _, hclean, hC, ⟨g0, hg0, eg0, _⟩, _⟩ := Tree.fit_cert hf
  have hnodes : t.nodes = nodes := by
    unfold cleanUpSplits at hclean
    split at hclean
    · cases hclean; rfl
    · rename_i p hp
      rw [if_neg] at hclean
      · cases hclean; rfl
      · rcases ha p hp with h | h <;> rw [h] <;> decide
  have hin' : c.splitter.params.maxDeltaStep.InFormat := by
    rw [hd]; intro a e; cases e; exact hin
  have hL := withinLaws hd hpos hin'
  have hrep := hC.rep ha hL fun g hg => by
    rw [hg0] at hg; cases hg
    rw [eg0]
    exact ⟨hL.weight _ _, hL.ninf, hL.inf⟩
  intro n hn v hv
  rw [hnodes] at hn
  obtain ⟨i, hi⟩ := List.mem_iff_getElem?.1 hn
  obtain ⟨g, hg, hno⟩ : ∃ g, gs[i]? = some g ∧ n.weightValue = g.sn.weightValue * c.splitter.params.learningRate := by
    have hlt : i < gs.length := by
      have := (List.getElem?_eq_some_iff.1 hi).1
      rw [hC.len]; exact this
    obtain ⟨n', hn', hno, _⟩ := hC.nodeOf (List.getElem?_eq_getElem hlt)
    rw [hi] at hn'; cases hn'
    exact ⟨_, List.getElem?_eq_getElem hlt, hno.weight⟩
  rw [hv, hlr] at hno
  obtain ⟨a, b, ea, eb, e⟩ := FX.mul_eq_rnd hno.symm
  cases eb
  have hle := (hrep i g hg).1.2 a ea
  rw [hd, hlr]
  show ((FX.fin |v| : FX m32) ≤ᶠ FX.rd (d * r)) = true
  have h1 : (m32.rnd (a * r)).Le (m32.rnd (d * r)) :=
    h32.mono (mul_le_mul_of_nonneg_right (le_trans (le_abs_self a) hle) hr)
  have h2 : (m32.rnd (-(a * r))).Le (m32.rnd (d * r)) :=
    h32.mono (by rw [← neg_mul]; exact mul_le_mul_of_nonneg_right (le_trans (neg_le_abs a) hle) hr)
  rw [h32.neg] at h2
  rw [e] at h1 h2
  unfold FX.rd
  cases ed : m32.rnd (d * r) with
  | pinf => rfl
  | ninf => rw [ed] at h1; exact h1.elim
  | fin z =>
    rw [ed] at h1 h2
    exact decide_eq_true (abs_le'.2 ⟨h1, h2⟩)

/-- **C09** (boosters, floating point arithmetic).  Every finite node value of every tree of a fitted booster has
a magnitude of at most the rounded product `max_delta_step * learning_rate`. -/
theorem C09_float {R : Type} {env : Env R (FX m32) (FX m64)} {b b' : Booster (FX m32) (FX m64)}
    {X : Matrix (FX m64)} {y w : List (FX m64)} {ev : Option (List (EvalSet (FX m64)))}
    (h : b.fit env X y w ev = .ok (b', .ok ()))
    (ha : b.createMissingBranch = true →
      b.missingNodeTreatment = .none ∨ b.missingNodeTreatment = .assignToParent)
    {d r : K} (hd : b.maxDeltaStep = FX.fin d) (hpos : 0 < d) (hin : m32.Repr d)
    (hlr : b.learningRate = FX.fin r) (hr : 0 ≤ r) :
    ∀ t ∈ b'.trees, ∀ n ∈ t.nodes, ∀ v, n.weightValue = FX.fin v →
      ((FX.fin |v| : FX m32) ≤ᶠ b.maxDeltaStep * b.learningRate) = true := by
  intro t ht
  obtain ⟨binned, _, hfit⟩ := Booster.fit_trees h
  obtain ⟨cfg, rows, hF⟩ := hfit t ht
  have hlr' : cfg.splitter.params.learningRate = b.learningRate := by
    rw [hF.splitter]; unfold Booster.splitter; split <;> rfl
  have hmd : cfg.splitter.params.maxDeltaStep = b.maxDeltaStep := by
    rw [hF.splitter]; unfold Booster.splitter; split <;> rfl
  have hna : cfg.splitter.NoAverage := by
    rw [hF.splitter]
    intro p hp
    unfold Booster.splitter at hp
    split at hp
    · rename_i hc
      cases hp
      exact ha hc
    · cases hp
  have := C09_float_tree hF.fit hna (hmd.trans hd) hpos hin (hlr'.trans hlr) hr
  rw [hmd, hlr'] at this
  exact this

end

/-! ### An example in `f32` and `f64` -/

/-- The booster of C80's example with a step limit of 6.5. -/
def slB : Option (Booster F32 F64) := mfB.map fun b => { b with maxDeltaStep := f32 (65/10) }

/-- The hypotheses of `C09_float` are met: the second tree has two splits, and the limit, a rounded product, is
reached. -/
example : ∃ b b', slB = some b ∧ b.fit floatEnv mfX mfY (List.replicate 4 1) none = .ok (b', .ok ()) ∧
    b.createMissingBranch = false ∧ b.maxDeltaStep = FX.fin (13/2) ∧ f32Fmt.Repr (13/2) ∧
    (∃ r, b.learningRate = FX.fin r ∧ 0 ≤ r) ∧
    b.maxDeltaStep * b.learningRate = FX.fin (8178893/4194304) ∧
    b'.trees.map (fun t => t.nodes.map fun n => n.weightValue) = [[FX.fin (8178893/4194304)],
      [FX.fin (13992199/8388608), FX.fin (5284823/8388608), FX.fin (8178893/4194304),
       FX.fin (-9311357/33554432), FX.fin (10255073/8388608)]] := by
  have : (match slB with
    | some b => match b.fit floatEnv mfX mfY (List.replicate 4 1) none with
      | .ok (b', .ok ()) => decide (b.createMissingBranch = false ∧ b.maxDeltaStep = FX.fin (13/2) ∧
          b.learningRate = f32 (3/10) ∧ b.maxDeltaStep * b.learningRate = FX.fin (8178893/4194304) ∧
          b'.trees.map (fun t => t.nodes.map fun n => n.weightValue) = [[FX.fin (8178893/4194304)],
            [FX.fin (13992199/8388608), FX.fin (5284823/8388608), FX.fin (8178893/4194304),
             FX.fin (-9311357/33554432), FX.fin (10255073/8388608)]])
      | _ => false
    | none => false) = true := by decide +kernel
  split at this
  · rename_i b hb
    split at this
    · rename_i b' h
      obtain ⟨h1, h2, h3, h4, h5⟩ := of_decide_eq_true this
      refine ⟨b, b', hb, h, h1, h2, ?_, ⟨10066330/33554432, ?_, by norm_num⟩, h4, h5⟩
      · unfold Fmt.Repr
        decide +kernel
      · rw [h3]; decide +kernel
    · cases this
  · cases this

end Verif
