import Verif.Proofs.MonotoneAny
import Verif.Proofs.RoundError
import Verif.Props.Growth
import Verif.Props.Predict
import Verif.Props.StepLimit
import Verif.Props.TotalAny

/-!
# C80: monotone constraints in floating point arithmetic
-/

namespace Verif

open scoped Verif

set_option linter.unusedSectionVars false

section
variable {K : Type} [Field K] [LinearOrder K] [IsStrictOrderedRing K] {m32 m64 : Fmt K}
  [h32 : m32.Rounds] [h64 : m64.Rounds]

theorem FX.abs_inFormat {x : FX m32} (h : x.InFormat) : (Fl.abs x).InFormat := by
  intro a e
  cases x with
  | nan => cases e
  | ninf => cases e
  | pinf => cases e
  | fin b =>
    rw [FX.abs_fin] at e
    cases e
    rcases abs_choice b with hb | hb <;> rw [hb]
    · exact h b rfl
    · rw [h32.neg, h b rfl]; rfl

theorem FX.div_inFormat (x y : FX m32) : (x / y).InFormat := by
  intro a e
  have e : FX.div x y = FX.fin a := e
  unfold FX.div at e
  split at e
  · cases e
  · cases e
  · split at e
    · unfold FX.sinf at e
      split at e
      · cases e
      · split at e <;> cases e
    · exact FX.rd_inFormat _ a e
  · cases e; exact h32.zero
  · cases e; exact h32.zero
  · split at e <;> cases e
  · split at e <;> cases e
  · cases e

theorem repLaws {p : SplitParams (FX m32)} (h : p.maxDeltaStep.InFormat) :
    RepLaws p (FX.InFormat (m := m32)) where
  weight x y := by
    unfold weight
    simp only
    split
    · show FX.InFormat (if FX.isNeg _ then FX.neg (FX.abs _) else FX.abs _)
      split
      · exact FX.neg_inFormat (FX.abs_inFormat h)
      · exact FX.abs_inFormat h
    · exact FX.neg_inFormat (FX.div_inFormat _ _)
  mid x y _ _ := FX.div_inFormat _ _
  ninf a h := nomatch h
  inf a h := nomatch h

/-- A finite number of the format. -/
def FX.Plain (x : FX m32) : Prop := ∃ a, x = FX.fin a ∧ m32.rnd a = .fin a

/-- A finite number of the format whose square does not overflow. -/
def FX.Small (x : FX m32) : Prop := ∃ a s, x = FX.fin a ∧ m32.rnd a = .fin a ∧ m32.rnd (a * a) = .fin s

theorem FX.mul_fin_mono {x y : FX m32} {r : K} (hr : 0 < r) (h : (x ≤ᶠ y) = true) :
    ((x * FX.fin r) ≤ᶠ (y * FX.fin r)) = true := by
  have hs : ∀ z : K, (FX.rd z : FX m32) ≠ FX.nan := by
    intro z; unfold FX.rd; cases m32.rnd z <;> exact fun h => nomatch h
  have h1 : ((FX.pinf : FX m32) * FX.fin r) = FX.pinf := by
    show FX.sinf r = _
    unfold FX.sinf; rw [if_pos hr]
  have h2 : ((FX.ninf : FX m32) * FX.fin r) = FX.ninf := by
    show FX.sinf (-r) = _
    unfold FX.sinf; rw [if_neg (by linarith), if_pos (by linarith)]
  have h3 : ∀ z : K, ((FX.ninf : FX m32) ≤ᶠ FX.rd z) = true := by
    intro z; unfold FX.rd; cases m32.rnd z <;> rfl
  have h4 : ∀ z : K, ((FX.rd z : FX m32) ≤ᶠ FX.pinf) = true := by
    intro z; unfold FX.rd; cases m32.rnd z <;> rfl
  cases x with
  | nan => cases h
  | ninf =>
    rw [h2]
    cases y with
    | nan => cases h
    | ninf => rw [h2]; rfl
    | pinf => rw [h1]; rfl
    | fin b => exact h3 _
  | pinf =>
    cases y with
    | pinf => rw [h1]; rfl
    | nan => cases h
    | ninf => cases h
    | fin b => cases h
  | fin a =>
    cases y with
    | nan => cases h
    | ninf => cases h
    | pinf => rw [h1]; exact h4 _
    | fin b =>
      have h : a ≤ b := of_decide_eq_true h
      have := h32.mono (mul_le_mul_of_nonneg_right h hr.le)
      show ((FX.rd (a * r) : FX m32) ≤ᶠ FX.rd (b * r)) = true
      unfold FX.rd
      cases e1 : m32.rnd (a * r) <;> cases e2 : m32.rnd (b * r) <;> rw [e1, e2] at this <;>
        first | rfl | exact this.elim | exact decide_eq_true this

/-- Numbers between numbers that do not overflow do not overflow. -/
theorem Fmt.Rounds.finite {u v s : K} (h : |u| ≤ v) (hs : m32.rnd v = .fin s) : ∃ t, m32.rnd u = .fin t := by
  obtain ⟨h1, h2⟩ := abs_le.1 h
  have hu := h32.mono h2
  have hl := h32.mono h1
  rw [h32.neg, hs] at hl
  rw [hs] at hu
  cases e : m32.rnd u with
  | ninf => rw [e] at hl; exact hl.elim
  | pinf => rw [e] at hu; exact hu.elim
  | fin t => exact ⟨t, rfl⟩

/-- If the squares of two numbers do not overflow, their sum does not. -/
theorem Fmt.Rounds.sum_finite {a b s s' : K} (ha : m32.rnd (a * a) = .fin s) (hb : m32.rnd (b * b) = .fin s') :
    ∃ t, m32.rnd (a + b) = .fin t := by
  have key : ∀ x y s : K, |y| ≤ |x| → m32.rnd (x * x) = .fin s → ∃ t, m32.rnd (x + y) = .fin t := by
    intro x y s hxy hx
    have h1 : |x + y| ≤ 2 * |x| := by
      have := abs_add_le x y
      linarith
    rcases le_total |x| 2 with h2 | h2
    · exact Fmt.Rounds.finite (by linarith : |x + y| ≤ 4) h32.four
    · refine Fmt.Rounds.finite (h1.trans ?_) hx
      rw [← abs_mul_abs_self x]
      exact mul_le_mul_of_nonneg_right h2 (abs_nonneg x)
  rcases le_total |a| |b| with h | h
  · rw [add_comm]; exact key b a _ h hb
  · exact key a b _ h ha

theorem midLaws {r : K} (hr : 0 < r) : MidLaws (FX m32) (FX.fin r) FX.Plain FX.Small where
  low x hx := by obtain ⟨a, rfl, _⟩ := hx; rfl
  high x hx := by obtain ⟨a, rfl, _⟩ := hx; rfl
  zero := rfl
  scale x y h := FX.mul_fin_mono hr h
  mid := by
    rintro x y ⟨a, s, rfl, ra, sa⟩ ⟨b, s', rfl, rb, sb⟩ h
    have h : a ≤ b := of_decide_eq_true h
    obtain ⟨t, ht⟩ := Fmt.Rounds.sum_finite sa sb
    obtain ⟨y, h1, h2, h3⟩ := Fmt.Rounds.mid ra rb h ht
    have e2 : (Fl.ofNat 2 : FX m32) = FX.fin 2 := by
      show FX.rd ((2 : Nat) : K) = _
      unfold FX.rd
      rw [Nat.cast_ofNat, h32.two]; rfl
    have e3 : ((FX.fin a + FX.fin b : FX m32) / Fl.ofNat 2) = FX.fin y := by
      have : (FX.fin a + FX.fin b : FX m32) = FX.fin t := by
        show FX.rd (a + b) = _
        unfold FX.rd; rw [ht]; rfl
      rw [this, e2]
      show (if (2 : K) = 0 then _ else FX.rd (t / 2)) = _
      rw [if_neg two_ne_zero]
      unfold FX.rd; rw [h1]; rfl
    have e4 : (FX.fin b + FX.fin a : FX m32) = FX.fin a + FX.fin b := by
      show FX.rd (b + a) = FX.rd (a + b)
      rw [add_comm]
    rw [e4, e3]
    exact ⟨⟨decide_eq_true h2, decide_eq_true h3⟩, decide_eq_true h2, decide_eq_true h3⟩

/-- NaN or minus infinity. -/
def FX.Bad (x : FX m32) : Prop := x = FX.nan ∨ x = FX.ninf

theorem FX.Bad.add_left {x : FX m32} (h : x.Bad) (y : FX m32) : (x + y).Bad := by
  rcases h with rfl | rfl
  · exact .inl rfl
  · cases y
    · exact .inl rfl
    · exact .inr rfl
    · exact .inr rfl
    · exact .inl rfl

theorem FX.Bad.add_right {x : FX m32} (h : x.Bad) (y : FX m32) : (y + x).Bad := by
  rcases h with rfl | rfl
  · cases y <;> exact .inl rfl
  · cases y
    · exact .inl rfl
    · exact .inr rfl
    · exact .inr rfl
    · exact .inl rfl

theorem FX.Bad.sub {x : FX m32} (h : x.Bad) (y : FX m32) : (x - y).Bad := h.add_left (-y)

theorem FX.Bad.not_pos {x : FX m32} (h : x.Bad) : ((0 : FX m32) <ᶠ x) = false := by
  rcases h with rfl | rfl <;> rfl

/-- A weight whose square overflows makes the score NaN or minus infinity. -/
theorem gain_bad {l2 grad cover : FX m32} {a : K} (hl2 : ((0 : FX m32) ≤ᶠ l2) = true)
    (hc : (cover <ᶠ 0) = false) (ha : ∀ s, m32.rnd (a * a) ≠ .fin s) :
    (gainGivenWeight l2 grad cover (FX.fin a)).Bad := by
  have hsq : (FX.fin a * FX.fin a : FX m32) = FX.pinf := by
    show FX.rd (a * a) = _
    unfold FX.rd
    have := h32.mono (mul_self_nonneg a)
    rw [h32.zero] at this
    cases e : m32.rnd (a * a) with
    | ninf => rw [e] at this; exact this.elim
    | pinf => rfl
    | fin s => exact absurd e (ha s)
  have hsum : (cover + l2 : FX m32) = FX.nan ∨ (cover + l2 : FX m32) = FX.pinf ∨
      ∃ s, 0 ≤ s ∧ (cover + l2 : FX m32) = FX.fin s := by
    cases cover with
    | nan => exact .inl rfl
    | ninf => cases hc
    | pinf =>
      cases l2 with
      | nan => exact .inl rfl
      | ninf => cases hl2
      | pinf => exact .inr (.inl rfl)
      | fin b => exact .inr (.inl rfl)
    | fin c =>
      cases l2 with
      | nan => exact .inl rfl
      | ninf => cases hl2
      | pinf => exact .inr (.inl rfl)
      | fin b =>
        have h1 : 0 ≤ b := of_decide_eq_true hl2
        have h2 : 0 ≤ c := not_lt.1 (of_decide_eq_false hc)
        have := h32.mono (add_nonneg h2 h1)
        rw [h32.zero] at this
        have e : (FX.fin c + FX.fin b : FX m32) = FX.ofRV (m32.rnd (c + b)) := rfl
        rw [e]
        cases hx : m32.rnd (c + b) with
        | ninf => rw [hx] at this; exact this.elim
        | pinf => exact .inr (.inl rfl)
        | fin s => rw [hx] at this; exact .inr (.inr ⟨s, this, rfl⟩)
  have hprod : ((cover + l2) * FX.pinf : FX m32) = FX.nan ∨ ((cover + l2) * FX.pinf : FX m32) = FX.pinf := by
    rcases hsum with h | h | ⟨s, h0, h⟩ <;> rw [h]
    · exact .inl rfl
    · exact .inr rfl
    · have e : (FX.fin s * FX.pinf : FX m32) = FX.sinf s := rfl
      rw [e]
      unfold FX.sinf
      rcases h0.lt_or_eq with h0 | rfl
      · rw [if_pos h0]; exact .inr rfl
      · rw [if_neg (lt_irrefl _), if_neg (lt_irrefl _)]; exact .inl rfl
  unfold gainGivenWeight
  rw [hsq]
  generalize Fl.ofNat 2 * grad * FX.fin a = u
  rcases hprod with h | h <;> rw [h]
  · cases u <;> exact .inl rfl
  · cases u
    · exact .inl rfl
    · exact .inl rfl
    · exact .inr rfl
    · exact .inr rfl

theorem KidGain.small {p : SplitParams (FX m32)} {grad cover weight gain : FX m32}
    (h : KidGain p grad cover weight gain) (hl2 : ((0 : FX m32) ≤ᶠ p.l2) = true)
    (hm : ((0 : FX m32) ≤ᶠ p.minLeafWeight) = true) (hc : (cover <ᶠ p.minLeafWeight) = false)
    (hw : weight.Plain) (hg : ¬ gain.Bad) : weight.Small := by
  obtain ⟨a, rfl, ra⟩ := hw
  by_contra hs
  have ha : ∀ s, m32.rnd (a * a) ≠ .fin s := fun s hs' => hs ⟨a, s, rfl, ra, hs'⟩
  have hc0 : (cover <ᶠ (0 : FX m32)) = false := by
    cases hx : (cover <ᶠ (0 : FX m32))
    · rfl
    · rw [Fl.lt_of_lt_of_le hx hm] at hc; cases hc
  rcases h with rfl | rfl
  · exact hg (gain_bad hl2 hc0 ha)
  · exact hg (.inr rfl)

variable {c : GrowCfg (FX m32) (FX m64)} {sm : SampleMethod} {rows : List Nat} {t : Tree (FX m32) (FX m64)}

/-- **C80** (trees).  In floating point arithmetic: if below every split on a constrained feature all
splits are on constrained features, the values of the leaves of two rows that differ in one constrained
feature only, where both have a value, are ordered as the constraint asks.  Nothing is assumed about the data
and the gradients.  The values of the tree must be finite, the learning rate positive and finite, `l2` and
`min_leaf_weight` not negative, `max_delta_step` a number of the format, and missing branches must not take
averages. -/
theorem C80_tree (hf : Tree.fit c sm rows = .ok t) (ha : c.splitter.NoAverage)
    (hmds : c.splitter.params.maxDeltaStep.InFormat)
    (hl2 : ((0 : FX m32) ≤ᶠ c.splitter.params.l2) = true)
    (hmlw : ((0 : FX m32) ≤ᶠ c.splitter.params.minLeafWeight) = true) {r : K}
    (hlr : c.splitter.params.learningRate = FX.fin r) (hrpos : 0 < r) (hfin : t.FiniteValues)
    (hs : OnlyConstrainedBelow c.splitter.params.getConstraint t.nodes) {f : Nat}
    {row row' : Nat → Option (FX m64)} {msg : FX m64}
    (hr : Comparable c.splitter.params.getConstraint msg f row row') {l l' : Node (FX m32) (FX m64)}
    (hl : Route t.nodes row msg 0 l) (hl' : Route t.nodes row' msg 0 l') :
    (l.weightValue ≤ᶠ l'.weightValue) = true := by
  obtain ⟨g, hs', sort, hists, nodes, gs, nL, _, _, hclean, hC, ⟨g0, hg0, eg0, _⟩, _⟩ := Tree.fit_cert hf
  have hnodes : t.nodes = nodes := by
    unfold cleanUpSplits at hclean
    split at hclean
    · cases hclean; rfl
    · rename_i p hp
      rw [if_neg] at hclean
      · cases hclean; rfl
      · rcases ha p hp with h | h <;> rw [h] <;> decide
  have hroot : ∀ g, gs[0]? = some g → g.sn.lowerBound = ninf ∧ g.sn.upperBound = inf ∧
      g.sn.weightValue.InFormat := by
    intro g hg
    rw [hg0] at hg; cases hg
    rw [eg0]
    refine ⟨rfl, rfl, ?_⟩
    exact (repLaws hmds).weight _ _
  have hrep := hC.rep ha (repLaws hmds) fun g hg => by
    obtain ⟨h1, h2, h3⟩ := hroot g hg
    rw [h1, h2]
    exact ⟨h3, (repLaws hmds).ninf, (repLaws hmds).inf⟩
  have hplain : ∀ (i : Nat) (g : Ghost (FX m32) (FX m64)), gs[i]? = some g → g.sn.weightValue.Plain := by
    intro i g hg
    obtain ⟨n, hn, hno, _⟩ := hC.nodeOf hg
    have hmem : n ∈ t.nodes := by rw [hnodes]; exact List.mem_of_getElem? hn
    obtain ⟨x, hx⟩ := hfin n hmem
    have hw := hno.weight
    rw [hx, hlr] at hw
    have hin := (hrep i g hg).1
    cases e : g.sn.weightValue with
    | fin a => exact ⟨a, rfl, hin a e⟩
    | nan => rw [e] at hw; cases hw
    | ninf =>
      rw [e] at hw
      have hw : FX.fin x = (FX.sinf (-r) : FX m32) := hw
      unfold FX.sinf at hw
      rw [if_neg (by linarith), if_pos (by linarith)] at hw
      cases hw
    | pinf =>
      rw [e] at hw
      have hw : FX.fin x = (FX.sinf r : FX m32) := hw
      unfold FX.sinf at hw
      rw [if_pos hrpos] at hw
      cases hw
  have hL : MidLaws (FX m32) c.splitter.params.learningRate FX.Plain FX.Small := by
    rw [hlr]; exact midLaws hrpos
  have hsmall : ∀ (i : Nat) (n : Node (FX m32) (FX m64)), nodes[i]? = some n → n.isLeaf = false →
      ∀ gl gr, gs[n.leftChild]? = some gl → gs[n.rightChild]? = some gr →
      gl.sn.weightValue.Small ∧ gr.sn.weightValue.Small := by
    intro i n hn hleaf gl gr hgl hgr
    obtain ⟨g, info, k, kids, hI⟩ := hC.internal (SameShape.refl _) hn hleaf
    obtain ⟨lg, rg, x, y, z, hpos, ⟨k1, c1⟩, k2, c2⟩ := hI.kidGain rfl hgl hgr
    refine ⟨k1.small hl2 hmlw c1 (hplain _ _ hgl) fun hb => ?_,
      k2.small hl2 hmlw c2 (hplain _ _ hgr) fun hb => ?_⟩
    · rw [((((hb.add_left rg).add_left x).sub y).sub z).not_pos] at hpos; cases hpos
    · rw [((((hb.add_right lg).add_left x).sub y).sub z).not_pos] at hpos; cases hpos
  rw [hnodes] at hs hl hl'
  obtain ⟨a1, a2, a3⟩ := hC.allowed ha hL (fun g hg => ⟨(hroot g hg).1, (hroot g hg).2.1⟩) hplain hsmall hs
  refine Route.ordered a1 a2 a3 ?_ hr 0 l l' hl hl'
  rintro i x ⟨g, y, _, hy, rfl⟩
  have hy := (Fl.OrdLaws.le_num _ _ hy.1).2
  exact (Fl.OrdLaws.le_num _ _ (hL.scale y y (Fl.le_refl hy))).1

/-- Adding ordered finite numbers to ordered numbers. -/
theorem FX.add_mono {a a' : FX m64} {x x' : K} (h : (a ≤ᶠ a') = true) (hx : x ≤ x') :
    ((a + FX.fin x) ≤ᶠ (a' + FX.fin x')) = true := by
  have h3 : ∀ z : K, ((FX.ninf : FX m64) ≤ᶠ FX.rd z) = true := by
    intro z; unfold FX.rd; cases m64.rnd z <;> rfl
  have h4 : ∀ z : K, ((FX.rd z : FX m64) ≤ᶠ FX.pinf) = true := by
    intro z; unfold FX.rd; cases m64.rnd z <;> rfl
  cases a with
  | nan => cases h
  | ninf =>
    cases a' with
    | nan => cases h
    | ninf => rfl
    | pinf => rfl
    | fin b => exact h3 _
  | pinf =>
    cases a' with
    | pinf => rfl
    | nan => cases h
    | ninf => cases h
    | fin b => cases h
  | fin a =>
    cases a' with
    | nan => cases h
    | ninf => cases h
    | pinf => exact h4 _
    | fin b =>
      have h : a ≤ b := of_decide_eq_true h
      have := h64.mono (add_le_add h hx)
      show ((FX.rd (a + x) : FX m64) ≤ᶠ FX.rd (b + x')) = true
      unfold FX.rd
      cases e1 : m64.rnd (a + x) <;> cases e2 : m64.rnd (b + x') <;> rw [e1, e2] at this <;>
        first | rfl | exact this.elim | exact decide_eq_true this

/-- **C80** (boosters).  In floating point arithmetic: if in every tree all splits below splits on
constrained features are on constrained features, the predictions for any two rows of any data that differ
in one constrained feature only, where both have a value, are ordered as the constraint asks.  The base
score must not be NaN, and the conditions of `C80_tree` must hold. -/
theorem C80_booster {R : Type} {env : Env R (FX m32) (FX m64)} {b b' : Booster (FX m32) (FX m64)}
    {X : Matrix (FX m64)} {y w : List (FX m64)} {ev : Option (List (EvalSet (FX m64)))}
    (h : b.fit env X y w ev = .ok (b', .ok ()))
    (ha : b.createMissingBranch = true →
      b.missingNodeTreatment = .none ∨ b.missingNodeTreatment = .assignToParent)
    (hmds : b.maxDeltaStep.InFormat) (hl2 : ((0 : FX m32) ≤ᶠ b.l2) = true)
    (hmlw : ((0 : FX m32) ≤ᶠ b.minLeafWeight) = true) {r : K} (hlr : b.learningRate = FX.fin r) (hrpos : 0 < r)
    (hfin : ∀ t ∈ b'.trees, t.FiniteValues) (hbase : isNaN b'.baseScore = false)
    (hs : ∀ t ∈ b'.trees, OnlyConstrainedBelow (fun f => b.constraintsMap.lookup f) t.nodes)
    (data : Matrix (FX m64)) (out : List (FX m64)) (hout : b'.predict data = .ok out) (f i j : Nat)
    (hr : Comparable (fun f => b.constraintsMap.lookup f) b'.missing f (data.entry i) (data.entry j))
    (hi : i < data.rows) (hj : j < data.rows) :
    ∃ v v', out[i]? = some v ∧ out[j]? = some v' ∧ (v ≤ᶠ v') = true := by
  rw [C19_prediction_iteration] at hout
  obtain ⟨_, hlen, hp⟩ := hout
  have ho1 : out[i]? = some out[i] := List.getElem?_eq_getElem (by omega)
  have ho2 : out[j]? = some out[j] := List.getElem?_eq_getElem (by omega)
  obtain ⟨ls, hl, e1⟩ := hp i _ ho1
  obtain ⟨ls', hl', e2⟩ := hp j _ ho2
  refine ⟨_, _, ho1, ho2, ?_⟩
  rw [e1, e2]
  obtain ⟨binned, _, hfit⟩ := Booster.fit_trees h
  have key : ∀ (ts : List (Tree (FX m32) (FX m64))), (∀ t ∈ ts, t ∈ b'.trees) →
      ∀ (ls ls' : List (Node (FX m32) (FX m64))), Leaves ts (data.entry i) b'.missing ls →
      Leaves ts (data.entry j) b'.missing ls' → ∀ a a' : FX m64, (a ≤ᶠ a') = true →
      (ls.foldl (fun acc (l : Node (FX m32) (FX m64)) => acc + up l.weightValue) a ≤ᶠ
        ls'.foldl (fun acc (l : Node (FX m32) (FX m64)) => acc + up l.weightValue) a') = true := by
    intro ts hts ls ls' hl
    unfold Leaves at hl ⊢
    induction hl generalizing ls' with
    | nil =>
      intro hl'
      cases hl'
      exact fun a a' h => h
    | @cons t l ts ls h1 _ ih =>
      intro hl' a a' haa
      cases hl' with
      | @cons _ l' _ ls' h2 h3 =>
        refine ih (fun t ht => hts t (by simp [ht])) _ h3 _ _ ?_
        have htm := hts t (by simp)
        obtain ⟨cfg, rows, hF⟩ := hfit t htm
        have hcon : cfg.splitter.params.getConstraint = fun f => b.constraintsMap.lookup f := by
          rw [hF.splitter]
          funext g
          unfold Booster.splitter
          split <;> rfl
        have hlr' : cfg.splitter.params.learningRate = b.learningRate := by
          rw [hF.splitter]; unfold Booster.splitter; split <;> rfl
        have hl2' : cfg.splitter.params.l2 = b.l2 := by
          rw [hF.splitter]; unfold Booster.splitter; split <;> rfl
        have hmlw' : cfg.splitter.params.minLeafWeight = b.minLeafWeight := by
          rw [hF.splitter]; unfold Booster.splitter; split <;> rfl
        have hmd : cfg.splitter.params.maxDeltaStep = b.maxDeltaStep := by
          rw [hF.splitter]; unfold Booster.splitter; split <;> rfl
        have hna : cfg.splitter.NoAverage := by
          rw [hF.splitter]
          intro p hp
          unfold Booster.splitter at hp
          split at hp
          · rename_i hc
            cases hp
            exact ha hc
          · cases hp
        have hle := C80_tree hF.fit hna (by rw [hmd]; exact hmds) (by rw [hl2']; exact hl2)
          (by rw [hmlw']; exact hmlw) (hlr'.trans hlr) hrpos (hfin t htm)
          (by rw [hcon]; exact hs t htm) (by rw [hcon]; exact hr) h1 h2
        obtain ⟨x, hx⟩ := hfin t htm l h1.mem.1
        obtain ⟨x', hx'⟩ := hfin t htm l' h2.mem.1
        show ((a + up l.weightValue) ≤ᶠ (a' + up l'.weightValue)) = true
        rw [hx, hx'] at hle ⊢
        exact FX.add_mono haa (of_decide_eq_true hle)
  exact key _ (fun t ht => List.mem_of_mem_take ht) ls ls' hl hl' _ _ (Fl.le_refl hbase)

/-- **C80** (boosters, all splits constrained).  The condition on the trees holds in particular if every
feature that a tree splits on is constrained. -/
theorem C80_all_constrained {R : Type} {env : Env R (FX m32) (FX m64)} {b b' : Booster (FX m32) (FX m64)}
    {X : Matrix (FX m64)} {y w : List (FX m64)} {ev : Option (List (EvalSet (FX m64)))}
    (h : b.fit env X y w ev = .ok (b', .ok ()))
    (ha : b.createMissingBranch = true →
      b.missingNodeTreatment = .none ∨ b.missingNodeTreatment = .assignToParent)
    (hmds : b.maxDeltaStep.InFormat) (hl2 : ((0 : FX m32) ≤ᶠ b.l2) = true)
    (hmlw : ((0 : FX m32) ≤ᶠ b.minLeafWeight) = true) {r : K} (hlr : b.learningRate = FX.fin r) (hrpos : 0 < r)
    (hfin : ∀ t ∈ b'.trees, t.FiniteValues) (hbase : isNaN b'.baseScore = false)
    (hs : ∀ t ∈ b'.trees, ∀ n ∈ t.nodes, n.isLeaf = false →
      Constrained (b.constraintsMap.lookup n.splitFeature))
    (data : Matrix (FX m64)) (out : List (FX m64)) (hout : b'.predict data = .ok out) (f i j : Nat)
    (hr : Comparable (fun f => b.constraintsMap.lookup f) b'.missing f (data.entry i) (data.entry j))
    (hi : i < data.rows) (hj : j < data.rows) :
    ∃ v v', out[i]? = some v ∧ out[j]? = some v' ∧ (v ≤ᶠ v') = true :=
  C80_booster h ha hmds hl2 hmlw hlr hrpos hfin hbase
    (fun t ht _ _ _ n' _ _ _ _ hn' hl' => hs t ht n' (List.mem_of_getElem? hn') hl') data out hout f i j hr hi hj

end

/-! ### An example in `f32` and `f64` -/

/-- Two features, four rows. -/
def mfX : Matrix F64 :=
  { data := [f64 0, f64 0, f64 1, f64 1, f64 0, f64 1, f64 0, f64 1], rows := 4, cols := 2 }

/-- Targets with rounding errors. -/
def mfY : List F64 := [f64 (1/10), f64 (101/10), f64 (203/10), f64 (51/10)]

/-- A default booster, except for: squared loss, two trees, learning rate 0.3 (rounded), both features
constrained. -/
def mfB : Option (Booster F32 F64) :=
  (Booster.default F32 F64).map fun b =>
    { b with objectiveType := .squaredLoss, iterations := 2, baseScore := 0, initializeBaseScore := false
             learningRate := f32 (3/10), minLeafWeight := 1, l2 := 1
             monotoneConstraints := some [(0, .positive), (1, .positive)] }

/-- Numbers strictly between the infinities are finite. -/
theorem FX.isFin_of_lt {K : Type} [Field K] [LinearOrder K] {m : Fmt K} {x : FX m}
    (h : (ninf <ᶠ x) = true ∧ (x <ᶠ inf) = true) : x.IsFin := by
  cases x with
  | fin a => exact ⟨a, rfl⟩
  | nan => cases h.1
  | ninf => cases h.1
  | pinf => cases h.2

/-- The hypotheses of C80 are met, with sums and products that are rounded: both features are split on, and rows
1 and 3, which differ in the first feature only, are predicted differently. -/
example : ∃ b b' out, mfB = some b ∧ b.fit floatEnv mfX mfY (List.replicate 4 1) none = .ok (b', .ok ()) ∧
    b.createMissingBranch = false ∧ b.maxDeltaStep.InFormat ∧ ((0 : F32) ≤ᶠ b.l2) = true ∧
    ((0 : F32) ≤ᶠ b.minLeafWeight) = true ∧ (∃ r, b.learningRate = FX.fin r ∧ 0 < r) ∧
    (∀ t ∈ b'.trees, t.FiniteValues) ∧ isNaN b'.baseScore = false ∧
    (∀ t ∈ b'.trees, ∀ n ∈ t.nodes, n.isLeaf = false →
      Constrained (b.constraintsMap.lookup n.splitFeature)) ∧
    (b'.trees.flatMap fun t => (t.nodes.filter fun n => !n.isLeaf).map fun n => n.splitFeature) = [0, 1] ∧
    b'.predict mfX = .ok out ∧
    Comparable (fun f => b.constraintsMap.lookup f) b'.missing 0 (mfX.entry 1) (mfX.entry 3) ∧
    out = [FX.fin (30712371/16777216), FX.fin (6984775/2097152), FX.fin (2227595/524288),
      FX.fin (2227595/524288)] := by
  have : (match mfB with
    | some b => match b.fit floatEnv mfX mfY (List.replicate 4 1) none with
      | .ok (b', .ok ()) => decide (b'.predict mfX = .ok [FX.fin (30712371/16777216), FX.fin (6984775/2097152),
            FX.fin (2227595/524288), FX.fin (2227595/524288)] ∧ b'.missing = FX.nan ∧
          b.createMissingBranch = false ∧ b.maxDeltaStep = 0 ∧ b.l2 = 1 ∧ b.minLeafWeight = 1 ∧
          b.learningRate = f32 (3/10) ∧ b'.baseScore = 0 ∧
          b.constraintsMap.lookup 0 = some .positive ∧
          (b'.trees.flatMap fun t => (t.nodes.filter fun n => !n.isLeaf).map fun n => n.splitFeature) = [0, 1] ∧
          (∀ t ∈ b'.trees, ∀ n ∈ t.nodes, (ninf <ᶠ n.weightValue) = true ∧ (n.weightValue <ᶠ inf) = true) ∧
          ∀ t ∈ b'.trees, ∀ n ∈ t.nodes, n.isLeaf = false →
            (b.constraintsMap.lookup n.splitFeature = some .positive ∨
              b.constraintsMap.lookup n.splitFeature = some .negative))
      | _ => false
    | none => false) = true := by decide +kernel
  split at this
  · rename_i b hb
    split at this
    · rename_i b' h
      obtain ⟨h1, h2, h3, h4, h5, h6, h7, h8, h9, h10, h11, h12⟩ := of_decide_eq_true this
      refine ⟨b, b', _, hb, h, h3, ?_, ?_, ?_, ⟨10066330/33554432, ?_, by norm_num⟩, ?_, ?_, h12, h10, h1, ?_, rfl⟩
      · rw [h4]
        intro a e
        cases e
        exact Fmt.Rounds.zero
      · rw [h5]; decide +kernel
      · rw [h6]; decide +kernel
      · rw [h7]; decide +kernel
      · exact fun t ht n hn => FX.isFin_of_lt (h11 t ht n hn)
      · rw [h8]; rfl
      · rw [h2]
        refine ⟨fun g hg => ?_, f64 0, f64 1, rfl, rfl, by decide +kernel, by decide +kernel,
          .inl ⟨h9, by decide +kernel⟩⟩
        match g, hg with
        | 1, _ => rfl
        | n + 2, _ =>
          unfold Matrix.entry
          rw [List.getElem?_eq_none, List.getElem?_eq_none]
          · show 8 ≤ (n + 2) * 4 + 3
            omega
          · show 8 ≤ (n + 2) * 4 + 1
            omega
    · cases this
  · cases this

end Verif
