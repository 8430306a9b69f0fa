import Verif.Props.Additive
import Verif.Props.StepLimit

/-!
# C144: Shapley contributions are bounded by the spread of the leaf values
-/

set_option linter.unusedSectionVars false

namespace Verif

open scoped Verif BigOperators Nat

/-- Some split of the tree is on feature `f`. -/
def Tree.tests {F D : Type} (t : Tree F D) (f : Nat) : Bool :=
  t.nodes.any fun n => !n.isLeaf && n.splitFeature == f

section
variable {K : Type} [Field K] [LinearOrder K] [IsStrictOrderedRing K] {m32 m64 : Fmt K}
  [m32.Exact] [m64.Exact]
variable {t : Tree (FX m32) (FX m64)} {missing : FX m64}

/-- The values of all leaves of the tree are between `lo` and `hi`. -/
def Tree.LeavesWithin (t : Tree (FX m32) (FX m64)) (lo hi : K) : Prop :=
  ∀ n ∈ t.nodes, n.isLeaf = true → ∀ w, n.weightValue = .fin w → lo ≤ w ∧ w ≤ hi

/-- Expectations lie between the values of the leaves. -/
theorem CondExp.within (hs : t.SplitCovers) (ho : t.CoversOk) (ha : t.CoversAdd) {lo hi : K}
    (hl : t.LeavesWithin lo hi) {row : Nat → Option (FX m64)} {S : Finset Nat} {i : Nat} {e : K}
    (h : CondExp t.nodes row missing S i e) : lo ≤ e ∧ e ≤ hi := by
  have nonneg : ∀ {j : Nat} {n : Node (FX m32) (FX m64)} {x : K}, t.nodes[j]? = some n → n.hessianSum = .fin x →
      0 ≤ x := by
    intro j n x h1 h2
    obtain ⟨c, e, hc⟩ := hs.1 n (List.mem_of_getElem? h1)
    rw [h2] at e
    cases e
    exact hc
  have pos : ∀ {j : Nat} {n : Node (FX m32) (FX m64)} {x : K}, t.nodes[j]? = some n → n.isLeaf = false →
      n.hessianSum = .fin x → 0 < x := by
    intro j n x h1 h2 h3
    obtain ⟨c, e, hc⟩ := ho n (List.mem_of_getElem? h1)
    rw [h3] at e
    cases e
    exact lt_of_le_of_ne (nonneg h1 h3) (Ne.symm (hc h2))
  induction h with
  | leaf h1 h2 h3 => exact hl _ (List.mem_of_getElem? h1) h2 _ h3
  | known _ _ _ _ _ _ ih => exact ih
  | @two i n l r h hl hr a b h1 h2 h3 h4 h5 h6 h7 h8 h9 _ _ ih1 ih2 =>
    have hp := pos h1 h2 h7
    have hsum := (ha n (List.mem_of_getElem? h1) h2 l r h5 h6).1 h4
    rw [h7, h8, h9] at hsum
    have hsum : h = hl + hr := hsum
    have p1 := div_nonneg (nonneg h5 h8) hp.le
    have p2 := div_nonneg (nonneg h6 h9) hp.le
    have one : hl / h + hr / h = 1 := by rw [← add_div, ← hsum, div_self hp.ne']
    have q1 := mul_nonneg p1 (sub_nonneg.2 ih1.1)
    have q2 := mul_nonneg p2 (sub_nonneg.2 ih2.1)
    have q4 := mul_nonneg p1 (sub_nonneg.2 ih1.2)
    have q5 := mul_nonneg p2 (sub_nonneg.2 ih2.2)
    constructor
    · have : lo = (hl / h + hr / h) * lo := by rw [one, one_mul]
      linarith
    · have : hi = (hl / h + hr / h) * hi := by rw [one, one_mul]
      linarith
  | @three i n l r m h hl hr hm a b c h1 h2 h3 h4 h5 h6 h7 h8 h9 h10 h11 h12 _ _ _ ih1 ih2 ih3 =>
    have hp := pos h1 h2 h9
    have hsum := (ha n (List.mem_of_getElem? h1) h2 l r h6 h7).2 m h4 h5 h8
    rw [h9, h10, h11, h12] at hsum
    have hsum : h = hl + hr + hm := hsum
    have p1 := div_nonneg (nonneg h6 h10) hp.le
    have p2 := div_nonneg (nonneg h7 h11) hp.le
    have p3 := div_nonneg (nonneg h8 h12) hp.le
    have one : hl / h + hr / h + hm / h = 1 := by rw [← add_div, ← add_div, ← hsum, div_self hp.ne']
    have q1 := mul_nonneg p1 (sub_nonneg.2 ih1.1)
    have q2 := mul_nonneg p2 (sub_nonneg.2 ih2.1)
    have q3 := mul_nonneg p3 (sub_nonneg.2 ih3.1)
    have q4 := mul_nonneg p1 (sub_nonneg.2 ih1.2)
    have q5 := mul_nonneg p2 (sub_nonneg.2 ih2.2)
    have q6 := mul_nonneg p3 (sub_nonneg.2 ih3.2)
    constructor
    · have : lo = (hl / h + hr / h + hm / h) * lo := by rw [one, one_mul]
      linarith
    · have : hi = (hl / h + hr / h + hm / h) * hi := by rw [one, one_mul]
      linarith

theorem cw_nonneg (m s : Nat) : (0 : K) ≤ cw m s := by
  unfold cw
  positivity

/-- Bounds for what a player adds bound its Shapley value. -/
theorem shapleyValue_between {N : Finset Nat} {f : Nat} (hf : f ∈ N) (v : Finset Nat → K) (x y : K)
    (h : ∀ U ⊆ N.erase f, x ≤ v (insert f U) - v U ∧ v (insert f U) - v U ≤ y) :
    x ≤ shapleyValue N v f ∧ shapleyValue N v f ≤ y := by
  have e1 : shapleyValue N (fun U => if f ∈ U then x else 0) f = x := by
    refine shapleyValue_const hf _ x fun U hU => ?_
    have : f ∉ U := fun h => by simpa using hU h
    simp [this]
  have e2 : shapleyValue N (fun U => if f ∈ U then y else 0) f = y := by
    refine shapleyValue_const hf _ y fun U hU => ?_
    have : f ∉ U := fun h => by simpa using hU h
    simp [this]
  constructor
  · rw [← e1, shapleyValue_eq hf, shapleyValue_eq hf]
    refine Finset.sum_le_sum fun U hU => mul_le_mul_of_nonneg_left ?_ (cw_nonneg _ _)
    have hU := Finset.mem_powerset.1 hU
    have : f ∉ U := fun h => by simpa using hU h
    simpa [this] using (h U hU).1
  · rw [← e2, shapleyValue_eq hf, shapleyValue_eq hf]
    refine Finset.sum_le_sum fun U hU => mul_le_mul_of_nonneg_left ?_ (cw_nonneg _ _)
    have hU := Finset.mem_powerset.1 hU
    have : f ∉ U := fun h => by simpa using hU h
    simpa [this] using (h U hU).2

/-- In the game of one tree. -/
theorem shapleyValue_spread (hs : t.SplitCovers) (ho : t.CoversOk) (ha : t.CoversAdd) {lo hi : K}
    (hl : t.LeavesWithin lo hi) {row : Nat → Option (FX m64)} {E : Finset Nat → K}
    (hE : ∀ U, CondExp t.nodes row missing U 0 (E U)) {N : Finset Nat} {f : Nat} (hf : f ∈ N) :
    |shapleyValue N E f| ≤ if t.tests f then hi - lo else 0 := by
  split
  · have := shapleyValue_between hf E (-(hi - lo)) (hi - lo) fun U _ => by
      have h1 := (hE (insert f U)).within hs ho ha hl
      have h2 := (hE U).within hs ho ha hl
      constructor <;> linarith [h1.1, h1.2, h2.1, h2.2]
    exact abs_le.2 this
  · rename_i hn
    have : shapleyValue N E f = 0 := by
      refine shapleyValue_const hf E 0 fun U _ => ?_
      rw [sub_eq_zero]
      refine ((hE (insert f U)).congr (V := U) fun n hn' hl' => ?_).unique (hE U)
      rw [Finset.mem_insert, or_iff_right]
      intro e
      refine hn ?_
      unfold Tree.tests
      exact List.any_eq_true.2 ⟨n, hn', by simp [hl', e]⟩
    rw [this, abs_zero]

theorem sum_spread {α β : Type} {P : α → β → Prop} {g : β → K} {bd : α → K} : ∀ {as : List α} {bs : List β},
    List.Forall₂ P as bs → (∀ a ∈ as, ∀ b, P a b → |g b| ≤ bd a) → |(bs.map g).sum| ≤ (as.map bd).sum
  | _, _, .nil, _ => by simp
  | _, _, .cons h1 h2, h => by
    rw [List.map_cons, List.map_cons, List.sum_cons, List.sum_cons]
    refine (abs_add_le _ _).trans (add_le_add (h _ (by simp) _ h1) (sum_spread h2 fun a ha => h a (by simp [ha])))

theorem sum_between {α β : Type} {P : α → β → Prop} {g : β → K} {lo hi : α → K} : ∀ {as : List α} {bs : List β},
    List.Forall₂ P as bs → (∀ a ∈ as, ∀ b, P a b → lo a ≤ g b ∧ g b ≤ hi a) →
    (as.map lo).sum ≤ (bs.map g).sum ∧ (bs.map g).sum ≤ (as.map hi).sum
  | _, _, .nil, _ => by simp
  | _, _, .cons h1 h2, h => by
    have h3 := sum_between h2 fun a ha => h a (by simp [ha])
    have h4 := h _ (by simp) _ h1
    simp only [List.map_cons, List.sum_cons]
    exact ⟨add_le_add h4.1 h3.1, add_le_add h4.2 h3.2⟩

/-- **C144.** Exact arithmetic.  If the leaf values of tree `t` are between `lo t` and `hi t`, then the Shapley
contribution of a feature is in absolute value at most the sum of `hi t - lo t` over the trees in use which test
the feature, and the bias lies between the base score plus the sum of all `lo t` and the base score plus the sum
of all `hi t`. -/
theorem C144_bound (b : Booster (FX m32) (FX m64)) (hE : b.Explainable) (data : Matrix (FX m64)) (hd : data.Shaped)
    (hr : ∀ t ∈ b.trees, ∀ i < data.rows, t.RowReadable (data.entry i) b.missing) (hu : b.used ≤ b.trees.length)
    (base : K) (hb : b.baseScore = .fin base) (lo hi : Tree (FX m32) (FX m64) → K)
    (hl : ∀ t ∈ b.trees, t.LeavesWithin (lo t) (hi t)) :
    ∃ rows : List (List K), b.predictContributions data .shapley = .ok (rows.flatten.map FX.fin) ∧
      rows.length = data.rows ∧
      ∀ (i : Nat) (r : List K), rows[i]? = some r → ∃ (s : List K) (bias : K), r = s ++ [bias] ∧
        s.length = data.cols ∧
        (∀ f x, s[f]? = some x →
          |x| ≤ ((b.trees.take b.used).map fun t => if t.tests f then hi t - lo t else 0).sum) ∧
        base + ((b.trees.take b.used).map lo).sum ≤ bias ∧ bias ≤ base + ((b.trees.take b.used).map hi).sum := by
  have hmem : ∀ t, t ∈ b.trees.take b.used → t ∈ b.trees := fun t ht => List.mem_of_mem_take ht
  obtain ⟨rows, e, hlen, H⟩ := C16_shapley b data hd hE.wf hE.values hE.covers hr hu base hb
  refine ⟨rows, e, hlen, fun i r hi' => ?_⟩
  obtain ⟨h1, games, h2, h3, h4⟩ := H i r hi'
  refine ⟨r.take data.cols, base + (games.map fun E => E ∅).sum, ?_, by simp [h1], fun f x hx => ?_, ?_⟩
  · have hlt : data.cols < r.length := by omega
    have hget : r[data.cols] = base + (games.map fun E => E ∅).sum := by
      rw [List.getElem?_eq_getElem hlt] at h4
      exact Option.some.inj h4
    conv_lhs => rw [← List.take_append_drop data.cols r]
    rw [List.drop_eq_getElem_cons hlt, hget, List.drop_eq_nil_of_le (by omega)]
  · obtain ⟨hf, _⟩ := List.getElem?_eq_some_iff.1 hx
    rw [List.length_take] at hf
    have hf : f < data.cols := by omega
    rw [List.getElem?_take_of_lt hf, h3 f hf] at hx
    cases hx
    exact sum_spread h2 fun t ht E hEt => shapleyValue_spread (hE.split t (hmem t ht)) (hE.covers t (hmem t ht))
      (hE.add t (hmem t ht)) (hl t (hmem t ht)) hEt (Finset.mem_range.2 hf)
  · have := sum_between (lo := lo) (hi := hi) (g := fun E => E ∅) h2 fun t ht E hEt =>
      (hEt ∅).within (hE.split t (hmem t ht)) (hE.covers t (hmem t ht)) (hE.add t (hmem t ht)) (hl t (hmem t ht))
    exact ⟨by linarith [this.1], by linarith [this.2]⟩

/-- **C144** for fitted models.  Exact arithmetic.  With `max_delta_step = mds > 0` and the learning rate `lr` no
Shapley contribution of a feature exceeds `2 lr mds` times the number of trees in use which test the feature, for
any new data with at least the columns of the training data. -/
theorem C144_fitted {R : Type} {env : Env R (FX m32) (FX m64)} {b b' : Booster (FX m32) (FX m64)}
    {X : Matrix (FX m64)} {y w : List K} {ev : Option (List (EvalSet (FX m64)))} {l1 l2 mds lr : K}
    (h : PlainFit env b X y w ev b' l1 l2 mds lr) (hm : 0 < mds) (hlr : 0 ≤ lr) (data : Matrix (FX m64))
    (hd : data.Shaped) (hcols : X.cols ≤ data.cols) (hread : ∀ v ∈ data.data, Readable b.missing v)
    (hu : b'.used ≤ b'.trees.length) :
    ∃ rows : List (List K), b'.predictContributions data .shapley = .ok (rows.flatten.map FX.fin) ∧
      rows.length = data.rows ∧
      ∀ (i : Nat) (r : List K), rows[i]? = some r → ∃ (s : List K) (bias : K), r = s ++ [bias] ∧
        s.length = data.cols ∧
        ∀ f x, s[f]? = some x → |x| ≤ ((b'.trees.take b'.used).filter fun t => t.tests f).length * (2 * (lr * mds)) := by
  obtain ⟨base, binned, st, stop, N, hT⟩ := Booster.fit_trace h.fit
  have hsame := hT.same N (le_refl _)
  unfold Booster.SameParams at hsame
  rw [hT.last] at hsame
  obtain ⟨bs, hb⟩ : b'.baseScore.IsFin := by
    rw [hsame]; exact h.base base hT.base_eq
  have hmiss : b'.missing = b.missing := by rw [hsame]
  obtain ⟨rows, e, hl, H⟩ := C144_bound b' h.explainable data hd
    (fun t ht i hi n hn hl => by
      obtain ⟨v, hv⟩ := entry_shaped hd hi
        (lt_of_lt_of_le (fit_featuresBelow h.rng h.fit t ht n hn hl) hcols)
      exact ⟨v, hv, by rw [hmiss]; exact hread v (List.mem_of_getElem? hv)⟩) hu bs hb (fun _ => -(lr * mds))
    (fun _ => lr * mds) (fun t ht n hn _ x hx => by
      obtain ⟨z, e1, e2⟩ := C09_booster h hm hlr t ht n hn
      rw [hx] at e1
      cases e1
      exact abs_le.1 e2)
  refine ⟨rows, e, hl, fun i r hi => ?_⟩
  obtain ⟨s, bias, h1, h2, h3, _⟩ := H i r hi
  refine ⟨s, bias, h1, h2, fun f x hx => (h3 f x hx).trans (le_of_eq ?_)⟩
  induction b'.trees.take b'.used with
  | nil => simp
  | cons t ts ih =>
    rw [List.map_cons, List.sum_cons, ih, List.filter_cons]
    split
    · rw [List.length_cons]
      push_cast
      ring
    · rw [zero_add]

end

/-! ### The hypotheses are met -/

/-- The model of `C133_interaction` with a limit of 10: in row 0 both columns contribute -3/8. -/
example : ∃ (b' : Booster Q Q) (rest : List Q),
    PlainFit exEnv { exDepth 2 with maxDeltaStep := q 10 } exAnd [0, 0, 0, 4] (List.replicate 4 (1 : ℚ)) none b' 0 0 10
      (1/2) ∧ exAnd.Shaped ∧ (∀ v ∈ exAnd.data, Readable (exDepth 2).missing v) ∧ b'.used ≤ b'.trees.length ∧
    b'.predictContributions exAnd .shapley = .ok (q (-3/8) :: q (-3/8) :: q (7/8) :: rest) ∧
    ((b'.trees.take b'.used).filter fun t => t.tests 0).length = 2 := by
  have : (match ({ exDepth 2 with maxDeltaStep := q 10 }).fit exEnv exAnd [q 0, q 0, q 0, q 4] [q 1, q 1, q 1, q 1] none with
    | .ok (b', .ok ()) => match b'.predictContributions exAnd .shapley with
      | .ok (x :: y :: z :: _) => decide (x = q (-3/8) ∧ y = q (-3/8) ∧ z = q (7/8) ∧ b'.used ≤ b'.trees.length ∧
        ((b'.trees.take b'.used).filter fun t => t.tests 0).length = 2)
      | _ => false
    | _ => false) = true := by decide +kernel
  split at this
  · rename_i b' h
    split at this
    · rename_i x y z rest hc
      obtain ⟨rfl, rfl, rfl, h1, h2⟩ := of_decide_eq_true this
      refine ⟨b', rest, ?_, rfl, by decide +kernel, h1, hc, h2⟩
      exact
        { sorter := exSorter_ok, rng := exRng_ok, shaped := rfl, ylen := rfl, wlen := rfl
          max := by
            show ∀ v ∈ exAnd.data, ¬IsMissing FX.nan v → (v ≤ᶠ Fl.maxv) = true
            decide +kernel
          minLeafWeight := by
            show FX.fin 0 ≤ᶠ q 1
            decide
          l1_eq := rfl, l2_eq := rfl, mds_eq := rfl, lr_eq := rfl, l2_nonneg := le_rfl
          positive := .inr ⟨rfl, 1, by simp, one_pos⟩
          goss := fun h => nomatch h
          exp := fun h => nomatch h
          base := fun s hs => by
            have hs : s = exFresh.baseScore := hs
            rw [hs]; exact ⟨_, rfl⟩
          fit := h }
    · cases this
  · cases this

end Verif
