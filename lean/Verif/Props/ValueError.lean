import Verif.Proofs.GradFit
import Verif.Proofs.IeeeNarrow
import Verif.Props.ExactCovers

/-!
# C101: rounding errors of the values of a tree

Under the hypotheses of C100 (no sum of weights is rounded) the value of a node in `f32` arithmetic differs from the
exact value `-lr * G / (H + l2)` by a bounded amount.
-/

namespace Verif

open scoped Verif

set_option linter.unusedSectionVars false

/-! ### One node -/

/-- Errors of a quotient and a product. -/
theorem value_error {u τ E A G D g' D' q1 q L : ℚ} (hu : 0 ≤ u) (hu2 : u ≤ 1 / 2) (hE : 1 ≤ E)
    (hG : |G| ≤ A) (hg : |g' - G| ≤ (E - 1) * A) (hD : D ≠ 0) (hD' : |D' - D| ≤ u * |D|)
    (h1 : |q1 - g' / D'| ≤ u * |g' / D'| + τ) (h2 : |q - -q1 * L| ≤ u * |-q1 * L| + τ) :
    |q - -(L * G / D)| ≤ (E * (1 + u) ^ 4 - 1) * (|L| * A / |D|) + (|L| * (1 + u) + 1) * τ := by
  have hA : 0 ≤ A := (abs_nonneg G).trans hG
  have hDp : 0 < |D| := abs_pos.2 hD
  have hB : 0 ≤ A / |D| := div_nonneg hA hDp.le
  obtain ⟨B, hBe⟩ : ∃ B, B = A / |D| := ⟨_, rfl⟩
  rw [← hBe] at hB
  have hGB : |G / D| ≤ B := by
    rw [abs_div, hBe]; exact div_le_div_of_nonneg_right hG hDp.le
  have hD'p : (1 - u) * |D| ≤ |D'| := by
    have := abs_sub_abs_le_abs_sub D D'
    rw [abs_sub_comm] at this
    nlinarith
  have hD'0 : 0 < |D'| := lt_of_lt_of_le (mul_pos (by linarith) hDp) hD'p
  have hD'n : D' ≠ 0 := abs_pos.1 hD'0
  -- the quotient of the rounded sums
  have s1 : |g' / D' - G / D| ≤ (E * (1 + u) ^ 2 - 1) * B := by
    have e : g' / D' - G / D = ((g' - G) - (G / D) * (D' - D)) / D' := by
      field_simp
      ring
    rw [e, abs_div, div_le_iff₀ hD'0]
    have t1 : |(g' - G) - (G / D) * (D' - D)| ≤ (E - 1) * A + B * (u * |D|) := by
      refine (abs_sub _ _).trans (add_le_add hg ?_)
      rw [abs_mul]
      exact mul_le_mul hGB hD' (abs_nonneg _) hB
    have t2 : A = B * |D| := by rw [hBe]; field_simp
    have t3 : 0 ≤ E * (1 + u) ^ 2 - 1 := by nlinarith [mul_nonneg hu hu]
    have t4 : (E - 1) + u ≤ (E * (1 + u) ^ 2 - 1) * (1 - u) := by
      have : E ≤ E * ((1 + u) ^ 2 * (1 - u)) := by
        refine le_mul_of_one_le_right (by linarith) ?_
        nlinarith [mul_nonneg hu hu, mul_nonneg hu (mul_nonneg hu hu)]
      nlinarith
    calc |(g' - G) - (G / D) * (D' - D)| ≤ (E - 1) * A + B * (u * |D|) := t1
      _ = ((E - 1) + u) * (B * |D|) := by rw [t2]; ring
      _ ≤ ((E * (1 + u) ^ 2 - 1) * (1 - u)) * (B * |D|) :=
          mul_le_mul_of_nonneg_right t4 (mul_nonneg hB hDp.le)
      _ = ((E * (1 + u) ^ 2 - 1) * B) * ((1 - u) * |D|) := by ring
      _ ≤ ((E * (1 + u) ^ 2 - 1) * B) * |D'| := mul_le_mul_of_nonneg_left hD'p (mul_nonneg t3 hB)
  have s2 : |g' / D'| ≤ E * (1 + u) ^ 2 * B := by
    have := abs_sub_abs_le_abs_sub (g' / D') (G / D)
    nlinarith
  have s3 : |q1 - G / D| ≤ (E * (1 + u) ^ 3 - 1) * B + τ := by
    have := abs_sub_le q1 (g' / D') (G / D)
    have := mul_le_mul_of_nonneg_left s2 hu
    nlinarith
  have s4 : |q1| ≤ E * (1 + u) ^ 3 * B + τ := by
    have := abs_sub_abs_le_abs_sub q1 (G / D)
    nlinarith
  have s5 : |-q1 * L - -(L * G / D)| = |L| * |q1 - G / D| := by
    rw [← abs_mul, ← abs_neg]
    congr 1
    ring
  have s6 := abs_sub_le q (-q1 * L) (-(L * G / D))
  rw [s5] at s6
  rw [abs_mul, abs_neg] at h2
  have hL := abs_nonneg L
  have s7 := mul_le_mul_of_nonneg_left s3 hL
  have s8 := mul_le_mul_of_nonneg_left (mul_le_mul_of_nonneg_left s4 hL) hu
  have e : |L| * A / |D| = |L| * B := by rw [hBe]; ring
  rw [e]
  nlinarith

theorem fin_of_mul {K : Type} [Field K] [LinearOrder K] {m : Fmt K} {a : FX m} {L q : K}
    (h : a * FX.fin L = FX.fin q) : ∃ x, a = .fin x := by
  have hs : ∀ y : K, (FX.sinf y : FX m) ≠ FX.fin q := by
    intro y e
    unfold FX.sinf at e
    split at e
    · cases e
    · split at e <;> cases e
  cases a with
  | fin x => exact ⟨x, rfl⟩
  | nan => cases h
  | pinf => exact absurd h (hs L)
  | ninf => exact absurd h (hs (-L))

theorem fin_of_neg {K : Type} [Field K] [LinearOrder K] {m : Fmt K} {a : FX m} {q : K}
    (h : -a = FX.fin q) : a = .fin (-q) := by
  cases a with
  | fin x =>
    have : FX.fin (-x) = (FX.fin q : FX m) := h
    cases this; simp
  | nan => cases h
  | pinf => cases h
  | ninf => cases h

theorem fin_of_div {K : Type} [Field K] [LinearOrder K] {m : Fmt K} {a : FX m} {b q : K}
    (h : a / FX.fin b = FX.fin q) : ∃ x, a = .fin x ∧ b ≠ 0 ∧ m.rnd (x / b) = .fin q := by
  cases a with
  | fin x =>
    have h : (if b = 0 then FX.sinf x else FX.rd (x / b) : FX m) = FX.fin q := h
    by_cases hb : b = 0
    · rw [if_pos hb] at h
      unfold FX.sinf at h
      split at h
      · cases h
      · split at h <;> cases h
    · rw [if_neg hb] at h
      refine ⟨x, rfl, hb, ?_⟩
      unfold FX.rd at h
      cases hr : m.rnd (x / b) with
      | fin y => rw [hr] at h; cases h; rfl
      | pinf => rw [hr] at h; cases h
      | ninf => rw [hr] at h; cases h
  | nan => cases h
  | pinf =>
    have h : (if 0 ≤ b then FX.pinf else FX.ninf : FX m) = FX.fin q := h
    split at h <;> cases h
  | ninf =>
    have h : (if 0 ≤ b then FX.ninf else FX.pinf : FX m) = FX.fin q := h
    split at h <;> cases h

theorem rnd_of_rd {K : Type} [Field K] [LinearOrder K] {m : Fmt K} {x q : K}
    (h : (FX.rd x : FX m) = FX.fin q) : m.rnd x = .fin q := by
  unfold FX.rd at h
  cases hr : m.rnd x with
  | fin y => rw [hr] at h; cases h; rfl
  | pinf => rw [hr] at h; cases h
  | ninf => rw [hr] at h; cases h

/-! ### Trees -/

section
variable {K : Type} [Field K] [LinearOrder K] [IsStrictOrderedRing K] {m32 m64 : Fmt K} [m64.Rounds]
variable {S : Sorter} {X : Matrix (FX m64)} {w : List K} {nbins : Nat} {missing : FX m64} {u : K} {N N' : Nat}
  {gv hv : Nat → K} {c : GrowCfg (FX m32) (FX m64)} {sm : SampleMethod} {rows : List Nat}
  {t : Tree (FX m32) (FX m64)} {u32 u64 v : K} {P : K → Prop}

theorem GridOn.errTrain (h : GridOn u N S X w nbins missing hv c sm rows)
    (hE : ErrFmt m32 m64 u32 u64 v P N') (hrep : ∀ r, m32.Repr (gv r)) (hg : FinRows c.train.grad gv) :
    ErrTrain c.train u32 u64 v P N' (nbins + 1) gv := by
  refine ⟨hE, hrep, h.gridTrain.laid, hg, fun col hcol cu hcu => ?_⟩
  obtain ⟨bd, hb, e⟩ := h.eq
  have hw : X.rows ≤ (w.map (FX.fin : K → FX m64)).length := by simpa using h.weights
  obtain ⟨cutss, hB⟩ := binMatrix_binned h.shaped hw hb
  have hcx := h.cols col hcol
  rw [e] at hcu
  have hcu' : bd.cuts.getCol col = .ok cu := hcu
  obtain ⟨cl, hcl⟩ : ∃ cl, cutss[col]? = some cl := ⟨_, List.getElem?_eq_getElem (by rw [hB.len]; exact hcx)⟩
  have hclcu := hB.jagged.getCol (j := col)
  rw [hcl, hcu', Res.ofOption_some] at hclcu
  injection hclcu with hclcu
  rw [hclcu]
  exact colCuts_length h.sorter (by rw [Matrix.column_length h.shaped hcx]; exact hw) (hB.made col cl hcl)

/-- **C101** (trees, any formats).  The value of every node of a fitted tree is the value formula applied to the
exact sum of the hessians of its rows and to a gradient sum `g'` that is, if finite, close to the exact sum of the
gradients of the training rows that pass the node at prediction time: the error is at most
`(1 + v) ^ (1 + d * (nbins + 1 + 6 * d)) - 1` times the sum of the absolute gradients of all rows of the tree,
where `d` is the depth of the node.  The formula holds without constraints, for nodes that are not reserved for
missing values and, with `AverageLeafWeight`, for leaves. -/
theorem C101_tree (h : GridOn u N S X w nbins missing hv c sm rows)
    (hE : ErrFmt m32 m64 u32 u64 v P (rows.length + 17)) (hrep : ∀ r, m32.Repr (gv r))
    (hg : FinRows c.train.grad gv) (hf : Tree.fit c sm rows = .ok t)
    {i : Nat} {n : Node (FX m32) (FX m64)} (hn : t.nodes[i]? = some n) :
    ∃ g' : FX m32,
      (∀ z, g' = FX.fin z → |z - ((rowsAt t X missing rows i).map gv).sum| ≤
        ((1 + v) ^ (1 + n.depth * (nbins + 1 + 6 * n.depth)) - 1) * (rows.map fun r => |gv r|).sum) ∧
      |((rowsAt t X missing rows i).map gv).sum| ≤ (rows.map fun r => |gv r|).sum ∧
      ((∀ f, noConstraint (c.splitter.params.getConstraint f) = true) →
        (∀ p, c.splitter = .branch p → p.forceChildrenToBoundParent = false) → ¬ OnlyMissing t.nodes i →
        ((∃ p, c.splitter = .branch p ∧ p.missingNodeTreatment = .averageLeafWeight) → n.isLeaf = true) →
        n.weightValue = weight c.splitter.params.l1 c.splitter.params.l2 c.splitter.params.maxDeltaStep g'
          (FX.fin ((rowsAt t X missing rows i).map hv).sum) * c.splitter.params.learningRate) := by
  obtain ⟨o, gs, nodes, g, hs, sort, hists, g0, hV, h1, h2, hcl, hg0, hsn, hrows⟩ := h.view_root hf
  have hT := h.errTrain hE hrep hg
  have hsum : ∀ {i : Nat} {g : Ghost (FX m32) (FX m64)}, gs[i]? = some g → ∀ v : Nat → K,
      ((rowsAt t X missing rows i).map v).sum = rowSum v g.rows :=
    fun hg v => ((hV.rowsAt h.nodup hg).map v).sum_eq
  have hlen : g0.rows.length ≤ rows.length + 17 := by rw [hrows]; omega
  have hlt : ∀ r ∈ g0.rows, r < c.train.data.rows := by
    rw [hrows, h.rows_eq]; exact h.rows_lt
  have hroot : GradErr c.train v (nbins + 1) gv g0.rows 0 g0.sn g0.rows := by
    rw [hsn, hrows]
    exact root_grad hT le_rfl h.full h1 h2 _ _
  have hall := hV.cert.grad_sums h.gridTrain hT h.pos hg0 (by rw [hrows]; exact h.total)
    (hV.sums 0 g0 hg0) hlen hlt (by rw [hsn]; rfl) hroot
  have hltn := (List.getElem?_eq_some_iff.1 hn).1
  rw [hV.shape.1, ← hV.cert.len] at hltn
  have hgi := List.getElem?_eq_getElem hltn
  obtain ⟨n0, b1, b2, _⟩ := hV.cert.nodeOf hgi
  have hdep : n.depth = gs[i].sn.depth := by
    obtain ⟨w', hw'⟩ := hV.shape.2 _ _ b1
    rw [hn] at hw'; cases hw'
    exact b2.depth
  obtain ⟨hp, hG⟩ := hall i _ hgi
  have hN := hV.sums i _ hgi
  refine ⟨gs[i].sn.gradientSum, fun z hz => ?_, ?_, fun hno hforce hm havg => ?_⟩
  · have := ((hG.grad.near z hz).2).err
    rw [hsum hgi, hdep, ← hrows]
    exact this
  · rw [hsum hgi, ← hrows]
    exact hG.grad.size
  · rw [cleanUp_value hV.cert hcl b1 hn hm havg, b2.weight,
      hV.cert.weight_own hV.shape hno hforce hg0 hsn hgi hm, hN.hess, hsum hgi]

end

/-! ### Boosters in `f32` and `f64` -/

section
variable {e32 l32 s32 e64 l64 s64 : ℚ → RV ℚ} {R : Type}
  {env : Env R (FX (Ieee.b32 e32 l32 s32)) (FX (Ieee.b64 e64 l64 s64))}
  {b b' : Booster (FX (Ieee.b32 e32 l32 s32)) (FX (Ieee.b64 e64 l64 s64))}
  {X : Matrix (FX (Ieee.b64 e64 l64 s64))} {y : List (FX (Ieee.b64 e64 l64 s64))} {w : List ℚ} {k : ℤ}
  {ev : Option (List (EvalSet (FX (Ieee.b64 e64 l64 s64))))}

/-- The number in place `r` of a list of floats. -/
def realAt {m : Fmt ℚ} (l : List (FX m)) (r : Nat) : ℚ := (l.getD r 0).val

/-- The gradients of squared loss are `f32` numbers. -/
theorem squared_grad_inFormat {y yhat w : List (FX (Ieee.b64 e64 l64 s64))}
    {x : FX (Ieee.b32 e32 l32 s32)} (hx : x ∈ (calcGradHess .squaredLoss y yhat w).1) : x.InFormat := by
  unfold calcGradHess at hx
  simp only [List.unzip_eq_map, List.map_map] at hx
  obtain ⟨t, _, rfl⟩ := List.mem_map.1 hx
  exact FX.down_inFormat _

/-- The value of one node. -/
theorem node_value_error {g' : FX (Ieee.b32 e32 l32 s32)} {G A H L2 LR E q : ℚ} (hE : 1 ≤ E) (hG : |G| ≤ A)
    (hg : ∀ z, g' = FX.fin z → |z - G| ≤ (E - 1) * A) (hH : (Ieee.b32 e32 l32 s32).Repr H)
    (hL2 : (Ieee.b32 e32 l32 s32).Repr L2) (hHb : |H| ≤ 2 ^ 127) (hLb : |L2| ≤ 2 ^ 126)
    (hq : weight 0 (FX.fin L2) 0 g' (FX.fin H) * FX.fin LR = (FX.fin q : FX (Ieee.b32 e32 l32 s32))) :
    H + L2 ≠ 0 ∧ |q - -(LR * G / (H + L2))| ≤ (E * (1 + Ieee.pow2 (-24)) ^ 4 - 1) * (|LR| * A / |H + L2|) +
      (|LR| * (1 + Ieee.pow2 (-24)) + 1) * Ieee.pow2 (-150) := by
  have hw : weight 0 (FX.fin L2) 0 g' (FX.fin H) = -(g' / (FX.fin H + FX.fin L2)) := by
    have h0 : ((0 : FX (Ieee.b32 e32 l32 s32)) =ᶠ 0) = true := by
      simp [FX.zero_def]
    simp [weight, l1Regularization, h0]
  rw [hw] at hq
  have hadd : ∃ D', (FX.fin H + FX.fin L2 : FX (Ieee.b32 e32 l32 s32)) = FX.fin D' ∧
      (Ieee.b32 e32 l32 s32).rnd (H + L2) = .fin D' := by
    have hm : (Ieee.b32 e32 l32 s32).rnd (H + L2) = .fin (Ieee.rnd 24 (-149) (H + L2)) := by
      have hb : |Ieee.rnd 24 (-149) (H + L2)| ≤ 3 * 2 ^ 126 := by
        rw [Ieee.rnd_abs]
        have h1 : |H + L2| ≤ 3 * 2 ^ 126 := (abs_add_le _ _).trans (by linarith)
        have h2 := Ieee.rnd_mono (p := 24) (emin := -149) (by norm_num) h1
        have h3 : Ieee.Rep 24 (-149) (3 * 2 ^ 126) :=
          ⟨3, 126, by norm_num, by norm_num, by rw [Ieee.pow2_eq, abs_of_pos (by norm_num)]; norm_num⟩
        rwa [h3.fixed (by norm_num)] at h2
      have hmx : (3 * 2 ^ 126 : ℚ) ≤ (((2 ^ 24 - 1) * 2 ^ 104 : Nat) : ℚ) := by norm_num
      obtain ⟨x1, x2⟩ := abs_le.1 hb
      exact Ieee.fmt_rnd_fin.2 ⟨rfl, by linarith, by linarith⟩
    refine ⟨_, ?_, hm⟩
    show FX.rd (H + L2) = _
    rw [FX.rd, hm]; rfl
  obtain ⟨D', hD1, hD2⟩ := hadd
  rw [hD1] at hq
  obtain ⟨x, hx⟩ := fin_of_mul hq
  have hx' := fin_of_neg hx
  obtain ⟨z, rfl, hD0, hz⟩ := fin_of_div hx'
  rw [hx] at hq
  have hq' := rnd_of_rd (show FX.rd (x * LR) = FX.fin q from hq)
  obtain ⟨hq1, _⟩ := Ieee.fmt_rnd_fin.1 hq'
  obtain ⟨hx1, _⟩ := Ieee.fmt_rnd_fin.1 hz
  have hu : (Ieee.b32 e32 l32 s32).Accurate (Ieee.pow2 (-24)) := inferInstance
  have hd := hu.add hH hL2 hD2
  have hne : H + L2 ≠ 0 := by
    intro e
    rw [e] at hd
    simp only [abs_zero, mul_zero, sub_zero] at hd
    exact hD0 (abs_nonpos_iff.1 hd)
  refine ⟨hne, value_error (q1 := -x) (Ieee.pow2_pos _).le ?_ hE hG (hg z rfl) hne hd ?_ ?_⟩
  · rw [Ieee.pow2_eq]; norm_num
  · rw [hx1]; exact Ieee.rnd_near _
  · rw [neg_neg, hq1]; exact Ieee.rnd_near _

/-- **C101** (boosters, `f32` and `f64` with rounding).  Under the hypotheses of C100, without constraints, `l1` and
`max_delta_step`, and with finite `l2` and learning rate: let `g` be the `f32` gradients on which a tree is fitted
(those of the predictions of the earlier trees), all finite, let `G` and `H` be the exact sums of the gradients and
weights of the rows of the tree's sample that pass a node at prediction time, and `A` the sum of the absolute
gradients of the sample.  If the value of the node is finite, it differs from `-lr * G / (H + l2)` by at most
`((1 + v) ^ (d * (nbins + 1 + 6 * d) + 5) - 1) * lr * A / (H + l2)` and a few units of the smallest positive number,
where `d` is the depth of the node and `1 + v = (1 + 2^-24) * (1 + 2^-53) ^ (n + 17)` for a sample of `n` rows.
This holds for all nodes that are not reserved for missing values and, with `AverageLeafWeight`, for leaves. -/
theorem C101_values (hS : env.sorter.Ok) (hr : env.rng.Ok) (hX : X.Shaped) (hy : y.length = X.rows)
    (hw : w.length = X.rows) (hk : UnitWeights k w)
    (hmax : ∀ v ∈ X.data, ¬ IsMissing b.missing v → (v ≤ᶠ Fl.maxv) = true)
    (hpos : (0 <ᶠ b.minLeafWeight) = true) (hobj : b.objectiveType = .squaredLoss)
    (hgoss : b.sampleMethod ≠ .goss) (hno : ∀ f, noConstraint (b.constraintsMap.lookup f) = true)
    (hforce : b.forceChildrenToBoundParent = false) (hl1 : b.l1 = 0) (hmds : b.maxDeltaStep = 0)
    {L2 LR : ℚ} (hl2 : b.l2 = FX.fin L2) (hl2r : (Ieee.b32 e32 l32 s32).Repr L2) (hl2b : |L2| ≤ 2 ^ 126)
    (hlr : b.learningRate = FX.fin LR)
    (h : b.fit env X y (w.map FX.fin) ev = .ok (b', .ok ()))
    {j : Nat} {t : Tree (FX (Ieee.b32 e32 l32 s32)) (FX (Ieee.b64 e64 l64 s64))} (ht : b'.trees[j]? = some t) :
    ∃ (yhat : List (FX (Ieee.b64 e64 l64 s64))) (rows : List Nat),
      predictFold b.missing X (List.replicate X.rows b'.baseScore) (b'.trees.take j) = .ok yhat ∧
      rows.Nodup ∧ (∀ r ∈ rows, r < X.rows) ∧ (b.sampleMethod = .none → rows = List.range X.rows) ∧
      ∀ g : List (FX (Ieee.b32 e32 l32 s32)), g = (calcGradHess .squaredLoss y yhat (w.map FX.fin)).1 →
      (∀ x ∈ g, x.IsFin) → ∀ (i : Nat) n q, t.nodes[i]? = some n → ¬ OnlyMissing t.nodes i →
      (b.createMissingBranch = true → b.missingNodeTreatment = .averageLeafWeight → n.isLeaf = true) →
      n.weightValue = FX.fin q → ∀ G H A d : ℚ,
      G = ((rowsAt t X b.missing rows i).map (realAt g)).sum →
      H = ((rowsAt t X b.missing rows i).map (fun r => w.getD r 0)).sum →
      A = (rows.map fun r => |realAt g r|).sum →
      d = ((1 + Ieee.pow2 (-24)) * (1 + Ieee.pow2 (-53)) ^ (rows.length + 17)) ^
        (n.depth * (b.nbins + 1 + 6 * n.depth) + 5) - 1 →
      H + L2 ≠ 0 ∧ |q - -(LR * G / (H + L2))| ≤ d * (|LR| * A / |H + L2|) +
        (|LR| * (1 + Ieee.pow2 (-24)) + 1) * Ieee.pow2 (-150) := by
  obtain ⟨yhat, cfg, rows, h1, h2, h3, h4, h5, h6, hG⟩ :=
    fit_gridOn_at hS hr hX hy hw hk hmax hpos hobj hgoss h ht
  refine ⟨yhat, rows, h1, hG.nodup, hG.rows_lt, h6, ?_⟩
  rintro g rfl hfin i n q hn hm havg hq G H A d rfl rfl rfl rfl
  obtain ⟨gr, hgr⟩ : ∃ gr : List (FX (Ieee.b32 e32 l32 s32)),
      gr = (calcGradHess .squaredLoss y yhat (w.map FX.fin)).1 := ⟨_, rfl⟩
  rw [← hgr] at hfin h3 ⊢
  have hin : ∀ x ∈ gr, x.InFormat := by rw [hgr]; exact fun x hx => squared_grad_inFormat hx
  have hr32 : (Ieee.b32 e32 l32 s32).Rounds := inferInstance
  have hrep : ∀ r, (Ieee.b32 e32 l32 s32).Repr (realAt gr r) := by
    intro r
    unfold realAt
    rw [List.getD_eq_getElem?_getD]
    cases hx : gr[r]? with
    | none => exact hr32.zero
    | some x =>
      have hmem := List.mem_of_getElem? hx
      obtain ⟨z, rfl⟩ := hfin x hmem
      exact hin _ hmem z rfl
  have hrows : FinRows cfg.train.grad (realAt gr) := by
    intro r x hx
    rw [h3] at hx
    unfold realAt
    rw [List.getD_eq_getElem?_getD, hx]
    obtain ⟨z, rfl⟩ := hfin x (List.mem_of_getElem? hx)
    rfl
  obtain ⟨g', a1, a2, a3⟩ := C101_tree hG (Ieee.errFmt _) hrep hrows h5 hn
  have hs1 : b.splitter.params.l1 = 0 ∧ b.splitter.params.l2 = FX.fin L2 ∧
      b.splitter.params.maxDeltaStep = 0 ∧ b.splitter.params.learningRate = FX.fin LR ∧
      ∀ f, noConstraint (b.splitter.params.getConstraint f) = true := by
    unfold Booster.splitter
    split <;> exact ⟨hl1, hl2, hmds, hlr, hno⟩
  rw [h4, hs1.1, hs1.2.1, hs1.2.2.1, hs1.2.2.2.1] at a3
  have a4 := a3 hs1.2.2.2.2 (fun p hp => by
    unfold Booster.splitter at hp
    split at hp
    · cases hp; exact hforce
    · cases hp) hm (by
    rintro ⟨p, hp, he⟩
    unfold Booster.splitter at hp
    split at hp
    · rename_i hc
      cases hp; exact havg hc he
    · cases hp)
  have hu := Ieee.pow2_pos k
  have hm : ∀ r, Mult (Ieee.pow2 k) (w.getD r 0) := by
    intro r
    rw [List.getD_eq_getElem?_getD]
    cases h : w[r]? with
    | none => exact .zero
    | some x => exact hk.mult x (List.mem_of_getElem? h)
  have hHle := rowSum_le_total hu hk.mult (rows := rowsAt t X b.missing rows i) (hG.nodup.filter _)
    (fun r hr => by rw [hw]; exact hG.rows_lt r (List.mem_of_mem_filter hr))
  have hHm := rowSum_mult hm (rowsAt t X b.missing rows i)
  have hHg := hHm.onGrid hu hHle hk.onGrid
  have hHr : (Ieee.b32 e32 l32 s32).Repr (rowSum (fun r => w.getD r 0) (rowsAt t X b.missing rows i)) := by
    obtain ⟨N, hN1, hN2⟩ := hHg
    rw [hN2]
    exact Ieee.b32_grid hk.low hk.high N hN1
  have hHb : |rowSum (fun r => w.getD r 0) (rowsAt t X b.missing rows i)| ≤ 2 ^ 127 := by
    rw [abs_of_nonneg (hHm.nonneg hu)]
    have := hk.total
    have h2 := Ieee.grid_max hk.high
    push_cast at h2
    linarith
  rw [hq] at a4
  have hv1 : (1 : ℚ) + Ieee.pow2 (-24) ≤
      (1 + Ieee.pow2 (-24)) * (1 + Ieee.pow2 (-53)) ^ (rows.length + 17) := by
    have h1 := one_le_pow_u (Ieee.pow2_pos (-53)).le (rows.length + 17)
    exact le_mul_of_one_le_right (by have := Ieee.pow2_pos (-24); linarith) h1
  obtain ⟨V, hV⟩ : ∃ V : ℚ, V = (1 + Ieee.pow2 (-24)) * (1 + Ieee.pow2 (-53)) ^ (rows.length + 17) := ⟨_, rfl⟩
  rw [← hV] at hv1 a1 ⊢
  have hV1 : 1 ≤ V := by have := Ieee.pow2_pos (-24); linarith
  simp only [add_sub_cancel] at a1
  obtain ⟨r1, r2⟩ := node_value_error (one_le_pow₀ hV1) a2 a1 hHr hl2r hHb hl2b a4.symm
  refine ⟨r1, r2.trans ?_⟩
  have hA : (0 : ℚ) ≤ |LR| * (rows.map fun r => |realAt gr r|).sum /
      |rowSum (fun r => w.getD r 0) (rowsAt t X b.missing rows i) + L2| := by
    refine div_nonneg (mul_nonneg (abs_nonneg _) (List.sum_nonneg ?_)) (abs_nonneg _)
    intro x hx
    obtain ⟨r, _, rfl⟩ := List.mem_map.1 hx
    exact abs_nonneg _
  refine add_le_add_left (mul_le_mul_of_nonneg_right (sub_le_sub_right ?_ 1) hA) _
  have h4 : (1 + Ieee.pow2 (-24)) ^ 4 ≤ V ^ 4 :=
    pow_le_pow_left₀ (by have := Ieee.pow2_pos (-24); linarith) hv1 4
  calc V ^ (1 + n.depth * (b.nbins + 1 + 6 * n.depth)) * (1 + Ieee.pow2 (-24)) ^ 4
      ≤ V ^ (1 + n.depth * (b.nbins + 1 + 6 * n.depth)) * V ^ 4 :=
        mul_le_mul_of_nonneg_left h4 (by positivity)
    _ = V ^ (n.depth * (b.nbins + 1 + 6 * n.depth) + 5) := by rw [← pow_add]; congr 1; omega

/-- A simple bound for the powers in C101. -/
theorem pow_error {v : ℚ} {K : Nat} (hv : 0 ≤ v) (h : K * v ≤ 1 / 2) : (1 + v) ^ K ≤ 1 + 2 * (K * v) := by
  have h1 : (1 + v) ^ K * (1 - v) ^ K ≤ 1 := by
    rw [← mul_pow]
    rcases Nat.eq_zero_or_pos K with rfl | hK
    · simp
    · have hv1 : v ≤ 1 / 2 := by
        have : (1 : ℚ) ≤ K := by exact_mod_cast hK
        nlinarith
      exact pow_le_one₀ (mul_nonneg (by linarith) (by linarith)) (by nlinarith)
  rcases Nat.eq_zero_or_pos K with rfl | hK
  · simp
  have hv1 : v ≤ 1 / 2 := by
    have : (1 : ℚ) ≤ K := by exact_mod_cast hK
    nlinarith
  have h2 : 1 - K * v ≤ (1 - v) ^ K := by
    have := one_add_mul_le_pow (a := -v) (by linarith) K
    have e : (1 : ℚ) + -v = 1 - v := by ring
    rw [e] at this
    linarith
  have h3 : 0 ≤ (1 + v) ^ K := by positivity
  have h4 : (1 + v) ^ K * (1 - K * v) ≤ 1 := (mul_le_mul_of_nonneg_left h2 h3).trans h1
  have h5 : 1 ≤ (1 + 2 * (K * v)) * (1 - K * v) := by
    have : 0 ≤ (K : ℚ) * v := by positivity
    nlinarith
  have h6 : 0 < 1 - K * v := by linarith
  exact le_of_mul_le_mul_right (h4.trans h5) h6

/-- **C101** (the size of the bound).  With at most 2^24 rows the relative error of C101 is at most `2^-22` times the
number of roundings `d * (nbins + 1 + 6 * d) + 5`, as long as that number is at most `2^22`. -/
theorem C101_bound {n K : Nat} (hn : n ≤ 2 ^ 24) (hK : K ≤ 2 ^ 22) :
    ((1 + Ieee.pow2 (-24)) * (1 + Ieee.pow2 (-53)) ^ (n + 17)) ^ K - 1 ≤ K * Ieee.pow2 (-22) := by
  have e24 : Ieee.pow2 (-24) = 1 / 2 ^ 24 := by rw [Ieee.pow2_eq]; norm_num
  have e53 : Ieee.pow2 (-53) = 1 / 2 ^ 53 := by rw [Ieee.pow2_eq]; norm_num
  have e22 : Ieee.pow2 (-22) = 1 / 2 ^ 22 := by rw [Ieee.pow2_eq]; norm_num
  rw [e24, e53, e22]
  have hn' : ((n + 17 : Nat) : ℚ) ≤ 2 ^ 25 := by
    have : n + 17 ≤ 2 ^ 25 := by omega
    exact_mod_cast this
  have h1 : ((1 : ℚ) + 1 / 2 ^ 53) ^ (n + 17) ≤ 1 + 1 / 2 ^ 27 := by
    refine (pow_error (by norm_num) ?_).trans ?_
    · nlinarith
    · nlinarith
  have h2 : (1 + 1 / 2 ^ 24) * ((1 : ℚ) + 1 / 2 ^ 53) ^ (n + 17) ≤ 1 + 1 / 2 ^ 23 := by
    refine (mul_le_mul_of_nonneg_left h1 (by norm_num)).trans (by norm_num)
  have h3 : ((1 + 1 / 2 ^ 24) * ((1 : ℚ) + 1 / 2 ^ 53) ^ (n + 17)) ^ K ≤ (1 + 1 / 2 ^ 23) ^ K :=
    pow_le_pow_left₀ (by positivity) h2 K
  have hK' : (K : ℚ) ≤ 2 ^ 22 := by exact_mod_cast hK
  have h4 := pow_error (v := 1 / 2 ^ 23) (K := K) (by norm_num) (by linarith)
  linarith

end

/-! ### An example in `f32` and `f64` -/

/-- The hypotheses of C101 are met by the booster of C100's example: both trees have seven nodes, the gradients on
which they are fitted and the values are finite, and the values are rounded. -/
example : ∃ b b', ecB = some b ∧ (∀ f, noConstraint (b.constraintsMap.lookup f) = true) ∧
    b.forceChildrenToBoundParent = false ∧ b.l1 = 0 ∧ b.maxDeltaStep = 0 ∧ b.l2 = FX.fin 0 ∧
    (∃ LR, b.learningRate = FX.fin LR) ∧ (0 <ᶠ b.minLeafWeight) = true ∧ b.objectiveType = .squaredLoss ∧
    b.sampleMethod = .none ∧ b.createMissingBranch = false ∧
    b.fit floatEnv mfX mfY ([1/4, 3/4, 1/2, 1/4].map FX.fin) none = .ok (b', .ok ()) ∧
    b'.trees.map (fun t => t.nodes.length) = [7, 7] ∧
    (∀ t ∈ b'.trees, ∀ n ∈ t.nodes, (ninf <ᶠ n.weightValue) = true ∧ (n.weightValue <ᶠ inf) = true) ∧
    (∀ j < 2, ∃ yhat, predictFold b.missing mfX (List.replicate mfX.rows b'.baseScore) (b'.trees.take j) = .ok yhat ∧
      ∀ x ∈ (calcGradHess (F := F32) .squaredLoss mfY yhat ([1/4, 3/4, 1/2, 1/4].map FX.fin)).1,
        (ninf <ᶠ x) = true ∧ (x <ᶠ inf) = true) ∧
    ∃ t ∈ b'.trees, ∃ n ∈ t.nodes, n.num = 6 ∧ n.weightValue = FX.fin (12834567 / 2 ^ 23) := by
  have : (match ecB with
    | some b => match b.fit floatEnv mfX mfY ([1/4, 3/4, 1/2, 1/4].map FX.fin) none with
      | .ok (b', .ok ()) => decide (b.constraintsMap.isEmpty = true ∧
          b.forceChildrenToBoundParent = false ∧ b.l1 = 0 ∧ b.maxDeltaStep = 0 ∧ b.l2 = FX.fin 0 ∧
          b.learningRate = FX.fin (5033165 / 2 ^ 24) ∧ (0 <ᶠ b.minLeafWeight) = true ∧
          b.objectiveType = .squaredLoss ∧
          b.sampleMethod = .none ∧ b.createMissingBranch = false) && decide (
          b'.trees.map (fun t => t.nodes.length) = [7, 7] ∧
          (∀ t ∈ b'.trees, ∀ n ∈ t.nodes, (ninf <ᶠ n.weightValue) = true ∧ (n.weightValue <ᶠ inf) = true)) &&
          ((List.range 2).all fun j => (match predictFold b.missing mfX (List.replicate mfX.rows b'.baseScore) (b'.trees.take j) with
            | .ok yhat => (calcGradHess (F := F32) .squaredLoss mfY yhat ([1/4, 3/4, 1/2, 1/4].map FX.fin)).1.all
                fun x => (ninf <ᶠ x) && (x <ᶠ inf)
            | _ => false)) &&
          decide (∃ t ∈ b'.trees, ∃ n ∈ t.nodes, n.num = 6 ∧ n.weightValue = FX.fin (12834567 / 2 ^ 23))
      | _ => false
    | none => false) = true := by decide +kernel
  split at this
  · rename_i b hb
    split at this
    · rename_i b' h
      simp only [Bool.and_eq_true] at this
      obtain ⟨⟨⟨t1, t2⟩, t3⟩, t4⟩ := this
      obtain ⟨h1, h2, h3, h4, h5, h6, h7, h8, h9, h10⟩ := of_decide_eq_true t1
      obtain ⟨h11, h12⟩ := of_decide_eq_true t2
      have h14 := of_decide_eq_true t4
      refine ⟨b, b', hb, fun f => by rw [List.isEmpty_iff.1 h1]; rfl, h2, h3, h4, h5, ⟨_, h6⟩, h7, h8, h9, h10, h, h11, h12, ?_, h14⟩
      intro j hj
      have hq := List.all_eq_true.1 t3 j (List.mem_range.2 hj)
      split at hq
      · rename_i yhat he
        refine ⟨yhat, he, fun x hx => ?_⟩
        have := List.all_eq_true.1 hq x hx
        rwa [Bool.and_eq_true] at this
      · cases hq
    · cases this
  · cases this

end Verif
