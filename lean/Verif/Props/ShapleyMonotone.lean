import Verif.Props.MonotoneDependence
import Verif.Props.ShapleyBound

/-!
# C145: Shapley contributions of constrained features
-/

set_option linter.unusedSectionVars false

namespace Verif

open scoped Verif BigOperators Nat

section
variable {K : Type} [Field K] [LinearOrder K] [IsStrictOrderedRing K] {m32 m64 : Fmt K}
  [m32.Exact] [m64.Exact]
variable {S : Sorter} {X : Matrix (FX m64)} {w : List K} {nbins : Nat} {missing : FX m64}
  {t : Tree (FX m32) (FX m64)}

/-- A cover of an internal node, and those of its children. -/
theorem shapCover_pos (hs : t.SplitCovers) (ho : t.CoversOk) {j : Nat} {n : Node (FX m32) (FX m64)} {x : K}
    (h1 : t.nodes[j]? = some n) (h3 : n.hessianSum = .fin x) : 0 ≤ x ∧ (n.isLeaf = false → 0 < x) := by
  obtain ⟨c, e, hc⟩ := hs.1 n (List.mem_of_getElem? h1)
  rw [h3] at e
  cases e
  obtain ⟨c', e', hc'⟩ := ho n (List.mem_of_getElem? h1)
  rw [h3] at e'
  cases e'
  exact ⟨hc, fun hl => lt_of_le_of_ne hc (Ne.symm (hc' hl))⟩

/-- Expectations are allowed values. -/
theorem CondExp.allowed {C : Nat → K → Prop} (hs : t.SplitCovers) (ho : t.CoversOk) (ha : t.CoversAdd)
    (hv : ∀ (i : Nat) (n : Node (FX m32) (FX m64)), t.nodes[i]? = some n → ValIn (C i) n.weightValue)
    (hm : ∀ (i : Nat) (n : Node (FX m32) (FX m64)) (j : Nat), t.nodes[i]? = some n → n.IsChild j →
      ∀ x, C j x → C i x) (hC : ∀ i, Between (C i)) {row : Nat → Option (FX m64)} {U : Finset Nat} {i : Nat} {e : K}
    (h : CondExp t.nodes row missing U i e) : C i e := by
  induction h with
  | leaf h1 h2 h3 =>
    obtain ⟨x, hx, hx'⟩ := hv _ _ h1
    rw [h3] at hx
    cases hx
    exact hx'
  | @known i n v e h1 h2 _ _ _ _ ih =>
    refine hm _ _ _ h1 ⟨h2, ?_⟩ _ ih
    unfold Node.childFor
    split
    · exact .inr (.inr rfl)
    · split
      · exact .inl rfl
      · exact .inr (.inl rfl)
  | @two i n l r h hl hr a b h1 h2 h3 h4 h5 h6 h7 h8 h9 _ _ ih1 ih2 =>
    have hp := (shapCover_pos hs ho h1 h7).2 h2
    have hsum := (ha n (List.mem_of_getElem? h1) h2 l r h5 h6).1 h4
    rw [h7, h8, h9] at hsum
    have hsum : h = hl + hr := hsum
    have p1 := div_nonneg (shapCover_pos hs ho h5 h8).1 hp.le
    have p2 := div_nonneg (shapCover_pos hs ho h6 h9).1 hp.le
    exact (hC i).mean (hm _ _ _ h1 ⟨h2, .inl rfl⟩ _ ih1) (hm _ _ _ h1 ⟨h2, .inr (.inl rfl)⟩ _ ih2) p1 p2
      (by rw [← add_div, ← hsum, div_self hp.ne'])
  | @three i n l r m h hl hr hmm a b c h1 h2 h3 h4 h5 h6 h7 h8 h9 h10 h11 h12 _ _ _ ih1 ih2 ih3 =>
    have hp := (shapCover_pos hs ho h1 h9).2 h2
    have hsum := (ha n (List.mem_of_getElem? h1) h2 l r h6 h7).2 m h4 h5 h8
    rw [h9, h10, h11, h12] at hsum
    have hsum : h = hl + hr + hmm := hsum
    have c1 := hm _ _ _ h1 ⟨h2, .inl rfl⟩ _ ih1
    have c2 := hm _ _ _ h1 ⟨h2, .inr (.inl rfl)⟩ _ ih2
    have c3 := hm _ _ _ h1 ⟨h2, .inr (.inr rfl)⟩ _ ih3
    have q1 : 0 < hl := by
      have := hs.2 n (List.mem_of_getElem? h1) h2 _ l (.inl rfl) h6
      rw [h10] at this
      exact this
    have q2 : 0 < hr := by
      have := hs.2 n (List.mem_of_getElem? h1) h2 _ r (.inr rfl) h7
      rw [h11] at this
      exact this
    have q3 := (shapCover_pos hs ho h8 h12).1
    have e1 := (hC i).mean c1 c2 (a := hl / (hl + hr)) (b := hr / (hl + hr)) (by positivity) (by positivity)
      (by field_simp)
    have e2 := (hC i).mean e1 c3 (a := (hl + hr) / h) (b := hmm / h) (by positivity) (by positivity)
      (by rw [← add_div, ← hsum, div_self hp.ne'])
    convert e2 using 1
    field_simp

/-- Expectations for rows which are ordered in a known constrained feature. -/
theorem CondExp.le {C : Nat → K → Prop} {con : Nat → Option Constraint} (hs : t.SplitCovers) (ho : t.CoversOk)
    (ha : t.CoversAdd)
    (hv : ∀ (i : Nat) (n : Node (FX m32) (FX m64)), t.nodes[i]? = some n → ValIn (C i) n.weightValue)
    (hm : ∀ (i : Nat) (n : Node (FX m32) (FX m64)) (j : Nat), t.nodes[i]? = some n → n.IsChild j →
      ∀ x, C j x → C i x) (hC : ∀ i, Between (C i))
    (hord : ∀ (i : Nat) (n : Node (FX m32) (FX m64)), t.nodes[i]? = some n → n.isLeaf = false →
      ∀ x y, C n.leftChild x → C n.rightChild y →
      (con n.splitFeature = some .positive → x ≤ y) ∧ (con n.splitFeature = some .negative → y ≤ x))
    {f : Nat} {row row' : Nat → Option (FX m64)} (hr : Comparable con missing f row row') {U : Finset Nat} {i : Nat}
    {e e' : K} (h : CondExp t.nodes row missing U i e) (h' : CondExp t.nodes row' missing U i e') : e ≤ e' := by
  induction h generalizing e' with
  | @leaf i n w h1 h2 h3 =>
    cases h' with
    | leaf g1 g2 g3 => rw [h1] at g1; cases g1; rw [h3] at g3; cases g3; exact le_rfl
    | known g1 g2 => rw [h1] at g1; cases g1; rw [h2] at g2; cases g2
    | two g1 g2 => rw [h1] at g1; cases g1; rw [h2] at g2; cases g2
    | three g1 g2 => rw [h1] at g1; cases g1; rw [h2] at g2; cases g2
  | @known i n v e h1 h2 h3 h4 h5 h6 ih =>
    cases h' with
    | leaf g1 g2 => rw [h1] at g1; cases g1; rw [h2] at g2; cases g2
    | two g1 g2 g3 => rw [h1] at g1; cases g1; exact absurd h3 g3
    | three g1 g2 g3 => rw [h1] at g1; cases g1; exact absurd h3 g3
    | @known _ n' v' _ g1 g2 g3 g4 g5 g6 =>
      rw [h1] at g1; cases g1
      by_cases hf : n.splitFeature = f
      · obtain ⟨u, u', k1, k2, p1, p2, hto⟩ := hr.present
        rw [← hf, h4] at k1
        cases k1
        rw [← hf, g4] at k2
        cases k2
        have c1 : n.childFor missing v = if (v <ᶠ n.splitValue) = true then n.leftChild else n.rightChild := by
          unfold Node.childFor; rw [if_neg p1]
        have c2 : n.childFor missing v' = if (v' <ᶠ n.splitValue) = true then n.leftChild else n.rightChild := by
          unfold Node.childFor; rw [if_neg p2]
        have a1 := h6.allowed hs ho ha hv hm hC
        have a2 := g6.allowed hs ho ha hv hm hC
        rw [← hf] at hto
        by_cases q1 : (v <ᶠ n.splitValue) = true <;> by_cases q2 : (v' <ᶠ n.splitValue) = true
        · refine ih ?_
          rw [c1, if_pos q1]
          rw [c2, if_pos q2] at g6
          exact g6
        · rw [c1, if_pos q1] at a1
          rw [c2, if_neg q2] at a2
          rcases hto with ⟨k1, k2⟩ | ⟨k1, k2⟩
          · exact (hord i n h1 h2 _ _ a1 a2).1 k1
          · exact absurd (FX.lt_of_le_of_lt k2 q1) q2
        · rw [c1, if_neg q1] at a1
          rw [c2, if_pos q2] at a2
          rcases hto with ⟨k1, k2⟩ | ⟨k1, k2⟩
          · exact absurd (FX.lt_of_le_of_lt k2 q2) q1
          · exact (hord i n h1 h2 _ _ a2 a1).2 k1
        · refine ih ?_
          rw [c1, if_neg q1]
          rw [c2, if_neg q2] at g6
          exact g6
      · rw [← hr.same _ hf, h4] at g4
        cases g4
        exact ih g6
  | @two i n l r h hl hr' a b h1 h2 h3 h4 h5 h6 h7 h8 h9 _ _ ih1 ih2 =>
    cases h' with
    | leaf g1 g2 => rw [h1] at g1; cases g1; rw [h2] at g2; cases g2
    | known g1 g2 g3 => rw [h1] at g1; cases g1; exact absurd g3 h3
    | three g1 g2 g3 g4 g5 =>
      rw [h1] at g1; cases g1
      exact absurd h4 (by rintro (e | e); exacts [g4 e, g5 e])
    | two g1 g2 g3 g4 g5 g6 g7 g8 g9 ml mr =>
      rw [h1] at g1; cases g1
      rw [h5] at g5; cases g5
      rw [h6] at g6; cases g6
      rw [h7] at g7; cases g7
      rw [h8] at g8; cases g8
      rw [h9] at g9; cases g9
      have hp := ((shapCover_pos hs ho h1 h7).2 h2).le
      exact add_le_add (mul_le_mul_of_nonneg_left (ih1 ml) (div_nonneg (shapCover_pos hs ho h5 h8).1 hp))
        (mul_le_mul_of_nonneg_left (ih2 mr) (div_nonneg (shapCover_pos hs ho h6 h9).1 hp))
  | @three i n l r m h hl hr' hmm a b c h1 h2 h3 h4 h5 h6 h7 h8 h9 h10 h11 h12 _ _ _ ih1 ih2 ih3 =>
    cases h' with
    | leaf g1 g2 => rw [h1] at g1; cases g1; rw [h2] at g2; cases g2
    | known g1 g2 g3 => rw [h1] at g1; cases g1; exact absurd g3 h3
    | two g1 g2 g3 g4 =>
      rw [h1] at g1; cases g1
      exact absurd g4 (by rintro (e | e); exacts [h4 e, h5 e])
    | three g1 g2 g3 g4 g5 g6 g7 g8 g9 g10 g11 g12 ml mr mm =>
      rw [h1] at g1; cases g1
      rw [h6] at g6; cases g6
      rw [h7] at g7; cases g7
      rw [h8] at g8; cases g8
      rw [h9] at g9; cases g9
      rw [h10] at g10; cases g10
      rw [h11] at g11; cases g11
      rw [h12] at g12; cases g12
      have hp := ((shapCover_pos hs ho h1 h9).2 h2).le
      exact add_le_add (add_le_add (mul_le_mul_of_nonneg_left (ih1 ml) (div_nonneg (shapCover_pos hs ho h6 h10).1 hp))
        (mul_le_mul_of_nonneg_left (ih2 mr) (div_nonneg (shapCover_pos hs ho h7 h11).1 hp)))
        (mul_le_mul_of_nonneg_left (ih3 mm) (div_nonneg (shapCover_pos hs ho h8 h12).1 hp))

/-- The value of a set without the feature does not depend on the feature. -/
theorem CondExp.other {f : Nat} {row row' : Nat → Option (FX m64)} (hsame : ∀ g, g ≠ f → row g = row' g) {U : Finset Nat}
    (hf : f ∉ U) {i : Nat} {e : K} (h : CondExp t.nodes row missing U i e) : CondExp t.nodes row' missing U i e := by
  induction h with
  | leaf h1 h2 h3 => exact .leaf h1 h2 h3
  | known h1 h2 h3 h4 h5 _ ih =>
    refine .known h1 h2 h3 ?_ h5 ih
    rw [← hsame _ (fun e => hf (e ▸ h3))]
    exact h4
  | two h1 h2 h3 h4 h5 h6 h7 h8 h9 _ _ ih1 ih2 => exact .two h1 h2 h3 h4 h5 h6 h7 h8 h9 ih1 ih2
  | three h1 h2 h3 h4 h5 h6 h7 h8 h9 h10 h11 h12 _ _ _ ih1 ih2 ih3 =>
    exact .three h1 h2 h3 h4 h5 h6 h7 h8 h9 h10 h11 h12 ih1 ih2 ih3

/-- Games which agree without `f` and are ordered with `f`. -/
theorem shapleyValue_le {N : Finset Nat} {f : Nat} (hf : f ∈ N) {v v' : Finset Nat → K}
    (h1 : ∀ U, f ∉ U → v U = v' U) (h2 : ∀ U, f ∈ U → v U ≤ v' U) : shapleyValue N v f ≤ shapleyValue N v' f := by
  rw [shapleyValue_eq hf, shapleyValue_eq hf]
  refine Finset.sum_le_sum fun U hU => mul_le_mul_of_nonneg_left ?_ (cw_nonneg _ _)
  have : f ∉ U := fun h => by simpa using Finset.mem_powerset.1 hU h
  rw [h1 U this]
  exact sub_le_sub_right (h2 _ (Finset.mem_insert_self f U)) _

/-- **C145** (boosters, partial).  Exact arithmetic.  If in every tree all splits below splits on constrained
features are on constrained features, then of two rows of any data which differ in one constrained feature only, where
both have a value, the row which the constraint favours has the larger Shapley contribution of that feature.  Full
claim: without the condition on the trees.  It is false, see `C145_counterexample`. -/
theorem C145_booster_partial {R : Type} {env : Env R (FX m32) (FX m64)} {b b' : Booster (FX m32) (FX m64)}
    {y : List K} {ev : Option (List (EvalSet (FX m64)))} {l1 l2 mds lr : K}
    (h : PlainFit env b X y w ev b' l1 l2 mds lr) (hlr : 0 ≤ lr)
    (hs : ∀ t ∈ b'.trees, OnlyConstrainedBelow (fun f => b.constraintsMap.lookup f) t.nodes)
    (data : Matrix (FX m64)) (hd : data.Shaped) (hcols : X.cols ≤ data.cols)
    (hread : ∀ v ∈ data.data, Readable b.missing v) (hu : b'.used ≤ b'.trees.length) :
    ∃ rows : List (List K), b'.predictContributions data .shapley = .ok (rows.flatten.map FX.fin) ∧
      rows.length = data.rows ∧ (∀ r ∈ rows, r.length = data.cols + 1) ∧
      ∀ (i j f : Nat), f < data.cols → i < data.rows → j < data.rows →
        Comparable (fun f => b.constraintsMap.lookup f) b.missing f (data.entry i) (data.entry j) →
        ∃ r r' x x', rows[i]? = some r ∧ rows[j]? = some r' ∧ r[f]? = some x ∧ r'[f]? = some x' ∧ x ≤ x' := by
  obtain ⟨base, binned, st, stop, N, hT⟩ := Booster.fit_trace h.fit
  have hsame := hT.same N (le_refl _)
  unfold Booster.SameParams at hsame
  rw [hT.last] at hsame
  obtain ⟨bs, hb⟩ : b'.baseScore.IsFin := by
    rw [hsame]; exact h.base base hT.base_eq
  have hmiss : b'.missing = b.missing := by rw [hsame]
  have hE := h.explainable
  obtain ⟨rows, e, hl, H⟩ := C16_shapley b' data hd hE.wf hE.values hE.covers
    (fun t ht i hi n hn hl => by
      obtain ⟨v, hv⟩ := entry_shaped hd hi
        (lt_of_lt_of_le (fit_featuresBelow h.rng h.fit t ht n hn hl) hcols)
      exact ⟨v, hv, by rw [hmiss]; exact hread v (List.mem_of_getElem? hv)⟩) hu bs hb
  refine ⟨rows, e, hl, fun r hr => ?_, fun i j f hf hi hj hcmp => ?_⟩
  · obtain ⟨i, hi⟩ := List.mem_iff_getElem?.1 hr
    exact (H i r hi).1
  have g1 := List.getElem?_eq_getElem (l := rows) (i := i) (by omega)
  have g2 := List.getElem?_eq_getElem (l := rows) (i := j) (by omega)
  obtain ⟨-, games, a1, a2, -⟩ := H i _ g1
  obtain ⟨-, games', b1, b2, -⟩ := H j _ g2
  refine ⟨_, _, _, _, g1, g2, a2 f hf, b2 f hf, ?_⟩
  have tree : ∀ t ∈ b'.trees, ∀ E E' : Finset Nat → K,
      (∀ U, CondExp t.nodes (data.entry i) b'.missing U 0 (E U)) →
      (∀ U, CondExp t.nodes (data.entry j) b'.missing U 0 (E' U)) →
      shapleyValue (Finset.range data.cols) E f ≤ shapleyValue (Finset.range data.cols) E' f := by
    intro t ht E E' hE1 hE2
    obtain ⟨binned, p, k, cfg, rows, hA⟩ := h.tree_mem ht
    have hcon : cfg.splitter.params.getConstraint = fun f => b.constraintsMap.lookup f := by
      rw [hA.treeAt.fitted.splitter]
      funext g
      unfold Booster.splitter
      split <;> rfl
    obtain ⟨o, gs, nodes, hV⟩ := hA.trained.view hA.treeAt.fitted.fit
    obtain ⟨x1, x2, x3⟩ := hV.allowed hA.trained hA.params hlr (by rw [hcon]; exact hs t ht)
    rw [hcon] at x3
    refine shapleyValue_le (Finset.mem_range.2 hf) (fun U hU => ?_) (fun U _ => ?_)
    · exact ((hE1 U).other hcmp.same hU).unique (hE2 U)
    · exact CondExp.le (con := fun f => b.constraintsMap.lookup f) (hE.split t ht) (hE.covers t ht) (hE.add t ht) x1 x2
        (Allowed.between hlr) x3 (f := f) (by rw [hmiss]; exact hcmp) (hE1 U) (hE2 U)
  have key : ∀ (ts : List (Tree (FX m32) (FX m64))) (gs gs' : List (Finset Nat → K)), (∀ t ∈ ts, t ∈ b'.trees) →
      List.Forall₂ (fun t E => ∀ U, CondExp t.nodes (data.entry i) b'.missing U 0 (E U)) ts gs →
      List.Forall₂ (fun t E => ∀ U, CondExp t.nodes (data.entry j) b'.missing U 0 (E U)) ts gs' →
      (gs.map fun E => shapleyValue (Finset.range data.cols) E f).sum ≤
        (gs'.map fun E => shapleyValue (Finset.range data.cols) E f).sum := by
    intro ts gs gs' hmem h1
    induction h1 generalizing gs' with
    | nil => intro h2; cases h2; exact le_rfl
    | @cons t E ts gs hx _ ih =>
      intro h2
      cases h2 with
      | @cons _ E' _ gs' hx' h2 =>
        simp only [List.map_cons, List.sum_cons]
        exact add_le_add (tree t (hmem t (by simp)) E E' hx hx') (ih _ (fun t ht => hmem t (by simp [ht])) h2)
  exact key _ _ _ (fun t ht => List.mem_of_mem_take ht) a1 b1

end

/-! ### A violation, and an example -/

/-- **C145** is false in general.  With a Positive constraint on feature 0 and none on feature 1, the rows 1 and 5
differ in feature 0 only, which is 0 in row 1 and 1 in row 5, and its contribution falls from 9/8 to -9/8. -/
theorem C145_counterexample :
    ∃ b' out, PlainFit exEnv exDep depX depY (List.replicate 8 (1 : ℚ)) none b' 0 1 0 1 ∧
      Comparable (fun f => exDep.constraintsMap.lookup f) exDep.missing 0 (depX.entry 1) (depX.entry 5) ∧
      b'.predictContributions depX .shapley = .ok out ∧
      out[3 * 1 + 0]? = some (q (9/8)) ∧ out[3 * 5 + 0]? = some (q (-9/8)) := by
  have : (match exDep.fit exEnv depX (depY.map FX.fin) ((List.replicate 8 (1 : ℚ)).map FX.fin) none with
    | .ok (b', .ok ()) => match b'.predictContributions depX .shapley with
      | .ok out => decide ((out[3 * 1 + 0]? : Option Q) = some (q (9/8)) ∧ (out[3 * 5 + 0]? : Option Q) = some (q (-9/8)))
      | _ => false
    | _ => false) = true := by decide +kernel
  split at this
  · rename_i b' h
    split at this
    · rename_i out ho
      obtain ⟨h1, h2⟩ := of_decide_eq_true this
      refine ⟨b', out, ?_, ?_, ho, h1, h2⟩
      · exact
          { sorter := exSorter_ok, rng := exRng_ok, shaped := rfl, ylen := rfl, wlen := rfl
            max := by decide +kernel
            minLeafWeight := by decide
            l1_eq := rfl, l2_eq := rfl, mds_eq := rfl, lr_eq := rfl, l2_nonneg := by norm_num
            positive := .inl (by norm_num)
            goss := fun h => nomatch h
            exp := fun h => nomatch h
            base := fun s hs => by
              have hs : s = exDep.baseScore := hs
              rw [hs]; exact ⟨_, rfl⟩
            fit := h }
      · refine ⟨fun g hg => ?_, q 0, q 1, rfl, rfl, by decide, by decide, .inl ⟨rfl, by decide⟩⟩
        obtain ⟨g, rfl⟩ : ∃ k, g = k + 1 := ⟨g - 1, by omega⟩
        cases g with
        | zero => rfl
        | succ g =>
          have e1 : depX.data.length ≤ (g + 2) * 8 + 1 := by show 16 ≤ _; omega
          have e2 : depX.data.length ≤ (g + 2) * 8 + 5 := by show 16 ≤ _; omega
          show depX.data[(g + 2) * 8 + 1]? = depX.data[(g + 2) * 8 + 5]?
          rw [List.getElem?_eq_none e1, List.getElem?_eq_none e2]
    · cases this
  · cases this

/-- The hypotheses are met: both features are constrained and split on, and the contribution of feature 0 rises from
-165/32 in row 0 to 165/32 in row 2. -/
example : ∃ b' out, PlainFit exEnv exBoth monoX [0, 10, 20, 5] (List.replicate 4 (1 : ℚ)) none b' 0 0 0 1 ∧
      (∀ t ∈ b'.trees, OnlyConstrainedBelow (fun f => exBoth.constraintsMap.lookup f) t.nodes) ∧
      monoX.Shaped ∧ (∀ v ∈ monoX.data, Readable exBoth.missing v) ∧ b'.used ≤ b'.trees.length ∧
      b'.predictContributions monoX .shapley = .ok out ∧
      out[3 * 0 + 0]? = some (q (-165/32)) ∧ out[3 * 2 + 0]? = some (q (165/32)) := by
  have : (match exBoth.fit exEnv monoX [q 0, q 10, q 20, q 5] (List.replicate 4 (q 1)) none with
    | .ok (b', .ok ()) => match b'.predictContributions monoX .shapley with
      | .ok out => decide ((out[3 * 0 + 0]? : Option Q) = some (q (-165/32)) ∧
        (out[3 * 2 + 0]? : Option Q) = some (q (165/32)) ∧ b'.used ≤ b'.trees.length ∧
        ∀ t ∈ b'.trees, ∀ n ∈ t.nodes, n.isLeaf = false →
          (exBoth.constraintsMap.lookup n.splitFeature = some .positive ∨
            exBoth.constraintsMap.lookup n.splitFeature = some .negative))
      | _ => false
    | _ => false) = true := by decide +kernel
  split at this
  · rename_i b' h
    split at this
    · rename_i out ho
      obtain ⟨h1, h2, h3, h4⟩ := of_decide_eq_true this
      exact ⟨b', out, monoPlain rfl rfl rfl rfl le_rfl rfl rfl rfl rfl ⟨_, rfl⟩ rfl h,
        fun t ht _ _ _ n' _ _ _ _ hn' hl' => h4 t ht n' (List.mem_of_getElem? hn') hl', rfl, by decide +kernel, h3, ho,
        h1, h2⟩
    · cases this
  · cases this

end Verif
