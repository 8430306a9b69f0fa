import Verif.Proofs.Route
import Verif.Proofs.Average
import Verif.Proofs.Contrib
import Verif.Props.Predict
import Verif.Spec.ExampleModel
import Mathlib.Tactic.FieldSimp
import Mathlib.Tactic.Positivity
import Mathlib.Tactic.Linarith

/-!
# C39 Partial dependence
-/

namespace Verif

open scoped Verif

variable {K : Type} [Field K] [LinearOrder K] {m32 m64 : Fmt K}

/-- `Mixture nodes f v missing i ps`: below node `i`, with feature `f` known to be `v` and all other
features unknown, `ps` lists the leaves that can be reached with their probability: a split on `f` is
decided, any other split goes to each child with probability proportional to the child's cover. -/
inductive Mixture (nodes : List (Node (FX m32) (FX m64))) (f : Nat) (v missing : FX m64) :
    Nat → List (K × Node (FX m32) (FX m64)) → Prop
  | leaf {i : Nat} {n : Node (FX m32) (FX m64)} : nodes[i]? = some n → n.isLeaf = true →
      Mixture nodes f v missing i [(1, n)]
  | known {i : Nat} {n : Node (FX m32) (FX m64)} {ps} : nodes[i]? = some n → n.isLeaf = false →
      n.splitFeature = f → Mixture nodes f v missing (n.childFor missing v) ps →
      Mixture nodes f v missing i ps
  | two {i : Nat} {n l r : Node (FX m32) (FX m64)} {pl pr} : nodes[i]? = some n → n.isLeaf = false →
      n.splitFeature ≠ f → (n.missingNode = n.rightChild ∨ n.missingNode = n.leftChild) →
      nodes[n.leftChild]? = some l → nodes[n.rightChild]? = some r →
      Mixture nodes f v missing n.leftChild pl → Mixture nodes f v missing n.rightChild pr →
      Mixture nodes f v missing i
        (pl.map (fun p => (l.hessianSum.val / (l.hessianSum.val + r.hessianSum.val) * p.1, p.2)) ++
         pr.map (fun p => (r.hessianSum.val / (l.hessianSum.val + r.hessianSum.val) * p.1, p.2)))
  | three {i : Nat} {n l r m : Node (FX m32) (FX m64)} {pl pr pm} : nodes[i]? = some n →
      n.isLeaf = false → n.splitFeature ≠ f →
      n.missingNode ≠ n.rightChild → n.missingNode ≠ n.leftChild →
      nodes[n.leftChild]? = some l → nodes[n.rightChild]? = some r → nodes[n.missingNode]? = some m →
      Mixture nodes f v missing n.leftChild pl → Mixture nodes f v missing n.rightChild pr →
      Mixture nodes f v missing n.missingNode pm →
      Mixture nodes f v missing i
        (pl.map (fun p => (l.hessianSum.val /
            (l.hessianSum.val + r.hessianSum.val + m.hessianSum.val) * p.1, p.2)) ++
         pr.map (fun p => (r.hessianSum.val /
            (l.hessianSum.val + r.hessianSum.val + m.hessianSum.val) * p.1, p.2)) ++
         pm.map (fun p => (m.hessianSum.val /
            (l.hessianSum.val + r.hessianSum.val + m.hessianSum.val) * p.1, p.2)))

/-- The mean value of a mixture of leaves. -/
def mixValue (ps : List (K × Node (FX m32) (FX m64))) : K :=
  (ps.map fun p => p.1 * p.2.weightValue.val).sum

/-- Covers are finite and positive. -/
def Tree.PosCovers (t : Tree (FX m32) (FX m64)) : Prop :=
  ∀ n ∈ t.nodes, ∃ c : K, n.hessianSum = .fin c ∧ 0 < c

/-- Covers are finite and not negative, those of left and right children are positive (a missing branch
may be empty). -/
def Tree.SplitCovers (t : Tree (FX m32) (FX m64)) : Prop :=
  (∀ n ∈ t.nodes, ∃ c : K, n.hessianSum = .fin c ∧ 0 ≤ c) ∧
  ∀ n ∈ t.nodes, n.isLeaf = false → ∀ (j : Nat) (c : Node (FX m32) (FX m64)),
    (j = n.leftChild ∨ j = n.rightChild) → t.nodes[j]? = some c → 0 < c.hessianSum.val

set_option linter.unusedSectionVars false

theorem mixValue_append (a b : List (K × Node (FX m32) (FX m64))) :
    mixValue (a ++ b) = mixValue a + mixValue b := by simp [mixValue]

theorem mixValue_scale (s : K) (a : List (K × Node (FX m32) (FX m64))) :
    mixValue (a.map fun p => (s * p.1, p.2)) = s * mixValue a := by
  induction a with
  | nil => simp [mixValue]
  | cons p a ih =>
    simp only [mixValue, List.map_cons, List.sum_cons] at ih ⊢
    rw [ih]; ring

theorem sum_scale (s : K) (a : List (K × Node (FX m32) (FX m64))) :
    ((a.map fun p => (s * p.1, p.2)).map Prod.fst).sum = s * (a.map Prod.fst).sum := by
  induction a with
  | nil => simp
  | cons p a ih =>
    simp only [List.map_cons, List.sum_cons] at ih ⊢
    rw [ih]; ring

variable [m32.Exact] [m64.Exact] [IsStrictOrderedRing K]

set_option linter.unusedSectionVars false

theorem partialDependence_eq {t : Tree (FX m32) (FX m64)} (ht : t.Wf) (hv : t.FiniteValues)
    (hc : t.SplitCovers) (f : Nat) (v missing : FX m64) (hr : Readable missing v) (fuel i : Nat)
    (hi : i < t.nodes.length) (hf : t.nodes.length ≤ i + fuel) :
    ∃ ps, Mixture t.nodes f v missing i ps ∧
      (∀ p ∈ ps, 0 ≤ p.1 ∧ p.2 ∈ t.nodes ∧ p.2.isLeaf = true) ∧ (ps.map Prod.fst).sum = 1 ∧
      ∀ prop : K, partialDependence t.nodes f v missing fuel i (.fin prop) =
        .ok (.fin (prop * mixValue ps)) := by
  induction fuel generalizing i with
  | zero => omega
  | succ fuel ih =>
    have hn : t.nodes[i]? = some t.nodes[i] := List.getElem?_eq_getElem hi
    generalize t.nodes[i] = n at hn
    have hmem : n ∈ t.nodes := List.mem_of_getElem? hn
    by_cases hl : n.isLeaf = true
    · obtain ⟨w, hw⟩ := hv n hmem
      refine ⟨[(1, n)], .leaf hn hl, by simp [hmem, hl], by simp, fun prop => ?_⟩
      rw [partialDependence, idx, hn, Res.ofOption_some, Res.ok_bind, if_pos hl, hw]
      simp [mixValue, hw, FX.val]
    · have hl' : n.isLeaf = false := by simpa using hl
      have hch : ∀ j, n.IsChild j → j < t.nodes.length ∧ t.nodes.length ≤ j + fuel := by
        intro j hj
        have := ht.child i n j hn hj
        exact ⟨this.2, by omega⟩
      by_cases hs : n.splitFeature = f
      · have hcc : n.IsChild (n.childFor missing v) := by
          refine ⟨hl', ?_⟩
          unfold Node.childFor
          split
          · exact .inr (.inr rfl)
          · split
            · exact .inl rfl
            · exact .inr (.inl rfl)
        obtain ⟨ps, h1, h2, h3, h4⟩ := ih _ (hch _ hcc).1 (hch _ hcc).2
        refine ⟨ps, .known hn hl' hs h1, h2, h3, fun prop => ?_⟩
        rw [partialDependence, idx, hn, Res.ofOption_some, Res.ok_bind, if_neg hl, if_pos hs,
          getChildIdx_eq, if_pos hr, Res.ok_bind, h4]
      · have hL := hch n.leftChild ⟨hl', .inl rfl⟩
        have hR := hch n.rightChild ⟨hl', .inr (.inl rfl)⟩
        have hM := hch n.missingNode ⟨hl', .inr (.inr rfl)⟩
        have eL : t.nodes[n.leftChild]? = some t.nodes[n.leftChild] := List.getElem?_eq_getElem hL.1
        have eR : t.nodes[n.rightChild]? = some t.nodes[n.rightChild] := List.getElem?_eq_getElem hR.1
        have eM : t.nodes[n.missingNode]? = some t.nodes[n.missingNode] := List.getElem?_eq_getElem hM.1
        generalize t.nodes[n.leftChild] = l at eL
        generalize t.nodes[n.rightChild] = r at eR
        generalize t.nodes[n.missingNode] = m at eM
        obtain ⟨cl, el, _⟩ := hc.1 l (List.mem_of_getElem? eL)
        obtain ⟨cr, er, _⟩ := hc.1 r (List.mem_of_getElem? eR)
        obtain ⟨cm, em, nm⟩ := hc.1 m (List.mem_of_getElem? eM)
        have pl : 0 < cl := by
          have := hc.2 n hmem hl' _ l (.inl rfl) eL; rwa [el] at this
        have pr : 0 < cr := by
          have := hc.2 n hmem hl' _ r (.inr rfl) eR; rwa [er] at this
        obtain ⟨ps1, a1, a2, a3, a4⟩ := ih _ hL.1 hL.2
        obtain ⟨ps2, b1, b2, b3, b4⟩ := ih _ hR.1 hR.2
        obtain ⟨ps3, c1, c2, c3, c4⟩ := ih _ hM.1 hM.2
        have scaled : ∀ (s : K) (ps : List (K × Node (FX m32) (FX m64))), 0 ≤ s →
            (∀ p ∈ ps, 0 ≤ p.1 ∧ p.2 ∈ t.nodes ∧ p.2.isLeaf = true) →
            ∀ p ∈ ps.map (fun p => (s * p.1, p.2)), 0 ≤ p.1 ∧ p.2 ∈ t.nodes ∧ p.2.isLeaf = true := by
          intro s ps hs0 hps p hp
          obtain ⟨p', hp', rfl⟩ := List.mem_map.1 hp
          exact ⟨mul_nonneg hs0 (hps p' hp').1, (hps p' hp').2⟩
        by_cases hm : n.hasMissingBranch = true
        · have hm' := (hasMissingBranch_iff n).1 hm
          have htot : cl + cr + cm ≠ 0 := by positivity
          refine ⟨_, .three hn hl' hs hm'.1 hm'.2 eL eR eM a1 b1 c1, ?_, ?_, fun prop => ?_⟩
          · intro p hp
            simp only [el, er, em, FX.val] at hp
            rcases List.mem_append.1 hp with hp | hp
            · rcases List.mem_append.1 hp with hp | hp
              · exact scaled _ ps1 (by positivity) a2 p hp
              · exact scaled _ ps2 (by positivity) b2 p hp
            · exact scaled _ ps3 (by positivity) c2 p hp
          · simp only [List.map_append, List.sum_append, sum_scale, a3, b3, c3, el, er, em, FX.val]
            field_simp
          · rw [partialDependence, idx, hn, Res.ofOption_some, Res.ok_bind, if_neg hl, if_neg hs]
            simp only [idx, eL, eR, eM, Res.ofOption_some, Res.ok_bind, if_pos hm, Res.pure_def, el, er,
              em, FX.fin_add, FX.fin_div _ _ htot, FX.fin_mul, a4, b4, c4]
            simp only [mixValue_append, mixValue_scale, FX.val]
            congr 2
            ring
        · have hm' : n.missingNode = n.rightChild ∨ n.missingNode = n.leftChild := by
            rw [hasMissingBranch_iff, not_and_or, not_not, not_not] at hm; exact hm
          have htot : cl + cr ≠ 0 := by positivity
          refine ⟨_, .two hn hl' hs hm' eL eR a1 b1, ?_, ?_, fun prop => ?_⟩
          · intro p hp
            simp only [el, er, FX.val] at hp
            rcases List.mem_append.1 hp with hp | hp
            · exact scaled _ ps1 (by positivity) a2 p hp
            · exact scaled _ ps2 (by positivity) b2 p hp
          · simp only [List.map_append, List.sum_append, sum_scale, a3, b3, el, er, FX.val]
            field_simp
          · rw [partialDependence, idx, hn, Res.ofOption_some, Res.ok_bind, if_neg hl, if_neg hs]
            simp only [idx, eL, eR, Res.ofOption_some, Res.ok_bind, if_neg hm, Res.pure_def, el, er,
              FX.zero_def, FX.fin_add, add_zero, FX.fin_div _ _ htot, FX.fin_mul, a4, b4]
            simp only [mixValue_append, mixValue_scale, FX.val]
            congr 2
            ring

/-- C39.  The partial dependence of a tree is the mean leaf value over the mixture of the leaves
compatible with the value; the probabilities are not negative and add up to 1. -/
theorem C39_mixture (t : Tree (FX m32) (FX m64)) (ht : t.Wf) (hv : t.FiniteValues)
    (hc : t.SplitCovers) (f : Nat) (v missing : FX m64) (hr : Readable missing v) :
    ∃ ps, Mixture t.nodes f v missing 0 ps ∧
      (∀ p ∈ ps, 0 ≤ p.1 ∧ p.2 ∈ t.nodes ∧ p.2.isLeaf = true) ∧ (ps.map Prod.fst).sum = 1 ∧
      t.valuePartialDependence f v missing =
        .ok (.fin (ps.map fun p => p.1 * p.2.weightValue.val).sum) := by
  have h0 : 0 < t.nodes.length := List.length_pos_iff.2 ht.nonempty
  obtain ⟨ps, h1, h2, h3, h4⟩ := partialDependence_eq ht hv hc f v missing hr t.nodes.length 0 h0
    (by omega)
  refine ⟨ps, h1, h2, h3, ?_⟩
  rw [Tree.valuePartialDependence, FX.one_def, h4, one_mul]; rfl

/-- C39.  Hence it lies between any bounds for the leaf values. -/
theorem C39_between (t : Tree (FX m32) (FX m64)) (ht : t.Wf) (hv : t.FiniteValues)
    (hc : t.SplitCovers) (f : Nat) (v missing : FX m64) (hr : Readable missing v) (lo hi : K)
    (hb : ∀ n ∈ t.nodes, n.isLeaf = true → lo ≤ n.weightValue.val ∧ n.weightValue.val ≤ hi) :
    ∃ x, t.valuePartialDependence f v missing = .ok (.fin x) ∧ lo ≤ x ∧ x ≤ hi := by
  obtain ⟨ps, _, h2, h3, h4⟩ := C39_mixture t ht hv hc f v missing hr
  refine ⟨_, h4, ?_⟩
  have key : ∀ ps : List (K × Node (FX m32) (FX m64)),
      (∀ p ∈ ps, 0 ≤ p.1 ∧ p.2 ∈ t.nodes ∧ p.2.isLeaf = true) →
      lo * (ps.map Prod.fst).sum ≤ (ps.map fun p => p.1 * p.2.weightValue.val).sum ∧
      (ps.map fun p => p.1 * p.2.weightValue.val).sum ≤ hi * (ps.map Prod.fst).sum := by
    intro ps hps
    induction ps with
    | nil => simp
    | cons p ps ih =>
      obtain ⟨ih1, ih2⟩ := ih fun q hq => hps q (by simp [hq])
      obtain ⟨p0, p1, p2⟩ := hps p (by simp)
      obtain ⟨b1, b2⟩ := hb p.2 p1 p2
      have m1 := mul_le_mul_of_nonneg_left b1 p0
      have m2 := mul_le_mul_of_nonneg_left b2 p0
      simp only [List.map_cons, List.sum_cons, mul_add]
      constructor
      · nlinarith
      · nlinarith
  have := key ps h2
  rwa [h3, mul_one, mul_one] at this

/-- C39.  If the tree does not split on the feature, the value does not matter. -/
theorem C39_unused {F D : Type} [Fl F] [Fl D] [FlCast F D] (t : Tree F D) (f : Nat) (v v' missing : D)
    (hu : ∀ n ∈ t.nodes, n.isLeaf = false → n.splitFeature ≠ f) :
    t.valuePartialDependence f v missing = t.valuePartialDependence f v' missing := by
  have key : ∀ (fuel i : Nat) (p : F), partialDependence t.nodes f v missing fuel i p =
      partialDependence t.nodes f v' missing fuel i p := by
    intro fuel
    induction fuel with
    | zero => intro i p; rfl
    | succ fuel ih =>
      intro i p
      rw [partialDependence, partialDependence]
      cases hn : t.nodes[i]? with
      | none => simp [idx, hn]
      | some n =>
        simp only [idx, hn, Res.ofOption_some, Res.ok_bind]
        by_cases hl : n.isLeaf = true
        · rw [if_pos hl, if_pos hl]
        · have hs := hu n (List.mem_of_getElem? hn) (by simpa using hl)
          simp only [hl, hs, if_false, ih]
  exact key _ _ _

/-- C39.  If the tree splits on no other feature, the partial dependence is the prediction for any row
that has the value in that feature. -/
theorem C39_only (t : Tree (FX m32) (FX m64)) (ht : t.Wf) (hv : t.FiniteValues)
    (hc : t.SplitCovers) (f : Nat) (v missing : FX m64) (hr : Readable missing v)
    (hu : ∀ n ∈ t.nodes, n.isLeaf = false → n.splitFeature = f)
    (row : Nat → Option (FX m64)) (hrow : row f = some v) :
    ∃ l, Route t.nodes row missing 0 l ∧
      t.valuePartialDependence f v missing = .ok (up l.weightValue) := by
  obtain ⟨ps, h1, h2, _, h4⟩ := C39_mixture t ht hv hc f v missing hr
  have key : ∀ i ps, Mixture t.nodes f v missing i ps →
      ∃ l, Route t.nodes row missing i l ∧ ps = [(1, l)] := by
    intro i ps h
    induction h with
    | leaf g1 g2 => exact ⟨_, .leaf g1 g2, rfl⟩
    | known g1 g2 g3 _ ih =>
      obtain ⟨l, hl, e⟩ := ih
      exact ⟨l, .step g1 g2 (by rw [g3]; exact hrow) hr hl, e⟩
    | two g1 g2 g3 => exact absurd (hu _ (List.mem_of_getElem? g1) g2) g3
    | three g1 g2 g3 => exact absurd (hu _ (List.mem_of_getElem? g1) g2) g3
  obtain ⟨l, hl, rfl⟩ := key 0 ps h1
  refine ⟨l, hl, ?_⟩
  have hlm : l ∈ t.nodes := (h2 (1, l) (by simp)).2.1
  obtain ⟨w, hw⟩ := hv l hlm
  rw [h4]
  simp [hw, FX.val]

/-- C39, the model.  The partial dependence of a booster is the base score plus the sum over the used
trees. -/
theorem C39_booster (b : Booster (FX m32) (FX m64)) (ts : List (Tree (FX m32) (FX m64)))
    (hts : b.predictionTrees = .ok ts) (hwf : ∀ t ∈ ts, t.Wf) (hv : ∀ t ∈ ts, t.FiniteValues)
    (hc : ∀ t ∈ ts, t.SplitCovers) (f : Nat) (v : FX m64) (hr : Readable b.missing v) (bs : K)
    (hbs : b.baseScore = .fin bs) :
    ∃ xs : List K, List.Forall₂ (fun t x => t.valuePartialDependence f v b.missing = .ok (.fin x)) ts xs ∧
      b.valuePartialDependence f v = .ok (.fin (bs + xs.sum)) := by
  have key : ∀ ts : List (Tree (FX m32) (FX m64)), (∀ t ∈ ts, t.Wf) → (∀ t ∈ ts, t.FiniteValues) →
      (∀ t ∈ ts, t.SplitCovers) → ∃ xs : List K,
      List.Forall₂ (fun t x => t.valuePartialDependence f v b.missing = .ok (.fin x)) ts xs := by
    intro ts
    induction ts with
    | nil => intro _ _ _; exact ⟨[], .nil⟩
    | cons t ts ih =>
      intro h1 h2 h3
      obtain ⟨ps, _, _, _, h⟩ := C39_mixture t (h1 t (by simp)) (h2 t (by simp)) (h3 t (by simp)) f v
        b.missing hr
      obtain ⟨xs, hxs⟩ := ih (fun t ht => h1 t (by simp [ht])) (fun t ht => h2 t (by simp [ht]))
        (fun t ht => h3 t (by simp [ht]))
      exact ⟨_ :: xs, .cons h hxs⟩
  obtain ⟨xs, hxs⟩ := key ts hwf hv hc
  refine ⟨xs, hxs, ?_⟩
  rw [Booster.valuePartialDependence, hts, Res.ok_bind]
  have hm : Res.mapM' (fun t => t.valuePartialDependence f v b.missing) ts =
      .ok (xs.map (FX.fin (m := m64))) := by
    rw [Res.mapM'_eq_ok, List.forall₂_map_right_iff]
    exact hxs
  rw [hm, Res.ok_bind]
  have hsum : ∀ (l : List K) (a : K), (l.map (FX.fin (m := m64))).foldl (· + ·) (.fin a) =
      .fin (a + l.sum) := by
    intro l
    induction l with
    | nil => intro a; simp
    | cons x l ih => intro a; rw [List.map_cons, List.foldl_cons, FX.fin_add, ih, List.sum_cons, add_assoc]
  rw [FX.zero_def, hsum, hbs, FX.fin_add, zero_add, add_comm]

/-! ### Examples -/

example : exTree.Wf := Tree.wf_of_check _ (by decide +kernel)

example : exTree.SplitCovers := by
  constructor
  · intro n hn
    simp only [exTree, List.mem_cons, List.not_mem_nil, or_false] at hn
    rcases hn with rfl | rfl | rfl | rfl | rfl | rfl <;> exact ⟨_, rfl, by norm_num⟩
  · intro n hn hl j c hj hc
    simp only [exTree, List.mem_cons, List.not_mem_nil, or_false] at hn
    rcases hn with rfl | rfl | rfl | rfl | rfl | rfl
    · rcases hj with rfl | rfl <;> (cases hc; simp [exSplit, exLeaf, q, FX.val])
    · rcases hj with rfl | rfl <;> (cases hc; simp [exLeaf, q, FX.val])
    all_goals simp [exLeaf] at hl

example : exTree.FiniteValues := by
  intro n hn
  simp only [exTree, List.mem_cons, List.not_mem_nil, or_false] at hn
  rcases hn with rfl | rfl | rfl | rfl | rfl | rfl <;> exact ⟨_, rfl⟩

example : (match exTree.valuePartialDependence 0 (q 1) FX.nan with
    | .ok x => x
    | _ => FX.nan) = q (5/3) := by decide +kernel

end Verif
