import Verif.Proofs.Prune
import Verif.Props.Range

/-!
# C109: gamma only prunes
-/

namespace Verif

open scoped Verif

set_option linter.unusedSectionVars false

section
variable {F D : Type} [Fl F] [Fl D] [FlCast F D] [Fl.OrdLaws F]

theorem gamma_cut (h0 : ((0 : F) <ᶠ ninf) = false) (c c' : GrowCfg F D) {γ : F}
    (L : GammaLaws γ c.splitter.params.gamma) (hs : c'.splitter = c.splitter.withGamma γ)
    (ht : c'.train = c.train) (hd : c.maxDepth ≤ c'.maxDepth) (sm : SampleMethod) (index : List Nat)
    (t t' : Tree F D) (h : Tree.fit c sm index = .ok t) (h' : Tree.fit c' sm index = .ok t')
    (hl' : t'.nodes.countP Node.isLeaf < c'.maxLeaves) (row : Nat → Option D) (missing : D) (i : Nat)
    (hr : Reaches t.nodes row missing i) (n : Node F D) (hn : t.nodes[i]? = some n) :
    ∃ i' n', Reaches t'.nodes row missing i' ∧ t'.nodes[i']? = some n' ∧ n'.depth = n.depth ∧
      n'.hessianSum = n.hessianSum ∧ (¬ c.splitter.Averages → n'.weightValue = n.weightValue) ∧
      (n.isLeaf = false → n'.isLeaf = false ∧ SameQuestion n n') ∧
      (t.nodes.countP Node.isLeaf < c.maxLeaves → n.isLeaf = true → n'.isLeaf = false →
        c.maxDepth ≤ n.depth ∨ ∃ x : F, n'.splitGain = x - 0 ∧ ((0 : F) <ᶠ x - γ) = true ∧
          ((0 : F) <ᶠ x - c.splitter.params.gamma) = false) := by
  obtain ⟨N, gs, N', gs', hC, hcl, hC', hcl', ha⟩ := Tree.fit_alikeGamma hs ht h h'
  have hsh := cleanUpSplits_shape hcl
  have hsh' := cleanUpSplits_shape hcl'
  have inner : ∀ {i i'}, Pair c.splitter.arity gs gs' i i' → ∀ {n0 n0'}, N[i]? = some n0 →
      N'[i']? = some n0' → n0.isLeaf = false → n0'.isLeaf = false := by
    intro i i' hT n0 n0' e e' hlf
    obtain ⟨g, g', m, m', hg, hg', hsn, hm, hm', _, _, _, _, hml, hml', _⟩ :=
      hT.common h0 L hs ht hC hC' ha
    rw [e] at hm; cases hm
    rw [e'] at hm'; cases hm'
    rw [← Bool.not_eq_true]
    intro hlf'
    rcases (hC'.leaf i' g' hg' (hml'.1 hlf')).2 with hx | hx
    · omega
    · obtain ⟨g1, info, k, kids, hI⟩ := hC.internal (.refl _) e hlf
      have := hI.ghost; rw [hg] at this; cases this
      rcases hx with hx | hx | hx
      · rw [hsn] at hx
        have hx : g.sn.isMissingLeaf = true := hx
        rw [hI.isSplit.notMissing] at hx; cases hx
      · rw [hsn] at hx
        have := hI.isSplit.depth
        have hx : c'.maxDepth < g.sn.depth + 1 := hx
        omega
      · rw [hsn, bestSplit_num, hs, ht] at hx
        cases bestSplit_refused h0 L.anti hx hI.isSplit.best
  -- the counterpart of a node
  have key : ∀ i, Reaches t.nodes row missing i → ∃ i', Pair c.splitter.arity gs gs' i i' ∧
      Reaches t'.nodes row missing i' := by
    intro i hr
    induction hr with
    | root => exact ⟨0, .root, .root⟩
    | @step i n v hr hn hlf hv hrd ih =>
      obtain ⟨i', hT, hr'⟩ := ih
      obtain ⟨g, g', m, m', hg, hg', hsn, hm, hm', _, _, _, _, _, _, hx⟩ :=
        hT.common h0 L hs ht hC hC' ha
      obtain ⟨n0, w, hn0, rfl⟩ := hsh.inv hn
      rw [hm] at hn0; cases hn0
      have hlf' := inner hT hm hm' hlf
      obtain ⟨w', hw'⟩ := hsh'.2 i' m' hm'
      obtain ⟨x1, x2, _, x3, x4, x5⟩ := hx hlf hlf'
      refine ⟨Node.childFor { m' with weightValue := w' } missing v, ?_,
        hr'.step hw' hlf' (by rw [← hv]; exact congrArg row x1) hrd⟩
      unfold Node.childFor
      simp only [x2]
      split
      · exact x5
      · split
        · exact x3
        · exact x4
  obtain ⟨i', hT, hr'⟩ := key i hr
  obtain ⟨g, g', m, m', hg, hg', hsn, hm, hm', e1, e2, e3, e3', hml, hml', hx⟩ :=
    hT.common h0 L hs ht hC hC' ha
  obtain ⟨n0, w, hn0, rfl⟩ := hsh.inv hn
  rw [hm] at hn0; cases hn0
  obtain ⟨w', hw'⟩ := hsh'.2 i' m' hm'
  refine ⟨i', _, hr', hw', e3, e2, fun hav => ?_, fun hlf => ?_, fun hlim hlf hlf' => ?_⟩
  · have a1 := cleanUpSplits_of_not hav hcl
    have a2 := cleanUpSplits_of_not (by rw [hs, withGamma_averages]; exact hav) hcl'
    rw [a1, hm] at hn
    rw [a2, hm'] at hw'
    injection hn with hn; injection hw' with hw'
    have b1 := congrArg Node.weightValue hn
    have b2 := congrArg Node.weightValue hw'
    rw [← b1, ← b2, e1]
  · have hlf' := inner hT hm hm' hlf
    obtain ⟨x1, x2, x3, _⟩ := hx hlf hlf'
    exact ⟨hlf', x1, x2, x3⟩
  · have hlf : m.isLeaf = true := hlf
    have hlf' : m'.isLeaf = false := hlf'
    rcases (hC.leaf i g hg (hml.1 hlf)).2 with hy | hy
    · omega
    · obtain ⟨g1, info, k, kids, hI⟩ := hC'.internal (.refl _) hm' hlf'
      have := hI.ghost; rw [hg'] at this; cases this
      rcases hy with hy | hy | hy
      · have := hI.isSplit.notMissing
        rw [hsn] at this
        have this : g.sn.isMissingLeaf = false := this
        rw [hy] at this; cases this
      · left
        show c.maxDepth ≤ m.depth
        omega
      · right
        have hb := hI.isSplit.best
        rw [hsn, bestSplit_num, hs, ht] at hb
        refine ⟨g.sn.rawGain info, ?_, ?_, bestSplit_gamma_none h0 hy hb⟩
        · show m'.splitGain = _
          rw [hI.gain, hsn]; rfl
        · obtain ⟨hp, j, i, hc, _⟩ := bestSplit_best hb
          have e := (hc.gamma h0 hp).1
          rw [withGamma_params] at e
          simp only at e
          rwa [e] at hp

end

section
variable {R K : Type} [Field K] [LinearOrder K] [IsStrictOrderedRing K] {m32 m64 : Fmt K}

/-- **C109** (nodes).  A node that is not split with some gamma is not split with a larger one; in any
rounding arithmetic, for both splitters. -/
theorem C109_refused [m32.Rounds] (s : Splitter (FX m32)) (γ : FX m32) (hγ : (γ ≤ᶠ s.params.gamma) = true)
    (node : SNode (FX m32) (FX m64)) (cols : List Nat) (r : Option (SplitInfo (FX m32) (FX m64)))
    (h : bestSplit (s.withGamma γ) node cols = .ok none) (h' : bestSplit s node cols = .ok r) : r = none :=
  bestSplit_refused zero_lt_ninf (sub_anti hγ) h h'

/-- **C109** (trees), in exact arithmetic; it is false in floating point.  Fit two trees to the same data, the
second with a smaller gamma, at least the depth limit of the first and fewer leaves than its leaf limit.  Then
each node that a row passes in the first tree has a counterpart that the row passes in the second: at the same
depth, with the same cover, value (unless values are averaged afterwards) and, if it is split, the same split
with the same gain.  If the first tree too has fewer leaves than its limit and no leaf as deep as its depth
limit, only those leaves are split further whose gain is between the two gammas. -/
theorem C109_cut_partial [m32.Exact] (c c' : GrowCfg (FX m32) (FX m64)) (q : K)
    (hq : ((FX.fin q : FX m32) ≤ᶠ c.splitter.params.gamma) = true)
    (hs : c'.splitter = c.splitter.withGamma (FX.fin q)) (ht : c'.train = c.train)
    (hd : c.maxDepth ≤ c'.maxDepth) (sm : SampleMethod) (index : List Nat)
    (t t' : Tree (FX m32) (FX m64)) (h : Tree.fit c sm index = .ok t) (h' : Tree.fit c' sm index = .ok t')
    (hl' : t'.nodes.countP Node.isLeaf < c'.maxLeaves) (row : Nat → Option (FX m64)) (missing : FX m64)
    (i : Nat) (hr : Reaches t.nodes row missing i) (n : Node (FX m32) (FX m64)) (hn : t.nodes[i]? = some n) :
    ∃ i' n', Reaches t'.nodes row missing i' ∧ t'.nodes[i']? = some n' ∧ n'.depth = n.depth ∧
      n'.hessianSum = n.hessianSum ∧ (¬ c.splitter.Averages → n'.weightValue = n.weightValue) ∧
      (n.isLeaf = false → n'.isLeaf = false ∧ SameQuestion n n') ∧
      (t.nodes.countP Node.isLeaf < c.maxLeaves → n.isLeaf = true → n'.isLeaf = false →
        c.maxDepth ≤ n.depth ∨ ((FX.fin q : FX m32) <ᶠ n'.splitGain) = true ∧
          (n'.splitGain ≤ᶠ c.splitter.params.gamma) = true) := by
  obtain ⟨i', n', a1, a2, a3, a4, a5, a6, a7⟩ := gamma_cut zero_lt_ninf c c' (gammaLaws_exact hq) hs ht hd sm
    index t t' h h' hl' row missing i hr n hn
  refine ⟨i', n', a1, a2, a3, a4, a5, a6, fun b1 b2 b3 => (a7 b1 b2 b3).imp_right ?_⟩
  rintro ⟨x, e, e1, e2⟩
  rw [e]
  revert e1 e2 hq
  generalize c.splitter.params.gamma = g
  rw [fx_sub, fx_sub, fx_sub, FX.zero_def]
  intro hq e1 e2
  cases x <;> cases g <;> simp_all [FX.add, FX.neg, Fl.lt, FX.lt, Fl.le, FX.le, FX.rd_eq]

omit [IsStrictOrderedRing K] in
theorem Booster.splitter_gamma (b : Booster (FX m32) (FX m64)) (γ : FX m32) :
    ({ b with gamma := γ } : Booster (FX m32) (FX m64)).splitter = b.splitter.withGamma γ := by
  unfold Booster.splitter
  simp only
  by_cases h : b.createMissingBranch = true
  · rw [if_pos h, if_pos h]; rfl
  · rw [if_neg h, if_neg h]; rfl

/-- **C109** (boosters), in exact arithmetic.  Two fits that differ only in gamma: the first tree with the larger
gamma is a cut of the first tree with the smaller one. -/
theorem C109_booster_partial [m32.Exact] (env : Env R (FX m32) (FX m64)) (b b1 b2 : Booster (FX m32) (FX m64))
    (q : K) (hq : ((FX.fin q : FX m32) ≤ᶠ b.gamma) = true) (data : Matrix (FX m64)) (y w : List (FX m64))
    (ev : Option (List (EvalSet (FX m64)))) (h1 : b.fit env data y w ev = .ok (b1, .ok ()))
    (h2 : ({ b with gamma := FX.fin q } : Booster (FX m32) (FX m64)).fit env data y w ev = .ok (b2, .ok ()))
    (t t' : Tree (FX m32) (FX m64)) (ht : b1.trees[0]? = some t) (ht' : b2.trees[0]? = some t')
    (hl' : t'.nodes.countP Node.isLeaf < b.maxLeaves) (row : Nat → Option (FX m64)) (missing : FX m64)
    (i : Nat) (hr : Reaches t.nodes row missing i) (n : Node (FX m32) (FX m64)) (hn : t.nodes[i]? = some n) :
    ∃ i' n', Reaches t'.nodes row missing i' ∧ t'.nodes[i']? = some n' ∧ n'.depth = n.depth ∧
      n'.hessianSum = n.hessianSum ∧ (¬ b.splitter.Averages → n'.weightValue = n.weightValue) ∧
      (n.isLeaf = false → n'.isLeaf = false ∧ SameQuestion n n') ∧
      (t.nodes.countP Node.isLeaf < b.maxLeaves → n.isLeaf = true → n'.isLeaf = false →
        b.maxDepth ≤ n.depth ∨ ((FX.fin q : FX m32) <ᶠ n'.splitGain) = true ∧
          (n'.splitGain ≤ᶠ b.gamma) = true) := by
  obtain ⟨base, binned, chosen, grad, hess, r, a1, a2, a3, a4⟩ := Booster.fit_first h1 ht
  obtain ⟨base', binned', chosen', grad', hess', r', c1, c2, c3, c4⟩ := Booster.fit_first h2 ht'
  have hbase : base' = base := by
    simp only at c1
    split at a1
    · rename_i hi
      rw [if_pos hi, a1] at c1
      cases c1; rfl
    · rename_i hi
      rw [if_neg hi] at c1
      rw [a1, c1]
  subst hbase
  simp only at c2
  rw [a2] at c2; cases c2
  simp only at c3
  rw [a3] at c3; cases c3
  have hg : b.splitter.params.gamma = b.gamma := by
    unfold Booster.splitter
    split <;> rfl
  have := C109_cut_partial _ _ q (by simp only [hg]; exact hq)
    (by exact Booster.splitter_gamma b (FX.fin q)) (by rfl)
    (by exact le_refl _) _ _ t t' a4 c4 hl' row missing i hr n hn
  simp only [hg] at this
  exact this

end

/-! ### Floating point -/

/-- Four rows and two columns; the columns split the targets almost equally well. -/
def gaX : Matrix F64 := { data := [0, 0, 1, 1, 0, 1, 0, 1].map f64, rows := 4, cols := 2 }

/-- The targets; the second and third differ by `2 ^ -20`. -/
def gaY : List F64 := [10, -2, -2 + 1 / 2 ^ 20, -10].map f64

/-- A booster with one tree of depth 1. -/
def gaB (γ : F32) : Option (Booster F32 F64) := wB.map fun b => { b with maxDepth := 1, l2 := 1, gamma := γ }

/-- The root of the only tree. -/
def gaRoot (γ : F32) : Option (Node F32 F64 × Nat) := do
  let b ← gaB γ
  match b.fit floatEnv gaX gaY ([1, 1, 1, 1].map f64) none with
  | .ok (b', .ok ()) => match b'.trees with
    | [t] => t.nodes[0]?.map fun n => (n, t.nodes.countP Node.isLeaf)
    | _ => none
  | _ => none

/-- **C109** is false in floating point.  Training succeeds with gamma 0 and with gamma `2 ^ -18`, and no limit
on leaves binds.  The smaller gamma splits the root at the second column, the larger one at the first: the
gains are neighbouring numbers, and their differences with `2 ^ -18` are rounded to the same number. -/
theorem C109_counterexample : ∃ n n' : Node F32 F64, gaRoot (f32 (1 / 2 ^ 18)) = some (n, 2) ∧
    gaRoot 0 = some (n', 2) ∧ n.isLeaf = false ∧ n'.isLeaf = false ∧ n.splitFeature = 0 ∧
    n'.splitFeature = 1 ∧ (n.splitGain <ᶠ n'.splitGain) = true ∧
    n.splitGain - f32 (1 / 2 ^ 18) = n'.splitGain - f32 (1 / 2 ^ 18) := by
  have : (match gaRoot (f32 (1 / 2 ^ 18)), gaRoot 0 with
    | some (n, k), some (n', k') => decide (k = 2 ∧ k' = 2 ∧ n.isLeaf = false ∧ n'.isLeaf = false ∧
        n.splitFeature = 0 ∧ n'.splitFeature = 1 ∧ (n.splitGain <ᶠ n'.splitGain) = true ∧
        n.splitGain - f32 (1 / 2 ^ 18) = n'.splitGain - f32 (1 / 2 ^ 18))
    | _, _ => false) = true := by decide +kernel
  split at this
  · rename_i n k n' k' h h'
    obtain ⟨rfl, rfl, h1⟩ := of_decide_eq_true this
    exact ⟨n, n', h, h', h1⟩
  · cases this

/-! ### Examples -/

/-- The hypotheses of `C109_booster_partial`: gamma prunes one of the splits. -/
example : ∃ b1 b2 t t', ({ exFresh with maxLeaves := 20, gamma := q 5 } : Booster Q Q).fit exEnv exX
      exY exW none = .ok (b1, .ok ()) ∧
    ({ exFresh with maxLeaves := 20, gamma := q 0 } : Booster Q Q).fit exEnv exX exY exW none =
      .ok (b2, .ok ()) ∧ b1.trees[0]? = some t ∧ b2.trees[0]? = some t' ∧ 1 < t.nodes.length ∧
    t.nodes.length < t'.nodes.length ∧ t'.nodes.countP Node.isLeaf < 20 := by
  have : (match ({ exFresh with maxLeaves := 20, gamma := q 5 } : Booster Q Q).fit exEnv exX
      exY exW none, ({ exFresh with maxLeaves := 20, gamma := q 0 } : Booster Q Q).fit exEnv exX
      exY exW none with
    | .ok (b1, .ok ()), .ok (b2, .ok ()) => (match b1.trees[0]?, b2.trees[0]? with
      | some t, some t' => decide (1 < t.nodes.length ∧ t.nodes.length < t'.nodes.length ∧
          t'.nodes.countP Node.isLeaf < 20)
      | _, _ => false)
    | _, _ => false) = true := by decide +kernel
  split at this
  · rename_i b1 b2 h1 h2
    split at this
    · rename_i t t' ht ht'
      exact ⟨b1, b2, t, t', h1, h2, ht, ht', of_decide_eq_true this⟩
    · cases this
  · cases this

/-- The hypotheses of `C109_refused`: the root of a fit, split with gamma 0 but not with 1000 and 2000. -/
example : ∃ bd s info, binMatrix exSorter exX exW 8 FX.nan = .ok bd ∧
    growInit (exWide bd .lossGuide) .none [0, 1, 2, 3, 4, 5] = .ok s ∧ ∃ node ∈ s.queue,
      bestSplit ((exWide bd .lossGuide).splitter.withGamma (q 0)) node [0, 1] = .ok (some info) ∧
      bestSplit (((exWide bd .lossGuide).splitter.withGamma (q 2000)).withGamma (q 1000)) node [0, 1] = .ok none ∧
      bestSplit ((exWide bd .lossGuide).splitter.withGamma (q 2000)) node [0, 1] = .ok none := by
  have : (match binMatrix exSorter exX exW 8 FX.nan with
    | .ok bd => (match growInit (exWide bd .lossGuide) .none [0, 1, 2, 3, 4, 5] with
      | .ok s => (match s.queue with
        | node :: _ => (match bestSplit ((exWide bd .lossGuide).splitter.withGamma (q 0)) node [0, 1],
            bestSplit (((exWide bd .lossGuide).splitter.withGamma (q 2000)).withGamma (q 1000)) node [0, 1],
            bestSplit ((exWide bd .lossGuide).splitter.withGamma (q 2000)) node [0, 1] with
          | .ok (some _), .ok none, .ok none => true
          | _, _, _ => false)
        | _ => false)
      | _ => false)
    | _ => false) = true := by decide +kernel
  split at this
  · rename_i bd hbd
    split at this
    · rename_i s hs
      split at this
      · rename_i node l hl
        split at this
        · rename_i info h1 h2 h3
          exact ⟨bd, s, info, hbd, hs, node, by simp [hl], h1, h2, h3⟩
        · cases this
      · cases this
    · cases this
  · cases this

end Verif
