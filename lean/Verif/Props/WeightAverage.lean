import Verif.Props.AverageBalance
import Verif.Props.AverageLeaf
import Verif.Proofs.Balance

/-!
# C150: without regularisation the Weight contributions are the Average contributions
-/

set_option linter.unusedSectionVars false

namespace Verif

open scoped Verif BigOperators

section
variable {K : Type} [Field K] [LinearOrder K] [IsStrictOrderedRing K] {m32 m64 : Fmt K}
  [m32.Exact] [m64.Exact]
variable {t : Tree (FX m32) (FX m64)} {X : Matrix (FX m64)}

/-- Where the value of each node is the average of the leaves below it, the methods Weight and Average agree. -/
theorem contributions_agree {b : Booster (FX m32) (FX m64)} (hwf : ∀ t ∈ b.trees, t.Wf)
    (hav : ∀ t ∈ b.trees, ∀ (i : Nat) (n : Node (FX m32) (FX m64)), t.nodes[i]? = some n →
      AvgLeaf t.nodes i (up n.weightValue : FX m64)) (data : Matrix (FX m64)) :
    b.predictContributions data .weight = b.predictContributions data .average := by
  have key : ∀ t ∈ b.trees, ∃ ws, t.distributeLeafWeights = .ok ws ∧ ∀ (r cs : List (FX m64)),
      t.contribWeight r cs b.missing = t.contribAverage r cs ws b.missing := by
    intro t ht
    have hwf := hwf t ht
    obtain ⟨ws, e1, e2, e3⟩ := distributeLeafWeights_spec hwf
    have hfill : ∀ i, i < t.nodes.length → Filled t.nodes ws i := by
      intro i
      induction i using Nat.strong_induction_on with
      | _ i ih =>
        intro hi
        by_cases h0 : i = 0
        · rw [h0]; exact e3
        · obtain ⟨j, n, hj, hc⟩ := hwf.parent i (by omega) hi
          cases ih j (hwf.child j n i hj hc).1 (List.getElem?_eq_some_iff.1 hj).1 with
          | mk g1 g2 g3 g4 =>
            rw [hj] at g1; cases g1
            exact g4 i hc
    have hws : ∀ (i : Nat) (n : Node (FX m32) (FX m64)), t.nodes[i]? = some n →
        ws[i]? = some (up n.weightValue) := by
      intro i n hn
      cases hfill i (List.getElem?_eq_some_iff.1 hn).1 with
      | mk g1 g2 g3 g4 => rw [g2, g3.unique (hav t ht i n hn)]
    refine ⟨ws, e1, fun r cs => ?_⟩
    unfold Tree.contribWeight Tree.contribAverage
    have h0 := List.getElem?_eq_getElem (List.length_pos_iff.2 hwf.nonempty)
    rw [idx_eq_ok.2 h0, idx_eq_ok.2 (hws _ _ h0)]
    simp only [Res.ok_bind]
    refine Res.bind_congr fun cs' _ => ?_
    rw [contribWalk_congr fun i n j hn hc => ?_]
    have hj := List.getElem?_eq_getElem (hwf.child i n j hn hc).2
    rw [deltaWeight, deltaAverage, idx_eq_ok.2 hj, idx_eq_ok.2 (hws _ _ hj), idx_eq_ok.2 (hws _ _ hn)]
    rfl
  unfold Booster.predictContributions Booster.contribRows
  simp only [Res.bind_assoc']
  refine Res.bind_congr fun ts hts' => ?_
  have hsub : ∀ t ∈ ts, t ∈ b.trees := by
    intro t ht
    rw [predictionTrees_eq_ok] at hts'
    rw [hts'.2] at ht
    exact List.mem_of_mem_take ht
  obtain ⟨ws, hws⟩ : ∃ ws, Res.mapM' Tree.distributeLeafWeights ts = .ok ws :=
    Res.mapM'_exists fun t ht => by
      obtain ⟨w, hw, _⟩ := key t (hsub t ht); exact ⟨w, hw⟩
  rw [hws, Res.ok_bind]
  congr 2
  funext i
  unfold contribsRowAlone contribsRowAverage
  refine Res.bind_congr fun r _ => ?_
  rw [Res.mapM'_eq_ok] at hws
  generalize initContribs data.cols b.baseScore = cs
  clear hts'
  induction hws generalizing cs with
  | nil => rfl
  | @cons t w' ts ws hw _ ih =>
    rw [List.zip_cons_cons, Res.foldM'_cons, Res.foldM'_cons]
    obtain ⟨w1, h1, h2⟩ := key t (hsub t (by simp))
    rw [hw] at h1; cases h1
    simp only [rowPredFn, h2]
    exact Res.bind_congr fun cs' _ => ih (fun t ht => hsub t (by simp [ht])) cs'

section
variable {R : Type} {env : Env R (FX m32) (FX m64)} {b b' : Booster (FX m32) (FX m64)} {y w p : List K}
  {ev : Option (List (EvalSet (FX m64)))} {lr : K} {binned : BinnedData (FX m64)} {k : Nat}
  {cfg : GrowCfg (FX m32) (FX m64)} {rows : List Nat}

theorem PlainTree.imputer {l1 l2 mds : K} (hP : PlainTree env b X y w l1 l2 mds lr binned p k t cfg rows)
    (hb : b.createMissingBranch = false) : ∃ q, cfg.splitter = .imputer q := by
  have hsp := hP.treeAt.fitted.splitter
  unfold Booster.splitter at hsp
  rw [if_neg (by simp [hb])] at hsp
  exact ⟨_, hsp⟩

theorem PlainTree.unconstrained {l1 l2 mds : K} (hP : PlainTree env b X y w l1 l2 mds lr binned p k t cfg rows)
    (hc : b.monotoneConstraints = none) (f : Nat) :
    noConstraint (cfg.splitter.params.getConstraint f) = true := by
  rw [hP.treeAt.fitted.splitter]
  have : ∀ s : Splitter (FX m32), s.params.constraintsMap = [] → noConstraint (s.params.getConstraint f) = true := by
    intro s hs'
    simp [SplitParams.getConstraint, hs', noConstraint]
  apply this
  unfold Booster.splitter
  split <;> simp [Splitter.params, Booster.constraintsMap, hc]

/-- Without regularisation each node has the value that brings the sum of the first derivatives of its rows to 0,
scaled by the learning rate. -/
theorem newton_node (h : PlainFit env b X y w ev b' 0 0 0 lr) (ht : t ∈ b'.trees)
    (hP : PlainTree env b X y w 0 0 0 lr binned p k t cfg rows) (hb : b.createMissingBranch = false)
    (hc : b.monotoneConstraints = none) {i : Nat} {n : Node (FX m32) (FX m64)} (hn : t.nodes[i]? = some n) :
    ∃ x, n.weightValue = FX.fin x ∧
      n.hessianSum = FX.fin (passSum t X b.missing rows i (rowVals cfg.train.hess)) ∧
      0 < passSum t X b.missing rows i (rowVals cfg.train.hess) ∧
      passSum t X b.missing rows i (rowVals cfg.train.hess) * x =
        -(lr * passSum t X b.missing rows i (rowVals cfg.train.grad)) := by
  obtain ⟨q, hq⟩ := hP.imputer hb
  obtain ⟨o, gs, nodes, hV⟩ := hP.trained.view hP.treeAt.fitted.fit
  have hom := hV.no_onlyMissing hq i
  have hE := h.explainable
  have hcov := C01_cover hP.trained hP.treeAt.fitted.fit hn
  rw [rowsAt_sum] at hcov
  have hpos : 0 < passSum t X b.missing rows i (rowVals cfg.train.hess) := by
    by_cases h0 : i = 0
    · subst h0
      rw [passSum_root]
      simpa using hP.params.root
    · obtain ⟨j, n', hj, hch⟩ := (hE.wf t ht).parent i (by omega) (List.getElem?_eq_some_iff.1 hn).1
      have hlr : i = n'.leftChild ∨ i = n'.rightChild := by
        by_contra hne
        rw [not_or] at hne
        rcases hch.2 with h1 | h1 | h1
        · exact hne.1 h1
        · exact hne.2 h1
        · exact hom ⟨j, n', hj, hch.1, h1.symm, fun e => hne.1 e.symm, fun e => hne.2 e.symm⟩
      have := (hE.split t ht).2 n' (List.mem_of_getElem? hj) hch.1 i n hlr hn
      rw [hcov] at this
      exact this
  obtain ⟨x, hx, hstep⟩ := C02_value hP.trained hP.treeAt.fitted.fit hP.params.l1_eq hP.params.l2_eq hP.params.mds_eq
    hP.params.lr_eq le_rfl le_rfl (hP.unconstrained hc) (by intro p' hp'; rw [hq] at hp'; cases hp') hn hom
    (by rintro ⟨p', hp', -⟩; rw [hq] at hp'; cases hp') (by rw [rowsAt_sum, add_zero]; exact hpos)
  rw [rowsAt_sum, rowsAt_sum] at hstep
  refine ⟨x * lr, hx, hcov, hpos, ?_⟩
  have := hstep.newton hpos
  linear_combination lr * this

/-- Without regularisation the value of a node is the average of the leaves below it, weighted with their covers. -/
theorem newton_condExp (h : PlainFit env b X y w ev b' 0 0 0 lr) (ht : t ∈ b'.trees)
    (hb : b.createMissingBranch = false) (hc : b.monotoneConstraints = none) {row : Nat → Option (FX m64)} (i : Nat)
    {n : Node (FX m32) (FX m64)} (hn : t.nodes[i]? = some n) {x : K} (hx : n.weightValue = FX.fin x) :
    CondExp t.nodes row b.missing ∅ i x := by
  obtain ⟨binned, p, k, cfg, rows, hP⟩ := h.tree_mem ht
  have hwf := h.explainable.wf t ht
  obtain ⟨q, hq⟩ := hP.imputer hb
  obtain ⟨o, gs, nodes, hV⟩ := hP.trained.view hP.treeAt.fitted.fit
  have hi := (List.getElem?_eq_some_iff.1 hn).1
  induction hk : t.nodes.length - i using Nat.strong_induction_on generalizing i n x with
  | _ k ih =>
    subst hk
    cases hl : n.isLeaf with
    | true => exact .leaf hn hl hx
    | false =>
      have hL := hwf.child i n n.leftChild hn ⟨hl, .inl rfl⟩
      have hR := hwf.child i n n.rightChild hn ⟨hl, .inr (.inl rfl)⟩
      have hnl := List.getElem?_eq_getElem hL.2
      have hnr := List.getElem?_eq_getElem hR.2
      have hmiss : n.missingNode = n.rightChild ∨ n.missingNode = n.leftChild := by
        by_contra hne
        rw [not_or] at hne
        exact hV.no_onlyMissing hq n.missingNode ⟨i, n, hn, hl, rfl, fun e => hne.2 e.symm, fun e => hne.1 e.symm⟩
      obtain ⟨xi, a1, a2, a3, a4⟩ := newton_node h ht hP hb hc hn
      obtain ⟨xl, b1, b2, b3, b4⟩ := newton_node h ht hP hb hc hnl
      obtain ⟨xr, c1, c2, c3, c4⟩ := newton_node h ht hP hb hc hnr
      rw [hx] at a1; injection a1 with a1; subst a1
      have e := CondExp.two (missing := b.missing) (row := row) (S := ∅) hn hl (by simp) hmiss hnl hnr a2 b2 c2
        (ih _ (by omega) _ hnl b1 hL.2 rfl) (ih _ (by omega) _ hnr c1 hR.2 rfl)
      have hs : ({n.leftChild, n.rightChild, n.missingNode} : Finset Nat) = {n.leftChild, n.rightChild} := by
        ext x; simp only [Finset.mem_insert, Finset.mem_singleton]
        rcases hmiss with g4 | g4 <;> rw [g4] <;> tauto
      have hd := hwf.distinct i n hn hl
      have hsplit : ∀ g : Nat → K, passSum t X b.missing rows i g =
          passSum t X b.missing rows n.leftChild g + passSum t X b.missing rows n.rightChild g := by
        intro g
        have := passSum_split (X := X) (missing := b.missing) hwf hn hl (rows := rows)
          (ch := fun r => match X.entry r n.splitFeature with
            | some v => n.childFor b.missing v
            | none => 0)
          (fun r hr => by
            obtain ⟨v, h1, h2⟩ := h.rowReadable t ht r (hP.trained.rows_lt r hr) n (List.mem_of_getElem? hn) hl
            exact ⟨v, h1, h2, by simp only [h1]⟩) (fun r _ => g r)
        rw [this, hs, Finset.sum_pair hd]
      have hval : ∀ {H Hl Hr G Gl Gr x xl xr : K}, 0 < H → H = Hl + Hr → G = Gl + Gr → H * x = -(lr * G) →
          Hl * xl = -(lr * Gl) → Hr * xr = -(lr * Gr) → Hl / H * xl + Hr / H * xr = x := by
        intro H Hl Hr G Gl Gr x xl xr h0 h1 h2 h3 h4 h5
        have : H * x = Hl * xl + Hr * xr := by rw [h3, h4, h5, h2]; ring
        field_simp
        linarith
      rw [hval a3 (hsplit _) (hsplit _) a4 b4 c4] at e
      exact e

/-! ### C150 -/

/-- C150.  Exact arithmetic.  Without regularisation (`l1`, `l2` and `max_delta_step` 0), monotone constraints and
missing branches, the value of every node, inner nodes included, is the average of the leaves below it, weighted
with their covers. -/
theorem C150_nodes (h : PlainFit env b X y w ev b' 0 0 0 lr) (hb : b.createMissingBranch = false)
    (hc : b.monotoneConstraints = none) (ht : t ∈ b'.trees) {i : Nat} {n : Node (FX m32) (FX m64)}
    (hn : t.nodes[i]? = some n) : AvgLeaf t.nodes i (up n.weightValue : FX m64) := by
  obtain ⟨binned, p, k, cfg, rows, hP⟩ := h.tree_mem ht
  obtain ⟨x, hx, -⟩ := newton_node h ht hP hb hc hn
  have := (newton_condExp h ht hb hc (row := fun _ => none) i hn hx).avgLeaf (h.explainable.covers t ht)
  rw [hx]
  exact this

/-- C150.  So the contributions of the methods Weight and Average are the same numbers for any data and any number of
trees predicted with. -/
theorem C150_contributions (h : PlainFit env b X y w ev b' 0 0 0 lr) (hb : b.createMissingBranch = false)
    (hc : b.monotoneConstraints = none) (it : Option Nat) (data : Matrix (FX m64)) :
    ({ b' with predictionIteration := it }).predictContributions data .weight =
      ({ b' with predictionIteration := it }).predictContributions data .average :=
  contributions_agree (b := { b' with predictionIteration := it }) h.explainable.wf
    (fun _ ht _ _ hn => C150_nodes h hb hc ht hn) data

/-- C150.  With squared loss the Weight contributions of each feature then cancel out over the training data, when
weighted with the sample weights. -/
theorem C150_balance (h : PlainFit env b X y w ev b' 0 0 0 lr) (hb : b.createMissingBranch = false)
    (hc : b.monotoneConstraints = none) (ho : b.objectiveType = .squaredLoss) (it : Option Nat)
    (out : List (FX m64)) (hp : ({ b' with predictionIteration := it }).predict X = .ok out) :
    ∃ (rows : List (List K)) (p : List K) (bias : K), out = p.map FX.fin ∧
      ({ b' with predictionIteration := it }).predictContributions X .weight = .ok (rows.flatten.map FX.fin) ∧
      p.length = X.rows ∧ rows.length = X.rows ∧
      (∀ r ∈ rows, r.length = X.cols + 1 ∧ r[X.cols]? = some bias) ∧
      (∀ f < X.cols, ((List.range X.rows).map fun i => w.getD i 0 * (rows.getD i []).getD f 0).sum = 0) ∧
      w.sum * bias = ((List.range X.rows).map fun i => w.getD i 0 * p.getD i 0).sum := by
  have hs : b.sampleMethod = .none := (h.positive.resolve_left (lt_irrefl 0)).1
  rw [C150_contributions h hb hc]
  exact C148_balance h ho hs it out hp

end
end

/-! ### The hypotheses are met, and regularisation matters -/

/-- A fit of depth 2 without regularisation. -/
example : ∃ b' : Booster Q Q, PlainFit exEnv (exDepth 2) exAnd [0, 0, 0, 4] [(1 : ℚ), 2, 1, 3] none b' 0 0 0
      (1/2) ∧ (exDepth 2).createMissingBranch = false ∧ (exDepth 2).monotoneConstraints = none ∧
      b'.predictContributions exAnd .weight = .ok [q (-9/7), q 0, q (79/56), q (-9/7), q 0, q (79/56),
        q (27/28), q (-9/4), q (79/56), q (27/28), q (3/4), q (79/56)] := by
  have : (match (exDepth 2).fit exEnv exAnd [q 0, q 0, q 0, q 4] [q 1, q 2, q 1, q 3] none with
    | .ok (b', .ok ()) => decide (
      b'.predictContributions exAnd .weight = .ok [q (-9/7), q 0, q (79/56), q (-9/7), q 0, q (79/56),
        q (27/28), q (-9/4), q (79/56), q (27/28), q (3/4), q (79/56)])
    | _ => false) = true := by decide +kernel
  split at this
  · rename_i b' h
    exact ⟨b', exWeighted_plain h, rfl, rfl, of_decide_eq_true this⟩
  · cases this

/-- With `l2 = 1` the methods differ on the same data. -/
example : (match ({ exDepth 2 with l2 := q 1 }).fit exEnv exAnd [q 0, q 0, q 0, q 4] [q 1, q 2, q 1, q 3] none with
    | .ok (b', .ok ()) =>
      decide (b'.predictContributions exAnd .weight ≠ b'.predictContributions exAnd .average)
    | _ => false) = true := by decide +kernel

end Verif
