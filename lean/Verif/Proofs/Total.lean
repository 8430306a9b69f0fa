import Verif.Proofs.Diverge
import Verif.Proofs.Finite
import Verif.Proofs.CleanUp
import Verif.Props.Missing
import Verif.Props.Sampling

/-!
# Growing a tree does not panic
-/

namespace Verif

open scoped Verif

set_option linter.unusedSectionVars false

section
variable {F D : Type} [Fl F] [Fl D] [FlCast F D]

/-- Histograms of rows that exist can be computed. -/
theorem histogramMatrix_total {t : TrainData F D} {rows : List Nat} {sort : Bool}
    (hs : sort = true → ∀ r ∈ rows, r < t.grad.length ∧ r < t.hess.length)
    (hn : sort = false → t.grad.length = rows.length ∧ t.hess.length = rows.length)
    (hc : ∀ col ∈ t.colIndex, ∃ f c, t.data.getCol col = .ok f ∧ t.cuts.getCol col = .ok c ∧ c ≠ [] ∧
      ∀ r ∈ rows, r < f.length) :
    ∃ m, histogramMatrix t.data t.cuts t.grad t.hess rows t.colIndex sort = .ok m := by
  have key : ∀ sg sh : List F, sg.length = rows.length → sh.length = rows.length → ∃ m, (do
      let hists ← Res.mapM' (fun col => do
        let f ← t.data.getCol col
        let c ← t.cuts.getCol col
        createFeatureHistogram f c sg sh rows) t.colIndex
      let ends ← if t.colIndex.length = t.data.cols then pure t.cuts.ends
        else scanEnds t.cuts 0 t.colIndex
      let n := if t.colIndex.length = t.data.cols then t.cuts.nRecords else ends.sum
      .ok { data := hists.flatten, ends, cols := t.colIndex.length, nRecords := n } :
        Res (JaggedMatrix (Bin F D))) = .ok m := by
    intro sg sh e1 e2
    obtain ⟨hists, hh⟩ := Res.mapM'_exists (l := t.colIndex) (f := fun col => do
        let f ← t.data.getCol col
        let c ← t.cuts.getCol col
        createFeatureHistogram f c sg sh rows) (by
      intro col hcol
      obtain ⟨f, c, a1, a2, a3, a4⟩ := hc col hcol
      obtain ⟨m, hm⟩ := (createFeatureHistogram_ok_iff (feature := f) (cuts := c) e1 e2).2 ⟨a3, a4⟩
      exact ⟨m, by rw [a1, Res.ok_bind, a2, Res.ok_bind, hm]⟩)
    obtain ⟨ends, he⟩ := scanEnds_total (cuts := t.cuts) (cols := t.colIndex) (s := 0) fun col hcol => by
      obtain ⟨f, c, _, a2, _⟩ := hc col hcol
      exact ⟨c, a2⟩
    rw [hh, Res.ok_bind]
    split
    · exact ⟨_, rfl⟩
    · rw [he]; exact ⟨_, rfl⟩
  unfold histogramMatrix
  cases sort with
  | true =>
    obtain ⟨sg, e1⟩ := Res.mapM'_exists (f := idx t.grad) (l := rows)
      fun a ha => ⟨_, idx_of_lt (hs rfl a ha).1⟩
    obtain ⟨sh, e2⟩ := Res.mapM'_exists (f := idx t.hess) (l := rows)
      fun a ha => ⟨_, idx_of_lt (hs rfl a ha).2⟩
    rw [if_pos rfl, e1, Res.ok_bind, e2, Res.ok_bind, Res.pure_def, Res.ok_bind]
    exact key sg sh (Res.mapM'_eq_ok.1 e1).length_eq.symm (Res.mapM'_eq_ok.1 e2).length_eq.symm
  | false =>
    rw [if_neg (by simp), Res.pure_def, Res.ok_bind]
    exact key _ _ (hn rfl).1 (hn rfl).2

/-- The root sums of rows that exist can be computed. -/
theorem rootSums_total {sm : SampleMethod} {grad hess : List F} {rows : List Nat}
    (hs : ∀ r ∈ rows, r < grad.length ∧ r < hess.length) :
    ∃ g h, rootSums (D := D) sm grad hess rows = .ok (g, h, decide (sm ≠ .none)) := by
  obtain ⟨sg, e1⟩ := Res.mapM'_exists (f := idx grad) (l := rows)
    fun a ha => ⟨_, idx_of_lt (hs a ha).1⟩
  obtain ⟨sh, e2⟩ := Res.mapM'_exists (f := idx hess) (l := rows)
    fun a ha => ⟨_, idx_of_lt (hs a ha).2⟩
  cases sm with
  | none => exact ⟨_, _, rfl⟩
  | random => exact ⟨_, _, by simp only [rootSums, e1, e2, Res.ok_bind]; rfl⟩
  | goss => exact ⟨_, _, by simp only [rootSums, e1, e2, Res.ok_bind]; rfl⟩

/-- The search for the best split succeeds when no candidate panics. -/
theorem bestFeatureLoop_total {s : Splitter F} {sn : SNode F D} {feature : Nat}
    {constraint : Option Constraint} {missing : Bin F D} : ∀ (bins pre : List (Bin F D)) (best : Option (SplitInfo F D)),
    (∀ i bin, (pre ++ bins)[i]? = some bin → ∃ r, evalCandidate s sn feature constraint missing bin i
      (gradSum ((pre ++ bins).take i)) (hessSum ((pre ++ bins).take i)) = .ok r) →
    ∃ r, bestFeatureLoop s sn feature constraint missing bins pre.length (gradSum pre) (hessSum pre) best
      = .ok r := by
  intro bins
  induction bins with
  | nil => intro pre best _; exact ⟨best, rfl⟩
  | cons b l ih =>
    intro pre best h
    obtain ⟨r, hr⟩ := h pre.length b (by simp)
    rw [List.take_left'  rfl] at hr
    rw [bestFeatureLoop, hr, Res.ok_bind]
    have := fun best' => ih (pre ++ [b]) best' (by
      intro i bin hi
      rw [List.append_assoc, List.singleton_append] at hi ⊢
      exact h i bin hi)
    simp only [List.length_append, List.length_singleton, gradSum, hessSum, List.map_append,
      List.foldl_append, List.map_cons, List.map_nil, List.foldl_cons, List.foldl_nil] at this
    exact this _

theorem bestFeatureSplit_total {s : Splitter F} {sn : SNode F D} {feature j : Nat} {missing : Bin F D}
    {bins : List (Bin F D)} (hj : sn.histograms.getCol j = .ok (missing :: bins))
    (h : ∀ i bin, bins[i]? = some bin → ∃ r, evalCandidate s sn feature (s.params.getConstraint feature)
      missing bin i (gradSum (bins.take i)) (hessSum (bins.take i)) = .ok r) :
    ∃ r, bestFeatureSplit s sn feature j = .ok r := by
  unfold bestFeatureSplit
  rw [hj, Res.ok_bind]
  exact bestFeatureLoop_total bins [] none (by simpa using h)

theorem bestSplit_total {s : Splitter F} {sn : SNode F D} {cols : List Nat}
    (h : ∀ (j feature : Nat), cols[j]? = some feature → ∃ r, bestFeatureSplit s sn feature j = .ok r) :
    ∃ r, bestSplit s sn cols = .ok r := by
  have key : ∀ (l pre : List Nat) (g : F) (best : Option (SplitInfo F D)), pre ++ l = cols →
      ∃ r, bestSplitLoop s sn l pre.length g best = .ok r := by
    intro l
    induction l with
    | nil => intro pre g best _; exact ⟨best, rfl⟩
    | cons f l ih =>
      intro pre g best he
      obtain ⟨r, hr⟩ := h pre.length f (by rw [← he]; simp)
      have ih' := fun g best => ih (pre ++ [f]) g best (by rw [List.append_assoc]; exact he)
      rw [List.length_append, List.length_singleton] at ih'
      rw [bestSplitLoop, hr, Res.ok_bind]
      cases r with
      | none => exact ih' _ _
      | some info =>
        simp only
        split
        · exact ih' _ _
        · exact ih' _ _
  exact key cols [] 0 none rfl

theorem popNode_total {hp : HeapPick F D} (hh : ∀ n l, l ≠ [] → hp.pick n l < l.length)
    {policy : GrowPolicy} {step : Nat} {q : List (SNode F D)} (hq : q ≠ []) :
    ∃ n q', popNode hp policy step q = .ok (n, q') := by
  cases policy with
  | depthWise =>
    refine ⟨q.getLast hq, q.dropLast, ?_⟩
    rw [popNode, List.getLast?_eq_getLast_of_ne_nil hq]
    rfl
  | lossGuide =>
    refine ⟨q[hp.pick step q]'(hh step q hq), q.eraseIdx (hp.pick step q), ?_⟩
    simp only [popNode]
    rw [idx_of_lt (hh step q hq)]
    rfl

theorem imputerHandle_total {t : TrainData F D} {info : SplitInfo F D} {n : Nat} {node : SNode F D}
    {index rows f : List Nat} {mr : Bool} (hr : info.missingNode.goesRight = .ok mr)
    (hrows : slice index node.startIdx node.stopIdx = .ok rows)
    (hf : t.data.getCol info.splitFeature = .ok f) (hne : rows ≠ []) (hfr : ∀ r ∈ rows, r < f.length)
    (hh : ∀ r : List Nat, r ⊆ rows → ∃ m, t.histRows r = .ok m) :
    ∃ x, imputerHandle t info n node index = .ok x := by
  obtain ⟨rows', k, hpiv, hperm, hk, _⟩ := pivotOnSplit_spec (split := info.splitBin) (mr := mr) hne hfr
  have hrl : rows.length = node.stopIdx - node.startIdx := slice_length hrows
  have hr'l : rows'.length = node.stopIdx - node.startIdx := hperm.length_eq.trans hrl
  obtain ⟨hle, hstop, _⟩ := slice_ok_iff.1 hrows
  have hL : slice (writeBack index node.startIdx node.stopIdx rows') node.startIdx (k + node.startIdx)
      = .ok (rows'.take k) := by
    have := slice_writeBack_inside (a := 0) (b := k) hle hstop hr'l (by omega) (by omega)
    simpa [Nat.add_comm] using this
  have hR : slice (writeBack index node.startIdx node.stopIdx rows') (k + node.startIdx) node.stopIdx
      = .ok (rows'.drop k) := by
    have := slice_writeBack_inside (a := k) (b := node.stopIdx - node.startIdx) hle hstop hr'l
      (by omega) (by omega)
    rw [show node.startIdx + (node.stopIdx - node.startIdx) = node.stopIdx by omega,
      Nat.add_comm node.startIdx k, List.take_of_length_le (by rw [List.length_drop]; omega)] at this
    exact this
  obtain ⟨lh, hlh⟩ := hh (rows'.take k) fun x hx => hperm.subset (List.mem_of_mem_take hx)
  obtain ⟨rh, hrh⟩ := hh (rows'.drop k) fun x hx => hperm.subset (List.mem_of_mem_drop hx)
  rw [← hist_eq_histRows hL] at hlh
  rw [← hist_eq_histRows hR] at hrh
  unfold imputerHandle
  simp only [hr, hrows, hf, hpiv, Res.ok_bind, hlh, hrh]
  split
  · exact ⟨_, rfl⟩
  · exact ⟨_, rfl⟩

theorem branchHandle_total {p : BranchParams F} {t : TrainData F D} {info : SplitInfo F D} {n : Nat}
    {node : SNode F D} {index rows f : List Nat} {mc : Bool × NodeInfo F}
    (hm : p.missingChild info = .ok mc)
    (hrows : slice index node.startIdx node.stopIdx = .ok rows)
    (hf : t.data.getCol info.splitFeature = .ok f) (hs : 0 < info.splitBin)
    (hne : rowsOn f info.splitBin [.right] rows ≠ []) (hfr : ∀ r ∈ rows, r < f.length)
    (hh : ∀ r : List Nat, r ⊆ rows → ∃ m, t.histRows r = .ok m) :
    ∃ x, branchHandle p t info n node index = .ok x := by
  obtain ⟨rows', m, k, hpiv, hperm, hmk, hk, _⟩ := C30_ternary hs hfr hne
  have hrl : rows.length = node.stopIdx - node.startIdx := slice_length hrows
  have hr'l : rows'.length = node.stopIdx - node.startIdx := hperm.length_eq.trans hrl
  obtain ⟨hle, hstop, _⟩ := slice_ok_iff.1 hrows
  have hM : slice (writeBack index node.startIdx node.stopIdx rows') node.startIdx (m + node.startIdx)
      = .ok (rows'.take m) := by
    have := slice_writeBack_inside (a := 0) (b := m) hle hstop hr'l (by omega) (by omega)
    simpa [Nat.add_comm] using this
  have hL : slice (writeBack index node.startIdx node.stopIdx rows') (m + node.startIdx)
      (k + node.startIdx) = .ok ((rows'.drop m).take (k - m)) := by
    have := slice_writeBack_inside (a := m) (b := k) hle hstop hr'l (by omega) (by omega)
    rwa [Nat.add_comm node.startIdx m, Nat.add_comm node.startIdx k] at this
  have hR : slice (writeBack index node.startIdx node.stopIdx rows') (k + node.startIdx) node.stopIdx
      = .ok (rows'.drop k) := by
    have := slice_writeBack_inside (a := k) (b := node.stopIdx - node.startIdx) hle hstop hr'l
      (by omega) (by omega)
    rw [show node.startIdx + (node.stopIdx - node.startIdx) = node.stopIdx by omega,
      Nat.add_comm node.startIdx k, List.take_of_length_le (by rw [List.length_drop]; omega)] at this
    exact this
  obtain ⟨mh, hmh⟩ := hh (rows'.take m) fun x hx => hperm.subset (List.mem_of_mem_take hx)
  obtain ⟨lh, hlh⟩ := hh ((rows'.drop m).take (k - m)) fun x hx =>
    hperm.subset (List.mem_of_mem_drop (List.mem_of_mem_take hx))
  obtain ⟨rh, hrh⟩ := hh (rows'.drop k) fun x hx => hperm.subset (List.mem_of_mem_drop hx)
  rw [← hist_eq_histRows hM] at hmh
  rw [← hist_eq_histRows hL] at hlh
  rw [← hist_eq_histRows hR] at hrh
  obtain ⟨isl, minfo⟩ := mc
  have hass : Res.assert (decide (m ≤ k ∧ k ≤ node.stopIdx - node.startIdx)) = .ok () := by
    rw [decide_eq_true ⟨hmk, by omega⟩]; rfl
  have hH : ∀ a b c, ∃ x, branchHists t node (writeBack index node.startIdx node.stopIdx rows') a b c
      (m + node.startIdx) (k + node.startIdx) = .ok x := by
    intro a b c
    unfold branchHists
    simp only [hmh, hlh, hrh, Res.ok_bind]
    split
    · split <;> exact ⟨_, rfl⟩
    · split
      · exact ⟨_, rfl⟩
      · split <;> exact ⟨_, rfl⟩
  unfold branchHandle
  simp only [hm, hrows, hf, hpiv, hass, Res.ok_bind]
  obtain ⟨⟨x1, x2, x3⟩, hx⟩ := hH _ _ _
  rw [hx]
  exact ⟨_, rfl⟩

theorem updateAverage_total : ∀ (fuel : Nat) (nodes : List (Node F D)) (i : Nat),
    (∀ (i : Nat) (n : Node F D) (j : Nat), nodes[i]? = some n → n.IsChild j →
      i < j ∧ j < nodes.length) →
    i < nodes.length → nodes.length - i ≤ fuel → ∃ r, updateAverage fuel nodes i = .ok r := by
  intro fuel
  induction fuel with
  | zero => intro nodes i _ h1 h2; omega
  | succ fuel ih =>
    intro nodes i hc hi hf
    have shape : ∀ nodes' : List (Node F D), SameShape nodes nodes' →
        ∀ (i : Nat) (n : Node F D) (j : Nat), nodes'[i]? = some n → n.IsChild j →
          i < j ∧ j < nodes'.length := by
      intro nodes' hs i n j hn hj
      obtain ⟨n0, w, h0, rfl⟩ := hs.inv hn
      rw [hs.1]
      exact hc i n0 j h0 hj
    have sub : ∀ nodes' : List (Node F D), SameShape nodes nodes' → ∀ j, i < j → j < nodes.length →
        ∃ r, updateAverage fuel nodes' j = .ok r := by
      intro nodes' hs j h1 h2
      exact ih nodes' j (shape nodes' hs) (by rw [hs.1]; exact h2) (by rw [hs.1]; omega)
    rw [updateAverage, idx_of_lt hi, Res.ok_bind]
    have hn : nodes[i]? = some nodes[i] := List.getElem?_eq_getElem hi
    split
    · exact ⟨_, rfl⟩
    · rename_i hl
      have hl : nodes[i].isLeaf = false := by simpa using hl
      have hr := hc i _ nodes[i].rightChild hn ⟨hl, .inr (.inl rfl)⟩
      have hleft := hc i _ nodes[i].leftChild hn ⟨hl, .inl rfl⟩
      have hm := hc i _ nodes[i].missingNode hn ⟨hl, .inr (.inr rfl)⟩
      obtain ⟨⟨n1, a1⟩, h1⟩ := sub _ (.refl _) _ hr.1 hr.2
      have s1 := updateAverage_shape _ _ _ _ _ h1
      obtain ⟨⟨n2, a2⟩, h2⟩ := sub _ s1 _ hleft.1 hleft.2
      have s2 := s1.trans (updateAverage_shape _ _ _ _ _ h2)
      obtain ⟨⟨n3, a3⟩, h3⟩ := sub _ s2 _ hm.1 hm.2
      simp only [idx_of_lt hr.2, Res.ok_bind, h1, idx_of_lt (l := n1) (s1.1 ▸ hleft.2), h2,
        idx_of_lt (l := n2) (s2.1 ▸ hm.2), h3]
      split <;> exact ⟨_, rfl⟩

theorem cleanUpSplits_total {s : Splitter F} {nodes : List (Node F D)}
    (h : Tree.Wf (⟨nodes⟩ : Tree F D)) : ∃ r, cleanUpSplits s nodes = .ok r := by
  obtain ⟨⟨n, a⟩, hr⟩ := updateAverage_total nodes.length nodes 0 h.child
    (List.length_pos_iff.2 h.nonempty) (by omega)
  unfold cleanUpSplits
  split
  · exact ⟨_, rfl⟩
  · split
    · rw [hr]; exact ⟨_, rfl⟩
    · exact ⟨_, rfl⟩

end

section
variable {K : Type} [Field K] [LinearOrder K] [IsStrictOrderedRing K] {m32 m64 : Fmt K}
  [m32.Exact] [m64.Exact]

/-- Splitting a node with correct sums does not panic. -/
theorem splitNode_total {t : TrainData (FX m32) (FX m64)} {gv hv : Nat → K} (hT : TrainOk t gv hv)
    {s : Splitter (FX m32)} (hpos : (0 <ᶠ s.params.minLeafWeight) = true)
    {sn : SNode (FX m32) (FX m64)} {rows index : List Nat}
    (hN : NodeSums t gv hv sn rows) (hml : sn.isMissingLeaf = false)
    (hlt : ∀ r ∈ rows, r < t.data.rows) (hbest : ∃ r, bestSplit s sn t.colIndex = .ok r)
    (hrows : slice index sn.startIdx sn.stopIdx = .ok rows)
    (hh : ∀ r : List Nat, r ⊆ rows → ∃ m, t.histRows r = .ok m) (n : Nat) :
    ∃ x, splitNode s t n sn index = .ok x := by
  obtain ⟨best, hb⟩ := hbest
  unfold splitNode
  rw [hb, Res.ok_bind]
  cases best with
  | none => exact ⟨_, rfl⟩
  | some info =>
    obtain ⟨j, i, hc⟩ := bestSplit_mem hb
    obtain ⟨f, c, h1, h2, h3, h4, h5, h6, h7, l, r, he, g1, g2, g3, g4, g5, g6⟩ :=
      candidate_sums hN hml hlt hT.small hc
    have hfr : ∀ r ∈ rows, r < f.length := by rw [h7]; exact hlt
    cases s with
    | imputer p =>
      simp only [Splitter.evaluateSplit, Res.ok.injEq] at he
      obtain ⟨_, hcr, hm⟩ := imputerEvaluateSplit_some he
      obtain ⟨_, _, hsums⟩ := imputer_sums rfl rfl rfl rfl he
      have hne : rows ≠ [] := by
        rintro rfl
        have h0 : r.cover = FX.fin (0 : K) := by
          rcases hsums with ⟨_, _, _, _, e⟩ | ⟨_, _, _, _, e⟩ <;> rw [e] <;>
            simp [candArgs, rowsOn, rowSum]
        rw [h0] at hcr
        exact absurd (pos_of_cover hpos hcr) (lt_irrefl _)
      obtain ⟨mr, hmr⟩ : ∃ mr, info.missingNode.goesRight = .ok mr := by
        rcases hm with hm | hm <;> rw [hm] <;> exact ⟨_, rfl⟩
      exact imputerHandle_total hmr hrows h1 hne hfr hh
    | branch p =>
      obtain ⟨lw, rw', q1, q2, q3, q4, q5, q6⟩ := branchEvaluateSplit_some he
      have hne : rowsOn f info.splitBin [.right] rows ≠ [] := by
        intro e
        have := pos_of_cover hpos (x := rowSum hv (rowsOn f (i + 1) [.right] rows)) q3
        rw [← h6, e] at this
        exact absurd this (by simp [rowSum])
      obtain ⟨mc, hmc⟩ : ∃ mc, p.missingChild info = .ok mc := by
        unfold BranchParams.missingChild
        rw [q6]
        generalize ((_ || _) && _ : Bool) = b
        cases b <;> exact ⟨_, rfl⟩
      exact branchHandle_total hmc hrows h1 (by omega) hne hfr hh

variable {S : Sorter} {X : Matrix (FX m64)} {w : List K} {nbins : Nat} {missing : FX m64}
  {gv hv : Nat → K} {c : GrowCfg (FX m32) (FX m64)} {sm : SampleMethod} {rows : List Nat}

/-- The columns in use can be read. -/
theorem TrainedOn.column (h : TrainedOn S X w nbins missing gv hv c sm rows) {j : Nat}
    (hj : j ∈ c.train.colIndex) : ∃ f cu, c.train.data.getCol j = .ok f ∧
      c.train.cuts.getCol j = .ok cu ∧ cu ≠ [] ∧ f.length = X.rows := by
  obtain ⟨bd, h1, h2, h3⟩ := h.binned
  obtain ⟨init, last, a1, _⟩ := C28_cuts h.sorter h.shaped (by simpa using h.weights) h.max h1 j (h.cols j hj)
  obtain ⟨cutss, hB⟩ := binMatrix_binned h.shaped (by simpa using h.weights) h1
  have hsh : c.train.data.Shaped := by
    rw [h2]
    show bd.binned.length = _
    rw [hB.size]; exact h.shaped
  have hg := Matrix.getCol_eq hsh (j := j) (by rw [h2]; exact h.cols j hj)
  exact ⟨_, _, hg, by rw [h3]; exact a1, by simp, by rw [getCol_length hg, h.rows_eq]⟩

/-- What the rows need: gradients and hessians exist for all rows. -/
structure Enough (X : Matrix (FX m64)) (c : GrowCfg (FX m32) (FX m64)) : Prop where
  grad : c.train.grad.length = X.rows
  hess : c.train.hess.length = X.rows

theorem TrainedOn.histRows (h : TrainedOn S X w nbins missing gv hv c sm rows) (hE : Enough X c)
    {r : List Nat} (hr : ∀ x ∈ r, x < X.rows) : ∃ m, c.train.histRows r = .ok m := by
  refine histogramMatrix_total (fun _ x hx => ?_) (fun e => Bool.noConfusion e) fun col hcol => ?_
  · rw [hE.grad, hE.hess]; exact ⟨hr x hx, hr x hx⟩
  · obtain ⟨f, cu, a1, a2, a3, a4⟩ := h.column hcol
    exact ⟨f, cu, a1, a2, a3, by rw [a4]; exact hr⟩

theorem TrainedOn.growInit (h : TrainedOn S X w nbins missing gv hv c sm rows) (hE : Enough X c) :
    ∃ s, Verif.growInit c sm rows = .ok s := by
  have hlt : ∀ r ∈ rows, r < c.train.grad.length ∧ r < c.train.hess.length := by
    rw [hE.grad, hE.hess]; exact fun r hr => ⟨h.rows_lt r hr, h.rows_lt r hr⟩
  obtain ⟨g, hs, h1⟩ := rootSums_total (D := FX m64) (sm := sm) hlt
  obtain ⟨m, hm⟩ := histogramMatrix_total (t := c.train) (rows := rows) (sort := decide (sm ≠ .none))
    (fun _ => hlt) (fun e => by
      have : sm = .none := by simpa using e
      obtain ⟨e1, e2⟩ := h.full this
      rw [e2, e1]; simp) (fun col hcol => by
      obtain ⟨f, cu, a1, a2, a3, a4⟩ := h.column hcol
      exact ⟨f, cu, a1, a2, a3, by rw [a4]; exact h.rows_lt⟩)
  unfold Verif.growInit
  simp only [h1, hm, Res.ok_bind]
  exact ⟨_, rfl⟩

/-- No split of a node of this tree panics. -/
def SafeSplits (c : GrowCfg (FX m32) (FX m64)) (root : SNode (FX m32) (FX m64)) (rows : List Nat) : Prop :=
  ∀ (o : SNode (FX m32) (FX m64) → Prop) (gs : List (Ghost (FX m32) (FX m64)))
    (nodes : List (Node (FX m32) (FX m64))), Cert c o gs nodes →
    (∃ g, gs[0]? = some g ∧ g.sn = root ∧ g.rows = rows) →
    ∀ (i : Nat) (g : Ghost (FX m32) (FX m64)), gs[i]? = some g → g.sn.isMissingLeaf = false →
      ∃ r, bestSplit c.splitter g.sn c.train.colIndex = .ok r

theorem TrainedOn.growStep (h : TrainedOn S X w nbins missing gv hv c sm rows) (hE : Enough X c)
    (hp : ∀ n l, l ≠ [] → c.heap.pick n l < l.length) {root : SNode (FX m32) (FX m64)}
    (hN : NodeSums c.train gv hv root rows) (hsafe : SafeSplits c root rows)
    {s : GrowState (FX m32) (FX m64)} {gs : List (Ghost (FX m32) (FX m64))} (hI : Inv c root rows s gs)
    (hd : growDone c s = false) : ∃ s', Verif.growStep c s = .ok s' := by
  have hq : s.queue ≠ [] := by
    simp only [growDone, Bool.or_eq_false_iff] at hd
    intro e; rw [e] at hd; simp at hd
  obtain ⟨node, queue, hpop⟩ := popNode_total hp (policy := c.policy) (step := s.step) hq
  have hmem : node ∈ s.queue := (popNode_ok hpop).1.mem_iff.2 (by simp)
  obtain ⟨g, a1, rfl, a3, a4, a5⟩ := hI.queue node hmem
  obtain ⟨g0, b1, b2, b3⟩ := hI.root
  have hlt0 : ∀ r ∈ g0.rows, r < c.train.data.rows := by
    rw [b3, h.rows_eq]; exact h.rows_lt
  have hN0 : NodeSums c.train gv hv g0.sn g0.rows := by rw [b2, b3]; exact hN
  have hsub := hI.cert.rows_mem b1
  have hNg := hI.cert.sums h.trainOk h.pos b1 hN0 hlt0 _ g a1
  have hltg : ∀ r ∈ g.rows, r < c.train.data.rows := fun r hr => hlt0 r (hsub _ g a1 r hr)
  obtain ⟨⟨node', index, new⟩, hx⟩ := splitNode_total h.trainOk h.pos hNg a4 hltg
    (hsafe _ _ _ hI.cert ⟨g0, b1, b2, b3⟩ _ g a1 a4) a5
    (fun r hr => h.histRows hE fun x hx => by rw [← h.rows_eq]; exact hltg x (hr hx)) s.nNodes
  have hnum : g.sn.num < s.nodes.length := by
    rw [← hI.cert.len]; exact (List.getElem?_eq_some_iff.1 a1).1
  unfold Verif.growStep
  simp only [hpop, Res.ok_bind, hx, idx_of_lt hnum]
  split
  · exact ⟨_, rfl⟩
  · split <;> exact ⟨_, rfl⟩

theorem TrainedOn.growLoop (h : TrainedOn S X w nbins missing gv hv c sm rows) (hE : Enough X c)
    (hp : ∀ n l, l ≠ [] → c.heap.pick n l < l.length) {root : SNode (FX m32) (FX m64)}
    (hN : NodeSums c.train gv hv root rows) (hsafe : SafeSplits c root rows) :
    ∀ n (s : GrowState (FX m32) (FX m64)) gs, Inv c root rows s gs →
      Verif.growLoop c n s ≠ .panic := by
  intro n
  induction n with
  | zero =>
    intro s gs hI
    simp only [Verif.growLoop]
    split <;> simp
  | succ n ih =>
    intro s gs hI
    simp only [Verif.growLoop]
    split
    · simp
    · rename_i hd
      obtain ⟨s1, hs1⟩ := h.growStep hE hp hN hsafe hI (by simpa using hd)
      rw [hs1, Res.ok_bind]
      obtain ⟨node, queue, hpop, hc, _⟩ := growStep_ok hs1
      rcases hc with ⟨a1, a2, a3, a4, a5, a6⟩ | ⟨hdp, info, rows, kids, node', nn, b1, b2, b3, b4, b5,
        b6, b7⟩
      · exact ih s1 gs (hI.leaf hpop a1 a2 a3 a4 a5 a6)
      · obtain ⟨gs1, hI1⟩ := hI.split (by simpa using hd) hpop hdp b1 b2 b3 b4 b5 b6 b7
        exact ih s1 gs1 hI1

/-- **Fitting a tree succeeds.** -/
theorem TrainedOn.fit_total (h : TrainedOn S X w nbins missing gv hv c sm rows) (hE : Enough X c)
    (hp : ∀ n l, l ≠ [] → c.heap.pick n l < l.length)
    (hsafe : ∀ hists, NodeSums c.train gv hv (rootNode c.splitter.params rows.length
      (FX.fin (rowSum gv rows)) (FX.fin (rowSum hv rows)) hists) rows →
      SafeSplits c (rootNode c.splitter.params rows.length
      (FX.fin (rowSum gv rows)) (FX.fin (rowSum hv rows)) hists) rows) :
    ∃ t, Tree.fit c sm rows = .ok t := by
  have hnd := Tree.fit_ne_diverge c sm rows
  have hnp : Tree.fit c sm rows ≠ .panic := by
    unfold Tree.fit
    obtain ⟨s, hs⟩ := h.growInit hE
    rw [hs, Res.ok_bind]
    obtain ⟨g, hs', sort, hists, h1, h2, gs, hI⟩ := growInit_inv hs
    have hN := root_sums h.trainOk h.full h1 h2 c.splitter.params rows.length
    have e1 : g = FX.fin (rowSum gv rows) := hN.grad
    have e2 : hs' = FX.fin (rowSum hv rows) := hN.hess
    subst e1 e2
    have hl := h.growLoop hE hp hN (hsafe hists hN) (growFuel c) s gs hI
    intro e
    cases hr : Verif.growLoop c (growFuel c) s with
    | panic => exact hl hr
    | diverge => rw [hr] at e; cases e
    | ok s' =>
      obtain ⟨⟨gs', hI'⟩, _⟩ := growLoop_inv _ _ _ _ hI hr
      have hne : 0 < gs'.length := by
        obtain ⟨g0, h0, _⟩ := hI'.root
        exact (List.getElem?_eq_some_iff.1 h0).1.pos
      obtain ⟨x, hx⟩ := cleanUpSplits_total (s := c.splitter) (hI'.cert.wf (.refl _) hne)
      rw [hr, Res.ok_bind, hx] at e
      cases e
  cases hr : Tree.fit c sm rows with
  | panic => exact absurd hr hnp
  | diverge => exact absurd hr hnd
  | ok t => exact ⟨t, rfl⟩

end

end Verif
