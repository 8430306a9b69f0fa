import Verif.Proofs.NodeSums
import Verif.Proofs.FirstCut
import Verif.Proofs.Route
import Verif.Props.Binning
import Verif.Props.Histograms

/-!
# Rows and sums of the nodes of a fitted tree
-/

namespace Verif

open scoped Verif

set_option linter.unusedSectionVars false

section
variable {K : Type} [Field K] [LinearOrder K] [IsStrictOrderedRing K] {m32 m64 : Fmt K}
  [m32.Exact] [m64.Exact]
variable {t : TrainData (FX m32) (FX m64)} {gv hv : Nat → K}

/-- Bins agree with comparisons on the raw values. -/
def RawOk (t : TrainData (FX m32) (FX m64)) (X : Matrix (FX m64)) (missing : FX m64) : Prop :=
  ∀ col ∈ t.colIndex, ∀ f c, t.data.getCol col = .ok f → t.cuts.getCol col = .ok c →
    ∀ r < t.data.rows, ∃ v, X.entry r col = some v ∧ Readable missing v ∧
      (IsMissing missing v → f.getD r 0 = 0) ∧
      (¬ IsMissing missing v → 2 ≤ c.length → f.getD r 0 ≠ 0 ∧
        ∀ (k : Nat) cv, c[k]? = some cv → (f.getD r 0 < k + 1 ↔ (v <ᶠ cv) = true))

variable {c : GrowCfg (FX m32) (FX m64)} {o : SNode (FX m32) (FX m64) → Prop}
  {gs : List (Ghost (FX m32) (FX m64))} {nodes nodes' : List (Node (FX m32) (FX m64))}

/-- Everything that is known about a split of a fitted tree. -/
structure SplitFacts (c : GrowCfg (FX m32) (FX m64)) (gv hv : Nat → K) (g : Ghost (FX m32) (FX m64))
    (info : SplitInfo (FX m32) (FX m64)) (kids : List (Kid (FX m32) (FX m64))) (f : List Nat)
    (cu : List (FX m64)) (i : Nat) (mr : Bool) : Prop where
  col : c.train.data.getCol info.splitFeature = .ok f
  cuts : c.train.cuts.getCol info.splitFeature = .ok cu
  mem : info.splitFeature ∈ c.train.colIndex
  lt : i + 1 < cu.length
  value : cu[i]? = some info.splitValue
  bin : info.splitBin = i + 1
  len : f.length = c.train.data.rows
  eval : ∃ l r, c.splitter.evaluateSplit (candArgs g.sn f (i + 1) gv hv g.rows
      (c.splitter.params.getConstraint info.splitFeature)) = .ok (some (l, r, info.missingNode)) ∧
    l.grad = info.leftNode.grad ∧ l.cover = info.leftNode.cover ∧
    l.weight = info.leftNode.weight ∧ r.grad = info.rightNode.grad ∧
    r.cover = info.rightNode.cover ∧ r.weight = info.rightNode.weight
  goes : ∀ p, c.splitter = .imputer p → info.missingNode.goesRight = .ok mr
  kids : List.Forall₂ (fun kid sides => kid.rows.Perm (rowsOn f (i + 1) sides g.rows) ∧
    NodeSums c.train gv hv kid.sn kid.rows) kids (kidSides c.splitter mr)

theorem splitFacts (hT : TrainOk c.train gv hv) (hpos : (0 <ᶠ c.splitter.params.minLeafWeight) = true)
    {i : Nat} {g : Ghost (FX m32) (FX m64)} {info : SplitInfo (FX m32) (FX m64)} {k : Nat}
    {kids : List (Kid (FX m32) (FX m64))} (hS : IsSplit c gs nodes i g info k kids)
    (hN : NodeSums c.train gv hv g.sn g.rows) (hlt : ∀ r ∈ g.rows, r < c.train.data.rows) :
    ∃ f cu b mr, SplitFacts c gv hv g info kids f cu b mr := by
  obtain ⟨j, b, hc⟩ := bestSplit_mem hS.best
  obtain ⟨f, cu, h1, h2, h3, h4, h5, h6, h7, h8, mr, h9, h10⟩ :=
    kids_sums hT hpos hN hS.notMissing hlt hc hS.kids_eq
  exact ⟨f, cu, b, mr, h1, h2, h3, h4, h5, h6, h7, h8, h9, h10⟩

/-- Sums of all nodes. -/
theorem Cert.sums (h : Cert c o gs nodes) (hT : TrainOk c.train gv hv)
    (hpos : (0 <ᶠ c.splitter.params.minLeafWeight) = true) {g0 : Ghost (FX m32) (FX m64)}
    (h0 : gs[0]? = some g0) (hN : NodeSums c.train gv hv g0.sn g0.rows)
    (hlt : ∀ r ∈ g0.rows, r < c.train.data.rows) :
    ∀ (i : Nat) (g : Ghost (FX m32) (FX m64)), gs[i]? = some g → NodeSums c.train gv hv g.sn g.rows := by
  intro i
  induction i using Nat.strong_induction_on with
  | _ i ih =>
    intro g hg
    by_cases hi : i = 0
    · subst hi
      rw [h0] at hg; cases hg; exact hN
    · obtain ⟨gi, info, k, b1, b2, b3, b4⟩ := h.parent i g hg (by omega)
      obtain ⟨kids, hS⟩ := h.split _ gi info k b1 b2
      obtain ⟨kid, g', d1, d2, d5, d3, d4⟩ := hS.new_lt b3 b4
      rw [hg] at d2; cases d2
      have hN' := ih _ (by have := hS.later; omega) gi b1
      obtain ⟨f, cu, b, mr, hF⟩ := splitFacts hT hpos hS hN'
        (fun r hr => hlt r (h.rows_mem h0 _ gi b1 r hr))
      have hlen := (List.getElem?_eq_some_iff.1 d1).1
      have := (List.forall₂_iff_get.1 hF.kids).2 _ hlen (by rw [← hF.kids.length_eq]; exact hlen)
      rw [List.get_eq_getElem, (List.getElem?_eq_some_iff.1 d1).2] at this
      obtain ⟨_, a1, a2, a3⟩ := this
      rw [d5, d3]
      exact ⟨a1, a2, a3⟩

/-- The child that a row goes to. -/
theorem SplitFacts.route {X : Matrix (FX m64)} {missing : FX m64} (hR : RawOk c.train X missing)
    {i : Nat} {n : Node (FX m32) (FX m64)} {g : Ghost (FX m32) (FX m64)}
    {info : SplitInfo (FX m32) (FX m64)} {k : Nat} {kids : List (Kid (FX m32) (FX m64))}
    (hI : Internal c gs nodes i n g info k kids) {f : List Nat} {cu : List (FX m64)} {b : Nat} {mr : Bool}
    (hF : SplitFacts c gv hv g info kids f cu b mr) {r : Nat} (hr : r ∈ g.rows)
    (hlt : r < c.train.data.rows) :
    ∃ v, X.entry r n.splitFeature = some v ∧ Readable missing v ∧
      ∀ (q : Nat) (kid : Kid (FX m32) (FX m64)), kids[q]? = some kid →
        (n.childFor missing v = k + q ↔ r ∈ kid.rows) := by
  obtain ⟨v, e1, e2, e3, e4⟩ := hR _ hF.mem f cu hF.col hF.cuts r hlt
  rw [hI.feature]
  refine ⟨v, e1, e2, fun q kid hq => ?_⟩
  have hchild : n.childFor missing v = match binSide (b + 1) (f.getD r 0) with
      | .missing => n.missingNode
      | .left => n.leftChild
      | .right => n.rightChild := by
    unfold Node.childFor binSide
    by_cases hm : IsMissing missing v
    · rw [if_pos hm, if_pos (e3 hm)]
    · have hl := hF.lt
      obtain ⟨a1, a2⟩ := e4 hm (by omega)
      have a3 := a2 b _ hF.value
      rw [if_neg hm, if_neg a1, hI.value]
      by_cases h : f.getD r 0 < b + 1
      · rw [if_pos h, if_pos (a3.1 h)]
      · rw [if_neg h, if_neg (fun h' => h (a3.2 h'))]
  have hlen := (List.getElem?_eq_some_iff.1 hq).1
  have hlen' : q < (kidSides c.splitter mr).length := by rw [← hF.kids.length_eq]; exact hlen
  have := (List.forall₂_iff_get.1 hF.kids).2 q hlen hlen'
  simp only [List.get_eq_getElem, (List.getElem?_eq_some_iff.1 hq).2] at this
  rw [this.1.mem_iff, rowsOn, List.mem_filter, hchild]
  simp only [hr, true_and]
  have h1 := hI.left
  have h2 := hI.right
  have h3 := hI.missing
  have hgo := hF.goes
  clear hchild this
  revert hlen'
  cases hs : c.splitter with
  | imputer p =>
    have hg' := hgo p hs
    rw [hs] at h1 h2 h3
    simp only [Splitter.links] at h1 h2 h3
    simp only [kidSides, List.length_cons, List.length_nil]
    intro hlen'
    have hmn : n.missingNode = if mr then k + 1 else k := by
      rw [h3]
      revert hg'
      cases info.missingNode <;> simp [MissingInfo.goesRight]
    rw [h1, h2, hmn]
    have : q = 0 ∨ q = 1 := by omega
    rcases this with rfl | rfl <;> cases mr <;> cases binSide (b + 1) (f.getD r 0) <;>
      simp [leftSides, rightSides]
  | branch p =>
    rw [hs] at h1 h2 h3
    simp only [Splitter.links] at h1 h2 h3
    simp only [kidSides, List.length_cons, List.length_nil]
    intro hlen'
    rw [h1, h2, h3]
    have : q = 0 ∨ q = 1 ∨ q = 2 := by omega
    rcases this with rfl | rfl | rfl <;> cases binSide (b + 1) (f.getD r 0) <;> simp

/-- The child of an internal node is one of the new nodes. -/
theorem Internal.childFor_range {i : Nat} {n : Node (FX m32) (FX m64)} {g : Ghost (FX m32) (FX m64)}
    {info : SplitInfo (FX m32) (FX m64)} {k : Nat} {kids : List (Kid (FX m32) (FX m64))}
    (hI : Internal c gs nodes i n g info k kids) (missing v : FX m64) :
    k ≤ n.childFor missing v ∧ n.childFor missing v < k + c.splitter.arity := by
  have h1 := hI.left
  have h2 := hI.right
  have h3 := hI.missing
  unfold Node.childFor
  cases hs : c.splitter with
  | imputer p =>
    rw [hs] at h1 h2 h3
    simp only [Splitter.links] at h1 h2 h3
    simp only [Splitter.arity]
    have : n.missingNode = k ∨ n.missingNode = k + 1 := by
      rw [h3]; cases info.missingNode <;> simp
    split
    · omega
    · split <;> omega
  | branch p =>
    rw [hs] at h1 h2 h3
    simp only [Splitter.links] at h1 h2 h3
    simp only [Splitter.arity]
    split
    · omega
    · split <;> omega

/-- The rows of a node are the rows that reach it. -/
theorem Cert.reaches (h : Cert c o gs nodes) (hsh : SameShape nodes nodes') (hT : TrainOk c.train gv hv)
    (hpos : (0 <ᶠ c.splitter.params.minLeafWeight) = true) {X : Matrix (FX m64)} {missing : FX m64}
    (hR : RawOk c.train X missing) {g0 : Ghost (FX m32) (FX m64)} (h0 : gs[0]? = some g0)
    (hN : NodeSums c.train gv hv g0.sn g0.rows) (hlt : ∀ r ∈ g0.rows, r < c.train.data.rows) :
    ∀ (i : Nat) (g : Ghost (FX m32) (FX m64)), gs[i]? = some g → ∀ r ∈ g0.rows,
      (Reaches nodes' (X.entry r) missing i ↔ r ∈ g.rows) := by
  have hsums := h.sums hT hpos h0 hN hlt
  intro i
  induction i using Nat.strong_induction_on with
  | _ i ih =>
    intro g hg r hr
    by_cases hi : i = 0
    · subst hi
      rw [h0] at hg; cases hg
      exact ⟨fun _ => hr, fun _ => .root⟩
    · constructor
      · intro hre
        cases hre with
        | root => exact absurd rfl hi
        | @step i' n v hre hn hl hv hrd =>
          obtain ⟨g', info, k, kids, hI⟩ := h.internal hsh hn hl
          obtain ⟨r1, r2⟩ := hI.childFor_range missing v
          have hlater := hI.isSplit.later
          have hg'r := (ih i' (by omega) g' hI.ghost r hr).1 hre
          obtain ⟨f, cu, b, mr, hF⟩ := splitFacts hT hpos hI.isSplit (hsums _ _ hI.ghost)
            (fun x hx => hlt x (h.rows_mem h0 _ g' hI.ghost x hx))
          obtain ⟨v', e1, _, e2⟩ := hF.route hR hI hg'r (hlt r hr)
          rw [hv] at e1; cases e1
          obtain ⟨kid, g'', d1, d2, d5, d3, d4⟩ := hI.isSplit.new_lt r1 r2
          rw [hg] at d2; cases d2
          rw [d3]
          exact (e2 _ kid d1).1 (by omega)
      · intro hgr
        obtain ⟨gi, info, k, b1, b2, b3, b4⟩ := h.parent i g hg (by omega)
        obtain ⟨kids, hS⟩ := h.split _ gi info k b1 b2
        obtain ⟨kid, g', d1, d2, d5, d3, d4⟩ := hS.new_lt b3 b4
        rw [hg] at d2; cases d2
        have hlater := hS.later
        -- the parent node in the final list
        obtain ⟨w, hw⟩ := hsh.2 _ _ hS.node
        obtain ⟨g2, info2, k2, kids2, hI⟩ := h.internal hsh hw (by simp [Node.makeParentNode])
        have := hI.ghost
        rw [b1] at this; cases this
        have := hI.info_eq
        rw [b2] at this; cases this
        have := hI.isSplit.kids_eq
        rw [hS.kids_eq] at this; cases this
        have hgir : r ∈ gi.rows := by
          refine hS.perm.mem_iff.1 (List.mem_flatMap.2 ⟨kid, List.mem_of_getElem? d1, ?_⟩)
          rw [← d3]; exact hgr
        have hre := (ih _ (by omega) gi b1 r hr).2 hgir
        obtain ⟨f, cu, b, mr, hF⟩ := splitFacts hT hpos hS (hsums _ _ b1)
          (fun x hx => hlt x (h.rows_mem h0 _ gi b1 x hx))
        obtain ⟨v', e1, e3, e2⟩ := hF.route hR hI hgir (hlt r hr)
        have := (e2 _ kid d1).2 (by rw [← d3]; exact hgr)
        have hst := Reaches.step hre hw (by simp [Node.makeParentNode]) e1 e3
        rw [this, show k + (i - k) = i by omega] at hst
        exact hst

/-- Following the route of a row one ends in a leaf. -/
theorem Cert.toLeaf (h : Cert c o gs nodes) (hsh : SameShape nodes nodes') (hT : TrainOk c.train gv hv)
    (hpos : (0 <ᶠ c.splitter.params.minLeafWeight) = true) {X : Matrix (FX m64)} {missing : FX m64}
    (hR : RawOk c.train X missing) {g0 : Ghost (FX m32) (FX m64)} (h0 : gs[0]? = some g0)
    (hN : NodeSums c.train gv hv g0.sn g0.rows) (hlt : ∀ r ∈ g0.rows, r < c.train.data.rows)
    {r : Nat} (hr : r ∈ g0.rows) : ∀ (d i : Nat), nodes'.length ≤ i + d → i < nodes'.length →
      Reaches nodes' (X.entry r) missing i →
      ∃ k l, nodes'[k]? = some l ∧ l.isLeaf = true ∧ Reaches nodes' (X.entry r) missing k ∧
        Route nodes' (X.entry r) missing i l := by
  have hsums := h.sums hT hpos h0 hN hlt
  have hreach := h.reaches hsh hT hpos hR h0 hN hlt
  intro d
  induction d with
  | zero => intro i h1 h2; omega
  | succ d ih =>
    intro i h1 h2 hre
    have hn := List.getElem?_eq_getElem h2
    cases hl : nodes'[i].isLeaf with
    | true => exact ⟨i, _, hn, hl, hre, .leaf hn hl⟩
    | false =>
      obtain ⟨g, info, k, kids, hI⟩ := h.internal hsh hn hl
      have hgr := (hreach i g hI.ghost r hr).1 hre
      obtain ⟨f, cu, b, mr, hF⟩ := splitFacts hT hpos hI.isSplit (hsums _ _ hI.ghost)
        (fun x hx => hlt x (h.rows_mem h0 _ g hI.ghost x hx))
      obtain ⟨v, e1, e3, e2⟩ := hF.route hR hI hgr (hlt r hr)
      obtain ⟨r1, r2⟩ := hI.childFor_range missing v
      obtain ⟨kid, g', d1, d2, _⟩ := hI.isSplit.new_lt r1 r2
      have hlater := hI.isSplit.later
      have hlt' : nodes'[i].childFor missing v < nodes'.length := by
        have := (List.getElem?_eq_some_iff.1 d2).1
        rw [hsh.1, ← h.len]; exact this
      obtain ⟨k', l, a1, a2, a3, a4⟩ := ih _ (by omega) hlt' (.step hre hn hl e1 e3)
      exact ⟨k', l, a1, a2, a3, .step hn hl e1 e3 a4⟩

variable {S : Sorter} {X : Matrix (FX m64)} {w : List K} {nbins : Nat} {missing : FX m64}
  {bd : BinnedData (FX m64)} {cols : List Nat} {grad hess : List (FX m32)}

/-- Binned data are good training data. -/
theorem trainOf_ok (hS : S.Ok) (hX : X.Shaped) (hw : X.rows ≤ w.length)
    (hmax : ∀ v ∈ X.data, ¬ IsMissing missing v → (v ≤ᶠ Fl.maxv) = true)
    (hb : binMatrix S X (w.map FX.fin) nbins missing = .ok bd) (hs : cols.Pairwise (· < ·))
    (hc : ∀ c ∈ cols, c < X.cols) (hg : FinRows grad gv) (hh : FinRows hess hv) :
    TrainOk (trainOf X bd grad hess cols) gv hv := by
  refine ⟨trainOf_laid hX (by simpa using hw) hb hs hc, hg, hh, fun col hcol cu hcu => ?_⟩
  obtain ⟨init, last, a1, a2, a3, a4, a5⟩ := C28_cuts hS hX (by simpa using hw) hmax hb col (hc col hcol)
  have hcu' : bd.cuts.getCol col = .ok cu := hcu
  rw [a1] at hcu'; injection hcu' with e; subst e
  rcases Nat.eq_zero_or_pos init.length with h0 | h0
  · simp [h0]
  · have hlt : init.length - 1 < init.length := by omega
    obtain ⟨i, hi, b1, b2⟩ := a4 init[init.length - 1] (List.getElem_mem hlt)
    obtain ⟨b, c1, c2, _, c3⟩ := a5 i hi _ b1
    have := c3 b2 (init.length - 1) init[init.length - 1] (by
      rw [List.getElem?_append_left hlt, List.getElem?_eq_getElem hlt])
    have hirr : ¬ (init[init.length - 1] <ᶠ init[init.length - 1]) = true := by
      rw [Fl.OrdLaws.lt_irrefl]; simp
    have hnb : ¬ b < init.length - 1 + 1 := fun h => hirr (this.1 h)
    rw [List.length_append, List.length_singleton]; omega

theorem trainOf_raw (hS : S.Ok) (hX : X.Shaped) (hw : X.rows ≤ w.length) (hw0 : ∀ x ∈ w, 0 ≤ x)
    (hmax : ∀ v ∈ X.data, ¬ IsMissing missing v → (v ≤ᶠ Fl.maxv) = true)
    (hb : binMatrix S X (w.map FX.fin) nbins missing = .ok bd)
    (hc : ∀ c ∈ cols, c < X.cols) : RawOk (trainOf X bd grad hess cols) X missing := by
  intro col hcol f cu hf hcu r hr
  have hr' : r < X.rows := hr
  have hcx := hc col hcol
  obtain ⟨init, last, a1, a2, a3, a4, a5⟩ := C28_cuts hS hX (by simpa using hw) hmax hb col hcx
  obtain ⟨cutss, hB⟩ := binMatrix_binned hX (by simpa using hw) hb
  have hcu' : bd.cuts.getCol col = .ok cu := hcu
  rw [a1] at hcu'; injection hcu' with e
  have hin : col * X.rows + r < X.data.length := by
    rw [hX]
    calc col * X.rows + r < col * X.rows + X.rows := by omega
      _ = X.rows * (col + 1) := by ring
      _ ≤ X.rows * X.cols := Nat.mul_le_mul_left _ hcx
  have hv : X.entry r col = some X.data[col * X.rows + r] := List.getElem?_eq_getElem hin
  refine ⟨_, hv, hB.readable _ (List.getElem_mem hin), ?_⟩
  obtain ⟨b, b1, b2, b3, b4⟩ := a5 r hr' _ hv
  have hfr : f.getD r 0 = b := by
    have hfe : f[r]? = some b := by
      unfold Matrix.getCol Matrix.getColSlice Matrix.itemIndex at hf
      obtain ⟨h1, h2, rfl⟩ := slice_eq_ok.1 hf
      simp only [trainOf] at hr' ⊢
      rw [List.getElem?_take, if_pos (by omega), List.getElem?_drop]
      simpa [Matrix.entry] using b1
    rw [List.getD_eq_getElem?_getD, hfe]; rfl
  rw [hfr]
  refine ⟨b3, fun hm h2 => ⟨fun h0 => ?_, fun k cv hk => b4 hm k cv (by rw [e]; exact hk)⟩⟩
  obtain ⟨cl, hcl⟩ : ∃ cl, cutss[col]? = some cl := ⟨_, List.getElem?_eq_getElem (by rw [hB.len]; exact hcx)⟩
  have hmade := hB.made col cl hcl
  have hclcu : cl = cu := by
    have := hB.jagged.getCol (j := col)
    rw [hcl, a1, Res.ofOption_some, e] at this
    injection this with this; exact this.symm
  subst hclcu
  obtain ⟨c0, d1, d2⟩ := first_cut hS (by rw [Matrix.column_length hX hcx]; exact hw) hw0 hmade h2
  have hmem : X.data[col * X.rows + r] ∈ X.column col := by
    rw [← Matrix.column_getElem? X hr'] at hv
    exact List.mem_of_getElem? hv
  have hle := d2 _ hmem hm
  have := (b4 hm 0 c0 (by rw [e]; exact d1)).1 (by omega)
  have hno := Fl.not_lt_of_le hle
  rw [hno] at this; cases this

/-- Sums of the root. -/
theorem root_sums {t : TrainData (FX m32) (FX m64)} (hT : TrainOk t gv hv) {sm : SampleMethod}
    {rows : List Nat}
    (hsm : sm = .none → rows = List.range t.grad.length ∧ t.hess.length = t.grad.length)
    {g h : FX m32} {sort : Bool} {hists : JaggedMatrix (Bin (FX m32) (FX m64))}
    (h1 : rootSums (D := FX m64) sm t.grad t.hess rows = .ok (g, h, sort))
    (h2 : histogramMatrix t.data t.cuts t.grad t.hess rows t.colIndex sort = .ok hists)
    (p : SplitParams (FX m32)) (n : Nat) : NodeSums t gv hv (rootNode p n g h hists) rows := by
  have hmap : ∀ (v : Nat → K) (l : List Nat),
      ((l.map fun r => (FX.fin (v r) : FX m32)).map (up : FX m32 → FX m64)) =
        (l.map v).map FX.fin := by
    intro v l; simp
  cases sm with
  | none =>
    obtain ⟨e1, e2⟩ := hsm rfl
    simp only [rootSums, Res.ok.injEq, Prod.mk.injEq] at h1
    obtain ⟨rfl, rfl, rfl⟩ := h1
    refine ⟨?_, ?_, fun _ => ?_⟩
    · show fastF64Sum (D := FX m64) t.grad = _
      rw [C46_fast_f64_sum, hT.grad.eq_range, hmap, sum_fin, FX.down_fin, e1]
      simp [rowSum]
    · show fastF64Sum (D := FX m64) t.hess = _
      rw [C46_fast_f64_sum, hT.hess.eq_range, hmap, sum_fin, FX.down_fin, e1, e2]
      simp [rowSum]
    · rw [e1] at h2 ⊢
      exact histAll_histOf hT.laid hT.grad hT.hess rfl e2 h2
  | random =>
    simp only [rootSums, Res.bind_eq_ok, Res.ok.injEq, Prod.mk.injEq] at h1
    obtain ⟨gs, a1, hs, a2, rfl, rfl, rfl⟩ := h1
    refine ⟨?_, ?_, fun _ => histRows_histOf hT.laid hT.grad hT.hess h2⟩
    · show down _ = _
      rw [finRows_mapM hT.grad a1, hmap, foldl_add_eq_sum, sum_fin, FX.zero_def, FX.fin_add,
        FX.down_fin, zero_add]
      rfl
    · show down _ = _
      rw [finRows_mapM hT.hess a2, hmap, foldl_add_eq_sum, sum_fin, FX.zero_def, FX.fin_add,
        FX.down_fin, zero_add]
      rfl
  | goss =>
    simp only [rootSums, Res.bind_eq_ok, Res.ok.injEq, Prod.mk.injEq] at h1
    obtain ⟨gs, a1, hs, a2, rfl, rfl, rfl⟩ := h1
    refine ⟨?_, ?_, fun _ => histRows_histOf hT.laid hT.grad hT.hess h2⟩
    · show down _ = _
      rw [finRows_mapM hT.grad a1, hmap, foldl_add_eq_sum, sum_fin, FX.zero_def, FX.fin_add,
        FX.down_fin, zero_add]
      rfl
    · show down _ = _
      rw [finRows_mapM hT.hess a2, hmap, foldl_add_eq_sum, sum_fin, FX.zero_def, FX.fin_add,
        FX.down_fin, zero_add]
      rfl

end

end Verif
