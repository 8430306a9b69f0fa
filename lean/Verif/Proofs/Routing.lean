import Verif.Proofs.Cover

/-!
# Rows of the nodes of a fitted tree, in any format

Where the rows of a node go, without any statement about sums: if at every split the rows of the
children are the rows on their side of the split bin, then the rows of a node are the rows that reach it.
-/

namespace Verif

open scoped Verif

set_option linter.unusedSectionVars false

section
variable {K : Type} [Field K] [LinearOrder K] [IsStrictOrderedRing K] {m32 m64 : Fmt K}
variable {c : GrowCfg (FX m32) (FX m64)} {o : SNode (FX m32) (FX m64) → Prop}
  {gs : List (Ghost (FX m32) (FX m64))} {nodes nodes' : List (Node (FX m32) (FX m64))}

/-- The rows of the children of a split. -/
structure SplitRows (c : GrowCfg (FX m32) (FX m64)) (g : Ghost (FX m32) (FX m64))
    (info : SplitInfo (FX m32) (FX m64)) (kids : List (Kid (FX m32) (FX m64))) (f : List Nat)
    (cu : List (FX m64)) (i : Nat) (mr : Bool) : Prop where
  col : c.train.data.getCol info.splitFeature = .ok f
  cuts : c.train.cuts.getCol info.splitFeature = .ok cu
  mem : info.splitFeature ∈ c.train.colIndex
  lt : i + 1 < cu.length
  value : cu[i]? = some info.splitValue
  goes : ∀ p, c.splitter = .imputer p → info.missingNode.goesRight = .ok mr
  kids : List.Forall₂ (fun kid sides => kid.rows.Perm (rowsOn f (i + 1) sides g.rows)) kids
    (kidSides c.splitter mr)

/-- The child that a row goes to. -/
theorem SplitRows.route {X : Matrix (FX m64)} {missing : FX m64} (hR : RawOk c.train X missing)
    {i : Nat} {n : Node (FX m32) (FX m64)} {g : Ghost (FX m32) (FX m64)}
    {info : SplitInfo (FX m32) (FX m64)} {k : Nat} {kids : List (Kid (FX m32) (FX m64))}
    (hI : Internal c gs nodes i n g info k kids) {f : List Nat} {cu : List (FX m64)} {b : Nat} {mr : Bool}
    (hF : SplitRows c g info kids f cu b mr) {r : Nat} (hr : r ∈ g.rows)
    (hlt : r < c.train.data.rows) :
    ∃ v, X.entry r n.splitFeature = some v ∧ Readable missing v ∧
      ∀ (q : Nat) (kid : Kid (FX m32) (FX m64)), kids[q]? = some kid →
        (n.childFor missing v = k + q ↔ r ∈ kid.rows) := by
  obtain ⟨v, e1, e2, e3, e4⟩ := hR _ hF.mem f cu hF.col hF.cuts r hlt
  rw [hI.feature]
  refine ⟨v, e1, e2, fun q kid hq => ?_⟩
  have hchild : n.childFor missing v = match binSide (b + 1) (f.getD r 0) with
      | .missing => n.missingNode
      | .left => n.leftChild
      | .right => n.rightChild := by
    unfold Node.childFor binSide
    by_cases hm : IsMissing missing v
    · rw [if_pos hm, if_pos (e3 hm)]
    · have hl := hF.lt
      obtain ⟨a1, a2⟩ := e4 hm (by omega)
      have a3 := a2 b _ hF.value
      rw [if_neg hm, if_neg a1, hI.value]
      by_cases h : f.getD r 0 < b + 1
      · rw [if_pos h, if_pos (a3.1 h)]
      · rw [if_neg h, if_neg (fun h' => h (a3.2 h'))]
  have hlen := (List.getElem?_eq_some_iff.1 hq).1
  have hlen' : q < (kidSides c.splitter mr).length := by rw [← hF.kids.length_eq]; exact hlen
  have := (List.forall₂_iff_get.1 hF.kids).2 q hlen hlen'
  simp only [List.get_eq_getElem, (List.getElem?_eq_some_iff.1 hq).2] at this
  rw [this.mem_iff, rowsOn, List.mem_filter, hchild]
  simp only [hr, true_and]
  have h1 := hI.left
  have h2 := hI.right
  have h3 := hI.missing
  have hgo := hF.goes
  clear hchild this
  revert hlen'
  cases hs : c.splitter with
  | imputer p =>
    have hg' := hgo p hs
    rw [hs] at h1 h2 h3
    simp only [Splitter.links] at h1 h2 h3
    simp only [kidSides, List.length_cons, List.length_nil]
    intro hlen'
    have hmn : n.missingNode = if mr then k + 1 else k := by
      rw [h3]
      revert hg'
      cases info.missingNode <;> simp [MissingInfo.goesRight]
    rw [h1, h2, hmn]
    have : q = 0 ∨ q = 1 := by omega
    rcases this with rfl | rfl <;> cases mr <;> cases binSide (b + 1) (f.getD r 0) <;>
      simp [leftSides, rightSides]
  | branch p =>
    rw [hs] at h1 h2 h3
    simp only [Splitter.links] at h1 h2 h3
    simp only [kidSides, List.length_cons, List.length_nil]
    intro hlen'
    rw [h1, h2, h3]
    have : q = 0 ∨ q = 1 ∨ q = 2 := by omega
    rcases this with rfl | rfl | rfl <;> cases binSide (b + 1) (f.getD r 0) <;> simp

/-- The child of an internal node is one of the new nodes. -/
theorem Internal.child_range {i : Nat} {n : Node (FX m32) (FX m64)} {g : Ghost (FX m32) (FX m64)}
    {info : SplitInfo (FX m32) (FX m64)} {k : Nat} {kids : List (Kid (FX m32) (FX m64))}
    (hI : Internal c gs nodes i n g info k kids) (missing v : FX m64) :
    k ≤ n.childFor missing v ∧ n.childFor missing v < k + c.splitter.arity := by
  have h1 := hI.left
  have h2 := hI.right
  have h3 := hI.missing
  unfold Node.childFor
  cases hs : c.splitter with
  | imputer p =>
    rw [hs] at h1 h2 h3
    simp only [Splitter.links] at h1 h2 h3
    simp only [Splitter.arity]
    have : n.missingNode = k ∨ n.missingNode = k + 1 := by
      rw [h3]; cases info.missingNode <;> simp
    split
    · omega
    · split <;> omega
  | branch p =>
    rw [hs] at h1 h2 h3
    simp only [Splitter.links] at h1 h2 h3
    simp only [Splitter.arity]
    split
    · omega
    · split <;> omega

/-- Every split of the tree sends the rows to their side. -/
def RowsSplit (c : GrowCfg (FX m32) (FX m64)) (gs : List (Ghost (FX m32) (FX m64)))
    (nodes : List (Node (FX m32) (FX m64))) : Prop :=
  ∀ i g info k kids, gs[i]? = some g → IsSplit c gs nodes i g info k kids →
    ∃ f cu b mr, SplitRows c g info kids f cu b mr

/-- The rows of a node are the rows that reach it. -/
theorem Cert.rows_reach (h : Cert c o gs nodes) (hsh : SameShape nodes nodes')
    (hS : RowsSplit c gs nodes) {X : Matrix (FX m64)} {missing : FX m64}
    (hR : RawOk c.train X missing) {g0 : Ghost (FX m32) (FX m64)} (h0 : gs[0]? = some g0)
    (hlt : ∀ r ∈ g0.rows, r < c.train.data.rows) :
    ∀ (i : Nat) (g : Ghost (FX m32) (FX m64)), gs[i]? = some g → ∀ r ∈ g0.rows,
      (Reaches nodes' (X.entry r) missing i ↔ r ∈ g.rows) := by
  intro i
  induction i using Nat.strong_induction_on with
  | _ i ih =>
    intro g hg r hr
    by_cases hi : i = 0
    · subst hi
      rw [h0] at hg; cases hg
      exact ⟨fun _ => hr, fun _ => .root⟩
    · constructor
      · intro hre
        cases hre with
        | root => exact absurd rfl hi
        | @step i' n v hre hn hl hv hrd =>
          obtain ⟨g', info, k, kids, hI⟩ := h.internal hsh hn hl
          obtain ⟨r1, r2⟩ := hI.child_range missing v
          have hlater := hI.isSplit.later
          have hg'r := (ih i' (by omega) g' hI.ghost r hr).1 hre
          obtain ⟨f, cu, b, mr, hF⟩ := hS _ _ _ _ _ hI.ghost hI.isSplit
          obtain ⟨v', e1, _, e2⟩ := hF.route hR hI hg'r (hlt r hr)
          rw [hv] at e1; cases e1
          obtain ⟨kid, g'', d1, d2, d5, d3, d4⟩ := hI.isSplit.new_lt r1 r2
          rw [hg] at d2; cases d2
          rw [d3]
          exact (e2 _ kid d1).1 (by omega)
      · intro hgr
        obtain ⟨gi, info, k, b1, b2, b3, b4⟩ := h.parent i g hg (by omega)
        obtain ⟨kids, hSp⟩ := h.split _ gi info k b1 b2
        obtain ⟨kid, g', d1, d2, d5, d3, d4⟩ := hSp.new_lt b3 b4
        rw [hg] at d2; cases d2
        have hlater := hSp.later
        -- the parent node in the final list
        obtain ⟨w, hw⟩ := hsh.2 _ _ hSp.node
        obtain ⟨g2, info2, k2, kids2, hI⟩ := h.internal hsh hw (by simp [Node.makeParentNode])
        have := hI.ghost
        rw [b1] at this; cases this
        have := hI.info_eq
        rw [b2] at this; cases this
        have := hI.isSplit.kids_eq
        rw [hSp.kids_eq] at this; cases this
        have hgir : r ∈ gi.rows := by
          refine hSp.perm.mem_iff.1 (List.mem_flatMap.2 ⟨kid, List.mem_of_getElem? d1, ?_⟩)
          rw [← d3]; exact hgr
        have hre := (ih _ (by omega) gi b1 r hr).2 hgir
        obtain ⟨f, cu, b, mr, hF⟩ := hS _ _ _ _ _ b1 hSp
        obtain ⟨v', e1, e3, e2⟩ := hF.route hR hI hgir (hlt r hr)
        have := (e2 _ kid d1).2 (by rw [← d3]; exact hgr)
        have hst := Reaches.step hre hw (by simp [Node.makeParentNode]) e1 e3
        rw [this, show k + (i - k) = i by omega] at hst
        exact hst

/-- Following the route of a row one ends in a leaf. -/
theorem Cert.rows_leaf (h : Cert c o gs nodes) (hsh : SameShape nodes nodes')
    (hS : RowsSplit c gs nodes) {X : Matrix (FX m64)} {missing : FX m64}
    (hR : RawOk c.train X missing) {g0 : Ghost (FX m32) (FX m64)} (h0 : gs[0]? = some g0)
    (hlt : ∀ r ∈ g0.rows, r < c.train.data.rows)
    {r : Nat} (hr : r ∈ g0.rows) : ∀ (d i : Nat), nodes'.length ≤ i + d → i < nodes'.length →
      Reaches nodes' (X.entry r) missing i →
      ∃ k l, nodes'[k]? = some l ∧ l.isLeaf = true ∧ Reaches nodes' (X.entry r) missing k ∧
        Route nodes' (X.entry r) missing i l := by
  have hreach := h.rows_reach hsh hS hR h0 hlt
  intro d
  induction d with
  | zero => intro i h1 h2; omega
  | succ d ih =>
    intro i h1 h2 hre
    have hn := List.getElem?_eq_getElem h2
    cases hl : nodes'[i].isLeaf with
    | true => exact ⟨i, _, hn, hl, hre, .leaf hn hl⟩
    | false =>
      obtain ⟨g, info, k, kids, hI⟩ := h.internal hsh hn hl
      have hgr := (hreach i g hI.ghost r hr).1 hre
      obtain ⟨f, cu, b, mr, hF⟩ := hS _ _ _ _ _ hI.ghost hI.isSplit
      obtain ⟨v, e1, e3, e2⟩ := hF.route hR hI hgr (hlt r hr)
      obtain ⟨r1, r2⟩ := hI.child_range missing v
      obtain ⟨kid, g', d1, d2, _⟩ := hI.isSplit.new_lt r1 r2
      have hlater := hI.isSplit.later
      have hlt' : nodes'[i].childFor missing v < nodes'.length := by
        have := (List.getElem?_eq_some_iff.1 d2).1
        rw [hsh.1, ← h.len]; exact this
      obtain ⟨k', l, a1, a2, a3, a4⟩ := ih _ (by omega) hlt' (.step hre hn hl e1 e3)
      exact ⟨k', l, a1, a2, a3, .step hn hl e1 e3 a4⟩

theorem Cert.nodup_rows (h : Cert c o gs nodes) {g0 : Ghost (FX m32) (FX m64)}
    (h0 : gs[0]? = some g0) (hn : g0.rows.Nodup) :
    ∀ (i : Nat) (g : Ghost (FX m32) (FX m64)), gs[i]? = some g → g.rows.Nodup := by
  intro i
  induction i using Nat.strong_induction_on with
  | _ i ih =>
    intro g hg
    by_cases hi : i = 0
    · subst hi
      rw [h0] at hg; cases hg; exact hn
    · obtain ⟨gi, info, k, b1, b2, b3, b4⟩ := h.parent i g hg (by omega)
      obtain ⟨kids, hS⟩ := h.split _ gi info k b1 b2
      obtain ⟨kid, g', d1, d2, d5, d3, d4⟩ := hS.new_lt b3 b4
      rw [hg] at d2; cases d2
      have hlt : g.parent < i := by have := hS.later; omega
      have h1 := hS.perm.nodup_iff.2 (ih _ hlt gi b1)
      rw [d3]
      exact (List.nodup_flatMap.1 h1).1 kid (List.mem_of_getElem? d1)

/-- A cover that is at least a positive minimum is positive. -/
theorem pos_of_min {x : K} {w : FX m32} (hw : (0 <ᶠ w) = true)
    (h : ((FX.fin x : FX m32) <ᶠ w) = false) : 0 < x := by
  cases w with
  | nan => cases hw
  | ninf => cases hw
  | pinf => cases h
  | fin q =>
    have h1 : decide ((0 : K) < q) = true := hw
    have h2 : decide (x < q) = false := h
    simp only [decide_eq_true_eq, decide_eq_false_iff_not, not_lt] at h1 h2
    exact lt_of_lt_of_le h1 h2

end

end Verif
