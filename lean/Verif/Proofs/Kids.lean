import Verif.Model.Tree
import Verif.Proofs.Pivot

/-!
# One split, described by the node and its list of rows

`handle_split_info` works on a shared row index.  `kidsOf` is the same computation on the list of the
node's own rows; `splitNode_ok` relates the two.
-/

namespace Verif

open scoped Verif

/-- A new node (not yet numbered) with its rows. -/
structure Kid (F D : Type) where
  /-- the node; its `num` is not set -/
  sn : SNode F D
  /-- its rows -/
  rows : List Nat

section
variable {F D : Type} [Fl F] [Fl D] [FlCast F D]

/-- Histograms of a list of rows. -/
def TrainData.histRows (t : TrainData F D) (rows : List Nat) : Res (JaggedMatrix (Bin F D)) :=
  histogramMatrix t.data t.cuts t.grad t.hess rows t.colIndex true

/-- Child histograms of a binary split: the smaller side is counted, the other one subtracted. -/
def imputerKidHists (t : TrainData F D) (hists : JaggedMatrix (Bin F D)) (l r : List Nat) :
    Res (JaggedMatrix (Bin F D) × JaggedMatrix (Bin F D)) :=
  if l.length < r.length then do
    let lh ← t.histRows l
    .ok (lh, histFromParentChild hists lh)
  else do
    let rh ← t.histRows r
    .ok (histFromParentChild hists rh, rh)

/-- Children of a binary split. -/
def imputerKids (t : TrainData F D) (sn : SNode F D) (rows : List Nat) (info : SplitInfo F D) :
    Res (List (Kid F D)) := do
  let mr ← info.missingNode.goesRight
  let feature ← t.data.getCol info.splitFeature
  let (rows', k) ← pivotOnSplit rows feature info.splitBin mr
  let lrows := rows'.take k
  let rrows := rows'.drop k
  let (lh, rh) ← imputerKidHists t sn.histograms lrows rrows
  .ok [⟨SNode.fromNodeInfo 0 lh (sn.depth + 1) sn.startIdx (k + sn.startIdx) info.leftNode, lrows⟩,
    ⟨SNode.fromNodeInfo 0 rh (sn.depth + 1) (k + sn.startIdx) sn.stopIdx info.rightNode, rrows⟩]

/-- Child histograms of a ternary split. -/
def branchKidHists (t : TrainData F D) (hists : JaggedMatrix (Bin F D)) (m l r : List Nat) :
    Res (JaggedMatrix (Bin F D) × JaggedMatrix (Bin F D) × JaggedMatrix (Bin F D)) :=
  let mx := maxOf3 m.length l.length r.length
  if m.length = 0 then
    if mx = 1 then do
      let rh ← t.histRows r
      .ok (JaggedMatrix.empty, histFromParentChild hists rh, rh)
    else do
      let lh ← t.histRows l
      .ok (JaggedMatrix.empty, lh, histFromParentChild hists lh)
  else if mx = 0 then do
    let lh ← t.histRows l
    let rh ← t.histRows r
    .ok (histFromParentTwoChildren hists lh rh, lh, rh)
  else if mx = 1 then do
    let mh ← t.histRows m
    let rh ← t.histRows r
    .ok (mh, histFromParentTwoChildren hists mh rh, rh)
  else do
    let mh ← t.histRows m
    let lh ← t.histRows l
    .ok (mh, lh, histFromParentTwoChildren hists mh lh)

/-- Children of a ternary split. -/
def branchKids (p : BranchParams F) (t : TrainData F D) (sn : SNode F D) (rows : List Nat)
    (info : SplitInfo F D) : Res (List (Kid F D)) := do
  let (isLeaf, minfo) ← p.missingChild info
  let minfo := if p.missingNodeTreatment = .assignToParent then
      { minfo with weight := sn.weightValue } else minfo
  let feature ← t.data.getCol info.splitFeature
  let (rows', m, k) ← pivotOnSplitExcludeMissing rows feature info.splitBin
  Res.assert (decide (m ≤ k ∧ k ≤ rows.length))
  let mrows := rows'.take m
  let lrows := (rows'.drop m).take (k - m)
  let rrows := rows'.drop k
  let (mh, lh, rh) ← branchKidHists t sn.histograms mrows lrows rrows
  let isLeaf := isLeaf || decide (mrows.length = 0)
  .ok [⟨{ SNode.fromNodeInfo 0 mh (sn.depth + 1) sn.startIdx (m + sn.startIdx) minfo
      with isMissingLeaf := isLeaf }, mrows⟩,
    ⟨SNode.fromNodeInfo 0 lh (sn.depth + 1) (m + sn.startIdx) (k + sn.startIdx) info.leftNode, lrows⟩,
    ⟨SNode.fromNodeInfo 0 rh (sn.depth + 1) (k + sn.startIdx) sn.stopIdx info.rightNode, rrows⟩]

/-- Children of a split. -/
def kidsOf (s : Splitter F) (t : TrainData F D) (sn : SNode F D) (rows : List Nat)
    (info : SplitInfo F D) : Res (List (Kid F D)) :=
  match s with
  | .imputer _ => imputerKids t sn rows info
  | .branch p => branchKids p t sn rows info

omit [Fl F] [Fl D] [FlCast F D] in
/-- Number the children from `k` on. -/
def numberKids (k : Nat) : List (Kid F D) → List (SNode F D)
  | [] => []
  | a :: l => { a.sn with num := k } :: numberKids (k + 1) l

omit [Fl F] [Fl D] [FlCast F D] in
/-- The children occupy consecutive segments of the row index. -/
inductive Segs : Nat → Nat → List (Kid F D) → Prop
  | nil (a : Nat) : Segs a a []
  | cons {k : Kid F D} {l : List (Kid F D)} {a b : Nat} (ha : a = k.sn.startIdx)
      (h : k.sn.stopIdx = k.sn.startIdx + k.rows.length) (hl : Segs k.sn.stopIdx b l) :
      Segs a b (k :: l)

omit [Fl F] [Fl D] [FlCast F D] in
/-- Number of children of a split. -/
def Splitter.arity : Splitter F → Nat
  | .imputer _ => 2
  | .branch _ => 3

omit [Fl F] [Fl D] [FlCast F D] in
/-- Numbers of the missing, left and right child when the first child gets number `k`. -/
def Splitter.links (s : Splitter F) (info : SplitInfo F D) (k : Nat) : Nat × Nat × Nat :=
  match s with
  | .imputer _ => (match info.missingNode with | .left => k | _ => k + 1, k, k + 1)
  | .branch _ => (k, k + 1, k + 2)

omit [Fl D] [FlCast F D] in
/-- The parent after the split. -/
def Splitter.parentNode (s : Splitter F) (sn : SNode F D) (info : SplitInfo F D) (k : Nat) :
    SNode F D :=
  sn.updateChildren (s.links info k).1 (s.links info k).2.1 (s.links info k).2.2 info

theorem slice_ok_iff {l r : List Nat} {i j : Nat} :
    slice l i j = .ok r ↔ i ≤ j ∧ j ≤ l.length ∧ r = (l.drop i).take (j - i) := slice_eq_ok

theorem slice_length {l r : List Nat} {i j : Nat} (h : slice l i j = .ok r) : r.length = j - i := by
  obtain ⟨h1, h2, rfl⟩ := slice_ok_iff.1 h
  rw [List.length_take, List.length_drop]; omega

/-- Reading a part of the segment that was written. -/
theorem slice_writeBack_inside {index rows : List Nat} {i j a b : Nat} (hij : i ≤ j)
    (hj : j ≤ index.length) (hr : rows.length = j - i) (hab : a ≤ b) (hb : b ≤ j - i) :
    slice (writeBack index i j rows) (i + a) (i + b) = .ok ((rows.drop a).take (b - a)) := by
  rw [slice_ok_iff]
  refine ⟨by omega, ?_, ?_⟩
  · simp only [writeBack, List.length_append, List.length_take, List.length_drop]; omega
  · have hl : (index.take i).length = i := by rw [List.length_take]; omega
    have h1 : (writeBack index i j rows).drop (i + a) = rows.drop a ++ index.drop j := by
      unfold writeBack
      rw [List.append_assoc, List.drop_append, hl, List.drop_eq_nil_of_le (by omega),
        List.nil_append, List.drop_append_of_le_length (by omega)]
      congr 2; omega
    rw [h1, List.take_append_of_le_length (by rw [List.length_drop]; omega)]
    congr 1; omega

/-- Reading a segment disjoint from the one that was written. -/
theorem slice_writeBack_outside {index rows : List Nat} {i j a b : Nat} (hij : i ≤ j)
    (hj : j ≤ index.length) (hr : rows.length = j - i) (hd : b ≤ i ∨ j ≤ a) :
    slice (writeBack index i j rows) a b = slice index a b := by
  have hlen : (writeBack index i j rows).length = index.length := by
    simp only [writeBack, List.length_append, List.length_take, List.length_drop]; omega
  unfold slice
  rw [hlen]
  by_cases h : a ≤ b ∧ b ≤ index.length
  · rw [if_pos h, if_pos h]
    congr 1
    apply List.ext_getElem?
    intro n
    rw [List.getElem?_take, List.getElem?_take, List.getElem?_drop, List.getElem?_drop]
    by_cases hn : n < b - a
    · rw [if_pos hn, if_pos hn]
      unfold writeBack
      rcases hd with hd | hd
      · rw [List.append_assoc, List.getElem?_append_left (by rw [List.length_take]; omega),
          List.getElem?_take, if_pos (by omega)]
      · rw [List.getElem?_append_right (by rw [List.length_append, List.length_take]; omega),
          List.length_append, List.length_take, List.getElem?_drop]
        congr 1; omega
    · rw [if_neg hn, if_neg hn]
  · rw [if_neg h, if_neg h]

omit [Fl F] in
theorem hist_eq_histRows {t : TrainData F D} {index rows : List Nat} {a b : Nat}
    (h : slice index a b = .ok rows) : t.hist index a b = t.histRows rows := by
  unfold TrainData.hist TrainData.histRows
  rw [h, Res.ok_bind]

/-- What a successful split does, in terms of the node's own rows. -/
structure SplitDone (s : Splitter F) (t : TrainData F D) (info : SplitInfo F D) (n : Nat)
    (node : SNode F D) (index : List Nat) (node' : SNode F D) (index' : List Nat)
    (new : List (SNode F D)) (rows : List Nat) (kids : List (Kid F D)) : Prop where
  slice_eq : slice index node.startIdx node.stopIdx = .ok rows
  kids_eq : kidsOf s t node rows info = .ok kids
  new_eq : new = numberKids n kids
  arity : kids.length = s.arity
  index_eq : index' = writeBack index node.startIdx node.stopIdx (kids.flatMap Kid.rows)
  perm : (kids.flatMap Kid.rows).Perm rows
  segs : Segs node.startIdx node.stopIdx kids
  node_eq : node' = s.parentNode node info n

theorem imputerHandle_ok {p : SplitParams F} {t : TrainData F D} {info : SplitInfo F D} {n : Nat}
    {node node' : SNode F D} {index index' : List Nat} {new : List (SNode F D)}
    (h : imputerHandle t info n node index = .ok (node', index', new)) :
    ∃ rows kids, SplitDone (.imputer p) t info n node index node' index' new rows kids := by
  unfold imputerHandle at h
  simp only [Res.bind_eq_ok] at h
  obtain ⟨mr', hmr, rows, hrows, feature, hfeat, ⟨rows', k⟩, hpiv, h⟩ := h
  have hlink : (if mr' then n + 1 else n) = (match info.missingNode with | .left => n | _ => n + 1) := by
    cases hm : info.missingNode <;> rw [hm] at hmr <;> cases hmr <;> rfl
  obtain ⟨hperm, hk⟩ := pivotOnSplit_ok hpiv
  have hrl : rows.length = node.stopIdx - node.startIdx := slice_length hrows
  have hr'l : rows'.length = node.stopIdx - node.startIdx := hperm.length_eq.trans hrl
  obtain ⟨hle, hstop, _⟩ := slice_ok_iff.1 hrows
  have hL : slice (writeBack index node.startIdx node.stopIdx rows') node.startIdx (k + node.startIdx)
      = .ok (rows'.take k) := by
    have := slice_writeBack_inside (a := 0) (b := k) hle hstop hr'l (by omega) (by omega)
    simpa [Nat.add_comm] using this
  have hR : slice (writeBack index node.startIdx node.stopIdx rows') (k + node.startIdx) node.stopIdx
      = .ok (rows'.drop k) := by
    have := slice_writeBack_inside (a := k) (b := node.stopIdx - node.startIdx) hle hstop hr'l
      (by omega) (by omega)
    rw [show node.startIdx + (node.stopIdx - node.startIdx) = node.stopIdx by omega,
      Nat.add_comm node.startIdx k, List.take_of_length_le (by rw [List.length_drop]; omega)] at this
    exact this
  have hll : (rows'.take k).length = k := by rw [List.length_take]; omega
  have hlr : (rows'.drop k).length = node.stopIdx - node.startIdx - k := by
    rw [List.length_drop]; omega
  have hcond : (node.stopIdx - node.startIdx - (node.stopIdx - node.startIdx - k)
      < node.stopIdx - node.startIdx - k) ↔ (rows'.take k).length < (rows'.drop k).length := by
    rw [hll, hlr]; omega
  simp only [hist_eq_histRows hL, hist_eq_histRows hR, hcond] at h
  have fin : ∀ lh rh, imputerKidHists t node.histograms (rows'.take k) (rows'.drop k)
        = Res.ok (lh, rh) →
      node' = node.updateChildren (if mr' then n + 1 else n) n (n + 1) info →
      index' = writeBack index node.startIdx node.stopIdx rows' →
      new = [SNode.fromNodeInfo n lh (node.depth + 1) node.startIdx (k + node.startIdx) info.leftNode,
        SNode.fromNodeInfo (n + 1) rh (node.depth + 1) (k + node.startIdx) node.stopIdx
          info.rightNode] →
      ∃ rows kids, SplitDone (.imputer p) t info n node index node' index' new rows kids := by
    intro lh rh hh hn hi hnew
    refine ⟨rows, [⟨SNode.fromNodeInfo 0 lh (node.depth + 1) node.startIdx (k + node.startIdx)
        info.leftNode, rows'.take k⟩,
      ⟨SNode.fromNodeInfo 0 rh (node.depth + 1) (k + node.startIdx) node.stopIdx info.rightNode,
        rows'.drop k⟩], ⟨hrows, ?_, ?_, rfl, ?_, ?_, ?_, ?_⟩⟩
    · simp only [kidsOf, imputerKids, hmr, hfeat, hpiv, Res.ok_bind, hh]
    · rw [hnew]; rfl
    · rw [hi]; simp
    · simpa using hperm
    · refine Segs.cons rfl ?_ (Segs.cons rfl ?_ (Segs.nil _))
      · simp only [SNode.fromNodeInfo]; rw [hll]; omega
      · simp only [SNode.fromNodeInfo]; rw [hlr]; omega
    · rw [hn]; simp only [Splitter.parentNode, Splitter.links]; rw [hlink]
  split at h
  · rename_i hc
    simp only [Res.bind_eq_ok, Res.pure_def, Res.ok.injEq, exists_eq_left', Prod.mk.injEq] at h
    obtain ⟨lh, hlh, h1, h2, h3⟩ := h
    exact fin lh _ (by rw [imputerKidHists, if_pos hc, hlh]; rfl) h1.symm h2.symm h3.symm
  · rename_i hc
    simp only [Res.bind_eq_ok, Res.pure_def, Res.ok.injEq, exists_eq_left', Prod.mk.injEq] at h
    obtain ⟨rh, hrh, h1, h2, h3⟩ := h
    exact fin _ rh (by rw [imputerKidHists, if_neg hc, hrh]; rfl) h1.symm h2.symm h3.symm

theorem branchHandle_ok {p : BranchParams F} {t : TrainData F D} {info : SplitInfo F D} {n : Nat}
    {node node' : SNode F D} {index index' : List Nat} {new : List (SNode F D)}
    (h : branchHandle p t info n node index = .ok (node', index', new)) :
    ∃ rows kids, SplitDone (.branch p) t info n node index node' index' new rows kids := by
  unfold branchHandle at h
  simp only [Res.bind_eq_ok] at h
  obtain ⟨⟨isl, minfo⟩, hm, rows, hrows, feature, hfeat, ⟨rows', m, k⟩, hpiv, u, hass,
    ⟨mh, lh, rh⟩, hh, h⟩ := h
  have hperm := pivotOnSplitExcludeMissing_ok hpiv
  have hrl : rows.length = node.stopIdx - node.startIdx := slice_length hrows
  have hr'l : rows'.length = node.stopIdx - node.startIdx := hperm.length_eq.trans hrl
  obtain ⟨hle, hstop, _⟩ := slice_ok_iff.1 hrows
  have hmk : m ≤ k ∧ k ≤ node.stopIdx - node.startIdx := by
    simpa [Res.assert_eq_ok] using hass
  obtain ⟨hmk, hk⟩ := hmk
  have hM : slice (writeBack index node.startIdx node.stopIdx rows') node.startIdx (m + node.startIdx)
      = .ok (rows'.take m) := by
    have := slice_writeBack_inside (a := 0) (b := m) hle hstop hr'l (by omega) (by omega)
    simpa [Nat.add_comm] using this
  have hL : slice (writeBack index node.startIdx node.stopIdx rows') (m + node.startIdx)
      (k + node.startIdx) = .ok ((rows'.drop m).take (k - m)) := by
    have := slice_writeBack_inside (a := m) (b := k) hle hstop hr'l (by omega) (by omega)
    rwa [Nat.add_comm node.startIdx m, Nat.add_comm node.startIdx k] at this
  have hR : slice (writeBack index node.startIdx node.stopIdx rows') (k + node.startIdx) node.stopIdx
      = .ok (rows'.drop k) := by
    have := slice_writeBack_inside (a := k) (b := node.stopIdx - node.startIdx) hle hstop hr'l
      (by omega) (by omega)
    rw [show node.startIdx + (node.stopIdx - node.startIdx) = node.stopIdx by omega,
      Nat.add_comm node.startIdx k, List.take_of_length_le (by rw [List.length_drop]; omega)] at this
    exact this
  have hlm : (rows'.take m).length = m := by rw [List.length_take]; omega
  have hll : ((rows'.drop m).take (k - m)).length = k - m := by
    rw [List.length_take, List.length_drop]; omega
  have hlr : (rows'.drop k).length = node.stopIdx - node.startIdx - k := by
    rw [List.length_drop]; omega
  have e1 : node.stopIdx - node.startIdx - (node.stopIdx - node.startIdx - k) - m = k - m := by omega
  have e2 : node.stopIdx - node.startIdx - (node.stopIdx - node.startIdx - k + (k - m)) = m := by
    omega
  rw [e1, e2] at hh
  rw [e1, e2] at h
  have hh' : branchKidHists t node.histograms (rows'.take m) ((rows'.drop m).take (k - m))
      (rows'.drop k) = .ok (mh, lh, rh) := by
    rw [← hh]
    unfold branchKidHists branchHists
    rw [hist_eq_histRows hM, hist_eq_histRows hL, hist_eq_histRows hR, hlm, hll, hlr]
  simp only [Res.ok.injEq, Prod.mk.injEq] at h
  obtain ⟨h1, h2, h3⟩ := h
  have hdec : rows' = rows'.take m ++ ((rows'.drop m).take (k - m) ++ rows'.drop k) := by
    conv_lhs => rw [← List.take_append_drop m rows', ← List.take_append_drop (k - m) (rows'.drop m)]
    rw [List.drop_drop]
    congr 3; omega
  refine ⟨rows, [⟨{ SNode.fromNodeInfo 0 mh (node.depth + 1) node.startIdx (m + node.startIdx)
        (if p.missingNodeTreatment = .assignToParent then
          { minfo with weight := node.weightValue } else minfo)
      with isMissingLeaf := isl || decide (m = 0) }, rows'.take m⟩,
    ⟨SNode.fromNodeInfo 0 lh (node.depth + 1) (m + node.startIdx) (k + node.startIdx) info.leftNode,
      (rows'.drop m).take (k - m)⟩,
    ⟨SNode.fromNodeInfo 0 rh (node.depth + 1) (k + node.startIdx) node.stopIdx info.rightNode,
      rows'.drop k⟩], ⟨hrows, ?_, ?_, rfl, ?_, ?_, ?_, ?_⟩⟩
  · simp only [kidsOf, branchKids, hm, hfeat, hpiv, Res.ok_bind]
    rw [show Res.assert (decide (m ≤ k ∧ k ≤ rows.length)) = .ok () by
      rw [decide_eq_true ⟨hmk, by omega⟩]; rfl]
    simp only [Res.ok_bind, hh', hlm]
  · rw [← h3]; rfl
  · rw [← h2]
    simp only [List.flatMap_cons, List.flatMap_nil, List.append_nil, ← hdec]
  · simp only [List.flatMap_cons, List.flatMap_nil, List.append_nil, ← hdec]
    exact hperm
  · refine Segs.cons rfl ?_ (Segs.cons rfl ?_ (Segs.cons rfl ?_ (Segs.nil _)))
    · simp only [SNode.fromNodeInfo]; rw [hlm]; omega
    · simp only [SNode.fromNodeInfo]; rw [hll]; omega
    · simp only [SNode.fromNodeInfo]; rw [hlr]; omega
  · rw [← h1]; rfl

/-- `split_node`: either no split is found and nothing changes, or the split is carried out. -/
theorem splitNode_ok {s : Splitter F} {t : TrainData F D} {n : Nat}
    {node node' : SNode F D} {index index' : List Nat} {new : List (SNode F D)}
    (h : splitNode s t n node index = .ok (node', index', new)) :
    (bestSplit s node t.colIndex = .ok none ∧ node' = node ∧ index' = index ∧ new = []) ∨
    ∃ info rows kids, bestSplit s node t.colIndex = .ok (some info) ∧
      SplitDone s t info n node index node' index' new rows kids := by
  simp only [splitNode, Res.bind_eq_ok] at h
  obtain ⟨best, hb, h⟩ := h
  cases best with
  | none =>
    left
    simp only [Res.ok.injEq, Prod.mk.injEq] at h
    exact ⟨hb, h.1.symm, h.2.1.symm, h.2.2.symm⟩
  | some info =>
    right
    cases s with
    | imputer p =>
      obtain ⟨rows, kids, hd⟩ := imputerHandle_ok (p := p) h
      exact ⟨info, rows, kids, hb, hd⟩
    | branch p =>
      obtain ⟨rows, kids, hd⟩ := branchHandle_ok h
      exact ⟨info, rows, kids, hb, hd⟩

/-! ### Slices of the children -/

omit [Fl F] [Fl D] [FlCast F D] in
theorem length_numberKids (k : Nat) (l : List (Kid F D)) : (numberKids k l).length = l.length := by
  induction l generalizing k with
  | nil => rfl
  | cons a l ih => simp [numberKids, ih]

omit [Fl F] [Fl D] [FlCast F D] in
theorem getElem?_numberKids (k : Nat) (l : List (Kid F D)) (j : Nat) :
    (numberKids k l)[j]? = l[j]?.map fun a => { a.sn with num := k + j } := by
  induction l generalizing k j with
  | nil => rfl
  | cons a l ih =>
    cases j with
    | zero => rfl
    | succ j =>
      simp only [numberKids, List.getElem?_cons_succ, ih]
      congr 1; funext b; congr 1; omega

omit [Fl F] [Fl D] [FlCast F D] in
theorem Segs.length {a b : Nat} {l : List (Kid F D)} (h : Segs a b l) :
    b = a + (l.flatMap Kid.rows).length := by
  induction h with
  | nil => simp
  | cons ha h hl ih => rw [List.flatMap_cons, List.length_append]; omega

omit [Fl F] [Fl D] [FlCast F D] in
/-- The position of a child's segment. -/
theorem Segs.mem {a b : Nat} {l : List (Kid F D)} (h : Segs a b l) {j : Nat} {kid : Kid F D}
    (hk : l[j]? = some kid) :
    ∃ u v, l.flatMap Kid.rows = u ++ kid.rows ++ v ∧ kid.sn.startIdx = a + u.length ∧
      kid.sn.stopIdx = a + u.length + kid.rows.length := by
  induction h generalizing j with
  | nil => simp at hk
  | @cons k0 l a b ha h hl ih =>
    cases j with
    | zero =>
      simp only [List.getElem?_cons_zero, Option.some.injEq] at hk
      subst hk
      exact ⟨[], l.flatMap Kid.rows, by simp, by simp [ha], by simp [h, ha]⟩
    | succ j =>
      rw [List.getElem?_cons_succ] at hk
      obtain ⟨u, v, h1, h2, h3⟩ := ih hk
      refine ⟨k0.rows ++ u, v, ?_, ?_, ?_⟩
      · rw [List.flatMap_cons, h1]; simp
      · rw [h2, List.length_append]; omega
      · rw [h3, List.length_append]; omega

omit [Fl F] [Fl D] [FlCast F D] in
/-- The segments of the children follow each other. -/
theorem Segs.pairwise {a b : Nat} {l : List (Kid F D)} (h : Segs a b l) :
    l.Pairwise (fun x y => x.sn.stopIdx ≤ y.sn.startIdx) ∧
      ∀ x ∈ l, a ≤ x.sn.startIdx ∧ x.sn.stopIdx ≤ b ∧ x.sn.startIdx ≤ x.sn.stopIdx := by
  induction h with
  | nil => simp
  | @cons k0 l a b ha h hl ih =>
    refine ⟨List.Pairwise.cons (fun x hx => (ih.2 x hx).1) ih.1, ?_⟩
    intro x hx
    rcases List.mem_cons.1 hx with rfl | hx
    · have := hl.length
      exact ⟨by omega, by omega, by omega⟩
    · have := ih.2 x hx
      exact ⟨by omega, this.2.1, this.2.2⟩

/-- After a split each child finds its rows in its segment. -/
theorem SplitDone.kid_slice {s : Splitter F} {t : TrainData F D} {info : SplitInfo F D} {n : Nat}
    {node node' : SNode F D} {index index' : List Nat} {new : List (SNode F D)} {rows : List Nat}
    {kids : List (Kid F D)} (h : SplitDone s t info n node index node' index' new rows kids)
    {j : Nat} {kid : Kid F D} (hk : kids[j]? = some kid) :
    slice index' kid.sn.startIdx kid.sn.stopIdx = .ok kid.rows := by
  obtain ⟨hle, hstop, _⟩ := slice_ok_iff.1 h.slice_eq
  have hlen := slice_length h.slice_eq
  have hl := h.segs.length
  obtain ⟨u, v, h1, h2, h3⟩ := h.segs.mem hk
  have hul : u.length + kid.rows.length + v.length = node.stopIdx - node.startIdx := by
    rw [h1] at hl; simp only [List.length_append] at hl; omega
  rw [h.index_eq, h2, h3, Nat.add_assoc, slice_writeBack_inside hle hstop (by omega) (by omega)
    (by omega), h1, List.append_assoc, List.drop_left]
  congr 1
  rw [Nat.add_sub_cancel_left, List.take_left]

/-- A split does not touch other segments. -/
theorem SplitDone.other_slice {s : Splitter F} {t : TrainData F D} {info : SplitInfo F D} {n : Nat}
    {node node' : SNode F D} {index index' : List Nat} {new : List (SNode F D)} {rows : List Nat}
    {kids : List (Kid F D)} (h : SplitDone s t info n node index node' index' new rows kids)
    {a b : Nat} (hd : b ≤ node.startIdx ∨ node.stopIdx ≤ a) :
    slice index' a b = slice index a b := by
  obtain ⟨hle, hstop, _⟩ := slice_ok_iff.1 h.slice_eq
  have hlen := slice_length h.slice_eq
  rw [h.index_eq]
  exact slice_writeBack_outside hle hstop (by rw [h.perm.length_eq]; omega) hd

end

end Verif
