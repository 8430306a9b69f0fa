import Verif.Proofs.TotalFit

/-!
# Growing a tree does not panic, whatever the arithmetic

The sums of a node cannot be trusted when results are rounded, so this file does not use them.  What is
used: the histograms of a node have the columns of the cuts, and those of a node without rows hold zeros
only, because the histograms that are obtained by subtraction are those of the largest child.
-/

set_option linter.unusedSectionVars false

namespace Verif

open scoped Verif

/-- What is needed of the arithmetic: `0 + 0` and the cast of zero are zero. -/
class Fl.ZeroLaws (F D : Type) [Fl F] [Fl D] [FlCast F D] : Prop where
  add : (0 : F) + 0 = 0
  down : (down (0 : D) : F) = 0

section
variable {F D : Type} [Fl F] [Fl D] [FlCast F D]

/-- The histograms have the columns of the cuts, and hold zeros if there are no rows. -/
def ColsOk (t : TrainData F D) (rows : List Nat) (m : JaggedMatrix (Bin F D)) : Prop :=
  ∃ hs, Jagged hs m ∧ List.Forall₂ (fun col (h : List (Bin F D)) => ∃ c, t.cuts.getCol col = .ok c ∧
    c ≠ [] ∧ h.length = c.length) t.colIndex hs ∧
    (rows = [] → ∀ h ∈ hs, ∀ b ∈ h, b.grad = 0 ∧ b.hess = 0)

theorem histAdd_one_length {feature : List Nat} {h h' : List (Bin D D)} {r : Nat × F × F}
    (e : histAdd feature h r = .ok h') : h'.length = h.length := by
  simp only [histAdd, Res.bind_eq_ok, Res.ok.injEq] at e
  obtain ⟨b, _, rfl⟩ := e
  simp

theorem foldHist_length {feature : List Nat} : ∀ (l : List (Nat × F × F)) (h h' : List (Bin D D)),
    Res.foldM' (histAdd feature) h l = .ok h' → h'.length = h.length := by
  intro l
  induction l with
  | nil => intro h h' e; cases e; rfl
  | cons r l ih =>
    intro h h' e
    rw [Res.foldM'_cons, Res.bind_eq_ok] at e
    obtain ⟨h1, e1, e2⟩ := e
    rw [ih _ _ e2, histAdd_one_length e1]

theorem createFeatureHistogram_cols [Fl.ZeroLaws F D] {feature : List Nat} {cuts : List D} {sg sh : List F}
    {index : List Nat} {h : List (Bin F D)} (e : createFeatureHistogram feature cuts sg sh index = .ok h) :
    cuts ≠ [] ∧ h.length = cuts.length ∧ (index = [] → ∀ b ∈ h, b.grad = 0 ∧ b.hess = 0) := by
  unfold createFeatureHistogram at e
  split at e
  · cases e
  · rename_i hc
    have hne : cuts ≠ [] := fun h => hc (by rw [h]; rfl)
    have hpos := List.length_pos_iff.2 hne
    simp only [Res.bind_eq_ok, Res.ok.injEq] at e
    obtain ⟨h1, e1, rfl⟩ := e
    refine ⟨hne, ?_, ?_⟩
    · rw [List.length_map, foldHist_length _ _ _ e1, List.length_cons, List.length_map, List.length_take]
      omega
    · rintro rfl b hb
      simp only [List.zip_nil_left, List.map_nil, Res.foldM'_nil, Res.ok.injEq] at e1
      subst e1
      obtain ⟨b0, h0, rfl⟩ := List.mem_map.1 hb
      have : b0.grad = 0 ∧ b0.hess = 0 := by
        rcases List.mem_cons.1 h0 with rfl | h0
        · exact ⟨rfl, rfl⟩
        · obtain ⟨x, _, rfl⟩ := List.mem_map.1 h0
          exact ⟨rfl, rfl⟩
      simp only [Bin.asF32, this]
      exact ⟨Fl.ZeroLaws.down, Fl.ZeroLaws.down⟩

theorem histogramMatrix_cols [Fl.ZeroLaws F D] {t : TrainData F D} (hl : t.Laid) {rows : List Nat} {sort : Bool}
    {m : JaggedMatrix (Bin F D)}
    (h : histogramMatrix t.data t.cuts t.grad t.hess rows t.colIndex sort = .ok m) : ColsOk t rows m := by
  obtain ⟨sg, sh, hs, ends, _, _, h3, h4, rfl⟩ := histogramMatrix_form h
  have h5 : List.Forall₂ (fun col (h : List (Bin F D)) => ∃ c, t.cuts.getCol col = .ok c ∧ c ≠ [] ∧
      h.length = c.length ∧ (rows = [] → ∀ b ∈ h, b.grad = 0 ∧ b.hess = 0)) t.colIndex hs := by
    refine (Res.mapM'_eq_ok.1 h3).imp fun col h e => ?_
    simp only [Res.bind_eq_ok] at e
    obtain ⟨f, _, c, e2, e3⟩ := e
    obtain ⟨a1, a2, a3⟩ := createFeatureHistogram_cols e3
    exact ⟨c, e2, a1, a2, a3⟩
  refine ⟨hs, histogramMatrix_jagged hl (h5.imp ?_) h4, h5.imp ?_, ?_⟩
  · rintro a b ⟨c, h1, _, h3, _⟩; exact ⟨c, h1, h3⟩
  · rintro a b ⟨c, h1, h2, h3, _⟩; exact ⟨c, h1, h2, h3⟩
  · intro hr h' hh
    clear h3 h4 h
    generalize t.colIndex = cols at h5
    induction h5 with
    | nil => cases hh
    | cons a _ ih =>
      rcases List.mem_cons.1 hh with rfl | hh
      · obtain ⟨_, _, _, _, h4⟩ := a; exact h4 hr
      · exact ih hh

theorem ColsOk.sub {t : TrainData F D} {rows l r : List Nat} {P C : JaggedMatrix (Bin F D)}
    (hP : ColsOk t rows P) (hC : ColsOk t l C) (hr : r ≠ []) : ColsOk t r (histFromParentChild P C) := by
  obtain ⟨ps, jp, fp, zp⟩ := hP
  obtain ⟨cs, jc, fc, zc⟩ := hC
  have hlen : List.Forall₂ (fun (a : List (Bin F D)) (b : List (Bin F D)) => a.length = b.length) ps cs := by
    refine (forall₂_two fp fc).imp ?_
    rintro a b ⟨col, ⟨c, h1, _, h3⟩, ⟨c', h1', _, h3'⟩⟩
    rw [h1] at h1'; cases h1'
    rw [h3, h3']
  refine ⟨List.zipWith (List.zipWith Bin.fromParentChild) ps cs, ⟨?_, ?_⟩, ?_, fun h => absurd h hr⟩
  · simp only [histFromParentChild]
    rw [jp.data_eq, jc.data_eq, zipWith_flatten _ _ _ hlen]
  · simp only [histFromParentChild]
    rw [jc.ends_eq]
    apply endsOf_congr
    clear jp jc fp fc zp zc
    induction hlen with
    | nil => rfl
    | cons h _ ih => simp [ih, h]
  · refine forall₂_zipWith fp fc ?_
    rintro col a b ⟨c, h1, h2, h3⟩ ⟨c', h1', h2', h3'⟩
    rw [h1] at h1'; cases h1'
    exact ⟨c, h1, h2, by rw [List.length_zipWith, h3, h3', min_self]⟩

theorem ColsOk.sub2 {t : TrainData F D} {rows l l' r : List Nat} {P C C' : JaggedMatrix (Bin F D)}
    (hP : ColsOk t rows P) (hC : ColsOk t l C) (hC' : ColsOk t l' C') (hr : r ≠ []) :
    ColsOk t r (histFromParentTwoChildren P C C') := by
  obtain ⟨ps, jp, fp, zp⟩ := hP
  obtain ⟨cs, jc, fc, zc⟩ := hC
  obtain ⟨ds, jd, fd, zd⟩ := hC'
  have hcd : List.Forall₂ (fun (a : List (Bin F D)) (b : List (Bin F D)) => a.length = b.length) cs ds := by
    refine (forall₂_two fc fd).imp ?_
    rintro a b ⟨col, ⟨c, h1, _, h3⟩, ⟨c', h1', _, h3'⟩⟩
    rw [h1] at h1'; cases h1'
    rw [h3, h3']
  have fz : List.Forall₂ (fun col (h : List (Bin F D × Bin F D)) => ∃ c, t.cuts.getCol col = .ok c ∧
      c ≠ [] ∧ h.length = c.length) t.colIndex (List.zipWith List.zip cs ds) := by
    refine forall₂_zipWith fc fd ?_
    rintro col a b ⟨c, h1, h2, h3⟩ ⟨c', h1', h2', h3'⟩
    rw [h1] at h1'; cases h1'
    exact ⟨c, h1, h2, by rw [List.length_zip, h3, h3', min_self]⟩
  have hlen : List.Forall₂ (fun (a : List (Bin F D)) (b : List (Bin F D × Bin F D)) => a.length = b.length) ps
      (List.zipWith List.zip cs ds) := by
    refine (forall₂_two fp fz).imp ?_
    rintro a b ⟨col, ⟨c, h1, _, h3⟩, ⟨c', h1', _, h3'⟩⟩
    rw [h1] at h1'; cases h1'
    rw [h3, h3']
  have hflat : cs.flatten.zip ds.flatten = (List.zipWith List.zip cs ds).flatten :=
    zipWith_flatten Prod.mk _ _ hcd
  refine ⟨List.zipWith (List.zipWith fun r p => Bin.fromParentTwoChildren r p.1 p.2) ps
    (List.zipWith List.zip cs ds), ⟨?_, ?_⟩, ?_, fun h => absurd h hr⟩
  · simp only [histFromParentTwoChildren]
    rw [jp.data_eq, jc.data_eq, jd.data_eq, hflat, zipWith_flatten _ _ _ hlen]
  · simp only [histFromParentTwoChildren]
    rw [jc.ends_eq]
    apply endsOf_congr
    have h1 : List.map List.length cs = List.map List.length (List.zipWith List.zip cs ds) := by
      clear jp jc jd fp fc fd fz hlen hflat zp zc zd
      induction hcd with
      | nil => rfl
      | cons h _ ih => simp [ih, h]
    rw [h1]
    clear jp jc jd fp fc fd fz hcd hflat h1 zp zc zd
    generalize List.zipWith List.zip cs ds = zs at hlen
    induction hlen with
    | nil => rfl
    | cons h _ ih => simp [ih, h]
  · refine forall₂_zipWith fp fz ?_
    rintro col a b ⟨c, h1, h2, h3⟩ ⟨c', h1', h2', h3'⟩
    rw [h1] at h1'; cases h1'
    exact ⟨c, h1, h2, by rw [List.length_zipWith, h3, h3', min_self]⟩

omit [Fl F] [Fl D] [FlCast F D] in
/-- The largest of the three groups is not empty. -/
theorem maxOf3_pos {m l r : Nat} (h : 0 < m + l + r) :
    (maxOf3 m l r = 0 → 0 < m) ∧ (maxOf3 m l r = 1 → 0 < l) ∧
      (maxOf3 m l r ≠ 0 → maxOf3 m l r ≠ 1 → 0 < r) := by
  unfold maxOf3
  split
  · simp only [OfNat.ofNat_ne_zero, false_implies, true_and, OfNat.ofNat_ne_one]; omega
  · split
    · simp only [one_ne_zero, false_implies, true_and]; omega
    · simp only [zero_ne_one, false_implies, true_and]; omega

/-- The children of a node with good histograms have good histograms. -/
theorem kids_cols [Fl.ZeroLaws F D] {t : TrainData F D} (hl : t.Laid) {s : Splitter F} {sn : SNode F D}
    {rows : List Nat} {info : SplitInfo F D} {kids : List (Kid F D)} (hN : ColsOk t rows sn.histograms)
    (hne : rows ≠ []) (hk : kidsOf s t sn rows info = .ok kids) :
    ∀ kid ∈ kids, kid.sn.isMissingLeaf = false → ColsOk t kid.rows kid.sn.histograms := by
  have hd : ∀ {r m}, t.histRows r = .ok m → ColsOk t r m := fun h => histogramMatrix_cols hl h
  have hpos := List.length_pos_iff.2 hne
  cases s with
  | imputer p =>
    obtain ⟨mr, feature, rows', k, kl, kr, a1, a2, a3, a4, rfl, a5, a6, a7, a8, a9, a10⟩ :=
      imputerKids_view hk
    obtain ⟨hperm, _⟩ := pivotOnSplit_ok a3
    have hlen := hperm.length_eq
    have hsum : (rows'.take k).length + (rows'.drop k).length = rows.length := by
      rw [← List.length_append, List.take_append_drop, hlen]
    have key : ColsOk t (rows'.take k) kl.sn.histograms ∧ ColsOk t (rows'.drop k) kr.sn.histograms := by
      unfold imputerKidHists at a4
      split at a4
      · rename_i hc
        simp only [Res.bind_eq_ok, Res.ok.injEq, Prod.mk.injEq] at a4
        obtain ⟨lh, b1, rfl, b2⟩ := a4
        refine ⟨hd b1, ?_⟩
        rw [← b2]
        exact hN.sub (hd b1) (List.length_pos_iff.1 (by omega))
      · rename_i hc
        simp only [Res.bind_eq_ok, Res.ok.injEq, Prod.mk.injEq] at a4
        obtain ⟨rh, b1, b2, rfl⟩ := a4
        refine ⟨?_, hd b1⟩
        rw [← b2]
        exact hN.sub (hd b1) (List.length_pos_iff.1 (by omega))
    intro kid hm _
    simp only [List.mem_cons, List.not_mem_nil, or_false] at hm
    rcases hm with rfl | rfl
    · rw [a5]; exact key.1
    · rw [a6]; exact key.2
  | branch p =>
    obtain ⟨isLeaf, minfo, feature, rows', j, k, km, kl, kr, b1, b2, b3, b4, b5, b6, rfl, c1, c2, c3, d1, d2,
      d3, e1, e2, e3⟩ := branchKids_view hk
    have hperm := pivotOnSplitExcludeMissing_ok b3
    have hlen := hperm.length_eq
    have l1 : (rows'.take j).length = j := by rw [List.length_take]; omega
    have l2 : ((rows'.drop j).take (k - j)).length = k - j := by
      rw [List.length_take, List.length_drop]; omega
    have l3 : (rows'.drop k).length = rows.length - k := by rw [List.length_drop]; omega
    have key : ((rows'.take j).length ≠ 0 → ColsOk t (rows'.take j) km.sn.histograms) ∧
        ColsOk t ((rows'.drop j).take (k - j)) kl.sn.histograms ∧
        ColsOk t (rows'.drop k) kr.sn.histograms := by
      have hmx := maxOf3_pos (m := j) (l := k - j) (r := rows.length - k) (by omega)
      unfold branchKidHists at b6
      simp only [l1, l2, l3] at b6
      generalize maxOf3 j (k - j) (rows.length - k) = mx at hmx b6
      obtain ⟨x0, x1, x2⟩ := hmx
      split at b6
      · rename_i h0
        refine ⟨fun h => absurd (by rw [l1]; exact h0) h, ?_⟩
        split at b6
        · rename_i h1
          simp only [Res.bind_eq_ok, Res.ok.injEq, Prod.mk.injEq] at b6
          obtain ⟨rh, f1, _, f3, rfl⟩ := b6
          refine ⟨?_, hd f1⟩
          rw [← f3]
          exact hN.sub (hd f1) (List.length_pos_iff.1 (by rw [l2]; exact x1 h1))
        · rename_i h1
          simp only [Res.bind_eq_ok, Res.ok.injEq, Prod.mk.injEq] at b6
          obtain ⟨lh, f1, _, rfl, f3⟩ := b6
          refine ⟨hd f1, ?_⟩
          rw [← f3]
          refine hN.sub (hd f1) (List.length_pos_iff.1 ?_)
          rw [l3]
          exact x2 (fun e => by have := x0 e; omega) h1
      · split at b6
        · rename_i h0
          simp only [Res.bind_eq_ok, Res.ok.injEq, Prod.mk.injEq] at b6
          obtain ⟨lh, f1, rh, f2, f3, rfl, rfl⟩ := b6
          refine ⟨fun h => ?_, hd f1, hd f2⟩
          rw [← f3]
          exact hN.sub2 (hd f1) (hd f2) (List.length_pos_iff.1 (by omega))
        · rename_i h0
          split at b6
          · rename_i h1
            simp only [Res.bind_eq_ok, Res.ok.injEq, Prod.mk.injEq] at b6
            obtain ⟨mh, f1, rh, f2, rfl, f3, rfl⟩ := b6
            refine ⟨fun _ => hd f1, ?_, hd f2⟩
            rw [← f3]
            exact hN.sub2 (hd f1) (hd f2) (List.length_pos_iff.1 (by rw [l2]; exact x1 h1))
          · rename_i h1
            simp only [Res.bind_eq_ok, Res.ok.injEq, Prod.mk.injEq] at b6
            obtain ⟨mh, f1, lh, f2, rfl, rfl, f3⟩ := b6
            refine ⟨fun _ => hd f1, hd f2, ?_⟩
            rw [← f3]
            exact hN.sub2 (hd f1) (hd f2) (List.length_pos_iff.1 (by rw [l3]; exact x2 h0 h1))
    intro kid hm hml
    simp only [List.mem_cons, List.not_mem_nil, or_false] at hm
    rcases hm with rfl | rfl | rfl
    · rw [e1, Bool.or_eq_false_iff] at hml
      have := hml.2
      rw [c1, decide_eq_false_iff_not] at this
      rw [c1]; exact key.1 this
    · rw [c2]; exact key.2.1
    · rw [c3]; exact key.2.2

theorem hessSum_zero [Fl.ZeroLaws F D] {bins : List (Bin F D)} (h : ∀ b ∈ bins, b.hess = 0) :
    hessSum bins = 0 := by
  unfold hessSum
  induction bins with
  | nil => rfl
  | cons b l ih =>
    rw [List.map_cons, List.foldl_cons, h b (by simp), Fl.ZeroLaws.add (F := F) (D := D)]
    exact ih fun b hb => h b (by simp [hb])

/-- The left cover of a binary split. -/
theorem imputer_left {p : SplitParams F} {a : SplitArgs F} {l r : NodeInfo F} {m : MissingInfo F}
    (h : imputerEvaluateSplit p a = some (l, r, m)) : l.cover = a.lh ∨ l.cover = a.lh + a.mh := by
  unfold imputerEvaluateSplit at h
  split at h
  · cases h
  · simp only at h
    split at h
    · cases h
    · split at h
      · split at h
        all_goals
          split at h
          · cases h
          · simp only [Option.some.injEq, Prod.mk.injEq] at h
            obtain ⟨rfl, rfl, rfl⟩ := h
            simp [mkInfo]
      · split at h
        · cases h
        · simp only [Option.some.injEq, Prod.mk.injEq] at h
          obtain ⟨rfl, rfl, rfl⟩ := h
          simp [mkInfo]

/-- A node without rows has no candidates. -/
theorem no_candidate [Fl.ZeroLaws F D] {s : Splitter F} (hpos : (0 <ᶠ s.params.minLeafWeight) = true)
    {t : TrainData F D} {sn : SNode F D} (hN : ColsOk t [] sn.histograms) {j i : Nat} {info : SplitInfo F D}
    (hc : IsCandidate s sn t.colIndex j i info) : False := by
  obtain ⟨feature, missing, bins, bin, h1, h2, h3, h4⟩ := hc.made
  obtain ⟨hs, hJ, _, hz⟩ := hN
  rw [hJ.getCol, Res.ofOption_eq_ok] at h2
  have hz := hz rfl _ (List.mem_of_getElem? h2)
  have e1 : missing.hess = 0 := (hz missing (by simp)).2
  have e2 : hessSum (bins.take i) = 0 :=
    hessSum_zero fun b hb => (hz b (by simp [List.mem_of_mem_take hb])).2
  obtain ⟨l, r, m, g, k1, _⟩ := evalCandidate_some.1 h4
  rw [e1, e2] at k1
  cases s with
  | imputer p =>
    simp only [Splitter.evaluateSplit, Res.ok.injEq] at k1
    obtain ⟨q1, _⟩ := imputerEvaluateSplit_some k1
    have : l.cover = 0 := by
      rcases imputer_left k1 with h | h
      · exact h
      · rw [h]; exact Fl.ZeroLaws.add (F := F) (D := D)
    rw [this] at q1
    exact absurd (q1.symm.trans hpos) (by simp)
  | branch p =>
    obtain ⟨_, _, _, q2, _⟩ := branchEvaluateSplit_some k1
    exact absurd (q2.symm.trans hpos) (by simp)

/-- The missing side of a candidate's evaluation. -/
theorem branchHandle_total' {p : BranchParams F} {t : TrainData F D} {info : SplitInfo F D} {n : Nat}
    {node : SNode F D} {index rows f : List Nat} {mc : Bool × NodeInfo F}
    (hm : p.missingChild info = .ok mc)
    (hrows : slice index node.startIdx node.stopIdx = .ok rows)
    (hf : t.data.getCol info.splitFeature = .ok f) (hs : 0 < info.splitBin)
    (hne : rows ≠ []) (hfr : ∀ r ∈ rows, r < f.length)
    (hh : ∀ r : List Nat, r ⊆ rows → ∃ m, t.histRows r = .ok m) :
    ∃ x, branchHandle p t info n node index = .ok x := by
  obtain ⟨rows', m, k, hpiv, hX, _⟩ := pivotOnSplitExcludeMissing_spec hs hne hfr
  have hperm := hX.perm
  have hmk := hX.ml
  have hk : k < rows.length := by rw [← hperm.length_eq]; exact hX.hl
  have hrl : rows.length = node.stopIdx - node.startIdx := slice_length hrows
  have hr'l : rows'.length = node.stopIdx - node.startIdx := hperm.length_eq.trans hrl
  obtain ⟨hle, hstop, _⟩ := slice_ok_iff.1 hrows
  have hM : slice (writeBack index node.startIdx node.stopIdx rows') node.startIdx (m + node.startIdx)
      = .ok (rows'.take m) := by
    have := slice_writeBack_inside (a := 0) (b := m) hle hstop hr'l (by omega) (by omega)
    simpa [Nat.add_comm] using this
  have hL : slice (writeBack index node.startIdx node.stopIdx rows') (m + node.startIdx)
      (k + node.startIdx) = .ok ((rows'.drop m).take (k - m)) := by
    have := slice_writeBack_inside (a := m) (b := k) hle hstop hr'l (by omega) (by omega)
    rwa [Nat.add_comm node.startIdx m, Nat.add_comm node.startIdx k] at this
  have hR : slice (writeBack index node.startIdx node.stopIdx rows') (k + node.startIdx) node.stopIdx
      = .ok (rows'.drop k) := by
    have := slice_writeBack_inside (a := k) (b := node.stopIdx - node.startIdx) hle hstop hr'l
      (by omega) (by omega)
    rw [show node.startIdx + (node.stopIdx - node.startIdx) = node.stopIdx by omega,
      Nat.add_comm node.startIdx k, List.take_of_length_le (by rw [List.length_drop]; omega)] at this
    exact this
  obtain ⟨mh, hmh⟩ := hh (rows'.take m) fun x hx => hperm.subset (List.mem_of_mem_take hx)
  obtain ⟨lh, hlh⟩ := hh ((rows'.drop m).take (k - m)) fun x hx =>
    hperm.subset (List.mem_of_mem_drop (List.mem_of_mem_take hx))
  obtain ⟨rh, hrh⟩ := hh (rows'.drop k) fun x hx => hperm.subset (List.mem_of_mem_drop hx)
  rw [← hist_eq_histRows hM] at hmh
  rw [← hist_eq_histRows hL] at hlh
  rw [← hist_eq_histRows hR] at hrh
  obtain ⟨isl, minfo⟩ := mc
  have hass : Res.assert (decide (m ≤ k ∧ k ≤ node.stopIdx - node.startIdx)) = .ok () := by
    rw [decide_eq_true ⟨hmk, by omega⟩]; rfl
  have hH : ∀ a b c, ∃ x, branchHists t node (writeBack index node.startIdx node.stopIdx rows') a b c
      (m + node.startIdx) (k + node.startIdx) = .ok x := by
    intro a b c
    unfold branchHists
    simp only [hmh, hlh, hrh, Res.ok_bind]
    split
    · split <;> exact ⟨_, rfl⟩
    · split
      · exact ⟨_, rfl⟩
      · split <;> exact ⟨_, rfl⟩
  unfold branchHandle
  simp only [hm, hrows, hf, hpiv, hass, Res.ok_bind]
  obtain ⟨⟨x1, x2, x3⟩, hx⟩ := hH _ _ _
  rw [hx]
  exact ⟨_, rfl⟩

/-- Data on which a tree can be grown: the columns in use can be read, and there are gradients and
hessians for all `n` rows. -/
structure Ready (c : GrowCfg F D) (n : Nat) : Prop where
  laid : c.train.Laid
  grad : c.train.grad.length = n
  hess : c.train.hess.length = n
  column : ∀ col ∈ c.train.colIndex, ∃ f cu, c.train.data.getCol col = .ok f ∧
    c.train.cuts.getCol col = .ok cu ∧ cu ≠ [] ∧ cu.length ≤ 65536 ∧ f.length = n
  pos : (0 <ᶠ c.splitter.params.minLeafWeight) = true
  eval : ∀ a, ∃ r, c.splitter.evaluateSplit a = .ok r
  heap : ∀ n l, l ≠ [] → c.heap.pick n l < l.length

variable {c : GrowCfg F D} {n : Nat}

theorem Ready.histRows (h : Ready c n) {r : List Nat} (hr : ∀ x ∈ r, x < n) :
    ∃ m, c.train.histRows r = .ok m := by
  refine histogramMatrix_total (fun _ x hx => ?_) (fun e => Bool.noConfusion e) fun col hcol => ?_
  · rw [h.grad, h.hess]; exact ⟨hr x hx, hr x hx⟩
  · obtain ⟨f, cu, a1, a2, a3, _, a4⟩ := h.column col hcol
    exact ⟨f, cu, a1, a2, a3, by rw [a4]; exact hr⟩

theorem Ready.growInit (h : Ready c n) {sm : SampleMethod} {rows : List Nat} (hr : ∀ x ∈ rows, x < n)
    (hf : sm = .none → rows.length = n) : ∃ s, Verif.growInit c sm rows = .ok s := by
  have hlt : ∀ r ∈ rows, r < c.train.grad.length ∧ r < c.train.hess.length := by
    rw [h.grad, h.hess]; exact fun r hr' => ⟨hr r hr', hr r hr'⟩
  obtain ⟨g, hs, h1⟩ := rootSums_total (D := D) (sm := sm) hlt
  obtain ⟨m, hm⟩ := histogramMatrix_total (t := c.train) (rows := rows) (sort := decide (sm ≠ .none))
    (fun _ => hlt) (fun e => by
      have : sm = .none := by simpa using e
      rw [h.grad, h.hess, hf this]; exact ⟨rfl, rfl⟩) (fun col hcol => by
      obtain ⟨f, cu, a1, a2, a3, _, a4⟩ := h.column col hcol
      exact ⟨f, cu, a1, a2, a3, by rw [a4]; exact hr⟩)
  unfold Verif.growInit
  simp only [h1, hm, Res.ok_bind]
  exact ⟨_, rfl⟩

/-- The search for the best split of a node with good histograms does not panic. -/
theorem Ready.bestSplit (h : Ready c n) {sn : SNode F D} {rows : List Nat}
    (hN : ColsOk c.train rows sn.histograms) : ∃ r, Verif.bestSplit c.splitter sn c.train.colIndex = .ok r := by
  obtain ⟨hs', hJ, hF, _⟩ := hN
  refine bestSplit_total fun j feature hj => ?_
  have hjl : j < hs'.length := by
    rw [← hF.length_eq]; exact (List.getElem?_eq_some_iff.1 hj).1
  obtain ⟨hjc, hje⟩ := List.getElem?_eq_some_iff.1 hj
  obtain ⟨cu, _, a3, a4⟩ := (List.forall₂_iff_get.1 hF).2 j hjc hjl
  simp only [List.get_eq_getElem] at a4
  have hne : hs'[j] ≠ [] := by
    intro e
    rw [e] at a4
    exact a3 (List.length_eq_zero_iff.1 a4.symm)
  obtain ⟨missing, bins, hmb⟩ := List.exists_cons_of_ne_nil hne
  refine bestFeatureSplit_total (missing := missing) (bins := bins) ?_ fun i bin _ =>
    evalCandidate_total (h.eval _)
  rw [hJ.getCol, List.getElem?_eq_getElem hjl, hmb]
  rfl

/-- Splitting a node does not panic. -/
theorem Ready.splitNode [Fl.ZeroLaws F D] (h : Ready c n) {sn : SNode F D} {rows index : List Nat}
    (hN : ColsOk c.train rows sn.histograms) (hlt : ∀ r ∈ rows, r < n)
    (hrows : slice index sn.startIdx sn.stopIdx = .ok rows) (k : Nat) :
    ∃ x, Verif.splitNode c.splitter c.train k sn index = .ok x := by
  obtain ⟨best, hb⟩ := h.bestSplit hN
  unfold Verif.splitNode
  rw [hb, Res.ok_bind]
  cases best with
  | none => exact ⟨_, rfl⟩
  | some info =>
    obtain ⟨j, i, hc⟩ := bestSplit_mem hb
    have hne : rows ≠ [] := by
      rintro rfl
      exact no_candidate h.pos hN hc
    obtain ⟨feature, missing, bins, bin, h1, h2, h3, h4⟩ := hc.made
    obtain ⟨f, cu, a1, a2, a3, a4, a5⟩ := h.column feature (List.mem_of_getElem? h1)
    obtain ⟨l, r, m, g, k1, _, _, rfl⟩ := evalCandidate_some.1 h4
    have hbin : 0 < (i + 1) % 65536 := by
      obtain ⟨hs', hJ, hF, _⟩ := hN
      rw [hJ.getCol, Res.ofOption_eq_ok] at h2
      obtain ⟨hjl, hje⟩ := List.getElem?_eq_some_iff.1 h2
      obtain ⟨hjc, hjf⟩ := List.getElem?_eq_some_iff.1 h1
      obtain ⟨cu', b2, _, b4⟩ := (List.forall₂_iff_get.1 hF).2 j hjc hjl
      simp only [List.get_eq_getElem, hjf, hje, List.length_cons] at b2 b4
      rw [a2] at b2; cases b2
      have := (List.getElem?_eq_some_iff.1 h3).1
      rw [Nat.mod_eq_of_lt (by omega)]; omega
    have hfr : ∀ r ∈ rows, r < f.length := by rw [a5]; exact hlt
    have hh : ∀ r : List Nat, r ⊆ rows → ∃ m, c.train.histRows r = .ok m :=
      fun r hr => h.histRows fun x hx => hlt x (hr hx)
    revert k1
    generalize c.splitter = s
    intro k1
    cases s with
    | imputer p =>
      simp only [Splitter.evaluateSplit, Res.ok.injEq] at k1
      obtain ⟨_, _, hm⟩ := imputerEvaluateSplit_some k1
      obtain ⟨mr, hmr⟩ : ∃ mr, m.goesRight = .ok mr := by
        rcases hm with hm | hm <;> rw [hm] <;> exact ⟨_, rfl⟩
      exact imputerHandle_total hmr hrows a1 hne hfr hh
    | branch p =>
      obtain ⟨lw, rw', q1, q2, q3, q4, q5, q6⟩ := branchEvaluateSplit_some k1
      have hmc : ∀ info : SplitInfo F D, info.missingNode = m → ∃ mc, p.missingChild info = .ok mc := by
        intro info e
        unfold BranchParams.missingChild
        rw [e, q6]
        generalize ((_ || _) && _ : Bool) = b
        cases b <;> exact ⟨_, rfl⟩
      have key : ∀ info : SplitInfo F D, info.missingNode = m → info.splitFeature = feature →
          info.splitBin = (i + 1) % 65536 → ∃ x, branchHandle p c.train info k sn index = .ok x := by
        intro info e1 e2 e3
        obtain ⟨mc, hmc⟩ := hmc info e1
        exact branchHandle_total' hmc hrows (by rw [e2]; exact a1) (by rw [e3]; exact hbin) hne hfr hh
      exact key _ rfl rfl rfl

theorem Cert.cols [Fl.ZeroLaws F D] {o : SNode F D → Prop} {gs : List (Ghost F D)}
    {nodes : List (Node F D)} (h : Cert c o gs nodes) (hl : c.train.Laid)
    (hpos : (0 <ᶠ c.splitter.params.minLeafWeight) = true) {g0 : Ghost F D} (h0 : gs[0]? = some g0)
    (hN : ColsOk c.train g0.rows g0.sn.histograms) :
    ∀ (i : Nat) (g : Ghost F D), gs[i]? = some g → g.sn.isMissingLeaf = false →
      ColsOk c.train g.rows g.sn.histograms := by
  intro i
  induction i using Nat.strong_induction_on with
  | _ i ih =>
    intro g hg hml
    by_cases hi : i = 0
    · subst hi
      rw [h0] at hg; cases hg; exact hN
    · obtain ⟨gi, info, k, b1, b2, b3, b4⟩ := h.parent i g hg (by omega)
      obtain ⟨kids, hS⟩ := h.split _ gi info k b1 b2
      obtain ⟨kid, g', d1, d2, d5, d3, d4⟩ := hS.new_lt b3 b4
      rw [hg] at d2; cases d2
      have hNi := ih _ (by have := hS.later; omega) gi b1 hS.notMissing
      obtain ⟨j, i', hc⟩ := bestSplit_mem hS.best
      have hne : gi.rows ≠ [] := by
        intro e
        rw [e] at hNi
        exact no_candidate hpos hNi hc
      have := kids_cols hl hNi hne hS.kids_eq kid (List.mem_of_getElem? d1) (by
        rw [d5] at hml; exact hml)
      rw [d3, d5]
      exact this

theorem Ready.growStep [Fl.ZeroLaws F D] (h : Ready c n) {root : SNode F D} {rows : List Nat}
    (hlt : ∀ r ∈ rows, r < n) (hN : ColsOk c.train rows root.histograms)
    {s : GrowState F D} {gs : List (Ghost F D)} (hI : Inv c root rows s gs)
    (hd : growDone c s = false) : ∃ s', Verif.growStep c s = .ok s' := by
  have hq : s.queue ≠ [] := by
    simp only [growDone, Bool.or_eq_false_iff] at hd
    intro e; rw [e] at hd; simp at hd
  obtain ⟨node, queue, hpop⟩ := popNode_total h.heap (policy := c.policy) (step := s.step) hq
  have hmem : node ∈ s.queue := (popNode_ok hpop).1.mem_iff.2 (by simp)
  obtain ⟨g, a1, rfl, a3, a4, a5⟩ := hI.queue node hmem
  obtain ⟨g0, b1, b2, b3⟩ := hI.root
  have hN0 : ColsOk c.train g0.rows g0.sn.histograms := by rw [b2, b3]; exact hN
  have hsub := hI.cert.rows_mem b1
  have hNg := hI.cert.cols h.laid h.pos b1 hN0 _ g a1 a4
  obtain ⟨⟨node', index, new⟩, hx⟩ := h.splitNode hNg
    (fun r hr => hlt r (by rw [← b3]; exact hsub _ g a1 r hr)) a5 s.nNodes
  have hnum : g.sn.num < s.nodes.length := by
    rw [← hI.cert.len]; exact (List.getElem?_eq_some_iff.1 a1).1
  unfold Verif.growStep
  simp only [hpop, Res.ok_bind, hx, idx_of_lt hnum]
  split
  · exact ⟨_, rfl⟩
  · split <;> exact ⟨_, rfl⟩

theorem Ready.growLoop [Fl.ZeroLaws F D] (h : Ready c n) {root : SNode F D} {rows : List Nat}
    (hlt : ∀ r ∈ rows, r < n) (hN : ColsOk c.train rows root.histograms) :
    ∀ k (s : GrowState F D) gs, Inv c root rows s gs → Verif.growLoop c k s ≠ .panic := by
  intro k
  induction k with
  | zero =>
    intro s gs hI
    simp only [Verif.growLoop]
    split <;> simp
  | succ k ih =>
    intro s gs hI
    simp only [Verif.growLoop]
    split
    · simp
    · rename_i hd
      obtain ⟨s1, hs1⟩ := h.growStep hlt hN hI (by simpa using hd)
      rw [hs1, Res.ok_bind]
      obtain ⟨node, queue, hpop, hc, _⟩ := growStep_ok hs1
      rcases hc with ⟨a1, a2, a3, a4, a5, a6⟩ | ⟨hdp, info, rows, kids, node', nn, b1, b2, b3, b4, b5,
        b6, b7⟩
      · exact ih s1 gs (hI.leaf hpop a1 a2 a3 a4 a5 a6)
      · obtain ⟨gs1, hI1⟩ := hI.split (by simpa using hd) hpop hdp b1 b2 b3 b4 b5 b6 b7
        exact ih s1 gs1 hI1

/-- **Growing a tree succeeds, whatever the arithmetic.** -/
theorem Ready.fit [Fl.ZeroLaws F D] (h : Ready c n) {sm : SampleMethod} {rows : List Nat}
    (hr : ∀ x ∈ rows, x < n) (hf : sm = .none → rows.length = n) : ∃ t, Tree.fit c sm rows = .ok t := by
  have hnd := Tree.fit_ne_diverge c sm rows
  have hnp : Tree.fit c sm rows ≠ .panic := by
    unfold Tree.fit
    obtain ⟨s, hs⟩ := h.growInit hr hf
    rw [hs, Res.ok_bind]
    obtain ⟨g, hs', sort, hists, h1, h2, gs, hI⟩ := growInit_inv hs
    have hN : ColsOk c.train rows (rootNode c.splitter.params rows.length g hs' hists).histograms :=
      histogramMatrix_cols h.laid h2
    have hl := h.growLoop hr hN (growFuel c) s gs hI
    intro e
    cases hr : Verif.growLoop c (growFuel c) s with
    | panic => exact hl hr
    | diverge => rw [hr] at e; cases e
    | ok s' =>
      obtain ⟨⟨gs', hI'⟩, _⟩ := growLoop_inv _ _ _ _ hI hr
      have hne : 0 < gs'.length := by
        obtain ⟨g0, h0, _⟩ := hI'.root
        exact (List.getElem?_eq_some_iff.1 h0).1.pos
      obtain ⟨x, hx⟩ := cleanUpSplits_total (s := c.splitter) (hI'.cert.wf (.refl _) hne)
      rw [hr, Res.ok_bind, hx] at e
      cases e
  cases hr : Tree.fit c sm rows with
  | panic => exact absurd hr hnp
  | diverge => exact absurd hr hnd
  | ok t => exact ⟨t, rfl⟩

end

end Verif
