import Verif.Proofs.ExtraCol
import Verif.Proofs.Rounds
import Verif.Proofs.TotalAny
import Verif.Props.Shift

/-!
# One more column: fits
-/

namespace Verif

open scoped Verif

set_option linter.unusedSectionVars false

variable {F D : Type} [Fl F] [Fl D] [FlCast F D]

/-! ## A copy of a column -/

theorem histKind_copy (L : List Nat) (n j : Nat) :
    HistKind L n (fun (ls : List (List (Bin F D))) e => ls[j]? = some e) := by
  constructor
  · intro ps p cs c _ _ _ _ h1 h2
    rw [List.getElem?_zipWith, h1, h2]
  · intro ps p cs c ds d _ _ _ _ _ _ h1 h2 h3
    rw [List.getElem?_zipWith, List.getElem?_zipWith, h1, h2, h3]

theorem bestSplitLoop_each {s : Splitter F} {node : SNode F D} {l : List Nat} : ∀ {k g best r},
    bestSplitLoop s node l k g best = .ok r → ∀ i x, l[i]? = some x → ∃ o, bestFeatureSplit s node x (k + i) = .ok o := by
  induction l with
  | nil => intro k g best r _ i x hx; simp at hx
  | cons a l ih =>
    intro k g best r h i x hx
    rw [bestSplitLoop] at h
    obtain ⟨q, hq, h⟩ := Res.bind_eq_ok.1 h
    cases i with
    | zero =>
      simp only [List.getElem?_cons_zero, Option.some.injEq] at hx
      subst hx
      exact ⟨q, hq⟩
    | succ i =>
      rw [show k + (i + 1) = k + 1 + i by omega]
      have hx : l[i]? = some x := by simpa using hx
      cases q with
      | none => exact ih h i x hx
      | some b =>
        dsimp only at h
        split at h
        · exact ih h i x hx
        · exact ih h i x hx

theorem bestFeatureSplit_same {s : Splitter F} {node : SNode F D} {f f' i i' : Nat}
    (hh : node.histograms.getCol i' = node.histograms.getCol i)
    (hc : s.params.getConstraint f' = s.params.getConstraint f) {o : Option (SplitInfo F D)}
    (h : bestFeatureSplit s node f i = .ok o) :
    bestFeatureSplit s node f' i' = .ok (o.map (SplitInfo.onFeature f')) := by
  unfold bestFeatureSplit at h ⊢
  rw [hh]
  obtain ⟨q, hq, h⟩ := Res.bind_eq_ok.1 h
  refine Res.bind_eq_ok.2 ⟨q, hq, ?_⟩
  cases q with
  | nil => cases h
  | cons m bins =>
    dsimp only at h ⊢
    rw [hc]
    exact bestFeatureLoop_feature s node f f' _ m bins 0 0 0 none o h

theorem bestSplit_ext [Fl.OrdLaws F] {s : Splitter F} {node : SNode F D} {h' : JaggedMatrix (Bin F D)} {cols : Nat}
    {ls : List (List (Bin F D))} {e : List (Bin F D)} (a1 : Jagged ls node.histograms) (a2 : Jagged (ls ++ [e]) h')
    (hl : ls.length = cols) {r : Option (SplitInfo F D)} (h : bestSplit s node (List.range cols) = .ok r)
    (hnew : ∃ o, bestFeatureSplit s { node with histograms := h' } cols cols = .ok o ∧
      ∀ info, o = some info → ∃ i y, i < cols ∧
        bestFeatureSplit s { node with histograms := h' } i i = .ok (some y) ∧ y.splitGain = info.splitGain) :
    bestSplit s { node with histograms := h' } (List.range (cols + 1)) = .ok r := by
  unfold bestSplit at h ⊢
  rw [List.range_succ]
  obtain ⟨o, ho, hi⟩ := hnew
  refine bestSplitLoop_last s _ cols _ 0 0 none r o ?_ ?_ ?_
  · rw [bestSplitLoop_hist]
    · exact h
    · intro i hi
      rw [List.length_range] at hi
      rw [a1.getCol, a2.getCol, List.getElem?_append_left (by omega)]
  · rw [List.length_range, Nat.zero_add]; exact ho
  · intro info he
    obtain ⟨i, y, h1, h2, h3⟩ := hi info he
    exact Or.inr ⟨i, i, y, by simp [h1], by rw [Nat.zero_add]; exact h2, h3⟩

/-- Training data with a copy of the column `j`. -/
theorem trainExt_copy [Fl.OrdLaws F] {s : Splitter F} {data : Matrix Nat} {cuts : JaggedMatrix D} {cl : List (List D)}
    (hJ : Jagged cl cuts) (hcl : cl.length = data.cols) (hS : data.Shaped) {j : Nat} (hj : j < data.cols)
    {bc : List Nat} (hbc : data.getCol j = .ok bc) {cc : List D} (hcc : cuts.getCol j = .ok cc)
    (hct : s.params.getConstraint data.cols = s.params.getConstraint j) (grad hess : List F) :
    TrainExt s (HistExt (cl.map List.length) cc.length fun ls e => ls[j]? = some e)
      { data, cuts, grad, hess, colIndex := List.range data.cols }
      { data := data.addCol bc, cuts := pushCuts cuts cc, grad, hess, colIndex := List.range (data.cols + 1) } := by
  have hK := histKind_copy (F := F) (D := D) (cl.map List.length) cc.length j
  refine ⟨rfl, rfl, fun c v h => (data.addCol_widens bc).getCol h, ?_, fun _ _ _ _ => HistExt.child hK,
    fun _ _ _ _ _ _ => HistExt.children hK, ?_⟩
  · have hlen : bc.length = data.rows := by
      rw [Matrix.getCol_eq hS hj] at hbc
      injection hbc with hbc
      rw [← hbc, Matrix.column_length hS hj]
    refine histogramMatrix_ext hJ hcl hS hlen ?_ grad hess
    intro sg sh index hs h
    rw [Res.mapM'_eq_ok] at h
    have hlt : j < hs.length := by rw [← h.length_eq]; simpa using hj
    have := (List.forall₂_iff_get.1 h).2 j (by simpa using hj) hlt
    simp only [List.get_eq_getElem, List.getElem_range, hbc, hcc, Res.ok_bind] at this
    exact ⟨_, this, List.getElem?_eq_getElem hlt⟩
  · rintro node h' r ⟨ls, e, a1, a2, a3, a4, a5⟩ h
    dsimp only at h ⊢
    have hl : ls.length = data.cols := by
      rw [← hcl]
      simpa using congrArg List.length a3
    refine bestSplit_ext a1 a2 hl h ?_
    have hcol : ∀ i < data.cols, h'.getCol i = node.histograms.getCol i := by
      intro i hi
      rw [a1.getCol, a2.getCol, List.getElem?_append_left (by omega)]
    have hold : ∃ o, bestFeatureSplit s { node with histograms := h' } j j = .ok o := by
      unfold bestSplit at h
      obtain ⟨o, ho⟩ := bestSplitLoop_each h j j (by simp [hj])
      rw [Nat.zero_add] at ho
      refine ⟨o, ?_⟩
      unfold bestFeatureSplit at ho ⊢
      dsimp only
      rw [hcol j hj]
      simp only [bestFeatureLoop_copy s (show NodeCopy node { node with histograms := h' } from rfl)]
      exact ho
    obtain ⟨o, ho⟩ := hold
    refine ⟨_, bestFeatureSplit_same (f := j) (i := j) ?_ hct ho, ?_⟩
    · show h'.getCol data.cols = h'.getCol j
      rw [a2.getCol, a2.getCol, List.getElem?_append_left (show j < ls.length by omega), a5, ← hl]
      simp
    · intro info he
      cases o with
      | none => cases he
      | some y =>
        simp only [Option.map_some, Option.some.injEq] at he
        exact ⟨j, y, hj, ho, by rw [← he]; rfl⟩

/-! ## A column that separates nothing -/

/-- One bin, or two bins with nothing missing. -/
def Idle (e : List (Bin F D)) : Prop := e.length = 1 ∨ ∃ m b, e = [m, b] ∧ m.grad = 0 ∧ m.hess = 0

theorem histKind_idle [Fl.ZeroLaws F D] (hsub : (0 : F) - 0 = 0) (L : List Nat) (n : Nat) :
    HistKind L n (fun (_ : List (List (Bin F D))) e => Idle e) := by
  constructor
  · intro ps p cs c _ _ hp hc h1 h2
    rcases h1 with h1 | ⟨m, b, rfl, g1, g2⟩
    · left; simp [h1, hc, ← hp]
    · rcases h2 with h2 | ⟨m', b', rfl, g3, g4⟩
      · simp at hp; omega
      · right
        refine ⟨_, _, rfl, ?_, ?_⟩
        · simp only [Bin.fromParentChild, g1, g3, hsub]
        · simp only [Bin.fromParentChild, g2, g4, hsub]
  · intro ps p cs c ds d _ _ _ hp hc hd h1 h2 h3
    rcases h1 with h1 | ⟨m, b, rfl, g1, g2⟩
    · left; simp [h1, hc, hd, ← hp]
    · rcases h2 with h2 | ⟨m', b', rfl, g3, g4⟩
      · simp at hp; omega
      · rcases h3 with h3 | ⟨m'', b'', rfl, g5, g6⟩
        · simp at hp; omega
        · right
          refine ⟨_, _, rfl, ?_, ?_⟩
          · simp only [Bin.fromParentTwoChildren, g1, g3, g5, Fl.ZeroLaws.add (D := D), hsub]
          · simp only [Bin.fromParentTwoChildren, g2, g4, g6, Fl.ZeroLaws.add (D := D), hsub]

/-- Splits that leave one side empty are refused. -/
def Splitter.RefusesEmpty (s : Splitter F) : Prop :=
  (∃ p, s = .branch p) ∨ s.params.allowMissingSplits = false ∨ (0 <ᶠ s.params.minLeafWeight) = true

theorem bestFeatureSplit_idle [Fl.OrdLaws F] {s : Splitter F} (hs : s.RefusesEmpty) {node : SNode F D} {f i : Nat}
    {e : List (Bin F D)} (he : Idle e) (h : node.histograms.getCol i = .ok e) :
    bestFeatureSplit s node f i = .ok none := by
  have h0 : ((0 : F) =ᶠ 0) = true := by
    rw [Fl.OrdLaws.feq_iff _ _ Fl.OrdLaws.zero_num Fl.OrdLaws.zero_num]
    exact ⟨Fl.OrdLaws.lt_irrefl _, Fl.OrdLaws.lt_irrefl _⟩
  unfold bestFeatureSplit
  rw [h, Res.ok_bind]
  rcases he with he | ⟨m, b, rfl, g1, g2⟩
  · match e, he with
    | [m], _ => rfl
  · dsimp only
    suffices hc : evalCandidate s node f (s.params.getConstraint f) m b 0 0 0 = .ok none by
      rw [bestFeatureLoop, hc]; rfl
    unfold evalCandidate
    suffices hc : s.evaluateSplit
        { lg := 0, lh := 0, rg := node.gradientSum - 0 - m.grad, rh := node.hessianSum - 0 - m.hess
          mg := m.grad, mh := m.hess, lower := node.lowerBound, upper := node.upperBound
          parentWeight := node.weightValue, constraint := s.params.getConstraint f } = .ok none by
      rw [hc]; rfl
    rcases hs with ⟨p, rfl⟩ | hs | hs
    · unfold Splitter.evaluateSplit branchEvaluateSplit
      simp [h0]
    · cases s with
      | imputer p =>
        unfold Splitter.evaluateSplit imputerEvaluateSplit
        have hs : p.allowMissingSplits = false := hs
        simp [h0, hs]
      | branch p =>
        unfold Splitter.evaluateSplit branchEvaluateSplit
        simp [h0]
    · cases s with
      | imputer p =>
        unfold Splitter.evaluateSplit imputerEvaluateSplit
        have hs : (0 <ᶠ p.minLeafWeight) = true := hs
        dsimp only
        rw [g1, g2]
        simp only [h0, hs, Bool.not_true, Bool.or_false, Bool.or_true, if_true, Bool.false_eq_true, if_false]
        repeat' split
        all_goals first | rfl | (simp_all; done) 
      | branch p =>
        unfold Splitter.evaluateSplit branchEvaluateSplit
        simp [h0]

theorem foldHist_exists {feature feature' : List Nat} (hl : feature'.length = feature.length) :
    ∀ (l : List (Nat × F × F)) (h h' : List (Bin D D)) (r : List (Bin D D)),
      Res.foldM' (histAdd feature) h l = .ok r → ∃ r', Res.foldM' (histAdd feature') h' l = .ok r'
  | [], _, h', _, _ => ⟨h', rfl⟩
  | p :: l, h, h', r, e => by
    obtain ⟨h1, e1, e2⟩ := Res.bind_eq_ok.1 e
    unfold histAdd at e1
    obtain ⟨b, e1, _⟩ := Res.bind_eq_ok.1 e1
    have hlt := lt_of_idx_eq_ok e1
    rw [← hl] at hlt
    obtain ⟨r', hr⟩ := foldHist_exists hl l h1 (h'.modify feature'[p.1] fun v =>
      { v with grad := v.grad + (up p.2.1 : D), hess := v.hess + (up p.2.2 : D) }) r e2
    refine ⟨r', ?_⟩
    rw [Res.foldM'_cons]
    have : histAdd feature' h' p = .ok (h'.modify feature'[p.1] fun v =>
        { v with grad := v.grad + (up p.2.1 : D), hess := v.hess + (up p.2.2 : D) }) := by
      unfold histAdd
      rw [idx_of_lt hlt]; rfl
    rw [this, Res.ok_bind]
    exact hr

theorem foldHist_head {feature : List Nat} (hf : ∀ b ∈ feature, b ≠ 0) :
    ∀ (l : List (Nat × F × F)) (h r : List (Bin D D)), Res.foldM' (histAdd feature) h l = .ok r → r[0]? = h[0]?
  | [], h, r, e => by cases e; rfl
  | p :: l, h, r, e => by
    obtain ⟨h1, e1, e2⟩ := Res.bind_eq_ok.1 e
    rw [foldHist_head hf l h1 r e2]
    unfold histAdd at e1
    obtain ⟨b, e1, e3⟩ := Res.bind_eq_ok.1 e1
    injection e3 with e3
    rw [idx_eq_ok] at e1
    have hb := hf b (List.mem_of_getElem? e1)
    rw [← e3, List.getElem?_modify]
    simp [hb]

/-- The histogram of a column that separates nothing. -/
theorem idle_histogram [Fl.ZeroLaws F D] {bc : List Nat} {cc : List D}
    (hidle : cc.length = 1 ∨ cc.length = 2 ∧ ∀ b ∈ bc, b ≠ 0) {feature : List Nat} {cuts : List D}
    {sg sh : List F} {index : List Nat} {h : List (Bin F D)} (hl : bc.length = feature.length)
    (e : createFeatureHistogram feature cuts sg sh index = .ok h) :
    ∃ h' : List (Bin F D), createFeatureHistogram bc cc sg sh index = .ok h' ∧ Idle h' := by
  unfold createFeatureHistogram at e
  split at e
  · cases e
  · obtain ⟨h1, e1, _⟩ := Res.bind_eq_ok.1 e
    obtain ⟨h2, e2⟩ := foldHist_exists hl _ _ (Bin.new Fl.nan :: (cc.take (cc.length - 1)).map Bin.new) _ e1
    have hc : createFeatureHistogram bc cc sg sh index = .ok (h2.map Bin.asF32) := by
      unfold createFeatureHistogram
      rw [if_neg (by rcases hidle with h | h <;> omega)]
      refine Res.bind_eq_ok.2 ⟨h2, e2, rfl⟩
    refine ⟨_, hc, ?_⟩
    have hlen := (featureHistogram_length hc).2
    rcases hidle with h | ⟨h, hb⟩
    · exact Or.inl (hlen.trans h)
    · have hd := foldHist_head hb _ _ _ e2
      rw [h, List.length_map] at hlen
      match h2, hlen with
      | [m, b], _ =>
        simp only [List.getElem?_cons_zero, Option.some.injEq] at hd
        refine Or.inr ⟨m.asF32, b.asF32, rfl, ?_, ?_⟩
        · rw [hd]; exact Fl.ZeroLaws.down
        · rw [hd]; exact Fl.ZeroLaws.down

/-- Training data with a column that separates nothing. -/
theorem trainExt_idle [Fl.OrdLaws F] [Fl.ZeroLaws F D] (hsub : (0 : F) - 0 = 0) {s : Splitter F}
    (hs : s.RefusesEmpty) {data : Matrix Nat} {cuts : JaggedMatrix D} {cl : List (List D)} (hJ : Jagged cl cuts)
    (hcl : cl.length = data.cols) (hS : data.Shaped) (h0 : 0 < data.cols) {bc : List Nat}
    (hbc : bc.length = data.rows) {cc : List D} (hidle : cc.length = 1 ∨ cc.length = 2 ∧ ∀ b ∈ bc, b ≠ 0)
    (grad hess : List F) :
    TrainExt s (HistExt (cl.map List.length) cc.length fun _ e => Idle e)
      { data, cuts, grad, hess, colIndex := List.range data.cols }
      { data := data.addCol bc, cuts := pushCuts cuts cc, grad, hess, colIndex := List.range (data.cols + 1) } := by
  have hK := histKind_idle (F := F) (D := D) hsub (cl.map List.length) cc.length
  refine ⟨rfl, rfl, fun c v h => (data.addCol_widens bc).getCol h, ?_, fun _ _ _ _ => HistExt.child hK,
    fun _ _ _ _ _ _ => HistExt.children hK, ?_⟩
  · refine histogramMatrix_ext hJ hcl hS hbc ?_ grad hess
    intro sg sh index hs h
    rw [Res.mapM'_eq_ok] at h
    have hlt : 0 < hs.length := by rw [← h.length_eq]; simpa using h0
    have := (List.forall₂_iff_get.1 h).2 0 (by simpa using h0) hlt
    simp only [List.get_eq_getElem, List.getElem_range] at this
    obtain ⟨f, e1, this⟩ := Res.bind_eq_ok.1 this
    obtain ⟨c, e2, this⟩ := Res.bind_eq_ok.1 this
    rw [Matrix.getCol_eq hS h0] at e1
    injection e1 with e1
    exact idle_histogram hidle (by rw [hbc, ← e1, Matrix.column_length hS h0]) this
  · rintro node h' r ⟨ls, e, a1, a2, a3, a4, a5⟩ h
    dsimp only at h ⊢
    have hl : ls.length = data.cols := by
      rw [← hcl]
      simpa using congrArg List.length a3
    refine bestSplit_ext a1 a2 hl h ⟨none, bestFeatureSplit_idle hs a5 ?_, fun info he => by cases he⟩
    show h'.getCol data.cols = .ok e
    rw [a2.getCol, ← hl]
    simp

/-- The cuts and bins of a column of one value. -/
theorem constant_cuts {D : Type} [Fl D] [Fl.OrdLaws D] {S : Sorter} (hS : S.Ok) {v miss : D} (hv : Readable miss v)
    (n : Nat) (w : List D) (nb : Nat) :
    ∃ cc bc, colCuts S (List.replicate n v) w nb miss = .ok cc ∧
      Res.mapM' (fun v => do let b ← mapBin cc v miss; Res.ofOption b) (List.replicate n v) = .ok bc ∧
      bc.length = n ∧ (cc.length = 1 ∨ cc.length = 2 ∧ ∀ b ∈ bc, b ≠ 0) := by
  have hbins : ∀ cc : List D, cc.length ≤ 2 → ∃ bc, Res.mapM' (fun v => do
      let b ← mapBin cc v miss; Res.ofOption b) (List.replicate n v) = .ok bc ∧ bc.length = n ∧
      ∀ b ∈ bc, mapBin cc v miss = .ok (some b) := by
    intro cc hcc
    obtain ⟨k, hk, h⟩ := mapBin_total cc v miss
    have : ∃ b, mapBin cc v miss = .ok (some b) := by
      rcases h with h | h
      · exact ⟨0, h⟩
      · exact ⟨k, by rw [h, if_pos (by omega)]⟩
    obtain ⟨b, hb⟩ := this
    refine ⟨List.replicate n b, ?_, by simp, fun b' hb' => by rw [List.eq_of_mem_replicate hb', hb]⟩
    rw [Res.mapM'_eq_ok, List.forall₂_iff_get]
    refine ⟨by simp, fun i _ _ => ?_⟩
    simp [hb]
  by_cases hm : IsMissing miss v
  · have hf : ∀ l : List D, filterMissing miss ((List.replicate n v).zip l) = .ok [] := by
      intro l
      have hi : isMissing v miss = .ok true := by
        unfold IsMissing at hm
        unfold isMissing
        unfold Readable at hv
        split
        · rename_i h; rw [if_pos h] at hm; rw [hm]
        · rename_i h
          rw [if_neg h] at hm
          rw [if_neg (by rcases hv with hv | hv <;> simp_all), hm]
      induction n generalizing l with
      | zero => simp [filterMissing]
      | succ n ih =>
        cases l with
        | nil => simp [filterMissing]
        | cons a l =>
          have ih := ih (fun cc hcc => by
            obtain ⟨bc, h1, h2, h3⟩ := hbins cc hcc
            rw [List.replicate_succ, Res.mapM'_cons] at h1
            obtain ⟨q, e1, h1⟩ := Res.bind_eq_ok.1 h1
            obtain ⟨q', e2, h1⟩ := Res.bind_eq_ok.1 h1
            cases h1
            exact ⟨q', e2, by simpa using h2, fun b hb => h3 b (List.mem_cons_of_mem _ hb)⟩) l
          rw [List.replicate_succ, List.zip_cons_cons, filterMissing, hi, Res.ok_bind, ih]
          rfl
    obtain ⟨bc, h1, h2, _⟩ := hbins [Fl.maxv] (by simp)
    refine ⟨[Fl.maxv], bc, ?_, h1, h2, Or.inl rfl⟩
    unfold colCuts
    rw [hf, Res.ok_bind]
    unfold percentilesOrValue
    obtain ⟨s, e1, e2, _⟩ := sortPartialCmp_spec hS (id : D → D) [] (by simp)
    rw [List.map_nil, e1, e2.eq_nil]
    rfl
  · have hi : isMissing v miss = .ok false := by
      unfold IsMissing at hm
      unfold isMissing
      unfold Readable at hv
      split
      · rename_i h; rw [if_pos h] at hm; simpa using hm
      · rename_i h
        rw [if_neg h] at hm
        rw [if_neg (by rcases hv with hv | hv <;> simp_all)]
        simpa using hm
    have hnan : isNaN v = false := by
      unfold isMissing at hi
      unfold Readable at hv
      split at hi
      · simpa using hi
      · rename_i h; rcases hv with hv | hv
        · exact absurd hv h
        · exact hv
    have hf : ∀ l : List D, filterMissing miss ((List.replicate n v).zip l) = .ok ((List.replicate n v).zip l) := by
      clear hbins
      intro l
      induction n generalizing l with
      | zero => simp [filterMissing]
      | succ n ih =>
        cases l with
        | nil => simp [filterMissing]
        | cons a l =>
          rw [List.replicate_succ, List.zip_cons_cons, filterMissing, hi, Res.ok_bind, ih]
          rfl
    have hvv : (v =ᶠ v) = true := Fl.feq_iff_le.2 ⟨Fl.le_refl hnan, Fl.le_refl hnan⟩
    have hdd : ∀ k, dedupF (List.replicate (k + 1) v) = [v] := by
      intro k
      rw [List.replicate_succ, dedupF]
      congr 1
      induction k with
      | zero => rfl
      | succ k ih => rw [List.replicate_succ, dedupF.go, if_pos hvv, ih]
    have hz : ((List.replicate n v).zip w).map Prod.fst = List.replicate (min n w.length) v := by
      rw [List.eq_replicate_iff]
      refine ⟨by simp, fun b hb => ?_⟩
      obtain ⟨p, hp, rfl⟩ := List.mem_map.1 hb
      exact List.eq_of_mem_replicate (List.of_mem_zip hp).1
    have hc : colCuts S (List.replicate n v) w nb miss =
        .ok (dedupF (dedupF (List.replicate (min n w.length) v) ++ [Fl.maxv])) := by
      unfold colCuts
      rw [hf, Res.ok_bind, hz]
      unfold percentilesOrValue
      obtain ⟨s, e1, e2, _⟩ := sortPartialCmp_spec hS (id : D → D) (List.replicate (min n w.length) v) (by
        intro a ha; rw [List.eq_of_mem_replicate ha]; exact hnan)
      rw [e1, List.perm_replicate.1 e2, Res.ok_bind]
      dsimp only
      rw [if_pos, Res.ok_bind]
      cases h : min n w.length with
      | zero => simp [dedupF]
      | succ k => rw [hdd]; simp
    cases h : min n w.length with
    | zero =>
      rw [h] at hc
      obtain ⟨bc, h1, h2, _⟩ := hbins [Fl.maxv] (by simp)
      exact ⟨[Fl.maxv], bc, hc, h1, h2, Or.inl rfl⟩
    | succ k =>
      rw [h, hdd] at hc
      rw [List.singleton_append, dedupF, dedupF.go] at hc
      split at hc
      · obtain ⟨bc, h1, h2, _⟩ := hbins [v] (by simp)
        exact ⟨[v], bc, hc, h1, h2, Or.inl rfl⟩
      · rename_i hne
        obtain ⟨bc, h1, h2, h3⟩ := hbins [v, Fl.maxv] (by simp)
        refine ⟨[v, Fl.maxv], bc, hc, h1, h2, Or.inr ⟨rfl, fun b hb h0 => ?_⟩⟩
        have hb := h3 b hb
        subst h0
        unfold mapBin at hb
        have hvm : (v =ᶠ miss) = false := by
          cases hc : (v =ᶠ miss)
          · rfl
          · unfold isMissing at hi
            rw [if_neg (by simp [(Fl.OrdLaws.feq_num _ _ hc).2]), if_neg (by simp [hnan]), hc] at hi
            cases hi
        rw [hnan, hvm] at hb
        simp only [Bool.or_false, Bool.false_eq_true, if_false] at hb
        have hle := Fl.le_refl hnan
        cases hM : ((Fl.maxv : D) ≤ᶠ v) <;>
          simp [mapBinLoop, idx, hle, hM, Res.ofOption] at hb

end Verif
