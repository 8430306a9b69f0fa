import Verif.Proofs.SelectGrow
import Verif.Proofs.ExtraFit

/-!
# Some of the columns: cuts, bins, histograms and the best split
-/

namespace Verif

open scoped Verif

set_option linter.unusedSectionVars false

section matrix
variable {T : Type} {X : Matrix T} {keep : List Nat}

theorem flatMap_block {α β : Type} {f : α → List β} {n : Nat} : ∀ {l : List α} (_ : ∀ c ∈ l, (f c).length = n)
    {j : Nat} {c : α}, l[j]? = some c → ((l.flatMap f).drop (j * n)).take n = f c
  | [], _, j, c, h => by simp at h
  | a :: l, hl, 0, c, h => by
    simp only [List.getElem?_cons_zero, Option.some.injEq] at h
    subst h
    have := hl a (by simp)
    simp [← this]
  | a :: l, hl, j + 1, c, h => by
    have ha := hl a (by simp)
    rw [List.flatMap_cons, Nat.succ_mul, Nat.add_comm, ← List.drop_drop]
    conv_lhs => rw [← ha, List.drop_left, ha]
    exact flatMap_block (fun c hc => hl c (by simp [hc])) (by simpa using h)

theorem flatMap_length_const {α β : Type} {f : α → List β} {n : Nat} {l : List α}
    (hl : ∀ c ∈ l, (f c).length = n) : (l.flatMap f).length = n * l.length := by
  induction l with
  | nil => simp
  | cons a l ih =>
    rw [List.flatMap_cons, List.length_append, hl a (by simp), ih fun c hc => hl c (by simp [hc]), List.length_cons,
      Nat.mul_succ, Nat.add_comm]

theorem Matrix.select_shaped (hX : X.Shaped) (hk : ∀ c ∈ keep, c < X.cols) : (X.select keep).Shaped :=
  flatMap_length_const (fun _ hc => Matrix.column_length hX (hk _ hc))

theorem Matrix.select_column (hX : X.Shaped) (hk : ∀ c ∈ keep, c < X.cols) {j c : Nat} (h : keep[j]? = some c) :
    (X.select keep).column j = X.column c :=
  flatMap_block (f := X.column) (fun _ hc => Matrix.column_length hX (hk _ hc)) h

theorem Matrix.select_getCol (hX : X.Shaped) (hk : ∀ c ∈ keep, c < X.cols) {j c : Nat} (h : keep[j]? = some c) :
    (X.select keep).getCol j = X.getCol c := by
  have hj := (List.getElem?_eq_some_iff.1 h).1
  rw [Matrix.getCol_eq (Matrix.select_shaped hX hk) hj, Matrix.getCol_eq hX (hk c (List.mem_of_getElem? h)),
    Matrix.select_column hX hk h]

theorem Matrix.select_entry (hX : X.Shaped) (hk : ∀ c ∈ keep, c < X.cols) {i j c : Nat} (hi : i < X.rows)
    (h : keep[j]? = some c) : (X.select keep).entry i j = X.entry i c := by
  rw [← Matrix.column_getElem? _ (show i < (X.select keep).rows from hi), Matrix.select_column hX hk h,
    Matrix.column_getElem? _ hi]

theorem Matrix.select_get (hX : X.Shaped) (hk : ∀ c ∈ keep, c < X.cols) {i j c : Nat} (hi : i < X.rows)
    (h : keep[j]? = some c) : (X.select keep).get i j = X.get i c := by
  have := Matrix.select_entry hX hk hi h
  unfold Matrix.entry at this
  unfold Matrix.get Matrix.itemIndex
  rw [idx, idx, Nat.one_mul, Nat.add_comm, Nat.add_comm i]
  rw [this]

theorem Matrix.select_concat (c : Nat) : X.select (keep ++ [c]) = (X.select keep).addCol (X.column c) := by
  unfold Matrix.select Matrix.addCol
  simp [List.flatMap_append, Matrix.column]

theorem idxOf_getElem? {c : Nat} (h : c ∈ keep) : keep[keep.idxOf c]? = some c := by
  rw [List.getElem?_eq_getElem (List.idxOf_lt_length_of_mem h), List.getElem_idxOf]

theorem idxOf_of_getElem? (hn : keep.Nodup) {j c : Nat} (h : keep[j]? = some c) : keep.idxOf c = j := by
  obtain ⟨hj, rfl⟩ := List.getElem?_eq_some_iff.1 h
  exact hn.idxOf_getElem j hj

end matrix

section bins
variable {D : Type} [Fl D]

/-- Binning some of the columns. -/
theorem binMatrix_select {S : Sorter} {X : Matrix D} (hX : X.Shaped) {w : List D} {nb : Nat} {miss : D}
    {bd : BinnedData D} (h : binMatrix S X w nb miss = .ok bd) {cl : List (List D)} (hJ : Jagged cl bd.cuts)
    (keep : List Nat) (hk : ∀ c ∈ keep, c < X.cols) :
    ∃ bd', binMatrix S (X.select keep) w nb miss = .ok bd' ∧
      ({ data := bd'.binned, rows := X.rows, cols := keep.length } : Matrix Nat) =
        ({ data := bd.binned, rows := X.rows, cols := X.cols } : Matrix Nat).select keep ∧
      Jagged (keep.map fun c => cl.getD c []) bd'.cuts := by
  induction keep using List.reverseRecOn with
  | nil =>
    refine ⟨{ binned := [], cuts := List.foldl pushCuts JaggedMatrix.empty [], nunique := [] }, rfl, rfl, ?_⟩
    exact Jagged.foldl_pushCuts []
  | append_singleton keep c ih =>
    have hk' : ∀ c ∈ keep, c < X.cols := fun c hc => hk c (by simp [hc])
    have hc : c < X.cols := hk c (by simp)
    obtain ⟨bd', h1, h2, h3⟩ := ih hk'
    obtain ⟨cc, bc, g1, g2, g3, g4⟩ := binMatrix_col hX h hc
    obtain ⟨n, h5⟩ := binMatrix_addCol (Matrix.select_shaped hX hk') h1 (Matrix.column_length hX hc) g1 g3
    rw [Matrix.select_concat]
    refine ⟨_, h5, ?_, ?_⟩
    · rw [Matrix.select_concat, ← h2]
      unfold Matrix.addCol
      obtain ⟨_, _, _, hB⟩ := binMatrix_shape hX h
      rw [Matrix.getCol_eq hB hc] at g4
      injection g4 with g4
      rw [g4]
      simp
    · have := h3.pushCuts cc
      rw [hJ.getCol, Res.ofOption_eq_ok] at g2
      rw [List.map_append]
      simpa [List.getD, g2] using this

end bins

variable {F D : Type} [Fl F] [Fl D] [FlCast F D]

/-! ## Histograms -/

/-- Histograms of all columns and of the columns `keep`. -/
def HistSel (keep : List Nat) (L : List Nat) (h h' : JaggedMatrix (Bin F D)) : Prop :=
  ∃ ls, Jagged ls h ∧ ls.map List.length = L ∧ Jagged (keep.map fun c => ls.getD c []) h'

theorem map_zipWith_getD {α β γ : Type} (f : α → β → γ) (keep : List Nat) {as : List (List α)} {bs : List (List β)}
    (h : as.length = bs.length) :
    (keep.map fun c => (List.zipWith (List.zipWith f) as bs).getD c []) =
      List.zipWith (List.zipWith f) (keep.map fun c => as.getD c []) (keep.map fun c => bs.getD c []) := by
  induction keep with
  | nil => rfl
  | cons c keep ih =>
    rw [List.map_cons, List.map_cons, List.map_cons, List.zipWith_cons_cons, ih]
    congr 1
    simp only [List.getD, List.getElem?_zipWith]
    by_cases hc : c < as.length
    · rw [List.getElem?_eq_getElem hc, List.getElem?_eq_getElem (h ▸ hc)]; rfl
    · rw [List.getElem?_eq_none (by omega), List.getElem?_eq_none (by omega)]; rfl

theorem lengths_getD {α β : Type} (keep : List Nat) {as : List (List α)} {bs : List (List β)}
    (h : as.map List.length = bs.map List.length) :
    (keep.map fun c => as.getD c []).map List.length = (keep.map fun c => bs.getD c []).map List.length := by
  rw [List.map_map, List.map_map]
  apply List.map_congr_left
  intro c _
  have : (as.map List.length)[c]? = (bs.map List.length)[c]? := by rw [h]
  rw [List.getElem?_map, List.getElem?_map] at this
  simp only [Function.comp_apply, List.getD]
  cases ha : as[c]? <;> cases hb : bs[c]? <;> rw [ha, hb] at this <;> simp_all

theorem HistSel.child {keep L : List Nat} {H H' C C' : JaggedMatrix (Bin F D)} (h1 : HistSel keep L H H')
    (h2 : HistSel keep L C C') : HistSel keep L (histFromParentChild H C) (histFromParentChild H' C') := by
  obtain ⟨ps, a1, a2, a3⟩ := h1
  obtain ⟨cs, b1, b2, b3⟩ := h2
  have hl : ps.map List.length = cs.map List.length := by rw [a2, b2]
  refine ⟨List.zipWith (List.zipWith Bin.fromParentChild) ps cs, ?_, by rw [map_length_zipWith _ hl, b2], ?_⟩
  · exact Jagged.zip _ hl (by simp only [histFromParentChild]; rw [a1.data_eq, b1.data_eq]) b1.ends_eq
  · rw [map_zipWith_getD _ _ (by simpa using congrArg List.length hl)]
    exact Jagged.zip _ (lengths_getD keep hl) (by simp only [histFromParentChild]; rw [a3.data_eq, b3.data_eq]) b3.ends_eq

theorem map_zip_getD {α β : Type} (keep : List Nat) {as : List (List α)} {bs : List (List β)}
    (h : as.length = bs.length) :
    (keep.map fun c => (List.zipWith List.zip as bs).getD c []) =
      List.zipWith List.zip (keep.map fun c => as.getD c []) (keep.map fun c => bs.getD c []) := by
  rw [show (List.zip : List α → List β → _) = List.zipWith Prod.mk from by funext a b; exact List.zip_eq_zipWith ..]
  exact map_zipWith_getD _ _ h

theorem HistSel.children {keep L : List Nat} {H H' C C' B B' : JaggedMatrix (Bin F D)} (h1 : HistSel keep L H H')
    (h2 : HistSel keep L C C') (h3 : HistSel keep L B B') :
    HistSel keep L (histFromParentTwoChildren H C B) (histFromParentTwoChildren H' C' B') := by
  obtain ⟨ps, a1, a2, a3⟩ := h1
  obtain ⟨cs, b1, b2, b3⟩ := h2
  obtain ⟨ds, c1, c2, c3⟩ := h3
  have hcd : cs.map List.length = ds.map List.length := by rw [b2, c2]
  have hl : ps.map List.length = (List.zipWith List.zip cs ds).map List.length := by
    rw [map_length_zip hcd, a2, b2]
  have hcd' := lengths_getD keep hcd
  have hl' := lengths_getD keep hl
  refine ⟨List.zipWith (List.zipWith fun r (q : Bin F D × Bin F D) => Bin.fromParentTwoChildren r q.1 q.2) ps
      (List.zipWith List.zip cs ds), ?_, ?_, ?_⟩
  · refine Jagged.zip _ hl ?_ ?_
    · simp only [histFromParentTwoChildren]
      rw [a1.data_eq, b1.data_eq, c1.data_eq, zip_flatten hcd]
    · exact b1.ends_eq.trans (endsOf_congr _ _ _ (map_length_zip hcd).symm)
  · rw [map_length_zipWith _ hl, map_length_zip hcd, b2]
  · rw [map_zipWith_getD _ _ (by simpa using congrArg List.length hl)]
    refine Jagged.zip _ hl' ?_ ?_
    · simp only [histFromParentTwoChildren]
      rw [a3.data_eq, b3.data_eq, c3.data_eq, zip_flatten hcd',
        map_zip_getD _ (by simpa using congrArg List.length hcd)]
    · rw [map_zip_getD _ (by simpa using congrArg List.length hcd)]
      exact b3.ends_eq.trans (endsOf_congr _ _ _ (map_length_zip hcd').symm)

/-- The histograms of some of the columns. -/
theorem histogramMatrix_sel {data : Matrix Nat} {cuts cuts' : JaggedMatrix D} {cl : List (List D)} (hJ : Jagged cl cuts)
    (hcl : cl.length = data.cols) (hS : data.Shaped) {keep : List Nat} (hk : ∀ c ∈ keep, c < data.cols)
    (hJ' : Jagged (keep.map fun c => cl.getD c []) cuts') (grad hess : List F) (index : List Nat) (sort : Bool) :
    Res.Imp (HistSel keep (cl.map List.length))
      (histogramMatrix data cuts grad hess index (List.range data.cols) sort)
      (histogramMatrix (data.select keep) cuts' grad hess index (List.range keep.length) sort) := by
  suffices key : ∀ sg sh, Res.Imp (HistSel keep (cl.map List.length))
      (do
        let hists ← Res.mapM' (fun col => do
          let f ← data.getCol col
          let c ← cuts.getCol col
          createFeatureHistogram f c sg sh index) (List.range data.cols)
        let ends ← if (List.range data.cols).length = data.cols then pure cuts.ends
          else scanEnds cuts 0 (List.range data.cols)
        let n := if (List.range data.cols).length = data.cols then cuts.nRecords else ends.sum
        .ok { data := hists.flatten, ends, cols := (List.range data.cols).length, nRecords := n })
      (do
        let hists ← Res.mapM' (fun col => do
          let f ← (data.select keep).getCol col
          let c ← cuts'.getCol col
          createFeatureHistogram f c sg sh index) (List.range keep.length)
        let ends ← if (List.range keep.length).length = (data.select keep).cols then pure cuts'.ends
          else scanEnds cuts' 0 (List.range keep.length)
        let n := if (List.range keep.length).length = (data.select keep).cols then cuts'.nRecords
          else ends.sum
        .ok { data := hists.flatten, ends, cols := (List.range keep.length).length, nRecords := n }) by
    unfold histogramMatrix
    cases sort with
    | true =>
      rw [if_pos rfl, if_pos rfl]
      refine (Res.Imp.same _).bind fun g g' _ _ e => ?_
      subst e
      refine (Res.Imp.same _).bind fun h h' _ _ e => ?_
      subst e
      exact key g h
    | false =>
      rw [if_neg (by simp), if_neg (by simp)]
      exact key grad hess
  intro sg sh
  have hm : Res.Imp (fun hs hs' => hs' = (keep.map fun c => hs.getD c []) ∧
        hs.map List.length = cl.map List.length)
      (Res.mapM' (fun col => do
        let f ← data.getCol col
        let c ← cuts.getCol col
        createFeatureHistogram f c sg sh index) (List.range data.cols))
      (Res.mapM' (fun col => do
        let f ← (data.select keep).getCol col
        let c ← cuts'.getCol col
        createFeatureHistogram f c sg sh index) (List.range keep.length)) := by
    intro hs h
    have hf := Res.mapM'_eq_ok.1 h
    have hhl : hs.length = data.cols := by rw [← hf.length_eq]; simp
    refine ⟨keep.map fun c => hs.getD c [], ?_, rfl, ?_⟩
    · rw [Res.mapM'_eq_ok, List.forall₂_iff_get]
      refine ⟨by simp, fun i h1 h2 => ?_⟩
      have hi : i < keep.length := by simpa using h1
      have hc : keep[i]? = some keep[i] := List.getElem?_eq_getElem hi
      have hck := hk keep[i] (List.getElem_mem hi)
      have := (List.forall₂_iff_get.1 hf).2 keep[i] (by simpa using hck) (by omega)
      simp only [List.get_eq_getElem, List.getElem_range, List.getElem_map] at this ⊢
      rw [Matrix.select_getCol hS hk hc]
      rw [hJ.getCol] at this
      rw [hJ'.getCol, List.getElem?_map, hc]
      have e1 : cl[keep[i]]? = some (cl.getD keep[i] []) := by
        rw [List.getD, List.getElem?_eq_getElem (by omega)]; rfl
      have e2 : hs.getD keep[i] [] = hs[keep[i]]'(by omega) := by
        rw [List.getD, List.getElem?_eq_getElem (by omega)]; rfl
      rw [e1] at this
      rw [e2]
      exact this
    · apply List.ext_getElem (by rw [List.length_map, List.length_map, hcl, hhl])
      intro i h1 h2
      rw [List.length_map] at h1 h2
      have := (List.forall₂_iff_get.1 hf).2 i (by simpa using hcl ▸ h2) h1
      simp only [List.get_eq_getElem, List.getElem_range] at this
      obtain ⟨f, e1, hx⟩ := Res.bind_eq_ok.1 this
      obtain ⟨c, e2, hx⟩ := Res.bind_eq_ok.1 hx
      rw [hJ.getCol, Res.ofOption_eq_ok, List.getElem?_eq_getElem h2] at e2
      rw [List.getElem_map, List.getElem_map, (featureHistogram_length hx).2, ← Option.some.inj e2]
  refine hm.bind fun hs hs' _ _ hr => ?_
  obtain ⟨rfl, hl⟩ := hr
  rw [if_pos (by simp), if_pos (by simp [Matrix.select])]
  simp only [Res.pure_def, Res.ok_bind]
  refine .ok ⟨hs, ⟨rfl, ?_⟩, hl, ⟨rfl, ?_⟩⟩
  · exact hJ.ends_eq.trans (endsOf_congr _ _ _ hl.symm)
  · exact hJ'.ends_eq.trans (endsOf_congr _ _ _ (lengths_getD keep hl).symm)

/-! ## The best split -/

theorem evalCandidate_withMaps (s : Splitter F) (m : ConstraintMap) (l : List Nat) (node : SNode F D) (f : Nat)
    (ct : Option Constraint) (mb b : Bin F D) (i : Nat) (cg ch : F) :
    evalCandidate (s.withMaps m l) node f ct mb b i cg ch = evalCandidate s node f ct mb b i cg ch := by
  cases s <;> rfl

theorem bestFeatureLoop_withMaps (s : Splitter F) (m : ConstraintMap) (l : List Nat) (node : SNode F D) (f : Nat)
    (ct : Option Constraint) (mb : Bin F D) (bs : List (Bin F D)) : ∀ i cg ch best,
    bestFeatureLoop (s.withMaps m l) node f ct mb bs i cg ch best =
      bestFeatureLoop s node f ct mb bs i cg ch best := by
  induction bs with
  | nil => intros; rfl
  | cons b bs ih =>
    intro i cg ch best
    simp only [bestFeatureLoop, evalCandidate_withMaps, ih]

theorem bestFeatureLoop_names (s : Splitter F) (node : SNode F D) (f : Nat) (ct : Option Constraint)
    (mb : Bin F D) (bs : List (Bin F D)) : ∀ i cg ch best r,
    bestFeatureLoop s node f ct mb bs i cg ch best = .ok r → (∀ x, best = some x → x.splitFeature = f) →
    ∀ x, r = some x → x.splitFeature = f := by
  induction bs with
  | nil => intro i cg ch best r h hb; cases h; exact hb
  | cons b bs ih =>
    intro i cg ch best r h hb
    rw [bestFeatureLoop] at h
    obtain ⟨c, hc, h⟩ := Res.bind_eq_ok.1 h
    refine ih _ _ _ _ _ h ?_
    have hcf : ∀ x, c = some x → x.splitFeature = f := by
      have := evalCandidate_feature s node f f ct mb b i cg ch hc
      rw [hc] at this
      injection this with this
      intro x hx
      subst hx
      simp only [Option.map_some, Option.some.injEq] at this
      rw [this]; rfl
    intro x hx
    cases c with
    | none => exact hb x hx
    | some c =>
      cases best with
      | none => exact hcf x hx
      | some y =>
        dsimp only at hx
        split at hx
        · exact hcf x hx
        · exact hb x hx

theorem bestFeatureSplit_names {s : Splitter F} {node : SNode F D} {f i : Nat} {x : SplitInfo F D}
    (h : bestFeatureSplit s node f i = .ok (some x)) : x.splitFeature = f := by
  unfold bestFeatureSplit at h
  obtain ⟨q, _, h⟩ := Res.bind_eq_ok.1 h
  cases q with
  | nil => cases h
  | cons m bins => exact bestFeatureLoop_names s node f _ m bins 0 0 0 none _ h (fun x hx => by cases hx) x rfl

/-- The states of the two searches: equal, or the first holds a feature that the second does not have and every gain
that beats it also beats the second's. -/
def SearchSel (keep : List Nat) (g g' : F) (best best' : Option (SplitInfo F D)) : Prop :=
  (g' = g ∧ best' = best.map (SplitInfo.renumber keep)) ∨
    ((∃ x, best = some x ∧ x.splitFeature ∉ keep) ∧ ∀ z, (g <ᶠ z) = true → (g' <ᶠ z) = true)

theorem bestSplitLoop_sel [Fl.OrdLaws F] {keep : List Nat} {s s' : Splitter F} {node node' : SNode F D} :
    ∀ (n k k' : Nat) (ks : List Nat) (g g' : F) (best best' : Option (SplitInfo F D)) (r : Option (SplitInfo F D)),
      (List.range' k n).filter (fun f => keep.contains f) = ks → 
      (∀ i f, ks[i]? = some f → keep.idxOf f = k' + i ∧ ∀ o, bestFeatureSplit s node f f = .ok o →
        bestFeatureSplit s' node' (k' + i) (k' + i) = .ok (o.map (SplitInfo.renumber keep))) →
      SearchSel keep g g' best best' →
      bestSplitLoop s node (List.range' k n) k g best = .ok r → (∀ x, r = some x → x.splitFeature ∈ keep) →
      bestSplitLoop s' node' (List.range' k' ks.length) k' g' best' = .ok (r.map (SplitInfo.renumber keep))
  | 0, k, k', ks, g, g', best, best', r, hks, _, hS, h, hr => by
    subst hks
    cases h
    rcases hS with ⟨_, hb⟩ | ⟨⟨x, hx, hx'⟩, _⟩
    · simp [bestSplitLoop, hb]
    · exact absurd (hr x hx) hx'
  | n + 1, k, k', ks, g, g', best, best', r, hks, hrel, hS, h, hr => by
    rw [List.range'_succ, bestSplitLoop] at h
    rw [List.range'_succ, List.filter_cons] at hks
    obtain ⟨o, ho, h⟩ := Res.bind_eq_ok.1 h
    by_cases hk : k ∈ keep
    · rw [if_pos (by simpa using hk)] at hks
      subst hks
      have h0 := (hrel 0 k rfl).2 o ho
      rw [Nat.add_zero] at h0
      have hrel' : ∀ i f, ((List.range' (k + 1) n).filter fun f => keep.contains f)[i]? = some f →
          keep.idxOf f = k' + 1 + i ∧ ∀ o, bestFeatureSplit s node f f = .ok o →
          bestFeatureSplit s' node' (k' + 1 + i) (k' + 1 + i) = .ok (o.map (SplitInfo.renumber keep)) := by
        intro i f hf
        have := hrel (i + 1) f (by simpa using hf)
        rwa [show k' + 1 + i = k' + (i + 1) by omega]
      rw [List.length_cons, List.range'_succ, bestSplitLoop, h0, Res.ok_bind]
      have ih := fun g g' best best' => bestSplitLoop_sel n (k + 1) (k' + 1) _ g g' best best' r rfl hrel'
      cases o with
      | none => exact ih _ _ _ _ hS h hr
      | some x =>
        dsimp only [Option.map_some] at h ⊢
        rw [show (SplitInfo.renumber keep x).splitGain = x.splitGain from rfl]
        split at h
        · rename_i hg
          have hg' : (g' <ᶠ x.splitGain) = true := by
            rcases hS with ⟨e, _⟩ | ⟨_, hz⟩
            · rw [e]; exact hg
            · exact hz _ hg
          rw [if_pos hg']
          exact ih _ _ _ _ (Or.inl ⟨rfl, rfl⟩) h hr
        · rename_i hg
          rcases hS with ⟨e, e2⟩ | ⟨hx, hz⟩
          · rw [e, if_neg hg]
            exact ih _ _ _ _ (Or.inl ⟨rfl, e2⟩) h hr
          · split
            · rename_i hg'
              refine ih _ _ _ _ (Or.inr ⟨hx, fun z hgz => ?_⟩) h hr
              exact Fl.lt_of_not_of_lt (Fl.OrdLaws.lt_num _ _ hg').2 (by simpa using hg) hgz
            · exact ih _ _ _ _ (Or.inr ⟨hx, hz⟩) h hr
    · rw [if_neg (by simpa using hk)] at hks
      have ih := fun g g' best best' => bestSplitLoop_sel n (k + 1) k' ks g g' best best' r hks hrel
      cases o with
      | none => exact ih _ _ _ _ hS h hr
      | some x =>
        dsimp only at h
        have hxf := bestFeatureSplit_names ho
        split at h
        · rename_i hg
          refine ih _ _ _ _ (Or.inr ⟨⟨x, rfl, by rw [hxf]; exact hk⟩, fun z hz => ?_⟩) h hr
          have hgz := Fl.OrdLaws.lt_trans _ _ _ hg hz
          rcases hS with ⟨e, _⟩ | ⟨_, hz'⟩
          · rw [e]; exact hgz
          · exact hz' _ hgz
        · exact ih _ _ _ _ hS h hr

theorem filter_range_keep {keep : List Nat} (hinc : keep.Pairwise (· < ·)) {n : Nat} (hk : ∀ c ∈ keep, c < n) :
    (List.range' 0 n).filter (fun f => keep.contains f) = keep := by
  refine List.Perm.eq_of_pairwise (le := (· < ·)) (fun a b _ _ h1 h2 => absurd h1 (by omega)) ?_ hinc ?_
  · exact (List.pairwise_lt_range' ..).filter _
  · rw [List.perm_ext_iff_of_nodup]
    · intro a
      simp only [List.mem_filter, List.mem_range'_1, List.contains_iff_mem]
      constructor
      · exact fun h => h.2
      · exact fun h => ⟨⟨by omega, by have := hk a h; omega⟩, h⟩
    · exact (List.nodup_range' ..).filter _
    · exact hinc.imp fun h => by omega

/-- The best split of a column that stays. -/
theorem bestFeatureSplit_sel {s s' : Splitter F} {keep : List Nat} (hs : SplitterSel keep s s') (hnd : keep.Nodup)
    {L : List Nat} {node : SNode F D} {h' : JaggedMatrix (Bin F D)} (hH : HistSel keep L node.histograms h') {i f : Nat}
    (hf : keep[i]? = some f) {o : Option (SplitInfo F D)} (ho : bestFeatureSplit s node f f = .ok o) :
    bestFeatureSplit s' { node with histograms := h' } i i = .ok (o.map (SplitInfo.renumber keep)) := by
  obtain ⟨ls, a1, a2, a3⟩ := hH
  have hfi := idxOf_of_getElem? hnd hf
  have hmem := List.mem_of_getElem? hf
  obtain ⟨m, l, e⟩ := hs.eq
  have hc := hs.constraint f hmem
  unfold bestFeatureSplit at ho ⊢
  obtain ⟨q, hq, ho⟩ := Res.bind_eq_ok.1 ho
  have hq' : h'.getCol i = .ok q := by
    rw [a1.getCol, Res.ofOption_eq_ok] at hq
    rw [a3.getCol, Res.ofOption_eq_ok, List.getElem?_map, hf]
    simp [List.getD, hq]
  refine Res.bind_eq_ok.2 ⟨q, hq', ?_⟩
  cases q with
  | nil => cases ho
  | cons mb bins =>
    dsimp only at ho ⊢
    rw [hfi] at hc
    rw [hc, e, bestFeatureLoop_withMaps, bestFeatureLoop_copy s (show NodeCopy node { node with histograms := h' } from rfl)]
    have := bestFeatureLoop_feature s node f i _ mb bins 0 0 0 none o ho
    rw [Option.map_none] at this
    rw [this]
    congr 1
    cases o with
    | none => rfl
    | some x =>
      have := bestFeatureLoop_names s node f _ mb bins 0 0 0 none _ ho (fun x hx => by cases hx) x rfl
      simp only [Option.map_some, Option.some.injEq]
      unfold SplitInfo.onFeature SplitInfo.renumber
      rw [this, hfi]

/-- Training data with some of the columns. -/
theorem trainSel_select [Fl.OrdLaws F] {s s' : Splitter F} {keep : List Nat} (hs : SplitterSel keep s s')
    {data : Matrix Nat} {cuts cuts' : JaggedMatrix D} {cl : List (List D)} (hJ : Jagged cl cuts)
    (hcl : cl.length = data.cols) (hS : data.Shaped) (hinc : keep.Pairwise (· < ·))
    (hk : ∀ c ∈ keep, c < data.cols) (hJ' : Jagged (keep.map fun c => cl.getD c []) cuts') (grad hess : List F) :
    TrainSel keep (fun _ => True) s s' (HistSel keep (cl.map List.length))
      { data, cuts, grad, hess, colIndex := List.range data.cols }
      { data := data.select keep, cuts := cuts', grad, hess, colIndex := List.range keep.length } := by
  refine ⟨rfl, rfl, ?_, ?_, fun _ _ _ _ => HistSel.child, fun _ _ _ _ _ _ => HistSel.children, ?_⟩
  · intro c hc v hv
    show (data.select keep).getCol _ = _
    rw [Matrix.select_getCol hS hk (idxOf_getElem? hc)]
    exact hv
  · exact histogramMatrix_sel hJ hcl hS hk hJ' grad hess
  · rintro node h' r hH h hr -
    dsimp only at h ⊢
    unfold bestSplit at h ⊢
    rw [List.range_eq_range'] at h ⊢
    have hnd : keep.Nodup := hinc.imp fun h => by omega
    refine bestSplitLoop_sel data.cols 0 0 keep 0 0 none none r (filter_range_keep hinc hk) ?_ (Or.inl ⟨rfl, rfl⟩) h hr
    intro i f hf
    refine ⟨by rw [idxOf_of_getElem? hnd hf, Nat.zero_add], fun o ho => ?_⟩
    rw [Nat.zero_add]
    exact bestFeatureSplit_sel hs hnd hH hf ho

end Verif
