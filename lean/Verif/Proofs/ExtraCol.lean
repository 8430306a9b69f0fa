import Verif.Proofs.ExtraGrow
import Verif.Proofs.CopiesGrow
import Verif.Proofs.Bins
import Verif.Spec.ExtraColumn

/-!
# One more column: cuts, bins, histograms and the best split
-/

namespace Verif

open scoped Verif

set_option linter.unusedSectionVars false

theorem Res.mapM'_append_ok {α β : Type} {f : α → Res β} {l l' : List α} {bs bs' : List β}
    (h : Res.mapM' f l = .ok bs) (h' : Res.mapM' f l' = .ok bs') : Res.mapM' f (l ++ l') = .ok (bs ++ bs') := by
  rw [Res.mapM'_eq_ok] at h h' ⊢
  exact List.rel_append h h'

section matrix
variable {T : Type} {X : Matrix T}

theorem Matrix.addCol_shaped (hX : X.Shaped) {col : List T} (hc : col.length = X.rows) : (X.addCol col).Shaped := by
  unfold Matrix.Shaped at *
  simp only [Matrix.addCol, List.length_append, hX, hc, Nat.mul_add, Nat.mul_one]

theorem Matrix.Widens.getCol {X' : Matrix T} (h : X.Widens X') {c : Nat} {v : List T} (e : X.getCol c = .ok v) :
    X'.getCol c = .ok v := by
  unfold Matrix.getCol Matrix.getColSlice Matrix.itemIndex at *
  rw [h.rows]
  rw [slice_eq_ok] at e ⊢
  obtain ⟨h1, h2, rfl⟩ := e
  obtain ⟨r, hr⟩ := h.start
  refine ⟨h1, by rw [← hr, List.length_append]; omega, ?_⟩
  rw [← hr, List.drop_append, List.take_append_of_le_length (by rw [List.length_drop]; omega)]

theorem Matrix.Widens.get {X' : Matrix T} (h : X.Widens X') {r c : Nat} {v : T} (e : X.get r c = .ok v) :
    X'.get r c = .ok v := by
  unfold Matrix.get Matrix.itemIndex at *
  rw [h.rows]
  rw [idx_eq_ok] at e ⊢
  obtain ⟨r, hr⟩ := h.start
  rw [← hr, List.getElem?_append_left (List.getElem?_eq_some_iff.1 e).1, e]

theorem Matrix.addCol_last (hX : X.Shaped) {col : List T} (hc : col.length = X.rows) :
    (X.addCol col).getCol X.cols = .ok col := by
  rw [Matrix.getCol_eq (Matrix.addCol_shaped hX hc) (by simp [Matrix.addCol]), Matrix.column]
  simp only [Matrix.addCol]
  rw [Nat.mul_comm, ← hX, List.drop_left, ← hc, List.take_length]

end matrix

section bins
variable {D : Type} [Fl D]

/-- Binning the data with one more column. -/
theorem binMatrix_addCol {S : Sorter} {X : Matrix D} (hX : X.Shaped) {w : List D} {nb : Nat} {miss : D}
    {bd : BinnedData D} (h : binMatrix S X w nb miss = .ok bd) {col cc : List D} (hc : col.length = X.rows)
    (hcc : colCuts S col w nb miss = .ok cc) {bc : List Nat}
    (hbc : Res.mapM' (fun v => do let b ← mapBin cc v miss; Res.ofOption b) col = .ok bc) :
    ∃ n, binMatrix S (X.addCol col) w nb miss =
      .ok { binned := bd.binned ++ bc, cuts := pushCuts bd.cuts cc, nunique := n } := by
  unfold binMatrix at h ⊢
  simp only [Res.bind_eq_ok] at h
  obtain ⟨cutss, h1, binned, h2, e⟩ := h
  injection e with e
  subst e
  have hlen : cutss.length = X.cols := by
    have := (Res.mapM'_eq_ok.1 h1).length_eq
    rw [← this]; simp
  have hW := X.addCol_widens col
  have hcols : Res.mapM' (fun i => do
      let c ← (X.addCol col).getCol i
      colCuts S c w nb miss) (List.range (X.addCol col).cols) = .ok (cutss ++ [cc]) := by
    rw [show (X.addCol col).cols = X.cols + 1 from rfl, List.range_succ]
    refine Res.mapM'_append_ok ?_ ?_
    · rw [Res.mapM'_eq_ok] at h1 ⊢
      refine h1.imp fun i c hi => ?_
      obtain ⟨v, e1, e2⟩ := Res.bind_eq_ok.1 hi
      exact Res.bind_eq_ok.2 ⟨v, hW.getCol e1, e2⟩
    · rw [Res.mapM'_cons, Matrix.addCol_last hX hc, Res.ok_bind, hcc]
      rfl
  have hJ := Jagged.foldl_pushCuts cutss
  have hJ' := hJ.pushCuts cc
  refine ⟨(cutss ++ [cc]).map List.length, ?_⟩
  refine Res.bind_eq_ok.2 ⟨_, hcols, Res.bind_eq_ok.2 ⟨binned ++ bc, ?_, ?_⟩⟩
  · rw [List.foldl_append, List.foldl_cons, List.foldl_nil]
    unfold binMatrixFromCuts at h2 ⊢
    rw [show (X.addCol col).data = X.data ++ col from rfl, show (X.addCol col).rows = X.rows from rfl,
      List.zipIdx_append]
    refine Res.mapM'_append_ok ?_ ?_
    · rw [Res.mapM'_eq_ok] at h2 ⊢
      refine h2.imp fun p k hp => ?_
      split at hp
      · cases hp
      · rename_i h0
        rw [if_neg h0]
        obtain ⟨c, e1, e2⟩ := Res.bind_eq_ok.1 hp
        refine Res.bind_eq_ok.2 ⟨c, ?_, e2⟩
        rw [hJ.getCol, Res.ofOption_eq_ok] at e1
        rw [hJ'.getCol, Res.ofOption_eq_ok, List.getElem?_append_left (List.getElem?_eq_some_iff.1 e1).1, e1]
    · rw [Res.mapM'_eq_ok] at hbc ⊢
      have hz : col = (col.zipIdx (0 + X.data.length)).map Prod.fst := by simp
      rw [hz, List.forall₂_map_left_iff] at hbc
      refine (List.forall₂_iff_get.2 ⟨hbc.length_eq, fun i hi hi' => ?_⟩)
      have := (List.forall₂_iff_get.1 hbc).2 i hi hi'
      have hlt : i < col.length := by simpa using hi
      simp only [List.get_eq_getElem, List.getElem_zipIdx] at this ⊢
      rw [if_neg (by omega)]
      refine Res.bind_eq_ok.2 ⟨cc, ?_, this⟩
      have hd : (0 + X.data.length + i) / X.rows = X.cols := by
        rw [hX, Nat.zero_add, Nat.mul_add_div (by omega), Nat.div_eq_of_lt (by omega), Nat.add_zero]
      rw [hd, hJ'.getCol, ← hlen]
      simp
  · rw [List.foldl_append, List.foldl_cons, List.foldl_nil]

/-- The cuts and bins of a copy of a column. -/
theorem binMatrix_col {S : Sorter} {X : Matrix D} (hX : X.Shaped) {w : List D} {nb : Nat} {miss : D}
    {bd : BinnedData D} (h : binMatrix S X w nb miss = .ok bd) {j : Nat} (hj : j < X.cols) :
    ∃ cc bc, colCuts S (X.column j) w nb miss = .ok cc ∧ bd.cuts.getCol j = .ok cc ∧
      Res.mapM' (fun v => do let b ← mapBin cc v miss; Res.ofOption b) (X.column j) = .ok bc ∧
      ({ data := bd.binned, rows := X.rows, cols := X.cols } : Matrix Nat).getCol j = .ok bc := by
  unfold binMatrix at h
  simp only [Res.bind_eq_ok] at h
  obtain ⟨cutss, h1, binned, h2, e⟩ := h
  injection e with e
  subst e
  have hJ := Jagged.foldl_pushCuts cutss
  rw [Res.mapM'_eq_ok] at h1
  have hlen : cutss.length = X.cols := by
    have := h1.length_eq
    rw [← this]; simp
  have hjc : j < cutss.length := by omega
  have hcc := (List.forall₂_iff_get.1 h1).2 j (by simpa using hj) hjc
  simp only [List.get_eq_getElem, List.getElem_range] at hcc
  rw [Matrix.getCol_eq hX hj, Res.ok_bind] at hcc
  unfold binMatrixFromCuts at h2
  rw [Res.mapM'_eq_ok] at h2
  have hsz : binned.length = X.data.length := by rw [← h2.length_eq]; simp
  have hB : ({ data := binned, rows := X.rows, cols := X.cols } : Matrix Nat).Shaped := by
    unfold Matrix.Shaped at *
    dsimp only
    rw [hsz, hX]
  refine ⟨cutss[j], _, hcc, ?_, ?_, Matrix.getCol_eq hB hj⟩
  · rw [hJ.getCol, List.getElem?_eq_getElem hjc]; rfl
  · rw [Res.mapM'_eq_ok, List.forall₂_iff_get]
    have hl1 := Matrix.column_length hX hj
    have hl2 := Matrix.column_length hB hj
    refine ⟨by rw [hl1, hl2], fun i hi hi' => ?_⟩
    rw [hl1] at hi
    have hle := hX.col_le hj
    have hk : j * X.rows + i < X.data.length := by omega
    have := (List.forall₂_iff_get.1 h2).2 (j * X.rows + i) (by simpa using hk) (by omega)
    simp only [List.get_eq_getElem, List.getElem_zipIdx, Nat.zero_add] at this
    rw [if_neg (by omega), show (j * X.rows + i) / X.rows = j by
      rw [Nat.mul_comm, Nat.mul_add_div (by omega), Nat.div_eq_of_lt hi, Nat.add_zero], hJ.getCol,
      List.getElem?_eq_getElem hjc, Res.ofOption_some, Res.ok_bind] at this
    have g1 : (X.column j)[i]'(by omega) = X.data[j * X.rows + i] := by simp [Matrix.column]
    have g2 : (({ data := binned, rows := X.rows, cols := X.cols } : Matrix Nat).column j)[i]'(by omega) =
        binned[j * X.rows + i]'(by omega) := by simp [Matrix.column]
    simp only [List.get_eq_getElem]
    rw [g1, g2]
    exact this

/-- The shape of binned data. -/
theorem binMatrix_shape {S : Sorter} {X : Matrix D} (hX : X.Shaped) {w : List D} {nb : Nat} {miss : D}
    {bd : BinnedData D} (h : binMatrix S X w nb miss = .ok bd) :
    ∃ cl, Jagged cl bd.cuts ∧ cl.length = X.cols ∧
      ({ data := bd.binned, rows := X.rows, cols := X.cols } : Matrix Nat).Shaped := by
  unfold binMatrix at h
  simp only [Res.bind_eq_ok] at h
  obtain ⟨cutss, h1, binned, h2, e⟩ := h
  injection e with e
  subst e
  unfold binMatrixFromCuts at h2
  rw [Res.mapM'_eq_ok] at h1 h2
  refine ⟨cutss, Jagged.foldl_pushCuts cutss, by rw [← h1.length_eq]; simp, ?_⟩
  unfold Matrix.Shaped at *
  dsimp only
  rw [← h2.length_eq, List.length_zipIdx, hX]

end bins

variable {F D : Type} [Fl F] [Fl D] [FlCast F D]

/-! ## Histograms -/

/-- Histograms with one more column `e`, related to the others by `K`. -/
def HistExt (L : List Nat) (n : Nat) (K : List (List (Bin F D)) → List (Bin F D) → Prop)
    (h h' : JaggedMatrix (Bin F D)) : Prop :=
  ∃ ls e, Jagged ls h ∧ Jagged (ls ++ [e]) h' ∧ ls.map List.length = L ∧ e.length = n ∧ K ls e

/-- What the relation of the new column to the others must survive. -/
structure HistKind (L : List Nat) (n : Nat) (K : List (List (Bin F D)) → List (Bin F D) → Prop) : Prop where
  child : ∀ ps p cs c, ps.map List.length = L → cs.map List.length = L → p.length = n → c.length = n →
    K ps p → K cs c →
    K (List.zipWith (List.zipWith Bin.fromParentChild) ps cs) (List.zipWith Bin.fromParentChild p c)
  children : ∀ ps p cs c ds d, ps.map List.length = L → cs.map List.length = L → ds.map List.length = L →
    p.length = n → c.length = n → d.length = n → K ps p → K cs c → K ds d →
    K (List.zipWith (List.zipWith fun r q => Bin.fromParentTwoChildren r q.1 q.2) ps (List.zipWith List.zip cs ds))
      (List.zipWith (fun r q => Bin.fromParentTwoChildren r q.1 q.2) p (c.zip d))

theorem forall₂_lengths {α β : Type} {as : List (List α)} {bs : List (List β)}
    (h : as.map List.length = bs.map List.length) : List.Forall₂ (fun a b => a.length = b.length) as bs := by
  rw [← List.forall₂_eq_eq_eq, List.forall₂_map_left_iff, List.forall₂_map_right_iff] at h
  exact h

theorem map_length_zipWith {α β γ : Type} (f : α → β → γ) {as : List (List α)} {bs : List (List β)}
    (h : as.map List.length = bs.map List.length) :
    (List.zipWith (List.zipWith f) as bs).map List.length = bs.map List.length := by
  induction as generalizing bs with
  | nil => cases bs with
    | nil => rfl
    | cons _ _ => simp at h
  | cons a as ih => cases bs with
    | nil => simp at h
    | cons b bs =>
      simp only [List.map_cons, List.cons.injEq] at h
      simp [ih h.2, h.1]

theorem Jagged.zip {α β γ : Type} (f : α → β → γ) {as : List (List α)} {bs : List (List β)} {m : JaggedMatrix γ}
    (h : as.map List.length = bs.map List.length) (hd : m.data = List.zipWith f as.flatten bs.flatten)
    (he : m.ends = endsOf 0 bs) : Jagged (List.zipWith (List.zipWith f) as bs) m := by
  refine ⟨by rw [hd, zipWith_flatten _ _ _ (forall₂_lengths h)], ?_⟩
  rw [he]
  exact endsOf_congr _ _ _ (map_length_zipWith f h).symm

section
variable {L : List Nat} {n : Nat} {K : List (List (Bin F D)) → List (Bin F D) → Prop}

theorem HistExt.child (hK : HistKind L n K) {H H' C C' : JaggedMatrix (Bin F D)} (h1 : HistExt L n K H H')
    (h2 : HistExt L n K C C') : HistExt L n K (histFromParentChild H C) (histFromParentChild H' C') := by
  obtain ⟨ps, p, a1, a2, a3, a4, a5⟩ := h1
  obtain ⟨cs, c, b1, b2, b3, b4, b5⟩ := h2
  have hl : ps.map List.length = cs.map List.length := by rw [a3, b3]
  have hl' : (ps ++ [p]).map List.length = (cs ++ [c]).map List.length := by
    rw [List.map_append, List.map_append, hl]; simp [a4, b4]
  refine ⟨_, _, ?_, ?_, ?_, ?_, hK.child ps p cs c a3 b3 a4 b4 a5 b5⟩
  · exact Jagged.zip _ hl (by simp only [histFromParentChild]; rw [a1.data_eq, b1.data_eq]) b1.ends_eq
  · have := Jagged.zip (m := histFromParentChild H' C') Bin.fromParentChild hl'
      (by simp only [histFromParentChild]; rw [a2.data_eq, b2.data_eq]) b2.ends_eq
    rwa [List.zipWith_append (by simpa using congrArg List.length hl)] at this
  · rw [map_length_zipWith _ hl, b3]
  · simp [a4, b4]

theorem map_length_zip {α β : Type} {as : List (List α)} {bs : List (List β)}
    (h : as.map List.length = bs.map List.length) :
    (List.zipWith List.zip as bs).map List.length = as.map List.length := by
  rw [show (List.zip : List α → List β → _) = List.zipWith Prod.mk from by funext a b; exact List.zip_eq_zipWith ..,
    map_length_zipWith _ h, h]

theorem zip_flatten {α β : Type} {as : List (List α)} {bs : List (List β)}
    (h : as.map List.length = bs.map List.length) :
    as.flatten.zip bs.flatten = (List.zipWith List.zip as bs).flatten := by
  have := zipWith_flatten (Prod.mk : α → β → α × β) as bs (forall₂_lengths h)
  rw [show (List.zip : List α → List β → _) = List.zipWith Prod.mk from by funext a b; exact List.zip_eq_zipWith ..]
  exact this

theorem HistExt.children (hK : HistKind L n K) {H H' C C' B B' : JaggedMatrix (Bin F D)} (h1 : HistExt L n K H H')
    (h2 : HistExt L n K C C') (h3 : HistExt L n K B B') :
    HistExt L n K (histFromParentTwoChildren H C B) (histFromParentTwoChildren H' C' B') := by
  obtain ⟨ps, p, a1, a2, a3, a4, a5⟩ := h1
  obtain ⟨cs, c, b1, b2, b3, b4, b5⟩ := h2
  obtain ⟨ds, d, c1, c2, c3, c4, c5⟩ := h3
  have hcd : cs.map List.length = ds.map List.length := by rw [b3, c3]
  have hcd' : (cs ++ [c]).map List.length = (ds ++ [d]).map List.length := by
    rw [List.map_append, List.map_append, hcd]; simp [b4, c4]
  have hl : ps.map List.length = (List.zipWith List.zip cs ds).map List.length := by
    rw [map_length_zip hcd, a3, b3]
  have hl' : (ps ++ [p]).map List.length = (List.zipWith List.zip (cs ++ [c]) (ds ++ [d])).map List.length := by
    rw [map_length_zip hcd', List.map_append, List.map_append, a3, b3]; simp [a4, b4]
  refine ⟨_, _, ?_, ?_, ?_, ?_, hK.children ps p cs c ds d a3 b3 c3 a4 b4 c4 a5 b5 c5⟩
  · refine Jagged.zip _ hl ?_ ?_
    · simp only [histFromParentTwoChildren]
      rw [a1.data_eq, b1.data_eq, c1.data_eq, zip_flatten hcd]
    · exact b1.ends_eq.trans (endsOf_congr _ _ _ (map_length_zip hcd).symm)
  · have := Jagged.zip (m := histFromParentTwoChildren H' C' B')
      (fun r (q : Bin F D × Bin F D) => Bin.fromParentTwoChildren r q.1 q.2) hl' (by
        simp only [histFromParentTwoChildren]
        rw [a2.data_eq, b2.data_eq, c2.data_eq, zip_flatten hcd'])
      (b2.ends_eq.trans (endsOf_congr _ _ _ (map_length_zip hcd').symm))
    have hlen : cs.length = ds.length := by simpa using congrArg List.length hcd
    have hlen2 : ps.length = (List.zipWith List.zip cs ds).length := by simpa using congrArg List.length hl
    rw [List.zipWith_append hlen, List.zipWith_append hlen2] at this
    exact this
  · rw [map_length_zipWith _ hl, map_length_zip hcd, b3]
  · simp [a4, b4, c4]

end

theorem histAdd_keeps {feature : List Nat} {h h' : List (Bin D D)} {r : Nat × F × F}
    (e : histAdd feature h r = .ok h') : h'.length = h.length := by
  unfold histAdd at e
  obtain ⟨b, _, e⟩ := Res.bind_eq_ok.1 e
  injection e with e
  rw [← e]; simp

theorem foldHist_keeps (feature : List Nat) : ∀ (l : List (Nat × F × F)) (h h' : List (Bin D D)),
    Res.foldM' (histAdd feature) h l = .ok h' → h'.length = h.length
  | [], h, h', e => by cases e; rfl
  | r :: l, h, h', e => by
    obtain ⟨h1, e1, e2⟩ := Res.bind_eq_ok.1 e
    rw [foldHist_keeps feature l h1 h' e2, histAdd_keeps e1]

theorem featureHistogram_length {feature : List Nat} {cuts : List D} {sg sh : List F} {index : List Nat}
    {h : List (Bin F D)} (e : createFeatureHistogram feature cuts sg sh index = .ok h) :
    cuts ≠ [] ∧ h.length = cuts.length := by
  unfold createFeatureHistogram at e
  split at e
  · cases e
  · rename_i hc
    simp only [Res.bind_eq_ok, Res.ok.injEq] at e
    obtain ⟨h1, e1, rfl⟩ := e
    refine ⟨fun h => hc (by rw [h]; rfl), ?_⟩
    rw [List.length_map, foldHist_keeps _ _ _ _ e1, List.length_cons, List.length_map, List.length_take]
    omega

/-- The histograms of the data with one more column. -/
theorem histogramMatrix_ext {data : Matrix Nat} {cuts : JaggedMatrix D} {cl : List (List D)} (hJ : Jagged cl cuts)
    (hcl : cl.length = data.cols) (hS : data.Shaped) {bc : List Nat} (hbc : bc.length = data.rows) {cc : List D}
    {K : List (List (Bin F D)) → List (Bin F D) → Prop}
    (hK : ∀ sg sh index hs, Res.mapM' (fun col => do
        let f ← data.getCol col
        let c ← cuts.getCol col
        createFeatureHistogram f c sg sh index) (List.range data.cols) = .ok hs →
      ∃ e, createFeatureHistogram (F := F) bc cc sg sh index = .ok e ∧ K hs e)
    (grad hess : List F) (index : List Nat) (sort : Bool) :
    Res.Imp (HistExt (cl.map List.length) cc.length K)
      (histogramMatrix data cuts grad hess index (List.range data.cols) sort)
      (histogramMatrix (data.addCol bc) (pushCuts cuts cc) grad hess index (List.range (data.cols + 1)) sort) := by
  have hW := data.addCol_widens bc
  have hJ' := hJ.pushCuts cc
  suffices key : ∀ sg sh, Res.Imp (HistExt (cl.map List.length) cc.length K)
      (do
        let hists ← Res.mapM' (fun col => do
          let f ← data.getCol col
          let c ← cuts.getCol col
          createFeatureHistogram f c sg sh index) (List.range data.cols)
        let ends ← if (List.range data.cols).length = data.cols then pure cuts.ends
          else scanEnds cuts 0 (List.range data.cols)
        let n := if (List.range data.cols).length = data.cols then cuts.nRecords else ends.sum
        .ok { data := hists.flatten, ends, cols := (List.range data.cols).length, nRecords := n })
      (do
        let hists ← Res.mapM' (fun col => do
          let f ← (data.addCol bc).getCol col
          let c ← (pushCuts cuts cc).getCol col
          createFeatureHistogram f c sg sh index) (List.range (data.cols + 1))
        let ends ← if (List.range (data.cols + 1)).length = (data.addCol bc).cols then pure (pushCuts cuts cc).ends
          else scanEnds (pushCuts cuts cc) 0 (List.range (data.cols + 1))
        let n := if (List.range (data.cols + 1)).length = (data.addCol bc).cols then (pushCuts cuts cc).nRecords
          else ends.sum
        .ok { data := hists.flatten, ends, cols := (List.range (data.cols + 1)).length, nRecords := n }) by
    unfold histogramMatrix
    cases sort with
    | true =>
      rw [if_pos rfl, if_pos rfl]
      refine (Res.Imp.same _).bind fun g g' _ _ e => ?_
      subst e
      refine (Res.Imp.same _).bind fun h h' _ _ e => ?_
      subst e
      exact key g h
    | false =>
      rw [if_neg (by simp), if_neg (by simp)]
      exact key grad hess
  intro sg sh
  have hm : Res.Imp (fun hs hs' => ∃ e, hs' = hs ++ [e] ∧ K hs e ∧ e.length = cc.length ∧
        hs.map List.length = cl.map List.length)
      (Res.mapM' (fun col => do
        let f ← data.getCol col
        let c ← cuts.getCol col
        createFeatureHistogram f c sg sh index) (List.range data.cols))
      (Res.mapM' (fun col => do
        let f ← (data.addCol bc).getCol col
        let c ← (pushCuts cuts cc).getCol col
        createFeatureHistogram f c sg sh index) (List.range (data.cols + 1))) := by
    intro hs h
    obtain ⟨e, he, hk⟩ := hK sg sh index hs h
    have hf := Res.mapM'_eq_ok.1 h
    refine ⟨hs ++ [e], ?_, e, rfl, hk, (featureHistogram_length he).2, ?_⟩
    · rw [List.range_succ]
      refine Res.mapM'_append_ok ?_ ?_
      · rw [Res.mapM'_eq_ok]
        refine hf.imp fun col x hx => ?_
        obtain ⟨f, e1, hx⟩ := Res.bind_eq_ok.1 hx
        obtain ⟨c, e2, hx⟩ := Res.bind_eq_ok.1 hx
        refine Res.bind_eq_ok.2 ⟨f, hW.getCol e1, Res.bind_eq_ok.2 ⟨c, ?_, hx⟩⟩
        rw [hJ.getCol, Res.ofOption_eq_ok] at e2
        rw [hJ'.getCol, Res.ofOption_eq_ok, List.getElem?_append_left (List.getElem?_eq_some_iff.1 e2).1, e2]
      · rw [Res.mapM'_cons, Matrix.addCol_last hS hbc, Res.ok_bind, hJ'.getCol, ← hcl]
        simp only [List.length_append, List.getElem?_concat_length, Res.ofOption_some, Res.ok_bind, he,
          Res.mapM'_nil, Res.pure_def]
    · apply List.ext_getElem (by rw [List.length_map, List.length_map, hcl, ← hf.length_eq, List.length_range])
      intro i h1 h2
      rw [List.length_map] at h1 h2
      have := (List.forall₂_iff_get.1 hf).2 i (by simpa using hcl ▸ h2) h1
      simp only [List.get_eq_getElem, List.getElem_range] at this
      obtain ⟨f, e1, hx⟩ := Res.bind_eq_ok.1 this
      obtain ⟨c, e2, hx⟩ := Res.bind_eq_ok.1 hx
      rw [hJ.getCol, Res.ofOption_eq_ok, List.getElem?_eq_getElem h2] at e2
      rw [List.getElem_map, List.getElem_map, (featureHistogram_length hx).2, ← Option.some.inj e2]
  refine hm.bind fun hs hs' _ _ hr => ?_
  obtain ⟨e, rfl, hk, he, hl⟩ := hr
  rw [if_pos (by simp), if_pos (by simp [Matrix.addCol])]
  simp only [Res.pure_def, Res.ok_bind]
  refine .ok ⟨hs, e, ⟨rfl, ?_⟩, ⟨rfl, ?_⟩, hl, he, hk⟩
  · exact hJ.ends_eq.trans (endsOf_congr _ _ _ hl.symm)
  · refine hJ'.ends_eq.trans (endsOf_congr _ _ _ ?_)
    rw [List.map_append, List.map_append, hl]
    simp [he]

/-! ## The best split -/

theorem bestSplitLoop_hist (s : Splitter F) (node : SNode F D) (h' : JaggedMatrix (Bin F D)) (l : List Nat) :
    ∀ k g best, (∀ i < l.length, h'.getCol (k + i) = node.histograms.getCol (k + i)) →
      bestSplitLoop s { node with histograms := h' } l k g best = bestSplitLoop s node l k g best := by
  induction l with
  | nil => intro k g best _; rfl
  | cons f l ih =>
    intro k g best h
    have hf : bestFeatureSplit s { node with histograms := h' } f k = bestFeatureSplit s node f k := by
      unfold bestFeatureSplit
      have := h 0 (by simp)
      rw [Nat.add_zero] at this
      dsimp only
      rw [this]
      simp only [bestFeatureLoop_copy s (show NodeCopy node { node with histograms := h' } from rfl)]
    have ih := fun g best => ih (k + 1) g best (fun i hi => by
      have := h (i + 1) (by simpa using hi)
      rwa [show k + 1 + i = k + (i + 1) by omega])
    simp only [bestSplitLoop, hf, ih]

/-- A last feature whose gain is that of an earlier one, or that offers no split, changes nothing. -/
theorem bestSplitLoop_last [Fl.OrdLaws F] (s : Splitter F) (node : SNode F D) (f : Nat) (l : List Nat) :
    ∀ k g best r o, bestSplitLoop s node l k g best = .ok r → bestFeatureSplit s node f (k + l.length) = .ok o →
      (∀ info, o = some info → (g <ᶠ info.splitGain) = false ∨
        ∃ i x y, l[i]? = some x ∧ bestFeatureSplit s node x (k + i) = .ok (some y) ∧
          y.splitGain = info.splitGain) →
      bestSplitLoop s node (l ++ [f]) k g best = .ok r := by
  induction l with
  | nil =>
    intro k g best r o h ho hi
    rw [List.nil_append, bestSplitLoop]
    rw [List.length_nil, Nat.add_zero] at ho
    rw [ho, Res.ok_bind]
    cases o with
    | none => exact h
    | some info =>
      dsimp only
      rcases hi info rfl with hg | ⟨i, x, y, hx, _⟩
      · rw [if_neg (by simp [hg])]; exact h
      · simp at hx
  | cons a l ih =>
    intro k g best r o h ho hi
    rw [bestSplitLoop] at h
    obtain ⟨q, hq, h⟩ := Res.bind_eq_ok.1 h
    rw [List.cons_append, bestSplitLoop, hq, Res.ok_bind]
    rw [List.length_cons, show k + (l.length + 1) = k + 1 + l.length by omega] at ho
    have step : ∀ g', (∀ info, o = some info → (g <ᶠ info.splitGain) = false → (g' <ᶠ info.splitGain) = false) →
        (∀ info y, o = some info → q = some y → y.splitGain = info.splitGain → (g' <ᶠ info.splitGain) = false) →
        ∀ info, o = some info → (g' <ᶠ info.splitGain) = false ∨
        ∃ i x y, l[i]? = some x ∧ bestFeatureSplit s node x (k + 1 + i) = .ok (some y) ∧
          y.splitGain = info.splitGain := by
      intro g' h1 h2 info he
      rcases hi info he with hg | ⟨i, x, y, hx, hy, e⟩
      · exact Or.inl (h1 info he hg)
      · cases i with
        | zero =>
          simp only [List.getElem?_cons_zero, Option.some.injEq] at hx
          subst hx
          rw [Nat.add_zero, hq] at hy
          injection hy with hy
          exact Or.inl (h2 info y he hy e)
        | succ i =>
          refine Or.inr ⟨i, x, y, by simpa using hx, ?_, e⟩
          rw [show k + 1 + i = k + (i + 1) by omega]; exact hy
    cases q with
    | none =>
      exact ih _ _ _ _ _ h ho (step g (fun _ _ h => h) (fun info y _ hy => by cases hy))
    | some b =>
      dsimp only at h ⊢
      split at h
      · rename_i hb
        rw [if_pos hb]
        refine ih _ _ _ _ _ h ho (step _ (fun info _ hg => ?_) (fun info y _ hy e => ?_))
        · cases hc : (b.splitGain <ᶠ info.splitGain)
          · rfl
          · rw [Fl.OrdLaws.lt_trans _ _ _ hb hc] at hg; cases hg
        · cases hy
          rw [e]; exact Fl.OrdLaws.lt_irrefl _
      · rename_i hb
        rw [if_neg hb]
        refine ih _ _ _ _ _ h ho (step _ (fun _ _ h => h) (fun info y _ hy e => ?_))
        cases hy
        rw [← e]; simpa using hb

/-- The same split, on another feature. -/
def SplitInfo.onFeature (f : Nat) (i : SplitInfo F D) : SplitInfo F D := { i with splitFeature := f }

theorem evalCandidate_feature (s : Splitter F) (node : SNode F D) (f f' : Nat) (ct : Option Constraint)
    (mb b : Bin F D) (i : Nat) (cg ch : F) {r : Option (SplitInfo F D)}
    (h : evalCandidate s node f ct mb b i cg ch = .ok r) :
    evalCandidate s node f' ct mb b i cg ch = .ok (r.map (SplitInfo.onFeature f')) := by
  unfold evalCandidate at h ⊢
  obtain ⟨q, hq, h⟩ := Res.bind_eq_ok.1 h
  refine Res.bind_eq_ok.2 ⟨q, hq, ?_⟩
  cases q with
  | none => injection h with h; rw [← h]; rfl
  | some q =>
    obtain ⟨l, r', m⟩ := q
    dsimp only at h ⊢
    split at h
    · rename_i hg; rw [if_pos hg]; injection h with h; rw [← h]; rfl
    · rename_i hg; rw [if_neg hg]; injection h with h; rw [← h]; rfl

theorem bestFeatureLoop_feature (s : Splitter F) (node : SNode F D) (f f' : Nat) (ct : Option Constraint)
    (mb : Bin F D) (l : List (Bin F D)) : ∀ i cg ch best r,
    bestFeatureLoop s node f ct mb l i cg ch best = .ok r →
    bestFeatureLoop s node f' ct mb l i cg ch (best.map (SplitInfo.onFeature f')) =
      .ok (r.map (SplitInfo.onFeature f')) := by
  induction l with
  | nil => intro i cg ch best r h; cases h; rfl
  | cons x l ih =>
    intro i cg ch best r h
    rw [bestFeatureLoop] at h ⊢
    obtain ⟨c, hc, h⟩ := Res.bind_eq_ok.1 h
    rw [evalCandidate_feature s node f f' ct mb x i cg ch hc, Res.ok_bind]
    have := ih _ _ _ _ _ h
    rw [← this]
    congr 1
    cases c with
    | none => rfl
    | some c =>
      cases best with
      | none => rfl
      | some b =>
        simp only [Option.map_some]
        rw [show (SplitInfo.onFeature f' b).splitGain = b.splitGain from rfl,
          show (SplitInfo.onFeature f' c).splitGain = c.splitGain from rfl]
        split <;> rfl

end Verif
