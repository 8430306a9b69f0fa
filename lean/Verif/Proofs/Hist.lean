import Verif.Model.Splitter
import Verif.Proofs.Jagged
import Verif.Proofs.Sum
import Mathlib.Algebra.BigOperators.Group.List.Basic
import Mathlib.Data.List.Perm.Basic
import Mathlib.Tactic.Ring

/-!
# Histograms in exact arithmetic
-/

namespace Verif

open scoped Verif

set_option linter.unusedSectionVars false

/-- Sum of a row quantity over the rows of a bin. -/
def binSum {K : Type} [Add K] [Zero K] (feature : List Nat) (gv : Nat → K) (rows : List Nat)
    (b : Nat) : K :=
  ((rows.filter fun r => feature[r]? = some b).map gv).sum

/-- The numbers of the list are finite, with these values. -/
def FinRows {K : Type} {m : Fmt K} (l : List (FX m)) (v : Nat → K) : Prop :=
  ∀ (r : Nat) (x : FX m), l[r]? = some x → x = FX.fin (v r)

/-- The cut column of a histogram. -/
def cutCol {D : Type} [Fl D] (cuts : List D) : List D := Fl.nan :: cuts.take (cuts.length - 1)

/-- A histogram with given sums. -/
def mkHist {K : Type} {m : Fmt K} {D : Type} (cs : List D) (S H : Nat → K) : List (Bin (FX m) D) :=
  cs.zipIdx.map fun p => { grad := FX.fin (S p.2), hess := FX.fin (H p.2), cut := p.1 }

section
variable {K : Type} [Field K] [LinearOrder K] {m32 m64 : Fmt K} [m32.Exact] [m64.Exact]

theorem length_mkHist {m : Fmt K} {D : Type} (cs : List D) (S H : Nat → K) :
    (mkHist (m := m) cs S H).length = cs.length := by simp [mkHist]

theorem getElem?_mkHist {m : Fmt K} {D : Type} (cs : List D) (S H : Nat → K) (b : Nat) :
    (mkHist (m := m) cs S H)[b]? =
      cs[b]?.map fun c => { grad := FX.fin (S b), hess := FX.fin (H b), cut := c } := by
  simp [mkHist, List.getElem?_zipIdx, Function.comp_def]

theorem mkHist_congr {m : Fmt K} {D : Type} (cs : List D) {S H S' H' : Nat → K}
    (hS : ∀ b < cs.length, S b = S' b) (hH : ∀ b < cs.length, H b = H' b) :
    mkHist (m := m) cs S H = mkHist cs S' H' := by
  apply List.ext_getElem?
  intro b
  rw [getElem?_mkHist, getElem?_mkHist]
  by_cases hb : b < cs.length
  · rw [hS b hb, hH b hb]
  · rw [List.getElem?_eq_none (by omega)]; rfl

theorem binSum_nil (feature : List Nat) (gv : Nat → K) (b : Nat) : binSum feature gv [] b = 0 := rfl

theorem binSum_cons (feature : List Nat) (gv : Nat → K) (r : Nat) (rows : List Nat) (b : Nat) :
    binSum feature gv (r :: rows) b =
      (if feature[r]? = some b then gv r else 0) + binSum feature gv rows b := by
  unfold binSum
  rw [List.filter_cons]
  by_cases h : feature[r]? = some b
  · simp [h]
  · simp [h]

theorem binSum_append (feature : List Nat) (gv : Nat → K) (a b : List Nat) (k : Nat) :
    binSum feature gv (a ++ b) k = binSum feature gv a k + binSum feature gv b k := by
  simp [binSum]

theorem binSum_perm {feature : List Nat} {gv : Nat → K} {a b : List Nat} (h : a.Perm b) (k : Nat) :
    binSum feature gv a k = binSum feature gv b k := by
  unfold binSum
  exact ((h.filter _).map _).sum_eq

theorem histAdd_mkHist {feature : List Nat} {cs : List (FX m64)} {S H : Nat → K} {r : Nat} {g h : K}
    {h' : List (Bin (FX m64) (FX m64))}
    (e : histAdd (F := FX m32) feature (mkHist cs S H) (r, FX.fin g, FX.fin h) = .ok h') :
    h' = mkHist cs (fun b => (if feature[r]? = some b then g else 0) + S b)
      (fun b => (if feature[r]? = some b then h else 0) + H b) := by
  simp only [histAdd, Res.bind_eq_ok, idx_eq_ok, Res.ok.injEq] at e
  obtain ⟨b, hb, rfl⟩ := e
  apply List.ext_getElem?
  intro k
  rw [List.getElem?_modify, getElem?_mkHist, getElem?_mkHist, hb]
  cases cs[k]? with
  | none => rfl
  | some c =>
    by_cases hk : b = k
    · subst hk
      simp [add_comm]
    · simp [hk]

theorem foldM'_histAdd {feature : List Nat} {cs : List (FX m64)} {gv hv : Nat → K} (rows : List Nat)
    {S H : Nat → K} {h' : List (Bin (FX m64) (FX m64))}
    (e : Res.foldM' (histAdd (F := FX m32) feature) (mkHist cs S H)
      (rows.map fun r => (r, FX.fin (gv r), FX.fin (hv r))) = .ok h') :
    h' = mkHist cs (fun b => S b + binSum feature gv rows b)
      (fun b => H b + binSum feature hv rows b) ∧ ∀ r ∈ rows, r < feature.length := by
  induction rows generalizing S H with
  | nil =>
    simp only [List.map_nil, Res.foldM', Res.ok.injEq] at e
    subst e
    exact ⟨mkHist_congr _ (by simp [binSum_nil]) (by simp [binSum_nil]), by simp⟩
  | cons r rows ih =>
    simp only [List.map_cons, Res.foldM'_cons, Res.bind_eq_ok] at e
    obtain ⟨h1, e1, e2⟩ := e
    have hr : r < feature.length := by
      simp only [histAdd, Res.bind_eq_ok] at e1
      obtain ⟨b, hb, _⟩ := e1
      exact lt_of_idx_eq_ok hb
    obtain rfl := histAdd_mkHist e1
    obtain ⟨rfl, h2⟩ := ih e2
    refine ⟨mkHist_congr _ (fun b _ => ?_) (fun b _ => ?_), ?_⟩
    · rw [binSum_cons]; ring
    · rw [binSum_cons]; ring
    · intro x hx
      rcases List.mem_cons.1 hx with rfl | hx
      · exact hr
      · exact h2 x hx

/-- The histogram of a column over a list of rows. -/
def colHist (feature : List Nat) (cuts : List (FX m64)) (gv hv : Nat → K) (rows : List Nat) :
    List (Bin (FX m32) (FX m64)) :=
  mkHist (cutCol cuts) (binSum feature gv rows) (binSum feature hv rows)

theorem colHist_perm {feature : List Nat} {cuts : List (FX m64)} {gv hv : Nat → K} {a b : List Nat}
    (h : a.Perm b) :
    colHist (m32 := m32) feature cuts gv hv a = colHist feature cuts gv hv b :=
  mkHist_congr _ (fun k _ => binSum_perm h k) (fun k _ => binSum_perm h k)

theorem createFeatureHistogram_eq {feature : List Nat} {cuts : List (FX m64)} {gv hv : Nat → K}
    {rows : List Nat} {h' : List (Bin (FX m32) (FX m64))}
    (e : createFeatureHistogram feature cuts (rows.map fun r => FX.fin (gv r))
      (rows.map fun r => FX.fin (hv r)) rows = .ok h') :
    h' = colHist feature cuts gv hv rows ∧ cuts ≠ [] ∧ ∀ r ∈ rows, r < feature.length := by
  unfold createFeatureHistogram at e
  split at e
  · cases e
  · rename_i hc
    simp only [Res.bind_eq_ok, Res.ok.injEq] at e
    obtain ⟨h1, e1, rfl⟩ := e
    have hz : ((rows.zip ((rows.map fun r => (FX.fin (gv r) : FX m32)).zip
        (rows.map fun r => (FX.fin (hv r) : FX m32)))).map fun p => (p.1, p.2.1, p.2.2)) =
        rows.map fun r => (r, FX.fin (gv r), FX.fin (hv r)) := by
      clear e1
      induction rows with
      | nil => rfl
      | cons r rows ih => simpa using ih
    have hi : (Bin.new Fl.nan :: (cuts.take (cuts.length - 1)).map Bin.new) =
        mkHist (m := m64) (cutCol cuts) (fun _ => 0) (fun _ => 0) := by
      have : ∀ l : List (FX m64), l.map Bin.new = mkHist l (fun _ => (0 : K)) (fun _ => 0) := by
        intro l
        apply List.ext_getElem?
        intro k
        rw [getElem?_mkHist, List.getElem?_map]
        rfl
      exact this (cutCol cuts)
    rw [hz, hi] at e1
    obtain ⟨rfl, hr⟩ := foldM'_histAdd rows e1
    refine ⟨?_, by rintro rfl; exact hc rfl, hr⟩
    apply List.ext_getElem?
    intro k
    rw [List.getElem?_map, getElem?_mkHist, colHist, getElem?_mkHist]
    cases (cutCol cuts)[k]? with
    | none => rfl
    | some c => simp [Bin.asF32]

theorem finRows_mapM {grad : List (FX m32)} {gv : Nat → K} (hg : FinRows grad gv) {index : List Nat}
    {g : List (FX m32)} (e : Res.mapM' (idx grad) index = .ok g) :
    g = index.map fun r => FX.fin (gv r) := by
  rw [Res.mapM'_eq_ok] at e
  induction e with
  | nil => rfl
  | cons h _ ih =>
    rw [idx_eq_ok] at h
    rw [List.map_cons, ih, hg _ _ h]

/-- The matrix of histograms holds, for each column in use, the histogram of these rows. -/
def HistOf (t : TrainData (FX m32) (FX m64)) (gv hv : Nat → K) (rows : List Nat)
    (m : JaggedMatrix (Bin (FX m32) (FX m64))) : Prop :=
  ∃ hs, Jagged hs m ∧ List.Forall₂ (fun col h => ∃ f c, t.data.getCol col = .ok f ∧
    t.cuts.getCol col = .ok c ∧ c ≠ [] ∧ h = colHist f c gv hv rows) t.colIndex hs

theorem HistOf.perm {t : TrainData (FX m32) (FX m64)} {gv hv : Nat → K} {rows rows' : List Nat}
    {m : JaggedMatrix (Bin (FX m32) (FX m64))} (h : HistOf t gv hv rows m) (hp : rows.Perm rows') :
    HistOf t gv hv rows' m := by
  obtain ⟨hs, hj, hf⟩ := h
  refine ⟨hs, hj, hf.imp ?_⟩
  rintro a b ⟨f, c, h1, h2, h3, rfl⟩
  exact ⟨f, c, h1, h2, h3, colHist_perm hp⟩

/-- The columns in use, and the layout of the cuts. -/
structure TrainData.Laid {F D : Type} (t : TrainData F D) : Prop where
  cuts : ∃ cutss, Jagged cutss t.cuts ∧ cutss.length = t.data.cols
  cols : t.colIndex.length = t.data.cols → t.colIndex = List.range t.data.cols

theorem length_colHist {f : List Nat} {c : List (FX m64)} {gv hv : Nat → K} {rows : List Nat}
    (hc : c ≠ []) : (colHist (m32 := m32) f c gv hv rows).length = c.length := by
  have := List.length_pos_iff.2 hc
  rw [colHist, length_mkHist, cutCol, List.length_cons, List.length_take]; omega

omit [Field K] [LinearOrder K] [m32.Exact] [m64.Exact] in
theorem scanEnds_eq {T : Type} {cuts : JaggedMatrix T} {s : Nat} {cols : List Nat} {ends : List Nat}
    (h : scanEnds cuts s cols = .ok ends) {T' : Type} {hs : List (List T')}
    (hh : List.Forall₂ (fun col h => ∀ c, cuts.getCol col = .ok c → h.length = c.length) cols hs) :
    ends = endsOf s hs := by
  induction hh generalizing s ends with
  | nil => simp only [scanEnds, Res.ok.injEq] at h; subst h; rfl
  | cons h1 _ ih =>
    simp only [scanEnds, Res.bind_eq_ok, Res.ok.injEq] at h
    obtain ⟨c, hc, r, hr, rfl⟩ := h
    rw [endsOf, h1 c hc, ih hr]

/-- Layout of the matrix of histograms. -/
theorem histogramMatrix_jagged {F D : Type} [Fl F] [Fl D] [FlCast F D] {t : TrainData F D}
    (hl : t.Laid) {hs : List (List (Bin F D))}
    (hh : List.Forall₂ (fun col h => ∃ c, t.cuts.getCol col = .ok c ∧ h.length = c.length)
      t.colIndex hs)
    {ends : List Nat} {n k : Nat}
    (he : (if t.colIndex.length = t.data.cols then pure t.cuts.ends
      else scanEnds t.cuts 0 t.colIndex) = Res.ok ends) :
    Jagged hs { data := hs.flatten, ends, cols := k, nRecords := n } := by
  refine ⟨rfl, ?_⟩
  change ends = endsOf 0 hs
  split at he
  · rename_i hc
    simp only [Res.pure_def, Res.ok.injEq] at he
    subst he
    obtain ⟨cutss, hj, hlen⟩ := hl.cuts
    rw [hj.ends_eq]
    apply endsOf_congr
    rw [hl.cols hc] at hh
    apply List.ext_getElem?
    intro i
    have hl2 := hh.length_eq
    rw [List.length_range] at hl2
    by_cases hi : i < t.data.cols
    · have h1 : i < hs.length := by omega
      obtain ⟨c, e1, e2⟩ := hh.get (by simpa using hi) h1
      simp only [List.get_eq_getElem, List.getElem_range] at e1 e2
      rw [hj.getCol, Res.ofOption_eq_ok] at e1
      rw [List.getElem?_map, e1, List.getElem?_map, List.getElem?_eq_getElem h1]
      simp [e2]
    · rw [List.getElem?_eq_none (by simp; omega), List.getElem?_eq_none (by simp; omega)]
  · refine scanEnds_eq he (hh.imp ?_)
    rintro a b ⟨c, e1, e2⟩ c' e'
    rw [e1] at e'; cases e'; exact e2

theorem histogramMatrix_histOf {t : TrainData (FX m32) (FX m64)} (hl : t.Laid) {gv hv : Nat → K}
    {rows : List Nat} {sg sh : List (FX m32)}
    (h1 : sg = rows.map fun r => FX.fin (gv r)) (h2 : sh = rows.map fun r => FX.fin (hv r))
    {hs : List (List (Bin (FX m32) (FX m64)))}
    (hm : Res.mapM' (fun col => do
      let f ← t.data.getCol col
      let c ← t.cuts.getCol col
      createFeatureHistogram f c sg sh rows) t.colIndex = .ok hs)
    {ends : List Nat} {n k : Nat}
    (he : (if t.colIndex.length = t.data.cols then pure t.cuts.ends
      else scanEnds t.cuts 0 t.colIndex) = Res.ok ends) :
    HistOf t gv hv rows { data := hs.flatten, ends, cols := k, nRecords := n } := by
  subst h1 h2
  rw [Res.mapM'_eq_ok] at hm
  have hm' : List.Forall₂ (fun col h => ∃ f c, t.data.getCol col = .ok f ∧
      t.cuts.getCol col = .ok c ∧ c ≠ [] ∧ h = colHist f c gv hv rows) t.colIndex hs := by
    refine hm.imp ?_
    intro col h e
    simp only [Res.bind_eq_ok] at e
    obtain ⟨f, hf, c, hc, e⟩ := e
    obtain ⟨e1, e2, _⟩ := createFeatureHistogram_eq e
    exact ⟨f, c, hf, hc, e2, e1⟩
  refine ⟨hs, histogramMatrix_jagged hl (hm'.imp ?_) he, hm'⟩
  rintro a b ⟨f, c, _, hc, hne, rfl⟩
  exact ⟨c, hc, length_colHist hne⟩

/-- What a successful `HistogramMatrix::new` computes. -/
theorem histogramMatrix_form {F D : Type} [Fl F] [Fl D] [FlCast F D] {data : Matrix Nat}
    {cuts : JaggedMatrix D} {grad hess : List F} {index colIndex : List Nat} {sort : Bool}
    {m : JaggedMatrix (Bin F D)}
    (h : histogramMatrix data cuts grad hess index colIndex sort = .ok m) :
    ∃ sg sh hs ends, (sort = true → Res.mapM' (idx grad) index = .ok sg ∧
        Res.mapM' (idx hess) index = .ok sh) ∧
      (sort = false → sg = grad ∧ sh = hess) ∧
      Res.mapM' (fun col => do
        let f ← data.getCol col
        let c ← cuts.getCol col
        createFeatureHistogram f c sg sh index) colIndex = .ok hs ∧
      (if colIndex.length = data.cols then pure cuts.ends
        else scanEnds cuts 0 colIndex) = Res.ok ends ∧
      m = { data := hs.flatten, ends, cols := colIndex.length,
            nRecords := if colIndex.length = data.cols then cuts.nRecords else ends.sum } := by
  have key : ∀ sg sh, (do
      let hists ← Res.mapM' (fun col => do
        let f ← data.getCol col
        let c ← cuts.getCol col
        createFeatureHistogram f c sg sh index) colIndex
      let ends ← if colIndex.length = data.cols then pure cuts.ends else scanEnds cuts 0 colIndex
      let n := if colIndex.length = data.cols then cuts.nRecords else ends.sum
      .ok { data := hists.flatten, ends, cols := colIndex.length, nRecords := n } :
        Res (JaggedMatrix (Bin F D))) = .ok m → ∃ hs ends, Res.mapM' (fun col => do
        let f ← data.getCol col
        let c ← cuts.getCol col
        createFeatureHistogram f c sg sh index) colIndex = .ok hs ∧
      (if colIndex.length = data.cols then pure cuts.ends
        else scanEnds cuts 0 colIndex) = Res.ok ends ∧
      m = { data := hs.flatten, ends, cols := colIndex.length,
            nRecords := if colIndex.length = data.cols then cuts.nRecords else ends.sum } := by
    intro sg sh h
    rw [Res.bind_eq_ok] at h
    obtain ⟨hs, h1, h⟩ := h
    split at h
    · rename_i hc
      simp only [Res.pure_def, Res.ok_bind, Res.ok.injEq] at h
      exact ⟨hs, _, h1, by rw [if_pos hc]; rfl, by rw [if_pos hc]; exact h.symm⟩
    · rename_i hc
      simp only [Res.bind_eq_ok, Res.ok.injEq] at h
      obtain ⟨ends, h2, h⟩ := h
      exact ⟨hs, ends, h1, by rw [if_neg hc]; exact h2, by rw [if_neg hc]; exact h.symm⟩
  unfold histogramMatrix at h
  cases sort with
  | true =>
    rw [if_pos rfl, Res.bind_eq_ok] at h
    obtain ⟨sg, e1, h⟩ := h
    rw [Res.bind_eq_ok] at h
    obtain ⟨sh, e2, h⟩ := h
    rw [Res.pure_def, Res.ok_bind] at h
    obtain ⟨hs, ends, k1, k2, k3⟩ := key sg sh h
    exact ⟨sg, sh, hs, ends, fun _ => ⟨e1, e2⟩, fun h => Bool.noConfusion h, k1, k2, k3⟩
  | false =>
    rw [if_neg (by simp), Res.pure_def, Res.ok_bind] at h
    obtain ⟨hs, ends, k1, k2, k3⟩ := key grad hess h
    exact ⟨grad, hess, hs, ends, fun h => Bool.noConfusion h, fun _ => ⟨rfl, rfl⟩, k1, k2, k3⟩

/-- Building a histogram succeeds when the parts do. -/
theorem histogramMatrix_intro {F D : Type} [Fl F] [Fl D] [FlCast F D] {data : Matrix Nat}
    {cuts : JaggedMatrix D} {grad hess : List F} {index colIndex : List Nat} {sg sh : List F}
    {hs : List (List (Bin F D))} {ends : List Nat}
    (h1 : Res.mapM' (idx grad) index = .ok sg) (h2 : Res.mapM' (idx hess) index = .ok sh)
    (h3 : Res.mapM' (fun col => do
        let f ← data.getCol col
        let c ← cuts.getCol col
        createFeatureHistogram f c sg sh index) colIndex = .ok hs)
    (h4 : (if colIndex.length = data.cols then pure cuts.ends
        else scanEnds cuts 0 colIndex) = Res.ok ends) :
    histogramMatrix data cuts grad hess index colIndex true = .ok
      { data := hs.flatten, ends, cols := colIndex.length
        nRecords := if colIndex.length = data.cols then cuts.nRecords else ends.sum } := by
  unfold histogramMatrix
  rw [if_pos rfl, h1, Res.ok_bind, h2, Res.ok_bind, Res.pure_def, Res.ok_bind]
  refine (congrArg (· >>= _) h3).trans ?_
  rw [Res.ok_bind]
  split at h4
  · rename_i hc
    rw [if_pos hc]
    simp only [Res.pure_def, Res.ok.injEq] at h4 ⊢
    subst h4; rfl
  · rename_i hc
    rw [if_neg hc, h4]; rfl

theorem createFeatureHistogram_ok_iff {F D : Type} [Fl F] [Fl D] [FlCast F D] {feature : List Nat}
    {cuts : List D} {sg sh : List F} {index : List Nat} (h1 : sg.length = index.length)
    (h2 : sh.length = index.length) :
    (∃ h, createFeatureHistogram feature cuts sg sh index = .ok h) ↔
      cuts ≠ [] ∧ ∀ r ∈ index, r < feature.length := by
  have key : ∀ (l : List (Nat × F × F)) (h : List (Bin D D)),
      (∃ h', Res.foldM' (histAdd feature) h l = .ok h') ↔ ∀ p ∈ l, p.1 < feature.length := by
    intro l
    induction l with
    | nil => intro h; exact ⟨fun _ => by simp, fun _ => ⟨h, rfl⟩⟩
    | cons p l ih =>
      intro h
      simp only [Res.foldM'_cons, List.forall_mem_cons]
      constructor
      · rintro ⟨h', e⟩
        rw [Res.bind_eq_ok] at e
        obtain ⟨h1, e1, e2⟩ := e
        refine ⟨?_, (ih h1).1 ⟨h', e2⟩⟩
        simp only [histAdd, Res.bind_eq_ok] at e1
        obtain ⟨b, hb, _⟩ := e1
        exact lt_of_idx_eq_ok hb
      · rintro ⟨e1, e2⟩
        simp only [histAdd, idx_of_lt e1, Res.ok_bind]
        exact (ih _).2 e2
  have hm : (∀ p ∈ ((index.zip (sg.zip sh)).map fun p => (p.1, p.2.1, p.2.2)),
      p.1 < feature.length) ↔ ∀ r ∈ index, r < feature.length := by
    have : index = (index.zip (sg.zip sh)).map Prod.fst := by
      rw [List.map_fst_zip]; rw [List.length_zip]; omega
    constructor
    · intro h r hr
      rw [this, List.mem_map] at hr
      obtain ⟨p, hp, rfl⟩ := hr
      exact h (p.1, p.2.1, p.2.2) (List.mem_map.2 ⟨p, hp, rfl⟩)
    · intro h p hp
      rw [List.mem_map] at hp
      obtain ⟨p', hp', rfl⟩ := hp
      exact h _ (by rw [this]; exact List.mem_map.2 ⟨p', hp', rfl⟩)
  unfold createFeatureHistogram
  split
  · rename_i hc
    constructor
    · rintro ⟨h, e⟩; cases e
    · rintro ⟨h, _⟩; exact absurd (List.length_eq_zero_iff.1 hc) h
  · rename_i hc
    have hc' : cuts ≠ [] := fun h => hc (by rw [h]; rfl)
    constructor
    · rintro ⟨h, e⟩
      simp only [Res.bind_eq_ok, Res.ok.injEq] at e
      obtain ⟨h1, e1, _⟩ := e
      exact ⟨hc', hm.1 ((key _ _).1 ⟨h1, e1⟩)⟩
    · rintro ⟨_, e⟩
      obtain ⟨h1, e1⟩ := (key _ (Bin.new Fl.nan :: (cuts.take (cuts.length - 1)).map Bin.new)).2
        (hm.2 e)
      refine ⟨h1.map Bin.asF32, ?_⟩
      simp only [e1, Res.ok_bind]

/-- A histogram of all rows makes those of fewer rows possible. -/
theorem histRows_total {F D : Type} [Fl F] [Fl D] [FlCast F D] {data : Matrix Nat}
    {cuts : JaggedMatrix D} {grad hess : List F} {rows r colIndex : List Nat} {sort : Bool}
    {m : JaggedMatrix (Bin F D)}
    (h : histogramMatrix data cuts grad hess rows colIndex sort = .ok m)
    (hs : sort = false → rows.length = grad.length ∧ rows.length = hess.length ∧
      ∀ x ∈ rows, x < grad.length) (hr : r ⊆ rows) :
    ∃ m', histogramMatrix data cuts grad hess r colIndex true = .ok m' ∧ m'.ends = m.ends ∧
      m'.cols = m.cols ∧ m'.nRecords = m.nRecords := by
  obtain ⟨sg, sh, hss, ends, h1, h2, h3, h4, rfl⟩ := histogramMatrix_form h
  have hlen : sg.length = rows.length ∧ sh.length = rows.length ∧
      ∀ x ∈ rows, x < grad.length ∧ x < hess.length := by
    cases sort with
    | true =>
      obtain ⟨e1, e2⟩ := h1 rfl
      rw [Res.mapM'_eq_ok] at e1 e2
      refine ⟨e1.length_eq.symm, e2.length_eq.symm, fun x hx => ?_⟩
      obtain ⟨i, hi, rfl⟩ := List.getElem_of_mem hx
      have := e1.get hi (by rw [← e1.length_eq]; exact hi)
      have := e2.get hi (by rw [← e2.length_eq]; exact hi)
      exact ⟨lt_of_idx_eq_ok ‹idx grad _ = _›, lt_of_idx_eq_ok ‹idx hess _ = _›⟩
    | false =>
      obtain ⟨rfl, rfl⟩ := h2 rfl
      obtain ⟨a, b, c⟩ := hs rfl
      exact ⟨a.symm, b.symm, fun x hx => ⟨c x hx, by have := c x hx; omega⟩⟩
  obtain ⟨l1, l2, l3⟩ := hlen
  obtain ⟨sg', e1⟩ := Res.mapM'_exists (f := idx grad) (l := r)
    fun a ha => ⟨_, idx_of_lt (l3 a (hr ha)).1⟩
  obtain ⟨sh', e2⟩ := Res.mapM'_exists (f := idx hess) (l := r)
    fun a ha => ⟨_, idx_of_lt (l3 a (hr ha)).2⟩
  have f1 := (Res.mapM'_eq_ok.1 e1).length_eq
  have f2 := (Res.mapM'_eq_ok.1 e2).length_eq
  obtain ⟨hs', e3⟩ := Res.mapM'_exists (f := fun col => do
        let f ← data.getCol col
        let c ← cuts.getCol col
        createFeatureHistogram f c sg' sh' r) (l := colIndex) (by
    intro col hcol
    rw [Res.mapM'_eq_ok] at h3
    obtain ⟨i, hi, rfl⟩ := List.getElem_of_mem hcol
    have := h3.get hi (by rw [← h3.length_eq]; exact hi)
    simp only [List.get_eq_getElem, Res.bind_eq_ok] at this
    obtain ⟨f, g1, c, g2, g3⟩ := this
    obtain ⟨g4, g5⟩ := (createFeatureHistogram_ok_iff l1 l2).1 ⟨_, g3⟩
    obtain ⟨h', g6⟩ := (createFeatureHistogram_ok_iff (cuts := c) (feature := f) f1.symm f2.symm).2
      ⟨g4, fun x hx => g5 x (hr hx)⟩
    exact ⟨h', by rw [g1, Res.ok_bind, g2, Res.ok_bind, g6]⟩)
  exact ⟨_, histogramMatrix_intro e1 e2 e3 h4, rfl, rfl, rfl⟩

theorem HistOf.ext {t : TrainData (FX m32) (FX m64)} {gv hv : Nat → K} {rows : List Nat}
    {m m' : JaggedMatrix (Bin (FX m32) (FX m64))} (h : HistOf t gv hv rows m)
    (h' : HistOf t gv hv rows m') (hc : m.cols = m'.cols) (hn : m.nRecords = m'.nRecords) :
    m = m' := by
  obtain ⟨hs, j, f⟩ := h
  obtain ⟨hs', j', f'⟩ := h'
  have : hs = hs' := by
    clear j j'
    generalize t.colIndex = ci at f f'
    induction f generalizing hs' with
    | nil => cases f'; rfl
    | cons h _ ih =>
      cases f' with
      | cons h' h'' =>
        obtain ⟨f, c, e1, e2, e3, rfl⟩ := h
        obtain ⟨f', c', e1', e2', e3', rfl⟩ := h'
        rw [e1] at e1'; cases e1'
        rw [e2] at e2'; cases e2'
        rw [ih _ h'']
  subst this
  cases m; cases m'
  have := j.data_eq; have := j'.data_eq; have := j.ends_eq; have := j'.ends_eq
  simp_all

/-- The histograms of a list of rows. -/
theorem histRows_histOf {t : TrainData (FX m32) (FX m64)} (hl : t.Laid) {gv hv : Nat → K}
    (hg : FinRows t.grad gv) (hh : FinRows t.hess hv) {rows : List Nat}
    {m : JaggedMatrix (Bin (FX m32) (FX m64))}
    (h : histogramMatrix t.data t.cuts t.grad t.hess rows t.colIndex true = .ok m) :
    HistOf t gv hv rows m := by
  obtain ⟨sg, sh, hs, ends, h1, _, hm, he, rfl⟩ := histogramMatrix_form h
  obtain ⟨h1, h2⟩ := h1 rfl
  exact histogramMatrix_histOf hl (finRows_mapM hg h1) (finRows_mapM hh h2) hm he

omit [Field K] [LinearOrder K] [m32.Exact] in
theorem FinRows.eq_range {grad : List (FX m32)} {gv : Nat → K} (hg : FinRows grad gv) :
    grad = (List.range grad.length).map fun r => FX.fin (gv r) := by
  apply List.ext_getElem?
  intro i
  rw [List.getElem?_map]
  by_cases hi : i < grad.length
  · rw [List.getElem?_range hi, Option.map_some, List.getElem?_eq_getElem hi,
      hg i _ (List.getElem?_eq_getElem hi)]
  · rw [List.getElem?_eq_none (by omega), List.getElem?_eq_none (by simp; omega)]; rfl

/-- The histograms of all rows, computed without gathering. -/
theorem histAll_histOf {t : TrainData (FX m32) (FX m64)} (hl : t.Laid) {gv hv : Nat → K}
    (hg : FinRows t.grad gv) (hh : FinRows t.hess hv) {n : Nat} (hgl : t.grad.length = n)
    (hhl : t.hess.length = n) {m : JaggedMatrix (Bin (FX m32) (FX m64))}
    (h : histogramMatrix t.data t.cuts t.grad t.hess (List.range n) t.colIndex false = .ok m) :
    HistOf t gv hv (List.range n) m := by
  obtain ⟨sg, sh, hs, ends, _, h1, hm, he, rfl⟩ := histogramMatrix_form h
  obtain ⟨rfl, rfl⟩ := h1 rfl
  exact histogramMatrix_histOf hl (by rw [← hgl]; exact hg.eq_range) (by rw [← hhl]; exact hh.eq_range)
    hm he

omit [Field K] [LinearOrder K] [m32.Exact] [m64.Exact] in
theorem zipWith_flatten {α β γ : Type} (f : α → β → γ) (as : List (List α)) (bs : List (List β))
    (h : List.Forall₂ (fun a b => a.length = b.length) as bs) :
    List.zipWith f as.flatten bs.flatten = (List.zipWith (List.zipWith f) as bs).flatten := by
  induction h with
  | nil => rfl
  | cons h _ ih => simp [List.zipWith_append h, ih]

theorem forall₂_two {α β γ : Type} {R : α → β → Prop} {S : α → γ → Prop} {as : List α} {bs : List β}
    {cs : List γ} (h1 : List.Forall₂ R as bs) (h2 : List.Forall₂ S as cs) :
    List.Forall₂ (fun b c => ∃ a, R a b ∧ S a c) bs cs := by
  induction h1 generalizing cs with
  | nil => cases h2; exact .nil
  | cons h _ ih =>
    cases h2 with
    | cons h' h'' => exact .cons ⟨_, h, h'⟩ (ih h'')

theorem forall₂_zipWith {α β γ δ : Type} {R : α → β → Prop} {S : α → γ → Prop} {T : α → δ → Prop}
    {f : β → γ → δ} {as : List α} {bs : List β} {cs : List γ} (h1 : List.Forall₂ R as bs)
    (h2 : List.Forall₂ S as cs) (h : ∀ a b c, R a b → S a c → T a (f b c)) :
    List.Forall₂ T as (List.zipWith f bs cs) := by
  induction h1 generalizing cs with
  | nil => cases h2; exact .nil
  | cons hr _ ih =>
    cases h2 with
    | cons h' h'' => exact .cons (h _ _ _ hr h') (ih h'')

theorem zipWith_mkHist {m : Fmt K} [m.Exact] {D : Type} (cs : List D) (S H S' H' : Nat → K) :
    List.zipWith Bin.fromParentChild (mkHist (m := m) cs S H) (mkHist cs S' H') =
      mkHist cs (fun b => S b - S' b) (fun b => H b - H' b) := by
  apply List.ext_getElem?
  intro k
  rw [List.getElem?_zipWith, getElem?_mkHist, getElem?_mkHist, getElem?_mkHist]
  cases cs[k]? with
  | none => rfl
  | some c => simp [Bin.fromParentChild]

theorem zipWith_mkHist2 {m : Fmt K} [m.Exact] {D : Type} (cs : List D) (S H S' H' S'' H'' : Nat → K) :
    List.zipWith (fun r p => Bin.fromParentTwoChildren r p.1 p.2) (mkHist (m := m) cs S H)
        ((mkHist (m := m) cs S' H').zip (mkHist cs S'' H'')) =
      mkHist cs (fun b => S b - (S' b + S'' b)) (fun b => H b - (H' b + H'' b)) := by
  apply List.ext_getElem?
  intro k
  rw [List.getElem?_zipWith, List.zip, List.getElem?_zipWith, getElem?_mkHist, getElem?_mkHist,
    getElem?_mkHist, getElem?_mkHist]
  cases cs[k]? with
  | none => rfl
  | some c => simp [Bin.fromParentTwoChildren]

/-- Subtracting the histograms of one part gives those of the rest. -/
theorem HistOf.sub {t : TrainData (FX m32) (FX m64)} {gv hv : Nat → K} {rows l r : List Nat}
    {P C : JaggedMatrix (Bin (FX m32) (FX m64))} (hP : HistOf t gv hv rows P)
    (hC : HistOf t gv hv l C) (hp : rows.Perm (l ++ r)) :
    HistOf t gv hv r (histFromParentChild P C) := by
  obtain ⟨ps, jp, fp⟩ := hP
  obtain ⟨cs, jc, fc⟩ := hC
  have hlen : List.Forall₂ (fun (a : List (Bin (FX m32) (FX m64))) b => a.length = b.length) ps cs := by
    refine (forall₂_two fp fc).imp ?_
    rintro a b ⟨col, ⟨f, c, h1, h2, h3, rfl⟩, ⟨f', c', h1', h2', h3', rfl⟩⟩
    rw [h2] at h2'; cases h2'
    rw [length_colHist h3, length_colHist h3]
  refine ⟨List.zipWith (List.zipWith Bin.fromParentChild) ps cs, ⟨?_, ?_⟩, ?_⟩
  · simp only [histFromParentChild]
    rw [jp.data_eq, jc.data_eq, zipWith_flatten _ _ _ hlen]
  · simp only [histFromParentChild]
    rw [jc.ends_eq]
    apply endsOf_congr
    clear jp jc fp fc
    induction hlen with
    | nil => rfl
    | cons h _ ih => simp [ih, h]
  · refine forall₂_zipWith fp fc ?_
    rintro col a b ⟨f, c, h1, h2, h3, rfl⟩ ⟨f', c', h1', h2', h3', rfl⟩
    rw [h2] at h2'; cases h2'
    rw [h1] at h1'; cases h1'
    refine ⟨f, c, h1, h2, h3, ?_⟩
    rw [colHist, colHist, zipWith_mkHist]
    refine mkHist_congr _ (fun b _ => ?_) (fun b _ => ?_) <;>
    · rw [binSum_perm hp, binSum_append]; ring

/-- Subtracting the histograms of two parts gives those of the rest. -/
theorem HistOf.sub2 {t : TrainData (FX m32) (FX m64)} {gv hv : Nat → K} {rows l l' r : List Nat}
    {P C C' : JaggedMatrix (Bin (FX m32) (FX m64))} (hP : HistOf t gv hv rows P)
    (hC : HistOf t gv hv l C) (hC' : HistOf t gv hv l' C') (hp : rows.Perm (l ++ (l' ++ r))) :
    HistOf t gv hv r (histFromParentTwoChildren P C C') := by
  obtain ⟨ps, jp, fp⟩ := hP
  obtain ⟨cs, jc, fc⟩ := hC
  obtain ⟨ds, jd, fd⟩ := hC'
  have hl1 : List.Forall₂ (fun (a : List (Bin (FX m32) (FX m64))) b => a.length = b.length) ps cs := by
    refine (forall₂_two fp fc).imp ?_
    rintro a b ⟨col, ⟨f, c, h1, h2, h3, rfl⟩, ⟨f', c', h1', h2', h3', rfl⟩⟩
    rw [h2] at h2'; cases h2'
    rw [length_colHist h3, length_colHist h3]
  have hl2 : List.Forall₂ (fun (a : List (Bin (FX m32) (FX m64))) b => a.length = b.length) cs ds := by
    refine (forall₂_two fc fd).imp ?_
    rintro a b ⟨col, ⟨f, c, h1, h2, h3, rfl⟩, ⟨f', c', h1', h2', h3', rfl⟩⟩
    rw [h2] at h2'; cases h2'
    rw [length_colHist h3, length_colHist h3]
  have hz : cs.flatten.zip ds.flatten = (List.zipWith List.zip cs ds).flatten := by
    exact zipWith_flatten _ _ _ hl2
  have hl3 : List.Forall₂ (fun (a : List (Bin (FX m32) (FX m64))) b => a.length = b.length) ps
      (List.zipWith List.zip cs ds) := by
    clear jp jc jd fp fc fd hz
    induction hl1 generalizing ds with
    | nil => cases hl2; exact .nil
    | cons h _ ih =>
      cases hl2 with
      | cons h' h'' => exact .cons (by simp [h, h']) (ih _ h'')
  refine ⟨List.zipWith (List.zipWith fun r p => Bin.fromParentTwoChildren r p.1 p.2) ps
    (List.zipWith List.zip cs ds), ⟨?_, ?_⟩, ?_⟩
  · simp only [histFromParentTwoChildren]
    rw [jp.data_eq, jc.data_eq, jd.data_eq, hz, zipWith_flatten _ _ _ hl3]
  · simp only [histFromParentTwoChildren]
    rw [jc.ends_eq]
    apply endsOf_congr
    clear jp jc jd fp fc fd hz hl3
    induction hl1 generalizing ds with
    | nil => cases hl2; rfl
    | cons h _ ih =>
      cases hl2 with
      | cons h' h'' => simp [ih _ h'', h, h']
  · refine forall₂_zipWith (S := fun col p => ∃ f c, t.data.getCol col = .ok f ∧
      t.cuts.getCol col = .ok c ∧ c ≠ [] ∧
      p = (colHist f c gv hv l).zip (colHist f c gv hv l')) fp
      (forall₂_zipWith fc fd ?_) ?_
    · rintro col a b ⟨f, c, h1, h2, h3, rfl⟩ ⟨f', c', h1', h2', h3', rfl⟩
      rw [h2] at h2'; cases h2'
      rw [h1] at h1'; cases h1'
      exact ⟨f, c, h1, h2, h3, rfl⟩
    · rintro col a b ⟨f, c, h1, h2, h3, rfl⟩ ⟨f', c', h1', h2', h3', rfl⟩
      rw [h2] at h2'; cases h2'
      rw [h1] at h1'; cases h1'
      refine ⟨f, c, h1, h2, h3, ?_⟩
      rw [colHist, colHist, colHist, zipWith_mkHist2]
      refine mkHist_congr _ (fun b _ => ?_) (fun b _ => ?_) <;>
      · rw [binSum_perm hp, binSum_append, binSum_append]; ring

end

end Verif
