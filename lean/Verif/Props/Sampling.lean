import Verif.Proofs.Sampling
import Verif.Props.Histograms
import Verif.Props.Growth
import Verif.Spec.Sorting

/-!
# C32, C33: row and column sampling
-/

namespace Verif

open scoped Verif

set_option linter.unusedSectionVars false

variable {R F D : Type} [Fl F] [Fl D] [FlCast F D]

/-- **C32** (random sampling): the chosen and the excluded rows together are the rows, each once; both
keep the order; row number `j` of the index is chosen exactly when the `j`-th number drawn is below
`subsample`. -/
theorem C32_random (g : Rng R F D) (s : F) (r : R) (index chosen excluded : List Nat) (r' : R)
    (h : randomSample g s r index = (chosen, excluded, r')) :
    (chosen ++ excluded).Perm index ∧ chosen.Sublist index ∧ excluded.Sublist index ∧
    chosen = ((index.zip (draws g.genF r index.length)).filter fun p => p.2 <ᶠ s).map Prod.fst ∧
    excluded = ((index.zip (draws g.genF r index.length)).filter fun p => !(p.2 <ᶠ s)).map Prod.fst := by
  obtain ⟨h1, h2⟩ := randomSample_eq g s r index
  rw [h] at h1 h2
  simp only at h1 h2
  refine ⟨?_, ?_, ?_, h1, h2⟩
  · rw [h1, h2]; exact pickBy_perm _ _ _ (by rw [length_draws])
  · rw [h1]; exact pickBy_sublist _ _ _
  · rw [h2]; exact pickBy_sublist _ _ _

/-- **C32** (GOSS).  The sample consists of `top`, the `⌊a n⌋` rows of largest absolute gradient, and
of rows `extra` drawn from the others; no row occurs twice.  Gradients and hessians of the rows of
`extra` are multiplied by `(1 - a) / b`, all others stay as they are.  A row outside of `top` is drawn
when its number is below `⌊b n⌋ / (n - ⌊a n⌋)`. -/
theorem C32_goss [Fl.TotLaws F] {S : Sorter} (hS : S.Ok) {g : Rng R F D} {a b : D} {r r' : R}
    {index rows : List Nat} {grad hess grad' hess' : List F}
    (h : gossSample S g a b r index grad hess = .ok (rows, grad', hess', r')) :
    ∃ top extra rest : List Nat, rows = top ++ extra ∧ rows.Nodup ∧
      (top ++ rest).Perm (List.range index.length) ∧
      top.length = Fl.toNat (a * Fl.ofNat index.length) ∧
      (∀ i ∈ top, ∀ j ∈ rest, ∃ gi gj, grad[i]? = some gi ∧ grad[j]? = some gj ∧
        Fl.tle (Fl.abs gj) (Fl.abs gi) = true) ∧
      extra = ((rest.zip (draws g.genD r rest.length)).filter fun p =>
        p.2 <ᶠ (Fl.ofNat (Fl.toNat (b * Fl.ofNat index.length)) /
          (Fl.ofNat index.length - Fl.ofNat top.length))).map Prod.fst ∧
      grad'.length = grad.length ∧ hess'.length = hess.length ∧
      (∀ i ∈ extra, ∃ x y, grad[i]? = some x ∧ hess[i]? = some y ∧
        grad'[i]? = some (x * down ((1 - a) / b)) ∧ hess'[i]? = some (y * down ((1 - a) / b))) ∧
      ∀ i, i ∉ extra → grad'[i]? = grad[i]? ∧ hess'[i]? = hess[i]? := by
  obtain ⟨order, keys, k, u, s, h1, h2, h3, ⟨l, h4⟩, h5, h6, h7, h8, h9, h10, h11, h12, h13⟩ :=
    gossSample_parts hS h
  have hlen : order.length = index.length := by rw [h2.length_eq, List.length_range]
  have hnd : order.Nodup := h2.nodup_iff.2 List.nodup_range
  have hsub : rows.Sublist order := by
    rw [h8]
    conv => rhs; rw [← List.take_append_drop k order]
    rw [h9]
    exact (List.Sublist.refl _).append (pickBy_sublist _ _ _)
  refine ⟨order.take k, u, order.drop k, h8, hnd.sublist hsub, ?_, ?_, ?_, ?_, h10, h11, h12, h13⟩
  · rw [List.take_append_drop]; exact h2
  · rw [List.length_take, hlen, ← h5]; omega
  · have hpw : keys.Pairwise (fun p q => Fl.tle q.2 p.2 = true) := by
      rw [h4]
      exact hS.sorted _ _ (fun a _ b _ c _ e1 e2 => Fl.TotLaws.trans _ _ _ e2 e1)
        (fun a _ b _ => Fl.TotLaws.total _ _)
    intro i hi j hj
    rw [h1, ← List.map_take] at hi
    rw [h1, ← List.map_drop] at hj
    obtain ⟨p, hp, rfl⟩ := List.mem_map.1 hi
    obtain ⟨p', hp', rfl⟩ := List.mem_map.1 hj
    rw [← List.take_append_drop k keys, List.pairwise_append] at hpw
    have := hpw.2.2 p hp p' hp'
    obtain ⟨x, e1, e2⟩ := h3 p (List.mem_of_mem_take hp)
    obtain ⟨x', e1', e2'⟩ := h3 p' (List.mem_of_mem_drop hp')
    exact ⟨x, x', e1, e1', by rw [← e2, ← e2']; exact this⟩
  · rw [h9, List.length_drop, hlen, List.length_take, hlen, Nat.min_eq_left h6, ← h7]
    rfl

/-- **C32** (training): every tree is grown on distinct rows of the data. -/
theorem C32_fit {env : Env R F D} (hS : env.sorter.Ok) {b b' : Booster F D} {data : Matrix D}
    {y w : List D} {ev : Option (List (EvalSet D))}
    (h : b.fit env data y w ev = .ok (b', .ok ())) {t : Tree F D} (ht : t ∈ b'.trees) :
    ∃ cfg rows, Tree.fit cfg b.sampleMethod rows = .ok t ∧ rows.Nodup ∧ ∀ i ∈ rows, i < data.rows := by
  obtain ⟨binned, _, hts⟩ := Booster.fit_trees h
  obtain ⟨cfg, rows, hF⟩ := hts t ht
  obtain ⟨grad, hess, r1, r2, hs⟩ := hF.sample
  obtain ⟨h1, h2, _⟩ := sampleIndex_rows hS hs
  exact ⟨cfg, rows, hF.fit, h1, h2⟩

/-- **C33** (columns): each tree is grown with its own list of distinct columns in increasing order,
`⌊rate * cols⌋` of them (all when the rate is 1), and splits only on these. -/
theorem C33_columns {env : Env R F D} (hr : env.rng.Ok) {b b' : Booster F D} {data : Matrix D}
    {y w : List D} {ev : Option (List (EvalSet D))}
    (h : b.fit env data y w ev = .ok (b', .ok ())) {t : Tree F D} (ht : t ∈ b'.trees) :
    ∃ cols : List Nat, cols.Pairwise (· < ·) ∧ (∀ c ∈ cols, c < data.cols) ∧
      cols.length = (if b.colsampleBytree =ᶠ 1 then data.cols
        else min (Fl.toNat (Fl.ofNat data.cols * b.colsampleBytree)) data.cols) ∧
      ∀ n ∈ t.nodes, n.isLeaf = false → n.splitFeature ∈ cols := by
  obtain ⟨binned, _, hts⟩ := Booster.fit_trees h
  obtain ⟨cfg, rows, hF⟩ := hts t ht
  obtain ⟨r1, r2, hc⟩ := hF.columns
  obtain ⟨h1, h2, h3⟩ := sampleColumns_sorted hr hc
  exact ⟨_, h1, h2, h3, Tree.fit_features hF.fit⟩

theorem histAdd_length {feature : List Nat} {l : List (Nat × F × F)} :
    ∀ {h h' : List (Bin D D)}, Res.foldM' (histAdd feature) h l = .ok h' → h'.length = h.length := by
  induction l with
  | nil => intro h h' e; simp only [Res.foldM', Res.ok.injEq] at e; rw [e]
  | cons p l ih =>
    intro h h' e
    rw [Res.foldM'_cons, Res.bind_eq_ok] at e
    obtain ⟨h1, e1, e2⟩ := e
    rw [ih e2]
    simp only [histAdd, Res.bind_eq_ok, Res.ok.injEq] at e1
    obtain ⟨_, _, rfl⟩ := e1
    simp

theorem createFeatureHistogram_length {feature : List Nat} {cuts : List D} {sg sh : List F}
    {index : List Nat} {h : List (Bin F D)}
    (e : createFeatureHistogram feature cuts sg sh index = .ok h) : h.length = cuts.length := by
  unfold createFeatureHistogram at e
  split at e
  · cases e
  · simp only [Res.bind_eq_ok, Res.ok.injEq] at e
    obtain ⟨h1, e1, rfl⟩ := e
    rw [List.length_map, histAdd_length e1, List.length_cons, List.length_map, List.length_take]
    omega

theorem scanEnds_total {T : Type} {cuts : JaggedMatrix T} {cols : List Nat} :
    ∀ {s : Nat}, (∀ c ∈ cols, ∃ l, cuts.getCol c = .ok l) → ∃ e, scanEnds cuts s cols = .ok e := by
  induction cols with
  | nil => intro s _; exact ⟨[], rfl⟩
  | cons c cols ih =>
    intro s h
    obtain ⟨l, hl⟩ := h c (by simp)
    obtain ⟨e, he⟩ := ih (s := s + l.length) (fun c hc => h c (by simp [hc]))
    exact ⟨(s + l.length) :: e, by simp only [scanEnds, hl, Res.ok_bind, he]⟩

/-- **C33** (histograms): let `X` be binned into `bd`.  If the histograms of all columns can be built,
then so can those of the columns `cols`, and the histogram of each is the one built with all
columns. -/
theorem C33_histograms [Fl.OrdLaws D] {S : Sorter} {X : Matrix D} {w : List D} {nbins : Nat}
    {missing : D} {bd : BinnedData D} (hX : X.Shaped) (hw : X.rows ≤ w.length)
    (hb : binMatrix S X w nbins missing = .ok bd) {cols : List Nat} (hs : cols.Pairwise (· < ·))
    (hc : ∀ c ∈ cols, c < X.cols) {grad hess : List F} {rows : List Nat} {sort : Bool}
    {full : JaggedMatrix (Bin F D)}
    (h : histogramMatrix { data := bd.binned, rows := X.rows, cols := X.cols } bd.cuts grad hess rows
      (List.range X.cols) sort = .ok full) :
    ∃ m, histogramMatrix { data := bd.binned, rows := X.rows, cols := X.cols } bd.cuts grad hess rows
      cols sort = .ok m ∧
      ∀ (k col : Nat), cols[k]? = some col →
        ∃ hist, m.getCol k = .ok hist ∧ full.getCol col = .ok hist := by
  obtain ⟨sg, sh, hss, ends, e1, e2, e3, e4, rfl⟩ := histogramMatrix_form h
  have e3' := Res.mapM'_eq_ok.1 e3
  have hlen := e3'.length_eq
  rw [List.length_range] at hlen
  have hone : ∀ col < X.cols, ∃ hh, hss[col]? = some hh ∧ (do
        let f ← ({ data := bd.binned, rows := X.rows, cols := X.cols } : Matrix Nat).getCol col
        let c ← bd.cuts.getCol col
        createFeatureHistogram f c sg sh rows : Res (List (Bin F D))) = .ok hh := by
    intro col hcol
    have h1 : col < hss.length := by omega
    have := e3'.get (by simpa using hcol) h1
    simp only [List.get_eq_getElem, List.getElem_range] at this
    exact ⟨_, List.getElem?_eq_getElem h1, this⟩
  have hcut : ∀ col < X.cols, ∀ hh, hss[col]? = some hh → ∃ c, bd.cuts.getCol col = .ok c ∧ hh.length = c.length := by
    intro col hcol hh hget
    obtain ⟨hh', h1, h2⟩ := hone col hcol
    rw [hget] at h1; cases h1
    simp only [Res.bind_eq_ok] at h2
    obtain ⟨f, _, c, h3, h4⟩ := h2
    exact ⟨c, h3, createFeatureHistogram_length h4⟩
  -- the histograms of the sampled columns
  have hmap : ∃ hs', List.Forall₂ (fun col hh => hss[col]? = some hh) cols hs' := by
    clear e4 h hs
    induction cols with
    | nil => exact ⟨[], .nil⟩
    | cons c cols ih =>
      obtain ⟨hh, h1, _⟩ := hone c (hc c (by simp))
      obtain ⟨hs', h2⟩ := ih (fun c' h' => hc c' (by simp [h']))
      exact ⟨hh :: hs', .cons h1 h2⟩
  obtain ⟨hs', hf⟩ := hmap
  have hf2 : List.Forall₂ (fun col hh => (do
        let f ← ({ data := bd.binned, rows := X.rows, cols := X.cols } : Matrix Nat).getCol col
        let c ← bd.cuts.getCol col
        createFeatureHistogram f c sg sh rows : Res (List (Bin F D))) = .ok hh) cols hs' := by
    clear e4 h hs
    induction hf with
    | nil => exact .nil
    | cons h1 _ ih =>
      obtain ⟨hh, g1, g2⟩ := hone _ (hc _ (List.mem_cons_self ..))
      rw [h1] at g1; cases g1
      exact .cons g2 (ih fun c h' => hc c (by simp [h']))
  have hf3 : List.Forall₂ (fun col hh => ∃ c, bd.cuts.getCol col = .ok c ∧ hh.length = c.length)
      cols hs' := by
    clear e4 h hs hf2
    induction hf with
    | nil => exact .nil
    | cons h1 _ ih =>
      exact .cons (hcut _ (hc _ (List.mem_cons_self ..)) _ h1) (ih fun c h' => hc c (by simp [h']))
  have hends : ∃ ends', (if cols.length = X.cols then pure bd.cuts.ends
      else scanEnds bd.cuts 0 cols) = Res.ok ends' := by
    split
    · exact ⟨_, rfl⟩
    · refine scanEnds_total fun c hm => ?_
      obtain ⟨hh, h1, _⟩ := hone c (hc c hm)
      obtain ⟨l, h2, _⟩ := hcut c (hc c hm) hh h1
      exact ⟨l, h2⟩
  obtain ⟨ends', hends⟩ := hends
  have hlaid := trainOf_laid (F := F) (grad := grad) (hess := hess) hX hw hb hs hc
  have hJ : ∀ n k, Jagged hs' { data := hs'.flatten, ends := ends', cols := k, nRecords := n } :=
    fun n k => histogramMatrix_jagged (t := trainOf X bd grad hess cols) hlaid hf3 hends
  have hlaid0 := trainOf_laid (F := F) (grad := grad) (hess := hess) hX hw hb
    (List.pairwise_lt_range (n := X.cols)) (by simp)
  have hf0 : List.Forall₂ (fun col hh => ∃ c, bd.cuts.getCol col = .ok c ∧ hh.length = c.length)
      (List.range X.cols) hss := by
    rw [List.forall₂_iff_get]
    refine ⟨by rw [hlen, List.length_range], fun i h1 h2 => ?_⟩
    simp only [List.get_eq_getElem, List.getElem_range]
    exact hcut i (by simpa using h1) _ (List.getElem?_eq_getElem h2)
  have hJ0 : ∀ n k, Jagged hss { data := hss.flatten, ends := ends, cols := k, nRecords := n } :=
    fun n k => histogramMatrix_jagged (t := trainOf X bd grad hess (List.range X.cols)) hlaid0 hf0 e4
  obtain ⟨n, hn⟩ : ∃ n, n = if cols.length = X.cols then bd.cuts.nRecords else ends'.sum := ⟨_, rfl⟩
  refine ⟨{ data := hs'.flatten, ends := ends', cols := cols.length, nRecords := n }, ?_, ?_⟩
  · unfold histogramMatrix
    have fin : (do
      let hists ← Res.mapM' (fun col => do
        let f ← ({ data := bd.binned, rows := X.rows, cols := X.cols } : Matrix Nat).getCol col
        let c ← bd.cuts.getCol col
        createFeatureHistogram f c sg sh rows) cols
      let ends ← if cols.length = X.cols then pure bd.cuts.ends else scanEnds bd.cuts 0 cols
      let n := if cols.length = X.cols then bd.cuts.nRecords else ends.sum
      .ok { data := hists.flatten, ends, cols := cols.length, nRecords := n } :
        Res (JaggedMatrix (Bin F D))) =
        .ok { data := hs'.flatten, ends := ends', cols := cols.length, nRecords := n } := by
      rw [hn, Res.mapM'_eq_ok.2 hf2, Res.ok_bind]
      clear hn hJ
      split at hends
      · rename_i hcc
        simp only [Res.pure_def, Res.ok.injEq] at hends
        subst hends
        simp only [if_pos hcc, Res.pure_def, Res.ok_bind]
      · rename_i hcc
        simp only [if_neg hcc, hends, Res.ok_bind]
    cases sort with
    | true =>
      obtain ⟨a1, a2⟩ := e1 rfl
      rw [if_pos rfl, a1, Res.ok_bind, a2, Res.ok_bind, Res.pure_def, Res.ok_bind]
      exact fin
    | false =>
      obtain ⟨a1, a2⟩ := e2 rfl
      subst a1 a2
      rw [if_neg (by simp), Res.pure_def, Res.ok_bind]
      exact fin
  · intro k col hk
    have hkl := (List.getElem?_eq_some_iff.1 hk).1
    have hkl' : k < hs'.length := by rw [← hf.length_eq]; exact hkl
    have := hf.get hkl hkl'
    have hkc : cols.get ⟨k, hkl⟩ = col := by simpa using (List.getElem?_eq_some_iff.1 hk).2
    rw [hkc] at this
    refine ⟨hs'[k], ?_, ?_⟩
    · rw [(hJ _ _).getCol, List.getElem?_eq_getElem hkl']; rfl
    · rw [(hJ0 _ _).getCol, this]; rfl

/-! ## Examples -/

theorem exRng_ok : exRng.Ok where
  subperm _ l n := ⟨l.take n, .refl _, List.take_sublist n l⟩
  length _ l n := by simp [exRng, List.length_take]

/-- GOSS on six rows: two rows of largest gradient, one further row. -/
example : ∃ rows g h r', gossSample exSorter exRng (q (1/3)) (q (1/3)) 0 (List.range 6)
    [q 1, q (-4), q 2, q 3, FX.nan, q 0] (List.replicate 6 (q 1)) = .ok (rows, g, h, r') ∧
    2 < rows.length ∧ rows.length < 6 := by
  have : (match gossSample exSorter exRng (q (1/3)) (q (1/3)) 0 (List.range 6)
    [q 1, q (-4), q 2, q 3, FX.nan, q 0] (List.replicate 6 (q 1)) with
    | .ok (rows, _, _, _) => decide (2 < rows.length) && decide (rows.length < 6)
    | _ => false) = true := by decide +kernel
  split at this
  · rename_i rows g h r' e
    simp only [Bool.and_eq_true, decide_eq_true_eq] at this
    exact ⟨rows, g, h, r', e, this⟩
  · cases this

/-- Random sampling that chooses and excludes. -/
example : ∃ c e r', randomSample exRng (q (1/2)) 0 (List.range 6) = (c, e, r') ∧ c ≠ [] ∧ e ≠ [] :=
  ⟨_, _, _, rfl, by decide +kernel, by decide +kernel⟩

/-- A fit with one of two columns per tree and random rows. -/
example : ∃ b' : Booster Q Q, ({ exFresh with colsampleBytree := q (1/2), sampleMethod := .random, subsample := q (5/7) } : Booster Q Q).fit
      exEnv exX exY exW none = .ok (b', .ok ()) ∧ b'.trees ≠ [] ∧
    b'.trees.any (fun t => decide (1 < t.nodes.length)) = true := by
  have : (match ({ exFresh with colsampleBytree := q (1/2), sampleMethod := .random, subsample := q (5/7) } : Booster Q Q).fit
      exEnv exX exY exW none with
      | .ok (b', .ok ()) => b'.trees.any (fun t => decide (1 < t.nodes.length))
      | _ => false) = true := by decide +kernel
  split at this
  · rename_i b' h
    refine ⟨b', h, ?_, this⟩
    rintro e
    rw [e] at this; cases this
  · cases this

/-- Histograms over all columns exist. -/
example : ∃ bd full, binMatrix exSorter exX exW 8 FX.nan = .ok bd ∧ exX.Shaped ∧
    exX.rows ≤ exW.length ∧
    histogramMatrix (F := Q) { data := bd.binned, rows := exX.rows, cols := exX.cols } bd.cuts
      (List.replicate 6 (q 1)) (List.replicate 6 (q 1)) [0, 2, 3] (List.range exX.cols) true = .ok full := by
  have : (match binMatrix exSorter exX exW 8 FX.nan with
      | .ok bd => (match histogramMatrix (F := Q) { data := bd.binned, rows := exX.rows, cols := exX.cols } bd.cuts
      (List.replicate 6 (q 1)) (List.replicate 6 (q 1)) [0, 2, 3] (List.range exX.cols) true with
        | .ok _ => true | _ => false)
      | _ => false) = true := by decide +kernel
  split at this
  · rename_i bd hbd
    split at this
    · rename_i full hf
      exact ⟨bd, full, hbd, rfl, by decide, hf⟩
    · cases this
  · cases this

end Verif
