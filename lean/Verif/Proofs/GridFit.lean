import Verif.Proofs.GridTree
import Verif.Proofs.Rounds
import Verif.Proofs.Fitted

/-!
# Trees fitted in rounding arithmetic on weights that are multiples of a unit
-/

namespace Verif

open scoped Verif

set_option linter.unusedSectionVars false

section
variable {K : Type} [Field K] [LinearOrder K] [IsStrictOrderedRing K] {m : Fmt K} {u : K} {N : Nat}

/-- The weights of the kept values. -/
theorem kept_grid (hu : 0 < u) {col : List (FX m)} {w : List K} (p : FX m × FX m → Bool)
    (hw : ∀ x ∈ w, Mult u x) (hg : OnGrid u N w.sum) :
    ∃ ws : List K, ((col.zip (w.map (FX.fin : K → FX m))).filter p).map Prod.snd = ws.map FX.fin ∧
      (∀ x ∈ ws, Mult u x) ∧ OnGrid u N ws.sum := by
  have hgen : ∀ (col : List (FX m)) (w : List K), (∀ x ∈ w, Mult u x) →
      ∃ ws : List K, ((col.zip (w.map (FX.fin : K → FX m))).filter p).map Prod.snd = ws.map FX.fin ∧
        (∀ x ∈ ws, Mult u x) ∧ ws.sum ≤ w.sum := by
    intro col
    induction col with
    | nil => exact fun w hw => ⟨[], by simp, by simp, by simpa using (Mult.sum hw).nonneg hu⟩
    | cons v col ih =>
      intro w hw
      cases w with
      | nil => exact ⟨[], by simp, by simp, by simp⟩
      | cons a w =>
        have ha := hw a (by simp)
        obtain ⟨ws, e1, e2, e3⟩ := ih w fun x hx => hw x (by simp [hx])
        rw [List.map_cons, List.zip_cons_cons, List.filter_cons]
        split
        · refine ⟨a :: ws, by simp [e1], ?_, by simpa using e3⟩
          intro x hx
          rcases List.mem_cons.1 hx with e | hx
          · rw [e]; exact ha
          · exact e2 x hx
        · refine ⟨ws, e1, e2, ?_⟩
          rw [List.sum_cons]
          have := ha.nonneg hu
          linarith
  obtain ⟨ws, e1, e2, e3⟩ := hgen col w hw
  exact ⟨ws, e1, e2, (Mult.sum e2).onGrid hu e3 hg⟩

/-- With a total weight of zero no level is reached, in any format. -/
theorem pctLoop_zero_any {last : FX m} : ∀ (l : List (FX m × FX m)) (cv cuml : FX m)
    (pcts p : List (FX m)), (∀ x ∈ l, x.2 = FX.fin 0) →
    pctLoop (FX.fin 0) last l cv cuml (FX.fin 0) pcts p = p := by
  intro l
  induction l with
  | nil => intro _ _ _ _ _; rfl
  | cons vw l ih =>
    obtain ⟨v, w⟩ := vw
    intro cv cuml pcts p hl
    have hw : w = FX.fin 0 := hl (v, w) (by simp)
    subst hw
    have hn : cuml + (FX.fin 0 : FX m) / FX.fin 0 = FX.nan := by
      have : (FX.fin 0 : FX m) / FX.fin 0 = FX.nan := by
        change FX.div (FX.fin 0) (FX.fin 0) = _
        simp [FX.div, FX.sinf]
      rw [this]
      cases cuml <;> rfl
    unfold pctLoop
    simp only [hn]
    rw [if_pos (by show (decide ((0 : K) = 0) || _) = true; simp)]
    cases pcts with
    | nil =>
      have : pctWhile (FX.nan : FX m) (if (cv =ᶠ v) = true then cv else v) (FX.fin 0) [] p =
          (p, some (FX.fin 0, [])) := rfl
      rw [this]
      exact ih _ _ _ _ fun x hx => hl x (by simp [hx])
    | cons a b =>
      have : pctWhile (FX.nan : FX m) (if (cv =ᶠ v) = true then cv else v) (FX.fin 0) (a :: b) p =
          (p, some (FX.fin 0, a :: b)) := rfl
      rw [this]
      exact ih _ _ _ _ fun x hx => hl x (by simp [hx])

variable [hm : m.Rounds]

/-- A rounded number that is not negative. -/
theorem rd_nonneg {x : K} (hx : 0 ≤ x) : (∃ y, 0 ≤ y ∧ (FX.rd x : FX m) = FX.fin y) ∨
    (FX.rd x : FX m) = FX.pinf := by
  have := hm.mono hx
  rw [hm.zero] at this
  unfold FX.rd
  cases h : m.rnd x with
  | fin y => rw [h] at this; exact .inl ⟨y, this, rfl⟩
  | pinf => exact .inr rfl
  | ninf => rw [h] at this; exact this.elim

/-- The first level is zero. -/
theorem level_zero (h1 : m.Repr 1) {nbins : Nat} (hnb : nbins ≠ 0) :
    (Fl.ofNat 0 / Fl.ofNat nbins : FX m) = FX.fin 0 := by
  have e0 : (Fl.ofNat 0 : FX m) = FX.fin 0 := by
    show FX.rd ((0 : Nat) : K) = _
    rw [Nat.cast_zero, FX.rd, hm.zero]; rfl
  rw [e0]
  have hge : (1 : K) ≤ (nbins : K) := by exact_mod_cast Nat.one_le_iff_ne_zero.2 hnb
  have := hm.mono hge
  rw [show m.rnd 1 = .fin 1 from h1] at this
  show FX.div (FX.fin 0) (FX.rd (nbins : K)) = _
  unfold FX.rd
  cases h : m.rnd (nbins : K) with
  | fin y =>
    rw [h] at this
    have hy : (1 : K) ≤ y := this
    have hy0 : y ≠ 0 := by intro e; rw [e] at hy; linarith
    simp [FX.ofRV, FX.div, hy0, FX.rd, hm.zero]
  | pinf => rfl
  | ninf => rw [h] at this; exact this.elim

/-- If the column has a cut besides the final one, the first is not above any value. -/
theorem first_cut_grid (hu : 0 < u) (G : m.Grid u N) (h1 : m.Repr 1) {S : Sorter} (hS : S.Ok)
    {col : List (FX m)} {w : List K} {nbins : Nat}
    {missing : FX m} {cuts : List (FX m)} (hlen : col.length ≤ w.length) (hw : ∀ x ∈ w, Mult u x)
    (hg : OnGrid u N w.sum)
    (h : colCuts S col (w.map FX.fin) nbins missing = .ok cuts) (h2 : 2 ≤ cuts.length) :
    ∃ c0, cuts[0]? = some c0 ∧ ∀ v ∈ col, ¬ IsMissing missing v → (c0 ≤ᶠ v) = true := by
  have hlen' : col.length ≤ (w.map (FX.fin : K → FX m)).length := by simpa using hlen
  obtain ⟨ws, hws, hwm, hwg⟩ := kept_grid hu (col := col) (fun x => !decide (IsMissing missing x.1)) hw hg
  have hws0 : ∀ x ∈ ws, 0 ≤ x := fun x hx => (hwm x hx).nonneg hu
  have hsum : fastSum (((col.zip (w.map (FX.fin : K → FX m))).filter
      fun x => !decide (IsMissing missing x.1)).map Prod.snd) = (FX.fin ws.sum : FX m) := by
    rw [hws]; exact G.fastSum hu hwm hwg
  rcases (List.sum_nonneg hws0).lt_or_eq with hpos | hzero
  · refine colCuts_first hS hlen' h fun hnb x hx => ?_
    have hx2 : x.2 ∈ ws.map (FX.fin : K → FX m) := hws ▸ List.mem_map.2 ⟨x, hx, rfl⟩
    obtain ⟨q, hq, e⟩ := List.mem_map.1 hx2
    rw [level_zero h1 hnb, hsum, ← e]
    have hdiv : (FX.fin q / FX.fin ws.sum : FX m) = FX.rd (q / ws.sum) := by
      show FX.div (FX.fin q) (FX.fin ws.sum) = _
      simp [FX.div, hpos.ne']
    rw [hdiv, FX.zero_def]
    rcases rd_nonneg (m := m) (div_nonneg (hws0 q hq) hpos.le) with ⟨y, hy, e1⟩ | e1
    · rw [e1]
      show (FX.fin 0 ≤ᶠ (FX.rd (0 + y) : FX m)) = true
      rcases rd_nonneg (m := m) (show 0 ≤ 0 + y by rw [zero_add]; exact hy) with ⟨z, hz, e2⟩ | e2
      · rw [e2, FX.le_fin]; exact decide_eq_true hz
      · rw [e2]; rfl
    · rw [e1]; rfl
  · obtain ⟨h1', ws', c, hws', hc, rfl⟩ := colCuts_form hlen' h
    have hn : ∀ a ∈ present missing col, isNaN a = false := fun a ha =>
      num_of_not_missing (h1' a (mem_present.1 ha).1) (mem_present.1 ha).2
    rw [← List.head?_eq_getElem?, dedup_head?]
    obtain ⟨s, k1, k2, k3⟩ := sortPartialCmp_spec hS (id : FX m → FX m) _ hn
    unfold percentilesOrValue at hc
    rw [k1, Res.ok_bind] at hc
    simp only at hc
    split at hc
    · injection hc with hc
      subst hc
      cases s with
      | nil =>
        exfalso
        simp [dedupF, dedupF.go] at h2
      | cons a l =>
        refine ⟨a, by simp [dedupF], fun v hv hvm => ?_⟩
        rcases List.mem_cons.1 (k2.mem_iff.2 (mem_present.2 ⟨hv, hvm⟩)) with e | hx'
        · rw [e]; exact Fl.le_refl (hn a (k2.mem_iff.1 (by simp)))
        · exact (List.pairwise_cons.1 k3).1 v hx'
    · exfalso
      obtain ⟨cur, rest, v0, w0, tl, last, e, _, hp, _, _, rfl⟩ := percentiles_form hS hn hc
      have hcur : cur = FX.fin 0 := by
        cases nbins with
        | zero => simp [binPcts] at e
        | succ n =>
          simp only [binPcts, List.range_succ_eq_map, List.map_cons, List.cons.injEq] at e
          rw [← e.1]
          exact level_zero h1 (Nat.succ_ne_zero n)
      have hz : ∀ x ∈ (v0, w0) :: tl, x.2 = FX.fin 0 := by
        intro x hx
        have := (List.of_mem_zip (hp.mem_iff.1 hx)).2
        rw [hws', hws] at this
        obtain ⟨q, hq, e⟩ := List.mem_map.1 this
        rw [← e]
        congr 1
        exact le_antisymm (hzero ▸ List.single_le_sum hws0 q hq) (hws0 q hq)
      have hf : fastSum ws' = (FX.fin 0 : FX m) := by rw [hws', hsum, ← hzero]
      rw [hf, hcur, pctLoop_zero_any _ _ _ _ _ hz] at h2
      simp [dedupF, dedupF.go] at h2

end

section
variable {K : Type} [Field K] [LinearOrder K] [IsStrictOrderedRing K] {m32 m64 : Fmt K} [m64.Rounds]

/-- A tree is fitted on the rows `rows` of `X`, the weights and hessians being multiples of `u` whose
total is at most `N · u`; nothing is said about the gradients. -/
structure GridOn (u : K) (N : Nat) (S : Sorter) (X : Matrix (FX m64)) (w : List K) (nbins : Nat)
    (missing : FX m64) (hv : Nat → K) (c : GrowCfg (FX m32) (FX m64)) (sm : SampleMethod)
    (rows : List Nat) : Prop where
  unit : 0 < u
  grid32 : m32.Grid u N
  grid64 : m64.Grid u N
  one : m64.Repr 1
  sorter : S.Ok
  shaped : X.Shaped
  weights : X.rows ≤ w.length
  mult_w : ∀ x ∈ w, Mult u x
  total_w : OnGrid u N w.sum
  mult : ∀ r, Mult u (hv r)
  total : OnGrid u N (rowSum hv rows)
  max : ∀ v ∈ X.data, ¬ IsMissing missing v → (v ≤ᶠ Fl.maxv) = true
  binned : ∃ bd, binMatrix S X (w.map FX.fin) nbins missing = .ok bd ∧
    c.train.data = { data := bd.binned, rows := X.rows, cols := X.cols } ∧ c.train.cuts = bd.cuts
  sorted : c.train.colIndex.Pairwise (· < ·)
  cols : ∀ j ∈ c.train.colIndex, j < X.cols
  hess : FinRows c.train.hess hv
  pos : (0 <ᶠ c.splitter.params.minLeafWeight) = true
  rows_lt : ∀ r ∈ rows, r < X.rows
  nodup : rows.Nodup
  full : sm = .none → rows = List.range c.train.grad.length ∧
    c.train.hess.length = c.train.grad.length

variable {S : Sorter} {X : Matrix (FX m64)} {w : List K} {nbins : Nat} {missing : FX m64} {u : K} {N : Nat}
  {hv : Nat → K} {c : GrowCfg (FX m32) (FX m64)} {sm : SampleMethod} {rows : List Nat}

theorem GridOn.eq (h : GridOn u N S X w nbins missing hv c sm rows) :
    ∃ bd, binMatrix S X (w.map FX.fin) nbins missing = .ok bd ∧
      c.train = trainOf X bd c.train.grad c.train.hess c.train.colIndex := by
  obtain ⟨bd, h1, h2, h3⟩ := h.binned
  refine ⟨bd, h1, ?_⟩
  unfold trainOf
  rw [← h2, ← h3]

theorem GridOn.rows_eq (h : GridOn u N S X w nbins missing hv c sm rows) : c.train.data.rows = X.rows := by
  obtain ⟨bd, h1, h2, h3⟩ := h.binned
  rw [h2]

theorem GridOn.gridTrain (h : GridOn u N S X w nbins missing hv c sm rows) :
    GridTrain c.train u N hv := by
  obtain ⟨bd, hb, e⟩ := h.eq
  have hw : X.rows ≤ (w.map (FX.fin : K → FX m64)).length := by simpa using h.weights
  refine ⟨h.unit, h.grid32, h.grid64, h.mult, ?_, h.hess, fun col hcol cu hcu => ?_⟩
  · rw [e]; exact trainOf_laid h.shaped hw hb h.sorted h.cols
  · obtain ⟨init, last, a1, a2, a3, a4, a5⟩ := C28_cuts h.sorter h.shaped hw h.max hb col (h.cols col hcol)
    rw [e] at hcu
    have hcu' : bd.cuts.getCol col = .ok cu := hcu
    rw [a1] at hcu'; injection hcu' with e; subst e
    rcases Nat.eq_zero_or_pos init.length with h0 | h0
    · simp [h0]
    · have hlt : init.length - 1 < init.length := by omega
      obtain ⟨i, hi, b1, b2⟩ := a4 init[init.length - 1] (List.getElem_mem hlt)
      obtain ⟨b, c1, c2, _, c3⟩ := a5 i hi _ b1
      have := c3 b2 (init.length - 1) init[init.length - 1] (by
        rw [List.getElem?_append_left hlt, List.getElem?_eq_getElem hlt])
      have hirr : ¬ (init[init.length - 1] <ᶠ init[init.length - 1]) = true := by
        rw [Fl.OrdLaws.lt_irrefl]; simp
      have hnb : ¬ b < init.length - 1 + 1 := fun h => hirr (this.1 h)
      rw [List.length_append, List.length_singleton]; omega

theorem GridOn.rawOk (h : GridOn u N S X w nbins missing hv c sm rows) : RawOk c.train X missing := by
  obtain ⟨bd, hb, e⟩ := h.eq
  have hX := h.shaped
  have hw : X.rows ≤ (w.map (FX.fin : K → FX m64)).length := by simpa using h.weights
  intro col hcol f cu hf hcu r hr
  have hr' : r < X.rows := by rw [← h.rows_eq]; exact hr
  have hcx := h.cols col hcol
  obtain ⟨init, last, a1, a2, a3, a4, a5⟩ := C28_cuts h.sorter hX hw h.max hb col hcx
  obtain ⟨cutss, hB⟩ := binMatrix_binned hX hw hb
  rw [e] at hf hcu
  have hcu' : bd.cuts.getCol col = .ok cu := hcu
  rw [a1] at hcu'; injection hcu' with e
  have hin : col * X.rows + r < X.data.length := by
    rw [hX]
    calc col * X.rows + r < col * X.rows + X.rows := by omega
      _ = X.rows * (col + 1) := by ring
      _ ≤ X.rows * X.cols := Nat.mul_le_mul_left _ hcx
  have hv : X.entry r col = some X.data[col * X.rows + r] := List.getElem?_eq_getElem hin
  refine ⟨_, hv, hB.readable _ (List.getElem_mem hin), ?_⟩
  obtain ⟨b, b1, b2, b3, b4⟩ := a5 r hr' _ hv
  have hfr : f.getD r 0 = b := by
    have hfe : f[r]? = some b := by
      unfold Matrix.getCol Matrix.getColSlice Matrix.itemIndex at hf
      obtain ⟨h1, h2, rfl⟩ := slice_eq_ok.1 hf
      simp only [trainOf] at hr' ⊢
      rw [List.getElem?_take, if_pos (by omega), List.getElem?_drop]
      simpa [Matrix.entry] using b1
    rw [List.getD_eq_getElem?_getD, hfe]; rfl
  rw [hfr]
  refine ⟨b3, fun hm h2 => ⟨fun h0 => ?_, fun k cv hk => b4 hm k cv (by rw [e]; exact hk)⟩⟩
  obtain ⟨cl, hcl⟩ : ∃ cl, cutss[col]? = some cl := ⟨_, List.getElem?_eq_getElem (by rw [hB.len]; exact hcx)⟩
  have hmade := hB.made col cl hcl
  have hclcu : cl = cu := by
    have := hB.jagged.getCol (j := col)
    rw [hcl, a1, Res.ofOption_some, e] at this
    injection this with this; exact this.symm
  subst hclcu
  obtain ⟨c0, d1, d2⟩ := first_cut_grid h.unit h.grid64 h.one h.sorter
    (by rw [Matrix.column_length hX hcx]; exact h.weights) h.mult_w h.total_w hmade h2
  have hmem : X.data[col * X.rows + r] ∈ X.column col := by
    rw [← Matrix.column_getElem? X hr'] at hv
    exact List.mem_of_getElem? hv
  have hle := d2 _ hmem hm
  have := (b4 hm 0 c0 (by rw [e]; exact d1)).1 (by omega)
  have hno := Fl.not_lt_of_le hle
  rw [hno] at this; cases this

/-- A fitted tree with the rows and covers of its nodes. -/
structure GridView (X : Matrix (FX m64)) (missing : FX m64) (hv : Nat → K)
    (c : GrowCfg (FX m32) (FX m64)) (rows : List Nat) (t : Tree (FX m32) (FX m64))
    (o : SNode (FX m32) (FX m64) → Prop) (gs : List (Ghost (FX m32) (FX m64)))
    (nodes : List (Node (FX m32) (FX m64))) : Prop where
  cert : Cert c o gs nodes
  shape : SameShape nodes t.nodes
  root : ∃ g0, gs[0]? = some g0 ∧ g0.rows = rows
  sums : ∀ (i : Nat) (g : Ghost (FX m32) (FX m64)), gs[i]? = some g → HessSums c.train hv g.sn g.rows
  sub : ∀ (i : Nat) (g : Ghost (FX m32) (FX m64)), gs[i]? = some g → ∀ r ∈ g.rows, r ∈ rows
  nodup : ∀ (i : Nat) (g : Ghost (FX m32) (FX m64)), gs[i]? = some g → g.rows.Nodup
  reaches : ∀ (i : Nat) (g : Ghost (FX m32) (FX m64)), gs[i]? = some g → ∀ r ∈ rows,
    (Reaches t.nodes (X.entry r) missing i ↔ r ∈ g.rows)
  toLeaf : ∀ r ∈ rows, ∃ k l, t.nodes[k]? = some l ∧ l.isLeaf = true ∧
    Reaches t.nodes (X.entry r) missing k ∧ Route t.nodes (X.entry r) missing 0 l

/-- The view of a fitted tree, with its root and the final pass over the nodes. -/
theorem GridOn.view_root (h : GridOn u N S X w nbins missing hv c sm rows)
    {t : Tree (FX m32) (FX m64)} (hf : Tree.fit c sm rows = .ok t) :
    ∃ o gs nodes g hs sort hists g0, GridView X missing hv c rows t o gs nodes ∧
      rootSums (D := FX m64) sm c.train.grad c.train.hess rows = .ok (g, hs, sort) ∧
      histogramMatrix c.train.data c.train.cuts c.train.grad c.train.hess rows c.train.colIndex sort = .ok hists ∧
      cleanUpSplits c.splitter nodes = .ok t.nodes ∧ gs[0]? = some g0 ∧
      g0.sn = rootNode c.splitter.params rows.length g hs hists ∧ g0.rows = rows := by
  obtain ⟨g, hs, sort, hists, nodes, gs, nl, h1, h2, h3, hC, ⟨g0, hg0, hsn, hrows⟩, hnl, _⟩ :=
    Tree.fit_cert hf
  have hT := h.gridTrain
  have hsh := cleanUpSplits_shape h3
  have hN : HessSums c.train hv g0.sn g0.rows := by
    rw [hsn, hrows]
    exact root_hess hT h.total h.full h1 h2 _ _
  have hlt : ∀ r ∈ g0.rows, r < c.train.data.rows := by
    rw [hrows, h.rows_eq]; exact h.rows_lt
  have hsub := hC.rows_mem hg0
  have hall := hC.hess_sums hT h.pos hg0 (by rw [hrows]; exact h.total) hN hlt
  have hS : RowsSplit c gs nodes := by
    intro i g info k kids hg hSp
    obtain ⟨f, cu, b, mr, hF, _⟩ := splitRows_hess hT h.pos hSp (hall i g hg).1 (hall i g hg).2
      (fun r hr => hlt r (hsub i g hg r hr))
    exact ⟨f, cu, b, mr, hF⟩
  refine ⟨_, gs, nodes, g, hs, sort, hists, g0, ⟨hC, hsh, ⟨g0, hg0, hrows⟩, fun i g hg => (hall i g hg).2, ?_,
    hC.nodup_rows hg0 (by rw [hrows]; exact h.nodup), ?_, ?_⟩, h1, h2, h3, hg0, hsn, hrows⟩
  · rw [← hrows]; exact hsub
  · rw [← hrows]
    exact hC.rows_reach hsh hS h.rawOk hg0 hlt
  · intro r hr
    have hr' : r ∈ g0.rows := by rw [hrows]; exact hr
    have hp : 0 < t.nodes.length := by
      rw [hsh.1, ← hC.len]
      exact (List.getElem?_eq_some_iff.1 hg0).1
    exact hC.rows_leaf hsh hS h.rawOk hg0 hlt hr' t.nodes.length 0 (by omega) hp .root

theorem GridOn.view (h : GridOn u N S X w nbins missing hv c sm rows)
    {t : Tree (FX m32) (FX m64)} (hf : Tree.fit c sm rows = .ok t) :
    ∃ o gs nodes, GridView X missing hv c rows t o gs nodes := by
  obtain ⟨o, gs, nodes, _, _, _, _, _, hV, _⟩ := h.view_root hf
  exact ⟨o, gs, nodes, hV⟩

end

end Verif
