import Verif.Proofs.TreeShap
import Verif.Props.Contrib

/-!
# C15, C16 Shapley contributions
-/

namespace Verif

open scoped BigOperators

section exact
set_option linter.unusedSectionVars false
variable {K : Type} [Field K] [LinearOrder K] [IsStrictOrderedRing K] {m32 m64 : Fmt K} [m32.Exact]
  [m64.Exact]

/-- With no feature known, the expectation is the average of the leaves. -/
theorem CondExp.avgLeaf {t : Tree (FX m32) (FX m64)} {entry : Nat → Option (FX m64)} {missing : FX m64}
    (hc : t.CoversOk) {i : Nat} {e : K} (h : CondExp t.nodes entry missing ∅ i e) :
    AvgLeaf t.nodes i (.fin e : FX m64) := by
  have cov : ∀ {i : Nat} {n : Node (FX m32) (FX m64)} {h : K}, t.nodes[i]? = some n →
      n.isLeaf = false → n.hessianSum = .fin h → h ≠ 0 := by
    intro i n h hn hl he
    obtain ⟨h', e', hne⟩ := hc _ (List.mem_of_getElem? hn)
    rw [he] at e'; cases e'
    exact hne hl
  induction h with
  | @leaf i n w h1 h2 h3 =>
    have := AvgLeaf.leaf h1 h2
    rw [h3] at this
    exact this
  | known h1 h2 h3 => simp at h3
  | @two i n l r h hl hr a b h1 h2 h3 h4 h5 h6 h7 h8 h9 _ _ ih1 ih2 =>
    have hne := cov h1 h2 h7
    have := AvgLeaf.two h1 h2 h4 h5 h6 ih1 ih2
    rw [h7, h8, h9] at this
    simp only [FX.up_fin, FX.fin_mul, FX.fin_add] at this
    rw [FX.fin_div _ _ hne] at this
    rwa [show hl / h * a + hr / h * b = (hl * a + hr * b) / h by field_simp]
  | @three i n l r m h hl hr hm a b c h1 h2 h3 h4 h4' h5 h6 h6' h7 h8 h9 h9' _ _ _ ih1 ih2 ih3 =>
    have hne := cov h1 h2 h7
    have := AvgLeaf.three h1 h2 h4 h4' h5 h6 h6' ih1 ih2 ih3
    rw [h7, h8, h9, h9'] at this
    simp only [FX.up_fin, FX.fin_mul, FX.fin_add] at this
    rw [FX.fin_div _ _ hne] at this
    rwa [show hl / h * a + hr / h * b + hm / h * c = (hl * a + hr * b + hm * c) / h by field_simp]

/-- With every feature known, the expectation is the value of the leaf of the row. -/
theorem Route.condExp {t : Tree (FX m32) (FX m64)} {entry : Nat → Option (FX m64)} {missing : FX m64}
    {S : Finset Nat} (hS : ∀ f v, entry f = some v → f ∈ S) {i : Nat} {l : Node (FX m32) (FX m64)}
    (hv : t.FiniteValues) (h : Route t.nodes entry missing i l) :
    CondExp t.nodes entry missing S i l.weightValue.val := by
  induction h with
  | leaf h1 h2 =>
    obtain ⟨w, hw⟩ := hv _ (List.mem_of_getElem? h1)
    exact .leaf h1 h2 (by rw [hw]; rfl)
  | step h1 h2 h3 h4 _ ih => exact .known h1 h2 (hS _ _ h3) h3 h4 ih

/-- What one tree adds to the contributions of a row. -/
theorem contribShapley_spec {t : Tree (FX m32) (FX m64)} {entry : Nat → Option (FX m64)} {missing : FX m64}
    (hwf : t.Wf) (hv : t.FiniteValues) (hc : t.CoversOk) {row : List (FX m64)}
    (hrow : ∀ f, idx row f = Res.ofOption (entry f)) (hr : t.RowReadable entry missing)
    (cs : List K) (hcs : cs.length = row.length + 1) :
    ∃ (E : Finset Nat → K) (cs' : List K), (∀ S, CondExp t.nodes entry missing S 0 (E S)) ∧
      t.contribShapley row (cs.map FX.fin) missing = .ok (cs'.map FX.fin) ∧ cs'.length = row.length + 1 ∧
      (∀ f < row.length, cs'.getD f 0 = cs.getD f 0 + shapleyValue (Finset.range row.length) E f) ∧
      cs'.getD row.length 0 = cs.getD row.length 0 + E ∅ := by
  have hex : ∀ i S, ∃ e, i < t.nodes.length → CondExp t.nodes entry missing S i e := fun i S => by
    by_cases hi : i < t.nodes.length
    · obtain ⟨e, he⟩ := condExp_exists hwf hv hc hr S i hi
      exact ⟨e, fun _ => he⟩
    · exact ⟨0, fun h => absurd h hi⟩
  choose E hE using hex
  have h0 : 0 < t.nodes.length := List.length_pos_iff.2 hwf.nonempty
  obtain ⟨a, ha⟩ := averageLeafWeights_total hwf (fuel := t.nodes.length) h0 (by omega)
  have hav : a = .fin (E 0 ∅) := (averageLeafWeights_sound ha).unique ((hE 0 ∅ h0).avgLeaf hc)
  obtain ⟨p, hp, hpi⟩ := extendPath_root (m := m32) (row.length + 100)
  have hbias : addBias (cs.map (FX.fin : K → FX m64)) (.fin (E 0 ∅)) =
      .ok ((cs.set row.length (cs.getD row.length 0 + E 0 ∅)).map FX.fin) := by
    rw [addBias, List.length_map, hcs]
    have := addAt_fin (m := m64) cs (row.length + 1 - 1) (by omega) (E 0 ∅)
    rw [this]
    simp [List.getD_eq_getElem?_getD, List.getElem?_eq_getElem (show row.length < cs.length by omega)]
  obtain ⟨cs', e, hadd⟩ := treeShap_spec hwf hv hc hrow hr (fun i hi S => hE i S hi)
    (rf := row.length + 100) (by omega) t.nodes.length 0 h0 (by omega) [] [] 1 1 (row.length + 100) p hp
    hpi (by simp) (by simp) (by simp) (cs.set row.length (cs.getD row.length 0 + E 0 ∅)) (by simp [hcs])
  refine ⟨E 0, cs', fun S => hE 0 S h0, ?_, hadd.len, fun f hf => ?_, ?_⟩
  · rw [Tree.contribShapley, ha, Res.ok_bind, hav, hbias, Res.ok_bind]
    exact e
  · rw [hadd.feature f hf, List.getD_eq_getElem?_getD, List.getElem?_set_ne (by omega)]
    simp [prodGame]
  · rw [hadd.bias, List.getD_eq_getElem?_getD, List.getElem?_set_self (by omega)]
    rfl

/-- The rows of the Shapley contributions. -/
theorem shapley_trees {entry : Nat → Option (FX m64)} {missing : FX m64} {row : List (FX m64)}
    (hrow : ∀ f, idx row f = Res.ofOption (entry f)) (ts : List (Tree (FX m32) (FX m64)))
    (hwf : ∀ t ∈ ts, t.Wf) (hv : ∀ t ∈ ts, t.FiniteValues) (hc : ∀ t ∈ ts, t.CoversOk)
    (hr : ∀ t ∈ ts, t.RowReadable entry missing) (cs : List K) (hcs : cs.length = row.length + 1) :
    ∃ (games : List (Finset Nat → K)) (cs' : List K),
      List.Forall₂ (fun t E => ∀ S, CondExp t.nodes entry missing S 0 (E S)) ts games ∧
      Res.foldM' (fun c t => rowPredFn .shapley t row c missing) (cs.map FX.fin) ts = .ok (cs'.map FX.fin) ∧
      cs'.length = row.length + 1 ∧
      (∀ f < row.length, cs'.getD f 0 =
        cs.getD f 0 + (games.map fun E => shapleyValue (Finset.range row.length) E f).sum) ∧
      cs'.getD row.length 0 = cs.getD row.length 0 + (games.map fun E => E ∅).sum := by
  induction ts generalizing cs with
  | nil => exact ⟨[], cs, .nil, rfl, hcs, by simp, by simp⟩
  | cons t ts ih =>
    obtain ⟨E, c1, hE, e1, l1, f1, b1⟩ := contribShapley_spec (hwf t (by simp)) (hv t (by simp))
      (hc t (by simp)) hrow (hr t (by simp)) cs hcs
    obtain ⟨games, c2, hg, e2, l2, f2, b2⟩ := ih (fun t ht => hwf t (by simp [ht]))
      (fun t ht => hv t (by simp [ht])) (fun t ht => hc t (by simp [ht]))
      (fun t ht => hr t (by simp [ht])) c1 l1
    refine ⟨E :: games, c2, .cons hE hg, ?_, l2, fun f hf => ?_, ?_⟩
    · rw [Res.foldM'_cons, show rowPredFn .shapley t row (cs.map FX.fin) missing = _ from e1, Res.ok_bind]
      exact e2
    · rw [f2 f hf, f1 f hf, List.map_cons, List.sum_cons]; ring
    · rw [b2, b1, List.map_cons, List.sum_cons]; ring

/-- C16.  Exact arithmetic.  `predict_contributions` with method Shapley returns one group of `cols + 1`
numbers per row.  For every tree there is the game that gives a set of features the expected value of the
tree when these features are known; number `f` of the group is the sum over the trees of the Shapley value of
`f` in the game of the tree, and the last number is the base score plus the expected values with nothing
known.  A feature may be tested any number of times on a path. -/
theorem C16_shapley (b : Booster (FX m32) (FX m64)) (data : Matrix (FX m64)) (hd : data.Shaped)
    (hwf : ∀ t ∈ b.trees, t.Wf) (hv : ∀ t ∈ b.trees, t.FiniteValues) (hc : ∀ t ∈ b.trees, t.CoversOk)
    (hr : ∀ t ∈ b.trees, ∀ i < data.rows, t.RowReadable (data.entry i) b.missing)
    (hu : b.used ≤ b.trees.length) (base : K) (hb : b.baseScore = .fin base) :
    ∃ rows : List (List K), b.predictContributions data .shapley = .ok (rows.flatten.map FX.fin) ∧
      rows.length = data.rows ∧
      ∀ (i : Nat) (r : List K), rows[i]? = some r → r.length = data.cols + 1 ∧
        ∃ games : List (Finset Nat → K),
          List.Forall₂ (fun t E => ∀ S, CondExp t.nodes (data.entry i) b.missing S 0 (E S))
            (b.trees.take b.used) games ∧
          (∀ f < data.cols, r[f]? =
            some (games.map fun E => shapleyValue (Finset.range data.cols) E f).sum) ∧
          r[data.cols]? = some (base + (games.map fun E => E ∅).sum) := by
  have hmem : ∀ t, t ∈ b.trees.take b.used → t ∈ b.trees := fun t ht => List.mem_of_mem_take ht
  have row : ∀ i, i < data.rows → ∃ r : List K,
      contribsRowAlone b (b.trees.take b.used) .shapley data i = .ok (r.map FX.fin) ∧
      r.length = data.cols + 1 ∧
        ∃ games : List (Finset Nat → K),
          List.Forall₂ (fun t E => ∀ S, CondExp t.nodes (data.entry i) b.missing S 0 (E S))
            (b.trees.take b.used) games ∧
          (∀ f < data.cols, r[f]? =
            some (games.map fun E => shapleyValue (Finset.range data.cols) E f).sum) ∧
          r[data.cols]? = some (base + (games.map fun E => E ∅).sum) := by
    intro i hi
    obtain ⟨r, hrow, hlen, hent⟩ := getRow_entry hd hi
    obtain ⟨games, cs, hg, e, hl, hf, hbias⟩ := shapley_trees hent (b.trees.take b.used)
      (fun t ht => hwf t (hmem t ht)) (fun t ht => hv t (hmem t ht)) (fun t ht => hc t (hmem t ht))
      (fun t ht => hr t (hmem t ht) i hi) (List.replicate data.cols 0 ++ [base]) (by simp [hlen])
    rw [hlen] at hl hf hbias
    have get : ∀ f < data.cols + 1, cs[f]? = some (cs.getD f 0) := fun f h => by
      rw [List.getD_eq_getElem?_getD, List.getElem?_eq_getElem (by omega)]; rfl
    refine ⟨cs, ?_, hl, games, hg, fun f h => ?_, ?_⟩
    · rw [contribsRowAlone, hrow, Res.ok_bind, hb, initContribs_eq]; exact e
    · rw [get f (by omega), hf f h, List.getD_eq_getElem?_getD,
        List.getElem?_append_left (by simpa using h), List.getElem?_replicate, if_pos h]
      simp
    · rw [get _ (by omega), hbias, List.getD_eq_getElem?_getD, List.getElem?_append_right (by simp)]
      simp
  choose! r hr1 hr2 using row
  have e : Res.mapM' (contribsRowAlone b (b.trees.take b.used) .shapley data) data.index =
      .ok (((List.range data.rows).map r).map (List.map FX.fin)) := by
    rw [Res.mapM'_eq_ok, forall₂_index]
    refine ⟨by simp, fun i x hx => ?_⟩
    have hi : i < data.rows := by
      have := (List.getElem?_eq_some_iff.1 hx).1
      simpa using this
    rw [List.map_map, List.getElem?_map, List.getElem?_range hi] at hx
    cases hx
    exact hr1 i hi
  refine ⟨(List.range data.rows).map r, ?_, by simp, fun i x hx => ?_⟩
  · rw [Booster.predictContributions, contribRows_alone b data (by simp) (by simp),
      predictionTrees_eq_ok.2 ⟨hu, rfl⟩]
    simp only [Res.ok_bind, e, List.map_flatten]
  · have hi : i < data.rows := by
      have := (List.getElem?_eq_some_iff.1 hx).1
      simpa using this
    rw [List.getElem?_map, List.getElem?_range hi] at hx
    cases hx
    exact hr2 i hi

/-- C15.  Exact arithmetic.  When `predict` succeeds, the numbers that `predict_contributions` with method
Shapley returns for a row add up to the predicted value of the row. -/
theorem C15_shapley_sum (b : Booster (FX m32) (FX m64)) (data : Matrix (FX m64)) (hd : data.Shaped)
    (hwf : ∀ t ∈ b.trees, t.Wf) (hv : ∀ t ∈ b.trees, t.FiniteValues) (hc : ∀ t ∈ b.trees, t.CoversOk)
    (hr : ∀ t ∈ b.trees, ∀ i < data.rows, t.RowReadable (data.entry i) b.missing)
    (hb : b.baseScore.IsFin) (out : List (FX m64)) (h : b.predict data = .ok out) :
    ∃ rows : List (List K), b.predictContributions data .shapley = .ok (rows.flatten.map FX.fin) ∧
      (∀ r ∈ rows, r.length = data.cols + 1) ∧ out = rows.map fun r => FX.fin r.sum := by
  rw [C19_prediction_iteration] at h
  obtain ⟨h1, h2, h3⟩ := h
  obtain ⟨base, hbase⟩ := hb
  rw [hbase] at h3
  have hv' : ∀ t ∈ b.trees.take b.used, t.FiniteValues := fun t ht => hv t (List.mem_of_mem_take ht)
  obtain ⟨rows, e, hl, hrows⟩ := C16_shapley b data hd hwf hv hc hr h1 base hbase
  refine ⟨rows, e, fun r hm => ?_, ?_⟩
  · obtain ⟨i, hi⟩ := List.getElem?_of_mem hm
    exact (hrows i r hi).1
  · apply List.ext_getElem?
    intro i
    by_cases hi : i < data.rows
    · rw [List.getElem?_map, List.getElem?_eq_getElem (show i < rows.length by omega),
        List.getElem?_eq_getElem (show i < out.length by omega)]
      obtain ⟨hlen, games, hg, hf, hbias⟩ := hrows i _ (List.getElem?_eq_getElem (by omega))
      obtain ⟨ls, hls, ho⟩ := (h3 i _ (List.getElem?_eq_getElem (by omega))).fin hv'
      rw [ho]
      simp only [Option.map_some, Option.some.injEq, FX.fin.injEq]
      generalize rows[i] = r at hlen hf hbias ⊢
      have hS : ∀ f v, data.entry i f = some v → f ∈ Finset.range data.cols := by
        intro f v hfv
        obtain ⟨row, hrow, hlen', hent⟩ := getRow_entry hd hi
        have := hent f
        rw [hfv] at this
        have := (idx_eq_ok (l := row)).1 (this.trans rfl)
        rw [Finset.mem_range, ← hlen']
        exact (List.getElem?_eq_some_iff.1 this).1
      -- the sum of the group
      have hsum : r.sum = base + (games.map fun E => E (Finset.range data.cols)).sum := by
        have hr' : r = (List.range data.cols).map (fun f =>
            (games.map fun E => shapleyValue (Finset.range data.cols) E f).sum) ++
              [base + (games.map fun E => E ∅).sum] := by
          apply List.ext_getElem?
          intro k
          rcases Nat.lt_trichotomy k data.cols with hk | hk | hk
          · rw [hf k hk, List.getElem?_append_left (by simpa using hk), List.getElem?_map,
              List.getElem?_range hk]; rfl
          · subst hk
            rw [hbias, List.getElem?_append_right (by simp)]; simp
          · rw [List.getElem?_eq_none (by omega), List.getElem?_eq_none (by simp; omega)]
        rw [hr', List.sum_append, List.sum_singleton]
        have hsw : ((List.range data.cols).map (fun f =>
            (games.map fun E => shapleyValue (Finset.range data.cols) E f).sum)).sum =
            (games.map fun E => E (Finset.range data.cols) - E ∅).sum := by
          clear hr' hg hf hbias
          induction games with
          | nil => simp
          | cons E games ih =>
            simp only [List.map_cons, List.sum_cons]
            rw [← ih, ← shapley_efficient, List.sum_map_add]
            congr 1
        rw [hsw]
        clear hr' hg hf hbias hsw
        induction games with
        | nil => simp
        | cons E games ih =>
          simp only [List.map_cons, List.sum_cons]
          linear_combination ih
      rw [hsum]
      -- the sum of the leaves
      clear hsum hf hbias ho hlen e hrows
      unfold Leaves at hls
      generalize b.trees.take b.used = ts at hg hls hv'
      clear h3 hbase
      induction hls generalizing base games with
      | nil => cases hg; simp
      | @cons t l ts ls hl1 _ ih =>
        cases hg with
        | @cons _ E _ games hE hg =>
          have h := (Route.condExp hS (hv' t (by simp)) hl1).unique (hE (Finset.range data.cols))
          rw [List.foldl_cons, ih _ _ hg (fun t ht => hv' t (by simp [ht])), h, List.map_cons,
            List.sum_cons]
          ring
    · rw [List.getElem?_eq_none (by omega), List.getElem?_eq_none (by simp; omega)]

end exact

/-! ### The hypotheses are met -/

/-- A tree that tests feature 0 twice on a path, with a missing branch below. -/
def exRepeat : Tree Q Q :=
  { nodes := [exSplit 0 0 (1/2) 12 0 4 7 2 1 2, exSplit 1 1 (1/4) 8 1 5 3 3 3 4, exLeaf 2 1 2 4
              , exSplit 3 2 0 5 0 1 2 7 5 6, exLeaf 4 2 1 3, exLeaf 5 3 (-3) 1, exLeaf 6 3 4 2
              , exLeaf 7 3 (-1) 2] }

/-- A booster with it. -/
def exShap : Booster Q Q := { exBooster with trees := [exTree, exRepeat, exTree2] }

/-- The rows can be read. -/
def readCheck (b : Booster Q Q) (data : Matrix Q) : Bool :=
  b.trees.all fun t => (List.range data.rows).all fun i => t.nodes.all fun n => n.isLeaf ||
    match data.entry i n.splitFeature with
    | none => false
    | some v => decide (Readable b.missing v)

theorem read_of_check {b : Booster Q Q} {data : Matrix Q} (h : readCheck b data = true) :
    ∀ t ∈ b.trees, ∀ i < data.rows, t.RowReadable (data.entry i) b.missing := by
  intro t ht i hi n hn hl
  simp only [readCheck, List.all_eq_true] at h
  have := h t ht i (by simpa using hi) n hn
  rw [hl, Bool.false_or] at this
  cases he : data.entry i n.splitFeature with
  | none => simp [he] at this
  | some v => rw [he] at this; exact ⟨v, rfl, by simpa using this⟩

theorem exShap_facts : (∀ t ∈ exShap.trees, t.Wf) ∧ (∀ t ∈ exShap.trees, t.FiniteValues) ∧
    (∀ t ∈ exShap.trees, t.CoversOk) := by
  refine ⟨fun t ht => ?_, fun t ht => ?_, fun t ht => ?_⟩ <;>
    simp only [exShap, List.mem_cons, List.not_mem_nil, or_false] at ht
  · rcases ht with rfl | rfl | rfl <;> exact Tree.wf_of_check _ (by decide +kernel)
  · rcases ht with rfl | rfl | rfl
    · exact exBooster_finite _ (by simp [exBooster])
    · intro n hn
      simp only [exRepeat, List.mem_cons, List.not_mem_nil, or_false] at hn
      rcases hn with rfl | rfl | rfl | rfl | rfl | rfl | rfl | rfl <;> exact ⟨_, rfl⟩
    · exact exBooster_finite _ (by simp [exBooster])
  · rcases ht with rfl | rfl | rfl
    · exact exBooster_covers _ (by simp [exBooster])
    · intro n hn
      simp only [exRepeat, List.mem_cons, List.not_mem_nil, or_false] at hn
      rcases hn with rfl | rfl | rfl | rfl | rfl | rfl | rfl | rfl <;> exact ⟨_, rfl, by decide⟩
    · exact exBooster_covers _ (by simp [exBooster])

example : ∃ rows : List (List ℚ), exShap.predictContributions exData .shapley =
    .ok (rows.flatten.map FX.fin) ∧ rows.length = 3 := by
  obtain ⟨rows, h1, h2, -⟩ := C16_shapley exShap exData rfl exShap_facts.1 exShap_facts.2.1
    exShap_facts.2.2 (read_of_check (by decide +kernel)) (by decide +kernel) _ rfl
  exact ⟨rows, h1, h2⟩

example : exShap.predictContributions exData .shapley =
    .ok [q (197/240), q (131/240), q (52/15), q (653/240), q (-1/48), q (52/15), q (13/60), q (-37/20),
      q (52/15)] := by decide +kernel
example : exShap.predict exData = .ok [q (29/6), q (37/6), q (11/6)] := by decide +kernel

example (out : List Q) (h : exShap.predict exData = .ok out) :
    ∃ rows : List (List ℚ), exShap.predictContributions exData .shapley =
      .ok (rows.flatten.map FX.fin) ∧ (∀ r ∈ rows, r.length = 3) ∧
      out = rows.map fun r => FX.fin r.sum :=
  C15_shapley_sum exShap exData rfl exShap_facts.1 exShap_facts.2.1 exShap_facts.2.2
    (read_of_check (by decide +kernel)) ⟨_, rfl⟩ out h

end Verif
