import Verif.Props.Additive
import Verif.Spec.MeanPath

/-!
# C146: Average contributions, and when they are Shapley values
-/

set_option linter.unusedSectionVars false

namespace Verif

open scoped Verif BigOperators Nat

section
variable {K : Type} [Field K] [LinearOrder K] [IsStrictOrderedRing K] {m32 m64 : Fmt K}
  [m32.Exact] [m64.Exact]
variable {t : Tree (FX m32) (FX m64)} {entry : Nat → Option (FX m64)} {missing : FX m64}

theorem changeBy_cons (f g : Nat) (d : K) (steps : List (Nat × K)) :
    changeBy f ((g, d) :: steps) = (if g = f then d else 0) + changeBy f steps := by
  unfold changeBy
  rw [List.filter_cons]
  by_cases h : g = f <;> simp [h]

/-- A row whose values can be read reaches a leaf. -/
theorem route_of_readable (hwf : t.Wf) (hr : t.RowReadable entry missing) (i : Nat) (hi : i < t.nodes.length) :
    ∃ l, Route t.nodes entry missing i l := by
  induction h : t.nodes.length - i using Nat.strong_induction_on generalizing i with
  | _ k ih =>
    subst h
    have hn := List.getElem?_eq_getElem hi
    cases hl : t.nodes[i].isLeaf with
    | true => exact ⟨_, .leaf hn hl⟩
    | false =>
      obtain ⟨v, hv, hrd⟩ := hr _ (List.mem_of_getElem? hn) hl
      have hch : t.nodes[i].IsChild (t.nodes[i].childFor missing v) := by
        refine ⟨hl, ?_⟩
        unfold Node.childFor
        split
        · exact .inr (.inr rfl)
        · split
          · exact .inl rfl
          · exact .inr (.inl rfl)
      obtain ⟨c1, c2⟩ := hwf.child _ _ _ hn hch
      obtain ⟨l, hl'⟩ := ih _ (by omega) _ c2 rfl
      exact ⟨l, .step hn hl hv hrd hl'⟩

/-- The walk adds the changes of the expectations. -/
theorem contribWalk_means {ws row : List (FX m64)} {val : Nat → K}
    (hval : ∀ (i : Nat) (n : Node (FX m32) (FX m64)), t.nodes[i]? = some n →
      ws[i]? = some (.fin (val i)) ∧ CondExp t.nodes entry missing ∅ i (val i))
    (hrow : ∀ f, idx row f = Res.ofOption (entry f))
    {k i : Nat} {l : Node (FX m32) (FX m64)} (hr : RouteN t.nodes entry missing k i l) {fuel : Nat}
    (hk : k < fuel) (cs : List K) (hcs : cs.length = row.length + 1) :
    ∃ (cs' : List K) (steps : List (Nat × K)),
      contribWalk t.nodes row missing (deltaAverage ws) fuel i (cs.map FX.fin) = .ok (cs'.map FX.fin, l) ∧
      cs'.length = cs.length ∧ MeanPath t.nodes entry missing i steps ∧ (∀ s ∈ steps, s.1 < row.length) ∧
      ∀ f, cs'.getD f 0 = cs.getD f 0 + changeBy f steps := by
  induction hr generalizing fuel cs with
  | @leaf i n h1 h2 =>
    obtain ⟨fuel, rfl⟩ : ∃ f, fuel = f + 1 := ⟨fuel - 1, by omega⟩
    refine ⟨cs, [], ?_, rfl, .leaf h1 h2, by simp, by simp [changeBy]⟩
    simp [contribWalk, idx_eq_ok.2 h1, h2]
  | @step k i n l v h1 h2 h3 h4 h5 ih =>
    obtain ⟨fuel, rfl⟩ : ∃ f, fuel = f + 1 := ⟨fuel - 1, by omega⟩
    have hv : idx row n.splitFeature = .ok v := by rw [hrow, h3]; rfl
    have hf := lt_of_idx_eq_ok hv
    have hc : ∃ n' : Node (FX m32) (FX m64), t.nodes[n.childFor missing v]? = some n' := by
      cases h5 with
      | leaf g _ => exact ⟨_, g⟩
      | step g => exact ⟨_, g⟩
    obtain ⟨n', hn'⟩ := hc
    obtain ⟨a1, a2⟩ := hval _ _ h1
    obtain ⟨b1, b2⟩ := hval _ _ hn'
    have hfc : n.splitFeature < cs.length := by omega
    obtain ⟨cs', steps, hw, hl', hp, hlt, hs⟩ := ih (fuel := fuel) (by omega)
      (cs.set n.splitFeature (cs[n.splitFeature] + (val (n.childFor missing v) - val i)))
      (by simpa using hcs)
    refine ⟨cs', _, ?_, by simpa using hl', .step h1 h2 h3 h4 a2 b2 hp, ?_, fun f => ?_⟩
    · rw [contribWalk]
      simp only [idx_eq_ok.2 h1, Res.ok_bind, h2, hv, getChildIdx_eq, h4, if_true, deltaAverage, idx_eq_ok.2 a1,
        idx_eq_ok.2 b1, FX.fin_sub, addAt_fin cs _ hfc]
      exact hw
    · intro s hs
      rcases List.mem_cons.1 hs with rfl | hs
      · exact hf
      · exact hlt s hs
    · rw [hs f, changeBy_cons, List.getD_eq_getElem?_getD, List.getD_eq_getElem?_getD, List.getElem?_set]
      by_cases e : n.splitFeature = f
      · subst e
        simp [hfc, add_assoc]
      · simp [e]

/-- What one tree adds to the contributions of a row. -/
theorem contribAverage_means (hwf : t.Wf) (hv : t.FiniteValues) (hc : t.CoversOk)
    (hr : t.RowReadable entry missing) {row ws : List (FX m64)} (hws : t.distributeLeafWeights = .ok ws)
    (hrow : ∀ f, idx row f = Res.ofOption (entry f)) (cs : List K) (hcs : cs.length = row.length + 1) :
    ∃ (e : K) (steps : List (Nat × K)) (cs' : List K), CondExp t.nodes entry missing ∅ 0 e ∧
      MeanPath t.nodes entry missing 0 steps ∧
      t.contribAverage row (cs.map FX.fin) ws missing = .ok (cs'.map FX.fin) ∧ cs'.length = row.length + 1 ∧
      (∀ f < row.length, cs'.getD f 0 = cs.getD f 0 + changeBy f steps) ∧
      cs'.getD row.length 0 = cs.getD row.length 0 + e := by
  obtain ⟨ws', e, hlen, hfill⟩ := distributeLeafWeights_spec hwf
  rw [hws] at e; cases e
  have hall : ∀ i, i < t.nodes.length → Filled t.nodes ws i := by
    intro i
    induction i using Nat.strong_induction_on with
    | _ i ih =>
      intro hi
      rcases Nat.eq_zero_or_pos i with rfl | h0
      · exact hfill
      · obtain ⟨p, n, hp, hch⟩ := hwf.parent i h0 hi
        have hlt := (hwf.child p n i hp hch).1
        cases ih p hlt (by omega) with
        | mk g1 g2 g3 g4 => rw [hp] at g1; cases g1; exact g4 i hch
  have hval : ∀ i, ∃ a : K, ∀ n : Node (FX m32) (FX m64), t.nodes[i]? = some n →
      ws[i]? = some (.fin a) ∧ CondExp t.nodes entry missing ∅ i a := by
    intro i
    by_cases hi : i < t.nodes.length
    · obtain ⟨a, ha⟩ := condExp_exists hwf hv hc hr ∅ i hi
      refine ⟨a, fun n hn => ⟨?_, ha⟩⟩
      cases hall i hi with
      | mk g1 g2 g3 g4 => rw [g2, g3.unique (ha.avgLeaf hc)]
    · exact ⟨0, fun n hn => absurd (List.getElem?_eq_some_iff.1 hn).1 hi⟩
  choose val hval using hval
  have h0 : 0 < t.nodes.length := List.length_pos_iff.2 hwf.nonempty
  obtain ⟨w0, e0⟩ := hval 0 _ (List.getElem?_eq_getElem h0)
  obtain ⟨l, hl⟩ := route_of_readable hwf hr 0 h0
  obtain ⟨k, hk⟩ := hl.exists_n
  have hlast : cs.length - 1 < cs.length := by omega
  obtain ⟨c2, steps, g1, g2, g3, g4, g5⟩ := contribWalk_means hval hrow hk hk.lt_length
    (cs.set (cs.length - 1) (cs[cs.length - 1] + val 0)) (by simpa using hcs)
  have hlen1 : cs.length - 1 = row.length := by omega
  refine ⟨val 0, steps, c2, e0, g3, ?_, by simpa [hcs] using g2, fun f hf => ?_, ?_⟩
  · rw [Tree.contribAverage, idx_eq_ok.2 w0]
    simp only [Res.ok_bind]
    rw [addBias, List.length_map, addAt_fin cs (cs.length - 1) hlast, Res.ok_bind, g1]
    rfl
  · rw [g5 f, List.getD_eq_getElem?_getD, List.getElem?_set_ne (by omega), ← List.getD_eq_getElem?_getD]
  · have hz : changeBy row.length steps = (0 : K) := by
      unfold changeBy
      rw [List.filter_eq_nil_iff.2 (fun s hs => by
        have := g4 s hs
        simp only [decide_eq_true_eq]
        omega)]
      rfl
    rw [g5, hz, add_zero, List.getD_eq_getElem?_getD, List.getD_eq_getElem?_getD, ← hlen1,
      List.getElem?_set_self hlast, List.getElem?_eq_getElem hlast]
    rfl

/-- The rows of the Average contributions. -/
theorem average_trees {row : List (FX m64)} (hrow : ∀ f, idx row f = Res.ofOption (entry f))
    {ts : List (Tree (FX m32) (FX m64))} {ws : List (List (FX m64))}
    (hw : List.Forall₂ (fun t w => Tree.distributeLeafWeights t = .ok w) ts ws)
    (hwf : ∀ t ∈ ts, t.Wf) (hv : ∀ t ∈ ts, t.FiniteValues) (hc : ∀ t ∈ ts, t.CoversOk)
    (hr : ∀ t ∈ ts, t.RowReadable entry missing) (cs : List K) (hcs : cs.length = row.length + 1) :
    ∃ (means : List (K × List (Nat × K))) (cs' : List K),
      List.Forall₂ (fun t p => CondExp t.nodes entry missing ∅ 0 p.1 ∧ MeanPath t.nodes entry missing 0 p.2)
        ts means ∧
      Res.foldM' (fun c (tw : Tree (FX m32) (FX m64) × List (FX m64)) =>
        tw.1.contribAverage row c tw.2 missing) (cs.map FX.fin) (ts.zip ws) = .ok (cs'.map FX.fin) ∧
      cs'.length = row.length + 1 ∧
      (∀ f < row.length, cs'.getD f 0 = cs.getD f 0 + (means.map fun p => changeBy f p.2).sum) ∧
      cs'.getD row.length 0 = cs.getD row.length 0 + (means.map Prod.fst).sum := by
  induction hw generalizing cs with
  | nil => exact ⟨[], cs, .nil, rfl, hcs, by simp, by simp⟩
  | @cons t w ts ws hw _ ih =>
    obtain ⟨e, steps, c1, hE, hp, e1, l1, f1, b1⟩ := contribAverage_means (hwf t (by simp)) (hv t (by simp))
      (hc t (by simp)) (hr t (by simp)) hw hrow cs hcs
    obtain ⟨means, c2, hg, e2, l2, f2, b2⟩ := ih (fun t ht => hwf t (by simp [ht]))
      (fun t ht => hv t (by simp [ht])) (fun t ht => hc t (by simp [ht])) (fun t ht => hr t (by simp [ht])) c1 l1
    refine ⟨(e, steps) :: means, c2, .cons ⟨hE, hp⟩ hg, ?_, l2, fun f hf => ?_, ?_⟩
    · simp only [List.zip_cons_cons, Res.foldM'_cons, e1, Res.ok_bind, e2]
    · rw [f2 f hf, f1 f hf, List.map_cons, List.sum_cons]; ring
    · rw [b2, b1, List.map_cons, List.sum_cons]; ring

/-- C146.  Exact arithmetic.  `predict_contributions` with method Average returns one group of `cols + 1` numbers per
row.  Number `f` of the group is the sum, over the trees and over the nodes on the way of the row that test `f`, of
the change of the expectation from the node to the child chosen.  The last number is the base score plus the
expectations of the trees. -/
theorem C146_average (b : Booster (FX m32) (FX m64)) (data : Matrix (FX m64)) (hd : data.Shaped)
    (hwf : ∀ t ∈ b.trees, t.Wf) (hv : ∀ t ∈ b.trees, t.FiniteValues) (hc : ∀ t ∈ b.trees, t.CoversOk)
    (hr : ∀ t ∈ b.trees, ∀ i < data.rows, t.RowReadable (data.entry i) b.missing)
    (hu : b.used ≤ b.trees.length) (base : K) (hb : b.baseScore = .fin base) :
    ∃ rows : List (List K), b.predictContributions data .average = .ok (rows.flatten.map FX.fin) ∧
      rows.length = data.rows ∧
      ∀ (i : Nat) (r : List K), rows[i]? = some r → r.length = data.cols + 1 ∧
        ∃ means : List (K × List (Nat × K)),
          List.Forall₂ (fun t p => CondExp t.nodes (data.entry i) b.missing ∅ 0 p.1 ∧
            MeanPath t.nodes (data.entry i) b.missing 0 p.2) (b.trees.take b.used) means ∧
          (∀ f < data.cols, r[f]? = some (means.map fun p => changeBy f p.2).sum) ∧
          r[data.cols]? = some (base + (means.map Prod.fst).sum) := by
  have hmem : ∀ t, t ∈ b.trees.take b.used → t ∈ b.trees := fun t ht => List.mem_of_mem_take ht
  obtain ⟨ws, hws⟩ : ∃ ws, Res.mapM' Tree.distributeLeafWeights (b.trees.take b.used) = .ok ws :=
    Res.mapM'_exists fun t ht => by
      obtain ⟨w, hw, -⟩ := distributeLeafWeights_spec (hwf t (hmem t ht)); exact ⟨w, hw⟩
  have hws' := Res.mapM'_eq_ok.1 hws
  have row : ∀ i, i < data.rows → ∃ r : List K,
      contribsRowAverage b (b.trees.take b.used) ws data i = .ok (r.map FX.fin) ∧
      r.length = data.cols + 1 ∧
        ∃ means : List (K × List (Nat × K)),
          List.Forall₂ (fun t p => CondExp t.nodes (data.entry i) b.missing ∅ 0 p.1 ∧
            MeanPath t.nodes (data.entry i) b.missing 0 p.2) (b.trees.take b.used) means ∧
          (∀ f < data.cols, r[f]? = some (means.map fun p => changeBy f p.2).sum) ∧
          r[data.cols]? = some (base + (means.map Prod.fst).sum) := by
    intro i hi
    obtain ⟨r, hrow, hlen, hent⟩ := getRow_entry hd hi
    obtain ⟨means, cs, hg, e, hl, hf, hbias⟩ := average_trees hent hws'
      (fun t ht => hwf t (hmem t ht)) (fun t ht => hv t (hmem t ht)) (fun t ht => hc t (hmem t ht))
      (fun t ht => hr t (hmem t ht) i hi) (List.replicate data.cols 0 ++ [base]) (by simp [hlen])
    rw [hlen] at hl hf hbias
    have get : ∀ f < data.cols + 1, cs[f]? = some (cs.getD f 0) := fun f h => by
      rw [List.getD_eq_getElem?_getD, List.getElem?_eq_getElem (by omega)]; rfl
    refine ⟨cs, ?_, hl, means, hg, fun f h => ?_, ?_⟩
    · rw [contribsRowAverage, hrow, Res.ok_bind, hb, initContribs_eq]; exact e
    · rw [get f (by omega), hf f h, List.getD_eq_getElem?_getD,
        List.getElem?_append_left (by simpa using h), List.getElem?_replicate, if_pos h]
      simp
    · rw [get _ (by omega), hbias, List.getD_eq_getElem?_getD, List.getElem?_append_right (by simp)]
      simp
  choose! r hr1 hr2 using row
  have e : Res.mapM' (contribsRowAverage b (b.trees.take b.used) ws data) data.index =
      .ok (((List.range data.rows).map r).map (List.map FX.fin)) := by
    rw [Res.mapM'_eq_ok, forall₂_index]
    refine ⟨by simp, fun i x hx => ?_⟩
    have hi : i < data.rows := by
      have := (List.getElem?_eq_some_iff.1 hx).1
      simpa using this
    rw [List.map_map, List.getElem?_map, List.getElem?_range hi] at hx
    cases hx
    exact hr1 i hi
  refine ⟨(List.range data.rows).map r, ?_, by simp, fun i x hx => ?_⟩
  · rw [Booster.predictContributions, Booster.contribRows, predictionTrees_eq_ok.2 ⟨hu, rfl⟩]
    simp only [Res.ok_bind, hws, e, List.map_flatten]
  · have hi : i < data.rows := by
      have := (List.getElem?_eq_some_iff.1 hx).1
      simpa using this
    rw [List.getElem?_map, List.getElem?_range hi] at hx
    cases hx
    exact hr2 i hi

/-- When the features of a path are known, the expectation follows the path. -/
theorem MeanPath.condExp (hv : t.FiniteValues) {U : Finset Nat} {i : Nat} {steps : List (Nat × K)}
    (h : MeanPath t.nodes entry missing i steps) (hU : ∀ s ∈ steps, s.1 ∈ U) {e : K}
    (he : CondExp t.nodes entry missing ∅ i e) :
    CondExp t.nodes entry missing U i (e + (steps.map Prod.snd).sum) := by
  induction h generalizing e with
  | leaf h1 h2 =>
    cases he with
    | leaf g1 g2 g3 => rw [h1] at g1; cases g1; simpa using CondExp.leaf h1 h2 g3
    | known g1 g2 => rw [h1] at g1; cases g1; simp_all
    | two g1 g2 => rw [h1] at g1; cases g1; simp_all
    | three g1 g2 => rw [h1] at g1; cases g1; simp_all
  | step h1 h2 h3 h4 h5 h6 _ ih =>
    have := CondExp.known h1 h2 (hU _ List.mem_cons_self) h3 h4
      (ih (fun s hs => hU s (List.mem_cons_of_mem _ hs)) h6)
    rw [h5.unique he]
    convert this using 1
    simp only [List.map_cons, List.sum_cons]
    ring

theorem MeanPath.feature {i : Nat} {steps : List (Nat × K)} (h : MeanPath t.nodes entry missing i steps) :
    ∀ s ∈ steps, ∃ n ∈ t.nodes, n.isLeaf = false ∧ n.splitFeature = s.1 := by
  induction h with
  | leaf => simp
  | step h1 h2 _ _ _ _ _ ih =>
    intro s hs
    rcases List.mem_cons.1 hs with rfl | hs
    · exact ⟨_, List.mem_of_getElem? h1, h2, rfl⟩
    · exact ih s hs

/-- In a tree that tests a single feature. -/
theorem MeanPath.shapley (hv : t.FiniteValues) {g : Nat} (hg : t.UsesOnly [g]) {E : Finset Nat → K}
    (hE : ∀ U, CondExp t.nodes entry missing U 0 (E U)) {steps : List (Nat × K)}
    (h : MeanPath t.nodes entry missing 0 steps) {N : Finset Nat} {f : Nat} (hf : f ∈ N) :
    changeBy f steps = shapleyValue N E f := by
  have hall : ∀ s ∈ steps, s.1 = g := fun s hs => by
    obtain ⟨n, hn, hl, e⟩ := h.feature s hs
    rw [← e]; simpa using hg n hn hl
  rw [shapleyValue_single hE hg hf]
  by_cases e : g = f
  · subst e
    have := (h.condExp hv (U := {g}) (fun s hs => by simp [hall s hs]) (hE ∅)).unique (hE {g})
    rw [← this, changeBy, List.filter_eq_self.2 (by simpa using hall)]
    ring
  · have h1 : E {f} = E ∅ := ((hE {f}).congr (V := ∅) fun n hn hl => by
      have := hg n hn hl
      rw [List.mem_singleton] at this
      simp [this, e]).unique (hE ∅)
    rw [h1, changeBy, List.filter_eq_nil_iff.2 (fun s hs => by simp [hall s hs, e])]
    simp

/-- The two methods, when they agree in each number of each row. -/
theorem rows_eq {as bs : List (List K)} {n c : Nat} (h1 : as.length = n) (h2 : bs.length = n)
    (h : ∀ (i : Nat) (a b : List K), as[i]? = some a → bs[i]? = some b → a.length = c ∧ b.length = c ∧ ∀ f < c, a[f]? = b[f]?) :
    as = bs := by
  refine List.ext_getElem? fun i => ?_
  by_cases hi : i < n
  · have ha : as[i]? = some as[i] := List.getElem?_eq_getElem (by omega)
    have hb : bs[i]? = some bs[i] := List.getElem?_eq_getElem (by omega)
    obtain ⟨l1, l2, hf⟩ := h i _ _ ha hb
    rw [ha, hb]
    refine congrArg some (List.ext_getElem? fun f => ?_)
    by_cases hc : f < c
    · exact hf f hc
    · rw [List.getElem?_eq_none (by omega), List.getElem?_eq_none (by omega)]
  · rw [List.getElem?_eq_none (by omega), List.getElem?_eq_none (by omega)]

/-- C146, bias.  Exact arithmetic.  The methods Average and Shapley give every row the same last number. -/
theorem C146_bias (b : Booster (FX m32) (FX m64)) (data : Matrix (FX m64)) (hd : data.Shaped)
    (hwf : ∀ t ∈ b.trees, t.Wf) (hv : ∀ t ∈ b.trees, t.FiniteValues) (hc : ∀ t ∈ b.trees, t.CoversOk)
    (hr : ∀ t ∈ b.trees, ∀ i < data.rows, t.RowReadable (data.entry i) b.missing)
    (hu : b.used ≤ b.trees.length) (hb : b.baseScore.IsFin) :
    ∃ as bs : List (List K), b.predictContributions data .average = .ok (as.flatten.map FX.fin) ∧
      b.predictContributions data .shapley = .ok (bs.flatten.map FX.fin) ∧
      as.length = data.rows ∧ bs.length = data.rows ∧
      ∀ (i : Nat) (x y : List K), as[i]? = some x → bs[i]? = some y → x.length = data.cols + 1 ∧ y.length = data.cols + 1 ∧
        x[data.cols]? = y[data.cols]? := by
  obtain ⟨base, hb⟩ := hb
  obtain ⟨as, e1, l1, h1⟩ := C146_average b data hd hwf hv hc hr hu base hb
  obtain ⟨bs, e2, l2, h2⟩ := C16_shapley b data hd hwf hv hc hr hu base hb
  refine ⟨as, bs, e1, e2, l1, l2, fun i x y hx hy => ?_⟩
  obtain ⟨n1, means, m1, m2, m3⟩ := h1 i x hx
  obtain ⟨n2, games, g1, g2, g3⟩ := h2 i y hy
  refine ⟨n1, n2, ?_⟩
  rw [m3, g3]
  have : means.map Prod.fst = games.map fun E => E ∅ := by
    clear m2 m3 g2 g3 h1 h2
    generalize b.trees.take b.used = ts at m1 g1
    induction m1 generalizing games with
    | nil => cases g1; rfl
    | cons h _ ih =>
      cases g1 with
      | cons h' hs => rw [List.map_cons, List.map_cons, ih _ hs, h.1.unique (h' ∅)]
  rw [this]

/-- C146, agreement.  Exact arithmetic.  When each tree tests a single feature, the methods Average and Shapley return
the same numbers. -/
theorem C146_single (b : Booster (FX m32) (FX m64)) (data : Matrix (FX m64)) (hd : data.Shaped)
    (hwf : ∀ t ∈ b.trees, t.Wf) (hv : ∀ t ∈ b.trees, t.FiniteValues) (hc : ∀ t ∈ b.trees, t.CoversOk)
    (hr : ∀ t ∈ b.trees, ∀ i < data.rows, t.RowReadable (data.entry i) b.missing)
    (hu : b.used ≤ b.trees.length) (hb : b.baseScore.IsFin) (hone : ∀ t ∈ b.trees, ∃ g, t.UsesOnly [g]) :
    ∃ out, b.predictContributions data .average = .ok out ∧ b.predictContributions data .shapley = .ok out := by
  obtain ⟨base, hb⟩ := hb
  obtain ⟨as, e1, l1, h1⟩ := C146_average b data hd hwf hv hc hr hu base hb
  obtain ⟨bs, e2, l2, h2⟩ := C16_shapley b data hd hwf hv hc hr hu base hb
  have : as = bs := rows_eq (c := data.cols + 1) l1 l2 fun i x y hx hy => by
    obtain ⟨n1, means, m1, m2, m3⟩ := h1 i x hx
    obtain ⟨n2, games, g1, g2, g3⟩ := h2 i y hy
    have hts : ∀ t ∈ b.trees.take b.used, t.FiniteValues ∧ ∃ g, t.UsesOnly [g] := fun t ht =>
      ⟨hv t (List.mem_of_mem_take ht), hone t (List.mem_of_mem_take ht)⟩
    have key : ∀ (p : K × List (Nat × K) → K) (s : (Finset Nat → K) → K),
        (∀ t ∈ b.trees.take b.used, ∀ m E, CondExp t.nodes (data.entry i) b.missing ∅ 0 m.1 ∧
          MeanPath t.nodes (data.entry i) b.missing 0 m.2 →
          (∀ S, CondExp t.nodes (data.entry i) b.missing S 0 (E S)) → p m = s E) → means.map p = games.map s := by
      intro p s
      clear m2 m3 g2 g3 h1 h2 hts
      generalize b.trees.take b.used = ts at m1 g1
      induction m1 generalizing games with
      | nil => intro _; cases g1; rfl
      | @cons t m ts ms h _ ih =>
        intro hps
        cases g1 with
        | cons h' hs =>
          rw [List.map_cons, List.map_cons, ih _ hs (fun t ht => hps t (by simp [ht])), hps t (by simp) _ _ h h']
    refine ⟨n1, n2, fun f hf => ?_⟩
    rcases Nat.lt_succ_iff_lt_or_eq.1 hf with hf | rfl
    · rw [m2 f hf, g2 f hf, key _ (fun E => shapleyValue (Finset.range data.cols) E f) fun t ht m E hm hE => ?_]
      obtain ⟨hvt, g, hg⟩ := hts t ht
      exact hm.2.shapley hvt hg hE (Finset.mem_range.2 hf)
    · rw [m3, g3, key _ (fun E => E ∅) fun t ht m E hm hE => hm.1.unique (hE ∅)]
  subst this
  exact ⟨_, e1, e2⟩

/-- C146 for fitted models.  Exact arithmetic.  For every model fitted on finite data with `max_depth` at most 1 and
every new matrix with at least the columns of the training data whose values can be read, the methods Average and
Shapley return the same numbers. -/
theorem C146_fitted {R : Type} {env : Env R (FX m32) (FX m64)} {b b' : Booster (FX m32) (FX m64)}
    {X : Matrix (FX m64)} {y w : List K} {ev : Option (List (EvalSet (FX m64)))} {l1 l2 mds lr : K}
    (h : PlainFit env b X y w ev b' l1 l2 mds lr) (hdep : b.maxDepth ≤ 1) (data : Matrix (FX m64))
    (hd : data.Shaped) (hcols : X.cols ≤ data.cols) (hread : ∀ v ∈ data.data, Readable b.missing v)
    (hu : b'.used ≤ b'.trees.length) :
    ∃ out, b'.predictContributions data .average = .ok out ∧ b'.predictContributions data .shapley = .ok out := by
  obtain ⟨base, binned, st, stop, N, hT⟩ := Booster.fit_trace h.fit
  have hsame := hT.same N (le_refl _)
  unfold Booster.SameParams at hsame
  rw [hT.last] at hsame
  have hb : b'.baseScore.IsFin := by
    rw [hsame]; exact h.base base hT.base_eq
  have hmiss : b'.missing = b.missing := by rw [hsame]
  have hE := h.explainable
  refine C146_single b' data hd hE.wf hE.values hE.covers (fun t ht i hi n hn hl => ?_) hu hb
    fun t ht => C114_stump h.fit hdep ht
  obtain ⟨v, hv⟩ := entry_shaped hd hi (lt_of_lt_of_le (fit_featuresBelow h.rng h.fit t ht n hn hl) hcols)
  exact ⟨v, hv, by rw [hmiss]; exact hread v (List.mem_of_getElem? hv)⟩

end

/-! ### The hypotheses are met, and the limit is needed -/

/-- A fit with `max_depth = 1` that splits on both columns: both methods give row 0 the numbers -1/2, -1/2, 7/8. -/
example : ∃ b' out, PlainFit exEnv (exDepth 1) exAnd [0, 0, 0, 4] (List.replicate 4 (1 : ℚ)) none b' 0 0 0
      (1/2) ∧ (exDepth 1).maxDepth ≤ 1 ∧ exAnd.Shaped ∧ (∀ v ∈ exAnd.data, Readable (exDepth 1).missing v) ∧
      b'.used ≤ b'.trees.length ∧ b'.predictContributions exAnd .average = .ok out ∧
      b'.predictContributions exAnd .shapley = .ok out ∧ out.take 3 = [q (-1/2), q (-1/2), q (7/8)] := by
  have : (match (exDepth 1).fit exEnv exAnd [q 0, q 0, q 0, q 4] [q 1, q 1, q 1, q 1] none with
    | .ok (b', .ok ()) => match b'.predictContributions exAnd .average with
      | .ok out => decide (b'.used ≤ b'.trees.length ∧ b'.predictContributions exAnd .shapley = .ok out ∧
        out.take 3 = [q (-1/2), q (-1/2), q (7/8)])
      | _ => false
    | _ => false) = true := by decide +kernel
  split at this
  · rename_i b' h
    split at this
    · rename_i out ho
      obtain ⟨h1, h2, h3⟩ := of_decide_eq_true this
      exact ⟨b', out, exDepth_plain h, le_rfl, rfl, by decide +kernel, h1, ho, h2, h3⟩
    · cases this
  · cases this

/-- With `max_depth = 2` the two methods disagree. -/
example : ∃ b' out out', PlainFit exEnv (exDepth 2) exAnd [0, 0, 0, 4] (List.replicate 4 (1 : ℚ)) none b' 0 0 0
      (1/2) ∧ b'.predictContributions exAnd .average = .ok out ∧
      b'.predictContributions exAnd .shapley = .ok out' ∧ out ≠ out' := by
  have : (match (exDepth 2).fit exEnv exAnd [q 0, q 0, q 0, q 4] [q 1, q 1, q 1, q 1] none with
    | .ok (b', .ok ()) => match b'.predictContributions exAnd .average, b'.predictContributions exAnd .shapley with
      | .ok out, .ok out' => decide (out ≠ out')
      | _, _ => false
    | _ => false) = true := by decide +kernel
  split at this
  · rename_i b' h
    split at this
    · rename_i out out' ho ho'
      exact ⟨b', out, out', exDepth_plain h, ho, ho', of_decide_eq_true this⟩
    · cases this
  · cases this

end Verif
