import Verif.Props.AverageShapley
import Verif.Props.TotalGain

/-!
# C148: on the training data the Average contributions of each feature cancel out
-/

set_option linter.unusedSectionVars false

namespace Verif

open scoped Verif BigOperators

section
variable {K : Type} [Field K] [LinearOrder K] [IsStrictOrderedRing K] {m32 m64 : Fmt K}
  [m32.Exact] [m64.Exact]
variable {t : Tree (FX m32) (FX m64)} {X : Matrix (FX m64)} {missing : FX m64}

open Classical in
/-- The sum of `g` over the rows that pass node `i`. -/
noncomputable def passSum (t : Tree (FX m32) (FX m64)) (X : Matrix (FX m64)) (missing : FX m64)
    (rows : List Nat) (i : Nat) (g : Nat → K) : K :=
  (rows.map fun r => if Reaches t.nodes (X.entry r) missing i then g r else 0).sum

theorem rowsAt_sum (rows : List Nat) (i : Nat) (g : Nat → K) :
    ((rowsAt t X missing rows i).map g).sum = passSum t X missing rows i g := by
  unfold rowsAt passSum
  induction rows with
  | nil => rfl
  | cons r rs ih =>
    rw [List.filter_cons, List.map_cons, List.sum_cons, ← ih]
    by_cases h : Reaches t.nodes (X.entry r) missing i <;> simp [h]

theorem passSum_congr {rows : List Nat} {i : Nat} {g g' : Nat → K} (h : ∀ r ∈ rows, g r = g' r) :
    passSum t X missing rows i g = passSum t X missing rows i g' := by
  unfold passSum
  congr 1
  exact List.map_congr_left fun r hr => by rw [h r hr]

theorem passSum_add (rows : List Nat) (i : Nat) (g g' : Nat → K) :
    passSum t X missing rows i (fun r => g r + g' r) = passSum t X missing rows i g + passSum t X missing rows i g' := by
  unfold passSum
  rw [← List.sum_map_add]
  congr 1
  refine List.map_congr_left fun r _ => ?_
  split <;> simp

theorem passSum_mul (rows : List Nat) (i : Nat) (g : Nat → K) (a : K) :
    passSum t X missing rows i (fun r => g r * a) = passSum t X missing rows i g * a := by
  unfold passSum
  rw [← List.sum_map_mul_right]
  congr 1
  refine List.map_congr_left fun r _ => ?_
  split <;> simp

/-- A row passes a child when it passes the node and is sent to the child. -/
theorem reaches_child {row : Nat → Option (FX m64)} (hwf : t.Wf) {i : Nat} {n : Node (FX m32) (FX m64)}
    (hn : t.nodes[i]? = some n) {c : Nat} (hc : n.IsChild c) {v : FX m64} (hv : row n.splitFeature = some v)
    (hrd : Readable missing v) :
    Reaches t.nodes row missing c ↔ Reaches t.nodes row missing i ∧ n.childFor missing v = c := by
  constructor
  · intro h
    cases h with
    | root => exact absurd (hwf.child i n 0 hn hc).1 (by omega)
    | @step j n' v' h1 h2 h3 h4 h5 =>
      have := hwf.parent_unique i j n n' _ hn h2 hc (Node.childFor_mem n' h3 missing v')
      subst this
      rw [hn] at h2; cases h2
      rw [hv] at h4; cases h4
      exact ⟨h1, rfl⟩
  · rintro ⟨h, rfl⟩
    exact .step h hn hc.1 hv hrd

/-- The rows that pass a node are dealt out to its children. -/
theorem passSum_split (hwf : t.Wf) {i : Nat} {n : Node (FX m32) (FX m64)} (hn : t.nodes[i]? = some n)
    (hl : n.isLeaf = false) {rows : List Nat} {ch : Nat → Nat}
    (hch : ∀ r ∈ rows, ∃ v, X.entry r n.splitFeature = some v ∧ Readable missing v ∧ n.childFor missing v = ch r)
    (g : Nat → Nat → K) :
    passSum t X missing rows i (fun r => g r (ch r)) =
      ∑ c ∈ {n.leftChild, n.rightChild, n.missingNode}, passSum t X missing rows c fun r => g r c := by
  classical
  induction rows with
  | nil => simp [passSum]
  | cons r rs ih =>
    have ih' := ih fun r hr => hch r (by simp [hr])
    unfold passSum at ih' ⊢
    simp only [List.map_cons, List.sum_cons, Finset.sum_add_distrib]
    rw [ih']
    congr 1
    obtain ⟨v, hv, hrd, he⟩ := hch r (by simp)
    have hmem : ch r ∈ ({n.leftChild, n.rightChild, n.missingNode} : Finset Nat) := by
      have := (Node.childFor_mem n hl missing v).2
      rw [he] at this
      simpa using this
    have hsum : ∀ c ∈ ({n.leftChild, n.rightChild, n.missingNode} : Finset Nat),
        (if Reaches t.nodes (X.entry r) missing c then g r c else 0) =
          if ch r = c then (if Reaches t.nodes (X.entry r) missing i then g r c else 0) else 0 := by
      intro c hc
      have hc' : n.IsChild c := ⟨hl, by simpa using hc⟩
      have := reaches_child (missing := missing) hwf hn hc' hv hrd
      rw [he] at this
      by_cases h1 : ch r = c <;> by_cases h2 : Reaches t.nodes (X.entry r) missing i <;> simp [this, h1, h2]
    rw [Finset.sum_congr rfl hsum, Finset.sum_ite_eq, if_pos hmem]

/-- What nothing known makes expected is the same for all rows. -/
theorem CondExp.anyRow {nodes : List (Node (FX m32) (FX m64))} {row row' : Nat → Option (FX m64)} {i : Nat} {e : K}
    (h : CondExp nodes row missing ∅ i e) : CondExp nodes row' missing ∅ i e := by
  induction h with
  | leaf h1 h2 h3 => exact .leaf h1 h2 h3
  | known h1 h2 h3 => simp at h3
  | two h1 h2 h3 h4 h5 h6 h7 h8 h9 _ _ ih1 ih2 => exact .two h1 h2 h3 h4 h5 h6 h7 h8 h9 ih1 ih2
  | three h1 h2 h3 h4 h5 h6 h7 h8 h9 h10 h11 h12 _ _ _ ih1 ih2 ih3 =>
    exact .three h1 h2 h3 h4 h5 h6 h7 h8 h9 h10 h11 h12 ih1 ih2 ih3

theorem MeanPath.unique {nodes : List (Node (FX m32) (FX m64))} {row : Nat → Option (FX m64)} {i : Nat}
    {s s' : List (Nat × K)} (h : MeanPath nodes row missing i s) (h' : MeanPath nodes row missing i s') : s = s' := by
  induction h generalizing s' with
  | leaf h1 h2 =>
    cases h' with
    | leaf => rfl
    | step g1 g2 => rw [h1] at g1; cases g1; rw [h2] at g2; cases g2
  | step h1 h2 h3 _ h5 h6 _ ih =>
    cases h' with
    | leaf g1 g2 => rw [h1] at g1; cases g1; rw [h2] at g2; cases g2
    | step g1 g2 g3 _ g5 g6 g7 =>
      rw [h1] at g1; cases g1
      rw [h3] at g3; cases g3
      rw [ih g7, h5.unique g5, h6.unique g6]

/-- The steps of a row can be followed from each node. -/
theorem meanPath_exists (hwf : t.Wf) (hv : t.FiniteValues) (hc : t.CoversOk) {row : Nat → Option (FX m64)}
    (hr : t.RowReadable row missing) (i : Nat) (hi : i < t.nodes.length) :
    ∃ s : List (Nat × K), MeanPath t.nodes row missing i s := by
  obtain ⟨l, h⟩ := route_of_readable hwf hr i hi
  induction h with
  | leaf h1 h2 => exact ⟨_, .leaf h1 h2⟩
  | step h1 h2 h3 h4 _ ih =>
    obtain ⟨c1, c2⟩ := hwf.child _ _ _ h1 (Node.childFor_mem _ h2 missing _)
    obtain ⟨a, ha⟩ := condExp_exists hwf hv hc hr ∅ _ hi
    obtain ⟨c, hc'⟩ := condExp_exists hwf hv hc hr ∅ _ c2
    obtain ⟨s, hs⟩ := ih c2
    exact ⟨_, .step h1 h2 h3 h4 ha hc' hs⟩

/-- Weighted with the covers of the children, the changes of the expectation at a node cancel out. -/
theorem condExp_balance (hwf : t.Wf) (hc : t.CoversOk) {row : Nat → Option (FX m64)} {E H : Nat → K}
    (hE : ∀ i < t.nodes.length, CondExp t.nodes row missing ∅ i (E i))
    (hH : ∀ (i : Nat) (n : Node (FX m32) (FX m64)), t.nodes[i]? = some n → n.hessianSum = .fin (H i))
    {i : Nat} {n : Node (FX m32) (FX m64)} (hn : t.nodes[i]? = some n) (hl : n.isLeaf = false)
    (hadd : H i = ∑ c ∈ {n.leftChild, n.rightChild, n.missingNode}, H c) :
    ∑ c ∈ {n.leftChild, n.rightChild, n.missingNode}, H c * (E c - E i) = 0 := by
  have hi := (List.getElem?_eq_some_iff.1 hn).1
  have hne : H i ≠ 0 := by
    obtain ⟨c, h1, h2⟩ := hc n (List.mem_of_getElem? hn)
    rw [hH i n hn] at h1
    injection h1 with e
    rw [e]; exact h2 hl
  have hd := hwf.distinct i n hn hl
  have key : H i * E i = ∑ c ∈ {n.leftChild, n.rightChild, n.missingNode}, H c * E c := by
    have h := hE i hi
    generalize he : E i = e at h
    cases h with
    | leaf g1 g2 => rw [hn] at g1; cases g1; rw [hl] at g2; cases g2
    | known g1 g2 g3 => simp at g3
    | two g1 g2 g3 g4 g5 g6 g7 g8 g9 g10 g11 =>
      rw [hn] at g1; cases g1
      have e0 := hH _ _ hn; rw [g7] at e0; injection e0 with e0
      have e1 := hH _ _ g5; rw [g8] at e1; injection e1 with e1
      have e2 := hH _ _ g6; rw [g9] at e2; injection e2 with e2
      have a1 := g10.unique (hE _ (List.getElem?_eq_some_iff.1 g5).1)
      have a2 := g11.unique (hE _ (List.getElem?_eq_some_iff.1 g6).1)
      have hs : ({n.leftChild, n.rightChild, n.missingNode} : Finset Nat) = {n.leftChild, n.rightChild} := by
        ext x; simp only [Finset.mem_insert, Finset.mem_singleton]
        rcases g4 with g4 | g4 <;> rw [g4] <;> tauto
      rw [hs, Finset.sum_pair hd, ← e1, ← e2, ← a1, ← a2, ← e0]
      rw [← e0] at hne
      field_simp
    | three g1 g2 g3 g4 g4' g5 g6 g6' g7 g8 g9 g9' g10 g11 g12 =>
      rw [hn] at g1; cases g1
      have e0 := hH _ _ hn; rw [g7] at e0; injection e0 with e0
      have e1 := hH _ _ g5; rw [g8] at e1; injection e1 with e1
      have e2 := hH _ _ g6; rw [g9] at e2; injection e2 with e2
      have e3 := hH _ _ g6'; rw [g9'] at e3; injection e3 with e3
      have a1 := g10.unique (hE _ (List.getElem?_eq_some_iff.1 g5).1)
      have a2 := g11.unique (hE _ (List.getElem?_eq_some_iff.1 g6).1)
      have a3 := g12.unique (hE _ (List.getElem?_eq_some_iff.1 g6').1)
      rw [Finset.sum_insert (by simp [hd, Ne.symm g4']), Finset.sum_pair (Ne.symm g4), ← e1, ← e2, ← e3, ← a1, ← a2,
        ← a3, ← e0]
      rw [← e0] at hne
      field_simp
      ring
  simp only [mul_sub, Finset.sum_sub_distrib]
  rw [← key, ← Finset.sum_mul, ← hadd, sub_self]

/-- Below each node the changes credited to a feature cancel out over the rows the covers count. -/
theorem mean_balance (hwf : t.Wf) (hc : t.CoversOk) {rows : List Nat} {hv : Nat → K}
    (hcov : ∀ (i : Nat) (n : Node (FX m32) (FX m64)), t.nodes[i]? = some n → n.hessianSum = .fin (passSum t X missing rows i hv))
    (hread : ∀ r ∈ rows, t.RowReadable (X.entry r) missing) {E : Nat → K}
    (hE : ∀ r ∈ rows, ∀ i < t.nodes.length, CondExp t.nodes (X.entry r) missing ∅ i (E i))
    {st : Nat → Nat → List (Nat × K)}
    (hst : ∀ r ∈ rows, ∀ i < t.nodes.length, MeanPath t.nodes (X.entry r) missing i (st r i)) (f i : Nat)
    (hi : i < t.nodes.length) : passSum t X missing rows i (fun r => hv r * changeBy f (st r i)) = 0 := by
  cases hrows : rows with
  | nil => rfl
  | cons r0 rs =>
  have hr0 : r0 ∈ rows := by rw [hrows]; simp
  rw [← hrows]; clear hrows
  induction h : t.nodes.length - i using Nat.strong_induction_on generalizing i with
  | _ k ih =>
    subst h
    have hn := List.getElem?_eq_getElem hi
    cases hl : t.nodes[i].isLeaf with
    | true =>
      rw [passSum_congr (g' := fun r => hv r * 0) fun r hr => ?_, passSum_mul, mul_zero]
      rw [(hst r hr i hi).unique (.leaf hn hl)]; rfl
    | false =>
      let n := t.nodes[i]
      let ch : Nat → Nat := fun r => match X.entry r n.splitFeature with
        | some v => n.childFor missing v
        | none => 0
      have hch : ∀ r ∈ rows, ∃ v, X.entry r n.splitFeature = some v ∧ Readable missing v ∧
          n.childFor missing v = ch r := by
        intro r hr
        obtain ⟨v, h1, h2⟩ := hread r hr n (List.mem_of_getElem? hn) hl
        refine ⟨v, h1, h2, ?_⟩
        simp only [ch, h1]
      have hlt : ∀ c ∈ ({n.leftChild, n.rightChild, n.missingNode} : Finset Nat), i < c ∧ c < t.nodes.length :=
        fun c hc => hwf.child i n c hn ⟨hl, by simpa using hc⟩
      have hstep : ∀ r ∈ rows, hv r * changeBy f (st r i) =
          hv r * (if n.splitFeature = f then E (ch r) - E i else 0) + hv r * changeBy f (st r (ch r)) := by
        intro r hr
        obtain ⟨v, h1, h2, h3⟩ := hch r hr
        have hcl := (hwf.child i n _ hn (Node.childFor_mem n hl missing v)).2
        have := (hst r hr i hi).unique (.step hn hl h1 h2 (hE r hr i hi) (hE r hr _ hcl) (hst r hr _ hcl))
        rw [this, changeBy_cons, mul_add]
        show hv r * (if n.splitFeature = f then _ else _) + hv r * changeBy f (st r (n.childFor missing v)) = _
        rw [h3]
      rw [passSum_congr hstep, passSum_split hwf hn hl hch
        (fun r c => hv r * (if n.splitFeature = f then E c - E i else 0) + hv r * changeBy f (st r c))]
      have hterm : ∀ c ∈ ({n.leftChild, n.rightChild, n.missingNode} : Finset Nat),
          passSum t X missing rows c
            (fun r => hv r * (if n.splitFeature = f then E c - E i else 0) + hv r * changeBy f (st r c)) =
          passSum t X missing rows c hv * (if n.splitFeature = f then E c - E i else 0) := by
        intro c hc
        obtain ⟨c1, c2⟩ := hlt c hc
        rw [passSum_add, passSum_mul, ih _ (by omega) c c2 rfl, add_zero]
      rw [Finset.sum_congr rfl hterm]
      by_cases hf : n.splitFeature = f
      · simp only [hf, if_true]
        exact condExp_balance hwf hc (hE r0 hr0) hcov hn hl
          (passSum_split hwf hn hl hch fun r _ => hv r)
      · simp [hf]

theorem passSum_root (rows : List Nat) (g : Nat → K) :
    passSum t X missing rows 0 g = (rows.map g).sum := by
  unfold passSum
  congr 1
  exact List.map_congr_left fun r _ => by rw [if_pos .root]

/-- The training data can be read by the trees. -/
theorem PlainFit.rowReadable {R : Type} {env : Env R (FX m32) (FX m64)} {b b' : Booster (FX m32) (FX m64)}
    {y w : List K} {ev : Option (List (EvalSet (FX m64)))} {l1 l2 mds lr : K}
    (h : PlainFit env b X y w ev b' l1 l2 mds lr) : ∀ t ∈ b'.trees, ∀ i < X.rows,
      t.RowReadable (X.entry i) b.missing := by
  intro t ht i hi n hn hl
  obtain ⟨binned, p, k, cfg, rows, hP⟩ := h.tree_mem ht
  obtain ⟨bd, hb, -⟩ := hP.trained.binned
  obtain ⟨cutss, hB⟩ := binMatrix_binned h.shaped (by rw [List.length_map, h.wlen]) hb
  obtain ⟨v, hv⟩ := entry_shaped h.shaped hi (fit_featuresBelow h.rng h.fit t ht n hn hl)
  exact ⟨v, hv, hB.readable v (List.mem_of_getElem? hv)⟩

/-! ### C148 -/

/-- C148, one tree.  Exact arithmetic.  Weighted with the second derivatives a tree was trained on, the changes of the
expectation that the tree credits to a feature add up to zero over the rows it was trained on, whatever the
objective, the sampling and the treatment of missing values. -/
theorem C148_tree {R : Type} {env : Env R (FX m32) (FX m64)} {b b' : Booster (FX m32) (FX m64)}
    {y w p : List K} {ev : Option (List (EvalSet (FX m64)))} {l1 l2 mds lr : K} {binned : BinnedData (FX m64)}
    {k : Nat} {cfg : GrowCfg (FX m32) (FX m64)} {rows : List Nat}
    (h : PlainFit env b X y w ev b' l1 l2 mds lr) (ht : t ∈ b'.trees)
    (hP : PlainTree env b X y w l1 l2 mds lr binned p k t cfg rows) {steps : Nat → List (Nat × K)}
    (hst : ∀ r ∈ rows, MeanPath t.nodes (X.entry r) b.missing 0 (steps r)) (f : Nat) :
    (rows.map fun r => rowVals cfg.train.hess r * changeBy f (steps r)).sum = 0 := by
  classical
  have hE := h.explainable
  have hwf := hE.wf t ht
  have hv := hE.values t ht
  have hc := hE.covers t ht
  have hread : ∀ r ∈ rows, t.RowReadable (X.entry r) b.missing := fun r hr =>
    h.rowReadable t ht r (hP.trained.rows_lt r hr)
  cases hrows : rows with
  | nil => rfl
  | cons r0 rs =>
  have hr0 : r0 ∈ rows := by rw [hrows]; simp
  rw [← hrows]; clear hrows
  have hEx : ∀ i, ∃ e, i < t.nodes.length → CondExp t.nodes (X.entry r0) b.missing ∅ i e := fun i => by
    by_cases hi : i < t.nodes.length
    · obtain ⟨e, he⟩ := condExp_exists hwf hv hc (hread r0 hr0) ∅ i hi
      exact ⟨e, fun _ => he⟩
    · exact ⟨0, fun h => absurd h hi⟩
  choose E hEE using hEx
  have hSt : ∀ r i, ∃ s : List (Nat × K), r ∈ rows → i < t.nodes.length →
      MeanPath t.nodes (X.entry r) b.missing i s := fun r i => by
    by_cases hr : r ∈ rows
    · by_cases hi : i < t.nodes.length
      · obtain ⟨s, hs⟩ := meanPath_exists hwf hv hc (hread r hr) i hi
        exact ⟨s, fun _ _ => hs⟩
      · exact ⟨[], fun _ h => absurd h hi⟩
    · exact ⟨[], fun h => absurd h hr⟩
  choose st hst' using hSt
  have h0 : 0 < t.nodes.length := List.length_pos_iff.2 hwf.nonempty
  have := mean_balance hwf hc (rows := rows) (hv := rowVals cfg.train.hess)
    (fun i n hn => by rw [C01_cover hP.trained hP.treeAt.fitted.fit hn, rowsAt_sum])
    hread (fun r _ i hi => (hEE i hi).anyRow) (fun r hr i hi => hst' r i hr hi) f 0 h0
  rw [passSum_root] at this
  rw [← this]
  congr 1
  exact List.map_congr_left fun r hr => by rw [(hst r hr).unique (hst' r 0 hr h0)]

/-- The changes of all trees cancel out when those of each do. -/
theorem balance_trees {ts : List (Tree (FX m32) (FX m64))} {n f : Nat} {w : Nat → K}
    (h : ∀ t ∈ ts, ∀ steps : Nat → List (Nat × K),
      (∀ r < n, MeanPath t.nodes (X.entry r) missing 0 (steps r)) →
      ((List.range n).map fun r => w r * changeBy f (steps r)).sum = 0)
    {ms : Nat → List (K × List (Nat × K))}
    (hms : ∀ r < n, List.Forall₂ (fun t p => MeanPath t.nodes (X.entry r) missing 0 p.2) ts (ms r)) :
    ((List.range n).map fun r => w r * ((ms r).map fun p => changeBy f p.2).sum).sum = 0 := by
  induction ts generalizing ms with
  | nil =>
    rw [List.map_congr_left (g := fun _ => (0 : K)) fun r hr => ?_]
    · simp
    · have := hms r (List.mem_range.1 hr)
      cases hm : ms r with
      | nil => simp
      | cons => rw [hm] at this; cases this
  | cons t ts ih =>
    have h1 := h t (by simp) (fun r => ((ms r).headD (0, [])).2) fun r hr => by
      have := hms r hr
      cases hm : ms r with
      | nil => rw [hm] at this; cases this
      | cons p ps => rw [hm] at this; cases this with
        | cons a _ => exact a
    have h2 := ih (fun t ht => h t (by simp [ht])) (ms := fun r => (ms r).tail) fun r hr => by
      have := hms r hr
      cases hm : ms r with
      | nil => rw [hm] at this; cases this
      | cons p ps => rw [hm] at this; cases this with
        | cons _ a => exact a
    have h3 := congrArg₂ (· + ·) h1 h2
    simp only [add_zero] at h3
    rw [← List.sum_map_add] at h3
    rw [← h3]
    congr 1
    refine List.map_congr_left fun r hr => ?_
    have := hms r (List.mem_range.1 hr)
    cases hm : ms r with
    | nil => rw [hm] at this; cases this
    | cons p ps => simp only [List.map_cons, List.sum_cons, List.headD_cons, List.tail_cons, mul_add]

theorem sum_list_range (l : List K) (n : Nat) (h : l.length = n) :
    l.sum = ((List.range n).map fun f => l.getD f 0).sum := by
  subst h
  congr 1
  refine List.ext_getElem (by simp) fun i h1 h2 => ?_
  simp [List.getD_eq_getElem?_getD, List.getElem?_eq_getElem h1]

theorem sum_range_list (g : Nat → K) (n : Nat) : ((List.range n).map g).sum = ∑ i ∈ Finset.range n, g i := by
  induction n with
  | zero => rfl
  | succ n ih => rw [List.range_succ, List.map_append, List.sum_append, ih, Finset.sum_range_succ]; simp

/-- C148.  Exact arithmetic, squared loss and no sampling.  Explained by the method Average, the rows of the training
data have numbers for each feature that add up to zero, weighted with the weights of the rows; and the bias, the same
for all rows, is the weighted mean of their predictions.  This holds of the first `it` trees for any `it` as well. -/
theorem C148_balance {R : Type} {env : Env R (FX m32) (FX m64)} {b b' : Booster (FX m32) (FX m64)}
    {y w : List K} {ev : Option (List (EvalSet (FX m64)))} {l1 l2 mds lr : K}
    (h : PlainFit env b X y w ev b' l1 l2 mds lr) (ho : b.objectiveType = .squaredLoss)
    (hs : b.sampleMethod = .none) (it : Option Nat) (out : List (FX m64))
    (hp : ({ b' with predictionIteration := it }).predict X = .ok out) :
    ∃ (rows : List (List K)) (p : List K) (bias : K), out = p.map FX.fin ∧
      ({ b' with predictionIteration := it }).predictContributions X .average = .ok (rows.flatten.map FX.fin) ∧
      p.length = X.rows ∧ rows.length = X.rows ∧
      (∀ r ∈ rows, r.length = X.cols + 1 ∧ r[X.cols]? = some bias) ∧
      (∀ f < X.cols, ((List.range X.rows).map fun i => w.getD i 0 * (rows.getD i []).getD f 0).sum = 0) ∧
      w.sum * bias = ((List.range X.rows).map fun i => w.getD i 0 * p.getD i 0).sum := by
  obtain ⟨base, binned, st, stop, N, hT⟩ := Booster.fit_trace h.fit
  have hsame := hT.same N (le_refl _)
  unfold Booster.SameParams at hsame
  rw [hT.last] at hsame
  have hb : b'.baseScore.IsFin := by
    rw [hsame]; exact h.base base hT.base_eq
  have hmiss : b'.missing = b.missing := by rw [hsame]
  clear hsame hT
  have hE := h.explainable
  have hread : ∀ t ∈ b'.trees, ∀ i < X.rows, t.RowReadable (X.entry i) b'.missing := by
    rw [hmiss]; exact h.rowReadable
  set B : Booster (FX m32) (FX m64) := { b' with predictionIteration := it } with hB
  have hu : B.used ≤ B.trees.length := ((C19_prediction_iteration B X out).1 hp).1
  have holen : out.length = X.rows := ((C19_prediction_iteration B X out).1 hp).2.1
  obtain ⟨q, hq⟩ := hb
  obtain ⟨rows, e1, l1', hrows⟩ := C146_average B X h.shaped hE.wf hE.values hE.covers hread hu q hq
  obtain ⟨rows', e2, l2', hout⟩ := C13_average_sum B X h.shaped hE.values ⟨q, hq⟩ hE.wf hE.covers out hp
  have hlen : ∀ r ∈ rows, r.length = X.cols + 1 := fun r hr => by
    obtain ⟨i, hi⟩ := List.mem_iff_getElem?.1 hr
    exact (hrows i r hi).1
  have hrr : rows' = rows := by
    rw [e1] at e2
    injection e2 with e2
    have e3 := List.map_injective_iff.2 (fun a b h => by injection h : Function.Injective (FX.fin (m := m64))) e2
    exact (flatten_inj hlen l2' e3).symm
  subst hrr
  have hws : ∀ f, ((List.range X.rows).map fun i => w.getD i 0 * (rows'.getD i []).getD f 0).sum =
      ∑ i ∈ Finset.range X.rows, w.getD i 0 * (rows'.getD i []).getD f 0 := fun f => sum_range_list _ _
  choose ms hms using fun i : Nat => show ∃ means : List (K × List (Nat × K)), i < X.rows →
      List.Forall₂ (fun t p => CondExp t.nodes (X.entry i) B.missing ∅ 0 p.1 ∧
        MeanPath t.nodes (X.entry i) B.missing 0 p.2) (B.trees.take B.used) means ∧
      (∀ f < X.cols, (rows'.getD i []).getD f 0 = (means.map fun p => changeBy f p.2).sum) ∧
      (rows'.getD i [])[X.cols]? = some (q + (means.map Prod.fst).sum) by
    by_cases hi : i < X.rows
    · have hr : rows'[i]? = some rows'[i] := List.getElem?_eq_getElem (by omega)
      obtain ⟨-, means, m1, m2, m3⟩ := hrows i _ hr
      refine ⟨means, fun _ => ⟨m1, fun f hf => ?_, ?_⟩⟩
      · rw [List.getD_eq_getElem?_getD, List.getD_eq_getElem?_getD, hr, Option.getD_some, m2 f hf, Option.getD_some]
      · rw [List.getD_eq_getElem?_getD, hr, Option.getD_some, m3]
    · exact ⟨[], fun h => absurd h hi⟩
  have hfst : ∀ i j, i < X.rows → j < X.rows → (ms i).map Prod.fst = (ms j).map Prod.fst := by
    intro i j hi hj
    have h1 := (hms i hi).1
    have h2 := (hms j hj).1
    generalize ms i = a at h1
    generalize ms j = c at h2
    generalize B.trees.take B.used = ts at h1 h2
    induction h1 generalizing c with
    | nil => cases h2; rfl
    | cons x _ ih =>
      cases h2 with
      | cons z zs => rw [List.map_cons, List.map_cons, ih _ zs, (x.1.anyRow (row' := X.entry j)).unique z.1]
  have hzero : ∀ f < X.cols, ((List.range X.rows).map fun i => w.getD i 0 * (rows'.getD i []).getD f 0).sum = 0 := by
    intro f hf
    have hc : ((List.range X.rows).map fun i => w.getD i 0 * (rows'.getD i []).getD f 0) =
        (List.range X.rows).map fun i => w.getD i 0 * ((ms i).map fun p => changeBy f p.2).sum :=
      List.map_congr_left fun i hi => congrArg (w.getD i 0 * ·) ((hms i (List.mem_range.1 hi)).2.1 f hf)
    rw [hc]
    refine balance_trees (X := X) (missing := B.missing) (ts := B.trees.take B.used) ?_ fun r hr =>
      (hms r hr).1.imp fun _ _ h => h.2
    intro t ht steps hst
    have ht' : t ∈ b'.trees := List.mem_of_mem_take ht
    obtain ⟨k, hk, rfl⟩ := List.mem_iff_getElem.1 ht'
    obtain ⟨p0, p1, bd, cfg, v, -, -, hA, -, hgh, -⟩ := sq_round h ho hs hk
    have := C148_tree h ht' hA (steps := steps) (fun r hr => by
      have := hst r (by rw [← h.ylen]; exact List.mem_range.1 hr)
      rwa [show B.missing = b.missing from hmiss] at this) f
    rw [h.ylen] at this
    refine Eq.trans (congrArg List.sum (List.map_congr_left fun r hr => ?_)) this
    rw [(hgh r (by rw [h.ylen]; exact List.mem_range.1 hr)).2]
  have hbias : ∀ i j, i < X.rows → j < X.rows → (rows'.getD i [])[X.cols]? = (rows'.getD j [])[X.cols]? := by
    intro i j hi hj
    rw [(hms i hi).2.2, (hms j hj).2.2, hfst i j hi hj]
  refine ⟨rows', rows'.map List.sum, ((rows'.getD 0 [])[X.cols]?).getD 0, by rw [hout]; simp, e1, by simp [l1'], l1',
    fun r hr => ⟨hlen r hr, ?_⟩, hzero, ?_⟩
  · obtain ⟨i, hi, rfl⟩ := List.mem_iff_getElem.1 hr
    have h0 : 0 < X.rows := by omega
    have hi' : rows'.getD i [] = rows'[i] := by simp [List.getD_eq_getElem?_getD, List.getElem?_eq_getElem hi]
    rw [← hi', hbias i 0 (by omega) h0, (hms 0 h0).2.2]
    rfl
  · set bias := ((rows'.getD 0 [])[X.cols]?).getD 0 with hbd
    rw [sum_list_range w X.rows h.wlen, sum_range_list, sum_range_list, Finset.sum_mul]
    have hrow : ∀ i ∈ Finset.range X.rows, w.getD i 0 * (rows'.map List.sum).getD i 0 =
        (∑ f ∈ Finset.range X.cols, w.getD i 0 * (rows'.getD i []).getD f 0) + w.getD i 0 * bias := by
      intro i hi
      have hi := Finset.mem_range.1 hi
      have hin : i < rows'.length := by omega
      have h0 : 0 < X.rows := by omega
      have hg : rows'.getD i [] = rows'[i] := by simp [List.getD_eq_getElem?_getD, List.getElem?_eq_getElem hin]
      have e : (rows'.map List.sum).getD i 0 = (rows'.getD i []).sum := by
        rw [hg, List.getD_eq_getElem?_getD, List.getElem?_map, List.getElem?_eq_getElem hin]; rfl
      have hb : (rows'.getD i []).getD X.cols 0 = bias := by
        rw [List.getD_eq_getElem?_getD, hbias i 0 hi h0]
      rw [e, sum_list_range (rows'.getD i []) (X.cols + 1) (by rw [hg]; exact hlen _ (List.getElem_mem hin)),
        sum_range_list, Finset.sum_range_succ, hb, mul_add, Finset.mul_sum]
    have hz : ∑ f ∈ Finset.range X.cols, ∑ i ∈ Finset.range X.rows, w.getD i 0 * (rows'.getD i []).getD f 0 = 0 :=
      Finset.sum_eq_zero fun f hf => by rw [← hws f, hzero f (Finset.mem_range.1 hf)]
    rw [Finset.sum_congr rfl hrow, Finset.sum_add_distrib, Finset.sum_comm, hz, zero_add]

end

/-! ### The hypotheses are met, and the method matters -/

theorem exWeighted_plain {d : Nat} {b' : Booster Q Q}
    (h : (exDepth d).fit exEnv exAnd [q 0, q 0, q 0, q 4] [q 1, q 2, q 1, q 3] none = .ok (b', .ok ())) :
    PlainFit exEnv (exDepth d) exAnd [0, 0, 0, 4] [(1 : ℚ), 2, 1, 3] none b' 0 0 0 (1/2) where
  sorter := exSorter_ok
  rng := exRng_ok
  shaped := rfl
  ylen := rfl
  wlen := rfl
  max := by
    show ∀ v ∈ exAnd.data, ¬IsMissing FX.nan v → (v ≤ᶠ Fl.maxv) = true
    decide +kernel
  minLeafWeight := by
    show FX.fin 0 ≤ᶠ q 1
    decide
  l1_eq := rfl
  l2_eq := rfl
  mds_eq := rfl
  lr_eq := rfl
  l2_nonneg := le_rfl
  positive := .inr ⟨rfl, 1, by simp, one_pos⟩
  goss := fun h => nomatch h
  exp := fun h => nomatch h
  base := fun s hs => by
    have hs : s = exFresh.baseScore := hs
    rw [hs]; exact ⟨_, rfl⟩
  fit := h

/-- A fit of depth 2 with the weights 1, 2, 1, 3.  By the method Average feature 0 has the numbers -9/7, -9/7, 27/28,
27/28, whose weighted sum is 0, and the bias is 79/56, the weighted mean of the predictions.  By the method Shapley
feature 0 has the numbers -9/14, -3/2, 27/56, 9/8, whose weighted sum is 3/14. -/
example : ∃ b' : Booster Q Q, PlainFit exEnv (exDepth 2) exAnd [0, 0, 0, 4] [(1 : ℚ), 2, 1, 3] none b' 0 0 0
      (1/2) ∧ (exDepth 2).objectiveType = .squaredLoss ∧ (exDepth 2).sampleMethod = .none ∧
      b'.predict exAnd = .ok [q (1/8), q (1/8), q (1/8), q (25/8)] ∧
      b'.predictContributions exAnd .average = .ok [q (-9/7), q 0, q (79/56), q (-9/7), q 0, q (79/56),
        q (27/28), q (-9/4), q (79/56), q (27/28), q (3/4), q (79/56)] ∧
      b'.predictContributions exAnd .shapley = .ok [q (-9/14), q (-9/14), q (79/56), q (-3/2), q (3/14), q (79/56),
        q (27/56), q (-99/56), q (79/56), q (9/8), q (33/56), q (79/56)] := by
  have : (match (exDepth 2).fit exEnv exAnd [q 0, q 0, q 0, q 4] [q 1, q 2, q 1, q 3] none with
    | .ok (b', .ok ()) => decide (b'.predict exAnd = .ok [q (1/8), q (1/8), q (1/8), q (25/8)] ∧
      b'.predictContributions exAnd .average = .ok [q (-9/7), q 0, q (79/56), q (-9/7), q 0, q (79/56),
        q (27/28), q (-9/4), q (79/56), q (27/28), q (3/4), q (79/56)] ∧
      b'.predictContributions exAnd .shapley = .ok [q (-9/14), q (-9/14), q (79/56), q (-3/2), q (3/14), q (79/56),
        q (27/56), q (-99/56), q (79/56), q (9/8), q (33/56), q (79/56)])
    | _ => false) = true := by decide +kernel
  split at this
  · rename_i b' h
    exact ⟨b', exWeighted_plain h, rfl, rfl, of_decide_eq_true this⟩
  · cases this

end Verif
