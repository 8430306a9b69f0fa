import Verif.Spec.PyDependence
import Verif.Proofs.PyBooster
import Verif.Props.MonotoneDependence
import Verif.Props.Total
import Verif.Spec.ExamplePy
import Verif.Spec.ExampleNumpy
import Verif.Props.StepLimit

/-!
# C76: `partial_dependence` of the Python class
-/

namespace Verif

open scoped Verif

set_option linter.unusedSectionVars false

section
variable {F D : Type} [Fl F] [Fl D] [FlCast F D]

theorem positions_only {names : List String} {s : String} {j : Nat} (h : OnlyAt names s j) :
    positions names s = [j] := by
  refine List.perm_singleton.1 ((List.perm_ext_iff_of_nodup (List.nodup_range.filter _) (by simp)).2 fun i => ?_)
  rw [List.mem_filter, List.mem_range, decide_eq_true_eq, List.mem_singleton]
  constructor
  · exact fun hi => h.2 i hi.2
  · rintro rfl
    exact ⟨(List.getElem?_eq_some_iff.1 h.1).1, h.1⟩

theorem Means.input {o : PyBooster F D} {X : Frame D} {feature : PyKey} {idx col : Nat}
    (h : Means o X feature idx col) : o.dependenceInput X feature = .ok (idx, X.column col) := by
  cases h with
  | number h => simp only [PyBooster.dependenceInput, if_pos h]
  | name h1 h2 h3 =>
    simp [PyBooster.dependenceInput, h1, positions_only h2, positions_only h3]

variable [Fl.OrdLaws D]

theorem mem_presentValues {missing v : D} {values : List D} :
    v ∈ presentValues missing values ↔ v ∈ values ∧ Present missing v := by
  unfold presentValues Present
  rw [List.mem_filter]
  refine and_congr_right fun _ => ?_
  unfold IsMissing
  by_cases hm : isNaN missing = true
  · rw [if_pos hm]
    have : (v =ᶠ missing) = false := by
      cases hc : (v =ᶠ missing)
      · rfl
      · rw [(Fl.OrdLaws.feq_num _ _ hc).2] at hm; cases hm
    simp [this]
  · rw [if_neg hm]
    simp

theorem sort_sortedF {S : Sorter} (hS : S.Ok) {l : List D} (hl : ∀ a ∈ l, isNaN a = false) :
    Sorted (S.sort (fun a b => a ≤ᶠ b) l) := by
  refine hS.sorted _ _ ?_ ?_
  · intro a ha b hb c hc h1 h2
    rw [Fl.OrdLaws.le_iff _ _ (hl a ha) (hl c hc)]
    rw [Fl.OrdLaws.le_iff _ _ (hl a ha) (hl b hb)] at h1
    rw [Fl.OrdLaws.le_iff _ _ (hl b hb) (hl c hc)] at h2
    cases h : (c <ᶠ a) with
    | false => rfl
    | true =>
      rcases Fl.OrdLaws.cotrans c a b (hl b hb) h with h3 | h3
      · rw [h3] at h2; cases h2
      · rw [h3] at h1; cases h1
  · intro a ha b hb
    rw [Fl.OrdLaws.le_iff _ _ (hl a ha) (hl b hb), Fl.OrdLaws.le_iff _ _ (hl b hb) (hl a ha)]
    cases h : (b <ᶠ a) with
    | false => exact .inl rfl
    | true =>
      right
      cases h' : (a <ᶠ b) with
      | false => rfl
      | true =>
        have := Fl.OrdLaws.lt_trans _ _ _ h h'
        rw [Fl.OrdLaws.lt_irrefl] at this; cases this

/-- The rows are the values of the grid with the partial dependence of the booster. -/
theorem dependence_rows {N : Numpy D} {S : Sorter} {o : PyBooster F D} {X : Frame D} {feature : PyKey}
    {samples : Option Nat} {ex : Bool} {lo hi : D} {rows : List (D × D)} {idx col : Nat}
    (hm : Means o X feature idx col)
    (h : o.partialDependence N S X feature samples ex lo hi = .ok (.ok rows)) :
    o.dependenceGrid N S (X.column col) samples ex lo hi = .ok (rows.map Prod.fst) ∧
      ∀ p ∈ rows, o.booster.valuePartialDependence idx p.1 = .ok p.2 := by
  unfold PyBooster.partialDependence at h
  rw [hm.input] at h
  dsimp only at h
  cases hg : o.dependenceGrid N S (X.column col) samples ex lo hi with
  | error e => rw [hg] at h; simp at h
  | ok grid =>
    rw [hg] at h
    simp only [Res.bind_eq_ok, Res.ok.injEq, Except.ok.injEq, exists_eq_right] at h
    have key : ∀ (grid : List D) (rows : List (D × D)), Res.mapM' (fun v => do
        let p ← o.booster.valuePartialDependence idx v
        Res.ok (v, p)) grid = .ok rows → grid = rows.map Prod.fst ∧
        ∀ p ∈ rows, o.booster.valuePartialDependence idx p.1 = .ok p.2 := by
      intro grid
      induction grid with
      | nil => intro rows h; cases h; simp
      | cons v grid ih =>
        intro rows h
        simp only [Res.mapM', Res.bind_eq_ok, Res.ok.injEq] at h
        obtain ⟨_, ⟨p, hp, rfl⟩, r, hr, he⟩ := h
        injection (show Res.ok _ = Res.ok rows from he) with he
        subst he
        obtain ⟨h1, h2⟩ := ih r hr
        refine ⟨by rw [h1]; rfl, ?_⟩
        intro x hx
        rcases List.mem_cons.1 hx with rfl | hx
        · exact hp
        · exact h2 x hx
    obtain ⟨h1, h2⟩ := key grid rows h
    exact ⟨by rw [h1], h2⟩

/-- **C76** (`samples=None`).  The first column of the result is, after the missing value if that is asked
for, strictly increasing; its members are the present values of the column of the frame, and every such
value occurs.  The second column is the partial dependence of the feature at these values. -/
theorem C76_unique {N : Numpy D} {S : Sorter} (hS : S.Ok) {o : PyBooster F D} {X : Frame D}
    {feature : PyKey} {ex : Bool} {lo hi : D} {rows : List (D × D)} {idx col : Nat}
    (hm : Means o X feature idx col)
    (h : o.partialDependence N S X feature none ex lo hi = .ok (.ok rows)) :
    (∀ p ∈ rows, o.booster.valuePartialDependence idx p.1 = .ok p.2) ∧
    ∃ grid, rows.map Prod.fst = (if ex then grid else o.params.missing :: grid) ∧
      grid.Pairwise (fun a b => (a <ᶠ b) = true) ∧
      (∀ v ∈ grid, v ∈ X.column col ∧ Present o.params.missing v) ∧
      ∀ v ∈ X.column col, Present o.params.missing v → ∃ g ∈ grid, (g =ᶠ v) = true := by
  obtain ⟨h1, h2⟩ := dependence_rows hm h
  refine ⟨h2, npUnique S (presentValues o.params.missing (X.column col)), ?_, ?_, ?_, ?_⟩
  · injection h1 with h1; exact h1.symm
  all_goals
    have hn : ∀ a ∈ presentValues o.params.missing (X.column col), isNaN a = false :=
      fun a ha => (mem_presentValues.1 ha).2.1
    have hs := sort_sortedF hS hn
    have hp := hS.perm (fun a b => a ≤ᶠ b) (presentValues o.params.missing (X.column col))
  · exact dedup_increasing hs
  · intro v hv
    exact mem_presentValues.1 (hp.mem_iff.1 (dedup_mem hv))
  · intro v hv hpv
    exact dedup_cover hs (fun a ha => hn a (hp.mem_iff.1 ha)) (hp.mem_iff.2 (mem_presentValues.2 ⟨hv, hpv⟩))

/-- **C76** (`samples=n`).  For a column with present values, all of them finite, and levels between 0 and 1
in order, the first column has, after the missing value if that is asked for, `n` values in order between
present values of the column.  The second column is the partial dependence of the feature at these values. -/
theorem C76_samples {N : Numpy D} (hN : N.Ok) {S : Sorter} {o : PyBooster F D} {X : Frame D}
    {feature : PyKey} {ex : Bool} {lo hi : D} {n : Nat} {rows : List (D × D)} {idx col : Nat}
    (hm : Means o X feature idx col)
    (hne : ∃ v ∈ X.column col, Present o.params.missing v)
    (hfin : ∀ v ∈ X.column col, Present o.params.missing v → isFinite v = true)
    (h0 : (0 ≤ᶠ lo) = true) (h1 : (lo ≤ᶠ hi) = true) (h2 : (hi ≤ᶠ 1) = true)
    (h : o.partialDependence N S X feature (some n) ex lo hi = .ok (.ok rows)) :
    (∀ p ∈ rows, o.booster.valuePartialDependence idx p.1 = .ok p.2) ∧
    ∃ grid, rows.map Prod.fst = (if ex then grid else o.params.missing :: grid) ∧ grid.length = n ∧
      grid.Pairwise (fun a b => (a ≤ᶠ b) = true) ∧
      ∀ g ∈ grid, ∃ a ∈ X.column col, Present o.params.missing a ∧
        ∃ b ∈ X.column col, Present o.params.missing b ∧ (a ≤ᶠ g) = true ∧ (g ≤ᶠ b) = true := by
  obtain ⟨g1, g2⟩ := dependence_rows hm h
  obtain ⟨v, hv, hp⟩ := hne
  obtain ⟨grid, q1, q2, q3, q4⟩ := hN (presentValues o.params.missing (X.column col)) n lo hi
    (List.ne_nil_of_mem (mem_presentValues.2 ⟨hv, hp⟩))
    (fun v hv => hfin v (mem_presentValues.1 hv).1 (mem_presentValues.1 hv).2) h0 h1 h2
  refine ⟨g2, grid, ?_, q2, q3, ?_⟩
  · unfold PyBooster.dependenceGrid at g1
    dsimp only at g1
    rw [q1] at g1
    injection g1 with g1
    exact g1.symm
  · intro g hg
    obtain ⟨a, ha, b, hb, hab⟩ := q4 g hg
    exact ⟨a, (mem_presentValues.1 ha).1, (mem_presentValues.1 ha).2, b, (mem_presentValues.1 hb).1,
      (mem_presentValues.1 hb).2, hab⟩

/-- **C76** (order of the columns).  For a model fitted with names, a feature given by name has the same
partial dependence for frames that agree in the column of that name, wherever it is and whatever the other
columns are; and it is that of the number of the feature for a frame with the columns in the order of the
training data. -/
theorem C76_by_name {N : Numpy D} {S : Sorter} {o : PyBooster F D} {X X' : Frame D} {names : List String}
    (hn : o.featureNames = some names) {s : String} {idx col col' : Nat} {cols cols' : List String}
    (hi : OnlyAt names s idx) (hX : X.columns = some cols) (hc : OnlyAt cols s col)
    (hX' : X'.columns = some cols') (hc' : OnlyAt cols' s col') (hv : X.column col = X'.column col')
    (samples : Option Nat) (ex : Bool) (lo hi' : D) :
    o.partialDependence N S X (.str s) samples ex lo hi' =
        o.partialDependence N S X' (.str s) samples ex lo hi' ∧
      (idx = col → col < X.data.cols → o.partialDependence N S X (.int idx) samples ex lo hi' =
        o.partialDependence N S X (.str s) samples ex lo hi') := by
  have m1 : Means o X (.str s) idx col := .name hX hc (by rw [hn]; exact hi)
  have m2 : Means o X' (.str s) idx col' := .name hX' hc' (by rw [hn]; exact hi)
  refine ⟨?_, ?_⟩
  · unfold PyBooster.partialDependence
    rw [m1.input, m2.input, hv]
  · rintro rfl hlt
    have m3 : Means o X (.int idx) idx idx := .number hlt
    unfold PyBooster.partialDependence
    rw [m1.input, m3.input]

/-- Instances keep the missing value in the booster and in the attributes. -/
theorem Made.missing_eq {J : PyJson} {p : PyParams D} {o : PyBooster F D} (h : Made J p o) :
    o.booster.missing = o.params.missing := by
  obtain ⟨b0, hi⟩ := h.inv
  obtain ⟨ob, sm, gp, em, mt, -, -, -, -, -, -, hb, -⟩ := crateNew_eq_ok.1 hi.new
  rw [hi.params, hi.booster, hb]
  rfl

end

section exact
variable {K : Type} [Field K] [LinearOrder K] [IsStrictOrderedRing K] {m32 m64 : Fmt K}
  [m32.Exact] [m64.Exact] {R : Type} {w : List K} {env : Env R (FX m32) (FX m64)}
  {b b' : Booster (FX m32) (FX m64)} {X0 : Matrix (FX m64)}
  {y : List K} {ev : Option (List (EvalSet (FX m64)))} {l1 l2 mds lr : K}

/-- The partial dependence of a fitted booster is a number for every value that can be read. -/
theorem PlainFit.dependence (h : PlainFit env b X0 y w ev b' l1 l2 mds lr) (f : Nat) {v : FX m64}
    (hr : Readable b.missing v) {ts : List (Tree (FX m32) (FX m64))} (hts : b'.predictionTrees = .ok ts) :
    ∃ x, b'.valuePartialDependence f v = .ok (FX.fin x) := by
  obtain ⟨base, binned, st, stop, N, hT⟩ := Booster.fit_trace h.fit
  have hsame := hT.same N (le_refl _)
  unfold Booster.SameParams at hsame
  rw [hT.last] at hsame
  obtain ⟨bs, hbs⟩ : b'.baseScore.IsFin := by
    rw [hsame]; exact h.base base hT.base_eq
  have hmiss : b'.missing = b.missing := by rw [hsame]
  have hsub : ∀ t ∈ ts, t ∈ b'.trees := fun t ht => List.mem_of_mem_take ((predictionTrees_eq_ok.1 hts).2 ▸ ht)
  have hall : ∀ t ∈ ts, t.SplitCovers ∧ t.FiniteValues ∧ t.Wf := by
    intro t ht
    obtain ⟨binned, p, k, cfg, rows, hA⟩ := h.tree_mem (hsub t ht)
    obtain ⟨o, gs, nodes, hV⟩ := hA.trained.view hA.treeAt.fitted.fit
    exact ⟨hV.splitCovers hA.trained hA.params.hess, hA.values, C03_well_formed env b b' X0 _ _ ev h.fit t (hsub t ht)⟩
  obtain ⟨xs, _, e2⟩ := C39_booster b' ts hts (fun t ht => (hall t ht).2.2) (fun t ht => (hall t ht).2.1)
    (fun t ht => (hall t ht).1) f v (by rw [hmiss]; exact hr) bs hbs
  exact ⟨_, e2⟩

variable {o : PyBooster (FX m32) (FX m64)} {X : Frame (FX m64)} {feature : PyKey} {idx col : Nat}
  {N : Numpy (FX m64)} {S : Sorter} {samples : Option Nat} {ex : Bool} {lo hi : FX m64}

/-- **C76** (total, exact arithmetic).  For an instance with a fitted booster and a prediction iteration, if
any, that is not above the number of trees: if the feature is in the frame, and, in case a number of samples
is given, the column has present values, all of them finite, and the levels are in order between 0 and 1,
then `partial_dependence` succeeds and the second column consists of finite numbers. -/
theorem C76_total (h : PlainFit env b X0 y w ev o.booster l1 l2 mds lr)
    (hmis : o.booster.missing = o.params.missing) {ts : List (Tree (FX m32) (FX m64))}
    (hts : o.booster.predictionTrees = .ok ts) (hm : Means o X feature idx col) (hN : N.Ok) (hS : S.Ok)
    (hs : samples ≠ none → (∃ v ∈ X.column col, Present o.params.missing v) ∧
      (∀ v ∈ X.column col, Present o.params.missing v → isFinite v = true) ∧
      (0 ≤ᶠ lo) = true ∧ (lo ≤ᶠ hi) = true ∧ (hi ≤ᶠ 1) = true) :
    ∃ rows, o.partialDependence N S X feature samples ex lo hi = .ok (.ok rows) ∧
      ∀ p ∈ rows, ∃ x, p.2 = FX.fin x := by
  have hb : b.missing = o.params.missing := by
    obtain ⟨base, binned, st, stop, M, hT⟩ := Booster.fit_trace h.fit
    have hsame := hT.same M (le_refl _)
    unfold Booster.SameParams at hsame
    rw [hT.last] at hsame
    rw [← hmis, hsame]
  have hgrid : ∃ grid, o.dependenceGrid N S (X.column col) samples ex lo hi = .ok grid ∧
      ∀ v ∈ grid, Readable o.params.missing v := by
    have hadd : ∀ grid : List (FX m64), (∀ v ∈ grid, isNaN v = false) →
        ∀ v ∈ (if ex then grid else o.params.missing :: grid), Readable o.params.missing v := by
      intro grid hg v hv
      split at hv
      · exact .inr (hg v hv)
      · rcases List.mem_cons.1 hv with rfl | hv
        · unfold Readable
          cases isNaN o.params.missing <;> simp
        · exact .inr (hg v hv)
    unfold PyBooster.dependenceGrid
    cases samples with
    | none =>
      refine ⟨_, rfl, hadd _ fun v hv => ?_⟩
      exact (mem_presentValues.1 ((hS.perm _ _).mem_iff.1 (dedup_mem hv))).2.1
    | some n =>
      obtain ⟨⟨v, hv, hp⟩, hfin, h0, h1, h2⟩ := hs (by simp)
      obtain ⟨grid, q1, q2, q3, q4⟩ := hN (presentValues o.params.missing (X.column col)) n lo hi
        (List.ne_nil_of_mem (mem_presentValues.2 ⟨hv, hp⟩))
        (fun v hv => hfin v (mem_presentValues.1 hv).1 (mem_presentValues.1 hv).2) h0 h1 h2
      dsimp only
      rw [q1]
      refine ⟨_, rfl, hadd _ fun g hg => ?_⟩
      obtain ⟨a, _, b, _, hab, _⟩ := q4 g hg
      exact (Fl.OrdLaws.le_num _ _ hab).2
  obtain ⟨grid, hg, hread⟩ := hgrid
  have key : ∀ l : List (FX m64), (∀ v ∈ l, Readable o.params.missing v) →
      ∃ rows, Res.mapM' (fun v => do
        let p ← o.booster.valuePartialDependence idx v
        Res.ok (v, p)) l = .ok rows ∧ ∀ p ∈ rows, ∃ x, p.2 = FX.fin x := by
    intro l
    induction l with
    | nil => intro _; exact ⟨[], rfl, by simp⟩
    | cons v l ih =>
      intro hl
      obtain ⟨rows, hr, hf⟩ := ih fun x hx => hl x (by simp [hx])
      obtain ⟨x, hx⟩ := h.dependence idx (v := v) (by rw [hb]; exact hl v (by simp)) hts
      refine ⟨(v, FX.fin x) :: rows, ?_, ?_⟩
      · simp only [Res.mapM', hx, Res.ok_bind, hr]
        rfl
      · intro p hp
        rcases List.mem_cons.1 hp with rfl | hp
        · exact ⟨x, rfl⟩
        · exact hf p hp
  obtain ⟨rows, hr, hf⟩ := key grid hread
  refine ⟨rows, ?_, hf⟩
  unfold PyBooster.partialDependence
  rw [hm.input]
  dsimp only
  rw [hg]
  dsimp only
  rw [hr]
  rfl

/-- **C71** (the plot of the Python class, partial).  In the result of `partial_dependence` for a
constrained feature, two values that are not missing have dependences in the order that the constraint asks
for.  See `C71_booster_partial` for the restriction. -/
theorem C71_plot_partial (h : PlainFit env b X0 y w ev o.booster l1 l2 mds lr) (hlr : 0 ≤ lr)
    (hs : ∀ t ∈ o.booster.trees, OnlyConstrainedBelow (fun f => b.constraintsMap.lookup f) t.nodes)
    (hm : Means o X feature idx col) {rows : List (FX m64 × FX m64)}
    (hres : o.partialDependence N S X feature samples ex lo hi = .ok (.ok rows)) :
    ∀ p ∈ rows, ∀ p' ∈ rows, Present b.missing p.1 → Present b.missing p'.1 →
      Towards (b.constraintsMap.lookup idx) p.1 p'.1 → (p.2 ≤ᶠ p'.2) = true := by
  intro p hp p' hp' h1 h2 hto
  obtain ⟨_, hv⟩ := dependence_rows hm hres
  have e := hv p hp
  have e' := hv p' hp'
  obtain ⟨ts, hts⟩ : ∃ ts, o.booster.predictionTrees = .ok ts := by
    unfold Booster.valuePartialDependence at e
    rw [Res.bind_eq_ok] at e
    obtain ⟨ts, hts, _⟩ := e
    exact ⟨ts, hts⟩
  obtain ⟨x, x', q1, q2, q3⟩ := C71_booster_partial h hlr hs h1.2 h2.2 (.inr h1.1) (.inr h2.1) hto hts
  rw [e] at q1
  rw [e'] at q2
  injection q1 with q1
  injection q2 with q2
  rw [q1, q2, FX.le_fin]
  exact decide_eq_true q3

end exact

/-! ### The class does not keep the missing value out of the samples -/

/-- Two columns, the first with 0 for missing. -/
def dependFrame : Frame Q :=
  { columns := some ["a", "b"]
    data := { data := [q (-1), q (-1), q 0, q 0, q 1, q 1, q 3, q 4, q 1, q 1, q 5, q 2], rows := 6, cols := 2 } }

/-- **C76**: with a number as missing value the samples can hit it.  The column has the values -1, 0 (missing)
and 1; the present values are -1 and 1 and the sample in the middle is 0.  Though the missing value was to be
excluded, the result has the dependence of missing rows at 0. -/
theorem C76_sentinel : ∃ o : PyBooster Q Q, Made exJson { exParams with missing := q 0 } o ∧
    o.params.missing = q 0 ∧ Means o dependFrame (.str "a") 0 0 ∧
    ∃ r, o.partialDependence linNumpy exSorter dependFrame (.str "a") (some 3) true (q 0) (q 1) = .ok (.ok r) ∧
      r.map Prod.fst = [q (-1), q 0, q 1] := by
  have h : ((exceptValue (pyNew (F := Q) exJson { exParams with missing := q 0 })).bind fun o0 =>
      (pyFitted o0 dependFrame exY none).bind fun o =>
      (resValue (o.partialDependence linNumpy exSorter dependFrame (.str "a") (some 3) true (q 0) (q 1))).bind
        fun r => (exceptValue r).bind fun r =>
      some (decide (o.params.missing = q 0 ∧ o.featureNames = some ["a", "b"] ∧
        r.map Prod.fst = [q (-1), q 0, q 1]))) = some true := by
    decide +kernel
  simp only [Option.bind_eq_some_iff, Option.some.injEq, decide_eq_true_eq] at h
  obtain ⟨o0, h1, o, h2, r', h3, r, h4, h5, h6, h7⟩ := h
  have ha : OnlyAt ["a", "b"] "a" 0 := by
    refine ⟨rfl, fun i hi => ?_⟩
    match i, hi with
    | 0, _ => rfl
    | 1, hi => simp at hi
    | i + 2, hi => simp at hi
  refine ⟨o, .fit exEnv dependFrame exY none none _ (.new (exceptValue_eq h1)) (pyFitted_eq h2), h5,
    .name rfl ha (by rw [h6]; exact ha), r, ?_, h7⟩
  rw [resValue_eq h3, exceptValue_eq h4]

/-! ### Examples -/

theorem exOnlyB : OnlyAt ["a", "b"] "b" 1 ∧ OnlyAt ["b", "a"] "b" 0 := by
  refine ⟨⟨rfl, fun i hi => ?_⟩, ⟨rfl, fun i hi => ?_⟩⟩
  · match i, hi with
    | 0, hi => simp at hi
    | 1, _ => rfl
    | i + 2, hi => simp at hi
  · match i, hi with
    | 0, _ => rfl
    | 1, hi => simp at hi
    | i + 2, hi => simp at hi

/-- The columns of `exFrame` the other way round. -/
def exSwapped : Frame Q :=
  { columns := some ["b", "a"]
    data := { exX with data := exX.data.drop 6 ++ exX.data.take 6 } }

/-- The hypotheses of `C76_unique`, `C76_samples` and `C76_by_name` are met by a fitted instance, a column with
repeated and missing values, and two frames with different orders of the columns. -/
example : ∃ o : PyBooster Q Q, Made exJson exParams o ∧ o.featureNames = some ["a", "b"] ∧
    Means o exFrame (.str "b") 1 1 ∧ Means o exSwapped (.str "b") 1 0 ∧
    exFrame.column 1 = exSwapped.column 0 ∧
    (∃ v ∈ exFrame.column 1, Present o.params.missing v) ∧
    (∀ v ∈ exFrame.column 1, Present o.params.missing v → isFinite v = true) ∧
    (∃ r, o.partialDependence linNumpy exSorter exFrame (.str "b") none false (q 0) (q 1) = .ok (.ok r) ∧
      r.map Prod.fst = [FX.nan, q 1, q 2, q 3]) ∧
    ∃ r, o.partialDependence linNumpy exSorter exSwapped (.str "b") (some 4) true (q 0) (q 1) = .ok (.ok r) ∧
      r.map Prod.fst = [q 1, q 1, q 2, q 3] := by
  have h : ((exFitted exFrame exY none).bind fun o =>
      (resValue (o.partialDependence linNumpy exSorter exFrame (.str "b") none false (q 0) (q 1))).bind
        fun r => (exceptValue r).bind fun r =>
      (resValue (o.partialDependence linNumpy exSorter exSwapped (.str "b") (some 4) true (q 0) (q 1))).bind
        fun r' => (exceptValue r').bind fun r' =>
      some (decide (o.featureNames = some ["a", "b"] ∧ o.params.missing = FX.nan ∧
        r.map Prod.fst = [FX.nan, q 1, q 2, q 3] ∧ r'.map Prod.fst = [q 1, q 1, q 2, q 3]))) = some true := by
    decide +kernel
  simp only [Option.bind_eq_some_iff, Option.some.injEq, decide_eq_true_eq] at h
  obtain ⟨o, h1, _, h2, r, h3, _, h4, r', h5, h6, h7, h8, h9⟩ := h
  refine ⟨o, (exFitted_made h1).1, h6, .name rfl exOnlyB.1 (by rw [h6]; exact exOnlyB.1),
    .name rfl exOnlyB.2 (by rw [h6]; exact exOnlyB.1), by decide +kernel, ?_, ?_,
    ⟨r, by rw [resValue_eq h2, exceptValue_eq h3], h8⟩, ⟨r', by rw [resValue_eq h4, exceptValue_eq h5], h9⟩⟩
  · rw [h7]
    exact ⟨q 3, by decide +kernel, by decide, by unfold IsMissing; decide⟩
  · rw [h7]
    have : ∀ v ∈ exFrame.column 1, isNaN v = false → isFinite v = true := by decide +kernel
    exact fun v hv hp => this v hv hp.1

/-- The hypotheses of `C76_total` are met. -/
example : ∃ (o : PyBooster Q Q) (b : Booster Q Q) (ts : List (Tree Q Q)),
    PlainFit exEnv b exX [0, 0, 1, 3, 3, 5] (List.replicate 6 (1 : ℚ)) none o.booster 0 0 (1/2) (1/2) ∧
    o.booster.missing = o.params.missing ∧ o.booster.predictionTrees = .ok ts ∧ ts.length = 3 ∧
    Means o exFrame (.str "b") 1 1 := by
  have h : (exPyNew.bind fun o => (resValue (exLimited.fit exEnv exX exY exW none)).bind fun r =>
      (match r.2 with | .ok () => some () | .error _ => none).bind fun _ =>
      (resValue r.1.predictionTrees).bind fun ts =>
      some (decide (ts.length = 3 ∧ r.1.missing = o.params.missing))) = some true := by
    decide +kernel
  simp only [Option.bind_eq_some_iff, Option.some.injEq, decide_eq_true_eq] at h
  obtain ⟨o, _, ⟨b', e⟩, h2, _, h3, ts, h4, h5, h6⟩ := h
  cases e with
  | error e => cases h3
  | ok u =>
    refine ⟨{ o with booster := b', featureNames := some ["a", "b"] }, exLimited, ts,
      exPlain rfl rfl rfl rfl le_rfl rfl rfl rfl rfl ⟨_, rfl⟩ rfl (resValue_eq h2), h6, resValue_eq h4, h5,
      .name rfl exOnlyB.1 exOnlyB.1⟩

end Verif
