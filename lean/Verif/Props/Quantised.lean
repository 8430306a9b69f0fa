import Verif.Proofs.Quantised
import Verif.Props.BinningFloat
import Verif.Props.BinWeights
import Verif.Props.StepWise

/-!
# C138: only the cut points matter

Rounding the training values down to the cut points changes nothing: binning the rounded data gives the same cut
points and the same bins, and training on the rounded data gives the same model.
-/

namespace Verif

open scoped Verif

set_option linter.unusedSectionVars false

section
variable {K : Type} [Field K] [LinearOrder K] {m : Fmt K} {F : Type} [Fl F] [FlCast F (FX m)]

/-- **C138** (bins).  Round the values of the data down to the cut points that `bin_matrix` computes.  Then
`bin_matrix` computes the same cut points and the same bins from the rounded data.  Any rounding. -/
theorem C138_bins {S : Sorter} (hS : S.Ok) {X X' : Matrix (FX m)} {w : List (FX m)} {nbins : Nat} {missing : FX m}
    {bd : BinnedData (FX m)} (hw : X.rows ≤ w.length)
    (hmax : ∀ v ∈ X.data, ¬ IsMissing missing v → (v ≤ᶠ Fl.maxv) = true)
    (h : binMatrix S X w nbins missing = .ok bd) (hX : X.RoundedTo missing bd.cuts X') :
    binMatrix S X' w nbins missing = .ok bd :=
  binMatrix_rounded hS hw hmax h hX

/-- Rounded data take the same sides as the data in every tree that is grown on the bins. -/
theorem rounded_sides {S : Sorter} (hS : S.Ok) {X : Matrix (FX m)} (hsh : X.Shaped) {w : List (FX m)} {nbins : Nat}
    {b : Booster F (FX m)} {bd : BinnedData (FX m)} (hw : X.rows ≤ w.length)
    (hmax : ∀ v ∈ X.data, ¬ IsMissing b.missing v → (v ≤ᶠ Fl.maxv) = true)
    (h : binMatrix S X w nbins b.missing = .ok bd) {Z Z' : Matrix (FX m)} (hc : Z.cols = X.cols)
    (hrd : ∀ v ∈ Z.data, Readable b.missing v)
    (hmaxZ : ∀ v ∈ Z.data, ¬ IsMissing b.missing v → (v ≤ᶠ Fl.maxv) = true)
    (hZ : Z.RoundedTo b.missing bd.cuts Z')
    (hcut : ∀ t ∈ b.trees, ∀ n ∈ t.nodes, n.isLeaf = false →
      ∃ cs, bd.cuts.getCol n.splitFeature = .ok cs ∧ n.splitValue ∈ cs) : SameSides b Z Z' := by
  obtain ⟨cutss, hb⟩ := binMatrix_binned hsh hw h
  have hZ : Z.Alike _ Z' := hZ
  refine ⟨hZ.rows, hZ.cols, hZ.shaped, hZ.shaped', fun t ht n hn hl i hi v v' hv hv' => ?_⟩
  have hj : n.splitFeature < Z.cols := (entry_lt hZ.shaped hi).1 ⟨v, hv⟩
  obtain ⟨cs, h1, h2⟩ := hcut t ht n hn hl
  obtain ⟨cs', h3, h4⟩ := hZ.entry i hi _ hj v v' hv hv'
  rw [h1] at h3
  cases h3
  rw [hb.jagged.getCol, Res.ofOption_eq_ok] at h1
  have hjX : n.splitFeature < X.cols := hc ▸ hj
  have hlen : (X.column n.splitFeature).length ≤ w.length := by rw [Matrix.column_length hsh hjX]; exact hw
  have hmade := hb.made _ _ h1
  have hC := colCuts_spec hS hlen hmade fun v hv => hmax v (Matrix.mem_column hv)
  have hv0 : v ∈ Z.data := List.mem_of_getElem? hv
  refine RoundedTo.child hC (fun a ha => ?_) (hrd v hv0) ?_ h4 h2
  · exact num_of_not_missing ((colCuts_form hlen hmade).1 a (mem_present.1 ha).1) (mem_present.1 ha).2
  · rcases h4 with ⟨_, rfl⟩ | ⟨q1, q2, q3, _⟩
    · rfl
    · refine iff_of_false (fun hm => ?_) q1
      obtain ⟨init, last, rfl, hl, hi⟩ := hC.last
      rcases List.mem_append.1 q2 with q2 | q2
      · exact (mem_present.1 (hi _ q2)).2 hm
      · have e' := FX.eq_of_same hl
        have := FX.le_antisymm' q3 (by rw [List.mem_singleton.1 q2, e']; exact hmaxZ v hv0 q1)
        rw [this] at hm
        exact q1 hm

variable {R : Type} {env : Env R F (FX m)}

/-- **C138** (training).  Round the training values down to the cut points.  Training then ends in the same way, with
the same model: the same trees, history and best iteration, for every objective, sampling and early stopping.  Any
rounding. -/
theorem C138_fit (hS : env.sorter.Ok) (hg : env.rng.Ok) (hh : ∀ i, (env.heap i).ByScore) (b : Booster F (FX m))
    {X X' : Matrix (FX m)} {y w : List (FX m)} {ev : Option (List (EvalSet (FX m)))} {bd : BinnedData (FX m)}
    (hw : X.rows ≤ w.length) (hmax : ∀ v ∈ X.data, ¬ IsMissing b.missing v → (v ≤ᶠ Fl.maxv) = true)
    (h : binMatrix env.sorter X w b.nbins b.missing = .ok bd) (hX : X.RoundedTo b.missing bd.cuts X') :
    b.fit env X' y w ev = b.fit env X y w ev := by
  have hX0 : X.Alike _ X' := hX
  obtain ⟨cutss, hb⟩ := binMatrix_binned hX0.shaped hw h
  have hrest : ∀ b0 : Booster F (FX m), b0.missing = b.missing → b0.nbins = b.nbins →
      fitRest env X' y w b.splitter ev b0 = fitRest env X y w b.splitter ev b0 := by
    intro b0 e1 e2
    unfold fitRest
    dsimp only
    rw [e1, e2, h, C138_bins hS hw hmax h hX, Res.ok_bind, Res.ok_bind, hX0.rows, hX0.cols]
    rw [fitLoop_agree hX0.rows hX0.cols (missing := b.missing) (fun c sm index t rate r i h1 h2 h3 h4 h5 => ?_)
      _ _ _ e1]
    have hsc := sampleColumns_sorted hg (show sampleColumns env.rng rate r X.cols =
      ((sampleColumns env.rng rate r X.cols).1, (sampleColumns env.rng rate r X.cols).2) from rfl)
    have hl : c.train.Laid := by
      refine ⟨⟨cutss, by rw [h2]; exact hb.jagged, by rw [h1]; exact hb.len⟩, fun hl => ?_⟩
      rw [h1] at hl ⊢
      rw [h4] at hl ⊢
      exact eq_range_of_sorted hsc.1 hsc.2.1 hl
    have hside : SameSides { b with trees := [t] } X X' :=
      rounded_sides hS hX0.shaped (b := { b with trees := [t] }) hw hmax h rfl hb.readable hmax hX
        fun t' ht n hn hi => by
          rw [List.mem_singleton.1 ht] at hn
          rw [← h2]
          exact treeFit_cuts hl (by rw [h3]; exact hh i) h5 hn hi
    unfold Tree.predict
    rw [show X'.index = X.index by unfold Matrix.index; rw [hX0.rows]]
    refine Res.mapM'_congr fun i hi => ?_
    rw [hside.leaf (List.mem_singleton.2 rfl) (by simpa [Matrix.index] using hi)]
  have htrees : fitTrees env b X' y w b.splitter ev = fitTrees env b X y w b.splitter ev := by
    rw [fitTrees_eq_rest, fitTrees_eq_rest]
    have h1 : (if b.trees.isEmpty then b else b.reset).missing = b.missing := by split <;> rfl
    have h2 : (if b.trees.isEmpty then b else b.reset).nbins = b.nbins := by split <;> rfl
    generalize (if b.trees.isEmpty then b else b.reset) = b0 at h1 h2
    dsimp only
    split
    · exact (Res.Rel.eq ((Res.Rel.of_eq rfl).bind fun s s' _ _ e => by
        subst e; exact Res.Rel.of_eq (hrest { b0 with baseScore := s } h1 h2).symm)).symm
    · exact hrest b0 h1 h2
  unfold Booster.fit
  rw [htrees]

/-- **C138** (outputs).  A fitted model gives the same predictions, leaves and contributions for new data and for the
same data rounded down to the cut points.  Any rounding. -/
theorem C138_predict (hS : env.sorter.Ok) (hg : env.rng.Ok) (hh : ∀ i, (env.heap i).ByScore) {b b' : Booster F (FX m)}
    {X : Matrix (FX m)} {y w : List (FX m)} {ev : Option (List (EvalSet (FX m)))} {bd : BinnedData (FX m)}
    (hsh : X.Shaped) (hw : X.rows ≤ w.length)
    (hmax : ∀ v ∈ X.data, ¬ IsMissing b.missing v → (v ≤ᶠ Fl.maxv) = true)
    (h : binMatrix env.sorter X w b.nbins b.missing = .ok bd) (hf : b.fit env X y w ev = .ok (b', .ok ()))
    {Z Z' : Matrix (FX m)} (hc : Z.cols = X.cols) (hrd : ∀ v ∈ Z.data, Readable b.missing v)
    (hmaxZ : ∀ v ∈ Z.data, ¬ IsMissing b.missing v → (v ≤ᶠ Fl.maxv) = true)
    (hZ : Z.RoundedTo b.missing bd.cuts Z') :
    b'.predict Z' = b'.predict Z ∧ b'.predictLeafIndices Z' = b'.predictLeafIndices Z ∧
      ∀ meth, b'.predictContributions Z' meth = b'.predictContributions Z meth := by
  obtain ⟨cutss, hb⟩ := binMatrix_binned hsh hw h
  have em := fit_missing hf
  have hside : SameSides b' Z Z' := by
    refine rounded_sides hS hsh (b := b') hw (by rw [em]; exact hmax) (by rw [em]; exact h) hc (by rw [em]; exact hrd)
      (by rw [em]; exact hmaxZ) (by rw [em]; exact hZ) fun t ht n hn hl => ?_
    obtain ⟨base, bd', st, stop, N, hTr⟩ := Booster.fit_trace hf
    obtain ⟨k, hk⟩ := List.mem_iff_getElem?.1 ht
    obtain ⟨cfg, rows, hA⟩ := hTr.treeAt hk
    have hF := hA.fitted
    have e := hTr.bin_eq
    rw [h] at e
    cases e
    obtain ⟨r1, r2, hcol⟩ := hF.columns
    have hsc := sampleColumns_sorted hg hcol
    have hlaid : cfg.train.Laid := by
      refine ⟨⟨cutss, by rw [hF.cuts_eq]; exact hb.jagged, by rw [hF.data_eq]; exact hb.len⟩, fun hl => ?_⟩
      rw [hF.data_eq] at hl ⊢
      exact eq_range_of_sorted hsc.1 hsc.2.1 hl
    rw [← hF.cuts_eq]
    exact treeFit_cuts hlaid (by rw [hA.heap]; exact hh k) hF.fit hn hl
  exact ⟨hside.predict.1, hside.predict.2, hside.contributions⟩

end

section
variable {K : Type} [Field K] [LinearOrder K] [IsStrictOrderedRing K] {m : Fmt K} [m.Rounds]

/-- **C138** (the rounding exists).  With weights that are not negative, of which one is positive in every column that
has numbers, every training value has a cut point not above it, so that the training data can be rounded down to the
cut points. -/
theorem C138_exists (h1r : m.Repr 1) {S : Sorter} (hS : S.Ok) {X : Matrix (FX m)} {w : List K}
    {nbins : Nat} {missing : FX m} {bd : BinnedData (FX m)} (hsh : X.Shaped) (hw : X.rows ≤ w.length)
    (hmax : ∀ v ∈ X.data, ¬ IsMissing missing v → (v ≤ᶠ Fl.maxv) = true)
    (h : binMatrix S X (w.map FX.fin) nbins missing = .ok bd) (hw0 : ∀ x ∈ w, m.Repr x ∧ 0 ≤ x)
    (hpos : ∀ j < X.cols, (∃ i < X.rows, ∃ v, X.entry i j = some v ∧ ¬ IsMissing missing v) →
      ∃ i < X.rows, ∃ v, X.entry i j = some v ∧ ¬ IsMissing missing v ∧ ∃ x, w[i]? = some x ∧ 0 < x) :
    ∃ X', X.RoundedTo missing bd.cuts X' := by
  have hw' : X.rows ≤ (w.map (FX.fin : K → FX m)).length := by simpa using hw
  -- every entry can be rounded
  have key : ∀ j v, ∃ v', ∀ i < X.rows, j < X.cols → X.entry i j = some v →
      ∃ cs, bd.cuts.getCol j = .ok cs ∧ RoundedTo missing cs v v' := by
    intro j v
    by_cases hex : ∃ i < X.rows, j < X.cols ∧ X.entry i j = some v
    swap
    · exact ⟨v, fun i hi hj hv => absurd ⟨i, hi, hj, hv⟩ hex⟩
    obtain ⟨i, hi, hj, hv⟩ := hex
    obtain ⟨init, last, hcs, hinc, hlast, hin, hbin⟩ := C28_cuts hS hsh hw' hmax h j hj
    by_cases hm : IsMissing missing v
    · exact ⟨v, fun _ _ _ _ => ⟨_, hcs, Or.inl ⟨hm, rfl⟩⟩⟩
    obtain ⟨k, hk1, _, _, hk2⟩ := hbin i hi v hv
    obtain ⟨k', hk1', hk3⟩ := C28_missing_float_partial h1r hS hsh hw hmax h j hj hw0
      (hpos j hj ⟨i, hi, v, hv, hm⟩) i hi v hv
    rw [hk1] at hk1'
    cases hk1'
    have hk0 : 0 < k := Nat.pos_of_ne_zero fun e => hm (hk3.1 e)
    have hvn : isNaN v = false := by
      have := hmax v (List.mem_of_getElem? hv) hm
      exact (Fl.OrdLaws.le_num _ _ this).1
    have hcn : ∀ c ∈ init ++ [last], isNaN c = false := by
      intro c hc
      rcases List.mem_append.1 hc with hc | hc
      · obtain ⟨i', _, he, hcm⟩ := hin c hc
        exact (Fl.OrdLaws.le_num _ _ (hmax c (List.mem_of_getElem? he) hcm)).1
      · rw [List.mem_singleton.1 hc]; exact (Fl.OrdLaws.feq_num _ _ hlast).1
    have hle : ∀ (p : Nat) c, (init ++ [last])[p]? = some c → ((c ≤ᶠ v) = true ↔ p < k) := by
      intro p c hp
      have := hk2 hm p c hp
      constructor
      · intro hl
        by_contra hc
        have := this.1 (by omega)
        rw [Fl.not_lt_of_le hl] at this
        cases this
      · intro hl
        refine Fl.le_of_not_lt (hcn c (List.mem_of_getElem? hp)) hvn ?_
        cases e : (v <ᶠ c)
        · rfl
        · have := this.2 e; omega
    -- the cut before the bin
    set cs := init ++ [last] with ecs
    have hne : 0 < cs.length := by simp [ecs]
    have hp : min k cs.length - 1 < cs.length := by omega
    refine ⟨cs[min k cs.length - 1], fun _ _ _ _ => ⟨cs, hcs, Or.inr ⟨hm, List.getElem_mem hp, ?_, ?_⟩⟩⟩
    · exact (hle _ _ (List.getElem?_eq_getElem hp)).2 (by omega)
    · intro c hc hcv
      obtain ⟨p, hp', e⟩ := List.getElem_of_mem hc
      have := (hle p c (by rw [List.getElem?_eq_getElem hp', e])).1 hcv
      rcases Nat.lt_or_ge p (min k cs.length - 1) with hlt | hge
      · have := List.pairwise_iff_getElem.1 hinc p _ hp' hp hlt
        rw [e] at this
        exact Fl.le_of_lt this
      · have : p = min k cs.length - 1 := by omega
        subst this
        rw [e]
        exact Fl.le_refl (hcn c hc)
  choose φ hφ using key
  refine ⟨X.mapCols φ, rfl, rfl, hsh, ?_, ?_⟩
  · have := hsh; unfold Matrix.Shaped at this; unfold Matrix.Shaped Matrix.mapCols; simpa using this
  · intro i hi j hj v v' hv hv'
    have : v' = φ j v := by
      unfold Matrix.entry Matrix.mapCols at hv'
      simp only [List.getElem?_map, List.getElem?_zipIdx] at hv'
      rw [show X.data[j * X.rows + i]? = some v from hv] at hv'
      simp only [Option.map_some, Option.some.injEq, Nat.zero_add] at hv'
      rw [div_rows hi] at hv'
      exact hv'.symm
    rw [this]
    exact hφ j v i hi hj hv

end

/-- `binCol` rounded down to its cut points 1 and 4. -/
def binColRounded : Matrix Q :=
  { data := [q 1, q 1, q 4, q 1, q 4, q 4, q 4, q 4], rows := 8, cols := 1 }

/-- C138: eight different values, two bins; the rounded data are other data, and the fit makes a split. -/
example : ∃ bd, binMatrix exSorter binCol ((List.replicate 8 (1 : ℚ)).map FX.fin) 2 FX.nan = .ok bd ∧
    binCol.RoundedTo FX.nan bd.cuts binColRounded ∧ binColRounded ≠ binCol ∧
    binCol.rows ≤ ((List.replicate 8 (1 : ℚ)).map (FX.fin : ℚ → Q)).length ∧
    (∀ v ∈ binCol.data, ¬ IsMissing (FX.nan : Q) v → (v ≤ᶠ Fl.maxv) = true) ∧
    (∀ x ∈ List.replicate 8 (1 : ℚ), 0 < x) := by
  have e : (match binMatrix exSorter binCol ((List.replicate 8 (1 : ℚ)).map FX.fin) 2 FX.nan with
      | .ok bd => decide (bd.cuts.getCol 0 = .ok [q 1, q 4, Fl.maxv])
      | _ => false) = true := by decide +kernel
  split at e
  · next bd h =>
    have e := of_decide_eq_true e
    refine ⟨bd, h, ⟨rfl, rfl, rfl, rfl, fun i hi j hj v v' hv hv' => ?_⟩, by decide +kernel, by decide +kernel,
      by decide +kernel, fun x hx => by rw [List.eq_of_mem_replicate hx]; exact one_pos⟩
    have hj : j = 0 := by
      have : j < 1 := hj
      omega
    subst hj
    refine ⟨_, e, ?_⟩
    have table : ∀ i < 8, ∀ v ∈ binCol.entry i 0, ∀ v' ∈ binColRounded.entry i 0,
        RoundedTo FX.nan [q 1, q 4, Fl.maxv] v v' := by decide +kernel
    exact table i hi v hv v' hv'
  · cases e

/-- The booster of the example: two bins. -/
def binBooster : Booster Q Q := { exFresh with nbins := 2 }

example : (match binBooster.fit exEnv binColRounded ([1, 0, 3, 1, 2, 3, 3, 2].map q)
      ((List.replicate 8 (1 : ℚ)).map FX.fin) none with
    | .ok (b', .ok ()) => decide (1 < ((b'.trees.map fun t => t.nodes.length).sum)) && isNaN b'.missing
    | _ => false) = true := by decide +kernel

end Verif
