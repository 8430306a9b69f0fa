import Verif.Proofs.SelectFit
import Verif.Spec.ColumnOrder

/-!
# Columns in another order
-/

namespace Verif

open scoped Verif

set_option linter.unusedSectionVars false

variable {F D : Type} [Fl F] [Fl D] [FlCast F D]

/-! ## The search for the best split as a fold -/

/-- The search through the best splits of the columns. -/
def pickBest : List (Option (SplitInfo F D)) → F → Option (SplitInfo F D) → Option (SplitInfo F D)
  | [], _, best => best
  | none :: l, g, best => pickBest l g best
  | some x :: l, g, best => if g <ᶠ x.splitGain then pickBest l x.splitGain (some x) else pickBest l g best

theorem bestSplitLoop_outcomes {s : Splitter F} {node : SNode F D} : ∀ (n k : Nat) (g : F)
    (best r : Option (SplitInfo F D)), bestSplitLoop s node (List.range' k n) k g best = .ok r →
    ∃ os : List (Option (SplitInfo F D)), os.length = n ∧
      (∀ i o, os[i]? = some o → bestFeatureSplit s node (k + i) (k + i) = .ok o) ∧ r = pickBest os g best
  | 0, k, g, best, r, h => by
    cases h
    exact ⟨[], rfl, fun i o h => by simp at h, rfl⟩
  | n + 1, k, g, best, r, h => by
    rw [List.range'_succ, bestSplitLoop] at h
    obtain ⟨o, ho, h⟩ := Res.bind_eq_ok.1 h
    have key : ∀ g' best', bestSplitLoop s node (List.range' (k + 1) n) (k + 1) g' best' = .ok r →
        ∃ os : List (Option (SplitInfo F D)), os.length = n ∧
        (∀ i o', (o :: os)[i]? = some o' → bestFeatureSplit s node (k + i) (k + i) = .ok o') ∧
        r = pickBest os g' best' := by
      intro g' best' h
      obtain ⟨os, h1, h2, h3⟩ := bestSplitLoop_outcomes n (k + 1) g' best' r h
      refine ⟨os, h1, fun i o' hi => ?_, h3⟩
      cases i with
      | zero =>
        simp only [List.getElem?_cons_zero, Option.some.injEq] at hi
        subst hi; exact ho
      | succ i =>
        have := h2 i o' (by simpa using hi)
        rwa [show k + 1 + i = k + (i + 1) by omega] at this
    cases o with
    | none =>
      obtain ⟨os, h1, h2, h3⟩ := key _ _ h
      exact ⟨none :: os, by simp [h1], h2, h3⟩
    | some x =>
      dsimp only at h
      split at h
      · rename_i hg
        obtain ⟨os, h1, h2, h3⟩ := key _ _ h
        exact ⟨some x :: os, by simp [h1], h2, by rw [pickBest, if_pos hg]; exact h3⟩
      · rename_i hg
        obtain ⟨os, h1, h2, h3⟩ := key _ _ h
        exact ⟨some x :: os, by simp [h1], h2, by rw [pickBest, if_neg hg]; exact h3⟩

theorem bestSplitLoop_pick {s : Splitter F} {node : SNode F D} : ∀ (os : List (Option (SplitInfo F D))) (k : Nat)
    (g : F) (best : Option (SplitInfo F D)),
    (∀ i o, os[i]? = some o → bestFeatureSplit s node (k + i) (k + i) = .ok o) →
    bestSplitLoop s node (List.range' k os.length) k g best = .ok (pickBest os g best)
  | [], k, g, best, _ => rfl
  | o :: os, k, g, best, h => by
    have h0 := h 0 o rfl
    rw [Nat.add_zero] at h0
    have ih := fun g' best' => bestSplitLoop_pick os (k + 1) g' best' fun i o' hi => by
      have := h (i + 1) o' (by simpa using hi)
      rwa [show k + 1 + i = k + (i + 1) by omega]
    rw [List.length_cons, List.range'_succ, bestSplitLoop, h0, Res.ok_bind]
    cases o with
    | none => exact ih _ _
    | some x =>
      dsimp only [pickBest]
      split
      · exact ih _ _
      · exact ih _ _

variable [Fl.OrdLaws F]

theorem pickBest_cases : ∀ (os : List (Option (SplitInfo F D))) (g : F) (best : Option (SplitInfo F D)),
    (pickBest os g best = best ∧ ∀ x, some x ∈ os → (g <ᶠ x.splitGain) = false) ∨
      ∃ x, pickBest os g best = some x ∧ some x ∈ os ∧ (g <ᶠ x.splitGain) = true
  | [], g, best => Or.inl ⟨rfl, fun x hx => by cases hx⟩
  | none :: os, g, best => by
    rcases pickBest_cases os g best with ⟨h1, h2⟩ | ⟨x, h1, h2, h3⟩
    · refine Or.inl ⟨h1, fun x hx => h2 x ?_⟩
      simpa using hx
    · exact Or.inr ⟨x, h1, by simp [h2], h3⟩
  | some y :: os, g, best => by
    rw [pickBest]
    split
    · rename_i hg
      right
      rcases pickBest_cases os y.splitGain (some y) with ⟨h1, _⟩ | ⟨x, h1, h2, h3⟩
      · exact ⟨y, h1, by simp, hg⟩
      · exact ⟨x, h1, by simp [h2], Fl.OrdLaws.lt_trans _ _ _ hg h3⟩
    · rename_i hg
      rcases pickBest_cases os g best with ⟨h1, h2⟩ | ⟨x, h1, h2, h3⟩
      · refine Or.inl ⟨h1, fun x hx => ?_⟩
        rcases List.mem_cons.1 hx with e | hx
        · cases e; simpa using hg
        · exact h2 x hx
      · exact Or.inr ⟨x, h1, by simp [h2], h3⟩

theorem pickBest_after {x : SplitInfo F D} : ∀ (os : List (Option (SplitInfo F D))),
    (∀ z, some z ∈ os → (x.splitGain <ᶠ z.splitGain) = false) → pickBest os x.splitGain (some x) = some x
  | [], _ => rfl
  | none :: os, h => pickBest_after os fun z hz => h z (by simp [hz])
  | some y :: os, h => by
    rw [pickBest, if_neg (by rw [h y (by simp)]; simp)]
    exact pickBest_after os fun z hz => h z (by simp [hz])

theorem pickBest_unique {x : SplitInfo F D} : ∀ (os : List (Option (SplitInfo F D))) (g : F)
    (best : Option (SplitInfo F D)), some x ∈ os → (g <ᶠ x.splitGain) = true →
    (∀ z, some z ∈ os → z = x ∨ (x.splitGain ≤ᶠ z.splitGain) = false) → pickBest os g best = some x
  | [], _, _, hx, _, _ => by cases hx
  | none :: os, g, best, hx, hg, h =>
    pickBest_unique os g best (by simpa using hx) hg fun z hz => h z (by simp [hz])
  | some y :: os, g, best, hx, hg, h => by
    have hnum := (Fl.OrdLaws.lt_num _ _ hg).2
    have hless : ∀ z, some z ∈ some y :: os → (x.splitGain <ᶠ z.splitGain) = false := by
      intro z hz
      rcases h z hz with rfl | hle
      · exact Fl.OrdLaws.lt_irrefl _
      · rw [Bool.eq_false_iff]
        intro hlt
        have := (Fl.OrdLaws.le_iff _ _ hnum (Fl.OrdLaws.lt_num _ _ hlt).2).2 (Fl.lt_asymm hlt)
        rw [this] at hle; cases hle
    by_cases hy : y = x
    · subst hy
      rw [pickBest, if_pos hg]
      exact pickBest_after os fun z hz => hless z (by simp [hz])
    · have hx' : some x ∈ os := by
        rcases List.mem_cons.1 hx with e | hx
        · cases e; exact absurd rfl hy
        · exact hx
      have h' : ∀ z, some z ∈ os → z = x ∨ (x.splitGain ≤ᶠ z.splitGain) = false := fun z hz => h z (by simp [hz])
      rw [pickBest]
      split
      · rename_i hgy
        refine pickBest_unique os _ _ hx' ?_ h'
        have hny := (Fl.OrdLaws.lt_num _ _ hgy).2
        rcases h y (by simp) with e | hle
        · exact absurd e hy
        · cases hlt : (y.splitGain <ᶠ x.splitGain) with
          | true => rfl
          | false =>
            have := (Fl.OrdLaws.le_iff _ _ hnum hny).2 hlt
            rw [this] at hle; cases hle
      · exact pickBest_unique os _ _ hx' hg h'

/-! ## The best split of permuted columns -/

variable {keep : List Nat}

theorem bestSplit_perm {s s' : Splitter F} (hs : SplitterSel keep s s') {n : Nat} (hperm : keep.Perm (List.range n))
    {L : List Nat} {node : SNode F D} {h' : JaggedMatrix (Bin F D)} (hH : HistSel keep L node.histograms h')
    {r : Option (SplitInfo F D)} (h : bestSplit s node (List.range n) = .ok r)
    (hc : clearNode s node (List.range n) = true) :
    bestSplit s' { node with histograms := h' } (List.range keep.length) =
      .ok (r.map (SplitInfo.renumber keep)) := by
  have hnd : keep.Nodup := hperm.nodup_iff.2 List.nodup_range
  have hmem : ∀ c, c ∈ keep ↔ c < n := fun c => by rw [hperm.mem_iff, List.mem_range]
  have h0 := h
  unfold bestSplit at h ⊢
  rw [List.range_eq_range'] at h ⊢
  obtain ⟨os, h1, h2, h3⟩ := bestSplitLoop_outcomes n 0 0 none r h
  simp only [Nat.zero_add] at h2
  have hget : ∀ c ∈ keep, os[c]? = some (os.getD c none) := fun c hc => by
    have := (hmem c).1 hc
    rw [List.getD, List.getElem?_eq_getElem (by omega)]; rfl
  have key := bestSplitLoop_pick (s := s') (node := { node with histograms := h' })
    (keep.map fun c => (os.getD c none).map (SplitInfo.renumber keep)) 0 0 none (by
      intro i o hi
      rw [List.getElem?_map] at hi
      cases hk : keep[i]? with
      | none => rw [hk] at hi; cases hi
      | some c =>
        rw [hk] at hi
        simp only [Option.map_some, Option.some.injEq] at hi
        subst hi
        rw [Nat.zero_add]
        exact bestFeatureSplit_sel hs hnd hH hk (h2 c _ (hget c (List.mem_of_getElem? hk))))
  rw [List.length_map] at key
  rw [key]
  congr 1
  subst h3
  have hmo : ∀ z, some z ∈ os → ∃ c ∈ keep, os.getD c none = some z ∧ bestFeatureSplit s node c c = .ok (some z) := by
    intro z hz
    obtain ⟨c, hc'⟩ := List.getElem?_of_mem hz
    refine ⟨c, (hmem c).2 ?_, ?_, h2 c _ hc'⟩
    · rw [← h1]; exact (List.getElem?_eq_some_iff.1 hc').1
    · rw [List.getD, hc']; rfl
  rcases pickBest_cases os 0 none with ⟨e1, e2⟩ | ⟨x, e1, e2, e3⟩
  · rw [e1]
    rcases pickBest_cases (keep.map fun c => (os.getD c none).map (SplitInfo.renumber keep)) 0 none with
      ⟨e3, _⟩ | ⟨x, _, e4, e5⟩
    · exact e3
    · obtain ⟨c, hc1, hc2⟩ := List.mem_map.1 e4
      cases hz : os.getD c none with
      | none => rw [hz] at hc2; cases hc2
      | some z =>
        rw [hz] at hc2
        simp only [Option.map_some, Option.some.injEq] at hc2
        have hzm : some z ∈ os := by
          have := hget c hc1
          rw [hz] at this
          exact List.mem_of_getElem? this
        have := e2 z hzm
        rw [← hc2] at e5
        rw [show (SplitInfo.renumber keep z).splitGain = z.splitGain from rfl, this] at e5
        cases e5
  · rw [e1] at h0 ⊢
    unfold clearNode at hc
    rw [h0] at hc
    dsimp only at hc
    rw [List.all_eq_true] at hc
    obtain ⟨c, hc1, hc2, hc3⟩ := hmo x e2
    have hxc := bestFeatureSplit_names hc3
    refine pickBest_unique _ 0 none (List.mem_map.2 ⟨c, hc1, by rw [hc2]; rfl⟩) e3 ?_
    intro z' hz'
    obtain ⟨d, hd1, hd2⟩ := List.mem_map.1 hz'
    cases hz : os.getD d none with
    | none => rw [hz] at hd2; cases hd2
    | some z =>
      rw [hz] at hd2
      simp only [Option.map_some, Option.some.injEq] at hd2
      subst hd2
      have hbf := h2 d _ (hget d hd1)
      rw [hz] at hbf
      by_cases hdc : d = c
      · subst hdc
        rw [hc2] at hz
        cases hz
        exact Or.inl rfl
      · right
        have hdn := (hmem d).1 hd1
        have := hc (d, d) (by
          rw [List.mem_zipIdx_iff_getElem?]
          simp [hdn])
        dsimp only at this
        rw [hbf, hxc] at this
        have hne : (d == c) = false := by simpa using hdc
        rw [hne] at this
        show (x.splitGain ≤ᶠ z.splitGain) = false
        simpa using this

/-- Training data with permuted columns. -/
theorem trainSel_perm {s s' : Splitter F} (hs : SplitterSel keep s s')
    {data : Matrix Nat} {cuts cuts' : JaggedMatrix D} {cl : List (List D)} (hJ : Jagged cl cuts)
    (hcl : cl.length = data.cols) (hS : data.Shaped) (hperm : keep.Perm (List.range data.cols))
    (hJ' : Jagged (keep.map fun c => cl.getD c []) cuts') (grad hess : List F) :
    TrainSel keep (fun node => clearNode s node (List.range data.cols) = true) s s' (HistSel keep (cl.map List.length))
      { data, cuts, grad, hess, colIndex := List.range data.cols }
      { data := data.select keep, cuts := cuts', grad, hess, colIndex := List.range keep.length } := by
  have hk : ∀ c ∈ keep, c < data.cols := fun c hc => by rwa [hperm.mem_iff, List.mem_range] at hc
  refine ⟨rfl, rfl, ?_, ?_, fun _ _ _ _ => HistSel.child, fun _ _ _ _ _ _ => HistSel.children, ?_⟩
  · intro c hc v hv
    show (data.select keep).getCol _ = _
    rw [Matrix.select_getCol hS hk (idxOf_getElem? hc)]
    exact hv
  · exact histogramMatrix_sel hJ hcl hS hk hJ' grad hess
  · intro node h' r hH h _ hc
    exact bestSplit_perm hs hperm hH h hc

/-! ## Growing -/

variable {E : JaggedMatrix (Bin F D) → JaggedMatrix (Bin F D) → Prop} {c c' : GrowCfg F D}

theorem growLoop_perm (hc : CfgSel keep (fun node => clearNode c.splitter node c.train.colIndex = true) E c c')
    (hk : ∀ f ∈ c.train.colIndex, f ∈ keep) : ∀ (k : Nat) {a b r : GrowState F D}, GrowSel keep E a b →
    growLoop c k a = .ok r → clearGrowth c k a = true → ∃ r', growLoop c' k b = .ok r' ∧ GrowSel keep E r r'
  | 0, a, b, r, h, hr, _ => by
    unfold growLoop at hr ⊢
    rw [growDone_sel hc h]
    split at hr
    · rename_i hd; cases hr; rw [if_pos hd]; exact ⟨b, rfl, h⟩
    · cases hr
  | k + 1, a, b, r, h, hr, hcl => by
    unfold growLoop at hr ⊢
    rw [growDone_sel hc h]
    split at hr
    · rename_i hd; cases hr; rw [if_pos hd]; exact ⟨b, rfl, h⟩
    · rename_i hd
      rw [if_neg hd]
      obtain ⟨a1, h1, h2⟩ := Res.bind_eq_ok.1 hr
      rw [clearGrowth, h1] at hcl
      have hd' : growDone c a = false := by simpa using hd
      rw [hd', Bool.false_or, Bool.and_eq_true] at hcl
      obtain ⟨b1, hb1, hab⟩ := growStep_sel hc h (fun node q info _ _ hb => hk _ (bestSplit_feature hb))
        (fun node q hp hdep => by
          have := hcl.1
          unfold clearNext at this
          rw [hp] at this
          dsimp only at this
          rw [Bool.or_eq_true] at this
          rcases this with h | h
          · have := of_decide_eq_true h; omega
          · exact h) a1 h1
      obtain ⟨r', hr', hrr⟩ := growLoop_perm hc hk k hab h2 hcl.2
      exact ⟨r', Res.bind_eq_ok.2 ⟨b1, hb1, hr'⟩, hrr⟩

theorem treeFit_perm (hc : CfgSel keep (fun node => clearNode c.splitter node c.train.colIndex = true) E c c')
    (hk : ∀ f ∈ c.train.colIndex, f ∈ keep) (sm : SampleMethod) (index : List Nat) {T : Tree F D}
    (h : Tree.fit c sm index = .ok T) (hcl : clearTree c sm index = true) :
    T.UsesOnly keep ∧ Tree.fit c' sm index = .ok (T.renumber keep) := by
  refine ⟨fun n hn hl => hk _ (Tree.fit_features h n hn hl), ?_⟩
  unfold Tree.fit at h ⊢
  obtain ⟨a, h1, h⟩ := Res.bind_eq_ok.1 h
  obtain ⟨r, h2, h⟩ := Res.bind_eq_ok.1 h
  obtain ⟨ns, h3, h⟩ := Res.bind_eq_ok.1 h
  cases h
  unfold clearTree at hcl
  rw [h1] at hcl
  obtain ⟨b, hb, hab⟩ := growInit_sel hc sm index a h1
  obtain ⟨r', hr', hrr⟩ := growLoop_perm hc hk _ hab h2 hcl
  obtain ⟨ns', h3', e⟩ := cleanUpSplits_sel hc.splitter r.nodes ns h3
  refine Res.bind_eq_ok.2 ⟨b, hb, Res.bind_eq_ok.2 ⟨r', ?_, Res.bind_eq_ok.2 ⟨ns', ?_, ?_⟩⟩⟩
  · rw [show growFuel c' = growFuel c by unfold growFuel; rw [hc.maxLeaves]]; exact hr'
  · rw [hrr.nodes]; exact h3'
  · rw [e]; rfl

/-! ## The boosting loop -/

theorem fitLoop_perm {R : Type} {env : Env R F D} (hp : ∀ i, (env.heap i).ByScore) {X : Matrix D}
    (hX : X.Shaped) (hperm : keep.Perm (List.range X.cols)) {y w : List D} {sp sp' : Splitter F}
    (hs : SplitterSel keep sp sp') {bdata bdata' : Matrix Nat} {cuts cuts' : JaggedMatrix D}
    (hT : ∀ grad hess, TrainSel keep (fun node => clearNode sp node (List.range X.cols) = true) sp sp' E
      { data := bdata, cuts, grad, hess, colIndex := List.range X.cols }
      { data := bdata', cuts := cuts', grad, hess, colIndex := List.range keep.length }) :
    ∀ (n i : Nat) {s s' r : FitState R F D}, (s.booster.colsampleBytree =ᶠ 1) = true → FitSel keep s s' →
    fitLoop env X y w sp bdata cuts n i s = .ok r → clearLoop env X y w sp bdata cuts n i s = true →
    ∃ r', fitLoop env (X.select keep) y w sp' bdata' cuts' n i s' = .ok r' ∧ FitSel keep r r'
  | 0, _, _, s', _, _, h, hr, _ => by cases hr; exact ⟨s', rfl, h⟩
  | n + 1, i, s, s', r, hcs, h, hr, hcl => by
    have hk : ∀ c ∈ keep, c < X.cols := fun c hc => by rwa [hperm.mem_iff, List.mem_range] at hc
    simp only [fitLoop] at hr ⊢
    obtain ⟨⟨s1, st⟩, h1, hr⟩ := Res.bind_eq_ok.1 hr
    dsimp only at hr
    rw [clearLoop, h1, Bool.and_eq_true] at hcl
    obtain ⟨c1, c2⟩ := hcl
    obtain ⟨⟨s1', st'⟩, h1', g1, g2, g3⟩ := fitIteration_selOf (sp' := sp') (bdata' := bdata') (cuts' := cuts') hX hk hcs h h1
      (fun chosen g hs' rng tree h0 h2 _ => by
        refine treeFit_perm (E := E) (keep := keep)
          (c := { splitter := sp, train := { data := bdata, cuts := cuts, grad := g, hess := hs'
                                             colIndex := List.range X.cols }
                  maxLeaves := s.booster.maxLeaves, maxDepth := s.booster.maxDepth
                  policy := s.booster.growPolicy, heap := env.heap i })
          (c' := { splitter := sp', train := { data := bdata', cuts := cuts', grad := g, hess := hs'
                                               colIndex := List.range keep.length }
                   maxLeaves := s.booster.maxLeaves, maxDepth := s.booster.maxDepth
                   policy := s.booster.growPolicy, heap := env.heap i })
          ⟨hT g hs', hs, rfl, rfl, rfl, rfl, hp i⟩ (fun f hf => hperm.mem_iff.2 hf) _ _ h2 ?_
        unfold clearIteration at c1
        dsimp only at c1
        rw [h0] at c1
        dsimp only at c1
        unfold sampleColumns at c1
        rw [if_pos hcs] at c1
        exact c1)
    dsimp only at g1 g2 g3 c2
    subst g2
    rw [h1', Res.ok_bind]
    dsimp only
    split at hr
    · rename_i hst
      cases hr
      rw [if_pos hst]
      exact ⟨_, rfl, g1⟩
    · rename_i hst
      rw [if_neg hst]
      refine fitLoop_perm hp hX hperm hs hT n (i + 1) g3 g1 hr ?_
      rw [Bool.or_eq_true] at c2
      exact c2.resolve_left hst

theorem fitRest_perm {R : Type} {env : Env R F D} (hp : ∀ i, (env.heap i).ByScore) {X : Matrix D}
    (hX : X.Shaped) (hperm : keep.Perm (List.range X.cols)) {y w : List D} {sp sp' : Splitter F}
    (hs : SplitterSel keep sp sp') {ev : Option (List (EvalSet D))}
    (hev : ∀ es, ev = some es → ∀ e ∈ es, e.data.Shaped ∧ ∀ c ∈ keep, c < e.data.cols)
    {b : Booster F D} (hcs : (b.colsampleBytree =ᶠ 1) = true) {r : Booster F D}
    (h : fitRest env X y w sp ev b = .ok r) (hcl : clearFrom env X y w sp ev b = true) :
    fitRest env (X.select keep) y w sp' (ev.map fun es => es.map fun e => e.select keep) (b.renumber keep) =
      .ok (r.renumber keep) := by
  have hk : ∀ c ∈ keep, c < X.cols := fun c hc => by rwa [hperm.mem_iff, List.mem_range] at hc
  unfold fitRest at h ⊢
  obtain ⟨bd, h1, h⟩ := Res.bind_eq_ok.1 h
  obtain ⟨s, h2, h⟩ := Res.bind_eq_ok.1 h
  cases h
  unfold clearFrom at hcl
  dsimp only at hcl
  rw [h1] at hcl
  dsimp only at hcl
  obtain ⟨cl, hJ, hl, hB⟩ := binMatrix_shape hX h1
  obtain ⟨bd', h1', hbd, hJ'⟩ := binMatrix_select hX h1 hJ keep hk
  refine Res.bind_eq_ok.2 ⟨bd', h1', ?_⟩
  have hT := trainSel_perm (data := { data := bd.binned, rows := X.rows, cols := X.cols }) hs hJ hl hB hperm hJ'
  obtain ⟨s', h2', hss⟩ := fitLoop_perm hp hX hperm hs hT b.iterations 0 (s' :=
    { booster := b.renumber keep, yhat := List.replicate y.length b.baseScore
      grad := (calcGradHess (F := F) b.objectiveType y (List.replicate y.length b.baseScore) w).1
      hess := (calcGradHess (F := F) b.objectiveType y (List.replicate y.length b.baseScore) w).2
      evals := (ev.map fun es => es.map fun e => e.select keep).map fun es => es.map fun e =>
        { toEvalSet := e, yhat := List.replicate e.y.length b.baseScore : TrainEval D }
      best := none, rng := env.rng.seed b.seed }) hcs (by
      refine ⟨rfl, rfl, rfl, rfl, ?_, rfl, rfl⟩
      cases ev with
      | none => trivial
      | some es =>
        show List.Forall₂ _ (es.map _) ((es.map _).map _)
        rw [List.map_map, List.forall₂_map_left_iff, List.forall₂_map_right_iff, List.forall₂_same]
        exact fun e he => ⟨rfl, hev es rfl e he⟩) h2 hcl
  refine Res.bind_eq_ok.2 ⟨s', ?_, ?_⟩
  · rw [← hbd] at h2'
    exact h2'
  · rw [hss.booster]

/-- The fit on permuted columns. -/
theorem fit_perm {R : Type} {env : Env R F D} (hp : ∀ i, (env.heap i).ByScore) {X : Matrix D}
    (hX : X.Shaped) (hperm : keep.Perm (List.range X.cols)) {y w : List D}
    {ev : Option (List (EvalSet D))}
    (hev : ∀ es, ev = some es → ∀ e ∈ es, e.data.Shaped ∧ ∀ c ∈ keep, c < e.data.cols)
    {b : Booster F D} (hcs : (b.colsampleBytree =ᶠ 1) = true) {r : Booster F D} {res : Except ForustError Unit}
    (h : b.fit env X y w ev = .ok (r, res)) (hcl : b.fitsClearly env X y w ev = true) :
    (b.renumber keep).fit env (X.select keep) y w (ev.map fun es => es.map fun e => e.select keep) =
      .ok (r.renumber keep, res) := by
  have hv : validateFit y w (ev.map fun es => es.map fun e => e.select keep) = validateFit y w ev := by
    unfold validateFit
    cases ev with
    | none => rfl
    | some es => simp only [Option.map_some, validateEvals_sel es]
  unfold Booster.fit at h ⊢
  rw [hv]
  split at h
  · cases h; rfl
  · obtain ⟨b', h1, h⟩ := Res.bind_eq_ok.1 h
    cases h
    refine Res.bind_eq_ok.2 ⟨r.renumber keep, ?_, rfl⟩
    rw [fitTrees_eq_rest] at h1 ⊢
    have h0 : (if (b.renumber keep).trees.isEmpty then b.renumber keep else (b.renumber keep).reset) =
        (if b.trees.isEmpty then b else b.reset).renumber keep := by
      rw [show (b.renumber keep).trees.isEmpty = b.trees.isEmpty by simp [Booster.renumber]]
      split <;> rfl
    have hc0 : ((if b.trees.isEmpty then b else b.reset).colsampleBytree =ᶠ 1) = true := by
      split <;> exact hcs
    have hs := splitterSel_renumber (keep := keep) b
    rw [h0]
    unfold Booster.fitsClearly at hcl
    generalize (if b.trees.isEmpty then b else b.reset) = b0 at hc0 h1 hcl
    dsimp only at h1 hcl ⊢
    rw [show (b0.renumber keep).initializeBaseScore = b0.initializeBaseScore from rfl]
    split at h1
    · rename_i hi
      rw [if_pos hi] at hcl ⊢
      obtain ⟨s, h2, h1⟩ := Res.bind_eq_ok.1 h1
      rw [h2] at hcl
      refine Res.bind_eq_ok.2 ⟨s, h2, ?_⟩
      exact fitRest_perm (b := { b0 with baseScore := s }) hp hX hperm hs hev hc0 h1 hcl
    · rename_i hi
      rw [if_neg hi] at hcl ⊢
      exact fitRest_perm hp hX hperm hs hev hc0 h1 hcl

end Verif
