import Verif.Props.PyRefit
import Verif.Props.Importance
import Verif.Props.Sampling
import Verif.Props.Growth

/-!
# C67 and C68: failing `fit`, and feature importances by name (Python class)
-/

namespace Verif

open scoped Verif

variable {F D : Type} [Fl F] [Fl D] [FlCast F D] {R : Type}

set_option linter.unusedSectionVars false

/-! ### C67 -/

/-- **C67** (partial).  A `fit` that raises leaves the attributes named like the keyword arguments and the
crate's booster as they were, apart from the constraints, the terminated features and the metadata; so on
arrays all predictions are as before.  Missing: `feature_names_in_` and `n_features_` are overwritten before
anything is checked (`C67_changed`). -/
theorem C67_failed_fit_partial {J : PyJson} {env : Env R F D} {o o' : PyBooster F D} {X : Frame D}
    {y : List D} {w : Option (List D)} {evals : Option (List (PyEval D))} {e : PyErr}
    (h : o.fit J env X y w evals = .ok (o', .error e)) :
    o'.params = o.params ∧
    o'.booster = { o.booster with
      monotoneConstraints := o'.booster.monotoneConstraints
      terminateMissingFeatures := o'.booster.terminateMissingFeatures
      metadata := o'.booster.metadata } ∧
    o'.nFeatures = some X.data.cols ∧
    o'.featureNames = (if X.features ≠ [] then some X.features else o.featureNames) ∧
    (∀ A : Frame D, A.features = [] ∨ o'.featureNames = o.featureNames →
      o'.predict A = o.predict A ∧ o'.predictLeafIndices A = o.predictLeafIndices A ∧
      ∀ m, o'.predictContributions A m = o.predictContributions A m) := by
  have key : o'.params = o.params ∧
      o'.booster = { o.booster with
        monotoneConstraints := o'.booster.monotoneConstraints
        terminateMissingFeatures := o'.booster.terminateMissingFeatures
        metadata := o'.booster.metadata } ∧
      o'.nFeatures = some X.data.cols ∧
      o'.featureNames = (if X.features ≠ [] then some X.features else o.featureNames) := by
    have hb := describe_booster J o X
    have h1 := describe_params J o X
    have h2 := describe_nFeatures J o X
    have h3 := describe_names J o X
    cases pyFit_iff.1 h with
    | constraints hc => refine ⟨h1, ?_, h2, h3⟩; rw [hb]; rfl
    | terminate hc ht => refine ⟨h1, ?_, h2, h3⟩; dsimp only; rw [hb]; rfl
    | evals hc ht he => refine ⟨h1, ?_, h2, h3⟩; dsimp only [PyBooster.ready]; rw [hb]; rfl
    | @invalid b e m t us hc ht he hg =>
      have := (Booster.fit_keeps hg).1 e rfl
      subst this
      refine ⟨h1, ?_, h2, h3⟩
      dsimp only [PyBooster.ready]; rw [hb]; rfl
  refine ⟨key.1, key.2.1, key.2.2.1, key.2.2.2, ?_⟩
  intro A hA
  have hv : o'.validateFeatures A.features = o.validateFeatures A.features := by
    rcases hA with hA | hA
    · unfold PyBooster.validateFeatures
      rw [hA]
      cases o'.featureNames <;> cases o.featureNames <;> simp
    · unfold PyBooster.validateFeatures; rw [hA]
  have hp : o'.booster.predict A.data = o.booster.predict A.data := by rw [key.2.1]; rfl
  have hl : o'.booster.predictLeafIndices A.data = o.booster.predictLeafIndices A.data := by
    rw [key.2.1]; rfl
  have hc : ∀ m, o'.booster.predictContributions A.data m = o.booster.predictContributions A.data m := by
    intro m
    rw [key.2.1]
    cases m <;> rfl
  refine ⟨?_, ?_, ?_⟩
  · unfold PyBooster.predict; rw [hv, hp]
  · unfold PyBooster.predictLeafIndices; rw [hv, hl, key.2.1]
  · intro m; unfold PyBooster.predictContributions; rw [hv]; simp only [hc]

/-- **C67** is false in general: a `fit` that raises because of a NaN among the targets leaves an instance
that no longer predicts on the data frame it was fitted on. -/
theorem C67_changed : ∃ (o o' : PyBooster Q Q) (X : Frame Q) (y : List Q) (p : List Q),
    Made exJson exParams o ∧ o.predict exFrame = .ok (.ok p) ∧
    o.fit exJson exEnv X y none none = .ok (o', .error .valueError) ∧
    o'.predict exFrame = .ok (.error .valueError) := by
  have h : ((exFitted exFrame exY none).bind fun o => (resValue (o.predict exFrame)).bind fun r =>
      (exceptValue r).bind fun p =>
      (resValue (o.fit exJson exEnv { exFrame with columns := some ["c", "d"] } (List.replicate 6 FX.nan)
        none none)).bind fun r => some (p, r.1, decide (r.2 = .error .valueError ∧
        r.1.predict exFrame = .ok (.error .valueError)))).map (fun r => r.2.2) = some true := by
    decide +kernel
  simp only [Option.map_eq_some_iff, Option.bind_eq_some_iff, Option.some.injEq] at h
  obtain ⟨_, ⟨o, h1, r, h2, p, h3, r', h4, rfl⟩, h5⟩ := h
  obtain ⟨h5, h6⟩ := of_decide_eq_true h5
  obtain ⟨o', x⟩ := r'
  dsimp only at h5 h6
  subst h5
  exact ⟨o, o', _, _, p, (exFitted_made h1).1, by rw [resValue_eq h2, exceptValue_eq h3],
    resValue_eq h4, h6⟩

/-! ### C68 -/

/-- The crate's importances: every key occurs once and is the feature of a split. -/
theorem importance_keys {S : Sorter} {b : Booster F D} (hwf : ∀ t ∈ b.trees, t.Wf) {m : ImportanceMethod}
    {normalize : Bool} {imp : List (Nat × F)} (h : b.featureImportance S m normalize = .ok imp) :
    (imp.map Prod.fst).Nodup ∧ ∀ f ∈ imp.map Prod.fst, ∃ t ∈ b.trees, ∃ n ∈ t.nodes,
      n.isLeaf = false ∧ n.splitFeature = f := by
  obtain ⟨l, hp, hl⟩ := stats_eq b.trees hwf (m.stat (F := F) (D := D)).1
  have hk : ∀ (l : List (Node F D)) (st : Stats F), (st.map Prod.fst).Nodup →
      ((l.foldl (addNode (m.stat (F := F) (D := D)).1) st).map Prod.fst).Nodup ∧
      ∀ f ∈ (l.foldl (addNode (m.stat (F := F) (D := D)).1) st).map Prod.fst,
        f ∈ st.map Prod.fst ∨ ∃ n ∈ l, n.isLeaf = false ∧ n.splitFeature = f := by
    intro l
    induction l with
    | nil => intro st h; exact ⟨h, fun f hf => .inl hf⟩
    | cons n l ih =>
      intro st hst
      rw [List.foldl_cons]
      by_cases hn : n.isLeaf = true
      · rw [addNode, if_pos hn]
        obtain ⟨a, b⟩ := ih st hst
        exact ⟨a, fun f hf => (b f hf).imp id fun ⟨n, h1, h2⟩ => ⟨n, by simp [h1], h2⟩⟩
      · rw [addNode, if_neg hn]
        obtain ⟨a, b⟩ := ih _ (nodup_statsAdd st n.splitFeature _ hst)
        refine ⟨a, fun f hf => ?_⟩
        rcases b f hf with h1 | ⟨n', h1, h2⟩
        · rw [keys_statsAdd] at h1
          split at h1
          · exact .inl h1
          · rcases List.mem_append.1 h1 with h1 | h1
            · exact .inl h1
            · exact .inr ⟨n, by simp, by simpa using hn, (List.mem_singleton.1 h1).symm⟩
        · exact .inr ⟨n', by simp [h1], h2⟩
  obtain ⟨h1, h2⟩ := hk l [] (by simp)
  have keys : ∀ {st : Stats F}, Res.foldM' (fun st t => t.importance (m.stat (F := F) (D := D)).1 st) [] b.trees
      = .ok st → imp.map Prod.fst = st.map Prod.fst → (imp.map Prod.fst).Nodup ∧
      ∀ f ∈ imp.map Prod.fst, ∃ t ∈ b.trees, ∃ n ∈ t.nodes, n.isLeaf = false ∧ n.splitFeature = f := by
    intro st hst e
    rw [hl] at hst
    obtain rfl := Res.ok.inj hst
    rw [e]
    refine ⟨h1, fun f hf => ?_⟩
    rcases h2 f hf with h | ⟨n, hn, hh⟩
    · cases h
    · obtain ⟨t, ht, hnt⟩ := List.mem_flatMap.1 (hp.mem_iff.1 hn)
      exact ⟨t, ht, n, hnt, hh⟩
  unfold Booster.featureImportance at h
  simp only [Res.bind_eq_ok] at h
  obtain ⟨st, hst, h⟩ := h
  refine keys hst ?_
  split at h
  · simp only [Res.bind_eq_ok, Res.ok.injEq] at h
    obtain ⟨_, _, rfl⟩ := h
    simp [List.map_map, Function.comp_def]
  · simp only [Res.ok.injEq] at h
    obtain rfl := h
    simp [List.map_map, Function.comp_def]

/-- After a successful `fit` the crate's importances are about columns of the data. -/
theorem fit_importance_keys {J : PyJson} {env : Env R F D} (hr : env.rng.Ok) {o o' : PyBooster F D}
    {X : Frame D} {y : List D} {w : Option (List D)} {evals : Option (List (PyEval D))}
    (h : o.fit J env X y w evals = .ok (o', .ok ())) {S : Sorter} {m : ImportanceMethod}
    {normalize : Bool} {imp : List (Nat × F)}
    (hi : o'.booster.featureImportance S m normalize = .ok imp) :
    (imp.map Prod.fst).Nodup ∧ ∀ f ∈ imp.map Prod.fst, f < X.data.cols := by
  cases pyFit_iff.1 h with
  | @done b m t us hc ht he hf =>
    have hw := C03_well_formed env _ b X.data _ _ _ hf
    obtain ⟨h1, h2⟩ := importance_keys hw hi
    refine ⟨h1, fun f hf' => ?_⟩
    obtain ⟨t, ht', n, hn, hl, rfl⟩ := h2 f hf'
    obtain ⟨cols, -, c2, -, c4⟩ := C33_columns hr hf ht'
    exact c2 _ (c4 n hn hl)

theorem nameOf_eq_ok {names : List String} {i : Nat} {s : String} :
    nameOf names i = .ok s ↔ names[i]? = some s := by
  unfold nameOf; split <;> simp_all

/-- Renaming the keys by distinct names. -/
theorem rename_keys {names : List String} (hd : names.Nodup) {imp : List (Nat × F)}
    (hnd : (imp.map Prod.fst).Nodup) (hk : ∀ f ∈ imp.map Prod.fst, f < names.length) :
    ∃ d, (pyMap (fun (p : Nat × F) => do
        let s ← nameOf names p.1
        .ok (PyKey.str s, p.2)) imp).map pyDict = .ok d ∧ (d.map Prod.fst).Nodup ∧
      (∀ i name, names[i]? = some name → d.lookup (.str name) = imp.lookup i) ∧
      ∀ k v, d.lookup k = some v → ∃ name ∈ names, k = .str name := by
  have hmap : ∃ l : List (PyKey × F), pyMap (fun (p : Nat × F) => do
        let s ← nameOf names p.1
        .ok (PyKey.str s, p.2)) imp = .ok l ∧
      List.Forall₂ (fun (p : Nat × F) (q : PyKey × F) => ∃ s, names[p.1]? = some s ∧
        q = (PyKey.str s, p.2)) imp l := by
    clear hnd
    induction imp with
    | nil => exact ⟨[], rfl, .nil⟩
    | cons p imp ih =>
      obtain ⟨l, h1, h2⟩ := ih fun f hf => hk f (by simp only [List.map_cons, List.mem_cons]; exact .inr hf)
      have hp : p.1 < names.length := hk p.1 (by simp)
      have hn : nameOf names p.1 = .ok names[p.1] := nameOf_eq_ok.2 (List.getElem?_eq_getElem hp)
      refine ⟨(PyKey.str names[p.1], p.2) :: l, ?_, .cons ⟨_, List.getElem?_eq_getElem hp, rfl⟩ h2⟩
      rw [pyMap, h1, hn]; rfl
  obtain ⟨l, h1, h2⟩ := hmap
  have hinj : ∀ (i j : Nat) (s : String), names[i]? = some s → names[j]? = some s → i = j := by
    intro i j s hi hj
    obtain ⟨a1, a2⟩ := List.getElem?_eq_some_iff.1 hi
    obtain ⟨b1, b2⟩ := List.getElem?_eq_some_iff.1 hj
    exact (List.Nodup.getElem_inj_iff hd).1 (a2.trans b2.symm)
  have hl : (l.map Prod.fst).Nodup ∧
      (∀ i name, names[i]? = some name → l.lookup (.str name) = imp.lookup i) ∧
      (∀ q ∈ l, ∃ p ∈ imp, ∃ s, names[p.1]? = some s ∧ q.1 = PyKey.str s) := by
    clear h1 hk
    induction h2 with
    | nil => exact ⟨by simp, fun _ _ _ => rfl, by simp⟩
    | @cons p q imp l hpq _ ih =>
      obtain ⟨s, hs, rfl⟩ := hpq
      simp only [List.map_cons, List.nodup_cons] at hnd ⊢
      obtain ⟨i1, i2, i3⟩ := ih hnd.2
      refine ⟨⟨?_, i1⟩, ?_, ?_⟩
      · intro hmem
        obtain ⟨q, hq, e⟩ := List.mem_map.1 hmem
        obtain ⟨p', hp', s', hs', e'⟩ := i3 q hq
        rw [e'] at e
        obtain rfl := PyKey.str.inj e
        have := hinj _ _ _ hs' hs
        exact hnd.1 (by rw [← this]; exact List.mem_map_of_mem hp')
      · intro i name hi
        obtain ⟨k, v⟩ := p
        by_cases hik : i = k
        · subst hik
          rw [hi] at hs
          obtain rfl := Option.some.inj hs
          simp [List.lookup]
        · have hne : PyKey.str name ≠ PyKey.str s := by
            intro e
            obtain rfl := PyKey.str.inj e
            exact hik (hinj _ _ _ hi hs)
          have b1 : (PyKey.str name == PyKey.str s) = false := by simpa using hne
          have b2 : (i == k) = false := by simpa using hik
          simp only [List.lookup, b1, b2]
          exact i2 i name hi
      · intro q hq
        rcases List.mem_cons.1 hq with rfl | hq
        · exact ⟨p, by simp, s, hs, rfl⟩
        · obtain ⟨p', hp', rest⟩ := i3 q hq
          exact ⟨p', by simp [hp'], rest⟩
  obtain ⟨l1, l2, l3⟩ := hl
  refine ⟨pyDict l, by rw [h1]; rfl, nodup_keys_pyDict l, ?_, ?_⟩
  · intro i name hi; rw [lookup_pyDict _ _ l1]; exact l2 i name hi
  · intro k v hv
    rw [lookup_pyDict _ _ l1, lookup_of_mem l1] at hv
    obtain ⟨p, _, s, hs, e⟩ := l3 _ hv
    exact ⟨s, List.mem_of_getElem? hs, e⟩

/-- **C68** (partial).  After a successful `fit` on a data frame with distinct column names, whenever the crate
can compute the importances, `calculate_feature_importance` gives each column's importance under its name
(and nothing else), and `feature_importances_` lists them in the order of the columns, 0 for columns without a
split.  Missing: a `fit` on an array after a `fit` on a data frame (`C68_stale`), and duplicate names
(`C68_duplicate`). -/
theorem C68_names_partial {J : PyJson} {env : Env R F D} (hr : env.rng.Ok) {o o' : PyBooster F D}
    {X : Frame D} {y : List D} {w : Option (List D)} {evals : Option (List (PyEval D))}
    (h : o.fit J env X y w evals = .ok (o', .ok ())) {cols : List String} (hX : X.columns = some cols)
    (hd : cols.Nodup) (hlen : cols.length = X.data.cols) (hne : cols ≠ []) {S : Sorter} {method : String}
    {m : ImportanceMethod} (hm : ImportanceMethod.ofName method = some m) {normalize : Bool}
    {imp : List (Nat × F)} (hi : o'.booster.featureImportance S m normalize = .ok imp) :
    (∃ d, o'.featureImportance S method normalize = .ok (.ok d) ∧ (d.map Prod.fst).Nodup ∧
      (∀ i name, cols[i]? = some name → d.lookup (.str name) = imp.lookup i) ∧
      ∀ k v, d.lookup k = some v → ∃ name ∈ cols, k = .str name) ∧
    (o'.params.featureImportanceMethod = method → normalize = true →
      ∃ L, o'.featureImportances S = .ok (.ok L) ∧ L.length = cols.length ∧
        ∀ i < cols.length, L[i]? = some ((imp.lookup i).getD 0)) := by
  obtain ⟨k1, k2⟩ := fit_importance_keys hr h hi
  have hf : X.features = cols := by unfold Frame.features; rw [hX]; rfl
  have hnames : o'.featureNames = some cols := by
    cases pyFit_iff.1 h with
    | done hc ht he hg =>
      dsimp only
      rw [describe_names, hf, if_pos hne]
  obtain ⟨d, d1, d2, d3, d4⟩ := rename_keys hd k1 (by rw [hlen]; exact k2)
  have himp : o'.featureImportance S method normalize = .ok (.ok d) := by
    simp only [PyBooster.featureImportance, hm, hi, hnames, Res.ok_bind, d1]
  refine ⟨⟨d, himp, d2, d3, d4⟩, ?_⟩
  rintro rfl rfl
  refine ⟨cols.map fun f => (d.lookup (PyKey.str f)).getD 0, ?_, by simp, ?_⟩
  · simp only [PyBooster.featureImportances, himp, Res.ok_bind, hnames]
  · intro i hi'
    rw [List.getElem?_map, List.getElem?_eq_getElem hi', Option.map_some,
      d3 i _ (List.getElem?_eq_getElem hi')]

/-- **C68** (arrays, partial).  After a successful `fit` on an array of an instance that was never fitted on a
data frame, the keys are the column numbers. -/
theorem C68_array_partial {J : PyJson} {env : Env R F D} {o o' : PyBooster F D}
    {X : Frame D} {y : List D} {w : Option (List D)} {evals : Option (List (PyEval D))}
    (h : o.fit J env X y w evals = .ok (o', .ok ())) (hX : X.columns = none) (ho : o.featureNames = none)
    {S : Sorter} {method : String} {m : ImportanceMethod} (hm : ImportanceMethod.ofName method = some m)
    {normalize : Bool} {imp : List (Nat × F)}
    (hi : o'.booster.featureImportance S m normalize = .ok imp) :
    o'.featureImportance S method normalize = .ok (.ok (imp.map fun p => (PyKey.int p.1, p.2))) ∧
    (o'.params.featureImportanceMethod = method → normalize = true →
      ∃ L, o'.featureImportances S = .ok (.ok L) ∧ L.length = X.data.cols ∧
        ∀ i < X.data.cols, L[i]? = some ((imp.lookup i).getD 0)) := by
  have hf : X.features = [] := by unfold Frame.features; rw [hX]; rfl
  have hn : o'.featureNames = none ∧ o'.nFeatures = some X.data.cols := by
    cases pyFit_iff.1 h with
    | done hc ht he hg =>
      dsimp only
      rw [describe_names, hf, describe_nFeatures]
      exact ⟨by simpa using ho, rfl⟩
  have himp : o'.featureImportance S method normalize =
      .ok (.ok (imp.map fun p => (PyKey.int p.1, p.2))) := by
    simp only [PyBooster.featureImportance, hm, hi, hn.1, Res.ok_bind]
  refine ⟨himp, ?_⟩
  rintro rfl rfl
  refine ⟨(List.range X.data.cols).map fun i =>
    ((imp.map fun p => (PyKey.int p.1, p.2)).lookup (PyKey.int i)).getD 0, ?_, by simp, ?_⟩
  · simp only [PyBooster.featureImportances, himp, Res.ok_bind, hn.1, hn.2]
  · intro i hi'
    rw [List.getElem?_map, List.getElem?_range hi', Option.map_some]
    congr 2
    clear hi himp
    induction imp with
    | nil => rfl
    | cons p imp ih =>
      obtain ⟨k, v⟩ := p
      rw [List.map_cons]
      by_cases hik : i = k
      · subst hik; simp [List.lookup]
      · have b1 : (PyKey.int i == PyKey.int k) = false := by simpa using hik
        have b2 : (i == k) = false := by simpa using hik
        simp only [List.lookup, b1, b2]
        exact ih

/-- Three columns of which the last alone differs between records. -/
def exLast : Matrix Q :=
  { data := List.replicate 12 (q 0) ++ exY, rows := 6, cols := 3 }

/-- Two columns of which the first alone differs between records, with the same name. -/
def exTwice : Frame Q :=
  { columns := some ["a", "a"], data := { data := exY ++ List.replicate 6 (q 0), rows := 6, cols := 2 } }

/-- **C68** is false in general: after `fit` on a data frame with two columns and `fit` on an array with three,
the crate has an importance for feature 2, and `calculate_feature_importance` and `feature_importances_`
raise `KeyError`. -/
theorem C68_stale : ∃ (o o' : PyBooster Q Q) (imp : List (Nat × Q)), Made exJson exParams o ∧
    o.fit exJson exEnv ⟨none, exLast⟩ exY none none = .ok (o', .ok ()) ∧
    o'.booster.featureImportance exEnv.sorter .gain true = .ok imp ∧ imp = [(2, q 1)] ∧
    o'.featureImportance exEnv.sorter "Gain" true = .ok (.error .keyError) ∧
    o'.featureImportances exEnv.sorter = .ok (.error .keyError) := by
  have h : ((exFitted exFrame exY none).bind fun o => (pyFitted o ⟨none, exLast⟩ exY none).bind fun o' =>
      some (decide (o'.booster.featureImportance exEnv.sorter .gain true = .ok [(2, q 1)] ∧
        o'.featureImportance exEnv.sorter "Gain" true = .ok (.error .keyError) ∧
        o'.featureImportances exEnv.sorter = .ok (.error .keyError)))) = some true := by
    decide +kernel
  simp only [Option.bind_eq_some_iff, Option.some.injEq, decide_eq_true_eq] at h
  obtain ⟨o, h1, o', h2, h3, h4, h5⟩ := h
  exact ⟨o, o', _, (exFitted_made h1).1, pyFitted_eq h2, h3, rfl, h4, h5⟩

/-- **C68** is false for duplicate names: the second column, which no tree uses, has the importance of the
first. -/
theorem C68_duplicate : ∃ o : PyBooster Q Q, Made exJson exParams o ∧
    o.featureNames = some ["a", "a"] ∧
    o.booster.featureImportance exEnv.sorter .gain true = .ok [(0, q 1)] ∧
    o.featureImportances exEnv.sorter = .ok (.ok [q 1, q 1]) := by
  have h : ((exFitted exTwice exY none).bind fun o => some (decide (o.featureNames = some ["a", "a"] ∧
      o.booster.featureImportance exEnv.sorter .gain true = .ok [(0, q 1)] ∧
      o.featureImportances exEnv.sorter = .ok (.ok [q 1, q 1])))) = some true := by
    decide +kernel
  simp only [Option.bind_eq_some_iff, Option.some.injEq, decide_eq_true_eq] at h
  obtain ⟨o, h1, h2⟩ := h
  exact ⟨o, (exFitted_made h1).1, h2⟩

/-! ### Examples -/

/-- A fitted instance with importances on two names (hypotheses of C68). -/
example : ∃ (o : PyBooster Q Q) (imp : List (Nat × Q)), Made exJson exParams o ∧
    o.featureNames = some ["a", "b"] ∧ ImportanceMethod.ofName "Gain" = some .gain ∧
    o.params.featureImportanceMethod = "Gain" ∧
    o.booster.featureImportance exEnv.sorter .gain true = .ok imp ∧ imp ≠ [] := by
  have h : ((exFitted exFrame exY none).bind fun o =>
      (resValue (o.booster.featureImportance exEnv.sorter .gain true)).bind fun imp =>
      some (decide (o.featureNames = some ["a", "b"] ∧ ImportanceMethod.ofName "Gain" = some .gain ∧
        o.params.featureImportanceMethod = "Gain" ∧ imp ≠ []))) = some true := by
    decide +kernel
  simp only [Option.bind_eq_some_iff, Option.some.injEq, decide_eq_true_eq] at h
  obtain ⟨o, h1, imp, h2, h3, h4, h5, h6⟩ := h
  exact ⟨o, imp, (exFitted_made h1).1, h3, h4, h5, resValue_eq h2, h6⟩

/-- An instance fitted on an array only. -/
example : ∃ o : PyBooster Q Q, Made exJson exParams o ∧ o.featureNames = none ∧
    o.featureImportance exEnv.sorter "Gain" true = .ok (.ok [(.int 2, q 1)]) ∧
    o.featureImportances exEnv.sorter = .ok (.ok [q 0, q 0, q 1]) := by
  have h : ((exFitted ⟨none, exLast⟩ exY none).bind fun o => some (decide (o.featureNames = none ∧
      o.featureImportance exEnv.sorter "Gain" true = .ok (.ok [(.int 2, q 1)]) ∧
      o.featureImportances exEnv.sorter = .ok (.ok [q 0, q 0, q 1])))) = some true := by
    decide +kernel
  simp only [Option.bind_eq_some_iff, Option.some.injEq, decide_eq_true_eq] at h
  obtain ⟨o, h1, h2⟩ := h
  exact ⟨o, (exFitted_made h1).1, h2⟩

end Verif
