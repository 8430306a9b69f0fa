import Verif.Proofs.Unused
import Verif.Props.ExtraColumn
import Verif.Props.Splits

/-!
# C104: features that no split uses

Predictions, leaves and contributions of every method depend only on the columns that some split asks for; all other
features get the contribution 0, have a flat partial dependence and no importance.
-/

namespace Verif

open scoped Verif

set_option linter.unusedSectionVars false

section
variable {F D : Type} [Fl F] [Fl D] [FlCast F D] {b : Booster F D} {X X' : Matrix D}

theorem predictionTrees_mem {ts : List (Tree F D)} (h : b.predictionTrees = .ok ts) : ∀ t ∈ ts, t ∈ b.trees := by
  unfold Booster.predictionTrees at h
  dsimp only at h
  split at h
  · cases h
    exact fun t ht => List.mem_of_mem_take ht
  · cases h

theorem leafFrom_get_congr {nodes : List (Node F D)} {get get' : Nat → Res D} {missing : D}
    (hg : ∀ m ∈ nodes, m.isLeaf = false → get' m.splitFeature = get m.splitFeature) : ∀ (fuel i : Nat),
    leafFrom nodes get' missing fuel i = leafFrom nodes get missing fuel i
  | 0, _ => rfl
  | fuel + 1, i => by
    rw [leafFrom, leafFrom]
    rcases idx_cases nodes i with ⟨_, m, hm⟩ | ⟨_, hm⟩
    · rw [hm, Res.ok_bind, Res.ok_bind]
      by_cases hl : m.isLeaf = true
      · rw [if_pos hl, if_pos hl]
      · rw [if_neg hl, if_neg hl, hg m (List.mem_of_getElem? (idx_eq_ok.1 hm)) (by simpa using hl)]
        congr 1; funext v
        congr 1; funext c
        exact leafFrom_get_congr hg fuel c
    · rw [hm]; rfl

theorem AgreeFor.get (h : AgreeFor b X X') {t : Tree F D} (ht : t ∈ b.trees) {i : Nat} (hi : i < X.rows) (missing : D) :
    t.predictLeaf X' i missing = t.predictLeaf X i missing := by
  unfold Tree.predictLeaf
  refine leafFrom_get_congr (fun m hm hl => ?_) _ _
  have e := h.entry _ ⟨t, ht, m, hm, hl, rfl⟩ i hi
  unfold Matrix.entry at e
  unfold Matrix.get Matrix.itemIndex idx
  rw [Nat.one_mul, Nat.add_comm, e, Nat.add_comm]

/-- **C104** (predictions).  Two matrices that agree in the columns asked for by the splits get the same predictions
and the same leaves.  Any arithmetic. -/
theorem C104_predict (h : AgreeFor b X X') :
    b.predict X' = b.predict X ∧ b.predictLeafIndices X' = b.predictLeafIndices X := by
  have hidx : X'.index = X.index := by unfold Matrix.index; rw [h.rows]
  have hlt : ∀ i ∈ X.index, i < X.rows := fun i hi => by simpa [Matrix.index] using hi
  constructor
  · unfold Booster.predict
    rw [h.rows]
    rcases e : b.predictionTrees with ts | _ | _
    · rw [Res.ok_bind, Res.ok_bind]
      refine Res.foldM'_congr (fun t ht acc => ?_) _
      have : t.predict X' b.missing = t.predict X b.missing := by
        unfold Tree.predict
        rw [hidx]
        refine Res.mapM'_congr fun i hi => ?_
        rw [h.get (predictionTrees_mem e t ht) (hlt i hi)]
      rw [this]
    · rfl
    · rfl
  · unfold Booster.predictLeafIndices
    rcases e : b.predictionTrees with ts | _ | _
    · rw [Res.ok_bind, Res.ok_bind]
      congr 1
      refine Res.mapM'_congr fun t ht => ?_
      unfold Tree.predictLeafIndices
      rw [hidx]
      refine Res.mapM'_congr fun i hi => ?_
      rw [h.get (predictionTrees_mem e t ht) (hlt i hi)]
    · rfl
    · rfl

theorem contribRows_agreed (h : AgreeFor b X X') (m : ContributionsMethod) :
    Res.Imp (List.Forall₂ (Agreed b.SplitsOn X.cols X'.cols)) (b.contribRows X m) (b.contribRows X' m) := by
  have hU := h.cols
  have hidx : X'.index = X.index := by unfold Matrix.index; rw [h.rows]
  have hlt : ∀ i ∈ X.index, i < X.rows := fun i hi => by simpa [Matrix.index] using hi
  have hrow : ∀ i ∈ X.index, ∃ r r', X.getRow i = .ok r ∧ X'.getRow i = .ok r' ∧
      RowsAgree b.SplitsOn X.cols X'.cols r r' := by
    intro i hi
    obtain ⟨r, h1, h2, h3⟩ := getRow_entry h.shaped (hlt i hi)
    obtain ⟨r', h4, h5, h6⟩ := getRow_entry h.shaped' (show i < X'.rows by rw [h.rows]; exact hlt i hi)
    refine ⟨r, r', h1, h4, h2, h5, fun f hf => ?_⟩
    have e1 := h3 f
    have e2 := h6 f
    rw [h.entry f hf i (hlt i hi), ← e1] at e2
    unfold idx at e2
    rcases hr : r[f]? with _ | v
    · rw [hr] at e2
      rcases hr' : r'[f]? with _ | v'
      · rfl
      · rw [hr'] at e2; cases e2
    · rw [hr] at e2
      rcases hr' : r'[f]? with _ | v'
      · rw [hr'] at e2; cases e2
      · rw [hr'] at e2; cases e2; rfl
  have hnode : ∀ {ts : List (Tree F D)}, b.predictionTrees = .ok ts → ∀ t ∈ ts, ∀ n ∈ t.nodes,
      n.isLeaf = false → b.SplitsOn n.splitFeature :=
    fun e t ht n hn hl => ⟨t, predictionTrees_mem e t ht, n, hn, hl, rfl⟩
  have alone : ∀ m', (m' ≠ .average) → (m' ≠ .probabilityChange) → Res.Imp (List.Forall₂ (Agreed b.SplitsOn X.cols X'.cols))
      (b.predictionTrees >>= fun ts => Res.mapM' (contribsRowAlone b ts m' X) X.index)
      (b.predictionTrees >>= fun ts => Res.mapM' (contribsRowAlone b ts m' X') X'.index) := by
    intro m' hm1 hm2
    refine (Res.Imp.same _).bind fun ts ts' hts _ e => ?_
    subst e
    rw [hidx]
    refine Res.Imp.mapM' fun i hi => ?_
    obtain ⟨r, r', h1, h2, h3⟩ := hrow i hi
    unfold contribsRowAlone
    rw [h1, h2, Res.ok_bind, Res.ok_bind]
    refine Res.Imp.foldM' (fun t ht c c' hc => ?_) _ _ (Agreed.init hU _)
    have hn := hnode hts t ht
    unfold rowPredFn
    cases m' with
    | weight =>
      unfold Tree.contribWeight
      refine (Res.Imp.same _).bind fun root root' _ _ e => ?_
      subst e
      refine (hc.addBias hU _).bind fun c c' _ _ hc => ?_
      exact (contribWalk_agreed hU hn h3 _ _ c c' hc).bind fun x y _ _ hxy => .ok hxy.1
    | branchDifference =>
      exact (contribWalk_agreed hU hn h3 _ _ c c' hc).bind fun x y _ _ hxy => .ok hxy.1
    | midpointDifference =>
      exact (contribWalk_agreed hU hn h3 _ _ c c' hc).bind fun x y _ _ hxy => .ok hxy.1
    | modeDifference =>
      exact (contribWalk_agreed hU hn h3 _ _ c c' hc).bind fun x y _ _ hxy => .ok hxy.1
    | shapley =>
      unfold Tree.contribShapley
      refine (Res.Imp.same _).bind fun avg avg' _ _ e => ?_
      subst e
      refine (hc.addBias hU _).bind fun c c' _ _ hc => ?_
      refine treeShap_agreed hU hn h3 _ _ _ _ _ _ _ _ _ c c' .nil ⟨Nat.zero_le _, fun i h1 h2 => by omega⟩
        (Or.inl rfl) (fun f hf => ?_) hc
      have := hU f hf
      have := h3.len
      have := h3.len'
      constructor <;> intro _ <;> omega
    | average => exact absurd rfl hm1
    | probabilityChange => exact absurd rfl hm2
  unfold Booster.contribRows
  cases m with
  | average =>
    refine (Res.Imp.same _).bind fun ts ts' hts _ e => ?_
    subst e
    refine (Res.Imp.same _).bind fun ws ws' _ _ e => ?_
    subst e
    rw [hidx]
    refine Res.Imp.mapM' fun i hi => ?_
    obtain ⟨r, r', h1, h2, h3⟩ := hrow i hi
    unfold contribsRowAverage
    rw [h1, h2, Res.ok_bind, Res.ok_bind]
    refine Res.Imp.foldM' (fun tw htw c c' hc => ?_) _ _ (Agreed.init hU _)
    have hn := hnode hts tw.1 (List.of_mem_zip htw).1
    unfold Tree.contribAverage
    refine (Res.Imp.same _).bind fun w w' _ _ e => ?_
    subst e
    refine (hc.addBias hU _).bind fun c c' _ _ hc => ?_
    exact (contribWalk_agreed hU hn h3 _ _ c c' hc).bind fun x y _ _ hxy => .ok hxy.1
  | probabilityChange =>
    dsimp only
    cases b.objectiveType with
    | squaredLoss => exact .panic
    | logLoss =>
      refine (Res.Imp.same _).bind fun ts ts' hts _ e => ?_
      subst e
      rw [hidx]
      refine Res.Imp.mapM' fun i hi => ?_
      obtain ⟨r, r', h1, h2, h3⟩ := hrow i hi
      unfold contribsRowProb
      rw [h1, h2, Res.ok_bind, Res.ok_bind]
      refine Res.Imp.bind (R := fun x y => Agreed b.SplitsOn X.cols X'.cols x.1 y.1 ∧ y.2 = x.2) ?_
        fun x y _ _ hxy => .ok hxy.1
      refine Res.Imp.foldM' (fun t ht c c' hc => ?_) _ _ ⟨Agreed.init hU _, rfl⟩
      have hn := hnode hts t ht
      unfold Tree.contribProb
      refine (Res.Imp.same _).bind fun root root' _ _ e => ?_
      subst e
      rw [hc.2]
      refine (hc.1.addBias hU _).bind fun a a' _ _ ha => ?_
      exact (contribWalk_agreed hU hn h3 _ _ a a' ha).bind fun x y _ _ hxy => .ok ⟨hxy.1, by dsimp only; rw [hxy.2]⟩
  | weight => exact alone .weight (by simp) (by simp)
  | branchDifference => exact alone .branchDifference (by simp) (by simp)
  | midpointDifference => exact alone .midpointDifference (by simp) (by simp)
  | modeDifference => exact alone .modeDifference (by simp) (by simp)
  | shapley => exact alone .shapley (by simp) (by simp)

/-- **C104** (contributions).  Two matrices that agree in the columns asked for by the splits, possibly with different
numbers of columns, get the same contributions of these features and the same bias, with every method.  The result has
one row of `cols + 1` numbers per row of the data.  Any arithmetic. -/
theorem C104_contributions (h : AgreeFor b X X') {m : ContributionsMethod} {out : List D}
    (ho : b.predictContributions X m = .ok out) :
    ∃ out', b.predictContributions X' m = .ok out' ∧ ∀ i < X.rows,
      (∀ f, b.SplitsOn f → out'[i * (X'.cols + 1) + f]? = out[i * (X.cols + 1) + f]?) ∧
      out'[i * (X'.cols + 1) + X'.cols]? = out[i * (X.cols + 1) + X.cols]? := by
  unfold Booster.predictContributions at ho
  obtain ⟨rows, h1, h2⟩ := Res.bind_eq_ok.1 ho
  cases h2
  obtain ⟨rows', h3, h4⟩ := contribRows_agreed h m rows h1
  refine ⟨rows'.flatten, by unfold Booster.predictContributions; rw [h3]; rfl, fun i hi => ?_⟩
  have l1 : ∀ r ∈ rows, r.length = X.cols + 1 := by
    intro r hr
    obtain ⟨k, hk, rfl⟩ := List.mem_iff_getElem.1 hr
    exact (List.Forall₂.get h4 hk (by rw [← h4.length_eq]; exact hk)).len
  have l2 : ∀ r ∈ rows', r.length = X'.cols + 1 := by
    intro r hr
    obtain ⟨k, hk, rfl⟩ := List.mem_iff_getElem.1 hr
    exact (List.Forall₂.get h4 (by rw [h4.length_eq]; exact hk) hk).len'
  have key : ∀ j j', j < X.cols + 1 → j' < X'.cols + 1 →
      (∀ c c' : List D, Agreed b.SplitsOn X.cols X'.cols c c' → c'[j']? = c[j]?) →
      rows'.flatten[i * (X'.cols + 1) + j']? = rows.flatten[i * (X.cols + 1) + j]? := by
    intro j j' hj hj' hc
    rw [flatten_getElem? l1 hj, flatten_getElem? l2 hj']
    rcases Nat.lt_or_ge i rows.length with hlt | hge
    · have hlt' : i < rows'.length := by rw [← h4.length_eq]; exact hlt
      rw [List.getElem?_eq_getElem hlt, List.getElem?_eq_getElem hlt']
      exact hc _ _ (List.Forall₂.get h4 hlt hlt')
    · rw [List.getElem?_eq_none hge, List.getElem?_eq_none (by rw [← h4.length_eq]; exact hge)]
      rfl
  exact ⟨fun f hf => key f f (by have := (h.cols f hf).1; omega) (by have := (h.cols f hf).2; omega)
    fun c c' hc => hc.used f hf, key _ _ (by omega) (by omega) fun c c' hc => hc.bias⟩

/-- **C104** (no contribution).  A feature that no split asks for gets the contribution 0 in every row, with every
method.  Any arithmetic. -/
theorem C104_zero (hX : X.Shaped) (hc : ∀ f, b.SplitsOn f → f < X.cols) {m : ContributionsMethod} {out : List D}
    (ho : b.predictContributions X m = .ok out) {i f : Nat} (hi : i < X.rows) (hf : f < X.cols)
    (hn : ¬ b.SplitsOn f) : out[i * (X.cols + 1) + f]? = some 0 := by
  unfold Booster.predictContributions at ho
  obtain ⟨rows, h1, h2⟩ := Res.bind_eq_ok.1 ho
  cases h2
  have h : AgreeFor b X X := ⟨hX, hX, rfl, fun f hf => ⟨hc f hf, hc f hf⟩, fun _ _ _ _ => rfl⟩
  obtain ⟨rows', h3, h4⟩ := contribRows_agreed h m rows h1
  have l1 : ∀ r ∈ rows, r.length = X.cols + 1 := by
    intro r hr
    obtain ⟨k, hk, rfl⟩ := List.mem_iff_getElem.1 hr
    exact (List.Forall₂.get h4 hk (by rw [← h4.length_eq]; exact hk)).len
  have hl : i < rows.length := by
    have : rows.length = X.rows := by
      have hm : ∀ {g : Nat → Res (List D)}, Res.mapM' g X.index = .ok rows → rows.length = X.rows := by
        intro g hg
        rw [Res.mapM'_eq_ok] at hg
        rw [← hg.length_eq]; simp [Matrix.index]
      unfold Booster.contribRows at h1
      cases m
      case average =>
        obtain ⟨_, _, h1⟩ := Res.bind_eq_ok.1 h1
        obtain ⟨_, _, h1⟩ := Res.bind_eq_ok.1 h1
        exact hm h1
      case probabilityChange =>
        dsimp only at h1
        split at h1
        · obtain ⟨_, _, h1⟩ := Res.bind_eq_ok.1 h1
          exact hm h1
        · cases h1
      all_goals
        obtain ⟨_, _, h1⟩ := Res.bind_eq_ok.1 h1
        exact hm h1
    omega
  rw [flatten_getElem? l1 (by omega), List.getElem?_eq_getElem hl]
  exact (List.Forall₂.get h4 hl (by rw [← h4.length_eq]; exact hl)).zero f hf hn

theorem partialDependence_unused {nodes : List (Node F D)} {f : Nat}
    (hf : ∀ m ∈ nodes, m.isLeaf = false → m.splitFeature ≠ f) (v v' missing : D) : ∀ (fuel i : Nat) (p : F),
    partialDependence nodes f v missing fuel i p = partialDependence nodes f v' missing fuel i p
  | 0, _, _ => rfl
  | fuel + 1, i, p => by
    rw [partialDependence, partialDependence]
    rcases idx_cases nodes i with ⟨_, m, hm⟩ | ⟨_, hm⟩
    · rw [hm, Res.ok_bind, Res.ok_bind]
      by_cases hl : m.isLeaf = true
      · rw [if_pos hl, if_pos hl]
      · have := hf m (List.mem_of_getElem? (idx_eq_ok.1 hm)) (by simpa using hl)
        rw [if_neg hl, if_neg hl, if_neg this, if_neg this]
        simp only [partialDependence_unused hf v v' missing fuel]
    · rw [hm]; rfl

/-- **C104** (partial dependence).  The partial dependence on a feature that no split asks for is the same for all
values. -/
theorem C104_dependence {f : Nat} (hn : ¬ b.SplitsOn f) (v v' : D) :
    b.valuePartialDependence f v = b.valuePartialDependence f v' := by
  unfold Booster.valuePartialDependence
  rcases e : b.predictionTrees with ts | _ | _
  · rw [Res.ok_bind, Res.ok_bind]
    congr 1
    refine Res.mapM'_congr fun t ht => ?_
    exact partialDependence_unused (fun m hm hl hs => hn ⟨t, predictionTrees_mem e t ht, m, hm, hl, hs⟩) v v' _ _ _ _
  · rfl
  · rfl

theorem statsAdd_keys (st : Stats F) (f : Nat) (v : F) : ∀ k ∈ (statsAdd st f v).map Prod.fst,
    k ∈ st.map Prod.fst ∨ k = f := by
  induction st with
  | nil => intro k hk; exact Or.inr (by simpa [statsAdd] using hk)
  | cons a st ih =>
    obtain ⟨a, x, c⟩ := a
    intro k hk
    rw [statsAdd] at hk
    split at hk
    · exact Or.inl (by simpa using hk)
    · rcases List.mem_cons.1 (by simpa only [List.map_cons] using hk) with hk | hk
      · exact Or.inl (by simp [hk])
      · rcases ih k hk with h | h
        · exact Or.inl (by simp only [List.map_cons, List.mem_cons]; exact Or.inr h)
        · exact Or.inr h

theorem nodeStats_keys {nodes : List (Node F D)} {stat : Node F D → F} : ∀ (fuel : Nat) (node : Node F D)
    (st st' : Stats F), node ∈ nodes → nodeStats stat nodes fuel node st = .ok st' → ∀ k ∈ st'.map Prod.fst,
    k ∈ st.map Prod.fst ∨ ∃ n ∈ nodes, n.isLeaf = false ∧ n.splitFeature = k
  | 0, _, _, _, _, h => by cases h
  | fuel + 1, node, st, st', hm, h => by
    rw [nodeStats] at h
    split at h
    · cases h; exact fun k hk => Or.inl hk
    · rename_i hl
      obtain ⟨l, hl1, h⟩ := Res.bind_eq_ok.1 h
      obtain ⟨s1, hs1, h⟩ := Res.bind_eq_ok.1 h
      obtain ⟨r, hr1, h⟩ := Res.bind_eq_ok.1 h
      obtain ⟨s2, hs2, h⟩ := Res.bind_eq_ok.1 h
      have b0 : ∀ k ∈ s2.map Prod.fst, k ∈ st.map Prod.fst ∨ ∃ n ∈ nodes, n.isLeaf = false ∧ n.splitFeature = k := by
        intro k hk
        rcases nodeStats_keys fuel r s1 s2 (List.mem_of_getElem? (idx_eq_ok.1 hr1)) hs2 k hk with h | h
        · rcases nodeStats_keys fuel l _ s1 (List.mem_of_getElem? (idx_eq_ok.1 hl1)) hs1 k h with h | h
          · rcases statsAdd_keys _ _ _ k h with h | h
            · exact Or.inl h
            · exact Or.inr ⟨node, hm, by simpa using hl, h.symm⟩
          · exact Or.inr h
        · exact Or.inr h
      split at h
      · obtain ⟨m, hm1, h⟩ := Res.bind_eq_ok.1 h
        intro k hk
        rcases nodeStats_keys fuel m s2 st' (List.mem_of_getElem? (idx_eq_ok.1 hm1)) h k hk with h | h
        · exact b0 k h
        · exact Or.inr h
      · cases h; exact b0

/-- **C104** (importance).  A feature that no split asks for is not listed among the importances. -/
theorem C104_importance {S : Sorter} {m : ImportanceMethod} {normalize : Bool} {imp : List (Nat × F)}
    (h : b.featureImportance S m normalize = .ok imp) : ∀ p ∈ imp, b.SplitsOn p.1 := by
  unfold Booster.featureImportance at h
  dsimp only at h
  obtain ⟨stats, h1, h⟩ := Res.bind_eq_ok.1 h
  have hst : ∀ (ts : List (Tree F D)) (st st' : Stats F),
      Res.foldM' (fun st t => t.importance (m.stat (F := F) (D := D)).1 st) st ts = .ok st' →
      ∀ k ∈ st'.map Prod.fst, k ∈ st.map Prod.fst ∨ ∃ t ∈ ts, t.SplitsOn k := by
    intro ts
    induction ts with
    | nil => intro st st' h; cases h; exact fun k hk => Or.inl hk
    | cons t ts ih =>
      intro st st' h k hk
      rw [Res.foldM'_cons] at h
      obtain ⟨s1, h1, h⟩ := Res.bind_eq_ok.1 h
      rcases ih s1 st' h k hk with h2 | ⟨t', ht', h2⟩
      · unfold Tree.importance at h1
        obtain ⟨root, hr, h1⟩ := Res.bind_eq_ok.1 h1
        rcases nodeStats_keys _ _ _ _ (List.mem_of_getElem? (idx_eq_ok.1 hr)) h1 k h2 with h3 | h3
        · exact Or.inl h3
        · exact Or.inr ⟨t, by simp, h3⟩
      · exact Or.inr ⟨t', by simp [ht'], h2⟩
  have hall : ∀ k ∈ stats.map Prod.fst, b.SplitsOn k := by
    intro k hk
    rcases hst _ _ _ h1 k hk with h | h
    · simp at h
    · exact h
  intro p hp
  apply hall
  split at h
  · obtain ⟨vs, _, h⟩ := Res.bind_eq_ok.1 h
    cases h
    simp only [List.mem_map] at hp
    obtain ⟨a, ⟨a', ha', rfl⟩, rfl⟩ := hp
    exact List.mem_map_of_mem ha'
  · cases h
    simp only [List.mem_map] at hp
    obtain ⟨a, ha, rfl⟩ := hp
    exact List.mem_map_of_mem ha

/-- **C104** (fitted models).  A model fitted on the first columns of the data asks for none of the others: on the wider
data it gives the same contributions to the features it has seen, and 0 to the others. -/
theorem C104_fitted {R : Type} {env : Env R F D} (hr : env.rng.Ok) {b0 : Booster F D} {y w : List D}
    {ev : Option (List (EvalSet D))} {T : Matrix D} (hfit : b0.fit env T y w ev = .ok (b, .ok ()))
    (hX : X.Shaped) (hT : X.cols = T.cols) (hX' : X'.Shaped) (hW : X.Widens X')
    (hcols : X.cols ≤ X'.cols) {m : ContributionsMethod} {out : List D} (ho : b.predictContributions X m = .ok out) :
    ∃ out', b.predictContributions X' m = .ok out' ∧ ∀ i < X.rows,
      (∀ f < X.cols, out'[i * (X'.cols + 1) + f]? = out[i * (X.cols + 1) + f]?) ∧
      (∀ f, X.cols ≤ f → f < X'.cols → out'[i * (X'.cols + 1) + f]? = some 0) ∧
      out'[i * (X'.cols + 1) + X'.cols]? = out[i * (X.cols + 1) + X.cols]? := by
  have hU : ∀ f, b.SplitsOn f → f < X.cols := by
    rintro f ⟨t, ht, n, hn, hl, rfl⟩
    rw [hT]
    exact fit_featuresBelow hr hfit t ht n hn hl
  have hA : AgreeFor b X X' := by
    refine ⟨hX, hX', hW.rows, fun f hf => ⟨hU f hf, lt_of_lt_of_le (hU f hf) hcols⟩, fun f hf i hi => ?_⟩
    obtain ⟨rest, hrest⟩ := hW.start
    have hx : X.data.length = X.rows * X.cols := hX
    unfold Matrix.entry
    rw [← hrest, hW.rows, List.getElem?_append_left]
    rw [hx]
    have := Nat.mul_le_mul_right X.rows (Nat.succ_le_of_lt (hU f hf))
    rw [Nat.succ_mul, Nat.mul_comm X.cols] at this
    omega
  obtain ⟨out', h1, h2⟩ := C104_contributions hA ho
  have hU' : ∀ f, b.SplitsOn f → f < X'.cols := fun f hf => lt_of_lt_of_le (hU f hf) hcols
  refine ⟨out', h1, fun i hi => ⟨fun f hf => ?_, fun f hf1 hf2 => ?_, (h2 i hi).2⟩⟩
  · by_cases hs : b.SplitsOn f
    · exact (h2 i hi).1 f hs
    · rw [C104_zero hX hU ho hi hf hs,
        C104_zero hX' hU' h1 (by rw [hW.rows]; exact hi) (lt_of_lt_of_le hf hcols) hs]
  · exact C104_zero hX' hU' h1 (by rw [hW.rows]; exact hi) hf2 fun hs => by have := hU f hs; omega

end

/-! ## Example -/

/-- C104: the model of the example on six rows with two columns; the first is asked for.  A matrix with other values
in the columns not asked for and one column more meets the hypotheses, and every method that the objective admits gives a result. -/
example : (exX.addCol exY).Shaped ∧ exX.Widens (exX.addCol exY) ∧
    ∃ b' : Booster Q Q, exStop.fit exEnv exX exY exW (some exSets) = .ok (b', .ok ()) ∧ b'.SplitsOn 0 ∧
      (∀ m, m ≠ .probabilityChange → ∃ out, b'.predictContributions exX m = .ok out) := by
  refine ⟨by unfold Matrix.Shaped; decide, exX.addCol_widens _, ?_⟩
  have : (match exStop.fit exEnv exX exY exW (some exSets) with
      | .ok (b', .ok ()) => (b'.trees.any fun t => t.nodes.any fun n => !n.isLeaf && decide (n.splitFeature = 0)) &&
        ([.weight, .average, .branchDifference, .midpointDifference, .modeDifference, .shapley].all fun m =>
          match b'.predictContributions exX m with | .ok _ => true | _ => false)
      | _ => false) = true := by decide +kernel
  split at this
  · next b' h =>
    rw [Bool.and_eq_true] at this
    obtain ⟨h1, h2⟩ := this
    simp only [List.any_eq_true, Bool.and_eq_true, Bool.not_eq_true', decide_eq_true_eq] at h1
    obtain ⟨t, ht, n, hn, h3, h4⟩ := h1
    refine ⟨b', h, ⟨t, ht, n, hn, h3, h4⟩, fun m hm => ?_⟩
    rw [List.all_eq_true] at h2
    have h2 := h2 m (by cases m <;> simp at hm ⊢)
    split at h2
    · next o ho => exact ⟨o, ho⟩
    · cases h2
  · cases this

end Verif
