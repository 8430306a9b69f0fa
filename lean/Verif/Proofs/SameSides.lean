import Verif.Spec.StepWise
import Verif.Proofs.Recode
import Verif.Props.Unused

/-!
# Rows that take the same side at every split of a model
-/

namespace Verif

open scoped Verif

set_option linter.unusedSectionVars false

variable {F D : Type} [Fl F] [Fl D] [FlCast F D]

/-- Two matrices whose rows take the same side at every split of the model. -/
structure SameSides (b : Booster F D) (Z Z' : Matrix D) : Prop where
  rows : Z'.rows = Z.rows
  cols : Z'.cols = Z.cols
  shaped : Z.Shaped
  shaped' : Z'.Shaped
  side : ∀ t ∈ b.trees, ∀ n ∈ t.nodes, n.isLeaf = false → ∀ i < Z.rows, ∀ v v', Z.entry i n.splitFeature = some v →
    Z'.entry i n.splitFeature = some v' → n.getChildIdx v' b.missing = n.getChildIdx v b.missing

/-- Two ways to read a row that lead to the same side of every split. -/
def GetSame (nodes : List (Node F D)) (missing : D) (get get' : Nat → Res D) : Prop :=
  ∀ n ∈ nodes, n.isLeaf = false →
    Res.Rel (fun v v' => n.getChildIdx v' missing = n.getChildIdx v missing) (get n.splitFeature) (get' n.splitFeature)

variable {nodes : List (Node F D)} {missing : D}

theorem leafFrom_same {get get' : Nat → Res D} (hg : GetSame nodes missing get get') : ∀ (fuel i : Nat),
    leafFrom nodes get' missing fuel i = leafFrom nodes get missing fuel i
  | 0, _ => rfl
  | fuel + 1, i => by
    rw [leafFrom, leafFrom]
    refine (Res.Rel.eq ((Res.Rel.of_eq rfl).bind fun n n' hn _ e => ?_)).symm
    subst e
    split
    · exact Res.Rel.of_eq rfl
    · rename_i hl
      refine (hg n (List.mem_of_getElem? (idx_eq_ok.1 hn)) (by simpa using hl)).bind fun v v' _ _ hv => ?_
      rw [hv]
      refine (Res.Rel.of_eq rfl).bind fun c c' _ _ e => ?_
      subst e
      exact Res.Rel.of_eq (leafFrom_same hg fuel c).symm

theorem contribWalk_same {row row' : List D} (hr : GetSame nodes missing (idx row) (idx row'))
    {delta : Nat → Node F D → Nat → Res (Option D)} : ∀ (fuel i : Nat) (c : List D),
    contribWalk nodes row' missing delta fuel i c = contribWalk nodes row missing delta fuel i c
  | 0, _, _ => rfl
  | fuel + 1, i, c => by
    rw [contribWalk, contribWalk]
    refine (Res.Rel.eq ((Res.Rel.of_eq rfl).bind fun n n' hn _ e => ?_)).symm
    subst e
    split
    · exact Res.Rel.of_eq rfl
    · rename_i hl
      refine (hr n (List.mem_of_getElem? (idx_eq_ok.1 hn)) (by simpa using hl)).bind fun v v' _ _ hv => ?_
      rw [hv]
      refine (Res.Rel.of_eq rfl).bind fun ch ch' _ _ e => ?_
      subst e
      refine (Res.Rel.of_eq rfl).bind fun d d' _ _ e => ?_
      subst e
      simp only [contribWalk_same hr fuel ch]
      exact Res.Rel.of_eq rfl

theorem treeShap_same {row row' : List D} (hr : GetSame nodes missing (idx row) (idx row')) :
    ∀ (fuel i depth : Nat) (p : List (PathElement F)) (pz po : F) (pf : Nat) (c : List D),
    treeShap nodes row' missing fuel i depth p pz po pf c = treeShap nodes row missing fuel i depth p pz po pf c
  | 0, _, _, _, _, _, _, _ => rfl
  | fuel + 1, i, depth, p, pz, po, pf, c => by
    rw [treeShap, treeShap]
    refine (Res.Rel.eq ((Res.Rel.of_eq rfl).bind fun n n' hn _ e => ?_)).symm
    subst e
    refine (Res.Rel.of_eq rfl).bind fun q q' _ _ e => ?_
    subst e
    split
    · exact Res.Rel.of_eq rfl
    · rename_i hl
      refine (hr n (List.mem_of_getElem? (idx_eq_ok.1 hn)) (by simpa using hl)).bind fun v v' _ _ hv => ?_
      rw [hv]
      simp only [treeShap_same hr fuel]
      exact Res.Rel.of_eq rfl

theorem rowPredFn_same {t : Tree F D} {row row' : List D} (hr : GetSame t.nodes missing (idx row) (idx row'))
    (hl : row'.length = row.length) (meth : ContributionsMethod) (c : List D) :
    rowPredFn meth t row' c missing = rowPredFn meth t row c missing := by
  cases meth <;>
    simp only [rowPredFn, Tree.contribWeight, Tree.contribBranch, Tree.contribMidpoint, Tree.contribMode,
      Tree.contribShapley, contribWalk_same hr, treeShap_same hr, hl]

variable {b : Booster F D} {Z Z' : Matrix D}

theorem entry_lt {T : Type} {Z : Matrix T} (hZ : Z.Shaped) {i j : Nat} (hi : i < Z.rows) :
    (∃ v, Z.entry i j = some v) ↔ j < Z.cols := by
  unfold Matrix.entry
  constructor
  · rintro ⟨v, hv⟩
    have h := (List.getElem?_eq_some_iff.1 hv).1
    rw [hZ] at h
    by_contra hc
    have := Nat.mul_le_mul_right Z.rows (Nat.le_of_not_lt hc)
    rw [Nat.mul_comm Z.cols] at this
    omega
  · intro h
    have := Nat.mul_le_mul_right Z.rows (show j + 1 ≤ Z.cols from h)
    rw [Nat.mul_comm Z.cols, Nat.add_mul] at this
    exact ⟨_, List.getElem?_eq_getElem (by rw [hZ]; omega)⟩

theorem SameSides.rel (h : SameSides b Z Z') {t : Tree F D} (ht : t ∈ b.trees) {i : Nat} (hi : i < Z.rows)
    {get get' : Nat → Res D} (hg : ∀ f, get f = Res.ofOption (Z.entry i f))
    (hg' : ∀ f, get' f = Res.ofOption (Z'.entry i f)) : GetSame t.nodes b.missing get get' := by
  intro n hn hl
  rw [hg, hg']
  have key := h.side t ht n hn hl i hi
  have e1 := entry_lt h.shaped (j := n.splitFeature) hi
  have e2 := entry_lt h.shaped' (j := n.splitFeature) (h.rows ▸ hi)
  rw [h.cols] at e2
  by_cases hc : n.splitFeature < Z.cols
  · obtain ⟨v, hv⟩ := e1.2 hc
    obtain ⟨v', hv'⟩ := e2.2 hc
    rw [hv, hv']
    exact key v v' hv hv'
  · have h1 : Z.entry i n.splitFeature = none := by
      rcases e : Z.entry i n.splitFeature with _ | v
      · rfl
      · exact absurd (e1.1 ⟨v, e⟩) hc
    have h2 : Z'.entry i n.splitFeature = none := by
      rcases e : Z'.entry i n.splitFeature with _ | v
      · rfl
      · exact absurd (e2.1 ⟨v, e⟩) hc
    rw [h1, h2]
    trivial

theorem SameSides.leaf (h : SameSides b Z Z') {t : Tree F D} (ht : t ∈ b.trees) {i : Nat} (hi : i < Z.rows) :
    t.predictLeaf Z' i b.missing = t.predictLeaf Z i b.missing := by
  unfold Tree.predictLeaf
  have get_eq : ∀ (W : Matrix D) f, W.get i f = Res.ofOption (W.entry i f) := by
    intro W f
    unfold Matrix.get Matrix.itemIndex idx Matrix.entry
    rw [Nat.one_mul, Nat.add_comm]
  exact leafFrom_same (h.rel ht hi (get_eq Z) (get_eq Z')) _ _

/-- Rows that take the same sides have the same predictions and leaves. -/
theorem SameSides.predict (h : SameSides b Z Z') :
    b.predict Z' = b.predict Z ∧ b.predictLeafIndices Z' = b.predictLeafIndices Z := by
  have hidx : Z'.index = Z.index := by unfold Matrix.index; rw [h.rows]
  have hlt : ∀ i ∈ Z.index, i < Z.rows := fun i hi => by simpa [Matrix.index] using hi
  constructor
  · unfold Booster.predict
    rw [h.rows]
    rcases e : b.predictionTrees with ts | _ | _
    · rw [Res.ok_bind, Res.ok_bind]
      refine Res.foldM'_congr (fun t ht acc => ?_) _
      have : t.predict Z' b.missing = t.predict Z b.missing := by
        unfold Tree.predict
        rw [hidx]
        refine Res.mapM'_congr fun i hi => ?_
        rw [h.leaf (predictionTrees_mem e t ht) (hlt i hi)]
      rw [this]
    · rfl
    · rfl
  · unfold Booster.predictLeafIndices
    rcases e : b.predictionTrees with ts | _ | _
    · rw [Res.ok_bind, Res.ok_bind]
      congr 1
      refine Res.mapM'_congr fun t ht => ?_
      unfold Tree.predictLeafIndices
      rw [hidx]
      refine Res.mapM'_congr fun i hi => ?_
      rw [h.leaf (predictionTrees_mem e t ht) (hlt i hi)]
    · rfl
    · rfl

/-- Rows that take the same sides have the same contributions. -/
theorem SameSides.contributions (h : SameSides b Z Z') (meth : ContributionsMethod) :
    b.predictContributions Z' meth = b.predictContributions Z meth := by
  have hidx : Z'.index = Z.index := by unfold Matrix.index; rw [h.rows]
  have hlt : ∀ i ∈ Z.index, i < Z.rows := fun i hi => by simpa [Matrix.index] using hi
  have hrow : ∀ i ∈ Z.index, ∃ r r', Z.getRow i = .ok r ∧ Z'.getRow i = .ok r' ∧ r'.length = r.length ∧
      ∀ t ∈ b.trees, GetSame t.nodes b.missing (idx r) (idx r') := by
    intro i hi
    obtain ⟨r, h1, h2, h3⟩ := getRow_entry h.shaped (hlt i hi)
    obtain ⟨r', h4, h5, h6⟩ := getRow_entry h.shaped' (show i < Z'.rows by rw [h.rows]; exact hlt i hi)
    exact ⟨r, r', h1, h4, by rw [h2, h5, h.cols], fun t ht => h.rel ht (hlt i hi) h3 h6⟩
  have alone : ∀ ts m, (∀ t ∈ ts, t ∈ b.trees) → ∀ i ∈ Z.index,
      contribsRowAlone b ts m Z' i = contribsRowAlone b ts m Z i := by
    intro ts m hts i hi
    obtain ⟨r, r', h1, h2, h3, h4⟩ := hrow i hi
    unfold contribsRowAlone
    rw [h1, h2, Res.ok_bind, Res.ok_bind, h.cols]
    exact Res.foldM'_congr (fun t ht c => rowPredFn_same (h4 t (hts t ht)) h3 m c) _
  have avg : ∀ ts ws, (∀ t ∈ ts, t ∈ b.trees) → ∀ i ∈ Z.index,
      contribsRowAverage b ts ws Z' i = contribsRowAverage b ts ws Z i := by
    intro ts ws hts i hi
    obtain ⟨r, r', h1, h2, h3, h4⟩ := hrow i hi
    unfold contribsRowAverage
    rw [h1, h2, Res.ok_bind, Res.ok_bind, h.cols]
    refine Res.foldM'_congr (fun tw htw c => ?_) _
    have ht := hts tw.1 (List.of_mem_zip htw).1
    simp only [Tree.contribAverage, contribWalk_same (h4 _ ht)]
  have prob : ∀ ts, (∀ t ∈ ts, t ∈ b.trees) → ∀ i ∈ Z.index,
      contribsRowProb b ts Z' i = contribsRowProb b ts Z i := by
    intro ts hts i hi
    obtain ⟨r, r', h1, h2, h3, h4⟩ := hrow i hi
    unfold contribsRowProb
    rw [h1, h2, Res.ok_bind, Res.ok_bind, h.cols]
    congr 1
    refine Res.foldM'_congr (fun t ht s => ?_) _
    simp only [Tree.contribProb, contribWalk_same (h4 _ (hts t ht))]
  unfold Booster.predictContributions
  congr 1
  unfold Booster.contribRows
  rw [hidx]
  rcases e : b.predictionTrees with ts | _ | _
  · have hts := predictionTrees_mem e
    cases meth with
    | average =>
      simp only [Res.ok_bind]
      congr 1; funext ws
      exact Res.mapM'_congr fun i hi => avg ts ws hts i hi
    | probabilityChange =>
      simp only [Res.ok_bind]
      split
      · exact Res.mapM'_congr fun i hi => prob ts hts i hi
      · rfl
    | _ =>
      simp only [Res.ok_bind]
      exact Res.mapM'_congr fun i hi => alone ts _ hts i hi
  · cases meth <;> rfl
  · cases meth <;> rfl

theorem partialDependence_same {f : Nat} {v v' : D}
    (h : ∀ n ∈ nodes, n.isLeaf = false → n.splitFeature = f → n.getChildIdx v' missing = n.getChildIdx v missing) :
    ∀ (fuel i : Nat) (p : F),
      partialDependence nodes f v' missing fuel i p = partialDependence nodes f v missing fuel i p
  | 0, _, _ => rfl
  | fuel + 1, i, p => by
    rw [partialDependence, partialDependence]
    rcases idx_cases nodes i with ⟨_, m, hm⟩ | ⟨_, hm⟩
    · rw [hm, Res.ok_bind, Res.ok_bind]
      by_cases hl : m.isLeaf = true
      · simp only [hl, if_true]
      · have hl' : m.isLeaf = false := by simpa using hl
        simp only [hl', Bool.false_eq_true, if_false]
        by_cases hf : m.splitFeature = f
        · simp only [hf, if_true, h m (List.mem_of_getElem? (idx_eq_ok.1 hm)) hl' hf, partialDependence_same h fuel]
        · simp only [hf, if_false, partialDependence_same h fuel]
    · rw [hm]; rfl

end Verif
