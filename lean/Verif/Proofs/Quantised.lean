import Verif.Spec.Quantised
import Verif.Proofs.SameSides
import Verif.Proofs.RelateFit
import Verif.Props.Binning
import Verif.Props.Histograms

/-!
# Values rounded down to cut points: helper lemmas
-/

namespace Verif

open scoped Verif

set_option linter.unusedSectionVars false

section bins
variable {K : Type} [Field K] [LinearOrder K] {m : Fmt K}

theorem FX.eq_of_same {x y : FX m} (h : (x =ᶠ y) = true) : x = y := by
  cases x <;> cases y <;> simp_all [Fl.feq, FX.feq]

theorem FX.le_antisymm' {x y : FX m} (h : (x ≤ᶠ y) = true) (h' : (y ≤ᶠ x) = true) : x = y :=
  FX.eq_of_same (Fl.feq_iff_le.2 ⟨h, h'⟩)

theorem increasing_nodup {l : List (FX m)} (h : Increasing l) : l.Nodup :=
  h.imp fun {a b} hab e => by
    subst e
    have := Fl.OrdLaws.lt_irrefl a
    rw [hab] at this
    cases this

/-- Two increasing lists with the same members are the same. -/
theorem increasing_unique {l l' : List (FX m)} (h : Increasing l) (h' : Increasing l') (e : ∀ x, x ∈ l ↔ x ∈ l') :
    l = l' := by
  refine List.Perm.eq_of_pairwise (le := fun a b => (a <ᶠ b) = true) (fun a b _ _ hab hba => ?_) h h'
    ((List.perm_ext_iff_of_nodup (increasing_nodup h) (increasing_nodup h')).2 e)
  have := Fl.OrdLaws.lt_trans _ _ _ hab hba
  rw [Fl.OrdLaws.lt_irrefl a] at this
  cases this

/-- Rounding a value to the cut points keeps its side of every cut point. -/
theorem RoundedTo.le_iff {missing : FX m} {cuts : List (FX m)} {v v' : FX m} (h : RoundedTo missing cuts v v')
    {c : FX m} (hc : c ∈ cuts) : (c ≤ᶠ v') = (c ≤ᶠ v) := by
  rcases h with ⟨_, rfl⟩ | ⟨_, _, h1, h2⟩
  · rfl
  · rw [Bool.eq_iff_iff]
    exact ⟨fun h => Fl.le_trans h h1, h2 c hc⟩

theorem mapBinLoop_congr {x : List (FX m)} {v v' : FX m} (h : ∀ c ∈ x, (c ≤ᶠ v') = (c ≤ᶠ v)) :
    ∀ n lo hi, mapBinLoop x v' n lo hi = mapBinLoop x v n lo hi
  | 0, _, _ => rfl
  | n + 1, lo, hi => by
    simp only [mapBinLoop]
    split
    · rfl
    · refine (Res.Rel.eq ((Res.Rel.of_eq rfl).bind fun a a' ha _ e => ?_)).symm
      subst e
      rw [h a (List.mem_of_getElem? (idx_eq_ok.1 ha)), mapBinLoop_congr h n _ hi, mapBinLoop_congr h n lo _]
      exact Res.Rel.of_eq rfl

variable {S : Sorter} {col col' w : List (FX m)} {nbins : Nat} {missing : FX m} {cuts : List (FX m)}

/-- A rounded value is missing if and only if the value is. -/
theorem RoundedTo.missing_iff (hC : CutsFor (present missing col) cuts) {v v' : FX m} (hv : v ∈ col)
    (hmax : ∀ v ∈ col, ¬ IsMissing missing v → (v ≤ᶠ Fl.maxv) = true)
    (h : RoundedTo missing cuts v v') : IsMissing missing v' ↔ IsMissing missing v := by
  rcases h with ⟨h1, rfl⟩ | ⟨h1, h2, h3, _⟩
  · rfl
  · refine iff_of_false (fun h => ?_) h1
    obtain ⟨init, last, rfl, hl, hi⟩ := hC.last
    rcases List.mem_append.1 h2 with h2 | h2
    · exact (mem_present.1 (hi _ h2)).2 h
    · have e : v' = last := List.mem_singleton.1 h2
      have e' := FX.eq_of_same hl
      have := FX.le_antisymm' h3 (by rw [e, e']; exact hmax v hv h1)
      rw [this] at h
      exact h1 h

theorem present_rounded (hC : CutsFor (present missing col) cuts)
    (hmax : ∀ v ∈ col, ¬ IsMissing missing v → (v ≤ᶠ Fl.maxv) = true)
    (h : List.Forall₂ (RoundedTo missing cuts) col col') {x : FX m} :
    x ∈ present missing col' ↔ x ∈ cuts ∧ x ∈ present missing col := by
  constructor
  · intro hx
    obtain ⟨hx, hm⟩ := mem_present.1 hx
    obtain ⟨k, hk, e⟩ := List.getElem_of_mem hx
    have hk' : k < col.length := by rw [h.length_eq]; exact hk
    have hr := h.get hk' hk
    simp only [List.get_eq_getElem, e] at hr
    have hvm := List.getElem_mem hk'
    have hm' := hm
    rw [hr.missing_iff hC hvm hmax] at hm'
    rcases hr with ⟨h1, _⟩ | ⟨h1, h2, h3, _⟩
    · exact absurd h1 hm'
    · refine ⟨h2, ?_⟩
      obtain ⟨init, last, e, hl, hi⟩ := hC.last
      rw [e] at h2
      rcases List.mem_append.1 h2 with h2 | h2
      · exact hi _ h2
      · have e' := FX.eq_of_same hl
        have := FX.le_antisymm' h3 (by rw [List.mem_singleton.1 h2, e']; exact hmax _ hvm h1)
        rw [this]
        exact mem_present.2 ⟨hvm, h1⟩
  · rintro ⟨hx, hp⟩
    obtain ⟨hp, hm⟩ := mem_present.1 hp
    obtain ⟨k, hk, e⟩ := List.getElem_of_mem hp
    have hk' : k < col'.length := by rw [← h.length_eq]; exact hk
    have hr := h.get hk hk'
    simp only [List.get_eq_getElem, e] at hr
    rcases hr with ⟨h1, _⟩ | ⟨h1, h2, h3, h4⟩
    · exact absurd h1 hm
    · have hn : isNaN x = false := (Fl.OrdLaws.le_num _ _ h3).2
      have := FX.le_antisymm' h3 (h4 x hx (Fl.le_refl hn))
      exact mem_present.2 ⟨this ▸ List.getElem_mem hk', hm⟩

theorem colCuts_rounded (hS : S.Ok) (hlen : col.length ≤ w.length)
    (h : colCuts S col w nbins missing = .ok cuts)
    (hmax : ∀ v ∈ col, ¬ IsMissing missing v → (v ≤ᶠ Fl.maxv) = true)
    (hr : List.Forall₂ (RoundedTo missing cuts) col col') : colCuts S col' w nbins missing = .ok cuts := by
  have hC := colCuts_spec hS hlen h hmax
  have hpm := fun x => present_rounded hC hmax hr (x := x)
  obtain ⟨h1, ws, c, hws, hc, ec⟩ := colCuts_form hlen h
  have hn : ∀ a ∈ present missing col, isNaN a = false := fun a ha =>
    num_of_not_missing (h1 a (mem_present.1 ha).1) (mem_present.1 ha).2
  have hn' : ∀ a ∈ present missing col', isNaN a = false := fun a ha => hn a ((hpm a).1 ha).2
  obtain ⟨s, k1, k2, k3⟩ := sortPartialCmp_spec hS (id : FX m → FX m) (present missing col') hn'
  have k3 : Sorted s := k3
  have hinc := dedup_increasing k3
  have hsub : ∀ x ∈ dedupF s, x ∈ cuts ∧ x ∈ present missing col := fun x hx =>
    (hpm x).1 (k2.mem_iff.1 (dedup_mem hx))
  -- the distinct values fit in the bins
  have hshort : (dedupF s).length ≤ (binPcts nbins : List (FX m)).length + 1 := by
    obtain ⟨s0, l1, l2, l3⟩ := sortPartialCmp_spec hS (id : FX m → FX m) (present missing col) hn
    unfold percentilesOrValue at hc
    rw [l1, Res.ok_bind] at hc
    simp only at hc
    split at hc
    · next hl =>
      refine le_trans (List.Subperm.length_le (List.subperm_of_subset (increasing_nodup hinc) fun x hx => ?_)) hl
      have hx := (hsub x hx).2
      obtain ⟨y, hy, e⟩ := dedup_cover (l := s0) l3 (fun a ha => hn a (l2.mem_iff.1 ha)) (l2.mem_iff.2 hx)
      rw [← FX.eq_of_same e]; exact hy
    · have h2 := (percentiles_spec hS hn hc).2.2
      have h3 := List.Subperm.length_le (List.subperm_of_subset (increasing_nodup hinc) fun x hx => (hsub x hx).1)
      have h4 : cuts.length ≤ c.length + 1 := by
        rw [ec]
        refine (dedup_length _).trans ?_
        simp
      omega
  have hread : ∀ v ∈ col', Readable missing v := by
    intro v hv
    by_cases hm : IsMissing missing v
    · unfold IsMissing at hm
      unfold Readable
      split at hm
      · exact Or.inl ‹_›
      · exact Or.inr (Fl.OrdLaws.feq_num _ _ hm).1
    · exact Or.inr (hn' v (mem_present.2 ⟨hv, hm⟩))
  have hlen' : col'.length ≤ w.length := by rw [← hr.length_eq]; exact hlen
  unfold colCuts
  rw [(filterMissing_eq_ok (r := _)).2 ⟨fun x hx => hread x.1 (List.of_mem_zip hx).1, rfl⟩, Res.ok_bind]
  have e2 : (((col'.zip w).filter fun x => !decide (IsMissing missing x.1)).map Prod.fst) = present missing col' :=
    zip_filter_fst (fun v => !decide (IsMissing missing v)) col' w hlen'
  rw [e2]
  unfold percentilesOrValue
  rw [k1, Res.ok_bind]
  simp only
  rw [if_pos hshort, Res.ok_bind]
  congr 1
  have hs' : Sorted (dedupF s ++ [Fl.maxv]) := List.pairwise_append.2
    ⟨hinc.imp fun h => Fl.le_of_lt h, List.pairwise_singleton _ _, fun a ha b hb => by
      rw [List.mem_singleton.1 hb]
      obtain ⟨k1, k2⟩ := mem_present.1 (hsub a ha).2
      exact hmax a k1 k2⟩
  obtain ⟨init, last, e, hl, hi⟩ := hC.last
  have e' := FX.eq_of_same hl
  refine increasing_unique (dedup_increasing hs') hC.increasing fun x => ⟨fun hx => ?_, fun hx => ?_⟩
  · rcases List.mem_append.1 (dedup_mem hx) with hx | hx
    · exact (hsub x hx).1
    · rw [List.mem_singleton.1 hx, e, e']; simp
  · have cover : ∀ y ∈ dedupF s ++ [Fl.maxv], y ∈ dedupF (dedupF s ++ [Fl.maxv]) := by
      intro y hy
      obtain ⟨z, hz, ez⟩ := dedup_cover hs' (fun a ha => by
        rcases List.mem_append.1 ha with ha | ha
        · exact hn a (hsub a ha).2
        · rw [List.mem_singleton.1 ha]; exact Fl.OrdLaws.maxv_num) hy
      rw [← FX.eq_of_same ez]; exact hz
    refine cover x ?_
    have hx0 := hx
    rw [e] at hx
    rcases List.mem_append.1 hx with hx | hx
    · have hp := (hpm x).2 ⟨hx0, hi x hx⟩
      obtain ⟨z, hz, ez⟩ := dedup_cover (l := s) k3 (fun a ha => hn' a (k2.mem_iff.1 ha)) (k2.mem_iff.2 hp)
      rw [← FX.eq_of_same ez]
      exact List.mem_append_left _ hz
    · rw [List.mem_singleton.1 hx, e']; simp

end bins

section fit
variable {F D : Type} [Fl F] [Fl D] [FlCast F D]

/-- Every split value of a fitted tree is a cut point of its feature. -/
theorem treeFit_cuts {c : GrowCfg F D} (hl : c.train.Laid) (hh : c.heap.ByScore) {sm : SampleMethod} {index : List Nat}
    {t : Tree F D} (h : Tree.fit c sm index = .ok t) {n : Node F D} (hn : n ∈ t.nodes) (hi : n.isLeaf = false) :
    ∃ cs, c.train.cuts.getCol n.splitFeature = .ok cs ∧ n.splitValue ∈ cs := by
  let V : Nat → D → D → Prop := fun j a _ => ∃ cs, c.train.cuts.getCol j = .ok cs ∧ a ∈ cs
  have hT : TrainSim V c.train c.train := by
    refine ⟨hl, hl, rfl, rfl, rfl, rfl, rfl, fun j => ?_⟩
    rcases e : c.train.cuts.getCol j with cs | _ | _
    · exact ⟨rfl, List.forall₂_same.2 fun a ha => ⟨cs, e, List.mem_of_mem_take ha⟩⟩
    · trivial
    · trivial
  have hfit := treeFit_sim (V := V) (c := c) (c' := c) ⟨hT, rfl, rfl, rfl, rfl, rfl, hh⟩ sm index
  rw [h] at hfit
  have hfit : List.Forall₂ (NodeSim V) t.nodes t.nodes := hfit
  obtain ⟨i, hi'⟩ := List.mem_iff_getElem?.1 hn
  obtain ⟨hlt, e⟩ := List.getElem?_eq_some_iff.1 hi'
  have := List.Forall₂.get hfit hlt hlt
  simp only [List.get_eq_getElem, e] at this
  rcases this with ⟨hl', _⟩ | ⟨_, v, _, hv⟩
  · rw [hi] at hl'; cases hl'
  · exact hv

/-- A run of the loop reads the data only to count rows and columns and for the predictions of the trees it made. -/
theorem fitIteration_agree {R : Type} {env : Env R F D} {X X' : Matrix D} (hrows : X'.rows = X.rows)
    (hcols : X'.cols = X.cols) {y w : List D} {sp : Splitter F} {bdata : Matrix Nat} {cuts : JaggedMatrix D} {i : Nat}
    {s : FitState R F D}
    (hp : ∀ (c : GrowCfg F D) sm index t r, c.train.data = bdata → c.train.cuts = cuts → c.heap = env.heap i →
      c.train.colIndex = (sampleColumns env.rng s.booster.colsampleBytree r X.cols).1 →
      Tree.fit c sm index = .ok t → t.predict X' s.booster.missing = t.predict X s.booster.missing) :
    fitIteration env X' y w sp bdata cuts i s = fitIteration env X y w sp bdata cuts i s := by
  unfold fitIteration
  dsimp only
  rw [show X'.index = X.index by unfold Matrix.index; rw [hrows], hcols]
  refine (Res.Rel.eq ((Res.Rel.of_eq rfl).bind fun r r' _ _ e => ?_)).symm
  subst e
  obtain ⟨chosen, g, hs, rng⟩ := r
  dsimp only
  refine (Res.Rel.of_eq rfl).bind fun t t' ht _ e => ?_
  subst e
  rw [hp _ _ _ t rng rfl rfl rfl rfl ht]
  exact Res.Rel.of_eq rfl

theorem fitLoop_agree {R : Type} {env : Env R F D} {X X' : Matrix D} (hrows : X'.rows = X.rows)
    (hcols : X'.cols = X.cols) {y w : List D} {sp : Splitter F} {bdata : Matrix Nat} {cuts : JaggedMatrix D} {missing : D}
    (hp : ∀ (c : GrowCfg F D) sm index t rate r i, c.train.data = bdata → c.train.cuts = cuts → c.heap = env.heap i →
      c.train.colIndex = (sampleColumns env.rng rate r X.cols).1 →
      Tree.fit c sm index = .ok t → t.predict X' missing = t.predict X missing) :
    ∀ (n i : Nat) (s : FitState R F D), s.booster.missing = missing →
      fitLoop env X' y w sp bdata cuts n i s = fitLoop env X y w sp bdata cuts n i s
  | 0, _, _, _ => rfl
  | n + 1, i, s, hm => by
    simp only [fitLoop]
    rw [fitIteration_agree hrows hcols fun c sm index t r h1 h2 h3 h4 h5 => by
      rw [hm]; exact hp c sm index t _ r i h1 h2 h3 h4 h5]
    refine (Res.Rel.eq ((Res.Rel.of_eq rfl).bind fun r r' hr _ e => ?_)).symm
    subst e
    obtain ⟨s1, st⟩ := r
    dsimp only
    split
    · exact Res.Rel.of_eq rfl
    · refine Res.Rel.of_eq (fitLoop_agree hrows hcols hp n (i + 1) s1 ?_).symm
      obtain ⟨_, _, _, _, hst⟩ := fitIteration_ok hr
      have := hst.same
      unfold Booster.SameParams at this
      rw [this]
      exact hm

end fit

section rounded
variable {K : Type} [Field K] [LinearOrder K] {m : Fmt K} {F : Type} [Fl F] [FlCast F (FX m)]
variable {S : Sorter} {X X' : Matrix (FX m)} {w : List (FX m)} {nbins : Nat} {missing : FX m} {bd : BinnedData (FX m)}

theorem div_rows {i j n : Nat} (hi : i < n) : (j * n + i) / n = j := by
  rw [Nat.mul_comm, Nat.mul_add_div (by omega), Nat.div_eq_of_lt hi, Nat.add_zero]

/-- The entries of two alike matrices, by their place in the data. -/
theorem Matrix.Alike.at {D : Type} {P : Nat → D → D → Prop} {Z Z' : Matrix D} (h : Z.Alike P Z') {p : Nat} {v v' : D}
    (hv : Z.data[p]? = some v) (hv' : Z'.data[p]? = some v') : p / Z.rows < Z.cols ∧ P (p / Z.rows) v v' := by
  have hlt := (List.getElem?_eq_some_iff.1 hv).1
  rw [h.shaped] at hlt
  have h0 : 0 < Z.rows := by
    rcases Nat.eq_zero_or_pos Z.rows with h0 | h0
    · rw [h0] at hlt; simp at hlt
    · exact h0
  have hj : p / Z.rows < Z.cols := by
    rw [Nat.div_lt_iff_lt_mul h0, Nat.mul_comm]; exact hlt
  refine ⟨hj, h.entry (p % Z.rows) (Nat.mod_lt _ h0) _ hj v v' ?_ ?_⟩
  · unfold Matrix.entry; rw [Nat.mul_comm, Nat.div_add_mod]; exact hv
  · unfold Matrix.entry; rw [h.rows, Nat.mul_comm, Nat.div_add_mod]; exact hv'

theorem Matrix.Alike.column {D : Type} {P : Nat → D → D → Prop} {Z Z' : Matrix D} (h : Z.Alike P Z') {j : Nat}
    (hj : j < Z.cols) : List.Forall₂ (P j) (Z.column j) (Z'.column j) := by
  have l1 := Matrix.column_length h.shaped hj
  have l2 := Matrix.column_length h.shaped' (h.cols ▸ hj)
  rw [h.rows] at l2
  refine List.forall₂_iff_get.2 ⟨by rw [l1, l2], fun i h1 h2 => ?_⟩
  have hi : i < Z.rows := l1 ▸ h1
  refine h.entry i hi j hj _ _ ?_ ?_
  · rw [← Z.column_getElem? hi]; exact List.getElem?_eq_getElem h1
  · rw [← Z'.column_getElem? (h.rows.symm ▸ hi)]; exact List.getElem?_eq_getElem h2

theorem binMatrix_rounded (hS : S.Ok) (hw : X.rows ≤ w.length)
    (hmax : ∀ v ∈ X.data, ¬ IsMissing missing v → (v ≤ᶠ Fl.maxv) = true)
    (h : binMatrix S X w nbins missing = .ok bd) (hX : X.RoundedTo missing bd.cuts X') :
    binMatrix S X' w nbins missing = .ok bd := by
  have hX : X.Alike _ X' := hX
  obtain ⟨cutss, hb⟩ := binMatrix_binned hX.shaped hw h
  rw [← h]
  unfold binMatrix
  rw [hX.cols]
  have hcol : ∀ j < X.cols, ∃ cs, cutss[j]? = some cs ∧ bd.cuts.getCol j = .ok cs ∧
      CutsFor (present missing (X.column j)) cs := by
    intro j hj
    have hjl : j < cutss.length := hb.len ▸ hj
    refine ⟨_, List.getElem?_eq_getElem hjl, ?_, ?_⟩
    · rw [hb.jagged.getCol, List.getElem?_eq_getElem hjl]; rfl
    · exact colCuts_spec hS (by rw [Matrix.column_length hX.shaped hj]; exact hw)
        (hb.made j _ (List.getElem?_eq_getElem hjl)) fun v hv => hmax v (Matrix.mem_column hv)
  have e1 : Res.mapM' (fun i => X'.getCol i >>= fun c => colCuts S c w nbins missing) (List.range X.cols) =
      Res.mapM' (fun i => X.getCol i >>= fun c => colCuts S c w nbins missing) (List.range X.cols) := by
    refine Res.mapM'_congr fun j hj => ?_
    have hj := List.mem_range.1 hj
    rw [Matrix.getCol_eq hX.shaped hj, Matrix.getCol_eq hX.shaped' (hX.cols.symm ▸ hj), Res.ok_bind, Res.ok_bind]
    obtain ⟨cs, h1, h2, _⟩ := hcol j hj
    have hm := hb.made j cs h1
    rw [hm]
    refine colCuts_rounded hS (by rw [Matrix.column_length hX.shaped hj]; exact hw) hm
      (fun v hv => hmax v (Matrix.mem_column hv)) ((hX.column hj).imp fun v v' hv => ?_)
    obtain ⟨cs', h3, h4⟩ := hv
    rw [h2] at h3
    cases h3
    exact h4
  rw [e1]
  refine (Res.Rel.eq ((Res.Rel.of_eq rfl).bind fun cols cols' hc _ e => ?_)).symm
  subst e
  dsimp only
  have ecuts : cols.foldl pushCuts JaggedMatrix.empty = bd.cuts := by
    have h := h
    unfold binMatrix at h
    rw [hc, Res.ok_bind] at h
    dsimp only at h
    rw [Res.bind_eq_ok] at h
    obtain ⟨_, _, e⟩ := h
    injection e with e
    rw [← e]
  rw [ecuts]
  have e2 : binMatrixFromCuts X' bd.cuts missing = binMatrixFromCuts X bd.cuts missing := by
    unfold binMatrixFromCuts
    rw [hX.rows]
    have hl : X'.data.length = X.data.length := by rw [hX.shaped, hX.shaped', hX.rows, hX.cols]
    have hz : List.Forall₂ (fun p p' : FX m × Nat => p'.2 = p.2 ∧ X.data[p.2]? = some p.1 ∧ X'.data[p.2]? = some p'.1)
        X.data.zipIdx X'.data.zipIdx := by
      refine List.forall₂_iff_get.2 ⟨by simp [hl], fun k h1 h2 => ?_⟩
      have h1 : k < X.data.length := by simpa using h1
      simp [h1, hl.symm ▸ h1]
    refine mapM'_rel hz fun p p' hp => ?_
    obtain ⟨ep, hv, hv'⟩ := hp
    rw [ep]
    split
    · rfl
    · obtain ⟨hj, cs, h1, h2⟩ := hX.at hv hv'
      obtain ⟨cs', k1, k2, k3⟩ := hcol _ hj
      rw [k2] at h1
      cases h1
      rw [k2, Res.ok_bind, Res.ok_bind]
      congr 1
      have hr : X.rows ≠ 0 := ‹_›
      have hmem : p.1 ∈ X.column (p.2 / X.rows) := by
        have := X.column_getElem? (i := p.2 % X.rows) (j := p.2 / X.rows) (Nat.mod_lt _ (by omega))
        rw [Matrix.entry, Nat.mul_comm, Nat.div_add_mod, hv] at this
        exact List.mem_of_getElem? this
      have hmi := h2.missing_iff k3 hmem fun v hv => hmax v (Matrix.mem_column hv)
      have hrd := hb.readable p.1 (List.mem_of_getElem? hv)
      unfold mapBin
      rcases h2 with ⟨_, e⟩ | ⟨q1, q2, q3, q4⟩
      · rw [e]
      · have n1 : (isNaN p.1 || p.1 =ᶠ missing) = false := by
          rw [num_of_not_missing hrd q1, Bool.false_or]
          cases e : (p.1 =ᶠ missing)
          · rfl
          · exfalso
            refine q1 ?_
            unfold IsMissing
            rw [if_neg (by rw [(Fl.OrdLaws.feq_num _ _ e).2]; simp)]
            exact e
        have n2 : (isNaN p'.1 || p'.1 =ᶠ missing) = false := by
          rw [(Fl.OrdLaws.le_num _ _ q3).1, Bool.false_or]
          cases e : (p'.1 =ᶠ missing)
          · rfl
          · exfalso
            refine (hmi.not.2 q1) ?_
            unfold IsMissing
            rw [if_neg (by rw [(Fl.OrdLaws.feq_num _ _ e).2]; simp)]
            exact e
        rw [n1, n2, mapBinLoop_congr (v := p.1) (v' := p'.1) fun c hc =>
          RoundedTo.le_iff (Or.inr ⟨q1, q2, q3, q4⟩) hc]
  rw [e2]
  exact Res.Rel.of_eq rfl

/-- Rounding keeps the side at a split whose value is one of the cut points. -/
theorem RoundedTo.child {col cuts : List (FX m)} (hC : CutsFor (present missing col) cuts)
    (hn : ∀ a ∈ present missing col, isNaN a = false) {v v' : FX m}
    (hr : Readable missing v) (hi : IsMissing missing v' ↔ IsMissing missing v) (h : RoundedTo missing cuts v v')
    {n : Node F (FX m)} (hc : n.splitValue ∈ cuts) : n.getChildIdx v' missing = n.getChildIdx v missing := by
  rcases h with ⟨_, rfl⟩ | ⟨q1, q2, q3, q4⟩
  · rfl
  · have k1 := num_of_not_missing hr q1
    have k2 : isNaN v' = false := (Fl.OrdLaws.le_num _ _ q3).1
    have hlt : (v' <ᶠ n.splitValue) = (v <ᶠ n.splitValue) := by
      have := RoundedTo.le_iff (missing := missing) (Or.inr ⟨q1, q2, q3, q4⟩) hc
      have hcn : isNaN n.splitValue = false := by
        obtain ⟨init, last, rfl, hl, hi⟩ := hC.last
        rcases List.mem_append.1 hc with hc | hc
        · exact hn _ (hi _ hc)
        · rw [List.mem_singleton.1 hc]; exact (Fl.OrdLaws.feq_num _ _ hl).1
      have key : ∀ {a : FX m}, isNaN a = false → (a <ᶠ n.splitValue) = !(n.splitValue ≤ᶠ a) := by
        intro a ha
        cases e : (n.splitValue ≤ᶠ a)
        · exact Fl.lt_of_not_le hcn ha e
        · exact Fl.not_lt_of_le e
      rw [key k1, key k2, this]
    unfold Node.getChildIdx
    rw [present_iff.1 ⟨k1, q1⟩, present_iff.1 ⟨k2, hi.not.2 q1⟩, Res.ok_bind, Res.ok_bind, hlt]

end rounded

end Verif
