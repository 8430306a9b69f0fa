import Verif.Proofs.RelateFit
import Verif.Proofs.Data
import Verif.Model.Shapley
import Verif.Props.AverageLeaf

/-!
# Contributions, partial dependence and importance on transformed features
-/

namespace Verif

open scoped Verif

set_option linter.unusedSectionVars false

variable {F D : Type} [Fl F] [Fl D] [FlCast F D]
variable {φ : Nat → D → D} {missing : D} {dom : Nat → D → Prop}

/-- Two rows. -/
def RowSim (φ : Nat → D → D) (dom : Nat → D → Prop) (r r' : List D) : Prop :=
  r'.length = r.length ∧ ∀ j, Res.Rel (fun v v' => dom j v ∧ v' = φ j v) (idx r j) (idx r' j)

theorem getRow_sim {X : Matrix D} (hX : X.Within dom) {row : Nat} (hr : row < X.rows) :
    Res.Rel (RowSim φ dom) (X.getRow row) ((X.mapCols φ).getRow row) := by
  unfold Matrix.getRow
  rw [show (X.mapCols φ).rows = X.rows from rfl, if_neg (by omega), if_neg (by omega)]
  have key : ∀ j, (stepAux X.rows 0 ((X.mapCols φ).data.drop row))[j]? =
      ((stepAux X.rows 0 (X.data.drop row))[j]?).map (φ j) := by
    intro j
    rw [getElem?_stepAux _ (by omega), getElem?_stepAux _ (by omega), List.getElem?_drop, List.getElem?_drop,
      getElem?_mapCols]
    congr 2
    rw [Nat.zero_add, Nat.mul_comm, Nat.add_mul_div_left _ _ (by omega), Nat.div_eq_of_lt hr, Nat.zero_add]
  refine ⟨?_, fun j => ?_⟩
  · by_contra hne
    rcases Nat.lt_or_gt_of_ne hne with h | h
    · have := key (stepAux X.rows 0 ((X.mapCols φ).data.drop row)).length
      rw [List.getElem?_eq_none (by omega), List.getElem?_eq_getElem h] at this
      simp at this
    · have := key (stepAux X.rows 0 (X.data.drop row)).length
      rw [List.getElem?_eq_none (l := stepAux X.rows 0 (X.data.drop row)) (by omega),
        List.getElem?_eq_getElem h] at this
      simp at this
  · unfold idx
    rw [key]
    cases h : (stepAux X.rows 0 (X.data.drop row))[j]? with
    | none => trivial
    | some v =>
      rw [getElem?_stepAux _ (by omega), List.getElem?_drop] at h
      have := hX _ _ h
      rw [Nat.zero_add, Nat.mul_comm, Nat.add_mul_div_left _ _ (by omega), Nat.div_eq_of_lt hr,
        Nat.zero_add] at this
      exact ⟨this, rfl⟩

theorem getChildIdx_sim (hφ : Respects φ missing dom) {n : Node F D} {s : D}
    (hs : SplitVal φ missing dom n.splitFeature n.splitValue s) {v : D} (hv : dom n.splitFeature v) :
    ({ n with splitValue := s } : Node F D).getChildIdx (φ n.splitFeature v) missing =
      n.getChildIdx v missing := by
  obtain ⟨⟨hd, hp⟩, rfl⟩ := hs
  unfold Node.getChildIdx
  dsimp only
  rw [hφ.isMissing hv]
  refine Res.Rel.eq ((Res.Rel.of_eq rfl).bind fun b b' hb _ e => ?_)
  subst e
  cases b with
  | true => exact Res.Rel.of_eq rfl
  | false =>
    simp only [Bool.false_eq_true, if_false]
    rw [hφ.lt _ v n.splitValue hv hd (present_iff.2 hb) hp]
    exact Res.Rel.of_eq rfl

/-- Lists of nodes. -/
abbrev NodesSim (φ : Nat → D → D) (missing : D) (dom : Nat → D → Prop) (ns ns' : List (Node F D)) : Prop :=
  List.Forall₂ (NodeSim (SplitVal φ missing dom)) ns ns'

theorem contribWalk_sim (hφ : Respects φ missing dom) {ns ns' : List (Node F D)}
    (h : NodesSim φ missing dom ns ns') {row row' : List D} (hr : RowSim φ dom row row')
    {delta delta' : Nat → Node F D → Nat → Res (Option D)}
    (hd : ∀ i n n' c, NodeSim (SplitVal φ missing dom) n n' → delta' i n' c = delta i n c) :
    ∀ (fuel i : Nat) (c : List D),
    Res.Rel (fun r r' => r'.1 = r.1 ∧ NodeSim (SplitVal φ missing dom) r.2 r'.2)
      (contribWalk ns row missing delta fuel i c) (contribWalk ns' row' missing delta' fuel i c)
  | 0, _, _ => trivial
  | fuel + 1, i, c => by
    unfold contribWalk
    refine (idx_sim h i).bind fun n n' _ _ hn => ?_
    rcases id hn with ⟨hl, rfl⟩ | ⟨hl, s, rfl, hs⟩
    · rw [if_pos hl, if_pos hl]; exact ⟨rfl, hn⟩
    · rw [if_neg (by simp [hl]), if_neg (by simp [hl])]
      refine (hr.2 n.splitFeature).bind fun v v' _ _ hv => ?_
      obtain ⟨hdv, rfl⟩ := hv
      rw [getChildIdx_sim hφ hs hdv]
      refine (Res.Rel.of_eq rfl).bind fun j j' _ _ e => ?_
      subst e
      rw [hd i n _ j hn]
      refine (Res.Rel.of_eq rfl).bind fun d d' _ _ e => ?_
      subst e
      cases d with
      | none => exact contribWalk_sim hφ h hr hd fuel _ _
      | some d =>
        refine (Res.Rel.of_eq rfl).bind fun c1 c2 _ _ e => ?_
        subst e
        exact contribWalk_sim hφ h hr hd fuel _ _

theorem deltaWeight_sim {ns ns' : List (Node F D)} (h : NodesSim φ missing dom ns ns') (i : Nat)
    (n n' : Node F D) (c : Nat) (hn : NodeSim (SplitVal φ missing dom) n n') :
    deltaWeight ns' i n' c = deltaWeight ns i n c := by
  obtain ⟨v, rfl⟩ := hn.leaf_eq
  refine (Res.Rel.eq ((idx_sim h c).bind fun a a' _ _ ha => ?_)).symm
  obtain ⟨u, rfl⟩ := ha.leaf_eq
  exact Res.Rel.of_eq rfl

theorem deltaProb_sim {ns ns' : List (Node F D)} (h : NodesSim φ missing dom ns ns') (lo : D) (i : Nat)
    (n n' : Node F D) (c : Nat) (hn : NodeSim (SplitVal φ missing dom) n n') :
    deltaProb ns' lo i n' c = deltaProb ns lo i n c := by
  obtain ⟨v, rfl⟩ := hn.leaf_eq
  refine (Res.Rel.eq ((idx_sim h c).bind fun a a' _ _ ha => ?_)).symm
  obtain ⟨u, rfl⟩ := ha.leaf_eq
  exact Res.Rel.of_eq rfl

theorem otherChild_sim {ns ns' : List (Node F D)} (h : NodesSim φ missing dom ns ns') (n : Node F D) (v : D)
    (c : Nat) : Res.Rel (NodeSim (SplitVal φ missing dom)) (otherChild ns n c)
      (otherChild ns' { n with splitValue := v } c) := by
  unfold otherChild
  dsimp only
  split
  · exact idx_sim h _
  · exact idx_sim h _

theorem deltaBranch_sim {ns ns' : List (Node F D)} (h : NodesSim φ missing dom ns ns') (i : Nat)
    (n n' : Node F D) (c : Nat) (hn : NodeSim (SplitVal φ missing dom) n n') :
    deltaBranch ns' i n' c = deltaBranch ns i n c := by
  obtain ⟨v, rfl⟩ := hn.leaf_eq
  unfold deltaBranch
  rw [show ({ n with splitValue := v } : Node F D).stepsToMissing c = n.stepsToMissing c from rfl]
  split
  · rfl
  · refine (Res.Rel.eq ((otherChild_sim h n v c).bind fun o o' _ _ ho => ?_)).symm
    obtain ⟨u, rfl⟩ := ho.leaf_eq
    refine (idx_sim h c).bind fun a a' _ _ ha => ?_
    obtain ⟨u, rfl⟩ := ha.leaf_eq
    exact Res.Rel.of_eq rfl

theorem deltaMidpoint_sim {ns ns' : List (Node F D)} (h : NodesSim φ missing dom ns ns') (i : Nat)
    (n n' : Node F D) (c : Nat) (hn : NodeSim (SplitVal φ missing dom) n n') :
    deltaMidpoint ns' i n' c = deltaMidpoint ns i n c := by
  obtain ⟨v, rfl⟩ := hn.leaf_eq
  unfold deltaMidpoint
  rw [show ({ n with splitValue := v } : Node F D).stepsToMissing c = n.stepsToMissing c from rfl]
  refine (Res.Rel.eq ((idx_sim h c).bind fun a a' _ _ ha => ?_)).symm
  obtain ⟨u, rfl⟩ := ha.leaf_eq
  split
  · exact Res.Rel.of_eq rfl
  · refine (otherChild_sim h n v c).bind fun o o' _ _ ho => ?_
    obtain ⟨u, rfl⟩ := ho.leaf_eq
    exact Res.Rel.of_eq rfl

theorem deltaMode_sim {ns ns' : List (Node F D)} (h : NodesSim φ missing dom ns ns') (i : Nat)
    (n n' : Node F D) (c : Nat) (hn : NodeSim (SplitVal φ missing dom) n n') :
    deltaMode ns' i n' c = deltaMode ns i n c := by
  obtain ⟨v, rfl⟩ := hn.leaf_eq
  unfold deltaMode
  rw [show ({ n with splitValue := v } : Node F D).stepsToMissing c = n.stepsToMissing c from rfl]
  split
  · rfl
  · refine (Res.Rel.eq ((idx_sim h n.leftChild).bind fun l l' _ _ hl => ?_)).symm
    obtain ⟨u, rfl⟩ := hl.leaf_eq
    refine (idx_sim h n.rightChild).bind fun r r' _ _ hr => ?_
    obtain ⟨u, rfl⟩ := hr.leaf_eq
    refine (idx_sim h c).bind fun a a' _ _ ha => ?_
    obtain ⟨u, rfl⟩ := ha.leaf_eq
    exact Res.Rel.of_eq rfl

theorem averageLeafWeights_sim {ns ns' : List (Node F D)} (h : NodesSim φ missing dom ns ns') :
    ∀ fuel i, averageLeafWeights ns' fuel i = averageLeafWeights ns fuel i
  | 0, _ => rfl
  | fuel + 1, i => by
    unfold averageLeafWeights
    refine (Res.Rel.eq ((idx_sim h i).bind fun n n' _ _ hn => ?_)).symm
    obtain ⟨v, rfl⟩ := hn.leaf_eq
    dsimp only
    split
    · exact Res.Rel.of_eq rfl
    · refine (idx_sim h n.leftChild).bind fun l l' _ _ hl => ?_
      obtain ⟨u, rfl⟩ := hl.leaf_eq
      refine (idx_sim h n.rightChild).bind fun r r' _ _ hr => ?_
      obtain ⟨u, rfl⟩ := hr.leaf_eq
      rw [averageLeafWeights_sim h fuel, averageLeafWeights_sim h fuel]
      refine (Res.Rel.of_eq rfl).bind fun lw _ _ _ e => ?_
      subst e
      refine (Res.Rel.of_eq rfl).bind fun rw' _ _ _ e => ?_
      subst e
      dsimp only
      rw [show ({ n with splitValue := v } : Node F D).hasMissingBranch = n.hasMissingBranch from rfl]
      split
      · refine (idx_sim h n.missingNode).bind fun m m' _ _ hm => ?_
        obtain ⟨u, rfl⟩ := hm.leaf_eq
        rw [averageLeafWeights_sim h fuel]
        exact Res.Rel.of_eq rfl
      · exact Res.Rel.of_eq rfl

theorem distributeNode_sim {ns ns' : List (Node F D)} (h : NodesSim φ missing dom ns ns') :
    ∀ fuel i ws, distributeNode ns' fuel i ws = distributeNode ns fuel i ws
  | 0, _, _ => rfl
  | fuel + 1, i, ws => by
    unfold distributeNode
    refine (Res.Rel.eq ((idx_sim h i).bind fun n n' _ _ hn => ?_)).symm
    obtain ⟨v, rfl⟩ := hn.leaf_eq
    dsimp only
    split
    · exact Res.Rel.of_eq rfl
    · refine (idx_sim h n.leftChild).bind fun l l' _ _ hl => ?_
      obtain ⟨u, rfl⟩ := hl.leaf_eq
      refine (idx_sim h n.rightChild).bind fun r r' _ _ hr => ?_
      obtain ⟨u, rfl⟩ := hr.leaf_eq
      rw [distributeNode_sim h fuel]
      refine (Res.Rel.of_eq rfl).bind fun lw _ _ _ e => ?_
      subst e
      obtain ⟨ws, lw⟩ := lw
      dsimp only
      rw [distributeNode_sim h fuel]
      refine (Res.Rel.of_eq rfl).bind fun rw' _ _ _ e => ?_
      subst e
      obtain ⟨ws, rw'⟩ := rw'
      dsimp only
      rw [show ({ n with splitValue := v } : Node F D).hasMissingBranch = n.hasMissingBranch from rfl]
      split
      · refine (idx_sim h n.missingNode).bind fun m m' _ _ hm => ?_
        obtain ⟨u, rfl⟩ := hm.leaf_eq
        rw [distributeNode_sim h fuel]
        exact Res.Rel.of_eq rfl
      · exact Res.Rel.of_eq rfl

theorem hotColdChildren_split (next : Nat) (n : Node F D) (v : D) :
    hotColdChildren next { n with splitValue := v } = hotColdChildren next n := rfl

theorem treeShap_sim (hφ : Respects φ missing dom) {ns ns' : List (Node F D)}
    (h : NodesSim φ missing dom ns ns') {row row' : List D} (hr : RowSim φ dom row row') :
    ∀ fuel i depth path pz po pf c, treeShap ns' row' missing fuel i depth path pz po pf c =
      treeShap ns row missing fuel i depth path pz po pf c
  | 0, _, _, _, _, _, _, _ => rfl
  | fuel + 1, i, depth, path, pz, po, pf, c => by
    unfold treeShap
    refine (Res.Rel.eq ((idx_sim h i).bind fun n n' _ _ hn => ?_)).symm
    refine (Res.Rel.of_eq rfl).bind fun path _ _ _ e => ?_
    subst e
    rcases id hn with ⟨hl, rfl⟩ | ⟨hl, s, rfl, hs⟩
    · rw [if_pos hl, if_pos hl]; exact Res.Rel.of_eq rfl
    · rw [if_neg (by simp [hl]), if_neg (by simp [hl])]
      refine (hr.2 n.splitFeature).bind fun v v' _ _ hv => ?_
      obtain ⟨hdv, rfl⟩ := hv
      rw [getChildIdx_sim hφ hs hdv]
      refine (Res.Rel.of_eq rfl).bind fun j j' _ _ e => ?_
      subst e
      dsimp only
      rw [hotColdChildren_split]
      refine (Res.Rel.of_eq rfl).bind fun k _ _ _ e => ?_
      subst e
      have inner : ∀ (iz io : F) (path : List (PathElement F)) (depth : Nat),
          Res.foldM' (fun (contribs : List D) (ci : Nat × Nat) => do
            let c ← idx ns ci.1
            let z := (c.hessianSum / n.hessianSum) * iz
            let o := if ci.2 = 0 then io else 0
            treeShap ns row missing fuel ci.1 (depth + 1) path z o n.splitFeature contribs)
            c (hotColdChildren j n).zipIdx =
          Res.foldM' (fun (contribs : List D) (ci : Nat × Nat) => do
            let c ← idx ns' ci.1
            let z := (c.hessianSum / n.hessianSum) * iz
            let o := if ci.2 = 0 then io else 0
            treeShap ns' row' missing fuel ci.1 (depth + 1) path z o n.splitFeature contribs)
            c (hotColdChildren j n).zipIdx := by
        intro iz io path depth
        refine Res.foldM'_congr (fun ci _ c' => ?_) c
        refine Res.Rel.eq ((idx_sim h ci.1).bind fun m m' _ _ hm => ?_)
        obtain ⟨u, rfl⟩ := hm.leaf_eq
        dsimp only
        rw [treeShap_sim hφ h hr fuel]
        exact Res.Rel.of_eq rfl
      simp only [inner]
      exact Res.Rel.of_eq rfl

theorem rowPredFn_sim (hφ : Respects φ missing dom) {t t' : Tree F D} (h : TreeSim φ missing dom t t')
    {row row' : List D} (hr : RowSim φ dom row row') (m : ContributionsMethod) (c : List D) :
    rowPredFn m t' row' c missing = rowPredFn m t row c missing := by
  have hlen : t'.nodes.length = t.nodes.length := h.length_eq.symm
  have walk := fun delta delta' hd c => contribWalk_sim (delta := delta) (delta' := delta') hφ h hr hd
    t.nodes.length 0 c
  cases m with
  | weight =>
    show Tree.contribWeight _ _ _ _ = Tree.contribWeight _ _ _ _
    unfold Tree.contribWeight
    rw [hlen]
    refine (Res.Rel.eq ((idx_sim h 0).bind fun n n' _ _ hn => ?_)).symm
    obtain ⟨v, rfl⟩ := hn.leaf_eq
    refine (Res.Rel.of_eq rfl).bind fun c1 _ _ _ e => ?_
    subst e
    refine (walk _ _ (deltaWeight_sim h) c1).bind fun r r' _ _ hrr => ?_
    exact hrr.1.symm
  | branchDifference =>
    show Tree.contribBranch _ _ _ _ = Tree.contribBranch _ _ _ _
    unfold Tree.contribBranch
    rw [hlen]
    refine (Res.Rel.eq ((walk _ _ (deltaBranch_sim h) c).bind fun r r' _ _ hrr => ?_)).symm
    exact hrr.1.symm
  | midpointDifference =>
    show Tree.contribMidpoint _ _ _ _ = Tree.contribMidpoint _ _ _ _
    unfold Tree.contribMidpoint
    rw [hlen]
    refine (Res.Rel.eq ((walk _ _ (deltaMidpoint_sim h) c).bind fun r r' _ _ hrr => ?_)).symm
    exact hrr.1.symm
  | modeDifference =>
    show Tree.contribMode _ _ _ _ = Tree.contribMode _ _ _ _
    unfold Tree.contribMode
    rw [hlen]
    refine (Res.Rel.eq ((walk _ _ (deltaMode_sim h) c).bind fun r r' _ _ hrr => ?_)).symm
    exact hrr.1.symm
  | shapley =>
    show Tree.contribShapley _ _ _ _ = Tree.contribShapley _ _ _ _
    unfold Tree.contribShapley
    rw [hlen, averageLeafWeights_sim h, hr.1]
    simp only [treeShap_sim hφ h hr]
  | average => rfl
  | probabilityChange => rfl

theorem contribProb_sim (hφ : Respects φ missing dom) {t t' : Tree F D} (h : TreeSim φ missing dom t t')
    {row row' : List D} (hr : RowSim φ dom row row') (c : List D) (lo : D) :
    t'.contribProb row' c missing lo = t.contribProb row c missing lo := by
  unfold Tree.contribProb
  rw [show t'.nodes.length = t.nodes.length from h.length_eq.symm]
  refine (Res.Rel.eq ((idx_sim h 0).bind fun n n' _ _ hn => ?_)).symm
  obtain ⟨v, rfl⟩ := hn.leaf_eq
  refine (Res.Rel.of_eq rfl).bind fun c1 _ _ _ e => ?_
  subst e
  refine (contribWalk_sim hφ h hr (deltaProb_sim h lo) t.nodes.length 0 c1).bind fun r r' _ _ hrr => ?_
  obtain ⟨c2, n2⟩ := r
  obtain ⟨c3, n3⟩ := r'
  obtain ⟨h1, h2⟩ := hrr
  dsimp only at h1 h2 ⊢
  obtain ⟨u, rfl⟩ := h2.leaf_eq
  subst h1
  exact Res.Rel.of_eq rfl

theorem contribAverage_sim (hφ : Respects φ missing dom) {t t' : Tree F D} (h : TreeSim φ missing dom t t')
    {row row' : List D} (hr : RowSim φ dom row row') (c ws : List D) :
    t'.contribAverage row' c ws missing = t.contribAverage row c ws missing := by
  unfold Tree.contribAverage
  rw [show t'.nodes.length = t.nodes.length from h.length_eq.symm]
  refine (Res.Rel.eq ((Res.Rel.of_eq rfl).bind fun w0 _ _ _ e => ?_)).symm
  subst e
  refine (Res.Rel.of_eq rfl).bind fun c1 _ _ _ e => ?_
  subst e
  refine (contribWalk_sim hφ h hr (delta := deltaAverage ws) (delta' := deltaAverage ws) (fun _ _ _ _ _ => rfl)
    t.nodes.length 0 c1).bind fun r r' _ _ hrr => ?_
  exact hrr.1.symm

theorem foldM'_rel {α β γ : Type} {R : α → β → Prop} {f : γ → α → Res γ} {g : γ → β → Res γ} {l : List α}
    {l' : List β} (h : List.Forall₂ R l l') (hf : ∀ c a b, R a b → g c b = f c a) :
    ∀ c, Res.foldM' g c l' = Res.foldM' f c l := by
  induction h with
  | nil => intro c; rfl
  | cons hab _ ih =>
    intro c
    rw [Res.foldM'_cons, Res.foldM'_cons, hf c _ _ hab]
    simp only [ih]

theorem mapM'_rel {α β γ : Type} {R : α → β → Prop} {f : α → Res γ} {g : β → Res γ} {l : List α}
    {l' : List β} (h : List.Forall₂ R l l') (hf : ∀ a b, R a b → g b = f a) :
    Res.mapM' g l' = Res.mapM' f l := by
  induction h with
  | nil => rfl
  | cons hab _ ih => rw [Res.mapM'_cons, Res.mapM'_cons, hf _ _ hab, ih]

theorem forall₂_zip_same {α β γ : Type} {R : α → β → Prop} {l : List α} {l' : List β}
    (h : List.Forall₂ R l l') : ∀ ws : List γ,
    List.Forall₂ (fun p p' => R p.1 p'.1 ∧ p'.2 = p.2) (l.zip ws) (l'.zip ws) := by
  induction h with
  | nil => intro ws; simp
  | cons hab _ ih =>
    intro ws
    cases ws with
    | nil => simp
    | cons w ws => exact .cons ⟨hab, rfl⟩ (ih ws)

theorem contributions_sim (hφ : Respects φ missing dom) {b b' : Booster F D}
    (h : BoosterSim φ missing dom b b') {X : Matrix D} (hX : X.Within dom) (m : ContributionsMethod) :
    b'.predictContributions (X.mapCols φ) m = b.predictContributions X m := by
  have hpt := predictionTrees_sim h
  obtain ⟨hm, ts0, rfl, _⟩ := h
  unfold Booster.predictContributions
  have key : (b.withTrees ts0).contribRows (X.mapCols φ) m = b.contribRows X m := by
    have alone : (do
        let ts ← (b.withTrees ts0).predictionTrees
        Res.mapM' (contribsRowAlone (b.withTrees ts0) ts m (X.mapCols φ)) (X.mapCols φ).index) = (do
        let ts ← b.predictionTrees
        Res.mapM' (contribsRowAlone b ts m X) X.index) := by
      refine (Res.Rel.eq (hpt.bind fun ts ts' _ _ hts => Res.Rel.of_eq ?_)).symm
      refine Res.mapM'_congr fun i hi => ?_
      rw [Matrix.index, List.mem_range] at hi
      unfold contribsRowAlone
      refine Res.Rel.eq ((getRow_sim hX hi).bind fun r r' _ _ hr => Res.Rel.of_eq ?_)
      refine (foldM'_rel hts (fun c t t' ht => ?_) _).symm
      rw [show (b.withTrees ts0).missing = b.missing from rfl, hm]
      exact rowPredFn_sim hφ ht hr m c
    unfold Booster.contribRows
    cases m with
    | average =>
      refine (Res.Rel.eq (hpt.bind fun ts ts' _ _ hts => ?_)).symm
      have hw : Res.mapM' Tree.distributeLeafWeights ts' = Res.mapM' Tree.distributeLeafWeights ts := by
        refine mapM'_rel hts fun t t' ht => ?_
        unfold Tree.distributeLeafWeights
        rw [show t'.nodes.length = t.nodes.length from ht.length_eq.symm, distributeNode_sim ht]
      rw [hw]
      refine (Res.Rel.of_eq rfl).bind fun ws _ _ _ e => ?_
      subst e
      refine Res.Rel.of_eq (Res.mapM'_congr fun i hi => ?_)
      rw [Matrix.index, List.mem_range] at hi
      unfold contribsRowAverage
      refine Res.Rel.eq ((getRow_sim hX hi).bind fun r r' _ _ hr => Res.Rel.of_eq ?_)
      refine (foldM'_rel (forall₂_zip_same hts ws) (fun c p p' hp => ?_) _).symm
      rw [show (b.withTrees ts0).missing = b.missing from rfl, hm, hp.2]
      exact contribAverage_sim hφ hp.1 hr c p.2
    | probabilityChange =>
      dsimp only
      rw [show (b.withTrees ts0).objectiveType = b.objectiveType from rfl]
      cases b.objectiveType with
      | squaredLoss => rfl
      | logLoss =>
        refine (Res.Rel.eq (hpt.bind fun ts ts' _ _ hts => Res.Rel.of_eq ?_)).symm
        refine Res.mapM'_congr fun i hi => ?_
        rw [Matrix.index, List.mem_range] at hi
        unfold contribsRowProb
        refine Res.Rel.eq ((getRow_sim hX hi).bind fun r r' _ _ hr => Res.Rel.of_eq ?_)
        rw [show (b.withTrees ts0).missing = b.missing from rfl, hm,
          foldM'_rel hts (fun (s : List D × D) t t' ht => contribProb_sim hφ ht hr s.1 s.2)]
        rfl
    | weight => exact alone
    | branchDifference => exact alone
    | midpointDifference => exact alone
    | modeDifference => exact alone
    | shapley => exact alone
  rw [key]

theorem partialDependence_sim (hφ : Respects φ missing dom) {ns ns' : List (Node F D)}
    (h : NodesSim φ missing dom ns ns') {feature : Nat} {x : D} (hx : dom feature x) :
    ∀ fuel i p, partialDependence ns' feature (φ feature x) missing fuel i p =
      partialDependence ns feature x missing fuel i p
  | 0, _, _ => rfl
  | fuel + 1, i, p => by
    unfold partialDependence
    refine (Res.Rel.eq ((idx_sim h i).bind fun n n' _ _ hn => ?_)).symm
    rcases id hn with ⟨hl, rfl⟩ | ⟨hl, s, rfl, hs⟩
    · rw [if_pos hl, if_pos hl]; exact Res.Rel.of_eq rfl
    · have hl' : ¬ n.isLeaf = true := by simp [hl]
      dsimp only
      rw [if_neg hl', if_neg hl']
      by_cases hf : n.splitFeature = feature
      · rw [if_pos hf, if_pos hf]
        subst hf
        rw [getChildIdx_sim hφ hs hx]
        refine (Res.Rel.of_eq rfl).bind fun c _ _ _ e => ?_
        subst e
        rw [partialDependence_sim hφ h hx fuel]
        exact Res.Rel.of_eq rfl
      · rw [if_neg hf, if_neg hf]
        refine (idx_sim h n.leftChild).bind fun l l' _ _ hl => ?_
        obtain ⟨u, rfl⟩ := hl.leaf_eq
        refine (idx_sim h n.rightChild).bind fun r r' _ _ hr => ?_
        obtain ⟨u, rfl⟩ := hr.leaf_eq
        rw [show ({ n with splitValue := s } : Node F D).hasMissingBranch = n.hasMissingBranch from rfl]
        simp only [partialDependence_sim hφ h hx fuel]
        cases n.hasMissingBranch <;> simp only [if_true, Bool.false_eq_true, if_false]
        · exact Res.Rel.of_eq rfl
        · refine (idx_sim h n.missingNode).bind fun m m' _ _ hm => ?_
          obtain ⟨u, rfl⟩ := hm.leaf_eq
          exact Res.Rel.of_eq rfl

theorem valuePartialDependence_sim (hφ : Respects φ missing dom) {b b' : Booster F D}
    (h : BoosterSim φ missing dom b b') {feature : Nat} {x : D} (hx : dom feature x) :
    b'.valuePartialDependence feature (φ feature x) = b.valuePartialDependence feature x := by
  have hpt := predictionTrees_sim h
  obtain ⟨hm, ts0, rfl, _⟩ := h
  unfold Booster.valuePartialDependence
  refine (Res.Rel.eq (hpt.bind fun ts ts' _ _ hts => ?_)).symm
  rw [show (b.withTrees ts0).missing = b.missing from rfl, hm,
    mapM'_rel hts (f := fun t => t.valuePartialDependence feature x missing) fun t t' ht => by
      unfold Tree.valuePartialDependence
      rw [show t'.nodes.length = t.nodes.length from ht.length_eq.symm, partialDependence_sim hφ ht hx]]
  exact Res.Rel.of_eq rfl

theorem nodeStats_sim {ns ns' : List (Node F D)} (h : NodesSim φ missing dom ns ns') {stat : Node F D → F}
    (hstat : ∀ (n : Node F D) v, stat { n with splitValue := v } = stat n) : ∀ fuel n n' st,
      NodeSim (SplitVal φ missing dom) n n' → nodeStats stat ns' fuel n' st = nodeStats stat ns fuel n st
  | 0, _, _, _, _ => rfl
  | fuel + 1, n, n', st, hn => by
    obtain ⟨v, rfl⟩ := hn.leaf_eq
    unfold nodeStats
    dsimp only
    split
    · rfl
    · rw [hstat]
      refine (Res.Rel.eq ((idx_sim h n.leftChild).bind fun l l' _ _ hl => ?_)).symm
      rw [nodeStats_sim h hstat fuel _ _ _ hl]
      refine (Res.Rel.of_eq rfl).bind fun s1 _ _ _ e => ?_
      subst e
      refine (idx_sim h n.rightChild).bind fun r r' _ _ hr => ?_
      rw [nodeStats_sim h hstat fuel _ _ _ hr]
      refine (Res.Rel.of_eq rfl).bind fun s1 _ _ _ e => ?_
      subst e
      rw [show ({ n with splitValue := v } : Node F D).hasMissingBranch = n.hasMissingBranch from rfl]
      split
      · refine (idx_sim h n.missingNode).bind fun m m' _ _ hm => ?_
        rw [nodeStats_sim h hstat fuel _ _ _ hm]
        exact Res.Rel.of_eq rfl
      · exact Res.Rel.of_eq rfl

theorem featureImportance_sim {b b' : Booster F D} (h : BoosterSim φ missing dom b b') (S : Sorter)
    (m : ImportanceMethod) (normalize : Bool) :
    b'.featureImportance S m normalize = b.featureImportance S m normalize := by
  obtain ⟨hm, ts0, rfl, hts⟩ := h
  have hstat : ∀ (n : Node F D) v, (m.stat (F := F) (D := D)).1 { n with splitValue := v } =
      (m.stat (F := F) (D := D)).1 n := by
    intro n v
    cases m <;> rfl
  unfold Booster.featureImportance
  rw [show (b.withTrees ts0).trees = ts0 from rfl]
  dsimp only
  rw [foldM'_rel hts (f := fun st (t : Tree F D) => t.importance (m.stat (F := F) (D := D)).1 st)
    fun st t t' ht => ?_]
  unfold Tree.importance
  rw [show t'.nodes.length = t.nodes.length from ht.length_eq.symm]
  refine (Res.Rel.eq ((idx_sim ht 0).bind fun n n' _ _ hn => Res.Rel.of_eq ?_)).symm
  exact (nodeStats_sim ht hstat _ _ _ _ hn).symm

end Verif
