import Verif.Spec.Drawn
import Verif.Proofs.RelateFit
import Verif.Proofs.Grow
import Verif.Props.Boosting

/-!
# Growing reads the gradients of the rows in the index only
-/

namespace Verif

open scoped Verif

set_option linter.unusedSectionVars false

section grow
variable {F D : Type} [Fl F] [Fl D] [FlCast F D]

/-- Other gradients and hessians. -/
def TrainData.withGrad (t : TrainData F D) (g h : List F) : TrainData F D := { t with grad := g, hess := h }

/-- The same gradients and hessians for the rows of a list. -/
def SameOn (g h g' h' : List F) (rows : List Nat) : Prop := ∀ i ∈ rows, g'[i]? = g[i]? ∧ h'[i]? = h[i]?

theorem SameOn.idx {g h g' h' : List F} {rows : List Nat} (hs : SameOn g h g' h' rows) {l : List Nat}
    (hl : ∀ i ∈ l, i ∈ rows) : Res.mapM' (idx g') l = Res.mapM' (idx g) l ∧
      Res.mapM' (idx h') l = Res.mapM' (idx h) l := by
  constructor <;> refine Res.mapM'_congr fun i hi => ?_ <;> unfold Verif.idx <;> [rw [(hs i (hl i hi)).1]; rw [(hs i (hl i hi)).2]]

theorem histogramMatrix_sameOn {data : Matrix Nat} {cuts : JaggedMatrix D} {g h g' h' : List F} {rows : List Nat}
    (hs : SameOn g h g' h' rows) {l : List Nat} (hl : ∀ i ∈ l, i ∈ rows) (cols : List Nat) :
    histogramMatrix data cuts g' h' l cols true = histogramMatrix data cuts g h l cols true := by
  unfold histogramMatrix
  obtain ⟨e1, e2⟩ := hs.idx hl
  simp only [if_true]
  rw [e1, e2]

theorem mem_slice {index rows : List Nat} {i j : Nat} (h : slice index i j = .ok rows) : ∀ a ∈ rows, a ∈ index := by
  obtain ⟨_, _, rfl⟩ := slice_ok_iff.1 h
  intro a ha
  exact List.mem_of_mem_drop (List.mem_of_mem_take ha)

theorem mem_writeBack {index rows rows' : List Nat} {i j : Nat} (h : slice index i j = .ok rows)
    (hp : ∀ a ∈ rows', a ∈ rows) : ∀ a ∈ writeBack index i j rows', a ∈ index := by
  intro a ha
  unfold writeBack at ha
  simp only [List.mem_append] at ha
  rcases ha with (ha | ha) | ha
  · exact List.mem_of_mem_take ha
  · exact mem_slice h a (hp a ha)
  · exact List.mem_of_mem_drop ha

theorem hist_sameOn {t : TrainData F D} {g' h' : List F} {rows : List Nat}
    (hs : SameOn t.grad t.hess g' h' rows) {index : List Nat} (hi : ∀ i ∈ index, i ∈ rows) (i j : Nat) :
    (t.withGrad g' h').hist index i j = t.hist index i j := by
  unfold TrainData.hist
  refine Res.Rel.eq ((Res.Rel.of_eq rfl).bind fun r r' hr _ e => ?_)
  subst e
  exact Res.Rel.of_eq (histogramMatrix_sameOn hs (fun a ha => hi a (mem_slice hr a ha)) _)

theorem branchHists_sameOn {t : TrainData F D} {g' h' : List F} {rows : List Nat}
    (hs : SameOn t.grad t.hess g' h' rows) {index : List Nat} (hi : ∀ i ∈ index, i ∈ rows) (node : SNode F D)
    (a b c d e : Nat) :
    branchHists (t.withGrad g' h') node index a b c d e = branchHists t node index a b c d e := by
  unfold branchHists
  simp only [hist_sameOn hs hi]

theorem splitNode_sameOn {t : TrainData F D} {g' h' : List F} {rows : List Nat}
    (hs : SameOn t.grad t.hess g' h' rows) {index : List Nat} (hi : ∀ i ∈ index, i ∈ rows) (s : Splitter F) (n : Nat)
    (node : SNode F D) : splitNode s (t.withGrad g' h') n node index = splitNode s t n node index := by
  unfold splitNode
  refine Res.Rel.eq ((Res.Rel.of_eq rfl).bind fun best best' _ _ e => ?_)
  subst e
  cases best with
  | none => exact Res.Rel.of_eq rfl
  | some info =>
    cases s with
    | imputer p =>
      dsimp only
      unfold imputerHandle
      dsimp only
      refine (Res.Rel.of_eq rfl).bind fun mr _ _ _ e => ?_
      subst e
      refine (Res.Rel.of_eq rfl).bind fun rs _ hrs _ e => ?_
      subst e
      refine (Res.Rel.of_eq rfl).bind fun feat _ _ _ e => ?_
      subst e
      refine (Res.Rel.of_eq rfl).bind fun pr _ hp _ e => ?_
      subst e
      obtain ⟨rs', k⟩ := pr
      have hm := mem_writeBack hrs fun a ha => ((pivotOnSplit_ok hp).1.mem_iff).1 ha
      dsimp only
      rw [hist_sameOn hs fun a ha => hi a (hm a ha), hist_sameOn hs fun a ha => hi a (hm a ha)]
      exact Res.Rel.of_eq rfl
    | branch p =>
      dsimp only
      unfold branchHandle
      dsimp only
      refine (Res.Rel.of_eq rfl).bind fun mr _ _ _ e => ?_
      subst e
      refine (Res.Rel.of_eq rfl).bind fun rs _ hrs _ e => ?_
      subst e
      refine (Res.Rel.of_eq rfl).bind fun feat _ _ _ e => ?_
      subst e
      refine (Res.Rel.of_eq rfl).bind fun pr _ hp _ e => ?_
      subst e
      obtain ⟨rs', m, k⟩ := pr
      have hm := mem_writeBack hrs fun a ha => ((pivotOnSplitExcludeMissing_ok hp).mem_iff).1 ha
      dsimp only
      rw [branchHists_sameOn hs fun a ha => hi a (hm a ha)]
      exact Res.Rel.of_eq rfl

theorem splitNode_mem {s : Splitter F} {t : TrainData F D} {n : Nat} {node node' : SNode F D} {index index' : List Nat}
    {new : List (SNode F D)} (h : splitNode s t n node index = .ok (node', index', new)) : ∀ a ∈ index', a ∈ index := by
  rcases splitNode_ok h with ⟨_, _, rfl, _⟩ | ⟨_, rows, kids, _, hd⟩
  · exact fun _ h => h
  · rw [hd.index_eq]
    exact mem_writeBack hd.slice_eq fun a ha => (hd.perm.mem_iff).1 ha

theorem growStep_sameOn {c : GrowCfg F D} {g' h' : List F} {rows : List Nat}
    (hs : SameOn c.train.grad c.train.hess g' h' rows) {s : GrowState F D} (hi : ∀ i ∈ s.index, i ∈ rows) :
    growStep { c with train := c.train.withGrad g' h' } s = growStep c s := by
  unfold growStep
  refine Res.Rel.eq ((Res.Rel.of_eq rfl).bind fun r _ _ _ e => ?_)
  subst e
  dsimp only
  split
  · exact Res.Rel.of_eq rfl
  · rw [splitNode_sameOn hs hi]
    exact Res.Rel.of_eq rfl

theorem growStep_mem {c : GrowCfg F D} {s s' : GrowState F D} (h : growStep c s = .ok s') :
    ∀ a ∈ s'.index, a ∈ s.index := by
  unfold growStep at h
  obtain ⟨⟨node, queue⟩, _, h⟩ := Res.bind_eq_ok.1 h
  dsimp only at h
  split at h
  · cases h; exact fun _ h => h
  · obtain ⟨⟨node', index, new⟩, hsp, h⟩ := Res.bind_eq_ok.1 h
    dsimp only at h
    split at h
    · cases h; exact splitNode_mem hsp
    · obtain ⟨_, _, h⟩ := Res.bind_eq_ok.1 h
      cases h; exact splitNode_mem hsp

theorem growLoop_sameOn {c : GrowCfg F D} {g' h' : List F} {rows : List Nat}
    (hs : SameOn c.train.grad c.train.hess g' h' rows) : ∀ (n : Nat) {s : GrowState F D}, (∀ i ∈ s.index, i ∈ rows) →
    growLoop { c with train := c.train.withGrad g' h' } n s = growLoop c n s
  | 0, _, _ => rfl
  | n + 1, s, hi => by
    simp only [growLoop]
    rw [growStep_sameOn hs hi]
    have hd : growDone { c with train := c.train.withGrad g' h' } s = growDone c s := rfl
    rw [hd]
    split
    · rfl
    · refine Res.Rel.eq ((Res.Rel.of_eq rfl).bind fun r _ hr _ e => ?_)
      subst e
      exact Res.Rel.of_eq (growLoop_sameOn hs n fun a ha => hi a (growStep_mem hr a ha))

theorem treeFit_sameOn {c : GrowCfg F D} {g' h' : List F} {index : List Nat} {sm : SampleMethod} (hm : sm ≠ .none)
    (hs : SameOn c.train.grad c.train.hess g' h' index) :
    Tree.fit { c with train := c.train.withGrad g' h' } sm index = Tree.fit c sm index := by
  unfold Tree.fit
  have h0 : growInit { c with train := c.train.withGrad g' h' } sm index = growInit c sm index := by
    unfold growInit
    obtain ⟨e1, e2⟩ := hs.idx fun _ h => h
    have hr : rootSums (D := D) sm g' h' index = rootSums (D := D) sm c.train.grad c.train.hess index := by
      unfold rootSums
      cases sm with
      | none => exact absurd rfl hm
      | random => dsimp only; rw [e1, e2]
      | goss => dsimp only; rw [e1, e2]
    have hb : ∀ r, rootSums (D := D) sm c.train.grad c.train.hess index = .ok r → r.2.2 = true := by
      intro r hr
      unfold rootSums at hr
      cases sm with
      | none => exact absurd rfl hm
      | random =>
        obtain ⟨_, _, hr⟩ := Res.bind_eq_ok.1 hr
        obtain ⟨_, _, hr⟩ := Res.bind_eq_ok.1 hr
        cases hr; rfl
      | goss =>
        obtain ⟨_, _, hr⟩ := Res.bind_eq_ok.1 hr
        obtain ⟨_, _, hr⟩ := Res.bind_eq_ok.1 hr
        cases hr; rfl
    refine Res.Rel.eq (Res.Rel.bind (Res.Rel.of_eq hr) fun r _ _ hok e => ?_)
    subst e
    obtain ⟨g0, h0, b⟩ := r
    have := hb _ hok
    dsimp only at this
    subst this
    dsimp only
    rw [show histogramMatrix (c.train.withGrad g' h').data (c.train.withGrad g' h').cuts (c.train.withGrad g' h').grad
      (c.train.withGrad g' h').hess index (c.train.withGrad g' h').colIndex true = _ from
      histogramMatrix_sameOn hs (fun _ h => h) _]
    exact Res.Rel.of_eq rfl
  have hidx : ∀ s, growInit c sm index = .ok s → s.index = index := by
    intro s h
    unfold growInit at h
    obtain ⟨⟨_, _, _⟩, _, h⟩ := Res.bind_eq_ok.1 h
    obtain ⟨_, _, h⟩ := Res.bind_eq_ok.1 h
    cases h; rfl
  rw [h0]
  refine Res.Rel.eq ((Res.Rel.of_eq rfl).bind fun s _ hok _ e => ?_)
  subst e
  rw [show growFuel { c with train := c.train.withGrad g' h' } = growFuel c from rfl,
    growLoop_sameOn hs _ (by rw [hidx s hok]; exact fun _ h => h)]
  exact Res.Rel.of_eq rfl

end grow

section loop
variable {R F D : Type} [Fl F] [Fl D] [FlCast F D]

theorem randomSample_state (g : Rng R F D) (s : F) (r : R) (index : List Nat) :
    (randomSample g s r index).2.2 = afterDraws g.genF r index.length := by
  induction index generalizing r with
  | nil => rfl
  | cons i l ih =>
    rw [List.length_cons, afterDraws, randomSample]
    dsimp only
    rw [← ih]
    split <;> rfl

theorem sampleColumns_state (g : Rng R F D) (rate : D) (r : R) (cols : Nat) :
    (sampleColumns g rate r cols).2 = afterColumns g rate r cols := by
  unfold sampleColumns afterColumns
  split <;> rfl

theorem mem_pickBy {α T : Type} {test : T → Bool} {l : List α} {xs : List T} {a : α} (h : a ∈ pickBy test l xs) :
    ∃ (k : Nat) (x : T), l[k]? = some a ∧ xs[k]? = some x ∧ test x = true := by
  unfold pickBy at h
  simp only [List.mem_map, List.mem_filter] at h
  obtain ⟨⟨a', x⟩, ⟨hm, ht⟩, rfl⟩ := h
  obtain ⟨k, hk⟩ := List.mem_iff_getElem?.1 hm
  refine ⟨k, x, ?_, ?_, ht⟩
  · rw [List.getElem?_zip_eq_some] at hk; exact hk.1
  · rw [List.getElem?_zip_eq_some] at hk; exact hk.2

/-- The sample consists of the rows the specification draws. -/
theorem mem_randomSample {g : Rng R F D} {s : F} {r : R} {n i : Nat}
    (h : i ∈ (randomSample g s r (List.range n)).1) : DrawnFrom g s r n i := by
  rw [(randomSample_eq g s r _).1, List.length_range] at h
  obtain ⟨k, x, hk, hx, ht⟩ := mem_pickBy h
  obtain ⟨hlt, e⟩ := List.getElem?_eq_some_iff.1 hk
  rw [List.getElem_range] at e
  subst e
  exact ⟨by simpa using hlt, x, hx, ht⟩

theorem stateAt_succ (g : Rng R F D) (colRate : D) (rows cols : Nat) (r : R) (k : Nat) :
    stateAt g colRate rows cols r (k + 1) =
      stateAt g colRate rows cols (afterColumns g colRate (afterDraws g.genF r rows) cols) k := rfl

theorem calcGradHess_at (o : ObjectiveType) {y y' w w' : List D} (yhat : List D) {i : Nat} (hy : y'[i]? = y[i]?)
    (hw : w'[i]? = w[i]?) :
    (calcGradHess (F := F) o y' yhat w').1[i]? = (calcGradHess (F := F) o y yhat w).1[i]? ∧
    (calcGradHess (F := F) o y' yhat w').2[i]? = (calcGradHess (F := F) o y yhat w).2[i]? := by
  have hz : (zip3 y' yhat w')[i]? = (zip3 y yhat w)[i]? := by
    simp [zip3, List.zip, List.getElem?_zipWith, hy, hw]
  unfold calcGradHess
  simp only [List.unzip_fst, List.unzip_snd, List.map_map, List.getElem?_map, hz, and_self]

theorem fitIteration_drawn {env : Env R F D} {X : Matrix D} {y y' w w' : List D} {sp : Splitter F} {bdata : Matrix Nat}
    {cuts : JaggedMatrix D} {i : Nat} {s : FitState R F D} {g' h' : List F} (hm : s.booster.sampleMethod = .random)
    (hd : ∀ k, DrawnFrom env.rng s.booster.subsample s.rng X.rows k → g'[k]? = s.grad[k]? ∧ h'[k]? = s.hess[k]?) :
    Res.Rel (fun a b => a.2 = b.2 ∧ a.1.booster = b.1.booster ∧ a.1.rng =
          afterColumns env.rng s.booster.colsampleBytree (afterDraws env.rng.genF s.rng X.rows) X.cols ∧
        (a.2 = false → ∃ g h, b.1 = { a.1 with grad := g, hess := h } ∧
          ∀ k : Nat, y'[k]? = y[k]? → w'[k]? = w[k]? → g[k]? = a.1.grad[k]? ∧ h[k]? = a.1.hess[k]?))
      (fitIteration env X y w sp bdata cuts i s)
      (fitIteration env X y' w' sp bdata cuts i { s with grad := g', hess := h' }) := by
  unfold fitIteration sampleIndex
  dsimp only
  rw [hm]
  dsimp only [bind, Res.bind]
  have hc : (randomSample env.rng s.booster.subsample s.rng X.index).2.2 = afterDraws env.rng.genF s.rng X.rows := by
    rw [randomSample_state]; unfold Matrix.index; rw [List.length_range]
  have hst := sampleColumns_state env.rng s.booster.colsampleBytree
    (randomSample env.rng s.booster.subsample s.rng X.index).2.2 X.cols
  have hmem : ∀ k ∈ (randomSample env.rng s.booster.subsample s.rng X.index).1,
      DrawnFrom env.rng s.booster.subsample s.rng X.rows k := fun k hk => mem_randomSample hk
  generalize (randomSample env.rng s.booster.subsample s.rng X.index).1 = chosen at *
  generalize (randomSample env.rng s.booster.subsample s.rng X.index).2.2 = r1 at *
  subst hc
  generalize sampleColumns env.rng s.booster.colsampleBytree (afterDraws env.rng.genF s.rng X.rows) X.cols = sc at *
  obtain ⟨cols, r2⟩ := sc
  dsimp only at *
  subst hst
  have ht := treeFit_sameOn (c := GrowCfg.mk sp (TrainData.mk bdata cuts s.grad s.hess cols) s.booster.maxLeaves
      s.booster.maxDepth s.booster.growPolicy (env.heap i))
    (sm := .random) (g' := g') (h' := h') (index := chosen) (by simp) fun k hk => hd k (hmem k hk)
  unfold TrainData.withGrad at ht
  dsimp only at ht
  refine Res.Rel.bind (Res.Rel.of_eq ht.symm) fun tree _ _ _ e => ?_
  subst e
  refine Res.Rel.bind (Res.Rel.of_eq rfl) fun preds _ _ _ e => ?_
  subst e
  refine Res.Rel.bind (Res.Rel.of_eq rfl) fun ev _ _ _ e => ?_
  subst e
  obtain ⟨b, evals, best, stop⟩ := ev
  dsimp only
  cases stop with
  | true => exact ⟨rfl, rfl, rfl, fun h => by cases h⟩
  | false => exact ⟨rfl, rfl, rfl, fun _ => ⟨_, _, rfl, fun k hy hw => calcGradHess_at _ _ hy hw⟩⟩

theorem fitLoop_drawn {env : Env R F D} {X : Matrix D} {y y' w w' : List D} {sp : Splitter F} {bdata : Matrix Nat}
    {cuts : JaggedMatrix D} {rate : F} {colRate : D} : ∀ (n i : Nat) (s : FitState R F D) (g' h' : List F),
    s.booster.sampleMethod = .random → s.booster.subsample = rate → s.booster.colsampleBytree = colRate →
    (∀ k, EverDrawn env.rng rate colRate X.rows X.cols s.rng n k → y'[k]? = y[k]? ∧ w'[k]? = w[k]? ∧
      g'[k]? = s.grad[k]? ∧ h'[k]? = s.hess[k]?) →
    Res.Rel (fun a b => a.booster = b.booster) (fitLoop env X y w sp bdata cuts n i s)
      (fitLoop env X y' w' sp bdata cuts n i { s with grad := g', hess := h' })
  | 0, _, _, _, _, _, _, _, _ => rfl
  | n + 1, i, s, g', h', hm, hr, hcr, hd => by
    simp only [fitLoop]
    subst hr
    subst hcr
    refine (fitIteration_drawn hm fun k hk => (hd k ⟨0, by omega, hk⟩).2.2).bind fun a b ha _ hab => ?_
    obtain ⟨s1, st⟩ := a
    obtain ⟨s1', st'⟩ := b
    obtain ⟨e1, e2, e3, e4⟩ := hab
    dsimp only at *
    subst e1
    split
    · exact e2
    · rename_i hst
      obtain ⟨g1, h1, rfl, hg⟩ := e4 (by simpa using hst)
      obtain ⟨_, _, _, _, hstep⟩ := fitIteration_ok ha
      have hsame := hstep.same
      unfold Booster.SameParams at hsame
      refine fitLoop_drawn (rate := s.booster.subsample) (colRate := s.booster.colsampleBytree) n (i + 1) s1 g1 h1
        (by rw [hsame]; exact hm) (by rw [hsame]) (by rw [hsame]) fun k hk => ?_
      rw [e3] at hk
      obtain ⟨j, hj, hk⟩ := hk
      obtain ⟨p1, p2, _⟩ := hd k ⟨j + 1, by omega, hk⟩
      exact ⟨p1, p2, hg k p1 p2⟩

end loop

end Verif
