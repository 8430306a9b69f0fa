import Verif.Props.Explained
import Verif.Props.Interactions
import Verif.Props.MonotoneDependence

/-!
# C133: partial dependence is the worth of one known feature, and explains additive models
-/

namespace Verif

open scoped Verif BigOperators

set_option linter.unusedSectionVars false

section
variable {K : Type} [Field K] [LinearOrder K] {m32 m64 : Fmt K}

/-- The covers of the children of a node add up to its own. -/
def Tree.CoversAdd (t : Tree (FX m32) (FX m64)) : Prop :=
  ∀ n ∈ t.nodes, n.isLeaf = false → ∀ l r, t.nodes[n.leftChild]? = some l → t.nodes[n.rightChild]? = some r →
    ((n.missingNode = n.rightChild ∨ n.missingNode = n.leftChild) →
      n.hessianSum.val = l.hessianSum.val + r.hessianSum.val) ∧
    ∀ m, n.missingNode ≠ n.rightChild → n.missingNode ≠ n.leftChild → t.nodes[n.missingNode]? = some m →
      n.hessianSum.val = l.hessianSum.val + r.hessianSum.val + m.hessianSum.val

end

section
variable {K : Type} [Field K] [LinearOrder K] [IsStrictOrderedRing K] {m32 m64 : Fmt K}
  [m32.Exact] [m64.Exact]
variable {S : Sorter} {X : Matrix (FX m64)} {w : List K} {nbins : Nat} {missing : FX m64}
  {gv hv : Nat → K} {c : GrowCfg (FX m32) (FX m64)} {sm : SampleMethod} {rows : List Nat}
  {t : Tree (FX m32) (FX m64)} {o : SNode (FX m32) (FX m64) → Prop}
  {gs : List (Ghost (FX m32) (FX m64))} {nodes : List (Node (FX m32) (FX m64))}

theorem rowSum_app (a b : List Nat) :
    Verif.rowSum hv (a ++ b) = Verif.rowSum hv a + Verif.rowSum hv b := by
  simp [Verif.rowSum]

/-- In fitted trees the rows of a node go to its children, so their covers add up. -/
theorem FitView.coversAdd (hV : FitView X missing gv hv c rows t o gs nodes) : t.CoversAdd := by
  have cover : ∀ (i : Nat) (n : Node (FX m32) (FX m64)), t.nodes[i]? = some n → ∀ g, gs[i]? = some g →
      n.hessianSum.val = Verif.rowSum hv g.rows := by
    intro i n hi g hg
    obtain ⟨n0, w0, hn0, rfl⟩ := hV.shape.inv hi
    obtain ⟨n1, h1, h2, _⟩ := hV.cert.nodeOf hg
    rw [hn0] at h1; cases h1
    show n0.hessianSum.val = _
    rw [h2.cover, (hV.sums _ _ hg).hess]; rfl
  intro n hn hl l r hleft hright
  obtain ⟨i, hi⟩ := List.mem_iff_getElem?.1 hn
  obtain ⟨g, info, k, kids, hI⟩ := hV.cert.internal hV.shape hi hl
  have hS := hI.isSplit
  have kid : ∀ (j : Nat) (kd : Kid (FX m32) (FX m64)) (ch : Node (FX m32) (FX m64)), kids[j]? = some kd →
      t.nodes[k + j]? = some ch → ch.hessianSum.val = Verif.rowSum hv kd.rows := by
    intro j kd ch hk hch
    obtain ⟨g', h1, _, h3, _⟩ := hS.kid j kd hk
    rw [cover _ _ hch _ h1, h3]
  have hn' := cover i n hi g hI.ghost
  have e1 := hI.left
  have e2 := hI.right
  have e3 := hI.missing
  have har := hS.arity
  have hp := rowSum_perm (v := hv) hS.perm
  cases hsp : c.splitter with
  | imputer p =>
    rw [hsp] at e1 e2 e3 har
    simp only [Splitter.links] at e1 e2 e3
    obtain ⟨a, b, hk⟩ := List.length_eq_two.1 (har : kids.length = 2)
    rw [e1] at hleft; rw [e2] at hright
    have k1 := kid 0 a l (by rw [hk]; rfl) hleft
    have k2 := kid 1 b r (by rw [hk]; rfl) hright
    rw [hk] at hp
    simp only [List.flatMap_cons, List.flatMap_nil, List.append_nil, rowSum_app] at hp
    refine ⟨fun _ => by rw [hn', ← hp, k1, k2], fun m h1 h2 => ?_⟩
    exfalso
    rw [e3, e1] at h2
    rw [e3, e2] at h1
    cases hm : info.missingNode <;> simp [hm] at h1 h2
  | branch p =>
    rw [hsp] at e1 e2 e3 har
    simp only [Splitter.links] at e1 e2 e3
    obtain ⟨a, b, d, hk⟩ := List.length_eq_three.1 (har : kids.length = 3)
    rw [e1] at hleft; rw [e2] at hright
    have k1 := kid 1 b l (by rw [hk]; rfl) hleft
    have k2 := kid 2 d r (by rw [hk]; rfl) hright
    rw [hk] at hp
    simp only [List.flatMap_cons, List.flatMap_nil, List.append_nil, rowSum_app] at hp
    refine ⟨fun h => ?_, fun m _ _ hm => ?_⟩
    · omega
    · rw [e3] at hm
      have k3 := kid 0 a m (by rw [hk]; rfl) hm
      rw [hn', ← hp, k1, k2, k3]; ring

theorem Tree.CoversAdd.condExp (hca : t.CoversAdd) {f : Nat} {v : FX m64} {row : Nat → Option (FX m64)}
    {U : Finset Nat} (hU : ∀ n ∈ t.nodes, n.isLeaf = false → (n.splitFeature = f ↔ n.splitFeature ∈ U))
    (hrow : ∀ n ∈ t.nodes, n.isLeaf = false → n.splitFeature = f → row f = some v) {i : Nat}
    {ps : List (K × Node (FX m32) (FX m64))} (h : Mixture t.nodes f v missing i ps) {e : K}
    (he : CondExp t.nodes row missing U i e) : mixValue ps = e := by
  induction h generalizing e with
  | @leaf i n h1 h2 =>
    cases he with
    | leaf g1 g2 g3 => rw [h1] at g1; cases g1; simp [mixValue, g3, FX.val]
    | known g1 g2 => rw [h1] at g1; cases g1; rw [h2] at g2; cases g2
    | two g1 g2 => rw [h1] at g1; cases g1; rw [h2] at g2; cases g2
    | three g1 g2 => rw [h1] at g1; cases g1; rw [h2] at g2; cases g2
  | @known i n ps h1 h2 h3 _ ih =>
    have hm := List.mem_of_getElem? h1
    have hin := (hU n hm h2).1 h3
    cases he with
    | leaf g1 g2 => rw [h1] at g1; cases g1; rw [h2] at g2; cases g2
    | known g1 g2 g3 g4 g5 g6 =>
      rw [h1] at g1; cases g1
      have := hrow n hm h2 h3
      rw [h3, this] at g4; cases g4
      exact ih g6
    | two g1 g2 g3 => rw [h1] at g1; cases g1; exact absurd hin g3
    | three g1 g2 g3 => rw [h1] at g1; cases g1; exact absurd hin g3
  | @two i n l r pl pr h1 h2 h3 h4 hl hr _ _ il ir =>
    have hm := List.mem_of_getElem? h1
    have hin : n.splitFeature ∉ U := fun h => h3 ((hU n hm h2).2 h)
    cases he with
    | leaf g1 g2 => rw [h1] at g1; cases g1; rw [h2] at g2; cases g2
    | known g1 g2 g3 => rw [h1] at g1; cases g1; exact absurd g3 hin
    | two g1 g2 g3 g4 gl gr c1 c2 c3 ea eb =>
      rw [h1] at g1; cases g1
      rw [hl] at gl; cases gl
      rw [hr] at gr; cases gr
      have hadd := (hca n hm h2 l r hl hr).1 h4
      rw [mixValue_append, mixValue_scale, mixValue_scale, il ea, ir eb, ← hadd, c1, c2, c3]; rfl
    | three g1 g2 g3 g4 g5 =>
      rw [h1] at g1; cases g1
      rcases h4 with h4 | h4
      · exact absurd h4 g4
      · exact absurd h4 g5
  | @three i n l r m pl pr pm h1 h2 h3 h4 h5 hl hr hmm _ _ _ il ir im =>
    have hm := List.mem_of_getElem? h1
    have hin : n.splitFeature ∉ U := fun h => h3 ((hU n hm h2).2 h)
    cases he with
    | leaf g1 g2 => rw [h1] at g1; cases g1; rw [h2] at g2; cases g2
    | known g1 g2 g3 => rw [h1] at g1; cases g1; exact absurd g3 hin
    | two g1 g2 g3 g4 =>
      rw [h1] at g1; cases g1
      rcases g4 with g4 | g4
      · exact absurd g4 h4
      · exact absurd g4 h5
    | three g1 g2 g3 g4 g5 gl gr gm c1 c2 c3 c4 ea eb ec =>
      rw [h1] at g1; cases g1
      rw [hl] at gl; cases gl
      rw [hr] at gr; cases gr
      rw [hmm] at gm; cases gm
      have hadd := (hca n hm h2 l r hl hr).2 m h4 h5 hmm
      rw [mixValue_append, mixValue_append, mixValue_scale, mixValue_scale, mixValue_scale, il ea, ir eb,
        im ec, ← hadd, c1, c2, c3, c4]; rfl

/-- C133.  The partial dependence of a tree on a feature is the expectation of its value when only that
feature is known. -/
theorem C133_known (t : Tree (FX m32) (FX m64)) (ht : t.Wf) (hv : t.FiniteValues) (hc : t.SplitCovers)
    (hca : t.CoversAdd) (missing : FX m64) (row : Nat → Option (FX m64)) (f : Nat) (v : FX m64)
    (hr : Readable missing v) (hrow : row f = some v) (e : K)
    (he : CondExp t.nodes row missing {f} 0 e) : t.valuePartialDependence f v missing = .ok (.fin e) := by
  obtain ⟨ps, h1, _, _, h4⟩ := C39_mixture t ht hv hc f v missing hr
  rw [h4]
  have := hca.condExp (U := {f}) (row := row) (fun n _ _ => by simp) (fun _ _ _ _ => hrow) h1 he
  rw [← this]; rfl

/-- C133.  On a feature that the tree does not test it is the expectation when nothing is known. -/
theorem C133_unknown (t : Tree (FX m32) (FX m64)) (ht : t.Wf) (hv : t.FiniteValues) (hc : t.SplitCovers)
    (hca : t.CoversAdd) (missing : FX m64) (row : Nat → Option (FX m64)) (f : Nat) (v : FX m64)
    (hr : Readable missing v) (hu : ∀ n ∈ t.nodes, n.isLeaf = false → n.splitFeature ≠ f) (e : K)
    (he : CondExp t.nodes row missing ∅ 0 e) : t.valuePartialDependence f v missing = .ok (.fin e) := by
  obtain ⟨ps, h1, _, _, h4⟩ := C39_mixture t ht hv hc f v missing hr
  rw [h4]
  have := hca.condExp (U := ∅) (row := row) (fun n hn hl => by simp [hu n hn hl])
    (fun n hn hl h => absurd h (hu n hn hl)) h1 he
  rw [← this]; rfl

/-- Only the features that the tree tests matter to the expectation. -/
theorem CondExp.congr {row : Nat → Option (FX m64)} {U V : Finset Nat} {i : Nat} {e : K}
    (hUV : ∀ n ∈ nodes, n.isLeaf = false → (n.splitFeature ∈ U ↔ n.splitFeature ∈ V))
    (h : CondExp nodes row missing U i e) : CondExp nodes row missing V i e := by
  induction h with
  | leaf h1 h2 h3 => exact .leaf h1 h2 h3
  | known h1 h2 h3 h4 h5 _ ih =>
    exact .known h1 h2 ((hUV _ (List.mem_of_getElem? h1) h2).1 h3) h4 h5 ih
  | two h1 h2 h3 h4 h5 h6 h7 h8 h9 _ _ ia ib =>
    exact .two h1 h2 (fun h => h3 ((hUV _ (List.mem_of_getElem? h1) h2).2 h)) h4 h5 h6 h7 h8 h9 ia ib
  | three h1 h2 h3 h4 h5 h6 h7 h8 h9 h10 h11 h12 _ _ _ ia ib ic =>
    exact .three h1 h2 (fun h => h3 ((hUV _ (List.mem_of_getElem? h1) h2).2 h)) h4 h5 h6 h7 h8 h9 h10 h11
      h12 ia ib ic

/-- The weights of the coalitions add up to 1. -/
theorem cw_sum (P : Finset Nat) : ∑ U ∈ P.powerset, (cw P.card U.card : K) = 1 := by
  have := sum_null (K := K) ∅ P (fun _ => 1) (by simp) (fun _ _ _ => rfl)
  simp only [Finset.empty_union, mul_one, Finset.powerset_empty, Finset.sum_singleton,
    Finset.card_empty] at this
  rw [this]
  simp [cw]

/-- A player who always adds the same has that as Shapley value. -/
theorem shapleyValue_const {N : Finset Nat} {f : Nat} (hf : f ∈ N) (v : Finset Nat → K) (d : K)
    (h : ∀ U ⊆ N.erase f, v (insert f U) - v U = d) : shapleyValue N v f = d := by
  rw [shapleyValue_eq hf, Finset.sum_congr rfl (fun U hU => by rw [h U (Finset.mem_powerset.1 hU)]),
    ← Finset.sum_mul, cw_sum, one_mul]

/-- In the game of a tree that tests a single feature. -/
theorem shapleyValue_single {row : Nat → Option (FX m64)} {E : Finset Nat → K}
    (hE : ∀ U, CondExp t.nodes row missing U 0 (E U)) {g : Nat} (hg : t.UsesOnly [g]) {N : Finset Nat} {f : Nat}
    (hf : f ∈ N) : shapleyValue N E f = E {f} - E ∅ := by
  have same : ∀ U V : Finset Nat, (g ∈ U ↔ g ∈ V) → E U = E V := by
    intro U V h
    refine ((hE U).congr (V := V) fun n hn hl => ?_).unique (hE V)
    have := hg n hn hl
    rw [List.mem_singleton] at this
    rw [this]; exact h
  refine shapleyValue_const hf E _ fun U hU => ?_
  have hfU : f ∉ U := fun h => by simpa using hU h
  by_cases h : g = f
  · subst h
    rw [same (insert g U) {g} (by simp), same U ∅ (by simpa using hfU)]
  · rw [same (insert f U) U (by simp [h]), same {f} ∅ (by simp [h])]
    ring

/-- Groups of one length are determined by what they make together. -/
theorem flatten_inj {α : Type} {n : Nat} : ∀ {as bs : List (List α)}, (∀ a ∈ as, a.length = n + 1) →
    (∀ b ∈ bs, b.length = n + 1) → as.flatten = bs.flatten → as = bs
  | [], [], _, _, _ => rfl
  | [], b :: bs, _, hb, h => by
    have h1 := congrArg List.length h
    rw [List.flatten_cons, List.length_append, hb b (by simp)] at h1
    simp at h1
    omega
  | a :: as, [], ha, _, h => by
    have h1 := congrArg List.length h
    rw [List.flatten_cons, List.length_append, ha a (by simp)] at h1
    simp at h1
  | a :: as, b :: bs, ha, hb, h => by
    rw [List.flatten_cons, List.flatten_cons] at h
    obtain ⟨h1, h2⟩ := List.append_inj h (by rw [ha a (by simp), hb b (by simp)])
    rw [h1, flatten_inj (fun a h => ha a (by simp [h])) (fun b h => hb b (by simp [h])) h2]

/-- Well-formed trees with finite values and covers that add up. -/
structure Booster.Explainable (b : Booster (FX m32) (FX m64)) : Prop where
  wf : ∀ t ∈ b.trees, t.Wf
  values : ∀ t ∈ b.trees, t.FiniteValues
  covers : ∀ t ∈ b.trees, t.CoversOk
  split : ∀ t ∈ b.trees, t.SplitCovers
  add : ∀ t ∈ b.trees, t.CoversAdd

/-- The partial dependence of a booster, when that of each tree is known. -/
theorem dependence_sum {b : Booster (FX m32) (FX m64)} (hE : b.Explainable) (hu : b.used ≤ b.trees.length)
    {base : K} (hb : b.baseScore = .fin base) {f : Nat} {v : FX m64} (hr : Readable b.missing v)
    {games : List (Finset Nat → K)} {P : Tree (FX m32) (FX m64) → (Finset Nat → K) → Prop}
    (hg : List.Forall₂ P (b.trees.take b.used) games) (U : Finset Nat)
    (hP : ∀ t ∈ b.trees, ∀ E, P t E → t.valuePartialDependence f v b.missing = .ok (.fin (E U))) :
    b.valuePartialDependence f v = .ok (.fin (base + (games.map fun E => E U).sum)) := by
  have hmem : ∀ t, t ∈ b.trees.take b.used → t ∈ b.trees := fun t ht => List.mem_of_mem_take ht
  obtain ⟨xs, h1, h2⟩ := C39_booster b (b.trees.take b.used) (predictionTrees_eq_ok.2 ⟨hu, rfl⟩)
    (fun t ht => hE.wf t (hmem t ht)) (fun t ht => hE.values t (hmem t ht))
    (fun t ht => hE.split t (hmem t ht)) f v hr base hb
  have key : ∀ (ts : List (Tree (FX m32) (FX m64))) (xs : List K) (games : List (Finset Nat → K)),
      (∀ t ∈ ts, t ∈ b.trees) →
      List.Forall₂ (fun t x => t.valuePartialDependence f v b.missing = .ok (.fin x)) ts xs →
      List.Forall₂ P ts games → xs = games.map fun E => E U := by
    intro ts xs games hm h1 h2
    induction h1 generalizing games with
    | nil => cases h2; rfl
    | cons a _ ih =>
      cases h2 with
      | cons c d =>
        have := hP _ (hm _ (by simp)) _ c
        rw [a] at this
        cases this
        rw [List.map_cons, ih _ (fun t ht => hm t (by simp [ht])) d]
  rw [h2, key _ _ _ hmem h1 hg]

/-- C133.  Exact arithmetic.  For each row there are the games that `predict_contributions` with method
Shapley plays, one for each tree in use, and the partial dependence of the model on a feature at the value
that the row has is the base score plus the worths of that feature alone; on a feature that no tree tests
(whatever the value) it is the bias of the contributions. -/
theorem C133_game (b : Booster (FX m32) (FX m64)) (hE : b.Explainable) (data : Matrix (FX m64))
    (hd : data.Shaped) (hr : ∀ t ∈ b.trees, ∀ i < data.rows, t.RowReadable (data.entry i) b.missing)
    (hu : b.used ≤ b.trees.length) (base : K) (hb : b.baseScore = .fin base) :
    ∃ rows : List (List K), b.predictContributions data .shapley = .ok (rows.flatten.map FX.fin) ∧
      rows.length = data.rows ∧
      ∀ (i : Nat) (r : List K), rows[i]? = some r → r.length = data.cols + 1 ∧
        ∃ games : List (Finset Nat → K),
          List.Forall₂ (fun t E => ∀ S, CondExp t.nodes (data.entry i) b.missing S 0 (E S))
            (b.trees.take b.used) games ∧
          (∀ f < data.cols, r[f]? =
            some (games.map fun E => shapleyValue (Finset.range data.cols) E f).sum) ∧
          (∀ f v, data.entry i f = some v → Readable b.missing v →
            b.valuePartialDependence f v = .ok (.fin (base + (games.map fun E => E {f}).sum))) ∧
          r[data.cols]? = some (base + (games.map fun E => E ∅).sum) ∧
          ∀ f v, (∀ t ∈ b.trees, ∀ n ∈ t.nodes, n.isLeaf = false → n.splitFeature ≠ f) →
            Readable b.missing v →
            b.valuePartialDependence f v = .ok (.fin (base + (games.map fun E => E ∅).sum)) := by
  obtain ⟨rows, e, hl, h⟩ := C16_shapley b data hd hE.wf hE.values hE.covers hr hu base hb
  refine ⟨rows, e, hl, fun i r hi => ?_⟩
  obtain ⟨h1, games, h2, h3, h4⟩ := h i r hi
  refine ⟨h1, games, h2, h3, fun f v hf hv => ?_, h4, fun f v hf hv => ?_⟩
  · exact dependence_sum hE hu hb hv h2 {f} fun t ht E hP =>
      C133_known t (hE.wf t ht) (hE.values t ht) (hE.split t ht) (hE.add t ht) b.missing (data.entry i) f v hv
        hf _ (hP {f})
  · exact dependence_sum hE hu hb hv h2 ∅ fun t ht E hP =>
      C133_unknown t (hE.wf t ht) (hE.values t ht) (hE.split t ht) (hE.add t ht) b.missing (data.entry i) f v hv
        (hf t ht) _ (hP ∅)

/-- C133.  Exact arithmetic.  When every tree tests a single feature, the Shapley contribution of a feature
is the partial dependence at the value of the row less the bias, and the prediction is the bias plus these
differences. -/
theorem C133_additive (b : Booster (FX m32) (FX m64)) (hE : b.Explainable)
    (hone : ∀ t ∈ b.trees, ∃ g, t.UsesOnly [g]) (data : Matrix (FX m64))
    (hd : data.Shaped) (hr : ∀ t ∈ b.trees, ∀ i < data.rows, t.RowReadable (data.entry i) b.missing)
    (hb : b.baseScore.IsFin) (out : List (FX m64)) (hout : b.predict data = .ok out) :
    ∃ rows : List (List K), b.predictContributions data .shapley = .ok (rows.flatten.map FX.fin) ∧
      rows.length = data.rows ∧
      ∀ (i : Nat) (r : List K), rows[i]? = some r → ∃ (s : List K) (bias : K), r = s ++ [bias] ∧
        s.length = data.cols ∧ out[i]? = some (.fin (bias + s.sum)) ∧
        (∀ f v x, data.entry i f = some v → Readable b.missing v → s[f]? = some x →
          b.valuePartialDependence f v = .ok (.fin (bias + x))) ∧
        ∀ f v, (∀ t ∈ b.trees, ∀ n ∈ t.nodes, n.isLeaf = false → n.splitFeature ≠ f) →
          Readable b.missing v → b.valuePartialDependence f v = .ok (.fin bias) := by
  have hu := (C19_prediction_iteration b data out).1 hout |>.1
  obtain ⟨base, hbase⟩ := hb
  obtain ⟨rows, e, hl, h⟩ := C133_game b hE data hd hr hu base hbase
  obtain ⟨rows', e', hl', ho⟩ := C15_shapley_sum b data hd hE.wf hE.values hE.covers hr ⟨base, hbase⟩ out hout
  have hsame : rows = rows' := by
    refine flatten_inj (fun r hr => ?_) hl' ?_
    · obtain ⟨i, hi⟩ := List.getElem?_of_mem hr
      exact (h i r hi).1
    · rw [e] at e'
      exact List.map_injective_iff.2 (fun _ _ => FX.fin.inj) (Res.ok.inj e')
  subst hsame
  refine ⟨rows, e, hl, fun i r hi => ?_⟩
  obtain ⟨h1, games, h2, h3, h4, h5, h6⟩ := h i r hi
  obtain ⟨s, bias, rfl⟩ : ∃ s bias, r = s ++ [bias] := by
    rcases List.eq_nil_or_concat r with rfl | ⟨s, bias, rfl⟩
    · simp at h1
    · exact ⟨s, bias, List.concat_eq_append⟩
  have hs : s.length = data.cols := by simpa using h1
  rw [← hs, List.getElem?_append_right (le_refl _)] at h5
  simp only [Nat.sub_self, List.getElem?_cons_zero, Option.some.injEq] at h5
  refine ⟨s, bias, rfl, hs, ?_, fun f v x hf hv hx => ?_, fun f v hf hv => by rw [h5]; exact h6 f v hf hv⟩
  · rw [ho, List.getElem?_map, hi, Option.map_some, List.sum_append, List.sum_singleton, add_comm]
  · have hlt := (List.getElem?_eq_some_iff.1 hx).1
    have h7 := h3 f (by omega)
    rw [List.getElem?_append_left hlt, hx] at h7
    rw [h4 f v hf hv, Option.some.inj h7, h5]
    congr 2
    have key : ∀ (ts : List (Tree (FX m32) (FX m64))) (games : List (Finset Nat → K)),
        (∀ t ∈ ts, t ∈ b.trees) →
        List.Forall₂ (fun t E => ∀ S, CondExp t.nodes (data.entry i) b.missing S 0 (E S)) ts games →
        (games.map fun E => E {f}).sum = (games.map fun E => E ∅).sum +
          (games.map fun E => shapleyValue (Finset.range data.cols) E f).sum := by
      intro ts games hm hg
      induction hg with
      | nil => simp
      | cons a _ ih =>
        obtain ⟨g, hg⟩ := hone _ (hm _ List.mem_cons_self)
        have := shapleyValue_single a hg (N := Finset.range data.cols) (f := f) (Finset.mem_range.2 (by omega))
        simp only [List.map_cons, List.sum_cons]
        rw [ih fun t ht => hm t (by simp [ht]), this]
        ring
    rw [key _ _ (fun t ht => List.mem_of_mem_take ht) h2]
    ring

/-- Fitted models are explainable. -/
theorem PlainFit.explainable {R : Type} {env : Env R (FX m32) (FX m64)} {b b' : Booster (FX m32) (FX m64)}
    {X : Matrix (FX m64)} {y w : List K} {ev : Option (List (EvalSet (FX m64)))} {l1 l2 mds lr : K}
    (h : PlainFit env b X y w ev b' l1 l2 mds lr) : b'.Explainable where
  wf := C03_well_formed env b b' X _ _ ev h.fit
  values := fun t ht => by
    obtain ⟨binned, p, k, cfg, rows, hP⟩ := h.tree_mem ht
    exact hP.values
  covers := fun t ht => by
    obtain ⟨binned, p, k, cfg, rows, hP⟩ := h.tree_mem ht
    obtain ⟨o, gs, nodes, hV⟩ := hP.trained.view hP.treeAt.fitted.fit
    exact hV.coversOk hP.trained hP.params.hess
  split := fun t ht => by
    obtain ⟨binned, p, k, cfg, rows, hP⟩ := h.tree_mem ht
    obtain ⟨o, gs, nodes, hV⟩ := hP.trained.view hP.treeAt.fitted.fit
    exact hV.splitCovers hP.trained hP.params.hess
  add := fun t ht => by
    obtain ⟨binned, p, k, cfg, rows, hP⟩ := h.tree_mem ht
    obtain ⟨o, gs, nodes, hV⟩ := hP.trained.view hP.treeAt.fitted.fit
    exact hV.coversAdd

/-- C133 for fitted models.  Exact arithmetic.  For every model fitted on finite data with `max_depth` at
most 1 and every new matrix with at least the columns of the training data whose values can be read: the
Shapley contribution of a column is the partial dependence at the value of the row less the bias, the bias is
the partial dependence on any column that the training data does not have, and the prediction is the bias
plus the differences. -/
theorem C133_fitted {R : Type} {env : Env R (FX m32) (FX m64)} {b b' : Booster (FX m32) (FX m64)}
    {X : Matrix (FX m64)} {y w : List K} {ev : Option (List (EvalSet (FX m64)))} {l1 l2 mds lr : K}
    (h : PlainFit env b X y w ev b' l1 l2 mds lr) (hdep : b.maxDepth ≤ 1) (data : Matrix (FX m64))
    (hd : data.Shaped) (hcols : X.cols ≤ data.cols) (hread : ∀ v ∈ data.data, Readable b.missing v)
    (out : List (FX m64)) (hout : b'.predict data = .ok out) :
    ∃ rows : List (List K), b'.predictContributions data .shapley = .ok (rows.flatten.map FX.fin) ∧
      rows.length = data.rows ∧
      ∀ (i : Nat) (r : List K), rows[i]? = some r → ∃ (s : List K) (bias : K), r = s ++ [bias] ∧
        s.length = data.cols ∧ out[i]? = some (.fin (bias + s.sum)) ∧
        (∀ f v x, data.entry i f = some v → s[f]? = some x →
          b'.valuePartialDependence f v = .ok (.fin (bias + x))) ∧
        ∀ f v, X.cols ≤ f → Readable b.missing v → b'.valuePartialDependence f v = .ok (.fin bias) := by
  obtain ⟨base, binned, st, stop, N, hT⟩ := Booster.fit_trace h.fit
  have hsame := hT.same N (le_refl _)
  unfold Booster.SameParams at hsame
  rw [hT.last] at hsame
  have hb : b'.baseScore.IsFin := by
    rw [hsame]; exact h.base base hT.base_eq
  have hmiss : b'.missing = b.missing := by rw [hsame]
  obtain ⟨rows, e, hl, H⟩ := C133_additive b' h.explainable (fun t ht => C114_stump h.fit hdep ht) data hd
    (fun t ht i hi n hn hl => by
      obtain ⟨v, hv⟩ := entry_shaped hd hi
        (lt_of_lt_of_le (fit_featuresBelow h.rng h.fit t ht n hn hl) hcols)
      exact ⟨v, hv, by rw [hmiss]; exact hread v (List.mem_of_getElem? hv)⟩) hb out hout
  refine ⟨rows, e, hl, fun i r hi => ?_⟩
  obtain ⟨s, bias, h1, h2, h3, h4, h5⟩ := H i r hi
  rw [hmiss] at h4 h5
  refine ⟨s, bias, h1, h2, h3, fun f v x hf hx => h4 f v x hf (hread v (List.mem_of_getElem? hf)) hx,
    fun f v hf hv => h5 f v (fun t ht n hn hl => ?_) hv⟩
  have := fit_featuresBelow h.rng h.fit t ht n hn hl
  omega

end

/-! ### The hypotheses are met, and the limit is needed -/

theorem exDepth_plain {d : Nat} {b' : Booster Q Q}
    (h : (exDepth d).fit exEnv exAnd [q 0, q 0, q 0, q 4] [q 1, q 1, q 1, q 1] none = .ok (b', .ok ())) :
    PlainFit exEnv (exDepth d) exAnd [0, 0, 0, 4] (List.replicate 4 (1 : ℚ)) none b' 0 0 0 (1/2) where
  sorter := exSorter_ok
  rng := exRng_ok
  shaped := rfl
  ylen := rfl
  wlen := rfl
  max := by
    show ∀ v ∈ exAnd.data, ¬IsMissing FX.nan v → (v ≤ᶠ Fl.maxv) = true
    decide +kernel
  minLeafWeight := by
    show FX.fin 0 ≤ᶠ q 1
    decide
  l1_eq := rfl
  l2_eq := rfl
  mds_eq := rfl
  lr_eq := rfl
  l2_nonneg := le_rfl
  positive := .inr ⟨rfl, 1, by simp, one_pos⟩
  goss := fun h => nomatch h
  exp := fun h => nomatch h
  base := fun s hs => by
    have hs : s = exFresh.baseScore := hs
    rw [hs]; exact ⟨_, rfl⟩
  fit := h

/-- A fit with `max_depth = 1` that splits on both columns: in row 0 of the data each column contributes
-1/2, which is the partial dependence 3/8 less the bias 7/8. -/
example : ∃ b' : Booster Q Q, PlainFit exEnv (exDepth 1) exAnd [0, 0, 0, 4] (List.replicate 4 (1 : ℚ)) none b' 0 0 0
      (1/2) ∧ (exDepth 1).maxDepth ≤ 1 ∧ exAnd.Shaped ∧ (∀ v ∈ exAnd.data, Readable (exDepth 1).missing v) ∧
      b'.predict exAnd = .ok [q (-1/8), q (7/8), q (7/8), q (15/8)] ∧
      b'.valuePartialDependence 0 (q 0) = .ok (q (3/8)) := by
  have : (match (exDepth 1).fit exEnv exAnd [q 0, q 0, q 0, q 4] [q 1, q 1, q 1, q 1] none with
    | .ok (b', .ok ()) => decide (b'.predict exAnd = .ok [q (-1/8), q (7/8), q (7/8), q (15/8)] ∧
        b'.valuePartialDependence 0 (q 0) = .ok (q (3/8)))
    | _ => false) = true := by decide +kernel
  split at this
  · rename_i b' h
    exact ⟨b', exDepth_plain h, le_rfl, rfl, by decide +kernel, (of_decide_eq_true this).1, (of_decide_eq_true this).2⟩
  · cases this

/-- **C133** (the limit is needed).  With `max_depth = 2` the contribution -3/8 of column 0 in row 0 is not the
partial dependence 1/8 less the bias 7/8. -/
theorem C133_interaction : ∃ (b' : Booster Q Q) (rest : List Q),
    PlainFit exEnv (exDepth 2) exAnd [0, 0, 0, 4] (List.replicate 4 (1 : ℚ)) none b' 0 0 0 (1/2) ∧
    exAnd.entry 0 0 = some (q 0) ∧
    b'.predictContributions exAnd .shapley = .ok (q (-3/8) :: q (-3/8) :: q (7/8) :: rest) ∧
    b'.valuePartialDependence 0 (q 0) = .ok (q (1/8)) ∧ q (1/8) ≠ q (7/8) + q (-3/8) := by
  have : (match (exDepth 2).fit exEnv exAnd [q 0, q 0, q 0, q 4] [q 1, q 1, q 1, q 1] none with
    | .ok (b', .ok ()) => decide (b'.predictContributions exAnd .shapley =
        .ok [q (-3/8), q (-3/8), q (7/8), q (-9/8), q (3/8), q (7/8), q (3/8), q (-9/8), q (7/8), q (9/8), q (9/8),
          q (7/8)] ∧ b'.valuePartialDependence 0 (q 0) = .ok (q (1/8)))
    | _ => false) = true := by decide +kernel
  split at this
  · rename_i b' h
    obtain ⟨h1, h2⟩ := of_decide_eq_true this
    exact ⟨b', _, exDepth_plain h, by decide +kernel, h1, h2, by decide +kernel⟩
  · cases this

end Verif
