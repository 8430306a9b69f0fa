import Verif.Proofs.CopiesRows
import Verif.Proofs.Cover
import Verif.Proofs.RelateGrow

/-!
# Copies of rows: growing a tree

Two runs of `Tree::fit` on data where the rows of the second are copies of the rows of the first, with
gradients and hessians that add up, build the same nodes.
-/

namespace Verif

open scoped Verif

set_option linter.unusedSectionVars false

section
variable {F D : Type} [Fl F] [Fl D] [FlCast F D]

/-- Two nodes that differ in their histograms and positions only. -/
def NodeCopy (a b : SNode F D) : Prop :=
  b = { a with histograms := b.histograms, startIdx := b.startIdx, stopIdx := b.stopIdx }

theorem NodeCopy.iff {a b : SNode F D} : NodeCopy a b ↔
    ∃ h i j, b = { a with histograms := h, startIdx := i, stopIdx := j } := by
  constructor
  · intro h; exact ⟨_, _, _, h⟩
  · rintro ⟨h, i, j, rfl⟩; rfl

theorem bestFeatureLoop_copy (s : Splitter F) {a b : SNode F D} (hab : NodeCopy a b) (f : Nat)
    (ct : Option Constraint) (mb : Bin F D) (l : List (Bin F D)) : ∀ i cg ch best,
    bestFeatureLoop s b f ct mb l i cg ch best = bestFeatureLoop s a f ct mb l i cg ch best := by
  obtain ⟨h, u, v, rfl⟩ := NodeCopy.iff.1 hab
  induction l with
  | nil => intro i cg ch best; rfl
  | cons x l ih =>
    intro i cg ch best
    rw [bestFeatureLoop, bestFeatureLoop]
    have : evalCandidate s { a with histograms := h, startIdx := u, stopIdx := v } f ct mb x i cg ch =
      evalCandidate s a f ct mb x i cg ch := rfl
    rw [this]
    congr 1
    funext r
    exact ih _ _ _ _

theorem bestSplit_copy (s : Splitter F) {a b : SNode F D} (hab : NodeCopy a b)
    (hh : ∀ j, b.histograms.getCol j = a.histograms.getCol j) (cols : List Nat) :
    bestSplit s b cols = bestSplit s a cols := by
  have hf : ∀ f i, bestFeatureSplit s b f i = bestFeatureSplit s a f i := by
    intro f i
    unfold bestFeatureSplit
    simp only [bestFeatureLoop_copy s hab, hh]
  unfold bestSplit
  generalize 0 = i, (0 : F) = g, (none : Option (SplitInfo F D)) = best
  induction cols generalizing i g best with
  | nil => rfl
  | cons f l ih => simp only [bestSplitLoop, hf, ih]

/-- Children of copies are copies. -/
theorem kids_same {s : Splitter F} {t t' : TrainData F D} {a b : SNode F D} (hab : NodeCopy a b)
    {rows rows' : List Nat} {info : SplitInfo F D} {kids kids' : List (Kid F D)}
    (hk : kidsOf s t a rows info = .ok kids) (hk' : kidsOf s t' b rows' info = .ok kids')
    (hm : ∀ k k', kids[0]? = some k → kids'[0]? = some k' → (k'.rows = [] ↔ k.rows = [])) :
    List.Forall₂ (fun k k' : Kid F D => NodeCopy k.sn k'.sn) kids kids' := by
  obtain ⟨h, u, v, rfl⟩ := NodeCopy.iff.1 hab
  cases s with
  | imputer p =>
    simp only [kidsOf, imputerKids, Res.bind_eq_ok, Prod.exists, Res.ok.injEq] at hk hk'
    obtain ⟨_, _, _, _, _, _, _, _, _, _, rfl⟩ := hk
    obtain ⟨_, _, _, _, _, _, _, _, _, _, rfl⟩ := hk'
    exact .cons rfl (.cons rfl .nil)
  | branch p =>
    simp only [kidsOf, branchKids, Res.bind_eq_ok, Prod.exists, Res.ok.injEq] at hk hk'
    obtain ⟨isl, minfo, e1, _, _, rws, m, k, _, _, _, _, _, _, _, rfl⟩ := hk
    obtain ⟨isl', minfo', e1', _, _, rws', m', k', _, _, _, _, _, _, _, rfl⟩ := hk'
    rw [e1] at e1'
    simp only [Res.ok.injEq, Prod.mk.injEq] at e1'
    obtain ⟨rfl, rfl⟩ := e1'
    have := hm _ _ rfl rfl
    simp only at this
    have e : decide ((rws'.take m').length = 0) = decide ((rws.take m).length = 0) := by
      rw [decide_eq_decide, List.length_eq_zero_iff, List.length_eq_zero_iff]
      exact this
    rw [e]
    exact .cons rfl (.cons rfl (.cons rfl .nil))

end

section
variable {K : Type} [Field K] [LinearOrder K] [IsStrictOrderedRing K] {m32 m64 : Fmt K}
  [m32.Exact] [m64.Exact]
variable {σ : Nat → Nat} {t t' : TrainData (FX m32) (FX m64)} {gv hv gv' hv' : Nat → K}

/-- Two children that correspond to each other. -/
structure KidCopy (σ : Nat → Nat) (t t' : TrainData (FX m32) (FX m64)) (gv hv gv' hv' : Nat → K)
    (k k' : Kid (FX m32) (FX m64)) : Prop where
  same : NodeCopy k.sn k'.sn
  over : Over σ t.data.rows t'.data.rows k.rows k'.rows
  sums : NodeSums t gv hv k.sn k.rows
  sums' : NodeSums t' gv' hv' k'.sn k'.rows

theorem forall₂_join {α β γ : Type} {R : α → γ → Prop} {R' : β → γ → Prop} {l : List α} {l' : List β}
    {s : List γ} (h : List.Forall₂ R l s) (h' : List.Forall₂ R' l' s) :
    List.Forall₂ (fun a b => ∃ c, R a c ∧ R' b c) l l' := by
  induction h generalizing l' with
  | nil => cases h'; exact .nil
  | cons h1 _ ih =>
    cases h' with
    | cons h2 h3 => exact .cons ⟨_, h1, h2⟩ (ih h3)

/-- Splitting two nodes that correspond to each other makes children that correspond to each other. -/
theorem kids_copy (hC : TrainCopy σ t t' gv hv gv' hv') (hT : TrainOk t gv hv) (hT' : TrainOk t' gv' hv')
    {s : Splitter (FX m32)} (hpos : (0 <ᶠ s.params.minLeafWeight) = true)
    {a b : SNode (FX m32) (FX m64)} (hab : NodeCopy a b) {rows rows' : List Nat}
    (ho : Over σ t.data.rows t'.data.rows rows rows') (hN : NodeSums t gv hv a rows)
    (hN' : NodeSums t' gv' hv' b rows') (hml : a.isMissingLeaf = false)
    {info : SplitInfo (FX m32) (FX m64)} (hb : bestSplit s a t.colIndex = .ok (some info))
    (hb' : bestSplit s b t'.colIndex = .ok (some info))
    {kids kids' : List (Kid (FX m32) (FX m64))} (hk : kidsOf s t a rows info = .ok kids)
    (hk' : kidsOf s t' b rows' info = .ok kids') :
    List.Forall₂ (KidCopy σ t t' gv hv gv' hv') kids kids' := by
  obtain ⟨_, i, hc⟩ := bestSplit_mem hb
  obtain ⟨_, i', hc'⟩ := bestSplit_mem hb'
  have hml' : b.isMissingLeaf = false := by
    obtain ⟨_, _, _, rfl⟩ := NodeCopy.iff.1 hab; exact hml
  obtain ⟨f, _, a1, _, a3, _, _, a6, _, _, mr, a9, a10⟩ :=
    kids_sums hT hpos hN hml (fun r hr => ho.lt r hr) hc hk
  obtain ⟨f', _, b1, _, _, _, _, b6, _, _, mr', b9, b10⟩ :=
    kids_sums hT' hpos hN' hml' (fun r hr => ((ho.mem r).1 hr).1) hc' hk'
  have hi : i' = i := by rw [a6] at b6; omega
  subst hi
  have hs : kidSides s mr' = kidSides s mr := by
    cases s with
    | imputer p =>
      have := (a9 p rfl).symm.trans (b9 p rfl)
      simp only [Res.ok.injEq] at this
      rw [this]
    | branch p => rfl
  rw [hs] at b10
  have hf := hC.bins _ a3 f f' a1 b1
  have hj : List.Forall₂ (fun k k' : Kid (FX m32) (FX m64) =>
      Over σ t.data.rows t'.data.rows k.rows k'.rows ∧ NodeSums t gv hv k.sn k.rows ∧
        NodeSums t' gv' hv' k'.sn k'.rows) kids kids' := by
    refine (forall₂_join a10 b10).imp ?_
    rintro k k' ⟨sides, ⟨p1, p2⟩, p3, p4⟩
    refine ⟨?_, p2, p4⟩
    refine Over.perm ?_ p1 p3
    exact ho.filter fun r' hr' => by
      rw [List.getD_eq_getElem?_getD, List.getD_eq_getElem?_getD, hf r' hr']
  have hsame := kids_same hab hk hk' (by
    intro k k' h1 h2
    cases hj with
    | nil => simp at h1
    | cons h _ =>
      simp only [List.getElem?_cons_zero, Option.some.injEq] at h1 h2
      subst h1; subst h2
      exact h.1.nil_iff hC.onto)
  have := List.forall₂_iff_zip.1 hj
  have h2 := List.forall₂_iff_zip.1 hsame
  refine List.forall₂_iff_zip.2 ⟨this.1, fun hm => ?_⟩
  obtain ⟨c1, c2, c3⟩ := this.2 hm
  exact ⟨h2.2 hm, c1, c2, c3⟩

/-- Two open nodes that correspond to each other. -/
structure OpenCopy (σ : Nat → Nat) (t t' : TrainData (FX m32) (FX m64)) (gv hv gv' hv' : Nat → K)
    (index index' : List Nat) (q q' : SNode (FX m32) (FX m64)) : Prop where
  same : NodeCopy q q'
  rows : ∃ rows rows', slice index q.startIdx q.stopIdx = .ok rows ∧
    slice index' q'.startIdx q'.stopIdx = .ok rows' ∧ Over σ t.data.rows t'.data.rows rows rows' ∧
    NodeSums t gv hv q rows ∧ NodeSums t' gv' hv' q' rows'

/-- Two states of the loop that correspond to each other. -/
structure GrowCopy (σ : Nat → Nat) (t t' : TrainData (FX m32) (FX m64)) (gv hv gv' hv' : Nat → K)
    (s s' : GrowState (FX m32) (FX m64)) : Prop where
  nodes : s'.nodes = s.nodes
  nLeaves : s'.nLeaves = s.nLeaves
  nNodes : s'.nNodes = s.nNodes
  step : s'.step = s.step
  queue : List.Forall₂ (OpenCopy σ t t' gv hv gv' hv' s.index s'.index) s.queue s'.queue

/-- Two configurations that differ in the training data. -/
structure CfgCopy (σ : Nat → Nat) (c c' : GrowCfg (FX m32) (FX m64)) (gv hv gv' hv' : Nat → K) :
    Prop where
  splitter : c'.splitter = c.splitter
  maxLeaves : c'.maxLeaves = c.maxLeaves
  maxDepth : c'.maxDepth = c.maxDepth
  policy : c'.policy = c.policy
  heap : c'.heap = c.heap
  byScore : c.heap.ByScore
  train : TrainCopy σ c.train c'.train gv hv gv' hv'
  ok : TrainOk c.train gv hv
  ok' : TrainOk c'.train gv' hv'
  pos : (0 <ᶠ c.splitter.params.minLeafWeight) = true

variable {c c' : GrowCfg (FX m32) (FX m64)}

theorem popNode_copy {hp : HeapPick (FX m32) (FX m64)} (hh : hp.ByScore) (pol : GrowPolicy) (n : Nat)
    {R : SNode (FX m32) (FX m64) → SNode (FX m32) (FX m64) → Prop}
    (hR : ∀ a b, R a b → a.gainValue = b.gainValue)
    {q q' : List (SNode (FX m32) (FX m64))} (h : List.Forall₂ R q q') :
    Res.Rel (fun r r' => R r.1 r'.1 ∧ List.Forall₂ R r.2 r'.2) (popNode hp pol n q)
      (popNode hp pol n q') := by
  unfold popNode
  cases pol with
  | depthWise =>
    dsimp only
    rw [List.getLast?_eq_getElem?, List.getLast?_eq_getElem?, ← h.length_eq]
    refine (idx_sim h (q.length - 1)).bind fun a b _ _ hab => ?_
    exact ⟨hab, forall₂_dropLast h⟩
  | lossGuide =>
    dsimp only
    have e : hp.pick n q' = hp.pick n q := by
      apply hh
      clear hh
      induction h with
      | nil => rfl
      | cons h1 _ ih => simp [ih, hR _ _ h1]
    rw [e]
    refine (idx_sim h _).bind fun a b _ _ hab => ?_
    exact ⟨hab, forall₂_eraseIdx h _⟩

theorem Res.Rel.ok_ok {α β : Type} {R : α → β → Prop} {x : Res α} {y : Res β} (h : Res.Rel R x y) {a : α}
    {b : β} (hx : x = .ok a) (hy : y = .ok b) : R a b := by subst hx; subst hy; exact h

theorem forall₂_mem {α β : Type} {R S : α → β → Prop} {l : List α} {l' : List β}
    (h : List.Forall₂ R l l') (hi : ∀ a ∈ l, ∀ b ∈ l', R a b → S a b) : List.Forall₂ S l l' := by
  induction h with
  | nil => exact .nil
  | cons h1 _ ih =>
    exact .cons (hi _ (by simp) _ (by simp) h1)
      (ih fun a ha b hb => hi a (List.mem_cons_of_mem _ ha) b (List.mem_cons_of_mem _ hb))

theorem numberKids_copy {R : Kid (FX m32) (FX m64) → Kid (FX m32) (FX m64) → Prop}
    {S : SNode (FX m32) (FX m64) → SNode (FX m32) (FX m64) → Prop}
    {kids kids' : List (Kid (FX m32) (FX m64))} (h : List.Forall₂ R kids kids')
    (hS : ∀ k ∈ kids, ∀ k' ∈ kids', ∀ n, R k k' → S { k.sn with num := n } { k'.sn with num := n }) :
    ∀ n, List.Forall₂ S (numberKids n kids) (numberKids n kids') := by
  induction h with
  | nil => intro n; exact .nil
  | cons h1 _ ih =>
    intro n
    exact .cons (hS _ (by simp) _ (by simp) n h1)
      (ih (fun a ha b hb => hS a (List.mem_cons_of_mem _ ha) b (List.mem_cons_of_mem _ hb)) _)

theorem forall₂_filter_same {α β : Type} {R : α → β → Prop} {p : α → Bool} {p' : β → Bool} {l : List α}
    {l' : List β} (h : List.Forall₂ R l l') (hp : ∀ a b, R a b → p' b = p a) :
    List.Forall₂ R (l.filter p) (l'.filter p') := by
  induction h with
  | nil => exact .nil
  | cons h1 _ ih =>
    rw [List.filter_cons, List.filter_cons, hp _ _ h1]
    split
    · exact .cons h1 ih
    · exact ih

/-- One iteration. -/
theorem growStep_copy (hC : CfgCopy σ c c' gv hv gv' hv') {root root' : SNode (FX m32) (FX m64)}
    {i0 i0' : List Nat} {s s' r r' : GrowState (FX m32) (FX m64)} {gs gs' : List (Ghost (FX m32) (FX m64))}
    (hI : Inv c root i0 s gs) (hI' : Inv c' root' i0' s' gs')
    (h : GrowCopy σ c.train c'.train gv hv gv' hv' s s') (e : growStep c s = .ok r)
    (e' : growStep c' s' = .ok r') : GrowCopy σ c.train c'.train gv hv gv' hv' r r' := by
  obtain ⟨node, q, hpop, hcase, hst⟩ := growStep_ok e
  obtain ⟨node', q', hpop', hcase', hst'⟩ := growStep_ok e'
  rw [hC.heap, hC.policy, h.step] at hpop'
  obtain ⟨hnode, hq⟩ := (popNode_copy hC.byScore c.policy s.step (fun a b hab => by
    obtain ⟨_, _, _, rfl⟩ := NodeCopy.iff.1 (OpenCopy.same hab); rfl) h.queue).ok_ok hpop hpop'
  dsimp only at hnode hq
  obtain ⟨hp, hsub⟩ := popNode_ok hpop
  rw [← h.step, ← hC.policy, ← hC.heap] at hpop'
  obtain ⟨hp', hsub'⟩ := popNode_ok hpop'
  obtain ⟨rows, rows', s1, s2, ho, hN, hN'⟩ := hnode.rows
  obtain ⟨g, _, hgs, _, hml, _⟩ := hI.queue node (hp.mem_iff.2 (by simp))
  have hdepth : node'.depth = node.depth := by
    obtain ⟨_, _, _, e⟩ := NodeCopy.iff.1 hnode.same; rw [e]
  have hnum : node'.num = node.num := by
    obtain ⟨_, _, _, e⟩ := NodeCopy.iff.1 hnode.same; rw [e]
  have hml' : node'.isMissingLeaf = false := by
    obtain ⟨_, _, _, e⟩ := NodeCopy.iff.1 hnode.same; rw [e]; exact hml
  have hb : bestSplit c'.splitter node' c'.train.colIndex =
      bestSplit c.splitter node c.train.colIndex := by
    rw [hC.splitter, hC.train.cols]
    exact bestSplit_copy _ hnode.same (hC.train.hist ho (hN.hist hml) (hN'.hist hml')) _
  have hpos := hI.pos
  rcases hcase with ⟨a1, a2, a3, a4, a5, a6⟩ | ⟨a0, info, rws, kids, n1, n, b1, b2, b3, b4, b5, b6, b7⟩
  · rcases hcase' with ⟨a1', a2', a3', a4', a5', a6'⟩ | ⟨a0', info', _, _, _, _, b1', _⟩
    · refine ⟨by rw [a1, a1', h.nodes], ?_, by rw [a4, a4', h.nNodes], by rw [hst, hst', h.step], ?_⟩
      · have := h.nLeaves; omega
      · rw [a3, a3', a2, a2']; exact hq
    · rcases a6 with a6 | a6
      · rw [hC.maxDepth] at a0'; omega
      · rw [hb, a6] at b1'; cases b1'
  · rcases hcase' with ⟨a1', a2', a3', a4', a5', a6'⟩ |
      ⟨a0', info', rws', kids', n1', n', b1', b2', b3', b4', b5', b6', b7'⟩
    · rcases a6' with a6 | a6
      · rw [hC.maxDepth] at a6; omega
      · rw [hb, b1] at a6; cases a6
    · have hi : info' = info := by rw [hb, b1] at b1'; cases b1'; rfl
      subst hi
      rw [hC.splitter] at b1' b2' b4'
      have hrw := b2.slice_eq; rw [s1] at hrw; cases hrw
      have hrw := b2'.slice_eq; rw [s2] at hrw; cases hrw
      have hkids := kids_copy hC.train hC.ok hC.ok' hC.pos hnode.same ho hN hN' hml b1 b1' b2.kids_eq
        b2'.kids_eq
      have hlen := hkids.length_eq
      have hap := (List.Perm.pairwise_iff (fun {a b} hab => ⟨hab.1.symm, hab.2.symm⟩) hp).1 hI.apart
      have hap' := (List.Perm.pairwise_iff (fun {a b} hab => ⟨hab.1.symm, hab.2.symm⟩) hp').1 hI'.apart
      rw [List.pairwise_cons] at hap hap'
      rw [h.nNodes] at b2' b4' b5' b7'
      have hnn : n' = n := by
        rw [h.nodes, hnum, b3] at b3'; cases b3'; rfl
      subst hnn
      refine ⟨?_, by rw [b6, b6', h.nLeaves, hlen], by rw [b7, b7', hlen], by rw [hst, hst', h.step], ?_⟩
      · rw [b4, b4', h.nodes, hnum, b2.node_eq, b2'.node_eq]
        have e1 : n'.makeParentNode (c.splitter.parentNode node' info' s.nNodes) =
            n'.makeParentNode (c.splitter.parentNode node info' s.nNodes) := by
          obtain ⟨_, _, _, e⟩ := NodeCopy.iff.1 hnode.same; rw [e]; rfl
        rw [e1]
        congr 1
        clear b4 b4' b5 b5' b6 b6' b7 b7' b2 b2' hlen
        generalize s.nNodes = k
        induction hkids generalizing k with
        | nil => rfl
        | @cons x y _ _ hxy _ ih =>
          simp only [numberKids, List.map_cons]
          rw [ih]
          congr 1
          obtain ⟨_, _, _, e⟩ := NodeCopy.iff.1 hxy.same; rw [e]; rfl
      · rw [b5, b5']
        refine List.rel_append ?_ ?_
        · refine List.rel_reverse ?_
          refine forall₂_filter_same (numberKids_copy hkids ?_ _) ?_
          · intro k hk k' hk' m hkk
            obtain ⟨j, hj⟩ := List.mem_iff_getElem?.1 hk
            obtain ⟨j', hj'⟩ := List.mem_iff_getElem?.1 hk'
            refine ⟨?_, k.rows, k'.rows, b2.kid_slice hj, b2'.kid_slice hj', hkk.over, ?_, ?_⟩
            · obtain ⟨_, _, _, e⟩ := NodeCopy.iff.1 hkk.same
              rw [e]; rfl
            · exact ⟨hkk.sums.grad, hkk.sums.hess, hkk.sums.hist⟩
            · exact ⟨hkk.sums'.grad, hkk.sums'.hess, hkk.sums'.hist⟩
          · intro a b hab
            obtain ⟨_, _, _, rfl⟩ := NodeCopy.iff.1 hab.same; rfl
        · refine forall₂_mem hq fun x hx y hy hxy => ?_
          obtain ⟨u, u', d1, d2, d3⟩ := hxy.rows
          refine ⟨hxy.same, u, u', ?_, ?_, d3⟩
          · rw [b2.other_slice (hap.1 x hx).2.symm]; exact d1
          · rw [b2'.other_slice (hap'.1 y hy).2.symm]; exact d2

theorem growDone_copy (hC : CfgCopy σ c c' gv hv gv' hv') {s s' : GrowState (FX m32) (FX m64)}
    (h : GrowCopy σ c.train c'.train gv hv gv' hv' s s') : growDone c' s' = growDone c s := by
  unfold growDone
  rw [hC.maxLeaves, h.nLeaves]
  have : s'.queue.isEmpty = s.queue.isEmpty := by
    have := h.queue.length_eq
    cases hq : s.queue <;> cases hq' : s'.queue <;> simp_all
  rw [this]; rfl

/-- The loop. -/
theorem growLoop_copy (hC : CfgCopy σ c c' gv hv gv' hv') {root root' : SNode (FX m32) (FX m64)}
    {i0 i0' : List Nat} : ∀ n {s s' r r' : GrowState (FX m32) (FX m64)}
    {gs gs' : List (Ghost (FX m32) (FX m64))}, Inv c root i0 s gs → Inv c' root' i0' s' gs' →
    GrowCopy σ c.train c'.train gv hv gv' hv' s s' → growLoop c n s = .ok r →
    growLoop c' n s' = .ok r' → r'.nodes = r.nodes := by
  intro n
  induction n with
  | zero =>
    intro s s' r r' gs gs' _ _ h e e'
    simp only [growLoop] at e e'
    split at e
    · split at e'
      · cases e; cases e'; exact h.nodes
      · cases e'
    · cases e
  | succ n ih =>
    intro s s' r r' gs gs' hI hI' h e e'
    simp only [growLoop] at e e'
    rw [growDone_copy hC h] at e'
    split at e
    · rename_i hd
      rw [if_pos hd] at e'
      cases e; cases e'; exact h.nodes
    · rename_i hd
      rw [if_neg hd] at e'
      rw [Res.bind_eq_ok] at e e'
      obtain ⟨s1, e1, e⟩ := e
      obtain ⟨s1', e1', e'⟩ := e'
      have hstep := growStep_copy hC hI hI' h e1 e1'
      have g1 : ∃ gs, Inv c root i0 s1 gs := by
        obtain ⟨node, queue, hpop, hc, _⟩ := growStep_ok e1
        rcases hc with ⟨a1, a2, a3, a4, a5, a6⟩ | ⟨hdp, info, rows, kids, node', nn, b1, b2, b3, b4, b5,
          b6, b7⟩
        · exact ⟨_, hI.leaf hpop a1 a2 a3 a4 a5 a6⟩
        · exact hI.split (by simpa using hd) hpop hdp b1 b2 b3 b4 b5 b6 b7
      have g2 : ∃ gs, Inv c' root' i0' s1' gs := by
        rw [← growDone_copy hC h] at hd
        obtain ⟨node, queue, hpop, hc, _⟩ := growStep_ok e1'
        rcases hc with ⟨a1, a2, a3, a4, a5, a6⟩ | ⟨hdp, info, rows, kids, node', nn, b1, b2, b3, b4, b5,
          b6, b7⟩
        · exact ⟨_, hI'.leaf hpop a1 a2 a3 a4 a5 a6⟩
        · exact hI'.split (by simpa using hd) hpop hdp b1 b2 b3 b4 b5 b6 b7
      obtain ⟨_, g1⟩ := g1
      obtain ⟨_, g2⟩ := g2
      exact ih g1 g2 hstep e e'

/-- **Growing on copies of rows.** -/
theorem treeFit_copy (hC : CfgCopy σ c c' gv hv gv' hv')
    (hg : c.train.grad.length = c.train.data.rows) (hh : c.train.hess.length = c.train.data.rows)
    (hg' : c'.train.grad.length = c'.train.data.rows) (hh' : c'.train.hess.length = c'.train.data.rows)
    {r r' : Tree (FX m32) (FX m64)}
    (e : Tree.fit c .none (List.range c.train.data.rows) = .ok r)
    (e' : Tree.fit c' .none (List.range c'.train.data.rows) = .ok r') : r' = r := by
  simp only [Tree.fit, Res.bind_eq_ok, Res.ok.injEq] at e e'
  obtain ⟨s0, e0, s1, e1, nodes, e2, rfl⟩ := e
  obtain ⟨s0', e0', s1', e1', nodes', e2', rfl⟩ := e'
  obtain ⟨_, _, _, _, _, _, gs, hI⟩ := growInit_inv e0
  obtain ⟨_, _, _, _, _, _, gs', hI'⟩ := growInit_inv e0'
  have hst : GrowCopy σ c.train c'.train gv hv gv' hv' s0 s0' := by
    simp only [growInit, Res.bind_eq_ok, Prod.exists, Res.ok.injEq] at e0 e0'
    obtain ⟨g, h, so, c1, hi, c2, rfl⟩ := e0
    obtain ⟨g', h', so', c1', hi', c2', rfl⟩ := e0'
    have hN := root_sums hC.ok (fun _ => ⟨by rw [hg], by rw [hg, hh]⟩) c1 c2 c.splitter.params
      (List.range c.train.data.rows).length
    have hN' := root_sums hC.ok' (fun _ => ⟨by rw [hg'], by rw [hg', hh']⟩) c1' c2' c'.splitter.params
      (List.range c'.train.data.rows).length
    have ho := Over.range hC.train.lt
    have e1 : g' = g := by
      have h1 := hN.grad
      have h2 := hN'.grad
      rw [show rowSum gv' _ = rowSum gv _ from ho.sum hC.train.grad] at h2
      exact h2.trans h1.symm
    have e2 : h' = h := by
      have h1 := hN.hess
      have h2 := hN'.hess
      rw [show rowSum hv' _ = rowSum hv _ from ho.sum hC.train.hess] at h2
      exact h2.trans h1.symm
    subst e1; subst e2
    have hsp := hC.splitter
    refine ⟨?_, rfl, rfl, rfl, .cons ⟨?_, _, _, ?_, ?_, ho, hN, hN'⟩ .nil⟩
    · simp only [hsp]; rfl
    · simp only [hsp]; rfl
    · rw [slice_ok_iff]; exact ⟨Nat.zero_le _, le_refl _, by simp [SNode.new]⟩
    · rw [slice_ok_iff]; exact ⟨Nat.zero_le _, le_refl _, by simp [SNode.new]⟩
  have hfuel : growFuel c' = growFuel c := by unfold growFuel; rw [hC.maxLeaves]
  rw [hfuel] at e1'
  have := growLoop_copy hC _ hI hI' hst e1 e1'
  rw [this, hC.splitter, e2] at e2'
  cases e2'; rfl

end

end Verif
