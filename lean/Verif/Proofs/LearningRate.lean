import Verif.Proofs.RelateGrow
import Verif.Spec.LearningRate

/-!
# Growing a tree with two learning rates
-/

namespace Verif

open scoped Verif

set_option linter.unusedSectionVars false

variable {F D : Type} [Fl F] [Fl D] [FlCast F D]

/-- The splitter with another learning rate. -/
def Splitter.withRate (s : Splitter F) (lr : F) : Splitter F :=
  match s with
  | .imputer p => .imputer { p with learningRate := lr }
  | .branch p => .branch { p with learningRate := lr }

/-- The configuration with another learning rate. -/
def GrowCfg.withRate (c : GrowCfg F D) (lr : F) : GrowCfg F D := { c with splitter := c.splitter.withRate lr }

theorem evalCandidate_rate (s : Splitter F) (lr : F) (node : SNode F D) (f : Nat)
    (ct : Option Constraint) (mb b : Bin F D) (i : Nat) (cg ch : F) :
    evalCandidate (s.withRate lr) node f ct mb b i cg ch = evalCandidate s node f ct mb b i cg ch := by
  cases s <;> rfl

theorem bestFeatureLoop_rate (s : Splitter F) (lr : F) (node : SNode F D) (f : Nat)
    (ct : Option Constraint) (mb : Bin F D) (bs : List (Bin F D)) : ∀ i cg ch best,
    bestFeatureLoop (s.withRate lr) node f ct mb bs i cg ch best =
      bestFeatureLoop s node f ct mb bs i cg ch best := by
  induction bs with
  | nil => intros; rfl
  | cons b bs ih =>
    intro i cg ch best
    simp only [bestFeatureLoop, evalCandidate_rate, ih]

theorem bestFeatureSplit_rate (s : Splitter F) (lr : F) (node : SNode F D) (f i : Nat) :
    bestFeatureSplit (s.withRate lr) node f i = bestFeatureSplit s node f i := by
  have : (s.withRate lr).params.getConstraint f = s.params.getConstraint f := by cases s <;> rfl
  simp only [bestFeatureSplit, bestFeatureLoop_rate, this]

theorem bestSplitLoop_rate (s : Splitter F) (lr : F) (node : SNode F D) : ∀ (l : List Nat) i g best,
    bestSplitLoop (s.withRate lr) node l i g best = bestSplitLoop s node l i g best
  | [], _, _, _ => rfl
  | f :: l, i, g, best => by
    simp only [bestSplitLoop, bestFeatureSplit_rate, bestSplitLoop_rate s lr node l]

theorem splitNode_rate (s : Splitter F) (lr : F) (t : TrainData F D) (n : Nat) (node : SNode F D) (index : List Nat) :
    splitNode (s.withRate lr) t n node index = splitNode s t n node index := by
  simp only [splitNode, bestSplit, bestSplitLoop_rate]
  cases s <;> rfl

/-- Two states of the loop. -/
structure GrowRate (P : F → F → Prop) (a b : GrowState F D) : Prop where
  nodes : List.Forall₂ (Node.SameButValue P) a.nodes b.nodes
  index : b.index = a.index
  queue : b.queue = a.queue
  nLeaves : b.nLeaves = a.nLeaves
  nNodes : b.nNodes = a.nNodes
  step : b.step = a.step

variable {P : F → F → Prop}

theorem asNode_rate {lr lr' : F} (hP : ∀ w, P (w * lr) (w * lr')) (n : SNode F D) :
    Node.SameButValue P (n.asNode lr) (n.asNode lr') :=
  ⟨rfl, rfl, rfl, rfl, rfl, rfl, rfl, rfl, rfl, rfl, hP _⟩

theorem addNodes_rate {lr lr' : F} (hP : ∀ w, P (w * lr) (w * lr')) : ∀ (new : List (SNode F D))
    {nodes nodes' : List (Node F D)} (q : List (SNode F D)), List.Forall₂ (Node.SameButValue P) nodes nodes' →
    List.Forall₂ (Node.SameButValue P) (addNodes lr nodes q new).1 (addNodes lr' nodes' q new).1 ∧
      (addNodes lr' nodes' q new).2 = (addNodes lr nodes q new).2
  | [], _, _, _, h => ⟨h, rfl⟩
  | n :: l, nodes, nodes', q, h => by
    unfold addNodes
    exact addNodes_rate hP l _ (List.rel_append h (.cons (asNode_rate hP n) .nil))

variable {c : GrowCfg F D} {lr : F}

theorem params_withRate (s : Splitter F) (lr : F) : (s.withRate lr).params = { s.params with learningRate := lr } := by
  cases s <;> rfl

theorem growStep_rate (hP : ∀ w, P (w * c.splitter.params.learningRate) (w * lr)) {a b : GrowState F D}
    (h : GrowRate P a b) : Res.Rel (GrowRate P) (growStep c a) (growStep (c.withRate lr) b) := by
  unfold growStep
  rw [h.step, h.queue, show (c.withRate lr).heap = c.heap from rfl, show (c.withRate lr).policy = c.policy from rfl,
    show (c.withRate lr).maxDepth = c.maxDepth from rfl, show (c.withRate lr).train = c.train from rfl,
    show (c.withRate lr).splitter = c.splitter.withRate lr from rfl]
  refine (Res.Rel.of_eq rfl).bind fun r r' _ _ hr => ?_
  subst hr
  obtain ⟨node, q⟩ := r
  dsimp only
  rw [h.index, h.nLeaves, h.nNodes, splitNode_rate]
  by_cases hd : c.maxDepth < node.depth + 1
  · rw [if_pos hd, if_pos hd]
    exact ⟨h.nodes, rfl, rfl, rfl, rfl, rfl⟩
  · rw [if_neg hd, if_neg hd]
    refine (Res.Rel.of_eq rfl).bind fun r r' _ _ hr => ?_
    subst hr
    obtain ⟨n1, ix, new⟩ := r
    dsimp only
    by_cases hn : new.length = 0
    · rw [if_pos hn, if_pos hn]
      exact ⟨h.nodes, rfl, rfl, rfl, rfl, rfl⟩
    · rw [if_neg hn, if_neg hn]
      refine (idx_sim h.nodes _).bind fun x x' _ _ hx => ?_
      have hx2 : Node.SameButValue P (x.makeParentNode n1) (x'.makeParentNode n1) :=
        ⟨hx.num, hx.hessianSum, hx.depth, rfl, rfl, rfl, rfl, rfl, rfl, rfl, hx.value⟩
      have := addNodes_rate (lr' := lr) hP new q (forall₂_set h.nodes node.num hx2)
      rw [params_withRate]
      exact ⟨this.1, rfl, this.2, rfl, rfl, rfl⟩

theorem growLoop_rate (hP : ∀ w, P (w * c.splitter.params.learningRate) (w * lr)) : ∀ (n : Nat) {a b : GrowState F D},
    GrowRate P a b → Res.Rel (GrowRate P) (growLoop c n a) (growLoop (c.withRate lr) n b) := by
  have hd : ∀ {a b : GrowState F D}, GrowRate P a b → growDone (c.withRate lr) b = growDone c a := by
    intro a b h
    unfold growDone
    rw [h.queue, h.nLeaves]
    rfl
  intro n
  induction n with
  | zero =>
    intro a b h
    unfold growLoop
    rw [hd h]
    split
    · exact h
    · trivial
  | succ n ih =>
    intro a b h
    unfold growLoop
    rw [hd h]
    split
    · exact h
    · exact (growStep_rate hP h).bind fun a b _ _ hab => ih hab

theorem growInit_rate (hP : ∀ w, P (w * c.splitter.params.learningRate) (w * lr)) (sm : SampleMethod)
    (index : List Nat) : Res.Rel (GrowRate P) (growInit c sm index) (growInit (c.withRate lr) sm index) := by
  unfold growInit
  dsimp only [GrowCfg.withRate]
  rw [params_withRate]
  refine (Res.Rel.of_eq rfl).bind fun r r' _ _ hr => ?_
  subst hr
  obtain ⟨g, h, sort⟩ := r
  dsimp only
  refine (Res.Rel.of_eq rfl).bind fun H H' _ _ hH => ?_
  subst hH
  exact ⟨.cons (asNode_rate hP _) .nil, rfl, rfl, rfl, rfl, rfl⟩

/-- What the averaging of leaves preserves. -/
structure Averages (P : F → F → Prop) (Q : D → D → Prop) : Prop where
  up : ∀ {a b}, P a b → Q (up a) (up b)
  down : ∀ {a b}, Q a b → P (down a) (down b)
  zero : Q 0 0
  avg : ∀ {a a' b b' d d' : D} (x y z : D), Q a a' → Q b b' → Q d d' →
    Q ((a * x + b * y + d * z) / (y + x + z)) ((a' * x + b' * y + d' * z) / (y + x + z))

theorem Node.SameButValue.setWeight {n n' : Node F D} (h : Node.SameButValue P n n') {w w' : F} (hw : P w w') :
    Node.SameButValue P { n with weightValue := w } { n' with weightValue := w' } :=
  ⟨h.num, h.hessianSum, h.depth, h.splitValue, h.splitFeature, h.splitGain, h.missingNode, h.leftChild,
    h.rightChild, h.isLeaf, hw⟩

theorem updateAverage_rate {Q : D → D → Prop} (hA : Averages P Q) : ∀ (fuel : Nat) {nodes nodes' : List (Node F D)}
    (i : Nat), List.Forall₂ (Node.SameButValue P) nodes nodes' →
    Res.Rel (fun r r' => List.Forall₂ (Node.SameButValue P) r.1 r'.1 ∧ Q r.2 r'.2)
      (updateAverage (D := D) fuel nodes i) (updateAverage (D := D) fuel nodes' i)
  | 0, _, _, _, _ => trivial
  | fuel + 1, nodes, nodes', i, h => by
    unfold updateAverage
    refine (idx_sim h i).bind fun n n' _ _ hn => ?_
    rw [hn.isLeaf, hn.rightChild, hn.leftChild, hn.missingNode, hn.num]
    dsimp only
    split
    · exact ⟨h, hA.up hn.value⟩
    · refine (idx_sim h _).bind fun rn rn' _ _ hrn => ?_
      rw [hrn.hessianSum]
      refine (updateAverage_rate hA fuel n.rightChild h).bind fun r r' _ _ hr => ?_
      obtain ⟨ns, ra⟩ := r
      obtain ⟨ns', ra'⟩ := r'
      obtain ⟨h1, e1⟩ := hr
      dsimp only at h1 e1 ⊢
      refine (idx_sim h1 _).bind fun ln ln' _ _ hln => ?_
      rw [hln.hessianSum]
      refine (updateAverage_rate hA fuel n.leftChild h1).bind fun r r' _ _ hr => ?_
      obtain ⟨ns2, la⟩ := r
      obtain ⟨ns2', la'⟩ := r'
      obtain ⟨h2, e2⟩ := hr
      dsimp only at h2 e2 ⊢
      refine (idx_sim h2 _).bind fun mn mn' _ _ hmn => ?_
      rw [hmn.isLeaf, hmn.hessianSum]
      split
      · have hq := hA.avg (up rn.hessianSum) (up ln.hessianSum) 0 e1 e2 hA.zero
        refine ⟨?_, hq⟩
        dsimp only
        exact forall₂_modify (forall₂_modify h2 _ fun a b hab => hab.setWeight (hA.down hq)) _
          fun a b hab => hab.setWeight (hA.down hq)
      · refine (updateAverage_rate hA fuel n.missingNode h2).bind fun r r' _ _ hr => ?_
        obtain ⟨ns3, ma⟩ := r
        obtain ⟨ns3', ma'⟩ := r'
        obtain ⟨h3, e3⟩ := hr
        dsimp only at h3 e3 ⊢
        have hq := hA.avg (up rn.hessianSum) (up ln.hessianSum) (up mn.hessianSum) e1 e2 e3
        exact ⟨forall₂_modify h3 _ fun a b hab => hab.setWeight (hA.down hq), hq⟩

theorem cleanUpSplits_rate {s : Splitter F} {nodes nodes' : List (Node F D)}
    (hA : (∃ p, s = .branch p ∧ p.missingNodeTreatment = .averageLeafWeight) → ∃ Q : D → D → Prop, Averages P Q)
    (h : List.Forall₂ (Node.SameButValue P) nodes nodes') :
    Res.Rel (List.Forall₂ (Node.SameButValue P)) (cleanUpSplits s nodes) (cleanUpSplits (s.withRate lr) nodes') := by
  cases s with
  | imputer p => exact h
  | branch p =>
    unfold cleanUpSplits
    dsimp only [Splitter.withRate]
    split
    · rename_i hm
      obtain ⟨Q, hA⟩ := hA ⟨p, rfl, hm⟩
      rw [← h.length_eq]
      exact (updateAverage_rate hA _ 0 h).bind fun a b _ _ hab => hab.1
    · exact h

/-- The grown trees. -/
theorem treeFit_rate (hP : ∀ w, P (w * c.splitter.params.learningRate) (w * lr))
    (hA : (∃ p, c.splitter = .branch p ∧ p.missingNodeTreatment = .averageLeafWeight) →
      ∃ Q : D → D → Prop, Averages P Q) (sm : SampleMethod) (index : List Nat) :
    Res.Rel (Tree.SameButValues P) (Tree.fit c sm index) (Tree.fit (c.withRate lr) sm index) := by
  unfold Tree.fit
  refine (growInit_rate hP sm index).bind fun s s' _ _ hs => ?_
  rw [show growFuel (c.withRate lr) = growFuel c from rfl]
  refine (growLoop_rate hP _ hs).bind fun s2 s2' _ _ hs2 => ?_
  exact (cleanUpSplits_rate (lr := lr) hA hs2.nodes).bind fun a b _ _ hab => hab

end Verif
