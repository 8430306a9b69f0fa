import Verif.Spec.Relabel

/-!
# Specification: other units of targets and sample weights
-/

namespace Verif

open scoped Verif

section
variable {F D : Type} [Fl F]

/-- The heap looks at the comparisons of the scores only. -/
def HeapPick.ByOrder (h : HeapPick F D) : Prop :=
  ∀ (n : Nat) (l l' : List (SNode F D)), l.length = l'.length →
    (∀ (i j : Nat) (a b a' b' : SNode F D), l[i]? = some a → l[j]? = some b → l'[i]? = some a' →
      l'[j]? = some b' → Fl.tle a'.gainValue b'.gainValue = Fl.tle a.gainValue b.gainValue) →
    h.pick n l = h.pick n l'

end

/-- What is assumed of the environment: sorting and the heap look at comparisons only. -/
structure Env.Comparing {R F D : Type} [Fl F] [Fl D] (env : Env R F D) : Prop where
  natural : env.sorter.Natural
  heap : ∀ i, (env.heap i).ByOrder

section
variable {K : Type} [Field K] [LinearOrder K] {m32 m64 : Fmt K}

/-- The tree with all values multiplied by `v` and all gains by `g`. -/
def Tree.timesValues (v g : FX m32) (t : Tree (FX m32) (FX m64)) : Tree (FX m32) (FX m64) :=
  { nodes := t.nodes.map fun n => { n with weightValue := v * n.weightValue, splitGain := g * n.splitGain } }

/-- What is fitted when the unit of the targets is changed: base score, values and the metric carry the factor
`c`, gains carry `c²`; `l1` and `max_delta_step` are measured in the unit of the targets and `gamma` in its
square. -/
def Booster.inUnit (c : K) (b : Booster (FX m32) (FX m64)) : Booster (FX m32) (FX m64) :=
  { b with l1 := FX.fin c * b.l1, maxDeltaStep := FX.fin c * b.maxDeltaStep
           gamma := FX.fin (c * c) * b.gamma, baseScore := FX.fin c * b.baseScore
           trees := b.trees.map (Tree.timesValues (FX.fin c) (FX.fin (c * c)))
           evaluationHistory := b.evaluationHistory.map fun h => { h with data := h.data.map (FX.fin c * ·) } }

/-- An evaluation set with the targets multiplied by `c`. -/
def EvalSet.inUnit (c : K) (e : EvalSet (FX m64)) : EvalSet (FX m64) := { e with y := e.y.map (FX.fin c * ·) }

/-- The tree with all covers and gains multiplied by `c`. -/
def Tree.timesCover (c : FX m32) (t : Tree (FX m32) (FX m64)) : Tree (FX m32) (FX m64) :=
  { nodes := t.nodes.map fun n => { n with hessianSum := c * n.hessianSum, splitGain := c * n.splitGain } }

/-- What is fitted when the sample weights are multiplied by `c`: covers and gains carry the factor, and so do
the parameters that are compared with or added to sums of gradients, hessians and gains. -/
def Booster.reweighted (c : K) (b : Booster (FX m32) (FX m64)) : Booster (FX m32) (FX m64) :=
  { b with l1 := FX.fin c * b.l1, l2 := FX.fin c * b.l2, gamma := FX.fin c * b.gamma
           minLeafWeight := FX.fin c * b.minLeafWeight, trees := b.trees.map (Tree.timesCover (FX.fin c)) }

/-- An evaluation set with the weights multiplied by `c`. -/
def EvalSet.reweighted (c : K) (e : EvalSet (FX m64)) : EvalSet (FX m64) :=
  { e with w := e.w.map (FX.fin c * ·) }

/-- The tree with all values negated. -/
def Tree.mirrored (t : Tree (FX m32) (FX m64)) : Tree (FX m32) (FX m64) :=
  { nodes := t.nodes.map fun n => { n with weightValue := -n.weightValue } }

/-- The booster with base score and all values negated. -/
def Booster.mirrored (b : Booster (FX m32) (FX m64)) : Booster (FX m32) (FX m64) :=
  { b with baseScore := -b.baseScore, trees := b.trees.map Tree.mirrored }

/-- An evaluation set with the targets negated. -/
def EvalSet.mirrored (e : EvalSet (FX m64)) : EvalSet (FX m64) := { e with y := e.y.map (- ·) }

/-- An evaluation set with the labels swapped. -/
def EvalSet.swapped (e : EvalSet (FX m64)) : EvalSet (FX m64) := { e with y := e.y.map (1 - ·) }

end

end Verif
