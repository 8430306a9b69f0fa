import Verif.Spec.Shapley

/-!
# The expectations along the path of a row
-/

namespace Verif

section
variable {K : Type} [Field K] [LinearOrder K] {m32 m64 : Fmt K}

/-- `MeanPath nodes row missing i steps`: the row goes from node `i` to a leaf, and `steps` says of each node on the
way which feature it tests and by how much the expectation at the child chosen differs from that at the node, when
nothing is known. -/
inductive MeanPath (nodes : List (Node (FX m32) (FX m64))) (row : Nat → Option (FX m64)) (missing : FX m64) :
    Nat → List (Nat × K) → Prop
  | leaf {i : Nat} {n : Node (FX m32) (FX m64)} : nodes[i]? = some n → n.isLeaf = true →
      MeanPath nodes row missing i []
  | step {i : Nat} {n : Node (FX m32) (FX m64)} {v : FX m64} {a c : K} {steps : List (Nat × K)} :
      nodes[i]? = some n → n.isLeaf = false → row n.splitFeature = some v → Readable missing v →
      CondExp nodes row missing ∅ i a → CondExp nodes row missing ∅ (n.childFor missing v) c →
      MeanPath nodes row missing (n.childFor missing v) steps →
      MeanPath nodes row missing i ((n.splitFeature, c - a) :: steps)

/-- What the nodes that test feature `f` change. -/
def changeBy (f : Nat) (steps : List (Nat × K)) : K := ((steps.filter fun s => s.1 = f).map Prod.snd).sum

end

end Verif
