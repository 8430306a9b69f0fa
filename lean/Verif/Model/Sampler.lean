import Verif.Model.Tree
import Mathlib.Data.List.Sort

/-!
# Row and column sampling (`src/sampler.rs`, `src/gradientbooster.rs` 493-509, 586-605)
-/

namespace Verif

open scoped Verif

/-- The random generator (`StdRng`): an arbitrary state machine. -/
structure Rng (R F D : Type) where
  /-- `seed_from_u64` -/
  seed : Nat → R
  /-- `gen_range(0.0..1.0)` for `f32` -/
  genF : R → F × R
  /-- `gen_range(0.0..1.0)` for `f64` -/
  genD : R → D × R
  /-- `choose_multiple(rng, amount)` -/
  choose : R → List Nat → Nat → List Nat × R

/-- What is known about `choose_multiple`: distinct elements, `min amount len` of them. -/
structure Rng.Ok {R F D : Type} (g : Rng R F D) : Prop where
  subperm : ∀ r l n, (g.choose r l n).1.Subperm l
  length : ∀ r l n, (g.choose r l n).1.length = min n l.length

section
variable {R F D : Type} [Fl F] [Fl D] [FlCast F D]

omit [Fl D] [FlCast F D] in
/-- `RandomSampler::sample` (src/sampler.rs 37-55): chosen rows, excluded rows, generator. -/
def randomSample (g : Rng R F D) (subsample : F) : R → List Nat → List Nat × List Nat × R
  | r, [] => ([], [], r)
  | r, i :: l =>
    let (x, r) := g.genF r
    let (c, e, r') := randomSample g subsample r l
    if x <ᶠ subsample then (i :: c, e, r') else (c, i :: e, r')

/-- The loop of `GossSampler::sample` (src/sampler.rs 99-106) over the rows of small gradient:
selected rows, gradients, hessians, generator. -/
def gossLoop (g : Rng R F D) (fact : F) (subsample : D) :
    R → List Nat → List F → List F → Res (List Nat × List F × List F × R)
  | r, [], grad, hess => .ok ([], grad, hess, r)
  | r, i :: l, grad, hess => do
    let (x, r) := g.genD r
    if x <ᶠ subsample then do
      let gi ← idx grad i
      let hi ← idx hess i
      let (u, grad, hess, r) ← gossLoop g fact subsample r l (grad.set i (gi * fact))
        (hess.set i (hi * fact))
      .ok (i :: u, grad, hess, r)
    else gossLoop g fact subsample r l grad hess

/-- `GossSampler::sample` (src/sampler.rs 78-109); `a` is `top_rate`, `b` is `other_rate`.  Returns
the chosen rows, gradients, hessians and generator.  A gradient vector shorter than the index panics
in the comparison (for one row: when it is scaled; the model panics in both cases). -/
def gossSample (S : Sorter) (g : Rng R F D) (a b : D) (r : R) (index : List Nat)
    (grad hess : List F) : Res (List Nat × List F × List F × R) := do
  let n := index.length
  let fact : F := down ((1 - a) / b)
  let topN := Fl.toNat (a * Fl.ofNat n)
  let randN := Fl.toNat (b * Fl.ofNat n)
  let keys ← Res.mapM' (fun i => do
    let x ← idx grad i
    pure (i, Fl.abs x)) (List.range n)
  let sorted := (S.sort (fun p q => Fl.tle q.2 p.2) keys).map Prod.fst
  let used ← slice sorted 0 topN
  let subsample : D := Fl.ofNat randN / (Fl.ofNat n - Fl.ofNat topN)
  let (u, grad, hess, r) ← gossLoop g fact subsample r (sorted.drop topN) grad hess
  .ok (used ++ u, grad, hess, r)

/-- `sample_index` (src/gradientbooster.rs 493-509). -/
def sampleIndex (S : Sorter) (g : Rng R F D) (method : SampleMethod) (subsample : F)
    (topRate otherRate : D) (r : R) (index : List Nat) (grad hess : List F) :
    Res (List Nat × List F × List F × R) :=
  match method with
  | .none => .ok (index, grad, hess, r)
  | .random =>
    let (c, _, r) := randomSample g subsample r index
    .ok (c, grad, hess, r)
  | .goss => gossSample S g topRate otherRate r index grad hess

omit [Fl F] [FlCast F D] in
/-- Column sampling (src/gradientbooster.rs 586-605).  `floor` then `as usize` is the truncating
conversion `toNat` (negative amounts become 0 either way); `v.sort()` sorts numbers, so the result does
not depend on the algorithm. -/
def sampleColumns (g : Rng R F D) (colsample : D) (r : R) (cols : Nat) : List Nat × R :=
  if colsample =ᶠ 1 then (List.range cols, r)
  else
    let (v, r) := g.choose r (List.range cols) (Fl.toNat (Fl.ofNat cols * colsample))
    (v.insertionSort (· ≤ ·), r)

end

end Verif
