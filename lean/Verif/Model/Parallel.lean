import Verif.Model.Booster

/-!
# Parallel execution (rayon)

Two shapes occur in the code.

* Indexed work: each task owns one slot of the output (`par_iter().map().collect()` on an indexed
  iterator, `par_chunks_mut`).  A task is a sequence of steps on its own slot; a run of the pool is an
  arbitrary interleaving of the steps of all tasks, given as the list of slot numbers in the order in
  which their steps happen.
* Divide and conquer: the items are split into contiguous pieces, each processed sequentially, and
  neighbouring results are combined (`flat_map().collect()`, `sum()`).  A run is a binary tree of
  pieces.
-/

namespace Verif

open scoped Verif

section
variable {F D : Type} [Fl F] [Fl D] [FlCast F D]

/-- One step of the task owning slot `i`. -/
def slotStep {σ : Type} (step : Nat → σ → Res σ) (slots : List σ) (i : Nat) : Res (List σ) := do
  let s ← idx slots i
  let s' ← step i s
  .ok (slots.set i s')

/-- Interleaved execution: the steps happen in the order of `sched`. -/
def runSlots {σ : Type} (step : Nat → σ → Res σ) (sched : List Nat) (slots : List σ) :
    Res (List σ) :=
  Res.foldM' (slotStep step) slots sched

/-- A slot of a `map`: not yet run, or the result. -/
def parMap {α β : Type} (sched : List Nat) (f : α → Res β) (l : List α) : Res (List β) := do
  let slots ← runSlots (fun i _ => do
    let a ← idx l i
    let b ← f a
    .ok (some b)) sched (List.replicate l.length none)
  Res.mapM' Res.ofOption slots

omit [Fl F] in
/-- `Tree::predict` with `parallel = true` (src/tree.rs 420-440). -/
def Tree.predictPar (sched : List Nat) (t : Tree F D) (data : Matrix D) (missing : D) :
    Res (List D) :=
  parMap sched (fun i => do
    let n ← t.predictLeaf data i missing
    .ok (up n.weightValue)) data.index

omit [Fl F] in
/-- `predict` with `parallel = true` (src/gradientbooster.rs 733-744); one schedule per tree. -/
def Booster.predictPar (sched : Tree F D → List Nat) (b : Booster F D) (data : Matrix D) :
    Res (List D) := do
  let ts ← b.predictionTrees
  Res.foldM' (fun (acc : List D) (t : Tree F D) => do
    let p ← t.predictPar (sched t) data b.missing
    .ok (addPreds acc p)) (List.replicate data.rows b.baseScore) ts

omit [Fl F] [FlCast F D] in
/-- `predict_leaf_indices` (src/tree.rs 442-447, src/gradientbooster.rs 747-752), which always runs in
parallel; one schedule per tree. -/
def Booster.predictLeafIndicesPar (sched : Tree F D → List Nat) (b : Booster F D) (data : Matrix D) :
    Res (List Nat) := do
  let ts ← b.predictionTrees
  let ls ← Res.mapM' (fun t => parMap (sched t) (fun i => do
    let n ← t.predictLeaf data i b.missing
    .ok n.num) data.index) ts
  .ok ls.flatten

/-- State of the task of one row in `predict_contributions`: the number of trees done, its chunk of
the buffer and the running log odds (used by ProbabilityChange only). -/
structure ContribTask (D : Type) where
  /-- trees done -/
  done : Nat
  /-- chunk of the buffer -/
  chunk : List D
  /-- running log odds -/
  acc : D

/-- One step of the task of a row: the next tree (src/gradientbooster.rs 813-818, 875-883, 919-931).
`ws` are the average leaf weights per tree. -/
def contribStep (b : Booster F D) (ts : List (Tree F D)) (ws : List (List D))
    (m : ContributionsMethod) (data : Matrix D) (row : Nat) (s : ContribTask D) :
    Res (ContribTask D) := do
  let t ← idx ts s.done
  let r ← data.getRow row
  match m with
  | .average => do
    let w ← idx ws s.done
    let c ← t.contribAverage r s.chunk w b.missing
    .ok { s with done := s.done + 1, chunk := c }
  | .probabilityChange => do
    let (c, acc) ← t.contribProb r s.chunk b.missing s.acc
    .ok { done := s.done + 1, chunk := c, acc }
  | m => do
    let c ← rowPredFn m t r s.chunk b.missing
    .ok { s with done := s.done + 1, chunk := c }

/-- `predict_contributions` with `parallel = true` (src/gradientbooster.rs 755-951): `wsched` is the
schedule of the average leaf weights, `sched` the interleaving of the row tasks. -/
def Booster.contribRowsPar (wsched sched : List Nat) (b : Booster F D) (data : Matrix D)
    (m : ContributionsMethod) : Res (List (List D)) := do
  if m = .probabilityChange ∧ b.objectiveType ≠ .logLoss then Res.panic else
  let ts ← b.predictionTrees
  let ws ← if m = .average then parMap wsched Tree.distributeLeafWeights ts else Res.ok []
  let bias := if m = .probabilityChange then odds b.baseScore else b.baseScore
  let slots ← runSlots (contribStep b ts ws m data) sched
    (List.replicate data.rows
      { done := 0, chunk := initContribs data.cols bias, acc := b.baseScore })
  .ok (slots.map ContribTask.chunk)

/-- Division of the items into contiguous pieces. -/
inductive SplitTree (α : Type) where
  | leaf (l : List α)
  | node (a b : SplitTree α)

/-- The items of all pieces in order. -/
def SplitTree.items {α : Type} : SplitTree α → List α
  | leaf l => l
  | node a b => a.items ++ b.items

/-- `par_iter().flat_map(f).collect()`: pieces are processed sequentially, results of neighbours are
appended. -/
def SplitTree.flatMap {α β : Type} (f : α → Res (List β)) : SplitTree α → Res (List β)
  | leaf l => do
    let r ← Res.mapM' f l
    .ok r.flatten
  | node a b => do
    let x ← a.flatMap f
    let y ← b.flatMap f
    .ok (x ++ y)

omit [Fl F] [FlCast F D] in
/-- `par_iter().sum()`: every piece is summed from zero, neighbouring sums are added from zero. -/
def SplitTree.sum : SplitTree D → D
  | leaf l => l.foldl (· + ·) 0
  | node a b => 0 + a.sum + b.sum

omit [Fl F] in
/-- `HistogramMatrix::new` with `parallel = true` (src/histogram.rs 149-161); `tree` divides
`col_index`. -/
def histogramMatrixPar (tree : SplitTree Nat) (data : Matrix Nat) (cuts : JaggedMatrix D)
    (grad hess : List F) (index colIndex : List Nat) (sort : Bool) :
    Res (JaggedMatrix (Bin F D)) := do
  let (sg, sh) ←
    if sort then do
      let g ← Res.mapM' (idx grad) index
      let h ← Res.mapM' (idx hess) index
      pure (g, h)
    else pure (grad, hess)
  let hists ← tree.flatMap (fun col => do
    let f ← data.getCol col
    let c ← cuts.getCol col
    createFeatureHistogram f c sg sh index)
  let ends ← if colIndex.length = data.cols then pure cuts.ends else scanEnds cuts 0 colIndex
  let n := if colIndex.length = data.cols then cuts.nRecords else ends.sum
  .ok { data := hists, ends, cols := colIndex.length, nRecords := n }

/-- `value_partial_dependence` with `parallel = true` (src/gradientbooster.rs 958-971): `tree` divides
the values of the trees. -/
def Booster.valuePartialDependencePar (divide : List D → SplitTree D) (b : Booster F D)
    (feature : Nat) (value : D) : Res D := do
  let ts ← b.predictionTrees
  let ps ← Res.mapM' (fun t => t.valuePartialDependence feature value b.missing) ts
  .ok ((divide ps).sum + b.baseScore)

end

end Verif
