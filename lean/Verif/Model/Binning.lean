import Verif.Model.Utils

/-!
# Binning (`src/binning.rs`) and histograms (`src/histogram.rs`)
-/

namespace Verif

open scoped Verif

section binning
variable {D : Type} [Fl D]

/-- `Vec::dedup` with the float `==` (removes an element equal to its kept predecessor). -/
def dedupF : List D → List D
  | [] => []
  | a :: l => a :: go a l
where
  /-- `a` is the last kept element -/
  go (a : D) : List D → List D
    | [] => []
    | b :: l => if a =ᶠ b then go a l else b :: go b l

/-- `percentiles_or_value` (src/binning.rs 11-23). -/
def percentilesOrValue (S : Sorter) (v sampleWeight pcts : List D) : Res (List D) := do
  let s ← sortPartialCmp S id v
  let vu := dedupF s
  if vu.length ≤ pcts.length + 1 then .ok vu else percentiles S v sampleWeight pcts

/-- The levels `i / nbins` (src/binning.rs 80-85). -/
def binPcts (nbins : Nat) : List D :=
  (List.range nbins).map fun i => Fl.ofNat i / Fl.ofNat nbins

/-- `filter(|(v, _)| !is_missing(v, &missing))` over the zipped column and weights
(src/binning.rs 92-99). -/
def filterMissing (missing : D) : List (D × D) → Res (List (D × D))
  | [] => .ok []
  | (v, w) :: l => do
    let b ← isMissing v missing
    let r ← filterMissing missing l
    .ok (if b then r else (v, w) :: r)

/-- Cut values of one column (src/binning.rs 92-103). -/
def colCuts (S : Sorter) (col sampleWeight : List D) (nbins : Nat) (missing : D) :
    Res (List D) := do
  let kept ← filterMissing missing (col.zip sampleWeight)
  let c ← percentilesOrValue S (kept.map Prod.fst) (kept.map Prod.snd) (binPcts nbins)
  .ok (dedupF (c ++ [Fl.maxv]))

/-- Append the cuts of a column to the jagged matrix (src/binning.rs 109-118). -/
def pushCuts (cuts : JaggedMatrix D) (col : List D) : JaggedMatrix D :=
  let l := col.length
  let e := match cuts.ends.getLast? with
    | some v => v + l
    | none => l
  let ends := cuts.ends ++ [e]
  { data := cuts.data ++ col, ends, cols := ends.length, nRecords := ends.sum }

/-- `bin_matrix_from_cuts` (src/binning.rs 48-66): the column is `i / rows`; `.unwrap()` panics when
the bin does not fit. -/
def binMatrixFromCuts (data : Matrix D) (cuts : JaggedMatrix D) (missing : D) : Res (List Nat) :=
  Res.mapM' (fun (p : D × Nat) => do
    if data.rows = 0 then Res.panic else
    let c ← cuts.getCol (p.2 / data.rows)
    let b ← mapBin c p.1 missing
    Res.ofOption b) data.data.zipIdx

/-- `BinnedData` (src/binning.rs 37-41). -/
structure BinnedData (D : Type) where
  /-- bins, column major -/
  binned : List Nat
  /-- cut values per column -/
  cuts : JaggedMatrix D
  /-- number of cuts per column -/
  nunique : List Nat
  deriving DecidableEq, Repr

/-- `bin_matrix` (src/binning.rs 74-128); it never returns an error value. -/
def binMatrix (S : Sorter) (data : Matrix D) (sampleWeight : List D) (nbins : Nat) (missing : D) :
    Res (BinnedData D) := do
  let cols ← Res.mapM' (fun i => do
    let c ← data.getCol i
    colCuts S c sampleWeight nbins missing) (List.range data.cols)
  let cuts := cols.foldl pushCuts JaggedMatrix.empty
  let binned ← binMatrixFromCuts data cuts missing
  .ok { binned, cuts, nunique := cols.map List.length }

end binning

/-- `Bin` (src/histogram.rs 8-16): sums in `G`, cut value in `D`. -/
structure Bin (G D : Type) where
  /-- sum of gradients -/
  grad : G
  /-- sum of hessians -/
  hess : G
  /-- cut value -/
  cut : D
  deriving DecidableEq, Repr

section hist
variable {F D : Type} [Fl F] [Fl D]

/-- `Bin::new_f64` (src/histogram.rs 57-63). -/
def Bin.new (cut : D) : Bin D D := { grad := 0, hess := 0, cut }

/-- `as_f32_bin` (src/histogram.rs 65-71). -/
def Bin.asF32 [FlCast F D] (b : Bin D D) : Bin F D :=
  { grad := down b.grad, hess := down b.hess, cut := b.cut }

omit [Fl D] in
/-- `Bin::from_parent_child` (src/histogram.rs 29-35). -/
def Bin.fromParentChild (root child : Bin F D) : Bin F D :=
  { grad := root.grad - child.grad, hess := root.hess - child.hess, cut := root.cut }

omit [Fl D] in
/-- `Bin::from_parent_two_children` (src/histogram.rs 39-51). -/
def Bin.fromParentTwoChildren (root c1 c2 : Bin F D) : Bin F D :=
  { grad := root.grad - (c1.grad + c2.grad), hess := root.hess - (c1.hess + c2.hess)
    cut := root.cut }

omit [Fl F] in
/-- One record added to the histogram (src/histogram.rs 99-104); a bin beyond the histogram is
ignored (`get_mut` returns `None`), a row outside of the feature column panics. -/
def histAdd [FlCast F D] (feature : List Nat) (hist : List (Bin D D)) (r : Nat × F × F) :
    Res (List (Bin D D)) := do
  let b ← idx feature r.1
  .ok (hist.modify b fun v =>
    { v with grad := v.grad + (up r.2.1 : D), hess := v.hess + (up r.2.2 : D) })

omit [Fl F] in
/-- `create_feature_histogram` (src/histogram.rs 80-107). -/
def createFeatureHistogram [FlCast F D] (feature : List Nat) (cuts : List D)
    (sortedGrad sortedHess : List F) (index : List Nat) : Res (List (Bin F D)) := do
  if cuts.length = 0 then Res.panic else
  let init := Bin.new Fl.nan :: (cuts.take (cuts.length - 1)).map Bin.new
  let h ← Res.foldM' (histAdd feature) init
    ((index.zip (sortedGrad.zip sortedHess)).map fun p => (p.1, p.2.1, p.2.2))
  .ok (h.map Bin.asF32)

/-- Running ends for sampled columns (`scan`, src/histogram.rs 175-181). -/
def scanEnds {T : Type} (cuts : JaggedMatrix T) : Nat → List Nat → Res (List Nat)
  | _, [] => .ok []
  | s, c :: l => do
    let col ← cuts.getCol c
    let s' := s + col.length
    let r ← scanEnds cuts s' l
    .ok (s' :: r)

omit [Fl F] in
/-- `HistogramMatrix::new` (src/histogram.rs 120-203).  The `parallel` flag selects an indexed
(order preserving) parallel map and is not a parameter here; see `Verif.Model.Parallel`. -/
def histogramMatrix [FlCast F D] (data : Matrix Nat) (cuts : JaggedMatrix D) (grad hess : List F)
    (index colIndex : List Nat) (sort : Bool) : Res (JaggedMatrix (Bin F D)) := do
  let (sg, sh) ←
    if sort then do
      let g ← Res.mapM' (idx grad) index
      let h ← Res.mapM' (idx hess) index
      pure (g, h)
    else pure (grad, hess)
  let hists ← Res.mapM' (fun col => do
    let f ← data.getCol col
    let c ← cuts.getCol col
    createFeatureHistogram f c sg sh index) colIndex
  let ends ← if colIndex.length = data.cols then pure cuts.ends else scanEnds cuts 0 colIndex
  let n := if colIndex.length = data.cols then cuts.nRecords else ends.sum
  .ok { data := hists.flatten, ends, cols := colIndex.length, nRecords := n }

omit [Fl D] in
/-- `HistogramMatrix::from_parent_child` (src/histogram.rs 208-226). -/
def histFromParentChild (root child : JaggedMatrix (Bin F D)) : JaggedMatrix (Bin F D) :=
  { data := List.zipWith Bin.fromParentChild root.data child.data
    ends := child.ends, cols := child.cols, nRecords := child.nRecords }

omit [Fl D] in
/-- `HistogramMatrix::from_parent_two_children` (src/histogram.rs 231-254). -/
def histFromParentTwoChildren (root c1 c2 : JaggedMatrix (Bin F D)) : JaggedMatrix (Bin F D) :=
  { data := List.zipWith (fun r p => Bin.fromParentTwoChildren r p.1 p.2) root.data
      (c1.data.zip c2.data)
    ends := c1.ends, cols := c1.cols, nRecords := c1.nRecords }

end hist

end Verif
