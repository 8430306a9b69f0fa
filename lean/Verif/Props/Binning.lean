import Verif.Proofs.Percentile
import Verif.Proofs.Fit
import Verif.Props.Sums
import Verif.Props.Missing
import Verif.Spec.Sorting

/-!
# C28 Binning is order preserving, C29 its resolution and range, C45 weighted percentiles,
C48 NaN in the training data
-/

namespace Verif

open scoped Verif

set_option linter.unusedSectionVars false

section any
variable {D : Type} [Fl D] [Fl.OrdLaws D]

/-- C28.  Whenever binning succeeds (values at most `f64::MAX`), the cuts of every column increase
strictly, end with the value `f64::MAX` and are otherwise values of that column; missing values get
bin 0; and a value `v` that is not missing has a bin below the split bin `k + 1` exactly if `v` is less
than the cut value number `k`.  Any arithmetic with an IEEE comparison. -/
theorem C28_cuts {S : Sorter} (hS : S.Ok) {data : Matrix D} {w : List D} {nbins : Nat} {missing : D}
    {bd : BinnedData D} (hm : data.Shaped) (hw : data.rows ≤ w.length)
    (hmax : ∀ v ∈ data.data, ¬ IsMissing missing v → (v ≤ᶠ Fl.maxv) = true)
    (h : binMatrix S data w nbins missing = .ok bd) (j : Nat) (hj : j < data.cols) :
    ∃ init last, bd.cuts.getCol j = .ok (init ++ [last]) ∧
      (init ++ [last]).Pairwise (fun a b => (a <ᶠ b) = true) ∧ (last =ᶠ Fl.maxv) = true ∧
      (∀ x ∈ init, ∃ i < data.rows, data.entry i j = some x ∧ ¬ IsMissing missing x) ∧
      ∀ i < data.rows, ∀ v, data.entry i j = some v →
        ∃ b, (Matrix.mk bd.binned data.rows data.cols).entry i j = some b ∧ b < 65536 ∧
          (IsMissing missing v → b = 0) ∧
          (¬ IsMissing missing v → ∀ (k : Nat) c, (init ++ [last])[k]? = some c →
            (b < k + 1 ↔ (v <ᶠ c) = true)) := by
  obtain ⟨cutss, hb⟩ := binMatrix_binned hm hw h
  have hjl : j < cutss.length := hb.len ▸ hj
  have hmade := hb.made j _ (List.getElem?_eq_getElem hjl)
  have hcl := Matrix.column_length hm hj
  have hspec := colCuts_spec hS (by rw [hcl]; exact hw) hmade
    (fun v hv => hmax v (Matrix.mem_column hv))
  obtain ⟨init, last, e, hl, hinit⟩ := hspec.last
  have hc : cutss[j]? = some (init ++ [last]) := by rw [List.getElem?_eq_getElem hjl, e]
  have hinc := hspec.increasing
  rw [e] at hinc
  refine ⟨init, last, by rw [hb.jagged.getCol, hc]; rfl, hinc, hl, ?_, ?_⟩
  · intro x hx
    obtain ⟨h1, h2⟩ := mem_present.1 (hinit x hx)
    obtain ⟨i, hi, ei⟩ := List.getElem_of_mem h1
    rw [hcl] at hi
    exact ⟨i, hi, by rw [← Matrix.column_getElem? data hi, List.getElem?_eq_getElem (by rw [hcl]; exact hi), ei], h2⟩
  · intro i hi v hv
    obtain ⟨b, hbin, hmap⟩ := hb.bin i j v _ hi hv hc
    refine ⟨b, hbin, ?_⟩
    by_cases hmi : IsMissing missing v
    · rw [mapBin_of_missing _ hmi] at hmap
      injection hmap with hmap
      injection hmap with hmap
      subst hmap
      exact ⟨by omega, fun _ => rfl, fun h => absurd hmi h⟩
    · have hnum := num_of_not_missing (hb.readable v (List.mem_of_getElem? hv)) hmi
      obtain ⟨k, hk1, hk2, hk3⟩ := mapBin_spec hinc hnum hmi
      rw [hk3] at hmap
      injection hmap with hmap
      split at hmap
      · next hlt =>
        injection hmap with hmap
        subst hmap
        refine ⟨hlt, fun h => absurd h hmi, fun _ q c hq => ?_⟩
        have hcn : isNaN c = false := by
          rcases List.mem_append.1 (List.mem_of_getElem? hq) with h | h
          · obtain ⟨h1, h2⟩ := mem_present.1 (hinit _ h)
            exact num_of_not_missing (hb.readable c (Matrix.mem_column h1)) h2
          · rw [List.mem_singleton.1 h]; exact (Fl.OrdLaws.feq_num _ _ hl).1
        have := hk2 q c hq
        constructor
        · intro hlt
          apply Fl.lt_of_not_le hcn hnum
          cases hle : (c ≤ᶠ v)
          · rfl
          · have := this.1 hle; omega
        · intro hvc
          by_contra hge
          have := this.2 (by omega)
          rw [Fl.not_le_of_lt hvc] at this; cases this
      · cases hmap

/-- If the distinct values of a column fit in the bins, every value is a cut. -/
theorem few_cover {S : Sorter} (hS : S.Ok) {data : Matrix D} {w : List D} {nbins : Nat}
    {missing : D} {bd : BinnedData D} (hm : data.Shaped) (hw : data.rows ≤ w.length)
    (hmax : ∀ v ∈ data.data, ¬ IsMissing missing v → (v ≤ᶠ Fl.maxv) = true)
    {cutss : List (List D)} (hb : Binned data w S nbins missing cutss bd) {j : Nat} (hj : j < data.cols)
    (hfew : ∀ l : List D, l.Pairwise (fun a b => (a <ᶠ b) = true) →
      (∀ x ∈ l, ¬ IsMissing missing x ∧ ∃ i < data.rows, data.entry i j = some x) →
      l.length ≤ nbins + 1) {cuts : List D} (hcj : cutss[j]? = some cuts) :
    ∀ x ∈ data.column j, ¬ IsMissing missing x → ∃ c ∈ cuts, (c =ᶠ x) = true := by
  have hcl := Matrix.column_length hm hj
  have hmade := hb.made j _ hcj
  obtain ⟨h1, ws, c, hws, hc, ec⟩ := colCuts_form (by rw [hcl]; exact hw) hmade
  have hn : ∀ a ∈ present missing (data.column j), isNaN a = false := fun a ha =>
    num_of_not_missing (h1 a (mem_present.1 ha).1) (mem_present.1 ha).2
  obtain ⟨s, k1, k2, k3⟩ := sortPartialCmp_spec hS (id : D → D) _ hn
  unfold percentilesOrValue at hc
  rw [k1, Res.ok_bind] at hc
  simp only at hc
  have hlen : (dedupF s).length ≤ nbins + 1 := by
    refine hfew _ (dedup_increasing k3) fun x hx => ?_
    obtain ⟨g1, g2⟩ := mem_present.1 (k2.mem_iff.1 (dedup_mem hx))
    refine ⟨g2, ?_⟩
    obtain ⟨i, hi, ei⟩ := List.getElem_of_mem g1
    rw [hcl] at hi
    exact ⟨i, hi, by rw [← Matrix.column_getElem? data hi, List.getElem?_eq_getElem (by rw [hcl]; exact hi), ei]⟩
  rw [if_pos (by simpa [binPcts] using hlen)] at hc
  injection hc with hc
  subst hc
  intro x hx hxm
  obtain ⟨y, hy, e⟩ := dedup_cover k3 (fun a ha => hn a (k2.mem_iff.1 ha))
    (k2.mem_iff.2 (mem_present.2 ⟨hx, hxm⟩))
  have hs' : Sorted (dedupF s ++ [Fl.maxv]) := List.pairwise_append.2
    ⟨(dedup_increasing k3).imp fun h => Fl.le_of_lt h, List.pairwise_singleton _ _, fun a ha b hb => by
      rw [List.mem_singleton.1 hb]
      obtain ⟨g1, g2⟩ := mem_present.1 (k2.mem_iff.1 (dedup_mem ha))
      exact hmax a (Matrix.mem_column g1) g2⟩
  have hn' : ∀ a ∈ dedupF s ++ [Fl.maxv], isNaN a = false := by
    intro a ha
    rcases List.mem_append.1 ha with h | h
    · exact hn a (k2.mem_iff.1 (dedup_mem h))
    · rw [List.mem_singleton.1 h]; exact Fl.OrdLaws.maxv_num
  obtain ⟨z, hz, e'⟩ := dedup_cover hs' hn' (List.mem_append_left _ hy)
  rw [ec]
  refine ⟨z, hz, Fl.feq_iff_le.2 ?_⟩
  obtain ⟨a1, a2⟩ := Fl.feq_iff_le.1 e
  obtain ⟨b1, b2⟩ := Fl.feq_iff_le.1 e'
  exact ⟨Fl.le_trans b1 a1, Fl.le_trans a2 b2⟩

/-- An increasing list whose members are equal to members of `c` is no longer than `c`. -/
theorem increasing_length_le {l c : List D} (hl : l.Pairwise fun a b => (a <ᶠ b) = true)
    (h : ∀ x ∈ l, ∃ y ∈ c, (y =ᶠ x) = true) : l.length ≤ c.length := by
  have hg : ∀ x : D, ∃ y, x ∈ l → y ∈ c ∧ (y =ᶠ x) = true := by
    intro x
    by_cases hx : x ∈ l
    · obtain ⟨y, hy, e⟩ := h x hx
      exact ⟨y, fun _ => ⟨hy, e⟩⟩
    · exact ⟨x, fun h => absurd h hx⟩
  choose g hg using hg
  have hnd : (l.map g).Nodup := by
    rw [List.nodup_iff_pairwise_ne, List.pairwise_map]
    refine hl.imp_of_mem fun {a b} ha hb hab e => ?_
    obtain ⟨a1, a2⟩ := Fl.feq_iff_le.1 (hg a ha).2
    obtain ⟨b1, b2⟩ := Fl.feq_iff_le.1 (hg b hb).2
    rw [← e] at b2
    have := Fl.not_lt_of_le (Fl.le_trans b2 a1)
    rw [hab] at this; cases this
  have hsub : l.map g ⊆ c := by
    intro y hy
    obtain ⟨x, hx, rfl⟩ := List.mem_map.1 hy
    exact (hg x hx).1
  have := (List.subperm_of_subset hnd hsub).length_le
  simpa using this

/-- C29, resolution.  If no more than `nbins + 1` distinct values stand in a column, every value has
a bin of its own: values that are not missing get bin 1 or more, and two of them get the same bin only
if they are equal.  (Any arithmetic with an IEEE comparison.) -/
theorem C29_resolution {S : Sorter} (hS : S.Ok) {data : Matrix D} {w : List D} {nbins : Nat}
    {missing : D} {bd : BinnedData D} (hm : data.Shaped) (hw : data.rows ≤ w.length)
    (hmax : ∀ v ∈ data.data, ¬ IsMissing missing v → (v ≤ᶠ Fl.maxv) = true)
    (h : binMatrix S data w nbins missing = .ok bd) (j : Nat) (hj : j < data.cols)
    (hfew : ∀ l : List D, l.Pairwise (fun a b => (a <ᶠ b) = true) →
      (∀ x ∈ l, ¬ IsMissing missing x ∧ ∃ i < data.rows, data.entry i j = some x) →
      l.length ≤ nbins + 1)
    (i : Nat) (hi : i < data.rows) (v : D) (hv : data.entry i j = some v)
    (hvm : ¬ IsMissing missing v) :
    ∃ b, (Matrix.mk bd.binned data.rows data.cols).entry i j = some b ∧ 0 < b ∧
      ∀ i' < data.rows, ∀ v', data.entry i' j = some v' → ¬ IsMissing missing v' →
        (Matrix.mk bd.binned data.rows data.cols).entry i' j = some b → (v =ᶠ v') = true := by
  obtain ⟨cutss, hb⟩ := binMatrix_binned hm hw h
  have hjl : j < cutss.length := hb.len ▸ hj
  have hcj := List.getElem?_eq_getElem hjl
  have hcl := Matrix.column_length hm hj
  have hmade := hb.made j _ hcj
  have hspec := colCuts_spec hS (by rw [hcl]; exact hw) hmade
    (fun v hv => hmax v (Matrix.mem_column hv))
  have hinc := hspec.increasing
  have hcover := few_cover hS hm hw hmax hb hj hfew hcj
  -- the bin of a value that is not missing
  have hbin : ∀ i < data.rows, ∀ v, data.entry i j = some v → ¬ IsMissing missing v →
      ∃ b, (Matrix.mk bd.binned data.rows data.cols).entry i j = some b ∧
        ∀ (q : Nat) a, cutss[j][q]? = some a → ((a ≤ᶠ v) = true ↔ q < b) := by
    intro i hi v hv hvm
    obtain ⟨b, hbin, hmap⟩ := hb.bin i j v _ hi hv hcj
    have hnum := num_of_not_missing (hb.readable v (List.mem_of_getElem? hv)) hvm
    obtain ⟨k, hk1, hk2, hk3⟩ := mapBin_spec hinc hnum hvm
    rw [hk3] at hmap
    injection hmap with hmap
    split at hmap
    · injection hmap with hmap
      subst hmap
      exact ⟨k, hbin, hk2⟩
    · cases hmap
  have hcol : ∀ i < data.rows, ∀ v, data.entry i j = some v → v ∈ data.column j := by
    intro i hi v hv
    rw [← Matrix.column_getElem? data hi] at hv
    exact List.mem_of_getElem? hv
  have hle : ∀ i < data.rows, ∀ v, data.entry i j = some v → ¬ IsMissing missing v →
      ∀ v' b, (∀ (q : Nat) a, cutss[j][q]? = some a → ((a ≤ᶠ v) = true ↔ q < b)) →
      (∀ (q : Nat) a, cutss[j][q]? = some a → ((a ≤ᶠ v') = true ↔ q < b)) → (v ≤ᶠ v') = true := by
    intro i hi v hv hvm v' b h1 h2
    obtain ⟨c, hc, e⟩ := hcover v (hcol i hi v hv) hvm
    obtain ⟨q, hq⟩ := List.getElem?_of_mem hc
    obtain ⟨e1, e2⟩ := Fl.feq_iff_le.1 e
    exact Fl.le_trans e2 ((h2 q c hq).2 ((h1 q c hq).1 e1))
  obtain ⟨b, hb1, hb2⟩ := hbin i hi v hv hvm
  refine ⟨b, hb1, ?_, ?_⟩
  · obtain ⟨c, hc, e⟩ := hcover v (hcol i hi v hv) hvm
    obtain ⟨q, hq⟩ := List.getElem?_of_mem hc
    have := (hb2 q c hq).1 (Fl.feq_iff_le.1 e).1
    omega
  · intro i' hi' v' hv' hvm' he
    obtain ⟨b', hb1', hb2'⟩ := hbin i' hi' v' hv' hvm'
    rw [he] at hb1'
    injection hb1' with hb1'
    subst hb1'
    exact Fl.feq_iff_le.2 ⟨hle i hi v hv hvm v' b hb2 hb2', hle i' hi' v' hv' hvm' v b hb2' hb2⟩

/-- C29, range.  With 1 to 65533 bins, binning a readable matrix never panics: every bin fits in 16
bits. -/
theorem C29_range {S : Sorter} (hS : S.Ok) {data : Matrix D} {w : List D} {nbins : Nat}
    {missing : D} (hm : data.Shaped) (hw : data.rows ≤ w.length)
    (hr : ∀ v ∈ data.data, Readable missing v) (h0 : 1 ≤ nbins) (h1 : nbins ≤ 65533) :
    ∃ bd, binMatrix S data w nbins missing = .ok bd :=
  binMatrix_total hS hm hw hr (by omega) h1

/-- Binning returns a value or panics. -/
theorem binMatrix_ne_diverge (S : Sorter) (data : Matrix D) (w : List D) (nbins : Nat) (missing : D) :
    binMatrix S data w nbins missing ≠ .diverge := by
  unfold binMatrix
  refine Res.bind_ne_diverge (Res.mapM'_ne_diverge fun j _ => ?_) fun cutss => ?_
  · refine Res.bind_ne_diverge ?_ fun c => ?_
    · unfold Matrix.getCol Matrix.getColSlice slice; split <;> simp
    · unfold colCuts
      refine Res.bind_ne_diverge ?_ fun kept => Res.bind_ne_diverge ?_ fun c => by simp
      · generalize c.zip w = l
        induction l with
        | nil => simp [filterMissing]
        | cons p l ih =>
          unfold filterMissing
          refine Res.bind_ne_diverge ?_ fun b => Res.bind_ne_diverge ih fun r => by simp
          rw [isMissing_eq]; split <;> simp
      · unfold percentilesOrValue
        refine Res.bind_ne_diverge ?_ fun s => ?_
        · unfold sortPartialCmp; split <;> simp
        · simp only
          split
          · simp
          · unfold percentiles
            refine Res.bind_ne_diverge ?_ fun o => ?_
            · unfold sortPartialCmp; split <;> simp
            · split
              · simp
              · refine Res.bind_ne_diverge (Res.mapM'_ne_diverge fun i _ =>
                  Res.bind_ne_diverge (idx_ne_diverge _ _) fun a =>
                  Res.bind_ne_diverge (idx_ne_diverge _ _) fun b => by simp) fun vals => ?_
                split <;> simp
  · refine Res.bind_ne_diverge (Res.mapM'_ne_diverge fun p _ => ?_) fun b => by simp
    split
    · simp
    · refine Res.bind_ne_diverge ?_ fun c => Res.bind_ne_diverge ?_ fun b => ?_
      · rw [(Jagged.foldl_pushCuts cutss).getCol]
        cases cutss[p.2 / data.rows]? <;> simp
      · obtain ⟨k, _, h | h⟩ := mapBin_total c p.1 missing <;> rw [h] <;> simp
      · cases b <;> simp

/-- C29.  Without bins (`nbins = 0`), a column with two different values makes binning panic. -/
theorem C29_no_bins {S : Sorter} (hS : S.Ok) {data : Matrix D} {w : List D} {missing : D}
    (hm : data.Shaped) (hw : data.rows ≤ w.length) {i i' j : Nat} {v v' : D}
    (hi : i < data.rows) (hi' : i' < data.rows) (hj : j < data.cols)
    (hv : data.entry i j = some v) (hv' : data.entry i' j = some v') (hvm : ¬ IsMissing missing v)
    (hvm' : ¬ IsMissing missing v') (hlt : (v <ᶠ v') = true) :
    binMatrix S data w 0 missing = .panic := by
  refine Res.eq_panic (fun bd h => ?_) (binMatrix_ne_diverge _ _ _ _ _)
  obtain ⟨cutss, hb⟩ := binMatrix_binned hm hw h
  have hjl : j < cutss.length := hb.len ▸ hj
  have hcl := Matrix.column_length hm hj
  have hmade := hb.made j _ (List.getElem?_eq_getElem hjl)
  obtain ⟨h1, ws, c, hws, hc, ec⟩ := colCuts_form (by rw [hcl]; exact hw) hmade
  have hn : ∀ a ∈ present missing (data.column j), isNaN a = false := fun a ha =>
    num_of_not_missing (h1 a (mem_present.1 ha).1) (mem_present.1 ha).2
  obtain ⟨s, k1, k2, k3⟩ := sortPartialCmp_spec hS (id : D → D) _ hn
  unfold percentilesOrValue at hc
  rw [k1, Res.ok_bind] at hc
  simp only at hc
  have hmem : ∀ i < data.rows, ∀ v, data.entry i j = some v → ¬ IsMissing missing v → v ∈ s := by
    intro i hi v hv hvm
    rw [← Matrix.column_getElem? data hi] at hv
    exact k2.mem_iff.2 (mem_present.2 ⟨List.mem_of_getElem? hv, hvm⟩)
  have hn' : ∀ a ∈ s, isNaN a = false := fun a ha => hn a (k2.mem_iff.1 ha)
  split at hc
  · next hlen =>
    obtain ⟨y, hy, e⟩ := dedup_cover k3 hn' (hmem i hi v hv hvm)
    obtain ⟨y', hy', e'⟩ := dedup_cover k3 hn' (hmem i' hi' v' hv' hvm')
    simp only [binPcts, List.range_zero, List.map_nil, List.length_nil] at hlen
    have hyy : y = y' := by
      generalize dedupF s = d at hy hy' hlen
      match d, hlen with
      | [a], _ => rw [List.mem_singleton.1 hy, List.mem_singleton.1 hy']
      | [], _ => simp at hy
    subst hyy
    obtain ⟨a1, a2⟩ := Fl.feq_iff_le.1 e
    obtain ⟨b1, b2⟩ := Fl.feq_iff_le.1 e'
    have := Fl.not_lt_of_le (Fl.le_trans b2 a1)
    rw [hlt] at this; cases this
  · have hp := percentiles_form hS hn hc
    obtain ⟨cur, rest, _, _, _, _, e, _⟩ := hp
    simp [binPcts] at e

/-- C29.  With 65535 bins (the largest 16 bit number), binning panics for every column of exactly
65536 distinct values. -/
theorem C29_too_many {S : Sorter} (hS : S.Ok) {data : Matrix D} {w : List D} {missing : D}
    (hm : data.Shaped) (hw : data.rows ≤ w.length)
    (hmax : ∀ v ∈ data.data, ¬ IsMissing missing v → (v ≤ᶠ Fl.maxv) = true) {j : Nat}
    (hj : j < data.cols)
    (hfew : ∀ l : List D, l.Pairwise (fun a b => (a <ᶠ b) = true) →
      (∀ x ∈ l, ¬ IsMissing missing x ∧ ∃ i < data.rows, data.entry i j = some x) →
      l.length ≤ 65536)
    (l : List D) (hl : l.Pairwise (fun a b => (a <ᶠ b) = true)) (hlen : l.length = 65536)
    (hl' : ∀ x ∈ l, ¬ IsMissing missing x ∧ ∃ i < data.rows, data.entry i j = some x) :
    binMatrix S data w 65535 missing = .panic := by
  refine Res.eq_panic (fun bd h => ?_) (binMatrix_ne_diverge _ _ _ _ _)
  obtain ⟨cutss, hb⟩ := binMatrix_binned hm hw h
  have hjl : j < cutss.length := hb.len ▸ hj
  have hcl := Matrix.column_length hm hj
  have hcj := List.getElem?_eq_getElem hjl
  have hcover := few_cover hS hm hw hmax hb hj hfew hcj
  have hspec := colCuts_spec hS (by rw [hcl]; exact hw) (hb.made j _ hcj)
    (fun v hv => hmax v (Matrix.mem_column hv))
  obtain ⟨l', x, rfl⟩ : ∃ l' x, l = l' ++ [x] := by
    rcases List.eq_nil_or_concat l with h | ⟨l', x, h⟩
    · rw [h] at hlen; simp at hlen
    · exact ⟨l', x, by simpa using h⟩
  obtain ⟨hxm, i, hi, hx⟩ := hl' x (by simp)
  have hmem : ∀ y ∈ l' ++ [x], ∃ c ∈ cutss[j], (c =ᶠ y) = true := by
    intro y hy
    obtain ⟨hym, i, hi, hy⟩ := hl' y hy
    rw [← Matrix.column_getElem? data hi] at hy
    exact hcover y (List.mem_of_getElem? hy) hym
  obtain ⟨b, hbin, hmap⟩ := hb.bin i j x _ hi hx hcj
  have hnum := num_of_not_missing (hb.readable x (List.mem_of_getElem? hx)) hxm
  obtain ⟨k, hk1, hk2, hk3⟩ := mapBin_spec hspec.increasing hnum hxm
  rw [hk3] at hmap
  injection hmap with hmap
  split at hmap
  · next hlt =>
    have hle : ∀ y ∈ l' ++ [x], (y ≤ᶠ x) = true := by
      intro y hy
      rcases List.mem_append.1 hy with h | h
      · exact Fl.le_of_lt ((List.pairwise_append.1 hl).2.2 y h x (by simp))
      · rw [List.mem_singleton.1 h]; exact Fl.le_refl hnum
    have := increasing_length_le hl (c := cutss[j].take k) (fun y hy => by
      obtain ⟨c, hc, e⟩ := hmem y hy
      refine ⟨c, ?_, e⟩
      obtain ⟨q, hq⟩ := List.getElem?_of_mem hc
      have hqk := (hk2 q c hq).1 (Fl.le_trans (Fl.feq_iff_le.1 e).1 (hle y hy))
      exact List.mem_of_getElem? (i := q) (by rw [List.getElem?_take_of_lt hqk, hq]))
    have h2 := List.length_take_le k cutss[j]
    omega
  · cases hmap

/-- C48, training.  If `missing` is not NaN, binning the training data panics exactly if they contain
NaN; if it is NaN, binning does not panic.  (1 to 65533 bins.) -/
theorem C48_binning {S : Sorter} (hS : S.Ok) {data : Matrix D} {w : List D} {nbins : Nat}
    {missing : D} (hm : data.Shaped) (hw : data.rows ≤ w.length) (h0 : 1 ≤ nbins) (h1 : nbins ≤ 65533) :
    binMatrix S data w nbins missing = .panic ↔
      isNaN missing = false ∧ ∃ v ∈ data.data, isNaN v = true := by
  constructor
  · intro h
    by_contra hc
    have hr : ∀ v ∈ data.data, Readable missing v := by
      intro v hv
      cases hmn : isNaN missing
      · right
        cases hvn : isNaN v
        · rfl
        · exact absurd ⟨hmn, v, hv, hvn⟩ hc
      · exact .inl hmn
    obtain ⟨bd, hbd⟩ := C29_range hS hm hw hr h0 h1
    rw [h] at hbd; cases hbd
  · rintro ⟨hmn, v, hv, hvn⟩
    refine Res.eq_panic (fun bd h => ?_) (binMatrix_ne_diverge _ _ _ _ _)
    obtain ⟨cutss, hb⟩ := binMatrix_binned hm hw h
    rcases hb.readable v hv with h | h
    · rw [hmn] at h; cases h
    · rw [hvn] at h; cases h

/-- C48, training.  If `missing` is not NaN and the training data contain NaN, `fit` panics (unless it
rejects the targets or weights with an error first). -/
theorem C48_fit {F : Type} [Fl F] [FlCast F D] {R : Type} {env : Env R F D} {b : Booster F D}
    {data : Matrix D} {y w : List D} {ev : Option (List (EvalSet D))}
    (hm : data.Shaped) (hw : data.rows ≤ w.length) (hmiss : isNaN b.missing = false)
    (hnan : ∃ v ∈ data.data, isNaN v = true) (hval : validateFit y w ev = .ok ()) :
    b.fit env data y w ev = .panic := by
  obtain ⟨v, hv, hvn⟩ := hnan
  have hbin : binMatrix env.sorter data w b.nbins b.missing = .panic := by
    refine Res.eq_panic (fun bd h => ?_) (binMatrix_ne_diverge _ _ _ _ _)
    obtain ⟨cutss, hb⟩ := binMatrix_binned hm hw h
    rcases hb.readable v hv with h | h
    · rw [hmiss] at h; cases h
    · rw [hvn] at h; cases h
  have hstart := b.start_eq
  have h1 : b.start.nbins = b.nbins := by rw [hstart]
  have h2 : b.start.missing = b.missing := by rw [hstart]
  have hft : ∀ sp, fitTrees env b data y w sp ev = .panic := by
    intro sp
    refine Res.eq_panic (fun out h => ?_) ?_
    · obtain ⟨_, binned, _, _, h, _⟩ := fitTrees_eq_ok.1 h
      rw [hbin] at h; cases h
    · unfold fitTrees
      change (do
        let b ← if b.start.initializeBaseScore then do
            let s ← calcInit b.start.objectiveType y w
            pure { b.start with baseScore := s }
          else pure b.start
        let yhat := List.replicate y.length b.baseScore
        let gh := calcGradHess (F := F) b.objectiveType y yhat w
        let binned ← binMatrix env.sorter data w b.nbins b.missing
        let bdata : Matrix Nat := { data := binned.binned, rows := data.rows, cols := data.cols }
        let evals := ev.map fun (es : List (EvalSet D)) => es.map fun e =>
          { toEvalSet := e, yhat := List.replicate e.y.length b.baseScore : TrainEval D }
        let s ← fitLoop env data y w sp bdata binned.cuts b.iterations 0
          { booster := b, yhat, grad := gh.1, hess := gh.2, evals, best := none
            rng := env.rng.seed b.seed }
        Res.ok s.booster) ≠ .diverge
      have hrest : ∀ x : Booster F D, x.nbins = b.nbins → x.missing = b.missing →
          ∀ k : BinnedData D → Res (Booster F D),
          (binMatrix env.sorter data w x.nbins x.missing >>= k) ≠ .diverge := by
        intro x e1 e2 k
        rw [e1, e2, hbin]; intro h; cases h
      split
      · have hci : calcInit b.start.objectiveType y w ≠ .diverge := by
          unfold calcInit
          refine Res.bind_ne_diverge ?_ fun p => ?_
          · unfold initSums
            have : ∀ (l : List (D × Nat)) (s : D × D), Res.foldM' (fun (s : D × D) (p : D × Nat) => do
                let wi ← idx w p.2
                .ok (s.1 + wi * p.1, s.2 + wi)) s l ≠ .diverge := by
              intro l
              induction l with
              | nil => intro s; simp [Res.foldM']
              | cons p l ih =>
                intro s
                rw [Res.foldM'_cons]
                exact Res.bind_ne_diverge (Res.bind_ne_diverge (idx_ne_diverge _ _) fun x => by simp)
                  fun s => ih s
            exact this _ _
          · cases b.start.objectiveType <;> simp
        cases hcv : calcInit b.start.objectiveType y w with
        | ok x => exact hrest { b.start with baseScore := x } h1 h2 _
        | panic => intro h; cases h
        | diverge => exact absurd hcv hci
      · exact hrest b.start h1 h2 _
  unfold Booster.fit
  rw [hval]
  simp only
  rw [hft]
  rfl

end any

section exact
variable {K : Type} [Field K] [LinearOrder K] [IsStrictOrderedRing K] {m : Fmt K} [m.Exact]

/-- C28, bin 0 (exact arithmetic).  If the weights are finite and not negative and some row of the
column that is not missing has a positive weight, a value gets bin 0 exactly if it is missing.

Not true without the condition on the weights, see `C28_counterexample`. -/
theorem C28_missing_partial {S : Sorter} (hS : S.Ok) {data : Matrix (FX m)} {w : List K} {nbins : Nat}
    {missing : FX m} {bd : BinnedData (FX m)} (hm : data.Shaped) (hw : data.rows ≤ w.length)
    (hmax : ∀ v ∈ data.data, ¬ IsMissing missing v → (v ≤ᶠ Fl.maxv) = true)
    (h : binMatrix S data (w.map FX.fin) nbins missing = .ok bd) (j : Nat) (hj : j < data.cols)
    (hw0 : ∀ x ∈ w, 0 ≤ x)
    (hpos : ∃ i < data.rows, ∃ v, data.entry i j = some v ∧ ¬ IsMissing missing v ∧
      ∃ x, w[i]? = some x ∧ 0 < x)
    (i : Nat) (hi : i < data.rows) (v : FX m) (hv : data.entry i j = some v) :
    ∃ b, (Matrix.mk bd.binned data.rows data.cols).entry i j = some b ∧
      (b = 0 ↔ IsMissing missing v) := by
  have hw' : data.rows ≤ (w.map (FX.fin : K → FX m)).length := by simpa using hw
  obtain ⟨cutss, hb⟩ := binMatrix_binned hm hw' h
  have hjl : j < cutss.length := hb.len ▸ hj
  have hcl := Matrix.column_length hm hj
  have hcj := List.getElem?_eq_getElem hjl
  have hspec := colCuts_spec hS (by rw [hcl]; exact hw') (hb.made j _ hcj)
    (fun v hv => hmax v (Matrix.mem_column hv))
  obtain ⟨b, hbin, hmap⟩ := hb.bin i j v _ hi hv hcj
  refine ⟨b, hbin, ?_⟩
  by_cases hmi : IsMissing missing v
  · rw [mapBin_of_missing _ hmi] at hmap
    injection hmap with hmap
    injection hmap with hmap
    exact ⟨fun _ => hmi, fun _ => hmap.symm⟩
  · have hnum := num_of_not_missing (hb.readable v (List.mem_of_getElem? hv)) hmi
    obtain ⟨k, hk1, hk2, hk3⟩ := mapBin_spec hspec.increasing hnum hmi
    rw [hk3] at hmap
    injection hmap with hmap
    split at hmap
    · injection hmap with hmap
      subst hmap
      refine ⟨fun h0 => ?_, fun h => absurd h hmi⟩
      -- the rows that are not missing, with their weights
      set kept := ((data.column j).zip (w.map (FX.fin : K → FX m))).filter
        fun x => !decide (IsMissing missing x.1) with hkept
      obtain ⟨ws, hws⟩ : ∃ ws : List K, kept.map Prod.snd = ws.map FX.fin ∧ (∀ x ∈ ws, 0 ≤ x) ∧
          0 < ws.sum := by
        have hall : ∀ p ∈ kept, ∃ x ∈ w, p.2 = FX.fin x := by
          intro p hp
          have := (List.of_mem_zip (List.mem_of_mem_filter hp)).2
          obtain ⟨x, hx, e⟩ := List.mem_map.1 this
          exact ⟨x, hx, e.symm⟩
        have hgen : ∀ l : List (FX m × FX m), (∀ p ∈ l, ∃ x ∈ w, p.2 = FX.fin x) →
            ∃ ws : List K, l.map Prod.snd = ws.map FX.fin ∧ (∀ x ∈ ws, 0 ≤ x) ∧
              ∀ x, FX.fin x ∈ l.map Prod.snd → x ∈ ws := by
          intro l
          induction l with
          | nil => intro _; exact ⟨[], rfl, by simp, by simp⟩
          | cons p l ih =>
            intro hl
            obtain ⟨ws, e, h0, hin⟩ := ih fun q hq => hl q (by simp [hq])
            obtain ⟨x, hx, ex⟩ := hl p (by simp)
            refine ⟨x :: ws, by simp [ex, e], ?_, ?_⟩
            · intro y hy
              rcases List.mem_cons.1 hy with hy | hy
              · rw [hy]; exact hw0 x hx
              · exact h0 y hy
            · intro y hy
              rw [List.map_cons, List.mem_cons, ex] at hy
              rcases hy with hy | hy
              · injection hy with hy; simp [hy]
              · simp [hin y hy]
        obtain ⟨ws, e, h0, hin⟩ := hgen kept hall
        refine ⟨ws, e, h0, ?_⟩
        obtain ⟨i0, hi0, v0, hv0, hvm0, x0, hx0, hpos0⟩ := hpos
        have hx0lt := (List.getElem?_eq_some_iff.1 hx0).1
        have hmem : (v0, (FX.fin x0 : FX m)) ∈ kept := by
          refine List.mem_filter.2 ⟨List.mem_iff_getElem?.2 ⟨i0, ?_⟩, by simpa using hvm0⟩
          rw [List.getElem?_zip_eq_some]
          exact ⟨by rw [Matrix.column_getElem? data hi0, hv0], by simp [hx0]⟩
        have hxw := hin x0 (List.mem_map.2 ⟨_, hmem, rfl⟩)
        exact lt_of_lt_of_le hpos0 (List.single_le_sum h0 x0 hxw)
      obtain ⟨hws1, hws2, hws3⟩ := hws
      have hsum : fastSum (kept.map Prod.snd) = (FX.fin ws.sum : FX m) := by
        rw [hws1, C46_fast_sum_finite]
      obtain ⟨c0, hc0, hfirst⟩ := colCuts_first hS (by rw [hcl]; exact hw') (hb.made j _ hcj)
        (fun hnb x hx => by
          rw [← hkept] at hx ⊢
          have hx2 : x.2 ∈ kept.map Prod.snd := List.mem_map.2 ⟨x, hx, rfl⟩
          rw [hsum]
          rw [hws1] at hx2
          obtain ⟨q, hq, e⟩ := List.mem_map.1 hx2
          have hnb' : (nbins : K) ≠ 0 := by exact_mod_cast hnb
          rw [← e, FX.ofNat_eq, FX.ofNat_eq, FX.fin_div _ _ hnb', FX.fin_div _ _ hws3.ne', FX.zero_def,
            FX.fin_add, FX.le_fin]
          simp only [Nat.cast_zero, zero_div, zero_add, decide_eq_true_eq]
          exact div_nonneg (hws2 q hq) hws3.le)
      have hvc : v ∈ data.column j := by
        rw [← Matrix.column_getElem? data hi] at hv
        exact List.mem_of_getElem? hv
      have := (hk2 0 c0 hc0).1 (hfirst v hvc hmi)
      omega
    · cases hmap

/-- C45 (exact arithmetic).  For weights that are not negative with a positive sum and levels in
`[0, 1)` that do not decrease, `percentiles` returns one value per level: the least value at which the
share of the weight reaches the level.  The values do not decrease and are members of the data. -/
theorem C45_percentiles {S : Sorter} (hS : S.Ok) (v w levels : List K) (hlen : v.length = w.length)
    (hw : ∀ x ∈ w, 0 ≤ x) (hpos : 0 < w.sum) (hne : levels ≠ [])
    (hinc : levels.Pairwise (· ≤ ·)) (h01 : ∀ q ∈ levels, 0 ≤ q ∧ q < 1) :
    ∃ xs : List K, percentiles S (v.map (FX.fin : K → FX m)) (w.map FX.fin) (levels.map FX.fin) =
        .ok (xs.map FX.fin) ∧ xs.Pairwise (· ≤ ·) ∧
      List.Forall₂ (fun q x => x ∈ v ∧
        q * w.sum ≤ (((v.zip w).filter fun p => p.1 ≤ x).map Prod.snd).sum ∧
        ∀ y ∈ v, q * w.sum ≤ (((v.zip w).filter fun p => p.1 ≤ y).map Prod.snd).sum → x ≤ y)
        levels xs := by
  have hn : ∀ a ∈ v.map (FX.fin : K → FX m), isNaN a = false := by
    intro a ha
    obtain ⟨x, _, rfl⟩ := List.mem_map.1 ha
    rfl
  have hvne : v ≠ [] := by
    intro h
    rw [h] at hlen
    have : w = [] := List.eq_nil_of_length_eq_zero hlen.symm
    rw [this] at hpos; simp at hpos
  obtain ⟨c, hc⟩ := percentiles_total hS hn (w := w.map FX.fin) (pcts := levels.map FX.fin)
    (by simp [hlen]) (by simpa using hvne) (by simpa using hne)
  obtain ⟨hsorted, -, -⟩ := percentiles_spec hS hn hc
  obtain ⟨cur, rest, v0, w0, tl, last, e, _, hp, hs, hl, ec⟩ := percentiles_form hS hn hc
  obtain ⟨q, qs, rfl⟩ : ∃ q qs, levels = q :: qs := List.exists_cons_of_ne_nil hne
  simp only [List.map_cons, List.cons.injEq] at e
  obtain ⟨rfl, rfl⟩ := e
  -- the sorted pairs
  have hzip : (v.map (FX.fin : K → FX m)).zip (w.map (FX.fin : K → FX m)) =
      (v.zip w).map fun a => (FX.fin a.1, FX.fin a.2) := by
    rw [List.zip_map]; rfl
  rw [hzip] at hp
  obtain ⟨all, hall, eall⟩ : ∃ all : List (K × K), all.Perm (v.zip w) ∧
      (v0, w0) :: tl = all.map fun a => ((FX.fin a.1 : FX m), (FX.fin a.2 : FX m)) := by
    have he := congrFun (congrFun (List.eq_map_comp_perm
      fun a : K × K => ((FX.fin a.1 : FX m), (FX.fin a.2 : FX m))) ((v0, w0) :: tl)) (v.zip w)
    obtain ⟨all, h1, h2⟩ := he.mpr hp
    exact ⟨all, h2, h1⟩
  have hsum : (all.map Prod.snd).sum = w.sum := by
    have := (hall.map Prod.snd).sum_eq
    rw [this, List.map_snd_zip hlen.ge]
  have hup : ∀ x, weightUpTo all x = (((v.zip w).filter fun p => p.1 ≤ x).map Prod.snd).sum :=
    fun x => ((hall.filter _).map _).sum_eq
  have hws : ∀ p ∈ all, 0 ≤ p.2 := fun p hp => hw _ (List.of_mem_zip (hall.mem_iff.1 hp)).2
  have hs' : (all.map Prod.fst).Pairwise (· ≤ ·) := by
    rw [eall, List.map_map] at hs
    have := List.pairwise_map.1 hs
    refine List.pairwise_map.2 (this.imp fun h => ?_)
    simpa using h
  obtain ⟨xs, hxs, hf⟩ := pctLoop_exact valueEmb_fin all last hs' hws (by rw [hsum]; exact hpos) all [] v0 q qs [] rfl
    hinc h01 (.inl rfl)
  rw [C46_fast_sum_finite, ← hsum, eall] at ec
  simp only [List.map_nil, List.sum_nil, zero_div, List.nil_append] at hxs
  rw [FX.zero_def, hxs] at ec
  refine ⟨xs, by rw [hc, ec], ?_, ?_⟩
  · rw [ec] at hsorted
    refine (List.pairwise_map.1 hsorted).imp fun h => ?_
    simpa using h
  · refine hf.imp fun a x hx => ?_
    obtain ⟨⟨wx, hmem⟩, h2, h3⟩ := hx
    rw [hsum, hup] at h2
    refine ⟨(List.of_mem_zip (hall.mem_iff.1 hmem)).1, h2, fun y hy h => ?_⟩
    obtain ⟨i, hi, e⟩ := List.getElem_of_mem hy
    have hy' : (y, w[i]'(hlen ▸ hi)) ∈ all :=
      hall.mem_iff.2 (List.mem_iff_getElem.2 ⟨i, by simp [hi, hlen ▸ hi], by simp [e]⟩)
    refine h3 _ hy' ?_
    rw [hsum, hup]; exact h

end exact

/-! ## Concrete cases -/

/-- Three rows, all weights zero, one bin: the only cut is `f64::MAX` and the values, none of which is
missing, get bin 0. -/
theorem C28_counterexample :
    let data : Matrix Q := { data := [q 1, q 2, q 3], rows := 3, cols := 1 }
    ∃ bd, binMatrix exSorter data [q 0, q 0, q 0] 1 FX.nan = .ok bd ∧
      (Matrix.mk bd.binned 3 1).entry 0 0 = some 0 ∧ data.entry 0 0 = some (q 1) ∧
      ¬ IsMissing (FX.nan : Q) (q 1) := by
  refine ⟨⟨[0, 0, 0], ⟨[Fl.maxv], [1], 1, 1⟩, [1]⟩, by decide +kernel, rfl, rfl, by decide⟩

/-- The hypotheses of `C28_missing_partial` and `C28_cuts` are met by the example data. -/
example : exX.Shaped ∧ exX.rows ≤ exW.length ∧
    (∀ v ∈ exX.data, ¬ IsMissing (FX.nan : Q) v → (v ≤ᶠ Fl.maxv) = true) ∧
    (∃ bd, binMatrix exSorter exX exW 8 FX.nan = .ok bd) ∧
    (∃ i < exX.rows, ∃ v, exX.entry i 1 = some v ∧ ¬ IsMissing (FX.nan : Q) v ∧
      ∃ x, exW[i]? = some x ∧ (0 <ᶠ x) = true) := by
  refine ⟨rfl, by decide, by decide +kernel, ?_, 0, by decide, q 3, by decide, by decide, q 1,
    by decide, by decide +kernel⟩
  exact C29_range exSorter_ok rfl (by decide) (by decide +kernel) (by decide) (by decide)

/-- With two bins the six values of the first column share bins; the missing entries of the second
column get bin 0. -/
example : (match binMatrix exSorter exX exW 2 FX.nan with
    | .ok bd => decide (bd.binned = [1, 1, 2, 2, 2, 2, 3, 0, 1, 1, 0, 2])
    | _ => false) = true := by decide +kernel

/-- Levels 0, 1/4, 1/2 of four values with weights 1, 0, 2, 1. -/
example : percentiles exSorter [q 4, q 1, q 3, q 2] [q 1, q 0, q 2, q 1] [q 0, q (1/4), q (1/2)] =
    .ok [q 1, q 2, q 3] := by decide +kernel

/-- The hypotheses of `C45_percentiles` for this case. -/
example : (∀ x ∈ [(1 : ℚ), 0, 2, 1], 0 ≤ x) ∧ 0 < [(1 : ℚ), 0, 2, 1].sum ∧
    [(0 : ℚ), 1/4, 1/2].Pairwise (· ≤ ·) ∧ ∀ x ∈ [(0 : ℚ), 1/4, 1/2], 0 ≤ x ∧ x < 1 := by
  refine ⟨?_, ?_, ?_, ?_⟩ <;> norm_num

/-- A NaN among the training data and the sentinel 0: `fit` panics. -/
example : { exFresh with missing := q 0 }.fit exEnv exX exY exW none = .panic :=
  C48_fit rfl (by decide) rfl ⟨FX.nan, by decide, rfl⟩ (by decide)

/-- Two values and no bins. -/
example : binMatrix exSorter exX exW 0 FX.nan = .panic :=
  C29_no_bins exSorter_ok rfl (by decide) (i := 0) (i' := 1) (j := 0) (v := q 1) (v' := q 2)
    (by decide) (by decide) (by decide) rfl rfl (by decide) (by decide) (by decide +kernel)

/-- A column of `n` different numbers. -/
theorem too_many_aux (S : Sorter) (hS : S.Ok) (n : Nat) (hn : n = 65536) :
    binMatrix S (Matrix.mk ((List.range n).map fun i : Nat => (q i : Q)) n 1)
      (List.replicate n (q 1)) 65535 FX.nan = .panic := by
  have hmiss : ∀ i : Nat, ¬ IsMissing (FX.nan : Q) (q i) := by
    intro i h
    simp [IsMissing, q] at h
  have hmax : ∀ i : Nat, i < n → ((q i : Q) ≤ᶠ Fl.maxv) = true := by
    intro i hi
    have h : (i : ℚ) ≤ 10 ^ 100 := by
      calc (i : ℚ) ≤ (10 ^ 100 : Nat) := by exact_mod_cast (by omega : i ≤ 10 ^ 100)
        _ = _ := by norm_num
    exact (FX.le_fin (m := ratFmt) ..).trans (decide_eq_true h)
  refine C29_too_many hS (j := 0) (by simp [Matrix.Shaped]) (by simp) ?_ (by simp) ?_
    ((List.range n).map fun i : Nat => (q i : Q)) ?_ (by simpa using hn) ?_
  · intro v hv _
    obtain ⟨i, hi, rfl⟩ := List.mem_map.1 hv
    exact hmax i (List.mem_range.1 hi)
  · intro l hl hmem
    have := increasing_length_le hl (c := (List.range n).map fun i : Nat => (q i : Q)) (by
      intro x hx
      obtain ⟨_, i, hi, e⟩ := hmem x hx
      have hx := List.mem_of_getElem? e
      refine ⟨x, hx, ?_⟩
      obtain ⟨k, _, rfl⟩ := List.mem_map.1 hx
      simp [q])
    simpa [hn] using this
  · refine List.pairwise_map.2 (List.pairwise_lt_range.imp fun h => ?_)
    simpa [q] using h
  · intro x hx
    obtain ⟨i, hi, rfl⟩ := List.mem_map.1 hx
    have hi := List.mem_range.1 hi
    refine ⟨hmiss i, i, hi, ?_⟩
    simp [Matrix.entry, hi]

/-- A column of the numbers 0 to 65535 makes binning with 65535 bins panic. -/
theorem C29_too_many_example (S : Sorter) (hS : S.Ok) :
    binMatrix S (Matrix.mk ((List.range 65536).map fun i : Nat => (q i : Q)) 65536 1)
      (List.replicate 65536 (q 1)) 65535 FX.nan = .panic :=
  too_many_aux S hS 65536 rfl

end Verif
