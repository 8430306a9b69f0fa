import Verif.Spec.Grid
import Verif.Proofs.NodeSums

/-!
# Sums of multiples of a unit are exact

The hessian halves of histograms and nodes when all hessians are multiples of a unit that the formats
represent up to the total (`Fmt.Grid`).  Nothing is assumed about the gradients.
-/

namespace Verif

open scoped Verif

set_option linter.unusedSectionVars false

section
variable {K : Type} [Field K] [LinearOrder K] [IsStrictOrderedRing K] {m32 m64 : Fmt K} {u : K} {N : Nat}

theorem Mult.zero : Mult u (0 : K) := ⟨0, by simp⟩

theorem Mult.add {a b : K} (ha : Mult u a) (hb : Mult u b) : Mult u (a + b) := by
  obtain ⟨i, rfl⟩ := ha
  obtain ⟨j, rfl⟩ := hb
  exact ⟨i + j, by push_cast; ring⟩

theorem Mult.sum {l : List K} (h : ∀ x ∈ l, Mult u x) : Mult u l.sum := by
  induction l with
  | nil => exact .zero
  | cons a l ih =>
    rw [List.sum_cons]
    exact (h a (by simp)).add (ih fun x hx => h x (by simp [hx]))

theorem Mult.nonneg (hu : 0 < u) {x : K} (h : Mult u x) : 0 ≤ x := by
  obtain ⟨n, rfl⟩ := h
  positivity

theorem Mult.onGrid (hu : 0 < u) {x y : K} (hx : Mult u x) (h : x ≤ y) (hy : OnGrid u N y) :
    OnGrid u N x := by
  obtain ⟨i, rfl⟩ := hx
  obtain ⟨j, hj, rfl⟩ := hy
  refine ⟨i, ?_, rfl⟩
  have : (i : K) ≤ j := le_of_mul_le_mul_right h hu
  exact (Nat.cast_le.1 this).trans hj

theorem OnGrid.mult {x : K} (h : OnGrid u N x) : Mult u x := by
  obtain ⟨n, _, rfl⟩ := h; exact ⟨n, rfl⟩

variable {m : Fmt K}

theorem Fmt.Grid.rd (G : m.Grid u N) {x : K} (h : OnGrid u N x) : (FX.rd x : FX m) = FX.fin x := by
  obtain ⟨n, hn, rfl⟩ := h
  rw [FX.rd, G n hn]; rfl

theorem Fmt.Grid.add (G : m.Grid u N) {a b : K} (h : OnGrid u N (a + b)) :
    (FX.fin a + FX.fin b : FX m) = FX.fin (a + b) := G.rd h

theorem Fmt.Grid.sub (G : m.Grid u N) {a b : K} (h : OnGrid u N (a - b)) :
    (FX.fin a - FX.fin b : FX m) = FX.fin (a - b) := by
  show (FX.rd (a + -b) : FX m) = _
  rw [← sub_eq_add_neg]; exact G.rd h

theorem Fmt.Grid.down (G : m32.Grid u N) {a : K} (h : OnGrid u N a) :
    (down (FX.fin a : FX m64) : FX m32) = FX.fin a := G.rd h

/-- Sums in order. -/
theorem Fmt.Grid.foldl (hu : 0 < u) (G : m.Grid u N) : ∀ (l : List K) (a : K), (∀ x ∈ l, Mult u x) →
    Mult u a → OnGrid u N (a + l.sum) →
    (l.map (FX.fin : K → FX m)).foldl (· + ·) (FX.fin a) = FX.fin (a + l.sum)
  | [], a, _, _, _ => by simp
  | x :: l, a, hl, ha, h => by
    rw [List.sum_cons, ← add_assoc] at h
    have h1 : Mult u (a + x) := ha.add (hl x (by simp))
    have h2 : 0 ≤ l.sum := (Mult.sum fun y hy => hl y (by simp [hy])).nonneg hu
    rw [List.map_cons, List.foldl_cons, G.add (h1.onGrid hu (by linarith) h),
      Fmt.Grid.foldl hu G l _ (fun y hy => hl y (by simp [hy])) h1 h, List.sum_cons, add_assoc]

theorem Fmt.Grid.foldl_zero (hu : 0 < u) (G : m.Grid u N) {l : List K} (hl : ∀ x ∈ l, Mult u x)
    (h : OnGrid u N l.sum) : (l.map (FX.fin : K → FX m)).foldl (· + ·) 0 = FX.fin l.sum := by
  have := G.foldl hu l 0 hl .zero (by rw [zero_add]; exact h)
  rw [zero_add] at this
  rw [FX.zero_def]; exact this

theorem Fmt.Grid.addLanes (hu : 0 < u) (G : m.Grid u N) : ∀ (a c : List K), a.length = c.length →
    (∀ x ∈ a, Mult u x) → (∀ x ∈ c, Mult u x) → OnGrid u N (a.sum + c.sum) →
    ∃ s : List K, addLanes (a.map (FX.fin : K → FX m)) (c.map FX.fin) = s.map FX.fin ∧
      s.length = a.length ∧ (∀ x ∈ s, Mult u x) ∧ s.sum = a.sum + c.sum
  | [], [], _, _, _, _ => ⟨[], rfl, rfl, by simp, by simp⟩
  | [], _ :: _, h, _, _, _ => by simp at h
  | _ :: _, [], h, _, _, _ => by simp at h
  | x :: a, y :: c, h, ha, hc, hg => by
    have ha' : ∀ z ∈ a, Mult u z := fun z hz => ha z (by simp [hz])
    have hc' : ∀ z ∈ c, Mult u z := fun z hz => hc z (by simp [hz])
    have sa := (Mult.sum ha').nonneg hu
    have sc := (Mult.sum hc').nonneg hu
    have hx := (ha x (by simp)).nonneg hu
    have hy := (hc y (by simp)).nonneg hu
    rw [List.sum_cons, List.sum_cons] at hg
    have g1 : OnGrid u N (x + y) :=
      ((ha x (by simp)).add (hc y (by simp))).onGrid hu (by linarith) hg
    have g2 : OnGrid u N (a.sum + c.sum) :=
      ((Mult.sum ha').add (Mult.sum hc')).onGrid hu (by linarith) hg
    obtain ⟨s, e1, e2, e3, e4⟩ := Fmt.Grid.addLanes hu G a c (by simpa using h) ha' hc' g2
    refine ⟨(x + y) :: s, ?_, by simp [e2], ?_, by simp only [List.sum_cons, e4]; ring⟩
    · show List.zipWith _ _ _ = _
      rw [List.map_cons, List.map_cons, List.zipWith_cons_cons, G.add g1, List.map_cons]
      exact congrArg _ e1
    · intro z hz
      rcases List.mem_cons.1 hz with rfl | hz
      · exact g1.mult
      · exact e3 z hz

theorem Fmt.Grid.foldLanes (hu : 0 < u) (G : m.Grid u N) : ∀ (n : Nat) (a l : List K),
    a.length = lanes → (∀ x ∈ a, Mult u x) → (∀ x ∈ l, Mult u x) → OnGrid u N (a.sum + l.sum) →
    ∃ s r : List K, foldLanes n (a.map (FX.fin : K → FX m)) (l.map FX.fin) =
        (s.map FX.fin, r.map FX.fin) ∧ (∀ x ∈ s, Mult u x) ∧ (∀ x ∈ r, Mult u x) ∧
      s.sum + r.sum = a.sum + l.sum
  | 0, a, l, _, ha, hl, _ => ⟨a, l, rfl, ha, hl, rfl⟩
  | n + 1, a, l, hla, ha, hl, hg => by
    unfold Verif.foldLanes
    rw [List.length_map]
    split
    · exact ⟨a, l, rfl, ha, hl, rfl⟩
    · next h =>
      have ht : (l.take lanes).length = lanes := by simp; omega
      have hs : l.sum = (l.take lanes).sum + (l.drop lanes).sum := by
        rw [← List.sum_append, List.take_append_drop]
      have hlt : ∀ x ∈ l.take lanes, Mult u x := fun x hx => hl x (List.mem_of_mem_take hx)
      have hld : ∀ x ∈ l.drop lanes, Mult u x := fun x hx => hl x (List.mem_of_mem_drop hx)
      have hd0 := (Mult.sum hld).nonneg hu
      obtain ⟨s, e1, e2, e3, e4⟩ := G.addLanes hu a (l.take lanes) (by rw [hla, ht]) ha hlt
        (((Mult.sum ha).add (Mult.sum hlt)).onGrid hu (by rw [hs]; linarith) hg)
      rw [← List.map_take, ← List.map_drop, e1]
      obtain ⟨s', r', f1, f2, f3, f4⟩ := Fmt.Grid.foldLanes hu G n s (l.drop lanes) (by rw [e2, hla]) e3
        hld (by rw [e4, add_assoc, ← hs]; exact hg)
      exact ⟨s', r', f1, f2, f3, by rw [f4, e4, hs]; ring⟩

theorem Fmt.Grid.lanes_sum (hu : 0 < u) (G : m.Grid u N) {l : List K} (hl : ∀ x ∈ l, Mult u x)
    (h : OnGrid u N l.sum) :
    (Verif.foldLanes l.length (List.replicate lanes 0) (l.map (FX.fin : K → FX m))).1.foldl (· + ·) 0 +
      (Verif.foldLanes l.length (List.replicate lanes 0) (l.map FX.fin)).2.foldl (· + ·) 0 =
      (FX.fin l.sum : FX m) := by
  have hr : (List.replicate lanes (0 : FX m)) = (List.replicate lanes (0 : K)).map FX.fin := by
    rw [List.map_replicate]; rfl
  have hz : (List.replicate lanes (0 : K)).sum = 0 := by simp
  obtain ⟨s, r, e1, e2, e3, e4⟩ := G.foldLanes hu l.length (List.replicate lanes 0) l (by simp)
    (fun x hx => by rw [List.eq_of_mem_replicate hx]; exact .zero) hl (by rw [hz, zero_add]; exact h)
  rw [hz, zero_add] at e4
  have hs0 := (Mult.sum e2).nonneg hu
  have hr0 := (Mult.sum e3).nonneg hu
  rw [hr, e1]
  simp only
  rw [G.foldl_zero hu e2 ((Mult.sum e2).onGrid hu (by linarith) h),
    G.foldl_zero hu e3 ((Mult.sum e3).onGrid hu (by linarith) h), G.add (by rw [e4]; exact h), e4]

/-- `fast_sum` is exact. -/
theorem Fmt.Grid.fastSum (hu : 0 < u) (G : m.Grid u N) {l : List K} (hl : ∀ x ∈ l, Mult u x)
    (h : OnGrid u N l.sum) : fastSum (l.map (FX.fin : K → FX m)) = FX.fin l.sum := by
  have := G.lanes_sum hu hl h
  unfold Verif.fastSum
  rw [List.length_map]
  exact this

/-- `fast_f64_sum` is exact. -/
theorem Fmt.Grid.fastF64Sum (hu : 0 < u) (G32 : m32.Grid u N) (G64 : m64.Grid u N) {l : List K}
    (hl : ∀ x ∈ l, Mult u x) (h : OnGrid u N l.sum) :
    fastF64Sum (D := FX m64) (l.map (FX.fin : K → FX m32)) = FX.fin l.sum := by
  have := G64.lanes_sum hu hl h
  unfold Verif.fastF64Sum
  have hmap : (l.map (FX.fin : K → FX m32)).map (up : FX m32 → FX m64) = l.map FX.fin := by
    rw [List.map_map]; rfl
  rw [hmap, List.length_map]
  simp only
  rw [this, G32.down h]

/-! ### Histograms -/

theorem rowSum_mult {v : Nat → K} (hv : ∀ r, Mult u (v r)) (rows : List Nat) : Mult u (rowSum v rows) :=
  Mult.sum fun x hx => by obtain ⟨r, _, rfl⟩ := List.mem_map.1 hx; exact hv r

theorem rowSum_filter_le (hu : 0 < u) {v : Nat → K} (hv : ∀ r, Mult u (v r)) (p : Nat → Bool)
    (rows : List Nat) : rowSum v (rows.filter p) ≤ rowSum v rows := by
  induction rows with
  | nil => simp
  | cons r rows ih =>
    have h0 := (hv r).nonneg hu
    rw [List.filter_cons]
    split
    · simp only [rowSum, List.map_cons, List.sum_cons] at ih ⊢; linarith
    · simp only [rowSum, List.map_cons, List.sum_cons] at ih ⊢; linarith

/-- The sum over some of the rows is on the grid. -/
theorem rowSum_part (hu : 0 < u) {v : Nat → K} (hv : ∀ r, Mult u (v r)) {rows : List Nat}
    (h : OnGrid u N (rowSum v rows)) (p : Nat → Bool) : OnGrid u N (rowSum v (rows.filter p)) :=
  (rowSum_mult hv _).onGrid hu (rowSum_filter_le hu hv p rows) h

theorem binSum_part (hu : 0 < u) {v : Nat → K} (hv : ∀ r, Mult u (v r)) {rows : List Nat}
    (h : OnGrid u N (rowSum v rows)) (f : List Nat) (b : Nat) : OnGrid u N (binSum f v rows b) :=
  rowSum_part hu hv h _

/-- The hessians and cut values of a histogram. -/
def HessIs {m : Fmt K} {D : Type} (h : List (Bin (FX m) D)) (cs : List D) (H : Nat → K) : Prop :=
  h.length = cs.length ∧
    ∀ (k : Nat) (b : Bin (FX m) D), h[k]? = some b → b.hess = FX.fin (H k) ∧ cs[k]? = some b.cut

theorem histAdd_hess (hu : 0 < u) (G64 : m64.Grid u N) {feature : List Nat} {cs : List (FX m64)} {hv : Nat → K}
    (hm : ∀ r, Mult u (hv r)) : ∀ (rows : List Nat) (L : List (Nat × FX m32 × FX m32)) (H : Nat → K)
    (h h' : List (Bin (FX m64) (FX m64))), (∀ k, Mult u (H k)) →
    (∀ k, OnGrid u N (H k + binSum feature hv rows k)) →
    L.map (fun p => (p.1, p.2.2)) = rows.map (fun r => (r, FX.fin (hv r))) →
    HessIs h cs H → Res.foldM' (histAdd (F := FX m32) feature) h L = .ok h' →
    HessIs h' cs (fun k => H k + binSum feature hv rows k) ∧ ∀ r ∈ rows, r < feature.length
  | [], L, H, h, h', hH, hg, hL, hI, e => by
    cases L with
    | cons p L => simp at hL
    | nil =>
      simp only [Res.foldM', Res.ok.injEq] at e
      subst e
      simpa [binSum_nil] using hI
  | r :: rows, L, H, h, h', hH, hg, hL, hI, e => by
    cases L with
    | nil => simp at hL
    | cons p L =>
      obtain ⟨r', g, x⟩ := p
      simp only [List.map_cons, List.cons.injEq, Prod.mk.injEq] at hL
      obtain ⟨⟨rfl, rfl⟩, hL⟩ := hL
      rw [Res.foldM'_cons, Res.bind_eq_ok] at e
      obtain ⟨h1, e1, e2⟩ := e
      simp only [histAdd, Res.bind_eq_ok, idx_eq_ok, Res.ok.injEq] at e1
      obtain ⟨b, hb, rfl⟩ := e1
      have hlt := (List.getElem?_eq_some_iff.1 hb).1
      have hbs : ∀ k, Mult u (binSum feature hv rows k) := fun k => rowSum_mult hm _
      let H1 : Nat → K := fun k => H k + if feature[r']? = some k then hv r' else 0
      have hH1 : ∀ k, Mult u (H1 k) := fun k => (hH k).add (by split; exacts [hm _, .zero])
      have hsum : ∀ k, H1 k + binSum feature hv rows k = H k + binSum feature hv (r' :: rows) k := by
        intro k; rw [binSum_cons, add_assoc]
      have hI1 : HessIs (h.modify b fun v => { v with
          grad := v.grad + (up g : FX m64)
          hess := v.hess + (up (FX.fin (hv r') : FX m32) : FX m64) }) cs H1 := by
        refine ⟨by rw [List.length_modify]; exact hI.1, fun k c hc => ?_⟩
        rw [List.getElem?_modify] at hc
        obtain ⟨c0, hc0, rfl⟩ := Option.map_eq_some_iff.1 hc
        obtain ⟨a1, a2⟩ := hI.2 k c0 hc0
        by_cases hk : b = k
        · subst hk
          simp only [if_true]
          refine ⟨?_, a2⟩
          have e0 : H1 b = H b + hv r' := by simp only [H1]; rw [if_pos hb]
          have hle : OnGrid u N (H b + hv r') := by
            rw [← e0]
            refine (hH1 b).onGrid hu ?_ (hg b)
            rw [← hsum b]
            have := (hbs b).nonneg hu
            linarith
          rw [a1, FX.up_fin, G64.add hle, e0]
        · have e0 : H1 k = H k := by
            simp only [H1]; rw [if_neg (by rw [hb]; simpa using hk), add_zero]
          simp only [hk, if_false]
          rw [e0]; exact ⟨a1, a2⟩
      obtain ⟨k1, k2⟩ := histAdd_hess hu G64 hm rows L H1 _ h' hH1 (fun k => by rw [hsum]; exact hg k)
        hL hI1 e2
      refine ⟨?_, ?_⟩
      · simp only [hsum] at k1; exact k1
      · intro y hy
        rcases List.mem_cons.1 hy with rfl | hy
        · exact hlt
        · exact k2 y hy

theorem createFeatureHistogram_hess (hu : 0 < u) (G32 : m32.Grid u N) (G64 : m64.Grid u N) {hv : Nat → K}
    (hm : ∀ r, Mult u (hv r)) {rows : List Nat} (hg : OnGrid u N (rowSum hv rows))
    {feature : List Nat} {cuts : List (FX m64)} {sg : List (FX m32)} (hl : sg.length = rows.length)
    {h' : List (Bin (FX m32) (FX m64))}
    (e : createFeatureHistogram feature cuts sg (rows.map fun r => FX.fin (hv r)) rows = .ok h') :
    cuts ≠ [] ∧ HessIs h' (cutCol cuts) (binSum feature hv rows) ∧ ∀ r ∈ rows, r < feature.length := by
  unfold createFeatureHistogram at e
  split at e
  · cases e
  · rename_i hc
    simp only [Res.bind_eq_ok, Res.ok.injEq] at e
    obtain ⟨h1, e1, rfl⟩ := e
    have hz : (((rows.zip (sg.zip (rows.map fun r => (FX.fin (hv r) : FX m32)))).map
        fun p => (p.1, p.2.1, p.2.2))).map (fun p => (p.1, p.2.2)) =
        rows.map fun r => (r, FX.fin (hv r)) := by
      clear e1 hg
      induction rows generalizing sg with
      | nil => rfl
      | cons r rows ih =>
        cases sg with
        | nil => simp at hl
        | cons g sg => simpa using ih (by simpa using hl)
    have hi : HessIs (m := m64) (Bin.new Fl.nan :: (cuts.take (cuts.length - 1)).map Bin.new)
        (cutCol cuts) (fun _ => (0 : K)) := by
      have : ∀ l : List (FX m64), HessIs (m := m64) (l.map Bin.new) l (fun _ => (0 : K)) := by
        intro l
        refine ⟨by simp, fun k b hb => ?_⟩
        rw [List.getElem?_map] at hb
        obtain ⟨c, h1, rfl⟩ := Option.map_eq_some_iff.1 hb
        exact ⟨rfl, h1⟩
      exact this (cutCol cuts)
    obtain ⟨k1, k2⟩ := histAdd_hess hu G64 hm rows _ _ _ _ (fun _ => .zero)
      (fun k => by rw [zero_add]; exact binSum_part hu hm hg _ _) hz hi e1
    refine ⟨by rintro rfl; exact hc rfl, ⟨by rw [List.length_map]; exact k1.1, fun k b hb => ?_⟩, k2⟩
    rw [List.getElem?_map] at hb
    obtain ⟨b0, hb0, rfl⟩ := Option.map_eq_some_iff.1 hb
    obtain ⟨a1, a2⟩ := k1.2 k b0 hb0
    refine ⟨?_, a2⟩
    simp only [zero_add] at a1
    simp only [Bin.asF32]
    rw [a1, G32.down (binSum_part hu hm hg _ _)]

/-- The matrix of histograms holds, for each column in use, the hessians of these rows. -/
def HessOf (t : TrainData (FX m32) (FX m64)) (hv : Nat → K) (rows : List Nat)
    (m : JaggedMatrix (Bin (FX m32) (FX m64))) : Prop :=
  ∃ hs, Jagged hs m ∧ List.Forall₂ (fun col h => ∃ f c, t.data.getCol col = .ok f ∧
    t.cuts.getCol col = .ok c ∧ c ≠ [] ∧ HessIs h (cutCol c) (binSum f hv rows)) t.colIndex hs

theorem length_cutCol {D : Type} [Fl D] {c : List D} (hc : c ≠ []) : (cutCol c).length = c.length := by
  have := List.length_pos_iff.2 hc
  rw [cutCol, List.length_cons, List.length_take]; omega

theorem hessOf_matrix (hu : 0 < u) (G32 : m32.Grid u N) (G64 : m64.Grid u N)
    {t : TrainData (FX m32) (FX m64)} (hl : t.Laid) {hv : Nat → K} (hm : ∀ r, Mult u (hv r))
    {rows : List Nat} (hg : OnGrid u N (rowSum hv rows)) {sg sh : List (FX m32)}
    (h1 : sg.length = rows.length) (h2 : sh = rows.map fun r => FX.fin (hv r))
    {hs : List (List (Bin (FX m32) (FX m64)))}
    (hmp : Res.mapM' (fun col => do
      let f ← t.data.getCol col
      let c ← t.cuts.getCol col
      createFeatureHistogram f c sg sh rows) t.colIndex = .ok hs)
    {ends : List Nat} {n k : Nat}
    (he : (if t.colIndex.length = t.data.cols then pure t.cuts.ends
      else scanEnds t.cuts 0 t.colIndex) = Res.ok ends) :
    HessOf t hv rows { data := hs.flatten, ends, cols := k, nRecords := n } := by
  subst h2
  rw [Res.mapM'_eq_ok] at hmp
  have hm' : List.Forall₂ (fun col h => ∃ f c, t.data.getCol col = .ok f ∧
      t.cuts.getCol col = .ok c ∧ c ≠ [] ∧ HessIs h (cutCol c) (binSum f hv rows)) t.colIndex hs := by
    refine hmp.imp ?_
    intro col h e
    simp only [Res.bind_eq_ok] at e
    obtain ⟨f, hf, c, hc, e⟩ := e
    obtain ⟨e1, e2, _⟩ := createFeatureHistogram_hess hu G32 G64 hm hg h1 e
    exact ⟨f, c, hf, hc, e1, e2⟩
  refine ⟨hs, histogramMatrix_jagged hl (hm'.imp ?_) he, hm'⟩
  rintro a b ⟨f, c, _, hc, hne, hI⟩
  exact ⟨c, hc, by rw [hI.1, length_cutCol hne]⟩

theorem finRows_gather {l : List (FX m32)} {v : Nat → K} (hl : FinRows l v) {index : List Nat}
    {g : List (FX m32)} (e : Res.mapM' (idx l) index = .ok g) : g = index.map fun r => FX.fin (v r) := by
  rw [Res.mapM'_eq_ok] at e
  induction e with
  | nil => rfl
  | cons h _ ih =>
    rw [idx_eq_ok] at h
    rw [List.map_cons, ih, hl _ _ h]

theorem hessOf_rows (hu : 0 < u) (G32 : m32.Grid u N) (G64 : m64.Grid u N)
    {t : TrainData (FX m32) (FX m64)} (hl : t.Laid) {hv : Nat → K} (hm : ∀ r, Mult u (hv r))
    {rows : List Nat} (hg : OnGrid u N (rowSum hv rows)) (hh : FinRows t.hess hv)
    {m : JaggedMatrix (Bin (FX m32) (FX m64))}
    (h : histogramMatrix t.data t.cuts t.grad t.hess rows t.colIndex true = .ok m) :
    HessOf t hv rows m := by
  obtain ⟨sg, sh, hs, ends, h1, _, hmp, he, rfl⟩ := histogramMatrix_form h
  obtain ⟨h1, h2⟩ := h1 rfl
  refine hessOf_matrix hu G32 G64 hl hm hg (Res.mapM'_eq_ok.1 h1).length_eq.symm ?_ hmp he
  exact finRows_gather hh h2

theorem hessOf_all (hu : 0 < u) (G32 : m32.Grid u N) (G64 : m64.Grid u N)
    {t : TrainData (FX m32) (FX m64)} (hl : t.Laid) {hv : Nat → K} (hm : ∀ r, Mult u (hv r))
    (hg : OnGrid u N (rowSum hv (List.range t.grad.length))) (hh : FinRows t.hess hv)
    (hhl : t.hess.length = t.grad.length) {m : JaggedMatrix (Bin (FX m32) (FX m64))}
    (h : histogramMatrix t.data t.cuts t.grad t.hess (List.range t.grad.length) t.colIndex false = .ok m) :
    HessOf t hv (List.range t.grad.length) m := by
  obtain ⟨sg, sh, hs, ends, _, h1, hmp, he, rfl⟩ := histogramMatrix_form h
  obtain ⟨rfl, rfl⟩ := h1 rfl
  exact hessOf_matrix hu G32 G64 hl hm hg (by simp) (by rw [← hhl]; exact hh.eq_range) hmp he

theorem HessOf.perm {t : TrainData (FX m32) (FX m64)} {hv : Nat → K} {rows rows' : List Nat}
    {m : JaggedMatrix (Bin (FX m32) (FX m64))} (h : HessOf t hv rows m) (hp : rows.Perm rows') :
    HessOf t hv rows' m := by
  obtain ⟨hs, hj, hf⟩ := h
  refine ⟨hs, hj, hf.imp ?_⟩
  rintro a b ⟨f, c, h1, h2, h3, h4, h5⟩
  exact ⟨f, c, h1, h2, h3, h4, fun k b hb => by rw [← binSum_perm hp]; exact h5 k b hb⟩

/-- Subtracting the hessians of one part gives those of the rest. -/
theorem HessOf.sub (hu : 0 < u) (G32 : m32.Grid u N) {t : TrainData (FX m32) (FX m64)} {hv : Nat → K}
    (hm : ∀ r, Mult u (hv r)) {rows l r : List Nat} (hg : OnGrid u N (rowSum hv rows))
    {P C : JaggedMatrix (Bin (FX m32) (FX m64))} (hP : HessOf t hv rows P)
    (hC : HessOf t hv l C) (hp : rows.Perm (l ++ r)) : HessOf t hv r (histFromParentChild P C) := by
  obtain ⟨ps, jp, fp⟩ := hP
  obtain ⟨cs, jc, fc⟩ := hC
  have hlen : List.Forall₂ (fun (a : List (Bin (FX m32) (FX m64))) b => a.length = b.length) ps cs := by
    refine (forall₂_two fp fc).imp ?_
    rintro a b ⟨col, ⟨f, c, h1, h2, h3, h4, _⟩, ⟨f', c', h1', h2', h3', h4', _⟩⟩
    rw [h2] at h2'; cases h2'
    rw [h4, h4']
  refine ⟨List.zipWith (List.zipWith Bin.fromParentChild) ps cs, ⟨?_, ?_⟩, ?_⟩
  · simp only [histFromParentChild]
    rw [jp.data_eq, jc.data_eq, zipWith_flatten _ _ _ hlen]
  · simp only [histFromParentChild]
    rw [jc.ends_eq]
    apply endsOf_congr
    clear jp jc fp fc
    induction hlen with
    | nil => rfl
    | cons h _ ih => simp [ih, h]
  · refine forall₂_zipWith fp fc ?_
    rintro col a b ⟨f, c, h1, h2, h3, h4, h5⟩ ⟨f', c', h1', h2', h3', h4', h5'⟩
    rw [h2] at h2'; cases h2'
    rw [h1] at h1'; cases h1'
    refine ⟨f, c, h1, h2, h3, by rw [List.length_zipWith, h4, h4', Nat.min_self], fun k x hx => ?_⟩
    rw [List.getElem?_zipWith_eq_some] at hx
    obtain ⟨pb, cb, hpb, hcb, rfl⟩ := hx
    obtain ⟨a1, a2⟩ := h5 k pb hpb
    obtain ⟨b1, b2⟩ := h5' k cb hcb
    have e : binSum f hv rows k - binSum f hv l k = binSum f hv r k := by
      rw [binSum_perm hp, binSum_append]; ring
    refine ⟨?_, a2⟩
    simp only [Bin.fromParentChild]
    rw [a1, b1, G32.sub, e]
    rw [e]
    refine (rowSum_mult hm _).onGrid hu ?_ (binSum_part hu hm hg f k)
    have : 0 ≤ binSum f hv l k := (rowSum_mult hm _).nonneg hu
    show binSum f hv r k ≤ binSum f hv rows k
    linarith

/-- Subtracting the hessians of two parts gives those of the rest. -/
theorem HessOf.sub2 (hu : 0 < u) (G32 : m32.Grid u N) {t : TrainData (FX m32) (FX m64)} {hv : Nat → K}
    (hm : ∀ r, Mult u (hv r)) {rows l l' r : List Nat} (hg : OnGrid u N (rowSum hv rows))
    {P C C' : JaggedMatrix (Bin (FX m32) (FX m64))} (hP : HessOf t hv rows P)
    (hC : HessOf t hv l C) (hC' : HessOf t hv l' C') (hp : rows.Perm (l ++ (l' ++ r))) :
    HessOf t hv r (histFromParentTwoChildren P C C') := by
  obtain ⟨ps, jp, fp⟩ := hP
  obtain ⟨cs, jc, fc⟩ := hC
  obtain ⟨ds, jd, fd⟩ := hC'
  have hl1 : List.Forall₂ (fun (a : List (Bin (FX m32) (FX m64))) b => a.length = b.length) ps cs := by
    refine (forall₂_two fp fc).imp ?_
    rintro a b ⟨col, ⟨f, c, h1, h2, h3, h4, _⟩, ⟨f', c', h1', h2', h3', h4', _⟩⟩
    rw [h2] at h2'; cases h2'
    rw [h4, h4']
  have hl2 : List.Forall₂ (fun (a : List (Bin (FX m32) (FX m64))) b => a.length = b.length) cs ds := by
    refine (forall₂_two fc fd).imp ?_
    rintro a b ⟨col, ⟨f, c, h1, h2, h3, h4, _⟩, ⟨f', c', h1', h2', h3', h4', _⟩⟩
    rw [h2] at h2'; cases h2'
    rw [h4, h4']
  have hz : cs.flatten.zip ds.flatten = (List.zipWith List.zip cs ds).flatten := by
    exact zipWith_flatten _ _ _ hl2
  have hl3 : List.Forall₂ (fun (a : List (Bin (FX m32) (FX m64))) b => a.length = b.length) ps
      (List.zipWith List.zip cs ds) := by
    clear jp jc jd fp fc fd hz
    induction hl1 generalizing ds with
    | nil => cases hl2; exact .nil
    | cons h _ ih =>
      cases hl2 with
      | cons h' h'' => exact .cons (by simp [h, h']) (ih _ h'')
  refine ⟨List.zipWith (List.zipWith fun r p => Bin.fromParentTwoChildren r p.1 p.2) ps
    (List.zipWith List.zip cs ds), ⟨?_, ?_⟩, ?_⟩
  · simp only [histFromParentTwoChildren]
    rw [jp.data_eq, jc.data_eq, jd.data_eq, hz, zipWith_flatten _ _ _ hl3]
  · simp only [histFromParentTwoChildren]
    rw [jc.ends_eq]
    apply endsOf_congr
    clear jp jc jd fp fc fd hz hl3
    induction hl1 generalizing ds with
    | nil => cases hl2; rfl
    | cons h _ ih =>
      cases hl2 with
      | cons h' h'' => simp [ih _ h'', h, h']
  · refine forall₂_zipWith (S := fun col (p : List (Bin (FX m32) (FX m64) × Bin (FX m32) (FX m64))) =>
      ∃ f c a b, t.data.getCol col = .ok f ∧ t.cuts.getCol col = .ok c ∧ c ≠ [] ∧ p = a.zip b ∧
        HessIs a (cutCol c) (binSum f hv l) ∧ HessIs b (cutCol c) (binSum f hv l')) fp
      (forall₂_zipWith fc fd ?_) ?_
    · rintro col a b ⟨f, c, h1, h2, h3, h4⟩ ⟨f', c', h1', h2', h3', h4'⟩
      rw [h2] at h2'; cases h2'
      rw [h1] at h1'; cases h1'
      exact ⟨f, c, a, b, h1, h2, h3, rfl, h4, h4'⟩
    · rintro col p q ⟨f, c, h1, h2, h3, h4, h5⟩ ⟨f', c', a, b, h1', h2', h3', rfl, ha, hb⟩
      rw [h2] at h2'; cases h2'
      rw [h1] at h1'; cases h1'
      refine ⟨f, c, h1, h2, h3, by simp [h4, ha.1, hb.1], fun k x hx => ?_⟩
      rw [List.getElem?_zipWith_eq_some] at hx
      obtain ⟨pb, ab, hpb, hab, rfl⟩ := hx
      rw [List.zip, List.getElem?_zipWith_eq_some] at hab
      obtain ⟨xa, xb, hxa, hxb, rfl⟩ := hab
      obtain ⟨a1, a2⟩ := h5 k pb hpb
      obtain ⟨b1, _⟩ := ha.2 k xa hxa
      obtain ⟨c1, _⟩ := hb.2 k xb hxb
      have e0 : binSum f hv rows k = binSum f hv l k + (binSum f hv l' k + binSum f hv r k) := by
        rw [binSum_perm hp, binSum_append, binSum_append]
      have e : binSum f hv rows k - (binSum f hv l k + binSum f hv l' k) = binSum f hv r k := by
        rw [e0]; ring
      have n1 : 0 ≤ binSum f hv l k := (rowSum_mult hm _).nonneg hu
      have n2 : 0 ≤ binSum f hv l' k := (rowSum_mult hm _).nonneg hu
      have n3 : 0 ≤ binSum f hv r k := (rowSum_mult hm _).nonneg hu
      have hgk := binSum_part hu hm hg f k
      have u1 : Mult u (binSum f hv l k) := rowSum_mult hm _
      have u2 : Mult u (binSum f hv l' k) := rowSum_mult hm _
      have u3 : Mult u (binSum f hv r k) := rowSum_mult hm _
      refine ⟨?_, a2⟩
      simp only [Bin.fromParentTwoChildren]
      rw [a1, b1, c1, G32.add, G32.sub, e]
      · rw [e]
        exact u3.onGrid hu (by linarith) hgk
      · exact (u1.add u2).onGrid hu (by linarith) hgk

/-! ### Nodes -/

variable {t : TrainData (FX m32) (FX m64)} {hv : Nat → K}

/-- The hessian sums of the node are the sums over the rows. -/
structure HessSums (t : TrainData (FX m32) (FX m64)) (hv : Nat → K) (sn : SNode (FX m32) (FX m64))
    (rows : List Nat) : Prop where
  hess : sn.hessianSum = FX.fin (rowSum hv rows)
  hist : sn.isMissingLeaf = false → HessOf t hv rows sn.histograms

/-- What the induction needs to know about the training data. -/
structure GridTrain (t : TrainData (FX m32) (FX m64)) (u : K) (N : Nat) (hv : Nat → K) : Prop where
  pos : 0 < u
  grid32 : m32.Grid u N
  grid64 : m64.Grid u N
  mult : ∀ r, Mult u (hv r)
  laid : t.Laid
  hess : FinRows t.hess hv
  small : ∀ col ∈ t.colIndex, ∀ c, t.cuts.getCol col = .ok c → c.length ≤ 65536

theorem hessSum_grid (hu : 0 < u) (G : m32.Grid u N) {bins : List (Bin (FX m32) (FX m64))} {S : List K}
    (h : bins.map Bin.hess = S.map FX.fin) (hS : ∀ x ∈ S, Mult u x) (hg : OnGrid u N S.sum) :
    hessSum bins = FX.fin S.sum := by
  rw [hessSum, h]; exact G.foldl_zero hu hS hg

/-- The hessians a candidate split is evaluated on. -/
theorem candidate_hess (hT : GridTrain t u N hv) {sn : SNode (FX m32) (FX m64)} {rows : List Nat}
    (hg : OnGrid u N (rowSum hv rows)) (hN : HessSums t hv sn rows) (hml : sn.isMissingLeaf = false)
    (hlt : ∀ r ∈ rows, r < t.data.rows) {j i feature : Nat} {missing bin : Bin (FX m32) (FX m64)}
    {bins : List (Bin (FX m32) (FX m64))} (h1 : t.colIndex[j]? = some feature)
    (h2 : sn.histograms.getCol j = .ok (missing :: bins)) (h3 : bins[i]? = some bin) :
    ∃ f c, t.data.getCol feature = .ok f ∧ t.cuts.getCol feature = .ok c ∧
      i + 1 < c.length ∧ c[i]? = some bin.cut ∧ f.length = t.data.rows ∧
      hessSum (bins.take i) = FX.fin (rowSum hv (rowsOn f (i + 1) [.left] rows)) ∧
      sn.hessianSum - hessSum (bins.take i) - missing.hess =
        FX.fin (rowSum hv (rowsOn f (i + 1) [.right] rows)) ∧
      missing.hess = FX.fin (rowSum hv (rowsOn f (i + 1) [.missing] rows)) := by
  obtain ⟨hs, hj, hf⟩ := hN.hist hml
  have hjlt : j < t.colIndex.length := (List.getElem?_eq_some_iff.1 h1).1
  obtain ⟨h, hh, f, c, e1, e2, e3, e4, e5⟩ : ∃ h, hs[j]? = some h ∧ ∃ f c, t.data.getCol feature = .ok f ∧
      t.cuts.getCol feature = .ok c ∧ c ≠ [] ∧ HessIs h (cutCol c) (binSum f hv rows) := by
    have hjl : j < hs.length := by rw [← hf.length_eq]; exact hjlt
    refine ⟨hs[j], List.getElem?_eq_getElem hjl, ?_⟩
    have := (List.forall₂_iff_get.1 hf).2 j hjlt hjl
    rw [List.getElem?_eq_getElem hjlt] at h1
    injection h1 with h1
    simpa [h1] using this
  rw [hj.getCol, hh, Res.ofOption_some, Res.ok.injEq] at h2
  subst h2
  rw [length_cutCol e3, List.length_cons] at e4
  have hil : i < bins.length := (List.getElem?_eq_some_iff.1 h3).1
  have hfr : ∀ r ∈ rows, r < f.length := by rw [getCol_length e1]; exact hlt
  have hm := (e5 0 missing (by simp)).1
  have hbin := (e5 (i + 1) bin (by simpa using h3)).2
  rw [cutCol, List.getElem?_cons_succ, List.getElem?_take, if_pos (by omega)] at hbin
  have hbk : ∀ k, k < bins.length → bins[k]?.map Bin.hess = some (FX.fin (binSum f hv rows (k + 1))) := by
    intro k hk
    rw [List.getElem?_eq_getElem hk, Option.map_some,
      (e5 (k + 1) bins[k] (by simp [List.getElem?_eq_getElem hk])).1]
  have hpart : ∀ s, OnGrid u N (rowSum hv (rowsOn f (i + 1) s rows)) := fun s =>
    rowSum_part hT.pos hT.mult hg _
  have hh' : hessSum (bins.take i) = FX.fin (rowSum hv (rowsOn f (i + 1) [.left] rows)) := by
    rw [← binSum_left hfr]
    refine hessSum_grid hT.pos hT.grid32 ?_ ?_ (by rw [binSum_left hfr]; exact hpart _)
    · apply List.ext_getElem?
      intro k
      by_cases hk : k < i
      · rw [List.getElem?_map, List.getElem?_take, if_pos hk, hbk k (by omega)]
        simp [hk]
      · rw [List.getElem?_eq_none (by simp; omega), List.getElem?_eq_none (by simp; omega)]
    · intro x hx
      obtain ⟨k, _, rfl⟩ := List.mem_map.1 hx
      exact rowSum_mult hT.mult _
  have hmiss : missing.hess = FX.fin (rowSum hv (rowsOn f (i + 1) [.missing] rows)) := by
    rw [hm, binSum_missing (split := i + 1) hfr]
  refine ⟨f, c, e1, e2, by omega, hbin, getCol_length e1, hh', ?_, hmiss⟩
  have h3' := rowSum_three hv f (i + 1) rows
  have p1 : 0 ≤ rowSum hv (rowsOn f (i + 1) [.missing] rows) := (rowSum_mult hT.mult _).nonneg hT.pos
  have p2 : 0 ≤ rowSum hv (rowsOn f (i + 1) [.left] rows) := (rowSum_mult hT.mult _).nonneg hT.pos
  have q1 : rowSum hv rows - rowSum hv (rowsOn f (i + 1) [.left] rows) =
      rowSum hv (rowsOn f (i + 1) [.missing] rows) + rowSum hv (rowsOn f (i + 1) [.right] rows) := by
    rw [h3']; ring
  have q2 : rowSum hv (rowsOn f (i + 1) [.missing] rows) + rowSum hv (rowsOn f (i + 1) [.right] rows) -
      rowSum hv (rowsOn f (i + 1) [.missing] rows) = rowSum hv (rowsOn f (i + 1) [.right] rows) := by
    ring
  rw [hh', hmiss, hN.hess, hT.grid32.sub, q1, hT.grid32.sub, q2]
  · rw [q2]; exact hpart _
  · rw [q1]
    exact ((rowSum_mult hT.mult _).add (rowSum_mult hT.mult _)).onGrid hT.pos (by rw [h3']; linarith) hg

end

end Verif
