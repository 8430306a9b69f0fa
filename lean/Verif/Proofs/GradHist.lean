import Verif.Proofs.GradErr

/-!
# Rounding errors of the gradient histograms
-/

namespace Verif

open scoped Verif

set_option linter.unusedSectionVars false

section
variable {K : Type} [Field K] [LinearOrder K] [IsStrictOrderedRing K] {m32 m64 : Fmt K}
  {u32 u64 v : K} {P : K → Prop} {N : Nat} {gv : Nat → K}

/-- What the error bounds assume of the formats, with up to `N` rows. -/
structure ErrFmt (m32 m64 : Fmt K) (u32 u64 v : K) (P : K → Prop) (N : Nat) : Prop where
  r32 : m32.Rounds
  r64 : m64.Rounds
  a32 : m32.Accurate v
  a64 : m64.Accurate u64
  embeds : m32.Embeds m64
  narrows : m32.Narrows m64 u32 P
  unit : (1 + u32) * (1 + u64) ^ N ≤ 1 + v

/-- The `m64` accumulators of a histogram after `n` rows. -/
def AccIs (P : K → Prop) (u64 : K) (n : Nat) (h : List (Bin (FX m64) (FX m64))) (G A : Nat → K) : Prop :=
  ∀ (k : Nat) (b : Bin (FX m64) (FX m64)), h[k]? = some b → NearX u64 n b.grad (G k) (A k) ∧ b.grad.PX P

theorem histAdd_grad (hE : ErrFmt m32 m64 u32 u64 v P N) {feature : List Nat} (hrep : ∀ r, m32.Repr (gv r)) :
    ∀ (rows : List Nat) (L : List (Nat × FX m32 × FX m32)) (n : Nat) (G A : Nat → K)
    (h h' : List (Bin (FX m64) (FX m64))),
    L.map (fun p => (p.1, p.2.1)) = rows.map (fun r => (r, FX.fin (gv r))) →
    AccIs P u64 n h G A → Res.foldM' (histAdd (F := FX m32) feature) h L = .ok h' →
    h'.length = h.length ∧ AccIs P u64 (n + rows.length) h' (fun k => G k + binSum feature gv rows k)
      (fun k => A k + binSum feature (fun r => |gv r|) rows k)
  | [], L, n, G, A, h, h', hL, hI, e => by
    cases L with
    | cons p L => simp at hL
    | nil =>
      simp only [Res.foldM', Res.ok.injEq] at e
      subst e
      simpa [binSum_nil] using hI
  | r :: rows, L, n, G, A, h, h', hL, hI, e => by
    cases L with
    | nil => simp at hL
    | cons p L =>
      have hr32 := hE.r32
      have hr64 := hE.r64
      have ha64 := hE.a64
      have hem := hE.embeds
      obtain ⟨r', x, y⟩ := p
      simp only [List.map_cons, List.cons.injEq, Prod.mk.injEq] at hL
      obtain ⟨⟨rfl, rfl⟩, hL⟩ := hL
      rw [Res.foldM'_cons, Res.bind_eq_ok] at e
      obtain ⟨h1, e1, e2⟩ := e
      simp only [histAdd, Res.bind_eq_ok, idx_eq_ok, Res.ok.injEq] at e1
      obtain ⟨b, hb, rfl⟩ := e1
      let G1 : Nat → K := fun k => G k + if feature[r']? = some k then gv r' else 0
      let A1 : Nat → K := fun k => A k + if feature[r']? = some k then |gv r'| else 0
      have hG1 : ∀ k, G1 k + binSum feature gv rows k = G k + binSum feature gv (r' :: rows) k := by
        intro k; rw [binSum_cons, add_assoc]
      have hA1 : ∀ k, A1 k + binSum feature (fun r => |gv r|) rows k =
          A k + binSum feature (fun r => |gv r|) (r' :: rows) k := by
        intro k; rw [binSum_cons, add_assoc]
      have hI1 : AccIs P u64 (n + 1) (h.modify b fun w => { w with
          grad := w.grad + (up (FX.fin (gv r') : FX m32) : FX m64)
          hess := w.hess + (up y : FX m64) }) G1 A1 := by
        intro k c hc
        rw [List.getElem?_modify] at hc
        obtain ⟨c0, hc0, rfl⟩ := Option.map_eq_some_iff.1 hc
        obtain ⟨a1, a2⟩ := hI k c0 hc0
        by_cases hk : b = k
        · subst hk
          simp only [if_true]
          have e0 : G1 b = G b + gv r' := by simp only [G1]; rw [if_pos hb]
          have e1 : A1 b = A b + |gv r'| := by simp only [A1]; rw [if_pos hb]
          have hin : (up (FX.fin (gv r') : FX m32) : FX m64).InFormat :=
            FX.up_inFormat (fun q e => by cases e; exact hrep r')
          rw [e0, e1]
          refine ⟨a1.add ((NearX.of hin rfl).mono ha64.nonneg (by omega)), a2.add hE.narrows ?_⟩
          intro z e
          cases e
          exact hE.narrows.of_repr (hrep r')
        · have e0 : G1 k = G k := by
            simp only [G1]; rw [if_neg (by rw [hb]; simpa using hk), add_zero]
          have e1 : A1 k = A k := by
            simp only [A1]; rw [if_neg (by rw [hb]; simpa using hk), add_zero]
          simp only [hk, if_false]
          rw [e0, e1]
          exact ⟨a1.mono ha64.nonneg (by omega), a2⟩
      obtain ⟨k1, k2⟩ := histAdd_grad hE hrep rows L (n + 1) G1 A1 _ h' hL hI1 e2
      refine ⟨by rw [k1, List.length_modify], ?_⟩
      simp only [hG1, hA1] at k2
      rw [List.length_cons, show n + (rows.length + 1) = n + 1 + rows.length by omega]
      exact k2

/-- The gradients of a histogram approximate the sums over the rows of the bins. -/
def GradIs (v : K) (gv : Nat → K) (rows0 : List Nat) (k : Nat) (rows : List Nat) (f : List Nat)
    (h : List (Bin (FX m32) (FX m64))) : Prop :=
  ∀ (b : Nat) (x : Bin (FX m32) (FX m64)), h[b]? = some x →
    NearX v k x.grad (binSum f gv rows b) (binSum f (fun r => |gv r|) rows0 b)

theorem GradIs.mono (hv : 0 ≤ v) {rows0 rows f : List Nat} {k k' : Nat} (hk : k ≤ k')
    {h : List (Bin (FX m32) (FX m64))} (hI : GradIs v gv rows0 k rows f h) : GradIs v gv rows0 k' rows f h :=
  fun b x hx => (hI b x hx).mono hv hk

theorem createFeatureHistogram_grad (hE : ErrFmt m32 m64 u32 u64 v P N) (hrep : ∀ r, m32.Repr (gv r))
    {rows rows0 : List Nat} (hlen : rows.length ≤ N) (hpart : PartOf rows rows0)
    {feature : List Nat} {cuts : List (FX m64)} {sh : List (FX m32)} (hl : sh.length = rows.length)
    {h' : List (Bin (FX m32) (FX m64))}
    (e : createFeatureHistogram feature cuts (rows.map fun r => FX.fin (gv r)) sh rows = .ok h') :
    cuts ≠ [] ∧ h'.length = cuts.length ∧ GradIs v gv rows0 1 rows feature h' := by
  have hr32 := hE.r32
  have hr64 := hE.r64
  have ha64 := hE.a64
  unfold createFeatureHistogram at e
  split at e
  · cases e
  · rename_i hc
    have hne : cuts ≠ [] := by rintro rfl; exact hc rfl
    simp only [Res.bind_eq_ok, Res.ok.injEq] at e
    obtain ⟨h1, e1, rfl⟩ := e
    have hz : (((rows.zip ((rows.map fun r => (FX.fin (gv r) : FX m32)).zip sh)).map
        fun p => (p.1, p.2.1, p.2.2))).map (fun p => (p.1, p.2.1)) =
        rows.map fun r => (r, FX.fin (gv r)) := by
      clear e1 hlen hpart
      induction rows generalizing sh with
      | nil => rfl
      | cons r rows ih =>
        cases sh with
        | nil => simp at hl
        | cons g sh => simpa using ih (by simpa using hl)
    have hi : ∀ l : List (FX m64), AccIs P u64 0 (l.map Bin.new) (fun _ => (0 : K)) (fun _ => 0) := by
      intro l k b hb
      rw [List.getElem?_map] at hb
      obtain ⟨c, h1, rfl⟩ := Option.map_eq_some_iff.1 hb
      exact ⟨NearX.zero, FX.PX.zero hE.narrows⟩
    obtain ⟨k1, k2⟩ := histAdd_grad hE hrep rows _ 0 _ _ _ _ hz (hi (cutCol cuts)) e1
    refine ⟨hne, ?_, fun b x hx => ?_⟩
    · rw [List.length_map, k1, List.length_map, length_cutCol hne]
    · rw [List.getElem?_map] at hx
      obtain ⟨b0, hb0, rfl⟩ := Option.map_eq_some_iff.1 hx
      obtain ⟨a1, a2⟩ := k2 b b0 hb0
      simp only [zero_add] at a1
      have hv : 0 ≤ v := hE.a32.nonneg
      refine NearX.widen hv (NearX.narrow hE.narrows hE.unit (a1.mono ha64.nonneg hlen) a2) ?_
      exact (hpart.filterBoth _).rowSum_le fun r => abs_nonneg _

/-- The matrix of histograms holds, for each column in use, approximations of the gradient sums of these rows. -/
def GradOf (t : TrainData (FX m32) (FX m64)) (v : K) (gv : Nat → K) (rows0 : List Nat) (k : Nat)
    (rows : List Nat) (m : JaggedMatrix (Bin (FX m32) (FX m64))) : Prop :=
  ∃ hs, Jagged hs m ∧ List.Forall₂ (fun col h => ∃ f c, t.data.getCol col = .ok f ∧
    t.cuts.getCol col = .ok c ∧ c ≠ [] ∧ h.length = c.length ∧ GradIs v gv rows0 k rows f h) t.colIndex hs

theorem GradOf.mono (hv : 0 ≤ v) {t : TrainData (FX m32) (FX m64)} {rows0 rows : List Nat} {k k' : Nat}
    (hk : k ≤ k') {m : JaggedMatrix (Bin (FX m32) (FX m64))} (h : GradOf t v gv rows0 k rows m) :
    GradOf t v gv rows0 k' rows m := by
  obtain ⟨hs, hj, hf⟩ := h
  refine ⟨hs, hj, hf.imp ?_⟩
  rintro a b ⟨f, c, h1, h2, h3, h4, h5⟩
  exact ⟨f, c, h1, h2, h3, h4, h5.mono hv hk⟩

theorem gradOf_matrix (hE : ErrFmt m32 m64 u32 u64 v P N) {t : TrainData (FX m32) (FX m64)} (hl : t.Laid)
    (hrep : ∀ r, m32.Repr (gv r)) {rows rows0 : List Nat} (hlen : rows.length ≤ N)
    (hpart : PartOf rows rows0) {sg sh : List (FX m32)} (h1 : sh.length = rows.length)
    (h2 : sg = rows.map fun r => FX.fin (gv r)) {hs : List (List (Bin (FX m32) (FX m64)))}
    (hmp : Res.mapM' (fun col => do
      let f ← t.data.getCol col
      let c ← t.cuts.getCol col
      createFeatureHistogram f c sg sh rows) t.colIndex = .ok hs)
    {ends : List Nat} {n k : Nat}
    (he : (if t.colIndex.length = t.data.cols then pure t.cuts.ends
      else scanEnds t.cuts 0 t.colIndex) = Res.ok ends) :
    GradOf t v gv rows0 1 rows { data := hs.flatten, ends, cols := k, nRecords := n } := by
  subst h2
  rw [Res.mapM'_eq_ok] at hmp
  have hm' : List.Forall₂ (fun col h => ∃ f c, t.data.getCol col = .ok f ∧
      t.cuts.getCol col = .ok c ∧ c ≠ [] ∧ h.length = c.length ∧ GradIs v gv rows0 1 rows f h)
      t.colIndex hs := by
    refine hmp.imp ?_
    intro col h e
    simp only [Res.bind_eq_ok] at e
    obtain ⟨f, hf, c, hc, e⟩ := e
    obtain ⟨e1, e2, e3⟩ := createFeatureHistogram_grad hE hrep hlen hpart h1 e
    exact ⟨f, c, hf, hc, e1, e2, e3⟩
  refine ⟨hs, histogramMatrix_jagged hl (hm'.imp ?_) he, hm'⟩
  rintro a b ⟨f, c, _, hc, hne, hI, _⟩
  exact ⟨c, hc, hI⟩

theorem gradOf_rows (hE : ErrFmt m32 m64 u32 u64 v P N) {t : TrainData (FX m32) (FX m64)} (hl : t.Laid)
    (hrep : ∀ r, m32.Repr (gv r)) {rows rows0 : List Nat} (hlen : rows.length ≤ N)
    (hpart : PartOf rows rows0) (hh : FinRows t.grad gv) {m : JaggedMatrix (Bin (FX m32) (FX m64))}
    (h : histogramMatrix t.data t.cuts t.grad t.hess rows t.colIndex true = .ok m) :
    GradOf t v gv rows0 1 rows m := by
  obtain ⟨sg, sh, hs, ends, h1, _, hmp, he, rfl⟩ := histogramMatrix_form h
  obtain ⟨h1, h2⟩ := h1 rfl
  exact gradOf_matrix hE hl hrep hlen hpart (Res.mapM'_eq_ok.1 h2).length_eq.symm (finRows_gather hh h1) hmp he

theorem gradOf_all (hE : ErrFmt m32 m64 u32 u64 v P N) {t : TrainData (FX m32) (FX m64)} (hl : t.Laid)
    (hrep : ∀ r, m32.Repr (gv r)) (hlen : t.grad.length ≤ N) (hh : FinRows t.grad gv)
    (hhl : t.hess.length = t.grad.length) {m : JaggedMatrix (Bin (FX m32) (FX m64))}
    (h : histogramMatrix t.data t.cuts t.grad t.hess (List.range t.grad.length) t.colIndex false = .ok m) :
    GradOf t v gv (List.range t.grad.length) 1 (List.range t.grad.length) m := by
  obtain ⟨sg, sh, hs, ends, _, h1, hmp, he, rfl⟩ := histogramMatrix_form h
  obtain ⟨rfl, rfl⟩ := h1 rfl
  exact gradOf_matrix hE hl hrep (by simpa using hlen) (.refl _) (by simpa using hhl) hh.eq_range hmp he

theorem binSum_abs_le {rows rows0 : List Nat} (h : PartOf rows rows0) (f : List Nat) (b : Nat) :
    |binSum f gv rows b| ≤ binSum f (fun r => |gv r|) rows0 b := (h.filterBoth _).abs_le

/-- Subtracting one part. -/
theorem GradOf.sub (hE : ErrFmt m32 m64 u32 u64 v P N) {t : TrainData (FX m32) (FX m64)} {k : Nat}
    {rows0 rows l r : List Nat} (hpart : PartOf rows rows0)
    {Pm C : JaggedMatrix (Bin (FX m32) (FX m64))} (hP : GradOf t v gv rows0 k rows Pm)
    (hC : GradOf t v gv rows0 1 l C) (hp : rows.Perm (l ++ r)) :
    GradOf t v gv rows0 (k + 2) r (histFromParentChild Pm C) := by
  have hr32 := hE.r32
  have ha32 := hE.a32
  obtain ⟨ps, jp, fp⟩ := hP
  obtain ⟨cs, jc, fc⟩ := hC
  have hlen : List.Forall₂ (fun (a : List (Bin (FX m32) (FX m64))) b => a.length = b.length) ps cs := by
    refine (forall₂_two fp fc).imp ?_
    rintro a b ⟨col, ⟨f, c, h1, h2, h3, h4, _⟩, ⟨f', c', h1', h2', h3', h4', _⟩⟩
    rw [h2] at h2'; cases h2'
    rw [h4, h4']
  refine ⟨List.zipWith (List.zipWith Bin.fromParentChild) ps cs, ⟨?_, ?_⟩, ?_⟩
  · simp only [histFromParentChild]
    rw [jp.data_eq, jc.data_eq, zipWith_flatten _ _ _ hlen]
  · simp only [histFromParentChild]
    rw [jc.ends_eq]
    apply endsOf_congr
    clear jp jc fp fc
    induction hlen with
    | nil => rfl
    | cons h _ ih => simp [ih, h]
  · refine forall₂_zipWith fp fc ?_
    rintro col a b ⟨f, c, h1, h2, h3, h4, h5⟩ ⟨f', c', h1', h2', h3', h4', h5'⟩
    rw [h2] at h2'; cases h2'
    rw [h1] at h1'; cases h1'
    refine ⟨f, c, h1, h2, h3, by rw [List.length_zipWith, h4, h4', Nat.min_self], fun q x hx => ?_⟩
    rw [List.getElem?_zipWith_eq_some] at hx
    obtain ⟨pb, cb, hpb, hcb, rfl⟩ := hx
    have e : binSum f gv rows q - binSum f gv l q = binSum f gv r q := by
      rw [binSum_perm hp, binSum_append]; ring
    have hr : PartOf r rows0 := PartOf.trans ⟨l, hp.trans List.perm_append_comm⟩ hpart
    have := (h5 q pb hpb).sub_in (h5' q cb hcb) (by rw [e]; exact binSum_abs_le hr f q)
    rw [e] at this
    exact this

/-- Subtracting two parts. -/
theorem GradOf.sub2 (hE : ErrFmt m32 m64 u32 u64 v P N) {t : TrainData (FX m32) (FX m64)} {k : Nat}
    {rows0 rows l l' r : List Nat} (hpart : PartOf rows rows0)
    {Pm C C' : JaggedMatrix (Bin (FX m32) (FX m64))} (hP : GradOf t v gv rows0 k rows Pm)
    (hC : GradOf t v gv rows0 1 l C) (hC' : GradOf t v gv rows0 1 l' C')
    (hp : rows.Perm (l ++ (l' ++ r))) :
    GradOf t v gv rows0 (k + 4) r (histFromParentTwoChildren Pm C C') := by
  have hr32 := hE.r32
  have ha32 := hE.a32
  obtain ⟨ps, jp, fp⟩ := hP
  obtain ⟨cs, jc, fc⟩ := hC
  obtain ⟨ds, jd, fd⟩ := hC'
  have hl1 : List.Forall₂ (fun (a : List (Bin (FX m32) (FX m64))) b => a.length = b.length) ps cs := by
    refine (forall₂_two fp fc).imp ?_
    rintro a b ⟨col, ⟨f, c, h1, h2, h3, h4, _⟩, ⟨f', c', h1', h2', h3', h4', _⟩⟩
    rw [h2] at h2'; cases h2'
    rw [h4, h4']
  have hl2 : List.Forall₂ (fun (a : List (Bin (FX m32) (FX m64))) b => a.length = b.length) cs ds := by
    refine (forall₂_two fc fd).imp ?_
    rintro a b ⟨col, ⟨f, c, h1, h2, h3, h4, _⟩, ⟨f', c', h1', h2', h3', h4', _⟩⟩
    rw [h2] at h2'; cases h2'
    rw [h4, h4']
  have hz : cs.flatten.zip ds.flatten = (List.zipWith List.zip cs ds).flatten := by
    exact zipWith_flatten _ _ _ hl2
  have hl3 : List.Forall₂ (fun (a : List (Bin (FX m32) (FX m64))) b => a.length = b.length) ps
      (List.zipWith List.zip cs ds) := by
    clear jp jc jd fp fc fd hz
    induction hl1 generalizing ds with
    | nil => cases hl2; exact .nil
    | cons h _ ih =>
      cases hl2 with
      | cons h' h'' => exact .cons (by simp [h, h']) (ih _ h'')
  refine ⟨List.zipWith (List.zipWith fun r p => Bin.fromParentTwoChildren r p.1 p.2) ps
    (List.zipWith List.zip cs ds), ⟨?_, ?_⟩, ?_⟩
  · simp only [histFromParentTwoChildren]
    rw [jp.data_eq, jc.data_eq, jd.data_eq, hz, zipWith_flatten _ _ _ hl3]
  · simp only [histFromParentTwoChildren]
    rw [jc.ends_eq]
    apply endsOf_congr
    clear jp jc jd fp fc fd hz hl3
    induction hl1 generalizing ds with
    | nil => cases hl2; rfl
    | cons h _ ih =>
      cases hl2 with
      | cons h' h'' => simp [ih _ h'', h, h']
  · refine forall₂_zipWith (S := fun col (p : List (Bin (FX m32) (FX m64) × Bin (FX m32) (FX m64))) =>
      ∃ f c a b, t.data.getCol col = .ok f ∧ t.cuts.getCol col = .ok c ∧ c ≠ [] ∧ p = a.zip b ∧
        a.length = c.length ∧ b.length = c.length ∧
        GradIs v gv rows0 1 l f a ∧ GradIs v gv rows0 1 l' f b) fp
      (forall₂_zipWith fc fd ?_) ?_
    · rintro col a b ⟨f, c, h1, h2, h3, h4, h5⟩ ⟨f', c', h1', h2', h3', h4', h5'⟩
      rw [h2] at h2'; cases h2'
      rw [h1] at h1'; cases h1'
      exact ⟨f, c, a, b, h1, h2, h3, rfl, h4, h4', h5, h5'⟩
    · rintro col p q ⟨f, c, h1, h2, h3, h4, h5⟩ ⟨f', c', a, b, h1', h2', h3', rfl, la, lb, ha, hb⟩
      rw [h2] at h2'; cases h2'
      rw [h1] at h1'; cases h1'
      refine ⟨f, c, h1, h2, h3, by simp [h4, la, lb], fun q x hx => ?_⟩
      rw [List.getElem?_zipWith_eq_some] at hx
      obtain ⟨pb, ab, hpb, hab, rfl⟩ := hx
      rw [List.zip, List.getElem?_zipWith_eq_some] at hab
      obtain ⟨xa, xb, hxa, hxb, rfl⟩ := hab
      have e0 : binSum f gv rows q = binSum f gv l q + (binSum f gv l' q + binSum f gv r q) := by
        rw [binSum_perm hp, binSum_append, binSum_append]
      have e : binSum f gv rows q - (binSum f gv l q + binSum f gv l' q) = binSum f gv r q := by
        rw [e0]; ring
      have hr : PartOf r rows0 := PartOf.trans ⟨l ++ l', hp.trans (by
        rw [← List.append_assoc]; exact List.perm_append_comm)⟩ hpart
      have hll : PartOf (l ++ l') rows0 := PartOf.trans ⟨r, by rw [List.append_assoc]; exact hp⟩ hpart
      have hs := (ha q xa hxa).add_in (hb q xb hxb) (by
        rw [← binSum_append]; exact binSum_abs_le hll f q)
      have := (h5 q pb hpb).sub_in hs (by rw [e]; exact binSum_abs_le hr f q)
      rw [e, show k + (1 + 1 + 1) + 1 = k + 4 by omega] at this
      exact this

end

end Verif
