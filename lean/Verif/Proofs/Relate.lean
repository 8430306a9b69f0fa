import Verif.Proofs.Hist

/-!
# Growing does not look at the cut values

Two runs of `Tree::fit` on the same bins, gradients and columns whose cut values differ make the same
decisions: the trees are equal but for the split values, which correspond.
-/

namespace Verif

open scoped Verif

set_option linter.unusedSectionVars false

/-- Two results of the same kind, with related values. -/
def Res.Rel {α β : Type} (R : α → β → Prop) : Res α → Res β → Prop
  | .ok a, .ok b => R a b
  | .panic, .panic => True
  | .diverge, .diverge => True
  | _, _ => False

namespace Res
variable {α β γ δ : Type}

theorem Rel.refl {R : α → α → Prop} (h : ∀ a, R a a) (x : Res α) : Rel R x x := by
  cases x <;> simp [Rel, h]

theorem Rel.of_eq {x y : Res α} (h : x = y) : Rel Eq x y := by
  subst h; exact Rel.refl (fun _ => rfl) x

theorem Rel.eq {x y : Res α} (h : Rel Eq x y) : x = y := by
  cases x <;> cases y <;> simp_all [Rel]

theorem Rel.bind {R : α → β → Prop} {S : γ → δ → Prop} {x : Res α} {y : Res β} {f : α → Res γ}
    {g : β → Res δ} (h : Rel R x y)
    (hf : ∀ a b, x = .ok a → y = .ok b → R a b → Rel S (f a) (g b)) : Rel S (x >>= f) (y >>= g) := by
  cases x <;> cases y <;> first
    | exact h.elim
    | exact hf _ _ rfl rfl h
    | trivial

theorem Rel.mono {R S : α → β → Prop} {x : Res α} {y : Res β} (h : Rel R x y)
    (hi : ∀ a b, x = .ok a → y = .ok b → R a b → S a b) : Rel S x y := by
  cases x <;> cases y <;> first
    | exact h.elim
    | exact hi _ _ rfl rfl h
    | trivial

theorem Rel.mapM' {R : γ → δ → Prop} {S : α → β → Prop} {f : α → Res γ} {g : β → Res δ} {l : List α}
    {l' : List β} (h : List.Forall₂ S l l') (hf : ∀ a b, S a b → Rel R (f a) (g b)) :
    Rel (List.Forall₂ R) (Res.mapM' f l) (Res.mapM' g l') := by
  induction h with
  | nil => exact List.Forall₂.nil
  | cons h _ ih =>
    simp only [mapM'_cons]
    refine (hf _ _ h).bind fun a b _ _ hab => ih.bind fun as bs _ _ hl => ?_
    exact List.Forall₂.cons hab hl

theorem Rel.of_ok {R : α → β → Prop} {x : Res α} {y : Res β} {b : β} (h : Rel R x y)
    (hy : y = .ok b) : ∃ a, x = .ok a ∧ R a b := by
  subst hy
  cases x <;> first
    | exact ⟨_, rfl, h⟩
    | exact h.elim

end Res

variable {F D : Type} [Fl F] [Fl D] [FlCast F D]

/-! ## Histograms -/

/-- The cut values of a pair of bins. -/
def cutPair (p : Bin F D × Bin F D) : D × D := (p.1.cut, p.2.cut)

/-- Two matrices of histograms with equal sums, whose cut values are `CC` column by column. -/
def HistSim (CC : List (List (D × D))) (H H' : JaggedMatrix (Bin F D)) : Prop :=
  H.ends = endsOf 0 CC ∧ H'.ends = endsOf 0 CC ∧ ∃ P : List (Bin F D × Bin F D),
    H.data = P.map Prod.fst ∧ H'.data = P.map Prod.snd ∧ P.map cutPair = CC.flatten ∧
    ∀ p ∈ P, p.1.grad = p.2.grad ∧ p.1.hess = p.2.hess

theorem split_map_flatten {α β : Type} (f : α → β) : ∀ (C : List (List β)) (l : List α),
    l.map f = C.flatten → ∃ hs : List (List α), l = hs.flatten ∧ hs.map (List.map f) = C
  | [], l, h => ⟨[], by simpa using h, rfl⟩
  | c :: C, l, h => by
    rw [List.flatten_cons, List.map_eq_append_iff] at h
    obtain ⟨l1, l2, rfl, h1, h2⟩ := h
    obtain ⟨hs, rfl, h3⟩ := split_map_flatten f C l2 h2
    exact ⟨l1 :: hs, rfl, by rw [List.map_cons, h1, h3]⟩

/-- Two columns of histograms. -/
def ColSim (c : List (D × D)) (h h' : List (Bin F D)) : Prop :=
  ∃ P : List (Bin F D × Bin F D), h = P.map Prod.fst ∧ h' = P.map Prod.snd ∧ P.map cutPair = c ∧
    ∀ p ∈ P, p.1.grad = p.2.grad ∧ p.1.hess = p.2.hess

theorem HistSim.getCol {CC : List (List (D × D))} {H H' : JaggedMatrix (Bin F D)}
    (h : HistSim CC H H') (k : Nat) :
    Res.Rel (fun c c' => ∃ cc, CC[k]? = some cc ∧ ColSim cc c c') (H.getCol k) (H'.getCol k) := by
  obtain ⟨e1, e2, P, d1, d2, hc, hs⟩ := h
  obtain ⟨PP, rfl, hPP⟩ := split_map_flatten cutPair CC P hc
  have j1 : Jagged (PP.map (List.map Prod.fst)) H := by
    refine ⟨by rw [d1, List.map_flatten], ?_⟩
    rw [e1]; apply endsOf_congr
    rw [← hPP]; simp [Function.comp_def]
  have j2 : Jagged (PP.map (List.map Prod.snd)) H' := by
    refine ⟨by rw [d2, List.map_flatten], ?_⟩
    rw [e2]; apply endsOf_congr
    rw [← hPP]; simp [Function.comp_def]
  rw [j1.getCol, j2.getCol, List.getElem?_map, List.getElem?_map]
  cases hk : PP[k]? with
  | none => trivial
  | some P =>
    refine ⟨P.map cutPair, by rw [← hPP, List.getElem?_map, hk]; rfl, P, rfl, rfl, rfl, ?_⟩
    intro p hp
    exact hs p (List.mem_flatten.2 ⟨P, List.mem_of_getElem? hk, hp⟩)

theorem zipWith_left {α β γ : Type} (f : α → γ) : ∀ (l : List α) (l' : List β),
    l.length = l'.length → List.zipWith (fun a _ => f a) l l' = l.map f
  | [], [], _ => rfl
  | a :: l, b :: l', h => by simp [zipWith_left f l l' (by simpa using h)]
  | [], _ :: _, h => by simp at h
  | _ :: _, [], h => by simp at h

theorem HistSim.child {CC : List (List (D × D))} {H H' C C' : JaggedMatrix (Bin F D)}
    (h : HistSim CC H H') (hc : HistSim CC C C') :
    HistSim CC (histFromParentChild H C) (histFromParentChild H' C') := by
  obtain ⟨e1, e2, P, d1, d2, hp, hs⟩ := h
  obtain ⟨f1, f2, Q, g1, g2, hq, ht⟩ := hc
  have hl : P.length = Q.length := by
    have := congrArg List.length (hp.trans hq.symm); simpa using this
  refine ⟨f1, f2, List.zipWith (fun p q => (Bin.fromParentChild p.1 q.1, Bin.fromParentChild p.2 q.2)) P Q,
    ?_, ?_, ?_, ?_⟩
  · simp only [histFromParentChild, d1, g1, List.zipWith_map, List.map_zipWith]
  · simp only [histFromParentChild, d2, g2, List.zipWith_map, List.map_zipWith]
  · rw [List.map_zipWith, ← hp, ← zipWith_left cutPair P Q hl]
    rfl
  · intro r hr
    obtain ⟨i, hi, rfl⟩ := List.getElem_of_mem hr
    have hi2 : i < P.length ∧ i < Q.length := by simpa using hi
    have a := hs P[i] (List.getElem_mem _)
    have b := ht Q[i] (List.getElem_mem _)
    simp only [List.getElem_zipWith, Bin.fromParentChild, a.1, a.2, b.1, b.2, and_self]

theorem HistSim.children {CC : List (List (D × D))} {H H' A A' B B' : JaggedMatrix (Bin F D)}
    (h : HistSim CC H H') (ha : HistSim CC A A') (hb : HistSim CC B B') :
    HistSim CC (histFromParentTwoChildren H A B) (histFromParentTwoChildren H' A' B') := by
  obtain ⟨e1, e2, P, d1, d2, hp, hs⟩ := h
  obtain ⟨f1, f2, Q, g1, g2, hq, ht⟩ := ha
  obtain ⟨_, _, S, k1, k2, hS, hu⟩ := hb
  have hl : P.length = Q.length := by
    have := congrArg List.length (hp.trans hq.symm); simpa using this
  have hl2 : P.length = S.length := by
    have := congrArg List.length (hp.trans hS.symm); simpa using this
  refine ⟨f1, f2, List.zipWith (fun p (q : (Bin F D × Bin F D) × (Bin F D × Bin F D)) =>
    (Bin.fromParentTwoChildren p.1 q.1.1 q.2.1, Bin.fromParentTwoChildren p.2 q.1.2 q.2.2)) P (Q.zip S),
    ?_, ?_, ?_, ?_⟩
  · simp only [histFromParentTwoChildren, d1, g1, k1, List.zipWith_map, List.map_zipWith, List.zip_map]
    rfl
  · simp only [histFromParentTwoChildren, d2, g2, k2, List.zipWith_map, List.map_zipWith, List.zip_map]
    rfl
  · rw [List.map_zipWith, ← hp, ← zipWith_left cutPair P (Q.zip S) (by simp [← hl, ← hl2])]
    rfl
  · intro r hr
    obtain ⟨i, hi, rfl⟩ := List.getElem_of_mem hr
    have hi2 : i < P.length ∧ i < Q.length ∧ i < S.length := by simpa using hi
    have a := hs P[i] (List.getElem_mem _)
    have b := ht Q[i] (List.getElem_mem _)
    have c := hu S[i] (List.getElem_mem _)
    simp only [List.getElem_zipWith, List.getElem_zip, Bin.fromParentTwoChildren, a.1, a.2, b.1, b.2, c.1, c.2,
      and_self]

/-- The histogram with other cut values. -/
def setCuts {G : Type} (cs : List D) (h : List (Bin G D)) : List (Bin G D) :=
  List.zipWith (fun c b => { b with cut := c }) cs h

theorem histAdd_setCuts (cs : List D) (feature : List Nat) (h : List (Bin D D)) (r : Nat × F × F) :
    histAdd feature (setCuts cs h) r = (do let h' ← histAdd feature h r; .ok (setCuts cs h')) := by
  unfold histAdd
  rw [Res.bind_assoc']
  congr 1
  funext b
  simp only [Res.ok_bind, Res.ok.injEq]
  apply List.ext_getElem?
  intro i
  simp only [setCuts, List.getElem?_modify, List.getElem?_zipWith]
  by_cases hb : b = i
  · subst hb
    cases cs[b]? <;> cases h[b]? <;> simp
  · cases cs[i]? <;> cases h[i]? <;> simp [hb]

theorem foldM'_histAdd_setCuts (cs : List D) (feature : List Nat) : ∀ (l : List (Nat × F × F))
    (h : List (Bin D D)), Res.foldM' (histAdd feature) (setCuts cs h) l =
      (do let h' ← Res.foldM' (histAdd feature) h l; .ok (setCuts cs h'))
  | [], h => rfl
  | r :: l, h => by
    simp only [Res.foldM'_cons]
    rw [histAdd_setCuts, Res.bind_assoc', Res.bind_assoc']
    congr 1
    funext h'
    exact foldM'_histAdd_setCuts cs feature l h'

theorem histAdd_cuts {feature : List Nat} {h h' : List (Bin D D)} {r : Nat × F × F}
    (e : histAdd feature h r = .ok h') : h'.map Bin.cut = h.map Bin.cut := by
  unfold histAdd at e
  simp only [Res.bind_eq_ok, Res.ok.injEq] at e
  obtain ⟨b, _, rfl⟩ := e
  apply List.ext_getElem?
  intro i
  simp only [List.getElem?_map, List.getElem?_modify]
  by_cases hb : b = i
  · subst hb; cases h[b]? <;> simp
  · cases h[i]? <;> simp [hb]

theorem foldM'_histAdd_cuts {feature : List Nat} : ∀ (l : List (Nat × F × F)) (h h' : List (Bin D D)),
    Res.foldM' (histAdd feature) h l = .ok h' → h'.map Bin.cut = h.map Bin.cut
  | [], h, h', e => by simp only [Res.foldM'_nil, Res.ok.injEq] at e; rw [e]
  | r :: l, h, h', e => by
    simp only [Res.foldM'_cons, Res.bind_eq_ok] at e
    obtain ⟨h1, e1, e2⟩ := e
    rw [foldM'_histAdd_cuts l h1 h' e2, histAdd_cuts e1]

/-- Histograms of one feature for two lists of cuts of the same length. -/
theorem createFeatureHistogram_sim {feature : List Nat} {c c' : List D} (hl : c.length = c'.length)
    (sg sh : List F) (index : List Nat) :
    Res.Rel (fun h h' => ColSim ((cutCol c).zip (cutCol c')) h h' ∧ c ≠ [])
      (createFeatureHistogram feature c sg sh index) (createFeatureHistogram feature c' sg sh index) := by
  unfold createFeatureHistogram
  rw [← hl]
  split
  · trivial
  · rename_i hne
    have hne' : c ≠ [] := by intro h; exact hne (by rw [h]; rfl)
    have hlen : (cutCol c').length = (cutCol c).length := by simp [cutCol, hl]
    have e0 : (Bin.new Fl.nan :: (c'.take (c.length - 1)).map Bin.new : List (Bin D D)) =
        setCuts (cutCol c') (Bin.new Fl.nan :: (c.take (c.length - 1)).map Bin.new) := by
      rw [show (Bin.new Fl.nan :: (c'.take (c.length - 1)).map Bin.new : List (Bin D D)) =
        (cutCol c').map Bin.new by simp [cutCol, hl],
        show (Bin.new Fl.nan :: (c.take (c.length - 1)).map Bin.new : List (Bin D D)) =
        (cutCol c).map Bin.new by simp [cutCol]]
      rw [setCuts, List.zipWith_map_right]
      exact (zipWith_left Bin.new _ _ hlen).symm
    dsimp only
    rw [e0, foldM'_histAdd_setCuts, Res.bind_assoc']
    cases hh : Res.foldM' (histAdd feature)
      (Bin.new Fl.nan :: (c.take (c.length - 1)).map Bin.new : List (Bin D D))
      ((index.zip (sg.zip sh)).map fun p => (p.1, p.2.1, p.2.2)) with
    | panic => trivial
    | diverge => trivial
    | ok h =>
      have hcut : h.map Bin.cut = cutCol c := by
        rw [foldM'_histAdd_cuts _ _ _ hh]
        simp [cutCol, Bin.new, Function.comp_def]
      have hl2 : h.length = (cutCol c').length := by
        rw [hlen, ← hcut]; simp
      refine ⟨⟨List.zipWith (fun x (b : Bin D D) => (b.asF32, ({ b with cut := x } : Bin D D).asF32))
        (cutCol c') h, ?_, ?_, ?_, ?_⟩, hne'⟩
      · rw [List.map_zipWith]
        exact ((List.zipWith_comm ..).trans (zipWith_left Bin.asF32 h (cutCol c') hl2)).symm
      · rw [List.map_zipWith, setCuts, List.map_zipWith]
      · rw [List.map_zipWith, ← hcut, List.zip, List.zipWith_map_left, List.zipWith_comm]
        rfl
      · intro r hr
        obtain ⟨i, hi, rfl⟩ := List.getElem_of_mem hr
        simp only [List.getElem_zipWith, Bin.asF32, and_self]

/-- Two sets of training data that differ in the cut values. -/
structure TrainSim (V : Nat → D → D → Prop) (t t' : TrainData F D) : Prop where
  laid : t.Laid
  laid' : t'.Laid
  data : t'.data = t.data
  grad : t'.grad = t.grad
  hess : t'.hess = t.hess
  cols : t'.colIndex = t.colIndex
  ends : t'.cuts.ends = t.cuts.ends
  cuts : ∀ j, Res.Rel (fun c c' => c.length = c'.length ∧
    List.Forall₂ (V j) (c.take (c.length - 1)) (c'.take (c'.length - 1))) (t.cuts.getCol j) (t'.cuts.getCol j)

/-- Every column of cut pairs is related, except for the bin of missing values. -/
def CutsSim (V : Nat → D → D → Prop) (cols : List Nat) (CC : List (List (D × D))) : Prop :=
  List.Forall₂ (fun j c => ∃ x l, c = x :: l ∧ ∀ p ∈ l, V j p.1 p.2) cols CC

/-- The cut pairs of a column. -/
def colPairs (t t' : TrainData F D) (j : Nat) : List (D × D) :=
  match t.cuts.getCol j, t'.cuts.getCol j with
  | .ok c, .ok c' => (cutCol c).zip (cutCol c')
  | _, _ => []

theorem scanEnds_sim {V : Nat → D → D → Prop} {t t' : TrainData F D} (h : TrainSim V t t') :
    ∀ (cols : List Nat) (s : Nat), scanEnds t'.cuts s cols = scanEnds t.cuts s cols
  | [], _ => rfl
  | j :: cols, s => by
    simp only [scanEnds]
    have := h.cuts j
    cases h1 : t.cuts.getCol j <;> cases h2 : t'.cuts.getCol j <;> rw [h1, h2] at this <;> first
      | exact this.elim
      | rfl
      | (simp only [Res.ok_bind]
         rw [scanEnds_sim h cols, this.1])

theorem forall₂_getCol {f : Nat → Res (List (Bin F D))} {g : Nat → Res (List (Bin F D))} {R : Nat → List (Bin F D) → List (Bin F D) → Prop}
    (h : ∀ j, Res.Rel (R j) (f j) (g j)) : ∀ (cols : List Nat),
    Res.Rel (fun hs hs' => ∃ PP : List (List (Bin F D) × List (Bin F D)), hs = PP.map Prod.fst ∧
      hs' = PP.map Prod.snd ∧ List.Forall₂ (fun j p => R j p.1 p.2) cols PP) (Res.mapM' f cols)
      (Res.mapM' g cols)
  | [] => ⟨[], rfl, rfl, .nil⟩
  | j :: cols => by
    simp only [Res.mapM'_cons]
    refine (h j).bind fun a b _ _ hab => (forall₂_getCol h cols).bind fun as bs _ _ hl => ?_
    obtain ⟨PP, rfl, rfl, hPP⟩ := hl
    exact ⟨(a, b) :: PP, rfl, rfl, .cons hab hPP⟩

theorem histogramMatrix_sim {V : Nat → D → D → Prop} {t t' : TrainData F D} (h : TrainSim V t t')
    (index : List Nat) (sort : Bool) :
    Res.Rel (fun H H' => HistSim (t.colIndex.map (colPairs t t')) H H' ∧
        CutsSim V t.colIndex (t.colIndex.map (colPairs t t')))
      (histogramMatrix t.data t.cuts t.grad t.hess index t.colIndex sort)
      (histogramMatrix t'.data t'.cuts t'.grad t'.hess index t'.colIndex sort) := by
  unfold histogramMatrix
  rw [h.data, h.grad, h.hess, h.cols]
  have key : ∀ sg sh : List F, Res.Rel (fun H H' => HistSim (t.colIndex.map (colPairs t t')) H H' ∧
        CutsSim V t.colIndex (t.colIndex.map (colPairs t t'))) (do
      let hists ← Res.mapM' (fun col => do
        let f ← t.data.getCol col
        let c ← t.cuts.getCol col
        createFeatureHistogram f c sg sh index) t.colIndex
      let ends ← if t.colIndex.length = t.data.cols then pure t.cuts.ends else scanEnds t.cuts 0 t.colIndex
      let n := if t.colIndex.length = t.data.cols then t.cuts.nRecords else ends.sum
      .ok { data := hists.flatten, ends, cols := t.colIndex.length, nRecords := n }) (do
      let hists ← Res.mapM' (fun col => do
        let f ← t.data.getCol col
        let c ← t'.cuts.getCol col
        createFeatureHistogram f c sg sh index) t.colIndex
      let ends ← if t.colIndex.length = t.data.cols then pure t'.cuts.ends else scanEnds t'.cuts 0 t.colIndex
      let n := if t.colIndex.length = t.data.cols then t'.cuts.nRecords else ends.sum
      .ok { data := hists.flatten, ends, cols := t.colIndex.length, nRecords := n }) := by
    intro sg sh
    refine (forall₂_getCol (R := fun j a b => ColSim (colPairs t t' j) a b ∧
      (∃ x l, colPairs t t' j = x :: l ∧ ∀ p ∈ l, V j p.1 p.2) ∧
      ∃ c, t.cuts.getCol j = .ok c ∧ a.length = c.length) ?_ t.colIndex).bind ?_
    · intro j
      refine (Res.Rel.of_eq rfl).bind fun f f' _ _ hf => ?_
      subst hf
      refine (h.cuts j).bind fun c c' hc hc' hcc => ?_
      refine (createFeatureHistogram_sim hcc.1 sg sh index).mono fun a b _ _ hab => ?_
      have hcp : colPairs t t' j = (cutCol c).zip (cutCol c') := by
        unfold colPairs; rw [hc, hc']
      refine ⟨by rw [hcp]; exact hab.1, ⟨(Fl.nan, Fl.nan), _, by rw [hcp, cutCol, cutCol, List.zip_cons_cons], ?_⟩,
        c, hc, ?_⟩
      · intro p hp
        obtain ⟨i, hi, rfl⟩ := List.getElem_of_mem hp
        rw [List.getElem_zip]
        simp only [List.length_zip, Nat.lt_min] at hi
        exact (List.forall₂_iff_get.1 hcc.2).2 i hi.1 hi.2
      · obtain ⟨⟨P, rfl, _, hP, _⟩, hne⟩ := hab
        have := congrArg List.length hP
        have hpos := List.length_pos_iff.2 hne
        simp only [List.length_map, List.length_zip, cutCol, List.length_cons, List.length_take, ← hcc.1] at this ⊢
        omega
    · rintro hs hs' hm hm' ⟨PP, rfl, rfl, hPP⟩
      clear hm hm'
      rw [scanEnds_sim h, h.ends]
      have hcs : CutsSim V t.colIndex (t.colIndex.map (colPairs t t')) := by
        unfold CutsSim
        rw [List.forall₂_map_right_iff]
        refine List.forall₂_same.2 fun j hj => ?_
        obtain ⟨i, hi, rfl⟩ := List.getElem_of_mem hj
        have hl := hPP.length_eq
        exact ((List.forall₂_iff_get.1 hPP).2 i hi (by omega)).2.1
      have hj : ∀ ends, (if t.colIndex.length = t.data.cols then pure t.cuts.ends
          else scanEnds t.cuts 0 t.colIndex) = Res.ok ends → ends = endsOf 0 (PP.map Prod.fst) := by
        intro ends he
        refine (histogramMatrix_jagged (n := 0) (k := 0) h.laid ?_ he).ends_eq
        rw [List.forall₂_map_right_iff]
        exact hPP.imp fun _ _ hp => hp.2.2
      have key2 : ∀ ends n n', ends = endsOf 0 (PP.map Prod.fst) →
          HistSim (t.colIndex.map (colPairs t t'))
            ({ data := (PP.map Prod.fst).flatten, ends, cols := t.colIndex.length, nRecords := n } : JaggedMatrix (Bin F D))
            { data := (PP.map Prod.snd).flatten, ends, cols := t.colIndex.length, nRecords := n' } := by
        intro ends n n' he
        have hz : ∃ QQ : List (List (Bin F D × Bin F D)), PP.map Prod.fst = QQ.map (List.map Prod.fst) ∧
            PP.map Prod.snd = QQ.map (List.map Prod.snd) ∧
            QQ.map (List.map cutPair) = t.colIndex.map (colPairs t t') ∧
            ∀ Q ∈ QQ, ∀ p ∈ Q, p.1.grad = p.2.grad ∧ p.1.hess = p.2.hess := by
          clear hcs hj he
          generalize t.colIndex = cols at hPP
          induction hPP with
          | nil => exact ⟨[], rfl, rfl, rfl, by simp⟩
          | cons hp _ ih =>
            obtain ⟨QQ, a1, a2, a3, a4⟩ := ih
            obtain ⟨⟨P, b1, b2, b3, b4⟩, _⟩ := hp
            refine ⟨P :: QQ, by simp [a1, b1], by simp [a2, b2], by simp [a3, b3], ?_⟩
            intro Q hQ
            rcases List.mem_cons.1 hQ with rfl | hQ
            · exact b4
            · exact a4 Q hQ
        obtain ⟨QQ, a1, a2, a3, a4⟩ := hz
        have hends : ends = endsOf 0 (t.colIndex.map (colPairs t t')) := by
          rw [he, ← a3]
          apply endsOf_congr
          rw [a1]; simp [Function.comp_def]
        refine ⟨hends, hends, QQ.flatten, ?_, ?_, ?_, ?_⟩
        · show (PP.map Prod.fst).flatten = _
          rw [a1, List.map_flatten]
        · show (PP.map Prod.snd).flatten = _
          rw [a2, List.map_flatten]
        · rw [List.map_flatten, a3]
        · intro p hp
          obtain ⟨Q, hQ, hp⟩ := List.mem_flatten.1 hp
          exact a4 Q hQ p hp
      split
      · rename_i hc
        rw [if_pos hc] at hj
        exact ⟨key2 _ _ _ (hj _ rfl), hcs⟩
      · rename_i hc
        rw [if_neg hc] at hj
        refine (Res.Rel.of_eq rfl).bind fun e e' he _ hee => ?_
        subst hee
        exact ⟨key2 _ _ _ (hj _ he), hcs⟩
  cases sort with
  | false => exact key t.grad t.hess
  | true =>
    simp only [if_true]
    refine (Res.Rel.of_eq rfl).bind fun g g' _ _ hg => ?_
    subst hg
    refine (Res.Rel.of_eq rfl).bind fun k k' _ _ hk => ?_
    subst hk
    exact key g k

end Verif
