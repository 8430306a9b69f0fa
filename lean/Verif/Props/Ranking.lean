import Verif.Proofs.AucFloat
import Verif.Proofs.ScaleData
import Verif.Props.ExactCovers
import Verif.Spec.Relabel
import Verif.Props.Increasing

/-!
# C110: the AUC depends on the ranking only, and is correctly rounded
-/

namespace Verif

open scoped Verif

set_option linter.unusedSectionVars false

section
variable {D : Type} [Fl D]

theorem aucLoop_ranking {f : D → D} : ∀ (l : List (D × D × D)) (prev : D) (s : AucState D),
    (∀ a ∈ prev :: l.map Prod.fst, ∀ b ∈ prev :: l.map Prod.fst, (f a =ᶠ f b) = (a =ᶠ b)) →
    aucLoop (l.map fun t => (f t.1, t.2)) (f prev) s = aucLoop l prev s := by
  intro l
  induction l with
  | nil => intros; rfl
  | cons a l ih =>
    obtain ⟨p, label, w⟩ := a
    intro prev s h
    simp only [List.map_cons, aucLoop]
    rw [h p (by simp) prev (by simp)]
    exact ih _ _ fun x hx y hy => h x (by simp at hx ⊢; tauto) y (by simp at hy ⊢; tauto)

theorem idx_mem {α : Type} {l : List α} {i : Nat} {a : α} (h : idx l i = .ok a) : a ∈ l := by
  unfold idx at h
  rw [Res.ofOption_eq_ok] at h
  exact List.mem_of_getElem? h

/-- **C110** (any arithmetic, in particular floating point).  A change of the scores that keeps their order and
their ties does not change the AUC. -/
theorem C110_ranking {S : Sorter} (hS : S.Natural) (hp : S.Ok) {f : D → D} (y p w : List D)
    (hle : ∀ a ∈ p, ∀ b ∈ p, Fl.tle (f a) (f b) = Fl.tle a b)
    (heq : ∀ a ∈ p, ∀ b ∈ p, (f a =ᶠ f b) = (a =ᶠ b)) :
    rocAucScore S y (p.map f) w = rocAucScore S y p w := by
  unfold rocAucScore
  refine Res.bind_image_eq (φ := List.map fun t : D × D × D => (f t.1, t.2)) ?_ fun rows hrows => ?_
  · refine Res.mapM'_same (fun q => ?_) _
    exact Res.bind_image (φ := f) (idx_map _ _ _) fun s _ => Res.bind_same fun u _ => rfl
  · dsimp only
    have hmem : ∀ t ∈ rows, t.1 ∈ p := by
      rw [Res.mapM'_eq_ok, List.forall₂_iff_get] at hrows
      intro t ht
      obtain ⟨i, hi, rfl⟩ := List.getElem_of_mem ht
      have hx := hrows.2 i (by rw [hrows.1]; exact hi) hi
      obtain ⟨s, h1, h2⟩ := Res.bind_eq_ok.1 hx
      obtain ⟨u, _, h3⟩ := Res.bind_eq_ok.1 h2
      have h4 := Res.ok.inj h3
      simp only [List.get_eq_getElem] at h4
      rw [← h4]
      exact idx_mem h1
    rw [hS (fun t : D × D × D => (f t.1, t.2)) (fun a b => Fl.tle b.1 a.1)
      (fun a b => Fl.tle b.1 a.1) rows (fun a ha b hb => hle _ (hmem b hb) _ (hmem a ha))]
    have hsm : ∀ t ∈ S.sort (fun a b : D × D × D => Fl.tle b.1 a.1) rows, t.1 ∈ p :=
      fun t ht => hmem t ((hp.perm _ _).mem_iff.1 ht)
    cases hc : S.sort (fun a b : D × D × D => Fl.tle b.1 a.1) rows with
    | nil => rfl
    | cons a l =>
      obtain ⟨s, label, u⟩ := a
      rw [hc] at hsm
      simp only [List.map_cons]
      rw [aucLoop_ranking]
      have : ∀ x ∈ s :: l.map Prod.fst, x ∈ p := by
        intro x hx
        rcases List.mem_cons.1 hx with rfl | hx
        · exact hsm _ (List.mem_cons_self ..)
        · obtain ⟨t, ht, rfl⟩ := List.mem_map.1 hx
          exact hsm t (List.mem_cons_of_mem _ ht)
      exact fun x hx y hy => heq x (this x hx) y (this y hy)

end

section
variable {K : Type} [Field K] [LinearOrder K] [IsStrictOrderedRing K] {m : Fmt K}

/-- The AUC of a list of rows. -/
def aucOf (S : Sorter) (l : List (ScoredRow m)) : Res (FX m) :=
  rocAucScore S (l.map fun r => (FX.fin r.label : FX m)) (l.map ScoredRow.score) (l.map fun r => FX.fin r.weight)

/-- The row with the other label. -/
def ScoredRow.swap (r : ScoredRow m) : ScoredRow m := { r with label := 1 - r.label }

/-- The row with the negated score. -/
def ScoredRow.reverse (r : ScoredRow m) : ScoredRow m := { r with score := -r.score }

theorem swap_pos (r : ScoredRow m) : r.swap.pos = r.neg := rfl

theorem swap_neg (r : ScoredRow m) : r.swap.neg = r.pos := by
  show (1 - (1 - r.label)) * r.weight = r.label * r.weight
  ring

theorem pairValue_swap (a b : FX m) : pairValue a b + pairValue b a = 1 := by
  unfold pairValue
  cases h1 : (b <ᶠ a) <;> cases h2 : (a <ᶠ b)
  · norm_num
  · norm_num
  · norm_num
  · have := Fl.OrdLaws.lt_trans _ _ _ h1 h2
    rw [Fl.OrdLaws.lt_irrefl] at this
    cases this

theorem pairSum_swap (p n : List (ScoredRow m)) :
    pairSum (n.map ScoredRow.swap) (p.map ScoredRow.swap) = posWeight p * negWeight n - pairSum p n := by
  induction p with
  | nil =>
    have : ∀ n : List (ScoredRow m), pairSum n [] = 0 := by
      intro n
      induction n with
      | nil => simp [pairSum]
      | cons b n ih => simpa [pairSum] using ih
    rw [List.map_nil, this]
    simp [pairSum, posWeight]
  | cons a p ih =>
    have e1 : ∀ n : List (ScoredRow m), pairSum (n.map ScoredRow.swap) [a.swap] =
        a.pos * negWeight n - pairSum [a] n := by
      intro n
      clear ih
      induction n with
      | nil => simp [pairSum, negWeight]
      | cons b n ih =>
        simp only [pairSum, negWeight, List.map_cons, List.map_nil, List.sum_cons, List.sum_nil] at ih ⊢
        rw [ih, swap_neg, swap_pos]
        have := pairValue_swap a.score b.score
        have e : pairValue b.swap.score a.swap.score = 1 - pairValue a.score b.score := by
          rw [← this]; show pairValue b.score a.score = _; ring
        rw [e]
        ring
    have e2 : pairSum (a :: p) n = pairSum [a] n + pairSum p n := pairSum_append_left [a] p n
    have e3 : posWeight (a :: p) = a.pos + posWeight p := by simp [posWeight]
    rw [List.map_cons, show a.swap :: p.map ScoredRow.swap = [a.swap] ++ p.map ScoredRow.swap from rfl,
      pairSum_append_right, e1, ih, e2, e3]
    ring

theorem pairSum_reverse (p n : List (ScoredRow m)) :
    pairSum (p.map ScoredRow.reverse) (n.map ScoredRow.reverse) = posWeight p * negWeight n - pairSum p n := by
  have hv : ∀ a b : FX m, pairValue (-a) (-b) = 1 - pairValue a b := by
    intro a b
    have h : ∀ x y : FX m, (-x <ᶠ -y) = (y <ᶠ x) := by
      intro x y
      show FX.lt (FX.neg x) (FX.neg y) = FX.lt y x
      cases x <;> cases y <;> simp [FX.lt, FX.neg]
    rw [← pairValue_swap a b]
    unfold pairValue
    rw [h, h]
    ring
  induction p with
  | nil => simp [pairSum, posWeight]
  | cons a p ih =>
    have e1 : ∀ n : List (ScoredRow m), pairSum [a.reverse] (n.map ScoredRow.reverse) =
        a.pos * negWeight n - pairSum [a] n := by
      intro n
      clear ih
      induction n with
      | nil => simp [pairSum, negWeight]
      | cons b n ih =>
        simp only [pairSum, negWeight, List.map_cons, List.map_nil, List.sum_cons, List.sum_nil] at ih ⊢
        have e : pairValue a.reverse.score b.reverse.score = 1 - pairValue a.score b.score := hv _ _
        have e4 : a.reverse.pos = a.pos := rfl
        have e5 : b.reverse.neg = b.neg := rfl
        rw [e, e4, e5]
        rw [e4] at ih
        linear_combination ih
    have e2 : pairSum (a :: p) n = pairSum [a] n + pairSum p n := pairSum_append_left [a] p n
    have e3 : posWeight (a :: p) = a.pos + posWeight p := by simp [posWeight]
    rw [List.map_cons, show a.reverse :: p.map ScoredRow.reverse = [a.reverse] ++ p.map ScoredRow.reverse from rfl,
      pairSum_append_left, e1, ih, e2, e3]
    ring

theorem ScoredRow.Ok.swap {r : ScoredRow m} (h : r.Ok) : r.swap.Ok where
  num := h.num
  label_nonneg := sub_nonneg.2 h.label_le
  label_le := by show 1 - r.label ≤ 1; linarith [h.label_nonneg]
  weight_nonneg := h.weight_nonneg

theorem ScoredRow.Ok.reverse {r : ScoredRow m} (h : r.Ok) : r.reverse.Ok where
  num := by
    have := h.num
    show isNaN (-r.score) = false
    revert this
    cases r.score with
    | nan => intro h; exact h
    | _ => intro _; rfl
  label_nonneg := h.label_nonneg
  label_le := h.label_le
  weight_nonneg := h.weight_nonneg

section
variable [m.Exact] {S : Sorter} (hS : S.Ok) {l : List (ScoredRow m)} (hl : ∀ r ∈ l, r.Ok)
  (hpos : 0 < posWeight l) (hneg : 0 < negWeight l)
include hS hl hpos hneg

/-- **C110** (swapped labels).  Exchanging the two classes turns the AUC `q` into `1 - q`. -/
theorem C110_swap : ∃ q : K, aucOf S l = .ok (FX.fin q) ∧ aucOf S (l.map ScoredRow.swap) = .ok (FX.fin (1 - q)) := by
  have hne : l ≠ [] := by rintro rfl; simp [posWeight] at hpos
  have hp : posWeight (l.map ScoredRow.swap) = negWeight l := by
    unfold posWeight negWeight; rw [List.map_map]; rfl
  have hn : negWeight (l.map ScoredRow.swap) = posWeight l := by
    unfold posWeight negWeight; rw [List.map_map]
    exact congrArg List.sum (List.map_congr_left fun r _ => swap_neg r)
  refine ⟨_, ((C41_mann_whitney hS hne hl).1 hpos hneg).1, ?_⟩
  have := ((C41_mann_whitney hS (l := l.map ScoredRow.swap) (by simpa using hne) (by
    intro r hr
    obtain ⟨x, hx, rfl⟩ := List.mem_map.1 hr
    exact (hl x hx).swap)).1 (by rw [hp]; exact hneg) (by rw [hn]; exact hpos)).1
  rw [hp, hn, pairSum_swap] at this
  refine this.trans ?_
  congr 2
  have h1 := hpos.ne'
  have h2 := hneg.ne'
  field_simp

/-- **C110** (reversed ranking).  Negating the scores turns the AUC `q` into `1 - q`. -/
theorem C110_reverse :
    ∃ q : K, aucOf S l = .ok (FX.fin q) ∧ aucOf S (l.map ScoredRow.reverse) = .ok (FX.fin (1 - q)) := by
  have hne : l ≠ [] := by rintro rfl; simp [posWeight] at hpos
  have hp : posWeight (l.map ScoredRow.reverse) = posWeight l := by
    unfold posWeight; rw [List.map_map]; rfl
  have hn : negWeight (l.map ScoredRow.reverse) = negWeight l := by
    unfold negWeight; rw [List.map_map]; rfl
  refine ⟨_, ((C41_mann_whitney hS hne hl).1 hpos hneg).1, ?_⟩
  have := ((C41_mann_whitney hS (l := l.map ScoredRow.reverse) (by simpa using hne) (by
    intro r hr
    obtain ⟨x, hx, rfl⟩ := List.mem_map.1 hr
    exact (hl x hx).reverse)).1 (by rw [hp]; exact hpos) (by rw [hn]; exact hneg)).1
  rw [hp, hn, pairSum_reverse] at this
  refine this.trans ?_
  congr 2
  have h1 := hpos.ne'
  have h2 := hneg.ne'
  field_simp

/-- **C110** (constant scores).  When all rows have the same score, the AUC is one half. -/
theorem C110_constant {v : FX m} (hv : ∀ r ∈ l, r.score = v) : aucOf S l = .ok (FX.fin (1 / 2)) := by
  have hne : l ≠ [] := by rintro rfl; simp [posWeight] at hpos
  refine ((C41_mann_whitney hS hne hl).1 hpos hneg).1.trans ?_
  congr 2
  rw [pairSum_const (c := 1 / 2) fun a ha b hb => by
    rw [hv a ha, hv b hb]; unfold pairValue; rw [Fl.OrdLaws.lt_irrefl]; simp]
  have h1 := hpos.ne'
  have h2 := hneg.ne'
  field_simp

/-- **C110** (perfect ranking).  The AUC is 1 exactly when every row that counts as positive has a higher score
than every row that counts as negative. -/
theorem C110_perfect : aucOf S l = .ok (FX.fin 1) ↔
    ∀ a ∈ l, ∀ b ∈ l, 0 < a.pos → 0 < b.neg → (b.score <ᶠ a.score) = true := by
  have hne : l ≠ [] := by rintro rfl; simp [posWeight] at hpos
  have hpn := mul_pos hpos hneg
  have e : aucOf S l = _ := ((C41_mann_whitney hS hne hl).1 hpos hneg).1
  rw [e]
  have step : (Res.ok (FX.fin (pairSum l l / (posWeight l * negWeight l)) : FX m) = .ok (FX.fin 1)) ↔
      posWeight l * negWeight l - pairSum l l = 0 := by
    constructor
    · intro h
      have h := FX.fin.inj (Res.ok.inj h)
      rw [div_eq_one_iff_eq hpn.ne'] at h
      linarith
    · intro h
      congr 2
      rw [div_eq_one_iff_eq hpn.ne']
      linarith
  rw [step, ← pairSum_swap]
  unfold pairSum
  have z1 : ∀ a ∈ l.map ScoredRow.swap, 0 ≤ ((l.map ScoredRow.swap).map fun b =>
      a.pos * b.neg * pairValue a.score b.score).sum := by
    intro a ha
    obtain ⟨a, ha', rfl⟩ := List.mem_map.1 ha
    refine List.sum_nonneg fun x hx => ?_
    obtain ⟨b, hb, rfl⟩ := List.mem_map.1 hx
    obtain ⟨b, hb', rfl⟩ := List.mem_map.1 hb
    exact mul_nonneg (mul_nonneg (hl a ha').swap.pos_nonneg (hl b hb').swap.neg_nonneg) (pairValue_mem _ _).1
  constructor
  · intro h a ha b hb h1 h2
    have t1 := List.all_zero_of_le_zero_le_of_sum_eq_zero (l := (l.map ScoredRow.swap).map fun a =>
      ((l.map ScoredRow.swap).map fun b => a.pos * b.neg * pairValue a.score b.score).sum) (by
        intro x hx
        obtain ⟨a, ha, rfl⟩ := List.mem_map.1 hx
        exact z1 a ha) h (List.mem_map.2 ⟨b.swap, List.mem_map_of_mem hb, rfl⟩)
    have t2 := List.all_zero_of_le_zero_le_of_sum_eq_zero (l := (l.map ScoredRow.swap).map fun c =>
      b.swap.pos * c.neg * pairValue b.swap.score c.score) (by
        intro x hx
        obtain ⟨c, hc, rfl⟩ := List.mem_map.1 hx
        obtain ⟨c, hc', rfl⟩ := List.mem_map.1 hc
        exact mul_nonneg (mul_nonneg (hl b hb).swap.pos_nonneg (hl c hc').swap.neg_nonneg) (pairValue_mem _ _).1)
      t1 (List.mem_map.2 ⟨a.swap, List.mem_map_of_mem ha, rfl⟩)
    rw [swap_pos, swap_neg] at t2
    have t3 : pairValue b.score a.score = 0 := by
      rcases mul_eq_zero.1 t2 with h | h
      · exact absurd h (mul_pos h2 h1).ne'
      · exact h
    revert t3
    unfold pairValue
    split
    · norm_num
    · split
      · intro _; assumption
      · norm_num
  · intro h
    refine List.sum_eq_zero fun x hx => ?_
    obtain ⟨b, hb, rfl⟩ := List.mem_map.1 hx
    refine List.sum_eq_zero fun x hx => ?_
    obtain ⟨a, ha, rfl⟩ := List.mem_map.1 hx
    obtain ⟨b, hb', rfl⟩ := List.mem_map.1 hb
    obtain ⟨a, ha', rfl⟩ := List.mem_map.1 ha
    rw [swap_pos, swap_neg]
    rcases (hl b hb').neg_nonneg.lt_or_eq with h1 | h1
    · rcases (hl a ha').pos_nonneg.lt_or_eq with h2 | h2
      · have := h a ha' b hb' h2 h1
        have e : pairValue b.swap.score a.swap.score = 0 := by
          show pairValue b.score a.score = 0
          unfold pairValue
          rw [if_neg ?_, if_pos this]
          intro h'
          have := Fl.OrdLaws.lt_trans _ _ _ h' this
          rw [Fl.OrdLaws.lt_irrefl] at this
          cases this
        rw [e, mul_zero]
      · rw [← h2]; ring
    · rw [← h1]; ring

end

/-- Any format: when the total weight is at most `T` and the format represents the halves up to `T²`, every sum
and area is exact and only the last division rounds. -/
theorem auc_whole [m.Rounds] {N T : Nat} (hF : Fits m N T) {S : Sorter} (hS : S.Ok) {l : List (ScoredRow m)}
    (hl : ∀ r ∈ l, r.Whole) (hT : posWeight l + negWeight l ≤ T) (hpos : 0 < posWeight l)
    (hneg : 0 < negWeight l) :
    aucOf S l = .ok (FX.rd (pairSum l l / (posWeight l * negWeight l))) := by
  have hne : l ≠ [] := by rintro rfl; simp [posWeight] at hpos
  have hperm := hS.perm (fun a b : FX m × FX m × FX m => Fl.tle b.1 a.1) (l.map ScoredRow.toTriple)
  have hsort := hS.sorted (fun a b : FX m × FX m × FX m => Fl.tle b.1 a.1) (l.map ScoredRow.toTriple)
    (fun a _ b _ c _ h1 h2 => Fl.TotLaws.trans _ _ _ h2 h1) (fun a _ b _ => Fl.TotLaws.total _ _)
  obtain ⟨l', hl', hp'⟩ : ∃ l' : List (ScoredRow m),
      S.sort (fun a b : FX m × FX m × FX m => Fl.tle b.1 a.1) (l.map ScoredRow.toTriple) =
        l'.map ScoredRow.toTriple ∧ l'.Perm l := by
    refine ⟨(S.sort (fun a b : FX m × FX m × FX m => Fl.tle b.1 a.1) (l.map ScoredRow.toTriple)).map
      ScoredRow.ofTriple, ?_, ?_⟩
    · rw [List.map_map]
      conv_lhs => rw [← List.map_id (S.sort _ _)]
      refine List.map_congr_left fun x hx => ?_
      obtain ⟨r, _, rfl⟩ := List.mem_map.1 (hperm.mem_iff.1 hx)
      rfl
    · have := hperm.map ScoredRow.ofTriple
      rw [List.map_map] at this
      rwa [show ScoredRow.ofTriple ∘ ScoredRow.toTriple = (id : ScoredRow m → ScoredRow m) from rfl,
        List.map_id] at this
  have hw' : ∀ r ∈ l', r.Whole := fun r hr => hl r (hp'.mem_iff.1 hr)
  have hrows : Res.mapM' (fun (p : FX m × Nat) => do
      let s ← idx (l.map ScoredRow.score) p.2
      let w ← idx (l.map fun r => FX.fin r.weight) p.2
      pure (s, p.1, w)) (l.map fun r => (FX.fin r.label : FX m)).zipIdx = .ok (l.map ScoredRow.toTriple) := by
    rw [Res.mapM'_eq_ok, List.forall₂_iff_get]
    refine ⟨by simp, fun i h1 h2 => ?_⟩
    have hi : i < l.length := by simpa using h2
    simp [idx, Res.ofOption, List.getElem?_map, List.getElem?_eq_getElem hi, Res.pure_def, ScoredRow.toTriple]
  unfold aucOf rocAucScore
  rw [hrows, Res.ok_bind]
  simp only [hl']
  rw [hl', List.pairwise_map] at hsort
  cases l' with
  | nil => exact absurd hp'.symm.eq_nil hne
  | cons r l' =>
    obtain ⟨hs1, hs2⟩ := List.pairwise_cons.1 hsort
    have tle_le : ∀ a b : FX m, isNaN a = false → Fl.tle a b = true → isNaN b = false → (a ≤ᶠ b) = true := by
      intro a b h1 h2 h3
      cases a <;> cases b <;> simp_all [Fl.tle, FX.tle, Fl.le, FX.le]
    have hr := hw' r (by simp)
    have p1 : pairSum (r :: l') (r :: l') = pairSum l l := pairSum_perm hp' hp'
    have p2 : posWeight (r :: l') = posWeight l := (hp'.map _).sum_eq
    have p3 : negWeight (r :: l') = negWeight l := (hp'.map _).sum_eq
    have hT' : posWeight (r :: l') + negWeight (r :: l') ≤ T := by rw [p2, p3]; exact hT
    obtain ⟨s, e1, e2, e3, e4⟩ := aucLoop_whole hF l' [] [r] r.score (by simpa using hw')
      hT' (by simp) (by simp) hr.num
      (fun x hx => tle_le _ _ (hw' x (by simp [hx])).num (hs1 x hx) hr.num)
      (by
        refine hs2.imp_of_mem fun {x y} hx hy h => ?_
        exact tle_le _ _ (hw' y (by simp [hy])).num h (hw' x (by simp [hx])).num)
    have hrT : r.weight ≤ T := by
      have h3 := posWeight_nonneg (l := l') fun x hx => (hw' x (by simp [hx])).ok
      have h4 := negWeight_nonneg (l := l') fun x hx => (hw' x (by simp [hx])).ok
      have hw : r.pos + r.neg = r.weight := by unfold ScoredRow.pos ScoredRow.neg; ring
      have e5 : posWeight (r :: l') = r.pos + posWeight l' := by simp [posWeight]
      have e6 : negWeight (r :: l') = r.neg + negWeight l' := by simp [negWeight]
      rw [e5, e6] at hT'
      linarith
    obtain ⟨f1, f2⟩ := row_whole hF hr hrT
    have e0 : (aucLoop (l'.map ScoredRow.toTriple) r.score
        { auc := 0, fp := (1 - FX.fin r.label) * FX.fin r.weight, tp := FX.fin r.label * FX.fin r.weight
          fpPrev := 0, tpPrev := 0 } : AucState (FX m)) = s := by
      rw [← e1, f1, f2]
      simp [pairSum, negWeight, posWeight, FX.zero_def]
    simp only [List.nil_append, List.singleton_append] at e2 e3 e4
    rw [p1] at e2
    rw [p3] at e3
    rw [p2] at e4
    simp only [List.map_cons]
    rw [show r.toTriple = (r.score, FX.fin r.label, FX.fin r.weight) from rfl]
    dsimp only
    rw [e0, e2, e3, e4]
    have hpn : 0 < posWeight l * negWeight l := mul_pos hpos hneg
    obtain ⟨i, hi⟩ := posWeight_nat hl
    obtain ⟨j, hj⟩ := negWeight_nat hl
    have hsq : ((T * T : Nat) : K) ≤ N := by exact_mod_cast hF.square
    push_cast at hsq
    have hmul : (FX.fin (posWeight l) * FX.fin (negWeight l) : FX m) = FX.fin (posWeight l * negWeight l) :=
      hF.grid.mul (nat_grid (n := i * j) (by rw [hi, hj]; push_cast; rfl) (by
        nlinarith [sq_nonneg (posWeight l - negWeight l)]))
    rw [hmul, if_neg (by simp [FX.zero_def, FX.le_fin, hpos, hneg])]
    show Res.ok (FX.div (FX.fin _) (FX.fin _)) = _
    rw [FX.div, if_neg hpn.ne']

end

section
variable {expF lnF sqrtF : ℚ → RV ℚ}

/-- `f64` represents the halves up to 2^52. -/
theorem b64_fits : Fits (Ieee.b64 expF lnF sqrtF) (2 ^ 53) (2 ^ 26) where
  grid := by
    have := Ieee.fmt_grid (p := 53) (emin := -1074) (k := -1) (maxF := (((2 ^ 53 - 1) * 2 ^ 971 : Nat) : ℚ))
      (expF := expF) (lnF := lnF) (sqrtF := sqrtF) (N := 2 ^ 53) (by decide) le_rfl (by decide) (by
        rw [Ieee.pow2_eq]
        have : 2 ^ 53 ≤ (2 ^ 53 - 1) * 2 ^ 971 := by decide +kernel
        have : ((2 ^ 53 : Nat) : ℚ) ≤ (((2 ^ 53 - 1) * 2 ^ 971 : Nat) : ℚ) := by exact_mod_cast this
        refine le_trans ?_ this
        norm_num)
    rw [Ieee.pow2_eq] at this
    have e : (2 : ℚ) ^ (-1 : ℤ) = 1 / 2 := by norm_num
    rwa [e] at this
  square := by decide +kernel
  four := by decide +kernel
  two := by decide +kernel

/-- **C110** (`f64` with rounding).  With labels 0 and 1, whole weights and a total weight of at most 2^26 the
computed AUC is the exact one, rounded once: it lies between 0 and 1 and its error is at most 2^-53 of the exact
value plus the smallest positive number. -/
theorem C110_rounded {S : Sorter} (hS : S.Ok) {l : List (ScoredRow (Ieee.b64 expF lnF sqrtF))}
    (hl : ∀ r ∈ l, isNaN r.score = false ∧ (r.label = 0 ∨ r.label = 1) ∧ ∃ k : Nat, r.weight = k)
    (hT : posWeight l + negWeight l ≤ 2 ^ 26) (hpos : 0 < posWeight l) (hneg : 0 < negWeight l) :
    ∃ q : ℚ, aucOf S l = .ok (FX.fin q) ∧ 0 ≤ q ∧ q ≤ 1 ∧
      q = Ieee.rnd 53 (-1074) (pairSum l l / (posWeight l * negWeight l)) ∧
      |q - pairSum l l / (posWeight l * negWeight l)| ≤
        (1 / 2 ^ 53) * (pairSum l l / (posWeight l * negWeight l)) + 1 / 2 ^ 1075 := by
  have hw : ∀ r ∈ l, r.Whole := fun r hr => ⟨(hl r hr).1, (hl r hr).2.1, (hl r hr).2.2⟩
  have h := auc_whole b64_fits hS hw (by exact_mod_cast hT) hpos hneg
  have hpn : 0 < posWeight l * negWeight l := mul_pos hpos hneg
  obtain ⟨b1, b2⟩ := pairSum_le (fun r hr => (hw r hr).ok) (fun r hr => (hw r hr).ok)
  have h0 := div_nonneg b1 hpn.le
  have h1 := (div_le_one hpn).2 b2
  generalize pairSum l l / (posWeight l * negWeight l) = x at *
  obtain ⟨y, e, l1, l2⟩ := Fmt.Rounds.between (m := Ieee.b64 expF lnF sqrtF) Fmt.Rounds.zero Ieee.b64_one h0 h1
  refine ⟨y, ?_, l1, l2, ?_, ?_⟩
  · rw [h, FX.rd, e]; rfl
  · exact (Ieee.fmt_rnd_fin.1 e).1
  · have e' := (Ieee.fmt_rnd_fin.1 e).1
    have := Ieee.rnd_near (p := 53) (emin := -1074) x
    rw [← e', abs_of_nonneg h0, Ieee.pow2_eq, Ieee.pow2_eq] at this
    rw [show (-((53 : Nat) : ℤ)) = -((53 : Nat) : ℤ) from rfl,
      show (-1074 - 1 : ℤ) = -((1075 : Nat) : ℤ) from rfl, zpow_neg, zpow_neg, zpow_natCast, zpow_natCast,
      ← one_div, ← one_div] at this
    exact this

end

/-- Two positive and two negative rows, one of the negative ones with the higher score. -/
def rankRows (f : Fmt ℚ) : List (ScoredRow f) :=
  [⟨FX.fin 1, 0, 1⟩, ⟨FX.fin 2, 1, 1⟩, ⟨FX.fin 3, 0, 1⟩, ⟨FX.fin 4, 1, 2⟩]

/-- Exact arithmetic: 5 of 6 weighted pairs; 1 of 6 with swapped labels or negated scores; 1/2 with constant
scores. -/
example : aucOf exSorter (rankRows ratFmt) = .ok (q (5 / 6)) ∧
    aucOf exSorter ((rankRows ratFmt).map ScoredRow.swap) = .ok (q (1 / 6)) ∧
    aucOf exSorter ((rankRows ratFmt).map ScoredRow.reverse) = .ok (q (1 / 6)) ∧
    aucOf exSorter ((rankRows ratFmt).map fun r => { r with score := q 7 }) = .ok (q (1 / 2)) ∧
    (∀ r ∈ rankRows ratFmt, r.Ok) ∧ 0 < posWeight (rankRows ratFmt) ∧ 0 < negWeight (rankRows ratFmt) := by
  refine ⟨by decide +kernel, by decide +kernel, by decide +kernel, by decide +kernel, ?_, by decide +kernel,
    by decide +kernel⟩
  intro r hr
  simp only [rankRows, List.mem_cons, List.not_mem_nil, or_false] at hr
  rcases hr with rfl | rfl | rfl | rfl <;> exact ⟨rfl, by norm_num, by norm_num, by norm_num⟩

/-- `f64`: the same rows meet the hypotheses of `C110_rounded`, and 5/6 is rounded. -/
example : (∀ r ∈ rankRows f64Fmt, isNaN r.score = false ∧ (r.label = 0 ∨ r.label = 1) ∧ ∃ k : Nat, r.weight = k) ∧
    posWeight (rankRows f64Fmt) + negWeight (rankRows f64Fmt) ≤ 2 ^ 26 ∧
    aucOf exSorter (rankRows f64Fmt) = .ok (FX.fin (7505999378950827 / 9007199254740992)) := by
  refine ⟨?_, by decide +kernel, by decide +kernel⟩
  intro r hr
  simp only [rankRows, List.mem_cons, List.not_mem_nil, or_false] at hr
  rcases hr with rfl | rfl | rfl | rfl
  exacts [⟨rfl, .inl rfl, 1, rfl⟩, ⟨rfl, .inr rfl, 1, rfl⟩, ⟨rfl, .inl rfl, 1, rfl⟩, ⟨rfl, .inr rfl, 2, by norm_num⟩]

/-- `f64`: halving the scores keeps their order. -/
example : rocAucScore exSorter [0, 1, 0, 1] ([FX.fin 1, FX.fin 2, FX.fin 3, FX.fin 4].map fun x => x / FX.fin 2)
    [1, 1, 1, 1] = rocAucScore exSorter [0, 1, 0, 1] [(FX.fin 1 : F64), FX.fin 2, FX.fin 3, FX.fin 4] [1, 1, 1, 1] :=
  C110_ranking exSorter_natural exSorter_ok _ _ _ (by decide +kernel) (by decide +kernel)

end Verif
