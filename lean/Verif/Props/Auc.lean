import Verif.Model.Objective
import Verif.Proofs.Order
import Verif.Spec.Sorting
import Mathlib.Tactic.Linarith
import Mathlib.Tactic.Ring
import Mathlib.Tactic.FieldSimp
import Mathlib.Tactic.NormNum
import Mathlib.Algebra.BigOperators.Group.List.Basic
import Mathlib.Algebra.Order.BigOperators.Group.List

/-!
# C41: the area under the ROC curve
-/

namespace Verif

open scoped Verif

set_option linter.unusedSectionVars false

section
variable {K : Type} [Field K] [LinearOrder K] [IsStrictOrderedRing K] {m : Fmt K}

/-- One row: score, label, weight. -/
structure ScoredRow (m : Fmt K) where
  /-- score -/
  score : FX m
  /-- label -/
  label : K
  /-- weight -/
  weight : K

/-- Weight of the row as a positive one. -/
def ScoredRow.pos (r : ScoredRow m) : K := r.label * r.weight

/-- Weight of the row as a negative one. -/
def ScoredRow.neg (r : ScoredRow m) : K := (1 - r.label) * r.weight

/-- A pair of scores, that of a positive row first, counts 1 when ranked correctly and one half when
tied. -/
def pairValue (a b : FX m) : K := if (b <ᶠ a) = true then 1 else if (a <ᶠ b) = true then 0 else 1 / 2

/-- Total weight of the positive rows. -/
def posWeight (l : List (ScoredRow m)) : K := (l.map ScoredRow.pos).sum

/-- Total weight of the negative rows. -/
def negWeight (l : List (ScoredRow m)) : K := (l.map ScoredRow.neg).sum

/-- Weighted number of correctly ranked pairs with the positive row from `p` and the negative one from
`n`. -/
def pairSum (p n : List (ScoredRow m)) : K :=
  (p.map fun a => (n.map fun b => a.pos * b.neg * pairValue a.score b.score).sum).sum

/-- A row whose score is a number, with a label between 0 and 1 (in particular 0 or 1) and a non-negative
weight. -/
structure ScoredRow.Ok (r : ScoredRow m) : Prop where
  num : isNaN r.score = false
  label_nonneg : 0 ≤ r.label
  label_le : r.label ≤ 1
  weight_nonneg : 0 ≤ r.weight

theorem ScoredRow.Ok.pos_nonneg {r : ScoredRow m} (h : r.Ok) : 0 ≤ r.pos :=
  mul_nonneg h.label_nonneg h.weight_nonneg

theorem ScoredRow.Ok.neg_nonneg {r : ScoredRow m} (h : r.Ok) : 0 ≤ r.neg :=
  mul_nonneg (sub_nonneg.2 h.label_le) h.weight_nonneg

theorem pairSum_append_left (p p' n : List (ScoredRow m)) :
    pairSum (p ++ p') n = pairSum p n + pairSum p' n := by
  simp [pairSum]

theorem pairSum_append_right (p n n' : List (ScoredRow m)) :
    pairSum p (n ++ n') = pairSum p n + pairSum p n' := by
  induction p with
  | nil => simp [pairSum]
  | cons a p ih =>
    simp only [pairSum, List.map_cons, List.sum_cons, List.map_append, List.sum_append] at ih ⊢
    rw [ih]
    ring

theorem pairSum_const {p n : List (ScoredRow m)} {c : K}
    (h : ∀ a ∈ p, ∀ b ∈ n, pairValue a.score b.score = c) :
    pairSum p n = c * (posWeight p * negWeight n) := by
  induction p with
  | nil => simp [pairSum, posWeight]
  | cons a p ih =>
    have h1 := ih fun x hx => h x (by simp [hx])
    have h2 : (n.map fun b => a.pos * b.neg * pairValue a.score b.score).sum = a.pos * c * negWeight n := by
      have hn := h a (by simp)
      clear ih h1 h
      induction n with
      | nil => simp [negWeight]
      | cons b n ih =>
        simp only [negWeight, List.map_cons, List.sum_cons] at ih ⊢
        rw [ih fun x hx => hn x (by simp [hx]), hn b (by simp)]
        ring
    simp only [pairSum, posWeight, List.map_cons, List.sum_cons] at h1 ⊢
    rw [h1, h2]
    ring

theorem pairSum_perm {p p' n n' : List (ScoredRow m)} (h1 : p.Perm p') (h2 : n.Perm n') :
    pairSum p n = pairSum p' n' := by
  unfold pairSum
  rw [(h1.map _).sum_eq]
  congr 1
  refine List.map_congr_left fun a _ => ?_
  exact (h2.map _).sum_eq

theorem posWeight_append (p p' : List (ScoredRow m)) : posWeight (p ++ p') = posWeight p + posWeight p' := by
  simp [posWeight]

theorem negWeight_append (p p' : List (ScoredRow m)) : negWeight (p ++ p') = negWeight p + negWeight p' := by
  simp [negWeight]

theorem posWeight_nonneg {l : List (ScoredRow m)} (h : ∀ r ∈ l, r.Ok) : 0 ≤ posWeight l := by
  refine List.sum_nonneg fun x hx => ?_
  obtain ⟨r, hr, rfl⟩ := List.mem_map.1 hx
  exact (h r hr).pos_nonneg

theorem negWeight_nonneg {l : List (ScoredRow m)} (h : ∀ r ∈ l, r.Ok) : 0 ≤ negWeight l := by
  refine List.sum_nonneg fun x hx => ?_
  obtain ⟨r, hr, rfl⟩ := List.mem_map.1 hx
  exact (h r hr).neg_nonneg

theorem pairValue_mem (a b : FX m) : 0 ≤ pairValue a b ∧ pairValue a b ≤ 1 := by
  unfold pairValue
  split
  · norm_num
  · split <;> norm_num

theorem pairSum_le {p n : List (ScoredRow m)} (hp : ∀ r ∈ p, r.Ok) (hn : ∀ r ∈ n, r.Ok) :
    0 ≤ pairSum p n ∧ pairSum p n ≤ posWeight p * negWeight n := by
  constructor
  · refine List.sum_nonneg fun x hx => ?_
    obtain ⟨a, ha, rfl⟩ := List.mem_map.1 hx
    refine List.sum_nonneg fun x hx => ?_
    obtain ⟨b, hb, rfl⟩ := List.mem_map.1 hx
    exact mul_nonneg (mul_nonneg (hp a ha).pos_nonneg (hn b hb).neg_nonneg) (pairValue_mem _ _).1
  · have h1 : ∀ a ∈ p, (n.map fun b => a.pos * b.neg * pairValue a.score b.score).sum ≤
        a.pos * negWeight n := by
      intro a ha
      have : (n.map fun b => a.pos * b.neg * pairValue a.score b.score).sum ≤
          (n.map fun b => a.pos * b.neg).sum := by
        refine List.sum_le_sum fun b hb => ?_
        have := mul_nonneg (hp a ha).pos_nonneg (hn b hb).neg_nonneg
        nlinarith [pairValue_mem a.score b.score]
      refine this.trans (le_of_eq ?_)
      unfold negWeight
      clear this
      induction n with
      | nil => simp
      | cons b n ih =>
        simp only [List.map_cons, List.sum_cons, ih fun x hx => hn x (by simp [hx])]
        ring
    refine (List.sum_le_sum h1).trans (le_of_eq ?_)
    unfold posWeight
    clear h1 hp
    induction p with
    | nil => simp
    | cons a p ih =>
      simp only [List.map_cons, List.sum_cons, ih]
      ring

/-- The row as the model has it. -/
def ScoredRow.toTriple (r : ScoredRow m) : FX m × FX m × FX m := (r.score, FX.fin r.label, FX.fin r.weight)

/-- The inverse. -/
def ScoredRow.ofTriple (t : FX m × FX m × FX m) : ScoredRow m :=
  { score := t.1
    label := match t.2.1 with | .fin q => q | _ => 0
    weight := match t.2.2 with | .fin q => q | _ => 0 }

/-- The group of `g` after the rows `a` with higher scores adds one trapezoid. -/
theorem pairSum_group {a g : List (ScoredRow m)} {v : FX m} (hg : ∀ x ∈ g, x.score = v)
    (ha : ∀ x ∈ a, (v <ᶠ x.score) = true) :
    pairSum (a ++ g) (a ++ g) =
      pairSum a a + negWeight g * (posWeight a + posWeight (a ++ g)) * (1 / 2) := by
  have e1 : pairSum a g = 1 * (posWeight a * negWeight g) := by
    refine pairSum_const fun x hx y hy => ?_
    rw [hg y hy]
    unfold pairValue
    rw [if_pos (ha x hx)]
  have e2 : pairSum g a = 0 * (posWeight g * negWeight a) := by
    refine pairSum_const fun x hx y hy => ?_
    rw [hg x hx]
    unfold pairValue
    have h1 := ha y hy
    have h2 : (y.score <ᶠ v) = false := by
      cases h : (y.score <ᶠ v) with
      | false => rfl
      | true =>
        have := Fl.OrdLaws.lt_trans _ _ _ h1 h
        rw [Fl.OrdLaws.lt_irrefl] at this
        cases this
    rw [h2, if_neg (by simp), if_pos h1]
  have e3 : pairSum g g = 1 / 2 * (posWeight g * negWeight g) := by
    refine pairSum_const fun x hx y hy => ?_
    rw [hg x hx, hg y hy]
    unfold pairValue
    rw [Fl.OrdLaws.lt_irrefl]
    simp
  rw [pairSum_append_left, pairSum_append_right, pairSum_append_right, e1, e2, e3, posWeight_append]
  ring

variable [m.Exact]

theorem trapezoid_fin {x0 x1 y0 y1 : K} (h : x0 ≤ x1) :
    trapezoidArea (FX.fin x0 : FX m) (FX.fin x1) (FX.fin y0) (FX.fin y1) =
      FX.fin ((x1 - x0) * (y0 + y1) * (1 / 2)) := by
  unfold trapezoidArea
  have : |x0 - x1| = x1 - x0 := by rw [abs_of_nonpos (by linarith)]; ring
  simp only [FX.fin_sub, FX.abs_fin, this, FX.fin_add, FX.ofNat_eq, FX.one_def]
  rw [FX.fin_div _ _ (by norm_num), FX.fin_mul, FX.fin_mul]
  norm_num

/-- The loop, after the rows `a` with higher scores and the rows `g` with score `v`. -/
theorem aucLoop_fin (l a g : List (ScoredRow m)) (v : FX m) (hl : ∀ r ∈ l, r.Ok)
    (hgo : ∀ r ∈ g, r.Ok) (hg : ∀ x ∈ g, x.score = v) (ha : ∀ x ∈ a, (v <ᶠ x.score) = true)
    (hv : isNaN v = false) (hle : ∀ x ∈ l, (x.score ≤ᶠ v) = true)
    (hs : l.Pairwise fun x y => (y.score ≤ᶠ x.score) = true) :
    ∃ A G fp tp fpPrev tpPrev : K, aucLoop (l.map ScoredRow.toTriple) v
        { auc := FX.fin (pairSum a a), fp := FX.fin (negWeight (a ++ g)), tp := FX.fin (posWeight (a ++ g))
          fpPrev := FX.fin (negWeight a), tpPrev := FX.fin (posWeight a) } =
        { auc := FX.fin A, fp := FX.fin fp, tp := FX.fin tp, fpPrev := FX.fin fpPrev
          tpPrev := FX.fin tpPrev } ∧
      trapezoidArea (FX.fin fpPrev : FX m) (FX.fin fp) (FX.fin tpPrev) (FX.fin tp) = FX.fin G ∧
      A + G = pairSum (a ++ g ++ l) (a ++ g ++ l) ∧ fp = negWeight (a ++ g ++ l) ∧
      tp = posWeight (a ++ g ++ l) := by
  induction l generalizing a g v with
  | nil =>
    have hn := negWeight_nonneg hgo
    refine ⟨_, _, _, _, _, _, rfl, trapezoid_fin (by rw [negWeight_append]; linarith), ?_, by simp, by simp⟩
    rw [List.append_nil, pairSum_group hg ha, negWeight_append]
    ring
  | cons r l ih =>
    obtain ⟨hs1, hs2⟩ := List.pairwise_cons.1 hs
    have hr := hl r (by simp)
    have hrv := hle r (by simp)
    have hstep : (FX.fin (negWeight (a ++ g)) + (1 - FX.fin r.label) * FX.fin r.weight : FX m) =
        FX.fin (negWeight (a ++ g ++ [r])) := by
      simp only [FX.one_def, FX.fin_sub, FX.fin_mul, FX.fin_add]
      rw [negWeight_append (a ++ g)]
      simp [negWeight, ScoredRow.neg]
    have hstep' : (FX.fin (posWeight (a ++ g)) + FX.fin r.label * FX.fin r.weight : FX m) =
        FX.fin (posWeight (a ++ g ++ [r])) := by
      simp only [FX.fin_mul, FX.fin_add]
      rw [posWeight_append (a ++ g)]
      simp [posWeight, ScoredRow.pos]
    rw [List.map_cons, show r.toTriple = (r.score, FX.fin r.label, FX.fin r.weight) from rfl, aucLoop]
    dsimp only
    by_cases he : (r.score =ᶠ v) = true
    · -- the group goes on
      have hrv' : r.score = v := by
        have := hr.num
        revert he
        cases r.score <;> cases v <;> simp_all [Fl.feq, FX.feq]
      have := ih a (g ++ [r]) v (fun x hx => hl x (by simp [hx]))
        (by
          intro x hx
          rcases List.mem_append.1 hx with h | h
          · exact hgo x h
          · rw [List.mem_singleton.1 h]; exact hr)
        (by
          intro x hx
          rcases List.mem_append.1 hx with h | h
          · exact hg x h
          · rw [List.mem_singleton.1 h]; exact hrv')
        ha hv (fun x hx => hle x (by simp [hx])) hs2
      rw [← List.append_assoc] at this
      simp only [he, Bool.not_true, Bool.false_eq_true, if_false, hstep, hstep']
      rw [hrv']
      simpa [List.append_assoc] using this
    · -- a new group starts
      have hlt : (r.score <ᶠ v) = true := by
        have h1 := (Fl.OrdLaws.le_iff _ _ hr.num hv).1 hrv
        cases h : (r.score <ᶠ v) with
        | true => rfl
        | false => exact absurd ((Fl.OrdLaws.feq_iff _ _ hr.num hv).2 ⟨h, h1⟩) he
      have hn := negWeight_nonneg hgo
      have := ih (a ++ g) [r] r.score (fun x hx => hl x (by simp [hx]))
        (by
          intro x hx
          rw [List.mem_singleton.1 hx]; exact hr)
        (by
          intro x hx
          rw [List.mem_singleton.1 hx])
        (by
          intro x hx
          rcases List.mem_append.1 hx with h | h
          · exact Fl.OrdLaws.lt_trans _ _ _ hlt (ha x h)
          · rw [hg x h]; exact hlt)
        hr.num hs1 hs2
      have harea : (FX.fin (pairSum a a) + trapezoidArea (FX.fin (negWeight a)) (FX.fin (negWeight (a ++ g)))
          (FX.fin (posWeight a)) (FX.fin (posWeight (a ++ g))) : FX m) =
          FX.fin (pairSum (a ++ g) (a ++ g)) := by
        rw [trapezoid_fin (by rw [negWeight_append]; linarith), FX.fin_add, pairSum_group hg ha,
          negWeight_append]
        congr 1
        ring
      rw [Bool.not_eq_true] at he
      simp only [he, Bool.not_false, if_true, hstep, hstep', harea]
      simpa [List.append_assoc] using this

theorem auc_rows (l : List (ScoredRow m)) :
    Res.mapM' (fun (p : FX m × Nat) => do
      let s ← idx (l.map ScoredRow.score) p.2
      let w ← idx (l.map fun r => FX.fin r.weight) p.2
      pure (s, p.1, w)) (l.map fun r => (FX.fin r.label : FX m)).zipIdx = .ok (l.map ScoredRow.toTriple) := by
  rw [Res.mapM'_eq_ok, List.forall₂_iff_get]
  refine ⟨by simp, fun i h1 h2 => ?_⟩
  have hi : i < l.length := by simpa using h2
  simp [idx, Res.ofOption, List.getElem?_map, List.getElem?_eq_getElem hi, Res.pure_def, ScoredRow.toTriple]

/-- **C41.**  `roc_auc_score` returns the weighted fraction of the pairs of a positive and a negative row
that the scores rank correctly, ties counting one half; it lies between 0 and 1.  When one of the classes
has no weight, it returns NaN. -/
theorem C41_mann_whitney {S : Sorter} (hS : S.Ok) {l : List (ScoredRow m)} (hne : l ≠ [])
    (hl : ∀ r ∈ l, r.Ok) :
    (0 < posWeight l → 0 < negWeight l →
      rocAucScore S (l.map fun r => (FX.fin r.label : FX m)) (l.map ScoredRow.score)
        (l.map fun r => FX.fin r.weight) = .ok (FX.fin (pairSum l l / (posWeight l * negWeight l))) ∧
      0 ≤ pairSum l l / (posWeight l * negWeight l) ∧ pairSum l l / (posWeight l * negWeight l) ≤ 1) ∧
    (posWeight l = 0 ∨ negWeight l = 0 →
      rocAucScore S (l.map fun r => (FX.fin r.label : FX m)) (l.map ScoredRow.score)
        (l.map fun r => FX.fin r.weight) = .ok FX.nan) := by
  have hperm := hS.perm (fun a b : FX m × FX m × FX m => Fl.tle b.1 a.1) (l.map ScoredRow.toTriple)
  have hsort := hS.sorted (fun a b : FX m × FX m × FX m => Fl.tle b.1 a.1) (l.map ScoredRow.toTriple)
    (fun a _ b _ c _ h1 h2 => Fl.TotLaws.trans _ _ _ h2 h1) (fun a _ b _ => Fl.TotLaws.total _ _)
  obtain ⟨l', hl', hp'⟩ : ∃ l' : List (ScoredRow m),
      S.sort (fun a b : FX m × FX m × FX m => Fl.tle b.1 a.1) (l.map ScoredRow.toTriple) =
        l'.map ScoredRow.toTriple ∧ l'.Perm l := by
    refine ⟨(S.sort (fun a b : FX m × FX m × FX m => Fl.tle b.1 a.1) (l.map ScoredRow.toTriple)).map
      ScoredRow.ofTriple, ?_, ?_⟩
    · rw [List.map_map]
      conv_lhs => rw [← List.map_id (S.sort _ _)]
      refine List.map_congr_left fun x hx => ?_
      obtain ⟨r, _, rfl⟩ := List.mem_map.1 (hperm.mem_iff.1 hx)
      rfl
    · have := hperm.map ScoredRow.ofTriple
      rw [List.map_map] at this
      rwa [show ScoredRow.ofTriple ∘ ScoredRow.toTriple = (id : ScoredRow m → ScoredRow m) from rfl,
        List.map_id] at this
  have hok' : ∀ r ∈ l', r.Ok := fun r hr => hl r (hp'.mem_iff.1 hr)
  unfold rocAucScore
  rw [auc_rows l, Res.ok_bind]
  simp only [hl']
  rw [hl', List.pairwise_map] at hsort
  cases l' with
  | nil => exact absurd hp'.symm.eq_nil hne
  | cons r l' =>
    obtain ⟨hs1, hs2⟩ := List.pairwise_cons.1 hsort
    have tle_le : ∀ a b : FX m, isNaN a = false → Fl.tle a b = true → isNaN b = false → (a ≤ᶠ b) = true := by
      intro a b h1 h2 h3
      cases a <;> cases b <;> simp_all [Fl.tle, FX.tle, Fl.le, FX.le]
    have hr := hok' r (by simp)
    obtain ⟨A, G, fp, tp, fpPrev, tpPrev, e1, e2, e3, e4, e5⟩ := aucLoop_fin l' [] [r] r.score
      (fun x hx => hok' x (by simp [hx])) (by simpa using hr) (by simp) (by simp) hr.num
      (fun x hx => tle_le _ _ (hok' x (by simp [hx])).num (hs1 x hx) hr.num)
      (by
        refine hs2.imp_of_mem fun {x y} hx hy h => ?_
        exact tle_le _ _ (hok' y (by simp [hy])).num h (hok' x (by simp [hx])).num)
    have e0 : (aucLoop (l'.map ScoredRow.toTriple) r.score
        { auc := 0, fp := (1 - FX.fin r.label) * FX.fin r.weight, tp := FX.fin r.label * FX.fin r.weight
          fpPrev := 0, tpPrev := 0 } : AucState (FX m)) =
        { auc := FX.fin A, fp := FX.fin fp, tp := FX.fin tp, fpPrev := FX.fin fpPrev
          tpPrev := FX.fin tpPrev } := by
      rw [← e1]
      simp [pairSum, negWeight, posWeight, ScoredRow.pos, ScoredRow.neg, FX.zero_def, FX.one_def]
    simp only [List.nil_append, List.singleton_append] at e3 e4 e5
    have p1 : pairSum (r :: l') (r :: l') = pairSum l l := pairSum_perm hp' hp'
    have p2 : posWeight (r :: l') = posWeight l := (hp'.map _).sum_eq
    have p3 : negWeight (r :: l') = negWeight l := (hp'.map _).sum_eq
    rw [p1] at e3
    rw [p3] at e4
    rw [p2] at e5
    simp only [List.map_cons]
    rw [show r.toTriple = (r.score, FX.fin r.label, FX.fin r.weight) from rfl]
    dsimp only
    rw [e0]
    simp only [e2, FX.fin_add, e3]
    simp only [FX.zero_def, FX.le_fin, FX.fin_mul, e4, e5]
    refine ⟨fun h1 h2 => ?_, fun h => ?_⟩
    · have hpn : 0 < posWeight l * negWeight l := mul_pos h1 h2
      rw [if_neg (by simp [h1, h2]), FX.fin_div _ _ hpn.ne']
      obtain ⟨b1, b2⟩ := pairSum_le hl hl
      exact ⟨rfl, div_nonneg b1 hpn.le, (div_le_one hpn).2 b2⟩
    · rw [if_pos (by rcases h with h | h <;> simp [h])]
      show Res.ok (FX.div (FX.fin 0) (FX.fin (0 * 0))) = _
      simp [FX.div, FX.sinf]

/-- **C41** (order).  The result depends neither on the order of the rows nor on how ties are sorted. -/
theorem C41_order {S S' : Sorter} (hS : S.Ok) (hS' : S'.Ok) {l l' : List (ScoredRow m)} (hp : l.Perm l')
    (hl : ∀ r ∈ l, r.Ok) :
    rocAucScore S (l.map fun r => (FX.fin r.label : FX m)) (l.map ScoredRow.score)
        (l.map fun r => FX.fin r.weight) =
      rocAucScore S' (l'.map fun r => (FX.fin r.label : FX m)) (l'.map ScoredRow.score)
        (l'.map fun r => FX.fin r.weight) := by
  have hl' : ∀ r ∈ l', r.Ok := fun r hr => hl r (hp.mem_iff.2 hr)
  by_cases hne : l = []
  · subst hne
    have := hp.symm.eq_nil
    subst this
    have e : ∀ S : Sorter, S.Ok → rocAucScore S ([] : List (FX m)) [] [] = .panic := by
      intro S hS
      have := (hS.perm (fun a b : FX m × FX m × FX m => Fl.tle b.1 a.1) []).eq_nil
      simp [rocAucScore, this]
    exact (e S hS).trans (e S' hS').symm
  · have hne' : l' ≠ [] := fun h => hne (by rw [h] at hp; exact hp.eq_nil)
    obtain ⟨a1, a2⟩ := C41_mann_whitney hS hne hl
    obtain ⟨b1, b2⟩ := C41_mann_whitney hS' hne' hl'
    have p1 : pairSum l l = pairSum l' l' := pairSum_perm hp hp
    have p2 : posWeight l = posWeight l' := (hp.map _).sum_eq
    have p3 : negWeight l = negWeight l' := (hp.map _).sum_eq
    by_cases h1 : posWeight l = 0 ∨ negWeight l = 0
    · rw [a2 h1, b2 (by rw [← p2, ← p3]; exact h1)]
    · rw [not_or] at h1
      have h2 := (posWeight_nonneg hl).lt_of_ne' h1.1
      have h3 := (negWeight_nonneg hl).lt_of_ne' h1.2
      rw [(a1 h2 h3).1, (b1 (p2 ▸ h2) (p3 ▸ h3)).1, p1, p2, p3]

end

/-- Four rows with a tie between a positive and a negative row. -/
def aucRows : List (ScoredRow ratFmt) :=
  [⟨q 1, 0, 1⟩, ⟨q 2, 0, 1⟩, ⟨q 3, 1, 1⟩, ⟨q 2, 1, 2⟩]

/-- The hypotheses of C41 are met, and a tie matters: 5 of 6 weighted pairs. -/
example : (∀ r ∈ aucRows, r.Ok) ∧ posWeight aucRows = 3 ∧ negWeight aucRows = 2 ∧
    pairSum aucRows aucRows = 5 ∧
    rocAucScore exSorter [q 0, q 0, q 1, q 1] [q 1, q 2, q 3, q 2] [q 1, q 1, q 1, q 2] = .ok (q (5 / 6)) := by
  have hok : ∀ r ∈ aucRows, r.Ok := by
    intro r hr
    simp only [aucRows, List.mem_cons, List.not_mem_nil, or_false] at hr
    rcases hr with rfl | rfl | rfl | rfl <;> exact ⟨rfl, by norm_num, by norm_num, by norm_num⟩
  have h1 : posWeight aucRows = 3 := by decide +kernel
  have h2 : negWeight aucRows = 2 := by decide +kernel
  have h3 : pairSum aucRows aucRows = 5 := by decide +kernel
  refine ⟨hok, h1, h2, h3, ?_⟩
  have := ((C41_mann_whitney exSorter_ok (l := aucRows) (by simp [aucRows]) hok).1
    (by rw [h1]; norm_num) (by rw [h2]; norm_num)).1
  rw [h1, h2, h3] at this
  rw [show (5 / 6 : ℚ) = 5 / (3 * 2) by norm_num]
  exact this

end Verif
