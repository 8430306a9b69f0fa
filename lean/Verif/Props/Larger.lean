import Verif.Props.Shrink
import Verif.Props.Balance
import Verif.Proofs.CopiesFit

/-!
# C153: larger targets never lower the value of a node
-/

set_option linter.unusedSectionVars false
set_option linter.unusedTactic false
set_option linter.unreachableTactic false

namespace Verif

open scoped Verif

section
variable {K : Type} [Field K] [LinearOrder K] [IsStrictOrderedRing K] {m : Fmt K} [hm : m.Rounds]

/-! ### Order of results that may overflow -/

/-- `a` is not above `b`, when both are finite. -/
def FX.Under (a b : FX m) : Prop := ∀ x y : K, a = FX.fin x → b = FX.fin y → x ≤ y

theorem FX.Under.fin {x y : K} (h : x ≤ y) : (FX.fin x : FX m).Under (FX.fin y) := by
  intro a b ha hb
  cases ha; cases hb; exact h

theorem FX.Under.rd {x y : K} (h : x ≤ y) : (FX.rd x : FX m).Under (FX.rd y) := by
  intro a b ha hb
  have := rd_le (m := m) h
  rw [ha, hb] at this
  exact of_decide_eq_true this

theorem FX.Under.add {a b c d : FX m} (h1 : a.Under b) (h2 : c.Under d) : (a + c).Under (b + d) := by
  intro x y hx hy
  change FX.add a c = _ at hx
  change FX.add b d = _ at hy
  cases a <;> cases c <;> first
    | (cases hx; done)
    | (cases b <;> cases d <;> first
        | (cases hy; done)
        | exact FX.Under.rd (m := m) (add_le_add (h1 _ _ rfl rfl) (h2 _ _ rfl rfl)) x y hx hy)

theorem FX.Under.mul {a b : FX m} (h : a.Under b) {w : K} (hw : 0 ≤ w) :
    (a * FX.fin w).Under (b * FX.fin w) := by
  have hs : ∀ (v : K) (x : K), (FX.sinf v : FX m) ≠ FX.fin x := by
    intro v x e
    unfold FX.sinf at e
    split at e
    · cases e
    · split at e <;> cases e
  intro x y hx hy
  change FX.mul a (FX.fin w) = _ at hx
  change FX.mul b (FX.fin w) = _ at hy
  cases a <;> first
    | (cases hx; done)
    | exact absurd hx (hs _ _)
    | (cases b <;> first
        | (cases hy; done)
        | exact absurd hy (hs _ _)
        | exact FX.Under.rd (m := m) (mul_le_mul_of_nonneg_right (h _ _ rfl rfl) hw) x y hx hy)

theorem foldl_forall₂ {P : FX m → FX m → Prop} (hP : ∀ {a b c d}, P a b → P c d → P (a + c) (b + d)) {l l' : List (FX m)}
    (h : List.Forall₂ P l l') : ∀ {a a' : FX m}, P a a' → P (l.foldl (· + ·) a) (l'.foldl (· + ·) a') := by
  induction h with
  | nil => intro a a' ha; exact ha
  | cons h1 _ ih => intro a a' ha; exact ih (hP ha h1)

theorem zipWith_forall₂ {P : FX m → FX m → Prop} (hP : ∀ {a b c d}, P a b → P c d → P (a + c) (b + d))
    {l l' : List (FX m)} (h : List.Forall₂ P l l') : ∀ {k k' : List (FX m)}, List.Forall₂ P k k' →
    List.Forall₂ P (List.zipWith (· + ·) l k) (List.zipWith (· + ·) l' k') := by
  induction h with
  | nil => intro k k' _; simp
  | cons h1 _ ih =>
    intro k k' hk
    cases hk with
    | nil => simp
    | cons h2 h3 => exact .cons (hP h1 h2) (ih h3)

theorem foldLanes_forall₂ {P : FX m → FX m → Prop} (hP : ∀ {a b c d}, P a b → P c d → P (a + c) (b + d)) :
    ∀ (n : Nat) {acc acc' l l' : List (FX m)}, List.Forall₂ P acc acc' → List.Forall₂ P l l' →
      List.Forall₂ P (foldLanes n acc l).1 (foldLanes n acc' l').1 ∧
      List.Forall₂ P (foldLanes n acc l).2 (foldLanes n acc' l').2
  | 0, _, _, _, _, h1, h2 => ⟨h1, h2⟩
  | n + 1, acc, acc', l, l', h1, h2 => by
    unfold foldLanes
    rw [h2.length_eq]
    split
    · exact ⟨h1, h2⟩
    · exact foldLanes_forall₂ hP n (zipWith_forall₂ hP h1 (List.forall₂_take _ h2)) (List.forall₂_drop _ h2)

end

section
variable {K : Type} [Field K] [LinearOrder K] [IsStrictOrderedRing K] {m32 m64 : Fmt K} [h32 : m32.Rounds]
  [h64 : m64.Rounds]

theorem FX.Under.up {a b : FX m32} (h : a.Under b) : (up a : FX m64).Under (up b : FX m64) := by
  intro x y hx hy
  cases a <;> cases b <;> first
    | (cases hx; done)
    | (cases hy; done)
    | (cases hx; cases hy; exact h _ _ rfl rfl)

theorem FX.Under.down {a b : FX m64} (h : a.Under b) : (down a : FX m32).Under (down b : FX m32) := by
  intro x y hx hy
  cases a <;> cases b <;> first
    | (cases hx; done)
    | (cases hy; done)
    | exact FX.Under.rd (m := m32) (h _ _ rfl rfl) x y hx hy

theorem fastF64Sum_under {l l' : List (FX m32)} (h : List.Forall₂ FX.Under l l') :
    (fastF64Sum (D := FX m64) l).Under (fastF64Sum (D := FX m64) l') := by
  unfold fastF64Sum
  have hP : ∀ {a b c d : FX m64}, a.Under b → c.Under d → (a + c).Under (b + d) := FX.Under.add
  have h0 : (0 : FX m64).Under 0 := FX.Under.fin le_rfl
  have hu : List.Forall₂ FX.Under (l.map (up : FX m32 → FX m64)) (l'.map (up : FX m32 → FX m64)) := by
    rw [List.forall₂_map_left_iff, List.forall₂_map_right_iff]
    exact h.imp fun _ _ => FX.Under.up
  have hr : List.Forall₂ FX.Under (List.replicate lanes (0 : FX m64)) (List.replicate lanes 0) :=
    List.forall₂_same.2 fun x hx => by rw [List.eq_of_mem_replicate hx]; exact h0
  obtain ⟨h1, h2⟩ := foldLanes_forall₂ hP l.length hr hu
  rw [← h.length_eq]
  exact FX.Under.down (hP (foldl_forall₂ hP h1 h0) (foldl_forall₂ hP h2 h0))

theorem fastF64Sum_repr {l : List (FX m32)} {g : K} (h : fastF64Sum (D := FX m64) l = FX.fin g) : m32.Repr g := by
  unfold fastF64Sum at h
  dsimp only at h
  generalize List.foldl (· + ·) (0 : FX m64) _ + List.foldl (· + ·) (0 : FX m64) _ = s at h
  cases s with
  | nan => cases h
  | ninf => cases h
  | pinf => cases h
  | fin v =>
    change FX.ofRV (m32.rnd v) = _ at h
    cases e : m32.rnd v with
    | ninf => rw [e] at h; cases h
    | pinf => rw [e] at h; cases h
    | fin z => rw [e] at h; cases h; exact h32.idem e

end

section
variable {K : Type} [Field K] [LinearOrder K] [IsStrictOrderedRing K] {m : Fmt K} [hm : m.Rounds]

theorem nearer_mono {g g' l : K} (hl : 0 ≤ l) (h : g ≤ g') : nearer g l ≤ nearer g' l := by
  unfold nearer
  split_ifs <;> linarith

theorem fx_neg_le {a b : FX m} (h : (a ≤ᶠ b) = true) : (-b ≤ᶠ -a) = true := by
  cases a <;> cases b <;> first
    | (cases h; done)
    | rfl
    | exact decide_eq_true (neg_le_neg (of_decide_eq_true h))

/-- Limiting a step to `mds` keeps the order. -/
theorem clamp_mono {mds : K} (h0 : 0 ≤ mds) {w w' : FX m} (h : (w ≤ᶠ w') = true) :
    ((if !((FX.fin mds : FX m) =ᶠ 0) && (FX.fin mds : FX m) <ᶠ Fl.abs w then Fl.copysign (FX.fin mds) w else w) ≤ᶠ
      (if !((FX.fin mds : FX m) =ᶠ 0) && (FX.fin mds : FX m) <ᶠ Fl.abs w' then Fl.copysign (FX.fin mds) w' else w')) =
        true := by
  by_cases h1 : mds = 0
  · subst h1
    simpa [FX.zero_def, FX.feq_fin] using h
  · have h2 : 0 < mds := lt_of_le_of_ne h0 (Ne.symm h1)
    have key : ∀ v : FX m, (if !((FX.fin mds : FX m) =ᶠ 0) && (FX.fin mds : FX m) <ᶠ Fl.abs v then
        Fl.copysign (FX.fin mds) v else v) = match v with
          | .nan => .nan
          | .ninf => .fin (-mds)
          | .pinf => .fin mds
          | .fin x => .fin (max (-mds) (min x mds)) := by
      intro v
      simp only [FX.zero_def, FX.feq_fin, h1, decide_false, Bool.not_false, Bool.true_and]
      cases v with
      | nan => rfl
      | ninf =>
        show FX.fin (-|mds|) = _
        rw [abs_of_pos h2]
      | pinf =>
        show FX.fin |mds| = _
        rw [abs_of_pos h2]
      | fin x =>
        show (if (FX.lt (FX.fin mds) (FX.fin |x|) : Bool) = true then
          (if decide (x < 0) = true then FX.fin (-|mds|) else FX.fin |mds|) else FX.fin x) = FX.fin _
        have e : (FX.lt (FX.fin mds : FX m) (FX.fin |x|) : Bool) = decide (mds < |x|) := rfl
        rw [e, abs_of_pos h2]
        simp only [decide_eq_true_eq]
        split
        · rename_i h3
          split
          · rename_i h4
            rw [abs_of_neg h4] at h3
            rw [min_eq_left (by linarith), max_eq_left (by linarith)]
          · rename_i h4
            rw [abs_of_nonneg (not_lt.1 h4)] at h3
            rw [min_eq_right h3.le, max_eq_right (by linarith)]
        · rename_i h3
          have := abs_le.1 (not_lt.1 h3)
          rw [min_eq_left this.2, max_eq_right this.1]
    rw [key w, key w']
    have b1 : ∀ x : K, -mds ≤ max (-mds) (min x mds) := fun x => le_max_left _ _
    have b2 : ∀ x : K, max (-mds) (min x mds) ≤ mds := fun x => max_le (by linarith) (min_le_right _ _)
    cases w <;> cases w' <;> first
      | (cases h; done)
      | exact decide_eq_true (le_refl _)
      | exact decide_eq_true (by linarith)
      | exact decide_eq_true (b1 _)
      | exact decide_eq_true (b2 _)
      | exact decide_eq_true (max_le_max le_rfl (min_le_min (of_decide_eq_true h) le_rfl))

/-! ### C153 -/

/-- C153.  Any rounding arithmetic.  The larger the sum of the gradients, the smaller the value of the node. -/
theorem C153_weight {l1 l2 mds g g' h : K} (a1 : 0 ≤ l1) (a2 : 0 ≤ l2) (a3 : 0 ≤ mds) (a4 : 0 ≤ h) (hp : 0 < h + l2)
    (hg : g ≤ g') (rg : m.Repr g) (rg' : m.Repr g') (rh : m.Repr h) (rl : m.Repr l2) :
    (weight (FX.fin l1 : FX m) (FX.fin l2) (FX.fin mds) (FX.fin g') (FX.fin h) ≤ᶠ
      weight (FX.fin l1 : FX m) (FX.fin l2) (FX.fin mds) (FX.fin g) (FX.fin h)) = true := by
  unfold weight
  refine clamp_mono a3 (fx_neg_le ?_)
  rw [l1Regularization_rd rg, l1Regularization_rd rg']
  have hn : ∀ x : K, |nearer x l1| ≤ |x| := by
    intro x
    have := nearer_abs (g := x) (le_refl 0) a1
    rwa [nearer_zero] at this
  obtain ⟨r, hr⟩ := rd_bounded (m := m) rg (hn g)
  obtain ⟨r', hr'⟩ := rd_bounded (m := m) rg' (hn g')
  have hrr : r ≤ r' := by
    have := rd_le (m := m) (nearer_mono a1 hg)
    rw [hr, hr'] at this
    exact of_decide_eq_true this
  rw [hr, hr']
  show (FX.div (FX.fin r) (FX.rd (h + l2)) ≤ᶠ FX.div (FX.fin r') (FX.rd (h + l2))) = true
  rcases rd_sum (m := m) a4 a2 rh rl hp with e | ⟨d, hd, e⟩
  · rw [e]
    exact decide_eq_true le_rfl
  · rw [e]
    show ((if d = 0 then FX.sinf r else FX.rd (r / d) : FX m) ≤ᶠ (if d = 0 then FX.sinf r' else FX.rd (r' / d))) = true
    rw [if_neg hd.ne', if_neg hd.ne']
    exact rd_le (div_le_div_of_nonneg_right hrr hd.le)

end

section
variable {K : Type} [Field K] [LinearOrder K] [IsStrictOrderedRing K] {m32 m64 : Fmt K} [h32 : m32.Rounds]
  [h64 : m64.Rounds]

theorem FX.Under.refl {m : Fmt K} (a : FX m) : a.Under a := by
  intro x y hx hy
  rw [hx] at hy
  exact le_of_eq (FX.fin.inj hy)

/-- The gradient of one row. -/
theorem gradOf_under (o : ObjectiveType) {y y' w : K} (hy : y ≤ y') (hw : 0 ≤ w) (p : FX m64) :
    (o.gradOf (FX.fin y' : FX m64) p (FX.fin w)).Under (o.gradOf (FX.fin y : FX m64) p (FX.fin w)) := by
  have : ∀ s : FX m64, ((s - FX.fin y') * FX.fin w).Under ((s - FX.fin y) * FX.fin w) := fun s =>
    FX.Under.mul (FX.Under.add (FX.Under.refl s) (FX.Under.fin (neg_le_neg hy))) hw
  cases o
  · exact this _
  · exact this _

/-- The gradients, pair by pair. -/
theorem grads_under (o : ObjectiveType) : ∀ {y y' p w : List K}, List.Forall₂ (· ≤ ·) y y' → (∀ x ∈ w, 0 ≤ x) →
    List.Forall₂ FX.Under
      (calcGradHess (F := FX m32) o (y'.map FX.fin : List (FX m64)) (p.map FX.fin) (w.map FX.fin)).1
      (calcGradHess (F := FX m32) o (y.map FX.fin : List (FX m64)) (p.map FX.fin) (w.map FX.fin)).1
  | [], [], _, _, _, _ => by simp [calcGradHess, zip3]
  | a :: y, a' :: y', [], _, _, _ => by simp [calcGradHess, zip3]
  | a :: y, a' :: y', _ :: _, [], _, _ => by simp [calcGradHess, zip3]
  | a :: y, a' :: y', c :: p, v :: w, .cons h1 h2, hw => by
    have ih := grads_under o (p := p) (w := w) h2 fun x hx => hw x (List.mem_cons_of_mem _ hx)
    have h0 := FX.Under.down (m32 := m32) (gradOf_under (m64 := m64) o h1 (hw v List.mem_cons_self) (FX.fin c))
    cases o <;>
    · simp only [calcGradHess, zip3, List.map_cons, List.zip_cons_cons, List.unzip_cons] at ih ⊢
      exact .cons h0 ih

/-- C153.  Any rounding arithmetic, either objective.  Targets that are nowhere smaller give a root value that is not
smaller: gradients, their sum over all rows in lanes of 16, and the value of the node keep the order, rounding
included.  The sums are not to overflow. -/
theorem C153_value (o : ObjectiveType) {y y' p w : List K} (hy : List.Forall₂ (· ≤ ·) y y') (hw : ∀ x ∈ w, 0 ≤ x)
    {l1 l2 mds g g' h : K} (a1 : 0 ≤ l1) (a2 : 0 ≤ l2) (a3 : 0 ≤ mds) (rl : m32.Repr l2) (hp : 0 < h + l2)
    (ho : o = .squaredLoss ∨ 0 ≤ h)
    (hg : fastF64Sum (D := FX m64) (calcGradHess (F := FX m32) o (y.map FX.fin : List (FX m64))
      (p.map FX.fin) (w.map FX.fin)).1 = FX.fin g)
    (hg' : fastF64Sum (D := FX m64) (calcGradHess (F := FX m32) o (y'.map FX.fin : List (FX m64))
      (p.map FX.fin) (w.map FX.fin)).1 = FX.fin g')
    (hh : fastF64Sum (D := FX m64) (calcGradHess (F := FX m32) o (y.map FX.fin : List (FX m64))
      (p.map FX.fin) (w.map FX.fin)).2 = FX.fin h) :
    fastF64Sum (D := FX m64) (calcGradHess (F := FX m32) o (y'.map FX.fin : List (FX m64))
      (p.map FX.fin) (w.map FX.fin)).2 = FX.fin h ∧
    (weight (FX.fin l1 : FX m32) (FX.fin l2) (FX.fin mds) (FX.fin g) (FX.fin h) ≤ᶠ
      weight (FX.fin l1 : FX m32) (FX.fin l2) (FX.fin mds) (FX.fin g') (FX.fin h)) = true := by
  have same : ∀ {y y' p w : List K}, List.Forall₂ (· ≤ ·) y y' →
      (calcGradHess (F := FX m32) o (y'.map FX.fin : List (FX m64)) (p.map FX.fin) (w.map FX.fin)).2 =
        (calcGradHess (F := FX m32) o (y.map FX.fin : List (FX m64)) (p.map FX.fin) (w.map FX.fin)).2 := by
    intro y y' p w hy
    induction hy generalizing p w with
    | nil => rfl
    | cons _ _ ih =>
      cases p with
      | nil => simp [calcGradHess, zip3]
      | cons c p =>
        cases w with
        | nil => simp [calcGradHess, zip3]
        | cons v w =>
          have := ih (p := p) (w := w)
          cases o <;>
          · simp only [calcGradHess, zip3, List.map_cons, List.zip_cons_cons, List.unzip_cons] at this ⊢
            rw [this]; rfl
  refine ⟨by rw [same hy]; exact hh, ?_⟩
  have h0 : 0 ≤ h := by
    rcases ho with rfl | ho
    swap
    · exact ho
    have hz : ∀ {y p w : List K}, (∀ x ∈ w, 0 ≤ x) → List.Forall₂ FX.Under
        ((calcGradHess (F := FX m32) .squaredLoss (y.map FX.fin : List (FX m64)) (p.map FX.fin)
          (w.map FX.fin)).2.map fun _ => (0 : FX m32))
        (calcGradHess (F := FX m32) .squaredLoss (y.map FX.fin : List (FX m64)) (p.map FX.fin) (w.map FX.fin)).2 := by
      intro y p w hw
      rw [List.forall₂_map_left_iff, List.forall₂_same]
      intro x hx
      simp only [calcGradHess, List.unzip_snd, List.map_map, List.mem_map, zip3] at hx
      obtain ⟨t, ht, rfl⟩ := hx
      have h3 := (List.of_mem_zip (List.of_mem_zip ht).2).2
      obtain ⟨v, hv, h4⟩ := List.mem_map.1 h3
      show (0 : FX m32).Under (down (squaredLossHess t.1 t.2.1 t.2.2))
      unfold squaredLossHess
      rw [← h4]
      have := FX.Under.rd (m := m32) (hw v hv)
      rw [FX.rd_zero] at this
      exact this
    have h1 := fastF64Sum_under (m32 := m32) (m64 := m64) (hz (y := y) (p := p) hw)
    obtain ⟨a, ha, e⟩ := fastF64Sum_all (F := FX m32) (D := FX m64) (P := fun a => a = 0) rfl
      (fun a b ha hb => by rw [ha, hb]; exact (by rw [show (0 : FX m64) + 0 = FX.rd (0 + 0) from rfl, add_zero]; exact FX.rd_zero))
      (l := (calcGradHess (F := FX m32) .squaredLoss (y.map FX.fin : List (FX m64)) (p.map FX.fin)
          (w.map FX.fin)).2.map fun _ => (0 : FX m32))
      (fun x hx => by obtain ⟨_, _, rfl⟩ := List.mem_map.1 hx; rfl)
    subst ha
    have e2 : (down (0 : FX m64) : FX m32) = FX.fin 0 := by
      show FX.rd (0 : K) = _
      exact FX.rd_zero
    rw [e, e2] at h1
    exact h1 0 h rfl hh
  exact C153_weight a1 a2 a3 h0 hp (fastF64Sum_under (grads_under o hy hw) _ _ hg' hg) (fastF64Sum_repr hg')
    (fastF64Sum_repr hg) (fastF64Sum_repr hh) rl

end

section
variable {K : Type} [Field K] [LinearOrder K] [IsStrictOrderedRing K] {m32 m64 : Fmt K}
  [m32.Exact] [m64.Exact]
variable {R R' : Type} {env : Env R (FX m32) (FX m64)} {env' : Env R' (FX m32) (FX m64)}
  {b b' c c' : Booster (FX m32) (FX m64)} {X : Matrix (FX m64)} {y y' w : List K}
  {ev ev' : Option (List (EvalSet (FX m64)))}

theorem grad_rowVals {o : ObjectiveType} (he : o = .logLoss → ExpPos m64) {p w : List K} {i : Nat} (hp : i < p.length)
    (hw : i < w.length) : ∃ s h : K, ∀ {y : List K} (hy : i < y.length),
    rowVals (calcGradHess (F := FX m32) o (y.map FX.fin : List (FX m64)) (p.map FX.fin) (w.map FX.fin)).1 i =
        (s - y[i]) * w[i] ∧
    rowVals (calcGradHess (F := FX m32) o (y.map FX.fin : List (FX m64)) (p.map FX.fin) (w.map FX.fin)).2 i =
        h * w[i] := by
  have key : ∃ s h : K, ∀ y : K, o.gradOf (FX.fin y : FX m64) (FX.fin p[i]) (FX.fin w[i]) = FX.fin ((s - y) * w[i]) ∧
      o.hessOf (FX.fin y : FX m64) (FX.fin p[i]) (FX.fin w[i]) = FX.fin (h * w[i]) := by
    cases o with
    | squaredLoss =>
      exact ⟨p[i], 1, fun y => ⟨by simp [ObjectiveType.gradOf, squaredLossGrad],
        by simp [ObjectiveType.hessOf, squaredLossHess]⟩⟩
    | logLoss =>
      obtain ⟨s, h1, -, -⟩ := logistic_fin (he rfl) p[i]
      exact ⟨s, s * (1 - s), fun y => ⟨by simp [ObjectiveType.gradOf, logLossGrad, h1],
        by simp [ObjectiveType.hessOf, logLossHess, h1, FX.one_def]⟩⟩
  obtain ⟨s, h, hsh⟩ := key
  refine ⟨s, h, fun {y} hy => ?_⟩
  obtain ⟨g1, g2⟩ := calcGradHess_get (F := FX m32) o (y.map FX.fin : List (FX m64))
    (p.map FX.fin) (w.map FX.fin) i (yi := FX.fin y[i]) (pi := FX.fin p[i]) (wi := FX.fin w[i])
    (by simp [hy]) (by simp [hp]) (by simp [hw])
  rw [(hsh _).1, FX.down_fin] at g1
  rw [(hsh _).2, FX.down_fin] at g2
  rw [rowVals_of g1, rowVals_of g2]
  exact ⟨rfl, rfl⟩

/-- C153.  Exact arithmetic.  Two fits of the same objective with the same regularisation and learning rate from the same base
score to the same features and weights, without sampling, constraints and missing branches: the one with the larger
targets has the larger value at the root of the first tree, whatever their other settings. -/
theorem C153_root {l1 l2 mds lr : K} (h : PlainFit env b X y w ev b' l1 l2 mds lr)
    (h' : PlainFit env' c X y' w ev' c' l1 l2 mds lr) (ho : c.objectiveType = b.objectiveType) (hy : List.Forall₂ (· ≤ ·) y y')
    (hbase : c'.baseScore = b'.baseScore) (hs : b.sampleMethod = .none) (hs' : c.sampleMethod = .none)
    (hb : b.createMissingBranch = false) (hb' : c.createMissingBranch = false) (hc : b.monotoneConstraints = none)
    (hc' : c.monotoneConstraints = none) (a1 : 0 ≤ l1) (a3 : 0 ≤ mds) (hlr : 0 ≤ lr) {t t' : Tree (FX m32) (FX m64)}
    (ht : b'.trees[0]? = some t) (ht' : c'.trees[0]? = some t') :
    ∃ (n n' : Node (FX m32) (FX m64)) (v v' : K), t.nodes[0]? = some n ∧ t'.nodes[0]? = some n' ∧
      n.weightValue = FX.fin v ∧ n'.weightValue = FX.fin v' ∧ v ≤ v' := by
  obtain ⟨base, binned, st, stop, N, hT⟩ := Booster.fit_trace h.fit
  obtain ⟨base', binned', st', stop', N', hT'⟩ := Booster.fit_trace h'.fit
  have hbb : base' = base := by
    have h1 := hT.final
    have h2 := hT'.final
    rw [h1, h2] at hbase
    exact hbase
  subst hbb
  obtain ⟨p, hp⟩ := h.yhat hT 0 (Nat.zero_le _)
  have hy0 : (st' 0).yhat = (st 0).yhat := by
    rw [hT.start, hT'.start]
    show List.replicate _ _ = List.replicate _ _
    rw [List.length_map, List.length_map, hy.length_eq]
  obtain ⟨cfg, rows, hA⟩ := h.tree_of hT ht hp
  obtain ⟨cfg', rows', hA'⟩ := h'.tree_of hT' ht' (hy0.trans hp)
  obtain ⟨r1, r2, hsa⟩ := hA.treeAt.sample
  obtain ⟨r1', r2', hsa'⟩ := hA'.treeAt.sample
  rw [hs] at hsa
  rw [hs', ho] at hsa'
  simp only [sampleIndex, Res.ok.injEq, Prod.mk.injEq] at hsa hsa'
  obtain ⟨e1, e2, e3, -⟩ := hsa
  obtain ⟨e1', e2', e3', -⟩ := hsa'
  have hwf := h.explainable.wf t (List.mem_of_getElem? ht)
  have hwf' := h'.explainable.wf t' (List.mem_of_getElem? ht')
  have hn := List.getElem?_eq_getElem (List.length_pos_iff.2 hwf.nonempty)
  have hn' := List.getElem?_eq_getElem (List.length_pos_iff.2 hwf'.nonempty)
  obtain ⟨x, hx, hst⟩ := root_step hA a1 a3 hb hc hn
  obtain ⟨x', hx', hst'⟩ := root_step hA' a1 a3 hb' hc' hn'
  refine ⟨_, _, _, _, hn, hn', hx, hx', mul_le_mul_of_nonneg_right ?_ hlr⟩
  have hpos := hA.params.root
  have hpos' := hA'.params.root
  have hrow : rows = List.range X.rows := by rw [← e1]; rfl
  have hrow' : rows' = List.range X.rows := by rw [← e1']; rfl
  have hval : ∀ r < X.rows, rowVals cfg'.train.hess r = rowVals cfg.train.hess r ∧
      rowVals cfg'.train.grad r ≤ rowVals cfg.train.grad r := by
    intro r hr
    have l1 : r < y.length := by rw [h.ylen]; exact hr
    have l2 : r < y'.length := by rw [h'.ylen]; exact hr
    have l3 : r < p.length := by rw [hA.len]; exact hr
    have l4 : r < w.length := by rw [h.wlen]; exact hr
    obtain ⟨s, hh, hsh⟩ := grad_rowVals (m32 := m32) (m64 := m64) h.exp l3 l4
    obtain ⟨v1, v2⟩ := hsh l1
    obtain ⟨v1', v2'⟩ := hsh l2
    rw [← e2, ← e3, ← e2', ← e3', v1, v2, v1', v2']
    refine ⟨rfl, mul_le_mul_of_nonneg_right ?_ (h.nonneg _ (List.getElem_mem l4))⟩
    have := hy.get l1 l2
    simp only [List.get_eq_getElem] at this
    linarith
  have hH : (rows'.map (rowVals cfg'.train.hess)).sum = (rows.map (rowVals cfg.train.hess)).sum := by
    rw [hrow, hrow']
    congr 1
    exact List.map_congr_left fun r hr => (hval r (List.mem_range.1 hr)).1
  have hG : (rows'.map (rowVals cfg'.train.grad)).sum ≤ (rows.map (rowVals cfg.train.grad)).sum := by
    rw [hrow, hrow']
    exact List.sum_le_sum fun r hr => (hval r (List.mem_range.1 hr)).2
  rw [hH] at hst' hpos'
  have hh : 0 ≤ (rows.map (rowVals cfg.train.hess)).sum := List.sum_nonneg (by
    intro v hv
    obtain ⟨r, hr, rfl⟩ := List.mem_map.1 hv
    exact hA.params.hess r hr)
  have hrep : ∀ a : K, m32.Repr a := fun a => Fmt.Exact.rnd_eq a
  obtain ⟨z, g1, -, g3⟩ := C53_weight (m := m32) (g := (rows.map (rowVals cfg.train.grad)).sum) hpos a1 a3
  obtain ⟨z', g1', -, g3'⟩ := C53_weight (m := m32) (g := (rows'.map (rowVals cfg'.train.grad)).sum) hpos' a1 a3
  have := C153_weight (m := m32) a1 h.l2_nonneg a3 hh hpos hG (hrep _) (hrep _) (hrep _) (hrep _)
  rw [g1, g1'] at this
  rw [g3 x hst, g3' x' hst']
  exact of_decide_eq_true this

end

/-! ### The hypotheses are met -/

/-- Targets 0, 1, 2 against 0, 1, 5 with the weights 1, 3, 1 and predictions of a tenth, computed in binary32 and
binary64: the sums of the gradients round to -4.5 and -7.5 and the values with `l2 = 1` are 0.75 and 1.25. -/
example : (List.Forall₂ (· ≤ ·) [(0 : ℚ), 1, 2] [0, 1, 5]) ∧
    fastF64Sum (D := F64) (calcGradHess (F := F32) .squaredLoss ([0, 1, 2].map FX.fin : List F64)
      ([1/10, 1/10, 1/10].map FX.fin) ([1, 3, 1].map FX.fin)).1 = FX.fin (-9/2) ∧
    fastF64Sum (D := F64) (calcGradHess (F := F32) .squaredLoss ([0, 1, 5].map FX.fin : List F64)
      ([1/10, 1/10, 1/10].map FX.fin) ([1, 3, 1].map FX.fin)).1 = FX.fin (-15/2) ∧
    fastF64Sum (D := F64) (calcGradHess (F := F32) .squaredLoss ([0, 1, 2].map FX.fin : List F64)
      ([1/10, 1/10, 1/10].map FX.fin) ([1, 3, 1].map FX.fin)).2 = FX.fin 5 ∧
    weight (FX.fin 0 : F32) (FX.fin 1) (FX.fin 0) (FX.fin (-9/2)) (FX.fin 5) = FX.fin (3/4) ∧
    weight (FX.fin 0 : F32) (FX.fin 1) (FX.fin 0) (FX.fin (-15/2)) (FX.fin 5) = FX.fin (5/4) ∧
    f32Fmt.Repr 1 := by
  refine ⟨by norm_num, ?_⟩
  unfold Fmt.Repr
  decide +kernel

theorem exLarger_plain {d : Nat} {b' : Booster Q Q}
    (h : (exDepth d).fit exEnv exAnd [q 1, q 0, q 0, q 6] [q 1, q 2, q 1, q 3] none = .ok (b', .ok ())) :
    PlainFit exEnv (exDepth d) exAnd [1, 0, 0, 6] [(1 : ℚ), 2, 1, 3] none b' 0 0 0 (1/2) where
  sorter := exSorter_ok
  rng := exRng_ok
  shaped := rfl
  ylen := rfl
  wlen := rfl
  max := by
    show ∀ v ∈ exAnd.data, ¬IsMissing FX.nan v → (v ≤ᶠ Fl.maxv) = true
    decide +kernel
  minLeafWeight := by
    show FX.fin 0 ≤ᶠ q 1
    decide
  l1_eq := rfl
  l2_eq := rfl
  mds_eq := rfl
  lr_eq := rfl
  l2_nonneg := le_rfl
  positive := .inr ⟨rfl, 1, by simp, one_pos⟩
  goss := fun h => nomatch h
  exp := fun h => nomatch h
  base := fun s hs => by
    have hs : s = exFresh.baseScore := hs
    rw [hs]; exact ⟨_, rfl⟩
  fit := h

/-- The root of the first tree is 17/28 for the targets 0, 0, 0, 4 and 31/28 for 1, 0, 0, 6.  The leaves are not
comparable, as the trees have different splits. -/
example : ∃ b' c' : Booster Q Q,
    PlainFit exEnv (exDepth 2) exAnd [0, 0, 0, 4] [(1 : ℚ), 2, 1, 3] none b' 0 0 0 (1/2) ∧
    PlainFit exEnv (exDepth 2) exAnd [1, 0, 0, 6] [(1 : ℚ), 2, 1, 3] none c' 0 0 0 (1/2) ∧
    c'.baseScore = b'.baseScore ∧
    b'.trees.map (fun t => t.nodes.map (·.weightValue)) = [[q (17/28), q (-1/4), q (5/4), q (-1/4), q (7/4)],
      [q (17/56), q (-1/8), q (5/8), q (-1/8), q (7/8)]] ∧
    c'.trees.map (fun t => t.nodes.map (·.weightValue)) =
      [[q (31/28), q (-1/12), q 2, q (1/4), q (-1/4), q (-1/4), q (11/4)],
       [q (31/56), q (-1/24), q 1, q (1/8), q (-1/8), q (-1/8), q (11/8)]] := by
  have : (match (exDepth 2).fit exEnv exAnd [q 0, q 0, q 0, q 4] [q 1, q 2, q 1, q 3] none,
      (exDepth 2).fit exEnv exAnd [q 1, q 0, q 0, q 6] [q 1, q 2, q 1, q 3] none with
    | .ok (b', .ok ()), .ok (c', .ok ()) => decide (c'.baseScore = b'.baseScore ∧
      b'.trees.map (fun t => t.nodes.map (·.weightValue)) = [[q (17/28), q (-1/4), q (5/4), q (-1/4), q (7/4)],
        [q (17/56), q (-1/8), q (5/8), q (-1/8), q (7/8)]] ∧
      c'.trees.map (fun t => t.nodes.map (·.weightValue)) =
        [[q (31/28), q (-1/12), q 2, q (1/4), q (-1/4), q (-1/4), q (11/4)],
         [q (31/56), q (-1/24), q 1, q (1/8), q (-1/8), q (-1/8), q (11/8)]])
    | _, _ => false) = true := by decide +kernel
  split at this
  · rename_i b' c' h h'
    exact ⟨b', c', exWeighted_plain h, exLarger_plain h', of_decide_eq_true this⟩
  · cases this

end Verif
