import Verif.Props.StepLimit
import Verif.Props.StepLimitFloat
import Verif.Props.Predict
import Mathlib.Logic.Function.Iterate

/-!
# C130: with a step limit the predictions stay near the base score
-/

namespace Verif

open scoped Verif

section
variable {K : Type} [Field K] [LinearOrder K] [IsStrictOrderedRing K] {m32 m64 : Fmt K}

theorem route_mem {F D : Type} [Fl D] {nodes : List (Node F D)} {row : Nat → Option D} {missing : D} {i : Nat}
    {l : Node F D} (h : Route nodes row missing i l) : l ∈ nodes := by
  induction h with
  | leaf h _ => exact List.mem_of_getElem? h
  | step _ _ _ _ _ ih => exact ih

theorem leaves_mem {F D : Type} [Fl D] {ts : List (Tree F D)} {row : Nat → Option D} {missing : D}
    {ls : List (Node F D)} (h : Leaves ts row missing ls) :
    ls.length = ts.length ∧ ∀ l ∈ ls, ∃ t ∈ ts, l ∈ t.nodes := by
  unfold Leaves at h
  induction h with
  | nil => exact ⟨rfl, fun l hl => by cases hl⟩
  | cons hr _ ih =>
    refine ⟨by simp [ih.1], fun l hl => ?_⟩
    rcases List.mem_cons.1 hl with rfl | hl
    · exact ⟨_, List.mem_cons_self, route_mem hr⟩
    · obtain ⟨t, h1, h2⟩ := ih.2 l hl
      exact ⟨t, List.mem_cons_of_mem _ h1, h2⟩

section exact
variable [m32.Exact] [m64.Exact]

theorem foldl_reach {c : K} : ∀ {ls : List (Node (FX m32) (FX m64))} {β : K},
    (∀ l ∈ ls, ∃ x, l.weightValue = FX.fin x ∧ |x| ≤ c) →
    ∃ x, ls.foldl (fun acc (l : Node (FX m32) (FX m64)) => acc + up l.weightValue) (FX.fin β : FX m64) = FX.fin x ∧
      |x - β| ≤ ls.length * c := by
  intro ls
  induction ls with
  | nil => intro β _; exact ⟨β, rfl, by simp⟩
  | cons l ls ih =>
    intro β h
    obtain ⟨v, hv, hc⟩ := h l List.mem_cons_self
    obtain ⟨x, h1, h2⟩ := ih (β := β + v) fun l hl => h l (List.mem_cons_of_mem _ hl)
    refine ⟨x, ?_, ?_⟩
    · rw [List.foldl_cons, hv, FX.up_fin, FX.fin_add]; exact h1
    · have : |x - β| ≤ |x - (β + v)| + |v| := by
        have := abs_add_le (x - (β + v)) v
        rwa [show x - (β + v) + v = x - β by ring] at this
      simp only [List.length_cons, Nat.cast_add, Nat.cast_one]
      linarith

variable {X : Matrix (FX m64)} {w : List K}

/-- **C130** (exact arithmetic).  A booster fitted on finite data with a positive `max_delta_step` predicts, for any
data, finite numbers that differ from the base score by at most the number of trees used, and so by at most the
number of iterations asked for, times `learning_rate * max_delta_step`. -/
theorem C130_exact {R : Type} {env : Env R (FX m32) (FX m64)} {b b' : Booster (FX m32) (FX m64)}
    {y : List K} {ev : Option (List (EvalSet (FX m64)))} {l1 l2 mds lr : K}
    (h : PlainFit env b X y w ev b' l1 l2 mds lr) (hm : 0 < mds) (hlr : 0 ≤ lr) {β : K}
    (hβ : b'.baseScore = FX.fin β) {data : Matrix (FX m64)} {out : List (FX m64)}
    (hout : b'.predict data = .ok out) :
    ∀ v ∈ out, ∃ x, v = FX.fin x ∧ |x - β| ≤ b'.used * (lr * mds) ∧ |x - β| ≤ b.iterations * (lr * mds) := by
  obtain ⟨hu, hl, hp⟩ := (C19_prediction_iteration b' data out).1 hout
  intro v hv
  obtain ⟨i, hi⟩ := List.mem_iff_getElem?.1 hv
  obtain ⟨ls, hls, rfl⟩ := hp i v hi
  obtain ⟨hlen, hmem⟩ := leaves_mem hls
  rw [hβ]
  obtain ⟨x, h1, h2⟩ := foldl_reach (m32 := m32) (m64 := m64) (c := lr * mds) (ls := ls) (β := β) fun l hl => by
    obtain ⟨t, ht, hlt⟩ := hmem l hl
    exact C09_booster h hm hlr t (List.mem_of_mem_take ht) l hlt
  rw [hlen, List.length_take, Nat.min_eq_left hu] at h2
  refine ⟨x, h1, h2, h2.trans (mul_le_mul_of_nonneg_right ?_ (by positivity))⟩
  have hle : b'.trees.length ≤ b.iterations := by
    obtain ⟨base, binned, st, stop, N, hT⟩ := Booster.fit_trace h.fit
    rw [hT.length]
    exact hT.le
  exact_mod_cast hu.trans hle

end exact

section float
variable [h32 : m32.Rounds] [h64 : m64.Rounds]

theorem FX.add_le_add_up {a : K} {a' y : FX m64} {x : K} (h : ((FX.fin a : FX m64) ≤ᶠ a') = true)
    (hx : ((FX.fin x : FX m64) ≤ᶠ y) = true) : ((FX.fin a + FX.fin x : FX m64) ≤ᶠ (a' + y)) = true := by
  cases y with
  | nan => cases hx
  | ninf => cases hx
  | fin y => exact FX.add_mono h (of_decide_eq_true hx)
  | pinf =>
    have key : ∀ z : K, ((FX.rd z : FX m64) ≤ᶠ FX.pinf) = true := by
      intro z; unfold FX.rd; cases m64.rnd z <;> rfl
    cases a' with
    | nan => cases h
    | ninf => cases h
    | fin a' => exact key _
    | pinf => exact key _

theorem FX.add_le_add_down {a : K} {a' y : FX m64} {x : K} (h : (a' ≤ᶠ (FX.fin a : FX m64)) = true)
    (hx : (y ≤ᶠ (FX.fin x : FX m64)) = true) : ((a' + y) ≤ᶠ (FX.fin a + FX.fin x : FX m64)) = true := by
  cases y with
  | nan => cases hx
  | pinf => cases hx
  | fin y => exact FX.add_mono h (of_decide_eq_true hx)
  | ninf =>
    have key : ∀ z : K, ((FX.ninf : FX m64) ≤ᶠ FX.rd z) = true := by
      intro z; unfold FX.rd; cases m64.rnd z <;> rfl
    cases a' with
    | nan => cases h
    | pinf => cases h
    | fin a' => exact key _
    | ninf => exact key _

theorem FX.up_eq_fin {x : FX m32} {v : K} (h : (up x : FX m64) = FX.fin v) : x = FX.fin v := by
  cases x with
  | fin a => cases h; rfl
  | nan => cases h
  | ninf => cases h
  | pinf => cases h

theorem foldl_reach_float {c : FX m32} : ∀ {ls : List (Node (FX m32) (FX m64))} {β lo hi : FX m64} {v : K},
    ls.foldl (fun acc (l : Node (FX m32) (FX m64)) => acc + up l.weightValue) β = FX.fin v →
    (∀ l ∈ ls, ∀ x, l.weightValue = FX.fin x → ((FX.fin |x| : FX m32) ≤ᶠ c) = true) →
    (lo ≤ᶠ β) = true → (β ≤ᶠ hi) = true →
    ((((· - up c) : FX m64 → FX m64)^[ls.length] lo) ≤ᶠ FX.fin v) = true ∧
    ((FX.fin v : FX m64) ≤ᶠ (((· + up c) : FX m64 → FX m64)^[ls.length] hi)) = true := by
  intro ls
  induction ls with
  | nil => intro β lo hi v h _ h1 h2; cases h; exact ⟨h1, h2⟩
  | cons l ls ih =>
    intro β lo hi v h hb h1 h2
    rw [List.foldl_cons] at h
    simp only [List.length_cons, Function.iterate_succ_apply]
    have hfin : ∃ z, β + up l.weightValue = FX.fin z := by
      clear ih h1 h2 hb
      have key : ∀ (ls : List (Node (FX m32) (FX m64))) (γ : FX m64),
          ls.foldl (fun acc (l : Node (FX m32) (FX m64)) => acc + up l.weightValue) γ = FX.fin v →
          ∃ z, γ = FX.fin z := by
        intro ls
        induction ls with
        | nil => intro γ hγ; exact ⟨v, hγ⟩
        | cons a ls ih =>
          intro γ hγ
          obtain ⟨z, hz⟩ := ih _ hγ
          obtain ⟨p, r, hp, _⟩ := FX.add_eq_fin hz
          exact ⟨p, hp⟩
      exact key ls _ h
    obtain ⟨z, hz⟩ := hfin
    obtain ⟨p, x, hp, hx, _⟩ := FX.add_eq_fin hz
    have hl := hb l List.mem_cons_self x (FX.up_eq_fin hx)
    refine ih h (fun l hl => hb l (List.mem_cons_of_mem _ hl)) ?_ ?_
    · rw [hp] at h1 ⊢
      rw [hx]
      show ((lo + -(up c)) ≤ᶠ _) = true
      refine FX.add_le_add_down h1 ?_
      cases c with
      | nan => cases hl
      | ninf => cases hl
      | pinf => rfl
      | fin c =>
        have : |x| ≤ c := of_decide_eq_true hl
        exact decide_eq_true (by linarith [neg_abs_le x] : -c ≤ x)
    · rw [hp] at h2 ⊢
      rw [hx]
      refine FX.add_le_add_up h2 ?_
      cases c with
      | nan => cases hl
      | ninf => cases hl
      | pinf => rfl
      | fin c =>
        have : |x| ≤ c := of_decide_eq_true hl
        exact decide_eq_true ((le_abs_self x).trans this)

/-- **C130** (floating point arithmetic).  A finite prediction of a booster fitted with a positive `max_delta_step`
lies between what comes out when the rounded product `max_delta_step * learning_rate` is subtracted from, and added
to, the base score once for every tree used, with the additions of the machine. -/
theorem C130_float {R : Type} {env : Env R (FX m32) (FX m64)} {b b' : Booster (FX m32) (FX m64)}
    {X : Matrix (FX m64)} {y w : List (FX m64)} {ev : Option (List (EvalSet (FX m64)))}
    (h : b.fit env X y w ev = .ok (b', .ok ()))
    (ha : b.createMissingBranch = true →
      b.missingNodeTreatment = .none ∨ b.missingNodeTreatment = .assignToParent)
    {d r : K} (hd : b.maxDeltaStep = FX.fin d) (hpos : 0 < d) (hin : m32.Repr d)
    (hlr : b.learningRate = FX.fin r) (hr : 0 ≤ r) {data : Matrix (FX m64)} {out : List (FX m64)}
    (hout : b'.predict data = .ok out) :
    ∀ v, FX.fin v ∈ out →
      ((((· - up (b.maxDeltaStep * b.learningRate)) : FX m64 → FX m64)^[b'.used] b'.baseScore) ≤ᶠ FX.fin v) = true ∧
      ((FX.fin v : FX m64) ≤ᶠ
        (((· + up (b.maxDeltaStep * b.learningRate)) : FX m64 → FX m64)^[b'.used] b'.baseScore)) = true := by
  obtain ⟨hu, hl, hp⟩ := (C19_prediction_iteration b' data out).1 hout
  intro v hv
  obtain ⟨i, hi⟩ := List.mem_iff_getElem?.1 hv
  obtain ⟨ls, hls, he⟩ := hp i _ hi
  obtain ⟨hlen, hmem⟩ := leaves_mem hls
  rw [List.length_take, Nat.min_eq_left hu] at hlen
  rw [← hlen]
  have hbase : (b'.baseScore ≤ᶠ b'.baseScore) = true := by
    have key : ∀ (ls : List (Node (FX m32) (FX m64))) (γ : FX m64),
        ls.foldl (fun acc (l : Node (FX m32) (FX m64)) => acc + up l.weightValue) γ = FX.fin v →
        ∃ z, γ = FX.fin z := by
      intro ls
      induction ls with
      | nil => intro γ hγ; exact ⟨v, hγ⟩
      | cons a ls ih =>
        intro γ hγ
        obtain ⟨z, hz⟩ := ih _ hγ
        obtain ⟨p, r, hp, _⟩ := FX.add_eq_fin hz
        exact ⟨p, hp⟩
    obtain ⟨z, hz⟩ := key ls _ he.symm
    rw [hz]
    exact decide_eq_true (le_refl z)
  refine foldl_reach_float he.symm (fun l hl => ?_) hbase hbase
  obtain ⟨t, ht, hlt⟩ := hmem l hl
  exact C09_float h ha hd hpos hin hlr hr t (List.mem_of_mem_take ht) l hlt

end float

end

/-- The bound is reached: three trees at a learning rate of 1/2 and a step of at most 1/2 move the predictions of the
last three rows by exactly 3/4 from the base score. -/
example : ∃ b', PlainFit exEnv exLimited exX [0, 0, 1, 3, 3, 5] (List.replicate 6 (1 : ℚ)) none b' 0 0
      (1/2) (1/2) ∧ b'.baseScore = q (1/2) ∧ b'.used = 3 ∧
      b'.predict exX = .ok [q (3/4), q (3/4), q 1, q (5/4), q (5/4), q (5/4)] := by
  have : (match exLimited.fit exEnv exX exY exW none with
    | .ok (b', .ok ()) => decide (b'.baseScore = q (1/2) ∧ b'.used = 3 ∧
      b'.predict exX = .ok [q (3/4), q (3/4), q 1, q (5/4), q (5/4), q (5/4)])
    | _ => false) = true := by decide +kernel
  split at this
  · rename_i b' h
    exact ⟨b', exPlain rfl rfl rfl rfl le_rfl rfl rfl rfl rfl ⟨_, rfl⟩ rfl h, of_decide_eq_true this⟩
  · cases this

/-- In floating point numbers as well: two steps of the rounded product from zero. -/
example : ∃ b b', slB = some b ∧ b.fit floatEnv mfX mfY (List.replicate 4 1) none = .ok (b', .ok ()) ∧
    b.createMissingBranch = false ∧ b.maxDeltaStep = FX.fin (13/2) ∧ f32Fmt.Repr (13/2) ∧
    (∃ r, b.learningRate = FX.fin r ∧ 0 ≤ r) ∧ b'.used = 2 ∧
    b'.predict mfX = .ok [FX.fin (56119787/33554432), FX.fin (26612859/8388608), FX.fin (8178893/2097152),
      FX.fin (8178893/2097152)] ∧
    ((· + up (b.maxDeltaStep * b.learningRate)) : F64 → F64)^[2] b'.baseScore = FX.fin (8178893/2097152) := by
  have : (match slB with
    | some b => match b.fit floatEnv mfX mfY (List.replicate 4 1) none with
      | .ok (b', .ok ()) => decide (b.createMissingBranch = false ∧ b.maxDeltaStep = FX.fin (13/2) ∧
          b.learningRate = f32 (3/10) ∧ b'.used = 2 ∧
          b'.predict mfX = .ok [FX.fin (56119787/33554432), FX.fin (26612859/8388608), FX.fin (8178893/2097152),
            FX.fin (8178893/2097152)] ∧
          ((· + up (b.maxDeltaStep * b.learningRate)) : F64 → F64)^[2] b'.baseScore = FX.fin (8178893/2097152))
      | _ => false
    | none => false) = true := by decide +kernel
  split at this
  · rename_i b hb
    split at this
    · rename_i b' h
      obtain ⟨h1, h2, h3, h4, h5, h6⟩ := of_decide_eq_true this
      refine ⟨b, b', hb, h, h1, h2, ?_, ⟨10066330/33554432, ?_, by norm_num⟩, h4, h5, h6⟩
      · unfold Fmt.Repr
        decide +kernel
      · rw [h3]; decide +kernel
    · cases this
  · cases this

end Verif
