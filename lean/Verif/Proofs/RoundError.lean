import Verif.Proofs.Rounds
import Verif.Proofs.Sum
import Mathlib.Tactic.Linarith
import Mathlib.Tactic.Ring
import Mathlib.Tactic.Positivity

/-!
# Rounding errors of sums

The result of adding representable numbers has a relative error of at most `u` (`2⁻²⁴` for `f32`, `2⁻⁵³` for
`f64`), also when it is subnormal.  Errors of several additions are collected by `Near`.
-/

set_option linter.unusedSectionVars false

namespace Verif

open scoped Verif

section
variable {K : Type} [Field K] [LinearOrder K]

/-- The relative error of a sum of representable numbers is at most `u`. -/
class Fmt.Accurate (m : Fmt K) (u : outParam K) : Prop where
  nonneg : 0 ≤ u
  add : ∀ {a b z : K}, m.Repr a → m.Repr b → m.rnd (a + b) = .fin z → |z - (a + b)| ≤ u * |a + b|

/-- The numbers of `m` are numbers of `m'`. -/
class Fmt.Embeds (m m' : Fmt K) : Prop where
  repr : ∀ {a : K}, m.Repr a → m'.Repr a

/-- The value is representable, or it is not finite. -/
def FX.InFormat {m : Fmt K} (x : FX m) : Prop := ∀ q, x = .fin q → m.rnd q = .fin q

/-- Rounded results are representable. -/
theorem FX.rd_inFormat {m : Fmt K} [hm : m.Rounds] (q : K) : (FX.rd q : FX m).InFormat := by
  intro y h
  unfold FX.rd at h
  cases hr : m.rnd q with
  | ninf => rw [hr] at h; cases h
  | pinf => rw [hr] at h; cases h
  | fin z => rw [hr] at h; cases h; exact hm.idem hr

theorem FX.add_eq_fin {m : Fmt K} {a b : FX m} {z : K} (h : a + b = .fin z) :
    ∃ x y, a = .fin x ∧ b = .fin y ∧ m.rnd (x + y) = .fin z := by
  change FX.add a b = _ at h
  cases a <;> cases b <;> first | (cases h) | skip
  rename_i x y
  refine ⟨x, y, rfl, rfl, ?_⟩
  change FX.ofRV (m.rnd (x + y)) = _ at h
  cases hr : m.rnd (x + y) with
  | ninf => rw [hr] at h; cases h
  | pinf => rw [hr] at h; cases h
  | fin w => rw [hr] at h; cases h; rfl

theorem FX.mul_inFormat {m : Fmt K} [hm : m.Rounds] (a b : FX m) : (a * b).InFormat := by
  change (FX.mul a b).InFormat
  have hs : ∀ q : K, (FX.sinf q : FX m).InFormat := by
    intro q y h
    unfold FX.sinf at h
    split at h
    · cases h
    · split at h <;> cases h
  cases a <;> cases b <;> first | exact hs _ | exact FX.rd_inFormat _ | (intro y h; cases h)

theorem FX.down_inFormat {m m' : Fmt K} [hm : m.Rounds] (a : FX m') : (down a : FX m).InFormat := by
  cases a <;> first | exact FX.rd_inFormat _ | (intro y h; cases h)

theorem FX.up_inFormat {m m' : Fmt K} [he : m.Embeds m'] {a : FX m} (h : a.InFormat) :
    (up a : FX m').InFormat := by
  cases a <;> first | (intro y e; cases e; exact he.repr (h _ rfl)) | (intro y h; cases h)

instance {m m' : Fmt K} [hm : m'.Exact] : m.Embeds m' := ⟨fun _ => hm.rnd_eq _⟩

variable [IsStrictOrderedRing K]

instance {m : Fmt K} [hm : m.Exact] : m.Accurate 0 where
  nonneg := le_rfl
  add _ _ h := by rw [hm.rnd_eq] at h; cases h; simp

/-- `z` approximates `s`, a sum of numbers of total size `a`, after `k` roundings. -/
structure Near (u : K) (k : Nat) (z s a : K) : Prop where
  size : |s| ≤ a
  err : |z - s| ≤ ((1 + u) ^ k - 1) * a

theorem one_le_pow_u {u : K} (hu : 0 ≤ u) (k : Nat) : 1 ≤ (1 + u) ^ k :=
  one_le_pow₀ (by linarith)

theorem Near.refl {u : K} (x : K) : Near u 0 x x |x| := ⟨le_rfl, by simp⟩

theorem Near.mono {u : K} (hu : 0 ≤ u) {k k' : Nat} (h : k ≤ k') {z s a : K} (hn : Near u k z s a) :
    Near u k' z s a := by
  refine ⟨hn.size, hn.err.trans ?_⟩
  have ha : 0 ≤ a := (abs_nonneg s).trans hn.size
  refine mul_le_mul_of_nonneg_right ?_ ha
  have := pow_le_pow_right₀ (show (1 : K) ≤ 1 + u by linarith) h
  linarith

/-- One rounded addition. -/
theorem Near.add {m : Fmt K} {u : K} [hm : m.Accurate u] {k : Nat} {x s a y t b z : K} (hx : m.Repr x) (hy : m.Repr y)
    (h1 : Near u k x s a) (h2 : Near u k y t b) (hz : m.rnd (x + y) = .fin z) :
    Near u (k + 1) z (s + t) (a + b) := by
  refine ⟨(abs_add_le s t).trans (add_le_add h1.size h2.size), ?_⟩
  have e := hm.add hx hy hz
  have hu := hm.nonneg
  have e1 := h1.err
  have e2 := h2.err
  have hP := one_le_pow_u hu k
  obtain ⟨P, hPe⟩ : ∃ P, P = (1 + u) ^ k := ⟨_, rfl⟩
  rw [← hPe] at e1 e2 hP
  have ha : 0 ≤ a := (abs_nonneg s).trans h1.size
  have hb : 0 ≤ b := (abs_nonneg t).trans h2.size
  have hd : |(x + y) - (s + t)| ≤ (P - 1) * (a + b) := by
    rw [show (x + y) - (s + t) = (x - s) + (y - t) by ring]
    refine (abs_add_le _ _).trans ?_
    linarith [mul_add (P - 1) a b]
  have hst : |s + t| ≤ a + b := (abs_add_le s t).trans (add_le_add h1.size h2.size)
  have hxy : |x + y| ≤ P * (a + b) := by
    rw [show x + y = ((x + y) - (s + t)) + (s + t) by ring]
    refine (abs_add_le _ _).trans ?_
    linarith [sub_mul P 1 (a + b)]
  rw [show z - (s + t) = (z - (x + y)) + ((x + y) - (s + t)) by ring, pow_succ, ← hPe]
  refine (abs_add_le _ _).trans ?_
  have : u * |x + y| ≤ u * (P * (a + b)) := mul_le_mul_of_nonneg_left hxy hu
  calc |z - (x + y)| + |x + y - (s + t)| ≤ u * (P * (a + b)) + (P - 1) * (a + b) := by linarith
    _ = (P * (1 + u) - 1) * (a + b) := by ring

/-- If `x` is finite, then it is representable and approximates `s` after `k` roundings. -/
structure NearX {m : Fmt K} (u : K) (k : Nat) (x : FX m) (s a : K) : Prop where
  size : |s| ≤ a
  near : ∀ z, x = .fin z → m.Repr z ∧ Near u k z s a

theorem NearX.of {m : Fmt K} {u : K} {x : FX m} {v : K} (h : x.InFormat) (hx : x = .fin v) : NearX u 0 x v |v| :=
  ⟨le_rfl, fun z e => by rw [hx] at e; cases e; exact ⟨h _ hx, Near.refl _⟩⟩

theorem NearX.mono {m : Fmt K} {u : K} (hu : 0 ≤ u) {k k' : Nat} (h : k ≤ k') {x : FX m} {s a : K}
    (hn : NearX u k x s a) : NearX u k' x s a :=
  ⟨hn.size, fun z e => ⟨(hn.near z e).1, (hn.near z e).2.mono hu h⟩⟩

theorem NearX.add {m : Fmt K} {u : K} [hm : m.Accurate u] [hr : m.Rounds] {k : Nat} {x y : FX m} {s a t b : K}
    (h1 : NearX u k x s a) (h2 : NearX u k y t b) : NearX u (k + 1) (x + y) (s + t) (a + b) := by
  refine ⟨(abs_add_le s t).trans (add_le_add h1.size h2.size), fun z e => ?_⟩
  obtain ⟨x', y', rfl, rfl, h⟩ := FX.add_eq_fin e
  exact ⟨hr.idem h, (h1.near _ rfl).2.add (h1.near _ rfl).1 (h2.near _ rfl).1 (h2.near _ rfl).2 h⟩

theorem FX.neg_inFormat {m : Fmt K} [hm : m.Rounds] {x : FX m} (h : x.InFormat) : (-x).InFormat := by
  cases x with
  | fin q =>
    intro y e
    have e : FX.fin (-q) = (FX.fin y : FX m) := e
    cases e
    have := hm.neg q
    rw [h q rfl] at this
    exact this
  | nan => intro y e; cases e
  | ninf => intro y e; cases e
  | pinf => intro y e; cases e

theorem NearX.sub {m : Fmt K} {u : K} [hm : m.Accurate u] [hr : m.Rounds] {x y : FX m} {s t : K}
    (h1 : x.InFormat) (h2 : y.InFormat) (e1 : x = .fin s) (e2 : y = .fin t) :
    NearX u 1 (x - y) (s - t) |s - t| := by
  subst e1 e2
  refine ⟨le_rfl, fun z e => ?_⟩
  obtain ⟨x', y', e1, e2, h⟩ := FX.add_eq_fin (show (FX.fin s : FX m) + -(FX.fin t) = .fin z from e)
  have e2 : FX.fin (-t) = (FX.fin y' : FX m) := e2
  cases e1; cases e2
  refine ⟨hr.idem h, le_rfl, ?_⟩
  have := hm.add (h1 _ rfl) (FX.neg_inFormat h2 (-t) rfl) h
  rw [← sub_eq_add_neg] at this
  rw [pow_one, add_sub_cancel_left]
  exact this

/-- Values added one after the other. -/
theorem NearX.foldl {α : Type} {m : Fmt K} {u : K} [hm : m.Accurate u] [hr : m.Rounds] {val : α → FX m}
    {s a : α → K} : ∀ (l : List α) (k : Nat) (x : FX m) (s0 a0 : K), NearX u k x s0 a0 →
    (∀ y ∈ l, NearX u k (val y) (s y) (a y)) →
    NearX u (k + l.length) (l.foldl (fun acc y => acc + val y) x) (s0 + (l.map s).sum) (a0 + (l.map a).sum) := by
  intro l
  induction l with
  | nil => intro k x s0 a0 h _; simpa using h
  | cons y l ih =>
    intro k x s0 a0 h hl
    have := ih (k + 1) _ _ _ (h.add (hl y (by simp))) fun y' hy' =>
      (hl y' (by simp [hy'])).mono hm.nonneg (by omega)
    simp only [List.foldl_cons, List.length_cons, List.map_cons, List.sum_cons]
    rw [show k + (l.length + 1) = k + 1 + l.length by omega, ← add_assoc, ← add_assoc]
    exact this

/-- The error of a sum of approximations. -/
theorem Near.sum {u : K} {k : Nat} : ∀ (l : List (K × K × K)), (∀ x ∈ l, Near u k x.1 x.2.1 x.2.2) →
    |(l.map (·.1)).sum - (l.map (·.2.1)).sum| ≤ ((1 + u) ^ k - 1) * (l.map (·.2.2)).sum := by
  intro l
  induction l with
  | nil => intro _; simp
  | cons x l ih =>
    intro h
    have h1 := (h x (by simp)).err
    have h2 := ih fun y hy => h y (by simp [hy])
    simp only [List.map_cons, List.sum_cons]
    rw [show x.1 + (l.map (·.1)).sum - (x.2.1 + (l.map (·.2.1)).sum) =
      (x.1 - x.2.1) + ((l.map (·.1)).sum - (l.map (·.2.1)).sum) by ring, mul_add]
    exact (abs_add_le _ _).trans (add_le_add h1 h2)

/-! ### The unrolled sum -/

theorem sum_zipWith_triple {m : Fmt K} (g : (FX m × K × K) → K)
    (hg : ∀ a b : FX m × K × K, g (a.1 + b.1, a.2.1 + b.2.1, a.2.2 + b.2.2) = g a + g b) :
    ∀ (T C : List (FX m × K × K)), T.length = C.length →
    ((List.zipWith (fun a b => (a.1 + b.1, a.2.1 + b.2.1, a.2.2 + b.2.2)) T C).map g).sum =
      (T.map g).sum + (C.map g).sum := by
  intro T
  induction T with
  | nil => intro C h; cases C <;> simp_all
  | cons t T ih =>
    intro C h
    cases C with
    | nil => simp at h
    | cons c C =>
      have := ih C (by simpa using h)
      simp only [List.zipWith_cons_cons, List.map_cons, List.sum_cons, this, hg]
      ring

/-- The lanes after all full chunks. -/
theorem foldLanes_near {m : Fmt K} {u : K} [hm : m.Accurate u] [hr : m.Rounds] : ∀ (n k : Nat)
    (T L : List (FX m × K × K)), T.length = lanes → (∀ x ∈ T, NearX u k x.1 x.2.1 x.2.2) →
    (∀ x ∈ L, NearX u 0 x.1 x.2.1 x.2.2) → L.length ≤ n →
    ∃ (T' R : List (FX m × K × K)) (c : Nat), foldLanes n (T.map (·.1)) (L.map (·.1)) = (T'.map (·.1), R.map (·.1)) ∧
      T'.length = lanes ∧ R.length < lanes ∧ L.length = lanes * c + R.length ∧
      (∀ x ∈ T', NearX u (k + c) x.1 x.2.1 x.2.2) ∧ (∀ x ∈ R, NearX u 0 x.1 x.2.1 x.2.2) ∧
      (T'.map (·.2.1)).sum + (R.map (·.2.1)).sum = (T.map (·.2.1)).sum + (L.map (·.2.1)).sum ∧
      (T'.map (·.2.2)).sum + (R.map (·.2.2)).sum = (T.map (·.2.2)).sum + (L.map (·.2.2)).sum := by
  have h16 : lanes = 16 := rfl
  intro n
  induction n with
  | zero =>
    intro k T L hT h1 h2 hL
    refine ⟨T, L, 0, rfl, hT, ?_, ?_, h1, h2, rfl, rfl⟩ <;> omega
  | succ n ih =>
    intro k T L hT h1 h2 hL
    rw [foldLanes]
    by_cases hlt : (L.map (·.1)).length < lanes
    · rw [if_pos hlt]
      rw [List.length_map] at hlt
      exact ⟨T, L, 0, rfl, hT, hlt, by omega, h1, h2, rfl, rfl⟩
    · rw [if_neg hlt]
      rw [List.length_map] at hlt
      have htake : (L.take lanes).length = lanes := by rw [List.length_take]; omega
      have hadd : addLanes (T.map (·.1)) ((L.map (·.1)).take lanes) =
          (List.zipWith (fun a b => (a.1 + b.1, a.2.1 + b.2.1, a.2.2 + b.2.2)) T (L.take lanes)).map (·.1) := by
        rw [addLanes, ← List.map_take, List.map_zipWith, List.zipWith_map]
      rw [hadd, ← List.map_drop]
      obtain ⟨T', R, c, e, a1, a2, a3, a4, a5, a6, a7⟩ := ih (k + 1)
        (List.zipWith (fun a b => (a.1 + b.1, a.2.1 + b.2.1, a.2.2 + b.2.2)) T (L.take lanes)) (L.drop lanes)
        (by rw [List.length_zipWith, hT, htake]; rfl)
        (by
          intro x hx
          rw [List.mem_iff_getElem?] at hx
          obtain ⟨i, hi⟩ := hx
          rw [List.getElem?_zipWith] at hi
          cases hT' : T[i]? with
          | none => rw [hT'] at hi; cases hi
          | some t =>
            cases hC : (L.take lanes)[i]? with
            | none => rw [hT', hC] at hi; cases hi
            | some y =>
              rw [hT', hC] at hi
              cases hi
              exact (h1 t (List.mem_of_getElem? hT')).add
                ((h2 y (List.mem_of_mem_take (List.mem_of_getElem? hC))).mono hm.nonneg (by omega)))
        (fun x hx => h2 x (List.mem_of_mem_drop hx)) (by rw [List.length_drop]; omega)
      have sp : ∀ g : (FX m × K × K) → K, (L.map g).sum = ((L.take lanes).map g).sum + ((L.drop lanes).map g).sum := by
        intro g
        conv_lhs => rw [← List.take_append_drop lanes L]
        rw [List.map_append, List.sum_append]
      refine ⟨T', R, c + 1, e, a1, a2, ?_, ?_, a5, ?_, ?_⟩
      · rw [List.length_drop] at a3; rw [Nat.mul_succ]; omega
      · intro x hx; rw [show k + (c + 1) = k + 1 + c by omega]; exact a4 x hx
      · rw [a6, sum_zipWith_triple (fun x => x.2.1) (fun _ _ => rfl) _ _ (by rw [hT, htake]), sp]; ring
      · rw [a7, sum_zipWith_triple (fun x => x.2.2) (fun _ _ => rfl) _ _ (by rw [hT, htake]), sp]; ring

/-- The unrolled sum: each value takes part in at most `n / 16 + 17` roundings. -/
theorem lanes_near {m : Fmt K} {u : K} [hm : m.Accurate u] [hr : m.Rounds] (vs : List K) (hv : ∀ v ∈ vs, m.Repr v) :
    NearX u (vs.length / lanes + lanes + 1)
      ((foldLanes vs.length (List.replicate lanes 0) (vs.map (FX.fin : K → FX m))).1.foldl (· + ·) 0 +
        (foldLanes vs.length (List.replicate lanes 0) (vs.map (FX.fin : K → FX m))).2.foldl (· + ·) 0)
      vs.sum (vs.map (|·|)).sum := by
  have h16 : lanes = 16 := rfl
  have h0 : NearX u 0 (0 : FX m) 0 0 := by
    have := NearX.of (u := u) (x := (0 : FX m)) (v := 0) (fun q e => by cases e; exact hr.zero) rfl
    rwa [abs_zero] at this
  obtain ⟨T, R, c, e, a1, a2, a3, a4, a5, a6, a7⟩ := foldLanes_near (u := u) vs.length 0
    (List.replicate lanes ((0 : FX m), (0 : K), (0 : K))) (vs.map fun v => ((FX.fin v : FX m), v, |v|))
    (by simp) (by intro x hx; obtain rfl := List.eq_of_mem_replicate hx; exact h0)
    (by
      intro x hx
      obtain ⟨v, h1, rfl⟩ := List.mem_map.1 hx
      exact NearX.of (fun q e => by cases e; exact hv v h1) rfl) (by simp)
  rw [List.map_replicate, List.map_map] at e
  have e' : foldLanes vs.length (List.replicate lanes 0) (vs.map (FX.fin : K → FX m)) = (T.map (·.1), R.map (·.1)) := e
  rw [e']
  have hc : c ≤ vs.length / lanes := by
    rw [List.length_map] at a3
    rw [Nat.le_div_iff_mul_le (by omega)]
    have := Nat.mul_comm lanes c
    omega
  have f1 := NearX.foldl (val := fun x : FX m × K × K => x.1) (s := fun x => x.2.1) (a := fun x => x.2.2)
    T c 0 0 0 (h0.mono hm.nonneg (by omega)) (fun x hx => by have := a4 x hx; rwa [Nat.zero_add] at this)
  have f2 := NearX.foldl (val := fun x : FX m × K × K => x.1) (s := fun x => x.2.1) (a := fun x => x.2.2)
    R 0 0 0 0 h0 a5
  have := (f1.mono hm.nonneg (show c + T.length ≤ vs.length / lanes + lanes by omega)).add
    (f2.mono hm.nonneg (show 0 + R.length ≤ vs.length / lanes + lanes by omega))
  simp only [List.foldl_map]
  simp only [zero_add, a6, a7, List.map_replicate, List.sum_replicate, smul_zero, List.map_map] at this
  simpa [Function.comp_def] using this

end

namespace Ieee

variable {p : Nat} {emin : ℤ} {maxF : ℚ} {expF lnF sqrtF : ℚ → RV ℚ}

/-- Multiples of the least positive number. -/
theorem Rep.multiple {q : ℚ} (h : Rep p emin q) : ∃ n : ℤ, q = n * pow2 emin := by
  obtain ⟨a, k, _, hk, e⟩ := h
  obtain ⟨d, hd⟩ := Int.eq_ofNat_of_zero_le (sub_nonneg.2 hk)
  have e' : |q| = ((a * 2 ^ d : Nat) : ℤ) * pow2 emin := by
    rw [e, show k = (d : ℤ) + emin by omega, pow2_add, pow2_nat]
    push_cast; ring
  rcases le_or_gt 0 q with h | h
  · rw [abs_of_nonneg h] at e'; exact ⟨_, e'⟩
  · rw [abs_of_neg h] at e'
    refine ⟨-((a * 2 ^ d : Nat) : ℤ), ?_⟩
    rw [show q = -(-q) by ring, e']; push_cast; ring

/-- The sum of two representable numbers has a small relative error, also below the normal numbers. -/
theorem rnd_add_error (hp : 0 < p) {a b : ℚ} (ha : Rep p emin a) (hb : Rep p emin b) :
    |rnd p emin (a + b) - (a + b)| ≤ pow2 (-p) * |a + b| := by
  rcases le_or_gt (pow2 (emin + p - 1)) |a + b| with h | h
  · exact rnd_relative h
  · obtain ⟨n, hn⟩ := ha.multiple
    obtain ⟨n', hn'⟩ := hb.multiple
    have hR : Rep p emin (a + b) := by
      refine ⟨(n + n').natAbs, emin, ?_, le_rfl, ?_⟩
      · have h1 : |a + b| = ((n + n').natAbs : ℚ) * pow2 emin := by
          rw [hn, hn', ← add_mul, abs_mul, abs_of_pos (pow2_pos _)]
          congr 1
          rw [← Int.cast_add, ← Int.cast_abs, Int.abs_eq_natAbs, Int.cast_natCast]
        rw [h1, show emin + (p : ℤ) - 1 = ((p - 1 : Nat) : ℤ) + emin by omega, pow2_add, pow2_nat,
          mul_lt_mul_iff_left₀ (pow2_pos _)] at h
        have h2 : (n + n').natAbs < 2 ^ (p - 1) := by exact_mod_cast h
        have h3 : 2 ^ (p - 1) ≤ 2 ^ p := Nat.pow_le_pow_right (by norm_num) (by omega)
        omega
      · rw [hn, hn', ← add_mul, abs_mul, abs_of_pos (pow2_pos _)]
        congr 1
        rw [← Int.cast_add, ← Int.cast_abs, Int.abs_eq_natAbs, Int.cast_natCast]
    rw [hR.fixed hp, sub_self, abs_zero]
    exact mul_nonneg (pow2_pos _).le (abs_nonneg _)

theorem rep_of_repr {a : ℚ} (h : (fmt p emin maxF expF lnF sqrtF).Repr a) : Rep p emin a := by
  obtain ⟨e, _⟩ := fmt_rnd_fin.1 h
  rw [e]; exact rnd_rep a

theorem fmt_accurate (hp : 0 < p) : (fmt p emin maxF expF lnF sqrtF).Accurate (pow2 (-p)) where
  nonneg := (pow2_pos _).le
  add ha hb h := by
    obtain ⟨rfl, _⟩ := fmt_rnd_fin.1 h
    exact rnd_add_error hp (rep_of_repr ha) (rep_of_repr hb)

instance : (b32 expF lnF sqrtF).Accurate (pow2 (-24)) := fmt_accurate (p := 24) (by norm_num)
instance : (b64 expF lnF sqrtF).Accurate (pow2 (-53)) := fmt_accurate (p := 53) (by norm_num)

instance {expF lnF sqrtF expF' lnF' sqrtF' : ℚ → RV ℚ} :
    (b32 expF lnF sqrtF).Embeds (b64 expF' lnF' sqrtF') where
  repr {a} h := by
    obtain ⟨m, k, h1, h2, h3⟩ := rep_of_repr h
    obtain ⟨e, l, u⟩ := fmt_rnd_fin.1 h
    have hR : Rep 53 (-1074) a :=
      ⟨m, k, h1.trans (Nat.pow_le_pow_right (by norm_num) (by norm_num)), by omega, h3⟩
    have hmax : (((2 ^ 24 - 1) * 2 ^ 104 : Nat) : ℚ) ≤ (((2 ^ 53 - 1) * 2 ^ 971 : Nat) : ℚ) := by
      exact_mod_cast (show (2 ^ 24 - 1) * 2 ^ 104 ≤ (2 ^ 53 - 1) * 2 ^ 971 by decide +kernel)
    exact fmt_rnd_fin.2 ⟨(hR.fixed (by norm_num)).symm, (neg_le_neg hmax).trans l, u.trans hmax⟩

end Ieee

end Verif
