import Verif.Props.RoundError
import Verif.Props.Range

/-!
# C112: finite models predict finite numbers

In the formats of IEEE 754 no sum of leaf values overflows.
-/

namespace Verif

section
variable {e32 l32 s32 e64 l64 s64 : ℚ → RV ℚ}

/-- A number above all of format `f32`; its multiples up to `2 ^ 53` are numbers of format `f64`. -/
@[irreducible] def bigUnit : ℚ := 2 ^ 970

theorem bigUnit_eq : bigUnit = 2 ^ 970 := by unfold bigUnit; rfl

theorem bigUnit_nonneg : 0 ≤ bigUnit := by rw [bigUnit_eq]; positivity

theorem Ieee.b64_big {n : Nat} (h : n < 2 ^ 53) : (Ieee.b64 e64 l64 s64).Repr ((n : ℚ) * bigUnit) := by
  have h' : (n : ℚ) + 1 ≤ 2 ^ 53 := by exact_mod_cast h
  have h0 : (0 : ℚ) ≤ n := Nat.cast_nonneg n
  have hu := bigUnit_nonneg
  have hmax : (n : ℚ) * bigUnit ≤ (((2 ^ 53 - 1) * 2 ^ 971 : Nat) : ℚ) := by
    have e : (((2 ^ 53 - 1) * 2 ^ 971 : Nat) : ℚ) = (2 ^ 53 - 1) * (2 * bigUnit) := by
      rw [bigUnit_eq, Nat.cast_mul, Nat.cast_pow, Nat.cast_ofNat, pow_succ (2 : ℚ) 970, mul_comm _ (2 : ℚ)]
      norm_num
    rw [e]
    have : (n : ℚ) * bigUnit ≤ (2 ^ 53 - 1) * bigUnit := mul_le_mul_of_nonneg_right (by linarith) hu
    have h2 : (0 : ℚ) ≤ (2 ^ 53 - 1) * bigUnit := mul_nonneg (by norm_num) hu
    linarith
  have hn0 : (0 : ℚ) ≤ (n : ℚ) * bigUnit := mul_nonneg h0 hu
  refine Ieee.fmt_rnd_fin.2 ⟨(Ieee.Rep.fixed (by norm_num) ⟨n, 970, h.le, by norm_num, ?_⟩).symm, ?_, hmax⟩
  · rw [abs_of_nonneg hn0, Ieee.pow2_eq, bigUnit_eq]
    exact congrArg _ (zpow_natCast (2 : ℚ) 970).symm
  · linarith

/-- A finite number of size at most `c` units. -/
def Within (c : Nat) (x : FX (Ieee.b64 e64 l64 s64)) : Prop := ∃ z : ℚ, x = .fin z ∧ |z| ≤ c * bigUnit

theorem FX.add_fin_eq {K : Type} [Field K] [LinearOrder K] {m : Fmt K} (a b : K) :
    (FX.fin a + FX.fin b : FX m) = FX.rd (a + b) := rfl

theorem Within.add {c d : Nat} {x y : FX (Ieee.b64 e64 l64 s64)} (hx : Within c x) (hy : Within d y)
    (h : c + d < 2 ^ 53) : Within (c + d) (x + y) := by
  obtain ⟨a, rfl, ha⟩ := hx
  obtain ⟨b, rfl, hb⟩ := hy
  have hr := Ieee.b64_big (e64 := e64) (l64 := l64) (s64 := s64) h
  have hneg : (Ieee.b64 e64 l64 s64).Repr (-(((c + d : Nat) : ℚ) * bigUnit)) := by
    have := Fmt.Rounds.neg (m := Ieee.b64 e64 l64 s64) (((c + d : Nat) : ℚ) * bigUnit)
    rw [show (Ieee.b64 e64 l64 s64).rnd (((c + d : Nat) : ℚ) * bigUnit) = _ from hr] at this
    exact this
  have hab : |a + b| ≤ ((c + d : Nat) : ℚ) * bigUnit := by
    refine (abs_add_le a b).trans ?_
    rw [Nat.cast_add, add_mul]
    exact add_le_add ha hb
  obtain ⟨z, e, h1, h2⟩ := Fmt.Rounds.between hneg hr (neg_le_of_abs_le hab) (le_of_abs_le hab)
  refine ⟨z, ?_, abs_le.2 ⟨h1, h2⟩⟩
  rw [FX.add_fin_eq, FX.rd, e]; rfl

theorem Within.neg {c : Nat} {x : FX (Ieee.b64 e64 l64 s64)} (hx : Within c x) : Within c (-x) := by
  obtain ⟨a, rfl, ha⟩ := hx
  exact ⟨-a, rfl, by rwa [abs_neg]⟩

theorem Within.foldl {α : Type} {val : α → FX (Ieee.b64 e64 l64 s64)} {d : Nat} : ∀ (l : List α) (c : Nat)
    (a : FX (Ieee.b64 e64 l64 s64)), Within c a → (∀ x ∈ l, Within d (val x)) → c + d * l.length < 2 ^ 53 →
    Within (c + d * l.length) (l.foldl (fun acc x => acc + val x) a)
  | [], c, a, ha, _, _ => by simpa using ha
  | x :: l, c, a, ha, hl, h => by
    rw [List.length_cons, Nat.mul_add, Nat.mul_one] at h
    have := Within.foldl l (c + d) (a + val x) (ha.add (hl x (by simp)) (by omega))
      (fun y hy => hl y (by simp [hy])) (by omega)
    rw [List.length_cons, show c + d * (l.length + 1) = c + d + d * l.length by ring]
    exact this

/-- The numbers of format `f32` are small in format `f64`. -/
theorem Within.up {x : FX (Ieee.b32 e32 l32 s32)} (h : x.InFormat) (hf : x.IsFin) :
    Within 1 (Verif.up x : FX (Ieee.b64 e64 l64 s64)) := by
  obtain ⟨q, rfl⟩ := hf
  obtain ⟨-, h1, h2⟩ := Ieee.fmt_rnd_fin.1 (h q rfl)
  have hq : |q| ≤ (((2 ^ 24 - 1) * 2 ^ 104 : Nat) : ℚ) := abs_le.2 ⟨h1, h2⟩
  refine ⟨q, rfl, hq.trans ?_⟩
  have h3 : (2 : ℚ) ^ 128 ≤ 2 ^ 970 := pow_le_pow_right₀ (by norm_num) (by norm_num)
  rw [bigUnit_eq, Nat.cast_one, one_mul]
  refine le_trans ?_ h3
  norm_num

theorem Within.isFin {c : Nat} {x : FX (Ieee.b64 e64 l64 s64)} (h : Within c x) : x.IsFin := by
  obtain ⟨z, h, _⟩ := h; exact ⟨z, h⟩

theorem Path.length_lt {F D : Type} [Fl D] {nodes : List (Node F D)} {entry : Nat → Option D} {missing : D} {i : Nat}
    {steps : List (Step F D)} (hp : Path nodes entry missing i steps) : steps.length < nodes.length := by
  have : ∃ l, RouteN nodes entry missing steps.length i l := by
    induction hp with
    | leaf h1 h2 => exact ⟨_, .leaf h1 h2⟩
    | step h1 h2 h3 h4 h5 h6 h7 h8 ih =>
      obtain ⟨l, hl⟩ := ih
      exact ⟨l, .step h1 h2 h3 h4 hl⟩
  obtain ⟨l, hl⟩ := this
  exact hl.lt_length

/-- The base score of the model is a number up to `2 ^ 1000`, and the values of its nodes are finite numbers of
their format. -/
structure Booster.Finite (b : Booster (FX (Ieee.b32 e32 l32 s32)) (FX (Ieee.b64 e64 l64 s64))) : Prop where
  base : ∃ b0 : ℚ, b.baseScore = .fin b0 ∧ |b0| ≤ 2 ^ 1000
  values : ∀ t ∈ b.trees, ∀ n ∈ t.nodes, n.weightValue.InFormat ∧ n.weightValue.IsFin

theorem Booster.Finite.base_within {b : Booster (FX (Ieee.b32 e32 l32 s32)) (FX (Ieee.b64 e64 l64 s64))}
    (h : b.Finite) : Within (2 ^ 30) b.baseScore := by
  obtain ⟨b0, h1, h2⟩ := h.base
  refine ⟨b0, h1, h2.trans (le_of_eq ?_)⟩
  rw [bigUnit_eq, Nat.cast_pow, Nat.cast_ofNat, ← pow_add]

/-- **C112** (predictions).  A finite model of at most `2 ^ 52` trees predicts a finite number for every row: no
sum of leaf values overflows or is undefined. -/
theorem C112_prediction (b : Booster (FX (Ieee.b32 e32 l32 s32)) (FX (Ieee.b64 e64 l64 s64)))
    (data : Matrix (FX (Ieee.b64 e64 l64 s64))) (hb : b.Finite) (hn : b.used ≤ 2 ^ 52)
    {out : List (FX (Ieee.b64 e64 l64 s64))} (h : b.predict data = .ok out) : ∀ v ∈ out, v.IsFin := by
  intro v hv
  obtain ⟨i, hi⟩ := List.mem_iff_getElem?.1 hv
  rw [C19_prediction_iteration] at h
  obtain ⟨h1, h2, h3⟩ := h
  obtain ⟨ls, hls, rfl⟩ := h3 i _ hi
  have hlen : ls.length = b.used := by
    have := hls.length_eq
    rw [← this, List.length_take, Nat.min_eq_left h1]
  refine (Within.foldl (d := 1) ls (2 ^ 30) _ hb.base_within ?_ (by omega)).isFin
  intro l hl
  obtain ⟨k, hk⟩ := List.mem_iff_getElem?.1 hl
  have hlt := (List.getElem?_eq_some_iff.1 hk).1
  have hroute := (List.forall₂_iff_get.1 hls).2 k (by rw [hls.length_eq]; exact hlt) hlt
  rw [List.get_eq_getElem, List.get_eq_getElem, (List.getElem?_eq_some_iff.1 hk).2] at hroute
  have := hb.values _ (List.mem_of_mem_take (List.getElem_mem _)) _ hroute.mem.1
  exact Within.up this.1 this.2

/-- **C112** (contributions).  The `Weight` contributions of a finite model of at most `2 ^ 51` nodes are finite. -/
theorem C112_contributions (b : Booster (FX (Ieee.b32 e32 l32 s32)) (FX (Ieee.b64 e64 l64 s64)))
    (data : Matrix (FX (Ieee.b64 e64 l64 s64))) (hd : data.Shaped) (hwf : ∀ t ∈ b.trees, t.Wf) (hb : b.Finite)
    (hn : ((b.trees.take b.used).map fun t => t.nodes.length).sum ≤ 2 ^ 51)
    {out : List (FX (Ieee.b64 e64 l64 s64))} (h : b.predict data = .ok out) :
    ∃ cs, b.predictContributions data .weight = .ok cs ∧ cs.length = data.rows * (data.cols + 1) ∧
      ∀ v ∈ cs, v.IsFin := by
  obtain ⟨rows, hc, hl, hrows⟩ := C12_path b data hd hwf out h
  refine ⟨_, hc, ?_, ?_⟩
  · rw [List.length_flatten, ← hl]
    have : rows.map List.length = List.replicate rows.length (data.cols + 1) := by
      refine List.eq_replicate_iff.2 ⟨by simp, fun n hn => ?_⟩
      obtain ⟨r, hr, rfl⟩ := List.mem_map.1 hn
      obtain ⟨i, hi⟩ := List.mem_iff_getElem?.1 hr
      exact (hrows i r hi).1
    rw [this, List.sum_replicate, smul_eq_mul]
  intro v hv
  obtain ⟨r, hr, hvr⟩ := List.mem_flatten.1 hv
  obtain ⟨i, hi⟩ := List.mem_iff_getElem?.1 hr
  obtain ⟨hlen, paths, rs, hp, hrs, hf, hlast⟩ := hrows i r hi
  have htree : ∀ t ∈ b.trees.take b.used, t ∈ b.trees := fun t ht => List.mem_of_mem_take ht
  have hplen : paths.flatten.length ≤ 2 ^ 51 ∧ rs.length ≤ 2 ^ 51 := by
    have aux : ∀ {ts : List (Tree (FX (Ieee.b32 e32 l32 s32)) (FX (Ieee.b64 e64 l64 s64)))}
        {paths : List (List (Step (FX (Ieee.b32 e32 l32 s32)) (FX (Ieee.b64 e64 l64 s64))))},
        List.Forall₂ (fun (t : Tree (FX (Ieee.b32 e32 l32 s32)) (FX (Ieee.b64 e64 l64 s64))) p =>
          Path t.nodes (data.entry i) b.missing 0 p) ts paths →
        paths.flatten.length + ts.length ≤ (ts.map fun t => t.nodes.length).sum := by
      intro ts paths h
      induction h with
      | nil => simp
      | cons h _ ih =>
        have := h.length_lt
        simp only [List.flatten_cons, List.length_append, List.length_cons, List.map_cons, List.sum_cons]
        omega
    have := aux hp
    have e := List.Forall₂.length_eq hrs
    omega
  have hstep : ∀ s ∈ paths.flatten, Within 2 ((up s.child.weightValue : FX (Ieee.b64 e64 l64 s64)) -
      up s.node.weightValue) := by
    intro s hsm
    rw [List.mem_flatten] at hsm
    obtain ⟨p, hpm, hsp⟩ := hsm
    obtain ⟨k, hk⟩ := List.mem_iff_getElem?.1 hpm
    have hlt := (List.getElem?_eq_some_iff.1 hk).1
    have hpath := (List.forall₂_iff_get.1 hp).2 k (by rw [hp.length_eq]; exact hlt) hlt
    rw [List.get_eq_getElem, List.get_eq_getElem, (List.getElem?_eq_some_iff.1 hk).2] at hpath
    obtain ⟨a1, a2, -⟩ := hpath.mem_nodes s hsp
    have ht := htree _ (List.getElem_mem (by rw [hp.length_eq]; exact hlt : k < (b.trees.take b.used).length))
    have v1 := hb.values _ ht _ a1
    have v2 := hb.values _ ht _ a2
    have := (Within.up (e64 := e64) (l64 := l64) (s64 := s64) v2.1 v2.2).add (Within.up v1.1 v1.2).neg (by norm_num)
    exact this
  have hz : Within 0 (0 : FX (Ieee.b64 e64 l64 s64)) := ⟨0, rfl, by simp⟩
  obtain ⟨j, hj⟩ := List.mem_iff_getElem?.1 hvr
  have hjlt := (List.getElem?_eq_some_iff.1 hj).1
  by_cases hjc : j < data.cols
  · have := hf j hjc
    rw [hj] at this
    cases this
    rw [foldl_addWeight]
    have hle := List.length_filter_le (fun s : Step (FX (Ieee.b32 e32 l32 s32)) (FX (Ieee.b64 e64 l64 s64)) =>
      decide (s.node.splitFeature = j)) paths.flatten
    exact (Within.foldl (d := 2) _ 0 _ hz (fun s hs => hstep s (List.mem_filter.1 hs).1) (by omega)).isFin
  · obtain rfl : j = data.cols := by omega
    rw [hj] at hlast
    cases hlast
    have hb0 : Within (0 + 2 ^ 30) (0 + b.baseScore) := hz.add hb.base_within (by norm_num)
    refine (Within.foldl (d := 1) rs _ _ hb0 ?_ (by omega)).isFin
    intro n hnm
    obtain ⟨k, hk⟩ := List.mem_iff_getElem?.1 hnm
    have hlt := (List.getElem?_eq_some_iff.1 hk).1
    have hroot := (List.forall₂_iff_get.1 hrs).2 k (by rw [List.Forall₂.length_eq hrs]; exact hlt) hlt
    rw [List.get_eq_getElem, List.get_eq_getElem, (List.getElem?_eq_some_iff.1 hk).2] at hroot
    have := hb.values _ (htree _ (List.getElem_mem _)) _ (List.mem_of_getElem? hroot)
    exact Within.up this.1 this.2

/-- **C112** (accuracy).  Every prediction of a finite model is a number, within `n / 2 ^ 52` of the sum of the base
score and the leaf values, relative to the sum of their sizes, for `n` trees. -/
theorem C112_accuracy (b : Booster (FX (Ieee.b32 e32 l32 s32)) (FX (Ieee.b64 e64 l64 s64)))
    (data : Matrix (FX (Ieee.b64 e64 l64 s64))) (hb : b.Finite) (hbase : b.baseScore.InFormat) (hn : b.used ≤ 2 ^ 52)
    {out : List (FX (Ieee.b64 e64 l64 s64))} (h : b.predict data = .ok out) {i : Nat} (hi : i < data.rows) :
    ∃ (z : ℚ) (ls : List (Node (FX (Ieee.b32 e32 l32 s32)) (FX (Ieee.b64 e64 l64 s64)))), out[i]? = some (.fin z) ∧
      Leaves (b.trees.take b.used) (data.entry i) b.missing ls ∧
      |z - (b.baseScore.val + (ls.map fun l => l.weightValue.val).sum)| ≤
        b.used / 2 ^ 52 * (|b.baseScore.val| + (ls.map fun l => |l.weightValue.val|).sum) := by
  have hlen : out.length = data.rows := ((C19_prediction_iteration _ _ _).1 h).2.1
  have hi' := List.getElem?_eq_getElem (hlen ▸ hi : i < out.length)
  obtain ⟨z, hz⟩ := C112_prediction b data hb hn h _ (List.mem_of_getElem? hi')
  rw [hz] at hi'
  obtain ⟨b0, e0, -⟩ := hb.base
  obtain ⟨ls, h1, h2⟩ := C81_f64 b data ⟨hbase, fun t ht n hm => (hb.values t ht n hm).1⟩
    (fun t ht n hm => (hb.values t ht n hm).2) e0 hn h hi'
  refine ⟨z, ls, hi', h1, ?_⟩
  rw [e0]
  exact h2

/-- **C112** (fitted models).  The node values of a fitted model are numbers of format `f32`; it is finite as soon
as they and the base score are finite. -/
theorem C112_fitted {R : Type} {env : Env R (FX (Ieee.b32 e32 l32 s32)) (FX (Ieee.b64 e64 l64 s64))}
    {b b' : Booster (FX (Ieee.b32 e32 l32 s32)) (FX (Ieee.b64 e64 l64 s64))}
    {data : Matrix (FX (Ieee.b64 e64 l64 s64))} {y w : List (FX (Ieee.b64 e64 l64 s64))}
    {ev : Option (List (EvalSet (FX (Ieee.b64 e64 l64 s64))))} (h : b.fit env data y w ev = .ok (b', .ok ()))
    (hb : ∃ b0 : ℚ, b'.baseScore = .fin b0 ∧ |b0| ≤ 2 ^ 1000) (hv : ∀ t ∈ b'.trees, t.FiniteValues) : b'.Finite where
  base := hb
  values t ht n hn := by
    refine ⟨?_, hv t ht n hn⟩
    obtain ⟨binned, _, hf⟩ := Booster.fit_trees h
    obtain ⟨cfg, rows, hF⟩ := hf t ht
    exact Tree.fit_values (P := FX.InFormat) (fun a => FX.down_inFormat a) (fun w => FX.mul_inFormat _ _) hF.fit n hn

end

/-- Targets of which one is beyond the range of `f32`. -/
def hugeY : List F64 := [1, 5 / 4, 5 / 4, 100, 100, 100, 10 ^ 39].map f64

/-- **C112** is false of training: every number given is finite, training succeeds, and yet the model predicts
something that is not a number. -/
theorem C112_training_counterexample : ∃ b b' out, wB = some b ∧ (∀ v ∈ wX.data, v.IsFin) ∧
    (∀ v ∈ hugeY, v.IsFin) ∧ b.fit floatEnv wX hugeY (List.replicate 7 1) none = .ok (b', .ok ()) ∧
    b'.predict wX = .ok out ∧ ∀ v ∈ out, ¬ v.IsFin := by
  have : (match wB with
    | some b => match b.fit floatEnv wX hugeY (List.replicate 7 1) none with
      | .ok (b', .ok ()) => match b'.predict wX with
        | .ok out => decide ((∀ v ∈ wX.data, (ninf <ᶠ v) = true ∧ (v <ᶠ inf) = true) ∧
            (∀ v ∈ hugeY, (ninf <ᶠ v) = true ∧ (v <ᶠ inf) = true) ∧
            ∀ v ∈ out, ¬ ((ninf <ᶠ v) = true ∧ (v <ᶠ inf) = true))
        | _ => false
      | _ => false
    | none => false) = true := by decide +kernel
  split at this
  · rename_i b hb
    split at this
    · rename_i b' h
      split at this
      · rename_i out ho
        obtain ⟨h1, h2, h3⟩ := of_decide_eq_true this
        refine ⟨b, b', out, hb, fun v hv => FX.isFin_of_lt (h1 v hv), fun v hv => FX.isFin_of_lt (h2 v hv), h, ho,
          fun v hv hf => h3 v hv ?_⟩
        obtain ⟨q, rfl⟩ := hf
        exact ⟨rfl, rfl⟩
      · cases this
    · cases this
  · cases this

/-- A fitted model that is finite. -/
example : ∃ b b' out, wB = some b ∧ b.fit floatEnv wX wY wW none = .ok (b', .ok ()) ∧ b'.trees ≠ [] ∧
    Booster.Finite b' ∧ (∀ t ∈ b'.trees, t.Wf) ∧ b'.baseScore.InFormat ∧ b'.used ≤ 2 ^ 52 ∧ wX.Shaped ∧
    ((b'.trees.take b'.used).map fun t => t.nodes.length).sum ≤ 2 ^ 51 ∧ b'.predict wX = .ok out := by
  have : (match wB with
    | some b => match b.fit floatEnv wX wY wW none with
      | .ok (b', .ok ()) => match b'.predict wX with
        | .ok _ => decide (b'.trees.length = 1 ∧ b'.baseScore = FX.fin 0 ∧ b'.used ≤ 2 ^ 52 ∧
            ((b'.trees.take b'.used).map fun t => t.nodes.length).sum ≤ 2 ^ 51 ∧
            ∀ t ∈ b'.trees, ∀ n ∈ t.nodes, (ninf <ᶠ n.weightValue) = true ∧ (n.weightValue <ᶠ inf) = true)
        | _ => false
      | _ => false
    | none => false) = true := by decide +kernel
  split at this
  · rename_i b hb
    split at this
    · rename_i b' h
      split at this
      · rename_i out ho
        obtain ⟨h1, h2, h3, h4, h5⟩ := of_decide_eq_true this
        refine ⟨b, b', out, hb, h, (fun e => by rw [e] at h1; cases h1),
          C112_fitted h ⟨0, h2, by simp⟩ (fun t ht n hn => FX.isFin_of_lt (h5 t ht n hn)),
          C03_well_formed _ _ _ _ _ _ _ h, ?_, h3, rfl, h4, ho⟩
        rw [h2]
        intro q e
        cases e
        exact Fmt.Rounds.zero
      · cases this
    · cases this
  · cases this

end Verif
