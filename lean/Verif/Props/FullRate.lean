import Verif.Proofs.FullRate
import Verif.Props.Drawn
import Verif.Props.ExactCovers

/-!
# C141: a sampling rate of one is no sampling

`RandomSampler` keeps a row when a number of the generator, below one, is below the rate (src/sampler.rs 37-55).  With a
rate of one all rows are kept, but `Tree::fit` takes other paths than without sampling (src/tree.rs 50-65): it gathers
the gradients and adds them one by one instead of in lanes.
-/

namespace Verif

open scoped Verif

set_option linter.unusedSectionVars false

section
variable {K : Type} [Field K] [LinearOrder K] {m32 m64 : Fmt K} [m64.Exact]
variable {R : Type} {env : Env R (FX m32) (FX m64)} {b : Booster (FX m32) (FX m64)} {X : Matrix (FX m64)}
  {y w : List (FX m64)} {ev : Option (List (EvalSet (FX m64)))} {rate : FX m32}

/-- **C141**.  `b` samples neither rows nor columns.  The same booster with random sampling at a rate above all numbers
of the generator, and with any seed, gives the same outcome of `fit`, also when it fails or panics: the same trees,
history and best iteration.  The wide format is exact, the narrow one may round; gradients may be infinite or NaN. -/
theorem C141_fit (hm : b.sampleMethod = .none) (hc : (b.colsampleBytree =ᶠ 1) = true)
    (hd : ∀ r, ((env.rng.genF r).1 <ᶠ rate) = true) (hy : y.length = X.rows) (hw : w.length = X.rows) (seed : Nat) :
    ({ b with sampleMethod := .random, subsample := rate, seed := seed } : Booster (FX m32) (FX m64)).fit env X y w ev =
      (do let (b', r) ← b.fit env X y w ev
          .ok ({ b' with sampleMethod := .random, subsample := rate, seed := seed }, r)) := by
  change (b.drawing rate seed).fit env X y w ev = (do
    let (b', r) ← b.fit env X y w ev
    .ok (b'.drawing rate seed, r))
  have key : Res.Rel (fun a c => c = a.drawing rate seed) (fitTrees env b X y w b.splitter ev)
      (fitTrees env (b.drawing rate seed) X y w b.splitter ev) := by
    rw [fitTrees_eq_rest, fitTrees_eq_rest]
    dsimp only
    have e0 : (if (b.drawing rate seed).trees.isEmpty then b.drawing rate seed else (b.drawing rate seed).reset) =
        (if b.trees.isEmpty then b else b.reset).drawing rate seed := by
      change (if b.trees.isEmpty then _ else _) = _
      split <;> rfl
    have hm0 : (if b.trees.isEmpty then b else b.reset).sampleMethod = .none := by split <;> exact hm
    have hc0 : ((if b.trees.isEmpty then b else b.reset).colsampleBytree =ᶠ 1) = true := by split <;> exact hc
    rw [e0]
    generalize (if b.trees.isEmpty then b else b.reset) = b0 at *
    change Res.Rel _ _ (if b0.initializeBaseScore = true then _ else _)
    split
    · change Res.Rel _ _ (calcInit b0.objectiveType y w >>= _)
      refine Res.Rel.bind (Res.Rel.of_eq rfl) fun s _ _ _ e => ?_
      subst e
      exact fitRest_full (sumsAgree_exact m32 m64) hd hy hw (b := { b0 with baseScore := s }) hm0 hc0
    · exact fitRest_full (sumsAgree_exact m32 m64) hd hy hw hm0 hc0
  unfold Booster.fit
  split
  · rfl
  · change (fitTrees env (b.drawing rate seed) X y w b.splitter ev >>= _) = _
    generalize fitTrees env b X y w b.splitter ev = r at *
    generalize fitTrees env (b.drawing rate seed) X y w b.splitter ev = r' at *
    cases r <;> cases r' <;> first | exact key.elim | rfl | skip
    have : _ = _ := key
    rw [this]
    rfl

end

/-! ## Examples -/

/-- All numbers of the example generator are below one, and a fit on all rows splits. -/
example : (exFresh.colsampleBytree =ᶠ 1) = true ∧ exFresh.sampleMethod = .none ∧
    (∀ r, ((exEnv.rng.genF r).1 <ᶠ q 1) = true) ∧
    ∃ b', exFresh.fit exEnv exX exY exW none = .ok (b', .ok ()) ∧ ∃ t ∈ b'.trees, 1 < t.nodes.length := by
  refine ⟨by decide +kernel, rfl, fun r => ?_, ?_⟩
  · show (q (((r % 7 : Nat) : ℚ) / 7) <ᶠ q 1) = true
    have h := Nat.mod_lt r (show 0 < 7 by decide)
    generalize r % 7 = k at h
    revert k
    decide +kernel
  · have : (match exFresh.fit exEnv exX exY exW none with
      | .ok (b', .ok ()) => b'.trees.any fun t => decide (1 < t.nodes.length)
      | _ => false) = true := by decide +kernel
    split at this
    · next b' hb =>
      simp only [List.any_eq_true, decide_eq_true_eq] at this
      exact ⟨b', hb, this⟩
    · cases this

/-- Targets whose sum depends on the order of the additions. -/
def cancelY : List F64 :=
  [f64 (-2 ^ 60), f64 (-1)] ++ List.replicate 14 (f64 0) ++ [f64 (2 ^ 60)] ++ List.replicate 15 (f64 0)

/-- One column for the 32 rows. -/
def cancelX : Matrix F64 := { data := List.replicate 32 (f64 0), rows := 32, cols := 1 }

/-- A booster whose trees are single leaves. -/
def cancelB : Option (Booster F32 F64) := mfB.map fun b =>
  { b with monotoneConstraints := none, minLeafWeight := f32 100, l2 := 0, iterations := 1, learningRate := 1 }

/-- The predictions of a booster for the first row. -/
def firstOf (r : Res (Booster F32 F64 × Except ForustError Unit)) : Option F64 :=
  match r with
  | .ok (b', .ok ()) => match b'.predict cancelX with
    | .ok (p :: _) => some p
    | _ => none
  | _ => none

/-- **C141** (rounding).  In `f32` and `f64` the claim is false: on 32 rows the two orders of addition give the root
gradients 1 and 0, and the predictions differ. -/
theorem C141_rounded : ∃ b, cancelB = some b ∧ b.sampleMethod = .none ∧ (b.colsampleBytree =ᶠ 1) = true ∧
    (∀ r, ((floatEnv.rng.genF r).1 <ᶠ 1) = true) ∧ cancelY.length = cancelX.rows ∧
    firstOf (b.fit floatEnv cancelX cancelY (List.replicate 32 1) none) = some (f64 (-1/32)) ∧
    firstOf (({ b with sampleMethod := .random, subsample := 1 } : Booster F32 F64).fit floatEnv cancelX cancelY
      (List.replicate 32 1) none) = some (f64 0) := by
  have : (match cancelB with
    | some b => decide (b.sampleMethod = .none ∧ (b.colsampleBytree =ᶠ 1) = true ∧
        firstOf (b.fit floatEnv cancelX cancelY (List.replicate 32 1) none) = some (f64 (-1/32)) ∧
        firstOf (({ b with sampleMethod := .random, subsample := 1 } : Booster F32 F64).fit floatEnv cancelX cancelY
          (List.replicate 32 1) none) = some (f64 0))
    | none => false) = true := by decide +kernel
  split at this
  · rename_i b hb
    obtain ⟨h1, h2, h3, h4⟩ := of_decide_eq_true this
    refine ⟨b, hb, h1, h2, fun r => ?_, rfl, h3, h4⟩
    show (f32 (((r % 7 : Nat) : ℚ) / 8) <ᶠ 1) = true
    have h := Nat.mod_lt r (show 0 < 7 by decide)
    generalize r % 7 = k at h
    revert k
    decide +kernel
  · cases this

end Verif
