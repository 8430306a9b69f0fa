import Verif.Proofs.ScaleFX
import Verif.Proofs.Rounds

/-!
# Scaled runs: binning, objectives and metrics
-/

namespace Verif

open scoped Verif

set_option linter.unusedSectionVars false

theorem Res.bind_eq {α γ : Type} {x : Res α} {k k' : α → Res γ} (hk : ∀ a, x = ok a → k' a = k a) :
    x >>= k' = x >>= k := by
  cases x with
  | ok a => exact hk a rfl
  | panic => rfl
  | diverge => rfl

theorem Res.bind_image_eq {α β γ : Type} {x : Res α} {x' : Res β} {φ : α → β} {k : α → Res γ} {k' : β → Res γ}
    (hx : x' = φ <$> x) (hk : ∀ a, x = ok a → k' (φ a) = k a) : x' >>= k' = x >>= k := by
  subst hx
  cases x with
  | ok a => exact hk a rfl
  | panic => rfl
  | diverge => rfl

/-! ## Binning with scaled weights -/

section
variable {D : Type} [Fl D] {φ : D → D}

theorem filterMissing_weights (φ : D → D) (missing : D) : ∀ l : List (D × D),
    filterMissing missing (l.map fun p => (p.1, φ p.2)) =
      List.map (fun p => (p.1, φ p.2)) <$> filterMissing missing l
  | [] => rfl
  | (v, w) :: l => by
    simp only [List.map_cons, filterMissing]
    refine Res.bind_same fun b _ => Res.bind_image (filterMissing_weights φ missing l) fun r _ => ?_
    cases b <;> rfl

theorem pctLoop_weights {t : D} (h : ∀ x, φ x / φ t = x / t) (last : D) :
    ∀ (l : List (D × D)) (cv cu cp : D) (pcts p : List D),
      pctLoop (φ t) last (l.map fun x => (x.1, φ x.2)) cv cu cp pcts p = pctLoop t last l cv cu cp pcts p := by
  intro l
  induction l with
  | nil => intros; rfl
  | cons a l ih =>
    obtain ⟨v, w⟩ := a
    intro cv cu cp pcts p
    simp only [List.map_cons, pctLoop, h]
    split
    · split
      · rfl
      · exact ih _ _ _ _ _
    · split
      · rfl
      · exact ih _ _ _ _ _

theorem percentiles_weights {S : Sorter} (ha : ∀ x y, φ (x + y) = φ x + φ y) (h0 : φ 0 = 0)
    (hd : ∀ x y, φ x / φ y = x / y) (v w pcts : List D) :
    percentiles S v (w.map φ) pcts = percentiles S v w pcts := by
  unfold percentiles
  refine Res.bind_eq fun order _ => ?_
  cases pcts with
  | nil => rfl
  | cons cur rest =>
    dsimp only
    refine Res.bind_image_eq (φ := List.map fun x => (x.1, φ x.2)) ?_ fun vals _ => ?_
    · refine Res.mapM'_same (fun i => ?_) _
      exact Res.bind_same fun a _ => Res.bind_image (φ := φ) (idx_map _ _ _) fun u _ => rfl
    · cases vals with
      | nil => rfl
      | cons p vals =>
        obtain ⟨v0, w0⟩ := p
        rw [List.map_cons]
        dsimp only
        rw [← List.map_cons (f := fun x : D × D => (x.1, φ x.2)) (a := (v0, w0)), fastSum_map φ ha h0,
          pctLoop_weights (fun x => hd x _), List.getLast?_map, Option.map_map]
        rfl

theorem binMatrix_weights {S : Sorter} (ha : ∀ x y, φ (x + y) = φ x + φ y) (h0 : φ 0 = 0)
    (hd : ∀ x y, φ x / φ y = x / y) (X : Matrix D) (w : List D) (nbins : Nat) (missing : D) :
    binMatrix S X (w.map φ) nbins missing = binMatrix S X w nbins missing := by
  unfold binMatrix
  have : (fun i => X.getCol i >>= fun c => colCuts S c (w.map φ) nbins missing) =
      fun i => X.getCol i >>= fun c => colCuts S c w nbins missing := by
    funext i
    refine Res.bind_eq fun c _ => ?_
    unfold colCuts
    have ez : c.zip (w.map φ) = (c.zip w).map fun p => (p.1, φ p.2) := by
      rw [List.zip_map_right]; rfl
    rw [ez]
    refine Res.bind_image_eq (filterMissing_weights φ missing _) fun kept _ => ?_
    rw [List.map_map, List.map_map]
    have e2 : kept.map (Prod.snd ∘ fun p : D × D => (p.1, φ p.2)) = (kept.map Prod.snd).map φ := by
      rw [List.map_map]; rfl
    have e3 : kept.map (Prod.fst ∘ fun p : D × D => (p.1, φ p.2)) = kept.map Prod.fst := rfl
    rw [e2, e3]
    have e4 : percentilesOrValue S (kept.map Prod.fst) ((kept.map Prod.snd).map φ) (binPcts nbins) =
        percentilesOrValue S (kept.map Prod.fst) (kept.map Prod.snd) (binPcts nbins) := by
      unfold percentilesOrValue
      rw [percentiles_weights ha h0 hd]
    rw [e4]
  rw [this]

/-! ## Base score -/

theorem initSums_maps {φ ψ χ : D → D} (hs : ∀ s w y, χ (s + w * y) = χ s + ψ w * φ y)
    (ha : ∀ x y, ψ (x + y) = ψ x + ψ y) (h0 : χ 0 = 0) (h0' : ψ 0 = 0) (y w : List D) :
    initSums (y.map φ) (w.map ψ) = (fun r : D × D => (χ r.1, ψ r.2)) <$> initSums y w := by
  unfold initSums
  have e : (y.map φ).zipIdx = y.zipIdx.map fun p => (φ p.1, p.2) := by
    rw [List.zipIdx_map]; rfl
  rw [e]
  have := Res.foldM'_image (ψ := fun r : D × D => (χ r.1, ψ r.2)) (φ := fun p : D × Nat => (φ p.1, p.2))
    (f := fun (s : D × D) (p : D × Nat) => do
      let wi ← idx w p.2
      Res.ok (s.1 + wi * p.1, s.2 + wi))
    (f' := fun (s : D × D) (p : D × Nat) => do
      let wi ← idx (w.map ψ) p.2
      Res.ok (s.1 + wi * p.1, s.2 + wi)) (fun s p => Res.bind_image (φ := ψ) (idx_map _ _ _) fun u _ => by
        rw [Res.map_ok, hs, ha]) y.zipIdx (0, 0)
  simp only [h0, h0'] at this
  exact this

end

end Verif
