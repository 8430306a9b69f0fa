import Verif.Proofs.Relate
import Verif.Proofs.Bins
import Verif.Spec.Relabel

/-!
# Bins of transformed features
-/

namespace Verif

open scoped Verif

set_option linter.unusedSectionVars false

section col
variable {D : Type} [Fl D]

theorem present_iff {missing v : D} : Present missing v ↔ isMissing v missing = .ok false := by
  unfold Present isMissing IsMissing
  split
  · constructor
    · intro h; rw [h.1]
    · intro h
      simp only [Res.ok.injEq] at h
      exact ⟨h, by simp [h]⟩
  · split
    · rename_i hv; simp [hv]
    · rename_i hv
      simp only [Bool.not_eq_true] at hv
      simp [hv]

/-- What one column needs. -/
structure ColRespects (f : D → D) (G : D → Prop) : Prop where
  nan : ∀ a, G a → isNaN (f a) = isNaN a
  le : ∀ a b, G a → G b → (f a ≤ᶠ f b) = (a ≤ᶠ b)
  feq : ∀ a b, G a → G b → (f a =ᶠ f b) = (a =ᶠ b)
  max_le : ∀ a, G a → (Fl.maxv ≤ᶠ f a) = (Fl.maxv ≤ᶠ a)
  feq_max : ∀ a, G a → (f a =ᶠ Fl.maxv) = (a =ᶠ Fl.maxv)

variable {f : D → D} {G : D → Prop}

theorem dedupGo_map (h : ColRespects f G) : ∀ (l : List D) (a : D), G a → (∀ x ∈ l, G x) →
    dedupF.go (f a) (l.map f) = (dedupF.go a l).map f
  | [], _, _, _ => rfl
  | b :: l, a, ha, hl => by
    simp only [List.map_cons, dedupF.go]
    rw [h.feq a b ha (hl b (by simp))]
    split
    · exact dedupGo_map h l a ha fun x hx => hl x (by simp [hx])
    · rw [dedupGo_map h l b (hl b (by simp)) fun x hx => hl x (by simp [hx])]
      rfl

theorem dedup_map (h : ColRespects f G) (l : List D) (hl : ∀ x ∈ l, G x) :
    dedupF (l.map f) = (dedupF l).map f := by
  cases l with
  | nil => rfl
  | cons a l =>
    simp only [List.map_cons, dedupF]
    rw [dedupGo_map h l a (hl a (by simp)) fun x hx => hl x (by simp [hx])]

theorem dedupGo_subset {a : D} : ∀ {l : List D} {x : D}, x ∈ dedupF.go a l → x ∈ l
  | [], _, h => by simp [dedupF.go] at h
  | b :: l, x, h => by
    unfold dedupF.go at h
    split at h
    · exact List.mem_cons_of_mem _ (dedupGo_subset h)
    · rcases List.mem_cons.1 h with h | h
      · rw [h]; simp
      · exact List.mem_cons_of_mem _ (dedupGo_subset h)

theorem dedup_subset {l : List D} {x : D} (h : x ∈ dedupF l) : x ∈ l := by
  cases l with
  | nil => simp [dedupF] at h
  | cons a l =>
    rcases List.mem_cons.1 h with h | h
    · rw [h]; simp
    · exact List.mem_cons_of_mem _ (dedupGo_subset h)

/-- The cuts of a column and of the transformed column. -/
def CutSim (f : D → D) (G : D → Prop) (c c' : List D) : Prop :=
  ∃ d e e', c = d ++ [e] ∧ c' = d.map f ++ [e'] ∧ (∀ x ∈ d, G x) ∧
    ((G e ∧ e' = f e) ∨ (e = Fl.maxv ∧ e' = Fl.maxv))

theorem CutSim.cons {c c' : List D} (h : CutSim f G c c') {a : D} (ha : G a) :
    CutSim f G (a :: c) (f a :: c') := by
  obtain ⟨d, e, e', rfl, rfl, hd, he⟩ := h
  refine ⟨a :: d, e, e', rfl, rfl, fun x hx => ?_, he⟩
  rcases List.mem_cons.1 hx with rfl | hx
  · exact ha
  · exact hd x hx

theorem dedupGo_cut (h : ColRespects f G) : ∀ (l : List D) (a : D), G a → (∀ x ∈ l, G x) →
    CutSim f G (a :: dedupF.go a (l ++ [Fl.maxv])) (f a :: dedupF.go (f a) (l.map f ++ [Fl.maxv]))
  | [], a, ha, _ => by
    simp only [List.nil_append, List.map_nil, dedupF.go]
    rw [h.feq_max a ha]
    split
    · exact ⟨[], a, f a, rfl, rfl, by simp, .inl ⟨ha, rfl⟩⟩
    · exact ⟨[a], Fl.maxv, Fl.maxv, rfl, rfl, by simp [ha], .inr ⟨rfl, rfl⟩⟩
  | b :: l, a, ha, hl => by
    simp only [List.map_cons, List.cons_append, dedupF.go]
    rw [h.feq a b ha (hl b (by simp))]
    split
    · exact dedupGo_cut h l a ha fun x hx => hl x (by simp [hx])
    · exact (dedupGo_cut h l b (hl b (by simp)) fun x hx => hl x (by simp [hx])).cons ha

theorem dedup_cut (h : ColRespects f G) (l : List D) (hl : ∀ x ∈ l, G x) :
    CutSim f G (dedupF (l ++ [Fl.maxv])) (dedupF (l.map f ++ [Fl.maxv])) := by
  cases l with
  | nil => exact ⟨[], Fl.maxv, Fl.maxv, rfl, rfl, by simp, .inr ⟨rfl, rfl⟩⟩
  | cons a l =>
    exact dedupGo_cut h l a (hl a (by simp)) fun x hx => hl x (by simp [hx])

theorem CutSim.length {c c' : List D} (h : CutSim f G c c') : c.length = c'.length := by
  obtain ⟨d, e, e', rfl, rfl, _, _⟩ := h
  simp

theorem CutSim.le (h : ColRespects f G) {c c' : List D} (hc : CutSim f G c c') {v : D} (hv : G v) :
    List.Forall₂ (fun a b => (b ≤ᶠ f v) = (a ≤ᶠ v)) c c' := by
  obtain ⟨d, e, e', rfl, rfl, hd, he⟩ := hc
  refine List.rel_append ?_ (.cons ?_ .nil)
  · rw [List.forall₂_map_right_iff]
    exact List.forall₂_same.2 fun a ha => h.le a v (hd a ha) hv
  · rcases he with ⟨he, rfl⟩ | ⟨rfl, rfl⟩
    · exact h.le e v he hv
    · exact h.max_le v hv

theorem mapBinLoop_sim {x x' : List D} {v v' : D}
    (h : List.Forall₂ (fun a b => (b ≤ᶠ v') = (a ≤ᶠ v)) x x') : ∀ (n low high : Nat),
    mapBinLoop x' v' n low high = mapBinLoop x v n low high
  | 0, _, _ => rfl
  | n + 1, low, high => by
    unfold mapBinLoop
    split
    · rfl
    · have hl := h.length_eq
      have hi : ∀ i, Res.Rel (fun a b => (b ≤ᶠ v') = (a ≤ᶠ v)) (idx x i) (idx x' i) := by
        intro i
        unfold idx
        by_cases hi : i < x.length
        · have := (List.forall₂_iff_get.1 h).2 i hi (by omega)
          rw [List.getElem?_eq_getElem hi, List.getElem?_eq_getElem (by omega)]
          exact this
        · rw [List.getElem?_eq_none (by omega), List.getElem?_eq_none (by omega)]
          trivial
      refine (Res.Rel.eq (Res.Rel.bind (hi _) fun a b _ _ hab => Res.Rel.of_eq ?_)).symm
      rw [hab]
      split
      · exact (mapBinLoop_sim h n _ _).symm
      · exact (mapBinLoop_sim h n _ _).symm

theorem sortPartialCmp_map {S : Sorter} (hS : S.Natural) {α β : Type} (g : α → β) (key : α → D)
    (key' : β → D) (l : List α) (hn : ∀ a ∈ l, isNaN (key' (g a)) = isNaN (key a))
    (hle : ∀ a ∈ l, ∀ b ∈ l, (key' (g a) ≤ᶠ key' (g b)) = (key a ≤ᶠ key b)) :
    sortPartialCmp S key' (l.map g) = (do let s ← sortPartialCmp S key l; .ok (s.map g)) := by
  unfold sortPartialCmp
  have e : (l.map g).any (fun a => isNaN (key' a)) = l.any fun a => isNaN (key a) := by
    rw [List.any_map, List.any_eq, List.any_eq]
    congr 1
    apply propext
    constructor
    · rintro ⟨a, ha, h⟩
      exact ⟨a, ha, by rw [← hn a ha]; exact h⟩
    · rintro ⟨a, ha, h⟩
      exact ⟨a, ha, by simpa [hn a ha] using h⟩
  rw [e, List.length_map, hS g (fun a b => key a ≤ᶠ key b) (fun a b => key' a ≤ᶠ key' b) l hle]
  split <;> rfl

/-- The values kept by `filter`. -/
theorem filterMissing_map {missing : D} {dom : D → Prop} (hm : ∀ a, dom a → isMissing (f a) missing = isMissing a missing) :
    ∀ (l : List D) (w : List D), (∀ x ∈ l, dom x) →
    Res.Rel (fun k k' => k' = k.map (fun p => (f p.1, p.2)) ∧ ∀ p ∈ k, dom p.1 ∧ Present missing p.1)
      (filterMissing missing (l.zip w)) (filterMissing missing ((l.map f).zip w))
  | [], _, _ => ⟨rfl, by simp⟩
  | a :: l, [], _ => ⟨rfl, by simp⟩
  | a :: l, b :: w, hl => by
    simp only [List.map_cons, List.zip_cons_cons, filterMissing]
    rw [hm a (hl a (by simp))]
    refine (Res.Rel.of_eq rfl).bind fun x x' hx _ e => ?_
    subst e
    refine (filterMissing_map hm l w fun x hx => hl x (by simp [hx])).bind fun k k' _ _ hk => ?_
    obtain ⟨rfl, hk⟩ := hk
    cases x with
    | true => exact ⟨rfl, hk⟩
    | false =>
      refine ⟨rfl, fun p hp => ?_⟩
      rcases List.mem_cons.1 hp with rfl | hp
      · exact ⟨hl a (by simp), present_iff.2 hx⟩
      · exact hk p hp

theorem pctWhile_map (cuml value : D) (f : D → D) : ∀ (pcts : List D) (cur : D) (p : List D),
    pctWhile cuml (f value) cur pcts (p.map f) =
      ((pctWhile cuml value cur pcts p).1.map f, (pctWhile cuml value cur pcts p).2)
  | [], cur, p => by unfold pctWhile; split <;> simp
  | n :: pcts, cur, p => by
    unfold pctWhile
    split
    · rw [← pctWhile_map cuml value f pcts n (p ++ [value])]; simp
    · rfl

theorem pctWhile_in {cuml value : D} {G : D → Prop} (hv : G value) : ∀ (pcts : List D) (cur : D) (p : List D),
    (∀ x ∈ p, G x) → ∀ x ∈ (pctWhile cuml value cur pcts p).1, G x
  | [], cur, p, hp => by
    unfold pctWhile
    split
    · intro x hx
      simp only [List.mem_append, List.mem_singleton] at hx
      rcases hx with hx | rfl
      · exact hp x hx
      · exact hv
    · exact hp
  | n :: pcts, cur, p, hp => by
    unfold pctWhile
    split
    · refine pctWhile_in hv pcts n _ ?_
      intro x hx
      simp only [List.mem_append, List.mem_singleton] at hx
      rcases hx with hx | rfl
      · exact hp x hx
      · exact hv
    · exact hp

theorem pctLoop_map (h : ColRespects f G) {total last : D} (hlast : G last) :
    ∀ (l : List (D × D)) (cv cu cp : D) (pcts p : List D), (∀ x ∈ l, G x.1) → G cv → (∀ x ∈ p, G x) →
      pctLoop total (f last) (l.map fun x => (f x.1, x.2)) (f cv) cu cp pcts (p.map f) =
        (pctLoop total last l cv cu cp pcts p).map f ∧
      ∀ x ∈ pctLoop total last l cv cu cp pcts p, G x
  | [], cv, cu, cp, pcts, p, _, _, hp => ⟨rfl, hp⟩
  | (v, w) :: l, cv, cu, cp, pcts, p, hl, hcv, hp => by
    simp only [List.map_cons, pctLoop]
    have hv := hl (v, w) (by simp)
    have ec : (if (f cv =ᶠ f v) = true then f cv else f v) = f (if (cv =ᶠ v) = true then cv else v) := by
      rw [h.feq cv v hcv hv]; split <;> rfl
    have hc : G (if (cv =ᶠ v) = true then cv else v) := by split; exacts [hcv, hv]
    rw [ec]
    generalize (if (cv =ᶠ v) = true then cv else v) = c at hc
    have hl' : ∀ x ∈ l, G x.1 := fun x hx => hl x (by simp [hx])
    split
    · rw [pctWhile_map]
      have hin := pctWhile_in (cuml := cu + w / total) hc pcts cp p hp
      cases hr : pctWhile (cu + w / total) c cp pcts p with
      | mk p' o =>
        rw [hr] at hin
        cases o with
        | none => exact ⟨rfl, hin⟩
        | some x =>
          obtain ⟨c', pcts'⟩ := x
          exact pctLoop_map h hlast l c _ c' pcts' p' hl' hc hin
    · split
      · refine ⟨by simp, ?_⟩
        intro x hx
        simp only [List.mem_append, List.mem_singleton] at hx
        rcases hx with hx | rfl
        · exact hp x hx
        · exact hlast
      · exact pctLoop_map h hlast l c _ cp pcts p hl' hc hp

theorem percentiles_map {S : Sorter} (hS : S.Natural) (h : ColRespects f G) (v w pcts : List D)
    (hv : ∀ x ∈ v, G x) :
    Res.Rel (fun c c' => c' = c.map f ∧ ∀ x ∈ c, G x) (percentiles S v w pcts) (percentiles S (v.map f) w pcts) := by
  unfold percentiles
  have hk : ∀ i ∈ List.range v.length, ∃ x, v[i]? = some x ∧ (v.map f)[i]? = some (f x) ∧ G x := by
    intro i hi
    rw [List.mem_range] at hi
    exact ⟨v[i], List.getElem?_eq_getElem hi, by simp [hi], hv _ (List.getElem_mem _)⟩
  have e : sortPartialCmp S (fun i => (v.map f)[i]?.getD 0) (List.range (v.map f).length) =
      sortPartialCmp S (fun i => v[i]?.getD 0) (List.range v.length) := by
    have := sortPartialCmp_map hS id (fun i => v[i]?.getD 0) (fun i => (v.map f)[i]?.getD 0)
      (List.range v.length) ?_ ?_
    · rw [List.map_id] at this
      rw [List.length_map, this]
      cases sortPartialCmp S (fun i => v[i]?.getD 0) (List.range v.length) <;> simp [bind, Res.bind]
    · intro i hi
      obtain ⟨x, h1, h2, h3⟩ := hk i hi
      simp only [id, h1, h2, Option.getD_some]
      exact h.nan x h3
    · intro i hi j hj
      obtain ⟨x, h1, h2, h3⟩ := hk i hi
      obtain ⟨y, k1, k2, k3⟩ := hk j hj
      simp only [id, h1, h2, k1, k2, Option.getD_some]
      exact h.le x y h3 k3
  rw [e]
  refine (Res.Rel.of_eq rfl).bind fun order order' _ _ ho => ?_
  subst ho
  cases pcts with
  | nil => trivial
  | cons cur rest =>
    dsimp only
    have hm : ∀ l : List Nat, Res.Rel (fun a b => b = a.map (fun x => (f x.1, x.2)) ∧ ∀ x ∈ a, G x.1)
        (Res.mapM' (fun i => do
          let a ← idx v i
          let w ← idx w i
          pure (a, w)) l)
        (Res.mapM' (fun i => do
          let a ← idx (v.map f) i
          let w ← idx w i
          pure (a, w)) l) := by
      intro l
      induction l with
      | nil => exact ⟨rfl, by simp⟩
      | cons i l ih =>
        simp only [Res.mapM'_cons]
        refine Res.Rel.bind (R := fun a b => b = (f a.1, a.2) ∧ G a.1) ?_ fun a b _ _ hab =>
          ih.bind fun as bs _ _ hl => ?_
        · have : Res.Rel (fun a b => b = f a ∧ G a) (idx v i) (idx (v.map f) i) := by
            unfold idx
            rw [List.getElem?_map]
            cases hx : v[i]? with
            | none => trivial
            | some x => exact ⟨rfl, hv x (List.mem_of_getElem? hx)⟩
          refine this.bind fun a b _ _ hab => (Res.Rel.of_eq rfl).bind fun u u' _ _ hu => ?_
          subst hu
          exact ⟨by rw [hab.1], hab.2⟩
        · obtain ⟨rfl, ha⟩ := hab
          obtain ⟨rfl, has⟩ := hl
          refine ⟨rfl, fun x hx => ?_⟩
          rcases List.mem_cons.1 hx with rfl | hx
          · exact ha
          · exact has x hx
    refine (hm order).bind fun vals vals' _ _ hvals => ?_
    obtain ⟨rfl, hG⟩ := hvals
    cases vals with
    | nil => trivial
    | cons p vals =>
      obtain ⟨v0, w0⟩ := p
      have hlast : (((v0, w0) :: vals).map fun x => (f x.1, x.2)).getLast?.map Prod.fst =
          some (f ((((v0, w0) :: vals).getLast?.map Prod.fst).getD v0)) := by
        rw [List.getLast?_map, List.getLast?_eq_some_getLast (List.cons_ne_nil _ _)]
        rfl
      have hGl : G ((((v0, w0) :: vals).getLast?.map Prod.fst).getD v0) := by
        rw [List.getLast?_eq_some_getLast (List.cons_ne_nil _ _)]
        exact hG _ (List.getLast_mem _)
      have := pctLoop_map h (total := fastSum w) hGl ((v0, w0) :: vals) v0 0 cur rest [] hG
        (hG (v0, w0) (by simp)) (by simp)
      refine ⟨?_, this.2⟩
      rw [← this.1]
      simp only [List.map_cons, List.map_nil] at hlast ⊢
      rw [hlast]
      rfl

theorem percentilesOrValue_map {S : Sorter} (hS : S.Natural) (hp : ∀ {α : Type} (le : α → α → Bool) (l : List α), (S.sort le l).Perm l)
    (h : ColRespects f G) (v w pcts : List D) (hv : ∀ x ∈ v, G x) :
    Res.Rel (fun c c' => c' = c.map f ∧ ∀ x ∈ c, G x) (percentilesOrValue S v w pcts)
      (percentilesOrValue S (v.map f) w pcts) := by
  unfold percentilesOrValue
  have e := sortPartialCmp_map hS f id id v (fun a ha => h.nan a (hv a ha))
    (fun a ha b hb => h.le a b (hv a ha) (hv b hb))
  have e2 : Res.Rel (fun s s' => s' = s.map f ∧ ∀ x ∈ s, G x) (sortPartialCmp S id v) (sortPartialCmp S id (v.map f)) := by
    rw [e]
    cases hs : sortPartialCmp S id v with
    | ok s =>
      refine ⟨rfl, fun x hx => hv x ?_⟩
      unfold sortPartialCmp at hs
      split at hs
      · cases hs
      · cases hs
        exact (hp _ _).subset hx
    | panic => trivial
    | diverge => trivial
  refine e2.bind fun s s' _ _ hs => ?_
  obtain ⟨rfl, hG⟩ := hs
  dsimp only
  rw [dedup_map h s hG, List.length_map]
  split
  · exact ⟨rfl, fun x hx => hG x (dedup_subset hx)⟩
  · exact percentiles_map hS h v w pcts hv

end col

section
variable {D : Type} [Fl D] {φ : Nat → D → D} {missing : D} {dom : Nat → D → Prop}

theorem Respects.col (h : Respects φ missing dom) (j : Nat) :
    ColRespects (φ j) fun a => dom j a ∧ Present missing a where
  nan a ha := h.nan j a ha.1
  le a b ha hb := h.le j a b ha.1 hb.1 ha.2 hb.2
  feq a b ha hb := h.feq j a b ha.1 hb.1 ha.2 hb.2
  max_le a ha := h.max_le j a ha.1 ha.2
  feq_max a ha := h.feq_max j a ha.1 ha.2

theorem Respects.isMissing (h : Respects φ missing dom) {j : Nat} {a : D} (ha : dom j a) :
    isMissing (φ j a) missing = Verif.isMissing a missing := by
  unfold Verif.isMissing
  rw [h.nan j a ha, h.sentinel j a ha]

theorem getElem?_mapCols (X : Matrix D) (p : Nat) :
    (X.mapCols φ).data[p]? = X.data[p]?.map (φ (p / X.rows)) := by
  simp [Matrix.mapCols, List.getElem?_zipIdx, Function.comp_def]

theorem getCol_mapCols (hX : Matrix.Within X dom) (j : Nat) :
    Res.Rel (fun c c' => c' = c.map (φ j) ∧ ∀ x ∈ c, dom j x) (X.getCol j) ((X.mapCols φ).getCol j) := by
  unfold Matrix.getCol Matrix.getColSlice Matrix.itemIndex slice
  rw [show (X.mapCols φ).rows = X.rows from rfl,
    show (X.mapCols φ).data.length = X.data.length by simp [Matrix.mapCols]]
  split
  · have hq : ∀ i, i < X.rows → (j * X.rows + i) / X.rows = j := by
      intro i hi
      rw [Nat.mul_comm, Nat.mul_add_div (by omega), Nat.div_eq_of_lt hi, Nat.add_zero]
    refine ⟨?_, ?_⟩
    · apply List.ext_getElem?
      intro i
      rw [List.getElem?_map, List.getElem?_take, List.getElem?_take]
      split
      · rename_i hi
        rw [List.getElem?_drop, List.getElem?_drop, getElem?_mapCols]
        rw [show 1 * 0 + j * X.rows + i = j * X.rows + i by omega, hq i (by omega)]
      · rfl
    · intro x hx
      obtain ⟨i, e⟩ := List.mem_iff_getElem?.1 hx
      rw [List.getElem?_take] at e
      split at e
      · rename_i hi
        rw [List.getElem?_drop] at e
        have := hX _ _ e
        rwa [show 1 * 0 + j * X.rows + i = j * X.rows + i by omega, hq i (by omega)] at this
      · cases e
  · trivial

theorem colCuts_sim {S : Sorter} (hS : S.Natural) (hp : S.Ok) (h : Respects φ missing dom) (j : Nat)
    (col w : List D) (nbins : Nat) (hc : ∀ x ∈ col, dom j x) :
    Res.Rel (CutSim (φ j) fun a => dom j a ∧ Present missing a) (colCuts S col w nbins missing)
      (colCuts S (col.map (φ j)) w nbins missing) := by
  unfold colCuts
  refine (filterMissing_map (dom := dom j) (fun a ha => h.isMissing ha) col w hc).bind fun k k' _ _ hk => ?_
  obtain ⟨rfl, hk⟩ := hk
  have e1 : (k.map fun p => (φ j p.1, p.2)).map Prod.fst = (k.map Prod.fst).map (φ j) := by
    simp [Function.comp_def]
  have e2 : (k.map fun p => (φ j p.1, p.2)).map Prod.snd = k.map Prod.snd := by
    simp [Function.comp_def]
  rw [e1, e2]
  refine (percentilesOrValue_map hS hp.perm (h.col j) _ _ _ ?_).bind fun c c' _ _ hcc => ?_
  · intro x hx
    obtain ⟨p, hp, rfl⟩ := List.mem_map.1 hx
    exact hk p hp
  · obtain ⟨rfl, hG⟩ := hcc
    exact dedup_cut (h.col j) c hG

theorem mapBin_sim (h : Respects φ missing dom) (j : Nat) {c c' : List D}
    (hc : CutSim (φ j) (fun a => dom j a ∧ Present missing a) c c') {v : D} (hv : dom j v) :
    mapBin c' (φ j v) missing = mapBin c v missing := by
  unfold mapBin
  rw [h.nan j v hv, h.sentinel j v hv]
  split
  · rfl
  · rename_i hn
    simp only [Bool.or_eq_true, not_or, Bool.not_eq_true] at hn
    have hp : Present missing v := by
      rw [present_iff]
      unfold isMissing
      rw [hn.1, hn.2]
      split <;> rfl
    rw [← hc.length, mapBinLoop_sim (hc.le (h.col j) ⟨hv, hp⟩)]

/-- The bins of transformed data are the same, and the cuts correspond. -/
theorem binMatrix_sim {S : Sorter} (hS : S.Natural) (hp : S.Ok) (h : Respects φ missing dom) {X : Matrix D}
    (hX : X.Within dom) (w : List D) (nbins : Nat) :
    Res.Rel (fun bd bd' => bd'.binned = bd.binned ∧ ∃ cs cs', Jagged cs bd.cuts ∧ Jagged cs' bd'.cuts ∧
        cs.length = X.cols ∧ cs'.length = X.cols ∧
        ∀ j, Res.Rel (CutSim (φ j) fun a => dom j a ∧ Present missing a) (bd.cuts.getCol j) (bd'.cuts.getCol j))
      (binMatrix S X w nbins missing) (binMatrix S (X.mapCols φ) w nbins missing) := by
  unfold binMatrix
  rw [show (X.mapCols φ).cols = X.cols from rfl]
  have hcols : ∀ l : List Nat, Res.Rel (fun cs cs' => List.Forall₂ (fun j (p : List D × List D) =>
        CutSim (φ j) (fun a => dom j a ∧ Present missing a) p.1 p.2) l (cs.zip cs') ∧ cs.length = cs'.length)
      (Res.mapM' (fun i => do
        let c ← X.getCol i
        colCuts S c w nbins missing) l)
      (Res.mapM' (fun i => do
        let c ← (X.mapCols φ).getCol i
        colCuts S c w nbins missing) l) := by
    intro l
    induction l with
    | nil => exact ⟨.nil, rfl⟩
    | cons j l ih =>
      simp only [Res.mapM'_cons]
      refine Res.Rel.bind (R := CutSim (φ j) fun a => dom j a ∧ Present missing a) ?_ fun a b _ _ hab =>
        ih.bind fun as bs _ _ hl => ?_
      · refine (getCol_mapCols hX j).bind fun c c' _ _ hc => ?_
        obtain ⟨rfl, hc⟩ := hc
        exact colCuts_sim hS hp h j c w nbins hc
      · exact ⟨.cons hab hl.1, by simp [hl.2]⟩
  refine (hcols (List.range X.cols)).bind fun cs cs' _ _ hcs => ?_
  obtain ⟨hcs, hlen⟩ := hcs
  have hl1 : cs.length = X.cols := by
    have := hcs.length_eq; simp only [List.length_range, List.length_zip] at this; omega
  have j1 := Jagged.foldl_pushCuts cs
  have j2 := Jagged.foldl_pushCuts cs'
  have hcut : ∀ j, Res.Rel (CutSim (φ j) fun a => dom j a ∧ Present missing a)
      ((cs.foldl pushCuts JaggedMatrix.empty).getCol j) ((cs'.foldl pushCuts JaggedMatrix.empty).getCol j) := by
    intro j
    rw [j1.getCol, j2.getCol]
    by_cases hj : j < cs.length
    · rw [List.getElem?_eq_getElem hj, List.getElem?_eq_getElem (by omega)]
      have := (List.forall₂_iff_get.1 hcs).2 j (by simp; omega) (by simp; omega)
      simp only [List.get_eq_getElem, List.getElem_range, List.getElem_zip] at this
      exact this
    · rw [List.getElem?_eq_none (by omega), List.getElem?_eq_none (by omega)]
      trivial
  dsimp only
  generalize cs.foldl pushCuts JaggedMatrix.empty = C at j1 hcut
  generalize cs'.foldl pushCuts JaggedMatrix.empty = C' at j2 hcut
  have hb : binMatrixFromCuts (X.mapCols φ) C' missing = binMatrixFromCuts X C missing := by
    unfold binMatrixFromCuts
    rw [show (X.mapCols φ).data.zipIdx = X.data.zipIdx.map fun p => (φ (p.2 / X.rows) p.1, p.2) from ?_]
    · rw [show (X.mapCols φ).rows = X.rows from rfl]
      refine Res.Rel.eq ((Res.Rel.mapM' (R := Eq) (S := fun a b => a = (φ (b.2 / X.rows) b.1, b.2) ∧ dom (b.2 / X.rows) b.1) ?_ ?_).mono
        fun a b _ _ hab => List.forall₂_eq_eq_eq ▸ hab)
      · rw [List.forall₂_map_left_iff]
        refine List.forall₂_same.2 fun p hp => ⟨rfl, ?_⟩
        rw [List.mem_zipIdx_iff_getElem?] at hp
        exact hX _ _ hp
      · rintro _ p ⟨rfl, hd⟩
        dsimp only
        split
        · trivial
        · have := hcut (p.2 / X.rows)
          cases h1 : C.getCol (p.2 / X.rows) <;> cases h2 : C'.getCol (p.2 / X.rows) <;> rw [h1, h2] at this <;> first
            | exact this.elim
            | trivial
            | skip
          simp only [Res.ok_bind]
          rw [mapBin_sim h _ this hd]
          exact Res.Rel.of_eq rfl
    · apply List.ext_getElem?
      intro i
      rw [List.getElem?_zipIdx, List.getElem?_map, List.getElem?_zipIdx, getElem?_mapCols]
      simp [Function.comp_def]
  rw [hb]
  refine (Res.Rel.of_eq rfl).bind fun b b' _ _ e => ?_
  subst e
  exact ⟨rfl, cs, cs', j1, j2, hl1, by omega, hcut⟩

end

end Verif
