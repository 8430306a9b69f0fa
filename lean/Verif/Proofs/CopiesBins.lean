import Verif.Proofs.CopiesRows
import Verif.Proofs.Percentile
import Verif.Proofs.FirstCut

/-!
# Copies of rows: the cuts of a column

In exact arithmetic the cuts depend on which values occur and on the weight of each set of values only.
-/

namespace Verif

open scoped Verif

set_option linter.unusedSectionVars false

variable {K : Type} [Field K] [LinearOrder K] [IsStrictOrderedRing K] {m : Fmt K} [m.Exact]

theorem FX.eq_of_feq {x y : FX m} (h : (x =ᶠ y) = true) : x = y := by
  cases x <;> cases y <;> simp_all [Fl.feq, FX.feq]

/-- The values that are numbers, in their order. -/
structure NumV (m : Fmt K) where
  /-- the value -/
  val : FX m
  num : isNaN val = false

theorem NumV.ext' {a b : NumV m} (h : a.val = b.val) : a = b := by
  cases a; cases b; cases h; rfl

instance : LinearOrder (NumV m) where
  le a b := (a.val ≤ᶠ b.val) = true
  le_refl a := Fl.le_refl a.num
  le_trans _ _ _ h h' := Fl.le_trans h h'
  le_antisymm _ _ h h' := NumV.ext' (FX.eq_of_feq (Fl.feq_iff_le.2 ⟨h, h'⟩))
  le_total a b := Fl.le_total a.num b.num
  toDecidableLE a b := inferInstanceAs (Decidable ((a.val ≤ᶠ b.val) = true))

theorem NumV.le_def {a b : NumV m} : a ≤ b ↔ (a.val ≤ᶠ b.val) = true := Iff.rfl

theorem valueEmb_num : ValueEmb (m := m) NumV.val where
  le a b := by
    by_cases h : a ≤ b
    · rw [decide_eq_true h]; exact h
    · rw [decide_eq_false h]
      simpa [NumV.le_def] using h
  eq _ _ h := FX.eq_of_feq h

/-- Two strictly increasing lists with the same members are the same. -/
theorem increasing_ext {l l' : List (FX m)} (h : Increasing l) (h' : Increasing l')
    (hm : ∀ x, x ∈ l ↔ x ∈ l') : l = l' := by
  have nd : ∀ {l : List (FX m)}, Increasing l → l.Nodup := fun h => h.imp fun {a b} hab e => by
    subst e
    rw [Fl.OrdLaws.lt_irrefl] at hab
    cases hab
  refine ((List.perm_ext_iff_of_nodup (nd h) (nd h')).2 hm).eq_of_pairwise ?_ h h'
  intro a b _ _ h1 h2
  have := Fl.OrdLaws.lt_trans _ _ _ h1 h2
  rw [Fl.OrdLaws.lt_irrefl] at this
  cases this

/-- Two weighted samples with the same values and the same weight of each set of values. -/
structure SameDist {V : Type} (P P' : List (V × K)) : Prop where
  mem : ∀ v, (∃ w, (v, w) ∈ P) ↔ ∃ w, (v, w) ∈ P'
  sum : ∀ p : V → Bool, ((P.filter fun a => p a.1).map Prod.snd).sum =
    ((P'.filter fun a => p a.1).map Prod.snd).sum

theorem SameDist.total {V : Type} {P P' : List (V × K)} (h : SameDist P P') :
    (P.map Prod.snd).sum = (P'.map Prod.snd).sum := by
  simpa using h.sum fun _ => true

theorem SameDist.symm {V : Type} {P P' : List (V × K)} (h : SameDist P P') : SameDist P' P :=
  ⟨fun v => (h.mem v).symm, fun p => (h.sum p).symm⟩

theorem SameDist.of_perm {V : Type} {P P' : List (V × K)} (h : P.Perm P') : SameDist P P' :=
  ⟨fun _ => exists_congr fun _ => h.mem_iff, fun _ => ((h.filter _).map _).sum_eq⟩

theorem SameDist.isPercentile {V : Type} [LinearOrder V] {P P' : List (V × K)} (h : SameDist P P')
    {q : K} {x : V} (hx : IsPercentile P q x) : IsPercentile P' q x := by
  have hu : ∀ y, weightUpTo P' y = weightUpTo P y := fun y => (h.sum fun v => decide (v ≤ y)).symm
  refine ⟨(h.mem x).1 hx.mem, ?_, ?_⟩
  · rw [hu, ← h.total]; exact hx.reached
  · intro y hy hle
    obtain ⟨w, hw⟩ := (h.mem y.1).2 ⟨y.2, hy⟩
    rw [hu, ← h.total] at hle
    exact hx.least (y.1, w) hw hle

theorem IsPercentile.unique {V : Type} [LinearOrder V] {P : List (V × K)} {q : K} {x y : V}
    (hx : IsPercentile P q x) (hy : IsPercentile P q y) : x = y := by
  obtain ⟨w, hw⟩ := hx.mem
  obtain ⟨w', hw'⟩ := hy.mem
  exact le_antisymm (hx.least _ hw' hy.reached) (hy.least _ hw hx.reached)

theorem forall2_percentile_unique {V : Type} [LinearOrder V] {P : List (V × K)} {qs : List K}
    {xs ys : List V} (hx : List.Forall₂ (IsPercentile P) qs xs)
    (hy : List.Forall₂ (IsPercentile P) qs ys) : xs = ys := by
  induction hx generalizing ys with
  | nil => cases hy; rfl
  | cons h _ ih =>
    cases hy with
    | cons h' t' => rw [h.unique h', ih t']

/-- The values of a weighted sample of numbers. -/
theorem lift_num {P : List (FX m × K)} (hn : ∀ a ∈ P, isNaN a.1 = false) :
    ∃ N : List (NumV m × K), P = N.map fun a => (a.1.val, a.2) := by
  induction P with
  | nil => exact ⟨[], rfl⟩
  | cons a P ih =>
    obtain ⟨N, e⟩ := ih fun b hb => hn b (List.mem_cons_of_mem _ hb)
    have ha := hn a (by simp)
    clear hn ih
    subst e
    exact ⟨(⟨a.1, ha⟩, a.2) :: N, rfl⟩

/-- The percentiles of a weighted sample of numbers, infinities included. -/
theorem percentiles_exact {S : Sorter} (hS : S.Ok) (P : List (NumV m × K)) (levels : List K)
    (hw : ∀ x ∈ P, 0 ≤ x.2) (hpos : 0 < (P.map Prod.snd).sum) {c : List (FX m)}
    (hinc : levels.Pairwise (· ≤ ·)) (h01 : ∀ q ∈ levels, 0 ≤ q ∧ q < 1)
    (hc : percentiles S (P.map fun a => a.1.val) (P.map fun a => FX.fin a.2) (levels.map FX.fin) = .ok c) :
    ∃ xs : List (NumV m), c = xs.map NumV.val ∧ List.Forall₂ (IsPercentile P) levels xs := by
  have hn : ∀ a ∈ P.map fun a => a.1.val, isNaN a = false := by
    intro a ha
    obtain ⟨x, _, rfl⟩ := List.mem_map.1 ha
    exact x.1.num
  obtain ⟨cur, rest, v0, w0, tl, last, e, _, hp, hs, hl, ec⟩ := percentiles_form hS hn hc
  obtain ⟨q, qs, rfl⟩ : ∃ q qs, levels = q :: qs := by
    cases levels with
    | nil => simp at e
    | cons q qs => exact ⟨q, qs, rfl⟩
  simp only [List.map_cons, List.cons.injEq] at e
  obtain ⟨rfl, rfl⟩ := e
  have hzip : (P.map fun a => a.1.val).zip (P.map fun a => (FX.fin a.2 : FX m)) =
      P.map fun a => (a.1.val, FX.fin a.2) := by
    rw [List.zip_map', ]
  rw [hzip] at hp
  obtain ⟨all, hall, eall⟩ : ∃ all : List (NumV m × K), all.Perm P ∧
      (v0, w0) :: tl = all.map fun a => (a.1.val, (FX.fin a.2 : FX m)) := by
    have he := congrFun (congrFun (List.eq_map_comp_perm
      fun a : NumV m × K => (a.1.val, (FX.fin a.2 : FX m))) ((v0, w0) :: tl)) P
    obtain ⟨all, h1, h2⟩ := he.mpr hp
    exact ⟨all, h2, h1⟩
  have hsum : (all.map Prod.snd).sum = (P.map Prod.snd).sum := (hall.map Prod.snd).sum_eq
  have hs' : (all.map Prod.fst).Pairwise (· ≤ ·) := by
    rw [eall, List.map_map] at hs
    have := List.pairwise_map.1 hs
    exact List.pairwise_map.2 (this.imp fun h => h)
  obtain ⟨xs, hxs, hf⟩ := pctLoop_exact valueEmb_num all last hs'
    (fun p hp => hw p (hall.mem_iff.1 hp)) (by rw [hsum]; exact hpos) all [] v0 q qs [] rfl
    hinc h01 (.inl rfl)
  have hfs : fastSum (P.map fun a => (FX.fin a.2 : FX m)) = FX.fin (P.map Prod.snd).sum := by
    rw [← C46_fast_sum_finite, List.map_map]; rfl
  rw [hfs, ← hsum, eall] at ec
  simp only [List.map_nil, List.sum_nil, zero_div, List.nil_append] at hxs
  rw [FX.zero_def, hxs] at ec
  exact ⟨xs, ec, hf.imp fun _ _ h => (SameDist.of_perm hall).isPercentile h⟩

theorem binPcts_fin {nbins : Nat} (h0 : nbins ≠ 0) : (binPcts nbins : List (FX m)) =
    ((List.range nbins).map fun i : Nat => (i : K) / (nbins : K)).map FX.fin := by
  have hnb : (nbins : K) ≠ 0 := by exact_mod_cast h0
  unfold binPcts
  rw [List.map_map]
  refine List.map_congr_left fun i _ => ?_
  rw [FX.ofNat_eq, FX.ofNat_eq, FX.fin_div _ _ hnb]; rfl

/-- The values in order without repetitions. -/
theorem dedup_sorted_same {S : Sorter} (hS : S.Ok) {v v' : List (FX m)}
    (hn : ∀ a ∈ v, isNaN a = false) (hv : ∀ x, x ∈ v ↔ x ∈ v') :
    ∃ s s', sortPartialCmp S id v = .ok s ∧ sortPartialCmp S id v' = .ok s' ∧
      dedupF s = dedupF s' := by
  have hn' : ∀ a ∈ v', isNaN a = false := fun a ha => hn a ((hv a).2 ha)
  obtain ⟨s, k1, k2, k3⟩ := sortPartialCmp_spec hS (id : FX m → FX m) _ hn
  obtain ⟨s', k1', k2', k3'⟩ := sortPartialCmp_spec hS (id : FX m → FX m) _ hn'
  have hmem : ∀ (v s : List (FX m)), (∀ a ∈ v, isNaN a = false) → s.Perm v → Sorted s →
      ∀ x, x ∈ dedupF s ↔ x ∈ v := by
    intro v s hn hp hs x
    refine ⟨fun h => hp.mem_iff.1 (dedup_mem h), fun h => ?_⟩
    obtain ⟨y, hy, e⟩ := dedup_cover hs (fun a ha => hn a (hp.mem_iff.1 ha)) (hp.mem_iff.2 h)
    rw [← FX.eq_of_feq e]; exact hy
  refine ⟨s, s', k1, k1', increasing_ext (dedup_increasing k3) (dedup_increasing k3') fun x => ?_⟩
  rw [hmem v s hn k2 k3, hmem v' s' hn' k2' k3', hv]

theorem percentilesOrValue_same {S : Sorter} (hS : S.Ok) {P P' : List (FX m × K)} {nbins : Nat}
    (h : SameDist P P') (hn : ∀ a ∈ P, isNaN a.1 = false) (hw : ∀ a ∈ P, 0 ≤ a.2)
    (hw' : ∀ a ∈ P', 0 ≤ a.2) {c c' : List (FX m)}
    (hc : percentilesOrValue S (P.map Prod.fst) (P.map fun a => FX.fin a.2) (binPcts nbins) = .ok c)
    (hc' : percentilesOrValue S (P'.map Prod.fst) (P'.map fun a => FX.fin a.2) (binPcts nbins) = .ok c') :
    c' = c := by
  have hv : ∀ x, x ∈ P.map Prod.fst ↔ x ∈ P'.map Prod.fst := by
    intro x
    simp only [List.mem_map, Prod.exists, exists_and_right, exists_eq_right]
    exact h.mem x
  have hnv : ∀ a ∈ P.map Prod.fst, isNaN a = false := by
    intro a ha
    obtain ⟨x, hx, rfl⟩ := List.mem_map.1 ha
    exact hn x hx
  have hn' : ∀ a ∈ P', isNaN a.1 = false := by
    intro a ha
    exact hnv a.1 ((hv a.1).2 (List.mem_map_of_mem ha))
  have hnv' : ∀ a ∈ P'.map Prod.fst, isNaN a = false := fun a ha => hnv a ((hv a).2 ha)
  obtain ⟨s, s', k, k', e⟩ := dedup_sorted_same hS hnv hv
  unfold percentilesOrValue at hc hc'
  rw [k, Res.ok_bind] at hc
  rw [k', Res.ok_bind] at hc'
  simp only at hc hc'
  rw [← e] at hc'
  split at hc
  · next hl => rw [if_pos hl] at hc'; rw [hc] at hc'; injection hc' with hc'; exact hc'.symm
  next hl =>
  rw [if_neg hl] at hc'
  have h0 : nbins ≠ 0 := by
    rintro rfl
    obtain ⟨_, _, _, _, _, _, e0, _⟩ := percentiles_form hS hnv hc
    simp [binPcts] at e0
  have hnn : 0 ≤ (P.map Prod.snd).sum := List.sum_nonneg fun x hx => by
    obtain ⟨b, hb, rfl⟩ := List.mem_map.1 hx
    exact hw b hb
  rcases hnn.lt_or_eq with hpos | hzero
  · obtain ⟨N, rfl⟩ := lift_num hn
    obtain ⟨N', rfl⟩ := lift_num hn'
    have hN : SameDist N N' := by
      constructor
      · intro v
        have := h.mem v.val
        simp only [List.mem_map, Prod.mk.injEq, Prod.exists] at this
        constructor
        · rintro ⟨w, hm⟩
          obtain ⟨w', a, b, hm', e1, e2⟩ := this.1 ⟨w, v, w, hm, rfl, rfl⟩
          rw [NumV.ext' e1] at hm'
          exact ⟨b, hm'⟩
        · rintro ⟨w, hm⟩
          obtain ⟨w', a, b, hm', e1, e2⟩ := this.2 ⟨w, v, w, hm, rfl, rfl⟩
          rw [NumV.ext' e1] at hm'
          exact ⟨b, hm'⟩
      · intro p
        have := h.sum fun x => if hx : isNaN x = false then p ⟨x, hx⟩ else false
        simp only [List.filter_map, List.map_map] at this
        have hcomp : (((fun a : FX m × K => if hx : isNaN a.1 = false then p ⟨a.1, hx⟩ else false) ∘
            fun a : NumV m × K => (a.1.val, a.2))) = fun a : NumV m × K => p a.1 := by
          funext a
          simp [a.1.num]
        rw [hcomp] at this
        exact this
    simp only [List.map_map] at hc hc' hpos
    rw [binPcts_fin h0] at hc hc'
    have hnb : (0 : K) < nbins := by exact_mod_cast Nat.pos_of_ne_zero h0
    have hinc : (((List.range nbins).map fun i : Nat => (i : K) / (nbins : K))).Pairwise (· ≤ ·) := by
      refine List.pairwise_map.2 (List.pairwise_lt_range.imp fun {a b} hab => ?_)
      exact div_le_div_of_nonneg_right (by exact_mod_cast hab.le) hnb.le
    have h01 : ∀ q ∈ (List.range nbins).map fun i : Nat => (i : K) / (nbins : K), 0 ≤ q ∧ q < 1 := by
      intro q hq
      obtain ⟨i, hi, rfl⟩ := List.mem_map.1 hq
      refine ⟨div_nonneg (Nat.cast_nonneg _) hnb.le, (div_lt_one hnb).2 ?_⟩
      exact_mod_cast List.mem_range.1 hi
    obtain ⟨xs, rfl, hf⟩ := percentiles_exact hS N _
      (fun x hx => hw _ (List.mem_map_of_mem hx)) hpos hinc h01 hc
    have hpos' : 0 < (N'.map Prod.snd).sum := by rw [← hN.total]; exact hpos
    obtain ⟨xs', rfl, hf'⟩ := percentiles_exact hS N' _
      (fun x hx => hw' _ (List.mem_map_of_mem hx)) hpos' hinc h01 hc'
    rw [forall2_percentile_unique (hf'.imp fun _ _ h => hN.symm.isPercentile h) hf]
  · have key : ∀ (P : List (FX m × K)) (c : List (FX m)), (∀ a ∈ P, 0 ≤ a.2) →
        (∀ a ∈ P.map Prod.fst, isNaN a = false) → (P.map Prod.snd).sum = 0 →
        percentiles S (P.map Prod.fst) (P.map fun a => FX.fin a.2) (binPcts nbins) = .ok c → c = [] := by
      intro P c hw hnv hz hc
      obtain ⟨cur, rest, v0, w0, tl, last, e, _, hp, _, _, rfl⟩ := percentiles_form hS hnv hc
      have hcur : cur = FX.fin 0 := by
        cases nbins with
        | zero => exact absurd rfl h0
        | succ n =>
          simp only [binPcts, List.range_succ_eq_map, List.map_cons, List.cons.injEq] at e
          rw [← e.1, FX.ofNat_eq, FX.ofNat_eq, FX.fin_div _ _ (by exact_mod_cast Nat.succ_ne_zero n)]
          simp
      have hall : ∀ a ∈ P, a.2 = 0 := fun a ha => sum_eq_zero_all
        (fun x hx => by obtain ⟨b, hb, rfl⟩ := List.mem_map.1 hx; exact hw b hb) hz a.2
        (List.mem_map_of_mem ha)
      have hz' : ∀ x ∈ (v0, w0) :: tl, x.2 = FX.fin 0 := by
        intro x hx
        have := (List.of_mem_zip (hp.mem_iff.1 hx)).2
        obtain ⟨a, ha, e⟩ := List.mem_map.1 this
        rw [← e, hall a ha]
      have hf : fastSum (P.map fun a => (FX.fin a.2 : FX m)) = FX.fin 0 := by
        rw [← hz, ← C46_fast_sum_finite, List.map_map]; rfl
      rw [hf, hcur, pctLoop_zero_total _ _ _ _ _ hz']
    rw [key P c hw hnv hzero.symm hc, key P' c' hw' hnv' (by rw [← h.total]; exact hzero.symm) hc']

/-- What relates a column and its weights in two runs. -/
structure ColCopy (σ : Nat → Nat) (col col' : List (FX m)) (w w' : List K) : Prop where
  len : col.length = w.length
  len' : col'.length = w'.length
  lt : ∀ r' < w'.length, σ r' < w.length
  onto : ∀ r < w.length, ∃ r' < w'.length, σ r' = r
  val : ∀ r' < w'.length, col'[r']? = col[σ r']?
  sum : FibSum σ w.length w'.length (fun r => w[r]?.getD 0) (fun r => w'[r]?.getD 0)
  nonneg : ∀ x ∈ w, 0 ≤ x
  nonneg' : ∀ x ∈ w', 0 ≤ x

theorem zip_range {col : List (FX m)} {w : List K} (h : col.length = w.length) :
    col.zip w = (List.range w.length).map fun r => (col[r]?.getD FX.nan, w[r]?.getD 0) := by
  apply List.ext_getElem (by simp [h])
  intro k hk hk'
  simp only [List.length_zip, h, min_self] at hk
  have hk2 : k < col.length := by omega
  simp [hk, hk2]

theorem ColCopy.same {σ : Nat → Nat} {col col' : List (FX m)} {w w' : List K}
    (h : ColCopy σ col col' w w') (p : FX m → Bool) :
    SameDist ((col.zip w).filter fun a => p a.1) ((col'.zip w').filter fun a => p a.1) := by
  rw [zip_range h.len, zip_range h.len']
  have hv : ∀ r' < w'.length, col'[r']?.getD FX.nan = col[σ r']?.getD FX.nan := fun r' hr' => by
    rw [h.val r' hr']
  constructor
  · intro v
    simp only [List.mem_filter, List.mem_map, List.mem_range, Prod.mk.injEq]
    constructor
    · rintro ⟨x, ⟨r, hr, e, _⟩, hp⟩
      obtain ⟨r', hr', rfl⟩ := h.onto r hr
      exact ⟨_, ⟨r', hr', by rw [hv r' hr']; exact e, rfl⟩, hp⟩
    · rintro ⟨x, ⟨r', hr', e, _⟩, hp⟩
      exact ⟨_, ⟨σ r', h.lt r' hr', by rw [← hv r' hr']; exact e, rfl⟩, hp⟩
  · intro q
    simp only [List.filter_map, List.map_map, List.filter_filter]
    have ho := (Over.range h.lt).filter (p := fun r => q (col[r]?.getD FX.nan) && p (col[r]?.getD FX.nan))
      (p' := fun r => q (col'[r]?.getD FX.nan) && p (col'[r]?.getD FX.nan))
      fun r' hr' => by rw [hv r' hr']
    exact (ho.sum h.sum).symm

theorem filter_fin_snd (p : FX m → Bool) (col : List (FX m)) (w : List K) :
    (col.zip (w.map (FX.fin : K → FX m))).filter (fun x => p x.1) =
      ((col.zip w).filter fun x => p x.1).map fun a => (a.1, FX.fin a.2) := by
  rw [List.zip_map_right, List.filter_map]
  rfl

/-- The cuts of a column are the same. -/
theorem colCuts_copy {S : Sorter} (hS : S.Ok) {σ : Nat → Nat} {col col' : List (FX m)} {w w' : List K}
    (h : ColCopy σ col col' w w') {nbins : Nat} {missing : FX m} {cuts cuts' : List (FX m)}
    (hc : colCuts S col (w.map FX.fin) nbins missing = .ok cuts)
    (hc' : colCuts S col' (w'.map FX.fin) nbins missing = .ok cuts') : cuts' = cuts := by
  have hread := (colCuts_form (by simp [h.len]) hc).1
  unfold colCuts at hc hc'
  simp only [Res.bind_eq_ok] at hc hc'
  obtain ⟨kept, hk, c, hc, e⟩ := hc
  obtain ⟨kept', hk', c', hc', e'⟩ := hc'
  obtain ⟨h1, rfl⟩ := filterMissing_eq_ok.1 hk
  obtain ⟨h1', rfl⟩ := filterMissing_eq_ok.1 hk'
  injection e with e
  injection e' with e'
  rw [filter_fin_snd (fun v => !decide (IsMissing missing v))] at hc hc'
  simp only [List.map_map] at hc hc'
  have hsame := h.same fun v => !decide (IsMissing missing v)
  have := percentilesOrValue_same hS hsame ?_ ?_ ?_ hc hc'
  · rw [← e, ← e', this]
  · intro a ha
    obtain ⟨ha1, ha2⟩ := List.mem_filter.1 ha
    exact num_of_not_missing (hread _ (List.of_mem_zip ha1).1) (by simpa using ha2)
  · intro a ha
    exact h.nonneg _ (List.of_mem_zip (List.mem_of_mem_filter ha)).2
  · intro a ha
    exact h.nonneg' _ (List.of_mem_zip (List.mem_of_mem_filter ha)).2

end Verif
