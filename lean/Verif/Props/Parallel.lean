import Verif.Model.Parallel
import Verif.Proofs.Path
import Verif.Proofs.Sum
import Verif.Spec.ExampleFit

/-!
# C18 The parallel flag does not change results

A schedule is complete when every task runs all of its steps, each once, in whatever interleaving.
Results are compared on success: a computation that panics or diverges for one schedule does not
succeed for any other nor sequentially.
-/

namespace Verif

open scoped Verif

variable {F D : Type} [Fl F] [Fl D] [FlCast F D]

set_option linter.unusedSectionVars false

/-- A schedule of `n` tasks with `k` steps each: task numbers below `n`, each occurring `k` times. -/
def Complete (n k : Nat) (sched : List Nat) : Prop :=
  (∀ i ∈ sched, i < n) ∧ ∀ i, i < n → sched.count i = k

/-- The steps of one task run alone. -/
def runAlone {σ : Type} (step : σ → Res σ) : Nat → σ → Res σ
  | 0, s => .ok s
  | k + 1, s => step s >>= runAlone step k

theorem runSlots_eq_ok {σ : Type} {step : Nat → σ → Res σ} (sched : List Nat) (slots out : List σ) :
    runSlots step sched slots = .ok out ↔
      (∀ i ∈ sched, i < slots.length) ∧ out.length = slots.length ∧
        ∀ i s o, slots[i]? = some s → out[i]? = some o →
          runAlone (step i) (sched.count i) s = .ok o := by
  induction sched generalizing slots with
  | nil =>
    simp only [runSlots, Res.foldM'_nil, Res.ok.injEq, List.not_mem_nil, List.count_nil, runAlone]
    constructor
    · rintro rfl
      refine ⟨by simp, rfl, ?_⟩
      intro i s o h1 h2; rw [h1] at h2; exact Option.some.inj h2
    · rintro ⟨-, hl, h⟩
      apply List.ext_getElem? fun i => ?_
      cases h1 : slots[i]? with
      | none =>
        rw [List.getElem?_eq_none_iff] at h1
        exact (List.getElem?_eq_none (by omega)).symm
      | some s =>
        have hi : i < slots.length := (List.getElem?_eq_some_iff.1 h1).1
        obtain ⟨o, ho⟩ : ∃ o, out[i]? = some o := ⟨out[i], List.getElem?_eq_getElem (by omega)⟩
        rw [ho, h i s o h1 ho]
  | cons j sched ih =>
    rw [runSlots, Res.foldM'_cons, Res.bind_eq_ok]
    constructor
    · rintro ⟨slots', h1, h2⟩
      rw [slotStep, Res.bind_eq_ok] at h1
      obtain ⟨s, hs, h1⟩ := h1
      rw [Res.bind_eq_ok] at h1
      obtain ⟨s', hs', h1⟩ := h1
      rw [idx, Res.ofOption_eq_ok] at hs
      obtain rfl := Res.ok.inj h1
      have hj : j < slots.length := (List.getElem?_eq_some_iff.1 hs).1
      obtain ⟨g1, g2, g3⟩ := (ih (slots.set j s')).1 h2
      rw [List.length_set] at g1 g2
      refine ⟨?_, g2, ?_⟩
      · intro i hi
        rcases List.mem_cons.1 hi with rfl | hi
        · exact hj
        · exact g1 i hi
      · intro i t o h3 h4
        by_cases e : j = i
        · subst e
          rw [hs] at h3; obtain rfl := Option.some.inj h3
          rw [List.count_cons_self, runAlone, hs', Res.ok_bind]
          exact g3 j s' o (by rw [List.getElem?_set_self hj]) h4
        · rw [List.count_cons_of_ne e]
          exact g3 i t o (by rw [List.getElem?_set_ne e]; exact h3) h4
    · rintro ⟨g1, g2, g3⟩
      have hj := g1 j (by simp)
      obtain ⟨s, hs⟩ : ∃ s, slots[j]? = some s := ⟨slots[j], List.getElem?_eq_getElem hj⟩
      obtain ⟨o, ho⟩ : ∃ o, out[j]? = some o := ⟨out[j], List.getElem?_eq_getElem (by omega)⟩
      have h1 := g3 j s o hs ho
      rw [List.count_cons_self, runAlone, Res.bind_eq_ok] at h1
      obtain ⟨s', hs', h1⟩ := h1
      refine ⟨slots.set j s', ?_, ?_⟩
      · rw [slotStep, idx, hs]
        simp only [Res.ofOption_some, Res.ok_bind, hs']
      · apply (ih (slots.set j s')).2
        rw [List.length_set]
        refine ⟨fun i hi => g1 i (by simp [hi]), g2, ?_⟩
        intro i t o' h3 h4
        by_cases e : j = i
        · subst e
          rw [List.getElem?_set_self hj] at h3
          obtain rfl := Option.some.inj h3
          rw [ho] at h4; obtain rfl := Option.some.inj h4
          exact h1
        · rw [List.getElem?_set_ne e] at h3
          have := g3 i t o' h3 h4
          rwa [List.count_cons_of_ne e] at this

/-- An indexed parallel map returns what the sequential one returns. -/
theorem parMap_eq_ok {α β : Type} {sched : List Nat} {f : α → Res β} {l : List α} {out : List β}
    (hs : Complete l.length 1 sched) : parMap sched f l = .ok out ↔ Res.mapM' f l = .ok out := by
  rw [parMap, Res.bind_eq_ok]
  have key : ∀ slots : List (Option β), runSlots (fun i _ => do
      let a ← idx l i
      let b ← f a
      .ok (some b)) sched (List.replicate l.length none) = .ok slots ↔
      slots.length = l.length ∧ ∀ (i : Nat) a o, l[i]? = some a → slots[i]? = some o →
        ∃ b, f a = .ok b ∧ o = some b := by
    intro slots
    rw [runSlots_eq_ok, List.length_replicate]
    constructor
    · rintro ⟨-, h2, h3⟩
      refine ⟨h2, ?_⟩
      intro i a o ha ho
      have hi : i < l.length := (List.getElem?_eq_some_iff.1 ha).1
      have := h3 i none o (by simp [hi]) ho
      rw [hs.2 i hi] at this
      simp only [runAlone, idx, ha, Res.ofOption_some, Res.ok_bind, Res.bind_eq_ok, Res.ok.injEq] at this
      obtain ⟨x, ⟨b, hb, rfl⟩, rfl⟩ := this
      exact ⟨b, hb, rfl⟩
    · rintro ⟨h2, h3⟩
      refine ⟨hs.1, h2, ?_⟩
      intro i s o h4 h5
      have hi : i < l.length := by
        have := (List.getElem?_eq_some_iff.1 h4).1; simpa using this
      obtain ⟨b, hb, rfl⟩ := h3 i l[i] o (List.getElem?_eq_getElem hi) h5
      rw [hs.2 i hi]
      simp only [runAlone, idx, List.getElem?_eq_getElem hi, Res.ofOption_some, Res.ok_bind, hb]
  constructor
  · rintro ⟨slots, h1, h2⟩
    obtain ⟨h3, h4⟩ := (key slots).1 h1
    rw [Res.mapM'_eq_ok] at h2 ⊢
    have hlen := h2.length_eq
    rw [List.forall₂_iff_get] at h2 ⊢
    refine ⟨by omega, ?_⟩
    intro i hi1 hi2
    obtain ⟨b, hb, hob⟩ := h4 i l[i] slots[i] (List.getElem?_eq_getElem _) (List.getElem?_eq_getElem (by omega))
    have h5 := h2.2 i (by omega) hi2
    simp only [List.get_eq_getElem] at h5 ⊢
    rw [hob, Res.ofOption_some] at h5
    rw [hb]; exact h5
  · intro h
    rw [Res.mapM'_eq_ok, List.forall₂_iff_get] at h
    refine ⟨out.map some, (key _).2 ⟨by simp [h.1], ?_⟩, ?_⟩
    · intro i a o ha ho
      have hi : i < l.length := (List.getElem?_eq_some_iff.1 ha).1
      have h5 := h.2 i hi (by omega)
      rw [List.getElem?_map, List.getElem?_eq_getElem (show i < out.length by omega)] at ho
      rw [List.getElem?_eq_getElem hi] at ha
      obtain rfl := Option.some.inj ha
      simp only [Option.map_some, Option.some.injEq] at ho
      exact ⟨_, h5, ho.symm⟩
    · rw [Res.mapM'_eq_ok, List.forall₂_iff_get]
      refine ⟨by simp, ?_⟩
      intro i h1 h2
      simp

theorem Tree.predictPar_eq_ok {sched : List Nat} {t : Tree F D} {data : Matrix D} {missing : D}
    {out : List D} (hs : Complete data.rows 1 sched) :
    t.predictPar sched data missing = .ok out ↔ t.predict data missing = .ok out := by
  rw [Tree.predictPar, Tree.predict, parMap_eq_ok]
  rwa [Matrix.index, List.length_range]

/-- C18, predict: every complete schedule gives the sequential result. -/
theorem C18_predict (b : Booster F D) (data : Matrix D) (sched : Tree F D → List Nat)
    (hs : ∀ t ∈ b.trees, Complete data.rows 1 (sched t)) (out : List D) :
    b.predictPar sched data = .ok out ↔ b.predict data = .ok out := by
  rw [Booster.predictPar, Booster.predict, Res.bind_eq_ok, Res.bind_eq_ok]
  have key : ∀ (ts : List (Tree F D)), (∀ t ∈ ts, Complete data.rows 1 (sched t)) →
      ∀ (acc : List D), (Res.foldM' (fun (acc : List D) (t : Tree F D) => do
          let p ← t.predictPar (sched t) data b.missing
          .ok (addPreds acc p)) acc ts = .ok out ↔
        Res.foldM' (fun (acc : List D) (t : Tree F D) => do
          let p ← t.predict data b.missing
          .ok (addPreds acc p)) acc ts = .ok out) := by
    intro ts
    induction ts with
    | nil => intro _ acc; rfl
    | cons t ts ih =>
      intro h acc
      rw [Res.foldM'_cons, Res.foldM'_cons, Res.bind_eq_ok, Res.bind_eq_ok]
      apply exists_congr; intro acc'
      rw [ih (fun t ht => h t (by simp [ht])), Res.bind_eq_ok, Res.bind_eq_ok]
      apply and_congr_left; intro _
      apply exists_congr; intro p
      rw [Tree.predictPar_eq_ok (h t (by simp))]
  apply exists_congr; intro ts
  apply and_congr_right; intro hts
  apply key
  intro t ht
  apply hs
  unfold Booster.predictionTrees at hts
  simp only at hts
  split at hts
  · obtain rfl := Res.ok.inj hts
    exact List.mem_of_mem_take ht
  · cases hts

/-- C18, predict_leaf_indices. -/
theorem C18_leaf_indices (b : Booster F D) (data : Matrix D) (sched : Tree F D → List Nat)
    (hs : ∀ t ∈ b.trees, Complete data.rows 1 (sched t)) (out : List Nat) :
    b.predictLeafIndicesPar sched data = .ok out ↔ b.predictLeafIndices data = .ok out := by
  rw [Booster.predictLeafIndicesPar, Booster.predictLeafIndices, Res.bind_eq_ok, Res.bind_eq_ok]
  apply exists_congr; intro ts
  apply and_congr_right; intro hts
  rw [Res.bind_eq_ok, Res.bind_eq_ok]
  apply exists_congr; intro ls
  apply and_congr_left; intro h0; clear h0
  rw [Res.mapM'_eq_ok, Res.mapM'_eq_ok]
  have hmem : ∀ t ∈ ts, t ∈ b.trees := by
    intro t ht
    unfold Booster.predictionTrees at hts
    simp only at hts
    split at hts
    · obtain rfl := Res.ok.inj hts
      exact List.mem_of_mem_take ht
    · cases hts
  clear hts
  induction ts generalizing ls with
  | nil => simp
  | cons t ts ih =>
    cases ls with
    | nil => simp
    | cons l ls =>
      have ih' := ih ls fun t ht => hmem t (List.mem_cons_of_mem _ ht)
      rw [List.forall₂_cons, List.forall₂_cons]
      refine and_congr ?_ ih'
      rw [parMap_eq_ok (by rw [Matrix.index, List.length_range]; exact hs t (hmem t (by simp))),
        Tree.predictLeafIndices]

/-! ### Contributions -/

theorem runAlone_alone {b : Booster F D} {ts : List (Tree F D)} {ws : List (List D)}
    {m : ContributionsMethod} (h1 : m ≠ .average) (h2 : m ≠ .probabilityChange) {data : Matrix D}
    {row : Nat} {r : List D} (hr : data.getRow row = .ok r) (c : List D) (acc : D) (k j : Nat)
    (hk : j + k = ts.length) (o : ContribTask D) :
    runAlone (contribStep b ts ws m data row) k { done := j, chunk := c, acc } = .ok o ↔
      Res.foldM' (fun c t => rowPredFn m t r c b.missing) c (ts.drop j) = .ok o.chunk ∧
        o = { done := ts.length, chunk := o.chunk, acc } := by
  induction k generalizing j c with
  | zero =>
    rw [List.drop_eq_nil_of_le (by omega)]
    simp only [runAlone, Res.foldM'_nil, Res.ok.injEq]
    constructor
    · rintro rfl; simp; omega
    · rintro ⟨rfl, e⟩
      rw [e]; simp; omega
  | succ k ih =>
    have hj : j < ts.length := by omega
    rw [List.drop_eq_getElem_cons hj, Res.foldM'_cons, runAlone, Res.bind_eq_ok]
    have hstep : ∀ s : ContribTask D,
        contribStep b ts ws m data row { done := j, chunk := c, acc } = .ok s ↔
        ∃ c', rowPredFn m ts[j] r c b.missing = .ok c' ∧ s = { done := j + 1, chunk := c', acc } := by
      intro s
      rw [contribStep]
      simp only [idx, List.getElem?_eq_getElem hj, Res.ofOption_some, Res.ok_bind, hr]
      cases m with
      | average => exact absurd rfl h1
      | probabilityChange => exact absurd rfl h2
      | _ =>
        simp only [Res.bind_eq_ok, Res.ok.injEq]
        constructor
        · rintro ⟨c', h, rfl⟩; exact ⟨c', h, rfl⟩
        · rintro ⟨c', h, rfl⟩; exact ⟨c', h, rfl⟩
    constructor
    · rintro ⟨s, hs, h⟩
      obtain ⟨c', hc', rfl⟩ := (hstep s).1 hs
      rw [hc', Res.ok_bind]; exact (ih c' (j + 1) (by omega)).1 h
    · rintro ⟨h, e⟩
      rw [Res.bind_eq_ok] at h
      obtain ⟨c', hc', h⟩ := h
      exact ⟨_, (hstep _).2 ⟨c', hc', rfl⟩, (ih c' (j + 1) (by omega)).2 ⟨h, e⟩⟩

theorem runAlone_average {b : Booster F D} {ts : List (Tree F D)} {ws : List (List D)}
    {data : Matrix D} (hw : ws.length = ts.length)
    {row : Nat} {r : List D} (hr : data.getRow row = .ok r) (c : List D) (acc : D) (k j : Nat)
    (hk : j + k = ts.length) (o : ContribTask D) :
    runAlone (contribStep b ts ws .average data row) k { done := j, chunk := c, acc } = .ok o ↔
      Res.foldM' (fun c (tw : Tree F D × List D) => tw.1.contribAverage r c tw.2 b.missing) c
        ((ts.zip ws).drop j) = .ok o.chunk ∧ o = { done := ts.length, chunk := o.chunk, acc } := by
  have hz : (ts.zip ws).length = ts.length := by simp [hw]
  induction k generalizing j c with
  | zero =>
    rw [List.drop_eq_nil_of_le (by omega)]
    simp only [runAlone, Res.foldM'_nil, Res.ok.injEq]
    constructor
    · rintro rfl; simp; omega
    · rintro ⟨rfl, e⟩
      rw [e]; simp; omega
  | succ k ih =>
    have hj : j < ts.length := by omega
    rw [List.drop_eq_getElem_cons (by omega), Res.foldM'_cons, runAlone, Res.bind_eq_ok,
      List.getElem_zip]
    have hstep : ∀ s : ContribTask D,
        contribStep b ts ws .average data row { done := j, chunk := c, acc } = .ok s ↔
        ∃ c', ts[j].contribAverage r c (ws[j]'(by omega)) b.missing = .ok c' ∧
          s = { done := j + 1, chunk := c', acc } := by
      intro s
      rw [contribStep]
      simp only [idx, List.getElem?_eq_getElem hj, List.getElem?_eq_getElem (show j < ws.length by omega),
        Res.ofOption_some, Res.ok_bind, hr, Res.bind_eq_ok, Res.ok.injEq]
      constructor
      · rintro ⟨c', h, rfl⟩; exact ⟨c', h, rfl⟩
      · rintro ⟨c', h, rfl⟩; exact ⟨c', h, rfl⟩
    constructor
    · rintro ⟨s, hs, h⟩
      obtain ⟨c', hc', rfl⟩ := (hstep s).1 hs
      rw [hc', Res.ok_bind]; exact (ih c' (j + 1) (by omega)).1 h
    · rintro ⟨h, e⟩
      rw [Res.bind_eq_ok] at h
      obtain ⟨c', hc', h⟩ := h
      exact ⟨_, (hstep _).2 ⟨c', hc', rfl⟩, (ih c' (j + 1) (by omega)).2 ⟨h, e⟩⟩

theorem runAlone_prob {b : Booster F D} {ts : List (Tree F D)} {ws : List (List D)}
    {data : Matrix D} {row : Nat} {r : List D} (hr : data.getRow row = .ok r) (c : List D) (acc : D)
    (k j : Nat) (hk : j + k = ts.length) (o : ContribTask D) :
    runAlone (contribStep b ts ws .probabilityChange data row) k { done := j, chunk := c, acc } = .ok o ↔
      Res.foldM' (fun (s : List D × D) (t : Tree F D) => t.contribProb r s.1 b.missing s.2) (c, acc)
        (ts.drop j) = .ok (o.chunk, o.acc) ∧ o.done = ts.length := by
  induction k generalizing j c acc with
  | zero =>
    rw [List.drop_eq_nil_of_le (by omega)]
    simp only [runAlone, Res.foldM'_nil, Res.ok.injEq, Prod.mk.injEq]
    constructor
    · rintro rfl; simp; omega
    · rintro ⟨⟨rfl, rfl⟩, e⟩
      obtain ⟨_, _, _⟩ := o
      simp at e ⊢; omega
  | succ k ih =>
    have hj : j < ts.length := by omega
    rw [List.drop_eq_getElem_cons hj, Res.foldM'_cons, runAlone, Res.bind_eq_ok]
    have hstep : ∀ s : ContribTask D,
        contribStep b ts ws .probabilityChange data row { done := j, chunk := c, acc } = .ok s ↔
        ∃ p, ts[j].contribProb r c b.missing acc = .ok p ∧
          s = { done := j + 1, chunk := p.1, acc := p.2 } := by
      intro s
      rw [contribStep]
      simp only [idx, List.getElem?_eq_getElem hj, Res.ofOption_some, Res.ok_bind, hr, Res.bind_eq_ok,
        Res.ok.injEq]
      constructor
      · rintro ⟨c', h, rfl⟩; exact ⟨c', h, rfl⟩
      · rintro ⟨c', h, rfl⟩; exact ⟨c', h, rfl⟩
    constructor
    · rintro ⟨s, hs, h⟩
      obtain ⟨p, hc', rfl⟩ := (hstep s).1 hs
      rw [ih _ _ (j + 1) (by omega)] at h
      rw [hc', Res.ok_bind]; exact h
    · rintro ⟨h, e⟩
      rw [Res.bind_eq_ok] at h
      obtain ⟨p, hc', h⟩ := h
      exact ⟨_, (hstep _).2 ⟨p, hc', rfl⟩, (ih _ _ (j + 1) (by omega)).2 ⟨h, e⟩⟩

/-- Rows computed by interleaved tasks are the rows computed one after the other. -/
theorem rows_par {σ : Type} {step : Nat → σ → Res σ} {n k : Nat} {sched : List Nat} {s0 : σ}
    {g : σ → List D} {f : Nat → Res (List D)} (hs : Complete n k sched)
    (h1 : ∀ i < n, ∀ o, runAlone (step i) k s0 = .ok o → f i = .ok (g o))
    (h2 : ∀ i < n, ∀ c, f i = .ok c → ∃ o, runAlone (step i) k s0 = .ok o ∧ g o = c)
    (out : List (List D)) :
    (∃ slots, runSlots step sched (List.replicate n s0) = .ok slots ∧ slots.map g = out) ↔
      Res.mapM' f (List.range n) = .ok out := by
  rw [Res.mapM'_eq_ok]
  constructor
  · rintro ⟨slots, hr, rfl⟩
    rw [runSlots_eq_ok, List.length_replicate] at hr
    obtain ⟨-, hl, h3⟩ := hr
    rw [List.forall₂_iff_get]
    refine ⟨by simp [hl], ?_⟩
    intro i hi1 hi2
    have hi : i < n := by simpa using hi1
    have := h3 i s0 slots[i] (by simp [hi]) (List.getElem?_eq_getElem (by omega))
    rw [hs.2 i hi] at this
    have := h1 i hi _ this
    simpa using this
  · intro h
    rw [List.forall₂_iff_get] at h
    have hl : out.length = n := by simpa using h.1.symm
    have h3 : ∀ i : Fin n, ∃ o, runAlone (step i) k s0 = .ok o ∧ g o = out[i.1]'(by omega) := by
      intro i
      have := h.2 i.1 (by simp) (by omega)
      simp only [List.get_eq_getElem, List.getElem_range] at this
      exact h2 i.1 i.2 _ this
    choose o ho1 ho2 using h3
    refine ⟨List.ofFn o, ?_, ?_⟩
    · rw [runSlots_eq_ok, List.length_replicate]
      refine ⟨hs.1, by simp, ?_⟩
      intro i s o' h4 h5
      have hi : i < n := by have := (List.getElem?_eq_some_iff.1 h4).1; simpa using this
      rw [hs.2 i hi]
      simp only [List.getElem?_replicate, hi, if_true, Option.some.injEq] at h4
      subst h4
      simp only [List.getElem?_ofFn, hi, dite_true, Option.some.injEq] at h5
      subst h5
      exact ho1 ⟨i, hi⟩
    · apply List.ext_getElem (by simp [hl])
      intro i h4 h5
      simp only [List.getElem_map, List.getElem_ofFn]
      exact ho2 ⟨i, by omega⟩

/-- C18, predict_contributions: for every method, every interleaving of the row tasks gives the
sequential result. -/
theorem C18_contributions (b : Booster F D) (data : Matrix D) (m : ContributionsMethod)
    (ts : List (Tree F D)) (hts : b.predictionTrees = .ok ts) (wsched sched : List Nat)
    (hw : Complete ts.length 1 wsched) (hs : Complete data.rows ts.length sched)
    (out : List (List D)) :
    b.contribRowsPar wsched sched data m = .ok out ↔ b.contribRows data m = .ok out := by
  have hrow : ∀ i, i < data.rows → ∃ r, data.getRow i = .ok r := by
    intro i hi
    rw [Matrix.getRow, if_neg (by omega)]; exact ⟨_, rfl⟩
  by_cases h1 : m = .average
  · subst h1
    simp only [Booster.contribRowsPar, Booster.contribRows, hts, Res.ok_bind]
    rw [if_neg (by simp), if_pos trivial, Res.bind_eq_ok, Res.bind_eq_ok]
    apply exists_congr; intro ws
    rw [parMap_eq_ok hw]
    apply and_congr_right; intro hws
    have hwl : ws.length = ts.length := ((Res.mapM'_eq_ok.1 hws).length_eq).symm
    rw [Res.bind_eq_ok]
    simp only [Res.ok.injEq, Matrix.index]
    rw [if_neg (by simp)]
    apply rows_par hs
    · intro i hi o ho
      obtain ⟨r, hr⟩ := hrow i hi
      rw [runAlone_average hwl hr _ _ _ 0 (by omega)] at ho
      rw [contribsRowAverage, hr, Res.ok_bind]; exact ho.1
    · intro i hi c hc
      obtain ⟨r, hr⟩ := hrow i hi
      rw [contribsRowAverage, hr, Res.ok_bind] at hc
      exact ⟨_, (runAlone_average hwl hr _ _ _ 0 (by omega)
        { done := ts.length, chunk := c, acc := b.baseScore }).2 ⟨hc, rfl⟩, rfl⟩
  by_cases h2 : m = .probabilityChange
  · subst h2
    simp only [Booster.contribRowsPar, Booster.contribRows]
    cases hobj : b.objectiveType with
    | squaredLoss => simp
    | logLoss =>
      simp only [hts, Res.ok_bind]
      rw [if_neg (by simp), if_neg (by simp), Res.bind_eq_ok]
      simp only [Res.ok.injEq, Matrix.index]
      apply rows_par hs
      · intro i hi o ho
        obtain ⟨r, hr⟩ := hrow i hi
        rw [runAlone_prob hr _ _ _ 0 (by omega)] at ho
        rw [contribsRowProb, hr, Res.ok_bind, Res.bind_eq_ok]
        exact ⟨_, ho.1, rfl⟩
      · intro i hi c hc
        obtain ⟨r, hr⟩ := hrow i hi
        rw [contribsRowProb, hr, Res.ok_bind, Res.bind_eq_ok] at hc
        obtain ⟨⟨c', acc⟩, hc, e⟩ := hc
        obtain rfl := Res.ok.inj e
        exact ⟨{ done := ts.length, chunk := c', acc }, (runAlone_prob hr _ _ _ 0 (by omega) _).2
          ⟨hc, rfl⟩, rfl⟩
  · rw [contribRows_alone _ _ h1 h2]
    simp only [Booster.contribRowsPar, hts, Res.ok_bind]
    rw [if_neg (by simp [h2]), if_neg h1, if_neg h2, Res.bind_eq_ok]
    simp only [Res.ok.injEq, Matrix.index]
    apply rows_par hs
    · intro i hi o ho
      obtain ⟨r, hr⟩ := hrow i hi
      rw [runAlone_alone h1 h2 hr _ _ _ 0 (by omega)] at ho
      rw [contribsRowAlone, hr, Res.ok_bind]; exact ho.1
    · intro i hi c hc
      obtain ⟨r, hr⟩ := hrow i hi
      rw [contribsRowAlone, hr, Res.ok_bind] at hc
      exact ⟨_, (runAlone_alone h1 h2 hr _ _ _ 0 (by omega)
        { done := ts.length, chunk := c, acc := b.baseScore }).2 ⟨hc, rfl⟩, rfl⟩

/-! ### Histograms and partial dependence -/

theorem mapM'_append {α β : Type} (f : α → Res β) (l l' : List α) :
    Res.mapM' f (l ++ l') = (do
      let x ← Res.mapM' f l
      let y ← Res.mapM' f l'
      .ok (x ++ y)) := by
  induction l with
  | nil => simp only [List.nil_append, Res.mapM'_nil, Res.ok_bind]; cases Res.mapM' f l' <;> rfl
  | cons a l ih =>
    rw [List.cons_append, Res.mapM'_cons, Res.mapM'_cons, ih]
    cases f a with
    | ok b =>
      simp only [Res.ok_bind]
      cases Res.mapM' f l with
      | ok x => cases Res.mapM' f l' <;> rfl
      | panic => rfl
      | diverge => rfl
    | panic => rfl
    | diverge => rfl

theorem SplitTree.flatMap_eq {α β : Type} (f : α → Res (List β)) (t : SplitTree α) :
    t.flatMap f = (do
      let r ← Res.mapM' f t.items
      .ok r.flatten) := by
  induction t with
  | leaf l => rfl
  | node a b iha ihb =>
    rw [SplitTree.flatMap, SplitTree.items, iha, ihb, mapM'_append]
    cases Res.mapM' f a.items with
    | ok x =>
      cases Res.mapM' f b.items with
      | ok y => simp only [Res.ok_bind, List.flatten_append]
      | panic => rfl
      | diverge => rfl
    | panic => rfl
    | diverge => rfl

/-- C18, histogram construction: any division of the columns gives the sequential histograms. -/
theorem C18_histogram (tree : SplitTree Nat) (data : Matrix Nat) (cuts : JaggedMatrix D)
    (grad hess : List F) (index colIndex : List Nat) (sort : Bool) (ht : tree.items = colIndex) :
    histogramMatrixPar tree data cuts grad hess index colIndex sort =
      histogramMatrix data cuts grad hess index colIndex sort := by
  subst ht
  rw [histogramMatrixPar, histogramMatrix]
  simp only [SplitTree.flatMap_eq, Res.bind_assoc', Res.ok_bind]

theorem SplitTree.sum_eq [Fl.AddLaws D] (t : SplitTree D) : t.sum = t.items.foldl (· + ·) 0 := by
  induction t with
  | leaf l => rfl
  | node a b iha ihb =>
    rw [SplitTree.sum, SplitTree.items, iha, ihb, List.foldl_append, foldl_add_eq_sum,
      foldl_add_eq_sum, foldl_add_eq_sum]
    simp only [_root_.Verif.Fl.AddLaws.zero_add]

/-- C18, partial dependence: with associative addition any division of the trees gives the sequential
value. -/
theorem C18_partial_dependence [Fl.AddLaws D] (b : Booster F D) (divide : List D → SplitTree D)
    (hd : ∀ l, (divide l).items = l) (feature : Nat) (value : D) :
    b.valuePartialDependencePar divide feature value = b.valuePartialDependence feature value := by
  rw [Booster.valuePartialDependencePar, Booster.valuePartialDependence]
  simp only [SplitTree.sum_eq, hd]

/-! ### Examples -/

example : Complete 3 2 [2, 0, 1, 0, 2, 1] := by
  refine ⟨by decide, ?_⟩
  intro i hi
  interval_cases i <;> decide

example : (SplitTree.node (.leaf [0, 1]) (.node (.leaf [2]) (.leaf []))).items = [0, 1, 2] := rfl

end Verif
