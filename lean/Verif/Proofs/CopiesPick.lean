import Verif.Proofs.CopiesFit
import Verif.Props.Total

/-!
# Copies of rows: arguments of `fit`, picking of rows
-/

namespace Verif

open scoped Verif

set_option linter.unusedSectionVars false

variable {K : Type} [Field K] [LinearOrder K] [IsStrictOrderedRing K] {m32 m64 : Fmt K}
  [m32.Exact] [m64.Exact] {R : Type}

section
variable {σ : Nat → Nat} {env : Env R (FX m32) (FX m64)} {b : Booster (FX m32) (FX m64)}
  {X X' : Matrix (FX m64)} {y y' w w' : List K} {l1 l2 mds lr : K}
  {ev : Option (List (EvalSet (FX m64)))}

/-- Each entry of a matrix is in a row and a column. -/
theorem Matrix.mem_entry {T : Type} {X : Matrix T} (hX : X.Shaped) {v : T} (h : v ∈ X.data) :
    ∃ i < X.rows, ∃ j < X.cols, X.entry i j = some v := by
  obtain ⟨k, hk, e⟩ := List.getElem_of_mem h
  have hlt := hk
  rw [hX] at hlt
  have hr : 0 < X.rows := by
    rcases Nat.eq_zero_or_pos X.rows with h0 | h0
    · rw [h0] at hlt; omega
    · exact h0
  refine ⟨k % X.rows, Nat.mod_lt _ hr, k / X.rows, (Nat.div_lt_iff_lt_mul hr).2 (by rw [Nat.mul_comm]; exact hlt), ?_⟩
  unfold Matrix.entry
  rw [Nat.mul_comm, Nat.div_add_mod, List.getElem?_eq_getElem hk, e]

theorem Matrix.entry_mem {T : Type} {X : Matrix T} {i j : Nat} {v : T} (h : X.entry i j = some v) :
    v ∈ X.data := List.mem_of_getElem? h

theorem Copies.entries (h : Copies σ X X' y y' w w') (hX' : X'.Shaped) {v : FX m64}
    (hv : v ∈ X'.data) : v ∈ X.data := by
  obtain ⟨i, hi, j, hj, e⟩ := Matrix.mem_entry hX' hv
  rw [h.entry i hi j (by rw [← h.cols]; exact hj)] at e
  exact Matrix.entry_mem e

/-- The second data set is as safe as the first. -/
theorem Copies.safe (h : Copies σ X X' y y' w w') (hS : SafeArgs env b X y w l1 l2 mds lr)
    (hn : b.sampleMethod = .none) (hX' : X'.Shaped) (hy' : y'.length = X'.rows)
    (hw' : w'.length = X'.rows) (h0' : ∀ x ∈ w', 0 ≤ x) : SafeArgs env b X' y' w' l1 l2 mds lr where
  sorter := hS.sorter
  rng := hS.rng
  heap := hS.heap
  shaped := hX'
  ylen := hy'
  wlen := hw'
  nonneg := h0'
  max v hv := hS.max v (h.entries hX' hv)
  readable v hv := hS.readable v (h.entries hX' hv)
  bins := hS.bins
  minLeafWeight := hS.minLeafWeight
  l1_eq := hS.l1_eq
  l2_eq := hS.l2_eq
  mds_eq := hS.mds_eq
  lr_eq := hS.lr_eq
  l2_nonneg := hS.l2_nonneg
  positive := by
    rcases hS.positive with hp | ⟨h1, x, hx, hx0⟩
    · exact .inl hp
    refine .inr ⟨h1, ?_⟩
    by_contra hc
    have hz : ∀ z ∈ w', z = 0 := by
      intro z hz
      by_contra hne
      exact hc ⟨z, hz, lt_of_le_of_ne (h0' z hz) (Ne.symm hne)⟩
    obtain ⟨r, hr⟩ := List.mem_iff_getElem?.1 hx
    have hrl : r < X.rows := by rw [← hS.wlen]; exact (List.getElem?_eq_some_iff.1 hr).1
    have hs := h.weight r hrl
    rw [hr, Option.some.injEq] at hs
    have : ((((List.range X'.rows).filter fun r' => σ r' = r).map fun r' => w'[r']?.getD 0)).sum = 0 := by
      refine List.sum_eq_zero fun z hz' => ?_
      obtain ⟨r', _, rfl⟩ := List.mem_map.1 hz'
      cases hg : w'[r']? with
      | none => rfl
      | some v => exact hz v (List.mem_of_getElem? hg)
    rw [this] at hs
    exact hx0.ne' hs
  goss hg := by rw [hn] at hg; cases hg
  exp := hS.exp
  free := by rw [h.cols]; exact hS.free

/-- The first data set is as safe as the second. -/
theorem Copies.safe_rev (h : Copies σ X X' y y' w w') (hS : SafeArgs env b X' y' w' l1 l2 mds lr)
    (hn : b.sampleMethod = .none) (hX : X.Shaped) (hy : y.length = X.rows)
    (hw : w.length = X.rows) : SafeArgs env b X y w l1 l2 mds lr := by
  have hent : ∀ v ∈ X.data, v ∈ X'.data := by
    intro v hv
    obtain ⟨i, hi, j, hj, e⟩ := Matrix.mem_entry hX hv
    obtain ⟨r', hr', rfl⟩ := h.onto i hi
    rw [← h.entry r' hr' j hj] at e
    exact Matrix.entry_mem e
  have h0' : ∀ r' : Nat, 0 ≤ w'[r']?.getD 0 := by
    intro r'
    cases hg : w'[r']? with
    | none => exact le_refl _
    | some v => exact hS.nonneg v (List.mem_of_getElem? hg)
  exact
    { sorter := hS.sorter, rng := hS.rng, heap := hS.heap, shaped := hX, ylen := hy, wlen := hw
      nonneg := by
        intro x hx
        obtain ⟨r, hr⟩ := List.mem_iff_getElem?.1 hx
        have hrl : r < X.rows := by rw [← hw]; exact (List.getElem?_eq_some_iff.1 hr).1
        have hs := h.weight r hrl
        rw [hr, Option.some.injEq] at hs
        rw [hs]
        refine List.sum_nonneg fun z hz => ?_
        obtain ⟨r', _, rfl⟩ := List.mem_map.1 hz
        exact h0' r'
      max := fun v hv => hS.max v (hent v hv)
      readable := fun v hv => hS.readable v (hent v hv)
      bins := hS.bins, minLeafWeight := hS.minLeafWeight, l1_eq := hS.l1_eq, l2_eq := hS.l2_eq
      mds_eq := hS.mds_eq, lr_eq := hS.lr_eq, l2_nonneg := hS.l2_nonneg
      positive := by
        rcases hS.positive with hp | ⟨h1, x, hx, hx0⟩
        · exact .inl hp
        obtain ⟨r', hr'⟩ := List.mem_iff_getElem?.1 hx
        have hrl : r' < X'.rows := by rw [← hS.wlen]; exact (List.getElem?_eq_some_iff.1 hr').1
        refine .inr ⟨h1, _, List.mem_of_getElem? (h.weight _ (h.lt r' hrl)), ?_⟩
        refine lt_of_lt_of_le hx0 (List.single_le_sum ?_ x ?_)
        · intro z hz
          obtain ⟨r', _, rfl⟩ := List.mem_map.1 hz
          exact h0' r'
        · exact List.mem_map.2 ⟨r', List.mem_filter.2 ⟨List.mem_range.2 hrl, by simp⟩, by rw [hr']; rfl⟩
      goss := fun hg => by rw [hn] at hg; cases hg
      exp := hS.exp
      free := by rw [← h.cols]; exact hS.free }

theorem SafeArgs.plain (h : SafeArgs env b X y w l1 l2 mds lr) (hbase : BaseOk b y w)
    {b' : Booster (FX m32) (FX m64)} (hf : b.fit env X (y.map FX.fin) (w.map FX.fin) ev = .ok (b', .ok ())) :
    PlainFit env b X y w ev b' l1 l2 mds lr where
  sorter := h.sorter
  rng := h.rng
  shaped := h.shaped
  ylen := h.ylen
  wlen := h.wlen
  max := h.max
  minLeafWeight := h.minLeafWeight
  l1_eq := h.l1_eq
  l2_eq := h.l2_eq
  mds_eq := h.mds_eq
  lr_eq := h.lr_eq
  l2_nonneg := h.l2_nonneg
  positive := h.positive
  goss hg := (h.goss hg).1
  exp := h.exp
  base s hs := by
    obtain ⟨q, hq⟩ := hbase
    split at hs
    · next hi => rw [if_pos hi, hs] at hq; injection hq with hq; exact ⟨q, hq⟩
    · next hi => rw [if_neg hi] at hq; exact ⟨q, by rw [hs, hq]⟩
  fit := hf

theorem validateFit_fin {y w : List K} (h0 : ∀ x ∈ w, 0 ≤ x) :
    validateFit (y.map FX.fin : List (FX m64)) (w.map FX.fin) ev =
      validateFit ([] : List (FX m64)) [] ev := by
  have h1 : validateNotNanVec (y.map FX.fin : List (FX m64)) "y" = .ok () := by
    unfold validateNotNanVec
    rw [if_neg]
    simp
  have h2 : validatePositiveNotNanVec (w.map FX.fin : List (FX m64)) "sample_weight" = .ok () := by
    have he : (w.map FX.fin : List (FX m64)).filter (fun i => isNaN i || i <ᶠ 0) = [] := by
      rw [List.filter_eq_nil_iff]
      intro v hv
      obtain ⟨x, hx, rfl⟩ := List.mem_map.1 hv
      have := h0 x hx
      simp [FX.zero_def, this]
    unfold validatePositiveNotNanVec
    rw [he]
    rfl
  unfold validateFit
  rw [h1, h2]
  rfl

end

/-! ## Picking rows -/

theorem flatMap_get {α : Type} {n : Nat} (f : Nat → List α) : ∀ (c s : Nat),
    (∀ j, s ≤ j → j < s + c → (f j).length = n) → ∀ j < c, ∀ i < n,
    ((List.range' s c).flatMap f)[j * n + i]? = (f (s + j))[i]? := by
  intro c
  induction c with
  | zero => intro _ _ j hj; omega
  | succ c ih =>
    intro s hf j hj i hi
    rw [List.range'_succ, List.flatMap_cons]
    have h0 : (f s).length = n := hf s (le_refl _) (by omega)
    cases j with
    | zero =>
      rw [List.getElem?_append_left (by rw [h0]; omega)]
      simp
    | succ j =>
      rw [List.getElem?_append_right (by rw [h0]; nlinarith), h0]
      have := ih (s + 1) (fun k hk hk' => hf k (by omega) (by omega)) j (by omega) i hi
      rw [show (j + 1) * n + i - n = j * n + i by rw [Nat.succ_mul]; omega, this]
      congr 2
      omega

theorem flatMap_length {α : Type} {n : Nat} (f : Nat → List α) : ∀ (c s : Nat),
    (∀ j, s ≤ j → j < s + c → (f j).length = n) → ((List.range' s c).flatMap f).length = n * c := by
  intro c
  induction c with
  | zero => intro _ _; simp
  | succ c ih =>
    intro s hf
    rw [List.range'_succ, List.flatMap_cons, List.length_append, hf s (le_refl _) (by omega),
      ih (s + 1) (fun k hk hk' => hf k (by omega) (by omega))]
    rw [Nat.mul_succ]; omega

theorem filterMap_total {α β : Type} {f : α → Option β} {l : List α} (h : ∀ a ∈ l, ∃ b, f a = some b) :
    (l.filterMap f).length = l.length ∧ ∀ i : Nat, (l.filterMap f)[i]? = l[i]?.bind f := by
  induction l with
  | nil => simp
  | cons a l ih =>
    obtain ⟨b, hb⟩ := h a (by simp)
    obtain ⟨h1, h2⟩ := ih fun x hx => h x (by simp [hx])
    rw [List.filterMap_cons_some hb]
    refine ⟨by simp [h1], fun i => ?_⟩
    cases i with
    | zero => simp [hb]
    | succ i => simpa using h2 i

section pick
variable {D : Type} {X : Matrix D} {rows : List Nat}

theorem Matrix.entry_some {T : Type} {X : Matrix T} (hX : X.Shaped) {i j : Nat} (hi : i < X.rows)
    (hj : j < X.cols) : ∃ v, X.entry i j = some v := by
  rw [← Matrix.column_getElem? X hi]
  exact ⟨_, List.getElem?_eq_getElem (by rw [Matrix.column_length hX hj]; exact hi)⟩

theorem pickRows_col (hX : X.Shaped) (hr : ∀ r ∈ rows, r < X.rows) {j : Nat} (hj : j < X.cols) :
    (rows.filterMap fun r => X.entry r j).length = rows.length ∧
      ∀ i : Nat, (rows.filterMap fun r => X.entry r j)[i]? = rows[i]?.bind fun r => X.entry r j :=
  filterMap_total fun r h => Matrix.entry_some hX (hr r h) hj

theorem pickRows_shaped (hX : X.Shaped) (hr : ∀ r ∈ rows, r < X.rows) : (X.pickRows rows).Shaped := by
  unfold Matrix.Shaped Matrix.pickRows
  dsimp only
  rw [List.range_eq_range', flatMap_length (n := rows.length)]
  intro j _ hj
  exact (pickRows_col hX hr (by omega)).1

theorem pickRows_entry (hX : X.Shaped) (hr : ∀ r ∈ rows, r < X.rows) {i j : Nat} (hi : i < rows.length)
    (hj : j < X.cols) : (X.pickRows rows).entry i j = X.entry (rows[i]?.getD 0) j := by
  unfold Matrix.entry Matrix.pickRows
  dsimp only
  rw [List.range_eq_range', flatMap_get (n := rows.length) _ _ _ _ _ hj _ hi]
  · rw [Nat.zero_add, (pickRows_col hX hr hj).2, List.getElem?_eq_getElem hi]
    rfl
  · intro k _ hk
    exact (pickRows_col hX hr (by omega)).1

theorem pick_length {α : Type} {l : List α} (h : ∀ r ∈ rows, r < l.length) :
    (pick l rows).length = rows.length :=
  (filterMap_total fun r hr => ⟨_, List.getElem?_eq_getElem (h r hr)⟩).1

theorem pick_get {α : Type} {l : List α} (h : ∀ r ∈ rows, r < l.length) {i : Nat} (hi : i < rows.length) :
    (pick l rows)[i]? = l[rows[i]?.getD 0]? := by
  unfold pick
  rw [(filterMap_total fun r hr => ⟨_, List.getElem?_eq_getElem (h r hr)⟩).2, List.getElem?_eq_getElem hi]
  rfl

/-- The copies of a row are its occurrences in the list. -/
theorem fiber_length (rows : List Nat) (r : Nat) :
    ((List.range rows.length).filter fun i => rows[i]?.getD 0 = r).length = rows.count r := by
  have : rows.count r = ((List.range rows.length).map fun i => rows[i]?.getD 0).count r := by
    congr 1
    exact List.ext_getElem (by simp) fun k hk hk' => by simp [hk]
  rw [this, List.count, List.countP_map, List.countP_eq_length_filter]
  congr 1

theorem sum_const_of {α : Type} {l : List α} {f : α → K} {c : K} (h : ∀ a ∈ l, f a = c) :
    (l.map f).sum = l.length * c := by
  induction l with
  | nil => simp
  | cons a l ih =>
    rw [List.map_cons, List.sum_cons, h a (by simp), ih fun x hx => h x (by simp [hx])]
    push_cast [List.length_cons]
    ring

/-- Picked rows are copies if the picked weights are. -/
theorem copies_pick {y w w' : List K} (hX : X.Shaped) (hr : ∀ r ∈ rows, r < X.rows)
    (hy : y.length = X.rows) (honto : ∀ r < X.rows, r ∈ rows) {c : Nat → K}
    (hc : ∀ i < rows.length, w'[i]?.getD 0 = c (rows[i]?.getD 0))
    (hw : ∀ r < X.rows, w[r]? = some (rows.count r * c r)) :
    Copies (fun i => rows[i]?.getD 0) X (X.pickRows rows) y (pick y rows) w w' := by
  have hlt : ∀ i < rows.length, rows[i]?.getD 0 < X.rows := by
    intro i hi
    rw [List.getElem?_eq_getElem hi]
    exact hr _ (List.getElem_mem hi)
  refine ⟨rfl, hlt, ?_, ?_, ?_, ?_⟩
  · intro r h
    obtain ⟨i, hi, e⟩ := List.getElem_of_mem (honto r h)
    exact ⟨i, hi, by rw [List.getElem?_eq_getElem hi, Option.getD_some, e]⟩
  · intro i hi j hj
    exact pickRows_entry hX hr hi hj
  · intro i hi
    exact .inr (pick_get (by rw [hy]; exact hr) hi)
  · intro r h
    rw [hw r h]
    congr 1
    rw [← fiber_length]
    refine (sum_const_of fun i hi => ?_).symm
    rw [List.mem_filter, List.mem_range, decide_eq_true_eq] at hi
    rw [hc i hi.1, hi.2]

end pick

/-- The rows that are left when rows of weight zero are dropped that have the features of another row:
the data set is made of copies of them. -/
theorem copies_drop {D : Type} {X : Matrix D} {rows : List Nat} {y w : List K} (hX : X.Shaped)
    (hy : y.length = X.rows) (hw : w.length = X.rows)
    (hr : ∀ r ∈ rows, r < X.rows) (hnd : rows.Nodup)
    (hdrop : ∀ r < X.rows, r ∉ rows → w[r]? = some 0 ∧
      ∃ s ∈ rows, ∀ j < X.cols, X.entry r j = X.entry s j) :
    ∃ σ, Copies σ (X.pickRows rows) X (pick y rows) y (pick w rows) w := by
  have hex : ∀ r, ∃ s, r < X.rows → s ∈ rows ∧ (∀ j < X.cols, X.entry r j = X.entry s j) ∧
      (r ∈ rows → s = r) := by
    intro r
    by_cases h1 : r < X.rows
    · by_cases h2 : r ∈ rows
      · exact ⟨r, fun _ => ⟨h2, fun _ _ => rfl, fun _ => rfl⟩⟩
      · obtain ⟨_, s, hs, e⟩ := hdrop r h1 h2
        exact ⟨s, fun _ => ⟨hs, e, fun h => absurd h h2⟩⟩
    · exact ⟨0, fun h => absurd h h1⟩
  choose τ hτ using hex
  have hry : ∀ r ∈ rows, r < y.length := by rw [hy]; exact hr
  have hrw : ∀ r ∈ rows, r < w.length := by rw [hw]; exact hr
  have hat : ∀ r < X.rows, rows[rows.idxOf (τ r)]?.getD 0 = τ r := by
    intro r h
    rw [List.getElem?_eq_getElem (List.idxOf_lt_length_of_mem (hτ r h).1), Option.getD_some,
      List.getElem_idxOf]
  refine ⟨fun r => rows.idxOf (τ r), rfl, ?_, ?_, ?_, ?_, ?_⟩
  · intro r h
    exact List.idxOf_lt_length_of_mem (hτ r h).1
  · intro k hk
    have hk' : k < rows.length := hk
    refine ⟨rows[k], hr _ (List.getElem_mem hk'), ?_⟩
    show rows.idxOf (τ rows[k]) = k
    rw [(hτ _ (hr _ (List.getElem_mem hk'))).2.2 (List.getElem_mem hk'), hnd.idxOf_getElem]
  · intro r h j hj
    rw [pickRows_entry hX hr (List.idxOf_lt_length_of_mem (hτ r h).1) hj, hat r h]
    exact (hτ r h).2.1 j hj
  · intro r h
    by_cases hm : r ∈ rows
    · right
      rw [pick_get hry (List.idxOf_lt_length_of_mem (hτ r h).1), hat r h, (hτ r h).2.2 hm]
    · exact .inl (hdrop r h hm).1
  · intro k hk
    have hk' : k < rows.length := hk
    have hkr : rows[k] < X.rows := hr _ (List.getElem_mem hk')
    rw [pick_get hrw hk', List.getElem?_eq_getElem hk', Option.getD_some,
      List.getElem?_eq_getElem (by rw [hw]; exact hkr)]
    congr 1
    have key : ∀ l : List Nat, l.Nodup → (∀ r ∈ l, r < X.rows) →
        ((l.filter fun r' => rows.idxOf (τ r') = k).map fun r' => w[r']?.getD 0).sum =
          if rows[k] ∈ l then w[rows[k]]?.getD 0 else 0 := by
      intro l
      induction l with
      | nil => intro _ _; simp
      | cons a l ih =>
        intro hn hl
        have ih' := ih (List.nodup_cons.1 hn).2 fun r h => hl r (by simp [h])
        have ha := hl a (by simp)
        by_cases hm : a ∈ rows
        · have ht := (hτ a ha).2.2 hm
          by_cases he : rows.idxOf a = k
          · have hak : rows[k] = a := by subst he; exact List.getElem_idxOf _
            have hnl : rows[k] ∉ l := by rw [hak]; exact (List.nodup_cons.1 hn).1
            rw [List.filter_cons_of_pos (by rw [ht]; exact decide_eq_true he), List.map_cons,
              List.sum_cons, ih', if_neg hnl, if_pos (by rw [hak]; simp), hak, add_zero]
          · have hak : rows[k] ≠ a := by
              intro e
              exact he (by rw [← e, hnd.idxOf_getElem])
            rw [List.filter_cons_of_neg (by rw [ht]; simpa using he), ih']
            simp [hak]
        · have hak : rows[k] ≠ a := by
            intro e
            exact hm (e ▸ List.getElem_mem hk')
          have hz := (hdrop a ha hm).1
          rw [List.filter_cons]
          split
          · rw [List.map_cons, List.sum_cons, ih', hz]
            simp [hak]
          · rw [ih']
            simp [hak]
    rw [key _ List.nodup_range fun r h => List.mem_range.1 h, if_pos (List.mem_range.2 hkr),
      List.getElem?_eq_getElem (by rw [hw]; exact hkr)]
    rfl

theorem repeatRows_count (ks : List Nat) {r : Nat} (hr : r < ks.length) :
    (repeatRows ks).count r = ks[r]?.getD 0 := by
  unfold repeatRows
  rw [List.count_flatMap]
  have : (List.count r ∘ fun r => List.replicate (ks[r]?.getD 0) r) =
      fun r' => if r' = r then ks[r]?.getD 0 else 0 := by
    funext r'
    simp only [Function.comp, List.count_replicate]
    by_cases e : r' = r
    · simp [e]
    · simp [e]
  have hs : ∀ (c : Nat) (l : List Nat), (l.map fun r' => if r' = r then c else 0).sum = l.count r * c := by
    intro c l
    induction l with
    | nil => simp
    | cons a l ih =>
      rw [List.map_cons, List.sum_cons, ih, List.count_cons]
      by_cases e : a = r
      · simp [e]; ring
      · simp [e]
  rw [this, hs, List.count_eq_one_of_mem List.nodup_range (List.mem_range.2 hr), one_mul]

end Verif
