import Verif.Proofs.Route
import Verif.Spec.ExampleModel
import Mathlib.Tactic.IntervalCases

/-!
# C17, C19, C47 Prediction row by row, prefix of the trees, leaf indices

All theorems hold for any arithmetic.
-/

namespace Verif

open scoped Verif

variable {F D : Type} [Fl D]

/-- The number of trees in use: `prediction_iteration` if set, otherwise all. -/
def Booster.used (b : Booster F D) : Nat :=
  match b.predictionIteration with
  | some n => n
  | none => b.trees.length

omit [Fl D] in
theorem predictionTrees_eq_ok {b : Booster F D} {ts : List (Tree F D)} :
    b.predictionTrees = .ok ts ↔ b.used ≤ b.trees.length ∧ ts = b.trees.take b.used := by
  have hn : b.predictionIteration.getD b.trees.length = b.used := by
    unfold Booster.used; cases b.predictionIteration <;> rfl
  simp only [Booster.predictionTrees, hn]
  split
  · next h => simp [h, eq_comm]
  · next h => simp [h]

/-- C19.  `predict` succeeds with `out` iff the number of trees in use exists, and `out` holds for each
row the base score to which the leaf values of the first `used` trees are added in order. -/
theorem C19_prediction_iteration [FlCast F D] (b : Booster F D) (data : Matrix D) (out : List D) :
    b.predict data = .ok out ↔
      b.used ≤ b.trees.length ∧ out.length = data.rows ∧
      ∀ (i : Nat) (v : D), out[i]? = some v →
        PredictsRow b.baseScore (b.trees.take b.used) (data.entry i) b.missing v := by
  simp only [Booster.predict, Res.bind_eq_ok, predictionTrees_eq_ok]
  constructor
  · rintro ⟨ts, ⟨h1, rfl⟩, h⟩
    rw [foldPreds_eq_ok _ _ _ (by simp)] at h
    refine ⟨h1, h.1, fun i v hv => h.2 i _ v ?_ hv⟩
    rw [List.getElem?_replicate, if_pos]
    have := (List.getElem?_eq_some_iff.1 hv).1
    omega
  · rintro ⟨h1, h2, h3⟩
    refine ⟨_, ⟨h1, rfl⟩, ?_⟩
    rw [foldPreds_eq_ok _ _ _ (by simp)]
    refine ⟨h2, fun i a o ha ho => ?_⟩
    rw [List.getElem?_replicate] at ha
    split at ha <;> cases ha
    exact h3 i o ho

/-- C19.  Setting `prediction_iteration` to `n` gives the predictions of the model cut after `n`
trees; without it all trees are used. -/
theorem C19_prefix [FlCast F D] (b : Booster F D) (data : Matrix D) (n : Nat)
    (hn : n ≤ b.trees.length) :
    ({ b with predictionIteration := some n }).predict data =
      ({ b with predictionIteration := none, trees := b.trees.take n }).predict data := by
  simp [Booster.predict, Booster.predictionTrees, hn, List.take_take]

/-- C19.  Asking for more trees than there are is a panic. -/
theorem C19_too_many [FlCast F D] (b : Booster F D) (data : Matrix D) (n : Nat)
    (hp : b.predictionIteration = some n) (hn : b.trees.length < n) : b.predict data = .panic := by
  simp [Booster.predict, Booster.predictionTrees, hp, Nat.not_le.2 hn]

/-- C17.  The rows of `data'` are rows of `data`, row `i` being row `σ i` (in any order, dropped,
repeated).  Then the predictions of `data'` are the predictions of `data`, in the order `σ`. -/
theorem C17_row_selection [FlCast F D] (b : Booster F D) (data data' : Matrix D) (σ : Nat → Nat)
    (hσ : ∀ i, i < data'.rows → σ i < data.rows ∧ ∀ f, data'.entry i f = data.entry (σ i) f)
    (out : List D) (h : b.predict data = .ok out) :
    ∃ out', b.predict data' = .ok out' ∧ out'.length = data'.rows ∧
      ∀ i, i < data'.rows → out'[i]? = out[σ i]? := by
  rw [C19_prediction_iteration] at h
  obtain ⟨h1, h2, h3⟩ := h
  have hget : ∀ i, i < data'.rows → ∃ v, out[σ i]? = some v := fun i hi =>
    ⟨_, List.getElem?_eq_getElem (by have := (hσ i hi).1; omega)⟩
  let out' : List D := (List.range data'.rows).map fun i => (out[σ i]?).getD 0
  have hout : ∀ i, i < data'.rows → out'[i]? = out[σ i]? := by
    intro i hi
    obtain ⟨v, hv⟩ := hget i hi
    simp [out', hi, hv]
  refine ⟨out', ?_, by simp [out'], hout⟩
  rw [C19_prediction_iteration]
  refine ⟨h1, by simp [out'], fun i v hv => ?_⟩
  have hi : i < data'.rows := by
    have := (List.getElem?_eq_some_iff.1 hv).1
    simpa [out'] using this
  rw [hout i hi] at hv
  have := h3 _ _ hv
  have he : data'.entry i = data.entry (σ i) := funext (hσ i hi).2
  rw [he]; exact this

/-- C17.  Two matrices that agree in one row give the same prediction for that row, whatever their
other rows are. -/
theorem C17_row_independence [FlCast F D] (b : Booster F D) (data data' : Matrix D) (i j : Nat)
    (out out' : List D) (h : b.predict data = .ok out) (h' : b.predict data' = .ok out')
    (hi : i < data.rows) (hj : j < data'.rows) (hrow : ∀ f, data.entry i f = data'.entry j f) :
    out[i]? = out'[j]? := by
  rw [C19_prediction_iteration] at h h'
  have hv := List.getElem?_eq_getElem (h.2.1.symm ▸ hi : i < out.length)
  have hv' := List.getElem?_eq_getElem (h'.2.1.symm ▸ hj : j < out'.length)
  obtain ⟨ls, hl, e⟩ := h.2.2 i _ hv
  obtain ⟨ls', hl', e'⟩ := h'.2.2 j _ hv'
  have he : data.entry i = data'.entry j := funext hrow
  rw [he] at hl
  rw [hv, hv', e, e', hl.unique hl']

/-- C47.  `predict_leaf_indices` lists, tree by tree, the number of the leaf that each row reaches in
each tree in use. -/
theorem C47_leaf_indices (b : Booster F D) (data : Matrix D) (out : List Nat) :
    b.predictLeafIndices data = .ok out ↔
      b.used ≤ b.trees.length ∧ out.length = b.used * data.rows ∧
      ∀ (k i : Nat) (t : Tree F D), k < b.used → b.trees[k]? = some t → i < data.rows →
        ∃ l, Route t.nodes (data.entry i) b.missing 0 l ∧ out[k * data.rows + i]? = some l.num := by
  suffices H : ∀ (ts : List (Tree F D)) (out : List Nat),
      (Res.mapM' (fun t => t.predictLeafIndices data b.missing) ts >>= fun ls =>
        (Res.ok ls.flatten : Res (List Nat))) = .ok out ↔
      out.length = ts.length * data.rows ∧
      ∀ (k i : Nat) (t : Tree F D), ts[k]? = some t → i < data.rows →
        ∃ l, Route t.nodes (data.entry i) b.missing 0 l ∧ out[k * data.rows + i]? = some l.num by
    rw [Booster.predictLeafIndices, Res.bind_eq_ok]
    simp only [predictionTrees_eq_ok]
    constructor
    · rintro ⟨ts, ⟨h1, rfl⟩, h⟩
      rw [H] at h
      simp only [List.length_take, Nat.min_eq_left h1] at h
      refine ⟨h1, h.1, fun k i t hk ht hi => h.2 k i t ?_ hi⟩
      rwa [List.getElem?_take_of_lt hk]
    · rintro ⟨h1, h2, h3⟩
      refine ⟨_, ⟨h1, rfl⟩, ?_⟩
      rw [H]
      simp only [List.length_take, Nat.min_eq_left h1]
      refine ⟨h2, fun k i t ht hi => ?_⟩
      have hk : k < b.used := by
        have := (List.getElem?_eq_some_iff.1 ht).1
        rw [List.length_take] at this; omega
      rw [List.getElem?_take_of_lt hk] at ht
      exact h3 k i t hk ht hi
  intro ts
  induction ts with
  | nil => intro out; simp [eq_comm]
  | cons t ts ih =>
    intro out
    have expand : (Res.mapM' (fun t => t.predictLeafIndices data b.missing) (t :: ts) >>= fun ls =>
        (Res.ok ls.flatten : Res (List Nat))) = .ok out ↔
        ∃ a r, t.predictLeafIndices data b.missing = .ok a ∧
          (Res.mapM' (fun t => t.predictLeafIndices data b.missing) ts >>= fun ls =>
            (Res.ok ls.flatten : Res (List Nat))) = .ok r ∧ out = a ++ r := by
      simp only [Res.mapM'_cons, Res.bind_eq_ok, Res.ok.injEq]
      constructor
      · rintro ⟨ls, ⟨a, ha, bs, hbs, rfl⟩, rfl⟩
        exact ⟨a, bs.flatten, ha, ⟨bs, hbs, rfl⟩, by simp⟩
      · rintro ⟨a, r, ha, ⟨bs, hbs, rfl⟩, rfl⟩
        exact ⟨a :: bs, ⟨a, ha, bs, hbs, rfl⟩, by simp⟩
    rw [expand]
    constructor
    · rintro ⟨a, r, ha, hr, rfl⟩
      rw [ih] at hr
      rw [Tree.predictLeafIndices_eq_ok] at ha
      refine ⟨by rw [List.length_append, ha.1, hr.1, List.length_cons, Nat.succ_mul, Nat.add_comm], fun k i u hu hi => ?_⟩
      cases k with
      | zero =>
        simp only [List.getElem?_cons_zero, Option.some.injEq] at hu; subst hu
        obtain ⟨l, hl, e⟩ := ha.2 i _ (List.getElem?_eq_getElem (by omega))
        refine ⟨l, hl, ?_⟩
        rw [Nat.zero_mul, Nat.zero_add, List.getElem?_append_left (by omega),
          List.getElem?_eq_getElem (by omega), e]
      | succ k =>
        obtain ⟨l, hl, e⟩ := hr.2 k i u (by simpa using hu) hi
        refine ⟨l, hl, ?_⟩
        rw [List.getElem?_append_right (by rw [ha.1, Nat.succ_mul]; omega), ha.1, ← e]
        congr 1; rw [Nat.succ_mul]; omega
    · rintro ⟨h1, h2⟩
      have hex : ∃ a, t.predictLeafIndices data b.missing = .ok a := by
        refine Res.mapM'_exists fun i hi => ?_
        rw [Matrix.index, List.mem_range] at hi
        obtain ⟨l, hl, -⟩ := h2 0 i t (by simp) hi
        exact ⟨l.num, by rw [predictLeaf_iff.2 hl]; rfl⟩
      obtain ⟨a, ha⟩ := hex
      have ha' := Tree.predictLeafIndices_eq_ok.1 ha
      have hlen : data.rows ≤ out.length := by
        rw [h1, List.length_cons, Nat.succ_mul]; omega
      have hout : out = a ++ out.drop data.rows := by
        conv_lhs => rw [← List.take_append_drop data.rows out]
        congr 1
        refine List.ext_getElem (by simp [ha'.1, hlen]) fun i hi hi' => ?_
        have hi2 : i < data.rows := by omega
        obtain ⟨l, hl, e⟩ := h2 0 i t (by simp) hi2
        obtain ⟨l', hl', e'⟩ := ha'.2 i _ (List.getElem?_eq_getElem hi')
        rw [Nat.zero_mul, Nat.zero_add, List.getElem?_eq_getElem (by omega)] at e
        rw [List.getElem_take, e', hl'.unique hl]
        exact Option.some.inj e
      refine ⟨a, out.drop data.rows, ha, ?_, hout⟩
      rw [ih]
      refine ⟨by rw [List.length_drop, h1, List.length_cons, Nat.succ_mul]; omega, fun k i u hu hi => ?_⟩
      obtain ⟨l, hl, e⟩ := h2 (k + 1) i u (by simpa using hu) hi
      refine ⟨l, hl, ?_⟩
      rw [List.getElem?_drop, ← e]
      congr 1; rw [Nat.succ_mul]; omega

/-- C47.  In a model whose nodes stand at the position of their number (as fitted models do, C03),
adding the values of the listed leaves to the base score gives the predictions. -/
theorem C47_sum_of_leaves [FlCast F D] (b : Booster F D) (data : Matrix D)
    (hnum : ∀ t ∈ b.trees, ∀ (i : Nat) (n : Node F D), t.nodes[i]? = some n → n.num = i)
    (out : List D) (idxs : List Nat) (hp : b.predict data = .ok out)
    (hi : b.predictLeafIndices data = .ok idxs) (i : Nat) (hrow : i < data.rows) :
    ∃ ws : List F, ws.length = b.used ∧
      (∀ k, k < b.used → ∃ (t : Tree F D) (j : Nat) (n : Node F D), b.trees[k]? = some t ∧
        idxs[k * data.rows + i]? = some j ∧ t.nodes[j]? = some n ∧ n.isLeaf = true ∧
        ws[k]? = some n.weightValue) ∧
      out[i]? = some (ws.foldl (fun (acc : D) w => acc + up w) b.baseScore) := by
  rw [C19_prediction_iteration] at hp
  rw [C47_leaf_indices] at hi
  obtain ⟨h1, h2, h3⟩ := hp
  obtain ⟨ls, hl, e⟩ := h3 i _ (List.getElem?_eq_getElem (by omega : i < out.length))
  unfold Leaves at hl
  have hlen : ls.length = b.used := by
    rw [← hl.length_eq, List.length_take, Nat.min_eq_left h1]
  refine ⟨ls.map Node.weightValue, by simp [hlen], fun k hk => ?_, ?_⟩
  · rw [List.forall₂_iff_get] at hl
    have hkt : k < b.trees.length := by omega
    have hr := hl.2 k (by simp; omega) (by omega)
    simp only [List.get_eq_getElem, List.getElem_take] at hr
    obtain ⟨l, hr', hidx⟩ := hi.2.2 k i _ hk (List.getElem?_eq_getElem hkt) hrow
    obtain rfl := hr.unique hr'
    have hleaf : ∀ {j l}, Route b.trees[k].nodes (data.entry i) b.missing j l →
        ∃ j' : Nat, b.trees[k].nodes[j']? = some l ∧ l.isLeaf = true := by
      intro j l h
      induction h with
      | leaf a b => exact ⟨_, a, b⟩
      | step _ _ _ _ _ ih => exact ih
    obtain ⟨j, hj, hleaf⟩ := hleaf hr
    have := hnum _ (List.getElem_mem hkt) j _ hj
    refine ⟨_, _, _, List.getElem?_eq_getElem hkt, hidx, by rw [this]; exact hj, hleaf, ?_⟩
    rw [List.getElem?_map, List.getElem?_eq_getElem (by omega)]; rfl
  · rw [List.getElem?_eq_getElem (by omega : i < out.length), e, List.foldl_map]

example : exBooster.predict exData = .ok [q (23/6), q (13/6), q (-1/6)] := by decide +kernel
example : ({ exBooster with predictionIteration := some 1 }).predict exData =
    .ok [q (7/2), q (5/2), q (-1/2)] := by decide +kernel
example : exBooster.predictLeafIndices exData = .ok [5, 2, 3, 2, 1, 2] := by decide +kernel
example : ∀ t ∈ exBooster.trees, ∀ (i : Nat) (n : Node Q Q), t.nodes[i]? = some n → n.num = i := by
  intro t ht i n h
  have hl := (List.getElem?_eq_some_iff.1 h).1
  simp only [exBooster, List.mem_cons, List.not_mem_nil, or_false] at ht
  rcases ht with rfl | rfl <;> simp only [exTree, exTree2, List.length_cons, List.length_nil] at hl <;>
    interval_cases i <;> simp_all [exTree, exTree2, exLeaf, exSplit] <;> rw [← h]

end Verif
