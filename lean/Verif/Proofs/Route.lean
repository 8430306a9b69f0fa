import Verif.Spec.Route
import Verif.Proofs.Data
import Mathlib.Data.List.Range
import Mathlib.Data.List.Perm.Subperm

/-!
# The model's walk and the relation `Route`
-/

namespace Verif

open scoped Verif

section
variable {F D : Type} [Fl D]

theorem isMissing_eq (v missing : D) :
    isMissing v missing =
      if Readable missing v then .ok (decide (IsMissing missing v)) else .panic := by
  by_cases hm : isNaN missing = true <;> by_cases hv : isNaN v = true <;>
    simp [isMissing, Readable, IsMissing, hm, hv]

theorem getChildIdx_eq (n : Node F D) (v missing : D) :
    n.getChildIdx v missing = if Readable missing v then .ok (n.childFor missing v) else .panic := by
  unfold Node.getChildIdx Node.childFor
  rw [isMissing_eq]
  by_cases h : Readable missing v
  · simp [h]
  · simp [h]

/-- A route of exactly `k` steps. -/
inductive RouteN (nodes : List (Node F D)) (row : Nat → Option D) (missing : D) :
    Nat → Nat → Node F D → Prop
  | leaf {i n} : nodes[i]? = some n → n.isLeaf = true → RouteN nodes row missing 0 i n
  | step {k i n l v} : nodes[i]? = some n → n.isLeaf = false → row n.splitFeature = some v →
      Readable missing v → RouteN nodes row missing k (n.childFor missing v) l →
      RouteN nodes row missing (k + 1) i l

theorem Route.exists_n {nodes : List (Node F D)} {row : Nat → Option D} {missing : D} {i : Nat}
    {l : Node F D} (h : Route nodes row missing i l) : ∃ k, RouteN nodes row missing k i l := by
  induction h with
  | leaf h1 h2 => exact ⟨0, .leaf h1 h2⟩
  | step h1 h2 h3 h4 _ ih => obtain ⟨k, ih⟩ := ih; exact ⟨k + 1, .step h1 h2 h3 h4 ih⟩

theorem RouteN.route {nodes : List (Node F D)} {row : Nat → Option D} {missing : D} {k i : Nat}
    {l : Node F D} (h : RouteN nodes row missing k i l) : Route nodes row missing i l := by
  induction h with
  | leaf h1 h2 => exact .leaf h1 h2
  | step h1 h2 h3 h4 _ ih => exact .step h1 h2 h3 h4 ih

theorem RouteN.unique {nodes : List (Node F D)} {row : Nat → Option D} {missing : D} {k k' i : Nat}
    {l l' : Node F D} (h : RouteN nodes row missing k i l) (h' : RouteN nodes row missing k' i l') :
    k = k' ∧ l = l' := by
  induction h generalizing k' l' with
  | leaf h1 h2 =>
    cases h' with
    | leaf g1 g2 => rw [h1] at g1; simp_all
    | step g1 g2 => rw [h1] at g1; simp_all
  | step h1 h2 h3 h4 _ ih =>
    cases h' with
    | leaf g1 g2 => rw [h1] at g1; simp_all
    | step g1 g2 g3 g4 g5 =>
      rw [h1] at g1; cases g1
      rw [h3] at g3; cases g3
      obtain ⟨a, b⟩ := ih g5
      exact ⟨by omega, b⟩

theorem Route.unique {nodes : List (Node F D)} {row : Nat → Option D} {missing : D} {i : Nat}
    {l l' : Node F D} (h : Route nodes row missing i l) (h' : Route nodes row missing i l') :
    l = l' := by
  obtain ⟨_, h⟩ := h.exists_n
  obtain ⟨_, h'⟩ := h'.exists_n
  exact (h.unique h').2

theorem Leaves.unique {ts : List (Tree F D)} {row : Nat → Option D} {missing : D}
    {ls ls' : List (Node F D)} (h : Leaves ts row missing ls) (h' : Leaves ts row missing ls') :
    ls = ls' := by
  induction ts generalizing ls ls' with
  | nil => cases h; cases h'; rfl
  | cons t ts ih =>
    cases h with
    | cons a b =>
      cases h' with
      | cons a' b' => rw [a.unique a', ih b b']

/-- Nodes on a route are distinct, so a route is shorter than the number of nodes. -/
theorem RouteN.lt_length {nodes : List (Node F D)} {row : Nat → Option D} {missing : D} {k i : Nat}
    {l : Node F D} (h : RouteN nodes row missing k i l) : k < nodes.length := by
  have : ∃ p : List Nat, p.length = k + 1 ∧ p.Nodup ∧ (∀ j ∈ p, j < nodes.length) ∧
      ∀ j ∈ p, ∃ k', k' ≤ k ∧ RouteN nodes row missing k' j l := by
    induction h with
    | @leaf i n h1 h2 =>
      have := (List.getElem?_eq_some_iff.1 h1).1
      exact ⟨[i], rfl, by simp, by simpa using this, by simpa using RouteN.leaf h1 h2⟩
    | @step k i n l v h1 h2 h3 h4 h5 ih =>
      obtain ⟨p, hl, hn, hlt, hr⟩ := ih
      refine ⟨i :: p, by simp [hl], ?_, ?_, ?_⟩
      · rw [List.nodup_cons]
        refine ⟨fun hi => ?_, hn⟩
        obtain ⟨k', hk', hr'⟩ := hr i hi
        have := (RouteN.step h1 h2 h3 h4 h5).unique hr'
        omega
      · intro j hj
        rcases List.mem_cons.1 hj with rfl | hj
        · exact (List.getElem?_eq_some_iff.1 h1).1
        · exact hlt j hj
      · intro j hj
        rcases List.mem_cons.1 hj with rfl | hj
        · exact ⟨_, le_refl _, .step h1 h2 h3 h4 h5⟩
        · obtain ⟨k', hk', h'⟩ := hr j hj
          exact ⟨k', by omega, h'⟩
  obtain ⟨p, hl, hn, hlt, -⟩ := this
  have hs : p.Subperm (List.range nodes.length) :=
    List.subperm_of_subset hn (fun j hj => List.mem_range.2 (hlt j hj))
  have := hs.length_le
  simp at this
  omega

theorem leafFrom_eq_ok_iff {nodes : List (Node F D)} {get : Nat → Res D} {row : Nat → Option D}
    (hg : ∀ f, get f = Res.ofOption (row f)) {missing : D} {fuel i : Nat} {l : Node F D} :
    leafFrom nodes get missing fuel i = .ok l ↔
      ∃ k, k < fuel ∧ RouteN nodes row missing k i l := by
  induction fuel generalizing i with
  | zero => simp [leafFrom]
  | succ fuel ih =>
    unfold leafFrom
    rw [Res.bind_eq_ok]
    constructor
    · rintro ⟨n, hn, h⟩
      rw [idx_eq_ok] at hn
      split at h
      · next hl =>
        cases h
        exact ⟨0, by omega, .leaf hn hl⟩
      · next hl =>
        rw [hg, Res.bind_eq_ok] at h
        obtain ⟨v, hv, h⟩ := h
        rw [Res.ofOption_eq_ok] at hv
        rw [getChildIdx_eq, Res.bind_eq_ok] at h
        obtain ⟨c, hc, h⟩ := h
        split at hc
        · next hr =>
          cases hc
          obtain ⟨k, hk, hroute⟩ := ih.1 h
          exact ⟨k + 1, by omega, .step hn (by simpa using hl) hv hr hroute⟩
        · cases hc
    · rintro ⟨k, hk, h⟩
      cases h with
      | leaf h1 h2 => exact ⟨l, by rw [idx_eq_ok]; exact h1, by simp [h2]⟩
      | @step k _ n _ v h1 h2 h3 h4 h5 =>
        refine ⟨n, by rw [idx_eq_ok]; exact h1, ?_⟩
        simp only [h2, hg, h3, getChildIdx_eq, h4, Res.ofOption_some, Res.ok_bind, if_true]
        exact ih.2 ⟨k, by omega, h5⟩

/-- The model's walk with the model's fuel finds exactly the leaf given by the relation. -/
theorem leafFrom_iff_route {nodes : List (Node F D)} {get : Nat → Res D} {row : Nat → Option D}
    (hg : ∀ f, get f = Res.ofOption (row f)) {missing : D} {i : Nat} {l : Node F D} :
    leafFrom nodes get missing nodes.length i = .ok l ↔ Route nodes row missing i l := by
  rw [leafFrom_eq_ok_iff hg]
  constructor
  · rintro ⟨k, _, h⟩; exact h.route
  · intro h
    obtain ⟨k, h⟩ := h.exists_n
    exact ⟨k, h.lt_length, h⟩

theorem Matrix.get_eq {T : Type} (m : Matrix T) (i j : Nat) :
    m.get i j = Res.ofOption (m.entry i j) := by
  simp only [Matrix.get, Matrix.entry, Matrix.itemIndex, idx]
  congr 2; omega

theorem predictLeaf_iff {t : Tree F D} {data : Matrix D} {i : Nat} {missing : D} {l : Node F D} :
    t.predictLeaf data i missing = .ok l ↔ Route t.nodes (data.entry i) missing 0 l :=
  leafFrom_iff_route (fun f => data.get_eq i f)

theorem forall₂_index {T : Type} {m : Matrix T} {β : Type} {P : Nat → β → Prop} {bs : List β} :
    List.Forall₂ P m.index bs ↔
      bs.length = m.rows ∧ ∀ (i : Nat) (b : β), bs[i]? = some b → P i b := by
  rw [Matrix.index, List.forall₂_iff_get]
  simp only [List.length_range, List.get_eq_getElem, List.getElem_range]
  constructor
  · rintro ⟨h1, h2⟩
    refine ⟨h1.symm, fun i b hb => ?_⟩
    obtain ⟨hi, rfl⟩ := List.getElem?_eq_some_iff.1 hb
    exact h2 i (by omega) hi
  · rintro ⟨h1, h2⟩
    exact ⟨h1.symm, fun i _ hi => h2 i _ (List.getElem?_eq_getElem hi)⟩

theorem Tree.predict_eq_ok [FlCast F D] {t : Tree F D} {data : Matrix D} {missing : D} {ps : List D} :
    t.predict data missing = .ok ps ↔
      ps.length = data.rows ∧ ∀ (i : Nat) (p : D), ps[i]? = some p →
        ∃ l, Route t.nodes (data.entry i) missing 0 l ∧ p = up l.weightValue := by
  rw [Tree.predict, Res.mapM'_eq_ok, forall₂_index]
  simp only [Res.bind_eq_ok, predictLeaf_iff, Res.ok.injEq]
  constructor
  · rintro ⟨h1, h2⟩; exact ⟨h1, fun i p hp => by obtain ⟨l, a, b⟩ := h2 i p hp; exact ⟨l, a, b.symm⟩⟩
  · rintro ⟨h1, h2⟩; exact ⟨h1, fun i p hp => by obtain ⟨l, a, b⟩ := h2 i p hp; exact ⟨l, a, b.symm⟩⟩

theorem Tree.predictLeafIndices_eq_ok {t : Tree F D} {data : Matrix D} {missing : D}
    {ps : List Nat} :
    t.predictLeafIndices data missing = .ok ps ↔
      ps.length = data.rows ∧ ∀ (i : Nat) (p : Nat), ps[i]? = some p →
        ∃ l, Route t.nodes (data.entry i) missing 0 l ∧ p = l.num := by
  rw [Tree.predictLeafIndices, Res.mapM'_eq_ok, forall₂_index]
  simp only [Res.bind_eq_ok, predictLeaf_iff, Res.ok.injEq]
  constructor
  · rintro ⟨h1, h2⟩; exact ⟨h1, fun i p hp => by obtain ⟨l, a, b⟩ := h2 i p hp; exact ⟨l, a, b.symm⟩⟩
  · rintro ⟨h1, h2⟩; exact ⟨h1, fun i p hp => by obtain ⟨l, a, b⟩ := h2 i p hp; exact ⟨l, a, b.symm⟩⟩

theorem length_addPreds (ys ps : List D) : (addPreds ys ps).length = ys.length := by
  induction ys generalizing ps with
  | nil => simp [addPreds]
  | cons y ys ih => cases ps <;> simp [addPreds, ih]

theorem getElem?_addPreds (ys ps : List D) (i : Nat) :
    (addPreds ys ps)[i]? = match ys[i]?, ps[i]? with
      | some y, some p => some (y + p)
      | some y, none => some y
      | none, _ => none := by
  induction ys generalizing ps i with
  | nil => simp [addPreds]
  | cons y ys ih =>
    cases ps with
    | nil =>
      simp only [addPreds, List.getElem?_nil]
      cases h : (y :: ys)[i]? <;> rfl
    | cons p ps =>
      cases i with
      | zero => simp [addPreds]
      | succ i => simp [addPreds, ih]

/-- Adding up the trees row by row. -/
theorem foldPreds_eq_ok [FlCast F D] {data : Matrix D} {missing : D} (ts : List (Tree F D))
    (acc out : List D) (hacc : acc.length = data.rows) :
    Res.foldM' (fun (acc : List D) (t : Tree F D) => do
      let p ← t.predict data missing
      .ok (addPreds acc p)) acc ts = .ok out ↔
      out.length = data.rows ∧ ∀ (i : Nat) (a o : D), acc[i]? = some a → out[i]? = some o →
        PredictsRow a ts (data.entry i) missing o := by
  induction ts generalizing acc with
  | nil =>
    simp only [Res.foldM'_nil, Res.ok.injEq]
    constructor
    · rintro rfl
      refine ⟨hacc, fun i a o ha ho => ⟨[], .nil, ?_⟩⟩
      rw [ha] at ho; cases ho; rfl
    · rintro ⟨hl, h⟩
      refine List.ext_getElem (by omega) (fun i hi hi' => ?_)
      obtain ⟨ls, h1, h2⟩ := h i _ _ (List.getElem?_eq_getElem hi) (List.getElem?_eq_getElem hi')
      cases h1; exact h2.symm
  | cons t ts ih =>
    simp only [Res.foldM'_cons, Res.bind_eq_ok]
    constructor
    · rintro ⟨acc', ⟨ps, hps, h1⟩, h2⟩
      cases h1
      rw [Tree.predict_eq_ok] at hps
      rw [ih _ (by rw [length_addPreds, hacc])] at h2
      refine ⟨h2.1, fun i a o ha ho => ?_⟩
      have hi : i < acc.length := (List.getElem?_eq_some_iff.1 ha).1
      have hip : i < ps.length := by omega
      obtain ⟨l, hr, hl⟩ := hps.2 i _ (List.getElem?_eq_getElem hip)
      obtain ⟨ls, h3, h4⟩ := h2.2 i (a + ps[i]) o
        (by rw [getElem?_addPreds, ha, List.getElem?_eq_getElem hip]) ho
      exact ⟨l :: ls, .cons hr h3, by rw [h4, hl]; rfl⟩
    · rintro ⟨hl, h⟩
      have hex : ∀ i : Nat, i < data.rows → ∃ l, Route t.nodes (data.entry i) missing 0 l := by
        intro i hi
        obtain ⟨ls, h1, _⟩ := h i _ _ (List.getElem?_eq_getElem (by omega))
          (List.getElem?_eq_getElem (by omega : i < out.length))
        cases h1 with
        | cons a _ => exact ⟨_, a⟩
      have : ∃ ps, t.predict data missing = .ok ps := by
        rw [Tree.predict]
        refine Res.mapM'_exists fun i hi => ?_
        rw [Matrix.index, List.mem_range] at hi
        obtain ⟨l, hl⟩ := hex i hi
        exact ⟨_, by rw [predictLeaf_iff.2 hl]; rfl⟩
      obtain ⟨ps, hps⟩ := this
      refine ⟨_, ⟨ps, hps, rfl⟩, ?_⟩
      rw [Tree.predict_eq_ok] at hps
      rw [ih _ (by rw [length_addPreds, hacc])]
      refine ⟨hl, fun i a' o ha' ho => ?_⟩
      have hi : i < acc.length := by
        have := (List.getElem?_eq_some_iff.1 ha').1
        rwa [length_addPreds] at this
      have hip : i < ps.length := by omega
      rw [getElem?_addPreds, List.getElem?_eq_getElem hi, List.getElem?_eq_getElem hip] at ha'
      cases ha'
      obtain ⟨ls, h1, h2⟩ := h i _ _ (List.getElem?_eq_getElem hi) ho
      cases h1 with
      | @cons _ l _ ls hr hrs =>
        obtain ⟨l', hr', hl'⟩ := hps.2 i _ (List.getElem?_eq_getElem hip)
        refine ⟨ls, hrs, ?_⟩
        rw [h2, hl', hr'.unique hr]; rfl

end

end Verif
