import Verif.Model.Python
import Mathlib.Data.List.Sort
import Mathlib.Data.List.Perm.Basic
import Mathlib.Data.List.Nodup
import Mathlib.Data.List.Range

/-!
# The Python layer: constraint names after loading (C55, C60) and XGBoost import (C56)
-/

namespace Verif

/-! ### Dictionaries -/

theorem lookup_mapInsert' {K V : Type} [DecidableEq K] (m : List (K × V)) (k k' : K) (v : V) :
    (mapInsert m k v).lookup k' = if k' = k then some v else m.lookup k' := by
  induction m with
  | nil =>
    by_cases h : k' = k
    · simp [mapInsert, h]
    · have h' : (k' == k) = false := by simpa using h
      simp only [mapInsert, List.lookup, h', h, if_false]
  | cons p m ih =>
    obtain ⟨a, x⟩ := p
    rw [mapInsert]
    by_cases ha : a = k
    · subst ha
      by_cases h : k' = a
      · subst h; simp
      · have h' : (k' == a) = false := by simpa using h
        simp [List.lookup, h', h]
    · simp only [ha, if_false]
      by_cases h : k' = a
      · subst h
        simp [List.lookup, ha]
      · have h' : (k' == a) = false := by simpa using h
        simp only [List.lookup, h', ih]

theorem lookup_foldl_insert {K V : Type} [DecidableEq K] (l d : List (K × V)) (k : K)
    (hl : (l.map Prod.fst).Nodup) :
    (l.foldl (fun d p => mapInsert d p.1 p.2) d).lookup k = (l.lookup k).or (d.lookup k) := by
  induction l generalizing d with
  | nil => rfl
  | cons p l ih =>
    obtain ⟨a, x⟩ := p
    simp only [List.map_cons, List.nodup_cons] at hl
    rw [List.foldl_cons, ih _ hl.2, lookup_mapInsert']
    by_cases h : k = a
    · subst h
      have : l.lookup k = none := by
        rw [List.lookup_eq_none_iff]
        intro q hq
        have : q.1 ≠ k := fun e => hl.1 (by rw [← e]; exact List.mem_map_of_mem hq)
        simpa using fun e => this e.symm
      simp [List.lookup, this]
    · have h' : (k == a) = false := by simpa using h
      simp [List.lookup, h', h]

theorem lookup_pyDict {K V : Type} [DecidableEq K] (l : List (K × V)) (k : K)
    (hl : (l.map Prod.fst).Nodup) : (pyDict l).lookup k = l.lookup k := by
  rw [pyDict, lookup_foldl_insert l [] k hl]; simp

theorem lookup_of_mem {K V : Type} [DecidableEq K] {l : List (K × V)} (hl : (l.map Prod.fst).Nodup)
    {k : K} {v : V} : l.lookup k = some v ↔ (k, v) ∈ l := by
  induction l with
  | nil => simp
  | cons p l ih =>
    obtain ⟨a, x⟩ := p
    simp only [List.map_cons, List.nodup_cons] at hl
    by_cases h : k = a
    · subst h
      simp only [List.lookup, beq_self_eq_true, List.mem_cons, Prod.mk.injEq, true_and,
        Option.some.injEq]
      constructor
      · intro h; exact .inl h.symm
      · rintro (h | h)
        · exact h.symm
        · exact absurd (List.mem_map_of_mem (f := Prod.fst) h) hl.1
    · have h' : (k == a) = false := by simpa using h
      simp only [List.lookup, h', List.mem_cons, Prod.mk.injEq, h, false_and, false_or]
      exact ih hl.2

theorem nodup_keys_mapInsert {K V : Type} [DecidableEq K] (m : List (K × V)) (k : K) (v : V)
    (h : (m.map Prod.fst).Nodup) : ((mapInsert m k v).map Prod.fst).Nodup ∧
      ∀ k', k' ∈ (mapInsert m k v).map Prod.fst ↔ k' = k ∨ k' ∈ m.map Prod.fst := by
  induction m with
  | nil => simp [mapInsert]
  | cons p m ih =>
    obtain ⟨a, x⟩ := p
    simp only [List.map_cons, List.nodup_cons] at h
    rw [mapInsert]
    by_cases ha : a = k
    · subst ha
      simp only [if_true, List.map_cons, List.nodup_cons]
      exact ⟨h, fun k' => by simp⟩
    · obtain ⟨ih1, ih2⟩ := ih h.2
      simp only [ha, if_false, List.map_cons, List.nodup_cons]
      refine ⟨⟨fun hm => ?_, ih1⟩, fun k' => ?_⟩
      · rcases (ih2 a).1 hm with e | e
        · exact ha e
        · exact h.1 e
      · rw [List.mem_cons, ih2, List.mem_cons]
        tauto

theorem nodup_keys_pyDict {K V : Type} [DecidableEq K] (l : List (K × V)) :
    ((pyDict l).map Prod.fst).Nodup := by
  have : ∀ (l d : List (K × V)), (d.map Prod.fst).Nodup →
      ((l.foldl (fun d p => mapInsert d p.1 p.2) d).map Prod.fst).Nodup := by
    intro l
    induction l with
    | nil => intro d h; exact h
    | cons p l ih => intro d h; exact ih _ (nodup_keys_mapInsert d p.1 p.2 h).1
  exact this l [] (by simp)

theorem pyMap_eq_ok {α β : Type} {f : α → Except PyErr β} {l : List α} {bs : List β} :
    pyMap f l = .ok bs ↔ List.Forall₂ (fun a b => f a = .ok b) l bs := by
  induction l generalizing bs with
  | nil =>
    rw [pyMap, List.forall₂_nil_left_iff]
    constructor
    · intro h; cases h; rfl
    · rintro rfl; rfl
  | cons a l ih =>
    rw [pyMap]
    cases hf : f a with
    | error e =>
      constructor
      · intro h; cases h
      · intro h; cases h with | cons h1 _ => rw [hf] at h1; cases h1
    | ok b =>
      cases hm : pyMap f l with
      | error e =>
        constructor
        · intro h; cases h
        · intro h
          cases h with
          | cons h1 h2 => rw [← ih] at h2; rw [hm] at h2; cases h2
      | ok bs' =>
        constructor
        · intro h
          cases h
          exact .cons hf (ih.1 hm)
        · intro h
          cases h with
          | cons h1 h2 =>
            rw [← ih, hm] at h2
            rw [hf] at h1
            cases h1; cases h2; rfl

theorem pyGet_eq_ok {K V : Type} [DecidableEq K] {d : PyDict K V} {k : K} {v : V} :
    pyGet d k = .ok v ↔ d.lookup k = some v := by
  rw [pyGet]
  cases d.lookup k <;> simp

theorem lookup_featureMap {cols : List String} (h : cols.Nodup) (k : PyKey) (i : Nat) :
    (featureMap cols).lookup k = some i ↔ ∃ c, k = .str c ∧ cols[i]? = some c := by
  have hk : ((cols.zipIdx.map fun p => (PyKey.str p.1, p.2)).map Prod.fst).Nodup := by
    rw [List.map_map]
    have : (Prod.fst ∘ fun p : String × Nat => (PyKey.str p.1, p.2)) = PyKey.str ∘ Prod.fst := rfl
    rw [this, ← List.map_map, List.zipIdx_map_fst]
    exact h.map (fun a b e => by cases e; rfl)
  rw [featureMap, lookup_pyDict _ _ hk, lookup_of_mem hk]
  simp only [List.mem_map, Prod.mk.injEq, Prod.exists, List.mk_mem_zipIdx_iff_getElem?]
  constructor
  · rintro ⟨c, j, h1, rfl, rfl⟩; exact ⟨c, rfl, h1⟩
  · rintro ⟨c, rfl, h1⟩; exact ⟨c, i, h1, rfl, rfl⟩

/-! ### C55 -/

/-- The integer code of a constraint. -/
def Constraint.code : Constraint → Int
  | .negative => -1
  | .positive => 1
  | .unconstrained => 0

/-- Values accepted by `int_map_to_constraint_map`. -/
def ValidCode (v : Int) : Prop := v = -1 ∨ v = 0 ∨ v = 1

theorem nodup_getElem?_inj {α : Type} {l : List α} (h : l.Nodup) {i j : Nat} {c : α}
    (hi : l[i]? = some c) (hj : l[j]? = some c) : i = j := by
  obtain ⟨h1, e1⟩ := List.getElem?_eq_some_iff.1 hi
  obtain ⟨h2, e2⟩ := List.getElem?_eq_some_iff.1 hj
  exact (List.Nodup.getElem_inj_iff h).1 (e1.trans e2.symm)

/-- What a successful fit on a data frame stores: the constraint of a column number is the one given
under the column's name. -/
theorem pyFit_lookup {cols : List String} (hc : cols.Nodup) {m : PyDict PyKey Int}
    (hm : (m.map Prod.fst).Nodup) {cm : ConstraintMap}
    (h : pyFitConstraints (some cols) m = .ok cm) :
    (cm.map Prod.fst).Nodup ∧ (∀ i c, cm.lookup i = some c ↔
      ∃ name, cols[i]? = some name ∧ m.lookup (.str name) = some c.code) ∧
    (∀ k v, m.lookup k = some v → ∃ (i : Nat) (name : String) (c : Constraint), k = .str name ∧
      cols[i]? = some name ∧ v = c.code) := by
  rw [pyFitConstraints, standardizeMonotonicityMap] at h
  cases h1 : pyMap (fun p : PyKey × Int => do
      let i ← pyGet (featureMap cols) p.1
      Except.ok (i, p.2)) m with
  | error e => simp only [h1] at h; cases h
  | ok l =>
    simp only [h1] at h
    have h2 : intMapToConstraintMap (pyDict l) = .ok cm := h
    clear h
    rw [intMapToConstraintMap] at h2
    have f1 := pyMap_eq_ok.1 h1
    have f2 := pyMap_eq_ok.1 h2
    have e1 : ∀ (p : PyKey × Int) (r : Nat × Int), ((do
        let i ← pyGet (featureMap cols) p.1
        Except.ok (i, p.2) : Except PyErr (Nat × Int)) = .ok r) ↔
        ∃ c, p.1 = .str c ∧ cols[r.1]? = some c ∧ r.2 = p.2 := by
      intro p r
      cases hg : pyGet (featureMap cols) p.1 with
      | error e =>
        constructor
        · intro h; cases h
        · rintro ⟨c, hc1, hc2, _⟩
          have := pyGet_eq_ok.2 ((lookup_featureMap hc p.1 r.1).2 ⟨c, hc1, hc2⟩)
          rw [hg] at this; cases this
      | ok i =>
        have hi := (lookup_featureMap hc p.1 i).1 (pyGet_eq_ok.1 hg)
        constructor
        · intro h
          cases h
          obtain ⟨c, a, b⟩ := hi
          exact ⟨c, a, b, rfl⟩
        · rintro ⟨c, hc1, hc2, hc3⟩
          obtain ⟨c', a, b⟩ := hi
          rw [hc1] at a; cases a
          have hir : i = r.1 := nodup_getElem?_inj hc b hc2
          show Except.ok (i, p.2) = Except.ok r
          rw [← hc3, hir]
    simp only [e1] at f1
    have e2 : ∀ (p : Nat × Int) (r : Nat × Constraint), ((if p.2 = -1 then
        Except.ok (p.1, Constraint.negative)
        else if p.2 = 1 then .ok (p.1, Constraint.positive)
        else if p.2 = 0 then .ok (p.1, Constraint.unconstrained)
        else .error .valueError : Except PyErr (Nat × Constraint)) = .ok r) ↔
        r.1 = p.1 ∧ p.2 = r.2.code := by
      intro p r
      obtain ⟨a, v⟩ := p
      obtain ⟨b, c⟩ := r
      by_cases h1 : v = -1
      · subst h1
        cases c <;> simp [Constraint.code, eq_comm]
      · by_cases h2 : v = 1
        · subst h2
          cases c <;> simp [Constraint.code, eq_comm]
        · by_cases h3 : v = 0
          · subst h3
            cases c <;> simp [Constraint.code, eq_comm]
          · cases c <;> simp [Constraint.code, h1, h2, h3]
    simp only [e2] at f2
    -- keys of `l` are distinct
    have keysl : (l.map Prod.fst).Nodup := by
      clear h2 f2 h1
      induction f1 with
      | nil => simp
      | @cons p r m' l' hpr hrest ih =>
        simp only [List.map_cons, List.nodup_cons] at hm ⊢
        refine ⟨?_, ih hm.2⟩
        intro hmem
        obtain ⟨r', hr', e⟩ := List.mem_map.1 hmem
        obtain ⟨c, g1, g2, g3⟩ := hpr
        obtain ⟨p', hp', c', g1', g2', g3'⟩ : ∃ p' ∈ m', ∃ c, p'.1 = .str c ∧ cols[r'.1]? = some c ∧
            r'.2 = p'.2 := by
          clear ih hm hmem
          induction hrest with
          | nil => cases hr'
          | @cons p2 r2 m2 l2 h2 _ ih2 =>
            rcases List.mem_cons.1 hr' with rfl | hr'
            · exact ⟨p2, by simp, h2⟩
            · obtain ⟨p', hp', h⟩ := ih2 hr'
              exact ⟨p', by simp [hp'], h⟩
        rw [e, g2] at g2'
        cases g2'
        exact hm.1 (by rw [g1, ← g1']; exact List.mem_map_of_mem hp')
    have keyscm : cm.map Prod.fst = (pyDict l).map Prod.fst := by
      clear h2
      generalize pyDict l = d at f2
      induction f2 with
      | nil => rfl
      | cons h _ ih => simp [h.1, ih]
    have ndcm : (cm.map Prod.fst).Nodup := by rw [keyscm]; exact nodup_keys_pyDict l
    have m1 : ∀ i v, (i, v) ∈ l ↔ ∃ name, cols[i]? = some name ∧ (PyKey.str name, v) ∈ m := by
      intro i v
      clear keysl h2 f2 h1 keyscm ndcm hm
      induction f1 with
      | nil => simp
      | @cons p r m' l' hpr _ ih =>
        obtain ⟨c, g1, g2, g3⟩ := hpr
        obtain ⟨pk, pv⟩ := p
        obtain ⟨rk, rv⟩ := r
        simp only at g1 g2 g3
        subst g1 g3
        simp only [List.mem_cons, Prod.mk.injEq, ih]
        constructor
        · rintro (⟨rfl, rfl⟩ | ⟨name, a, b⟩)
          · exact ⟨c, g2, .inl ⟨rfl, rfl⟩⟩
          · exact ⟨name, a, .inr b⟩
        · rintro ⟨name, a, (⟨e, rfl⟩ | b)⟩
          · cases e
            exact .inl ⟨nodup_getElem?_inj hc a g2, rfl⟩
          · exact .inr ⟨name, a, b⟩
    have m2 : ∀ i c, (i, c) ∈ cm ↔ (i, c.code) ∈ pyDict l := by
      intro i c
      clear keyscm ndcm h2
      generalize pyDict l = d at f2
      induction f2 with
      | nil => simp
      | @cons p r m' l' hpr _ ih =>
        obtain ⟨pk, pv⟩ := p
        obtain ⟨rk, rv⟩ := r
        obtain ⟨g1, g2⟩ := hpr
        simp only at g1 g2
        subst g1 g2
        have : ∀ a b : Constraint, a.code = b.code ↔ a = b := by
          intro a b; cases a <;> cases b <;> simp [Constraint.code]
        simp only [List.mem_cons, Prod.mk.injEq, ih, this]
    refine ⟨ndcm, ?_, ?_⟩
    · intro i c
      rw [lookup_of_mem ndcm, m2, ← lookup_of_mem (nodup_keys_pyDict l), lookup_pyDict l i keysl,
        lookup_of_mem keysl, m1]
      simp only [lookup_of_mem hm]
    · intro k v hk
      rw [lookup_of_mem hm] at hk
      have hkl : ∃ (i : Nat) (name : String), k = .str name ∧ cols[i]? = some name ∧ (i, v) ∈ l := by
        clear keysl h2 f2 h1 keyscm ndcm hm m1 m2
        induction f1 with
        | nil => cases hk
        | @cons p r m' l' hpr _ ih =>
          rcases List.mem_cons.1 hk with rfl | hk
          · obtain ⟨c, g1, g2, g3⟩ := hpr
            obtain ⟨ri, rv⟩ := r
            simp only at g2 g3
            subst g3
            exact ⟨ri, c, g1, g2, by simp⟩
          · obtain ⟨i, name, a, b, c⟩ := ih hk
            exact ⟨i, name, a, b, by simp [c]⟩
      obtain ⟨i, name, a, b, c⟩ := hkl
      have hd : (i, v) ∈ pyDict l := by
        rw [← lookup_of_mem (nodup_keys_pyDict l), lookup_pyDict l i keysl, lookup_of_mem keysl]
        exact c
      have : ∃ c : Constraint, v = c.code := by
        clear keyscm ndcm h2 m2
        generalize pyDict l = d at f2 hd
        induction f2 with
        | nil => cases hd
        | @cons p r m' l' hpr _ ih =>
          rcases List.mem_cons.1 hd with rfl | hd
          · exact ⟨r.2, hpr.2⟩
          · exact ih hd
      obtain ⟨c, hc'⟩ := this
      exact ⟨i, name, c, a, b, hc'⟩

theorem lookup_constraintParams (cm : ConstraintMap) (k : PyKey) (v : Int) :
    (constraintParams (some cm)).lookup k = some v ↔
      ∃ i c, k = .int i ∧ cm.lookup i = some c ∧ v = c.code := by
  rw [constraintParams, Option.getD_some]
  induction cm with
  | nil => simp
  | cons p cm ih =>
    obtain ⟨a, x⟩ := p
    rw [List.map_cons]
    by_cases h : k = .int a
    · subst h
      have : (match x with | .negative => -1 | .positive => 1 | .unconstrained => (0 : Int)) = x.code := by
        cases x <;> rfl
      rw [List.lookup_cons_self, Option.some.injEq]
      constructor
      · intro e; exact ⟨a, x, rfl, by simp, by rw [← e]; exact this⟩
      · rintro ⟨i, c, e, h1, rfl⟩
        cases e
        rw [List.lookup_cons_self, Option.some.injEq] at h1
        rw [← h1]; exact this
    · have h' : (k == PyKey.int a) = false := by simpa using h
      simp only [List.lookup, h']
      rw [ih]
      constructor
      · rintro ⟨i, c, rfl, h1, rfl⟩
        refine ⟨i, c, rfl, ?_, rfl⟩
        have : (i == a) = false := by simpa using fun e => h (by rw [e])
        simp only [this, h1]
      · rintro ⟨i, c, rfl, h1, rfl⟩
        refine ⟨i, c, rfl, ?_, rfl⟩
        have : (i == a) = false := by simpa using fun e => h (by rw [e])
        simpa only [this] using h1

/-- Loading with every column constrained. -/
theorem pyLoad_all {cols : List String} (hc : cols.Nodup) {cm : ConstraintMap}
    (hall : ∀ i name, cols[i]? = some name → ∃ c, cm.lookup i = some c) (k : PyKey) (v : Int) :
    (pyLoadConstraints (some cols) (some cm)).lookup k = some v ↔
      ∃ i name c, k = .str name ∧ cols[i]? = some name ∧ cm.lookup i = some c ∧ v = c.code := by
  have key : ∀ (p : String × Nat) (r : PyKey × Int), ((do
      let v ← pyGet (constraintParams (some cm)) (.int p.2)
      Except.ok (PyKey.str p.1, v) : Except PyErr (PyKey × Int)) = .ok r) ↔
      ∃ c, r.1 = .str p.1 ∧ cm.lookup p.2 = some c ∧ r.2 = c.code := by
    intro p r
    cases hg : pyGet (constraintParams (some cm)) (.int p.2) with
    | error e =>
      constructor
      · intro h; cases h
      · rintro ⟨c, _, h1, _⟩
        have := pyGet_eq_ok.2 ((lookup_constraintParams cm (.int p.2) c.code).2 ⟨p.2, c, rfl, h1, rfl⟩)
        rw [hg] at this; cases this
    | ok x =>
      obtain ⟨i, c, e, h1, h2⟩ := (lookup_constraintParams cm _ _).1 (pyGet_eq_ok.1 hg)
      cases e
      constructor
      · intro h
        cases h
        exact ⟨c, rfl, h1, h2⟩
      · rintro ⟨c', a, b, d⟩
        rw [h1] at b; cases b
        show Except.ok (PyKey.str p.1, x) = Except.ok r
        rw [← a, h2, ← d]
  -- every lookup succeeds
  have hok : ∃ l, pyMap (fun (p : String × Nat) => do
        let v ← pyGet (constraintParams (some cm)) (.int p.2)
        Except.ok (PyKey.str p.1, v)) cols.zipIdx = .ok l := by
    have hz : ∀ p ∈ cols.zipIdx, ∃ c, cm.lookup p.2 = some c := by
      rintro ⟨name, i⟩ hp
      exact hall i name (List.mk_mem_zipIdx_iff_getElem?.1 hp)
    generalize cols.zipIdx = z at hz
    induction z with
    | nil => exact ⟨[], rfl⟩
    | cons p z ih =>
      obtain ⟨c, h1⟩ := hz p (by simp)
      obtain ⟨l, hl⟩ := ih fun q hq => hz q (by simp [hq])
      refine ⟨(PyKey.str p.1, c.code) :: l, ?_⟩
      rw [pyMap_eq_ok] at hl ⊢
      exact .cons ((key _ _).2 ⟨c, rfl, h1, rfl⟩) hl
  obtain ⟨l, hl⟩ := hok
  rw [pyLoadConstraints]
  simp only [hl]
  have f := pyMap_eq_ok.1 hl
  simp only [key] at f
  have hkeys : l.map Prod.fst = cols.map PyKey.str := by
    have : cols.map PyKey.str = cols.zipIdx.map (fun p => PyKey.str p.1) := by
      rw [show (fun p : String × Nat => PyKey.str p.1) = PyKey.str ∘ Prod.fst from rfl,
        ← List.map_map, List.zipIdx_map_fst]
    rw [this]
    clear hl
    generalize cols.zipIdx = z at f
    induction f with
    | nil => rfl
    | cons h _ ih =>
      obtain ⟨c, h1, _⟩ := h
      simp only [List.map_cons, h1, ih]
  have nd : (l.map Prod.fst).Nodup := by
    rw [hkeys]; exact hc.map (fun a b e => by cases e; rfl)
  rw [lookup_pyDict l k nd, lookup_of_mem nd]
  have : (k, v) ∈ l ↔ ∃ name i, (name, i) ∈ cols.zipIdx ∧ ∃ c, k = .str name ∧
      cm.lookup i = some c ∧ v = c.code := by
    clear hl hkeys nd
    generalize cols.zipIdx = z at f
    induction f with
    | nil => simp
    | @cons p r z' l' h _ ih =>
      obtain ⟨c, h1, h2, h3⟩ := h
      obtain ⟨rk, rv⟩ := r
      obtain ⟨pn, pi⟩ := p
      simp only at h1 h2 h3
      subst h1 h3
      simp only [List.mem_cons, Prod.mk.injEq, ih]
      constructor
      · rintro (⟨rfl, rfl⟩ | ⟨name, i, a, b⟩)
        · exact ⟨pn, pi, .inl ⟨rfl, rfl⟩, c, rfl, h2, rfl⟩
        · exact ⟨name, i, .inr a, b⟩
      · rintro ⟨name, i, (⟨rfl, rfl⟩ | a), c', rfl, b, rfl⟩
        · rw [h2] at b; cases b
          exact .inl ⟨rfl, rfl⟩
        · exact .inr ⟨name, i, a, c', rfl, b, rfl⟩
  rw [this]
  simp only [List.mk_mem_zipIdx_iff_getElem?]
  constructor
  · rintro ⟨name, i, a, c, b, d, e⟩; exact ⟨i, name, c, b, a, d, e⟩
  · rintro ⟨i, name, c, b, a, d, e⟩; exact ⟨name, i, a, c, b, d, e⟩

/-- Loading with a column that has no constraint. -/
theorem pyLoad_some {cols : List String} {cm : ConstraintMap} {i : Nat} {name : String}
    (hi : cols[i]? = some name) (hn : cm.lookup i = none) :
    pyLoadConstraints (some cols) (some cm) = constraintParams (some cm) := by
  rw [pyLoadConstraints]
  split
  · rename_i l hl
    exfalso
    have f := pyMap_eq_ok.1 hl
    have hmem : (name, i) ∈ cols.zipIdx := List.mk_mem_zipIdx_iff_getElem?.2 hi
    generalize cols.zipIdx = z at f hmem
    clear hl
    induction f with
    | nil => cases hmem
    | @cons p r z' l' h _ ih =>
      rcases List.mem_cons.1 hmem with rfl | hmem
      · cases hg : pyGet (constraintParams (some cm)) (.int i) with
        | error e => simp only [hg] at h; cases h
        | ok x =>
          obtain ⟨j, c, e, h1, _⟩ := (lookup_constraintParams cm _ _).1 (pyGet_eq_ok.1 hg)
          cases e
          rw [hn] at h1; cases h1
      · exact ih hmem
  · rfl

/-- C55, the part that holds.  Let a data frame have columns `cols` (distinct names) and let the
dictionary `m` constrain *every* column.  If fit stores `cm`, and `cm'` is the same map after saving and
loading, then loading restores exactly the dictionary `m`. -/
theorem C55_all_columns_partial (cols : List String) (hc : cols.Nodup) (m : PyDict PyKey Int)
    (hm : (m.map Prod.fst).Nodup) (cm cm' : ConstraintMap)
    (h : pyFitConstraints (some cols) m = .ok cm) (hsame : ∀ i, cm'.lookup i = cm.lookup i)
    (hall : ∀ c ∈ cols, ∃ v, m.lookup (.str c) = some v) (k : PyKey) :
    (pyLoadConstraints (some cols) (some cm')).lookup k = m.lookup k := by
  obtain ⟨_, h2, h3⟩ := pyFit_lookup hc hm h
  have hall' : ∀ (i : Nat) (name : String), cols[i]? = some name → ∃ c, cm'.lookup i = some c := by
    intro i name hi
    obtain ⟨v, hv⟩ := hall name (List.mem_of_getElem? hi)
    obtain ⟨j, name', c, e, hj, rfl⟩ := h3 _ _ hv
    cases e
    refine ⟨c, ?_⟩
    rw [hsame]
    exact (h2 i c).2 ⟨name, hi, hv⟩
  apply Option.ext
  intro v
  rw [pyLoad_all hc hall' k v]
  constructor
  · rintro ⟨i, name, c, rfl, hi, hl, rfl⟩
    rw [hsame, h2] at hl
    obtain ⟨name', hi', hl⟩ := hl
    rw [hi] at hi'; cases hi'
    exact hl
  · intro hv
    obtain ⟨i, name, c, rfl, hi, rfl⟩ := h3 _ _ hv
    refine ⟨i, name, c, rfl, hi, ?_, rfl⟩
    rw [hsame]
    exact (h2 i c).2 ⟨name, hi, hv⟩

/-- C55, the failure.  If some column is constrained and some column is not, then no constraint is
restored under a name: the loaded dictionary differs from `m`, all its keys are numbers, and fitting the
loaded booster on a data frame with the same columns raises. -/
theorem C55_some_columns (cols : List String) (hc : cols.Nodup) (m : PyDict PyKey Int)
    (hm : (m.map Prod.fst).Nodup) (cm cm' : ConstraintMap)
    (h : pyFitConstraints (some cols) m = .ok cm) (hsame : ∀ i, cm'.lookup i = cm.lookup i)
    (free : String) (hfree : free ∈ cols) (hnone : m.lookup (.str free) = none)
    (used : String) (v : Int) (hused : m.lookup (.str used) = some v) :
    (pyLoadConstraints (some cols) (some cm')).lookup (.str used) = none ∧
    pyFitConstraints (some cols) (pyLoadConstraints (some cols) (some cm')) = .error .keyError := by
  obtain ⟨_, h2, h3⟩ := pyFit_lookup hc hm h
  obtain ⟨i, hi⟩ := List.mem_iff_getElem?.1 hfree
  have hn : cm'.lookup i = none := by
    rw [hsame]
    cases hl : cm.lookup i with
    | none => rfl
    | some c =>
      obtain ⟨name, a, b⟩ := (h2 i c).1 hl
      rw [hi] at a; cases a
      rw [hnone] at b; cases b
  rw [pyLoad_some hi hn]
  constructor
  · cases hl : (constraintParams (some cm')).lookup (.str used) with
    | none => rfl
    | some x =>
      obtain ⟨_, _, e, _⟩ := (lookup_constraintParams cm' _ _).1 hl
      cases e
  · obtain ⟨j, name, c, e, hj, _⟩ := h3 _ _ hused
    cases e
    have hj' : cm'.lookup j = some c := by
      rw [hsame]
      refine (h2 j c).2 ⟨used, hj, ?_⟩
      rw [hused]; simp [*]
    cases cm' with
    | nil => cases hj'
    | cons p cm' =>
      have hk : pyGet (featureMap cols) (.int p.1) = .error .keyError := by
        rw [pyGet]
        cases hg : (featureMap cols).lookup (.int p.1) with
        | none => rfl
        | some i =>
          obtain ⟨_, e, _⟩ := (lookup_featureMap hc _ _).1 hg
          cases e
      rw [pyFitConstraints, standardizeMonotonicityMap, constraintParams, Option.getD_some,
        List.map_cons]
      simp only [pyMap, hk]
      rfl

/-- C55 is false of the code: constraining one of two columns loses its name. -/
theorem C55_counterexample : ∃ (cols : List String) (m : PyDict PyKey Int) (cm : ConstraintMap),
    cols.Nodup ∧ (m.map Prod.fst).Nodup ∧ pyFitConstraints (some cols) m = .ok cm ∧
    ∃ k, (pyLoadConstraints (some cols) (some cm)).lookup k ≠ m.lookup k := by
  refine ⟨["a", "b"], [(.str "a", 1)], [(0, .positive)], by decide, by decide, by rfl, .str "a", ?_⟩
  decide

example : pyFitConstraints (some ["a", "b"]) [(.str "b", 1), (.str "a", -1)] =
      .ok [(1, .positive), (0, .negative)] ∧
    pyLoadConstraints (some ["a", "b"]) (some [(0, .negative), (1, .positive)]) =
      [(.str "a", -1), (.str "b", 1)] := ⟨by rfl, by rfl⟩

/-! ### C60 -/

/-- C60.  Names given in `terminate_missing_features` are never restored: whatever the columns, a
non-empty set comes back as numbers, and fitting the loaded booster on a data frame with the same columns
raises. -/
theorem C60_lost (cols : List String) (hc : cols.Nodup) (fs : List PyKey) (hne : fs ≠ [])
    (st : List Nat) (h : pyFitTerminate (some cols) fs = .ok st) :
    (∀ f ∈ fs, f ∉ pyLoadTerminate (some cols) st) ∧
    pyFitTerminate (some cols) (pyLoadTerminate (some cols) st) = .error .keyError := by
  have f := pyMap_eq_ok.1 h
  constructor
  · intro k hk hmem
    obtain ⟨i, hmem', rfl⟩ := List.mem_map.1 hmem
    clear h hmem hmem'
    induction f with
    | nil => cases hk
    | cons h1 _ ih =>
      rcases List.mem_cons.1 hk with rfl | hk
      · obtain ⟨c, e, _⟩ := (lookup_featureMap hc _ _).1 (pyGet_eq_ok.1 h1)
        cases e
      · exact ih (by rintro rfl; cases hk) hk
  · cases f with
    | nil => exact absurd rfl hne
    | @cons a i fs' st' h1 h2 =>
      have hk : pyGet (featureMap cols) (.int i) = .error .keyError := by
        rw [pyGet]
        cases hg : (featureMap cols).lookup (.int i) with
        | none => rfl
        | some i =>
          obtain ⟨_, e, _⟩ := (lookup_featureMap hc _ _).1 hg
          cases e
      rw [pyLoadTerminate, pyFitTerminate, List.map_cons]
      simp only [pyMap, hk]
      rfl

/-- C60 holds for models fitted on arrays: the numbers come back as they were given. -/
theorem C60_arrays_partial (fs : List PyKey) (st : List Nat) (h : pyFitTerminate none fs = .ok st) :
    pyLoadTerminate none st = fs := by
  have f := pyMap_eq_ok.1 h
  clear h
  rw [pyLoadTerminate]
  induction f with
  | nil => rfl
  | @cons a i fs' st' h1 _ ih =>
    cases a with
    | str s => cases h1
    | int n => cases h1; rw [List.map_cons, ih]

example : pyFitTerminate (some ["a", "b"]) [.str "b"] = .ok [1] := by rfl

/-! ### C56 -/

/-- All nodes of a dump. -/
def XgbNode.all : XgbNode → List XgbNode
  | .leaf i w c => [.leaf i w c]
  | .split i d f s g c m y n ch => .split i d f s g c m y n ch :: go ch
where
  /-- nodes of the children -/
  go : List XgbNode → List XgbNode
    | [] => []
    | x :: l => x.all ++ go l

/-- The id of a dump node. -/
def XgbNode.id : XgbNode → Nat
  | .leaf i _ _ => i
  | .split i _ _ _ _ _ _ _ _ _ => i

theorem XgbNode.go_all (l : List XgbNode) : XgbNode.all.go l = l.flatMap XgbNode.all := by
  induction l with
  | nil => rfl
  | cons x l ih => rw [XgbNode.all.go, ih, List.flatMap_cons]

theorem XgbNode.all_eq (x : XgbNode) : x.all = x :: x.children.flatMap XgbNode.all := by
  cases x with
  | leaf => rfl
  | split => rw [XgbNode.all, XgbNode.go_all]; rfl

theorem XgbNode.size_pos (x : XgbNode) : 0 < x.size := by
  cases x <;> simp [XgbNode.size]

theorem XgbNode.go_size (l : List XgbNode) : XgbNode.size.go l = (l.map XgbNode.size).sum := by
  induction l with
  | nil => rfl
  | cons x l ih => rw [XgbNode.size.go, ih]; rfl

theorem XgbNode.size_eq (x : XgbNode) : x.size = 1 + (x.children.map XgbNode.size).sum := by
  cases x with
  | leaf => rfl
  | split => rw [XgbNode.size, XgbNode.go_size]; rfl

/-- The queue visits every node exactly once. -/
theorem xgbLoop_perm (f : XgbNode → PyNode) (n : Nat) (buf : List XgbNode)
    (h : (buf.map XgbNode.size).sum ≤ n) : (xgbLoop f n buf).Perm ((buf.flatMap XgbNode.all).map f) := by
  induction n generalizing buf with
  | zero =>
    cases buf with
    | nil => exact .nil
    | cons x buf =>
      have := x.size_pos
      simp at h; omega
  | succ n ih =>
    cases buf with
    | nil => exact .nil
    | cons x buf =>
      rw [xgbLoop, List.flatMap_cons, x.all_eq, List.cons_append, List.map_cons]
      refine .cons _ ((ih _ ?_).trans (List.Perm.map f ?_))
      · rw [List.map_cons, List.sum_cons, x.size_eq] at h
        rw [List.map_append, List.sum_append]
        omega
      · rw [List.flatMap_append]
        exact List.perm_append_comm

theorem fromXgboostNode_num (rnd : Rat → Rat) (fm : PyDict String Nat) (x : XgbNode) :
    (fromXgboostNode rnd fm x).num = x.id := by cases x <;> rfl

/-- The import succeeds exactly if the ids of the dump are `0, 1, …` in some order, and then stores each
node of the dump at the position of its id and nothing else. -/
theorem C56_positions (rnd : Rat → Rat) (fm : PyDict String Nat) (t : XgbNode) (l : List PyNode) :
    xgboostTreeToNodes rnd fm t = .ok l ↔
      l.length = t.all.length ∧ (t.all.map XgbNode.id).Perm (List.range t.all.length) ∧
      ∀ x ∈ t.all, l[x.id]? = some (fromXgboostNode rnd fm x) := by
  set f := fromXgboostNode rnd fm
  have hp := (List.perm_insertionSort (fun a b : PyNode => a.num ≤ b.num) (xgbLoop f t.size [t])).trans
    (xgbLoop_perm f t.size [t] (by simp))
  rw [List.flatMap_singleton] at hp
  have hids : (t.all.map f).map PyNode.num = t.all.map XgbNode.id := by
    rw [List.map_map]
    exact List.map_congr_left fun x _ => fromXgboostNode_num rnd fm x
  have hsorted : ∀ l0 : List PyNode, (l0.insertionSort fun a b => a.num ≤ b.num).Pairwise
      (fun a b => a.num ≤ b.num) := by
    intro l0
    have : Std.Total (fun a b : PyNode => a.num ≤ b.num) := ⟨fun a b => Nat.le_total _ _⟩
    have : IsTrans PyNode (fun a b : PyNode => a.num ≤ b.num) := ⟨fun a b c => Nat.le_trans⟩
    exact List.pairwise_insertionSort _ _
  rw [xgboostTreeToNodes]
  set s := (xgbLoop f t.size [t]).insertionSort fun a b => a.num ≤ b.num with hs
  have hlen : s.length = t.all.length := by rw [hp.length_eq, List.length_map]
  have hchar : s.map PyNode.num = List.range s.length ↔
      (t.all.map XgbNode.id).Perm (List.range t.all.length) := by
    constructor
    · intro h
      rw [← hids, ← hlen, ← h]
      exact (hp.map _).symm
    · intro h
      have h1 : (s.map PyNode.num).Perm (List.range s.length) := by
        rw [hlen]
        exact ((hp.map PyNode.num).trans (by rw [hids])).trans h
      refine List.Perm.eq_of_pairwise (le := (· ≤ ·)) (fun a b _ _ h1 h2 => Nat.le_antisymm h1 h2)
        ?_ ?_ h1
      · exact List.pairwise_map.2 (hsorted _)
      · exact List.pairwise_le_range
  have hpos : s.map PyNode.num = List.range s.length → ∀ x ∈ t.all, s[x.id]? = some (f x) := by
    intro h x hx
    have hm : f x ∈ s := hp.mem_iff.2 (List.mem_map_of_mem hx)
    obtain ⟨i, hi⟩ := List.mem_iff_getElem?.1 hm
    have : (s.map PyNode.num)[i]? = some x.id := by
      rw [List.getElem?_map, hi, Option.map_some, fromXgboostNode_num]
    rw [h] at this
    have hi' : i < s.length := (List.getElem?_eq_some_iff.1 hi).1
    rw [List.getElem?_range hi', Option.some.injEq] at this
    rw [← this, hi]
  by_cases hc : s.map PyNode.num = List.range s.length
  · simp only [hc, if_true]
    constructor
    · intro h
      have h : s = l := by injection h
      rw [← h]
      exact ⟨hlen, hchar.1 hc, hpos hc⟩
    · rintro ⟨h1, h2, h3⟩
      congr 1
      apply List.ext_getElem? 
      intro i
      by_cases hi : i < t.all.length
      · have : i ∈ t.all.map XgbNode.id := h2.mem_iff.2 (List.mem_range.2 hi)
        obtain ⟨x, hx, rfl⟩ := List.mem_map.1 this
        rw [h3 x hx, hpos hc x hx]
      · rw [List.getElem?_eq_none (by omega), List.getElem?_eq_none (by omega)]
  · simp only [hc, if_false]
    constructor
    · intro h; cases h
    · rintro ⟨_, h2, _⟩
      exact absurd (hchar.2 h2) hc

/-- C56, the part that holds.  If the booster has feature names (distinct), every split of the imported
tree tests the column with the name written in the dump. -/
theorem C56_features_partial (rnd : Rat → Rat) (names : List String) (hn : names.Nodup) (t : XgbNode)
    (l : List PyNode) (h : xgboostTreeToNodes rnd (xgbFeatureMap (some names)) t = .ok l)
    (i d : Nat) (f : String) (s g c : Rat) (m y n : Nat) (ch : List XgbNode)
    (hx : .split i d f s g c m y n ch ∈ t.all) (j : Nat) (hj : names[j]? = some f) :
    ∃ nd, l[i]? = some nd ∧ nd.splitFeature = j ∧ nd.isLeaf = false ∧ nd.leftChild = y ∧
      nd.rightChild = n ∧ nd.missingNode = m ∧ nd.splitValue = rnd s := by
  have h1 := ((C56_positions _ _ _ _).1 h).2.2 _ hx
  refine ⟨_, h1, ?_, rfl, rfl, rfl, rfl, rfl⟩
  have hk : (names.zipIdx.map Prod.fst).Nodup := by rw [List.zipIdx_map_fst]; exact hn
  have : (xgbFeatureMap (some names)).lookup f = some j := by
    rw [xgbFeatureMap, lookup_pyDict _ _ hk, lookup_of_mem hk]
    exact List.mk_mem_zipIdx_iff_getElem?.2 hj
  simp [fromXgboostNode, this]

/-- C56, the failure.  Without feature names every split feature of the imported tree is 0. -/
theorem C56_no_names (rnd : Rat → Rat) (t : XgbNode) (l : List PyNode)
    (h : xgboostTreeToNodes rnd (xgbFeatureMap none) t = .ok l) : ∀ nd ∈ l, nd.splitFeature = 0 := by
  obtain ⟨h1, h2, h3⟩ := (C56_positions _ _ _ _).1 h
  intro nd hnd
  obtain ⟨i, hi⟩ := List.mem_iff_getElem?.1 hnd
  have hi' : i < t.all.length := by rw [← h1]; exact (List.getElem?_eq_some_iff.1 hi).1
  have : i ∈ t.all.map XgbNode.id := h2.mem_iff.2 (List.mem_range.2 hi')
  obtain ⟨x, hx, rfl⟩ := List.mem_map.1 this
  rw [h3 x hx] at hi
  cases hi
  cases x <;> rfl

/-- A dump with a split on feature `f1` and two leaves. -/
def exXgb : XgbNode :=
  .split 0 0 "f1" (1/2) 3 10 1 1 2 [.leaf 2 (-1) 4, .leaf 1 1 6]

/-- C56 is false of the code: this dump, of a booster without feature names, splits on the second column
(XGBoost's default names are `f0`, `f1`, …), the imported tree on the first. -/
theorem C56_counterexample : ∃ l nd, xgboostTreeToNodes id (xgbFeatureMap none) exXgb = .ok l ∧
    l[0]? = some nd ∧ nd.isLeaf = false ∧ nd.splitFeature ≠ 1 := by
  refine ⟨_, _, rfl, rfl, rfl, ?_⟩
  decide

example : exXgb.all.map XgbNode.id = [0, 2, 1] ∧
    ∃ l, xgboostTreeToNodes id (xgbFeatureMap (some ["f0", "f1"])) exXgb = .ok l ∧
      (l[0]?.map PyNode.splitFeature) = some 1 := ⟨rfl, _, rfl, by decide⟩

end Verif
