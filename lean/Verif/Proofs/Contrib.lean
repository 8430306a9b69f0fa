import Verif.Proofs.Route
import Verif.Spec.TreeWf
import Verif.Props.Matrices
import Mathlib.Algebra.BigOperators.Group.List.Basic
import Mathlib.Tactic.Ring
import Mathlib.Tactic.Abel

/-!
# Lemmas on contributions
-/

namespace Verif

open scoped Verif

theorem FX.IsFin.eq {K : Type} [Zero K] {m : Fmt K} {x : FX m} (h : x.IsFin) : x = .fin x.val := by
  obtain ⟨q, rfl⟩ := h; rfl

theorem getRow_entry {T : Type} {m : Matrix T} (hm : m.Shaped) {i : Nat} (hi : i < m.rows) :
    ∃ r, m.getRow i = .ok r ∧ r.length = m.cols ∧ ∀ f, idx r f = Res.ofOption (m.entry i f) := by
  have hrow : ∃ r, m.getRow i = .ok r := ⟨_, by rw [Matrix.getRow, if_neg (by omega)]⟩
  obtain ⟨r, hr⟩ := hrow
  have key : ∀ k : Nat, r[k]? = m.entry i k := by
    intro k
    rw [Matrix.getRow, if_neg (by omega)] at hr
    cases hr
    rw [getElem?_stepAux _ (by omega)]
    simp only [List.getElem?_drop, Matrix.entry]
    congr 1; omega
  refine ⟨r, hr, ?_, fun f => by rw [idx, key]⟩
  have hs : m.data.length = m.rows * m.cols := hm
  apply Nat.le_antisymm
  · by_contra hc
    have h1 : m.cols < r.length := by omega
    have := key m.cols
    rw [List.getElem?_eq_getElem h1, Matrix.entry, List.getElem?_eq_none] at this
    · simp at this
    · rw [hs, Nat.mul_comm]; omega
  · by_contra hc
    have h2 := key r.length
    rw [List.getElem?_eq_none (le_refl _), Matrix.entry, eq_comm, List.getElem?_eq_none_iff, hs] at h2
    have h3 : (r.length + 1) * m.rows ≤ m.cols * m.rows := Nat.mul_le_mul_right _ (by omega)
    rw [Nat.succ_mul, Nat.mul_comm m.cols] at h3
    omega

section exact
variable {K : Type} [Field K] [LinearOrder K] {m : Fmt K} [m.Exact]

theorem sum_set {M : Type} [AddCommGroup M] (l : List M) (i : Nat) (hi : i < l.length) (v : M) :
    (l.set i (l[i] + v)).sum = l.sum + v := by
  induction l generalizing i with
  | nil => simp at hi
  | cons a l ih =>
    cases i with
    | zero => simp; abel
    | succ i =>
      simp only [List.length_cons, Nat.add_lt_add_iff_right] at hi
      simp [ih i hi, add_assoc]

theorem addAt_fin (cs : List K) (i : Nat) (hi : i < cs.length) (v : K) :
    addAt (cs.map (FX.fin : K → FX m)) i (.fin v) =
      .ok ((cs.set i (cs[i] + v)).map FX.fin) := by
  simp [addAt, idx_of_lt (l := cs.map (FX.fin : K → FX m)) (i := i) (by simpa using hi),
    List.map_set]

variable {F : Type}

set_option linter.unusedSectionVars false

/-- The walk adds the difference of the values at the leaf and at the start. -/
theorem contribWalk_sum {nodes : List (Node F (FX m))} {row : List (FX m)} {missing : FX m}
    {delta : Nat → Node F (FX m) → Nat → Res (Option (FX m))} {val : Nat → K} {leafVal : Node F (FX m) → K}
    (hd : ∀ (i c : Nat) (n n' : Node F (FX m)), nodes[i]? = some n → nodes[c]? = some n' →
      delta i n c = .ok (some (.fin (val c - val i))))
    (hleaf : ∀ (i : Nat) (n : Node F (FX m)), nodes[i]? = some n → n.isLeaf = true → val i = leafVal n)
    {entry : Nat → Option (FX m)} (hrow : ∀ f, idx row f = Res.ofOption (entry f))
    {k i : Nat} {l : Node F (FX m)} (hr : RouteN nodes entry missing k i l) {fuel : Nat}
    (hk : k < fuel) (cs : List K) (hcs : cs.length = row.length + 1) :
    ∃ cs' : List K, contribWalk nodes row missing delta fuel i (cs.map FX.fin) =
        .ok (cs'.map FX.fin, l) ∧ cs'.length = cs.length ∧
      cs'.sum = cs.sum + (leafVal l - val i) := by
  induction hr generalizing fuel cs with
  | @leaf i n h1 h2 =>
    obtain ⟨fuel, rfl⟩ : ∃ f, fuel = f + 1 := ⟨fuel - 1, by omega⟩
    refine ⟨cs, ?_, rfl, ?_⟩
    · simp [contribWalk, idx_eq_ok.2 h1, h2]
    · rw [hleaf i n h1 h2]; ring
  | @step k i n l v h1 h2 h3 h4 h5 ih =>
    obtain ⟨fuel, rfl⟩ : ∃ f, fuel = f + 1 := ⟨fuel - 1, by omega⟩
    have hv : idx row n.splitFeature = .ok v := by rw [hrow, h3]; rfl
    have hf := lt_of_idx_eq_ok hv
    have hc : ∃ n' : Node F (FX m), nodes[n.childFor missing v]? = some n' := by
      cases h5 with
      | leaf g _ => exact ⟨_, g⟩
      | step g => exact ⟨_, g⟩
    obtain ⟨n', hn'⟩ := hc
    have hfc : n.splitFeature < cs.length := by omega
    obtain ⟨cs', hw, hl', hs⟩ := ih (fuel := fuel) (by omega)
      (cs.set n.splitFeature (cs[n.splitFeature] + (val (n.childFor missing v) - val i)))
      (by simpa using hcs)
    refine ⟨cs', ?_, by simpa using hl', ?_⟩
    · rw [contribWalk]
      simp only [idx_eq_ok.2 h1, Res.ok_bind, h2, hv, getChildIdx_eq, h4, if_true, hd _ _ _ _ h1 hn',
        addAt_fin cs _ hfc]
      exact hw
    · rw [hs, sum_set _ _ hfc]; ring

/-- Fold of a per-tree step that adds the leaf value of the tree. -/
theorem fold_contribs {D' : Type} [Fl D'] {ts : List (Tree F D')} {entry : Nat → Option D'} {missing : D'}
    {ls : List (Node F D')} (hl : Leaves ts entry missing ls) (leafVal : Node F D' → K)
    (step : List (FX m) → Tree F D' → Res (List (FX m))) (N : Nat)
    (hstep : ∀ t l, t ∈ ts → Route t.nodes entry missing 0 l → ∀ cs : List K, cs.length = N →
      ∃ cs' : List K, step (cs.map FX.fin) t = .ok (cs'.map FX.fin) ∧ cs'.length = N ∧
        cs'.sum = cs.sum + leafVal l) (cs : List K) (hcs : cs.length = N) :
    ∃ cs' : List K, Res.foldM' step (cs.map FX.fin) ts = .ok (cs'.map FX.fin) ∧ cs'.length = N ∧
      cs'.sum = ls.foldl (fun a l => a + leafVal l) cs.sum := by
  induction hl generalizing cs with
  | nil => exact ⟨cs, rfl, hcs, rfl⟩
  | @cons t l ts ls hr _ ih =>
    obtain ⟨c1, h1, h2, h3⟩ := hstep t l (by simp) hr cs hcs
    obtain ⟨c2, g1, g2, g3⟩ := ih (fun t l ht => hstep t l (by simp [ht])) c1 h2
    exact ⟨c2, by simp [h1, g1], g2, by rw [g3, h3]; rfl⟩

theorem initContribs_eq (cols : Nat) (b : K) :
    initContribs cols (.fin b : FX m) = (List.replicate cols (0 : K) ++ [b]).map FX.fin := by
  simp [initContribs, FX.zero_def]

theorem sum_init (cols : Nat) (b : K) : (List.replicate cols (0 : K) ++ [b]).sum = b := by
  simp

theorem addBias_fin (cs : List K) (h : cs ≠ []) (v : K) :
    ∃ cs' : List K, addBias (cs.map (FX.fin : K → FX m)) (.fin v) = .ok (cs'.map FX.fin) ∧
      cs'.length = cs.length ∧ cs'.sum = cs.sum + v := by
  have hl : 0 < cs.length := List.length_pos_iff.2 h
  refine ⟨cs.set (cs.length - 1) (cs[cs.length - 1]'(by omega) + v), ?_, by simp, sum_set _ _ _ _⟩
  rw [addBias, List.length_map, addAt_fin cs (cs.length - 1) (by omega) v]

end exact

end Verif
