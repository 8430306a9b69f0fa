import Verif.Proofs.Contrib
import Verif.Proofs.Average
import Verif.Props.Predict

/-!
# Sums of the contributions of a row
-/

namespace Verif

open scoped Verif

variable {K : Type} [Field K] [LinearOrder K] {m32 m64 : Fmt K} [m32.Exact] [m64.Exact]

set_option linter.unusedSectionVars false

/-- With finite values the predicted value is the finite sum. -/
theorem PredictsRow.fin {ts : List (Tree (FX m32) (FX m64))} {base : K}
    {row : Nat → Option (FX m64)} {missing v : FX m64} (hv : ∀ t ∈ ts, t.FiniteValues)
    (h : PredictsRow (.fin base) ts row missing v) :
    ∃ ls, Leaves ts row missing ls ∧
      v = .fin (ls.foldl (fun a (l : Node (FX m32) (FX m64)) => a + l.weightValue.val) base) := by
  obtain ⟨ls, hl, rfl⟩ := h
  refine ⟨ls, hl, ?_⟩
  have hleaf : ∀ (t : Tree (FX m32) (FX m64)), t ∈ ts → ∀ {j l}, Route t.nodes row missing j l →
      l.weightValue.IsFin := by
    intro t ht j l h
    induction h with
    | leaf a b => exact hv t ht _ (List.mem_of_getElem? a)
    | step _ _ _ _ _ ih => exact ih
  unfold Leaves at hl
  induction hl generalizing base with
  | nil => rfl
  | @cons t l ts ls h1 h2 ih =>
    simp only [List.foldl_cons]
    obtain ⟨w, hw⟩ := hleaf t (by simp) h1
    rw [hw]
    simp only [FX.up_fin, FX.fin_add, FX.val]
    exact ih (fun t ht => hv t (by simp [ht])) (fun t ht => hleaf t (by simp [ht]))

/-- Collect per-row statements. -/
theorem rows_collect {data : Matrix (FX m64)} {f : Nat → Res (List (FX m64))} {out : List (FX m64)}
    (N : Nat) (g : FX m64 → FX m64) (hlen : out.length = data.rows)
    (h : ∀ (i : Nat) (o : FX m64), out[i]? = some o → ∃ cs : List K, f i = .ok (cs.map FX.fin) ∧
      cs.length = N ∧ g o = .fin cs.sum) :
    ∃ rows : List (List K), Res.mapM' f data.index = .ok (rows.map (List.map FX.fin)) ∧
      (∀ r ∈ rows, r.length = N) ∧ out.map g = rows.map fun r => FX.fin r.sum := by
  have hex : ∃ rs, Res.mapM' f data.index = .ok rs := by
    refine Res.mapM'_exists fun i hi => ?_
    rw [Matrix.index, List.mem_range] at hi
    obtain ⟨cs, h1, -⟩ := h i _ (List.getElem?_eq_getElem (by omega))
    exact ⟨_, h1⟩
  obtain ⟨rs, hrs⟩ := hex
  have hf := Res.mapM'_eq_ok.1 hrs
  rw [forall₂_index] at hf
  have key : ∀ (i : Nat) (r : List (FX m64)), rs[i]? = some r → ∃ (o : FX m64) (cs : List K),
      out[i]? = some o ∧ r = cs.map FX.fin ∧ cs.length = N ∧ g o = .fin cs.sum := by
    intro i r hr
    have hi := (List.getElem?_eq_some_iff.1 hr).1
    obtain ⟨cs, h1, h2, h3⟩ := h i _ (List.getElem?_eq_getElem (by omega : i < out.length))
    refine ⟨_, cs, List.getElem?_eq_getElem (by omega : i < out.length), ?_, h2, h3⟩
    have := hf.2 i r hr
    rw [h1] at this; exact (Res.ok.inj this).symm
  refine ⟨rs.map (List.map FX.val), ?_, ?_, ?_⟩
  · rw [hrs, List.map_map]
    congr 1
    refine List.ext_getElem? fun i => ?_
    rw [List.getElem?_map]
    cases hr : rs[i]? with
    | none => rfl
    | some r =>
      obtain ⟨o, cs, -, rfl, -⟩ := key i r hr
      simp [Function.comp_def, FX.val]
  · intro r hr
    rw [List.mem_map] at hr
    obtain ⟨r', hr', rfl⟩ := hr
    obtain ⟨i, hi, e⟩ := List.getElem_of_mem hr'
    obtain ⟨o, cs, -, rfl, h2, -⟩ := key i r' (by rw [List.getElem?_eq_getElem hi, e])
    simpa using h2
  · refine List.ext_getElem? fun i => ?_
    simp only [List.getElem?_map, Option.map_map]
    cases hr : rs[i]? with
    | none =>
      have : out[i]? = none := by
        rw [List.getElem?_eq_none_iff] at hr ⊢; omega
      rw [this]; rfl
    | some r =>
      obtain ⟨o, cs, h1, rfl, h2, h3⟩ := key i r hr
      simp [h1, h3, Function.comp_def, FX.val]

theorem contribWeight_sum {t : Tree (FX m32) (FX m64)} (ht : t.FiniteValues) {row : List (FX m64)}
    {missing : FX m64} {entry : Nat → Option (FX m64)} (hrow : ∀ f, idx row f = Res.ofOption (entry f))
    {l : Node (FX m32) (FX m64)} (hr : Route t.nodes entry missing 0 l) (cs : List K)
    (hcs : cs.length = row.length + 1) :
    ∃ cs' : List K, t.contribWeight row (cs.map FX.fin) missing = .ok (cs'.map FX.fin) ∧
      cs'.length = row.length + 1 ∧ cs'.sum = cs.sum + l.weightValue.val := by
  have hroot : ∃ n : Node (FX m32) (FX m64), t.nodes[0]? = some n := by
    cases hr with
    | leaf h => exact ⟨_, h⟩
    | step h => exact ⟨_, h⟩
  obtain ⟨root, hroot⟩ := hroot
  obtain ⟨k, hk⟩ := hr.exists_n
  obtain ⟨w0, hw0⟩ := ht _ (List.mem_of_getElem? hroot)
  obtain ⟨c1, h1, l1, s1⟩ := addBias_fin (m := m64) cs (by intro h; simp [h] at hcs) w0
  let val : Nat → K := fun i => match t.nodes[i]? with
    | some n => n.weightValue.val
    | none => 0
  obtain ⟨c2, h2, l2, s2⟩ := contribWalk_sum (delta := deltaWeight t.nodes) (val := val)
    (leafVal := fun n => n.weightValue.val) (by
      intro i c n n' hi hc
      obtain ⟨a, ha⟩ := ht _ (List.mem_of_getElem? hi)
      obtain ⟨b, hb⟩ := ht _ (List.mem_of_getElem? hc)
      simp [deltaWeight, idx_eq_ok.2 hc, val, hi, hc, ha, hb, FX.val])
    (by intro i n hi _; simp [val, hi]) hrow hk hk.lt_length c1 (by omega)
  refine ⟨c2, ?_, by omega, ?_⟩
  · rw [Tree.contribWeight, idx_eq_ok.2 hroot]
    simp only [Res.ok_bind, hw0, FX.up_fin, h1, h2]
  · rw [s2, s1]; simp [val, hroot, hw0, FX.val]

theorem contribAverage_sum {t : Tree (FX m32) (FX m64)} (hwf : t.Wf) (ht : t.FiniteValues)
    (hc : t.CoversOk) {row ws : List (FX m64)} (hws : t.distributeLeafWeights = .ok ws)
    {missing : FX m64} {entry : Nat → Option (FX m64)} (hrow : ∀ f, idx row f = Res.ofOption (entry f))
    {l : Node (FX m32) (FX m64)} (hr : Route t.nodes entry missing 0 l) (cs : List K)
    (hcs : cs.length = row.length + 1) :
    ∃ cs' : List K, t.contribAverage row (cs.map FX.fin) ws missing = .ok (cs'.map FX.fin) ∧
      cs'.length = row.length + 1 ∧ cs'.sum = cs.sum + l.weightValue.val := by
  obtain ⟨ws', e, hlen, hfill⟩ := distributeLeafWeights_spec hwf
  rw [hws] at e; cases e
  -- every node is filled
  have hall : ∀ i, i < t.nodes.length → Filled t.nodes ws i := by
    intro i
    induction i using Nat.strong_induction_on with
    | _ i ih =>
      intro hi
      rcases Nat.eq_zero_or_pos i with rfl | h0
      · exact hfill
      · obtain ⟨p, n, hp, hch⟩ := hwf.parent i h0 hi
        have hlt := (hwf.child p n i hp hch).1
        cases ih p hlt (by omega) with
        | mk g1 g2 g3 g4 => rw [hp] at g1; cases g1; exact g4 i hch
  have hval : ∀ (i : Nat) (n : Node (FX m32) (FX m64)), t.nodes[i]? = some n → ∃ a : K,
      ws[i]? = some (.fin a) ∧ AvgLeaf t.nodes i (.fin a) := by
    intro i n hi
    cases hall i (List.getElem?_eq_some_iff.1 hi).1 with
    | mk g1 g2 g3 g4 =>
      obtain ⟨a, rfl⟩ := g3.isFin ht hc
      exact ⟨a, g2, g3⟩
  have hroot : ∃ n : Node (FX m32) (FX m64), t.nodes[0]? = some n := by
    cases hr with
    | leaf h => exact ⟨_, h⟩
    | step h => exact ⟨_, h⟩
  obtain ⟨root, hroot⟩ := hroot
  obtain ⟨k, hk⟩ := hr.exists_n
  obtain ⟨w0, hw0, -⟩ := hval _ _ hroot
  obtain ⟨c1, h1, l1, s1⟩ := addBias_fin (m := m64) cs (by intro h; simp [h] at hcs) w0
  let val : Nat → K := fun i => match ws[i]? with
    | some a => a.val
    | none => 0
  obtain ⟨c2, h2, l2, s2⟩ := contribWalk_sum (delta := deltaAverage ws) (val := val) (nodes := t.nodes)
    (leafVal := fun n => n.weightValue.val) (by
      intro i c n n' hi hc
      obtain ⟨a, ha, -⟩ := hval _ _ hi
      obtain ⟨b, hb, -⟩ := hval _ _ hc
      simp [deltaAverage, idx_eq_ok.2 ha, idx_eq_ok.2 hb, val, ha, hb, FX.val])
    (by
      intro i n hi hl
      obtain ⟨a, ha, hA⟩ := hval _ _ hi
      have := hA.unique (.leaf hi hl)
      obtain ⟨w, hw⟩ := ht _ (List.mem_of_getElem? hi)
      rw [hw, FX.up_fin] at this
      cases this
      simp [val, ha, hw, FX.val]) hrow hk hk.lt_length c1 (by omega)
  refine ⟨c2, ?_, by omega, ?_⟩
  · rw [Tree.contribAverage, idx_eq_ok.2 hw0]
    simp only [Res.ok_bind, h1, h2]
  · rw [s2, s1]; simp [val, hw0, FX.val]

theorem contribProb_sum {t : Tree (FX m32) (FX m64)} (ht : t.FiniteValues) {σ : K → K}
    (hσ : ∀ x : K, odds (.fin x : FX m64) = .fin (σ x)) {row : List (FX m64)}
    {missing : FX m64} {entry : Nat → Option (FX m64)} (hrow : ∀ f, idx row f = Res.ofOption (entry f))
    {l : Node (FX m32) (FX m64)} (hr : Route t.nodes entry missing 0 l) (cs : List K) (lo : K)
    (hcs : cs.length = row.length + 1) :
    ∃ cs' : List K, t.contribProb row (cs.map FX.fin) missing (.fin lo) =
        .ok (cs'.map FX.fin, .fin (lo + l.weightValue.val)) ∧
      cs'.length = row.length + 1 ∧
      cs'.sum = cs.sum + (σ (lo + l.weightValue.val) - σ lo) := by
  have hroot : ∃ n : Node (FX m32) (FX m64), t.nodes[0]? = some n := by
    cases hr with
    | leaf h => exact ⟨_, h⟩
    | step h => exact ⟨_, h⟩
  obtain ⟨root, hroot⟩ := hroot
  have hlf : l.weightValue.IsFin := by
    have : ∀ {j l}, Route t.nodes entry missing j l → l.weightValue.IsFin := by
      intro j l h
      induction h with
      | leaf a b => exact ht _ (List.mem_of_getElem? a)
      | step _ _ _ _ _ ih => exact ih
    exact this hr
  obtain ⟨k, hk⟩ := hr.exists_n
  obtain ⟨w0, hw0⟩ := ht _ (List.mem_of_getElem? hroot)
  obtain ⟨c1, h1, l1, s1⟩ := addBias_fin (m := m64) cs (by intro h; simp [h] at hcs)
    (σ (lo + w0) - σ lo)
  let val : Nat → K := fun i => match t.nodes[i]? with
    | some n => σ (n.weightValue.val + lo)
    | none => 0
  obtain ⟨c2, h2, l2, s2⟩ := contribWalk_sum (delta := deltaProb t.nodes (.fin lo)) (val := val)
    (leafVal := fun n => σ (n.weightValue.val + lo)) (by
      intro i c n n' hi hc
      obtain ⟨a, ha⟩ := ht _ (List.mem_of_getElem? hi)
      obtain ⟨b, hb⟩ := ht _ (List.mem_of_getElem? hc)
      simp [deltaProb, idx_eq_ok.2 hc, val, hi, hc, ha, hb, FX.val, hσ])
    (by intro i n hi _; simp [val, hi]) hrow hk hk.lt_length c1 (by omega)
  refine ⟨c2, ?_, by omega, ?_⟩
  · rw [Tree.contribProb, idx_eq_ok.2 hroot]
    simp only [Res.ok_bind, hw0, FX.up_fin, FX.fin_add, hσ, FX.fin_sub, h1, h2]
    rw [hlf.eq, FX.up_fin, FX.fin_add]; rfl
  · have hv0 : val 0 = σ (lo + w0) := by simp [val, hroot, hw0, FX.val, add_comm]
    rw [s2, s1, hv0, add_comm l.weightValue.val lo]; ring

end Verif
