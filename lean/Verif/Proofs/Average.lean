import Verif.Spec.Average
import Verif.Proofs.Data

/-!
# `distribute_leaf_weights` and `get_average_leaf_weights` compute `AvgLeaf`
-/

namespace Verif

variable {F D : Type} [Fl F] [Fl D] [FlCast F D]

set_option linter.unusedSectionVars false

theorem hasMissingBranch_iff (n : Node F D) :
    n.hasMissingBranch = true ↔ n.missingNode ≠ n.rightChild ∧ n.missingNode ≠ n.leftChild := by
  simp [Node.hasMissingBranch]

theorem AvgLeaf.unique {nodes : List (Node F D)} {i : Nat} {a b : D} (h : AvgLeaf nodes i a)
    (h' : AvgLeaf nodes i b) : a = b := by
  induction h generalizing b with
  | leaf h1 h2 =>
    cases h' with
    | leaf g1 g2 => rw [h1] at g1; cases g1; rfl
    | two g1 g2 => rw [h1] at g1; cases g1; simp_all
    | three g1 g2 => rw [h1] at g1; cases g1; simp_all
  | two h1 h2 h3 h4 h5 h6 h7 ih1 ih2 =>
    cases h' with
    | leaf g1 g2 => rw [h1] at g1; cases g1; simp_all
    | two g1 g2 g3 g4 g5 g6 g7 =>
      rw [h1] at g1; cases g1
      rw [h4] at g4; cases g4
      rw [h5] at g5; cases g5
      rw [ih1 g6, ih2 g7]
    | three g1 g2 g3 g4 =>
      rw [h1] at g1; cases g1
      rcases h3 with h3 | h3
      · exact absurd h3 g3
      · exact absurd h3 g4
  | three h1 h2 h3 h4 h5 h6 h7 h8 h9 h10 ih1 ih2 ih3 =>
    cases h' with
    | leaf g1 g2 => rw [h1] at g1; cases g1; simp_all
    | two g1 g2 g3 g4 g5 g6 g7 =>
      rw [h1] at g1; cases g1
      rcases g3 with g3 | g3
      · exact absurd g3 h3
      · exact absurd g3 h4
    | three g1 g2 g3 g4 g5 g6 g7 g8 g9 g10 =>
      rw [h1] at g1; cases g1
      rw [h5] at g5; cases g5
      rw [h6] at g6; cases g6
      rw [h7] at g7; cases g7
      rw [ih1 g8, ih2 g9, ih3 g10]

theorem averageLeafWeights_sound {nodes : List (Node F D)} {fuel i : Nat} {a : D}
    (h : averageLeafWeights nodes fuel i = .ok a) : AvgLeaf nodes i a := by
  induction fuel generalizing i a with
  | zero => simp [averageLeafWeights] at h
  | succ fuel ih =>
    rw [averageLeafWeights, Res.bind_eq_ok] at h
    obtain ⟨n, hn, h⟩ := h
    rw [idx_eq_ok] at hn
    split at h
    · next hl => cases h; exact .leaf hn hl
    · next hl =>
      have hl' : n.isLeaf = false := by simpa using hl
      simp only [Res.bind_eq_ok, idx_eq_ok] at h
      obtain ⟨l, h1, r, h2, x, h3, y, h4, h5⟩ := h
      split at h5
      · next hm =>
        rw [hasMissingBranch_iff] at hm
        simp only [Res.bind_eq_ok, idx_eq_ok, Res.pure_def, Res.ok.injEq] at h5
        obtain ⟨m, h6, z, h7, _, rfl, rfl⟩ := h5
        exact .three hn hl' hm.1 hm.2 h1 h2 h6 (ih h3) (ih h4) (ih h7)
      · next hm =>
        simp only [Res.bind_eq_ok, Res.pure_def, Res.ok.injEq] at h5
        obtain ⟨_, rfl, rfl⟩ := h5
        rw [hasMissingBranch_iff, not_and_or, not_not, not_not] at hm
        exact .two hn hl' hm h1 h2 (ih h3) (ih h4)

/-- The subtree of `i` is filled in `ws` with the averages. -/
inductive Filled (nodes : List (Node F D)) (ws : List D) : Nat → Prop
  | mk {i : Nat} {n : Node F D} {a : D} : nodes[i]? = some n → ws[i]? = some a → AvgLeaf nodes i a →
      (∀ j, n.IsChild j → Filled nodes ws j) → Filled nodes ws i

theorem Filled.set {nodes : List (Node F D)} {ws : List D} {i j : Nat} {a : D}
    (ha : AvgLeaf nodes i a) (h : Filled nodes ws j) : Filled nodes (ws.set i a) j := by
  induction h with
  | @mk j n b h1 h2 h3 _ ih =>
    refine .mk h1 ?_ h3 ih
    rw [List.getElem?_set]
    have := (List.getElem?_eq_some_iff.1 h2).1
    split
    · next e => subst e; rw [if_pos this, h3.unique ha]
    · exact h2

theorem distributeNode_sound {nodes : List (Node F D)} {fuel i : Nat} {ws ws' : List D} {a : D}
    (hlen : ws.length = nodes.length) (h : distributeNode nodes fuel i ws = .ok (ws', a)) :
    AvgLeaf nodes i a ∧ ws'.length = ws.length ∧ Filled nodes ws' i ∧
      (∀ j, Filled nodes ws j → Filled nodes ws' j) := by
  induction fuel generalizing i a ws ws' with
  | zero => simp [distributeNode] at h
  | succ fuel ih =>
    rw [distributeNode, Res.bind_eq_ok] at h
    obtain ⟨n, hn, h⟩ := h
    rw [idx_eq_ok] at hn
    have hi : i < ws.length := by rw [hlen]; exact (List.getElem?_eq_some_iff.1 hn).1
    split at h
    · next hl =>
      cases h
      have hA : AvgLeaf nodes i (up n.weightValue) := .leaf hn hl
      refine ⟨hA, by simp, .mk hn (by rw [List.getElem?_set_self hi]) hA ?_, fun j hj => hj.set hA⟩
      intro j hj; rw [Node.IsChild, hl] at hj; simp at hj
    · next hl =>
      have hl' : n.isLeaf = false := by simpa using hl
      simp only [Res.bind_eq_ok, idx_eq_ok, Prod.exists] at h
      obtain ⟨l, h1, r, h2, w1, x, h3, w2, y, h4, h5⟩ := h
      obtain ⟨a1, l1, f1, k1⟩ := ih hlen h3
      obtain ⟨a2, l2, f2, k2⟩ := ih (by omega) h4
      split at h5
      · next hm =>
        rw [hasMissingBranch_iff] at hm
        simp only [Res.bind_eq_ok, idx_eq_ok, Res.pure_def, Res.ok.injEq, Prod.exists,
          Prod.mk.injEq] at h5
        obtain ⟨m, h6, w4, u, h7, _, _, ⟨rfl, rfl⟩, rfl, rfl⟩ := h5
        obtain ⟨a3, l3, f3, k3⟩ := ih (by omega) h7
        have hA : AvgLeaf nodes i _ := .three hn hl' hm.1 hm.2 h1 h2 h6 a1 a2 a3
        refine ⟨hA, by simp; omega, .mk hn (by rw [List.getElem?_set_self (by omega)]) hA ?_,
          fun j hj => (k3 _ (k2 _ (k1 _ hj))).set hA⟩
        rintro j ⟨_, rfl | rfl | rfl⟩
        · exact (k3 _ (k2 _ f1)).set hA
        · exact (k3 _ f2).set hA
        · exact f3.set hA
      · next hm =>
        simp only [Res.bind_eq_ok, Res.pure_def, Res.ok.injEq, Prod.exists, Prod.mk.injEq] at h5
        obtain ⟨_, _, ⟨rfl, rfl⟩, rfl, rfl⟩ := h5
        rw [hasMissingBranch_iff, not_and_or, not_not, not_not] at hm
        have hA : AvgLeaf nodes i _ := .two hn hl' hm h1 h2 a1 a2
        refine ⟨hA, by simp; omega, .mk hn (by rw [List.getElem?_set_self (by omega)]) hA ?_,
          fun j hj => (k2 _ (k1 _ hj)).set hA⟩
        rintro j ⟨_, hj⟩
        have : j = n.leftChild ∨ j = n.rightChild := by
          rcases hj with h | h | h
          · exact .inl h
          · exact .inr h
          · rcases hm with hm | hm
            · exact .inr (h.trans hm)
            · exact .inl (h.trans hm)
        rcases this with rfl | rfl
        · exact (k2 _ f1).set hA
        · exact f2.set hA

/-- On well-formed trees the recursion does not run out of fuel. -/
theorem distributeNode_total {t : Tree F D} (ht : t.Wf) {fuel i : Nat} (hi : i < t.nodes.length)
    (hf : t.nodes.length - i ≤ fuel) (ws : List D) :
    ∃ r, distributeNode t.nodes fuel i ws = .ok r := by
  induction fuel generalizing i ws with
  | zero => omega
  | succ fuel ih =>
    have hn := List.getElem?_eq_getElem hi
    rw [distributeNode, idx_eq_ok.2 hn]
    simp only [Res.ok_bind]
    split
    · exact ⟨_, rfl⟩
    · next hl =>
      have hl' : t.nodes[i].isLeaf = false := by simpa using hl
      obtain ⟨c1, c2⟩ := ht.child _ _ t.nodes[i].leftChild hn ⟨hl', .inl rfl⟩
      obtain ⟨c3, c4⟩ := ht.child _ _ t.nodes[i].rightChild hn ⟨hl', .inr (.inl rfl)⟩
      obtain ⟨c5, c6⟩ := ht.child _ _ t.nodes[i].missingNode hn ⟨hl', .inr (.inr rfl)⟩
      rw [idx_of_lt c2, idx_of_lt c4]
      simp only [Res.ok_bind]
      obtain ⟨⟨w1, a1⟩, h1⟩ := ih c2 (by omega) ws
      rw [h1]; simp only [Res.ok_bind]
      obtain ⟨⟨w2, a2⟩, h2⟩ := ih c4 (by omega) w1
      rw [h2]; simp only [Res.ok_bind]
      split
      · rw [idx_of_lt c6]
        obtain ⟨⟨w3, a3⟩, h3⟩ := ih c6 (by omega) w2
        rw [Res.ok_bind, h3]
        exact ⟨_, rfl⟩
      · exact ⟨_, rfl⟩

theorem averageLeafWeights_total {t : Tree F D} (ht : t.Wf) {fuel i : Nat} (hi : i < t.nodes.length)
    (hf : t.nodes.length - i ≤ fuel) : ∃ r, averageLeafWeights t.nodes fuel i = .ok r := by
  induction fuel generalizing i with
  | zero => omega
  | succ fuel ih =>
    have hn := List.getElem?_eq_getElem hi
    rw [averageLeafWeights, idx_eq_ok.2 hn]
    simp only [Res.ok_bind]
    split
    · exact ⟨_, rfl⟩
    · next hl =>
      have hl' : t.nodes[i].isLeaf = false := by simpa using hl
      obtain ⟨c1, c2⟩ := ht.child _ _ t.nodes[i].leftChild hn ⟨hl', .inl rfl⟩
      obtain ⟨c3, c4⟩ := ht.child _ _ t.nodes[i].rightChild hn ⟨hl', .inr (.inl rfl)⟩
      obtain ⟨c5, c6⟩ := ht.child _ _ t.nodes[i].missingNode hn ⟨hl', .inr (.inr rfl)⟩
      rw [idx_of_lt c2, idx_of_lt c4]
      obtain ⟨a1, h1⟩ := ih c2 (by omega)
      obtain ⟨a2, h2⟩ := ih c4 (by omega)
      simp only [Res.ok_bind, h1, h2]
      split
      · rw [idx_of_lt c6]
        obtain ⟨a3, h3⟩ := ih c6 (by omega)
        rw [Res.ok_bind, h3]
        exact ⟨_, rfl⟩
      · exact ⟨_, rfl⟩

theorem distributeLeafWeights_spec {t : Tree F D} (ht : t.Wf) :
    ∃ ws, t.distributeLeafWeights = .ok ws ∧ ws.length = t.nodes.length ∧ Filled t.nodes ws 0 := by
  have h0 : 0 < t.nodes.length := List.length_pos_iff.2 ht.nonempty
  obtain ⟨⟨ws, a⟩, h⟩ := distributeNode_total ht h0 (fuel := t.nodes.length) (by omega)
    (List.replicate t.nodes.length 0)
  obtain ⟨_, h2, h3, _⟩ := distributeNode_sound (by simp) h
  exact ⟨ws, by rw [Tree.distributeLeafWeights, h]; rfl, by simpa using h2, h3⟩

section exact
variable {K : Type} [Field K] [LinearOrder K] {m32 m64 : Fmt K} [m32.Exact] [m64.Exact]

theorem AvgLeaf.isFin {t : Tree (FX m32) (FX m64)} (hv : t.FiniteValues) (hc : t.CoversOk) {i : Nat}
    {a : FX m64} (h : AvgLeaf t.nodes i a) : a.IsFin := by
  induction h with
  | leaf h1 h2 =>
    obtain ⟨w, hw⟩ := hv _ (List.mem_of_getElem? h1)
    exact ⟨w, by rw [hw]; rfl⟩
  | two h1 h2 h3 h4 h5 _ _ ih1 ih2 =>
    obtain ⟨c, hc0, hn⟩ := hc _ (List.mem_of_getElem? h1)
    obtain ⟨cl, hcl, _⟩ := hc _ (List.mem_of_getElem? h4)
    obtain ⟨cr, hcr, _⟩ := hc _ (List.mem_of_getElem? h5)
    obtain ⟨x, rfl⟩ := ih1
    obtain ⟨y, rfl⟩ := ih2
    refine ⟨(cl * x + cr * y) / c, ?_⟩
    rw [hc0, hcl, hcr]
    simp only [FX.up_fin, FX.fin_mul, FX.fin_add, FX.fin_div _ _ (hn h2)]
  | three h1 h2 _ _ h4 h5 h6 _ _ _ ih1 ih2 ih3 =>
    obtain ⟨c, hc0, hn⟩ := hc _ (List.mem_of_getElem? h1)
    obtain ⟨cl, hcl, _⟩ := hc _ (List.mem_of_getElem? h4)
    obtain ⟨cr, hcr, _⟩ := hc _ (List.mem_of_getElem? h5)
    obtain ⟨cm, hcm, _⟩ := hc _ (List.mem_of_getElem? h6)
    obtain ⟨x, rfl⟩ := ih1
    obtain ⟨y, rfl⟩ := ih2
    obtain ⟨z, rfl⟩ := ih3
    refine ⟨(cl * x + cr * y + cm * z) / c, ?_⟩
    rw [hc0, hcl, hcr, hcm]
    simp only [FX.up_fin, FX.fin_mul, FX.fin_add, FX.fin_div _ _ (hn h2)]

end exact

end Verif
