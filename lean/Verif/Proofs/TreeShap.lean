import Verif.Proofs.ShapleyPath
import Verif.Proofs.Average
import Verif.Proofs.Route

/-!
# `tree_shap` adds the Shapley values of the game played by a tree
-/

namespace Verif

open scoped Verif BigOperators Nat

set_option linter.unusedSectionVars false

variable {K : Type} [Field K] [LinearOrder K] [IsStrictOrderedRing K]
  {m32 m64 : Fmt K} [m32.Exact] [m64.Exact]

/-- The first `n` entries grow by `φ`, the bias stays. -/
structure Adds (n : Nat) (cs cs' : List K) (φ : Nat → K) : Prop where
  len : cs'.length = n + 1
  feature : ∀ f < n, cs'.getD f 0 = cs.getD f 0 + φ f
  bias : cs'.getD n 0 = cs.getD n 0

theorem Adds.congr {n : Nat} {cs cs' : List K} {φ ψ : Nat → K} (h : Adds n cs cs' φ)
    (he : ∀ f < n, φ f = ψ f) : Adds n cs cs' ψ :=
  ⟨h.len, fun f hf => by rw [h.feature f hf, he f hf], h.bias⟩

/-- Successive additions. -/
theorem fold_adds {α : Type} {n : Nat} {g : List (FX m64) → α → Res (List (FX m64))} {φ : α → Nat → K}
    (l : List α)
    (h : ∀ a ∈ l, ∀ cs : List K, cs.length = n + 1 →
      ∃ cs' : List K, g (cs.map FX.fin) a = .ok (cs'.map FX.fin) ∧ Adds n cs cs' (φ a))
    (cs : List K) (hcs : cs.length = n + 1) :
    ∃ cs' : List K, Res.foldM' g (cs.map FX.fin) l = .ok (cs'.map FX.fin) ∧
      Adds n cs cs' fun f => (l.map fun a => φ a f).sum := by
  induction l generalizing cs with
  | nil => exact ⟨cs, rfl, hcs, fun f _ => by simp, rfl⟩
  | cons a l ih =>
    obtain ⟨c1, h1, a1⟩ := h a (by simp) cs hcs
    obtain ⟨c2, h2, a2⟩ := ih (fun b hb => h b (by simp [hb])) c1 a1.len
    refine ⟨c2, by rw [Res.foldM'_cons, h1, Res.ok_bind, h2], a2.len, fun f hf => ?_, by rw [a2.bias, a1.bias]⟩
    rw [a2.feature f hf, a1.feature f hf, List.map_cons, List.sum_cons]
    ring

theorem getD_set (cs : List K) (i : Nat) (hi : i < cs.length) (v : K) (f : Nat) :
    (cs.set i (cs[i] + v)).getD f 0 = cs.getD f 0 + if i = f then v else 0 := by
  by_cases h : i = f
  · subst h
    simp [hi]
  · rw [if_neg h, List.getD_eq_getElem?_getD, List.getElem?_set_ne h, ← List.getD_eq_getElem?_getD, add_zero]

/-- What a leaf of value `w` adds for the `k`-th element of the path. -/
def leafTerm (L : List (Nat × K × K)) (w : K) (k : Nat) : K :=
  (∑ j ∈ Finset.range L.length, pw ((L.eraseIdx k).map Prod.snd) j) *
    ((L.getD k (0, 0, 0)).2.2 - (L.getD k (0, 0, 0)).2.1) * w

theorem leafContribs_spec {rf : Nat} {p : List (PathElement (FX m32))} {L : List (Nat × K × K)}
    (h : PathIs rf p L) (w : K) (n k : Nat) (hk : k + n = L.length) (cs : List K)
    (hcs : ∀ x ∈ L, x.1 < cs.length) :
    ∃ cs' : List K, leafContribs p L.length (.fin w) n (k + 1) (cs.map (FX.fin : K → FX m64)) =
        .ok (cs'.map FX.fin) ∧ cs'.length = cs.length ∧
      ∀ f, cs'.getD f 0 = cs.getD f 0 +
        ∑ j ∈ Finset.Ico k L.length, if (L.getD j (0, 0, 0)).1 = f then leafTerm L w j else 0 := by
  induction n generalizing k cs with
  | zero =>
    refine ⟨cs, rfl, rfl, fun f => ?_⟩
    rw [Finset.Ico_eq_empty (by omega)]
    simp
  | succ n ih =>
    have hlt : k < L.length := by omega
    have hx := List.getElem?_eq_getElem hlt
    obtain ⟨s, hs, hs'⟩ := unwoundPathSum_spec h hx
    have hel : ((rf, (1 : K), (1 : K)) :: L).getD (k + 1) (0, 0, 0) = L[k] := by
      rw [List.getD_eq_getElem?_getD, List.getElem?_cons_succ, hx]; rfl
    have hfl : L[k].1 < cs.length := hcs _ (List.getElem_mem hlt)
    have hD : L.getD k (0, 0, 0) = L[k] := by simp [hlt]
    obtain ⟨c2, h2, l2, s2⟩ := ih (k + 1) (by omega) (cs.set L[k].1 (cs[L[k].1] + leafTerm L w k))
      (fun x hx => by rw [List.length_set]; exact hcs x hx)
    refine ⟨c2, ?_, by rw [l2, List.length_set], fun f => ?_⟩
    · rw [leafContribs, hs]
      simp only [Res.ok_bind]
      rw [getEl_view h (by omega)]
      simp only [Res.ok_bind, hel]
      have hval : (up (FX.fin s * ((mkEl (m := m32) L[k] (pw (L.map Prod.snd) (k + 1))).one -
          (mkEl (m := m32) L[k] (pw (L.map Prod.snd) (k + 1))).zero) * FX.fin w) : FX m64) =
          .fin (leafTerm L w k) := by
        simp only [mkEl, FX.fin_sub, FX.fin_mul, FX.up_fin, leafTerm, hD]
        rw [hs']
      rw [hval]
      change addAt _ L[k].1 _ >>= _ = _
      rw [addAt_fin cs L[k].1 hfl]
      exact h2
    · rw [s2, getD_set, Finset.sum_eq_sum_Ico_succ_bot hlt, hD]
      ring

/-- The terms of a leaf are the Shapley values of the product game. -/
theorem leaf_shapley {n : Nat} {L : List (Nat × K × K)} (hn : (L.map Prod.fst).Nodup)
    (hN : ∀ x ∈ L, x.1 < n) (w : K) (f : Nat) :
    (∑ j ∈ Finset.Ico 0 L.length, if (L.getD j (0, 0, 0)).1 = f then leafTerm L w j else 0) =
      shapleyValue (Finset.range n) (fun S => prodGame L S * w) f := by
  have hmul : (fun S => prodGame L S * w) = fun S => w * prodGame L S := by
    funext S; ring
  rw [hmul, shapleyValue_mul]
  by_cases hf : f ∈ L.map Prod.fst
  · obtain ⟨x, hx, rfl⟩ := List.mem_map.1 hf
    obtain ⟨k, hk, e⟩ := List.getElem_of_mem hx
    have hx' : L[k]? = some x := by rw [List.getElem?_eq_getElem hk, e]
    have hD : L.getD k (0, 0, 0) = x := by rw [List.getD_eq_getElem?_getD, hx']; rfl
    rw [Finset.sum_eq_single k]
    · rw [if_pos (by rw [hD]), leafTerm, hD, shapley_prodGame hn (fun y hy => Finset.mem_range.2 (hN y hy)) hx']
      ring
    · intro j hj hjk
      refine if_neg fun hc => hjk ?_
      have hjl := (Finset.mem_Ico.1 hj).2
      have hjD : L.getD j (0, 0, 0) = L[j] := by simp [hjl]
      rw [hjD] at hc
      have := hn.getElem_inj_iff (i := j) (j := k) (hi := by simpa using hjl) (hj := by simpa using hk)
      refine this.1 ?_
      rw [List.getElem_map, List.getElem_map, hc, e]
    · intro hc
      exact absurd (Finset.mem_Ico.2 ⟨Nat.zero_le k, hk⟩) hc
  · rw [shapley_prodGame_null hf, mul_zero]
    refine Finset.sum_eq_zero fun j hj => if_neg fun hc => hf ?_
    have hjl := (Finset.mem_Ico.1 hj).2
    have hjD : L.getD j (0, 0, 0) = L[j] := by simp [hjl]
    rw [hjD] at hc
    exact List.mem_map.2 ⟨L[j], List.getElem_mem hjl, hc⟩

/-- The search for a feature on the path. -/
theorem findOnPath_spec {depth : Nat} {p : List (PathElement (FX m32))} {e : Nat → PathElement (FX m32)}
    (h : View p (depth + 1) e) (f n i : Nat) (hi : i + n = depth + 1) :
    ∃ r, findOnPath p depth f n i = .ok r ∧
      ((i ≤ r ∧ r ≤ depth ∧ (e r).feature = f) ∨
        (r = depth + 1 ∧ ∀ j, i ≤ j → j ≤ depth → (e j).feature ≠ f)) := by
  induction n generalizing i with
  | zero => exact ⟨i, rfl, .inr ⟨by omega, fun j h1 h2 => by omega⟩⟩
  | succ n ih =>
    rw [findOnPath, if_pos (by omega), idx_eq_ok.2 (h i (by omega))]
    simp only [Res.ok_bind]
    by_cases hf : (e i).feature = f
    · exact ⟨i, by rw [if_pos hf], .inl ⟨le_rfl, by omega, hf⟩⟩
    · obtain ⟨r, h1, h2⟩ := ih (i + 1) (by omega)
      refine ⟨r, by rw [if_neg hf, h1], ?_⟩
      rcases h2 with ⟨a, b, c⟩ | ⟨a, b⟩
      · exact .inl ⟨by omega, b, c⟩
      · refine .inr ⟨a, fun j h1 h2 => ?_⟩
        rcases Nat.eq_or_lt_of_le h1 with rfl | h1
        · exact hf
        · exact b j h1 h2

theorem findOnPath_path {rf : Nat} {p : List (PathElement (FX m32))} {L : List (Nat × K × K)}
    (h : PathIs rf p L) {f : Nat} (hrf : rf ≠ f) :
    (∃ k x, L[k]? = some x ∧ x.1 = f ∧ findOnPath p L.length f (L.length + 1) 0 = .ok (k + 1)) ∨
      (f ∉ L.map Prod.fst ∧ findOnPath p L.length f (L.length + 1) 0 = .ok (L.length + 1)) := by
  obtain ⟨r, h1, h2⟩ := findOnPath_spec h f (L.length + 1) 0 (by omega)
  rcases h2 with ⟨_, b, c⟩ | ⟨a, b⟩
  · cases r with
    | zero => exact absurd c hrf
    | succ k =>
      have hk := List.getElem?_eq_getElem (by omega : k < L.length)
      refine .inl ⟨k, L[k], hk, ?_, h1⟩
      simpa [mkEl, hk] using c
  · subst a
    refine .inr ⟨fun hc => ?_, h1⟩
    obtain ⟨x, hx, e⟩ := List.mem_map.1 hc
    obtain ⟨k, hk, e'⟩ := List.getElem_of_mem hx
    refine b (k + 1) (by omega) (by omega) ?_
    simp [mkEl, List.getElem?_eq_getElem hk, e', e]

/-! ### The game played by a tree -/

section game
variable {nodes : List (Node (FX m32) (FX m64))} {entry : Nat → Option (FX m64)} {missing : FX m64}

theorem CondExp.unique {S : Finset Nat} {i : Nat} {a b : K} (h : CondExp nodes entry missing S i a)
    (h' : CondExp nodes entry missing S i b) : a = b := by
  induction h generalizing b with
  | leaf h1 h2 h3 =>
    cases h' with
    | leaf g1 g2 g3 => rw [h1] at g1; cases g1; rw [h3] at g3; exact FX.fin.inj g3
    | known g1 g2 => rw [h1] at g1; cases g1; simp_all
    | two g1 g2 => rw [h1] at g1; cases g1; simp_all
    | three g1 g2 => rw [h1] at g1; cases g1; simp_all
  | known h1 h2 h3 h4 h5 h6 ih =>
    cases h' with
    | leaf g1 g2 => rw [h1] at g1; cases g1; simp_all
    | known g1 g2 g3 g4 g5 g6 =>
      rw [h1] at g1; cases g1
      rw [h4] at g4; cases g4
      exact ih g6
    | two g1 g2 g3 => rw [h1] at g1; cases g1; exact absurd h3 g3
    | three g1 g2 g3 => rw [h1] at g1; cases g1; exact absurd h3 g3
  | two h1 h2 h3 h4 h5 h6 h7 h8 h9 h10 h11 ih1 ih2 =>
    cases h' with
    | leaf g1 g2 => rw [h1] at g1; cases g1; simp_all
    | known g1 g2 g3 => rw [h1] at g1; cases g1; exact absurd g3 h3
    | two g1 g2 g3 g4 g5 g6 g7 g8 g9 g10 g11 =>
      rw [h1] at g1; cases g1
      rw [h5] at g5; cases g5
      rw [h6] at g6; cases g6
      rw [h7] at g7; cases g7
      rw [h8] at g8; cases g8
      rw [h9] at g9; cases g9
      rw [ih1 g10, ih2 g11]
    | three g1 g2 g3 g4 g5 =>
      rw [h1] at g1; cases g1
      rcases h4 with h4 | h4
      · exact absurd h4 g4
      · exact absurd h4 g5
  | three h1 h2 h3 h4 h5 h6 h7 h8 h9 h10 h11 h12 h13 h14 h15 ih1 ih2 ih3 =>
    cases h' with
    | leaf g1 g2 => rw [h1] at g1; cases g1; simp_all
    | known g1 g2 g3 => rw [h1] at g1; cases g1; exact absurd g3 h3
    | two g1 g2 g3 g4 =>
      rw [h1] at g1; cases g1
      rcases g4 with g4 | g4
      · exact absurd g4 h4
      · exact absurd g4 h5
    | three g1 g2 g3 g4 g5 g6 g7 g8 g9 g10 g11 g12 g13 g14 g15 =>
      rw [h1] at g1; cases g1
      rw [h6] at g6; cases g6
      rw [h7] at g7; cases g7
      rw [h8] at g8; cases g8
      rw [h9] at g9; cases g9
      rw [h10] at g10; cases g10
      rw [h11] at g11; cases g11
      rw [h12] at g12; cases g12
      rw [ih1 g13, ih2 g14, ih3 g15]

end game

/-- The value of every tested feature can be read from the row. -/
def Tree.RowReadable (t : Tree (FX m32) (FX m64)) (entry : Nat → Option (FX m64)) (missing : FX m64) : Prop :=
  ∀ n ∈ t.nodes, n.isLeaf = false → ∃ v, entry n.splitFeature = some v ∧ Readable missing v

variable {t : Tree (FX m32) (FX m64)} {entry : Nat → Option (FX m64)} {missing : FX m64}

theorem Node.childFor_mem {F D : Type} [Fl D] (n : Node F D) (hl : n.isLeaf = false) (missing v : D) :
    n.IsChild (n.childFor missing v) := by
  refine ⟨hl, ?_⟩
  unfold Node.childFor
  split
  · exact .inr (.inr rfl)
  · split
    · exact .inl rfl
    · exact .inr (.inl rfl)

/-- The conditional expectation exists at each node. -/
theorem condExp_exists (hwf : t.Wf) (hv : t.FiniteValues) (hc : t.CoversOk) (hr : t.RowReadable entry missing)
    (S : Finset Nat) (i : Nat) (hi : i < t.nodes.length) : ∃ e, CondExp t.nodes entry missing S i e := by
  induction h : t.nodes.length - i using Nat.strong_induction_on generalizing i with
  | _ k ih =>
    subst h
    have hn := List.getElem?_eq_getElem hi
    have hm := List.mem_of_getElem? hn
    have kid : ∀ j, t.nodes[i].IsChild j → ∃ e, CondExp t.nodes entry missing S j e := fun j hj => by
      obtain ⟨c1, c2⟩ := hwf.child _ _ j hn hj
      exact ih _ (by omega) j c2 rfl
    have cov : ∀ j, t.nodes[i].IsChild j → ∃ n h, t.nodes[j]? = some n ∧ n.hessianSum = .fin h := fun j hj => by
      obtain ⟨c1, c2⟩ := hwf.child _ _ j hn hj
      obtain ⟨h, h1, _⟩ := hc _ (List.getElem_mem c2)
      exact ⟨_, h, List.getElem?_eq_getElem c2, h1⟩
    by_cases hl : t.nodes[i].isLeaf = true
    · obtain ⟨w, hw⟩ := hv _ hm
      exact ⟨w, .leaf hn hl hw⟩
    · have hl' : t.nodes[i].isLeaf = false := by simpa using hl
      obtain ⟨v, v1, v2⟩ := hr _ hm hl'
      obtain ⟨h0, hh0, _⟩ := hc _ hm
      by_cases hS : t.nodes[i].splitFeature ∈ S
      · obtain ⟨e, he⟩ := kid _ (t.nodes[i].childFor_mem hl' missing v)
        exact ⟨e, .known hn hl' hS v1 v2 he⟩
      · have cl : t.nodes[i].IsChild t.nodes[i].leftChild := ⟨hl', .inl rfl⟩
        have cr : t.nodes[i].IsChild t.nodes[i].rightChild := ⟨hl', .inr (.inl rfl)⟩
        have cm : t.nodes[i].IsChild t.nodes[i].missingNode := ⟨hl', .inr (.inr rfl)⟩
        obtain ⟨a, ha⟩ := kid _ cl
        obtain ⟨b, hb⟩ := kid _ cr
        obtain ⟨c, hc'⟩ := kid _ cm
        obtain ⟨nl, hL, l1, l2⟩ := cov _ cl
        obtain ⟨nr, hR, r1, r2⟩ := cov _ cr
        obtain ⟨nm, hM, m1, m2⟩ := cov _ cm
        by_cases hb' : t.nodes[i].missingNode ≠ t.nodes[i].rightChild ∧ t.nodes[i].missingNode ≠ t.nodes[i].leftChild
        · exact ⟨_, .three hn hl' hS hb'.1 hb'.2 l1 r1 m1 hh0 l2 r2 m2 ha hb hc'⟩
        · have : t.nodes[i].missingNode = t.nodes[i].rightChild ∨ t.nodes[i].missingNode = t.nodes[i].leftChild := by
            by_contra hc
            push Not at hc
            exact hb' hc
          exact ⟨_, .two hn hl' hS this l1 r1 hh0 l2 r2 ha hb⟩

/-- The cover of a node. -/
def coverAt (t : Tree (FX m32) (FX m64)) (i : Nat) : K :=
  match t.nodes[i]? with
  | some n => n.hessianSum.val
  | none => 0

theorem coverAt_eq {i : Nat} {n : Node (FX m32) (FX m64)} {h : K} (hn : t.nodes[i]? = some n)
    (hh : n.hessianSum = .fin h) : coverAt t i = h := by
  rw [coverAt, hn]
  simp [hh, FX.val]

theorem hotCold_head (n : Node (FX m32) (FX m64)) {next : Nat} (hc : n.IsChild next) :
    ∃ rest, hotColdChildren next n = next :: rest ∧
      ∀ g : Nat → K, ((next :: rest).map g).sum = if n.hasMissingBranch then
        g n.leftChild + g n.rightChild + g n.missingNode else g n.leftChild + g n.rightChild := by
  unfold hotColdChildren
  by_cases hb : n.hasMissingBranch = true
  · obtain ⟨b1, b2⟩ := (hasMissingBranch_iff n).1 hb
    simp only [hb, if_true]
    by_cases h1 : next = n.rightChild
    · rw [if_pos h1]
      subst h1
      exact ⟨_, rfl, fun g => by simp only [List.map_cons, List.map_nil, List.sum_cons, List.sum_nil]; ring⟩
    · rw [if_neg h1]
      by_cases h2 : next = n.leftChild
      · rw [if_pos h2]
        subst h2
        exact ⟨_, rfl, fun g => by simp only [List.map_cons, List.map_nil, List.sum_cons, List.sum_nil]; ring⟩
      · rw [if_neg h2]
        have h3 : next = n.missingNode := by
          rcases hc.2 with h | h | h
          · exact absurd h h2
          · exact absurd h h1
          · exact h
        subst h3
        exact ⟨_, rfl, fun g => by simp only [List.map_cons, List.map_nil, List.sum_cons, List.sum_nil]; ring⟩
  · have hb' : n.missingNode = n.rightChild ∨ n.missingNode = n.leftChild := by
      by_contra hc'
      push Not at hc'
      exact hb ((hasMissingBranch_iff n).2 hc')
    rw [if_neg hb]
    simp only [hb]
    by_cases h1 : next = n.rightChild
    · rw [if_pos h1]
      subst h1
      exact ⟨_, rfl, fun g => by simp only [List.map_cons, List.map_nil, List.sum_cons, List.sum_nil]; simp; ring⟩
    · rw [if_neg h1]
      have h2 : next = n.leftChild := by
        rcases hc.2 with h | h | h
        · exact h
        · exact absurd h h1
        · rcases hb' with e | e
          · exact absurd (h.trans e) h1
          · exact h.trans e
      subst h2
      exact ⟨_, rfl, fun g => by simp only [List.map_cons, List.map_nil, List.sum_cons, List.sum_nil]; simp⟩

theorem hotCold_isChild (n : Node (FX m32) (FX m64)) (hl : n.isLeaf = false) (next : Nat) {c : Nat}
    (h : c ∈ hotColdChildren next n) : n.IsChild c := by
  refine ⟨hl, ?_⟩
  unfold hotColdChildren at h
  split at h
  · split at h
    · simp only [List.mem_cons, List.not_mem_nil, or_false] at h; tauto
    · split at h
      · simp only [List.mem_cons, List.not_mem_nil, or_false] at h; tauto
      · simp only [List.mem_cons, List.not_mem_nil, or_false] at h; tauto
  · split at h
    · simp only [List.mem_cons, List.not_mem_nil, or_false] at h; tauto
    · simp only [List.mem_cons, List.not_mem_nil, or_false] at h; tauto

/-- The expectation at an internal node in terms of those at its children. -/
theorem condExp_node {E : Nat → Finset Nat → K} (hwf : t.Wf) (hc : t.CoversOk)
    (hE : ∀ i < t.nodes.length, ∀ S, CondExp t.nodes entry missing S i (E i S))
    {i : Nat} {n : Node (FX m32) (FX m64)} (hn : t.nodes[i]? = some n) (hl : n.isLeaf = false)
    {v : FX m64} (hv : entry n.splitFeature = some v) (hr : Readable missing v) (S : Finset Nat) :
    E i S = if n.splitFeature ∈ S then E (n.childFor missing v) S else
      ((hotColdChildren (n.childFor missing v) n).map fun c => coverAt t c / coverAt t i * E c S).sum := by
  have hi : i < t.nodes.length := (List.getElem?_eq_some_iff.1 hn).1
  have kid : ∀ j, n.IsChild j → CondExp t.nodes entry missing S j (E j S) := fun j hj =>
    hE j (hwf.child _ _ j hn hj).2 S
  have cov : ∀ j, n.IsChild j → ∃ n, t.nodes[j]? = some n ∧ n.hessianSum = .fin (coverAt t j) := fun j hj => by
    obtain ⟨c1, c2⟩ := hwf.child _ _ j hn hj
    obtain ⟨h, h1, _⟩ := hc _ (List.getElem_mem c2)
    refine ⟨_, List.getElem?_eq_getElem c2, ?_⟩
    rw [coverAt_eq (List.getElem?_eq_getElem c2) h1, h1]
  obtain ⟨h0, hh0, _⟩ := hc _ (List.mem_of_getElem? hn)
  have hcov := coverAt_eq hn hh0
  by_cases hS : n.splitFeature ∈ S
  · rw [if_pos hS]
    exact (hE i hi S).unique (.known hn hl hS hv hr (kid _ (n.childFor_mem hl missing v)))
  · rw [if_neg hS]
    have cl : n.IsChild n.leftChild := ⟨hl, .inl rfl⟩
    have cr : n.IsChild n.rightChild := ⟨hl, .inr (.inl rfl)⟩
    have cm : n.IsChild n.missingNode := ⟨hl, .inr (.inr rfl)⟩
    obtain ⟨nl, l1, l2⟩ := cov _ cl
    obtain ⟨nr, r1, r2⟩ := cov _ cr
    obtain ⟨nm, m1, m2⟩ := cov _ cm
    obtain ⟨rest, e1, e2⟩ := hotCold_head n (n.childFor_mem hl missing v)
    rw [e1, e2, hcov]
    by_cases hb : n.hasMissingBranch = true
    · rw [if_pos hb]
      obtain ⟨b1, b2⟩ := (hasMissingBranch_iff n).1 hb
      exact (hE i hi S).unique (.three hn hl hS b1 b2 l1 r1 m1 hh0 l2 r2 m2 (kid _ cl) (kid _ cr) (kid _ cm))
    · rw [if_neg hb]
      have hb' : n.missingNode = n.rightChild ∨ n.missingNode = n.leftChild := by
        by_contra hc'
        push Not at hc'
        exact hb ((hasMissingBranch_iff n).2 hc')
      exact (hE i hi S).unique (.two hn hl hS hb' l1 r1 hh0 l2 r2 (kid _ cl) (kid _ cr))

/-- The games of the children, each with its element added to the path, add up to the game of the node. -/
theorem sum_children (base : List (Nat × K × K)) (f : Nat) (iz io h0 : K) (cov : Nat → K)
    (E : Nat → Finset Nat → K) (next : Nat) (rest : List Nat) (S : Finset Nat) :
    (((next :: rest).zipIdx).map fun ci : Nat × Nat =>
      prodGame (base ++ [(f, cov ci.1 / h0 * iz, if ci.2 = 0 then io else 0)]) S * E ci.1 S).sum =
    prodGame base S * (if f ∈ S then io else iz) *
      (if f ∈ S then E next S else ((next :: rest).map fun c => cov c / h0 * E c S).sum) := by
  have aux : ∀ (l : List Nat) (k : Nat), 0 < k → ((l.zipIdx k).map fun ci : Nat × Nat =>
      prodGame (base ++ [(f, cov ci.1 / h0 * iz, if ci.2 = 0 then io else 0)]) S * E ci.1 S).sum =
      prodGame base S * (if f ∈ S then 0 else iz * (l.map fun c => cov c / h0 * E c S).sum) := by
    intro l
    induction l with
    | nil => intro k _; simp
    | cons c l ih =>
      intro k hk
      rw [List.zipIdx_cons, List.map_cons, List.sum_cons, ih (k + 1) (by omega), prodGame_append, prodGame_cons,
        prodGame_nil]
      simp only [List.map_cons, List.sum_cons]
      rw [if_neg (by omega : ¬ k = 0)]
      by_cases hf : f ∈ S
      · simp [hf]
      · simp only [hf, if_false]; ring
  rw [List.zipIdx_cons, List.map_cons, List.sum_cons, aux rest (0 + 1) (by omega), prodGame_append, prodGame_cons,
    prodGame_nil]
  simp only [List.map_cons, List.sum_cons]
  by_cases hf : f ∈ S
  · simp only [hf, if_true]; ring
  · simp only [hf, if_false]; ring

theorem treeShap_spec (hwf : t.Wf) (hv : t.FiniteValues) (hc : t.CoversOk) {row : List (FX m64)}
    (hrow : ∀ f, idx row f = Res.ofOption (entry f)) (hr : t.RowReadable entry missing)
    {E : Nat → Finset Nat → K}
    (hE : ∀ i < t.nodes.length, ∀ S, CondExp t.nodes entry missing S i (E i S))
    {rf : Nat} (hrf : row.length ≤ rf) (fuel : Nat) :
    ∀ i, i < t.nodes.length → t.nodes.length - i ≤ fuel →
    ∀ (p : List (PathElement (FX m32))) (L : List (Nat × K × K)) (pz po : FX m32) (pf : Nat)
      (p' : List (PathElement (FX m32))),
      extendPath p L.length pz po pf = .ok p' → PathIs rf p' L → (L.map Prod.fst).Nodup →
      (∀ x ∈ L, x.1 < row.length) →
      (∀ n, t.nodes[i]? = some n → n.isLeaf = false → ∀ x ∈ L, x.2.1 ≠ 0) →
      ∀ cs : List K, cs.length = row.length + 1 →
      ∃ cs' : List K, treeShap t.nodes row missing fuel i L.length p pz po pf (cs.map FX.fin) =
          .ok (cs'.map FX.fin) ∧
        Adds row.length cs cs'
          (shapleyValue (Finset.range row.length) fun S => prodGame L S * E i S) := by
  induction fuel with
  | zero => intro i hi hf; omega
  | succ fuel ih =>
    intro i hi hfuel p L pz po pf p' hext hp hnd hlt hz cs hcs
    have hn := List.getElem?_eq_getElem hi
    have hm := List.mem_of_getElem? hn
    obtain ⟨w, hw⟩ := hv _ hm
    rw [treeShap, idx_eq_ok.2 hn]
    simp only [Res.ok_bind]
    rw [hext]
    simp only [Res.ok_bind]
    by_cases hl : t.nodes[i].isLeaf = true
    · rw [if_pos hl, hw]
      obtain ⟨cs', h1, h2, h3⟩ := leafContribs_spec (m64 := m64) hp w L.length 0 (by omega) cs
        (fun x hx => by have := hlt x hx; omega)
      refine ⟨cs', h1, by rw [h2, hcs], fun f hf => ?_, ?_⟩
      · rw [h3, leaf_shapley hnd hlt]
        congr 2
        funext S
        rw [(hE i hi S).unique (.leaf hn hl hw)]
      · rw [h3, Finset.sum_eq_zero, add_zero]
        intro j hj
        refine if_neg fun hc' => ?_
        have hjl := (Finset.mem_Ico.1 hj).2
        have hjD : L.getD j (0, 0, 0) = L[j] := by simp [hjl]
        rw [hjD] at hc'
        have := hlt _ (List.getElem_mem hjl)
        omega
    · have hl' : t.nodes[i].isLeaf = false := by simpa using hl
      obtain ⟨v, v1, v2⟩ := hr _ hm hl'
      have hflt : t.nodes[i].splitFeature < row.length := by
        have := hrow t.nodes[i].splitFeature
        rw [v1, Res.ofOption_some] at this
        exact (List.getElem?_eq_some_iff.1 (idx_eq_ok.1 this)).1
      obtain ⟨h0, hh0, hne⟩ := hc _ hm
      have hne := hne hl'
      have hcov := coverAt_eq hn hh0
      have hL0 := hz _ hn hl'
      rw [if_neg hl, hrow, v1, Res.ofOption_some]
      simp only [Res.ok_bind]
      rw [getChildIdx_eq, if_pos v2]
      simp only [Res.ok_bind]
      obtain ⟨rest, e1, _⟩ := hotCold_head t.nodes[i] (t.nodes[i].childFor_mem hl' missing v)
      set f := t.nodes[i].splitFeature with hf
      set next := t.nodes[i].childFor missing v with hnext
      -- the loop over the children, whatever the path
      have loop : ∀ (p2 : List (PathElement (FX m32))) (base : List (Nat × K × K)) (iz io : K),
          PathIs rf p2 base → f ∉ base.map Prod.fst → (base.map Prod.fst).Nodup →
          (∀ x ∈ base, x.1 < row.length ∧ x.2.1 ≠ 0) → iz ≠ 0 →
          (∀ S, prodGame L S = prodGame base S * (if f ∈ S then io else iz)) →
          ∃ cs' : List K, Res.foldM' (fun (contribs : List (FX m64)) (ci : Nat × Nat) => do
            let c ← idx t.nodes ci.1
            let z := (c.hessianSum / t.nodes[i].hessianSum) * FX.fin iz
            let o := if ci.2 = 0 then FX.fin io else 0
            treeShap t.nodes row missing fuel ci.1 (base.length + 1) p2 z o f contribs)
              (cs.map FX.fin) (hotColdChildren next t.nodes[i]).zipIdx = .ok (cs'.map FX.fin) ∧
          Adds row.length cs cs'
            (shapleyValue (Finset.range row.length) fun S => prodGame L S * E i S) := by
        intro p2 base iz io hp2 hfb hnb hb hiz hprod
        obtain ⟨cs', g1, g2⟩ := fold_adds (m64 := m64) (n := row.length)
          (g := fun (contribs : List (FX m64)) (ci : Nat × Nat) => do
            let c ← idx t.nodes ci.1
            let z := (c.hessianSum / t.nodes[i].hessianSum) * FX.fin iz
            let o := if ci.2 = 0 then FX.fin io else 0
            treeShap t.nodes row missing fuel ci.1 (base.length + 1) p2 z o f contribs)
          (φ := fun ci => shapleyValue (Finset.range row.length) fun S =>
            prodGame (base ++ [(f, coverAt t ci.1 / h0 * iz, if ci.2 = 0 then io else 0)]) S * E ci.1 S)
          (hotColdChildren next t.nodes[i]).zipIdx (by
            intro ci hci cs1 hcs1
            have hcm : ci.1 ∈ hotColdChildren next t.nodes[i] := List.fst_mem_of_mem_zipIdx hci
            have hch := hotCold_isChild _ hl' next hcm
            obtain ⟨k1, k2⟩ := hwf.child _ _ _ hn hch
            have hcn := List.getElem?_eq_getElem k2
            obtain ⟨hh, c1, c2⟩ := hc _ (List.getElem_mem k2)
            have hcc := coverAt_eq hcn c1
            obtain ⟨p3, x1, x2⟩ := extendPath_spec hp2 f (coverAt t ci.1 / h0 * iz) (if ci.2 = 0 then io else 0)
            have hone : (if ci.2 = 0 then FX.fin io else (0 : FX m32)) = .fin (if ci.2 = 0 then io else 0) := by
              split <;> rfl
            have hzero : (t.nodes[ci.1].hessianSum / t.nodes[i].hessianSum) * FX.fin iz =
                (.fin (coverAt t ci.1 / h0 * iz) : FX m32) := by
              rw [c1, hh0, FX.fin_div _ _ hne, FX.fin_mul, hcc]
            show ∃ cs', (idx t.nodes ci.1 >>= fun c => treeShap t.nodes row missing fuel ci.1 (base.length + 1) p2
              ((c.hessianSum / t.nodes[i].hessianSum) * FX.fin iz) (if ci.2 = 0 then FX.fin io else 0) f
                (cs1.map FX.fin)) = _ ∧ _
            rw [idx_eq_ok.2 hcn, Res.ok_bind, hone, hzero]
            have := ih ci.1 k2 (by omega) p2 (base ++ [(f, coverAt t ci.1 / h0 * iz, if ci.2 = 0 then io else 0)])
              (.fin (coverAt t ci.1 / h0 * iz)) (.fin (if ci.2 = 0 then io else 0)) f p3
              (by rw [List.length_append, List.length_singleton]; exact x1) x2
              (by
                rw [List.map_append, List.map_singleton]
                exact List.Nodup.append hnb (List.nodup_singleton _) (by simpa using hfb))
              (by
                intro x hx
                rcases List.mem_append.1 hx with hx | hx
                · exact (hb x hx).1
                · rw [List.mem_singleton.1 hx]; exact hflt)
              (by
                intro n' hn' hl'' x hx
                rcases List.mem_append.1 hx with hx | hx
                · exact (hb x hx).2
                · rw [List.mem_singleton.1 hx]
                  rw [hcn] at hn'; cases hn'
                  have := c2 hl''
                  rw [hcc]
                  exact mul_ne_zero (div_ne_zero this hne) hiz) cs1 hcs1
            rw [List.length_append, List.length_singleton] at this
            exact this) cs hcs
        refine ⟨cs', g1, g2.congr fun g _ => ?_⟩
        rw [← shapleyValue_sum]
        congr 1
        funext S
        rw [e1, sum_children base f iz io h0 (coverAt t) E next rest S, hprod S,
          condExp_node hwf hc hE hn hl' v1 v2 S, ← hnext, e1, hcov]
      have hrf' : rf ≠ f := by omega
      rcases findOnPath_path hp hrf' with ⟨k, x, hk, hx, hfind⟩ | ⟨hnot, hfind⟩
      · have hkl := (List.getElem?_eq_some_iff.1 hk).1
        have hxm := List.mem_of_getElem? hk
        have hperm : L.Perm (x :: L.eraseIdx k) := by
          have := List.getElem_cons_eraseIdx_perm hkl
          rw [(List.getElem?_eq_some_iff.1 hk).2] at this
          exact this.symm
        have hn' : ((x :: L.eraseIdx k).map Prod.fst).Nodup := (hperm.map Prod.fst).nodup_iff.1 hnd
        simp only [List.map_cons, List.nodup_cons] at hn'
        obtain ⟨p2, u1, u2⟩ := unwindPath_spec hp hk (.inl (hL0 x hxm))
        have hlen : (L.eraseIdx k).length = L.length - 1 := List.length_eraseIdx_of_lt hkl
        have hel : ((rf, (1 : K), (1 : K)) :: L).getD (k + 1) (0, 0, 0) = x := by
          rw [List.getD_eq_getElem?_getD, List.getElem?_cons_succ, hk]; rfl
        obtain ⟨cs', g1, g2⟩ := loop p2 (L.eraseIdx k) x.2.1 x.2.2 u2 (by rw [← hx]; exact hn'.1) hn'.2
          (fun y hy => ⟨hlt y (List.mem_of_mem_eraseIdx hy), hL0 y (List.mem_of_mem_eraseIdx hy)⟩) (hL0 x hxm)
          (fun S => by rw [prodGame_perm hperm, prodGame_cons, hx]; ring)
        refine ⟨cs', ?_, g2⟩
        rw [hfind]
        simp only [Res.ok_bind]
        rw [if_pos (by omega), getEl_view hp (by omega)]
        simp only [Res.ok_bind, hel]
        rw [u1]
        simp only [Res.ok_bind, Res.pure_def, mkEl]
        rw [← hlen]
        exact g1
      · obtain ⟨cs', g1, g2⟩ := loop p' L 1 1 hp hnot hnd (fun y hy => ⟨hlt y hy, hL0 y hy⟩) one_ne_zero
          (fun S => by rw [ite_self, mul_one])
        refine ⟨cs', ?_, g2⟩
        rw [hfind]
        simp only [Res.ok_bind]
        rw [if_neg (by omega)]
        simp only [Res.ok_bind, Res.pure_def]
        exact g1

end Verif
