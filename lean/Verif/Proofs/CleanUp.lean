import Verif.Proofs.Fitted

/-!
# What the clean-up of AverageLeafWeight writes
-/

namespace Verif

open scoped Verif

set_option linter.unusedSectionVars false

section
variable {F D : Type} [Fl F] [Fl D] [FlCast F D]

/-- The average computed for node `i` from the nodes before the clean-up: a leaf counts with its value;
an internal node with the cover-weighted average of its children, missing children that are leaves left
out. -/
inductive Avg (N : List (Node F D)) : Nat → D → Prop
  | leaf {i : Nat} {n : Node F D} (node : N[i]? = some n) (leaf : n.isLeaf = true) :
      Avg N i (up n.weightValue)
  | missingLeaf {i : Nat} {n l r m : Node F D} {a b : D} (node : N[i]? = some n)
      (internal : n.isLeaf = false) (right : N[n.rightChild]? = some r) (left : N[n.leftChild]? = some l)
      (missing : N[n.missingNode]? = some m) (leaf : m.isLeaf = true) (ra : Avg N n.rightChild a)
      (lb : Avg N n.leftChild b) :
      Avg N i ((a * up r.hessianSum + b * up l.hessianSum + 0 * 0) /
        (up l.hessianSum + up r.hessianSum + 0))
  | missingBranch {i : Nat} {n l r m : Node F D} {a b c : D} (node : N[i]? = some n)
      (internal : n.isLeaf = false) (right : N[n.rightChild]? = some r) (left : N[n.leftChild]? = some l)
      (missing : N[n.missingNode]? = some m) (branch : m.isLeaf = false) (ra : Avg N n.rightChild a)
      (lb : Avg N n.leftChild b) (mc : Avg N n.missingNode c) :
      Avg N i ((a * up r.hessianSum + b * up l.hessianSum + c * up m.hessianSum) /
        (up l.hessianSum + up r.hessianSum + up m.hessianSum))

theorem Avg.unique {N : List (Node F D)} {i : Nat} {a : D} (h : Avg N i a) : ∀ {b : D}, Avg N i b →
    a = b := by
  induction h with
  | leaf h1 h2 =>
    intro b h'
    cases h' with
    | leaf g1 g2 => rw [h1] at g1; cases g1; rfl
    | missingLeaf g1 g2 => rw [h1] at g1; cases g1; rw [h2] at g2; cases g2
    | missingBranch g1 g2 => rw [h1] at g1; cases g1; rw [h2] at g2; cases g2
  | missingLeaf h1 h2 h3 h4 h5 h6 h7 h8 ih1 ih2 =>
    intro b h'
    cases h' with
    | leaf g1 g2 => rw [h1] at g1; cases g1; rw [h2] at g2; cases g2
    | missingLeaf g1 g2 g3 g4 g5 g6 g7 g8 =>
      rw [h1] at g1; cases g1
      rw [h3] at g3; cases g3
      rw [h4] at g4; cases g4
      rw [ih1 g7, ih2 g8]
    | missingBranch g1 g2 g3 g4 g5 g6 g7 g8 =>
      rw [h1] at g1; cases g1
      rw [h5] at g5; cases g5
      rw [h6] at g6; cases g6
  | missingBranch h1 h2 h3 h4 h5 h6 h7 h8 h9 ih1 ih2 ih3 =>
    intro b h'
    cases h' with
    | leaf g1 g2 => rw [h1] at g1; cases g1; rw [h2] at g2; cases g2
    | missingLeaf g1 g2 g3 g4 g5 g6 g7 g8 =>
      rw [h1] at g1; cases g1
      rw [h5] at g5; cases g5
      rw [h6] at g6; cases g6
    | missingBranch g1 g2 g3 g4 g5 g6 g7 g8 g9 =>
      rw [h1] at g1; cases g1
      rw [h3] at g3; cases g3
      rw [h4] at g4; cases g4
      rw [h5] at g5; cases g5
      rw [ih1 g7, ih2 g8, ih3 g9]

omit [Fl F] [Fl D] [FlCast F D] in
/-- Is node `j` the missing child of an internal node? -/
def IsMissingChild (N : List (Node F D)) (p j : Nat) : Prop :=
  ∃ np, N[p]? = some np ∧ np.isLeaf = false ∧ np.missingNode = j

/-- The value the clean-up gives node `j`: the average of `j` if it is internal, that of its parent if it
is a missing leaf. -/
def Written (N : List (Node F D)) (j : Nat) (w : F) : Prop :=
  ∃ n, N[j]? = some n ∧ ((n.isLeaf = false ∧ ∃ a, Avg N j a ∧ w = down a) ∨
    (n.isLeaf = true ∧ ∃ p a, IsMissingChild N p j ∧ Avg N p a ∧ w = down a))

omit [Fl F] [Fl D] [FlCast F D] in
/-- Node `j` is reached from `i` through children, and is internal or a missing leaf. -/
inductive Visited (N : List (Node F D)) : Nat → Nat → Prop
  | self {i : Nat} {n : Node F D} (h : N[i]? = some n) (hl : n.isLeaf = false) : Visited N i i
  | missing {i : Nat} {n m : Node F D} (h : N[i]? = some n) (hl : n.isLeaf = false)
      (hm : N[n.missingNode]? = some m) (hml : m.isLeaf = true) : Visited N i n.missingNode
  | child {i j k : Nat} {n : Node F D} (h : N[i]? = some n) (hc : n.IsChild j) (hv : Visited N j k) :
      Visited N i k

omit [Fl F] [Fl D] [FlCast F D] in
/-- All splits have three branches. -/
def Ternary (N : List (Node F D)) : Prop :=
  ∀ (i : Nat) (n : Node F D), N[i]? = some n → n.isLeaf = false → n.hasMissingBranch = true

omit [Fl F] [Fl D] [FlCast F D] in
/-- Left and right children are never missing children. -/
theorem Ternary.main_child {N : List (Node F D)} (ht : Ternary N) (hw : Tree.Wf (⟨N⟩ : Tree F D))
    {i j p : Nat} {n : Node F D} (hn : N[i]? = some n) (hl : n.isLeaf = false)
    (hj : j = n.leftChild ∨ j = n.rightChild) : ¬ IsMissingChild N p j := by
  rintro ⟨np, h1, h2, h3⟩
  have hpi : i = p := hw.parent_unique i p n np j hn h1
    ⟨hl, hj.elim .inl fun h => .inr (.inl h)⟩ ⟨h2, .inr (.inr h3.symm)⟩
  subst hpi
  rw [hn] at h1; cases h1
  have := ht i n hn hl
  simp only [Node.hasMissingBranch, Bool.and_eq_true, bne_iff_ne] at this
  rcases hj with rfl | rfl
  · exact this.2 h3
  · exact this.1 h3

/-- The nodes during the clean-up: only values changed, and only to what they will be. -/
structure Cleaning (N cur : List (Node F D)) : Prop where
  shape : SameShape N cur
  value : ∀ (j : Nat) (n n' : Node F D), N[j]? = some n → cur[j]? = some n' →
    n'.weightValue = n.weightValue ∨ Written N j n'.weightValue

theorem Written.unique {N : List (Node F D)} (hw : Tree.Wf (⟨N⟩ : Tree F D)) {j : Nat} {w w' : F}
    (h : Written N j w) (h' : Written N j w') : w = w' := by
  obtain ⟨n, hn, h⟩ := h
  obtain ⟨n', hn', h'⟩ := h'
  rw [hn] at hn'; cases hn'
  rcases h with ⟨h1, a, h2, rfl⟩ | ⟨h1, p, a, ⟨np, p1, p2, p3⟩, h2, rfl⟩ <;>
    rcases h' with ⟨g1, a', g2, rfl⟩ | ⟨g1, p', a', ⟨np', p1', p2', p3'⟩, g2, rfl⟩
  · rw [h2.unique g2]
  · rw [h1] at g1; cases g1
  · rw [h1] at g1; cases g1
  · have : p = p' := hw.parent_unique p p' np np' j p1 p1' ⟨p2, .inr (.inr p3.symm)⟩
      ⟨p2', .inr (.inr p3'.symm)⟩
    subst this
    rw [h2.unique g2]

/-- One value written. -/
theorem Cleaning.modify {N cur : List (Node F D)} (h : Cleaning N cur) {j : Nat} {w : F}
    (hw : ∀ n, N[j]? = some n → Written N j w) :
    Cleaning N (cur.modify j fun n => { n with weightValue := w }) where
  shape := h.shape.trans (.modify _ _ _)
  value := by
    intro k n n' hn hn'
    rw [List.getElem?_modify] at hn'
    obtain ⟨w0, h0⟩ := h.shape.2 k n hn
    rw [h0] at hn'
    by_cases hjk : j = k
    · subst hjk
      simp only [if_true, Option.map_eq_map, Option.map_some, Option.some.injEq] at hn'
      subst hn'
      exact .inr (hw n hn)
    · simp only [hjk, if_false, id_map', Option.some.injEq] at hn'
      subst hn'
      exact h.value k n _ hn h0

/-- Nothing is lost by later changes. -/
def Settled (N cur : List (Node F D)) (j : Nat) : Prop :=
  ∀ n, cur[j]? = some n → Written N j n.weightValue

theorem updateAverage_spec {N : List (Node F D)} (hw : Tree.Wf (⟨N⟩ : Tree F D)) (ht : Ternary N) :
    ∀ (fuel : Nat) (cur cur' : List (Node F D)) (i : Nat) (a : D),
    updateAverage fuel cur i = .ok (cur', a) → Cleaning N cur → (∀ p, ¬ IsMissingChild N p i ∨
      ∃ n, N[i]? = some n ∧ n.isLeaf = false) →
    Avg N i a ∧ Cleaning N cur' ∧ (∀ j, Visited N i j → Settled N cur' j) ∧
      (∀ j, Settled N cur j → Settled N cur' j) := by
  intro fuel
  induction fuel with
  | zero => intro cur cur' i a h; simp [updateAverage] at h
  | succ fuel ih =>
    intro cur cur' i a h hC hi
    rw [updateAverage, Res.bind_eq_ok] at h
    obtain ⟨node, hn, h⟩ := h
    rw [idx_eq_ok] at hn
    obtain ⟨n0, w0, hn0, rfl⟩ := hC.shape.inv hn
    split at h
    · rename_i hl
      injection h with h
      injection h with h1 h2
      subst h1; subst h2
      have hl : n0.isLeaf = true := hl
      have hnw : w0 = n0.weightValue := by
        rcases hC.value i n0 _ hn0 hn with h | ⟨n, hN, h⟩
        · exact h
        · rw [hn0] at hN; cases hN
          rcases h with ⟨h, _⟩ | ⟨_, p, a, hp, _⟩
          · rw [hl] at h; cases h
          · rcases hi p with h | ⟨n, h1, h2⟩
            · exact absurd hp h
            · rw [hn0] at h1; cases h1; rw [hl] at h2; cases h2
      refine ⟨?_, hC, ?_, fun j hj => hj⟩
      · simp only [hnw]; exact .leaf hn0 hl
      · intro j hj
        cases hj with
        | self g1 g2 => rw [hn0] at g1; cases g1; rw [hl] at g2; cases g2
        | missing g1 g2 => rw [hn0] at g1; cases g1; rw [hl] at g2; cases g2
        | child g1 g2 => rw [hn0] at g1; cases g1; have := g2.1; rw [hl] at this; cases this
    · rename_i hl
      have hl : n0.isLeaf = false := by simpa using hl
      simp only [Res.bind_eq_ok, Prod.exists] at h
      obtain ⟨rn, h1, n1, ra, h2, ln, h3, n2, la, h4, mn, h5, h⟩ := h
      rw [idx_eq_ok] at h1 h3 h5
      obtain ⟨r0, wr, hr0, rfl⟩ := hC.shape.inv h1
      obtain ⟨A1, C1, V1, S1⟩ := ih _ _ _ _ h2 hC fun p => .inl (ht.main_child hw hn0 hl (.inr rfl))
      obtain ⟨l0, wl, hl0, rfl⟩ := C1.shape.inv h3
      obtain ⟨A2, C2, V2, S2⟩ := ih _ _ _ _ h4 C1 fun p => .inl (ht.main_child hw hn0 hl (.inl rfl))
      obtain ⟨m0, wm, hm0, rfl⟩ := C2.shape.inv h5
      have hnum : n0.num = i := hw.num i n0 hn0
      have settle : ∀ {cur : List (Node F D)} {j k : Nat} {w : F},
          (∀ n, N[j]? = some n → Written N j w) → Cleaning N cur → (k = j ∨ Settled N cur k) →
          Settled N (cur.modify j fun n => { n with weightValue := w }) k := by
        intro cur j k w hW hC hk n hn
        obtain ⟨n', hn', hfin⟩ : ∃ n', cur[k]? = some n' ∧
            n = if j = k then { n' with weightValue := w } else n' := by
          rw [List.getElem?_modify] at hn
          cases hc : cur[k]? with
          | none => rw [hc] at hn; split at hn <;> cases hn
          | some n' =>
            rw [hc] at hn
            refine ⟨n', rfl, ?_⟩
            split at hn <;> rename_i hjk <;> simp [hjk] at hn ⊢ <;> exact hn.symm
        by_cases hjk : j = k
        · subst hjk
          simp only [if_true] at hfin
          subst hfin
          obtain ⟨n0, w', h0, rfl⟩ := hC.shape.inv hn'
          exact hW n0 h0
        · rw [if_neg hjk] at hfin
          subst hfin
          exact hk.elim (fun h => absurd h.symm hjk) fun h => h n hn'
      split at h
      · rename_i hml
        have hml : m0.isLeaf = true := hml
        simp only [Res.pure_def, Res.ok_bind, Res.ok.injEq, Prod.mk.injEq, if_true] at h
        obtain ⟨rfl, rfl⟩ := h
        have hA := Avg.missingLeaf hn0 hl hr0 hl0 hm0 hml A1 A2
        have W1 : ∀ n, N[n0.num]? = some n → Written N n0.num
            (down ((ra * up r0.hessianSum + la * up l0.hessianSum + (0 : D) * 0) /
              (up l0.hessianSum + up r0.hessianSum + 0)) : F) := fun n hn => by
          rw [hnum]
          exact ⟨n0, hn0, .inl ⟨hl, _, hA, rfl⟩⟩
        have W2 : ∀ n, N[n0.missingNode]? = some n → Written N n0.missingNode
            (down ((ra * up r0.hessianSum + la * up l0.hessianSum + (0 : D) * 0) /
              (up l0.hessianSum + up r0.hessianSum + 0)) : F) := fun n hn =>
          ⟨m0, hm0, .inr ⟨hml, i, _, ⟨n0, hn0, hl, rfl⟩, hA, rfl⟩⟩
        refine ⟨hA, (C2.modify W1).modify W2, ?_, ?_⟩
        · intro j hj
          refine settle W2 (C2.modify W1) ?_
          by_cases hjm : j = n0.missingNode
          · exact .inl hjm
          right
          refine settle W1 C2 ?_
          cases hj with
          | self => exact .inl hnum.symm
          | missing g1 => rw [hn0] at g1; cases g1; exact absurd rfl hjm
          | child g1 g2 g3 =>
            rw [hn0] at g1; cases g1
            right
            rcases g2.2 with rfl | rfl | rfl
            · exact V2 _ g3
            · exact S2 _ (V1 _ g3)
            · exfalso
              cases g3 with
              | self e1 e2 => rw [hm0] at e1; cases e1; rw [hml] at e2; cases e2
              | missing e1 e2 => rw [hm0] at e1; cases e1; rw [hml] at e2; cases e2
              | child e1 e2 => rw [hm0] at e1; cases e1; have := e2.1; rw [hml] at this; cases this
        · intro j hj
          exact settle W2 (C2.modify W1) (.inr (settle W1 C2 (.inr (S2 _ (S1 _ hj)))))
      · rename_i hml
        have hml : m0.isLeaf = false := by simpa using hml
        simp only [Res.pure_def, Res.ok_bind, Res.ok.injEq, Prod.mk.injEq, Bool.false_eq_true,
          if_false, Res.bind_eq_ok, Prod.exists] at h
        obtain ⟨n3, a3, h6, rfl, rfl⟩ := h
        obtain ⟨A3, C3, V3, S3⟩ := ih _ _ _ _ h6 C2 fun p => .inr ⟨m0, hm0, hml⟩
        have hA := Avg.missingBranch hn0 hl hr0 hl0 hm0 hml A1 A2 A3
        have W1 : ∀ n, N[n0.num]? = some n → Written N n0.num
            (down ((ra * up r0.hessianSum + la * up l0.hessianSum + a3 * up m0.hessianSum) /
              (up l0.hessianSum + up r0.hessianSum + up m0.hessianSum) : D) : F) := fun n hn => by
          rw [hnum]
          exact ⟨n0, hn0, .inl ⟨hl, _, hA, rfl⟩⟩
        refine ⟨hA, C3.modify W1, ?_, ?_⟩
        · intro j hj
          refine settle W1 C3 ?_
          cases hj with
          | self => exact .inl hnum.symm
          | missing g1 g2 g3 g4 =>
            rw [hn0] at g1; cases g1
            rw [hm0] at g3; cases g3
            rw [hml] at g4; cases g4
          | child g1 g2 g3 =>
            rw [hn0] at g1; cases g1
            right
            rcases g2.2 with rfl | rfl | rfl
            · exact S3 _ (V2 _ g3)
            · exact S3 _ (S2 _ (V1 _ g3))
            · exact V3 _ g3
        · intro j hj
          exact settle W1 C3 (.inr (S3 _ (S2 _ (S1 _ hj))))


theorem Tree.Wf.visited {N : List (Node F D)} (hw : Tree.Wf (⟨N⟩ : Tree F D)) : ∀ {j k : Nat},
    j < N.length → Visited N j k → Visited N 0 k := by
  intro j
  induction j using Nat.strong_induction_on with
  | _ j ih =>
    intro k hj h
    rcases Nat.eq_zero_or_pos j with rfl | hpos
    · exact h
    · obtain ⟨i, n, hn, hc⟩ := hw.parent j hpos hj
      exact ih i (hw.child i n j hn hc).1 ((List.getElem?_eq_some_iff.1 hn).1) (.child hn hc h)

/-- What averaging does to values. -/
theorem cleanUpSplits_avg {s : Splitter F} {p : BranchParams F} {N M : List (Node F D)}
    (hs : s = .branch p) (hp : p.missingNodeTreatment = .averageLeafWeight)
    (h : cleanUpSplits s N = .ok M) (hw : Tree.Wf (⟨N⟩ : Tree F D)) (ht : Ternary N) :
    ∀ (i : Nat) (n n' : Node F D), N[i]? = some n → M[i]? = some n' →
      ((n.isLeaf = true ∧ (∀ p, ¬ IsMissingChild N p i) ∧ n'.weightValue = n.weightValue) ∨
      ((n.isLeaf = false ∨ ∃ p, IsMissingChild N p i) ∧ Written N i n'.weightValue)) := by
  subst hs
  simp only [cleanUpSplits, hp, if_true, Res.bind_eq_ok, Prod.exists, Res.ok.injEq] at h
  obtain ⟨M', a, h, rfl⟩ := h
  have h0 : ∀ p, ¬ IsMissingChild N p 0 := by
    rintro p ⟨np, h1, h2, h3⟩
    have := (hw.child p np 0 h1 ⟨h2, .inr (.inr h3.symm)⟩).1
    omega
  have hC0 : Cleaning N N := ⟨.refl _, fun j n n' h1 h2 => by
    rw [h1] at h2; cases h2; exact .inl rfl⟩
  obtain ⟨_, hC, hV, _⟩ := updateAverage_spec hw ht _ _ _ _ _ h hC0 fun p => .inl (h0 p)
  intro i n n' hn hn'
  by_cases hm : ∃ p, IsMissingChild N p i
  · right
    refine ⟨.inr hm, ?_⟩
    obtain ⟨q, nq, h1, h2, h3⟩ := hm
    refine hV i ?_ n' hn'
    refine hw.visited (List.getElem?_eq_some_iff.1 h1).1 (?_ : Visited N q i)
    subst h3
    cases hl : n.isLeaf
    · exact .child h1 ⟨h2, .inr (.inr rfl)⟩ (.self hn hl)
    · exact .missing h1 h2 hn hl
  · cases hl : n.isLeaf
    · right
      exact ⟨.inl rfl, hV i (hw.visited (List.getElem?_eq_some_iff.1 hn).1 (.self hn hl)) n' hn'⟩
    · left
      have hm' : ∀ p, ¬ IsMissingChild N p i := fun p hp => hm ⟨p, hp⟩
      refine ⟨rfl, hm', ?_⟩
      rcases hC.value i n n' hn hn' with h | ⟨n1, hn1, h⟩
      · exact h
      · rw [hn] at hn1; cases hn1
        rcases h with ⟨h, _⟩ | ⟨_, p, _, hp, _⟩
        · rw [hl] at h; cases h
        · exact absurd hp (hm' p)

/-- What the clean-up does to values. -/
theorem cleanUpSplits_value {s : Splitter F} {N M : List (Node F D)} (h : cleanUpSplits s N = .ok M)
    (hw : Tree.Wf (⟨N⟩ : Tree F D)) (ht : (∃ p, s = .branch p) → Ternary N) :
    M = N ∨ (∃ p, s = .branch p ∧ p.missingNodeTreatment = .averageLeafWeight) ∧
      ∀ (i : Nat) (n n' : Node F D), N[i]? = some n → M[i]? = some n' →
        ((n.isLeaf = true ∧ (∀ p, ¬ IsMissingChild N p i) ∧ n'.weightValue = n.weightValue) ∨
        ((n.isLeaf = false ∨ ∃ p, IsMissingChild N p i) ∧ Written N i n'.weightValue)) := by
  by_cases hb : ∃ p, s = .branch p ∧ p.missingNodeTreatment = .averageLeafWeight
  · obtain ⟨p, hs, hp⟩ := hb
    exact .inr ⟨⟨p, hs, hp⟩, cleanUpSplits_avg hs hp h hw (ht ⟨p, hs⟩)⟩
  · left
    unfold cleanUpSplits at h
    split at h
    · cases h; rfl
    · rename_i p
      split at h
      · rename_i hp
        exact absurd ⟨p, rfl, hp⟩ hb
      · cases h; rfl

/-- Trees grown by the missing-branch splitter split three ways. -/
theorem Cert.ternary {c : GrowCfg F D} {o : SNode F D → Prop} {gs : List (Ghost F D)}
    {nodes : List (Node F D)} (h : Cert c o gs nodes) (hb : ∃ p, c.splitter = .branch p) :
    Ternary nodes := by
  obtain ⟨p, hp⟩ := hb
  intro i n hn hl
  obtain ⟨g, hg, hnode⟩ := h.node hn
  rcases hnode with ⟨_, rfl, _⟩ | ⟨info, k, kids, _, hS, rfl⟩
  · simp only [SNode.asNode, (h.num i g hg).2] at hl
    cases hl
  · simp [Node.hasMissingBranch, Node.makeParentNode, Splitter.parentNode, SNode.updateChildren,
      Splitter.links, hp]

end

end Verif
