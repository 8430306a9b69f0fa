import Verif.Spec.Route

/-!
# Well-formed trees
-/

namespace Verif

variable {F D : Type}

/-- `j` is one of the children of the node. -/
def Node.IsChild (n : Node F D) (j : Nat) : Prop :=
  n.isLeaf = false ∧ (j = n.leftChild ∨ j = n.rightChild ∨ j = n.missingNode)

/-- Nodes stand at the position of their number; the children of an internal node exist, come later,
and the left one is not the right one; each node but the first is the child of exactly one node. -/
structure Tree.Wf (t : Tree F D) : Prop where
  nonempty : t.nodes ≠ []
  num : ∀ (i : Nat) (n : Node F D), t.nodes[i]? = some n → n.num = i
  child : ∀ (i : Nat) (n : Node F D) (j : Nat), t.nodes[i]? = some n → n.IsChild j →
    i < j ∧ j < t.nodes.length
  distinct : ∀ (i : Nat) (n : Node F D), t.nodes[i]? = some n → n.isLeaf = false →
    n.leftChild ≠ n.rightChild
  parent : ∀ j, 0 < j → j < t.nodes.length →
    ∃ (i : Nat) (n : Node F D), t.nodes[i]? = some n ∧ n.IsChild j
  parent_unique : ∀ (i i' : Nat) (n n' : Node F D) (j : Nat), t.nodes[i]? = some n →
    t.nodes[i']? = some n' → n.IsChild j → n'.IsChild j → i = i'

/-- A check that implies well-formedness, used for examples. -/
def Tree.wfCheck (t : Tree F D) : Bool :=
  let N := t.nodes.length
  let ch (n : Node F D) (j : Nat) : Bool :=
    !n.isLeaf && (j == n.leftChild || j == n.rightChild || j == n.missingNode)
  0 < N &&
  (List.range N).all (fun i => match t.nodes[i]? with
    | none => true
    | some n => n.num == i && (n.isLeaf || (
      (i < n.leftChild && n.leftChild < N) && (i < n.rightChild && n.rightChild < N) &&
      (i < n.missingNode && n.missingNode < N) && n.leftChild != n.rightChild))) &&
  (List.range N).all (fun j => j == 0 || ((List.range N).filter fun i => match t.nodes[i]? with
    | none => false
    | some n => ch n j).length == 1)

theorem Tree.wf_of_check (t : Tree F D) (h : t.wfCheck = true) : t.Wf := by
  simp only [Tree.wfCheck, Bool.and_eq_true, List.all_eq_true, List.mem_range, decide_eq_true_eq,
    Bool.or_eq_true, beq_iff_eq] at h
  obtain ⟨⟨h0, h1⟩, h2⟩ := h
  have hlt : ∀ {i : Nat} {n : Node F D}, t.nodes[i]? = some n → i < t.nodes.length := fun h =>
    (List.getElem?_eq_some_iff.1 h).1
  have hch : ∀ {j : Nat}, 0 < j → j < t.nodes.length → ∃ p, ∀ (i : Nat) (n : Node F D),
      t.nodes[i]? = some n → (n.IsChild j ↔ i = p) := by
    intro j hj hjl
    rcases h2 j hjl with h | h
    · omega
    · rw [List.length_eq_one_iff] at h
      obtain ⟨p, hp⟩ := h
      refine ⟨p, fun i n hi => ?_⟩
      have : i ∈ [p] ↔ n.IsChild j := by
        rw [← hp, List.mem_filter, List.mem_range]
        have := hlt hi
        simp only [hi, Bool.and_eq_true, Bool.or_eq_true, beq_iff_eq, Bool.not_eq_true', this, true_and,
          Node.IsChild, or_assoc]
      rw [← this, List.mem_singleton]
  have hnode : ∀ {i : Nat} {n : Node F D}, t.nodes[i]? = some n → n.num = i ∧ (n.isLeaf = false →
      (∀ j, n.IsChild j → i < j ∧ j < t.nodes.length) ∧ n.leftChild ≠ n.rightChild) := by
    intro i n hi
    have := h1 i (hlt hi)
    rw [hi] at this
    simp only [Bool.and_eq_true, beq_iff_eq, Bool.or_eq_true, decide_eq_true_eq, bne_iff_ne] at this
    refine ⟨this.1, fun hl => ?_⟩
    rw [hl] at this
    obtain ⟨_, h | h⟩ := this
    · simp at h
    · refine ⟨?_, h.2⟩
      rintro j ⟨_, rfl | rfl | rfl⟩
      · exact h.1.1.1
      · exact h.1.1.2
      · exact h.1.2
  exact
    { nonempty := by intro e; simp [e] at h0
      num := fun i n hi => (hnode hi).1
      child := fun i n j hi hc => ((hnode hi).2 hc.1).1 j hc
      distinct := fun i n hi hl => ((hnode hi).2 hl).2
      parent := fun j hj hjl => by
        rcases h2 j hjl with h | h
        · omega
        · have : ∃ p, p ∈ (List.range t.nodes.length).filter fun i => match t.nodes[i]? with
              | none => false
              | some n => !n.isLeaf && (j == n.leftChild || j == n.rightChild || j == n.missingNode) := by
            rw [List.length_eq_one_iff] at h
            obtain ⟨p, hp⟩ := h
            exact ⟨p, by rw [hp]; simp⟩
          obtain ⟨p, hp⟩ := this
          rw [List.mem_filter] at hp
          cases hn : t.nodes[p]? with
          | none => simp [hn] at hp
          | some n =>
            refine ⟨p, n, hn, ?_⟩
            have := hp.2
            simp only [hn, Bool.and_eq_true, Bool.or_eq_true, beq_iff_eq, Bool.not_eq_true'] at this
            exact ⟨this.1, by tauto⟩
      parent_unique := fun i i' n n' j hi hi' hc hc' => by
        have hb := ((hnode hi).2 hc.1).1 j hc
        obtain ⟨p, hp⟩ := hch (j := j) (by omega) hb.2
        rw [(hp i n hi).1 hc, (hp i' n' hi').1 hc'] }

/-- The finite value of a number (0 for the special values). -/
def FX.val {K : Type} [Zero K] {m : Fmt K} : FX m → K
  | .fin q => q
  | _ => 0

/-- The number is finite. -/
def FX.IsFin {K : Type} {m : Fmt K} (x : FX m) : Prop := ∃ q, x = .fin q

/-- All node values are finite. -/
def Tree.FiniteValues {K : Type} {m32 m64 : Fmt K} (t : Tree (FX m32) (FX m64)) : Prop :=
  ∀ n ∈ t.nodes, n.weightValue.IsFin

/-- All covers are finite, and those of internal nodes are not zero. -/
def Tree.CoversOk {K : Type} [Zero K] {m32 m64 : Fmt K} (t : Tree (FX m32) (FX m64)) : Prop :=
  ∀ n ∈ t.nodes, ∃ c : K, n.hessianSum = .fin c ∧ (n.isLeaf = false → c ≠ 0)

end Verif
