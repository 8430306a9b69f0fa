import Verif.Spec.TreeWf
import Verif.Proofs.Data
import Mathlib.Logic.Relation
import Mathlib.Data.List.Nodup
import Mathlib.Data.List.Perm.Basic
import Mathlib.Data.List.Range

/-!
# Depth-first traversals of a well-formed tree visit every node once
-/

namespace Verif

variable {F D : Type}

/-- Node `j` is a child of node `i`. -/
def Tree.Child (t : Tree F D) (i j : Nat) : Prop := ∃ n, t.nodes[i]? = some n ∧ n.IsChild j

/-- Node `j` lies in the subtree of node `i`. -/
def Tree.Under (t : Tree F D) : Nat → Nat → Prop := Relation.ReflTransGen t.Child

theorem Tree.Wf.child_lt {t : Tree F D} (h : t.Wf) {i j : Nat} (hc : t.Child i j) :
    i < j ∧ j < t.nodes.length := by
  obtain ⟨n, h1, h2⟩ := hc
  exact h.child i n j h1 h2

theorem Tree.Wf.child_unique {t : Tree F D} (h : t.Wf) {i i' j : Nat} (hc : t.Child i j)
    (hc' : t.Child i' j) : i = i' := by
  obtain ⟨n, h1, h2⟩ := hc
  obtain ⟨n', h1', h2'⟩ := hc'
  exact h.parent_unique i i' n n' j h1 h1' h2 h2'

theorem Tree.Wf.under_le {t : Tree F D} (h : t.Wf) {i j : Nat} (hu : t.Under i j) : i ≤ j := by
  induction hu with
  | refl => exact Nat.le_refl _
  | tail _ hc ih => have := (h.child_lt hc).1; omega

theorem Tree.Wf.root_under {t : Tree F D} (h : t.Wf) {j : Nat} (hj : j < t.nodes.length) :
    t.Under 0 j := by
  induction j using Nat.strong_induction_on with
  | _ j ih =>
    by_cases h0 : j = 0
    · subst h0; exact .refl
    · obtain ⟨i, n, h1, h2⟩ := h.parent j (by omega) hj
      have := (h.child i n j h1 h2).1
      exact (ih i this (by omega)).tail ⟨n, h1, h2⟩

/-- Two nodes with a common descendant are related. -/
theorem Tree.Wf.under_total {t : Tree F D} (h : t.Wf) {a b j : Nat} (ha : t.Under a j)
    (hb : t.Under b j) : t.Under a b ∨ t.Under b a := by
  induction ha with
  | refl => exact .inr hb
  | tail h1 hc ih =>
    rcases Relation.ReflTransGen.cases_tail hb with e | ⟨c, h2, hc'⟩
    · subst e; exact .inl (h1.tail hc)
    · rw [h.child_unique hc' hc] at h2
      exact ih h2

theorem Tree.Wf.siblings_disjoint {t : Tree F D} (h : t.Wf) {i a b j : Nat} (ha : t.Child i a)
    (hb : t.Child i b) (hab : a ≠ b) (h1 : t.Under a j) : ¬ t.Under b j := by
  have key : ∀ {a b : Nat}, t.Child i a → t.Child i b → a ≠ b → ¬ t.Under a b := by
    intro a b ha hb hab hu
    rcases Relation.ReflTransGen.cases_tail hu with e | ⟨c, h2, hc'⟩
    · exact hab e.symm
    · rw [h.child_unique hc' hb] at h2
      have := h.under_le h2
      have := (h.child_lt ha).1
      omega
  intro h2
  rcases h.under_total h1 h2 with h3 | h3
  · exact key ha hb hab h3
  · exact key hb ha (Ne.symm hab) h3

/-- The traversal from node `i` that visits a node before the subtrees of its children. -/
def walk (kids : Nat → List Nat) : Nat → Nat → List Nat
  | 0, _ => []
  | fuel + 1, i => i :: (kids i).flatMap (walk kids fuel)

/-- `kids` lists the children of every node, each once. -/
structure Tree.Kids (t : Tree F D) (kids : Nat → List Nat) : Prop where
  mem : ∀ i j, j ∈ kids i ↔ t.Child i j
  nodup : ∀ i, (kids i).Nodup

theorem mem_walk {t : Tree F D} (h : t.Wf) {kids : Nat → List Nat} (hk : t.Kids kids)
    {fuel i j : Nat} (hi : i < t.nodes.length) (hf : t.nodes.length ≤ i + fuel) :
    j ∈ walk kids fuel i ↔ t.Under i j := by
  induction fuel generalizing i with
  | zero => omega
  | succ fuel ih =>
    rw [walk, List.mem_cons, List.mem_flatMap]
    constructor
    · rintro (rfl | ⟨a, ha, hj⟩)
      · exact .refl
      · rw [hk.mem] at ha
        have := h.child_lt ha
        exact .head ha ((ih this.2 (by omega)).1 hj)
    · intro hu
      rcases Relation.ReflTransGen.cases_head hu with e | ⟨a, ha, hj⟩
      · exact .inl e.symm
      · have := h.child_lt ha
        exact .inr ⟨a, (hk.mem i a).2 ha, (ih this.2 (by omega)).2 hj⟩

theorem nodup_walk {t : Tree F D} (h : t.Wf) {kids : Nat → List Nat} (hk : t.Kids kids)
    {fuel i : Nat} (hi : i < t.nodes.length) (hf : t.nodes.length ≤ i + fuel) :
    (walk kids fuel i).Nodup := by
  induction fuel generalizing i with
  | zero => omega
  | succ fuel ih =>
    rw [walk, List.nodup_cons, List.nodup_flatMap]
    refine ⟨?_, ?_, ?_⟩
    · rw [List.mem_flatMap]
      rintro ⟨a, ha, hj⟩
      rw [hk.mem] at ha
      have := h.child_lt ha
      have := h.under_le ((mem_walk h hk this.2 (by omega)).1 hj)
      omega
    · intro a ha
      have := h.child_lt ((hk.mem i a).1 ha)
      exact ih this.2 (by omega)
    · refine (hk.nodup i).imp_of_mem ?_
      intro a b ha hb hab
      rw [hk.mem] at ha hb
      have h1 := h.child_lt ha
      have h2 := h.child_lt hb
      intro j hja hjb
      exact h.siblings_disjoint ha hb hab ((mem_walk h hk h1.2 (by omega)).1 hja)
        ((mem_walk h hk h2.2 (by omega)).1 hjb)

/-- The traversal from the root visits every node exactly once. -/
theorem walk_perm {t : Tree F D} (h : t.Wf) {kids : Nat → List Nat} (hk : t.Kids kids) :
    (walk kids t.nodes.length 0).Perm (List.range t.nodes.length) := by
  have h0 : 0 < t.nodes.length := List.length_pos_iff.2 h.nonempty
  rw [List.perm_ext_iff_of_nodup (nodup_walk h hk h0 (by omega)) List.nodup_range]
  intro j
  rw [mem_walk h hk h0 (by omega), List.mem_range]
  constructor
  · intro hu
    rcases Relation.ReflTransGen.cases_tail hu with e | ⟨c, _, hc⟩
    · rw [e]; exact h0
    · exact (h.child_lt hc).2
  · exact h.root_under

/-- Parents come before their children. -/
theorem walk_order {t : Tree F D} (h : t.Wf) {kids : Nat → List Nat} (hk : t.Kids kids)
    {fuel i : Nat} (hi : i < t.nodes.length) (hf : t.nodes.length ≤ i + fuel) {a b : Nat}
    (ha : t.Under i a) (hab : t.Child a b) : List.Sublist [a, b] (walk kids fuel i) := by
  induction fuel generalizing i with
  | zero => omega
  | succ fuel ih =>
    rw [walk]
    rcases Relation.ReflTransGen.cases_head ha with e | ⟨c, hc, hca⟩
    · subst e
      refine List.Sublist.cons_cons _ ?_
      rw [List.singleton_sublist, List.mem_flatMap]
      have := h.child_lt hab
      exact ⟨b, (hk.mem _ _).2 hab, (mem_walk h hk this.2 (by omega)).2 .refl⟩
    · have := h.child_lt hc
      refine List.Sublist.cons _ ((ih this.2 (by omega) hca).trans ?_)
      rw [List.flatMap]
      exact List.sublist_flatten_of_mem (List.mem_map_of_mem ((hk.mem i c).2 hc))

/-- The traversal does not depend on the fuel. -/
theorem walk_fuel {t : Tree F D} (h : t.Wf) {kids : Nat → List Nat} (hk : t.Kids kids)
    {fuel fuel' i : Nat} (hi : i < t.nodes.length) (hf : t.nodes.length ≤ i + fuel)
    (hf' : t.nodes.length ≤ i + fuel') : walk kids fuel i = walk kids fuel' i := by
  induction fuel generalizing i fuel' with
  | zero => omega
  | succ fuel ih =>
    cases fuel' with
    | zero => omega
    | succ fuel' =>
      rw [walk, walk]
      congr 1
      apply List.flatMap_congr
      intro c hc
      have := h.child_lt ((hk.mem i c).1 hc)
      exact ih this.2 (by omega) (by omega)

/-- Children in the order of the text dump: missing branch, left, right. -/
def Node.kidsDump (n : Node F D) : List Nat :=
  if n.isLeaf then []
  else if n.hasMissingBranch then [n.missingNode, n.leftChild, n.rightChild]
  else [n.leftChild, n.rightChild]

/-- Children in the order of the importance traversal: left, right, missing branch. -/
def Node.kidsStats (n : Node F D) : List Nat :=
  if n.isLeaf then []
  else if n.hasMissingBranch then [n.leftChild, n.rightChild, n.missingNode]
  else [n.leftChild, n.rightChild]

/-- Lift a function on nodes to positions. -/
def Tree.at_ {β : Type} (t : Tree F D) (f : Node F D → List β) (i : Nat) : List β :=
  match t.nodes[i]? with
  | some n => f n
  | none => []

theorem Tree.Wf.kids_of {t : Tree F D} (h : t.Wf) (f : Node F D → List Nat)
    (h1 : ∀ n : Node F D, ∀ j, j ∈ f n ↔ n.IsChild j)
    (h2 : ∀ n : Node F D, (n.isLeaf = false → n.leftChild ≠ n.rightChild) → (f n).Nodup) :
    t.Kids (t.at_ f) where
  mem i j := by
    rw [Tree.at_, Tree.Child]
    cases hn : t.nodes[i]? with
    | none => simp
    | some n => simp [h1]
  nodup i := by
    rw [Tree.at_]
    cases hn : t.nodes[i]? with
    | none => simp
    | some n => exact h2 n (h.distinct i n hn)

theorem Tree.Wf.kidsDump {t : Tree F D} (h : t.Wf) : t.Kids (t.at_ Node.kidsDump) := by
  refine h.kids_of _ ?_ ?_
  · intro n j
    unfold Node.kidsDump Node.IsChild
    by_cases hl : n.isLeaf = true
    · simp [hl]
    · by_cases hm : n.hasMissingBranch = true
      · simp [hl, hm]; tauto
      · simp only [hl, hm, if_false, Bool.false_eq_true]
        simp only [Node.hasMissingBranch, Bool.and_eq_true, bne_iff_ne, ne_eq, not_and_or, not_not]
          at hm
        rcases hm with hm | hm <;> simp [hm]
        tauto
  · intro n hd
    unfold Node.kidsDump
    by_cases hl : n.isLeaf = true
    · simp [hl]
    · have hd := hd (by simpa using hl)
      by_cases hm : n.hasMissingBranch = true
      · have hm' := hm
        simp only [Node.hasMissingBranch, Bool.and_eq_true, bne_iff_ne, ne_eq] at hm'
        simp [hl, hm, hd]; tauto
      · simp [hl, hm, hd]

theorem Tree.Wf.kidsStats {t : Tree F D} (h : t.Wf) : t.Kids (t.at_ Node.kidsStats) := by
  refine h.kids_of _ ?_ ?_
  · intro n j
    unfold Node.kidsStats Node.IsChild
    by_cases hl : n.isLeaf = true
    · simp [hl]
    · by_cases hm : n.hasMissingBranch = true
      · simp [hl, hm]
      · simp only [hl, hm, if_false, Bool.false_eq_true]
        simp only [Node.hasMissingBranch, Bool.and_eq_true, bne_iff_ne, ne_eq, not_and_or, not_not]
          at hm
        rcases hm with hm | hm <;> simp [hm]
        tauto
  · intro n hd
    unfold Node.kidsStats
    by_cases hl : n.isLeaf = true
    · simp [hl]
    · have hd := hd (by simpa using hl)
      by_cases hm : n.hasMissingBranch = true
      · have hm' := hm
        simp only [Node.hasMissingBranch, Bool.and_eq_true, bne_iff_ne, ne_eq] at hm'
        simp [hl, hm, hd]; tauto
      · simp [hl, hm, hd]

end Verif
