import Verif.Proofs.Subtree
import Verif.Spec.ExampleModel

/-!
# C51 The text dump lists every node once
-/

namespace Verif

variable {F D : Type}

theorem sublist_flatMap {α β : Type} {l l' : List α} (h : l.Sublist l') (f : α → List β) :
    (l.flatMap f).Sublist (l'.flatMap f) := by
  induction h with
  | slnil => exact .refl _
  | cons a _ ih => exact ih.trans (List.sublist_append_right _ _)
  | cons_cons a _ ih => exact (List.Sublist.refl (f a)).append ih

theorem range_flatMap_getElem? {α : Type} (l : List α) :
    (List.range l.length).flatMap (fun i => (l[i]?).toList) = l := by
  induction l with
  | nil => rfl
  | cons a l ih =>
    rw [List.length_cons, List.range_succ_eq_map, List.flatMap_cons, List.flatMap_map]
    simp only [List.getElem?_cons_zero, List.getElem?_cons_succ, Option.toList_some, ih]
    rfl

theorem displayLoop_eq {t : Tree F D} (h : t.Wf) (fuel : Nat) (stack : List Nat)
    (out : List (Node F D)) (hs : ∀ i ∈ stack, i < t.nodes.length)
    (hf : (stack.flatMap (walk (t.at_ Node.kidsDump) t.nodes.length)).length ≤ fuel) :
    displayLoop t.nodes fuel stack out = .ok (out ++
      (stack.flatMap (walk (t.at_ Node.kidsDump) t.nodes.length)).flatMap fun i => (t.nodes[i]?).toList) := by
  have hk := h.kidsDump
  induction fuel generalizing stack out with
  | zero =>
    cases stack with
    | nil => simp [displayLoop]
    | cons i stack =>
      exfalso
      have hi := hs i (by simp)
      obtain ⟨N, hN⟩ : ∃ N, t.nodes.length = N + 1 := ⟨t.nodes.length - 1, by omega⟩
      rw [hN, List.flatMap_cons, walk] at hf
      simp at hf
  | succ fuel ih =>
    cases stack with
    | nil => simp [displayLoop]
    | cons i stack =>
      have hi := hs i (by simp)
      have hn : t.nodes[i]? = some t.nodes[i] := List.getElem?_eq_getElem hi
      generalize t.nodes[i] = n at hn
      have hw : walk (t.at_ Node.kidsDump) t.nodes.length i =
          i :: (n.kidsDump).flatMap (walk (t.at_ Node.kidsDump) t.nodes.length) := by
        rw [walk_fuel h hk (fuel' := t.nodes.length + 1) hi (by omega) (by omega), walk, Tree.at_, hn]
      have hchild : ∀ j ∈ n.kidsDump, j < t.nodes.length := by
        intro j hj
        refine (h.child_lt ((hk.mem i j).1 ?_)).2
        rw [Tree.at_, hn]; exact hj
      have hrest : ∀ j ∈ n.kidsDump ++ stack, j < t.nodes.length := by
        intro j hj
        rcases List.mem_append.1 hj with hj | hj
        · exact hchild j hj
        · exact hs j (by simp [hj])
      have key := ih (n.kidsDump ++ stack) (out ++ [n]) hrest (by
        rw [List.flatMap_cons, hw] at hf
        simp only [List.cons_append, List.length_cons] at hf
        rw [List.flatMap_append]
        omega)
      have : displayLoop t.nodes (fuel + 1) (i :: stack) out =
          displayLoop t.nodes fuel (n.kidsDump ++ stack) (out ++ [n]) := by
        rw [displayLoop, idx, hn, Res.ofOption_some, Res.ok_bind]
        unfold Node.kidsDump
        split
        · simp
        · split <;> simp
      rw [this, key, List.flatMap_cons, hw, List.cons_append, List.flatMap_cons, hn,
        List.flatMap_append]
      simp

/-- C51.  The dump of a well-formed tree succeeds; it lists every node of the tree exactly once, and a
node before its children. -/
theorem C51_dump (t : Tree F D) (h : t.Wf) : ∃ out, t.displayNodes = .ok out ∧ out.Perm t.nodes ∧
    ∀ (i j : Nat) (n c : Node F D), t.nodes[i]? = some n → n.IsChild j → t.nodes[j]? = some c →
      List.Sublist [n, c] out := by
  have hk := h.kidsDump
  have h0 : 0 < t.nodes.length := List.length_pos_iff.2 h.nonempty
  have hp := walk_perm h hk
  refine ⟨_, displayLoop_eq h t.nodes.length [0] [] (by simpa using h0) ?_, ?_, ?_⟩
  · rw [List.flatMap_singleton, hp.length_eq, List.length_range]
  · rw [List.flatMap_singleton, List.nil_append]
    refine (hp.flatMap_right _).trans ?_
    rw [range_flatMap_getElem?]
  · intro i j n c hn hc hj
    have hi : i < t.nodes.length := (List.getElem?_eq_some_iff.1 hn).1
    have ho := walk_order h hk h0 (fuel := t.nodes.length) (by omega) (h.root_under hi)
      (b := j) ⟨n, hn, hc⟩
    rw [List.flatMap_singleton, List.nil_append]
    have h2 : List.Sublist ([i, j].flatMap fun i => (t.nodes[i]?).toList)
        ((walk (t.at_ Node.kidsDump) t.nodes.length 0).flatMap fun i => (t.nodes[i]?).toList) := by
      exact sublist_flatMap ho _
    rw [List.flatMap_cons, List.flatMap_cons, hn, hj] at h2
    simpa using h2

/-- C51.  The text itself: one line per listed node, indented by its depth. -/
theorem C51_text (sf : F → String) (sd : D → String) (t : Tree F D) (h : t.Wf) :
    ∃ out, t.displayNodes = .ok out ∧ t.display sf sd = .ok (String.join (out.map fun n =>
      String.join (List.replicate n.depth "      ") ++ n.display sf sd ++ "\n")) := by
  obtain ⟨out, h1, _⟩ := C51_dump t h
  exact ⟨out, h1, by rw [Tree.display, h1, Res.ok_bind]⟩

example : exTree.Wf := Tree.wf_of_check _ (by decide +kernel)

example : (match exTree.displayNodes with
    | .ok l => l.map Node.num
    | _ => []) = [0, 1, 3, 4, 5, 2] := by decide +kernel

end Verif
