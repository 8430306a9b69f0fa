import Verif.Proofs.Grow
import Verif.Proofs.BestSplit
import Verif.Spec.TreeWf

/-!
# Consequences of the certificate for the finished tree
-/

namespace Verif

open scoped Verif

variable {F D : Type}

set_option linter.unusedSectionVars false

/-- The lists of nodes differ in node values only. -/
def SameShape (l l' : List (Node F D)) : Prop :=
  l'.length = l.length ∧
    ∀ (i : Nat) (n : Node F D), l[i]? = some n → ∃ w, l'[i]? = some { n with weightValue := w }

theorem SameShape.refl (l : List (Node F D)) : SameShape l l :=
  ⟨rfl, fun _ n h => ⟨n.weightValue, h⟩⟩

theorem SameShape.trans {a b c : List (Node F D)} (h : SameShape a b) (h' : SameShape b c) :
    SameShape a c := by
  refine ⟨h'.1.trans h.1, fun i n hn => ?_⟩
  obtain ⟨w, hw⟩ := h.2 i n hn
  obtain ⟨w', hw'⟩ := h'.2 i _ hw
  exact ⟨w', hw'⟩

theorem SameShape.inv {a b : List (Node F D)} (h : SameShape a b) {i : Nat} {n' : Node F D}
    (hn : b[i]? = some n') : ∃ n w, a[i]? = some n ∧ n' = { n with weightValue := w } := by
  have hlt := (List.getElem?_eq_some_iff.1 hn).1
  rw [h.1] at hlt
  obtain ⟨w, hw⟩ := h.2 i a[i] (List.getElem?_eq_getElem hlt)
  rw [hn] at hw
  injection hw with hw
  exact ⟨a[i], w, List.getElem?_eq_getElem hlt, hw⟩

theorem SameShape.modify (l : List (Node F D)) (i : Nat) (f : Node F D → F) :
    SameShape l (l.modify i fun n => { n with weightValue := f n }) := by
  refine ⟨by simp, fun j n hn => ?_⟩
  rw [List.getElem?_modify, hn]
  by_cases h : i = j
  · exact ⟨f n, by simp [h]⟩
  · exact ⟨n.weightValue, by simp [h]⟩

theorem SameShape.countP {a b : List (Node F D)} (h : SameShape a b) :
    b.countP Node.isLeaf = a.countP Node.isLeaf := by
  have : b.map Node.isLeaf = a.map Node.isLeaf := by
    apply List.ext_getElem?
    intro i
    rw [List.getElem?_map, List.getElem?_map]
    cases ha : a[i]? with
    | none =>
      rw [List.getElem?_eq_none_iff] at ha
      rw [List.getElem?_eq_none_iff.2 (by rw [h.1]; exact ha)]
    | some n =>
      obtain ⟨w, hw⟩ := h.2 i n ha
      rw [hw]; rfl
  have e : ∀ l : List (Node F D), l.countP Node.isLeaf = (l.map Node.isLeaf).countP id := by
    intro l; rw [List.countP_map]; rfl
  rw [e, e, this]

variable [Fl F] [Fl D] [FlCast F D]

theorem updateAverage_shape : ∀ (fuel : Nat) (nodes nodes' : List (Node F D)) (i : Nat) (a : D),
    updateAverage fuel nodes i = .ok (nodes', a) → SameShape nodes nodes' := by
  intro fuel
  induction fuel with
  | zero => intro nodes nodes' i a h; simp [updateAverage] at h
  | succ fuel ih =>
    intro nodes nodes' i a h
    rw [updateAverage, Res.bind_eq_ok] at h
    obtain ⟨node, hn, h⟩ := h
    split at h
    · injection h with h
      injection h with h _
      rw [← h]; exact .refl _
    · simp only [Res.bind_eq_ok, Prod.exists] at h
      obtain ⟨rn, h1, n1, ra, h2, ln, h3, n2, la, h4, mn, h5, h⟩ := h
      have s12 := (ih _ _ _ _ h2).trans (ih _ _ _ _ h4)
      split at h
      · simp only [Res.pure_def, Res.ok_bind, Res.ok.injEq, Prod.mk.injEq, if_true] at h
        obtain ⟨rfl, _⟩ := h
        exact (s12.trans (.modify _ _ _)).trans (.modify _ _ _)
      · simp only [Res.pure_def, Res.ok_bind, Res.ok.injEq, Prod.mk.injEq, Bool.false_eq_true,
          if_false, Res.bind_eq_ok, Prod.exists] at h
        obtain ⟨n3, a3, h6, rfl, _⟩ := h
        exact (s12.trans (ih _ _ _ _ h6)).trans (.modify _ _ _)

theorem cleanUpSplits_shape {s : Splitter F} {nodes nodes' : List (Node F D)}
    (h : cleanUpSplits s nodes = .ok nodes') : SameShape nodes nodes' := by
  unfold cleanUpSplits at h
  split at h
  · cases h; exact .refl _
  · split at h
    · simp only [Res.bind_eq_ok, Prod.exists, Res.ok.injEq] at h
      obtain ⟨n, a, h1, rfl⟩ := h
      exact updateAverage_shape _ _ _ _ _ h1
    · cases h; exact .refl _

/-- A child of a split node is one of the new nodes. -/
theorem IsSplit.isChild {c : GrowCfg F D} {gs : List (Ghost F D)} {nodes : List (Node F D)} {i : Nat}
    {g : Ghost F D} {info : SplitInfo F D} {k : Nat} {kids : List (Kid F D)}
    (_h : IsSplit c gs nodes i g info k kids) {j : Nat} {lr : F}
    (hj : ((g.sn.asNode lr).makeParentNode (c.splitter.parentNode g.sn info k)).IsChild j) :
    k ≤ j ∧ j < k + c.splitter.arity := by
  obtain ⟨_, hj⟩ := hj
  cases hs : c.splitter with
  | imputer p =>
    rw [hs] at hj
    simp only [Node.makeParentNode, Splitter.parentNode, SNode.updateChildren, Splitter.links] at hj
    simp only [Splitter.arity]
    rcases hj with rfl | rfl | rfl
    · omega
    · omega
    · split <;> omega
  | branch p =>
    rw [hs] at hj
    simp only [Node.makeParentNode, Splitter.parentNode, SNode.updateChildren, Splitter.links] at hj
    simp only [Splitter.arity]
    omega

/-- Every new node is a child of the split node. -/
theorem isChild_of_new {s : Splitter F} {sn : SNode F D} {info : SplitInfo F D} {k j : Nat} {lr : F}
    (h1 : k ≤ j) (h2 : j < k + s.arity) :
    ((sn.asNode lr).makeParentNode (s.parentNode sn info k)).IsChild j := by
  refine ⟨rfl, ?_⟩
  cases s with
  | imputer p =>
    simp only [Splitter.arity] at h2
    simp only [Node.makeParentNode, Splitter.parentNode, SNode.updateChildren, Splitter.links]
    omega
  | branch p =>
    simp only [Splitter.arity] at h2
    simp only [Node.makeParentNode, Splitter.parentNode, SNode.updateChildren, Splitter.links]
    omega

theorem IsSplit.new_lt {c : GrowCfg F D} {gs : List (Ghost F D)} {nodes : List (Node F D)} {i : Nat}
    {g : Ghost F D} {info : SplitInfo F D} {k : Nat} {kids : List (Kid F D)}
    (h : IsSplit c gs nodes i g info k kids) {j : Nat} (h1 : k ≤ j) (h2 : j < k + c.splitter.arity) :
    ∃ kid g', kids[j - k]? = some kid ∧ gs[j]? = some g' ∧ g'.sn = { kid.sn with num := j } ∧
      g'.rows = kid.rows ∧ g'.parent = i := by
  have hlt : j - k < kids.length := by rw [h.arity]; omega
  obtain ⟨g', a1, a2, a3, a4⟩ := h.kid (j - k) _ (List.getElem?_eq_getElem hlt)
  rw [show k + (j - k) = j by omega] at a1 a2
  exact ⟨_, g', List.getElem?_eq_getElem hlt, a1, a2, a3, a4⟩

/-- What the certificate says about a node. -/
theorem Cert.node {c : GrowCfg F D} {o : SNode F D → Prop} {gs : List (Ghost F D)}
    {nodes : List (Node F D)} (h : Cert c o gs nodes) {i : Nat} {n : Node F D}
    (hn : nodes[i]? = some n) : ∃ g, gs[i]? = some g ∧
      ((g.info = none ∧ n = g.sn.asNode c.splitter.params.learningRate ∧ (o g.sn ∨ Closed c g.sn)) ∨
      ∃ info k kids, g.info = some (info, k) ∧ IsSplit c gs nodes i g info k kids ∧
        n = (g.sn.asNode c.splitter.params.learningRate).makeParentNode
          (c.splitter.parentNode g.sn info k)) := by
  have hlt := (List.getElem?_eq_some_iff.1 hn).1
  rw [← h.len] at hlt
  refine ⟨gs[i], List.getElem?_eq_getElem hlt, ?_⟩
  cases hi : gs[i].info with
  | none =>
    left
    obtain ⟨a, b⟩ := h.leaf i _ (List.getElem?_eq_getElem hlt) hi
    rw [hn] at a
    injection a with a
    exact ⟨rfl, a, b⟩
  | some p =>
    right
    obtain ⟨info, k⟩ := p
    obtain ⟨kids, hk⟩ := h.split i _ info k (List.getElem?_eq_getElem hlt) hi
    have a := hk.node
    rw [hn] at a
    injection a with a
    exact ⟨info, k, kids, rfl, hk, a⟩

theorem Cert.wf {c : GrowCfg F D} {o : SNode F D → Prop} {gs : List (Ghost F D)}
    {nodes nodes' : List (Node F D)} (h : Cert c o gs nodes) (hs : SameShape nodes nodes')
    (hne : 0 < gs.length) : Tree.Wf (⟨nodes'⟩ : Tree F D) := by
  have hchild : ∀ (i : Nat) (n : Node F D) (j : Nat), nodes'[i]? = some n → n.IsChild j →
      ∃ g', gs[j]? = some g' ∧ g'.parent = i ∧ i < j := by
    intro i n j hi hc
    obtain ⟨n0, w, hn0, rfl⟩ := hs.inv hi
    obtain ⟨g, hg, hnode⟩ := h.node hn0
    rcases hnode with ⟨_, rfl, _⟩ | ⟨info, k, kids, _, hS, rfl⟩
    · have := hc.1
      simp only [SNode.asNode, (h.num i g hg).2] at this
      cases this
    · have hc' : ((g.sn.asNode c.splitter.params.learningRate).makeParentNode
          (c.splitter.parentNode g.sn info k)).IsChild j := hc
      obtain ⟨a1, a2⟩ := hS.isChild hc'
      obtain ⟨_, g', _, b1, _, _, b2⟩ := hS.new_lt a1 a2
      exact ⟨g', b1, b2, by have := hS.later; omega⟩
  refine ⟨?_, ?_, ?_, ?_, ?_, ?_⟩
  · intro e
    simp only at e
    rw [e] at hs
    have := hs.1
    rw [← h.len] at this
    simp at this; omega
  · intro i n hi
    obtain ⟨n0, w, hn0, rfl⟩ := hs.inv hi
    obtain ⟨g, hg, hnode⟩ := h.node hn0
    rcases hnode with ⟨_, rfl, _⟩ | ⟨info, k, kids, _, hS, rfl⟩ <;>
      exact (h.num i g hg).1
  · intro i n j hi hc
    obtain ⟨g', a, _, b⟩ := hchild i n j hi hc
    refine ⟨b, ?_⟩
    have := (List.getElem?_eq_some_iff.1 a).1
    show j < nodes'.length
    rw [hs.1, ← h.len]; exact this
  · intro i n hi hl
    obtain ⟨n0, w, hn0, rfl⟩ := hs.inv hi
    obtain ⟨g, hg, hnode⟩ := h.node hn0
    rcases hnode with ⟨_, rfl, _⟩ | ⟨info, k, kids, _, hS, rfl⟩
    · simp only [SNode.asNode, (h.num i g hg).2] at hl
      cases hl
    · simp only [Node.makeParentNode, Splitter.parentNode, SNode.updateChildren, Splitter.links]
      cases c.splitter <;> simp
  · intro j hj hjl
    have hjl : j < nodes'.length := hjl
    rw [hs.1, ← h.len] at hjl
    obtain ⟨gi, info, k, b1, b2, b3, b4⟩ := h.parent j _ (List.getElem?_eq_getElem hjl) hj
    obtain ⟨kids, hS⟩ := h.split _ gi info k b1 b2
    obtain ⟨w, hw⟩ := hs.2 _ _ hS.node
    exact ⟨_, _, hw, isChild_of_new (s := c.splitter) (sn := gi.sn) (info := info)
      (lr := c.splitter.params.learningRate) b3 b4⟩
  · intro i i' n n' j hi hi' hc hc'
    obtain ⟨g1, a1, a2, _⟩ := hchild i n j hi hc
    obtain ⟨g2, b1, b2, _⟩ := hchild i' n' j hi' hc'
    rw [a1] at b1
    injection b1 with b1
    rw [← a2, ← b2, b1]

/-- The finished tree: a certificate of the nodes before the clean-up, which changes only values. -/
theorem Tree.fit_wf {c : GrowCfg F D} {sm : SampleMethod} {index : List Nat} {t : Tree F D}
    (h : Tree.fit c sm index = .ok t) : t.Wf := by
  obtain ⟨g, hs, sort, hists, nodes, gs, nl, _, _, hc, hcert, ⟨g0, h0, _⟩, _⟩ := Tree.fit_cert h
  exact hcert.wf (cleanUpSplits_shape hc) (List.getElem?_eq_some_iff.1 h0).1

/-- Splits of a fitted tree use the columns the tree was given. -/
theorem Tree.fit_features {c : GrowCfg F D} {sm : SampleMethod} {index : List Nat} {t : Tree F D}
    (h : Tree.fit c sm index = .ok t) :
    ∀ n ∈ t.nodes, n.isLeaf = false → n.splitFeature ∈ c.train.colIndex := by
  obtain ⟨g, hs, sort, hists, nodes, gs, nl, _, _, hc, hcert, _⟩ := Tree.fit_cert h
  intro n hn hl
  obtain ⟨i, hi⟩ := List.mem_iff_getElem?.1 hn
  obtain ⟨n0, w, hn0, rfl⟩ := (cleanUpSplits_shape hc).inv hi
  obtain ⟨gi, hg, hnode⟩ := hcert.node hn0
  rcases hnode with ⟨_, rfl, _⟩ | ⟨info, k, kids, _, hS, rfl⟩
  · simp only [SNode.asNode, (hcert.num i gi hg).2] at hl
    cases hl
  · exact bestSplit_feature hS.best

end Verif
