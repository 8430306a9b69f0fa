import Verif.Proofs.Kids
import Mathlib.Data.List.Perm.Basic

/-!
# The growing loop

`Cert` describes a grown tree node by node: for every node the record it was created from, the rows it
held, and how it was split.  `growLoop_cert` shows that the loop produces such a certificate.
-/

namespace Verif

open scoped Verif

/-- What is recorded about a node: the node as created, its rows, the split with the number of the
first child, and the number of its parent. -/
structure Ghost (F D : Type) where
  /-- the node as created -/
  sn : SNode F D
  /-- its rows -/
  rows : List Nat
  /-- the split and the number of the first child -/
  info : Option (SplitInfo F D × Nat)
  /-- the parent -/
  parent : Nat

section
variable {F D : Type}

/-- Records of new children. -/
def ghostKids (parent k : Nat) : List (Kid F D) → List (Ghost F D)
  | [] => []
  | a :: l => ⟨{ a.sn with num := k }, a.rows, none, parent⟩ :: ghostKids parent (k + 1) l

theorem length_ghostKids (p k : Nat) (l : List (Kid F D)) : (ghostKids p k l).length = l.length := by
  induction l generalizing k with
  | nil => rfl
  | cons a l ih => simp [ghostKids, ih]

theorem getElem?_ghostKids (p k : Nat) (l : List (Kid F D)) (j : Nat) :
    (ghostKids p k l)[j]? = l[j]?.map fun a => ⟨{ a.sn with num := k + j }, a.rows, none, p⟩ := by
  induction l generalizing k j with
  | nil => rfl
  | cons a l ih =>
    cases j with
    | zero => rfl
    | succ j =>
      simp only [ghostKids, List.getElem?_cons_succ, ih]
      congr 1; funext b; congr 2; omega

/-- Popping removes one element. -/
theorem popNode_ok {hp : HeapPick F D} {policy : GrowPolicy} {step : Nat} {q q' : List (SNode F D)}
    {n : SNode F D} (h : popNode hp policy step q = .ok (n, q')) :
    q.Perm (n :: q') ∧ q'.Sublist q := by
  cases policy with
  | depthWise =>
    simp only [popNode, Res.bind_eq_ok, Res.ofOption_eq_ok, Res.ok.injEq, Prod.mk.injEq] at h
    obtain ⟨a, ha, rfl, rfl⟩ := h
    refine ⟨?_, List.dropLast_sublist q⟩
    have := List.dropLast_append_getLast? a ha
    conv_lhs => rw [← this]
    exact List.perm_append_singleton _ _
  | lossGuide =>
    simp only [popNode, Res.bind_eq_ok, idx_eq_ok, Res.ok.injEq, Prod.mk.injEq] at h
    obtain ⟨a, ha, rfl, rfl⟩ := h
    obtain ⟨hi, rfl⟩ := List.getElem?_eq_some_iff.1 ha
    exact ⟨(List.getElem_cons_eraseIdx_perm hi).symm, List.eraseIdx_sublist _ _⟩

variable [Fl F] [Fl D] [FlCast F D]

omit [Fl D] [FlCast F D] in
theorem addNodes_eq (lr : F) (nodes : List (Node F D)) (queue new : List (SNode F D)) :
    addNodes lr nodes queue new = (nodes ++ new.map (SNode.asNode · lr),
      (new.filter fun n => !n.isMissingLeaf).reverse ++ queue) := by
  induction new generalizing nodes queue with
  | nil => simp [addNodes]
  | cons a l ih =>
    simp only [addNodes, ih, List.map_cons]
    cases h : a.isMissingLeaf
    · simp [pushNode, h, List.append_assoc]
    · simp [h, List.append_assoc]

/-- A successful iteration: a node is popped and either stays a leaf or is split. -/
theorem growStep_ok {c : GrowCfg F D} {s s' : GrowState F D} (h : growStep c s = .ok s') :
    ∃ node queue, popNode c.heap c.policy s.step s.queue = .ok (node, queue) ∧
      ((s'.nodes = s.nodes ∧ s'.index = s.index ∧ s'.queue = queue ∧ s'.nNodes = s.nNodes ∧
          (s'.nLeaves = s.nLeaves ∨ s'.nLeaves = s.nLeaves - 1 + 1) ∧
          (c.maxDepth < node.depth + 1 ∨ bestSplit c.splitter node c.train.colIndex = .ok none)) ∨
        (node.depth + 1 ≤ c.maxDepth ∧ ∃ info rows kids node' n,
          bestSplit c.splitter node c.train.colIndex = .ok (some info) ∧
          SplitDone c.splitter c.train info s.nNodes node s.index node' s'.index
            (numberKids s.nNodes kids) rows kids ∧
          s.nodes[node.num]? = some n ∧
          s'.nodes = s.nodes.set node.num (n.makeParentNode node') ++
            (numberKids s.nNodes kids).map (SNode.asNode · c.splitter.params.learningRate) ∧
          s'.queue = ((numberKids s.nNodes kids).filter fun n => !n.isMissingLeaf).reverse ++ queue ∧
          s'.nLeaves = s.nLeaves - 1 + kids.length ∧ s'.nNodes = s.nNodes + kids.length)) ∧
      s'.step = s.step + 1 := by
  simp only [growStep, Res.bind_eq_ok, Prod.exists] at h
  obtain ⟨node, queue, hpop, h⟩ := h
  refine ⟨node, queue, hpop, ?_⟩
  split at h
  · rename_i hd
    injection h with h
    subst h
    exact ⟨Or.inl ⟨rfl, rfl, rfl, rfl, Or.inl rfl, Or.inl hd⟩, rfl⟩
  · rename_i hd
    simp only [Res.bind_eq_ok, Prod.exists] at h
    obtain ⟨node', index', new, hsplit, h⟩ := h
    rcases splitNode_ok hsplit with ⟨hb, rfl, rfl, rfl⟩ | ⟨info, rows, kids, hb, hdone⟩
    · simp only [List.length_nil, if_true, Res.ok.injEq] at h
      subst h
      exact ⟨Or.inl ⟨rfl, rfl, rfl, rfl, Or.inr rfl, Or.inr hb⟩, rfl⟩
    · have hnew := hdone.new_eq
      subst hnew
      have hne : (numberKids s.nNodes kids).length ≠ 0 := by
        rw [length_numberKids, hdone.arity]
        cases c.splitter <;> simp [Splitter.arity]
      rw [if_neg hne] at h
      simp only [Res.bind_eq_ok, addNodes_eq, Res.ok.injEq] at h
      obtain ⟨n, hn, rfl⟩ := h
      rw [idx_eq_ok] at hn
      refine ⟨Or.inr ⟨by omega, info, rows, kids, node', n, hb, hdone, hn, rfl, rfl, ?_, ?_⟩, rfl⟩
      · simp [length_numberKids]
      · simp [length_numberKids]

/-- Why a node that is not waiting in the queue stays a leaf. -/
def Closed (c : GrowCfg F D) (sn : SNode F D) : Prop :=
  sn.isMissingLeaf = true ∨ c.maxDepth < sn.depth + 1 ∨
    bestSplit c.splitter sn c.train.colIndex = .ok none

/-- How a node was split. -/
structure IsSplit (c : GrowCfg F D) (gs : List (Ghost F D)) (nodes : List (Node F D)) (i : Nat)
    (g : Ghost F D) (info : SplitInfo F D) (k : Nat) (kids : List (Kid F D)) : Prop where
  notMissing : g.sn.isMissingLeaf = false
  depth : g.sn.depth + 1 ≤ c.maxDepth
  best : bestSplit c.splitter g.sn c.train.colIndex = .ok (some info)
  kids_eq : kidsOf c.splitter c.train g.sn g.rows info = .ok kids
  arity : kids.length = c.splitter.arity
  perm : (kids.flatMap Kid.rows).Perm g.rows
  node : nodes[i]? = some ((g.sn.asNode c.splitter.params.learningRate).makeParentNode
    (c.splitter.parentNode g.sn info k))
  later : i < k
  kid : ∀ (j : Nat) (kid : Kid F D), kids[j]? = some kid → ∃ g', gs[k + j]? = some g' ∧
    g'.sn = { kid.sn with num := k + j } ∧ g'.rows = kid.rows ∧ g'.parent = i

/-- Description of a (partly) grown tree; `open_` says which leaves may still be split. -/
structure Cert (c : GrowCfg F D) (open_ : SNode F D → Prop) (gs : List (Ghost F D))
    (nodes : List (Node F D)) : Prop where
  len : gs.length = nodes.length
  num : ∀ (i : Nat) (g : Ghost F D), gs[i]? = some g → g.sn.num = i ∧ g.sn.isLeaf = true
  leaf : ∀ (i : Nat) (g : Ghost F D), gs[i]? = some g → g.info = none →
    nodes[i]? = some (g.sn.asNode c.splitter.params.learningRate) ∧ (open_ g.sn ∨ Closed c g.sn)
  split : ∀ (i : Nat) (g : Ghost F D) (info : SplitInfo F D) (k : Nat), gs[i]? = some g →
    g.info = some (info, k) → ∃ kids, IsSplit c gs nodes i g info k kids
  parent : ∀ (j : Nat) (g : Ghost F D), gs[j]? = some g → 0 < j →
    ∃ gi info k, gs[g.parent]? = some gi ∧ gi.info = some (info, k) ∧ k ≤ j ∧
      j < k + c.splitter.arity

/-- Invariant of the loop. -/
structure Inv (c : GrowCfg F D) (root : SNode F D) (index0 : List Nat) (s : GrowState F D)
    (gs : List (Ghost F D)) : Prop where
  cert : Cert c (fun sn => sn ∈ s.queue) gs s.nodes
  root : ∃ g, gs[0]? = some g ∧ g.sn = root ∧ g.rows = index0
  nNodes : s.nNodes = s.nodes.length
  queue : ∀ q ∈ s.queue, ∃ g, gs[q.num]? = some g ∧ g.sn = q ∧ g.info = none ∧
    q.isMissingLeaf = false ∧ slice s.index q.startIdx q.stopIdx = .ok g.rows
  apart : s.queue.Pairwise fun a b => a.num ≠ b.num ∧
    (a.stopIdx ≤ b.startIdx ∨ b.stopIdx ≤ a.startIdx)
  leaves : s.nodes.countP Node.isLeaf = s.nLeaves
  pos : 1 ≤ s.nLeaves
  size : (c.splitter.arity - 1) * (s.nodes.length - 1) = c.splitter.arity * (s.nLeaves - 1)
  bound : s.nLeaves ≤ max 1 (c.maxLeaves + c.splitter.arity - 2)
  perm : s.index.Perm index0

omit [Fl F] [Fl D] [FlCast F D] in
theorem arity_pos (s : Splitter F) : 2 ≤ s.arity := by cases s <;> simp [Splitter.arity]

/-- Children are fresh leaves. -/
theorem kidsOf_fresh {s : Splitter F} {t : TrainData F D} {sn : SNode F D} {rows : List Nat}
    {info : SplitInfo F D} {kids : List (Kid F D)} (h : kidsOf s t sn rows info = .ok kids) :
    ∀ kid ∈ kids, kid.sn.isLeaf = true ∧ kid.sn.depth = sn.depth + 1 := by
  cases s with
  | imputer p =>
    simp only [kidsOf, imputerKids, Res.bind_eq_ok, Prod.exists, Res.ok.injEq] at h
    obtain ⟨_, _, _, _, _, _, _, _, _, _, rfl⟩ := h
    intro kid hk
    simp only [List.mem_cons, List.not_mem_nil, or_false] at hk
    rcases hk with rfl | rfl <;> exact ⟨rfl, rfl⟩
  | branch p =>
    simp only [kidsOf, branchKids, Res.bind_eq_ok, Prod.exists, Res.ok.injEq] at h
    obtain ⟨_, _, _, _, _, _, _, _, _, _, _, _, _, _, _, rfl⟩ := h
    intro kid hk
    simp only [List.mem_cons, List.not_mem_nil, or_false] at hk
    rcases hk with rfl | rfl | rfl <;> exact ⟨rfl, rfl⟩

theorem Cert.mono {c : GrowCfg F D} {o o' : SNode F D → Prop} {gs : List (Ghost F D)}
    {nodes : List (Node F D)} (h : Cert c o gs nodes) (ho : ∀ sn, o sn → o' sn ∨ Closed c sn) :
    Cert c o' gs nodes where
  len := h.len
  num := h.num
  leaf i g hi hn := by
    obtain ⟨h1, h2⟩ := h.leaf i g hi hn
    exact ⟨h1, h2.elim (ho _) Or.inr⟩
  split := h.split
  parent := h.parent

omit [Fl F] [Fl D] [FlCast F D] in
theorem getElem?_set_append {α : Type} (l m : List α) (n i : Nat) (a : α) :
    (l.set n a ++ m)[i]? =
      if i < l.length then (if i = n then some a else l[i]?) else m[i - l.length]? := by
  rw [List.getElem?_append, List.length_set]
  split
  · rename_i h
    rw [List.getElem?_set]
    by_cases hn : n = i
    · subst hn; simp [h]
    · rw [if_neg hn, if_neg (Ne.symm hn)]
  · rfl

/-- Popping a node that stays a leaf keeps the invariant. -/
theorem Inv.leaf {c : GrowCfg F D} {root : SNode F D} {index0 : List Nat} {s s' : GrowState F D}
    {gs : List (Ghost F D)} {node : SNode F D} {queue : List (SNode F D)}
    (h : Inv c root index0 s gs) (hpop : popNode c.heap c.policy s.step s.queue = .ok (node, queue))
    (h1 : s'.nodes = s.nodes) (h2 : s'.index = s.index) (h3 : s'.queue = queue)
    (h4 : s'.nNodes = s.nNodes) (h5 : s'.nLeaves = s.nLeaves ∨ s'.nLeaves = s.nLeaves - 1 + 1)
    (h6 : c.maxDepth < node.depth + 1 ∨ bestSplit c.splitter node c.train.colIndex = .ok none) :
    Inv c root index0 s' gs := by
  obtain ⟨hp, hsub⟩ := popNode_ok hpop
  have hl : s'.nLeaves = s.nLeaves := by have := h.pos; omega
  refine ⟨?_, h.root, ?_, ?_, ?_, ?_, ?_, ?_, ?_, ?_⟩
  · rw [h1, h3]
    refine h.cert.mono fun sn hsn => ?_
    rcases List.mem_cons.1 (hp.mem_iff.1 hsn) with rfl | hq
    · exact Or.inr (Or.inr h6)
    · exact Or.inl hq
  · rw [h4, h1, h.nNodes]
  · intro q hq
    rw [h3] at hq
    rw [h2]
    exact h.queue q (hsub.subset hq)
  · rw [h3]; exact h.apart.sublist hsub
  · rw [h1, hl, h.leaves]
  · rw [hl]; exact h.pos
  · rw [h1, hl]; exact h.size
  · rw [hl]; exact h.bound
  · rw [h2]; exact h.perm

omit [Fl F] [Fl D] [FlCast F D] in
theorem writeBack_perm {index rows rows' : List Nat} {i j : Nat}
    (h : slice index i j = .ok rows) (hp : rows'.Perm rows) :
    (writeBack index i j rows').Perm index := by
  obtain ⟨hle, hstop, rfl⟩ := slice_ok_iff.1 h
  have : index = index.take i ++ (index.drop i).take (j - i) ++ index.drop j := by
    conv_lhs => rw [← List.take_append_drop i index, ← List.take_append_drop (j - i) (index.drop i)]
    rw [List.drop_drop, List.append_assoc]
    congr 3; omega
  conv_rhs => rw [this]
  unfold writeBack
  exact (List.Perm.append_left _ hp).append_right _

omit [Fl F] [Fl D] [FlCast F D] in
theorem countP_set_add {nodes : List (Node F D)} {n : Nat} {a b : Node F D}
    (h : nodes[n]? = some a) (ha : a.isLeaf = true) (hb : b.isLeaf = false) :
    (nodes.set n b).countP Node.isLeaf + 1 = nodes.countP Node.isLeaf := by
  induction nodes generalizing n with
  | nil => simp at h
  | cons x l ih =>
    cases n with
    | zero =>
      simp only [List.getElem?_cons_zero, Option.some.injEq] at h
      subst h
      simp [ha, hb]
    | succ n =>
      simp only [List.getElem?_cons_succ] at h
      have := ih h
      simp only [List.set_cons_succ, List.countP_cons]
      omega

/-- Splitting a node keeps the invariant. -/
theorem Inv.split {c : GrowCfg F D} {root : SNode F D} {index0 : List Nat} {s s' : GrowState F D}
    {gs : List (Ghost F D)} {node node' : SNode F D} {queue : List (SNode F D)}
    {info : SplitInfo F D} {rows : List Nat} {kids : List (Kid F D)} {n : Node F D}
    (h : Inv c root index0 s gs) (hdone : growDone c s = false)
    (hpop : popNode c.heap c.policy s.step s.queue = .ok (node, queue))
    (hdepth : node.depth + 1 ≤ c.maxDepth)
    (hbest : bestSplit c.splitter node c.train.colIndex = .ok (some info))
    (hsd : SplitDone c.splitter c.train info s.nNodes node s.index node' s'.index
      (numberKids s.nNodes kids) rows kids)
    (hn : s.nodes[node.num]? = some n)
    (h1 : s'.nodes = s.nodes.set node.num (n.makeParentNode node') ++
      (numberKids s.nNodes kids).map (SNode.asNode · c.splitter.params.learningRate))
    (h2 : s'.queue = ((numberKids s.nNodes kids).filter fun n => !n.isMissingLeaf).reverse ++ queue)
    (h3 : s'.nLeaves = s.nLeaves - 1 + kids.length) (h4 : s'.nNodes = s.nNodes + kids.length) :
    ∃ gs', Inv c root index0 s' gs' := by
  obtain ⟨hp, hsub⟩ := popNode_ok hpop
  have hmem : node ∈ s.queue := hp.mem_iff.2 (by simp)
  obtain ⟨g, hg, hgs, hgi, hml, hsl⟩ := h.queue node hmem
  have hlen : s.nNodes = gs.length := h.nNodes.trans h.cert.len.symm
  have hnum : node.num < gs.length := (List.getElem?_eq_some_iff.1 hg).1
  have hap := (List.Perm.pairwise_iff (fun {a b} hab => ⟨hab.1.symm, hab.2.symm⟩) hp).1 h.apart
  rw [List.pairwise_cons] at hap
  have hrows : g.rows = rows := by
    have := hsl.symm.trans hsd.slice_eq
    injection this
  have hleafn := (h.cert.leaf _ g hg hgi).1
  have hnn : n = g.sn.asNode c.splitter.params.learningRate := by
    rw [hn] at hleafn; injection hleafn
  have hnleaf : n.isLeaf = true := by rw [hnn]; exact (h.cert.num _ g hg).2
  have har := arity_pos c.splitter
  set k := s.nNodes with hk
  set gs' := gs.set node.num { g with info := some (info, k) } ++ ghostKids node.num k kids with hgs'
  have get' : ∀ i, gs'[i]? = if i < gs.length then
      (if i = node.num then some { g with info := some (info, k) } else gs[i]?)
      else kids[i - gs.length]?.map fun a => ⟨{ a.sn with num := i }, a.rows, none, node.num⟩ := by
    intro i
    rw [hgs', getElem?_set_append]
    split
    · rfl
    · rw [getElem?_ghostKids]
      congr 1; funext a; rw [show k + (i - gs.length) = i by omega]
  have getn : ∀ i, s'.nodes[i]? = if i < gs.length then
      (if i = node.num then some (n.makeParentNode node') else s.nodes[i]?)
      else kids[i - gs.length]?.map fun a =>
        ({ a.sn with num := i } : SNode F D).asNode c.splitter.params.learningRate := by
    intro i
    rw [h1, getElem?_set_append, ← h.cert.len]
    split
    · rfl
    · rw [List.getElem?_map, getElem?_numberKids, Option.map_map]
      congr 1; funext a; simp only [Function.comp]; rw [show k + (i - gs.length) = i by omega]
  have keep : ∀ i gi, gs[i]? = some gi → ∃ g', gs'[i]? = some g' ∧ g'.sn = gi.sn ∧
      g'.rows = gi.rows ∧ g'.parent = gi.parent ∧ (i ≠ node.num → g' = gi) := by
    intro i gi hi
    have hlt : i < gs.length := (List.getElem?_eq_some_iff.1 hi).1
    rw [get', if_pos hlt]
    by_cases hin : i = node.num
    · rw [if_pos hin]
      subst hin
      rw [hg] at hi
      cases hi
      exact ⟨_, rfl, rfl, rfl, rfl, fun h => absurd rfl h⟩
    · rw [if_neg hin]
      exact ⟨gi, hi, rfl, rfl, rfl, fun _ => rfl⟩
  have newk : ∀ (j : Nat) (kid : Kid F D), kids[j]? = some kid →
      gs'[k + j]? = some ⟨{ kid.sn with num := k + j }, kid.rows, none, node.num⟩ := by
    intro j kid hj
    rw [get', if_neg (by omega), show k + j - gs.length = j by omega, hj]
    rfl
  refine ⟨gs', ⟨?_, ?_, ?_, ?_, ?_, ?_, ?_, ?_, ?_, ?_⟩⟩
  · -- certificate
    refine ⟨?_, ?_, ?_, ?_, ?_⟩
    · rw [h1, hgs', List.length_append, List.length_append, List.length_set, List.length_set,
        length_ghostKids, List.length_map, length_numberKids, h.cert.len]
    · intro i gi hi
      rw [get'] at hi
      split at hi
      · split at hi
        · cases hi; subst_vars; exact h.cert.num _ g hg
        · exact h.cert.num _ gi hi
      · rw [Option.map_eq_some_iff] at hi
        obtain ⟨kid, hkid, rfl⟩ := hi
        exact ⟨rfl, (kidsOf_fresh hsd.kids_eq kid (List.mem_of_getElem? hkid)).1⟩
    · intro i gi hi hnone
      rw [get'] at hi
      rw [getn]
      split at hi
      · rename_i hlt
        rw [if_pos hlt]
        split at hi
        · cases hi; cases hnone
        · rename_i hne
          rw [if_neg hne]
          obtain ⟨a1, a2⟩ := h.cert.leaf i gi hi hnone
          refine ⟨a1, a2.imp ?_ id⟩
          intro hq
          rw [h2, List.mem_append]
          right
          rcases List.mem_cons.1 (hp.mem_iff.1 hq) with hq | hq
          · exact absurd ((h.cert.num i gi hi).1.symm.trans (by rw [hq])) hne
          · exact hq
      · rename_i hlt
        rw [if_neg hlt]
        rw [Option.map_eq_some_iff] at hi
        obtain ⟨kid, hkid, rfl⟩ := hi
        refine ⟨by rw [hkid]; rfl, ?_⟩
        cases hm : kid.sn.isMissingLeaf
        · left
          show ({ kid.sn with num := i } : SNode F D) ∈ s'.queue
          rw [h2, List.mem_append, List.mem_reverse, List.mem_filter]
          left
          refine ⟨?_, by simp [hm]⟩
          refine List.mem_of_getElem? (i := i - gs.length) ?_
          rw [getElem?_numberKids, hkid, show k + (i - gs.length) = i by omega]
          rfl
        · right; left; exact hm
    · intro i gi info' k' hi hinfo
      rw [get'] at hi
      split at hi
      · rename_i hlt
        split at hi
        · rename_i hin
          cases hi
          simp only [Option.some.injEq, Prod.mk.injEq] at hinfo
          obtain ⟨rfl, rfl⟩ := hinfo
          refine ⟨kids, ?_⟩
          refine ⟨by rw [hgs]; exact hml, by rw [hgs]; exact hdepth, by rw [hgs]; exact hbest,
            by rw [hgs, hrows]; exact hsd.kids_eq, hsd.arity, by rw [hrows]; exact hsd.perm,
            ?_, by omega, ?_⟩
          · rw [getn, if_pos hlt, if_pos hin, hsd.node_eq, hnn, hgs]
          · intro j kid hj
            exact ⟨_, newk j kid hj, rfl, rfl, hin.symm⟩
        · rename_i hne
          obtain ⟨kids', hS⟩ := h.cert.split i gi info' k' hi hinfo
          refine ⟨kids', hS.notMissing, hS.depth, hS.best, hS.kids_eq, hS.arity, hS.perm, ?_,
            hS.later, ?_⟩
          · rw [getn, if_pos hlt, if_neg hne]; exact hS.node
          · intro j kid hj
            obtain ⟨g1, b1, b2, b3, b4⟩ := hS.kid j kid hj
            obtain ⟨g2, d1, d2, d3, d4, _⟩ := keep _ g1 b1
            exact ⟨g2, d1, d2.trans b2, d3.trans b3, d4.trans b4⟩
      · rw [Option.map_eq_some_iff] at hi
        obtain ⟨kid, hkid, rfl⟩ := hi
        cases hinfo
    · intro j gj hj hpos
      rw [get'] at hj
      have old : ∀ gj', gs[j]? = some gj' → ∃ gi info k, gs'[gj'.parent]? = some gi ∧
          gi.info = some (info, k) ∧ k ≤ j ∧ j < k + c.splitter.arity := by
        intro gj' hj'
        obtain ⟨gi, info1, k1, b1, b2, b3⟩ := h.cert.parent j gj' hj' hpos
        obtain ⟨g2, d1, _, _, _, d5⟩ := keep _ gi b1
        by_cases hpn : gj'.parent = node.num
        · rw [hpn, hg] at b1
          cases b1
          rw [hgi] at b2; cases b2
        · rw [d5 hpn] at d1
          exact ⟨gi, info1, k1, d1, b2, b3⟩
      split at hj
      · rename_i hlt
        split at hj
        · rename_i hjn
          cases hj
          exact old g (by rw [hjn]; exact hg)
        · exact old gj hj
      · rename_i hlt
        rw [Option.map_eq_some_iff] at hj
        obtain ⟨kid, hkid, rfl⟩ := hj
        have hkl : j - gs.length < kids.length := (List.getElem?_eq_some_iff.1 hkid).1
        have := hsd.arity
        refine ⟨{ g with info := some (info, k) }, info, k, ?_, rfl, by omega, by omega⟩
        show gs'[node.num]? = _
        rw [get', if_pos hnum, if_pos rfl]
  · obtain ⟨g0, c1, c2, c3⟩ := h.root
    obtain ⟨g2, d1, d2, d3, _⟩ := keep 0 g0 c1
    exact ⟨g2, d1, d2.trans c2, d3.trans c3⟩
  · rw [h4, h1, List.length_append, List.length_set, List.length_map, length_numberKids, ← h.nNodes]
  · intro q hq
    rw [h2, List.mem_append, List.mem_reverse, List.mem_filter] at hq
    rcases hq with ⟨hq, hqm⟩ | hq
    · obtain ⟨j, hj⟩ := List.mem_iff_getElem?.1 hq
      rw [getElem?_numberKids, Option.map_eq_some_iff] at hj
      obtain ⟨kid, hkid, rfl⟩ := hj
      exact ⟨_, newk j kid hkid, rfl, rfl, by simpa using hqm, hsd.kid_slice hkid⟩
    · obtain ⟨gq, b1, b2, b3, b4, b5⟩ := h.queue q (hsub.subset hq)
      obtain ⟨a1, a2⟩ := hap.1 q hq
      obtain ⟨g2, d1, d2, d3, d4, d5⟩ := keep _ gq b1
      rw [d5 (Ne.symm a1)] at d1
      refine ⟨gq, d1, b2, b3, b4, ?_⟩
      rw [hsd.other_slice a2.symm]
      exact b5
  · rw [h2, List.pairwise_append]
    refine ⟨?_, hap.2, ?_⟩
    · rw [List.pairwise_reverse]
      refine List.Pairwise.filter _ ?_
      rw [List.pairwise_iff_getElem]
      intro i j hi hj hij
      have e1 := getElem?_numberKids k kids i
      have e2 := getElem?_numberKids k kids j
      rw [length_numberKids] at hi hj
      rw [List.getElem?_eq_getElem hi, List.getElem?_eq_getElem (by rw [length_numberKids]; exact hi)]
        at e1
      rw [List.getElem?_eq_getElem hj, List.getElem?_eq_getElem (by rw [length_numberKids]; exact hj)]
        at e2
      simp only [Option.map_some, Option.some.injEq] at e1 e2
      rw [e1, e2]
      refine ⟨by simp only; omega, Or.inr ?_⟩
      exact List.pairwise_iff_getElem.1 hsd.segs.pairwise.1 i j hi hj hij
    · intro a ha b hb
      rw [List.mem_reverse, List.mem_filter] at ha
      obtain ⟨j, hj⟩ := List.mem_iff_getElem?.1 ha.1
      rw [getElem?_numberKids, Option.map_eq_some_iff] at hj
      obtain ⟨kid, hkid, rfl⟩ := hj
      obtain ⟨a1, a2⟩ := hap.1 b hb
      obtain ⟨gb, b1, _⟩ := h.queue b (hsub.subset hb)
      have hbn : b.num < gs.length := (List.getElem?_eq_some_iff.1 b1).1
      have hseg := hsd.segs.pairwise.2 kid (List.mem_of_getElem? hkid)
      refine ⟨by simp only; omega, ?_⟩
      simp only
      rcases a2 with a2 | a2
      · left; omega
      · right; omega
  · rw [h1, List.countP_append, h3]
    have e := countP_set_add (b := n.makeParentNode node') hn hnleaf rfl
    have e2 : ((numberKids k kids).map (SNode.asNode · c.splitter.params.learningRate)).countP
        Node.isLeaf = kids.length := by
      rw [← length_numberKids k kids, ← List.length_map (f :=
        (SNode.asNode · c.splitter.params.learningRate)), List.countP_eq_length]
      intro x hx
      rw [List.mem_map] at hx
      obtain ⟨y, hy, rfl⟩ := hx
      obtain ⟨j, hj⟩ := List.mem_iff_getElem?.1 hy
      rw [getElem?_numberKids, Option.map_eq_some_iff] at hj
      obtain ⟨kid, hkid, rfl⟩ := hj
      exact (kidsOf_fresh hsd.kids_eq kid (List.mem_of_getElem? hkid)).1
    rw [e2]
    have := h.leaves
    omega
  · rw [h3, hsd.arity]; omega
  · have hlen' : s'.nodes.length = s.nodes.length + kids.length := by
      rw [h1, List.length_append, List.length_set, List.length_map, length_numberKids]
    have hpos := h.pos
    have hne : 1 ≤ s.nodes.length := by rw [← h.cert.len]; omega
    have hsz := h.size
    rw [hlen', h3, hsd.arity]
    cases hsp : c.splitter with
    | imputer p => rw [hsp] at hsz; simp only [Splitter.arity] at hsz ⊢; omega
    | branch p => rw [hsp] at hsz; simp only [Splitter.arity] at hsz ⊢; omega
  · rw [h3, hsd.arity]
    simp only [growDone, Splitter.newLeavesAdded, Bool.or_eq_false_iff] at hdone
    have := of_decide_eq_false hdone.2
    have := h.pos
    omega
  · rw [hsd.index_eq]
    exact (writeBack_perm hsd.slice_eq hsd.perm).trans h.perm

/-- The loop keeps the invariant and ends when it is done. -/
theorem growLoop_inv {c : GrowCfg F D} {root : SNode F D} {index0 : List Nat} :
    ∀ n (s s' : GrowState F D) gs, Inv c root index0 s gs → growLoop c n s = .ok s' →
      (∃ gs', Inv c root index0 s' gs') ∧ growDone c s' = true := by
  intro n
  induction n with
  | zero =>
    intro s s' gs hI h
    simp only [growLoop] at h
    split at h
    · rename_i hd
      cases h
      exact ⟨⟨gs, hI⟩, hd⟩
    · cases h
  | succ n ih =>
    intro s s' gs hI h
    simp only [growLoop] at h
    split at h
    · rename_i hd
      cases h
      exact ⟨⟨gs, hI⟩, hd⟩
    · rename_i hd
      rw [Res.bind_eq_ok] at h
      obtain ⟨s1, hs1, h⟩ := h
      obtain ⟨node, queue, hpop, hc, _⟩ := growStep_ok hs1
      rcases hc with ⟨a1, a2, a3, a4, a5, a6⟩ | ⟨hdp, info, rows, kids, node', nn, b1, b2, b3, b4, b5,
        b6, b7⟩
      · exact ih s1 s' gs (hI.leaf hpop a1 a2 a3 a4 a5 a6) h
      · obtain ⟨gs1, hI1⟩ := hI.split (by simpa using hd) hpop hdp b1 b2 b3 b4 b5 b6 b7
        exact ih s1 s' gs1 hI1 h

/-- The root of the tree. -/
def rootNode (p : SplitParams F) (n : Nat) (g h : F) (hists : JaggedMatrix (Bin F D)) : SNode F D :=
  SNode.new 0 hists (weight p.l1 p.l2 p.maxDeltaStep g h) (gain p.l2 g h) g h 0 0 n ninf inf

/-- The initial state satisfies the invariant. -/
theorem growInit_inv {c : GrowCfg F D} {sm : SampleMethod} {index : List Nat} {s : GrowState F D}
    (h : growInit c sm index = .ok s) :
    ∃ g hs sort hists, rootSums (D := D) sm c.train.grad c.train.hess index = .ok (g, hs, sort) ∧
      histogramMatrix c.train.data c.train.cuts c.train.grad c.train.hess index c.train.colIndex sort
        = .ok hists ∧
      ∃ gs, Inv c (rootNode c.splitter.params index.length g hs hists) index s gs := by
  simp only [growInit, Res.bind_eq_ok, Prod.exists, Res.ok.injEq] at h
  obtain ⟨g, hs, sort, h1, hists, h2, rfl⟩ := h
  refine ⟨g, hs, sort, hists, h1, h2, ?_⟩
  set root := rootNode c.splitter.params index.length g hs hists with hroot
  have hr : SNode.new 0 hists (weight c.splitter.params.l1 c.splitter.params.l2
      c.splitter.params.maxDeltaStep g hs) (gain c.splitter.params.l2 g hs) g hs 0 0 index.length
      ninf inf = root := rfl
  rw [hr]
  refine ⟨[⟨root, index, none, 0⟩], ⟨⟨rfl, ?_, ?_, ?_, ?_⟩, ⟨_, rfl, rfl, rfl⟩, rfl, ?_, ?_, ?_, ?_, ?_,
    ?_, List.Perm.refl _⟩⟩
  · intro i gi hi
    cases i with
    | zero => cases hi; exact ⟨rfl, rfl⟩
    | succ i => cases hi
  · intro i gi hi hn
    cases i with
    | zero => cases hi; exact ⟨rfl, Or.inl (by simp [pushNode])⟩
    | succ i => cases hi
  · intro i gi info k hi hinfo
    cases i with
    | zero => cases hi; cases hinfo
    | succ i => cases hi
  · intro j gj hj hpos
    cases j with
    | zero => omega
    | succ j => cases hj
  · intro q hq
    simp only [pushNode, List.mem_cons, List.not_mem_nil, or_false] at hq
    subst hq
    refine ⟨_, rfl, rfl, rfl, rfl, ?_⟩
    rw [slice_ok_iff]
    refine ⟨Nat.zero_le _, le_refl _, ?_⟩
    show index = (index.drop 0).take (index.length - 0)
    simp
  · simp [pushNode]
  · simp [SNode.asNode, hroot, rootNode, SNode.new]
  · exact le_refl 1
  · simp
  · exact le_max_left _ _

/-- **Certificate of a fitted tree.**  Before the final clean-up the nodes of a fitted tree are
described by a certificate; a leaf that could still be split is left only because the leaf limit is
reached. -/
theorem Tree.fit_cert {c : GrowCfg F D} {sm : SampleMethod} {index : List Nat} {t : Tree F D}
    (h : Tree.fit c sm index = .ok t) :
    ∃ g hs sort hists nodes gs nLeaves,
      rootSums (D := D) sm c.train.grad c.train.hess index = .ok (g, hs, sort) ∧
      histogramMatrix c.train.data c.train.cuts c.train.grad c.train.hess index c.train.colIndex sort
        = .ok hists ∧
      cleanUpSplits c.splitter nodes = .ok t.nodes ∧
      Cert c (fun _ => c.maxLeaves < nLeaves + 1) gs nodes ∧
      (∃ g0, gs[0]? = some g0 ∧ g0.sn = rootNode c.splitter.params index.length g hs hists ∧
        g0.rows = index) ∧
      nodes.countP Node.isLeaf = nLeaves ∧ 1 ≤ nLeaves ∧
      (c.splitter.arity - 1) * (nodes.length - 1) = c.splitter.arity * (nLeaves - 1) ∧
      nLeaves ≤ max 1 (c.maxLeaves + c.splitter.arity - 2) := by
  simp only [Tree.fit, Res.bind_eq_ok, Res.ok.injEq] at h
  obtain ⟨s0, h0, s, hs, nodes, hc, rfl⟩ := h
  obtain ⟨g, hs', sort, hists, h1, h2, gs0, hI0⟩ := growInit_inv h0
  obtain ⟨⟨gs, hI⟩, hd⟩ := growLoop_inv _ _ _ _ hI0 hs
  refine ⟨g, hs', sort, hists, s.nodes, gs, s.nLeaves, h1, h2, hc, ?_, hI.root, hI.leaves, hI.pos,
    hI.size, hI.bound⟩
  refine hI.cert.mono fun sn hsn => Or.inl ?_
  simp only [growDone, Splitter.newLeavesAdded, Bool.or_eq_true] at hd
  rcases hd with hd | hd
  · rw [List.isEmpty_iff] at hd
    rw [hd] at hsn; cases hsn
  · exact of_decide_eq_true hd

end

end Verif
