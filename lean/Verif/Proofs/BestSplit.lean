import Verif.Model.Splitter
import Verif.Proofs.Order

/-!
# Where the best split comes from
-/

namespace Verif

open scoped Verif

variable {F D : Type} [Fl F]

set_option linter.unusedSectionVars false

/-- Gradient sum of the bins, in order. -/
def gradSum (bins : List (Bin F D)) : F := (bins.map Bin.grad).foldl (· + ·) 0

/-- Hessian sum of the bins, in order. -/
def hessSum (bins : List (Bin F D)) : F := (bins.map Bin.hess).foldl (· + ·) 0

/-- `info` is the evaluated candidate at column position `j` and bin `i + 1` of the node. -/
structure IsCandidate (s : Splitter F) (node : SNode F D) (cols : List Nat) (j i : Nat)
    (info : SplitInfo F D) : Prop where
  made : ∃ feature missing bins bin, cols[j]? = some feature ∧
    node.histograms.getCol j = .ok (missing :: bins) ∧ bins[i]? = some bin ∧
    evalCandidate s node feature (s.params.getConstraint feature) missing bin i
      (gradSum (bins.take i)) (hessSum (bins.take i)) = .ok (some info)

/-- Keep the better of two candidates. -/
def better (best : Option (SplitInfo F D)) (c : SplitInfo F D) : Option (SplitInfo F D) :=
  match best with
  | none => some c
  | some b => if b.splitGain <ᶠ c.splitGain then some c else some b

/-- The candidates of one feature, in order. -/
def featureCands (s : Splitter F) (node : SNode F D) (feature : Nat) (missing : Bin F D) :
    List (Bin F D) → Nat → F → F → Res (List (Nat × SplitInfo F D))
  | [], _, _, _ => .ok []
  | bin :: l, i, cg, ch => do
    let c ← evalCandidate s node feature (s.params.getConstraint feature) missing bin i cg ch
    let r ← featureCands s node feature missing l (i + 1) (cg + bin.grad) (ch + bin.hess)
    .ok ((c.toList.map fun x => (i, x)) ++ r)

theorem bestFeatureLoop_eq (s : Splitter F) (node : SNode F D) (feature : Nat) (missing : Bin F D)
    (l : List (Bin F D)) : ∀ (i : Nat) (cg ch : F) (best : Option (SplitInfo F D)),
    bestFeatureLoop s node feature (s.params.getConstraint feature) missing l i cg ch best =
      featureCands s node feature missing l i cg ch >>= fun cs =>
        .ok ((cs.map Prod.snd).foldl better best) := by
  induction l with
  | nil => intro i cg ch best; rfl
  | cons bin l ih =>
    intro i cg ch best
    simp only [bestFeatureLoop, featureCands]
    cases evalCandidate s node feature (s.params.getConstraint feature) missing bin i cg ch with
    | panic => rfl
    | diverge => rfl
    | ok c =>
      simp only [Res.ok_bind, ih]
      cases featureCands s node feature missing l (i + 1) (cg + bin.grad) (ch + bin.hess) with
      | panic => rfl
      | diverge => rfl
      | ok r =>
        simp only [Res.ok_bind]
        cases c with
        | none => rfl
        | some c => cases best <;> rfl

theorem featureCands_mem {s : Splitter F} {node : SNode F D} {feature : Nat} {missing : Bin F D}
    (all : List (Bin F D)) : ∀ (l : List (Bin F D)) (k : Nat) cs, l = all.drop k →
    featureCands s node feature missing l k (gradSum (all.take k)) (hessSum (all.take k)) = .ok cs →
    ∀ i info, (i, info) ∈ cs ↔ k ≤ i ∧ ∃ bin, all[i]? = some bin ∧
      evalCandidate s node feature (s.params.getConstraint feature) missing bin i
        (gradSum (all.take i)) (hessSum (all.take i)) = .ok (some info) := by
  intro l
  induction l with
  | nil =>
    intro k cs hl h i info
    simp only [featureCands, Res.ok.injEq] at h
    subst h
    have hlen : all.length ≤ k := List.drop_eq_nil_iff.1 hl.symm
    constructor
    · intro h; cases h
    · rintro ⟨h1, bin, h2, _⟩
      have := (List.getElem?_eq_some_iff.1 h2).1
      omega
  | cons bin l ih =>
    intro k cs hl h i info
    have hk : all[k]? = some bin := by
      have := congrArg (·[0]?) hl
      simpa using this.symm
    have hlt := (List.getElem?_eq_some_iff.1 hk).1
    have htl : l = all.drop (k + 1) := by
      have := congrArg List.tail hl
      simpa [List.tail_drop] using this
    have hg : gradSum (all.take k) + bin.grad = gradSum (all.take (k + 1)) := by
      rw [List.take_add_one, hk]; simp [gradSum, List.foldl_append]
    have hh : hessSum (all.take k) + bin.hess = hessSum (all.take (k + 1)) := by
      rw [List.take_add_one, hk]; simp [hessSum, List.foldl_append]
    simp only [featureCands, Res.bind_eq_ok, Res.ok.injEq, hg, hh] at h
    obtain ⟨c, hc, r, hr, rfl⟩ := h
    have ih := ih (k + 1) r htl hr i info
    rw [List.mem_append, ih]
    constructor
    · rintro (h | ⟨h1, h2⟩)
      · cases c with
        | none => simp at h
        | some c =>
          simp only [Option.toList_some, List.map_cons, List.map_nil, List.mem_singleton,
            Prod.mk.injEq] at h
          obtain ⟨rfl, rfl⟩ := h
          exact ⟨le_refl _, bin, hk, hc⟩
      · exact ⟨by omega, h2⟩
    · rintro ⟨h1, bin', h2, h3⟩
      by_cases he : k = i
      · subst he
        rw [hk] at h2; cases h2
        rw [hc] at h3
        injection h3 with h3
        left; simp [h3]
      · right; exact ⟨by omega, bin', h2, h3⟩

theorem featureCands_sorted {s : Splitter F} {node : SNode F D} {feature : Nat} {missing : Bin F D} :
    ∀ (l : List (Bin F D)) (k : Nat) (cg ch : F) cs,
    featureCands s node feature missing l k cg ch = .ok cs →
    cs.Pairwise (fun a b => a.1 < b.1) ∧ ∀ a ∈ cs, k ≤ a.1 := by
  intro l
  induction l with
  | nil =>
    intro k cg ch cs h
    simp only [featureCands, Res.ok.injEq] at h
    subst h; simp
  | cons bin l ih =>
    intro k cg ch cs h
    simp only [featureCands, Res.bind_eq_ok, Res.ok.injEq] at h
    obtain ⟨c, hc, r, hr, rfl⟩ := h
    obtain ⟨h1, h2⟩ := ih _ _ _ _ hr
    cases c with
    | none => exact ⟨by simpa using h1, fun a ha => by have := h2 a (by simpa using ha); omega⟩
    | some c =>
      simp only [Option.toList_some, List.map_cons, List.map_nil, List.cons_append, List.nil_append,
        List.pairwise_cons, List.mem_cons]
      exact ⟨⟨fun a ha => by have := h2 a ha; omega, h1⟩, by
        rintro a (rfl | ha)
        · exact le_refl _
        · have := h2 a ha; omega⟩

/-- The best candidate of a feature. -/
theorem bestFeatureSplit_ok {s : Splitter F} {node : SNode F D} {feature j : Nat}
    {r : Option (SplitInfo F D)} (h : bestFeatureSplit s node feature j = .ok r) :
    ∃ missing bins cs, node.histograms.getCol j = .ok (missing :: bins) ∧
      featureCands s node feature missing bins 0 0 0 = .ok cs ∧
      r = (cs.map Prod.snd).foldl better none := by
  simp only [bestFeatureSplit, Res.bind_eq_ok] at h
  obtain ⟨histogram, h1, h⟩ := h
  cases histogram with
  | nil => cases h
  | cons missing bins =>
    simp only [bestFeatureLoop_eq, Res.bind_eq_ok, Res.ok.injEq] at h
    obtain ⟨cs, h2, rfl⟩ := h
    exact ⟨missing, bins, cs, h1, h2, rfl⟩

theorem foldl_better_mem (cs : List (SplitInfo F D)) (best : Option (SplitInfo F D))
    {info : SplitInfo F D} (h : cs.foldl better best = some info) : best = some info ∨ info ∈ cs := by
  induction cs generalizing best with
  | nil => exact .inl h
  | cons c cs ih =>
    rcases ih _ h with h | h
    · unfold better at h
      split at h
      · injection h with h; exact .inr (by simp [h])
      · split at h
        · injection h with h; exact .inr (by simp [h])
        · exact .inl h
    · exact .inr (by simp [h])

/-- The candidates of all features from position `k` on, in order. -/
def allCands (s : Splitter F) (node : SNode F D) : List Nat → Nat → Res (List (Nat × Nat × SplitInfo F D))
  | [], _ => .ok []
  | f :: l, k => do
    let h ← node.histograms.getCol k
    match h with
    | [] => .panic
    | missing :: bins => do
      let cs ← featureCands s node f missing bins 0 0 0
      let r ← allCands s node l (k + 1)
      .ok ((cs.map fun c => (k, c)) ++ r)

/-- Lexicographic order of positions. -/
def PosLt (a b : Nat × Nat) : Prop := a.1 < b.1 ∨ a.1 = b.1 ∧ a.2 < b.2

theorem allCands_mem {s : Splitter F} {node : SNode F D} (all : List Nat) :
    ∀ (l : List Nat) (k : Nat) cs, l = all.drop k → allCands s node l k = .ok cs →
    ∀ j i info, (j, i, info) ∈ cs ↔ k ≤ j ∧ IsCandidate s node all j i info := by
  intro l
  induction l with
  | nil =>
    intro k cs hl h j i info
    simp only [allCands, Res.ok.injEq] at h
    subst h
    have hlen : all.length ≤ k := List.drop_eq_nil_iff.1 hl.symm
    constructor
    · intro h; cases h
    · rintro ⟨h1, ⟨f, m, bs, b, h2, _⟩⟩
      have := (List.getElem?_eq_some_iff.1 h2).1
      omega
  | cons f l ih =>
    intro k cs hl h j i info
    have hk : all[k]? = some f := by
      have := congrArg (·[0]?) hl
      simpa using this.symm
    have htl : l = all.drop (k + 1) := by
      have := congrArg List.tail hl
      simpa [List.tail_drop] using this
    simp only [allCands, Res.bind_eq_ok] at h
    obtain ⟨hist, h1, h⟩ := h
    cases hist with
    | nil => cases h
    | cons missing bins =>
      simp only [Res.bind_eq_ok, Res.ok.injEq] at h
      obtain ⟨fc, h2, r, h3, rfl⟩ := h
      have hm := featureCands_mem bins bins 0 fc (by simp) (by simpa [gradSum, hessSum] using h2)
      have ih := ih (k + 1) r htl h3 j i info
      rw [List.mem_append, ih, List.mem_map]
      constructor
      · rintro (⟨c, hc, he⟩ | ⟨h4, h5⟩)
        · obtain ⟨i', info'⟩ := c
          simp only [Prod.mk.injEq] at he
          obtain ⟨rfl, rfl, rfl⟩ := he
          obtain ⟨_, bin, h6, h7⟩ := (hm i' info').1 hc
          exact ⟨le_refl _, ⟨f, missing, bins, bin, hk, h1, h6, h7⟩⟩
        · exact ⟨by omega, h5⟩
      · rintro ⟨h4, h5⟩
        by_cases he : k = j
        · left
          subst he
          obtain ⟨f', m', bs', b', g1, g2, g3, g4⟩ := h5.made
          rw [hk] at g1; cases g1
          rw [h1] at g2; cases g2
          exact ⟨(i, info), (hm i info).2 ⟨Nat.zero_le _, b', g3, g4⟩, rfl⟩
        · right; exact ⟨by omega, h5⟩

theorem allCands_sorted {s : Splitter F} {node : SNode F D} :
    ∀ (l : List Nat) (k : Nat) cs, allCands s node l k = .ok cs →
    cs.Pairwise (fun a b => PosLt (a.1, a.2.1) (b.1, b.2.1)) ∧ ∀ a ∈ cs, k ≤ a.1 := by
  intro l
  induction l with
  | nil =>
    intro k cs h
    simp only [allCands, Res.ok.injEq] at h
    subst h; simp
  | cons f l ih =>
    intro k cs h
    simp only [allCands, Res.bind_eq_ok] at h
    obtain ⟨hist, h1, h⟩ := h
    cases hist with
    | nil => cases h
    | cons missing bins =>
      simp only [Res.bind_eq_ok, Res.ok.injEq] at h
      obtain ⟨fc, h2, r, h3, rfl⟩ := h
      obtain ⟨g1, g2⟩ := ih _ _ h3
      obtain ⟨g3, _⟩ := featureCands_sorted _ _ _ _ _ h2
      refine ⟨?_, ?_⟩
      · rw [List.pairwise_append]
        refine ⟨?_, g1, ?_⟩
        · rw [List.pairwise_map]
          exact g3.imp fun h => Or.inr ⟨rfl, h⟩
        · intro a ha b hb
          obtain ⟨c, _, rfl⟩ := List.mem_map.1 ha
          exact Or.inl (by have := g2 b hb; omega)
      · intro a ha
        rcases List.mem_append.1 ha with ha | ha
        · obtain ⟨c, _, rfl⟩ := List.mem_map.1 ha
          exact le_refl _
        · have := g2 a ha; omega

/-- The best split is one of the candidates (no law of arithmetic needed). -/
theorem bestSplitLoop_mem {s : Splitter F} {node : SNode F D} :
    ∀ (l : List Nat) (k : Nat) (bg : F) (best r : Option (SplitInfo F D)),
    bestSplitLoop s node l k bg best = .ok r → ∃ cs, allCands s node l k = .ok cs ∧
      ∀ info, r = some info → best = some info ∨ ∃ p ∈ cs, p.2.2 = info := by
  intro l
  induction l with
  | nil =>
    intro k bg best r h
    simp only [bestSplitLoop, Res.ok.injEq] at h
    exact ⟨[], rfl, fun info hi => .inl (h.trans hi)⟩
  | cons f l ih =>
    intro k bg best r h
    simp only [bestSplitLoop, Res.bind_eq_ok] at h
    obtain ⟨rf, h1, h⟩ := h
    obtain ⟨missing, bins, fc, g1, g2, g3⟩ := bestFeatureSplit_ok h1
    have key : ∀ bg' best', bestSplitLoop s node l (k + 1) bg' best' = .ok r →
        (best' = best ∨ best' = rf) → ∃ cs, allCands s node (f :: l) k = .ok cs ∧
        ∀ info, r = some info → best = some info ∨ ∃ p ∈ cs, p.2.2 = info := by
      intro bg' best' hl hb
      obtain ⟨cs, e1, e2⟩ := ih _ _ _ _ hl
      refine ⟨(fc.map fun c => (k, c)) ++ cs, by simp [allCands, g1, g2, e1], ?_⟩
      intro info hi
      rcases e2 info hi with e | ⟨p, hp, e⟩
      · rcases hb with rfl | rfl
        · exact .inl e
        · right
          rw [g3] at e
          rcases foldl_better_mem _ _ e with e | e
          · cases e
          · obtain ⟨c, hc, rfl⟩ := List.mem_map.1 e
            exact ⟨(k, c), List.mem_append_left _ (List.mem_map.2 ⟨c, hc, rfl⟩), rfl⟩
      · exact .inr ⟨p, List.mem_append_right _ hp, e⟩
    cases rf with
    | none => exact key _ _ h (.inl rfl)
    | some info =>
      simp only at h
      split at h
      · exact key _ _ h (.inr rfl)
      · exact key _ _ h (.inl rfl)

theorem bestSplit_mem {s : Splitter F} {node : SNode F D} {cols : List Nat}
    {info : SplitInfo F D} (h : bestSplit s node cols = .ok (some info)) :
    ∃ j i, IsCandidate s node cols j i info := by
  obtain ⟨cs, h1, h2⟩ := bestSplitLoop_mem _ _ _ _ _ h
  rcases h2 info rfl with h2 | ⟨⟨j, i, info'⟩, hp, rfl⟩
  · cases h2
  · exact ⟨j, i, ((allCands_mem cols cols 0 cs (by simp) h1 j i info').1 hp).2⟩

theorem evalCandidate_some {s : Splitter F} {node : SNode F D} {feature : Nat}
    {constraint : Option Constraint} {missing bin : Bin F D} {i : Nat} {cg ch : F}
    {info : SplitInfo F D} :
    evalCandidate s node feature constraint missing bin i cg ch = .ok (some info) ↔
    ∃ l r m g, s.evaluateSplit
      { lg := cg, lh := ch
        rg := node.gradientSum - cg - missing.grad, rh := node.hessianSum - ch - missing.hess
        mg := missing.grad, mh := missing.hess
        lower := node.lowerBound, upper := node.upperBound, parentWeight := node.weightValue
        constraint } = .ok (some (l, r, m)) ∧
      g = cullGain (node.getSplitGain l r m s.params.gamma) l.weight r.weight constraint ∧
      (g ≤ᶠ 0) = false ∧
      info =
        { splitGain := if isNaN g then 0 else g, splitFeature := feature, splitValue := bin.cut
          splitBin := (i + 1) % 65536
          leftNode := { l with
            lower := (childBounds constraint node.lowerBound node.upperBound
              ((l.weight + r.weight) / Fl.ofNat 2)).1.1
            upper := (childBounds constraint node.lowerBound node.upperBound
              ((l.weight + r.weight) / Fl.ofNat 2)).1.2 }
          rightNode := { r with
            lower := (childBounds constraint node.lowerBound node.upperBound
              ((l.weight + r.weight) / Fl.ofNat 2)).2.1
            upper := (childBounds constraint node.lowerBound node.upperBound
              ((l.weight + r.weight) / Fl.ofNat 2)).2.2 }
          missingNode := m } := by
  simp only [evalCandidate, Res.bind_eq_ok]
  constructor
  · rintro ⟨o, h1, h⟩
    cases o with
    | none => simp at h
    | some p =>
      obtain ⟨l, r, m⟩ := p
      simp only at h
      split at h
      · simp at h
      · rename_i hg
        simp only [Res.ok.injEq, Option.some.injEq] at h
        exact ⟨l, r, m, _, h1, rfl, by simpa using hg, h.symm⟩
  · rintro ⟨l, r, m, g, h1, rfl, h2, rfl⟩
    refine ⟨_, h1, ?_⟩
    simp only [h2, Bool.false_eq_true, if_false]

theorem bestSplit_feature {s : Splitter F} {node : SNode F D} {cols : List Nat}
    {info : SplitInfo F D} (h : bestSplit s node cols = .ok (some info)) :
    info.splitFeature ∈ cols := by
  obtain ⟨j, i, ⟨f, m, bs, b, h1, h2, h3, h4⟩⟩ := bestSplit_mem h
  obtain ⟨l, r, mi, g, _, _, _, rfl⟩ := evalCandidate_some.1 h4
  exact List.mem_of_getElem? h1

/-! ### The best candidate, with the laws of `<` -/

section order
variable [Fl.OrdLaws F]

/-- First of the greatest. -/
def FirstBest {α : Type} (gain : α → F) (cs : List α) (c : α) : Prop :=
  ∃ pre post, cs = pre ++ c :: post ∧ (∀ x ∈ pre, (gain x <ᶠ gain c) = true) ∧
    ∀ x ∈ post, (gain c <ᶠ gain x) = false

theorem FirstBest.keep {α : Type} {gain : α → F} {cs cs' : List α} {c : α}
    (h : FirstBest gain cs c) (h' : ∀ x ∈ cs', (gain c <ᶠ gain x) = false) :
    FirstBest gain (cs ++ cs') c := by
  obtain ⟨pre, post, rfl, h1, h2⟩ := h
  refine ⟨pre, post ++ cs', by simp, h1, ?_⟩
  intro x hx
  rcases List.mem_append.1 hx with hx | hx
  · exact h2 x hx
  · exact h' x hx

theorem FirstBest.all {α : Type} {gain : α → F} {cs : List α} {c : α} (h : FirstBest gain cs c) :
    ∀ x ∈ cs, (gain c <ᶠ gain x) = false := by
  obtain ⟨pre, post, rfl, h1, h2⟩ := h
  intro x hx
  rcases List.mem_append.1 hx with hx | hx
  · exact Fl.lt_asymm (h1 x hx)
  · rcases List.mem_cons.1 hx with rfl | hx
    · exact Fl.OrdLaws.lt_irrefl _
    · exact h2 x hx

theorem FirstBest.replace {α : Type} {gain : α → F} {cs cs' : List α} {c : α}
    (hb : ∀ x ∈ cs, (gain x <ᶠ gain c) = true) (h : FirstBest gain cs' c) :
    FirstBest gain (cs ++ cs') c := by
  obtain ⟨pre, post, rfl, h1, h2⟩ := h
  refine ⟨cs ++ pre, post, by simp, ?_, h2⟩
  intro x hx
  rcases List.mem_append.1 hx with hx | hx
  · exact hb x hx
  · exact h1 x hx

theorem foldl_better_best (cs : List (SplitInfo F D)) (seen : List (SplitInfo F D))
    (best : Option (SplitInfo F D)) (hn : ∀ c ∈ seen ++ cs, isNaN c.splitGain = false)
    (hs : match best with
      | none => seen = []
      | some b => FirstBest SplitInfo.splitGain seen b) :
    match cs.foldl better best with
      | none => seen ++ cs = []
      | some b => FirstBest SplitInfo.splitGain (seen ++ cs) b := by
  induction cs generalizing seen best with
  | nil => simpa using hs
  | cons c cs ih =>
    have hsplit : seen ++ c :: cs = (seen ++ [c]) ++ cs := by simp
    rw [List.foldl_cons, hsplit]
    refine ih _ _ (by rw [← hsplit]; exact hn) ?_
    cases best with
    | none =>
      simp only at hs
      subst hs
      exact ⟨[], [], rfl, by simp, by simp⟩
    | some b =>
      simp only [better] at hs ⊢
      split
      · rename_i b' hb
        split at hb
        · cases hb
        · cases hb
      · rename_i b' hb
        split at hb
        · rename_i hlt
          injection hb with hb
          subst hb
          refine FirstBest.replace ?_ ⟨[], [], rfl, by simp, by simp⟩
          intro x hx
          exact Fl.lt_of_not_of_lt (hn x (List.mem_append_left _ hx)) (hs.all x hx) hlt
        · rename_i hlt
          injection hb with hb
          subst hb
          refine hs.keep ?_
          intro x hx
          rw [List.mem_singleton] at hx
          subst hx
          simpa using hlt

theorem candidate_num {s : Splitter F} {node : SNode F D} {feature : Nat}
    {constraint : Option Constraint} {missing bin : Bin F D} {i : Nat} {cg ch : F}
    {info : SplitInfo F D}
    (h : evalCandidate s node feature constraint missing bin i cg ch = .ok (some info)) :
    isNaN info.splitGain = false := by
  obtain ⟨l, r, mi, g, _, _, _, rfl⟩ := evalCandidate_some.1 h
  simp only
  split
  · exact Fl.OrdLaws.zero_num
  · rename_i h; simpa using h

/-- What the loop over the features knows. -/
def SplitBest (seen : List (Nat × Nat × SplitInfo F D)) (bg : F) : Option (SplitInfo F D) → Prop
  | none => bg = 0 ∧ ∀ c ∈ seen, ((0 : F) <ᶠ c.2.2.splitGain) = false
  | some b => bg = b.splitGain ∧ ((0 : F) <ᶠ b.splitGain) = true ∧
      ∃ j i, FirstBest (fun c => c.2.2.splitGain) seen (j, i, b)

theorem firstBest_map {α β : Type} {gain : α → F} {g : β → α} {cs : List β} {a : α}
    (h : FirstBest gain (cs.map g) a) : ∃ b, g b = a ∧ FirstBest (fun x => gain (g x)) cs b := by
  obtain ⟨pre, post, h1, h2, h3⟩ := h
  obtain ⟨pre', rest, rfl, rfl, h4⟩ := List.map_eq_append_iff.1 h1
  obtain ⟨b, post', rfl, rfl, rfl⟩ := List.map_eq_cons_iff.1 h4
  refine ⟨b, rfl, pre', post', rfl, ?_, ?_⟩
  · intro x hx; exact h2 _ (List.mem_map.2 ⟨x, hx, rfl⟩)
  · intro x hx; exact h3 _ (List.mem_map.2 ⟨x, hx, rfl⟩)

theorem FirstBest.map {α β : Type} {gain : α → F} {g : β → α} {cs : List β} {b : β}
    (h : FirstBest (fun x => gain (g x)) cs b) : FirstBest gain (cs.map g) (g b) := by
  obtain ⟨pre, post, rfl, h2, h3⟩ := h
  refine ⟨pre.map g, post.map g, by simp, ?_, ?_⟩
  · intro x hx
    obtain ⟨y, hy, rfl⟩ := List.mem_map.1 hx
    exact h2 y hy
  · intro x hx
    obtain ⟨y, hy, rfl⟩ := List.mem_map.1 hx
    exact h3 y hy

theorem bestSplitLoop_best {s : Splitter F} {node : SNode F D} :
    ∀ (l : List Nat) (k : Nat) (bg : F) (best r : Option (SplitInfo F D))
      (seen : List (Nat × Nat × SplitInfo F D)),
    (∀ c ∈ seen, isNaN c.2.2.splitGain = false) → SplitBest seen bg best →
    bestSplitLoop s node l k bg best = .ok r → ∃ cs, allCands s node l k = .ok cs ∧
      ∃ bg', SplitBest (seen ++ cs) bg' r := by
  intro l
  induction l with
  | nil =>
    intro k bg best r seen hn hs h
    simp only [bestSplitLoop, Res.ok.injEq] at h
    subst h
    exact ⟨[], rfl, bg, by simpa using hs⟩
  | cons f l ih =>
    intro k bg best r seen hn hs h
    simp only [bestSplitLoop, Res.bind_eq_ok] at h
    obtain ⟨rf, h1, h⟩ := h
    obtain ⟨missing, bins, fc, g1, g2, g3⟩ := bestFeatureSplit_ok h1
    have hfn : ∀ c ∈ fc, isNaN c.2.splitGain = false := by
      rintro ⟨i, info⟩ hc
      have hm := featureCands_mem bins bins 0 fc (by simp) (by simpa [gradSum, hessSum] using g2)
      obtain ⟨_, bin, _, h7⟩ := (hm i info).1 hc
      exact candidate_num h7
    have hfb := foldl_better_best (fc.map Prod.snd) [] none (by
      intro c hc
      rw [List.nil_append] at hc
      obtain ⟨x, hx, rfl⟩ := List.mem_map.1 hc
      exact hfn x hx) rfl
    rw [← g3] at hfb
    simp only [List.nil_append] at hfb
    have key : ∀ bg' best', bestSplitLoop s node l (k + 1) bg' best' = .ok r →
        SplitBest (seen ++ fc.map fun c => (k, c)) bg' best' →
        ∃ cs, allCands s node (f :: l) k = .ok cs ∧ ∃ bg', SplitBest (seen ++ cs) bg' r := by
      intro bg' best' hl hb
      obtain ⟨cs, e1, bg2, e2⟩ := ih _ _ _ _ _ (by
        intro c hc
        rcases List.mem_append.1 hc with hc | hc
        · exact hn c hc
        · obtain ⟨x, hx, rfl⟩ := List.mem_map.1 hc
          exact hfn x hx) hb hl
      refine ⟨(fc.map fun c => (k, c)) ++ cs, by simp [allCands, g1, g2, e1], bg2, ?_⟩
      rw [← List.append_assoc]; exact e2
    have keep : ∀ info, rf = some info → (bg <ᶠ info.splitGain) = false →
        SplitBest (seen ++ fc.map fun c => (k, c)) bg best := by
      intro info hrf hlt
      subst hrf
      simp only at hfb
      have hbn : ∀ x ∈ fc, (bg <ᶠ x.2.splitGain) = false := by
        intro x hx
        cases hc : (bg <ᶠ x.2.splitGain)
        · rfl
        · have h1 := hfb.all x.2 (List.mem_map.2 ⟨x, hx, rfl⟩)
          have hin : isNaN info.splitGain = false := by
            obtain ⟨b, hb, hF⟩ := firstBest_map hfb
            obtain ⟨pre, post, e, _⟩ := hF
            rw [← hb]
            exact hfn b (by rw [e]; simp)
          have := Fl.lt_of_lt_of_not hin hc h1
          rw [this] at hlt; cases hlt
      cases best with
      | none =>
        obtain ⟨rfl, h2⟩ := hs
        refine ⟨rfl, ?_⟩
        intro c hc
        rcases List.mem_append.1 hc with hc | hc
        · exact h2 c hc
        · obtain ⟨x, hx, rfl⟩ := List.mem_map.1 hc
          exact hbn x hx
      | some b =>
        obtain ⟨rfl, h2, j, i, h3⟩ := hs
        refine ⟨rfl, h2, j, i, h3.keep ?_⟩
        intro c hc
        obtain ⟨x, hx, rfl⟩ := List.mem_map.1 hc
        exact hbn x hx
    cases hrf : rf with
    | none =>
      rw [hrf] at h hfb
      refine key _ _ h ?_
      simp only [List.map_eq_nil_iff] at hfb
      subst hfb
      simpa using hs
    | some info =>
      rw [hrf] at h
      simp only at h
      split at h
      · rename_i hlt
        refine key _ _ h ?_
        rw [hrf] at hfb
        simp only at hfb
        obtain ⟨b, hb, hF⟩ := firstBest_map hfb
        subst hb
        have hbpos : ((0 : F) <ᶠ b.2.splitGain) = true := by
          cases best with
          | none => obtain ⟨rfl, _⟩ := hs; exact hlt
          | some b' =>
            obtain ⟨rfl, h2, _⟩ := hs
            exact Fl.OrdLaws.lt_trans _ _ _ h2 hlt
        refine ⟨rfl, hbpos, k, b.1, ?_⟩
        refine FirstBest.replace ?_ (FirstBest.map (g := fun c => (k, c)) hF)
        intro x hx
        cases best with
        | none =>
          obtain ⟨rfl, h2⟩ := hs
          exact Fl.lt_of_not_of_lt (hn x hx) (h2 x hx) hlt
        | some b' =>
          obtain ⟨rfl, h2, j, i, h3⟩ := hs
          exact Fl.lt_of_not_of_lt (hn x hx) (h3.all x hx) hlt
      · rename_i hlt
        exact key _ _ h (keep info hrf (by simpa using hlt))

/-- The outcome of `best_split`. -/
theorem bestSplit_best {s : Splitter F} {node : SNode F D} {cols : List Nat}
    {r : Option (SplitInfo F D)} (h : bestSplit s node cols = .ok r) :
    match r with
    | none => ∀ j i info, IsCandidate s node cols j i info → ((0 : F) <ᶠ info.splitGain) = false
    | some b => ((0 : F) <ᶠ b.splitGain) = true ∧ ∃ j i, IsCandidate s node cols j i b ∧
        ∀ j' i' c, IsCandidate s node cols j' i' c → (b.splitGain <ᶠ c.splitGain) = false ∧
          (PosLt (j', i') (j, i) → (c.splitGain <ᶠ b.splitGain) = true) := by
  obtain ⟨cs, h1, bg, h2⟩ := bestSplitLoop_best cols 0 0 none r [] (by simp) ⟨rfl, by simp⟩ h
  have hm := allCands_mem cols cols 0 cs (by simp) h1
  have hsort := (allCands_sorted _ _ _ h1).1
  simp only [List.nil_append] at h2
  cases r with
  | none =>
    intro j i info hc
    exact h2.2 _ ((hm j i info).2 ⟨Nat.zero_le _, hc⟩)
  | some b =>
    obtain ⟨_, hpos, j, i, hb⟩ := h2
    refine ⟨hpos, j, i, ?_, ?_⟩
    · obtain ⟨pre, post, e, _⟩ := hb
      exact ((hm j i b).1 (by rw [e]; simp)).2
    · intro j' i' c hc
      have hc' := (hm j' i' c).2 ⟨Nat.zero_le _, hc⟩
      refine ⟨hb.all _ hc', ?_⟩
      intro hlt
      obtain ⟨pre, post, e, e1, e2⟩ := hb
      rw [e] at hc' hsort
      rcases List.mem_append.1 hc' with hx | hx
      · exact e1 _ hx
      · exfalso
        rcases List.mem_cons.1 hx with hx | hx
        · cases hx; simp [PosLt] at hlt
        · have := (List.pairwise_cons.1 (List.pairwise_append.1 hsort).2.1).1 _ hx
          simp only [PosLt] at this hlt
          omega

end order

end Verif
