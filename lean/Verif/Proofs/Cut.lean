import Verif.Proofs.Twin
import Verif.Props.Termination

/-!
# Trees grown from the same data with different limits
-/

namespace Verif

open scoped Verif

set_option linter.unusedSectionVars false

section
variable {F D : Type} [Fl F] [Fl D] [FlCast F D]

section
variable {c c' : GrowCfg F D} {o o' : SNode F D → Prop} {gs gs' : List (Ghost F D)}
  {N N' : List (Node F D)}

/-- Nodes with the same content that are both split are split alike. -/
theorem Alike.split (hs : c'.splitter = c.splitter) (ht : c'.train = c.train) (h : Cert c o gs N)
    (h' : Cert c' o' gs' N') {i i' : Nat} {g g' : Ghost F D} (hg : gs[i]? = some g)
    (hg' : gs'[i']? = some g') (hsn : g'.sn = { g.sn with num := i' }) (hr : g'.rows = g.rows)
    {info info' : SplitInfo F D} {k k' : Nat} (hi : g.info = some (info, k))
    (hi' : g'.info = some (info', k')) :
    info' = info ∧ ∃ kids, IsSplit c gs N i g info k kids ∧ IsSplit c' gs' N' i' g' info k' kids := by
  have hb : bestSplit c'.splitter g'.sn c'.train.colIndex =
      bestSplit c.splitter g.sn c.train.colIndex := by
    rw [hsn, bestSplit_num, hs, ht]
  obtain ⟨kids, hS⟩ := h.split i g info k hg hi
  obtain ⟨kids', hS'⟩ := h'.split i' g' info' k' hg' hi'
  have e1 : info' = info := by
    have := hS'.best
    rw [hb, hS.best] at this
    cases this; rfl
  subst e1
  have e2 : kids' = kids := by
    have := hS'.kids_eq
    rw [hsn, hr, kidsOf_num, hs, ht, hS.kids_eq] at this
    cases this; rfl
  subst e2
  exact ⟨rfl, kids', hS, hS'⟩

/-- Nodes reached by the same path have the same content, whatever the limits. -/
theorem Twin.alike' (hs : c'.splitter = c.splitter) (ht : c'.train = c.train) (h : Cert c o gs N)
    (h' : Cert c' o' gs' N') (h0 : Alike gs gs' 0 0) {i i' : Nat}
    (hT : Twin c.splitter.arity gs gs' i i') : Alike gs gs' i i' := by
  induction hT with
  | root => exact h0
  | @child i i' k k' j g g' info hT hg hg' hi hi' hj ih =>
    obtain ⟨g1, g1', a1, a2, hsn, hrows⟩ := ih
    rw [hg] at a1; cases a1
    rw [hg'] at a2; cases a2
    obtain ⟨_, kids, hS, hS'⟩ := Alike.split hs ht h h' hg hg' hsn hrows hi hi'
    have hlt : j < kids.length := by rw [hS.arity]; exact hj
    obtain ⟨x, x1, x2, x3, _⟩ := hS.kid j _ (List.getElem?_eq_getElem hlt)
    obtain ⟨y, y1, y2, y3, _⟩ := hS'.kid j _ (List.getElem?_eq_getElem hlt)
    exact ⟨x, y, x1, y1, by rw [y2, x2], by rw [y3, x3]⟩

/-- What two nodes reached by the same path have in common. -/
theorem Twin.common (hs : c'.splitter = c.splitter) (ht : c'.train = c.train) (h : Cert c o gs N)
    (h' : Cert c' o' gs' N') (h0 : Alike gs gs' 0 0) {i i' : Nat}
    (hT : Twin c.splitter.arity gs gs' i i') : ∃ g g' n n', gs[i]? = some g ∧ gs'[i']? = some g' ∧
      g'.sn = { g.sn with num := i' } ∧
      N[i]? = some n ∧ N'[i']? = some n' ∧ n'.weightValue = n.weightValue ∧
      n'.hessianSum = n.hessianSum ∧ n'.depth = n.depth ∧ n.depth = g.sn.depth ∧
      (n.isLeaf = true ↔ g.info = none) ∧ (n'.isLeaf = true ↔ g'.info = none) ∧
      (n.isLeaf = false → n'.isLeaf = false → n'.splitFeature = n.splitFeature ∧
        n'.splitValue = n.splitValue ∧ n'.splitGain = n.splitGain ∧
        Twin c.splitter.arity gs gs' n.leftChild n'.leftChild ∧
        Twin c.splitter.arity gs gs' n.rightChild n'.rightChild ∧
        Twin c.splitter.arity gs gs' n.missingNode n'.missingNode) := by
  obtain ⟨g, g', hg, hg', hsn, hrows⟩ := hT.alike' hs ht h h' h0
  obtain ⟨n, hn, hnn, hl⟩ := h.nodeOf hg
  obtain ⟨n', hn', hnn', hl'⟩ := h'.nodeOf hg'
  refine ⟨g, g', n, n', hg, hg', hsn, hn, hn', ?_, ?_, ?_, hnn.depth, hl, hl', fun e e' => ?_⟩
  · rw [hnn'.weight, hnn.weight, hsn, hs]
  · rw [hnn'.cover, hnn.cover, hsn]
  · rw [hnn'.depth, hnn.depth, hsn]
  · obtain ⟨g1, info, k, kids, hI⟩ := h.internal (.refl _) hn e
    obtain ⟨g1', info', k', kids', hI'⟩ := h'.internal (.refl _) hn' e'
    have := hI.ghost; rw [hg] at this; cases this
    have := hI'.ghost; rw [hg'] at this; cases this
    obtain ⟨rfl, _⟩ := Alike.split hs ht h h' hg hg' hsn hrows hI.info_eq hI'.info_eq
    refine ⟨hI'.feature.trans hI.feature.symm, hI'.value.trans hI.value.symm, ?_, ?_⟩
    · rw [hI'.gain, hI.gain, hsn]; rfl
    · have hC : ∀ j, j < c.splitter.arity → Twin c.splitter.arity gs gs' (k + j) (k' + j) :=
        fun j hj => hT.child hg hg' hI.info_eq hI'.info_eq hj
      rw [hI.left, hI.right, hI.missing, hI'.left, hI'.right, hI'.missing, hs]
      cases hsp : c.splitter with
      | imputer p =>
        rw [hsp] at hC
        have h0 := hC 0 (by simp [Splitter.arity])
        have h1 := hC 1 (by simp [Splitter.arity])
        refine ⟨h0, h1, ?_⟩
        simp only [Splitter.links]
        split
        · exact h0
        · exact h1
      | branch p =>
        rw [hsp] at hC
        exact ⟨hC 1 (by simp [Splitter.arity]), hC 2 (by simp [Splitter.arity]),
          hC 0 (by simp [Splitter.arity])⟩

end

end

end Verif
