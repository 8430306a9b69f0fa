import Verif.Proofs.Route
import Verif.Spec.TreeWf
import Verif.Props.Predict

/-!
# C48 NaN with a non-NaN missing sentinel: prediction
-/

namespace Verif

open scoped Verif

variable {F D : Type} [Fl F] [Fl D] [FlCast F D]

set_option linter.unusedSectionVars false

/-- Starting at node `i`, the row is led to an internal node that tests a feature holding NaN. -/
inductive MeetsNaN (nodes : List (Node F D)) (row : Nat → Option D) (missing : D) : Nat → Prop
  | here {i : Nat} {n : Node F D} {v : D} : nodes[i]? = some n → n.isLeaf = false →
      row n.splitFeature = some v → isNaN v = true → MeetsNaN nodes row missing i
  | step {i : Nat} {n : Node F D} {v : D} : nodes[i]? = some n → n.isLeaf = false →
      row n.splitFeature = some v → isNaN v = false →
      MeetsNaN nodes row missing (n.childFor missing v) → MeetsNaN nodes row missing i

/-- Every split feature of the tree is a column. -/
def Tree.FeaturesBelow (t : Tree F D) (cols : Nat) : Prop :=
  ∀ n ∈ t.nodes, n.isLeaf = false → n.splitFeature < cols

theorem Node.childFor_isChild {n : Node F D} (h : n.isLeaf = false) (missing v : D) :
    n.IsChild (n.childFor missing v) := by
  refine ⟨h, ?_⟩
  unfold Node.childFor
  split
  · exact .inr (.inr rfl)
  · split
    · exact .inl rfl
    · exact .inr (.inl rfl)

theorem leafFrom_total {t : Tree F D} (ht : t.Wf) {get : Nat → Res D} {row : Nat → Option D}
    {missing : D} (hg : ∀ f, get f = Res.ofOption (row f))
    (hrow : ∀ n ∈ t.nodes, n.isLeaf = false → ∃ v, row n.splitFeature = some v) :
    ∀ (fuel i : Nat), i < t.nodes.length → t.nodes.length ≤ i + fuel →
      (∃ l, leafFrom t.nodes get missing fuel i = .ok l ∧
        (isNaN missing = true ∨ ¬ MeetsNaN t.nodes row missing i)) ∨
      (leafFrom t.nodes get missing fuel i = .panic ∧ isNaN missing = false ∧
        MeetsNaN t.nodes row missing i) := by
  intro fuel
  induction fuel with
  | zero => intro i h1 h2; omega
  | succ fuel ih =>
    intro i h1 h2
    have hn : t.nodes[i]? = some t.nodes[i] := List.getElem?_eq_getElem h1
    generalize t.nodes[i] = n at hn
    rw [leafFrom, idx, hn]
    simp only [Res.ofOption_some, Res.ok_bind]
    by_cases hl : n.isLeaf = true
    · left
      refine ⟨n, by simp [hl], .inr ?_⟩
      intro hm
      cases hm with
      | here g1 g2 => rw [hn] at g1; cases g1; simp [hl] at g2
      | step g1 g2 => rw [hn] at g1; cases g1; simp [hl] at g2
    · have hl' : n.isLeaf = false := by simpa using hl
      obtain ⟨v, hv⟩ := hrow n (List.mem_of_getElem? hn) hl'
      simp only [hl', Bool.false_eq_true, if_false, hg, hv, Res.ofOption_some, Res.ok_bind,
        getChildIdx_eq]
      by_cases hr : Readable missing v
      · rw [if_pos hr, Res.ok_bind]
        have hc := ht.child i n _ hn (Node.childFor_isChild hl' missing v)
        rcases ih (n.childFor missing v) hc.2 (by omega) with ⟨l, h3, h4⟩ | ⟨h3, h4, h5⟩
        · left
          refine ⟨l, h3, ?_⟩
          rcases h4 with h4 | h4
          · exact .inl h4
          · rcases hr with hr | hr
            · exact .inl hr
            · right
              intro hm
              cases hm with
              | here g1 g2 g3 g4 =>
                rw [hn] at g1; cases g1
                rw [hv] at g3; cases g3
                rw [hr] at g4; cases g4
              | step g1 g2 g3 g4 g5 =>
                rw [hn] at g1; cases g1
                rw [hv] at g3; cases g3
                exact h4 g5
        · right
          refine ⟨h3, h4, ?_⟩
          rcases hr with hr | hr
          · rw [hr] at h4; cases h4
          · exact .step hn hl' hv hr h5
      · rw [if_neg hr]
        right
        simp only [Readable, not_or, Bool.not_eq_true, Bool.not_eq_false] at hr
        exact ⟨rfl, hr.1, .here hn hl' hv hr.2⟩

theorem mapM'_total {α β : Type} {f : α → Res β} {P : α → Prop} {l : List α}
    (h : ∀ a ∈ l, (∃ b, f a = .ok b ∧ ¬ P a) ∨ (f a = .panic ∧ P a)) :
    (∃ bs, Res.mapM' f l = .ok bs ∧ ∀ a ∈ l, ¬ P a) ∨ (Res.mapM' f l = .panic ∧ ∃ a ∈ l, P a) := by
  induction l with
  | nil => exact .inl ⟨[], rfl, by simp⟩
  | cons a l ih =>
    rw [Res.mapM'_cons]
    rcases h a (by simp) with ⟨b, hb, hp⟩ | ⟨hb, hp⟩
    · rcases ih fun x hx => h x (by simp [hx]) with ⟨bs, hbs, hps⟩ | ⟨hbs, x, hx, hpx⟩
      · left
        refine ⟨b :: bs, by rw [hb, Res.ok_bind, hbs]; rfl, ?_⟩
        intro x hx
        rcases List.mem_cons.1 hx with rfl | hx
        · exact hp
        · exact hps x hx
      · right
        exact ⟨by rw [hb, Res.ok_bind, hbs]; rfl, x, by simp [hx], hpx⟩
    · right
      exact ⟨by rw [hb]; rfl, a, by simp, hp⟩

theorem foldM'_total {α β : Type} {f : β → α → Res β} {P : α → Prop} {l : List α}
    (h : ∀ a ∈ l, (∀ s, ∃ b, f s a = .ok b) ∧ ¬ P a ∨ (∀ s, f s a = .panic) ∧ P a) (s : β) :
    (∃ b, Res.foldM' f s l = .ok b ∧ ∀ a ∈ l, ¬ P a) ∨ (Res.foldM' f s l = .panic ∧ ∃ a ∈ l, P a) := by
  induction l generalizing s with
  | nil => exact .inl ⟨s, rfl, by simp⟩
  | cons a l ih =>
    rw [Res.foldM'_cons]
    rcases h a (by simp) with ⟨hb, hp⟩ | ⟨hb, hp⟩
    · obtain ⟨b, hb⟩ := hb s
      rw [hb, Res.ok_bind]
      rcases ih (fun x hx => h x (by simp [hx])) b with ⟨bs, hbs, hps⟩ | ⟨hbs, x, hx, hpx⟩
      · left
        refine ⟨bs, hbs, ?_⟩
        intro x hx
        rcases List.mem_cons.1 hx with rfl | hx
        · exact hp
        · exact hps x hx
      · exact .inr ⟨hbs, x, by simp [hx], hpx⟩
    · right
      exact ⟨by rw [hb s]; rfl, a, by simp, hp⟩

theorem entry_shaped {data : Matrix D} (hd : data.Shaped) {i f : Nat} (hi : i < data.rows)
    (hf : f < data.cols) : ∃ v, data.entry i f = some v := by
  have : f * data.rows + i < data.data.length := by
    rw [hd]
    calc f * data.rows + i < f * data.rows + data.rows := by omega
      _ = (f + 1) * data.rows := by rw [Nat.succ_mul]
      _ ≤ data.cols * data.rows := Nat.mul_le_mul_right _ hf
      _ = data.rows * data.cols := Nat.mul_comm _ _
  exact ⟨data.data[f * data.rows + i], List.getElem?_eq_getElem this⟩

theorem Tree.predict_total {t : Tree F D} (ht : t.Wf) {data : Matrix D} (hd : data.Shaped)
    (hf : t.FeaturesBelow data.cols) (missing : D) :
    (∃ ps, t.predict data missing = .ok ps ∧ ¬ (isNaN missing = false ∧ ∃ i < data.rows,
        MeetsNaN t.nodes (data.entry i) missing 0)) ∨
      (t.predict data missing = .panic ∧ isNaN missing = false ∧ ∃ i < data.rows,
        MeetsNaN t.nodes (data.entry i) missing 0) := by
  have h0 : 0 < t.nodes.length := List.length_pos_iff.2 ht.nonempty
  have key : ∀ i ∈ data.index, (∃ b, (do
        let n ← t.predictLeaf data i missing
        Res.ok (up n.weightValue : D)) = .ok b ∧
          ¬ (isNaN missing = false ∧ MeetsNaN t.nodes (data.entry i) missing 0)) ∨
      ((do
        let n ← t.predictLeaf data i missing
        Res.ok (up n.weightValue : D)) = .panic ∧
          (isNaN missing = false ∧ MeetsNaN t.nodes (data.entry i) missing 0)) := by
    intro i hi
    have hi : i < data.rows := by simpa [Matrix.index] using hi
    rcases leafFrom_total ht (get := data.get i) (row := data.entry i) (missing := missing)
      (fun f => data.get_eq i f) (fun n hn hl => entry_shaped hd hi (hf n hn hl)) t.nodes.length 0 h0
      (by omega) with ⟨l, h1, h2⟩ | ⟨h1, h2, h3⟩
    · left
      refine ⟨up l.weightValue, by rw [Tree.predictLeaf, h1]; rfl, ?_⟩
      rintro ⟨h3, h4⟩
      rcases h2 with h2 | h2
      · rw [h3] at h2; cases h2
      · exact h2 h4
    · right
      exact ⟨by rw [Tree.predictLeaf, h1]; rfl, h2, h3⟩
  rcases mapM'_total key with ⟨ps, h1, h2⟩ | ⟨h1, i, hi, h2, h3⟩
  · left
    refine ⟨ps, h1, ?_⟩
    rintro ⟨h3, i, hi, h4⟩
    exact h2 i (by simpa [Matrix.index] using hi) ⟨h3, h4⟩
  · right
    exact ⟨h1, h2, i, by simpa [Matrix.index] using hi, h3⟩

/-- C48, prediction.  For well-formed trees whose features are columns of the data, `predict` panics
exactly if `missing` is not NaN and the route of some row in some used tree tests a feature that holds
NaN; otherwise it returns a result. -/
theorem C48_predict (b : Booster F D) (data : Matrix D) (ts : List (Tree F D))
    (hts : b.predictionTrees = .ok ts) (hwf : ∀ t ∈ ts, t.Wf) (hd : data.Shaped)
    (hf : ∀ t ∈ ts, t.FeaturesBelow data.cols) :
    (b.predict data = .panic ↔ isNaN b.missing = false ∧
      ∃ i < data.rows, ∃ t ∈ ts, MeetsNaN t.nodes (data.entry i) b.missing 0) ∧
    (b.predict data = .panic ∨ ∃ ps, b.predict data = .ok ps) := by
  have key := foldM'_total (f := fun (acc : List D) (t : Tree F D) => do
      let p ← t.predict data b.missing
      .ok (addPreds acc p)) (P := fun t => isNaN b.missing = false ∧
        ∃ i < data.rows, MeetsNaN t.nodes (data.entry i) b.missing 0) (l := ts) (by
    intro t ht
    rcases Tree.predict_total (hwf t ht) hd (hf t ht) b.missing with ⟨ps, h1, h2⟩ | ⟨h1, h2⟩
    · left
      exact ⟨fun s => ⟨_, by rw [h1, Res.ok_bind]⟩, h2⟩
    · right
      exact ⟨fun s => by rw [h1]; rfl, h2⟩) (List.replicate data.rows b.baseScore)
  have e : b.predict data = Res.foldM' (fun (acc : List D) (t : Tree F D) => do
      let p ← t.predict data b.missing
      .ok (addPreds acc p)) (List.replicate data.rows b.baseScore) ts := by
    rw [Booster.predict, hts, Res.ok_bind]
  rw [e]
  rcases key with ⟨ps, h1, h2⟩ | ⟨h1, t, ht, h2, i, hi, h3⟩
  · rw [h1]
    refine ⟨⟨(fun h => by cases h), ?_⟩, .inr ⟨ps, rfl⟩⟩
    rintro ⟨h3, i, hi, t, ht, h4⟩
    exact absurd ⟨h3, i, hi, h4⟩ (h2 t ht)
  · rw [h1]
    exact ⟨⟨fun _ => ⟨h2, i, hi, t, ht, h3⟩, fun _ => rfl⟩, .inl rfl⟩

/-- C48.  If `missing` is NaN, prediction never panics. -/
theorem C48_nan_missing (b : Booster F D) (data : Matrix D) (ts : List (Tree F D))
    (hts : b.predictionTrees = .ok ts) (hwf : ∀ t ∈ ts, t.Wf) (hd : data.Shaped)
    (hf : ∀ t ∈ ts, t.FeaturesBelow data.cols) (hm : isNaN b.missing = true) :
    ∃ ps, b.predict data = .ok ps := by
  obtain ⟨h1, h2⟩ := C48_predict b data ts hts hwf hd hf
  rcases h2 with h2 | h2
  · have := (h1.1 h2).1
    rw [hm] at this; cases this
  · exact h2

/-! ### Examples -/

example : MeetsNaN exTree.nodes (fun _ => some (FX.nan : Q)) (q 5) 0 :=
  .here (by rfl) (by rfl) rfl rfl

example : exTree.Wf ∧ exTree.FeaturesBelow 2 :=
  ⟨Tree.wf_of_check _ (by decide +kernel), by
    have : (exTree.nodes.all fun n => n.isLeaf || decide (n.splitFeature < 2)) = true := by
      decide +kernel
    intro n hn hl
    have := List.all_eq_true.1 this n hn
    simpa [hl] using this⟩

end Verif
