import Verif.Props.PyNames
import Verif.Spec.Table

/-!
# C70: the table of `trees_to_dataframe` (Python class)
-/

namespace Verif

open scoped Verif

variable {F D : Type} [Fl F] [Fl D] [FlCast F D] {R : Type}

set_option linter.unusedSectionVars false

/-! ### IDs -/

/-- The text `f"{tree_n}-{i}"`. -/
def nodeId (k i : Nat) : String := toString k ++ "-" ++ toString i

theorem append_sep_inj {α : Type} {c : α} : ∀ {a a' b b' : List α}, c ∉ a → c ∉ a' →
    a ++ c :: b = a' ++ c :: b' → a = a' ∧ b = b'
  | [], [], _, _, _, _, h => by simpa using h
  | [], x :: a', _, _, _, h2, h => by
    simp only [List.nil_append, List.cons_append, List.cons.injEq] at h
    exact absurd (by simp [h.1]) h2
  | x :: a, [], _, _, h1, _, h => by
    simp only [List.nil_append, List.cons_append, List.cons.injEq] at h
    exact absurd (by simp [h.1]) h1
  | x :: a, x' :: a', _, _, h1, h2, h => by
    simp only [List.cons_append, List.cons.injEq] at h
    simp only [List.mem_cons, not_or] at h1 h2
    obtain ⟨e, e'⟩ := append_sep_inj h1.2 h2.2 h.2
    exact ⟨by rw [h.1, e], e'⟩

theorem toDigits_inj {a b : Nat} (h : Nat.toDigits 10 a = Nat.toDigits 10 b) : a = b := by
  have := congrArg (fun l => Nat.ofDigitChars 10 l 0) h
  simpa using this

theorem toString_nat_inj {a b : Nat} (h : toString a = toString b) : a = b := by
  refine toDigits_inj ?_
  have := congrArg String.toList h
  simpa [Nat.toString_eq_ofList_toDigits] using this

theorem dash_toDigits (n : Nat) : '-' ∉ Nat.toDigits 10 n := by
  intro h
  have := Nat.isDigit_of_mem_toDigits (by decide) (by decide) h
  revert this; decide

theorem nodeId_inj {k i k' i' : Nat} (h : nodeId k i = nodeId k' i') : k = k' ∧ i = i' := by
  have h := congrArg String.toList h
  simp only [nodeId, String.toList_append, Nat.toString_eq_ofList_toDigits, String.toList_ofList,
    List.append_assoc] at h
  obtain ⟨h1, h2⟩ := append_sep_inj (c := '-') (dash_toDigits k) (dash_toDigits k') h
  exact ⟨toDigits_inj h1, toDigits_inj h2⟩

/-! ### The rows -/

/-- The row shown for a node with the given feature text. -/
def shownRow (label : Nat → String) (k : Nat) (n : Node F D) : NodeRow F D :=
  { tree := k, node := n.num, id := nodeId k n.num
    feature := if n.isLeaf then "Leaf" else label n.splitFeature
    split := if n.isLeaf then none else some n.splitValue
    yes := if n.isLeaf then none else some (nodeId k n.leftChild)
    no := if n.isLeaf then none else some (nodeId k n.rightChild)
    missing := if n.isLeaf then none else some (nodeId k n.missingNode)
    gain := if n.isLeaf then n.weightValue else n.splitGain, cover := n.hessianSum }

theorem pyMap_ok {α β : Type} {f : α → Except PyErr β} {g : α → β} :
    ∀ {l : List α}, (∀ a ∈ l, f a = .ok (g a)) → pyMap f l = .ok (l.map g)
  | [], _ => rfl
  | a :: l, h => by
    rw [pyMap, h a (by simp), pyMap_ok fun a' ha => h a' (by simp [ha])]; rfl

theorem treesToDataframe_eq {o : PyBooster F D} {label : Nat → String}
    (h : ∀ t ∈ o.booster.trees, ∀ n ∈ t.nodes, n.isLeaf = false →
      o.featureText n = .ok (label n.splitFeature)) :
    o.treesToDataframe = .ok (o.booster.trees.zipIdx.flatMap fun p => p.1.nodes.map (shownRow label p.2)) := by
  unfold PyBooster.treesToDataframe
  rw [pyMap_ok (g := fun (p : Tree F D × Nat) => p.1.nodes.map (shownRow label p.2))]
  · rfl
  · intro p hp
    refine pyMap_ok fun n hn => ?_
    have hp' : p.1 ∈ o.booster.trees := (List.mem_zipIdx' hp).2 ▸ List.getElem_mem _
    by_cases hl : n.isLeaf = true
    · unfold PyBooster.nodeRow PyBooster.featureText shownRow
      simp only [hl, if_true]
      rfl
    · have hl : n.isLeaf = false := by simpa using hl
      unfold PyBooster.nodeRow
      rw [h p.1 hp' n hn hl]
      simp only [hl, shownRow]
      rfl

theorem mem_shown {ts : List (Tree F D)} {label : Nat → String} {r : NodeRow F D} :
    r ∈ (ts.zipIdx.flatMap fun p => p.1.nodes.map (shownRow label p.2)) ↔
      ∃ (k : Nat) (t : Tree F D) (n : Node F D), ts[k]? = some t ∧ n ∈ t.nodes ∧ r = shownRow label k n := by
  simp only [List.mem_flatMap, List.mem_map]
  constructor
  · rintro ⟨⟨t, k⟩, hp, n, hn, rfl⟩
    exact ⟨k, t, n, List.mem_zipIdx_iff_getElem?.1 hp, hn, rfl⟩
  · rintro ⟨k, t, n, ht, hn, rfl⟩
    exact ⟨(t, k), List.mem_zipIdx_iff_getElem?.2 ht, n, hn, rfl⟩

/-- The row of a given ID. -/
theorem shown_row {ts : List (Tree F D)} (hwf : ∀ t ∈ ts, t.Wf) {label : Nat → String} {r : NodeRow F D}
    (hr : r ∈ (ts.zipIdx.flatMap fun p => p.1.nodes.map (shownRow label p.2))) {k : Nat} {t : Tree F D}
    (ht : ts[k]? = some t) {i : Nat} (hid : r.id = nodeId k i) :
    ∃ n, t.nodes[i]? = some n ∧ r = shownRow label k n := by
  obtain ⟨k', t', n, ht', hn, rfl⟩ := mem_shown.1 hr
  obtain ⟨rfl, rfl⟩ := nodeId_inj hid
  rw [ht] at ht'
  obtain rfl := Option.some.inj ht'
  obtain ⟨j, hj⟩ := List.getElem?_of_mem hn
  have := (hwf t (List.mem_of_getElem? ht)).num j n hj
  exact ⟨n, by rw [this]; exact hj, rfl⟩

/-- Reading the table is walking down the tree. -/
theorem tableRoute_iff {ts : List (Tree F D)} (hwf : ∀ t ∈ ts, t.Wf) {label : Nat → String}
    {row : Nat → Option D} {value : String → Option D} {missing : D}
    (hv : ∀ t ∈ ts, ∀ n ∈ t.nodes, n.isLeaf = false → value (label n.splitFeature) = row n.splitFeature)
    {k : Nat} {t : Tree F D} (ht : ts[k]? = some t) {i : Nat} {r : NodeRow F D} :
    TableRoute (ts.zipIdx.flatMap fun p => p.1.nodes.map (shownRow label p.2)) value missing (nodeId k i) r ↔
      ∃ l, Route t.nodes row missing i l ∧ r = shownRow label k l := by
  have htm := List.mem_of_getElem? ht
  constructor
  · intro h
    generalize hid : nodeId k i = id at h
    induction h generalizing i with
    | @leaf r hr hs =>
      obtain ⟨n, hn, rfl⟩ := shown_row hwf hr ht hid.symm
      refine ⟨n, .leaf hn ?_, rfl⟩
      by_contra hl
      simp [shownRow, hl] at hs
    | @step r l s v next hr hs hval hread hnext _ ih =>
      obtain ⟨n, hn, rfl⟩ := shown_row hwf hr ht hid.symm
      have hl : n.isLeaf = false := by
        by_contra hl
        simp [shownRow, hl] at hs
      simp only [shownRow, hl, Bool.false_eq_true, if_false, Option.some.injEq] at hs hval hnext
      subst hs
      rw [hv t htm n (List.mem_of_getElem? hn) hl] at hval
      have hc : nodeId k (n.childFor missing v) = next := by
        unfold Node.childFor
        split at hnext
        · next c => rw [if_pos c]; exact Option.some.inj hnext
        · next c =>
          rw [if_neg c]
          split at hnext
          · next c' => rw [if_pos c']; exact Option.some.inj hnext
          · next c' => rw [if_neg c']; exact Option.some.inj hnext
      obtain ⟨l', h1, h2⟩ := ih hc
      exact ⟨l', .step hn hl hval hread h1, h2⟩
  · rintro ⟨l, h, rfl⟩
    induction h with
    | @leaf i n hn hl =>
      have hnum := (hwf t htm).num i n hn
      have := TableRoute.leaf (value := value) (missing := missing)
        (mem_shown.2 ⟨k, t, n, ht, List.mem_of_getElem? hn, rfl⟩ :
        shownRow label k n ∈ (ts.zipIdx.flatMap fun p => p.1.nodes.map (shownRow label p.2)))
        (by simp [shownRow, hl])
      simpa [shownRow, hnum] using this
    | @step i n l v hn hl hrow hread _ ih =>
      have hnum := (hwf t htm).num i n hn
      have := TableRoute.step (value := value) (missing := missing) (s := n.splitValue) (v := v)
        (next := nodeId k (n.childFor missing v)) (l := shownRow label k l)
        (mem_shown.2 ⟨k, t, n, ht, List.mem_of_getElem? hn, rfl⟩ :
        shownRow label k n ∈ (ts.zipIdx.flatMap fun p => p.1.nodes.map (shownRow label p.2)))
        (by simp [shownRow, hl])
        (by simp only [shownRow, hl, Bool.false_eq_true, if_false]
            rw [hv t htm n (List.mem_of_getElem? hn) hl]; exact hrow)
        hread
        (by simp only [shownRow, hl, Bool.false_eq_true, if_false]
            unfold Node.childFor
            split
            · rfl
            · split <;> rfl) ih
      simpa [shownRow, hnum] using this

theorem Route.isLeaf {nodes : List (Node F D)} {row : Nat → Option D} {missing : D} {i : Nat} {l : Node F D}
    (h : Route nodes row missing i l) : l.isLeaf = true := by
  induction h with
  | leaf _ h => exact h
  | step _ _ _ _ _ ih => exact ih

theorem nodup_shown {label : Nat → String} {ts : List (Tree F D)} (hwf : ∀ t ∈ ts, t.Wf) :
    ((ts.zipIdx.flatMap fun p => p.1.nodes.map (shownRow label p.2)).map NodeRow.id).Nodup := by
  rw [List.map_flatMap, List.nodup_flatMap]
  constructor
  · intro p hp
    have hm : p.1 ∈ ts := (List.mem_zipIdx' hp).2 ▸ List.getElem_mem _
    rw [List.map_map]
    refine List.nodup_iff_getElem?_ne_getElem?.2 ?_
    intro i j hij hj
    rw [List.length_map] at hj
    rw [List.getElem?_map, List.getElem?_map, List.getElem?_eq_getElem hj,
      List.getElem?_eq_getElem (hij.trans hj)]
    simp only [Option.map_some, ne_eq, Option.some.injEq, Function.comp]
    intro e
    have := (nodeId_inj e).2
    rw [(hwf _ hm).num i _ (List.getElem?_eq_getElem (hij.trans hj)),
      (hwf _ hm).num j _ (List.getElem?_eq_getElem hj)] at this
    omega
  · have hz : ts.zipIdx.Pairwise fun a b => a.2 ≠ b.2 := by
      have : (ts.zipIdx.map Prod.snd).Nodup := by
        rw [List.zipIdx_map_snd]; exact List.nodup_range'
      exact List.pairwise_map.1 this
    refine hz.imp ?_
    intro a b hab x hx hy
    simp only [List.map_map, List.mem_map, Function.comp] at hx hy
    obtain ⟨n, _, rfl⟩ := hx
    obtain ⟨n', _, e⟩ := hy
    exact hab (nodeId_inj e).1.symm

/-- The common part: a table in which every feature has its text. -/
theorem table_of_label {o : PyBooster F D} (hwf : ∀ t ∈ o.booster.trees, t.Wf) {label : Nat → String}
    (h : ∀ t ∈ o.booster.trees, ∀ n ∈ t.nodes, n.isLeaf = false →
      o.featureText n = .ok (label n.splitFeature)) :
    ∃ rows, o.treesToDataframe = .ok rows ∧ (rows.map NodeRow.id).Nodup ∧
      rows.map (fun r => (r.tree, r.node)) =
        o.booster.trees.zipIdx.flatMap (fun p => (List.range p.1.nodes.length).map fun i => (p.2, i)) ∧
      rows.map NodeRow.cover = o.booster.trees.flatMap (fun t => t.nodes.map Node.hessianSum) ∧
      ∀ (k : Nat) (t : Tree F D), o.booster.trees[k]? = some t →
        ∀ (row : Nat → Option D) (value : String → Option D) (missing : D),
          (∀ t ∈ o.booster.trees, ∀ n ∈ t.nodes, n.isLeaf = false →
            value (label n.splitFeature) = row n.splitFeature) →
          ∀ w, (∃ r, TableRoute rows value missing (toString k ++ "-0") r ∧ r.gain = w) ↔
            ∃ l, Route t.nodes row missing 0 l ∧ l.weightValue = w := by
  refine ⟨_, treesToDataframe_eq h, nodup_shown hwf, ?_, ?_, ?_⟩
  · rw [List.map_flatMap]
    refine List.flatMap_congr fun p hp => ?_
    have hm : p.1 ∈ o.booster.trees := (List.mem_zipIdx' hp).2 ▸ List.getElem_mem _
    refine List.ext_getElem? fun i => ?_
    simp only [List.map_map, List.getElem?_map]
    by_cases hi : i < p.1.nodes.length
    · rw [List.getElem?_eq_getElem hi, List.getElem?_range hi]
      have := (hwf _ hm).num i _ (List.getElem?_eq_getElem hi)
      simp only [Option.map_some, Function.comp_apply, shownRow, this]
    · rw [List.getElem?_eq_none (by omega), List.getElem?_eq_none (by simp; omega)]; rfl
  · rw [List.map_flatMap]
    have : ∀ (ts : List (Tree F D)) (s : Nat), ((ts.zipIdx s).flatMap fun p =>
        (p.1.nodes.map (shownRow label p.2)).map NodeRow.cover) =
        ts.flatMap fun t => t.nodes.map Node.hessianSum := by
      intro ts
      induction ts with
      | nil => intro s; rfl
      | cons t ts ih =>
        intro s
        rw [List.zipIdx_cons, List.flatMap_cons, List.flatMap_cons, ih, List.map_map]
        rfl
    exact this _ 0
  · intro k t ht row value missing hv w
    have e : toString k ++ "-0" = nodeId k 0 := by
      unfold nodeId; rw [String.append_assoc]; rfl
    rw [e]
    constructor
    · rintro ⟨r, hr, rfl⟩
      obtain ⟨l, hl, rfl⟩ := (tableRoute_iff hwf hv ht).1 hr
      exact ⟨l, hl, by simp [shownRow, hl.isLeaf]⟩
    · rintro ⟨l, hl, rfl⟩
      exact ⟨_, (tableRoute_iff hwf hv ht).2 ⟨l, hl, rfl⟩, by simp [shownRow, hl.isLeaf]⟩

/-- **C70** (data frames).  After a successful `fit` on a data frame `trees_to_dataframe` gives one row per
node, in order, with distinct IDs and the nodes' covers; and a reader of the table who starts at the row
"k-0" and looks values up by column name ends at a row whose `Gain` is the value that tree `k` gives. -/
theorem C70_frame {J : PyJson} {env : Env R F D} (hr : env.rng.Ok) {o o' : PyBooster F D}
    {X : Frame D} {y : List D} {w : Option (List D)} {evals : Option (List (PyEval D))}
    (h : o.fit J env X y w evals = .ok (o', .ok ())) {cols : List String} (hX : X.columns = some cols)
    (hlen : cols.length = X.data.cols) (hne : cols ≠ []) :
    ∃ rows, o'.treesToDataframe = .ok rows ∧ (rows.map NodeRow.id).Nodup ∧
      rows.map (fun r => (r.tree, r.node)) =
        o'.booster.trees.zipIdx.flatMap (fun p => (List.range p.1.nodes.length).map fun i => (p.2, i)) ∧
      rows.map NodeRow.cover = o'.booster.trees.flatMap (fun t => t.nodes.map Node.hessianSum) ∧
      ∀ (k : Nat) (t : Tree F D), o'.booster.trees[k]? = some t →
        ∀ (row : Nat → Option D) (value : String → Option D) (missing : D),
          (∀ (j : Nat) (name : String), cols[j]? = some name → value name = row j) →
          ∀ w, (∃ r, TableRoute rows value missing (toString k ++ "-0") r ∧ r.gain = w) ↔
            ∃ l, Route t.nodes row missing 0 l ∧ l.weightValue = w := by
  cases pyFit_iff.1 h with
  | @done b m t us hc ht he hf =>
    have hw := C03_well_formed env _ b X.data _ _ _ hf
    have hft : X.features = cols := by unfold Frame.features; rw [hX]; rfl
    have hin : ∀ t ∈ b.trees, ∀ n ∈ t.nodes, n.isLeaf = false → n.splitFeature < cols.length := by
      intro t ht' n hn hl
      obtain ⟨cs, -, c2, -, c4⟩ := C33_columns hr hf ht'
      rw [hlen]; exact c2 _ (c4 n hn hl)
    obtain ⟨rows, r1, r2, r3, r4, r5⟩ := table_of_label (o := { o.describe J X with booster := b })
      (label := fun j => (cols[j]?).getD "") hw (by
        intro t ht' n hn hl
        unfold PyBooster.featureText
        simp only [hl, Bool.false_eq_true, if_false, describe_names, hft, if_pos hne]
        refine nameOf_eq_ok.2 ?_
        rw [List.getElem?_eq_getElem (hin t ht' n hn hl)]; rfl)
    refine ⟨rows, r1, r2, r3, r4, fun k t hk row value missing hv w => r5 k t hk row value missing ?_ w⟩
    intro t ht' n hn hl
    have := hin t ht' n hn hl
    rw [List.getElem?_eq_getElem this]
    exact hv _ _ (List.getElem?_eq_getElem this)

/-- **C70** (arrays).  The same for an instance fitted on arrays only, where features are shown as numbers. -/
theorem C70_array {J : PyJson} {env : Env R F D} (hr : env.rng.Ok) {o o' : PyBooster F D}
    {X : Frame D} {y : List D} {w : Option (List D)} {evals : Option (List (PyEval D))}
    (h : o.fit J env X y w evals = .ok (o', .ok ())) (hX : X.columns = none) (ho : o.featureNames = none) :
    ∃ rows, o'.treesToDataframe = .ok rows ∧ (rows.map NodeRow.id).Nodup ∧
      rows.map (fun r => (r.tree, r.node)) =
        o'.booster.trees.zipIdx.flatMap (fun p => (List.range p.1.nodes.length).map fun i => (p.2, i)) ∧
      rows.map NodeRow.cover = o'.booster.trees.flatMap (fun t => t.nodes.map Node.hessianSum) ∧
      ∀ (k : Nat) (t : Tree F D), o'.booster.trees[k]? = some t →
        ∀ (row : Nat → Option D) (value : String → Option D) (missing : D),
          (∀ j < X.data.cols, value (toString j) = row j) →
          ∀ w, (∃ r, TableRoute rows value missing (toString k ++ "-0") r ∧ r.gain = w) ↔
            ∃ l, Route t.nodes row missing 0 l ∧ l.weightValue = w := by
  cases pyFit_iff.1 h with
  | @done b m t us hc ht he hf =>
    have hw := C03_well_formed env _ b X.data _ _ _ hf
    have hft : X.features = [] := by unfold Frame.features; rw [hX]; rfl
    have hin : ∀ t ∈ b.trees, ∀ n ∈ t.nodes, n.isLeaf = false → n.splitFeature < X.data.cols := by
      intro t ht' n hn hl
      obtain ⟨cs, -, c2, -, c4⟩ := C33_columns hr hf ht'
      exact c2 _ (c4 n hn hl)
    obtain ⟨rows, r1, r2, r3, r4, r5⟩ := table_of_label (o := { o.describe J X with booster := b })
      (label := fun j => toString j) hw (by
        intro t ht' n hn hl
        unfold PyBooster.featureText
        simp only [hl, Bool.false_eq_true, if_false, describe_names, describe_nFeatures, hft, ne_eq,
          not_true_eq_false, ho, if_pos (hin t ht' n hn hl)])
    exact ⟨rows, r1, r2, r3, r4, fun k t hk row value missing hv w => r5 k t hk row value missing
      (fun t ht' n hn hl => hv _ (hin t ht' n hn hl)) w⟩

/-! ### Examples -/

/-- A fitted instance whose table has two trees of several rows: the hypotheses of C70 are met, and the
reader can look up every record of the data frame. -/
example : ∃ (o0 o : PyBooster Q Q) (rows : List (NodeRow Q Q)),
    o0.fit exJson exEnv exFrame exY none none = .ok (o, .ok ()) ∧
    o.treesToDataframe = .ok rows ∧
    (rows.map fun r => (r.id, r.feature, r.yes)).take 3 =
      [("0-0", "a", some "0-1"), ("0-1", "a", some "0-3"), ("0-2", "a", some "0-5")] ∧
    rows.length = 14 := by
  have h : ((exFitted exFrame exY none).bind fun o => (exceptValue o.treesToDataframe).bind fun rows =>
      some (decide ((rows.map fun r => (r.id, r.feature, r.yes)).take 3 =
        [("0-0", "a", some "0-1"), ("0-1", "a", some "0-3"), ("0-2", "a", some "0-5")] ∧
        rows.length = 14))) = some true := by
    decide +kernel
  simp only [Option.bind_eq_some_iff, Option.some.injEq, decide_eq_true_eq] at h
  obtain ⟨o, h1, rows, h2, h3⟩ := h
  obtain ⟨o0, -, hf⟩ := (exFitted_made h1).2
  exact ⟨o0, o, rows, hf, exceptValue_eq h2, h3⟩

/-- Distinct names: there is a reader for every record. -/
example (row : Nat → Option Q) : ∃ value : String → Option Q,
    ∀ (j : Nat) (name : String), ["a", "b"][j]? = some name → value name = row j := by
  refine ⟨fun s => if s = "a" then row 0 else row 1, ?_⟩
  intro j name h
  match j, h with
  | 0, h => obtain rfl : "a" = name := by simpa using h
            rfl
  | 1, h => obtain rfl : "b" = name := by simpa using h
            rfl

end Verif
