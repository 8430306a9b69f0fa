import Verif.Proofs.RoundError
import Verif.Proofs.Path
import Verif.Props.Contrib
import Verif.Props.Growth
import Verif.Props.MonotoneFloat

/-!
# C81: rounding errors of predictions and contributions; C46 with rounding
-/

set_option linter.unusedSectionVars false

namespace Verif

open scoped Verif

/-! ### `fast_sum` -/

section
variable {K : Type} [Field K] [LinearOrder K] [IsStrictOrderedRing K]

/-- **C46** with rounding.  If `fast_sum` of `n` numbers does not overflow, then its relative error, measured
against the sum of the absolute values, is at most `(1 + u) ^ (n / 16 + 17) - 1`; a plain loop has the exponent
`n`. -/
theorem C46_rounded {m : Fmt K} {u : K} [m.Accurate u] [m.Rounds] (vs : List K) (hv : ∀ v ∈ vs, m.Repr v) {z : K}
    (h : fastSum (vs.map (FX.fin : K → FX m)) = .fin z) :
    |z - vs.sum| ≤ ((1 + u) ^ (vs.length / 16 + 17) - 1) * (vs.map (|·|)).sum := by
  have hn := lanes_near (m := m) (u := u) vs hv
  have e : fastSum (vs.map (FX.fin : K → FX m)) =
      (foldLanes vs.length (List.replicate lanes 0) (vs.map (FX.fin : K → FX m))).1.foldl (· + ·) 0 +
        (foldLanes vs.length (List.replicate lanes 0) (vs.map (FX.fin : K → FX m))).2.foldl (· + ·) 0 := by
    simp [fastSum]
  rw [← e] at hn
  exact (hn.near z h).2.err

/-- **C46** with rounding, `fast_f64_sum`: the numbers are added in the wide format with that error and the
result is rounded once more. -/
theorem C46_rounded_f64 {m32 m64 : Fmt K} {u : K} [m64.Accurate u] [m64.Rounds] [he : m32.Embeds m64] (vs : List K)
    (hv : ∀ v ∈ vs, m32.Repr v) : ∃ x : FX m64,
      fastF64Sum (D := FX m64) (vs.map (FX.fin : K → FX m32)) = down x ∧ ∀ z, x = .fin z →
        |z - vs.sum| ≤ ((1 + u) ^ (vs.length / 16 + 17) - 1) * (vs.map (|·|)).sum := by
  have hn := lanes_near (m := m64) (u := u) vs fun v h => he.repr (hv v h)
  refine ⟨_, ?_, fun z h => (hn.near z h).2.err⟩
  have hu : (vs.map (FX.fin : K → FX m32)).map (up : FX m32 → FX m64) = vs.map FX.fin := by
    rw [List.map_map]; rfl
  simp [fastF64Sum, hu]

end

/-! ### The path of method Weight, in any arithmetic -/

section any
variable {F D : Type} [Fl F] [Fl D] [FlCast F D]

/-- Add the change of the node value if the step tests feature `f`. -/
def Step.addWeight (f : Nat) (acc : D) (s : Step F D) : D :=
  if s.node.splitFeature = f then acc + (up s.child.weightValue - up s.node.weightValue) else acc

theorem contribWalk_weight {nodes : List (Node F D)} {row : List D} {missing : D} {entry : Nat → Option D}
    (hrow : ∀ f, idx row f = Res.ofOption (entry f)) {i : Nat} {steps : List (Step F D)}
    (hp : Path nodes entry missing i steps) {fuel : Nat} (hf : steps.length < fuel) (cs : List D)
    (hcs : cs.length = row.length + 1) :
    ∃ cs' l, contribWalk nodes row missing (deltaWeight nodes) fuel i cs = .ok (cs', l) ∧
      cs'.length = cs.length ∧ (∀ s ∈ steps, s.node.splitFeature < row.length) ∧
      ∀ f : Nat, cs'[f]? = (cs[f]?).map fun a => steps.foldl (Step.addWeight f) a := by
  induction hp generalizing fuel cs with
  | @leaf i n h1 h2 =>
    obtain ⟨fuel, rfl⟩ : ∃ f, fuel = f + 1 := ⟨fuel - 1, by omega⟩
    refine ⟨cs, n, by simp [contribWalk, idx_eq_ok.2 h1, h2], rfl, by simp, fun f => ?_⟩
    simp
  | @step i n c l r v steps h1 h2 h3 h4 h5 h6 h7 h8 ih =>
    obtain ⟨fuel, rfl⟩ : ∃ f, fuel = f + 1 := ⟨fuel - 1, by omega⟩
    have hv : idx row n.splitFeature = .ok v := by rw [hrow, h3]; rfl
    have hflt := lt_of_idx_eq_ok hv
    have hcslt : n.splitFeature < cs.length := by omega
    simp only [List.length_cons] at hf
    obtain ⟨cs', lf, e1, e2, e3, e4⟩ := ih (fuel := fuel) (by omega)
      (cs.set n.splitFeature (cs[n.splitFeature] + (up c.weightValue - up n.weightValue))) (by simpa using hcs)
    refine ⟨cs', lf, ?_, by simpa using e2, ?_, fun f => ?_⟩
    · rw [contribWalk]
      simp only [idx_eq_ok.2 h1, Res.ok_bind, h2, hv, getChildIdx_eq, h4, if_true, deltaWeight, idx_eq_ok.2 h5,
        Bool.false_eq_true, if_false, addAt, idx_of_lt hcslt]
      exact e1
    · intro s' hs'
      rcases List.mem_cons.1 hs' with rfl | hs'
      · exact hflt
      · exact e3 s' hs'
    · rw [e4 f, List.getElem?_set]
      by_cases h : n.splitFeature = f
      · subst h
        rw [if_pos rfl, if_pos hcslt, List.getElem?_eq_getElem hcslt]
        simp [Step.addWeight]
      · rw [if_neg h]
        simp [Step.addWeight, h]

/-- The values of the roots. -/
def Roots (ts : List (Tree F D)) (rs : List (Node F D)) : Prop :=
  List.Forall₂ (fun (t : Tree F D) r => t.nodes[0]? = some r) ts rs

theorem fold_weight {ts : List (Tree F D)} {row : List D} {missing : D} {entry : Nat → Option D}
    (hrow : ∀ f, idx row f = Res.ofOption (entry f)) (hwf : ∀ t ∈ ts, t.Wf) {ls : List (Node F D)}
    (hl : Leaves ts entry missing ls) (cs : List D) (hcs : cs.length = row.length + 1) :
    ∃ cs', Res.foldM' (fun c t => rowPredFn .weight t row c missing) cs ts = .ok cs' ∧
      cs'.length = cs.length ∧ ∃ (paths : List (List (Step F D))) (rs : List (Node F D)),
        List.Forall₂ (fun (t : Tree F D) p => Path t.nodes entry missing 0 p) ts paths ∧ Roots ts rs ∧
        (∀ f : Nat, f < row.length → cs'[f]? = (cs[f]?).map fun a => paths.flatten.foldl (Step.addWeight f) a) ∧
        cs'[row.length]? = (cs[row.length]?).map fun a => rs.foldl (fun acc r => acc + up r.weightValue) a := by
  unfold Leaves at hl
  induction hl generalizing cs with
  | nil => exact ⟨cs, rfl, rfl, [], [], .nil, .nil, by simp, by simp⟩
  | @cons t l ts ls h1 _ ih =>
    obtain ⟨k, hk⟩ := h1.exists_n
    obtain ⟨p, hp, e⟩ := path_of_route (hwf t (by simp)) hk
    have hroot : ∃ n : Node F D, t.nodes[0]? = some n := by
      cases h1 with
      | leaf h => exact ⟨_, h⟩
      | step h => exact ⟨_, h⟩
    obtain ⟨root, hroot⟩ := hroot
    have hlast : row.length < cs.length := by omega
    obtain ⟨c1, l1, w1, w2, w3, w4⟩ := contribWalk_weight hrow hp (e ▸ hk.lt_length)
      (cs.set row.length (cs[row.length] + up root.weightValue)) (by simpa using hcs)
    rw [List.length_set] at w2
    obtain ⟨c2, v1, v2, ps, rs, v3, v4, v5, v6⟩ := ih (fun t ht => hwf t (by simp [ht])) c1 (by omega)
    refine ⟨c2, ?_, by omega, p :: ps, root :: rs, .cons hp v3, .cons hroot v4, fun f hf => ?_, ?_⟩
    · rw [Res.foldM'_cons]
      have : rowPredFn .weight t row cs missing = .ok c1 := by
        show t.contribWeight row cs missing = _
        rw [Tree.contribWeight, idx_eq_ok.2 hroot]
        have h' : cs.length - 1 = row.length := by omega
        simp only [Res.ok_bind, addBias, addAt, h', idx_of_lt hlast, w1]
      rw [this]
      exact v1
    · rw [v5 f hf, w4 f, List.getElem?_set, if_neg (by omega), Option.map_map, List.flatten_cons]
      congr 1
      funext a
      simp [List.foldl_append]
    · rw [v6, w4, List.getElem?_set, if_pos rfl, if_pos hlast, List.getElem?_eq_getElem hlast]
      simp only [Option.map_some, List.foldl_cons, Option.some.injEq]
      congr 1
      have : ∀ (p : List (Step F D)) (a : D), (∀ s ∈ p, s.node.splitFeature < row.length) →
          p.foldl (Step.addWeight row.length) a = a := by
        intro p
        induction p with
        | nil => intro a _; rfl
        | cons s p ih =>
          intro a h
          rw [List.foldl_cons]
          have : Step.addWeight row.length a s = a := by
            unfold Step.addWeight
            rw [if_neg]
            have := h s (by simp)
            omega
          rw [this]
          exact ih a fun s hs => h s (by simp [hs])
      exact this p _ w3

/-- **C12** in any arithmetic.  The entry of feature `f` is 0 to which the changes of the node values are added
in the steps that test `f`, tree by tree and step by step; the last entry is the base score to which the values
of the roots are added. -/
theorem C12_path (b : Booster F D) (data : Matrix D) (hd : data.Shaped) (hwf : ∀ t ∈ b.trees, t.Wf)
    (out : List D) (h : b.predict data = .ok out) :
    ∃ rows : List (List D), b.predictContributions data .weight = .ok rows.flatten ∧
      rows.length = data.rows ∧ ∀ (i : Nat) (r : List D), rows[i]? = some r →
        r.length = data.cols + 1 ∧ ∃ (paths : List (List (Step F D))) (rs : List (Node F D)),
          List.Forall₂ (fun (t : Tree F D) p => Path t.nodes (data.entry i) b.missing 0 p)
            (b.trees.take b.used) paths ∧ Roots (b.trees.take b.used) rs ∧
          (∀ f, f < data.cols → r[f]? = some (paths.flatten.foldl (Step.addWeight f) 0)) ∧
          r[data.cols]? = some (rs.foldl (fun acc r => acc + up r.weightValue) (0 + b.baseScore)) := by
  rw [C19_prediction_iteration] at h
  obtain ⟨h1, h2, h3⟩ := h
  have hmem : ∀ t, t ∈ b.trees.take b.used → t ∈ b.trees := fun t ht => List.mem_of_mem_take ht
  have row : ∀ i, i < data.rows → ∃ r : List D,
      contribsRowAlone b (b.trees.take b.used) .weight data i = .ok r ∧ r.length = data.cols + 1 ∧
      ∃ (paths : List (List (Step F D))) (rs : List (Node F D)),
          List.Forall₂ (fun (t : Tree F D) p => Path t.nodes (data.entry i) b.missing 0 p)
            (b.trees.take b.used) paths ∧ Roots (b.trees.take b.used) rs ∧
          (∀ f, f < data.cols → r[f]? = some (paths.flatten.foldl (Step.addWeight f) 0)) ∧
          r[data.cols]? = some (rs.foldl (fun acc r => acc + up r.weightValue) (0 + b.baseScore)) := by
    intro i hi
    obtain ⟨ls, hls, -⟩ := h3 i _ (List.getElem?_eq_getElem (by omega : i < out.length))
    obtain ⟨r, hr, hlen, hrow⟩ := getRow_entry hd hi
    obtain ⟨cs, hcs, hl, paths, rs, hp, hrs, hg, hb⟩ := fold_weight hrow
      (fun t ht => hwf t (hmem t ht)) hls (initContribs data.cols b.baseScore)
      (by simp [initContribs, hlen])
    refine ⟨cs, by rw [contribsRowAlone, hr, Res.ok_bind]; exact hcs, ?_, paths, rs, hp, hrs, ?_, ?_⟩
    · rw [hl]; simp [initContribs]
    · intro f hf
      rw [hg f (by omega), initContribs, List.getElem?_append_left (by simpa using hf),
        List.getElem?_replicate, if_pos hf]; rfl
    · rw [hlen] at hb
      rw [hb, initContribs, List.getElem?_append_right (by simp)]
      simp
  obtain ⟨rows, hrows⟩ : ∃ rs, Res.mapM' (contribsRowAlone b (b.trees.take b.used) .weight data) data.index =
      .ok rs := Res.mapM'_exists fun i hi => by
        rw [Matrix.index, List.mem_range] at hi
        obtain ⟨r, hr, -⟩ := row i hi; exact ⟨r, hr⟩
  have hf := Res.mapM'_eq_ok.1 hrows
  rw [forall₂_index] at hf
  refine ⟨rows, ?_, hf.1, fun i r hr => ?_⟩
  · rw [Booster.predictContributions, contribRows_alone b data (by simp) (by simp),
      predictionTrees_eq_ok.2 ⟨h1, rfl⟩]
    simp only [Res.ok_bind, hrows]
  · have hi : i < data.rows := by rw [← hf.1]; exact (List.getElem?_eq_some_iff.1 hr).1
    obtain ⟨r', e, h⟩ := row i hi
    have := hf.2 i r hr
    rw [e] at this; cases this
    exact h

/-- A path leads to the leaf of the route. -/
theorem Path.route {nodes : List (Node F D)} {entry : Nat → Option D} {missing : D} {i : Nat}
    {steps : List (Step F D)} (hp : Path nodes entry missing i steps) :
    ∃ l n, Route nodes entry missing i l ∧ nodes[i]? = some n ∧ (steps = [] → n = l) ∧
      (∀ s ∈ steps.head?, s.node = n) ∧ (∀ s ∈ steps.getLast?, s.child = l) ∧
      steps.IsChain fun s s' => s.child = s'.node := by
  induction hp with
  | @leaf i n h1 h2 => exact ⟨n, n, .leaf h1 h2, h1, fun _ => rfl, by simp, by simp, .nil⟩
  | @step i n c l r v steps h1 h2 h3 h4 h5 h6 h7 h8 ih =>
    obtain ⟨lf, n', a1, a2, a3, a4, a5, a6⟩ := ih
    rw [h5] at a2
    obtain rfl := Option.some.inj a2
    refine ⟨lf, n, .step h1 h2 h3 h4 a1, h1, by simp, by simp, ?_, ?_⟩
    · intro s hs
      cases steps with
      | nil =>
        simp only [List.getLast?_singleton, Option.mem_def, Option.some.injEq] at hs
        rw [← hs]; exact a3 rfl
      | cons s' steps =>
        rw [List.getLast?_cons_cons] at hs
        exact a5 s hs
    · cases steps with
      | nil => exact .singleton _
      | cons s' steps =>
        refine .cons_cons ?_ a6
        exact (a4 s' (by simp)).symm

/-- The values of a fitted tree are products with the learning rate, or converted averages. -/
theorem updateAverage_values {P : F → Prop} (hP : ∀ a : D, P (down a)) :
    ∀ (fuel : Nat) (nodes nodes' : List (Node F D)) (i : Nat) (a : D), updateAverage fuel nodes i = .ok (nodes', a) →
    (∀ n ∈ nodes, P n.weightValue) → ∀ n ∈ nodes', P n.weightValue := by
  have hmod : ∀ (nodes : List (Node F D)) (j : Nat) (a : D), (∀ n ∈ nodes, P n.weightValue) →
      ∀ n ∈ nodes.modify j (fun n => { n with weightValue := down a }), P n.weightValue := by
    intro nodes j a h n hn
    obtain ⟨k, hk⟩ := List.mem_iff_getElem?.1 hn
    rw [List.getElem?_modify] at hk
    cases hn' : nodes[k]? with
    | none => rw [hn'] at hk; simp at hk
    | some n' =>
      rw [hn'] at hk
      split at hk
      · simp only [Option.map_eq_map, Option.map_some, Option.some.injEq] at hk
        rw [← hk]; exact hP a
      · simp only [Option.map_eq_map, Option.map_some, Option.some.injEq] at hk
        rw [← hk]; exact h _ (List.mem_of_getElem? hn')
  intro fuel
  induction fuel with
  | zero => intro nodes nodes' i a h; simp [updateAverage] at h
  | succ fuel ih =>
    intro nodes nodes' i a h hn
    rw [updateAverage, Res.bind_eq_ok] at h
    obtain ⟨node, _, h⟩ := h
    split at h
    · injection h with h
      injection h with h _
      rw [← h]; exact hn
    · simp only [Res.bind_eq_ok, Prod.exists] at h
      obtain ⟨rn, h1, n1, ra, h2, ln, h3, n2, la, h4, mn, h5, h⟩ := h
      have j1 := ih _ _ _ _ h2 hn
      have j2 := ih _ _ _ _ h4 j1
      split at h
      · simp only [Res.pure_def, Res.ok_bind, Res.ok.injEq, Prod.mk.injEq, if_true] at h
        obtain ⟨rfl, _⟩ := h
        exact hmod _ _ _ (hmod _ _ _ j2)
      · simp only [Res.pure_def, Res.ok_bind, Res.ok.injEq, Prod.mk.injEq, Bool.false_eq_true,
          if_false, Res.bind_eq_ok, Prod.exists] at h
        obtain ⟨n3, a3, h6, rfl, _⟩ := h
        exact hmod _ _ _ (ih _ _ _ _ h6 j2)

theorem Tree.fit_values {P : F → Prop} (hP : ∀ a : D, P (down a)) {c : GrowCfg F D}
    (hP' : ∀ w : F, P (w * c.splitter.params.learningRate)) {sm : SampleMethod} {index : List Nat} {t : Tree F D}
    (h : Tree.fit c sm index = .ok t) : ∀ n ∈ t.nodes, P n.weightValue := by
  obtain ⟨g, hs, sort, hists, nodes, gs, nl, _, _, hc, hC, _⟩ := Tree.fit_cert h
  have h0 : ∀ n ∈ nodes, P n.weightValue := by
    intro n hn
    obtain ⟨i, hi⟩ := List.mem_iff_getElem?.1 hn
    have hlt := (List.getElem?_eq_some_iff.1 hi).1
    rw [← hC.len] at hlt
    obtain ⟨n', h1, h2, _⟩ := hC.nodeOf (List.getElem?_eq_getElem hlt)
    rw [hi] at h1; cases h1
    rw [h2.weight]; exact hP' _
  unfold cleanUpSplits at hc
  split at hc
  · injection hc with hc; rw [← hc]; exact h0
  · split at hc
    · simp only [Res.bind_eq_ok, Prod.exists, Res.ok.injEq] at hc
      obtain ⟨n', a, h1, rfl⟩ := hc
      exact updateAverage_values hP _ _ _ _ _ h1 h0
    · injection hc with hc; rw [← hc]; exact h0

end any

/-! ### Rounding errors -/

section
variable {K : Type} [Field K] [LinearOrder K] [IsStrictOrderedRing K] {m32 m64 : Fmt K} {u : K}

/-- The numbers of the model are numbers of their formats. -/
structure Booster.Stored (b : Booster (FX m32) (FX m64)) : Prop where
  base : b.baseScore.InFormat
  values : ∀ t ∈ b.trees, ∀ n ∈ t.nodes, n.weightValue.InFormat

/-- **C81** (fitted models): the node values of every fitted model are numbers of the narrow format. -/
theorem C81_fitted [m32.Rounds] {R : Type} {env : Env R (FX m32) (FX m64)} {b b' : Booster (FX m32) (FX m64)}
    {data : Matrix (FX m64)} {y w : List (FX m64)} {ev : Option (List (EvalSet (FX m64)))}
    (h : b.fit env data y w ev = .ok (b', .ok ())) (hb : b'.baseScore.InFormat) : b'.Stored where
  base := hb
  values t ht := by
    obtain ⟨binned, _, hf⟩ := Booster.fit_trees h
    obtain ⟨cfg, rows, hF⟩ := hf t ht
    exact Tree.fit_values (P := FX.InFormat) (fun a => FX.down_inFormat a) (fun w => FX.mul_inFormat _ _) hF.fit

variable [hm : m64.Accurate u] [hr : m64.Rounds] [he : m32.Embeds m64]

theorem value_near (x : FX m32) (h : x.InFormat) (hx : x.IsFin) :
    NearX u 0 (up x : FX m64) x.val |x.val| := by
  obtain ⟨v, rfl⟩ := hx
  exact NearX.of (FX.up_inFormat h) rfl

/-- **C81** (predictions).  A finite prediction differs from the exact sum of the base score and of the values
of the leaves of the row by at most `((1 + u) ^ n - 1)` times the sum of their absolute values, for `n` trees;
`u` is `2⁻⁵³` for `f64`. -/
theorem C81_prediction (b : Booster (FX m32) (FX m64)) (data : Matrix (FX m64)) (hs : b.Stored)
    (hv : ∀ t ∈ b.trees, t.FiniteValues) {b0 : K} (hb : b.baseScore = .fin b0) {out : List (FX m64)}
    (h : b.predict data = .ok out) {i : Nat} {z : K} (ho : out[i]? = some (.fin z)) :
    ∃ ls, Leaves (b.trees.take b.used) (data.entry i) b.missing ls ∧
      |z - (b0 + (ls.map fun l => l.weightValue.val).sum)| ≤
        ((1 + u) ^ b.used - 1) * (|b0| + (ls.map fun l => |l.weightValue.val|).sum) := by
  rw [C19_prediction_iteration] at h
  obtain ⟨h1, h2, h3⟩ := h
  obtain ⟨ls, hls, e⟩ := h3 i _ ho
  refine ⟨ls, hls, ?_⟩
  have hlen : ls.length = b.used := by
    have := hls.length_eq
    rw [← this, List.length_take, Nat.min_eq_left h1]
  have hmem : ∀ l ∈ ls, l.weightValue.InFormat ∧ l.weightValue.IsFin := by
    intro l hl
    obtain ⟨k, hk⟩ := List.mem_iff_getElem?.1 hl
    have hlt := (List.getElem?_eq_some_iff.1 hk).1
    have hroute := (List.forall₂_iff_get.1 hls).2 k (by rw [hls.length_eq]; exact hlt) hlt
    have hl' : l = ls.get ⟨k, hlt⟩ := by
      rw [List.get_eq_getElem]; exact ((List.getElem?_eq_some_iff.1 hk).2).symm
    rw [← hl'] at hroute
    have ht : (b.trees.take b.used).get ⟨k, by rw [hls.length_eq]; exact hlt⟩ ∈ b.trees :=
      List.mem_of_mem_take (List.get_mem _ _)
    have := hroute.mem.1
    exact ⟨hs.values _ ht _ this, hv _ ht _ this⟩
  have := NearX.foldl (m := m64) (u := u) (val := fun l : Node (FX m32) (FX m64) => up l.weightValue)
    (s := fun l => l.weightValue.val) (a := fun l => |l.weightValue.val|) ls 0 b.baseScore b0 |b0|
    (NearX.of hs.base hb) fun l hl => value_near _ (hmem l hl).1 (hmem l hl).2
  rw [hlen, Nat.zero_add] at this
  exact ((this.near z (by rw [← e])).2).err

/-- The change of a node value in a step. -/
def Step.delta (s : Step (FX m32) (FX m64)) : K := s.child.weightValue.val - s.node.weightValue.val

theorem foldl_addWeight (f : Nat) (steps : List (Step (FX m32) (FX m64))) (a : FX m64) :
    steps.foldl (Step.addWeight f) a = (steps.filter fun s => s.node.splitFeature = f).foldl
      (fun acc s => acc + (up s.child.weightValue - up s.node.weightValue)) a := by
  induction steps generalizing a with
  | nil => rfl
  | cons s steps ih =>
    rw [List.foldl_cons, ih, List.filter_cons]
    by_cases h : s.node.splitFeature = f
    · simp [Step.addWeight, h]
    · simp [Step.addWeight, h]

theorem Path.mem_nodes {F D : Type} [Fl D] {nodes : List (Node F D)} {entry : Nat → Option D} {missing : D} {i : Nat}
    {steps : List (Step F D)} (hp : Path nodes entry missing i steps) :
    ∀ s ∈ steps, s.node ∈ nodes ∧ s.child ∈ nodes ∧ ∃ v, entry s.node.splitFeature = some v := by
  induction hp with
  | leaf => intro s hs; cases hs
  | step h1 h2 h3 h4 h5 h6 h7 h8 ih =>
    intro s hs
    rcases List.mem_cons.1 hs with rfl | hs
    · exact ⟨List.mem_of_getElem? h1, List.mem_of_getElem? h5, _, h3⟩
    · exact ih s hs

/-- The changes along a path add up to the difference of the values of the leaf and of the start. -/
theorem Path.telescope {nodes : List (Node (FX m32) (FX m64))} {entry : Nat → Option (FX m64)} {missing : FX m64}
    {i : Nat} {steps : List (Step (FX m32) (FX m64))} (hp : Path nodes entry missing i steps)
    {l n : Node (FX m32) (FX m64)} (hl : Route nodes entry missing i l) (hn : nodes[i]? = some n) :
    (steps.map Step.delta).sum = l.weightValue.val - n.weightValue.val := by
  induction hp generalizing n with
  | @leaf i n' h1 h2 =>
    rw [hn] at h1; cases h1
    rw [hl.unique (.leaf hn h2)]; simp
  | @step i n' c l' r v steps h1 h2 h3 h4 h5 h6 h7 h8 ih =>
    rw [hn] at h1; cases h1
    obtain ⟨lf, _, hr, _⟩ := h8.route
    obtain rfl := hl.unique (.step hn h2 h3 h4 hr)
    rw [List.map_cons, List.sum_cons, ih hr h5]
    simp only [Step.delta]
    ring

theorem sum_by_feature {α : Type} (feat : α → Nat) (g : α → K) (n : Nat) : ∀ (l : List α), (∀ s ∈ l, feat s < n) →
    ((List.range n).map fun f => ((l.filter fun s => feat s = f).map g).sum).sum = (l.map g).sum := by
  intro l
  induction l with
  | nil => intro _; simp
  | cons s l ih =>
    intro h
    have hs := h s (by simp)
    have := ih fun s hs => h s (by simp [hs])
    rw [List.map_cons, List.sum_cons, ← this]
    have e : ∀ f, (((s :: l).filter fun s => feat s = f).map g).sum =
        (if feat s = f then g s else 0) + ((l.filter fun s => feat s = f).map g).sum := by
      intro f
      rw [List.filter_cons]
      by_cases hf : feat s = f <;> simp [hf]
    simp only [e, List.sum_map_add]
    congr 1
    have : ∀ (k n : Nat) (x : K), ((List.range n).map fun f => if k = f then x else 0).sum = if k < n then x else 0 := by
      intro k n x
      induction n with
      | zero => simp
      | succ n ih =>
        rw [List.range_succ, List.map_append, List.sum_append, ih]
        rcases lt_trichotomy k n with h | rfl | h
        · simp [h, h.ne, Nat.lt_succ_of_lt h]
        · simp
        · simp [h.not_gt, h.ne', show ¬ k < n + 1 by omega]
    rw [this, if_pos hs]

/-- **C81** (contributions of method Weight).  If the contributions of a row are finite, then their sum differs
from the exact sum of the base score and of the leaf values by at most `(1 + u) ^ N - 1` times the sum of the
absolute values of the base score, of the values of the roots and of the changes along the paths, where `N` is the
number of trees and of steps plus one. -/
theorem C81_contributions (b : Booster (FX m32) (FX m64)) (data : Matrix (FX m64)) (hd : data.Shaped)
    (hwf : ∀ t ∈ b.trees, t.Wf) (hs : b.Stored) (hv : ∀ t ∈ b.trees, t.FiniteValues) {b0 : K}
    (hb : b.baseScore = .fin b0) {out : List (FX m64)} (h : b.predict data = .ok out) :
    ∃ rows : List (List (FX m64)), b.predictContributions data .weight = .ok rows.flatten ∧
      rows.length = data.rows ∧ ∀ (i : Nat) (zs : List K), rows[i]? = some (zs.map FX.fin) →
        zs.length = data.cols + 1 ∧
        ∃ (ls rs : List (Node (FX m32) (FX m64))) (paths : List (List (Step (FX m32) (FX m64)))),
          Leaves (b.trees.take b.used) (data.entry i) b.missing ls ∧ Roots (b.trees.take b.used) rs ∧
          List.Forall₂ (fun (t : Tree (FX m32) (FX m64)) p => Path t.nodes (data.entry i) b.missing 0 p)
            (b.trees.take b.used) paths ∧
          |zs.sum - (b0 + (ls.map fun l => l.weightValue.val).sum)| ≤
            ((1 + u) ^ (b.used + paths.flatten.length + 1) - 1) *
              (|b0| + (rs.map fun r => |r.weightValue.val|).sum + (paths.flatten.map fun s => |s.delta|).sum) := by
  obtain ⟨rows, h1, h2, h3⟩ := C12_path b data hd hwf out h
  rw [C19_prediction_iteration] at h
  obtain ⟨g1, g2, g3⟩ := h
  refine ⟨rows, h1, h2, fun i zs hz => ?_⟩
  obtain ⟨hlen, paths, rs, hp, hrs, hf, hlast⟩ := h3 i _ hz
  rw [List.length_map] at hlen
  have hi : i < data.rows := by rw [← h2]; exact (List.getElem?_eq_some_iff.1 hz).1
  obtain ⟨ls, hls, -⟩ := g3 i _ (List.getElem?_eq_getElem (by omega : i < out.length))
  refine ⟨hlen, ls, rs, paths, hls, hrs, hp, ?_⟩
  have htree : ∀ t ∈ b.trees.take b.used, t ∈ b.trees := fun t ht => List.mem_of_mem_take ht
  have hval : ∀ t ∈ b.trees.take b.used, ∀ n ∈ t.nodes, NearX u 0 (up n.weightValue : FX m64) n.weightValue.val
      |n.weightValue.val| := fun t ht n hn => value_near _ (hs.values t (htree t ht) n hn) (hv t (htree t ht) n hn)
  -- the steps
  have hstep : ∀ s ∈ paths.flatten, ∃ t ∈ b.trees.take b.used, s.node ∈ t.nodes ∧ s.child ∈ t.nodes ∧
      s.node.splitFeature < data.cols := by
    intro s hsm
    rw [List.mem_flatten] at hsm
    obtain ⟨p, hpm, hsp⟩ := hsm
    obtain ⟨k, hk⟩ := List.mem_iff_getElem?.1 hpm
    have hlt := (List.getElem?_eq_some_iff.1 hk).1
    have hpath := (List.forall₂_iff_get.1 hp).2 k (by rw [hp.length_eq]; exact hlt) hlt
    have hl' : p = paths.get ⟨k, hlt⟩ := by
      rw [List.get_eq_getElem]; exact ((List.getElem?_eq_some_iff.1 hk).2).symm
    rw [← hl'] at hpath
    obtain ⟨a1, a2, v, a3⟩ := hpath.mem_nodes s hsp
    refine ⟨_, List.get_mem _ _, a1, a2, ?_⟩
    have := (List.getElem?_eq_some_iff.1 a3).1
    rw [hd, Nat.mul_comm data.rows] at this
    by_contra hc
    have := Nat.mul_le_mul_right data.rows (not_lt.1 hc)
    omega
  have hdelta : ∀ s ∈ paths.flatten, NearX u 1 ((up s.child.weightValue : FX m64) - up s.node.weightValue) s.delta |s.delta| := by
    intro s hsm
    obtain ⟨t, ht, a1, a2, _⟩ := hstep s hsm
    have i1 := FX.up_inFormat (m' := m64) (hs.values t (htree t ht) _ a2)
    have i2 := FX.up_inFormat (m' := m64) (hs.values t (htree t ht) _ a1)
    obtain ⟨v1, e1⟩ := hv t (htree t ht) _ a2
    obtain ⟨v2, e2⟩ := hv t (htree t ht) _ a1
    have := NearX.sub (u := u) i1 i2 (s := v1) (t := v2) (by rw [e1]; rfl) (by rw [e2]; rfl)
    simpa [Step.delta, e1, e2, FX.val] using this
  have h0 : NearX u 0 (0 : FX m64) 0 0 := by
    have := NearX.of (u := u) (x := (0 : FX m64)) (v := 0) (fun q e => by cases e; exact hr.zero) rfl
    rwa [abs_zero] at this
  have hfeat : ∀ f, NearX u (b.used + paths.flatten.length + 1) (paths.flatten.foldl (Step.addWeight f) (0 : FX m64))
      ((paths.flatten.filter fun s => s.node.splitFeature = f).map Step.delta).sum
      ((paths.flatten.filter fun s => s.node.splitFeature = f).map fun s => |s.delta|).sum := by
    intro f
    rw [foldl_addWeight]
    have := NearX.foldl (m := m64) (u := u)
      (val := fun s : Step (FX m32) (FX m64) => up s.child.weightValue - up s.node.weightValue)
      (s := Step.delta) (a := fun s => |s.delta|) (paths.flatten.filter fun s => s.node.splitFeature = f) 1 0 0 0
      (h0.mono hm.nonneg (by omega)) fun s hs' => hdelta s (List.mem_of_mem_filter hs')
    rw [zero_add, zero_add] at this
    refine this.mono hm.nonneg ?_
    have := List.length_filter_le (fun s : Step (FX m32) (FX m64) => decide (s.node.splitFeature = f)) paths.flatten
    omega
  -- the bias
  have hbase : (0 : FX m64) + b.baseScore = b.baseScore := by
    rw [hb]
    show FX.rd (0 + b0) = _
    rw [zero_add, FX.rd, hs.base b0 hb]; rfl
  have hrlen : rs.length = b.used := by
    have := List.Forall₂.length_eq hrs
    rw [← this, List.length_take, Nat.min_eq_left g1]
  have hroots : ∀ r ∈ rs, ∃ t ∈ b.trees.take b.used, r ∈ t.nodes := by
    intro r hr'
    obtain ⟨k, hk⟩ := List.mem_iff_getElem?.1 hr'
    have hlt := (List.getElem?_eq_some_iff.1 hk).1
    have := (List.forall₂_iff_get.1 hrs).2 k (by rw [List.Forall₂.length_eq hrs]; exact hlt) hlt
    have hl' : r = rs.get ⟨k, hlt⟩ := by
      rw [List.get_eq_getElem]; exact ((List.getElem?_eq_some_iff.1 hk).2).symm
    rw [← hl'] at this
    exact ⟨_, List.get_mem _ _, List.mem_of_getElem? this⟩
  have hbias : NearX u (b.used + paths.flatten.length + 1)
      (rs.foldl (fun acc r => acc + up r.weightValue) (0 + b.baseScore))
      (b0 + (rs.map fun r => r.weightValue.val).sum) (|b0| + (rs.map fun r => |r.weightValue.val|).sum) := by
    rw [hbase]
    have := NearX.foldl (m := m64) (u := u) (val := fun l : Node (FX m32) (FX m64) => up l.weightValue)
      (s := fun l => l.weightValue.val) (a := fun l => |l.weightValue.val|) rs 0 b.baseScore b0 |b0|
      (NearX.of hs.base hb) fun l hl => by
        obtain ⟨t, ht, h⟩ := hroots l hl
        exact hval t ht l h
    exact this.mono hm.nonneg (by omega)
  -- all entries
  let N := b.used + paths.flatten.length + 1
  let sF := fun f : Nat => ((paths.flatten.filter fun s => s.node.splitFeature = f).map Step.delta).sum
  let aF := fun f : Nat => ((paths.flatten.filter fun s => s.node.splitFeature = f).map fun s => |s.delta|).sum
  obtain ⟨zf, zl, rfl⟩ : ∃ zf zl, zs = zf ++ [zl] := by
    have : zs ≠ [] := by intro h; rw [h] at hlen; simp at hlen
    exact ⟨zs.dropLast, zs.getLast this, (List.dropLast_append_getLast this).symm⟩
  have hzf : zf.length = data.cols := by simp at hlen; omega
  have e1 : ∀ f z, zf[f]? = some z → Near u N z (sF f) (aF f) := by
    intro f z hz
    have hlt := (List.getElem?_eq_some_iff.1 hz).1
    have := hf f (by omega)
    rw [List.getElem?_map, List.getElem?_append_left hlt, hz] at this
    exact ((hfeat f).near z (by simpa using this.symm)).2
  have e2 : Near u N zl (b0 + (rs.map fun r => r.weightValue.val).sum) (|b0| + (rs.map fun r => |r.weightValue.val|).sum) := by
    rw [List.getElem?_map, ← hzf, List.getElem?_append_right (le_refl _), Nat.sub_self] at hlast
    exact (hbias.near zl (by simpa using hlast.symm)).2
  have key := Near.sum (u := u) (k := N)
    ((List.zipWith (fun z f => (z, sF f, aF f)) zf (List.range data.cols)) ++
      [(zl, b0 + (rs.map fun r => r.weightValue.val).sum, |b0| + (rs.map fun r => |r.weightValue.val|).sum)]) (by
    intro x hx
    rw [List.mem_append] at hx
    rcases hx with hx | hx
    · obtain ⟨f, hf'⟩ := List.mem_iff_getElem?.1 hx
      rw [List.getElem?_zipWith] at hf'
      cases hz' : zf[f]? with
      | none => rw [hz'] at hf'; simp at hf'
      | some z =>
        have hlt := (List.getElem?_eq_some_iff.1 hz').1
        rw [hz', List.getElem?_range (by omega)] at hf'
        cases hf'
        exact e1 f z hz'
    · rw [List.mem_singleton] at hx
      rw [hx]; exact e2)
  have p1 : (List.zipWith (fun z f => (z, sF f, aF f)) zf (List.range data.cols)).map (fun x => x.1) = zf := by
    rw [List.map_zipWith]
    refine List.ext_getElem (by simp [hzf]) fun j a b' => ?_
    simp
  have p2 : (List.zipWith (fun z f => (z, sF f, aF f)) zf (List.range data.cols)).map (fun x => x.2.1) =
      (List.range data.cols).map sF := by
    rw [List.map_zipWith]
    refine List.ext_getElem (by simp [hzf]) fun j a b' => ?_
    simp
  have p3 : (List.zipWith (fun z f => (z, sF f, aF f)) zf (List.range data.cols)).map (fun x => x.2.2) =
      (List.range data.cols).map aF := by
    rw [List.map_zipWith]
    refine List.ext_getElem (by simp [hzf]) fun j a b' => ?_
    simp
  have hfl : ∀ s ∈ paths.flatten, s.node.splitFeature < data.cols := fun s hs' => by
    obtain ⟨_, _, _, _, h⟩ := hstep s hs'; exact h
  have q1 : ((List.range data.cols).map sF).sum = (paths.flatten.map Step.delta).sum :=
    sum_by_feature (fun s : Step (FX m32) (FX m64) => s.node.splitFeature) Step.delta data.cols paths.flatten hfl
  have q2 : ((List.range data.cols).map aF).sum = (paths.flatten.map fun s => |s.delta|).sum :=
    sum_by_feature (fun s : Step (FX m32) (FX m64) => s.node.splitFeature) (fun s => |s.delta|) data.cols
      paths.flatten hfl
  have tel : (paths.flatten.map Step.delta).sum + (rs.map fun r => r.weightValue.val).sum =
      (ls.map fun l => l.weightValue.val).sum := by
    clear h3 g3 h1 key e1 e2 p1 p2 p3 q1 q2 hfl hbias hfeat hdelta hstep hroots hrlen hval hf hlast htree
    unfold Leaves at hls
    unfold Roots at hrs
    generalize b.trees.take b.used = ts at *
    induction hls generalizing rs paths with
    | nil => cases hp; cases hrs; simp
    | @cons t l ts ls hl _ ih =>
      cases hp with
      | cons a1 a2 =>
        cases hrs with
        | cons c1 c2 =>
          have h1 := ih _ _ a2 c2
          have h2 := a1.telescope hl c1
          simp only [List.flatten_cons, List.map_append, List.sum_append, List.map_cons, List.sum_cons]
          rw [h2, ← h1]; ring
  simp only [List.map_append, List.map_cons, List.map_nil, List.sum_append, List.sum_singleton, p1, p2, p3, q1, q2] at key
  rw [List.sum_append, List.sum_singleton, ← tel]
  convert key using 2
  · congr 1; ring
  · ring

theorem pow_u_le {u : K} (hu : 0 ≤ u) : ∀ n : Nat, 2 * (n * u) ≤ 1 → (1 + u) ^ n - 1 ≤ 2 * (n * u) := by
  intro n
  induction n with
  | zero => intro _; simp
  | succ n ih =>
    intro h
    push_cast at h ⊢
    have hn : (0 : K) ≤ n := Nat.cast_nonneg n
    have h1 := ih (by nlinarith)
    rw [pow_succ]
    have h2 : (1 + u) ^ n * (1 + u) ≤ (1 + 2 * (n * u)) * (1 + u) :=
      mul_le_mul_of_nonneg_right (by linarith) (by linarith)
    have h3 : 2 * (n * u) * u ≤ 1 * u := mul_le_mul_of_nonneg_right (by nlinarith) hu
    nlinarith

end

/-- **C81** (predictions, `f32` and `f64`).  With `n ≤ 2⁵²` trees the error of a prediction is at most
`n · 2⁻⁵²` times the sum of the absolute values. -/
theorem C81_f64 {e32 l32 s32 e64 l64 s64 : ℚ → RV ℚ}
    (b : Booster (FX (Ieee.b32 e32 l32 s32)) (FX (Ieee.b64 e64 l64 s64)))
    (data : Matrix (FX (Ieee.b64 e64 l64 s64))) (hs : b.Stored) (hv : ∀ t ∈ b.trees, t.FiniteValues) {b0 : ℚ}
    (hb : b.baseScore = .fin b0) (hn : b.used ≤ 2 ^ 52) {out : List (FX (Ieee.b64 e64 l64 s64))}
    (h : b.predict data = .ok out) {i : Nat} {z : ℚ} (ho : out[i]? = some (.fin z)) :
    ∃ ls, Leaves (b.trees.take b.used) (data.entry i) b.missing ls ∧
      |z - (b0 + (ls.map fun l => l.weightValue.val).sum)| ≤
        b.used / 2 ^ 52 * (|b0| + (ls.map fun l => |l.weightValue.val|).sum) := by
  obtain ⟨ls, h1, h2⟩ := C81_prediction b data hs hv hb h ho
  refine ⟨ls, h1, h2.trans ?_⟩
  have e : Ieee.pow2 (-53) = 1 / 2 ^ 53 := by rw [Ieee.pow2_eq]; norm_num
  have hn' : (b.used : ℚ) ≤ 2 ^ 52 := by exact_mod_cast hn
  refine mul_le_mul_of_nonneg_right ?_ ?_
  · refine (pow_u_le (Ieee.pow2_pos _).le _ ?_).trans (le_of_eq ?_)
    · rw [e, mul_one_div, ← mul_div_assoc, div_le_one (by norm_num)]
      linarith
    · rw [e]; ring
  · refine add_nonneg (abs_nonneg _) (List.sum_nonneg fun x hx => ?_)
    obtain ⟨l, _, rfl⟩ := List.mem_map.1 hx
    exact abs_nonneg _

/-! ### The hypotheses are met -/

/-- A sum with rounding errors: 0.1 and 18 times 0.3. -/
example : ∃ vs : List ℚ, vs.length = 19 ∧ (∀ v ∈ vs, f64Fmt.Repr v) ∧ ∃ z,
    fastSum (vs.map (FX.fin : ℚ → F64)) = .fin z ∧ z ≠ vs.sum := by
  refine ⟨(f64 (1/10)).val :: List.replicate 18 (f64 (3/10)).val, rfl, ?_, ?_⟩
  · unfold Fmt.Repr; decide +kernel
  · refine ⟨(fastSum (((f64 (1/10)).val :: List.replicate 18 (f64 (3/10)).val).map (FX.fin : ℚ → F64))).val, ?_, ?_⟩ <;>
      decide +kernel

/-- A fitted model with the base score 0.1: the hypotheses hold and the prediction of row 1 is rounded. -/
example : ∃ b b' out z ls, mfB = some b ∧
    ({ b with baseScore := f64 (1/10) }).fit floatEnv mfX mfY (List.replicate 4 1) none = .ok (b', .ok ()) ∧
    b'.Stored ∧ (∀ t ∈ b'.trees, t.Wf) ∧ (∀ t ∈ b'.trees, t.FiniteValues) ∧ b'.baseScore.IsFin ∧ mfX.Shaped ∧
    b'.used = 2 ∧ b'.predict mfX = .ok out ∧ out[1]? = some (.fin z) ∧
    Leaves (b'.trees.take b'.used) (mfX.entry 1) b'.missing ls ∧
    z ≠ (f64 (1/10)).val + (ls.map fun l => l.weightValue.val).sum := by
  have : (match mfB with
    | some b => match ({ b with baseScore := f64 (1/10) }).fit floatEnv mfX mfY (List.replicate 4 1) none with
      | .ok (b', .ok ()) => match b'.predict mfX with
        | .ok out => match Res.mapM' (fun t => t.predictLeaf mfX 1 b'.missing) b'.trees with
          | .ok ls => match (out[1]? : Option F64) with
            | some (FX.fin z) => decide (b'.baseScore = f64 (1/10) ∧ b'.used = 2 ∧ b'.trees.length = 2 ∧
              (∀ t ∈ b'.trees, ∀ n ∈ t.nodes, (ninf <ᶠ n.weightValue) = true ∧ (n.weightValue <ᶠ inf) = true) ∧
              z ≠ (f64 (1/10)).val + (ls.map fun l => l.weightValue.val).sum)
            | _ => false
          | _ => false
        | _ => false
      | _ => false
    | none => false) = true := by decide +kernel
  split at this
  · rename_i b hb
    split at this
    · rename_i b' h
      split at this
      · rename_i out ho
        split at this
        · rename_i ls hls
          split at this
          · rename_i z hz
            obtain ⟨h1, h2, h3, h4, h5⟩ := of_decide_eq_true this
            have hb' : b'.baseScore.InFormat := by rw [h1]; exact FX.rd_inFormat _
            refine ⟨b, b', out, z, ls, hb, h, C81_fitted h hb', C03_well_formed _ _ _ _ _ _ _ h,
              fun t ht n hn => FX.isFin_of_lt (h4 t ht n hn), ⟨(f64 (1/10)).val, by rw [h1]; decide +kernel⟩, rfl, h2, ho,
              hz, ?_, h5⟩
            rw [h2, ← h3, List.take_length]
            unfold Leaves
            rw [Res.mapM'_eq_ok] at hls
            exact hls.imp fun t l e => predictLeaf_iff.1 e
          · cases this
        · cases this
      · cases this
    · cases this
  · cases this

end Verif
