import Verif.Model.Xgboost
import Verif.Props.Python
import Verif.Props.Json
import Verif.Proofs.PyBooster
import Verif.Props.Predict
import Verif.Spec.ExamplePy
import Verif.Spec.ExampleFloat
import Verif.Props.Objective

/-!
# C97 An imported XGBoost model predicts like XGBoost
-/

namespace Verif

open scoped Verif

section
variable {F D : Type}

/-- How XGBoost itself reads a dumped tree, on a row of `f32` numbers: a NaN goes to the child named by `missing`,
a value below the condition to `yes`, any other to `no`; the leaf reached has the value. -/
inductive XgbReaches [Fl F] (N : XgbNums F D) (names : List String) (row : Nat → F) : XgbNode → Rat → Prop
  | leaf {i : Nat} {v c : Rat} : XgbReaches N names row (.leaf i v c) v
  | missing {i d : Nat} {f : String} {s g c : Rat} {m y n : Nat} {ch : List XgbNode} {j : Nat} {x : XgbNode} {v : Rat} :
      names[j]? = some f → isNaN (row j) = true → x ∈ ch → x.id = m → XgbReaches N names row x v →
      XgbReaches N names row (.split i d f s g c m y n ch) v
  | yes {i d : Nat} {f : String} {s g c : Rat} {m y n : Nat} {ch : List XgbNode} {j : Nat} {x : XgbNode} {v : Rat} :
      names[j]? = some f → isNaN (row j) = false → (row j <ᶠ N.toF s) = true → x ∈ ch → x.id = y →
      XgbReaches N names row x v → XgbReaches N names row (.split i d f s g c m y n ch) v
  | no {i d : Nat} {f : String} {s g c : Rat} {m y n : Nat} {ch : List XgbNode} {j : Nat} {x : XgbNode} {v : Rat} :
      names[j]? = some f → isNaN (row j) = false → (row j <ᶠ N.toF s) = false → x ∈ ch → x.id = n →
      XgbReaches N names row x v → XgbReaches N names row (.split i d f s g c m y n ch) v

/-- A dump as XGBoost writes it: splits name known features and their children. -/
def XgbNode.Valid (names : List String) (t : XgbNode) : Prop :=
  ∀ x ∈ t.all, ∀ i d f s g c m y n ch, x = .split i d f s g c m y n ch →
    f ∈ names ∧ m ∈ ch.map XgbNode.id ∧ y ∈ ch.map XgbNode.id ∧ n ∈ ch.map XgbNode.id

/-- The margin XGBoost starts from: the base score through the link of the objective. -/
def xgbMargin [Fl D] (objective : String) (base : D) : D :=
  if objective ∈ ["binary:logistic", "reg:logistic", "binary:logitraw"] then Fl.ln (base / (1 - base))
  else if objective ∈ ["count:poisson", "reg:gamma", "reg:tweedie", "survival:cox", "survival:aft"] then Fl.ln base
  else base

/-- Conversion to `f64` keeps comparisons and NaN. -/
structure UpOrder (F D : Type) [Fl F] [Fl D] [FlCast F D] : Prop where
  lt : ∀ a b : F, ((up a : D) <ᶠ up b) = (a <ᶠ b)
  nan : ∀ a : F, isNaN (up a : D) = isNaN a

theorem upOrder_fx {K : Type} [Field K] [LinearOrder K] (m32 m64 : Fmt K) : UpOrder (FX m32) (FX m64) where
  lt a b := by cases a <;> cases b <;> rfl
  nan a := by cases a <;> rfl

theorem XgbNode.self_mem (x : XgbNode) : x ∈ x.all := by rw [x.all_eq]; simp

theorem XgbNode.child_all {x y : XgbNode} (hy : y ∈ x.children) {z : XgbNode} (hz : z ∈ y.all) : z ∈ x.all := by
  rw [x.all_eq]
  exact List.mem_cons_of_mem _ (List.mem_flatMap.2 ⟨y, hy, hz⟩)

theorem XgbNode.child_size {x y : XgbNode} (hy : y ∈ x.children) : y.size < x.size := by
  rw [x.size_eq]
  have : ∀ l : List XgbNode, y ∈ l → y.size ≤ (l.map XgbNode.size).sum := by
    intro l hl
    induction l with
    | nil => cases hl
    | cons a l ih =>
      rw [List.map_cons, List.sum_cons]
      rcases List.mem_cons.1 hl with rfl | hl
      · omega
      · have := ih hl; omega
  have := this _ hy
  omega

/-- C97.  In a dump as XGBoost writes it, every row reaches a leaf. -/
theorem C97_total [Fl F] (N : XgbNums F D) (names : List String) (row : Nat → F) (t : XgbNode) (h : t.Valid names) :
    ∃ v, XgbReaches N names row t v := by
  have key : ∀ k (t : XgbNode), t.size = k → t.Valid names → ∃ v, XgbReaches N names row t v := by
    intro k
    induction k using Nat.strong_induction_on with
    | _ k ih =>
      intro t hk h
      cases t with
      | leaf i v c => exact ⟨v, .leaf⟩
      | split i d f s g c m y n ch =>
        obtain ⟨hf, hm, hy, hn⟩ := h _ (XgbNode.self_mem _) i d f s g c m y n ch rfl
        obtain ⟨j, hj⟩ := List.mem_iff_getElem?.1 hf
        have sub : ∀ x ∈ ch, ∃ v, XgbReaches N names row x v := fun x hx =>
          ih x.size (by rw [← hk]; exact XgbNode.child_size hx) x rfl
            fun z hz => h z (XgbNode.child_all (x := .split i d f s g c m y n ch) hx hz)
        cases h1 : isNaN (row j)
        · cases h2 : (row j <ᶠ N.toF s)
          · obtain ⟨x, hx, he⟩ := List.mem_map.1 hn
            obtain ⟨v, hv⟩ := sub x hx
            exact ⟨v, .no hj h1 h2 hx he hv⟩
          · obtain ⟨x, hx, he⟩ := List.mem_map.1 hy
            obtain ⟨v, hv⟩ := sub x hx
            exact ⟨v, .yes hj h1 h2 hx he hv⟩
        · obtain ⟨x, hx, he⟩ := List.mem_map.1 hm
          obtain ⟨v, hv⟩ := sub x hx
          exact ⟨v, .missing hj h1 hx he hv⟩
  exact key _ t rfl h

/-- Conversion of the conditions of a dump to `f64` and back to `f32` loses nothing: they are `f32` numbers. -/
def XgbNode.Exact [FlCast F D] (N : XgbNums F D) (t : XgbNode) : Prop :=
  ∀ i d f s g c m y n ch, XgbNode.split i d f s g c m y n ch ∈ t.all → N.toD (N.rnd s) = up (N.toF s)

theorem XgbNode.Exact.cond [FlCast F D] {N : XgbNums F D} {i d : Nat} {f : String} {s g c : Rat} {m y n : Nat}
    {ch : List XgbNode} (h : (XgbNode.split i d f s g c m y n ch).Exact N) : N.toD (N.rnd s) = up (N.toF s) :=
  h _ _ _ _ _ _ _ _ _ _ (XgbNode.self_mem _)

theorem XgbNode.Exact.child [FlCast F D] {N : XgbNums F D} {i d : Nat} {f : String} {s g c : Rat} {m y n : Nat}
    {ch : List XgbNode} (h : (XgbNode.split i d f s g c m y n ch).Exact N) {x : XgbNode} (hx : x ∈ ch) : x.Exact N :=
  fun i' d' f' s' g' c' m' y' n' ch' hz => h i' d' f' s' g' c' m' y' n' ch'
    (XgbNode.child_all (x := .split i d f s g c m y n ch) hx hz)

theorem featureMap_lookup {names : List String} (hn : names.Nodup) {f : String} {j : Nat} (hj : names[j]? = some f) :
    (xgbFeatureMap (some names)).lookup f = some j := by
  have hk : (names.zipIdx.map Prod.fst).Nodup := by rw [List.zipIdx_map_fst]; exact hn
  rw [xgbFeatureMap, lookup_pyDict _ _ hk, lookup_of_mem hk]
  exact List.mk_mem_zipIdx_iff_getElem?.2 hj

section
variable [Fl F] [Fl D] [FlCast F D]

/-- The imported tree leads a row to the leaf that XGBoost finds. -/
theorem xgb_route (U : UpOrder F D) (hnan : isNaN (Fl.nan : D) = true) (N : XgbNums F D)
    {names : List String} (hn : names.Nodup) {row : Nat → F}
    {data : Nat → Option D} (hd : ∀ j, j < names.length → data j = some (up (row j))) {l : List PyNode} {x : XgbNode}
    {v : Rat} (hr : XgbReaches N names row x v) (hN : x.Exact N)
    (hl : ∀ z ∈ x.all, l[z.id]? = some (fromXgboostNode N.rnd (xgbFeatureMap (some names)) z)) :
    ∃ n, Route (l.map (PyNode.toNode N)) data Fl.nan x.id n ∧ n.weightValue = N.toF v := by
  have at_ : ∀ z ∈ x.all, (l.map (PyNode.toNode N))[z.id]? =
      some ((fromXgboostNode N.rnd (xgbFeatureMap (some names)) z).toNode N) := by
    intro z hz; rw [List.getElem?_map, hl z hz, Option.map_some]
  have hread : ∀ w : D, Readable (Fl.nan : D) w := fun w => .inl hnan
  have hmiss : ∀ w : D, IsMissing (Fl.nan : D) w ↔ isNaN w = true := fun w => by rw [IsMissing, if_pos hnan]
  induction hr with
  | @leaf i v c =>
    have := at_ _ (XgbNode.self_mem _)
    exact ⟨_, .leaf this rfl, rfl⟩
  | @missing i d f s g c m y n ch j x v hj h1 hx he _ ih =>
    have h0 := at_ _ (XgbNode.self_mem _)
    obtain ⟨nd, hr, hv⟩ := ih (hN.child hx) (fun z hz => hl z (XgbNode.child_all (x := .split i d f s g c m y n ch) hx hz))
      (fun z hz => at_ z (XgbNode.child_all (x := .split i d f s g c m y n ch) hx hz))
    refine ⟨nd, .step h0 rfl (v := up (row j)) ?_ (hread _) ?_, hv⟩
    · simp only [fromXgboostNode, PyNode.toNode, featureMap_lookup hn hj, Option.getD_some]
      exact hd j (List.getElem?_eq_some_iff.1 hj).1
    · rw [Node.childFor, if_pos ((hmiss _).2 (by rw [U.nan]; exact h1))]
      simp only [fromXgboostNode, PyNode.toNode]
      rw [← he]; exact hr
  | @yes i d f s g c m y n ch j x v hj h1 h2 hx he _ ih =>
    have h0 := at_ _ (XgbNode.self_mem _)
    obtain ⟨nd, hr, hv⟩ := ih (hN.child hx) (fun z hz => hl z (XgbNode.child_all (x := .split i d f s g c m y n ch) hx hz))
      (fun z hz => at_ z (XgbNode.child_all (x := .split i d f s g c m y n ch) hx hz))
    refine ⟨nd, .step h0 rfl (v := up (row j)) ?_ (hread _) ?_, hv⟩
    · simp only [fromXgboostNode, PyNode.toNode, featureMap_lookup hn hj, Option.getD_some]
      exact hd j (List.getElem?_eq_some_iff.1 hj).1
    · rw [show ((fromXgboostNode N.rnd (xgbFeatureMap (some names)) (.split i d f s g c m y n ch)).toNode N).childFor
        (Fl.nan : D) (up (row j)) = x.id from ?_]
      · exact hr
      · rw [Node.childFor, if_neg (fun h => by rw [hmiss, U.nan, h1] at h; exact absurd h (by decide)), he]
        exact if_pos (show (up (row j) <ᶠ N.toD (N.rnd s)) = true by rw [hN.cond, U.lt]; exact h2)
  | @no i d f s g c m y n ch j x v hj h1 h2 hx he _ ih =>
    have h0 := at_ _ (XgbNode.self_mem _)
    obtain ⟨nd, hr, hv⟩ := ih (hN.child hx) (fun z hz => hl z (XgbNode.child_all (x := .split i d f s g c m y n ch) hx hz))
      (fun z hz => at_ z (XgbNode.child_all (x := .split i d f s g c m y n ch) hx hz))
    refine ⟨nd, .step h0 rfl (v := up (row j)) ?_ (hread _) ?_, hv⟩
    · simp only [fromXgboostNode, PyNode.toNode, featureMap_lookup hn hj, Option.getD_some]
      exact hd j (List.getElem?_eq_some_iff.1 hj).1
    · rw [show ((fromXgboostNode N.rnd (xgbFeatureMap (some names)) (.split i d f s g c m y n ch)).toNode N).childFor
        (Fl.nan : D) (up (row j)) = x.id from ?_]
      · exact hr
      · rw [Node.childFor, if_neg (fun h => by rw [hmiss, U.nan, h1] at h; exact absurd h (by decide)), he]
        exact if_neg (show ¬ (up (row j) <ᶠ N.toD (N.rnd s)) = true by rw [hN.cond, U.lt, h2]; decide)

/-- What a successful import holds. -/
theorem import_ok (hnan : isNaN (Fl.nan : D) = true) {J : PyJson} {N : XgbNums F D} {m : XgbModel D}
    {o : PyBooster F D} (h : fromXgboostModel J N m = .ok o) :
    ∃ trees, pyMap (fun t => xgboostTreeToNodes N.rnd (xgbFeatureMap m.names) t) m.dump = .ok trees ∧
      m.wrapper = true ∧
      o.booster.trees = trees.map (fun l => { nodes := l.map (PyNode.toNode N) }) ∧
      o.booster.baseScore = (if m.objective = "binary:logistic" then Fl.ln (m.baseScore / (1 - m.baseScore))
        else m.baseScore) ∧
      o.booster.missing = Fl.nan ∧ o.booster.predictionIteration = none ∧ o.featureNames = m.names := by
  rw [fromXgboostModel, except_bind_ok] at h
  obtain ⟨trees, ht, h⟩ := h
  split at h
  · next hw =>
    dsimp only at h
    rw [except_bind_ok] at h
    obtain ⟨d, hd, h⟩ := h
    rw [except_bind_ok] at h
    obtain ⟨d', hd', h⟩ := h
    rw [except_bind_ok] at h
    obtain ⟨b, hb, h⟩ := h
    rw [pyNew, pyInit_eq_ok] at hd
    obtain ⟨b0, hb0, rfl⟩ := hd
    obtain ⟨ob, sm, gp, em, mt, -, -, -, -, -, hnb, rfl, -⟩ := crateNew_eq_ok.1 hb0
    refine ⟨trees, ht, hw, ?_⟩
    set base := (if m.objective = "binary:logistic" then Fl.ln (m.baseScore / (1 - m.baseScore)) else m.baseScore)
      with hbase
    set B : Booster F D := { (crateArgs (F := F) (pyDefaults : PyParams D) ob sm gp em mt).insertMetadata
        "feature_importance_method" (J.dumps (.str (pyDefaults : PyParams D).featureImportanceMethod)) with
      baseScore := base, trees := trees.map (fun l => { nodes := l.map (PyNode.toNode N) }) } with hB
    have hj : jsonSet "trees" (.arr (trees.map fun l =>
        encTree ({ nodes := l.map (PyNode.toNode N) } : Tree F D))) (jsonSet "base_score" (Json.ofF64 base)
        ((crateArgs (F := F) (pyDefaults : PyParams D) ob sm gp em mt).insertMetadata
        "feature_importance_method" (J.dumps (.str (pyDefaults : PyParams D).featureImportanceMethod))).jsonDump) =
        B.jsonDump := by
      simp [jsonSet, Booster.jsonDump, boosterMembers, hB, Booster.insertMetadata, Function.comp_def]
    rw [hj] at hb
    have hb' : Booster.fromJson B.jsonDump = .ok b := by
      unfold crateLoad at hb
      split at hb
      · next h => cases hb; exact h
      · cases hb
    have hfin := (C27_loads_iff_partial hnan B
      (by intro c hc; cases hc; exact List.nodup_nil)
      (by simp [hB, crateArgs, Booster.insertMetadata, mapInsert])
      (by simp [hB, crateArgs, Booster.insertMetadata])
      (by simp [hB, crateArgs, Booster.insertMetadata, pyDefaults])).1 ⟨b, hb'⟩
    obtain ⟨g1, g2, g3, g4, g5, g6, g7, g8, g9, g10, g11, g12, g13⟩ := hfin
    have hrt := C26_round_trip B ⟨g1, g2, g3, g4, g5, g6, g7, g8, g9, g10, g11,
      .inr (by simp [hB, crateArgs, Booster.insertMetadata, pyDefaults]), g12, g13,
      (by intro c hc; cases hc; exact List.nodup_nil),
      (by simp [hB, crateArgs, Booster.insertMetadata, mapInsert]),
      (by simp [hB, crateArgs, Booster.insertMetadata]),
      (by simp [hB, crateArgs, Booster.insertMetadata, pyDefaults])⟩
    rw [hb'] at hrt
    have hbB : b = B := by injection hrt
    subst hbB
    have hd'' : d'.featureNames = none := by
      rw [pyNew, pyInit_eq_ok] at hd'
      obtain ⟨_, _, rfl⟩ := hd'
      rfl
    cases hn : m.names with
    | none =>
      rw [hn] at h
      cases h
      exact ⟨rfl, rfl, rfl, rfl, hd''⟩
    | some l =>
      rw [hn] at h
      cases h
      exact ⟨rfl, rfl, rfl, rfl, rfl⟩
  · cases h

/-- C97, the part that holds.  If the import succeeds, the features have distinct names, the first node of every
dumped tree has number 0 and the link of the objective is the identity or the objective is `binary:logistic`, then on
every matrix of `f32` numbers the imported model gives the sum of XGBoost's margin and the values of the leaves that
XGBoost finds (added in order, in `f64`). -/
theorem C97_predict_partial (U : UpOrder F D) (hnan : isNaN (Fl.nan : D) = true) (N : XgbNums F D)
    (J : PyJson) (m : XgbModel D) (o : PyBooster F D)
    (h : fromXgboostModel J N m = .ok o) (names : List String) (hnames : m.names = some names) (hn : names.Nodup)
    (hroot : ∀ t ∈ m.dump, t.id = 0) (hN : ∀ t ∈ m.dump, t.Exact N)
    (hobj : m.objective ∉ ["reg:logistic", "binary:logitraw", "count:poisson", "reg:gamma", "reg:tweedie",
      "survival:cox", "survival:aft"])
    (X : Matrix D) (rows : Nat → Nat → F)
    (hX : ∀ i, i < X.rows → ∀ j, j < names.length → X.entry i j = some (up (rows i j)))
    (vals : Nat → List Rat) (hv : ∀ i, i < X.rows → List.Forall₂ (XgbReaches N names (rows i)) m.dump (vals i)) :
    o.booster.predict X = .ok ((List.range X.rows).map fun i =>
      (vals i).foldl (fun acc v => acc + up (N.toF v)) (xgbMargin m.objective m.baseScore)) := by
  obtain ⟨trees, ht, -, h1, h2, h3, h4, -⟩ := import_ok hnan h
  have hbase : o.booster.baseScore = xgbMargin m.objective m.baseScore := by
    rw [h2, xgbMargin]
    simp only [List.mem_cons, List.not_mem_nil, or_false, not_or] at hobj
    obtain ⟨g1, g2, g3, g4, g5, g6, g7⟩ := hobj
    by_cases hb : m.objective = "binary:logistic"
    · simp [hb]
    · simp [hb, g1, g2, g3, g4, g5, g6, g7]
  rw [C19_prediction_iteration]
  have hused : o.booster.used = o.booster.trees.length := by simp [Booster.used, h4]
  refine ⟨hused.le, by simp, fun i v hiv => ?_⟩
  rw [List.getElem?_map] at hiv
  have hi : i < X.rows := by
    by_contra hc
    rw [List.getElem?_eq_none (by simpa using hc)] at hiv
    cases hiv
  rw [List.getElem?_range hi, Option.map_some, Option.some.injEq] at hiv
  subst hiv
  rw [hused, List.take_length, h1, hbase, h3]
  have ht := pyMap_eq_ok.1 ht
  rw [hnames] at ht
  have key : ∀ (dump : List XgbNode) (trees : List (List PyNode)) (vs : List Rat) (base : D),
      List.Forall₂ (fun a b => xgboostTreeToNodes N.rnd (xgbFeatureMap (some names)) a = .ok b) dump trees →
      (∀ t ∈ dump, t.id = 0) → (∀ t ∈ dump, t.Exact N) → List.Forall₂ (XgbReaches N names (rows i)) dump vs →
      PredictsRow base (trees.map fun l => ({ nodes := l.map (PyNode.toNode N) } : Tree F D)) (X.entry i) Fl.nan
        (vs.foldl (fun acc v => acc + up (N.toF v)) base) := by
    intro dump trees vs base ht
    induction ht generalizing vs base with
    | nil => intro _ _ hv; cases hv; exact ⟨[], .nil, rfl⟩
    | @cons t l dump trees hl _ ih =>
      intro hroot hN hv
      cases hv with
      | @cons _ v _ vs hv hvs =>
        obtain ⟨n, hn1, hn2⟩ := xgb_route U hnan N hn (hX i hi) hv (hN t (by simp)) ((C56_positions _ _ _ _).1 hl).2.2
        rw [hroot t (by simp)] at hn1
        obtain ⟨ls, hl1, hl2⟩ := ih vs (base + up (N.toF v)) (fun t ht => hroot t (by simp [ht]))
          (fun t ht => hN t (by simp [ht])) hvs
        exact ⟨n :: ls, .cons hn1 hl1, by rw [List.foldl_cons, hl2, List.foldl_cons, hn2]⟩
  exact key m.dump trees (vals i) _ ht hroot hN (hv i hi)

/-- C97 is false of native boosters: importing one always fails, because the configuration is read with
`get_booster`. -/
theorem C97_native (J : PyJson) (N : XgbNums F D) (m : XgbModel D) (hm : m.wrapper = false) :
    ∃ e, fromXgboostModel J N m = .error e := by
  rw [fromXgboostModel]
  cases pyMap (fun t => xgboostTreeToNodes N.rnd (xgbFeatureMap m.names) t) m.dump with
  | error e => exact ⟨e, rfl⟩
  | ok trees => exact ⟨_, by simp only [hm]; rfl⟩

end

/-- C97 is false of objectives with another link: XGBoost starts from the logarithm of the base score for
`count:poisson`, the imported model from the base score, and no number is its own logarithm. -/
theorem C97_link (J : PyJson) (N : XgbNums R R) (m : XgbModel R) (o : PyBooster R R)
    (h : fromXgboostModel J N m = .ok o) (hobj : m.objective = "count:poisson") (p : ℝ) (hp : 0 < p)
    (hb : m.baseScore = FX.fin p) : o.booster.baseScore ≠ xgbMargin m.objective m.baseScore := by
  obtain ⟨-, -, -, -, h2, -⟩ := import_ok rfl h
  rw [h2, hobj, if_neg (by decide), hb, xgbMargin, if_neg (by decide), if_pos (by decide), ln_real hp]
  intro he
  have he : p = Real.log p := by injection he
  have := Real.log_le_sub_one_of_pos hp
  linarith

/-- The numbers of `f32` and `f64`. -/
def floatNums : XgbNums F32 F64 :=
  { toF := f32, toD := f64, rnd := fun c => match f32 c with | .fin v => v | _ => 0 }

/-- A model with one tree. -/
def exXgbModel (objective : String) : XgbModel F64 :=
  { wrapper := true, dump := [exXgb], names := some ["f0", "f1"], baseScore := f64 (1/2), objective }

/-- The predictions of the imported model. -/
def exXgbPredict (objective : String) (X : Matrix F64) : Option (List F64) :=
  match (fromXgboostModel exJson floatNums (exXgbModel objective) : Except PyErr (PyBooster F32 F64)) with
  | .ok o => match o.booster.predict X with
    | .ok l => some l
    | _ => none
  | .error _ => none

theorem exXgbPredict_some {objective : String} {X : Matrix F64} {l : List F64} (h : exXgbPredict objective X = some l) :
    ∃ o, fromXgboostModel exJson floatNums (exXgbModel objective) = .ok o ∧ o.booster.predict X = .ok l := by
  unfold exXgbPredict at h
  split at h
  · next o ho =>
    split at h
    · next l' hl => cases h; exact ⟨o, ho, hl⟩
    · cases h
  · cases h

/-- A value a little below the condition `1/2`, nearer to it than any `f32`. -/
def nearHalf : F64 := f64 (1/2 - 1 / 2 ^ 40)

/-- C97 is false of data that are not `f32` numbers: XGBoost rounds the value to the condition and goes to `no`, the
imported model goes to `yes`. -/
theorem C97_double : ∃ (o : PyBooster F32 F64) (v : Rat) (p : F64),
    fromXgboostModel exJson floatNums (exXgbModel "reg:squarederror") = .ok o ∧
    XgbReaches floatNums ["f0", "f1"] (fun _ => down nearHalf) exXgb v ∧
    o.booster.predict { data := [nearHalf, nearHalf], rows := 1, cols := 2 } = .ok [p] ∧
    p ≠ f64 (1/2) + up (f32 v) := by
  obtain ⟨o, h1, h2⟩ := exXgbPredict_some (objective := "reg:squarederror")
    (X := { data := [nearHalf, nearHalf], rows := 1, cols := 2 }) (l := [f64 (3/2)]) (by decide +kernel)
  exact ⟨o, -1, f64 (3/2), h1, .no (j := 1) (x := .leaf 2 (-1) 4) rfl (by decide +kernel) (by decide +kernel) (by simp) rfl .leaf,
    h2, by decide +kernel⟩

/-- The theorem on two rows of `f32` numbers, one with a NaN. -/
example : ∃ o, fromXgboostModel exJson floatNums (exXgbModel "reg:squarederror") = .ok o ∧
    o.booster.predict { data := [f64 7, f64 7, f64 (3/4), FX.nan], rows := 2, cols := 2 } =
      .ok [f64 (-1/2), f64 (3/2)] := by
  obtain ⟨o, h1, _⟩ := exXgbPredict_some (objective := "reg:squarederror")
    (X := { data := [nearHalf, nearHalf], rows := 1, cols := 2 }) (l := [f64 (3/2)]) (by decide +kernel)
  refine ⟨o, h1, ?_⟩
  rw [C97_predict_partial (upOrder_fx _ _) rfl floatNums exJson _ o h1 ["f0", "f1"] rfl (by decide) (by simp [exXgbModel, exXgb, XgbNode.id])
    ?_ (by decide) _ (fun i j => if j = 0 then f32 7 else if i = 0 then f32 (3/4) else FX.nan) ?_
    (fun i => if i = 0 then [-1] else [1]) ?_]
  · decide +kernel
  · intro t ht i d f s g c m y n ch hx
    simp only [exXgbModel, List.mem_singleton] at ht
    subst ht
    simp [exXgb, XgbNode.all, XgbNode.all.go] at hx
    obtain ⟨-, -, -, rfl, -⟩ := hx
    decide +kernel
  · intro i hi j hj
    have hi : i = 0 ∨ i = 1 := by simp at hi; omega
    have hj : j = 0 ∨ j = 1 := by simp at hj; omega
    rcases hi with rfl | rfl <;> rcases hj with rfl | rfl <;> decide +kernel
  · intro i hi
    have hi : i = 0 ∨ i = 1 := by simp at hi; omega
    rcases hi with rfl | rfl
    · exact .cons (.no (j := 1) (x := .leaf 2 (-1) 4) rfl (by decide +kernel) (by decide +kernel) (by simp) rfl .leaf) .nil
    · exact .cons (.missing (j := 1) (x := .leaf 1 1 6) rfl (by decide +kernel) (by simp) rfl .leaf) .nil

example : exXgb.Valid ["f0", "f1"] := by
  intro x hx i d f s g c m y n ch he
  subst he
  simp [exXgb, XgbNode.all, XgbNode.all.go] at hx
  obtain ⟨-, -, rfl, -, -, -, rfl, rfl, rfl, rfl⟩ := hx
  simp [XgbNode.id]

/-- With `count:poisson` the import succeeds, from the base score as it is. -/
example : exXgbPredict "count:poisson" { data := [f64 7, f64 1], rows := 1, cols := 2 } = some [f64 (-1/2)] := by
  decide +kernel

end

end Verif
