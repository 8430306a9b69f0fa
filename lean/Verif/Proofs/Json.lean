import Verif.Spec.Json

/-!
# Reading back what was written
-/

namespace Verif

open scoped Verif
open Json

set_option linter.unusedSectionVars false

variable {F D : Type} [Fl F] [Fl D]

theorem toF32_ofF32 {x : F} (h : isFinite x = true) : toF32 (ofF32 x : Json F D) = some x := by
  rw [ofF32, if_pos h]; rfl

theorem toF64_ofF64 {x : D} (h : isFinite x = true) : toF64 (ofF64 x : Json F D) = some x := by
  rw [ofF64, if_pos h]; rfl

theorem ofName_name_objective (o : ObjectiveType) : ObjectiveType.ofName o.name = some o := by
  cases o <;> rfl
theorem ofName_name_metric (o : Metric) : Metric.ofName o.name = some o := by
  cases o <;> rfl
theorem ofName_name_sample (o : SampleMethod) : SampleMethod.ofName o.name = some o := by
  cases o <;> rfl
theorem ofName_name_policy (o : GrowPolicy) : GrowPolicy.ofName o.name = some o := by
  cases o <;> rfl
theorem ofName_name_treatment (o : MissingNodeTreatment) :
    MissingNodeTreatment.ofName o.name = some o := by
  cases o <;> rfl
theorem ofName_name_constraint (o : Constraint) : Constraint.ofName o.name = some o := by
  cases o <;> rfl

theorem toOption_ofOption {α : Type} (g : α → Json F D) (f : Json F D → Option α)
    (hg : ∀ a, g a ≠ .null) (o : Option α) (h : ∀ a, o = some a → f (g a) = some a) :
    toOption f (Json.ofOption g o) = some o := by
  cases o with
  | none => rfl
  | some a =>
    have h1 := h a rfl
    have h2 := hg a
    rw [Json.ofOption]
    generalize g a = j at h1 h2
    cases j with
    | null => exact absurd rfl h2
    | _ => rw [toOption, h1]; rfl; intro hc; cases hc

theorem mapM_enc {α β : Type} (g : α → β) (f : β → Option α) (l : List α)
    (h : ∀ a ∈ l, f (g a) = some a) : (l.map g).mapM f = some l := by
  induction l with
  | nil => rfl
  | cons a l ih =>
    rw [List.map_cons, List.mapM_cons, h a (by simp), ih fun x hx => h x (by simp [hx])]
    rfl

theorem toList_enc {α : Type} (g : α → Json F D) (f : Json F D → Option α) (l : List α)
    (h : ∀ a ∈ l, f (g a) = some a) : toList f (.arr (l.map g)) = some l := mapM_enc g f l h

theorem members_obj {known : List String} {l : List (String × Json F D)}
    (h : ((l.map Prod.fst).filter (· ∈ known)).Nodup) : members known (.obj l) = some l := by
  rw [members, if_pos h]

theorem mapInsert_append {K V : Type} [DecidableEq K] (m : List (K × V)) (k : K) (v : V)
    (h : k ∉ m.map Prod.fst) : mapInsert m k v = m ++ [(k, v)] := by
  induction m with
  | nil => rfl
  | cons p m ih =>
    simp only [List.map_cons, List.mem_cons, not_or] at h
    rw [mapInsert, if_neg (fun e => h.1 e.symm), ih h.2]; rfl

theorem foldl_mapInsert {K V : Type} [DecidableEq K] (l : List (K × V)) :
    ∀ m : List (K × V), ((m ++ l).map Prod.fst).Nodup →
      l.foldl (fun m p => mapInsert m p.1 p.2) m = m ++ l := by
  induction l with
  | nil => intro m _; simp
  | cons p l ih =>
    intro m h
    have hp : p.1 ∉ m.map Prod.fst := by
      rw [List.map_append, List.map_cons, List.nodup_append] at h
      intro hc
      exact h.2.2 _ hc p.1 (by simp) rfl
    rw [List.foldl_cons, mapInsert_append _ _ _ hp, ih]
    · simp
    · simpa using h

theorem foldl_setInsert (l : List Nat) : ∀ m : List Nat, (m ++ l).Nodup →
    l.foldl setInsert m = m ++ l := by
  induction l with
  | nil => intro m _; simp
  | cons n l ih =>
    intro m h
    have hp : n ∉ m := by
      rw [List.nodup_append] at h
      intro hc
      exact h.2.2 _ hc n (by simp) rfl
    rw [List.foldl_cons, setInsert, if_neg hp, ih]
    · simp
    · simpa using h

theorem decConstraints_enc (m : ConstraintMap) (h : (m.map Prod.fst).Nodup) :
    decConstraints (encConstraints m : Json F D) = some m := by
  rw [encConstraints, decConstraints, mapM_enc _ _ m]
  · simp only [Option.bind_eq_bind, Option.bind_some]
    rw [foldl_mapInsert m [] (by simpa using h)]; rfl
  · rintro ⟨k, c⟩ -
    simp only [toVariant, toStr, Option.bind_eq_bind, Option.bind_some, ofName_name_constraint]
    rw [show (Nat.repr k).toNat? = some k from Nat.toNat?_repr k]; rfl

theorem decMetadata_enc (m : List (String × String)) (h : (m.map Prod.fst).Nodup) :
    decMetadata (encMetadata m : Json F D) = some m := by
  rw [encMetadata, decMetadata, mapM_enc _ _ m]
  · simp only [Option.bind_eq_bind, Option.bind_some]
    rw [foldl_mapInsert m [] (by simpa using h)]; rfl
  · rintro ⟨k, c⟩ -
    rfl

theorem decSet_enc (s : List Nat) (h : s.Nodup) : decSet (encSet s : Json F D) = some s := by
  rw [encSet, decSet, toList_enc _ _ s fun _ _ => rfl]
  simp only [Option.map_some]
  rw [foldl_setInsert s [] (by simpa using h)]; rfl

theorem decNode_enc (n : Node F D) (h : n.Finite) : decNode (encNode n) = some n := by
  obtain ⟨h1, h2, h3, h4⟩ := h
  rw [encNode, decNode, members_obj (by simp only [List.map]; decide +kernel)]
  simp only [field, List.lookup, toNat, Json.toBool, toF32_ofF32 h1, toF32_ofF32 h2, toF64_ofF64 h3,
    toF32_ofF32 h4, Option.bind_eq_bind, Option.bind_some, String.reduceBEq, beq_self_eq_true]

theorem decTree_enc (t : Tree F D) (h : ∀ n ∈ t.nodes, n.Finite) : decTree (encTree t) = some t := by
  rw [encTree, decTree, members_obj (by simp only [List.map]; decide +kernel)]
  simp only [field, List.lookup, Option.bind_eq_bind, Option.bind_some, beq_self_eq_true,
    toList_enc encNode decNode t.nodes fun n hn => decNode_enc n (h n hn)]

theorem decMatrix_enc (m : RowMajorMatrix D) (h : ∀ x ∈ m.data, isFinite x = true) :
    decMatrix (encMatrix m : Json F D) = some m := by
  rw [encMatrix, decMatrix, members_obj (by simp only [List.map]; decide +kernel)]
  simp only [field, List.lookup, Option.bind_eq_bind, Option.bind_some, beq_self_eq_true,
    String.reduceBEq, toNat,
    toList_enc ofF64 toF64 m.data fun x hx => toF64_ofF64 (h x hx)]

theorem field_eq {α : Type} {l : List (String × Json F D)} {r : List String} {b : Booster F D}
    (hl : ∀ n ∈ boosterNames, l.lookup n = if n ∈ r then none else (boosterMembers b).lookup n)
    (hr : ∀ n ∈ r, n ∈ defaulted) {name : String} {j : Json F D} {f : Json F D → Option α} {x : α}
    (hn : name ∈ boosterNames) (hd : name ∉ defaulted) (hj : (boosterMembers b).lookup name = some j)
    (hf : f j = some x) : field l name f = some x := by
  rw [field, hl name hn, if_neg fun h => hd (hr _ h), hj]; exact hf

theorem fieldD_eq {α : Type} {l : List (String × Json F D)} {r : List String} {b : Booster F D}
    (hl : ∀ n ∈ boosterNames, l.lookup n = if n ∈ r then none else (boosterMembers b).lookup n)
    {name : String} {j : Json F D} {f : Json F D → Option α} {x d : α}
    (hn : name ∈ boosterNames) (hj : (boosterMembers b).lookup name = some j)
    (hf : f j = some x) : fieldD l name d f = some (if name ∈ r then d else x) := by
  rw [fieldD, hl name hn]
  by_cases h : name ∈ r
  · rw [if_pos h, if_pos h]
  · rw [if_neg h, if_neg h, hj]; exact hf

theorem parseMissing_enc (x : D) (h : isFinite x = true ∨ x = Fl.nan) :
    parseMissing (ofF64 x : Json F D) = some x := by
  by_cases hf : isFinite x = true
  · rw [ofF64, if_pos hf]; rfl
  · rw [ofF64, if_neg hf, parseMissing]
    exact congrArg some (h.resolve_left hf).symm

theorem ofOption_nat (o : Option Nat) :
    toOption toNat (Json.ofOption Json.nat o : Json F D) = some o :=
  toOption_ofOption _ _ (fun _ h => by cases h) _ fun _ _ => rfl

theorem some_bind' {α β : Type} (a : α) (f : α → Option β) : (some a >>= f) = f a := rfl

theorem decBooster_of_lookup (b : Booster F D) (hb : b.Storable) (l : List (String × Json F D))
    (r : List String) (hr : ∀ n ∈ r, n ∈ defaulted)
    (hd : ((l.map Prod.fst).filter (· ∈ boosterNames)).Nodup)
    (hl : ∀ n ∈ boosterNames, l.lookup n = if n ∈ r then none else (boosterMembers b).lookup n) :
    decBooster (.obj l) = some (b.withDefaults r) := by
  have F1 : ∀ {α : Type} {name : String} {j : Json F D} {f : Json F D → Option α} {x : α},
      name ∈ boosterNames → name ∉ defaulted → (boosterMembers b).lookup name = some j →
      f j = some x → field l name f = some x := field_eq hl hr
  have F2 : ∀ {α : Type} {name : String} {j : Json F D} {f : Json F D → Option α} {x : α} (d : α),
      name ∈ boosterNames → (boosterMembers b).lookup name = some j →
      f j = some x → fieldD l name d f = some (if name ∈ r then d else x) :=
    fun d => fieldD_eq hl
  have hnb : toU16 (Json.nat b.nbins : Json F D) = some b.nbins := by rw [toU16, if_pos hb.nbins]
  rw [decBooster, members_obj hd, some_bind']
  rw [F1 (name := "objective_type") (f := toVariant ObjectiveType.ofName) (by decide) (by decide) rfl (ofName_name_objective b.objectiveType),
    some_bind',
    F1 (name := "iterations") (f := toNat) (by decide) (by decide) rfl rfl, some_bind',
    F1 (name := "learning_rate") (by decide) (by decide) rfl (toF32_ofF32 hb.learningRate), some_bind',
    F1 (name := "max_depth") (f := toNat) (by decide) (by decide) rfl rfl, some_bind',
    F1 (name := "max_leaves") (f := toNat) (by decide) (by decide) rfl rfl, some_bind',
    F2 (name := "l1") 0 (by decide) rfl (toF32_ofF32 hb.l1), some_bind',
    F1 (name := "l2") (by decide) (by decide) rfl (toF32_ofF32 hb.l2), some_bind',
    F1 (name := "gamma") (by decide) (by decide) rfl (toF32_ofF32 hb.gamma), some_bind',
    F2 (name := "max_delta_step") 0 (by decide) rfl (toF32_ofF32 hb.maxDeltaStep), some_bind',
    F1 (name := "min_leaf_weight") (by decide) (by decide) rfl (toF32_ofF32 hb.minLeafWeight), some_bind',
    F1 (name := "base_score") (by decide) (by decide) rfl (toF64_ofF64 hb.baseScore), some_bind',
    F1 (name := "nbins") (by decide) (by decide) rfl hnb, some_bind',
    F1 (name := "parallel") (f := Json.toBool) (by decide) (by decide) rfl rfl, some_bind',
    F1 (name := "allow_missing_splits") (f := Json.toBool) (by decide) (by decide) rfl rfl, some_bind',
    F2 (name := "monotone_constraints") (f := toOption decConstraints) none (by decide) rfl
      (toOption_ofOption _ _ (fun _ h => by cases h) _ fun m hm => decConstraints_enc m (hb.constraints m hm)),
    some_bind',
    F1 (name := "subsample") (by decide) (by decide) rfl (toF32_ofF32 hb.subsample), some_bind',
    F2 (name := "top_rate") _ (by decide) rfl (toF64_ofF64 hb.topRate), some_bind',
    F2 (name := "other_rate") _ (by decide) rfl (toF64_ofF64 hb.otherRate), some_bind',
    F2 (name := "colsample_bytree") _ (by decide) rfl (toF64_ofF64 hb.colsampleBytree), some_bind',
    F1 (name := "seed") (f := toNat) (by decide) (by decide) rfl rfl, some_bind',
    F1 (name := "missing") (by decide) (by decide) rfl (parseMissing_enc _ hb.missing), some_bind',
    F1 (name := "create_missing_branch") (f := Json.toBool) (by decide) (by decide) rfl rfl, some_bind',
    F2 (name := "sample_method") (f := toVariant SampleMethod.ofName) _ (by decide) rfl (ofName_name_sample b.sampleMethod), some_bind',
    F2 (name := "grow_policy") (f := toVariant GrowPolicy.ofName) _ (by decide) rfl (ofName_name_policy b.growPolicy), some_bind',
    F2 (name := "evaluation_metric") (f := toOption (toVariant Metric.ofName)) _ (by decide) rfl
      (toOption_ofOption _ _ (fun _ h => by cases h) _ fun m _ => ofName_name_metric m), some_bind',
    F2 (name := "early_stopping_rounds") _ (by decide) rfl (ofOption_nat _), some_bind',
    F2 (name := "initialize_base_score") (f := Json.toBool) _ (by decide) rfl rfl, some_bind',
    F2 (name := "terminate_missing_features") _ (by decide) rfl (decSet_enc _ hb.terminate), some_bind',
    F2 (name := "evaluation_history") (f := toOption decMatrix) _ (by decide) rfl
      (toOption_ofOption _ _ (fun _ h => by cases h) _ fun m hm => decMatrix_enc m (hb.history m hm)),
    some_bind',
    F2 (name := "best_iteration") _ (by decide) rfl (ofOption_nat _), some_bind',
    F2 (name := "prediction_iteration") _ (by decide) rfl (ofOption_nat _), some_bind',
    F2 (name := "missing_node_treatment") (f := toVariant MissingNodeTreatment.ofName) _ (by decide) rfl (ofName_name_treatment b.missingNodeTreatment),
    some_bind',
    F2 (name := "log_iterations") (f := toNat) _ (by decide) rfl rfl, some_bind',
    F2 (name := "force_children_to_bound_parent") (f := Json.toBool) _ (by decide) rfl rfl, some_bind',
    F1 (name := "trees") (by decide) (by decide) rfl
      (toList_enc encTree decTree b.trees fun t ht => decTree_enc t (hb.trees t ht)), some_bind',
    F1 (name := "metadata") (by decide) (by decide) rfl (decMetadata_enc _ hb.metadata), some_bind']
  rfl

/-- What each member of the loaded booster was read from. -/
structure Decoded (l : List (String × Json F D)) (b : Booster F D) : Prop where
  objectiveType : field l "objective_type" (toVariant ObjectiveType.ofName) = some b.objectiveType
  iterations : field l "iterations" toNat = some b.iterations
  learningRate : field l "learning_rate" toF32 = some b.learningRate
  maxDepth : field l "max_depth" toNat = some b.maxDepth
  maxLeaves : field l "max_leaves" toNat = some b.maxLeaves
  l1 : fieldD l "l1" 0 toF32 = some b.l1
  l2 : field l "l2" toF32 = some b.l2
  gamma : field l "gamma" toF32 = some b.gamma
  maxDeltaStep : fieldD l "max_delta_step" 0 toF32 = some b.maxDeltaStep
  minLeafWeight : field l "min_leaf_weight" toF32 = some b.minLeafWeight
  baseScore : field l "base_score" toF64 = some b.baseScore
  nbins : field l "nbins" toU16 = some b.nbins
  parallel : field l "parallel" toBool = some b.parallel
  allowMissingSplits : field l "allow_missing_splits" toBool = some b.allowMissingSplits
  monotoneConstraints : fieldD l "monotone_constraints" none (toOption decConstraints) = some b.monotoneConstraints
  subsample : field l "subsample" toF32 = some b.subsample
  topRate : fieldD l "top_rate" (Fl.ofNat 1 / Fl.ofNat 10) toF64 = some b.topRate
  otherRate : fieldD l "other_rate" (Fl.ofNat 2 / Fl.ofNat 10) toF64 = some b.otherRate
  colsampleBytree : fieldD l "colsample_bytree" 1 toF64 = some b.colsampleBytree
  seed : field l "seed" toNat = some b.seed
  missing : field l "missing" parseMissing = some b.missing
  createMissingBranch : field l "create_missing_branch" toBool = some b.createMissingBranch
  sampleMethod : fieldD l "sample_method" .none (toVariant SampleMethod.ofName) = some b.sampleMethod
  growPolicy : fieldD l "grow_policy" .depthWise (toVariant GrowPolicy.ofName) = some b.growPolicy
  evaluationMetric : fieldD l "evaluation_metric" none (toOption (toVariant Metric.ofName)) = some b.evaluationMetric
  earlyStoppingRounds : fieldD l "early_stopping_rounds" none (toOption toNat) = some b.earlyStoppingRounds
  initializeBaseScore : fieldD l "initialize_base_score" false toBool = some b.initializeBaseScore
  terminateMissingFeatures : fieldD l "terminate_missing_features" [] decSet = some b.terminateMissingFeatures
  evaluationHistory : fieldD l "evaluation_history" none (toOption decMatrix) = some b.evaluationHistory
  bestIteration : fieldD l "best_iteration" none (toOption toNat) = some b.bestIteration
  predictionIteration : fieldD l "prediction_iteration" none (toOption toNat) = some b.predictionIteration
  missingNodeTreatment : fieldD l "missing_node_treatment" .assignToParent (toVariant MissingNodeTreatment.ofName) = some b.missingNodeTreatment
  logIterations : fieldD l "log_iterations" 0 toNat = some b.logIterations
  forceChildrenToBoundParent : fieldD l "force_children_to_bound_parent" false toBool = some b.forceChildrenToBoundParent
  trees : field l "trees" (toList decTree) = some b.trees
  metadata : field l "metadata" decMetadata = some b.metadata

theorem bind_some_inv {α β : Type} {o : Option α} {f : α → Option β} {y : β}
    (h : (o >>= f) = some y) : ∃ a, o = some a ∧ f a = some y := Option.bind_eq_some_iff.1 h

theorem decBooster_inv {l : List (String × Json F D)} {b : Booster F D}
    (h : decBooster (.obj l) = some b) : Decoded l b := by
  rw [decBooster] at h
  obtain ⟨l', hl, k⟩ := bind_some_inv h
  clear h
  obtain rfl : l = l' := by
    rw [members] at hl
    split at hl
    · exact Option.some.inj hl
    · cases hl
  obtain ⟨x0, h0, k⟩ := bind_some_inv k
  obtain ⟨x1, h1, k⟩ := bind_some_inv k
  obtain ⟨x2, h2, k⟩ := bind_some_inv k
  obtain ⟨x3, h3, k⟩ := bind_some_inv k
  obtain ⟨x4, h4, k⟩ := bind_some_inv k
  obtain ⟨x5, h5, k⟩ := bind_some_inv k
  obtain ⟨x6, h6, k⟩ := bind_some_inv k
  obtain ⟨x7, h7, k⟩ := bind_some_inv k
  obtain ⟨x8, h8, k⟩ := bind_some_inv k
  obtain ⟨x9, h9, k⟩ := bind_some_inv k
  obtain ⟨x10, h10, k⟩ := bind_some_inv k
  obtain ⟨x11, h11, k⟩ := bind_some_inv k
  obtain ⟨x12, h12, k⟩ := bind_some_inv k
  obtain ⟨x13, h13, k⟩ := bind_some_inv k
  obtain ⟨x14, h14, k⟩ := bind_some_inv k
  obtain ⟨x15, h15, k⟩ := bind_some_inv k
  obtain ⟨x16, h16, k⟩ := bind_some_inv k
  obtain ⟨x17, h17, k⟩ := bind_some_inv k
  obtain ⟨x18, h18, k⟩ := bind_some_inv k
  obtain ⟨x19, h19, k⟩ := bind_some_inv k
  obtain ⟨x20, h20, k⟩ := bind_some_inv k
  obtain ⟨x21, h21, k⟩ := bind_some_inv k
  obtain ⟨x22, h22, k⟩ := bind_some_inv k
  obtain ⟨x23, h23, k⟩ := bind_some_inv k
  obtain ⟨x24, h24, k⟩ := bind_some_inv k
  obtain ⟨x25, h25, k⟩ := bind_some_inv k
  obtain ⟨x26, h26, k⟩ := bind_some_inv k
  obtain ⟨x27, h27, k⟩ := bind_some_inv k
  obtain ⟨x28, h28, k⟩ := bind_some_inv k
  obtain ⟨x29, h29, k⟩ := bind_some_inv k
  obtain ⟨x30, h30, k⟩ := bind_some_inv k
  obtain ⟨x31, h31, k⟩ := bind_some_inv k
  obtain ⟨x32, h32, k⟩ := bind_some_inv k
  obtain ⟨x33, h33, k⟩ := bind_some_inv k
  obtain ⟨x34, h34, k⟩ := bind_some_inv k
  obtain ⟨x35, h35, k⟩ := bind_some_inv k
  obtain rfl := Option.some.inj k
  exact ⟨h0, h1, h2, h3, h4, h5, h6, h7, h8, h9, h10, h11, h12, h13, h14, h15, h16, h17, h18, h19, h20, h21, h22, h23, h24, h25, h26, h27, h28, h29, h30, h31, h32, h33, h34, h35⟩

end Verif
