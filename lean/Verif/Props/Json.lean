import Verif.Proofs.Json
import Verif.Spec.ExampleFit

/-!
# C26, C27 and the JSON part of C54
-/

namespace Verif

open scoped Verif
open Json

variable {F D : Type} [Fl F] [Fl D]

set_option linter.unusedSectionVars false

/-! ### C26 -/

theorem lookup_filter {V : Type} (p : String → Bool) (n : String) (hn : p n = true)
    (l : List (String × V)) : (l.filter fun x => p x.1).lookup n = l.lookup n := by
  induction l with
  | nil => rfl
  | cons x l ih =>
    obtain ⟨k, v⟩ := x
    by_cases hk : n = k
    · subst hk; simp [hn]
    · have h2 : (n == k) = false := by simpa using hk
      by_cases hp : p k = true
      · rw [List.filter_cons_of_pos (by exact hp)]; simp only [List.lookup, h2, ih]
      · rw [List.filter_cons_of_neg (by exact hp), ih]; simp only [List.lookup, h2]

theorem lookup_iff_mem {V : Type} (l : List (String × V)) (h : (l.map Prod.fst).Nodup) (n : String)
    (v : V) : l.lookup n = some v ↔ (n, v) ∈ l := by
  induction l with
  | nil => simp
  | cons x l ih =>
    obtain ⟨k, u⟩ := x
    rw [List.map_cons, List.nodup_cons] at h
    by_cases hk : n = k
    · subst hk
      simp only [List.lookup, beq_self_eq_true, Option.some.injEq, List.mem_cons, Prod.mk.injEq,
        true_and]
      constructor
      · rintro rfl; exact .inl rfl
      · rintro (e | e)
        · exact e.symm
        · exact absurd (List.mem_map_of_mem (f := Prod.fst) e) h.1
    · have h2 : (n == k) = false := by simpa using hk
      simp only [List.lookup, h2, ih h.2, List.mem_cons, Prod.mk.injEq, hk, false_and, false_or]

theorem lookup_perm {V : Type} {l l' : List (String × V)} (h : l.Perm l')
    (hd : (l'.map Prod.fst).Nodup) (n : String) : l.lookup n = l'.lookup n := by
  have hd' : (l.map Prod.fst).Nodup := (h.map Prod.fst).nodup_iff.2 hd
  apply Option.ext
  intro v
  rw [lookup_iff_mem _ hd', lookup_iff_mem _ hd, h.mem_iff]

theorem boosterMembers_keys (b : Booster F D) : (boosterMembers b).map Prod.fst = boosterNames := rfl

/-- C26.  Loading accepts the dumped document with its members in any order, with any unknown members
added, and with any of the members that have a documented default removed: the result is the dumped
booster with the removed members set to their defaults. -/
theorem C26_load (b : Booster F D) (hb : b.Storable) (removed : List String)
    (hr : ∀ n ∈ removed, n ∈ defaulted) (extra l : List (String × Json F D))
    (he : ∀ p ∈ extra, p.1 ∉ boosterNames)
    (hl : l.Perm (b.jsonDump.fields.filter (fun p => p.1 ∉ removed) ++ extra)) :
    Booster.fromJson (.obj l) = .ok (b.withDefaults removed) := by
  have hk : (l.filter fun x => decide (x.1 ∈ boosterNames)).Perm
      ((boosterMembers b).filter fun p => p.1 ∉ removed) := by
    refine (hl.filter _).trans (List.Perm.of_eq ?_)
    have e1 : extra.filter (fun x => decide (x.1 ∈ boosterNames)) = [] := by
      rw [List.filter_eq_nil_iff]
      intro p hp; simpa using he p hp
    rw [List.filter_append, e1, List.append_nil, List.filter_eq_self.2]
    · rfl
    · intro p hp
      have : p.1 ∈ (boosterMembers b).map Prod.fst :=
        List.mem_map_of_mem (List.mem_filter.1 hp).1
      rw [boosterMembers_keys] at this
      simpa using this
  have hnd : (((boosterMembers b).filter fun p => p.1 ∉ removed).map Prod.fst).Nodup := by
    apply List.Nodup.sublist ((List.filter_sublist).map Prod.fst)
    rw [boosterMembers_keys]; decide +kernel
  have hdec : decBooster (.obj l) = some (b.withDefaults removed) := by
    apply decBooster_of_lookup b hb l removed hr
    · have e : (l.map Prod.fst).filter (fun x => decide (x ∈ boosterNames)) =
          (l.filter fun x => decide (x.1 ∈ boosterNames)).map Prod.fst := by
        rw [List.filter_map]; rfl
      rw [e]
      exact (hk.map Prod.fst).nodup_iff.2 hnd
    · intro n hn
      rw [← lookup_filter (fun x => decide (x ∈ boosterNames)) n (by simpa using hn) l,
        lookup_perm hk hnd]
      by_cases h : n ∈ removed
      · rw [if_pos h]
        apply Option.eq_none_iff_forall_ne_some.2
        intro v hv
        rw [lookup_iff_mem _ hnd] at hv
        have := (List.mem_filter.1 hv).2
        simp [h] at this
      · rw [if_neg h]
        exact lookup_filter (fun x => decide (x ∉ removed)) n (by simpa using h) (boosterMembers b)
  rw [Booster.fromJson, hdec]

theorem withDefaults_nil (b : Booster F D) : b.withDefaults [] = b := by
  simp [Booster.withDefaults]

/-- C26.  Dumping and loading gives back the same booster. -/
theorem C26_round_trip (b : Booster F D) (hb : b.Storable) :
    Booster.fromJson b.jsonDump = .ok b := by
  have := C26_load b hb [] (by simp) [] (boosterMembers b) (by simp)
    (by simp only [Booster.jsonDump, Json.fields, List.append_nil]
        rw [List.filter_eq_self.2]; simp)
  rw [withDefaults_nil] at this
  exact this

/-- C26.  A document without a member that has no default is refused. -/
theorem C26_required (l : List (String × Json F D)) (n : String) (hn : n ∈ boosterNames)
    (hd : n ∉ defaulted) (hl : l.lookup n = none) :
    Booster.fromJson (.obj l) = .error .unableToRead := by
  rw [Booster.fromJson]
  cases h : decBooster (.obj l) with
  | none => rfl
  | some b =>
    exfalso
    obtain ⟨h1, h2, h3, h4, h5, -, h6, h7, -, h8, h9, h10, h11, h12, -, h13, -, -, -, h14, h15, h16,
      -, -, -, -, -, -, -, -, -, -, -, -, h17, h18⟩ := decBooster_inv h
    simp only [field] at h1 h2 h3 h4 h5 h6 h7 h8 h9 h10 h11 h12 h13 h14 h15 h16 h17 h18
    have : n ∈ boosterNames.filter (fun x => x ∉ defaulted) := List.mem_filter.2 ⟨hn, by simpa using hd⟩
    rw [show boosterNames.filter (fun x => x ∉ defaulted) = ["objective_type", "iterations",
      "learning_rate", "max_depth", "max_leaves", "l2", "gamma", "min_leaf_weight", "base_score",
      "nbins", "parallel", "allow_missing_splits", "subsample", "seed", "missing",
      "create_missing_branch", "trees", "metadata"] by decide +kernel] at this
    simp only [List.mem_cons, List.not_mem_nil, or_false] at this
    rcases this with rfl | rfl | rfl | rfl | rfl | rfl | rfl | rfl | rfl | rfl | rfl | rfl | rfl | rfl |
      rfl | rfl | rfl | rfl <;> simp_all only [reduceCtorEq]

/-! ### C54 -/

/-- C54.  Metadata survives the round trip. -/
theorem C54_json (b : Booster F D) (hb : b.Storable) :
    ∃ b', Booster.fromJson b.jsonDump = .ok b' ∧ ∀ k, b'.getMetadata k = b.getMetadata k :=
  ⟨b, C26_round_trip b hb, fun _ => rfl⟩

/-! ### C27 -/

omit [Fl D] in
theorem toF32_some {x y : F} (h : toF32 (ofF32 x : Json F D) = some y) : isFinite x = true := by
  by_cases hx : isFinite x = true
  · exact hx
  · rw [ofF32, if_neg hx] at h; cases h

omit [Fl F] in
theorem toF64_some {x y : D} (h : toF64 (ofF64 x : Json F D) = some y) : isFinite x = true := by
  by_cases hx : isFinite x = true
  · exact hx
  · rw [ofF64, if_neg hx] at h; cases h

theorem mapM_some {α β γ : Type} (g : α → β) (f : β → Option γ) (l : List α) (l' : List γ)
    (h : (l.map g).mapM f = some l') : ∀ a ∈ l, ∃ x, f (g a) = some x := by
  induction l generalizing l' with
  | nil => simp
  | cons a l ih =>
    rw [List.map_cons, List.mapM_cons] at h
    obtain ⟨x, hx, h⟩ := bind_some_inv h
    obtain ⟨y, hy, -⟩ := bind_some_inv h
    intro b hb
    rcases List.mem_cons.1 hb with rfl | hb
    · exact ⟨x, hx⟩
    · exact ih y hy b hb

theorem decNode_some {n n' : Node F D} (h : decNode (encNode n) = some n') : n.Finite := by
  rw [encNode, decNode, members_obj (by simp only [List.map]; decide +kernel)] at h
  obtain ⟨l, e, h⟩ := bind_some_inv h
  obtain rfl := Option.some.inj e
  obtain ⟨x0, h0, h⟩ := bind_some_inv h
  obtain ⟨x1, h1, h⟩ := bind_some_inv h
  obtain ⟨x2, h2, h⟩ := bind_some_inv h
  obtain ⟨x3, h3, h⟩ := bind_some_inv h
  obtain ⟨x4, h4, h⟩ := bind_some_inv h
  obtain ⟨x5, h5, h⟩ := bind_some_inv h
  obtain ⟨x6, h6, h⟩ := bind_some_inv h
  exact ⟨toF32_some (D := D) h1, toF32_some (D := D) h2, toF64_some (F := F) h4, toF32_some (D := D) h6⟩

theorem decTree_some {t t' : Tree F D} (h : decTree (encTree t) = some t') :
    ∀ n ∈ t.nodes, n.Finite := by
  rw [encTree, decTree, members_obj (by simp only [List.map]; decide +kernel)] at h
  obtain ⟨l, e, h⟩ := bind_some_inv h
  obtain rfl := Option.some.inj e
  obtain ⟨x0, h0, h⟩ := bind_some_inv h
  intro n hn
  obtain ⟨n', hn'⟩ := mapM_some encNode decNode t.nodes x0 h0 n hn
  exact decNode_some hn'

theorem decMatrix_some {m m' : RowMajorMatrix D} (h : decMatrix (encMatrix m : Json F D) = some m') :
    ∀ x ∈ m.data, isFinite x = true := by
  rw [encMatrix, decMatrix, members_obj (by simp only [List.map]; decide +kernel)] at h
  obtain ⟨l, e, h⟩ := bind_some_inv h
  obtain rfl := Option.some.inj e
  obtain ⟨x0, h0, h⟩ := bind_some_inv h
  intro n hn
  obtain ⟨n', hn'⟩ := mapM_some ofF64 toF64 m.data x0 h0 n hn
  exact toF64_some hn'

/-- The floats other than `missing` that are written. -/
structure Booster.FloatsFinite (b : Booster F D) : Prop where
  learningRate : isFinite b.learningRate = true
  l1 : isFinite b.l1 = true
  l2 : isFinite b.l2 = true
  gamma : isFinite b.gamma = true
  maxDeltaStep : isFinite b.maxDeltaStep = true
  minLeafWeight : isFinite b.minLeafWeight = true
  baseScore : isFinite b.baseScore = true
  subsample : isFinite b.subsample = true
  topRate : isFinite b.topRate = true
  otherRate : isFinite b.otherRate = true
  colsampleBytree : isFinite b.colsampleBytree = true
  trees : ∀ t ∈ b.trees, ∀ n ∈ t.nodes, n.Finite
  history : ∀ h, b.evaluationHistory = some h → ∀ x ∈ h.data, isFinite x = true

/-- C27.  Exactly the boosters all of whose floats other than `missing` are finite can be loaded after
dumping; a NaN metric in the evaluation history or an infinite base score is refused. -/
theorem C27_loads_iff_partial (hnan : isNaN (Fl.nan : D) = true) (b : Booster F D)
    (hc : ∀ m, b.monotoneConstraints = some m → (m.map Prod.fst).Nodup)
    (hm : (b.metadata.map Prod.fst).Nodup) (ht : b.terminateMissingFeatures.Nodup)
    (hnb : b.nbins < 65536) :
    (∃ b', Booster.fromJson b.jsonDump = .ok b') ↔ b.FloatsFinite := by
  constructor
  · rintro ⟨b', h⟩
    have hd : decBooster (.obj (boosterMembers b)) = some b' := by
      rw [Booster.fromJson, Booster.jsonDump] at h
      cases hd : decBooster (.obj (boosterMembers b)) with
      | none => rw [hd] at h; cases h
      | some x => rw [hd] at h; cases h; rfl
    have d := decBooster_inv hd
    refine ⟨toF32_some (D := D) d.learningRate, toF32_some (D := D) d.l1, toF32_some (D := D) d.l2,
      toF32_some (D := D) d.gamma, toF32_some (D := D) d.maxDeltaStep,
      toF32_some (D := D) d.minLeafWeight, toF64_some (F := F) d.baseScore,
      toF32_some (D := D) d.subsample, toF64_some (F := F) d.topRate, toF64_some (F := F) d.otherRate,
      toF64_some (F := F) d.colsampleBytree, ?_, ?_⟩
    · intro t ht
      obtain ⟨t', h'⟩ := mapM_some encTree decTree b.trees _ d.trees t ht
      exact decTree_some h'
    · intro m hm
      have h2 : toOption decMatrix (Json.ofOption encMatrix b.evaluationHistory : Json F D) = _ :=
        d.evaluationHistory
      rw [hm, Json.ofOption] at h2
      have h3 : (decMatrix (encMatrix m : Json F D)).map some = some b'.evaluationHistory := h2
      rw [Option.map_eq_some_iff] at h3
      obtain ⟨m', h3, -⟩ := h3
      exact decMatrix_some h3
  · rintro ⟨g1, g2, g3, g4, g5, g6, g7, g8, g9, g10, g11, g12, g13⟩
    by_cases h : isFinite b.missing = true
    · exact ⟨b, C26_round_trip b ⟨g1, g2, g3, g4, g5, g6, g7, g8, g9, g10, g11, .inl h, g12, g13, hc, hm,
        ht, hnb⟩⟩
    · refine ⟨{ b with missing := Fl.nan }, ?_⟩
      have e : b.jsonDump = ({ b with missing := Fl.nan } : Booster F D).jsonDump := by
        have : (ofF64 b.missing : Json F D) = ofF64 Fl.nan := by
          rw [ofF64, ofF64, if_neg h, if_neg]
          simp [isFinite, hnan]
        simp only [Booster.jsonDump, boosterMembers, this]
      rw [e]
      exact C26_round_trip _ ⟨g1, g2, g3, g4, g5, g6, g7, g8, g9, g10, g11, .inr rfl, g12, g13, hc, hm,
        ht, hnb⟩

/-- C27.  A `missing` that is neither finite nor NaN is replaced by NaN. -/
theorem C27_missing_lost (b b' : Booster F D) (h : isFinite b.missing = false)
    (hl : Booster.fromJson b.jsonDump = .ok b') : b'.missing = Fl.nan := by
  have hd : decBooster (.obj (boosterMembers b)) = some b' := by
    rw [Booster.fromJson, Booster.jsonDump] at hl
    cases hd : decBooster (.obj (boosterMembers b)) with
    | none => rw [hd] at hl; cases hl
    | some x => rw [hd] at hl; cases hl; rfl
  have h1 : parseMissing (ofF64 b.missing : Json F D) = some b'.missing := (decBooster_inv hd).missing
  rw [ofF64, if_neg (by simp [h])] at h1
  exact (Option.some.inj h1).symm

/-- Whether fitting succeeds and the fitted booster cannot be loaded after dumping. -/
def fitsButDoesNotLoad (b : Booster Q Q) (y : List Q) (ev : Option (List (EvalSet Q))) : Bool :=
  match b.fit exEnv exX y exW ev with
  | .ok (b', .ok ()) => match Booster.fromJson b'.jsonDump with
    | .ok _ => false
    | .error _ => true
  | _ => false

theorem of_fitsButDoesNotLoad {b : Booster Q Q} {y : List Q} {ev : Option (List (EvalSet Q))}
    (h : fitsButDoesNotLoad b y ev = true) :
    ∃ b', b.fit exEnv exX y exW ev = .ok (b', .ok ()) ∧ ∃ e, Booster.fromJson b'.jsonDump = .error e := by
  unfold fitsButDoesNotLoad at h
  split at h
  · next b' hb =>
    split at h
    · cases h
    · next e he => exact ⟨b', hb, e, he⟩
  · cases h

/-- C27 (the claim is false).  A fit with metric AUC and an evaluation set of one class succeeds, and
its dump cannot be loaded. -/
theorem C27_counterexample_auc : ∃ b', ({ exFresh with
      objectiveType := .logLoss, evaluationMetric := some .auc } : Booster Q Q).fit exEnv exX
        (List.replicate 6 (q 1)) exW (some [⟨exX, List.replicate 6 (q 1), exW⟩]) = .ok (b', .ok ()) ∧
      ∃ e, Booster.fromJson b'.jsonDump = .error e :=
  of_fitsButDoesNotLoad (by decide +kernel)

/-- C27 (the claim is false).  So does a fit without evaluation data in which the base score is
initialised on one class. -/
theorem C27_counterexample_base : ∃ b', ({ exFresh with
      objectiveType := .logLoss, initializeBaseScore := true, iterations := 0 } : Booster Q Q).fit exEnv
        exX (List.replicate 6 (q 1)) exW none = .ok (b', .ok ()) ∧
      ∃ e, Booster.fromJson b'.jsonDump = .error e :=
  of_fitsButDoesNotLoad (by decide +kernel)

/-! ### Examples -/

/-- The example model meets the hypothesis of C26. -/
theorem exBooster_storable : exBooster.Storable where
  learningRate := by decide +kernel
  l1 := by decide +kernel
  l2 := by decide +kernel
  gamma := by decide +kernel
  maxDeltaStep := by decide +kernel
  minLeafWeight := by decide +kernel
  baseScore := by decide +kernel
  subsample := by decide +kernel
  topRate := by decide +kernel
  otherRate := by decide +kernel
  colsampleBytree := by decide +kernel
  missing := .inr (by decide +kernel)
  trees := by
    have : (exBooster.trees.all fun t => t.nodes.all fun n => isFinite n.weightValue &&
      isFinite n.hessianSum && isFinite n.splitValue && isFinite n.splitGain) = true := by decide +kernel
    intro t ht n hn
    have h := List.all_eq_true.1 (List.all_eq_true.1 this t ht) n hn
    simp only [Bool.and_eq_true] at h
    exact ⟨h.1.1.1, h.1.1.2, h.1.2, h.2⟩
  history := by intro h e; cases e
  constraints := by intro m e; cases e; decide +kernel
  metadata := by decide +kernel
  terminate := by decide +kernel
  nbins := by decide +kernel

example : Booster.fromJson exBooster.jsonDump = .ok exBooster := C26_round_trip _ exBooster_storable

-- members reversed, two of them removed, an unknown one added
example : Booster.fromJson (.obj ((exBooster.jsonDump.fields.filter
      (fun p : String × Json Q Q => p.1 ∉ ["terminate_missing_features", "monotone_constraints"]) ++
        [("version", Json.nat 3)]).reverse)) =
    .ok { exBooster with terminateMissingFeatures := [], monotoneConstraints := none } :=
  C26_load exBooster exBooster_storable ["terminate_missing_features", "monotone_constraints"]
    (by decide +kernel) [("version", .nat 3)] _
    (by intro p hp; rw [List.mem_singleton.1 hp]; decide +kernel) (List.reverse_perm _)

-- the hypothesis of `C26_required`
example : (exBooster.jsonDump.fields.filter fun p => p.1 ≠ "trees").lookup "trees" = none ∧
    "trees" ∈ boosterNames ∧ "trees" ∉ defaulted := ⟨rfl, by decide +kernel, by decide +kernel⟩

-- an infinite `missing` is not finite
example : isFinite (FX.pinf : Q) = false := by decide +kernel

end Verif
