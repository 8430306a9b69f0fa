import Std.Data.String.ToNat
import Verif.Model.ErrorText
import Verif.Props.Validation

/-!
# C129: the text of an error tells what was wrong

The first bad array of a call of `fit`, in the order targets, weights, and then targets and weights of each
evaluation set, is described here directly (`firstProblem`), with the text it should lead to (`Problem.message`).
-/

namespace Verif

open scoped Verif

/-- An array given to `fit`. -/
inductive Place where
  | target
  | weight
  | evalTarget (set : Nat)
  | evalWeight (set : Nat)
  deriving DecidableEq, Repr

/-- What can be wrong with an array. -/
inductive Complaint where
  | nan
  | negative
  deriving DecidableEq, Repr

/-- What a text calls an array. -/
def Place.name : Place → String
  | .target => "y"
  | .weight => "sample_weight"
  | .evalTarget i => "eval set " ++ toString i ++ " y"
  | .evalWeight i => "eval set " ++ toString i ++ " sample_weight"

/-- The text of a problem. -/
def problemMessage : Place × Complaint → String
  | (p, .nan) => "Missing values found in " ++ p.name
  | (p, .negative) => "Negative values found in " ++ p.name

section
variable {F D : Type} [Fl F] [Fl D]

/-- The arrays of the evaluation sets from number `i` on. -/
def evalArrays (i : Nat) : List (EvalSet D) → List (Place × List D)
  | [] => []
  | e :: l => (.evalTarget i, e.y) :: (.evalWeight i, e.w) :: evalArrays (i + 1) l

/-- The arrays of a call of `fit`. -/
def fitArrays (y w : List D) (ev : Option (List (EvalSet D))) : List (Place × List D) :=
  (.target, y) :: (.weight, w) :: evalArrays 0 (ev.getD [])

open Classical in
/-- What is wrong with one array: weights below zero come first, then NaN; targets may be negative. -/
noncomputable def problemOf : Place × List D → Option (Place × Complaint)
  | (p, v) =>
    if (p = .weight ∨ ∃ i, p = .evalWeight i) ∧ ∃ x ∈ v, (x <ᶠ 0) = true then some (p, .negative)
    else if ∃ x ∈ v, isNaN x = true then some (p, .nan)
    else none

/-- The first problem of a call of `fit`. -/
noncomputable def firstProblem (y w : List D) (ev : Option (List (EvalSet D))) : Option (Place × Complaint) :=
  (fitArrays y w ev).findSome? problemOf

/-- The error for a problem. -/
def problemError : Place × Complaint → ForustError
  | (p, .nan) => .missingValuesFound p.name
  | (p, .negative) => .negativeValuesFound p.name

/-- No error, or the error for the problem. -/
def problemExcept : Option (Place × Complaint) → Except ForustError Unit
  | none => .ok ()
  | some p => .error (problemError p)

theorem problemOf_target (v : List D) {p : Place} (hp : ¬ (p = .weight ∨ ∃ i, p = .evalWeight i)) :
    problemOf (p, v) = (if v.any isNaN = true then some (p, .nan) else none) := by
  unfold problemOf
  dsimp only
  rw [if_neg (fun h => hp h.1)]
  by_cases h : v.any isNaN = true
  · rw [if_pos h]; exact if_pos (List.any_eq_true.1 h)
  · rw [if_neg h]; exact if_neg (fun h' => h (List.any_eq_true.2 h'))

theorem problemOf_weight (v : List D) {p : Place} (hp : p = .weight ∨ ∃ i, p = .evalWeight i) :
    problemOf (p, v) = (if v.any (· <ᶠ 0) = true then some (p, .negative)
      else if v.any isNaN = true then some (p, .nan) else none) := by
  unfold problemOf
  dsimp only
  by_cases h : v.any (· <ᶠ 0) = true
  · rw [if_pos h]; exact if_pos ⟨hp, List.any_eq_true.1 h⟩
  · rw [if_neg h, if_neg (fun h' => h (List.any_eq_true.2 h'.2))]
    by_cases h2 : v.any isNaN = true
    · rw [if_pos h2]; exact if_pos (List.any_eq_true.1 h2)
    · rw [if_neg h2]; exact if_neg (fun h' => h2 (List.any_eq_true.2 h'))

theorem validateNotNan_problem (v : List D) {p : Place} (hp : ¬ (p = .weight ∨ ∃ i, p = .evalWeight i)) :
    validateNotNanVec v p.name = problemExcept (problemOf (p, v)) := by
  rw [problemOf_target v hp]
  unfold validateNotNanVec
  cases v.any isNaN <;> rfl

theorem validatePositive_problem (v : List D) {p : Place} (hp : p = .weight ∨ ∃ i, p = .evalWeight i) :
    validatePositiveNotNanVec v p.name = problemExcept (problemOf (p, v)) := by
  rw [problemOf_weight v hp]
  have e1 : (v.filter fun i => isNaN i || i <ᶠ 0).any (· <ᶠ 0) = v.any (· <ᶠ 0) := by
    rw [List.any_filter]
    congr 1
    funext x
    cases isNaN x <;> cases (x <ᶠ 0) <;> rfl
  have e2 : (v.filter fun i => isNaN i || i <ᶠ 0).any isNaN = v.any isNaN := by
    rw [List.any_filter]
    congr 1
    funext x
    cases isNaN x <;> cases (x <ᶠ 0) <;> rfl
  unfold validatePositiveNotNanVec validatePositiveVec validateNotNanVec
  dsimp only
  rw [e1, e2]
  cases v.any (· <ᶠ 0) <;> cases v.any isNaN <;> rfl

theorem problemExcept_bind (x : Place × List D) (l : List (Place × List D))
    {r : Except ForustError Unit} (hr : r = problemExcept (l.findSome? problemOf)) :
    (problemExcept (problemOf x) >>= fun _ => r) = problemExcept ((x :: l).findSome? problemOf) := by
  rw [List.findSome?_cons]
  cases problemOf x with
  | none => exact hr
  | some p => rfl

theorem validateEvals_problem : ∀ (l : List (EvalSet D)) (i : Nat),
    validateEvals l i = problemExcept ((evalArrays i l).findSome? problemOf)
  | [], _ => rfl
  | e :: l, i => by
    have h1 := validateNotNan_problem e.y (p := .evalTarget i) (by simp)
    have h2 := validatePositive_problem e.w (p := .evalWeight i) (by simp)
    have e1 : (s!"eval set {i} y") = (Place.evalTarget i).name := rfl
    have e2 : (s!"eval set {i} sample_weight") = (Place.evalWeight i).name := rfl
    unfold validateEvals evalArrays
    rw [e1, e2, h1, h2]
    exact problemExcept_bind _ _ (problemExcept_bind _ _ (validateEvals_problem l (i + 1)))

theorem validateFit_problem (y w : List D) (ev : Option (List (EvalSet D))) :
    validateFit y w ev = problemExcept (firstProblem y w ev) := by
  have h1 := validateNotNan_problem y (p := .target) (by simp)
  have h2 := validatePositive_problem w (p := .weight) (by simp)
  unfold validateFit firstProblem fitArrays
  rw [show "y" = Place.target.name from rfl, show "sample_weight" = Place.weight.name from rfl,
    h1, h2]
  refine problemExcept_bind _ _ (problemExcept_bind _ _ ?_)
  cases ev with
  | none => rfl
  | some es => exact validateEvals_problem es 0

variable [FlCast F D] {R : Type}

/-- **C129** (`fit`, any arithmetic).  If some array has a problem, `fit` returns an error whose text is the
message of the first problem. -/
theorem C129_fit (env : Env R F D) (b : Booster F D) (X : Matrix D) (y w : List D)
    (ev : Option (List (EvalSet D))) {p : Place × Complaint} (hp : firstProblem y w ev = some p) :
    ∃ e k, b.fit env X y w ev = .ok (b, .error e) ∧ e.kind = some k ∧ k.text = problemMessage p := by
  unfold Booster.fit
  rw [validateFit_problem, hp]
  obtain ⟨p, c⟩ := p
  cases c with
  | nan => exact ⟨_, _, rfl, rfl, rfl⟩
  | negative => exact ⟨_, _, rfl, rfl, rfl⟩

/-- **C129** (`fit`, no false alarm).  Without a problem there is no error. -/
theorem C129_no_alarm (env : Env R F D) (b b' : Booster F D) (X : Matrix D) (y w : List D)
    (ev : Option (List (EvalSet D))) {r : Except ForustError Unit} (hp : firstProblem y w ev = none)
    (h : b.fit env X y w ev = .ok (b', r)) : r = .ok () := by
  unfold Booster.fit at h
  rw [validateFit_problem, hp] at h
  obtain ⟨b1, _, h⟩ := Res.bind_eq_ok.1 h
  cases h
  rfl

end

/-! ### Texts determine problems -/

theorem natText_inj {i j : Nat} (h : toString i = toString j) : i = j := by
  have h1 := Nat.toNat?_repr i
  have h2 := Nat.toNat?_repr j
  have h' : Nat.repr i = Nat.repr j := h
  rw [h', h2] at h1
  exact (Option.some.inj h1).symm

theorem text_append_left {a b c : String} (h : a ++ b = a ++ c) : b = c := by
  apply String.toList_injective
  have := congrArg String.toList h
  simpa using this

theorem text_append_right {a b c : String} (h : b ++ a = c ++ a) : b = c := by
  apply String.toList_injective
  have := congrArg String.toList h
  simpa using this

theorem text_head {a : String} (b : String) {c : Char} (h : a.toList.head? = some c) :
    (a ++ b).toList.head? = some c := by
  rw [String.toList_append]
  cases ha : a.toList with
  | nil => rw [ha] at h; cases h
  | cons x l => rw [ha] at h; exact h

theorem text_last {a : String} (b : String) {c : Char} (h : a.toList.getLast? = some c) :
    (b ++ a).toList.getLast? = some c := by
  rw [String.toList_append, List.getLast?_append, h]
  rfl

theorem text_ne {a b : String} {f : List Char → Option Char} {c d : Char} (ha : f a.toList = some c)
    (hb : f b.toList = some d) (h : c ≠ d) : a ≠ b := by
  rintro rfl
  rw [ha] at hb
  exact h (Option.some.inj hb)

theorem Place.name_inj {p p' : Place} (h : p.name = p'.name) : p = p' := by
  have e0 : "eval set ".toList.head? = some 'e' := by decide
  have ey : " y".toList.getLast? = some 'y' := by decide
  have ew : " sample_weight".toList.getLast? = some 't' := by decide
  have y0 : "y".toList.head? = some 'y' := by decide
  have w0 : "sample_weight".toList.head? = some 's' := by decide
  have hd : ∀ (i : Nat) (t : String), ("eval set " ++ toString i ++ t).toList.head? = some 'e' := by
    intro i t
    rw [String.append_assoc]
    exact text_head _ e0
  cases p with
  | target => cases p' with
    | target => rfl
    | weight => exact absurd h (text_ne (f := List.head?) y0 w0 (by decide))
    | evalTarget i => exact absurd h (text_ne (f := List.head?) y0 (hd i _) (by decide))
    | evalWeight i => exact absurd h (text_ne (f := List.head?) y0 (hd i _) (by decide))
  | weight => cases p' with
    | target => exact absurd h (text_ne (f := List.head?) w0 y0 (by decide))
    | weight => rfl
    | evalTarget i => exact absurd h (text_ne (f := List.head?) w0 (hd i _) (by decide))
    | evalWeight i => exact absurd h (text_ne (f := List.head?) w0 (hd i _) (by decide))
  | evalTarget j => cases p' with
    | target => exact absurd h (text_ne (f := List.head?) (hd j _) y0 (by decide))
    | weight => exact absurd h (text_ne (f := List.head?) (hd j _) w0 (by decide))
    | evalTarget i =>
      have e : "eval set " ++ toString j ++ " y" = "eval set " ++ toString i ++ " y" := h
      rw [natText_inj (text_append_left (text_append_right e))]
    | evalWeight i =>
      exact absurd h (text_ne (f := List.getLast?) (text_last _ ey) (text_last _ ew) (by decide))
  | evalWeight j => cases p' with
    | target => exact absurd h (text_ne (f := List.head?) (hd j _) y0 (by decide))
    | weight => exact absurd h (text_ne (f := List.head?) (hd j _) w0 (by decide))
    | evalTarget i =>
      exact absurd h (text_ne (f := List.getLast?) (text_last _ ew) (text_last _ ey) (by decide))
    | evalWeight i =>
      have e : "eval set " ++ toString j ++ " sample_weight" = "eval set " ++ toString i ++ " sample_weight" := h
      rw [natText_inj (text_append_left (text_append_right e))]

/-- **C129** (texts tell the problem).  Two problems with the same text are the same problem of the same array. -/
theorem C129_distinct {p p' : Place × Complaint} (h : problemMessage p = problemMessage p') : p = p' := by
  have m0 : "Missing values found in ".toList.head? = some 'M' := by decide
  have n0 : "Negative values found in ".toList.head? = some 'N' := by decide
  obtain ⟨p, c⟩ := p
  obtain ⟨p', c'⟩ := p'
  cases c with
  | nan => cases c' with
    | nan =>
      have e : "Missing values found in " ++ p.name = "Missing values found in " ++ p'.name := h
      rw [Place.name_inj (text_append_left e)]
    | negative =>
      exact absurd h (text_ne (f := List.head?) (text_head _ m0) (text_head _ n0) (by decide))
  | negative => cases c' with
    | nan =>
      exact absurd h (text_ne (f := List.head?) (text_head _ n0) (text_head _ m0) (by decide))
    | negative =>
      have e : "Negative values found in " ++ p.name = "Negative values found in " ++ p'.name := h
      rw [Place.name_inj (text_append_left e)]

/-! ### The constructor -/

section
variable {F D : Type} [Fl F] [Fl D]

/-- One parameter, if it is not acceptable: its name, the range and the value, as printed. -/
def rejectedField {G : Type} [Fl G] (sh : G → String) (x : G) (name : String) : List (String × String × String) :=
  if Acceptable x then [] else [(name, "real value within rang " ++ sh 0 ++ " and " ++ sh inf, sh x)]

/-- The parameters that are not acceptable in the order of the fields. -/
def Booster.rejected (shF : F → String) (shD : D → String) (b : Booster F D) : List (String × String × String) :=
  rejectedField shF b.learningRate "learning_rate" ++ (rejectedField shF b.l1 "l1" ++
  (rejectedField shF b.l2 "l2" ++ (rejectedField shF b.gamma "gamma" ++
  (rejectedField shF b.maxDeltaStep "max_delta_step" ++ (rejectedField shF b.minLeafWeight "min_leaf_weight" ++
  (rejectedField shF b.subsample "subsample" ++ (rejectedField shD b.topRate "top_rate" ++
  (rejectedField shD b.otherRate "other_rate" ++ rejectedField shD b.colsampleBytree "colsample_bytree"))))))))

/-- The error for the first of the parameters that are not acceptable. -/
def rejectedExcept : List (String × String × String) → Except ErrorKind Unit
  | [] => .ok ()
  | (n, e, v) :: _ => .error (.invalidParameter n e v)

theorem validatePositiveText_eq {G : Type} [Fl G] [Fl.InfTop G] (sh : G → String) (x : G) (n : String) :
    validatePositiveText sh x n = rejectedExcept (rejectedField sh x n) := by
  unfold validatePositiveText validateFloatText rejectedField Acceptable
  rw [Fl.InfTop.inf_lt]
  by_cases h1 : isNaN x = true <;> by_cases h2 : (x <ᶠ 0) = true <;> simp [h1, h2, rejectedExcept]

theorem rejectedExcept_append (a b : List (String × String × String)) :
    (rejectedExcept a >>= fun _ => rejectedExcept b) = rejectedExcept (a ++ b) := by
  cases a with
  | nil => rfl
  | cons x l => rfl

theorem Booster.validateText_eq [Fl.InfTop F] [Fl.InfTop D] (shF : F → String) (shD : D → String)
    (b : Booster F D) : b.validateText shF shD = rejectedExcept (b.rejected shF shD) := by
  simp only [Booster.validateText, Booster.rejected, validatePositiveText_eq, rejectedExcept_append]

/-- **C129** (constructor).  If some parameter is not acceptable, `new` fails and the text names the first such
parameter and gives its value and the range asked for. -/
theorem C129_new [Fl.InfTop F] [Fl.InfTop D] (shF : F → String) (shD : D → String) (args : Booster F D)
    {n e v : String} {l : List (String × String × String)} (h : args.rejected shF shD = (n, e, v) :: l) :
    ∃ k, args.newText shF shD = .error k ∧
      k.text = "Invalid parameter value passed for " ++ n ++ ", expected " ++ e ++ " but " ++ v ++ " provided." := by
  refine ⟨.invalidParameter n e v, ?_, rfl⟩
  have hv := Booster.validateText_eq shF shD { args with
    evaluationHistory := none, bestIteration := none, predictionIteration := none, trees := [], metadata := [] }
  unfold Booster.newText
  dsimp only
  rw [hv, show Booster.rejected shF shD { args with
    evaluationHistory := none, bestIteration := none, predictionIteration := none, trees := [], metadata := [] } =
    args.rejected shF shD from rfl, h]
  rfl

/-- The names that errors of the constructor can carry. -/
def parameterNames : List String :=
  ["learning_rate", "l1", "l2", "gamma", "max_delta_step", "min_leaf_weight", "subsample", "top_rate", "other_rate",
    "colsample_bytree"]

theorem Booster.rejected_name {shF : F → String} {shD : D → String} {b : Booster F D}
    {x : String × String × String} (h : x ∈ b.rejected shF shD) : x.1 ∈ parameterNames := by
  unfold Booster.rejected rejectedField at h
  simp only [List.mem_append] at h
  have key : ∀ {p : Prop} [Decidable p] {n e v : String}, x ∈ (if p then [] else [(n, e, v)]) → x.1 = n := by
    intro p _ n e v hx
    split at hx
    · cases hx
    · rw [List.mem_singleton.1 hx]
  rcases h with h | h | h | h | h | h | h | h | h | h <;> rw [key h] <;> simp [parameterNames]

theorem takeWhile_comma {n rest : List Char} (hn : ',' ∉ n) :
    (n ++ ',' :: rest).takeWhile (· ≠ ',') = n := by
  induction n with
  | nil => simp
  | cons c n ih =>
    have h1 : c ≠ ',' := fun e => hn (e ▸ List.mem_cons_self)
    rw [List.cons_append, List.takeWhile_cons]
    simp only [ne_eq, h1, not_false_eq_true, decide_true, if_true]
    rw [ih (fun h => hn (List.mem_cons_of_mem _ h))]

/-- **C129** (the constructor's text tells the parameter).  Rejections with the same text, of any two boosters and with
any printing of numbers, are rejections of the same parameter. -/
theorem C129_parameter [Fl.InfTop F] [Fl.InfTop D] {shF shF' : F → String} {shD shD' : D → String}
    {args args' : Booster F D} {k k' : ErrorKind} (h : args.newText shF shD = .error k)
    (h' : args'.newText shF' shD' = .error k') (he : k.text = k'.text) :
    ∃ n ∈ parameterNames, (∃ e v l, args.rejected shF shD = (n, e, v) :: l) ∧
      ∃ e v l, args'.rejected shF' shD' = (n, e, v) :: l := by
  have get : ∀ {shF : F → String} {shD : D → String} {a : Booster F D} {k : ErrorKind},
      a.newText shF shD = .error k → ∃ n e v l, a.rejected shF shD = (n, e, v) :: l ∧ k = .invalidParameter n e v := by
    intro shF shD a k h
    have hv := Booster.validateText_eq shF shD { a with
      evaluationHistory := none, bestIteration := none, predictionIteration := none, trees := [], metadata := [] }
    unfold Booster.newText at h
    dsimp only at h
    rw [hv, show Booster.rejected shF shD { a with
      evaluationHistory := none, bestIteration := none, predictionIteration := none, trees := [], metadata := [] } =
      a.rejected shF shD from rfl] at h
    cases hr : a.rejected shF shD with
    | nil => rw [hr] at h; cases h
    | cons x l =>
      obtain ⟨n, e, v⟩ := x
      rw [hr] at h
      cases h
      exact ⟨n, e, v, l, rfl, rfl⟩
  obtain ⟨n, e, v, l, h1, rfl⟩ := get h
  obtain ⟨n', e', v', l', h1', rfl⟩ := get h'
  have hn : n ∈ parameterNames := Booster.rejected_name (x := (n, e, v)) (by rw [h1]; exact List.mem_cons_self)
  have hn' : n' ∈ parameterNames := Booster.rejected_name (x := (n', e', v')) (by rw [h1']; exact List.mem_cons_self)
  have noComma : ∀ m ∈ parameterNames, ',' ∉ m.toList := by decide +kernel
  have hnn : n = n' := by
    have h0 : "Invalid parameter value passed for " ++ n ++ ", expected " ++ e ++ " but " ++ v ++ " provided." =
        "Invalid parameter value passed for " ++ n' ++ ", expected " ++ e' ++ " but " ++ v' ++ " provided." := he
    have hc : ", expected ".toList = ',' :: " expected ".toList := by decide
    have h2 := congrArg String.toList h0
    simp only [String.toList_append, List.append_assoc, hc, List.cons_append] at h2
    have h3 := congrArg (List.takeWhile (· ≠ ',')) (List.append_cancel_left h2)
    rw [takeWhile_comma (noComma n hn), takeWhile_comma (noComma n' hn')] at h3
    exact String.toList_injective h3
  subst hnn
  exact ⟨n, hn, ⟨e, v, l, h1⟩, e', v', l', h1'⟩

end

/-! ### Examples -/

/-- The second evaluation set has a negative weight, and a NaN before it. -/
example : firstProblem exY exW
      (some [⟨exX, exY, exW⟩, ⟨exX, [q 1], [FX.nan, q (-1)]⟩]) = some (.evalWeight 1, .negative) ∧
    problemMessage (.evalWeight 1, .negative) = "Negative values found in eval set 1 sample_weight" := by
  refine ⟨?_, by decide +kernel⟩
  unfold firstProblem fitArrays
  simp only [Option.getD_some, evalArrays, List.findSome?_cons, List.findSome?_nil]
  rw [problemOf_target _ (by simp), problemOf_weight _ (by simp), problemOf_target _ (by simp),
    problemOf_weight _ (by simp), problemOf_target _ (by simp), problemOf_weight _ (by simp)]
  decide +kernel

/-- No problem in the training data of the examples. -/
example : firstProblem exY exW none = none := by
  unfold firstProblem fitArrays
  simp only [Option.getD_none, evalArrays, List.findSome?_cons, List.findSome?_nil]
  rw [problemOf_target _ (by simp), problemOf_weight _ (by simp)]
  decide +kernel

/-- Two parameters are rejected; the text names the first. -/
example : ({ exBooster with gamma := FX.nan, topRate := q (-1) }).rejected (fun _ => "x") (fun _ => "z") =
    [("gamma", "real value within rang x and x", "x"), ("top_rate", "real value within rang z and z", "z")] := by
  decide +kernel

end Verif
