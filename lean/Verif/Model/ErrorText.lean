import Verif.Model.Booster

/-!
# Texts of the errors (`src/errors.rs`)

`ForustError` of `Model/Utils.lean` keeps what the other properties need; here is the type of the code with all its
variants and the texts that `thiserror` derives from the attributes.  Numbers are printed by an arbitrary function.
-/

namespace Verif

open scoped Verif

/-- `ForustError` (src/errors.rs 3-22); a printed number stands for the number of `NANVAlueFound`. -/
inductive ErrorKind where
  | noVariance (feature : Nat)
  | unableToWrite (reason : String)
  | unableToRead (reason : String)
  | nanValueFound (missing : String)
  | parseString (value what known : String)
  | invalidParameter (name expected provided : String)
  | missingValuesFound (name : String)
  | negativeValuesFound (name : String)
  deriving DecidableEq, Repr

/-- `Display` of an error (the attributes of src/errors.rs 5-21). -/
def ErrorKind.text : ErrorKind → String
  | .noVariance f => "Feature number " ++ toString f ++ " has no variance, when missing values are excluded."
  | .unableToWrite r => "Unable to write model to file: " ++ r
  | .unableToRead r => "Unable to read model from a file " ++ r
  | .nanValueFound m => "The value " ++ m ++ " is set to missing, but a NaN value was found in the data."
  | .parseString v w k => "Invalid value " ++ v ++ " passed for " ++ w ++ ", expected one of " ++ k ++ "."
  | .invalidParameter n e p =>
    "Invalid parameter value passed for " ++ n ++ ", expected " ++ e ++ " but " ++ p ++ " provided."
  | .missingValuesFound n => "Missing values found in " ++ n
  | .negativeValuesFound n => "Negative values found in " ++ n

/-- The error of the code for an error of the validations of `fit` (src/utils.rs 60-85), which are modelled with their
name. -/
def ForustError.kind : ForustError → Option ErrorKind
  | .missingValuesFound n => some (.missingValuesFound n)
  | .negativeValuesFound n => some (.negativeValuesFound n)
  | _ => none

section
variable {F D : Type} [Fl F] [Fl D]

/-- `validate_float_parameter` (src/utils.rs 41-58) with the error in full; `sh` is `to_string`. -/
def validateFloatText {G : Type} [Fl G] (sh : G → String) (value min max : G) (parameter : String) :
    Except ErrorKind Unit :=
  if isNaN value || value <ᶠ min || max <ᶠ value then
    .error (.invalidParameter parameter ("real value within rang " ++ sh min ++ " and " ++ sh max) (sh value))
  else .ok ()

/-- `validate_positive_float_parameter` (src/utils.rs 34-39). -/
def validatePositiveText {G : Type} [Fl G] (sh : G → String) (value : G) (parameter : String) :
    Except ErrorKind Unit :=
  validateFloatText sh value 0 inf parameter

/-- `validate_parameters` (src/gradientbooster.rs 416-428) with the error in full. -/
def Booster.validateText (shF : F → String) (shD : D → String) (b : Booster F D) : Except ErrorKind Unit := do
  validatePositiveText shF b.learningRate "learning_rate"
  validatePositiveText shF b.l1 "l1"
  validatePositiveText shF b.l2 "l2"
  validatePositiveText shF b.gamma "gamma"
  validatePositiveText shF b.maxDeltaStep "max_delta_step"
  validatePositiveText shF b.minLeafWeight "min_leaf_weight"
  validatePositiveText shF b.subsample "subsample"
  validatePositiveText shD b.topRate "top_rate"
  validatePositiveText shD b.otherRate "other_rate"
  validatePositiveText shD b.colsampleBytree "colsample_bytree"

/-- `new` (src/gradientbooster.rs 341-414) with the error in full. -/
def Booster.newText (shF : F → String) (shD : D → String) (args : Booster F D) :
    Except ErrorKind (Booster F D) := do
  let b := { args with
    evaluationHistory := none, bestIteration := none, predictionIteration := none
    trees := [], metadata := [] }
  b.validateText shF shD
  .ok b

end

end Verif
