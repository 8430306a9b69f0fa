import Verif.Model.PyBooster

/-!
# Specification for the Python class
-/

namespace Verif

open scoped Verif

variable {F D : Type} [Fl F] [Fl D] [FlCast F D]

/-- The metadata keys used by the wrapper. -/
def reservedKeys : List String := ["feature_names_in_", "n_features_", "feature_importance_method"]

/-- Instances that come from `GradientBooster(**p)` by calls of `fit`, successful or not, on any data and in
any environment, of `set_prediction_iteration`, and of `insert_metadata` with other keys than those used by
the wrapper. -/
inductive Made (J : PyJson) (p : PyParams D) : PyBooster F D → Prop
  | new {o} : pyNew J p = .ok o → Made J p o
  | fit {R : Type} {o o'} (env : Env R F D) (X : Frame D) (y : List D) (w : Option (List D))
      (evals : Option (List (PyEval D))) (r : Except PyErr Unit) :
      Made J p o → o.fit J env X y w evals = .ok (o', r) → Made J p o'
  | setPredictionIteration {o} (n : Nat) : Made J p o → Made J p (o.setPredictionIteration n)
  | insertMetadata {o} (key value : String) : key ∉ reservedKeys → Made J p o →
      Made J p (o.insertMetadata key value)

/-- What a Python float becomes when it is stored as an `f32` and read back. -/
def viaF32 (F : Type) {D : Type} [Fl F] [Fl D] [FlCast F D] (x : D) : D := up (down x : F)

/-! ### An executable JSON for examples -/

/-- Characters of a string, marked, with an end mark. -/
def exEnc (s : List Char) : List Char := s.flatMap (fun c => ['c', c]) ++ ['.']

/-- One string and the rest. -/
def exDec : List Char → Option (List Char × List Char)
  | 'c' :: c :: l => (exDec l).map fun p => (c :: p.1, p.2)
  | '.' :: l => some ([], l)
  | _ => none

/-- Strings up to the end. -/
def exDecs : Nat → List Char → Option (List (List Char))
  | _, [] => some []
  | 0, _ => none
  | n + 1, l => do
    let (s, r) ← exDec l
    let t ← exDecs n r
    some (s :: t)

/-- A printer and parser for the three kinds of values. -/
def exJson : PyJson :=
  { dumps := fun v => String.ofList (match v with
      | .names l => 'L' :: l.flatMap fun s => exEnc s.toList
      | .nat n => 'N' :: List.replicate n 'i'
      | .str s => 'S' :: s.toList)
    loads := fun t => match t.toList with
      | 'L' :: l => (exDecs l.length l).map fun ls => .names (ls.map String.ofList)
      | 'N' :: l => some (.nat l.length)
      | 'S' :: l => some (.str (String.ofList l))
      | _ => none }

theorem exDec_enc (s r : List Char) : exDec (exEnc s ++ r) = some (s, r) := by
  induction s with
  | nil => rfl
  | cons c s ih =>
    have : exEnc (c :: s) ++ r = 'c' :: c :: (exEnc s ++ r) := by simp [exEnc]
    rw [this, exDec, ih]; rfl

theorem exDecs_enc (l : List (List Char)) : ∀ n, l.length ≤ n →
    exDecs n (l.flatMap exEnc) = some l := by
  induction l with
  | nil => intro n _; cases n <;> rfl
  | cons s l ih =>
    intro n hn
    cases n with
    | zero => simp at hn
    | succ n =>
      have hne : ∃ c t, (s :: l).flatMap exEnc = c :: t := by
        cases h : (s :: l).flatMap exEnc with
        | nil => simp [exEnc] at h
        | cons c t => exact ⟨c, t, rfl⟩
      obtain ⟨c, t, e⟩ := hne
      have hd : exDec ((s :: l).flatMap exEnc) = some (s, l.flatMap exEnc) := by
        rw [List.flatMap_cons, exDec_enc]
      rw [e] at hd ⊢
      rw [exDecs, hd]
      · simp only [bind, Option.bind]
        rw [ih n (by simpa using hn)]
      · simp

theorem exJson_ok : exJson.Ok := by
  intro v
  cases v with
  | nat n => simp [exJson]
  | str s => simp [exJson]
  | names l =>
    simp only [exJson, String.toList_ofList]
    have h : (l.flatMap fun s => exEnc s.toList) = (l.map String.toList).flatMap exEnc := by
      rw [List.flatMap_map]
    rw [h, exDecs_enc]
    · simp [Function.comp_def]
    · have : ∀ ls : List (List Char), ls.length ≤ (ls.flatMap exEnc).length := by
        intro ls
        induction ls with
        | nil => simp
        | cons a ls ih =>
          simp only [List.flatMap_cons, List.length_append, List.length_cons]
          have : 1 ≤ (exEnc a).length := by simp [exEnc]
          omega
      exact this _

end Verif
