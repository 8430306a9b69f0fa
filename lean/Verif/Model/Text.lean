import Verif.Model.Serde

/-!
# Helpers: mutable columns, names and printed text (`src/data.rs`, `src/metric.rs`, `src/utils.rs`)
-/

namespace Verif

open scoped Verif

section
variable {T : Type}

/-- A column handed out by `get_col_mut` (src/data.rs 301-310) and changed in place to `f` of its contents; a
mutable slice cannot change its length, so callers keep `(f c).length = c.length`. -/
def JaggedMatrix.modifyCol (m : JaggedMatrix T) (col : Nat) (f : List T → List T) : Res (JaggedMatrix T) := do
  Res.assert (decide (col < m.ends.length))
  let i ← if col = 0 then .ok 0 else idx m.ends (col - 1)
  let j ← idx m.ends col
  let c ← slice m.data i j
  .ok { m with data := m.data.take i ++ f c ++ m.data.drop j }

/-- `items_to_strings` (src/utils.rs 8-16). -/
def itemsToStrings (items : List String) : String := items.foldl (fun s i => s ++ i ++ ", ") ""

/-- `fmt_vec_output` (src/utils.rs 18-31); `sh` is `format!("{:.4}", ·)`. -/
def fmtVecOutput (sh : T → String) : List T → String
  | [] => ""
  | [a] => sh a
  | a :: b :: l =>
    let v := a :: b :: l
    (v.take (v.length - 1)).foldl (fun s n => s ++ sh n ++ ", ") "" ++
      (match v[v.length - 1]? with | some n => sh n | none => "")

/-- `Metric::from_str` (src/metric.rs 42-63); the error carries the name and the list of known names. -/
def Metric.fromStr (s : String) : Except (String × String × String) Metric :=
  match s with
  | "AUC" => .ok .auc
  | "LogLoss" => .ok .logLoss
  | "RootMeanSquaredLogError" => .ok .rootMeanSquaredLogError
  | "RootMeanSquaredError" => .ok .rootMeanSquaredError
  | s => .error (s, "Metric",
      itemsToStrings ["AUC", "LogLoss", "RootMeanSquaredLogError", "RootMeanSquaredError"])

/-- The inner loop of `Display for Matrix` (src/data.rs 223-230): row `i`, columns `j` and following. -/
def Matrix.displayRow (sh : T → String) (m : Matrix T) (i : Nat) : List Nat → String → Res String
  | [], s => .ok s
  | j :: l, s => do
    let v ← m.get i j
    m.displayRow sh i l (s ++ sh v ++ if j = m.cols - 1 then "\n" else " ")

/-- `Display for Matrix` (src/data.rs 215-235); `sh` formats a number. -/
def Matrix.display (sh : T → String) (m : Matrix T) : Res String :=
  Res.foldM' (fun s i => m.displayRow sh i (List.range m.cols) s) "" (List.range m.rows)

end

end Verif
