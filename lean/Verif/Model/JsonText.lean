import Verif.Model.Serde

/-!
# JSON text (`serde_json::to_string`, `serde_json::from_str`, Python's `json.dumps`)

The crate writes a model with `serde_json::to_string` and reads it with `serde_json::from_str`
(src/gradientbooster.rs 1022-1058); the Python class sends it a text written with `json.dumps`
(py-forust/forust/__init__.py 148).  A text is a list of characters.  Modelled: white space, literals, the grammar
of numbers, strings with all escapes and surrogate pairs, arrays, objects, and that nothing but white space may
follow.  How a float is written and read is an oracle (`NumText`).  serde reads a number as the type the struct
asks for, so that reading is guided by the types of the members (`Ty`).  Simplifications: the limit of 128 nested
arrays and objects (a model nests five deep) and 64-bit overflow of integers are not modelled; unknown members are
read like known ones, while serde skips their strings without looking at surrogates.
-/

namespace Verif

/-- JSON documents as text: a number is its token. -/
inductive JText where
  | null
  | bool (b : Bool)
  | num (token : List Char)
  | str (s : List Char)
  | arr (l : List JText)
  | obj (l : List (List Char × JText))

/-! ### Writing -/

/-- The separators and escapes of a writer. -/
structure JStyle where
  /-- between two elements or members -/
  comma : List Char
  /-- between a name and its value -/
  colon : List Char
  /-- a character of a string -/
  escape : Char → List Char

/-- A hexadecimal digit in lower case. -/
def hexDigit (n : Nat) : Char := if n < 10 then Char.ofNat (48 + n) else Char.ofNat (87 + n)

/-- `\u` and four hexadecimal digits. -/
def unicodeEscape (n : Nat) : List Char :=
  ['\\', 'u', hexDigit (n / 4096 % 16), hexDigit (n / 256 % 16), hexDigit (n / 16 % 16), hexDigit (n % 16)]

/-- The escapes both writers use. -/
def shortEscape (c : Char) : Option (List Char) :=
  if c = '"' then some ['\\', '"']
  else if c = '\\' then some ['\\', '\\']
  else if c = '\n' then some ['\\', 'n']
  else if c = '\r' then some ['\\', 'r']
  else if c = '\t' then some ['\\', 't']
  else if c = Char.ofNat 8 then some ['\\', 'b']
  else if c = Char.ofNat 12 then some ['\\', 'f']
  else none

/-- serde_json: other control characters as `\u00xx`, the rest as it is. -/
def serdeEscape (c : Char) : List Char :=
  (shortEscape c).getD (if c.toNat < 32 then unicodeEscape c.toNat else [c])

/-- Python: everything that is not printable ASCII as `\uxxxx`, beyond the 16-bit range as a surrogate pair. -/
def pythonEscape (c : Char) : List Char :=
  (shortEscape c).getD
    (if 32 ≤ c.toNat ∧ c.toNat < 127 then [c]
     else if c.toNat < 65536 then unicodeEscape c.toNat
     else unicodeEscape (55296 + (c.toNat - 65536) / 1024) ++
       unicodeEscape (56320 + (c.toNat - 65536) % 1024))

/-- `serde_json::to_string`. -/
def serdeStyle : JStyle := { comma := [','], colon := [':'], escape := serdeEscape }

/-- `json.dumps`. -/
def pythonStyle : JStyle := { comma := [',', ' '], colon := [':', ' '], escape := pythonEscape }

/-- A string in quotes. -/
def JStyle.quote (st : JStyle) (s : List Char) : List Char := '"' :: (s.flatMap st.escape ++ ['"'])

mutual
/-- A document. -/
def JText.render (st : JStyle) : JText → List Char
  | .null => ['n', 'u', 'l', 'l']
  | .bool true => ['t', 'r', 'u', 'e']
  | .bool false => ['f', 'a', 'l', 's', 'e']
  | .num t => t
  | .str s => st.quote s
  | .arr [] => ['[', ']']
  | .arr (v :: l) => '[' :: (v.render st ++ JText.renderElems st l)
  | .obj [] => ['{', '}']
  | .obj ((k, v) :: l) => '{' :: (st.quote k ++ st.colon ++ v.render st ++ JText.renderMembers st l)
/-- The elements after the first, and the closing bracket. -/
def JText.renderElems (st : JStyle) : List JText → List Char
  | [] => [']']
  | v :: l => st.comma ++ v.render st ++ JText.renderElems st l
/-- The members after the first, and the closing brace. -/
def JText.renderMembers (st : JStyle) : List (List Char × JText) → List Char
  | [] => ['}']
  | (k, v) :: l => st.comma ++ st.quote k ++ st.colon ++ v.render st ++ JText.renderMembers st l
end

/-! ### Reading -/

/-- White space. -/
def jsonSpace (c : Char) : Bool := c = ' ' || c = '\n' || c = '\t' || c = '\r'

/-- Skip white space. -/
def skipSpace (s : List Char) : List Char := s.dropWhile jsonSpace

/-- The value of a hexadecimal digit. -/
def hexValue (c : Char) : Option Nat :=
  let n := c.toNat
  if 48 ≤ n ∧ n ≤ 57 then some (n - 48)
  else if 97 ≤ n ∧ n ≤ 102 then some (n - 87)
  else if 65 ≤ n ∧ n ≤ 70 then some (n - 55)
  else none

/-- Four hexadecimal digits. -/
def readHex4 : List Char → Option (Nat × List Char)
  | a :: b :: c :: d :: r => do
    let a ← hexValue a
    let b ← hexValue b
    let c ← hexValue c
    let d ← hexValue d
    some (a * 4096 + b * 256 + c * 16 + d, r)
  | _ => none

/-- The second half of a surrogate pair. -/
def readLow (hi : Nat) : List Char → Option (Char × List Char)
  | '\\' :: 'u' :: r => do
    let (lo, r) ← readHex4 r
    if 56320 ≤ lo ∧ lo < 57344 then some (Char.ofNat (65536 + (hi - 55296) * 1024 + (lo - 56320)), r)
    else none
  | _ => none

/-- What follows a backslash. -/
def readEscape : List Char → Option (Char × List Char)
  | [] => none
  | c :: r =>
    if c = '"' then some ('"', r)
    else if c = '\\' then some ('\\', r)
    else if c = '/' then some ('/', r)
    else if c = 'b' then some (Char.ofNat 8, r)
    else if c = 'f' then some (Char.ofNat 12, r)
    else if c = 'n' then some ('\n', r)
    else if c = 'r' then some ('\r', r)
    else if c = 't' then some ('\t', r)
    else if c = 'u' then do
      let (n, r) ← readHex4 r
      if 56320 ≤ n ∧ n < 57344 then none
      else if 55296 ≤ n ∧ n < 56320 then readLow n r
      else some (Char.ofNat n, r)
    else none

/-- The characters of a string up to the closing quote; `fuel` bounds their number. -/
def readChars : Nat → List Char → Option (List Char × List Char)
  | 0, _ => none
  | _ + 1, [] => none
  | fuel + 1, c :: r =>
    if c = '"' then some ([], r)
    else if c = '\\' then do
      let (c, r) ← readEscape r
      let (s, r) ← readChars fuel r
      some (c :: s, r)
    else if c.toNat < 32 then none
    else do
      let (s, r) ← readChars fuel r
      some (c :: s, r)

/-- A string after its opening quote. -/
def readString (s : List Char) : Option (List Char × List Char) := readChars (s.length + 1) s

/-- A decimal digit. -/
def jsonDigit (c : Char) : Bool := 48 ≤ c.toNat && c.toNat ≤ 57

/-- At least one digit. -/
def readDigits (s : List Char) : Option (List Char × List Char) :=
  let ds := s.takeWhile jsonDigit
  if ds.isEmpty then none else some (ds, s.dropWhile jsonDigit)

/-- An optional minus sign. -/
def readMinus : List Char → List Char × List Char
  | [] => ([], [])
  | c :: r => if c = '-' then ([c], r) else ([], c :: r)

/-- An optional sign. -/
def readSign : List Char → List Char × List Char
  | [] => ([], [])
  | c :: r => if c = '-' || c = '+' then ([c], r) else ([], c :: r)

/-- The integer part: no leading zero. -/
def readInt : List Char → Option (List Char × List Char)
  | [] => none
  | c :: r => if c = '0' then some ([c], r) else readDigits (c :: r)

/-- The optional fraction. -/
def readFraction : List Char → Option (List Char × List Char)
  | [] => some ([], [])
  | c :: r =>
    if c = '.' then do
      let (ds, r) ← readDigits r
      some (c :: ds, r)
    else some ([], c :: r)

/-- The optional exponent. -/
def readExponent : List Char → Option (List Char × List Char)
  | [] => some ([], [])
  | c :: r =>
    if c = 'e' || c = 'E' then do
      let (sg, r) := readSign r
      let (ds, r) ← readDigits r
      some (c :: (sg ++ ds), r)
    else some ([], c :: r)

/-- The token of a number. -/
def readNumber (s : List Char) : Option (List Char × List Char) := do
  let (m, s) := readMinus s
  let (i, s) ← readInt s
  let (f, s) ← readFraction s
  let (e, s) ← readExponent s
  some (m ++ i ++ f ++ e, s)

/-- A literal. -/
def readWord (w : List Char) (v : JText) (s : List Char) : Option (JText × List Char) :=
  if w <+: s then some (v, s.drop w.length) else none

mutual
/-- A value, after white space; `fuel` bounds the depth and the number of elements. -/
def readValue : Nat → List Char → Option (JText × List Char)
  | 0, _ => none
  | fuel + 1, s =>
    match skipSpace s with
    | [] => none
    | c :: r =>
      if c = '"' then do
        let (s, r) ← readString r
        some (.str s, r)
      else if c = '[' then
        match skipSpace r with
        | [] => none
        | d :: r' =>
          if d = ']' then some (.arr [], r')
          else do
            let (l, r) ← readElems fuel r
            some (.arr l, r)
      else if c = '{' then
        match skipSpace r with
        | [] => none
        | d :: r' =>
          if d = '}' then some (.obj [], r')
          else do
            let (l, r) ← readMembers fuel r
            some (.obj l, r)
      else if c = 'n' then readWord ['n', 'u', 'l', 'l'] .null (c :: r)
      else if c = 't' then readWord ['t', 'r', 'u', 'e'] (.bool true) (c :: r)
      else if c = 'f' then readWord ['f', 'a', 'l', 's', 'e'] (.bool false) (c :: r)
      else do
        let (t, r) ← readNumber (c :: r)
        some (.num t, r)
/-- The elements of an array that is not empty, and the closing bracket. -/
def readElems : Nat → List Char → Option (List JText × List Char)
  | 0, _ => none
  | fuel + 1, s => do
    let (v, r) ← readValue fuel s
    match skipSpace r with
    | [] => none
    | c :: r =>
      if c = ',' then do
        let (l, r) ← readElems fuel r
        some (v :: l, r)
      else if c = ']' then some ([v], r)
      else none
/-- The members of an object that is not empty, and the closing brace. -/
def readMembers : Nat → List Char → Option (List (List Char × JText) × List Char)
  | 0, _ => none
  | fuel + 1, s =>
    match skipSpace s with
    | [] => none
    | q :: r =>
      if q = '"' then do
        let (k, r) ← readString r
        match skipSpace r with
        | [] => none
        | c :: r =>
          if c = ':' then do
            let (v, r) ← readValue fuel r
            match skipSpace r with
            | [] => none
            | c :: r =>
              if c = ',' then do
                let (l, r) ← readMembers fuel r
                some ((k, v) :: l, r)
              else if c = '}' then some ([(k, v)], r)
              else none
          else none
      else none
end

/-- `serde_json::from_str`, the text level: one value and white space. -/
def parseJson (s : List Char) : Option JText :=
  match readValue (s.length + 1) s with
  | none => none
  | some (v, r) => if (skipSpace r).isEmpty then some v else none

/-! ### Numbers and types -/

/-- How floats are written and read. -/
structure NumText (F D : Type) where
  /-- `serialize_f32` -/
  print32 : F → List Char
  /-- `serialize_f64` -/
  print64 : D → List Char
  /-- a number token as `f32` -/
  read32 : List Char → Option F
  /-- a number token as `f64` -/
  read64 : List Char → Option D

section
variable {F D : Type}

mutual
/-- The text of a document. -/
def Json.toText (N : NumText F D) : Json F D → JText
  | .null => .null
  | .bool b => .bool b
  | .nat n => .num (Nat.repr n).toList
  | .f32 x => .num (N.print32 x)
  | .f64 x => .num (N.print64 x)
  | .str s => .str s.toList
  | .arr l => .arr (Json.toTexts N l)
  | .obj l => .obj (Json.toMembers N l)
/-- The texts of the elements. -/
def Json.toTexts (N : NumText F D) : List (Json F D) → List JText
  | [] => []
  | j :: l => j.toText N :: Json.toTexts N l
/-- The texts of the members. -/
def Json.toMembers (N : NumText F D) : List (String × Json F D) → List (List Char × JText)
  | [] => []
  | (k, j) :: l => (k.toList, j.toText N) :: Json.toMembers N l
end

/-- The types by which numbers are read. -/
inductive Ty where
  | any
  | nat
  | f32
  | f64
  | arr (t : Ty)
  | obj (members : List (String × Ty))

/-- The type of the elements. -/
def Ty.elem : Ty → Ty
  | .arr t => t
  | _ => .any

/-- The type of a member. -/
def Ty.member (t : Ty) (name : String) : Ty :=
  match t with
  | .obj l => (l.lookup name).getD .any
  | _ => .any

/-- A number token where a type is asked for; a number where none is used has no value. -/
def readNumberAs (N : NumText F D) (tok : List Char) : Ty → Option (Json F D)
  | .nat => (String.ofList tok).toNat?.map .nat
  | .f32 => (N.read32 tok).map .f32
  | .f64 => (N.read64 tok).map .f64
  | _ => some (.nat 0)

mutual
/-- Give the numbers of a document their types. -/
def JText.typed (N : NumText F D) (t : Ty) : JText → Option (Json F D)
  | .null => some .null
  | .bool b => some (.bool b)
  | .num tok => readNumberAs N tok t
  | .str s => some (.str (String.ofList s))
  | .arr l => (JText.typedElems N t.elem l).map .arr
  | .obj l => (JText.typedMembers N t l).map .obj
/-- The elements. -/
def JText.typedElems (N : NumText F D) (t : Ty) : List JText → Option (List (Json F D))
  | [] => some []
  | v :: l => do
    let j ← v.typed N t
    let js ← JText.typedElems N t l
    some (j :: js)
/-- The members. -/
def JText.typedMembers (N : NumText F D) (t : Ty) : List (List Char × JText) →
    Option (List (String × Json F D))
  | [] => some []
  | (k, v) :: l => do
    let j ← v.typed N (t.member (String.ofList k))
    let js ← JText.typedMembers N t l
    some ((String.ofList k, j) :: js)
end

/-- The types of the members of `Node` (src/node.rs 32-45). -/
def nodeTy : Ty :=
  .obj [("num", .nat), ("weight_value", .f32), ("hessian_sum", .f32), ("depth", .nat), ("split_value", .f64),
    ("split_feature", .nat), ("split_gain", .f32), ("missing_node", .nat), ("left_child", .nat),
    ("right_child", .nat)]

/-- `Tree` (src/tree.rs 16-19). -/
def treeTy : Ty := .obj [("nodes", .arr nodeTy)]

/-- `RowMajorMatrix<f64>` (src/data.rs 170-177). -/
def historyTy : Ty :=
  .obj [("data", .arr .f64), ("rows", .nat), ("cols", .nat), ("stride1", .nat), ("stride2", .nat)]

/-- `GradientBooster` (src/gradientbooster.rs 83-192). -/
def boosterTy : Ty :=
  .obj [("iterations", .nat), ("learning_rate", .f32), ("max_depth", .nat), ("max_leaves", .nat), ("l1", .f32),
    ("l2", .f32), ("gamma", .f32), ("max_delta_step", .f32), ("min_leaf_weight", .f32), ("base_score", .f64),
    ("nbins", .nat), ("subsample", .f32), ("top_rate", .f64), ("other_rate", .f64),
    ("colsample_bytree", .f64), ("seed", .nat), ("missing", .f64), ("early_stopping_rounds", .nat),
    ("terminate_missing_features", .arr .nat), ("evaluation_history", historyTy), ("best_iteration", .nat),
    ("prediction_iteration", .nat), ("log_iterations", .nat), ("trees", .arr treeTy)]

variable [Fl F] [Fl D]

/-- `json_dump`, the text (src/gradientbooster.rs 1031-1036), written in a given style; `save_booster` (1022-1028)
writes this text to a file. -/
def Booster.dumpText (N : NumText F D) (st : JStyle) (b : Booster F D) : List Char :=
  (b.jsonDump.toText N).render st

/-- `from_json` on a text (src/gradientbooster.rs 1041-1047); `load_booster` (1052-1058) reads the text from a
file. -/
def Booster.fromText (N : NumText F D) (s : List Char) : Except ForustError (Booster F D) :=
  match (parseJson s).bind (JText.typed N boosterTy) with
  | none => .error .unableToRead
  | some j => Booster.fromJson j

end

end Verif
