import Verif.Num

/-!
# Python's `ast.literal_eval` on texts which begin with a quote, and on integers

Written from the Python reference (lexical analysis of string literals).  The result is the string
which the text denotes, and nothing for a text which is refused or denotes something else (a tuple).
-/

namespace Verif

/-- The tokenizer turns carriage returns (with or without a line feed) into line feeds. -/
def newlines : List Char → List Char
  | [] => []
  | '\r' :: '\n' :: l => '\n' :: newlines l
  | '\r' :: l => '\n' :: newlines l
  | c :: l => c :: newlines l

/-- The value of a hexadecimal digit. -/
def hexVal (c : Char) : Option Nat :=
  if c.isDigit then some (c.toNat - '0'.toNat)
  else if 'a' ≤ c ∧ c ≤ 'f' then some (c.toNat - 'a'.toNat + 10)
  else if 'A' ≤ c ∧ c ≤ 'F' then some (c.toNat - 'A'.toNat + 10)
  else none

/-- Exactly `n` hexadecimal digits. -/
def hexes : Nat → Nat → List Char → Option (Nat × List Char)
  | 0, acc, l => some (acc, l)
  | _ + 1, _, [] => none
  | n + 1, acc, c :: l => do hexes n (acc * 16 + (← hexVal c)) l

/-- At most `n` octal digits. -/
def octals : Nat → Nat → List Char → Nat × List Char
  | 0, acc, l => (acc, l)
  | _ + 1, acc, [] => (acc, [])
  | n + 1, acc, c :: l =>
    if '0' ≤ c ∧ c ≤ '7' then octals n (acc * 8 + (c.toNat - '0'.toNat)) l else (acc, c :: l)

/-- Text up to a closing brace. -/
def toBrace : List Char → Option (List Char × List Char)
  | [] => none
  | '}' :: l => some ([], l)
  | c :: l => (toBrace l).map fun p => (c :: p.1, p.2)

/-- The escape sequence which begins with a backslash and the given character: what it stands for, and
what follows.  `named` looks up a character by its Unicode name. -/
def escape (named : List Char → Option Char) (c : Char) (l : List Char) :
    Option (List Char × List Char) :=
  match c with
  | '\n' => some ([], l)
  | '\\' => some (['\\'], l)
  | '\'' => some (['\''], l)
  | '"' => some (['"'], l)
  | 'a' => some ([Char.ofNat 7], l)
  | 'b' => some ([Char.ofNat 8], l)
  | 'f' => some ([Char.ofNat 12], l)
  | 'n' => some (['\n'], l)
  | 'r' => some (['\r'], l)
  | 't' => some (['\t'], l)
  | 'v' => some ([Char.ofNat 11], l)
  | 'x' => (hexes 2 0 l).map fun p => ([Char.ofNat p.1], p.2)
  | 'u' => (hexes 4 0 l).map fun p => ([Char.ofNat p.1], p.2)
  | 'U' => (hexes 8 0 l).map fun p => ([Char.ofNat p.1], p.2)
  | 'N' => match l with
    | '{' :: l => do
      let (name, l) ← toBrace l
      let ch ← named name
      some ([ch], l)
    | _ => none
  | c =>
    if '0' ≤ c ∧ c ≤ '7' then
      let p := octals 2 (c.toNat - '0'.toNat) l
      some ([Char.ofNat p.1], p.2)
    else some (['\\', c], l)

/-- The inside of a string literal up to the closing delimiter: the string and what follows.  A line
break ends a literal with a single delimiter; in a raw literal backslashes stand for themselves.  The
first argument is the number of steps (the length of the text is enough). -/
def readStr (named : List Char → Option Char) (raw : Bool) (delim : List Char) :
    Nat → List Char → Option (List Char × List Char)
  | 0, _ => none
  | fuel + 1, l =>
    if delim.isPrefixOf l then some ([], l.drop delim.length)
    else match l with
      | [] => none
      | [_] => none
      | '\\' :: c :: l =>
        if raw then (readStr named raw delim fuel l).map fun p => ('\\' :: c :: p.1, p.2)
        else do
          let (v, l) ← escape named c l
          let (w, l) ← readStr named raw delim fuel l
          some (v ++ w, l)
      | c :: l =>
        if c = '\n' ∧ delim.length = 1 then none
        else (readStr named raw delim fuel l).map fun p => (c :: p.1, p.2)

/-- The rest of a line contains no further token: blanks, line breaks, comments. -/
def noToken : Bool → List Char → Bool
  | _, [] => true
  | _, '\n' :: l => noToken false l
  | true, _ :: l => noToken true l
  | false, c :: l =>
    if c = '#' then noToken true l
    else (c == ' ' || c == '\t' || c == Char.ofNat 12) && noToken false l

/-- Spaces between tokens. -/
def skipBlanks : List Char → List Char
  | '\\' :: '\n' :: l => skipBlanks l
  | c :: l => if c = ' ' ∨ c = '\t' ∨ c = Char.ofNat 12 then skipBlanks l else c :: l
  | [] => []

/-- One string token: a quote, possibly tripled, possibly with the prefix `r` or `u`.  (Byte strings and
f-strings are not strings for `literal_eval`.) -/
def readToken (named : List Char → Option Char) : List Char → Option (List Char × List Char)
  | '\'' :: '\'' :: '\'' :: l => readStr named false ['\'', '\'', '\''] (l.length + 1) l
  | '\'' :: l => readStr named false ['\''] (l.length + 1) l
  | '"' :: '"' :: '"' :: l => readStr named false ['"', '"', '"'] (l.length + 1) l
  | '"' :: l => readStr named false ['"'] (l.length + 1) l
  | c :: '\'' :: '\'' :: '\'' :: l =>
    if c = 'r' ∨ c = 'R' ∨ c = 'u' ∨ c = 'U' then
      readStr named (c = 'r' ∨ c = 'R') ['\'', '\'', '\''] (l.length + 1) l else none
  | c :: '\'' :: l =>
    if c = 'r' ∨ c = 'R' ∨ c = 'u' ∨ c = 'U' then
      readStr named (c = 'r' ∨ c = 'R') ['\''] (l.length + 1) l else none
  | c :: '"' :: '"' :: '"' :: l =>
    if c = 'r' ∨ c = 'R' ∨ c = 'u' ∨ c = 'U' then
      readStr named (c = 'r' ∨ c = 'R') ['"', '"', '"'] (l.length + 1) l else none
  | c :: '"' :: l =>
    if c = 'r' ∨ c = 'R' ∨ c = 'u' ∨ c = 'U' then
      readStr named (c = 'r' ∨ c = 'R') ['"'] (l.length + 1) l else none
  | _ => none

/-- Adjacent string tokens are put together; anything else after them makes the text no string. -/
def readTokens (named : List Char → Option Char) : Nat → List Char → Option (List Char)
  | 0, _ => none
  | fuel + 1, l => do
    let (v, l) ← readToken named l
    if noToken false l then some v
    else do
      let w ← readTokens named fuel (skipBlanks l)
      some (v ++ w)

/-- The string denoted by a text which begins with a quote. -/
def literalStr (named : List Char → Option Char) (text : List Char) : Option (List Char) :=
  if Char.ofNat 0 ∈ text then none
  else readTokens named (text.length + 1) (newlines text)

/-- A decimal number without sign and superfluous zeros. -/
def literalNat (l : List Char) : Option Nat :=
  if l.all Char.isDigit ∧ l ≠ [] ∧ (l.head? = some '0' → l.length = 1) then
    some (l.foldl (fun n c => n * 10 + (c.toNat - '0'.toNat)) 0) else none

/-- The integer denoted by a text. -/
def literalInt : List Char → Option Int
  | '-' :: l => (literalNat l).map fun n => -(n : Int)
  | l => (literalNat l).map fun n => (n : Int)

end Verif
