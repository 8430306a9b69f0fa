import Verif.Model.JsonText

/-!
# Saving to and loading from a file

`save_booster` and `load_booster` (src/gradientbooster.rs 1022-1028, 1052-1058; wrapped by py-forust/src/lib.rs
312-317 and 341-348), with the files as bytes.

Simplifications: a path names one file and two paths name two files (no links); a file is present with its bytes or
absent; the content of the error messages is left out.
-/

namespace Verif

variable {F D P : Type}

/-- The files: the bytes at each path, if there is a file. -/
abbrev Disk (P : Type) := P → Option ByteArray

/-- What the operating system makes of one `fs::write`, which opens the file with truncation and then writes all
bytes: the file could not be opened, the writing stopped after `n` bytes (a full disk, a killed process), or all was
written. -/
inductive WriteFate where
  | refused
  | stopped (n : Nat)
  | done
  deriving DecidableEq, Repr

/-- `ForustError::UnableToWrite` (src/errors.rs 7-8). -/
inductive SaveError where
  | unableToWrite
  deriving DecidableEq, Repr

/-- The bytes of a Rust `String`, its UTF-8 encoding (`String.utf8EncodeChar` of Lean's core library encodes one
character). -/
def utf8Bytes (s : List Char) : ByteArray := (s.flatMap String.utf8EncodeChar).toByteArray

/-- `fs::write`, called at src/gradientbooster.rs 1024. -/
def writeFile [DecidableEq P] (d : Disk P) (p : P) (bytes : ByteArray) : WriteFate → Disk P × Except SaveError Unit
  | .refused => (d, .error .unableToWrite)
  | .stopped n => (fun x => if x = p then some (bytes.extract 0 n) else d x, .error .unableToWrite)
  | .done => (fun x => if x = p then some bytes else d x, .ok ())

/-- `fs::read_to_string`, called at src/gradientbooster.rs 1053: fails if there is no file, if it may not be read, or
if its bytes are not UTF-8. -/
def readToString (d : Disk P) (readable : P → Bool) (p : P) : Option (List Char) :=
  if readable p then ((d p).bind ByteArray.utf8Decode?).map Array.toList else none

section
variable [Fl F] [Fl D]

/-- `save_booster` (src/gradientbooster.rs 1022-1028). -/
def Booster.saveBooster [DecidableEq P] (N : NumText F D) (b : Booster F D) (d : Disk P) (p : P) (fate : WriteFate) :
    Disk P × Except SaveError Unit :=
  writeFile d p (utf8Bytes (b.dumpText N serdeStyle)) fate

/-- `load_booster` (src/gradientbooster.rs 1052-1058). -/
def Booster.loadBooster (N : NumText F D) (d : Disk P) (readable : P → Bool) (p : P) :
    Except ForustError (Booster F D) :=
  match readToString d readable p with
  | none => .error .unableToRead
  | some s => Booster.fromText N s

end

end Verif
