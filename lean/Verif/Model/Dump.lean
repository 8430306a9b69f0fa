import Verif.Model.Booster

/-!
# The text dump of a model (`py-forust/src/lib.rs`)
-/

namespace Verif

variable {F D : Type}

/-- `text_dump` (py-forust/src/lib.rs 304-310; `__init__.py` 922-939 returns it unchanged); `sf` and `sd` format
numbers. -/
def Booster.textDump (sf : F → String) (sd : D → String) (b : Booster F D) : Res (List String) :=
  Res.mapM' (fun t => t.display sf sd) b.trees

end Verif
