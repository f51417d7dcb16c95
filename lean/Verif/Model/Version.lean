/-! # Model of the version file

`/repo/marcel/persistence/storagelayout.py` 48-62, 91-93 (the same code is in `/repo/marcel/main.py` 172-188). Strings are lists of code points. -/

namespace Marcel.Version

/-- A string: its code points. -/
abbrev Str := List Nat

/-- Python's `<` on strings. -/
def strLt : Str → Str → Bool
  | [], [] => false
  | [], _ :: _ => true
  | _ :: _, [] => false
  | a :: s, b :: t => if a < b then true else if b < a then false else strLt s t

/-- The string `'0.0.0'`. -/
def zero : Str := [48, 46, 48, 46, 48]

/-- `installed_version` 55-62: the version file, if there is one. -/
def installed (file : Option Str) : Str := file.getD zero

/-- 91-93: marcel with version `running` starts; the result is the version file afterwards. -/
def start (running : Str) (file : Option Str) : Option Str :=
  if strLt (installed file) running then some running else file

end Marcel.Version
