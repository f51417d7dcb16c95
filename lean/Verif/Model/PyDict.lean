/-!
# Python dictionaries

An insertion-ordered dictionary as an association list: assignment replaces in place or appends,
as documented for Python >= 3.7.
-/

namespace Marcel

/-- A Python `dict` (insertion ordered). -/
abbrev Dict (κ ν : Type) : Type := List (κ × ν)

namespace Dict
variable {κ ν : Type} [DecidableEq κ]

/-- `d.get(k)`; `none` if absent. -/
def get? (d : Dict κ ν) (k : κ) : Option ν :=
  match d with
  | [] => none
  | (k', v) :: d => if k' = k then some v else get? d k

/-- `d[k] = v`. -/
def set (d : Dict κ ν) (k : κ) (v : ν) : Dict κ ν :=
  match d with
  | [] => [(k, v)]
  | (k', v') :: d => if k' = k then (k', v) :: d else (k', v') :: set d k v

/-- `del d[k]` (no effect if absent; the callers check). -/
def erase (d : Dict κ ν) (k : κ) : Dict κ ν :=
  match d with
  | [] => []
  | (k', v') :: d => if k' = k then d else (k', v') :: erase d k

/-- `d.keys()`. -/
def keys (d : Dict κ ν) : List κ := d.map (·.1)

/-- `k in d`. -/
def has (d : Dict κ ν) (k : κ) : Bool := (d.get? k).isSome

/-- `d.update(e)`. -/
def update (d e : Dict κ ν) : Dict κ ν := e.foldl (fun d kv => d.set kv.1 kv.2) d

end Dict
end Marcel
