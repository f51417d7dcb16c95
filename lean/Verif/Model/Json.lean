import Verif.Model.PyDict
/-! # Model of JSON in marcel

`/repo/marcel/jsonutil.py` 21-53, `/repo/marcel/structish.py`, `/repo/marcel/builtin.py` `json_parse`, `json_format` 61-66; `/repo/marcel/op/read.py` `JSONReader` 268-281;
`/repo/marcel/op/expand.py` 106-121 (for a `Struct`).

Python's `json` is modelled between values and JSON trees (`Json`): how its encoder treats Python objects (natively, or by `default`), and how its decoder calls
`object_hook`, inside out. The text of a tree, and the tree of a text, are parameters. -/

namespace Marcel.JsonUtil

abbrev Str := List Char

/-- A JSON text, parsed. Floating point numbers are given by how they are written. -/
inductive Json
  | null
  | bool (b : Bool)
  | int (n : Int)
  | float (repr : Str)
  | str (s : Str)
  | arr (l : List Json)
  | obj (m : List (Str × Json))

/-- Keys of dictionaries. -/
inductive Key
  | str (s : Str)
  | int (n : Int)
  | bool (b : Bool)
  | none
  | other (n : Nat)
deriving DecidableEq, Repr

/-- Python values. `object`: something else with a `__dict__`; `bare`: something else without. -/
inductive Val
  | none
  | bool (b : Bool)
  | int (n : Int)
  | float (repr : Str)
  | str (s : Str)
  | list (l : List Val)
  | tuple (l : List Val)
  | dict (m : List (Key × Val))
  | struct (m : List (Str × Val))
  | object (m : List (Str × Val))
  | bare (n : Nat)

mutual
/-- `object_to_dict` 47-52 -/
def objectToDict : Val → Val
  | .struct m => .dict (objectToDictKV m)
  | .object m => .dict (objectToDictKV m)
  | v => v
/-- the comprehension in 49 -/
def objectToDictKV : List (Str × Val) → List (Key × Val)
  | [] => []
  | (k, v) :: m => (.str k, objectToDict v) :: objectToDictKV m
end

/-- json.encoder: the text of a key; none: TypeError. `dec`: `str` of an integer. -/
def keyText (dec : Int → Str) : Key → Option Str
  | .str s => some s
  | .int n => some (dec n)
  | .bool true => some "true".toList
  | .bool false => some "false".toList
  | .none => some "null".toList
  | .other _ => Option.none

mutual
/-- The encoder: `JSONEncoder.iterencode` with `default` = `object_to_dict` (28-31); none: an exception. For an object which is not encoded natively, `default` is called, and the result is encoded
(`encodeDefault`, see `encodeDefault_eq`); if it is the object itself, this is "Circular reference detected". -/
def encode (dec : Int → Str) : Val → Option Json
  | .none => some .null
  | .bool b => some (.bool b)
  | .int n => some (.int n)
  | .float r => some (.float r)
  | .str s => some (.str s)
  | .list l => (encodeList dec l).map .arr
  | .tuple l => (encodeList dec l).map .arr
  | .dict m => (encodeDict dec m).map .obj
  | .struct m => (encodeAttrs dec m).map .obj
  | .object m => (encodeAttrs dec m).map .obj
  | .bare _ => Option.none
/-- the elements of a list -/
def encodeList (dec : Int → Str) : List Val → Option (List Json)
  | [] => some []
  | v :: l => match encode dec v, encodeList dec l with
    | some j, some r => some (j :: r)
    | _, _ => Option.none
/-- the entries of a dictionary -/
def encodeDict (dec : Int → Str) : List (Key × Val) → Option (List (Str × Json))
  | [] => some []
  | (k, v) :: m => match keyText dec k, encode dec v, encodeDict dec m with
    | some t, some j, some r => some ((t, j) :: r)
    | _, _, _ => Option.none
/-- the entries of the dictionary that `object_to_dict` makes of attributes -/
def encodeAttrs (dec : Int → Str) : List (Str × Val) → Option (List (Str × Json))
  | [] => some []
  | (k, v) :: m => match encodeDefault dec v, encodeAttrs dec m with
    | some j, some r => some ((k, j) :: r)
    | _, _ => Option.none
/-- `encode` of `object_to_dict` -/
def encodeDefault (dec : Int → Str) : Val → Option Json
  | .struct m => (encodeAttrs dec m).map .obj
  | .object m => (encodeAttrs dec m).map .obj
  | .none => some .null
  | .bool b => some (.bool b)
  | .int n => some (.int n)
  | .float r => some (.float r)
  | .str s => some (.str s)
  | .list l => (encodeList dec l).map .arr
  | .tuple l => (encodeList dec l).map .arr
  | .dict m => (encodeDict dec m).map .obj
  | .bare _ => Option.none
end

mutual
/-- `dict_to_object` 37-45 -/
def dictToObject : Val → Val
  | .dict m => .struct (dictToObjectKV m)
  | .list l => .list (dictToObjectList l)
  | v => v
/-- the comprehension in 40; the decoder's dictionaries have strings as keys, others are left out here. -/
def dictToObjectKV : List (Key × Val) → List (Str × Val)
  | [] => []
  | (.str k, v) :: m => (k, dictToObject v) :: dictToObjectKV m
  | _ :: m => dictToObjectKV m
/-- the comprehension in 43 -/
def dictToObjectList : List Val → List Val
  | [] => []
  | v :: l => dictToObject v :: dictToObjectList l
end

/-- `dict(pairs)`, for the pairs of a JSON object: a key that occurs again replaces the value. -/
def dictOfPairs (m : List (Key × Val)) : List (Key × Val) := Dict.update [] m

mutual
/-- The decoder with `object_hook` = `dict_to_object` (23-26): objects inside are made first. -/
def decode : Json → Val
  | .null => .none
  | .bool b => .bool b
  | .int n => .int n
  | .float r => .float r
  | .str s => .str s
  | .arr l => .list (decodeList l)
  | .obj m => dictToObject (.dict (dictOfPairs (decodeKV m)))
/-- the elements of an array -/
def decodeList : List Json → List Val
  | [] => []
  | j :: l => decode j :: decodeList l
/-- the pairs of an object -/
def decodeKV : List (Str × Json) → List (Key × Val)
  | [] => []
  | (k, j) :: m => (.str k, decode j) :: decodeKV m
end

/-- Python's `json`, between trees and texts. -/
structure Texts where
  print : Json → Str
  parse : Str → Option Json
  dec : Int → Str

/-- `json_parse` 61-62; none: JSONDecodeError -/
def jsonParse (T : Texts) (t : Str) : Option Val := (T.parse t).map decode

/-- `json_format` 65-66; none: TypeError or ValueError -/
def jsonFormat (T : Texts) (v : Val) : Option Str := (encode T.dec v).map T.print

/-- `expand` of a `Struct` (expand.py 117-118): `only.items()`. An attribute called `items` hides the method; then the call fails (no value that comes from JSON can be called). -/
def structItems (m : List (Str × Val)) : Option (List Val) :=
  match Dict.get? m "items".toList with
  | some _ => Option.none
  | Option.none => some (m.map fun kv => .tuple [.str kv.1, kv.2])

/-- `x['key']` (structish.py 21-22); none: KeyError -/
def structGet (m : List (Str × Val)) (k : Str) : Option Val := Dict.get? m k

end Marcel.JsonUtil
