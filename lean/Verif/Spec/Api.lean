import Verif.Model.Api
import Verif.Spec.ArgSpec

/-! # Specification of the operators in Python's API (for C71)

What each function of the API is to store in the operator it returns, from the parameters of the call; which parameters exclude each other (according to the help). From the model only the
calls are used, and the names of the conversions. -/

namespace Marcel.Api

open PyArg

variable {V : Type} [PyArg V]

/-- What a field of the operator is to hold. -/
inductive Val (V : Type)
  /-- True if the parameter is true, otherwise what it held before. -/
  | switch (b : Bool)
  /-- The value given, converted; if none is given, what it held before. -/
  | flagged (f : V → Option V) (x : Option V)
  /-- The value given, converted. -/
  | conv (f : V → Option V) (x : V)
  /-- This value. -/
  | raw (v : V)
  /-- The list of the values given, each converted. -/
  | convs (f : V → Option V) (xs : List V)

/-- The field held `before`, and holds `after`. -/
def Val.Holds (before after : Option (ArgValue V)) : Val V → Prop
  | .switch b => after = if b then some (.one tru) else before
  | .flagged _ none => after = before
  | .flagged f (some x) => ∃ r, f x = some r ∧ after = some (.one r)
  | .conv f x => ∃ r, f x = some r ∧ after = some (.one r)
  | .raw v => after = some (.one v)
  | .convs f xs => ∃ rs, xs.map f = rs.map some ∧ after = some (.list rs)

/-- The value is one that can be converted. If the operator has flags (`strict`), it does not look like one; and `True` is no value for a flag. -/
def Val.Accepted (strict : Bool) : Val V → Prop
  | .switch _ => True
  | .flagged _ none => True
  | .flagged f (some x) => ¬ LooksLikeFlag x ∧ ∃ r, f x = some r ∧ isTrue r = false
  | .conv f x => (strict = true → ¬ LooksLikeFlag x) ∧ (f x).isSome = true
  | .raw _ => True
  | .convs f xs => ∀ x ∈ xs, (strict = true → ¬ LooksLikeFlag x) ∧ (f x).isSome = true

/-- An optional parameter that has a default if it is not given. -/
def orDefault (f : V → Option V) (x : Option V) (default : V) : Val V :=
  match x with
  | some v => .conv f v
  | none => .raw default

/-- The fields of the operator. -/
def Call.fields (py : Py V) : Call V → List (Str × Val V)
  | .args p all => [("all".toList, .switch all), ("pipeline".toList, .conv py.checkPipeline p)]
  | .assign var value => [("var".toList, .conv some var), ("value".toList, .conv some value)]
  | .bash xs i => [("interactive".toList, .switch i), ("args_arg".toList, .convs py.checkStr xs)]
  | .case xs => [("args".toList, .convs py.functionOrPipeline xs)]
  | .cast types => [("types".toList, .convs some types)]
  | .cd d => [("directory_arg".toList, orDefault py.checkStrOrFile d (ofStr "~".toList))]
  | .difference p => [("pipeline".toList, .conv py.checkPipeline p)]
  | .dirs clear => [("clear".toList, .switch (clear = some true))]
  | .download dir cluster paths =>
    [("dir_arg".toList, .conv py.checkStrOrFile dir), ("cluster".toList, .conv py.cluster cluster), ("filenames_arg".toList, .convs py.checkStrOrFile paths)]
  | .env var delete pattern os builtins =>
    [("delete".toList, .flagged some delete), ("pattern".toList, .flagged some pattern), ("os".toList, .switch os), ("builtins".toList, .switch builtins),
      ("var".toList, orDefault some var py.none_)]
  | .expand position => [("position_arg".toList, orDefault py.strToInt position py.none_)]
  | .filt p compare keep discard =>
    [("keep".toList, .switch keep), ("discard".toList, .switch discard), ("compare".toList, .flagged some compare), ("pipeline".toList, .conv py.checkPipeline p)]
  | .fork forkgen p => [("forkgen".toList, .conv py.forkGen forkgen), ("pipeline_arg".toList, .conv py.checkPipeline p)]
  | .gen count start pad =>
    [("pad_arg".toList, .flagged py.strToInt pad), ("count_arg".toList, .conv py.strToInt (count.getD py.zero)), ("start_arg".toList, .conv py.strToInt (start.getD py.zero))]
  | .head n => [("n_arg".toList, .conv py.strToInt n)]
  | .intersect p => [("pipelines".toList, .convs py.checkPipeline [p])]
  | .join p keep => [("keep".toList, .switch keep), ("pipeline".toList, .conv py.checkPipeline p)]
  | .load target => [("var".toList, .conv some target)]
  | .ls paths depth recursive file dir symlink =>
    [("d0".toList, .switch (depth = some 0)), ("d1".toList, .switch (depth = some 1)), ("dr".toList, .switch recursive), ("file".toList, .switch file), ("dir".toList, .switch dir),
      ("symlink".toList, .switch symlink), ("filenames_arg".toList, .convs py.checkStrOrFile paths)]
  | .map f => [("function".toList, .conv py.function f)]
  | .popd => []
  | .pushd d => [("directory_arg".toList, orDefault py.checkStrOrFile d py.none_)]
  | .pwd => []
  | .read filenames depth recursive csv tsv headings skipHeadings pickle json label =>
    [("d0".toList, .switch (depth = some 0)), ("d1".toList, .switch (depth = some 1)), ("dr".toList, .switch recursive), ("csv".toList, .switch csv), ("tsv".toList, .switch tsv),
      ("headings".toList, .switch headings), ("skip_headings".toList, .switch skipHeadings), ("pickle".toList, .switch pickle), ("json".toList, .switch json),
      ("label".toList, .switch label), ("filenames_arg".toList, .convs py.checkStrOrFile filenames)]
  | .red fs incremental => [("incremental".toList, .switch incremental), ("functions".toList, .convs py.function (fs.map (·.getD py.rGroup)))]
  | .remote cluster p => [("cluster".toList, .conv py.cluster cluster), ("pipeline".toList, .conv py.checkPipeline p)]
  | .reverse => []
  | .select f => [("function".toList, .conv py.function f)]
  | .sort key => [("key".toList, orDefault py.function key py.none_)]
  | .sql statement xs db autocommit updateCounts commit =>
    [("dbvar".toList, .flagged some db), ("autocommit".toList, .switch autocommit), ("update_counts".toList, .switch updateCounts), ("commit".toList, .flagged py.strToInt commit),
      ("statement_arg".toList, .conv some statement), ("args_arg".toList, .convs some xs)]
  | .squish f => [("function".toList, orDefault py.function f py.none_)]
  | .store var append => [("append".toList, .switch append), ("var".toList, .conv some var)]
  | .sudo p xs => [("args".toList, .convs py.strOrPipeline (xs ++ [p]))]
  | .tail n => [("n_arg".toList, .conv py.strToInt n)]
  | .timer interval => [("interval".toList, .conv py.toFloat interval)]
  | .trace off on file => [("off".toList, .switch off), ("on".toList, .switch on), ("filename".toList, .flagged some file)]
  | .union ps => [("pipelines".toList, .convs py.checkPipeline ps)]
  | .unique consecutive => [("consecutive".toList, .switch consecutive)]
  | .upload cluster dir paths =>
    [("cluster".toList, .conv py.cluster cluster), ("dir_arg".toList, .conv py.checkStrOrFile dir), ("filenames_arg".toList, .convs py.checkStrOrFile paths)]
  | .version => []
  | .window predicate overlap disjoint =>
    [("overlap_arg".toList, .flagged py.strToInt overlap), ("disjoint_arg".toList, .flagged py.strToInt disjoint), ("predicate".toList, orDefault py.function predicate py.none_)]
  | .write filename csv tsv pickle format append =>
    [("csv".toList, .switch csv), ("tsv".toList, .switch tsv), ("pickle".toList, .switch pickle), ("format".toList, .flagged some format), ("append".toList, .switch append),
      ("filename_arg".toList, orDefault py.checkStr filename py.none_)]

/-- Of several parameters, at most one is given. -/
def AtMostOne (l : List Bool) : Prop := (l.filter id).length ≤ 1

/-- Of several parameters, exactly one is given. -/
def ExactlyOne (l : List Bool) : Prop := (l.filter id).length = 1

/-- Parameters that exclude each other are not given together. -/
def Call.Exclusive : Call V → Prop
  | .env var delete pattern os builtins => AtMostOne [delete.isSome, var.isSome, pattern.isSome] ∧ AtMostOne [delete.isSome, os] ∧ AtMostOne [builtins, os]
  | .filt _ _ keep discard => AtMostOne [keep, discard]
  | .ls _ depth recursive _ _ _ => AtMostOne [depth.isSome, recursive]
  | .read _ depth recursive csv tsv headings skipHeadings pickle json _ =>
    AtMostOne [depth.isSome, recursive] ∧ AtMostOne [csv, tsv, pickle, json] ∧ AtMostOne [headings, skipHeadings]
  | .sql _ _ _ autocommit _ commit => AtMostOne [autocommit, commit.isSome]
  | .trace off on file => AtMostOne [on, off, file.isSome]
  | .window predicate overlap disjoint => ExactlyOne [overlap.isSome, disjoint.isSome, predicate.isSome]
  | .write _ csv tsv pickle format _ => AtMostOne [csv, tsv, pickle, format.isSome]
  | _ => True

/-- A value given is true for Python. -/
def TrueIfGiven (py : Py V) (x : Option V) : Prop := ∀ v, x = some v → py.truth v = true

/-- Calls for which the code does not do what it should otherwise: values that Python takes for false, `dirs(clear=False)`, a depth other than 0 and 1. -/
def Call.Regular (py : Py V) : Call V → Prop
  | .dirs clear => clear ≠ some false
  | .env var delete pattern _ _ => TrueIfGiven py var ∧ TrueIfGiven py delete ∧ TrueIfGiven py pattern
  | .filt _ compare _ _ => TrueIfGiven py compare
  | .gen _ _ pad => TrueIfGiven py pad
  | .ls _ depth _ _ _ _ => ∀ n, depth = some n → n ≤ 1
  | .read _ depth _ _ _ _ _ _ _ _ => ∀ n, depth = some n → n ≤ 1
  | .sql _ _ db _ _ _ => TrueIfGiven py db
  | .trace _ _ file => TrueIfGiven py file
  | .window predicate _ _ => TrueIfGiven py predicate
  | .write filename _ _ _ format _ => TrueIfGiven py filename ∧ TrueIfGiven py format
  | _ => True

/-- The operator has flags. -/
def Call.hasFlags : Call V → Bool
  | .args .. | .bash .. | .dirs .. | .env .. | .filt .. | .gen .. | .join .. | .ls .. | .read .. | .red .. | .sql .. | .store .. | .trace .. | .unique .. | .window .. | .write .. => true
  | _ => false

end Marcel.Api
