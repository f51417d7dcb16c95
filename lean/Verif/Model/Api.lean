import Verif.Model.Args

/-! # Model of the operators in Python's API

`/repo/marcel/api.py` 108-244: each function of the API calls the function of the same name of the operator's module (`/repo/marcel/op/*.py`), which makes an operator and a list of
arguments, as on the command line; `_generate_op` 239-243 parses them by the declarations of the operator (`Model/Args`), which stores the values in the operator.

Here: the list of arguments for every function of the API that has one (`Call.arglist`), and the declarations of these operators (`Call.decl`). Values of Python are elements of `V`, `None` given for an
optional parameter is `none`. Parameters that are used only as flags are `Bool`. The functions that convert arguments (argsparser.py 176-289) are parameters (`Py`).

Not modelled: assertions about the types of arguments, `load` and `store` checking that they are given a name or a reservoir, `remote` wrapping a pipeline that is a function.
`ps` stores its arguments without parsing: see below. -/

namespace Marcel.Api

open PyArg

/-- What is left open about Python's values: conversions (`none`: they raise an exception), truth, `None`, and the function that `.` stands for in `red`. -/
structure Py (V : Type) where
  strToInt : V → Option V
  toFloat : V → Option V
  checkStr : V → Option V
  checkStrOrFile : V → Option V
  checkPipeline : V → Option V
  function : V → Option V
  functionOrPipeline : V → Option V
  forkGen : V → Option V
  cluster : V → Option V
  strOrPipeline : V → Option V
  truth : V → Bool
  none_ : V
  zero : V
  rGroup : V

variable {V : Type} [PyArg V]

/-! ## Declarations -/

/-- argsparser.py 134-135, `add_flag_no_value` -/
def flag0 (name short : String) (long : Option String) : FlagDecl V :=
  ⟨name.toList, some short.toList, long.map String.toList, .noValue, tru, name.toList, some⟩

/-- argsparser.py 137-138, `add_flag_one_value` -/
def flag1 (name short long : String) (target : String) (convert : V → Option V) : FlagDecl V :=
  ⟨name.toList, some short.toList, some long.toList, .oneValue, tru, target.toList, convert⟩

/-- argsparser.py 143-144, `add_anon` -/
def anon (name target : String) (convert : V → Option V) : AnonDecl V := ⟨name.toList, none, target.toList, convert⟩

/-- argsparser.py 143-144, `add_anon` with a default -/
def anonDefault (name target : String) (default : V) (convert : V → Option V) : AnonDecl V := ⟨name.toList, some default, target.toList, convert⟩

/-- argsparser.py 146-147, `add_anon_list` -/
def anonList (name target : String) (convert : V → Option V) : Option (AnonListDecl V) := some ⟨name.toList, target.toList, convert⟩

/-- Declarations without flags. -/
def plain (anons : List (AnonDecl V)) (list : Option (AnonListDecl V) := none) : ArgsDecl V := ⟨[], anons, list, [], []⟩

/-- argsparser.py 149-150: the names that exclude each other. -/
def names (l : List String) : List Str := l.map String.toList

/-! ## Calls -/

/-- A call of a function of the API. -/
inductive Call (V : Type)
  | args (pipeline : V) (all : Bool)
  | assign (var value : V)
  | bash (args : List V) (interactive : Bool)
  | case (args : List V)
  | cast (types : List V)
  | cd (directory : Option V)
  | difference (pipeline : V)
  | dirs (clear : Option Bool)
  | download (dir cluster : V) (paths : List V)
  | env (var delete pattern : Option V) (os builtins : Bool)
  | expand (position : Option V)
  | filt (pipeline : V) (compare : Option V) (keep discard : Bool)
  | fork (forkgen pipeline : V)
  | gen (count start : Option V) (pad : Option V)
  | head (n : V)
  | intersect (pipeline : V)
  | join (pipeline : V) (keep : Bool)
  | load (target : V)
  | ls (paths : List V) (depth : Option Nat) (recursive file dir symlink : Bool)
  | map (function : V)
  | popd
  | pushd (directory : Option V)
  | pwd
  | read (filenames : List V) (depth : Option Nat) (recursive csv tsv headings skipHeadings pickle json label : Bool)
  | red (functions : List (Option V)) (incremental : Bool)
  | remote (cluster pipeline : V)
  | reverse
  | select (function : V)
  | sort (key : Option V)
  | sql (statement : V) (args : List V) (db : Option V) (autocommit updateCounts : Bool) (commit : Option V)
  | squish (function : Option V)
  | store (var : V) (append : Bool)
  | sudo (pipeline : V) (args : List V)
  | tail (n : V)
  | timer (interval : V)
  | trace (off on : Bool) (file : Option V)
  | union (pipelines : List V)
  | unique (consecutive : Bool)
  | upload (cluster dir : V) (paths : List V)
  | version
  | window (predicate overlap disjoint : Option V)
  | write (filename : Option V) (csv tsv pickle : Bool) (format : Option V) (append : Bool)

/-- `if b: args.append(flag)` -/
def switch (b : Bool) (flag : String) : List V := if b then [ofStr flag.toList] else []

/-- `if x is not None: args.extend([flag, x])` -/
def option (x : Option V) (flag : String) : List V :=
  match x with
  | some v => [ofStr flag.toList, v]
  | none => []

/-- `if x:`, for a parameter whose default is None -/
def truthy (py : Py V) (x : Option V) : Option V := x.filter py.truth

/-- `if depth == 0: args.append('-0') elif depth == 1: args.append('-1')` -/
def depthArgs (depth : Option Nat) : List V :=
  if depth = some 0 then [ofStr "-0".toList] else if depth = some 1 then [ofStr "-1".toList] else []

/-- The lists of arguments. -/
def Call.arglist (py : Py V) : Call V → List V
  -- op/args.py 47-51; the declarations: 54-60
  | .args p all => switch all "--all" ++ [p]
  -- op/assign.py 24-25; the declarations: 28-34
  | .assign var value => [var, value]
  -- op/bash.py 71-74; the declarations: 77-83
  | .bash xs i => switch i "--interactive" ++ xs
  -- op/case.py 60-61; the declarations: 64-69
  | .case xs => xs
  -- op/cast.py 34-35; the declarations: 38-43
  | .cast types => types
  -- op/cd.py 34-35; the declarations: 38-43
  | .cd d => d.toList
  -- op/difference.py 52-54; the declarations: 57-62
  | .difference p => [p]
  -- op/dirs.py 31-32; the declarations: 35-40
  | .dirs clear => if clear = none then [] else [ofStr "--clear".toList]
  -- op/download.py 54-55; the declarations: 58-65
  | .download dir cluster paths => [dir, cluster] ++ paths
  -- op/env.py 65-77; the declarations: 80-92
  | .env var delete pattern os builtins =>
    option (truthy py delete) "-d" ++ option (truthy py pattern) "-p" ++ switch os "--os" ++ switch builtins "--builtins" ++ (truthy py var).toList
  -- op/expand.py 72-73; the declarations: 76-81
  | .expand position => position.toList
  -- op/filter.py 64-74; the declarations: 77-86
  | .filt p compare keep discard => switch keep "--keep" ++ switch discard "--discard" ++ option (truthy py compare) "--compare" ++ [p]
  -- op/fork.py 94-96; the declarations: 100-106
  | .fork forkgen p => [forkgen, p]
  -- op/gen.py 39-43; the declarations: 46-53
  | .gen count start pad => option (truthy py pad) "--pad" ++ [count.getD py.zero] ++ [start.getD py.zero]
  -- op/head.py 33-34; the declarations: 37-42
  | .head n => [n]
  -- op/intersect.py 42-44; the declarations: 47-52
  | .intersect p => [p]
  -- op/join.py 73-77; the declarations: 80-87
  | .join p keep => switch keep "--keep" ++ [p]
  -- op/load.py 54-58; the declarations: 61-66
  | .load target => [target]
  -- op/ls.py 57-72; the declarations: 75-82
  | .ls paths depth recursive file dir symlink =>
    depthArgs depth ++ switch recursive "--recursive" ++ switch file "--file" ++ switch dir "--dir" ++ switch symlink "--symlink" ++ paths
  -- op/map.py 37-38; the declarations: 41-46
  | .map f => [f]
  -- op/popd.py 29-30; the declarations: 33-37
  | .popd => []
  -- op/pushd.py 37-38; the declarations: 41-46
  | .pushd d => d.toList
  -- op/pwd.py 28-29; the declarations: 32-36
  | .pwd => []
  -- op/read.py 93-125; the declarations: 128-141
  | .read filenames depth recursive csv tsv headings skipHeadings pickle json label =>
    depthArgs depth ++ switch recursive "--recursive" ++ switch csv "--csv" ++ switch tsv "--tsv" ++ switch headings "--headings" ++ switch skipHeadings "--skip-headings"
      ++ switch pickle "--pickle" ++ switch json "--json" ++ switch label "--label" ++ filenames
  -- op/red.py 115-118; the declarations: 121-127
  | .red fs incremental => switch incremental "--incremental" ++ fs.map (·.getD py.rGroup)
  -- op/remote.py 65-68; the declarations: 72-78
  | .remote cluster p => [cluster, p]
  -- op/reverse.py 26-27; the declarations: 30-34
  | .reverse => []
  -- op/select.py 34-35; the declarations: 38-43
  | .select f => [f]
  -- op/sort.py 36-37; the declarations: 40-45
  | .sort key => key.toList
  -- op/sql.py 72-89; the declarations: 92-103
  | .sql statement xs db autocommit updateCounts commit =>
    option (truthy py db) "--db" ++ switch autocommit "--autocommit" ++ switch updateCounts "--update-counts" ++ option commit "--commit" ++ [statement] ++ xs
  -- op/squish.py 43-44; the declarations: 47-52
  | .squish f => f.toList
  -- op/store.py 58-67; the declarations: 70-76
  | .store var append => switch append "--append" ++ [var]
  -- op/sudo.py 45-49; the declarations: 57-62
  | .sudo p xs => xs ++ [p]
  -- op/tail.py 34-35; the declarations: 38-43
  | .tail n => [n]
  -- op/timer.py 34-35; the declarations: 38-43
  | .timer interval => [interval]
  -- op/trace.py 49-58; the declarations: 61-69
  | .trace off on file => switch off "--off" ++ switch on "--on" ++ option (truthy py file) "--file"
  -- op/union.py 38-43; the declarations: 46-51
  | .union ps => ps
  -- op/unique.py 37-38; the declarations: 41-46
  | .unique consecutive => switch consecutive "--consecutive"
  -- op/upload.py 55-56; the declarations: 59-66
  | .upload cluster dir paths => [cluster, dir] ++ paths
  -- op/version.py 28-29; the declarations: 32-36
  | .version => []
  -- op/window.py 99-107; the declarations: 110-118
  | .window predicate overlap disjoint => option overlap "--overlap" ++ option disjoint "--disjoint" ++ (truthy py predicate).toList
  -- op/write.py 69-83; the declarations: 86-97
  | .write filename csv tsv pickle format append =>
    switch csv "--csv" ++ switch tsv "--tsv" ++ switch pickle "--pickle" ++ option (truthy py format) "--format" ++ switch append "--append" ++ (truthy py filename).toList

/-- The declarations of the operators: `...ArgsParser.__init__`, in the same files at the lines given above; `ls` and `read` also have those of op/filenamesop.py 30-38. -/
def Call.decl (py : Py V) : Call V → ArgsDecl V
  | .args .. => ⟨[flag0 "all" "-a" (some "--all")], [anon "pipeline" "pipeline" py.checkPipeline], none, [], []⟩
  | .assign .. => plain [anon "var" "var" some, anon "value" "value" some]
  | .bash .. => ⟨[flag0 "interactive" "-i" (some "--interactive")], [], anonList "args" "args_arg" py.checkStr, [], []⟩
  | .case .. => plain [] (anonList "args" "args" py.functionOrPipeline)
  | .cast .. => plain [] (anonList "types" "types" some)
  | .cd .. => plain [anonDefault "directory" "directory_arg" (ofStr "~".toList) py.checkStrOrFile]
  | .difference .. => plain [anon "pipeline" "pipeline" py.checkPipeline]
  | .dirs .. => ⟨[flag0 "clear" "-c" (some "--clear")], [], none, [], []⟩
  | .download .. => plain [anon "dir" "dir_arg" py.checkStrOrFile, anon "cluster" "cluster" py.cluster] (anonList "filenames" "filenames_arg" py.checkStrOrFile)
  | .env .. => ⟨[flag1 "delete" "-d" "--delete" "delete" some, flag1 "pattern" "-p" "--pattern" "pattern" some, flag0 "builtins" "-b" (some "--builtins"), flag0 "os" "-o" (some "--os")],
      [anonDefault "var" "var" py.none_ some], none, [names ["delete", "var", "pattern"], names ["delete", "os"], names ["builtins", "os"]], []⟩
  | .expand .. => plain [anonDefault "position" "position_arg" py.none_ py.strToInt]
  | .filt .. => ⟨[flag0 "keep" "-k" (some "--keep"), flag0 "discard" "-d" (some "--discard"), flag1 "compare" "-c" "--compare" "compare" some],
      [anon "pipeline" "pipeline" py.checkPipeline], none, [names ["keep", "discard"]], []⟩
  | .fork .. => plain [anon "forkgen" "forkgen" py.forkGen, anon "pipeline" "pipeline_arg" py.checkPipeline]
  | .gen .. => ⟨[flag1 "pad" "-p" "--pad" "pad_arg" py.strToInt], [anonDefault "count" "count_arg" py.zero py.strToInt, anonDefault "start" "start_arg" py.zero py.strToInt], none, [], []⟩
  | .head .. => plain [anon "n" "n_arg" py.strToInt]
  | .intersect .. => plain [] (anonList "pipelines" "pipelines" py.checkPipeline)
  | .join .. => ⟨[flag0 "keep" "-k" (some "--keep")], [anon "pipeline" "pipeline" py.checkPipeline], none, [], []⟩
  | .load .. => plain [anon "var" "var" some]
  | .ls .. => ⟨[flag0 "d0" "-0" none, flag0 "d1" "-1" none, flag0 "dr" "-r" (some "--recursive"), flag0 "file" "-f" (some "--file"), flag0 "dir" "-d" (some "--dir"),
      flag0 "symlink" "-s" (some "--symlink")], [], anonList "filenames" "filenames_arg" py.checkStrOrFile, [names ["d0", "d1", "dr"]], []⟩
  | .map .. => plain [anon "function" "function" py.function]
  | .popd => plain []
  | .pushd .. => plain [anonDefault "directory" "directory_arg" py.none_ py.checkStrOrFile]
  | .pwd => plain []
  | .read .. => ⟨[flag0 "d0" "-0" none, flag0 "d1" "-1" none, flag0 "dr" "-r" (some "--recursive"), flag0 "csv" "-c" (some "--csv"), flag0 "tsv" "-t" (some "--tsv"),
      flag0 "headings" "-h" (some "--headings"), flag0 "skip_headings" "-s" (some "--skip-headings"), flag0 "pickle" "-p" (some "--pickle"), flag0 "json" "-j" (some "--json"),
      flag0 "label" "-l" (some "--label")], [], anonList "filenames" "filenames_arg" py.checkStrOrFile,
      [names ["d0", "d1", "dr"], names ["csv", "tsv", "pickle", "json"], names ["headings", "skip_headings"]], []⟩
  | .red .. => ⟨[flag0 "incremental" "-i" (some "--incremental")], [], anonList "functions" "functions" py.function, [], []⟩
  | .remote .. => plain [anon "cluster" "cluster" py.cluster, anon "pipeline" "pipeline" py.checkPipeline]
  | .reverse => plain []
  | .select .. => plain [anon "function" "function" py.function]
  | .sort .. => plain [anonDefault "key" "key" py.none_ py.function]
  | .sql .. => ⟨[flag1 "db" "-d" "--db" "dbvar" some, flag0 "autocommit" "-a" (some "--autocommit"), flag0 "update_counts" "-u" (some "--update-counts"),
      flag1 "commit" "-c" "--commit" "commit" py.strToInt], [anon "statement" "statement_arg" some], anonList "args" "args_arg" some, [names ["autocommit", "commit"]], []⟩
  | .squish .. => plain [anonDefault "function" "function" py.none_ py.function]
  | .store .. => ⟨[flag0 "append" "-a" (some "--append")], [anon "var" "var" some], none, [], []⟩
  | .sudo .. => plain [] (anonList "args" "args" py.strOrPipeline)
  | .tail .. => plain [anon "n" "n_arg" py.strToInt]
  | .timer .. => plain [anon "interval" "interval" py.toFloat]
  | .trace .. => ⟨[flag0 "off" "-0" (some "--off"), flag0 "on" "-1" (some "--on"), flag1 "file" "-f" "--file" "filename" some], [], none, [names ["on", "off", "file"]], []⟩
  | .union .. => plain [] (anonList "pipelines" "pipelines" py.checkPipeline)
  | .unique .. => ⟨[flag0 "consecutive" "-c" (some "--consecutive")], [], none, [], []⟩
  | .upload .. => plain [anon "cluster" "cluster" py.cluster, anon "dir" "dir_arg" py.checkStrOrFile] (anonList "filenames" "filenames_arg" py.checkStrOrFile)
  | .version => plain []
  | .window .. => ⟨[flag1 "overlap" "-o" "--overlap" "overlap_arg" py.strToInt, flag1 "disjoint" "-d" "--disjoint" "disjoint_arg" py.strToInt],
      [anonDefault "predicate" "predicate" py.none_ py.function], none, [], [names ["overlap", "disjoint", "predicate"]]⟩
  | .write .. => ⟨[flag0 "csv" "-c" (some "--csv"), flag0 "tsv" "-t" (some "--tsv"), flag0 "pickle" "-p" (some "--pickle"), flag1 "format" "-f" "--format" "format" some,
      flag0 "append" "-a" (some "--append")], [anonDefault "filename" "filename_arg" py.none_ py.checkStr], none, [names ["csv", "tsv", "pickle", "format"]], []⟩

/-- api.py 239-243: the operator's fields (given as they are after `__init__`), afterwards. `none`: the call raises an exception. -/
def Call.generate (py : Py V) (call : Call V) (op : Dict Str (ArgValue V)) : Option (Dict Str (ArgValue V)) := (call.decl py).parse (call.arglist py) op

end Marcel.Api
