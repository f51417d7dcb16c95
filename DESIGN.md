# Formal model of marcel in Lean 4 — design

Source: `/repo/marcel` (pinned commit, read as text only). Model, specifications and theorems: `/verif/lean/Verif`.

## Layout

| Where | Contents |
|---|---|
| `properties.jsonl` | The properties, in terms of the API and its observable effects. |
| `lean/Verif/Model/*.lean` | The model. Every definition cites the file and lines it models; simplifications are stated there. |
| `lean/Verif/Spec/*.lean`  | Small specifications that do not use the model's helpers, for theorem statements that need more than a few definitions. Smaller ones are in a section "Specification" at the head of the module with the theorems. |
| `lean/Verif/Lemmas/*.lean` | Facts used by several proofs. |
| `lean/Verif/Props/*.lean` | Theorems `Cnn_...`, each with an `example` showing that a concrete, non-trivial case meets its hypotheses. `Cnn_false...`: the property, as stated in English, fails for the code (with the concrete case). `..._partial`: the part that holds. |
| `MANIFEST.json` | Status and theorems of each property; what is missing when partial. |
| `AXIOMS.md` | The axioms each theorem depends on. |
| `seeded/LOG.jsonl` | Wrong programs tried against the theorems; `seeded/edits/*.py` are the edits, `tools/mutate.py` applies them to scratch copies and rebuilds. |

## Modelling principles

* **Operators are transducers.** An operator is a state type with a reaction to an item, an error
  and end-of-stream (`flush`). A reaction yields a new state, the list of events sent to the
  receiver (in order) and possibly an exception. Exceptions are values:
  `kare` (KillAndResumeException, caught in `Op.receive_input`), `kill` (KillCommandException),
  `crash` (any other Python exception).
* **A pipeline is a chain of such operators**, executed depth first (push), exactly as `Op.send`
  calls `receiver.receive_input`. What reaches the end of the chain is the observable output.
* **User functions are arbitrary** Lean functions into `Except Msg _`, an error meaning "raises".
  They are pure in the model: Python functions with side effects are not modelled.
* **Python values** are an arbitrary type with decidable equality wherever the code only compares and stores
  them; where the code inspects them (None padding, wrapping, tuples) the shape is modelled explicitly.
* **Text** is a `List Char`. The lexer and parser are modelled on text, down to the character, including where they fail.
* **Files, processes and directories** are explicit state; concurrency is a step relation where one
  call of the operating system by one process is one step; crashes are steps.
* **Exceptions that escape** (AttributeError, IndexError, ...) are results of the model's functions, so a theorem that says that a
  function succeeds also says that it does not raise.
* Where recursion of the code is not structural, the model has fuel, and a theorem shows that enough fuel exists (`C33_terminates`, `C48_ends`), or
  an inductive relation is used.

## Trusted base

* Lean 4.33.0's kernel. The axioms used are at most `propext`, `Classical.choice`, `Quot.sound`; per theorem: see `AXIOMS.md`.
  No axioms of our own, no native_decide, no bv_decide. Mathlib is not imported.
  `decide +kernel` is used in examples, counterexamples and for closed side conditions: the kernel evaluates it.
* That the definitions in `Verif/Model` describe the Python code (by reading; cited line by line).
* That Python behaves as modelled: lists, dicts (insertion order), sets, `str`, `list.sort` (stable), `shlex`-free text handling, exceptions,
  `csv` (for lines without line ends), `pickle`'s memo, atomic `rename`, signals delivered between two steps.

## What is modelled

| Module | Code |
|---|---|
| `Model/Stream`, `Model/Pipeline` | core.py `Op.send`, `receive_input`, `flush`, error handling; pipeline.py `setup`/`run`/`flush`/`cleanup`, `OpList`; op/apiop.py, api.py `gather`, `first` |
| `Model/Ops` | op/map, select, head, tail, reverse, sort, unique, window |
| `Model/PyVal`, `Model/Gen`, `Model/Red` | op/expand, squish, gen, red |
| `Model/SetOps` | op/union, difference, intersect, join, filter, case, args |
| `Model/Namespace`, `Model/Vars` | nestednamespace.py; VarHandler, persistence of variables, child processes' changes, reservoirs held by variables |
| `Model/Lexer`, `Model/Parser` | stringliteral.py; parser.py 85-1258 |
| `Model/FArgs` | function_args_parser.py, `Expression.value` |
| `Model/Args` | argsparser.py; binding in op/runpipeline.py |
| `Model/WsLock` | locking of workspaces in object/workspace.py |
| `Model/Pickle` | picklefile.py, op/store, op/load, the memo of `pickle` |
| `Model/DirStack` | directorystate.py, op/cd, pushd, popd, dirs, pwd |
| `Model/Jobs` | job.py, op/fg, bg, jobs, the main loop's waiting |
| `Model/History` | op/history, reader.py |
| `Model/Ls` | op/ls, filenames, filenamesop |
| `Model/Read` | op/read (text, CSV), op/write (CSV) |
| `Model/Version`, `Model/Storage` | persistence/storagelayout.py, the directories in locations.py |
| `Model/Fork` | op/forkmanager.py, op/fork.py |
| `Model/Bash` | op/bash.py: programs that are not interactive, the thread that reads their output |
| `Model/Write` | op/write.py: text formats |
| `Model/Main` | main.py: the main loop, scripts, scripts from standard input; util.py `InputSource` |
| `Model/CliArgs` | cliargs.py |
| `Model/Resolve` | parser.py `create_op*`, `ShellOpContext`; op/bash.py: the command given to the host shell |
| `Model/WsDisk` | object/workspace.py: named workspaces on disk, validation at a start; locations.py; persistence/persistence.py; main.py 135-160; op/ws.py `--new`, `--delete`, `--list`, opening and closing |
| `Model/Tab` | tabcompleter.py, except how the parser determines the kind of completion and the token |
| `Model/Filenames` | op/filenames.py with `posixpath.normpath`, `Path.expanduser`, `Path.glob` (Python 3.11), without links; `fnmatch` is a parameter |
| `Model/Sql` | op/sql.py, object/db.py; the database (what a statement does, whether it or a commit fails) is a parameter |
| `Model/ShellCmd` | `quote_files` and the commands of op/upload.py, op/download.py, op/remote.py, op/sudo.py; not the lookup of hosts, nor the programs |
| `Model/Api` | the lists of arguments made by 42 functions of api.py / op/*.py and the declarations of these operators; parsed by `Model/Args`; not assertions about types, nor `ps` |
| `Model/Exec` | glue: from the created operators to execution, for gen, map, select, head, tail, reverse, sort, unique, window, squish, expand, red: conversion of arguments (`str_to_int`, `function`), `setup`, connecting, `run`, what `write` is sent; not variables, parameters of pipelines, other operators |
| `Model/Help` | helpformatter.py, except `textwrap`, the width of the console and what highlighting does |
| `Model/Timer` | op/timer.py: both threads, the condition, time |
| `Model/EnvVals` | nestednamespace.py `EnvValue` and its subclasses; what assignments and imports store; opening and closing a workspace; Python (values, modules, functions) is a parameter |
| `Model/EnvOp` | env.py `initial_namespace`, configscript.py, the order of definitions in `Workspace.open`; op/env.py; op/import.py |
| `Model/Remote` | bin/farcel.py 64-113, 147-185; op/remote.py `RunRemote`, `LabelThread`; op/sudo.py `run`: the output of a pipeline run in another process; not ssh, sudo, nor signals |
| `Model/Rerun` | running a pipeline more than once: pipeline.py 313-339, `Op.copy`, the attributes which map, select, head, tail, unique, window, red, sort, reverse, args, union, difference, filter, intersect, join, case, sudo keep between runs |
| `Model/FileObj` | object/file.py 25-277, op/filenamesop.py `visit` (the new `File`), `determine_base`; util.py `username`, `groupname`, `colorize`; pickling of `File`s by farcel.py |
| `Model/Ps` | op/ps.py 80-173, util.py `uid`, `gid`; not the rendering of processes |
| `Model/Edit` | reader.py `handle_edit_and_run`, key binding; runeditor.py; op/edit.py. The editor is any function of texts |
| `Model/Json` | jsonutil.py, structish.py, builtin.py `json_parse`, `json_format`, `expand` of a Struct; not the JSON parser of Python (a parameter) |
| `Model/Reduce` | reduction.py, function.py `SymbolFunction`, argsparser.py `function` for strings, the list objects of `r_concat` in `red -i` without grouping; values None, bool, int, str, list only, max/min of lists left out |
| `Model/Cast` | op/cast.py; `builtins` is a parameter |
| `Model/Color` | object/color.py (without `__repr__`, `render_full`), util.py `colorize`, env.py `prompt_string`, `prompt_dir`; calling a function in PROMPT is a parameter (its outcome) |
| `Model/Cluster` | object/cluster.py; parsing of addresses and the name service are parameters (the latter changes from use to use) |
| `Model/WsOp` | op/ws.py without help texts and rendering; what happens on disk is in `Model/WsDisk` |
| `Model/Locations` | locations.py without creation of directories (that is in `Model/WsDisk`), `Marker`'s file names, `pathlib.Path(s)`, `/` and `expanduser` |
| `Model/Trace` | op/trace.py, env.py `Trace`, and that environments are pickled for each process that is started (spawn) or shared (fork); the lines themselves are given |
| `Model/ExecNest` | as `Model/Exec`, with union, difference, intersect, join, filter, whose arguments are pipelines (parser.py 1119-1133, 1181-1183, 1278-1295; `customize_pipelines` of these operators). An argument pipeline is evaluated where the argument is, and at most once; one that has not ended, has parameters, or would be run again is not modelled |
| `Model/Objects` | comparison and hashing of files, processes, history records, integers, strings, None and objects without comparison methods (object/file.py 116-135, process.py 35-54, historyrecord.py 26-42; Python's rich comparison, tuples and sets), unique (op/unique.py 49-101) and sort without a key (op/sort.py 74-88) on tuples of these. Hash values are a parameter; numbers are integers |
| `Model/Session` | main.py 69-88, 109-127, 162-169, 281-348, 366-402; workspace.py `open`, `close`; configscript.py 28-60: starting, changing workspaces and ending when things fail. What fails, when, and what commands do are parameters that depend on everything that has happened |
| `Model/HelpTopics`, `Model/HelpTexts` | op/help.py 49-93, opmodule.py 24-90 (names and help only), op/__init__.py; the help texts of op/*.py and doc/help_*.py, as they are (generated by tools/mkhelp.py). The import of a topic is a lookup by name; `str.lower` only for ASCII |
| `Model/Render` | object/process.py 60-89, object/historyrecord.py 44-55, object/error.py 22-40, op/write.py 261-286: what is displayed for an item. Not: files (`Model/FileObj`), locales that group digits; other objects are given by their `str` and `repr` |
| `Model/Scheme` | object/color.py 40-47 (`Color.__repr__`), 121-142 (`ColorScheme.render_full`); persistence/defaultinitialconfig.py 3-56 (assignments and prompt, as they are; not INTERACTIVE_EXECUTABLES). Keys of extensions are strings; colours for display are colours |

## What is not modelled

* The evaluation of Python expressions, compilation (core of `function.py`), `dill`/pickle serialization of functions and environments.
* Operators that only call the outside world: interactive programs, the programs that remote, upload, download, sudo run, help, version, the editors.
* Terminal handling: prompt_toolkit, what highlighting does, `textwrap`, the format of `write` for humans (but that of files: C81).
* Python's memory model, garbage collection, integer and float arithmetic, encodings, Unicode classification (parameters where they matter).
* Reuse of process ids, non-atomic directory listings, disks that reorder writes.
* What each model leaves out is stated at the head of its file.

## Plan per property

(The status is in MANIFEST.json.)

* C01 — model `core.py` send/receive/flush as `Chain.deliver`; prove by induction on the chain and the event list that push execution of `p ++ q` equals staged execution.
* C02 — map/select/predicate window transducers with partial functions; induction on the input.
* C03–C05, C07–C10, C14, C20 — op transducers; the invariant relates the state to the input consumed so far; induction on the input.
* C06 — sort modelled as stable insertion by key; permutation + sortedness + stability.
* C11–C13 — red: accumulator invariants; C12 is false of the code when a later component fails: the negation is proved, with the true part as `_partial`.
* C15–C17 — dictionaries as association lists; count lemmas.
* C18, C19 — case / args over arbitrary branch pipelines (as transducers).
* C21 — false of the code (tail, args, union, runpipeline tell it twice; window -o on empty input not at all): negation witnesses, and the theorem for the chains of the other operators.
* C22 — placement checks in setup/run.
* C23 — OpList as heap objects with mutation; associativity proved, purity refuted.
* C24 — gather/first over outputs.
* C25, C26 — scopes and the dict as explicit state; C25 is false when a parameter shadows a global (negation), proved otherwise.
* C27–C29, C51 — VarHandler + namespace + persistence; false for deletions (the deleted variable is still in the scope) and aliases.
* C30–C32, C52 — lexer functions on `List Char`, against grammars of words, expressions and adjacent parts.
* C33–C35 — parser on text: however a syntax tree is written (`Written` in Spec/Syntax: any blanks, none where unambiguous, a comment), parsing gives the tree; DFA for parameters.
* C36 — line joining.
* C37–C39 — args parser on tokens against a specification of uses.
* C40, C41 — step relation over the marker directory and process-local program counters; invariant. C41 is false (assertion failure after removing the abandoned marker).
* C42, C43 — access table; file contents as pickle instructions with memo.
* C44 — directory state machine over an abstract file system that may change between commands.
* C45 — job control: main thread, signal handlers and processes interleave.
* C46 — nested execution with exceptions.
* C47–C50 — history list, ls on trees with links, read on text, version strings.
* C53–C55 — storage layouts: six layouts as predicates on file systems, upgrades as functions on file systems, interruptions at each step.
* C56 — workers, pipes and the polling loop as a step relation; invariants over all runs; runs as witnesses of what is lost.
* C57 — the program, its pipes, Python's buffers and the reading thread as a step relation; everything sent is a prefix of the lines written; ranking for the end.
* C58 — the writer as a state machine with a partial formatting function, against the text to be expected.
* C59, C60 — the main loop over commands with arbitrary behaviour (a function of everything executed before); a log with the relations between neighbouring entries; text of scripts.
* C61 — scanning against a grammar of command lines (parts with declarations), soundness, completeness and uniqueness.
* C62, C63 — what a parsed command denotes as an inductive relation on syntax trees; equivalence with parsing the text and creating operators, by induction on the tree.
* C64–C66 — programs with a crash point before each change of the file system; Hoare triples with a crash condition, composed along the code; the loop over workspaces by induction with an invariant saying where each file is.
* C67 — words as characters with escape marks, completed against a listing; the accepted line is the text of a word with the right value, which the lexer (C31) reads back.
* C68 — a tree of files; arguments as lists of names with a starting point, resolved name by name in the specification; the result of the code as a set of places equals those that match.
* C69 — `sql` as an operator whose state is the connection with the history of what was committed; invariant over all inputs, lifted to `sql` followed by any operators.
* C70 — the texts of the commands for `scp`, `ssh`, `sudo`; independent relation for how a shell reads a command (quotes, blanks; nothing with operators or expansions), proved unambiguous.
* C71 — per function, the fields the operator is to have (Spec/Api); generic theorem about lists of arguments made from flags and positional values (via C37), then each function is an instance of it.
* C72 — a small language of stages with a meaning on streams of items and errors (Spec/Exec); each operator implements the meaning on every stream (finished, running or stopped), composition by C01, text by C62, arguments by direct computation. `window --overlap` is in the model but not in the language of stages (what it sends at the end depends on how often it is flushed, see C08); with a position, `expand` sends tuples (lists are not distinguished).
* C73 — documents as a small syntax (intro, sections, items) with a layout (Spec/Help); scanning written items with pointers, grouping raw lines = grouping lines of items, positions of markup by induction, highlighting by induction over positions; `textwrap` is a parameter that changes only blanks.
* C74 — two threads as a step relation over a shared lock, `now` and a clock; invariants by induction over reachable states; progress for all fair executions (`Endless`), with an execution that meets the hypotheses.
* C75 — sessions as sequences of commands; simulation between the session and the reopened one by induction over the stored variables; counterexamples for the failing kinds.
* C76 — the loop with late binding modelled as functions that refer to a variable; what each name denotes afterwards, for all scripts. False for names of `marcel.builtin`.
* C77 — sorting of pairs never compares values because names are distinct (congruence of the sorting algorithm in the comparison), then C06's theorem; order stated without the model's comparison.
* C78 — case analysis; what is bound, stated for all modules; differences from Python as counterexamples.
* C79 — the pickler and unpickler of C42/C43; induction over what the pipeline sends; the failures as theorems for all pipelines of the kind named.
* C80 — operators as objects with a heap (copies share it), simulation of each by the operator of C01-C20 after `setup`; simulations compose; induction over the series of runs.
* C81 — the line is read by a separate function that knows columns only, and compared with the truth; invariant of the cache (it holds the names of this computer); induction over the listing.
* C82 — which processes are wanted is stated by membership; the loop is a filter; case analysis over the selection.
* C83 — newline doubling as an inductive relation, unique; the line is split by lemmas of C47; case analysis.
* C84 — structural inductions over trees (mutual with lists); relations `Same`, `Becomes`, `Contains` as specification.
* C85 — `Result` (Spec/Reduce) says what each function computes, by values, bits and order; folds by induction, then the theorems about `red` (C11, C13) are instantiated. List objects: a heap model is related to the model of values by an invariant (accumulators hold different objects).
* C86 — induction over the row, with the place as parameter.
* C87 — a terminal (Spec/Terminal.lean: the SGR part of ECMA-48) as a transition system over characters; induction over the text.
* C88 — induction over the components with the buffer as seen by the terminal as invariant; paths as lists of components.
* C89 — soundness as an invariant of sequences of assignments.
* C90 — invariant of a host over sequences of uses.
* C91 — all lists of arguments characterised from C37 (permitted arrangements), then the chain of conditions evaluated for each of the eleven flags.
* C92 — each path computed as root and list of names; injectivity by cases on pairs of files, decimal numbers by `Nat.ofDigitChars_toDigits`, the process id separated from the variable by the first dot.
* C93 — processes as trees of events; what survives events without trace requests, by induction over the history; nested processes by induction over the depth.
* C94 — commands of C72 with pipelines as arguments at any depth: the meaning of stages and of pipelines is defined by mutual recursion; the theorem by mutual structural induction over the stages, with the operators of C08–C12 (difference, intersect, join, filter, union) shown to implement what the specification says of streams; C62 for the text.
* C95 — equality and order of objects are specified as relations; the methods are shown to decide them by cases, the lexicographic order of paths to be total by induction; unique and unique --consecutive by induction over the stream, sort by C06.
* C96 — a deterministic machine whose steps are one start, one workspace or one command; invariants for each phase (what is open, locked, registered with atexit) by induction over the steps; the endless loops by induction over their rounds.
* C97 — selection by cases; the shipped texts are checked by the kernel, piece by piece, with a checker proved sound (Lemmas/HelpCheck: a text that passes is a well-formed document of Spec/Help), so that C73 applies to them for all widths and schemes.
* C98 — the pieces of a line are colorized separately: C87 (a colorized text is shown as that text, and the terminal is reset) for each piece, and composition of what a terminal shows; columns by lengths of decimals; reading back by equal lengths of the columns; the history in a file by C58.
* C99 — line by line, each piece by C87; commas by induction with the number of attributes that remain; the order by insertion sort; colours read back by splitting at commas and parentheses; the default configuration is evaluated by the kernel, its prompt follows from C88.

## Disagreements between the code and the properties

Found while modelling. Those within the model are proved as `..._false...` theorems; the others are noted here.

1. `tail`, `args`, `union` and running a pipeline variable propagate the end of the stream twice; `window -o` does not propagate it for an empty
   window and is not idempotent (tail.py 67-69, 102-112; args.py 91-106; union.py 74-77; runpipeline.py 87-93; window.py 230-240). C21_false*.
2. `OpList.__or__` changes its left operand (pipeline.py 151-162). C23_false. `g | g` contains the same operator object twice.
3. Leaving a pipeline whose parameter shadows a global removes the global; deleting a parameter inside its pipeline raises KeyError; binding a pipeline
   value without source leaks the scope (nestednamespace.py 420-433). C25_false, C26_false, C46_false.
4. `delvar` bypasses scopes: a deleted variable comes back when the workspace is opened again; a job's deletions, imports and the changes of
   killed commands do not reach the parent; pipeline values crash the parent's listener (workspace.py 147-157). C27_false, C29_false_*.
5. Immutability of variables is enforced only by the API (api.py 90); a missing comma joins 'HOST' 'ITALIC' (env.py 93-94). C28_false*.
6. Inside `args`, operators are set up again for each batch: `reverse` fails (contents None), `intersect` keeps its counts, `difference`/`join`/`intersect` append another
   loading operator.
7. `red` accumulates partially when a later function fails (red.py 198-210, 228-241). C12_false.
8. `first` ignores errors; the `errors` argument of `gather` and `first` is not used. C24_false.
9. Workspaces: after a crash of the owner, opening fails with AssertionError (C41_false); two validations can create two markers (C40_false_validate); a
   child of the owner shares the workspace (C40_false_child).
10. A second reader of a pickle file replaces the first in the table, so a writer is admitted while the first still reads (C42_false), and closing one closes the other
    (C42_false_close); appended streams with repeated objects load wrongly (C43_false_append); a failing store destroys the old contents (C43_false_failed).
11. `read --csv`: a blank line ends the file, line ends in quoted fields split it, an empty tuple written cuts off the rest; names of the previous file
    are used when the headings of a file cannot be (C49_false_*).
12. After the current directory is deleted, the directory stack and `PWD` disagree (C44_false_*); `cd` to a missing directory pushes the home directory.
13. Job numbers refer to the list at the time of the command; signals between starting and registering a job are lost (C45_false_*).
14. Arguments: a flag of a pipeline without value is dropped, an unknown named argument accepted (C39_*_false).
15. Lexer: a lone quote is accepted as an empty string (C30_unterminated_false); two backslashes in double quotes are kept as one (C30_double_backslash_false);
    missing closing parentheses are accepted if the text ends in `)` (C32_unmatched_false); `a#comment` is an internal error (C33_comment_false), and so is `cat a#b` (C33_hash_false).
16. `*args:` alone is taken for a function without parameters, `**kw` and defaults are not recognized (C35_false_*).
17. Words ending in a quote after an expression are refused, braces in words are interpolated (C52_false_*).
18. Versions are compared as strings (C50_false).
19. `ls`: a directory first reached through a link is listed again (C48_false_inode).
20. Storage: an interrupted upgrade or first start leaves marcel unable to start, or skips histories (C55_false_*); an empty history of the default
    workspace makes marcel replace all histories (C53_false_cleared); a workspace called `workspace` is lost (C53_false_workspace); an existing startup script is
    overwritten (C54_false_conflict).
21. Reservoirs: assigning to one of two variables holding a stream deletes the file of both (C51_false_alias), assigning to a parameter deletes the
    caller's (C51_false_param), importing over it leaks the file (C51_false_import).
22. Not proved, noted only: `window --overlap 0` is rejected with a message about "disjoint"; commands starting with `edit` are taken for `edit`; the job operators'
    `-j`/`-p` cannot be used; the loop at env.py 156-158 binds its lambda late.
23. fork: the end of a worker is counted again each time its pipe is polled, so that the output of workers that emit more, or later, is lost (C56_false: the example
    in the documentation; C56_false_late), or `fork` waits forever for a worker blocked by its full pipe (C56_hang, C56_false_hang); errors of the workers arrive as
    items (C56_false_error).
24. External programs: if a program leaves a process in the background, lines in Python's buffer are lost (C57_false_background); output written between `select` and
    the check whether the program runs is lost (C57_false_race); without items the command fails with AttributeError (C57_false_no_items).
25. write: an error arriving at `write --csv`, `--tsv` or `--format` ends the command (C58_false_error).
26. Main loop: the command typed after a modification of the startup script is lost (C59_false_modified); a script that opens a workspace does not get its
    startup scripts (C59_false_script); a script from standard input ends at a blank line (C60_false_blank); a script named on the command line is ignored if
    standard input is a pipe (C60_source).
27. cliargs: an int flag with another value raises ValueError (C61_false_int); the first argument is dropped if the script comes from standard input (C61_false_stdin).
28. Commands: a pipeline passed as argument to a pipeline variable is an AttributeError (parser.py 1304-1307 tests for the wrong class; C62_false_pipeline_arg); variables called
    `ls`, `read`, `bash` get their arguments in shell syntax (C62_false_syntax); variables called `map`, `read`, `load`, `write`, `store` are run by bare expressions and
    redirections (C62_false_hijack, C62_false_append); a quoted name is not found (C62_false_quoted).
29. Executables: arguments `-i` and `--interactive` (`sed -i`, `rm -i`) are refused (C63_false_interactive); an escaped blank at the end of an argument is lost
    (C63_false_blank).
30. Start: an error in the default workspace has no name, and so the directory of all workspaces is moved aside; with two errors the start fails (C64_false_default,
    C64_false_default_two). A file of the same name in both trees, or a marker without a number, makes each start fail (C64_false_file, C64_false_marker).
31. `ws --delete __DEFAULT__` is accepted (C65_false_default). With an additional file in a workspace `ws --delete` fails half-way; a new workspace with this name gets the
    history and the reservoirs left behind (C65_false_leftover).
32. If closing a workspace is interrupted, the environment or the properties may be an empty file: the next start accepts it, opening the workspace fails, and `ws --list` fails
    (C66_false_torn, C66_false_list).
33. Tab completion does not escape `,`, `=`, `#` in arguments of marcel's operators, `#` at the beginning, or blanks outside ASCII (C67_false_typable); quotes in quoted names
    are left as they are (C67_false_quote); backslashes in single quotes are taken for escapes (C67_false_backslash), and one at the end becomes part of the name (C67_false_lone);
    subdirectories of a directory typed with escapes are completed like files (C67_false_escaped_directory); `helper ...` gets help topics (C67_false_help); a directory that
    is a file or not readable raises an exception (C67_false_error).
34. File name arguments: `ls / /` lists `/` twice (C68_false_root_twice), and a file is listed twice if it is given by two paths (C68_false_same_file_twice); if the name of the current
    directory contains wildcard characters, nothing is found (C68_false_cwd_pattern); backslashes are unescaped a second time (C68_false_backslash); `./~x` is taken for a home
    directory (C68_false_tilde_name); `~/../x` is `x` in the current directory (C68_false_home_up); `//x` raises an exception (C68_false_two_slashes).
35. `sql`: ARGs are ignored if there is input (C69_false_args); a SELECT whose first word is not exactly `select` writes no rows (C69_false_select_star); a blank statement is an
    internal error (C69_false_blank); an operator after `sql` that fails at the end of its input fails after the commit (C69_false_late_failure).
36. `upload` does not quote the destination: one with a blank is split, and `scp` then copies to a local file (C70_upload_false). `download` ignores the port of a host
    (C70_download_false). `sudo` does not quote its flags (C70_sudo_false). `ls` shows `it's` in a way that the host's shell reads back, but marcel does not (C70_listing_false).

37. Python API: `gen(n, pad=0)` drops the padding that the command line refuses (C71_pad_false); `dirs(clear=False)` clears the stack (C71_clear_false); `ls(depth=2)` and
    `read(depth=2)` are silently the same as without depth (C71_depth_false); `write('')`, `env('')` ignore the argument (C71_filename_false); a value for `sql` that is a flag is
    refused (C71_flaglike_false).
38. `help`: a closing brace that closes nothing, or a backslash at the end, makes the formatter loop forever (C73_stray_brace_hangs, C73_last_backslash_hangs); markup of a paragraph at
    the very end is reported as "unterminated" (C73_paragraph_last_fails); an escaped backslash directly before `{p}` is an error (C73_backslash_paragraph_fails); `{b:}` at the end is
    an IndexError (C73_empty_markup_fails); an option after a blank, as in `{L, indent=8}`, is silently ignored (C73_blank_before_option_ignored). Without a terminal,
    `console_width` raises IndexError before its None check (util.py 157-160; not modelled).
39. `timer` with a negative interval, or with a function, is not refused: one timestamp is sent, and then the command waits for ever (C74_bad_interval).
40. Variables that make a workspace unusable, or change on reopening: `f = (g)` for a function `g` if `f` was first assigned before `g` (C75_false_order); a variable that is assigned
    again, from a value of another variable which has changed (C75_false_stale); `m = ([].append)` (C75_false_method); `f = (g)` with `g` a pipeline (C75_false_alias); a value that cannot be
    pickled keeps the workspace from being saved (C75_false_unpicklable).
41. All public names of `marcel.builtin`, and `PROMPT` and `Color`, denote `set_prompt` until the startup script imports them (C76_false): the functions made in the loop in
    `initial_namespace` refer to the loop variable.
42. `env VAR` reports a variable whose value is None as undefined (C77_false_none).
43. `import a.b` defines a variable called `a.b`, not `a` (C78_false_package); `import M *` ignores `__all__` (C78_false_all); `import P M` does not import a submodule
    (C78_false_submodule).
44. `sudo` delivers errors as items (C79_false_sudo); text printed by a remote pipeline cuts off its output, sometimes without any sign (C79_false_print, C79_false_swallow); if the pipeline
    cannot be pickled or the host not reached, the result is that of a pipeline without output (C79_false_unreached); an object that is changed after it was output arrives unchanged
    (C79_false_changed); a failure in the first operator is reported twice (C79_false_twice).
45. Run again: `reverse` outputs the input of earlier runs too, or crashes in `args` (C80_false_reverse, C80_false_reverse_args); `intersect` in `args` has used up its argument
    (C80_false_intersect); `difference` and `filter` treat `None` as an item of the argument (C80_false_difference, C80_false_filter); `sudo` in a variable works once
    (C80_false_sudo); `pos()` goes on counting (C80_false_pos); `join` matches `None` (C80_false_join); `case` does not set up the pipelines of its branches again, so that `head 2` in
    one outputs nothing in the second run, and variables keep the values of the first one (C80_false_case, C80_false_case_variable).
46. Listings: sockets and block devices are shown as directories (C81_false_types: the masks overlap); the group column gets the width of the user column (C81_false_aligned);
    links from another computer are read locally, owners of all but the first file from another computer get local names (C81_false_link, C81_false_owner).
47. `ps --pid ''` shows everything (C82_false_empty); a process whose users the system hides ends `ps --user` (C82_false_hidden); the API function `ps` always raises (C82_false_api).
48. `edit`: newlines inside are doubled each time (C83_false_lines); if the editor leaves nothing the line `edit` itself is run (C83_false_empty); a wrong number starts the editor all the same (C83_false_number); `editor 0` is an error, `edit0` edits (C83_false_prefix); the API function cannot edit (C83_false_api). The help text says that the edited command is put on the command line; it is run at once.
49. JSON: objects with a field `items` cannot be expanded (C84_false_items); tuples, dictionaries and objects change their type, keys 1 and "1" collide (C84_false_kind).
50. Reduction functions: `and` forgets everything before a None (C85_false_and); a None at the beginning is left out, a later one is an error (C85_false_none); `squish count` of an empty row is None (C85_false_count); `red -i concat` sends the same list object each time, so rows that are kept change (C85_false_kept).
51. `cast` accepts every name of `builtins`, types or not (C86_false_names).
52. A colour outside of the documented range is not refused, and looks like another colour (C87_false_range); text in which a part is coloured already loses its colour after it (C87_false_nested).
53. A component of PROMPT that is neither colour nor string nor function ends the shell: `KillShellException` is not caught by `except Exception` (C88_false_kill).
54. `prompt_dir` compares the texts of paths: `/home/john` is shown as `~hn` to the user jo (C88_false_prefix). In a workspace with a home, it returns a `Path` outside of it (C88_false_type).
55. `set_extension_color` fails on a new color scheme and accepts values that are not colours (C89_false_new, C89_false_unchecked).
56. `Host.__eq__` and `__hash__` look at a field that is changed by the first use: hosts that differ in their ports become equal (C90_false_equal). The check of a single host always succeeds for a pair that begins with a string (`type(host[1] is int)`), and fails with an IndexError for a tuple of one (C90_false_pair, C90_false_late).
57. `ws --delete a b` deletes `a` and ignores `b` (C91_false_extra). `ws(name=x)` appends the string 'name' instead of the value, and `exp`, `imp` are passed as `--exp`, `--imp`, which are not declared (C91_false_api_name, C91_false_api_export).
58. An empty XDG_CONFIG_HOME or XDG_DATA_HOME gives the current directory (C92_false_empty). Names of workspaces are not checked: `ws --new a/reservoirs` shares a file with workspace `a`, `ws __DEFAULT__` opens (and locks) the default workspace's directory under a name, `ws --new /x` and `ws --new ../../../x` leave marcel's directories, and `ws --delete` removes what is there (C92_false_nested, _default, _absolute, _dotdot). Equal XDG directories make the two directories of a workspace one (C92_false_same).
59. `Trace.__getstate__` sets `tracefile` of the object itself to `None`: starting a job ends tracing in marcel itself, and `trace` then reports that it is off, though jobs are traced (C93_false_here, C93_false_status_job). `print_status` prints nothing for a file (C93_false_status_file). A relative file name is reopened by each job in its own directory; if it cannot be, the job dies before it runs anything (C93_false_cd, C93_false_cd_job).
60. `union` runs its pipelines each time its input signals its end; `tail` and `union` signal it twice (see C21), so that after them the pipelines of `union` are run, and shown, again: `gen 2 | union (| gen 3 |) | union (| gen 1 |)` shows 0 1 0 1 2 0 0 (C94_false_union).
61. `HistoryRecord` defines `__eq__` but not `__hash__`: `history | unique` is killed by its first item (C95_false_history). The comparison methods of files, processes and history records use an attribute of the other operand without a check of its type: `==` with anything else raises an AttributeError (C95_false_other), which `unique` does not catch when a process and the integer that is its pid meet (C95_false_mixed); `unique --consecutive` crashes on a file followed by a string (C95_false_consecutive).
62. If the startup script of the default workspace fails, marcel reports it without end (main.py 374-386; C96_false_forever). The handlers for this in `env_and_main` are never reached (C96_false_handlers). If a script opens a workspace whose startup script fails, the script is run again from the start, without end (C96_false_again); the workspace stays locked (C96_false_locked). `run_on_startup` with a `ws` command ends marcel with a traceback (C96_false_startup_ws), as do unreadable saved variables of the default workspace, after as many attempts as Python's recursion allows (C96_false_default). A workspace whose startup script assigns HOME etc. ends marcel when it is opened (C96_false_kill).
63. `help assign` sends None (op/assign.py has no HELP; C97_false_assign). The front page of help omits download, fork and upload (C97_false_front_page). The help of upload, download and operator refers to `help cluster` and `help out`, which are not available (C97_false_reference). `help (f)` is an AttributeError: help.py 62 lower-cases a function (C97_false_function).
64. `HistoryRecord.render_full` (historyrecord.py 49-51) uses the color scheme without looking whether there is one: `history | write FILE` (and `history` with COLOR_SCHEME unset) makes an AttributeError for each record, and an empty file (C98_false_history_file). The columns of `ps` are too narrow for process ids over 999999 (Linux allows 4194304) and user names of more than 8 characters (C98_false_columns).
65. `ColorScheme.render_full` without a color scheme for display is an AttributeError, as in 64. (C99_display). The default configuration does not set `file_link_broken` (C99_default).

## Testing the theorems against wrong programs

`tools/mutate.py` applies an edit (a wrong boundary, swapped arguments, a dropped update, a missed case, ...) to a scratch copy of the model, rebuilds
everything, and records which theorems fail, directly or because their proof rests on one that does. `seeded/LOG.jsonl` has one line per attempt. An edit that
still builds is either shown to be unobservable ("control") or has led to the theorems in `theorems_tightened`, after which the edit was tried again.
