#!/usr/bin/env python3
# Writes /verif/properties.jsonl. One tuple per property.
import json, os
P = []
def p(title, statement, quantifier, why, anchors):
    P.append(dict(id=f"C{len(P)+1:02d}", title=title, statement=statement, quantifier=quantifier,
                  why_tests_cant=why, anchors=anchors))

p("Streaming a pipeline equals staging it",
  "Running the pipeline `p | q` (items pushed through depth first, one at a time) has the same observable result as running `p` to completion, recording everything it emits (tuples, errors, end-of-stream), and then feeding that recording to `q`. If `q` kills the command, the observable output is exactly the part `q` had emitted by then.",
  "all operator chains p and q built from arbitrary stateful operators, all input streams, all points at which an operator raises",
  "the push schedule interleaves the operators' state changes differently for every pair of operators and every input; tests only see a few chains",
  ["marcel/core.py: Op.send, Op.receive_input, Op.send_error, Op.propagate_flush", "marcel/pipeline.py: PipelineExecutable.setup/run/flush"])
p("An item that makes a function fail only loses itself",
  "If the function given to map, select or a predicate window raises on some item, one Error is emitted in that item's place, that item contributes nothing else, and every other item is processed exactly as if the failing item had not been in the stream.",
  "all functions (total or raising anywhere), all input streams, all chains of such operators",
  "the failing set is an arbitrary subset of the inputs",
  ["marcel/core.py: Op.call, Op.fatal_error, Op.receive_input", "marcel/op/map.py: Map.receive", "marcel/op/select.py: Select.receive", "marcel/op/window.py: PredicateWindow.receive"])
p("head keeps or skips exactly the first n",
  "`head n` emits exactly the first n input items (all of them if fewer), `head -n` emits exactly the rest; together, in order, they give back the input. `head 0` kills the command and emits nothing.",
  "all n, all input streams", "unbounded n and stream length", ["marcel/op/head.py: Head.setup, HeadKeepN.receive, HeadSkipN.receive"])
p("tail keeps or drops exactly the last n",
  "`tail n` emits exactly the last n input items in input order, `tail -n` emits everything but the last n; together they give back the input. `tail 0` kills the command.",
  "all n, all input streams, i.e. every wrap-around position of the circular buffer",
  "the circular buffer's end index takes every residue mod n", ["marcel/op/tail.py: Tail.setup, TailKeepN, TailSkipN"])
p("reverse reverses",
  "`reverse` emits nothing before end of stream and then exactly the input in opposite order; `reverse | reverse` is the identity on data; a second end-of-stream signal does not repeat output.",
  "all input streams", "unbounded stream", ["marcel/op/reverse.py: Reverse.receive, Reverse.flush"])
p("sort is a stable permutation, or kills the command",
  "`sort` emits a permutation of its input, ordered by the key, with items of equal key in input order; if two keys are not comparable or the key function fails it emits no item at all.",
  "all input streams, all key functions (possibly raising), all total preorders on keys", "ordering and stability quantify over all pairs", ["marcel/op/sort.py: Sort.receive, Sort.flush"])
p("unique emits each value once, in order of first appearance",
  "`unique` emits, immediately on arrival, exactly the items that have not occurred before; `unique -c` emits exactly the items that differ from their predecessor.",
  "all input streams of hashable items", "unbounded history", ["marcel/op/unique.py: GeneralUniquer.receive, ConsecutiveUniquer.receive"])
p("Overlapping windows",
  "`window -o n` emits, for a non-empty input of m items, one window per input position (and at least n): window i consists of the items i..i+n-1, missing ones being None.",
  "all n >= 1, all input streams", "sliding-window state for all n and lengths", ["marcel/op/window.py: OverlapWindow.receive, OverlapWindow.flush"])
p("Disjoint windows",
  "`window -d n` splits the input into consecutive blocks of exactly n items; the concatenation of the blocks is the input followed by fewer than n None's.",
  "all n >= 1, all input streams", "all n and lengths", ["marcel/op/window.py: DisjointWindow"])
p("Predicate windows",
  "`window P` splits the input (less the items on which P raised) into non-empty consecutive blocks whose concatenation is that input; P is false inside a block and true on the first item of every block but the first.",
  "all predicates, all input streams", "arbitrary predicate", ["marcel/op/window.py: PredicateWindow"])
p("red without grouping folds every column",
  "`red f1 ... fk` emits one tuple at end of stream whose i-th component is the left fold of fi over column i, starting from None (from 0 for count); with -i each item is emitted extended with the folds so far. An item that is too short produces one Error and does not change the result. A second end-of-stream does not emit again.",
  "all reduction functions, all widths k, all input streams", "unbounded folds over arbitrary functions", ["marcel/op/red.py: NonGroupingReducer"])
p("An item on which a red function fails does not affect the result",
  "If one of red's functions raises on an item, then the result is the one that would have been computed without that item.",
  "all reduction functions (raising anywhere), all input streams", "depends on which component fails on which item", ["marcel/op/red.py: NonGroupingReducer.receive, GroupingReducer.receive", "marcel/core.py: Op.call"])
p("red with grouping",
  "`red . f ...` emits one tuple per distinct grouping value, in order of first appearance, whose data components are the folds over exactly the items with that grouping value. With -i every item is emitted extended with its own group's folds so far.",
  "all positions of grouping columns, all functions, all input streams", "unbounded number of groups and items", ["marcel/op/red.py: GroupingReducer"])
p("expand flattens",
  "`expand` emits the components of each item (of the single component if it is a sequence), in order; `expand k` emits for each element of component k a copy of the item with component k replaced by the element, and passes items with no component k through. squish is the reduction of the item's components.",
  "all items, all k, all streams", "nested unbounded data", ["marcel/op/expand.py", "marcel/op/squish.py"])
p("union, difference and intersect are the bag operations",
  "`union` emits its input followed by the outputs of its pipeline arguments; `difference p` emits each value (count in input) - (count in p) times; `intersect p1 .. pk` emits each value min of the counts times. Emitted input items keep their order.",
  "all streams and argument outputs, any number of argument pipelines, all values", "multiplicities are unbounded", ["marcel/op/union.py", "marcel/op/difference.py", "marcel/op/intersect.py"])
p("join is the relational join",
  "`join p` emits, for each input item in order and each item of p with the same first component in p's order, the input item extended with p's item less its first component; `join -k` additionally emits input items without a match, unextended.",
  "all streams and argument outputs", "one-to-many matches of any multiplicity", ["marcel/op/join.py: Join.receive, Join.customize_pipelines"])
p("filter keep and discard partition the input",
  "`filter -k p` emits exactly the input items whose comparison value occurs in p's output, `filter -d p` exactly the others, unmodified and in order.",
  "all comparison functions, streams and argument outputs", "all values", ["marcel/op/filter.py"])
p("case sends each item to exactly the first matching branch",
  "In `case p1 q1 ... pk qk [d]` every item is processed by exactly one branch: that of the first predicate that is true, else d, else none; the branch pipelines see their items in input order, and an item on which an earlier predicate raises goes to no branch.",
  "all predicates, any number of branches, any branch pipelines, all streams", "arbitrary dispatch patterns", ["marcel/op/case.py: Case.receive, Case.flush"])
p("args runs its pipeline once per complete batch",
  "`args (|x1..xn: ...|)` runs the pipeline once for each consecutive group of n input items, binding the i-th parameter to the i-th item of the group, the last group padded with None; with -a it runs exactly once on the list of all items if there are any.",
  "all n >= 1, all streams", "all lengths modulo n", ["marcel/op/args.py: Args.receive, Args.flush, Args.bindings"])
p("gen generates the arithmetic progression, and padding preserves order",
  "`gen n s` emits s, s+1, ..., s+n-1 (nothing if n < 0; endlessly if n = 0); with --pad p every emitted string has length exactly p, or the command is killed before emitting anything; the padded strings sort like the numbers.",
  "all n, s, p", "unbounded integers", ["marcel/op/gen.py: Gen.setup, Gen.run"])
p("Every operator hears the end of the stream exactly once",
  "When a command finishes its input, each operator downstream is told about the end of the stream exactly once.",
  "all chains of operators, all input streams", "depends on the combination of operators and on emptiness of streams", ["marcel/op/tail.py: Tail.flush", "marcel/op/window.py: OverlapWindow.flush", "marcel/op/args.py: Args.flush", "marcel/op/union.py: Union.flush", "marcel/op/runpipeline.py: RunPipeline.flush", "marcel/core.py: Op.flush"])
p("Misplaced operators kill the command before anything is emitted",
  "A pipeline in which an operator that must be first is not first, or in which an operator that must not be first is first, emits nothing (other than errors about operator arguments that could not be evaluated); every operator of a pipeline that was run gets cleaned up exactly once, in order, whatever happens while it runs (up to the first whose cleanup itself fails).",
  "all chains", "all positions and all exceptions", ["marcel/pipeline.py: PipelineExecutable.setup, PipelineMarcel.run_pipeline", "marcel/core.py: Op.run"])
p("The API's | builds the concatenation and does not change its operands",
  "`a | b` denotes the operators of a followed by those of b, so | is associative; and after building `a | b`, a and b can be used again and mean what they meant before.",
  "all expression trees over |", "all sharing patterns", ["marcel/pipeline.py: OpList.__or__, OpList.create_executable_pipeline"])
p("gather and first return what the pipeline emitted",
  "gather returns all emitted items in order with singletons unwrapped on request, with errors included, excluded or handed to the callback; first returns the first emitted item.",
  "all pipelines' outputs", "all mixes of items and errors", ["marcel/api.py: gather, first", "marcel/op/apiop.py"])
p("Leaving a pipeline restores the variables",
  "After running a pipeline with parameters, every variable has the value it had before, apart from assignments the pipeline made to variables that are not its parameters.",
  "all nestings of pipelines, all parameter names (including names of existing variables), all assignments made inside", "arbitrary nesting and shadowing histories", ["marcel/nestednamespace.py: NestedNamespace.push_scope, pop_scope, Scope.store_item", "marcel/pipeline.py: PipelineMarcel.run_pipeline"])
p("The innermost binding wins",
  "At every moment the value seen by expressions for a name is the one of the innermost pipeline binding that name as a parameter, else the global one; assigning to a name changes exactly that binding.",
  "all sequences of push, pop and assignment", "all histories", ["marcel/nestednamespace.py: Scope.store_item, NestedNamespace.assign"])
p("A workspace remembers its variables",
  "Closing a workspace and opening it again gives back exactly the variables assigned and not deleted, with equal values.",
  "all histories of assignments and deletions", "all histories", ["marcel/nestednamespace.py: to_persistent_state, from_persistent_state", "marcel/object/workspace.py: VarHandler.setvar, delvar, Workspace.open, close"])
p("Immutable variables cannot be changed",
  "Once the shell is up, no sequence of assignments, deletions and imports changes the value of a variable declared immutable; every refused attempt leaves all variables unchanged.",
  "all sequences of operations, all names declared immutable", "all histories", ["marcel/object/workspace.py: VarHandler.check_mutability, setvar, delvar, setvar_import", "marcel/env.py: add_immutable_vars"])
p("A job's variable changes reach the parent shell",
  "After a foreground job has run a command in a child process, the parent's variables agree with the child's on every variable the command assigned or deleted.",
  "all sequences of assignments and deletions in the child", "all histories", ["marcel/object/workspace.py: VarHandler.changes, clear_changes, delvar", "marcel/main.py: update_namespace", "marcel/core.py: Command.execute"])
p("String literals: quoting and escaping round-trip",
  "For every text there is a way to write it on the command line: the text in single or double quotes (if it does not contain that quote), or with every character preceded by a backslash, is read as exactly that text; a literal that is not terminated is reported as such.",
  "all strings", "all strings over all characters", ["marcel/stringliteral.py: StringLiteral", "marcel/parser.py: String.scan"])
p("A string token ends exactly at the first unquoted, unescaped terminator",
  "The lexer's string token is the longest prefix of the input containing no terminating character outside of quotes and escapes; so |, >, <, parentheses and whitespace inside quotes or escaped never end a word, and outside they always do.",
  "all inputs", "all character sequences", ["marcel/parser.py: String.scan"])
p("Parenthesized expressions end at the matching parenthesis",
  "An expression token extends from ( to the matching ), where parentheses inside Python string literals do not count, and the reader reports a missing parenthesis or quote iff there is none.",
  "all inputs", "unbounded nesting", ["marcel/parser.py: Expression.scan, PythonString.scan"])
p("Parsing inverts printing",
  "Every command (pipelines nested to any depth, op arguments, assignments, pipeline parameters, redirections) that is written out as tokens is parsed to the command that was written, and the parser consumes all tokens; the parser always terminates.",
  "all command syntax trees", "unbounded nesting depth", ["marcel/parser.py: Parser.command, pipeline, op_sequence, op, args, arg, vars"])
p("Redirection means store/load",
  "`f < p`-style and `p > f` forms are parsed to the pipeline with load prepended / store appended, and >> appends.",
  "all commands with redirections", "all shapes", ["marcel/parser.py: Parser.op_sequence, redirect handling"])
p("Function parameters are recognized exactly",
  "The reader recognizes the text before the first top-level colon of (args: body) as parameters exactly if it is a comma separated list of identifiers with *args/**kwargs and defaults in the positions Python permits.",
  "all token sequences", "regular language over unbounded words", ["marcel/function_args_parser.py: FunctionArgsParser", "marcel/parser.py: Expression.value"])
p("A script is split into commands losslessly",
  "A script's commands are its non-blank lines, lines ending in a backslash being joined with the following one; no text other than the continuation marks and blank lines is lost, duplicated or reordered.",
  "all scripts", "all sequences of lines", ["marcel/main.py: MainScript, commands_in_script"])
p("Operator arguments: every given value lands in exactly one place, or the command is killed",
  "Whatever arguments are given to an operator, either the command is killed, or every flag that was given has its value, every positional argument is bound in order, everything not given has its default, and the declared at-most-one and exactly-one constraints hold.",
  "all argument declarations, all argument lists", "all lists and signatures", ["marcel/argsparser.py: ArgsParser.parse, check_at_most_one, check_exactly_one"])
p("Combined short flags",
  "An argument -xyz, all of whose letters are declared flags, means the same as -x -y -z given separately, wherever it occurs among the arguments; an argument with a letter that is not a declared flag is not taken apart.",
  "all combinations of declared flags", "all combinations", ["marcel/argsparser.py: ArgsParser.expand_arg, find_flag"])
p("Pipeline arguments are bound to the right parameters",
  "Running a pipeline-valued variable binds positional arguments to parameters in order and named arguments by name; parameters not given are None; giving an argument twice, too many, or one the pipeline does not have, kills the command before the pipeline runs.",
  "all parameter lists, argument lists and keyword dictionaries", "all combinations", ["marcel/op/runpipeline.py: RunPipeline.setup, bindings", "marcel/argsparser.py: PipelineArgsParser"])
p("At most one process has a workspace open",
  "Under every interleaving of processes opening, using and closing a workspace, at most one of them has it open at a time; a failed attempt changes nothing.",
  "all numbers of processes, all interleavings of their file operations", "all schedules", ["marcel/object/workspace.py: Workspace.lock_workspace, unlock_workspace, owner, Marker"])
p("A crash does not lose the workspace",
  "If the process that has a workspace open dies, the next process can open it.",
  "all crash points, all schedules", "all crash points", ["marcel/object/workspace.py: Workspace.lock_workspace, owner, delete_abandoned_markers", "marcel/object/workspace.py: WorkspaceValidater.validate"])
p("A reservoir is never written while it is being read",
  "For each storage file, at all times, there is at most one writer, and none while readers are active.",
  "all sequences of opening and closing readers and writers", "all histories", ["marcel/picklefile.py: PickleFile, Access"])
p("store then load gives back the stream",
  "What was stored in a variable or file is loaded unchanged, in order; storing replaces, storing with append extends; a failed load or store changes nothing.",
  "all streams, all sequences of stores", "all histories", ["marcel/op/store.py", "marcel/op/load.py", "marcel/picklefile.py", "marcel/reservoir.py"])
p("The directory stack and the current directory agree",
  "After any sequence of cd, pushd, popd, dirs -c the top of the directory stack is the current directory, PWD names it, and popd after pushd restores directory and stack; a failing command changes neither.",
  "all sequences of commands, all file systems", "all histories, directories appearing and disappearing", ["marcel/directorystate.py: DirectoryState"])
p("Job control",
  "At every moment at most one job is in the foreground; a finished or killed job never changes state again and is removed from the list; bg, fg and kill act on the job named and no other.",
  "all sequences of job commands and process events", "all interleavings with job completion", ["marcel/job.py: JobControl, Job"])
p("Nesting depth and trace state are restored",
  "Whatever exceptions are raised while nested pipelines run, the nesting level and the number of scopes are back to their previous value when the command ends.",
  "all nested executions with exceptions at any point", "all exception points", ["marcel/env.py: check_nesting", "marcel/pipeline.py: PipelineMarcel.run_pipeline"])
p("history numbers commands consistently",
  "The commands shown by history have consecutive numbers starting at 0 with the oldest, the n most recent ones are shown for history -n, and `! k` re-runs the one shown as k.",
  "all histories", "all lengths", ["marcel/op/history.py"])
p("Listing emits each file once",
  "ls emits every file that matches its arguments exactly once, and descends exactly to the depth requested.",
  "all directory trees, all argument lists", "unbounded trees, overlapping arguments", ["marcel/op/ls.py", "marcel/op/filenames.py", "marcel/op/filenamesop.py"])
p("Reading a file emits every line",
  "read emits every line of every file in order, labelled with its file if requested; with --csv every record is emitted, split so that joining gives back the record.",
  "all file contents", "all texts", ["marcel/op/read.py"])
p("Upgrade check is monotone",
  "The installed version is considered older than the running one iff its version number is smaller, so that the version file always records the newest version of marcel that was started.",
  "all versions, all sequences of starts", "all numbers", ["marcel/persistence/storagelayout.py: ensure_current", "marcel/main.py: update_version_file"])
p("A stored stream lives as long as the variable that holds it",
  "The stream stored in a variable can be loaded from it, whatever other commands are run, until the variable is assigned, stored or deleted; the file behind it is deleted exactly when no variable holds it any more.",
  "all sequences of commands, failing ones included, all variables", "all histories and aliasings", ["marcel/object/workspace.py: VarHandler.setvar, delvar", "marcel/reservoir.py", "marcel/op/store.py"])
p("Adjacent words and expressions are one argument",
  "Words and parenthesized expressions written without blanks between them form one argument, whose value is the concatenation of the words and the values of the expressions, in order.",
  "all sequences of words and expressions, in marcel and shell mode", "all texts", ["marcel/parser.py: Lexer.next_token, Lexer.consolidate"])
p('Starting a new version of marcel upgrades the stored configuration and data completely',
  'Starting marcel with the configuration and data of any earlier layout (files in the home directory; XDG directories; one or several workspaces; the default workspace in its own directory; workspaces in a directory of their own) succeeds, and leaves the present layout: the startup script of the default workspace, the files of each named workspace and the reservoirs are where marcel now looks for them, with the same contents, and not at their old places; histories are replaced by readable ones; the version file has the running version. The next start changes nothing. Starting marcel with nothing stored creates a default workspace.',
  'for every file system in one of the six layouts, with any number of workspaces and any files in them, every order in which directories are listed, every version',
  'The upgrade is a chain of five migrations with directory moves whose targets depend on the names and numbers of workspaces; tests use one small tree per layout.',
  ['marcel/persistence/storagelayout.py: ensure_current, storage_layout, StorageLayout*.migrate, StorageLayout*.match', 'marcel/locations.py: Locations'])
p('An upgrade loses no file, wherever it is interrupted',
  'However often marcel is started and at whatever points these starts are killed, every file stored before is still there with the same contents, at its old place or at a place the upgrade moves it to; except for the version file, the histories (replaced by intention), the saved environment of the process in the default workspace, and a plain file called like the directory of the default workspace. In the present layout the files of workspaces stay in place.',
  'for every file system, every sequence of starts, every number of steps after which each of them is interrupted',
  'The number of crash points and of sequences of interrupted starts is unbounded; a test covers one interruption at one point.',
  ['marcel/persistence/storagelayout.py: ensure_current, StorageLayout*.migrate, initialize_persistent_config_and_data', 'marcel/object/workspace.py: Workspace.create_on_disk, create_dir'])
p('An interrupted upgrade is completed by the next start',
  'If marcel is killed during an upgrade or a first start, the next start completes it: the result is the same as without the interruption.',
  'for every layout and every point of interruption',
  'Each crash point leaves a different mixture of two layouts, from which the layout has to be recognized again.',
  ['marcel/persistence/storagelayout.py: ensure_current, storage_layout, StorageLayout*.match, StorageLayout*.migrate'])
p('fork passes on everything its workers emit',
  'fork n, or fork applied to an iterable, runs the pipeline once for each of 0..n-1, or each value, with the parameter bound to it. When it ends, everything each instance of the pipeline has emitted has been sent to the next operator, exactly once, in the order of that instance; items as items and errors as errors. It ends if the instances end.',
  'for every number of workers, everything they may emit, every interleaving of the workers and the main process, every delay, every worker being killed at any point',
  'Depends on the interleaving of processes, on how much they emit and on when the polls of the main process time out; the tests use three workers with equally many results.',
  ['marcel/op/forkmanager.py: ForkManager.run, ForkWorker.consume_input, ForkWorker.close, SendToParent, run_pipeline_in_child', 'marcel/op/fork.py: Fork.setup'])
p('The output of an external program is passed on line by line, completely',
  'When a command runs an external program, each line the program writes to standard output is sent to the next operator as a string, and each line written to standard error as an Error, once and in order, without the line end; when the program ends, all of them have been sent and the command ends. Items received by the command are the lines of the standard input of the program, which is empty if there are none.',
  'for everything the program and processes it leaves in the background may write, in whatever pieces and at whatever times, every interleaving with the reading thread, every size of the chunks in which Python reads',
  'Depends on the timing of writes, of the end of the program and of the time-outs of select, and on the state of buffers; tests run programs that write a few lines.',
  ['marcel/op/bash.py: NonInteractive, ProcessOutputHandler.run'])
p('write writes each item and passes it on',
  'write appends to its target one line for each item it receives and each error it receives, in order (the file being emptied first, unless --append is given, and created in any case), and passes each item on, exactly once, in order; an item that cannot be formatted is reported by an error and passed on. Errors are not subject to formatting options and are not passed on. Two commands, the second one appending, write what one command would.',
  'for every sequence of items and errors, every formatting function that may fail for some items, every target, every way of opening it',
  'Quantifies over all streams, over which items fail, and over when opening the file fails.',
  ['marcel/op/write.py: Write.receive, Write.receive_error, TextWriter'])
p('Each command is executed once, in order',
  'In an interactive session each command typed is executed exactly once, in the order typed, whatever earlier commands did (failed, were interrupted, recalled another command, opened another workspace, or modified the startup script); a command recalled by `!` or edit is executed directly after the command that recalled it; opening a workspace runs its startup scripts. The session ends only at the end of the input, by exit, or by an unexpected exception. In a script the commands are executed once in order, up to the first one ending it.',
  'for every sequence of typed commands, every behaviour of each of them (depending on everything executed before), every moment at which the startup script is modified',
  'Quantifies over all sessions and over what arbitrary commands do to the state of the main loop; tests execute single commands.',
  ['marcel/main.py: MainInteractive.run, MainScript.run, Main.run_script, main_interactive_run'])
p('A script read from standard input behaves like the same script in a file',
  'Feeding a script to marcel by standard input executes the same commands as naming a file with this script on the command line; if a script is named, this script is executed.',
  'for every text of a script',
  'All texts: indentation, blank lines, lines without end.',
  ['marcel/main.py: main_stdin_run, MainScript.run, Main.run_script', 'marcel/util.py: InputSource'])
p('The arguments of a script are parsed as declared',
  'parse_args with flags declared by flag, int_flag, boolean_flag and anon accepts exactly the command lines that consist of declared flags, each with a value of its type if it takes one, and other arguments, with all required flags present; then each variable has the value given last, or the default, and the anon variable all other arguments in order. Everything else is rejected with the usage message. Declarations with clashing flags are rejected.',
  'for every set of declarations, every command line',
  'All command lines, all combinations of declarations.',
  ['marcel/cliargs.py: CommandLine.parse, FlagArg, AnonArg, CommandLine.__init__'])
p('What a command name denotes',
  'Each command of a pipeline is: the pipeline that is the value of a variable, if there is a variable with that name; else the marcel operator with that name; else the executable of the host with that name; else a variable that has to be defined when the command runs. Arguments of executables (and of ls, read, bash) are written as in a shell, other arguments as Python-like words and expressions. A bare expression is map, < and > are read and write, <$ and >$ load and store, @ is remote, ! is run. Arguments may be words, expressions and pipelines.',
  'for every command line, every set of variables, every set of executables',
  'Quantifies over all command lines and environments, nested pipelines included.',
  ['marcel/parser.py: Parser.create_op, create_op_variable, create_op_builtin, create_op_executable, ShellOpContext', 'marcel/op/__init__.py', 'marcel/opmodule.py'])
p('An executable gets its arguments as typed',
  'If a command is the name of an executable of the host followed by arguments, then the host shell is given the name and the arguments as typed, expressions being replaced by their values, separated by blanks.',
  'for every executable, every list of arguments, however they are spaced, every value of the expressions',
  'All texts; quoting, escapes, flags that marcel also knows.',
  ['marcel/parser.py: Parser.create_op_executable', 'marcel/op/bash.py: BashArgsParser, Bash.setup, Bash.run', 'marcel/opmodule.py: OpModule'])
p('A start of marcel puts aside exactly the damaged workspaces, losing nothing',
  'At a start, every workspace that is incomplete, has files that do not belong to it, or exists in only one of the configuration and data directories is moved to a directory for broken workspaces, with all its files; every sound workspace stays as it is and is usable; afterwards there is nothing left for the next start to put aside. Wherever the start is interrupted, every file is still there with its contents, at its place or at the place for broken workspaces, except markers and temporary files of processes that have ended.',
  'for every file system (any number of workspaces, any files missing or added), every order of listing directories, every set of live processes, every crash point',
  'All kinds of damage in all combinations, and every crash point of the repair.',
  ['marcel/persistence/persistence.py: validate_all', 'marcel/main.py: Main.handle_persistence_validation_errors', 'marcel/object/workspace.py: WorkspaceValidater.validate, WorkspaceDefaultValidater.validate, Workspace.mark_broken, delete_abandoned_markers', 'marcel/locations.py: Locations'])
p('ws --new and ws --delete do everything or nothing, and concern one workspace',
  'ws --new creates a complete workspace with the startup script of the default workspace and an empty environment, or is refused because there is one with this name, and then changes nothing. ws --delete removes all files of the workspace, or is refused (the workspace does not exist, is the current one, or is used by a live process), and then changes nothing. Other workspaces are never touched, also if the command is interrupted; after an interruption the next start leaves either the complete workspace or none.',
  'for every file system, every name, every set of live processes, every crash point',
  'Each consists of a dozen changes to the file system, with a crash point before each.',
  ['marcel/op/ws.py: WsNew, WsDelete', 'marcel/object/workspace.py: Workspace.create_on_disk, Workspace.delete, lock_workspace, owner'])
p('What a workspace holds when it is closed is what the next open gets',
  'Closing a workspace saves the environment and the properties, and releases the workspace; the next process that opens it gets exactly these. A workspace open in a live process cannot be opened by another one, which changes nothing. ws --list lists exactly the workspaces that exist. If closing is interrupted, the next open gets the old or the new environment.',
  'for every file system, every workspace, every environment, every set of live processes, every crash point',
  'Quantifies over crash points between truncating and writing files, and over who is alive when the workspace is opened again.',
  ['marcel/object/workspace.py: Workspace.open, Workspace.close, read_environment, write_environment, read_properties, write_properties, Workspace.list', 'marcel/op/ws.py: WsOpen, WsClose, WsList'])
p('Tab completion offers what fits, and what is accepted stands for it',
  'When an argument is completed, exactly the names that begin with what has been typed after the last slash are offered, in order, taken from the directory typed before the last slash. After one has been accepted, the line ends with a word that marcel reads as that directory followed by that name, whatever characters the name contains, and then a blank or, for a directory, a slash; what precedes the word is unchanged. Operators, flags, user names and help topics are completed in the same way.',
  'for every line, every word (with escapes or in quotes), every directory listing, every name',
  'All names with all special characters, typed up to any point with any mixture of escapes.',
  ['marcel/tabcompleter.py: TabCompleter.complete_op, complete_flag, complete_arg, select, ArgHandler, HelpTopicHandler, UsernameHandler, FilenameHandler', 'marcel/parser.py: String.scan', 'marcel/stringliteral.py: StringLiteral'])
p('File name arguments give exactly the existing files that they stand for',
  'The file name arguments of ls, cd, pushd, upload and download, which can be absolute, relative to the current directory or to a home directory, with . and .. and with wildcards, give exactly the places in the file system that exist and match one of them (name by name; ** matches any number of names), each once. A name without wildcards gives the file with that name if it exists, and otherwise nothing.',
  'for every file system without links, every current directory, every list of arguments, every matching of single names',
  'All file systems and all combinations of names, dots, home directories and wildcards.',
  ['marcel/op/filenames.py: Filenames.normalize, Filenames._normalize_paths', 'marcel/op/filenamesop.py: FilenamesOp.setup', 'marcel/util.py: unescape'])
p('sql commits what it is to commit, however and whenever the command ends',
  'sql executes its statement once for each input, in order, and writes the rows of a SELECT, or with --update-counts the update counts, to the output in that order. Without --commit and --autocommit the effects of all executions become visible together at the end, or none of them do: if a statement fails, another operator fails, or the process is killed at any point, the database is as before. With --commit N they are committed in batches, each ending with the statement at which the sum of update counts since the last commit reaches N; with --autocommit one by one; what remains after a failure at any point is a whole number of batches. ARGs, if given, are bound to the parameters, otherwise the components of each input.',
  'for every database and statement, every input (with errors in it), every combination of flags, all operators that follow, every point at which the command ends',
  'All points of failure, inside or outside sql, for all databases.',
  ['marcel/op/sql.py: Sql.receive, Sql.flush, Sql.cleanup, SqlStatement.commit_if_necessary, SqlSelect, SqlInsert, SqlOther, classify_statement', 'marcel/object/db.py: Connection'])
p('The host shell reads the commands of upload, download, remote and sudo as intended',
  'upload and download give the host\'s shell a command that it reads as scp with exactly the documented arguments: the identity and port of the host if configured, each file as one argument whatever characters its name contains (blanks, quotes, semicolons, newlines, wildcards), and the destination. remote runs ssh, sudo runs sudo, with exactly the arguments intended. Names printed by ls are quoted so that two files never look the same, and so that the shell, and marcel, reads a copied name as the name of that file.',
  'All file names (any characters), numbers of files, hosts, ports, identities, flags.',
  'Which characters need quoting, and how quoting composes, is a question about all strings; the tests use names of letters. The reading of a shell is a relation between texts and lists of words that a test samples at a few points.',
  ['marcel/util.py: quote_files', 'marcel/op/upload.py: Upload.scp_command', 'marcel/op/download.py: Download.scp_command', 'marcel/op/remote.py: Remote.RunRemote.farcel_invocation', 'marcel/op/sudo.py: Sudo.run', 'marcel/object/cluster.py: Host, Cluster', 'marcel/object/file.py: File.render_compact'])
p("Functions of the Python API make operators with exactly the given arguments",
  "Calling a function of marcel.api (read, ls, gen, sql, filt, window, write, ... 42 functions) with given parameters yields an operator in which every field holds exactly what was given for the corresponding parameter (converted; True for a switch; the default if it was not given), all other fields being unchanged; parameters that exclude each other are refused, and only those.",
  "all functions of the API, all combinations of parameters and values, all lists of arguments of any length, all conversion functions",
  "The parameters are turned into a list of command line arguments that is parsed again: values may be taken for flags, dropped if they are false, or end up in another field, in any of exponentially many combinations.",
  ["marcel/api.py: _generate_op", "marcel/op/*.py: functions of the same names, ...ArgsParser", "marcel/argsparser.py: ArgsParser.parse"])
p("A typed pipeline shows what its stages do, one after the other",
  "Executing the text of a pipeline of gen, map (also as a bare expression), select, head, tail, reverse, sort, unique, window (by a predicate, or disjoint), squish, expand, red shows the items and errors that result from applying the stages one after the other to the stream (each as documented), and ends as they do: it finishes, goes on, is stopped by an item, or is refused before anything is shown because an argument is wrong, gen is not first, or the first operator needs input.",
  "all pipelines of these operators of any length, with literal or computed numbers and arbitrary functions; all ways to write them as text; all values; all numbers of steps after which an endless gen is observed; environments in which no variable has the name of an operator",
  "Tests run some pipelines on some data. That the lexer, the parser, the resolution of names, the parsing of arguments, setup and push execution compose to the meaning of every such pipeline is a statement about all texts and all streams, including those with errors in the middle and those that never end.",
  ["marcel/parser.py: Parser.parse, create_op_builtin", "marcel/argsparser.py: ArgsParser.parse, str_to_int, function", "marcel/pipeline.py: PipelineExecutable.setup, run_pipeline", "marcel/core.py: Op.run, receive_input, eval_function", "marcel/op/gen.py", "marcel/op/map.py", "marcel/op/select.py", "marcel/op/head.py", "marcel/op/tail.py", "marcel/op/reverse.py", "marcel/op/sort.py", "marcel/op/unique.py", "marcel/op/window.py", "marcel/op/squish.py", "marcel/op/expand.py", "marcel/op/red.py"])
p("Help is shown as it was written",
  "Formatting a help text that follows the rules of the markup language succeeds. The output, highlighting aside, consists of the paragraphs of the text (explicit ones from {p} and {L}, implicit ones from blank lines), each wrapped or indented as its markup says; it has the characters of the text in order, blanks aside, without markup and escapes; and exactly the marked text is highlighted, each in its colour and without blanks around it.",
  "all well-formed documents: any text with escapes, any number and nesting in lines of {r:}, {b:}, {i:}, {n:}, {cRGB..:}, any paragraph markup with options; all colour schemes; all widths and all wrappers that change only blanks",
  "Markup is removed before the text is wrapped, and put back afterwards at positions found by counting characters that are not blank; paragraphs are found by scanning pointers that can move backwards. That positions and boundaries agree after wrapping holds for every document or fails for some combination of escapes, line ends and markup no test has.",
  ["marcel/helpformatter.py: TextPointer, ParagraphMarkup, TextMarkup, Paragraph.remove_markup, Paragraph.wrap, Paragraph.format, HelpFormatter.format", "marcel/op/help.py"])
p("timer ticks",
  "timer INTERVAL keeps sending timestamps: they are increasing, at least INTERVAL apart, none is sent twice and none is in the future. A timestamp is lost only if a later one replaces it while the rest of the pipeline is busy with an earlier one: when the command waits, the latest has been sent. If both threads get their turns, any number of timestamps will be sent.",
  "all schedules of the two threads, all delays of threads, of waking up and of the rest of the pipeline, all nonnegative intervals, all times at which the command is observed",
  "Missed notifications, a timestamp overwritten between being read and being cleared, or a deadlock show up under rare schedules only; a test sees the schedule its machine happens to produce.",
  ["marcel/op/timer.py: Timer.run, Timer.register_tick, Metronome.run"])
p("Variables of every kind come back",
  "After a workspace is closed and opened again, every variable assigned or imported has a value that is equal to (for data), or made from the same source as (for functions, pipelines, modules, symbols), the one it had.",
  "all sequences of assignments and imports with all kinds of values, all startup scripts, and all Python environments (what functions, modules and values are)",
  "What is stored depends on the kind of value, and making it again depends on what has been made before it; whether some order of assignments makes a workspace unusable is a question about all histories.",
  ["marcel/nestednamespace.py: EnvValue, wrap, reconstitute, from_persistent_state", "marcel/op/assign.py: Assign", "marcel/object/workspace.py: Workspace.open, close", "marcel/parser.py: Expression, parse_function"])
p("The variables at the start",
  "When marcel starts, every variable it defines, every public name of marcel.builtin, and every variable that the startup script defines has the value defined there; the startup script wins, and it cannot change MARCEL_VERSION, HOME, USER, HOST and WORKSPACE.",
  "all startup scripts, all contents of marcel.builtin, all values",
  "Tests run with the startup script of the distribution, which hides what marcel itself defines.",
  ["marcel/env.py: Environment.initial_namespace, PermanentNamespace.add_to_namespace, never_mutable", "marcel/configscript.py: ConfigScript.run", "marcel/object/workspace.py: Workspace.open"])
p("env shows the variables",
  "env shows each variable once with its value, in increasing order of names, whatever the values are; with -p PATTERN exactly those whose name contains PATTERN; __builtins__ only with -b; env VAR shows that variable, and fails if it is undefined; env -d VAR shows and removes it, if it exists, and leaves all others alone; otherwise nothing is changed.",
  "all namespaces, all values (comparable or not), all patterns and names, marcel and OS variables",
  "env sorts pairs of names and values; that values are never compared must hold for every namespace.",
  ["marcel/op/env.py: EnvMarcel, EnvOS, Env.run", "marcel/object/workspace.py: getvar, delvar"])
p("import brings in what it names",
  "import MODULE, MODULE SYMBOL, MODULE *, with or without --as NAME, changes exactly the variables that the corresponding Python statement binds, and nothing if it fails.",
  "all modules and their contents, all symbols and names, all namespaces",
  "Which names are bound depends on the contents of the module; tests import a few well-known ones.",
  ["marcel/op/import.py: Import.setup, Import.run", "marcel/object/workspace.py: setvar_import", "marcel/util.py: import_module"])
p('What a pipeline outputs in another process arrives',
  'If a pipeline is run by remote (on one host) or sudo, and the transport delivers what the other process wrote, then the items output by the pipeline arrive, in order, unchanged (with the host in front for remote), its errors arrive as errors (labelled with the host for remote), an exception that ends the pipeline arrives as an error, once, and the stream is flushed. A pipeline that cannot be sent or run is reported as an error.',
  'every sequence of items (of any structure, with any sharing between them) and errors output by the pipeline, every way it ends, every moment at which text is printed',
  'Items of any structure go through one pickler whose memo connects all of them, and its output shares a stream with whatever the pipeline prints; a test transports a few small items.',
  ['bin/farcel.py: PickleOutput, PipelineRunner, main','marcel/op/remote.py: RunRemote, LabelThread','marcel/op/sudo.py: Sudo.run','marcel/object/error.py: Error'])
p('A pipeline does the same each time it is run',
  'A pipeline that is run several times - the argument of args, or the value of a variable - does in each run what it does in the first: output, errors and the way it ends depend on the input and variables of this run only, not on the earlier runs, however these ended.',
  'every pipeline of the modelled operators, every series of runs of any length, with any input and values of variables, of the same object and of copies of it',
  'What is left over from a run depends on everything that happened in it; a test runs a pipeline twice at most.',
  ['marcel/pipeline.py: PipelineMarcel.run_pipeline, setup','marcel/core.py: Op.copy, Op.receive_input, Pipeline.copy','marcel/op/runpipeline.py: RunPipeline.setup','marcel/op/args.py: Args','marcel/op/reverse.py: Reverse','marcel/op/sort.py: Sort','marcel/op/intersect.py: Intersect','marcel/op/difference.py: Difference','marcel/op/filter.py: Filter','marcel/op/union.py: Union','marcel/op/sudo.py: Sudo.setup','marcel/op/head.py: Head','marcel/op/tail.py: Tail','marcel/op/unique.py: Unique','marcel/op/window.py: Window','marcel/op/red.py: Red'])
p('What ls shows about a file is true',
  'A listing has one line for each file that exists, in order; each line tells the type, permissions, owner, group, size, time and name (relative to the common directory of the arguments; for a link also where it leads) of the file; colours change nothing but escape sequences; the columns are aligned; files that come from another computer are shown as they would be there.',
  'all modes, owners, sizes, names, all trees of files and arguments, all pairs of computers and what they call their users',
  'There are 65536 modes and any names and sizes, and what is shown depends on the files listed before (through a shared cache and shared widths) and on the two computers involved.',
  ['marcel/object/file.py: File.render_full, File.mode_string, Formatting, MetadataCache, File.__getstate__','marcel/op/filenamesop.py: FilenamesOp.determine_base, visit','marcel/util.py: username, groupname, colorize','bin/farcel.py: PickleOutput'])
p('ps shows the processes asked for',
  'ps with a user, group, process number or command shows exactly the matching processes, in the order of the system, each once, processes about which the system tells nothing left out; a user, group or number that does not exist is refused before anything is shown; and asking again gives the same.',
  'every table of processes (with any of their attributes hidden), all users and groups, all arguments',
  'Matching depends on which attributes the system hides, and names of users can be numbers; tests run ps for the user that runs the tests.',
  ['marcel/op/ps.py: Ps.setup, Ps.run, PsArgsParser, ps','marcel/util.py: uid, gid, convert_to_id','marcel/object/process.py: Process, processes'])
p('edit gives the editor the command asked for, and runs what it leaves',
  'Entering edit N starts the editor (EDITOR of marcel, else of the host) with exactly the text of command N of the history (edit alone: with the last command), and what is run is exactly the text that the editor leaves; a number that no command has is refused; edit --startup edits the startup script of the workspace; all other lines are run as typed.',
  'every history, every number and spacing, every editor (any function from texts to texts), every line entered',
  'Editors can leave any text, of any number of lines, and any line can be entered; tests do not start editors.',
  ['marcel/reader.py: Reader.handle_edit_and_run, key binding of Enter','marcel/runeditor.py: find_editor, edit_text, edit_file','marcel/op/edit.py: Edit, edit'])
p('JSON is read as what it says, and written as what is read',
  'json_parse gives a value with exactly the structure of the text (the last value counts if a name occurs twice); what json_format writes is read again as the same value; what is read is written as the same JSON; json_format fails exactly for values that JSON cannot express; expand of an object gives its names and values.',
  'all JSON texts of any depth, all values of any depth',
  'Objects are converted inside out by a hook, at each level, and the encoder mixes native types with a hook; texts can be nested to any depth.',
  ['marcel/jsonutil.py: Parser, Formatter','marcel/structish.py: StructIsh','marcel/builtin.py: json_parse, json_format','marcel/op/expand.py: Expand','marcel/op/read.py: JSONReader'])
p('The standard reduction functions compute what their names say',
  'red, red with grouping, red -i and squish with + * ^ & | and or max min count concat give the sum (or the concatenation of strings or lists), the product, the bitwise combinations, the first false (true) value or else the last, the greatest and least value, the number and the list of the values reduced; nothing reduced gives None (count: 0); None counts as a value like others; these names always mean these functions; rows sent by red -i do not change later.',
  'all lists of values of any length, all combinations of functions and columns, all groupings, all variables defined, all receivers (that look at once or later)',
  'The results are folds over input of any length, with special treatment of None at the beginning, and one function changes its accumulator in place.',
  ['marcel/reduction.py', 'marcel/function.py: SymbolFunction, Function.is_count', 'marcel/argsparser.py: ArgsParser.function', 'marcel/op/red.py', 'marcel/op/squish.py'])
p('cast converts each element to its type and nothing else',
  'cast TYPE ... sends for each row a row of the same length, in order, in which element i is the conversion of the input with TYPE i; None and elements beyond the types are left alone; a row with an element that cannot be converted gives one Error, for the first such element, and the command goes on; a name that is not a type ends the command before anything is sent.',
  'all streams of rows of any length, all conversion functions (that may fail on any value), all lists of names',
  'Rows can be shorter or longer than the list of types, and every element can fail.',
  ['marcel/op/cast.py: Cast', 'marcel/core.py: Op.call'])
p('Coloured text is shown in exactly the colour given',
  'Text written in a colour (by a color scheme or the prompt) appears on a terminal unchanged, every character in the colour and style given and in nothing else; what is written afterwards has the terminal\'s default look. Different colours look different. A colour outside of the documented range (components 0..5, style none, BOLD, ITALIC or both) is refused.',
  'every text, every colour, every continuation of the output', 'Texts and subsequent output are unbounded; a test looks at escape codes of chosen colours, not at what a terminal shows.',
  ['marcel/object/color.py: Color', 'marcel/util.py: colorize'])
p('The prompt shows its components, each in the colour before it',
  'The prompt consists of the texts of the components of PROMPT (strings, and results of functions), in order, each in the nearest colour before it. If a function fails or PROMPT is not a sequence, the default prompt is shown. There always is a prompt. PROMPT_DIR is a string that names the current directory: relative to the workspace\'s home directory, or with ~ for the user\'s home directory.',
  'every list of components, every current and home directory', 'Lists of components and directories are unbounded.',
  ['marcel/env.py: EnvironmentInteractive.prompt_string', 'marcel/env.py: EnvironmentInteractive.prompt_dir'])
p('A color scheme only ever holds documented, usable colours',
  'Setting an attribute of a color scheme succeeds exactly for documented names and for None, a colour, or colours for file extensions; it changes that attribute only. After any sequence of changes each documented attribute has a usable value and there is no other. A colour for one file extension can be set at any time.',
  'every sequence of assignments, of any length', 'Histories of assignments are unbounded.',
  ['marcel/object/color.py: ColorScheme.__setattr__', 'marcel/object/color.py: ColorScheme.set_extension_color'])
p('A cluster consists of the hosts given, and each host keeps its address and port',
  'A cluster is made from one host or from several hosts (exactly one of the two), with an identity, and has these hosts in the given order; anything that is not a host is refused. Each use of a host either fails with an error that leaves the shell running, because its name has not been found yet (and may be retried), or yields the port given and the address found first. Hosts are equal if and only if address (or name) and port are.',
  'every specification of hosts, every sequence of uses and of failures of the name service', 'The sequence of lookups and their results is unbounded and depends on the network.',
  ['marcel/object/cluster.py: Host', 'marcel/object/cluster.py: Cluster.__init__'])
p('ws does what its help says, for every list of arguments',
  'ws with no arguments shows the current workspace, ws NAME and ws --open NAME open, --new NAME creates and opens, --close returns to the default workspace, --delete NAME, --delete-broken, --home DIR and --list do what they are called; exactly these lists of arguments are accepted, and everything else (several flags, separate or combined, unknown flags, missing or superfluous arguments) is refused without effect. A workspace that exists is not created again, one that does not exist is not opened, opening the current one changes nothing, and the default workspace gets no home directory. ws(...) in the API does the same with its parameters.',
  'every list of strings given as arguments, every set of existing workspaces, every parameter of the API function', 'Lists of arguments are unbounded, and flags can be combined and placed in many ways.',
  ['marcel/op/ws.py: WsArgsParser', 'marcel/op/ws.py: Ws.setup', 'marcel/op/ws.py: WsImpl', 'marcel/op/ws.py: ws', 'marcel/argsparser.py: ArgsParser.parse'])
p('marcel\'s files are where the documentation says, and no two of them coincide',
  'The configuration directory is what XDG_CONFIG_HOME says, otherwise .config in the home directory, the data directory what XDG_DATA_HOME says, otherwise .local/share. The version, and of each workspace the startup script, the markers, the properties, the variables, the history and the stored values of each variable, and what is put aside when a workspace is broken, are at the documented places below marcel in one of the two. No two of these files are at the same place: not for different workspaces, variables, kinds, times or process ids; processes share exactly the files of named workspaces and the history, startup script and markers of the default workspace, while each has its own variables and stored values of the default workspace.',
  'every home directory and setting of the two variables to absolute paths, all workspaces whose names can be names of files, all variables, all pairs of processes', 'Names of workspaces and variables and process ids are unbounded, and the claim is about all pairs.',
  ['marcel/locations.py: Locations', 'marcel/object/workspace.py: Marker', 'marcel/object/workspace.py: Workspace.create_dir'])
p('What is traced is written where the last trace command said',
  'trace accepts exactly the arguments its help shows. After trace --on, every line that is traced (in marcel itself, in the jobs it starts, and in the processes these start, however deep) goes to stdout; after trace --file FILE to that file, added at its end; after trace --off, and before the first of these, nowhere. trace alone tells which of these is the case. Changing the workspace or the directory does not matter, and tracing never keeps a command from being run.',
  'every list of arguments, every history of commands, jobs, changes of directory and trace requests, processes nested to any depth, both start methods', 'Histories and depths of processes are unbounded; what goes wrong depends on what was started before.',
  ['marcel/op/trace.py: Trace', 'marcel/op/trace.py: TraceArgsParser', 'marcel/env.py: Trace', 'marcel/env.py: Environment.__getstate__', 'marcel/main.py: main_interactive_run'])
p('A command whose operators have pipelines as arguments shows what the specification says, at any depth',
 "For a command that is a pipeline of `gen`, `map`, `select`, `head`, `tail`, `reverse`, `sort`, `unique`, `window`, `squish`, `expand`, `red` and of `union`, `difference`, `intersect`, `join`, `filter`, whose arguments are pipelines `(| ... |)` of the same kind, to any depth: running its text shows (items and errors, in order, and how it ends) what the stages mean one after the other. `union` passes its input and then what each pipeline sends, in order; `difference` and `intersect` take away or keep as many of each item as their pipelines send; `join` extends each item by those with the same first component; `filter` sends the items whose key is (or isn't) sent by the pipeline. A pipeline that is an argument behaves exactly as the same text would as a command, including that it can't start or ends by an error; and nothing is run at all if a function anywhere in the command doesn't compile.",
 'all pipelines of these operators with pipelines as arguments to any depth, all ways of writing them, all values, functions and numbers of steps, except for `union` after `tail` or `union` in the same pipeline, and for pipelines that don\'t end',
 'A test runs one nesting of operators with literal data; that an argument pipeline means the same as a command has to hold for every combination and depth.',
 ['marcel/op/union.py Union.flush', 'marcel/op/difference.py Difference', 'marcel/op/intersect.py Intersect', 'marcel/op/join.py Join', 'marcel/op/filter.py Filter', 'marcel/pipeline.py PipelineExecutable.setup', 'marcel/parser.py Parser.create_op_builtin'])
p('Objects in a stream are compared, sorted and told apart by what identifies them',
 "Two files are equal if and only if their paths are, two processes if and only if their pids are, two history records if and only if their numbers are, whatever else is known of them; `==`, `!=`, `<`, `<=`, `>`, `>=` of two objects of one such kind agree with each other and with one strict total order (paths part by part, pids and numbers by value); equal objects have equal hashes. Therefore `unique` outputs of the items with the same identity the first, `unique --consecutive` the first of each run, and `sort` orders files by path, processes by pid and history records by number, and leaves items with the same identity in their order. (False: history records cannot be put into a set, so `unique` is killed by them; comparing such an object with anything of another kind, even for equality, raises an AttributeError, which crashes `unique` on a process and the integer that is its pid, and `unique --consecutive` on a file and a string.)",
 'all objects, all items (tuples of any length), all streams, all hash functions',
 'The order must be total and agree with equality for all paths and all pairs; whether objects of different kinds meet in a set depends on the values of hashes.',
 ['marcel/object/file.py:File.__eq__','marcel/object/process.py:Process.__eq__','marcel/object/historyrecord.py:HistoryRecord.__eq__','marcel/op/unique.py:GeneralUniquer','marcel/op/sort.py:Sort'])
p('If a workspace cannot be opened, marcel goes on in the default workspace, or ends and says why',
 "Commands are executed only in a workspace that has been opened completely and that the process has locked, and a workspace is opened only after the one before has been closed, whatever fails. If the startup script, the properties or the saved variables of a named workspace are bad, marcel says so and goes on in the default workspace; if those of the default workspace are, it says so and ends. marcel ends by exit only if it was asked to, normally only at the end of its input. When it has ended, it has no workspace locked. (False in several ways: a failing startup script of the default workspace is reported again and again without end; the messages meant for this never appear; if a script opens a workspace whose startup script fails, the script is run again from the beginning, without end; a startup script that opens a workspace, or a workspace whose startup script assigns HOME, ends marcel; bad saved variables of the default workspace end in a traceback; a workspace whose startup script failed stays locked.)",
 'all sequences of commands and sessions, all behaviours of startup scripts, files, commands and closing, at each time, interactive or from a script',
 'Each combination of failures at a start, in a startup script, and on a change of workspace leads to another path through nested loops, exception handlers and exit handlers; that something repeats without end is not a property of a finite run.',
 ['marcel/main.py:main','marcel/main.py:main_interactive_run','marcel/main.py:main_script_run','marcel/main.py:Main.shutdown','marcel/object/workspace.py:Workspace.open','marcel/configscript.py:ConfigScript'])
p('help has an answer to what it advertises',
 "`help TOPIC` shows, however TOPIC is capitalized, the help of the operator of that name, otherwise of the topic of that name, and otherwise says that there is none; `help` alone shows the front page. All the help that comes with marcel (51 operators, 18 topics) is shown completely, on consoles of all widths and in all colour schemes; there is help for each entry of the lists on the front page, and for each operator that can be used in commands. (False: `assign` has no help, and `help assign` sends None; the front page omits download, fork and upload; the help of upload, download and operator refers to `help cluster` and `help out`, which do not exist; a topic given by a function is not evaluated, but an AttributeError.)",
 'all topics, all sets of operators and topics with any well-formed texts; the shipped texts: all widths and ways of wrapping, all colour schemes',
 'A text that breaks the rules of the markup language makes help loop forever or crash, at some widths or with some schemes only if they matter; that none of the shipped texts does so for any width is a statement about all widths.',
 ['marcel/op/help.py:Help','marcel/opmodule.py:OpModule','marcel/helpformatter.py:HelpFormatter.format','marcel/doc/help_marcel.py:HELP','marcel/op/__init__.py:public'])
p('What is displayed does not depend on colours, and can be read back',
 "The default output of a command shows the same text in all colour schemes and without one (colours only add attributes), and leaves the terminal as it was; a single object is shown in full, several as a list or tuple of their short forms. The lines of processes show process id, parent, user, status and command in fixed columns, and different values give different lines; so do number and command of history records. (False: the columns are shifted by process ids over 999999 and user names of more than 8 characters; history records cannot be displayed without a colour scheme, so that `history | write FILE` makes an empty file and an error for each command.)",
 'all items of processes, history records, errors and other objects with any texts without escape characters; all colour schemes with valid colours; all commands, users and ids; all histories',
 'A test compares the display of a few items, usually without colours; that no colour scheme changes the text of any item, and that no two processes or commands have the same line, concerns all of them.',
 ['marcel/object/process.py:Process.render_full','marcel/object/historyrecord.py:HistoryRecord.render_full','marcel/object/error.py:Error.render_full','marcel/op/write.py:DefaultWriter','marcel/util.py:colorize'])
p('A color scheme is displayed as the definitions that make it, and the configuration that marcel comes with is sound',
 "A color scheme is displayed as the list of its attributes with their values, separated by commas, extensions in order and each once, with the same text whatever colours are used for the display; what is shown for a colour is the expression that makes it, so that two colours that look the same there are the same. The configuration file that is made when marcel runs first is accepted; it sets all attributes to valid colours, and its prompt shows `M VERSION WORKSPACE USER@HOST DIR$`. (False: `file_link_broken` is not set, so that broken links have no colour; without a colour scheme for the display, e.g. when writing to a file, there is an AttributeError.)",
 'all color schemes with any extensions; all colours; all colours used for display; all versions, workspaces, users, hosts and directories',
 'A test displays one scheme; whether commas and order are right for all schemes and whether the text determines the colour is a matter of all schemes.',
 ['marcel/object/color.py:ColorScheme.render_full','marcel/object/color.py:Color.__repr__','marcel/persistence/defaultinitialconfig.py:CONFIG','marcel/builtin.py:set_prompt','marcel/env.py:EnvironmentInteractive.prompt_string'])
out = os.path.join(os.path.dirname(os.path.abspath(__file__)), '..', 'properties.jsonl')
with open(out, 'w') as f:
    for x in P:
        f.write(json.dumps(x) + '\n')
print(len(P))
