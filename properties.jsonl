{"id": "C01", "title": "Streaming a pipeline equals staging it", "statement": "Running the pipeline `p | q` (items pushed through depth first, one at a time) has the same observable result as running `p` to completion, recording everything it emits (tuples, errors, end-of-stream), and then feeding that recording to `q`. If `q` kills the command, the observable output is exactly the part `q` had emitted by then.", "quantifier": "all operator chains p and q built from arbitrary stateful operators, all input streams, all points at which an operator raises", "why_tests_cant": "the push schedule interleaves the operators' state changes differently for every pair of operators and every input; tests only see a few chains", "anchors": ["marcel/core.py: Op.send, Op.receive_input, Op.send_error, Op.propagate_flush", "marcel/pipeline.py: PipelineExecutable.setup/run/flush"]}
{"id": "C02", "title": "An item that makes a function fail only loses itself", "statement": "If the function given to map, select or a predicate window raises on some item, one Error is emitted in that item's place, that item contributes nothing else, and every other item is processed exactly as if the failing item had not been in the stream.", "quantifier": "all functions (total or raising anywhere), all input streams, all chains of such operators", "why_tests_cant": "the failing set is an arbitrary subset of the inputs", "anchors": ["marcel/core.py: Op.call, Op.fatal_error, Op.receive_input", "marcel/op/map.py: Map.receive", "marcel/op/select.py: Select.receive", "marcel/op/window.py: PredicateWindow.receive"]}
{"id": "C03", "title": "head keeps or skips exactly the first n", "statement": "`head n` emits exactly the first n input items (all of them if fewer), `head -n` emits exactly the rest; together, in order, they give back the input. `head 0` kills the command and emits nothing.", "quantifier": "all n, all input streams", "why_tests_cant": "unbounded n and stream length", "anchors": ["marcel/op/head.py: Head.setup, HeadKeepN.receive, HeadSkipN.receive"]}
{"id": "C04", "title": "tail keeps or drops exactly the last n", "statement": "`tail n` emits exactly the last n input items in input order, `tail -n` emits everything but the last n; together they give back the input. `tail 0` kills the command.", "quantifier": "all n, all input streams, i.e. every wrap-around position of the circular buffer", "why_tests_cant": "the circular buffer's end index takes every residue mod n", "anchors": ["marcel/op/tail.py: Tail.setup, TailKeepN, TailSkipN"]}
{"id": "C05", "title": "reverse reverses", "statement": "`reverse` emits nothing before end of stream and then exactly the input in opposite order; `reverse | reverse` is the identity on data; a second end-of-stream signal does not repeat output.", "quantifier": "all input streams", "why_tests_cant": "unbounded stream", "anchors": ["marcel/op/reverse.py: Reverse.receive, Reverse.flush"]}
{"id": "C06", "title": "sort is a stable permutation, or kills the command", "statement": "`sort` emits a permutation of its input, ordered by the key, with items of equal key in input order; if two keys are not comparable or the key function fails it emits no item at all.", "quantifier": "all input streams, all key functions (possibly raising), all total preorders on keys", "why_tests_cant": "ordering and stability quantify over all pairs", "anchors": ["marcel/op/sort.py: Sort.receive, Sort.flush"]}
{"id": "C07", "title": "unique emits each value once, in order of first appearance", "statement": "`unique` emits, immediately on arrival, exactly the items that have not occurred before; `unique -c` emits exactly the items that differ from their predecessor.", "quantifier": "all input streams of hashable items", "why_tests_cant": "unbounded history", "anchors": ["marcel/op/unique.py: GeneralUniquer.receive, ConsecutiveUniquer.receive"]}
{"id": "C08", "title": "Overlapping windows", "statement": "`window -o n` emits, for a non-empty input of m items, one window per input position (and at least n): window i consists of the items i..i+n-1, missing ones being None.", "quantifier": "all n >= 1, all input streams", "why_tests_cant": "sliding-window state for all n and lengths", "anchors": ["marcel/op/window.py: OverlapWindow.receive, OverlapWindow.flush"]}
{"id": "C09", "title": "Disjoint windows", "statement": "`window -d n` splits the input into consecutive blocks of exactly n items; the concatenation of the blocks is the input followed by fewer than n None's.", "quantifier": "all n >= 1, all input streams", "why_tests_cant": "all n and lengths", "anchors": ["marcel/op/window.py: DisjointWindow"]}
{"id": "C10", "title": "Predicate windows", "statement": "`window P` splits the input (less the items on which P raised) into non-empty consecutive blocks whose concatenation is that input; P is false inside a block and true on the first item of every block but the first.", "quantifier": "all predicates, all input streams", "why_tests_cant": "arbitrary predicate", "anchors": ["marcel/op/window.py: PredicateWindow"]}
{"id": "C11", "title": "red without grouping folds every column", "statement": "`red f1 ... fk` emits one tuple at end of stream whose i-th component is the left fold of fi over column i, starting from None (from 0 for count); with -i each item is emitted extended with the folds so far. An item that is too short produces one Error and does not change the result. A second end-of-stream does not emit again.", "quantifier": "all reduction functions, all widths k, all input streams", "why_tests_cant": "unbounded folds over arbitrary functions", "anchors": ["marcel/op/red.py: NonGroupingReducer"]}
{"id": "C12", "title": "An item on which a red function fails does not affect the result", "statement": "If one of red's functions raises on an item, then the result is the one that would have been computed without that item.", "quantifier": "all reduction functions (raising anywhere), all input streams", "why_tests_cant": "depends on which component fails on which item", "anchors": ["marcel/op/red.py: NonGroupingReducer.receive, GroupingReducer.receive", "marcel/core.py: Op.call"]}
{"id": "C13", "title": "red with grouping", "statement": "`red . f ...` emits one tuple per distinct grouping value, in order of first appearance, whose data components are the folds over exactly the items with that grouping value. With -i every item is emitted extended with its own group's folds so far.", "quantifier": "all positions of grouping columns, all functions, all input streams", "why_tests_cant": "unbounded number of groups and items", "anchors": ["marcel/op/red.py: GroupingReducer"]}
{"id": "C14", "title": "expand flattens", "statement": "`expand` emits the components of each item (of the single component if it is a sequence), in order; `expand k` emits for each element of component k a copy of the item with component k replaced by the element, and passes items with no component k through. squish is the reduction of the item's components.", "quantifier": "all items, all k, all streams", "why_tests_cant": "nested unbounded data", "anchors": ["marcel/op/expand.py", "marcel/op/squish.py"]}
{"id": "C15", "title": "union, difference and intersect are the bag operations", "statement": "`union` emits its input followed by the outputs of its pipeline arguments; `difference p` emits each value (count in input) - (count in p) times; `intersect p1 .. pk` emits each value min of the counts times. Emitted input items keep their order.", "quantifier": "all streams and argument outputs, any number of argument pipelines, all values", "why_tests_cant": "multiplicities are unbounded", "anchors": ["marcel/op/union.py", "marcel/op/difference.py", "marcel/op/intersect.py"]}
{"id": "C16", "title": "join is the relational join", "statement": "`join p` emits, for each input item in order and each item of p with the same first component in p's order, the input item extended with p's item less its first component; `join -k` additionally emits input items without a match, unextended.", "quantifier": "all streams and argument outputs", "why_tests_cant": "one-to-many matches of any multiplicity", "anchors": ["marcel/op/join.py: Join.receive, Join.customize_pipelines"]}
{"id": "C17", "title": "filter keep and discard partition the input", "statement": "`filter -k p` emits exactly the input items whose comparison value occurs in p's output, `filter -d p` exactly the others, unmodified and in order.", "quantifier": "all comparison functions, streams and argument outputs", "why_tests_cant": "all values", "anchors": ["marcel/op/filter.py"]}
{"id": "C18", "title": "case sends each item to exactly the first matching branch", "statement": "In `case p1 q1 ... pk qk [d]` every item is processed by exactly one branch: that of the first predicate that is true, else d, else none; the branch pipelines see their items in input order, and an item on which an earlier predicate raises goes to no branch.", "quantifier": "all predicates, any number of branches, any branch pipelines, all streams", "why_tests_cant": "arbitrary dispatch patterns", "anchors": ["marcel/op/case.py: Case.receive, Case.flush"]}
{"id": "C19", "title": "args runs its pipeline once per complete batch", "statement": "`args (|x1..xn: ...|)` runs the pipeline once for each consecutive group of n input items, binding the i-th parameter to the i-th item of the group, the last group padded with None; with -a it runs exactly once on the list of all items if there are any.", "quantifier": "all n >= 1, all streams", "why_tests_cant": "all lengths modulo n", "anchors": ["marcel/op/args.py: Args.receive, Args.flush, Args.bindings"]}
{"id": "C20", "title": "gen generates the arithmetic progression, and padding preserves order", "statement": "`gen n s` emits s, s+1, ..., s+n-1 (nothing if n < 0; endlessly if n = 0); with --pad p every emitted string has length exactly p, or the command is killed before emitting anything; the padded strings sort like the numbers.", "quantifier": "all n, s, p", "why_tests_cant": "unbounded integers", "anchors": ["marcel/op/gen.py: Gen.setup, Gen.run"]}
{"id": "C21", "title": "Every operator hears the end of the stream exactly once", "statement": "When a command finishes its input, each operator downstream is told about the end of the stream exactly once.", "quantifier": "all chains of operators, all input streams", "why_tests_cant": "depends on the combination of operators and on emptiness of streams", "anchors": ["marcel/op/tail.py: Tail.flush", "marcel/op/window.py: OverlapWindow.flush", "marcel/op/args.py: Args.flush", "marcel/op/union.py: Union.flush", "marcel/op/runpipeline.py: RunPipeline.flush", "marcel/core.py: Op.flush"]}
{"id": "C22", "title": "Misplaced operators kill the command before anything is emitted", "statement": "A pipeline in which an operator that must be first is not first, or in which an operator that must not be first is first, emits nothing (other than errors about operator arguments that could not be evaluated); every operator of a pipeline that was run gets cleaned up exactly once, in order, whatever happens while it runs (up to the first whose cleanup itself fails).", "quantifier": "all chains", "why_tests_cant": "all positions and all exceptions", "anchors": ["marcel/pipeline.py: PipelineExecutable.setup, PipelineMarcel.run_pipeline", "marcel/core.py: Op.run"]}
{"id": "C23", "title": "The API's | builds the concatenation and does not change its operands", "statement": "`a | b` denotes the operators of a followed by those of b, so | is associative; and after building `a | b`, a and b can be used again and mean what they meant before.", "quantifier": "all expression trees over |", "why_tests_cant": "all sharing patterns", "anchors": ["marcel/pipeline.py: OpList.__or__, OpList.create_executable_pipeline"]}
{"id": "C24", "title": "gather and first return what the pipeline emitted", "statement": "gather returns all emitted items in order with singletons unwrapped on request, with errors included, excluded or handed to the callback; first returns the first emitted item.", "quantifier": "all pipelines' outputs", "why_tests_cant": "all mixes of items and errors", "anchors": ["marcel/api.py: gather, first", "marcel/op/apiop.py"]}
{"id": "C25", "title": "Leaving a pipeline restores the variables", "statement": "After running a pipeline with parameters, every variable has the value it had before, apart from assignments the pipeline made to variables that are not its parameters.", "quantifier": "all nestings of pipelines, all parameter names (including names of existing variables), all assignments made inside", "why_tests_cant": "arbitrary nesting and shadowing histories", "anchors": ["marcel/nestednamespace.py: NestedNamespace.push_scope, pop_scope, Scope.store_item", "marcel/pipeline.py: PipelineMarcel.run_pipeline"]}
{"id": "C26", "title": "The innermost binding wins", "statement": "At every moment the value seen by expressions for a name is the one of the innermost pipeline binding that name as a parameter, else the global one; assigning to a name changes exactly that binding.", "quantifier": "all sequences of push, pop and assignment", "why_tests_cant": "all histories", "anchors": ["marcel/nestednamespace.py: Scope.store_item, NestedNamespace.assign"]}
{"id": "C27", "title": "A workspace remembers its variables", "statement": "Closing a workspace and opening it again gives back exactly the variables assigned and not deleted, with equal values.", "quantifier": "all histories of assignments and deletions", "why_tests_cant": "all histories", "anchors": ["marcel/nestednamespace.py: to_persistent_state, from_persistent_state", "marcel/object/workspace.py: VarHandler.setvar, delvar, Workspace.open, close"]}
{"id": "C28", "title": "Immutable variables cannot be changed", "statement": "Once the shell is up, no sequence of assignments, deletions and imports changes the value of a variable declared immutable; every refused attempt leaves all variables unchanged.", "quantifier": "all sequences of operations, all names declared immutable", "why_tests_cant": "all histories", "anchors": ["marcel/object/workspace.py: VarHandler.check_mutability, setvar, delvar, setvar_import", "marcel/env.py: add_immutable_vars"]}
{"id": "C29", "title": "A job's variable changes reach the parent shell", "statement": "After a foreground job has run a command in a child process, the parent's variables agree with the child's on every variable the command assigned or deleted.", "quantifier": "all sequences of assignments and deletions in the child", "why_tests_cant": "all histories", "anchors": ["marcel/object/workspace.py: VarHandler.changes, clear_changes, delvar", "marcel/main.py: update_namespace", "marcel/core.py: Command.execute"]}
{"id": "C30", "title": "String literals: quoting and escaping round-trip", "statement": "For every text there is a way to write it on the command line: the text in single or double quotes (if it does not contain that quote), or with every character preceded by a backslash, is read as exactly that text; a literal that is not terminated is reported as such.", "quantifier": "all strings", "why_tests_cant": "all strings over all characters", "anchors": ["marcel/stringliteral.py: StringLiteral", "marcel/parser.py: String.scan"]}
{"id": "C31", "title": "A string token ends exactly at the first unquoted, unescaped terminator", "statement": "The lexer's string token is the longest prefix of the input containing no terminating character outside of quotes and escapes; so |, >, <, parentheses and whitespace inside quotes or escaped never end a word, and outside they always do.", "quantifier": "all inputs", "why_tests_cant": "all character sequences", "anchors": ["marcel/parser.py: String.scan"]}
{"id": "C32", "title": "Parenthesized expressions end at the matching parenthesis", "statement": "An expression token extends from ( to the matching ), where parentheses inside Python string literals do not count, and the reader reports a missing parenthesis or quote iff there is none.", "quantifier": "all inputs", "why_tests_cant": "unbounded nesting", "anchors": ["marcel/parser.py: Expression.scan, PythonString.scan"]}
{"id": "C33", "title": "Parsing inverts printing", "statement": "Every command (pipelines nested to any depth, op arguments, assignments, pipeline parameters, redirections) that is written out as tokens is parsed to the command that was written, and the parser consumes all tokens; the parser always terminates.", "quantifier": "all command syntax trees", "why_tests_cant": "unbounded nesting depth", "anchors": ["marcel/parser.py: Parser.command, pipeline, op_sequence, op, args, arg, vars"]}
{"id": "C34", "title": "Redirection means store/load", "statement": "`f < p`-style and `p > f` forms are parsed to the pipeline with load prepended / store appended, and >> appends.", "quantifier": "all commands with redirections", "why_tests_cant": "all shapes", "anchors": ["marcel/parser.py: Parser.op_sequence, redirect handling"]}
{"id": "C35", "title": "Function parameters are recognized exactly", "statement": "The reader recognizes the text before the first top-level colon of (args: body) as parameters exactly if it is a comma separated list of identifiers with *args/**kwargs and defaults in the positions Python permits.", "quantifier": "all token sequences", "why_tests_cant": "regular language over unbounded words", "anchors": ["marcel/function_args_parser.py: FunctionArgsParser", "marcel/parser.py: Expression.value"]}
{"id": "C36", "title": "A script is split into commands losslessly", "statement": "A script's commands are its non-blank lines, lines ending in a backslash being joined with the following one; no text other than the continuation marks and blank lines is lost, duplicated or reordered.", "quantifier": "all scripts", "why_tests_cant": "all sequences of lines", "anchors": ["marcel/main.py: MainScript, commands_in_script"]}
{"id": "C37", "title": "Operator arguments: every given value lands in exactly one place, or the command is killed", "statement": "Whatever arguments are given to an operator, either the command is killed, or every flag that was given has its value, every positional argument is bound in order, everything not given has its default, and the declared at-most-one and exactly-one constraints hold.", "quantifier": "all argument declarations, all argument lists", "why_tests_cant": "all lists and signatures", "anchors": ["marcel/argsparser.py: ArgsParser.parse, check_at_most_one, check_exactly_one"]}
{"id": "C38", "title": "Combined short flags", "statement": "An argument -xyz, all of whose letters are declared flags, means the same as -x -y -z given separately, wherever it occurs among the arguments; an argument with a letter that is not a declared flag is not taken apart.", "quantifier": "all combinations of declared flags", "why_tests_cant": "all combinations", "anchors": ["marcel/argsparser.py: ArgsParser.expand_arg, find_flag"]}
{"id": "C39", "title": "Pipeline arguments are bound to the right parameters", "statement": "Running a pipeline-valued variable binds positional arguments to parameters in order and named arguments by name; parameters not given are None; giving an argument twice, too many, or one the pipeline does not have, kills the command before the pipeline runs.", "quantifier": "all parameter lists, argument lists and keyword dictionaries", "why_tests_cant": "all combinations", "anchors": ["marcel/op/runpipeline.py: RunPipeline.setup, bindings", "marcel/argsparser.py: PipelineArgsParser"]}
{"id": "C40", "title": "At most one process has a workspace open", "statement": "Under every interleaving of processes opening, using and closing a workspace, at most one of them has it open at a time; a failed attempt changes nothing.", "quantifier": "all numbers of processes, all interleavings of their file operations", "why_tests_cant": "all schedules", "anchors": ["marcel/object/workspace.py: Workspace.lock_workspace, unlock_workspace, owner, Marker"]}
{"id": "C41", "title": "A crash does not lose the workspace", "statement": "If the process that has a workspace open dies, the next process can open it.", "quantifier": "all crash points, all schedules", "why_tests_cant": "all crash points", "anchors": ["marcel/object/workspace.py: Workspace.lock_workspace, owner, delete_abandoned_markers", "marcel/object/workspace.py: WorkspaceValidater.validate"]}
{"id": "C42", "title": "A reservoir is never written while it is being read", "statement": "For each storage file, at all times, there is at most one writer, and none while readers are active.", "quantifier": "all sequences of opening and closing readers and writers", "why_tests_cant": "all histories", "anchors": ["marcel/picklefile.py: PickleFile, Access"]}
{"id": "C43", "title": "store then load gives back the stream", "statement": "What was stored in a variable or file is loaded unchanged, in order; storing replaces, storing with append extends; a failed load or store changes nothing.", "quantifier": "all streams, all sequences of stores", "why_tests_cant": "all histories", "anchors": ["marcel/op/store.py", "marcel/op/load.py", "marcel/picklefile.py", "marcel/reservoir.py"]}
{"id": "C44", "title": "The directory stack and the current directory agree", "statement": "After any sequence of cd, pushd, popd, dirs -c the top of the directory stack is the current directory, PWD names it, and popd after pushd restores directory and stack; a failing command changes neither.", "quantifier": "all sequences of commands, all file systems", "why_tests_cant": "all histories, directories appearing and disappearing", "anchors": ["marcel/directorystate.py: DirectoryState"]}
{"id": "C45", "title": "Job control", "statement": "At every moment at most one job is in the foreground; a finished or killed job never changes state again and is removed from the list; bg, fg and kill act on the job named and no other.", "quantifier": "all sequences of job commands and process events", "why_tests_cant": "all interleavings with job completion", "anchors": ["marcel/job.py: JobControl, Job"]}
{"id": "C46", "title": "Nesting depth and trace state are restored", "statement": "Whatever exceptions are raised while nested pipelines run, the nesting level and the number of scopes are back to their previous value when the command ends.", "quantifier": "all nested executions with exceptions at any point", "why_tests_cant": "all exception points", "anchors": ["marcel/env.py: check_nesting", "marcel/pipeline.py: PipelineMarcel.run_pipeline"]}
{"id": "C47", "title": "history numbers commands consistently", "statement": "The commands shown by history have consecutive numbers starting at 0 with the oldest, the n most recent ones are shown for history -n, and `! k` re-runs the one shown as k.", "quantifier": "all histories", "why_tests_cant": "all lengths", "anchors": ["marcel/op/history.py"]}
{"id": "C48", "title": "Listing emits each file once", "statement": "ls emits every file that matches its arguments exactly once, and descends exactly to the depth requested.", "quantifier": "all directory trees, all argument lists", "why_tests_cant": "unbounded trees, overlapping arguments", "anchors": ["marcel/op/ls.py", "marcel/op/filenames.py", "marcel/op/filenamesop.py"]}
{"id": "C49", "title": "Reading a file emits every line", "statement": "read emits every line of every file in order, labelled with its file if requested; with --csv every record is emitted, split so that joining gives back the record.", "quantifier": "all file contents", "why_tests_cant": "all texts", "anchors": ["marcel/op/read.py"]}
{"id": "C50", "title": "Upgrade check is monotone", "statement": "The installed version is considered older than the running one iff its version number is smaller, so that the version file always records the newest version of marcel that was started.", "quantifier": "all versions, all sequences of starts", "why_tests_cant": "all numbers", "anchors": ["marcel/persistence/storagelayout.py: ensure_current", "marcel/main.py: update_version_file"]}
{"id": "C51", "title": "A stored stream lives as long as the variable that holds it", "statement": "The stream stored in a variable can be loaded from it, whatever other commands are run, until the variable is assigned, stored or deleted; the file behind it is deleted exactly when no variable holds it any more.", "quantifier": "all sequences of commands, failing ones included, all variables", "why_tests_cant": "all histories and aliasings", "anchors": ["marcel/object/workspace.py: VarHandler.setvar, delvar", "marcel/reservoir.py", "marcel/op/store.py"]}
{"id": "C52", "title": "Adjacent words and expressions are one argument", "statement": "Words and parenthesized expressions written without blanks between them form one argument, whose value is the concatenation of the words and the values of the expressions, in order.", "quantifier": "all sequences of words and expressions, in marcel and shell mode", "why_tests_cant": "all texts", "anchors": ["marcel/parser.py: Lexer.next_token, Lexer.consolidate"]}
{"id": "C53", "title": "Starting a new version of marcel upgrades the stored configuration and data completely", "statement": "Starting marcel with the configuration and data of any earlier layout (files in the home directory; XDG directories; one or several workspaces; the default workspace in its own directory; workspaces in a directory of their own) succeeds, and leaves the present layout: the startup script of the default workspace, the files of each named workspace and the reservoirs are where marcel now looks for them, with the same contents, and not at their old places; histories are replaced by readable ones; the version file has the running version. The next start changes nothing. Starting marcel with nothing stored creates a default workspace.", "quantifier": "for every file system in one of the six layouts, with any number of workspaces and any files in them, every order in which directories are listed, every version", "why_tests_cant": "The upgrade is a chain of five migrations with directory moves whose targets depend on the names and numbers of workspaces; tests use one small tree per layout.", "anchors": ["marcel/persistence/storagelayout.py: ensure_current, storage_layout, StorageLayout*.migrate, StorageLayout*.match", "marcel/locations.py: Locations"]}
{"id": "C54", "title": "An upgrade loses no file, wherever it is interrupted", "statement": "However often marcel is started and at whatever points these starts are killed, every file stored before is still there with the same contents, at its old place or at a place the upgrade moves it to; except for the version file, the histories (replaced by intention), the saved environment of the process in the default workspace, and a plain file called like the directory of the default workspace. In the present layout the files of workspaces stay in place.", "quantifier": "for every file system, every sequence of starts, every number of steps after which each of them is interrupted", "why_tests_cant": "The number of crash points and of sequences of interrupted starts is unbounded; a test covers one interruption at one point.", "anchors": ["marcel/persistence/storagelayout.py: ensure_current, StorageLayout*.migrate, initialize_persistent_config_and_data", "marcel/object/workspace.py: Workspace.create_on_disk, create_dir"]}
{"id": "C55", "title": "An interrupted upgrade is completed by the next start", "statement": "If marcel is killed during an upgrade or a first start, the next start completes it: the result is the same as without the interruption.", "quantifier": "for every layout and every point of interruption", "why_tests_cant": "Each crash point leaves a different mixture of two layouts, from which the layout has to be recognized again.", "anchors": ["marcel/persistence/storagelayout.py: ensure_current, storage_layout, StorageLayout*.match, StorageLayout*.migrate"]}
{"id": "C56", "title": "fork passes on everything its workers emit", "statement": "fork n, or fork applied to an iterable, runs the pipeline once for each of 0..n-1, or each value, with the parameter bound to it. When it ends, everything each instance of the pipeline has emitted has been sent to the next operator, exactly once, in the order of that instance; items as items and errors as errors. It ends if the instances end.", "quantifier": "for every number of workers, everything they may emit, every interleaving of the workers and the main process, every delay, every worker being killed at any point", "why_tests_cant": "Depends on the interleaving of processes, on how much they emit and on when the polls of the main process time out; the tests use three workers with equally many results.", "anchors": ["marcel/op/forkmanager.py: ForkManager.run, ForkWorker.consume_input, ForkWorker.close, SendToParent, run_pipeline_in_child", "marcel/op/fork.py: Fork.setup"]}
{"id": "C57", "title": "The output of an external program is passed on line by line, completely", "statement": "When a command runs an external program, each line the program writes to standard output is sent to the next operator as a string, and each line written to standard error as an Error, once and in order, without the line end; when the program ends, all of them have been sent and the command ends. Items received by the command are the lines of the standard input of the program, which is empty if there are none.", "quantifier": "for everything the program and processes it leaves in the background may write, in whatever pieces and at whatever times, every interleaving with the reading thread, every size of the chunks in which Python reads", "why_tests_cant": "Depends on the timing of writes, of the end of the program and of the time-outs of select, and on the state of buffers; tests run programs that write a few lines.", "anchors": ["marcel/op/bash.py: NonInteractive, ProcessOutputHandler.run"]}
{"id": "C58", "title": "write writes each item and passes it on", "statement": "write appends to its target one line for each item it receives and each error it receives, in order (the file being emptied first, unless --append is given, and created in any case), and passes each item on, exactly once, in order; an item that cannot be formatted is reported by an error and passed on. Errors are not subject to formatting options and are not passed on. Two commands, the second one appending, write what one command would.", "quantifier": "for every sequence of items and errors, every formatting function that may fail for some items, every target, every way of opening it", "why_tests_cant": "Quantifies over all streams, over which items fail, and over when opening the file fails.", "anchors": ["marcel/op/write.py: Write.receive, Write.receive_error, TextWriter"]}
{"id": "C59", "title": "Each command is executed once, in order", "statement": "In an interactive session each command typed is executed exactly once, in the order typed, whatever earlier commands did (failed, were interrupted, recalled another command, opened another workspace, or modified the startup script); a command recalled by `!` or edit is executed directly after the command that recalled it; opening a workspace runs its startup scripts. The session ends only at the end of the input, by exit, or by an unexpected exception. In a script the commands are executed once in order, up to the first one ending it.", "quantifier": "for every sequence of typed commands, every behaviour of each of them (depending on everything executed before), every moment at which the startup script is modified", "why_tests_cant": "Quantifies over all sessions and over what arbitrary commands do to the state of the main loop; tests execute single commands.", "anchors": ["marcel/main.py: MainInteractive.run, MainScript.run, Main.run_script, main_interactive_run"]}
{"id": "C60", "title": "A script read from standard input behaves like the same script in a file", "statement": "Feeding a script to marcel by standard input executes the same commands as naming a file with this script on the command line; if a script is named, this script is executed.", "quantifier": "for every text of a script", "why_tests_cant": "All texts: indentation, blank lines, lines without end.", "anchors": ["marcel/main.py: main_stdin_run, MainScript.run, Main.run_script", "marcel/util.py: InputSource"]}
{"id": "C61", "title": "The arguments of a script are parsed as declared", "statement": "parse_args with flags declared by flag, int_flag, boolean_flag and anon accepts exactly the command lines that consist of declared flags, each with a value of its type if it takes one, and other arguments, with all required flags present; then each variable has the value given last, or the default, and the anon variable all other arguments in order. Everything else is rejected with the usage message. Declarations with clashing flags are rejected.", "quantifier": "for every set of declarations, every command line", "why_tests_cant": "All command lines, all combinations of declarations.", "anchors": ["marcel/cliargs.py: CommandLine.parse, FlagArg, AnonArg, CommandLine.__init__"]}
{"id": "C62", "title": "What a command name denotes", "statement": "Each command of a pipeline is: the pipeline that is the value of a variable, if there is a variable with that name; else the marcel operator with that name; else the executable of the host with that name; else a variable that has to be defined when the command runs. Arguments of executables (and of ls, read, bash) are written as in a shell, other arguments as Python-like words and expressions. A bare expression is map, < and > are read and write, <$ and >$ load and store, @ is remote, ! is run. Arguments may be words, expressions and pipelines.", "quantifier": "for every command line, every set of variables, every set of executables", "why_tests_cant": "Quantifies over all command lines and environments, nested pipelines included.", "anchors": ["marcel/parser.py: Parser.create_op, create_op_variable, create_op_builtin, create_op_executable, ShellOpContext", "marcel/op/__init__.py", "marcel/opmodule.py"]}
{"id": "C63", "title": "An executable gets its arguments as typed", "statement": "If a command is the name of an executable of the host followed by arguments, then the host shell is given the name and the arguments as typed, expressions being replaced by their values, separated by blanks.", "quantifier": "for every executable, every list of arguments, however they are spaced, every value of the expressions", "why_tests_cant": "All texts; quoting, escapes, flags that marcel also knows.", "anchors": ["marcel/parser.py: Parser.create_op_executable", "marcel/op/bash.py: BashArgsParser, Bash.setup, Bash.run", "marcel/opmodule.py: OpModule"]}
{"id": "C64", "title": "A start of marcel puts aside exactly the damaged workspaces, losing nothing", "statement": "At a start, every workspace that is incomplete, has files that do not belong to it, or exists in only one of the configuration and data directories is moved to a directory for broken workspaces, with all its files; every sound workspace stays as it is and is usable; afterwards there is nothing left for the next start to put aside. Wherever the start is interrupted, every file is still there with its contents, at its place or at the place for broken workspaces, except markers and temporary files of processes that have ended.", "quantifier": "for every file system (any number of workspaces, any files missing or added), every order of listing directories, every set of live processes, every crash point", "why_tests_cant": "All kinds of damage in all combinations, and every crash point of the repair.", "anchors": ["marcel/persistence/persistence.py: validate_all", "marcel/main.py: Main.handle_persistence_validation_errors", "marcel/object/workspace.py: WorkspaceValidater.validate, WorkspaceDefaultValidater.validate, Workspace.mark_broken, delete_abandoned_markers", "marcel/locations.py: Locations"]}
{"id": "C65", "title": "ws --new and ws --delete do everything or nothing, and concern one workspace", "statement": "ws --new creates a complete workspace with the startup script of the default workspace and an empty environment, or is refused because there is one with this name, and then changes nothing. ws --delete removes all files of the workspace, or is refused (the workspace does not exist, is the current one, or is used by a live process), and then changes nothing. Other workspaces are never touched, also if the command is interrupted; after an interruption the next start leaves either the complete workspace or none.", "quantifier": "for every file system, every name, every set of live processes, every crash point", "why_tests_cant": "Each consists of a dozen changes to the file system, with a crash point before each.", "anchors": ["marcel/op/ws.py: WsNew, WsDelete", "marcel/object/workspace.py: Workspace.create_on_disk, Workspace.delete, lock_workspace, owner"]}
{"id": "C66", "title": "What a workspace holds when it is closed is what the next open gets", "statement": "Closing a workspace saves the environment and the properties, and releases the workspace; the next process that opens it gets exactly these. A workspace open in a live process cannot be opened by another one, which changes nothing. ws --list lists exactly the workspaces that exist. If closing is interrupted, the next open gets the old or the new environment.", "quantifier": "for every file system, every workspace, every environment, every set of live processes, every crash point", "why_tests_cant": "Quantifies over crash points between truncating and writing files, and over who is alive when the workspace is opened again.", "anchors": ["marcel/object/workspace.py: Workspace.open, Workspace.close, read_environment, write_environment, read_properties, write_properties, Workspace.list", "marcel/op/ws.py: WsOpen, WsClose, WsList"]}
{"id": "C67", "title": "Tab completion offers what fits, and what is accepted stands for it", "statement": "When an argument is completed, exactly the names that begin with what has been typed after the last slash are offered, in order, taken from the directory typed before the last slash. After one has been accepted, the line ends with a word that marcel reads as that directory followed by that name, whatever characters the name contains, and then a blank or, for a directory, a slash; what precedes the word is unchanged. Operators, flags, user names and help topics are completed in the same way.", "quantifier": "for every line, every word (with escapes or in quotes), every directory listing, every name", "why_tests_cant": "All names with all special characters, typed up to any point with any mixture of escapes.", "anchors": ["marcel/tabcompleter.py: TabCompleter.complete_op, complete_flag, complete_arg, select, ArgHandler, HelpTopicHandler, UsernameHandler, FilenameHandler", "marcel/parser.py: String.scan", "marcel/stringliteral.py: StringLiteral"]}
{"id": "C68", "title": "File name arguments give exactly the existing files that they stand for", "statement": "The file name arguments of ls, cd, pushd, upload and download, which can be absolute, relative to the current directory or to a home directory, with . and .. and with wildcards, give exactly the places in the file system that exist and match one of them (name by name; ** matches any number of names), each once. A name without wildcards gives the file with that name if it exists, and otherwise nothing.", "quantifier": "for every file system without links, every current directory, every list of arguments, every matching of single names", "why_tests_cant": "All file systems and all combinations of names, dots, home directories and wildcards.", "anchors": ["marcel/op/filenames.py: Filenames.normalize, Filenames._normalize_paths", "marcel/op/filenamesop.py: FilenamesOp.setup", "marcel/util.py: unescape"]}
{"id": "C69", "title": "sql commits what it is to commit, however and whenever the command ends", "statement": "sql executes its statement once for each input, in order, and writes the rows of a SELECT, or with --update-counts the update counts, to the output in that order. Without --commit and --autocommit the effects of all executions become visible together at the end, or none of them do: if a statement fails, another operator fails, or the process is killed at any point, the database is as before. With --commit N they are committed in batches, each ending with the statement at which the sum of update counts since the last commit reaches N; with --autocommit one by one; what remains after a failure at any point is a whole number of batches. ARGs, if given, are bound to the parameters, otherwise the components of each input.", "quantifier": "for every database and statement, every input (with errors in it), every combination of flags, all operators that follow, every point at which the command ends", "why_tests_cant": "All points of failure, inside or outside sql, for all databases.", "anchors": ["marcel/op/sql.py: Sql.receive, Sql.flush, Sql.cleanup, SqlStatement.commit_if_necessary, SqlSelect, SqlInsert, SqlOther, classify_statement", "marcel/object/db.py: Connection"]}
{"id": "C70", "title": "The host shell reads the commands of upload, download, remote and sudo as intended", "statement": "upload and download give the host's shell a command that it reads as scp with exactly the documented arguments: the identity and port of the host if configured, each file as one argument whatever characters its name contains (blanks, quotes, semicolons, newlines, wildcards), and the destination. remote runs ssh, sudo runs sudo, with exactly the arguments intended. Names printed by ls are quoted so that two files never look the same, and so that the shell, and marcel, reads a copied name as the name of that file.", "quantifier": "All file names (any characters), numbers of files, hosts, ports, identities, flags.", "why_tests_cant": "Which characters need quoting, and how quoting composes, is a question about all strings; the tests use names of letters. The reading of a shell is a relation between texts and lists of words that a test samples at a few points.", "anchors": ["marcel/util.py: quote_files", "marcel/op/upload.py: Upload.scp_command", "marcel/op/download.py: Download.scp_command", "marcel/op/remote.py: Remote.RunRemote.farcel_invocation", "marcel/op/sudo.py: Sudo.run", "marcel/object/cluster.py: Host, Cluster", "marcel/object/file.py: File.render_compact"]}
{"id": "C71", "title": "Functions of the Python API make operators with exactly the given arguments", "statement": "Calling a function of marcel.api (read, ls, gen, sql, filt, window, write, ... 42 functions) with given parameters yields an operator in which every field holds exactly what was given for the corresponding parameter (converted; True for a switch; the default if it was not given), all other fields being unchanged; parameters that exclude each other are refused, and only those.", "quantifier": "all functions of the API, all combinations of parameters and values, all lists of arguments of any length, all conversion functions", "why_tests_cant": "The parameters are turned into a list of command line arguments that is parsed again: values may be taken for flags, dropped if they are false, or end up in another field, in any of exponentially many combinations.", "anchors": ["marcel/api.py: _generate_op", "marcel/op/*.py: functions of the same names, ...ArgsParser", "marcel/argsparser.py: ArgsParser.parse"]}
{"id": "C72", "title": "A typed pipeline shows what its stages do, one after the other", "statement": "Executing the text of a pipeline of gen, map (also as a bare expression), select, head, tail, reverse, sort, unique, window (by a predicate, or disjoint), squish, expand, red shows the items and errors that result from applying the stages one after the other to the stream (each as documented), and ends as they do: it finishes, goes on, is stopped by an item, or is refused before anything is shown because an argument is wrong, gen is not first, or the first operator needs input.", "quantifier": "all pipelines of these operators of any length, with literal or computed numbers and arbitrary functions; all ways to write them as text; all values; all numbers of steps after which an endless gen is observed; environments in which no variable has the name of an operator", "why_tests_cant": "Tests run some pipelines on some data. That the lexer, the parser, the resolution of names, the parsing of arguments, setup and push execution compose to the meaning of every such pipeline is a statement about all texts and all streams, including those with errors in the middle and those that never end.", "anchors": ["marcel/parser.py: Parser.parse, create_op_builtin", "marcel/argsparser.py: ArgsParser.parse, str_to_int, function", "marcel/pipeline.py: PipelineExecutable.setup, run_pipeline", "marcel/core.py: Op.run, receive_input, eval_function", "marcel/op/gen.py", "marcel/op/map.py", "marcel/op/select.py", "marcel/op/head.py", "marcel/op/tail.py", "marcel/op/reverse.py", "marcel/op/sort.py", "marcel/op/unique.py", "marcel/op/window.py", "marcel/op/squish.py", "marcel/op/expand.py", "marcel/op/red.py"]}
{"id": "C73", "title": "Help is shown as it was written", "statement": "Formatting a help text that follows the rules of the markup language succeeds. The output, highlighting aside, consists of the paragraphs of the text (explicit ones from {p} and {L}, implicit ones from blank lines), each wrapped or indented as its markup says; it has the characters of the text in order, blanks aside, without markup and escapes; and exactly the marked text is highlighted, each in its colour and without blanks around it.", "quantifier": "all well-formed documents: any text with escapes, any number and nesting in lines of {r:}, {b:}, {i:}, {n:}, {cRGB..:}, any paragraph markup with options; all colour schemes; all widths and all wrappers that change only blanks", "why_tests_cant": "Markup is removed before the text is wrapped, and put back afterwards at positions found by counting characters that are not blank; paragraphs are found by scanning pointers that can move backwards. That positions and boundaries agree after wrapping holds for every document or fails for some combination of escapes, line ends and markup no test has.", "anchors": ["marcel/helpformatter.py: TextPointer, ParagraphMarkup, TextMarkup, Paragraph.remove_markup, Paragraph.wrap, Paragraph.format, HelpFormatter.format", "marcel/op/help.py"]}
{"id": "C74", "title": "timer ticks", "statement": "timer INTERVAL keeps sending timestamps: they are increasing, at least INTERVAL apart, none is sent twice and none is in the future. A timestamp is lost only if a later one replaces it while the rest of the pipeline is busy with an earlier one: when the command waits, the latest has been sent. If both threads get their turns, any number of timestamps will be sent.", "quantifier": "all schedules of the two threads, all delays of threads, of waking up and of the rest of the pipeline, all nonnegative intervals, all times at which the command is observed", "why_tests_cant": "Missed notifications, a timestamp overwritten between being read and being cleared, or a deadlock show up under rare schedules only; a test sees the schedule its machine happens to produce.", "anchors": ["marcel/op/timer.py: Timer.run, Timer.register_tick, Metronome.run"]}
{"id": "C75", "title": "Variables of every kind come back", "statement": "After a workspace is closed and opened again, every variable assigned or imported has a value that is equal to (for data), or made from the same source as (for functions, pipelines, modules, symbols), the one it had.", "quantifier": "all sequences of assignments and imports with all kinds of values, all startup scripts, and all Python environments (what functions, modules and values are)", "why_tests_cant": "What is stored depends on the kind of value, and making it again depends on what has been made before it; whether some order of assignments makes a workspace unusable is a question about all histories.", "anchors": ["marcel/nestednamespace.py: EnvValue, wrap, reconstitute, from_persistent_state", "marcel/op/assign.py: Assign", "marcel/object/workspace.py: Workspace.open, close", "marcel/parser.py: Expression, parse_function"]}
{"id": "C76", "title": "The variables at the start", "statement": "When marcel starts, every variable it defines, every public name of marcel.builtin, and every variable that the startup script defines has the value defined there; the startup script wins, and it cannot change MARCEL_VERSION, HOME, USER, HOST and WORKSPACE.", "quantifier": "all startup scripts, all contents of marcel.builtin, all values", "why_tests_cant": "Tests run with the startup script of the distribution, which hides what marcel itself defines.", "anchors": ["marcel/env.py: Environment.initial_namespace, PermanentNamespace.add_to_namespace, never_mutable", "marcel/configscript.py: ConfigScript.run", "marcel/object/workspace.py: Workspace.open"]}
{"id": "C77", "title": "env shows the variables", "statement": "env shows each variable once with its value, in increasing order of names, whatever the values are; with -p PATTERN exactly those whose name contains PATTERN; __builtins__ only with -b; env VAR shows that variable, and fails if it is undefined; env -d VAR shows and removes it, if it exists, and leaves all others alone; otherwise nothing is changed.", "quantifier": "all namespaces, all values (comparable or not), all patterns and names, marcel and OS variables", "why_tests_cant": "env sorts pairs of names and values; that values are never compared must hold for every namespace.", "anchors": ["marcel/op/env.py: EnvMarcel, EnvOS, Env.run", "marcel/object/workspace.py: getvar, delvar"]}
{"id": "C78", "title": "import brings in what it names", "statement": "import MODULE, MODULE SYMBOL, MODULE *, with or without --as NAME, changes exactly the variables that the corresponding Python statement binds, and nothing if it fails.", "quantifier": "all modules and their contents, all symbols and names, all namespaces", "why_tests_cant": "Which names are bound depends on the contents of the module; tests import a few well-known ones.", "anchors": ["marcel/op/import.py: Import.setup, Import.run", "marcel/object/workspace.py: setvar_import", "marcel/util.py: import_module"]}
{"id": "C79", "title": "What a pipeline outputs in another process arrives", "statement": "If a pipeline is run by remote (on one host) or sudo, and the transport delivers what the other process wrote, then the items output by the pipeline arrive, in order, unchanged (with the host in front for remote), its errors arrive as errors (labelled with the host for remote), an exception that ends the pipeline arrives as an error, once, and the stream is flushed. A pipeline that cannot be sent or run is reported as an error.", "quantifier": "every sequence of items (of any structure, with any sharing between them) and errors output by the pipeline, every way it ends, every moment at which text is printed", "why_tests_cant": "Items of any structure go through one pickler whose memo connects all of them, and its output shares a stream with whatever the pipeline prints; a test transports a few small items.", "anchors": ["bin/farcel.py: PickleOutput, PipelineRunner, main", "marcel/op/remote.py: RunRemote, LabelThread", "marcel/op/sudo.py: Sudo.run", "marcel/object/error.py: Error"]}
{"id": "C80", "title": "A pipeline does the same each time it is run", "statement": "A pipeline that is run several times - the argument of args, or the value of a variable - does in each run what it does in the first: output, errors and the way it ends depend on the input and variables of this run only, not on the earlier runs, however these ended.", "quantifier": "every pipeline of the modelled operators, every series of runs of any length, with any input and values of variables, of the same object and of copies of it", "why_tests_cant": "What is left over from a run depends on everything that happened in it; a test runs a pipeline twice at most.", "anchors": ["marcel/pipeline.py: PipelineMarcel.run_pipeline, setup", "marcel/core.py: Op.copy, Op.receive_input, Pipeline.copy", "marcel/op/runpipeline.py: RunPipeline.setup", "marcel/op/args.py: Args", "marcel/op/reverse.py: Reverse", "marcel/op/sort.py: Sort", "marcel/op/intersect.py: Intersect", "marcel/op/difference.py: Difference", "marcel/op/filter.py: Filter", "marcel/op/union.py: Union", "marcel/op/sudo.py: Sudo.setup", "marcel/op/head.py: Head", "marcel/op/tail.py: Tail", "marcel/op/unique.py: Unique", "marcel/op/window.py: Window", "marcel/op/red.py: Red"]}
{"id": "C81", "title": "What ls shows about a file is true", "statement": "A listing has one line for each file that exists, in order; each line tells the type, permissions, owner, group, size, time and name (relative to the common directory of the arguments; for a link also where it leads) of the file; colours change nothing but escape sequences; the columns are aligned; files that come from another computer are shown as they would be there.", "quantifier": "all modes, owners, sizes, names, all trees of files and arguments, all pairs of computers and what they call their users", "why_tests_cant": "There are 65536 modes and any names and sizes, and what is shown depends on the files listed before (through a shared cache and shared widths) and on the two computers involved.", "anchors": ["marcel/object/file.py: File.render_full, File.mode_string, Formatting, MetadataCache, File.__getstate__", "marcel/op/filenamesop.py: FilenamesOp.determine_base, visit", "marcel/util.py: username, groupname, colorize", "bin/farcel.py: PickleOutput"]}
{"id": "C82", "title": "ps shows the processes asked for", "statement": "ps with a user, group, process number or command shows exactly the matching processes, in the order of the system, each once, processes about which the system tells nothing left out; a user, group or number that does not exist is refused before anything is shown; and asking again gives the same.", "quantifier": "every table of processes (with any of their attributes hidden), all users and groups, all arguments", "why_tests_cant": "Matching depends on which attributes the system hides, and names of users can be numbers; tests run ps for the user that runs the tests.", "anchors": ["marcel/op/ps.py: Ps.setup, Ps.run, PsArgsParser, ps", "marcel/util.py: uid, gid, convert_to_id", "marcel/object/process.py: Process, processes"]}
{"id": "C83", "title": "edit gives the editor the command asked for, and runs what it leaves", "statement": "Entering edit N starts the editor (EDITOR of marcel, else of the host) with exactly the text of command N of the history (edit alone: with the last command), and what is run is exactly the text that the editor leaves; a number that no command has is refused; edit --startup edits the startup script of the workspace; all other lines are run as typed.", "quantifier": "every history, every number and spacing, every editor (any function from texts to texts), every line entered", "why_tests_cant": "Editors can leave any text, of any number of lines, and any line can be entered; tests do not start editors.", "anchors": ["marcel/reader.py: Reader.handle_edit_and_run, key binding of Enter", "marcel/runeditor.py: find_editor, edit_text, edit_file", "marcel/op/edit.py: Edit, edit"]}
{"id": "C84", "title": "JSON is read as what it says, and written as what is read", "statement": "json_parse gives a value with exactly the structure of the text (the last value counts if a name occurs twice); what json_format writes is read again as the same value; what is read is written as the same JSON; json_format fails exactly for values that JSON cannot express; expand of an object gives its names and values.", "quantifier": "all JSON texts of any depth, all values of any depth", "why_tests_cant": "Objects are converted inside out by a hook, at each level, and the encoder mixes native types with a hook; texts can be nested to any depth.", "anchors": ["marcel/jsonutil.py: Parser, Formatter", "marcel/structish.py: StructIsh", "marcel/builtin.py: json_parse, json_format", "marcel/op/expand.py: Expand", "marcel/op/read.py: JSONReader"]}
{"id": "C85", "title": "The standard reduction functions compute what their names say", "statement": "red, red with grouping, red -i and squish with + * ^ & | and or max min count concat give the sum (or the concatenation of strings or lists), the product, the bitwise combinations, the first false (true) value or else the last, the greatest and least value, the number and the list of the values reduced; nothing reduced gives None (count: 0); None counts as a value like others; these names always mean these functions; rows sent by red -i do not change later.", "quantifier": "all lists of values of any length, all combinations of functions and columns, all groupings, all variables defined, all receivers (that look at once or later)", "why_tests_cant": "The results are folds over input of any length, with special treatment of None at the beginning, and one function changes its accumulator in place.", "anchors": ["marcel/reduction.py", "marcel/function.py: SymbolFunction, Function.is_count", "marcel/argsparser.py: ArgsParser.function", "marcel/op/red.py", "marcel/op/squish.py"]}
{"id": "C86", "title": "cast converts each element to its type and nothing else", "statement": "cast TYPE ... sends for each row a row of the same length, in order, in which element i is the conversion of the input with TYPE i; None and elements beyond the types are left alone; a row with an element that cannot be converted gives one Error, for the first such element, and the command goes on; a name that is not a type ends the command before anything is sent.", "quantifier": "all streams of rows of any length, all conversion functions (that may fail on any value), all lists of names", "why_tests_cant": "Rows can be shorter or longer than the list of types, and every element can fail.", "anchors": ["marcel/op/cast.py: Cast", "marcel/core.py: Op.call"]}
{"id": "C87", "title": "Coloured text is shown in exactly the colour given", "statement": "Text written in a colour (by a color scheme or the prompt) appears on a terminal unchanged, every character in the colour and style given and in nothing else; what is written afterwards has the terminal's default look. Different colours look different. A colour outside of the documented range (components 0..5, style none, BOLD, ITALIC or both) is refused.", "quantifier": "every text, every colour, every continuation of the output", "why_tests_cant": "Texts and subsequent output are unbounded; a test looks at escape codes of chosen colours, not at what a terminal shows.", "anchors": ["marcel/object/color.py: Color", "marcel/util.py: colorize"]}
{"id": "C88", "title": "The prompt shows its components, each in the colour before it", "statement": "The prompt consists of the texts of the components of PROMPT (strings, and results of functions), in order, each in the nearest colour before it. If a function fails or PROMPT is not a sequence, the default prompt is shown. There always is a prompt. PROMPT_DIR is a string that names the current directory: relative to the workspace's home directory, or with ~ for the user's home directory.", "quantifier": "every list of components, every current and home directory", "why_tests_cant": "Lists of components and directories are unbounded.", "anchors": ["marcel/env.py: EnvironmentInteractive.prompt_string", "marcel/env.py: EnvironmentInteractive.prompt_dir"]}
{"id": "C89", "title": "A color scheme only ever holds documented, usable colours", "statement": "Setting an attribute of a color scheme succeeds exactly for documented names and for None, a colour, or colours for file extensions; it changes that attribute only. After any sequence of changes each documented attribute has a usable value and there is no other. A colour for one file extension can be set at any time.", "quantifier": "every sequence of assignments, of any length", "why_tests_cant": "Histories of assignments are unbounded.", "anchors": ["marcel/object/color.py: ColorScheme.__setattr__", "marcel/object/color.py: ColorScheme.set_extension_color"]}
{"id": "C90", "title": "A cluster consists of the hosts given, and each host keeps its address and port", "statement": "A cluster is made from one host or from several hosts (exactly one of the two), with an identity, and has these hosts in the given order; anything that is not a host is refused. Each use of a host either fails with an error that leaves the shell running, because its name has not been found yet (and may be retried), or yields the port given and the address found first. Hosts are equal if and only if address (or name) and port are.", "quantifier": "every specification of hosts, every sequence of uses and of failures of the name service", "why_tests_cant": "The sequence of lookups and their results is unbounded and depends on the network.", "anchors": ["marcel/object/cluster.py: Host", "marcel/object/cluster.py: Cluster.__init__"]}
{"id": "C91", "title": "ws does what its help says, for every list of arguments", "statement": "ws with no arguments shows the current workspace, ws NAME and ws --open NAME open, --new NAME creates and opens, --close returns to the default workspace, --delete NAME, --delete-broken, --home DIR and --list do what they are called; exactly these lists of arguments are accepted, and everything else (several flags, separate or combined, unknown flags, missing or superfluous arguments) is refused without effect. A workspace that exists is not created again, one that does not exist is not opened, opening the current one changes nothing, and the default workspace gets no home directory. ws(...) in the API does the same with its parameters.", "quantifier": "every list of strings given as arguments, every set of existing workspaces, every parameter of the API function", "why_tests_cant": "Lists of arguments are unbounded, and flags can be combined and placed in many ways.", "anchors": ["marcel/op/ws.py: WsArgsParser", "marcel/op/ws.py: Ws.setup", "marcel/op/ws.py: WsImpl", "marcel/op/ws.py: ws", "marcel/argsparser.py: ArgsParser.parse"]}
{"id": "C92", "title": "marcel's files are where the documentation says, and no two of them coincide", "statement": "The configuration directory is what XDG_CONFIG_HOME says, otherwise .config in the home directory, the data directory what XDG_DATA_HOME says, otherwise .local/share. The version, and of each workspace the startup script, the markers, the properties, the variables, the history and the stored values of each variable, and what is put aside when a workspace is broken, are at the documented places below marcel in one of the two. No two of these files are at the same place: not for different workspaces, variables, kinds, times or process ids; processes share exactly the files of named workspaces and the history, startup script and markers of the default workspace, while each has its own variables and stored values of the default workspace.", "quantifier": "every home directory and setting of the two variables to absolute paths, all workspaces whose names can be names of files, all variables, all pairs of processes", "why_tests_cant": "Names of workspaces and variables and process ids are unbounded, and the claim is about all pairs.", "anchors": ["marcel/locations.py: Locations", "marcel/object/workspace.py: Marker", "marcel/object/workspace.py: Workspace.create_dir"]}
{"id": "C93", "title": "What is traced is written where the last trace command said", "statement": "trace accepts exactly the arguments its help shows. After trace --on, every line that is traced (in marcel itself, in the jobs it starts, and in the processes these start, however deep) goes to stdout; after trace --file FILE to that file, added at its end; after trace --off, and before the first of these, nowhere. trace alone tells which of these is the case. Changing the workspace or the directory does not matter, and tracing never keeps a command from being run.", "quantifier": "every list of arguments, every history of commands, jobs, changes of directory and trace requests, processes nested to any depth, both start methods", "why_tests_cant": "Histories and depths of processes are unbounded; what goes wrong depends on what was started before.", "anchors": ["marcel/op/trace.py: Trace", "marcel/op/trace.py: TraceArgsParser", "marcel/env.py: Trace", "marcel/env.py: Environment.__getstate__", "marcel/main.py: main_interactive_run"]}
{"id": "C94", "title": "A command whose operators have pipelines as arguments shows what the specification says, at any depth", "statement": "For a command that is a pipeline of `gen`, `map`, `select`, `head`, `tail`, `reverse`, `sort`, `unique`, `window`, `squish`, `expand`, `red` and of `union`, `difference`, `intersect`, `join`, `filter`, whose arguments are pipelines `(| ... |)` of the same kind, to any depth: running its text shows (items and errors, in order, and how it ends) what the stages mean one after the other. `union` passes its input and then what each pipeline sends, in order; `difference` and `intersect` take away or keep as many of each item as their pipelines send; `join` extends each item by those with the same first component; `filter` sends the items whose key is (or isn't) sent by the pipeline. A pipeline that is an argument behaves exactly as the same text would as a command, including that it can't start or ends by an error; and nothing is run at all if a function anywhere in the command doesn't compile.", "quantifier": "all pipelines of these operators with pipelines as arguments to any depth, all ways of writing them, all values, functions and numbers of steps, except for `union` after `tail` or `union` in the same pipeline, and for pipelines that don't end", "why_tests_cant": "A test runs one nesting of operators with literal data; that an argument pipeline means the same as a command has to hold for every combination and depth.", "anchors": ["marcel/op/union.py Union.flush", "marcel/op/difference.py Difference", "marcel/op/intersect.py Intersect", "marcel/op/join.py Join", "marcel/op/filter.py Filter", "marcel/pipeline.py PipelineExecutable.setup", "marcel/parser.py Parser.create_op_builtin"]}
{"id": "C95", "title": "Objects in a stream are compared, sorted and told apart by what identifies them", "statement": "Two files are equal if and only if their paths are, two processes if and only if their pids are, two history records if and only if their numbers are, whatever else is known of them; `==`, `!=`, `<`, `<=`, `>`, `>=` of two objects of one such kind agree with each other and with one strict total order (paths part by part, pids and numbers by value); equal objects have equal hashes. Therefore `unique` outputs of the items with the same identity the first, `unique --consecutive` the first of each run, and `sort` orders files by path, processes by pid and history records by number, and leaves items with the same identity in their order. (False: history records cannot be put into a set, so `unique` is killed by them; comparing such an object with anything of another kind, even for equality, raises an AttributeError, which crashes `unique` on a process and the integer that is its pid, and `unique --consecutive` on a file and a string.)", "quantifier": "all objects, all items (tuples of any length), all streams, all hash functions", "why_tests_cant": "The order must be total and agree with equality for all paths and all pairs; whether objects of different kinds meet in a set depends on the values of hashes.", "anchors": ["marcel/object/file.py:File.__eq__", "marcel/object/process.py:Process.__eq__", "marcel/object/historyrecord.py:HistoryRecord.__eq__", "marcel/op/unique.py:GeneralUniquer", "marcel/op/sort.py:Sort"]}
{"id": "C96", "title": "If a workspace cannot be opened, marcel goes on in the default workspace, or ends and says why", "statement": "Commands are executed only in a workspace that has been opened completely and that the process has locked, and a workspace is opened only after the one before has been closed, whatever fails. If the startup script, the properties or the saved variables of a named workspace are bad, marcel says so and goes on in the default workspace; if those of the default workspace are, it says so and ends. marcel ends by exit only if it was asked to, normally only at the end of its input. When it has ended, it has no workspace locked. (False in several ways: a failing startup script of the default workspace is reported again and again without end; the messages meant for this never appear; if a script opens a workspace whose startup script fails, the script is run again from the beginning, without end; a startup script that opens a workspace, or a workspace whose startup script assigns HOME, ends marcel; bad saved variables of the default workspace end in a traceback; a workspace whose startup script failed stays locked.)", "quantifier": "all sequences of commands and sessions, all behaviours of startup scripts, files, commands and closing, at each time, interactive or from a script", "why_tests_cant": "Each combination of failures at a start, in a startup script, and on a change of workspace leads to another path through nested loops, exception handlers and exit handlers; that something repeats without end is not a property of a finite run.", "anchors": ["marcel/main.py:main", "marcel/main.py:main_interactive_run", "marcel/main.py:main_script_run", "marcel/main.py:Main.shutdown", "marcel/object/workspace.py:Workspace.open", "marcel/configscript.py:ConfigScript"]}
{"id": "C97", "title": "help has an answer to what it advertises", "statement": "`help TOPIC` shows, however TOPIC is capitalized, the help of the operator of that name, otherwise of the topic of that name, and otherwise says that there is none; `help` alone shows the front page. All the help that comes with marcel (51 operators, 18 topics) is shown completely, on consoles of all widths and in all colour schemes; there is help for each entry of the lists on the front page, and for each operator that can be used in commands. (False: `assign` has no help, and `help assign` sends None; the front page omits download, fork and upload; the help of upload, download and operator refers to `help cluster` and `help out`, which do not exist; a topic given by a function is not evaluated, but an AttributeError.)", "quantifier": "all topics, all sets of operators and topics with any well-formed texts; the shipped texts: all widths and ways of wrapping, all colour schemes", "why_tests_cant": "A text that breaks the rules of the markup language makes help loop forever or crash, at some widths or with some schemes only if they matter; that none of the shipped texts does so for any width is a statement about all widths.", "anchors": ["marcel/op/help.py:Help", "marcel/opmodule.py:OpModule", "marcel/helpformatter.py:HelpFormatter.format", "marcel/doc/help_marcel.py:HELP", "marcel/op/__init__.py:public"]}
{"id": "C98", "title": "What is displayed does not depend on colours, and can be read back", "statement": "The default output of a command shows the same text in all colour schemes and without one (colours only add attributes), and leaves the terminal as it was; a single object is shown in full, several as a list or tuple of their short forms. The lines of processes show process id, parent, user, status and command in fixed columns, and different values give different lines; so do number and command of history records. (False: the columns are shifted by process ids over 999999 and user names of more than 8 characters; history records cannot be displayed without a colour scheme, so that `history | write FILE` makes an empty file and an error for each command.)", "quantifier": "all items of processes, history records, errors and other objects with any texts without escape characters; all colour schemes with valid colours; all commands, users and ids; all histories", "why_tests_cant": "A test compares the display of a few items, usually without colours; that no colour scheme changes the text of any item, and that no two processes or commands have the same line, concerns all of them.", "anchors": ["marcel/object/process.py:Process.render_full", "marcel/object/historyrecord.py:HistoryRecord.render_full", "marcel/object/error.py:Error.render_full", "marcel/op/write.py:DefaultWriter", "marcel/util.py:colorize"]}
{"id": "C99", "title": "A color scheme is displayed as the definitions that make it, and the configuration that marcel comes with is sound", "statement": "A color scheme is displayed as the list of its attributes with their values, separated by commas, extensions in order and each once, with the same text whatever colours are used for the display; what is shown for a colour is the expression that makes it, so that two colours that look the same there are the same. The configuration file that is made when marcel runs first is accepted; it sets all attributes to valid colours, and its prompt shows `M VERSION WORKSPACE USER@HOST DIR$`. (False: `file_link_broken` is not set, so that broken links have no colour; without a colour scheme for the display, e.g. when writing to a file, there is an AttributeError.)", "quantifier": "all color schemes with any extensions; all colours; all colours used for display; all versions, workspaces, users, hosts and directories", "why_tests_cant": "A test displays one scheme; whether commas and order are right for all schemes and whether the text determines the colour is a matter of all schemes.", "anchors": ["marcel/object/color.py:ColorScheme.render_full", "marcel/object/color.py:Color.__repr__", "marcel/persistence/defaultinitialconfig.py:CONFIG", "marcel/builtin.py:set_prompt", "marcel/env.py:EnvironmentInteractive.prompt_string"]}
