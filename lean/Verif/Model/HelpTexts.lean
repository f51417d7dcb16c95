import Verif.Model.HelpTopics

/-! # The help texts that come with marcel

Generated by /verif/tools/mkhelp.py: the values of `HELP` in op/*.py and doc/help_*.py as they are (in pieces, to make it easier to check them), and the names in op/__init__.py. -/

namespace Marcel.Help

/-- The characters of a literal (a list, which the kernel can take apart faster than a string). -/
syntax "chars! " str : term

macro_rules
  | `(chars! $s:str) => do
    let cs := (s.getString.toList.map fun c => Lean.Syntax.mkCharLit c).toArray
    `([$cs,*])

/-- A text that is given in pieces of lines. -/
def partsOf (t : List (List Str)) : List Str := t.map List.flatten

/-- The text. -/
def joined (t : List (List Str)) : Str := (partsOf t).flatten

/-- op/args.py 26-44 -/
def op_args : List (List Str) := [
  [chars! "\n",
   chars! "{L,wrap=F}args [-a|--all] (| PIPELINE |)\n",
   chars! "\n",
   chars! "{L,indent=4:28}{r:-a}, {r:--all}               Accumulate the entire input stream into a list, and bind it to a single\n",
   chars! "pipeline parameter. \n",
   chars! "\n",
   chars! "{L,indent=4:28}{r:PIPELINE}                A parameterized pipeline, to be executed with arguments coming \n",
   chars! "from the input stream.\n",
   chars! "\n",
   chars! "Items in the input stream to {r:args} will be bound to {r:PIPELINE}'s parameters. \n",
   chars! "\n",
   chars! "If {r:--all} is not specified, and the {r:PIPELINE}\n",
   chars! "has {i:n} parameters, then {i:n} items from the input stream will be used on each execution of {r:PIPELINE}.\n",
   chars! "If the input stream is exhausted after providing at least 1 but less than {i:n} arguments, remaining parameters\n",
   chars! "will be bound to {n:None}. \n",
   chars! "\n"],
  [chars! "If {r:--all} is specified, then the {r:PIPELINE} must have exactly one parameter. All inputs will be\n",
   chars! "accumulated into a list and bound to that parameter.\n"]]

/-- op/bash.py 27-61 -/
def op_bash : List (List Str) := [
  [chars! "\n",
   chars! "{L,wrap=F}bash [-i|--interactive] [COMMAND | EXECUTABLE ARG ...]\n",
   chars! "\n",
   chars! "{L,indent=4:28}{r:-i}, {r:--interactive}       Specifies that the executable to be run \n",
   chars! "is interactive. stdin, stdout, and stderr are not handled by marcel.\n",
   chars! "\n",
   chars! "{L,indent=4:28}COMMAND                 The command to be passed to bash. \n",
   chars! "\n",
   chars! "{L,indent=4:28}EXECUTABLE              Host OS executable to be run.\n",
   chars! " \n",
   chars! "{L,indent=4:28}ARG                     Argument to EXECUTABLE\n",
   chars! "\n",
   chars! "Runs a bash command, which may be given as a single string ({r:COMMAND}), or as a sequence of strings\n",
   chars! "({r:EXECUTABLE} {r:ARG} ...).\n",
   chars! "\n",
   chars! "The bash command to be executed can receive stdin from a marcel pipeline, e.g.\n",
   chars! "\n",
   chars! "{p,indent=4}gen 20 | map (x: (x, x)) | bash \"grep 2\"\n",
   chars! "\n"],
  [chars! "yields:\n",
   chars! "\n",
   chars! "{p,indent=4,wrap=F}(2, 2)\n",
   chars! "(12, 12)\n",
   chars! "\n",
   chars! "{r:gen ... | map ...} yields a stream of tuples {n:(0, 0), ..., (19, 19)}. Piping to \n",
   chars! "bash converts these to strings which the bash command can act upon.\n",
   chars! "\n",
   chars! "Similarly, stdout from the bash command can be piped as strings into marcel operators. For example:\n",
   chars! "\n",
   chars! "{p,indent=4}bash \"cat /etc/passwd\" | map (line: line.split(':')[-1]) | unique\n",
   chars! "\n",
   chars! "The lines of {r:/etc/passwd} are read by the host executable {r:cat}, and the strings are piped into\n",
   chars! "{r:map ... | unique}. These marcel operators extract the last field of each line, \n",
   chars! "(a user's default shell), and removes duplicates. \n"]]

/-- op/bg.py 22-29 -/
def op_bg : List (List Str) := [
  [chars! "\n",
   chars! "{L}bg JOB\n",
   chars! "\n",
   chars! "{L,indent=4:28}{r:JOB}                     The number of the job to be run in the background.\n",
   chars! "\n",
   chars! "Resumes background execution of a suspended job. The {r:JOB} number is the one\n",
   chars! "provided by the {n:jobs} operator.\n"]]

/-- op/case.py 22-57 -/
def op_case : List (List Str) := [
  [chars! "\n",
   chars! "{L,wrap=F}case PREDICATE (| PIPELINE |) ... [(| PIPELINE |)]\n",
   chars! "\n",
   chars! "{L,indent=4:28}{r:PREDICATE}               Used to determine if an input tuple is passed to the next PIPELINE.\n",
   chars! "\n",
   chars! "{L,indent=4:28}{r:PIPELINE}                A pipeline processing input tuples for which the preceding \n",
   chars! "PREDICATE is true.\n",
   chars! "\n",
   chars! "Input tuples are sent to at most one of the PIPELINEs, and output from\n",
   chars! "all the PIPELINEs is sent downstream.\n",
   chars! "\n",
   chars! "An input tuple is evaluated by each {r:PREDICATE} in turn. For the first\n",
   chars! "{r:PREDICATE} evaluating to True, the input tuple is passed to the\n",
   chars! "{r:PIPELINE} following the {r:PREDICATE}. There may be one {r:PIPELINE} at the end\n",
   chars! "without a preceding {r:PREDICATE}. This is a default case: if a tuple\n"],
  [chars! "evaluates to False with each {r:PREDICATE}, then the tuple is passed to\n",
   chars! "this default {r:PIPELINE}. If there is no default {r:PIPELINE}, then a tuple\n",
   chars! "evaluating to False with all predicates will not be processed further.\n",
   chars! "\n",
   chars! "All {r:PIPELINE} outputs feed into the output for this operator.\n",
   chars! "\n",
   chars! "Example:\n",
   chars! "\n",
   chars! "{L,indent=4,wrap=F}gen 100 1 | case \\\\\n",
   chars! "                 (f: f % 15 == 0) (| (f: (f, 'FizzBuzz')) |) \\\\\n",
   chars! "                 (f: f % 3 == 0)  (| (f: (f, 'Fizz')) |) \\\\\n",
   chars! "                 (f: f % 5 == 0)  (| (f: (f, 'Buzz')) |) \\\\\n",
   chars! "                                  (| (f: (f, f)) |)\n",
   chars! "\n",
   chars! "This implements FizzBuzz. The integers 1 .. 100 are piped to the case\n",
   chars! "operator. The predicates test for divisibility by 15, 3, and 5. It is\n"],
  [chars! "important to handle divisibility by 15 first, since qualifying numbers are\n",
   chars! "also divisible by 3 and 5, and case executes the first {r:PIPELINE} whose\n",
   chars! "{r:PREDICATE} evaluates to True. The default pipeline handles numbers not\n",
   chars! "divisible by 3, 5, or 15.\n"]]

/-- op/cast.py 22-31 -/
def op_cast : List (List Str) := [
  [chars! "\n",
   chars! "{L,wrap=F}cast TYPE ...\n",
   chars! "\n",
   chars! "Casts elements of input tuples to the specified types.\n",
   chars! "\n",
   chars! "The elements of each input tuple are cast to the specified types, except that\n",
   chars! "{n:None} is always left alone.\n",
   chars! "\n",
   chars! "If the input tuple has more elements than {r:TYPE}s, then the extra elements are left alone.\n"]]

/-- op/cd.py 24-31 -/
def op_cd : List (List Str) := [
  [chars! "\n",
   chars! "{L}cd [DIRECTORY]\n",
   chars! "\n",
   chars! "{L,indent=4:28}{r:DIRECTORY}               The new current directory.\n",
   chars! "\n",
   chars! "Change the current directory to the given directory.\n",
   chars! "If {r:DIRECTORY} is omitted, then change the current directory to the home directory.\n"]]

/-- op/difference.py 24-49 -/
def op_difference : List (List Str) := [
  [chars! "\n",
   chars! "{L,wrap=F}difference (| PIPELINE |)\n",
   chars! "\n",
   chars! "{L,indent=4:28}{r:PIPELINE}                The second input to the difference.\n",
   chars! "\n",
   chars! "The output stream represents the difference of the tuples in the input stream and the tuples\n",
   chars! "from the {r:PIPELINE} argument.\n",
   chars! "\n",
   chars! "The input stream will be referred\n",
   chars! "to as the {i:left} input, and the stream from the {r:PIPELINE} will be\n",
   chars! "referred to as the {i:right} input.\n",
   chars! " \n",
   chars! "A tuple is included in the output if it is present in the left input,\n",
   chars! "and not present\n",
   chars! "in the right input.\n",
   chars! "The tuples must be hashable, which requires that every element\n",
   chars! "of each tuple must be hashable.\n",
   chars! "\n",
   chars! "Input elements from the two input pipelines are considered to be the same if they are equal (in\n",
   chars! "the Python sense).\n"],
  [chars! "\n",
   chars! "Because the input pipelines may contain duplicates, the {r:difference} operator actually computes\n",
   chars! "a difference of bags. If a given tuple appears {n:n} times in the left input, and {n:m} times in\n",
   chars! "the right, then the output stream will contain {n:max(n-m, 0)} occurrences. The order of tuples in the\n",
   chars! "output is unspecified.\n"]]

/-- op/dirs.py 21-28 -/
def op_dirs : List (List Str) := [
  [chars! "\n",
   chars! "{L}dirs [-c|--clear]\n",
   chars! "\n",
   chars! "{L,indent=4:28}{r:-c}, {r:--clear}             Clear the directory stack, and then place the current\n",
   chars! "directory on it. \n",
   chars! "\n",
   chars! "Write the entries in the directory stack to the output stream, top first.\n"]]

/-- op/download.py 32-51 -/
def op_download : List (List Str) := [
  [chars! "\n",
   chars! "{L,wrap=F}download DIR CLUSTER FILENAME ...\n",
   chars! "\n",
   chars! "{L,indent=4:28}{r:DIR}                     The local directory to which files will be downloaded.\n",
   chars! "\n",
   chars! "{L,indent=4:28}{r:CLUSTER}                 The cluster from which files will be downloaded.\n",
   chars! "\n",
   chars! "{L,indent=4:28}{r:FILENAME}                A remote filename or glob pattern.\n",
   chars! "\n",
   chars! "Copies remote files from each node of a cluster, to a local directory. The output stream is empty.\n",
   chars! "\n",
   chars! "{r:DIR} must be a pre-exising directory.\n",
   chars! "\n",
   chars! "{r:CLUSTER} must be configured for marcel, (run {n:help cluster} for\n",
   chars! "information on configuring clusters).\n",
   chars! "\n",
   chars! "The files to be copied are specified by one or more {r:FILENAME}s. Each\n",
   chars! "{r:FILENAME} is a file name or a glob pattern, and must be an absolute path, (i.e., it must start with /).\n"],
  [chars! "Files from host {n:H} will be downloaded to the directory {n:DIR/H}. \n"]]

/-- op/edit.py 29-46 -/
def op_edit : List (List Str) := [
  [chars! "\n",
   chars! "{L,wrap=F}edit [-s|--startup [WORKSPACE]] [COMMAND] \n",
   chars! "\n",
   chars! "{L,indent=4:28}{r:-s}, {r:--startup}           Edit the marcel startup script. \n",
   chars! "If {r:WORKSPACE} is specified, edit that workspace's startup script, otherwise that of\n",
   chars! "the current workspace.\n",
   chars! "\n",
   chars! "{L,indent=4:28}{r:COMMAND}                 The number of the command to be edited.\n",
   chars! "\n",
   chars! "If no arguments are specified, then the most recently executed command will be edited,\n",
   chars! "in the editor identified by the {n:EDITOR} environment variable. On exiting the editor, the \n",
   chars! "edited command will be on the command line. (Hit enter to run the command, as usual).\n",
   chars! "\n",
   chars! "If an integer {r:COMMAND} is specified, then the selected command in the command history\n",
   chars! "will be edited, and then placed on the command line.\n"],
  [chars! "\n",
   chars! "If {r:--startup} is specified, then the marcel startup script for the current workspace is edited.\n"]]

/-- op/env.py 23-62 -/
def op_env : List (List Str) := [
  [chars! "\n",
   chars! "{L,wrap=F}env [-o|--os] [-b|--builtins]\n",
   chars! "{L,wrap=F}env [-o|--os] VAR\n",
   chars! "{L,wrap=F}env [-o|--os] [-b|--builtins] -p|--pattern PATTERN\n",
   chars! "{L,wrap=F}env -d|--delete VAR\n",
   chars! "\n",
   chars! "{L,indent=4:28}{r:VAR}                     The name of an environment variable.\n",
   chars! "\n",
   chars! "{L,indent=4:28}{r:-o}, {r:--os}                Search the host OS environment, not marcel's.\n",
   chars! "\n",
   chars! "{L,indent=4:28}{r:-b}, {r:--builtins}          Include __builtins__ in output.\n",
   chars! "\n",
   chars! "{L,indent=4:28}{r:-d}, {r:--delete}            Output the named variable and its value, and remove the variable \n",
   chars! "from the environment.\n",
   chars! "\n",
   chars! "{L,indent=4:28}{r:-p}, {r:--pattern}           Output symbols whose variable name contains the string {r:PATTERN}\n",
   chars! "\n",
   chars! "Write some or all of the contents of the environment, (i.e., the marcel namespace), \n"],
  [chars! "to the output stream.\n",
   chars! "Each variable/value pair is written to the output stream as a tuple,\n",
   chars! "(variable, value), sorted by variable. \n",
   chars! "\n",
   chars! "If no arguments are provided, then all variables and their values are written to the output stream. \n",
   chars! "Specifying just {r:VAR} outputs the one variable with that name. An error is written if the variable is not defined. \n",
   chars! "\n",
   chars! "A value cannot be assigned to a variable through this command, use assignment instead, e.g. {n:HELLO = hello}.\n",
   chars! "\n",
   chars! "If the {r:--delete} flag is specified, the named variable and its current value\n",
   chars! "are written to output, and the variable\n",
   chars! "is removed from the environment.\n",
   chars! "\n",
   chars! "If the {r:--pattern} flag is specified, then the variables output are those whose name contain the substring\n",
   chars! "{r:PATTERN}.\n"],
  [chars! "\n",
   chars! "If {r:--os} is specified, then the host OS environment, (obtained by Python's os.environ) is searched instead of the \n",
   chars! "marcel namespace. This option is incompatible with {r:--delete}.\n",
   chars! "\n",
   chars! "For the marcel namespace (i.e., omitting {r:--os}), the value of {n:__builtins__} is omitted by default.\n",
   chars! "Specify {r:--builtins} to include {n:__builtins__}.\n"]]

/-- op/exit.py 20-24 -/
def op_exit : List (List Str) := [
  [chars! "\n",
   chars! "{L,wrap=F}exit\n",
   chars! "\n",
   chars! "Marcel exits.\n"]]

/-- op/expand.py 21-69 -/
def op_expand : List (List Str) := [
  [chars! "\n",
   chars! "{L,wrap=F}expand [POSITION]\n",
   chars! "\n",
   chars! "{L,indent=4:28}{r:POSITION}                The position, within input tuples, of the sequence \n",
   chars! "to be expanded.\n",
   chars! "\n",
   chars! "Flattens input tuples (or parts of them) and write the flattened result to the output stream.\n",
   chars! "\n",
   chars! "If {r:POSITION} is omitted, then each element of an input tuple is generated as a separate\n",
   chars! "1-tuple in the output stream. (If the input has one element, then the output matches the input.)\n",
   chars! "If {r:POSITION} is provided, it must be non-negative. If {r:POSITION} exceeds the length of an\n",
   chars! "input sequence, then nothing is expanded (the input sequence is sent as output).\n",
   chars! "\n",
   chars! "{b:Example}: If the input contains these sequences:\n",
   chars! "{p,wrap=F}\n",
   chars! "    (100, 101)\n",
   chars! "    (200, 201)\n",
   chars! "\n",
   chars! "then {r:expand} generates this output:\n",
   chars! "{p,wrap=F}\n"],
  [chars! "    100\n",
   chars! "    101\n",
   chars! "    200\n",
   chars! "    201\n",
   chars! "\n",
   chars! "If {r:position} is specified, then presumably each input tuple has a sequence (or iterator) \n",
   chars! "at the indicated position.\n",
   chars! "An output tuple is generated for each item in that embedded sequence, replacing the embedded\n",
   chars! "sequence by one of its contained items.\n",
   chars! "\n",
   chars! "The types that can be expanded are sequences ({n:list}, {n:tuple}, {n:str}), {n:dict}s, {n:generator}s, \n",
   chars! "{n:iterator}s. For a {n:dict}, each key:value pair is turned into a tuple, (key, value).\n",
   chars! "\n",
   chars! "{b:Example}: If the input contains these sequences:\n",
   chars! "{p,wrap=F}\n",
   chars! "    ('a', [1, 2, 3], 'f')\n",
   chars! "    ('b', [4, 5], 'y')\n",
   chars! "    ('c', [], 'z')\n",
   chars! "\n",
   chars! "then {r:expand 1} generates this output:\n",
   chars! "{p,wrap=F}\n",
   chars! "    ('a', 1, 'f')\n",
   chars! "    ('a', 2, 'f')\n"],
  [chars! "    ('a', 3, 'f')\n",
   chars! "    ('b', 4, 'y')\n",
   chars! "    ('b', 5, 'y')\n",
   chars! "\n",
   chars! "Note that an empty nested sequence (as in the last input tuple) results in no output.\n"]]

/-- op/fg.py 19-28 -/
def op_fg : List (List Str) := [
  [chars! "\n",
   chars! "{L,wrap=F}fg JOB\n",
   chars! "\n",
   chars! "{L,indent=4:28}{r:JOB}                     The number of the job to be brought into foreground.\n",
   chars! "\n",
   chars! "Makes a specified job run in the foreground.\n",
   chars! "The {r:JOB} number is the one\n",
   chars! "provided by the {n:jobs} operator. The new foreground job\n",
   chars! "is resumed if it is not already running.\n"]]

/-- op/filter.py 24-60 -/
def op_filter : List (List Str) := [
  [chars! "\n",
   chars! "{L,wrap=F}filter [-k|--keep] [-d|--discard] [-c|--compare COMPARE] (| PIPELINE |)\n",
   chars! "\n",
   chars! "{L,indent=4:28}-k, --keep              Keep input tuples that match any tuple from the PIPELINE.\n",
   chars! "\n",
   chars! "{L,indent=4:28}-d, --discard           Discard input tuples that match any tuple from the PIPELINE.\n",
   chars! "\n",
   chars! "{L,indent=4:28}-c, --compare           The comparison key will be computed by appying the COMPARE function\n",
   chars! "to left tuples.\n",
   chars! "\n",
   chars! "{L,indent=4:28}COMPARE                 Function that computes the comparison key from a left tuple.\n",
   chars! "\n",
   chars! "{L,indent=4:28}PIPELINE                Source of right tuples.\n",
   chars! "\n",
   chars! "Filter the input stream based on the contents of the {r:PIPELINE}.\n",
   chars! "\n",
   chars! "The input stream will be referred to as the {i:left} input, and the\n"],
  [chars! "stream from the {r:PIPELINE} will be referred to as the {i:right} input.\n",
   chars! "\n",
   chars! "Tuples from the left input are passed to the output stream or not,\n",
   chars! "depending on a comparison between that tuple and the tuples of the right input. For\n",
   chars! "each left input tuple:\n",
   chars! "\n",
   chars! "{L,indent=0:2,wrap=T}- Compute the comparison key by applying the {r:COMPARE} function to the left\n",
   chars! "tuple. If {r:COMPARE} is not provided, then the key is the entire tuple.\n",
   chars! "\n",
   chars! "{L,indent=0:2,wrap=T}- If {r:--keep} is specified, and the key matches any tuple from the right\n",
   chars! "input stream, then write the left tuple to the output stream.\n",
   chars! "\n",
   chars! "{L,indent=0:2,wrap=T}- If {r:--discard} is specified, and the key does not match any tuple from\n",
   chars! "the right input stream, then write the left tuple to the output\n"],
  [chars! "stream.\n",
   chars! "\n",
   chars! "In other words, {r:--keep} is similar to set intersection, while {r:--discard}\n",
   chars! "is similar to set difference. These flags are mutually exclusive. \n",
   chars! "If neither {r:--keep} nor {r:--discard} are specified, then {r:--keep} is assumed.\n"]]

/-- op/fork.py 25-91 -/
def op_fork : List (List Str) := [
  [chars! "\n",
   chars! "{L,wrap=F}fork FORK_GEN (| PIPELINE |)\n",
   chars! "\n",
   chars! "{L,indent=4:28}{r:FORK_GEN}                An int or iterable used to generate forks.\n",
   chars! "   \n",
   chars! "{L,indent=4:28}{r:PIPELINE}                A pipeline whose instances are to be executed concurrently.\n",
   chars! "\n",
   chars! "Instances of a pipeline are executed concurrently.\n",
   chars! "\n",
   chars! "{r:FORK_GEN} is an int or an iterable, used to specify the number of\n",
   chars! "concurrent executions of {r:PIPELINE}. For discussion purposes, the\n",
   chars! "execution of each instance of {r:PIPELINE} is executed by a thread, but\n",
   chars! "the actual implementation is unspecified. {r:PIPELINE} has no arguments, or\n",
   chars! "one argument, a\n",
   chars! "thread id. Output from {r:fork} comprises tuples containing the thread id,\n",
   chars! "and the output from the pipeline instance.\n"],
  [chars! "\n",
   chars! "If {r:FORK_GEN} is an int, N, then the thread ids are 0, ..., N-1.\n",
   chars! "\n",
   chars! "If {r:FORK_GEN} is an iterable, then the thread ids are the values obtained by iteration, \n",
   chars! "(i.e., successive calls to next()).\n",
   chars! "\n",
   chars! "Example:\n",
   chars! "\n",
   chars! "{p,indent=4,wrap=F}\n",
   chars! "fork 3 (| id: gen (id+1) 100 | (hundred: (id, hundred)) |)\n",
   chars! "\n",
   chars! "This command creates three threads, with ids 0, 1, 2. For id 0, the\n",
   chars! "command executed is gen 1 100, which generates the stream [100]. For\n",
   chars! "id 1, the stream is [100, 101], and for id 2, the stream is [100, 101,\n",
   chars! "102]. So the output for the command is something like\n",
   chars! "this:\n",
   chars! "\n",
   chars! "{p,indent=4,wrap=F}\n",
   chars! "(0, 100)\n",
   chars! "(1, 100)\n",
   chars! "(2, 100)\n",
   chars! "(1, 101)\n",
   chars! "(2, 101)\n",
   chars! "(2, 102)\n",
   chars! "\n",
   chars! "(Any interleaving of the streams may be observed.)\n",
   chars! "\n",
   chars! "If {r:FORK_GEN} is an iterable, then the thread id is bound to each value\n"],
  [chars! "returned by the iterable. So this command:\n",
   chars! "\n",
   chars! "{p,indent=4,wrap=F}\n",
   chars! "fork 'abc' (| id: gen 3 100 | (hundred: (id, hundred)) |)\n",
   chars! "\n",
   chars! "yields:\n",
   chars! "\n",
   chars! "{p,indent=4,wrap=F}\n",
   chars! "('a', 100)\n",
   chars! "('b', 100)\n",
   chars! "('c', 100)\n",
   chars! "('a', 101)\n",
   chars! "('b', 101)\n",
   chars! "('c', 101)\n",
   chars! "('a', 102)\n",
   chars! "('b', 102)\n",
   chars! "('c', 102)\n",
   chars! "\n",
   chars! "{r:FORK_GEN} may be a {n:Cluster}, because {n:Cluster} is iterable.\n",
   chars! "In this case, the thread ids are the {n:Host} objects comprising the named cluster.\n",
   chars! "This does {i:not} result in remote execution of the pipeline on each host. For that, use\n",
   chars! "the {n:remote} operator.\n"]]

/-- op/gen.py 20-36 -/
def op_gen : List (List Str) := [
  [chars! "\n",
   chars! "{L,wrap=F}gen [-p|--pad PAD] [COUNT [START]]\n",
   chars! "\n",
   chars! "{L,indent=4:28}{r:-p}, {r:--pad}               Specifies the width of the padded output.\n",
   chars! "\n",
   chars! "{L,indent=4:28}{r:COUNT}                   The number of integers to be written to output. \n",
   chars! "\n",
   chars! "{L,indent=4:28}{r:START}                   The first integer to be written to output. \n",
   chars! "\n",
   chars! "Generates a stream of {r:COUNT} integers, starting at {r:START}.\n",
   chars! "\n",
   chars! "The first integer in the stream is {r:START}. The number of integers in the stream is {r:COUNT},\n",
   chars! "although if {r:COUNT} is 0, then the stream does not terminate. If {r:PAD} is specified, \n",
   chars! "then each integer is converted to a string and left-padded with zeros so that the \n",
   chars! "string's length is {r:PAD}. Padding is not \n",
   chars! "permitted if the stream does not terminate, or if {r:START} is negative.\n"]]

/-- op/head.py 21-30 -/
def op_head : List (List Str) := [
  [chars! "\n",
   chars! "{L,wrap=F}head N\n",
   chars! "\n",
   chars! "{L,indent=4:28}{r:N}                       The number of input tuples to be written to output, or skipped\n",
   chars! "(depending on the sign).\n",
   chars! "\n",
   chars! "If {r:N} > 0, then output the first {r:N} tuples of the input stream, and discard the others.\n",
   chars! "\n",
   chars! "If {r:N} < 0, then skip the first {r:N} tuples of the input stream, and output the others.  \n"]]

/-- op/help.py 26-34 -/
def op_help : List (List Str) := [
  [chars! "\n",
   chars! "{L}help [TOPIC]\n",
   chars! "\n",
   chars! "{L,indent=4:28}{r:TOPIC}             A marcel operator or concept.\n",
   chars! "\n",
   chars! "Prints information on some aspect of marcel. If {r:TOPIC} is not provided, then a top-level introduction\n",
   chars! "is printed, along with suggestions for further exploration. {r:TOPIC} may be a marcel operator, or a concept\n",
   chars! "mentioned in some other help message. \n"]]

/-- op/history.py 22-46 -/
def op_history : List (List Str) := [
  [chars! "\n",
   chars! "{L,wrap=F}history [-c|--command STRING] [-a|--all] [N]\n",
   chars! "\n",
   chars! "{L,indent=4:28}{r:-c}, {r:--command}           Report only the commands containing the specified STRING.\n",
   chars! "\n",
   chars! "{L,indent=4:28}{r:-a}, {r:--all}               Report all histroy, not just the last 20 commands.\n",
   chars! "\n",
   chars! "{L,indent=4:28}{r:N}                       Include the last N qualifying items.\n",
   chars! "\n",
   chars! "Generates a stream containing the history of commands executed, in chronological order (newest last).\n",
   chars! "The number identifying each command can be used in conjunction with the {r:edit}, {r:run}, \n",
   chars! "and {r:!} operators.\n",
   chars! "\n",
   chars! "If {r:--command} is specified, then only the commands containing the specified {r:STRING} will be\n",
   chars! "selected. \n",
   chars! "\n",
   chars! "If {r:--all} is specified, then all qualifying commands will be output.\n"],
  [chars! "\n",
   chars! "If {r:N} is provided, it must be a positive integer. The most recent {r:N} qualifying commands will be output.\n",
   chars! "(I.e., If {r:--command} is specified, than that filter is applied first, and then the last {r:N} items\n",
   chars! "are selected.)\n",
   chars! "\n",
   chars! "If neither {r:N} nor {r:--all} are specified, then the last 20 qualifying commands will be output. \n",
   chars! "{r:N} and {r:--all} are mutually exclusive.\n"]]

/-- op/import.py 21-48 -/
def op_import : List (List Str) := [
  [chars! "\n",
   chars! "{L,wrap=F}import [-a|--as NAME] MODULE \n",
   chars! "{L,wrap=F}import [-a|--as NAME] MODULE SYMBOL \n",
   chars! "{L,wrap=F}import MODULE *\n",
   chars! "\n",
   chars! "{L,indent=4:28}{r:MODULE}                  Name of the module to import.\n",
   chars! "\n",
   chars! "{L,indent=4:28}{r:SYMBOL}                  Name of the symbol in {r:MODULE} to import.\n",
   chars! "\n",
   chars! "{L,indent=4:28}{r:-a}, {r:--as} {r:NAME}           Name to assign to the imported symbol.\n",
   chars! "\n",
   chars! "Imports symbols into the marcel namespace, so that they can be used in marcel functions. The {r:import} operator\n",
   chars! "provides some but not all of the capabilities of Python's {n:import} statement. In some cases, you may need\n",
   chars! "to use multiple invocations of the operator where one statement would have sufficed.\n",
   chars! "\n",
   chars! "{r:import MODULE} imports {r:MODULE} into the marcel namespace. Symbols within that module need to be qualified.\n"],
  [chars! "I.e., it has the same effect as the Python statement {n:import MODULE}.\n",
   chars! "\n",
   chars! "{r:import MODULE SYMBOL} imports just {r:SYMBOL} from {r:MODULE}, place it in the marcel namespace.\n",
   chars! "This is like running the Python statement {n:from MODULE import SYMBOL}.\n",
   chars! "\n",
   chars! "{r:--as} changes the name of the symbol being imported. So {n:import MODULE --as NAME} is like the Python\n",
   chars! "statement {n:import MODULE as NAME}, and {n:import MODULE SYMBOL --as NAME} is like\n",
   chars! "{n:from MODULE import SYMBOL as NAME}\n",
   chars! "\n",
   chars! "{r:import MODULE *} imports all of the symbols inside {r:MODULE}, placing those symbols in the marcel\n",
   chars! "namespace. This is like running the Python statement {n:from MODULE import *}.\n"]]

/-- op/intersect.py 23-39 -/
def op_intersect : List (List Str) := [
  [chars! "\n",
   chars! "{L,wrap=F}intersect (| PIPELINE |) ...\n",
   chars! "\n",
   chars! "{L,indent=4:28}{r:PIPELINE}                The second input to the intersection.\n",
   chars! "\n",
   chars! "The output stream represents the intersection of the tuples in the input stream, and the tuples\n",
   chars! "from the {r:PIPELINE} arguments. The tuples must be hashable, which requires that every element\n",
   chars! "of each tuple must be hashable.\n",
   chars! "\n",
   chars! "Input elements from the input pipelines are considered to be the same if they are equal (in\n",
   chars! "the Python sense).\n",
   chars! "\n",
   chars! "Because the input pipelines may contain duplicates, the {r:intersect} operator actually computes\n",
   chars! "an intersection of bags. If a given tuple appears {n:n} times in one input, and {n:m} times in\n",
   chars! "the other, then the output stream will contain {n:min(m, n)} occurrences. The order of tuples in the\n"],
  [chars! "output is unspecified.\n"]]

/-- op/jobs.py 21-33 -/
def op_jobs : List (List Str) := [
  [chars! "\n",
   chars! "{L,wrap=F}jobs\n",
   chars! "\n",
   chars! "Write the currently running jobs to the output stream. This includes jobs that are currently paused.\n",
   chars! "\n",
   chars! "The jobs listed may be running, denoted as {n:(+)}; or paused, denoted as {n:(-)}.\n",
   chars! "While it is extremely unlikely, a job that is no longer running may be displayed\n",
   chars! "also, denoted as {n:(f)}. \n",
   chars! "    \n",
   chars! "Every job includes a job number and a process id. Note that job numbers may change over time,\n",
   chars! "as a job number simply reflects the job's position in the list of jobs. Process ids never change.\n",
   chars! "The job number can be used in conjunction with the {r:bg} and {r:fg} commands.\n"]]

/-- op/join.py 24-70 -/
def op_join : List (List Str) := [
  [chars! "\n",
   chars! "{L,wrap=F}join [-k|--keep] (| PIPELINE |)\n",
   chars! "\n",
   chars! "{L,indent=4:28}{r:-k}, {r:--keep}              Write an output tuple from the left input even if there is no matching\n",
   chars! "tuple from the right input.\n",
   chars! "\n",
   chars! "{L,indent=4:28}{r:PIPELINE}                The second (right) input to the join.\n",
   chars! "\n",
   chars! "Computes a database-style join between the input stream, \n",
   chars! "and a second stream from the given {r:PIPELINE}.\n",
   chars! "\n",
   chars! "The input pipeline provides one input to the join, named {i:left}.\n",
   chars! "The {r:PIPELINE} argument provides the second input, named {i:right}.\n",
   chars! "Left and right tuples are matched by comparing their first elements. For matching\n",
   chars! "pairs, an output tuple consists of the left tuple followed by the right tuple with the\n",
   chars! "first value removed. (That would be redundant since the tuples were matched on their\n"],
  [chars! "first values.)\n",
   chars! "\n",
   chars! "The {r:--keep} flag causes left inputs to be passed to output as is, when there is no\n",
   chars! "matching right input. (In database terms, this is a left join.)\n",
   chars! "\n",
   chars! "{b:Example}\n",
   chars! "\n",
   chars! "The left input has 6 tuples of the form {n:(f, -f)}, generated by {n:gen 6 | map (f: (f, -f))}.\n",
   chars! "The right input has 4 tuples of the form {n:(f, f**2)}, generated by {n:gen 4 | map (f: (f, f**2))}.\n",
   chars! "The join is computed as follows:\n",
   chars! "\n",
   chars! "{L,wrap=F}gen 6 | map (f: (f, -f)) | join (| gen 4 | map (f: (f, f**2)) |)\n",
   chars! "\n",
   chars! "This generates the following output:\n",
   chars! "\n",
   chars! "{P,wrap=F,indent=4}\n",
   chars! "(0, 0, 0)\n",
   chars! "(1, -1, 1)\n",
   chars! "(2, -2, 4)\n",
   chars! "(3, -3, 9)\n",
   chars! "\n",
   chars! "If the {r:--keep} flag were included, the output would have two additional rows:\n",
   chars! "\n",
   chars! "{P,wrap=F,indent=4}\n",
   chars! "(0, 0, 0)\n"],
  [chars! "(1, -1, 1)\n",
   chars! "(2, -2, 4)\n",
   chars! "(3, -3, 9)\n",
   chars! "(4, -4)\n",
   chars! "(5, -5)\n"]]

/-- op/load.py 24-51 -/
def op_load : List (List Str) := [
  [chars! "\n",
   chars! "{L,wrap=F}load VAR\n",
   chars! "{L,wrap=F}VAR <$\n",
   chars! "\n",
   chars! "{L,indent=4:28}{r:VAR}                        An environment variable.\n",
   chars! "\n",
   chars! "Write the contents of the environment variable {r:VAR} to the output stream.\n",
   chars! "\n",
   chars! "There is special optional syntax for the {r:load} operator: {r:load VAR} can be written as {r:VAR <$}. \n",
   chars! "With this alternative syntax, the {r:<} acts as a pipe ({r:|}). So, for example, the following command:\n",
   chars! "\n",
   chars! "{L,wrap=F}load foobar | map (f, y: (y, f))  \n",
   chars! "\n",
   chars! "is equivalent to:\n",
   chars! "\n",
   chars! "{L,wrap=F}foobar <$ map (f, y: (y, f))\n",
   chars! "\n",
   chars! "{r:foobar <$} is valid at the beginning of a pipelines since it produces a stream of tuples, just like\n",
   chars! "any other pipelines. So, for example the command line {r:foobar <$} prints the contents of foobar,\n"],
  [chars! "(since the {r:write} operator is applied at the end of a top-level pipelines if not explicitly provided).\n",
   chars! "\n",
   chars! "This syntax can be used in any pipelines, e.g.\n",
   chars! "\n",
   chars! "{L,wrap=F}abc <$ join [def <$]\n",
   chars! "\n",
   chars! "This loads {r:abc} into the pipelines carrying data to the {r:join} operator. The other\n",
   chars! "input to {r:join} comes from loading {r:def}.\n"]]

/-- op/ls.py 25-54 -/
def op_ls : List (List Str) := [
  [chars! "\n",
   chars! "{L,indent=4:7}ls [[-01] [-r|--recursive]] [-f|--file] [-d|--dir] [-s|--symlink] [FILENAME ...]\n",
   chars! "\n",
   chars! "{L,indent=4:28}{r:-0}                      Include only files matching the specified FILENAMEs, (i.e., depth 0).\n",
   chars! "\n",
   chars! "{L,indent=4:28}{r:-1}                      Include files matching the specified FILENAMEs, and in any directories\n",
   chars! "among the FILENAMEs, (i.e., depth 1).\n",
   chars! "\n",
   chars! "{L,indent=4:28}{r:-r}, {r:--recursive}         Include all files contained in the identified FILENAMEs, recursively,\n",
   chars! "to any depth.\n",
   chars! "\n",
   chars! "{L,indent=4:28}{r:-f}, {r:--file}              Include files in output.\n",
   chars! "\n",
   chars! "{L,indent=4:28}{r:-d}, {r:--dir}               Include directories in output.\n",
   chars! "\n",
   chars! "{L,indent=4:28}{r:-s}, {r:--symlink}           Include symbolic links in output.\n"],
  [chars! "\n",
   chars! "{L,indent=4:28}{r:FILENAME}                A filename or glob pattern.\n",
   chars! "\n",
   chars! "Generates a stream of {n:File} objects, representing files, directories and symlinks.\n",
   chars! "\n",
   chars! "The flags {r:-0}, {r:-1}, and {r:-r} are mutually exclusive. {r:-1} is the default.\n",
   chars! "\n",
   chars! "Flags {r:-f}, {r:-d}, and {r:-s} may be combined. If none of these flags are specified, then files, directories\n",
   chars! "and symbolic links are all listed.\n",
   chars! "\n",
   chars! "If no {r:FILENAME}s are provided, then the current directory is listed.\n",
   chars! "\n",
   chars! "Run {n:help file} for more information on {n:File} objects.\n"]]

/-- op/map.py 23-34 -/
def op_map : List (List Str) := [
  [chars! "\n",
   chars! "{L,wrap=F}[map] FUNCTION\n",
   chars! "\n",
   chars! "{L,indent=4:28}{r:FUNCTION}                The function to be applied to each input tuple.\n",
   chars! "\n",
   chars! "For each tuple in the input stream, apply the given {r:FUNCTION} and write the result to the output stream.\n",
   chars! "\n",
   chars! "The components of an input tuple are bound to the {r:FUNCTION}'s parameters.\n",
   chars! "\n",
   chars! "Note that the operator name, {r:map}, can be omitted. If you provide a {r:FUNCTION} by itself, it will be assumed that\n",
   chars! "the {r:map} operator was intended.\n"]]

/-- op/popd.py 22-26 -/
def op_popd : List (List Str) := [
  [chars! "\n",
   chars! "{L,wrap=F}popd\n",
   chars! "\n",
   chars! "Pop the directory stack, and cd to the new top directory. The current directory stack is written to output.\n"]]

/-- op/ps.py 45-77 -/
def op_ps : List (List Str) := [
  [chars! "\n",
   chars! "{L,wrap=F}ps [-u|--user [USER]] [-g|--group [GROUP]] [-p|--pid PID] [-c|--command STRING]\n",
   chars! "\n",
   chars! "{L,indent=4:28}{r:-u}, {r:--user}              Report only processes owned by the specified USER.\n",
   chars! "\n",
   chars! "{L,indent=4:28}{r:-g}, {r:--group}             Report only processes owned by the specified GROUP.\n",
   chars! "\n",
   chars! "{L,indent=4:28}{r:-p}, {r:--pid}               Report only the process with the specified PID.\n",
   chars! "\n",
   chars! "{L,indent=4:28}{r:-c}, {r:--command}           Report only the processes whose command line contains the specified STRING.\n",
   chars! "\n",
   chars! "Generate a stream of {n:Process} objects, representing processes. If no arguments are provided,\n",
   chars! "then all processes, from all users, are reported. Otherwise, the processes are filtered based on the provided\n"],
  [chars! "flag.\n",
   chars! "\n",
   chars! "At most one of the flags can be specified. For more complex selection criteria, run {r:ps} with no\n",
   chars! "arguments to obtain all {n:Process}es, and then use the {n:select} operator to specify an arbitrary filtering\n",
   chars! "condition, based on the attributes of {n:Process} objects. (Run {n:help process} for more information on\n",
   chars! "{n:Process} objects.)\n",
   chars! "\n",
   chars! "If {r:--pid} is specified, then the process whose pid is {r:PID} is provided.\n",
   chars! "\n",
   chars! "If {r:--user} is specified, and {r:USER} is omitted, then the processes owned by the current user\n",
   chars! "are provided. Similarly, if {r:--group} is specified and {r:GROUP} is omitted, then the processes\n",
   chars! "owned by the current user's group are provided.\n",
   chars! "\n",
   chars! "Users and groups can be identified by name, or by numeric id. In the latter case, real, effective and saved\n"],
  [chars! "ids are checked. E.g. {n:ps -u 1002} would return processes in which the real uid, effective uid, or saved\n",
   chars! "uid is 1002.\n",
   chars! "\n",
   chars! "If {r:--command} is specified, then the {r:STRING} argument is matched against the process name,\n",
   chars! "executable name, and command line.\n"]]

/-- op/pushd.py 25-34 -/
def op_pushd : List (List Str) := [
  [chars! "\n",
   chars! "{L,wrap=F}pushd [DIRECTORY]\n",
   chars! "\n",
   chars! "{L,indent=4:28}{r:DIRECTORY}               The directory to be added to the directory stack.\n",
   chars! "\n",
   chars! "Push The given {r:DIRECTORY} onto the directory stack, and cd to it.\n",
   chars! "\n",
   chars! "If no {r:DIRECTORY} is supplied, then the top two items on the directory stack are swapped,\n",
   chars! "and the current directory is changed to the new top directory on the stack.\n"]]

/-- op/pwd.py 21-25 -/
def op_pwd : List (List Str) := [
  [chars! "\n",
   chars! "{L,wrap=F}pwd\n",
   chars! "\n",
   chars! "Write the current directory to the output stream, as a {n:File}.\n"]]

/-- op/red.py 23-112 -/
def op_red : List (List Str) := [
  [chars! "\n",
   chars! "{L,wrap=F}red [-i|--incremental] FUNCTION ...\n",
   chars! "\n",
   chars! "{L,indent=4:28}{r:-i}, {r:--incremental}       Output a tuple for each step of the reduction. I.e., there will be one\n",
   chars! "output tuple for each input tuple, with the reductions showing the result of the reduction up to and including\n",
   chars! "the most recent input.\n",
   chars! "\n",
   chars! "{L,indent=4:28}{r:FUNCTION}                A reduction function.\n",
   chars! "\n",
   chars! "\n",
   chars! "Reduces tuples from the input stream by repeatedly applying binary functions, such as {r:+}, {r:min}, {r:max}.\n",
   chars! "\n",
   chars! "Each {r:FUNCTION} takes two inputs and produces one output.\n",
   chars! "\n",
   chars! "{b:Basic usage}\n",
   chars! "\n",
   chars! "Given a sequence of inputs such as {n:1, 2, 3}, {r:red} can be used to find the sum:\n",
   chars! "\n",
   chars! "{p,wrap=F}\n",
   chars! "    ... | red +\n",
   chars! "\n",
   chars! "yields {r:(6,)}. For input elements with more than a single value, multiple functions can be provided.\n"],
  [chars! "For example, to find the sum of 0 ... 9, the sum of their squares, and the sum of their cubes:\n",
   chars! "\n",
   chars! "{p,wrap=F}\n",
   chars! "    gen 10 | map (f: (f, f**2, f**3)) | red + + +\n",
   chars! "\n",
   chars! "which yields the output {n:(45, 285, 2025)}.\n",
   chars! "\n",
   chars! "The {r:count} function can be used to count the number of input tuples, e.g.\n",
   chars! "\n",
   chars! "{p,wrap=F}\n",
   chars! "    gen 10 | red count\n",
   chars! "    \n",
   chars! "yields the output {n:10}.\n",
   chars! "\n",
   chars! "{b:Grouping}\n",
   chars! "\n",
   chars! "Reduction can be applied to groups of input rows, identifying the group-defining\n",
   chars! "values using {r:.} instead of a function. For example, suppose the input sequence is:\n",
   chars! "{p,wrap=F}\n",
   chars! "    (1, 5, 10, 100)\n",
   chars! "    (1, 6, 10, 200)\n",
   chars! "    (1, 4, 11, 100)\n",
   chars! "    (1, 3, 11, 200)\n",
   chars! "    (2, 8, 20, 100)\n",
   chars! "    (2, 9, 20, 200)\n",
   chars! "    (2, 10, 20, 300)\n",
   chars! "    (3, 5, 30, 100)\n"],
  [chars! "\n",
   chars! "If this sequence is piped to this invocation of {r:red}:\n",
   chars! "{p,wrap=F}\n",
   chars! "    red . + . +\n",
   chars! "\n",
   chars! "then groups are defined using the first and third values, {n:(1, 10), (1, 11), (2, 20), (3, 30)}.\n",
   chars! "The output would be:\n",
   chars! "{p,wrap=F}\n",
   chars! "    (1, 11, 10, 300)\n",
   chars! "    (1, 7, 11, 300)\n",
   chars! "    (2, 17, 20, 300)\n",
   chars! "    (3, 5, 30, 100)\n",
   chars! "\n",
   chars! "{b:Incremental mode:}\n",
   chars! "\n",
   chars! "If the {r:-i} flag is specified, then one output tuple is generated for each input tuple;\n",
   chars! "an output element contains the current accumulated values. The accumulator appears\n",
   chars! "in the output element after the inputs. For example, if the input stream \n",
   chars! "contains {n:1, 2, 3},\n",
   chars! "then the running total can be computed as follows:\n",
   chars! "{p,wrap=F}\n",
   chars! "    ... | red -i + | ...\n",
   chars! "\n",
   chars! "The output stream would be {n:(1, 1), (2, 3), (3, 6)}. In the last output tuple, {n:6} is the sum\n"],
  [chars! "of the current input ({n:3}) and all preceding inputs ({n:1, 2}).\n",
   chars! "\n",
   chars! "The {r:-i} flag can also be used with grouping. For example, if the input \n",
   chars! "tuples are\n",
   chars! "{n:('a', 1), ('a', 2), ('b', 3), ('b', 4)}, then the running totals, grouped by the string values would\n",
   chars! "be computed as follows:\n",
   chars! "{p,wrap=F}\n",
   chars! "    ... | red -i . +\n",
   chars! "\n",
   chars! "The output stream would be {n:('a', 1, 1), ('a', 2, 3), ('b', 3, 3), ('b', 4, 7)}.\n",
   chars! "\n",
   chars! "{b:Errors}\n",
   chars! "\n",
   chars! "If {n:n} reduction functions are specified, then input tuples are expected to have at least {n:n}\n",
   chars! "elements. Each shorter tuples will cause an {n:Error} to be output. For longer tuples, elements after\n",
   chars! "the first {n:n} will be ignored. \n"]]

/-- op/read.py 29-87 -/
def op_read : List (List Str) := [
  [chars! "\n",
   chars! "{L,indent=4:9}read [[-01] [-r|--recursive]] [-c|--csv] [-t|--tsv] [-h|--headings] [-s|--skip-headings] [-p|--pickle] \n",
   chars! " [-j|--json] [-l|--label] [FILENAME ...]\n",
   chars! "\n",
   chars! "{L,indent=4:28}{r:-0}                      Include only files matching the specified FILENAMEs, (i.e., depth 0).\n",
   chars! "\n",
   chars! "{L,indent=4:28}{r:-1}                      Include files matching the specified FILENAMEs, and in any directories\n",
   chars! "among the FILENAMEs, (i.e., depth 1).\n",
   chars! "\n",
   chars! "{L,indent=4:28}{r:-r}, {r:--recursive}         Include all files contained in the identified FILENAMEs, recursively,\n",
   chars! "to any depth.\n",
   chars! "\n",
   chars! "{L,indent=4:28}{r:-c}, {r:--csv}               Parse CSV-formatted lines with comma delimiter.\n",
   chars! "\n",
   chars! "{L,indent=4:28}{r:-t}, {r:--tsv}               Parse CSV-formatted lines with tab delimiter.\n"],
  [chars! "\n",
   chars! "{L,indent=4:28}{r:-h}, {r:--headings}          First line of CSV or TSV file contains column headings.\n",
   chars! "\n",
   chars! "{L,indent=4:28}{r:-s}, {r:--skip-headings}     Skip first line of CSV or TSV file, which presumably contains headings.\n",
   chars! "\n",
   chars! "{L,indent=4:28}{r:-p}, {r:--pickle}            Parse pickle format\n",
   chars! "\n",
   chars! "{L,indent=4:28}{r:-l}, {r:--label}             Include the input {n:File} with output tuple.\n",
   chars! "\n",
   chars! "{L,indent=4:28}{r:FILENAME}                A filename or glob pattern.\n",
   chars! "\n",
   chars! "Reads the contents of the specified files. Input files can be specified on\n",
   chars! "the command line, by giving their names (the {r:FILENAME} arguments); or piped in from an upstream command,\n",
   chars! "typically {r:ls}. In the latter case, input tuples are assumed to be 1-tuples containing {n:File}s. \n"],
  [chars! "\n",
   chars! "Each file is read, and each\n",
   chars! "line is written to the output stream, with end-of-line characters ({r:\\\\r}, {r:\\\\n}) removed.\n",
   chars! "\n",
   chars! "If {r:--csv} is specified, then input lines are assumed to be in the CSV format, using a comma\n",
   chars! "delimiter. The line is\n",
   chars! "parsed, and a tuple of fields is output. Similarly, if {r:--tsv} is specified, input\n",
   chars! "lines are assumed to be in the CSV format with a tab delimiter.\n",
   chars! "\n",
   chars! "{r:--headings} can only be used in conjunction with {r:--csv} or {r:--tsv}. It indicates that\n",
   chars! "the first line of input is a set of column headings, and that these headings should be used to\n",
   chars! "identify columns through the use of named tuples. If a column heading\n",
   chars! "is not a valid Python identifier, an attempt will be made to generate a Python identifier,\n"],
  [chars! "replacing invalid characters by {r:_}. If one of the lines of the input has fewer fields\n",
   chars! "than there are headings, the corresponding tuple will be padded with None. If an input line has more\n",
   chars! "fields than there are headings, an {r:Error} is generated.\n",
   chars! "\n",
   chars! "{r:-s|--skip-headings} can only be used in conjunction with {r:--csv} or {r:--tsv}. \n",
   chars! "This option causes the first line of the file to be skipped, presumably because it contains headings\n",
   chars! "which are not of interest.  \n",
   chars! "\n",
   chars! "If {r:--pickle} is specified, the input is assumed to be in pickle format.\n",
   chars! "\n",
   chars! "If none of these formats are specified, then each input is assumed to be a line of text. End-of-line\n",
   chars! "characters are removed.\n",
   chars! "\n",
   chars! "If {r:--label} is specified, then the input {n:File} is included in the output, in the first\n"],
  [chars! "position of each output tuple. If {r:--headings} is specified, then the label column will be named\n",
   chars! "{r:LABEL}.\n"]]

/-- op/remote.py 31-62 -/
def op_remote : List (List Str) := [
  [chars! "\n",
   chars! "{L,wrap=F}remote CLUSTER (| PIPELINE |)\n",
   chars! "{L,wrap=F}@ CLUSTER (| PIPELINE |)\n",
   chars! "\n",
   chars! "{L,indent=4:28}{r:CLUSTER}                The name of a cluster.\n",
   chars! "   \n",
   chars! "{L,indent=4:28}{r:PIPELINE}                A pipeline whose instances are to be executed on nodes\n",
   chars! "of the cluster.\n",
   chars! "\n",
   chars! "The pipeline is executed on each node of the named cluster. Output comprises \n",
   chars! "the output streams from each node, labelled \n",
   chars! "with the node's name.\n",
   chars! "\n",
   chars! "Example:\n",
   chars! "\n",
   chars! "{p,indent=4,wrap=F}\n",
   chars! "remote lab (| gen 3 |)\n",
   chars! "\n",
   chars! "{r:lab} is a cluster, configured in the marcel startup script. The pipeline {r:gen 3}\n",
   chars! "is run on each node of this cluster. The output from each node is returned, and a label\n",
   chars! "identifying the node is prepended to each output tuple. So if {r:lab} consists of two nodes,\n",
   chars! "{R:lab1} and {r:lab2},\n"],
  [chars! "the output might look like this:\n",
   chars! "\n",
   chars! "{p,indent=4,wrap=F}\n",
   chars! "(lab1, 0)\n",
   chars! "(lab2, 0)\n",
   chars! "(lab2, 1)\n",
   chars! "(lab1, 1)\n",
   chars! "(lab1, 2)\n",
   chars! "(lab2, 2)\n"]]

/-- op/reverse.py 19-23 -/
def op_reverse : List (List Str) := [
  [chars! "\n",
   chars! "{L,wrap=F}reverse\n",
   chars! "\n",
   chars! "The input stream is output in reverse order.\n"]]

/-- op/run.py 22-38 -/
def op_run : List (List Str) := [
  [chars! "\n",
   chars! "{L,wrap=F}run [COMMAND]\n",
   chars! "{L,wrap=F}! COMMAND\n",
   chars! "{L,wrap=F}!!\n",
   chars! "\n",
   chars! "{L,indent=4:28}{r:COMMAND}                 The command number (from history) to be rerun.\n",
   chars! "\n",
   chars! "Run a previous command.\n",
   chars! "\n",
   chars! "If a {r:COMMAND} number is specified, identifying a command in the command history, then that\n",
   chars! "command will be recalled and written to the current prompt. Hit enter to run that command again.\n",
   chars! "\n",
   chars! "If a {r:COMMAND} number is omitted, (i.e., {r:run} with no argument, or {r:!!}, then reruen the previous\n",
   chars! "command.\n",
   chars! "\n",
   chars! "For more information on command history, run {n:help history}.\n"]]

/-- op/select.py 22-31 -/
def op_select : List (List Str) := [
  [chars! "\n",
   chars! "{L,wrap=F}select FUNCTION\n",
   chars! "\n",
   chars! "{L,indent=4:28}{r:FUNCTION}                The function to be applied to each input tuple.\n",
   chars! "\n",
   chars! "Tuples in the input stream are filtered using a predicate. \n",
   chars! "\n",
   chars! "The {r:FUNCTION} is applied to each input tuple. Tuples for which the {r:FUNCTION} evalutes to\n",
   chars! "True are written to the output stream.\n"]]

/-- op/sort.py 23-33 -/
def op_sort : List (List Str) := [
  [chars! "\n",
   chars! "{L,wrap=F}sort [KEY]\n",
   chars! "\n",
   chars! "{L,indent=4:28}{r:KEY}                     The function to be applied to input tuples, to get the values by which tuples \n",
   chars! "should be ranked.\n",
   chars! "\n",
   chars! "The input stream is sorted and written to the output stream.\n",
   chars! "\n",
   chars! "If a {r:KEY} is not specified, then input tuples are ordered according to Python rules.\n",
   chars! "Otherwise, ordering is based on the values computed by applying {r:KEY} to each input tuple.\n"]]

/-- op/squish.py 23-40 -/
def op_squish : List (List Str) := [
  [chars! "\n",
   chars! "{L,wrap=F}squish [FUNCTION]\n",
   chars! "\n",
   chars! "{L,indent=4:28}{r:FUNCTION}                 A reduction function.\n",
   chars! "\n",
   chars! "The components of each input tuple are reduced using a given function.\n",
   chars! "\n",
   chars! "Each input sequence is reduced to a single value, using {r:FUNCTION} to combine the values.\n",
   chars! "{r:FUNCTION} is a binary function that can be used for reduction, e.g. {n:+}, {n:*}, {n:max}, {n:min}.\n",
   chars! "\n",
   chars! "{b:Example:} If one of the inputs is the list {n:[1, 2, 3, 4]}, then:\n",
   chars! "{p,wrap=F}\n",
   chars! "    squish +\n",
   chars! "\n",
   chars! "will generate {n:10}.\n",
   chars! "\n",
   chars! "If no {r:FUNCTION} is provided, then {n:+} is assumed.\n"]]

/-- op/sql.py 21-69 -/
def op_sql : List (List Str) := [
  [chars! "\n",
   chars! "{L,indent=4:8}sql [-d|--db DB_PROFILE] [-c|--commit UPDATE_COUNT] [-a|--autocommit] [-u|--update-counts] STATEMENT [ARG ...]\n",
   chars! "\n",
   chars! "{L,indent=4:28,wrap=T}{r:-d}, {r:--db}                Access the database whose profile is named \n",
   chars! "{r:DB_PROFILE}, in the marcel configuration file\n",
   chars! "e.g. {n:~/.config/marcel/startup.py}. If omitted, use the default profile, specified by the \n",
   chars! "environment variable {n:DB_DEFAULT}.\n",
   chars! "\n",
   chars! "{L,indent=4:28}{r:-c}, {r:--commit}            Commit after {r:UPDATE_COUNT} rows have been updated, \n",
   chars! "as indicated by the sum of update counts returned in response to SQL statements such as \n",
   chars! "INSERT, UPDATE, DELETE.\n",
   chars! "\n",
   chars! "{L,indent=4:28}{r:-a}, {r:--autocommit}        Run in auto-commit mode. I.e., every SQL statement \n"],
  [chars! "runs in its own implicit transaction.\n",
   chars! "\n",
   chars! "{L,indent=4:28}{r:-u}, {r:--update-counts}     Write update counts to output stream. \n",
   chars! "(Default behavior is to not write update counts.)\n",
   chars! "\n",
   chars! "{L,indent=4:28}{r:STATEMENT}               A SQL statement enclosed in quotation marks. Consistent with Python's DBAPI specification,\n",
   chars! "parameters are indicated using %s.\n",
   chars! "\n",
   chars! "{L,indent=4:28}{r:ARG}                     An expression whose value will be bound to a variable in a SQL statement.\n",
   chars! "\n",
   chars! "SQL statements may have parameters, which are indicated by %s. There are two ways in which values are bound to\n",
   chars! "these arguments:\n",
   chars! "\n",
   chars! "{L}- If {r:ARG}s are specified, they are bound to the SQL statement's parameters.\n",
   chars! "\n",
   chars! "{L}- If {r:ARG}s are not specified, then for each input tuple, the tuple's components are bound\n"],
  [chars! "to the SQL statement's parameters, and then the statement is executed.\n",
   chars! "\n",
   chars! "If the SQL statement is {n:SELECT} then rows returned from the query are written to the output stream.\n",
   chars! "In other cases, the update count is written to the output stream if {r:--update} is specified.\n",
   chars! "\n",
   chars! "Commit is handled in one of three ways:\n",
   chars! "\n",
   chars! "{L}- {n:One commit}: Commit occurs at the end of the entire command. This means that for a long-running\n",
   chars! "command that does updates, no updates are visible until the command finishes execution. This is the default\n",
   chars! "behavior, (i.e., if neither {r:--commit} nor {r:--autocommit} are specified).\n",
   chars! "\n",
   chars! "{L}- {n:Periodic commit}: The {r:--commit} flag specifies the commit frequency as an {r:UPDATE_COUNT}. \n"],
  [chars! "Update counts from SQL statements are totalled, and when total equals or exceeds {r:UPDATE_COUNT}, \n",
   chars! "a commit is performed, and the counter is reset to zero.\n",
   chars! "\n",
   chars! "{L}- {n:Auto-commit}: If {r:--autocommit} is specified, then each SQL statement runs in its own implicit\n",
   chars! "transaction.\n",
   chars! "\n",
   chars! "Note that the {r:--commit} and {r:--autocommit} flags are mutually exclusive.\n"]]

/-- op/store.py 27-55 -/
def op_store : List (List Str) := [
  [chars! "\n",
   chars! "{L,wrap=F}store [-a|--append] VAR\n",
   chars! "{L,wrap=F}>$ VAR\n",
   chars! "{L,wrap=F}>>$ VAR\n",
   chars! "\n",
   chars! "{L,indent=4:28}{r:-a}, {r:--append}            Append to {r:VAR}s list, instead of replacing.\n",
   chars! "\n",
   chars! "{L,indent=4:28}{r:VAR}                     A variable.\n",
   chars! "\n",
   chars! "Write the incoming tuples to the {r:VAR}. \n",
   chars! "\n",
   chars! "{r:VAR} is an environment variable. \n",
   chars! "\n",
   chars! "By default, the current value of {r:VAR} is replaced. \n",
   chars! "If {r:--append} is specified, then the incoming tuples are appended. The variable's value must have \n",
   chars! "previously been assigned tuples from a stream.)\n",
   chars! "\n",
   chars! "There is special syntax for the {r:store} operator: {r:store VAR} can be written as {r:>$ VAR}. \n",
   chars! "With this alternative syntax, the {r:>$} acts as a pipe ({r:|}). So, for example, the following command:\n"],
  [chars! "\n",
   chars! "{L,wrap=F}gen 5 | store f\n",
   chars! "\n",
   chars! "stores the stream carrying {r:0, 1, 2, 3, 4} in variable {r:f}. This can also be written as:\n",
   chars! "\n",
   chars! "{L,wrap=F}gen 5 >$ f\n",
   chars! "\n",
   chars! "The symbol {r:>>$} is used to append to the contents of the {r:VAR}, instead of\n",
   chars! "replacing the value, e.g. {r:gen 5 >>$ f}. \n"]]

/-- op/sudo.py 29-42 -/
def op_sudo : List (List Str) := [
  [chars! "\n",
   chars! "{L,wrap=F}sudo FLAGS (| PIPELINE |)\n",
   chars! "\n",
   chars! "{L,indent=4:28}{r:FLAGS}                   Flags to the host OS sudo command.\n",
   chars! "{L,indent=4:28}{r:PIPELINE}                Command to be executed under control of sudo\n",
   chars! "\n",
   chars! "For example, running this command (assuming you are not root), would result in \"Permission denied\":\n",
   chars! "\n",
   chars! "{L,wrap=F}ls /root\n",
   chars! "\n",
   chars! "Running the command via {r:sudo} would work:\n",
   chars! "\n",
   chars! "{L,wrap=F}sudo [ ls /root ]\n"]]

/-- op/tail.py 21-31 -/
def op_tail : List (List Str) := [
  [chars! "\n",
   chars! "{L,wrap=F}tail N\n",
   chars! "\n",
   chars! "{L,indent=4:28}{r:N}                       The number of input tuples to be written to output, or skipped\n",
   chars! "(depending on the sign).\n",
   chars! "\n",
   chars! "If {r:N} > 0, then output the last {r:N} tuples of the input stream, and discard the others.  \n",
   chars! "\n",
   chars! "If {r:N} < 0, then skip the last {r:N} tuples of the input stream, and output the others. (I.e.,\n",
   chars! "output all but the last {r:N} tuples.)\n"]]

/-- op/timer.py 24-31 -/
def op_timer : List (List Str) := [
  [chars! "\n",
   chars! "{L,wrap=F}timer INTERVAL\n",
   chars! "\n",
   chars! "{L,indent=4:28}{r:INTERVAL}                The number of seconds to wait between consecutive timestamps.\n",
   chars! "\n",
   chars! "Generate a sequence of timestamps, separated in time by a specified {r:INTERVAL}.\n",
   chars! "The output timestamp is time in seconds since 1/1/1970.\n"]]

/-- op/trace.py 21-46 -/
def op_trace : List (List Str) := [
  [chars! "\n",
   chars! "{L,wrap=F}trace\n",
   chars! "{L,wrap=F}trace -0|--off\n",
   chars! "{L,wrap=F}trace -1|--on\n",
   chars! "{L,wrap=F}trace -f|--file FILE\n",
   chars! "\n",
   chars! "{L,indent=4:28}{r:-0}, {r:--off}               Do not produce trace output. \n",
   chars! "\n",
   chars! "{L,indent=4:28}{r:-1}, {r:--on}                Write trace output to stdout.\n",
   chars! "\n",
   chars! "{L,indent=4:28}{r:-f}, {r:--file}              Write trace output to the specified {r:FILE.} \n",
   chars! "\n",
   chars! "Writes data tracing marcel execution to stdout or a file.\n",
   chars! "\n",
   chars! "With no arguments, {r:trace} describes whether tracing is enabled, and if so,\n",
   chars! "where trace output is being written.\n",
   chars! "\n",
   chars! "{r:--on} causes trace output to be written to stdout.\n",
   chars! "\n",
   chars! "{r:--off} turns off tracing.\n",
   chars! "\n",
   chars! "{r:--file} causes trace output to be written to the specified {r:FILE}, appending\n",
   chars! "if the file already exists.\n"],
  [chars! "\n",
   chars! "These arguments are all mutually exclusive.\n"]]

/-- op/unique.py 22-34 -/
def op_unique : List (List Str) := [
  [chars! "\n",
   chars! "{L,wrap=F}unique [-c|--consecutive]\n",
   chars! "\n",
   chars! "{L,indent=4:28}{r:-c}, {r:--consecutive}       Only look for consecutive duplicates.\n",
   chars! "\n",
   chars! "Write to the output stream all input tuples, but without duplicates.\n",
   chars! "\n",
   chars! "Input tuples are passed to output, removing duplicates. No output is\n",
   chars! "generated until the end of the input stream occurs. However, if the\n",
   chars! "duplicates are known to be consecutive, then {r:--consecutive} allows\n",
   chars! "output to be generated sooner. Input order is preserved if {r:--consecutive}\n",
   chars! "is specified.\n"]]

/-- op/union.py 24-35 -/
def op_union : List (List Str) := [
  [chars! "\n",
   chars! "{L,wrap=F}union (| PIPELINE |) ...\n",
   chars! "\n",
   chars! "{L,indent=4:28}{r:PIPELINE}                The second input to the union.\n",
   chars! "\n",
   chars! "The output stream represents the union of the tuples in the input stream, and the tuples\n",
   chars! "from the {r:PIPELINE} arguments.\n",
   chars! "\n",
   chars! "Duplicates are maintained. If a given tuple appears {n:n} times in one input, and {n:m} times in\n",
   chars! "the other, then the output stream will contain {n:m+n} occurrences. The order of tuples in the\n",
   chars! "output is unspecified.\n"]]

/-- op/upload.py 32-52 -/
def op_upload : List (List Str) := [
  [chars! "\n",
   chars! "{L,wrap=F}upload CLUSTER DIR FILENAME ...\n",
   chars! "\n",
   chars! "{L,indent=4:28}{r:CLUSTER}                 The cluster to which files will be uploaded.\n",
   chars! "\n",
   chars! "{L,indent=4:28}{r:DIR}                     The directory on each cluster node to receive uploaded files.\n",
   chars! "\n",
   chars! "{L,indent=4:28}{r:FILENAME}                A filename or glob pattern.\n",
   chars! "\n",
   chars! "Copies local files to the indicated directory on each node of a cluster. The output stream is empty.\n",
   chars! "\n",
   chars! "The files to be copied are specified by one or more {r:FILENAME}s. Each\n",
   chars! "{r:FILENAME} is a file name or a glob pattern.\n",
   chars! "\n",
   chars! "{r:CLUSTER} must be configured for marcel, (run {n:help cluster} for\n",
   chars! "information on configuring clusters).\n",
   chars! "\n",
   chars! "{r:DIR} must be an absolute path, corresponding to a pre-exising directory\n"],
  [chars! "on each node of the {r:CLUSTER}. The user configured for cluster access\n",
   chars! "must have permission to write to the directory.\n"]]

/-- op/version.py 21-25 -/
def op_version : List (List Str) := [
  [chars! "\n",
   chars! "{L,wrap=F}version\n",
   chars! "\n",
   chars! "Write the marcel version number to the output stream.\n"]]

/-- op/window.py 24-96 -/
def op_window : List (List Str) := [
  [chars! "\n",
   chars! "{L,wrap=F}window [-o|--overlap N] [-d|--disjoint N] [PREDICATE]\n",
   chars! "\n",
   chars! "{L,indent=4:28}{r:-o}, {r:--overlap}           Generate overlapping windows of size N.\n",
   chars! "\n",
   chars! "{L,indent=4:28}{r:-d}, {r:--disjoint}          Generate disjoint windows of size N.\n",
   chars! "\n",
   chars! "{L,indent=4:28}{r:PREDICATE}               Start a new window on inputs for which the predicate\n",
   chars! "evaluates to {n:True}.\n",
   chars! "\n",
   chars! "Groups of consecutive input tuples are combined into a single tuple, which is written to\n",
   chars! "the output stream. \n",
   chars! "\n",
   chars! "The objects are grouped using one of two\n",
   chars! "mechanisms.\n",
   chars! "\n",
   chars! "{b:Predicate-based:}\n",
   chars! "\n",
   chars! "A new group is started on the first input object, and for any\n",
   chars! "subsequent object for which {r:PREDICATE} returns true. For example, if\n",
   chars! "the input stream contains the integers {n:1, 2, 3, ...}, then:\n",
   chars! "{p,wrap=F}\n"],
  [chars! "    window (f: f % 3 == 2)\n",
   chars! "\n",
   chars! "yields as output:\n",
   chars! "{p,wrap=F}\n",
   chars! "    1\n",
   chars! "    (2, 3, 4)\n",
   chars! "    (5, 6, 7)\n",
   chars! "    (8, 9, 10)\n",
   chars! "    ...\n",
   chars! "\n",
   chars! "I.e., a new tuple is started for each integer n, (after the first integer) such that n % 3 = 2.\n",
   chars! "\n",
   chars! "{b:Fixed-size}:\n",
   chars! "\n",
   chars! "Groups have a fixed number of objects. The {r:--overlap} and {r:--disjoint} flags\n",
   chars! "specify {r:N}, the number of objects in the groups.  {r:--overlap}\n",
   chars! "specifies {i:overlapping} windows, in which each input object begins a\n",
   chars! "new list containing {r:N} items. Groups may be padded with\n",
   chars! "{r:None} values to ensure that the group's size is {r:N}.\n",
   chars! "\n",
   chars! "{b:Example:}\n",
   chars! " \n",
   chars! "For input {n:0, 1, ..., 9}, {r:window -o 3} yields these\n",
   chars! "tuples:\n",
   chars! "{p,wrap=F}\n",
   chars! "    (0, 1, 2)\n",
   chars! "    (1, 2, 3)\n",
   chars! "    (2, 3, 4)\n",
   chars! "    (3, 4, 5)\n"],
  [chars! "    (4, 5, 6)\n",
   chars! "    (5, 6, 7)\n",
   chars! "    (6, 7, 8)\n",
   chars! "    (7, 8, 9)\n",
   chars! "    (8, 9, None)\n",
   chars! "    (9, None, None)\n",
   chars! "\n",
   chars! "{r:--disjoint} specifies {i:disjoint} windows, in which each input object\n",
   chars! "appears in only one group. A new group is started every {r:N}\n",
   chars! "objects. The last window may be padded with (None,) to ensure that it\n",
   chars! "has {r:N} elements.\n",
   chars! "\n",
   chars! "{b:Example:}\n",
   chars! "\n",
   chars! "For input {n:0, 1, ..., 9}, {r:window -d 3} yields these\n",
   chars! "tuples:\n",
   chars! "{p,wrap=F}\n",
   chars! "    (0, 1, 2)\n",
   chars! "    (3, 4, 5)\n",
   chars! "    (6, 7, 8)\n",
   chars! "    (9, None, None)\n"]]

/-- op/write.py 31-63 -/
def op_write : List (List Str) := [
  [chars! "\n",
   chars! "{L,indent=4:10}write [-c|--csv] [-t|--tsv] [-p|--pickle] [-f|--format FORMAT] [-a|--append] [FILENAME]\n",
   chars! "\n",
   chars! "{L,indent=4:28}{r:-c}, {r:--csv}               Format output as comma-separated values.\n",
   chars! "\n",
   chars! "{L,indent=4:28}{r:-t}, {r:--tsv}               Format output as tab-separated values.\n",
   chars! "\n",
   chars! "{L,indent=4:28}{r:-p}, {r:--pickle}            Pickle the output.\n",
   chars! "\n",
   chars! "{L,indent=4:28}{r:-f}, {r:--format}            Format output according to the Python formatting \n",
   chars! "specification {r:FORMAT}.\n",
   chars! "\n",
   chars! "{L,indent=4:28}{r:-a}, {r:--append}            Append output to the file identified by {r:FILENAME}. \n",
   chars! "\n",
   chars! "{L,indent=4:28}FILENAME                Write output to the file identified by {r:FILENAME}. If omitted,\n",
   chars! "output is written to stdout.\n"],
  [chars! "\n",
   chars! "Tuples arriving on the input stream are formatted and written out to a file (or stdout). \n",
   chars! "\n",
   chars! "Tuples received on the input stream are passed to the output stream. As a side-effect, input\n",
   chars! "tuples are formatted and written to stdout or to the specified {r:FILENAME}.\n",
   chars! "If {r:FILENAME} already exists, its contents will be replaced, unless {r:--append} is specified,\n",
   chars! "in which case the stream will be appended. {r:--append} is not permitted for writing to stdout.\n",
   chars! " \n",
   chars! "The formatting options {r:--csv}, {r:-tsv} {r:--pickle}, and {r:--format} options are mutually exclusive.\n",
   chars! "If no formatting options are specified, then the default rendering is used, except\n",
   chars! "that 1-tuples are unwrapped. (Note that for certain objects, including\n",
   chars! "{r:File} and {r:Process}, the default rendering is specified by the {n:render_compact()}\n"],
  [chars! "or {n:render_full()} methods. Run {n:help object} for more information.)\n",
   chars! "The {r:--pickle} option is not permitted for writing to stdout.\n",
   chars! "\n",
   chars! "{n:Error} objects are not subject to formatting specifications, and are not passed on as output.\n"]]

/-- op/ws.py 23-83 -/
def op_ws : List (List Str) := [
  [chars! "\n",
   chars! "{L,wrap=F}ws\n",
   chars! "{L,wrap=F}ws NAME\n",
   chars! "{L,wrap=F}ws [-l|--list]\n",
   chars! "{L,wrap=F}ws [-n|--new] NAME\n",
   chars! "{L,wrap=F}ws [-o|--open] NAME\n",
   chars! "{L,wrap=F}ws [-c|--close]\n",
   chars! "{L,wrap=F}ws [-h|--home] DIR\n",
   chars! "{L,wrap=F}ws [-d|--delete] NAME\n",
   chars! "{L,wrap=F}ws [-b|--delete_broken] \n",
   chars! "{L,wrap=F}ws [-r|--rename] OLD_NAME NEW_NAME\n",
   chars! "{L,wrap=F}ws [-2|--copy] NAME COPY_NAME\n",
   chars! "{L,wrap=F}ws [-e|--export] NAME MWS_FILENAME\n",
   chars! "{L,wrap=F}ws [-i|--import] MWS_FILENAME NAME\n",
   chars! "\n",
   chars! "{L,indent=4:28}{r:-l}, {r:--list}              List workspaces.\n",
   chars! "\n",
   chars! "{L,indent=4:28}{r:-n}, {r:--new}               Create a new workspace with the given NAME.\n",
   chars! "\n",
   chars! "{L,indent=4:28}{r:-o}, {r:--open}              Open the workspace with the given NAME.\n",
   chars! "\n",
   chars! "{L,indent=4:28}{r:-c}, {r:--close}             Close the current workspace.\n"],
  [chars! "\n",
   chars! "{L,indent=4:28}{r:-h}, {r:--home}              Set the workspace home directory.\n",
   chars! "\n",
   chars! "{L,indent=4:28}{r:-d}, {r:--delete}            Delete the workspace with the given NAME.\n",
   chars! "\n",
   chars! "{L,indent=4:28}{r:-b}, {r:--delete-broken}     Delete all broken workspaces.\n",
   chars! "\n",
   chars! "{L,indent=4:28}{r:-r}, {r:--rename}            Change the name of the workspace named OLD_NAME to NEW_NAME.\n",
   chars! "\n",
   chars! "{L,indent=4:28}{r:-2}, {r:--copy}              Create a copy of the workspace named NAME, \n",
   chars! "under the name COPY_NAME.\n",
   chars! "\n",
   chars! "{L,indent=4:28}{r:-e}, {r:--export}            Export the workspace with the given NAME \n",
   chars! "to the file MWS_FILENAME.\n",
   chars! "\n",
   chars! "{L,indent=4:28}{r:-i}, {r:--import}            Import file MWS_FILENAME to create a workspace \n",
   chars! "with the given NAME.\n"],
  [chars! "\n",
   chars! "Provides access to all operations on workspaces.\n",
   chars! "\n",
   chars! "Without any arguments, {r:ws} writes the current workspace to the output stream.\n",
   chars! "\n",
   chars! "{r:--list} writes all workspaces to the output stream.\n",
   chars! "\n",
   chars! "{r:--new} creates a new workspace with the given name.\n",
   chars! "\n",
   chars! "{r:--open} opens the workspace with the given name. ({r:--open} may be omitted. {r:ws NAME} opens the workspace too.)\n",
   chars! "\n",
   chars! "{r:--delete} deletes the named workspace. This can only be done while no processes, including the current one,\n",
   chars! "are not using the workspace.\n",
   chars! "\n",
   chars! "{r:--delete-broken} deletes all broken workspaces.\n",
   chars! "\n",
   chars! "{r:--home} sets the workspace's home directory. This can be used to abbreviate the directory printed at the \n",
   chars! "marcel prompt.\n",
   chars! "\n",
   chars! "{r:--rename}, {r:--copy}, {r:--export}, and {r:--import} are not yet\n"],
  [chars! "implemented.\n"]]

/-- doc/help_builtin.py 16-40 -/
def doc_builtin : List (List Str) := [
  [chars! "\n",
   chars! "Your configuration script, typically {n:~/.config/marcel/startup.py} should do the following to\n",
   chars! "make a few useful functions available to your commands:\n",
   chars! "\n",
   chars! "{L}from marcel.builtin import *\n",
   chars! "\n",
   chars! "While the {n:from ... import *} idiom is discouraged, it seems like the\n",
   chars! "right tool to use here. Otherwise, you need to use qualified function names,\n",
   chars! "e.g. {n:marcel.builtin.now()}; or explicitly create a new variable in the namespace\n",
   chars! "(e.g. {n:now = marcel.builtin.now}). \n",
   chars! "\n",
   chars! "The functions in {n:marcel.builtin} are:\n",
   chars! "\n",
   chars! "{L,indent=4:6}- {n:processes}: A list containing a {n:Process} object for each\n",
   chars! "current process.\n",
   chars! "\n",
   chars! "{L,indent=4:6}- {n:now}: The current time as a float, as seconds since the epoch.\n",
   chars! "\n",
   chars! "{L,indent=4:6}- {n:minutes}: Converts minutes to seconds, for comparison with epoch\n"],
  [chars! "time calculations. E.g. minutes(1) returns 60.\n",
   chars! "\n",
   chars! "{L,indent=4:6}- {n:hours}: Converts hours to seconds.\n",
   chars! "\n",
   chars! "{L,indent=4:6}- {n:days}: Converts days to seconds.\n"]]

/-- doc/help_color.py 16-83 -/
def doc_color : List (List Str) := [
  [chars! "\n",
   chars! "Marcel uses a {i:color scheme} to colorize the prompt and other items printed\n",
   chars! "on the console. \n",
   chars! "\n",
   chars! "{b:Color:}\n",
   chars! "\n",
   chars! "{r:Color} is an object type built in to marcel. A {r:Color} is\n",
   chars! "created by providing RGB values, and style specifications {n:BOLD}\n",
   chars! "and/or {n:ITALIC}. Colors are typically assigned to variables\n",
   chars! "in your configuration script, (run\n",
   chars! "{n:help configuration} for more information on configuration). Example:\n",
   chars! "\n",
   chars! "{p,wrap=F,indent=4}\n",
   chars! "WHITE = Color(5, 5, 5)\n",
   chars! "RED_BOLD = Color(5, 0, 0, BOLD)\n",
   chars! "DARK_GREY_BOLD_ITALIC = Color(2, 2, 2, BOLD | ITALIC)\n",
   chars! "\n",
   chars! "The RGB values are in the range 0-5, which make for a 6x6x6 color cube.\n",
   chars! "These values are used to define an ANSI escape\n",
   chars! "sequence. \n",
   chars! "\n",
   chars! "{r:Color}s have two purposes:\n",
   chars! "{L,indent=4:7}1. They can be used to customize the console prompt, (run {n:help prompt}\n"],
  [chars! "   for more information).\n",
   chars! "{L,indent=4:7}2. They can be used to define a color scheme, to colorize various output items,\n",
   chars! "   (discussed next).\n",
   chars! "\n",
   chars! "{b:Color scheme:}\n",
   chars! "\n",
   chars! "A {i:color scheme} is a set of color specifications, used by marcel to \n",
   chars! "display various items. The marcel namespace contains the {r:COLOR_SCHEME} variable\n",
   chars! "which is bound to an object of type {n:ColorScheme}. {n:ColorScheme} has a number of\n",
   chars! "keys which can be assigned colors. Example:\n",
   chars! "\n",
   chars! "{p,wrap=F,indent=4}\n",
   chars! "COLOR_SCHEME.file_file = COLOR_WHITE_BOLD\n",
   chars! "COLOR_SCHEME.file_dir = Color(0, 2, 3, BOLD)\n",
   chars! "COLOR_SCHEME.file_link = Color(4, 2, 0, BOLD)\n",
   chars! "COLOR_SCHEME.file_executable = Color(0, 4, 0, BOLD)\n",
   chars! "COLOR_SCHEME.file_extension =  \\{'.jpg': COLOR_IMAGE_HIGHLIGHT,\n"],
  [chars! "                                '.jpeg': COLOR_IMAGE_HIGHLIGHT,\n",
   chars! "                                '.png': COLOR_IMAGE_HIGHLIGHT,\n",
   chars! "                                '.mov': COLOR_IMAGE_HIGHLIGHT,\n",
   chars! "                                '.avi': COLOR_IMAGE_HIGHLIGHT,\n",
   chars! "                                '.gif': COLOR_IMAGE_HIGHLIGHT\\}\n",
   chars! "COLOR_SCHEME.error = Color(5, 5, 0)\n",
   chars! "COLOR_SCHEME.process_pid = Color(0, 2, 4, BOLD)\n",
   chars! "COLOR_SCHEME.process_command = Color(3, 2, 0, BOLD)\n",
   chars! "COLOR_SCHEME.help_reference = Color(5, 3, 0)\n",
   chars! "COLOR_SCHEME.help_bold = COLOR_DOC_BOLD\n",
   chars! "COLOR_SCHEME.help_italic = COLOR_DOC_ITALIC\n",
   chars! "COLOR_SCHEME.help_name = Color(3, 3, 5)\n",
   chars! "\n",
   chars! "Notes:\n",
   chars! "\n",
   chars! "{L}- The {r:file_...} entries control how {n:File} objects are displayed in a\n"],
  [chars! "     detailed listing (e.g., obtained by the {n:ls} operator. Run \n",
   chars! "     {n:help object} for more information on how builtin objects are \n",
   chars! "     displayed and colorized).\n",
   chars! "{L}- The {r:COLOR_SCHEME.file_extension} key is bound to a Python dict which maps\n",
   chars! "     file extensions to colors. \n",
   chars! "{L}- {r:error} is the color used for printing {n:Error} objects by the {n:out} operator.\n",
   chars! "{L}- {r:process_...} entries control the display of {n:Process} objects.\n",
   chars! "{L}- {r:help_...} entries control colorization of {n:help} text, (like the text you are \n",
   chars! "     reading right now).\n",
   chars! "{L}- A {n:Color} can be constructed, or assigned from a variable.\n",
   chars! "\n"]]

/-- doc/help_command.py 16-145 -/
def doc_command : List (List Str) := [
  [chars! "\n",
   chars! "A marcel {i:command} is what you type following the prompt. A command may \n",
   chars! "be a single marcel operator, or host OS executable, or it can combine several\n",
   chars! "of these via piping, (run {n:help pipeline} for more information on this topic). \n",
   chars! "A single marcel command may span multiple lines. The Enter key ends a command. Alt-Enter\n",
   chars! "allows you to continue your command on a new line.\n",
   chars! "Marcel operators and host OS executables are distinguished as follows:\n",
   chars! "\n",
   chars! "{L,indent=4:4}{i:Marcel operator:} An operator that is built into marcel. In its most \n",
   chars! "general form, an operator receives an input stream containing Python tuples,\n",
   chars! "and writes an output stream containing Python tuples. Every marcel operator\n",
   chars! "provides documentation via the {r:help}\n"],
  [chars! "command. For more information on operators in general, run {n:help operator}.\n",
   chars! "\n",
   chars! "{L,indent=4:4}{i:Host executable:} Host executables can be executed, as with any other\n",
   chars! "shell. Many such executables can read and write streams of strings, which can\n",
   chars! "be carried by marcel pipes.\n",
   chars! "\n",
   chars! "{b:Operators}\n",
   chars! "\n",
   chars! "A marcel operator does one well-defined thing. For example, the {n:map} operator\n",
   chars! "applies a function to each tuple arriving on its input stream, and writes the result\n",
   chars! "to the output stream. {n:map} does not concern itself with printing these results -- that \n",
   chars! "would be done by using the {n:write} operator later in the pipeline.\n",
   chars! "\n",
   chars! "Many host OS commands have large collections of flags and options controlling the selection\n"],
  [chars! "and printing of relevant information. Marcel aims for simpler operators, and relies on\n",
   chars! "piping and general-purpose operators for selection and formatting. For example, the Linux\n",
   chars! "command {n:ls -rlt} does the following:\n",
   chars! "\n",
   chars! "{L}- Lists the contents of the current directory.\n",
   chars! "{L}- {r:-l} prodcues detailed information for each file.\n",
   chars! "{L}- {r:-t} orders output by the file's modification time.\n",
   chars! "{L}- {r:-r} reverses the order so that the most recently modified files are listed last.\n",
   chars! "\n",
   chars! "The marcel equivalent is:\n",
   chars! "\n",
   chars! "{L,wrap=F}ls | sort (f: f.mtime)\n",
   chars! "\n",
   chars! "{L}- {r:ls} lists the files in the current directory.\n",
   chars! "{L}- {r:sort (f: f.mtime)} sorts by file modification time.\n",
   chars! "\n",
   chars! "Reversing is not necessary because sorting already orders from oldest to newest.\n"],
  [chars! "But if you wanted the opposite order you could either sort by {r:-f.mtime}, or:\n",
   chars! "\n",
   chars! "{L,wrap=F}ls | sort (f: f.mtime) | reverse\n",
   chars! "\n",
   chars! "The output from marcel is similar to that obtained by the Linux {r:ls} command\n",
   chars! "with the {r:-l} flag.\n",
   chars! "\n",
   chars! "For more information on operators in general,\n",
   chars! "run {n:help operator}. \n",
   chars! "\n",
   chars! "The use of \"ls\" as the name of the marcel operator for listing files\n",
   chars! "needs some explaining: In some cases, the marcel operator has the same\n",
   chars! "name as a host OS executable with similar capabilities,\n",
   chars! "e.g. {n:ls}. This is intentional, as the host OS executable operates in\n",
   chars! "ways incompatible with marcel. (The host OS executable can still be\n",
   chars! "executed by using the {n:bash} command, e.g. {n:bash ls}.)\n",
   chars! "\n",
   chars! "{b:Assignment}\n"],
  [chars! "\n",
   chars! "Variables can be assigned in marcel as follows:\n",
   chars! "\n",
   chars! "{L}HELLO = hello\n",
   chars! "\n",
   chars! "(This is syntactic sugar for an invocation of the assignment\n",
   chars! "operator.)\n",
   chars! "\n",
   chars! "This assigns the string {r:\"hello\"} to the variable\n",
   chars! "{r:HELLO}. Following this assignment, the variable {r:HELLO} is\n",
   chars! "present in the marcel namespace, as can be seen by running the {n:env}\n",
   chars! "command.\n",
   chars! "\n",
   chars! "Note that the value of {r:hello} is of type str. Quoting would be\n",
   chars! "necessary for the usual reasons, e.g. if the string you want to assign\n",
   chars! "has whitespace in it.\n",
   chars! "\n",
   chars! "You can also assign values of other types by evaluating a function \n",
   chars! "computing a value of the correct type. E.g.\n",
   chars! "\n",
   chars! "{L}THREE = (1 + 2)\n",
   chars! "\n",
   chars! "{r:(1 + 2)} is a function which computes the integer 3, which is then assigned to \n"],
  [chars! "the variable {r:THREE}. \n",
   chars! "\n",
   chars! "Run {n:help function} for more information on functions.\n",
   chars! "\n",
   chars! "{b:Executables}\n",
   chars! "\n",
   chars! "Executables can be run from marcel, just as in any other shell. stdout\n",
   chars! "and stderr from an executable can flow into a marcel pipeline, and will show up \n",
   chars! "as a stream of strings, each terminated by \\\\n. Similarly, a marcel pipeline can\n",
   chars! "deliver data to an executable via stdin.\n",
   chars! "\n",
   chars! "{b:Combining operators and executables}\n",
   chars! "\n",
   chars! "Operators and executables can be mixed freely. For example, here is a\n",
   chars! "command sequence that lists the names of users whose shell is\n",
   chars! "{n:/bin/bash}.\n",
   chars! "\n",
   chars! "{p,wrap=F}\n",
   chars! "    cat /etc/passwd | \\\\\n",
   chars! "    map (line: line.split(':')) | \\\\\n",
   chars! "    select (*line: line[-1] == '/bin/bash') | \\\\\n",
   chars! "    map (*line: line[0]) | \\\\\n"],
  [chars! "    xargs echo\n",
   chars! "\n",
   chars! "The file {n:/etc/passwd} contains usernames and shell\n",
   chars! "executables. This file is written to {n:stdout} by using\n",
   chars! "the host OS executable {n:cat}. {n:stdout} then feeds into a sequence of\n",
   chars! "three marcel operators ({r:map}, {r:select}, and then {r:map} again), and the\n",
   chars! "output from these operators feeds into another host OS executable, {r:xargs}, which\n",
   chars! "uses invokes {r:echo}.\n",
   chars! "\n",
   chars! "Comments:\n",
   chars! "\n",
   chars! "{L}- {r:cat /etc/passwd}: Write each line of {r:/etc/passwd} to the output stream.\n",
   chars! "\n",
   chars! "{L}- {r:map (line: line.split(':'))}: Split the lines at the {n::} separators, yielding 7-tuples.\n",
   chars! "\n",
   chars! "{L}- {r:select (*line: line[-1] == '/bin/bash')}: Select those lines in which the last field is \n",
   chars! "{r:/bin/bash}.\n",
   chars! "\n",
   chars! "{L}- {r:map (*line: line[0])}: Keep the username field of each input tuple.\n"],
  [chars! "\n",
   chars! "{L}- {r:xargs echo}: Combine the incoming usernames into a single line, which is printed to {n:stdout}.\n",
   chars! "\n",
   chars! "{L}- {r:\\\\}: A line terminating in {r:\\\\} indicates that the command continues on the next line.\n"]]

/-- doc/help_configuration.py 16-44 -/
def doc_configuration : List (List Str) := [
  [chars! "\n",
   chars! "Marcel is configured and customized by running the startup script {n:startup.py}.\n",
   chars! "This script is typically located in the directory {n:~/.config/marcel/workspace/<WORKSPACE>},\n",
   chars! "for your current workspace. (If you have set the environment variable {n:XDG_CONFIG_HOME}\n",
   chars! "in the process that started marcel, that overrides ~/.config/marcel).\n",
   chars! "\n",
   chars! "In this script, you can \n",
   chars! "customize the prompt, output colorization, remote host configuration,\n",
   chars! "as well as defining any other symbols you would like to have\n",
   chars! "available. As usual, these symbols can be defined by imports, by\n",
   chars! "assigning variables, and by defining functions and classes.\n",
   chars! "\n",
   chars! "These symbols exist in an ordinary Python namespace, the {i:marcel\n",
   chars! "namespace}. This namespace is used when evaluating functions, (such as\n"],
  [chars! "are used in conjunction with the {n:map} and {n:select} operators).\n",
   chars! "Variables in the marcel namespace are equivalent to environment\n",
   chars! "variables in other shells. So, for example, the {n:USER} and {n:PWD}\n",
   chars! "variables are present in the marcel namespace, and identify the\n",
   chars! "current user and current directory, respectively.\n",
   chars! "\n",
   chars! "Further information can be obtained by running {n:help} on the\n",
   chars! "following topics:\n",
   chars! "\n",
   chars! "{L}- {n:color}: Customizing the color scheme.\n",
   chars! "{L}- {n:prompt}: Customizing the prompt.\n",
   chars! "{L}- {n:namespace}: Adding symbols to the marcel namespace.\n",
   chars! "{L}- {n:remote}: Configuring remote access.\n",
   chars! "{L}- {n:startup}: Running scripts on startup.\n"]]

/-- doc/help_file.py 16-76 -/
def doc_file : List (List Str) := [
  [chars! " \n",
   chars! "A {i:File} encapsulates a path,\n",
   chars! "e.g. {n:/home/jao/git/marcel/setup.py}.  Marcel's {n:ls} command\n",
   chars! "generates a stream of {n:File}s.  {n:File} provides a large set of\n",
   chars! "properties and functions for file path manipulations, and for\n",
   chars! "accessing file metadata and content.\n",
   chars! "\n",
   chars! "{b:Path functions}\n",
   chars! "\n",
   chars! "The standard Python module {n:pathlib} provides an extensive interface\n",
   chars! "operating on paths. While {n:File} is not a subclass of\n",
   chars! "{n:pathlib.Path}, it does offer the same functions. So, for example,\n",
   chars! "you can use {n:pathlib}'s {r:parts} property to break down a {n:File}'s path\n",
   chars! "into its components:\n",
   chars! "\n",
   chars! "{L,wrap=F}ls | map (file: file.parts)\n",
   chars! "\n",
   chars! "{b:File metadata}\n",
   chars! "\n",
   chars! "Since {n:pathlib.Path} does offer a {n:stat()} method, you can use it\n"],
  [chars! "to obtain file metadata. For example, to print name of each listed file,\n",
   chars! "along with its uid and gid:\n",
   chars! "\n",
   chars! "{L,wrap=F}ls | map (file: (file, file.stat())) | map (file, stat: (file, stat[4], stat[5]))\n",
   chars! "\n",
   chars! "{r:stat()} returns an {n:os.stat_result} object, which\n",
   chars! "has the uid and gid in positions 4 and 5.\n",
   chars! "\n",
   chars! "{n:File} also has convenience functions so that you don't have to invoke {r:stat()} directly\n",
   chars! "and then figure out how to obtain the metadata of interest from an {n:os.stat_result} object.\n",
   chars! "So the same result can be obtained as follows:\n",
   chars! "\n",
   chars! "{L,wrap=F}ls | map (file: (file, file.uid, file.gid))\n",
   chars! "\n",
   chars! "The following file metadata properties are available on {n:File}s:\n",
   chars! "\n",
   chars! "{L}- mode\n",
   chars! "{L}- inode\n",
   chars! "{L}- device\n",
   chars! "{L}- links\n",
   chars! "{L}- uid\n",
   chars! "{L}- gid\n",
   chars! "{L}- size\n",
   chars! "{L}- atime\n",
   chars! "{L}- ctime\n",
   chars! "{L}- mtime\n"],
  [chars! "\n",
   chars! "{r:atime}, {r:ctime}, and {r:mtime} return seconds since the epoch\n",
   chars! "(January 1, 1970). These can be used with the functions {n:now}, {n:hours},\n",
   chars! "and {n:minutes} to select files based on these times. For example, this\n",
   chars! "command finds files under {n:/etc} that have been modified in the past day:\n",
   chars! "\n",
   chars! "{L,wrap=F}ls -fr /etc | select (f: now() - f.mtime <= days(1))\n",
   chars! "\n",
   chars! "Run {n:help namespace} for more information on builtin functions.\n",
   chars! "\n",
   chars! "{b:File content}\n",
   chars! "\n",
   chars! "{n:File} has a {n:read} function, to read the contents of a file as a\n",
   chars! "single string. The function {n:readlines} returns a list of lines,\n",
   chars! "in which trailing newline characters are removed.  "]]

/-- doc/help_function.py 16-76 -/
def doc_function : List (List Str) := [
  [chars! "\n",
   chars! "Several marcel operators rely on {i:functions}. For example, you can\n",
   chars! "list {n:.mp3} files anywhere inside your home directory as follows:\n",
   chars! "\n",
   chars! "{L,wrap=F}ls -fr ~ | select (lambda f: f.suffix.lower() == '.mp3')\n",
   chars! "\n",
   chars! "{r:ls -fr ~} lists files only ({r:-f}), recursively ({r:-r}), starting with\n",
   chars! "the home directory ({r:~}). The {r:ls} operator yields {n:File} objects\n",
   chars! "which are then piped to the {r:select} operator.\n",
   chars! "\n",
   chars! "{r:select} has a function, delimited by parentheses. This function binds\n",
   chars! "each {n:File} arriving on the input stream, to the parameter {r:f}. The\n",
   chars! "function returns True if the {n:File}'s suffix is {n:.mp3}, False\n",
   chars! "otherwise. {n:File} objects support the {n:pathlib.Path} interface, so\n",
   chars! "{r:f.suffix} returns the extension of {n:File} {r:f}, (including the\n"],
  [chars! "dot). Then, {r:.lower()} converts the extension to lower case, and the\n",
   chars! "resulting string is compared to {r:.mp3}.\n",
   chars! "\n",
   chars! "All marcel operators that rely on functions use the same syntax demonstrated \n",
   chars! "here: The function is enclosed in parentheses; the parameters are bound\n",
   chars! "to components of incoming tuples. And in all cases, the {n:lambda} keyword\n",
   chars! "can be omitted. So the preceding example could be rewritten as:\n",
   chars! "\n",
   chars! "{L,wrap=F}ls -fr ~ | select (f: f.suffix.lower() == '.mp3')\n",
   chars! "\n",
   chars! "Marcel functions run in a namespace maintained by marcel. Run\n",
   chars! "{n:help namespace} for more information on this topic.\n",
   chars! "\n",
   chars! "{b:Evaluating functions to compute command arguments}\n",
   chars! "\n",
   chars! "Functions can also be used to compute the value of command arguments. For example,\n"],
  [chars! "to condense an input stream into groups of size 10, you can use the {n:window}\n",
   chars! "operator:\n",
   chars! "\n",
   chars! "{L,wrap=F}... | window --disjoint 10 | ...\n",
   chars! "\n",
   chars! "If your group size is stored in the {r:GROUP_SIZE} variable, you could obtain\n",
   chars! "the value of the variable by using a function:\n",
   chars! "\n",
   chars! "{L,wrap=F}... | window --disjoint (GROUP_SIZE) | ...\n",
   chars! "\n",
   chars! "Recall that marcel allows omission of the {n:lambda} keyword, so {r:(GROUP_SIZE)}\n",
   chars! "is equivalent to {r:(lambda: GROUP_SIZE)}, i.e., a function of zero arguments\n",
   chars! "that returns the value of the {r:GROUP_SIZE} variable. That variable\n",
   chars! "is present in the marcel namespace, and so is available to the function\n",
   chars! "being executed.\n",
   chars! "\n",
   chars! "{b:Marcel as a calculator}\n",
   chars! "\n",
   chars! "You can also evaluate a function as the first command in a pipeline. This\n"],
  [chars! "allows you to use marcel as a calculator, e.g. \n",
   chars! "\n",
   chars! "{L}(hex(123))\n",
   chars! "\n",
   chars! "This is shorthand for:\n",
   chars! "\n",
   chars! "{L}map (lambda: hex(123))\n",
   chars! "\n",
   chars! "which runs the builtin Python function {r:hex} with the input {r:123}, and prints\n",
   chars! "the result, {r:0x7b}.\n"]]

/-- doc/help_history_record.py 16-44 -/
def doc_history_record : List (List Str) := [
  [chars! "\n",
   chars! "The {n:history} operator prints previously run commands, e.g.\n",
   chars! "\n",
   chars! "{p,wrap=F,indent=4}\n",
   chars! "M jao@cheese:~$ history\n",
   chars! "...\n",
   chars! "  418:  cd ../..\n",
   chars! "  419:  git status\n",
   chars! "  420:  git diff > /tmp/marcel.diff\n",
   chars! "  421:  git commit -a\n",
   chars! "\n",
   chars! "This is done by generating a stream of {n:HistoryRecord} objects,\n",
   chars! "which are then printed by an implicit {n:out} operator.\n",
   chars! "The purpose of providing {n:HistoryRecord}s (instead of tuples) is to\n",
   chars! "benefit from marcel's rendering capabilities. {n:HistoryRecord}'s rendering\n",
   chars! "methods format and colorize the objects, allowing for more readable output\n",
   chars! "from the {n:history} operator.\n",
   chars! "\n",
   chars! "As usual, you can process the objects in this stream with other operators.\n",
   chars! "A {n:HistoryRecord} object has two properties:\n"],
  [chars! "\n",
   chars! "{L,indent=4:6}- {r:id}: The identifier of the command within the history.\n",
   chars! "{L,indent=4:6}- {r:command}: The command itself.\n",
   chars! "\n",
   chars! "E.g., to select git commands from the command history:\n",
   chars! "\n",
   chars! "{p,wrap=F,indent=4}\n",
   chars! "history | select (h: 'git' in h.command)\n"]]

/-- doc/help_interaction.py 16-92 -/
def doc_interaction : List (List Str) := [
  [chars! "\n",
   chars! "You interact with marcel in the same way as other shells. You run\n",
   chars! "commands, you can recall the job history, you can edit and rerun\n",
   chars! "commands from the history, and you can run jobs in the foreground or\n",
   chars! "background.\n",
   chars! "\n",
   chars! "{b:Running commands}\n",
   chars! "\n",
   chars! "Marcel can accept a command when the prompt is present. Otherwise, a command is\n",
   chars! "running. You can kill a foreground command at any time by pressing Ctrl-C.\n",
   chars! "\n",
   chars! "In general, the traditional keyboard interactions for a Linux shell can be used,\n",
   chars! "e.g.\n",
   chars! "\n",
   chars! "{L,indent=4:6}- Left and right arrows for navigating within a command.\n",
   chars! "{L,indent=4:6}- Up and down arrows for traversing command history.\n",
   chars! "{L,indent=4:6}- Ctrl-A to go to the beginning of the current command\n",
   chars! "{L,indent=4:6}- Ctrl-E to go to the end of the current command.\n",
   chars! "{L,indent=4:6}- Ctrl-K to delete everything to the end of the current command.\n",
   chars! "{L,indent=4:6}- Ctrl-U to delete everything to the beginning of the current command.\n",
   chars! "{L,indent=4:6}- Ctrl-W to delete the preceding word.\n",
   chars! "{L,indent=4:6}- Ctrl-R to search the command history.\n"],
  [chars! "\n",
   chars! "For a multi-line command, type a \\\\ and then hit return. You will then see a\n",
   chars! "{i:continuation prompt}, following each line ending with a \\\\. (Run {n:help prompt} \n",
   chars! "for more information on prompts.)\n",
   chars! "\n",
   chars! "All text following a {n:#} on the command line is ignored, i.e., the text\n",
   chars! "following the {n:#} is considered to be a comment. This is useful in scripts\n",
   chars! "loaded on startup (run {n:help startup} for more information); and to stash a long\n",
   chars! "command in history for later use.\n",
   chars! "\n",
   chars! "\n",
   chars! "{b:Command history}\n",
   chars! "\n",
   chars! "A history of commands entered to marcel is maintained. You can examine this history\n",
   chars! "by running the {n:history} command. Each command has a numeric id preceding it.\n",
   chars! "The history is printed in chronological order, and larger numeric ids correspond\n"],
  [chars! "to more recent commands. Example:\n",
   chars! "\n",
   chars! "{p,wrap=F,indent=4}\n",
   chars! "M jao@cheese:~$ history\n",
   chars! "...\n",
   chars! "  418:  cd ../..\n",
   chars! "  419:  git status\n",
   chars! "  420:  git diff > /tmp/marcel.diff\n",
   chars! "  421:  git commit -a\n",
   chars! " \n",
   chars! "{b:Editing commands}\n",
   chars! "\n",
   chars! "You can edit previous command using your editor of choice, configured using the\n",
   chars! "{n:EDITOR} environment variable (defined in either marcel's environment,\n",
   chars! "or inherited from parent process).\n",
   chars! "\n",
   chars! "To edit the previous command run the {n:edit} command.\n",
   chars! "To edit a different command run the {n:edit} command, and provide the command number\n",
   chars! "from the command history.\n",
   chars! "\n",
   chars! "Once you have saved the edited file, you will see a prompt and the modified command.\n",
   chars! "You can then edit the command further on the command line, or hit enter to execute it.\n"],
  [chars! "\n",
   chars! "{b:Foreground and background}\n",
   chars! "\n",
   chars! "Marcel will wait for a command to complete execution before providing\n",
   chars! "another prompt. I.e., the command runs in the {i:foreground}. You can suspend\n",
   chars! "this command by typing Ctrl-Z. The job then goes into the {i:background}, in a suspended\n",
   chars! "state. You are then provided with a prompt, allowing you to initiate another command\n",
   chars! "(which will run in the foreground).\n",
   chars! "\n",
   chars! "The {n:jobs} command will list all current jobs. (Those will all be in the background\n",
   chars! "since the {n:jobs} command itself was running in the foreground when it produced\n",
   chars! "the list of commands.)\n",
   chars! "\n",
   chars! "To resume a suspended background job in the background, use the {n:bg} command, identifying the\n",
   chars! "job by its job number. The job will start running again, but in the background. \n"],
  [chars! "The {n:fg} command will run a suspended job, placing it in the foreground.\n"]]

/-- doc/help_marcel.py 16-57 -/
def doc_marcel : List (List Str) := [
  [chars! "\n",
   chars! "To learn more about a topic, run the command:\n",
   chars! "\n",
   chars! "{L}help TOPIC\n",
   chars! "\n",
   chars! "{b:Overview:}\n",
   chars! "\n",
   chars! "Run {n:help overview} to start learning about marcel. Or run {n:help}\n",
   chars! "on these introductory topics:\n",
   chars! "\n",
   chars! "{L,indent=4:12}- {n:configuration}: How to customize and configure marcel.\n",
   chars! "{L,indent=4:12}- {n:interaction}: Interacting with marcel.\n",
   chars! "{L,indent=4:12}- {n:command}: Marcel operators, host OS executables.\n",
   chars! "{L,indent=4:12}- {n:function}: The use of functions in marcel commands.\n",
   chars! "{L,indent=4:12}- {n:pipeline}: The main structuring mechanism of marcel, relying on pipes \n",
   chars! "as in other shells.\n",
   chars! "{L,indent=4:12}- {n:object}: The data operated on by commands, and carried by pipes.\n",
   chars! "\n",
   chars! "{b:Objects:}\n",
   chars! "\n",
   chars! "{p,wrap=F}\n",
   chars! "    - {n:file}\n",
   chars! "    - {n:history_record}\n"],
  [chars! "    - {n:process}\n",
   chars! "\n",
   chars! "{b:Operators:}\n",
   chars! "\n",
   chars! "{p,wrap=F}\n",
   chars! "    - {n:args}        - {n:bash}        - {n:bg}          - {n:case}\n",
   chars! "    - {n:cast}        - {n:cd}          - {n:difference}  - {n:dirs}\n",
   chars! "    - {n:edit}        - {n:env}         - {n:exit}        - {n:expand}\n",
   chars! "    - {n:fg}          - {n:filter}      - {n:gen}         - {n:head}\n",
   chars! "    - {n:help}        - {n:history}     - {n:import}      - {n:intersect}\n",
   chars! "    - {n:jobs}        - {n:join}        - {n:load}        - {n:ls}\n",
   chars! "    - {n:map}         - {n:popd}        - {n:ps}          - {n:pushd}\n",
   chars! "    - {n:pwd}         - {n:read}        - {n:red}         - {n:remote}\n",
   chars! "    - {n:reverse}     - {n:run}         - {n:select}      - {n:sort}\n",
   chars! "    - {n:sql}         - {n:squish}      - {n:store}       - {n:sudo} \n"],
  [chars! "    - {n:tail}        - {n:timer}       - {n:trace}       - {n:unique}\n",
   chars! "    - {n:union}       - {n:version}     - {n:window}      - {n:write}\n",
   chars! "    - {n:ws}\n"]]

/-- doc/help_namespace.py 16-76 -/
def doc_namespace : List (List Str) := [
  [chars! "\n",
   chars! "Python code always runs in the context of a namespace. The {i:marcel namespace}\n",
   chars! "is the namespace used by marcel to execute user-supplied code. During startup, \n",
   chars! "the configuration script is executed (run {n:help configuration}\n",
   chars! "for details on the location of the startup script). At this point, the \n",
   chars! "marcel namespace contains a few variables (such as {n:USER}, {n:HOME},\n",
   chars! "and {n:PROMPT}), and functions for configuring access to various\n",
   chars! "resources (e.g. {n:cluster()}).\n",
   chars! "\n",
   chars! "The configuration script is ordinary Python code, so you can use\n",
   chars! "{n:import} statements to add symbols from modules, and define your own\n",
   chars! "variables, functions and classes for use in marcel commands. Examples follow.\n",
   chars! "\n",
   chars! "{b:Imports:}\n",
   chars! "\n",
   chars! "You can use marcel as a calculator, by using the {n:map} command,\n"],
  [chars! "specifying a function with no arguments.\n",
   chars! "\n",
   chars! "{p,wrap=F,indent=4}\n",
   chars! "    {c500b:M} {c021b:jao@cheese}:{c033b:~$} map (5 + 7)\n",
   chars! "    12\n",
   chars! "\n",
   chars! "To compute the golden ratio:\n",
   chars! "{p,wrap=F,indent=4}\n",
   chars! "    {c500b:M} {c021b:jao@cheese}:{c033b:~$} map ((1 + sqrt(5)) / 2)\n",
   chars! "    {c550:Error(map((1 + sqrt(5)) / 2) failed on : name 'sqrt' is not defined}\n",
   chars! "\n",
   chars! "This fails because {r:sqrt} is not a builtin function in Python. It comes from\n",
   chars! "the {n:math} module. If this line is added to {n:startup.py}:\n",
   chars! "{p,wrap=F,indent=4}\n",
   chars! "    from math import sqrt\n",
   chars! "\n",
   chars! "then {r:sqrt} can be used:\n",
   chars! "{p,wrap=F,indent=4}\n",
   chars! "    {c500b:M} {c021b:jao@cheese}:{c033b:~$} map ((1 + sqrt(5)) / 2)\n",
   chars! "    1.618033988749895\n",
   chars! "\n",
   chars! "You should probably include {n:import marcel.builtin} in your configuration\n"],
  [chars! "file. This includes a collection of functions useful for shell operations.\n",
   chars! "Run {n:help builtin} for more information.\n",
   chars! "\n",
   chars! "{b:Definitions:}\n",
   chars! "\n",
   chars! "You can also define symbols in the usual way, assigning variables,\n",
   chars! "defining functions and classes. Any symbols you define will be available\n",
   chars! "in your marcel commands.\n",
   chars! "\n",
   chars! "For example, if you put this code in your configuration script:\n",
   chars! "{p,wrap=F,indent=4}\n",
   chars! "    import time\n",
   chars! "    def current_time():\n",
   chars! "        return time.asctime(time.gmtime())\n",
   chars! "\n",
   chars! "Then you can use the {r:current_time} function in your commands, e.g.\n",
   chars! "{p,wrap=F,indent=4}\n",
   chars! "    {c500b:M} {c021b:jao@cheese}:{c033b:~$} timer 1 | map (t: (current_time(), t))\n",
   chars! "    ('Sat Apr 25 17:58:31 2020', 1587837511.0)\n",
   chars! "    ('Sat Apr 25 17:58:32 2020', 1587837512.0)\n"],
  [chars! "    ('Sat Apr 25 17:58:33 2020', 1587837513.0)\n",
   chars! "    ...\n"]]

/-- doc/help_object.py 16-62 -/
def doc_object : List (List Str) := [
  [chars! "\n",
   chars! "Marcel provides types representing \n",
   chars! "hosts, processes, and files and directories. \n",
   chars! "\n",
   chars! "{b:Rendering objects}\n",
   chars! "\n",
   chars! "Objects sometimes need to be described textually. For example, the\n",
   chars! "{n:ls} command produces a stream of {n:File} objects.\n",
   chars! "Every pipeline has an implicit {n:out} operator at the end,\n",
   chars! "and when {n:out} receives a {n:File}, it uses one of two {i:rendering}\n",
   chars! "functions:\n",
   chars! "\n",
   chars! "{L}- {n:render_full()} is called when the object is transmitted to {n:out} in\n",
   chars! "a 1-tuple, i.e., it is the only thing being printed.\n",
   chars! "\n",
   chars! "{L}- {n:render_compact()} is called when the object is part of an\n",
   chars! "n-tuple, n > 1.\n",
   chars! "\n",
   chars! "For example, the command {n:ls /bin/less*} produces this output, by calling {n:File.render_full()}\n",
   chars! "\n",
   chars! "{L,wrap=F,indent=4:4}\n"],
  [chars! "-rwxr-xr-f   root     root           170760   2018 May 03 10:16:28   less\n",
   chars! "-rwxr-xr-f   root     root            10256   2018 May 03 10:16:28   lessecho\n",
   chars! "lrwxrwxrwx   root     root                8   2018 May 03 10:16:28   lessfile -> lesspipe\n",
   chars! "-rwxr-xr-f   root     root            19856   2018 May 03 10:16:28   lesskey\n",
   chars! "-rwxr-xr-f   root     root             8564   2018 May 03 10:16:28   lesspipe\n",
   chars! "\n",
   chars! "But if the tuple carrying a {n:File} to {n:out} has other values too, then\n",
   chars! "{n:File.render_compact()} is used. So the command {n:ls /bin/less* | map (f: (f, f.size)}\n",
   chars! "produces this output:\n",
   chars! "\n",
   chars! "{L,wrap=F,indent=4:4}\n",
   chars! "('less', 170760)\n",
   chars! "('lessecho', 10256)\n",
   chars! "('lessfile', 8)\n",
   chars! "('lesskey', 19856)\n",
   chars! "('lesspipe', 8564)\n",
   chars! "\n",
   chars! "\n",
   chars! "{b:Object types}\n"],
  [chars! "\n",
   chars! "Use the {n:help} command to get more information on the following kinds of objects:\n",
   chars! "\n",
   chars! "{L}- {n:file}\n",
   chars! "{L}- {n:process}\n",
   chars! "{L}- {n:history_record}\n"]]

/-- doc/help_operator.py 16-139 -/
def doc_operator : List (List Str) := [
  [chars! " \n",
   chars! "Marcel {i:operators} take streams of Python values as input and generate streams of\n",
   chars! "Python values as output. Operators are thus combined via pipes, as in more conventional shells (which are limited\n",
   chars! "to passing textual data).\n",
   chars! "\n",
   chars! "{b:Command-line arguments:}\n",
   chars! "\n",
   chars! "In general, an operator has a number of command-line arguments,\n",
   chars! "comprising flags, flags followed by values, and anonymous values (i.e., not preceded by a flag). Flags\n",
   chars! "have long and short forms.\n",
   chars! "\n",
   chars! "For example, the {n:gen} command has three arguments:\n",
   chars! "\n",
   chars! "{L,wrap=F}gen [-p|--pad PAD] [COUNT [START]]\n",
   chars! "\n",
   chars! "{L,indent=4:28}{r:-p,} {r:--pad}               Specifies the width of the padded output.\n",
   chars! "\n",
   chars! "{L,indent=4:28}{r:COUNT}                   The number of integers to be written to output. \n"],
  [chars! "\n",
   chars! "{L,indent=4:28}{r:START}                   The first integer to be written to output. \n",
   chars! "\n",
   chars! "{b:Input and output streams:}\n",
   chars! "\n",
   chars! "An operator may receive input from a preceding command through a pipe, and\n",
   chars! "send output to a succeeding operator through a pipe. The {n:gen} command\n",
   chars! "does not require an input stream, but it does generate output. For example,\n",
   chars! "{n:gen 5} generates the stream 0, 1, 2, 3, 4.\n",
   chars! "\n",
   chars! "Streams always carry tuples between commands. Often, these are\n",
   chars! "1-tuples.  For example, the {n:ls} operator generates a stream\n",
   chars! "containing {n:File} objects, each wrapped in a 1-tuple. When a host OS\n",
   chars! "executable is run, its {n:stdout} is conveyed to the next command by\n",
   chars! "wrapping strings (separated by \\\\n characters) in 1-tuples. Marcel\n"],
  [chars! "operators can generate n-tuples, with n > 1. For example, this command\n",
   chars! "sequence lists files (only, no directories or symlinks) in the current\n",
   chars! "directory, and uses the {r:map} operator to generate a stream of\n",
   chars! "filename and file size values:\n",
   chars! "\n",
   chars! "{p,wrap=F,indent=4}ls -f | map (f: (f.name, f.size))\n",
   chars! "\n",
   chars! "{b:Obtaining output}\n",
   chars! "\n",
   chars! "The only marcel operator that writes output is {n:write}. Every command sequence\n",
   chars! "has an {n:write} at the end, implicitly if necessary. By default, {n:ouwritet} simply uses\n",
   chars! "the Python {n:str} method to generate its output. For example, the above command \n",
   chars! "sequence generates output that looks like this (for {n:/etc/sysctl.d}):\n",
   chars! "\n",
   chars! "{p,wrap=F,indent=4}\n",
   chars! "('10-console-messages.conf', 77)\n",
   chars! "('10-ipv6-privacy.conf', 490)\n"],
  [chars! "('10-kernel-hardening.conf', 726)\n",
   chars! "('10-link-restrictions.conf', 257)\n",
   chars! "('10-magic-sysrq.conf', 1184)\n",
   chars! "('10-network-security.conf', 158)\n",
   chars! "('10-pop-default-settings.conf', 19)\n",
   chars! "('10-ptrace.conf', 1292)\n",
   chars! "('10-zeropage.conf', 506)\n",
   chars! "('30-postgresql-shm.conf', 462)\n",
   chars! "('README.sysctl', 792)\n",
   chars! "('protect-links.conf', 324)\n",
   chars! "\n",
   chars! "The {n:write} command can be made explicit to add formatting and redirection options.\n",
   chars! "For example, to format the above output differently:\n",
   chars! "\n",
   chars! "{p,wrap=F,indent=4}\n",
   chars! "ls -f | map (f: (f.name, f.size)) | out '\\{\\}: \\{\\}'\n",
   chars! "\n",
   chars! "The standard Python formatting string, '\\{\\}: \\{\\}' produces this output:\n",
   chars! "\n",
   chars! "{p,wrap=F,indent=4}\n",
   chars! "10-console-messages.conf: 77\n",
   chars! "10-ipv6-privacy.conf: 490\n",
   chars! "10-kernel-hardening.conf: 726\n",
   chars! "10-link-restrictions.conf: 257\n"],
  [chars! "10-magic-sysrq.conf: 1184\n",
   chars! "10-network-security.conf: 158\n",
   chars! "10-pop-default-settings.conf: 19\n",
   chars! "10-ptrace.conf: 1292\n",
   chars! "10-zeropage.conf: 506\n",
   chars! "30-postgresql-shm.conf: 462\n",
   chars! "README.sysctl: 792\n",
   chars! "protect-links.conf: 324\n",
   chars! "\n",
   chars! "Run {n:help out} for more information on the {n:out} command.\n",
   chars! "\n",
   chars! "{b:Error handling}\n",
   chars! "\n",
   chars! "In a major departure from other shells, marcel does not support the\n",
   chars! "concept of {n:stdout} and {n:stderr}. Instead, errors are written to the\n",
   chars! "operator's output stream as an object of type\n",
   chars! "{n:marcel.object.Error}. {n:Error}s are not passed through operators. Instead\n",
   chars! "they are forwarded from one stream to the next, until a {n:write} operator is encountered.\n",
   chars! "At that point, the {n:Error} is printed and then not passed further downstream.\n"],
  [chars! "\n",
   chars! "For example, suppose directory {n:/tmp/d} contains three directories:\n",
   chars! "\n",
   chars! "{p,wrap=F,indent=4}\n",
   chars! "M jao@cheese:/tmp/d$ ls\n",
   chars! "rwxr-xr-f jao      jao              4096 /tmp/d/hi\n",
   chars! "r-------- root     root             4096 /tmp/d/nope\n",
   chars! "rwxr-xr-f jao      jao              4096 /tmp/d/welcome\n",
   chars! "\n",
   chars! "The {r:nope} directory cannot be visited, due to permissions. If we try\n",
   chars! "to list all files and directories recursively:\n",
   chars! "\n",
   chars! "{p,wrap=F,indent=4}\n",
   chars! "M jao@cheese:/tmp/d$ ls -r\n",
   chars! "drwxr-xr-f jao      jao              4096 /tmp/d/hi\n",
   chars! "-rw-r--r-- jao      jao                 0 /tmp/d/hi/a.txt\n",
   chars! "-rw-r--r-- jao      jao                 0 /tmp/d/hi/b.txt\n",
   chars! "dr-------- root     root             4096 /tmp/d/nope\n",
   chars! "{c550:Error(Cannot explore /tmp/d/nope: permission denied)}\n"],
  [chars! "drwxr-xr-f jao      jao              4096 /tmp/d/welcome\n",
   chars! "-rw-r--r-- jao      jao                 0 /tmp/d/welcome/c.txt\n",
   chars! "-rw-r--r-- jao      jao                 0 /tmp/d/welcome/d.txt\n",
   chars! "\n",
   chars! "Notice that the {r:nope} directory is listed as before, but we get an\n",
   chars! "error on the attempt to go inside of it. The position of\n",
   chars! "the {r:Error} in the output indicates when the\n",
   chars! "attempt was made -- between listing the {r:hi} and {r:welcome} directories.\n",
   chars! "\n",
   chars! "For host OS executables, each line of {n:stderr} is turned into an {n:Error}\n",
   chars! "and written to the same stream receiving {n:stdout}.\n"]]

/-- doc/help_overview.py 16-45 -/
def doc_overview : List (List Str) := [
  [chars! "\n",
   chars! "Marcel is a shell. As in any Linux or UNIX shell, there are commands which\n",
   chars! "can be executed, and the output from one command\n",
   chars! "can be piped to another.  The conventional piping syntax is used: {n:|}. Linux/UNIX\n",
   chars! "pipes stream unstructured text between commands. In marcel, streams\n",
   chars! "carry arbitrary Python values.\n",
   chars! "\n",
   chars! "Marcel is implemented in, and based on the Python language. Whereas\n",
   chars! "other shells invent new languages for control constructs, expressions,\n",
   chars! "and so on, marcel simply relies on Python. So the {n:map} operator takes\n",
   chars! "a stream of Python objects as input, and generates a stream of Python\n",
   chars! "objects as output. Each output object is computed by applying a Python\n",
   chars! "function to an input object. For example, this marcel code generates\n"],
  [chars! "a sequence of 100 integers, 0 through 99, and, outputs the each number\n",
   chars! "along with its square root:\n",
   chars! "\n",
   chars! "{p,wrap=F}\n",
   chars! "    gen 100 | map (lambda f: (f, f**0.5))\n",
   chars! "\n",
   chars! "Note that the Python function, mapping {r:f} to the tuple {r:(f, f**0.5)}\n",
   chars! "is enclosed in parentheses, as is the case whenever a function is\n",
   chars! "required. Marcel permits the {n:lambda} keyword to be omitted.\n",
   chars! "\n",
   chars! "The following topics will explain these concepts in more detail:\n",
   chars! "\n",
   chars! "{p,wrap=F}\n",
   chars! "    - {n:command}\n",
   chars! "    - {n:function}\n",
   chars! "    - {n:pipeline}\n"]]

/-- doc/help_pipeline.py 16-89 -/
def doc_pipeline : List (List Str) := [
  [chars! "\n",
   chars! "A {i:pipeline} is a sequence of marcel operators connected by pipes.\n",
   chars! "Each marcel command, other than an assignment statement, is a pipeline.\n",
   chars! "\n",
   chars! "{b:A pipeline can be an argument to an operator}\n",
   chars! "\n",
   chars! "A pipeline can also appear as an argument for some operators.\n",
   chars! "In this case, the pipeline is bracketed: using {n:(|...|)} \n",
   chars! "For example, this pipeline lists the sum of file sizes under \n",
   chars! "{n:/tmp}:\n",
   chars! "\n",
   chars! "{p,wrap=F}\n",
   chars! "    ls -fr /tmp | map (f: f.size) | red +\n",
   chars! "\n",
   chars! "To run this command on a remote host named {n:fred}:\n",
   chars! "\n",
   chars! "{p,wrap=F}\n",
   chars! "    @fred (| ls -fr /tmp | map (f: f.size) | red + |)\n",
   chars! "\n",
   chars! "Comments:\n",
   chars! "\n",
   chars! "{L}- {r:@fred}: The name {r:fred} has been configured to refer to some host, and to \n",
   chars! "provide login credentials.\n",
   chars! "{L}- {r:(|...|)}: The pipeline to be executed on {r:fred} is delimited by {r:(|...|)}\n",
   chars! "{L}- The output includes the name of the host on which the command executed, e.g.\n",
   chars! "{n:(fred, 1366422)}\n"],
  [chars! "\n",
   chars! "The summation could also done locally, by returning the file sizes, and\n",
   chars! "then doing the summation:\n",
   chars! "\n",
   chars! "{p,wrap=F}\n",
   chars! "    @fred (| ls -fr /tmp |) | map (host, file: file.size) | red +\n",
   chars! "\n",
   chars! "Comments:\n",
   chars! "\n",
   chars! "{L}- The remote command returns (host, {n:File}) tuples.\n",
   chars! "{L}- {r:map (host, file: file.size)}: This function discards the host information, \n",
   chars! "      and extracts the size of the {n:File}. (The file's size was captured remotely \n",
   chars! "      and returned with the {n:File} object.)\n",
   chars! "\n",
   chars! "{b:A pipeline can be used to define a new operator}\n",
   chars! "\n",
   chars! "A pipeline can also be assigned to a variable, essentially creating a\n",
   chars! "new operator. For example, this command assigns a pipeline to the {r:recent}\n",
   chars! "variable:\n",
   chars! "\n",
   chars! "{L,wrap=F}recent = (| select (file: now() - file.mtime < days(1)) |)\n"],
  [chars! "\n",
   chars! "Explanation:\n",
   chars! "\n",
   chars! "{L}- {r:select(file: ...)} The pipeline uses the {r:select} operator to take\n",
   chars! "{n:File}s as input, and keep those that have been changed in the past day.\n",
   chars! "{L}- {r:now()} is a function provided by marcel, which simply runs {n:time.time()}. I.e.,\n",
   chars! "it returns the number of seconds since the epoch.\n",
   chars! "{L}- {r:file.mtime}: {n:File} defines the {n:mtime} property, which is the time of the\n",
   chars! "{n:File}s last modification.\n",
   chars! "{L}- {r:days(1)} returns the number of seconds in 1 day.\n",
   chars! "\n",
   chars! "In other words, this pipeline expects {n:File}s to be piped in, and it keeps those\n",
   chars! "that have been modified in the past day. This can be used with any source of {n:File}s, \n",
   chars! "e.g.\n",
   chars! "\n",
   chars! "{L,wrap=F}ls -fr | recent\n",
   chars! "\n",
   chars! "This command lists all files inside the current directory,\n"],
  [chars! "recursively, and prints out those that changed within the past day.\n",
   chars! "\n",
   chars! "Pipelines can be parameterized. So to generalize the {n:recent} pipeline to\n",
   chars! "go back {n:d} days instead of 1:\n",
   chars! "\n",
   chars! "{L,wrap=F}recent = (| d: select (file: now() - file.mtime < days(float(d))) |)\n",
   chars! "{L,wrap=F}ls -fr | recent 3\n",
   chars! "\n"]]

/-- doc/help_process.py 16-54 -/
def doc_process : List (List Str) := [
  [chars! " \n",
   chars! "\n",
   chars! "A {i:Process} represents an operating system process.  Marcel's {n:ps}\n",
   chars! "command generates a stream of {n:Process}es. {n:Process} provides a\n",
   chars! "set of properties and functions for obtaining information on processes.\n",
   chars! "\n",
   chars! "{b:Process properties}\n",
   chars! "\n",
   chars! "A {n:Process} is based on an object of the same name from the\n",
   chars! "{n:psutil} module. The properties of {n:Process} derived from {n:psutil}\n",
   chars! "are:\n",
   chars! "\n",
   chars! "{L, indent=4:6}- {n:cmdline}\n",
   chars! "{L, indent=4:6}- {n:cpu_percent}\n",
   chars! "{L, indent=4:6}- {n:cpu_times}\n",
   chars! "{L, indent=4:6}- {n:create_time}\n",
   chars! "{L, indent=4:6}- {n:cwd}\n",
   chars! "{L, indent=4:6}- {n:environ}\n",
   chars! "{L, indent=4:6}- {n:exe}\n",
   chars! "{L, indent=4:6}- {n:gids}\n",
   chars! "{L, indent=4:6}- {n:memory_info}\n",
   chars! "{L, indent=4:6}- {n:name}\n",
   chars! "{L, indent=4:6}- {n:pid}\n",
   chars! "{L, indent=4:6}- {n:ppid}\n",
   chars! "{L, indent=4:6}- {n:status}\n",
   chars! "{L, indent=4:6}- {n:username}\n",
   chars! "{L, indent=4:6}- {n:uids}\n"],
  [chars! "\n",
   chars! "Consult {n:psutil} documentation for information on these properties. In addition, the {n:command}\n",
   chars! "property returns the process command line as a single string, ({n:cmdline} returns a list of strings).\n",
   chars! "\n",
   chars! "{b:Process methods}\n",
   chars! "\n",
   chars! "A signal can be sent to a process by using the {n:signal} function. For example,\n",
   chars! "to attempt to kill all processes owned by user \"djt\":\n",
   chars! "\n",
   chars! "{p,wrap=F,indent=4}\n",
   chars! "ps -u djt | map (p: p.signal(9))\n"]]

/-- doc/help_prompt.py 16-61 -/
def doc_prompt : List (List Str) := [
  [chars! "\n",
   chars! "The default marcel prompt is {n:$}. \n",
   chars! "You can customize the prompt by calling the {r:set_prompt} function\n",
   chars! "in your configuration script, (run\n",
   chars! "{n:help configuration} for more information on configuration). For example:\n",
   chars! "\n",
   chars! "{p,wrap=F,indent=4}\n",
   chars! "set_prompt(\n",
   chars! "    Color(5, 0, 0, BOLD),\n",
   chars! "    'M ',\n",
   chars! "    Color(1, 2, 4, BOLD),\n",
   chars! "    USER,\n",
   chars! "    '@',\n",
   chars! "    HOST,\n",
   chars! "    Color(5, 5, 5),\n",
   chars! "    ':',\n",
   chars! "    Color(0, 3, 3, BOLD),\n",
   chars! "    lambda: ('~' + PWD[len(HOME):]) if PWD.startswith(HOME) else PWD,\n",
   chars! "    '$ ')\n",
   chars! "\n",
   chars! "This produces the following prompt (for me):\n",
   chars! "\n",
   chars! "{p,indent=4}{c500b:M} {c124b:jao@cheese}:{c033b:~$}\n",
   chars! "\n",
   chars! "(The {c500b:M} is there to remind me, while developing marcel, that I am\n",
   chars! "running marcel, not bash.)\n",
   chars! "\n",
   chars! "Notes:\n",
   chars! "{L}- The value assigned to {r:PROMPT} is a list containing colors, strings, and functions\n"],
  [chars! "   evaluating to colors or strings. A color is in effect for all following strings, until\n",
   chars! "   a different color is specified. (Run {n:help color} for more information on colors.)\n",
   chars! "{L}- {r:'M '}: This string is displayed using the current color, {r:Color(5, 0, 0, BOLD)}, (boldface red).\n",
   chars! "{L}- {r:Color(0, 2, 1, BOLD)}: Establishes a new color.\n",
   chars! "{L}- {r:USER}, {r:HOST}, {r:HOME}, {r:PWD} are variables initialized by marcel representing,\n",
   chars! "   respectively, the current username, the current hostname, the user's home directory,\n",
   chars! "   and the current directory.\n",
   chars! "{L}- {r:lambda: ('~' + PWD[len(HOME):]) if PWD.startswith(HOME) else PWD}: \n",
   chars! "This is a function computing the rendering of the current directory. If the\n"],
  [chars! "current directory, (stored in {r:PWD}), is under\n",
   chars! "the {r:HOME} directory, then display a path starting with {r:~}. Otherwise\n",
   chars! "print {r:PWD} as is. This expression is not evaluated immediately, (at startup),\n",
   chars! "but is instead turned into a function, through the use of {r:lambda}.\n",
   chars! "Because {r:PWD} likely changes over time, (as the user executes\n",
   chars! "{n:cd}, {n:pushd}, and {n:popd} operations), the expression needs to\n",
   chars! "be evaluated each time the prompt is displayed.\n"]]

/-- doc/help_startup.py 16-39 -/
def doc_startup : List (List Str) := [
  [chars! "\n",
   chars! "If the marcel startup script, typically {n:~/.config/marcel/startup.py}, defines the variable \n",
   chars! "{r:RUN_ON_STARTUP}, then the commands listed will be run\n",
   chars! "when marcel starts. The value of this variable should be a string,\n",
   chars! "with one command per line, (so probably a triple-quoted string).\n",
   chars! "\n",
   chars! "{b:Example}\n",
   chars! "\n",
   chars! "Suppose {n:startup.py} defines {r:RUN_ON_STARTUP} as follows:\n",
   chars! "\n",
   chars! "{p,indent=4,wrap=F}RUN_ON_STARTUP = \"\"\"\n",
   chars! "ext = (| e: select (f: f.suffix == '.' + e) |)\n",
   chars! "recent = (| d: ls -fr | select (f: now() - f.mtime < days(float(d))) |)\n",
   chars! "\"\"\"\n",
   chars! "\n",
   chars! "In your marcel session, you can now use the variables {r:ext} and {r:recent}.\n",
   chars! "\n",
   chars! "{L}- {r:ext} receives a stream of {n:File} objects, and outputs those whose extension matches\n",
   chars! "the given extension, {r:e}. E.g. {n:ls -fr | ext py} explores the current directory\n"],
  [chars! "recursively, and lists files with a {n:.py} extension.\n",
   chars! "\n",
   chars! "{L}- {r:recent} receives a stream of {n:File} objects, and outputs those that have been modified\n",
   chars! "in the previous {r:d} days.\n"]]

/-- op/__init__.py 16-70 `public`: the operators that can be used in commands. -/
def publicOps : List Str := [
  chars! "args",
  chars! "assign",
  chars! "bash",
  chars! "bg",
  chars! "case",
  chars! "cast",
  chars! "cd",
  chars! "difference",
  chars! "dirs",
  chars! "download",
  chars! "edit",
  chars! "env",
  chars! "exit",
  chars! "expand",
  chars! "fg",
  chars! "filter",
  chars! "fork",
  chars! "gen",
  chars! "head",
  chars! "help",
  chars! "history",
  chars! "import",
  chars! "intersect",
  chars! "jobs",
  chars! "join",
  chars! "load",
  chars! "ls",
  chars! "map",
  chars! "popd",
  chars! "ps",
  chars! "pushd",
  chars! "pwd",
  chars! "red",
  chars! "read",
  chars! "remote",
  chars! "reverse",
  chars! "run",
  chars! "select",
  chars! "sort",
  chars! "squish",
  chars! "sql",
  chars! "store",
  chars! "sudo",
  chars! "tail",
  chars! "timer",
  chars! "trace",
  chars! "unique",
  chars! "union",
  chars! "upload",
  chars! "version",
  chars! "window",
  chars! "write",
  chars! "ws"]

/-- op/__init__.py 72-76 `all`, opmodule.py 24-45 and 85-89: the operators, and their help, if they have any. -/
def shippedOps : List (Str × Option Str) := [
  (chars! "args", some (joined op_args)),
  (chars! "assign", none),
  (chars! "bash", some (joined op_bash)),
  (chars! "bg", some (joined op_bg)),
  (chars! "case", some (joined op_case)),
  (chars! "cast", some (joined op_cast)),
  (chars! "cd", some (joined op_cd)),
  (chars! "difference", some (joined op_difference)),
  (chars! "dirs", some (joined op_dirs)),
  (chars! "download", some (joined op_download)),
  (chars! "edit", some (joined op_edit)),
  (chars! "env", some (joined op_env)),
  (chars! "exit", some (joined op_exit)),
  (chars! "expand", some (joined op_expand)),
  (chars! "fg", some (joined op_fg)),
  (chars! "filter", some (joined op_filter)),
  (chars! "fork", some (joined op_fork)),
  (chars! "gen", some (joined op_gen)),
  (chars! "head", some (joined op_head)),
  (chars! "help", some (joined op_help)),
  (chars! "history", some (joined op_history)),
  (chars! "import", some (joined op_import)),
  (chars! "intersect", some (joined op_intersect)),
  (chars! "jobs", some (joined op_jobs)),
  (chars! "join", some (joined op_join)),
  (chars! "load", some (joined op_load)),
  (chars! "ls", some (joined op_ls)),
  (chars! "map", some (joined op_map)),
  (chars! "popd", some (joined op_popd)),
  (chars! "ps", some (joined op_ps)),
  (chars! "pushd", some (joined op_pushd)),
  (chars! "pwd", some (joined op_pwd)),
  (chars! "red", some (joined op_red)),
  (chars! "read", some (joined op_read)),
  (chars! "remote", some (joined op_remote)),
  (chars! "reverse", some (joined op_reverse)),
  (chars! "run", some (joined op_run)),
  (chars! "select", some (joined op_select)),
  (chars! "sort", some (joined op_sort)),
  (chars! "squish", some (joined op_squish)),
  (chars! "sql", some (joined op_sql)),
  (chars! "store", some (joined op_store)),
  (chars! "sudo", some (joined op_sudo)),
  (chars! "tail", some (joined op_tail)),
  (chars! "timer", some (joined op_timer)),
  (chars! "trace", some (joined op_trace)),
  (chars! "unique", some (joined op_unique)),
  (chars! "union", some (joined op_union)),
  (chars! "upload", some (joined op_upload)),
  (chars! "version", some (joined op_version)),
  (chars! "window", some (joined op_window)),
  (chars! "write", some (joined op_write)),
  (chars! "ws", some (joined op_ws)),
  (chars! "first", none),
  (chars! "gather", none),
  (chars! "runpipeline", none)]

/-- doc/: topics. -/
def shippedDocs : List (Str × Str) := [
  (chars! "builtin", joined doc_builtin),
  (chars! "color", joined doc_color),
  (chars! "command", joined doc_command),
  (chars! "configuration", joined doc_configuration),
  (chars! "file", joined doc_file),
  (chars! "function", joined doc_function),
  (chars! "history_record", joined doc_history_record),
  (chars! "interaction", joined doc_interaction),
  (chars! "marcel", joined doc_marcel),
  (chars! "namespace", joined doc_namespace),
  (chars! "object", joined doc_object),
  (chars! "operator", joined doc_operator),
  (chars! "overview", joined doc_overview),
  (chars! "pipeline", joined doc_pipeline),
  (chars! "process", joined doc_process),
  (chars! "prompt", joined doc_prompt),
  (chars! "startup", joined doc_startup)]

/-- What comes with marcel. -/
def shipped : Sources := ⟨shippedOps, shippedDocs⟩

end Marcel.Help
