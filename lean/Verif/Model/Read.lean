/-! # Model of `read` and `write --csv`

`/repo/marcel/op/read.py` 182-195, 218-250, 284-373; `/repo/marcel/op/write.py` 147-155, 206-248.

A file is the text it contains. `open(path, 'r')` replaces line ends `\r\n` and `\r` by `\n` (Python's universal newlines). Python's `csv` module
(`Modules/_csv.c`, default dialect, `QUOTE_NONNUMERIC` for writing) is modelled for lines that contain no line end. Not modelled: encodings,
`--pickle` (see `Model/Pickle.lean`) and `--json`, exceptions opening a file. -/

namespace Marcel.Read

abbrev Text := List Char

/-- Universal newlines. -/
def univ : Text → Text
  | [] => []
  | '\r' :: '\n' :: t => '\n' :: univ t
  | '\r' :: t => '\n' :: univ t
  | c :: t => c :: univ t

/-- `readline` until the end: the lines, with their line ends. -/
def lines : Text → List Text
  | [] => []
  | c :: t =>
    if c = '\n' then ['\n'] :: lines t
    else match lines t with
      | [] => [[c]]
      | l :: ls => (c :: l) :: ls

/-- `line.rstrip('\r\n')` -/
def rstrip (t : Text) : Text := (t.reverse.dropWhile fun c => c = '\n' || c = '\r').reverse

/-- The lines of a file that a reader deals with, one after the other: read.py 244-248, 303-305, 334. -/
def fileLines (content : Text) : List Text := (lines (univ content)).map rstrip

/-- What is sent. `F` are the files. A cell is the label, a string, or `None`. -/
inductive Cell (F : Type)
  | file (f : F)
  | text (t : Text)
  | none
  deriving DecidableEq

/-- What is sent: a string, a tuple (with names, if it is a named tuple), or an error. -/
inductive Out (F : Type)
  | str (t : Text)
  | tuple (names : Option (List Text)) (cells : List (Cell F))
  | error
  deriving DecidableEq

/-- `TextReader.read_file` 239-250. `label`: the option `--label`. -/
def readText {F : Type} (label : Bool) (f : F) (content : Text) : List (Out F) :=
  (fileLines content).map fun l => if label then .tuple none [.file f, .text l] else .str l

/-- The state of the parser of Python's `csv.reader`. -/
inductive CS
  | startField
  | inField
  | inQuoted
  | quoteInQuoted
  deriving DecidableEq

/-- `parse_process_char` and the end of the line (`_csv.c`): the fields of the rest of the line; `acc` is the field read so far, reversed. The line
ends in a quoted field: the iterator ends, and what was read of the field is its value. -/
def csvFrom (d : Char) : CS → Text → Text → List Text
  | _, acc, [] => [acc.reverse]
  | .startField, acc, c :: t =>
    if c = '"' then csvFrom d .inQuoted acc t
    else if c = d then acc.reverse :: csvFrom d .startField [] t
    else csvFrom d .inField (c :: acc) t
  | .inField, acc, c :: t =>
    if c = d then acc.reverse :: csvFrom d .startField [] t
    else csvFrom d .inField (c :: acc) t
  | .inQuoted, acc, c :: t =>
    if c = '"' then csvFrom d .quoteInQuoted acc t
    else csvFrom d .inQuoted (c :: acc) t
  | .quoteInQuoted, acc, c :: t =>
    if c = '"' then csvFrom d .inQuoted (c :: acc) t
    else if c = d then acc.reverse :: csvFrom d .startField [] t
    else csvFrom d .inField (c :: acc) t

/-- `next(self.reader)` for a line (307, `InputIterator` 355-373). An empty line makes `InputIterator` raise StopIteration (365, 370). -/
def csvLine (d : Char) (line : Text) : Option (List Text) :=
  if line = [] then none else some (csvFrom d .startField [] line)

/-- The state of a `CSVReader`: the names of the columns (`named_tuple`, `n_columns`). -/
structure CsvSt where
  names : Option (List Text)

/-- The options: `--label`, `--headings`, `--skip-headings`. -/
structure ROpts where
  label : Bool
  headings : Bool
  skipHeadings : Bool

/-- Python's `str.isidentifier`, `str.strip`, and whether `namedtuple` accepts the names (no digit in front, no keyword, no leading
underscore, no duplicates). -/
structure Py where
  isIdentifier : Text → Bool
  strip : Text → Text
  namedtupleOk : List Text → Bool

/-- `IDENTIFIER_CHARS` 285 -/
def identChar (c : Char) : Bool := c = '_' || c.isAlphanum

/-- `extract_headings` 339-352 -/
def extractHeadings (py : Py) (o : ROpts) (fields : List Text) : List Text :=
  (if o.label then ["LABEL".toList] else []) ++
    fields.map fun f => if py.isIdentifier (py.strip f) then py.strip f else (py.strip f).map fun c => if identChar c then c else '_'

/-- 308-317: the first line, with headings. -/
def csvHeadings {F : Type} (py : Py) (o : ROpts) (fields : List Text) (s : CsvSt) : List (Out F) × CsvSt :=
  if o.headings then
    if py.namedtupleOk (extractHeadings py o fields) then ([], ⟨some (extractHeadings py o fields)⟩) else ([.error], s)
  else ([], s)

/-- 319-333: a record. -/
def csvRecord {F : Type} (o : ROpts) (f : F) (fields : List Text) (s : CsvSt) : Out F :=
  let cells := (if o.label then [Cell.file f] else []) ++ fields.map Cell.text
  match s.names with
  | none => .tuple none cells
  | some names =>
    if names.length < cells.length then .error
    else .tuple (some names) (cells ++ List.replicate (names.length - cells.length) .none)

/-- The loop 304-335. -/
def csvLoop {F : Type} (py : Py) (o : ROpts) (d : Char) (f : F) : Bool → List Text → CsvSt → List (Out F) × CsvSt
  | _, [], s => ([], s)
  | first, l :: ls, s =>
    match csvLine d l with
    | none => ([], s)
    | some fields =>
      if first && (o.headings || o.skipHeadings) then
        ((csvHeadings (F := F) py o fields s).1 ++ (csvLoop py o d f false ls (csvHeadings (F := F) py o fields s).2).1,
          (csvLoop py o d f false ls (csvHeadings (F := F) py o fields s).2).2)
      else
        (csvRecord o f fields s :: (csvLoop py o d f false ls s).1, (csvLoop py o d f false ls s).2)

/-- `CSVReader.read_file` 297-337 -/
def readCsv {F : Type} (py : Py) (o : ROpts) (d : Char) (f : F) (content : Text) (s : CsvSt) : List (Out F) × CsvSt :=
  csvLoop py o d f true (fileLines content) s

/-- Several files, one after the other, with one reader (`self.reader` 191-195 is made once). -/
def readCsvAll {F : Type} (py : Py) (o : ROpts) (d : Char) : List (F × Text) → CsvSt → List (Out F)
  | [], _ => []
  | (f, c) :: fs, s => (readCsv py o d f c s).1 ++ readCsvAll py o d fs (readCsv py o d f c s).2

/-- Several files, as text. -/
def readTextAll {F : Type} (label : Bool) (fs : List (F × Text)) : List (Out F) :=
  fs.flatMap fun x => readText label x.1 x.2

/-- A field as written by `csv.writer`: a string is quoted, with quotes doubled; a number is not (write.py 236-240). -/
inductive Field
  | str (t : Text)
  | num (t : Text)

/-- `"` is doubled. -/
def double : Text → Text
  | [] => []
  | c :: t => if c = '"' then '"' :: '"' :: double t else c :: double t

def writeField : Field → Text
  | .str t => '"' :: (double t ++ ['"'])
  | .num t => t

/-- The text of a field, as it will be read. -/
def Field.text : Field → Text
  | .str t => t
  | .num t => t

/-- `writer.writerow` -/
def writeRow (d : Char) : List Field → Text
  | [] => []
  | [x] => writeField x
  | x :: xs => writeField x ++ d :: writeRow d xs

/-- `CSVWriter.receive` 243-245, for all items: the contents of the file. -/
def writeCsv (d : Char) (rows : List (List Field)) : Text := rows.flatMap fun r => writeRow d r ++ ['\n']

end Marcel.Read
