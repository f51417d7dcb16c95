import Verif.Model.Lexer
import Verif.Model.Resolve

/-! # Model of the command lines that marcel gives to the host's shell

`/repo/marcel/util.py` 105-110 (`quote_files`, with Python's `shlex.quote`), `/repo/marcel/op/upload.py` 109-121, `/repo/marcel/op/download.py` 113-125, `/repo/marcel/op/remote.py` 172-181,
`/repo/marcel/op/sudo.py` 96, `/repo/marcel/object/cluster.py`. The command of `upload` and `download` is run by `bash` (`/repo/marcel/op/bash.py` 104-105 strips it).

Not modelled: the lookup of host names (`addr` and `name` of a host are given), the programs that are run. -/

namespace Marcel.ShellCmd

/-- `shlex`: letters, digits (of ASCII) and the characters below. -/
def safeChar (c : Char) : Bool := c.isAlphanum || ['_', '@', '%', '+', '=', ':', ',', '.', '/', '-'].contains c

/-- `shlex.quote`: each `'` is replaced by `'"'"'`. -/
def escapeQuotes (s : Str) : Str := s.flatMap fun c => if c = '\'' then ['\'', '"', '\'', '"', '\''] else [c]

/-- `shlex.quote` -/
def quote (s : Str) : Str :=
  if s.isEmpty then ['\'', '\'']
  else if s.all safeChar then s
  else '\'' :: escapeQuotes s ++ ['\'']

/-- `' '.join(...)` -/
def unwords : List Str → Str
  | [] => []
  | [w] => w
  | w :: ws => w ++ ' ' :: unwords ws

/-- util.py 105-110, files given as strings -/
def quoteFiles (files : List Str) : Str := unwords (files.map quote)

/-- cluster.py 23-94, 96-118: what a host is, and the cluster it belongs to. -/
structure Host where
  user : Str
  /-- "" and None are the same (`if cluster.identity`). -/
  identity : Str
  addr : Str
  name : Str
  port : Option Nat
deriving DecidableEq, Repr

/-- The word for a port, `str(port)`. -/
def portWord (p : Nat) : Str := Nat.toDigits 10 p

/-- `-i IDENTITY` -/
def identityWords (h : Host) : List Str := if h.identity.isEmpty then [] else [['-', 'i'], h.identity]

/-- `-P PORT`, `-p PORT` -/
def portWords (flag : Str) (h : Host) : List Str := match h.port with | some p => [flag, portWord p] | none => []

/-- upload.py 109-121 -/
def uploadCommand (h : Host) (sources : List Str) (dest : Str) : Str :=
  unwords ([['s', 'c', 'p', ' ', '-', 'C', 'p', 'q', 'r']] ++ identityWords h
    ++ portWords ['-', 'P'] h
    ++ [quoteFiles sources, h.user ++ '@' :: h.addr ++ ':' :: dest])

/-- download.py 113-125; `dest` is the absolute path of the local directory, not `/`. -/
def downloadCommand (h : Host) (sources : List Str) (dest : Str) : Str :=
  unwords ([['s', 'c', 'p', ' ', '-', 'C', 'p', 'q', 'r']] ++ identityWords h
    ++ sources.map (fun s => h.user ++ '@' :: h.addr ++ ':' :: quoteFiles [s])
    ++ [dest ++ '/' :: h.name])

/-- plat.py 23-24, 42-43 -/
def farcel (macos : Bool) : Str :=
  if macos then "'zsh -l -c farcel.py'".toList else "farcel.py".toList

/-- remote.py 172-181 -/
def remoteCommand (macos : Bool) (h : Host) : Str :=
  unwords ([['s', 's', 'h']] ++ identityWords h
    ++ portWords ['-', 'p'] h
    ++ [h.user ++ '@' :: h.addr, farcel macos])

/-- sudo.py 96 -/
def sudoCommand (args : List Str) : Str := unwords ([['s', 'u', 'd', 'o']] ++ args ++ [farcel false])

/-- bash.py 104-105, given one argument: what the shell gets. -/
def bashText (command : Str) : Str := pyStrip command

end Marcel.ShellCmd
