import Verif.Model.Help

/-! # Model of `help`: which text is shown (op/help.py, opmodule.py)

`importlib` is left out: a topic's module is there or not. Topics are in ASCII (`str.lower` is `lower`). -/

namespace Marcel.Help

variable {C : Type}

/-- The argument of `help`: none, text, or a function (argsparser.py 203-210: `check_str` lets both through). -/
inductive Topic
  | absent
  | text (s : Str)
  | function

/-- What `help` sends: text (pieces with colours), or None. -/
inductive Sent (C : Type)
  | text (segs : List (Seg C))
  | none
deriving DecidableEq

/-- How `help` ends other than well: the command is killed with a message, there is an exception (`AttributeError`, which nothing expects), or the text can't be formatted. -/
inductive Ending
  | killed (message : Str)
  | attributeError
  | format (f : Fail)

/-- Operators with their help, if they have any (opmodule.py 39-46, 82-89); topics with their help (modules marcel.doc.help_...). -/
structure Sources where
  ops : List (Str × Option Str)
  docs : List (Str × Str)

/-- helpformatter.py 486-497: `format`, of None too. -/
def formatHelp (wrapper : Str → Str → Str → List Str) (s : Scheme C) : Option Str → Except Ending (Sent C)
  | none => .ok .none
  | some t =>
    match format wrapper s t with
    | .error f => .error (.format f)
    | .ok out => .ok (.text out)

/-- help.py 49, 60-62 `setup`: the topic, if it is text. -/
def topicName : Topic → Except Ending Str
  | .absent => .ok (lower "marcel".toList)
  | .text s => .ok (lower s)
  | .function => .error .attributeError

/-- help.py 64-68, 80-93 `run`, `op_help` and `topic_help`: what is sent. -/
def showHelp (wrapper : Str → Str → Str → List Str) (s : Scheme C) (src : Sources) (topic : Topic) : Except Ending (List (Sent C)) :=
  match topicName topic with
  | .error e => .error e
  | .ok name =>
    match src.ops.lookup name with
    | some help =>
      match formatHelp wrapper s help with
      | .error e => .error e
      | .ok x => .ok [x, .text []]
    | none =>
      match src.docs.lookup name with
      | none => .error (.killed ("Help not available for ".toList ++ name))
      | some help =>
        match formatHelp wrapper s (some help) with
        | .error e => .error e
        | .ok x => .ok [x, .text []]

end Marcel.Help
