import Verif.Model.Csv
/-!
# Lines split into fields: `file_reader_utils.TextEscape`, file_reader_utils.py:28-112

The quoted mode uses Python's own `csv.reader`; its state machine is written down here as in CPython's `_csv.c` (`Reader_iternext`,
`parse_process_char`), with `strict` off.  Checks of the dialect that later versions of Python make (delimiter or quote equal to a line
end) are not modelled.
-/

namespace Tablite

/-- an argument that should be a text or None -/
inductive TextArg
  | none
  | text (s : List Char)
  | other
  deriving DecidableEq

/-- which of `_call_1`, `_call_2`, `_call_3` an instance uses, file_reader_utils.py:80-86 -/
inductive EscMode
  | plain
  | strip
  | quoted (q : List Char)
  deriving DecidableEq

/-- an instance of `TextEscape`: the openings and closures are kept by the code and never read again -/
structure TextEsc where
  delimiter : List Char
  mode : EscMode
  deriving DecidableEq

/-- whether `w` occurs in `s`, Python's `w in s` -/
def occursIn (w : List Char) : List Char → Bool
  | [] => w.isEmpty
  | c :: t => w.isPrefixOf (c :: t) || occursIn w t

/-- `text_qualifier in openings + closures`, file_reader_utils.py:75: two texts are added to a text, two None to a list of two None, and
a text and a list cannot be added -/
def qualifierClash (openings closures : TextArg) (q : List Char) : Except Err Bool :=
  match openings, closures with
  | .text a, .text b => .ok (occursIn q (a ++ b))
  | .none, .none => .ok false
  | _, _ => .error .type

/-- `TextEscape.__init__`, file_reader_utils.py:39-86 -/
def newTextEscape (openings closures : TextArg) (qualifier : Option (List Char)) (delimiter : TextArg) (strip : Bool) : Except Err TextEsc :=
  if openings = .other then .error .type else if closures = .other then .error .type
  else match delimiter with
    | .text d =>
      let unquoted : EscMode := if strip then .strip else .plain
      match qualifier with
      | none => .ok ⟨d, unquoted⟩
      | some q => do
        if ← qualifierClash openings closures q then .error .value
        else if q = [] then .ok ⟨d, unquoted⟩
        else .ok ⟨d, .quoted q⟩
    | _ => .error .type

/-- the loop of `str.split(d)`: the number of characters still to be dropped and the rest of the text -/
def splitGo (d : List Char) : Nat → List Char → List (List Char)
  | _, [] => [[]]
  | n + 1, _ :: t => splitGo d n t
  | 0, c :: t =>
    if d.isPrefixOf (c :: t) then [] :: splitGo d (d.length - 1) t
    else match splitGo d 0 t with
      | [] => [[c]]
      | w :: ws => (c :: w) :: ws

/-- `s.split(d)` -/
def strSplit (d s : List Char) : Except Err (List (List Char)) :=
  if d = [] then .error .value else .ok (splitGo d 0 s)

/-- `w.rstrip(" ").lstrip(" ")`, file_reader_utils.py:95 -/
def stripBlanks (w : List Char) : List Char := ((w.reverse.dropWhile (· == ' ')).reverse).dropWhile (· == ' ')

/-- the state of `csv.reader` -/
structure PySt where
  state : CsvState := .startRecord
  field : List Char := []
  fields : List (List Char) := []
  deriving DecidableEq

/-- `parse_add_char` of `_csv.c`: the limit of a field is 131072 characters -/
def pyAdd (s : PySt) (c : Char) (st : CsvState) : Except Err PySt :=
  if s.field.length ≥ fieldLimit then .error .other else .ok { s with field := s.field ++ [c], state := st }

/-- `parse_save_field` of `_csv.c` -/
def pySave (s : PySt) (st : CsvState) : PySt := ⟨st, [], s.fields ++ [s.field]⟩

/-- the end of a field at the end of a line: `none` is the end of the line, after its newline -/
def pyEnd (c : Option Char) : CsvState := if c = none then .startRecord else .eatCrnl

/-- a line end of any kind -/
def pyIsEnd (c : Option Char) : Bool := c == none || c == some '\n' || c == some '\r'

/-- the state START_FIELD of `parse_process_char` -/
def pyStartField (d q : Char) (s : PySt) (c : Option Char) : Except Err PySt :=
  if pyIsEnd c then .ok (pySave s (pyEnd c))
  else match c with
    | none => .ok s
    | some c =>
      if c = q then .ok { s with state := .inQuotedField }
      else if c = '\\' then .ok { s with state := .escapedChar }
      else if c = d then .ok (pySave s .startField)
      else pyAdd s c .inField

/-- the state IN_FIELD of `parse_process_char` -/
def pyInField (d : Char) (s : PySt) (c : Option Char) : Except Err PySt :=
  if pyIsEnd c then .ok (pySave s (pyEnd c))
  else match c with
    | none => .ok s
    | some c =>
      if c = '\\' then .ok { s with state := .escapedChar }
      else if c = d then .ok (pySave s .startField)
      else pyAdd s c .inField

/-- `parse_process_char` of `_csv.c` with the dialect of `_call_3`, file_reader_utils.py:100-107: delimiter and quote as given, backslash as
escape character, doubled quotes, quoting minimal, spaces kept -/
def pyStep (d q : Char) (s : PySt) (c : Option Char) : Except Err PySt :=
  match s.state with
  | .startRecord =>
    match c with
    | none => .ok s
    | some x => if x = '\n' ∨ x = '\r' then .ok { s with state := .eatCrnl } else pyStartField d q s c
  | .startField => pyStartField d q s c
  | .escapedChar =>
    match c with
    | none => pyAdd s '\n' .inField
    | some x => pyAdd s x (if x = '\n' ∨ x = '\r' then .afterEscapedCrnl else .inField)
  | .afterEscapedCrnl => if c = none then .ok s else pyInField d s c
  | .inField => pyInField d s c
  | .inQuotedField =>
    match c with
    | none => .ok s
    | some x =>
      if x = '\\' then .ok { s with state := .escapeInQuotedField }
      else if x = q then .ok { s with state := .quoteInQuotedField }
      else pyAdd s x .inQuotedField
  | .escapeInQuotedField => pyAdd s (c.getD '\n') .inQuotedField
  | .quoteInQuotedField =>
    if pyIsEnd c then (if c = some q then pyAdd s q .inQuotedField else .ok (pySave s (pyEnd c)))
    else match c with
      | none => .ok s
      | some x =>
        if x = q then pyAdd s q .inQuotedField
        else if x = d then .ok (pySave s .startField)
        else pyAdd s x .inField
  | .eatCrnl =>
    match c with
    | none => .ok { s with state := .startRecord }
    | some x => if x = '\n' ∨ x = '\r' then .ok s else .error .other

/-- the lines of `io.StringIO(s)`, each with its newline -/
def ioLines : List Char → List (List Char)
  | [] => []
  | c :: t =>
    if c = '\n' then [c] :: ioLines t
    else match ioLines t with
      | [] => [[c]]
      | l :: ls => (c :: l) :: ls

/-- one line fed to the reader: its characters and the end of the line -/
def pyFeed (d q : Char) (s : PySt) (line : List Char) : Except Err PySt := do
  pyStep d q (← line.foldlM (fun s c => pyStep d q s (some c)) s) none

/-- `list(csv.reader(...))`: lines are fed until the reader is between two records; what is left at the end of the text is a last record -/
def pyRecords (d q : Char) : PySt → List (List Char) → Except Err (List (List (List Char)))
  | s, [] => .ok (if s.field ≠ [] ∨ s.state = .inQuotedField then [s.fields ++ [s.field]] else [])
  | s, l :: ls => do
    let s' ← pyFeed d q s l
    if s'.state = .startRecord then do .ok (s'.fields :: (← pyRecords d q {} ls)) else pyRecords d q s' ls

/-- `_call_3`, file_reader_utils.py:97-112: the first record; the delimiter and the quote must be one character each -/
def escQuoted (d q s : List Char) : Except Err (List (List Char)) :=
  match d, q with
  | [d], [q] => do
    match ← pyRecords d q {} (ioLines s) with
    | [] => .error .index
    | r :: _ => .ok r
  | _, _ => .error .type

/-- `TextEscape.__call__`, file_reader_utils.py:88-112 -/
def TextEsc.call (e : TextEsc) (s : List Char) : Except Err (List (List Char)) :=
  match e.mode with
  | .plain => strSplit e.delimiter s
  | .strip => do .ok ((← strSplit e.delimiter s).map stripBlanks)
  | .quoted q => escQuoted e.delimiter q s

end Tablite
