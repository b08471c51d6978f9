import Verif.Spec.PySlice
/-!
# CSV parser: `nimlite/funcs/text_reader/csvparse.nim`

The parser works on bytes; here on characters.  Lines come from Nim's `readLine`, which ends a line at LF and drops a CR before it.
-/

namespace Tablite

/-- `Quoting`, csvparse.nim:9-11 -/
inductive Quoting
  | minimal | all | nonnumeric | none | strings | notnull
  deriving DecidableEq

/-- `ParserState`, csvparse.nim:13-16 -/
inductive CsvState
  | startRecord | startField | escapedChar | inField | inQuotedField | escapeInQuotedField | quoteInQuotedField | eatCrnl | afterEscapedCrnl
  deriving DecidableEq

/-- `Dialect`, csvparse.nim:18-27 (`lineterminator` is never read; `strict` is false unless set) -/
structure Dialect where
  delimiter : Char := ','
  quotechar : Char := '"'
  escapechar : Char := '\\'
  doublequote : Bool := true
  quoting : Quoting := .minimal
  skipinitialspace : Bool := false
  skiptrailingspace : Bool := false
  strict : Bool := false

/-- `ReaderObj` together with the parser state, csvparse.nim:30-40: the field being read and the fields of the record so far -/
structure CsvSt where
  state : CsvState := .startRecord
  field : List Char := []
  fields : List (List Char) := []
  numeric : Bool := false
  deriving DecidableEq

/-- `fieldLimit`, csvparse.nim:7 -/
def fieldLimit : Nat := 128 * 1024

/-- `parseAddChar`, csvparse.nim:61-71; `false` makes `parseCSV` raise "illegal" -/
def addChar (s : CsvSt) (c : Char) : Except Err CsvSt :=
  if s.field.length ≥ fieldLimit then .error .other else .ok { s with field := s.field ++ [c] }

/-- Nim's `Whitespace` -/
def nimSpace (c : Char) : Bool := c == ' ' || c == '\t' || c == '\x0b' || c == '\r' || c == '\n' || c == '\x0c'

/-- `strip(leading = false, trailing = true)` -/
def stripTrailing (l : List Char) : List Char := (l.reverse.dropWhile nimSpace).reverse

/-- `multiReplace(("\n", "\\n"), ("\t", "\\t"))` -/
def escapeBlanks (l : List Char) : List Char :=
  l.flatMap fun c => if c = '\n' then ['\\', 'n'] else if c = '\t' then ['\\', 't'] else [c]

/-- what `parseSaveField` makes of the characters of a field, csvparse.nim:87-91 -/
def savedField (d : Dialect) (field : List Char) : List Char :=
  let f := if d.skiptrailingspace then stripTrailing field else field
  if d.quoting = .none then f else escapeBlanks f

/-- `parseSaveField`, csvparse.nim:73-99 -/
def saveField (d : Dialect) (s : CsvSt) : Except Err CsvSt :=
  if s.numeric then .error .other else .ok { s with fields := s.fields ++ [savedField d s.field], field := [] }

/-- newline or carriage return -/
def isCrnl (c : Char) : Bool := c == '\n' || c == '\r'

/-- states START_RECORD and START_FIELD, csvparse.nim:107-136 -/
def procStart (d : Dialect) (s : CsvSt) (ch : Option Char) : Except Err CsvSt :=
  match ch with
  | none => .ok s
  | some c =>
    if isCrnl c then do .ok { (← saveField d s) with state := .eatCrnl }
    else if c == d.quotechar && d.quoting != .none then .ok { s with state := .inQuotedField }
    else if c == d.escapechar then .ok { s with state := .escapedChar }
    else if c == ' ' && d.skipinitialspace then .ok { s with state := .startField }
    else if c == d.delimiter then do .ok { (← saveField d s) with state := .startField }
    else do .ok { (← addChar { s with numeric := s.numeric || d.quoting == .nonnumeric } c) with state := .inField }

/-- an escaped newline is added a first time, csvparse.nim:138-141 -/
def addNewline (s : CsvSt) (ch : Option Char) : Except Err CsvSt :=
  match ch with
  | some c => if isCrnl c then addChar s c else .ok s
  | none => .ok s

/-- state ESCAPED_CHAR, csvparse.nim:137-150: a newline is added twice -/
def procEscaped (s : CsvSt) (ch : Option Char) : Except Err CsvSt := do
  let s ← addNewline s ch
  .ok { (← addChar s (ch.getD '\n')) with state := .inField }

/-- states IN_FIELD and AFTER_ESCAPED_CRNL, csvparse.nim:151-167 -/
def procInField (d : Dialect) (s : CsvSt) (ch : Option Char) : Except Err CsvSt :=
  match ch with
  | none => if s.state = .afterEscapedCrnl then .ok s else do .ok { (← saveField d s) with state := .startRecord }
  | some c =>
    if isCrnl c then do .ok { (← saveField d s) with state := .eatCrnl }
    else if c == d.escapechar then .ok { s with state := .escapedChar }
    else if c == d.delimiter then do .ok { (← saveField d s) with state := .startField }
    else addChar s c

/-- state IN_QUOTED_FIELD, csvparse.nim:168-180 -/
def procQuoted (d : Dialect) (s : CsvSt) (ch : Option Char) : Except Err CsvSt :=
  match ch with
  | none => .ok s
  | some c =>
    if c == d.escapechar then .ok { s with state := .escapeInQuotedField }
    else if c == d.quotechar && d.quoting != .none then
      .ok { s with state := if d.doublequote then .quoteInQuotedField else .inField }
    else addChar s c

/-- state ESCAPE_IN_QUOTED_FIELD, csvparse.nim:181-189 -/
def procEscapeQuoted (s : CsvSt) (ch : Option Char) : Except Err CsvSt := do
  .ok { (← addChar s (ch.getD '\n')) with state := .inQuotedField }

/-- state QUOTE_IN_QUOTED_FIELD, csvparse.nim:190-208 -/
def procQuoteQuoted (d : Dialect) (s : CsvSt) (ch : Option Char) : Except Err CsvSt :=
  let c := ch.getD '\x00'
  if d.quoting != .none && c == d.quotechar then do .ok { (← addChar s c) with state := .inQuotedField }
  else if c == d.delimiter then do .ok { (← saveField d s) with state := .startField }
  else if isCrnl c || ch.isNone then do .ok { (← saveField d s) with state := if ch.isNone then .startRecord else .eatCrnl }
  else if !d.strict then do .ok { (← addChar s c) with state := .inField }
  else .error .other

/-- state EAT_CRNL, csvparse.nim:209-215 -/
def procEat (s : CsvSt) (ch : Option Char) : Except Err CsvSt :=
  match ch with
  | none => .ok { s with state := .startRecord }
  | some c => if isCrnl c then .ok s else .error .other

/-- `parseProcessChar`, csvparse.nim:101-217; `none` is EOL -/
def processChar (d : Dialect) (s : CsvSt) (ch : Option Char) : Except Err CsvSt :=
  match s.state with
  | .startRecord | .startField => procStart d s ch
  | .escapedChar => procEscaped s ch
  | .inField | .afterEscapedCrnl => procInField d s ch
  | .inQuotedField => procQuoted d s ch
  | .escapeInQuotedField => procEscapeQuoted s ch
  | .quoteInQuotedField => procQuoteQuoted d s ch
  | .eatCrnl => procEat s ch

/-- a CR at the end of a line is dropped -/
def dropCr (l : List Char) : List Char := if l.getLast? = some '\r' then l.dropLast else l

/-- the lines of a text as delivered by `readLine`; `cur` is the line being read -/
def readLines : List Char → List Char → List (List Char)
  | cur, [] => if cur = [] then [] else [cur]
  | cur, c :: rest => if c = '\n' then dropCr cur :: readLines [] rest else readLines (cur ++ [c]) rest

/-- `parseCSV`, csvparse.nim:219-259: the records yielded.  A record that is not finished at the end of the file is dropped. -/
def parseLines (d : Dialect) : CsvSt → List (List Char) → Except Err (List (List (List Char)))
  | _, [] => .ok []
  | s, line :: rest => do
    let s ← (line ++ ['\n']).foldlM (fun s c => processChar d s (some c)) s
    let s ← processChar d s none
    if s.state = .startRecord then do
      let more ← parseLines d { s with fields := [] } rest
      .ok (s.fields :: more)
    else parseLines d s rest

/-- `parseCSV` of a file with the given text -/
def parseCSV (d : Dialect) (text : List Char) : Except Err (List (List (List Char))) := parseLines d {} (readLines [] text)

end Tablite
