import Verif.Model.Import
import Verif.Model.Table
/-!
# Text export: `tablite/export_utils.py` (`text_writer`), and the dialect chosen by `tablite/import_utils.py` (`text_reader`)

`csv.writer` of the Python library is modelled with the settings used here: quoting where necessary, quote characters doubled, no escape
character, lines end in CR LF.  The file is opened in text mode; on Linux line ends are written as they are (not modelled: Windows, where LF becomes
CR LF once more).  Texts are lists of characters; the encoding is not modelled.
-/

namespace Tablite

/-- a field that `csv.writer` writes in quotes (`_csv.c`, `join_append_data`): it has the delimiter, the quote character or a line end -/
def needsQuotes (delim : Char) (f : List Char) : Bool := f.any fun c => c == delim || c == '"' || c == '\n' || c == '\r'

/-- a field in quotes -/
def pyQuoted (f : List Char) : List Char := '"' :: f.flatMap (fun c => if c = '"' then [c, c] else [c]) ++ ['"']

/-- a field as written -/
def pyField (delim : Char) (f : List Char) : List Char := if needsQuotes delim f then pyQuoted f else f

/-- the fields with delimiters between them -/
def pyJoin (delim : Char) : List (List Char) → List Char
  | [] => []
  | [f] => pyField delim f
  | f :: g :: r => pyField delim f ++ delim :: pyJoin delim (g :: r)

/-- `writerow`: an empty field alone in its row is written in quotes -/
def pyWriteRow (delim : Char) (r : List (List Char)) : List Char := (if r = [[]] then ['"', '"'] else pyJoin delim r) ++ ['\r', '\n']

/-- `delimiters.get(path.suffix)` (export_utils.py:180-181) -/
def suffixDelimiter (suffix : String) : Option Char :=
  if suffix = ".csv" then some ',' else if suffix = ".tsv" then some '\t' else if suffix = ".txt" then some '|' else none

/-- `text_writer` (export_utils.py:153-187): the text of the file; `txt` is the local function of that name, `nul` is None -/
def textWriter {α : Type} (txt : α → List Char) (nul : α) (delim : Char) (t : Tbl (List Char) α) : Except Err (List Char) := do
  let rows ← tblRows nul t
  .ok (pyWriteRow delim (t.map (·.1)) ++ rows.flatMap fun r => pyWriteRow delim (r.map txt))

/-- the dialect of `text_reader` (import_utils.py:570-630, nimlite.py:71-108, libnimlite.nim:81-119): without a delimiter it is a comma, without a text
qualifier quotes have no meaning -/
def readDialect (delimiter textQualifier : Option Char) (strip : Bool) : Dialect :=
  { delimiter := delimiter.getD ',', quotechar := textQualifier.getD '"', quoting := if textQualifier.isSome then .minimal else .none,
    skipinitialspace := strip, skiptrailingspace := strip }

/-- `Table.from_file` of a text file as texts (`guess_datatypes=False`), core.py:46-210 -/
def fromFile (mk : List Char → Nat → List Char) (num : Nat → List Char) (delimiter textQualifier : Option Char) (strip : Bool) (ps : Nat) (text : List Char) :
    Except Err (List (List Char × List (List (List Char)))) :=
  importText mk num (readDialect delimiter textQualifier strip) {} ps (readLines [] text)

end Tablite
