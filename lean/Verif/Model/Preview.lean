import Verif.Model.Import
/-!
# Preview of text files: `tablite/file_reader_utils.py` (`detect_seperator`, `text_reader_headers`) and `getHeaders`, `nimlite/funcs/text_reader/text_reader.nim`

A file is its text (encodings, byte order marks and the guess of the encoding by `chardet` are not modelled; Python and the native code see the same characters).
Every exception of `text_reader_headers` becomes `ValueError`.  `linecount` and `header_row_index` are natural numbers; a negative `linecount` behaves as 0.
-/

namespace Tablite

/-- candidates for a separator, file_reader_utils.py:131 -/
def sepChars : List Char := [',', '\t', ';', ':', '|']

/-- order of the tuples `(text.count(i), i)` under `sort(reverse=True)`, file_reader_utils.py:142-143 -/
def sepOrder (a b : Nat × Char) : Bool := decide (b.1 < a.1) || (decide (a.1 = b.1) && decide (b.2 ≤ a.2))

/-- `detect_seperator`, file_reader_utils.py:114-144.  The set of candidates has no order, but the sort of the tuples does not depend on it. -/
def detectSeparator (text : List Char) : Except Err (Option Char) :=
  if text = [] then .ok none
  else
    match sepChars.filter fun c => decide (c ∈ text) with
    | [] => if ' ' ∈ text then .ok (some ' ') else if '\n' ∈ text then .ok (some '\n') else .error .value
    | [c] => .ok (some c)
    | seps => .ok (((seps.map fun i => (text.count i, i)).mergeSort sepOrder).head?.map (·.2))

/-- lines of a file opened in text mode (universal newlines): LF, CR LF and CR end a line; `cur` is the line being read -/
def pyTextLines : List Char → List Char → List (List Char)
  | cur, [] => if cur = [] then [] else [cur]
  | cur, '\r' :: '\n' :: rest => cur :: pyTextLines [] rest
  | cur, c :: rest => if c = '\n' ∨ c = '\r' then cur :: pyTextLines [] rest else pyTextLines (cur ++ [c]) rest

/-- the loop over the records in `getHeaders`, text_reader.nim:124-138: `skip` records are passed over, and the loop ends once `count` rows have been taken -/
def headersLoop (d : Dialect) (count : Nat) : Nat → Nat → CsvSt → List (List Char) → Except Err (List (List (List Char)))
  | _, _, _, [] => .ok []
  | skip, total, s, line :: rest => do
    let s ← feedLine d s line
    if s.state = .startRecord then
      if 0 < skip then headersLoop d count (skip - 1) total { s with fields := [] } rest
      else if total + 1 ≥ count then .ok [s.fields.map stripEscape]
      else do
        let more ← headersLoop d count 0 (total + 1) { s with fields := [] } rest
        .ok (s.fields.map stripEscape :: more)
    else headersLoop d count skip total s rest

/-- `getHeaders`, text_reader.nim:115-142 -/
def nimHeaders (d : Dialect) (headerRow linecount : Nat) (lines : List (List Char)) : Except Err (List (List (List Char))) :=
  headersLoop d linecount headerRow 0 {} lines

/-- the dialect of `makeDialect`, pylayer.nim:4-14, for the arguments of `text_reader_headers` (file_reader_utils.py:182-195, nimlite.py:52-69) and `text_reader`
(import_utils.py:611-619): without a text qualifier nothing is quoted -/
def textDialect (delimiter : Char) (qualifier : Option Char) (strip : Bool) : Dialect :=
  { delimiter := delimiter, quotechar := qualifier.getD '"', quoting := if qualifier.isSome then .minimal else .none,
    skipinitialspace := strip, skiptrailingspace := strip }

/-- suffixes of text files, `header_readers`, file_reader_utils.py:267-269 -/
inductive TextSuffix
  | csv | tsv | txt
  deriving DecidableEq

/-- `delimiters`, file_reader_utils.py:148-152 -/
def TextSuffix.delimiter : TextSuffix → Option Char
  | .csv => some ','
  | .tsv => some '\t'
  | .txt => none

/-- result of `text_reader_headers`: the entries `delimiter`, the rows under the name of the file, and `is_empty`.  The entry `delimiter` is missing when the caller
gave the delimiter; here it is that delimiter. -/
structure Preview where
  delimiter : Option Char
  rows : List (List (List Char))
  isEmpty : Bool
  deriving DecidableEq

/-- the lines shown to `detect_seperator`, file_reader_utils.py:161-168 -/
def sampleLines (text : List Char) (headerRow linecount : Nat) : List (List Char) := ((pyTextLines [] text).drop headerRow).take (linecount + 1)

/-- `"\n".join(lines)` -/
def joinLines : List (List Char) → List Char
  | [] => []
  | [l] => l
  | l :: rest => l ++ '\n' :: joinLines rest

/-- the delimiter found, file_reader_utils.py:169-175: without one, `None` -/
def sampleDelimiter (lines : List (List Char)) : Option Char :=
  match detectSeparator (joinLines lines) with
  | .ok r => r
  | .error _ => none

/-- `text_reader_headers`, file_reader_utils.py:146-198 -/
def textHeaders (suffix : TextSuffix) (text : List Char) (delimiter : Option Char) (headerRow : Nat) (qualifier : Option Char) (linecount : Nat) : Except Err Preview :=
  let lines := sampleLines text headerRow linecount
  match delimiter <|> sampleDelimiter lines with
  | none => .ok { delimiter := suffix.delimiter, rows := [lines], isEmpty := true }
  | some c =>
    match nimHeaders (textDialect c qualifier true) headerRow linecount (readLines [] text) with
    | .ok rows => .ok { delimiter := some c, rows := rows, isEmpty := false }
    | .error _ => .error .value

/-- the delimiter of an import, import_utils.py:611-612 with the default of nimlite.py:80: the suffix of the file is not looked at -/
def importDelimiter (_suffix : TextSuffix) (delimiter : Option Char) : Char := delimiter.getD ','

/-- the delimiter as documented, core.py:131-136 -/
def documentedDelimiter : TextSuffix → Char
  | .csv => ','
  | .tsv => '\t'
  | .txt => '|'

/-- `get_delimiter`, file_reader_utils.py:329-340: the first twelve lines are looked at -/
def getDelimiter (text : List Char) : Except Err Char := do
  match ← detectSeparator (joinLines ((pyTextLines [] text).take 12)) with
  | some c => .ok c
  | none => .error .value

end Tablite
