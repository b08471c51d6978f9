import Verif.Model.Import
/-!
# Encoded text files: `nimlite/funcs/text_reader/encfile.nim`, and the import with byte positions

A string of Nim is a sequence of bytes, and `char` is a byte; here bytes are characters below 256.  A file is the list of its bytes, a position in it the number of bytes before it.
All lines are read before they are parsed; the code reads and parses in turns, which makes a difference only for which of two exceptions is raised.
-/

namespace Tablite

/-- the byte with a number -/
def byte (n : Nat) : Char := Char.ofNat n

/-- the bytes of a code point in UTF-8 -/
def utf8Of (n : Nat) : List Char :=
  if n < 0x80 then [byte n]
  else if n < 0x800 then [byte (0xC0 + n / 64), byte (0x80 + n % 64)]
  else if n < 0x10000 then [byte (0xE0 + n / 4096), byte (0x80 + n / 64 % 64), byte (0x80 + n % 64)]
  else [byte (0xF0 + n / 262144), byte (0x80 + n / 4096 % 64), byte (0x80 + n / 64 % 64), byte (0x80 + n % 64)]

/-- a text in UTF-8 -/
def utf8 (t : List Char) : List Char := t.flatMap fun c => utf8Of c.toNat

/-- `readLine` of Nim for a plain file, encfile.nim:38: the line ends at LF, a CR before it is dropped; `none` at the end of the file.  The second part is the rest of the file. -/
def readLine8 : List Char → List Char → Option (List Char) × List Char
  | cur, [] => (if cur = [] then none else some cur, [])
  | cur, c :: rest => if c = '\n' then (some (dropCr cur), rest) else readLine8 (cur ++ [c]) rest

/-- two bytes as a number, encfile.nim:60-63 -/
def unit16 (be : Bool) (a b : Char) : Nat := if be then b.toNat + 256 * a.toNat else a.toNat + 256 * b.toNat

/-- the loop of `readLine` for UTF-16, encfile.nim:45-94: the numbers up to LF; a CR is kept -/
def readUnits (be : Bool) : List Nat → List Char → Except Err (Option (List Nat) × List Char)
  | cur, [] => .ok (if cur = [] then none else some cur, [])
  | _, [_] => .error .other
  | cur, a :: b :: rest => if unit16 be a b = 10 then .ok (some cur, rest) else readUnits be (cur ++ [unit16 be a b]) rest

/-- `$wstr` of Nim's `widestrs`: up to the first 0; pairs of surrogates are joined, a lone one is replaced by U+FFFD -/
def wideText : List Nat → List Char
  | [] => []
  | [u] => if u = 0 then [] else if 0xD800 ≤ u ∧ u ≤ 0xDFFF then utf8Of 0xFFFD else utf8Of u
  | u :: v :: r =>
    if u = 0 then []
    else if 0xD800 ≤ u ∧ u ≤ 0xDBFF then
      if 0xDC00 ≤ v ∧ v ≤ 0xDFFF then utf8Of ((u - 0xD800) * 1024 + (v - 0xDC00) + 0x10000) ++ wideText r
      else utf8Of 0xFFFD ++ wideText (v :: r)
    else if 0xDC00 ≤ u ∧ u ≤ 0xDFFF then utf8Of 0xFFFD ++ wideText (v :: r)
    else utf8Of u ++ wideText (v :: r)

/-- the three kinds of files, encfile.nim:11-15; a converter maps the bytes of a line to UTF-8 -/
inductive EncFile
  | utf8
  | utf16 (be : Bool)
  | conv (f : List Char → List Char)

/-- `readLine`, encfile.nim:96-104 -/
def encReadLine : EncFile → List Char → Except Err (Option (List Char) × List Char)
  | .utf8, b => .ok (readLine8 [] b)
  | .utf16 be, b => do
    let r ← readUnits be [] b
    .ok (r.1.map wideText, r.2)
  | .conv f, b => .ok ((readLine8 [] b).1.map f, (readLine8 [] b).2)

/-- the encodings that can be asked for, encfile.nim:3-6 -/
inductive EncKind
  | utf8
  | utf16
  | conv (f : List Char → List Char)

/-- `newFileUTF16`, encfile.nim:106-127 -/
def openUtf16 (file : List Char) : Except Err (EncFile × Nat) :=
  if file.length % 2 ≠ 0 then .error .other
  else match file with
    | a :: b :: _ =>
      if unit16 false a b = 0xFEFF then .ok (.utf16 false, 2)
      else if unit16 false a b = 0xFFFE then .ok (.utf16 true, 2)
      else .error .other
    | _ => .error .other

/-- `newFileUTF8`, encfile.nim:129-141: a byte order mark is skipped -/
def openUtf8 (file : List Char) : EncFile × Nat := if file.take 3 = [byte 0xEF, byte 0xBB, byte 0xBF] then (.utf8, 3) else (.utf8, 0)

/-- `newFile`, encfile.nim:149-153: the file and the position of the text -/
def openFile (e : EncKind) (file : List Char) : Except Err (EncFile × Nat) :=
  match e with
  | .utf8 => .ok (openUtf8 file)
  | .utf16 => openUtf16 file
  | .conv f => .ok (.conv f, 0)

/-- the lines from a position on, with what follows each line: `while not fh.endOfFile: fh.readLine(line)`, csvparse.nim:231-243.  The first argument bounds the number of lines; each takes a byte or more. -/
def linesFrom (k : EncFile) : Nat → List Char → Except Err (List (List Char × List Char))
  | 0, _ => .ok []
  | _ + 1, [] => .ok []
  | n + 1, b :: bs => do
    let r ← encReadLine k (b :: bs)
    match r.1 with
    | none => .error .other
    | some l => do .ok ((l, r.2) :: (← linesFrom k n r.2))

/-- the lines of a file from a position on -/
def fileLines (k : EncFile) (file : List Char) (pos : Nat) : Except Err (List (List Char × List Char)) := linesFrom k (file.drop pos).length (file.drop pos)

/-- `findNewlinesQualifier`, csvparse.nim:329-341: the position after each record -/
def recordBytes (d : Dialect) (total : Nat) : CsvSt → List (List Char × List Char) → Except Err (List Nat)
  | _, [] => .ok []
  | s, l :: rest => do
    let s ← feedLine d s l.1
    if s.state = .startRecord then do
      let more ← recordBytes d total { s with fields := [] } rest
      .ok ((total - l.2.length) :: more)
    else recordBytes d total s rest

/-- `findNewlines`, csvparse.nim:315-354 -/
def findNewlineBytes (d : Dialect) (k : EncFile) (file : List Char) (pos : Nat) : Except Err (List Nat) := do
  let ls ← fileLines k file pos
  if d.quoting = .none then .ok (pos :: ls.map fun l => file.length - l.2.length)
  else do .ok (pos :: (← recordBytes d file.length {} ls))

/-- the records from a position on, csvparse.nim:219-259 -/
def recordsAt (d : Dialect) (k : EncFile) (file : List Char) (pos : Nat) : Except Err (List (List (List Char))) := do
  let ls ← fileLines k file pos
  parseLines d {} (ls.map (·.1))

/-- `readColumns`, csvparse.nim:282-293 -/
def readColumnsAt (d : Dialect) (k : EncFile) (file : List Char) (pos : Nat) : Except Err (List (List Char)) := do
  let recs ← recordsAt d k file pos
  .ok ((recs.headD []).map stripEscape)

/-- `textReaderTask`, text_reader.nim:44-110 -/
def textReaderTaskAt (d : Dialect) (k : EncFile) (file : List Char) (skip : Option Bool) (fields : List Nat) (pos count : Nat) : Except Err (List (List (List Char))) := do
  let recs ← recordsAt d k file pos
  let rows := (pageLoop skip count 0 recs).map (importRow fields)
  .ok ((List.range fields.length).map fun j => rows.map fun r => r.getD j [])

/-- `importTextFile`, text_reader.nim:144-274, on the bytes of a file -/
def importFile (mk : List Char → Nat → List Char) (num : Nat → List Char) (d : Dialect) (o : ImportOpts) (pageSize : Nat) (e : EncKind) (file : List Char) :
    Except Err (List (List Char × List (List (List Char)))) := do
  let kp ← openFile e file
  let offsets ← findNewlineBytes d kp.1 file kp.2
  let newlines := offsets.length - 1
  if 0 < newlines ∧ o.headerRow < newlines then do
    let first ← readColumnsAt d kp.1 file (offsets.getD o.headerRow 0)
    let names := fieldNames mk num o.headers first
    let cols := o.columns.getD names
    if cols.all (fun c => decide (c ∈ names)) then do
      let fields := (List.range names.length).filter fun i => decide (names.getD i [] ∈ cols)
      let offsetRow := (if o.headers then 1 else 0) + o.headerRow
      let maxLine := lastRow o.limit newlines (o.start + offsetRow)
      let tasks := (planTasks pageSize maxLine (o.start + offsetRow)).map fun t => (offsets.getD t.1 0, t.2)
      let res ← tasks.mapM fun t => textReaderTaskAt d kp.1 file o.skip fields t.1 t.2
      let columnDict := (List.range fields.length).map fun j => (names.getD (fields.getD j 0) [], res.map fun pages => pages.getD j [])
      .ok ((uniqueNames mk cols).zip (cols.map fun c => (columnDict.find? fun p => decide (p.1 = c)).elim [] (·.2)))
    else .error .other
  else .error .other

/-- the encodings that Python passes on, `py_to_nim_encoding`, utils.py:506-514; `conv` is the converter for a name (`str.lower` for ASCII letters) -/
def pyEncoding (conv : List Char → List Char → List Char) (name : Option (List Char)) : Except Err EncKind :=
  match name with
  | none => .ok .utf8
  | some n =>
    if n.map Char.toLower ∈ ["ascii", "utf8", "utf-8", "utf-8-sig"].map String.toList then .ok .utf8
    else if n.map Char.toLower ∈ ["utf16", "utf-16"].map String.toList then .ok .utf16
    else if n ∈ ["Windows-1252", "ISO-8859-1"].map String.toList then .ok (.conv (conv n))
    else .error .other

end Tablite
