import Verif.Model.SaveLoad
/-!
# A save that is interrupted: `tablite/base.py` `BaseTable.save`, 1400-1417

`zipfile.ZipFile(path, "w")` truncates the file at `path` and writes entries one after the other; the directory of the archive, without which it cannot be read, is written when the archive is
closed.  An exception within the `with` block closes the archive; when the process is killed nothing is closed.  An entry is taken to be written as a whole or not at all, and a file without
directory is taken to be unreadable (`BadZipFile`, here `value`); that a page could contain the bytes of a directory is left out.
-/
namespace Tablite

section
variable {ν η α : Type} [DecidableEq ν] [DecidableEq η]

/-- what is at the path of the archive: nothing, a file without directory, an archive -/
inductive TpzFile (ν η α : Type)
  | absent
  | broken
  | zip (entries : List (η × Entry ν η α))

/-- `load` of the path, base.py:1419-1453 -/
def fileLoad (ps : Nat) (yml : η) : TpzFile ν η α → Except Err (Tbl ν α)
  | .absent => .error .other
  | .broken => .error .value
  | .zip z => tblLoad ps yml z

/-- the entries that are written when the files of some pages cannot be read (`open(page.path, "rb")` raises), base.py:1405-1411 -/
def writtenEntries (yml : η) (ord : List (η × List α) → List (η × List α)) (readable : η → Bool) (t : NTbl ν η α) : List (η × Entry ν η α) :=
  (archive yml ord t).takeWhile fun e => decide (e.1 = yml) || readable e.1

/-- `save` to a path, base.py:1400-1417: the file afterwards and the outcome.  What was in the file before is not looked at. -/
def saveTo (yml : η) (ord : List (η × List α) → List (η × List α)) (readable : η → Bool) (_old : TpzFile ν η α) (t : NTbl ν η α) : TpzFile ν η α × Except Err Unit :=
  let z := writtenEntries yml ord readable t
  (.zip z, if z.length < (archive yml ord t).length then .error .other else if (t.map fun c => c.2.length).sum = 0 then .error .zeroDivision else .ok ())

/-- the file when an exception ends `save` after `k` entries (for example an interrupt from the keyboard) -/
def interruptedAt (yml : η) (ord : List (η × List α) → List (η × List α)) (k : Nat) (t : NTbl ν η α) : TpzFile ν η α := .zip ((archive yml ord t).take k)

/-- the file when the process is killed after `k` steps: the file is opened, the entries are written, the archive is closed -/
def killedAfter (yml : η) (ord : List (η × List α) → List (η × List α)) (k : Nat) (old : TpzFile ν η α) (t : NTbl ν η α) : TpzFile ν η α :=
  if k = 0 then old else if k ≤ (archive yml ord t).length + 1 then .broken else .zip (archive yml ord t)

end

end Tablite
