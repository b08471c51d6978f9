import Verif.Spec.PySlice
/-!
# Page files of an import: `nimlite/funcs/text_reader/file_tracker.nim`

While a task of the text import runs, it writes to one page file for each column, in turns.  If there are more columns than files may be open (`MAX_FILES_OPEN`), files are closed and
opened again.  `β` is what is written at a time; a file is the list of what has been written to it since it was created.  Writing to a closed file raises an exception.
Not modelled: failures of the operating system; buffers (a file that is closed has been flushed).
-/

namespace Tablite

variable {β : Type}

/-- `FileTrackerSimple` and `FileTrackerDeferred`, file_tracker.nim:8-21.  `limit` is `MAX_FILES_OPEN`, `isOpen` says which of the `pageHandles` are open, `order` is `openOrder`;
`files` is what the files contain. -/
structure Tracker (β : Type) where
  limit : Nat
  deferred : Bool
  isOpen : List Bool
  pagesOpen : Nat
  order : List Nat
  files : List (List β)

/-- `newFileTracker`, file_tracker.nim:23-37: all files are created empty; they stay open unless there are too many.  `old` is what was in the files before. -/
def newTracker (limit : Nat) (old : List (List β)) : Tracker β :=
  if old.length ≤ limit then { limit, deferred := false, isOpen := old.map fun _ => true, pagesOpen := 0, order := [], files := old.map fun _ => [] }
  else { limit, deferred := true, isOpen := old.map fun _ => false, pagesOpen := 0, order := [], files := old.map fun _ => [] }

/-- `getHandle`, file_tracker.nim:39-50: `fmAppend` keeps what is in the file -/
def getHandle (t : Tracker β) (i : Nat) : Except Err (Tracker β) :=
  match t.isOpen[i]? with
  | none => .error .index
  | some true => .ok t
  | some false => .ok { t with isOpen := t.isOpen.set i true, pagesOpen := t.pagesOpen + 1, order := t.order ++ [i] }

/-- `closeHandle`, file_tracker.nim:52-59 -/
def closeHandle (t : Tracker β) (i : Nat) : Except Err (Tracker β) :=
  match t.isOpen[i]? with
  | none => .error .index
  | some false => .ok t
  | some true => .ok { t with isOpen := t.isOpen.set i false, pagesOpen := t.pagesOpen - 1 }

/-- `tracker[i]`, file_tracker.nim:61-70.  An empty `openOrder` has no head: the access to `head.value` fails. -/
def trackerGet (t : Tracker β) (i : Nat) : Except Err (Tracker β) :=
  if t.deferred then
    if t.pagesOpen < t.limit then getHandle t i
    else
      match t.order with
      | [] => .error .other
      | h :: rest => do
        let t ← closeHandle t h
        getHandle { t with order := rest } i
  else if i < t.isOpen.length then .ok t else .error .index

/-- a write to the file `tracker[i]`, as in paging.nim:252-258 -/
def trackerWrite (t : Tracker β) (w : Nat × β) : Except Err (Tracker β) := do
  let t ← trackerGet t w.1
  match t.isOpen[w.1]? with
  | some true => .ok { t with files := t.files.modify w.1 (· ++ [w.2]) }
  | _ => .error .other

/-- `close`, file_tracker.nim:72-74 -/
def trackerClose (t : Tracker β) : Tracker β := { t with isOpen := t.isOpen.map fun _ => false }

/-- all writes of a task, then `close`: what the files contain -/
def trackerRun (limit : Nat) (old : List (List β)) (ws : List (Nat × β)) : Except Err (List (List β)) := do
  let t ← ws.foldlM trackerWrite (newTracker limit old)
  .ok (trackerClose t).files

end Tablite
