import Verif.Model.Refcount
/-!
# Page files of several processes: `tablite/base.py:40-196`, `tablite/config.py:47`

Processes on one machine share the disk; each has its own `SimplePage.refcounts`, counter and objects (`Model/Refcount.lean`).  A process works in the directory `Config.pid`, which is set when
tablite is imported (config.py:47): a process that is started (or spawned) imports it itself, a process that is forked keeps the value of its parent.
Names of page files contain `os.getpid()` (base.py:99), which is never inherited.  The operating system gives no two running processes the same number, but uses numbers again.
`next_id` and the creation of the file are one step here; as names contain the number of the process, nothing another process does in between matters.
-/

namespace Tablite

/-- `workdir/pid-{dir}/pages/{pid}-{n}.npy`, base.py:73, 99 -/
structure PgPath where
  dir : Nat
  pid : Nat
  n : Nat
  deriving DecidableEq

/-- the name of a new page, base.py:98-100 -/
def mkPath (pid dir n : Nat) : PgPath := ⟨dir, pid, n⟩

/-- `SimplePage.owns`, base.py:121-124; `conf` is the number in `Config.pid` -/
def ownsPath (conf : Nat) (p : PgPath) : Bool := decide (p.dir = conf)

/-- a process: `os.getpid()`, the number in `Config.pid`, and its objects and counts.  The files are those of the machine. -/
structure MProc (D : Type) where
  pid : Nat
  conf : Nat
  st : Proc PgPath D

/-- a machine -/
structure Host (D : Type) where
  files : List (PgPath × D) := []
  procs : List (MProc D) := []

/-- what can happen -/
inductive HEv (D : Type) where
  /-- a process is started, or spawned by another -/
  | start (pid : Nat)
  /-- `os.fork()` in `parent` -/
  | fork (parent child : Nat)
  /-- a process does something with pages; files are only removed by `collect` -/
  | act (pid : Nat) (e : Ev PgPath D Nat)
  /-- the end of a process: with `shutdown` (base.py:56-61), which removes its directory, or without (killed, `os._exit`, or no table was made) -/
  | exit (pid : Nat) (shutdown : Bool)

section
variable {D : Type}

/-- the process with a number -/
def Host.find (h : Host D) (pid : Nat) : Option (MProc D) := h.procs.find? fun m => decide (m.pid = pid)

/-- the process as it sees the disk -/
def MProc.view (m : MProc D) (files : List (PgPath × D)) : Proc PgPath D := { m.st with files := files }

/-- `rmtree` of a directory, base.py:61 -/
def rmDir (conf : Nat) (files : List (PgPath × D)) : List (PgPath × D) := files.filter fun e => !ownsPath conf e.1

/-- an event on pages that the code of a process can do -/
def Ev.own : Ev PgPath D Nat → Bool
  | .foreignRemove _ => false
  | _ => true

/-- one step; `none` if the event cannot happen in this state -/
def Host.step (h : Host D) : HEv D → Option (Host D)
  | .start pid =>
    match h.find pid with
    | some _ => none
    | none => some { h with procs := h.procs ++ [⟨pid, pid, {}⟩] }
  | .fork parent child =>
    match h.find parent, h.find child with
    | some m, none => some { h with procs := h.procs ++ [{ m with pid := child }] }
    | _, _ => none
  | .act pid e =>
    match h.find pid with
    | none => none
    | some m =>
      if e.own then
        match (m.view h.files).step (mkPath m.pid) (ownsPath m.conf) e with
        | none => none
        | some s => some { files := s.files, procs := h.procs.map fun m' => if m'.pid = pid then { m' with st := s } else m' }
      else none
  | .exit pid shutdown =>
    match h.find pid with
    | none => none
    | some m => some { files := if shutdown then rmDir m.conf h.files else h.files, procs := h.procs.filter fun m' => decide (m'.pid ≠ pid) }

/-- a history -/
def Host.run (h : Host D) : List (HEv D) → Option (Host D)
  | [] => some h
  | e :: es =>
    match h.step e with
    | none => none
    | some h' => h'.run es

end

end Tablite
