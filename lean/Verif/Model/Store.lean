import Verif.Model.ColumnWrite
/-!
# Pages with identity: a store of page files and their type-count dictionaries

In tablite a column holds references to `Page` objects, pages may be shared between columns (`copy`, `+=`, `*=`), a page's data sits in
a file that is written once, and `page.dtype` is a mutable dictionary {python type: count} (base.py:67-196).
This file models the column operations at that level.  `α` values, `τ` Python types, `ty : α → τ` the `pytype` of a value
(datatypes.py:715-726).  A type-count dictionary is a function `τ → Nat` (missing key = 0; keys with count 0 are removed by the code, see
base.py:457-458).
-/

namespace Tablite

/-- a page: data of its file and a reference to its `dtype` dictionary (base.py:72-77). -/
structure Pg (α : Type _) where
  data : List α
  dref : Nat

/-- the store: pages by id, dictionaries by reference.  Page files are only ever added (base.py:159-196); removal of unreferenced
files is the subject of `Model/Refcount.lean`. -/
structure Store (α τ : Type _) where
  pgs : List (Pg α) := []
  dicts : List (τ → Nat) := []

/-- number of values of each type (`Counter(pytype(v) for v in iterable)`, datatypes.py:756-802). -/
def typeCounts {α τ} [DecidableEq τ] (ty : α → τ) (l : List α) : τ → Nat :=
  fun t => l.countP (fun v => ty v = t)

/-- a loaded page reference: id and data -/
structure Ref (α : Type _) where
  id : Nat
  data : List α

/-- what an operation wants a page slot of the column to be -/
inductive Plan (α : Type _) where
  /-- the same page object -/
  | keep (r : Ref α)
  /-- a new page with freshly counted types (`_paginate`, `list_to_np_array`) -/
  | fresh (data : List α)
  /-- `_setitem_integer_key`: copy of the dictionary, one count up, one down -/
  | bump (r : Ref α) (k : Nat) (v : α)
  /-- new page whose array inherits the old page's metadata object (`np.delete`, `np.compress` on a `MetaArray`) -/
  | stale (r : Ref α) (data : List α)
  /-- `replace`: the old page's dictionary is updated in place and shared by the new page -/
  | mutate (r : Ref α) (mapping : List (α × α))

/-- the data a planned page will hold -/
def Plan.data {α} [DecidableEq α] : Plan α → List α
  | .keep r => r.data
  | .fresh d => d
  | .bump r k v => r.data.set k v
  | .stale _ d => d
  | .mutate r m => r.data.map fun x => (m.lookup x).getD x

/-- base.py:446-464 -/
def planSetInt {α} (key : Int) (v : α) : Int → List (Ref α) → List (Plan α)
  | _, [] => []
  | start, r :: rest =>
    let end_ := start + r.data.length
    if start ≤ key ∧ key < end_ then .bump r (key - start).toNat v :: rest.map .keep
    else .keep r :: planSetInt key v end_ rest

/-- base.py:485-497 -/
def planSetExtend {α} (ps : Nat) (key : Int) (value : List α) : List (Plan α) → Int → List (Ref α) → List (Plan α)
  | done, _, [] => done ++ [.fresh value]
  | done, start, r :: rest =>
    let end_ := start + r.data.length
    if start ≤ key ∧ key < end_ then done ++ (paginate ps (r.data.take (key - start).toNat ++ value)).map .fresh
    else planSetExtend ps key value (done ++ [.keep r]) end_ rest

/-- base.py:513-524 -/
def planSetPrextend {α} (ps : Nat) (stop : Int) (value : List α) : Int → List (Ref α) → Option (List (Plan α))
  | _, [] => none
  | start, r :: rest =>
    let end_ := start + r.data.length
    if start ≤ stop ∧ stop < end_ then
      some ((paginate ps (value ++ r.data.drop (stop - start).toNat)).map .fresh ++ rest.map .keep)
    else planSetPrextend ps stop value end_ rest

/-- the pages the loop of `_setitem_insert` keeps (base.py:541-559), as references: `unchanged_head`, `unchanged_tail`. -/
def planInsertKeep {α} (ks ke : Int) : Int → List (Ref α) → List (Ref α) × List (Ref α)
  | _, [] => ([], [])
  | start, r :: rest =>
    let end_ := start + r.data.length
    let (h, t) := planInsertKeep ks ke end_ rest
    (if end_ ≤ ks then r :: h else h, if ke < start then r :: t else t)

/-- classification of `_setitem_update` on references (base.py:580-592): head, changed, tail. -/
def planUpdateClass {α} (ks ke : Int) : Int → List (Ref α) → List (Ref α) × List (Ref α) × List (Ref α) → List (Ref α) × List (Ref α) × List (Ref α)
  | _, [], acc => acc
  | start, r :: rest, (h, c, t) =>
    let end_ := start + r.data.length
    planUpdateClass ks ke end_ rest <|
      if end_ ≤ ks ∧ c = [] then (h ++ [r], c, t)
      else if start ≤ ks ∧ ks < end_ then (h, c ++ [r], t)
      else if start ≤ ke ∧ ke < end_ then (h, c ++ [r], t)
      else (h, c, t ++ [r])

/-- classification of `_del_by_slice` on references (base.py:645-656). -/
def planDelClass {α} (ks ke : Int) : Int → List (Ref α) → List (Ref α) × List (Ref α) × List (Ref α) → List (Ref α) × List (Ref α) × List (Ref α)
  | _, [], acc => acc
  | start, r :: rest, (h, c, t) =>
    let end_ := start + r.data.length
    planDelClass ks ke end_ rest <|
      if ke < start ∧ c = [] then (h ++ [r], c, t)
      else if start ≤ ks ∧ ks < end_ then (h, c ++ [r], t)
      else if start ≤ ke ∧ ke ≤ end_ then (h, c ++ [r], t)
      else (h, c, t ++ [r])

/-- base.py:620-633 -/
def planDelInt {α} (key : Int) : Int → List (Ref α) → Except Err (List (Plan α))
  | _, [] => .ok []
  | start, r :: rest =>
    let end_ := start + r.data.length
    if start ≤ key ∧ key < end_ then
      if key < r.data.length then do
        let more ← planDelInt key end_ rest
        .ok (.stale r (r.data.eraseIdx key.toNat) :: more)
      else .error .index
    else do
      let more ← planDelInt key end_ rest
      .ok (.keep r :: more)

/-- column operations that change a column in place -/
inductive ColOp (α : Type _) where
  | extend (v : List α)
  | extendCol (other : Nat)
  | setInt (i : Int) (v : α)
  | setSlice (s : PySlice) (v : List α)
  | delInt (i : Int)
  | delSlice (s : PySlice)
  | imul (n : Int)
  | removeAll (vs : List α)
  | replace (m : List (α × α))
  | clear

/-- the plan of an operation on the loaded pages `rs` of the target column (`others` = loaded pages of any column by index). -/
def plan {α} [DecidableEq α] (ps : Nat) (others : Nat → List (Ref α)) (rs : List (Ref α)) : ColOp α → Except Err (List (Plan α))
  | .extend v => .ok (rs.map .keep ++ (paginate ps v).map .fresh)
  | .extendCol o => .ok (rs.map .keep ++ (others o).map .keep)
  | .clear => .ok []
  | .imul n => if n > 0 then .ok ((List.replicate n.toNat rs).flatten.map .keep) else .error .type
  | .setInt i v =>
    let length := colLen (rs.map Ref.data)
    let key := if i < 0 then (length : Int) + i else i
    if 0 ≤ key ∧ key < length then .ok (planSetInt key v 0 rs) else .error .index
  | .delInt i => planDelInt i 0 rs
  | .removeAll vs => .ok (rs.map fun r =>
      if r.data.any fun x => vs.contains x then .stale r (r.data.filter fun x => !vs.contains x) else .keep r)
  | .replace m => .ok (rs.map fun r =>
      if r.data.any fun x => (m.map (·.1)).contains x then .mutate r m else .keep r)
  | .setSlice s v =>
    if s.step = none ∨ s.step = some 1 then
      match s.start, s.stop with
      | none, none => .ok ((paginate ps v).map .fresh)
      | some a, none => .ok (planSetExtend ps a v [] 0 rs)
      | none, some b =>
        if b = colLen (rs.map Ref.data) then .ok ((paginate ps v).map .fresh)
        else
          let b' := if b < 0 then (({ stop := some b } : PySlice).indices (colLen (rs.map Ref.data))).2.1 else b
          match planSetPrextend ps b' v 0 rs with
          | some p => .ok p
          | none => .ok (rs.map .keep)
      | some a, some b =>
        let (ks, ke0, _) := ({ start := some a, stop := some b } : PySlice).indices (colLen (rs.map Ref.data))
        let ke := if ks > ke0 then ks else ke0
        let acc := setInsertLoop ks ke 0 (rs.map Ref.data) {}
        let (h, t) := planInsertKeep ks ke 0 rs
        .ok (h.map .keep ++ (paginate ps (acc.head ++ v ++ acc.tail)).map .fresh ++ t.map .keep)
    else if s.step = some 0 then .error .value
    else
      let (ks, ke, k) := s.indices (colLen (rs.map Ref.data))
      let seq := rangeList ks ke k
      if v.length > seq.length then .error .value
      else
        let (h, c, t) := planUpdateClass ks ke 0 rs ([], [], [])
        let acc := setUpdateLoop ks ke 0 (rs.map Ref.data) {}
        if c = [] then .error .value
        else do
          let new ← setUpdateWrite acc.startsOn seq v (c.map Ref.data).flatten
          .ok (h.map .keep ++ (paginate ps new).map .fresh ++ t.map .keep)
  | .delSlice s =>
    if s.step = some 0 then .error .value
    else
      let (ks, ke, k) := s.indices (colLen (rs.map Ref.data))
      let seq := rangeList ks ke k
      let (h, c, t) := planDelClass ks ke 0 rs ([], [], [])
      let acc := delSliceLoop ks ke 0 (rs.map Ref.data) {}
      if c = [] then .error .value
      else
        match acc.startsOn with
        | none => if seq = [] then .ok (h.map .keep ++ (paginate ps (c.map Ref.data).flatten).map .fresh ++ t.map .keep) else .error .unbound
        | some so => do
          let pruned ← npDelete (c.map Ref.data).flatten (seq.map (· - so))
          .ok (h.map .keep ++ (paginate ps pruned).map .fresh ++ t.map .keep)

section
variable {α τ : Type} [DecidableEq α] [DecidableEq τ] (ty : α → τ)

/-- add one and subtract one, in that order (base.py:452-458; `replace` 912-918) -/
def bumpCounts (d : τ → Nat) (new old : τ) : τ → Nat :=
  let d1 := fun t => if t = new then d t + 1 else d t
  fun t => if t = old then d1 t - 1 else d1 t

/-- the dictionary of page `id` -/
def Store.dictOf (st : Store α τ) (id : Nat) : Option (τ → Nat) := do
  let p ← st.pgs[id]?
  st.dicts[p.dref]?

/-- `Page(path, array)`, base.py:159-196, with a new dictionary object -/
def Store.newPage (st : Store α τ) (data : List α) (d : τ → Nat) : Store α τ × Nat :=
  ({ pgs := st.pgs ++ [⟨data, st.dicts.length⟩], dicts := st.dicts ++ [d] }, st.pgs.length)

/-- `Page(path, array)` whose metadata is an existing dictionary object -/
def Store.newPageSharing (st : Store α τ) (data : List α) (dref : Nat) : Store α τ × Nat :=
  ({ st with pgs := st.pgs ++ [⟨data, dref⟩] }, st.pgs.length)

/-- carry out one planned slot; `none` if a reference dangles (excluded by the invariant `World.WF`). -/
def Store.exec1 (st : Store α τ) : Plan α → Option (Store α τ × Nat)
  | .keep r => some (st, r.id)
  | .fresh d => some (st.newPage d (typeCounts ty d))
  | .bump r k v => do
    let d ← st.dictOf r.id
    let old ← r.data[k]?
    some (st.newPage (r.data.set k v) (bumpCounts d (ty v) (ty old)))
  | .stale r d => do
    let p ← st.pgs[r.id]?
    some (st.newPageSharing d p.dref)
  | .mutate r m => do
    let p ← st.pgs[r.id]?
    let d ← st.dicts[p.dref]?
    let hits := r.data.filter fun x => (m.map (·.1)).contains x
    let d' := hits.foldl (fun d x => bumpCounts d (ty ((m.lookup x).getD x)) (ty x)) d
    some (({ st with dicts := st.dicts.set p.dref d' }).newPageSharing (r.data.map fun x => (m.lookup x).getD x) p.dref)

/-- carry out a plan slot after slot -/
def Store.exec (st : Store α τ) : List (Plan α) → Option (Store α τ × List Nat)
  | [] => some (st, [])
  | p :: ps => do
    let (st1, i) ← st.exec1 ty p
    let (st2, is) ← Store.exec st1 ps
    some (st2, i :: is)

/-- a program state: the store and all columns (lists of page ids) -/
structure World (α τ : Type) where
  st : Store α τ := {}
  cols : List (List Nat) := []

/-- the loaded pages of a list of ids -/
def Store.load (st : Store α τ) (ids : List Nat) : List (Ref α) :=
  ids.filterMap fun i => (st.pgs[i]?).map fun p => ⟨i, p.data⟩

/-- the pages (values) of column `c`; empty for an unknown column. -/
def World.pages (w : World α τ) (c : Nat) : Pages α :=
  match w.cols[c]? with
  | some ids => (w.st.load ids).map Ref.data
  | none => []

/-- `Column.types()` of column `c`, base.py:927-938: the per-page dictionaries added up. -/
def World.types (w : World α τ) (c : Nat) : τ → Nat :=
  match w.cols[c]? with
  | some ids => fun t => (ids.map fun i => match w.st.dictOf i with | some d => d t | none => 0).sum
  | none => fun _ => 0

/-- program steps -/
inductive Cmd (α : Type _) where
  /-- `c = Column(path, values)` -/
  | new (v : List α)
  /-- `d = c.copy()`, base.py:791-799 -/
  | copy (c : Nat)
  /-- an in-place operation on column `c` -/
  | op (c : Nat) (o : ColOp α)

/-- one step; an operation that raises leaves the state unchanged; `none` only for dangling references. -/
def World.step (ps : Nat) (w : World α τ) : Cmd α → Option (World α τ)
  | .new v => do
    let (st, ids) ← w.st.exec ty ((paginate ps v).map .fresh)
    some { st := st, cols := w.cols ++ [ids] }
  | .copy c =>
    match w.cols[c]? with
    | some ids => some { w with cols := w.cols ++ [ids] }
    | none => some w
  | .op c o =>
    match w.cols[c]? with
    | none => some w
    | some ids =>
      match plan ps (fun d => match w.cols[d]? with | some js => w.st.load js | none => []) (w.st.load ids) o with
      | .error _ => some w
      | .ok pl => do
        let (st, ids') ← w.st.exec ty pl
        some { st := st, cols := w.cols.set c ids' }

/-- a history of steps -/
def World.run (ps : Nat) (w : World α τ) : List (Cmd α) → Option (World α τ)
  | [] => some w
  | c :: cs => do
    let w1 ← w.step ty ps c
    World.run ps w1 cs

end

end Tablite
