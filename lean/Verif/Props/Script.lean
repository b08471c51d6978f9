import Verif.Props.TableShape
import Verif.Props.NearestRel
import Verif.Props.PivotRel
import Verif.Props.UnpivotRel
import Verif.Props.LookupRel
/-!
# C128: scripts

Scripts of assignments whose right hand sides are pipelines, group-bys, pivots, imputations and joins.  They are scripts on lists of rows, because every operation gives columns cut at the same places
(`Props/TableShape.lean`); `stack` of tables with different columns is the exception.
-/

namespace Tablite

section
variable {K : Type} [LinearOrder K] {ν κ η : Type} [DecidableEq ν] [DecidableEq η]

/-- a statement of a script: the table it computes from the tables at hand -/
inductive Stmt (ν κ φ : Type)
  | query (q : Query ν κ)
  | group (keys : List ν) (functions : List (ν × φ)) (q : Query ν κ)
  | left (lk rk lc rc : List ν) (q p : Query ν κ)
  | outer (lk rk lc rc : List ν) (q p : Query ν κ)
  /-- `imputation(targets=[a], missing=[m], method='nearest neighbour', sources=…)`; `sortVals` is the order of `unixSort` -/
  | nearest (sortVals : List SVal → List SVal) (m : SVal) (sources : List ν) (a : ν) (q : Query ν κ)
  /-- `pivot(rows, columns, functions, values_as_rows)`; `N` makes the names of the columns -/
  | pivot (N : PivotNames ν SVal φ) (asRows : Bool) (rows columns : List ν) (functions : List (ν × φ)) (q : Query ν κ)
  /-- `imputation(targets, missing, method='carry forward')`; `store` is what the array of a column makes of None -/
  | carry (missing : SVal → Bool) (store : List SVal → Except Err SVal) (targets : List ν) (q : Query ν κ)
  /-- `pivot_transpose(columns, keep, column_name, value_name)`; `asVal` is a name as a value, `npArr` what `np.array` makes of a list, rows are written after each `limit` of them -/
  | unpivot (limit : Nat) (asVal : ν → SVal) (npArr : List SVal → List SVal) (columns keep : List ν) (columnName valueName : ν) (q : Query ν κ)
  /-- `lookup(other, *criteria, all)`; `ord` is the iteration order of a set of names -/
  | lookup (ord : List ν → List ν) (all : Bool) (crits : List (Criterion ν SVal)) (q p : Query ν κ)

/-- what a group-by function does: groupby.nim, `init`, `update`, `value` of an accumulator and the name of its column -/
structure Folds (ν φ σ : Type) where
  init : φ → σ
  upd : φ → σ → SVal → Except Err σ
  val : φ → σ → Except Err SVal
  nm : φ → ν → ν

variable {φ σ : Type}

/-- Model: pipelines as in `Query.run`, then `groupby` (groupby.nim), `tblJoin` (joins.py), `nearest` (imputation.nim), `pivot`, `pivotTranspose` (pivots.py), `imputeCarry` (imputation.py) or `tblLookup` (lookup.py) -/
def Stmt.run (S : Surroundings ν κ K η) (F : Folds ν φ σ) (ps : Nat) (db : Nat → Tbl ν SVal) : Stmt ν κ φ → Except Err (Tbl ν SVal)
  | .query q => q.run S ps db
  | .group keys functions q => do groupby .none F.init F.upd F.val F.nm ps (← q.run S ps db) keys functions
  | .left lk rk lc rc q p => do
    let t ← q.run S ps db
    let u ← p.run S ps db
    tblJoin ps S.fresh S.jord .none .left t u lk rk lc rc
  | .outer lk rk lc rc q p => do
    let t ← q.run S ps db
    let u ← p.run S ps db
    tblJoin ps S.fresh S.jord .none .outer t u lk rk lc rc
  | .nearest sortVals m sources a q => do Tablite.nearest sortVals [m] sources [a] (← q.run S ps db)
  | .pivot N asRows rows columns functions q => do
    let t ← q.run S ps db
    Tablite.pivot ps S.fresh N .none (groupby .none F.init F.upd F.val F.nm ps t (rows ++ columns) functions) rows columns functions asRows
  | .carry missing store targets q => do imputeCarry ps missing store (← q.run S ps db) (.inr targets)
  | .unpivot limit asVal npArr columns keep columnName valueName q => do pivotTranspose ps limit S.fresh asVal npArr .none (← q.run S ps db) columns keep columnName valueName
  | .lookup ord all crits q p => do
    let t ← q.run S ps db
    let u ← p.run S ps db
    tblLookup S.hash ord ps S.fresh .none all t u crits

/-- a step of the pipeline writes all rows anew, and after it columns are selected and values replaced only -/
def Query.Recut : Query ν κ → Prop
  | .sort .. | .pick .. | .unique .. | .inner .. | .cross .. => True
  | .select _ q | .replace _ _ q => q.Recut
  | _ => False

/-- the columns of such a pipeline are cut by the page size -/
theorem run_recut (S : Surroundings ν κ K η) (hmk : ∀ d a b, S.fresh d a = S.fresh d b → a = b) (hord : ∀ l v, v ∈ S.ord l ↔ v ∈ l) (hjord : ∀ l, (S.jord l).Perm l) (ps : Nat) (hps : 0 < ps) (db : Nat → Tbl ν SVal)
    (rels : Nat → Rel ν SVal) (hdb : ∀ i, Shows .none (db i) (rels i)) (q : Query ν κ) (hq : q.Ok S true rels) (hr : q.Recut) (t : Tbl ν SVal) (ht : q.run S ps db = .ok t) : CutByPageSize ps t := by
  induction q generalizing t with
  | sort keys q _ =>
    obtain ⟨u, u1, ht⟩ := ebind_ok ht
    unfold tblSort at ht
    obtain ⟨idx, -, ht⟩ := ebind_ok ht
    exact tblReindex_full ps hps _ u t _ (by
      intro i hi
      obtain ⟨n, -, rfl⟩ := List.mem_map.1 hi
      omega) ht
  | pick index q _ =>
    obtain ⟨u, u1, ht⟩ := ebind_ok ht
    obtain ⟨t0, a, h1, h2, h3⟩ := C127_partial S hmk hord ps hps db rels hdb q hq.1
    exact tblReindex_full ps hps _ u t _ (fun i hi => (hq.2 a h2 i hi).1) ht
  | unique q _ =>
    obtain ⟨u, u1, ht⟩ := ebind_ok ht
    unfold dropDuplicates at ht
    obtain ⟨idx, -, ht⟩ := ebind_ok ht
    exact tblReindex_full ps hps _ u t _ (by
      intro i hi
      obtain ⟨n, -, rfl⟩ := List.mem_map.1 hi
      omega) ht
  | replace mapping ns q ih =>
    obtain ⟨u, u1, ht⟩ := ebind_ok ht
    have hu := ih hq.1 hr u u1
    split at ht
    · next e =>
      injection ht with ht
      subst ht
      unfold tblReplace at e ⊢
      split at e
      · cases e
      · next ns' h =>
        intro c hc
        have hmem : c.2.map List.length ∈ (ns'.foldl (replaceIn mapping) u).map fun c => c.2.map List.length := List.mem_map.2 ⟨c, hc, rfl⟩
        rw [replace_shape] at hmem
        obtain ⟨d, hd, e⟩ := List.mem_map.1 hmem
        have := hu d hd
        unfold colLen at this ⊢
        rwa [e] at this
    · cases ht
  | select names q ih =>
    obtain ⟨u, u1, ht⟩ := ebind_ok ht
    have hu := ih hq.1 hr u u1
    obtain ⟨hq, hnd, hne, hl, hc⟩ := hq
    obtain ⟨u', a, h1, h2, h3⟩ := C127_partial S hmk hord ps hps db rels hdb q hq
    rw [u1] at h1
    injection h1 with h1
    subst h1
    have := List.length_pos_of_ne_nil hne
    have := hl rfl
    have hsub := select_shape ps u t names (by omega) hnd (by rw [h3.2.1]; exact hc a h2) ht
    exact fun c hc => hu c (hsub c hc)
  | inner lk rk lc rc q p _ _ =>
    obtain ⟨u, u1, ht⟩ := ebind_ok ht
    obtain ⟨v, v1, ht⟩ := ebind_ok ht
    obtain ⟨hq, hp, hc⟩ := hq
    obtain ⟨u', a, h1, h2, h3⟩ := C127_partial S hmk hord ps hps db rels hdb q hq
    obtain ⟨v', b, g1, g2, g3⟩ := C127_partial S hmk hord ps hps db rels hdb p hp
    rw [u1] at h1
    injection h1 with h1
    subst h1
    rw [v1] at g1
    injection g1 with g1
    subst g1
    obtain ⟨⟨n, hn⟩, -⟩ := tblJoin_layout ps hps S.fresh hmk S.jord hjord .none .inner u v _ _ h3.2.2.1 g3.2.2.1 h3.ne g3.ne lk rk lc rc (h3.joinOk g3 (hc a b h2 g2)) (by simp) t ht
    intro c hc
    have hn := hn c hc
    rw [layoutOf_joinParts ps n hps] at hn
    unfold colLen
    rw [hn, layoutOf_sum ps n hps]
  | cross lk rk lc rc q p _ _ =>
    obtain ⟨u, u1, ht⟩ := ebind_ok ht
    obtain ⟨v, v1, ht⟩ := ebind_ok ht
    obtain ⟨hq, hp, hc⟩ := hq
    obtain ⟨u', a, h1, h2, h3⟩ := C127_partial S hmk hord ps hps db rels hdb q hq
    obtain ⟨v', b, g1, g2, g3⟩ := C127_partial S hmk hord ps hps db rels hdb p hp
    rw [u1] at h1
    injection h1 with h1
    subst h1
    rw [v1] at g1
    injection g1 with g1
    subst g1
    obtain ⟨⟨n, hn⟩, -⟩ := tblJoin_layout ps hps S.fresh hmk S.jord hjord .none .cross u v _ _ h3.2.2.1 g3.2.2.1 h3.ne g3.ne lk rk lc rc (h3.joinOk g3 (hc a b h2 g2).1) (by simp) t ht
    intro c hc
    have hn := hn c hc
    rw [layoutOf_joinParts ps n hps] at hn
    unfold colLen
    rw [hn, layoutOf_sum ps n hps]
  | _ => cases hr

/-- Spec: `r` is a result of the statement on relations -/
def Stmt.Gives (S : Surroundings ν κ K η) (F : Folds ν φ σ) (rels : Nat → Rel ν SVal) : Stmt ν κ φ → Rel ν SVal → Prop
  | .query q, r => q.Gives S rels r
  | .group keys functions q, r => ∃ a agg, q.Gives S rels a ∧
      (∀ f ∈ functions, ∀ k ∈ a.keysOf .none keys, aggOf F.init F.upd F.val f.2 ((a.withKey .none keys k).map fun row => a.get .none row f.1) = .ok (agg f k)) ∧ r = a.grouped .none F.nm keys functions agg
  | .left lk rk lc rc q p, r => ∃ a b rows, q.Gives S rels a ∧ p.Gives S rels b ∧ rows.Perm (a.leftJoined .none b lk rk lc rc) ∧ r = ⟨lc ++ rightNames S.fresh lc rc, rows⟩
  | .outer lk rk lc rc q p, r => ∃ a b rows, q.Gives S rels a ∧ p.Gives S rels b ∧ rows.Perm (a.outerJoined .none b lk rk lc rc) ∧ r = ⟨lc ++ rightNames S.fresh lc rc, rows⟩
  | .nearest sortVals m sources a q, r => ∃ b, q.Gives S rels b ∧ b.Imputed sortVals m .none sources a r
  | .pivot N asRows rows columns functions q, r => ∃ a agg, q.Gives S rels a ∧
      (∀ f ∈ functions, ∀ k ∈ a.keysOf .none (rows ++ columns), aggOf F.init F.upd F.val f.2 ((a.withKey .none (rows ++ columns) k).map fun row => a.get .none row f.1) = .ok (agg f k)) ∧
      r = if asRows then a.pivotRows .none N rows columns functions agg else a.pivotCols .none N rows columns functions agg
  | .carry missing _ targets q, r => ∃ b, q.Gives S rels b ∧ r = b.carry .none missing targets
  | .unpivot _ asVal _ columns keep columnName valueName q, r => ∃ b, q.Gives S rels b ∧
      r = b.unpivot .none asVal columns keep (unpivotName S.fresh columns keep columnName) (unpivotValue S.fresh columns keep columnName valueName)
  | .lookup _ all crits q p, r => ∃ a b, q.Gives S rels a ∧ p.Gives S rels b ∧ r = a.lookedUp .none S.fresh all crits b

/-- The statement has a meaning on the relations.  With `strict` its tables are cut at the same places, and so is its result. -/
def Stmt.Ok (S : Surroundings ν κ K η) (F : Folds ν φ σ) (strict : Bool) (rels : Nat → Rel ν SVal) : Stmt ν κ φ → Prop
  | .query q => q.Ok S true rels ∧ (strict = true → q.Cut S rels)
  | .group keys functions q => q.Ok S true rels ∧ (strict = true → q.Cut S rels) ∧ keys ++ functions.map (·.1) ≠ [] ∧ (keys ++ functions.map fun f => F.nm f.2 f.1).Nodup ∧ ∀ a, q.Gives S rels a →
      (∀ x ∈ keys ++ functions.map (·.1), x ∈ a.names) ∧ ∀ f ∈ functions, ∀ k ∈ a.keysOf .none keys, ∃ v, aggOf F.init F.upd F.val f.2 ((a.withKey .none keys k).map fun row => a.get .none row f.1) = .ok v
  | .left lk rk lc rc q p => q.Ok S true rels ∧ p.Ok S true rels ∧ ∀ a b, q.Gives S rels a → p.Gives S rels b → Rel.JoinArgs a b lk rk lc rc
  | .outer lk rk lc rc q p => q.Ok S true rels ∧ p.Ok S true rels ∧ ∀ a b, q.Gives S rels a → p.Gives S rels b → Rel.JoinArgs a b lk rk lc rc
  | .nearest sortVals m sources a q => q.Ok S true rels ∧ (strict = true → q.Cut S rels) ∧ (∀ l, (sortVals l).Perm l) ∧ ∀ b, q.Gives S rels b → b.ImputeArgs m .none sources a
  | .pivot N asRows rows columns functions q => q.Ok S true rels ∧ (strict = true → q.Cut S rels) ∧ ∀ a, q.Gives S rels a → a.PivotArgs .none N F.nm rows columns functions asRows ∧
      ∀ f ∈ functions, ∀ k ∈ a.keysOf .none (rows ++ columns), ∃ v, aggOf F.init F.upd F.val f.2 ((a.withKey .none (rows ++ columns) k).map fun row => a.get .none row f.1) = .ok v
  | .carry missing store targets q => q.Ok S true rels ∧ ∀ b, q.Gives S rels b → b.CarryArgs .none missing store targets ∧ (strict = true → (∀ x ∈ b.names, x ∈ targets) ∨ q.Recut)
  | .unpivot _ asVal npArr columns keep columnName valueName q => q.Ok S true rels ∧ (∀ l, (npArr l).length = l.length) ∧
      ∀ b, q.Gives S rels b → b.UnpivotArgs .none asVal npArr columns keep (unpivotName S.fresh columns keep columnName) (unpivotValue S.fresh columns keep columnName valueName)
  | .lookup ord all crits q p => q.Ok S true rels ∧ p.Ok S true rels ∧ (strict = true → q.Recut) ∧ (∀ l, (ord l).Perm l) ∧ ∀ a b, q.Gives S rels a → p.Gives S rels b → a.LookupArgs .none S.hash all crits b

/-- the tables after the assignment `x = t` -/
def assign {β : Type} (env : Nat → β) (x : Nat) (t : β) : Nat → β := fun i => if i = x then t else env i

/-- Model: a script of assignments -/
def scriptRun (S : Surroundings ν κ K η) (F : Folds ν φ σ) (ps : Nat) : (Nat → Tbl ν SVal) → List (Nat × Stmt ν κ φ) → Except Err (Nat → Tbl ν SVal)
  | db, [] => .ok db
  | db, (x, s) :: rest => do
    let t ← s.run S F ps db
    scriptRun S F ps (assign db x t) rest

/-- Spec: the script on relations -/
def ScriptGives (S : Surroundings ν κ K η) (F : Folds ν φ σ) : (Nat → Rel ν SVal) → List (Nat × Stmt ν κ φ) → (Nat → Rel ν SVal) → Prop
  | rels, [], out => out = rels
  | rels, (x, s) :: rest, out => ∃ r, s.Gives S F rels r ∧ ScriptGives S F (assign rels x r) rest out

/-- every statement has a meaning on the relations it gets -/
def ScriptOk (S : Surroundings ν κ K η) (F : Folds ν φ σ) (strict : Bool) : (Nat → Rel ν SVal) → List (Nat × Stmt ν κ φ) → Prop
  | _, [] => True
  | rels, (x, s) :: rest => s.Ok S F strict rels ∧ ∀ r, s.Gives S F rels r → ScriptOk S F strict (assign rels x r) rest

/-- one statement -/
theorem stmt_shows (S : Surroundings ν κ K η) (F : Folds ν φ σ) (hmk : ∀ d a b, S.fresh d a = S.fresh d b → a = b) (hord : ∀ l v, v ∈ S.ord l ↔ v ∈ l) (hjord : ∀ l, (S.jord l).Perm l) (ps : Nat) (hps : 0 < ps)
    (db : Nat → Tbl ν SVal) (rels : Nat → Rel ν SVal) (hdb : ∀ i, Shows .none (db i) (rels i)) (hal : ∀ i, Aligned (db i)) (hso : ∀ i, Solid (db i)) (s : Stmt ν κ φ) (hs : s.Ok S F true rels) :
    ∃ t r, s.run S F ps db = .ok t ∧ s.Gives S F rels r ∧ Shows .none t r ∧ Aligned t ∧ Solid t := by
  cases s with
  | query q =>
    obtain ⟨hq, hc⟩ := hs
    obtain ⟨t, r, h1, h2, h3⟩ := C127_partial S hmk hord ps hps db rels hdb q hq
    have := run_shape S hmk hord hjord ps hps db rels hdb hal hso q hq t h1
    exact ⟨t, r, h1, h2, h3, this.1 (hc rfl), this.2⟩
  | group keys functions q =>
    obtain ⟨hq, hc, hne, hnd, ha⟩ := hs
    obtain ⟨t, a, h1, h2, h3⟩ := C127_partial S hmk hord ps hps db rels hdb q hq
    have hsh := run_shape S hmk hord hjord ps hps db rels hdb hal hso q hq t h1
    obtain ⟨hin, hagg⟩ := ha a h2
    have hagg' : ∀ (f : ν × φ) (k : List SVal), ∃ v, f ∈ functions → k ∈ a.keysOf .none keys → aggOf F.init F.upd F.val f.2 ((a.withKey .none keys k).map fun row => a.get .none row f.1) = .ok v := by
      intro f k
      by_cases h : f ∈ functions ∧ k ∈ a.keysOf .none keys
      · obtain ⟨v, hv⟩ := hagg f h.1 k h.2
        exact ⟨v, fun _ _ => hv⟩
      · exact ⟨.none, fun x y => absurd ⟨x, y⟩ h⟩
    choose agg hagg' using hagg'
    obtain ⟨g, g1, g2, g3, g4⟩ := h3.groupby (hsh.1 (hc rfl)) F.init F.upd F.val F.nm ps hps keys functions hin hne hnd agg (fun f hf k hk => hagg' f k hf hk)
    refine ⟨g, _, ?_, ⟨a, agg, h2, fun f hf k hk => hagg' f k hf hk, rfl⟩, g2, g3, g4⟩
    simp only [Stmt.run, h1, bind, Except.bind]
    exact g1
  | left lk rk lc rc q p =>
    obtain ⟨hq, hp, hc⟩ := hs
    obtain ⟨t, a, h1, h2, h3⟩ := C127_partial S hmk hord ps hps db rels hdb q hq
    obtain ⟨u, b, g1, g2, g3⟩ := C127_partial S hmk hord ps hps db rels hdb p hp
    have ht := (run_shape S hmk hord hjord ps hps db rels hdb hal hso q hq t h1).2
    have hu := (run_shape S hmk hord hjord ps hps db rels hdb hal hso p hp u g1).2
    have hj := hc a b h2 g2
    obtain ⟨v, rows, e1, e2, e3⟩ := h3.left g3 hu ps hps S.fresh hmk S.jord lk rk lc rc hj
    have hsh := tblJoin_shape ps hps S.fresh hmk S.jord hjord .none .left t u _ _ h3.2.2.1 g3.2.2.1 h3.ne g3.ne lk rk lc rc (h3.joinOk g3 hj) (fun _ => ⟨ht, hu⟩) v e1
    refine ⟨v, _, ?_, ⟨a, b, rows, h2, g2, e2, rfl⟩, e3, hsh.1, hsh.2⟩
    simp only [Stmt.run, h1, g1, bind, Except.bind]
    exact e1
  | outer lk rk lc rc q p =>
    obtain ⟨hq, hp, hc⟩ := hs
    obtain ⟨t, a, h1, h2, h3⟩ := C127_partial S hmk hord ps hps db rels hdb q hq
    obtain ⟨u, b, g1, g2, g3⟩ := C127_partial S hmk hord ps hps db rels hdb p hp
    have ht := (run_shape S hmk hord hjord ps hps db rels hdb hal hso q hq t h1).2
    have hu := (run_shape S hmk hord hjord ps hps db rels hdb hal hso p hp u g1).2
    have hj := hc a b h2 g2
    obtain ⟨v, rows, e1, e2, e3⟩ := h3.outer g3 ht hu ps hps S.fresh hmk S.jord hjord lk rk lc rc hj
    have hsh := tblJoin_shape ps hps S.fresh hmk S.jord hjord .none .outer t u _ _ h3.2.2.1 g3.2.2.1 h3.ne g3.ne lk rk lc rc (h3.joinOk g3 hj) (fun _ => ⟨ht, hu⟩) v e1
    refine ⟨v, _, ?_, ⟨a, b, rows, h2, g2, e2, rfl⟩, e3, hsh.1, hsh.2⟩
    simp only [Stmt.run, h1, g1, bind, Except.bind]
    exact e1
  | nearest sortVals m sources a q =>
    obtain ⟨hq, hc, hsv, ha⟩ := hs
    obtain ⟨t, b, h1, h2, h3⟩ := C127_partial S hmk hord ps hps db rels hdb q hq
    have hsh := run_shape S hmk hord hjord ps hps db rels hdb hal hso q hq t h1
    have hcut := hsh.1 (hc rfl)
    obtain ⟨t', s, e1, e2, -, e3, e4⟩ := C143_rows_partial h3 hcut sortVals hsv m sources a (ha b h2)
    refine ⟨t', s, ?_, ⟨b, h2, e2⟩, e3, ?_, ?_⟩
    · simp only [Stmt.run, h1, bind, Except.bind]
      exact e1
    · obtain ⟨L, hL⟩ := hcut
      refine ⟨L, fun c' hc' => ?_⟩
      obtain ⟨c, hc, e⟩ := e4 c' hc'
      rw [e, hL c hc]
    · intro c' hc' p hp hnil
      obtain ⟨c, hc, e⟩ := e4 c' hc'
      have h0 : 0 ∈ c'.2.map List.length := List.mem_map.2 ⟨p, hp, by rw [hnil]; rfl⟩
      rw [e] at h0
      obtain ⟨p', hp', e'⟩ := List.mem_map.1 h0
      exact hsh.2 c hc p' hp' (List.length_eq_zero_iff.1 e')
  | pivot N asRows rows columns functions q =>
    obtain ⟨hq, hc, ha⟩ := hs
    obtain ⟨t, a, h1, h2, h3⟩ := C127_partial S hmk hord ps hps db rels hdb q hq
    have hsh := run_shape S hmk hord hjord ps hps db rels hdb hal hso q hq t h1
    obtain ⟨hok, hagg⟩ := ha a h2
    have hagg' : ∀ (f : ν × φ) (k : List SVal), ∃ v, f ∈ functions → k ∈ a.keysOf .none (rows ++ columns) →
        aggOf F.init F.upd F.val f.2 ((a.withKey .none (rows ++ columns) k).map fun row => a.get .none row f.1) = .ok v := by
      intro f k
      by_cases h : f ∈ functions ∧ k ∈ a.keysOf .none (rows ++ columns)
      · obtain ⟨v, hv⟩ := hagg f h.1 k h.2
        exact ⟨v, fun _ _ => hv⟩
      · exact ⟨.none, fun x y => absurd ⟨x, y⟩ h⟩
    choose agg hagg' using hagg'
    obtain ⟨g, g1, g2, g3, g4⟩ := C59_relation_partial h3 (hsh.1 (hc rfl)) F.init F.upd F.val F.nm ps hps S.fresh hmk N rows columns functions asRows hok agg (fun f hf k hk => hagg' f k hf hk)
    refine ⟨g, _, ?_, ⟨a, agg, h2, fun f hf k hk => hagg' f k hf hk, rfl⟩, g2, g3, g4⟩
    simp only [Stmt.run, h1, bind, Except.bind]
    exact g1
  | carry missing store targets q =>
    obtain ⟨hq, hc⟩ := hs
    obtain ⟨t, b, h1, h2, h3⟩ := C127_partial S hmk hord ps hps db rels hdb q hq
    have hsh := run_shape S hmk hord hjord ps hps db rels hdb hal hso q hq t h1
    obtain ⟨hok, hall⟩ := hc b h2
    obtain ⟨t', e1, e2, e3, e4⟩ := C56_rows_partial h3 hsh.2 ps hps missing store targets hok
    refine ⟨t', _, ?_, ⟨b, h2, rfl⟩, e2, e4 ((hall rfl).imp_right fun hr => run_recut S hmk hord hjord ps hps db rels hdb q hq hr t h1), e3⟩
    simp only [Stmt.run, h1, bind, Except.bind]
    exact e1
  | unpivot limit asVal npArr columns keep columnName valueName q =>
    obtain ⟨hq, hl, hc⟩ := hs
    obtain ⟨t, b, h1, h2, h3⟩ := C127_partial S hmk hord ps hps db rels hdb q hq
    obtain ⟨t', e1, e2, e3, e4⟩ := C60_rows_partial h3 ps limit hps S.fresh asVal npArr hl columns keep columnName valueName _ _ rfl rfl (hc b h2)
    refine ⟨t', _, ?_, ⟨b, h2, rfl⟩, e2, e3, e4⟩
    simp only [Stmt.run, h1, bind, Except.bind]
    exact e1
  | lookup ord all crits q p =>
    obtain ⟨hq, hp, hr, ho, hc⟩ := hs
    obtain ⟨t, a, h1, h2, h3⟩ := C127_partial S hmk hord ps hps db rels hdb q hq
    obtain ⟨u, b, g1, g2, g3⟩ := C127_partial S hmk hord ps hps db rels hdb p hp
    have ht := (run_shape S hmk hord hjord ps hps db rels hdb hal hso q hq t h1).2
    have hu := (run_shape S hmk hord hjord ps hps db rels hdb hal hso p hp u g1).2
    obtain ⟨t', e1, e2, e3, e4⟩ := C28_rows_partial h3 g3 ht hu S.hash ord ho ps hps S.fresh hmk all crits (hc a b h2 g2)
    refine ⟨t', _, ?_, ⟨a, b, h2, g2, rfl⟩, e2, e4 (run_recut S hmk hord hjord ps hps db rels hdb q hq (hr rfl) t h1), e3⟩
    simp only [Stmt.run, h1, g1, bind, Except.bind]
    exact e1

/-- **C128** partial: a script of assignments, each with a pipeline, a group-by, a pivot, a `pivot_transpose`, an imputation (from the nearest rows, or from the rows above in all columns or in some columns of a pipeline that ends with a sort, a choice of rows, the removal of duplicates or a join), a lookup (in a table that ends likewise), a left join or an outer join of pipelines, run on tables whose columns are cut into pages at the same places, none empty, succeeds and leaves
tables with the rows which the same script computes on lists of rows; their columns are again cut at the same places.  Missing: scripts that stack tables with different columns (`C128_fails`) or carry values forward in some columns of other tables, or look up from them (`C128_carry_fails`, `C134_exact`). -/
theorem C128_partial (S : Surroundings ν κ K η) (F : Folds ν φ σ) (hmk : ∀ d a b, S.fresh d a = S.fresh d b → a = b) (hord : ∀ l v, v ∈ S.ord l ↔ v ∈ l) (hjord : ∀ l, (S.jord l).Perm l) (ps : Nat) (hps : 0 < ps)
    (script : List (Nat × Stmt ν κ φ)) (db : Nat → Tbl ν SVal) (rels : Nat → Rel ν SVal) (hdb : ∀ i, Shows .none (db i) (rels i) ∧ Aligned (db i) ∧ Solid (db i)) (hs : ScriptOk S F true rels script) :
    ∃ db' rels', scriptRun S F ps db script = .ok db' ∧ ScriptGives S F rels script rels' ∧ ∀ i, Shows .none (db' i) (rels' i) ∧ Aligned (db' i) ∧ Solid (db' i) := by
  induction script generalizing db rels with
  | nil => exact ⟨db, rels, rfl, rfl, hdb⟩
  | cons a rest ih =>
    obtain ⟨x, s⟩ := a
    obtain ⟨h1, h2⟩ := hs
    obtain ⟨t, r, e1, e2, e3⟩ := stmt_shows S F hmk hord hjord ps hps db rels (fun i => (hdb i).1) (fun i => (hdb i).2.1) (fun i => (hdb i).2.2) s h1
    obtain ⟨db', rels', g1, g2, g3⟩ := ih (assign db x t) (assign rels x r) (by
      intro i
      unfold assign
      split
      · exact e3
      · exact hdb i) (h2 r e2)
    refine ⟨db', rels', ?_, ⟨r, e2, g2⟩, g3⟩
    simp only [scriptRun, e1, bind, Except.bind]
    exact g1

end

/-! ## the full statement -/

/-- the full claim for scripts: as `C128_partial`, without the conditions on stacks and on carrying forward -/
def C128_statement : Prop :=
  ∀ (S : Surroundings String Unit Nat (List SVal)) (F : Folds String Unit Nat), (∀ d a b, S.fresh d a = S.fresh d b → a = b) → (∀ l v, v ∈ S.ord l ↔ v ∈ l) → (∀ l, (S.jord l).Perm l) → ∀ (ps : Nat), 0 < ps →
    ∀ (script : List (Nat × Stmt String Unit Unit)) (db : Nat → Tbl String SVal) (rels : Nat → Rel String SVal), (∀ i, Shows .none (db i) (rels i) ∧ Aligned (db i) ∧ Solid (db i)) → ScriptOk S F false rels script →
      ∃ db' rels', scriptRun S F ps db script = .ok db' ∧ ScriptGives S F rels script rels' ∧ ∀ i, Shows .none (db' i) (rels' i)

/-- counting the rows of a group -/
def counting : Folds String Unit Nat := ⟨fun _ => 0, fun _ n _ => .ok (n + 1), fun _ n => .ok (.i n), fun _ x => "Count(" ++ x ++ ")"⟩

/-- two rows, and one row without the second column -/
def twoTables : Nat → Tbl String SVal
  | 1 => [("a", [[.i 3]])]
  | _ => [("a", [[.i 1, .i 2]]), ("b", [[.str "x", .str "y"]])]

/-- their rows -/
def twoRels : Nat → Rel String SVal
  | 1 => ⟨["a"], [[.i 3]]⟩
  | _ => ⟨["a", "b"], [[.i 1, .str "x"], [.i 2, .str "y"]]⟩

theorem twoTables_ok : ∀ i, Shows .none (twoTables i) (twoRels i) ∧ Aligned (twoTables i) ∧ Solid (twoTables i) := by
  intro i
  unfold twoTables twoRels
  split
  · exact ⟨⟨⟨by decide, by decide, by decide⟩, rfl, by unfold Rect; decide, by decide +kernel⟩, ⟨[1], by decide⟩, by unfold Solid; decide⟩
  · exact ⟨⟨⟨by decide, by decide, by decide⟩, rfl, by unfold Rect; decide, by decide +kernel⟩, ⟨[2], by decide⟩, by unfold Solid; decide⟩

/-- the rows with the same `a` counted, in the stack of the first table with the second one twice -/
def countStack : List (Nat × Stmt String Unit Unit) := [(0, .group ["a"] [("b", ())] (.stack (.table 0) (.plus (.table 1) (.table 1))))]

theorem countStack_gives (r : Rel String SVal) (h : (Query.stack (.table 0) (.plus (.table 1) (.table 1)) : Query String Unit).Gives plainly twoRels r) :
    r = ⟨["a", "b"], [[.i 1, .str "x"], [.i 2, .str "y"], [.i 3, .none], [.i 3, .none]]⟩ := by
  obtain ⟨a, b, rfl, ⟨c, d, rfl, rfl, rfl⟩, rfl⟩ := h
  rw [Rel.mk.injEq]
  decide +kernel

/-- group-by loses a row of a stack of tables with different columns -/
theorem C128_fails : ¬ C128_statement := by
  intro h
  obtain ⟨db', rels', h1, ⟨r, ⟨a, agg, h2, h3, rfl⟩, rfl⟩, h4⟩ := h plainly counting (fun d a b => suffixed_inj d a b) (fun _ _ => Iff.rfl) (fun l => List.Perm.refl l) 10 (by omega) countStack twoTables twoRels twoTables_ok (by
    refine ⟨⟨⟨trivial, trivial, trivial, ?_⟩, by simp, by decide, by decide +kernel, ?_⟩, fun _ _ => trivial⟩
    · rintro a b rfl rfl
      simp
    · intro a ha
      rw [countStack_gives a ha]
      refine ⟨by decide +kernel, ?_⟩
      intro f hf k hk
      have : ∀ f ∈ [("b", ())], ∀ k ∈ (⟨["a", "b"], [[.i 1, .str "x"], [.i 2, .str "y"], [.i 3, .none], [.i 3, .none]]⟩ : Rel String SVal).keysOf .none ["a"],
          (aggOf counting.init counting.upd counting.val f.2 (((⟨["a", "b"], [[.i 1, .str "x"], [.i 2, .str "y"], [.i 3, .none], [.i 3, .none]]⟩ : Rel String SVal).withKey .none ["a"] k).map
            fun row => (⟨["a", "b"], [[.i 1, .str "x"], [.i 2, .str "y"], [.i 3, .none], [.i 3, .none]]⟩ : Rel String SVal).get .none row f.1)).isOk = true := by decide +kernel
      have := this f hf k hk
      revert this
      cases aggOf counting.init counting.upd counting.val f.2 (((⟨["a", "b"], [[.i 1, .str "x"], [.i 2, .str "y"], [.i 3, .none], [.i 3, .none]]⟩ : Rel String SVal).withKey .none ["a"] k).map
            fun row => (⟨["a", "b"], [[.i 1, .str "x"], [.i 2, .str "y"], [.i 3, .none], [.i 3, .none]]⟩ : Rel String SVal).get .none row f.1) with
      | ok v => exact fun _ => ⟨v, rfl⟩
      | error e => exact fun h => absurd h (by simp [Except.isOk, Except.toBool]))
  have ha := countStack_gives a h2
  subst ha
  have e := h3 ("b", ()) (by decide) [.i 3] (by decide +kernel)
  have h0 := (h4 0).view
  have hrun : (scriptRun plainly counting 10 twoTables countStack).map (fun db => tview (db 0)) = .ok (tview (db' 0)) := by rw [h1]; rfl
  have hval : (scriptRun plainly counting 10 twoTables countStack).map (fun db => tview (db 0)) = .ok [("a", [.i 1, .i 2, .i 3]), ("Count(b)", [.i 1, .i 1, .i 1])] := by decide +kernel
  rw [hval] at hrun
  injection hrun with hrun
  rw [← hrun] at h0
  have hk : (⟨["a", "b"], [[.i 1, .str "x"], [.i 2, .str "y"], [.i 3, .none], [.i 3, .none]]⟩ : Rel String SVal).keysOf .none ["a"] = [[.i 1], [.i 2], [.i 3]] := by decide +kernel
  have hagg : aggOf counting.init counting.upd counting.val () (((⟨["a", "b"], [[.i 1, .str "x"], [.i 2, .str "y"], [.i 3, .none], [.i 3, .none]]⟩ : Rel String SVal).withKey .none ["a"] [.i 3]).map
            fun row => (⟨["a", "b"], [[.i 1, .str "x"], [.i 2, .str "y"], [.i 3, .none], [.i 3, .none]]⟩ : Rel String SVal).get .none row "b") = .ok (.i 2) := by decide +kernel
  rw [hagg] at e
  injection e with e
  simp only [assign, Rel.cols, Rel.grouped, hk] at h0
  have := congrArg (fun x => (x.getD 1 ("", [])).2.getD 2 .none) h0
  simp [Rel.get, counting, ← e] at this
  exact absurd this (by decide +kernel)

/-- sorting the stack first makes its columns cut at the same places -/
example : (scriptRun plainly counting 10 twoTables [(0, .group ["a"] [("b", ())] (.sort [("a", false)] (.stack (.table 0) (.plus (.table 1) (.table 1)))))]).map (fun db => tview (db 0)) =
    .ok [("a", [.i 1, .i 2, .i 3]), ("Count(b)", [.i 1, .i 1, .i 2])] := by decide +kernel

/-- the conditions of `C128_partial` are met by a script that joins two tables, stores the rows and joins these again -/
example : ScriptOk plainly counting true twoRels [(2, .outer ["a"] ["a"] ["a", "b"] ["a"] (.table 0) (.table 1)), (3, .query (.plus (.table 0) (.table 0)))] := by
  refine ⟨⟨trivial, trivial, ?_⟩, ?_⟩
  · rintro a b rfl rfl
    constructor <;> decide +kernel
  · rintro r -
    refine ⟨⟨⟨trivial, trivial, ?_⟩, ?_⟩, fun _ _ => trivial⟩
    · rintro a b rfl rfl
      simp
    · intro _
      exact ⟨trivial, trivial⟩

/-- and by a script that fills a column and joins the result -/
example : ScriptOk plainly counting true twoRels [(2, .nearest id (.str "x") ["a"] "b" (.table 0)), (3, .query (.plus (.table 2) (.table 0)))] := by
  refine ⟨⟨trivial, fun _ => trivial, fun l => List.Perm.refl l, ?_⟩, ?_⟩
  · rintro b rfl
    refine ⟨by decide, by decide +kernel, by decide +kernel, ?_, ⟨1, by decide +kernel, by decide +kernel⟩⟩
    intro b hb _
    rw [List.mem_singleton] at hb
    subst hb
    decide +kernel
  · rintro r ⟨b, rfl, hr⟩
    refine ⟨⟨⟨trivial, trivial, ?_⟩, fun _ => ⟨trivial, trivial⟩⟩, fun _ _ => trivial⟩
    rintro a c rfl rfl
    simp [assign, hr.names]

/-- the group-by after the imputation counts the filled rows -/
example : (scriptRun plainly counting 10 twoTables [(2, .nearest id (.str "x") ["a"] "b" (.table 0)), (3, .group ["b"] [("a", ())] (.table 2))]).map (fun db => tview (db 3)) =
    .ok [("b", [.str "y"]), ("Count(a)", [.i 2])] := by decide +kernel

/-- names for pivots: the key in the name of the column -/
def plainNames : PivotNames String SVal Unit :=
  ⟨fun f => .str ("Count(" ++ f.1 ++ ")"), fun _ k => "(" ++ String.join (k.map fun | .str s => s | _ => "?") ++ ")", fun f _ k => "Count(" ++ f.1 ++ "," ++ String.join (k.map fun | .str s => s | _ => "?") ++ ")", "function"⟩

/-- the pivot of the rows and of their copy counts each of them twice; there is nothing where no row is -/
example : (scriptRun plainly counting 10 twoTables [(2, .pivot plainNames false ["a"] ["b"] [("a", ())] (.plus (.table 0) (.table 0))), (3, .pivot plainNames true ["a"] ["b"] [("a", ())] (.table 0))]).map
      (fun db => (tview (db 2), tview (db 3))) =
    .ok ([("a", [.i 1, .i 2]), ("Count(a,x)", [.i 2, .none]), ("Count(a,y)", [.none, .i 2])],
      [("a", [.i 1, .i 2]), ("function", [.str "Count(a)", .str "Count(a)"]), ("(x)", [.i 1, .none]), ("(y)", [.none, .i 1])]) := by decide +kernel

/-- the conditions of `C128_partial` are met by a pivot -/
example : ScriptOk plainly counting true twoRels [(2, .pivot plainNames false ["a"] ["b"] [] (.table 0))] := by
  refine ⟨⟨trivial, fun _ => trivial, ?_⟩, fun _ _ => trivial⟩
  rintro a rfl
  refine ⟨⟨by decide, by decide +kernel, .inl (by decide), by decide +kernel, by decide +kernel⟩, ?_⟩
  intro f hf
  cases hf

/-- the conditions of `C128_partial` are met by carrying forward in all columns -/
example : ScriptOk plainly counting true twoRels [(2, .carry (· == .none) (fun _ => .ok .none) ["a", "b"] (.stack (.table 0) (.plus (.table 1) (.table 1)))), (3, .query (.plus (.table 2) (.table 0)))] := by
  refine ⟨⟨⟨trivial, trivial, trivial, ?_⟩, ?_⟩, ?_⟩
  · rintro a b rfl rfl
    simp
  · intro b hb
    rw [countStack_gives b hb]
    refine ⟨⟨by decide, .inr ⟨?_, fun _ _ _ => rfl⟩⟩, fun _ => .inl (by decide)⟩
    intro v hv
    simpa using hv
  · rintro r ⟨b, hb, rfl⟩
    refine ⟨⟨⟨trivial, trivial, ?_⟩, fun _ => ⟨trivial, trivial⟩⟩, fun _ _ => trivial⟩
    rintro a c rfl rfl
    rw [countStack_gives b hb]
    simp [assign, Rel.carry, twoRels]

/-- two rows, appended to themselves, the empty values of `b` carried forward, and the rows counted by `a` -/
def carryCount : List (Nat × Stmt String Unit Unit) :=
  [(2, .carry (· == .str "y") (fun _ => .ok .none) ["b"] (.plus (.table 0) (.table 0))), (3, .group ["a"] [("b", ())] (.table 2))]

/-- carried forward in all columns: the group-by counts all rows -/
example : (scriptRun plainly counting 10 twoTables [(2, .carry (· == .str "y") (fun _ => .ok .none) ["a", "b"] (.plus (.table 0) (.table 0))), (3, .group ["a"] [("b", ())] (.table 2))]).map (fun db => (tview (db 2), tview (db 3))) =
    .ok ([("a", [.i 1, .i 2, .i 1, .i 2]), ("b", [.str "x", .str "x", .str "x", .str "x"])], [("a", [.i 1, .i 2]), ("Count(b)", [.i 2, .i 2])]) := by decide +kernel

/-- The full claim fails in another way: values carried forward in some columns only.  These columns are cut anew by the page size, the others are not, and a later group-by counts two of the four rows. -/
theorem C128_carry_fails : ScriptOk plainly counting false twoRels carryCount ∧
    (scriptRun plainly counting 10 twoTables carryCount).map (fun db => (tview (db 2), tview (db 3))) =
      .ok ([("a", [.i 1, .i 2, .i 1, .i 2]), ("b", [.str "x", .str "x", .str "x", .str "x"])], [("a", [.i 1, .i 2]), ("Count(b)", [.i 1, .i 1])]) ∧
    ∀ rels', ScriptGives plainly counting twoRels carryCount rels' → rels' 3 = ⟨["a", "Count(b)"], [[.i 1, .i 2], [.i 2, .i 2]]⟩ := by
  have hplus : ∀ b, (Query.plus (.table 0) (.table 0) : Query String Unit).Gives plainly twoRels b → b = ⟨["a", "b"], [[.i 1, .str "x"], [.i 2, .str "y"], [.i 1, .str "x"], [.i 2, .str "y"]]⟩ := by
    rintro b ⟨c, d, rfl, rfl, rfl⟩
    rw [Rel.mk.injEq]
    decide +kernel
  have hcarry : (⟨["a", "b"], [[.i 1, .str "x"], [.i 2, .str "y"], [.i 1, .str "x"], [.i 2, .str "y"]]⟩ : Rel String SVal).carry .none (· == .str "y") ["b"] =
      ⟨["a", "b"], [[.i 1, .str "x"], [.i 2, .str "x"], [.i 1, .str "x"], [.i 2, .str "x"]]⟩ := by
    rw [Rel.carry, Rel.mk.injEq]
    decide +kernel
  have hagg : ∀ f ∈ [("b", ())], ∀ k ∈ (⟨["a", "b"], [[.i 1, .str "x"], [.i 2, .str "x"], [.i 1, .str "x"], [.i 2, .str "x"]]⟩ : Rel String SVal).keysOf .none ["a"],
      aggOf counting.init counting.upd counting.val f.2 (((⟨["a", "b"], [[.i 1, .str "x"], [.i 2, .str "x"], [.i 1, .str "x"], [.i 2, .str "x"]]⟩ : Rel String SVal).withKey .none ["a"] k).map
        fun row => (⟨["a", "b"], [[.i 1, .str "x"], [.i 2, .str "x"], [.i 1, .str "x"], [.i 2, .str "x"]]⟩ : Rel String SVal).get .none row f.1) = .ok (.i 2) := by decide +kernel
  have hkeys : (⟨["a", "b"], [[.i 1, .str "x"], [.i 2, .str "x"], [.i 1, .str "x"], [.i 2, .str "x"]]⟩ : Rel String SVal).keysOf .none ["a"] = [[.i 1], [.i 2]] := by decide +kernel
  refine ⟨⟨⟨⟨trivial, trivial, ?_⟩, ?_⟩, ?_⟩, by decide +kernel, ?_⟩
  · rintro a b rfl rfl
    simp
  · intro b hb
    rw [hplus b hb]
    exact ⟨⟨by decide, .inl (by decide +kernel)⟩, fun h => by cases h⟩
  · rintro r ⟨b, hb, rfl⟩
    rw [hplus b hb, hcarry]
    refine ⟨?_, fun _ _ => trivial⟩
    refine And.intro trivial ⟨(fun h => nomatch h), by decide, by decide +kernel, ?_⟩
    rintro a rfl
    exact ⟨by decide, fun f hf k hk => ⟨_, hagg f hf k hk⟩⟩
  · rintro rels' ⟨r, ⟨b, hb, rfl⟩, r', ⟨a, agg, rfl, h3, rfl⟩, rfl⟩
    rw [hplus b hb, hcarry] at h3 ⊢
    have e1 := h3 ("b", ()) (by decide) [.i 1] (by decide +kernel)
    have e2 := h3 ("b", ()) (by decide) [.i 2] (by decide +kernel)
    have e1 := (hagg ("b", ()) (by decide) [.i 1] (by decide +kernel)).symm.trans e1
    have e2 := (hagg ("b", ()) (by decide) [.i 2] (by decide +kernel)).symm.trans e2
    change Rel.grouped .none counting.nm ⟨["a", "b"], [[.i 1, .str "x"], [.i 2, .str "x"], [.i 1, .str "x"], [.i 2, .str "x"]]⟩ ["a"] [("b", ())] agg = _
    injection e1 with e1
    injection e2 with e2
    rw [Rel.grouped, hkeys, Rel.mk.injEq]
    exact ⟨by decide +kernel, by simp [← e1, ← e2]⟩

/-- names and values in rows of their own, and these counted -/
example : (scriptRun plainly counting 10 twoTables [(2, .unpivot 1 .str id ["b"] ["a"] "column" "value" (.plus (.table 0) (.table 0))), (3, .group ["column"] [("value", ())] (.table 2))]).map (fun db => (tview (db 2), tview (db 3))) =
    .ok ([("a", [.i 1, .i 2, .i 1, .i 2]), ("column", [.str "b", .str "b", .str "b", .str "b"]), ("value", [.str "x", .str "y", .str "x", .str "y"])], [("column", [.str "b"]), ("Count(value)", [.i 4])]) := by decide +kernel

/-- the conditions of `C128_partial` are met by it -/
example : ScriptOk plainly counting true twoRels [(2, .unpivot 1 .str id ["b"] ["a"] "column" "value" (.table 0))] := by
  refine ⟨⟨trivial, fun _ => rfl, ?_⟩, fun _ _ => trivial⟩
  rintro b rfl
  exact ⟨by decide +kernel, by decide, by decide, by decide +kernel, fun _ _ _ _ => rfl⟩

/-- rows chosen first, some columns may be filled -/
example : ScriptOk plainly counting true twoRels [(2, .carry (· == .str "y") (fun _ => .ok .none) ["b"] (.pick [0, 1, 0, 1] (.table 0)))] ∧
    (scriptRun plainly counting 3 twoTables [(2, .carry (· == .str "y") (fun _ => .ok .none) ["b"] (.pick [0, 1, 0, 1] (.table 0))), (3, .group ["a"] [("b", ())] (.table 2))]).map (fun db => tview (db 3)) =
      .ok [("a", [.i 1, .i 2]), ("Count(b)", [.i 2, .i 2])] := by
  refine ⟨⟨⟨⟨trivial, ?_⟩, ?_⟩, fun _ _ => trivial⟩, by decide +kernel⟩
  · rintro a rfl
    decide +kernel
  · rintro b ⟨a, rfl, rfl⟩
    exact ⟨⟨by decide +kernel, .inl (by decide +kernel)⟩, fun _ => .inr trivial⟩

/-- rows looked up, and the outcome grouped -/
example : (scriptRun plainly counting 3 twoTables [(2, .lookup id true [⟨fun x y => decide (x ≠ y), .name "a" .none, .name "a" .none⟩] (.pick [0, 1, 0, 1] (.table 0)) (.table 0)), (3, .group ["a_1"] [("b", ())] (.table 2))]).map
      (fun db => (tview (db 2), tview (db 3))) =
    .ok ([("a", [.i 1, .i 2, .i 1, .i 2]), ("b", [.str "x", .str "y", .str "x", .str "y"]), ("a_1", [.i 2, .i 1, .i 2, .i 1]), ("b_1", [.str "y", .str "x", .str "y", .str "x"])],
      [("a_1", [.i 2, .i 1]), ("Count(b)", [.i 2, .i 2])]) := by decide +kernel

/-- the conditions of `C128_partial` are met by it -/
example : ScriptOk plainly counting true twoRels [(2, .lookup id true [⟨fun x y => decide (x ≠ y), .name "a" .none, .name "a" .none⟩] (.pick [0, 1, 0, 1] (.table 0)) (.table 0))] := by
  refine ⟨⟨⟨trivial, ?_⟩, trivial, fun _ => trivial, fun l => List.Perm.refl l, ?_⟩, fun _ _ => trivial⟩
  · rintro a rfl
    decide +kernel
  · rintro a b ⟨c, rfl, rfl⟩ rfl
    exact ⟨⟨"a", .none, by simp, by decide +kernel⟩, ⟨"a", .none, by simp, by decide +kernel⟩, fun _ _ e => e, by decide +kernel⟩

end Tablite
