import Verif.Model.Procs
import Verif.Props.Refcount
/-!
# C109: page files of several processes
-/

namespace Tablite

section
variable {D : Type}

/-- every page to which a column of the process refers is alive, and if it lies in the process's directory, its file exists and holds the page's data (spec vocabulary) -/
def Intact (m : MProc D) (files : List (PgPath × D)) : Prop :=
  ∀ c ∈ m.st.cols, ∀ o ∈ c, ∃ p d, dGet o m.st.objs = some (p, d) ∧ (p.dir = m.conf → dGet p files = some d)

/-- C109, full statement: whatever processes do, the pages of every process that was not forked are intact -/
def C109_statement (D : Type) : Prop := ∀ (files : List (PgPath × D)) (es : List (HEv D)) (h : Host D), Host.run { files := files } es = some h →
  ∀ m ∈ h.procs, m.pid = m.conf → Intact m h.files

/-- an event that does not remove files of another process: no forked process (one whose number is not the number of its directory) drops a page or runs `shutdown`, and
no forked process is given the number of the directory it inherits (spec vocabulary) -/
def HEv.Passive (h : Host D) : HEv D → Prop
  | .fork parent child => ∀ m, h.find parent = some m → child ≠ m.conf
  | .act pid (.collect _) => ∀ m, h.find pid = some m → m.pid = m.conf
  | .exit pid true => ∀ m, h.find pid = some m → m.pid = m.conf
  | _ => True

/-- a history of such events -/
def Host.PassiveRun (h : Host D) : List (HEv D) → Prop
  | [] => True
  | e :: es => e.Passive h ∧ ∀ h', h.step e = some h' → h'.PassiveRun es

/-! ## the invariant -/

structure HostInv (h : Host D) : Prop where
  pids : (h.procs.map (·.pid)).Nodup
  inv : ∀ m ∈ h.procs, m.pid = m.conf → ProcInv (ownsPath m.conf) (m.view h.files)

theorem mkPath_inj (pid dir : Nat) : Function.Injective (mkPath pid dir) := fun a b e => by cases e; rfl

theorem Host.find_some {h : Host D} {pid : Nat} {m : MProc D} (hf : h.find pid = some m) : m ∈ h.procs ∧ m.pid = pid := by
  have h1 := List.mem_of_find?_eq_some hf
  have h2 := List.find?_some hf
  exact ⟨h1, by simpa using h2⟩

theorem Host.find_none {h : Host D} {pid : Nat} (hf : h.find pid = none) : ∀ m ∈ h.procs, m.pid ≠ pid := by
  intro m hm
  have := List.find?_eq_none.1 hf m hm
  simpa using this

/-- what an event of a process does to the files: none is changed, and only files of its own directory are removed, when a page object is dropped -/
theorem step_files (mk : Nat → Nat → PgPath) (hmk : ∀ dir, Function.Injective (mk dir)) (owns : PgPath → Bool) (s s' : Proc PgPath D) (e : Ev PgPath D Nat) (he : e.own = true)
    (hs : s.step mk owns e = some s') (p : PgPath) (d : D) (hp : dGet p s.files = some d) :
    dGet p s'.files = some d ∨ (owns p = true ∧ (∃ o, e = .collect o) ∧ dGet p s'.files = none) := by
  cases e with
  | reserve dir => cases hs; exact Or.inl hp
  | create dir d' =>
    cases hs
    left
    have hfresh := nextIdLoop_fresh (mk dir) (hmk dir) s.files s.nextId
    simp only [Proc.newObj]
    rw [dGet_upd, if_neg]
    · exact hp
    · intro ee
      rw [ee, hfresh] at hp
      cases hp
  | write q d' =>
    simp only [Proc.step] at hs
    split at hs
    · simp at hs
    · cases hs
      left
      simp only
      rw [dGet_app, hp]; rfl
  | foreignRemove q => simp [Ev.own] at he
  | adopt q =>
    simp only [Proc.step] at hs
    split at hs
    · simp at hs
    · cases hs; exact Or.inl hp
  | newCol ids =>
    simp only [Proc.step] at hs
    split at hs
    · cases hs; exact Or.inl hp
    · simp at hs
  | setCol k ids =>
    simp only [Proc.step] at hs
    split at hs
    · cases hs; exact Or.inl hp
    · simp at hs
  | collect o =>
    simp only [Proc.step] at hs
    split at hs
    · simp at hs
    · rename_i q d' hd
      split at hs
      · simp at hs
      · cases hs
        unfold Proc.del
        split
        · exact Or.inl hp
        · rename_i ho
          dsimp only
          split
          · exact Or.inl hp
          · by_cases hpq : p = q
            · right
              refine ⟨by rw [hpq]; simpa using ho, ⟨o, rfl⟩, ?_⟩
              show dGet p (dDel q s.files) = none
              rw [dGet_del, if_pos hpq]
            · left
              show dGet p (dDel q s.files) = some d
              rw [dGet_del, if_neg hpq]; exact hp

theorem dGet_rmDir (conf : Nat) (files : List (PgPath × D)) (p : PgPath) : dGet p (rmDir conf files) = if p.dir = conf then none else dGet p files := by
  induction files with
  | nil => simp [rmDir, dGet]
  | cons x t ih =>
    obtain ⟨q, d⟩ := x
    have ih' : dGet p (t.filter fun e => !ownsPath conf e.1) = if p.dir = conf then none else dGet p t := ih
    by_cases hq : q.dir = conf
    · have e : rmDir conf ((q, d) :: t) = rmDir conf t := by simp [rmDir, ownsPath, hq]
      rw [e, ih]
      by_cases hp : p.dir = conf
      · simp [hp]
      · have : q ≠ p := fun e => hp (e ▸ hq)
        simp [dGet, this]
    · have e : rmDir conf ((q, d) :: t) = (q, d) :: rmDir conf t := by simp [rmDir, ownsPath, hq]
      rw [e]
      by_cases hp : q = p
      · subst hp; simp [dGet, hq]
      · simp only [dGet, if_neg hp]; exact ih

/-- what any event does to the files -/
theorem host_files (h h' : Host D) (e : HEv D) (hs : h.step e = some h') (p : PgPath) (d : D) (hp : dGet p h.files = some d) :
    dGet p h'.files = some d ∨ (dGet p h'.files = none ∧ ∃ m ∈ h.procs, m.conf = p.dir ∧ ((∃ o, e = .act m.pid (.collect o)) ∨ e = .exit m.pid true)) := by
  cases e with
  | start pid =>
    simp only [Host.step] at hs
    split at hs
    · simp at hs
    · cases hs; exact Or.inl hp
  | fork parent child =>
    simp only [Host.step] at hs
    split at hs
    · cases hs; exact Or.inl hp
    · simp at hs
  | act pid e =>
    simp only [Host.step] at hs
    split at hs
    · simp at hs
    · rename_i m hm
      obtain ⟨hm1, hm2⟩ := Host.find_some hm
      split at hs
      · rename_i he
        split at hs
        · simp at hs
        · rename_i s hst
          cases hs
          rcases step_files _ (mkPath_inj m.pid) _ _ _ e he hst p d hp with h1 | ⟨h1, ⟨o, h2⟩, h3⟩
          · exact Or.inl h1
          · refine Or.inr ⟨h3, m, hm1, ?_, Or.inl ⟨o, by rw [hm2, h2]⟩⟩
            simpa [ownsPath, eq_comm] using h1
      · simp at hs
  | exit pid shutdown =>
    simp only [Host.step] at hs
    split at hs
    · simp at hs
    · rename_i m hm
      obtain ⟨hm1, hm2⟩ := Host.find_some hm
      cases hs
      cases shutdown with
      | false => exact Or.inl hp
      | true =>
        simp only [if_true]
        rw [dGet_rmDir]
        by_cases hc : p.dir = m.conf
        · rw [if_pos hc]
          exact Or.inr ⟨rfl, m, hm1, hc.symm, Or.inr (by rw [hm2])⟩
        · rw [if_neg hc]; exact Or.inl hp

/-- **C109** (never overwritten) No event of any process, forked or not, changes the contents of a page file that exists: it stays as it is or is removed, and it is removed only by a process
whose directory it is in, when that process drops a page or runs `shutdown`.  In particular a process that is given the number of a killed process leaves its files alone. -/
theorem C109_overwrite (h h' : Host D) (e : HEv D) (hs : h.step e = some h') (p : PgPath) (d : D) (hp : dGet p h.files = some d) :
    dGet p h'.files = some d ∨ (dGet p h'.files = none ∧ ∃ m ∈ h.procs, m.conf = p.dir ∧ ((∃ o, e = .act m.pid (.collect o)) ∨ e = .exit m.pid true)) :=
  host_files h h' e hs p d hp

theorem view_inv {m : MProc D} {fs fs' : List (PgPath × D)} (h : ProcInv (ownsPath m.conf) (m.view fs))
    (hf : ∀ p d, p.dir = m.conf → dGet p fs = some d → dGet p fs' = some d) : ProcInv (ownsPath m.conf) (m.view fs') := by
  refine ⟨h.nodup, h.bound, h.counts, ?_, h.cols⟩
  intro e he ho
  exact hf _ _ (by simpa [ownsPath] using ho) (h.files e he ho)

theorem HostInv.step {h h' : Host D} (hi : HostInv h) (e : HEv D) (hp : e.Passive h) (hs : h.step e = some h') : HostInv h' := by
  have hfiles := host_files h h' e hs
  cases e with
  | start pid =>
    simp only [Host.step] at hs
    split at hs
    · simp at hs
    · rename_i hn
      have hn := Host.find_none hn
      cases hs
      refine ⟨?_, ?_⟩
      · rw [List.map_append, List.nodup_append]
        refine ⟨hi.pids, by simp, ?_⟩
        intro a ha b hb
        obtain ⟨m, hm, rfl⟩ := List.mem_map.1 ha
        simp only [List.map_cons, List.map_nil, List.mem_singleton] at hb
        rw [hb]
        exact hn m hm
      · intro m hm hc
        rcases List.mem_append.1 hm with hm | hm
        · exact hi.inv m hm hc
        · rw [List.mem_singleton.1 hm]
          exact ProcInv.started ⟨rfl, rfl, rfl⟩
  | fork parent child =>
    simp only [Host.step] at hs
    split at hs
    · rename_i m hm hn
      have hn := Host.find_none hn
      cases hs
      refine ⟨?_, ?_⟩
      · rw [List.map_append, List.nodup_append]
        refine ⟨hi.pids, by simp, ?_⟩
        intro a ha b hb
        obtain ⟨m, hm, rfl⟩ := List.mem_map.1 ha
        simp only [List.map_cons, List.map_nil, List.mem_singleton] at hb
        rw [hb]
        exact hn m hm
      · intro x hx hc
        rcases List.mem_append.1 hx with hx | hx
        · exact hi.inv x hx hc
        · rw [List.mem_singleton.1 hx] at hc
          exact absurd hc (hp m hm)
    · simp at hs
  | act pid e =>
    simp only [Host.step] at hs
    split at hs
    · simp at hs
    · rename_i m hm
      obtain ⟨hm1, hm2⟩ := Host.find_some hm
      split at hs
      · rename_i he
        split at hs
        · simp at hs
        · rename_i s hst
          cases hs
          refine ⟨?_, ?_⟩
          · rw [List.map_map]
            have : ((fun x : MProc D => x.pid) ∘ fun m' => if m'.pid = pid then { m' with st := s } else m') = fun x : MProc D => x.pid := by
              funext x
              simp only [Function.comp]
              split <;> rfl
            rw [this]
            exact hi.pids
          · intro x hx hc
            obtain ⟨y, hy, rfl⟩ := List.mem_map.1 hx
            by_cases hyp : y.pid = pid
            · have : y = m := List.inj_on_of_nodup_map hi.pids hy hm1 (by rw [hyp, hm2])
              subst this
              rw [if_pos hyp] at hc ⊢
              exact (hi.inv y hy hc).step (mkPath_inj y.pid) e hst
            · rw [if_neg hyp] at hc ⊢
              refine view_inv (hi.inv y hy hc) ?_
              intro p d hpd hg
              rcases hfiles p d hg with h1 | ⟨h1, m', hm', h2, ⟨o, h3⟩ | h3⟩
              · exact h1
              · injection h3 with h4 h5
                have hmm : m' = m := List.inj_on_of_nodup_map hi.pids hm' hm1 (by rw [← h4, hm2])
                subst hmm
                subst h5
                have := hp m' hm
                exact absurd (by rw [hc, ← hpd, ← h2, ← this, hm2]) hyp
              · cases h3
      · simp at hs
  | exit pid shutdown =>
    simp only [Host.step] at hs
    split at hs
    · simp at hs
    · rename_i m hm
      obtain ⟨hm1, hm2⟩ := Host.find_some hm
      cases hs
      refine ⟨hi.pids.sublist (List.filter_sublist.map _), ?_⟩
      intro y hy hc
      obtain ⟨hy1, hy2⟩ := List.mem_filter.1 hy
      have hy2 : y.pid ≠ pid := by simpa using hy2
      refine view_inv (hi.inv y hy1 hc) ?_
      intro p d hpd hg
      rcases hfiles p d hg with h1 | ⟨h1, m', hm', h2, ⟨o, h3⟩ | h3⟩
      · exact h1
      · cases h3
      · injection h3 with h4 h5
        subst h5
        have hmm : m' = m := List.inj_on_of_nodup_map hi.pids hm' hm1 (by rw [← h4, hm2])
        subst hmm
        have := hp m' hm
        exact absurd (by rw [hc, ← hpd, ← h2, ← this, hm2]) hy2

theorem HostInv.run {h h' : Host D} (hi : HostInv h) (es : List (HEv D)) (hp : h.PassiveRun es) (hs : h.run es = some h') : HostInv h' := by
  induction es generalizing h with
  | nil => cases hs; exact hi
  | cons e es ih =>
    simp only [Host.run] at hs
    cases h1 : h.step e with
    | none => simp [h1] at hs
    | some h2 =>
      rw [h1] at hs
      exact ih (hi.step e hp.1 h1) (hp.2 h2 h1) hs

/-- **C109** partial: in every history of any number of processes, with their starts and ends in any order, with numbers used again, and with files left behind by processes that were killed, the pages of every
process are intact, if no forked process drops a page or runs `shutdown`.  Missing: forked processes that do, see `C109_fails`. -/
theorem C109_partial (files : List (PgPath × D)) (es : List (HEv D)) (h : Host D) (hp : Host.PassiveRun { files := files } es) (hs : Host.run { files := files } es = some h) :
    ∀ m ∈ h.procs, m.pid = m.conf → Intact m h.files := by
  have hi : HostInv h := HostInv.run ⟨by simp, by simp⟩ es hp hs
  intro m hm hc c hcol o ho
  have hv := hi.inv m hm hc
  have := hv.cols c hcol o ho
  have hobj : (m.view h.files).objs = m.st.objs := rfl
  rw [hobj] at this
  cases hg : dGet o m.st.objs with
  | none => simp [hg] at this
  | some v =>
    obtain ⟨p, d⟩ := v
    exact ⟨p, d, rfl, fun hpd => hv.files (o, (p, d)) (dGet_some_mem _ _ _ hg) (by simpa [ownsPath] using hpd)⟩

/-- no process is forked: started or spawned processes only (spec vocabulary) -/
def NoFork (es : List (HEv D)) : Prop := ∀ e ∈ es, ∀ parent child, e ≠ .fork parent child

theorem passive_of_noFork (es : List (HEv D)) (hn : NoFork es) (h : Host D) (hc : ∀ m ∈ h.procs, m.pid = m.conf) : h.PassiveRun es := by
  induction es generalizing h with
  | nil => trivial
  | cons e es ih =>
    have hpc : ∀ pid m, h.find pid = some m → m.pid = m.conf := fun pid m hm => hc m (Host.find_some hm).1
    refine ⟨?_, ?_⟩
    · cases e with
      | start pid => trivial
      | fork parent child => exact absurd rfl (hn _ List.mem_cons_self parent child)
      | act pid e => cases e <;> first | trivial | exact hpc pid
      | exit pid b => cases b <;> first | trivial | exact hpc pid
    · intro h' hs
      refine ih (fun e he => hn e (List.mem_cons_of_mem _ he)) h' ?_
      cases e with
      | start pid =>
        simp only [Host.step] at hs
        split at hs
        · simp at hs
        · cases hs
          intro m hm
          rcases List.mem_append.1 hm with hm | hm
          · exact hc m hm
          · rw [List.mem_singleton.1 hm]
      | fork parent child => exact absurd rfl (hn _ List.mem_cons_self parent child)
      | act pid e =>
        simp only [Host.step] at hs
        split at hs
        · simp at hs
        · split at hs
          · split at hs
            · simp at hs
            · cases hs
              intro m hm
              obtain ⟨y, hy, rfl⟩ := List.mem_map.1 hm
              have := hc y hy
              split <;> exact this
          · simp at hs
      | exit pid b =>
        simp only [Host.step] at hs
        split at hs
        · simp at hs
        · cases hs
          intro m hm
          exact hc m (List.mem_filter.1 hm).1

/-- **C109** (no fork) With processes that are started or spawned only, the claim holds without condition: every page of every process is intact, in every history. -/
theorem C109_spawn (files : List (PgPath × D)) (es : List (HEv D)) (h : Host D) (hn : NoFork es) (hs : Host.run { files := files } es = some h) :
    ∀ m ∈ h.procs, m.pid = m.conf → Intact m h.files :=
  C109_partial files es h (passive_of_noFork es hn _ (by simp)) hs

/-- **C109** (end of a process) After `shutdown` nothing is left in the directory of the process, and all other files are as before. -/
theorem C109_exit (h h' : Host D) (m : MProc D) (hm : h.find m.pid = some m) (hs : h.step (.exit m.pid true) = some h') (p : PgPath) :
    dGet p h'.files = if p.dir = m.conf then none else dGet p h.files := by
  simp only [Host.step, hm] at hs
  cases hs
  simp only [if_true]
  exact dGet_rmDir _ _ _

/-- process 1 makes a page, process 2 is forked and drops the page it inherited, and the file is gone while process 1 uses it -/
theorem C109_fails : ¬ C109_statement Nat := by
  intro h
  have := h [] [.start 1, .act 1 (.create 1 7), .act 1 (.newCol [0]), .fork 1 2, .act 2 (.setCol 0 []), .act 2 (.collect 0)]
    { files := [], procs := [⟨1, 1, { files := [(⟨1, 1, 1⟩, 7)], refcounts := [(⟨1, 1, 1⟩, 1)], nextId := 2, objs := [(0, (⟨1, 1, 1⟩, 7))], nextObj := 1, cols := [[0]] }⟩,
      ⟨2, 1, { files := [], refcounts := [], nextId := 2, objs := [], nextObj := 1, cols := [[]] }⟩] } (by rfl) _ (List.mem_cons_self ..) rfl
    [0] (by decide) 0 (by decide)
  obtain ⟨p, d, h1, h2⟩ := this
  have h1 : (⟨1, 1, 1⟩, 7) = (p, d) := by injection h1
  cases h1
  have := h2 rfl
  cases this

/-- the full statement also fails when a forked process just ends: its `shutdown` removes the directory of its parent -/
theorem C109_exit_fails : ∃ (es : List (HEv Nat)) (h : Host Nat), Host.run {} es = some h ∧ (∀ e ∈ es, ∀ pid o, e ≠ .act pid (.collect o)) ∧ ∃ m ∈ h.procs, m.pid = m.conf ∧ ¬ Intact m h.files := by
  refine ⟨[.start 1, .act 1 (.create 1 7), .act 1 (.newCol [0]), .fork 1 2, .exit 2 true],
    { files := [], procs := [⟨1, 1, { files := [(⟨1, 1, 1⟩, 7)], refcounts := [(⟨1, 1, 1⟩, 1)], nextId := 2, objs := [(0, (⟨1, 1, 1⟩, 7))], nextObj := 1, cols := [[0]] }⟩] },
    by rfl, ?_, _, List.mem_cons_self .., rfl, ?_⟩
  · intro e he pid o h
    subst h
    simp at he
  · intro h
    obtain ⟨p, d, h1, h2⟩ := h [0] (by decide) 0 (by decide)
    have h1 : (⟨1, 1, 1⟩, 7) = (p, d) := by injection h1
    cases h1
    have := h2 rfl
    cases this

/-- a history to which the theorems apply: a worker makes a page in the directory of process 1, which adopts it; the worker ends, its number is used again -/
example : ∃ h : Host Nat, Host.run { files := [(⟨9, 9, 1⟩, 5)] } [.start 1, .start 2, .act 2 (.create 1 7), .act 1 (.adopt ⟨1, 2, 1⟩), .act 1 (.newCol [0]), .act 2 (.collect 0), .exit 2 true,
    .start 2, .act 2 (.create 1 8), .start 9, .act 9 (.create 9 6)] = some h ∧ dGet ⟨1, 2, 1⟩ h.files = some 7 ∧ dGet ⟨1, 2, 2⟩ h.files = some 8 ∧ dGet ⟨9, 9, 1⟩ h.files = some 5 ∧
    dGet ⟨9, 9, 2⟩ h.files = some 6 := by
  refine ⟨_, rfl, ?_⟩
  decide +kernel

/-- a forked process that only reads and ends without `shutdown` -/
example : Host.PassiveRun ({} : Host Nat) [.start 1, .act 1 (.create 1 7), .fork 1 2, .exit 2 false] := by
  refine ⟨trivial, fun h1 e1 => ⟨trivial, fun h2 e2 => ⟨?_, fun h3 e3 => ⟨trivial, fun h4 e4 => trivial⟩⟩⟩⟩
  cases e1
  cases e2
  intro m hm
  cases hm
  decide

end

end Tablite
