import Verif.Props.LookupRel
import Verif.Props.TableShape
/-!
# Lookups and left joins

A lookup by equal keys and a left join on these keys give the same rows exactly if no row has more than one partner (C111).
-/

namespace Tablite

/-! ## lists -/

theorem perm_partners {β γ : Type} (l : List β) (g : β → List γ) (p : β → Bool) (h f : β → γ) (h1 : ∀ a ∈ l, p a = true → g a = [] ∧ h a = f a) (h2 : ∀ a ∈ l, p a = false → g a = [f a]) :
    (l.flatMap g ++ (l.filter p).map h).Perm (l.map f) := by
  induction l with
  | nil => exact .nil
  | cons a l ih =>
    have ih := ih (fun b hb => h1 b (List.mem_cons_of_mem _ hb)) (fun b hb => h2 b (List.mem_cons_of_mem _ hb))
    cases e : p a with
    | true =>
      obtain ⟨e1, e2⟩ := h1 a (by simp) e
      rw [List.flatMap_cons, e1, List.filter_cons_of_pos e, List.map_cons, List.map_cons, e2, List.nil_append]
      exact List.perm_middle.trans (ih.cons _)
    | false =>
      rw [List.flatMap_cons, h2 a (by simp) e, List.filter_cons_of_neg (by simp [e]), List.map_cons]
      exact ih.cons _

theorem partners_length {β γ : Type} (l : List β) (g : β → List γ) (p : β → Bool) (h : β → γ) (h2 : ∀ a ∈ l, p a = false → g a ≠ []) :
    l.length ≤ (l.flatMap g ++ (l.filter p).map h).length ∧ ((l.flatMap g ++ (l.filter p).map h).length = l.length → ∀ a ∈ l, (g a).length ≤ 1) := by
  induction l with
  | nil => simp
  | cons a l ih =>
    obtain ⟨i1, i2⟩ := ih (fun b hb => h2 b (List.mem_cons_of_mem _ hb))
    simp only [List.length_append, List.length_map] at i1 i2
    simp only [List.flatMap_cons, List.length_append, List.length_map, List.length_cons]
    cases e : p a with
    | true =>
      rw [List.filter_cons_of_pos e, List.length_cons]
      refine ⟨by omega, fun hh b hb => ?_⟩
      rcases List.mem_cons.1 hb with rfl | hb
      · omega
      · exact i2 (by omega) b hb
    | false =>
      have := List.length_pos_of_ne_nil (h2 a (by simp) e)
      rw [List.filter_cons_of_neg (by simp [e])]
      refine ⟨by omega, fun hh b hb => ?_⟩
      rcases List.mem_cons.1 hb with rfl | hb
      · omega
      · exact i2 (by omega) b hb

variable {ν α : Type} [DecidableEq ν] [DecidableEq α]

/-- Spec: the criteria `(x, "==", y)` for the keys; `txt` is the value of a name as text, which is not used as the names are columns -/
def keyCrits (txt : ν → α) (lk rk : List ν) : List (Criterion ν α) := (lk.zip rk).map fun p => ⟨fun a b => decide (a = b), .name p.1 (txt p.1), .name p.2 (txt p.2)⟩

/-- Spec: the rows of `s` with the keys of a row of `r` -/
def Rel.partners (nul : α) (r s : Rel ν α) (lk rk : List ν) (a : List α) : List (List α) := s.rows.filter fun b => decide (lk.map (r.get nul a) = rk.map (s.get nul b))

theorem meets_keys (nul : α) (txt : ν → α) (r s : Rel ν α) (a b : List α) (lk rk : List ν) (hl : ∀ x ∈ lk, x ∈ r.names) (hr : ∀ x ∈ rk, x ∈ s.names) (hlen : lk.length = rk.length) :
    r.meets nul true (keyCrits txt lk rk) s a b = decide (lk.map (r.get nul a) = rk.map (s.get nul b)) := by
  unfold Rel.meets keyCrits
  rw [if_pos rfl]
  induction lk generalizing rk with
  | nil =>
    cases rk with
    | nil => simp
    | cons y rk => simp at hlen
  | cons x lk ih =>
    cases rk with
    | nil => simp at hlen
    | cons y rk =>
      have ih := ih rk (fun z hz => hl z (List.mem_cons_of_mem _ hz)) (fun z hz => hr z (List.mem_cons_of_mem _ hz)) (by simpa using hlen)
      rw [List.zip_cons_cons, List.map_cons, List.all_cons, ih]
      simp only [Rel.critVal, hl x (by simp), hr y (by simp), if_true, List.map_cons, List.cons.injEq, Bool.decide_and]

/-- on lists of rows: the rows are the same, up to their order, exactly if no row has several partners -/
theorem lookedUp_perm (nul : α) (txt : ν → α) (mk : ν → Nat → ν) (r s : Rel ν α) (hr : r.WF) (hs : s.WF) (lk rk : List ν) (h : Rel.JoinArgs r s lk rk r.names s.names) :
    (r.lookedUp nul mk true (keyCrits txt lk rk) s).rows.Perm (r.leftJoined nul s lk rk r.names s.names) ↔ ∀ a ∈ r.rows, (r.partners nul s lk rk a).length ≤ 1 := by
  have hm : ∀ a, r.meets nul true (keyCrits txt lk rk) s a = fun b => decide (lk.map (r.get nul a) = rk.map (s.get nul b)) :=
    fun a => funext fun b => meets_keys nul txt r s a b lk rk h.lkIn h.rkIn h.len
  have halone : ∀ a, (s.rows.all fun b => !decide (lk.map (r.get nul a) = rk.map (s.get nul b))) = true ↔ r.partners nul s lk rk a = [] := by
    intro a
    unfold Rel.partners
    rw [List.filter_eq_nil_iff, List.all_eq_true]
    simp
  unfold Rel.lookedUp Rel.leftJoined Rel.joined Rel.alone
  dsimp only
  constructor
  · intro hp
    have hl := hp.length_eq
    rw [List.length_map] at hl
    have := (partners_length r.rows (fun a => (s.rows.filter fun b => decide (lk.map (r.get nul a) = rk.map (s.get nul b))).map (r.beside nul s r.names s.names a))
      (fun a => s.rows.all fun b => !decide (lk.map (r.get nul a) = rk.map (s.get nul b))) (fun a => r.names.map (r.get nul a) ++ s.names.map fun _ => nul) (by
        intro a _ e e'
        rw [List.map_eq_nil_iff] at e'
        rw [(halone a).2 e'] at e
        cases e)).2 hl.symm
    intro a ha
    have := this a ha
    rwa [List.length_map] at this
  · intro hone
    refine (perm_partners r.rows _ _ _ _ ?_ ?_).symm
    · intro a ha e
      have e' := (halone a).1 e
      unfold Rel.partners at e'
      refine ⟨by rw [e', List.map_nil], ?_⟩
      have : s.rows.find? (r.meets nul true (keyCrits txt lk rk) s a) = none := by
        rw [List.find?_eq_none, hm]
        exact List.filter_eq_nil_iff.1 e'
      rw [this, Rel.row_get hr ha, Option.getD_none]
    · intro a ha e
      have hne : r.partners nul s lk rk a ≠ [] := fun e' => by rw [(halone a).2 e'] at e; cases e
      have h1 := hone a ha
      unfold Rel.partners at hne h1
      rw [hm, ← List.head?_filter]
      generalize hg : s.rows.filter (fun b => decide (lk.map (r.get nul a) = rk.map (s.get nul b))) = l at hne h1 ⊢
      match l, hne, h1 with
      | [b], _, _ =>
        have hb : b ∈ s.rows := (List.mem_filter.1 (hg ▸ List.mem_singleton_self b)).1
        simp only [List.map_cons, List.map_nil, List.head?_cons, Option.getD_some, Rel.beside, Rel.row_get hr ha, Rel.row_get hs hb]

/-- **C111**, lookups, exact: on tables without empty pages whose rows all have a partner, `lookup` by equal keys and the left join with all columns both succeed, have the same names, and have the same rows up to their
order exactly if no row of the first table has two partners in the second one. -/
theorem C111_lookup_exact {η : Type} [DecidableEq η] {nul : α} {t u : Tbl ν α} {r s : Rel ν α} (ht : Shows nul t r) (hu : Shows nul u s) (hst : Solid t) (hsu : Solid u) (hash : List α → η)
    (hinj : ∀ a b, hash a = hash b → a = b) (ord : List ν → List ν) (hord : ∀ l, (ord l).Perm l) (jord : List (List α) → List (List α)) (ps : Nat) (hps : 0 < ps) (mk : ν → Nat → ν)
    (hmk : ∀ d a b, mk d a = mk d b → a = b) (txt : ν → α) (lk rk : List ν) (h : Rel.JoinArgs r s lk rk r.names s.names) (met : ∀ a ∈ r.rows, r.partners nul s lk rk a ≠ []) :
    ∃ t' t'' R R', tblLookup hash ord ps mk nul true t u (keyCrits txt lk rk) = .ok t' ∧ tblJoin ps mk jord nul .left t u lk rk r.names s.names = .ok t'' ∧
      t'.map (·.1) = t''.map (·.1) ∧ tblRows nul t' = .ok R ∧ tblRows nul t'' = .ok R' ∧ (R.Perm R' ↔ ∀ a ∈ r.rows, (r.partners nul s lk rk a).length ≤ 1) := by
  obtain ⟨x, lk', elk⟩ := List.exists_cons_of_ne_nil h.key
  obtain ⟨y, rk', erk⟩ := List.exists_cons_of_ne_nil (show rk ≠ [] from fun e => h.key (List.length_eq_zero_iff.1 (by rw [h.len, e]; rfl)))
  obtain ⟨t', h1, h2, -, -⟩ := C28_rows_partial ht hu hst hsu hash ord hord ps hps mk hmk true (keyCrits txt lk rk) {
    left := ⟨x, txt x, by rw [elk, erk]; simp [keyCrits], h.lkIn x (by rw [elk]; simp)⟩
    right := ⟨y, txt y, by rw [elk, erk]; simp [keyCrits], h.rkIn y (by rw [erk]; simp)⟩
    hashes := hinj
    met := by
      intro a ha
      obtain ⟨b, hb⟩ := List.exists_mem_of_ne_nil _ (met a ha)
      obtain ⟨b1, b2⟩ := List.mem_filter.1 hb
      exact ⟨b, b1, by rw [meets_keys nul txt r s a b lk rk h.lkIn h.rkIn h.len]; exact b2⟩ }
  obtain ⟨t'', rows, g1, g2, g3⟩ := ht.left hu hsu ps hps mk hmk jord lk rk r.names s.names h
  refine ⟨t', t'', _, _, h1, g1, by rw [h2.2.1, g3.2.1]; rfl, h2.2.2.2, g3.2.2.2, ?_⟩
  rw [← lookedUp_perm nul txt mk r s ht.1 hu.1 lk rk h]
  exact ⟨fun e => e.trans g2, fun e => e.trans g2.symm⟩

/-- a claim without the condition on partners: a lookup by equal keys has the rows of the left join, whenever all rows have a partner -/
def C111_lookup_always : Prop :=
  ∀ (ps : Nat) (mk : Nat → Nat → Nat) (t u : Tbl Nat Nat) (r s : Rel Nat Nat) (lk rk : List Nat), 0 < ps → (∀ d a b, mk d a = mk d b → a = b) → Shows 0 t r → Shows 0 u s → Solid t → Solid u →
    Rel.JoinArgs r s lk rk r.names s.names → (∀ a ∈ r.rows, r.partners 0 s lk rk a ≠ []) →
    ∃ t' t'' R R', tblLookup id id ps mk 0 true t u (keyCrits id lk rk) = .ok t' ∧ tblJoin ps mk id 0 .left t u lk rk r.names s.names = .ok t'' ∧
      tblRows 0 t' = .ok R ∧ tblRows 0 t'' = .ok R' ∧ R.Perm R'

theorem sampleShows : Shows 0 ([(1, [[5, 6]])] : Tbl Nat Nat) ⟨[1], [[5], [6]]⟩ ∧ Shows 0 ([(1, [[5], [6, 5]]), (3, [[7], [8, 9]])] : Tbl Nat Nat) ⟨[1, 3], [[5, 7], [6, 8], [5, 9]]⟩ ∧
    Shows 0 ([(1, [[5], [6]]), (3, [[7], [8]])] : Tbl Nat Nat) ⟨[1, 3], [[5, 7], [6, 8]]⟩ :=
  ⟨(shows_iff ..).2 ⟨⟨by decide, by decide, by decide⟩, by decide⟩, (shows_iff ..).2 ⟨⟨by decide, by decide, by decide⟩, by decide⟩, (shows_iff ..).2 ⟨⟨by decide, by decide, by decide⟩, by decide⟩⟩

/-- a row with two partners stays one row in a lookup and becomes two in a join -/
theorem C111_lookup_several_partners : ¬ C111_lookup_always := by
  intro h
  have args : Rel.JoinArgs (⟨[1], [[5], [6]]⟩ : Rel Nat Nat) ⟨[1, 3], [[5, 7], [6, 8], [5, 9]]⟩ [1] [1] [1] [1, 3] := by constructor <;> decide
  have s1 : Solid ([(1, [[5, 6]])] : Tbl Nat Nat) := by unfold Solid; decide
  have s2 : Solid ([(1, [[5], [6, 5]]), (3, [[7], [8, 9]])] : Tbl Nat Nat) := by unfold Solid; decide
  have hmk : ∀ d a b : Nat, d * 100 + a = d * 100 + b → a = b := fun d a b e => by omega
  obtain ⟨t', t'', R, R', h1, h2, h3, h4, h5⟩ := h 4 (fun d i => d * 100 + i) _ _ _ _ [1] [1] (by omega) hmk sampleShows.1 sampleShows.2.1 s1 s2 args (by decide)
  obtain ⟨v', v'', Q, Q', g1, g2, -, g3, g4, g5⟩ := C111_lookup_exact sampleShows.1 sampleShows.2.1 s1 s2 id (fun _ _ e => e) id (fun l => .refl _) id 4 (by omega) (fun d i => d * 100 + i) hmk id [1] [1] args (by decide)
  rw [h1] at g1
  cases g1
  rw [h2] at g2
  cases g2
  rw [h3] at g3
  cases g3
  rw [h4] at g4
  cases g4
  exact absurd (g5.1 h5) (by decide)

/-- tables in different pages meet the conditions, and no row has two partners -/
example : ∃ t' t'' R R', tblLookup id id 4 (fun d i => d * 100 + i) 0 true [(1, [[5, 6]])] [(1, [[5], [6]]), (3, [[7], [8]])] (keyCrits id [1] [1]) = .ok t' ∧
    tblJoin 4 (fun d i => d * 100 + i) id 0 .left [(1, [[5, 6]])] [(1, [[5], [6]]), (3, [[7], [8]])] [1] [1] [1] [1, 3] = .ok t'' ∧
    t'.map (·.1) = t''.map (·.1) ∧ tblRows 0 t' = .ok R ∧ tblRows 0 t'' = .ok R' ∧ R.Perm R' := by
  obtain ⟨t', t'', R, R', h1, h2, h3, h4, h5, h6⟩ := C111_lookup_exact (r := ⟨[1], [[5], [6]]⟩) (s := ⟨[1, 3], [[5, 7], [6, 8]]⟩) sampleShows.1 sampleShows.2.2 (by unfold Solid; decide) (by unfold Solid; decide) id (fun _ _ e => e)
    id (fun l => .refl _) id 4 (by omega) (fun d i => d * 100 + i) (fun d a b (e : d * 100 + a = d * 100 + b) => by omega) id [1] [1] (by constructor <;> decide) (by decide)
  exact ⟨t', t'', R, R', h1, h2, h3, h4, h5, h6.2 (by decide)⟩

end Tablite
