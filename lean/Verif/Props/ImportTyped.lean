import Verif.Model.ImportTyped
import Verif.Props.Import
import Verif.Props.TypedPage
/-!
# C129: an import with guessed types has the columns and rows of the import as text, and every value is a reading of its text
-/

namespace Tablite

/-- `v` is a reading of the text `s` under some type -/
def Reads (pf : List Char → Option Rat) (s : List Char) (v : InfVal) : Prop := ∃ t, inferAs pf t s = .ok v

theorem importRow_opt (fields : List Nat) (r : List (List Char)) : importRow fields r = (optRow fields r).map (·.getD []) := by
  unfold importRow optRow
  simp [Function.comp_def]

theorem optRow_get (fields : List Nat) (r : List (List Char)) (j : Nat) : (importRow fields r).getD j [] = ((optRow fields r).getD j none).getD [] := by
  rw [importRow_opt]
  simp only [List.getD_eq_getElem?_getD, List.getElem?_map]
  cases (optRow fields r)[j]? <;> rfl

/-- the import as text is the import whose pages hold the texts themselves, missing fields being empty -/
theorem importText_with (mk : List Char → Nat → List Char) (num : Nat → List Char) (d : Dialect) (o : ImportOpts) (ps : Nat) (lines : List (List Char)) :
    importText mk num d o ps lines = importWith (fun cells => .ok (cells.map (·.getD []))) mk num d o ps lines := by
  have htask : ∀ fields off count, textReaderTask d lines o.skip fields off count =
      taskPages (fun cells => .ok (cells.map (·.getD []))) d lines o.skip fields off count := by
    intro fields off count
    unfold textReaderTask taskPages
    congr 1
    funext recs
    rw [mapM_ok _ _ (fun j => (pageLoop o.skip count 0 recs).map fun r => (importRow fields r).getD j []) (by
      intro j _
      simp only [List.map_map]
      congr 1
      apply List.map_congr_left
      intro r _
      exact (optRow_get fields r j).symm)]
    simp [Function.comp_def]
  unfold importText importWith
  simp only [htask]

theorem inferFirst_sound {inf : DType → Except Err InfVal} {p : DType → Bool} {r : Rank} {v : InfVal} (h : inferFirst inf p r = .ok v) : ∃ t, inf t = .ok v := by
  induction r with
  | nil => cases h
  | cons a r ih =>
    obtain ⟨t, n⟩ := a
    rw [inferFirst] at h
    by_cases hp : p t = true
    · rw [if_pos hp] at h
      cases ht : inf t with
      | ok w => rw [ht] at h; cases h; exact ⟨t, ht⟩
      | error e =>
        rw [ht] at h
        cases e <;> first | exact ih h | cases h
    · rw [if_neg hp] at h; exact ih h

theorem writeValue_sound {pf : List Char → Option Rat} {p : PageType} {r : Rank} {w : Nat} {s : List Char} {v : InfVal} (h : writeValue (inferAs pf) p r w s = .ok v) :
    Reads pf s v := by
  cases p with
  | unicode =>
    change (if w < s.length then (.error .overflow : Except Err InfVal) else .ok (.str s)) = _ at h
    by_cases hw : w < s.length
    · rw [if_pos hw] at h; cases h
    · rw [if_neg hw] at h; cases h; exact ⟨.string, rfl⟩
  | _ => exact inferFirst_sound h

theorem writeMissing_sound {pf : List Char → Option Rat} {p : PageType} {v : InfVal} (h : writeMissing p = .ok v) : Reads pf [] v := by
  cases p <;> first | (cases h; first | exact ⟨.string, rfl⟩ | exact ⟨.none, rfl⟩) | cases h

theorem mapM_rel {α β : Type} {f : α → Except Err β} {l : List α} {bs : List β} (h : l.mapM f = .ok bs) : List.Forall₂ (fun a b => f a = .ok b) l bs := by
  induction l generalizing bs with
  | nil => cases h; exact .nil
  | cons a l ih =>
    rw [List.mapM_cons] at h
    cases ha : f a with
    | error e => rw [ha] at h; cases h
    | ok b =>
      rw [ha] at h
      cases hl : l.mapM f with
      | error e => rw [hl] at h; cases h
      | ok bs' => rw [hl] at h; cases h; exact .cons ha (ih hl)

/-- a typed page holds a reading of every text -/
theorem typedCells_sound {pf : List Char → Option Rat} {cells : List (Option (List Char))} {vs : List InfVal} (h : typedCells (inferAs pf) cells = .ok vs) :
    List.Forall₂ (Reads pf) (cells.map (·.getD [])) vs := by
  unfold typedCells at h
  obtain ⟨x, _, h⟩ := ebind_ok h
  obtain ⟨p, _, h⟩ := ebind_ok h
  rw [List.forall₂_map_left_iff]
  refine (mapM_rel h).imp fun c v hc => ?_
  cases c with
  | none => exact writeMissing_sound hc
  | some s => exact writeValue_sound hc

/-- the pages of a task, with and without guessed types -/
theorem taskPages_sound {pf : List Char → Option Rat} {d : Dialect} {lines : List (List Char)} {skip : Option Bool} {fields : List Nat} {off count : Nat}
    {vp : List (List InfVal)} (h : taskPages (typedCells (inferAs pf)) d lines skip fields off count = .ok vp) :
    ∃ sp, textReaderTask d lines skip fields off count = .ok sp ∧ List.Forall₂ (List.Forall₂ (Reads pf)) sp vp := by
  unfold taskPages at h
  obtain ⟨recs, hr, h⟩ := ebind_ok h
  unfold textReaderTask
  rw [hr]
  refine ⟨_, rfl, ?_⟩
  rw [List.forall₂_map_left_iff]
  refine (mapM_rel h).imp fun j v hj => ?_
  have := typedCells_sound hj
  simp only [List.map_map] at this ⊢
  have e : (pageLoop skip count 0 recs).map (fun r => (importRow fields r).getD j []) =
      (pageLoop skip count 0 recs).map (fun r => ((optRow fields r).getD j none).getD []) := by
    apply List.map_congr_left
    intro r _
    exact optRow_get fields r j
  simp only [Function.comp_def] at this ⊢
  rw [e]
  exact this

theorem forall₂_getD {α β : Type} {R : α → β → Prop} {l : List α} {m : List β} (h : List.Forall₂ R l m) (a : α) (b : β) (hab : R a b) (j : Nat) : R (l.getD j a) (m.getD j b) := by
  induction h generalizing j with
  | nil => simpa using hab
  | cons h1 _ ih => cases j <;> simp_all

theorem reads_flatten {α β : Type} {R : α → β → Prop} {l : List (List α)} {m : List (List β)} (h : List.Forall₂ (List.Forall₂ R) l m) :
    List.Forall₂ R l.flatten m.flatten := by
  induction h with
  | nil => exact .nil
  | cons h1 _ ih => rw [List.flatten_cons, List.flatten_cons]; exact List.rel_append h1 ih

theorem mapM_lift {α β γ : Type} {f : α → Except Err β} {g : α → Except Err γ} {R : γ → β → Prop} (hfg : ∀ a b, f a = .ok b → ∃ c, g a = .ok c ∧ R c b)
    {l : List α} {bs : List β} (h : List.Forall₂ (fun a b => f a = .ok b) l bs) : ∃ cs, l.mapM g = .ok cs ∧ List.Forall₂ R cs bs := by
  induction h with
  | nil => exact ⟨[], rfl, .nil⟩
  | cons h1 _ ih =>
    obtain ⟨c, hp1, hp2⟩ := hfg _ _ h1
    obtain ⟨cs, hr1, hr2⟩ := ih
    refine ⟨c :: cs, ?_, .cons hp2 hr2⟩
    rw [List.mapM_cons, hp1, hr1]; rfl

theorem reads_mem {α β : Type} {R : α → β → Prop} {l : List (List α)} {m : List (List β)} (h : List.Forall₂ (List.Forall₂ R) l m) (page : List β) (hp : page ∈ m) :
    ∃ sp ∈ l, sp.length = page.length := by
  induction h with
  | nil => cases hp
  | cons hab _ ih =>
    rcases List.mem_cons.1 hp with rfl | hp
    · exact ⟨_, List.mem_cons_self, hab.length_eq⟩
    · obtain ⟨sp, h1, h2⟩ := ih hp
      exact ⟨sp, List.mem_cons_of_mem _ h1, h2⟩

/-- **C129**.  An import with guessed types has the columns of the import of the same file as text, under the same names, cut into the same pages, and each value is
a reading of the text at the same place under some type: no row or value is lost, added or moved, and a field missing at the end of a row is read as an empty
one.  This holds for every file, every dialect, all options and every page size. -/
theorem C129_shape (pf : List Char → Option Rat) (mk : List Char → Nat → List Char) (num : Nat → List Char) (d : Dialect) (o : ImportOpts) (ps : Nat)
    (lines : List (List Char)) (table : List (List Char × List (List InfVal))) (h : importTyped pf mk num d o ps lines = .ok table) :
    ∃ text, importText mk num d o ps lines = .ok text ∧
      List.Forall₂ (fun a b => a.1 = b.1 ∧ List.Forall₂ (List.Forall₂ (fun s v => ∃ t, inferAs pf t s = .ok v)) a.2 b.2) text table := by
  unfold importTyped importWith at h
  obtain ⟨offsets, ho, h⟩ := ebind_ok h
  unfold importText
  rw [ho]
  dsimp only [bind, Except.bind]
  by_cases hn : 0 < offsets.length - 1 ∧ o.headerRow < offsets.length - 1
  · rw [if_pos hn] at h ⊢
    obtain ⟨first, hf, h⟩ := ebind_ok h
    rw [hf]
    dsimp only at h ⊢
    by_cases hc : ((o.columns.getD (fieldNames mk num o.headers first)).all fun c => decide (c ∈ fieldNames mk num o.headers first)) = true
    · rw [if_pos hc] at h ⊢
      obtain ⟨res, hres, h⟩ := ebind_ok h
      have hx := mapM_rel hres
      obtain ⟨sres, hs1, hs2⟩ : ∃ sres, (((planTasks ps (lastRow o.limit (offsets.length - 1) (o.start + ((if o.headers = true then 1 else 0) + o.headerRow)))
          (o.start + ((if o.headers = true then 1 else 0) + o.headerRow))).map fun t => (offsets.getD t.1 0, t.2)).mapM fun t => textReaderTask d lines o.skip
            ((List.range (fieldNames mk num o.headers first).length).filter fun i =>
              decide ((fieldNames mk num o.headers first).getD i [] ∈ o.columns.getD (fieldNames mk num o.headers first))) t.1 t.2) = .ok sres ∧
          List.Forall₂ (List.Forall₂ (List.Forall₂ (Reads pf))) sres res := by
        exact mapM_lift (fun _ _ h1 => taskPages_sound h1) hx
      rw [hs1]
      refine ⟨_, rfl, ?_⟩
      cases h
      have hul : ∀ (us cs : List (List Char)) (f : List Char → List (List (List Char))) (g : List Char → List (List InfVal)),
          (∀ c, List.Forall₂ (List.Forall₂ (Reads pf)) (f c) (g c)) →
          List.Forall₂ (fun a b => a.1 = b.1 ∧ List.Forall₂ (List.Forall₂ (Reads pf)) a.2 b.2) (us.zip (cs.map f)) (us.zip (cs.map g)) := by
        intro us cs f g hfg
        induction us generalizing cs with
        | nil => exact .nil
        | cons u us ih =>
          cases cs with
          | nil => exact .nil
          | cons c cs => exact .cons ⟨rfl, hfg c⟩ (ih cs)
      refine hul _ _ _ _ fun c => ?_
      rw [List.find?_map, List.find?_map]
      simp only [Function.comp_def]
      cases List.find? _ _ with
      | none => exact .nil
      | some j =>
        simp only [Option.map_some, Option.elim_some]
        rw [List.forall₂_map_left_iff, List.forall₂_map_right_iff]
        exact hs2.imp fun a b hab => forall₂_getD hab [] [] .nil j
    · rw [if_neg hc] at h; cases h
  · rw [if_neg hn] at h; cases h

/-- **C129**, with `C38_import`: if the file is parsed into records `recs`, the columns of an import with guessed types hold one reading of each field of the requested
rows, in order. -/
theorem C129_import (pf : List Char → Option Rat) (mk : List Char → Nat → List Char) (num : Nat → List Char) (d : Dialect) (o : ImportOpts) (ps : Nat) (hps : 0 < ps)
    (lines : List (List Char)) (recs : List (List (List Char))) (hparse : parseLines d {} lines = .ok recs) (hhdr : o.headerRow < recs.length)
    (hcols : ∀ c ∈ o.columns.getD (fieldNames mk num o.headers ((recs.getD o.headerRow []).map stripEscape)),
      c ∈ fieldNames mk num o.headers ((recs.getD o.headerRow []).map stripEscape))
    (table : List (List Char × List (List InfVal))) (h : importTyped pf mk num d o ps lines = .ok table) :
    let names := fieldNames mk num o.headers ((recs.getD o.headerRow []).map stripEscape)
    let cols := o.columns.getD names
    table.map (·.1) = uniqueNames mk cols ∧ table.length = cols.length ∧
      ∀ k, k < cols.length → ∀ col, table[k]? = some col →
        List.Forall₂ (fun r v => ∃ t, inferAs pf t (r.getD (names.idxOf (cols.getD k [])) []) = .ok v) (requestedRows o recs) col.2.flatten ∧
          ∀ page ∈ col.2, page.length ≤ ps := by
  intro names cols
  obtain ⟨text, h1, h2⟩ := C129_shape pf mk num d o ps lines table h
  obtain ⟨text', h3, h4, h5, h6⟩ := C38_import mk num d o ps hps lines recs hparse hhdr hcols
  rw [h1] at h3
  cases h3
  refine ⟨?_, by rw [← h2.length_eq, h5], ?_⟩
  · rw [← h4]
    clear h h1 h4 h5 h6
    induction h2 with
    | nil => rfl
    | cons hab _ ih => simp [hab.1, ih]
  · intro k hk col hcol
    have hk' : k < text.length := by rw [h5]; exact hk
    obtain ⟨_, hrel⟩ := List.forall₂_iff_get.1 h2
    have hkt : k < table.length := by rw [← h2.length_eq]; exact hk'
    have hr := (hrel k hk' hkt).2
    have hcol' : table.get ⟨k, hkt⟩ = col := by
      rw [List.getElem?_eq_getElem hkt] at hcol
      exact Option.some.inj hcol
    rw [hcol'] at hr
    obtain ⟨h7, h8⟩ := h6 k hk (text.get ⟨k, hk'⟩) (List.getElem?_eq_getElem hk')
    constructor
    · have := reads_flatten hr
      rw [h7, List.forall₂_map_left_iff] at this
      exact this
    · intro page hp
      obtain ⟨sp, hsp, hl⟩ := reads_mem hr page hp
      rw [← hl]
      exact h8 sp hsp

/-- a file with a header, a missing field and an empty one -/
example : ∃ table, importTyped noFloat (fun n i => n ++ '_' :: (toString i).toList) (fun i => (toString i).toList) {} {} 2
      ["a,b".toList, "1,x".toList, "2".toList, ",2020-01-31".toList] = .ok table ∧
    table.map (fun c => (c.1, c.2.flatten)) = [("a".toList, [.int 1, .int 2, .none]), ("b".toList, [.str "x".toList, .str [], .date 2020 1 31])] :=
  ⟨[("a".toList, [[.int 1, .int 2], [.none]]), ("b".toList, [[.str "x".toList, .str []], [.date 2020 1 31]])], by decide +kernel, rfl⟩

end Tablite
