import Verif.Props.Rank
import Verif.Props.InferTime
/-!
# C41, C92: exactly when the ranking of types ends in an exception
-/
namespace Tablite

/-- a value ends the ranking: of the types in their order at that time, one raises something else than a ValueError before one accepts the value -/
def EndsRanking (inf : DType → Except Err InfVal) (r : Rank) : Prop :=
  ∃ pre t n post e, r = pre ++ (t, n) :: post ∧ (∀ p ∈ pre, inf p.1 = .error .value) ∧ inf t = .error e ∧ e ≠ .value

theorem countFirst_exact (inf : DType → Except Err InfVal) (r : Rank) (hs : ∃ t ∈ r.map Prod.fst, ∃ v, inf t = .ok v) :
    (∃ e, countFirst inf r = .error e) ↔ EndsRanking inf r := by
  induction r with
  | nil => obtain ⟨t, ht, -⟩ := hs; cases ht
  | cons a r ih =>
    obtain ⟨u, n⟩ := a
    rw [countFirst]
    cases hu : inf u with
    | ok v =>
      refine iff_of_false (by simp) ?_
      rintro ⟨pre, t, m, post, e, h1, h2, h3, h4⟩
      cases pre with
      | nil =>
        simp only [List.nil_append, List.cons.injEq, Prod.mk.injEq] at h1
        rw [← h1.1.1, hu] at h3
        cases h3
      | cons p pre =>
        simp only [List.cons_append, List.cons.injEq] at h1
        have := h2 p (by simp)
        rw [← h1.1, hu] at this
        cases this
    | error e =>
      by_cases he : e = .value
      · subst he
        have hs' : ∃ t ∈ r.map Prod.fst, ∃ v, inf t = .ok v := by
          obtain ⟨t, ht, v, hv⟩ := hs
          rcases List.mem_cons.1 ht with h | h
          · have h : t = u := h
            rw [h, hu] at hv; cases hv
          · exact ⟨t, h, v, hv⟩
        have ih := ih hs'
        have e1 : (∃ e, (do let x ← countFirst inf r; Except.ok (x.1, (u, n) :: x.2)) = .error e) ↔ ∃ e, countFirst inf r = .error e := by
          cases countFirst inf r <;> simp [bind, Except.bind]
        refine e1.trans (ih.trans ?_)
        constructor
        · rintro ⟨pre, t, m, post, e, h1, h2, h3, h4⟩
          refine ⟨(u, n) :: pre, t, m, post, e, by rw [h1]; rfl, ?_, h3, h4⟩
          intro p hp
          rcases List.mem_cons.1 hp with rfl | hp
          · exact hu
          · exact h2 p hp
        · rintro ⟨pre, t, m, post, e, h1, h2, h3, h4⟩
          cases pre with
          | nil =>
            simp only [List.nil_append, List.cons.injEq, Prod.mk.injEq] at h1
            rw [← h1.1.1, hu] at h3
            cases h3
            exact absurd rfl h4
          | cons p pre =>
            simp only [List.cons_append, List.cons.injEq] at h1
            exact ⟨pre, t, m, post, e, h1.2, fun p hp => h2 p (by simp [hp]), h3, h4⟩
      · refine iff_of_true ?_ ⟨[], u, n, r, e, rfl, by simp, hu, he⟩
        cases e <;> first | exact absurd rfl he | exact ⟨_, rfl⟩

theorem rankLoop_exact (inf : DType → List Char → Except Err InfVal) (values : List (List Char)) (hs : ∀ s ∈ values, ∃ v, inf .string s = .ok v) :
    ∀ (dts : List DType) (r : Rank) (w : Nat), RankInv dts r → ((∃ e, rankLoop inf r w values = .error e) ↔
      ∃ before s after r' w', values = before ++ s :: after ∧ rankLoop inf r w before = .ok (r', w') ∧ EndsRanking (fun t => inf t s) r') := by
  induction values with
  | nil =>
    intro dts r w _
    refine iff_of_false (by rintro ⟨e, h⟩; cases h) ?_
    rintro ⟨b, s, a, r', w', h, -⟩
    simp at h
  | cons s values ih =>
    intro dts r w hr
    have hstr : ∃ t ∈ r.map Prod.fst, ∃ v, inf t s = .ok v := by
      refine ⟨.string, ?_, hs s (by simp)⟩
      exact hr.types.mem_iff.2 (by decide)
    have hex := countFirst_exact (fun t => inf t s) r hstr
    cases hc : countFirst (fun t => inf t s) r with
    | error e =>
      refine iff_of_true ⟨e, by simp [rankLoop, updateRank, hc, bind, Except.bind]⟩ ?_
      exact ⟨[], s, values, r, w, rfl, rfl, hex.1 ⟨e, hc⟩⟩
    | ok x =>
      have hu : updateRank (fun t => inf t s) r = .ok (x.1, sortRanks true x.2) := by simp [updateRank, hc, bind, Except.bind]
      have hinv := (updateRank_inv hr hu).1
      have e1 : ∀ vs, rankLoop inf r w (s :: vs) = rankLoop inf (sortRanks true x.2) (if x.1 = .string then max s.length w else w) vs := by
        intro vs; rw [rankLoop, hu]; rfl
      rw [e1]
      refine (ih (fun s hs' => hs s (by simp [hs'])) _ _ _ hinv).trans ?_
      constructor
      · rintro ⟨b, s', a, r', w', h1, h2, h3⟩
        exact ⟨s :: b, s', a, r', w', by rw [h1]; rfl, by rw [e1]; exact h2, h3⟩
      · rintro ⟨b, s', a, r', w', h1, h2, h3⟩
        cases b with
        | nil =>
          simp only [List.nil_append, List.cons.injEq] at h1
          cases h2
          rw [← h1.1] at h3
          obtain ⟨e, he⟩ := hex.2 h3
          rw [hc] at he
          cases he
        | cons s'' b =>
          simp only [List.cons_append, List.cons.injEq] at h1
          obtain ⟨rfl, h1⟩ := h1
          rw [e1] at h2
          exact ⟨b, s', a, r', w', h1, h2, h3⟩

/-- **C41**, exactly when the ranking of a page ends in an exception: for some value, with the types in their order after the values before it, a type raises
something else than a ValueError and no type before it accepts the value -/
theorem C41_total_exact (inf : DType → List Char → Except Err InfVal) (values : List (List Char)) (hs : ∀ s ∈ values, ∃ v, inf .string s = .ok v) (w : Nat) :
    (∃ e, rankLoop inf newRank w values = .error e) ↔
      ∃ before s after r w', values = before ++ s :: after ∧ rankLoop inf newRank w before = .ok (r, w') ∧ EndsRanking (fun t => inf t s) r :=
  rankLoop_exact inf values hs [] newRank w newRank_inv

/-! ## times -/

theorem nimParseInt_err (s : List Char) (e : Err) (h : nimParseInt s = .error e) : e = .value := by
  unfold nimParseInt at h
  split at h
  · cases h; rfl
  · split at h
    · dsimp only at h
      split at h
      · cases h; rfl
      · split at h <;> split at h <;> cases h <;> rfl
    · cases h; rfl

theorem hmsLoop_err (k : Nat) : ∀ (s : List Char) (e : Err), hmsLoop (k + 1) s = .error e → e = .value := by
  induction k with
  | zero =>
    intro s e h
    rw [hmsLoop] at h
    split at h
    · cases h; rfl
    · cases hv : nimParseInt (s.take 2) with
      | error e' => rw [hv] at h; cases h; exact nimParseInt_err _ _ hv
      | ok v => rw [hv] at h; simp [bind, Except.bind] at h
  | succ k ih =>
    intro s e h
    rw [hmsLoop] at h
    split at h
    · cases h; rfl
    · cases hv : nimParseInt (s.take 2) with
      | error e' => rw [hv] at h; cases h; exact nimParseInt_err _ _ hv
      | ok v =>
        rw [hv] at h
        simp only [bind, Except.bind] at h
        split at h
        · cases h
        · split at h
          · cases hn : hmsLoop (k + 1) (s.drop 3) with
            | error e' => rw [hn] at h; cases h; exact ih _ _ hn
            | ok x => rw [hn] at h; cases h
          · cases h; rfl

theorem parseHms_err (s : List Char) (e : Err) (h : parseHms s = .error e) : e = .value := by
  unfold parseHms at h
  cases hv : hmsLoop 3 s with
  | error e' => rw [hv] at h; cases h; exact hmsLoop_err 2 s _ hv
  | ok x =>
    obtain ⟨vs, rest⟩ := x
    rw [hv] at h
    simp only [bind, Except.bind] at h
    cases rest with
    | nil => cases h
    | cons c r =>
      dsimp only at h
      split at h
      · cases h; rfl
      · split at h
        · cases hn : nimParseInt r with
          | error e' => rw [hn] at h; cases h; exact nimParseInt_err _ _ hn
          | ok v => rw [hn] at h; cases h
        · split at h
          · cases hn : nimParseInt r with
            | error e' => rw [hn] at h; cases h; exact nimParseInt_err _ _ hn
            | ok v => rw [hn] at h; cases h
          · cases h; rfl

theorem timeDigits_err (s : List Char) (e : Err) (h : timeDigits s = .error e) : e = .value := by
  unfold timeDigits at h
  split at h
  · cases h1 : nimParseInt s with
    | error e' => rw [h1] at h; cases h; exact nimParseInt_err _ _ h1
    | ok v => rw [h1] at h; cases h
  · split at h
    · cases h1 : nimParseInt (s.take 2) with
      | error e' => rw [h1] at h; cases h; exact nimParseInt_err _ _ h1
      | ok v =>
        cases h2 : nimParseInt (s.drop 2) with
        | error e' => rw [h1, h2] at h; cases h; exact nimParseInt_err _ _ h2
        | ok v => rw [h1, h2] at h; cases h
    · split at h
      · cases h1 : nimParseInt (s.take 2) with
        | error e' => rw [h1] at h; cases h; exact nimParseInt_err _ _ h1
        | ok v =>
          cases h2 : nimParseInt ((s.drop 2).take 2) with
          | error e' => rw [h1, h2] at h; cases h; exact nimParseInt_err _ _ h2
          | ok v =>
            cases h3 : nimParseInt (s.drop 4) with
            | error e' => rw [h1, h2, h3] at h; cases h; exact nimParseInt_err _ _ h3
            | ok v => rw [h1, h2, h3] at h; cases h
      · cases h; rfl

theorem parseHms_noColon (h : List Char) (hc : TimeChars h) (hn : ':' ∉ h) (x : List Int × Int) (hp : parseHms h = .ok x) : TwoDigits h := by
  unfold parseHms at hp
  cases hv : hmsLoop 3 h with
  | error e => rw [hv] at hp; cases hp
  | ok y =>
    clear hp
    rw [hmsLoop] at hv
    split at hv
    · cases hv
    · rename_i hlen
      cases hi : nimParseInt (h.take 2) with
      | error e => rw [hi] at hv; cases hv
      | ok v =>
        rw [hi] at hv
        simp only [bind, Except.bind] at hv
        split at hv
        · rename_i h0
          have h0 : h.drop 2 = [] := by
            rcases h0 with h0 | h0
            · exact h0
            · cases h0
          have hl : h.length = 2 := by
            have := List.drop_eq_nil_iff.1 h0
            omega
          rw [List.take_of_length_le (by omega)] at hi
          exact (twoDigits_parse hc hl hi).1
        · split at hv
          · rename_i h0
            exfalso
            have : ':' ∈ h.drop 2 := List.mem_of_mem_head? h0
            exact hn (List.mem_of_mem_drop this)
          · cases hv

/-- **C92**, exactly when the reader of times raises an exception that ends the import: a text of digits, colons, points and signs is HH, HH:MM, HH:MM:SS or
HH:MM:SS with a fraction, a sign, and then any text with a number of characters other than 5, 8 and 15 (without the other sign, and with a colon if there was
none before) -/
theorem C92_raises_exact (s : List Char) (hs : ∀ c ∈ s, c.isDigit = true ∨ c = ':' ∨ c = '.' ∨ c = '+' ∨ c = '-') :
    (∃ e, inferTime s = .error e ∧ e ≠ .value) ↔
      ∃ h z, (s = h ++ '+' :: z ∧ '-' ∉ z ∨ s = h ++ '-' :: z ∧ '+' ∉ z) ∧ (TwoDigits h ∧ ':' ∈ z ∨ ∃ hms us, ColonForm h hms us) ∧
        z.length ≠ 5 ∧ z.length ≠ 8 ∧ z.length ≠ 15 := by
  have hsplit : ∀ (sg : Char) (h z : List Char), sg ∉ h → s = h ++ sg :: z →
      s.takeWhile (· ≠ sg) = h ∧ s.dropWhile (· ≠ sg) = sg :: z := by
    intro sg h z hh e
    rw [e]
    have h1 : ∀ c ∈ h, (decide (c ≠ sg)) = true := by
      intro c hc
      simp only [decide_eq_true_eq]
      rintro rfl
      exact hh hc
    constructor
    · rw [List.takeWhile_append_of_pos h1]; simp
    · rw [List.dropWhile_append_of_pos h1]; simp
  constructor
  · rintro ⟨e, he, hne⟩
    unfold inferTime at he
    split at he
    · cases he; exact absurd rfl hne
    split at he
    · exact absurd (timeDigits_err s e he) hne
    split at he
    · cases he; exact absurd rfl hne
    rename_i hlen hcol hboth
    have hcol : ':' ∈ s := not_not.1 hcol
    dsimp only at he
    generalize hsg : (if '+' ∈ s then '+' else '-' : Char) = sg at he
    cases hp : parseHms (s.takeWhile (· ≠ sg)) with
    | error e' =>
      rw [hp] at he
      cases he
      exact absurd (parseHms_err _ _ hp) hne
    | ok x =>
      rw [hp] at he
      simp only [bind, Except.bind] at he
      cases hd : s.dropWhile (· ≠ sg) with
      | nil => rw [hd] at he; cases he
      | cons c z =>
        rw [hd] at he
        dsimp only at he
        have happ : s.takeWhile (· ≠ sg) ++ c :: z = s := by rw [← hd, List.takeWhile_append_dropWhile]
        have hc : c = sg := by
          have := List.head?_dropWhile_not (fun c => decide (c ≠ sg)) s
          rw [hd] at this
          simpa using this
        subst hc
        have hh : c ∉ s.takeWhile (· ≠ c) := by
          intro hm
          have := List.all_eq_true.1 (List.all_takeWhile (p := fun y => decide (y ≠ c)) (l := s)) c hm
          simp at this
        have hzlen : z.length ≠ 5 ∧ z.length ≠ 8 ∧ z.length ≠ 15 := by
          by_contra hcon
          have hl : z.length = 5 ∨ z.length = 8 ∨ z.length = 15 := by omega
          unfold timeZone at he
          rw [if_pos hl] at he
          cases hz : parseHms z with
          | error e' => rw [hz] at he; cases he; exact hne (parseHms_err _ _ hz)
          | ok y => rw [hz] at he; cases he
        have hmem : ∀ y, y ∈ s ↔ y ∈ s.takeWhile (· ≠ c) ∨ y = c ∨ y ∈ z := by
          intro y
          conv => lhs; rw [← happ]
          simp
        have hplus : c = '+' ∧ '+' ∈ s ∧ '-' ∉ s ∨ c = '-' ∧ '+' ∉ s := by
          by_cases hpl : '+' ∈ s
          · rw [if_pos hpl] at hsg
            exact .inl ⟨hsg.symm, hpl, fun hm => hboth ⟨hm, hpl⟩⟩
          · rw [if_neg hpl] at hsg
            exact .inr ⟨hsg.symm, hpl⟩
        have hchars : TimeChars (s.takeWhile (· ≠ c)) := by
          intro y hy
          have hys := (hmem y).2 (.inl hy)
          have hyc : y ≠ c := by rintro rfl; exact hh hy
          rcases hs y hys with h | h | h | h | h
          · exact .inl h
          · exact .inr (.inl h)
          · exact .inr (.inr h)
          · subst h
            rcases hplus with ⟨h1, -, -⟩ | ⟨-, h2⟩
            · exact absurd h1.symm hyc
            · exact absurd hys h2
          · subst h
            rcases hplus with ⟨-, -, h2⟩ | ⟨h1, -⟩
            · exact absurd hys h2
            · exact absurd h1.symm hyc
        refine ⟨s.takeWhile (· ≠ c), z, ?_, ?_, hzlen⟩
        · rcases hplus with ⟨rfl, -, h2⟩ | ⟨rfl, h2⟩
          · exact .inl ⟨happ.symm, fun hm => h2 ((hmem _).2 (.inr (.inr hm)))⟩
          · exact .inr ⟨happ.symm, fun hm => h2 ((hmem _).2 (.inr (.inr hm)))⟩
        · by_cases hcc : ':' ∈ s.takeWhile (· ≠ c)
          · exact .inr ⟨x.1, x.2, parseHms_only _ hchars hcc x.1 x.2 hp⟩
          · refine .inl ⟨parseHms_noColon _ hchars hcc x hp, ?_⟩
            rcases (hmem ':').1 hcol with h | h | h
            · exact absurd h hcc
            · rcases hplus with ⟨rfl, -⟩ | ⟨rfl, -⟩ <;> exact absurd h (by decide)
            · exact h
  · rintro ⟨h, z, hsz, hform, hz⟩
    have hparse : ∃ x, parseHms h = .ok x := by
      rcases hform with ⟨h2, -⟩ | ⟨hms, us, hf⟩
      · refine ⟨([(decVal h : Int)], 0), ?_⟩
        exact parseHms_end h _ [] 0 (hmsLoop_end 2 h h2) (.inl ⟨rfl, rfl⟩)
      · exact ⟨_, parseHms_colon h hms us hf⟩
    have hchars : TimeChars h := by
      rcases hform with ⟨h2, -⟩ | ⟨hms, us, hf⟩
      · intro c hc; exact .inl (h2.1 c hc)
      · exact hf.chars.1
    have hl2 : 2 ≤ h.length := by
      rcases hform with ⟨h2, -⟩ | ⟨hms, us, hf⟩
      · exact h2.2.ge
      · have := hf.chars.2.2; omega
    have hcolon : ':' ∈ h ∨ ':' ∈ z := by
      rcases hform with ⟨-, h2⟩ | ⟨hms, us, hf⟩
      · exact .inr h2
      · exact .inl hf.chars.2.1
    obtain ⟨hnp, hnm⟩ := hchars.no_sign
    obtain ⟨x, hx⟩ := hparse
    have hzone : timeZone z = .error .other := by
      unfold timeZone
      rw [if_neg (by omega)]
    refine ⟨.other, ?_, by decide⟩
    have goal : ∀ sg : Char, s = h ++ sg :: z → sg ∉ h → ':' ∈ s → ¬ ('-' ∈ s ∧ '+' ∈ s) → (if '+' ∈ s then '+' else '-' : Char) = sg → inferTime s = .error .other := by
      intro sg e hh hcs hb hsg
      obtain ⟨t1, t2⟩ := hsplit sg h z hh e
      unfold inferTime
      rw [if_neg (by rw [e]; simp only [List.length_append, List.length_cons]; omega), if_neg (not_not.2 hcs), if_neg hb]
      dsimp only
      rw [hsg, t1, t2, hx]
      simp only [bind, Except.bind]
      rw [hzone]
    rcases hsz with ⟨e, hz'⟩ | ⟨e, hz'⟩
    · refine goal '+' e hnp ?_ ?_ ?_
      · rw [e]; rcases hcolon with h | h <;> simp [h]
      · rintro ⟨hm, -⟩; rw [e] at hm; simp [hnm, hz'] at hm
      · rw [if_pos (by rw [e]; simp)]
    · refine goal '-' e hnm ?_ ?_ ?_
      · rw [e]; rcases hcolon with h | h <;> simp [h]
      · rintro ⟨-, hm⟩; rw [e] at hm; simp [hnp, hz'] at hm
      · rw [if_neg (by rw [e]; simp [hnp, hz'])]

/-- texts that do, and one that does not -/
example : inferTime "08:00-12".toList = .error .other ∧ inferTime "08-12:3".toList = .error .other ∧ inferTime "08:00-12:00".toList = .ok ([8, 0], 0, some (true, [12, 0], 0)) := by
  refine ⟨by decide +kernel, by decide +kernel, by decide +kernel⟩

end Tablite
