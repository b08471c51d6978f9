import Verif.Model.Guess
import Verif.Props.Codec

/-! C86: guessing the types of the values of a column in Python. -/
namespace Tablite

/-! ## specification -/

/-- type `a` is tried before type `b` after the types in `h` have accepted values (`h` newest first): more values accepted, or as
many, and the last of them earlier, or none by either, and the original order -/
def Ahead {κ : Type} [DecidableEq κ] (types h : List κ) (a b : κ) : Prop :=
  h.count b < h.count a ∨
    (h.count a = h.count b ∧ (h.idxOf b < h.idxOf a ∨ (h.idxOf a = h.idxOf b ∧ types.idxOf a < types.idxOf b)))

/-- errors that count as "not of this type" -/
def Rejects {V : Type} (x : Except Err V) : Prop := x = .error .value ∨ x = .error .type

/-- what a run over the values may give: `h` are the types that accepted the values so far, newest first. Each value gets what the
first type in the order of preference that accepts it makes of it, and nothing if all types reject it. -/
inductive GuessRun {κ V α : Type} [DecidableEq κ] (types : List κ) (inf : α → κ → Except Err V) :
    List κ → List α → List (Option V) → Prop
  | nil (h) : GuessRun types inf h [] []
  | hit (h v vs t r rs) : t ∈ types → inf v t = .ok r → (∀ u ∈ types, Ahead types h u t → Rejects (inf v u)) →
      GuessRun types inf (t :: h) vs rs → GuessRun types inf h (v :: vs) (some r :: rs)
  | miss (h v vs rs) : (∀ u ∈ types, Rejects (inf v u)) → GuessRun types inf h vs rs → GuessRun types inf h (v :: vs) (none :: rs)

/-! ## the ranking -/

theorem dGet_dPut {κ β : Type} [DecidableEq κ] (k x : κ) (v : β) (d : List (κ × β)) :
    dGet x (dPut k v d) = if k = x then some v else dGet x d := by
  unfold dPut
  induction d with
  | nil => simp [dUpd, dGet]
  | cons c d ih =>
    rw [dUpd]
    by_cases h : c.1 = k
    · rw [if_pos h, dGet, dGet, h]
      by_cases hk : k = x
      · simp [hk]
      · simp [hk]
    · rw [if_neg h, dGet, ih, dGet]
      by_cases hx : c.1 = x
      · have : ¬ k = x := fun e => h (hx.trans e.symm)
        simp [hx, this]
      · simp [hx]

/-- the three fields agree: `items` gives the positions in `list`, `ranks` the counts -/
structure PyRankOk {κ : Type} [DecidableEq κ] (s : PyRank κ) (cnt : κ → Nat) : Prop where
  pos : ∀ i x, s.list[i]? = some x → dGet x s.items = some i
  cnts : s.ranks = s.list.map cnt

theorem pyRankOk_inj {κ : Type} [DecidableEq κ] {s : PyRank κ} {cnt : κ → Nat} (h : PyRankOk s cnt) {i j : Nat} {x : κ}
    (hi : s.list[i]? = some x) (hj : s.list[j]? = some x) : i = j := by
  have := (h.pos i x hi).symm.trans (h.pos j x hj)
  exact Option.some.inj this

theorem bubble_spec {κ : Type} [DecidableEq κ] (k : κ) (cnt : κ → Nat) (n : Nat) : ∀ (s : PyRank κ) (pre post : List κ),
    PyRankOk s cnt → s.list = pre ++ k :: post → pre.length = n →
    ∃ s' pre1 pre2, PyRank.bubble k n s = .ok s' ∧ PyRankOk s' cnt ∧ pre = pre1 ++ pre2 ∧ s'.list = pre1 ++ k :: (pre2 ++ post) ∧
      (∀ x ∈ pre2, cnt x < cnt k) ∧ (∀ q x, pre1 = q ++ [x] → cnt k ≤ cnt x) := by
  induction n with
  | zero =>
    intro s pre post hs hl hn
    have : pre = [] := List.length_eq_zero_iff.1 hn
    subst this
    exact ⟨s, [], [], rfl, hs, rfl, hl, by simp, by simp⟩
  | succ n ih =>
    intro s pre post hs hl hn
    rcases List.eq_nil_or_concat pre with rfl | ⟨pre', p, rfl⟩
    · simp at hn
    rw [List.concat_eq_append] at *
    have hn' : pre'.length = n := by simpa using hn
    have l0 : s.list[n]? = some p := by rw [hl, List.append_assoc, List.getElem?_append_right (by omega)]; simp [hn']
    have l1 : s.list[n + 1]? = some k := by rw [hl, List.append_assoc, List.getElem?_append_right (by omega)]; simp [hn']
    have r0 : s.ranks[n]? = some (cnt p) := by rw [hs.cnts, List.getElem?_map, l0]; rfl
    have r1 : s.ranks[n + 1]? = some (cnt k) := by rw [hs.cnts, List.getElem?_map, l1]; rfl
    rw [PyRank.bubble, l0, l1, r0, r1]
    dsimp only
    by_cases hc : cnt k > cnt p
    · rw [if_pos hc]
      have hset : (s.list.set (n + 1) p).set n k = pre' ++ k :: p :: post := by
        rw [hl, List.append_assoc, List.set_append_right _ _ (by omega), List.set_append_right _ _ (by omega)]
        simp [hn']
      have hpk : p ≠ k := by
        intro e
        have := pyRankOk_inj hs l0 (e ▸ l1)
        omega
      obtain ⟨s', pre1, pre2, h1, h2, h3, h4, h5, h6⟩ := ih
        ⟨dPut k n (dPut p (n + 1) s.items), (s.ranks.set (n + 1) (cnt p)).set n (cnt k), (s.list.set (n + 1) p).set n k⟩ pre' (p :: post)
        { pos := by
            intro i x hx
            dsimp only at hx ⊢
            rw [dGet_dPut, dGet_dPut]
            rw [List.getElem?_set, List.getElem?_set] at hx
            have len : n + 1 < s.list.length := by rw [hl]; simp; omega
            by_cases e1 : n = i
            · subst e1
              rw [if_pos rfl, if_pos (by rw [List.length_set]; omega)] at hx
              rw [if_pos (Option.some.inj hx)]
            · rw [if_neg e1] at hx
              by_cases e2 : n + 1 = i
              · subst e2
                rw [if_pos rfl, if_pos (by omega)] at hx
                have := Option.some.inj hx
                subst this
                rw [if_neg (Ne.symm hpk), if_pos rfl]
              · rw [if_neg e2] at hx
                rw [if_neg (fun e : k = x => e2 (pyRankOk_inj hs (e ▸ l1) hx)), if_neg (fun e : p = x => e1 (pyRankOk_inj hs (e ▸ l0) hx))]
                exact hs.pos i x hx
          cnts := by
            dsimp only
            rw [List.map_set, List.map_set, hs.cnts] }
        hset hn'
      refine ⟨s', pre1, pre2 ++ [p], h1, h2, by rw [h3, List.append_assoc], by rw [h4]; simp, ?_, h6⟩
      intro x hx
      rcases List.mem_append.1 hx with hx | hx
      · exact h5 x hx
      · rw [List.mem_singleton.1 hx]; exact hc
    · rw [if_neg hc]
      refine ⟨s, pre' ++ [p], [], rfl, hs, by simp, by rw [hl]; simp, by simp, ?_⟩
      intro q x e
      have := List.append_inj_right' e rfl
      simp only [List.cons.injEq, and_true] at this
      rw [← this]; omega

/-- the state of the ranking after the types in `h` have accepted values -/
structure RankInvPy {κ : Type} [DecidableEq κ] (types h : List κ) (s : PyRank κ) : Prop where
  ok : PyRankOk s (fun t => h.count t)
  perm : s.list.Perm types
  sorted : s.list.Pairwise (Ahead types h)

theorem ahead_cons {κ : Type} [DecidableEq κ] {types h : List κ} {k a b : κ} (ha : a ≠ k) (hb : b ≠ k) (hab : Ahead types h a b) :
    Ahead types (k :: h) a b := by
  unfold Ahead at *
  rw [List.count_cons_of_ne (Ne.symm ha), List.count_cons_of_ne (Ne.symm hb), List.idxOf_cons_ne _ (Ne.symm ha), List.idxOf_cons_ne _ (Ne.symm hb)]
  omega

theorem ahead_new {κ : Type} [DecidableEq κ] {types h : List κ} {k x : κ} (hx : x ≠ k) (hc : h.count x < (k :: h).count k) :
    Ahead types (k :: h) k x := by
  left
  rwa [List.count_cons_of_ne (Ne.symm hx)]

theorem ahead_old {κ : Type} [DecidableEq κ] {types h : List κ} {k x : κ} (hx : x ≠ k) (hc : (k :: h).count k ≤ h.count x) :
    Ahead types (k :: h) x k := by
  unfold Ahead
  rw [List.count_cons_of_ne (Ne.symm hx), List.idxOf_cons_ne _ (Ne.symm hx), List.idxOf_cons_self]
  omega

theorem ahead_count {κ : Type} [DecidableEq κ] {types h : List κ} {a b : κ} (hab : Ahead types h a b) : h.count b ≤ h.count a := by
  unfold Ahead at hab
  omega

theorem match_inv {κ : Type} [DecidableEq κ] {types h : List κ} {s : PyRank κ} (hs : RankInvPy types h s) {k : κ} (hk : k ∈ types)
    : ∃ s', s.match k = .ok s' ∧ RankInvPy types (k :: h) s' := by
  obtain ⟨pre, post, hl⟩ := List.append_of_mem (hs.perm.mem_iff.2 hk)
  have lk : s.list[pre.length]? = some k := by rw [hl, List.getElem?_append_right (by omega)]; simp
  have rk : s.ranks[pre.length]? = some (h.count k) := by rw [hs.ok.cnts, List.getElem?_map, lk]; rfl
  rw [PyRank.match, hs.ok.pos _ _ lk]
  dsimp only
  rw [rk]
  dsimp only
  have nk : ∀ x, (x ∈ pre ∨ x ∈ post) → x ≠ k := by
    rintro x hx rfl
    rcases hx with hx | hx
    · obtain ⟨i, hi, hix⟩ := List.getElem_of_mem hx
      have : s.list[i]? = some x := by rw [hl, List.getElem?_append_left hi, List.getElem?_eq_getElem hi, hix]
      have := pyRankOk_inj hs.ok this lk
      omega
    · obtain ⟨i, hi, hix⟩ := List.getElem_of_mem hx
      have : s.list[pre.length + 1 + i]? = some x := by
        rw [hl, List.getElem?_append_right (by omega), show pre.length + 1 + i - pre.length = i + 1 by omega, List.getElem?_cons_succ,
          List.getElem?_eq_getElem hi, hix]
      have := pyRankOk_inj hs.ok this lk
      omega
  obtain ⟨s', pre1, pre2, h1, h2, h3, h4, h5, h6⟩ := bubble_spec k (fun t => (k :: h).count t) pre.length
    ⟨s.items, s.ranks.set pre.length (h.count k + 1), s.list⟩ pre post
    { pos := hs.ok.pos
      cnts := by
        dsimp only
        rw [hs.ok.cnts, hl]
        rw [List.map_append, List.set_append_right _ _ (by simp), List.map_append]
        simp only [List.length_map, Nat.sub_self, List.map_cons, List.set_cons_zero, List.count_cons_self]
        congr 1
        · exact List.map_congr_left fun x hx => (List.count_cons_of_ne (Ne.symm (nk x (.inl hx)))).symm
        · congr 1
          exact List.map_congr_left fun x hx => (List.count_cons_of_ne (Ne.symm (nk x (.inr hx)))).symm } hl rfl
  refine ⟨s', h1, h2, ?_, ?_⟩
  · refine List.Perm.trans ?_ hs.perm
    rw [h4, hl, h3]
    rw [List.append_assoc]
    refine List.Perm.append_left pre1 ?_
    exact List.perm_middle.symm
  · have hp := hs.sorted
    rw [hl, h3, List.append_assoc] at hp
    rw [h4]
    rw [List.pairwise_append] at hp ⊢
    obtain ⟨p1, p2, p3⟩ := hp
    rw [List.pairwise_append] at p2
    obtain ⟨p4, p5, p6⟩ := p2
    rw [List.pairwise_cons] at p5
    have n1 : ∀ x ∈ pre1, x ≠ k := fun x hx => nk x (.inl (h3 ▸ List.mem_append_left _ hx))
    have n2 : ∀ x ∈ pre2, x ≠ k := fun x hx => nk x (.inl (h3 ▸ List.mem_append_right _ hx))
    have n3 : ∀ x ∈ post, x ≠ k := fun x hx => nk x (.inr hx)
    refine ⟨p1.imp_of_mem fun ha hb hab => ahead_cons (n1 _ ha) (n1 _ hb) hab, ?_, ?_⟩
    · rw [List.pairwise_cons, List.pairwise_append]
      refine ⟨?_, p4.imp_of_mem fun ha hb hab => ahead_cons (n2 _ ha) (n2 _ hb) hab,
        p5.2.imp_of_mem fun ha hb hab => ahead_cons (n3 _ ha) (n3 _ hb) hab, ?_⟩
      · intro x hx
        rcases List.mem_append.1 hx with hx | hx
        · have := h5 x hx
          rw [List.count_cons_of_ne (Ne.symm (n2 x hx))] at this
          exact ahead_new (n2 x hx) this
        · have := ahead_count (p5.1 x hx)
          exact ahead_new (n3 x hx) (by rw [List.count_cons_self]; omega)
      · intro a ha b hb
        exact ahead_cons (n2 a ha) (n3 b hb) (p6 a ha b (List.mem_cons_of_mem _ hb))
    · intro a ha b hb
      rcases List.mem_cons.1 hb with rfl | hb
      · -- everything kept in front has at least as many
        rcases List.eq_nil_or_concat pre1 with e | ⟨q, x, e⟩
        · rw [e] at ha; simp at ha
        rw [List.concat_eq_append] at e
        have hx := h6 q x e
        have hxm : x ∈ pre1 := by rw [e]; simp
        rw [List.count_cons_of_ne (Ne.symm (n1 x hxm))] at hx
        have hax : h.count x ≤ h.count a := by
          rw [e] at ha p1
          rcases List.mem_append.1 ha with ha | ha
          · exact ahead_count ((List.pairwise_append.1 p1).2.2 a ha x (by simp))
          · rw [List.mem_singleton.1 ha]
        exact ahead_old (n1 a ha) (by omega)
      · rcases List.mem_append.1 hb with hb | hb
        · exact ahead_cons (n1 a ha) (n2 b hb) (p3 a ha b (List.mem_append_left _ hb))
        · exact ahead_cons (n1 a ha) (n3 b hb) (p3 a ha b (List.mem_append_right _ (List.mem_cons_of_mem _ hb)))

theorem new_items {κ : Type} [DecidableEq κ] (types : List κ) : ∀ (n : Nat) (d : List (κ × Nat)) (x : κ), types.Nodup →
    dGet x ((types.zipIdx n).foldl (fun d x => dPut x.1 x.2 d) d) = if x ∈ types then some (n + types.idxOf x) else dGet x d := by
  induction types with
  | nil => intro n d x _; simp
  | cons t ts ih =>
    intro n d x hn
    rw [List.zipIdx_cons, List.foldl_cons, ih _ _ _ (List.nodup_cons.1 hn).2]
    by_cases hx : x ∈ ts
    · have hne : t ≠ x := fun e => (List.nodup_cons.1 hn).1 (e ▸ hx)
      rw [if_pos hx, if_pos (List.mem_cons_of_mem _ hx), List.idxOf_cons_ne _ hne]
      congr 1; omega
    · rw [if_neg hx, dGet_dPut]
      by_cases e : t = x
      · subst e; simp
      · rw [if_neg e, if_neg]
        intro hm
        rcases List.mem_cons.1 hm with h | h
        · exact e h.symm
        · exact hx h

theorem new_inv {κ : Type} [DecidableEq κ] (types : List κ) (hn : types.Nodup) : RankInvPy types [] (PyRank.new types) where
  ok :=
    { pos := by
        intro i x hx
        have hx : types[i]? = some x := hx
        obtain ⟨hi, hix⟩ := List.getElem?_eq_some_iff.1 hx
        show dGet x ((types.zipIdx 0).foldl _ _) = _
        rw [new_items types 0 [] x hn, if_pos (hix ▸ List.getElem_mem hi), Nat.zero_add]
        congr 1
        rw [← hix]
        exact hn.idxOf_getElem i hi
      cnts := by
        show types.map _ = types.map _
        simp }
  perm := List.Perm.refl _
  sorted := by
    show types.Pairwise _
    rw [List.pairwise_iff_getElem]
    intro i j hi hj hij
    right
    refine ⟨rfl, .inr ⟨rfl, ?_⟩⟩
    rw [hn.idxOf_getElem i hi, hn.idxOf_getElem j hj]
    exact hij

/-! ## one value -/

theorem guessOne_some {κ V : Type} {inf : κ → Except Err V} {l : List κ} {t : κ} {r : V} (h : guessOne inf l = .ok (some (t, r))) :
    inf t = .ok r ∧ ∃ pre post, l = pre ++ t :: post ∧ ∀ u ∈ pre, Rejects (inf u) := by
  induction l with
  | nil => simp [guessOne] at h
  | cons a l ih =>
    rw [guessOne] at h
    split at h
    · next v hv =>
      simp only [Except.ok.injEq, Option.some.injEq, Prod.mk.injEq] at h
      obtain ⟨rfl, rfl⟩ := h
      exact ⟨hv, [], l, rfl, by simp⟩
    · next hv =>
      obtain ⟨h1, pre, post, h2, h3⟩ := ih h
      refine ⟨h1, a :: pre, post, by rw [h2]; rfl, ?_⟩
      intro u hu
      rcases List.mem_cons.1 hu with rfl | hu
      · exact .inl hv
      · exact h3 u hu
    · next hv =>
      obtain ⟨h1, pre, post, h2, h3⟩ := ih h
      refine ⟨h1, a :: pre, post, by rw [h2]; rfl, ?_⟩
      intro u hu
      rcases List.mem_cons.1 hu with rfl | hu
      · exact .inr hv
      · exact h3 u hu
    · cases h

theorem guessOne_none {κ V : Type} {inf : κ → Except Err V} {l : List κ} (h : guessOne inf l = .ok none) : ∀ u ∈ l, Rejects (inf u) := by
  induction l with
  | nil => simp
  | cons a l ih =>
    rw [guessOne] at h
    split at h
    · cases h
    · next hv => intro u hu; rcases List.mem_cons.1 hu with rfl | hu; exacts [.inl hv, ih h u hu]
    · next hv => intro u hu; rcases List.mem_cons.1 hu with rfl | hu; exacts [.inr hv, ih h u hu]
    · cases h

theorem guessOne_error {κ V : Type} {inf : κ → Except Err V} {l : List κ} {e : Err} (h : guessOne inf l = .error e) :
    ∃ t ∈ l, inf t = .error e ∧ e ≠ .value ∧ e ≠ .type := by
  induction l with
  | nil => simp [guessOne] at h
  | cons a l ih =>
    rw [guessOne] at h
    split at h
    · cases h
    · obtain ⟨t, h1, h2⟩ := ih h; exact ⟨t, List.mem_cons_of_mem _ h1, h2⟩
    · obtain ⟨t, h1, h2⟩ := ih h; exact ⟨t, List.mem_cons_of_mem _ h1, h2⟩
    · next e' h1 h2 hv =>
      cases h
      exact ⟨a, by simp, hv, fun e => h1 (by rw [e] ), fun e => h2 (by rw [e])⟩

theorem guessOne_pick {κ V : Type} (inf : κ → Except Err V) (pre post : List κ) (t : κ) (r : V) (h1 : inf t = .ok r)
    (h2 : ∀ u ∈ pre, Rejects (inf u)) : guessOne inf (pre ++ t :: post) = .ok (some (t, r)) := by
  induction pre with
  | nil => rw [List.nil_append, guessOne, h1]
  | cons a l ih =>
    rw [List.cons_append, guessOne]
    rcases h2 a (by simp) with h | h
    · rw [h]; exact ih fun u hu => h2 u (List.mem_cons_of_mem _ hu)
    · rw [h]; exact ih fun u hu => h2 u (List.mem_cons_of_mem _ hu)

/-! ## C86 -/

theorem guessLoop_run {κ V α : Type} [DecidableEq κ] (types : List κ) (inf : α → κ → Except Err V) (vs : List α) : ∀ (h : List κ) (s : PyRank κ)
    (rs : List (Option V)), RankInvPy types h s → (guessLoop inf s vs = .ok rs ↔ GuessRun types inf h vs rs) := by
  induction vs with
  | nil =>
    intro h s rs _
    rw [guessLoop]
    constructor
    · intro e; cases e; exact .nil h
    · intro e; cases e; rfl
  | cons v vs ih =>
    intro h s rs hs
    rw [guessLoop, guessStep]
    constructor
    · intro e
      cases hg : guessOne (inf v) s.list with
      | error e' => rw [hg] at e; cases e
      | ok c =>
        rw [hg] at e
        cases c with
        | none =>
          simp only [Except.bind] at e
          cases hl : guessLoop inf s vs with
          | error e' => rw [hl] at e; cases e
          | ok r =>
            rw [hl] at e
            cases e
            exact .miss h v vs r (fun u hu => guessOne_none hg u (hs.perm.mem_iff.2 hu)) ((ih h s r hs).1 hl)
        | some c =>
          obtain ⟨t, r⟩ := c
          obtain ⟨h1, pre, post, h2, h3⟩ := guessOne_some hg
          have ht : t ∈ types := hs.perm.mem_iff.1 (by rw [h2]; simp)
          obtain ⟨s', hm, hs'⟩ := match_inv hs ht
          simp only [Except.bind, hm] at e
          cases hl : guessLoop inf s' vs with
          | error e' => rw [hl] at e; cases e
          | ok r' =>
            rw [hl] at e
            cases e
            refine .hit h v vs t r r' ht h1 ?_ ((ih _ s' r' hs').1 hl)
            intro u hu hut
            have hm := hs.perm.mem_iff.2 hu
            rw [h2] at hm
            rcases List.mem_append.1 hm with hm | hm
            · exact h3 u hm
            · exfalso
              have hp := hs.sorted
              rw [h2, List.pairwise_append, List.pairwise_cons] at hp
              have : u = t ∨ Ahead types h t u := by
                rcases List.mem_cons.1 hm with e | hm
                · exact .inl e
                · exact .inr (hp.2.1.1 u hm)
              unfold Ahead at *
              rcases this with rfl | this <;> omega
    · intro e
      cases e with
      | hit _ _ _ t r rs ht h1 h2 h3 =>
        obtain ⟨pre, post, hl⟩ := List.append_of_mem (hs.perm.mem_iff.2 ht)
        have hg : guessOne (inf v) s.list = .ok (some (t, r)) := by
          rw [hl]
          refine guessOne_pick _ pre post t r h1 fun u hu => ?_
          have hp := hs.sorted
          rw [hl, List.pairwise_append] at hp
          exact h2 u (hs.perm.mem_iff.1 (by rw [hl]; simp [hu])) (hp.2.2 u hu t (by simp))
        obtain ⟨s', hm, hs'⟩ := match_inv hs ht
        rw [hg]
        simp only [Except.bind, hm]
        rw [(ih _ s' rs hs').2 h3]
      | miss _ _ _ rs h1 h2 =>
        have hg : guessOne (inf v) s.list = .ok none := by
          have : ∀ l : List κ, (∀ u ∈ l, u ∈ types) → guessOne (inf v) l = .ok none := by
            intro l
            induction l with
            | nil => intro _; rfl
            | cons a l ihl =>
              intro hl
              rw [guessOne]
              rcases h1 a (hl a (by simp)) with h | h
              · rw [h]; exact ihl fun u hu => hl u (List.mem_cons_of_mem _ hu)
              · rw [h]; exact ihl fun u hu => hl u (List.mem_cons_of_mem _ hu)
          exact this _ fun u hu => hs.perm.mem_iff.1 hu
        rw [hg]
        simp only [Except.bind]
        rw [(ih _ s rs hs).2 h2]

/-- C86: after any sequence of matches the ranking lists the types in the order of preference, with their counts and positions. -/
theorem C86_rank {κ : Type} [DecidableEq κ] (types : List κ) (hn : types.Nodup) (ks : List κ) (hk : ∀ k ∈ ks, k ∈ types) :
    ∃ s : PyRank κ, ks.foldlM (fun s k => s.match k) (PyRank.new types) = .ok s ∧ s.list.Perm types ∧
      s.list.Pairwise (Ahead types ks.reverse) ∧ s.ranks = s.list.map (fun t => ks.count t) ∧
      ∀ (i : Nat) (t : κ), s.list[i]? = some t → dGet t s.items = some i := by
  have : ∀ (ks : List κ) (h : List κ) (s : PyRank κ), (∀ k ∈ ks, k ∈ types) → RankInvPy types h s →
      ∃ s', ks.foldlM (fun s k => s.match k) s = .ok s' ∧ RankInvPy types (ks.reverse ++ h) s' := by
    intro ks
    induction ks with
    | nil => intro h s _ hs; exact ⟨s, rfl, hs⟩
    | cons k ks ih =>
      intro h s hk hs
      obtain ⟨s1, h1, h2⟩ := match_inv hs (hk k (by simp))
      obtain ⟨s2, h3, h4⟩ := ih (k :: h) s1 (fun x hx => hk x (List.mem_cons_of_mem _ hx)) h2
      refine ⟨s2, ?_, by simpa using h4⟩
      rw [List.foldlM_cons, h1]
      exact h3
  obtain ⟨s, h1, h2⟩ := this ks [] (PyRank.new types) hk (new_inv types hn)
  rw [List.append_nil] at h2
  refine ⟨s, h1, h2.perm, h2.sorted, ?_, h2.ok.pos⟩
  rw [h2.ok.cnts]
  exact List.map_congr_left fun t _ => List.count_reverse

example : ∃ s, [3, 3, 2, 2, 2].foldlM (fun s k => s.match k) (PyRank.new [1, 2, 3]) = .ok s ∧ s.list = [2, 3, 1] ∧ s.ranks = [3, 2, 0] :=
  ⟨_, rfl, rfl, rfl⟩

theorem types_nodup : GT.types.Nodup := by decide

theorem types_all (t : GT) : t ∈ GT.types := by cases t <;> decide

/-- C86: `guess` gives each value what the first type in the order of preference that accepts it makes of it, and None if none does; the
order of preference depends only on how many values each type has accepted so far and when. -/
theorem C86_guess {O : Type} (R : GuessRt O) (values out : List (PV O)) :
    pyGuess R values = .ok out ↔
      ∃ rs, GuessRun GT.types (pyInfer R) [] values rs ∧ out = rs.map fun x => x.getD .none := by
  unfold pyGuess
  have h := fun rs => guessLoop_run GT.types (pyInfer R) values [] (PyRank.new GT.types) rs (new_inv _ types_nodup)
  constructor
  · intro e
    cases hg : guessLoop (pyInfer R) (PyRank.new GT.types) values with
    | error e' => rw [hg] at e; cases e
    | ok rs => rw [hg] at e; cases e; exact ⟨rs, (h rs).1 hg, rfl⟩
  · rintro ⟨rs, h1, rfl⟩
    rw [(h rs).2 h1]
    rfl

/-- C86: `guess` raises only what one of the types raises on one of the values, and no ValueError or TypeError. -/
theorem C86_raises {O : Type} (R : GuessRt O) (values : List (PV O)) (e : Err) (h : pyGuess R values = .error e) :
    e ≠ .value ∧ e ≠ .type ∧ ∃ v ∈ values, ∃ t, pyInfer R v t = .error e := by
  unfold pyGuess at h
  have : ∀ (vs : List (PV O)) (hs : List GT) (s : PyRank GT), RankInvPy GT.types hs s → guessLoop (pyInfer R) s vs = .error e →
      e ≠ .value ∧ e ≠ .type ∧ ∃ v ∈ vs, ∃ t, pyInfer R v t = .error e := by
    intro vs
    induction vs with
    | nil => intro hs s _ h; cases h
    | cons v vs ih =>
      intro hs s hinv h
      rw [guessLoop, guessStep] at h
      cases hg : guessOne (pyInfer R v) s.list with
      | error e' =>
        rw [hg] at h
        cases h
        obtain ⟨t, _, h1, h2, h3⟩ := guessOne_error hg
        exact ⟨h2, h3, v, by simp, t, h1⟩
      | ok c =>
        rw [hg] at h
        have tail : ∀ hs' s', RankInvPy GT.types hs' s' → guessLoop (pyInfer R) s' vs = .error e →
            e ≠ .value ∧ e ≠ .type ∧ ∃ v' ∈ v :: vs, ∃ t, pyInfer R v' t = .error e := by
          intro hs' s' hi hl
          obtain ⟨h1, h2, v', h3, h4⟩ := ih hs' s' hi hl
          exact ⟨h1, h2, v', List.mem_cons_of_mem _ h3, h4⟩
        cases c with
        | none =>
          simp only [Except.bind] at h
          cases hl : guessLoop (pyInfer R) s vs with
          | error e' => rw [hl] at h; cases h; exact tail hs s hinv hl
          | ok r => rw [hl] at h; cases h
        | some c =>
          obtain ⟨s', hm, hs'⟩ := match_inv hinv (types_all c.1)
          simp only [Except.bind, hm] at h
          cases hl : guessLoop (pyInfer R) s' vs with
          | error e' => rw [hl] at h; cases h; exact tail _ s' hs' hl
          | ok r => rw [hl] at h; cases h
  cases hg : guessLoop (pyInfer R) (PyRank.new GT.types) values with
  | error e' => rw [hg] at h; cases h; exact this values [] _ (new_inv _ types_nodup) hg
  | ok rs => rw [hg] at h; cases h

/-- C86: if one type accepts every value of the column and the types before it in the original order reject every value, every value is read as
that type. -/
theorem C86_homogeneous {O : Type} (R : GuessRt O) (values : List (PV O)) (t : GT) (f : PV O → PV O)
    (h1 : ∀ v ∈ values, pyInfer R v t = .ok (f v))
    (h2 : ∀ v ∈ values, ∀ u, GT.types.idxOf u < GT.types.idxOf t → Rejects (pyInfer R v u)) :
    pyGuess R values = .ok (values.map f) := by
  refine (C86_guess R values _).2 ⟨values.map fun v => some (f v), ?_, by simp⟩
  have : ∀ (vs : List (PV O)) (n : Nat), (∀ v ∈ vs, v ∈ values) →
      GuessRun GT.types (pyInfer R) (List.replicate n t) vs (vs.map fun v => some (f v)) := by
    intro vs
    induction vs with
    | nil => intro n _; exact .nil _
    | cons v vs ih =>
      intro n hm
      refine .hit _ v _ t (f v) _ (types_all t) (h1 v (hm v (by simp))) ?_ (ih (n + 1) fun x hx => hm x (List.mem_cons_of_mem _ hx))
      intro u _ hu
      refine h2 v (hm v (by simp)) u ?_
      unfold Ahead at hu
      rw [List.count_replicate_self, List.count_replicate] at hu
      by_cases e : u = t
      · subst e; simp at hu
      · have e' : (t == u) = false := by simpa using fun h => e (Eq.symm h)
        rw [e', if_neg (by decide)] at hu
        rcases hu with hu | ⟨hu, hu'⟩
        · omega
        · subst hu
          simp only [List.replicate_zero, List.idxOf_nil] at hu'
          omega
  exact this values 0 fun v hv => hv

/-- text without double quotes, spaces and commas -/
def plainText (t : PyText) : PyText := t.filter fun c => c ∉ [34, 32, 44]

theorem plainText_eq (t : PyText) : dropChar 44 (dropChar 32 (dropChar 34 t)) = plainText t := by
  unfold dropChar plainText
  rw [List.filter_filter, List.filter_filter]
  congr 1
  funext c
  by_cases h1 : c = 34
  · simp [h1]
  by_cases h2 : c = 32
  · simp [h2]
  by_cases h3 : c = 44
  · simp [h3]
  simp [h1, h2, h3]

theorem intText_integerChars (z : Int) : ∀ c ∈ intText z, c ∈ integerChars := by
  intro c hc
  have hd : ∀ n, ∀ c ∈ natText n, c ∈ integerChars := by
    intro n c hc
    have h := natText_digits n c hc
    have : c = 48 ∨ c = 49 ∨ c = 50 ∨ c = 51 ∨ c = 52 ∨ c = 53 ∨ c = 54 ∨ c = 55 ∨ c = 56 ∨ c = 57 := by
      omega
    rcases this with rfl | rfl | rfl | rfl | rfl | rfl | rfl | rfl | rfl | rfl <;> decide
  unfold intText at hc
  split at hc
  · rcases List.mem_cons.1 hc with rfl | hc
    · decide
    · exact hd _ c hc
  · exact hd _ c hc

/-- C86: the decimal text of an integer is read as that integer, whatever double quotes, spaces and commas stand in it. -/
theorem C86_int_text (t : PyText) (z : Int) (h : plainText t = intText z) : pyIntText t = .ok z := by
  unfold pyIntText
  rw [plainText_eq, h, parseIntText_intText]
  rw [if_neg]
  intro hc
  obtain ⟨c, h1, h2⟩ := List.any_eq_true.1 hc
  have := intText_integerChars z c h1
  simp [this] at h2

example : plainText (txt "\"1,234 567\"") = intText 1234567 := by decide +kernel

theorem plain_not_none (t : PyText) (z : Int) (h : plainText t = intText z) : noneTexts.contains t = false := by
  by_contra hc
  rw [Bool.not_eq_false] at hc
  have hm : t ∈ noneTexts := by simpa using hc
  have hz := intText_integerChars z
  have hne : intText z ≠ [] := by
    unfold intText
    split
    · simp
    · exact natText_ne_nil _
  rw [← h] at hz hne
  simp only [noneTexts, List.mem_cons, List.not_mem_nil, or_false] at hm
  rcases hm with rfl | rfl | rfl | rfl | rfl | rfl | rfl
  all_goals first
    | (exact hne (by decide +kernel))
    | (revert hz; decide +kernel)

/-- C86: a column of integer texts, with quotes, spaces and commas as above, is read as integers, unless some text can be read as a date or a time. -/
theorem C86_int_column {O : Type} (R : GuessRt O) (texts : List (PyText × Int)) (h : ∀ x ∈ texts, plainText x.1 = intText x.2)
    (hd : ∀ x ∈ texts, Rejects (R.dateText x.1) ∧ Rejects (R.datetimeText x.1)) :
    pyGuess R (texts.map fun x => .str x.1) = .ok (texts.map fun x => .int x.2) := by
  have hi : ∀ x ∈ texts, pyInfer R (.str x.1) .int = .ok (.int x.2) := by
    intro x hx
    unfold pyInfer
    rw [if_neg (by simp)]
    simp only [pyInNones, plain_not_none _ _ (h x hx), Except.bind, Bool.false_eq_true, if_false, pyMatched, pyInferInt, C86_int_text _ _ (h x hx)]
  rw [C86_homogeneous R _ .int (fun v => (pyInfer R v .int).toOption.getD .none)]
  · rw [List.map_map]
    congr 1
    refine List.map_congr_left fun x hx => ?_
    simp only [Function.comp, hi x hx]
    rfl
  · intro v hv
    obtain ⟨x, hx, rfl⟩ := List.mem_map.1 hv
    rw [hi x hx]
    rfl
  · intro v hv u hu
    obtain ⟨x, hx, rfl⟩ := List.mem_map.1 hv
    obtain ⟨d1, d2⟩ := hd x hx
    have d3 : x.1.contains 58 = false := by
      by_contra hc
      rw [Bool.not_eq_false] at hc
      have hm : 58 ∈ plainText x.1 := List.mem_filter.2 ⟨by simpa using hc, by decide⟩
      rw [h x hx] at hm
      exact absurd (intText_integerChars _ _ hm) (by decide +kernel)
    have hr : ∀ {A : Type} {e : Except Err A} (g : A → Except Err (PV O)), Rejects e → Rejects (e.bind g) := by
      intro A e g he
      rcases he with he | he <;> rw [he]
      · exact .inl rfl
      · exact .inr rfl
    have hn := plain_not_none _ _ (h x hx)
    cases u <;> first
      | (exfalso; revert hu; decide)
      | skip
    all_goals
      unfold pyInfer
      rw [if_neg (by simp)]
      simp only [pyInNones, hn, Except.bind, Bool.false_eq_true, if_false, pyMatched, pyInferDatetime, pyInferDate, pyInferTime]
    · exact hr _ d2
    · exact hr _ d1
    · rw [d3]
      exact .inl rfl

/-- values of one type that the types before it leave alone -/
def KeptValues {O : Type} (values : List (PV O)) : Prop :=
  (∀ v ∈ values, v.type = .datetime) ∨ (∀ v ∈ values, v.type = .time) ∨ (∀ v ∈ values, v.type = .int) ∨ (∀ v ∈ values, v.type = .bool) ∨
    (∀ v ∈ values, ∃ q : Rat, v = .float (.fin q) ∧ (ratTrunc q : Rat) ≠ q)

/-- C86: `guess` leaves values that are no text as they are. -/
def C86_values_statement : Prop :=
  ∀ (R : GuessRt Unit) (values : List (PV Unit)), (∀ v ∈ values, v.type ≠ .str) → pyGuess R values = .ok values

/-- C86, the part that holds: columns of datetimes, of times, of ints, of bools, and of doubles that are no integers, are left as they are. Missing: dates
(read as datetimes), doubles equal to an integer (read as ints, until another double has come first), NaN (None), infinity (raises), timedeltas and bytes
(their text), columns of several types. -/
theorem C86_values_partial {O : Type} (R : GuessRt O) (values : List (PV O)) (h : KeptValues values) : pyGuess R values = .ok values := by
  have key : ∀ (t : GT), (∀ v ∈ values, pyInfer R v t = .ok v) →
      (∀ v ∈ values, ∀ u, GT.types.idxOf u < GT.types.idxOf t → Rejects (pyInfer R v u)) → pyGuess R values = .ok values := by
    intro t h1 h2
    rw [C86_homogeneous R values t id h1 h2, List.map_id]
  rcases h with h | h | h | h | h
  · refine key .datetime (fun v hv => ?_) (fun v hv u hu => by exfalso; revert hu; cases u <;> decide)
    have := h v hv
    cases v <;> first | (cases this; done) | rfl
  · refine key .time (fun v hv => ?_) (fun v hv u hu => ?_)
    · have := h v hv
      cases v <;> first | (cases this; done) | rfl
    · have := h v hv
      cases v <;> first
        | (cases this; done)
        | (cases u <;> first
          | (exfalso; revert hu; decide)
          | exact .inl rfl)
  · refine key .int (fun v hv => ?_) (fun v hv u hu => ?_)
    · have := h v hv
      cases v <;> first | (cases this; done) | rfl
    · have := h v hv
      cases v <;> first
        | (cases this; done)
        | (cases u <;> first
          | (exfalso; revert hu; decide)
          | exact .inl rfl)
  · refine key .bool (fun v hv => ?_) (fun v hv u hu => ?_)
    · have := h v hv
      cases v <;> first | (cases this; done) | rfl
    · have := h v hv
      cases v <;> first
        | (cases this; done)
        | (cases u <;> first
          | (exfalso; revert hu; decide)
          | exact .inl rfl)
  · refine key .float (fun v hv => ?_) (fun v hv u hu => ?_)
    · obtain ⟨q, rfl, hq⟩ := h v hv
      rfl
    · obtain ⟨q, rfl, hq⟩ := h v hv
      cases u <;> first
        | (exfalso; revert hu; decide)
        | exact .inl rfl
        | (refine .inl ?_
           show pyInferInt (.float (.fin q)) = _
           rw [pyInferInt, if_neg hq])

example : KeptValues (O := Unit) [.float (.fin (3 / 2)), .float (.fin (1 / 4))] := by
  refine .inr (.inr (.inr (.inr ?_)))
  intro v hv
  simp only [List.mem_cons, List.not_mem_nil, or_false] at hv
  rcases hv with rfl | rfl
  · exact ⟨_, rfl, by decide +kernel⟩
  · exact ⟨_, rfl, by decide +kernel⟩

/-- C86: values with a type are changed: a double equal to an integer becomes an int, a date a datetime, NaN None, a timedelta its text; a list is lost. -/
theorem C86_changed_fails {O : Type} (R : GuessRt O) (d : PyDate) (a b c : Int) (o : O) (ho : R.hashable o = false) :
    pyGuess R [.float (.fin 2)] = .ok [.int 2] ∧ pyGuess R [.date d] = .ok [.datetime d ⟨0, 0, 0, 0, none⟩] ∧
    pyGuess R [.float .nan] = .ok [.none] ∧ pyGuess R [.timedelta a b c] = .ok [.str (R.strOf (.timedelta a b c))] ∧
    pyGuess R [.other o] = .ok [.none] := by
  refine ⟨?_, rfl, rfl, rfl, ?_⟩
  · rw [C86_homogeneous R _ .int (fun _ => .int 2)]
    · rfl
    · intro v hv
      rw [List.mem_singleton.1 hv]
      show pyInferInt (.float (.fin 2)) = _
      rw [pyInferInt, show ratTrunc 2 = 2 by decide +kernel, if_pos (by norm_num)]
    · intro v hv u hu
      rw [List.mem_singleton.1 hv]
      cases u <;> first
        | (exfalso; revert hu; decide)
        | exact .inl rfl
  · refine (C86_guess R _ _).2 ⟨[none], .miss _ _ _ _ ?_ (.nil _), rfl⟩
    intro u _
    right
    unfold pyInfer
    rw [if_neg (by simp [PV.type])]
    simp [pyInNones, ho, Except.bind]

/-- C86: an infinite double raises OverflowError. -/
theorem C86_infinity_fails {O : Type} (R : GuessRt O) : pyGuess R [.float .posInf] = .error .overflow := rfl

/-- the types before `int` read neither text -/
def NoDates {O : Type} (R : GuessRt O) (t : PyText) : Prop :=
  R.dateText t = .error .value ∧ R.datetimeText t = .error .value ∧ R.timeText t = .error .value

/-- a runtime that reads few texts (only to show the assumptions can be met) -/
def fewRt : GuessRt Unit where
  parse t := if t = txt "1.5" then .ok (.fin (3 / 2)) else .error .value
  text _ := txt "1.5"
  fmt _ _ := txt "1.5"
  ofInt z := .ok (.fin z)
  dateText _ := .error .value
  datetimeText _ := .error .value
  timeText _ := .error .value
  strOf _ := []
  hashable _ := false

theorem C86_values_fails : ¬ C86_values_statement := by
  intro h
  have h1 := h fewRt [.float (.fin 2)] (by simp [PV.type])
  rw [(C86_changed_fails fewRt ⟨2020, 1, 1⟩ 0 0 0 () rfl).1] at h1
  cases h1

/-- C86: what a value becomes does not depend on the order of the column. -/
def C86_order_statement {O : Type} (R : GuessRt O) : Prop :=
  ∀ (values values' out out' : List (PV O)), values.Perm values' → pyGuess R values = .ok out → pyGuess R values' = .ok out' →
    (values.zip out).Perm (values'.zip out')

/-- C86: it does: `1,5` is 15 in a column that begins with it, and 1.5 in a column that begins with `1.5`. -/
theorem C86_decimal_order_fails {O : Type} (R : GuessRt O) (h1 : R.parse (txt "1.5") = .ok (.fin (3 / 2))) (h2 : R.fmt 1 (.fin (3 / 2)) = txt "1.5")
    (h3 : NoDates R (txt "1.5")) (h4 : NoDates R (txt "1,5")) :
    pyGuess R [.str (txt "1,5"), .str (txt "1.5")] = .ok [.int 15, .float (.fin (3 / 2))] ∧
    pyGuess R [.str (txt "1.5"), .str (txt "1,5")] = .ok [.float (.fin (3 / 2)), .float (.fin (3 / 2))] ∧
    ¬ C86_order_statement R := by
  have ne1 : noneTexts.contains (txt "1.5") = false := by decide +kernel
  have ne2 : noneTexts.contains (txt "1,5") = false := by decide +kernel
  have inf : ∀ (t : PyText) (u : GT), noneTexts.contains t = false → u ≠ .str → pyInfer R (.str t) u = pyMatched R (.str t) u := by
    intro t u ht hu
    unfold pyInfer
    rw [if_neg (by simp [hu])]
    simp only [pyInNones, ht, Except.bind, Bool.false_eq_true, if_false]
  have fl : ∀ t, floatSeps (dropChar 34 t) = txt "1.5" → pyMatched R (.str t) .float = .ok (.float (.fin (3 / 2))) := by
    intro t ht
    have hf : pyFloatText R (txt "1.5") = .ok (.fin (3 / 2)) := by
      unfold pyFloatText
      rw [if_neg (by decide +kernel), h1]
      dsimp only
      rw [if_neg (by decide +kernel)]
      have : floatBack R (txt "1.5") (.fin (3 / 2)) = txt "1.5" := by
        unfold floatBack
        rw [if_neg (fun h => h.2 (by decide +kernel)), if_pos (by decide +kernel), show (txt "1.5").length - (txt "1.5").idxOf 46 - 1 = 1 by decide +kernel, h2]
      rw [this, if_neg (fun h => h (by decide +kernel))]
    show (pyFloatText R (floatSeps (dropChar 34 t))).bind _ = _
    rw [ht, hf]
    rfl
  have f1 := fl (txt "1.5") (by decide +kernel)
  have f2 := fl (txt "1,5") (by decide +kernel)
  have i1 : pyMatched R (.str (txt "1.5")) .int = .error .value := by
    simp only [pyMatched, pyInferInt]
    rw [show pyIntText (txt "1.5") = .error .value by decide +kernel]; rfl
  have i2 : pyMatched R (.str (txt "1,5")) .int = .ok (.int 15) := by
    simp only [pyMatched, pyInferInt]
    rw [show pyIntText (txt "1,5") = .ok 15 by decide +kernel]; rfl
  have b : ∀ t, lowerText t ≠ txt "true" → lowerText t ≠ txt "false" → pyMatched R (.str t) .bool = .error .value := by
    intro t ht hf
    show (if _ then _ else _) = _
    rw [if_neg ht, if_neg hf]
  have b1 := b (txt "1.5") (by decide +kernel) (by decide +kernel)
  have dts : ∀ t, NoDates R t → pyMatched R (.str t) .datetime = .error .value ∧ pyMatched R (.str t) .date = .error .value ∧
      pyMatched R (.str t) .time = .error .value := by
    intro t ht
    refine ⟨?_, ?_, ?_⟩
    · show (R.datetimeText t).bind _ = _
      rw [ht.2.1]; rfl
    · show (R.dateText t).bind _ = _
      rw [ht.1]; rfl
    · show (if _ then (R.timeText t).bind _ else _) = _
      rw [ht.2.2]; split <;> rfl
  obtain ⟨d1, d2, d3⟩ := dts _ h3
  obtain ⟨e1, e2, e3⟩ := dts _ h4
  have r1 : pyGuess R [.str (txt "1,5"), .str (txt "1.5")] = .ok [.int 15, .float (.fin (3 / 2))] := by
    refine (C86_guess R _ _).2 ⟨[some _, some _], .hit _ _ _ .int _ _ (types_all _) ((inf _ _ ne2 (by decide)).trans i2) ?_
      (.hit _ _ _ .float _ _ (types_all _) ((inf _ _ ne1 (by decide)).trans f1) ?_ (.nil _)), rfl⟩
    · intro u _ hu
      left
      cases u <;> first
        | (rw [inf _ _ ne2 (by decide)]; assumption)
        | (exfalso; revert hu; unfold Ahead; decide)
    · intro u _ hu
      left
      cases u <;> first
        | (rw [inf _ _ ne1 (by decide)]; assumption)
        | (exfalso; revert hu; unfold Ahead; decide)
  have r2 : pyGuess R [.str (txt "1.5"), .str (txt "1,5")] = .ok [.float (.fin (3 / 2)), .float (.fin (3 / 2))] := by
    refine (C86_guess R _ _).2 ⟨[some _, some _], .hit _ _ _ .float _ _ (types_all _) ((inf _ _ ne1 (by decide)).trans f1) ?_
      (.hit _ _ _ .float _ _ (types_all _) ((inf _ _ ne2 (by decide)).trans f2) ?_ (.nil _)), rfl⟩
    · intro u _ hu
      left
      cases u <;> first
        | (rw [inf _ _ ne1 (by decide)]; assumption)
        | (exfalso; revert hu; unfold Ahead; decide)
    · intro u _ hu
      left
      cases u <;> first
        | (rw [inf _ _ ne2 (by decide)]; assumption)
        | (exfalso; revert hu; unfold Ahead; decide)
  refine ⟨r1, r2, ?_⟩
  intro h
  have hp := h _ _ _ _ (List.Perm.swap _ _ _) r1 r2
  have hm := hp.mem_iff.1 (show (PV.str (txt "1,5"), PV.int 15) ∈ _ by simp)
  simp at hm

example : fewRt.parse (txt "1.5") = .ok (.fin (3 / 2)) ∧ fewRt.fmt 1 (.fin (3 / 2)) = txt "1.5" ∧ NoDates fewRt (txt "1.5") ∧ NoDates fewRt (txt "1,5") :=
  ⟨by simp [fewRt], rfl, ⟨rfl, rfl, rfl⟩, rfl, rfl, rfl⟩

example : pyGuess fewRt [.str (txt "1,234"), .str (txt "-7")] = .ok [.int 1234, .int (-7)] := by
  refine C86_int_column fewRt [(txt "1,234", 1234), (txt "-7", -7)] ?_ fun x _ => ⟨.inl rfl, .inl rfl⟩
  intro x hx
  simp only [List.mem_cons, List.not_mem_nil, or_false] at hx
  rcases hx with rfl | rfl <;> decide +kernel

/-- C86: the empty text before other text is None, after it the empty text. -/
theorem C86_missing_order_fails {O : Type} (R : GuessRt O) (h : NoDates R (txt "a")) :
    pyGuess R [.str [], .str (txt "a")] = .ok [.none, .str (txt "a")] ∧ pyGuess R [.str (txt "a"), .str []] = .ok [.str (txt "a"), .str []] := by
  have ha : ∀ u, u ≠ .str → Rejects (pyInfer R (.str (txt "a")) u) := by
    intro u hu
    have : pyInfer R (.str (txt "a")) u = pyMatched R (.str (txt "a")) u := by
      unfold pyInfer
      rw [if_neg (by simp [hu])]
      simp only [pyInNones, show noneTexts.contains (txt "a") = false by decide +kernel, Except.bind, Bool.false_eq_true, if_false]
    rw [this]
    cases u
    · left; show (R.datetimeText _).bind _ = _; rw [h.2.1]; rfl
    · left; show (R.dateText _).bind _ = _; rw [h.1]; rfl
    · left; rfl
    · left; simp only [pyMatched, pyInferInt]; rw [show pyIntText (txt "a") = .error .value by decide +kernel]; rfl
    · left; rfl
    · right; rfl
    · exact absurd rfl hu
  constructor
  · refine (C86_guess R _ _).2 ⟨[some .none, some _], .hit _ _ _ .datetime _ _ (types_all _) rfl ?_
      (.hit _ _ _ .str _ _ (types_all _) rfl ?_ (.nil _)), rfl⟩
    · intro u _ hu
      exfalso; revert hu; cases u <;> (unfold Ahead; decide)
    · intro u _ hu
      by_cases e : u = .str
      · subst e; exfalso; revert hu; unfold Ahead; decide
      · exact ha u e
  · refine (C86_guess R _ _).2 ⟨[some _, some _], .hit _ _ _ .str _ _ (types_all _) rfl ?_
      (.hit _ _ _ .str _ _ (types_all _) rfl ?_ (.nil _)), rfl⟩
    · intro u _ hu
      by_cases e : u = .str
      · subst e; exfalso; revert hu; unfold Ahead; decide
      · exact ha u e
    · intro u _ hu
      exfalso; revert hu; cases u <;> (unfold Ahead; decide)

/-- C86: a bool after a double is read as a double. -/
theorem C86_bool_fails {O : Type} (R : GuessRt O) (h : R.ofInt 1 = .ok (.fin 1)) :
    pyGuess R [.float (.fin (3 / 2)), .bool true] = .ok [.float (.fin (3 / 2)), .float (.fin 1)] := by
  refine (C86_guess R _ _).2 ⟨[some _, some _], .hit _ _ _ .float _ _ (types_all _) rfl ?_
    (.hit _ _ _ .float _ _ (types_all _) ?_ ?_ (.nil _)), rfl⟩
  · intro u _ hu
    left
    cases u <;> first
      | rfl
      | (exfalso; revert hu; unfold Ahead; decide)
      | (show pyInferInt (.float (.fin (3 / 2))) = _; rw [pyInferInt, if_neg (by decide +kernel)])
  · show (R.ofInt _).bind _ = _
    rw [if_pos rfl, h]; rfl
  · intro u _ hu
    exfalso; revert hu; cases u <;> (unfold Ahead; decide)


/-- C86: text without a colon is never read as a time. -/
theorem C86_time_text {O : Type} (R : GuessRt O) (t : PyText) (x : PyTime) (h : pyInfer R (.str t) .time = .ok (.time x)) :
    58 ∈ t ∧ R.timeText t = .ok x := by
  unfold pyInfer at h
  rw [if_neg (by simp)] at h
  cases hn : noneTexts.contains t with
  | true => simp only [pyInNones, hn, Except.bind, if_true] at h; cases h
  | false =>
    simp only [pyInNones, hn, Except.bind, Bool.false_eq_true, if_false, pyMatched, pyInferTime] at h
    by_cases hc : t.contains 58
    · rw [if_pos hc] at h
      refine ⟨by simpa using hc, ?_⟩
      cases hx : R.timeText t with
      | error e => rw [hx] at h; cases h
      | ok y => rw [hx] at h; cases h; rfl
    · rw [if_neg hc] at h; cases h

theorem decimal_lower (t : PyText) (h1 : ¬ t.any (fun c => !decimalChars.contains c)) (h2 : 69 ∉ t) : lowerText t = t := by
  unfold lowerText
  conv_rhs => rw [← List.map_id t]
  refine List.map_congr_left fun c hc => ?_
  have hm : c ∈ decimalChars := by
    by_contra hn
    exact h1 (List.any_eq_true.2 ⟨c, hc, by simpa using hn⟩)
  have hne : c ≠ 69 := fun e => h2 (e ▸ hc)
  have : ∀ c ∈ decimalChars, c ≠ 69 → (if 65 ≤ c ∧ c ≤ 90 then c + 32 else c) = c := by decide +kernel
  exact this c hm hne

/-- C86: decimal text (quotes removed, separators resolved, no exponent) with digits `b` after the dot is read as a double exactly if all its characters
are those of decimals, Python reads it as a double, and that double written with as many digits is the same text again; so no digit is lost. -/
theorem C86_decimal_text {O : Type} (R : GuessRt O) (a b : PyText) (ha : 46 ∉ a) (x : Dbl) (he : 101 ∉ a ++ 46 :: b) (hE : 69 ∉ a ++ 46 :: b) :
    pyFloatText R (a ++ 46 :: b) = .ok x ↔
      (∀ c ∈ a ++ 46 :: b, c ∈ decimalChars) ∧ R.parse (a ++ 46 :: b) = .ok x ∧ R.fmt b.length x = a ++ 46 :: b := by
  have hdot : (a ++ 46 :: b).contains 46 = true := by simp
  have hidx : (a ++ 46 :: b).idxOf 46 = a.length := by
    rw [List.idxOf_append_of_notMem ha, List.idxOf_cons_self]; rfl
  have hprec : (a ++ 46 :: b).length - (a ++ 46 :: b).idxOf 46 - 1 = b.length := by
    rw [hidx, List.length_append, List.length_cons]; omega
  have hback : floatBack R (a ++ 46 :: b) = fun x => R.fmt b.length x := by
    funext y
    unfold floatBack
    rw [if_neg (fun h => h.2 hdot), if_pos hdot, hprec]
  generalize htt : a ++ 46 :: b = t at *
  unfold pyFloatText
  by_cases hany : t.any (fun c => !decimalChars.contains c)
  · rw [if_pos hany]
    constructor
    · intro h; cases h
    · rintro ⟨h1, _⟩
      obtain ⟨c, h2, h3⟩ := List.any_eq_true.1 hany
      simp [h1 c h2] at h3
  · rw [if_neg hany]
    have hall : ∀ c ∈ t, c ∈ decimalChars := by
      intro c hc
      by_contra hn
      exact hany (List.any_eq_true.2 ⟨c, hc, by simpa using hn⟩)
    cases hp : R.parse t with
    | error e =>
      constructor
      · intro h; cases h
      · rintro ⟨_, h, _⟩; cases h
    | ok y =>
      dsimp only
      rw [if_neg (by simp [he, hE]), decimal_lower t hany hE, hback]
      dsimp only
      by_cases hf : t ≠ R.fmt b.length y
      · rw [if_pos hf]
        constructor
        · intro h; cases h
        · rintro ⟨_, h1, h2⟩
          cases h1
          exact absurd h2.symm hf
      · rw [if_neg hf]
        constructor
        · intro h; cases h
          exact ⟨hall, rfl, (not_not.1 hf).symm⟩
        · rintro ⟨_, h1, _⟩
          cases h1; rfl

/-- C86: text with an exponent is read as Python reads the mantissa's double followed by the exponent; both `e` and `E` are taken. -/
theorem C86_exponent_text {O : Type} (R : GuessRt O) (a b : PyText) (c : Nat) (hc : c = 101 ∨ c = 69) (ha : ∀ x ∈ a, x ∈ txt "1234567890-+.")
    (hb : ∀ x ∈ b, x ∈ integerChars) (m x y : Dbl) (z : Int) (h1 : R.parse (a ++ c :: b) = .ok y) (h2 : R.parse a = .ok m)
    (h3 : parseIntText b = .ok z) (h4 : R.parse (R.text m ++ 101 :: intText z) = .ok x) : pyFloatText R (a ++ c :: b) = .ok x := by
  have sa : ∀ x ∈ txt "1234567890-+.", x ∈ decimalChars ∧ x ≠ 101 ∧ x ≠ 69 ∧ (if 65 ≤ x ∧ x ≤ 90 then x + 32 else x) = x := by decide +kernel
  have sb : ∀ x ∈ integerChars, x ∈ decimalChars ∧ x ≠ 101 ∧ x ≠ 69 ∧ (if 65 ≤ x ∧ x ≤ 90 then x + 32 else x) = x := by decide +kernel
  have hl : lowerText (a ++ c :: b) = a ++ 101 :: b := by
    unfold lowerText
    rw [List.map_append, List.map_cons]
    have e1 : a.map (fun c => if 65 ≤ c ∧ c ≤ 90 then c + 32 else c) = a := by
      conv_rhs => rw [← List.map_id a]
      exact List.map_congr_left fun x hx => (sa x (ha x hx)).2.2.2
    have e2 : b.map (fun c => if 65 ≤ c ∧ c ≤ 90 then c + 32 else c) = b := by
      conv_rhs => rw [← List.map_id b]
      exact List.map_congr_left fun x hx => (sb x (hb x hx)).2.2.2
    rw [e1, e2]
    rcases hc with rfl | rfl <;> rfl
  have na : 101 ∉ a := fun h => (sa _ (ha _ h)).2.1 rfl
  have nb : 101 ∉ b := fun h => (sb _ (hb _ h)).2.1 rfl
  unfold pyFloatText
  rw [if_neg, h1]
  · dsimp only
    rw [if_pos (by rcases hc with rfl | rfl <;> simp), hl]
    unfold pySciText
    have hidx : (a ++ 101 :: b).idxOf 101 = a.length := by
      rw [List.idxOf_append_of_notMem na, List.idxOf_cons_self]; rfl
    rw [if_neg (by rw [List.count_append, List.count_cons_self, List.count_eq_zero_of_not_mem na, List.count_eq_zero_of_not_mem nb]; decide), hidx]
    rw [List.take_left', show (a ++ 101 :: b).drop (a.length + 1) = b by simp, h2, h3]
    · exact h4
    · rfl
  · intro hany
    obtain ⟨x, hx, hn⟩ := List.any_eq_true.1 hany
    have : x ∈ decimalChars := by
      rcases List.mem_append.1 hx with hx | hx
      · exact (sa x (ha x hx)).1
      · rcases List.mem_cons.1 hx with e | hx
        · rw [e]; rcases hc with rfl | rfl <;> decide +kernel
        · exact (sb x (hb x hx)).1
    simp [this] at hn

/-- C86: but a mantissa whose double Python writes with an exponent of its own is not read as a number. -/
theorem C86_exponent_fails {O : Type} (R : GuessRt O) (y m : Dbl) (h1 : R.parse (txt "10000000000000000e5") = .ok y)
    (h2 : R.parse (txt "10000000000000000") = .ok m) (h3 : R.text m = txt "1e+16") (h4 : R.parse (txt "1e+16e5") = .error .value) :
    pyFloatText R (txt "10000000000000000e5") = .error .value := by
  unfold pyFloatText
  rw [if_neg (by decide +kernel), h1]
  dsimp only
  rw [if_pos (by decide +kernel), show lowerText (txt "10000000000000000e5") = txt "10000000000000000e5" by decide +kernel]
  unfold pySciText
  rw [if_neg (by decide +kernel), show (txt "10000000000000000e5").take ((txt "10000000000000000e5").idxOf 101) = txt "10000000000000000" by decide +kernel,
    show (txt "10000000000000000e5").drop ((txt "10000000000000000e5").idxOf 101 + 1) = txt "5" by decide +kernel, h2,
    show parseIntText (txt "5") = .ok 5 by decide +kernel]
  simp only [Except.bind, h3]
  rw [show txt "1e+16" ++ 101 :: intText 5 = txt "1e+16e5" by decide +kernel, h4]

end Tablite
