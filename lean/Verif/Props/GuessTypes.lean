import Verif.Model.GuessTypes
import Verif.Props.Guess

/-! C137: `DataTypes.guess_types`. -/
namespace Tablite

/-- the whole claim: for one or more texts the shares of their types are given -/
def C137_statement : Prop :=
  ∀ (R : GuessRt Unit) (share : Nat → Nat → Dbl) (t : PyText) (texts : List PyText), ∃ shares, guessTypes R share ((t :: texts).map .str) = .ok shares

/-- **C137**: `guess_types` raises TypeError whatever it is called with, as it gives `Rank` the list of the types in place of the types -/
theorem C137_raises {O : Type} (R : GuessRt O) (share : Nat → Nat → Dbl) (values : List (PV O)) : guessTypes R share values = .error .type := rfl

theorem C137_fails : ¬ C137_statement := by
  intro h
  obtain ⟨s, e⟩ := h fewRt (fun _ _ => .fin 1) [] []
  rw [C137_raises] at e
  cases e

/-- values that can be hashed -/
def CanHash {O : Type} (R : GuessRt O) (v : PV O) : Prop := ∀ o, v = .other o → R.hashable o = true

theorem infer_str {O : Type} (R : GuessRt O) (v : PV O) (hv : CanHash R v) : ∃ w, inferItem R v (.one .str) = .ok w := by
  show ∃ w, pyInfer R v .str = .ok w
  unfold pyInfer
  split
  · exact ⟨_, rfl⟩
  · have : ∃ b, pyInNones R v = .ok b := by
      unfold pyInNones
      split <;> first | exact ⟨_, rfl⟩ | skip
      rw [if_pos (hv _ rfl)]
      exact ⟨_, rfl⟩
    obtain ⟨b, e⟩ := this
    rw [e]
    cases b
    · dsimp only [Except.bind]
      rw [if_neg (by decide)]
      show ∃ w, pyInferStr R v = .ok w
      unfold pyInferStr
      split <;> exact ⟨_, rfl⟩
    · exact ⟨_, rfl⟩

theorem dUpd_sum {κ : Type} [DecidableEq κ] (k : κ) (d : List (κ × Nat)) : ((dUpd 0 k (· + 1) d).map (·.2)).sum = (d.map (·.2)).sum + 1 := by
  induction d with
  | nil => rfl
  | cons x d ih =>
    rw [dUpd]
    split
    · simp; omega
    · simp only [List.map_cons, List.sum_cons, ih]; omega

theorem countTypes_total {O : Type} (R : GuessRt O) (types : List RankItem) (ht : .one .str ∈ types) (vs : List (PV O)) : ∀ (h : List RankItem) (s : PyRank RankItem)
    (d d' : List (RankItem × Nat)), RankInvPy types h s → (∀ v ∈ vs, CanHash R v) → countTypes R d s vs = .ok d' →
    (d'.map (·.2)).sum = (d.map (·.2)).sum + vs.length := by
  induction vs with
  | nil => intro h s d d' _ _ e; cases e; rfl
  | cons v vs ih =>
    intro h s d d' hs hv e
    rw [countTypes] at e
    cases hg : guessOne (inferItem R v) s.list with
    | error x => rw [hg] at e; cases e
    | ok c =>
      rw [hg] at e
      dsimp only [Except.bind] at e
      cases c with
      | none =>
        obtain ⟨w, hw⟩ := infer_str R v (hv v (by simp))
        have := guessOne_none hg (.one .str) (hs.perm.mem_iff.2 ht)
        rw [hw] at this
        rcases this with h | h <;> cases h
      | some c =>
        obtain ⟨t, r⟩ := c
        obtain ⟨-, pre, post, hl, -⟩ := guessOne_some hg
        obtain ⟨s', e1, hs'⟩ := match_inv hs (k := t) (hs.perm.mem_iff.1 (by rw [hl]; simp))
        dsimp only at e
        rw [e1] at e
        have := ih _ _ _ _ hs' (fun v hv' => hv v (by simp [hv'])) e
        rw [this, dUpd_sum, List.length_cons]
        omega

/-- C137, with the types as separate items (`Rank(*DataTypes.types)`): every value that can be hashed is counted for exactly one type.  Missing: the call of the
code, which raises -/
theorem C137_partial {O : Type} (R : GuessRt O) (share : Nat → Nat → Dbl) (values : List (PV O)) (hv : ∀ v ∈ values, CanHash R v) (shares : List (RankItem × Dbl))
    (h : guessTypesWith (GT.types.map .one) R share values = .ok shares) :
    ∃ d : List (RankItem × Nat), shares = d.map (fun x => (x.1, share x.2 values.length)) ∧ (d.map (·.2)).sum = values.length := by
  unfold guessTypesWith at h
  have e : rankNew (GT.types.map .one) = .ok (PyRank.new (GT.types.map .one)) := rfl
  rw [e] at h
  dsimp only [Except.bind] at h
  cases hd : countTypes R [] (PyRank.new (GT.types.map RankItem.one)) values with
  | error x => rw [hd] at h; cases h
  | ok d =>
  rw [hd] at h
  dsimp only at h
  have := countTypes_total R _ (by decide) values [] _ [] d (new_inv (GT.types.map RankItem.one) (by decide)) hv hd
  split at h
  · cases h
  · split at h
    · rename_i h1 h2
      rw [h2] at this
      have : values.length = 0 := by simpa using this.symm
      exact absurd (List.length_eq_zero_iff.1 this) h1
    · refine ⟨d, (Except.ok.inj h).symm, ?_⟩
      simpa using this

/-- values that meet the assumptions -/
example : guessTypesWith (GT.types.map .one) fewRt (fun k n => .fin (k / n : Rat)) [.int 1, .int 2, .str (txt "x"), .int 3] =
    .ok [(.one .int, .fin (3 / 4)), (.one .str, .fin (1 / 4))] := by
  decide +kernel

end Tablite
