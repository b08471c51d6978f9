import Verif.Props.Procs

/-! C109: exactly which processes suffer from the end of another. -/
namespace Tablite
variable {D : Type}

/-- **C109, exactly** (end of a process): when a process ends with `shutdown`, the pages of another process stay intact if and only if the two have different directories or no
column of the other refers to a page in the common directory.  As a forked process has the directory of its parent, the end of either takes the pages of the other away -/
theorem C109_exit_exact (h h' : Host D) (m m' : MProc D) (hm : h.find m.pid = some m) (hs : h.step (.exit m.pid true) = some h') (hi : Intact m' h.files) :
    Intact m' h'.files ↔ m'.conf ≠ m.conf ∨ ∀ c ∈ m'.st.cols, ∀ o ∈ c, ∀ p d, dGet o m'.st.objs = some (p, d) → p.dir ≠ m'.conf := by
  constructor
  · intro hI
    by_cases hc : m'.conf = m.conf
    · right
      intro c hcc o ho p d hp hdir
      obtain ⟨p', d', hp', hf⟩ := hI c hcc o ho
      rw [hp] at hp'
      cases hp'
      have := hf hdir
      rw [C109_exit h h' m hm hs p, if_pos (hdir.trans hc)] at this
      cases this
    · exact .inl hc
  · intro hI c hc o ho
    obtain ⟨p, d, hp, hf⟩ := hi c hc o ho
    refine ⟨p, d, hp, fun hdir => ?_⟩
    rcases hI with hI | hI
    · rw [C109_exit h h' m hm hs p, if_neg (fun e => hI (hdir.symm.trans e))]
      exact hf hdir
    · exact absurd hdir (hI c hc o ho p d hp)

/-- processes that meet the assumptions: 2 is forked from 1, which has a page -/
example : Host.run (D := Nat) {} [.start 1, .act 1 (.create 1 7), .act 1 (.newCol [0]), .fork 1 2] = some
      { files := [(⟨1, 1, 1⟩, 7)], procs := [⟨1, 1, { files := [(⟨1, 1, 1⟩, 7)], refcounts := [(⟨1, 1, 1⟩, 1)], nextId := 2, objs := [(0, (⟨1, 1, 1⟩, 7))], nextObj := 1, cols := [[0]] }⟩,
        ⟨2, 1, { files := [(⟨1, 1, 1⟩, 7)], refcounts := [(⟨1, 1, 1⟩, 1)], nextId := 2, objs := [(0, (⟨1, 1, 1⟩, 7))], nextObj := 1, cols := [[0]] }⟩] } ∧
    Intact (D := Nat) ⟨1, 1, { objs := [(0, (⟨1, 1, 1⟩, 7))], cols := [[0]] }⟩ [(⟨1, 1, 1⟩, 7)] := by
  refine ⟨rfl, ?_⟩
  intro c hc o ho
  simp at hc
  subst hc
  simp at ho
  subst ho
  exact ⟨_, _, rfl, fun _ => rfl⟩

end Tablite
