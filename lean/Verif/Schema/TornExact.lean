import Verif.Schema.InfoProps
set_option linter.unusedVariables false
set_option linter.unusedSimpArgs false
/-!
C72 exactly: how many goroutines it takes to tear the string, and what a torn string can look like.
-/
namespace Schema

/-- What every thread knows, whatever the others do. -/
def PC.Sound (w : Words) : PC → Prop
  | .test | .write | .wrotePtr => True
  | .wroteLen => w.len = true
  | .loadLen => w.len = true
  | .loadPtr l => l = true ∧ w.len = true
  | .done _ l => l = true ∧ w.len = true

theorem PC.Sound.mono {w w' : Words} (h : w.len = true → w'.len = true) {pc : PC} (hs : pc.Sound w) : pc.Sound w' := by
  cases pc <;> simp only [PC.Sound] at hs ⊢
  · exact h hs
  · exact h hs
  · exact ⟨hs.1, h hs.2⟩
  · exact ⟨hs.1, h hs.2⟩

theorem sound_runs {ts0 : List PC} {w0 : Words} {ts : List PC} {w : Words} (h : Runs ts0 w0 ts w) (h0 : ∀ pc ∈ ts0, pc = .test) : ∀ pc ∈ ts, pc.Sound w := by
  induction h with
  | refl => intro pc hpc; rw [h0 pc hpc]; trivial
  | step hts hr hs ih =>
    rename_i ts1 w1 a b pc pc' w2
    have hall := ih
    subst hts
    have hmono : w1.len = true → w2.len = true := by cases hs <;> simp
    have hpc := hall pc (by simp)
    have hpc' : pc'.Sound w2 := by
      cases hs with
      | hit h => exact h
      | miss h => trivial
      | lenFirst => rfl
      | ptrFirst => trivial
      | thenPtr => exact hpc
      | thenLen => rfl
      | loadLen => exact ⟨hpc, hpc⟩
      | loadPtr => exact hpc
    intro x hx
    simp only [List.mem_append, List.mem_cons] at hx
    rcases hx with hx | rfl | hx
    · exact (hall x (by simp [hx])).mono hmono
    · exact hpc'
    · exact (hall x (by simp [hx])).mono hmono

/-- **C72 exactly**: whatever the schedule and however many goroutines, the string a call returns has its whole length; all that can be missing is the pointer. -/
theorem C72_length_is_always_whole (k : Nat) (ts : List PC) (w : Words) (h : Runs (List.replicate k .test) ⟨false, false⟩ ts w) (p l : Bool) (hd : PC.done p l ∈ ts) : l = true :=
  (sound_runs h (fun pc hpc => List.eq_of_mem_replicate hpc) _ hd).1

/-- One goroutine alone. -/
theorem alone {ts0 : List PC} {w0 : Words} {ts : List PC} {w : Words} (h : Runs ts0 w0 ts w) (h0 : ts0 = [.test]) (hw : w0 = ⟨false, false⟩) :
    (ts = [.test] ∧ w = ⟨false, false⟩) ∨ (ts = [.write] ∧ w = ⟨false, false⟩) ∨ (ts = [.wroteLen] ∧ w = ⟨false, true⟩) ∨ (ts = [.wrotePtr] ∧ w = ⟨true, false⟩)
    ∨ (ts = [.loadLen] ∧ w = ⟨true, true⟩) ∨ (ts = [.loadPtr true] ∧ w = ⟨true, true⟩) ∨ (ts = [.done true true] ∧ w = ⟨true, true⟩) := by
  induction h with
  | refl => exact Or.inl ⟨h0, hw⟩
  | step hts hr hs ih =>
    rename_i ts1 w1 a b pc pc' w2
    have one : ∀ (x : PC), ts1 = [x] → a = [] ∧ b = [] ∧ pc = x := by
      intro x hx
      rw [hx] at hts
      cases a with
      | nil => simp at hts; exact ⟨rfl, hts.2, hts.1.symm⟩
      | cons y a => simp at hts
    rcases ih with ⟨e, rfl⟩ | ⟨e, rfl⟩ | ⟨e, rfl⟩ | ⟨e, rfl⟩ | ⟨e, rfl⟩ | ⟨e, rfl⟩ | ⟨e, rfl⟩ <;>
      obtain ⟨rfl, rfl, rfl⟩ := one _ e <;> cases hs <;> simp_all

/-- More threads that do nothing. -/
theorem runs_more {ts0 : List PC} {w0 : Words} {ts : List PC} {w : Words} (h : Runs ts0 w0 ts w) (rest : List PC) : Runs (ts0 ++ rest) w0 (ts ++ rest) w := by
  induction h with
  | refl => exact .refl
  | step hts hr hs ih =>
    rename_i ts1 w1 a b pc pc' w2
    have := Runs.step (a := a) (b := b ++ rest) (pc := pc) (pc' := pc') (by rw [hts]; simp) ih hs
    simpa using this

/-- **C72 exactly**: among `k` goroutines making their first calls, some schedule gives one of them a torn string if and only if there are at least two. -/
theorem C72_torn_possible_iff (k : Nat) :
    (∃ ts w p l, Runs (List.replicate k .test) ⟨false, false⟩ ts w ∧ PC.done p l ∈ ts ∧ ¬ (p = true ∧ l = true)) ↔ 2 ≤ k := by
  constructor
  · rintro ⟨ts, w, p, l, hr, hd, hn⟩
    refine Classical.byContradiction fun hk => ?_
    have hk' : k = 0 ∨ k = 1 := by omega
    rcases hk' with rfl | rfl
    · -- no goroutine
      have : ∀ {ts0 : List PC} {w0 : Words} {ts : List PC} {w : Words}, Runs ts0 w0 ts w → ts0 = [] → ts = [] := by
        intro ts0 w0 ts w h
        induction h with
        | refl => exact id
        | step hts hr hs ih =>
          intro e
          have := ih e
          rw [hts] at this
          simp at this
      rw [this hr rfl] at hd
      cases hd
    · rcases alone hr rfl rfl with ⟨e, -⟩ | ⟨e, -⟩ | ⟨e, -⟩ | ⟨e, -⟩ | ⟨e, -⟩ | ⟨e, -⟩ | ⟨e, -⟩ <;> rw [e] at hd <;> simp only [List.mem_singleton, reduceCtorEq, PC.done.injEq] at hd
      exact hn hd
  · intro hk
    obtain ⟨w, hw⟩ := C72_torn_string
    have := runs_more hw (List.replicate (k - 2) .test)
    refine ⟨[.wroteLen, .done false true] ++ List.replicate (k - 2) .test, w, false, true, ?_, by simp, by simp⟩
    have e : List.replicate k PC.test = [.test, .test] ++ List.replicate (k - 2) .test := by
      obtain ⟨m, rfl⟩ : ∃ m, k = m + 2 := ⟨k - 2, by omega⟩
      rfl
    rw [e]; exact this

/-- **C72**: once both words are stored, every call that is not finished yet returns the whole list, wherever it is (it has the whole length if it loaded it: `C72_length_is_always_whole`). -/
theorem C72_whole_after_a_writer_finished {ts0 : List PC} {ts : List PC} {w : Words} (h : Runs ts0 ⟨true, true⟩ ts w)
    (hs : ∀ pc ∈ ts0, ∀ p l, pc ≠ .done p l) (hl : ∀ l, PC.loadPtr l ∈ ts0 → l = true) : ∀ p l, PC.done p l ∈ ts → p = true ∧ l = true := by
  have key : ∀ {ts0 : List PC} {w0 : Words} {ts : List PC} {w : Words}, Runs ts0 w0 ts w → w0 = ⟨true, true⟩ → (∀ pc ∈ ts0, ∀ p l, pc ≠ .done p l) → (∀ l, PC.loadPtr l ∈ ts0 → l = true) →
      w = ⟨true, true⟩ ∧ (∀ p l, PC.done p l ∈ ts → p = true ∧ l = true) ∧ ∀ l, PC.loadPtr l ∈ ts → l = true := by
    intro ts0 w0 ts w h
    induction h with
    | refl => intro e h1 h2; exact ⟨e, fun p l hm => absurd rfl (h1 _ hm p l), h2⟩
    | step hts hr hst ih =>
      rename_i ts0 w0 ts1 w1 a b pc pc' w2
      intro e h1 h2
      obtain ⟨rfl, g2, g3⟩ := ih e h1 h2
      subst hts
      have hw2 : w2 = ⟨true, true⟩ := by cases hst <;> rfl
      refine ⟨hw2, ?_, ?_⟩
      · intro p l hm
        simp only [List.mem_append, List.mem_cons] at hm
        rcases hm with hm | hm | hm
        · exact g2 p l (by simp [hm])
        · subst hm
          cases hst
          exact ⟨rfl, g3 _ (by simp)⟩
        · exact g2 p l (by simp [hm])
      · intro l hm
        simp only [List.mem_append, List.mem_cons] at hm
        rcases hm with hm | hm | hm
        · exact g3 l (by simp [hm])
        · subst hm
          cases hst; rfl
        · exact g3 l (by simp [hm])
  exact (key h rfl hs hl).2.1

end Schema
