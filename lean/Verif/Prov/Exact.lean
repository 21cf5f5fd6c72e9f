import Verif.Prov.Props
import Verif.Prov.KeepAlive
set_option linter.unusedSimpArgs false
set_option linter.unusedVariables false
/-! C51, C64, C65: exactly when the code does what the property asks. -/
namespace Prov

/-- **C64 exactly**: the transaction of a successful `BeginTx` has the options asked for if and only if these are the defaults. -/
theorem C64_honoured_iff (ops : List Op) (i j : Nat) (opts : TxOptions) (drv : Bool)
    (h : (step (run ops) (.begin i opts drv)).2 = .provider j) :
    (∃ t, (step (run ops) (.begin i opts drv)).1.trace = (run ops).trace ++ [.begin t opts]) ↔ opts = ⟨0, false⟩ := by
  obtain ⟨t, ht⟩ := C64_options_ignored ops i j opts drv h
  constructor
  · rintro ⟨u, hu⟩
    rw [ht] at hu
    have := List.append_cancel_left hu
    injection this with h1 _
    injection h1 with _ h2
    exact h2.symm
  · rintro rfl; exact ⟨t, ht⟩

example : (step (run exOps) (.begin 0 ⟨4, true⟩ true)).2 = .provider 2 := by decide

/-- A call made through provider `i`. -/
def Spec.Through (i : Nat) : Op → Prop
  | .begin j _ _ => j = i
  | .exec j _ _ => j = i
  | .commit j _ => j = i
  | .rollback j _ => j = i
  | .close j _ => j = i
  | _ => False

/-- The answers a closed provider should give: an error, or nothing for `Close`. -/
def Spec.Refuses (o : Op) (r : Res) : Prop :=
  match o with
  | .close _ _ => r = .ok
  | _ => r = .dbClosed ∨ r = .noTransaction ∨ r = .txDone ∨ r = .driver ∨ r = .alreadyStarted

/-- **C65 exactly**: through a closed provider, whatever happened since, a call is answered by an error (or nothing, for `Close`) and reaches nothing, if and only if it is not `BeginTx`. -/
theorem C65_refused_iff_not_begin (ops more : List Op) (i : Nat) (drv : Bool) (o : Op) (hi : Spec.Plain (run ops) i)
    (hok : (step (run ops) (.close i drv)).2 = .ok) (ho : Spec.Through i o) :
    (Spec.Refuses o (step (run (ops ++ [.close i drv] ++ more)) o).2
      ∧ (step (run (ops ++ [.close i drv] ++ more)) o).1 = run (ops ++ [.close i drv] ++ more)) ↔ ∀ opts d, o ≠ .begin i opts d := by
  obtain ⟨h1, h2⟩ := after_close ops more i drv hi hok
  generalize run (ops ++ [.close i drv] ++ more) = w at h1 h2
  cases o with
  | new => exact ho.elim
  | cancel t => exact ho.elim
  | begin j opts d =>
    have : j = i := ho
    subst this
    constructor
    · rintro ⟨hr, _⟩
      simp [step, h1, beginTx, Spec.Refuses] at hr
    · intro h; exact absurd rfl (h opts d)
  | exec j s d =>
    have : j = i := ho
    subst this
    simp [step, h1, exec, h2, Spec.Refuses]
  | commit j d =>
    have : j = i := ho
    subst this
    simp [step, h1, commit, Spec.Refuses]
  | rollback j d =>
    have : j = i := ho
    subst this
    simp [step, h1, rollback, Spec.Refuses]
  | close j d =>
    have : j = i := ho
    subst this
    simp [step, h1, close, Spec.Refuses]

/-- A provider without connection and transaction was closed. -/
theorem closed_origin (ops : List Op) (i : Nat) (h : (run ops).provs[i]? = some ⟨none, false⟩) :
    ∃ pre drv post, ops = pre ++ [.close i drv] ++ post ∧ Spec.Plain (run pre) i ∧ (step (run pre) (.close i drv)).2 = .ok := by
  induction ops using List.snocRec with
  | nil => simp [run, World.init] at h
  | snoc ops o ih =>
    have hs : run (ops ++ [o]) = (step (run ops) o).1 := by simp [run]
    rw [hs] at h
    have hold : (run ops).provs[i]? = some ⟨none, false⟩ →
        ∃ pre drv post, ops ++ [o] = pre ++ [.close i drv] ++ post ∧ Spec.Plain (run pre) i ∧ (step (run pre) (.close i drv)).2 = .ok := by
      intro hh
      obtain ⟨pre, drv, post, e, a, b⟩ := ih hh
      exact ⟨pre, drv, post ++ [o], by rw [e]; simp, a, b⟩
    generalize hw : run ops = w at h hold
    have happ : ∀ (p : SQLProvider), p ≠ ⟨none, false⟩ → (w.provs ++ [p])[i]? = some ⟨none, false⟩ → w.provs[i]? = some ⟨none, false⟩ := by
      intro p hp hh
      by_cases hl : i < w.provs.length
      · rwa [List.getElem?_append_left hl] at hh
      · rw [List.getElem?_append_right (by omega)] at hh
        cases hn : i - w.provs.length with
        | zero => rw [hn] at hh; simp at hh; exact absurd hh hp
        | succ n => rw [hn] at hh; simp at hh
    have hkeep : ∀ (w' : World), w'.provs = w.provs → w'.provs[i]? = some ⟨none, false⟩ → w.provs[i]? = some ⟨none, false⟩ := by
      intro w' e hh; rw [← e]; exact hh
    cases o with
    | new => exact hold (happ _ (by simp) h)
    | begin j opts d =>
      simp only [step] at h
      cases hp : w.provs[j]? with
      | none => rw [hp] at h; exact hold h
      | some p =>
        rw [hp] at h
        simp only [beginTx] at h
        split at h
        · exact hold h
        · split at h
          · exact hold h
          · split at h
            · exact hold h
            · split at h
              · exact hold h
              · exact hold (happ _ (by simp) h)
    | exec j s d =>
      simp only [step] at h
      cases hp : w.provs[j]? with
      | none => rw [hp] at h; exact hold h
      | some p =>
        rw [hp] at h
        simp only [exec] at h
        split at h <;> split at h <;> exact hold h
    | commit j d =>
      simp only [step] at h
      cases hp : w.provs[j]? with
      | none => rw [hp] at h; exact hold h
      | some p =>
        rw [hp] at h
        simp only [commit, txCommit] at h
        split at h
        · exact hold h
        · split at h <;> exact hold h
    | rollback j d =>
      simp only [step] at h
      cases hp : w.provs[j]? with
      | none => rw [hp] at h; exact hold h
      | some p =>
        rw [hp] at h
        refine hold (hkeep _ ?_ h)
        simp only [rollback, txRollback]
        cases p.tx with
        | none => rfl
        | some t =>
          simp only
          by_cases hd : w.done.getD t true = true
          · simp only [hd, if_true]
          · simp only [hd]; cases d <;> rfl
    | cancel t =>
      refine hold (hkeep _ ?_ h)
      simp only [step, txRollback]
      split <;> rfl
    | close j d =>
      simp only [step] at h
      cases hp : w.provs[j]? with
      | none => rw [hp] at h; exact hold h
      | some p =>
        rw [hp] at h
        by_cases hj : j = i
        · subst hj
          by_cases hc : p.conn = true
          · cases ht : p.tx with
            | some t =>
              refine hold (hkeep _ ?_ h)
              simp only [close, hc, ht, Bool.not_true, Bool.false_eq_true, if_false, rollback, txRollback]
              by_cases hd : w.done.getD t true = true
              · simp only [hd, if_true]
              · simp only [hd]; cases d <;> rfl
            | none =>
              refine ⟨ops, d, [], by simp, ⟨p, by rw [hw]; exact hp, ht⟩, ?_⟩
              rw [hw]
              simp only [step, hp, close, hc, ht, Bool.not_true, Bool.false_eq_true, if_false]
              simp only [close, hc, ht, Bool.not_true, Bool.false_eq_true, if_false, dbClose] at h ⊢
              split
              · rfl
              · rename_i hcl hne
                by_cases hcl : w.closed = true
                · rw [if_pos hcl] at hne; exact absurd rfl (hne w)
                · rw [if_neg hcl] at h hne ⊢
                  cases d with
                  | true => exact absurd rfl (hne _)
                  | false =>
                    exfalso
                    simp only [Bool.false_eq_true, if_false] at h
                    rw [hp] at h
                    simp at h
                    rw [h] at hc; cases hc
          · refine hold (hkeep _ ?_ h)
            simp only [close]
            rw [if_pos (by simpa using hc)]
        · refine hold ?_
          by_cases hc : p.conn = true
          · cases ht : p.tx with
            | some t =>
              refine hkeep _ ?_ h
              simp only [close, hc, ht, Bool.not_true, Bool.false_eq_true, if_false, rollback, txRollback]
              by_cases hd : w.done.getD t true = true
              · simp only [hd, if_true]
              · simp only [hd]; cases d <;> rfl
            | none =>
              simp only [close, hc, ht, Bool.not_true, Bool.false_eq_true, if_false, dbClose] at h
              by_cases hcl : w.closed = true
              · rw [if_pos hcl] at h; simpa [hj] using h
              · rw [if_neg hcl] at h
                cases d <;> simpa [hj] using h
          · refine hkeep _ ?_ h
            simp only [close]
            rw [if_pos (by simpa using hc)]

/-- **C65 exactly**: in every history, a call panics if and only if it is `BeginTx` through a plain provider that was successfully closed before. -/
theorem C65_panics_iff (ops : List Op) (o : Op) :
    (step (run ops) o).2 = .panic ↔ ∃ i opts d, o = .begin i opts d
      ∧ ∃ pre drv post, ops = pre ++ [.close i drv] ++ post ∧ Spec.Plain (run pre) i ∧ (step (run pre) (.close i drv)).2 = .ok := by
  constructor
  · intro h
    have hb : ∃ i opts d, o = .begin i opts d ∧ (run ops).provs[i]? = some ⟨none, false⟩ := by
      generalize run ops = w at h
      cases o with
      | new => simp [step, newProvider] at h
      | cancel t => simp [step] at h
      | begin i opts d =>
        refine ⟨i, opts, d, rfl, ?_⟩
        simp only [step] at h
        cases hp : w.provs[i]? with
        | none => rw [hp] at h; simp at h
        | some p =>
          rw [hp] at h
          simp only [beginTx] at h
          obtain ⟨tx, conn⟩ := p
          cases tx with
          | some t => simp at h
          | none =>
            cases conn with
            | false => rfl
            | true =>
              simp only [Bool.not_true, Bool.false_eq_true, if_false] at h
              split at h
              · cases h
              · split at h <;> cases h
      | exec i s d =>
        simp only [step] at h
        split at h
        · cases h
        · simp only [exec] at h
          split at h
          · split at h
            · cases h
            · simp only at h; split at h <;> cases h
          · split at h
            · cases h
            · simp only at h; split at h <;> cases h
      | commit i d =>
        simp only [step] at h
        split at h
        · cases h
        · simp only [commit, txCommit] at h
          split at h
          · cases h
          · split at h
            · cases h
            · simp only at h; split at h <;> cases h
      | rollback i d =>
        simp only [step] at h
        split at h
        · cases h
        · rename_i p hp
          simp only [rollback, txRollback] at h
          cases ht : p.tx with
          | none => rw [ht] at h; cases h
          | some t =>
            rw [ht] at h
            simp only at h
            by_cases hd : w.done.getD t true = true
            · simp only [hd, if_true] at h; cases h
            · simp only [hd] at h; cases d <;> cases h
      | close i d =>
        simp only [step] at h
        split at h
        · cases h
        · rename_i p hp
          simp only [close] at h
          split at h
          · cases h
          · cases ht : p.tx with
            | none =>
              rw [ht] at h
              simp only [dbClose] at h
              by_cases hcl : w.closed = true
              · rw [if_pos hcl] at h; cases h
              · rw [if_neg hcl] at h; cases d <;> cases h
            | some t =>
              rw [ht] at h
              simp only [rollback, txRollback, ht] at h
              by_cases hd : w.done.getD t true = true
              · simp only [hd, if_true] at h; cases h
              · simp only [hd] at h; cases d <;> cases h
    obtain ⟨i, opts, d, ho, hc⟩ := hb
    exact ⟨i, opts, d, ho, closed_origin ops i hc⟩
  · rintro ⟨i, opts, d, rfl, pre, drv, post, rfl, hi, hok⟩
    exact C65_begin_after_close_panics pre post i drv d opts hi hok

example : (step (run [.new, .exec 0 b!"SELECT" true, .close 0 true, .exec 0 b!"SELECT" true]) (.begin 0 ⟨0, false⟩ true)).2 = .panic
    ∧ (step (run [.new]) (.close 0 true)).2 = .ok := by decide

namespace KeepAlive

/-- **C51 exactly**: `Close` (stopping the ticker and then closing the connection, in any interleaving with the goroutine) can crash the process if and only if the goroutine holds a tick at the
moment the ticker is stopped. -/
theorem C51_close_crashes_iff (as : List Act) (s s1 : St) (h : Reach as s) (hp : s.pc ≠ .panicked) (hc : s.conn = true) (h1 : step s .stop = some s1) :
    (∃ (bs : List Act) (s2 : St), bs.foldlM step s1 = some s2 ∧ s2.pc = .panicked) ↔ s.pc = .got := by
  constructor
  · rintro ⟨bs, s2, hr, hpan⟩
    cases hpc : s.pc with
    | got => rfl
    | panicked => exact absurd hpc hp
    | finished => exact absurd hpc (C51_goroutine_never_ends as s h)
    | waiting =>
      have := (C51_quiet_close_partial s s1 hpc h1 bs s2 hr).1
      rw [hpan] at this; cases this
  · intro hg
    refine ⟨[.closeConn true, .ping], { s with running := false, buf := false, closing := false, conn := false, pc := .panicked }, ?_, rfl⟩
    simp only [step] at h1
    split at h1
    · cases h1
      simp [List.foldlM_cons, step, hg, hc]
    · cases h1

example : ∃ as s s1, Reach as s ∧ s.pc ≠ .panicked ∧ s.conn = true ∧ step s .stop = some s1 ∧ s.pc = .got :=
  ⟨_, _, _, .step (.step .init (a := .tick) rfl) (a := .recv) rfl, by decide, rfl, rfl, rfl⟩

end KeepAlive
end Prov
