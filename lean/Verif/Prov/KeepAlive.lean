import Verif.Base
set_option linter.unusedVariables false
/-!
Model of the keep-alive goroutine of `SQLProvider` (prov.go:57-73) against `Close` (prov.go:105-124), and property C51.

Atomic steps: the runtime's timer puts a tick into the ticker's channel (capacity one, dropped when full, never after `Stop`);
the goroutine receives a tick; the goroutine evaluates `p.conn.Ping()` (a nil `p.conn` panics); `Close` stops the ticker; `Close` closes
the connection and, on success, sets `p.conn` to nil.  Data-race effects other than interleaving (torn reads, stale caches) are not
modelled.  Since Go 1.23 `Stop` also discards a tick that is still in the channel (go.mod asks for go 1.26), so `Stop` empties it here.
-/
namespace Prov.KeepAlive

/-- Program counter of the goroutine: waiting on `range ch`, or holding a tick and about to call `p.conn.Ping()`. -/
inductive Pc where
  | waiting | got | panicked | finished
  deriving DecidableEq, Repr

structure St where
  running : Bool     -- the ticker has not been stopped
  buf : Bool         -- a tick is in the channel
  pc : Pc
  conn : Bool        -- `p.conn != nil`
  closing : Bool     -- `Close` has stopped the ticker and is about to close the connection
  pings : Nat
  deriving DecidableEq, Repr

/-- After `New`. -/
def init : St := ⟨true, false, .waiting, true, false, 0⟩

inductive Act where
  | tick             -- the timer fires
  | recv             -- the goroutine takes the tick
  | ping             -- the goroutine calls p.conn.Ping()
  | stop             -- Close: `p.ticker.Stop(); p.ticker = nil` (if not nil), `p.conn == nil` check
  | closeConn (ok : Bool)  -- Close: `p.conn.Close()`, and `p.conn = nil` on success
  deriving DecidableEq, Repr

/-- A step, if it is enabled.  The channel is never closed, so `range ch` has no step to `finished`. -/
def step (s : St) : Act → Option St
  | .tick => if s.running then some { s with buf := true } else none
  | .recv => if s.buf ∧ s.pc = .waiting then some { s with buf := false, pc := .got } else none
  | .ping =>
    if s.pc = .got then
      if s.conn then some { s with pc := .waiting, pings := s.pings + 1 } else some { s with pc := .panicked }
    else none
  | .stop => if s.closing = false ∧ s.pc ≠ .panicked then
      some { s with running := false, buf := false, closing := s.conn } else none
  | .closeConn ok => if s.closing ∧ s.pc ≠ .panicked then
      some { s with closing := false, conn := !ok } else none

/-- The states reachable by a schedule. -/
inductive Reach : List Act → St → Prop where
  | init : Reach [] init
  | step {as : List Act} {s s' : St} {a : Act} : Reach as s → step s a = some s' → Reach (as ++ [a]) s'

/-- C51 (partial): as long as `Close` has not closed the connection the goroutine does not panic; and when the goroutine is not in the middle of
handling a tick at the moment `Close` stops the ticker, it never pings or panics afterwards, whatever the schedule.
Missing: the goroutine may hold a tick at that moment, see `C51_close_races_with_ping`; and it never ends, see
`C51_goroutine_never_ends`. -/
theorem C51_no_panic_partial (as : List Act) (s : St) (h : Reach as s) :
    ((∀ a ∈ as, a ≠ .closeConn true) → s.pc ≠ .panicked ∧ s.conn = true) := by
  induction h with
  | init => intro _; exact ⟨by decide, rfl⟩
  | @step as s s' a hr hs ih =>
    intro hno
    obtain ⟨i1, i2⟩ := ih (fun x hx => hno x (List.mem_append_left _ hx))
    have ha := hno a (List.mem_append_right _ (List.mem_singleton.2 rfl))
    cases a with
    | tick => simp only [step] at hs; split at hs <;> cases hs; exact ⟨i1, i2⟩
    | recv => simp only [step] at hs; split at hs <;> cases hs; exact ⟨by simp, i2⟩
    | ping =>
      simp only [step, i2, if_true] at hs; split at hs <;> cases hs; exact ⟨by simp, rfl⟩
    | stop => simp only [step] at hs; split at hs <;> cases hs; exact ⟨i1, i2⟩
    | closeConn ok =>
      cases ok with
      | true => exact absurd rfl ha
      | false => simp only [step] at hs; split at hs <;> cases hs; exact ⟨i1, rfl⟩

/-- C51 (partial, quiet close): from a state where the goroutine is waiting, once `Close` has stopped the ticker, no schedule makes the
goroutine ping or panic. -/
theorem C51_quiet_close_partial (s s1 : St) (hw : s.pc = .waiting) (h1 : step s .stop = some s1)
    (as : List Act) : ∀ s2, as.foldlM step s1 = some s2 → s2.pc = .waiting ∧ s2.pings = s1.pings := by
  have hs1 : s1.running = false ∧ s1.buf = false ∧ s1.pc = .waiting := by
    simp only [step] at h1; split at h1 <;> cases h1; exact ⟨rfl, rfl, hw⟩
  clear h1 hw
  induction as generalizing s1 with
  | nil => intro s2 h; simp at h; subst h; exact ⟨hs1.2.2, rfl⟩
  | cons a as ih =>
    intro s2 h
    simp only [List.foldlM_cons] at h
    cases hst : step s1 a with
    | none => rw [hst] at h; simp at h
    | some s' =>
      rw [hst] at h
      obtain ⟨r, b, p⟩ := hs1
      have hk : s'.running = false ∧ s'.buf = false ∧ s'.pc = .waiting ∧ s'.pings = s1.pings := by
        cases a with
        | tick => simp [step, r] at hst
        | recv => simp [step, b] at hst
        | ping => simp [step, p] at hst
        | stop => simp only [step] at hst; split at hst <;> cases hst; exact ⟨rfl, rfl, p, rfl⟩
        | closeConn ok => simp only [step] at hst; split at hst <;> cases hst; exact ⟨r, b, p, rfl⟩
      have := ih s' ⟨hk.1, hk.2.1, hk.2.2.1⟩ s2 h
      exact ⟨this.1, by rw [this.2, hk.2.2.2]⟩

/-- C51 fails (race): after any schedule in which the goroutine has just taken a tick and `Close` has not been called, `Close` can complete
successfully before the goroutine pings, and the goroutine then dereferences a nil pointer, which ends the process. -/
theorem C51_close_races_with_ping (as : List Act) (s : St) (h : Reach as s) (hg : s.pc = .got) (hc : s.conn = true)
    (hn : s.closing = false) :
    ∃ s', Reach (as ++ [.stop] ++ [.closeConn true] ++ [.ping]) s' ∧ s'.pc = .panicked := by
  refine ⟨{ s with running := false, buf := false, closing := false, conn := false, pc := .panicked }, ?_, rfl⟩
  refine .step (.step (.step h (s' := { s with running := false, buf := false, closing := true }) ?_)
    (s' := { s with running := false, buf := false, closing := false, conn := false }) ?_) ?_
  · simp [step, hn, hg, hc]
  · simp [step, hg]
  · simp [step, hg]

/-- C51 fails (leak): in no schedule does the goroutine end, so it survives `Close`. -/
theorem C51_goroutine_never_ends (as : List Act) (s : St) (h : Reach as s) : s.pc ≠ .finished := by
  induction h with
  | init => decide
  | @step as s s' a hr hs ih =>
    cases a with
    | tick => simp only [step] at hs; split at hs <;> cases hs; exact ih
    | recv => simp only [step] at hs; split at hs <;> cases hs; simp
    | ping => simp only [step] at hs; split at hs <;> (try split at hs) <;> cases hs <;> simp
    | stop => simp only [step] at hs; split at hs <;> cases hs; exact ih
    | closeConn ok => simp only [step] at hs; split at hs <;> cases hs; exact ih

/-- The race needs only one tick. -/
example : ∃ s, Reach [.tick, .recv] s ∧ s.pc = .got ∧ s.conn = true ∧ s.closing = false :=
  ⟨_, .step (.step .init rfl) rfl, rfl, rfl, rfl⟩
example : ∃ s1, step init .stop = some s1 ∧ init.pc = .waiting := ⟨_, rfl, rfl⟩

end Prov.KeepAlive
