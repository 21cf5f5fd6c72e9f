import Verif.Flake.Model
/-! Vocabulary used to state the flake properties: histories of a generator. -/
namespace Flake

/-- All IDs handed out by generator `g` (fresh from `NewIDGenerator`) under the schedule `s` of
goroutine steps: its first ID, then the returned ones, oldest first. -/
def idsOf (g : Gen) (s : List (Nat × Act)) : List (BitVec 64) :=
  g.firstID :: (crun (cinit g) s).log.map Prod.snd

/-- `g` is what some successful `NewIDGenerator` call returned. -/
def Fresh (g : Gen) : Prop := ∃ st d n0 n1 n2 sl, newGen st d n0 n1 n2 = .ok (g, sl)

/-- A sequence of calls made one after the other, each with its two clock readings. -/
def seqRun (g : Gen) : List (Int × Int) → Gen
  | [] => g
  | (now, now2) :: cs => seqRun (nextID g now now2).1 cs

/-- A call with the wall-clock time `ret` at which it returned. -/
structure Timed where
  now : Int
  now2 : Int
  ret : Int

/-- A history on a monotone clock that starts at `t`: each call reads the clock after the previous
one returned, and returns no earlier than its second reading plus the sleep it asked for. -/
def WellTimed (g : Gen) (t : Int) : List Timed → Prop
  | [] => True
  | c :: cs => t ≤ c.now ∧ c.now ≤ c.now2 ∧ c.now2 + (nextID g c.now c.now2).2.1 ≤ c.ret ∧ c.now2 ≤ c.ret ∧
      WellTimed (nextID g c.now c.now2).1 c.ret cs

/-- The start of the millisecond (Go truncation) of instant `t`. -/
def msOf (t : Int) : Int := t.tdiv 1000000 * 1000000

/-- A loopback address: 127.x.y.z as four bytes or as a v4-mapped v6 address, or the v6 address ::1. -/
def Loopback (ip : List (BitVec 8)) : Prop :=
  (∃ x y z, ip = [127, x, y, z]) ∨ (∃ x y z, ip = [0, 0, 0, 0, 0, 0, 0, 0, 0, 0, 255, 255, 127, x, y, z]) ∨
  ip = [0, 0, 0, 0, 0, 0, 0, 0, 0, 0, 0, 0, 0, 0, 0, 1]

end Flake
