import Verif.Base
/-
Model of pkg/flake/flake.go.

Instants are `Int` nanoseconds since the Unix epoch (what `time.Time.UnixNano` returns; Go's
int64 range for it is 1678..2262, the model does not bound it).  `elapsedTime` and `startTime`
are Go int64 values obtained by dividing such a number by 1e6 and adding small increments, so
int64 overflow is out of reach and they are `Int` here.  All bit-packed quantities are `BitVec`.
-/
namespace Flake

/-- flake.go:50 `FlakeTimeUnit = int64(1 * time.Millisecond)`. -/
def timeUnit : Int := 1000000
/-- flake.go:43-45: bit lengths. -/
def bitLenMachineID : Nat := 16
/-- flake.go:43. -/
def bitLenSequence : Nat := 6
/-- flake.go:44. -/
def bitLenTime : Nat := 63 - bitLenMachineID - bitLenSequence
/-- flake.go:46 `MaskSequence16`. -/
def maskSequence16 : BitVec 16 := BitVec.ofNat 16 (2 ^ bitLenSequence - 1)
/-- flake.go:47 `MaskSequence`. -/
def maskSequence : BitVec 64 := (maskSequence16.setWidth 64) <<< bitLenMachineID
/-- flake.go:48 `MaskMachineID`. -/
def maskMachineID : BitVec 64 := BitVec.ofNat 64 (2 ^ bitLenMachineID - 1)

/-- flake.go:56 `DefaultStartTime` 2021-01-01T00:00:00Z, in Unix nanoseconds. -/
def defaultStartTime : Int := 1609459200 * 1000000000

/-- flake.go:79-88 `Flake`, without the mutex (see `Conc`). -/
structure Gen where
  startTime : Int
  elapsed : Int
  sequence : BitVec 16
  maxSequence : BitVec 16
  machineID : BitVec 16
  firstID : BitVec 64
  lastID : BitVec 64
  deriving DecidableEq, Repr

/-- flake.go:167-169 `toFlakeTime`; Go `/` truncates toward zero. -/
def toFlakeTime (t : Int) : Int := t.tdiv timeUnit

/-- flake.go:171-173 `fromFlakeTime`, as an instant. -/
def fromFlakeTime (f : Int) : Int := f * timeUnit

/-- flake.go:175-177 `currentElapsedTime`; `now` is what `NowFunc()` returned. -/
def currentElapsed (start now : Int) : Int := toFlakeTime now - start

/-- flake.go:179-182 `sleepTime`; `now` is the second reading of `NowFunc()`. -/
def sleepTime (overtime now : Int) : Int := overtime * timeUnit - now.tmod timeUnit

/-- flake.go:184-192 `toID`; `none` is the panic "over the time limit". -/
def toID (g : Gen) : Option (BitVec 64) :=
  if g.elapsed ≥ 2 ^ bitLenTime then none
  else some ((BitVec.ofInt 64 g.elapsed) <<< (bitLenSequence + bitLenMachineID)
        ||| (g.sequence.setWidth 64) <<< bitLenMachineID
        ||| g.machineID.setWidth 64)

/-- flake.go:144-161: the update of `elapsedTime`/`sequence` under the lock, given the elapsed
time `current` just read.  The Boolean says that the sequence overflowed (`sequence == 0` in
the else branch), i.e. that the call goes to sleep. -/
def advance (g : Gen) (current : Int) : Gen × Bool :=
  if g.elapsed < current then
    ({ g with elapsed := current, sequence := 0 }, false)
  else
    let seq := (g.sequence + 1) &&& maskSequence16
    let g := { g with sequence := seq,
                      maxSequence := if seq > g.maxSequence then seq else g.maxSequence }
    if seq = 0 then ({ g with elapsed := g.elapsed + 1 }, true) else (g, false)

/-- flake.go:163-164: pack, remember and return the ID; on panic `lastID` is not assigned. -/
def finish (g : Gen) : Gen × Option (BitVec 64) :=
  match toID g with
  | none => (g, none)
  | some id => ({ g with lastID := id }, some id)

/-- flake.go:140-165 `NextID` run by one goroutine: `now` is the clock reading of line 144 and
`now2` the one of line 181 (used only if the call sleeps).  Result: new state, the sleep
requested (0 if none), the ID (`none` = panic). -/
def nextID (g : Gen) (now now2 : Int) : Gen × Int × Option (BitVec 64) :=
  let current := currentElapsed g.startTime now
  let r := advance g current
  let sleep := if r.2 then sleepTime (r.1.elapsed - current) now2 else 0
  let f := finish r.1
  (f.1, sleep, f.2)

/-- flake.go:72-76 `Settings`. `startTime = none` is Go's zero `time.Time`.
`machineID = none` is a nil callback; a callback's result is `.error` for a non-nil error. -/
structure Settings where
  startTime : Option Int := none
  machineID : Option (Except Unit (BitVec 16)) := none
  checkMachineID : Option (BitVec 16 → Bool) := none

/-- Why `NewIDGenerator` panicked. -/
inductive Panic where
  | startAhead | machineFailed | checkFailed | overLimit
  deriving DecidableEq, Repr

/-- flake.go:113-119: the machine id callback, or the default one. -/
def Settings.resolveMachine (st : Settings) (dflt : BitVec 16) : Except Unit (BitVec 16) :=
  match st.machineID with
  | none => .ok dflt
  | some r => r

/-- flake.go:120: `st.CheckMachineID != nil && !st.CheckMachineID(sf.machineID)`. -/
def Settings.rejects (st : Settings) (m : BitVec 16) : Bool :=
  match st.checkMachineID with
  | none => false
  | some f => !f m

/-- flake.go:96-97, 108 and Go's zero values: the generator before its first `NextID`. -/
def blank (start : Int) (m : BitVec 16) : Gen :=
  { startTime := toFlakeTime start, elapsed := 0, sequence := maskSequence16,
    maxSequence := 0, machineID := m, firstID := 0, lastID := 0 }

/-- flake.go:95-136 `NewIDGenerator`. `now0` is the reading of line 99, `now1`/`now2` those of
the `NextID` call of line 124; `dflt` is the result of `defaultMachineID()` (line 114; it never
returns an error).  The second component is the sleep of that first `NextID`. -/
def newGen (st : Settings) (dflt : BitVec 16) (now0 now1 now2 : Int) : Except Panic (Gen × Int) :=
  let start := st.startTime.getD defaultStartTime
  if start > now0 then .error .startAhead else
  match st.resolveMachine dflt with
  | .error _ => .error .machineFailed
  | .ok m =>
    if st.rejects m then .error .checkFailed else
    match nextID (blank start m) now1 now2 with
    | (_, _, none) => .error .overLimit
    | (g, sl, some id) => .ok ({ g with firstID := id }, sl)

/-- flake.go:237-249 `Decompose`, the map as a record. -/
structure Parts where
  id : BitVec 64
  msb : BitVec 64
  time : BitVec 64
  sequence : BitVec 64
  machineID : BitVec 64
  deriving DecidableEq, Repr

/-- flake.go:237-249 `Decompose`. -/
def decompose (id : BitVec 64) : Parts :=
  { id := id
    msb := id >>> 63
    time := id >>> (bitLenSequence + bitLenMachineID)
    sequence := (id &&& maskSequence) >>> bitLenMachineID
    machineID := id &&& maskMachineID }

/-- flake.go:252-258 `IDTime`; `none` is a generator that is not a `*Flake`.
The shift is on uint64, the conversion to int64 is `toInt`. -/
def idTime (g : Option Gen) (id : BitVec 64) : Int :=
  let start := match g with | some g => g.startTime | none => 0
  fromFlakeTime (start + (id >>> (bitLenSequence + bitLenMachineID)).toInt)

/-- flake.go:261-266 `FirstID`. -/
def firstIDOf (g : Option Gen) : BitVec 64 := match g with | some g => g.firstID | none => 0
/-- flake.go:269-274 `LastID`. -/
def lastIDOf (g : Option Gen) : BitVec 64 := match g with | some g => g.lastID | none => 0

/-! ### Default machine id -/

/-- An entry of `net.InterfaceAddrs()`: an `*net.IPNet` with its IP bytes, or something else. -/
inductive Addr where
  | ipnet (ip : List (BitVec 8))
  | other
  deriving DecidableEq

/-- Go `net.IP.To4` (standard library): 4 bytes, or 16 bytes with the v4-in-v6 prefix. -/
def to4 (ip : List (BitVec 8)) : Option (List (BitVec 8)) :=
  if ip.length = 4 then some ip
  else if ip.length = 16 ∧ ip.take 10 = List.replicate 10 0 ∧ (ip.drop 10).take 2 = [255, 255]
    then some (ip.drop 12)
  else none

/-- Go `net.IP.To16` (standard library); `none` is the nil slice. -/
def to16 (ip : List (BitVec 8)) : Option (List (BitVec 8)) :=
  if ip.length = 4 then some (List.replicate 10 0 ++ [255, 255] ++ ip)
  else if ip.length = 16 then some ip
  else none

/-- Go `net.IP.IsLoopback` (standard library). -/
def isLoopback (ip : List (BitVec 8)) : Bool :=
  match to4 ip with
  | some (b :: _) => b == 127
  | some [] => false
  | none => ip == List.replicate 15 0 ++ [1]

/-- flake.go:227: `(uint16(ip[last-2])<<8 + uint16(ip[last-1])) & MaskMachineID`. -/
def lowBits (hi lo : BitVec 8) : BitVec 16 :=
  (((hi.setWidth 16) <<< 8) + lo.setWidth 16) &&& maskMachineID.setWidth 16

/-- flake.go:220-230: the loop over addresses; `none` = index out of range panic (an IP that is
neither 4 nor 16 bytes long, which the net package never produces). -/
def machineIDFromAddrs : List Addr → Option (BitVec 16)
  | [] => some 0
  | .other :: as => machineIDFromAddrs as
  | .ipnet ip :: as =>
    if isLoopback ip then machineIDFromAddrs as
    else match to16 ip with
      | none => none
      | some b => match b.reverse with
        | lo :: hi :: _ => some (lowBits hi lo)
        | _ => none

/-- flake.go:207-240 `defaultMachineID`.  `test = some id`: `IsTestRun()` holds and the FNV hash of
the program name gives `id` (lines 208-212).  `addrs = none`: `InterfaceAddrs` failed. -/
def defaultMachineID (test : Option (BitVec 16)) (addrs : Option (List Addr)) : Option (BitVec 16) :=
  match test with
  | some id => some id
  | none => match addrs with
    | none => some 0
    | some as => machineIDFromAddrs as

/-! ### Goroutines sharing one generator -/

/-- Where a goroutine is inside `NextID` (flake.go:140-165). -/
inductive Pc where
  /-- not in a call -/
  | idle
  /-- blocked at `mutex.Lock()` (line 141) -/
  | waiting
  /-- holds the mutex, before line 144 -/
  | locked
  /-- has read the clock (line 144) -/
  | gotClock (current : Int)
  /-- sleeping (line 159) for the given duration -/
  | sleeping (d : Int)
  /-- at line 163 -/
  | ready
  deriving DecidableEq

/-- Shared generator, the mutex (who holds it), each goroutine's position, and the log of IDs
returned, oldest first, with the goroutine that got each. -/
structure Conc where
  gen : Gen
  holder : Option Nat
  pc : Nat → Pc
  log : List (Nat × BitVec 64)

/-- One atomic step of goroutine `t`. -/
inductive Act where
  | call | acquire | readClock (now : Int) | update (now2 : Int) | wake | ret
  deriving DecidableEq

/-- Replace the position of goroutine `t`. -/
def setPc (f : Nat → Pc) (t : Nat) (p : Pc) : Nat → Pc := fun u => if u = t then p else f u

/-- Small-step semantics; `none` = the step is not enabled.  Each access to the shared generator
(clock read against `startTime`, update, packing) is its own step; only the mutex orders them. -/
def cstep (c : Conc) (t : Nat) (a : Act) : Option Conc :=
  match a, c.pc t with
  | .call, .idle => some { c with pc := setPc c.pc t .waiting }
  | .acquire, .waiting =>
      if c.holder = none then some { c with holder := some t, pc := setPc c.pc t .locked } else none
  | .readClock now, .locked =>
      some { c with pc := setPc c.pc t (.gotClock (currentElapsed c.gen.startTime now)) }
  | .update now2, .gotClock current =>
      let r := advance c.gen current
      some { c with gen := r.1,
                    pc := setPc c.pc t
                      (if r.2 then .sleeping (sleepTime (r.1.elapsed - current) now2) else .ready) }
  | .wake, .sleeping _ => some { c with pc := setPc c.pc t .ready }
  | .ret, .ready =>
      -- `defer mutex.Unlock()` runs on return and on panic alike
      let f := finish c.gen
      some { c with gen := f.1, holder := none, pc := setPc c.pc t .idle,
                    log := c.log ++ (match f.2 with | some id => [(t, id)] | none => []) }
  | _, _ => none

/-- Run a schedule: steps that are not enabled are skipped. -/
def crun (c : Conc) : List (Nat × Act) → Conc
  | [] => c
  | (t, a) :: s => crun ((cstep c t a).getD c) s

/-- The generator as handed out by `NewIDGenerator`, shared by idle goroutines. -/
def cinit (g : Gen) : Conc := { gen := g, holder := none, pc := fun _ => .idle, log := [] }

end Flake
