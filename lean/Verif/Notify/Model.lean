import Verif.Base
set_option linter.unusedVariables false
set_option linter.unusedSimpArgs false
/-!
Model of `pkg/notifier/listener.go` and properties C60 and C67.

Each call to `Listen` starts a goroutine; all of them receive from the one channel `pq.Listener.Notify`.  lib/pq is modelled from its
documentation: it delivers notifications of the channels being listened to, in order, and a nil after a lost connection; listening twice
to a channel fails; closing the listener closes `Notify`.  A step of the system is an arrival, a receive by one goroutine, its call of
the callback, the end of a context, a call to `Listen`, or `Close`.  The one-minute ping of the select is not modelled.
-/
namespace Notify

/-- `pq.Notification`. -/
structure Note where
  channel : Bytes
  extra : Bytes
  deriving DecidableEq, Repr

/-- listener.go:23-28 `Notification`, with the decoded payload of type `J` (`none`: nil map). -/
structure Notification (J : Type) where
  channel : Bytes
  payload : Option J
  raw : Bytes

/-- listener.go:134-151 `parsePayload`; `json` is `json.Unmarshal` into a map (`none`: error or null, the map stays nil). -/
def parsePayload {J : Type} (json : Bytes → Option J) (n : Note) : Notification J :=
  { channel := n.channel, raw := n.extra
    payload := if n.extra ≠ b!"" ∧ n.extra ≠ b!"{}" ∧ n.extra ≠ b!"[]" then json n.extra else none }

/-- A call to `Listen`: topic, whether its goroutine is still in its loop, and the notification it has received but not yet passed to the
callback. -/
structure Sub where
  topic : Bytes
  active : Bool
  held : Option Note
  deriving DecidableEq, Repr

structure St (J : Type) where
  subs : List Sub
  queue : List (Option Note)            -- contents of `Notify`; `none` is a nil notification
  closed : Bool                         -- `Notify` has been closed
  log : List (Nat × Notification J)     -- callback calls: number of the subscription, argument

def init {J : Type} : St J := ⟨[], [], false, []⟩

inductive Act where
  | listen (topic : Bytes)     -- `Listen(ctx, topic, cb)`
  | arrive (n : Note)          -- the server sends a notification
  | lost                       -- the connection was lost and re-established: a nil notification
  | recv (i : Nat)             -- goroutine `i` receives from `Notify`
  | call (i : Nat)             -- goroutine `i` calls its callback with what it received
  | ctxDone (i : Nat)          -- the context of goroutine `i` is done, the goroutine takes that branch
  | close                      -- `listener.Close()`
  deriving DecidableEq, Repr

/-- The channels the connection listens to. -/
def listening {J : Type} (s : St J) (t : Bytes) : Bool := s.subs.any (fun x => x.active && x.topic == t)

/-- listener.go:89-133, as atomic steps; `none`: not enabled. -/
def step {J : Type} (json : Bytes → Option J) (s : St J) : Act → Option (St J)
  | .listen t =>
    -- l.listener.Listen(topic) fails when closed or already listening: no goroutine
    if s.closed || listening s t then some s else some { s with subs := s.subs ++ [⟨t, true, none⟩] }
  | .arrive n => if !s.closed && listening s n.channel then some { s with queue := s.queue ++ [some n] } else none
  | .lost => if !s.closed then some { s with queue := s.queue ++ [none] } else none
  | .recv i =>
    match s.subs[i]? with
    | some ⟨t, true, none⟩ =>
      match s.queue with
      | some n :: q => some { s with queue := q, subs := s.subs.set i ⟨t, true, some n⟩ }
      | none :: q => some { s with queue := q }
      | [] => if s.closed then some s else none    -- a closed channel delivers nil for ever
    | _ => none
  | .call i =>
    match s.subs[i]? with
    | some ⟨t, true, some n⟩ =>
      some { s with subs := s.subs.set i ⟨t, true, none⟩, log := s.log ++ [(i, parsePayload json n)] }
    | _ => none
  | .ctxDone i =>
    match s.subs[i]? with
    | some ⟨t, true, none⟩ => some { s with subs := s.subs.set i ⟨t, false, none⟩ }
    | _ => none
  | .close => some { s with closed := true }

/-- A schedule and the state it leads to. -/
inductive Reach {J : Type} (json : Bytes → Option J) : List Act → St J → Prop where
  | init : Reach json [] init
  | step {as : List Act} {s s' : St J} {a : Act} : Reach json as s → step json s a = some s' → Reach json (as ++ [a]) s'

namespace Spec

/-- The notifications that arrived in a schedule, in order. -/
def arrived (as : List Act) : List Note := as.filterMap (fun a => match a with | .arrive n => some n | _ => none)

/-- The topics for which `Listen` was called. -/
def topics (as : List Act) : List Bytes := as.filterMap (fun a => match a with | .listen t => some t | _ => none)

/-- The notifications still in the channel. -/
def pending {J : Type} (s : St J) : List Note := s.queue.filterMap id

/-- What the callback of subscription `i` was called with, in order, as sent by the server. -/
def delivered {J : Type} (s : St J) (i : Nat) : List Note :=
  (s.log.filter (fun p => p.1 == i)).map (fun p => ⟨p.2.channel, p.2.raw⟩)

/-- The notification subscription `i` has received but not yet passed to its callback. -/
def inHand {J : Type} (s : St J) (i : Nat) : List Note := ((s.subs[i]?).bind (·.held)).toList

/-- The part of an assignment of notifications to subscriptions that belongs to `i`. -/
def share (r : List (Nat × Note)) (i : Nat) : List Note := (r.filter (fun p => p.1 == i)).map (·.2)

end Spec

theorem arrived_snoc (as : List Act) (a : Act) :
    Spec.arrived (as ++ [a]) = Spec.arrived as ++ (match a with | .arrive n => [n] | _ => []) := by
  unfold Spec.arrived
  rw [List.filterMap_append]
  congr 1
  cases a <;> rfl

theorem inHand_set {J : Type} (s : St J) (i : Nat) (x : Sub) (y : Sub) (hy : s.subs[i]? = some y) (q : List (Option Note)) (c : Bool)
    (l : List (Nat × Notification J)) (k : Nat) :
    Spec.inHand (⟨s.subs.set i x, q, c, l⟩ : St J) k = if k = i then x.held.toList else Spec.inHand s k := by
  have hlt := (List.getElem?_eq_some_iff.1 hy).1
  unfold Spec.inHand
  by_cases h : k = i
  · subst h; simp [hlt]
  · simp [List.getElem?_set_ne (Ne.symm h), h]

/-- C60 (partial): in every schedule there is an assignment `r` of the arrived notifications to subscriptions, in order of arrival and leaving
only those still in the channel, such that the callback of each subscription was called with exactly the notifications assigned to it, once
each, in order of arrival, except for a last one it may be about to pass on. Nothing is lost, duplicated or invented.
Missing: the assigned subscription need not be one of the notification's topic, see `C60_wrong_callback`. -/
theorem C60_each_once_in_order_partial {J : Type} (json : Bytes → Option J) (as : List Act) (s : St J) (h : Reach json as s) :
    ∃ r : List (Nat × Note), r.map (·.2) ++ Spec.pending s = Spec.arrived as
      ∧ (∀ p ∈ r, p.1 < s.subs.length)
      ∧ ∀ i : Nat, Spec.delivered s i ++ Spec.inHand s i = Spec.share r i := by
  induction h with
  | init => exact ⟨[], rfl, by simp, by intro i; simp [Spec.delivered, Spec.inHand, Spec.share, init]⟩
  | @step as s s' a hr hs ih =>
    obtain ⟨r, h1, hb, h2⟩ := ih
    cases a with
    | listen t =>
      rw [arrived_snoc, ← h1]
      simp only [step] at hs
      split at hs <;> cases hs
      · exact ⟨r, by simp, hb, h2⟩
      · refine ⟨r, by simp [Spec.pending], fun p hp => by have := hb p hp; simp; omega, fun i => ?_⟩
        rw [← h2 i]
        congr 1
        unfold Spec.inHand
        by_cases hi : i < s.subs.length
        · rw [List.getElem?_append_left hi]
        · rw [List.getElem?_append_right (by omega)]
          rw [List.getElem?_eq_none (by omega : s.subs.length ≤ i)]
          cases i - s.subs.length with
          | zero => rfl
          | succ k => simp
    | arrive n =>
      rw [arrived_snoc, ← h1]
      simp only [step] at hs
      split at hs <;> cases hs
      exact ⟨r, by simp [Spec.pending], hb, h2⟩
    | lost =>
      rw [arrived_snoc, ← h1]
      simp only [step] at hs
      split at hs <;> cases hs
      exact ⟨r, by simp [Spec.pending], hb, h2⟩
    | recv i =>
      rw [arrived_snoc, ← h1]
      simp only [step] at hs
      split at hs
      · rename_i t hi
        split at hs
        · rename_i n q hq
          cases hs
          have hlt := (List.getElem?_eq_some_iff.1 hi).1
          refine ⟨r ++ [(i, n)], by simp [Spec.pending, hq], ?_, fun k => ?_⟩
          · intro p hp
            rw [List.mem_append, List.mem_singleton] at hp
            rcases hp with hp | rfl
            · simpa using hb p hp
            · simpa using hlt
          · rw [inHand_set s i _ _ hi]
            have hk := h2 k
            simp only [Spec.delivered, Spec.share, List.filter_append, List.map_append] at hk ⊢
            by_cases e : k = i
            · subst e
              simp only [Spec.inHand, hi] at hk
              simp at hk
              simp [hk]
            · simp [e, Ne.symm e, hk]
        · rename_i q hq
          cases hs
          exact ⟨r, by simp [Spec.pending, hq], hb, h2⟩
        · split at hs <;> cases hs
          exact ⟨r, by simp, hb, h2⟩
      · cases hs
    | call i =>
      rw [arrived_snoc, ← h1]
      simp only [step] at hs
      split at hs
      · rename_i t n hi
        cases hs
        refine ⟨r, by simp [Spec.pending], by simpa using hb, fun k => ?_⟩
        rw [inHand_set s i _ _ hi, ← h2 k]
        simp only [Spec.delivered, List.filter_append, List.map_append]
        by_cases e : k = i
        · subst e
          simp [Spec.inHand, hi, parsePayload]
        · simp [e, Ne.symm e]
      · cases hs
    | ctxDone i =>
      rw [arrived_snoc, ← h1]
      simp only [step] at hs
      split at hs
      · rename_i t hi
        cases hs
        refine ⟨r, by simp [Spec.pending], by simpa using hb, fun k => ?_⟩
        rw [inHand_set s i _ _ hi, ← h2 k]
        by_cases e : k = i
        · subst e
          simp [Spec.inHand, hi, Spec.delivered]
        · simp [e, Spec.delivered]
      · cases hs
    | close =>
      rw [arrived_snoc, ← h1]
      simp only [step] at hs
      cases hs
      exact ⟨r, by simp [Spec.pending], hb, h2⟩

/-- Facts about the subscriptions: they come from `Listen` calls, and what is in the channel, in hand or delivered was listened to. -/
structure Inv {J : Type} (as : List Act) (s : St J) : Prop where
  sub : ∀ x ∈ s.subs, x.topic ∈ Spec.topics as ∧ ∀ n, x.held = some n → n.channel ∈ Spec.topics as
  que : ∀ n, some n ∈ s.queue → n.channel ∈ Spec.topics as
  lg : ∀ p ∈ s.log, p.2.channel ∈ Spec.topics as ∧ ∃ x, s.subs[p.1]? = some x

theorem Inv.set {J : Type} {as : List Act} {s : St J} (h : Inv as s) (i : Nat) (x : Sub)
    (hx : x.topic ∈ Spec.topics as ∧ ∀ n, x.held = some n → n.channel ∈ Spec.topics as) : Inv as { s with subs := s.subs.set i x } := by
  refine ⟨?_, h.que, ?_⟩
  · intro y hy
    rcases List.mem_or_eq_of_mem_set hy with hy | rfl
    · exact h.sub y hy
    · exact hx
  · intro p hp
    obtain ⟨h1, y, hy⟩ := h.lg p hp
    have := (List.getElem?_eq_some_iff.1 hy).1
    exact ⟨h1, (s.subs.set i x)[p.1]'(by simpa using this), by simp [this]⟩

theorem topics_inv {J : Type} (json : Bytes → Option J) (as : List Act) (s : St J) (h : Reach json as s) : Inv as s := by
  induction h with
  | init => exact ⟨by simp [init], by simp [init], by simp [init]⟩
  | @step as s s' a hr hs ih =>
    have mono : ∀ t, t ∈ Spec.topics as → t ∈ Spec.topics (as ++ [a]) := by
      intro t ht; unfold Spec.topics at ht ⊢; rw [List.filterMap_append]; exact List.mem_append_left _ ht
    have j : Inv (as ++ [a]) s :=
      ⟨fun x hx => ⟨mono _ (ih.sub x hx).1, fun n hn => mono _ ((ih.sub x hx).2 n hn)⟩, fun n hn => mono _ (ih.que n hn),
        fun p hp => ⟨mono _ (ih.lg p hp).1, (ih.lg p hp).2⟩⟩
    cases a with
    | listen t =>
      simp only [step] at hs
      split at hs <;> cases hs
      · exact j
      · refine ⟨?_, j.que, ?_⟩
        · intro x hx
          rw [List.mem_append, List.mem_singleton] at hx
          rcases hx with hx | rfl
          · exact j.sub x hx
          · exact ⟨by simp [Spec.topics], by intro n hn; cases hn⟩
        · intro p hp
          obtain ⟨h1, x, hx⟩ := j.lg p hp
          exact ⟨h1, x, by rw [List.getElem?_append_left (List.getElem?_eq_some_iff.1 hx).1]; exact hx⟩
    | arrive n =>
      simp only [step] at hs
      split at hs <;> cases hs
      rename_i hc
      refine ⟨j.sub, ?_, j.lg⟩
      intro m hm
      rw [List.mem_append, List.mem_singleton] at hm
      rcases hm with hm | hm
      · exact j.que m hm
      · cases hm
        simp only [Bool.and_eq_true, listening, List.any_eq_true, beq_iff_eq] at hc
        obtain ⟨-, x, hx, -, ht⟩ := hc
        rw [← ht]; exact (j.sub x hx).1
    | lost =>
      simp only [step] at hs
      split at hs <;> cases hs
      refine ⟨j.sub, ?_, j.lg⟩
      intro m hm
      rw [List.mem_append, List.mem_singleton] at hm
      rcases hm with hm | hm
      · exact j.que m hm
      · cases hm
    | recv i =>
      simp only [step] at hs
      split at hs
      · rename_i t hi
        split at hs
        · rename_i n q hq
          cases hs
          have k : Inv (as ++ [Act.recv i]) { s with queue := q } := ⟨j.sub, fun m hm => j.que m (by rw [hq]; exact List.mem_cons_of_mem _ hm), j.lg⟩
          exact k.set i ⟨t, true, some n⟩ ⟨(j.sub _ (List.mem_of_getElem? hi)).1,
            by intro m hm; cases hm; exact j.que n (by rw [hq]; exact List.mem_cons_self ..)⟩
        · rename_i q hq
          cases hs
          exact ⟨j.sub, fun m hm => j.que m (by rw [hq]; exact List.mem_cons_of_mem _ hm), j.lg⟩
        · split at hs <;> cases hs
          exact j
      · cases hs
    | call i =>
      simp only [step] at hs
      split at hs
      · rename_i t n hi
        cases hs
        have hm := j.sub _ (List.mem_of_getElem? hi)
        have k := j.set i ⟨t, true, none⟩ ⟨hm.1, by intro m hm; cases hm⟩
        refine ⟨k.sub, k.que, ?_⟩
        intro p hp
        rw [List.mem_append, List.mem_singleton] at hp
        rcases hp with hp | rfl
        · exact k.lg p hp
        · exact ⟨hm.2 n rfl, ⟨t, true, none⟩, by simp [(List.getElem?_eq_some_iff.1 hi).1]⟩
      · cases hs
    | ctxDone i =>
      simp only [step] at hs
      split at hs
      · rename_i t hi
        cases hs
        have hm := j.sub _ (List.mem_of_getElem? hi)
        exact j.set i ⟨t, false, none⟩ ⟨hm.1, by intro m hm; cases hm⟩
      · cases hs
    | close =>
      simp only [step] at hs
      cases hs
      exact ⟨j.sub, j.que, j.lg⟩

/-- C60 (one topic, partial): when `Listen` is only ever called for one topic, every callback call has that topic's notification, for
every schedule. Missing: two topics on one listener, see `C60_wrong_callback`. -/
theorem C60_single_topic_partial {J : Type} (json : Bytes → Option J) (as : List Act) (s : St J) (h : Reach json as s) (t : Bytes)
    (ht : ∀ t' ∈ Spec.topics as, t' = t) (i : Nat) (n : Notification J) (hn : (i, n) ∈ s.log) :
    n.channel = t ∧ ∃ x, s.subs[i]? = some x ∧ x.topic = t := by
  have j := topics_inv json as s h
  obtain ⟨h1, x, hx⟩ := j.lg _ hn
  exact ⟨ht _ h1, x, hx, ht _ (j.sub x (List.mem_of_getElem? hx)).1⟩

/-- C60 (one listener per topic): however `Listen` is called, at most one goroutine listens to a topic at any time: a second call for
the same topic fails and starts nothing, so its callback never runs. -/
theorem C60_one_listener_per_topic {J : Type} (json : Bytes → Option J) (as : List Act) (s : St J) (h : Reach json as s) (i j : Nat) (x y : Sub)
    (hi : s.subs[i]? = some x) (hj : s.subs[j]? = some y) (hx : x.active = true) (hy : y.active = true) (ht : x.topic = y.topic) : i = j := by
  have key : ∀ (s : St J) (k : Nat) (z w : Sub), s.subs[k]? = some z → w.topic = z.topic → (w.active = true → z.active = true) →
      (∀ (i j : Nat) (x y : Sub), s.subs[i]? = some x → s.subs[j]? = some y → x.active = true → y.active = true → x.topic = y.topic → i = j) →
      ∀ (i j : Nat) (x y : Sub), (s.subs.set k w)[i]? = some x → (s.subs.set k w)[j]? = some y → x.active = true → y.active = true → x.topic = y.topic → i = j := by
    intro s k z w hz ht ha ih i j x y hi hj hx hy hxy
    have hlt := (List.getElem?_eq_some_iff.1 hz).1
    have lift : ∀ (m : Nat) (v : Sub), (s.subs.set k w)[m]? = some v → v.active = true → ∃ v' : Sub, s.subs[m]? = some v' ∧ v'.active = true ∧ v'.topic = v.topic := by
      intro m v hv hva
      by_cases e : k = m
      · subst e
        rw [List.getElem?_set_self hlt] at hv
        cases hv
        exact ⟨z, hz, ha hva, ht.symm⟩
      · rw [List.getElem?_set_ne e] at hv
        exact ⟨v, hv, hva, rfl⟩
    obtain ⟨x', a1, a2, a3⟩ := lift i x hi hx
    obtain ⟨y', b1, b2, b3⟩ := lift j y hj hy
    exact ih i j x' y' a1 b1 a2 b2 (by rw [a3, b3, hxy])
  induction h generalizing i j x y with
  | init => simp [init] at hi
  | @step as s s' a hr hs ih =>
    have ih' : ∀ (i j : Nat) (x y : Sub), s.subs[i]? = some x → s.subs[j]? = some y → x.active = true → y.active = true → x.topic = y.topic → i = j :=
      fun i j x y a b c d e => ih i j x y a b c d e
    cases a with
    | listen t =>
      simp only [step] at hs
      split at hs
      · cases hs; exact ih' i j x y hi hj hx hy ht
      · rename_i hcond
        cases hs
        simp only [Bool.or_eq_true, not_or, Bool.not_eq_true] at hcond
        have hno : ∀ z ∈ s.subs, z.active = true → z.topic ≠ t := by
          intro z hz hza hzt
          have : listening s t = true := by
            unfold listening
            rw [List.any_eq_true]
            exact ⟨z, hz, by simp [hza, hzt]⟩
          rw [this] at hcond; exact absurd hcond.2 (by simp)
        simp only at hi hj
        rw [List.getElem?_append] at hi hj
        split at hi <;> split at hj
        · exact ih' i j x y hi hj hx hy ht
        · rename_i h1 h2
          exfalso
          have hyt : y.topic = t := by
            rw [List.getElem?_singleton] at hj; split at hj <;> cases hj; rfl
          exact hno x (List.mem_of_getElem? hi) hx (by rw [ht, hyt])
        · rename_i h1 h2
          exfalso
          have hxt : x.topic = t := by
            rw [List.getElem?_singleton] at hi; split at hi <;> cases hi; rfl
          exact hno y (List.mem_of_getElem? hj) hy (by rw [← ht, hxt])
        · rename_i h1 h2
          rw [List.getElem?_singleton] at hi hj
          split at hi <;> split at hj
          · omega
          · cases hj
          · cases hi
          · cases hi
    | arrive n =>
      simp only [step] at hs
      split at hs <;> cases hs
      exact ih' i j x y hi hj hx hy ht
    | lost =>
      simp only [step] at hs
      split at hs <;> cases hs
      exact ih' i j x y hi hj hx hy ht
    | recv k =>
      simp only [step] at hs
      split at hs
      · rename_i t hk
        split at hs
        · cases hs
          rename_i n q hq
          exact key s k _ ⟨t, true, some n⟩ hk rfl (fun _ => rfl) ih' i j x y hi hj hx hy ht
        · cases hs; exact ih' i j x y hi hj hx hy ht
        · split at hs <;> cases hs
          exact ih' i j x y hi hj hx hy ht
      · cases hs
    | call k =>
      simp only [step] at hs
      split at hs
      · rename_i t n hk
        cases hs
        exact key s k _ ⟨t, true, none⟩ hk rfl (fun _ => rfl) ih' i j x y hi hj hx hy ht
      · cases hs
    | ctxDone k =>
      simp only [step] at hs
      split at hs
      · rename_i t hk
        cases hs
        exact key s k _ ⟨t, false, none⟩ hk rfl (fun _ => rfl) ih' i j x y hi hj hx hy ht
      · cases hs
    | close =>
      simp only [step] at hs
      cases hs
      exact ih' i j x y hi hj hx hy ht

/-- C60 (payload): the callback gets the decoded payload, and nil for an empty payload, `{}` and `[]`. -/
theorem C60_payload {J : Type} (json : Bytes → Option J) (n : Note) :
    (parsePayload json n).channel = n.channel ∧ (parsePayload json n).raw = n.extra
    ∧ ((n.extra = b!"" ∨ n.extra = b!"{}" ∨ n.extra = b!"[]") → (parsePayload json n).payload = none)
    ∧ (¬ (n.extra = b!"" ∨ n.extra = b!"{}" ∨ n.extra = b!"[]") → (parsePayload json n).payload = json n.extra) := by
  refine ⟨rfl, rfl, ?_, ?_⟩
  · rintro (h | h | h) <;> simp [parsePayload, h]
  · intro h
    simp only [not_or] at h
    simp [parsePayload, h.1, h.2.1, h.2.2]

/-- C60 fails: whenever a notification of topic `a` is next and a goroutine listening to another topic `b` is waiting, that goroutine can
take it: the callback of `b` is called with the notification of `a`, and the callback of `a` never gets it. -/
theorem C60_wrong_callback {J : Type} (json : Bytes → Option J) (as : List Act) (s : St J) (h : Reach json as s) (j : Nat) (b : Bytes)
    (n : Note) (q : List (Option Note)) (hj : s.subs[j]? = some ⟨b, true, none⟩) (hq : s.queue = some n :: q) :
    ∃ s', Reach json (as ++ [.recv j] ++ [.call j]) s' ∧ s'.log = s.log ++ [(j, parsePayload json n)] ∧ s'.queue = q := by
  have hlt := (List.getElem?_eq_some_iff.1 hj).1
  refine ⟨⟨(s.subs.set j ⟨b, true, some n⟩).set j ⟨b, true, none⟩, q, s.closed, s.log ++ [(j, parsePayload json n)]⟩,
    .step (.step (s' := ⟨s.subs.set j ⟨b, true, some n⟩, q, s.closed, s.log⟩) h ?_) ?_, rfl, rfl⟩
  · simp only [step, hj, hq]
  · simp only [step, List.getElem?_set_self hlt]

/-- Two topics, and a notification of the first delivered to the callback of the second. -/
example : ∃ s : St Unit, Reach (fun _ => none) [.listen b!"a", .listen b!"b", .arrive ⟨b!"a", b!"x"⟩] s
    ∧ s.subs[1]? = some ⟨b!"b", true, none⟩ ∧ s.queue = [some ⟨b!"a", b!"x"⟩] :=
  ⟨_, .step (.step (.step .init rfl) rfl) rfl, rfl, rfl⟩

/-- A subscription in its loop stays there as long as its context is not done. -/
theorem active_step {J : Type} (json : Bytes → Option J) (s s1 : St J) (a : Act) (i : Nat) (hst : step json s a = some s1)
    (hi : ∃ x, s.subs[i]? = some x ∧ x.active = true) (hno : a ≠ .ctxDone i) : ∃ x, s1.subs[i]? = some x ∧ x.active = true := by
  obtain ⟨x, hx, ha⟩ := hi
  have hset : ∀ (k : Nat) (y : Sub), (k = i → y.active = true) → ∃ z, (s.subs.set k y)[i]? = some z ∧ z.active = true := by
    intro k y hy
    by_cases e : k = i
    · subst e; exact ⟨y, by simp [(List.getElem?_eq_some_iff.1 hx).1], hy rfl⟩
    · exact ⟨x, by rw [List.getElem?_set_ne e]; exact hx, ha⟩
  cases a with
  | listen u =>
    simp only [step] at hst
    split at hst <;> cases hst
    · exact ⟨x, hx, ha⟩
    · exact ⟨x, by rw [List.getElem?_append_left (List.getElem?_eq_some_iff.1 hx).1]; exact hx, ha⟩
  | arrive n => simp only [step] at hst; split at hst <;> cases hst; exact ⟨x, hx, ha⟩
  | lost => simp only [step] at hst; split at hst <;> cases hst; exact ⟨x, hx, ha⟩
  | recv k =>
    simp only [step] at hst
    split at hst
    · split at hst
      · cases hst; exact hset _ _ (fun _ => rfl)
      · cases hst; exact ⟨x, hx, ha⟩
      · split at hst <;> cases hst; exact ⟨x, hx, ha⟩
    · cases hst
  | call k =>
    simp only [step] at hst
    split at hst
    · cases hst; exact hset _ _ (fun _ => rfl)
    · cases hst
  | ctxDone k =>
    simp only [step] at hst
    split at hst
    · cases hst
      exact hset _ _ (fun e => absurd (by rw [e]) hno)
    · cases hst
  | close => simp only [step] at hst; cases hst; exact ⟨x, hx, ha⟩

/-- C67 fails: a goroutine whose context is not done is not ended by `Close`; once the channel is empty it receives nil for ever
(a busy loop), and still runs after any further schedule in which its context is not done. -/
theorem C67_close_does_not_stop {J : Type} (json : Bytes → Option J) (as : List Act) (s : St J) (h : Reach json as s) (i : Nat) (t : Bytes)
    (hi : s.subs[i]? = some ⟨t, true, none⟩) (hc : s.closed = true) :
    (s.queue = [] → step json s (.recv i) = some s)
    ∧ ∀ (more : List Act) (s' : St J), more.foldlM (step json) s = some s' → Act.ctxDone i ∉ more →
        ∃ x, s'.subs[i]? = some x ∧ x.active = true := by
  refine ⟨fun hq => by simp [step, hi, hq, hc], ?_⟩
  have hi' : ∃ x, s.subs[i]? = some x ∧ x.active = true := ⟨_, hi, rfl⟩
  clear h hc hi
  intro more
  induction more generalizing s with
  | nil => intro s' h _; simp at h; subst h; exact hi'
  | cons a more ih =>
    intro s' h hno
    simp only [List.foldlM_cons] at h
    cases hst : step json s a with
    | none => rw [hst] at h; simp at h
    | some s1 =>
      rw [hst] at h
      exact ih s1 (active_step json s s1 a i hst hi' (fun e => hno (by rw [e]; exact List.mem_cons_self ..))) s' h
        (fun hx => hno (List.mem_cons_of_mem _ hx))

/-- A subscription that has left its loop stays out and calls nothing. -/
theorem inactive_step {J : Type} (json : Bytes → Option J) (s s1 : St J) (a : Act) (i : Nat) (hst : step json s a = some s1)
    (hi : ∃ x, s.subs[i]? = some x ∧ x.active = false) :
    (∃ x, s1.subs[i]? = some x ∧ x.active = false) ∧ Spec.delivered s1 i = Spec.delivered s i := by
  obtain ⟨x, hx, ha⟩ := hi
  have hset : ∀ (k : Nat) (y : Sub), k ≠ i → ∃ z, (s.subs.set k y)[i]? = some z ∧ z.active = false := by
    intro k y e
    exact ⟨x, by rw [List.getElem?_set_ne e]; exact hx, ha⟩
  have hne : ∀ (k : Nat) (t : Bytes) (o : Option Note), s.subs[k]? = some ⟨t, true, o⟩ → k ≠ i := by
    rintro k t o hk rfl
    rw [hx] at hk; cases hk; cases ha
  cases a with
  | listen u =>
    simp only [step] at hst
    split at hst <;> cases hst
    · exact ⟨⟨x, hx, ha⟩, rfl⟩
    · exact ⟨⟨x, by rw [List.getElem?_append_left (List.getElem?_eq_some_iff.1 hx).1]; exact hx, ha⟩, rfl⟩
  | arrive n => simp only [step] at hst; split at hst <;> cases hst; exact ⟨⟨x, hx, ha⟩, rfl⟩
  | lost => simp only [step] at hst; split at hst <;> cases hst; exact ⟨⟨x, hx, ha⟩, rfl⟩
  | recv k =>
    simp only [step] at hst
    split at hst
    · rename_i t hk
      split at hst
      · cases hst; exact ⟨hset _ _ (hne k _ _ hk), rfl⟩
      · cases hst; exact ⟨⟨x, hx, ha⟩, rfl⟩
      · split at hst <;> cases hst; exact ⟨⟨x, hx, ha⟩, rfl⟩
    · cases hst
  | call k =>
    simp only [step] at hst
    split at hst
    · rename_i t n hk
      cases hst
      exact ⟨hset _ _ (hne k _ _ hk), by simp [Spec.delivered, List.filter_append, hne k _ _ hk]⟩
    · cases hst
  | ctxDone k =>
    simp only [step] at hst
    split at hst
    · rename_i t hk
      cases hst
      exact ⟨hset _ _ (hne k _ _ hk), rfl⟩
    · cases hst
  | close => simp only [step] at hst; cases hst; exact ⟨⟨x, hx, ha⟩, rfl⟩

/-- C67 (partial): once the goroutine of a `Listen` call has seen its context done its callback is never called again.
Missing: `Close` alone does not stop it, see `C67_close_does_not_stop`. -/
theorem C67_context_stops_partial {J : Type} (json : Bytes → Option J) (s s1 : St J) (i : Nat)
    (h1 : step json s (.ctxDone i) = some s1) :
    ∀ (more : List Act) (s' : St J), more.foldlM (step json) s1 = some s' → Spec.delivered s' i = Spec.delivered s1 i := by
  have hi : ∃ x, s1.subs[i]? = some x ∧ x.active = false := by
    simp only [step] at h1
    split at h1
    · rename_i t hi
      cases h1
      exact ⟨⟨t, false, none⟩, by simp [(List.getElem?_eq_some_iff.1 hi).1], rfl⟩
    · cases h1
  clear h1
  intro more
  induction more generalizing s1 with
  | nil => intro s' h; simp at h; subst h; rfl
  | cons a more ih =>
    intro s' h
    simp only [List.foldlM_cons] at h
    cases hst : step json s1 a with
    | none => rw [hst] at h; simp at h
    | some s2 =>
      rw [hst] at h
      obtain ⟨k1, k2⟩ := inactive_step json s1 s2 a i hst hi
      rw [ih s2 k1 s' h, k2]

example : ∃ s : St Unit, Reach (fun _ => none) [.listen b!"a", .close] s ∧ s.subs[0]? = some ⟨b!"a", true, none⟩ ∧ s.closed = true ∧ s.queue = [] :=
  ⟨_, .step (.step .init rfl) rfl, rfl, rfl, rfl⟩
example : ∃ s1 : St Unit, step (fun _ => none) ⟨[⟨b!"a", true, none⟩], [some ⟨b!"a", b!"1"⟩], false, []⟩ (.ctxDone 0) = some s1 := ⟨_, rfl⟩

end Notify
