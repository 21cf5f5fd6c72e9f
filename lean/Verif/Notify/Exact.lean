import Verif.Notify.Model
set_option linter.unusedVariables false
set_option linter.unusedSimpArgs false
/-!
C60 and C67 exactly: when a callback can get another topic's notification, when a goroutine ends, and what happens between the end of a context and the goroutine noticing it.
-/
namespace Notify
variable {J : Type}

/-- A goroutine that is alone at the channel takes everything in it. -/
theorem drain (json : Bytes → Option J) (i : Nat) (t : Bytes) : ∀ (q rest : List (Option Note)) (s : St J),
    s.subs[i]? = some ⟨t, true, none⟩ → s.queue = q ++ rest →
    ∃ (more : List Act) (s' : St J), more.foldlM (step json) s = some s' ∧ (∀ a ∈ more, a = .recv i ∨ a = .call i)
      ∧ s' = ⟨s.subs, rest, s.closed, s.log ++ (q.filterMap id).map (fun n => (i, parsePayload json n))⟩
  | [], rest, s, hi, hq => ⟨[], s, rfl, by simp, by cases s; simp at hq; subst hq; simp⟩
  | none :: q, rest, s, hi, hq => by
    obtain ⟨more, s', h1, h2, h3⟩ := drain json i t q rest ⟨s.subs, q ++ rest, s.closed, s.log⟩ hi rfl
    refine ⟨.recv i :: more, s', ?_, ?_, ?_⟩
    · rw [List.foldlM_cons]
      have : step json s (.recv i) = some ⟨s.subs, q ++ rest, s.closed, s.log⟩ := by simp only [step, hi, hq, List.cons_append]
      rw [this]; exact h1
    · intro a ha
      rcases List.mem_cons.1 ha with rfl | ha
      · exact Or.inl rfl
      · exact h2 a ha
    · rw [h3]; simp
  | some n :: q, rest, s, hi, hq => by
    have hlt := (List.getElem?_eq_some_iff.1 hi).1
    have hback : (s.subs.set i ⟨t, true, some n⟩).set i ⟨t, true, none⟩ = s.subs := by
      rw [List.set_set]
      apply List.ext_getElem?
      intro k
      by_cases hk : i = k
      · subst hk; rw [List.getElem?_set_self hlt, hi]
      · rw [List.getElem?_set_ne hk]
    obtain ⟨more, s', h1, h2, h3⟩ := drain json i t q rest ⟨s.subs, q ++ rest, s.closed, s.log ++ [(i, parsePayload json n)]⟩ hi rfl
    refine ⟨.recv i :: .call i :: more, s', ?_, ?_, ?_⟩
    · rw [List.foldlM_cons]
      have e1 : step json s (.recv i) = some ⟨s.subs.set i ⟨t, true, some n⟩, q ++ rest, s.closed, s.log⟩ := by simp only [step, hi, hq, List.cons_append]
      rw [e1]
      show (Act.call i :: more).foldlM (step json) _ = some s'
      rw [List.foldlM_cons]
      have e2 : step json (⟨s.subs.set i ⟨t, true, some n⟩, q ++ rest, s.closed, s.log⟩ : St J) (.call i)
          = some ⟨s.subs, q ++ rest, s.closed, s.log ++ [(i, parsePayload json n)]⟩ := by
        simp only [step, List.getElem?_set_self hlt, hback]
      rw [e2]; exact h1
    · intro a ha
      rcases List.mem_cons.1 ha with rfl | ha
      · exact Or.inl rfl
      rcases List.mem_cons.1 ha with rfl | ha
      · exact Or.inr rfl
      · exact h2 a ha
    · rw [h3]; simp

/-- Nothing of another topic than `t` is on its way to goroutine `i`, or can come. -/
structure Pure (s : St J) (i : Nat) (t : Bytes) (log : List (Nat × Notification J)) : Prop where
  held : ∀ x n, s.subs[i]? = some x → x.held = some n → n.channel = t
  queue : ∀ n, some n ∈ s.queue → n.channel = t
  source : s.closed = true ∨ ∀ x ∈ s.subs, x.active = true → x.topic = t
  logged : ∀ n, (i, n) ∈ s.log → (i, n) ∈ log ∨ n.channel = t

theorem pure_step (json : Bytes → Option J) {s s1 : St J} {i : Nat} {t : Bytes} {log : List (Nat × Notification J)} (h : Pure s i t log) (a : Act) (ha : ∀ u, a ≠ .listen u)
    (hs : step json s a = some s1) : Pure s1 i t log := by
  have hsrc : ∀ (k : Nat) (y z : Sub), s.subs[k]? = some y → (z.active = true → y.active = true ∧ z.topic = y.topic) →
      (s.closed = true ∨ ∀ x ∈ s.subs.set k z, x.active = true → x.topic = t) := by
    intro k y z hk hz
    rcases h.source with hc | hc
    · exact Or.inl hc
    · refine Or.inr ?_
      intro x hx hxa
      rcases List.mem_or_eq_of_mem_set hx with hx | rfl
      · exact hc x hx hxa
      · obtain ⟨h1, h2⟩ := hz hxa
        rw [h2]; exact hc y (List.mem_of_getElem? hk) h1
  have hheld : ∀ (k : Nat) (y z : Sub), s.subs[k]? = some y → (∀ n, z.held = some n → n.channel = t) →
      ∀ x n, (s.subs.set k z)[i]? = some x → x.held = some n → n.channel = t := by
    intro k y z hk hz x n hx hn
    by_cases e : k = i
    · subst e
      rw [List.getElem?_set_self (List.getElem?_eq_some_iff.1 hk).1] at hx
      cases hx; exact hz n hn
    · rw [List.getElem?_set_ne e] at hx; exact h.held x n hx hn
  cases a with
  | listen u => exact absurd rfl (ha u)
  | arrive n =>
    simp only [step] at hs
    split at hs <;> cases hs
    rename_i hc
    simp only [Bool.and_eq_true, Bool.not_eq_true', listening, List.any_eq_true, beq_iff_eq] at hc
    obtain ⟨hcl, x, hx, hxa, hxt⟩ := hc
    refine ⟨h.held, ?_, h.source, h.logged⟩
    intro m hm
    rcases List.mem_append.1 hm with hm | hm
    · exact h.queue m hm
    · simp only [List.mem_singleton, Option.some.injEq] at hm
      subst hm
      rcases h.source with hh | hh
      · rw [hh] at hcl; cases hcl
      · rw [← hxt]; exact hh x hx hxa
  | lost =>
    simp only [step] at hs
    split at hs <;> cases hs
    refine ⟨h.held, ?_, h.source, h.logged⟩
    intro m hm
    rcases List.mem_append.1 hm with hm | hm
    · exact h.queue m hm
    · simp at hm
  | recv k =>
    simp only [step] at hs
    split at hs
    · rename_i u hk
      split at hs
      · rename_i n q hq
        cases hs
        refine ⟨hheld k _ _ hk ?_, ?_, hsrc k _ _ hk (fun _ => ⟨rfl, rfl⟩), h.logged⟩
        · intro m hm; cases hm; exact h.queue n (by rw [hq]; simp)
        · intro m hm; exact h.queue m (by rw [hq]; exact List.mem_cons_of_mem _ hm)
      · rename_i q hq
        cases hs
        exact ⟨h.held, fun m hm => h.queue m (by rw [hq]; exact List.mem_cons_of_mem _ hm), h.source, h.logged⟩
      · split at hs <;> cases hs
        exact h
    · cases hs
  | call k =>
    simp only [step] at hs
    split at hs
    · rename_i u n hk
      cases hs
      refine ⟨hheld k _ _ hk (by simp), h.queue, hsrc k _ _ hk (fun _ => ⟨rfl, rfl⟩), ?_⟩
      intro m hm
      rcases List.mem_append.1 hm with hm | hm
      · exact h.logged m hm
      · simp only [List.mem_singleton, Prod.mk.injEq] at hm
        obtain ⟨rfl, rfl⟩ := hm
        exact Or.inr (h.held _ n hk rfl)
    · cases hs
  | ctxDone k =>
    simp only [step] at hs
    split at hs
    · rename_i u hk
      cases hs
      exact ⟨hheld k _ _ hk (by simp), h.queue, hsrc k _ _ hk (by simp), h.logged⟩
    · cases hs
  | close =>
    simp only [step] at hs
    cases hs
    exact ⟨h.held, h.queue, Or.inl rfl, h.logged⟩

theorem pure_run (json : Bytes → Option J) {i : Nat} {t : Bytes} {log : List (Nat × Notification J)} : ∀ (more : List Act) (s s1 : St J), Pure s i t log →
    (∀ a ∈ more, ∀ u, a ≠ .listen u) → more.foldlM (step json) s = some s1 → Pure s1 i t log
  | [], s, s1, h, _, hr => by simp at hr; subst hr; exact h
  | a :: more, s, s1, h, hl, hr => by
    rw [List.foldlM_cons] at hr
    cases hst : step json s a with
    | none => rw [hst] at hr; cases hr
    | some s' =>
      rw [hst] at hr
      exact pure_run json more s' s1 (pure_step json h a (hl a (by simp)) hst) (fun b hb => hl b (List.mem_cons_of_mem _ hb)) hr

/-- **C60 exactly**: while a goroutine waits at the channel and `Listen` is not called again, its callback can get a notification of another topic if and only if such a notification is already in
the channel, or the listener is open and another topic is being listened to. -/
theorem C60_misdelivery_possible_iff (json : Bytes → Option J) (as : List Act) (s : St J) (h : Reach json as s) (i : Nat) (t : Bytes)
    (hi : s.subs[i]? = some ⟨t, true, none⟩) :
    (∃ (more : List Act) (s' : St J) (n : Notification J), (∀ a ∈ more, ∀ u, a ≠ .listen u) ∧ more.foldlM (step json) s = some s'
        ∧ (i, n) ∈ s'.log.drop s.log.length ∧ n.channel ≠ t)
    ↔ (∃ n, some n ∈ s.queue ∧ n.channel ≠ t) ∨ (s.closed = false ∧ ∃ x ∈ s.subs, x.active = true ∧ x.topic ≠ t) := by
  constructor
  · rintro ⟨more, s', n, hl, hr, hn, hne⟩
    refine Classical.byContradiction fun hno => ?_
    simp only [not_or, not_exists, not_and] at hno
    obtain ⟨hq, hs⟩ := hno
    -- the part of the log written by the continuation: run it from the state with an empty log
    have hlog : ∀ (more : List Act) (s s' : St J) (L : List (Nat × Notification J)), more.foldlM (step json) s = some s' →
        ∃ ext, s'.log = s.log ++ ext ∧ more.foldlM (step json) ⟨s.subs, s.queue, s.closed, L⟩ = some ⟨s'.subs, s'.queue, s'.closed, L ++ ext⟩ := by
      intro more
      induction more with
      | nil => intro s s' L h; simp at h; subst h; exact ⟨[], by simp, by simp⟩
      | cons a more ih =>
        intro s s' L h
        rw [List.foldlM_cons] at h
        cases hst : step json s a with
        | none => rw [hst] at h; cases h
        | some s1 =>
          rw [hst] at h
          have h1 : ∃ e1, s1.log = s.log ++ e1 ∧ step json ⟨s.subs, s.queue, s.closed, L⟩ a = some ⟨s1.subs, s1.queue, s1.closed, L ++ e1⟩ := by
            cases a with
            | listen u =>
              have hls : listening (⟨s.subs, s.queue, s.closed, L⟩ : St J) u = listening s u := rfl
              simp only [step, hls] at hst ⊢
              by_cases hc : (s.closed || listening s u) = true
              · rw [if_pos hc] at hst; cases hst
                exact ⟨[], by simp, by rw [if_pos hc]; simp⟩
              · rw [if_neg hc] at hst; cases hst
                exact ⟨[], by simp, by rw [if_neg hc]; simp⟩
            | arrive m =>
              have hls : listening (⟨s.subs, s.queue, s.closed, L⟩ : St J) m.channel = listening s m.channel := rfl
              simp only [step, hls] at hst ⊢
              by_cases hc : (!s.closed && listening s m.channel) = true
              · rw [if_pos hc] at hst; cases hst
                exact ⟨[], by simp, by rw [if_pos hc]; simp⟩
              · rw [if_neg hc] at hst; cases hst
            | lost =>
              simp only [step] at hst ⊢
              split at hst <;> rename_i hc <;> cases hst
              exact ⟨[], by simp, by rw [if_pos hc]; simp⟩
            | recv k =>
              simp only [step] at hst ⊢
              split at hst
              · rename_i u hk
                split at hst
                · rename_i m q hq; cases hst; exact ⟨[], by simp, by simp⟩
                · rename_i q hq; cases hst; exact ⟨[], by simp, by simp⟩
                · rename_i hq
                  split at hst <;> rename_i hc <;> cases hst
                  exact ⟨[], by simp, by rw [if_pos hc]; simp [hq]⟩
              · cases hst
            | call k =>
              simp only [step] at hst ⊢
              split at hst
              · rename_i u m hk
                cases hst
                exact ⟨[(k, parsePayload json m)], rfl, rfl⟩
              · cases hst
            | ctxDone k =>
              simp only [step] at hst ⊢
              split at hst
              · rename_i u hk
                cases hst
                exact ⟨[], by simp, by simp⟩
              · cases hst
            | close =>
              simp only [step] at hst ⊢
              cases hst
              exact ⟨[], by simp, by simp⟩
          obtain ⟨e1, g1, g2⟩ := h1
          obtain ⟨e2, g3, g4⟩ := ih s1 s' (L ++ e1) h
          refine ⟨e1 ++ e2, by rw [g3, g1, List.append_assoc], ?_⟩
          rw [List.foldlM_cons, g2]
          have g5 := g4
          rw [List.append_assoc] at g5
          exact g5
    obtain ⟨ext, g1, g2⟩ := hlog more s s' [] hr
    have hp0 : Pure (⟨s.subs, s.queue, s.closed, []⟩ : St J) i t [] := by
      refine ⟨?_, fun n hn => Classical.byContradiction fun hc => hq n hn hc, ?_, by simp⟩
      · intro x n hx hn
        have : s.subs[i]? = some x := hx
        rw [hi] at this; cases this; cases hn
      · cases hc : s.closed with
        | true => exact Or.inl rfl
        | false => exact Or.inr fun x hx hxa => Classical.byContradiction fun he => hs hc x hx hxa he
    have hp := pure_run json more _ _ hp0 hl g2
    rw [g1, List.drop_left] at hn
    rcases hp.logged n (by simpa using hn) with hh | hh
    · cases hh
    · exact hne hh
  · rintro (⟨n, hn, hne⟩ | ⟨hc, x, hx, hxa, hxt⟩)
    · obtain ⟨more, s', h1, h2, h3⟩ := drain json i t s.queue [] s hi (by simp)
      refine ⟨more, s', parsePayload json n, ?_, h1, ?_, hne⟩
      · intro a ha u he
        rcases h2 a ha with rfl | rfl <;> cases he
      · rw [h3]
        simp only [List.drop_left]
        exact List.mem_map.2 ⟨n, by rw [List.mem_filterMap]; exact ⟨some n, hn, rfl⟩, rfl⟩
    · -- a notification of the other topic arrives, then goroutine `i` takes everything
      have hl : listening s x.topic = true := by
        simp only [listening, List.any_eq_true]
        exact ⟨x, hx, by simp [hxa]⟩
      have e1 : step json s (.arrive ⟨x.topic, []⟩) = some ⟨s.subs, s.queue ++ [some ⟨x.topic, []⟩], s.closed, s.log⟩ := by simp [step, hc, hl]
      obtain ⟨more, s', h1, h2, h3⟩ := drain json i t (s.queue ++ [some ⟨x.topic, []⟩]) [] (⟨s.subs, s.queue ++ [some ⟨x.topic, []⟩], s.closed, s.log⟩ : St J) hi (by simp)
      refine ⟨.arrive ⟨x.topic, []⟩ :: more, s', parsePayload json ⟨x.topic, []⟩, ?_, ?_, ?_, hxt⟩
      · intro a ha u he
        rcases List.mem_cons.1 ha with rfl | ha
        · cases he
        · rcases h2 a ha with rfl | rfl <;> cases he
      · rw [List.foldlM_cons, e1]; exact h1
      · rw [h3]
        simp only [List.drop_left]
        exact List.mem_map.2 ⟨⟨x.topic, []⟩, by simp, rfl⟩

/-- Both sides occur. -/
example : ∃ s : St Unit, Reach (fun _ => none) [.listen b!"a", .listen b!"b"] s ∧ s.subs[0]? = some ⟨b!"a", true, none⟩ ∧ s.closed = false ∧ ∃ x ∈ s.subs, x.active = true ∧ x.topic ≠ b!"a" :=
  ⟨_, .step (.step .init rfl) rfl, rfl, rfl, ⟨b!"b", true, none⟩, by decide, rfl, by decide⟩

/-! ### Contexts -/

/-- The state with the contexts that are done: `select` (listener.go:95-131) notices the end of a context only when it picks that branch, and it picks at random among the ready ones. -/
structure CSt (J : Type) where
  st : St J
  done : List Nat

inductive CAct where
  | act (a : Act)          -- `ctxDone i` here is the goroutine taking the branch
  | cancel (i : Nat)       -- the context of goroutine `i` ends
  deriving DecidableEq, Repr

/-- listener.go:95-131 with the contexts. -/
def cstep (json : Bytes → Option J) (c : CSt J) : CAct → Option (CSt J)
  | .cancel i => some { c with done := i :: c.done }
  | .act (.ctxDone i) => if i ∈ c.done then (step json c.st (.ctxDone i)).map (fun s => { c with st := s }) else none
  | .act a => (step json c.st a).map (fun s => { c with st := s })

/-- Schedules with contexts. -/
inductive CReach (json : Bytes → Option J) : List CAct → CSt J → Prop where
  | init : CReach json [] ⟨init, []⟩
  | step {as : List CAct} {c c' : CSt J} {a : CAct} : CReach json as c → cstep json c a = some c' → CReach json (as ++ [a]) c'

theorem cstep_act (json : Bytes → Option J) (c c' : CSt J) (a : Act) (h : cstep json c (.act a) = some c') :
    step json c.st a = some c'.st ∧ c'.done = c.done ∧ ∀ i, a = .ctxDone i → i ∈ c.done := by
  cases a with
  | ctxDone i =>
    simp only [cstep] at h
    split at h
    · rename_i hm
      obtain ⟨s, hs, rfl⟩ := Option.map_eq_some_iff.1 h
      exact ⟨hs, rfl, fun j hj => by cases hj; exact hm⟩
    · cases h
  | _ =>
    simp only [cstep] at h
    obtain ⟨s, hs, rfl⟩ := Option.map_eq_some_iff.1 h
    exact ⟨hs, rfl, fun j hj => by cases hj⟩

theorem step_active (json : Bytes → Option J) (s s1 : St J) (a : Act) (i : Nat) (hst : step json s a = some s1) (hne : a ≠ .ctxDone i) (x1 : Sub)
    (h1 : s1.subs[i]? = some x1) (hx : x1.active = false) : ∃ x, s.subs[i]? = some x ∧ x.active = false := by
  cases hs : s.subs[i]? with
  | none =>
    -- a new goroutine is in its loop
    exfalso
    have hlen : s.subs.length ≤ i := List.getElem?_eq_none_iff.1 hs
    cases a with
    | listen u =>
      simp only [step] at hst
      split at hst <;> cases hst
      · rw [hs] at h1; cases h1
      · rw [List.getElem?_append_right hlen] at h1
        cases hk : i - s.subs.length with
        | zero => rw [hk] at h1; simp at h1; subst h1; cases hx
        | succ n => rw [hk] at h1; simp at h1
    | arrive n => simp only [step] at hst; split at hst <;> cases hst; rw [hs] at h1; cases h1
    | lost => simp only [step] at hst; split at hst <;> cases hst; rw [hs] at h1; cases h1
    | close => simp only [step] at hst; cases hst; rw [hs] at h1; cases h1
    | recv k =>
      simp only [step] at hst
      split at hst
      · split at hst
        · cases hst; rw [List.getElem?_eq_none (by simp; exact hlen)] at h1; cases h1
        · cases hst; rw [hs] at h1; cases h1
        · split at hst <;> cases hst; rw [hs] at h1; cases h1
      · cases hst
    | call k =>
      simp only [step] at hst
      split at hst
      · cases hst; rw [List.getElem?_eq_none (by simp; exact hlen)] at h1; cases h1
      · cases hst
    | ctxDone k =>
      simp only [step] at hst
      split at hst
      · cases hst; rw [List.getElem?_eq_none (by simp; exact hlen)] at h1; cases h1
      · cases hst
  | some x =>
    refine ⟨x, rfl, ?_⟩
    cases hxa : x.active with
    | false => rfl
    | true =>
      obtain ⟨y, hy, hya⟩ := active_step json s s1 a i hst ⟨x, hs, hxa⟩ hne
      rw [h1] at hy; cases hy; rw [hx] at hya; cases hya

/-- **C67 exactly**: a goroutine has ended if and only if it took the branch of its context; that needs its context to be done, and nothing else (in particular not `Close`) ends it. -/
theorem C67_ended_iff (json : Bytes → Option J) (as : List CAct) (c : CSt J) (h : CReach json as c) (i : Nat) (x : Sub) (hi : c.st.subs[i]? = some x) :
    (x.active = false ↔ CAct.act (.ctxDone i) ∈ as) ∧ (x.active = false → CAct.cancel i ∈ as) := by
  have hdone : ∀ as (c : CSt J), CReach json as c → ∀ i, i ∈ c.done → CAct.cancel i ∈ as := by
    intro as c h
    induction h with
    | init => intro i hi; cases hi
    | @step as c c' a hr hs ih =>
      intro i hi
      cases a with
      | cancel j =>
        simp only [cstep, Option.some.injEq] at hs
        subst hs
        rcases List.mem_cons.1 hi with rfl | hi
        · simp
        · exact List.mem_append_left _ (ih i hi)
      | act a =>
        rw [(cstep_act json c c' a hs).2.1] at hi
        exact List.mem_append_left _ (ih i hi)
  have main : ∀ as (c : CSt J), CReach json as c → ∀ i x, c.st.subs[i]? = some x →
      (x.active = false ↔ CAct.act (.ctxDone i) ∈ as) ∧ (CAct.act (.ctxDone i) ∈ as → CAct.cancel i ∈ as) := by
    intro as c h
    induction h with
    | init => intro i x hi; simp [init] at hi
    | @step as c c' a hr hs ih =>
      intro i x hi
      cases a with
      | cancel j =>
        simp only [cstep, Option.some.injEq] at hs
        subst hs
        obtain ⟨h1, h2⟩ := ih i x hi
        refine ⟨h1.trans (by simp), fun hm => List.mem_append_left _ (h2 ?_)⟩
        simpa using hm
      | act a =>
        obtain ⟨g1, g2, g3⟩ := cstep_act json c c' a hs
        by_cases ha : a = .ctxDone i
        · subst ha
          have hf : x.active = false := by
            simp only [step] at g1
            split at g1
            · rename_i u hk
              cases hst : c'.st
              rw [hst] at g1 hi
              cases g1
              simp only at hi
              rw [List.getElem?_set_self (List.getElem?_eq_some_iff.1 hk).1] at hi
              cases hi; rfl
            · cases g1
          refine ⟨by simp [hf], fun _ => List.mem_append_left _ (hdone as c hr i (g3 i rfl))⟩
        · have hmem : (CAct.act (.ctxDone i) ∈ as ++ [CAct.act a]) ↔ CAct.act (.ctxDone i) ∈ as := by
            simp [Ne.symm ha]
          rw [hmem]
          cases hold : c.st.subs[i]? with
          | none =>
            -- the goroutine was just started
            have hact : x.active = true := by
              cases hxa : x.active with
              | true => rfl
              | false =>
                obtain ⟨y, hy, -⟩ := step_active json c.st c'.st a i g1 ha x hi hxa
                rw [hold] at hy; cases hy
            have hno : CAct.act (.ctxDone i) ∉ as := by
              -- nothing was done by a goroutine that did not exist
              have : ∀ as (c : CSt J), CReach json as c → c.st.subs[i]? = none → CAct.act (.ctxDone i) ∉ as := by
                intro as c h
                induction h with
                | init => intro _ hm; cases hm
                | @step as c c' a hr hs ih2 =>
                  intro hn hm
                  have hback : c.st.subs[i]? = none := by
                    cases hh : c.st.subs[i]? with
                    | none => rfl
                    | some y =>
                      exfalso
                      have hlt := (List.getElem?_eq_some_iff.1 hh).1
                      have hle : c.st.subs.length ≤ c'.st.subs.length := by
                        cases a with
                        | cancel j => simp only [cstep, Option.some.injEq] at hs; subst hs; exact Nat.le_refl _
                        | act a =>
                          obtain ⟨e1, -, -⟩ := cstep_act json c c' a hs
                          cases hst : c'.st
                          rw [hst] at e1
                          cases a with
                          | listen u =>
                            simp only [step] at e1
                            split at e1 <;> rw [Option.some.injEq] at e1
                            · rw [e1]; exact Nat.le_refl _
                            · cases e1; simp
                          | arrive n => simp only [step] at e1; split at e1 <;> cases e1; exact Nat.le_refl _
                          | lost => simp only [step] at e1; split at e1 <;> cases e1; exact Nat.le_refl _
                          | close => simp only [step] at e1; cases e1; exact Nat.le_refl _
                          | recv k =>
                            simp only [step] at e1
                            split at e1
                            · split at e1
                              · cases e1; simp
                              · cases e1; exact Nat.le_refl _
                              · split at e1
                                · rw [Option.some.injEq] at e1; rw [e1]; exact Nat.le_refl _
                                · cases e1
                            · cases e1
                          | call k => simp only [step] at e1; split at e1 <;> cases e1; simp
                          | ctxDone k => simp only [step] at e1; split at e1 <;> cases e1; simp
                      rw [List.getElem?_eq_none_iff] at hn
                      omega
                  rcases List.mem_append.1 hm with hm | hm
                  · exact ih2 hback hm
                  · simp only [List.mem_singleton] at hm
                    subst hm
                    obtain ⟨e1, -, -⟩ := cstep_act json c c' (.ctxDone i) hs
                    simp [step, hback] at e1
              exact this as c hr hold
            exact ⟨by simp [hact, hno], fun hm => absurd hm hno⟩
          | some y =>
            obtain ⟨h1, h2⟩ := ih i y hold
            refine ⟨?_, fun hm => List.mem_append_left _ (h2 hm)⟩
            rw [← h1]
            constructor
            · intro hxa
              obtain ⟨z, hz, hza⟩ := step_active json c.st c'.st a i g1 ha x hi hxa
              rw [hold] at hz; cases hz; exact hza
            · intro hya
              obtain ⟨z, hz, hza⟩ := (inactive_step json c.st c'.st a i g1 ⟨y, hold, hya⟩).1
              rw [hi] at hz; cases hz; exact hza
  obtain ⟨h1, h2⟩ := main as c h i x hi
  exact ⟨h1, fun hx => h2 (h1.1 hx)⟩

/-- **C67 fails** literally: after the context is done the callback can still be called, for any number of notifications that keep coming: `select` picks at random between a context that is done and a
notification. -/
theorem C67_callbacks_after_the_context_is_done (json : Bytes → Option J) (as : List CAct) (c : CSt J) (h : CReach json as c) (i : Nat) (t : Bytes)
    (hi : c.st.subs[i]? = some ⟨t, true, none⟩) (hc : c.st.closed = false) (hq : c.st.queue = []) (ns : List Note) (hns : ∀ n ∈ ns, n.channel = t) :
    ∃ more c', CReach json (as ++ [.cancel i] ++ more) c' ∧ (∀ n ∈ ns, (i, parsePayload json n) ∈ c'.st.log)
      ∧ Spec.delivered c'.st i = Spec.delivered c.st i ++ ns := by
  have step1 : CReach json (as ++ [.cancel i]) { c with done := i :: c.done } := .step h rfl
  have loop : ∀ (ns : List Note) (as : List CAct) (c : CSt J), (∀ n ∈ ns, n.channel = t) → CReach json as c → c.st.subs[i]? = some ⟨t, true, none⟩ →
      c.st.closed = false → c.st.queue = [] →
      ∃ more c', CReach json (as ++ more) c' ∧ c'.st.log = c.st.log ++ ns.map (fun n => (i, parsePayload json n)) := by
    intro ns
    induction ns with
    | nil => intro as c _ hr _ _ _; exact ⟨[], c, by simpa using hr, by simp⟩
    | cons n ns ih =>
      intro as c hn hr hi hc hq
      have hlt := (List.getElem?_eq_some_iff.1 hi).1
      have hl : listening c.st n.channel = true := by
        simp only [listening, List.any_eq_true]
        exact ⟨_, List.mem_of_getElem? hi, by simp [hn n (by simp)]⟩
      have hback : (c.st.subs.set i ⟨t, true, some n⟩).set i ⟨t, true, none⟩ = c.st.subs := by
        rw [List.set_set]
        apply List.ext_getElem?
        intro k
        by_cases hk : i = k
        · subst hk; rw [List.getElem?_set_self hlt, hi]
        · rw [List.getElem?_set_ne hk]
      have r1 : CReach json (as ++ [.act (.arrive n)]) ⟨⟨c.st.subs, [some n], false, c.st.log⟩, c.done⟩ := .step hr (by simp [cstep, step, hc, hl, hq])
      have r2 : CReach json (as ++ [.act (.arrive n)] ++ [.act (.recv i)]) ⟨⟨c.st.subs.set i ⟨t, true, some n⟩, [], false, c.st.log⟩, c.done⟩ :=
        .step r1 (by simp [cstep, step, hi])
      have r3 : CReach json (as ++ [.act (.arrive n)] ++ [.act (.recv i)] ++ [.act (.call i)]) ⟨⟨c.st.subs, [], false, c.st.log ++ [(i, parsePayload json n)]⟩, c.done⟩ :=
        .step r2 (by simp only [cstep, step, List.getElem?_set_self hlt, Option.map_some, hback])
      obtain ⟨more, c', g1, g2⟩ := ih _ _ (fun m hm => hn m (by simp [hm])) r3 hi rfl rfl
      refine ⟨[.act (.arrive n), .act (.recv i), .act (.call i)] ++ more, c', ?_, ?_⟩
      · have e : as ++ ([.act (.arrive n), .act (.recv i), .act (.call i)] ++ more)
            = as ++ [CAct.act (.arrive n)] ++ [CAct.act (.recv i)] ++ [CAct.act (.call i)] ++ more := by simp
        rw [e]; exact g1
      · rw [g2]; simp
  obtain ⟨more, c', g1, g2⟩ := loop ns _ _ hns step1 hi hc hq
  refine ⟨more, c', g1, ?_, ?_⟩
  · intro n hn
    rw [g2]
    exact List.mem_append_right _ (List.mem_map.2 ⟨n, hn, rfl⟩)
  · simp only [Spec.delivered, g2, List.filter_append, List.map_append]
    congr 1
    rw [List.filter_eq_self.2]
    · rw [List.map_map]
      conv => rhs; rw [← List.map_id ns]
      exact List.map_congr_left fun n _ => rfl
    · intro p hp
      obtain ⟨n, _, rfl⟩ := List.mem_map.1 hp
      simp

example : ∃ c : CSt Unit, CReach (fun _ => none) [.act (.listen b!"a"), .cancel 0, .act (.ctxDone 0)] c ∧ ∃ x, c.st.subs[0]? = some x ∧ x.active = false :=
  ⟨_, .step (.step (.step .init rfl) rfl) rfl, ⟨b!"a", false, none⟩, rfl, rfl⟩

end Notify
