import Verif.Prov.Model
import Verif.Util
set_option linter.unusedSimpArgs false
set_option linter.unusedVariables false
/-! Properties C49, C50 and C64: transactions and Close. -/
namespace Prov

namespace Spec

/-- The events that end transaction `t`. -/
def Ends (t : Nat) : Ev → Prop
  | .commit u _ => u = t
  | .rollback u _ => u = t
  | _ => False

/-- The events that concern transaction `t`. -/
def About (t : Nat) : Ev → Prop
  | .begin u _ => u = t
  | .exec x _ => x = some t
  | .commit u _ => u = t
  | .rollback u _ => u = t
  | .close _ => False

/-- The transaction has ended in this trace. -/
def Ended (tr : List Ev) (t : Nat) : Prop := ∃ e ∈ tr, Ends t e

/-- The events an operation added: `tr'` is `tr` followed by `es`. -/
def Added (tr tr' es : List Ev) : Prop := tr' = tr ++ es

/-- The provider number `i` speaks to transaction `t`. -/
def TxOf (w : World) (i : Nat) (t : Nat) : Prop := ∃ p, w.provs[i]? = some p ∧ p.tx = some t
/-- The call is made through provider number `i`. -/
def Via (i : Nat) : Op → Prop
  | .begin k _ _ => k = i
  | .exec k _ _ => k = i
  | .commit k _ => k = i
  | .rollback k _ => k = i
  | .close k _ => k = i
  | _ => False
/-- Provider number `i` is a plain provider. -/
def Plain (w : World) (i : Nat) : Prop := ∃ p, w.provs[i]? = some p ∧ p.tx = none

end Spec

/-- The invariant: transaction numbers are consecutive, the done flags agree with the trace, a transaction appears in the trace only
between its begin and its end. -/
structure Inv (w : World) : Prop where
  done_iff : ∀ t, t < w.done.length → (w.done.getD t true = true ↔ Spec.Ended w.trace t)
  bound : ∀ t e, e ∈ w.trace → Spec.About t e → t < w.done.length
  begun : ∀ t, t < w.done.length → ∃ o, Ev.begin t o ∈ w.trace
  tx_lt : ∀ p ∈ w.provs, ∀ t, p.tx = some t → t < w.done.length ∧ p.conn = true
  after : ∀ t a e b, w.trace = a ++ e :: b → Spec.Ends t e → ∀ e' ∈ b, ¬ Spec.About t e'
  before : ∀ t o a b, w.trace = a ++ Ev.begin t o :: b → ∀ e' ∈ a, ¬ Spec.About t e'

theorem ends_about {t : Nat} {e : Ev} (h : Spec.Ends t e) : Spec.About t e := by
  cases e <;> simp_all [Spec.Ends, Spec.About]

theorem ended_snoc (tr : List Ev) (e : Ev) (t : Nat) : Spec.Ended (tr ++ [e]) t ↔ Spec.Ended tr t ∨ Spec.Ends t e := by
  simp only [Spec.Ended, List.mem_append, List.mem_singleton]
  constructor
  · rintro ⟨x, hx | rfl, h⟩
    · exact Or.inl ⟨x, hx, h⟩
    · exact Or.inr h
  · rintro (⟨x, hx, h⟩ | h)
    · exact ⟨x, Or.inl hx, h⟩
    · exact ⟨e, Or.inr rfl, h⟩

/-- Appending one event about transactions that have not ended keeps the order part of the invariant. -/
theorem after_snoc {tr : List Ev} {e : Ev}
    (h : ∀ t a x b, tr = a ++ x :: b → Spec.Ends t x → ∀ e' ∈ b, ¬ Spec.About t e')
    (hne : ∀ t, Spec.Ended tr t → ¬ Spec.About t e) :
    ∀ t a x b, tr ++ [e] = a ++ x :: b → Spec.Ends t x → ∀ e' ∈ b, ¬ Spec.About t e' := by
  intro t a x b heq hx e' he'
  rcases List.eq_nil_or_concat b with rfl | ⟨b', l, rfl⟩
  · simp at he'
  · have h2 : tr = a ++ x :: b' ∧ e = l := by
      have : tr ++ [e] = (a ++ x :: b') ++ [l] := by rw [heq]; simp
      exact ⟨List.append_inj_left' this rfl, by have := List.append_inj_right' this rfl; simpa using this⟩
    obtain ⟨h2, rfl⟩ := h2
    rw [List.concat_eq_append, List.mem_append, List.mem_singleton] at he'
    rcases he' with he' | rfl
    · exact h t a x b' h2 hx e' he'
    · exact hne t ⟨x, by rw [h2]; simp, hx⟩

theorem before_snoc {tr : List Ev} {e : Ev}
    (h : ∀ t o a b, tr = a ++ Ev.begin t o :: b → ∀ e' ∈ a, ¬ Spec.About t e')
    (hne : ∀ t o, e = Ev.begin t o → ∀ e' ∈ tr, ¬ Spec.About t e') :
    ∀ t o a b, tr ++ [e] = a ++ Ev.begin t o :: b → ∀ e' ∈ a, ¬ Spec.About t e' := by
  intro t o a b heq e' he'
  rcases List.eq_nil_or_concat b with rfl | ⟨b', l, rfl⟩
  · have : tr = a ∧ e = Ev.begin t o := by
      have h1 : tr ++ [e] = a ++ [Ev.begin t o] := heq
      exact ⟨List.append_inj_left' h1 rfl, by have := List.append_inj_right' h1 rfl; simpa using this⟩
    obtain ⟨rfl, rfl⟩ := this
    exact hne t o rfl e' he'
  · have h2 : tr = a ++ Ev.begin t o :: b' := by
      have : tr ++ [e] = (a ++ Ev.begin t o :: b') ++ [l] := by rw [heq]; simp
      exact List.append_inj_left' this rfl
    exact h t o a b' h2 e' he'

theorem inv_end {w : World} (h : Inv w) (t : Nat) (e : Ev) (he : Spec.Ends t e) (hab : ∀ u, Spec.About u e → u = t)
    (hnb : ∀ u o, e ≠ Ev.begin u o) (hd : w.done.getD t true = false) :
    Inv { w with done := w.done.set t true, trace := w.trace ++ [e] } := by
  have hlt : t < w.done.length := by
    rw [← Nat.not_le]; intro hle
    simp [List.getD_eq_getElem?_getD, List.getElem?_eq_none hle] at hd
  refine ⟨?_, ?_, ?_, ?_, ?_, ?_⟩
  · intro u hu
    simp only [List.length_set] at hu
    rw [ended_snoc]
    have hi := h.done_iff u hu
    by_cases hut : u = t
    · subst hut
      simp [List.getD_eq_getElem?_getD, hu, he]
    · have hne : ¬ Spec.Ends u e := fun hx => hut (hab u (ends_about hx))
      simp only [hne, or_false, ← hi]
      simp [List.getD_eq_getElem?_getD, List.getElem?_set_ne (Ne.symm hut)]
  · intro u x hx hax
    simp only [List.length_set]
    simp only [List.mem_append, List.mem_singleton] at hx
    rcases hx with hx | rfl
    · exact h.bound u x hx hax
    · rw [hab u hax]; exact hlt
  · intro u hu
    simp only [List.length_set] at hu
    obtain ⟨o, ho⟩ := h.begun u hu
    exact ⟨o, List.mem_append_left _ ho⟩
  · intro p hp u hpu
    simp only [List.length_set]
    exact h.tx_lt p hp u hpu
  · refine after_snoc h.after ?_
    intro u hu hau
    have := hab u hau
    subst this
    have := (h.done_iff u hlt).2 hu
    rw [hd] at this
    exact absurd this (by decide)
  · exact before_snoc h.before (fun u o hx => absurd hx (hnb u o))

theorem inv_exec {w : World} (h : Inv w) (e : Ev) (he : ∀ u, ¬ Spec.Ends u e)
    (hab : ∀ u, Spec.About u e → u < w.done.length ∧ w.done.getD u true = false)
    (hnb : ∀ u o, e ≠ Ev.begin u o) (c : Bool) (ps : List SQLProvider)
    (hps : ∀ p ∈ ps, ∀ t, p.tx = some t → t < w.done.length ∧ p.conn = true) :
    Inv { w with closed := c, trace := w.trace ++ [e], provs := ps } := by
  refine ⟨?_, ?_, ?_, ?_, ?_, ?_⟩
  · intro u hu
    rw [ended_snoc]
    simp only [he u, or_false]
    exact h.done_iff u hu
  · intro u x hx hax
    simp only [List.mem_append, List.mem_singleton] at hx
    rcases hx with hx | rfl
    · exact h.bound u x hx hax
    · exact (hab u hax).1
  · intro u hu
    obtain ⟨o, ho⟩ := h.begun u hu
    exact ⟨o, List.mem_append_left _ ho⟩
  · exact hps
  · refine after_snoc h.after ?_
    intro u hu hau
    obtain ⟨h1, h2⟩ := hab u hau
    have := (h.done_iff u h1).2 hu
    rw [h2] at this
    exact absurd this (by decide)
  · exact before_snoc h.before (fun u o hx => absurd hx (hnb u o))

theorem inv_provs {w : World} (h : Inv w) (c : Bool) (ps : List SQLProvider)
    (hps : ∀ p ∈ ps, ∀ t, p.tx = some t → t < w.done.length ∧ p.conn = true) : Inv { w with closed := c, provs := ps } :=
  ⟨h.done_iff, h.bound, h.begun, hps, h.after, h.before⟩

theorem inv_begin {w : World} (h : Inv w) (o : TxOptions) :
    Inv { w with done := w.done ++ [false], provs := w.provs ++ [⟨some w.done.length, true⟩],
                 trace := w.trace ++ [.begin w.done.length o] } := by
  have hnone : ∀ e ∈ w.trace, ¬ Spec.About w.done.length e := by
    intro e he ha
    have := h.bound _ _ he ha
    omega
  refine ⟨?_, ?_, ?_, ?_, ?_, ?_⟩
  · intro u hu
    rw [ended_snoc]
    simp only [Spec.Ends, or_false]
    simp only [List.length_append, List.length_singleton] at hu
    by_cases hut : u = w.done.length
    · subst hut
      simp only [List.getD_eq_getElem?_getD]
      simp only [List.getElem?_append_right (Nat.le_refl _), Nat.sub_self, List.getElem?_cons_zero, Option.getD_some, Bool.false_eq_true,
        false_iff]
      rintro ⟨e, he, hee⟩
      exact hnone e he (ends_about hee)
    · rw [← h.done_iff u (by omega)]
      simp only [List.getD_eq_getElem?_getD]
      rw [List.getElem?_append_left (by omega)]
  · intro u x hx hax
    simp only [List.length_append, List.length_singleton]
    simp only [List.mem_append, List.mem_singleton] at hx
    rcases hx with hx | rfl
    · have := h.bound u x hx hax; omega
    · simp only [Spec.About] at hax; omega
  · intro u hu
    simp only [List.length_append, List.length_singleton] at hu
    by_cases hut : u = w.done.length
    · subst hut; exact ⟨o, List.mem_append_right _ (List.mem_singleton.2 rfl)⟩
    · obtain ⟨o', ho⟩ := h.begun u (by omega)
      exact ⟨o', List.mem_append_left _ ho⟩
  · intro p hp u hpu
    simp only [List.length_append, List.length_singleton]
    rw [List.mem_append, List.mem_singleton] at hp
    rcases hp with hp | rfl
    · have := h.tx_lt p hp u hpu; exact ⟨by omega, this.2⟩
    · simp only [Option.some.injEq] at hpu; exact ⟨by omega, rfl⟩
  · refine after_snoc h.after ?_
    rintro u ⟨e, he, hee⟩ hau
    simp only [Spec.About] at hau
    subst hau
    exact hnone e he (ends_about hee)
  · refine before_snoc h.before ?_
    intro u o' heq e' he'
    simp only [Ev.begin.injEq] at heq
    rw [← heq.1]
    exact hnone e' he'

theorem inv_txRollback {w : World} (h : Inv w) (t : Nat) (drv : Bool) : Inv (txRollback w t drv).1 := by
  unfold txRollback
  split
  · exact h
  · exact inv_end h t _ rfl (fun u hu => hu.symm) (fun u o hh => by cases hh) (eq_false_of_ne_true ‹_›)

theorem inv_txCommit {w : World} (h : Inv w) (t : Nat) (drv : Bool) : Inv (txCommit w t drv).1 := by
  unfold txCommit
  split
  · exact h
  · exact inv_end h t _ rfl (fun u hu => hu.symm) (fun u o hh => by cases hh) (eq_false_of_ne_true ‹_›)

theorem rollback_fst (w : World) (p : SQLProvider) (t : Nat) (drv : Bool) (hp : p.tx = some t) :
    (rollback w p drv).1 = (txRollback w t drv).1 := by
  unfold rollback; rw [hp]; dsimp only; split
  · rename_i heq; rw [heq]
  · rfl

theorem inv_step {w : World} (h : Inv w) (o : Op) : Inv (step w o).1 := by
  cases o with
  | new =>
    refine inv_provs h w.closed _ ?_
    intro p hp t ht
    rw [List.mem_append, List.mem_singleton] at hp
    rcases hp with hp | rfl
    · exact h.tx_lt p hp t ht
    · cases ht
  | begin i opts drv =>
    simp only [step]
    cases hp : w.provs[i]? with
    | none => exact h
    | some p =>
      simp only [beginTx]
      cases p.tx with
      | some _ => exact h
      | none =>
        dsimp only
        split
        · exact h
        · split
          · exact h
          · split
            · exact h
            · have : p.conn = true := by simp_all
              rw [this]
              exact inv_begin h _
  | exec i stmt drv =>
    simp only [step]
    cases hp : w.provs[i]? with
    | none => exact h
    | some p =>
      have hmem := List.mem_of_getElem? hp
      simp only [exec]
      cases ht : p.tx with
      | some t =>
        dsimp only
        split
        · exact h
        · refine inv_exec h _ (fun u => by simp [Spec.Ends]) ?_ (fun u o hh => by cases hh) w.closed w.provs h.tx_lt
          intro u hu
          simp only [Spec.About, Option.some.injEq] at hu
          subst hu
          exact ⟨(h.tx_lt p hmem t ht).1, eq_false_of_ne_true ‹_›⟩
      | none =>
        dsimp only
        split
        · exact h
        · refine inv_exec h _ (fun u => by simp [Spec.Ends]) ?_ (fun u o hh => by cases hh) w.closed w.provs h.tx_lt
          intro u hu
          simp [Spec.About] at hu
  | commit i drv =>
    simp only [step]
    cases hp : w.provs[i]? with
    | none => exact h
    | some p =>
      simp only [commit]
      cases p.tx with
      | none => exact h
      | some t => exact inv_txCommit h t drv
  | rollback i drv =>
    simp only [step]
    cases hp : w.provs[i]? with
    | none => exact h
    | some p =>
      cases ht : p.tx with
      | none => simp only [rollback, ht]; exact h
      | some t => dsimp only; rw [rollback_fst w p t drv ht]; exact inv_txRollback h t drv
  | close i drv =>
    simp only [step]
    cases hp : w.provs[i]? with
    | none => exact h
    | some p =>
      simp only [close]
      split
      · exact h
      · cases ht : p.tx with
        | some t => dsimp only; rw [rollback_fst w p t drv ht]; exact inv_txRollback h t drv
        | none =>
          dsimp only
          have hps : ∀ q ∈ w.provs.set i ⟨p.tx, false⟩, ∀ t, q.tx = some t → t < w.done.length ∧ q.conn = true := by
            rw [ht]
            intro q hq t hqt
            rcases List.mem_or_eq_of_mem_set hq with hq | rfl
            · exact h.tx_lt q hq t hqt
            · cases hqt
          rw [ht] at hps
          unfold dbClose
          split
          · rename_i w' heq
            split at heq
            · cases heq; exact inv_provs h w.closed _ hps
            · simp only [Prod.mk.injEq] at heq
              obtain ⟨rfl, -⟩ := heq
              refine inv_exec h _ (fun u => by simp [Spec.Ends]) ?_ (fun u o hh => by cases hh) true _ hps
              intro u hu; simp [Spec.About] at hu
          · split
            · exact h
            · refine inv_exec h _ (fun u => by simp [Spec.Ends]) ?_ (fun u o hh => by cases hh) true w.provs h.tx_lt
              intro u hu; simp [Spec.About] at hu
  | cancel t => exact inv_txRollback h t true

theorem inv_run (ops : List Op) : Inv (run ops) := by
  unfold run
  generalize hw : World.init = w0
  have h0 : Inv w0 := by
    rw [← hw]
    refine ⟨?_, ?_, ?_, ?_, ?_, ?_⟩ <;> simp [World.init]
  clear hw
  induction ops generalizing w0 with
  | nil => exact h0
  | cons o os ih => exact ih _ (inv_step h0 o)

/-! ### C49 -/

/-- C49 (life of a transaction): in every history, after the event that ends a transaction nothing about it reaches the database any
more — so at most one commit or rollback, and no statement after it — and nothing about it precedes its begin. -/
theorem C49_begin_then_one_end (ops : List Op) (t : Nat) :
    (∀ a e b, (run ops).trace = a ++ e :: b → Spec.Ends t e → ∀ e' ∈ b, ¬ Spec.About t e')
    ∧ (∀ o a b, (run ops).trace = a ++ Ev.begin t o :: b → ∀ e' ∈ a, ¬ Spec.About t e')
    ∧ ((∃ e ∈ (run ops).trace, Spec.About t e) → ∃ o, Ev.begin t o ∈ (run ops).trace) := by
  have h := inv_run ops
  exact ⟨h.after t, h.before t, fun ⟨e, he, ha⟩ => h.begun t (h.bound t e he ha)⟩

/-- C49 (one transaction per provider): a successful `BeginTx` starts a fresh transaction and gives a new provider speaking to it; every
call through a transaction's provider, whatever it is, adds to the database's trace at most one event, of that transaction; a call through
a plain provider adds at most one event and none of an existing transaction; a provider never changes its transaction. -/
theorem C49_statements_go_through_their_transaction (ops : List Op) :
    (∀ i opts drv j, (step (run ops) (.begin i opts drv)).2 = .provider j →
      ∃ t o, Spec.TxOf (step (run ops) (.begin i opts drv)).1 j t
        ∧ (step (run ops) (.begin i opts drv)).1.trace = (run ops).trace ++ [.begin t o]
        ∧ (∀ e ∈ (run ops).trace, ¬ Spec.About t e) ∧ (∀ k, ¬ Spec.TxOf (run ops) k t)
        ∧ (run ops).provs[j]? = none)
    ∧ (∀ i t o, Spec.TxOf (run ops) i t → Spec.Via i o →
        ∃ es : List Ev, (step (run ops) o).1.trace = (run ops).trace ++ es ∧ es.length ≤ 1 ∧ ∀ e ∈ es, Spec.About t e)
    ∧ (∀ i o, Spec.Plain (run ops) i → Spec.Via i o →
        ∃ es : List Ev, (step (run ops) o).1.trace = (run ops).trace ++ es ∧ es.length ≤ 1
          ∧ ∀ e ∈ es, ∀ t, Spec.About t e → ∀ x ∈ (run ops).trace, ¬ Spec.About t x)
    ∧ (∀ i t o, Spec.TxOf (run ops) i t → Spec.TxOf (step (run ops) o).1 i t) := by
  have h := inv_run ops
  generalize run ops = w at h
  refine ⟨?_, ?_, ?_, ?_⟩
  · intro i opts drv j hj
    simp only [step] at hj ⊢
    cases hp : w.provs[i]? with
    | none => rw [hp] at hj; cases hj
    | some p =>
      rw [hp] at hj
      simp only [beginTx] at hj ⊢
      cases ht : p.tx with
      | some u => rw [ht] at hj; cases hj
      | none =>
        rw [ht] at hj
        simp only at hj ⊢
        split at hj
        · cases hj
        · split at hj
          · cases hj
          · split at hj
            · cases hj
            · rename_i h1 h2 h3
              simp only [if_neg h1, if_neg h2, if_neg h3]
              simp only [Res.provider.injEq] at hj
              subst hj
              refine ⟨w.done.length, .default, ⟨_, by simp; rfl, rfl⟩, rfl, ?_, ?_, by simp⟩
              · intro e he ha; have := h.bound _ e he ha; omega
              · rintro k ⟨q, hq, hqt⟩
                have := (h.tx_lt q (List.mem_of_getElem? hq) _ hqt).1; omega
  · rintro i t o ⟨p, hp, ht⟩ hv
    have hrb : ∀ drv, ∃ es : List Ev, (txRollback w t drv).1.trace = w.trace ++ es ∧ es.length ≤ 1 ∧ ∀ e ∈ es, Spec.About t e := by
      intro drv; unfold txRollback; split
      · exact ⟨[], by simp⟩
      · exact ⟨[.rollback t drv], rfl, by simp, by simp [Spec.About]⟩
    cases o with
    | new => exact hv.elim
    | cancel u => exact hv.elim
    | begin k opts drv => cases hv; simp only [step, hp, beginTx, ht]; exact ⟨[], by simp⟩
    | exec k stmt drv =>
      cases hv; simp only [step, hp, exec, ht]; split
      · exact ⟨[], by simp⟩
      · exact ⟨[.exec (some t) stmt], rfl, by simp, by simp [Spec.About]⟩
    | commit k drv =>
      cases hv; simp only [step, hp, commit, ht, txCommit]; split
      · exact ⟨[], by simp⟩
      · exact ⟨[.commit t drv], rfl, by simp, by simp [Spec.About]⟩
    | rollback k drv => cases hv; simp only [step, hp]; rw [rollback_fst w p t drv ht]; exact hrb drv
    | close k drv =>
      cases hv; simp only [step, hp, close]; split
      · exact ⟨[], by simp⟩
      · simp only [ht]; rw [rollback_fst w p t drv ht]; exact hrb drv
  · rintro i o ⟨p, hp, ht⟩ hv
    cases o with
    | new => exact hv.elim
    | cancel u => exact hv.elim
    | begin k opts drv =>
      cases hv; simp only [step, hp, beginTx, ht]
      split
      · exact ⟨[], by simp⟩
      · split
        · exact ⟨[], by simp⟩
        · split
          · exact ⟨[], by simp⟩
          · refine ⟨[.begin w.done.length .default], rfl, by simp, ?_⟩
            intro e he t hat x hx hax
            simp only [List.mem_singleton] at he
            subst he
            have := h.bound t x hx hax
            simp only [Spec.About] at hat
            omega
    | exec k stmt drv =>
      cases hv; simp only [step, hp, exec, ht]; split
      · exact ⟨[], by simp⟩
      · exact ⟨[.exec none stmt], rfl, by simp, by simp [Spec.About]⟩
    | commit k drv => cases hv; simp only [step, hp, commit, ht]; exact ⟨[], by simp⟩
    | rollback k drv => cases hv; simp only [step, hp, rollback, ht]; exact ⟨[], by simp⟩
    | close k drv =>
      cases hv; simp only [step, hp, close]; split
      · exact ⟨[], by simp⟩
      · simp only [ht]
        unfold dbClose
        by_cases hc : w.closed = true
        · simp only [hc, if_true]; exact ⟨[], by simp⟩
        · refine ⟨[.close drv], ?_, by simp, by simp [Spec.About]⟩
          simp only [hc]
          cases drv <;> rfl
  · rintro i t o ⟨p, hp, ht⟩
    have keep : ∀ w' : World, (∀ (j : Nat) (q : SQLProvider), w.provs[j]? = some q → w'.provs[j]? = some q) → Spec.TxOf w' i t :=
      fun w' hw => ⟨p, hw i p hp, ht⟩
    have happ : ∀ (x : SQLProvider) (j : Nat) (q : SQLProvider), w.provs[j]? = some q → (w.provs ++ [x])[j]? = some q := by
      intro x j q hq
      rw [List.getElem?_append_left (List.getElem?_eq_some_iff.1 hq).1]; exact hq
    have hrb : ∀ u drv, (txRollback w u drv).1.provs = w.provs := by intro u drv; unfold txRollback; split <;> rfl
    cases o with
    | new => exact keep _ (happ _)
    | cancel u => refine keep _ ?_; simp only [step, hrb]; exact fun j q hq => hq
    | begin k opts drv =>
      simp only [step]
      cases hk : w.provs[k]? with
      | none => exact keep _ (fun j q hq => hq)
      | some r =>
        simp only [beginTx]
        cases r.tx with
        | some u => exact keep _ (fun j q hq => hq)
        | none =>
          dsimp only
          split
          · exact keep _ (fun j q hq => hq)
          · split
            · exact keep _ (fun j q hq => hq)
            · split
              · exact keep _ (fun j q hq => hq)
              · exact keep _ (happ _)
    | exec k stmt drv =>
      simp only [step]
      cases hk : w.provs[k]? with
      | none => exact keep _ (fun j q hq => hq)
      | some r =>
        simp only [exec]
        cases r.tx with
        | some u => dsimp only; split <;> exact keep _ (fun j q hq => hq)
        | none => dsimp only; split <;> exact keep _ (fun j q hq => hq)
    | commit k drv =>
      simp only [step]
      cases hk : w.provs[k]? with
      | none => exact keep _ (fun j q hq => hq)
      | some r =>
        simp only [commit]
        cases r.tx with
        | none => exact keep _ (fun j q hq => hq)
        | some u => dsimp only; unfold txCommit; split <;> exact keep _ (fun j q hq => hq)
    | rollback k drv =>
      simp only [step]
      cases hk : w.provs[k]? with
      | none => exact keep _ (fun j q hq => hq)
      | some r =>
        cases hr : r.tx with
        | none => simp only [rollback, hr]; exact keep _ (fun j q hq => hq)
        | some u => dsimp only; rw [rollback_fst w r u drv hr]; refine keep _ ?_; rw [hrb]; exact fun j q hq => hq
    | close k drv =>
      simp only [step]
      cases hk : w.provs[k]? with
      | none => exact keep _ (fun j q hq => hq)
      | some r =>
        simp only [close]
        split
        · exact keep _ (fun j q hq => hq)
        · cases hr : r.tx with
          | some u => dsimp only; rw [rollback_fst w r u drv hr]; refine keep _ ?_; rw [hrb]; exact fun j q hq => hq
          | none =>
            have hki : k ≠ i := by rintro rfl; rw [hp] at hk; cases hk; rw [ht] at hr; cases hr
            have hdb : (dbClose w drv).1.provs = w.provs := by unfold dbClose; split <;> rfl
            dsimp only
            split
            · rename_i w' heq
              have hw' : w'.provs = w.provs := by rw [← hdb, heq]
              refine ⟨p, ?_, ht⟩
              simp only [hw']
              rw [List.getElem?_set_ne hki]; exact hp
            · refine keep _ ?_; rw [hdb]; exact fun j q hq => hq

/-- C49 (each call): statements reach the open transaction; the first `Commit` or `Rollback` is passed on and its outcome
reported; afterwards `Commit` and statements fail, `Rollback` succeeds, all without effect; nested `BeginTx` fails without effect; on a
plain provider `Commit` and `Rollback` fail without effect. -/
theorem C49_calls (ops : List Op) (i : Nat) (drv : Bool) (stmt : Bytes) (opts : TxOptions) :
    (∀ t, Spec.TxOf (run ops) i t →
      step (run ops) (.begin i opts drv) = (run ops, .alreadyStarted)
      ∧ (¬ Spec.Ended (run ops).trace t →
          ((step (run ops) (.exec i stmt drv)).1.trace = (run ops).trace ++ [.exec (some t) stmt]
            ∧ (step (run ops) (.exec i stmt drv)).2 = if drv then .ok else .driver)
          ∧ ((step (run ops) (.commit i drv)).1.trace = (run ops).trace ++ [.commit t drv]
            ∧ (step (run ops) (.commit i drv)).2 = if drv then .ok else .driver)
          ∧ ((step (run ops) (.rollback i drv)).1.trace = (run ops).trace ++ [.rollback t drv]
            ∧ (step (run ops) (.rollback i drv)).2 = if drv then .ok else .driver))
      ∧ (Spec.Ended (run ops).trace t →
          step (run ops) (.exec i stmt drv) = (run ops, .txDone)
          ∧ step (run ops) (.commit i drv) = (run ops, .txDone)
          ∧ step (run ops) (.rollback i drv) = (run ops, .ok)))
    ∧ (Spec.Plain (run ops) i →
      step (run ops) (.commit i drv) = (run ops, .noTransaction) ∧ step (run ops) (.rollback i drv) = (run ops, .noTransaction)) := by
  have h := inv_run ops
  generalize run ops = w at h
  constructor
  · rintro t ⟨p, hp, ht⟩
    have hlt := (h.tx_lt p (List.mem_of_getElem? hp) t ht).1
    have hi := h.done_iff t hlt
    refine ⟨by simp [step, hp, beginTx, ht], ?_, ?_⟩
    · intro hne
      have hd : ¬ w.done.getD t true = true := fun hh => hne (hi.1 hh)
      refine ⟨?_, ?_, ?_⟩
      · simp [step, hp, exec, ht, -List.getD_eq_getElem?_getD, hd]
      · simp [step, hp, commit, ht, txCommit, -List.getD_eq_getElem?_getD, hd]
      · simp only [step, hp, rollback, ht, txRollback, if_neg hd]; cases drv <;> exact ⟨rfl, rfl⟩
    · intro he
      have hd := hi.2 he
      refine ⟨?_, ?_, ?_⟩
      · simp only [step, hp, exec, ht, if_pos hd]
      · simp only [step, hp, commit, ht, txCommit, if_pos hd]
      · simp only [step, hp, rollback, ht, txRollback, if_pos hd]
  · rintro ⟨p, hp, ht⟩
    exact ⟨by simp only [step, hp, commit, ht], by simp only [step, hp, rollback, ht]⟩

/-! ### C50 -/

/-- C50 (transaction providers): `Close` of a transaction's provider leaves the transaction ended: it rolls it back if it was open, and
does nothing if it had ended; it never closes the connection, and closing again does nothing. -/
theorem C50_close_transaction (ops : List Op) (i t : Nat) (drv : Bool) (hi : Spec.TxOf (run ops) i t) :
    Spec.Ended (run (ops ++ [.close i drv])).trace t
    ∧ (¬ Spec.Ended (run ops).trace t → (run (ops ++ [.close i drv])).trace = (run ops).trace ++ [.rollback t drv])
    ∧ (Spec.Ended (run ops).trace t → step (run ops) (.close i drv) = (run ops, .ok))
    ∧ (run (ops ++ [.close i drv])).closed = (run ops).closed
    ∧ ∀ drv', step (run (ops ++ [.close i drv])) (.close i drv') = (run (ops ++ [.close i drv]), .ok) := by
  have hrun : run (ops ++ [.close i drv]) = (step (run ops) (.close i drv)).1 := by simp [run]
  have h := inv_run ops
  rw [hrun]
  generalize run ops = w at h hi
  obtain ⟨p, hp, ht⟩ := hi
  obtain ⟨hlt, hconn⟩ := h.tx_lt p (List.mem_of_getElem? hp) t ht
  have hdi := h.done_iff t hlt
  have hcl : ∀ (w : World) drv, w.provs[i]? = some p → step w (.close i drv) = rollback w p drv := by
    intro w drv hp
    simp [step, hp, close, hconn, ht]
  rw [hcl w drv hp]
  by_cases hd : w.done.getD t true = true
  · have hr : ∀ drv, rollback w p drv = (w, .ok) := by intro drv; simp only [rollback, ht, txRollback, if_pos hd]
    rw [hr]
    refine ⟨hdi.1 hd, fun hn => absurd (hdi.1 hd) hn, fun _ => rfl, rfl, fun drv' => ?_⟩
    rw [hcl w drv' hp, hr]
  · have hr : (rollback w p drv).1 = { w with done := w.done.set t true, trace := w.trace ++ [.rollback t drv] } := by
      rw [rollback_fst w p t drv ht]; simp only [txRollback, if_neg hd]
    rw [hr]
    refine ⟨⟨.rollback t drv, by simp, rfl⟩, fun _ => rfl, fun hn => absurd (hdi.2 hn) hd, rfl, fun drv' => ?_⟩
    have hcl2 := hcl { w with done := w.done.set t true, trace := w.trace ++ [.rollback t drv] } drv' hp
    rw [hcl2]
    simp only [rollback, ht, txRollback]
    rw [if_pos (by simp [List.getD_eq_getElem?_getD, hlt])]

/-- A plain provider that has been closed successfully stays so. -/
theorem conn_false_step (w : World) (o : Op) (i : Nat) (h : w.provs[i]? = some ⟨none, false⟩) :
    (step w o).1.provs[i]? = some ⟨none, false⟩ := by
  have happ : ∀ (x : SQLProvider), (w.provs ++ [x])[i]? = some ⟨none, false⟩ := by
    intro x; rw [List.getElem?_append_left (List.getElem?_eq_some_iff.1 h).1]; exact h
  have hrb : ∀ u drv, (txRollback w u drv).1.provs = w.provs := by intro u drv; unfold txRollback; split <;> rfl
  cases o with
  | new => exact happ _
  | cancel u => simp only [step, hrb]; exact h
  | begin k opts drv =>
    simp only [step]
    cases hk : w.provs[k]? with
    | none => exact h
    | some r =>
      simp only [beginTx]
      cases r.tx with
      | some u => exact h
      | none =>
        dsimp only
        split
        · exact h
        · split
          · exact h
          · split
            · exact h
            · exact happ _
  | exec k stmt drv =>
    simp only [step]
    cases hk : w.provs[k]? with
    | none => exact h
    | some r =>
      simp only [exec]
      cases r.tx with
      | some u => dsimp only; split <;> exact h
      | none => dsimp only; split <;> exact h
  | commit k drv =>
    simp only [step]
    cases hk : w.provs[k]? with
    | none => exact h
    | some r =>
      simp only [commit]
      cases r.tx with
      | none => exact h
      | some u => dsimp only; unfold txCommit; split <;> exact h
  | rollback k drv =>
    simp only [step]
    cases hk : w.provs[k]? with
    | none => exact h
    | some r =>
      cases hr : r.tx with
      | none => simp only [rollback, hr]; exact h
      | some u => dsimp only; rw [rollback_fst w r u drv hr, hrb]; exact h
  | close k drv =>
    simp only [step]
    cases hk : w.provs[k]? with
    | none => exact h
    | some r =>
      simp only [close]
      split
      · exact h
      · rename_i hc
        cases hr : r.tx with
        | some u => dsimp only; rw [rollback_fst w r u drv hr, hrb]; exact h
        | none =>
          have hki : k ≠ i := by rintro rfl; rw [h] at hk; cases hk; simp at hc
          have hdb : (dbClose w drv).1.provs = w.provs := by unfold dbClose; split <;> rfl
          dsimp only
          split
          · rename_i w' heq
            have hw' : w'.provs = w.provs := by rw [← hdb, heq]
            simp only [hw']
            rw [List.getElem?_set_ne hki]; exact h
          · rw [hdb]; exact h

theorem conn_false_run (w : World) (ops : List Op) (i : Nat) (h : w.provs[i]? = some ⟨none, false⟩) :
    (ops.foldl (fun w o => (step w o).1) w).provs[i]? = some ⟨none, false⟩ := by
  induction ops generalizing w with
  | nil => exact h
  | cons o os ih => exact ih _ (conn_false_step w o i h)

theorem close_ok_conn (w : World) (i : Nat) (drv : Bool) (hp : Spec.Plain w i) (hok : (step w (.close i drv)).2 = .ok) :
    (step w (.close i drv)).1.provs[i]? = some ⟨none, false⟩ := by
  obtain ⟨p, hp, ht⟩ := hp
  obtain ⟨tx, conn⟩ := p
  simp only at ht
  subst ht
  have hlt := (List.getElem?_eq_some_iff.1 hp).1
  simp only [step, hp, close] at hok ⊢
  cases conn with
  | false => simpa using hp
  | true =>
    have hdb : (dbClose w drv).1.provs = w.provs := by unfold dbClose; split <;> rfl
    simp only [Bool.not_true, Bool.false_eq_true, if_false] at hok ⊢
    split at hok
    · rename_i w' heq
      have hw' : w'.provs = w.provs := by rw [← hdb, heq]
      simp only [heq, hw']
      simp [hlt]
    · rename_i hn
      exact absurd (Prod.ext rfl hok : dbClose w drv = ((dbClose w drv).1, Res.ok)) (hn _)

theorem close_closes (w : World) (i : Nat) (drv : Bool) (p : SQLProvider) (hp : w.provs[i]? = some p) (ht : p.tx = none)
    (hc : p.conn = true) (hw : w.closed = false) :
    (step w (.close i drv)).1.closed = true ∧ (step w (.close i drv)).1.trace = w.trace ++ [.close drv]
    ∧ (step w (.close i drv)).2 = (if drv then .ok else .driver) := by
  simp only [step, hp, close, hc, ht, dbClose, hw]
  cases drv <;> exact ⟨rfl, rfl, rfl⟩

/-- The connection is closed iff the trace says so, and the trace says so at most once. -/
theorem closed_inv (ops : List Op) :
    ((run ops).closed = true ↔ ∃ b, Ev.close b ∈ (run ops).trace)
    ∧ ((run ops).trace.filter (fun e => match e with | .close _ => true | _ => false)).length ≤ 1 := by
  have key : ∀ w o, ((w.closed = true ↔ ∃ b, Ev.close b ∈ w.trace)
      ∧ (w.trace.filter (fun e => match e with | .close _ => true | _ => false)).length ≤ 1) →
      (((step w o).1.closed = true ↔ ∃ b, Ev.close b ∈ (step w o).1.trace)
      ∧ ((step w o).1.trace.filter (fun e => match e with | .close _ => true | _ => false)).length ≤ 1) := by
    intro w o h
    have snoc : ∀ (w' : World) e, w'.closed = w.closed → w'.trace = w.trace ++ [e] → (∀ b, e ≠ Ev.close b) →
        ((w'.closed = true ↔ ∃ b, Ev.close b ∈ w'.trace)
        ∧ (w'.trace.filter (fun e => match e with | .close _ => true | _ => false)).length ≤ 1) := by
      intro w' e h1 h2 h3
      rw [h1, h2]
      constructor
      · rw [h.1]
        constructor
        · rintro ⟨b, hb⟩; exact ⟨b, List.mem_append_left _ hb⟩
        · rintro ⟨b, hb⟩
          rw [List.mem_append, List.mem_singleton] at hb
          rcases hb with hb | hb
          · exact ⟨b, hb⟩
          · exact absurd hb.symm (h3 b)
      · rw [List.filter_append]
        cases e with
        | close b => exact absurd rfl (h3 b)
        | _ => simpa using h.2
    have hrb : ∀ u drv, (((txRollback w u drv).1.closed = true ↔ ∃ b, Ev.close b ∈ (txRollback w u drv).1.trace)
        ∧ ((txRollback w u drv).1.trace.filter (fun e => match e with | .close _ => true | _ => false)).length ≤ 1) := by
      intro u drv; unfold txRollback; split
      · exact h
      · exact snoc _ _ rfl rfl (fun b hb => by cases hb)
    cases o with
    | new => exact h
    | cancel u => exact hrb u true
    | begin k opts drv =>
      simp only [step]
      cases hk : w.provs[k]? with
      | none => exact h
      | some r =>
        simp only [beginTx]
        cases r.tx with
        | some u => exact h
        | none =>
          dsimp only
          split
          · exact h
          · split
            · exact h
            · split
              · exact h
              · exact snoc _ _ rfl rfl (fun b hb => by cases hb)
    | exec k stmt drv =>
      simp only [step]
      cases hk : w.provs[k]? with
      | none => exact h
      | some r =>
        simp only [exec]
        cases r.tx with
        | some u =>
          dsimp only; split
          · exact h
          · exact snoc _ _ rfl rfl (fun b hb => by cases hb)
        | none =>
          dsimp only; split
          · exact h
          · exact snoc _ _ rfl rfl (fun b hb => by cases hb)
    | commit k drv =>
      simp only [step]
      cases hk : w.provs[k]? with
      | none => exact h
      | some r =>
        simp only [commit]
        cases r.tx with
        | none => exact h
        | some u =>
          dsimp only; unfold txCommit; split
          · exact h
          · exact snoc _ _ rfl rfl (fun b hb => by cases hb)
    | rollback k drv =>
      simp only [step]
      cases hk : w.provs[k]? with
      | none => exact h
      | some r =>
        cases hr : r.tx with
        | none => simp only [rollback, hr]; exact h
        | some u => dsimp only; rw [rollback_fst w r u drv hr]; exact hrb u drv
    | close k drv =>
      simp only [step]
      cases hk : w.provs[k]? with
      | none => exact h
      | some r =>
        simp only [close]
        split
        · exact h
        · cases hr : r.tx with
          | some u => dsimp only; rw [rollback_fst w r u drv hr]; exact hrb u drv
          | none =>
            dsimp only
            unfold dbClose
            by_cases hc : w.closed = true
            · simp only [hc, if_true]
              simpa [hc] using h
            · simp only [hc]
              have hno : w.trace.filter (fun e => match e with | .close _ => true | _ => false) = [] := by
                rw [List.filter_eq_nil_iff]
                intro e he
                cases e with
                | close b => exact absurd (h.1.2 ⟨b, he⟩) hc
                | _ => simp
              cases drv
              · refine ⟨⟨fun _ => ⟨false, by simp⟩, fun _ => rfl⟩, ?_⟩
                simp only [Bool.false_eq_true, if_false, List.filter_append, hno]
                simp
              · refine ⟨⟨fun _ => ⟨true, by simp⟩, fun _ => rfl⟩, ?_⟩
                simp only [Bool.false_eq_true, if_false, if_true, List.filter_append, hno]
                simp
  unfold run
  suffices hh : ∀ w, ((w.closed = true ↔ ∃ b, Ev.close b ∈ w.trace)
      ∧ (w.trace.filter (fun e => match e with | .close _ => true | _ => false)).length ≤ 1) →
      (((ops.foldl (fun w o => (step w o).1) w).closed = true ↔ ∃ b, Ev.close b ∈ (ops.foldl (fun w o => (step w o).1) w).trace)
      ∧ ((ops.foldl (fun w o => (step w o).1) w).trace.filter (fun e => match e with | .close _ => true | _ => false)).length ≤ 1) from
    hh World.init (by simp [World.init])
  induction ops with
  | nil => exact fun w h => h
  | cons o os ih => exact fun w h => ih _ (key w o h)

/-- A provider whose connection field is nil was closed. -/
theorem conn_closed (ops : List Op) (i : Nat) (p : SQLProvider) (hp : (run ops).provs[i]? = some p) (hc : p.conn = false)
    (hcl : (run ops).closed = false) : False := by
  have key : ∀ w o, (∀ q ∈ w.provs, q.conn = false → w.closed = true) → ∀ q ∈ (step w o).1.provs, q.conn = false → (step w o).1.closed = true := by
    intro w o h
    have hrb : ∀ u drv, ∀ q ∈ (txRollback w u drv).1.provs, q.conn = false → (txRollback w u drv).1.closed = true := by
      intro u drv; unfold txRollback; split <;> exact h
    have happ : ∀ x : SQLProvider, x.conn = true → ∀ q ∈ w.provs ++ [x], q.conn = false → w.closed = true := by
      intro x hx q hq hqc
      rw [List.mem_append, List.mem_singleton] at hq
      rcases hq with hq | rfl
      · exact h q hq hqc
      · rw [hx] at hqc; cases hqc
    cases o with
    | new => exact happ _ rfl
    | cancel u => exact hrb u true
    | begin k opts drv =>
      simp only [step]
      cases hk : w.provs[k]? with
      | none => exact h
      | some r =>
        simp only [beginTx]
        cases r.tx with
        | some u => exact h
        | none =>
          dsimp only
          split
          · exact h
          · rename_i hrc
            split
            · exact h
            · split
              · exact h
              · exact happ _ (by simpa using hrc)
    | exec k stmt drv =>
      simp only [step]
      cases hk : w.provs[k]? with
      | none => exact h
      | some r =>
        simp only [exec]
        cases r.tx with
        | some u => dsimp only; split <;> exact h
        | none => dsimp only; split <;> exact h
    | commit k drv =>
      simp only [step]
      cases hk : w.provs[k]? with
      | none => exact h
      | some r =>
        simp only [commit]
        cases r.tx with
        | none => exact h
        | some u => dsimp only; unfold txCommit; split <;> exact h
    | rollback k drv =>
      simp only [step]
      cases hk : w.provs[k]? with
      | none => exact h
      | some r =>
        cases hr : r.tx with
        | none => simp only [rollback, hr]; exact h
        | some u => dsimp only; rw [rollback_fst w r u drv hr]; exact hrb u drv
    | close k drv =>
      simp only [step]
      cases hk : w.provs[k]? with
      | none => exact h
      | some r =>
        simp only [close]
        split
        · exact h
        · cases hr : r.tx with
          | some u => dsimp only; rw [rollback_fst w r u drv hr]; exact hrb u drv
          | none =>
            have hdb : (dbClose w drv).1.closed = true := by
              unfold dbClose; split
              · assumption
              · rfl
            dsimp only
            split
            · rename_i w' heq
              intro q _ _
              show w'.closed = true
              rw [heq] at hdb; exact hdb
            · intro q _ _; exact hdb
  have hall : ∀ (w : World), (∀ q ∈ w.provs, q.conn = false → w.closed = true) →
      ∀ q ∈ (ops.foldl (fun w o => (step w o).1) w).provs, q.conn = false → (ops.foldl (fun w o => (step w o).1) w).closed = true := by
    clear hp hcl
    induction ops with
    | nil => exact fun w h => h
    | cons o os ih => exact fun w h => ih _ (key w o h)
  have := hall World.init (by simp [World.init]) p (List.mem_of_getElem? hp) hc
  have h2 : (run ops).closed = true := this
  rw [hcl] at h2
  cases h2

/-- C50 (plain providers): in every history the connection is closed at most once; the first `Close` of a plain provider of an open
connection closes it and reports the driver's answer; a failed `Close` can be repeated and then succeeds; after a successful `Close`,
whatever happened since, `Close` succeeds without effect. -/
theorem C50_close_connection (ops more : List Op) (i : Nat) (drv drv' : Bool) (hi : Spec.Plain (run ops) i) :
    ((run ops).trace.filter (fun e => match e with | .close _ => true | _ => false)).length ≤ 1
    ∧ ((∀ b, Ev.close b ∉ (run ops).trace) → (step (run ops) (.close i drv)).2 = (if drv then .ok else .driver)
        ∧ (run (ops ++ [.close i drv])).trace = (run ops).trace ++ [.close drv])
    ∧ ((step (run ops) (.close i drv)).2 = .driver → (step (run (ops ++ [.close i drv])) (.close i drv')).2 = .ok)
    ∧ ((step (run ops) (.close i drv)).2 = .ok →
        step (run (ops ++ [.close i drv] ++ more)) (.close i drv') = (run (ops ++ [.close i drv] ++ more), .ok)) := by
  have hrun : run (ops ++ [.close i drv]) = (step (run ops) (.close i drv)).1 := by simp [run]
  have hrun2 : run (ops ++ [.close i drv] ++ more) = more.foldl (fun w o => (step w o).1) (step (run ops) (.close i drv)).1 := by
    simp [run]
  obtain ⟨hc1, hc2⟩ := closed_inv ops
  rw [hrun, hrun2]
  refine ⟨hc2, ?_, ?_, ?_⟩
  · intro hno
    have hcl : (run ops).closed = false := by
      cases hx : (run ops).closed with
      | false => rfl
      | true => obtain ⟨b, hb⟩ := hc1.1 hx; exact absurd hb (hno b)
    obtain ⟨p, hp, ht⟩ := hi
    have hconn : p.conn = true := by
      cases hx : p.conn with
      | true => rfl
      | false =>
        exfalso
        exact conn_closed ops i p hp hx hcl
    obtain ⟨-, h2, h3⟩ := close_closes _ i drv p hp ht hconn hcl
    exact ⟨h3, h2⟩
  · intro hd
    obtain ⟨p, hp, ht⟩ := hi
    simp only [step, hp, close] at hd
    split at hd
    · cases hd
    · rename_i hconn
      have hconn : p.conn = true := by simpa using hconn
      simp only [ht] at hd
      have hw : (run ops).closed = false := by
        cases hx : (run ops).closed with
        | false => rfl
        | true => simp [dbClose, hx] at hd
      have hdrv : drv = false := by
        cases drv with
        | false => rfl
        | true => simp [dbClose, hw] at hd
      subst hdrv
      have hst : step (run ops) (.close i false) = ({ run ops with closed := true, trace := (run ops).trace ++ [.close false] }, .driver) := by
        simp only [step, hp, close, hconn, ht, dbClose, hw]; rfl
      rw [hst]
      simp only [step, hp, close, hconn, ht, dbClose]
      rfl
  · intro hok
    have := conn_false_run _ more i (close_ok_conn _ i drv hi hok)
    generalize List.foldl _ _ more = w2 at this
    simp only [step, this, close]
    rfl

/-! ### C64, C65 -/

/-- C64 fails: a successful `BeginTx` starts the transaction with the default isolation level and read-write, whatever options were
asked for. -/
theorem C64_options_ignored (ops : List Op) (i j : Nat) (opts : TxOptions) (drv : Bool)
    (h : (step (run ops) (.begin i opts drv)).2 = .provider j) :
    ∃ t, (step (run ops) (.begin i opts drv)).1.trace = (run ops).trace ++ [.begin t ⟨0, false⟩] := by
  generalize run ops = w at h
  simp only [step] at h ⊢
  cases hp : w.provs[i]? with
  | none => rw [hp] at h; cases h
  | some p =>
    rw [hp] at h
    simp only [beginTx] at h ⊢
    cases ht : p.tx with
    | some u => rw [ht] at h; cases h
    | none =>
      rw [ht] at h
      simp only at h ⊢
      split at h
      · cases h
      · split at h
        · cases h
        · split at h
          · cases h
          · rename_i h1 h2 h3
            simp only [if_neg h1, if_neg h2, if_neg h3]
            exact ⟨_, rfl⟩

/-- C64 (partial): when the defaults are asked for (or `nil`), the transaction has them. Missing: any other options. -/
theorem C64_default_options_partial (ops : List Op) (i j : Nat) (opts : TxOptions) (drv : Bool)
    (hd : opts = ⟨0, false⟩) (h : (step (run ops) (.begin i opts drv)).2 = .provider j) :
    ∃ t, (step (run ops) (.begin i opts drv)).1.trace = (run ops).trace ++ [.begin t opts] := by
  obtain ⟨t, ht⟩ := C64_options_ignored ops i j opts drv h
  exact ⟨t, by rw [ht, hd]⟩

/-- The state after a successful `Close` of a plain provider and anything that follows. -/
theorem after_close (ops more : List Op) (i : Nat) (drv : Bool) (hi : Spec.Plain (run ops) i)
    (hok : (step (run ops) (.close i drv)).2 = .ok) :
    (run (ops ++ [.close i drv] ++ more)).provs[i]? = some ⟨none, false⟩ ∧ (run (ops ++ [.close i drv] ++ more)).closed = true := by
  have hrun2 : run (ops ++ [.close i drv] ++ more) = more.foldl (fun w o => (step w o).1) (step (run ops) (.close i drv)).1 := by
    simp [run]
  have h1 : (run (ops ++ [.close i drv] ++ more)).provs[i]? = some ⟨none, false⟩ := by
    rw [hrun2]; exact conn_false_run _ more i (close_ok_conn _ i drv hi hok)
  refine ⟨h1, ?_⟩
  cases hx : (run (ops ++ [.close i drv] ++ more)).closed with
  | true => rfl
  | false => exact (conn_closed _ i _ h1 rfl hx).elim

/-- C65 (partial): once a plain provider has been closed, statements, `Commit` and `Rollback` through it fail with an error and reach
nothing, whatever happens in between. Missing: `BeginTx` does not return an error, see `C65_begin_after_close_panics`. -/
theorem C65_closed_provider_fails_partial (ops more : List Op) (i : Nat) (drv drv' : Bool) (stmt : Bytes)
    (hi : Spec.Plain (run ops) i) (hok : (step (run ops) (.close i drv)).2 = .ok) :
    step (run (ops ++ [.close i drv] ++ more)) (.exec i stmt drv') = (run (ops ++ [.close i drv] ++ more), .dbClosed)
    ∧ step (run (ops ++ [.close i drv] ++ more)) (.commit i drv') = (run (ops ++ [.close i drv] ++ more), .noTransaction)
    ∧ step (run (ops ++ [.close i drv] ++ more)) (.rollback i drv') = (run (ops ++ [.close i drv] ++ more), .noTransaction) := by
  obtain ⟨h1, h2⟩ := after_close ops more i drv hi hok
  generalize run (ops ++ [.close i drv] ++ more) = w at h1 h2
  exact ⟨by simp [step, h1, exec, h2], by simp [step, h1, commit], by simp [step, h1, rollback]⟩

/-- C65 fails for `BeginTx`: on a closed provider it dereferences a nil pointer. -/
theorem C65_begin_after_close_panics (ops more : List Op) (i : Nat) (drv drv' : Bool) (opts : TxOptions)
    (hi : Spec.Plain (run ops) i) (hok : (step (run ops) (.close i drv)).2 = .ok) :
    (step (run (ops ++ [.close i drv] ++ more)) (.begin i opts drv')).2 = .panic := by
  obtain ⟨h1, -⟩ := after_close ops more i drv hi hok
  generalize run (ops ++ [.close i drv] ++ more) = w at h1
  simp [step, h1, beginTx]

/-! Concrete histories. -/

def exOps : List Op := [.new, .begin 0 ⟨4, true⟩ true, .exec 1 b!"INSERT" true, .exec 0 b!"SELECT" true]
example : (run exOps).trace = [.begin 0 ⟨0, false⟩, .exec (some 0) b!"INSERT", .exec none b!"SELECT"] := by decide
example : Spec.TxOf (run exOps) 1 0 := ⟨⟨some 0, true⟩, by decide, rfl⟩
example : Spec.Plain (run exOps) 0 := ⟨⟨none, true⟩, by decide, rfl⟩
example : ¬ Spec.Ended (run exOps).trace 0 := by
  rintro ⟨e, he, hx⟩
  have : (run exOps).trace = [.begin 0 ⟨0, false⟩, .exec (some 0) b!"INSERT", .exec none b!"SELECT"] := by decide
  rw [this] at he
  simp at he
  rcases he with rfl | rfl | rfl <;> exact hx
example : Spec.Ended (run (exOps ++ [.commit 1 false])).trace 0 := ⟨.commit 0 false, by decide, rfl⟩
example : (step (run exOps) (.begin 0 ⟨4, true⟩ true)).2 = .provider 2 := by decide
example : (step (run exOps) (.close 0 true)).2 = .ok ∧ (step (run exOps) (.close 0 false)).2 = .driver := by decide

end Prov
