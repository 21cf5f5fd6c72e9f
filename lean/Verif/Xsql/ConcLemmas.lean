import Verif.Xsql.ConcSpec
import Verif.Xsql.WorldProps
set_option linter.unusedSimpArgs false
set_option linter.unusedVariables false
namespace Xsql
variable {α : Type}

/-! ### A goroutine's program and its run alone -/

/-- Not an operation that is split into steps or changes a setting. -/
def Op.single : Op α → Prop
  | .str _ | .embed .. | .newLines .. => False
  | _ => True

/-- The next step is not in the middle of a `String()` or an embedding. -/
def AtRest : List (Micro α) → Prop
  | .store .. :: _ | .join .. :: _ => False
  | _ => True

/-- The variables a step mentions. -/
def Micro.mentions : Micro α → List Nat
  | .op o => o.mentions
  | .load h | .store h _ => [h]
  | .detach h g | .join h g _ => [h, g]
  | .lookup .. => []

def mentions (ms : List (Micro α)) : List Nat := ms.flatMap Micro.mentions

/-- The state alone after a rendering. -/
def World.aloneLoad (v : World α) (h : Nat) : World α := match v.live h with
  | some q => v.set h (some { q with sql := q.render })
  | none => v

/-- What a rendering gives alone. -/
def World.useSeen (v : World α) (h : Nat) (u : Use) : List (Seen α) := match v.live h with
  | some q => u.seen q.render q
  | none => []

/-- The state alone after the end of an embedding. -/
def World.aloneJoin (v : World α) (h g : Nat) (e : Embed) : World α := match v.live h, v.live g with
  | some q, some p => ((v.set h (some (q.call (e.toCall p.render p.args)))).set g none).reuse p
  | _, _ => v

/-- Steps with what the goroutine is supposed to get back, from the state it would have alone. -/
inductive Good (E : Dia × Bytes × Bytes → Prop) : World α → (Nat → Bool) → List (Micro α) → List (Seen α) → Prop where
  | nil {v kn} : Good E v kn [] []
  | op {v kn o ms outs} (h1 : o.single) (h2 : o.sound = true) (h3 : o.posOK kn = true) (h4 : ∀ e ∈ puts [o], E e) (h5 : AtRest ms)
      (h : Good E (v.aloneOp o) (o.known kn) ms outs) : Good E v kn (.op o :: ms) outs
  | load {v kn h u ms outs} (h1 : ∀ q, v.live h = some q → E (q.dialect, q.key, q.render))
      (h2 : Good E (v.aloneLoad h) kn (.store h u :: ms) outs) : Good E v kn (.load h :: .store h u :: ms) outs
  | store {v kn h u ms outs} (h1 : ∀ q, v.live h = some q → E (q.dialect, q.key, q.render)) (h2 : AtRest ms)
      (h3 : Good E v kn ms outs) : Good E v kn (.store h u :: ms) (v.useSeen h u ++ outs)
  | storeIn {v kn h g e ms outs} (h1 : ∀ q, v.live g = some q → E (q.dialect, q.key, q.render))
      (h3 : Good E v kn (.join h g e :: ms) outs) : Good E v kn (.store g .inside :: .join h g e :: ms) outs
  | detach {v kn h g ms outs q p} (hne : h ≠ g) (h1 : v.live h = some q) (h2 : v.live g = some p) (h3 : AtRest ms)
      (h4 : Good E (v.set g (some p.noDialect)) kn ms outs) : Good E v kn (.detach h g :: ms) outs
  | detachNot {v kn h g a b c ms outs} (h1 : h = g ∨ v.live h = none ∨ v.live g = none) (h3 : AtRest ms)
      (h4 : Good E v kn ms outs) : Good E v kn (.detach h g :: a :: b :: c :: ms) outs
  | join {v kn h g e ms outs q p} (hne : h ≠ g) (hq : v.live h = some q) (hp : v.live g = some p) (h1 : !(e.toCall [] ([] : List Unit)).usesPos || kn h) (hs : (Op.embed h g e : Op α).sound = true) (h3 : AtRest ms)
      (h4 : Good E (v.aloneJoin h g e) kn ms outs) : Good E v kn (.join h g e :: ms) outs
  | lookup {v v' kn kn' d name n ms s outs} (h1 : E (d, name, s)) (h2 : AtRest ms) (h3 : AtRest (ms.drop n))
      (h4 : Good E v kn ms (.query s :: outs)) (h5 : Good E v' kn' (ms.drop n) outs)
      (h6 : ∀ x ∈ mentions (ms.drop n), v'.live x = v.live x ∧ kn' x = kn x) (h7 : v'.newLines = v.newLines) :
      Good E v kn (.lookup d name n :: ms) (.query s :: outs)

/-! ### Similar statements -/

/-- The same statement up to memo, and current clause if that is not known. -/
structure Same (k : Bool) (q p : Stmt α) : Prop where
  sim : Sim q p
  name : q.name = p.name
  pos : k = true → q.pos = p.pos

/-- The same content of a variable. -/
def VarSame (k : Bool) : Option (Stmt α) → Option (Stmt α) → Prop
  | some q, some p => Same k q p
  | none, none => True
  | _, _ => False

theorem VarSame.refl (k : Bool) (q : Option (Stmt α)) : VarSame k q q := by
  cases q with
  | none => trivial
  | some q => exact ⟨Sim.refl q, rfl, fun _ => rfl⟩

theorem VarSame.some_left {k : Bool} {q : Stmt α} {b : Option (Stmt α)} (h : VarSame k (some q) b) : ∃ p, b = some p ∧ Same k q p := by
  cases b with
  | none => exact h.elim
  | some p => exact ⟨p, rfl, h⟩

theorem VarSame.none_left {k : Bool} {b : Option (Stmt α)} (h : VarSame k none b) : b = none := by
  cases b with
  | none => rfl
  | some p => exact h.elim

theorem Same.key {k : Bool} {q p : Stmt α} (h : Same k q p) : q.key = p.key := by unfold Stmt.key; rw [h.name, h.sim.buf]

theorem Same.noDialect {k : Bool} {q p : Stmt α} (h : Same k q p) : Same k q.noDialect p.noDialect := by
  unfold Stmt.noDialect
  rw [h.sim.dialect]
  split
  · exact h
  · exact ⟨⟨h.sim.buf, h.sim.chunks, h.sim.args, h.sim.dest, rfl, h.sim.nl⟩, h.name, h.pos⟩

theorem Same.sql {k : Bool} {q p : Stmt α} (h : Same k q p) (a b : Bytes) : Same k { q with sql := a } { p with sql := b } :=
  ⟨⟨h.sim.buf, h.sim.chunks, h.sim.args, h.sim.dest, h.sim.dialect, h.sim.nl⟩, h.name, h.pos⟩

theorem call_name (q : Stmt α) (c : Call α) : (q.call c).name = q.name := by
  have ha : ∀ (q : Stmt α) p kw e as sep, (q.addChunk p kw e as sep).1.name = q.name := by
    intro q p kw e as sep
    obtain ⟨n, d, ps, cs, b, s, a, de, nl⟩ := q
    unfold Stmt.addChunk Stmt.invalidate
    cases hl : (headUpTo p cs).getLast? with
    | none => simp only [hl, newChunk_eq]
    | some c =>
      simp only [hl]
      split
      · split
        · rfl
        · split
          · rfl
          · simp only [newChunk_false, Stmt.write]
      · simp only [newChunk_eq]
  have hb : ∀ (q : Stmt α) p kw e as sep, (q.add p kw e as sep).name = q.name := fun q p kw e as sep => ha q p kw e as sep
  have hs : ∀ (q : Stmt α) pre suf sub as, (q.subQuery pre suf sub as).name = q.name := by
    intro q pre suf sub as
    unfold Stmt.subQuery
    simp only [Stmt.write, ha]
  cases c <;> simp only [Stmt.call, Stmt.verb, Stmt.select, Stmt.returning, Stmt.update, Stmt.deleteFrom, Stmt.from_, Stmt.where_, Stmt.in_, Stmt.join,
    Stmt.orderBy, Stmt.groupBy, Stmt.having, Stmt.limit, Stmt.offset, Stmt.to, Stmt.insertInto, Stmt.setExpr, Stmt.expr, Stmt.clause, Stmt.newRow,
    Stmt.rowSetExpr, Stmt.with_, Stmt.union, hb, hs] <;>
    (repeat' split) <;> simp [hb, hs, ha, Stmt.write]

theorem Same.call {k : Bool} {q p : Stmt α} (h : Same k q p) (c : Call α) (hp : (!c.usesPos || k) = true) : Same (c.setsPos || k) (q.call c) (p.call c) := by
  have := call_sim h.sim c (fun hu => h.pos (by simpa [hu] using hp))
  refine ⟨this.1, by rw [call_name, call_name, h.name], fun hk => this.2 ?_⟩
  rcases Bool.or_eq_true _ _ ▸ hk with hk | hk
  · exact .inl hk
  · exact .inr (h.pos hk)

theorem Same.weaken {k k' : Bool} {q p : Stmt α} (h : Same k q p) (hk : k' = true → k = true) : Same k' q p := ⟨h.sim, h.name, fun e => h.pos (hk e)⟩

end Xsql
