import Verif.Xsql.WorldLemmas
set_option linter.unusedSimpArgs false
set_option linter.unusedVariables false
namespace Xsql
variable {α : Type}

/-- The same statement except for name, memo and current clause. -/
structure Sim (q q' : Stmt α) : Prop where
  buf : q.buf = q'.buf
  chunks : q.chunks = q'.chunks
  args : q.args = q'.args
  dest : q.dest = q'.dest
  dialect : q.dialect = q'.dialect
  nl : q.useNewLines = q'.useNewLines

theorem Sim.render {q q' : Stmt α} (h : Sim q q') : q.render = q'.render := render_congr h.dialect h.buf h.chunks

theorem Sim.refl (q : Stmt α) : Sim q q := ⟨rfl, rfl, rfl, rfl, rfl, rfl⟩

theorem sim_pos {q q' : Stmt α} (h : Sim q q') (p : Nat) : Sim { q with pos := p } { q' with pos := p } ∧ ({ q with pos := p } : Stmt α).pos = ({ q' with pos := p } : Stmt α).pos :=
  ⟨⟨h.buf, h.chunks, h.args, h.dest, h.dialect, h.nl⟩, rfl⟩

theorem addChunk_sim {q q' : Stmt α} (h : Sim q q') (p : Nat) (kw e : Bytes) (as : List α) (sep : Bytes) :
    Sim (q.addChunk p kw e as sep).1 (q'.addChunk p kw e as sep).1 ∧ (q.addChunk p kw e as sep).1.pos = p ∧
    (q'.addChunk p kw e as sep).1.pos = p ∧ (q.addChunk p kw e as sep).2 = (q'.addChunk p kw e as sep).2 := by
  obtain ⟨n, d, ps, cs, b, s, a, de, nl⟩ := q
  obtain ⟨n', d', ps', cs', b', s', a', de', nl'⟩ := q'
  obtain ⟨h1, h2, h3, h4, h5, h6⟩ := h
  simp only at h1 h2 h3 h4 h5 h6
  subst h1 h2 h3 h4 h5 h6
  unfold Stmt.addChunk Stmt.invalidate
  cases hl : (headUpTo p cs).getLast? with
  | none => simp only [hl, newChunk_eq]; exact ⟨⟨rfl, rfl, rfl, rfl, rfl, rfl⟩, by simp⟩
  | some c =>
    simp only [hl]
    split
    · split
      · exact ⟨⟨rfl, rfl, rfl, rfl, rfl, rfl⟩, by simp⟩
      · split
        · exact ⟨⟨rfl, rfl, rfl, rfl, rfl, rfl⟩, by simp [Stmt.write]⟩
        · simp only [newChunk_false, Stmt.write]; exact ⟨⟨rfl, rfl, rfl, rfl, rfl, rfl⟩, by simp⟩
    · simp only [newChunk_eq]; exact ⟨⟨rfl, rfl, rfl, rfl, rfl, rfl⟩, by simp⟩

theorem add_sim {q q' : Stmt α} (h : Sim q q') (p : Nat) (kw e : Bytes) (as : List α) (sep : Bytes) :
    Sim (q.add p kw e as sep) (q'.add p kw e as sep) ∧ (q.add p kw e as sep).pos = (q'.add p kw e as sep).pos :=
  ⟨(addChunk_sim h p kw e as sep).1, by unfold Stmt.add; rw [(addChunk_sim h p kw e as sep).2.1, (addChunk_sim h p kw e as sep).2.2.1]⟩

theorem insertInto_sim {q q' : Stmt α} (h : Sim q q') (t : Bytes) :
    Sim (q.insertInto t) (q'.insertInto t) ∧ (q.insertInto t).pos = (q'.insertInto t).pos := by
  have h1 := (add_sim h posInsert b!"INSERT INTO" t [] b!", ").1
  have h2 := (add_sim h1 (posInsertFields - 1) b!"(" [] [] []).1
  have h3 := (add_sim h2 (posValues - 1) b!") VALUES (" [] [] []).1
  have h4 := (add_sim h3 (posValues + 1) b!")" [] [] []).1
  unfold Stmt.insertInto
  exact sim_pos h4 posInsertFields

theorem subQuery_sim {q q' : Stmt α} (h : Sim q q') (hp : q.pos = q'.pos) (pre suf sub : Bytes) (as : List α) :
    Sim (q.subQuery pre suf sub as) (q'.subQuery pre suf sub as) ∧ (q.subQuery pre suf sub as).pos = (q'.subQuery pre suf sub as).pos := by
  unfold Stmt.subQuery
  rw [hp]
  obtain ⟨h1, h2, h3, h4⟩ := addChunk_sim h q'.pos [] pre as (if q'.pos = posWhere then b!" AND " else b!", ")
  refine ⟨⟨?_, ?_, h1.args, h1.dest, h1.dialect, h1.nl⟩, ?_⟩
  · simp [Stmt.write, h1.buf]
  · simp [Stmt.write, h1.buf, h1.chunks, h4]
  · show (q.addChunk _ _ _ _ _).1.pos = (q'.addChunk _ _ _ _ _).1.pos
    rw [h2, h3]

theorem union_sim {q q' : Stmt α} (h : Sim q q') (all : Bool) (sub : Bytes) (as : List α) :
    Sim (q.union all sub as) (q'.union all sub as) ∧ (q.union all sub as).pos = (q'.union all sub as).pos := by
  unfold Stmt.union
  rw [h.chunks]
  obtain ⟨h1, h2, h3, h4⟩ := addChunk_sim h (unionPos q'.chunks) (if all then b!"UNION ALL " else b!"UNION ") [] as []
  refine ⟨⟨?_, ?_, h1.args, h1.dest, h1.dialect, h1.nl⟩, ?_⟩
  · simp [Stmt.write, h1.buf]
  · simp [Stmt.write, h1.buf, h1.chunks, h4]
  · show (q.addChunk _ _ _ _ _).1.pos = (q'.addChunk _ _ _ _ _).1.pos
    rw [h2, h3]

/-- Builder calls treat similar statements alike. -/
theorem call_sim {q q' : Stmt α} (h : Sim q q') (c : Call α) (hp : c.usesPos = true → q.pos = q'.pos) :
    Sim (q.call c) (q'.call c) ∧ (c.setsPos = true ∨ q.pos = q'.pos → (q.call c).pos = (q'.call c).pos) := by
  have wrap : ∀ {a b : Stmt α}, Sim a b ∧ a.pos = b.pos → Sim a b ∧ (c.setsPos = true ∨ q.pos = q'.pos → a.pos = b.pos) := fun h => ⟨h.1, fun _ => h.2⟩
  cases c with
  | toDest ds =>
    simp only [Stmt.call, Stmt.to]
    split
    · refine ⟨⟨h.buf, h.chunks, h.args, by simp [h.dest], h.dialect, h.nl⟩, fun hh => ?_⟩
      simpa [Call.setsPos] using hh
    · exact ⟨h, fun hh => by simpa [Call.setsPos] using hh⟩
  | insertInto t =>
    exact wrap (insertInto_sim h t)
  | setExpr f e as =>
    simp only [Stmt.call, Stmt.setExpr, h.chunks]
    split
    · exact wrap (add_sim (add_sim h _ _ _ _ _).1 _ _ _ _ _)
    · split
      · exact wrap (add_sim h _ _ _ _ _)
      · exact ⟨h, fun hh => by simpa [Call.setsPos] using hh⟩
  | expr e as =>
    have := add_sim h q'.pos [] e as b!", "
    refine ⟨?_, fun _ => ?_⟩ <;> simp only [Stmt.call, Stmt.expr, hp rfl]
    · exact this.1
    · exact this.2
  | clause e as =>
    simp only [Stmt.call, Stmt.clause, h.chunks]
    exact wrap (add_sim h _ _ _ _ _)
  | subQuery pre suf s as => exact wrap (subQuery_sim h (hp rfl) pre suf s as)
  | with_ n s as =>
    have h1 := add_sim h posWith b!"WITH" [] [] []
    exact wrap (subQuery_sim h1.1 h1.2 _ _ s as)
  | union all s as => exact wrap (union_sim h all s as)
  | newRow =>
    simp only [Stmt.call, Stmt.newRow, h.chunks]
    split
    · exact ⟨h, fun hh => by simpa [Call.setsPos] using hh⟩
    · exact wrap (add_sim h _ _ _ _ _)
  | rowSetExpr r f e as =>
    simp only [Stmt.call, Stmt.rowSetExpr]
    split
    · exact wrap (add_sim (add_sim h _ _ _ _ _).1 _ _ _ _ _)
    · exact wrap (add_sim h _ _ _ _ _)
  | _ => exact wrap (add_sim h _ _ _ _ _)

theorem calls_sim_pos {q q' : Stmt α} (h : Sim q q') (hp : q.pos = q'.pos) (cs : List (Call α)) :
    Sim (cs.foldl Stmt.call q) (cs.foldl Stmt.call q') ∧ (cs.foldl Stmt.call q).pos = (cs.foldl Stmt.call q').pos := by
  induction cs generalizing q q' with
  | nil => exact ⟨h, hp⟩
  | cons c cs ih =>
    have := call_sim h c fun _ => hp
    exact ih this.1 (this.2 (.inr hp))

theorem calls_sim {q q' : Stmt α} (h : Sim q q') (cs : List (Call α)) (hc : posFirst cs = true) :
    Sim (cs.foldl Stmt.call q) (cs.foldl Stmt.call q') := by
  induction cs generalizing q q' with
  | nil => exact h
  | cons c cs ih =>
    simp only [posFirst, Bool.and_eq_true, Bool.not_eq_true', Bool.or_eq_true] at hc
    have := call_sim h c (by simp [hc.1])
    rcases hc.2 with h' | h'
    · exact (calls_sim_pos this.1 (this.2 (.inl h')) cs).1
    · exact ih this.1 h'

end Xsql
