import Verif.Xsql.MemSim6
set_option linter.unusedSimpArgs false
set_option linter.unusedVariables false
set_option linter.unusedSectionVars false
/- SubQuery, With, Union. -/
namespace Xsql
open Heap
variable {α : Type} [Inhabited α]
namespace Mem

theorem str_set (w : World α) (h : Nat) (q : Option (Stmt α)) (p : Stmt α) : (w.set h q).str p = ((w.str p).1.set h q, (w.str p).2) := by
  simp only [World.str, World.getCached]
  have e : (w.set h q).cache = w.cache := rfl
  rw [e]
  by_cases h1 : p.sql ≠ []
  · rw [if_pos h1, if_pos h1]
  · rw [if_neg h1, if_neg h1]
    cases w.cache p.dialect p.key <;> rfl

theorem str_live (w : World α) (p : Stmt α) : (w.str p).1.live = w.live := by
  simp only [World.str, World.getCached]
  by_cases h1 : p.sql ≠ []
  · rw [if_pos h1]
  · rw [if_neg h1]; cases w.cache p.dialect p.key <;> rfl

theorem noDialect_obj (m : Mem α) (p o : Nat) (h : o ≠ p) : (m.noDialect p).obj o = m.obj o := by
  simp only [Mem.noDialect]; split
  · rfl
  · exact setObj_other _ _ _ _ h

theorem str_obj (m : Mem α) (p o : Nat) (h : o ≠ p) : (m.str p).obj o = m.obj o := by
  simp only [Mem.str]; split
  · rfl
  · split
    · exact setObj_other _ _ _ _ h
    · exact setObj_other _ _ _ _ h

/-- The end of a chunk is set through a pointer. -/
theorem setHigh_ok {m : Mem α} {o b : Nat} {q : Stmt α} (r : Rep m o b q) (i n : Nat) (arr at_ : Nat) (ha : arr = (m.obj o).chunks.arr) (hat : at_ = (m.obj o).chunks.off + i) :
    Rep (m.setHighAt arr at_ n) o b { q with chunks := setHigh q.chunks i n } ∧ Frame m (m.setHighAt arr at_ n) o b False := by
  subst ha hat
  obtain ⟨a1, a2, a3, rst, a4⟩ := r.chunks
  simp only [setHighAt]
  by_cases hi : i < q.chunks.length
  · have e1 : (m.chunks.cell (m.obj o).chunks.arr)[(m.obj o).chunks.off + i]? = some (q.chunks[i]) := by
      rw [a4, a1, Nat.zero_add, List.getElem?_append_left hi, List.getElem?_eq_getElem hi]
    rw [e1]
    dsimp only
    have hsplit : q.chunks = q.chunks.take i ++ q.chunks[i] :: q.chunks.drop (i + 1) := by
      rw [List.getElem_cons_drop, List.take_append_drop]
    have hl : (q.chunks.take i).length = i := by rw [List.length_take]; omega
    obtain ⟨k1, k2⟩ := setChunk_ok r (q.chunks.take i) (q.chunks.drop (i + 1)) q.chunks[i] { q.chunks[i] with high := n } hsplit False
    rw [hl] at k1 k2
    refine ⟨?_, k2⟩
    have : setHigh q.chunks i n = q.chunks.take i ++ { q.chunks[i] with high := n } :: q.chunks.drop (i + 1) := by
      simp only [setHigh]
      rw [List.modify_eq_set_getElem?, List.getElem?_eq_getElem hi]
      simp [List.set_eq_take_append_cons_drop, hi]
    rw [this]; exact k1
  · have e0 : setHigh q.chunks i n = q.chunks := by
      simp only [setHigh]; rw [List.modify_eq_set_getElem?, List.getElem?_eq_none (by omega)]; rfl
    rw [e0]
    cases hc : (m.chunks.cell (m.obj o).chunks.arr)[(m.obj o).chunks.off + i]? with
    | none => exact ⟨r, Frame.refl ..⟩
    | some c =>
      dsimp only
      have hlt : (m.obj o).chunks.off + i < (m.chunks.cell (m.obj o).chunks.arr).length := (List.getElem?_eq_some_iff.1 hc).1
      refine ⟨{ r with chunks := ⟨a1, a2, a3, rst.set (i - q.chunks.length) { c with high := n }, ?_⟩ },
        ⟨Step.refl .., fun _ => ⟨rfl, fun _ _ => rfl⟩, Step.refl .., store_step .., Step.refl .., fun _ _ => rfl, fun _ _ => rfl, rfl⟩⟩
      simp only [setChunk, store_cell, if_true]
      rw [goCopy_one _ _ _ hlt, a4, a1, Nat.zero_add, List.set_append_right _ _ (by omega)]

/-- The view after an embedding. -/
def embedded (s : View α) (h g : Nat) (q' p : Stmt α) : View α :=
  { (if p.args = [] then s else s.expire h).expire g with
    world := (((s.world.str p.noDialect).1.set h (some q')).set g none).reuse (s.world.str p.noDialect).2 }

theorem write_obj (m : Mem α) (o : Nat) (s : Str) : (m.write o s).obj = m.obj ∧ (m.write o s).chunks = m.chunks ∧ (m.write o s).vars = m.vars := by
  simp only [write]; cases (m.obj o).buf <;> exact ⟨rfl, rfl, rfl⟩

theorem Sim.finishSub {m m1 : Mem α} {s : View α} (S : Sim m s none) {h g o po b : Nat} {q p q1 : Stmt α} (hq : s.world.live h = some q) (hp : s.world.live g = some p) (hne : h ≠ g)
    (hv : m.vars h = some o) (hvp : m.vars g = some po) (L : Live m o b q) (R1 : Rep m1 o b q1) (F1 : Frame m m1 o b (p.args ≠ [])) (i : Nat) (suf : Bytes) :
    Sim (m1.finishSub o po i suf) (embedded s h g
      { ((q1.write (s.world.str p.noDialect).2.sql).write suf) with chunks := setHigh q1.chunks i ((q1.write (s.world.str p.noDialect).2.sql).write suf).buf.length } p) none := by
  have FC := F1.call S.bufs L.lt L.out R1
  -- the outer statement
  have S1 : Sim m1 { (if p.args = [] then s else s.expire h) with world := s.world.set h (some q1) } none := by
    by_cases ha : p.args = []
    · rw [if_pos ha]
      exact S.upd hq hv L ((F1.weaken (fun k => k ha)).call S.bufs L.lt L.out R1) R1
    · rw [if_neg ha]
      exact S.updArgs hq hv L FC R1
  generalize hl : (if p.args = [] then s else s.expire h) = t at *
  have hembed : ∀ q', embedded s h g q' p = { t.expire g with world := (((s.world.str p.noDialect).1.set h (some q')).set g none).reuse (s.world.str p.noDialect).2 } := by
    intro q'; simp only [embedded]; rw [hl]
  rw [hembed]
  have hv1 : m1.vars h = some o := by rw [FC.vars]; exact hv
  have hvp1 : m1.vars g = some po := by rw [FC.vars]; exact hvp
  have hop : o ≠ po := by
    intro e; subst e
    have g1 : hold s none (some h) = some q := hq
    have g2 : hold s none (some g) = some p := hp
    have := S.inj (some h) (some g) o (by rw [g1]; rfl) (by rw [g2]; rfl) hv hvp
    exact hne (Option.some.inj this)
  -- the inner statement
  have hp1 : ({ t with world := s.world.set h (some q1) } : View α).world.live g = some p := by
    simp only [World.set]; rw [if_neg (Ne.symm hne)]; exact hp
  obtain ⟨S2, ev2⟩ := S1.noDialect hp1 hvp1
  obtain ⟨S3, esql, ev3⟩ := S2.str (h := g) (q := p.noDialect) (o := po) (by simp [World.set]) (by rw [ev2]; exact hvp1)
  simp only [Mem.finishSub]
  have eo : ((m1.noDialect po).str po).obj o = m1.obj o := by rw [str_obj _ _ _ hop, noDialect_obj _ _ _ hop]
  rw [esql]
  have ew : ((s.world.set h (some q1)).set g (some p.noDialect)).str p.noDialect =
      (((s.world.str p.noDialect).1.set h (some q1)).set g (some p.noDialect), (s.world.str p.noDialect).2) := by rw [str_set, str_set]
  simp only [ew] at S3 esql ⊢
  have hv3 : ((m1.noDialect po).str po).vars h = some o := by rw [ev3, ev2]; exact hv1
  have hvp3 : ((m1.noDialect po).str po).vars g = some po := by rw [ev3, ev2]; exact hvp1
  generalize hr : s.world.str p.noDialect = r at *
  obtain ⟨w1, p1⟩ := r
  dsimp only at *
  have hq3 : ((((w1.set h (some q1)).set g (some p.noDialect))).set g (some p1)).live h = some q1 := by
    simp [World.set, hne]
  generalize ((m1.noDialect po).str po) = m3 at *
  obtain ⟨o', b', e', L3⟩ := S3.get hq3
  rw [hv3] at e'; obtain rfl := Option.some.inj e'
  have hb : b' = b := by
    have e1 := L3.rep.buf
    rw [eo, R1.buf] at e1
    exact (Option.some.inj e1).symm
  subst hb
  obtain ⟨R4, F4⟩ := write_ok L3.rep (.lit p1.sql) False
  obtain ⟨R5, F5⟩ := write_ok R4 (.lit suf) False
  have ho5 : ((m3.write o (.lit p1.sql)).write o (.lit suf)).obj o = m3.obj o := by rw [(write_obj _ _ _).1, (write_obj _ _ _).1]
  have ev5 : ((m3.write o (.lit p1.sql)).write o (.lit suf)).vars = m3.vars := by rw [(write_obj _ _ _).2.2, (write_obj _ _ _).2.2]
  generalize (m3.write o (.lit p1.sql)).write o (.lit suf) = m5 at *
  have R5' : Rep m5 o b' ((q1.write p1.sql).write suf) := R5
  obtain ⟨R6, F6⟩ := setHigh_ok R5' i (m5.bufBytes o).length (m1.obj o).chunks.arr ((m1.obj o).chunks.off + i) (by rw [ho5, eo]) (by rw [ho5, eo])
  have ev6 : (m5.setHighAt (m1.obj o).chunks.arr ((m1.obj o).chunks.off + i) (m5.bufBytes o).length).vars = m5.vars := by
    simp only [setHighAt]; split <;> rfl
  generalize hm6 : m5.setHighAt (m1.obj o).chunks.arr ((m1.obj o).chunks.off + i) (m5.bufBytes o).length = m6 at *
  rw [bufBytes_eq R5'] at R6
  have ech : ((q1.write p1.sql).write suf).chunks = q1.chunks := rfl
  rw [ech] at R6
  have S6 := S3.upd hq3 hv3 L3 ((F4.trans (F5.trans F6)).call S3.bufs L3.lt L3.out R6) R6
  generalize ({ (q1.write p1.sql).write suf with chunks := setHigh q1.chunks i ((q1.write p1.sql).write suf).buf.length } : Stmt α) = q6 at *
  have hp6 : (((((w1.set h (some q1)).set g (some p.noDialect))).set g (some p1)).set h (some q6)).live g = some p1 := by
    simp [World.set, Ne.symm hne]
  have hvp6 : m6.vars g = some po := by rw [ev6, ev5]; exact hvp3
  obtain ⟨o2, b2, e2, L6⟩ := S6.get hp6
  rw [hvp6] at e2; obtain rfl := Option.some.inj e2
  have S7 := S6.close hp6 hvp6 L6
  have efin : ((((((w1.set h (some q1)).set g (some p.noDialect))).set g (some p1)).set h (some q6)).set g none) = (w1.set h (some q6)).set g none := by
    simp only [World.set]
    congr 1
    funext k
    by_cases e1 : k = g
    · simp [e1]
    · by_cases e2 : k = h <;> simp [e1, e2]
  dsimp only at S7
  rw [efin] at S7
  exact S7

theorem subQuery_ok {m m0 : Mem α} {s : View α} (S : Sim m s none) {h g o po b : Nat} {q p q0 : Stmt α} (hq : s.world.live h = some q) (hp : s.world.live g = some p) (hne : h ≠ g)
    (hv : m.vars h = some o) (hvp : m.vars g = some po) (L : Live m o b q) (R0 : Rep m0 o b q0) (F0 : Frame m m0 o b False)
    (hs : m0.args.Src (m0.obj o).args (m0.obj po).args p.args) (pre suf : Bytes) :
    Sim (m0.subQuery o po pre suf) (embedded s h g (q0.subQuery pre suf (s.world.str p.noDialect).2.sql p.args) p) none := by
  simp only [Mem.subQuery, Stmt.subQuery, R0.pos]
  obtain ⟨a1, a2, a3⟩ := addChunk_ok R0 q0.pos [] (e := .lit pre) trivial hs (if q0.pos = posWhere then b!" AND " else b!", ")
  rw [a3]
  exact S.finishSub hq hp hne hv hvp L a1 ((F0.weaken False.elim).trans a2) _ suf

theorem Sim.embed {m : Mem α} {s : View α} (S : Sim m s none) {h g o po : Nat} {q p : Stmt α} (hq : s.world.live h = some q) (hp : s.world.live g = some p) (hne : h ≠ g)
    (hv : m.vars h = some o) (hvp : m.vars g = some po) (e : Embed) :
    Sim (m.embed o po e) (embedded s h g (q.call (e.toCall (s.world.str p.noDialect).2.sql p.args)) p) none := by
  obtain ⟨o', b, e1, L⟩ := S.get hq
  rw [hv] at e1; obtain rfl := Option.some.inj e1
  obtain ⟨po', bp, e1, Lp⟩ := S.get hp
  rw [hvp] at e1; obtain rfl := Option.some.inj e1
  have g1 : hold s none (some h) = some q := hq
  have g2 : hold s none (some g) = some p := hp
  have hop : o ≠ po := by
    intro e; subst e
    have := S.inj (some h) (some g) o (by rw [g1]; rfl) (by rw [g2]; rfl) hv hvp
    exact hne (Option.some.inj this)
  have uo : Used m s none o := .inr ⟨some h, by rw [g1]; rfl, hv⟩
  have up : Used m s none po := .inr ⟨some g, by rw [g2]; rfl, hvp⟩
  have src : m.args.Src (m.obj o).args (m.obj po).args p.args := Shows.src Lp.rep.args (fun e => hop (S.sepA po o up uo e).symm)
  cases e with
  | subQuery pre suf => exact subQuery_ok S hq hp hne hv hvp L L.rep (Frame.refl ..) src pre suf
  | with_ n =>
    obtain ⟨a1, a2⟩ := add_none L.rep posWith b!"WITH" [] []
    have src1 := a2.src src
    have eo : (m.add o posWith b!"WITH" [] noArgs []).obj po = m.obj po := a2.obj po (Ne.symm hop)
    rw [← eo] at src1
    exact subQuery_ok S hq hp hne hv hvp L a1 a2 src1 (n ++ b!" AS (") b!")"
  | union all =>
    obtain ⟨a1, a2, a3⟩ := addChunk_ok L.rep (unionPos q.chunks) (if all then b!"UNION ALL " else b!"UNION ") (e := .lit []) trivial src []
    have := S.finishSub hq hp hne hv hvp L a1 a2 (q.addChunk (unionPos q.chunks) (if all then b!"UNION ALL " else b!"UNION ") [] p.args []).2 []
    simp only [Mem.embed, Mem.union, chunkList_eq L.rep]
    rw [a3]
    have ew : ∀ (x : Stmt α) , x.write [] = x := by intro x; simp [Stmt.write]
    rw [ew] at this
    exact this

end Mem
end Xsql
