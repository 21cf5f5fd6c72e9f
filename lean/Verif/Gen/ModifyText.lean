import Verif.Gen.SaveLoadSql
set_option linter.unusedVariables false
set_option linter.unusedSimpArgs false
/-!
The texts of `UPDATE`, `DELETE` and `SELECT` statements with conditions on columns, whatever order the calls are made in (xsql/stmt.go:552-707).  For C111.
-/
namespace Gen
open Schema Types Xsql

/-- One call on a statement for the table: `Update(t)`, `DeleteFrom(t)`, `From(t)` (xsql/stmt.go:605-608, 633-636, 691-694), `Select(column)` (xsql/stmt.go:552-555), `Set(column, value)`
(xsql/stmt.go:661-688), `Where("column = ?", value)` (xsql/stmt.go:704-707). -/
inductive Step (α : Type) where
  | update
  | delete
  | from_
  | col (c : Bytes)
  | set (c : Bytes) (v : α)
  | cond (c : Bytes) (v : α)

variable {α : Type}

/-- The builder call. -/
def Step.call (t : Bytes) : Step α → Call α
  | .update => .update t
  | .delete => .deleteFrom t
  | .from_ => .from_ t []
  | .col c => .select c []
  | .set c v => .setExpr c b!"?" [v]
  | .cond c v => .where_ (c ++ b!" = ?") [v]

/-- The columns asked for, in order. -/
def colsOf : List (Step α) → List Bytes := List.filterMap fun | .col c => some c | _ => none

/-- The columns set, with their values, in order. -/
def setsOf : List (Step α) → List (Bytes × α) := List.filterMap fun | .set c v => some (c, v) | _ => none

/-- The conditions, in order. -/
def condsOf : List (Step α) → List (Bytes × α) := List.filterMap fun | .cond c v => some (c, v) | _ => none

/-- An update: `Update(t)`, then `Set` and `Where` calls in any order; `Where` calls may come before. -/
def Spec.IsUpdate (l : List (Step α)) : Prop :=
  ∃ pre post, l = pre ++ .update :: post ∧ (∀ s ∈ pre, ∃ c v, s = .cond c v) ∧ (∀ s ∈ post, (∃ c v, s = .cond c v) ∨ ∃ c v, s = .set c v)

/-- A deletion: `DeleteFrom(t)` and `Where` calls in any order. -/
def Spec.IsDelete (l : List (Step α)) : Prop := ∃ pre post, l = pre ++ .delete :: post ∧ ∀ s ∈ pre ++ post, ∃ c v, s = .cond c v

/-- A query: `From(t)`, `Select(column)` and `Where` calls in any order. -/
def Spec.IsSelect (l : List (Step α)) : Prop := ∃ pre post, l = pre ++ .from_ :: post ∧ ∀ s ∈ pre ++ post, (∃ c v, s = .cond c v) ∨ ∃ c, s = .col c

/-- The column named by a call, if any, is an ordinary name. -/
def Step.OK : Step α → Prop
  | .col c => NameOK c
  | .set c _ => NameOK c
  | .cond c _ => NameOK c
  | _ => True

/-- The fragment a call contributes. -/
def Step.frag (t : Bytes) : Step α → Frag α
  | .update => ⟨posUpdate, b!"UPDATE", t, [], b!", "⟩
  | .delete => ⟨posDelete, b!"DELETE FROM", t, [], b!", "⟩
  | .from_ => ⟨posFrom, b!"FROM", t, [], b!", "⟩
  | .col c => ⟨posSelect, b!"SELECT", c, [], b!", "⟩
  | .set c v => ⟨posSet, b!"SET", c ++ b!"=" ++ b!"?", [v], b!", "⟩
  | .cond c v => ⟨posWhere, b!"WHERE", c ++ b!" = ?", [v], b!" AND "⟩

theorem ph_ok (v : α) : FragOK b!"?" [v] := ⟨rfl, by decide, by simp⟩
theorem eqph_ok (v : α) : FragOK b!" = ?" [v] := ⟨rfl, by decide, by simp⟩

/-- Fragments and admissibility of the calls. -/
theorem steps_frags {t : Bytes} (ht : FragOK (α := α) t []) : ∀ (l : List (Step α)) (s : SpecState α), s.has posInsert = false → (∀ x ∈ l, x.OK) →
    (∀ pre c v post, l = pre ++ .set c v :: post → s.has posUpdate = true ∨ Step.update ∈ pre) →
    CallsOK s (l.map (Step.call t)) ∧ fragsOf s (l.map (Step.call t)) = l.map (Step.frag t) := by
  intro l
  induction l with
  | nil => intro s _ _ _; exact ⟨trivial, rfl⟩
  | cons x l ih =>
    intro s hs hok hset
    have hx := hok x (by simp)
    have hfr : s.frags (x.call t) = [x.frag t] := by
      cases x with
      | set c v =>
        have : s.has posUpdate = true := by
          rcases hset [] c v l rfl with h | h
          · exact h
          · cases h
        simp [Step.call, Step.frag, SpecState.frags, hs, this]
      | _ => rfl
    have hcall : CallOK s (x.call t) := by
      cases x with
      | update => exact ht
      | delete => exact ht
      | from_ => exact ht
      | col c => exact fragOK_plain hx.2
      | set c v => exact ⟨fragOK_plain hx.2, ph_ok v⟩
      | cond c v =>
        have := (fragOK_plain (α := α) hx.2).append (eqph_ok v)
        exact this
    obtain ⟨i1, i2⟩ := ih (s.call (x.call t))
      (by rw [has_frags, hs, hfr]; cases x <;> simp [Step.frag, posUpdate, posDelete, posFrom, posSelect, posSet, posWhere, posInsert])
      (fun y hy => hok y (by simp [hy]))
      (by
        intro pre c v post e
        rw [has_frags, hfr]
        rcases hset (x :: pre) c v post (by rw [e]; rfl) with h | h
        · left; rw [h, Bool.or_true]
        · rcases List.mem_cons.1 h with h | h
          · left; rw [← h]; simp [Step.frag]
          · right; exact h)
    refine ⟨⟨hcall, i1⟩, ?_⟩
    rw [List.map_cons, List.map_cons, fragsOf, i2, hfr]; rfl

theorem steps_local {t : Bytes} (ht : FragOK (α := α) t []) (l : List (Step α)) (hok : ∀ x ∈ l, x.OK) :
    ∀ f ∈ l.map (Step.frag t), FragLocal f ∧ f.pos ∈ canonical := by
  intro f hf
  obtain ⟨x, hx, rfl⟩ := List.mem_map.1 hf
  have h := hok x hx
  cases x with
  | update => exact ⟨FragLocal.mk' ht (by decide) (by decide) (show ¬ single posUpdate by decide) sepOK_comma, by simp [Step.frag, canonical, posUpdate]⟩
  | delete => exact ⟨FragLocal.mk' ht (by decide) (by decide) (show ¬ single posDelete by decide) sepOK_comma, by simp [Step.frag, canonical, posDelete]⟩
  | from_ => exact ⟨FragLocal.mk' ht (by decide) (by decide) (show ¬ single posFrom by decide) sepOK_comma, by simp [Step.frag, canonical, posFrom]⟩
  | col c => exact ⟨FragLocal.mk' (fragOK_plain h.2) (by decide) (by decide) (show ¬ single posSelect by decide) sepOK_comma, by simp [Step.frag, canonical, posSelect]⟩
  | set c v =>
    have he : FragOK (α := α) b!"=" [] := FragOK.const (by decide) (by decide)
    have := ((fragOK_plain (α := α) h.2).append he).append (ph_ok v)
    exact ⟨FragLocal.mk' (by simpa using this) (by decide) (by decide) (show ¬ single posSet by decide) sepOK_comma, by simp [Step.frag, canonical, posSet]⟩
  | cond c v =>
    have := (fragOK_plain (α := α) h.2).append (eqph_ok v)
    exact ⟨FragLocal.mk' this (by decide) (by decide) (show ¬ single posWhere by decide) sepOK_and, by simp [Step.frag, canonical, posWhere]⟩

/-- A clause whose calls all have the same keyword and separator. -/
theorem clause_join (nl : Bool) (kw sep : Bytes) (hk : kw ≠ []) (p : Nat) (hp : ¬ single p) (fs : List (Frag α)) (h0 : fs ≠ [])
    (h : ∀ f ∈ fs, f.pos = p ∧ f.kw = kw ∧ f.sep = sep ∧ f.expr ≠ []) :
    clauseText nl fs = (if nl then b!"\n" else []) ++ kw ++ b!" " ++ joinBytes sep (fs.map Frag.expr) ∧ clauseArgs fs = fs.flatMap Frag.args := by
  obtain ⟨f, r, rfl⟩ := List.exists_cons_of_ne_nil h0
  obtain ⟨h1, h2, h3, h4⟩ := h f (by simp)
  constructor
  · have hm := moreText_sep sep r (fun g hg => ⟨(h g (by simp [hg])).2.2.2, (h g (by simp [hg])).2.2.1⟩)
    rw [List.map_cons, joinBytes_cons, ← hm]
    simp [clauseText, h2, h4, hk]
  · unfold clauseArgs
    cases hl : (f :: r).getLast? with
    | none => simp at hl
    | some g =>
      have : g.pos = p := (h g (List.mem_of_getLast? hl)).1
      simp only [this, hp, if_false]

/-- The fragments at a position. -/
theorem frags_at (t : Bytes) (p : Nat) (l : List (Step α)) : fragsAt p (l.map (Step.frag t)) = (l.filter fun x => decide ((x.frag t).pos = p)).map (Step.frag t) := by
  rw [fragsAt, List.filter_map]; rfl

theorem cols_filter (t : Bytes) (l : List (Step α)) : (l.filter fun x => decide ((x.frag t).pos = 900)) = (colsOf l).map .col := by
  induction l with
  | nil => rfl
  | cons x l ih => cases x <;> simp_all [colsOf, Step.frag, posUpdate, posDelete, posFrom, posSelect, posSet, posWhere]

theorem sets_filter (t : Bytes) (l : List (Step α)) : (l.filter fun x => decide ((x.frag t).pos = 800)) = (setsOf l).map fun p => .set p.1 p.2 := by
  induction l with
  | nil => rfl
  | cons x l ih => cases x <;> simp_all [setsOf, Step.frag, posUpdate, posDelete, posFrom, posSelect, posSet, posWhere]

theorem conds_filter (t : Bytes) (l : List (Step α)) : (l.filter fun x => decide ((x.frag t).pos = 1200)) = (condsOf l).map fun p => .cond p.1 p.2 := by
  induction l with
  | nil => rfl
  | cons x l ih => cases x <;> simp_all [condsOf, Step.frag, posUpdate, posDelete, posFrom, posSelect, posSet, posWhere]

/-! ### Placeholders -/

/-- `?`, or `$i`. -/
def phText (pg : Bool) (i : Nat) : Bytes := if pg then b!"$" ++ Num.dec i else b!"?"

/-- Names, each followed by `mid` and a placeholder, as tokens. -/
def itemToks (mid sep : Bytes) : List (Bytes × α) → List (Tok α)
  | [] => []
  | [p] => lits (p.1 ++ mid) ++ [.ph p.2]
  | p :: l => (lits (p.1 ++ mid) ++ [.ph p.2]) ++ (lits sep ++ itemToks mid sep l)

/-- And as texts, the first placeholder being the `i`-th. -/
def itemTexts (pg : Bool) (mid : Bytes) : Nat → List (Bytes × α) → List Bytes
  | _, [] => []
  | i, p :: l => (p.1 ++ mid ++ phText pg i) :: itemTexts pg mid (i + 1) l

theorem item_one (mid : Bytes) (hm : (63 : UInt8) ∉ mid) (hml : mid.getLast? ≠ some 92) (hm0 : mid ≠ []) (p : Bytes × α) (hp : Plain p.1) :
    Clean (lits (p.1 ++ mid) ++ [.ph p.2]) ∧ vals (lits (p.1 ++ mid) ++ [Tok.ph p.2]) = [p.2]
    ∧ (∀ pg n, Xsql.written pg n (lits (p.1 ++ mid) ++ [Tok.ph p.2]) = p.1 ++ mid ++ phText pg n) ∧ (raw (lits (p.1 ++ mid) ++ [Tok.ph p.2])).getLast? = some 63 := by
  have hl : (p.1 ++ mid).getLast? ≠ some 92 := by
    rw [List.getLast?_append]
    cases hg : mid.getLast? with
    | none => exact absurd (List.getLast?_eq_none_iff.1 hg) hm0
    | some z => rw [hg] at hml; simpa using hml
  refine ⟨?_, by simp, ?_, ?_⟩
  · exact (clean_lits _ (by simp [hp.1, hm])).append (clean_ph p.2) (by simpa using hl)
  · intro pg n
    cases pg
    · simp only [Xsql.written, raw_append, raw_lits, phText]; rfl
    · simp only [Xsql.written, numbered_append, numbered_lits, phText, if_true, vals_lits, List.length_nil, Nat.add_zero]
      simp [numbered]
  · rw [raw_append, List.getLast?_append]; rfl

theorem itemToks_spec (mid sep : Bytes) (hm : (63 : UInt8) ∉ mid) (hml : mid.getLast? ≠ some 92) (hm0 : mid ≠ []) (hs : (63 : UInt8) ∉ sep) (hsl : sep.getLast? ≠ some 92) (hs0 : sep ≠ []) :
    ∀ (l : List (Bytes × α)), (∀ p ∈ l, Plain p.1) → Clean (itemToks mid sep l) ∧ vals (itemToks mid sep l) = l.map (·.2)
      ∧ (∀ pg n, Xsql.written pg n (itemToks mid sep l) = joinBytes sep (itemTexts pg mid n l)) ∧ (l ≠ [] → (raw (itemToks mid sep l)).getLast? = some 63) := by
  intro l
  induction l with
  | nil => intro _; exact ⟨rfl, rfl, fun pg _ => by cases pg <;> rfl, fun h => absurd rfl h⟩
  | cons p l ih =>
    intro hp
    obtain ⟨o1, o2, o3, o4⟩ := item_one mid hm hml hm0 p (hp p (by simp))
    cases l with
    | nil => exact ⟨o1, o2, fun pg n => by rw [itemToks, o3]; simp [itemTexts, joinBytes], fun _ => o4⟩
    | cons q l =>
      obtain ⟨h1, h2, h3, h4⟩ := ih (fun x hx => hp x (by simp [hx]))
      have ev : itemToks mid sep (p :: q :: l) = (lits (p.1 ++ mid) ++ [.ph p.2]) ++ (lits sep ++ itemToks mid sep (q :: l)) := rfl
      refine ⟨?_, ?_, ?_, ?_⟩
      · rw [ev]
        exact o1.append ((clean_lits sep hs).append h1 (by rw [raw_lits]; exact hsl)) (by rw [o4]; decide)
      · rw [ev, vals_append, o2, vals_append, vals_lits, h2]; rfl
      · intro pg n
        rw [ev, written_append, o3, written_append, h3, o2]
        have hsep : Xsql.written pg (n + 1) (lits sep : List (Tok α)) = sep := by cases pg <;> simp [Xsql.written]
        have e1 : ([p.2] : List α).length = 1 := rfl
        rw [e1, hsep]
        simp only [vals_lits, List.length_nil, Nat.add_zero]
        rw [show itemTexts pg mid n (p :: q :: l) = (p.1 ++ mid ++ phText pg n) :: (q.1 ++ mid ++ phText pg (n + 1)) :: itemTexts pg mid (n + 1 + 1) l from rfl, join_two]
        rfl
      · intro _
        rw [ev, raw_append, List.getLast?_append, raw_append, List.getLast?_append, h4 (by simp)]
        rfl

/-- The end of a statement: its conditions. -/
def whereToks (nl : Bool) (l : List (Bytes × α)) : List (Tok α) :=
  if l = [] then [] else lits (b!" " ++ (if nl then b!"\n" else []) ++ b!"WHERE ") ++ itemToks b!" = " b!" AND " l

/-- The same as text. -/
def whereText (pg nl : Bool) (i : Nat) (l : List (Bytes × α)) : Bytes :=
  if l = [] then [] else b!" " ++ (if nl then b!"\n" else []) ++ b!"WHERE " ++ joinBytes b!" AND " (itemTexts pg b!" = " i l)

theorem whereToks_spec (nl : Bool) (l : List (Bytes × α)) (hp : ∀ p ∈ l, Plain p.1) : Clean (whereToks nl l) ∧ vals (whereToks nl l) = l.map (·.2)
    ∧ (∀ pg n, Xsql.written pg n (whereToks nl l) = whereText pg nl n l) ∧ (l ≠ [] → (raw (whereToks nl l)).getLast? = some 63) := by
  unfold whereToks whereText
  by_cases h0 : l = []
  · subst h0; exact ⟨rfl, rfl, fun pg _ => by cases pg <;> rfl, fun h => absurd rfl h⟩
  · obtain ⟨h1, h2, h3, h4⟩ := itemToks_spec b!" = " b!" AND " (by decide) (by decide) (by decide) (by decide) (by decide) (by decide) l hp
    rw [if_neg h0]
    refine ⟨(clean_lits _ (by cases nl <;> decide)).append h1 (by rw [raw_lits]; cases nl <;> decide), by rw [vals_append, vals_lits, h2]; rfl, ?_, ?_⟩
    · intro pg n
      rw [if_neg h0, written_append, h3]
      have : ∀ x : Bytes, Xsql.written pg n (lits x : List (Tok α)) = x := fun x => by cases pg <;> simp [Xsql.written]
      rw [this]
      simp only [vals_lits, List.length_nil, Nat.add_zero]
    · intro _
      rw [raw_append, List.getLast?_append, h4 h0]; rfl

/-- The text on Postgres from the text on the other dialects. -/
theorem every_dialect (d : Dia) {nl : Bool} {st : Nat} {cs : List (Call α)} (hcs : CallsOK (SpecState.fresh nl st) cs) {ts : List (Tok α)} (hc : Clean ts)
    (h1 : (build .default nl st cs).render = raw ts) (h2 : (build .default nl st cs).args = vals ts) :
    (build d nl st cs).render = Xsql.written (decide (d = .postgres)) 1 ts ∧ (build d nl st cs).args = vals ts := by
  have hb := (C21_sql_consumes_args .default (by simp) hcs).1
  rw [h1, h2] at hb
  have hts : trimToks (docToks (spec nl st cs).doc) = ts := by
    have h : some (trimToks (docToks (spec nl st cs).doc)) = some ts := hb.symm.trans hc
    exact Option.some.inj h
  have r1 := render_eq (build_ref d hcs)
  rw [(build_fields d nl st _).1, trim_written] at r1
  have r2 := render_eq (build_ref .default hcs)
  refine ⟨?_, ?_⟩
  · rw [r1.1]
    have : spec nl st cs = cs.foldl SpecState.call (SpecState.fresh nl st) := rfl
    rw [← hts]
  · rw [r1.2, ← r2.2, h2]

theorem six (P : Nat → Bool) (h : ∀ p, p ∉ [600, 700, 800, 900, 1100, 1200] → P p = false) : canonical.filter P = [600, 700, 800, 900, 1100, 1200].filter P := by
  have g := fun p hp => h p hp
  simp only [canonical, List.filter_cons, List.filter_nil, g 200 (by decide), g 300 (by decide), g 399 (by decide), g 400 (by decide), g 499 (by decide), g 500 (by decide), g 501 (by decide),
    g 1300 (by decide), g 1400 (by decide), g 1600 (by decide), g 1700 (by decide), g 1800 (by decide), g 1900 (by decide)]
  simp

theorem six_args (F : Nat → List α) (h : ∀ p, p ∉ [600, 700, 800, 900, 1100, 1200] → F p = []) : canonical.flatMap F = [600, 700, 800, 900, 1100, 1200].flatMap F := by
  have g := fun p hp => h p hp
  simp only [canonical, List.flatMap_cons, List.flatMap_nil, g 200 (by decide), g 300 (by decide), g 399 (by decide), g 400 (by decide), g 499 (by decide), g 500 (by decide), g 501 (by decide),
    g 1300 (by decide), g 1400 (by decide), g 1600 (by decide), g 1700 (by decide), g 1800 (by decide), g 1900 (by decide)]
  simp

theorem other_pos (t : Bytes) (l : List (Step α)) (p : Nat) (hp : p ∉ [600, 700, 800, 900, 1100, 1200]) : fragsAt p (l.map (Step.frag t)) = [] := by
  rw [frags_at]
  simp only [List.mem_cons, List.not_mem_nil, or_false, not_or] at hp
  have : (l.filter fun x => decide ((x.frag t).pos = p)) = [] := by
    rw [List.filter_eq_nil_iff]
    intro x hx e
    have e : (x.frag t).pos = p := of_decide_eq_true e
    obtain ⟨h1, h2, h3, h4, h5, h6⟩ := hp
    cases x <;> simp only [Step.frag, posUpdate, posDelete, posFrom, posSelect, posSet, posWhere] at e
    · exact h2 e.symm
    · exact h1 e.symm
    · exact h5 e.symm
    · exact h4 e.symm
    · exact h3 e.symm
    · exact h6 e.symm
  rw [this]; rfl

/-! ### The three statements -/

theorem filter_none (t : Bytes) (p : Nat) (l : List (Step α)) (h : ∀ x ∈ l, (x.frag t).pos ≠ p) : (l.filter fun x => decide ((x.frag t).pos = p)) = [] := by
  rw [List.filter_eq_nil_iff]; intro x hx; simpa using h x hx

theorem filter_head (t : Bytes) (p : Nat) (pre post : List (Step α)) (h : Step α) (hh : (h.frag t).pos = p) (h1 : ∀ x ∈ pre, (x.frag t).pos ≠ p) (h2 : ∀ x ∈ post, (x.frag t).pos ≠ p) :
    ((pre ++ h :: post).filter fun x => decide ((x.frag t).pos = p)) = [h] := by
  rw [List.filter_append, List.filter_cons, filter_none t p pre h1, filter_none t p post h2]; simp [hh]

/-- What is at the six places of each statement. -/
theorem places_update (t : Bytes) {l : List (Step α)} (h : Spec.IsUpdate l) :
    (l.filter fun x => decide ((x.frag t).pos = 600)) = [] ∧ (l.filter fun x => decide ((x.frag t).pos = 700)) = [.update] ∧ (l.filter fun x => decide ((x.frag t).pos = 900)) = []
    ∧ (l.filter fun x => decide ((x.frag t).pos = 1100)) = [] ∧ ∀ pre c v post, l = pre ++ .set c v :: post → Step.update ∈ pre := by
  obtain ⟨pre, post, rfl, h1, h2⟩ := h
  have hpre : ∀ p, p ≠ 1200 → ∀ x ∈ pre, (x.frag t).pos ≠ p := by
    rintro p hp x hx; obtain ⟨c, v, rfl⟩ := h1 x hx; exact fun e => hp e.symm
  have hpost : ∀ p, p ≠ 1200 → p ≠ 800 → ∀ x ∈ post, (x.frag t).pos ≠ p := by
    rintro p hp hp2 x hx
    rcases h2 x hx with ⟨c, v, rfl⟩ | ⟨c, v, rfl⟩
    · exact fun e => hp e.symm
    · exact fun e => hp2 e.symm
  have hnone : ∀ p, p ≠ 1200 → p ≠ 800 → p ≠ 700 → ((pre ++ Step.update :: post).filter fun x => decide ((x.frag t).pos = p)) = [] := by
    intro p a b c
    refine filter_none t p _ ?_
    intro x hx
    rcases List.mem_append.1 hx with hx | hx
    · exact hpre p a x hx
    · rcases List.mem_cons.1 hx with rfl | hx
      · exact fun e => c e.symm
      · exact hpost p a b x hx
  refine ⟨hnone 600 (by decide) (by decide) (by decide), filter_head t 700 pre post .update rfl (hpre 700 (by decide)) (hpost 700 (by decide) (by decide)), hnone 900 (by decide) (by decide) (by decide),
    hnone 1100 (by decide) (by decide) (by decide), ?_⟩
  intro pre' c v post' e
  rcases List.append_eq_append_iff.1 e with ⟨as, e1, e2⟩ | ⟨bs, e1, e2⟩
  · cases as with
    | nil => simp at e2
    | cons a as =>
      rw [List.cons_append] at e2
      injection e2 with e3 e4
      rw [e1, ← e3]; simp
  · cases bs with
    | nil => simp at e2
    | cons b bs =>
      rw [List.cons_append] at e2
      injection e2 with e3 e4
      have : Step.set c v ∈ pre := by rw [e1, e3]; simp
      obtain ⟨c', v', h⟩ := h1 _ this
      cases h

theorem places_delete (t : Bytes) {l : List (Step α)} (h : Spec.IsDelete l) :
    (l.filter fun x => decide ((x.frag t).pos = 600)) = [.delete] ∧ (l.filter fun x => decide ((x.frag t).pos = 700)) = [] ∧ (l.filter fun x => decide ((x.frag t).pos = 800)) = []
    ∧ (l.filter fun x => decide ((x.frag t).pos = 900)) = [] ∧ (l.filter fun x => decide ((x.frag t).pos = 1100)) = [] ∧ ∀ c v, Step.set c v ∉ l := by
  obtain ⟨pre, post, rfl, h1⟩ := h
  have hp : ∀ p, p ≠ 1200 → ∀ x ∈ pre ++ post, (x.frag t).pos ≠ p := by
    rintro p hp x hx; obtain ⟨c, v, rfl⟩ := h1 x hx; exact fun e => hp e.symm
  have hnone : ∀ p, p ≠ 1200 → p ≠ 600 → ((pre ++ Step.delete :: post).filter fun x => decide ((x.frag t).pos = p)) = [] := by
    intro p a b
    refine filter_none t p _ ?_
    intro x hx
    rcases List.mem_append.1 hx with hx | hx
    · exact hp p a x (by simp [hx])
    · rcases List.mem_cons.1 hx with rfl | hx
      · exact fun e => b e.symm
      · exact hp p a x (by simp [hx])
  refine ⟨filter_head t 600 pre post .delete rfl (fun x hx => hp 600 (by decide) x (by simp [hx])) (fun x hx => hp 600 (by decide) x (by simp [hx])), hnone 700 (by decide) (by decide), hnone 800 (by decide) (by decide), hnone 900 (by decide) (by decide),
    hnone 1100 (by decide) (by decide), ?_⟩
  intro c v hm
  rcases List.mem_append.1 hm with hm | hm
  · obtain ⟨_, _, h⟩ := h1 _ (List.mem_append.2 (Or.inl hm)); cases h
  · rcases List.mem_cons.1 hm with h | hm
    · cases h
    · obtain ⟨_, _, h⟩ := h1 _ (List.mem_append.2 (Or.inr hm)); cases h

theorem places_select (t : Bytes) {l : List (Step α)} (h : Spec.IsSelect l) :
    (l.filter fun x => decide ((x.frag t).pos = 600)) = [] ∧ (l.filter fun x => decide ((x.frag t).pos = 700)) = [] ∧ (l.filter fun x => decide ((x.frag t).pos = 800)) = []
    ∧ (l.filter fun x => decide ((x.frag t).pos = 1100)) = [.from_] ∧ ∀ c v, Step.set c v ∉ l := by
  obtain ⟨pre, post, rfl, h1⟩ := h
  have hp : ∀ p, p ≠ 1200 → p ≠ 900 → ∀ x ∈ pre ++ post, (x.frag t).pos ≠ p := by
    rintro p hp hp2 x hx
    rcases h1 x hx with ⟨c, v, rfl⟩ | ⟨c, rfl⟩
    · exact fun e => hp e.symm
    · exact fun e => hp2 e.symm
  have hnone : ∀ p, p ≠ 1200 → p ≠ 900 → p ≠ 1100 → ((pre ++ Step.from_ :: post).filter fun x => decide ((x.frag t).pos = p)) = [] := by
    intro p a b c
    refine filter_none t p _ ?_
    intro x hx
    rcases List.mem_append.1 hx with hx | hx
    · exact hp p a b x (by simp [hx])
    · rcases List.mem_cons.1 hx with rfl | hx
      · exact fun e => c e.symm
      · exact hp p a b x (by simp [hx])
  refine ⟨hnone 600 (by decide) (by decide) (by decide), hnone 700 (by decide) (by decide) (by decide), hnone 800 (by decide) (by decide) (by decide),
    filter_head t 1100 pre post .from_ rfl (fun x hx => hp 1100 (by decide) (by decide) x (by simp [hx])) (fun x hx => hp 1100 (by decide) (by decide) x (by simp [hx])), ?_⟩
  intro c v hm
  have : ∀ x ∈ pre ++ post, x ≠ Step.set c v := by
    rintro x hx rfl
    rcases h1 _ hx with ⟨_, _, h⟩ | ⟨_, h⟩ <;> cases h
  rcases List.mem_append.1 hm with hm | hm
  · exact this _ (by simp [hm]) rfl
  · rcases List.mem_cons.1 hm with h | hm
    · cases h
    · exact this _ (by simp [hm]) rfl

theorem texts_raw (mid : Bytes) (n : Nat) (l : List (Bytes × α)) : itemTexts false mid n l = l.map fun p => p.1 ++ mid ++ b!"?" := by
  induction l generalizing n with
  | nil => rfl
  | cons p l ih => rw [itemTexts, ih]; rfl

/-- The pieces of the six clauses. -/
theorem piece_conds (nl : Bool) (t : Bytes) (l : List (Step α)) (h0 : condsOf l ≠ []) :
    clauseText nl (((condsOf l).map fun p => Step.cond p.1 p.2).map (Step.frag t)) = (if nl then b!"\n" else []) ++ b!"WHERE" ++ b!" " ++ joinBytes b!" AND " (itemTexts false b!" = " 1 (condsOf l))
    ∧ clauseArgs (((condsOf l).map fun p => Step.cond p.1 p.2).map (Step.frag t)) = (condsOf l).map (·.2) := by
  obtain ⟨a, b⟩ := clause_join nl b!"WHERE" b!" AND " (by decide) posWhere (by decide) (((condsOf l).map fun p => Step.cond p.1 p.2).map (Step.frag t)) (by simpa using h0) (by
    intro f hf
    simp only [List.map_map, List.mem_map] at hf
    obtain ⟨p, -, rfl⟩ := hf
    exact ⟨rfl, rfl, rfl, by simp [Step.frag]⟩)
  refine ⟨a.trans ?_, b.trans ?_⟩
  · rw [texts_raw]; simp [Function.comp_def, Step.frag]
  · generalize condsOf l = r
    induction r with
    | nil => rfl
    | cons p r ih => simpa [Step.frag] using ih

theorem piece_sets (nl : Bool) (t : Bytes) (l : List (Step α)) (h0 : setsOf l ≠ []) :
    clauseText nl (((setsOf l).map fun p => Step.set p.1 p.2).map (Step.frag t)) = (if nl then b!"\n" else []) ++ b!"SET" ++ b!" " ++ joinBytes b!", " (itemTexts false b!"=" 1 (setsOf l))
    ∧ clauseArgs (((setsOf l).map fun p => Step.set p.1 p.2).map (Step.frag t)) = (setsOf l).map (·.2) := by
  obtain ⟨a, b⟩ := clause_join nl b!"SET" b!", " (by decide) posSet (by decide) (((setsOf l).map fun p => Step.set p.1 p.2).map (Step.frag t)) (by simpa using h0) (by
    intro f hf
    simp only [List.map_map, List.mem_map] at hf
    obtain ⟨p, -, rfl⟩ := hf
    exact ⟨rfl, rfl, rfl, by simp [Step.frag]⟩)
  refine ⟨a.trans ?_, b.trans ?_⟩
  · rw [texts_raw]; simp [Function.comp_def, Step.frag]
  · generalize setsOf l = r
    induction r with
    | nil => rfl
    | cons p r ih => simpa [Step.frag] using ih

theorem piece_cols (nl : Bool) (t : Bytes) (l : List (Step α)) (h0 : colsOf l ≠ []) (hn : ∀ c ∈ colsOf l, c ≠ []) :
    clauseText nl (((colsOf l).map (Step.col (α := α))).map (Step.frag t)) = (if nl then b!"\n" else []) ++ b!"SELECT" ++ b!" " ++ joinBytes b!", " (colsOf l)
    ∧ clauseArgs (((colsOf l).map (Step.col (α := α))).map (Step.frag t)) = [] := by
  obtain ⟨a, b⟩ := clause_join (α := α) nl b!"SELECT" b!", " (by decide) posSelect (by decide) (((colsOf l).map (Step.col (α := α))).map (Step.frag t)) (by simpa using h0) (by
    intro f hf
    simp only [List.map_map, List.mem_map] at hf
    obtain ⟨p, hp, rfl⟩ := hf
    exact ⟨rfl, rfl, rfl, hn p hp⟩)
  refine ⟨a.trans ?_, b.trans ?_⟩
  · simp [Function.comp_def, Step.frag]
  · generalize colsOf l = r
    induction r with
    | nil => rfl
    | cons p r ih => simp [Step.frag]

theorem piece_head (nl : Bool) (t : Bytes) (ht0 : t ≠ []) (h : Step α) (kw : Bytes) (hk : kw ≠ []) (p : Nat) (hp : ¬ single p) (hf : h.frag t = ⟨p, kw, t, [], b!", "⟩) :
    clauseText nl ([h].map (Step.frag t)) = (if nl then b!"\n" else []) ++ kw ++ b!" " ++ t ∧ clauseArgs ([h].map (Step.frag t)) = [] := by
  rw [List.map_cons, List.map_nil, hf]
  obtain ⟨a, b⟩ := clause_join (α := α) nl kw b!", " hk p hp [⟨p, kw, t, [], b!", "⟩] (by simp) (by intro f hf; simp at hf; subst hf; exact ⟨rfl, rfl, rfl, ht0⟩)
  exact ⟨by simpa [joinBytes] using a, by simp at b; exact b⟩

theorem mem_colsOf {c : Bytes} {l : List (Step α)} : c ∈ colsOf l ↔ Step.col c ∈ l := by
  unfold colsOf
  rw [List.mem_filterMap]
  constructor
  · rintro ⟨x, hx, e⟩; cases x <;> simp at e; subst e; exact hx
  · intro h; exact ⟨_, h, rfl⟩

theorem mem_setsOf {p : Bytes × α} {l : List (Step α)} : p ∈ setsOf l ↔ Step.set p.1 p.2 ∈ l := by
  unfold setsOf
  rw [List.mem_filterMap]
  constructor
  · rintro ⟨x, hx, e⟩; cases x <;> simp at e; subst e; exact hx
  · intro h; exact ⟨_, h, rfl⟩

theorem mem_condsOf {p : Bytes × α} {l : List (Step α)} : p ∈ condsOf l ↔ Step.cond p.1 p.2 ∈ l := by
  unfold condsOf
  rw [List.mem_filterMap]
  constructor
  · rintro ⟨x, hx, e⟩; cases x <;> simp at e; subst e; exact hx
  · intro h; exact ⟨_, h, rfl⟩

theorem fresh_has (nl : Bool) (st p : Nat) : (SpecState.fresh (α := α) nl st).has p = false := by simp [SpecState.has, SpecState.fresh]

theorem default_text (nl : Bool) (st : Nat) (t : Bytes) (ht : Plain t) (l : List (Step α)) (hok : ∀ x ∈ l, x.OK)
    (hset : ∀ pre c v post, l = pre ++ .set c v :: post → Step.update ∈ pre) :
    CallsOK (SpecState.fresh nl st) (l.map (Step.call t))
    ∧ (build .default nl st (l.map (Step.call t))).render = trim (joinBytes b!" " (([600, 700, 800, 900, 1100, 1200].filter fun p => !(fragsAt p (l.map (Step.frag t))).isEmpty).map
        fun p => clauseText nl (fragsAt p (l.map (Step.frag t)))))
    ∧ (build .default nl st (l.map (Step.call t))).args = [600, 700, 800, 900, 1100, 1200].flatMap fun p => clauseArgs (fragsAt p (l.map (Step.frag t))) := by
  have hF := fragOK_plain (α := α) ht
  obtain ⟨h1, h2⟩ := steps_frags hF l (SpecState.fresh nl st) (fresh_has ..) hok (fun pre c v post e => Or.inr (hset pre c v post e))
  obtain ⟨e1, e2⟩ := closed_render .default (by simp) h1 h2 (steps_local hF l hok)
  refine ⟨h1, ?_, ?_⟩
  · rw [e1, six _ (fun p hp => by rw [other_pos t l p hp]; rfl)]
  · rw [e2, six_args _ (fun p hp => by rw [other_pos t l p hp]; rfl)]

theorem solid (nl : Bool) {s : Bytes} (a z : UInt8) (ha : s.head? = some a) (hna : isCut a = false) (hz : s.getLast? = some z) (hnz : isCut z = false) :
    trim ((if nl then b!"\n" else []) ++ s) = s := trim_solid (by cases nl <;> decide) a z ha hna hz hnz

theorem conds_plain {l : List (Step α)} (hok : ∀ x ∈ l, x.OK) : ∀ p ∈ condsOf l, Plain p.1 := fun p hp => (hok _ (mem_condsOf.1 hp)).2
theorem sets_plain {l : List (Step α)} (hok : ∀ x ∈ l, x.OK) : ∀ p ∈ setsOf l, Plain p.1 := fun p hp => (hok _ (mem_setsOf.1 hp)).2

theorem written_lits (pg : Bool) (n : Nat) (x : Bytes) : Xsql.written pg n (lits x : List (Tok α)) = x := by cases pg <;> simp [Xsql.written]

theorem raw_written (ts : List (Tok α)) (n : Nat) : raw ts = Xsql.written false n ts := rfl

/-- The text of an update on every dialect. -/
theorem update_text (d : Dia) (nl : Bool) (st : Nat) (t : Bytes) (ht0 : t ≠ []) (ht : Plain t) (l : List (Step α)) (h : Spec.IsUpdate l) (hok : ∀ x ∈ l, x.OK) (hs : setsOf l ≠ []) :
    (build d nl st (l.map (Step.call t))).render = b!"UPDATE " ++ t ++ b!" " ++ (if nl then b!"\n" else []) ++ b!"SET "
        ++ joinBytes b!", " (itemTexts (decide (d = .postgres)) b!"=" 1 (setsOf l)) ++ whereText (decide (d = .postgres)) nl (1 + (setsOf l).length) (condsOf l)
    ∧ (build d nl st (l.map (Step.call t))).args = (setsOf l).map (·.2) ++ (condsOf l).map (·.2) := by
  obtain ⟨p1, p2, p3, p4, p5⟩ := places_update t h
  obtain ⟨hc, e1, e2⟩ := default_text nl st t ht l hok p5
  obtain ⟨a1, a2⟩ := piece_head nl t ht0 (Step.update (α := α)) b!"UPDATE" (by decide) posUpdate (by decide) rfl
  obtain ⟨b1, b2⟩ := piece_sets nl t l hs
  obtain ⟨s1, s2, s3, s4⟩ := itemToks_spec (α := α) b!"=" b!", " (by decide) (by decide) (by decide) (by decide) (by decide) (by decide) (setsOf l) (sets_plain hok)
  obtain ⟨w1, w2, w3, w4⟩ := whereToks_spec nl (condsOf l) (conds_plain hok)
  have key : (build .default nl st (l.map (Step.call t))).render = b!"UPDATE " ++ t ++ b!" " ++ (if nl then b!"\n" else []) ++ b!"SET "
        ++ joinBytes b!", " (itemTexts false b!"=" 1 (setsOf l)) ++ whereText false nl 1 (condsOf l) ∧ (build .default nl st (l.map (Step.call t))).args = (setsOf l).map (·.2) ++ (condsOf l).map (·.2) := by
    have hs' : ((setsOf l).map fun p => Step.set p.1 p.2) ≠ [] := by simpa using hs
    have hlast : (b!"UPDATE " ++ t ++ b!" " ++ (if nl then b!"\n" else []) ++ b!"SET " ++ joinBytes b!", " (itemTexts false b!"=" 1 (setsOf l)) ++ whereText false nl 1 (condsOf l)).getLast? = some 63 := by
      have x1 : (joinBytes b!", " (itemTexts false b!"=" 1 (setsOf l))).getLast? = some 63 := by rw [← s3 false 1]; exact s4 hs
      by_cases h0 : condsOf l = []
      · rw [whereText, if_pos h0, List.append_nil, List.getLast?_append, x1]; rfl
      · rw [← w3 false 1, List.getLast?_append]
        have := w4 h0
        rw [raw_written _ 1] at this
        rw [this]; rfl
    constructor
    · rw [e1]
      refine Eq.trans ?_ (solid nl 85 63 (by simp) (by decide) hlast (by decide))
      congr 1
      simp only [frags_at, sets_filter, conds_filter, cols_filter, p1, p2, p3, p4, List.filter_cons, List.filter_nil, List.map_nil, List.isEmpty_nil, List.isEmpty_map]
      have : ((setsOf l).isEmpty) = false := by simpa using hs
      by_cases h0 : condsOf l = []
      · simp only [h0, this, List.isEmpty_nil, List.isEmpty_cons, Bool.not_true, Bool.not_false, if_true, if_false, Bool.false_eq_true, List.map_cons, List.map_nil, frags_at, p1, p2, p3, p4, sets_filter, whereText, List.append_nil]
        simp only [joinBytes]
        have a1' := a1
        simp only [List.map_cons, List.map_nil] at a1'
        rw [a1', b1]
        simp
      · have hce : (condsOf l).isEmpty = false := by simpa using h0
        obtain ⟨c1, c2⟩ := piece_conds nl t l h0
        simp only [hce, this, List.isEmpty_nil, List.isEmpty_cons, Bool.not_true, Bool.not_false, if_true, if_false, Bool.false_eq_true, List.map_cons, List.map_nil, frags_at, p1, p2, p3, p4, sets_filter, conds_filter, whereText, h0]
        simp only [joinBytes]
        have a1' := a1
        simp only [List.map_cons, List.map_nil] at a1'
        rw [a1', b1, c1]
        simp
    · rw [e2]
      simp only [List.flatMap_cons, List.flatMap_nil, frags_at, p1, p2, p3, p4, sets_filter, conds_filter, a2, b2]
      by_cases h0 : condsOf l = []
      · simp [h0, clauseArgs]
      · rw [(piece_conds nl t l h0).2]; simp [clauseArgs]
  let ts : List (Tok α) := lits (b!"UPDATE " ++ t ++ b!" " ++ (if nl then b!"\n" else []) ++ b!"SET ") ++ (itemToks b!"=" b!", " (setsOf l) ++ whereToks nl (condsOf l))
  have hts : ∀ pg, Xsql.written pg 1 ts = b!"UPDATE " ++ t ++ b!" " ++ (if nl then b!"\n" else []) ++ b!"SET "
        ++ joinBytes b!", " (itemTexts pg b!"=" 1 (setsOf l)) ++ whereText pg nl (1 + (setsOf l).length) (condsOf l) := by
    intro pg
    rw [show ts = _ from rfl, written_append, written_lits, written_append, s3, w3, vals_lits, s2]
    simp
  have hv : vals ts = (setsOf l).map (·.2) ++ (condsOf l).map (·.2) := by
    rw [show ts = _ from rfl, vals_append, vals_lits, vals_append, s2, w2]; rfl
  have hcl : Clean ts := by
    refine (clean_lits _ ?_).append (s1.append w1 (by rw [s4 hs]; decide)) ?_
    · have := ht.1
      cases nl <;> simp [this]
    · rw [raw_lits, List.getLast?_append]; simp
  obtain ⟨f1, f2⟩ := every_dialect d hc (ts := ts) hcl (by
    rw [key.1, raw_written ts 1, hts]
    simp only [whereText, texts_raw]) (by rw [key.2, hv])
  exact ⟨by rw [f1, hts], by rw [f2, hv]⟩

/-- The text of a deletion on every dialect. -/
theorem delete_text (d : Dia) (nl : Bool) (st : Nat) (t : Bytes) (ht0 : t ≠ []) (ht : Plain t) (htz : ∃ z, t.getLast? = some z ∧ isCut z = false) (l : List (Step α)) (h : Spec.IsDelete l)
    (hok : ∀ x ∈ l, x.OK) :
    (build d nl st (l.map (Step.call t))).render = b!"DELETE FROM " ++ t ++ whereText (decide (d = .postgres)) nl 1 (condsOf l)
    ∧ (build d nl st (l.map (Step.call t))).args = (condsOf l).map (·.2) := by
  obtain ⟨p1, p2, p3, p4, p5, p6⟩ := places_delete t h
  obtain ⟨hc, e1, e2⟩ := default_text nl st t ht l hok (fun pre c v post e => absurd (by rw [e]; simp) (p6 c v))
  obtain ⟨a1, a2⟩ := piece_head nl t ht0 (Step.delete (α := α)) b!"DELETE FROM" (by decide) posDelete (by decide) rfl
  obtain ⟨w1, w2, w3, w4⟩ := whereToks_spec nl (condsOf l) (conds_plain hok)
  have key : (build .default nl st (l.map (Step.call t))).render = b!"DELETE FROM " ++ t ++ whereText false nl 1 (condsOf l) ∧ (build .default nl st (l.map (Step.call t))).args = (condsOf l).map (·.2) := by
    have hlast : ∃ z, (b!"DELETE FROM " ++ t ++ whereText false nl 1 (condsOf l)).getLast? = some z ∧ isCut z = false := by
      by_cases h0 : condsOf l = []
      · obtain ⟨z, z1, z2⟩ := htz
        exact ⟨z, by rw [whereText, if_pos h0, List.append_nil, List.getLast?_append, z1]; rfl, z2⟩
      · refine ⟨63, ?_, by decide⟩
        rw [← w3 false 1, List.getLast?_append]
        have := w4 h0
        rw [raw_written _ 1] at this
        rw [this]; rfl
    obtain ⟨z, z1, z2⟩ := hlast
    constructor
    · rw [e1]
      refine Eq.trans ?_ (solid nl 68 z (by simp) (by decide) z1 z2)
      congr 1
      simp only [frags_at, conds_filter, p1, p2, p3, p4, p5, List.filter_cons, List.filter_nil, List.map_nil, List.isEmpty_nil, List.isEmpty_map]
      have a1' := a1
      simp only [List.map_cons, List.map_nil] at a1'
      by_cases h0 : condsOf l = []
      · simp only [h0, List.isEmpty_nil, List.isEmpty_cons, Bool.not_true, Bool.not_false, if_true, if_false, Bool.false_eq_true, List.map_cons, List.map_nil, frags_at, p1, whereText, List.append_nil]
        simp only [joinBytes]
        rw [a1']; simp
      · have hce : (condsOf l).isEmpty = false := by simpa using h0
        obtain ⟨c1, c2⟩ := piece_conds nl t l h0
        simp only [hce, List.isEmpty_nil, List.isEmpty_cons, Bool.not_true, Bool.not_false, if_true, if_false, Bool.false_eq_true, List.map_cons, List.map_nil, frags_at, p1, conds_filter, whereText, h0]
        simp only [joinBytes]
        rw [a1', c1]
        simp
    · rw [e2]
      simp only [List.flatMap_cons, List.flatMap_nil, frags_at, p1, p2, p3, p4, p5, conds_filter, a2]
      by_cases h0 : condsOf l = []
      · simp [h0, clauseArgs]
      · rw [(piece_conds nl t l h0).2]; simp [clauseArgs]
  let ts : List (Tok α) := lits (b!"DELETE FROM " ++ t) ++ whereToks nl (condsOf l)
  have hts : ∀ pg, Xsql.written pg 1 ts = b!"DELETE FROM " ++ t ++ whereText pg nl 1 (condsOf l) := by
    intro pg
    rw [show ts = _ from rfl, written_append, written_lits, w3, vals_lits]; rfl
  have hv : vals ts = (condsOf l).map (·.2) := by
    rw [show ts = _ from rfl, vals_append, vals_lits, w2]; rfl
  have hcl : Clean ts := by
    refine (clean_lits _ ?_).append w1 ?_
    · simp [ht.1]
    · obtain ⟨z, z1, z2⟩ := htz
      rw [raw_lits, List.getLast?_append, z1]
      have := ht.2
      rw [z1] at this
      simpa using this
  obtain ⟨f1, f2⟩ := every_dialect d hc (ts := ts) hcl (by rw [key.1, raw_written ts 1, hts]) (by rw [key.2, hv])
  exact ⟨by rw [f1, hts], by rw [f2, hv]⟩

/-- The text of a query on every dialect. -/
theorem select_text (d : Dia) (nl : Bool) (st : Nat) (t : Bytes) (ht0 : t ≠ []) (ht : Plain t) (htz : ∃ z, t.getLast? = some z ∧ isCut z = false) (l : List (Step α)) (h : Spec.IsSelect l)
    (hok : ∀ x ∈ l, x.OK) (hcols : colsOf l ≠ []) :
    (build d nl st (l.map (Step.call t))).render = b!"SELECT " ++ joinBytes b!", " (colsOf l) ++ b!" " ++ (if nl then b!"\n" else []) ++ b!"FROM " ++ t ++ whereText (decide (d = .postgres)) nl 1 (condsOf l)
    ∧ (build d nl st (l.map (Step.call t))).args = (condsOf l).map (·.2) := by
  obtain ⟨p1, p2, p3, p5, p6⟩ := places_select t h
  obtain ⟨hc, e1, e2⟩ := default_text nl st t ht l hok (fun pre c v post e => absurd (by rw [e]; simp) (p6 c v))
  obtain ⟨a1, a2⟩ := piece_head nl t ht0 (Step.from_ (α := α)) b!"FROM" (by decide) posFrom (by decide) rfl
  have hcn : ∀ c ∈ colsOf l, NameOK c := fun c hc => hok _ (mem_colsOf.1 hc)
  obtain ⟨b1, b2⟩ := piece_cols nl t l hcols (fun c hc => (hcn c hc).1)
  obtain ⟨w1, w2, w3, w4⟩ := whereToks_spec nl (condsOf l) (conds_plain hok)
  have hne : (colsOf l).isEmpty = false := by simpa using hcols
  generalize hH : b!"SELECT " ++ joinBytes b!", " (colsOf l) ++ b!" " ++ (if nl then b!"\n" else []) ++ b!"FROM " ++ t = H
  have hHl : ∃ z, H.getLast? = some z ∧ isCut z = false := by
    obtain ⟨z, z1, z2⟩ := htz
    exact ⟨z, by rw [← hH, List.getLast?_append, z1]; rfl, z2⟩
  have key : (build .default nl st (l.map (Step.call t))).render = H ++ whereText false nl 1 (condsOf l) ∧ (build .default nl st (l.map (Step.call t))).args = (condsOf l).map (·.2) := by
    have hlast : ∃ z, (H ++ whereText false nl 1 (condsOf l)).getLast? = some z ∧ isCut z = false := by
      by_cases h0 : condsOf l = []
      · obtain ⟨z, z1, z2⟩ := hHl
        exact ⟨z, by rw [whereText, if_pos h0, List.append_nil, z1], z2⟩
      · refine ⟨63, ?_, by decide⟩
        rw [← w3 false 1, List.getLast?_append]
        have := w4 h0
        rw [raw_written _ 1] at this
        rw [this]; rfl
    obtain ⟨z, z1, z2⟩ := hlast
    constructor
    · rw [e1]
      refine Eq.trans ?_ (solid nl 83 z (by rw [← hH]; simp) (by decide) z1 z2)
      congr 1
      simp only [frags_at, conds_filter, cols_filter, p1, p2, p3, p5, List.filter_cons, List.filter_nil, List.map_nil, List.isEmpty_nil, List.isEmpty_map]
      have a1' := a1
      simp only [List.map_cons, List.map_nil] at a1'
      by_cases h0 : condsOf l = []
      · simp only [h0, hne, List.isEmpty_nil, List.isEmpty_cons, Bool.not_true, Bool.not_false, if_true, if_false, Bool.false_eq_true, List.map_cons, List.map_nil, frags_at, p5, cols_filter, whereText, List.append_nil]
        simp only [joinBytes]
        rw [a1', b1, ← hH]; simp
      · have hce : (condsOf l).isEmpty = false := by simpa using h0
        obtain ⟨c1, c2⟩ := piece_conds nl t l h0
        simp only [hce, hne, List.isEmpty_nil, List.isEmpty_cons, Bool.not_true, Bool.not_false, if_true, if_false, Bool.false_eq_true, List.map_cons, List.map_nil, frags_at, p5, cols_filter, conds_filter, whereText, h0]
        simp only [joinBytes]
        rw [a1', b1, c1, ← hH]
        simp
    · rw [e2]
      simp only [List.flatMap_cons, List.flatMap_nil, frags_at, p1, p2, p3, p5, conds_filter, cols_filter, a2, b2]
      by_cases h0 : condsOf l = []
      · simp [h0, clauseArgs]
      · rw [(piece_conds nl t l h0).2]; simp [clauseArgs]
  let ts : List (Tok α) := lits H ++ whereToks nl (condsOf l)
  have hts : ∀ pg, Xsql.written pg 1 ts = H ++ whereText pg nl 1 (condsOf l) := by
    intro pg
    rw [show ts = _ from rfl, written_append, written_lits, w3, vals_lits]; rfl
  have hv : vals ts = (condsOf l).map (·.2) := by
    rw [show ts = _ from rfl, vals_append, vals_lits, w2]; rfl
  have hjq : (63 : UInt8) ∉ joinBytes b!", " (colsOf l) := join_no (by decide) fun c hc => (hcn c hc).2.1
  have hcl : Clean ts := by
    refine (clean_lits _ ?_).append w1 ?_
    · rw [← hH]
      have := ht.1
      cases nl <;> simp [this, hjq]
    · obtain ⟨z, z1, z2⟩ := htz
      have := ht.2
      rw [z1] at this
      rw [raw_lits, ← hH, List.getLast?_append, z1]
      simpa using this
  obtain ⟨f1, f2⟩ := every_dialect d hc (ts := ts) hcl (by rw [key.1, raw_written ts 1, hts]) (by rw [key.2, hv])
  exact ⟨by rw [f1, hts], by rw [f2, hv]⟩

end Gen
