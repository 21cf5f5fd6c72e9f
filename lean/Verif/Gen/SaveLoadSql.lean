import Verif.Gen.SaveLoad
import Verif.Gen.Bind
import Verif.Xsql.Props3
set_option linter.unusedVariables false
set_option linter.unusedSimpArgs false
/-!
Models saved with the builder's bulk insert (xsql/stmt.go:1159-1247) and loaded with `From(t).Bind(&m)` (xsql/stmt.go:1020-1038) and the generated `ScanRow`, through a small database that
reads the statements as text.  C109.
-/
namespace Gen
open Schema Types Xsql

/-! ### A database with one table -/

/-- The word read so far, if any. -/
def flush (cur : Bytes) : List Bytes := if cur = [] then [] else [cur]

/-- The words of a statement: spaces and line breaks separate, parentheses and commas are words of their own. -/
def words (cur : Bytes) : Bytes → List Bytes
  | [] => flush cur
  | c :: s =>
    if c = c!" " ∨ c = c!"\n" then flush cur ++ words [] s
    else if c = c!"(" ∨ c = c!")" ∨ c = c!"," then flush cur ++ [c] :: words [] s
    else words (cur ++ [c]) s

/-- `a , b , c` up to the word `stop`. -/
def names (stop : Bytes) : List Bytes → Option (List Bytes × List Bytes)
  | w :: x :: r =>
    if x = b!"," then (names stop r).map fun p => (w :: p.1, p.2)
    else if x = stop then some ([w], r)
    else none
  | _ => none

/-- `( a , b ) , ( c , d )`. -/
def groups : Nat → List Bytes → Option (List (List Bytes))
  | 0, _ => none
  | n + 1, w :: r =>
    if w = b!"(" then do
      let (g, r) ← names b!")" r
      if r = [] then return [g]
      else if r.head? = some b!"," then do
        let gs ← groups n r.tail
        return g :: gs
      else none
    else none
  | _ + 1, [] => none

/-- `INSERT INTO t ( a , b ) VALUES ( … ) , ( … )`: the table, the columns and the groups. -/
def parseInsert (sql : Bytes) : Option (Bytes × List Bytes × List (List Bytes)) :=
  match words [] sql with
  | i :: o :: t :: p :: r =>
    if i = b!"INSERT" ∧ o = b!"INTO" ∧ p = b!"(" then do
      let (cs, r) ← names b!")" r
      if r.head? = some b!"VALUES" then do
        let gs ← groups r.length r.tail
        return (t, cs, gs)
      else none
    else none
  | _ => none

/-- `SELECT a , b FROM t`: the columns and the table. -/
def parseSelect (sql : Bytes) : Option (List Bytes × Bytes) :=
  match words [] sql with
  | s :: r =>
    if s = b!"SELECT" then do
      let (cs, r) ← names b!"FROM" r
      match r with
      | [t] => return (cs, t)
      | _ => none
    else none
  | _ => none

/-- The argument of the `i`-th placeholder: `?` takes the arguments in order, `$n` the `n`-th. -/
def argOf (args : List Given) (i : Nat) (w : Bytes) : Option Given :=
  if w = b!"?" then args[i]?
  else match w with
    | 36 :: r => ((List.range args.length).find? fun j => Num.dec (j + 1) == r).bind (args[·]?)
    | _ => none

/-- The values of one group, whose first placeholder is the `i`-th. -/
def groupArgs (args : List Given) : Nat → List Bytes → Option (List Given)
  | _, [] => some []
  | i, w :: ws => do
    let v ← argOf args i w
    let r ← groupArgs args (i + 1) ws
    return v :: r

/-- The values of all groups. -/
def groupsArgs (args : List Given) : Nat → List (List Bytes) → Option (List (List Given))
  | _, [] => some []
  | i, g :: gs => do
    let a ← groupArgs args i g
    let r ← groupsArgs args (i + g.length) gs
    return a :: r

/-- A column of the table: its description, kind, and what it does to instants and texts. -/
structure TCol where
  col : Column
  kind : Kind
  storage : Storage

/-- A table: its name, columns and rows. -/
structure Table where
  name : Bytes
  cols : List TCol
  rows : List (List Cell)

/-- The value of one column of a new row: the one listed for it, or NULL. -/
def newCell (ns : List Bytes) (vals : List Given) (c : TCol) : Option Cell :=
  match (ns.zip vals).lookup c.col.name with
  | some v => (store c.kind c.col.nullable v).bind c.storage.apply
  | none => if c.col.nullable then some .null else none

/-- All or nothing. -/
def each (f : α → Option β) : List α → Option (List β)
  | [] => some []
  | a :: l => do
    let b ← f a
    let r ← each f l
    return b :: r

/-- A new row: as many values as columns listed, every column known and listed once. -/
def newRow (cols : List TCol) (ns : List Bytes) (vals : List Given) : Option (List Cell) :=
  if ns.length = vals.length ∧ (∀ n ∈ ns, n ∈ cols.map (·.col.name)) ∧ ns.Nodup then each (newCell ns vals) cols else none

/-- Running an `INSERT`: all rows are added, or none. -/
def Table.insert (T : Table) (sql : Bytes) (args : List Given) : Option Table := do
  let (t, ns, gs) ← parseInsert sql
  if t = T.name then do
    let vals ← groupsArgs args 0 gs
    let rows ← each (newRow T.cols ns) vals
    return { T with rows := T.rows ++ rows }
  else none

/-- A column of a row, as the driver hands it out. -/
def selected (drv : Driver) (cols : List TCol) (row : List Cell) (n : Bytes) : Option Given :=
  ((cols.zip row).find? fun p => p.1.col.name == n).map fun p => given drv p.1.kind p.2

/-- Running a `SELECT`: the columns of all rows. -/
def Table.select (drv : Driver) (T : Table) (sql : Bytes) : Option (List (List Given)) := do
  let (ns, t) ← parseSelect sql
  if t = T.name then each (fun row => each (selected drv T.cols row) ns) T.rows else none

/-! ### Reading the statements -/

/-- A word: not empty, without separators. -/
def IsWord (w : Bytes) : Prop := w ≠ [] ∧ ∀ c ∈ w, c ≠ c!" " ∧ c ≠ c!"\n" ∧ c ≠ c!"(" ∧ c ≠ c!")" ∧ c ≠ c!","

theorem words_word (w : Bytes) (h : ∀ c ∈ w, c ≠ c!" " ∧ c ≠ c!"\n" ∧ c ≠ c!"(" ∧ c ≠ c!")" ∧ c ≠ c!",") : ∀ cur s, words cur (w ++ s) = words (cur ++ w) s := by
  induction w with
  | nil => intro cur s; simp
  | cons c w ih =>
    intro cur s
    have hc := h c (by simp)
    rw [List.cons_append, words, if_neg (by simp [hc.1, hc.2.1]), if_neg (by simp [hc.2.2.1, hc.2.2.2.1, hc.2.2.2.2]), ih (fun x hx => h x (by simp [hx]))]
    simp

theorem words_space {w : Bytes} (h : IsWord w) (s : Bytes) : words [] (w ++ c!" " :: s) = w :: words [] s := by
  rw [words_word w h.2, List.nil_append, words, if_pos (by simp), flush, if_neg h.1]; rfl

theorem words_comma {w : Bytes} (h : IsWord w) (s : Bytes) : words [] (w ++ c!"," :: s) = w :: b!"," :: words [] s := by
  rw [words_word w h.2, List.nil_append, words, if_neg (by decide), if_pos (by simp), flush, if_neg h.1]; rfl

theorem words_end {w : Bytes} (h : IsWord w) : words [] w = [w] := by
  have := words_word w h.2 [] []
  rw [List.append_nil, List.nil_append] at this
  rw [this, words, flush, if_neg h.1]

theorem words_skip (s : Bytes) : words [] (c!" " :: s) = words [] s := by rw [words, if_pos (by simp)]; rfl
theorem words_break (nl : Bool) (s : Bytes) : words [] ((if nl then b!"\n" else []) ++ s) = words [] s := by
  cases nl
  · rfl
  · change words [] (c!"\n" :: s) = _
    rw [words, if_pos (by simp)]; rfl
theorem words_open (s : Bytes) : words [] (c!"(" :: s) = b!"(" :: words [] s := by rw [words, if_neg (by decide), if_pos (by simp)]; rfl
theorem words_close (s : Bytes) : words [] (c!")" :: s) = b!")" :: words [] s := by rw [words, if_neg (by decide), if_pos (by simp)]; rfl
theorem words_sep (s : Bytes) : words [] (c!"," :: s) = b!"," :: words [] s := by rw [words, if_neg (by decide), if_pos (by simp)]; rfl

/-- The words of `a, b, c ` are the names with commas between. -/
def commas : List Bytes → List Bytes
  | [] => []
  | [a] => [a]
  | a :: l => a :: b!"," :: commas l

theorem words_join : ∀ (l : List Bytes), l ≠ [] → (∀ w ∈ l, IsWord w) → ∀ s, words [] (joinBytes b!", " l ++ c!" " :: s) = commas l ++ words [] s := by
  intro l
  induction l with
  | nil => intro h; exact absurd rfl h
  | cons a l ih =>
    intro _ hw s
    cases l with
    | nil => rw [joinBytes, words_space (hw a (by simp))]; rfl
    | cons b l =>
      rw [joinBytes, List.append_assoc, List.append_assoc]
      change words [] (a ++ c!"," :: (c!" " :: (joinBytes b!", " (b :: l) ++ c!" " :: s))) = _
      rw [words_comma (hw a (by simp)), words_skip, ih (by simp) (fun w h => hw w (by simp [h]))]
      rfl
      simp

theorem isWord_ne_comma {w : Bytes} (h : IsWord w) : w ≠ b!"," := by
  rintro rfl
  exact (h.2 c!"," (by simp)).2.2.2.2 rfl

theorem names_commas (stop : Bytes) (hs : stop ≠ b!",") : ∀ (l : List Bytes), l ≠ [] → ∀ r, names stop (commas l ++ stop :: r) = some (l, r) := by
  intro l
  induction l with
  | nil => intro h; exact absurd rfl h
  | cons a l ih =>
    intro _ r
    cases l with
    | nil => simp [commas, names, hs]
    | cons b l =>
      have := ih (by simp) r
      simp only [commas, List.cons_append, names, if_true]
      rw [this]; rfl

/-- The words of the groups. -/
def groupWords : List (List Bytes) → List Bytes
  | [] => []
  | [g] => b!"(" :: (commas g ++ [b!")"])
  | g :: gs => b!"(" :: (commas g ++ b!")" :: b!"," :: groupWords gs)

theorem groups_words : ∀ (gs : List (List Bytes)), gs ≠ [] → (∀ g ∈ gs, g ≠ []) → ∀ n, gs.length ≤ n → groups n (groupWords gs) = some gs := by
  intro gs
  induction gs with
  | nil => intro h; exact absurd rfl h
  | cons g gs ih =>
    intro _ hg n hn
    cases n with
    | zero => simp at hn
    | succ n =>
      have hg0 := hg g (by simp)
      cases gs with
      | nil =>
        simp only [groupWords, groups, if_true]
        rw [names_commas _ (by decide) g hg0 []]
        rfl
      | cons g' gs =>
        simp only [groupWords, groups, if_true]
        rw [names_commas _ (by decide) g hg0]
        have := ih (by simp) (fun x hx => hg x (by simp [hx])) n (by simpa using hn)
        simp only [bind, Option.bind_some, reduceCtorEq, if_false, List.head?_cons, if_true, List.tail_cons, this, pure]

/-- `( a, b ), ( c, d )`, with a line break before the last parenthesis. -/
theorem words_groups (nl : Bool) : ∀ (gs : List (List Bytes)), gs ≠ [] → (∀ g ∈ gs, g ≠ [] ∧ ∀ w ∈ g, IsWord w) →
    words [] (b!"( " ++ joinBytes b!" ), ( " (gs.map (joinBytes b!", ")) ++ b!" " ++ (if nl then b!"\n" else []) ++ b!")") = groupWords gs := by
  intro gs
  induction gs with
  | nil => intro h; exact absurd rfl h
  | cons g gs ih =>
    intro _ hg
    obtain ⟨hg0, hw⟩ := hg g (by simp)
    cases gs with
    | nil =>
      simp only [List.map_cons, List.map_nil, joinBytes, groupWords, List.append_assoc]
      change words [] (c!"(" :: (c!" " :: (joinBytes b!", " g ++ c!" " :: ((if nl then b!"\n" else []) ++ b!")")))) = _
      rw [words_open, words_skip, words_join g hg0 hw, words_break]
      rfl
    | cons g' gs =>
      have := ih (by simp) (fun x hx => hg x (by simp [hx]))
      simp only [List.map_cons] at this ⊢
      rw [joinBytes]
      · simp only [List.append_assoc] at this ⊢
        change words [] (c!"(" :: (c!" " :: (joinBytes b!", " g ++ c!" " :: (c!")" :: (c!"," :: (c!" " :: (b!"( " ++ (joinBytes b!" ), ( " (joinBytes b!", " g' :: gs.map (joinBytes b!", "))
          ++ (b!" " ++ ((if nl then b!"\n" else []) ++ b!")")))))))))) = _
        rw [words_open, words_skip, words_join g hg0 hw, words_close, words_sep, words_skip, this]
        rfl
      · simp

/-- The database reads the bulk insert. -/
theorem insert_read (nl : Bool) (t : Bytes) (ht : IsWord t) (ns : List Bytes) (hn : ns ≠ []) (hw : ∀ w ∈ ns, IsWord w) (gs : List (List Bytes)) (hg : gs ≠ [])
    (hgw : ∀ g ∈ gs, g ≠ [] ∧ ∀ w ∈ g, IsWord w) :
    parseInsert (insertSQL nl t (joinBytes b!", " ns) (joinBytes b!" ), ( " (gs.map (joinBytes b!", ")))) = some (t, ns, gs) := by
  have e : words [] (insertSQL nl t (joinBytes b!", " ns) (joinBytes b!" ), ( " (gs.map (joinBytes b!", "))))
      = b!"INSERT" :: b!"INTO" :: t :: b!"(" :: (commas ns ++ b!")" :: b!"VALUES" :: groupWords gs) := by
    unfold insertSQL
    simp only [List.append_assoc]
    change words [] (b!"INSERT" ++ c!" " :: (b!"INTO" ++ c!" " :: (t ++ c!" " :: ((if nl then b!"\n" else []) ++ (c!"(" :: (c!" " :: (joinBytes b!", " ns ++ c!" " ::
      ((if nl then b!"\n" else []) ++ (c!")" :: (c!" " :: (b!"VALUES" ++ c!" " :: (b!"( " ++ (joinBytes b!" ), ( " (gs.map (joinBytes b!", ")) ++ (b!" " ++ ((if nl then b!"\n" else []) ++ b!")"))))))))))))))) = _
    have hgr := words_groups nl gs hg hgw
    simp only [List.append_assoc] at hgr
    rw [words_space ⟨by decide, by decide⟩, words_space ⟨by decide, by decide⟩, words_space ht, words_break, words_open, words_skip, words_join ns hn hw, words_break, words_close, words_skip,
      words_space ⟨by decide, by decide⟩, hgr]
  unfold parseInsert
  rw [e]
  simp only [and_self, if_true]
  rw [names_commas _ (by decide) ns hn]
  have hlen : gs.length ≤ (b!"VALUES" :: groupWords gs).length := by
    clear e hgw hg
    have : ∀ gs : List (List Bytes), gs.length ≤ (groupWords gs).length + 1 := by
      intro gs
      induction gs with
      | nil => simp
      | cons g gs ih =>
        cases gs with
        | nil => simp [groupWords]
        | cons g' gs => simp only [groupWords, List.length_cons, List.length_append] at ih ⊢; omega
    simpa using this gs
  simp only [bind, Option.bind_some, List.head?_cons, if_true, List.tail_cons, groups_words gs hg (fun g h => (hgw g h).1) _ hlen, pure]

/-- And the select. -/
theorem select_read (nl : Bool) (t : Bytes) (ht : IsWord t) (ns : List Bytes) (hn : ns ≠ []) (hw : ∀ w ∈ ns, IsWord w) :
    parseSelect (b!"SELECT " ++ joinBytes b!", " ns ++ b!" " ++ (if nl then b!"\n" else []) ++ b!"FROM " ++ t) = some (ns, t) := by
  have e : words [] (b!"SELECT " ++ joinBytes b!", " ns ++ b!" " ++ (if nl then b!"\n" else []) ++ b!"FROM " ++ t) = b!"SELECT" :: (commas ns ++ b!"FROM" :: [t]) := by
    simp only [List.append_assoc]
    change words [] (b!"SELECT" ++ c!" " :: (joinBytes b!", " ns ++ c!" " :: ((if nl then b!"\n" else []) ++ (b!"FROM" ++ c!" " :: t)))) = _
    rw [words_space ⟨by decide, by decide⟩, words_join ns hn hw, words_break, words_space ⟨by decide, by decide⟩, words_end ht]
  unfold parseSelect
  rw [e]
  simp only [if_true]
  rw [names_commas _ (by decide) ns hn]
  rfl

/-! ### Placeholders -/

/-- The placeholders of one row, with their arguments. -/
def valToks {α : Type} : List α → List (Tok α)
  | [] => []
  | [a] => [.ph a]
  | a :: l => .ph a :: (lits b!", " ++ valToks l)

/-- Those of all rows. -/
def rowToks {α : Type} : List (List α) → List (Tok α)
  | [] => []
  | [r] => valToks r
  | r :: rs => valToks r ++ (lits b!" ), ( " ++ rowToks rs)

/-- `$n`, `$n+1`, …. -/
def dollars : Nat → Nat → List Bytes
  | _, 0 => []
  | n, k + 1 => (b!"$" ++ Num.dec n) :: dollars (n + 1) k

/-- Row by row. -/
def dollarRows {α : Type} : Nat → List (List α) → List (List Bytes)
  | _, [] => []
  | n, r :: rs => dollars n r.length :: dollarRows (n + r.length) rs

theorem clean_ph {α : Type} (a : α) : Clean [Tok.ph a] := rfl

theorem join_two (sep a b : Bytes) (l : List Bytes) : joinBytes sep (a :: b :: l) = a ++ (sep ++ joinBytes sep (b :: l)) := by
  rw [joinBytes]
  · simp
  · simp

theorem last_two {a b : Bytes} (h : b.getLast? ≠ some 92) (ha : a.getLast? ≠ some 92) : (a ++ b).getLast? ≠ some 92 := by
  rw [List.getLast?_append]
  cases hb : b.getLast? with
  | none => simpa using ha
  | some z => rw [hb] at h; simpa using h

theorem valToks_spec {α : Type} : ∀ (l : List α), Clean (valToks l) ∧ vals (valToks l) = l ∧ raw (valToks l) = joinBytes b!", " (l.map fun _ => b!"?")
    ∧ (∀ n, numbered n (valToks l) = joinBytes b!", " (dollars n l.length)) ∧ (raw (valToks l)).getLast? ≠ some 92 := by
  have hq : ∀ a : α, raw [Tok.ph a] = b!"?" := fun a => rfl
  intro l
  induction l with
  | nil => exact ⟨rfl, rfl, rfl, fun _ => rfl, by simp [valToks]⟩
  | cons a l ih =>
    cases l with
    | nil => exact ⟨rfl, rfl, rfl, fun n => by simp [valToks, numbered, dollars, joinBytes], by change (raw [Tok.ph a]).getLast? ≠ _; rw [hq]; decide⟩
    | cons b l =>
      obtain ⟨h1, h2, h3, h4, h5⟩ := ih
      have ev : valToks (a :: b :: l) = [.ph a] ++ (lits b!", " ++ valToks (b :: l)) := rfl
      refine ⟨?_, ?_, ?_, ?_, ?_⟩
      · rw [ev]
        exact (clean_ph a).append ((clean_lits _ (by decide)).append h1 (by rw [raw_lits]; decide)) (by rw [hq]; decide)
      · rw [ev, vals_append, vals_append, vals_lits, h2]; rfl
      · rw [ev]; simp only [raw_append, h3, raw_lits, List.map_cons]
        rw [join_two, hq]
      · intro n
        rw [ev]
        change b!"$" ++ Num.dec n ++ numbered (n + 1) (lits b!", " ++ valToks (b :: l)) = _
        rw [numbered_append, numbered_lits, h4]
        simp only [vals_lits, List.length_nil, Nat.add_zero, List.length_cons, dollars]
        rw [join_two]
      · rw [ev, raw_append, raw_append, raw_lits, hq]
        exact last_two (last_two h5 (by decide)) (by decide)

theorem rowToks_spec {α : Type} : ∀ (rs : List (List α)), Clean (rowToks rs) ∧ vals (rowToks rs) = rs.flatten
    ∧ raw (rowToks rs) = joinBytes b!" ), ( " (rs.map fun r => joinBytes b!", " (r.map fun _ => b!"?"))
    ∧ (∀ n, numbered n (rowToks rs) = joinBytes b!" ), ( " ((dollarRows n rs).map (joinBytes b!", "))) ∧ (raw (rowToks rs)).getLast? ≠ some 92 := by
  intro rs
  induction rs with
  | nil => exact ⟨rfl, rfl, rfl, fun _ => rfl, by simp [rowToks]⟩
  | cons r rs ih =>
    obtain ⟨g1, g2, g3, g4, g5⟩ := valToks_spec r
    cases rs with
    | nil => exact ⟨g1, by simp [rowToks, g2], by simp [rowToks, g3, joinBytes], fun n => by simp [rowToks, g4, dollarRows, joinBytes], g5⟩
    | cons r' rs =>
      obtain ⟨h1, h2, h3, h4, h5⟩ := ih
      have ev : rowToks (r :: r' :: rs) = valToks r ++ (lits b!" ), ( " ++ rowToks (r' :: rs)) := rfl
      refine ⟨?_, ?_, ?_, ?_, ?_⟩
      · rw [ev]
        exact g1.append ((clean_lits _ (by decide)).append h1 (by rw [raw_lits]; decide)) g5
      · rw [ev]; simp only [vals_append, g2, h2, vals_lits, List.nil_append, List.flatten_cons]
      · rw [ev]; simp only [raw_append, g3, h3, raw_lits, List.map_cons]
        rw [join_two]
      · intro n
        rw [ev, numbered_append, numbered_append, numbered_lits, g4, h4, g2]
        simp only [vals_lits, List.length_nil, Nat.add_zero, dollarRows, List.map_cons]
        rw [join_two]
      · rw [ev, raw_append, raw_append, raw_lits]
        exact last_two (last_two h5 (by decide)) g5

theorem join_no {sep : Bytes} {l : List Bytes} {c : UInt8} (hs : c ∉ sep) (h : ∀ x ∈ l, c ∉ x) : c ∉ joinBytes sep l := by
  induction l with
  | nil => simp [joinBytes]
  | cons a l ih =>
    cases l with
    | nil => simpa [joinBytes] using h a (by simp)
    | cons b l =>
      rw [join_two]
      have := ih (fun x hx => h x (by simp [hx]))
      simp only [List.mem_append, not_or]
      exact ⟨h a (by simp), hs, this⟩

/-- The text of the bulk insert of rows of plain values, on every dialect. -/
theorem bulk_text {α : Type} (d : Dia) (nl : Bool) (st : Nat) (t : Bytes) (ht : Plain t) (ht0 : t ≠ []) (ns : List Bytes) (hn0 : ns ≠ []) (hn : ∀ n ∈ ns, NameOK n)
    (rows : List (List α)) (h0 : rows ≠ []) (hl : ∀ r ∈ rows, r.length = ns.length) :
    (bulkInsert d nl st t (rows.map fun r => (ns.zip r).map fun p => Col.val p.1 p.2)).render
        = insertSQL nl t (joinBytes b!", " ns) (joinBytes b!" ), ( " ((if d = .postgres then dollarRows 1 rows else rows.map fun r => r.map fun _ => b!"?").map (joinBytes b!", ")))
    ∧ (bulkInsert d nl st t (rows.map fun r => (ns.zip r).map fun p => Col.val p.1 p.2)).args = rows.flatten := by
  obtain ⟨r1, rs, rfl⟩ := List.exists_cons_of_ne_nil h0
  have hcol : ∀ r ∈ r1 :: rs, ∀ c ∈ (ns.zip r).map fun p => Col.val p.1 p.2, ColOK c := by
    intro r hr c hc
    obtain ⟨p, hp, rfl⟩ := List.mem_map.1 hc
    have := hn p.1 (List.of_mem_zip hp).1
    refine ⟨fragOK_plain this.2, this.1, ⟨rfl, by simp [Col.val], by simp [Col.val]⟩, by simp [Col.val]⟩
  have hok : ∀ r ∈ (r1 :: rs).map (fun r => (ns.zip r).map fun p => Col.val p.1 p.2), ∀ c ∈ r, ColOK c := by
    intro r hr
    obtain ⟨r', hr', rfl⟩ := List.mem_map.1 hr
    exact hcol r' hr'
  have hne : ((ns.zip r1).map fun p => Col.val p.1 p.2) ≠ [] := by
    intro e
    have := congrArg List.length e
    have hl1 := hl r1 (by simp)
    have hp := List.length_pos_iff.2 hn0
    simp [hl1] at this
    exact hn0 this
  have hfield : (((ns.zip r1).map fun p => Col.val p.1 p.2).map Col.field) = ns := by
    rw [List.map_map]
    exact List.map_fst_zip (by rw [hl r1 (by simp)])
  have hexpr : ∀ r ∈ r1 :: rs, (((ns.zip r).map fun p => Col.val p.1 p.2).map Col.expr) = r.map fun _ => b!"?" := by
    intro r hr
    rw [List.map_map]
    have : (ns.zip r).map Prod.snd = r := List.map_snd_zip (by rw [hl r hr])
    conv => rhs; rw [← this, List.map_map]
    rfl
  have hargs : ∀ r ∈ r1 :: rs, (((ns.zip r).map fun p => Col.val p.1 p.2).flatMap Col.args) = r := by
    intro r hr
    rw [List.flatMap_map]
    have : (ns.zip r).map Prod.snd = r := List.map_snd_zip (by rw [hl r hr])
    conv => rhs; rw [← this]
    simp only [Col.val]
    generalize ns.zip r = l
    induction l with
    | nil => rfl
    | cons a l ih => rw [List.flatMap_cons, ih]; rfl
  have hA : ((r1 :: rs).map (fun r => (ns.zip r).map fun p => Col.val p.1 p.2)).flatMap (fun r => r.flatMap Col.args) = (r1 :: rs).flatten := by
    rw [List.flatMap_map, List.flatten_eq_flatMap]
    have : ∀ l : List (List α), (∀ r ∈ l, r ∈ r1 :: rs) → l.flatMap (fun r => ((ns.zip r).map fun p => Col.val p.1 p.2).flatMap Col.args) = l.flatMap id := by
      intro l
      induction l with
      | nil => intro _; rfl
      | cons a l ih => intro h; rw [List.flatMap_cons, List.flatMap_cons, hargs a (h a (by simp)), ih (fun r hr => h r (by simp [hr]))]; rfl
    exact this _ (fun _ h => h)
  have hE : (((r1 :: rs).map (fun r => (ns.zip r).map fun p => Col.val p.1 p.2)).map fun r => joinBytes b!", " (r.map Col.expr))
      = ((r1 :: rs).map fun r => r.map fun _ => b!"?").map (joinBytes b!", ") := by
    rw [List.map_map, List.map_map]
    exact List.map_congr_left fun r hr => by simp only [Function.comp_def]; rw [hexpr r hr]
  rw [List.map_cons] at hok hA hE ⊢
  by_cases hd : d = .postgres
  · subst hd
    obtain ⟨e1, e2⟩ := C30_bulk_insert_postgres nl st (fragOK_plain ht) ht0 hne hok
    rw [if_pos rfl]
    refine ⟨?_, by rw [e2, hA]⟩
    rw [e1, hA, hE, hfield]
    obtain ⟨h1, h2, h3, h4, h5⟩ := rowToks_spec (r1 :: rs)
    let A : Bytes := b!"INSERT INTO " ++ t ++ b!" " ++ (if nl then b!"\n" else []) ++ b!"( " ++ joinBytes b!", " ns ++ b!" " ++ (if nl then b!"\n" else []) ++ b!") VALUES ( "
    let B : Bytes := b!" " ++ (if nl then b!"\n" else []) ++ b!")"
    have hins : ∀ v, insertSQL nl t (joinBytes b!", " ns) v = A ++ (v ++ B) := by
      intro v; simp only [insertSQL, A, B, List.append_assoc]
    have hAq : (63 : UInt8) ∉ A := by
      have := join_no (sep := b!", ") (l := ns) (c := 63) (by decide) (fun x hx => (hn x hx).2.1)
      simp only [A, List.mem_append, not_or]
      refine ⟨⟨⟨⟨⟨⟨⟨⟨by decide, ht.1⟩, by decide⟩, ?_⟩, by decide⟩, this⟩, by decide⟩, ?_⟩, by decide⟩ <;> cases nl <;> decide
    have hBq : (63 : UInt8) ∉ B := by simp only [B]; cases nl <;> decide
    have hAl : A.getLast? ≠ some 92 := by simp only [A]; rw [List.getLast?_append]; simp
    have hclean : Clean (lits A ++ (rowToks (r1 :: rs) ++ lits B)) :=
      (clean_lits A hAq).append (h1.append (clean_lits B hBq) h5) (by simpa using hAl)
    have hraw : raw (lits A ++ (rowToks (r1 :: rs) ++ lits B)) = insertSQL nl t (joinBytes b!", " ns) (joinBytes b!" ), ( " (((r1 :: rs).map fun r => r.map fun _ => b!"?").map (joinBytes b!", "))) := by
      rw [hins]
      simp only [raw_append, raw_lits, h3, List.map_map, Function.comp_def]
    have hvals : vals (lits A ++ (rowToks (r1 :: rs) ++ lits B)) = (r1 :: rs).flatten := by simp only [vals_append, vals_lits, h2, List.append_nil, List.nil_append]
    have hb := bound_of hclean
    rw [hraw, hvals] at hb
    rw [hb, numbered_append, numbered_append, numbered_lits, numbered_lits, hins]
    simp only [vals_lits, List.length_nil, Nat.add_zero, h4]
  · obtain ⟨e1, e2⟩ := C30_bulk_insert d hd nl st (fragOK_plain ht) ht0 hne hok
    rw [if_neg hd]
    exact ⟨by rw [e1, hE, hfield], by rw [e2, hA]⟩

/-! ### Arguments -/

theorem dollars_length (n k : Nat) : (dollars n k).length = k := by
  induction k generalizing n with
  | zero => rfl
  | succ k ih => simp [dollars, ih]

theorem isWord_dollar (n : Nat) : IsWord (b!"$" ++ Num.dec n) := by
  refine ⟨by simp, ?_⟩
  intro c hc
  rw [List.mem_append] at hc
  rcases hc with hc | hc
  · revert c; decide
  · have h2 : 48 ≤ c.toNat ∧ c.toNat ≤ 57 := (Types.dec_digits n).1.2 c hc
    refine ⟨?_, ?_, ?_, ?_, ?_⟩ <;> rintro rfl <;> exact absurd h2 (by decide)

theorem dollars_words : ∀ (k n : Nat), ∀ w ∈ dollars n k, IsWord w := by
  intro k
  induction k with
  | zero => intro n w h; cases h
  | succ k ih =>
    intro n w h
    rcases List.mem_cons.1 h with rfl | h
    · exact isWord_dollar n
    · exact ih _ _ h

theorem argOf_dollar (args : List Given) (i : Nat) (hi : i < args.length) (j : Nat) : argOf args j (b!"$" ++ Num.dec (i + 1)) = args[i]? := by
  unfold argOf
  rw [if_neg (by simp)]
  have : (List.range args.length).find? (fun j => Num.dec (j + 1) == Num.dec (i + 1)) = some i := by
    rw [List.find?_range_eq_some]
    refine ⟨by simp, by simpa using hi, ?_⟩
    intro k hk
    simp only [Bool.not_eq_true', beq_eq_false_iff_ne, ne_eq]
    intro e
    have := Xsql.C24_numbers_distinct e
    omega
  change ((List.range args.length).find? (fun j => Num.dec (j + 1) == Num.dec (i + 1))).bind (args[·]?) = _
  rw [this]; rfl

/-- The words that stand for the arguments. -/
def phWords {α : Type} (pg : Bool) : Nat → List (List α) → List (List Bytes)
  | _, [] => []
  | i, r :: rs => (if pg then dollars (i + 1) r.length else r.map fun _ => b!"?") :: phWords pg (i + r.length) rs

theorem phWords_eq {α : Type} (pg : Bool) : ∀ (rows : List (List α)) (i : Nat), phWords pg i rows = if pg then dollarRows (i + 1) rows else rows.map fun r => r.map fun _ => b!"?" := by
  intro rows
  induction rows with
  | nil => intro i; cases pg <;> rfl
  | cons r rs ih =>
    intro i
    rw [phWords, ih]
    cases pg
    · rfl
    · simp only [if_true, dollarRows]
      rw [Nat.add_right_comm]

theorem phWords_words {α : Type} (pg : Bool) : ∀ (rows : List (List α)) (i : Nat), (∀ r ∈ rows, r ≠ []) → ∀ g ∈ phWords pg i rows, g ≠ [] ∧ ∀ w ∈ g, IsWord w := by
  intro rows
  induction rows with
  | nil => intro i _ g h; cases h
  | cons r rs ih =>
    intro i hr g h
    rcases List.mem_cons.1 h with rfl | h
    · have hr0 := hr r (by simp)
      cases pg
      · simp only [Bool.false_eq_true, if_false]
        refine ⟨by simpa using hr0, ?_⟩
        intro w hw
        obtain ⟨_, _, rfl⟩ := List.mem_map.1 hw
        exact ⟨by decide, by decide⟩
      · simp only [if_true]
        refine ⟨?_, dollars_words _ _⟩
        intro e
        have := congrArg List.length e
        rw [dollars_length] at this
        exact hr0 (List.length_eq_zero_iff.1 this)
    · exact ih _ (fun x hx => hr x (by simp [hx])) g h

/-- Every placeholder gets its argument. -/
theorem group_args (pg : Bool) (args : List Given) : ∀ (r : List Given) (pre post : List Given), args = pre ++ (r ++ post) →
    groupArgs args pre.length (if pg then dollars (pre.length + 1) r.length else r.map fun _ => b!"?") = some r := by
  intro r
  induction r with
  | nil => intro pre post _; cases pg <;> rfl
  | cons v r ih =>
    intro pre post h
    have hlt : pre.length < args.length := by rw [h]; simp
    have hget : args[pre.length]? = some v := by rw [h, List.getElem?_append_right (Nat.le_refl _)]; simp
    have := ih (pre ++ [v]) post (by rw [h]; simp)
    rw [List.length_append, List.length_singleton] at this
    cases pg
    · simp only [Bool.false_eq_true, if_false, List.map_cons, groupArgs] at this ⊢
      have ha : argOf args pre.length b!"?" = some v := by unfold argOf; rw [if_pos rfl, hget]
      rw [ha, this]; rfl
    · simp only [if_true, List.length_cons, dollars, groupArgs] at this ⊢
      rw [argOf_dollar args _ hlt, hget, this]; rfl

theorem groups_args (pg : Bool) (args : List Given) : ∀ (rows : List (List Given)) (pre : List Given), args = pre ++ rows.flatten →
    groupsArgs args pre.length (phWords pg pre.length rows) = some rows := by
  intro rows
  induction rows with
  | nil => intro pre _; rfl
  | cons r rs ih =>
    intro pre h
    rw [List.flatten_cons] at h
    have h1 := group_args pg args r pre rs.flatten h
    have h2 := ih (pre ++ r) (by rw [h]; simp)
    rw [List.length_append] at h2
    have hl : (if pg then dollars (pre.length + 1) r.length else r.map fun _ => b!"?").length = r.length := by cases pg <;> simp [dollars_length]
    rw [phWords, groupsArgs, h1, hl, h2]; rfl

theorem phWords_map {α β : Type} (f : α → β) (pg : Bool) : ∀ (rows : List (List α)) (i : Nat), phWords pg i (rows.map (List.map f)) = phWords pg i rows := by
  intro rows
  induction rows with
  | nil => intro i; rfl
  | cons r rs ih =>
    intro i
    rw [List.map_cons, phWords, phWords, List.length_map, ih]
    cases pg
    · simp only [Bool.false_eq_true, if_false, List.map_map]; rfl
    · rfl

/-! ### Rows -/

theorem each_map (f : α → Option β) (g : α → β) : ∀ (l : List α), (∀ a ∈ l, f a = some (g a)) → each f l = some (l.map g) := by
  intro l
  induction l with
  | nil => intro _; rfl
  | cons a l ih =>
    intro h
    rw [each, h a (by simp), ih (fun x hx => h x (by simp [hx]))]; rfl

theorem each_append (f : α → Option β) : ∀ (a b : List α), each f (a ++ b) = (each f a).bind fun x => (each f b).map (x ++ ·) := by
  intro a
  induction a with
  | nil => intro b; simp [each]
  | cons x a ih =>
    intro b
    simp only [List.cons_append, each, bind, pure]
    cases f x with
    | none => rfl
    | some y =>
      simp only [Option.bind_some, ih]
      cases each f a with
      | none => rfl
      | some l => cases each f b <;> simp

theorem each_some (f : α → Option β) : ∀ (l : List α), (∀ a ∈ l, (f a).isSome) → ∃ r, each f l = some r := by
  intro l
  induction l with
  | nil => intro _; exact ⟨[], rfl⟩
  | cons a l ih =>
    intro h
    obtain ⟨r, hr⟩ := ih (fun x hx => h x (by simp [hx]))
    obtain ⟨b, hb⟩ := Option.isSome_iff_exists.1 (h a (by simp))
    exact ⟨b :: r, by rw [each, hb, hr]; rfl⟩

theorem find_name {cols : List TCol} (hnd : (cols.map (·.col.name)).Nodup) (g : TCol → Cell) {c : TCol} (hc : c ∈ cols) :
    (cols.zip (cols.map g)).find? (fun p => p.1.col.name == c.col.name) = some (c, g c) := by
  induction cols with
  | nil => cases hc
  | cons a cols ih =>
    rw [List.map_cons, List.nodup_cons] at hnd
    rw [List.map_cons, List.zip_cons_cons]
    rcases List.mem_cons.1 hc with rfl | hc
    · rw [List.find?_cons_of_pos (by simp)]
    · have : a.col.name ≠ c.col.name := fun e => hnd.1 (by rw [e]; exact List.mem_map.2 ⟨c, hc, rfl⟩)
      rw [List.find?_cons_of_neg (by simpa using this), ih hnd.2 hc]

theorem lookup_name : ∀ {ns : List Bytes} {vals : List Given}, ns.Nodup → ∀ {i : Nat} {n : Bytes} {v : Given}, ns[i]? = some n → vals[i]? = some v → (ns.zip vals).lookup n = some v := by
  intro ns
  induction ns with
  | nil => intro vals _ i n v h; simp at h
  | cons a ns ih =>
    intro vals hnd i n v h1 h2
    cases vals with
    | nil => simp at h2
    | cons b vals =>
      rw [List.nodup_cons] at hnd
      cases i with
      | zero =>
        simp only [List.getElem?_cons_zero, Option.some.injEq] at h1 h2
        subst h1 h2
        simp
      | succ i =>
        simp only [List.getElem?_cons_succ] at h1 h2
        have : n ≠ a := by rintro rfl; exact hnd.1 (List.mem_of_getElem? h1)
        rw [List.zip_cons_cons, List.lookup_cons, beq_false_of_ne this]
        exact ih hnd.2 h1 h2

theorem lookup_absent : ∀ {ns : List Bytes} {vals : List Given} {n : Bytes}, n ∉ ns → (ns.zip vals).lookup n = none := by
  intro ns
  induction ns with
  | nil => intro vals n _; rfl
  | cons a ns ih =>
    intro vals n h
    cases vals with
    | nil => rfl
    | cons b vals =>
      simp only [List.mem_cons, not_or] at h
      rw [List.zip_cons_cons, List.lookup_cons, beq_false_of_ne h.1]
      exact ih h.2

theorem scan_each (hex fb) : ∀ (ts : List GT) (xs : List Given), ts.length = xs.length →
    (∀ (i : Nat) (t : GT) (x : Given), ts[i]? = some t → xs[i]? = some x → ∃ g, readField hex fb t x = some g) →
    ∃ m, scanRow hex fb ts xs = some m ∧ m.length = ts.length
      ∧ ∀ (i : Nat) (t : GT) (x : Given) (g : GoVal), ts[i]? = some t → xs[i]? = some x → m[i]? = some g → readField hex fb t x = some g := by
  intro ts
  induction ts with
  | nil =>
    intro xs hl _
    cases xs with
    | nil => exact ⟨[], rfl, rfl, by intro i t x g h; simp at h⟩
    | cons => cases hl
  | cons t ts ih =>
    intro xs hl h
    cases xs with
    | nil => cases hl
    | cons x xs =>
      obtain ⟨m, h1, h2, h3⟩ := ih xs (by simpa using hl) (fun i t x ht hx => h (i + 1) t x (by simpa using ht) (by simpa using hx))
      obtain ⟨g, hg⟩ := h 0 t x rfl rfl
      refine ⟨g :: m, by rw [scanRow, hg, h1]; rfl, by simp [h2], ?_⟩
      intro i t' x' g' ht hx hm
      cases i with
      | zero =>
        simp only [List.getElem?_cons_zero, Option.some.injEq] at ht hx hm
        subst ht hx hm
        exact hg
      | succ i => exact h3 i t' x' g' (by simpa using ht) (by simpa using hx) (by simpa using hm)

/-- The fields of the loaded model are those of the saved one. -/
def Spec.SameModel (ts : List GT) (m m' : List GoVal) : Prop :=
  m'.length = m.length ∧ ∀ (i : Nat) (t : GT) (g g' : GoVal), ts[i]? = some t → m[i]? = some g → m'[i]? = some g' → Spec.SameField t g g'

/-- What the driver is given for a model (its `Value` methods). -/
def driverArgs (nilIsNull : Bool) (ts : List GT) (m : List GoVal) : Option (List Given) := each (fun p => fieldValue nilIsNull p.1 p.2) (ts.zip m)

/-- One model, one row. -/
theorem model_row (hex fb nb) (drv : Driver) (cols : List TCol) (keep : TCol → Bool) (hnd : (cols.map (·.col.name)).Nodup) (hdrop : ∀ c ∈ cols, keep c = false → c.col.nullable = true)
    (ts : List GT) (m : List GoVal) (hlt : ts.length = (cols.filter keep).length) (hlm : m.length = ts.length)
    (h : ∀ (i : Nat) (c : TCol) (t : GT) (g : GoVal), (cols.filter keep)[i]? = some c → ts[i]? = some t → m[i]? = some g →
      ∃ g', saveLoad hex fb nb c.storage drv c.kind c.col.nullable t g = some g' ∧ Spec.SameField t g g') :
    ∃ ds row gs m', driverArgs nb ts m = some ds ∧ newRow cols ((cols.filter keep).map (·.col.name)) ds = some row ∧ ds.length = (cols.filter keep).length
      ∧ each (selected drv cols row) ((cols.filter keep).map (·.col.name)) = some gs ∧ scanRow hex fb ts gs = some m' ∧ Spec.SameModel ts m m' := by
  generalize hK : cols.filter keep = K at *
  have hsub : ∀ c ∈ K, c ∈ cols := fun c hc => by rw [← hK] at hc; exact (List.mem_filter.1 hc).1
  have hKnd : (K.map (·.col.name)).Nodup := by
    rw [← hK]
    exact hnd.sublist ((List.filter_sublist).map _)
  -- the driver's values
  have hF : ∀ p ∈ ts.zip m, fieldValue nb p.1 p.2 = some ((fieldValue nb p.1 p.2).getD (.dv .null)) := by
    intro p hp
    obtain ⟨i, hi⟩ := List.getElem?_of_mem hp
    rw [List.getElem?_zip_eq_some] at hi
    have hlt' : i < K.length := by
      have := (List.getElem?_eq_some_iff.1 hi.1).1
      omega
    obtain ⟨g', hs, _⟩ := h i K[i] p.1 p.2 (List.getElem?_eq_getElem hlt') hi.1 hi.2
    unfold saveLoad at hs
    cases hv : fieldValue nb p.1 p.2 with
    | none => rw [hv] at hs; cases hs
    | some d => rfl
  have hds := each_map (fun p : GT × GoVal => fieldValue nb p.1 p.2) _ (ts.zip m) hF
  generalize hD : (ts.zip m).map (fun p => (fieldValue nb p.1 p.2).getD (.dv .null)) = ds at hds
  have hdl : ds.length = K.length := by rw [← hD]; simp; omega
  -- the cells
  have cell : ∀ (i : Nat) (c : TCol) (t : GT) (g : GoVal), K[i]? = some c → ts[i]? = some t → m[i]? = some g →
      ∃ v g', newCell (K.map (·.col.name)) ds c = some v ∧ readField hex fb t (given drv c.kind v) = some g' ∧ Spec.SameField t g g' := by
    intro i c t g hc ht hg
    obtain ⟨g', hs, hsame⟩ := h i c t g hc ht hg
    have hd : ds[i]? = some ((fieldValue nb t g).getD (.dv .null)) := by
      rw [← hD, List.getElem?_map, (List.getElem?_zip_eq_some (z := (t, g))).2 ⟨ht, hg⟩]; rfl
    unfold saveLoad at hs
    cases hv : fieldValue nb t g with
    | none => rw [hv] at hs; cases hs
    | some d =>
      rw [hv] at hs hd
      simp only [bind, Option.bind_some] at hs
      have hl := lookup_name hKnd (i := i) (n := c.col.name) (by rw [List.getElem?_map, hc]; rfl) hd
      cases hst : store c.kind c.col.nullable d with
      | none => rw [hst] at hs; cases hs
      | some v =>
        rw [hst] at hs
        simp only [Option.bind_some] at hs
        cases hap : c.storage.apply v with
        | none => rw [hap] at hs; cases hs
        | some v' =>
          rw [hap] at hs
          refine ⟨v', g', ?_, by simpa using hs, hsame⟩
          unfold newCell
          rw [hl]
          simp only [Option.getD_some, hst, Option.bind_some, hap]
  have cellAll : ∀ c ∈ cols, newCell (K.map (·.col.name)) ds c = some ((newCell (K.map (·.col.name)) ds c).getD .null) := by
    intro c hc
    by_cases hk : c ∈ K
    · obtain ⟨i, hi⟩ := List.getElem?_of_mem hk
      have hlt' := (List.getElem?_eq_some_iff.1 hi).1
      obtain ⟨v, _, hv, _⟩ := cell i c ts[i] (m[i]'(by omega)) hi (List.getElem?_eq_getElem (by omega)) (List.getElem?_eq_getElem (by omega))
      rw [hv]; rfl
    · have hkf : keep c = false := by
        cases hkc : keep c with
        | false => rfl
        | true => exact absurd (by rw [← hK]; exact List.mem_filter.2 ⟨hc, hkc⟩) hk
      have hn : c.col.name ∉ K.map (·.col.name) := by
        intro hmem
        obtain ⟨c', hc', e⟩ := List.mem_map.1 hmem
        have := List.inj_on_of_nodup_map hnd (hsub c' hc') hc e
        exact hk (this ▸ hc')
      unfold newCell
      rw [lookup_absent hn, hdrop c hc hkf]; rfl
  have hrow : newRow cols (K.map (·.col.name)) ds = some (cols.map fun c => (newCell (K.map (·.col.name)) ds c).getD .null) := by
    unfold newRow
    rw [if_pos ⟨by simp [hdl], fun n hn => by obtain ⟨c, hc, rfl⟩ := List.mem_map.1 hn; exact List.mem_map.2 ⟨c, hsub c hc, rfl⟩, hKnd⟩]
    exact each_map _ _ _ cellAll
  -- reading it
  generalize hcell : (fun c => (newCell (K.map (·.col.name)) ds c).getD .null) = cellOf at *
  have hsel : each (selected drv cols (cols.map cellOf)) (K.map (·.col.name)) = some (K.map fun c => given drv c.kind (cellOf c)) := by
    have hs : ∀ c ∈ K, selected drv cols (cols.map cellOf) c.col.name = some (given drv c.kind (cellOf c)) := by
      intro c hc
      unfold selected
      rw [find_name hnd cellOf (hsub c hc)]; rfl
    clear hrow cell cellAll hcell hKnd hsub hK hD hdl h hlt
    induction K with
    | nil => rfl
    | cons a K ih =>
      rw [List.map_cons, each, hs a (by simp), ih (fun c hc => hs c (by simp [hc]))]; rfl
  obtain ⟨m', s1, s2, s3⟩ := scan_each hex fb ts (K.map fun c => given drv c.kind (cellOf c)) (by simp [hlt]) (by
    intro i t x ht hx
    rw [List.getElem?_map] at hx
    obtain ⟨c, hc, rfl⟩ := Option.map_eq_some_iff.1 hx
    have hi := (List.getElem?_eq_some_iff.1 ht).1
    obtain ⟨v, g', hv, hr, _⟩ := cell i c t (m[i]'(by omega)) hc ht (List.getElem?_eq_getElem (by omega))
    refine ⟨g', ?_⟩
    have : cellOf c = v := by rw [← hcell]; simp only [hv, Option.getD_some]
    rw [this, hr])
  refine ⟨ds, _, _, m', hds, hrow, hdl, hsel, s1, by omega, ?_⟩
  intro i t g g' ht hg hg'
  have hi := (List.getElem?_eq_some_iff.1 ht).1
  have hc : K[i]? = some (K[i]'(by omega)) := List.getElem?_eq_getElem (by omega)
  obtain ⟨v, g'', hv, hr, hsame⟩ := cell i _ t g hc ht hg
  have := s3 i t (given drv (K[i]'(by omega)).kind (cellOf (K[i]'(by omega)))) g' ht (by rw [List.getElem?_map, hc]; rfl) hg'
  have e : cellOf (K[i]'(by omega)) = v := by rw [← hcell]; simp only [hv, Option.getD_some]
  rw [e, hr, Option.some.injEq] at this
  subst this
  exact hsame

/-- All models, through the two statements. -/
theorem models_through (hex fb nb) (drv : Driver) (T : Table) (keep : TCol → Bool) (hnd : (T.cols.map (·.col.name)).Nodup) (hdrop : ∀ c ∈ T.cols, keep c = false → c.col.nullable = true)
    (hk0 : T.cols.filter keep ≠ []) (hnames : ∀ c ∈ T.cols, keep c = true → NameOK c.col.name ∧ IsWord c.col.name) (htn : Plain T.name) (htw : IsWord T.name)
    (hrows : ∀ row ∈ T.rows, row.length = T.cols.length) (ts : List GT) (hlt : ts.length = (T.cols.filter keep).length)
    (dia : Dia) (nl nl' : Bool) (st : Nat) (models : List (List GoVal)) (hm0 : models ≠ []) (hml : ∀ m ∈ models, m.length = ts.length)
    (h : ∀ m ∈ models, ∀ (i : Nat) (c : TCol) (t : GT) (g : GoVal), (T.cols.filter keep)[i]? = some c → ts[i]? = some t → m[i]? = some g →
      ∃ g', saveLoad hex fb nb c.storage drv c.kind c.col.nullable t g = some g' ∧ Spec.SameField t g g') :
    let ns := (T.cols.filter keep).map (·.col.name)
    let q := bulkInsert dia nl st T.name (models.map fun m => (ns.zip (ts.zip m)).map fun p => Col.val p.1 p.2)
    let sel := b!"SELECT " ++ joinBytes b!", " ns ++ b!" " ++ (if nl' then b!"\n" else []) ++ b!"FROM " ++ T.name
    ∃ args T' old new models', each (fun p : GT × GoVal => fieldValue nb p.1 p.2) q.args = some args ∧ T.insert q.render args = some T'
      ∧ T.select drv sel = some old ∧ T'.select drv sel = some (old ++ new) ∧ new.map (scanRow hex fb ts) = models'.map some ∧ List.Forall₂ (Spec.SameModel ts) models models' := by
  intro ns q sel
  have hns0 : ns ≠ [] := by simpa [ns] using hk0
  have hnsok : ∀ n ∈ ns, NameOK n ∧ IsWord n := by
    intro n hn
    obtain ⟨c, hc, rfl⟩ := List.mem_map.1 hn
    have := List.mem_filter.1 hc
    exact hnames c this.1 this.2
  have hlen : ∀ r ∈ models.map (fun m => ts.zip m), r.length = ns.length := by
    intro r hr
    obtain ⟨m, hm, rfl⟩ := List.mem_map.1 hr
    have := hml m hm
    simp only [List.length_zip, ns, List.length_map]
    omega
  obtain ⟨e1, e2⟩ := bulk_text dia nl st T.name htn htw.1 ns hns0 (fun n hn => (hnsok n hn).1) (models.map fun m => ts.zip m) (by simpa using hm0) hlen
  rw [List.map_map] at e1 e2
  -- one row per model
  have one : ∀ l : List (List GoVal), (∀ m ∈ l, m ∈ models) → ∃ dss rows gss models', l.map (driverArgs nb ts) = dss.map some ∧ each (newRow T.cols ns) dss = some rows
      ∧ (∀ ds ∈ dss, ds.length = ns.length) ∧ each (fun row => each (selected drv T.cols row) ns) rows = some gss ∧ gss.map (scanRow hex fb ts) = models'.map some
      ∧ List.Forall₂ (Spec.SameModel ts) l models' := by
    intro l
    induction l with
    | nil => intro _; exact ⟨[], [], [], [], rfl, rfl, by simp, rfl, rfl, .nil⟩
    | cons m l ih =>
      intro hl
      obtain ⟨dss, rows, gss, ms, i1, i2, i3, i4, i5, i6⟩ := ih (fun x hx => hl x (by simp [hx]))
      obtain ⟨ds, row, gs, m', j1, j2, j3, j4, j5, j6⟩ := model_row hex fb nb drv T.cols keep hnd hdrop ts m hlt (hml m (hl m (by simp))) (h m (hl m (by simp)))
      refine ⟨ds :: dss, row :: rows, gs :: gss, m' :: ms, by simp [i1, j1], ?_, ?_, ?_, by simp [i5, j5], .cons j6 i6⟩
      · rw [each]; change (newRow T.cols ns ds).bind _ = _
        rw [j2, i2]; rfl
      · intro x hx
        rcases List.mem_cons.1 hx with rfl | hx
        · rw [j3]; simp [ns]
        · exact i3 x hx
      · rw [each]; change (each (selected drv T.cols row) ns).bind _ = _
        rw [j4, i4]; rfl
  obtain ⟨dss, rows, gss, ms, i1, i2, i3, i4, i5, i6⟩ := one models (fun _ h => h)
  have hargs : each (fun p : GT × GoVal => fieldValue nb p.1 p.2) q.args = some dss.flatten := by
    change each (fun p : GT × GoVal => fieldValue nb p.1 p.2) (bulkInsert dia nl st T.name (models.map fun m => (ns.zip (ts.zip m)).map fun p => Col.val p.1 p.2)).args = _
    have e2' : (bulkInsert dia nl st T.name (models.map fun m => (ns.zip (ts.zip m)).map fun p => Col.val p.1 p.2)).args = (models.map fun m => ts.zip m).flatten := e2
    rw [e2']
    have key : ∀ (l : List (List GoVal)) (dss : List (List Given)), l.map (driverArgs nb ts) = dss.map some →
        each (fun p : GT × GoVal => fieldValue nb p.1 p.2) (l.map fun m => ts.zip m).flatten = some dss.flatten := by
      intro l
      induction l with
      | nil =>
        intro dss hh
        cases dss with
        | nil => rfl
        | cons => cases hh
      | cons m l ih =>
        intro dss hh
        cases dss with
        | nil => cases hh
        | cons ds dss =>
          simp only [List.map_cons, List.cons.injEq] at hh
          rw [List.map_cons, List.flatten_cons, List.flatten_cons, each_append, ih dss hh.2]
          have h1 : each (fun p : GT × GoVal => fieldValue nb p.1 p.2) (ts.zip m) = some ds := hh.1
          rw [h1]; rfl
    exact key models dss i1
  have hdss0 : dss ≠ [] := by
    rintro rfl
    simp at i1
    exact hm0 i1
  -- the text
  have hph : (if dia = .postgres then dollarRows 1 (models.map fun m => ts.zip m) else (models.map fun m => ts.zip m).map fun r => r.map fun _ => b!"?")
      = phWords (decide (dia = .postgres)) 0 dss := by
    have hl2 : ∀ (l : List (List GoVal)) (dss : List (List Given)), (∀ m ∈ l, m.length = ts.length) → (∀ ds ∈ dss, ds.length = ns.length) → l.length = dss.length → ∀ pg i,
        phWords pg i (l.map fun m => ts.zip m) = phWords pg i dss := by
      intro l
      induction l with
      | nil =>
        intro dss _ _ hl pg i
        cases dss with
        | nil => rfl
        | cons => cases hl
      | cons m l ih =>
        intro dss h1 h2 hl pg i
        cases dss with
        | nil => cases hl
        | cons ds dss =>
          have e : (ts.zip m).length = ds.length := by
            have := h1 m (by simp)
            have := h2 ds (by simp)
            have : ns.length = (T.cols.filter keep).length := by simp [ns]
            simp only [List.length_zip]
            omega
          rw [List.map_cons, phWords, phWords, ih dss (fun x hx => h1 x (by simp [hx])) (fun x hx => h2 x (by simp [hx])) (by simpa using hl), e]
          cases pg
          · simp only [Bool.false_eq_true, if_false]
            rw [List.map_const', List.map_const', e]
          · rfl
    have hl0 : models.length = dss.length := by simpa using congrArg List.length i1
    rw [← hl2 models dss hml i3 hl0, phWords_eq]
    by_cases hd : dia = .postgres <;> simp [hd]
  have htext : parseInsert q.render = some (T.name, ns, phWords (decide (dia = .postgres)) 0 dss) := by
    have e1' : q.render = insertSQL nl T.name (joinBytes b!", " ns) (joinBytes b!" ), ( " ((phWords (decide (dia = .postgres)) 0 dss).map (joinBytes b!", "))) := by rw [← hph]; exact e1
    rw [e1']
    apply insert_read nl T.name htw ns hns0 (fun n hn => (hnsok n hn).2)
    · cases dss with
      | nil => exact absurd rfl hdss0
      | cons => simp [phWords]
    · apply phWords_words
      intro r hr
      have := i3 r hr
      intro e
      rw [e] at this
      exact hns0 (List.length_eq_zero_iff.1 this.symm)
  have hg := groups_args (decide (dia = .postgres)) dss.flatten dss [] rfl
  have hins : T.insert q.render dss.flatten = some { T with rows := T.rows ++ rows } := by
    unfold Table.insert
    rw [htext]
    simp only [bind, Option.bind_some, if_true]
    rw [show groupsArgs dss.flatten 0 (phWords (decide (dia = .postgres)) 0 dss) = some dss from hg]
    simp only [Option.bind_some, i2, pure]
  -- reading the old rows
  have hold : ∃ old, each (fun row => each (selected drv T.cols row) ns) T.rows = some old := by
    apply each_some
    intro row hr
    obtain ⟨r, hr'⟩ := each_some (selected drv T.cols row) ns (by
      intro n hn
      obtain ⟨c, hc, rfl⟩ := List.mem_map.1 hn
      have hc' := (List.mem_filter.1 hc).1
      obtain ⟨i, hi⟩ := List.getElem?_of_mem hc'
      have hil := (List.getElem?_eq_some_iff.1 hi).1
      have : (c, row[i]'(by rw [hrows row hr]; exact hil)) ∈ T.cols.zip row :=
        List.mem_of_getElem? ((List.getElem?_zip_eq_some (z := (c, _))).2 ⟨hi, List.getElem?_eq_getElem (by rw [hrows row hr]; exact hil)⟩)
      unfold selected
      rw [Option.isSome_map, List.find?_isSome]
      exact ⟨_, this, by simp⟩)
    rw [hr']; rfl
  obtain ⟨old, hold⟩ := hold
  have hsel : parseSelect sel = some (ns, T.name) := select_read nl' T.name htw ns hns0 (fun n hn => (hnsok n hn).2)
  refine ⟨dss.flatten, _, old, gss, ms, hargs, hins, ?_, ?_, i5, i6⟩
  · unfold Table.select
    rw [hsel]
    simp only [bind, Option.bind_some, if_true]
    exact hold
  · unfold Table.select
    rw [hsel]
    simp only [bind, Option.bind_some, if_true]
    rw [each_append, hold, i4]; rfl

/-- **C109**: generated models that are saved with a bulk insert and loaded with `Bind` and the generated `ScanRow` come back the same.  For every successful generation and every table: the struct
generated for it is such that, for every list of values of its fields, on every dialect, with or without line breaks: if no field holds a value that is not kept (`Spec.NotKept`), then the
database accepts the statement `InsertInto(t)` with one `NewRow().Set(column, field)…` per model, adds one row per model, and the statement `From(t).Bind(&m)` then returns the rows that were there before
followed by one row per model, in order, which `ScanRow` reads into the same field values.  Columns that are not part of the struct must be nullable. -/
theorem C109_saved_models_are_loaded (hex fb nb) (drv : Driver) (esc : Bytes → Option Bytes) (L : Lib) (cfg : Cfg) (fmtOK : File → Bool) (res : List GTable) (order : List Bytes)
    (hord : IsOrder res order) (evs : List Event) (h : generate L cfg fmtOK res order = (evs, .ok)) (t : GTable) (ht : t ∈ res)
    (T : Table) (hT : T.cols.map (·.col) = t.columns) (hnd : (t.columns.map (·.name)).Nodup) (hrows : ∀ row ∈ T.rows, row.length = T.cols.length)
    (hkeep : ∃ c ∈ t.columns, cfg.drop c.name = false)
    (hok : ∀ c ∈ t.columns, cfg.drop c.name = false → Schema.Spec.TagOK c ∧ NameOK c.name ∧ IsWord c.name)
    (hdropped : ∀ c ∈ t.columns, cfg.drop c.name = true → c.nullable = true)
    (hkind : ∀ c ∈ T.cols, cfg.drop c.col.name = false → NoOverride cfg.types c.col ∧ kindOf drv c.col = some c.kind ∧ c.kind ≠ .dec) (ho' : cfg.types b!"_count" = none)
    (htn : Plain T.name) (htw : IsWord T.name) (htn0 : ∃ z, T.name.getLast? = some z ∧ isCut z = false) (dia : Dia) (nl nl' : Bool) (st st' : Nat) :
    ∃ mt dv decls, Event.write mt (.model dv decls) ∈ evs ∧ ∃ d ∈ decls, d.table = t.name ∧ d.schema = t.schema ∧ d.scan = d.fields.map (·.name)
      ∧ ∃ fs, structOf esc d = some fs ∧ ∃ ts : List GT, d.fields.map (fun f => goTypeOf f.type) = ts.map some ∧
        ∀ models : List (List GoVal), models ≠ [] →
        (∀ m ∈ models, m.length = ts.length ∧ ∀ (i : Nat) (c : TCol) (f : GT) (g : GoVal), (T.cols.filter fun c => !cfg.drop c.col.name)[i]? = some c → ts[i]? = some f → m[i]? = some g →
          Spec.FieldVal f g ∧ ¬ Spec.NotKept c.storage nb drv c.kind c.col.nullable f g) →
        let q := bulkInsert dia nl st T.name (models.map fun m => ((d.fields.map (·.column)).zip (ts.zip m)).map fun p => Col.val p.1 p.2)
        let sel := ((build (α := GT × GoVal) dia nl' st' [.from_ T.name []]).bind fs).render
        ∃ args T' old new models', each (fun p : GT × GoVal => fieldValue nb p.1 p.2) q.args = some args ∧ T.insert q.render args = some T'
          ∧ T.select drv sel = some old ∧ T'.select drv sel = some (old ++ new) ∧ new.map (scanRow hex fb ts) = models'.map some ∧ List.Forall₂ (Spec.SameModel ts) models models' := by
  obtain ⟨mt, dv, decls, hev, d, hd, h1, h2, h3, h4, h5, h6, fs, h7, h8, -⟩ := C78_bind_selects_the_columns (α := GT × GoVal) esc L cfg fmtOK res order hord evs h t ht hkeep
    (fun c hc hdr => ⟨(hok c hc hdr).1, (hok c hc hdr).2.1⟩) dia nl' st' T.name htn htn0
  generalize hK : T.cols.filter (fun c => !cfg.drop c.col.name) = K
  have hkept : t.columns.filter (fun c => !cfg.drop c.name) = K.map (·.col) := by
    rw [← hT, ← hK, List.filter_map]; rfl
  have hmem : ∀ c ∈ T.cols, c.col ∈ t.columns := fun c hc => by rw [← hT]; exact List.mem_map.2 ⟨c, hc, rfl⟩
  have hK' : ∀ c ∈ K, c ∈ T.cols ∧ cfg.drop c.col.name = false := by
    intro c hc
    rw [← hK] at hc
    have := List.mem_filter.1 hc
    exact ⟨this.1, by simpa using this.2⟩
  rw [hkept, List.map_map] at h5 h6
  rw [hkept, List.map_map] at h8
  let ts : List GT := K.map fun c => expected c.kind c.col.nullable (isID L.eqFold c.col.name) (hasSuffix c.col.name b!"_ids")
  have hch : ∀ c ∈ K, (toGoType L.eqFold cfg.types c.col).bind goTypeOf = some (expected c.kind c.col.nullable (isID L.eqFold c.col.name) (hasSuffix c.col.name b!"_ids")) := by
    intro c hc
    obtain ⟨g1, g2⟩ := hK' c hc
    obtain ⟨k1, k2, -⟩ := hkind c g1 g2
    exact chosen L.eqFold cfg.types drv c.col c.kind k1 ho' k2
  have hts : d.fields.map (fun f => goTypeOf f.type) = ts.map some := by
    have e : d.fields.map (fun f => goTypeOf f.type) = (d.fields.map (fun f => some f.type)).map (·.bind goTypeOf) := by rw [List.map_map]; rfl
    rw [e, ← h5, List.map_map]
    simp only [ts, List.map_map]
    exact List.map_congr_left fun c hc => hch c hc
  refine ⟨mt, dv, decls, hev, d, hd, h1, h2, h3, fs, h7, ts, hts, ?_⟩
  intro models hm0 hm
  have hndT : (T.cols.map (·.col.name)).Nodup := by
    have : T.cols.map (·.col.name) = t.columns.map (·.name) := by rw [← hT, List.map_map]; rfl
    rw [this]; exact hnd
  have hK0 : K ≠ [] := by
    obtain ⟨c, hc, hcd⟩ := hkeep
    intro e
    have : c ∈ t.columns.filter (fun c => !cfg.drop c.name) := List.mem_filter.2 ⟨hc, by simp [hcd]⟩
    rw [hkept, e] at this
    cases this
  have := models_through hex fb nb drv T (fun c => !cfg.drop c.col.name) hndT
    (fun c hc hk => hdropped c.col (hmem c hc) (by simpa using hk)) (by rw [hK]; exact hK0)
    (fun c hc hk => (hok c.col (hmem c hc) (by simpa using hk)).2) htn htw hrows ts (by rw [hK]; simp [ts]) dia nl nl' st models hm0 (fun m h => (hm m h).1)
    (by
      intro m hmm i c f g hc hf hg
      rw [hK] at hc
      obtain ⟨q1, q2⟩ := (hm m hmm).2 i c f g hc hf hg
      have hcm : c ∈ K := List.mem_of_getElem? hc
      have hfe : f = expected c.kind c.col.nullable (isID L.eqFold c.col.name) (hasSuffix c.col.name b!"_ids") := by
        simp only [ts, List.getElem?_map, hc, Option.map_some, Option.some.injEq] at hf
        exact hf.symm
      obtain ⟨g1, g2⟩ := hK' c hcm
      obtain ⟨-, -, k3⟩ := hkind c g1 g2
      subst hfe
      exact (save_field hex fb nb c.storage drv c.kind c.col.nullable _ _ g k3 q1).2 q2)
  rw [hK] at this
  have e6 : d.fields.map (·.column) = K.map (·.col.name) := h6
  intro q sel
  have hsel : sel = b!"SELECT " ++ joinBytes b!", " (K.map (·.col.name)) ++ b!" " ++ (if nl' then b!"\n" else []) ++ b!"FROM " ++ T.name := h8
  have hq : q = bulkInsert dia nl st T.name (models.map fun m => ((K.map (·.col.name)).zip (ts.zip m)).map fun p => Col.val p.1 p.2) := by rw [← e6]
  rw [hsel, hq]
  exact this

/-! ### Concrete cases -/

/-- A column that keeps everything. -/
def plainStorage : Storage := ⟨id, some⟩

/-- A table with a key, a column that is not part of the struct, and a name. -/
def shopTable : GTable :=
  ⟨b!"app", b!"users", b!"app.users", [toyCol b!"id" b!"int8", { toyCol b!"secret" b!"text" with nullable := true }, { toyCol b!"name" b!"text" with nullable := true }], [], some (toyCol b!"id" b!"int8")⟩

/-- The table with one row. -/
def shop : Table :=
  ⟨b!"users", [⟨toyCol b!"id" b!"int8", .int .eight, plainStorage⟩, ⟨{ toyCol b!"secret" b!"text" with nullable := true }, .text, plainStorage⟩,
    ⟨{ toyCol b!"name" b!"text" with nullable := true }, .text, plainStorage⟩], [[.int 7, .text b!"x", .text b!"Ann"]]⟩

/-- The hypotheses of `C109_saved_models_are_loaded` can be met. -/
example : IsOrder [shopTable] [b!"app"] ∧ (generate toyLib toyCfg (fun _ => true) [shopTable] [b!"app"]).2 = .ok ∧ shop.cols.map (·.col) = shopTable.columns
    ∧ (shopTable.columns.map (·.name)).Nodup ∧ (∀ row ∈ shop.rows, row.length = shop.cols.length)
    ∧ (∀ c ∈ shopTable.columns, toyCfg.drop c.name = false → Schema.Spec.TagOK c ∧ NameOK c.name ∧ IsWord c.name)
    ∧ (∃ c ∈ shopTable.columns, toyCfg.drop c.name = true) ∧ (∀ c ∈ shopTable.columns, toyCfg.drop c.name = true → c.nullable = true)
    ∧ (∀ c ∈ shop.cols, toyCfg.drop c.col.name = false → kindOf .pg c.col = some c.kind ∧ c.kind ≠ .dec)
    ∧ Spec.FieldVal .id (.num 12) ∧ ¬ Spec.NotKept plainStorage true .pg (.int .eight) false .id (.num 12)
    ∧ Spec.FieldVal .nstr (.str []) ∧ ¬ Spec.NotKept plainStorage true .pg .text true .nstr (.str []) := by
  refine ⟨⟨by decide, ?_⟩, by decide +kernel, rfl, by decide, by decide, ?_, ⟨_, List.mem_cons_of_mem _ (List.mem_cons_self ..), by decide⟩, by decide, by decide +kernel, ⟨by decide, by decide⟩, ?_, trivial, ?_⟩
  · intro s; simp [shopTable, eq_comm]
  · intro c hc hd
    simp only [shopTable, List.mem_cons, List.not_mem_nil, or_false] at hc
    rcases hc with rfl | rfl | rfl <;>
      exact ⟨⟨verbatim_ascii (by decide), by decide, verbatim_ascii (by decide), verbatim_ascii (by decide), by intro fk h; cases h⟩, ⟨by decide, by unfold Plain; decide⟩, by decide, by decide⟩
  · rintro (⟨_, h, _⟩ | ⟨h, _⟩ | ⟨h, _⟩)
    · exact absurd h (by decide)
    · cases h
    · exact h rfl
  · rintro (⟨_, _, h⟩ | ⟨h, _⟩ | ⟨_, h | h, _⟩)
    · cases h
    · cases h
    · cases h
    · exact h rfl

/-- Two models saved in PostgreSQL's numbering, the second without a name. -/
example : (bulkInsert .postgres true 0 b!"users" [[Col.val b!"id" (GT.id, GoVal.num 12), Col.val b!"name" (GT.nstr, GoVal.str b!"Bob")], [Col.val b!"id" (GT.id, GoVal.num 13), Col.val b!"name" (GT.nstr, GoVal.str [])]]).render
    = b!"INSERT INTO users \n( id, name \n) VALUES ( $1, $2 ), ( $3, $4 \n)" := by decide +kernel
example : ((shop.insert b!"INSERT INTO users \n( id, name \n) VALUES ( $1, $2 ), ( $3, $4 \n)" [.dv (.i64 12), .dv (.text b!"Bob"), .dv (.i64 13), .dv .null]).bind
      fun T => T.select .pg b!"SELECT id, name FROM users")
    = some [[.dv (.i64 7), .dv (.text b!"Ann")], [.dv (.i64 12), .dv (.text b!"Bob")], [.dv (.i64 13), .dv .null]] := by decide +kernel
/-- A key of zero is refused by a `NOT NULL` column. -/
example : ((shop.insert b!"INSERT INTO users ( id ) VALUES ( ? )" [.dv .null]).map (·.rows.length)) = none := by decide +kernel

end Gen
