import Verif.Gen.SaveLoad
set_option linter.unusedVariables false
set_option linter.unusedSimpArgs false
/-!
Text arrays of PostgreSQL and generated models: the `pq.StringArray` fields of internal/cli/schema/types.go:118-133.
-/
namespace Gen
open Schema Types

/-! ### Model -/

/-- White space for PostgreSQL's arrays (`array_isspace`). -/
def arraySpace (c : UInt8) : Bool := c = 32 ∨ (9 ≤ c.toNat ∧ c.toNat ≤ 13)

/-- An ASCII upper-case letter for a lower-case one. -/
def upper (c : UInt8) : UInt8 := if 97 ≤ c.toNat ∧ c.toNat ≤ 122 then c - 32 else c

/-- A character inside quotes: backslashes before quotes and backslashes. -/
def quoteChar (c : UInt8) : Bytes := if c = c!"\"" ∨ c = c!"\\" then [c!"\\", c] else [c]

/-- A text in quotes: both PostgreSQL and lib/pq (`appendArrayQuotedBytes`). -/
def quoted (s : Bytes) : Bytes := c!"\"" :: s.flatMap quoteChar ++ [c!"\""]

/-- Whether PostgreSQL puts an element in quotes (`array_out`): empty, the word NULL in any case, or one with braces, commas, quotes, backslashes or white space. -/
def needsQuotes (s : Bytes) : Bool :=
  s = [] ∨ s.map upper = b!"NULL" ∨ s.any fun c => c = c!"\"" ∨ c = c!"\\" ∨ c = c!"{" ∨ c = c!"}" ∨ c = c!"," ∨ arraySpace c

/-- PostgreSQL's text of an element. -/
def elemOut : Option Bytes → Bytes
  | none => b!"NULL"
  | some s => if needsQuotes s then quoted s else s

/-- PostgreSQL's text of a one-dimensional array (`array_out`; arrays with another lower bound or more dimensions are not modelled). -/
def arrayOut (l : List (Option Bytes)) : Bytes := b!"{" ++ joinComma (l.map elemOut) ++ b!"}"

/-- Where the parser of lib/pq is: before an element, in one without quotes, in one with quotes (and after a backslash), behind one, behind the closing brace. -/
inductive PqState where
  | start
  | plain (acc : Bytes)
  | quote (acc : Bytes) (esc : Bool)
  | after
  | done

/-- An element without quotes: the word NULL is no text. -/
def plainElem (s : Bytes) : Option Bytes := if s = b!"NULL" then none else some s

/-- lib/pq's `parseArray` (third party, `array.go`) behind the first opening brace, for arrays of one dimension: its loop over the bytes as a state machine. -/
def pqRun : PqState → List (Option Bytes) → Bytes → Option (List (Option Bytes))
  | .done, out, [] => some out
  | _, _, [] => none
  | .start, out, c :: r =>
    if c = c!"{" ∨ c = c!"}" ∨ c = c!"," then none
    else if c = c!"\"" then pqRun (.quote [] false) out r
    else pqRun (.plain [c]) out r
  | .plain acc, out, c :: r =>
    if c = c!"," then pqRun .start (out ++ [plainElem acc]) r
    else if c = c!"}" then pqRun .done (out ++ [plainElem acc]) r
    else pqRun (.plain (acc ++ [c])) out r
  | .quote acc true, out, c :: r => pqRun (.quote (acc ++ [c]) false) out r
  | .quote acc false, out, c :: r =>
    if c = c!"\\" then pqRun (.quote acc true) out r
    else if c = c!"\"" then pqRun .after (out ++ [some acc]) r
    else pqRun (.quote (acc ++ [c]) false) out r
  | .after, out, c :: r =>
    if c = c!"," then pqRun .start out r
    else if c = c!"}" then pqRun .done out r
    else none
  | .done, _, _ :: _ => none

/-- lib/pq's `parseArray` for arrays of one dimension: more than one dimension is an error of `scanLinearArray`, except for empty arrays. -/
def pqElems (s : Bytes) : Option (List (Option Bytes)) :=
  let n := (s.takeWhile (· = c!"{")).length
  let r := s.drop n
  if n = 0 then none
  else if r.head? = some c!"}" then (if r = List.replicate n c!"}" then some [] else none)
  else if n = 1 then pqRun .start [] r
  else none

/-- lib/pq's `StringArray.Scan` (third party, `array.go`) into a nil array: nil for NULL; an element NULL is an error. -/
def stringArrayScan : Given → Option (Option (List Bytes))
  | .dv .null => some none
  | .dv (.bytes s) => (pqElems s).bind fun l => (l.mapM id).map some
  | .dv (.text s) => (pqElems s).bind fun l => (l.mapM id).map some
  | _ => none

/-- lib/pq's `StringArray.Value` (third party, `array.go`): every element in quotes. -/
def stringArrayValue : Option (List Bytes) → Given
  | none => .dv .null
  | some l => .dv (.text (b!"{" ++ joinComma (l.map quoted) ++ b!"}"))

/-- What lib/pq hands to `Scan` for such a column: the bytes PostgreSQL printed. -/
def arrayGiven : Option (List (Option Bytes)) → Given
  | none => .dv .null
  | some l => .dv (.bytes (arrayOut l))

/-- PostgreSQL reading an array (`array_in`), for texts in the form lib/pq writes: `{}` or quoted elements and commas. -/
def pgArrayRun : PqState → List Bytes → Bytes → Option (List Bytes)
  | .done, out, [] => some out
  | _, _, [] => none
  | .start, out, c :: r => if c = c!"\"" then pgArrayRun (.quote [] false) out r else none
  | .plain _, _, _ :: _ => none
  | .quote acc true, out, c :: r => pgArrayRun (.quote (acc ++ [c]) false) out r
  | .quote acc false, out, c :: r =>
    if c = c!"\\" then pgArrayRun (.quote acc true) out r
    else if c = c!"\"" then pgArrayRun .after (out ++ [acc]) r
    else pgArrayRun (.quote (acc ++ [c]) false) out r
  | .after, out, c :: r =>
    if c = c!"," then pgArrayRun .start out r
    else if c = c!"}" then pgArrayRun .done out r
    else none
  | .done, _, _ :: _ => none

/-- PostgreSQL reading the text of an array. -/
def pgArrayIn : Bytes → Option (List Bytes)
  | 123 :: r => if r = b!"}" then some [] else pgArrayRun .start [] r
  | _ => none

/-- PostgreSQL storing a driver's value in a text array column.  `accepts`: the texts the database takes (well-formed in its encoding, no NUL byte, within the declared length). -/
def storeArray (accepts : Bytes → Bool) (nullable : Bool) : Given → Option (Option (List (Option Bytes)))
  | .dv .null => if nullable then some none else none
  | .dv (.text s) => (pgArrayIn s).bind fun l => if l.all accepts then some (some (l.map some)) else none
  | _ => none

/-! ### Specification -/

/-- A text array column. -/
def Spec.TextArray (c : Column) : Prop := c.type = b!"ARRAY" ∧ c.udtType ∈ [b!"_text", b!"_varchar"]

/-! ### Lemmas -/

theorem run_quote (out : List (Option Bytes)) (s acc t : Bytes) :
    pqRun (.quote acc false) out (s.flatMap quoteChar ++ c!"\"" :: t) = pqRun .after (out ++ [some (acc ++ s)]) t := by
  induction s generalizing acc with
  | nil => simp [pqRun]
  | cons c s ih =>
    rw [List.flatMap_cons, List.append_assoc]
    unfold quoteChar
    by_cases hc : c = c!"\"" ∨ c = c!"\\"
    · rw [if_pos hc]
      show pqRun (.quote acc false) out (c!"\\" :: c :: (s.flatMap quoteChar ++ c!"\"" :: t)) = _
      simp only [pqRun, if_true, ih]
      rw [List.append_assoc]; rfl
    · rw [if_neg hc]
      rw [not_or] at hc
      show pqRun (.quote acc false) out (c :: (s.flatMap quoteChar ++ c!"\"" :: t)) = _
      simp only [pqRun, if_neg hc.1, if_neg hc.2, ih]
      rw [List.append_assoc]; rfl

theorem run_plain (out : List (Option Bytes)) (s acc t : Bytes) (h : ∀ c ∈ s, c ≠ c!"," ∧ c ≠ c!"}") : pqRun (.plain acc) out (s ++ t) = pqRun (.plain (acc ++ s)) out t := by
  induction s generalizing acc with
  | nil => simp
  | cons c s ih =>
    have hc := h c (List.mem_cons_self ..)
    rw [List.cons_append]
    simp only [pqRun, if_neg hc.1, if_neg hc.2]
    rw [ih _ fun c hc => h c (List.mem_cons_of_mem _ hc), List.append_assoc]
    rfl

theorem not_quoted {s : Bytes} (h : needsQuotes s = false) :
    s ≠ [] ∧ s ≠ b!"NULL" ∧ ∀ c ∈ s, c ≠ c!"\"" ∧ c ≠ c!"{" ∧ c ≠ c!"}" ∧ c ≠ c!"," := by
  unfold needsQuotes at h
  simp only [decide_eq_false_iff_not, not_or] at h
  refine ⟨h.1, ?_, ?_⟩
  · rintro rfl
    exact h.2.1 (by decide)
  · intro c hc
    have h3 := h.2.2
    rw [List.any_eq_true, not_exists] at h3
    have := h3 c
    simp only [not_and, decide_eq_true_eq, not_or] at this
    have := this hc
    exact ⟨this.1, this.2.2.1, this.2.2.2.1, this.2.2.2.2.1⟩

/-- An element followed by a comma or the closing brace. -/
theorem run_element (out : List (Option Bytes)) (e : Option Bytes) (sep : UInt8) (hs : sep = c!"," ∨ sep = c!"}") (t : Bytes) :
    pqRun .start out (elemOut e ++ sep :: t) = pqRun (if sep = c!"," then .start else .done) (out ++ [e]) t := by
  have fin : ∀ (o : List (Option Bytes)), pqRun .after o (sep :: t) = pqRun (if sep = c!"," then .start else .done) o t := by
    intro o
    rcases hs with rfl | rfl <;> simp [pqRun]
  have plain : ∀ acc, pqRun (.plain acc) out (sep :: t) = pqRun (if sep = c!"," then .start else .done) (out ++ [plainElem acc]) t := by
    intro acc
    rcases hs with rfl | rfl <;> simp [pqRun]
  cases e with
  | none =>
    show pqRun .start out (78 :: ([85, 76, 76] ++ sep :: t)) = _
    simp only [pqRun]
    rw [if_neg (by decide), if_neg (by decide), run_plain _ _ _ _ (by decide), plain]
    rfl
  | some s =>
    simp only [elemOut]
    split
    · unfold quoted
      show pqRun .start out (c!"\"" :: (s.flatMap quoteChar ++ [c!"\""] ++ sep :: t)) = _
      simp only [pqRun]
      rw [if_neg (by decide), if_true, List.append_assoc]
      show pqRun _ _ (s.flatMap quoteChar ++ c!"\"" :: (sep :: t)) = _
      rw [run_quote, fin]
      rfl
    · rename_i h
      obtain ⟨h1, h2, h3⟩ := not_quoted (Bool.eq_false_iff.2 h)
      cases s with
      | nil => exact absurd rfl h1
      | cons c s =>
        have hc := h3 c (List.mem_cons_self ..)
        rw [List.cons_append]
        simp only [pqRun]
        rw [if_neg (by simp only [not_or]; exact ⟨hc.2.1, hc.2.2.1, hc.2.2.2⟩), if_neg hc.1, run_plain _ _ _ _ fun c hc => ⟨(h3 c (List.mem_cons_of_mem _ hc)).2.2.2, (h3 c (List.mem_cons_of_mem _ hc)).2.2.1⟩, plain]
        unfold plainElem
        rw [if_neg (show [c] ++ s ≠ b!"NULL" from h2)]
        rfl

theorem run_list (out : List (Option Bytes)) (e : Option Bytes) (l : List (Option Bytes)) :
    pqRun .start out (joinComma ((e :: l).map elemOut) ++ b!"}") = some (out ++ e :: l) := by
  induction l generalizing e out with
  | nil =>
    show pqRun .start out (elemOut e ++ c!"}" :: []) = _
    rw [run_element out e c!"}" (Or.inr rfl) []]
    simp [pqRun]
  | cons e' l ih =>
    show pqRun .start out ((elemOut e ++ c!"," :: joinComma ((e' :: l).map elemOut)) ++ b!"}") = _
    rw [List.append_assoc, List.cons_append, run_element out e c!"," (Or.inl rfl) _, if_pos rfl, ih]
    simp

theorem elem_head (e : Option Bytes) : ∃ c r, elemOut e = c :: r ∧ c ≠ c!"{" ∧ c ≠ c!"}" := by
  cases e with
  | none => exact ⟨_, _, rfl, by decide, by decide⟩
  | some s =>
    simp only [elemOut]
    split
    · exact ⟨_, _, rfl, by decide, by decide⟩
    · rename_i h
      obtain ⟨h1, h2, h3⟩ := not_quoted (Bool.eq_false_iff.2 h)
      cases s with
      | nil => exact absurd rfl h1
      | cons c s => exact ⟨c, s, rfl, (h3 c (List.mem_cons_self ..)).2.1, (h3 c (List.mem_cons_self ..)).2.2.1⟩

/-- lib/pq reads what PostgreSQL prints. -/
theorem elems_printed (l : List (Option Bytes)) : pqElems (arrayOut l) = some l := by
  cases l with
  | nil => decide
  | cons e l =>
    obtain ⟨c, r, h1, h2, h3⟩ := elem_head e
    have hh : ∃ t, joinComma ((e :: l).map elemOut) ++ b!"}" = c :: t := by
      cases l with
      | nil => exact ⟨r ++ b!"}", by show elemOut e ++ b!"}" = _; rw [h1]; rfl⟩
      | cons e' l => exact ⟨_, by show (elemOut e ++ c!"," :: joinComma ((e' :: l).map elemOut)) ++ b!"}" = _; rw [h1]; rfl⟩
    obtain ⟨t, ht⟩ := hh
    have hout : arrayOut (e :: l) = c!"{" :: c :: t := by
      unfold arrayOut
      rw [List.append_assoc, ht]; rfl
    have hn : ((c!"{" :: c :: t).takeWhile (· = c!"{")).length = 1 := by
      rw [List.takeWhile_cons_of_pos (by decide), List.takeWhile_cons_of_neg (by simpa using h2)]
      rfl
    unfold pqElems
    rw [hout]
    simp only [hn]
    rw [if_neg (by decide)]
    show (if (c :: t).head? = some c!"}" then _ else if 1 = 1 then pqRun .start [] (c :: t) else none) = _
    rw [if_neg (by simpa using h3), if_pos rfl, ← ht, run_list]
    rfl

theorem in_quote (out : List Bytes) (s acc t : Bytes) :
    pgArrayRun (.quote acc false) out (s.flatMap quoteChar ++ c!"\"" :: t) = pgArrayRun .after (out ++ [acc ++ s]) t := by
  induction s generalizing acc with
  | nil => simp [pgArrayRun]
  | cons c s ih =>
    rw [List.flatMap_cons, List.append_assoc]
    unfold quoteChar
    by_cases hc : c = c!"\"" ∨ c = c!"\\"
    · rw [if_pos hc]
      show pgArrayRun (.quote acc false) out (c!"\\" :: c :: (s.flatMap quoteChar ++ c!"\"" :: t)) = _
      simp only [pgArrayRun, if_true, ih]
      rw [List.append_assoc]; rfl
    · rw [if_neg hc]
      rw [not_or] at hc
      show pgArrayRun (.quote acc false) out (c :: (s.flatMap quoteChar ++ c!"\"" :: t)) = _
      simp only [pgArrayRun, if_neg hc.1, if_neg hc.2, ih]
      rw [List.append_assoc]; rfl

theorem in_elem (out : List Bytes) (s : Bytes) (t : Bytes) : pgArrayRun .start out (quoted s ++ t) = pgArrayRun .after (out ++ [s]) t := by
  unfold quoted
  show pgArrayRun .start out (c!"\"" :: (s.flatMap quoteChar ++ [c!"\""] ++ t)) = _
  simp only [pgArrayRun]
  rw [if_true, List.append_assoc]
  show pgArrayRun _ _ (s.flatMap quoteChar ++ c!"\"" :: t) = _
  rw [in_quote]
  rfl

theorem in_list (out : List Bytes) (s : Bytes) (l : List Bytes) : pgArrayRun .start out (joinComma ((s :: l).map quoted) ++ b!"}") = some (out ++ s :: l) := by
  induction l generalizing s out with
  | nil =>
    show pgArrayRun .start out (quoted s ++ c!"}" :: []) = _
    rw [in_elem]
    simp [pgArrayRun]
  | cons e' l ih =>
    show pgArrayRun .start out ((quoted s ++ c!"," :: joinComma ((e' :: l).map quoted)) ++ b!"}") = _
    rw [List.append_assoc, List.cons_append, in_elem]
    simp only [pgArrayRun, if_true]
    rw [ih]
    simp

/-- PostgreSQL reads what lib/pq writes. -/
theorem array_in (l : List Bytes) : pgArrayIn (b!"{" ++ joinComma (l.map quoted) ++ b!"}") = some l := by
  cases l with
  | nil => decide
  | cons s l =>
    have hne : joinComma ((s :: l).map quoted) ++ b!"}" ≠ b!"}" := by
      cases l with
      | nil => exact fun h => absurd (List.cons.inj h).1 (by decide)
      | cons e' l => exact fun h => absurd (List.cons.inj h).1 (by decide)
    rw [List.append_assoc]
    show (if joinComma ((s :: l).map quoted) ++ b!"}" = b!"}" then some [] else pgArrayRun .start [] (joinComma ((s :: l).map quoted) ++ b!"}")) = _
    rw [if_neg hne, in_list]
    rfl

theorem mapM_id_some (l : List Bytes) : (l.map some).mapM id = some l := by
  induction l with
  | nil => rfl
  | cons s l ih =>
    rw [List.map_cons, List.mapM_cons, ih]
    rfl

theorem mapM_id_iff (l : List (Option Bytes)) (r : List Bytes) : l.mapM id = some r ↔ l = r.map some := by
  constructor
  · intro h
    induction l generalizing r with
    | nil => cases h; rfl
    | cons e l ih =>
      rw [List.mapM_cons] at h
      cases e with
      | none => cases h
      | some s =>
        cases hl : l.mapM id with
        | none => rw [hl] at h; cases h
        | some r' =>
          rw [hl] at h
          cases h
          rw [ih r' hl]
          rfl
  · rintro rfl
    exact mapM_id_some r

/-- The field the generator chooses. -/
theorem array_chosen (eqFold : Bytes → Bytes → Bool) (over : Bytes → Option Bytes) (c : Column) (ho : NoOverride over c) (ho' : over b!"_count" = none) (hc : Spec.TextArray c) :
    toGoType eqFold over c = some b!"pq.StringArray" := by
  unfold toGoType
  rw [ho.1, ho.2]
  simp only [ho', ite_self, if_pos hc.1]
  have h2 := hc.2
  simp only [List.mem_cons, List.not_mem_nil, or_false] at h2
  rw [if_neg (by rcases h2 with h | h <;> rw [h] <;> decide), if_pos h2]

/-! ### C113 -/

/-- **C113, reading**: the generated field of a text array column shows exactly the texts of the array (nil for NULL); only an array with an element NULL makes the row unreadable. -/
theorem C113_field_shows_the_array (eqFold : Bytes → Bytes → Bool) (over : Bytes → Option Bytes) (c : Column) (ho : NoOverride over c) (ho' : over b!"_count" = none) (hc : Spec.TextArray c) :
    toGoType eqFold over c = some b!"pq.StringArray" ∧ stringArrayScan (arrayGiven none) = some none
      ∧ ∀ (l : List (Option Bytes)) (g : Option (List Bytes)), stringArrayScan (arrayGiven (some l)) = some g ↔ ∃ r, g = some r ∧ l = r.map some := by
  refine ⟨array_chosen eqFold over c ho ho' hc, rfl, ?_⟩
  intro l g
  simp only [arrayGiven, stringArrayScan, elems_printed, Option.bind_some, Option.map_eq_some_iff, mapM_id_iff]
  constructor
  · rintro ⟨r, h1, h2⟩; exact ⟨r, h2.symm, h1⟩
  · rintro ⟨r, h1, h2⟩; exact ⟨r, h2, h1.symm⟩

/-- **C113, writing back**: an array of texts, read and written back, is unchanged (empty arrays and empty texts too), and NULL stays NULL; only arrays with an element NULL are not read. -/
theorem C113_arrays_survive (accepts : Bytes → Bool) (nullable : Bool) (l : List (Option Bytes)) (hl : ∀ s, some s ∈ l → accepts s = true) :
    (stringArrayScan (arrayGiven (some l))).bind (fun g => storeArray accepts nullable (stringArrayValue g)) = (if none ∈ l then none else some (some l))
    ∧ (stringArrayScan (arrayGiven none)).bind (fun g => storeArray accepts true (stringArrayValue g)) = some none := by
  refine ⟨?_, rfl⟩
  simp only [arrayGiven, stringArrayScan, elems_printed, Option.bind_some]
  cases hm : l.mapM id with
  | none =>
    rw [if_pos]
    · rfl
    · by_contra hn
      have : ∃ r : List Bytes, l = r.map some := by
        clear hm hl
        induction l with
        | nil => exact ⟨[], rfl⟩
        | cons e l ih =>
          simp only [List.mem_cons, not_or] at hn
          obtain ⟨r, hr⟩ := ih hn.2
          cases e with
          | none => exact absurd rfl hn.1
          | some s => exact ⟨s :: r, by rw [hr]; rfl⟩
      obtain ⟨r, hr⟩ := this
      rw [hr, mapM_id_some] at hm
      cases hm
  | some r =>
    have hr := (mapM_id_iff l r).1 hm
    subst hr
    rw [if_neg (by simp)]
    have ha : r.all accepts = true := by
      rw [List.all_eq_true]
      intro s hs
      exact hl s (List.mem_map.2 ⟨s, hs, rfl⟩)
    simp only [Option.map_some, Option.bind_some, stringArrayValue, storeArray, array_in, ha, if_true]

/-- **C113, saving and loading**: a field is loaded as it was saved if and only if the database accepts it: every text is accepted, and the field is not nil if the column is NOT NULL.  Otherwise the
write is refused; nil and the empty array are told apart. -/
theorem C113_saved_and_loaded_iff (accepts : Bytes → Bool) (nullable : Bool) (g : Option (List Bytes)) :
    ((storeArray accepts nullable (stringArrayValue g)).bind (fun v => stringArrayScan (arrayGiven v)) = some g
      ↔ match g with | none => nullable = true | some l => ∀ s ∈ l, accepts s = true)
    ∧ ((storeArray accepts nullable (stringArrayValue g)).bind (fun v => stringArrayScan (arrayGiven v)) ≠ some g → storeArray accepts nullable (stringArrayValue g) = none) := by
  cases g with
  | none => cases nullable <;> simp [stringArrayValue, storeArray, arrayGiven, stringArrayScan]
  | some l =>
    simp only [stringArrayValue, storeArray, array_in, Option.bind_some]
    by_cases ha : l.all accepts = true
    · rw [if_pos ha]
      have h : stringArrayScan (arrayGiven (some (l.map some))) = some (some l) := by
        simp only [arrayGiven, stringArrayScan, elems_printed, Option.bind_some, mapM_id_some, Option.map_some]
      simp only [Option.bind_some, h, true_iff, ne_eq, not_true_eq_false, false_implies, and_true]
      exact List.all_eq_true.1 ha
    · rw [if_neg ha]
      refine ⟨?_, fun _ => rfl⟩
      rw [List.all_eq_true] at ha
      exact ⟨fun h => (nomatch h), fun h => absurd h ha⟩

/-- The hypotheses can be met, and what the texts look like. -/
example : Spec.TextArray ⟨b!"tags", b!"ARRAY", b!"_text", true, 0, 1, [], none, []⟩
    ∧ arrayOut [some b!"a", some b!"b c", none, some b!"null", some b!"", some b!"say \"no\""] = b!"{a,\"b c\",NULL,\"null\",\"\",\"say \\\"no\\\"\"}"
    ∧ stringArrayScan (arrayGiven (some [some b!"a", none])) = none
    ∧ stringArrayScan (.dv (.bytes b!"{{}}")) = some (some [])
    ∧ stringArrayScan (.dv (.bytes b!"{a,,b}")) = none := by
  refine ⟨⟨rfl, by decide⟩, by decide, by decide, by decide, by decide⟩

end Gen
