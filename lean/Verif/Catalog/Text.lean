import Verif.Util
set_option linter.unusedVariables false
set_option linter.unusedSimpArgs false
/-!
The text of the column queries (schema/postgres.go:36-41, schema/sqlserver.go:44-46): schema and table names are pasted between quotes.

The lexical rules are those of SQL string constants as both databases read them with their default settings: a constant runs from a single quote to the
next single quote that is not doubled, and a doubled quote stands for one.  Everything outside constants is kept as raw text.
-/
namespace Catalog

/-- A piece of a statement: raw text, or the value of a string constant. -/
inductive Tok where
  | raw (b : Bytes)
  | str (b : Bytes)
  deriving DecidableEq, Repr

/-- Reading a statement; `inStr`: inside a constant; `acc`: the piece read so far; `none`: unterminated constant. -/
def lex : Bool → Bytes → Bytes → Option (List Tok)
  | false, acc, [] => some [.raw acc]
  | true, _, [] => none
  | true, acc, 39 :: 39 :: r => lex true (acc ++ [39]) r
  | true, acc, 39 :: r => (lex false [] r).map (.str acc :: ·)
  | false, acc, 39 :: r => (lex true [] r).map (.raw acc :: ·)
  | b, acc, c :: r => lex b (acc ++ [c]) r

/-- The pieces of a statement. -/
def tokens (q : Bytes) : Option (List Tok) := lex false [] q

/-- postgres.go:36-41: the text `fmt.Sprintf` produces. -/
def pgColumnsText (schema table : Bytes) : Bytes :=
  b!"\n\tSELECT column_name, data_type, udt_name, is_nullable, character_maximum_length, ordinal_position \n  \tFROM information_schema.columns\n \tWHERE table_schema = '" ++ schema ++
  b!"'\n   \tAND table_name = '" ++ table ++ b!"';\n"

/-- sqlserver.go:44-46. -/
def msColumnsText (schema table : Bytes) : Bytes :=
  b!"\n\tSELECT COLUMN_NAME, DATA_TYPE, DATA_TYPE, IS_NULLABLE, CHARACTER_MAXIMUM_LENGTH, ORDINAL_POSITION FROM INFORMATION_SCHEMA.COLUMNS WHERE TABLE_SCHEMA=N'" ++ schema ++
  b!"' AND TABLE_NAME = N'" ++ table ++ b!"'"

namespace Spec

/-- The statement that asks for the columns of table `t` of schema `s`, in Postgres. -/
def pgColumnsOf (s t : Bytes) : List Tok :=
  [.raw b!"\n\tSELECT column_name, data_type, udt_name, is_nullable, character_maximum_length, ordinal_position \n  \tFROM information_schema.columns\n \tWHERE table_schema = ",
   .str s, .raw b!"\n   \tAND table_name = ", .str t, .raw b!";\n"]

/-- The statement that asks for the columns of table `t` of schema `s`, in SQL Server. -/
def msColumnsOf (s t : Bytes) : List Tok :=
  [.raw b!"\n\tSELECT COLUMN_NAME, DATA_TYPE, DATA_TYPE, IS_NULLABLE, CHARACTER_MAXIMUM_LENGTH, ORDINAL_POSITION FROM INFORMATION_SCHEMA.COLUMNS WHERE TABLE_SCHEMA=N",
   .str s, .raw b!" AND TABLE_NAME = N", .str t, .raw b!""]

end Spec

/-! ### Reading text without quotes -/

theorem lex_plain (b : Bool) : ∀ (l acc r : Bytes), 39 ∉ l → lex b acc (l ++ r) = lex b (acc ++ l) r := by
  intro l
  induction l with
  | nil => intro acc r _; simp
  | cons c cs ih =>
    intro acc r h
    simp only [List.mem_cons, not_or] at h
    rw [List.cons_append, ← List.append_cons_eq_append_append acc c cs, ← ih (acc ++ [c]) r h.2]
    conv => lhs; unfold lex
    cases b <;> split <;> simp_all
where
  List.append_cons_eq_append_append (a : Bytes) (c : UInt8) (l : Bytes) : a ++ [c] ++ l = a ++ c :: l := by simp

/-- Room a piece takes in the text: a constant has its two quotes, and every quote in it twice. -/
def Tok.size : Tok → Nat
  | .raw b => b.length
  | .str b => b.length + b.count 39 + 2

theorem lex_size : ∀ (b : Bool) (acc r : Bytes) (ts : List Tok), lex b acc r = some ts →
    (ts.map Tok.size).sum = r.length + acc.length + (if b then acc.count 39 + 1 else 0) := by
  intro b acc r
  fun_induction lex b acc r with
  | case1 acc => intro ts h; cases h; simp [Tok.size]
  | case2 acc => intro ts h; cases h
  | case3 acc r ih => intro ts h; rw [ih ts h]; simp; omega
  | case4 acc r hne ih =>
    intro ts h
    obtain ⟨ts', h', rfl⟩ := Option.map_eq_some_iff.1 h
    have := ih ts' h'
    simp [Tok.size, this] at *
    omega
  | case5 acc r ih =>
    intro ts h
    obtain ⟨ts', h', rfl⟩ := Option.map_eq_some_iff.1 h
    have := ih ts' h'
    simp [Tok.size, this] at *
    omega
  | case6 b acc c r h1 h2 h3 ih =>
    intro ts h
    rw [ih ts h]
    have hc : b = true → c ≠ 39 := by rintro rfl rfl; cases r with
      | nil => exact h2 rfl rfl
      | cons d _ => exact h2 rfl rfl
    cases b
    · simp; omega
    · simp [hc rfl]; omega

theorem lex_close (acc r : Bytes) (h : ∀ x, r ≠ 39 :: x) : lex true acc (39 :: r) = (lex false [] r).map (.str acc :: ·) := by
  cases r with
  | nil => simp [lex]
  | cons c cs =>
    have : c ≠ 39 := by rintro rfl; exact h cs rfl
    conv => lhs; unfold lex
    split <;> simp_all

theorem lex_open (acc r : Bytes) : lex false acc (39 :: r) = (lex true [] r).map (.raw acc :: ·) := by simp [lex]

/-- Two pasted names: the statement is read as intended exactly when neither has a quote. -/
theorem pasted (pre mid suf s t : Bytes) (h1 : 39 ∉ pre) (h2 : 39 ∉ mid) (h3 : 39 ∉ suf) (hm : mid ≠ []) :
    tokens (pre ++ 39 :: (s ++ 39 :: (mid ++ 39 :: (t ++ 39 :: suf)))) = some [.raw pre, .str s, .raw mid, .str t, .raw suf] ↔ 39 ∉ s ∧ 39 ∉ t := by
  constructor
  · intro h
    have := lex_size _ _ _ _ h
    simp [Tok.size] at this
    constructor <;> rw [← List.count_eq_zero] <;> omega
  · rintro ⟨hs, ht⟩
    have hmid : ∀ r x : Bytes, mid ++ r ≠ 39 :: x := by
      intro r x e
      cases mid with
      | nil => exact hm rfl
      | cons c cs => simp at e; exact h2 (by simp [e.1])
    have hsuf : ∀ x : Bytes, suf ≠ 39 :: x := by rintro x rfl; exact h3 (by simp)
    unfold tokens
    rw [lex_plain _ _ _ _ h1, lex_open, lex_plain _ _ _ _ hs, lex_close _ _ (hmid _), lex_plain _ _ _ _ h2, lex_open, lex_plain _ _ _ _ ht, lex_close _ _ hsuf,
      ← List.append_nil suf, lex_plain _ _ _ _ h3]
    simp [lex]

theorem pasted' (P M F pre mid suf s t : Bytes) (hP : P = pre ++ [39]) (hM : M = 39 :: mid ++ [39]) (hF : F = 39 :: suf) (h1 : 39 ∉ pre) (h2 : 39 ∉ mid) (h3 : 39 ∉ suf)
    (hm : mid ≠ []) : tokens (P ++ s ++ M ++ t ++ F) = some [.raw pre, .str s, .raw mid, .str t, .raw suf] ↔ 39 ∉ s ∧ 39 ∉ t := by
  rw [← pasted pre mid suf s t h1 h2 h3 hm]
  subst hP hM hF
  simp only [List.append_assoc, List.cons_append, List.nil_append]

/-- **C85**, Postgres: the text sent for the columns of a table is read by the database as the question about that schema and that table exactly when neither
name contains a single quote. -/
theorem C85_postgres_text_iff_no_quote_partial (s t : Bytes) : tokens (pgColumnsText s t) = some (Spec.pgColumnsOf s t) ↔ 39 ∉ s ∧ 39 ∉ t := by
  exact pasted' _ _ _ _ _ _ s t rfl rfl rfl (by decide) (by decide) (by decide) (by decide)

/-- **C85**, SQL Server. -/
theorem C85_sqlserver_text_iff_no_quote_partial (s t : Bytes) : tokens (msColumnsText s t) = some (Spec.msColumnsOf s t) ↔ 39 ∉ s ∧ 39 ∉ t := by
  exact pasted' _ _ _ _ _ _ s t rfl rfl rfl (by decide) (by decide) (by decide) (by decide)

/-- **C85 fails** for a table whose name has a quote: the name becomes part of the statement (here a condition that is true of every column of every table). -/
theorem C85_name_becomes_sql : ∃ pre mid, tokens (pgColumnsText b!"public" b!"x' OR 'a'='a") =
    some [.raw pre, .str b!"public", .raw mid, .str b!"x", .raw b!" OR ", .str b!"a", .raw b!"=", .str b!"a", .raw b!";\n"] := by
  exact ⟨_, _, by rfl⟩

/-- **C85 fails** for an apostrophe: the statement is not even well-formed. -/
theorem C85_apostrophe_breaks_the_statement : tokens (pgColumnsText b!"public" b!"user's") = none := by decide +kernel

/-- An ordinary case. -/
example : tokens (pgColumnsText b!"public" b!"Order Items") = some (Spec.pgColumnsOf b!"public" b!"Order Items") :=
  (C85_postgres_text_iff_no_quote_partial _ _).2 (by decide)

end Catalog
