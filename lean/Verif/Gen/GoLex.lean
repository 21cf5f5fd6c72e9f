import Verif.Base
set_option linter.unusedVariables false
set_option linter.unusedSimpArgs false
/-!
How a Go compiler splits source text into tokens (Go specification, "Lexical elements"), as a machine that reads one byte at a time.

Simplifications: operators are read byte by byte (so `:=` is `:` followed by `=`; the semicolon after `++` and `--` at the end of a line is not inserted);
an integer is a word; the point of a floating-point number is an operator; a byte of 128 or more counts as a letter.  A compiler also
refuses NUL bytes and text that is not UTF-8, and reads escape sequences in strings; here a string literal keeps the text between its quotes.
-/
namespace Go

inductive Tok where
  | word (s : Bytes)      -- identifier, keyword or number
  | str (s : Bytes)       -- interpreted string literal: what is between the quotes
  | raw (s : Bytes)       -- raw string literal: its value
  | rune (s : Bytes)
  | op (b : UInt8)
  | semi                  -- a semicolon, written or inserted at the end of a line
  deriving DecidableEq, Repr

/-- Where the reader is. `need`: a newline now inserts a semicolon. -/
inductive St where
  | code (need : Bool)
  | word (w : Bytes)
  | str (s : Bytes) | strEsc (s : Bytes)
  | rune (s : Bytes) | runeEsc (s : Bytes)
  | raw (s : Bytes)
  | slash (need : Bool)
  | line (need : Bool)
  | block (need nl : Bool) | blockStar (need nl : Bool)
  deriving DecidableEq, Repr

/-- Letters, digits, `_`, and all bytes of other alphabets. -/
def isWord (b : UInt8) : Bool := (97 ≤ b && b ≤ 122) || (65 ≤ b && b ≤ 90) || (48 ≤ b && b ≤ 57) || b = 95 || 128 ≤ b

def keywords : List Bytes := [b!"break", b!"default", b!"func", b!"interface", b!"select", b!"case", b!"defer", b!"go", b!"map", b!"struct", b!"chan", b!"else", b!"goto",
  b!"package", b!"switch", b!"const", b!"fallthrough", b!"if", b!"range", b!"type", b!"continue", b!"for", b!"import", b!"return", b!"var"]

/-- Whether a semicolon is inserted after this word at the end of a line. -/
def needs (w : Bytes) : Bool := !keywords.contains w || [b!"break", b!"continue", b!"fallthrough", b!"return"].contains w

def operators : Bytes := b!"+-*%&|^<>=!:,.()[]{}~"

/-- The end of a line. -/
def endLine (need : Bool) : List Tok := if need then [.semi] else []

def stepCode (need : Bool) (b : UInt8) : Option (List Tok × St) :=
  if b = 10 then some (endLine need, .code false)
  else if b = 32 ∨ b = 9 ∨ b = 13 then some ([], .code need)
  else if isWord b then some ([], .word [b])
  else if b = c!"\"" then some ([], .str [])
  else if b = c!"`" then some ([], .raw [])
  else if b = c!"'" then some ([], .rune [])
  else if b = c!"/" then some ([], .slash need)
  else if b = c!";" then some ([.semi], .code false)
  else if operators.contains b then some ([.op b], .code (b!")]}".contains b))
  else none

def prepend (t : List Tok) (r : Option (List Tok × St)) : Option (List Tok × St) := r.map (fun x => (t ++ x.1, x.2))

/-- One byte; `none`: not a Go program. -/
def step : St → UInt8 → Option (List Tok × St)
  | .code need, b => stepCode need b
  | .word w, b => if isWord b then some ([], .word (w ++ [b])) else prepend [.word w] (stepCode (needs w) b)
  | .str s, b => if b = c!"\"" then some ([.str s], .code true) else if b = c!"\\" then some ([], .strEsc (s ++ [b])) else if b = 10 then none else some ([], .str (s ++ [b]))
  | .strEsc s, b => if b = 10 then none else some ([], .str (s ++ [b]))
  | .rune s, b => if b = c!"'" then some ([.rune s], .code true) else if b = c!"\\" then some ([], .runeEsc (s ++ [b])) else if b = 10 then none else some ([], .rune (s ++ [b]))
  | .runeEsc s, b => if b = 10 then none else some ([], .rune (s ++ [b]))
  | .raw s, b => if b = c!"`" then some ([.raw s], .code true) else if b = 13 then some ([], .raw s) else some ([], .raw (s ++ [b]))
  | .slash need, b => if b = c!"/" then some ([], .line need) else if b = c!"*" then some ([], .block need false) else prepend [.op c!"/"] (stepCode false b)
  | .line need, b => if b = 10 then some (endLine need, .code false) else some ([], .line need)
  | .block need nl, b => if b = c!"*" then some ([], .blockStar need nl) else some ([], .block need (nl || b = 10))
  | .blockStar need nl, b =>
    if b = c!"/" then (if need && nl then some ([.semi], .code false) else some ([], .code need))
    else if b = c!"*" then some ([], .blockStar need nl) else some ([], .block need (nl || b = 10))

/-- A text. -/
def run : St → Bytes → Option (List Tok × St)
  | st, [] => some ([], st)
  | st, b :: s => match step st b with
    | none => none
    | some (t, st') => prepend t (run st' s)

/-- The end of the file. -/
def finish : St → Option (List Tok)
  | .code need => some (endLine need)
  | .word w => some (.word w :: endLine (needs w))
  | .line need => some (endLine need)
  | .slash _ => some [.op c!"/"]
  | _ => none

/-- The tokens of a file; `none`: not a Go program. -/
def lex (s : Bytes) : Option (List Tok) := match run (.code false) s with
  | none => none
  | some (t, st) => (finish st).map (t ++ ·)

example : lex b!"var x = \"a\\\"b\" // c\nfunc f() {\n\treturn /* x */ `r\"`\n}" =
    some [.word b!"var", .word b!"x", .op c!"=", .str b!"a\\\"b", .semi, .word b!"func", .word b!"f", .op c!"(", .op c!")", .op c!"{", .word b!"return", .raw b!"r\"", .semi,
      .op c!"}", .semi] := by decide +kernel
example : lex b!"x = \"a\nb\"" = none := by decide +kernel

/-! ### Composition -/

theorem prepend_nil (r : Option (List Tok × St)) : prepend [] r = r := by cases r <;> simp [prepend]
theorem prepend_prepend (a b : List Tok) (r : Option (List Tok × St)) : prepend a (prepend b r) = prepend (a ++ b) r := by cases r <;> simp [prepend, List.append_assoc]
theorem prepend_some (a b : List Tok) (st : St) : prepend a (some (b, st)) = some (a ++ b, st) := rfl

theorem run_append : ∀ (a : Bytes) (st : St) (b : Bytes) (t : List Tok) (st' : St), run st a = some (t, st') → run st (a ++ b) = prepend t (run st' b) := by
  intro a
  induction a with
  | nil => intro st b t st' h; cases h; rw [prepend_nil]; rfl
  | cons x a ih =>
    intro st b t st' h
    rw [List.cons_append]
    simp only [run] at h ⊢
    cases hs : step st x with
    | none => rw [hs] at h; cases h
    | some r =>
      obtain ⟨t1, st1⟩ := r
      rw [hs] at h
      simp only at h ⊢
      cases hr : run st1 a with
      | none => rw [hr] at h; cases h
      | some r2 =>
        obtain ⟨t2, st2⟩ := r2
        rw [hr] at h
        simp only [prepend_some, Option.some.injEq, Prod.mk.injEq] at h
        rw [ih st1 b t2 st2 hr, prepend_prepend, h.1, h.2]

theorem run_word : ∀ (s w : Bytes), (∀ b ∈ s, isWord b = true) → run (.word w) s = some ([], .word (w ++ s)) := by
  intro s
  induction s with
  | nil => intro w _; simp [run]
  | cons b s ih =>
    intro w h
    simp only [run, step, h b (by simp), if_true, prepend_nil]
    rw [ih (w ++ [b]) (fun x hx => h x (by simp [hx]))]
    simp

theorem run_str : ∀ (s acc : Bytes), (∀ b ∈ s, b ≠ c!"\"" ∧ b ≠ c!"\\" ∧ b ≠ 10) → run (.str acc) s = some ([], .str (acc ++ s)) := by
  intro s
  induction s with
  | nil => intro w _; simp [run]
  | cons b s ih =>
    intro w h
    obtain ⟨h1, h2, h3⟩ := h b (by simp)
    simp only [run, step, h1, h2, h3, if_false, prepend_nil]
    rw [ih (w ++ [b]) (fun x hx => h x (by simp [hx]))]
    simp

theorem run_raw : ∀ (s acc : Bytes), (∀ b ∈ s, b ≠ c!"`" ∧ b ≠ 13) → run (.raw acc) s = some ([], .raw (acc ++ s)) := by
  intro s
  induction s with
  | nil => intro w _; simp [run]
  | cons b s ih =>
    intro w h
    obtain ⟨h1, h2⟩ := h b (by simp)
    simp only [run, step, h1, h2, if_false, prepend_nil]
    rw [ih (w ++ [b]) (fun x hx => h x (by simp [hx]))]
    simp

theorem run_line (n : Bool) : ∀ (s : Bytes), (10 : UInt8) ∉ s → run (.line n) s = some ([], .line n) := by
  intro s
  induction s with
  | nil => intro _; simp [run]
  | cons b s ih =>
    intro h
    simp only [List.mem_cons, not_or] at h
    simp only [run, step, Ne.symm h.1, if_false, prepend_nil]
    exact ih h.2

/-! ### Texts with names in them -/

/-- A piece of text: fixed text, or a name (by its number) as (the beginning of) a word, in a comment, in a string literal, in a raw string literal, or as a piece of code
followed by a space. -/
inductive Seg where
  | lit (s : Bytes)
  | word (i : Nat)
  | cmt (i : Nat)
  | str (i : Nat)
  | raw (i : Nat)
  | code (i : Nat)
  deriving DecidableEq, Repr

inductive SSt where
  | conc (s : St)
  | word (i : Nat) (suf : Bytes)
  | str (i : Nat)
  | raw (i : Nat)
  | code (i : Nat) (n : Bool)
  deriving DecidableEq, Repr

inductive STok where
  | tok (t : Tok)
  | word (i : Nat) (suf : Bytes)
  | str (i : Nat)
  | raw (i : Nat)
  | code (i : Nat)
  deriving DecidableEq, Repr

/-- The name with this number. -/
def nm (ρ : List Bytes) (i : Nat) : Bytes := ρ.getD i []

/-- The tokens of a piece of code. -/
def codeToks (g : Bytes) : List Tok := match run (.code false) (g ++ b!" ") with | some (t, _) => t | none => []

/-- A piece of code that stands for itself: whatever comes before, it gives the same tokens, and a newline after it ends the line. -/
def CodeOK (g : Bytes) : Prop := ∀ n, run (.code n) (g ++ b!" ") = some (codeToks g, .code true)

instance (g : Bytes) : Decidable (CodeOK g) := inferInstanceAs (Decidable (∀ n, run (.code n) (g ++ b!" ") = some (codeToks g, .code true)))

/-- A word that can be an identifier or a number. -/
def WordOK (w : Bytes) : Prop := w ≠ [] ∧ (∀ b ∈ w, isWord b = true) ∧ w ∉ keywords
/-- Text that can be between double quotes as it is. -/
def StrOK (s : Bytes) : Prop := ∀ b ∈ s, b ≠ c!"\"" ∧ b ≠ c!"\\" ∧ b ≠ 10
/-- Text that can be between back quotes as it is. -/
def RawOK (s : Bytes) : Prop := ∀ b ∈ s, b ≠ c!"`" ∧ b ≠ 13

instance (s : Bytes) : Decidable (WordOK s) := inferInstanceAs (Decidable (_ ∧ _))
instance (s : Bytes) : Decidable (StrOK s) := inferInstanceAs (Decidable (∀ b ∈ s, _))
instance (s : Bytes) : Decidable (RawOK s) := inferInstanceAs (Decidable (∀ b ∈ s, _))

def Seg.text (ρ : List Bytes) : Seg → Bytes
  | .lit s => s
  | .word i => nm ρ i
  | .cmt i => nm ρ i
  | .str i => nm ρ i
  | .raw i => nm ρ i
  | .code i => nm ρ i

def segText (ρ : List Bytes) : List Seg → Bytes
  | [] => []
  | x :: l => x.text ρ ++ segText ρ l

def Seg.ok (ρ : List Bytes) : Seg → Prop
  | .lit _ => True
  | .word i => WordOK (nm ρ i)
  | .cmt i => (10 : UInt8) ∉ nm ρ i
  | .str i => StrOK (nm ρ i)
  | .raw i => RawOK (nm ρ i)
  | .code i => CodeOK (nm ρ i)

def STok.inst (ρ : List Bytes) : STok → List Tok
  | .tok t => [t]
  | .word i suf => [.word (nm ρ i ++ suf)]
  | .str i => [.str (nm ρ i)]
  | .raw i => [.raw (nm ρ i)]
  | .code i => codeToks (nm ρ i)

/-- What reading on means in a state. -/
def SSt.on (ρ : List Bytes) (rest : Bytes) : SSt → Option (List Tok × St)
  | .conc s => run s rest
  | .word i suf => run (.word (nm ρ i ++ suf)) rest
  | .str i => run (.str (nm ρ i)) rest
  | .raw i => run (.raw (nm ρ i)) rest
  | .code i n => run (.code n) (nm ρ i ++ rest)

def SSt.ok (ρ : List Bytes) : SSt → Prop
  | .conc _ => True
  | .word i _ => WordOK (nm ρ i)
  | .str _ => True
  | .raw _ => True
  | .code i _ => CodeOK (nm ρ i)

/-- No keyword ends like this. -/
def sufOK (suf : Bytes) : Bool := keywords.all (fun k => !suf.isSuffixOf k)

/-- A word ends. -/
def flush (i : Nat) (suf : Bytes) (r : Bytes) : Option (List STok × SSt) :=
  if suf = [] ∨ sufOK suf = true then (run (.code true) r).map (fun x => (.word i suf :: x.1.map .tok, .conc x.2)) else none

/-- Reading a piece. -/
def segStep : SSt → Seg → Option (List STok × SSt)
  | .conc s, .lit t => (run s t).map (fun r => (r.1.map .tok, .conc r.2))
  | .word i suf, .lit t =>
    match t.dropWhile isWord with
    | [] => some ([], .word i (suf ++ t.takeWhile isWord))
    | b :: r => flush i (suf ++ t.takeWhile isWord) (b :: r)
  | .str i, .lit t => match t with
    | b :: r => if b = c!"\"" then (run (.code true) r).map (fun x => (.str i :: x.1.map .tok, .conc x.2)) else none
    | [] => none
  | .raw i, .lit t => match t with
    | b :: r => if b = c!"`" then (run (.code true) r).map (fun x => (.raw i :: x.1.map .tok, .conc x.2)) else none
    | [] => none
  | .code i n, .lit t => match t with
    | b :: r => if b = 32 then (run (.code true) r).map (fun x => (.code i :: x.1.map .tok, .conc x.2)) else none
    | [] => none
  | .conc (.code _), .word i => some ([], .word i [])
  | .conc (.str []), .str i => some ([], .str i)
  | .conc (.raw []), .raw i => some ([], .raw i)
  | .conc (.code n), .code i => some ([], .code i n)
  | .conc (.line n), .cmt i => some ([], .conc (.line n))
  | _, _ => none

def segRun : SSt → List Seg → Option (List STok × SSt)
  | s, [] => some ([], s)
  | s, x :: l => match segStep s x with
    | none => none
    | some (t, s') => (segRun s' l).map (fun r => (t ++ r.1, r.2))

theorem needs_ok {w : Bytes} (h : w ∉ keywords) : needs w = true := by
  unfold needs
  have : keywords.contains w = false := by simpa using h
  rw [this]; rfl

theorem run_code_word {n : Bool} {w : Bytes} (h : WordOK w) : run (.code n) w = some ([], .word w) := by
  obtain ⟨h0, h1, -⟩ := h
  cases w with
  | nil => exact absurd rfl h0
  | cons b w =>
    have hb := h1 b (by simp)
    have e : stepCode n b = some ([], .word [b]) := by
      unfold stepCode
      have : b ≠ 10 ∧ ¬(b = 32 ∨ b = 9 ∨ b = 13) := by
        refine ⟨?_, ?_⟩
        · rintro rfl; revert hb; decide
        · rintro (rfl | rfl | rfl) <;> revert hb <;> decide
      rw [if_neg this.1, if_neg this.2, if_pos hb]
    simp only [run, step, e, prepend_nil]
    exact run_word w [b] (fun x hx => h1 x (by simp [hx]))

theorem flatMap_tok (ρ : List Bytes) (l : List Tok) : (l.map STok.tok).flatMap (STok.inst ρ) = l := by
  induction l with
  | nil => rfl
  | cons a l ih => rw [List.map_cons, List.flatMap_cons, ih]; rfl

/-- The first byte ends the word. -/
theorem run_word_end {w : Bytes} {b : UInt8} {r : Bytes} (hb : isWord b = false) (hn : needs w = true) : run (.word w) (b :: r) = prepend [.word w] (run (.code true) (b :: r)) := by
  simp only [run, step, hb, Bool.false_eq_true, if_false, hn]
  cases hc : stepCode true b with
  | none => rfl
  | some x => obtain ⟨t0, st0⟩ := x; simp only [prepend_some, prepend_prepend]

theorem takeWhile_word (t : Bytes) : ∀ b ∈ t.takeWhile isWord, isWord b = true := by
  induction t with
  | nil => simp
  | cons a t ih =>
    intro b hb
    rw [List.takeWhile_cons] at hb
    cases ha : isWord a with
    | true => rw [ha] at hb; simp only [if_true, List.mem_cons] at hb; exact hb.elim (fun e => e ▸ ha) (ih b)
    | false => rw [ha] at hb; simp at hb

theorem dropWhile_head {t : Bytes} {b : UInt8} {r : Bytes} (h : t.dropWhile isWord = b :: r) : isWord b = false := by
  induction t with
  | nil => simp at h
  | cons a t ih =>
    rw [List.dropWhile_cons] at h
    cases ha : isWord a with
    | true => rw [ha] at h; exact ih h
    | false => rw [ha] at h; simp only [Bool.false_eq_true, if_false, List.cons.injEq] at h; rw [← h.1]; exact ha

theorem suffix_ok {w suf : Bytes} (hw : w ∉ keywords) (h : suf = [] ∨ sufOK suf = true) : w ++ suf ∉ keywords := by
  rcases h with rfl | h
  · simpa using hw
  · intro hk
    unfold sufOK at h
    rw [List.all_eq_true] at h
    have := h _ hk
    simp only [Bool.not_eq_true', Bool.eq_false_iff, ne_eq, List.isSuffixOf_iff_suffix] at this
    exact this (List.suffix_append _ _)

theorem segStep_sound (ρ : List Bytes) (s : SSt) (x : Seg) (t : List STok) (s' : SSt) (h : segStep s x = some (t, s')) (hx : x.ok ρ) (hs : s.ok ρ) :
    s'.ok ρ ∧ ∀ rest, s.on ρ (x.text ρ ++ rest) = prepend (t.flatMap (STok.inst ρ)) (s'.on ρ rest) := by
  cases s with
  | word i suf =>
    cases x with
    | lit l =>
      simp only [segStep] at h
      have hl : l = l.takeWhile isWord ++ l.dropWhile isWord := (List.takeWhile_append_dropWhile).symm
      have hw := takeWhile_word l
      cases hd : l.dropWhile isWord with
      | nil =>
        rw [hd] at h hl
        simp only [Option.some.injEq, Prod.mk.injEq] at h
        obtain ⟨rfl, rfl⟩ := h
        refine ⟨hs, fun rest => ?_⟩
        simp only [SSt.on, Seg.text, List.flatMap_nil, prepend_nil]
        rw [List.append_nil] at hl
        have e := run_word _ (nm ρ i ++ suf) hw
        rw [← hl] at e
        rw [run_append _ _ _ _ _ e, prepend_nil, ← hl, List.append_assoc]
      | cons b r =>
        rw [hd] at h hl
        simp only [flush] at h
        split at h
        · rename_i hsuf
          simp only [Option.map_eq_some_iff] at h
          obtain ⟨⟨t1, st1⟩, hr, he⟩ := h
          simp only [Prod.mk.injEq] at he
          obtain ⟨rfl, rfl⟩ := he
          refine ⟨trivial, fun rest => ?_⟩
          simp only [SSt.on, Seg.text, List.flatMap_cons, flatMap_tok]
          have e : l ++ rest = l.takeWhile isWord ++ (b :: r ++ rest) := by rw [← List.append_assoc, ← hl]
          rw [e, run_append _ _ _ _ _ (run_word _ (nm ρ i ++ suf) hw), prepend_nil, List.cons_append,
            run_word_end (dropWhile_head hd) (needs_ok (by rw [List.append_assoc]; exact suffix_ok hs.2.2 hsuf)), ← List.cons_append, run_append _ _ _ _ _ hr, prepend_prepend,
            List.append_assoc]
          rfl
        · cases h
    | word j => cases h
    | cmt j => cases h
    | str j => cases h
    | raw j => cases h
    | code j => cases h
  | str i =>
    cases x with
    | lit l =>
      cases l with
      | nil => cases h
      | cons b r =>
        simp only [segStep] at h
        split at h
        · rename_i hb
          simp only [Option.map_eq_some_iff] at h
          obtain ⟨⟨t1, st1⟩, hr, he⟩ := h
          simp only [Prod.mk.injEq] at he
          obtain ⟨rfl, rfl⟩ := he
          refine ⟨trivial, fun rest => ?_⟩
          subst hb
          simp only [SSt.on, Seg.text, List.flatMap_cons, flatMap_tok, List.cons_append, run, step, if_true]
          rw [run_append _ _ _ _ _ hr, prepend_prepend]
          rfl
        · cases h
    | word j => cases h
    | cmt j => cases h
    | str j => cases h
    | raw j => cases h
    | code j => cases h
  | raw i =>
    cases x with
    | lit l =>
      cases l with
      | nil => cases h
      | cons b r =>
        simp only [segStep] at h
        split at h
        · rename_i hb
          simp only [Option.map_eq_some_iff] at h
          obtain ⟨⟨t1, st1⟩, hr, he⟩ := h
          simp only [Prod.mk.injEq] at he
          obtain ⟨rfl, rfl⟩ := he
          refine ⟨trivial, fun rest => ?_⟩
          subst hb
          simp only [SSt.on, Seg.text, List.flatMap_cons, flatMap_tok, List.cons_append, run, step, if_true]
          rw [run_append _ _ _ _ _ hr, prepend_prepend]
          rfl
        · cases h
    | word j => cases h
    | cmt j => cases h
    | str j => cases h
    | raw j => cases h
    | code j => cases h
  | code i n =>
    cases x with
    | lit l =>
      cases l with
      | nil => cases h
      | cons b r =>
        simp only [segStep] at h
        split at h
        · rename_i hb
          simp only [Option.map_eq_some_iff] at h
          obtain ⟨⟨t1, st1⟩, hr, he⟩ := h
          simp only [Prod.mk.injEq] at he
          obtain ⟨rfl, rfl⟩ := he
          refine ⟨trivial, fun rest => ?_⟩
          subst hb
          simp only [SSt.on, Seg.text, List.flatMap_cons, flatMap_tok]
          have e : nm ρ i ++ (32 :: r ++ rest) = (nm ρ i ++ b!" ") ++ (r ++ rest) := by simp
          rw [e, run_append _ _ _ _ _ (hs n), run_append _ _ _ _ _ hr, prepend_prepend]
          rfl
        · cases h
    | word j => cases h
    | cmt j => cases h
    | str j => cases h
    | raw j => cases h
    | code j => cases h
  | conc st =>
    cases x with
    | lit l =>
      simp only [segStep, Option.map_eq_some_iff] at h
      obtain ⟨⟨t1, st1⟩, hr, he⟩ := h
      simp only [Prod.mk.injEq] at he
      obtain ⟨rfl, rfl⟩ := he
      exact ⟨trivial, fun rest => by simp only [SSt.on, Seg.text, flatMap_tok]; rw [run_append _ _ _ _ _ hr]⟩
    | word j =>
      cases st <;> simp only [segStep, Option.some.injEq, Prod.mk.injEq, reduceCtorEq] at h
      obtain ⟨rfl, rfl⟩ := h
      refine ⟨hx, fun rest => ?_⟩
      simp only [SSt.on, Seg.text, List.append_nil, List.flatMap_nil]
      rw [run_append _ _ _ _ _ (run_code_word hx)]
    | cmt j =>
      cases st <;> simp only [segStep, Option.some.injEq, Prod.mk.injEq, reduceCtorEq] at h
      obtain ⟨rfl, rfl⟩ := h
      refine ⟨trivial, fun rest => ?_⟩
      simp only [SSt.on, Seg.text, List.flatMap_nil]
      rw [run_append _ _ _ _ _ (run_line _ _ hx)]
    | str j =>
      cases st <;> simp only [segStep, reduceCtorEq] at h
      rename_i acc
      cases acc with
      | cons _ _ => cases h
      | nil =>
        simp only [Option.some.injEq, Prod.mk.injEq] at h
        obtain ⟨rfl, rfl⟩ := h
        refine ⟨trivial, fun rest => ?_⟩
        simp only [SSt.on, Seg.text, List.flatMap_nil]
        rw [run_append _ _ _ _ _ (run_str _ [] hx)]
        rfl
    | raw j =>
      cases st <;> simp only [segStep, reduceCtorEq] at h
      rename_i acc
      cases acc with
      | cons _ _ => cases h
      | nil =>
        simp only [Option.some.injEq, Prod.mk.injEq] at h
        obtain ⟨rfl, rfl⟩ := h
        refine ⟨trivial, fun rest => ?_⟩
        simp only [SSt.on, Seg.text, List.flatMap_nil]
        rw [run_append _ _ _ _ _ (run_raw _ [] hx)]
        rfl
    | code j =>
      cases st <;> simp only [segStep, Option.some.injEq, Prod.mk.injEq, reduceCtorEq] at h
      obtain ⟨rfl, rfl⟩ := h
      exact ⟨hx, fun rest => by simp only [SSt.on, Seg.text, List.flatMap_nil, prepend_nil]⟩

theorem segRun_sound' (ρ : List Bytes) : ∀ (l : List Seg) (s s' : SSt) (t : List STok), segRun s l = some (t, s') → (∀ x ∈ l, x.ok ρ) → s.ok ρ →
    ∀ rest, s.on ρ (segText ρ l ++ rest) = prepend (t.flatMap (STok.inst ρ)) (s'.on ρ rest) := by
  intro l
  induction l with
  | nil => intro s s' t h _ _ rest; cases h; rw [List.flatMap_nil, prepend_nil]; rfl
  | cons x l ih =>
    intro s s' t h hl hs rest
    simp only [segRun] at h
    cases h1 : segStep s x with
    | none => rw [h1] at h; cases h
    | some r =>
      obtain ⟨t1, s1⟩ := r
      rw [h1] at h
      simp only [Option.map_eq_some_iff, Prod.mk.injEq] at h
      obtain ⟨⟨t2, s2⟩, h2, rfl, rfl⟩ := h
      obtain ⟨hs1, e1⟩ := segStep_sound ρ s x t1 s1 h1 (hl x (by simp)) hs
      simp only [segText, List.append_assoc]
      rw [e1, ih s1 s2 t2 h2 (fun y hy => hl y (by simp [hy])) hs1, prepend_prepend, List.flatMap_append]

/-- Reading a text with names in it, symbolically. -/
theorem segRun_sound (ρ : List Bytes) {l : List Seg} {st st' : St} {t : List STok} (h : segRun (.conc st) l = some (t, .conc st')) (hl : ∀ x ∈ l, x.ok ρ) (rest : Bytes) :
    run st (segText ρ l ++ rest) = prepend (t.flatMap (STok.inst ρ)) (run st' rest) :=
  segRun_sound' ρ l (.conc st) (.conc st') t h hl trivial rest

theorem segRun_all (ρ : List Bytes) {l : List Seg} {st st' : St} {t : List STok} (h : segRun (.conc st) l = some (t, .conc st')) (hl : ∀ x ∈ l, x.ok ρ) :
    run st (segText ρ l) = some (t.flatMap (STok.inst ρ), st') := by
  have := segRun_sound ρ h hl []
  rwa [List.append_nil, run, prepend_some, List.append_nil] at this

/-- The text of pieces, followed by a text. -/
def segTextK (ρ : List Bytes) : List Seg → Bytes → Bytes
  | [], k => k
  | x :: l, k => x.text ρ ++ segTextK ρ l k

theorem segTextK_eq (ρ : List Bytes) (l : List Seg) (k : Bytes) : segTextK ρ l k = segText ρ l ++ k := by
  induction l with
  | nil => rfl
  | cons x l ih => rw [segTextK, segText, ih, List.append_assoc]

theorem run_segs (ρ : List Bytes) (l : List Seg) {st st' : St} (t : List STok) (h : segRun (.conc st) l = some (t, .conc st')) (hl : ∀ x ∈ l, x.ok ρ) (k : Bytes) :
    run st (segTextK ρ l k) = prepend (t.flatMap (STok.inst ρ)) (run st' k) := by
  rw [segTextK_eq, segRun_sound ρ h hl]

/-- A list of lines, each beginning with a newline, up to the next newline. -/
theorem run_lines {α : Type} (f : α → Bytes) (t : α → List Tok) (k k' : List Tok) (st st' : St) (hst : step st 10 = some (k, .code false))
    (hst' : step st' 10 = some (k', .code false)) : ∀ (l : List α), (∀ a ∈ l, run (.code false) (f a) = some (t a, st')) → ∀ rest,
    run st (l.flatMap (fun a => 10 :: f a) ++ 10 :: rest) = prepend (k ++ l.flatMap (fun a => t a ++ k')) (run (.code false) rest) := by
  intro l
  induction l generalizing st k with
  | nil => intro _ rest; simp [run, hst]
  | cons a l ih =>
    intro h rest
    rw [List.flatMap_cons, List.cons_append, List.cons_append, run, hst]
    simp only [List.append_assoc]
    rw [run_append _ _ _ _ _ (h a (by simp)), ih k' st' hst' (fun x hx => h x (by simp [hx])), prepend_prepend, prepend_prepend]
    simp [List.append_assoc]

/-- A list of items in a row. -/
theorem run_items {α : Type} (f : α → Bytes) (t : α → List Tok) (st : St) : ∀ (l : List α), (∀ a ∈ l, run st (f a) = some (t a, st)) → run st (l.flatMap f) = some (l.flatMap t, st) := by
  intro l
  induction l with
  | nil => intro _; rfl
  | cons a l ih =>
    intro h
    rw [List.flatMap_cons, run_append _ _ _ _ _ (h a (by simp)), ih (fun x hx => h x (by simp [hx]))]
    rfl

end Go
