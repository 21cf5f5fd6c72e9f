import Verif.Types.Maps
set_option linter.unusedSimpArgs false
set_option linter.unusedVariables false
/-!
A concrete codec for lists of strings, string maps and maps of string lists, in JSON syntax without white space and with the escapes
`\"` and `\\` only.  It is not Go's `encoding/json` (which escapes more characters and replaces invalid UTF-8); it shows that the
contracts assumed of `encoding/json` in `MapProps.lean` can be met.
-/
namespace Types.JsonLite

/-- Body of a string literal. -/
def esc : Bytes → Bytes
  | [] => []
  | b :: s => if b = 34 ∨ b = 92 then 92 :: b :: esc s else b :: esc s

def encStr (s : Bytes) : Bytes := 34 :: (esc s ++ [34])

/-- Read a string body up to the closing quote. -/
def unesc : Bytes → Option (Bytes × Bytes)
  | [] => none
  | [b] => if b = 34 then some ([], []) else none
  | b :: c :: r =>
    if b = 34 then some ([], c :: r)
    else if b = 92 then
      match unesc r with
      | none => none
      | some (s, t) => some (c :: s, t)
    else
      match unesc (c :: r) with
      | none => none
      | some (s, t) => some (b :: s, t)

def decStr : Bytes → Option (Bytes × Bytes)
  | [] => none
  | b :: r => if b = 34 then unesc r else none

theorem unesc_esc : ∀ (s r : Bytes), unesc (esc s ++ 34 :: r) = some (s, r) := by
  intro s
  induction s with
  | nil =>
    intro r
    cases r <;> simp [esc, unesc]
  | cons b s ih =>
    intro r
    rw [esc]
    split
    · rename_i h
      have hih := ih r
      simp only [List.cons_append]
      rw [unesc, if_neg (by decide), if_pos rfl, hih]
    · rename_i h
      rw [not_or] at h
      have hih := ih r
      cases he : esc s ++ 34 :: r with
      | nil => simp at he
      | cons c t =>
        rw [he] at hih
        simp only [List.cons_append]
        rw [he, unesc, if_neg h.1, if_neg h.2, hih]

theorem decStr_encStr (s r : Bytes) : decStr (encStr s ++ r) = some (s, r) := by
  simp only [encStr, List.cons_append, List.append_assoc, List.nil_append, decStr, if_true]
  exact unesc_esc s r

variable {α : Type}

/-- A non-empty sequence of items separated by commas. -/
def encSeq (e : α → Bytes) (close : UInt8) : List α → Bytes
  | [] => [close]
  | [a] => e a ++ [close]
  | a :: b :: l => e a ++ 44 :: encSeq e close (b :: l)

def encArr (e : α → Bytes) (opn close : UInt8) (l : List α) : Bytes := opn :: encSeq e close l

def decSeq (p : Bytes → Option (α × Bytes)) (close : UInt8) : Nat → Bytes → Option (List α × Bytes)
  | 0, _ => none
  | f + 1, s =>
    match p s with
    | none => none
    | some (_, []) => none
    | some (a, c :: r) =>
      if c = close then some ([a], r)
      else if c = 44 then
        match decSeq p close f r with
        | none => none
        | some (l, t) => some (a :: l, t)
      else none

def decArr (p : Bytes → Option (α × Bytes)) (opn close : UInt8) (s : Bytes) : Option (List α × Bytes) :=
  match s with
  | [] => none
  | [_] => none
  | o :: c :: r => if o = opn then (if c = close then some ([], r) else decSeq p close (s.length) (c :: r)) else none

theorem decSeq_encSeq (e : α → Bytes) (p : Bytes → Option (α × Bytes)) (close : UInt8) (hc : close ≠ 44)
    (hp : ∀ a r, p (e a ++ r) = some (a, r)) : ∀ (l : List α) (f : Nat) (r : Bytes), l ≠ [] → l.length ≤ f →
    decSeq p close f (encSeq e close l ++ r) = some (l, r) := by
  intro l
  induction l with
  | nil => intro f r h; exact absurd rfl h
  | cons a l ih =>
    intro f r _ hf
    cases f with
    | zero => simp at hf
    | succ f =>
      cases l with
      | nil =>
        simp only [encSeq, List.append_assoc, List.cons_append, List.nil_append, decSeq]
        rw [hp]
        simp
      | cons b l =>
        simp only [encSeq, List.append_assoc, List.cons_append, decSeq]
        rw [hp]
        simp only
        rw [if_neg (Ne.symm hc), if_pos trivial, ih f r (by simp) (by simpa using hf)]

theorem encSeq_length (e : α → Bytes) (close : UInt8) (he : ∀ a, e a ≠ []) : ∀ l : List α, l.length ≤ (encSeq e close l).length := by
  intro l
  induction l with
  | nil => simp
  | cons a l ih =>
    have h1 : 1 ≤ (e a).length := by
      cases h : e a with
      | nil => exact absurd h (he a)
      | cons => simp
    cases l with
    | nil => simp [encSeq]
    | cons b l => simp only [encSeq, List.length_append, List.length_cons] at *; omega

theorem decArr_encArr (e : α → Bytes) (p : Bytes → Option (α × Bytes)) (opn close : UInt8) (hc : close ≠ 44)
    (hp : ∀ a r, p (e a ++ r) = some (a, r)) (he : ∀ a, e a ≠ [] ∧ (e a).head? ≠ some close) (l : List α) (r : Bytes) :
    decArr p opn close (encArr e opn close l ++ r) = some (l, r) := by
  cases l with
  | nil => simp [encArr, encSeq, decArr]
  | cons a l =>
    have hh : ∃ c t, encSeq e close (a :: l) = c :: t ∧ c ≠ close := by
      have hne := he a
      cases hea : e a with
      | nil => exact absurd hea hne.1
      | cons c t =>
        rw [hea] at hne
        have hcc : c ≠ close := by rintro rfl; exact hne.2 rfl
        cases l with
        | nil => exact ⟨c, t ++ [close], by simp [encSeq, hea], hcc⟩
        | cons b l => exact ⟨c, t ++ 44 :: encSeq e close (b :: l), by simp [encSeq, hea], hcc⟩
    obtain ⟨c, t, h1, h2⟩ := hh
    have h3 := decSeq_encSeq e p close hc hp (a :: l) ((opn :: c :: (t ++ r)).length) r (by simp) (by
      have := encSeq_length e close (fun a => (he a).1) (a :: l)
      rw [h1] at this
      simp only [List.length_cons, List.length_append] at *
      omega)
    rw [h1] at h3
    simp only [encArr, h1, List.cons_append, decArr, if_true, if_neg h2]
    exact h3

/-- The whole text must be consumed. -/
def whole (x : Option (α × Bytes)) : Option α :=
  match x with
  | some (a, []) => some a
  | _ => none

/-- Lists of strings; `null` is the nil list. -/
def strings : Json (Option (List Bytes)) where
  enc l := match l with
    | none => b!"null"
    | some l => encArr encStr 91 93 l
  dec s := if s = b!"null" then some none else (whole (decArr decStr 91 93 s)).map some

def encPair (e : α → Bytes) (x : Bytes × α) : Bytes := encStr x.1 ++ 58 :: e x.2

def decPair (p : Bytes → Option (α × Bytes)) (s : Bytes) : Option ((Bytes × α) × Bytes) :=
  match decStr s with
  | some (k, c :: r) => if c = 58 then (match p r with | none => none | some (v, t) => some ((k, v), t)) else none
  | _ => none

theorem decPair_encPair (e : α → Bytes) (p : Bytes → Option (α × Bytes)) (hp : ∀ a r, p (e a ++ r) = some (a, r)) (x : Bytes × α)
    (r : Bytes) : decPair p (encPair e x ++ r) = some (x, r) := by
  unfold decPair encPair
  rw [List.append_assoc, decStr_encStr]
  simp only [List.cons_append, if_true]
  rw [hp]

/-- Maps with values of a given format. -/
def maps (e : α → Bytes) (p : Bytes → Option (α × Bytes)) : Json (GoMap α) where
  enc m := match m with
    | none => b!"null"
    | some l => encArr (encPair e) 123 125 l
  dec s := if s = b!"null" then some none else (whole (decArr (decPair p) 123 125 s)).map some

def metadata : Json (GoMap Bytes) := maps encStr decStr
def kvset : Json (GoMap (List Bytes)) := maps (encArr encStr 91 93) (decArr decStr 91 93)

theorem strings_roundtrip (l : Option (List Bytes)) : strings.dec (strings.enc l) = some l := by
  cases l with
  | none => rfl
  | some l =>
    have h := decArr_encArr encStr decStr 91 93 (by decide) decStr_encStr (by intro a; simp [encStr]) l []
    rw [List.append_nil] at h
    simp only [strings]
    rw [if_neg (by simp [encArr]), h]
    rfl

theorem strings_rejects (c : UInt8) (s : Bytes) (h1 : 48 ≤ c.toNat) (h2 : c.toNat ≤ 57) : strings.dec (91 :: c :: s) = none := by
  simp only [strings]
  rw [if_neg (by simp), decArr]
  have h3 : c ≠ 93 := by rintro rfl; have : (93 : UInt8).toNat = 93 := rfl; omega
  have h4 : c ≠ 34 := by rintro rfl; have : (34 : UInt8).toNat = 34 := rfl; omega
  rw [if_pos rfl, if_neg h3]
  simp [decSeq, decStr, h4, whole]

theorem maps_roundtrip (e : α → Bytes) (p : Bytes → Option (α × Bytes)) (hp : ∀ a r, p (e a ++ r) = some (a, r)) (l : List (Bytes × α)) :
    (maps e p).dec ((maps e p).enc (some l)) = some (some l) := by
  have h := decArr_encArr (encPair e) (decPair p) 123 125 (by decide) (decPair_encPair e p hp) (by intro a; simp [encPair, encStr]) l []
  rw [List.append_nil] at h
  simp only [maps]
  rw [if_neg (by simp [encArr]), h]
  rfl

theorem kv_value (l : List Bytes) (r : Bytes) : decArr decStr 91 93 (encArr encStr 91 93 l ++ r) = some (l, r) :=
  decArr_encArr encStr decStr 91 93 (by decide) decStr_encStr (by intro a; simp [encStr]) l r

example : strings.enc (some [b!"a\"b", b!""]) = b!"[\"a\\\"b\",\"\"]" := by decide +kernel
example : kvset.enc (some [(b!"k", [b!"1", b!"2"])]) = b!"{\"k\":[\"1\",\"2\"]}" := by decide +kernel

end Types.JsonLite
