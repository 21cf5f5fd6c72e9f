import Verif.Types.GoJsonProps
import Verif.Types.IdLemmas
set_option linter.unusedSimpArgs false
set_option linter.unusedVariables false
/-!
`json.MarshalIndent(v, "", "  ")` (standard library: encode.go, indent.go `appendIndent`) for structs, slices, strings, booleans and unsigned integers, and reading the result back.
-/
namespace Types.GoJson

/-- indent.go `appendNewline` with prefix "" and indent "  ". -/
def nl (k : Nat) : Bytes := c!"\n" :: List.replicate (2 * k) c!" "

/-- Texts on lines of their own, separated by commas. -/
def onLines (k : Nat) : List Bytes → Bytes
  | [] => []
  | [x] => nl k ++ x
  | x :: y :: l => nl k ++ x ++ c!"," :: onLines k (y :: l)

/-- An array whose elements have the texts `l`, at depth `k`; an empty one has no line breaks. -/
def arrText (k : Nat) (l : List Bytes) : Bytes := if l = [] then b!"[]" else c!"[" :: (onLines (k + 1) l ++ nl k ++ [c!"]"])

/-- An object with the members `l`: names and texts. -/
def objText (k : Nat) (l : List (Bytes × Bytes)) : Bytes :=
  if l = [] then b!"{}" else c!"{" :: (onLines (k + 1) (l.map fun m => quote m.1 ++ b!": " ++ m.2) ++ nl k ++ [c!"}"])

/-- A boolean. -/
def boolText (b : Bool) : Bytes := if b then b!"true" else b!"false"

/-! ### Reading -/

/-- What follows a value in an indented text: nothing, a comma or a line break. -/
def Delim : Bytes → Prop
  | [] => True
  | b :: _ => b = c!"," ∨ b = c!"\n"

/-- The text starts with `b`, not a space or a closing bracket, and is read as `v` whenever a delimiter follows. -/
structure Shown (d : Nat) (x : Bytes) (v : JV) : Prop where
  start : ∃ b t, x = b :: t ∧ isSpace b = false ∧ b ≠ c!"]" ∧ b ≠ c!"}"
  reads : ∃ f, ∀ g, f ≤ g → ∀ r, Delim r → value g d (x ++ r) = some (v, r)

theorem skip_nl (k : Nat) (r : Bytes) : skip (nl k ++ r) = skip r := by
  have h : ∀ n, skip (List.replicate n c!" " ++ r) = skip r := by
    intro n
    induction n with
    | zero => rfl
    | succ n ih => rw [List.replicate_succ, List.cons_append, skip, if_pos (by decide), ih]
  rw [nl, List.cons_append, skip, if_pos (by decide), h]

theorem value_skip (f d : Nat) {s s' : Bytes} (h : skip s = skip s') : value f d s = value f d s' := by
  cases f with
  | zero => simp [value]
  | succ f => rw [value, value, h]

theorem name_skip {s s' : Bytes} (h : skip s = skip s') : name s = name s' := by
  rw [name, name, h]

theorem shown_quote (d : Nat) (s : Bytes) : Shown d (quote s) (.str (sanitize s)) := by
  refine ⟨⟨c!"\"", _, rfl, by decide, by decide, by decide⟩, ?_⟩
  obtain ⟨f, h⟩ := (reads_quote d s).mono
  exact ⟨f, fun g hg r _ => h g hg r⟩

theorem shown_null (d : Nat) : Shown d b!"null" .null := by
  refine ⟨⟨c!"n", _, rfl, by decide, by decide, by decide⟩, ?_⟩
  obtain ⟨f, h⟩ := (reads_null d).mono
  exact ⟨f, fun g hg r _ => h g hg r⟩

theorem shown_bool (d : Nat) (b : Bool) : Shown d (boolText b) (.bool b) := by
  cases b
  · refine ⟨⟨c!"f", _, rfl, by decide, by decide, by decide⟩, 1, fun g hg r _ => ?_⟩
    obtain ⟨g, rfl⟩ : ∃ g', g = g' + 1 := ⟨g - 1, by omega⟩
    show value (g + 1) d (102 :: 97 :: 108 :: 115 :: 101 :: r) = _
    rw [value, skip, if_neg (by decide)]
    simp only
    rw [if_neg (by decide), if_neg (by decide), scalar, if_neg (by decide), if_neg (by decide), if_pos rfl]
    rfl
  · refine ⟨⟨c!"t", _, rfl, by decide, by decide, by decide⟩, 1, fun g hg r _ => ?_⟩
    obtain ⟨g, rfl⟩ : ∃ g', g = g' + 1 := ⟨g - 1, by omega⟩
    show value (g + 1) d (116 :: 114 :: 117 :: 101 :: r) = _
    rw [value, skip, if_neg (by decide)]
    simp only
    rw [if_neg (by decide), if_neg (by decide), scalar, if_neg (by decide), if_pos rfl]
    rfl

/-! #### Numbers -/

theorem digits_delim (s r : Bytes) (hs : ∀ b ∈ s, isDigit b = true) (hr : Delim r) : digits (s ++ r) = r := by
  induction s with
  | nil =>
    cases r with
    | nil => rfl
    | cons b r =>
      have : isDigit b = false := by rcases hr with h | h <;> subst h <;> decide
      simp only [List.nil_append, digits, this, Bool.false_eq_true, if_false]
  | cons b s ih =>
    rw [List.cons_append, digits, if_pos (hs b (by simp))]
    exact ih (fun x hx => hs x (List.mem_cons_of_mem _ hx))

theorem fraction_delim (r : Bytes) (hr : Delim r) : fraction r = some r := by
  cases r with
  | nil => rfl
  | cons b r =>
    rcases hr with h | h <;> subst h <;> simp [fraction, exponent.eq_def]

theorem dec_isDigit (n : Nat) : ∀ b ∈ Num.dec n, isDigit b = true := by
  intro b hb
  have := (dec_digits n).1.2 b hb
  simp only [isDigit, Bool.and_eq_true, decide_eq_true_eq]
  exact this

theorem shown_nat (d : Nat) (n : Nat) : Shown d (Num.dec n) (.num (Num.dec n)) := by
  have hdig := dec_isDigit n
  have hhead := dec_head n
  have hz := dec_eq_zero n
  generalize hx : Num.dec n = x at *
  cases x with
  | nil => exact absurd hx (dec_ne_nil n)
  | cons b t =>
    have hb := hdig b (by simp)
    have hb' : 48 ≤ b.toNat ∧ b.toNat ≤ 57 := by simpa [isDigit] using hb
    have hne : ∀ k : UInt8, (k.toNat < 48 ∨ 57 < k.toNat) → b ≠ k := by rintro k hk rfl; omega
    have hsp : isSpace b = false := by
      simp only [isSpace, Bool.or_eq_false_iff, beq_eq_false_iff_ne]
      exact ⟨⟨⟨hne _ (by decide), hne _ (by decide)⟩, hne _ (by decide)⟩, hne _ (by decide)⟩
    refine ⟨⟨b, t, rfl, hsp, hne _ (by decide), hne _ (by decide)⟩, 1, fun g hg r hr => ?_⟩
    obtain ⟨g, rfl⟩ : ∃ g', g = g' + 1 := ⟨g - 1, by omega⟩
    have hnum : number (b :: (t ++ r)) = some r := by
      rw [number, if_neg (hne _ (by decide)), unsigned]
      by_cases h0 : b = c!"0"
      · rw [if_pos h0]
        have hn : n = 0 := hhead (by rw [h0]; rfl)
        have := hz.2 hn
        simp only [List.cons.injEq] at this
        rw [this.2, List.nil_append]
        exact fraction_delim r hr
      · rw [if_neg h0, if_pos hb, digits_delim t r (fun x hx => hdig x (List.mem_cons_of_mem _ hx)) hr]
        exact fraction_delim r hr
    rw [List.cons_append, value, skip, if_neg (by simp [hsp])]
    simp only
    rw [if_neg (hne _ (by decide)), if_neg (hne _ (by decide)), scalar, if_neg (hne _ (by decide)), if_neg (hne _ (by decide)), if_neg (hne _ (by decide)),
      if_neg (hne _ (by decide)), hnum]
    have hlen : (b :: (t ++ r)).length - r.length = (b :: t).length := by simp; omega
    simp only [Option.map_some]
    rw [hlen, show b :: (t ++ r) = (b :: t) ++ r from rfl, List.take_left]

/-! #### Arrays and objects -/

theorem delim_nl (k : Nat) (r : Bytes) : Delim (nl k ++ r) := Or.inr rfl

theorem onLines_start (k : Nat) (x : Bytes) (l : List Bytes) (b : UInt8) (t : Bytes) (hx : x = b :: t) (hsp : isSpace b = false) (r : Bytes) :
    ∃ t', skip (onLines k (x :: l) ++ r) = b :: t' := by
  cases l with
  | nil =>
    rw [onLines, List.append_assoc, skip_nl, hx, List.cons_append, skip, if_neg (by simp [hsp])]
    exact ⟨_, rfl⟩
  | cons y l =>
    rw [onLines, List.append_assoc, List.append_assoc, skip_nl, hx, List.cons_append, skip, if_neg (by simp [hsp])]
    exact ⟨_, rfl⟩

theorem onLines_more (k : Nat) (x y : Bytes) (l : List Bytes) (t : Bytes) : onLines k (x :: y :: l) ++ t = nl k ++ (x ++ (c!"," :: (onLines k (y :: l) ++ t))) := by
  simp [onLines]

theorem elems_lines (d k j : Nat) : ∀ l : List (Bytes × JV), l ≠ [] → (∀ p ∈ l, Shown d p.1 p.2) →
    ∃ f, ∀ g, f ≤ g → ∀ r, elems g d (onLines k (l.map (·.1)) ++ (nl j ++ c!"]" :: r)) = some (l.map (·.2), r)
  | [], h, _ => absurd rfl h
  | [p], _, h => by
    obtain ⟨f, hf⟩ := (h p (by simp)).reads
    refine ⟨f + 1, fun g hg r => ?_⟩
    obtain ⟨g, rfl⟩ : ∃ g', g = g' + 1 := ⟨g - 1, by omega⟩
    simp only [List.map_cons, List.map_nil, onLines, List.append_assoc]
    rw [elems, value_skip g d (skip_nl k _), hf g (by omega) _ (delim_nl j _)]
    simp only
    rw [skip_nl, skip, if_neg (by decide)]
    simp
  | p :: q :: l, _, h => by
    obtain ⟨f, hf⟩ := (h p (by simp)).reads
    obtain ⟨f', hf'⟩ := elems_lines d k j (q :: l) (by simp) (fun x hx => h x (List.mem_cons_of_mem _ hx))
    refine ⟨max f f' + 1, fun g hg r => ?_⟩
    obtain ⟨g, rfl⟩ : ∃ g', g = g' + 1 := ⟨g - 1, by omega⟩
    have := hf' g (by omega) r
    simp only [List.map_cons] at this ⊢
    rw [onLines_more, elems, value_skip g d (skip_nl k _), hf g (by omega) _ (show Delim (c!"," :: _) from Or.inl rfl)]
    simp only
    rw [skip, if_neg (by decide)]
    simp only
    rw [if_neg (by decide), if_pos trivial, this]
    rfl

theorem shown_arr {d : Nat} (hd : d < maxDepth) (k : Nat) (l : List (Bytes × JV)) (h : ∀ p ∈ l, Shown (d + 1) p.1 p.2) :
    Shown d (arrText k (l.map (·.1))) (.arr (l.map (·.2))) := by
  cases l with
  | nil =>
    refine ⟨⟨c!"[", _, rfl, by decide, by decide, by decide⟩, 1, fun g hg r _ => ?_⟩
    obtain ⟨g, rfl⟩ : ∃ g', g = g' + 1 := ⟨g - 1, by omega⟩
    show value (g + 1) d (91 :: 93 :: r) = _
    have e2 : skip (93 :: r) = 93 :: r := by rw [skip, if_neg (by decide)]
    rw [value, skip, if_neg (by decide)]
    simp only
    rw [if_pos trivial, if_neg (by omega), e2]
    simp
  | cons p l =>
    obtain ⟨f, hf⟩ := elems_lines (d + 1) (k + 1) k (p :: l) (by simp) h
    have ht : arrText k ((p :: l).map (·.1)) = c!"[" :: (onLines (k + 1) ((p :: l).map (·.1)) ++ nl k ++ [c!"]"]) := by
      rw [arrText, if_neg (by simp)]
    rw [ht]
    refine ⟨⟨c!"[", _, rfl, by decide, by decide, by decide⟩, f + 1, fun g hg r _ => ?_⟩
    obtain ⟨g, rfl⟩ : ∃ g', g = g' + 1 := ⟨g - 1, by omega⟩
    have := hf g (by omega) r
    rw [List.cons_append, List.append_assoc, List.append_assoc]
    show value (g + 1) d (91 :: (onLines (k + 1) ((p :: l).map (·.1)) ++ (nl k ++ 93 :: r))) = _
    rw [value, skip, if_neg (by decide)]
    simp only
    rw [if_pos trivial, if_neg (by omega), if_neg, this]
    · rfl
    · obtain ⟨b, t, hb, hsp, hbr, -⟩ := (h p (by simp)).start
      obtain ⟨t', ht'⟩ := onLines_start (k + 1) p.1 (l.map (·.1)) b t hb hsp (nl k ++ 93 :: r)
      rw [List.map_cons, ht']
      simpa using hbr

theorem name_line (k : Nat) (key r : Bytes) : name (nl k ++ (quote key ++ (b!": " ++ r))) = some (sanitize key, c!" " :: r) := by
  rw [name_skip (skip_nl k _)]
  exact name_quote key (c!" " :: r)

theorem members_lines (d k j : Nat) : ∀ l : List (Bytes × Bytes × JV), l ≠ [] → (∀ p ∈ l, Shown d p.2.1 p.2.2) →
    ∃ f, ∀ g, f ≤ g → ∀ r, members g d (onLines k (l.map fun p => quote p.1 ++ b!": " ++ p.2.1) ++ (nl j ++ c!"}" :: r)) = some (l.map fun p => (sanitize p.1, p.2.2), r)
  | [], h, _ => absurd rfl h
  | [p], _, h => by
    obtain ⟨f, hf⟩ := (h p (by simp)).reads
    refine ⟨f + 1, fun g hg r => ?_⟩
    obtain ⟨g, rfl⟩ : ∃ g', g = g' + 1 := ⟨g - 1, by omega⟩
    simp only [List.map_cons, List.map_nil, onLines, List.append_assoc]
    rw [members, name_line]
    simp only
    rw [value_skip g d (s' := p.2.1 ++ (nl j ++ c!"}" :: r)) (by rw [skip, if_pos (by decide)]), hf g (by omega) _ (delim_nl j _)]
    simp only
    rw [skip_nl, skip, if_neg (by decide)]
    simp
  | p :: q :: l, _, h => by
    obtain ⟨f, hf⟩ := (h p (by simp)).reads
    obtain ⟨f', hf'⟩ := members_lines d k j (q :: l) (by simp) (fun x hx => h x (List.mem_cons_of_mem _ hx))
    refine ⟨max f f' + 1, fun g hg r => ?_⟩
    obtain ⟨g, rfl⟩ : ∃ g', g = g' + 1 := ⟨g - 1, by omega⟩
    have := hf' g (by omega) r
    simp only [List.map_cons] at this ⊢
    rw [onLines_more, List.append_assoc (quote p.1), List.append_assoc (quote p.1), List.append_assoc b!": ", members, name_line]
    simp only
    have hsp : ∀ z : Bytes, skip (c!" " :: z) = skip z := fun z => by rw [skip, if_pos (by decide)]
    rw [value_skip g d (hsp _), hf g (by omega) _ (show Delim (c!"," :: _) from Or.inl rfl)]
    simp only
    rw [skip, if_neg (by decide)]
    simp only
    rw [if_neg (by decide), if_pos trivial, this]
    rfl

theorem shown_obj {d : Nat} (hd : d < maxDepth) (k : Nat) (l : List (Bytes × Bytes × JV)) (h : ∀ p ∈ l, Shown (d + 1) p.2.1 p.2.2) :
    Shown d (objText k (l.map fun p => (p.1, p.2.1))) (.obj (l.map fun p => (sanitize p.1, p.2.2))) := by
  cases l with
  | nil =>
    refine ⟨⟨c!"{", _, rfl, by decide, by decide, by decide⟩, 1, fun g hg r _ => ?_⟩
    obtain ⟨g, rfl⟩ : ∃ g', g = g' + 1 := ⟨g - 1, by omega⟩
    show value (g + 1) d (123 :: 125 :: r) = _
    have e2 : skip (125 :: r) = 125 :: r := by rw [skip, if_neg (by decide)]
    rw [value, skip, if_neg (by decide)]
    simp only
    rw [if_neg (by decide), if_pos trivial, if_neg (by omega), e2]
    simp
  | cons p l =>
    obtain ⟨f, hf⟩ := members_lines (d + 1) (k + 1) k (p :: l) (by simp) h
    have ht : objText k ((p :: l).map fun p => (p.1, p.2.1)) = c!"{" :: (onLines (k + 1) ((p :: l).map fun p => quote p.1 ++ b!": " ++ p.2.1) ++ nl k ++ [c!"}"]) := by
      rw [objText, if_neg (by simp), List.map_map]
      rfl
    rw [ht]
    refine ⟨⟨c!"{", _, rfl, by decide, by decide, by decide⟩, f + 1, fun g hg r _ => ?_⟩
    obtain ⟨g, rfl⟩ : ∃ g', g = g' + 1 := ⟨g - 1, by omega⟩
    have := hf g (by omega) r
    rw [List.cons_append, List.append_assoc, List.append_assoc]
    show value (g + 1) d (123 :: (onLines (k + 1) ((p :: l).map fun p => quote p.1 ++ b!": " ++ p.2.1) ++ (nl k ++ 125 :: r))) = _
    rw [value, skip, if_neg (by decide)]
    simp only
    rw [if_neg (by decide), if_pos trivial, if_neg (by omega), if_neg, this]
    · rfl
    · obtain ⟨t', ht'⟩ := onLines_start (k + 1) (quote p.1 ++ b!": " ++ p.2.1) (l.map fun p => quote p.1 ++ b!": " ++ p.2.1) c!"\"" _ (by rw [List.append_assoc, quote_append]) (by decide) (nl k ++ 125 :: r)
      rw [List.map_cons, ht']
      simp

/-- A shown text followed by a line break is a document. -/
theorem Shown.document {x : Bytes} {v : JV} (h : Shown 0 x v) : parse (x ++ b!"\n") = some v := by
  obtain ⟨f, hf⟩ := h.reads
  exact (parse_iff _ v).2 ⟨f, b!"\n", hf f (Nat.le_refl _) _ (Or.inr rfl), by decide⟩

end Types.GoJson
