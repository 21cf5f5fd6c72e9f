import Verif.Query.Cursor
import Verif.Query.QueryProps
import Verif.Types.GoJsonProps
import Verif.Types.GoJsonIndent
import Verif.Types.FloatProps2
import Verif.Types.Id
import Verif.Schema.ListProps
set_option linter.unusedVariables false
set_option linter.unusedSimpArgs false
set_option exponentiation.threshold 3000
/-!
query.go:151-168 `EncodeCursor` and `DecodeCursor` with `encoding/json` as it is (Types/GoJson.lean): what a map of values is when it has been through a cursor.
-/
namespace Query
open Types Types.GoJson

/-- A value put into a cursor: nil, a boolean, an integer of any Go type (also `xdb.ID`, `xdb.ID32`, `xdb.Int64`, `xdb.Int32`, whose `MarshalJSON`, id.go:50-52, 354-356, types.go:387-389, 462-464, write
the plain number), a string. Other types (`float64`, times, nested maps) are not modelled. -/
inductive CV where
  | null
  | bool (b : Bool)
  | int (i : Int)
  | str (s : Bytes)

/-- A value of the decoded map (`any`): `encoding/json` (decode.go `literalInterface`) makes every number a `float64`. Arrays and objects keep their parsed form. -/
inductive AV where
  | null
  | bool (b : Bool)
  | num (d : Dbl)
  | str (s : Bytes)
  | other (v : JV)

/-- A Go integer in JSON (encode.go `intEncoder`, `uintEncoder`). -/
def intText (i : Int) : Bytes := if i < 0 then c!"-" :: Num.dec i.natAbs else Num.dec i.natAbs

/-- encode.go for one value. -/
def encCV : CV → Bytes
  | .null => b!"null"
  | .bool b => boolText b
  | .int i => intText i
  | .str s => quote s

/-- decode.go `valueInterface` for one value; `false`: an error was recorded (decode.go `convertNumber`: the number is too large for a `float64`). Numbers nested in arrays and objects are not checked. -/
def storeAny (hex : Bytes → Option Dbl) : JV → AV × Bool
  | .null => (.null, true)
  | .bool b => (.bool b, true)
  | .num t => match parseFloat hex t with
    | some d => (.num d, true)
    | none => (.null, false)
  | .str s => (.str s, true)
  | v => (.other v, true)

/-- query.go:152-154 `EncodeCursor`; `values.MapAny.JSON` (helper library) is `json.Marshal`. -/
def cursorText (m : GoMap CV) : Bytes := encodeCursor (encMap encCV) m

/-- query.go:157-168 `DecodeCursor`. -/
def decodeMap (hex : Bytes → Option Dbl) (s : Bytes) : Option (GoMap AV) := decodeCursor (unmarshal (storeMap (storeAny hex))) s

/-- `values.MapAny.UInt64` (helper library) of a decoded value: a `float64` is truncated, text is parsed. Numbers below zero or beyond `uint64`, whose conversion Go leaves to the machine, and other values: `none`. -/
def uintOf : AV → Option Nat
  | .num (.fin false u) => if u / one < 2 ^ 64 then some (u / one) else none
  | .str s => (Num.parseNat 10 s).bind fun n => if n < 2 ^ 64 then some n else none
  | _ => none

/-- The number under key `after` of a decoded cursor (types_test.go:672-679). -/
def afterOf (hex : Bytes → Option Dbl) (c : Bytes) : Option Nat :=
  match decodeMap hex c with
  | some (some m) => (m.lookup b!"after").bind uintOf
  | _ => none

/-- `WHERE id > after`. -/
def afterKey (hex : Bytes → Option Dbl) (c : Bytes) (r : Nat) : Bool :=
  match afterOf hex c with
  | some k => decide (k < r)
  | none => false

/-- The cursor of a row: its key as a number (types_test.go:673). -/
def numCursor (r : Nat) : Bytes := cursorText (some [(b!"after", .int r)])

/-- The cursor of a row: its key as text (`xdb.IDString`, types.go:130-132). -/
def textCursor (r : Nat) : Bytes := cursorText (some [(b!"after", .str (Num.dec r))])

/-! ### Specification -/

/-- What a value may have become. -/
def Spec.Back : CV → AV → Prop
  | .null, .null => True
  | .bool b, .bool b' => b' = b
  | .int i, .num d => Nearest d i
  | .str s, .str s' => s' = s
  | _, _ => False

/-- Go integers have at most 64 bits; keys and texts are UTF-8; a map has each key once. -/
def Spec.GoodCursor (l : List (Bytes × CV)) : Prop :=
  (l.map (·.1)).Nodup ∧ ∀ x ∈ l, GoJson.Spec.Utf8 x.1 ∧ match x.2 with
    | .int i => i.natAbs < 2 ^ 64
    | .str s => GoJson.Spec.Utf8 s
    | _ => True

/-! ### Reading the text of a cursor -/

/-- What follows a value in an object: a comma or the closing bracket. -/
def EndC : Bytes → Prop
  | [] => False
  | b :: _ => b = c!"," ∨ b = c!"}"

def ReadsE (d : Nat) (x : Bytes) (v : JV) : Prop := ∃ f, ∀ g, f ≤ g → ∀ r, EndC r → GoJson.value g d (x ++ r) = some (v, r)

theorem _root_.Types.GoJson.Reads.readsE {d : Nat} {x : Bytes} {v : JV} (h : Reads d x v) : ReadsE d x v := by
  obtain ⟨f, hf⟩ := h.mono
  exact ⟨f, fun g hg r _ => hf g hg r⟩

theorem reads_bool (d : Nat) (b : Bool) : Reads d (boolText b) (.bool b) := by
  refine ⟨1, fun r => ?_⟩
  cases b
  · show GoJson.value 1 d (102 :: 97 :: 108 :: 115 :: 101 :: r) = _
    rw [GoJson.value, skip, if_neg (by decide)]
    simp only
    rw [if_neg (by decide), if_neg (by decide), scalar, if_neg (by decide), if_neg (by decide), if_pos rfl]
    rfl
  · show GoJson.value 1 d (116 :: 114 :: 117 :: 101 :: r) = _
    rw [GoJson.value, skip, if_neg (by decide)]
    simp only
    rw [if_neg (by decide), if_neg (by decide), scalar, if_neg (by decide), if_pos rfl]
    rfl

theorem digits_end (s r : Bytes) (hs : ∀ b ∈ s, isDigit b = true) (hr : EndC r) : digits (s ++ r) = r := by
  induction s with
  | nil =>
    cases r with
    | nil => rfl
    | cons b r =>
      have : isDigit b = false := by rcases hr with h | h <;> subst h <;> decide
      simp only [List.nil_append, digits, this, Bool.false_eq_true, if_false]
  | cons b s ih =>
    rw [List.cons_append, digits, if_pos (hs b (by simp))]
    exact ih (fun x hx => hs x (List.mem_cons_of_mem _ hx))

theorem fraction_end (r : Bytes) (hr : EndC r) : fraction r = some r := by
  cases r with
  | nil => exact hr.elim
  | cons b r =>
    rcases hr with h | h <;> subst h <;> simp [fraction, exponent.eq_def]

theorem unsigned_dec (n : Nat) (r : Bytes) (hr : EndC r) : unsigned (Num.dec n ++ r) = some r := by
  have hdig := dec_isDigit n
  have hhead := dec_head n
  have hz := dec_eq_zero n
  generalize hx : Num.dec n = x at *
  cases x with
  | nil => exact absurd hx (dec_ne_nil n)
  | cons b t =>
    have hb := hdig b (by simp)
    rw [List.cons_append, unsigned]
    by_cases h0 : b = c!"0"
    · rw [if_pos h0]
      have hn : n = 0 := hhead (by rw [h0]; rfl)
      have := hz.2 hn
      simp only [List.cons.injEq] at this
      rw [this.2, List.nil_append]
      exact fraction_end r hr
    · rw [if_neg h0, if_pos hb, digits_end t r (fun x hx => hdig x (List.mem_cons_of_mem _ hx)) hr]
      exact fraction_end r hr

theorem number_int (i : Int) (r : Bytes) (hr : EndC r) : number (intText i ++ r) = some r := by
  unfold intText
  split
  · rw [List.cons_append, number, if_pos rfl, unsigned_dec _ _ hr]
  · have h := unsigned_dec i.natAbs r hr
    have hdig := dec_isDigit i.natAbs
    cases hx : Num.dec i.natAbs with
    | nil => exact absurd hx (dec_ne_nil _)
    | cons b t =>
      rw [hx] at h hdig
      have hb : b ≠ c!"-" := by rintro rfl; exact absurd (hdig c!"-" (by simp)) (by decide)
      rw [List.cons_append, number, if_neg hb, ← List.cons_append, h]

theorem reads_int (d : Nat) (i : Int) : ReadsE d (intText i) (.num (intText i)) := by
  refine ⟨1, fun g hg r hr => ?_⟩
  obtain ⟨g, rfl⟩ : ∃ g', g = g' + 1 := ⟨g - 1, by omega⟩
  have hnum := number_int i r hr
  have hstart : ∃ b t, intText i = b :: t ∧ (b = c!"-" ∨ isDigit b = true) := by
    unfold intText
    split
    · exact ⟨_, _, rfl, Or.inl rfl⟩
    · cases hx : Num.dec i.natAbs with
      | nil => exact absurd hx (dec_ne_nil _)
      | cons b t => exact ⟨b, t, rfl, Or.inr (dec_isDigit i.natAbs b (by rw [hx]; simp))⟩
  obtain ⟨b, t, hx, hb⟩ := hstart
  rw [hx] at hnum ⊢
  have hb' : 45 = b.toNat ∨ 48 ≤ b.toNat ∧ b.toNat ≤ 57 := by
    rcases hb with h | h
    · left; rw [h]; rfl
    · right; simpa [isDigit] using h
  have hne : ∀ k : UInt8, (k.toNat ≠ 45 ∧ (k.toNat < 48 ∨ 57 < k.toNat)) → b ≠ k := by rintro k hk rfl; omega
  have hsp : isSpace b = false := by
    simp only [isSpace, Bool.or_eq_false_iff, beq_eq_false_iff_ne]
    exact ⟨⟨⟨hne _ (by decide), hne _ (by decide)⟩, hne _ (by decide)⟩, hne _ (by decide)⟩
  rw [List.cons_append, GoJson.value, skip, if_neg (by simp [hsp])]
  simp only
  rw [if_neg (hne _ (by decide)), if_neg (hne _ (by decide)), scalar, if_neg (hne _ (by decide)), if_neg (hne _ (by decide)), if_neg (hne _ (by decide)),
    if_neg (hne _ (by decide))]
  rw [List.cons_append] at hnum
  rw [hnum]
  have hlen : (b :: (t ++ r)).length - r.length = (b :: t).length := by simp; omega
  simp only [Option.map_some]
  rw [hlen, show b :: (t ++ r) = (b :: t) ++ r from rfl, List.take_left]

theorem members_readE (d : Nat) : ∀ l : List (Bytes × Bytes × JV), l ≠ [] → (∀ p ∈ l, ReadsE d p.2.1 p.2.2) →
    ∃ f, ∀ g, f ≤ g → ∀ r, members g d (commas (l.map fun p => quote p.1 ++ c!":" :: p.2.1) ++ c!"}" :: r) = some (l.map fun p => (sanitize p.1, p.2.2), r)
  | [], h, _ => absurd rfl h
  | [p], _, h => by
    obtain ⟨f, hf⟩ := h p (by simp)
    refine ⟨f + 1, fun g hg r => ?_⟩
    obtain ⟨g, rfl⟩ : ∃ g', g = g' + 1 := ⟨g - 1, by omega⟩
    simp only [List.map_cons, List.map_nil, commas, List.append_assoc, List.cons_append]
    rw [members, name_quote]
    simp only
    rw [hf g (by omega) (125 :: r) (Or.inr rfl)]
    simp only
    rw [skip, if_neg (by decide)]
    simp
  | p :: q :: l, _, h => by
    obtain ⟨f, hf⟩ := h p (by simp)
    obtain ⟨f', hf'⟩ := members_readE d (q :: l) (by simp) (fun x hx => h x (List.mem_cons_of_mem _ hx))
    refine ⟨max f f' + 1, fun g hg r => ?_⟩
    obtain ⟨g, rfl⟩ : ∃ g', g = g' + 1 := ⟨g - 1, by omega⟩
    have := hf' g (by omega) r
    simp only [List.map_cons, commas, List.append_assoc, List.cons_append] at this ⊢
    rw [members, name_quote]
    simp only
    rw [hf g (by omega) (44 :: _) (Or.inl rfl)]
    simp only
    rw [skip, if_neg (by decide)]
    simp only
    rw [if_neg (by decide), if_pos trivial, this]
    rfl

theorem parse_objE (l : List (Bytes × Bytes × JV)) (h : ∀ p ∈ l, ReadsE 1 p.2.1 p.2.2) :
    parse (c!"{" :: (commas (l.map fun p => quote p.1 ++ c!":" :: p.2.1) ++ [c!"}"])) = some (.obj (l.map fun p => (sanitize p.1, p.2.2))) := by
  cases l with
  | nil => exact (reads_obj (d := 0) (by decide) [] (by simp)).parse
  | cons p l =>
    obtain ⟨f, hf⟩ := members_readE 1 (p :: l) (by simp) h
    apply Reads.parse
    refine ⟨f + 1, fun r => ?_⟩
    have := hf f (Nat.le_refl _) r
    rw [List.cons_append, List.append_assoc]
    show GoJson.value (f + 1) 0 (123 :: (commas (List.map _ (p :: l)) ++ 125 :: r)) = _
    rw [GoJson.value, skip, if_neg (by decide)]
    simp only
    rw [if_neg (by decide), if_pos trivial, if_neg (by decide), if_neg, this]
    · rfl
    · rw [List.map_cons, commas_cons, List.append_assoc, quote_append, skip_quote]
      simp

/-! ### Values -/

/-- A value after the round trip. -/
def backOf : CV → AV
  | .null => .null
  | .bool b => .bool b
  | .int i => .num (intDbl i)
  | .str s => .str (sanitize s)

theorem intDbl_finite (i : Int) (h : i.natAbs < 2 ^ 64) : ∃ u, intDbl i = .fin (decide (i < 0)) u := by
  have h1 := (intDbl_nearest i h).1
  unfold intDbl toDbl at *
  split
  · exact ⟨_, rfl⟩
  · rename_i hc; rw [if_neg hc] at h1; exact h1.elim

theorem parse_int (hex : Bytes → Option Dbl) (i : Int) (h : i.natAbs < 2 ^ 64) : parseFloat hex (intText i) = some (intDbl i) := by
  have hd := Types.dec_digits i.natAbs
  let l : Literal := ⟨if i < 0 then b!"-" else [], Num.dec i.natAbs, false, [], [], []⟩
  have hl : l.OK := ⟨by simp only [l]; split <;> simp, hd.1.2, by simp [l, AllDigits], Or.inl hd.1.1, by simp [l], by simp [l], by simp [l, AllDigits], by simp [l]⟩
  have ht : l.text = intText i := by
    simp only [l, Literal.text, intText]
    split <;> simp
  have e1 : decide (l.sign = b!"-") = decide (i < 0) := by simp only [l]; split <;> simp_all
  have e2 : l.int ++ l.frac = Num.dec i.natAbs := by simp [l]
  have e3 : l.power - (l.frac.length : ℤ) = 0 := by
    have : l.power = (if ([] : Bytes).getLast? = some c!"-" then (-1 : ℤ) else 1) * (Spec.number [] : ℤ) := rfl
    rw [this]; rfl
  rw [← ht, parse_literal hex l hl, e1, e2, e3, hd.2]
  have e4 : scaled (decide (i < 0)) i.natAbs 0 = intDbl i := by
    unfold scaled intDbl
    simp
  rw [e4]
  obtain ⟨u, hu⟩ := intDbl_finite i h
  rw [hu]; rfl

theorem elem_back (hex : Bytes → Option Dbl) (v : CV) (h : match v with | .int i => i.natAbs < 2 ^ 64 | _ => True) :
    ∃ j, ReadsE 1 (encCV v) j ∧ storeAny hex j = (backOf v, true) := by
  cases v with
  | null => exact ⟨_, (reads_null 1).readsE, rfl⟩
  | bool b => exact ⟨_, (reads_bool 1 b).readsE, rfl⟩
  | int i => exact ⟨_, reads_int 1 i, by simp only [storeAny, parse_int hex i h, backOf]⟩
  | str s => exact ⟨_, (reads_quote 1 s).readsE, rfl⟩

/-- The decoded map of any cursor the program writes. -/
theorem decode_text (hex : Bytes → Option Dbl) (l : List (Bytes × CV)) (h : ∀ x ∈ l, match x.2 with | .int i => i.natAbs < 2 ^ 64 | _ => True) :
    decodeMap hex (cursorText (some l)) = some (some (((orderedEntries (some l)).map fun x => (sanitize x.1, backOf x.2)).foldl (fun m x => putEntry m x.1 x.2) [])) := by
  classical
  have hm : ∀ x ∈ orderedEntries (some l), ∃ j, ReadsE 1 (encCV x.2) j ∧ storeAny hex j = (backOf x.2, true) :=
    fun x hx => elem_back hex x.2 (h x ((ordered_perm l).mem_iff.1 hx))
  let J : Bytes × CV → JV := fun x => if hx : x ∈ orderedEntries (some l) then (hm x hx).choose else .null
  have hJ : ∀ x ∈ orderedEntries (some l), ReadsE 1 (encCV x.2) (J x) ∧ storeAny hex (J x) = (backOf x.2, true) := by
    intro x hx
    simp only [J, dif_pos hx]
    exact (hm x hx).choose_spec
  have hp := parse_objE ((orderedEntries (some l)).map fun x => (x.1, encCV x.2, J x)) (by
    intro p hp
    obtain ⟨x, hx, rfl⟩ := List.mem_map.1 hp
    exact (hJ x hx).1)
  rw [List.map_map, List.map_map] at hp
  unfold decodeMap cursorText encodeCursor decodeCursor
  rw [b64_round_trip]
  show unmarshal _ (c!"{" :: (commas ((orderedEntries (some l)).map fun x => quote x.1 ++ c!":" :: encCV x.2) ++ [c!"}"])) = _
  rw [unmarshal]
  have e1 : parse (c!"{" :: (commas ((orderedEntries (some l)).map fun x => quote x.1 ++ c!":" :: encCV x.2) ++ [c!"}"]))
      = some (.obj ((orderedEntries (some l)).map fun x => (sanitize x.1, J x))) := hp
  rw [e1]
  have hok : (storeMap (storeAny hex) (.obj ((orderedEntries (some l)).map fun x => (sanitize x.1, J x)))).2 = true := by
    show List.all _ _ = true
    rw [List.all_map, List.all_eq_true]
    intro x hx
    simp [(hJ x hx).2]
  show (if _ then _ else _) = _
  rw [if_pos hok]
  show some (some (List.foldl _ _ _)) = _
  rw [List.foldl_map, List.foldl_map]
  congr 2
  have : ∀ (xs : List (Bytes × CV)) (a : List (Bytes × AV)), (∀ x ∈ xs, x ∈ orderedEntries (some l)) →
      xs.foldl (fun m x => putEntry m (sanitize x.1) (storeAny hex (J x)).1) a = xs.foldl (fun m x => putEntry m (sanitize x.1) (backOf x.2)) a := by
    intro xs
    induction xs with
    | nil => intro a _; rfl
    | cons x xs ih =>
      intro a hx
      rw [List.foldl_cons, List.foldl_cons, (hJ x (hx x (by simp))).2]
      exact ih _ fun y hy => hx y (List.mem_cons_of_mem _ hy)
  exact this _ _ fun x hx => hx

/-- **C116**: decoding a cursor the program wrote gives a map with the same keys, and every value is what it was, except that integers have become the nearest `float64`. -/
theorem C116_values_back (hex : Bytes → Option Dbl) (l : List (Bytes × CV)) (h : Spec.GoodCursor l) :
    ∃ m, decodeMap hex (cursorText (some l)) = some (some m) ∧ (m.map (·.1)).Perm (l.map (·.1)) ∧ ∀ k v, (k, v) ∈ l → ∃ w, m.lookup k = some w ∧ Spec.Back v w := by
  have hi : ∀ x ∈ l, match x.2 with | .int i => i.natAbs < 2 ^ 64 | _ => True := by
    intro x hx
    have := (h.2 x hx).2
    cases hv : x.2 <;> rw [hv] at this <;> first | exact this | trivial
  have hkeys : ((orderedEntries (some l)).map fun x => (sanitize x.1, backOf x.2)) = (orderedEntries (some l)).map fun x => (x.1, backOf x.2) :=
    List.map_inj_left.2 fun x hx => by rw [(sanitize_eq_iff _).2 (h.2 x ((ordered_perm l).mem_iff.1 hx)).1]
  have hperm : (((orderedEntries (some l)).map fun x => (x.1, backOf x.2)).map (·.1)).Perm (l.map (·.1)) := by
    rw [List.map_map]
    exact (ordered_perm l).map _
  refine ⟨_, decode_text hex l hi, ?_, ?_⟩
  · rw [hkeys, fold_nodup _ [] (by simpa using hperm.nodup_iff.2 h.1)]
    exact hperm
  · intro k v hkv
    rw [hkeys, fold_nodup _ [] (by simpa using hperm.nodup_iff.2 h.1)]
    refine ⟨backOf v, mem_lookup (by simpa using hperm.nodup_iff.2 h.1) ?_, ?_⟩
    · rw [List.nil_append]
      exact List.mem_map.2 ⟨(k, v), (ordered_perm l).mem_iff.2 hkv, rfl⟩
    · have := (h.2 _ hkv).2
      cases v with
      | null => trivial
      | bool b => rfl
      | int i => exact intDbl_nearest i this
      | str s => exact (sanitize_eq_iff _).2 this

end Query
