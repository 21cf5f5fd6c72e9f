import Verif.Schema.Model
import Verif.Num
import Mathlib.Tactic.Tauto
set_option linter.unusedVariables false
set_option linter.unusedSimpArgs false
/-!
Model of the struct tags of generated models: `Column.Tag` (schema/schema.go:180-205), `Column.StructString` (schema/schema.go:155-163), how Go reads the
generated literals, and `reflect.StructTag.Get` (standard library, reflect/type.go) which `Bind` uses.
-/
namespace Schema

/-- schema.go:267-272 `RefColumnSchemaName`. -/
def ForeignKey.refColumnSchemaName (k : ForeignKey) : Bytes := k.refSchema ++ b!"." ++ k.refTable ++ b!"." ++ k.refColumn

/-- schema.go:169-178 `IsPrimary`. -/
def Column.isPrimary (c : Column) : Bool := c.indexes.any (·.isPrimary)

/-- schema.go:181-203: the options of the tag. -/
def Column.tagOps (c : Column) : Bytes :=
  (if c.udtType ≠ [] then b!"," ++ c.udtType else b!"," ++ c.type)
  ++ (if c.maxLength > 0 then b!",max:" ++ Num.dec c.maxLength.toNat else [])
  ++ (if c.nullable then b!",null" else [])
  ++ (if c.indexes.length > 0 then b!",index" ++ (if c.isPrimary then b!",primary" else []) else [])
  ++ (match c.ref with | some fk => b!",fk:" ++ fk.refColumnSchemaName | none => [])

/-- schema.go:180-205 `Tag`. -/
def Column.tag (c : Column) : Bytes := b!"db:\"" ++ c.name ++ c.tagOps ++ b!"\" json:\",omitempty\""

/-- schema.go:155-163 `StructString`. -/
def Column.structString (c : Column) : Bytes :=
  b!"{ Name: \"" ++ c.name ++ b!"\", Position: " ++ Num.dec c.position.toNat ++ b!", Type: \"" ++ c.type ++ b!"\", UdtType: \"" ++ c.udtType
    ++ b!"\", Nullable: " ++ (if c.nullable then b!"true" else b!"false") ++ b!" "
    ++ (if c.maxLength > 0 then b!", MaxLength: " ++ Num.dec c.maxLength.toNat ++ b!" " else []) ++ b!"}"

/-! #### How Go reads it -/

/-- Valid UTF-8 (`utf8.ValidString`). -/
def Utf8 (s : Bytes) : Prop := (ByteArray.mk s.toArray).IsValidUTF8

instance (s : Bytes) : Decidable (Utf8 s) := inferInstanceAs (Decidable (ByteArray.IsValidUTF8 _))

/-- The contents of a raw string literal between back quotes (Go specification): carriage returns are discarded; a back quote would end it, and the source
must be valid UTF-8 without NUL (`none`). -/
def rawString (s : Bytes) : Option Bytes := if 96 ∈ s ∨ 0 ∈ s ∨ ¬ Utf8 s then none else some (s.filter (· ≠ 13))

/-- `strconv.Unquote` of a double-quoted text with the given inside: verbatim if there is no escape, no newline and valid UTF-8; `esc` is the rest of that function. -/
def unquote (esc : Bytes → Option Bytes) (inside : Bytes) : Option Bytes := if 92 ∉ inside ∧ 10 ∉ inside ∧ Utf8 inside then some inside else esc inside

/-- reflect/type.go `StructTag.Lookup`: the quoted string after its opening quote; its inside and what follows the closing quote. -/
def scanQuoted : Bytes → Option (Bytes × Bytes)
  | [] => none
  | [c] => if c = 34 then some ([], []) else none
  | c :: d :: r =>
    if c = 34 then some ([], d :: r)
    else if c = 92 then (scanQuoted r).map fun x => (c :: d :: x.1, x.2)
    else (scanQuoted (d :: r)).map fun x => (c :: x.1, x.2)

/-- reflect/type.go `StructTag.Lookup`: a byte of a key. -/
def isKeyByte (c : UInt8) : Bool := decide (32 < c.toNat) && c != 58 && c != 34 && c != 127

/-- reflect/type.go `StructTag.Lookup`, the loop; `fuel` bounds the number of pairs. -/
def lookupTag (esc : Bytes → Option Bytes) (key : Bytes) : (fuel : Nat) → Bytes → Option Bytes
  | 0, _ => none
  | f + 1, tag =>
    match ((tag.dropWhile (· = 32)).takeWhile isKeyByte, (tag.dropWhile (· = 32)).dropWhile isKeyByte) with
    | (name, 58 :: 34 :: r) =>
      if name = [] then none
      else
        match scanQuoted r with
        | none => none
        | some (inside, rest) => if name = key then unquote esc inside else lookupTag esc key f rest
    | _ => none

/-- reflect/type.go `StructTag.Get`. -/
def getTag (esc : Bytes → Option Bytes) (key tag : Bytes) : Bytes := (lookupTag esc key (tag.length + 1) tag).getD []

/-! ### Specification -/

/-- Text that can be written between quotes as it is: no quote, back quote, backslash, line break or NUL, and valid UTF-8. -/
def Spec.Verbatim (s : Bytes) : Prop := (∀ b ∈ s, b ∉ [34, 96, 92, 10, 13, 0]) ∧ Utf8 s

/-- All texts of a column that appear in its tag are verbatim, and the name has no comma. -/
structure Spec.TagOK (c : Column) : Prop where
  name : Spec.Verbatim c.name
  comma : 44 ∉ c.name
  type : Spec.Verbatim c.type
  udt : Spec.Verbatim c.udtType
  ref : ∀ fk, c.ref = some fk → Spec.Verbatim fk.refSchema ∧ Spec.Verbatim fk.refTable ∧ Spec.Verbatim fk.refColumn

/-- The foreign key option of a tag: schema, table and column referred to. -/
def Spec.refOption : Option ForeignKey → List Bytes
  | some fk => [b!"fk:" ++ fk.refSchema ++ b!"." ++ fk.refTable ++ b!"." ++ fk.refColumn]
  | none => []

/-- The properties of a column that its tag lists, one option each. -/
def Spec.options (c : Column) : List Bytes :=
  [if c.udtType = [] then c.type else c.udtType]
  ++ (if c.maxLength = 0 then [] else [b!"max:" ++ Num.dec c.maxLength.toNat])
  ++ (if c.nullable then [b!"null"] else [])
  ++ (if c.indexes = [] then [] else [b!"index"])
  ++ (if ∃ i ∈ c.indexes, i.isPrimary then [b!"primary"] else [])
  ++ Spec.refOption c.ref

/-! ### Lemmas -/

theorem utf8_append {a b : Bytes} (ha : Utf8 a) (hb : Utf8 b) : Utf8 (a ++ b) := by
  unfold Utf8 at *
  have := ha.append hb
  have e : (ByteArray.mk a.toArray) ++ (ByteArray.mk b.toArray) = ByteArray.mk (a ++ b).toArray := by
    apply ByteArray.ext
    simp [ByteArray.data_append]
  rwa [e] at this

theorem verbatim_append {a b : Bytes} (ha : Spec.Verbatim a) (hb : Spec.Verbatim b) : Spec.Verbatim (a ++ b) :=
  ⟨fun x hx => (List.mem_append.1 hx).elim (ha.1 x) (hb.1 x), utf8_append ha.2 hb.2⟩

theorem utf8_nil : Utf8 [] := ByteArray.isValidUTF8_empty

theorem utf8_one (b : UInt8) (h : b.toNat < 128) : Utf8 [b] := by
  have hv : (Char.ofNat b.toNat).val.toNat = b.toNat := by
    have : b.toNat.isValidChar := Or.inl (by omega)
    simp [Char.ofNat, this, Char.ofNatAux]
  have e : String.utf8EncodeChar (Char.ofNat b.toNat) = [b] := by
    unfold String.utf8EncodeChar
    rw [hv]
    have : b.toNat ≤ 127 := by omega
    simp [this]
  have := Char.isValidUTF8_toByteArray_utf8EncodeChar (c := Char.ofNat b.toNat)
  rw [e] at this
  have e' : [b].toByteArray = ByteArray.mk [b].toArray := by
    apply ByteArray.ext; simp
  rwa [e'] at this

theorem utf8_ascii : ∀ (s : Bytes), (∀ b ∈ s, b.toNat < 128) → Utf8 s
  | [], _ => utf8_nil
  | b :: s, h => utf8_append (utf8_one b (h b (by simp))) (utf8_ascii s (fun x hx => h x (by simp [hx])))

theorem verbatim_ascii {s : Bytes} (h : s.all (fun b => decide (b.toNat < 128) && decide (b ∉ [34, 96, 92, 10, 13, 0])) = true) : Spec.Verbatim s := by
  rw [List.all_eq_true] at h
  refine ⟨fun b hb => ?_, utf8_ascii s (fun b hb => ?_)⟩
  · have := h b hb; simp only [Bool.and_eq_true, decide_eq_true_eq] at this; exact this.2
  · have := h b hb; simp only [Bool.and_eq_true, decide_eq_true_eq] at this; exact this.1

theorem verbatim_dec (n : Nat) : Spec.Verbatim (Num.dec n) := by
  have h := Num.fmtNat_bytes 10 (by decide) n
  apply verbatim_ascii
  rw [List.all_eq_true]
  intro b hb
  obtain ⟨d, hd, rfl⟩ := h b hb
  have : ∀ d : Fin 10, (decide ((Num.digitByte d.val).toNat < 128) && decide ((Num.digitByte d.val) ∉ ([34, 96, 92, 10, 13, 0] : List UInt8))) = true := by decide
  exact this ⟨d, hd⟩

theorem ops_verbatim {c : Column} (h : Spec.TagOK c) : Spec.Verbatim c.tagOps := by
  have lit : ∀ s : Bytes, s.all (fun b => decide (b.toNat < 128) && decide (b ∉ [34, 96, 92, 10, 13, 0])) = true → Spec.Verbatim s := fun s => verbatim_ascii
  have nil : Spec.Verbatim [] := lit [] rfl
  unfold Column.tagOps
  refine verbatim_append (verbatim_append (verbatim_append (verbatim_append ?_ ?_) ?_) ?_) ?_
  · split
    · exact verbatim_append (lit _ (by decide)) h.udt
    · exact verbatim_append (lit _ (by decide)) h.type
  · split
    · exact verbatim_append (lit _ (by decide)) (verbatim_dec _)
    · exact nil
  · split
    · exact lit _ (by decide)
    · exact nil
  · split
    · split
      · exact lit _ (by decide)
      · exact lit _ (by decide)
    · exact nil
  · cases hr : c.ref with
    | none => exact nil
    | some fk =>
      obtain ⟨a, b, d⟩ := h.ref fk hr
      unfold ForeignKey.refColumnSchemaName
      exact verbatim_append (lit _ (by decide)) (verbatim_append (verbatim_append (verbatim_append (verbatim_append a (lit _ (by decide))) b) (lit _ (by decide))) d)

theorem scanQuoted_verbatim : ∀ (s r : Bytes), (∀ b ∈ s, b ≠ 34 ∧ b ≠ 92) → scanQuoted (s ++ 34 :: r) = some (s, r)
  | [], [], _ => by simp [scanQuoted]
  | [], d :: r, _ => by simp [scanQuoted]
  | c :: s, r, h => by
    have hc := h c (by simp)
    have ih := scanQuoted_verbatim s r (fun b hb => h b (by simp [hb]))
    cases hs : s ++ 34 :: r with
    | nil => simp at hs
    | cons d t =>
      rw [hs] at ih
      simp [List.cons_append, hs, scanQuoted, hc.1, hc.2, ih]

theorem verbatim_quote {s : Bytes} (hs : Spec.Verbatim s) : ∀ b ∈ s, b ≠ 34 ∧ b ≠ 92 := fun b hb => by
  have := hs.1 b hb; simp at this; exact ⟨this.1, this.2.2.1⟩

theorem unquote_verbatim (esc : Bytes → Option Bytes) {s : Bytes} (hs : Spec.Verbatim s) : unquote esc s = some s := by
  unfold unquote
  rw [if_pos]
  refine ⟨fun h => ?_, fun h => ?_, hs.2⟩
  · have := hs.1 _ h; simp at this
  · have := hs.1 _ h; simp at this

/-- The `db` pair comes first. -/
theorem lookup_db (esc : Bytes → Option Bytes) (s r : Bytes) (f : Nat) (hs : Spec.Verbatim s) :
    lookupTag esc b!"db" (f + 1) (b!"db:\"" ++ s ++ b!"\"" ++ r) = some s := by
  have h := scanQuoted_verbatim s r (verbatim_quote hs)
  simp [lookupTag, List.dropWhile_cons, List.takeWhile_cons, isKeyByte, h, unquote_verbatim esc hs]

/-- The pair after it. -/
theorem lookup_json (esc : Bytes → Option Bytes) (s : Bytes) (f : Nat) (hs : Spec.Verbatim s) :
    lookupTag esc b!"json" (f + 2) (b!"db:\"" ++ s ++ b!"\"" ++ b!" json:\",omitempty\"") = some b!",omitempty" := by
  have h := scanQuoted_verbatim s b!" json:\",omitempty\"" (verbatim_quote hs)
  have hu : Spec.Verbatim b!",omitempty" := verbatim_ascii (by decide)
  have h' := scanQuoted_verbatim b!",omitempty" [] (verbatim_quote hu)
  simp only [List.cons_append, List.nil_append] at h'
  simp [lookupTag, List.dropWhile_cons, List.takeWhile_cons, isKeyByte, h, h', unquote_verbatim esc hu]

theorem intercalate_cons (a : Bytes) (l : List Bytes) : [(44 : UInt8)].intercalate (a :: l) = a ++ l.flatMap (fun x => 44 :: x) := by
  induction l generalizing a with
  | nil => simp [List.intercalate]
  | cons b l ih =>
    have := ih b
    simp only [List.intercalate, List.intersperse_cons_cons, List.flatten_cons] at this ⊢
    rw [this]; simp

theorem ops_options (c : Column) : c.tagOps = (Spec.options c).flatMap (fun x => 44 :: x) := by
  have hz : (c.maxLength > 0) ↔ ¬ c.maxLength = 0 := by
    rw [← UInt32.toNat_inj]
    show (0 : UInt32) < c.maxLength ↔ _
    rw [UInt32.lt_iff_toNat_lt]; simp; omega
  have hp : (c.isPrimary = true) ↔ ∃ i ∈ c.indexes, i.isPrimary = true := by simp [Column.isPrimary]
  have hl : (c.indexes.length > 0) ↔ ¬ c.indexes = [] := by rw [gt_iff_lt, List.length_pos_iff]
  have e4 : (if ¬ c.indexes = [] then b!",index" ++ (if (∃ i ∈ c.indexes, i.isPrimary = true) then b!",primary" else []) else ([] : Bytes))
      = (if c.indexes = [] then [] else [b!"index"]).flatMap (fun x => (44 : UInt8) :: x)
        ++ (if (∃ i ∈ c.indexes, i.isPrimary = true) then [b!"primary"] else []).flatMap (fun x => 44 :: x) := by
    by_cases h : c.indexes = []
    · simp [h]
    · by_cases h' : (∃ i ∈ c.indexes, i.isPrimary = true) <;> simp [h, h']
  unfold Column.tagOps Spec.options
  simp only [hz, hp, hl, List.flatMap_append, e4]
  rw [← List.append_assoc _ (List.flatMap _ _) (List.flatMap _ _)]
  congr 1
  · congr 1
    congr 1
    congr 1
    · congr 1
      · by_cases h : c.udtType = [] <;> simp [h]
      · by_cases h : c.maxLength = 0 <;> simp [h]
    · by_cases h : c.nullable = true <;> simp [h]
  · cases c.ref <;> simp [ForeignKey.refColumnSchemaName, Spec.refOption]

/-- **C78**: the tag of a generated field, read the way Go programs read it.  For every column whose texts can be quoted as they are: the raw string literal is the
tag, its `db` value is the column name followed by the column's options, comma separated, and its `json` value only says `omitempty`. -/
theorem C78_tag_is_read_back (esc : Bytes → Option Bytes) (c : Column) (h : Spec.TagOK c) :
    rawString c.tag = some c.tag
    ∧ getTag esc b!"db" c.tag = [44].intercalate (c.name :: Spec.options c)
    ∧ getTag esc b!"json" c.tag = b!",omitempty" := by
  have hv : Spec.Verbatim (c.name ++ c.tagOps) := verbatim_append h.name (ops_verbatim h)
  have et : c.tag = b!"db:\"" ++ (c.name ++ c.tagOps) ++ b!"\"" ++ b!" json:\",omitempty\"" := by simp [Column.tag, List.append_assoc]
  have hlen : ∃ n, c.tag.length + 1 = n + 2 := ⟨c.tag.length - 1, by rw [et]; simp⟩
  obtain ⟨n, hn⟩ := hlen
  refine ⟨?_, ?_, ?_⟩
  · have hu : Utf8 c.tag := by
      rw [et]
      exact utf8_append (utf8_append (utf8_append (utf8_ascii _ (forall_mem_of_all (by decide))) hv.2) (utf8_ascii _ (forall_mem_of_all (by decide)))) (utf8_ascii _ (forall_mem_of_all (by decide)))
    have hm : ∀ b ∈ c.tag, b ≠ 96 ∧ b ≠ 0 ∧ b ≠ 13 := by
      intro b hb
      rw [et] at hb
      simp only [List.append_assoc] at hb
      rcases List.mem_append.1 hb with hb | hb
      · exact forall_mem_of_all (p := fun b => decide (b ≠ 96 ∧ b ≠ 0 ∧ b ≠ 13)) (by decide) b hb |> of_decide_eq_true
      · rw [← List.append_assoc] at hb
        rcases List.mem_append.1 hb with hb | hb
        · have := hv.1 b hb; simp at this; tauto
        · exact forall_mem_of_all (p := fun b => decide (b ≠ 96 ∧ b ≠ 0 ∧ b ≠ 13)) (by decide) b hb |> of_decide_eq_true
    unfold rawString
    rw [if_neg, List.filter_eq_self.2]
    · intro b hb; simpa using (hm b hb).2.2
    · rintro (h' | h' | h')
      · exact (hm _ h').1 rfl
      · exact (hm _ h').2.1 rfl
      · exact h' hu
  · unfold getTag
    rw [hn, et, lookup_db esc _ _ _ hv, intercalate_cons, ops_options]; rfl
  · unfold getTag
    rw [hn, et, lookup_json esc _ _ hv]; rfl

/-- Comma-free texts joined by commas can be taken apart again. -/
theorem commas_inj : ∀ (l m : List Bytes), l ≠ [] → m ≠ [] → (∀ x ∈ l, 44 ∉ x) → (∀ x ∈ m, 44 ∉ x) → [(44 : UInt8)].intercalate l = [(44 : UInt8)].intercalate m → l = m := by
  have first : ∀ (a b x y : Bytes), (44 : UInt8) ∉ a → (44 : UInt8) ∉ b → (x = [] ∨ x.head? = some 44) → (y = [] ∨ y.head? = some 44) → a ++ x = b ++ y → a = b ∧ x = y := by
    intro a
    induction a with
    | nil =>
      intro b x y _ hb hx hy e
      cases b with
      | nil => exact ⟨rfl, by simpa using e⟩
      | cons c b =>
        rcases hx with rfl | hx
        · simp at e
        · simp only [List.nil_append, List.cons_append] at e
          rw [e] at hx; simp at hx; subst hx; simp at hb
    | cons c a ih =>
      intro b x y ha hb hx hy e
      cases b with
      | nil =>
        rcases hy with rfl | hy
        · simp at e
        · simp only [List.nil_append, List.cons_append] at e
          rw [← e] at hy; simp at hy; subst hy; simp at ha
      | cons d b =>
        simp only [List.cons_append, List.cons.injEq] at e
        have := ih b x y (by simp at ha; tauto) (by simp at hb; tauto) hx hy e.2
        exact ⟨by rw [e.1, this.1], this.2⟩
  have head : ∀ l : List Bytes, l.flatMap (fun x => (44 : UInt8) :: x) = [] ∨ (l.flatMap (fun x => (44 : UInt8) :: x)).head? = some 44 := by
    intro l; cases l <;> simp
  have rest : ∀ (l m : List Bytes), (∀ x ∈ l, (44 : UInt8) ∉ x) → (∀ x ∈ m, (44 : UInt8) ∉ x) → l.flatMap (fun x => (44 : UInt8) :: x) = m.flatMap (fun x => (44 : UInt8) :: x) → l = m := by
    intro l
    induction l with
    | nil => intro m _ _ e; cases m with
      | nil => rfl
      | cons _ _ => simp at e
    | cons a l ih =>
      intro m hl hm e
      cases m with
      | nil => simp at e
      | cons b m =>
        simp only [List.flatMap_cons, List.cons_append, List.cons.injEq, true_and] at e
        have := first a b _ _ (hl a (by simp)) (hm b (by simp)) (head l) (head m) e
        rw [this.1, ih m (fun x hx => hl x (by simp [hx])) (fun x hx => hm x (by simp [hx])) this.2]
  intro l m hl hm h1 h2 e
  cases l with
  | nil => exact absurd rfl hl
  | cons a l =>
    cases m with
    | nil => exact absurd rfl hm
    | cons b m =>
      rw [intercalate_cons, intercalate_cons] at e
      have := first a b _ _ (h1 a (by simp)) (h2 b (by simp)) (head l) (head m) e
      rw [this.1, rest l m (fun x hx => h1 x (by simp [hx])) (fun x hx => h2 x (by simp [hx])) this.2]

/-- No text of the column that appears in its tag has a comma. -/
structure Spec.NoCommas (c : Column) : Prop where
  name : 44 ∉ c.name
  type : 44 ∉ c.type
  udt : 44 ∉ c.udtType
  ref : ∀ fk, c.ref = some fk → 44 ∉ fk.refSchema ∧ 44 ∉ fk.refTable ∧ 44 ∉ fk.refColumn

theorem dec_no_comma (n : Nat) : (44 : UInt8) ∉ Num.dec n := by
  intro h
  obtain ⟨d, hd, e⟩ := Num.fmtNat_bytes 10 (by decide) n _ h
  have : ∀ d : Fin 10, (44 : UInt8) ≠ Num.digitByte d.val := by decide
  exact this ⟨d, hd⟩ e

theorem options_no_comma {c : Column} (h : Spec.NoCommas c) : ∀ x ∈ c.name :: Spec.options c, (44 : UInt8) ∉ x := by
  intro x hx
  rcases List.mem_cons.1 hx with rfl | hx
  · exact h.name
  · unfold Spec.options at hx
    simp only [List.mem_append] at hx
    rcases hx with ((((hx | hx) | hx) | hx) | hx) | hx
    · simp at hx; subst hx; split
      · exact h.type
      · exact h.udt
    · split at hx
      · simp at hx
      · simp at hx; subst hx; simp [dec_no_comma]
    · split at hx
      · simp at hx; subst hx; decide
      · simp at hx
    · split at hx
      · simp at hx
      · simp at hx; subst hx; decide
    · split at hx
      · simp at hx; subst hx; decide
      · simp at hx
    · cases hr : c.ref with
      | none => rw [hr] at hx; simp [Spec.refOption] at hx
      | some fk =>
        rw [hr] at hx; simp [Spec.refOption] at hx; subst hx
        have := h.ref fk hr
        simp [this.1, this.2.1, this.2.2]

/-- **C78**: nothing is lost in the tag.  Two columns (without commas in their texts) with the same `db` value have the same name, database type, maximal length,
nullability, are both indexed or not, both part of the primary key or not, and refer to the same column. -/
theorem C78_tag_determines_column (c d : Column) (hc : Spec.NoCommas c) (hd : Spec.NoCommas d)
    (h : [(44 : UInt8)].intercalate (c.name :: Spec.options c) = [44].intercalate (d.name :: Spec.options d)) :
    c.name = d.name ∧ (if c.udtType = [] then c.type else c.udtType) = (if d.udtType = [] then d.type else d.udtType) ∧ c.maxLength = d.maxLength
    ∧ c.nullable = d.nullable ∧ (c.indexes = [] ↔ d.indexes = []) ∧ ((∃ i ∈ c.indexes, i.isPrimary) ↔ (∃ i ∈ d.indexes, i.isPrimary))
    ∧ c.ref.map (·.refColumnSchemaName) = d.ref.map (·.refColumnSchemaName) := by
  have e := commas_inj _ _ (by simp) (by simp) (options_no_comma hc) (options_no_comma hd) h
  simp only [Spec.options, List.cons_append, List.nil_append, List.cons.injEq] at e
  obtain ⟨e1, e2, e3⟩ := e
  have key := fun k : UInt8 => congrArg (List.filter (fun x : Bytes => decide (x.head? = some k))) e3
  have k1 := key 109
  have k2 := key 110
  have k3 := key 105
  have k4 := key 112
  have k5 := key 102
  have hf : ∀ (k : UInt8) (r : Option ForeignKey), List.filter (fun x : Bytes => decide (x.head? = some k)) (Spec.refOption r)
      = if 102 = k then (r.map (fun fk => b!"fk:" ++ fk.refColumnSchemaName)).toList else [] := by
    intro k r
    cases r with
    | none => simp [Spec.refOption]
    | some fk => by_cases h : (102 : UInt8) = k <;> simp [List.filter_cons, h, ForeignKey.refColumnSchemaName, Spec.refOption]
  simp only [List.filter_append, apply_ite (List.filter _), hf] at k1 k2 k3 k4 k5
  simp [List.filter_cons] at k1 k2 k3 k4 k5
  refine ⟨e1, e2, ?_, ?_, ?_, ?_, ?_⟩
  · by_cases h1 : c.maxLength = 0 <;> by_cases h2 : d.maxLength = 0 <;> simp [h1, h2] at k1
    · rw [h1, h2]
    · exact UInt32.toNat_inj.1 (Num.fmtNat_inj 10 (by decide) (by decide) k1)
  · cases h1 : c.nullable <;> cases h2 : d.nullable <;> simp [h1, h2] at k2 ⊢
  · by_cases h1 : c.indexes = [] <;> by_cases h2 : d.indexes = [] <;> simp [h1, h2] at k3 ⊢
  · by_cases h1 : (∃ i ∈ c.indexes, i.isPrimary = true) <;> by_cases h2 : (∃ i ∈ d.indexes, i.isPrimary = true) <;> simp only [h1, h2, if_true, if_false] at k4 ⊢
    · simp at k4
    · simp at k4
  · cases h1 : c.ref <;> cases h2 : d.ref <;> simp [h1, h2] at k5 ⊢
    exact k5

/-- **C78, a limit**: a column name with a quote is cut there: the `db` value is what comes before the quote, so the name is lost. -/
theorem C78_quote_cuts_the_name (esc : Bytes → Option Bytes) (c : Column) (a b : Bytes) (hn : c.name = a ++ b!"\"" ++ b) (ha : Spec.Verbatim a) :
    getTag esc b!"db" c.tag = a := by
  unfold getTag
  have et : c.tag = b!"db:\"" ++ a ++ b!"\"" ++ (b ++ c.tagOps ++ b!"\" json:\",omitempty\"") := by simp [Column.tag, hn, List.append_assoc]
  rw [et, lookup_db esc _ _ _ ha]; rfl

theorem scanQuoted_prefix : ∀ (s r x y : Bytes), (∀ b ∈ s, b ≠ 34 ∧ b ≠ 92) → r ≠ [] → scanQuoted r = some (x, y) → scanQuoted (s ++ r) = some (s ++ x, y)
  | [], r, x, y, _, _, h => h
  | c :: s, r, x, y, hs, hr, h => by
    have hc := hs c (by simp)
    have ih := scanQuoted_prefix s r x y (fun b hb => hs b (by simp [hb])) hr h
    cases e : s ++ r with
    | nil => exact absurd (List.append_eq_nil_iff.1 e).2 hr
    | cons d t =>
      rw [e] at ih
      simp [List.cons_append, e, scanQuoted, hc.1, hc.2, ih]

theorem lookup_scan (esc : Bytes → Option Bytes) (r x y : Bytes) (f : Nat) (h : scanQuoted r = some (x, y)) : lookupTag esc b!"db" (f + 1) (b!"db:\"" ++ r) = unquote esc x := by
  simp [lookupTag, List.dropWhile_cons, List.takeWhile_cons, isKeyByte, h]

/-- **C78, a limit**: a backslash in the column name takes the byte after it along, even a quote, so the name is not cut there, but the whole value is then read as text with escapes
(`strconv.Unquote`, not modelled: `esc`); if that is not a valid escape there is no `db` value at all. -/
theorem C78_backslash_escapes (esc : Bytes → Option Bytes) (c : Column) (a b : Bytes) (d : UInt8) (hn : c.name = a ++ [92, d] ++ b) (ha : ∀ x ∈ a, x ≠ 34 ∧ x ≠ 92)
    (hb : ∀ x ∈ b ++ c.tagOps, x ≠ 34 ∧ x ≠ 92) :
    getTag esc b!"db" c.tag = (esc (c.name ++ c.tagOps)).getD [] := by
  unfold getTag
  have et : c.tag = b!"db:\"" ++ (a ++ 92 :: d :: ((b ++ c.tagOps) ++ 34 :: b!" json:\",omitempty\"")) := by simp [Column.tag, hn, List.append_assoc]
  have h0 := scanQuoted_verbatim (b ++ c.tagOps) b!" json:\",omitempty\"" hb
  have h1 : scanQuoted (92 :: d :: ((b ++ c.tagOps) ++ 34 :: b!" json:\",omitempty\"")) = some (92 :: d :: (b ++ c.tagOps), b!" json:\",omitempty\"") := by
    rw [scanQuoted, if_neg (by decide), if_pos rfl, h0]; rfl
  have h2 := scanQuoted_prefix a _ _ _ ha (by simp) h1
  have e2 : a ++ 92 :: d :: (b ++ c.tagOps) = c.name ++ c.tagOps := by simp [hn]
  rw [e2] at h2
  have hu : unquote esc (c.name ++ c.tagOps) = esc (c.name ++ c.tagOps) := by
    unfold unquote; rw [if_neg]; rintro ⟨h, _⟩; exact h (by simp [hn])
  rw [et, lookup_scan esc _ _ _ _ h2, hu]

/-- Texts up to a separator that does not occur in them. -/
theorem cut_inj (z : UInt8) : ∀ (a b x y : Bytes), z ∉ a → z ∉ b → a ++ z :: x = b ++ z :: y → a = b ∧ x = y
  | [], [], x, y, _, _, h => ⟨rfl, by simpa using h⟩
  | [], c :: b, x, y, _, hb, h => by simp at h hb; exact absurd h.1 hb.1
  | c :: a, [], x, y, ha, _, h => by simp at h ha; exact absurd h.1.symm ha.1
  | c :: a, d :: b, x, y, ha, hb, h => by
    simp only [List.cons_append, List.cons.injEq] at h
    simp only [List.mem_cons, not_or] at ha hb
    have := cut_inj z a b x y ha.2 hb.2 h.2
    exact ⟨by rw [h.1, this.1], this.2⟩

theorem dec_digit {z : UInt8} (hz : z ∉ [48, 49, 50, 51, 52, 53, 54, 55, 56, 57]) (n : Nat) : z ∉ Num.dec n := by
  intro h
  obtain ⟨d, hd, e⟩ := Num.fmtNat_bytes 10 (by decide) n _ h
  have : ∀ d : Fin 10, Num.digitByte d.val ∈ ([48, 49, 50, 51, 52, 53, 54, 55, 56, 57] : List UInt8) := by decide
  exact hz (e ▸ this ⟨d, hd⟩)

/-- **C79**: the literal generated for a column in the schema package determines the column definition: two columns whose texts have no quotes and whose literals are
equal have the same name, position, types, nullability and maximal length. -/
theorem C79_literal_determines_column (c d : Column) (hc : 34 ∉ c.name ∧ 34 ∉ c.type ∧ 34 ∉ c.udtType) (hd : 34 ∉ d.name ∧ 34 ∉ d.type ∧ 34 ∉ d.udtType)
    (h : c.structString = d.structString) :
    c.name = d.name ∧ c.position = d.position ∧ c.type = d.type ∧ c.udtType = d.udtType ∧ c.nullable = d.nullable ∧ c.maxLength = d.maxLength := by
  unfold Column.structString at h
  simp only [List.append_assoc, List.cons_append, List.nil_append, List.cons.injEq, true_and] at h
  obtain ⟨e1, h⟩ := cut_inj 34 _ _ _ _ hc.1 hd.1 h
  simp only [List.cons.injEq, true_and] at h
  obtain ⟨e2, h⟩ := cut_inj 44 _ _ _ _ (dec_digit (by decide) _) (dec_digit (by decide) _) h
  simp only [List.cons.injEq, true_and] at h
  obtain ⟨e3, h⟩ := cut_inj 34 _ _ _ _ hc.2.1 hd.2.1 h
  simp only [List.cons.injEq, true_and] at h
  obtain ⟨e4, h⟩ := cut_inj 34 _ _ _ _ hc.2.2 hd.2.2 h
  simp only [List.cons.injEq, true_and] at h
  obtain ⟨e5, h⟩ := cut_inj 32 _ _ _ _ (by cases c.nullable <;> decide) (by cases d.nullable <;> decide) h
  refine ⟨e1, UInt32.toNat_inj.1 (Num.fmtNat_inj 10 (by decide) (by decide) e2), e3, e4, ?_, ?_⟩
  · cases h1 : c.nullable <;> cases h2 : d.nullable <;> simp [h1, h2] at e5 ⊢
  · have hz : ∀ m : UInt32, (m > 0) ↔ ¬ m = 0 := by
      intro m
      show (0 : UInt32) < m ↔ _
      rw [← UInt32.toNat_inj, UInt32.lt_iff_toNat_lt]; simp; omega
    simp only [hz] at h
    by_cases h1 : c.maxLength = 0 <;> by_cases h2 : d.maxLength = 0 <;> simp [h1, h2] at h
    · rw [h1, h2]
    · exact UInt32.toNat_inj.1 (Num.fmtNat_inj 10 (by decide) (by decide) h)

/-! ### Examples -/

/-- A column with everything. -/
def ownerColumn : Column :=
  ⟨b!"owner_id", b!"bigint", b!"int8", true, 64, 3, b!"public.org.owner_id", some ⟨b!"fk", b!"public", b!"org", b!"owner_id", b!"public", b!"user", b!"id", b!""⟩,
    [⟨b!"pk", true, true, [b!"owner_id"], b!""⟩]⟩

theorem ownerColumn_ok : Spec.TagOK ownerColumn :=
  ⟨verbatim_ascii (by decide), by decide, verbatim_ascii (by decide), verbatim_ascii (by decide), by
    intro fk h; cases h; exact ⟨verbatim_ascii (by decide), verbatim_ascii (by decide), verbatim_ascii (by decide)⟩⟩

example : ownerColumn.tag = b!"db:\"owner_id,int8,max:64,null,index,primary,fk:public.user.id\" json:\",omitempty\"" := by decide +kernel
example : Spec.NoCommas ownerColumn := ⟨by decide, by decide, by decide, by intro fk h; cases h; decide⟩
example : ownerColumn.structString = b!"{ Name: \"owner_id\", Position: 3, Type: \"bigint\", UdtType: \"int8\", Nullable: true , MaxLength: 64 }" := by decide +kernel

end Schema
