import Verif.Query.ParamsProps
/-
C40: query parameter names identify the query shape.
-/
set_option linter.unusedSimpArgs false
set_option linter.unusedVariables false
set_option linter.unusedSectionVars false
namespace Query
variable {V : Type} [DecidableEq V]

/-! ### Text lemmas -/

theorem digitByte_ne (d : Nat) (hd : d < 16) (c : UInt8) (hc : c.toNat < 48 ∨ 57 < c.toNat ∧ c.toNat < 97 ∨ 102 < c.toNat) :
    Num.digitByte d ≠ c := by
  intro h
  have := Num.digitByte_toNat d hd
  rw [h] at this
  split at this <;> omega

/-- Hexadecimal text has neither `_`, `x` nor `-`. -/
theorem hex_no (n : Nat) (c : UInt8) (hc : c.toNat < 48 ∨ 57 < c.toNat ∧ c.toNat < 97 ∨ 102 < c.toNat) : c ∉ Num.fmtNat 16 n := by
  intro h
  obtain ⟨d, hd, rfl⟩ := Num.fmtNat_bytes 16 (by omega) n c h
  exact digitByte_ne d hd _ hc rfl

theorem dec_no (n : Nat) (c : UInt8) (hc : c.toNat < 48 ∨ 57 < c.toNat) : c ∉ Num.fmtNat 10 n := by
  intro h
  obtain ⟨d, hd, rfl⟩ := Num.fmtNat_bytes 10 (by omega) n c h
  have := Num.digitByte_toNat d (by omega)
  rw [if_pos hd] at this
  omega

/-- The part before the first separator is determined. -/
theorem split_at {c : UInt8} : ∀ {a a' s s' : Bytes}, c ∉ a → c ∉ a' → a ++ c :: s = a' ++ c :: s' → a = a' ∧ s = s' := by
  intro a
  induction a with
  | nil =>
    intro a' s s' _ ha' h
    cases a' with
    | nil => simpa using h
    | cons b a' => simp only [List.nil_append, List.cons_append, List.cons.injEq] at h; exact absurd (by simp [h.1]) ha'
  | cons b a ih =>
    intro a' s s' ha ha' h
    cases a' with
    | nil => simp only [List.nil_append, List.cons_append, List.cons.injEq] at h; exact absurd (by simp [h.1]) ha
    | cons b' a' =>
      simp only [List.cons_append, List.cons.injEq] at h
      obtain ⟨h1, h2⟩ := ih (by simp at ha; exact ha.2) (by simp at ha'; exact ha'.2) h.2
      exact ⟨by rw [h.1, h1], h2⟩

/-- Tokens written one after the other, each after a `_`. -/
def under (ts : List Bytes) : Bytes := ts.flatMap fun t => 95 :: t

theorem under_inj : ∀ {ts ts' : List Bytes} {a a' : Bytes}, 95 ∉ a → 95 ∉ a' → (∀ t ∈ ts, 95 ∉ t) → (∀ t ∈ ts', 95 ∉ t) →
    a ++ under ts = a' ++ under ts' → a = a' ∧ ts = ts' := by
  intro ts
  induction ts with
  | nil =>
    intro ts' a a' ha ha' _ h' h
    cases ts' with
    | nil => simpa [under] using h
    | cons t' ts' =>
      simp only [under, List.flatMap_nil, List.append_nil, List.flatMap_cons, List.cons_append] at h
      exact absurd (by rw [h]; simp) ha
  | cons t ts ih =>
    intro ts' a a' ha ha' ht h' h
    cases ts' with
    | nil =>
      simp only [under, List.flatMap_nil, List.append_nil, List.flatMap_cons, List.cons_append] at h
      exact absurd (by rw [← h]; simp) ha'
    | cons t' ts' =>
      simp only [under, List.flatMap_cons, List.cons_append] at h
      obtain ⟨h1, h2⟩ := split_at ha ha' h
      obtain ⟨h3, h4⟩ := ih (ht t (by simp)) (h' t' (by simp)) (fun x hx => ht x (by simp [hx])) (fun x hx => h' x (by simp [hx])) h2
      exact ⟨h1, by rw [h3, h4]⟩

/-- No `_x` inside, if no token starts with `x`. -/
theorem no_ux : ∀ {ts : List Bytes} {a : Bytes}, 95 ∉ a → (∀ t ∈ ts, 95 ∉ t ∧ t.head? ≠ some 120) →
    ∀ p s, a ++ under ts ≠ p ++ 95 :: 120 :: s := by
  intro ts
  induction ts with
  | nil =>
    intro a ha _ p s h
    simp only [under, List.flatMap_nil, List.append_nil] at h
    exact ha (by rw [h]; simp)
  | cons t ts ih =>
    intro a
    induction a with
    | nil =>
      intro _ ht p s h
      simp only [under, List.flatMap_cons, List.nil_append, List.cons_append] at h
      cases p with
      | nil =>
        simp only [List.nil_append, List.cons.injEq, true_and] at h
        cases t with
        | nil =>
          cases ts with
          | nil => simp at h
          | cons t2 ts2 => simp [List.flatMap_cons] at h
        | cons c t =>
          simp only [List.cons_append, List.cons.injEq] at h
          exact (ht (c :: t) (by simp)).2 (by simp [h.1])
      | cons c p =>
        simp only [List.cons_append, List.cons.injEq] at h
        exact ih (ht t (by simp)).1 (fun x hx => ht x (by simp [hx])) p s h.2
    | cons c a iha =>
      intro ha ht p s h
      simp only [List.mem_cons, not_or] at ha
      cases p with
      | nil => simp only [List.cons_append, List.nil_append, List.cons.injEq] at h; exact ha.1 h.1.symm
      | cons d p =>
        simp only [List.cons_append, List.cons.injEq] at h
        exact iha ha.2 ht p s h.2

/-- The last `_x` is determined. -/
theorem last_ux {q q' t t' : Bytes} (ht : ∀ p s, t ≠ p ++ 95 :: 120 :: s) (ht' : ∀ p s, t' ≠ p ++ 95 :: 120 :: s)
    (h : q ++ 95 :: 120 :: t = q' ++ 95 :: 120 :: t') : q = q' ∧ t = t' := by
  rcases List.append_eq_append_iff.1 h with ⟨a, h1, h2⟩ | ⟨a, h1, h2⟩
  · match a with
    | [] => simpa [h1] using h2
    | [c] => simp at h2
    | c :: d :: a =>
      simp only [List.cons_append, List.cons.injEq] at h2
      exact absurd h2.2.2 (ht a t')
  · match a with
    | [] => simp only [List.append_nil] at h1; simp only [List.nil_append, List.cons.injEq, true_and] at h2; exact ⟨h1, h2.symm⟩
    | [c] => simp at h2
    | c :: d :: a =>
      simp only [List.cons_append, List.cons.injEq] at h2
      exact absurd h2.2.2 (ht' a t)

theorem fmtInt_inj {i j : Int} (h : Num.fmtInt 16 i = Num.fmtInt 16 j) : i = j := by
  unfold Num.fmtInt at h
  have hn : ∀ n s, Num.fmtNat 16 n ≠ 45 :: s := fun n s hs => hex_no n 45 (by decide) (by rw [hs]; simp)
  by_cases hi : i < 0 <;> by_cases hj : j < 0
  · simp only [hi, hj, if_true, List.cons.injEq, true_and] at h
    have := Num.fmtNat_inj 16 (by omega) (by omega) h
    omega
  · simp only [hi, hj, if_true, if_false] at h
    exact absurd h.symm (hn _ _)
  · simp only [hi, hj, if_true, if_false] at h
    exact absurd h (hn _ _)
  · simp only [hi, hj, if_false] at h
    have := Num.fmtNat_inj 16 (by omega) (by omega) h
    omega

/-! ### The tokens of a name -/

/-- An enum token. -/
def enumTok (e : EnumPos) : Bytes := Num.fmtNat 10 e.position.toNat ++ 120 :: Num.fmtNat 16 (e.value.toInt % 2 ^ 64).toNat
/-- A flag token. -/
def flagTok (f : Int32) : Bytes := 102 :: 120 :: Num.fmtInt 16 f.toInt
/-- The paging token. -/
def pageToks (b : Builder V) : List Bytes := if b.cursor ≠ .nil then [[99]] else if b.offset > 0 then [[111]] else []
/-- The NULL column token. -/
def nullToks (H : Bytes → UInt64) (cs : List Bytes) : List Bytes :=
  if cs.length > 0 then [110 :: Num.fmtNat 16 (H cs.flatten).toNat] else []

/-- All tokens after the positions. -/
def toks (H : Bytes → UInt64) (b : Builder V) : List Bytes :=
  b.enums.map enumTok ++ b.flags.map flagTok ++ pageToks b ++ nullToks H (sortStrings b.nullColumns)

theorem under_append (a b : List Bytes) : under (a ++ b) = under a ++ under b := by simp [under]

theorem nameText_eq (H : Bytes → UInt64) (b : Builder V) :
    b.nameText H = b.queryName ++ 95 :: 120 :: (Num.fmtNat 16 b.positions.toNat ++ under (toks H b)) := by
  have e1 : under (b.enums.map enumTok) = b.enums.flatMap enumText := by
    rw [under, List.flatMap_map]; congr 1; funext e
    simp [enumTok, enumText]
  have e2 : under (b.flags.map flagTok) = b.flags.flatMap flagText := by
    rw [under, List.flatMap_map]; congr 1
  have e3 : under (pageToks b) = if b.cursor ≠ .nil then b!"_c" else if b.offset > 0 then b!"_o" else [] := by
    unfold pageToks; split
    · rfl
    · split <;> rfl
  have e4 : under (nullToks H (sortStrings b.nullColumns)) = nullText H (sortStrings b.nullColumns) := by
    unfold nullToks nullText; split <;> simp [under]
  simp only [Builder.nameText, toks, under_append, e1, e2, e3, e4, List.append_assoc, List.cons_append, List.nil_append]

theorem enumTok_head (e : EnumPos) : ∃ c r, enumTok e = c :: r ∧ 48 ≤ c.toNat ∧ c.toNat ≤ 57 := by
  unfold enumTok
  cases hf : Num.fmtNat 10 e.position.toNat with
  | nil => exact absurd hf (Num.fmtNat_ne_nil _ _)
  | cons c r =>
    refine ⟨c, r ++ 120 :: _, rfl, ?_⟩
    obtain ⟨d, hd, rfl⟩ := Num.fmtNat_bytes 10 (by omega) _ c (by rw [hf]; simp)
    have := Num.digitByte_toNat d (by omega)
    rw [if_pos hd] at this
    omega

/-- Kind of a token by its first byte: 0 enum, 1 flag, 2 page, 3 null. -/
def kind (t : Bytes) : Nat := match t.head? with
  | some c => if c.toNat ≤ 57 then 0 else if c = 102 then 1 else if c = 110 then 3 else 2
  | none => 4

theorem kind_enum (e : EnumPos) : kind (enumTok e) = 0 := by
  obtain ⟨c, r, h, _, h2⟩ := enumTok_head e
  simp [h, kind, h2]
theorem kind_flag (f : Int32) : kind (flagTok f) = 1 := by simp [flagTok, kind]
theorem kind_page (b : Builder V) : ∀ t ∈ pageToks b, kind t = 2 := by
  intro t ht; unfold pageToks at ht
  split at ht
  · simp at ht; subst ht; decide
  · split at ht
    · simp at ht; subst ht; decide
    · simp at ht
theorem kind_null (H : Bytes → UInt64) (cs : List Bytes) : ∀ t ∈ nullToks H cs, kind t = 3 := by
  intro t ht; unfold nullToks at ht
  split at ht
  · simp at ht; subst ht; simp [kind]
  · simp at ht

theorem filter_all_of {β : Type _} (p : β → Bool) (l : List β) (h : ∀ x ∈ l, p x = true) : l.filter p = l := List.filter_eq_self.2 h
theorem filter_none_of {β : Type _} (p : β → Bool) (l : List β) (h : ∀ x ∈ l, p x = false) : l.filter p = [] :=
  List.filter_eq_nil_iff.2 (fun x hx => by simp [h x hx])

theorem toks_filter (H : Bytes → UInt64) (b : Builder V) :
    (toks H b).filter (fun t => kind t == 0) = b.enums.map enumTok ∧
    (toks H b).filter (fun t => kind t == 1) = b.flags.map flagTok ∧
    (toks H b).filter (fun t => kind t == 2) = pageToks b ∧
    (toks H b).filter (fun t => kind t == 3) = nullToks H (sortStrings b.nullColumns) := by
  have k0 : ∀ t ∈ b.enums.map enumTok, kind t = 0 := by
    intro t ht; obtain ⟨e, _, rfl⟩ := List.mem_map.1 ht; exact kind_enum e
  have k1 : ∀ t ∈ b.flags.map flagTok, kind t = 1 := by
    intro t ht; obtain ⟨e, _, rfl⟩ := List.mem_map.1 ht; exact kind_flag e
  have k2 := kind_page b
  have k3 := kind_null H (sortStrings b.nullColumns)
  have F : ∀ (k j : Nat) (l : List Bytes), (∀ t ∈ l, kind t = k) → l.filter (fun t => kind t == j) = if k = j then l else [] := by
    intro k j l hl
    split
    · rename_i h; exact filter_all_of _ _ (fun x hx => by simp [hl x hx, h])
    · rename_i h; exact filter_none_of _ _ (fun x hx => by simp [hl x hx, h])
  unfold toks
  simp only [List.filter_append]
  refine ⟨?_, ?_, ?_, ?_⟩ <;> rw [F 0 _ _ k0, F 1 _ _ k1, F 2 _ _ k2, F 3 _ _ k3] <;> simp

theorem toks_ok (H : Bytes → UInt64) (b : Builder V) : ∀ t ∈ toks H b, 95 ∉ t ∧ t.head? ≠ some 120 := by
  intro t ht
  simp only [toks, List.mem_append] at ht
  rcases ht with ((ht | ht) | ht) | ht
  · obtain ⟨e, _, rfl⟩ := List.mem_map.1 ht
    constructor
    · simp only [enumTok, List.mem_append, List.mem_cons, not_or]
      exact ⟨dec_no _ 95 (by decide), by decide, hex_no _ 95 (by decide)⟩
    · obtain ⟨c, r, h, h1, h2⟩ := enumTok_head e
      rw [h]; simp only [List.head?_cons, ne_eq, Option.some.injEq]
      rintro rfl; revert h2; decide
  · obtain ⟨f, _, rfl⟩ := List.mem_map.1 ht
    refine ⟨?_, by simp [flagTok]⟩
    simp only [flagTok, List.mem_cons, not_or, Num.fmtInt]
    refine ⟨by decide, by decide, ?_⟩
    split
    · simp only [List.mem_cons, not_or]; exact ⟨by decide, hex_no _ 95 (by decide)⟩
    · exact hex_no _ 95 (by decide)
  · unfold pageToks at ht
    split at ht
    · simp at ht; subst ht; decide
    · split at ht
      · simp at ht; subst ht; decide
      · simp at ht
  · unfold nullToks at ht
    split at ht
    · simp at ht; subst ht
      simp only [List.mem_cons, not_or]
      exact ⟨⟨by decide, hex_no _ 95 (by decide)⟩, by simp⟩
    · simp at ht

theorem enumTok_inj {e e' : EnumPos} (h : enumTok e = enumTok e') : e = e' := by
  obtain ⟨h1, h2⟩ := split_at (dec_no _ 120 (by decide)) (dec_no _ 120 (by decide)) h
  have p1 := Num.fmtNat_inj 10 (by omega) (by omega) h1
  have p2 := Num.fmtNat_inj 16 (by omega) (by omega) h2
  have r1 := Int32.le_toInt e.value
  have r2 := Int32.toInt_lt e.value
  have r3 := Int32.le_toInt e'.value
  have r4 := Int32.toInt_lt e'.value
  have hv : e.value.toInt = e'.value.toInt := by omega
  cases e; cases e'
  simp only [EnumPos.mk.injEq]
  exact ⟨UInt32.toNat.inj p1, Int32.toInt_inj.1 hv⟩

theorem flagTok_inj {f f' : Int32} (h : flagTok f = flagTok f') : f = f' := by
  simp only [flagTok, List.cons.injEq, true_and] at h
  exact Int32.toInt_inj.1 (fmtInt_inj h)

theorem map_inj {β γ : Type _} {g : β → γ} (hg : ∀ {x y}, g x = g y → x = y) : ∀ {l l' : List β}, l.map g = l'.map g → l = l' := by
  intro l
  induction l with
  | nil => intro l' h; cases l' <;> simp_all
  | cons a l ih =>
    intro l' h
    cases l' with
    | nil => simp at h
    | cons b l' =>
      simp only [List.map_cons, List.cons.injEq] at h
      rw [hg h.1, ih h.2]

/-- What the names tell, on the level of the builder's contents. -/
theorem nameText_inj (H : Bytes → UInt64) (b b' : Builder V) (h : b.nameText H = b'.nameText H) :
    b.queryName = b'.queryName ∧ b.positions = b'.positions ∧ b.enums = b'.enums ∧ b.flags = b'.flags ∧
    pageToks b = pageToks b' ∧ nullToks H (sortStrings b.nullColumns) = nullToks H (sortStrings b'.nullColumns) := by
  rw [nameText_eq, nameText_eq] at h
  have u := fun b : Builder V => no_ux (hex_no b.positions.toNat 95 (by decide)) (toks_ok H b)
  obtain ⟨h1, h2⟩ := last_ux (u b) (u b') h
  obtain ⟨h3, h4⟩ := under_inj (hex_no _ 95 (by decide)) (hex_no _ 95 (by decide)) (fun t ht => (toks_ok H b t ht).1)
    (fun t ht => (toks_ok H b' t ht).1) h2
  obtain ⟨f0, f1, f2, f3⟩ := toks_filter H b
  obtain ⟨g0, g1, g2, g3⟩ := toks_filter H b'
  rw [h4] at f0 f1 f2 f3
  refine ⟨h1, BitVec.eq_of_toNat_eq (Num.fmtNat_inj 16 (by omega) (by omega) h3), ?_, ?_, ?_, ?_⟩
  · exact map_inj enumTok_inj (f0.symm.trans g0)
  · exact map_inj flagTok_inj (f1.symm.trans g1)
  · exact f2.symm.trans g2
  · exact f3.symm.trans g3

/-! ### C40 -/

/-- How the query pages, as the name sees it: by cursor (a non-nil one), by a non-zero offset, or neither. -/
inductive PageKind where
  | cursor | offset | none
  deriving DecidableEq, Repr

/-- The kind of paging. -/
def pageKind (b : Builder V) : PageKind := if b.cursor ≠ .nil then .cursor else if 0 < b.offset then .offset else .none

theorem leBytes_trans : ∀ a b c : Bytes, leBytes a b = true → leBytes b c = true → leBytes a c = true := by
  intro a
  induction a with
  | nil => intro b c _ _; rfl
  | cons x a ih =>
    intro b c h1 h2
    cases b with
    | nil => simp [leBytes] at h1
    | cons y b =>
      cases c with
      | nil => simp [leBytes] at h2
      | cons z c =>
        simp only [leBytes] at *
        by_cases hxy : x = y
        · subst hxy
          by_cases hxz : x = z
          · subst hxz; simp only [if_true] at *; exact ih b c h1 h2
          · simp only [hxz, if_false] at *; exact h2
        · simp only [hxy, if_false, decide_eq_true_eq] at h1
          by_cases hyz : y = z
          · subst hyz; simp only [hxy, if_false, decide_eq_true_eq]; exact h1
          · simp only [hyz, if_false, decide_eq_true_eq] at h2
            have hlt : x < z := UInt8.lt_trans h1 h2
            have : x ≠ z := by rintro rfl; exact UInt8.lt_irrefl _ hlt
            simp [this, hlt]

theorem leBytes_total : ∀ a b : Bytes, (leBytes a b || leBytes b a) = true := by
  intro a
  induction a with
  | nil => intro b; simp [leBytes]
  | cons x a ih =>
    intro b
    cases b with
    | nil => simp [leBytes]
    | cons y b =>
      simp only [leBytes]
      by_cases hxy : x = y
      · subst hxy; simpa using ih b
      · have : y ≠ x := fun h => hxy h.symm
        simp only [hxy, this, if_false, Bool.or_eq_true, decide_eq_true_eq]
        rcases Nat.lt_or_gt_of_ne (fun h => hxy (UInt8.toNat.inj h)) with h | h
        · exact .inl (UInt8.lt_iff_toNat_lt.2 h)
        · exact .inr (UInt8.lt_iff_toNat_lt.2 h)

theorem leBytes_antisymm : ∀ a b : Bytes, leBytes a b = true → leBytes b a = true → a = b := by
  intro a
  induction a with
  | nil => intro b h1 h2; cases b with
    | nil => rfl
    | cons y b => simp [leBytes] at h2
  | cons x a ih =>
    intro b h1 h2
    cases b with
    | nil => simp [leBytes] at h1
    | cons y b =>
      simp only [leBytes] at h1 h2
      by_cases hxy : x = y
      · subst hxy
        simp only [if_true] at h1 h2
        rw [ih b h1 h2]
      · have : y ≠ x := fun h => hxy h.symm
        simp only [hxy, this, if_false, decide_eq_true_eq] at h1 h2
        exact absurd (UInt8.lt_trans h1 h2) (UInt8.lt_irrefl _)

theorem sortStrings_perm (cs : List Bytes) : (sortStrings cs).Perm cs := Util.sort_perm leBytes cs

theorem sortStrings_sorted (cs : List Bytes) : (sortStrings cs).Pairwise fun a b => leBytes a b = true :=
  Util.sort_sorted leBytes leBytes_trans leBytes_total cs

/-- Equal names: same query name, same positions, same enums, same flags, same kind of paging, and NULL columns whose (sorted,
concatenated) names hash alike; and a set of NULL columns is never confused with none. -/
theorem C40_name_identifies_shape_partial (H : Bytes → UInt64) (b b' : Builder V) (hb : b.hash = []) (hb' : b'.hash = [])
    (h : (b.name H).2 = (b'.name H).2) :
    b.queryName = b'.queryName ∧ (∀ pos, b.isSet pos = b'.isSet pos) ∧ b.enums = b'.enums ∧ (∀ pos, b.getEnum pos = b'.getEnum pos) ∧
    b.flags = b'.flags ∧ pageKind b = pageKind b' ∧ (b.nullColumns = [] ↔ b'.nullColumns = []) ∧
    (b.nullColumns ≠ [] → H (sortStrings b.nullColumns).flatten = H (sortStrings b'.nullColumns).flatten) := by
  have e : ∀ b : Builder V, b.hash = [] → (b.name H).2 = b.nameText H := by intro b hb; simp [Builder.name, hb]
  rw [e b hb, e b' hb'] at h
  obtain ⟨h1, h2, h3, h4, h5, h6⟩ := nameText_inj H b b' h
  have hlen : ∀ cs : List Bytes, (sortStrings cs).length = cs.length := fun cs => (sortStrings_perm cs).length_eq
  refine ⟨h1, fun pos => by simp [Builder.isSet, h2], h3, fun pos => by simp [Builder.getEnum, h3], h4, ?_, ?_, ?_⟩
  · unfold pageToks at h5
    unfold pageKind
    by_cases c1 : b.cursor = .nil <;> by_cases c2 : b'.cursor = .nil <;> by_cases o1 : 0 < b.offset <;> by_cases o2 : 0 < b'.offset <;>
      simp_all
  · unfold nullToks at h6
    simp only [hlen] at h6
    by_cases c1 : b.nullColumns = [] <;> by_cases c2 : b'.nullColumns = [] <;> simp_all [List.length_pos_iff]
  · intro hne
    unfold nullToks at h6
    simp only [hlen] at h6
    have p1 : b.nullColumns.length > 0 := List.length_pos_iff.2 hne
    rw [if_pos p1] at h6
    split at h6
    · simp only [List.cons.injEq, true_and, and_true] at h6
      exact UInt64.toNat.inj (Num.fmtNat_inj 16 (by omega) (by omega) h6)
    · simp at h6

/-- The name does not depend on the order in which the NULL columns were listed. -/
theorem C40_null_column_order_is_irrelevant (H : Bytes → UInt64) (b : Builder V) (hb : b.hash = []) (cs cs' : List Bytes)
    (hp : cs.Perm cs') :
    ((b.setNullColumns cs).name H).2 = ((b.setNullColumns cs').name H).2 := by
  have : sortStrings cs = sortStrings cs' := by
    refine List.Perm.eq_of_pairwise (le := fun a b => leBytes a b = true) ?_ (sortStrings_sorted cs) (sortStrings_sorted cs')
      ((sortStrings_perm cs).trans (hp.trans (sortStrings_perm cs').symm))
    exact fun a b _ _ => leBytes_antisymm a b
  simp [Builder.name, Builder.setNullColumns, hb, Builder.nameText, this]

/-- "Same set of NULL columns" fails: {"ab", "c"} and {"a", "bc"} give the same name, whatever the hash function. -/
theorem C40_null_columns_collide (H : Bytes → UInt64) :
    (((new b!"q" : Builder Nat).setNullColumns [b!"ab", b!"c"]).name H).2 = (((new b!"q" : Builder Nat).setNullColumns [b!"a", b!"bc"]).name H).2 := by
  have e1 : (sortStrings [b!"ab", b!"c"]).flatten = b!"abc" := by decide +kernel
  have e2 : (sortStrings [b!"a", b!"bc"]).flatten = b!"abc" := by decide +kernel
  have l1 : (sortStrings [b!"ab", b!"c"]).length = 2 := by decide +kernel
  have l2 : (sortStrings [b!"a", b!"bc"]).length = 2 := by decide +kernel
  simp only [Builder.name, Builder.setNullColumns, new, if_true, Builder.nameText, nullText, e1, e2, l1, l2]
  rfl

/-- A query with LIMIT/OFFSET arguments for the first page has the name of the query without paging, although its arguments differ. -/
theorem C40_first_page_has_the_name_of_no_page (H : Bytes → UInt64) (b b' : Builder V) (l : UInt32) (hp : b.setPage l 0 = some b')
    (ho : b.offset = 0) : b'.nameText H = b.nameText H ∧ b'.args ≠ b.args := by
  simp only [Builder.setPage] at hp
  split at hp
  · cases hp
  simp only [Option.some.injEq] at hp
  subst hp
  simp [Builder.nameText, ho]

/-- The name is remembered: calls made after Name() do not change it. -/
theorem C40_name_is_not_updated :
    ∃ ops : List (POp Nat), ∃ b, (new b!"q").run sampleHash ops = some b ∧ (b.name sampleHash).2 ≠ b.nameText sampleHash :=
  ⟨[.name, .set 3 (.other 1)], _, rfl, by decide +kernel⟩

/-- Calls made since the last Reset, up to and including the first Name(). -/
def namedSince (ops : List (POp V)) : Bool := (sinceReset ops).any fun | .name => true | _ => false

theorem name_hash_ne (H : Bytes → UInt64) (b : Builder V) : (b.name H).1.hash ≠ [] := by
  unfold Builder.name
  split
  · simp [nameText_eq]
  · assumption

theorem run_hash (H : Bytes → UInt64) (qn : Bytes) (ops : List (POp V)) : ∀ b, (new qn).run H ops = some b →
    (b.hash = [] ↔ namedSince ops = false) := by
  induction ops using List.snocRec with
  | nil =>
    intro b h
    simp only [Builder.run, List.foldlM_nil, Option.pure_def, Option.some.injEq] at h
    subst h; simp [new, namedSince, sinceReset]
  | snoc ops o ih =>
    intro b h
    rw [run_snoc] at h
    cases hr : (new qn : Builder V).run H ops with
    | none => simp [hr] at h
    | some b0 =>
      rw [hr] at h
      simp only [Option.bind_some] at h
      have ih := ih b0 hr
      unfold namedSince at ih ⊢
      cases o with
      | reset =>
        simp only [Builder.step, Option.some.injEq] at h; subst h
        simp [sinceReset_snoc, Builder.reset]
      | name =>
        simp only [Builder.step, Option.some.injEq] at h; subst h
        simp [sinceReset_snoc, name_hash_ne]
      | setFlags fs => simp only [Builder.step, Builder.setFlags, Option.some.injEq] at h; subst h; simpa [sinceReset_snoc] using ih
      | setNullColumns fs => simp only [Builder.step, Builder.setNullColumns, Option.some.injEq] at h; subst h; simpa [sinceReset_snoc] using ih
      | set p v =>
        simp only [Builder.step, Builder.set] at h
        split at h
        · cases h
        split at h
        · cases h
        simp only [Option.some.injEq] at h; subst h; simpa [sinceReset_snoc] using ih
      | setEnum p v =>
        simp only [Builder.step, Builder.setEnum] at h
        split at h
        · cases h
        split at h
        · cases h
        simp only [Option.some.injEq] at h; subst h; simpa [sinceReset_snoc] using ih
      | setPage l v =>
        simp only [Builder.step, Builder.setPage] at h
        split at h
        · cases h
        simp only [Option.some.injEq] at h; subst h; simpa [sinceReset_snoc] using ih
      | addArgs vs =>
        simp only [Builder.step, Builder.addArgs] at h
        split at h
        · cases h
        simp only [Option.some.injEq] at h; subst h; simpa [sinceReset_snoc] using ih
      | setCursor l p v =>
        simp only [Builder.step, Builder.setCursor, Builder.set] at h
        split at h
        · cases h
        split at h
        · cases h
        simp only [Option.map_some, Option.some.injEq] at h; subst h; simpa [sinceReset_snoc] using ih

/-- For histories in which Name() was not called since the last Reset, the first Name() describes the current state: two such
builders with equal names agree in everything `C40_name_identifies_shape_partial` lists. -/
theorem C40_first_name_is_current_partial (H : Bytes → UInt64) (qn qn' : Bytes) (ops ops' : List (POp V)) (b b' : Builder V)
    (h : (new qn).run H ops = some b) (h' : (new qn').run H ops' = some b') (hn : namedSince ops = false) (hn' : namedSince ops' = false)
    (heq : (b.name H).2 = (b'.name H).2) :
    b.queryName = b'.queryName ∧
    (∀ pos, (∃ o ∈ sinceReset ops, o.pos = some pos) ↔ ∃ o ∈ sinceReset ops', o.pos = some pos) ∧
    ((sinceReset ops).filterMap fun | .setEnum p v => some (EnumPos.mk p v) | _ => none) =
      ((sinceReset ops').filterMap fun | .setEnum p v => some (EnumPos.mk p v) | _ => none) ∧
    b.flags = b'.flags ∧ pageKind b = pageKind b' := by
  obtain ⟨h1, h2, h3, _, h4, h5, _⟩ := C40_name_identifies_shape_partial H b b' ((run_hash H qn ops b h).2 hn) ((run_hash H qn' ops' b' h').2 hn') heq
  refine ⟨h1, ?_, ?_, h4, h5⟩
  · intro pos
    rw [← (C42_is_set H qn ops b h pos).1, ← (C42_is_set H qn' ops' b' h' pos).1, h2]
  · exact (run_tracks H qn ops b h).enums.symm.trans (h3.trans (run_tracks H qn' ops' b' h').enums)

/-- Name() twice in a row gives the same text, and changes nothing but the order of the NULL columns. -/
theorem C40_name_is_stable (H : Bytes → UInt64) (b : Builder V) :
    ((b.name H).1.name H).2 = (b.name H).2 ∧ (b.name H).1.args = b.args ∧ (∀ p, (b.name H).1.isSet p = b.isSet p) ∧
    (b.name H).1.nullColumns.Perm b.nullColumns := by
  refine ⟨?_, ?_, ?_, ?_⟩
  · have := name_hash_ne H b
    generalize hb' : (b.name H).1 = b' at *
    have e : (b.name H).2 = b'.hash := by
      subst hb'; unfold Builder.name; split <;> rfl
    rw [e]; simp [Builder.name, this]
  · unfold Builder.name; split <;> rfl
  · intro p; unfold Builder.name; split <;> rfl
  · unfold Builder.name
    split
    · simp only; split
      · exact sortStrings_perm _
      · exact .refl _
    · exact .refl _

example : ((new b!"list_users" : Builder Nat).nameText sampleHash) = b!"list_users_x0" := by decide +kernel
example : ((new b!"q").run sampleHash sampleOps.dropLast).map (fun b => b.nameText sampleHash) =
    some b!"q_x28_5xfffffffffffffffe_5x4_fx1_fx-1a_o_n2668" := by decide +kernel
example : namedSince sampleOps.dropLast = false ∧ namedSince sampleOps = true := by decide

end Query
