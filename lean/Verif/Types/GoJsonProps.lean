import Verif.Types.GoJsonParse
import Verif.Types.MapProps
set_option linter.unusedSimpArgs false
set_option linter.unusedVariables false
/-! C44 with the real `encoding/json`: what `Strings`, `Metadata` and `KVSet` store and read back, for every content. -/
namespace Types.GoJson
open Types

/-! ### Specification -/

/-- Text that every text column takes: well-formed UTF-8 without control characters (in particular without NUL). -/
def Spec.Storable (s : Bytes) : Prop := ∃ cs : List Nat, (∀ c ∈ cs, Spec.Scalar c ∧ 0x20 ≤ c) ∧ s = cs.flatMap Spec.utf8

/-- All strings of a list are well-formed UTF-8. -/
def Spec.AllUtf8 (l : Option (List Bytes)) : Prop := ∀ x, l = some x → ∀ s ∈ x, Spec.Utf8 s

/-! ### Lists -/

/-- What is read back for a list. -/
def sanStrs (l : Option (List Bytes)) : Option (List Bytes) := l.map fun x => x.map sanitize

/-- The value that is parsed for a list. -/
def jvStrs : Option (List Bytes) → JV
  | none => .null
  | some l => .arr (l.map fun s => .str (sanitize s))

theorem reads_strs {d : Nat} (hd : d < maxDepth) (l : Option (List Bytes)) : Reads d (encStrs l) (jvStrs l) := by
  cases l with
  | none => exact reads_null d
  | some l =>
    have := reads_arr hd (l.map fun s => (quote s, JV.str (sanitize s))) (by
      intro p hp
      obtain ⟨s, -, rfl⟩ := List.mem_map.1 hp
      exact reads_quote _ s) (by
      intro p hp
      obtain ⟨s, -, rfl⟩ := List.mem_map.1 hp
      exact ⟨34, _, rfl, by decide, by decide⟩)
    rw [List.map_map, List.map_map] at this
    exact this

theorem store_strs (l : Option (List Bytes)) : storeStrs (jvStrs l) = (sanStrs l, true) := by
  cases l with
  | none => rfl
  | some l => simp [jvStrs, storeStrs, sanStrs, storeStr, Function.comp_def]

theorem strings_dec (l : Option (List Bytes)) : strings.dec (strings.enc l) = some (sanStrs l) := by
  show unmarshal storeStrs (encStrs l) = _
  rw [unmarshal, (reads_strs (by decide) l).parse]
  simp [store_strs]

theorem sanStrs_eq_iff (l : Option (List Bytes)) : sanStrs l = l ↔ Spec.AllUtf8 l := by
  cases l with
  | none => exact ⟨fun _ x hx => (nomatch hx), fun _ => rfl⟩
  | some l =>
    constructor
    · rintro h x hx s hs
      cases hx
      have h' : l.map sanitize = l := Option.some.inj h
      have h2 : ∀ s ∈ l, sanitize s = s := by
        have : l.map sanitize = l.map id := by rw [h', List.map_id]
        exact List.map_inj_left.1 this
      exact (sanitize_eq_iff s).1 (h2 s hs)
    · intro h
      show some (l.map sanitize) = some l
      congr 1
      have : l.map sanitize = l.map id := List.map_inj_left.2 fun s hs => (sanitize_eq_iff s).2 (h l rfl s hs)
      rw [this, List.map_id]

/-- A list of numbers is not a list of strings. -/
theorem strings_rejects (c : UInt8) (s : Bytes) (h1 : 48 ≤ c.toNat) (h2 : c.toNat ≤ 57) : strings.dec (91 :: c :: s) = none := by
  have hne : ∀ k : UInt8, (k.toNat < 48 ∨ 57 < k.toNat) → c ≠ k := by rintro k hk rfl; omega
  have hsp : isSpace c = false := by
    simp only [isSpace, Bool.or_eq_false_iff, beq_eq_false_iff_ne]
    exact ⟨⟨⟨hne _ (by decide), hne _ (by decide)⟩, hne _ (by decide)⟩, hne _ (by decide)⟩
  have hv : ∀ f d x, value f d (c :: s) = some x → ∃ n, x.1 = .num n := by
    intro f d x h
    cases f with
    | zero => simp [value] at h
    | succ f =>
      rw [value, skip, if_neg (by simp [hsp])] at h
      simp only at h
      rw [if_neg (hne _ (by decide)), if_neg (hne _ (by decide)), scalar, if_neg (hne _ (by decide)), if_neg (hne _ (by decide)), if_neg (hne _ (by decide)),
        if_neg (hne _ (by decide))] at h
      cases hn : number (c :: s) with
      | none => rw [hn] at h; cases h
      | some y => rw [hn] at h; cases h; exact ⟨_, rfl⟩
  have he : ∀ f d x, elems f d (c :: s) = some x → ∃ n l, x.1 = .num n :: l := by
    intro f d x h
    cases f with
    | zero => simp [elems] at h
    | succ f =>
      rw [elems] at h
      cases hx : value f d (c :: s) with
      | none => rw [hx] at h; cases h
      | some y =>
        obtain ⟨n, this⟩ := hv _ _ _ hx
        rw [hx] at h
        simp only [this] at h
        split at h
        · cases h
        split at h
        · cases h; exact ⟨_, _, rfl⟩
        split at h
        · cases hz : elems f d _ with
          | none => rw [hz] at h; cases h
          | some z => rw [hz] at h; cases h; exact ⟨_, _, rfl⟩
        · cases h
  show unmarshal storeStrs (91 :: c :: s) = none
  unfold unmarshal
  cases hp : parse (91 :: c :: s) with
  | none => rfl
  | some v =>
    obtain ⟨f, r, hf, -⟩ := (parse_iff _ _).1 hp
    cases f with
    | zero => simp [value] at hf
    | succ f =>
      have e2 : skip (c :: s) = c :: s := by rw [skip, if_neg (by simp [hsp])]
      rw [value, skip, if_neg (by decide)] at hf
      simp only at hf
      rw [if_pos trivial, if_neg (by decide), e2, if_neg (by simpa using hne 93 (by decide))] at hf
      cases hx : elems f 1 (c :: s) with
      | none => rw [hx] at hf; cases hf
      | some y =>
        obtain ⟨n, l, hl⟩ := he _ _ _ hx
        rw [hx] at hf
        simp only [Option.map_some, hl, Option.some.injEq, Prod.mk.injEq] at hf
        rw [← hf.1]
        simp [storeStrs, storeStr]

/-! ### Maps -/

variable {V : Type}

/-- How the values of a map are written, parsed and stored. -/
structure Elem (e : V → Bytes) (st : JV → V × Bool) (san : V → V) : Prop where
  reads : ∀ v, ∃ j, Reads 1 (e v) j ∧ st j = (san v, true)

theorem elem_str : Elem quote storeStr sanitize := ⟨fun v => ⟨_, reads_quote 1 v, rfl⟩⟩
theorem elem_strs : Elem encStrs storeStrs sanStrs := ⟨fun v => ⟨_, reads_strs (by decide) v, store_strs v⟩⟩

/-- The entries that are read back, in the order in which they are put. -/
def sanEntries (san : V → V) (l : List (Bytes × V)) : List (Bytes × V) := (orderedEntries (some l)).map fun x => (sanitize x.1, san x.2)

theorem ordered_perm (l : List (Bytes × V)) : (orderedEntries (some l)).Perm l := Util.sort_perm _ _

theorem map_dec {e : V → Bytes} {st : JV → V × Bool} {san : V → V} (h : Elem e st san) (l : List (Bytes × V)) :
    unmarshal (storeMap st) (encMap e (some l)) = some (some ((sanEntries san l).foldl (fun m x => putEntry m x.1 x.2) [])) := by
  have hj := fun v => (h.reads v).choose_spec
  have hr := reads_obj (d := 0) (by decide) ((orderedEntries (some l)).map fun x => (x.1, e x.2, (h.reads x.2).choose)) (by
    intro p hp
    obtain ⟨x, -, rfl⟩ := List.mem_map.1 hp
    exact (hj x.2).1)
  rw [List.map_map, List.map_map] at hr
  have hp := hr.parse
  show unmarshal (storeMap st) (c!"{" :: (commas ((orderedEntries (some l)).map fun x => quote x.1 ++ c!":" :: e x.2) ++ [c!"}"])) = _
  rw [unmarshal]
  have e1 : parse (c!"{" :: (commas ((orderedEntries (some l)).map fun x => quote x.1 ++ c!":" :: e x.2) ++ [c!"}"]))
      = some (.obj ((orderedEntries (some l)).map fun x => (sanitize x.1, (h.reads x.2).choose))) := hp
  rw [e1]
  have hok : (storeMap st (.obj ((orderedEntries (some l)).map fun x => (sanitize x.1, (h.reads x.2).choose)))).2 = true := by
    show List.all _ _ = true
    rw [List.all_map, List.all_eq_true]
    intro x _
    simp [(hj x.2).2]
  show (if _ then _ else _) = _
  rw [if_pos hok]
  show some (some (List.foldl _ _ _)) = _
  rw [sanEntries, List.foldl_map, List.foldl_map]
  congr 3
  funext m x
  rw [(hj x.2).2]

theorem fold_nodup : ∀ (m l : List (Bytes × V)), ((l ++ m).map (·.1)).Nodup → m.foldl (fun l e => putEntry l e.1 e.2) l = l ++ m := by
  have hput : ∀ (l : List (Bytes × V)) (k : Bytes) (v : V), k ∉ l.map (·.1) → putEntry l k v = l ++ [(k, v)] := by
    intro l k v h
    induction l with
    | nil => rfl
    | cons e l ih =>
      obtain ⟨a, b⟩ := e
      simp only [List.map_cons, List.mem_cons, not_or] at h
      rw [putEntry, if_neg (fun x => h.1 x.symm), ih h.2]
      rfl
  intro m
  induction m with
  | nil => intro l _; simp
  | cons e m ih =>
    intro l h
    have hk : e.1 ∉ l.map (·.1) := by
      intro hm
      rw [List.map_append, List.nodup_append] at h
      exact h.2.2 _ hm e.1 (by simp) rfl
    rw [List.foldl_cons, hput l _ _ hk, ih _ (by simpa using h)]
    simp

/-- All keys of a map are well-formed, and so are its values. -/
def Spec.Good (ok : V → Prop) (l : List (Bytes × V)) : Prop := (l.map (·.1)).Nodup ∧ ∀ x ∈ l, Spec.Utf8 x.1 ∧ ok x.2

theorem map_contract {e : V → Bytes} {st : JV → V × Bool} {san : V → V} {ok : V → Prop} (h : Elem e st san) (hs : ∀ v, san v = v ↔ ok v) :
    Types.Spec.MapJson ⟨encMap e, unmarshal (storeMap st)⟩ (Spec.Good ok) := by
  intro l hl hne
  refine ⟨by simp [encMap], orderedEntries (some l), ?_, ordered_perm l⟩
  show unmarshal (storeMap st) (encMap e (some l)) = _
  rw [map_dec h l]
  have e1 : sanEntries san l = orderedEntries (some l) := by
    have : (orderedEntries (some l)).map (fun x => (sanitize x.1, san x.2)) = (orderedEntries (some l)).map id :=
      List.map_inj_left.2 fun x hx => by
        obtain ⟨h1, h2⟩ := hl.2 x ((ordered_perm l).mem_iff.1 hx)
        rw [(sanitize_eq_iff _).2 h1, (hs _).2 h2]; rfl
    rw [sanEntries, this, List.map_id]
  rw [e1, fold_nodup _ _ (by simpa using ((ordered_perm l).map _).nodup_iff.2 hl.1)]
  rfl

/-- **C44**: `encoding/json` meets the contracts for contents that are well-formed UTF-8. -/
theorem C44_go_json_contract :
    Types.Spec.StringsJson strings (fun l => ∀ s ∈ l, Spec.Utf8 s) ∧ Types.Spec.MapJson metadata (Spec.Good Spec.Utf8) ∧ Types.Spec.MapJson kvset (Spec.Good Spec.AllUtf8) := by
  refine ⟨⟨fun l hl => ⟨?_, by simp [strings, encStrs]⟩, strings_rejects⟩, map_contract elem_str sanitize_eq_iff, map_contract elem_strs sanStrs_eq_iff⟩
  rw [strings_dec]
  congr 1
  exact (sanStrs_eq_iff _).2 fun x hx => by cases hx; exact hl

/-- **C44 exactly, `Strings`**: whatever the strings hold, storing them and reading the text back succeeds; the list is the one stored iff every string is well-formed UTF-8. -/
theorem C44_strings_restored_iff (sp : Nat → Bytes) (old l : Option (List Bytes)) :
    (stringsScan strings sp old (stringsValue strings l)).2 = true
    ∧ ((stringsScan strings sp old (stringsValue strings l)).1 = l ↔ ∀ x, l = some x → ∀ s ∈ x, Spec.Utf8 s) := by
  have h : stringsScan strings sp old (stringsValue strings l) = (sanStrs l, true) := by
    cases l with
    | none => rfl
    | some x =>
      have hne : (strings.enc (some x)).isEmpty = false := rfl
      simp only [stringsValue, stringsScan, sprint, hne, Bool.false_eq_true, if_false, strings_dec]
  rw [h]
  exact ⟨rfl, sanStrs_eq_iff l⟩

/-- What happens to the others: every string is read back with each invalid byte replaced by U+FFFD, so that the list that is read back always is well-formed, and reading and storing it again
changes nothing more. -/
theorem C44_strings_invalid_bytes (sp : Nat → Bytes) (old : Option (List Bytes)) (x : List Bytes) :
    stringsScan strings sp old (stringsValue strings (some x)) = (some (x.map sanitize), true)
    ∧ (∀ s, Spec.Utf8 (sanitize s)) ∧ (∀ s, Spec.Utf8 s → sanitize s = s)
    ∧ (∀ s b t, first s = some (none, t) → s = b :: t → sanitize s = replacement ++ sanitize t) := by
  refine ⟨?_, sanitize_valid, fun s h => (sanitize_eq_iff s).2 h, ?_⟩
  · have hne : (strings.enc (some x)).isEmpty = false := rfl
    simp only [stringsValue, stringsScan, sprint, hne, Bool.false_eq_true, if_false, strings_dec]
    rfl
  · rintro s b t hf rfl
    exact sanitize_bad (runes_step hf)

theorem lookup_fold_mem : ∀ (m l : List (Bytes × V)) (k : Bytes) (v : V), (m.foldl (fun l e => putEntry l e.1 e.2) l).lookup k = some v → l.lookup k = some v ∨ (k, v) ∈ m := by
  intro m
  induction m with
  | nil => intro l k v h; exact Or.inl h
  | cons e m ih =>
    intro l k v h
    rcases ih _ _ _ h with h | h
    · rw [lookup_putEntry] at h
      split at h
      · rename_i hk
        cases h; subst hk
        exact Or.inr (by simp)
      · exact Or.inl h
    · exact Or.inr (List.mem_cons_of_mem _ h)

theorem mem_lookup {l : List (Bytes × V)} (hn : (l.map (·.1)).Nodup) {k : Bytes} {v : V} (h : (k, v) ∈ l) : l.lookup k = some v := by
  induction l with
  | nil => cases h
  | cons e l ih =>
    obtain ⟨a, b⟩ := e
    simp only [List.map_cons, List.nodup_cons] at hn
    rw [List.lookup_cons]
    rcases List.mem_cons.1 h with h1 | h2
    · cases h1; simp
    · have : k ≠ a := by rintro rfl; exact hn.1 (List.mem_map.2 ⟨(k, v), h2, rfl⟩)
      rw [beq_eq_false_iff_ne.2 this]
      exact ih hn.2 h2

theorem lookup_mem {l : List (Bytes × V)} {k : Bytes} {v : V} (h : l.lookup k = some v) : (k, v) ∈ l := by
  obtain ⟨l1, l2, rfl, _⟩ := List.lookup_eq_some_iff.1 h
  simp

theorem map_restored {e : V → Bytes} {st : JV → V × Bool} {san : V → V} {ok : V → Prop} (h : Elem e st san) (hs : ∀ v, san v = v ↔ ok v)
    (m : GoMap V) (hm : Types.Spec.MapOk m) (d : DV)
    (hd : d = mapValue ⟨encMap e, unmarshal (storeMap st)⟩ m ∨ (∃ s, mapValue ⟨encMap e, unmarshal (storeMap st)⟩ m = .text s ∧ d = .bytes s)) :
    let r := mapScan ⟨encMap e, unmarshal (storeMap st)⟩ none d
    r.2 = true ∧ ((∀ k, get r.1 k = get m k) ↔ ∀ k v, get m k = some v → Spec.Utf8 k ∧ ok v) := by
  intro r
  cases m with
  | none =>
    have hr : r = (none, true) := by
      rcases hd with rfl | ⟨s, hs, _⟩
      · rfl
      · cases hs
    rw [hr]
    exact ⟨rfl, ⟨fun _ k v hk => (nomatch hk), fun _ k => rfl⟩⟩
  | some l =>
    cases hl : l with
    | nil =>
      subst hl
      have hr : r = (none, true) := by
        rcases hd with rfl | ⟨s, hs, _⟩
        · rfl
        · cases hs
      rw [hr]
      exact ⟨rfl, ⟨fun _ k v hk => (nomatch hk), fun _ k => rfl⟩⟩
    | cons x0 l0 =>
      rw [← hl]
      have hv : mapValue ⟨encMap e, unmarshal (storeMap st)⟩ (some l) = .text (encMap e (some l)) := by rw [hl]; rfl
      have hr : r = (some (((sanEntries san l).foldl (fun m x => putEntry m x.1 x.2) []).foldl (fun l e => putEntry l e.1 e.2) []), true) := by
        have hne : (encMap e (some l)).isEmpty = false := rfl
        have hd' : d = .text (encMap e (some l)) ∨ d = .bytes (encMap e (some l)) := by
          rw [hv] at hd
          rcases hd with h | ⟨s, hs, h⟩
          · exact Or.inl h
          · injection hs with hs; subst hs; exact Or.inr h
        have hdec := map_dec h l
        show mapScan _ none d = _
        rcases hd' with rfl | rfl <;> simp only [mapScan, hne, Bool.false_eq_true, if_false, hdec] <;> rfl
      have hnd := nodup_mergeFold (sanEntries san l) [] (by simp)
      rw [fold_nodup _ [] (by simpa using hnd), List.nil_append] at hr
      rw [hr]
      refine ⟨rfl, ?_⟩
      have hn : (l.map (·.1)).Nodup := hm
      show (∀ k, ((sanEntries san l).foldl (fun m x => putEntry m x.1 x.2) []).lookup k = l.lookup k) ↔ ∀ k v, l.lookup k = some v → _
      constructor
      · intro hk
        have hkeys : ∀ x ∈ l, Spec.Utf8 x.1 := by
          rintro ⟨k, v⟩ hx
          have h1 := hk k
          rw [mem_lookup hn hx] at h1
          rcases lookup_fold_mem _ _ _ _ h1 with h2 | h2
          · cases h2
          · obtain ⟨y, -, hy⟩ := List.mem_map.1 h2
            have : sanitize y.1 = k := congrArg Prod.fst hy
            rw [← this]
            exact sanitize_valid _
        have hmap : (sanEntries san l).map (·.1) = (orderedEntries (some l)).map (·.1) := by
          rw [sanEntries, List.map_map]
          exact List.map_inj_left.2 fun x hx => (sanitize_eq_iff _).2 (hkeys x ((ordered_perm l).mem_iff.1 hx))
        have hn2 : ((sanEntries san l).map (·.1)).Nodup := by
          rw [hmap]; exact ((ordered_perm l).map _).nodup_iff.2 hn
        intro k v hkv
        have hx := lookup_mem hkv
        have hu := hkeys _ hx
        refine ⟨hu, (hs v).1 ?_⟩
        have h1 := hk k
        rw [fold_nodup _ [] (by simpa using hn2), List.nil_append, hkv] at h1
        have h2 : (k, san v) ∈ sanEntries san l := by
          refine List.mem_map.2 ⟨(k, v), (ordered_perm l).mem_iff.2 hx, ?_⟩
          rw [(sanitize_eq_iff k).2 hu]
        rw [mem_lookup hn2 h2] at h1
        exact Option.some.inj h1
      · intro hg k
        have e1 : sanEntries san l = orderedEntries (some l) := by
          have : (orderedEntries (some l)).map (fun x => (sanitize x.1, san x.2)) = (orderedEntries (some l)).map id :=
            List.map_inj_left.2 fun x hx => by
              obtain ⟨h1, h2⟩ := hg x.1 x.2 (mem_lookup hn ((ordered_perm l).mem_iff.1 hx))
              rw [(sanitize_eq_iff _).2 h1, (hs _).2 h2]; rfl
          rw [sanEntries, this, List.map_id]
        rw [e1, fold_nodup _ [] (by simpa using ((ordered_perm l).map _).nodup_iff.2 hn), List.nil_append]
        exact lookup_perm (ordered_perm l) hn k

/-- **C44 exactly, `Metadata`**: storing a map and reading the column (as text or as bytes) into a fresh map always succeeds, and every key shows its value iff all keys and values are well-formed
UTF-8. -/
theorem C44_metadata_restored_iff (m : GoMap Bytes) (hm : Types.Spec.MapOk m) (d : DV)
    (hd : d = mapValue metadata m ∨ (∃ s, mapValue metadata m = .text s ∧ d = .bytes s)) :
    (mapScan metadata none d).2 = true
    ∧ ((∀ k, get (mapScan metadata none d).1 k = get m k) ↔ ∀ k v, get m k = some v → Spec.Utf8 k ∧ Spec.Utf8 v) :=
  map_restored elem_str sanitize_eq_iff m hm d hd

/-- **C44 exactly, `KVSet`**: the same, where a value is a list of strings and nil is kept apart from the empty list. -/
theorem C44_kvset_restored_iff (m : GoMap (Option (List Bytes))) (hm : Types.Spec.MapOk m) (d : DV)
    (hd : d = mapValue kvset m ∨ (∃ s, mapValue kvset m = .text s ∧ d = .bytes s)) :
    (mapScan kvset none d).2 = true
    ∧ ((∀ k, get (mapScan kvset none d).1 k = get m k) ↔ ∀ k v, get m k = some v → Spec.Utf8 k ∧ ∀ x, v = some x → ∀ s ∈ x, Spec.Utf8 s) :=
  map_restored elem_strs sanStrs_eq_iff m hm d hd

/-! ### What is stored -/

theorem storable_append {a b : Bytes} (ha : Spec.Storable a) (hb : Spec.Storable b) : Spec.Storable (a ++ b) := by
  obtain ⟨x, hx, rfl⟩ := ha
  obtain ⟨y, hy, rfl⟩ := hb
  refine ⟨x ++ y, ?_, by simp⟩
  intro c hc
  rcases List.mem_append.1 hc with h | h
  · exact hx c h
  · exact hy c h

theorem storable_nil : Spec.Storable [] := ⟨[], by simp, rfl⟩

theorem storable_ascii {s : Bytes} (h : ∀ b ∈ s, 0x20 ≤ b.toNat ∧ b.toNat < 0x80) : Spec.Storable s := by
  refine ⟨s.map (·.toNat), ?_, ?_⟩
  · intro c hc
    obtain ⟨b, hb, rfl⟩ := List.mem_map.1 hc
    have := h b hb
    exact ⟨Or.inl (by omega), this.1⟩
  · induction s with
    | nil => rfl
    | cons b s ih =>
      have := h b (by simp)
      rw [List.map_cons, List.flatMap_cons, ← ih (fun x hx => h x (by simp [hx])), Spec.utf8, if_pos (by omega)]
      simp

theorem storable_cons {b : UInt8} {s : Bytes} (hb : 0x20 ≤ b.toNat ∧ b.toNat < 0x80) (hs : Spec.Storable s) : Spec.Storable (b :: s) :=
  storable_append (a := [b]) (storable_ascii (by simpa using hb)) hs

theorem hexDigit_range (n : Nat) (h : n < 16) : 0x20 ≤ (hexDigit n).toNat ∧ (hexDigit n).toNat < 0x80 := by
  have : ∀ m : Fin 16, 0x20 ≤ (hexDigit m.val).toNat ∧ (hexDigit m.val).toNat < 0x80 := by decide
  exact this ⟨n, h⟩

theorem storable_esc (x : Option Bytes) (hx : x = none ∨ ∃ c, Spec.Scalar c ∧ x = some (Spec.utf8 c)) : Spec.Storable (escRune x) := by
  rcases hx with rfl | ⟨c, hc, rfl⟩
  · exact storable_ascii (by decide)
  · by_cases h0 : c < 0x80
    · have hu : Spec.utf8 c = [UInt8.ofNat c] := by rw [Spec.utf8, if_pos h0]
      have hcn := u8_toNat (n := c) (by omega)
      rw [hu]
      show Spec.Storable (escByte (UInt8.ofNat c))
      generalize hb : UInt8.ofNat c = b at hcn
      apply storable_ascii
      rw [escByte]
      split
      · rename_i hs
        simp only [htmlSafe, Bool.and_eq_true, decide_eq_true_eq, bne_iff_ne] at hs
        intro y hy
        rw [List.mem_singleton.1 hy]
        omega
      split
      · rename_i hs
        rcases hs with rfl | rfl <;> decide
      split
      · decide
      split
      · decide
      split
      · decide
      split
      · decide
      split
      · decide
      · intro y hy
        simp only [List.mem_cons, List.not_mem_nil, or_false] at hy
        rcases hy with rfl | rfl | rfl | rfl | rfl | rfl
        · decide
        · decide
        · decide
        · decide
        · exact hexDigit_range _ (by omega)
        · exact hexDigit_range _ (by omega)
    · have hlen : ∀ b, Spec.utf8 c ≠ [b] := by
        intro b
        rw [Spec.utf8, if_neg h0]
        (repeat' split) <;> simp
      have hplain : Spec.Storable (Spec.utf8 c) := ⟨[c], by simp; exact ⟨hc, by omega⟩, by simp⟩
      have hesc : escRune (some (Spec.utf8 c)) = if Spec.utf8 c = [0xE2, 0x80, 0xA8] then b!"\\u2028" else if Spec.utf8 c = [0xE2, 0x80, 0xA9] then b!"\\u2029" else Spec.utf8 c := by
        generalize Spec.utf8 c = ch at hlen
        cases ch with
        | nil => rfl
        | cons b ch => cases ch with
          | nil => exact absurd rfl (hlen b)
          | cons => rfl
      rw [hesc]
      split
      · exact storable_ascii (by decide)
      split
      · exact storable_ascii (by decide)
      · exact hplain

theorem storable_quote (s : Bytes) : Spec.Storable (quote s) := by
  have : Spec.Storable (escBody s) := by
    induction s using runes_induction with
    | h0 => exact storable_nil
    | h1 c t hc hr ih => rw [escBody_rune hr]; exact storable_append (storable_esc _ (Or.inr ⟨c, hc, rfl⟩)) ih
    | h2 b t hb hr ih => rw [escBody_bad hr]; exact storable_append (storable_esc _ (Or.inl rfl)) ih
  exact storable_cons (by decide) (storable_append this (storable_ascii (by decide)))

theorem storable_commas : ∀ l : List Bytes, (∀ x ∈ l, Spec.Storable x) → Spec.Storable (commas l)
  | [], _ => storable_nil
  | [x], h => h x (by simp)
  | x :: y :: l, h => storable_append (h x (by simp)) (storable_cons (by decide) (storable_commas (y :: l) fun z hz => h z (List.mem_cons_of_mem _ hz)))

theorem storable_strs (l : Option (List Bytes)) : Spec.Storable (encStrs l) := by
  cases l with
  | none => exact storable_ascii (by decide)
  | some l =>
    refine storable_cons (by decide) (storable_append (storable_commas _ ?_) (storable_ascii (by decide)))
    intro x hx
    obtain ⟨s, -, rfl⟩ := List.mem_map.1 hx
    exact storable_quote s

theorem storable_map {e : V → Bytes} (he : ∀ v, Spec.Storable (e v)) (m : GoMap V) : Spec.Storable (encMap e m) := by
  cases m with
  | none => exact storable_ascii (s := b!"null") (by decide)
  | some l =>
    refine storable_cons (by decide) (storable_append (storable_commas _ ?_) (storable_ascii (by decide)))
    intro x hx
    obtain ⟨y, -, rfl⟩ := List.mem_map.1 hx
    exact storable_append (storable_quote _) (storable_cons (by decide) (he _))

/-- **C44, the column**: whatever bytes the strings hold, what is stored is NULL or well-formed UTF-8 text without control characters (so without NUL), which every text column takes. -/
theorem C44_stored_text_is_acceptable (l : Option (List Bytes)) (m : GoMap Bytes) (k : GoMap (Option (List Bytes))) :
    (∀ d, d = stringsValue strings l ∨ d = mapValue metadata m ∨ d = mapValue kvset k → d = .null ∨ ∃ s, d = .text s ∧ Spec.Storable s) := by
  rintro d (rfl | rfl | rfl)
  · cases l with
    | none => exact Or.inl rfl
    | some l => exact Or.inr ⟨_, rfl, storable_strs (some l)⟩
  · unfold mapValue
    split
    · exact Or.inl rfl
    · exact Or.inr ⟨_, rfl, storable_map storable_quote m⟩
  · unfold mapValue
    split
    · exact Or.inl rfl
    · exact Or.inr ⟨_, rfl, storable_map storable_strs k⟩

/-! ### Cases -/

-- a string with an emoji, a quote, a control character and a line separator is restored
example : stringsScan strings (fun _ => []) none (stringsValue strings (some [b!"a\"<é😀\n", [1, 0xE2, 0x80, 0xA8]])) = (some [b!"a\"<é😀\n", [1, 0xE2, 0x80, 0xA8]], true) := by
  decide +kernel
-- one byte of a Latin-1 text is not
example : stringsScan strings (fun _ => []) none (stringsValue strings (some [[0x61, 0xE9]])) = (some [[0x61, 0xEF, 0xBF, 0xBD]], true) := by decide +kernel
-- two keys become one
example : mapScan metadata none (mapValue metadata (some [([0xFF], b!"1"), ([0xFE], b!"2")])) = (some [([0xEF, 0xBF, 0xBD], b!"1")], true) := by decide +kernel
-- nil and empty lists in a KVSet
example : mapScan kvset none (mapValue kvset (some [(b!"b", none), (b!"a", some []), (b!"c", some [b!"x"])])) = (some [(b!"a", some []), (b!"b", none), (b!"c", some [b!"x"])], true) := by
  decide +kernel
-- white space, escapes and surrogate pairs
example : strings.dec b!" [ \"\\u0041\\ud83d\\ude00\" , null ] " = some (some [b!"A😀", []]) := by decide +kernel
example : strings.dec b!"[1]" = none ∧ strings.dec b!"[\"a\",]" = none ∧ strings.dec b!"{}" = none ∧ strings.dec b!"\"a\"" = none ∧ strings.dec b!"[\"a\"] x" = none := by decide +kernel

end Types.GoJson
