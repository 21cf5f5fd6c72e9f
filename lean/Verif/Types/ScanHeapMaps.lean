import Verif.Types.ScanHeap
set_option linter.unusedSimpArgs false
set_option linter.unusedVariables false
/-! C18 and C100: failed scans into `Strings`, and `Metadata` and `KVSet` with the maps they refer to. -/
namespace Types.GoJson
open Types

/-! ### Strings: null elements and failed scans -/

/-- **C18 for `Strings`, exactly**: what a scan of a text does to the destination, whether it succeeds or not.  A text that is not JSON, and one that is not an array (or null), leave it as it is; an
array is stored element by element: a string replaces what the memory of the slice has at that place, anything else leaves it, so that old elements show through; an error is returned iff an element
is neither a string nor null, and does not undo what was stored. -/
theorem C18_strings_scan_exactly (grow : Nat → Nat) (sp : Nat → Bytes) (h : Arrays) (dest : Option Slice) (hd : ∀ s, dest = some s → Spec.Holds h s) (t : Bytes) (ht : t ≠ []) :
    let r := stringsScanH grow sp h dest (.text t)
    (parse t = none → r = (h, dest, false))
    ∧ (parse t = some .null → r.1.view r.2.1 = none ∧ r.2.2 = true)
    ∧ (∀ v, parse t = some v → v ≠ .null → (∀ vs, v ≠ .arr vs) → r = (h, dest, false))
    ∧ (∀ vs, parse t = some (.arr vs) → r.1.view r.2.1 = some (Spec.stored (Spec.room h dest) vs) ∧ (r.2.2 = true ↔ ∀ v ∈ vs, v = .null ∨ ∃ s, v = .str s)) := by
  intro r
  have hne : t.isEmpty = false := by cases t with
    | nil => exact absurd rfl ht
    | cons => rfl
  have hr : r = (match parse t with | none => (h, dest, false) | some v => storeSlice grow h dest v) := by
    show stringsScanH grow sp h dest (.text t) = _
    simp only [stringsScanH, sprint, hne, Bool.false_eq_true, if_false]
    rfl
  refine ⟨fun hp => ?_, fun hp => ?_, fun v hp h1 h2 => ?_, fun vs hp => ?_⟩
  · rw [hr, hp]
  · rw [hr, hp]; exact ⟨rfl, rfl⟩
  · rw [hr, hp]
    cases v with
    | null => exact absurd rfl h1
    | arr vs => exact absurd rfl (h2 vs)
    | _ => rfl
  · rw [hr, hp]
    obtain ⟨h7, h8⟩ := (storeSlice_spec grow h dest hd (.arr vs)).2.2.2.2.1 vs rfl
    refine ⟨h7, ?_⟩
    show (storeSlice grow h dest (.arr vs)).2.2 = true ↔ _
    rw [h8, List.all_eq_true]
    constructor
    · intro hh v hv
      have := hh v hv
      cases v <;> simp_all [storeInto]
    · intro hh v hv
      rcases hh v hv with rfl | ⟨s, rfl⟩ <;> rfl

/-- An array of `null`s shows the memory of the slice: its old elements, then whatever is behind its end. -/
theorem C18_strings_nulls_show_old_memory : ∀ (ms : List Bytes) (n : Nat), Spec.stored ms (List.replicate n .null) = ms.take n ++ List.replicate (n - ms.length) []
  | ms, 0 => by simp [Spec.stored]
  | [], n + 1 => by
    have := C18_strings_nulls_show_old_memory [] n
    simp only [List.replicate_succ, Spec.stored, Spec.shown, this]
    simp [List.replicate_succ]
  | m :: ms, n + 1 => by
    have := C18_strings_nulls_show_old_memory ms n
    simp only [List.replicate_succ, Spec.stored, Spec.shown, this]
    simp

-- the previous row's second string comes back, and a failed scan leaves a mixture
example : Spec.stored [b!"old", b!"secret"] [.str b!"new", .null] = [b!"new", b!"secret"] := by decide
example :
    let h : Arrays := ⟨fun a => if a = 0 then [b!"a", b!"b", b!"c"] else [], 1⟩
    let r := stringsScanH (fun _ => 0) (fun _ => []) h (some ⟨0, 0, 1⟩) (.text b!"[null,null]")
    r.1.view r.2.1 = some [b!"a", b!"b"] ∧ r.2.2 = true := by decide +kernel
example :
    let h : Arrays := ⟨fun a => if a = 0 then [b!"a", b!"b"] else [], 1⟩
    let r := stringsScanH (fun _ => 0) (fun _ => []) h (some ⟨0, 0, 2⟩) (.text b!"[\"x\",1,\"z\"]")
    r.1.view r.2.1 = some [b!"x", b!"b", b!"z"] ∧ r.2.2 = false := by decide +kernel
-- two rows into one variable
example :
    let h : Arrays := ⟨fun _ => [], 0⟩
    let r := scanReused (fun _ => 0) (fun _ => []) h none [.text b!"[\"a\",\"b\"]", .text b!"[\"c\",\"d\"]", .null]
    r.2.map (fun x => r.1.view x.1) = [some [b!"c", b!"d"], some [b!"c", b!"d"], none] := by decide +kernel

/-! ### Maps -/

variable {V : Type}

/-- Maps; those with an address below `next` exist. -/
structure Maps (V : Type) where
  map : Nat → List (Bytes × V)
  next : Nat

/-- Replace the contents of one map. -/
def Maps.put (h : Maps V) (a : Nat) (l : List (Bytes × V)) : Maps V := { h with map := fun x => if x = a then l else h.map x }

/-- A new, empty map. -/
def Maps.alloc (h : Maps V) : Maps V := { map := fun x => if x = h.next then [] else h.map x, next := h.next + 1 }

/-- What a destination shows. -/
def Maps.view (h : Maps V) (a : Option Nat) : GoMap V := a.map h.map

/-- decode.go `object` for a map: every member is put into the map, with a value stored into a fresh element (which stays the zero value if its type is wrong). -/
def putAll (st : JV → V × Bool) (m : List (Bytes × V)) (l : List (Bytes × JV)) : List (Bytes × V) := l.foldl (fun m x => putEntry m x.1 (st x.2).1) m

/-- `json.Unmarshal` of a parsed value into a pointer to a map. -/
def storeMapH (st : JV → V × Bool) (h : Maps V) (dest : Option Nat) (v : JV) : Maps V × Option Nat × Bool :=
  match v with
  | .null => (h, none, true)
  | .obj l =>
    match dest with
    | none => (h.alloc.put h.next (putAll st [] l), some h.next, l.all fun x => (st x.2).2)
    | some a => (h.put a (putAll st (h.map a) l), some a, l.all fun x => (st x.2).2)
  | _ => (h, dest, false)

/-- types.go:225-246 `Metadata.Scan`, types.go:275-296 `KVSet.Scan`. -/
def mapScanH (st : JV → V × Bool) (h : Maps V) (dest : Option Nat) (d : DV) : Maps V × Option Nat × Bool :=
  match d with
  | .null => (h, none, true)
  | .bytes s | .text s =>
    if s.isEmpty then (h.alloc, some h.next, true)
    else
      match parse s with
      | none => (h, dest, false)
      | some v => storeMapH st h dest v
  | _ => (h, dest, false)

/-- The codec for maps with elements of a given kind. -/
def codec (e : V → Bytes) (st : JV → V × Bool) : Json (GoMap V) := ⟨encMap e, unmarshal (storeMap st)⟩

theorem putAll_perm_lookup (st : JV → V × Bool) (m : List (Bytes × V)) (l : List (Bytes × JV)) (k : Bytes) :
    (putAll st m l).lookup k = ((l.reverse.lookup k).map fun v => (st v).1).or (m.lookup k) := by
  unfold putAll
  induction l generalizing m with
  | nil => simp
  | cons x l ih =>
    obtain ⟨a, v⟩ := x
    rw [List.foldl_cons, ih, lookup_putEntry, List.reverse_cons, List.lookup_append]
    cases hl : l.reverse.lookup k with
    | some w => simp
    | none =>
      by_cases hk : k = a
      · subst hk; simp [List.lookup_cons]
      · simp [hk, List.lookup_cons, beq_eq_false_iff_ne.2 hk]

/-- **C18 for `Metadata` and `KVSet`, exactly**: what a scan of a text (or bytes) does to the destination, whether it succeeds or not.  A text that is not JSON, or not an object (or null), leaves it
as it is.  Of an object every member is put into the map the destination has: after it a key shows the last member of that name (the zero value if its type is wrong), or what it showed before; an
error is returned iff a member has a wrong type, and does not undo anything. -/
theorem C18_map_scan_exactly (st : JV → V × Bool) (h : Maps V) (dest : Option Nat) (hd : ∀ a, dest = some a → a < h.next) (t : Bytes) (ht : t ≠ []) (d : DV) (hdt : d = .text t ∨ d = .bytes t) :
    let r := mapScanH st h dest d
    (parse t = none → r = (h, dest, false))
    ∧ (parse t = some .null → h.view dest = r.1.view dest ∧ r.2 = (none, true))
    ∧ (∀ v, parse t = some v → v ≠ .null → (∀ l, v ≠ .obj l) → r = (h, dest, false))
    ∧ (∀ l, parse t = some (.obj l) →
        (∀ k, get (r.1.view r.2.1) k = ((l.reverse.lookup k).map fun v => (st v).1).or (get (h.view dest) k)) ∧ (r.2.2 = true ↔ ∀ x ∈ l, (st x.2).2 = true)) := by
  intro r
  have hne : t.isEmpty = false := by cases t with
    | nil => exact absurd rfl ht
    | cons => rfl
  have hr : r = (match parse t with | none => (h, dest, false) | some v => storeMapH st h dest v) := by
    show mapScanH st h dest d = _
    rcases hdt with rfl | rfl <;> simp only [mapScanH, hne, Bool.false_eq_true, if_false]
  refine ⟨fun hp => ?_, fun hp => ?_, fun v hp h1 h2 => ?_, fun l hp => ?_⟩
  · rw [hr, hp]
  · rw [hr, hp]; exact ⟨rfl, rfl⟩
  · rw [hr, hp]
    cases v with
    | null => exact absurd rfl h1
    | obj vs => exact absurd rfl (h2 vs)
    | _ => rfl
  · rw [hr, hp]
    cases dest with
    | none =>
      refine ⟨fun k => ?_, by simp [storeMapH]⟩
      show List.lookup k ((h.alloc.put h.next (putAll st [] l)).map h.next) = _
      simp only [Maps.put, if_true]
      exact putAll_perm_lookup st [] l k
    | some a =>
      refine ⟨fun k => ?_, by simp [storeMapH]⟩
      show List.lookup k ((h.put a (putAll st (h.map a) l)).map a) = _
      simp only [Maps.put, if_true]
      exact putAll_perm_lookup st (h.map a) l k

-- a failed scan adds a key with an empty value
example :
    let h : Maps Bytes := ⟨fun _ => [(b!"k", b!"1")], 1⟩
    let r := mapScanH storeStr h (some 0) (.text b!"{\"a\":5,\"b\":\"x\",\"b\":\"y\"}")
    r.1.view r.2.1 = some [(b!"k", b!"1"), (b!"a", []), (b!"b", b!"y")] ∧ r.2.2 = false := by decide +kernel

/-- Maps other than the one the destination has are not touched. -/
theorem C100_map_others_kept (st : JV → V × Bool) (h : Maps V) (dest : Option Nat) (d : DV) (c : Nat) (hc : c < h.next) (hne : dest ≠ some c) :
    (mapScanH st h dest d).1.map c = h.map c := by
  have halloc : h.alloc.map c = h.map c := by simp [Maps.alloc]; omega
  have hstore : ∀ v, (storeMapH st h dest v).1.map c = h.map c := by
    intro v
    unfold storeMapH
    split
    · rfl
    · split
      · show (if c = h.next then _ else h.alloc.map c) = _
        rw [if_neg (by omega)]; exact halloc
      · rename_i a
        show (if c = a then _ else h.map c) = _
        rw [if_neg]
        rintro rfl; exact hne rfl
    · rfl
  unfold mapScanH
  split
  · rfl
  · split
    · exact halloc
    · split
      · rfl
      · exact hstore _
  · split
    · exact halloc
    · split
      · rfl
      · exact hstore _
  · rfl

/-- **C100 for `Metadata` and `KVSet`, exactly**: the destination has the map `a`, of which a copy was taken; a stored map with entries is scanned into it.  The copy shows the same as the
destination: every entry of the row, and its own where the row has none.  So the copy is what it was iff the row has nothing that it did not have already. -/
theorem map_copy_after_next_scan {e : V → Bytes} {st : JV → V × Bool} {san : V → V} {ok : V → Prop} (he : Elem e st san) (hs : ∀ v, san v = v ↔ ok v)
    (h : Maps V) (a : Nat) (l : List (Bytes × V)) (hl : l ≠ []) (hg : Spec.Good ok l) :
    let r := mapScanH st h (some a) (mapValue (codec e st) (some l))
    r.2 = (some a, true)
    ∧ (∀ k, (r.1.map a).lookup k = (l.lookup k).or ((h.map a).lookup k))
    ∧ ((∀ k, (r.1.map a).lookup k = (h.map a).lookup k) ↔ ∀ x ∈ l, (h.map a).lookup x.1 = some x.2) := by
  intro r
  have hj := fun v => (he.reads v).choose_spec
  have hr0 := reads_obj (d := 0) (by decide) ((orderedEntries (some l)).map fun x => (x.1, e x.2, (he.reads x.2).choose)) (by
    intro p hp
    obtain ⟨x, -, rfl⟩ := List.mem_map.1 hp
    exact (hj x.2).1)
  rw [List.map_map, List.map_map] at hr0
  have hp : parse (encMap e (some l)) = some (.obj ((orderedEntries (some l)).map fun x => (sanitize x.1, (he.reads x.2).choose))) := hr0.parse
  have hv : mapValue (codec e st) (some l) = .text (encMap e (some l)) := by
    cases l with
    | nil => exact absurd rfl hl
    | cons => rfl
  have hne : (encMap e (some l)).isEmpty = false := rfl
  have hall : ((orderedEntries (some l)).map fun x => (sanitize x.1, (he.reads x.2).choose)).all (fun x => (st x.2).2) = true := by
    rw [List.all_map, List.all_eq_true]
    intro x _
    simp [(hj x.2).2]
  have hput : putAll st (h.map a) ((orderedEntries (some l)).map fun x => (sanitize x.1, (he.reads x.2).choose))
      = (orderedEntries (some l)).foldl (fun l e => putEntry l e.1 e.2) (h.map a) := by
    rw [putAll, List.foldl_map]
    have : ∀ (m : List (Bytes × V)) (q : List (Bytes × V)), (∀ x ∈ q, Spec.Utf8 x.1 ∧ ok x.2) →
        q.foldl (fun m x => putEntry m (sanitize x.1) (st (he.reads x.2).choose).1) m = q.foldl (fun m x => putEntry m x.1 x.2) m := by
      intro m q
      induction q generalizing m with
      | nil => intro _; rfl
      | cons x q ih =>
        intro hq
        obtain ⟨h1, h2⟩ := hq x (by simp)
        rw [List.foldl_cons, List.foldl_cons, (hj x.2).2, (sanitize_eq_iff _).2 h1, (hs _).2 h2]
        exact ih _ fun y hy => hq y (List.mem_cons_of_mem _ hy)
    exact this _ _ fun x hx => hg.2 x ((ordered_perm l).mem_iff.1 hx)
  have hr : r = (h.put a ((orderedEntries (some l)).foldl (fun l e => putEntry l e.1 e.2) (h.map a)), some a, true) := by
    show mapScanH st h (some a) (mapValue (codec e st) (some l)) = _
    rw [hv]
    simp only [mapScanH, hne, Bool.false_eq_true, if_false, hp, storeMapH, hput, hall]
  have hnd : ((orderedEntries (some l)).map (·.1)).Nodup := ((ordered_perm l).map _).nodup_iff.2 hg.1
  have hlk : ∀ k, (r.1.map a).lookup k = (l.lookup k).or ((h.map a).lookup k) := by
    intro k
    rw [hr]
    simp only [Maps.put, if_true]
    rw [lookup_mergeFold _ _ _ hnd, lookup_perm (ordered_perm l) hg.1]
  refine ⟨by rw [hr], hlk, ?_⟩
  constructor
  · intro hh x hx
    rw [← hh x.1, hlk, mem_lookup hg.1 (show (x.1, x.2) ∈ l from hx)]
    rfl
  · intro hh k
    rw [hlk]
    cases hk : l.lookup k with
    | none => rfl
    | some v => rw [hh (k, v) (lookup_mem hk)]; rfl

/-- One row after the other into the same variable, of which a copy is kept each time. -/
def scanReusedM (st : JV → V × Bool) : Maps V → Option Nat → List DV → Maps V × List (Option Nat × Bool)
  | h, _, [] => (h, [])
  | h, dest, d :: ds =>
    let r := mapScanH st h dest d
    let q := scanReusedM st r.1 r.2.1 ds
    (q.1, (r.2.1, r.2.2) :: q.2)

/-- **C100 fails for a reused map**: rows with entries are scanned one after the other into one variable and a copy is kept of each; in the end every copy shows all rows together (a later row
replaces the keys of an earlier one). -/
theorem map_reused_all {e : V → Bytes} {st : JV → V × Bool} {san : V → V} {ok : V → Prop} (he : Elem e st san) (hs : ∀ v, san v = v ↔ ok v)
    (rows : List (List (Bytes × V))) (hr : ∀ l ∈ rows, l ≠ [] ∧ Spec.Good ok l) (h : Maps V) (a : Nat) :
    let r := scanReusedM st h (some a) (rows.map fun l => mapValue (codec e st) (some l))
    (∀ x ∈ r.2, x = (some a, true)) ∧ ∀ k, (r.1.map a).lookup k = rows.foldl (fun v l => (l.lookup k).or v) ((h.map a).lookup k) := by
  induction rows generalizing h with
  | nil => intro r; exact ⟨fun x hx => by simp [r, scanReusedM] at hx, fun k => rfl⟩
  | cons l rows ih =>
    intro r
    obtain ⟨h1, h2, -⟩ := map_copy_after_next_scan he hs h a l (hr l (by simp)).1 (hr l (by simp)).2
    have ih' := ih (fun x hx => hr x (List.mem_cons_of_mem _ hx)) (mapScanH st h (some a) (mapValue (codec e st) (some l))).1
    have hrr : r = ((scanReusedM st (mapScanH st h (some a) (mapValue (codec e st) (some l))).1 (some a) (rows.map fun l => mapValue (codec e st) (some l))).1,
        (some a, true) :: (scanReusedM st (mapScanH st h (some a) (mapValue (codec e st) (some l))).1 (some a) (rows.map fun l => mapValue (codec e st) (some l))).2) := by
      show ((scanReusedM st _ (mapScanH st h (some a) (mapValue (codec e st) (some l))).2.1 _).1,
        ((mapScanH st h (some a) (mapValue (codec e st) (some l))).2.1, (mapScanH st h (some a) (mapValue (codec e st) (some l))).2.2) ::
        (scanReusedM st _ (mapScanH st h (some a) (mapValue (codec e st) (some l))).2.1 _).2) = _
      rw [h1]
    rw [hrr]
    refine ⟨?_, fun k => ?_⟩
    · intro x hx
      rcases List.mem_cons.1 hx with rfl | hx
      · rfl
      · exact ih'.1 x hx
    · rw [ih'.2 k, h2 k]; rfl

/-- One row after the other, each into a variable of its own. -/
def scanFreshM (st : JV → V × Bool) : Maps V → List DV → Maps V × List (Option Nat × Bool)
  | h, [] => (h, [])
  | h, d :: ds =>
    let r := mapScanH st h none d
    let q := scanFreshM st r.1 ds
    (q.1, (r.2.1, r.2.2) :: q.2)

theorem mapScanH_next (st : JV → V × Bool) (h : Maps V) (d : DV) :
    h.next ≤ (mapScanH st h none d).1.next ∧ ∀ a, (mapScanH st h none d).2.1 = some a → a < (mapScanH st h none d).1.next := by
  have hstore : ∀ v, h.next ≤ (storeMapH st h none v).1.next ∧ ∀ a, (storeMapH st h none v).2.1 = some a → a < (storeMapH st h none v).1.next := by
    intro v
    cases v with
    | obj l => exact ⟨Nat.le_succ _, fun a ha => by cases ha; exact Nat.lt_succ_self _⟩
    | _ => exact ⟨Nat.le_refl _, fun a ha => (nomatch ha)⟩
  unfold mapScanH
  split
  · exact ⟨Nat.le_refl _, fun a ha => (nomatch ha)⟩
  · split
    · exact ⟨Nat.le_succ _, fun a ha => by cases ha; exact Nat.lt_succ_self _⟩
    · split
      · exact ⟨Nat.le_refl _, fun a ha => (nomatch ha)⟩
      · exact hstore _
  · split
    · exact ⟨Nat.le_succ _, fun a ha => by cases ha; exact Nat.lt_succ_self _⟩
    · split
      · exact ⟨Nat.le_refl _, fun a ha => (nomatch ha)⟩
      · exact hstore _
  · exact ⟨Nat.le_refl _, fun a ha => (nomatch ha)⟩

theorem scanFreshM_keeps (st : JV → V × Bool) : ∀ (ds : List DV) (h : Maps V) (c : Nat), c < h.next → (scanFreshM st h ds).1.map c = h.map c
  | [], h, c, _ => rfl
  | d :: ds, h, c, hc => by
    have h1 := (mapScanH_next st h d).1
    show (scanFreshM st (mapScanH st h none d).1 ds).1.map c = _
    rw [scanFreshM_keeps st ds _ c (by omega)]
    exact C100_map_others_kept st h none d c hc (by simp)

/-- A fresh destination shows what the value model says. -/
theorem mapScanH_fresh (e : V → Bytes) (st : JV → V × Bool) (h : Maps V) (d : DV) (hok : (mapScan (codec e st) none d).2 = true) :
    (mapScanH st h none d).2.2 = true ∧ ∀ k, get ((mapScanH st h none d).1.view (mapScanH st h none d).2.1) k = get (mapScan (codec e st) none d).1 k := by
  have hstore : ∀ s : Bytes, s.isEmpty = false → (mapScan (codec e st) none (.text s)).2 = true →
      (mapScanH st h none (.text s)).2.2 = true ∧ ∀ k, get ((mapScanH st h none (.text s)).1.view (mapScanH st h none (.text s)).2.1) k = get (mapScan (codec e st) none (.text s)).1 k := by
    intro s hs hok
    simp only [mapScan, hs, Bool.false_eq_true, if_false, codec, unmarshal] at hok
    simp only [mapScanH, mapScan, hs, Bool.false_eq_true, if_false, codec, unmarshal]
    cases hp : parse s with
    | none => rw [hp] at hok; cases hok
    | some v =>
      rw [hp] at hok
      cases v with
      | null => exact ⟨rfl, fun k => rfl⟩
      | obj l =>
        by_cases hall : (storeMap st (.obj l)).2 = true
        · simp only at hok ⊢
          rw [if_pos hall] at hok ⊢
          refine ⟨hall, fun k => ?_⟩
          show List.lookup k ((h.alloc.put h.next (putAll st [] l)).map h.next) = List.lookup k ((l.foldl (fun m x => putEntry m x.1 (st x.2).1) []).foldl (fun l e => putEntry l e.1 e.2) [])
          have hnd : ((l.foldl (fun m x => putEntry m x.1 (st x.2).1) []).map (·.1)).Nodup := by
            have := nodup_mergeFold (l.map fun x => (x.1, (st x.2).1)) [] (by simp)
            rwa [List.foldl_map] at this
          rw [fold_nodup _ [] (by simpa using hnd), List.nil_append]
          simp only [Maps.put, if_true]
          rfl
        · simp only at hok
          rw [if_neg hall] at hok; cases hok
      | _ => simp [storeMap] at hok
  cases d with
  | null => exact ⟨rfl, fun k => rfl⟩
  | text s =>
    by_cases hs : s.isEmpty = true
    · simp only [mapScanH, mapScan, hs, if_true]
      refine ⟨trivial, fun k => ?_⟩
      simp [Maps.view, Maps.alloc, get, entries]
    · exact hstore s (by simpa using hs) hok
  | bytes s =>
    by_cases hs : s.isEmpty = true
    · simp only [mapScanH, mapScan, hs, if_true]
      refine ⟨trivial, fun k => ?_⟩
      simp [Maps.view, Maps.alloc, get, entries]
    · exact hstore s (by simpa using hs) hok
  | _ => cases hok

/-- **C100 for `Metadata` and `KVSet`, fresh variables**: however many rows are scanned, each into a variable of its own, in the end every variable shows its own row. -/
theorem map_fresh_rows {e : V → Bytes} {st : JV → V × Bool} {san : V → V} {ok : V → Prop} (he : Elem e st san) (hs : ∀ v, san v = v ↔ ok v)
    (rows : List (GoMap V)) (hr : ∀ m ∈ rows, Types.Spec.MapOk m ∧ ∀ k v, get m k = some v → Spec.Utf8 k ∧ ok v) (h : Maps V) :
    let r := scanFreshM st h (rows.map (mapValue (codec e st)))
    r.2.length = rows.length ∧ ∀ (i : Nat) (x : Option Nat × Bool) (m : GoMap V), r.2[i]? = some x → rows[i]? = some m → x.2 = true ∧ ∀ k, get (r.1.view x.1) k = get m k := by
  induction rows generalizing h with
  | nil => intro r; exact ⟨rfl, fun i x m h1 h2 => by simp at h2⟩
  | cons m rows ih =>
    intro r
    obtain ⟨i1, i2⟩ := ih (fun x hx => hr x (List.mem_cons_of_mem _ hx)) (mapScanH st h none (mapValue (codec e st) m)).1
    refine ⟨by show List.length (_ :: _) = _; simpa using i1, ?_⟩
    intro i x m' h1 h2
    cases i with
    | succ i =>
      refine i2 i x m' ?_ (by simpa using h2)
      have h1' : ((_ :: (scanFreshM st (mapScanH st h none (mapValue (codec e st) m)).1 (rows.map (mapValue (codec e st)))).2) : List (Option Nat × Bool))[i + 1]? = some x := h1
      simpa using h1'
    | zero =>
      have hx : ((mapScanH st h none (mapValue (codec e st) m)).2.1, (mapScanH st h none (mapValue (codec e st) m)).2.2) = x := by
        have h1' : (((mapScanH st h none (mapValue (codec e st) m)).2.1, (mapScanH st h none (mapValue (codec e st) m)).2.2) :: _ : List (Option Nat × Bool))[0]? = some x := h1
        simpa using h1'
      have hm' : m = m' := by simpa using h2
      subst hm'
      obtain ⟨g1, g2⟩ := hr m (by simp)
      obtain ⟨q1, q2⟩ := map_restored he hs m g1 (mapValue (codec e st) m) (Or.inl rfl)
      obtain ⟨p1, p2⟩ := mapScanH_fresh e st h (mapValue (codec e st) m) q1
      rw [← hx]
      refine ⟨p1, fun k => ?_⟩
      have hn := mapScanH_next st h (mapValue (codec e st) m)
      rw [← q2.2 g2 k]
      refine Eq.trans ?_ (p2 k)
      show get ((scanFreshM st (mapScanH st h none (mapValue (codec e st) m)).1 _).1.view (mapScanH st h none (mapValue (codec e st) m)).2.1) k = _
      cases ha : (mapScanH st h none (mapValue (codec e st) m)).2.1 with
      | none => rfl
      | some a =>
        show List.lookup k ((scanFreshM st _ _).1.map a) = List.lookup k ((mapScanH st h none (mapValue (codec e st) m)).1.map a)
        rw [scanFreshM_keeps st _ _ a (hn.2 a ha)]

/-- types.go:225-246 `Metadata.Scan` with memory. -/
def metadataScanH : Maps Bytes → Option Nat → DV → Maps Bytes × Option Nat × Bool := mapScanH storeStr
/-- types.go:275-296 `KVSet.Scan` with memory. -/
def kvsetScanH : Maps (Option (List Bytes)) → Option Nat → DV → Maps (Option (List Bytes)) × Option Nat × Bool := mapScanH storeStrs

/-- The entries of a `Metadata`: one per key, all well-formed. -/
def Spec.GoodMetadata (l : List (Bytes × Bytes)) : Prop := (l.map (·.1)).Nodup ∧ ∀ x ∈ l, Spec.Utf8 x.1 ∧ Spec.Utf8 x.2
/-- The entries of a `KVSet`. -/
def Spec.GoodKVSet (l : List (Bytes × Option (List Bytes))) : Prop := (l.map (·.1)).Nodup ∧ ∀ x ∈ l, Spec.Utf8 x.1 ∧ ∀ y, x.2 = some y → ∀ s ∈ y, Spec.Utf8 s

/-- **C100 for `Metadata`, exactly**: the destination has a map, of which a copy was taken; the next row, with entries, is scanned into it.  The copy is the same map as the destination: it shows every
entry of the row, and its own where the row has none.  So the copy is what it was iff the row has nothing that it did not have already. -/
theorem C100_metadata_copy_after_next_scan (h : Maps Bytes) (a : Nat) (l : List (Bytes × Bytes)) (hl : l ≠ []) (hg : Spec.GoodMetadata l) :
    let r := metadataScanH h (some a) (mapValue metadata (some l))
    r.2 = (some a, true)
    ∧ (∀ k, (r.1.map a).lookup k = (l.lookup k).or ((h.map a).lookup k))
    ∧ ((∀ k, (r.1.map a).lookup k = (h.map a).lookup k) ↔ ∀ x ∈ l, (h.map a).lookup x.1 = some x.2) :=
  map_copy_after_next_scan elem_str sanitize_eq_iff h a l hl hg

/-- **C100 for `KVSet`, exactly**. -/
theorem C100_kvset_copy_after_next_scan (h : Maps (Option (List Bytes))) (a : Nat) (l : List (Bytes × Option (List Bytes))) (hl : l ≠ []) (hg : Spec.GoodKVSet l) :
    let r := kvsetScanH h (some a) (mapValue kvset (some l))
    r.2 = (some a, true)
    ∧ (∀ k, (r.1.map a).lookup k = (l.lookup k).or ((h.map a).lookup k))
    ∧ ((∀ k, (r.1.map a).lookup k = (h.map a).lookup k) ↔ ∀ x ∈ l, (h.map a).lookup x.1 = some x.2) :=
  map_copy_after_next_scan elem_strs sanStrs_eq_iff h a l hl hg

/-- **C100 fails for a reused `Metadata` or `KVSet`**: rows with entries are scanned one after the other into one variable and a copy is kept of each; all copies are the same map, and in the end it
shows all rows together (a later row replaces the keys of an earlier one). -/
theorem C100_map_reused_all_copies_show_all_rows :
    (∀ (rows : List (List (Bytes × Bytes))), (∀ l ∈ rows, l ≠ [] ∧ Spec.GoodMetadata l) → ∀ (h : Maps Bytes) (a : Nat),
      let r := scanReusedM storeStr h (some a) (rows.map fun l => mapValue metadata (some l))
      (∀ x ∈ r.2, x = (some a, true)) ∧ ∀ k, (r.1.map a).lookup k = rows.foldl (fun v l => (l.lookup k).or v) ((h.map a).lookup k))
    ∧ (∀ (rows : List (List (Bytes × Option (List Bytes)))), (∀ l ∈ rows, l ≠ [] ∧ Spec.GoodKVSet l) → ∀ (h : Maps (Option (List Bytes))) (a : Nat),
      let r := scanReusedM storeStrs h (some a) (rows.map fun l => mapValue kvset (some l))
      (∀ x ∈ r.2, x = (some a, true)) ∧ ∀ k, (r.1.map a).lookup k = rows.foldl (fun v l => (l.lookup k).or v) ((h.map a).lookup k)) :=
  ⟨fun rows hr h a => map_reused_all elem_str sanitize_eq_iff rows hr h a, fun rows hr h a => map_reused_all elem_strs sanStrs_eq_iff rows hr h a⟩

/-- **C100 for `Metadata`, fresh variables**: however many rows are scanned, each into a variable of its own, in the end every variable shows its own row. -/
theorem C100_metadata_fresh_rows (rows : List (GoMap Bytes)) (hr : ∀ m ∈ rows, Types.Spec.MapOk m ∧ ∀ k v, get m k = some v → Spec.Utf8 k ∧ Spec.Utf8 v) (h : Maps Bytes) :
    let r := scanFreshM storeStr h (rows.map (mapValue metadata))
    r.2.length = rows.length ∧ ∀ (i : Nat) (x : Option Nat × Bool) (m : GoMap Bytes), r.2[i]? = some x → rows[i]? = some m → x.2 = true ∧ ∀ k, get (r.1.view x.1) k = get m k :=
  map_fresh_rows elem_str sanitize_eq_iff rows hr h

/-- **C100 for `KVSet`, fresh variables**. -/
theorem C100_kvset_fresh_rows (rows : List (GoMap (Option (List Bytes))))
    (hr : ∀ m ∈ rows, Types.Spec.MapOk m ∧ ∀ k v, get m k = some v → Spec.Utf8 k ∧ ∀ y, v = some y → ∀ s ∈ y, Spec.Utf8 s) (h : Maps (Option (List Bytes))) :
    let r := scanFreshM storeStrs h (rows.map (mapValue kvset))
    r.2.length = rows.length
    ∧ ∀ (i : Nat) (x : Option Nat × Bool) (m : GoMap (Option (List Bytes))), r.2[i]? = some x → rows[i]? = some m → x.2 = true ∧ ∀ k, get (r.1.view x.1) k = get m k :=
  map_fresh_rows elem_strs sanStrs_eq_iff rows hr h

-- the hypotheses are met
example : Spec.GoodMetadata [(b!"a", b!"1")] := ⟨by decide, by intro x hx; simp at hx; subst hx; exact ⟨(sanitize_eq_iff _).1 (by decide +kernel), (sanitize_eq_iff _).1 (by decide +kernel)⟩⟩

-- two rows of metadata into one variable
example :
    let h : Maps Bytes := ⟨fun _ => [], 0⟩
    let r := scanReusedM storeStr h none [.text b!"{\"a\":\"1\"}", .text b!"{\"b\":\"2\"}"]
    r.2.map (fun x => r.1.view x.1) = [some [(b!"a", b!"1"), (b!"b", b!"2")], some [(b!"a", b!"1"), (b!"b", b!"2")]] := by decide +kernel

end Types.GoJson
