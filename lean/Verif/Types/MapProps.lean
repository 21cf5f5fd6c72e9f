import Verif.Types.JsonLite
import Verif.Types.IdLemmas
import Verif.Query.NameProps
set_option linter.unusedSimpArgs false
set_option linter.unusedVariables false
/-! Properties C44, C45 (and the map part of C18): `Strings`, `Metadata`, `KVSet`. -/
namespace Types
variable {V : Type}

/-- The keys of a map, one entry each. -/
def Spec.MapOk (m : GoMap V) : Prop := ((entries m).map (·.1)).Nodup

/-- Contract of `encoding/json` for lists of strings (valid UTF-8): decoding inverts encoding, the text of a list is not empty, and a
bracket followed by a digit is not a list of strings. -/
def Spec.StringsJson (j : Json (Option (List Bytes))) (ok : List Bytes → Prop) : Prop :=
  (∀ l, ok l → j.dec (j.enc (some l)) = some (some l) ∧ j.enc (some l) ≠ [])
  ∧ (∀ c s, 48 ≤ c.toNat → c.toNat ≤ 57 → j.dec (91 :: c :: s) = none)

/-- Contract of `encoding/json` for maps: the text of a non-empty map decodes to the same entries, in some order (the encoder sorts the
keys), and is not empty. -/
def Spec.MapJson (j : Json (GoMap V)) (ok : List (Bytes × V) → Prop) : Prop :=
  ∀ l, ok l → l ≠ [] → j.enc (some l) ≠ [] ∧ ∃ l', j.dec (j.enc (some l)) = some (some l') ∧ l'.Perm l

/-- The contracts can be met. -/
theorem contracts_met :
    Spec.StringsJson JsonLite.strings (fun _ => True) ∧ Spec.MapJson JsonLite.metadata (fun _ => True) ∧ Spec.MapJson JsonLite.kvset (fun _ => True) := by
  refine ⟨⟨fun l _ => ⟨JsonLite.strings_roundtrip _, by simp [JsonLite.strings, JsonLite.encArr]⟩, fun c s => JsonLite.strings_rejects c s⟩, ?_, ?_⟩
  · intro l _ _
    exact ⟨by simp [JsonLite.metadata, JsonLite.maps, JsonLite.encArr], l, JsonLite.maps_roundtrip _ _ JsonLite.decStr_encStr l, .refl _⟩
  · intro l _ _
    exact ⟨by simp [JsonLite.kvset, JsonLite.maps, JsonLite.encArr], l, JsonLite.maps_roundtrip _ _ JsonLite.kv_value l, .refl _⟩

/-! ### Maps as functions of their keys -/

theorem lookup_putEntry (l : List (Bytes × V)) (k k' : Bytes) (v : V) :
    (putEntry l k v).lookup k' = if k' = k then some v else l.lookup k' := by
  induction l with
  | nil =>
    simp only [putEntry, List.lookup_cons, List.lookup_nil]
    by_cases h : k' = k
    · simp [h]
    · simp [h, beq_eq_false_iff_ne.2 h]
  | cons e l ih =>
    obtain ⟨a, b⟩ := e
    rw [putEntry]
    by_cases ha : a = k
    · rw [if_pos ha]
      subst ha
      by_cases h : k' = a
      · simp [List.lookup_cons, h]
      · simp [List.lookup_cons, h, beq_eq_false_iff_ne.2 h]
    · rw [if_neg ha]
      by_cases h : k' = a
      · subst h
        simp [List.lookup_cons, ha]
      · rw [List.lookup_cons, List.lookup_cons, beq_eq_false_iff_ne.2 h]
        exact ih

theorem keys_putEntry (l : List (Bytes × V)) (k : Bytes) (v : V) :
    (putEntry l k v).map (·.1) = if k ∈ l.map (·.1) then l.map (·.1) else l.map (·.1) ++ [k] := by
  induction l with
  | nil => simp [putEntry]
  | cons e l ih =>
    obtain ⟨a, b⟩ := e
    rw [putEntry]
    by_cases ha : a = k
    · subst ha; simp
    · rw [if_neg ha]
      simp only [List.map_cons, ih]
      by_cases h : k ∈ l.map (·.1)
      · simp [h]
      · have : ¬ k = a := fun h => ha h.symm
        simp [h, this]

theorem lookup_mergeFold : ∀ (m : List (Bytes × V)) (l : List (Bytes × V)) (k : Bytes), (m.map (·.1)).Nodup →
    (m.foldl (fun l e => putEntry l e.1 e.2) l).lookup k = (m.lookup k).or (l.lookup k) := by
  intro m
  induction m with
  | nil => intro l k _; simp
  | cons e m ih =>
    intro l k hn
    obtain ⟨a, b⟩ := e
    simp only [List.map_cons, List.nodup_cons] at hn
    rw [List.foldl_cons, ih _ _ hn.2, lookup_putEntry, List.lookup_cons]
    by_cases h : k = a
    · subst h
      have : m.lookup k = none := by
        cases hl : m.lookup k with
        | none => rfl
        | some v =>
          exfalso
          have := List.lookup_eq_some_iff.1 hl
          obtain ⟨l1, l2, rfl, _⟩ := this
          simp at hn
      simp [this]
    · simp [h, beq_eq_false_iff_ne.2 h]

theorem nodup_mergeFold : ∀ (m l : List (Bytes × V)), (l.map (·.1)).Nodup → ((m.foldl (fun l e => putEntry l e.1 e.2) l).map (·.1)).Nodup := by
  intro m
  induction m with
  | nil => intro l h; exact h
  | cons e m ih =>
    intro l h
    rw [List.foldl_cons]
    refine ih _ ?_
    rw [keys_putEntry]
    split
    · exact h
    · rename_i hk
      rw [List.nodup_append]
      refine ⟨h, by simp, ?_⟩
      intro a ha b hb
      simp only [List.mem_singleton] at hb
      subst hb; rintro rfl; exact hk ha

theorem lookup_perm {l l' : List (Bytes × V)} (hp : l'.Perm l) (hn : (l.map (·.1)).Nodup) (k : Bytes) : l'.lookup k = l.lookup k := by
  have key : ∀ {l : List (Bytes × V)}, (l.map (·.1)).Nodup → ∀ v, l.lookup k = some v ↔ (k, v) ∈ l := by
    intro l
    induction l with
    | nil => intro _ v; simp
    | cons e l ih =>
      intro hn v
      obtain ⟨a, b⟩ := e
      simp only [List.map_cons, List.nodup_cons] at hn
      rw [List.lookup_cons]
      by_cases h : k = a
      · subst h
        simp only [BEq.rfl, Option.some.injEq, List.mem_cons, Prod.mk.injEq, true_and]
        constructor
        · intro h; exact Or.inl h.symm
        · rintro (h | h)
          · exact h.symm
          · exact absurd (List.mem_map.2 ⟨_, h, rfl⟩) hn.1
      · rw [beq_eq_false_iff_ne.2 h]
        simp only [List.mem_cons, Prod.mk.injEq, h, false_and, false_or]
        exact ih hn.2 v
  have hn' : (l'.map (·.1)).Nodup := (hp.map _).nodup_iff.2 hn
  apply Option.ext
  intro v
  rw [key hn' v, key hn v]
  exact hp.mem_iff

/-! ### C45 -/

/-- C45 (Merge): whatever order the argument is iterated in, after `n.Merge(m)` every key of `m` has `m`'s value, every other key has
the old value, and the map has one entry per key. -/
theorem C45_merge (n : GoMap V) (m : GoMap V) (hn : Spec.MapOk n) (hm : Spec.MapOk m) (order : List (Bytes × V)) (ho : order.Perm (entries m)) :
    (∀ k, get (mergeMap n order) k = (get m k).or (get n k)) ∧ Spec.MapOk (mergeMap n order) := by
  have hom : (order.map (·.1)).Nodup := (ho.map _).nodup_iff.2 hm
  constructor
  · intro k
    show (order.foldl _ (entries n)).lookup k = _
    rw [lookup_mergeFold order (entries n) k hom, lookup_perm ho hm k]
    rfl
  · exact nodup_mergeFold order (entries n) hn

/-- C45 (algebra): merging is associative and idempotent, as seen through lookups. -/
theorem C45_merge_assoc_idem (a b c : GoMap V) (hb : Spec.MapOk b) (hc : Spec.MapOk c) (ha : Spec.MapOk a) :
    (∀ k, get (mergeMap (mergeMap a (entries b)) (entries c)) k = get (mergeMap a (entries (mergeMap b (entries c)))) k)
    ∧ (∀ k, get (mergeMap a (entries a)) k = get a k)
    ∧ (∀ k, get (mergeMap (mergeMap a (entries b)) (entries b)) k = get (mergeMap a (entries b)) k) := by
  have hab := C45_merge a b ha hb _ (.refl _)
  have hbc := C45_merge b c hb hc _ (.refl _)
  refine ⟨?_, ?_, ?_⟩
  · intro k
    rw [(C45_merge _ c hab.2 hc _ (.refl _)).1, hab.1, (C45_merge a _ ha hbc.2 _ (.refl _)).1, hbc.1]
    cases get c k <;> cases get b k <;> rfl
  · intro k
    rw [(C45_merge a a ha ha _ (.refl _)).1]
    cases get a k <;> rfl
  · intro k
    rw [(C45_merge _ b hab.2 hb _ (.refl _)).1, hab.1]
    cases get b k <;> rfl

example : Spec.MapOk (some [(b!"a", b!"1"), (b!"b", b!"2")]) := by unfold Spec.MapOk; decide
example : mergeMap (some [(b!"a", b!"1"), (b!"b", b!"2")]) [(b!"c", b!"3"), (b!"a", b!"9")]
    = some [(b!"a", b!"9"), (b!"b", b!"2"), (b!"c", b!"3")] := by decide +kernel

/-- C45 (OrderedPairs): the entries of the map, each once, in increasing key order; the result does not depend on the internal order of
the map; nil gives nil. -/
theorem C45_ordered_pairs (m : GoMap Bytes) (hm : Spec.MapOk m) :
    (m = none → orderedPairs m = none)
    ∧ (∀ l, m = some l → ∃ es : List (Bytes × Bytes), orderedPairs m = some (es.flatMap fun e => [e.1, e.2]) ∧ es.Perm l
        ∧ es.Pairwise (fun a b => Query.leBytes a.1 b.1 = true ∧ a.1 ≠ b.1)
        ∧ ∀ l' : List (Bytes × Bytes), l'.Perm l → orderedPairs (some l') = orderedPairs m) := by
  refine ⟨fun h => by subst h; rfl, ?_⟩
  rintro l rfl
  have hs := Util.sort_sorted (fun a b : Bytes × Bytes => Query.leBytes a.1 b.1)
    (fun a b c => Query.leBytes_trans a.1 b.1 c.1) (fun a b => Query.leBytes_total a.1 b.1) l
  have hp := Util.sort_perm (fun a b : Bytes × Bytes => Query.leBytes a.1 b.1) l
  have hkeys : ((Util.sort (fun a b : Bytes × Bytes => Query.leBytes a.1 b.1) l).map (·.1)).Nodup := (hp.map _).nodup_iff.2 hm
  refine ⟨Util.sort (fun a b => Query.leBytes a.1 b.1) l, rfl, hp, ?_, ?_⟩
  · have h2 : (Util.sort (fun a b : Bytes × Bytes => Query.leBytes a.1 b.1) l).Pairwise (fun a b => a.1 ≠ b.1) := List.pairwise_map.1 hkeys
    exact hs.and h2
  · intro l' hl'
    have hs' := Util.sort_sorted (fun a b : Bytes × Bytes => Query.leBytes a.1 b.1)
      (fun a b c => Query.leBytes_trans a.1 b.1 c.1) (fun a b => Query.leBytes_total a.1 b.1) l'
    have hp' := Util.sort_perm (fun a b : Bytes × Bytes => Query.leBytes a.1 b.1) l'
    have : Util.sort (fun a b : Bytes × Bytes => Query.leBytes a.1 b.1) l' = Util.sort (fun a b : Bytes × Bytes => Query.leBytes a.1 b.1) l := by
      refine List.Perm.eq_of_pairwise (le := fun a b => Query.leBytes a.1 b.1 = true) ?_ hs' hs (hp'.trans (hl'.trans hp.symm))
      intro a b ha hb h1 h2
      have hk := Query.leBytes_antisymm _ _ h1 h2
      have ha' : a ∈ l := (hl'.trans .rfl).mem_iff.1 (hp'.mem_iff.1 ha)
      have hb' : b ∈ l := hp.mem_iff.1 hb
      -- one entry per key
      have inj : ∀ {l : List (Bytes × Bytes)}, (l.map (·.1)).Nodup → ∀ a ∈ l, ∀ b ∈ l, a.1 = b.1 → a = b := by
        intro l
        induction l with
        | nil => intro _ a ha; cases ha
        | cons e l ih =>
          intro hn a ha b hb hab
          simp only [List.map_cons, List.nodup_cons] at hn
          rcases List.mem_cons.1 ha with ha | ha
          · rcases List.mem_cons.1 hb with hb | hb
            · rw [ha, hb]
            · rw [ha] at hab; exact absurd (List.mem_map.2 ⟨b, hb, hab.symm⟩) hn.1
          · rcases List.mem_cons.1 hb with hb | hb
            · rw [hb] at hab; exact absurd (List.mem_map.2 ⟨a, ha, hab⟩) hn.1
            · exact ih hn.2 a ha b hb hab
      exact inj hm a ha' b hb' hk
    simp only [orderedPairs, orderedEntries, entries, Option.getD_some, this]

example : orderedPairs (some [(b!"b", b!"2"), (b!"a", b!"1")]) = some [b!"a", b!"1", b!"b", b!"2"] := by decide +kernel

/-! ### C44 -/

/-- C44 (Metadata, KVSet): storing a map and reading it into a fresh destination, as text or as bytes, restores every entry; nil and
empty maps are stored as NULL and read back as an empty map. -/
theorem C44_map_roundtrip (j : Json (GoMap V)) (ok : List (Bytes × V) → Prop) (hj : Spec.MapJson j ok) (m : GoMap V) (hm : Spec.MapOk m)
    (hok : ∀ l, m = some l → ok l) :
    (∀ d, d = mapValue j m ∨ (∃ s, mapValue j m = .text s ∧ d = .bytes s) →
      (mapScan j none d).2 = true ∧ ∀ k, get (mapScan j none d).1 k = get m k)
    ∧ (mapValue j m = .null ↔ entries m = []) := by
  by_cases he : entries m = []
  · have hv : mapValue j m = .null := by rw [mapValue, he]; rfl
    rw [hv]
    refine ⟨?_, by simp [he]⟩
    rintro d (rfl | ⟨s, hs, _⟩)
    · refine ⟨rfl, ?_⟩
      intro k
      show (entries (none : GoMap V)).lookup k = (entries m).lookup k
      rw [he]; rfl
    · cases hs
  · cases m with
    | none => exact absurd rfl he
    | some l =>
      have hl : l ≠ [] := he
      have hv : mapValue j (some l) = .text (j.enc (some l)) := by
        rw [mapValue]
        cases l with
        | nil => exact absurd rfl hl
        | cons => rfl
      obtain ⟨h1, l', h2, h3⟩ := hj l (hok l rfl) hl
      have hne : (j.enc (some l)).isEmpty = false := by
        cases hh : j.enc (some l) with
        | nil => exact absurd hh h1
        | cons => rfl
      have hsc : ∀ d, d = .text (j.enc (some l)) ∨ d = .bytes (j.enc (some l)) → mapScan j none d = (mergeMap none l', true) := by
        rintro d (rfl | rfl) <;> simp only [mapScan, hne, Bool.false_eq_true, if_false, h2]
      rw [hv]
      refine ⟨?_, by simp [he]⟩
      intro d hd
      have hd' : d = .text (j.enc (some l)) ∨ d = .bytes (j.enc (some l)) := by
        rcases hd with h | ⟨s, hs, h⟩
        · exact Or.inl h
        · injection hs with hs; subst hs; exact Or.inr h
      rw [hsc d hd']
      refine ⟨rfl, ?_⟩
      intro k
      rw [(C45_merge none (some l) (by simp [Spec.MapOk, entries]) hm l' h3).1 k]
      cases get (some l) k <;> rfl

/-- C44 (Strings, partial): storing a list of strings and reading it back as text restores it; nil is NULL.
Missing: a driver that returns the column as bytes, see `C44_strings_bytes_fail`. -/
theorem C44_strings_roundtrip_partial (j : Json (Option (List Bytes))) (ok : List Bytes → Prop) (hj : Spec.StringsJson j ok) (sp : Nat → Bytes)
    (l : Option (List Bytes)) (hok : ∀ x, l = some x → ok x) (old : Option (List Bytes)) :
    stringsScan j sp old (stringsValue j l) = (l, true) ∧ (stringsValue j l = .null ↔ l = none) := by
  cases l with
  | none => exact ⟨rfl, by simp [stringsValue]⟩
  | some x =>
    obtain ⟨h1, h2⟩ := hj.1 x (hok x rfl)
    refine ⟨?_, by simp [stringsValue]⟩
    have hne : (j.enc (some x)).isEmpty = false := by
      cases hh : j.enc (some x) with
      | nil => exact absurd hh h2
      | cons => rfl
    simp only [stringsValue, stringsScan, sprint]
    simp only [hne, Bool.false_eq_true, if_false]
    rw [h1]

theorem sprint_bytes_digit (b : UInt8) (s : Bytes) : ∃ c t, 48 ≤ c.toNat ∧ c.toNat ≤ 57
    ∧ b!"[" ++ joinSpace ((b :: s).map fun b => Num.dec b.toNat) ++ b!"]" = 91 :: c :: t := by
  obtain ⟨hd, _⟩ := dec_digits b.toNat
  cases hdec : Num.dec b.toNat with
  | nil => exact absurd hdec (dec_ne_nil _)
  | cons c t =>
    have hc := hd.2 c (by rw [hdec]; simp)
    cases s with
    | nil => exact ⟨c, t ++ b!"]", hc.1, hc.2, by simp [joinSpace, hdec]⟩
    | cons x s =>
      refine ⟨c, t ++ c!" " :: joinSpace ((x :: s).map fun b => Num.dec b.toNat) ++ b!"]", hc.1, hc.2, ?_⟩
      simp [joinSpace, hdec]

/-- C44 fails for `Strings` read as bytes: `fmt.Sprint` of a byte slice is a list of numbers, so whatever was stored, reading it from a
driver that returns bytes is an error. -/
theorem C44_strings_bytes_fail (j : Json (Option (List Bytes))) (ok : List Bytes → Prop) (hj : Spec.StringsJson j ok) (sp : Nat → Bytes)
    (s : Bytes) (hs : s ≠ []) (old : Option (List Bytes)) : stringsScan j sp old (.bytes s) = (old, false) := by
  cases s with
  | nil => exact absurd rfl hs
  | cons b s =>
    obtain ⟨c, t, h1, h2, h3⟩ := sprint_bytes_digit b s
    simp only [stringsScan, sprint, h3]
    rw [if_neg (by simp), hj.2 c t h1 h2]

example : stringsScan JsonLite.strings (fun _ => []) none (.bytes (JsonLite.strings.enc (some [b!"a"]))) = (none, false) := by decide +kernel
example : stringsScan JsonLite.strings (fun _ => []) none (stringsValue JsonLite.strings (some [b!"a", b!"b"])) = (some [b!"a", b!"b"], true) := by
  decide +kernel

/-! ### C18 for maps -/

/-- C18 fails for maps: scanning a column into a map that already has entries keeps the entries the column does not mention. -/
theorem C18_map_scan_keeps_stale_keys (j : Json (GoMap V)) (ok : List (Bytes × V) → Prop) (hj : Spec.MapJson j ok)
    (old : GoMap V) (ho : Spec.MapOk old) (l : List (Bytes × V)) (hok : ok l) (hl : l ≠ []) (hn : Spec.MapOk (some l)) (k : Bytes) (v : V)
    (hk : get old k = some v) (hnew : get (some l) k = none) :
    (mapScan j old (mapValue j (some l))).2 = true ∧ get (mapScan j old (mapValue j (some l))).1 k = some v := by
  obtain ⟨h1, l', h2, h3⟩ := hj l hok hl
  have hv : mapValue j (some l) = .text (j.enc (some l)) := by
    rw [mapValue]
    cases l with
    | nil => exact absurd rfl hl
    | cons => rfl
  have hne : (j.enc (some l)).isEmpty = false := by
    cases hh : j.enc (some l) with
    | nil => exact absurd hh h1
    | cons => rfl
  rw [hv]
  simp only [mapScan, hne, Bool.false_eq_true, if_false, h2, true_and]
  rw [(C45_merge old (some l) ho hn l' h3).1 k, hnew, hk]
  rfl

example : mapScan JsonLite.metadata (some [(b!"old", b!"1")]) (mapValue JsonLite.metadata (some [(b!"new", b!"2")]))
    = (some [(b!"old", b!"1"), (b!"new", b!"2")], true) := by decide +kernel

/-- C18 (maps, partial): into a nil map the scan holds exactly the column (see C44); NULL and the empty text always give an empty map. -/
theorem C18_map_scan_partial (j : Json (GoMap V)) (old : GoMap V) :
    mapScan j old .null = (none, true) ∧ mapScan j old (.text []) = (some [], true) ∧ mapScan j old (.bytes []) = (some [], true)
    ∧ ∀ n, mapScan j old (.i64 n) = (old, false) := ⟨rfl, rfl, rfl, fun _ => rfl⟩

end Types
