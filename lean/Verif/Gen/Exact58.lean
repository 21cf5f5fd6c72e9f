import Verif.Gen.Props
set_option linter.unusedVariables false
set_option linter.unusedSimpArgs false
/-! C58: exactly what the schema files contain when there are several schemas. -/
namespace Gen
open Schema

/-- The tables a schema file is about: its table infos, as (schema, table). -/
def File.infoTables : File → List (Bytes × Bytes)
  | .model _ _ => []
  | .schema _ is _ _ _ => is.map fun i => (i.schema, i.name)

/-- **C58**, exactly: if Go iterates over the schemas in the order `order`, the schema file written for the `k`-th of them lists the tables of the schemas up to and including the `k`-th, schema by
schema and each in listing order; so it is about the tables of its own schema only if and only if its schema is the first in the iteration order. -/
theorem C58_schema_file_content (L : Lib) (cfg : Cfg) (fmtOK : File → Bool) (res : List GTable) (order : List Bytes) (evs : List Event) (hord : IsOrder res order)
    (h : generate L cfg fmtOK res order = (evs, .ok)) :
    ∃ files : List File, files.length = order.length
      ∧ (evs.filterMap fun e => match e with | .write _ (.schema a b c d e) => some (File.schema a b c d e) | _ => none) = files
      ∧ ∀ (k : Nat) (s : Bytes) (f : File), order[k]? = some s → files[k]? = some f →
          f.infoTables = (order.take (k + 1)).flatMap (fun s' => (res.filter (fun t => t.schema = s')).map (fun t => (t.schema, t.name)))
          ∧ ((∀ x ∈ f.infoTables, x.1 = s) ↔ k = 0) := by
  obtain ⟨rounds, h1, h2, h3⟩ := generate_rounds h
  refine ⟨rounds.map (fun r => r.2.2), by rw [List.length_map, ← h1, List.length_map], ?_, ?_⟩
  · rw [h2]
    have hall : ∀ r ∈ rounds, (∃ dv ds, r.2.1 = .model dv ds) ∧ ∃ a b c d e, r.2.2 = .schema a b c d e := by
      intro r hr
      obtain ⟨k, hk⟩ := List.mem_iff_getElem?.1 hr
      obtain ⟨⟨dv, ds, e1, -⟩, ⟨a, b, c, d, e, e2, -⟩⟩ := h3 k r hk
      exact ⟨⟨dv, ds, e1⟩, a, b, c, d, e, e2⟩
    clear h1 h2 h3
    induction rounds with
    | nil => rfl
    | cons r rs ih =>
      obtain ⟨⟨dv, ds, e1⟩, a, b, c, d, e, e2⟩ := hall r (by simp)
      have ho : ∀ t : Target, ((openEvents t).filterMap fun e => match e with | .write _ (.schema a b c d e) => some (File.schema a b c d e) | _ => none) = [] := by
        intro t; cases t <;> rfl
      rw [List.flatMap_cons, List.filterMap_append, ih (fun r hr => hall r (by simp [hr])), List.map_cons]
      simp only [Spec.round, List.filterMap_append, ho, e1, e2]
      rfl
  · intro k s f hs hf
    rw [List.getElem?_map, Option.map_eq_some_iff] at hf
    obtain ⟨r, hk, rfl⟩ := hf
    have hrs : r.1 = s := by
      rw [← h1, List.getElem?_map, hk] at hs
      exact Option.some.inj hs
    obtain ⟨-, ⟨a, b, c, d, e, e2, hi, -, -⟩⟩ := h3 k r hk
    have hc : r.2.2.infoTables = (order.take (k + 1)).flatMap (fun s' => (res.filter (fun t => t.schema = s')).map (fun t => (t.schema, t.name))) := by
      rw [e2]
      show b.map _ = _
      rw [← forall2_map (fun t i (h : Spec.InfoFor L cfg t i) => by rw [h.schema, h.name]) hi (f := fun t => (t.schema, t.name)), List.map_flatMap]
    refine ⟨hc, ?_⟩
    rw [hc]
    constructor
    · intro hx
      cases k with
      | zero => rfl
      | succ k =>
        exfalso
        have hk0 : 0 < order.length := by
          have := (List.getElem?_eq_some_iff.1 hs).1; omega
        have hmem : order[0] ∈ order := List.getElem_mem hk0
        obtain ⟨t, htr, hts⟩ := (hord.2 _).1 hmem
        have := hx (t.schema, t.name) (by
          refine List.mem_flatMap.2 ⟨order[0], ?_, List.mem_map.2 ⟨t, List.mem_filter.2 ⟨htr, by simpa using hts⟩, rfl⟩⟩
          rw [List.mem_iff_getElem?]
          exact ⟨0, by rw [List.getElem?_take, if_pos (by omega), List.getElem?_eq_getElem hk0]⟩)
        simp only at this
        rw [hts] at this
        obtain ⟨hk1, hks⟩ := List.getElem?_eq_some_iff.1 hs
        exact List.pairwise_iff_getElem.1 hord.1 0 (k + 1) hk0 hk1 (by omega) (by rw [this, hks])
    · rintro rfl x hx
      obtain ⟨s', hs', hx⟩ := List.mem_flatMap.1 hx
      obtain ⟨t, ht, rfl⟩ := List.mem_map.1 hx
      have : s' = s := by
        cases order with
        | nil => simp at hs
        | cons o os => simp at hs hs'; rw [hs', hs]
      rw [← this]
      simpa using (List.mem_filter.1 ht).2

/-- Two schemas, in either order. -/
example : IsOrder toyRes [b!"app", b!"audit"] ∧ (generate toyLib toyCfg (fun _ => true) toyRes [b!"app", b!"audit"]).2 = .ok := ⟨toy_order, by decide +kernel⟩

end Gen
