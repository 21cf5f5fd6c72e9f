import Verif.Gen.Read
import Verif.Query.Exact
set_option linter.unusedVariables false
/-!
`ExecuteListQuery` of a generated model (query.go:33-53 with the generated `ScanRow`): C107 for lists.
-/
namespace Gen
open Schema Types Sql

/-- The generated `ScanRow` as the conversion of a row (internal/cli/schema/template.go:113-124); `e` is the error it reports when a column cannot be read. -/
def rowConv (hex : Bytes → Option Dbl) (fb : Tm.Layout → Bytes → Option Tm.GoTime) (ts : List GT) (e : E) (gs : List Given) : Except E (List GoVal) :=
  match scanRow hex fb ts gs with
  | none => .error e
  | some l => .ok l

/-- Every field of the struct shows its column. -/
def Spec.RowShown (ts : List GT) (row : List Cell) (gs : List GoVal) : Prop :=
  gs.length = row.length ∧ ∀ (i : Nat) (v : Cell) (t : GT) (g : GoVal), row[i]? = some v → ts[i]? = some t → gs[i]? = some g → Spec.Shows t v g

theorem types_of (eqFold : Bytes → Bytes → Bool) (over : Bytes → Option Bytes) {ts ts' : List GT} {l : List (Option GT)} (h : l = ts.map some) (h' : l = ts'.map some) : ts = ts' := by
  rw [h] at h'
  exact (List.map_inj_right (fun a b h => Option.some.inj h)).1 h'

/-- **C107, a list**: the query returns the rows of a table (columns `cs`), the stream is not cut short, and no row holds one of the values that cannot be shown: then `ExecuteListQuery`
returns one struct per row, in order, and every field of every struct shows its column. -/
theorem C107_list_shows_the_rows (hex fb) (eqFold : Bytes → Bytes → Bool) (over : Bytes → Option Bytes) (drv : Driver) (ho' : over b!"_count" = none)
    (cs : List (Column × Kind)) (ho : ∀ x ∈ cs, NoOverride over x.1) (hk : ∀ x ∈ cs, kindOf drv x.1 = some x.2)
    (rows : List (List Cell)) (hlen : ∀ row ∈ rows, row.length = cs.length)
    (hh : ∀ row ∈ rows, ∀ (i : Nat) (x : Column × Kind) (v : Cell), cs[i]? = some x → row[i]? = some v → Spec.Holds x.2 x.1.nullable v ∧ ¬ Spec.Lost eqFold drv x.1 x.2 v)
    (db : List (Query.Arg V) → Answer (List Given) E) (args : List (Query.Arg V)) (e : E)
    (hdb : db args = .ok (.fresh ((rows.map fun row => (cs.zip row).map fun x => given drv x.1.2 x.2).map fun r => ⟨r, none⟩) none none)) :
    ∃ ts : List GT, cs.map (fun x => (toGoType eqFold over x.1).bind goTypeOf) = ts.map some ∧
      ∃ list, (Query.execList db (rowConv hex fb ts e) args).1 = .ok list ∧ List.Forall₂ (Spec.RowShown ts) rows list := by
  have hts : ∃ ts : List GT, cs.map (fun x => (toGoType eqFold over x.1).bind goTypeOf) = ts.map some := by
    refine ⟨cs.map fun x => expected x.2 x.1.nullable (isID eqFold x.1.name) (hasSuffix x.1.name b!"_ids"), ?_⟩
    rw [List.map_map]
    exact List.map_congr_left fun x hx => chosen eqFold over drv x.1 x.2 (ho x hx) ho' (hk x hx)
  obtain ⟨ts, hts⟩ := hts
  refine ⟨ts, hts, ?_⟩
  -- one row
  have one : ∀ row ∈ rows, ∃ gs, scanRow hex fb ts ((cs.zip row).map fun x => given drv x.1.2 x.2) = some gs ∧ Spec.RowShown ts row gs := by
    intro row hrow
    have hl := hlen row hrow
    have hz : ∀ x ∈ cs.zip row, ∃ i : Nat, cs[i]? = some x.1 ∧ row[i]? = some x.2 := by
      intro x hx
      obtain ⟨i, hi⟩ := List.getElem?_of_mem hx
      rw [List.getElem?_zip_eq_some] at hi
      exact ⟨i, hi.1, hi.2⟩
    have hr := C107_row_shows_the_columns_iff hex fb eqFold over drv ho' ((cs.zip row).map fun x => (x.1.1, x.1.2, x.2))
      (fun y hy => by
        obtain ⟨x, hx, rfl⟩ := List.mem_map.1 hy
        obtain ⟨i, h1, h2⟩ := hz x hx
        exact ho x.1 (List.mem_of_getElem? h1))
      (fun y hy => by
        obtain ⟨x, hx, rfl⟩ := List.mem_map.1 hy
        obtain ⟨i, h1, h2⟩ := hz x hx
        exact hk x.1 (List.mem_of_getElem? h1))
      (fun y hy => by
        obtain ⟨x, hx, rfl⟩ := List.mem_map.1 hy
        obtain ⟨i, h1, h2⟩ := hz x hx
        exact (hh row hrow i x.1 x.2 h1 h2).1)
    obtain ⟨ts', h1, h2⟩ := hr
    have e1 : cs.map (fun x => (toGoType eqFold over x.1).bind goTypeOf) = ts'.map some := by
      rw [← h1, List.map_map]
      have : cs = (cs.zip row).map Prod.fst := by rw [List.map_fst_zip (by omega)]
      conv => lhs; rw [this]
      rw [List.map_map]
      rfl
    have e2 : ts = ts' := types_of eqFold over hts e1
    subst e2
    obtain ⟨gs, h3, h4, h5⟩ := h2.2 (fun y hy => by
      obtain ⟨x, hx, rfl⟩ := List.mem_map.1 hy
      obtain ⟨i, h1, h2⟩ := hz x hx
      exact (hh row hrow i x.1 x.2 h1 h2).2)
    rw [List.map_map] at h3
    refine ⟨gs, h3, ?_, ?_⟩
    · simp at h4; omega
    · intro i v t g hv ht hg
      have hi : i < cs.length := by
        rw [← hl]
        exact (List.getElem?_eq_some_iff.1 hv).1
      refine h5 i (cs[i].1, cs[i].2, v) t g ?_ ht hg
      have hz2 : (cs.zip row)[i]? = some (cs[i], v) := List.getElem?_zip_eq_some.2 ⟨List.getElem?_eq_getElem hi, hv⟩
      rw [List.getElem?_map, hz2]
      rfl
  -- all rows
  have all : ∀ l : List (List Cell), (∀ row ∈ l, row ∈ rows) → ∃ list : List (List GoVal),
      (l.map fun row => rowConv hex fb ts e ((cs.zip row).map fun x => given drv x.1.2 x.2)) = list.map .ok ∧ List.Forall₂ (Spec.RowShown ts) l list := by
    intro l
    induction l with
    | nil => intro _; exact ⟨[], rfl, .nil⟩
    | cons row l ih =>
      intro h
      obtain ⟨list, h1, h2⟩ := ih (fun r hr => h r (by simp [hr]))
      obtain ⟨gs, h3, h4⟩ := one row (h row (by simp))
      exact ⟨gs :: list, by rw [List.map_cons, List.map_cons, h1]; unfold rowConv; rw [h3], .cons h4 h2⟩
  obtain ⟨list, h1, h2⟩ := all rows (fun _ h => h)
  refine ⟨list, ?_, h2⟩
  have := (Query.C38_success_iff db (rowConv hex fb ts e) args (rows.map fun row => (cs.zip row).map fun x => given drv x.1.2 x.2) _ hdb ?_ list).1
  · rw [this]
    refine ⟨?_, ?_⟩
    · intro x hx
      simp only [Rows.fresh, List.mem_map] at hx
      obtain ⟨y, _, rfl⟩ := hx
      rfl
    · simp only [Rows.fresh, List.map_map]
      rw [← h1]
      rfl
  · have hm : ((rows.map fun row => (cs.zip row).map fun x => given drv x.1.2 x.2).map fun r => (⟨r, none⟩ : Fetched (List Given) E)).map Fetched.row
        = rows.map fun row => (cs.zip row).map fun x => given drv x.1.2 x.2 := by
      rw [List.map_map]
      exact List.map_id' _
    exact ⟨by rw [Rows.fresh, hm], fun _ => hm, rfl, rfl⟩

/-- The hypotheses can be met: two rows of a table with a key and a nullable name. -/
example : let cs : List (Column × Kind) := (demoRow.take 2).map fun x => (x.1, x.2.1)
    let rows : List (List Cell) := [[.int 1, .text b!"Ann"], [.int 2, .null]]
    (∀ row ∈ rows, row.length = cs.length) ∧ (∀ x ∈ cs, NoOverride (fun _ => none) x.1 ∧ kindOf .pg x.1 = some x.2)
    ∧ (∀ x v, (x, v) ∈ rows.flatMap (fun row => cs.zip row) → Spec.Holds x.2 x.1.nullable v ∧ ¬ Spec.Lost (fun a b => a == b) .pg x.1 x.2 v) := by
  refine ⟨by simp [demoRow], ?_, ?_⟩
  · intro x hx
    refine ⟨⟨rfl, rfl⟩, ?_⟩
    revert x
    decide +kernel
  · intro x v h
    simp [demoRow] at h
    have key : ∀ n : Int, 0 ≤ n → n ≤ 5 → Spec.Holds (.int .eight) false (.int n) ∧ ∀ c, ¬ Spec.Lost (fun a b => a == b) .pg c (.int .eight) (.int n) := by
      intro n h1 h2
      refine ⟨⟨.eight, rfl, ?_, ?_⟩, fun c => ?_⟩
      · simp only [Width.lo]; omega
      · simp only [Width.hi]; omega
      · rintro (⟨_, h⟩ | ⟨h, _⟩)
        · omega
        · cases h
    rcases h with ⟨rfl, rfl⟩ | ⟨rfl, rfl⟩ | ⟨rfl, rfl⟩ | ⟨rfl, rfl⟩
    · exact ⟨(key 1 (by decide) (by decide)).1, (key 1 (by decide) (by decide)).2 _⟩
    · exact ⟨Or.inl rfl, id⟩
    · exact ⟨(key 2 (by decide) (by decide)).1, (key 2 (by decide) (by decide)).2 _⟩
    · exact ⟨rfl, id⟩

end Gen
