import Verif.Query.QueryProps
import Verif.Query.NameProps
set_option linter.unusedSimpArgs false
set_option linter.unusedVariables false
/-! C38, C40: exactly when a list query succeeds and is complete; exactly when two names are equal; which state a name describes. -/
namespace Query
open Sql
variable {V R T E : Type}

theorem convertAll_iff (conv : R → Except E T) : ∀ (l : List (Fetched R E)) (ts : List T), convertAll conv l = .ok ts ↔ l.map (convert conv) = ts.map .ok
  | [], ts => by cases ts <;> simp [convertAll]
  | x :: xs, ts => by
    simp only [convertAll]
    cases hx : convert conv x with
    | error e => cases ts <;> simp [hx]
    | ok t =>
      cases ts with
      | nil => cases convertAll conv xs <;> simp
      | cons u us =>
        have ih := convertAll_iff conv xs us
        cases hxs : convertAll conv xs with
        | error e =>
          rw [hxs] at ih
          simp only [List.map_cons, hx, List.cons.injEq, Except.ok.injEq, reduceCtorEq, false_iff, not_and] at ih ⊢
          exact fun _ => ih
        | ok ts' =>
          rw [hxs] at ih
          simp only [List.map_cons, hx, List.cons.injEq, Except.ok.injEq] at ih ⊢
          rw [ih]

/-- **C38 exactly**: a list query whose result set is `full` succeeds with `list` if and only if every row that was delivered can be read, and `list` is these rows in order; the list then has one
element per row of the result set if and only if no row was cut off, whatever error ended the stream. -/
theorem C38_success_iff (db : List (Arg V) → Answer R E) (conv : R → Except E T) (args : List (Arg V)) (full : List R) (r : Rows R E)
    (hdb : db args = .ok r) (hd : Delivers full r) (list : List T) :
    ((execList db conv args).1 = .ok list ↔ (∀ x ∈ r.todo, x.scanErr = none) ∧ r.todo.map (fun x => conv x.row) = list.map .ok)
    ∧ ((execList db conv args).1 = .ok list → (list.map .ok = full.map conv ↔ r.todo.map Fetched.row = full)) := by
  have key : (execList db conv args).1 = .ok list ↔ (∀ x ∈ r.todo, x.scanErr = none) ∧ r.todo.map (fun x => conv x.row) = list.map .ok := by
    rw [execList_eq db conv args r hdb hd.isOpen hd.clean]
    have h1 : liftErr (convertAll conv r.todo) = (.ok list : Except (Err E) (List T)) ↔ convertAll conv r.todo = .ok list := by
      cases convertAll conv r.todo <;> simp [liftErr]
    rw [h1, convertAll_iff]
    constructor
    · intro h
      have hs : ∀ x ∈ r.todo, x.scanErr = none := by
        intro x hx
        have hm : convert conv x ∈ r.todo.map (convert conv) := List.mem_map_of_mem hx
        rw [h] at hm
        obtain ⟨t, _, ht⟩ := List.mem_map.1 hm
        unfold convert at ht
        cases he : x.scanErr with
        | none => rfl
        | some e => rw [he] at ht; cases ht
      refine ⟨hs, ?_⟩
      rw [← h]
      exact List.map_congr_left fun x hx => by simp [convert, hs x hx]
    · rintro ⟨hs, h⟩
      rw [← h]
      exact List.map_congr_left fun x hx => by simp [convert, hs x hx]
  refine ⟨key, ?_⟩
  intro hok
  obtain ⟨hs, hl⟩ := key.1 hok
  rw [← hl]
  constructor
  · intro he
    obtain ⟨rest, hrest⟩ := hd.inOrder
    have hlen := congrArg List.length he
    rw [← hrest] at hlen ⊢
    simp only [List.length_map, List.length_append] at hlen
    have : rest = [] := List.length_eq_zero_iff.1 (by omega)
    rw [this, List.append_nil]
  · intro he
    rw [← he, List.map_map]
    rfl

/-- Both cases occur: a complete stream and one cut short, the latter without any sign of it. -/
example : Delivers [1, 2, 3] (.fresh ([1, 2, 3].map fun r => ⟨r, none⟩) none none : Rows Nat Nat)
    ∧ Delivers [1, 2, 3] (.fresh ([1].map fun r => ⟨r, none⟩) (some 5) none : Rows Nat Nat) :=
  ⟨⟨⟨[], rfl⟩, fun _ => rfl, rfl, rfl⟩, ⟨⟨[2, 3], rfl⟩, fun h => (Option.some_ne_none _ h).elim, rfl, rfl⟩⟩

variable [DecidableEq V]

theorem positions_ext (a b : BitVec 64) (h : ∀ pos : UInt32, (a &&& bit pos != 0) = (b &&& bit pos != 0)) : a = b := by
  have hbit : ∀ (x : BitVec 64) (i : Nat), i < 64 → (x &&& bit (UInt32.ofNat i) != 0) = x.getLsbD i := by
    intro x i hi
    have hn : (UInt32.ofNat i).toNat = i := by
      rw [UInt32.toNat_ofNat']; exact Nat.mod_eq_of_lt (by omega)
    unfold bit
    rw [hn]
    have hb : ∀ j, (1#64 <<< i).getLsbD j = decide (j = i) := by
      intro j
      rw [BitVec.getLsbD_shiftLeft, BitVec.getLsbD_one]
      by_cases hj : j = i
      · subst hj; simp [hi]
      · by_cases h1 : j < i
        · simp [h1, hj]
        · have : j - i ≠ 0 := by omega
          simp [this, hj]
    cases hx : x.getLsbD i with
    | true =>
      have : x &&& 1#64 <<< i ≠ 0 := by
        intro h0
        have := congrArg (fun v => v.getLsbD i) h0
        simp [BitVec.getLsbD_and, hb, hx] at this
      simpa using this
    | false =>
      have : x &&& 1#64 <<< i = 0 := by
        apply BitVec.eq_of_getLsbD_eq
        intro j hj
        rw [BitVec.getLsbD_and, hb]
        by_cases hji : j = i
        · subst hji; simp [hx]
        · simp [hji]
      simp [this]
  apply BitVec.eq_of_getLsbD_eq
  intro i hi
  have := h (UInt32.ofNat i)
  rw [hbit a i hi, hbit b i hi] at this
  exact this

/-- **C40 exactly**: two freshly computed names are equal if and only if the builders have the same query name, set positions, enums, flags and kind of paging, and both have no NULL columns, or both
have some and the hashes of their sorted and concatenated names are equal. -/
theorem C40_names_equal_iff (H : Bytes → UInt64) (b b' : Builder V) (hb : b.hash = []) (hb' : b'.hash = []) :
    (b.name H).2 = (b'.name H).2 ↔
      b.queryName = b'.queryName ∧ (∀ pos, b.isSet pos = b'.isSet pos) ∧ b.enums = b'.enums ∧ b.flags = b'.flags ∧ pageKind b = pageKind b'
      ∧ (b.nullColumns = [] ↔ b'.nullColumns = [])
      ∧ (b.nullColumns ≠ [] → H (sortStrings b.nullColumns).flatten = H (sortStrings b'.nullColumns).flatten) := by
  constructor
  · intro h
    obtain ⟨h1, h2, h3, _, h4, h5, h6, h7⟩ := C40_name_identifies_shape_partial H b b' hb hb' h
    exact ⟨h1, h2, h3, h4, h5, h6, h7⟩
  · rintro ⟨h1, h2, h3, h4, h5, h6, h7⟩
    have e : ∀ b : Builder V, b.hash = [] → (b.name H).2 = b.nameText H := by intro b hb; simp [Builder.name, hb]
    rw [e b hb, e b' hb']
    have hp : b.positions = b'.positions := positions_ext _ _ h2
    have hpage : (if b.cursor ≠ .nil then b!"_c" else if b.offset > 0 then b!"_o" else [])
        = (if b'.cursor ≠ .nil then b!"_c" else if b'.offset > 0 then b!"_o" else []) := by
      unfold pageKind at h5
      by_cases c1 : b.cursor = .nil <;> by_cases c2 : b'.cursor = .nil <;> by_cases o1 : 0 < b.offset <;> by_cases o2 : 0 < b'.offset <;>
        simp_all
    have hnull : nullText H (sortStrings b.nullColumns) = nullText H (sortStrings b'.nullColumns) := by
      have hlen : ∀ cs : List Bytes, (sortStrings cs).length = cs.length := fun cs => (sortStrings_perm cs).length_eq
      unfold nullText
      rw [hlen, hlen]
      by_cases hn : b.nullColumns = []
      · have hn' := h6.1 hn
        simp [hn, hn']
      · have hn' : b'.nullColumns ≠ [] := fun h => hn (h6.2 h)
        rw [if_pos (List.length_pos_iff.2 hn), if_pos (List.length_pos_iff.2 hn'), h7 hn]
    unfold Builder.nameText
    rw [h1, hp, h3, h4, hpage, hnull]

theorem step_keeps_hash (H : Bytes → UInt64) (b b' : Builder V) (o : POp V) (hs : b.step H o = some b') (hne : b.hash ≠ []) (ho : o ≠ .reset) :
    b'.hash = b.hash := by
  cases o with
  | reset => exact absurd rfl ho
  | name =>
    simp only [Builder.step, Option.some.injEq, Builder.name, hne, if_false] at hs
    rw [← hs]
  | setFlags fs => simp only [Builder.step, Builder.setFlags, Option.some.injEq] at hs; rw [← hs]
  | setNullColumns fs => simp only [Builder.step, Builder.setNullColumns, Option.some.injEq] at hs; rw [← hs]
  | set p v =>
    simp only [Builder.step, Builder.set] at hs
    split at hs
    · cases hs
    split at hs
    · cases hs
    simp only [Option.some.injEq] at hs; rw [← hs]
  | setEnum p v =>
    simp only [Builder.step, Builder.setEnum] at hs
    split at hs
    · cases hs
    split at hs
    · cases hs
    simp only [Option.some.injEq] at hs; rw [← hs]
  | setPage l v =>
    simp only [Builder.step, Builder.setPage] at hs
    split at hs
    · cases hs
    simp only [Option.some.injEq] at hs; rw [← hs]
  | addArgs vs =>
    simp only [Builder.step, Builder.addArgs] at hs
    split at hs
    · cases hs
    simp only [Option.some.injEq] at hs; rw [← hs]
  | setCursor l p v =>
    simp only [Builder.step, Builder.setCursor, Builder.set] at hs
    split at hs
    · cases hs
    split at hs
    · cases hs
    simp only [Option.map_some, Option.some.injEq] at hs; rw [← hs]

theorem run_keeps_hash (H : Bytes → UInt64) : ∀ (post : List (POp V)) (b b' : Builder V), b.run H post = some b' → b.hash ≠ [] → POp.reset ∉ post →
    b'.hash = b.hash
  | [], b, b', h, _, _ => by simp [Builder.run] at h; rw [h]
  | o :: post, b, b', h, hne, hr => by
    simp only [Builder.run, List.foldlM_cons] at h
    cases hs : b.step H o with
    | none => rw [hs] at h; simp at h
    | some b1 =>
      rw [hs] at h
      have h1 := step_keeps_hash H b b1 o hs hne (fun e => hr (by simp [e]))
      have h2 := run_keeps_hash H post b1 b' (by simpa [Builder.run] using h) (by rw [h1]; exact hne) (fun hm => hr (by simp [hm]))
      rw [h2, h1]

/-- **C40 exactly**, which state a name describes: in every history, after `Name()` was called, every later `Name()` up to the next `Reset` returns the text of the state at the first of these calls. -/
theorem C40_name_of_the_first_call (H : Bytes → UInt64) (qn : Bytes) (pre post : List (POp V)) (b0 b : Builder V)
    (h0 : (new qn).run H pre = some b0) (hn : namedSince pre = false) (h : (new qn).run H (pre ++ [.name] ++ post) = some b) (hr : POp.reset ∉ post) :
    (b.name H).2 = b0.nameText H := by
  have hb0 : b0.hash = [] := (run_hash H qn pre b0 h0).2 hn
  have hrun : (b0.name H).1.run H post = some b := by
    simp only [Builder.run, List.foldlM_append, List.foldlM_cons, List.foldlM_nil] at h h0 ⊢
    rw [h0] at h
    simpa [Builder.step] using h
  have hh : (b0.name H).1.hash = b0.nameText H := by simp [Builder.name, hb0]
  have hne : (b0.name H).1.hash ≠ [] := name_hash_ne H b0
  have := run_keeps_hash H post _ b hrun hne hr
  have hbne : b.hash ≠ [] := by rw [this]; exact hne
  simp only [Builder.name, hbne, if_false]
  rw [this, hh]

/-- **C40 exactly**: so a name describes the current state iff the text has not changed since the first `Name()`. -/
theorem C40_name_is_current_iff (H : Bytes → UInt64) (qn : Bytes) (pre post : List (POp V)) (b0 b : Builder V)
    (h0 : (new qn).run H pre = some b0) (hn : namedSince pre = false) (h : (new qn).run H (pre ++ [.name] ++ post) = some b) (hr : POp.reset ∉ post) :
    (b.name H).2 = b.nameText H ↔ b.nameText H = b0.nameText H := by
  rw [C40_name_of_the_first_call H qn pre post b0 b h0 hn h hr]
  exact eq_comm

example : ∃ b0 b : Builder Nat, (new b!"q").run sampleHash [.set 2 (.other 1)] = some b0
    ∧ (new b!"q").run sampleHash ([.set 2 (.other 1)] ++ [.name] ++ [.setFlags [3], .name]) = some b
    ∧ namedSince ([.set 2 (.other 1)] : List (POp Nat)) = false ∧ b.nameText sampleHash ≠ b0.nameText sampleHash :=
  ⟨_, _, rfl, rfl, rfl, by decide +kernel⟩

end Query
