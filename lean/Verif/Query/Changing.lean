import Verif.Query.CursorPages
import Mathlib.Data.Finset.Card
import Mathlib.Data.Finset.Filter
import Mathlib.Order.WithBot
set_option linter.unusedVariables false
set_option linter.unusedSimpArgs false
/-!
Paging while the table changes between the calls (query.go:87-133, 151-168): C117.

`followCursor` and `followPages` of `QueryProps` are asked of a database that holds the same rows all the time.  Here the rows
are a function of the time, counted in calls: `data t` is what the database holds when the client makes its call number `t`.
-/
namespace Query
open Sql
variable {V R T E : Type}

/-! ### Cursors -/

/-- The loop of a client that follows cursors; call number `t` is answered by `ask t`. -/
def followCursorAt (ask : Nat → Bytes → CRes T E) : Nat → Nat → Bytes → Option (List (List T))
  | 0, _, _ => none
  | fuel + 1, t, c =>
    match ask t c with
    | .set rows hasNext next => if hasNext then (followCursorAt ask fuel (t + 1) next).map fun ps => rows :: ps else some [rows]
    | _ => none

/-- The rows are ordered by a unique key, and the cursor made from a row asks for the rows whose key is greater. -/
structure KeyedBy {K : Type} [LinearOrder K] (data : Nat → List R) (after : Bytes → R → Bool) (cursor : R → Bytes) (key : R → K) : Prop where
  sorted : ∀ t, (data t).Pairwise fun a b => key a < key b
  asks : ∀ t, ∀ r ∈ data t, ∀ x, after (cursor r) x = decide (key r < key x)

/-- What one call returns. -/
theorem cursor_call {K : Type} [LinearOrder K] (db : List (Arg V) → Answer R E) (conv : R → T) (cursor : T → Bytes) (data : List R)
    (after : Bytes → R → Bool) (ask : Bytes → QArgs V) (limit : UInt32) (hl : limit ≠ 0) (hs : ServesCursor db data after ask limit) (c : Bytes) :
    (limit.toNat ≤ (data.filter (after c)).length ∧ ∃ front last, (data.filter (after c)).take limit.toNat = front ++ [last] ∧ front.length + 1 = limit.toNat ∧
      execCursor db (fun r => .ok (conv r)) cursor (ask c) = .set ((front ++ [last]).map conv) true (cursor (conv last)))
    ∨ ((data.filter (after c)).length < limit.toNat ∧ ∃ next,
      execCursor db (fun r => .ok (conv r)) cursor (ask c) = .set ((data.filter (after c)).map conv) false next) := by
  have hlpos : 0 < limit.toNat := Nat.pos_of_ne_zero fun h => hl (UInt32.toNat.inj (by simpa using h))
  have hllt : limit.toNat < 2 ^ 32 := limit.toNat_lt
  rw [execCursor_served db conv cursor data after ask limit hs c]
  dsimp only
  generalize data.filter (after c) = rest
  have hplen : ((rest.take limit.toNat).map conv).length = min limit.toNat rest.length := by simp
  have hge : (UInt32.ofNat ((rest.take limit.toNat).map conv).length ≥ limit) ↔ limit.toNat ≤ rest.length := by
    rw [hplen, ge_iff_le, UInt32.le_iff_toNat_le]
    have : (UInt32.ofNat (min limit.toNat rest.length)).toNat = min limit.toNat rest.length := by
      rw [UInt32.toNat_ofNat']; apply Nat.mod_eq_of_lt; omega
    rw [this]; omega
  by_cases hm : limit.toNat ≤ rest.length
  · refine .inl ⟨hm, ?_⟩
    have hne : rest.take limit.toNat ≠ [] := by
      intro h
      have := congrArg List.length h
      rw [List.length_take, List.length_nil] at this; omega
    refine ⟨(rest.take limit.toNat).dropLast, (rest.take limit.toNat).getLast hne, (List.dropLast_append_getLast hne).symm, ?_, ?_⟩
    · rw [List.length_dropLast, List.length_take]; omega
    · rw [List.dropLast_append_getLast hne, List.getLast?_map, List.getLast?_eq_some_getLast hne]
      simp only [hge, hm, decide_true, if_true, Option.map_some]
  · refine .inr ⟨by omega, ?_⟩
    have ht : rest.take limit.toNat = rest := List.take_of_length_le (by omega)
    rw [ht] at hge ⊢
    simp only [hge, hm, decide_false, Bool.false_eq_true, if_false]
    cases (List.map conv rest).getLast? with
    | none => exact ⟨_, rfl⟩
    | some x => exact ⟨_, rfl⟩

theorem followAt_shows {K : Type} [LinearOrder K] (db : Nat → List (Arg V) → Answer R E) (conv : R → T) (cursor : T → Bytes) (data : Nat → List R)
    (after : Bytes → R → Bool) (key : R → K) (ask : Bytes → QArgs V) (limit : UInt32) (hl : limit ≠ 0)
    (hs : ∀ t, ServesCursor (db t) (data t) after ask limit) (hk : KeyedBy data after (fun r => cursor (conv r)) key) :
    ∀ (n t : Nat) (c : Bytes) (P : WithBot K) (pages : List (List T)), (∀ t, ∀ x ∈ data t, (after c x = true ↔ P < (key x : WithBot K))) →
      followCursorAt (fun t c => execCursor (db t) (fun r => .ok (conv r)) cursor (ask c)) n t c = some pages →
      ∃ shown : List (List R), pages = shown.map (·.map conv) ∧ (shown.flatten.Pairwise fun a b => key a < key b) ∧
        (∀ r ∈ shown.flatten, P < (key r : WithBot K)) ∧
        (∀ i (page : List R), shown[i]? = some page → ∀ r ∈ page, r ∈ data (t + i)) ∧
        (∀ k : K, P < (k : WithBot K) → (∀ i < shown.length, ∃ r ∈ data (t + i), key r = k) → ∃ r ∈ shown.flatten, key r = k) := by
  intro n
  induction n with
  | zero => intro t c P pages _ h; simp [followCursorAt] at h
  | succ n ih =>
    intro t c P pages hP h
    rw [followCursorAt] at h
    rcases cursor_call (K := K) (db t) conv cursor (data t) after ask limit hl (hs t) c with ⟨hm, front, last, htake, hlen, he⟩ | ⟨hm, next, he⟩
    · simp only [he, if_true] at h
      obtain ⟨ps, h1, rfl⟩ := Option.map_eq_some_iff.1 h
      have hmem : ∀ r ∈ front ++ [last], r ∈ data t ∧ P < (key r : WithBot K) := by
        intro r hr
        rw [← htake] at hr
        have := List.mem_of_mem_take hr
        rw [List.mem_filter] at this
        exact ⟨this.1, (hP t r this.1).1 this.2⟩
      have hsort : ((data t).filter (after c)).Pairwise fun a b => key a < key b := (hk.sorted t).filter _
      rw [← List.take_append_drop limit.toNat ((data t).filter (after c)), htake] at hsort
      obtain ⟨hs1, hs2, hs3⟩ := List.pairwise_append.1 hsort
      have hfl : ∀ r ∈ front ++ [last], key r ≤ key last := by
        intro r hr
        rcases List.mem_append.1 hr with h | h
        · exact ((List.pairwise_append.1 hs1).2.2 r h last (by simp)).le
        · rw [List.mem_singleton.1 h]
      obtain ⟨shown, e1, e2, e3, e4, e5⟩ := ih (t + 1) _ (key last : WithBot K) ps (by
        intro t' x _
        rw [hk.asks t last (hmem last (by simp)).1 x, decide_eq_true_eq, WithBot.coe_lt_coe]) h1
      refine ⟨(front ++ [last]) :: shown, by rw [e1]; rfl, ?_, ?_, ?_, ?_⟩
      · rw [List.flatten_cons, List.pairwise_append]
        refine ⟨hs1, e2, ?_⟩
        intro a ha b hb
        have := e3 b hb
        rw [WithBot.coe_lt_coe] at this
        exact lt_of_le_of_lt (hfl a ha) this
      · intro r hr
        rw [List.flatten_cons, List.mem_append] at hr
        rcases hr with hr | hr
        · exact (hmem r hr).2
        · exact lt_trans (hmem last (by simp)).2 (e3 r hr)
      · intro i page hi r hr
        cases i with
        | zero => simp only [List.getElem?_cons_zero, Option.some.injEq] at hi; subst hi; exact (hmem r hr).1
        | succ i =>
          rw [List.getElem?_cons_succ] at hi
          have := e4 i page hi r hr
          rwa [show t + (i + 1) = t + 1 + i from by omega]
      · intro k hPk hthere
        by_cases hkl : key last < k
        · obtain ⟨r, hr, e⟩ := e5 k (WithBot.coe_lt_coe.2 hkl) (fun i hi => by
            have := hthere (i + 1) (by simpa using hi)
            rwa [show t + (i + 1) = t + 1 + i from by omega] at this)
          exact ⟨r, by rw [List.flatten_cons]; exact List.mem_append_right _ hr, e⟩
        · obtain ⟨r, hr, rfl⟩ := hthere 0 (by simp)
          refine ⟨r, ?_, rfl⟩
          rw [List.flatten_cons]
          refine List.mem_append_left _ ?_
          have hin : r ∈ (data t).filter (after c) := List.mem_filter.2 ⟨by simpa using hr, (hP t r (by simpa using hr)).2 hPk⟩
          rw [← List.take_append_drop limit.toNat ((data t).filter (after c)), htake] at hin
          rcases List.mem_append.1 hin with h | h
          · exact h
          · exact absurd (hs3 last (by simp) r h) hkl
    · simp only [he, Bool.false_eq_true, if_false, Option.some.injEq] at h
      subst h
      refine ⟨[(data t).filter (after c)], rfl, ?_, ?_, ?_, ?_⟩
      · simpa using (hk.sorted t).filter _
      · intro r hr
        simp only [List.flatten_cons, List.flatten_nil, List.append_nil, List.mem_filter] at hr
        exact (hP t r hr.1).1 hr.2
      · intro i page hi r hr
        cases i with
        | zero =>
          simp only [List.getElem?_cons_zero, Option.some.injEq] at hi; subst hi
          exact (List.mem_filter.1 hr).1
        | succ i => simp at hi
      · intro k hPk hthere
        obtain ⟨r, hr, rfl⟩ := hthere 0 (by simp)
        refine ⟨r, ?_, rfl⟩
        simp only [List.flatten_cons, List.flatten_nil, List.append_nil, List.mem_filter]
        exact ⟨by simpa using hr, (hP t r (by simpa using hr)).2 hPk⟩

/-- **Cursors, while the table changes**: rows may be inserted, deleted and updated between the calls (not their keys).  If the client's loop
ends, then the rows it got have strictly increasing keys — no row twice —, every row was in the table when its page was asked for, and a row that
was in the table (under its key) at every call was shown. -/
theorem C117_cursor_shows_what_stays {K : Type} [LinearOrder K] (db : Nat → List (Arg V) → Answer R E) (conv : R → T) (cursor : T → Bytes)
    (data : Nat → List R) (after : Bytes → R → Bool) (key : R → K) (ask : Bytes → QArgs V) (limit : UInt32) (hl : limit ≠ 0)
    (hs : ∀ t, ServesCursor (db t) (data t) after ask limit) (hk : KeyedBy data after (fun r => cursor (conv r)) key)
    (start : Bytes) (hstart : ∀ t, ∀ r ∈ data t, after start r = true) (n : Nat) (pages : List (List T))
    (hf : followCursorAt (fun t c => execCursor (db t) (fun r => .ok (conv r)) cursor (ask c)) n 0 start = some pages) :
    ∃ shown : List (List R), pages = shown.map (·.map conv) ∧ (shown.flatten.Pairwise fun a b => key a < key b) ∧
      (∀ t (page : List R), shown[t]? = some page → ∀ r ∈ page, r ∈ data t) ∧
      (∀ k : K, (∀ t < pages.length, ∃ r ∈ data t, key r = k) → ∃ r ∈ shown.flatten, key r = k) := by
  obtain ⟨shown, h1, h2, -, h4, h5⟩ := followAt_shows db conv cursor data after key ask limit hl hs hk n 0 start ⊥ pages
    (fun t x hx => by simp [hstart t x hx, WithBot.bot_lt_coe]) hf
  refine ⟨shown, h1, h2, by simpa using h4, fun k hthere => h5 k (WithBot.bot_lt_coe k) ?_⟩
  intro i hi
  simpa using hthere i (by rw [h1]; simpa using hi)

theorem followAt_ends {K : Type} [LinearOrder K] (db : Nat → List (Arg V) → Answer R E) (conv : R → T) (cursor : T → Bytes) (data : Nat → List R)
    (after : Bytes → R → Bool) (key : R → K) (ask : Bytes → QArgs V) (limit : UInt32) (hl : limit ≠ 0)
    (hs : ∀ t, ServesCursor (db t) (data t) after ask limit) (hk : KeyedBy data after (fun r => cursor (conv r)) key) (U : Finset K)
    (hU : ∀ t, ∀ r ∈ data t, key r ∈ U) :
    ∀ (n t : Nat) (c : Bytes) (P : WithBot K), (∀ t, ∀ x ∈ data t, (after c x = true ↔ P < (key x : WithBot K))) →
      (U.filter fun k : K => P < (k : WithBot K)).card / limit.toNat < n →
      ∃ pages, followCursorAt (fun t c => execCursor (db t) (fun r => .ok (conv r)) cursor (ask c)) n t c = some pages ∧ pages.length ≤ n := by
  have hlpos : 0 < limit.toNat := Nat.pos_of_ne_zero fun h => hl (UInt32.toNat.inj (by simpa using h))
  intro n
  induction n with
  | zero => intro t c P _ h; exact absurd h (Nat.not_lt_zero _)
  | succ n ih =>
    intro t c P hP hn
    rw [followCursorAt]
    rcases cursor_call (K := K) (db t) conv cursor (data t) after ask limit hl (hs t) c with ⟨hm, front, last, htake, hlen, he⟩ | ⟨hm, next, he⟩
    · simp only [he, if_true]
      have hsort : ((data t).filter (after c)).Pairwise fun a b => key a < key b := (hk.sorted t).filter _
      rw [← List.take_append_drop limit.toNat ((data t).filter (after c)), htake] at hsort
      obtain ⟨hs1, -, -⟩ := List.pairwise_append.1 hsort
      have hfl : ∀ r ∈ front ++ [last], key r ≤ key last := by
        intro r hr
        rcases List.mem_append.1 hr with h | h
        · exact ((List.pairwise_append.1 hs1).2.2 r h last (by simp)).le
        · rw [List.mem_singleton.1 h]
      have hnd : ((front ++ [last]).map key).Nodup := by
        rw [List.Nodup, List.pairwise_map]
        exact hs1.imp fun h => ne_of_lt h
      have hcard : (U.filter fun k : K => (key last : WithBot K) < (k : WithBot K)).card + limit.toNat ≤ (U.filter fun k : K => P < (k : WithBot K)).card := by
        have e : limit.toNat = ((front ++ [last]).map key).toFinset.card := by
          rw [List.toFinset_card_of_nodup hnd]; simp [hlen]
        rw [e, ← Finset.card_union_of_disjoint]
        · apply Finset.card_le_card
          intro k hkk
          rcases Finset.mem_union.1 hkk with h | h
          · rw [Finset.mem_filter] at h ⊢
            refine ⟨h.1, lt_trans ?_ h.2⟩
            have hin : last ∈ (data t).filter (after c) := by
              apply List.mem_of_mem_take (i := limit.toNat); rw [htake]; simp
            rw [List.mem_filter] at hin
            exact (hP t last hin.1).1 hin.2
          · rw [List.mem_toFinset, List.mem_map] at h
            obtain ⟨r, hr, rfl⟩ := h
            have hin : r ∈ (data t).filter (after c) := by
              apply List.mem_of_mem_take (i := limit.toNat); rw [htake]; exact hr
            rw [List.mem_filter] at hin
            rw [Finset.mem_filter]
            exact ⟨hU t r hin.1, (hP t r hin.1).1 hin.2⟩
        · rw [Finset.disjoint_left]
          intro k h1 h2
          rw [Finset.mem_filter, WithBot.coe_lt_coe] at h1
          rw [List.mem_toFinset, List.mem_map] at h2
          obtain ⟨r, hr, rfl⟩ := h2
          exact absurd h1.2 (not_lt_of_ge (hfl r hr))
      obtain ⟨pages, h1, h2⟩ := ih (t + 1) (cursor (conv last)) (key last : WithBot K) (by
        intro t' x _
        have hin : last ∈ (data t).filter (after c) := by
          apply List.mem_of_mem_take (i := limit.toNat); rw [htake]; simp
        rw [hk.asks t last (List.mem_filter.1 hin).1 x, decide_eq_true_eq, WithBot.coe_lt_coe]) (by
        have : (U.filter fun k : K => (key last : WithBot K) < (k : WithBot K)).card / limit.toNat + 1 ≤ (U.filter fun k : K => P < (k : WithBot K)).card / limit.toNat := by
          rw [← Nat.add_div_right _ hlpos]
          exact Nat.div_le_div_right hcard
        omega)
      rw [h1]
      exact ⟨_, rfl, by simpa using h2⟩
    · simp only [he, Bool.false_eq_true, if_false]
      exact ⟨_, rfl, by simp⟩

/-- If the keys ever in the table are among finitely many, the loop ends after at most ⌊number of keys / limit⌋ + 1 calls. -/
theorem C117_cursor_ends {K : Type} [LinearOrder K] (db : Nat → List (Arg V) → Answer R E) (conv : R → T) (cursor : T → Bytes)
    (data : Nat → List R) (after : Bytes → R → Bool) (key : R → K) (ask : Bytes → QArgs V) (limit : UInt32) (hl : limit ≠ 0)
    (hs : ∀ t, ServesCursor (db t) (data t) after ask limit) (hk : KeyedBy data after (fun r => cursor (conv r)) key)
    (start : Bytes) (hstart : ∀ t, ∀ r ∈ data t, after start r = true) (U : Finset K) (hU : ∀ t, ∀ r ∈ data t, key r ∈ U) :
    ∃ pages, followCursorAt (fun t c => execCursor (db t) (fun r => .ok (conv r)) cursor (ask c)) (U.card / limit.toNat + 1) 0 start = some pages ∧
      pages.length ≤ U.card / limit.toNat + 1 := by
  apply followAt_ends db conv cursor data after key ask limit hl hs hk U hU _ 0 start ⊥
  · intro t x hx; simp [hstart t x hx, WithBot.bot_lt_coe]
  · have : (U.filter fun k : K => (⊥ : WithBot K) < (k : WithBot K)).card ≤ U.card := Finset.card_filter_le _ _
    have := Nat.div_le_div_right (c := limit.toNat) this
    omega

/-! ### Offsets -/

/-- The loop of a client that follows `NextOffset`; call number `t` is answered by `ask t`. -/
def followPagesAt (ask : Nat → UInt32 → PRes T E) : Nat → Nat → UInt32 → Option (List (List T))
  | 0, _, _ => none
  | fuel + 1, t, offset =>
    match ask t offset with
    | .set rows hasNext next => if hasNext then (followPagesAt ask fuel (t + 1) next).map fun ps => rows :: ps else some [rows]
    | _ => none

theorem pagesAt_shows (db : Nat → List (Arg V) → Answer R E) (conv : R → T) (data : Nat → List R) (ask : UInt32 → QArgs V) (limit : UInt32)
    (hl : limit ≠ 0) (hsize : ∀ t, (data t).length < 2 ^ 32) (hs : ∀ t, ServesPages (db t) (data t) ask limit) :
    ∀ (n t : Nat) (offset : UInt32) (pages : List (List T)), offset.toNat = t * limit.toNat →
      followPagesAt (fun t o => execPage (db t) (fun r => .ok (conv r)) (ask o)) n t offset = some pages →
      pages ≠ [] ∧ (∀ i (page : List T), pages[i]? = some page → page = (((data (t + i)).drop ((t + i) * limit.toNat)).take limit.toNat).map conv) ∧
        (∀ i, i + 1 < pages.length → (t + i + 1) * limit.toNat ≤ (data (t + i)).length) ∧
        ∃ last, pages.length = last + 1 ∧ (data (t + last)).length < (t + last + 1) * limit.toNat := by
  have hlpos : 0 < limit.toNat := Nat.pos_of_ne_zero fun h => hl (UInt32.toNat.inj (by simpa using h))
  have hllt : limit.toNat < 2 ^ 32 := limit.toNat_lt
  intro n
  induction n with
  | zero => intro t o pages _ h; simp [followPagesAt] at h
  | succ n ih =>
    intro t o pages ho h
    rw [followPagesAt] at h
    simp only [execPage_served (db t) conv (data t) ask limit (hs t) o] at h
    have hsz := hsize t
    have hplen : ((((data t).drop o.toNat).take limit.toNat).map conv).length = min limit.toNat ((data t).length - o.toNat) := by simp
    have hge : (UInt32.ofNat ((((data t).drop o.toNat).take limit.toNat).map conv).length ≥ limit) ↔ limit.toNat ≤ (data t).length - o.toNat := by
      rw [hplen, ge_iff_le, UInt32.le_iff_toNat_le]
      have : (UInt32.ofNat (min limit.toNat ((data t).length - o.toNat))).toNat = min limit.toNat ((data t).length - o.toNat) := by
        rw [UInt32.toNat_ofNat']; apply Nat.mod_eq_of_lt; omega
      rw [this]; omega
    have hsucc : (t + 1) * limit.toNat = t * limit.toNat + limit.toNat := Nat.succ_mul _ _
    by_cases hm : limit.toNat ≤ (data t).length - o.toNat
    · have hlen' : ((((data t).drop o.toNat).take limit.toNat).map conv).length = limit.toNat := by rw [hplen]; omega
      simp only [hge, hm, decide_true, if_true] at h
      obtain ⟨ps, h1, rfl⟩ := Option.map_eq_some_iff.1 h
      have hnext : (o + UInt32.ofNat ((((data t).drop o.toNat).take limit.toNat).map conv).length).toNat = o.toNat + limit.toNat := by
        rw [hlen', UInt32.toNat_add, UInt32.ofNat_toNat]; apply Nat.mod_eq_of_lt; omega
      obtain ⟨e0, e1, e2, last, e3, e4⟩ := ih (t + 1) _ ps (by rw [hnext, ho, hsucc]) h1
      refine ⟨by simp, ?_, ?_, last + 1, by simp [e3], ?_⟩
      · intro i page hi
        cases i with
        | zero => simp only [List.getElem?_cons_zero, Option.some.injEq] at hi; rw [← hi, Nat.add_zero, ho]
        | succ i =>
          rw [List.getElem?_cons_succ] at hi
          rw [e1 i page hi, show t + 1 + i = t + (i + 1) from by omega]
      · intro i hi
        cases i with
        | zero => show (t + 1) * limit.toNat ≤ (data t).length; rw [hsucc]; omega
        | succ i =>
          have := e2 i (by simpa using hi)
          rwa [show t + 1 + i = t + (i + 1) from by omega] at this
      · rwa [show t + (last + 1) = t + 1 + last from by omega]
    · simp only [hge, hm, decide_false, Bool.false_eq_true, if_false, Option.some.injEq] at h
      subst h
      refine ⟨by simp, ?_, by simp, 0, rfl, ?_⟩
      · intro i page hi
        cases i with
        | zero => simp only [List.getElem?_cons_zero, Option.some.injEq] at hi; rw [← hi, Nat.add_zero, ho]
        | succ i => simp at hi
      · rw [Nat.add_zero, hsucc]; omega

/-- **Offsets, while the table changes**: page `t` is the rows `t·limit … t·limit + limit - 1` of the table as it is at call `t`, whatever was
shown before. -/
theorem C117_offset_shows_positions (db : Nat → List (Arg V) → Answer R E) (conv : R → T) (data : Nat → List R) (ask : UInt32 → QArgs V)
    (limit : UInt32) (hl : limit ≠ 0) (hsize : ∀ t, (data t).length < 2 ^ 32) (hs : ∀ t, ServesPages (db t) (data t) ask limit) (n : Nat)
    (pages : List (List T)) (hf : followPagesAt (fun t o => execPage (db t) (fun r => .ok (conv r)) (ask o)) n 0 0 = some pages) :
    ∀ t (page : List T), pages[t]? = some page → page = (((data t).drop (t * limit.toNat)).take limit.toNat).map conv := by
  obtain ⟨-, h, -⟩ := pagesAt_shows db conv data ask limit hl hsize hs n 0 0 pages (by simp) hf
  simpa using h

/-- Windows put side by side. -/
theorem windows_flatten {α : Type} (rows : List α) (l : Nat) : ∀ (pages : List (List α)) (s : Nat),
    (∀ i (page : List α), pages[i]? = some page → page = (rows.drop ((s + i) * l)).take l) → rows.length ≤ (s + pages.length) * l →
    pages.flatten = rows.drop (s * l) := by
  intro pages
  induction pages with
  | nil => intro s _ h; rw [List.drop_eq_nil_of_le (by simpa using h)]; rfl
  | cons p ps ih =>
    intro s h hlen
    rw [List.flatten_cons, ih (s + 1) (fun i page hi => by
      have := h (i + 1) page (by simpa using hi)
      rwa [show s + (i + 1) = s + 1 + i from by omega] at this) (by rw [List.length_cons] at hlen; rwa [show s + 1 + ps.length = s + (ps.length + 1) from by omega])]
    have h0 := h 0 p (by simp)
    rw [h0, Nat.add_zero, Nat.succ_mul, ← List.drop_drop, List.take_append_drop]

/-- If rows are only added at the end, nothing is missed and nothing is shown twice: the pages are the table as it was at the last call. -/
theorem C117_offset_appends_only (db : Nat → List (Arg V) → Answer R E) (conv : R → T) (data : Nat → List R) (ask : UInt32 → QArgs V)
    (limit : UInt32) (hl : limit ≠ 0) (hsize : ∀ t, (data t).length < 2 ^ 32) (hs : ∀ t, ServesPages (db t) (data t) ask limit)
    (hgrow : ∀ t, data t <+: data (t + 1)) (n : Nat) (pages : List (List T))
    (hf : followPagesAt (fun t o => execPage (db t) (fun r => .ok (conv r)) (ask o)) n 0 0 = some pages) :
    pages.flatten = (data (pages.length - 1)).map conv := by
  obtain ⟨-, h1, h2, last, h3, h4⟩ := pagesAt_shows db conv data ask limit hl hsize hs n 0 0 pages (by simp) hf
  have hpre : ∀ d i, data i <+: data (i + d) := by
    intro d
    induction d with
    | zero => intro i; exact List.prefix_refl _
    | succ d ih => intro i; exact (ih i).trans (hgrow (i + d))
  rw [h3, Nat.add_sub_cancel]
  have := windows_flatten ((data last).map conv) limit.toNat pages 0 (by
    intro i page hi
    have hlt : i < pages.length := (List.getElem?_eq_some_iff.1 hi).1
    rw [h1 i page hi, Nat.zero_add, ← List.map_drop, ← List.map_take]
    congr 1
    by_cases hil : i = last
    · rw [hil]
    · have hfull := h2 i (by omega)
      rw [Nat.zero_add] at hfull
      obtain ⟨d, rfl⟩ : ∃ d, last = i + d := ⟨last - i, by omega⟩
      obtain ⟨tail, ht⟩ := hpre d i
      rw [← ht]
      rw [Nat.succ_mul] at hfull
      rw [List.drop_append_of_le_length (by omega), List.take_append_of_le_length (by rw [List.length_drop]; omega)]) (by
    rw [List.length_map, h3]; simp only [Nat.zero_add] at h4 ⊢; omega)
  simpa using this

/-- If the table changes once, after the first page, the client sees the first page of the old table and then the new table from position `limit` on. -/
theorem C117_offset_after_one_change (db : Nat → List (Arg V) → Answer R E) (conv : R → T) (old new : List R) (ask : UInt32 → QArgs V)
    (limit : UInt32) (hl : limit ≠ 0) (ho : old.length < 2 ^ 32) (hn : new.length < 2 ^ 32) (hfull : limit.toNat ≤ old.length)
    (h0 : ServesPages (db 0) old ask limit) (hs : ∀ t, 0 < t → ServesPages (db t) new ask limit) (n : Nat) (pages : List (List T))
    (hf : followPagesAt (fun t o => execPage (db t) (fun r => .ok (conv r)) (ask o)) n 0 0 = some pages) :
    pages.flatten = (old.take limit.toNat ++ new.drop limit.toNat).map conv := by
  have hs' : ∀ t, ServesPages (db t) (if t = 0 then old else new) ask limit := by
    intro t
    by_cases ht : t = 0
    · subst ht; simpa using h0
    · simpa [ht] using hs t (by omega)
  obtain ⟨-, h1, h2, last, h3, h4⟩ := pagesAt_shows db conv (fun t => if t = 0 then old else new) ask limit hl (fun t => by by_cases ht : t = 0 <;> simp only [ht, if_true, if_false] <;> assumption) hs' n 0 0 pages (by simp) hf
  cases pages with
  | nil => simp at h3
  | cons p ps =>
    have hp := h1 0 p (by simp)
    simp only [Nat.zero_add, Nat.zero_mul, List.drop_zero, if_true] at hp
    have hlast : last ≠ 0 := by
      rintro rfl
      simp only [Nat.zero_add, if_true, Nat.one_mul] at h4
      omega
    have := windows_flatten (new.map conv) limit.toNat ps 1 (by
      intro i page hi
      have := h1 (i + 1) page (by simpa using hi)
      rw [if_neg (by omega)] at this
      rw [this, ← List.map_drop, ← List.map_take, show 0 + (i + 1) = 1 + i from by omega]) (by
      rw [List.length_map]
      rw [if_neg (by omega)] at h4
      rw [List.length_cons] at h3
      rw [show 1 + ps.length = last + 1 from by omega]
      simp only [Nat.zero_add] at h4; omega)
    rw [List.flatten_cons, this, hp, List.map_append, Nat.one_mul, ← List.map_drop]

/-- A row that is there all the time is missed when a row of a page already shown is deleted. -/
theorem C117_offset_misses_a_row (db : Nat → List (Arg V) → Answer R E) (conv : R → T) (pre mid post : List R) (x y : R) (ask : UInt32 → QArgs V)
    (limit : UInt32) (hl : limit.toNat = pre.length + 1 + mid.length) (hsize : (pre ++ x :: mid ++ y :: post).length < 2 ^ 32)
    (h0 : ServesPages (db 0) (pre ++ x :: mid ++ y :: post) ask limit) (hs : ∀ t, 0 < t → ServesPages (db t) (pre ++ mid ++ y :: post) ask limit)
    (n : Nat) (pages : List (List T)) (hf : followPagesAt (fun t o => execPage (db t) (fun r => .ok (conv r)) (ask o)) n 0 0 = some pages) :
    pages.flatten = (pre ++ x :: mid ++ post).map conv := by
  have hl0 : limit ≠ 0 := by
    rintro rfl
    have : (0 : UInt32).toNat = 0 := rfl
    omega
  have hlen : limit.toNat = (pre ++ x :: mid).length := by rw [hl]; simp; omega
  rw [C117_offset_after_one_change db conv (pre ++ x :: mid ++ y :: post) (pre ++ mid ++ y :: post) ask limit hl0 hsize (by
      simp only [List.length_append, List.length_cons] at hsize ⊢; omega) (by rw [hlen]; simp) h0 hs n pages hf]
  congr 1
  have e1 : (pre ++ x :: mid ++ y :: post).take limit.toNat = pre ++ x :: mid := by rw [hlen]; exact List.take_left
  have e2 : (pre ++ mid ++ y :: post).drop limit.toNat = post := by
    rw [show pre ++ mid ++ y :: post = (pre ++ mid ++ [y]) ++ post from by simp, show limit.toNat = (pre ++ mid ++ [y]).length from by rw [hl]; simp; omega]
    exact List.drop_left
  rw [e1, e2]

/-- A row is shown twice when a row is inserted before it after its page was shown. -/
theorem C117_offset_shows_a_row_twice (db : Nat → List (Arg V) → Answer R E) (conv : R → T) (pre post : List R) (x y : R) (ask : UInt32 → QArgs V)
    (limit : UInt32) (hl : limit.toNat = pre.length + 1) (hsize : (x :: pre ++ y :: post).length < 2 ^ 32)
    (h0 : ServesPages (db 0) (pre ++ y :: post) ask limit) (hs : ∀ t, 0 < t → ServesPages (db t) (x :: pre ++ y :: post) ask limit)
    (n : Nat) (pages : List (List T)) (hf : followPagesAt (fun t o => execPage (db t) (fun r => .ok (conv r)) (ask o)) n 0 0 = some pages) :
    pages.flatten = (pre ++ y :: y :: post).map conv := by
  have hl0 : limit ≠ 0 := by
    rintro rfl
    have : (0 : UInt32).toNat = 0 := rfl
    omega
  rw [C117_offset_after_one_change db conv (pre ++ y :: post) (x :: pre ++ y :: post) ask limit hl0 (by
      simp only [List.length_append, List.length_cons] at hsize ⊢; omega) hsize (by rw [hl]; simp) h0 hs n pages hf]
  congr 1
  have e1 : (pre ++ y :: post).take limit.toNat = pre ++ [y] := by
    rw [show pre ++ y :: post = (pre ++ [y]) ++ post from by simp, show limit.toNat = (pre ++ [y]).length from by rw [hl]; simp]
    exact List.take_left
  have e2 : (x :: pre ++ y :: post).drop limit.toNat = y :: post := by
    rw [show limit.toNat = (x :: pre).length from by rw [hl]; simp]
    exact List.drop_left
  rw [e1, e2]; simp

/-- A loop over a table that never stops growing need not end: here `limit` rows are added before each call. -/
theorem C117_cursor_may_never_end (limit : UInt32) (hl : limit ≠ 0) (hlt : limit.toNat < 2 ^ 31) :
    let data : Nat → List Nat := fun t => (List.range ((t + 1) * limit.toNat)).map (· + 1)
    let ask : Bytes → QArgs Bytes := fun c => .plain [.other c, .u32 limit]
    KeyedBy data afterDec Num.dec id ∧ (∀ t, ServesCursor (cursorDb (data t)) (data t) afterDec ask limit) ∧
    ∀ n, followCursorAt (fun t c => execCursor (cursorDb (data t)) (fun r => .ok r) Num.dec (ask c)) n 0 (Num.dec 0) = none := by
  intro data ask
  have hk : KeyedBy data afterDec Num.dec id := by
    refine ⟨fun t => ?_, fun t r _ x => ?_⟩
    · show ((List.range ((t + 1) * limit.toNat)).map (· + 1)).Pairwise _
      rw [List.pairwise_map]
      exact List.pairwise_lt_range.imp fun h => by simpa using h
    · simp [afterDec, Num.dec, Num.parse_fmtNat 10 (by omega) (by omega)]
  have hs : ∀ t, ServesCursor (cursorDb (data t)) (data t) afterDec ask limit :=
    fun t c => ⟨[.other c, .u32 limit], ⟨rfl, [], _, _, rfl, .u32 limit⟩, rfl⟩
  refine ⟨hk, hs, ?_⟩
  have main : ∀ n t, followCursorAt (fun t c => execCursor (cursorDb (data t)) (fun r => .ok r) Num.dec (ask c)) n t (Num.dec (t * limit.toNat)) = none := by
    intro n
    induction n with
    | zero => intro t; rfl
    | succ n ih =>
      intro t
      have hf : (data t).filter (afterDec (Num.dec (t * limit.toNat))) = (List.range limit.toNat).map fun i => t * limit.toNat + i + 1 := by
        have e : ∀ x, afterDec (Num.dec (t * limit.toNat)) x = decide (t * limit.toNat < x) := fun x => by simp [afterDec, Num.dec, Num.parse_fmtNat 10 (by omega) (by omega)]
        show ((List.range ((t + 1) * limit.toNat)).map (· + 1)).filter _ = _
        rw [Nat.succ_mul, List.range_add, List.map_append, List.filter_append]
        rw [List.filter_eq_nil_iff.2 (by
          intro x hx
          obtain ⟨i, hi, rfl⟩ := List.mem_map.1 hx
          rw [List.mem_range] at hi
          rw [e, decide_eq_true_eq]; omega), List.nil_append, List.map_map]
        rw [List.filter_eq_self.2 (by
          intro x hx
          obtain ⟨i, hi, rfl⟩ := List.mem_map.1 hx
          rw [e, decide_eq_true_eq]; simp only [Function.comp]; omega)]
        rfl
      rw [followCursorAt]
      rcases cursor_call (K := Nat) (cursorDb (data t)) id Num.dec (data t) afterDec ask limit hl (hs t) (Num.dec (t * limit.toNat)) with ⟨hm, front, last, htake, hlen, he⟩ | ⟨hm, next, he⟩
      · have he' : execCursor (cursorDb (data t)) (fun r => .ok r) Num.dec (ask (Num.dec (t * limit.toNat))) = .set ((front ++ [last]).map id) true (Num.dec (id last)) := he
        have hlast : last = (t + 1) * limit.toNat := by
          rw [hf, List.take_of_length_le (by simp)] at htake
          have := congrArg List.getLast? htake
          rw [List.getLast?_append, List.getLast?_singleton, Option.some_or, List.getLast?_map, List.getLast?_range] at this
          have hpos : limit.toNat ≠ 0 := by omega
          rw [if_neg hpos, Option.map_some, Option.some.injEq] at this
          rw [← this, Nat.succ_mul]; omega
        simp only [he', if_true, id]
        rw [hlast, ih (t + 1)]
        rfl
      · rw [hf] at hm; simp at hm
  intro n
  simpa using main n 0

/-! ### Cursors made with `EncodeCursor` -/

open Types in
/-- Keys of up to 2^53 carried as numbers: what the client receives is strictly increasing, contains only rows that were in the table, and contains every key that was in the table
at every call. -/
theorem C117_number_cursors (hex : Bytes → Option Dbl) (db : Nat → List (Arg V) → Answer Nat E) (data : Nat → List Nat) (hd : ∀ t, (data t).Pairwise (· < ·))
    (hsmall : ∀ t, ∀ r ∈ data t, 0 < r ∧ r ≤ 2 ^ 53) (ask : Bytes → QArgs V) (limit : UInt32) (hl : limit ≠ 0) (hs : ∀ t, ServesCursor (db t) (data t) (afterKey hex) ask limit)
    (n : Nat) (pages : List (List Nat))
    (hf : followCursorAt (fun t c => execCursor (db t) (fun r => .ok r) numCursor (ask c)) n 0 (numCursor 0) = some pages) :
    pages.flatten.Pairwise (· < ·) ∧ (∀ t (page : List Nat), pages[t]? = some page → ∀ r ∈ page, r ∈ data t) ∧ ∀ k, (∀ t < pages.length, k ∈ data t) → k ∈ pages.flatten := by
  obtain ⟨shown, h1, h2, h3, h4⟩ := C117_cursor_shows_what_stays db id numCursor data (afterKey hex) id ask limit hl hs
    ⟨hd, fun t r hr x => by simp only [id, afterKey, after_small hex r (hsmall t r hr).2]⟩ (numCursor 0)
    (fun t r hr => by simp only [afterKey, after_small hex 0 (by decide), decide_eq_true_eq]; exact (hsmall t r hr).1) n pages hf
  have e : pages = shown := by simpa using h1
  subst e
  exact ⟨h2, h3, fun k hk => by simpa using h4 k fun t ht => ⟨k, hk t ht, rfl⟩⟩

open Types in
/-- The same for every 64-bit key carried as text. -/
theorem C117_text_cursors (hex : Bytes → Option Dbl) (db : Nat → List (Arg V) → Answer Nat E) (data : Nat → List Nat) (hd : ∀ t, (data t).Pairwise (· < ·))
    (hkeys : ∀ t, ∀ r ∈ data t, 0 < r ∧ r < 2 ^ 64) (ask : Bytes → QArgs V) (limit : UInt32) (hl : limit ≠ 0) (hs : ∀ t, ServesCursor (db t) (data t) (afterKey hex) ask limit)
    (n : Nat) (pages : List (List Nat))
    (hf : followCursorAt (fun t c => execCursor (db t) (fun r => .ok r) textCursor (ask c)) n 0 (textCursor 0) = some pages) :
    pages.flatten.Pairwise (· < ·) ∧ (∀ t (page : List Nat), pages[t]? = some page → ∀ r ∈ page, r ∈ data t) ∧ ∀ k, (∀ t < pages.length, k ∈ data t) → k ∈ pages.flatten := by
  obtain ⟨shown, h1, h2, h3, h4⟩ := C117_cursor_shows_what_stays db id textCursor data (afterKey hex) id ask limit hl hs
    ⟨hd, fun t r hr x => by simp only [id, afterKey, after_text hex r (hkeys t r hr).2]⟩ (textCursor 0)
    (fun t r hr => by simp only [afterKey, after_text hex 0 (by decide), decide_eq_true_eq]; exact (hkeys t r hr).1) n pages hf
  have e : pages = shown := by simpa using h1
  subst e
  exact ⟨h2, h3, fun k hk => by simpa using h4 k fun t ht => ⟨k, hk t ht, rfl⟩⟩

/-! Concrete tables: a row is inserted before the cursor (5), one deleted (8), one inserted after it (10). -/

def moving : Nat → List Nat
  | 0 => [3, 6, 8, 9, 11]
  | 1 => [3, 5, 6, 9, 10, 11]
  | _ => [3, 5, 6, 9, 10, 11, 12]

example : KeyedBy moving afterDec Num.dec id :=
  ⟨fun t => by rcases t with _ | _ | t <;> simp [moving], fun t r _ x => by simp [afterDec, Num.dec, Num.parse_fmtNat 10 (by omega) (by omega)]⟩
example (t : Nat) : ServesCursor (cursorDb (moving t)) (moving t) afterDec (fun c => .plain [.other c, .u32 2]) 2 :=
  fun c => ⟨[.other c, .u32 2], ⟨rfl, [], _, _, rfl, .u32 2⟩, rfl⟩
example : ∀ t, ∀ r ∈ moving t, r ∈ Finset.range 13 := by intro t r hr; rcases t with _ | _ | t <;> simp [moving] at hr ⊢ <;> omega
example : followCursorAt (fun t c => execCursor (cursorDb (moving t)) (fun r => .ok r) Num.dec (.plain [.other c, .u32 2])) 9 0 b!"0" =
    some [[3, 6], [9, 10], [11, 12], []] := by decide +kernel
/-- The same table with offsets: 9 is shown twice because 5 was inserted, …  -/
example : followPagesAt (fun t o => execPage (tableDb (moving t)) (fun r => .ok r) (.plain [.u32 2, .u32 o])) 9 0 0 =
    some [[3, 6], [6, 9], [10, 11], [12]] := by decide +kernel
/-- … and here 8 is missed because 3 was deleted. -/
example : followPagesAt (fun t o => execPage (tableDb (if t = 0 then [3, 6, 8, 9] else [6, 8, 9])) (fun r => .ok r) (.plain [.u32 2, .u32 o])) 9 0 0 =
    some [[3, 6], [9]] := by decide +kernel

end Query
