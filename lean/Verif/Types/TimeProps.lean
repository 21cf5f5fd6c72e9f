import Verif.Types.TimeLemmas
set_option linter.unusedSimpArgs false
set_option linter.unusedVariables false
/-! Property C48: `xdb.Time`. -/
namespace Types.Tm

theorem floorMs (n : Int) : Spec.IsFloorMs n (n - n % milli) := by
  refine ⟨⟨n / 1000000, ?_⟩, ?_, ?_⟩ <;> simp only [milli] <;> omega

/-- The millisecond boundary is unique. -/
theorem isFloorMs_unique {n a b : Int} (ha : Spec.IsFloorMs n a) (hb : Spec.IsFloorMs n b) : a = b := by
  obtain ⟨⟨k, rfl⟩, h1, h2⟩ := ha
  obtain ⟨⟨j, rfl⟩, h3, h4⟩ := hb
  omega

/-- C48 (construction): `Now`, `UTC`, `FromNow`, `Add` give, in UTC, the last millisecond not after the exact instant. -/
theorem C48_whole_ms (t : GoTime) (d : Int64) :
    Spec.IsFloorMs t.ns (utcOf t).ns ∧ (utcOf t).off = 0
    ∧ Spec.IsFloorMs (t.ns + d.toInt) (fromNow t d).ns ∧ (fromNow t d).off = 0
    ∧ Spec.IsFloorMs (t.ns + d.toInt) (add t d).ns ∧ (add t d).off = 0 :=
  ⟨floorMs _, rfl, floorMs _, rfl, floorMs _, rfl⟩

/-- C48 (adding): adding zero keeps a whole-millisecond time; a whole number of milliseconds is added exactly, and then
adding in two steps is adding once; in general two steps fall short of one step by at most one millisecond; a longer duration
never gives an earlier time. -/
theorem C48_add (t : GoTime) (a b : Int64) (ht : Spec.WholeMs t.ns) :
    (add t 0).ns = t.ns
    ∧ (Spec.WholeMs a.toInt → (add t a).ns = t.ns + a.toInt)
    ∧ (∀ c : Int64, c.toInt = a.toInt + b.toInt →
        ((add (add t a) b).ns ≤ (add t c).ns ∧ (add t c).ns ≤ (add (add t a) b).ns + 1000000
          ∧ (Spec.WholeMs a.toInt → add (add t a) b = add t c)))
    ∧ (a.toInt ≤ b.toInt → (add t a).ns ≤ (add t b).ns) := by
  obtain ⟨k, hk⟩ := ht
  have h0 : (0 : Int64).toInt = 0 := rfl
  refine ⟨?_, ?_, ?_, ?_⟩
  · simp only [add, GoTime.add, GoTime.truncate, GoTime.utc, milli, h0]; omega
  · rintro ⟨j, hj⟩
    simp only [add, GoTime.add, GoTime.truncate, GoTime.utc, milli]; omega
  · intro c hc
    refine ⟨?_, ?_, ?_⟩
    · simp only [add, GoTime.add, GoTime.truncate, GoTime.utc, milli]; omega
    · simp only [add, GoTime.add, GoTime.truncate, GoTime.utc, milli]; omega
    · rintro ⟨j, hj⟩
      simp only [add, GoTime.add, GoTime.truncate, GoTime.utc, milli, GoTime.mk.injEq, and_true]; omega
  · intro h
    simp only [add, GoTime.add, GoTime.truncate, GoTime.utc, milli]; omega

/-- C48 (Unix milliseconds): for every int64 `x`, `FromUnixMilli(x)` is the instant `x` milliseconds from 1970-01-01T00:00:00Z,
in UTC, whatever the local zone, and `UnixMilli` gives `x` back; conversely a whole-millisecond time survives `UnixMilli` then
`FromUnixMilli` when its milliseconds fit an int64. -/
theorem C48_unix_milli (off : Int) (x : Int64) (t : GoTime) :
    (fromUnixMilli off x).ns = (⟨1970, 1, 1, 0, 0, 0, [], none⟩ : Spec.Fields).instant + x.toInt * 1000000
    ∧ (fromUnixMilli off x).off = 0
    ∧ unixMilli (fromUnixMilli off x) = x
    ∧ (Spec.WholeMs t.ns →
        -(2 ^ 63) * 1000000 ≤ t.ns - (⟨1970, 1, 1, 0, 0, 0, [], none⟩ : Spec.Fields).instant →
        t.ns - (⟨1970, 1, 1, 0, 0, 0, [], none⟩ : Spec.Fields).instant < 2 ^ 63 * 1000000 →
        fromUnixMilli off (unixMilli t) = t.utc) := by
  have he : (⟨1970, 1, 1, 0, 0, 0, [], none⟩ : Spec.Fields).instant = epoch := by
    simp only [Spec.Fields.instant, Spec.Fields.offset, ← daysToYear_eq]; decide
  have key : ∀ x : Int64, (fromUnixMilli off x).ns = epoch + x.toInt * 1000000 := by
    intro x
    have h1 : (x / 1000).toInt = x.toInt.tdiv 1000 := by
      rw [Int64.toInt_div]
      have := x.toInt_lt; have := x.le_toInt
      have h1000 : (1000 : Int64).toInt = 1000 := rfl
      rw [h1000, Int.bmod_def]
      have : x.toInt.tdiv 1000 = if 0 ≤ x.toInt then x.toInt / 1000 else -((-x.toInt) / 1000) := by
        split
        · exact Int.tdiv_eq_ediv_of_nonneg ‹_›
        · rw [show x.toInt = -(-x.toInt) by omega, Int.neg_tdiv, Int.tdiv_eq_ediv_of_nonneg (by omega)]; simp
      rw [this]
      split <;> split <;> omega
    have h2 : (x % 1000).toInt = x.toInt.tmod 1000 := by
      rw [Int64.toInt_mod]; rfl
    have hm : x.toInt.tmod 1000 = x.toInt - 1000 * x.toInt.tdiv 1000 := by
      have := Int.mul_tdiv_add_tmod x.toInt 1000; omega
    have hb : -1000 < x.toInt.tmod 1000 ∧ x.toInt.tmod 1000 < 1000 := by
      have a1 := Int.tmod_lt_of_pos x.toInt (show (0 : Int) < 1000 by decide)
      have a2 := Int.lt_tmod_of_pos x.toInt (show (0 : Int) < 1000 by decide)
      omega
    have h3 : (x % 1000 * 1000000).toInt = x.toInt.tmod 1000 * 1000000 := by
      rw [Int64.toInt_mul, h2]
      have : (1000000 : Int64).toInt = 1000000 := rfl
      rw [this, Int.bmod_def]
      split <;> omega
    simp only [fromUnixMilli, unix, GoTime.utc, h1, h3, hm]
    omega
  rw [he]
  refine ⟨key x, rfl, ?_, ?_⟩
  · simp only [unixMilli, GoTime.unixMilli, key, milli]
    have : (epoch + x.toInt * 1000000 - epoch) / 1000000 = x.toInt := by omega
    rw [this, Int64.ofInt_toInt]
  · rintro ⟨k, hk⟩ hlo hhi
    have hx : (unixMilli t).toInt = (t.ns - epoch) / 1000000 := by
      simp only [unixMilli, GoTime.unixMilli, milli]
      rw [Int64.toInt_ofInt, Int.bmod_def, show Int64.size = 18446744073709551616 from rfl]
      split <;> omega
    have hns := key (unixMilli t)
    rw [hx] at hns
    have he6 : epoch = 62135596800000 * 1000000 := rfl
    have : (fromUnixMilli off (unixMilli t)).ns = t.ns := by rw [hns]; omega
    show (⟨_, 0⟩ : GoTime) = ⟨t.ns, 0⟩
    rw [show (fromUnixMilli off (unixMilli t)) = ⟨(fromUnixMilli off (unixMilli t)).ns, 0⟩ from rfl] at *
    simp only [GoTime.mk.injEq, and_true]
    exact this

/-- C48 (storage): a time is stored as NULL iff it is the zero time; a database keeping `p` nanoseconds precision, `p` dividing a
millisecond, and returning the instant in any zone gives a whole-millisecond time back unchanged, in UTC; NULL is read back as the zero
time, replacing what the variable held; a refused value leaves the variable alone. -/
theorem C48_storage (fb : Layout → Bytes → Option GoTime) (t old : GoTime) :
    (value t = .null ↔ t.ns = 0)
    ∧ (∀ (p : Int) (store : Int → Int) (zone : Int), p ∣ 1000000 → (∀ n, p ∣ n → store n = n) → Spec.WholeMs t.ns →
        ∀ r, (∀ u, value t = .time u → r = .time ⟨store u.ns, zone⟩) → (value t = .null → r = .null) →
          scan fb old r = (t.utc, true))
    ∧ scan fb old .null = (zero, true)
    ∧ scan fb old .other = (old, false) := by
  refine ⟨?_, ?_, rfl, rfl⟩
  · simp only [value, GoTime.isZero, beq_iff_eq]; by_cases h : t.ns = 0 <;> simp [h]
  · rintro p store zone hp hs ⟨k, hk⟩ r h1 h2
    unfold value at h1 h2
    by_cases hz : t.isZero = true
    · rw [if_pos hz] at h1 h2
      rw [h2 rfl]
      simp only [GoTime.isZero, beq_iff_eq] at hz
      simp [scan, zero, GoTime.utc, hz]
    · rw [if_neg hz] at h1 h2
      rw [h1 _ rfl]
      have : p ∣ t.ns := by rw [hk]; exact Int.dvd_mul_of_dvd_right hp
      simp [scan, GoTime.utc, hs _ this]

/-- **C48**: `Ptr` (and `TimePtr`) is nil exactly for the zero instant and otherwise points to the same instant in UTC. -/
theorem C48_ptr (t : GoTime) : (Tm.ptr t = none ↔ t.ns = 0) ∧ (t.ns ≠ 0 → Tm.ptr t = some ⟨t.ns, 0⟩) := by
  unfold Tm.ptr GoTime.isZero GoTime.utc
  by_cases h : t.ns = 0 <;> simp [h]

/-- C48 (printing): the text is empty iff the time is zero; for the years 1 to 9999 it is the RFC 3339 text, in UTC with at most three
fraction digits, of the last millisecond not after the time; reading it back, as text or from a text column, gives that millisecond. -/
theorem C48_string (fb : Layout → Bytes → Option GoTime) (t old : GoTime) :
    (string t = [] ↔ t.ns = 0)
    ∧ (Spec.InRange t.ns → t.ns ≠ 0 → ∃ f : Spec.Fields, f.Valid ∧ f.zone = none ∧ f.frac.length ≤ 3
        ∧ f.frac.getLast? ≠ some c!"0" ∧ string t = f.text ∧ Spec.IsFloorMs t.ns f.instant)
    ∧ (Spec.InRange t.ns → ∃ r, parseTime fb (string t) = ⟨r, 0⟩ ∧ Spec.IsFloorMs t.ns r
        ∧ scan fb old (.text (string t)) = (⟨r, 0⟩, true)) := by
  have hz : t.utc.isZero = true ↔ t.ns = 0 := by simp [GoTime.utc, GoTime.isZero]
  have hfmt : Spec.InRange t.ns → t.ns ≠ 0 → ∃ f : Spec.Fields, f.Valid ∧ f.zone = none ∧ f.frac.length ≤ 3
        ∧ f.frac.getLast? ≠ some c!"0" ∧ string t = f.text ∧ Spec.IsFloorMs t.ns f.instant := by
    intro hr hne
    obtain ⟨f, f1, f2, f3, f4, f5, f6, -⟩ := format_spec 3 (Or.inl rfl) t.ns hr
    refine ⟨f, f1, f2, f3, f4, ?_, ?_⟩
    · rw [string, if_neg (by rw [hz]; exact hne), f5]
    · rw [f6]; exact floorMs t.ns
  refine ⟨?_, hfmt, ?_⟩
  · unfold string
    split
    · rename_i h; simp [hz.1 h]
    · rename_i h
      rw [hz] at h
      simp only [h, iff_false]
      simp [format]
  · intro hr
    by_cases hne : t.ns = 0
    · refine ⟨0, ?_, ?_, ?_⟩
      · rw [string, if_pos (hz.2 hne)]; rfl
      · rw [hne]; exact ⟨⟨0, rfl⟩, by decide, by decide⟩
      · rw [string, if_pos (hz.2 hne)]; rfl
    · obtain ⟨f, f1, f2, f3, f4, f5, f6⟩ := hfmt hr hne
      have hp := parseRFC3339_text f f1
      have hlen : f.text.length = 20 + (if f.frac = [] then 0 else 1 + f.frac.length) := by
        simp only [Spec.Fields.text, Spec.Fields.zoneText, f2, List.length_append, (fourtwo f).1, (fourtwo f).2]
        split <;> simp <;> omega
      have hpt : parseTime fb f.text = ⟨f.instant, 0⟩ := by
        have hne' : f.text ≠ [] := by intro h; rw [h] at hlen; simp at hlen; omega
        have l1 : ¬ f.text.length = 29 := by rw [hlen]; split <;> omega
        have l2 : ¬ f.text.length = 25 := by rw [hlen]; split <;> omega
        have l3 : ¬ f.text.length = 19 := by rw [hlen]; split <;> omega
        have l4 : ¬ f.text.length = 10 := by rw [hlen]; split <;> omega
        obtain ⟨k, hk⟩ := f6.1
        simp only [parseTime, if_neg hne', if_neg l1, if_neg l2, if_neg l3, if_neg l4, parse, hp, Option.some_or, Option.getD_some,
          GoTime.truncate, GoTime.utc, milli, GoTime.mk.injEq, and_true]
        omega
      rw [f5]
      exact ⟨f.instant, hpt, f6, by rw [scan, hpt]⟩

/-- C48 (reading texts, partial): a text column or argument holding an RFC 3339 text of any zone and any fraction, a date and time
`YYYY-MM-DD HH:MM:SS`, or a date `YYYY-MM-DD`, is read as the last millisecond not after the instant it denotes, in UTC.
Missing: a text of an unknown format is not reported, see `C48_unknown_text_swallowed`. -/
theorem C48_parse_partial (fb : Layout → Bytes → Option GoTime) (f : Spec.Fields) (hv : f.Valid) (old : GoTime) :
    (∃ r, scan fb old (.text f.text) = (⟨r, 0⟩, true) ∧ Spec.IsFloorMs f.instant r)
    ∧ (f.frac = [] → f.zone = none →
        scan fb old (.text (f.date ++ b!" " ++ f.clock)) = (⟨f.instant, 0⟩, true))
    ∧ (f.frac = [] → f.zone = none → f.h = 0 → f.mi = 0 → f.s = 0 →
        scan fb old (.text f.date) = (⟨f.instant, 0⟩, true)) := by
  refine ⟨?_, ?_, ?_⟩
  · have hp := parseRFC3339_text f hv
    have hlen : 20 ≤ f.text.length := by
      simp only [Spec.Fields.text, Spec.Fields.zoneText, List.length_append, (fourtwo f).1, (fourtwo f).2]
      rcases f.zone with _ | ⟨e, hr, mm⟩ <;> simp <;> omega
    have hne' : f.text ≠ [] := by intro h; rw [h] at hlen; simp at hlen
    refine ⟨f.instant - f.instant % milli, ?_, floorMs _⟩
    simp only [scan, parseTime, if_neg hne']
    have hpl : ∀ l, l = Layout.dflt ∨ l = .rfc3339 ∨ l = .rfc3339Nano → parse fb l f.text = some ⟨f.instant, f.offset⟩ := by
      rintro l (rfl | rfl | rfl) <;> simp [parse, hp]
    rw [if_neg (by omega : ¬ f.text.length = 19), if_neg (by omega : ¬ f.text.length = 10)]
    rw [hpl _ (by split; · exact Or.inl rfl
                  · split; · exact Or.inr (Or.inl rfl)
                    · exact Or.inr (Or.inr rfl))]
    rfl
  · intro h1 h2
    have hp := parseDateTime_text c!" " f hv []
    rw [List.append_nil] at hp
    have hlen : (f.date ++ b!" " ++ f.clock).length = 19 := by
      simp only [List.length_append, (fourtwo f).1, (fourtwo f).2]; rfl
    have hne' : f.date ++ b!" " ++ f.clock ≠ [] := by intro h; rw [h] at hlen; simp at hlen
    have hi : f.instant = ((Spec.yearStart f.y + Spec.monthStart f.y f.mo + f.d - 1) * 86400 + f.h * 3600 + f.mi * 60 + f.s) * 1000000000 := by
      simp only [Spec.Fields.instant, Spec.Fields.offset, h1, h2, Spec.nanos]; omega
    rw [← hi] at hp
    simp only [scan, parseTime, if_neg hne']
    rw [if_neg (by omega : ¬ (f.date ++ b!" " ++ f.clock).length = 29), if_neg (by omega : ¬ (f.date ++ b!" " ++ f.clock).length = 25),
      if_pos hlen]
    simp only [parse, if_pos hlen, hp, Option.map_some, Option.some_or, Option.getD_some, GoTime.truncate, GoTime.utc, milli,
      Prod.mk.injEq, GoTime.mk.injEq, and_true]
    omega
  · intro h1 h2 h3 h4 h5
    have hlen : f.date.length = 10 := (fourtwo f).1
    have hne' : f.date ≠ [] := by intro h; rw [h] at hlen; simp at hlen
    have hi : f.instant = (Spec.yearStart f.y + Spec.monthStart f.y f.mo + f.d - 1) * 86400 * 1000000000 := by
      simp only [Spec.Fields.instant, Spec.Fields.offset, h1, h2, h3, h4, h5, Spec.nanos]; omega
    have hp : parseDateOnly f.date = some ⟨f.instant, 0⟩ := by
      obtain ⟨v1, v2, v3, v4, v5, -⟩ := hv
      have hmd : Spec.monthDays f.y f.mo ≤ 31 := by
        unfold Spec.monthDays; split <;> (try split) <;> omega
      have s1 : sub f.date 0 4 = Spec.four f.y := rfl
      have s2 : sub f.date 5 7 = Spec.two f.mo := rfl
      have s3 : sub f.date 8 10 = Spec.two f.d := rfl
      have i1 : f.date[4]? = some c!"-" := rfl
      have i2 : f.date[7]? = some c!"-" := rfl
      simp only [parseDateOnly, if_pos hlen, s1, s2, s3]
      rw [parseRange_four _ _ _ (by omega), if_pos ⟨by omega, by omega⟩]
      simp only [Option.bind_eq_bind, Option.bind_some, pure]
      rw [parseRange_two _ _ _ (by omega), if_pos ⟨by omega, by omega⟩]
      simp only [Option.bind_some]
      rw [parseRange_two _ _ _ (by omega), daysIn_eq _ _ v2 v3, if_pos ⟨by omega, by omega⟩]
      simp only [Option.bind_some]
      rw [if_pos ⟨i1, i2⟩, dateDays_eq _ _ _ v2 v3, hi]
    simp only [scan, parseTime, if_neg hne']
    rw [if_neg (by omega : ¬ f.date.length = 29), if_neg (by omega : ¬ f.date.length = 25), if_neg (by omega : ¬ f.date.length = 19),
      if_pos hlen]
    simp only [parse, hp, Option.some_or, Option.getD_some, GoTime.truncate, GoTime.utc, milli, Prod.mk.injEq, GoTime.mk.injEq, and_true]
    omega

/-- C48 fails for unknown formats: a non-empty text that Go's parser rejects in every layout is read, with no error, as the zero time,
replacing the old contents, and is then written back as NULL. -/
theorem C48_unknown_text_swallowed (fb : Layout → Bytes → Option GoTime) (s : Bytes) (old : GoTime)
    (h : ∀ l, parse fb l s = none) :
    scan fb old (.text s) = (zero, true) ∧ value (scan fb old (.text s)).1 = .null := by
  have : parseTime fb s = zero := by
    unfold parseTime
    split
    · rfl
    · simp only [h, Option.getD_none]; rfl
  simp [scan, this, value, zero, GoTime.isZero]

/-- C48 (JSON): zero is the empty string; a time of the years 1 to 9999 is marshalled and read back exactly, in UTC. -/
theorem C48_json (fb : Layout → Bytes → Option GoTime) (t old : GoTime) :
    (t.ns = 0 → marshal t = some b!"\"\"" ∧ unmarshal fb old b!"\"\"" = (zero, true))
    ∧ (Spec.InRange t.ns → ∃ data, marshal t = some data ∧ unmarshal fb old data = (t.utc, true)) := by
  have hz : t.utc.isZero = true ↔ t.ns = 0 := by simp [GoTime.utc, GoTime.isZero]
  refine ⟨fun h => ⟨by rw [marshal, if_pos (hz.2 h)], rfl⟩, fun hr => ?_⟩
  by_cases h : t.ns = 0
  · exact ⟨_, by rw [marshal, if_pos (hz.2 h)], by simp [unmarshal, GoTime.utc, h, zero]⟩
  · obtain ⟨f, f1, f2, f3, f4, f5, f6, f7, f8⟩ := format_spec 9 (Or.inr rfl) t.ns hr
    have hf : f.instant = t.ns := by rw [f6]; simp
    refine ⟨b!"\"" ++ f.text ++ b!"\"", ?_, ?_⟩
    · rw [marshal, if_neg (by rw [hz]; exact h)]
      simp only [f8, f5]
      rw [if_pos ⟨by omega, by have := f1.1; omega⟩]
    · have hp := parseRFC3339_text f f1
      have hoff : f.offset = 0 := by simp [Spec.Fields.offset, f2]
      rw [hoff, hf] at hp
      have hlen : 20 ≤ f.text.length := by
        simp only [Spec.Fields.text, Spec.Fields.zoneText, f2, List.length_append, (fourtwo f).1, (fourtwo f).2]
        simp
      have htl : (b!"\"" ++ f.text ++ b!"\"").tail.dropLast = f.text := by
        show (f.text ++ b!"\"").dropLast = f.text
        exact List.dropLast_concat
      have hall : f.text.all (fun c => decide (32 ≤ c.toNat ∧ c ≠ c!"\"" ∧ c ≠ c!"\\")) = true := by
        rw [List.all_eq_true]
        intro c hc
        have hd : ∀ n < 10, ((32 ≤ (UInt8.ofNat (48 + n)).toNat) ∧ UInt8.ofNat (48 + n) ≠ c!"\"" ∧ UInt8.ofNat (48 + n) ≠ c!"\\") := by
          decide
        have ht : ∀ n < 100, ∀ c ∈ Spec.two n, (32 ≤ c.toNat ∧ c ≠ c!"\"" ∧ c ≠ c!"\\") := by
          intro n hn c hc
          simp only [Spec.two, List.mem_cons, List.not_mem_nil, or_false] at hc
          rcases hc with rfl | rfl
          · exact hd _ (by omega)
          · exact hd _ (by omega)
        obtain ⟨v1, v2, v3, v4, v5, v6, v7, v8, v9, -⟩ := f1
        have hmd : Spec.monthDays f.y f.mo ≤ 31 := by
          unfold Spec.monthDays; split <;> (try split) <;> omega
        simp only [Spec.Fields.text, Spec.Fields.zoneText, f2, Spec.Fields.date, Spec.Fields.clock, Spec.four, List.mem_append] at hc
        rw [decide_eq_true_eq]
        have one : ∀ x : UInt8, (32 ≤ x.toNat ∧ x ≠ c!"\"" ∧ x ≠ c!"\\") → c ∈ [x] → (32 ≤ c.toNat ∧ c ≠ c!"\"" ∧ c ≠ c!"\\") := by
          intro x hx hc; rw [List.mem_singleton] at hc; rw [hc]; exact hx
        rcases hc with (((((((((hc | hc) | hc) | hc) | hc) | hc) | hc) | ((((hc | hc) | hc) | hc) | hc)) | hc) | hc)
        all_goals first
          | exact ht _ (by omega) c hc
          | exact one _ (by decide) hc
          | skip
        split at hc
        · simp at hc
        · rw [List.mem_append] at hc
          rcases hc with hc | hc
          · exact one _ (by decide) hc
          · have := v9 c hc
            refine ⟨by omega, ?_, ?_⟩ <;> (intro h; rw [h] at this; revert this; decide)
      rw [unmarshal, if_neg (by
          rintro (hh | hh)
          · simp at hh
          · have h2 : (b!"\"" ++ f.text ++ b!"\"").length = 2 := congrArg List.length hh
            simp only [List.length_append, List.length_cons, List.length_nil] at h2; omega),
        if_neg (by intro hh; have := congrArg List.head? hh; simp at this),
        if_pos ⟨by simp, rfl, List.getLast?_concat, by rw [htl]; exact hall⟩, htl]
      simp only [parse, hp, Option.some_or]
      rfl

/-- C48 (JSON null): `null` leaves the variable as it was. -/
theorem C48_json_null_keeps_old (fb : Layout → Bytes → Option GoTime) (old : GoTime) : unmarshal fb old b!"null" = (old, true) := rfl

/-! Concrete cases. -/

example : (⟨2024, 2, 29, 23, 59, 59, b!"999", some (false, 7, 30)⟩ : Spec.Fields).Valid := by
  refine ⟨by decide, by decide, by decide, by decide, by decide, by decide, by decide, by decide, ?_, ?_⟩
  · exact forall_mem_of_all (by decide)
  · intro e hr mm h; simp at h; obtain ⟨-, rfl, rfl⟩ := h; decide
example : (⟨2024, 2, 29, 23, 59, 59, b!"999", some (false, 7, 30)⟩ : Spec.Fields).text = b!"2024-02-29T23:59:59.999-07:30" := by decide
example : string (fromUnixMilli 7200 (-1)) = b!"1969-12-31T23:59:59.999Z" := by decide +kernel
example : string (fromUnixMilli 0 1709210096120) = b!"2024-02-29T12:34:56.12Z" := by decide +kernel
example : parseTime (fun _ _ => none) b!"2024-02-29T12:34:56.123456+02:00" = fromUnixMilli 0 1709202896123 := by decide +kernel
example : scan (fun _ _ => none) (fromUnixMilli 0 5) (.text b!"2019-11-30 17:45:59.123") = (zero, true) := by decide +kernel
example : Spec.InRange (fromUnixMilli 0 1709210096120).ns := by
  refine ⟨by decide, ?_⟩; rw [← daysToYear_eq]; decide
example : Spec.WholeMs (fromUnixMilli 0 (-1)).ns := ⟨62135596799999, by decide⟩

end Types.Tm
