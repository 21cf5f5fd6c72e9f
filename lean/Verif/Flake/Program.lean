import Verif.Flake.Props
/-!
Where the default generator of a program gets its machine id from (pkg/flake/flake.go:35-39 `init`, 194-234), and property C101.
-/
set_option linter.unusedSimpArgs false
set_option linter.unusedVariables false
namespace Flake

/-- Go `strings.Contains` (standard library). -/
def contains : Bytes → Bytes → Bool
  | [], sub => sub.isPrefixOf []
  | c :: s, sub => sub.isPrefixOf (c :: s) || contains s sub

/-- One step of hash/fnv's 32-bit FNV-1a (standard library). -/
def fnvStep (h : BitVec 32) (b : UInt8) : BitVec 32 := (h ^^^ b.toBitVec.setWidth 32) * 16777619

/-- hash/fnv `New32a`, `Write`, `Sum32` (standard library). -/
def fnv32a (s : Bytes) : BitVec 32 := s.foldl fnvStep 2166136261

/-- flake.go:194-198 `machineIDFromProgram`; `prog` is `os.Args[0]`. -/
def machineIDFromProgram (prog : Bytes) : BitVec 16 := (fnv32a prog).setWidth 16

/-- flake.go:201-203 `IsTestRun`. -/
def isTestRun (prog : Bytes) : Bool := contains prog b!"test" || contains prog b!"debug"

/-- flake.go:207-234 `defaultMachineID` of a program; `none`: it panics. -/
def machineOf (prog : Bytes) (addrs : Option (List Addr)) : Option (BitVec 16) :=
  defaultMachineID (if isTestRun prog then some (machineIDFromProgram prog) else none) addrs

/-- flake.go:35-39 `init`: the generator every program gets as `DefaultIDGenerator`; `none`: the program panics before `main`. -/
def defaultGenerator (prog : Bytes) (addrs : Option (List Addr)) (now0 now1 now2 : Int) : Option Gen :=
  (machineOf prog addrs).bind fun m => match newGen { startTime := some defaultStartTime } m now0 now1 now2 with
    | .ok (g, _) => some g
    | .error _ => none

/-! ### Specification -/

namespace Spec

/-- `sub` occurs somewhere in `s`. -/
def Occurs (sub s : Bytes) : Prop := ∃ pre post, s = pre ++ sub ++ post

/-- The programs taken for test runs: `test` or `debug` occurs in the path, in whatever word. -/
def LooksLikeTest (prog : Bytes) : Prop := Occurs b!"test" prog ∨ Occurs b!"debug" prog

/-- FNV-1a over the integers. -/
def fnv (s : Bytes) : Nat := s.foldl (fun h b => (h ^^^ b.toNat) * 16777619 % 2 ^ 32) 2166136261

/-- A host whose first address that is not a loopback is the IPv4 address given. -/
def FirstAddr (addrs : List Addr) (ip : List (BitVec 8)) : Prop :=
  ∃ pre post, addrs = pre ++ .ipnet ip :: post ∧ (∀ a ∈ pre, a = .other ∨ ∃ ip, a = .ipnet ip ∧ Loopback ip) ∧ ¬ Loopback ip

end Spec

theorem contains_iff (s sub : Bytes) : contains s sub = true ↔ Spec.Occurs sub s := by
  unfold Spec.Occurs
  induction s with
  | nil =>
    simp only [contains, List.isPrefixOf_iff_prefix]
    constructor
    · rintro ⟨post, h⟩
      exact ⟨[], post, by simpa using h.symm⟩
    · rintro ⟨pre, post, h⟩
      have := List.append_eq_nil_iff.1 h.symm
      have h2 := List.append_eq_nil_iff.1 this.1
      exact ⟨[], by rw [h2.2]; rfl⟩
  | cons c s ih =>
    simp only [contains, Bool.or_eq_true, List.isPrefixOf_iff_prefix, ih]
    constructor
    · rintro (⟨post, h⟩ | ⟨pre, post, h⟩)
      · exact ⟨[], post, by simpa using h.symm⟩
      · exact ⟨c :: pre, post, by rw [h]; rfl⟩
    · rintro ⟨pre, post, h⟩
      cases pre with
      | nil => exact Or.inl ⟨post, by simpa using h.symm⟩
      | cons d pre =>
        simp only [List.cons_append, List.cons.injEq] at h
        exact Or.inr ⟨pre, post, h.2⟩

theorem isTestRun_iff (prog : Bytes) : isTestRun prog = true ↔ Spec.LooksLikeTest prog := by
  unfold isTestRun Spec.LooksLikeTest
  rw [Bool.or_eq_true, contains_iff, contains_iff]

theorem fnvStep_toNat (h : BitVec 32) (b : UInt8) : (fnvStep h b).toNat = (h.toNat ^^^ b.toNat) * 16777619 % 2 ^ 32 := by
  unfold fnvStep
  rw [BitVec.toNat_mul, BitVec.toNat_xor, BitVec.toNat_setWidth]
  have : b.toBitVec.toNat % 2 ^ 32 = b.toNat := by
    have h := b.toNat_lt
    have e : b.toBitVec.toNat = b.toNat := rfl
    rw [e, Nat.mod_eq_of_lt (by omega)]
  rw [this]
  have e : (16777619 : BitVec 32).toNat = 16777619 := by decide
  rw [e]

theorem fnv_foldl (s : Bytes) : ∀ (h : BitVec 32), (s.foldl fnvStep h).toNat = s.foldl (fun h b => (h ^^^ b.toNat) * 16777619 % 2 ^ 32) h.toNat := by
  induction s with
  | nil => intro h; rfl
  | cons b s ih =>
    intro h
    rw [List.foldl_cons, List.foldl_cons, ih, fnvStep_toNat]

theorem machineIDFromProgram_toNat (prog : Bytes) : (machineIDFromProgram prog).toNat = Spec.fnv prog % 65536 := by
  unfold machineIDFromProgram
  rw [BitVec.toNat_setWidth]
  unfold fnv32a Spec.fnv
  rw [fnv_foldl]
  have e : (2166136261 : BitVec 32).toNat = 2166136261 := by decide
  rw [e]

/-! ### C101 -/

/-- **C101, which source**: the machine id of a program is the hash of its path, whatever the host, exactly when `test` or `debug` occurs in the path;
otherwise it is the last two bytes of the first address. -/
theorem C101_which_source (prog : Bytes) (addrs : List Addr) (front : List (BitVec 8)) (hi lo : BitVec 8)
    (hlen : (front ++ [hi, lo]).length = 4 ∨ (front ++ [hi, lo]).length = 16) (ha : Spec.FirstAddr addrs (front ++ [hi, lo])) :
    (Spec.LooksLikeTest prog → ∃ m, machineOf prog (some addrs) = some m ∧ m.toNat = Spec.fnv prog % 65536) ∧
    (¬ Spec.LooksLikeTest prog → ∃ m, machineOf prog (some addrs) = some m ∧ m.toNat = 256 * hi.toNat + lo.toNat) := by
  constructor
  · intro h
    refine ⟨machineIDFromProgram prog, ?_, machineIDFromProgram_toNat prog⟩
    unfold machineOf
    rw [if_pos ((isTestRun_iff _).2 h)]
    rfl
  · intro h
    obtain ⟨pre, post, rfl, hpre, hnl⟩ := ha
    refine ⟨hi ++ lo, ?_, ?_⟩
    · unfold machineOf
      rw [if_neg (mt (isTestRun_iff _).1 h)]
      exact C09_default_machine_id pre post front hi lo hpre hlen hnl
    · rw [BitVec.toNat_append]
      have := lo.isLt
      rw [← Nat.shiftLeft_add_eq_or_of_lt this, Nat.shiftLeft_eq]
      omega

/-- **C101, different hosts**: two hosts whose first addresses (IPv4) differ in the last two bytes never hand out the same ID from their default generators,
if the program is not taken for a test run.  Missing: programs that are (`C101_same_ids_on_every_host`). -/
theorem C101_hosts_disjoint_partial (prog prog' : Bytes) (hp : ¬ Spec.LooksLikeTest prog) (hp' : ¬ Spec.LooksLikeTest prog') (addrs addrs' : List Addr) (a b c d a' b' c' d' : BitVec 8)
    (ha : Spec.FirstAddr addrs [a, b, c, d]) (ha' : Spec.FirstAddr addrs' [a', b', c', d']) (hne : (c, d) ≠ (c', d'))
    (n0 n1 n2 n0' n1' n2' : Int) (g g' : Gen) (hg : defaultGenerator prog (some addrs) n0 n1 n2 = some g) (hg' : defaultGenerator prog' (some addrs') n0' n1' n2' = some g')
    (s s' : List (Nat × Act)) : ∀ x ∈ idsOf g s, x ∉ idsOf g' s' := by
  have key : ∀ {prog : Bytes} {addrs : List Addr} {a b c d : BitVec 8} {n0 n1 n2 : Int} {g : Gen}, ¬ Spec.LooksLikeTest prog → Spec.FirstAddr addrs [a, b, c, d] →
      defaultGenerator prog (some addrs) n0 n1 n2 = some g → Fresh g ∧ g.machineID.toNat = 256 * c.toNat + d.toNat := by
    intro prog addrs a b c d n0 n1 n2 g hp ha hg
    obtain ⟨m, hm, hv⟩ := (C101_which_source prog addrs [a, b] c d (Or.inl rfl) ha).2 hp
    unfold defaultGenerator at hg
    rw [hm, Option.bind_some] at hg
    cases hn : newGen { startTime := some defaultStartTime } m n0 n1 n2 with
    | error e => rw [hn] at hg; cases hg
    | ok r =>
      obtain ⟨g1, sl⟩ := r
      rw [hn] at hg
      cases hg
      refine ⟨⟨_, _, _, _, _, _, hn⟩, ?_⟩
      have := (C07_constructor_result hn).1
      have this : m = g.machineID := Except.ok.inj this
      rw [← this, hv]
  obtain ⟨f, hm⟩ := key hp ha hg
  obtain ⟨f', hm'⟩ := key hp' ha' hg'
  refine C02_machines_disjoint f f' ?_ s s'
  intro e
  apply hne
  rw [e, hm'] at hm
  have h1 := d.isLt
  have h2 := d'.isLt
  have hc : c = c' := BitVec.eq_of_toNat_eq (by omega)
  have hd : d = d' := BitVec.eq_of_toNat_eq (by omega)
  rw [hc, hd]

/-- **C101 fails** for every program with `test` or `debug` in its path: on all hosts it gets the same generator, which hands out the same IDs
when the calls come at the same times. -/
theorem C101_same_ids_on_every_host (prog : Bytes) (hp : Spec.LooksLikeTest prog) (addrs addrs' : Option (List Addr)) (n0 n1 n2 : Int) :
    machineOf prog addrs = machineOf prog addrs' ∧
    defaultGenerator prog addrs n0 n1 n2 = defaultGenerator prog addrs' n0 n1 n2 := by
  have : machineOf prog addrs = machineOf prog addrs' := by
    unfold machineOf
    rw [if_pos ((isTestRun_iff _).2 hp)]
    rfl
  exact ⟨this, by unfold defaultGenerator; rw [this]⟩

/-- ... for instance for what is installed in a directory `latest`: two hosts, 10.0.0.1 and 10.0.0.2, and the same first ID. -/
theorem C101_latest : Spec.LooksLikeTest b!"/opt/latest/app" ∧
    ∃ g, defaultGenerator b!"/opt/latest/app" (some [.ipnet [10, 0, 0, 1]]) 1609459201000000000 1609459201000000000 1609459201000000000 = some g ∧
      defaultGenerator b!"/opt/latest/app" (some [.ipnet [10, 0, 0, 2]]) 1609459201000000000 1609459201000000000 1609459201000000000 = some g ∧
      idsOf g [] = [4194304000 + 50055#64] := by
  refine ⟨Or.inl ⟨b!"/opt/la", b!"/app", by decide⟩, _, rfl, rfl, by decide +kernel⟩

/-- **C101, when the program starts at all**: the default generator is missing (the program panics before `main`) exactly when the clock is before 2021
or 2^41 milliseconds after; given that the host's addresses are 4 or 16 bytes long. -/
theorem C101_start_panics_iff (prog : Bytes) (addrs : Option (List Addr)) (n0 n1 n2 : Int) (h : ∀ as, addrs = some as → ∀ ip, Addr.ipnet ip ∈ as → ip.length = 4 ∨ ip.length = 16) :
    defaultGenerator prog addrs n0 n1 n2 = none ↔ n0 < 1609459200 * 1000000000 ∨ 2 ^ 41 ≤ n1.tdiv 1000000 - 1609459200 * 1000 := by
  have hm : ∃ m, machineOf prog addrs = some m := by
    unfold machineOf
    split
    · exact ⟨machineIDFromProgram prog, rfl⟩
    · cases addrs with
      | none => exact ⟨0, rfl⟩
      | some as =>
        replace h := h as rfl
        show ∃ m, machineIDFromAddrs as = some m
        induction as with
        | nil => exact ⟨0, rfl⟩
        | cons x as ih =>
          have ih := ih (fun ip hi => h ip (List.mem_cons_of_mem _ hi))
          cases x with
          | other => exact ih
          | ipnet ip =>
            unfold machineIDFromAddrs
            split
            · exact ih
            · have hl : ∃ b, to16 ip = some b ∧ b.length = 16 := by
                unfold to16
                rcases h ip List.mem_cons_self with h4 | h16
                · rw [if_pos h4]; exact ⟨_, rfl, by simp [h4]⟩
                · rw [if_neg (by omega), if_pos h16]; exact ⟨_, rfl, h16⟩
              obtain ⟨b, hb, hl⟩ := hl
              rw [hb]
              have hr : b.reverse.length = 16 := by rw [List.length_reverse, hl]
              cases hb' : b.reverse with
              | nil => rw [hb'] at hr; cases hr
              | cons lo t => cases t with
                | nil => rw [hb'] at hr; cases hr
                | cons hi t => exact ⟨lowBits hi lo, by simp only [hb']⟩
  obtain ⟨m, hm⟩ := hm
  unfold defaultGenerator
  rw [hm, Option.bind_some]
  have hc := C07_constructor_panics_iff { startTime := some defaultStartTime } m n0 n1 n2
  obtain ⟨h1, h2, h3, h4⟩ := hc
  cases hn : newGen { startTime := some defaultStartTime } m n0 n1 n2 with
  | ok r =>
    rw [hn] at h1 h4
    simp only [reduceCtorEq, false_iff, Option.getD_some] at h1 h4
    constructor
    · intro h; cases h
    · rintro (h | h)
      · exact absurd h h1
      · refine absurd ⟨?_, m, rfl, rfl, h⟩ h4
        exact Int.not_lt.1 h1
  | error e =>
    refine ⟨fun _ => ?_, fun _ => rfl⟩
    cases e with
    | startAhead => exact Or.inl (h1.1 hn)
    | machineFailed => obtain ⟨-, e, he⟩ := h2.1 hn; cases he
    | checkFailed => obtain ⟨-, m', f, -, hf, -⟩ := h3.1 hn; cases hf
    | overLimit => obtain ⟨-, m', -, -, hh⟩ := h4.1 hn; exact Or.inr hh

/-! ### The hash -/

/-- One step on the low 16 bits. -/
theorem fnvStep_low (h : BitVec 32) (b : UInt8) : (fnvStep h b).setWidth 16 = (h.setWidth 16 ^^^ b.toBitVec.setWidth 16) * 403 := by
  unfold fnvStep
  rw [BitVec.setWidth_mul _ _ (by omega), BitVec.setWidth_xor, BitVec.setWidth_setWidth_of_le _ (by omega)]
  rfl

theorem mul403_inj {x y : BitVec 16} (h : x * 403 = y * 403) : x = y := by
  have : ∀ x : BitVec 16, x * 403 * 17563 = x := by
    intro x
    rw [BitVec.mul_assoc]
    have : (403 : BitVec 16) * 17563 = 1 := by decide
    rw [this]; exact BitVec.mul_one x
  rw [← this x, ← this y, h]

theorem xor_inj {x y z : BitVec 16} (h : x ^^^ z = y ^^^ z) : x = y := by
  have : ∀ x : BitVec 16, x ^^^ z ^^^ z = x := by intro x; rw [BitVec.xor_assoc, BitVec.xor_self, BitVec.xor_zero]
  rw [← this x, ← this y, h]

theorem foldl_low (s : Bytes) : ∀ {h h' : BitVec 32}, (s.foldl fnvStep h).setWidth 16 = (s.foldl fnvStep h').setWidth 16 → h.setWidth 16 = h'.setWidth 16 := by
  induction s with
  | nil => intro h h' e; exact e
  | cons b s ih =>
    intro h h' e
    have := ih e
    rw [fnvStep_low, fnvStep_low] at this
    exact xor_inj (mul403_inj this)

/-- **C101, test programs**: two paths that differ in one byte only (`app1.test`, `app2.test`) get different machine ids. -/
theorem C101_one_byte_apart (pre post : Bytes) (x y : UInt8) (hxy : x ≠ y) :
    machineIDFromProgram (pre ++ x :: post) ≠ machineIDFromProgram (pre ++ y :: post) := by
  intro h
  unfold machineIDFromProgram fnv32a at h
  rw [List.foldl_append, List.foldl_append, List.foldl_cons, List.foldl_cons] at h
  have h := foldl_low post h
  rw [fnvStep_low, fnvStep_low] at h
  have h := mul403_inj h
  rw [BitVec.xor_comm _ (x.toBitVec.setWidth 16), BitVec.xor_comm _ (y.toBitVec.setWidth 16)] at h
  have h := xor_inj h
  apply hxy
  have h := congrArg BitVec.toNat h
  rw [BitVec.toNat_setWidth, BitVec.toNat_setWidth] at h
  have h1 : x.toBitVec.toNat < 256 := x.toBitVec.isLt
  have h2 : y.toBitVec.toNat < 256 := y.toBitVec.isLt
  have : x.toBitVec = y.toBitVec := BitVec.eq_of_toNat_eq (by omega)
  exact UInt8.toBitVec_inj.1 this

example : (fnv32a b!"foobar").toNat = 0xbf9cf968 ∧ fnv32a b!"" = 0x811c9dc5 := by decide +kernel

/-- Hosts and a program that meet the hypotheses. -/
example : ¬ Spec.LooksLikeTest b!"/usr/bin/app" ∧ Spec.FirstAddr [.other, .ipnet [127, 0, 0, 1], .ipnet [10, 0, 0, 1]] [10, 0, 0, 1] ∧ ((0 : BitVec 8), (1 : BitVec 8)) ≠ (0, 2)
    ∧ (defaultGenerator b!"/usr/bin/app" (some [.other, .ipnet [127, 0, 0, 1], .ipnet [10, 0, 0, 1]]) 1609459201000000000 1609459201000000000 1609459201000000000).isSome = true := by
  refine ⟨by rw [← isTestRun_iff]; decide +kernel, ⟨[.other, .ipnet [127, 0, 0, 1]], [], rfl, ?_, ?_⟩, by decide, by decide +kernel⟩
  · intro a ha
    simp only [List.mem_cons, List.not_mem_nil, or_false] at ha
    rcases ha with rfl | rfl
    · exact Or.inl rfl
    · exact Or.inr ⟨_, rfl, Or.inl ⟨0, 0, 1, rfl⟩⟩
  · rintro (⟨x, y, z, h⟩ | ⟨x, y, z, h⟩ | h)
    · have := (List.cons.inj h).1; revert this; decide
    · cases congrArg List.length h
    · cases congrArg List.length h

end Flake
