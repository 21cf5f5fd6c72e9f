import Verif.Xsql.AddLemmas
/- Every builder call refines the specification; rendering. -/
namespace Xsql
variable {α : Type}

/-- The statement and the specification state describe the same thing. -/
def Ref (q : Stmt α) (s : SpecState α) : Prop :=
  ∃ gs, Rep q gs ∧ s.doc = group gs ∧ s.cur = q.pos ∧ s.nl = q.useNewLines ∧ s.dest = q.dest

theorem ref_addF {q : Stmt α} {s : SpecState α} {f : Frag α} (h : Ref q s) (hf : FragIn s.doc f) :
    Ref (q.addF f) { s with doc := addFrag s.nl s.doc f, cur := f.pos } := by
  obtain ⟨gs, hr, hd, hc, hn, hde⟩ := h
  obtain ⟨gs', hr', hg, hp, hnl, hdst, _, _⟩ := addF_rep hr (hd ▸ hf)
  refine ⟨gs', hr', ?_, hp.symm, ?_, ?_⟩
  · simp only; rw [hg, hd, hn]
  · simp [hn, hnl]
  · simp [hde, hdst]

/-! ### Building admissible fragments -/

theorem FragIn.mk' {d : List (Clause α)} {p : Nat} {kw e sep : Bytes} {as : List α} (he : FragOK e as)
    (hk : (63 : UInt8) ∉ kw) (hk2 : kw.getLast? ≠ some 92) (hp : ¬ single p) (hs : (63 : UInt8) ∉ sep ∧ (92 : UInt8) ∉ sep) :
    FragIn d ⟨p, kw, e, as, sep⟩ where
  e := fun _ => ⟨he, hk⟩
  k := fun h => by
    simp only at h ⊢; subst h
    rw [he.nil_args]; exact FragOK.const hk hk2
  r := fun h ha => by
    simp only at h; subst h; exact absurd he.nil_args ha
  s := fun h => absurd h hp
  sep := hs

theorem FragIn.kwArgs {d : List (Clause α)} {p : Nat} {kw sep : Bytes} {as : List α} (hk : FragOK kw as)
    (hp : ¬ single p) (hd : ∀ c ∈ d, c.pos ≠ p) (hs : (63 : UInt8) ∉ sep ∧ (92 : UInt8) ∉ sep) :
    FragIn d ⟨p, kw, [], as, sep⟩ where
  e := fun h => absurd rfl h
  k := fun _ => hk
  r := fun _ _ ⟨c, hc, hcp⟩ => absurd hcp (hd c hc)
  s := fun h => absurd h hp
  sep := hs

theorem FragIn.single {d : List (Clause α)} {p : Nat} {kw : Bytes} {a : α} (hk : FragOK kw [a]) (hp : Xsql.single p) :
    FragIn d ⟨p, kw, [], [a], []⟩ where
  e := fun h => absurd rfl h
  k := fun _ => hk
  r := fun _ _ _ => hp
  s := fun _ => ⟨rfl, rfl⟩
  sep := by simp

/-! ### Positions in documents and chunks -/

theorem group_pos_mem' {gs : List (Clause α)} : ∀ g ∈ gs, ∃ d ∈ group gs, d.pos = g.pos := by
  induction gs with
  | nil => simp
  | cons g gs ih =>
    intro x hx
    simp only [group]
    rcases List.mem_cons.1 hx with rfl | hx
    · split
      · exact ⟨x, by simp, rfl⟩
      · split
        · exact ⟨_, List.mem_cons_self, rfl⟩
        · exact ⟨_, List.mem_cons_self, rfl⟩
    · obtain ⟨d, hd, hp⟩ := ih x hx
      split
      · rename_i he; rw [he] at hd; simp at hd
      · rename_i d0 ds he
        rw [he] at hd
        split
        · rename_i h0
          rcases List.mem_cons.1 hd with rfl | hd
          · exact ⟨_, List.mem_cons_self, by simp [← hp, h0]⟩
          · exact ⟨d, by simp [hd], hp⟩
        · exact ⟨d, List.mem_cons_of_mem _ hd, hp⟩

theorem group_last {gs : List (Clause α)} : (group gs).getLast?.map Clause.pos = gs.getLast?.map Clause.pos := by
  induction gs with
  | nil => rfl
  | cons g gs ih =>
    simp only [group]
    cases hg : group gs with
    | nil =>
      have := group_eq_nil hg; subst this; rfl
    | cons d ds =>
      rw [hg] at ih
      have hne : gs ≠ [] := by rintro rfl; simp [group] at hg
      have e1 : (g :: gs).getLast? = gs.getLast? := by
        cases gs with
        | nil => exact absurd rfl hne
        | cons a b => rw [List.getLast?_cons_cons]
      rw [e1, ← ih]
      simp only
      split
      · rename_i h
        cases ds with
        | nil => simp [h]
        | cons a b => simp [List.getLast?_cons_cons]
      · simp [List.getLast?_cons_cons]

theorem has_iff {q : Stmt α} {s : SpecState α} (h : Ref q s) (p : Nat) : s.has p = true ↔ ∃ c ∈ q.chunks, c.pos = p := by
  obtain ⟨gs, hr, hd, -⟩ := h
  unfold SpecState.has
  rw [hd, List.any_eq_true]
  constructor
  · rintro ⟨d, hd', hp⟩
    obtain ⟨g, hg, hgp⟩ := group_pos_mem d hd'
    have := (List.forall₂_iff_get.1 hr.chunks)
    obtain ⟨i, hi, rfl⟩ := List.getElem_of_mem hg
    have hi' : i < q.chunks.length := by rw [this.1]; exact hi
    refine ⟨q.chunks[i], List.getElem_mem _, ?_⟩
    have h2 := (this.2 i hi' hi).pos
    simp only [List.get_eq_getElem] at h2
    rw [h2, hgp]; simpa using hp
  · rintro ⟨c, hc, hp⟩
    have := (List.forall₂_iff_get.1 hr.chunks)
    obtain ⟨i, hi, rfl⟩ := List.getElem_of_mem hc
    have hi' : i < gs.length := by rw [← this.1]; exact hi
    have h2 := (this.2 i hi hi').pos
    obtain ⟨d, hd', hdp⟩ := group_pos_mem' gs[i] (List.getElem_mem _)
    refine ⟨d, hd', ?_⟩
    simp only [List.get_eq_getElem] at h2
    simp [hdp, ← h2, hp]

theorem forall2_getLast {buf : Bytes} {cs : List Chunk} {gs : List (Clause α)} (h : List.Forall₂ (RepChunk buf) cs gs) :
    cs.getLast?.map Chunk.pos = gs.getLast?.map Clause.pos := by
  induction h with
  | nil => rfl
  | cons hx ht ih =>
    cases ht with
    | nil => simp [hx.pos]
    | cons h1 h2 => simpa [List.getLast?_cons_cons] using ih

theorem lastPos_eq {q : Stmt α} {s : SpecState α} (h : Ref q s) : s.lastPos = q.chunks.getLast?.map Chunk.pos := by
  obtain ⟨gs, hr, hd, -⟩ := h
  unfold SpecState.lastPos
  rw [hd, group_last, forall2_getLast hr.chunks]

theorem chunks_sorted {buf : Bytes} {cs : List Chunk} {gs : List (Clause α)} (h : List.Forall₂ (RepChunk buf) cs gs)
    (hs : gs.Pairwise fun a b => a.pos ≤ b.pos) : cs.Pairwise fun a b => a.pos ≤ b.pos := by
  induction h with
  | nil => exact .nil
  | cons hx ht ih =>
    rw [List.pairwise_cons] at hs ⊢
    refine ⟨?_, ih hs.2⟩
    rw [hx.pos]
    exact forall2_pos ht (P := fun p => _ ≤ p) hs.1

theorem Ref.sorted {q : Stmt α} {s : SpecState α} (h : Ref q s) : q.chunks.Pairwise fun a b => a.pos ≤ b.pos := by
  obtain ⟨gs, hr, -⟩ := h
  exact chunks_sorted hr.chunks (hr.sorted.imp fun h => h.1)

theorem sorted_split (p : Nat) (cs : List Chunk) (hs : cs.Pairwise fun a b => a.pos ≤ b.pos) :
    ∃ L M B, cs = L ++ M ++ B ∧ (∀ g ∈ L, g.pos < p) ∧ (∀ g ∈ M, g.pos = p) ∧ (∀ g ∈ B, p < g.pos) := by
  induction cs with
  | nil => exact ⟨[], [], [], by simp⟩
  | cons g gs ih =>
    have hs' := List.pairwise_cons.1 hs
    obtain ⟨L, M, B, rfl, hL, hM, hB⟩ := ih hs'.2
    rcases Nat.lt_trichotomy g.pos p with hlt | heq | hgt
    · exact ⟨g :: L, M, B, by simp, by simpa [hlt] using hL, hM, hB⟩
    · have : L = [] := by
        cases L with
        | nil => rfl
        | cons l L => have h1 := hs'.1 l (by simp); have h2 := hL l (by simp); omega
      subst this
      exact ⟨[], g :: M, B, by simp, by simp, by simpa [heq] using hM, hB⟩
    · have hL' : L = [] := by
        cases L with
        | nil => rfl
        | cons l L => have h1 := hs'.1 l (by simp); have h2 := hL l (by simp); omega
      have hM' : M = [] := by
        cases M with
        | nil => rfl
        | cons l M => have h1 := hs'.1 l (by simp); have h2 := hM l (by simp); omega
      subst hL' hM'
      exact ⟨[], [], g :: B, by simp, by simp, by simp, by simpa [hgt] using hB⟩

theorem setMode_eq {cs : List Chunk} (hs : cs.Pairwise fun a b => a.pos ≤ b.pos) :
    setMode cs = if (∃ c ∈ cs, c.pos = posInsert) then posInsert else if (∃ c ∈ cs, c.pos = posUpdate) then posUpdate else 0 := by
  unfold setMode
  cases hf : cs.find? (fun c => decide (c.pos = posInsert) || decide (c.pos = posUpdate)) with
  | none =>
    rw [List.find?_eq_none] at hf
    have h1 : ¬ ∃ c ∈ cs, c.pos = posInsert := by rintro ⟨c, hc, hp⟩; have := hf c hc; simp [hp] at this
    have h2 : ¬ ∃ c ∈ cs, c.pos = posUpdate := by rintro ⟨c, hc, hp⟩; have := hf c hc; simp [hp] at this
    simp [h1, h2]
  | some c =>
    have hm := List.mem_of_find?_eq_some hf
    have hp := List.find?_some hf
    simp at hp
    simp only
    obtain ⟨-, as, bs, rfl, hno⟩ := List.find?_eq_some_iff_append.1 hf
    rcases hp with hp | hp
    · have : ∃ x ∈ as ++ c :: bs, x.pos = posInsert := ⟨c, hm, hp⟩
      simp only [this, if_true, hp]
    · have h1 : ¬ ∃ x ∈ as ++ c :: bs, x.pos = posInsert := by
        rintro ⟨x, hx, hxp⟩
        rcases List.mem_append.1 hx with hx | hx
        · have := hno x hx; simp [hxp] at this
        · rcases List.mem_cons.1 hx with rfl | hx
          · rw [hp] at hxp; simp [posUpdate, posInsert] at hxp
          · have := (List.pairwise_cons.1 (List.pairwise_append.1 hs).2.1).1 x hx
            rw [hp, hxp] at this; simp [posUpdate, posInsert] at this
      have h2 : ∃ x ∈ as ++ c :: bs, x.pos = posUpdate := ⟨c, hm, hp⟩
      simp only [h1, h2, if_true, if_false, hp]

theorem newRow_first {q : Stmt α} (hs : q.chunks.Pairwise fun a b => a.pos ≤ b.pos) :
    rowFirst q.chunks = decide (¬ ∃ c ∈ q.chunks, c.pos = posValues) := by
  obtain ⟨L, M, B, hc, hL, hM, hB⟩ := sorted_split posValues q.chunks hs
  have h1 := (headUpTo_append posValues (L ++ M) B (by
    intro c hc; rcases List.mem_append.1 hc with h | h
    · exact Nat.le_of_lt (hL c h)
    · exact Nat.le_of_eq (hM c h)) hB).1
  unfold rowFirst
  rw [hc, h1]
  rcases List.eq_nil_or_concat M with rfl | ⟨M0, g, rfl⟩
  · have : ¬ ∃ c ∈ L ++ [] ++ B, c.pos = posValues := by
      rintro ⟨c, hc, hp⟩
      simp at hc
      rcases hc with h | h
      · have := hL c h; omega
      · have := hB c h; omega
    simp only [this, not_false_eq_true, decide_true]
    cases hl : (L ++ []).getLast? with
    | none => rfl
    | some c =>
      have hm := List.mem_of_getLast? hl
      simp at hm
      have := hL c hm
      simp; omega
  · have hg := hM g (by simp)
    have : ∃ c ∈ L ++ M0.concat g ++ B, c.pos = posValues := ⟨g, by simp, hg⟩
    simp only [this, not_true_eq_false, decide_false]
    simp [hg]

/-! ### SubQuery, With, Union in terms of `add` -/

theorem setHigh_append (A B : List Chunk) (c : Chunk) (h : Nat) :
    setHigh (A ++ c :: B) A.length h = A ++ { c with high := h } :: B := by
  unfold setHigh
  induction A with
  | nil => rfl
  | cons a A ih => simpa using ih


theorem subQuery_eq {q : Stmt α} (hs : q.chunks.Pairwise fun a b => a.pos ≤ b.pos) (pre suf sub : Bytes) (as : List α) (hp : pre ≠ []) :
    q.subQuery pre suf sub as = q.add q.pos [] (pre ++ sub ++ suf) as (if q.pos = posWhere then b!" AND " else b!", ") := by
  obtain ⟨L, M, B, hc, hL, hM, hB⟩ := sorted_split q.pos q.chunks hs
  generalize hsep : (if q.pos = posWhere then b!" AND " else b!", ") = sep
  unfold Stmt.subQuery Stmt.add
  simp only [hsep]
  let f1 : Frag α := ⟨q.pos, [], pre, as, sep⟩
  let f2 : Frag α := ⟨q.pos, [], pre ++ sub ++ suf, as, sep⟩
  have hp2 : pre ++ sub ++ suf ≠ [] := by simp [hp]
  rcases List.eq_nil_or_concat M with rfl | ⟨M0, c, rfl⟩
  · have e1 := addChunk_new q f1 L B (by simpa using hc) hL hB
    have e2 := addChunk_new q f2 L B (by simpa using hc) hL hB
    simp only [f1, f2] at e1 e2
    rw [e1, e2]
    simp only [Stmt.write, setHigh_append]
    simp [startText, hp]
  · rw [List.concat_eq_append] at *
    have hA : ∀ x ∈ L ++ M0, x.pos ≤ q.pos := by
      intro x hx; rcases List.mem_append.1 hx with h | h
      · exact Nat.le_of_lt (hL x h)
      · exact Nat.le_of_eq (hM x (by simp [h]))
    have hc' : q.chunks = (L ++ M0) ++ [c] ++ B := by rw [hc]; simp
    have hcp := hM c (by simp)
    by_cases hh : c.high = q.buf.length
    · have e1 := addChunk_merge q f1 (L ++ M0) B c hc' hA hcp hB hp hh
      have e2 := addChunk_merge q f2 (L ++ M0) B c hc' hA hcp hB hp2 hh
      simp only [f1, f2] at e1 e2
      rw [e1, e2]
      simp only [Stmt.write, List.append_assoc (L ++ M0), List.singleton_append, setHigh_append]
      simp
    · have e1 := addChunk_split q f1 (L ++ M0) B c hc' hA hcp hB hp hh
      have e2 := addChunk_split q f2 (L ++ M0) B c hc' hA hcp hB hp2 hh
      simp only [f1, f2] at e1 e2
      rw [e1, e2]
      simp only [Stmt.write, setHigh_append]
      simp

theorem union_eq {q : Stmt α} (hs : q.chunks.Pairwise fun a b => a.pos ≤ b.pos) (all : Bool) (sub : Bytes) (as : List α) :
    q.union all sub as = q.add (unionPos q.chunks) ((if all then b!"UNION ALL " else b!"UNION ") ++ sub) [] as [] ∧
      ∀ c ∈ q.chunks, c.pos < unionPos q.chunks := by
  generalize hp : unionPos q.chunks = p
  unfold unionPos at hp
  have hall : ∀ c ∈ q.chunks, c.pos < p := by
    intro c hc
    rcases List.eq_nil_or_concat q.chunks with h | ⟨A, d, h⟩
    · rw [h] at hc; simp at hc
    · rw [h, List.concat_eq_append] at hp hs hc
      simp only [List.getLast?_append, List.getLast?_singleton, Option.some_or] at hp
      have hle : c.pos ≤ d.pos := by
        rcases List.mem_append.1 hc with h | h
        · exact (List.pairwise_append.1 hs).2.2 c h d (by simp)
        · simp at h; subst h; omega
      split at hp <;> omega
  refine ⟨?_, hall⟩
  have hp' : unionPos q.chunks = p := hp
  unfold Stmt.union Stmt.add
  simp only [hp']
  generalize hkw : (if all then b!"UNION ALL " else b!"UNION ") = kw
  have hk : kw ≠ [] := by cases all <;> simp [← hkw]
  let f1 : Frag α := ⟨p, kw, [], as, []⟩
  let f2 : Frag α := ⟨p, kw ++ sub, [], as, []⟩
  have e1 := addChunk_new q f1 q.chunks [] (by simp) hall (by simp)
  have e2 := addChunk_new q f2 q.chunks [] (by simp) hall (by simp)
  simp only [f1, f2] at e1 e2
  rw [e1, e2]
  simp only [Stmt.write, setHigh_append]
  simp [startText, hk]

end Xsql
