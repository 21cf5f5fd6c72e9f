import Verif.Xsql.DocLemmas
/- Fragments of whole call sequences, and the closed form of a document. -/
namespace Xsql
variable {α : Type}

/-- All fragments of a call sequence, in call order. -/
def fragsOf : SpecState α → List (Call α) → List (Frag α)
  | _, [] => []
  | s, c :: cs => s.frags c ++ fragsOf (s.call c) cs

theorem nl_call (s : SpecState α) (c : Call α) : (s.call c).nl = s.nl := rfl

theorem doc_foldl (s : SpecState α) (cs : List (Call α)) :
    (cs.foldl SpecState.call s).doc = (fragsOf s cs).foldl (addFrag s.nl) s.doc := by
  induction cs generalizing s with
  | nil => rfl
  | cons c cs ih =>
    simp only [List.foldl_cons, fragsOf, List.foldl_append]
    rw [ih]; rfl

/-- Admissible in sequence. -/
def FragsIn (nl : Bool) : List (Clause α) → List (Frag α) → Prop
  | _, [] => True
  | d, f :: fs => FragIn d f ∧ FragsIn nl (addFrag nl d f) fs

theorem FragsIn.append {nl : Bool} {d : List (Clause α)} {fs gs : List (Frag α)} (h : FragsIn nl d fs)
    (k : FragsIn nl (fs.foldl (addFrag nl) d) gs) : FragsIn nl d (fs ++ gs) := by
  induction fs generalizing d with
  | nil => exact k
  | cons f fs ih => exact ⟨h.1, ih h.2 k⟩

theorem frags_in {q : Stmt α} {s : SpecState α} {c : Call α} (h : Ref q s) (hok : CallOK s c) :
    FragsIn s.nl s.doc (s.frags c) := by
  have hE : FragOK (α := α) [] [] := FragOK.const (by simp) (by simp)
  cases c with
  | verb v as => exact ⟨FragIn.kwArgs hok.1 (by decide) (not_has hok.2) sepOK_comma, trivial⟩
  | select e as => exact ⟨FragIn.mk' hok (by decide) (by decide) (by decide) sepOK_comma, trivial⟩
  | returning e => exact ⟨FragIn.mk' hok (by decide) (by decide) (by decide) sepOK_comma, trivial⟩
  | update e => exact ⟨FragIn.mk' hok (by decide) (by decide) (by decide) sepOK_comma, trivial⟩
  | deleteFrom e => exact ⟨FragIn.mk' hok (by decide) (by decide) (by decide) sepOK_comma, trivial⟩
  | from_ e as => exact ⟨FragIn.mk' hok (by decide) (by decide) (by decide) sepOK_comma, trivial⟩
  | where_ e as => exact ⟨FragIn.mk' hok (by decide) (by decide) (by decide) sepOK_and, trivial⟩
  | having e as => exact ⟨FragIn.mk' hok (by decide) (by decide) (by decide) sepOK_and, trivial⟩
  | groupBy e => exact ⟨FragIn.mk' hok (by decide) (by decide) (by decide) sepOK_comma, trivial⟩
  | orderBy es => exact ⟨FragIn.mk' (joinBytes_ok hok) (by decide) (by decide) (by decide) sepOK_comma, trivial⟩
  | in_ as => exact ⟨FragIn.mk' (inText_ok as) (by decide) (by decide) (by decide) sepOK_space, trivial⟩
  | join k t o => exact ⟨FragIn.mk' (joinText_ok hok.1 hok.2) (by decide) (by decide) (by decide) sepOK_space, trivial⟩
  | limit x => exact ⟨FragIn.single ⟨rfl, by decide, by simp⟩ (.inl rfl), trivial⟩
  | offset x => exact ⟨FragIn.single ⟨rfl, by decide, by simp⟩ (.inr rfl), trivial⟩
  | expr e as => exact ⟨FragIn.mk' hok.1 (by decide) (by decide) hok.2 sepOK_comma, trivial⟩
  | clause e as =>
    refine ⟨FragIn.kwArgs hok.1 hok.2 ?_ sepOK_comma, trivial⟩
    rw [← clausePos_eq h]
    exact not_has (has_false_of h fun c hc => Nat.ne_of_lt (clausePos_gt h.sorted c hc))
  | subQuery pre suf sub as =>
    refine ⟨FragIn.mk' hok.2.1 (by decide) (by decide) hok.2.2 ?_, trivial⟩
    split
    · exact sepOK_and
    · exact sepOK_comma
  | union all sub as =>
    have hu := union_eq h.sorted all sub as
    refine ⟨FragIn.kwArgs ?_ hok.2 ?_ sepOK_nil, trivial⟩
    · have hk : FragOK (α := α) (if all then b!"UNION ALL " else b!"UNION ") [] := by
        cases all
        · exact FragOK.const (s := b!"UNION ") (by decide) (by decide)
        · exact FragOK.const (s := b!"UNION ALL ") (by decide) (by decide)
      exact hk.append hok.1
    · rw [← unionPos_eq h]
      exact not_has (has_false_of h fun c hc => Nat.ne_of_lt (hu.2 c hc))
  | toDest ds => exact trivial
  | insertInto t =>
    exact ⟨FragIn.mk' hok (by decide) (by decide) (by decide) sepOK_comma,
      FragIn.mk' hE (by decide) (by decide) (by decide) sepOK_nil,
      FragIn.mk' hE (by decide) (by decide) (by decide) sepOK_nil,
      FragIn.mk' hE (by decide) (by decide) (by decide) sepOK_nil, trivial⟩
  | setExpr f e as =>
    simp only [SpecState.frags]
    split
    · exact ⟨FragIn.mk' hok.1 (by decide) (by decide) (by decide) sepOK_comma,
        FragIn.mk' hok.2 (by decide) (by decide) (by decide) sepOK_comma, trivial⟩
    · split
      · have hfe : FragOK (f ++ b!"=" ++ e) as := by
          have he : FragOK (α := α) b!"=" [] := FragOK.const (by decide) (by decide)
          have := (hok.1.append he).append hok.2
          simpa using this
        exact ⟨FragIn.mk' hfe (by decide) (by decide) (by decide) sepOK_comma, trivial⟩
      · exact trivial
  | with_ n sub as =>
    exact ⟨FragIn.mk' hE (by decide) (by decide) (by decide) sepOK_nil,
      FragIn.mk' hok (by decide) (by decide) (by decide) sepOK_comma, trivial⟩
  | newRow =>
    simp only [SpecState.frags]
    split
    · exact ⟨FragIn.mk' (FragOK.const (by decide) (by decide)) (by decide) (by decide) (by decide) (by decide), trivial⟩
    · exact trivial
  | rowSetExpr r f e as =>
    simp only [SpecState.frags]
    split
    · exact ⟨FragIn.mk' hok.1 (by decide) (by decide) (by decide) sepOK_comma,
        FragIn.mk' hok.2 (by decide) (by decide) (by decide) sepOK_comma, trivial⟩
    · refine ⟨FragIn.mk' hok.2 (by decide) (by decide) (by decide) ?_, trivial⟩
      split
      · exact sepOK_comma
      · exact sepOK_nil

theorem fragsOf_in {q : Stmt α} {s : SpecState α} {cs : List (Call α)} (h : Ref q s) (hok : CallsOK s cs) :
    FragsIn s.nl s.doc (fragsOf s cs) := by
  induction cs generalizing q s with
  | nil => exact trivial
  | cons c cs ih => exact (frags_in h hok.1).append (ih (ref_call h hok.1) hok.2)

/-- Documents have their clauses in strictly ascending position order. -/
def Ascending (d : List (Clause α)) : Prop := d.Pairwise fun a b => a.pos < b.pos

theorem Ascending.uniq {d : List (Clause α)} (h : Ascending d) : ∀ c ∈ d, ∀ c' ∈ d, c.pos = c'.pos → c = c' := by
  unfold Ascending at h
  induction d with
  | nil => simp
  | cons x xs ih =>
    have hx := List.pairwise_cons.1 h
    intro c hc c' hc' hp
    rcases List.mem_cons.1 hc with h1 | h1 <;> rcases List.mem_cons.1 hc' with h2 | h2
    · rw [h1, h2]
    · have := hx.1 c' h2; rw [← h1] at this; omega
    · have := hx.1 c h1; rw [← h2] at this; omega
    · exact ih hx.2 c h1 c' h2 hp

theorem extend_pos (c : Clause α) (f : Frag α) : (c.extend f).pos = c.pos := by
  unfold Clause.extend; split <;> [split <;> rfl; rfl]

theorem Ascending.addFrag {d : List (Clause α)} (h : Ascending d) (nl : Bool) (f : Frag α) : Ascending (addFrag nl d f) := by
  obtain ⟨m, hm, hmp⟩ : ∃ m, Xsql.addFrag nl d f = d.filter (fun c => c.pos < f.pos) ++ m :: d.filter (fun c => f.pos < c.pos) ∧ m.pos = f.pos := by
    unfold Xsql.addFrag
    cases hx : d.find? (fun c => decide (c.pos = f.pos)) with
    | none => exact ⟨_, rfl, rfl⟩
    | some x =>
      have := List.find?_some hx
      simp at this
      exact ⟨_, rfl, by simp only [extend_pos, this]⟩
  unfold Ascending at *
  rw [hm]
  refine List.pairwise_append.2 ⟨h.filter _, List.pairwise_cons.2 ⟨?_, h.filter _⟩, ?_⟩
  · intro x hx
    have := (List.mem_filter.1 hx).2
    rw [hmp]; simpa using this
  · intro a ha b hb
    have h1 := (List.mem_filter.1 ha).2
    simp at h1
    rcases List.mem_cons.1 hb with rfl | hb
    · rw [hmp]; exact h1
    · have h2 := (List.mem_filter.1 hb).2
      simp at h2; omega

/-- A fragment with arguments stays in the document, with its own arguments. -/
theorem frags_persist {nl : Bool} {d : List (Clause α)} {fs : List (Frag α)} (hd : Ascending d) (hin : FragsIn nl d fs) :
    (∀ c ∈ d, ¬ single c.pos → ∃ c' ∈ fs.foldl (addFrag nl) d, c.toks <+: c'.toks) ∧
    ∀ f ∈ fs, f.args ≠ [] → ¬ single f.pos → ∃ c ∈ fs.foldl (addFrag nl) d, bound f.text f.args <:+: c.toks := by
  induction fs generalizing d with
  | nil => exact ⟨fun c hc _ => ⟨c, hc, List.prefix_refl _⟩, by simp⟩
  | cons f fs ih =>
    obtain ⟨ih1, ih2⟩ := ih (hd.addFrag nl f) hin.2
    constructor
    · intro c hc hs
      obtain ⟨c1, h1, hp1, hpre⟩ := addFrag_prefix (nl := nl) hin.1 hd.uniq hc hs
      obtain ⟨c2, h2, hpre2⟩ := ih1 c1 h1 (by rw [hp1]; exact hs)
      exact ⟨c2, h2, hpre.trans hpre2⟩
    · intro g hg ha hs
      rcases List.mem_cons.1 hg with rfl | hg
      · obtain ⟨c1, h1, hp1, hinf⟩ := addFrag_infix (nl := nl) hin.1 ha hs
        obtain ⟨c2, h2, hpre⟩ := ih1 c1 h1 (by rw [hp1]; exact hs)
        exact ⟨c2, h2, hinf.trans hpre.isInfix⟩
      · exact ih2 g hg ha hs

/-! ### Closed form -/

/-- A clause built from its own fragments only. -/
def clauseOf (nl : Bool) : List (Frag α) → Option (Clause α)
  | [] => none
  | f :: rest => some (rest.foldl Clause.extend ⟨f.pos, f.start nl, decide (f.expr ≠ [])⟩)

theorem foldl_extend_pos (c : Clause α) (fs : List (Frag α)) : (fs.foldl Clause.extend c).pos = c.pos := by
  induction fs generalizing c with
  | nil => rfl
  | cons f fs ih => rw [List.foldl_cons, ih, extend_pos]

theorem clauseOf_pos {nl : Bool} {p : Nat} {fs : List (Frag α)} {c} (h : clauseOf nl fs = some c) (hp : ∀ f ∈ fs, f.pos = p) : c.pos = p := by
  cases fs with
  | nil => simp [clauseOf] at h
  | cons f fs =>
    simp only [clauseOf, Option.some.injEq] at h
    rw [← h, foldl_extend_pos]; exact hp f (by simp)

theorem clauseOf_snoc (nl : Bool) (fs : List (Frag α)) (f : Frag α) :
    clauseOf nl (fs ++ [f]) = some (match clauseOf nl fs with
      | some c => c.extend f
      | none => ⟨f.pos, f.start nl, decide (f.expr ≠ [])⟩) := by
  cases fs with
  | nil => simp [clauseOf]
  | cons g gs => simp [clauseOf, List.foldl_append]

/-- The clauses at the positions `P`, each built from the fragments of that position. -/
def docOf (nl : Bool) (P : List Nat) (fs : List (Frag α)) : List (Clause α) :=
  P.filterMap fun p => clauseOf nl (fs.filter fun f => f.pos = p)

theorem docOf_pos {nl : Bool} {P : List Nat} {fs : List (Frag α)} : ∀ c ∈ docOf nl P fs, c.pos ∈ P := by
  intro c hc
  obtain ⟨p, hp, h⟩ := List.mem_filterMap.1 hc
  rw [clauseOf_pos h (p := p) (by intro f hf; simpa using (List.mem_filter.1 hf).2)]
  exact hp

theorem addFrag_docOf (nl : Bool) (P : List Nat) (hP : P.Pairwise (· < ·)) (fs : List (Frag α)) (f : Frag α) (hf : f.pos ∈ P) :
    addFrag nl (docOf nl P fs) f = docOf nl P (fs ++ [f]) := by
  obtain ⟨P1, P2, rfl⟩ := List.append_of_mem hf
  have h1 := List.pairwise_append.1 hP
  have hlt1 : ∀ p ∈ P1, p < f.pos := fun p hp => h1.2.2 p hp f.pos (by simp)
  have hlt2 : ∀ p ∈ P2, f.pos < p := (List.pairwise_cons.1 h1.2.1).1
  have hsame : ∀ Q : List Nat, (∀ p ∈ Q, p ≠ f.pos) → docOf nl Q (fs ++ [f]) = docOf nl Q fs := by
    intro Q hQ
    unfold docOf
    refine List.filterMap_congr ?_
    intro p hp
    have : f.pos ≠ p := fun e => hQ p hp e.symm
    simp [List.filter_append, this]
  have hsplit : ∀ gs : List (Frag α), docOf nl (P1 ++ f.pos :: P2) gs = docOf nl P1 gs ++ (clauseOf nl (gs.filter fun g => g.pos = f.pos)).toList ++ docOf nl P2 gs := by
    intro gs
    unfold docOf
    rw [List.filterMap_append, List.filterMap_cons]
    cases clauseOf nl (gs.filter fun g => decide (g.pos = f.pos)) <;> simp
  rw [hsplit, hsplit, hsame P1 (fun p hp => Nat.ne_of_lt (hlt1 p hp)), hsame P2 (fun p hp => Nat.ne_of_gt (hlt2 p hp))]
  have hp1 : ∀ c ∈ docOf nl P1 fs, c.pos < f.pos := fun c hc => hlt1 _ (docOf_pos c hc)
  have hp2 : ∀ c ∈ docOf nl P2 fs, f.pos < c.pos := fun c hc => hlt2 _ (docOf_pos c hc)
  have hpm : ∀ c ∈ (clauseOf nl (fs.filter fun g => decide (g.pos = f.pos))).toList, c.pos = f.pos := by
    intro c hc
    simp at hc
    exact clauseOf_pos hc (by intro g hg; simpa using (List.mem_filter.1 hg).2)
  have hfl : (fs ++ [f]).filter (fun g => decide (g.pos = f.pos)) = fs.filter (fun g => decide (g.pos = f.pos)) ++ [f] := by
    simp [List.filter_append]
  rw [hfl, clauseOf_snoc]
  unfold addFrag
  set m := clauseOf nl (fs.filter fun g => decide (g.pos = f.pos)) with hm
  have hf1 : (docOf nl P1 fs ++ m.toList ++ docOf nl P2 fs).filter (fun c => decide (c.pos < f.pos)) = docOf nl P1 fs := by
    rw [List.filter_append, List.filter_append, (List.filter_eq_self (l := docOf nl P1 fs)).2 (by simpa using hp1),
      List.filter_eq_nil_iff.2 (by intro a ha; have := hpm a ha; simp; omega),
      List.filter_eq_nil_iff.2 (by intro a ha; have := hp2 a ha; simp; omega)]
    simp
  have hf2 : (docOf nl P1 fs ++ m.toList ++ docOf nl P2 fs).filter (fun c => decide (f.pos < c.pos)) = docOf nl P2 fs := by
    rw [List.filter_append, List.filter_append, (List.filter_eq_self (l := docOf nl P2 fs)).2 (by simpa using hp2),
      List.filter_eq_nil_iff.2 (by intro a ha; have := hp1 a ha; simp; omega),
      List.filter_eq_nil_iff.2 (by intro a ha; have := hpm a ha; simp; omega)]
    simp
  have hfd : (docOf nl P1 fs ++ m.toList ++ docOf nl P2 fs).find? (fun c => decide (c.pos = f.pos)) = m := by
    have e1 : (docOf nl P1 fs).find? (fun c => decide (c.pos = f.pos)) = none := by
      rw [List.find?_eq_none]; intro a ha; have := hp1 a ha; simp; omega
    have e2 : (docOf nl P2 fs).find? (fun c => decide (c.pos = f.pos)) = none := by
      rw [List.find?_eq_none]; intro a ha; have := hp2 a ha; simp; omega
    rw [List.find?_append, List.find?_append, e1, e2]
    cases hmm : m with
    | none => simp
    | some c =>
      have := hpm c (by rw [hmm]; simp)
      simp [this]
  rw [hf1, hf2, hfd]
  cases m <;> simp

theorem foldl_addFrag_closed (nl : Bool) (P : List Nat) (hP : P.Pairwise (· < ·)) (fs : List (Frag α)) (hf : ∀ f ∈ fs, f.pos ∈ P) :
    fs.foldl (addFrag nl) [] = docOf nl P fs := by
  induction fs using List.reverseRecOn with
  | nil =>
    unfold docOf
    rw [List.foldl_nil]; symm
    rw [List.filterMap_eq_nil_iff]; intro p hp; rfl
  | append_singleton fs f ih =>
    rw [List.foldl_append, List.foldl_cons, List.foldl_nil, ih (fun g hg => hf g (by simp [hg]))]
    exact addFrag_docOf nl P hP fs f (hf f (by simp))

/-- The text of a clause: what the first fragment writes, then every later expression after its
separator (after a space if there was no expression yet). -/
def moreText : Bool → List (Frag α) → Bytes
  | _, [] => []
  | he, f :: fs => if f.expr = [] then moreText he fs else (if he then f.sep else b!" ") ++ f.expr ++ moreText true fs

/-- The text of a clause from its fragments. -/
def clauseText (nl : Bool) : List (Frag α) → Bytes
  | [] => []
  | f :: fs => (if f.kw = [] then [] else (if nl then b!"\n" else []) ++ f.kw ++ (if f.expr = [] then [] else b!" ")) ++ f.expr
      ++ moreText (decide (f.expr ≠ [])) fs

/-- The arguments of a clause: those of all its fragments, except that LIMIT and OFFSET keep only
the last one. -/
def clauseArgs (fs : List (Frag α)) : List α :=
  match fs.getLast? with
  | none => []
  | some f => if single f.pos then f.args else fs.flatMap Frag.args

/-- A fragment admissible at its own clause (the clause-local part of `FragIn`). -/
structure FragLocal (f : Frag α) : Prop where
  e : f.expr ≠ [] → FragOK f.expr f.args ∧ (63 : UInt8) ∉ f.kw
  k : f.expr = [] → FragOK f.kw f.args
  r : f.expr = [] → f.args ≠ [] → single f.pos
  s : single f.pos → f.expr = [] ∧ f.args.length = 1
  sep : (63 : UInt8) ∉ f.sep ∧ (92 : UInt8) ∉ f.sep

theorem FragLocal.toIn {f : Frag α} (h : FragLocal f) (d) : FragIn d f := ⟨h.e, h.k, fun a b _ => h.r a b, h.s, h.sep⟩

theorem rebind_bound {ts : List (Tok α)} {as bs : List α} (hc : Clean ts) (hv : vals ts = as) (hl : as.length = bs.length) :
    raw (bound (raw ts) bs) = raw ts ∧ vals (bound (raw ts) bs) = bs ∧ Clean (bound (raw ts) bs) := by
  have hs : (bindArgs (raw ts) bs).isSome := by
    unfold bindArgs
    rw [assign_isSome_iff, hc.toks_eq, vals_forget_length, hv, hl]
  obtain ⟨us, hus⟩ := Option.isSome_iff_exists.1 hs
  rw [bound_of hus]
  exact ⟨bindArgs_raw hus, bindArgs_vals hus, clean_of_bindArgs hus⟩

theorem extend_text_ns {c : Clause α} (fs : List (Frag α)) (hl : ∀ f ∈ fs, FragLocal f) (hs : ∀ f ∈ fs, ¬ single f.pos) :
    raw (fs.foldl Clause.extend c).toks = raw c.toks ++ moreText c.hasExpr fs ∧
    vals (fs.foldl Clause.extend c).toks = vals c.toks ++ fs.flatMap Frag.args := by
  induction fs generalizing c with
  | nil => simp [moreText]
  | cons f fs ih =>
    have hf := hl f (by simp)
    have hsf := hs f (by simp)
    have ih' := ih (c := c.extend f) (fun g hg => hl g (by simp [hg])) (fun g hg => hs g (by simp [hg]))
    rw [List.foldl_cons, ih'.1, ih'.2]
    by_cases he : f.expr = []
    · have ha : f.args = [] := by by_contra ha; exact hsf (hf.r he ha)
      have : c.extend f = c := by simp [Clause.extend, he, ha]
      rw [this]; simp [moreText, he, ha]
    · have hei := (hf.e he).1.info
      simp [Clause.extend, he, moreText, hei.raw, hei.vals]

theorem extend_text_s {c : Clause α} (fs : List (Frag α)) (hl : ∀ f ∈ fs, FragLocal f) (hs : ∀ f ∈ fs, single f.pos)
    (hc : Clean c.toks) (hv : (vals c.toks).length = 1) :
    raw (fs.foldl Clause.extend c).toks = raw c.toks ++ moreText c.hasExpr fs ∧
    vals (fs.foldl Clause.extend c).toks = (match fs.getLast? with | none => vals c.toks | some f => f.args) := by
  induction fs generalizing c with
  | nil => simp [moreText]
  | cons f fs ih =>
    have hf := hl f (by simp)
    have hsf := hs f (by simp)
    have he := (hf.s hsf).1
    have hal := (hf.s hsf).2
    have ha : f.args ≠ [] := by intro h; rw [h] at hal; simp at hal
    have hext : c.extend f = { c with toks := bound (raw c.toks) f.args } := by simp [Clause.extend, he, ha]
    have hrb := rebind_bound (bs := f.args) hc rfl (by omega)
    have ih' := ih (c := c.extend f) (fun g hg => hl g (by simp [hg])) (fun g hg => hs g (by simp [hg]))
      (by rw [hext]; exact hrb.2.2) (by rw [hext]; simp only; rw [hrb.2.1]; exact hal)
    rw [List.foldl_cons, ih'.1, ih'.2, hext]
    refine ⟨by simp only [hrb.1, moreText, he, if_true], ?_⟩
    cases fs with
    | nil => simp [hrb.2.1]
    | cons g gs => simp only [List.getLast?_cons_cons]; cases h : (g :: gs).getLast? with
      | none => simp at h
      | some x => rfl

theorem clauseOf_text {nl : Bool} {p : Nat} {fs : List (Frag α)} {c} (h : clauseOf nl fs = some c) (hp : ∀ f ∈ fs, f.pos = p)
    (hl : ∀ f ∈ fs, FragLocal f) : raw c.toks = clauseText nl fs ∧ vals c.toks = clauseArgs fs := by
  cases fs with
  | nil => simp [clauseOf] at h
  | cons f fs =>
    simp only [clauseOf, Option.some.injEq] at h
    have hi := (start_ok (nl := nl) ((hl f (by simp)).toIn [])).info
    have hst : f.start nl = bound (startText nl f) f.args := rfl
    have hlast : ∃ x, (f :: fs).getLast? = some x ∧ x.pos = p := by
      cases hh : (f :: fs).getLast? with
      | none => simp at hh
      | some x => exact ⟨x, rfl, hp x (List.mem_of_getLast? hh)⟩
    obtain ⟨x, hx, hxp⟩ := hlast
    unfold clauseArgs
    rw [hx]
    simp only [hxp]
    by_cases hs : single p
    · have := extend_text_s (c := ⟨f.pos, f.start nl, decide (f.expr ≠ [])⟩) fs (fun g hg => hl g (by simp [hg]))
        (fun g hg => by rw [hp g (by simp [hg])]; exact hs) (by simp only [hst]; exact hi.clean)
        (by simp only [hst, hi.vals]; exact ((hl f (by simp)).s (by rw [hp f (by simp)]; exact hs)).2)
      rw [h] at this
      refine ⟨by rw [this.1]; simp only [hst, hi.raw]; rfl, ?_⟩
      rw [this.2, if_pos hs]
      cases fs with
      | nil => simp at hx; subst hx; simp [hst, hi.vals]
      | cons g gs => rw [List.getLast?_cons_cons] at hx; rw [hx]
    · have := extend_text_ns (c := ⟨f.pos, f.start nl, decide (f.expr ≠ [])⟩) fs (fun g hg => hl g (by simp [hg]))
        (fun g hg => by rw [hp g (by simp [hg])]; exact hs)
      rw [h] at this
      refine ⟨by rw [this.1]; simp only [hst, hi.raw]; rfl, ?_⟩
      rw [this.2, if_neg hs]; simp [hst, hi.vals]

theorem raw_docToks (d : List (Clause α)) : raw (docToks d) = joinBytes b!" " (d.map fun c => raw c.toks) := by
  induction d with
  | nil => rfl
  | cons c cs ih =>
    cases cs with
    | nil => rfl
    | cons e es =>
      simp only [docToks, List.map_cons, joinBytes, raw_append, raw_cons, Tok.raw] at ih ⊢
      rw [ih]; simp

theorem vals_docToks (d : List (Clause α)) : vals (docToks d) = d.flatMap fun c => vals c.toks := by
  cases d with
  | nil => rfl
  | cons c cs =>
    rw [docToks_cons]
    simp only [vals_append, List.flatMap_cons]
    congr 1
    induction cs with
    | nil => rfl
    | cons e es ih => simp [ih]

end Xsql
