import Verif.Xsql.CallLemmas
import Mathlib.Data.List.Induction
/- Documents: trimming, persistence of fragments, the closed form for plain calls. -/
namespace Xsql
variable {α : Type}

/-! ### Trimming -/

theorem isCut_eq (b : UInt8) : isCut b = blanks.contains b := by
  simp only [isCut, blanks, List.contains_cons, List.contains_nil, Bool.or_false, Bool.or_assoc]

theorem cut_lit (b : UInt8) : Tok.cut (.lit b : Tok α) = isCut b := by rw [isCut_eq]; rfl
theorem cut_esc : Tok.cut (.esc : Tok α) = false := rfl
theorem cut_ph (a : α) : Tok.cut (.ph a) = false := rfl

theorem dropWhile_written (pg : Bool) (n : Nat) (ts : List (Tok α)) :
    (written pg n ts).dropWhile isCut = written pg n (ts.dropWhile Tok.cut) := by
  induction ts with
  | nil => cases pg <;> simp [written, numbered]
  | cons t ts ih =>
    cases t with
    | lit b =>
      by_cases hb : isCut b = true
      · have e : written pg n (.lit b :: ts) = b :: written pg n ts := by cases pg <;> simp [written, numbered, Tok.raw]
        rw [e, List.dropWhile_cons, if_pos hb, ih, List.dropWhile_cons]; simp [hb, cut_lit, cut_esc, cut_ph]
      · have e : written pg n (.lit b :: ts) = b :: written pg n ts := by cases pg <;> simp [written, numbered, Tok.raw]
        rw [e, List.dropWhile_cons, if_neg hb, List.dropWhile_cons]; simp [hb, e, cut_lit, cut_esc, cut_ph]
    | esc =>
      rw [List.dropWhile_cons]
      cases pg
      · simp [written, Tok.raw, isCut, cut_lit, cut_esc, cut_ph]
      · simp [written, numbered, isCut, cut_lit, cut_esc, cut_ph]
    | ph a =>
      rw [List.dropWhile_cons]
      cases pg
      · simp [written, Tok.raw, isCut, cut_lit, cut_esc, cut_ph]
      · simp [written, numbered, isCut, cut_lit, cut_esc, cut_ph]

theorem dropWhile_raw_reverse (ts : List (Tok α)) :
    (raw ts).reverse.dropWhile isCut = (raw ((ts.reverse.dropWhile Tok.cut).reverse)).reverse := by
  induction ts using List.reverseRecOn with
  | nil => simp
  | append_singleton ts t ih =>
    simp only [List.reverse_append, List.reverse_cons, List.reverse_nil, List.nil_append, List.singleton_append, raw_append]
    cases t with
    | lit b =>
      by_cases hb : isCut b = true
      · simp [Tok.raw, hb, ih, cut_lit, cut_esc, cut_ph]
      · simp [Tok.raw, hb, cut_lit, cut_esc, cut_ph]
    | esc => simp [Tok.raw, isCut, cut_lit, cut_esc, cut_ph]
    | ph a => simp [Tok.raw, isCut, cut_lit, cut_esc, cut_ph]

theorem dec_last_not_cut (n : Nat) : ∃ d ds, (Num.dec n).reverse = d :: ds ∧ isCut d = false := by
  have hne := Num.fmtNat_ne_nil 10 n
  cases h : (Num.dec n).reverse with
  | nil => exact absurd (by simpa [Num.dec] using h) hne
  | cons d ds =>
    refine ⟨d, ds, rfl, ?_⟩
    have hm : d ∈ Num.dec n := by rw [← List.mem_reverse, h]; simp
    obtain ⟨x, hx, rfl⟩ := Num.fmtNat_bytes 10 (by omega) n d hm
    have h1 := Num.digitByte_toNat x (by omega)
    rw [if_pos hx] at h1
    unfold isCut
    simp only [Bool.or_eq_false_iff, beq_eq_false_iff_ne]
    refine ⟨⟨⟨?_, ?_⟩, ?_⟩, ?_⟩ <;> (intro h2; rw [h2] at h1; simp at h1; omega)

theorem dropWhile_numbered_reverse (n : Nat) (ts : List (Tok α)) :
    (numbered n ts).reverse.dropWhile isCut = (numbered n ((ts.reverse.dropWhile Tok.cut).reverse)).reverse := by
  induction ts using List.reverseRecOn with
  | nil => simp [numbered]
  | append_singleton ts t ih =>
    simp only [List.reverse_append, List.reverse_cons, List.reverse_nil, List.nil_append, List.singleton_append, numbered_append]
    cases t with
    | lit b =>
      by_cases hb : isCut b = true
      · simp [numbered, hb, ih, cut_lit, cut_esc, cut_ph]
      · simp [numbered, hb, numbered_append, cut_lit, cut_esc, cut_ph]
    | esc => simp [numbered, isCut, cut_lit, cut_esc, cut_ph, numbered_append]
    | ph a =>
      obtain ⟨d, ds, hd, hcut⟩ := dec_last_not_cut (n + (vals ts).length)
      simp [numbered, hd, hcut, numbered_append, cut_lit, cut_esc, cut_ph]

theorem trim_written (pg : Bool) (n : Nat) (ts : List (Tok α)) : trim (written pg n ts) = written pg n (trimToks ts) := by
  unfold trim trimToks
  rw [dropWhile_written]
  cases pg
  · simp only [written]
    have := dropWhile_raw_reverse (List.dropWhile Tok.cut ts)
    simp [this]
  · simp only [written, if_true]
    rw [dropWhile_numbered_reverse]; simp

theorem vals_dropWhile (ts : List (Tok α)) :
    vals (ts.dropWhile Tok.cut) = vals ts := by
  induction ts with
  | nil => rfl
  | cons t ts ih =>
    rw [List.dropWhile_cons]
    cases t with
    | lit b => by_cases hb : isCut b = true <;> simp [hb, ih, cut_lit, cut_esc, cut_ph]
    | esc => simp [cut_lit, cut_esc, cut_ph]
    | ph a => simp [cut_lit, cut_esc, cut_ph]

theorem vals_reverse (ts : List (Tok α)) : vals ts.reverse = (vals ts).reverse := by simp [vals]

theorem vals_trimToks (ts : List (Tok α)) : vals (trimToks ts) = vals ts := by
  unfold trimToks
  rw [vals_reverse, vals_dropWhile, vals_reverse, vals_dropWhile, List.reverse_reverse]

/-! ### Clean documents -/

theorem Clean.of_append {a b : List (Tok α)} (h : Clean (a ++ b)) : Clean a ∧ Clean b := by
  rw [clean_iff] at *
  rw [clean_iff]
  have key : ∀ (a b : List (Tok α)), tokenize (raw (a ++ b)) = (a ++ b).map Tok.forget →
      tokenize (raw a) = a.map Tok.forget ∧ tokenize (raw b) = b.map Tok.forget := by
    intro a
    induction a with
    | nil => intro b h; exact ⟨rfl, by simpa using h⟩
    | cons t ts ih =>
      intro b h
      cases t with
      | ph x =>
        simp only [List.cons_append, raw_cons, Tok.raw, List.map_cons, Tok.forget, List.nil_append] at h ⊢
        have e : ∀ s, tokenize (63 :: s) = .ph () :: tokenize s := by intro s; cases s <;> simp [tokenize]
        rw [e] at h ⊢
        have := ih b (by simpa using h)
        simp [this]
      | esc =>
        simp only [List.cons_append, raw_cons, Tok.raw, List.map_cons, Tok.forget, List.nil_append] at h ⊢
        have e : ∀ s, tokenize (92 :: 63 :: s) = .esc :: tokenize s := by intro s; simp [tokenize]
        rw [e] at h ⊢
        have := ih b (by simpa using h)
        simp [this]
      | lit c =>
        simp only [List.cons_append, raw_cons, Tok.raw, List.map_cons, Tok.forget, List.nil_append] at h ⊢
        have e : tokenize (c :: raw (ts ++ b)) = .lit c :: tokenize (raw (ts ++ b)) := by
          cases hr : raw (ts ++ b) with
          | nil =>
            rw [hr] at h
            by_cases hc : c = 63
            · subst hc; simp [tokenize] at h
            · simp [tokenize, hc]
          | cons x xs =>
            rw [hr] at h
            by_cases hc : c = 63
            · subst hc; simp [tokenize] at h
            · by_cases hx : c = 92 ∧ x = 63
              · obtain ⟨rfl, rfl⟩ := hx; simp [tokenize] at h
              · simp [tokenize, hc, hx]
        rw [e] at h
        have hh := ih b (by simpa using h)
        refine ⟨?_, hh.2⟩
        have e2 : tokenize (c :: raw ts) = .lit c :: tokenize (raw ts) := by
          have hc : c ≠ 63 := by
            rintro rfl
            cases hr : raw (ts ++ b) <;> rw [hr] at e <;> simp [tokenize] at e
          cases hr : raw ts with
          | nil => simp [tokenize, hc]
          | cons x xs =>
            have hx : ¬ (c = 92 ∧ x = 63) := by
              rintro ⟨rfl, rfl⟩
              rw [raw_append, hr] at e
              simp [tokenize] at e
            simp [tokenize, hc, hx]
        rw [e2, hh.1]
  exact key a b h

theorem trimToks_infix (ts : List (Tok α)) : trimToks ts <:+: ts := by
  unfold trimToks
  have h1 : (ts.dropWhile Tok.cut) <:+ ts := List.dropWhile_suffix _
  have h2 : ((ts.dropWhile Tok.cut).reverse.dropWhile Tok.cut) <:+ (ts.dropWhile Tok.cut).reverse := List.dropWhile_suffix _
  have h3 : ((ts.dropWhile Tok.cut).reverse.dropWhile Tok.cut).reverse <+: ts.dropWhile Tok.cut := by
    have := List.reverse_prefix.2 h2; simpa using this
  exact h3.isInfix.trans h1.isInfix

theorem Clean.infix {a b : List (Tok α)} (h : Clean b) (hi : a <:+: b) : Clean a := by
  obtain ⟨x, y, rfl⟩ := hi
  exact (Clean.of_append (Clean.of_append h).1).2

theorem sepToks_clean (gs : List (Clause α)) (hok : ∀ g ∈ gs, PieceOK g) (p : Nat) :
    Clean (sepToks p gs) ∧ (raw (sepToks p gs)).getLast? ≠ some 92 := by
  induction gs generalizing p with
  | nil => exact ⟨clean_lits [] (by simp), by simp [sepToks]⟩
  | cons g gs ih =>
    have hg := hok g (by simp)
    have ih' := ih (fun x hx => hok x (by simp [hx])) g.pos
    have hs : Clean (if g.pos > p then ([.lit 32] : List (Tok α)) else []) ∧
        (raw (if g.pos > p then ([.lit 32] : List (Tok α)) else [])).getLast? ≠ some 92 := by
      split
      · exact ⟨clean_lits [32] (by decide), by simp [Tok.raw]⟩
      · exact ⟨clean_lits [] (by simp), by simp⟩
    simp only [sepToks]
    have h1 := hs.1.append hg.1 hs.2
    have h2 : (raw ((if g.pos > p then ([.lit 32] : List (Tok α)) else []) ++ g.toks)).getLast? ≠ some 92 := by
      rw [raw_append]; exact getLast?_append_ne hs.2 hg.2.1
    refine ⟨h1.append ih'.1 h2, ?_⟩
    rw [raw_append]; exact getLast?_append_ne h2 ih'.2

theorem doc_clean {q : Stmt α} {s : SpecState α} (h : Ref q s) : Clean (docToks s.doc) ∧ (raw (docToks s.doc)).getLast? ≠ some 92 := by
  obtain ⟨gs, hr, hd, -⟩ := h
  rw [hd]
  have hrO := hr.ok
  have hrS := hr.sorted.imp fun (h : _ ∧ _) => h.1
  cases gs with
  | nil => exact ⟨clean_lits [] (by simp), by simp [group, docToks]⟩
  | cons g gs =>
    rw [(docToks_group g gs hrS).1]
    have hg := hrO g (by simp)
    have := sepToks_clean gs (fun x hx => hrO x (by simp [hx])) g.pos
    refine ⟨hg.1.append this.1 hg.2.1, ?_⟩
    rw [raw_append]; exact getLast?_append_ne hg.2.1 this.2

/-- Without arguments there is no escape in the document either. -/
theorem doc_no_esc {q : Stmt α} {s : SpecState α} (h : Ref q s) (ha : vals (docToks s.doc) = []) : Tok.esc ∉ docToks s.doc := by
  obtain ⟨gs, hr, hd, -⟩ := h
  rw [hd] at ha ⊢
  have hrO := hr.ok
  have hrS := hr.sorted.imp fun (h : _ ∧ _) => h.1
  cases gs with
  | nil => simp [group, docToks]
  | cons g gs =>
    rw [(docToks_group g gs hrS).1] at ha ⊢
    have key : ∀ (l : List (Clause α)) (p : Nat), (∀ x ∈ l, PieceOK x) → vals (sepToks p l) = [] → Tok.esc ∉ sepToks p l := by
      intro l
      induction l with
      | nil => intro p _ _; simp [sepToks]
      | cons x xs ih =>
        intro p hk hv
        simp only [sepToks, vals_append, List.append_eq_nil_iff] at hv
        have h1 := ((hk x (by simp)).2.2.1 hv.1.2).1
        have h2 := ih x.pos (fun y hy => hk y (by simp [hy])) hv.2
        simp only [sepToks, List.mem_append, not_or]
        refine ⟨⟨?_, ?_⟩, h2⟩
        · split <;> simp
        · rw [h1]; simp [lits]
    simp only [vals_append, List.append_eq_nil_iff] at ha
    have h1 := ((hrO g (by simp)).2.2.1 ha.1).1
    simp only [List.mem_append, not_or]
    exact ⟨by rw [h1]; simp [lits], key gs g.pos (fun x hx => hrO x (by simp [hx])) ha.2⟩

/-! ### Fragments persist -/

theorem docToks_infix {d : List (Clause α)} {c : Clause α} (h : c ∈ d) : c.toks <:+: docToks d := by
  cases d with
  | nil => simp at h
  | cons x xs =>
    rw [docToks_cons]
    rcases List.mem_cons.1 h with rfl | h
    · exact (List.prefix_append _ _).isInfix
    · obtain ⟨a, b, rfl⟩ := List.append_of_mem h
      refine ⟨x.toks ++ (a.flatMap fun c => .lit 32 :: c.toks) ++ [.lit 32], b.flatMap fun c => .lit 32 :: c.toks, by simp⟩

theorem addFrag_mem {nl : Bool} {d : List (Clause α)} {f : Frag α} {c : Clause α} (hc : c ∈ d) (hne : c.pos ≠ f.pos) :
    c ∈ addFrag nl d f := by
  unfold addFrag
  rcases Nat.lt_or_gt_of_ne hne with h | h
  · exact List.mem_append_left _ (List.mem_filter.2 ⟨hc, by simpa using h⟩)
  · exact List.mem_append_right _ (List.mem_cons_of_mem _ (List.mem_filter.2 ⟨hc, by simpa using h⟩))

/-- A clause keeps what it has: later fragments only append (except for LIMIT and OFFSET). -/
theorem addFrag_prefix {nl : Bool} {d : List (Clause α)} {f : Frag α} (hf : FragIn d f)
    (huniq : ∀ c ∈ d, ∀ c' ∈ d, c.pos = c'.pos → c = c')
    {c : Clause α} (hc : c ∈ d) (hs : ¬ single c.pos) :
    ∃ c' ∈ addFrag nl d f, c'.pos = c.pos ∧ c.toks <+: c'.toks := by
  by_cases hp : c.pos = f.pos
  · have hfind : d.find? (fun c => decide (c.pos = f.pos)) = some c := by
      cases h : d.find? (fun c => decide (c.pos = f.pos)) with
      | none => rw [List.find?_eq_none] at h; have := h c hc; simp [hp] at this
      | some x =>
        have h1 := List.find?_some h
        have h2 := List.mem_of_find?_eq_some h
        have := huniq x h2 c hc (by simp at h1; omega)
        rw [this]
    refine ⟨c.extend f, ?_, ?_⟩
    · unfold addFrag; rw [hfind]; exact List.mem_append_right _ List.mem_cons_self
    · unfold Clause.extend
      split
      · rename_i he
        split
        · exact ⟨rfl, List.prefix_refl _⟩
        · rename_i ha
          exact absurd (hf.r he ha ⟨c, hc, hp⟩) (by rw [← hp]; exact hs)
      · exact ⟨rfl, by rw [List.append_assoc]; exact List.prefix_append _ _⟩
  · exact ⟨c, addFrag_mem hc hp, rfl, List.prefix_refl _⟩

/-- The text a fragment with arguments contributes. -/
def Frag.text (f : Frag α) : Bytes := if f.expr = [] then f.kw else f.expr

theorem addFrag_infix {nl : Bool} {d : List (Clause α)} {f : Frag α} (hf : FragIn d f) (ha : f.args ≠ []) (hs : ¬ single f.pos) :
    ∃ c ∈ addFrag nl d f, c.pos = f.pos ∧ bound f.text f.args <:+: c.toks := by
  cases hfind : d.find? (fun c => decide (c.pos = f.pos)) with
  | some c =>
    have hp := List.find?_some hfind
    have hm := List.mem_of_find?_eq_some hfind
    simp at hp
    have he : f.expr ≠ [] := fun he => hs (hf.r he ha ⟨c, hm, hp⟩)
    refine ⟨c.extend f, ?_, ?_⟩
    · unfold addFrag; rw [hfind]; exact List.mem_append_right _ List.mem_cons_self
    · unfold Clause.extend Frag.text
      simp only [he, if_false]
      exact ⟨hp, (List.suffix_append _ _).isInfix⟩
  | none =>
    refine ⟨⟨f.pos, f.start nl, decide (f.expr ≠ [])⟩, ?_, rfl, ?_⟩
    · unfold addFrag; rw [hfind]; exact List.mem_append_right _ List.mem_cons_self
    · simp only [Frag.start, Frag.text]
      have hnl : FragOK (α := α) (if nl then b!"\n" else []) [] := by
        cases nl
        · exact FragOK.const (by simp) (by simp)
        · exact FragOK.const (by decide) (by decide)
      by_cases he : f.expr = []
      · have hk := hf.k he
        have hkw : f.kw ≠ [] := by intro h; rw [h] at hk; exact ha hk.nil_args
        have := bound_append hnl hk
        simp only [List.nil_append] at this
        simp only [he, if_true, if_neg hkw, List.append_nil]
        rw [this]
        exact (List.suffix_append _ _).isInfix
      · obtain ⟨h1, h2⟩ := hf.e he
        simp only [he, if_false]
        by_cases hkw : f.kw = []
        · simp [hkw]
        · simp only [hkw, if_false]
          have hks : FragOK (α := α) (f.kw ++ b!" ") [] := FragOK.const (by simp [h2]) (by simp)
          have := bound_append (hnl.append hks) h1
          simp only [List.nil_append, List.append_assoc] at this ⊢
          rw [this]
          exact (List.suffix_append _ _).isInfix

end Xsql
