import Verif.Xsql.WorldSpec
import Verif.Xsql.ClosedLemmas
import Verif.Xsql.Props
set_option linter.unusedSimpArgs false
set_option linter.unusedVariables false
namespace Xsql
variable {α : Type}

/-! ### Statements built in clause order: the buffer determines the text -/

/-- Last byte, or `p` for the empty text. -/
def lastOr (p : UInt8) (s : Bytes) : UInt8 := s.getLast?.getD p

theorem breaksOK_append (p : UInt8) (a b : Bytes) : breaksOK p (a ++ b) = (breaksOK p a && breaksOK (lastOr p a) b) := by
  induction a generalizing p with
  | nil => simp [breaksOK, lastOr]
  | cons x a ih =>
    simp only [List.cons_append, breaksOK, ih]
    have : lastOr p (x :: a) = lastOr x a := by
      cases a with
      | nil => simp [lastOr]
      | cons y a => simp only [lastOr]; rw [List.getLast?_cons_cons]; simp [List.getLast?_eq_some_getLast]
    rw [this, Bool.and_assoc]

theorem breaksOK_no_nl (p : UInt8) (s : Bytes) (h : (10 : UInt8) ∉ s) : breaksOK p s = true := by
  induction s generalizing p with
  | nil => rfl
  | cons x s ih => simp at h; simp [breaksOK, ih x h.2, Ne.symm h.1]

/-- Only the first byte looks at the byte before. -/
theorem breaksOK_any (p : UInt8) {s : Bytes} (h : breaksOK 0 s = true) : breaksOK p s = true := by
  cases s with
  | nil => rfl
  | cons x s => simp [breaksOK] at h ⊢; exact ⟨.inl h.1, h.2⟩

/-- The text of a clause: starts with the only line break that does not follow a space. -/
def Piece (t : Bytes) : Prop := ∃ u, t = 10 :: u ∧ breaksOK 10 u = true ∧ t.getLast? ≠ some 32

/-- Insert a space before every line break that does not follow one. -/
def spaced : UInt8 → Bytes → Bytes
  | _, [] => []
  | p, b :: s => (if b = 10 ∧ p ≠ 32 then [32, 10] else [b]) ++ spaced b s

theorem spaced_append (p : UInt8) (a b : Bytes) : spaced p (a ++ b) = spaced p a ++ spaced (lastOr p a) b := by
  induction a generalizing p with
  | nil => simp [spaced, lastOr]
  | cons x a ih =>
    simp only [List.cons_append, spaced, ih]
    have : lastOr p (x :: a) = lastOr x a := by
      cases a with
      | nil => simp [lastOr]
      | cons y a => simp only [lastOr]; rw [List.getLast?_cons_cons]; simp [List.getLast?_eq_some_getLast]
    rw [this]; simp

theorem spaced_ok (p : UInt8) (s : Bytes) (h : breaksOK p s = true) : spaced p s = s := by
  induction s generalizing p with
  | nil => rfl
  | cons x s ih =>
    simp only [breaksOK, Bool.and_eq_true, Bool.or_eq_true, bne_iff_ne, beq_iff_eq] at h
    simp only [spaced, ih x h.2]
    rw [if_neg]
    · rfl
    · rintro ⟨h1, h2⟩; rcases h.1 with h' | h'
      · exact h' h1
      · exact h2 h'

theorem spaced_piece {p : UInt8} {t : Bytes} (h : Piece t) : spaced p t = (if p = 32 then [] else [32]) ++ t := by
  obtain ⟨u, rfl, hu, hl⟩ := h
  simp only [spaced, spaced_ok 10 u hu]
  by_cases hp : p = 32 <;> simp [hp]

theorem lastOr_piece {p : UInt8} {t : Bytes} (h : Piece t) : lastOr p t ≠ 32 := by
  obtain ⟨u, ht, hu, hl⟩ := h
  unfold lastOr
  cases hg : t.getLast? with
  | none => rw [ht] at hg; simp at hg
  | some x => simp only [Option.getD_some]; rw [hg] at hl; exact fun e => hl (by rw [e])

theorem spaced_flatten (ps : List Bytes) (h : ∀ t ∈ ps, Piece t) (p : UInt8) (hp : p ≠ 32) :
    spaced p ps.flatten = (ps.map fun t => 32 :: t).flatten := by
  induction ps generalizing p with
  | nil => rfl
  | cons t ps ih =>
    have ht := h t (by simp)
    simp only [List.flatten_cons, List.map_cons, spaced_append, spaced_piece ht, hp, if_false]
    rw [ih (fun x hx => h x (by simp [hx])) _ (lastOr_piece ht)]
    simp

theorem joinBytes_cons_ord (t : Bytes) (ps : List Bytes) : joinBytes b!" " (t :: ps) = t ++ (ps.map fun t => 32 :: t).flatten := by
  induction ps generalizing t with
  | nil => simp [joinBytes]
  | cons u ps ih => rw [joinBytes, ih]; · simp
                    · simp

theorem spaced_join (ps : List Bytes) (h : ∀ t ∈ ps, Piece t) : spaced 32 ps.flatten = joinBytes b!" " ps := by
  cases ps with
  | nil => rfl
  | cons t ps =>
    have ht := h t (by simp)
    rw [joinBytes_cons_ord, List.flatten_cons, spaced_append, spaced_piece ht, if_pos rfl,
      spaced_flatten ps (fun x hx => h x (by simp [hx])) _ (lastOr_piece ht)]
    rfl

/-- The buffer holds the clauses one after the other. -/
structure Lin (q : Stmt α) (d : List (Clause α)) : Prop where
  buf : q.buf = (d.map fun c => raw c.toks).flatten
  strict : q.chunks.Pairwise fun a b => a.pos < b.pos
  last : ∀ c, q.chunks.getLast? = some c → c.high = q.buf.length
  piece : ∀ c ∈ d, Piece (raw c.toks)

theorem group_of_strict (gs : List (Clause α)) (h : gs.Pairwise fun a b => a.pos < b.pos) : group gs = gs := by
  induction gs with
  | nil => rfl
  | cons g gs ih =>
    rw [List.pairwise_cons] at h
    simp only [group, ih h.2]
    cases gs with
    | nil => rfl
    | cons e es =>
      have := h.1 e (by simp)
      simp only [if_neg (show ¬ e.pos = g.pos by omega)]

theorem strict_of_chunks {buf : Bytes} {cs : List Chunk} {gs : List (Clause α)} (h : List.Forall₂ (RepChunk buf) cs gs)
    (hs : cs.Pairwise fun a b => a.pos < b.pos) : gs.Pairwise fun a b => a.pos < b.pos := by
  induction h with
  | nil => exact .nil
  | @cons c g cs gs hx ht ih =>
    rw [List.pairwise_cons] at hs
    refine .cons ?_ (ih hs.2)
    intro g' hg
    obtain ⟨c', hc', hp⟩ : ∃ c' ∈ cs, c'.pos = g'.pos := by
      clear ih hs
      induction ht with
      | nil => simp at hg
      | cons hy _ ih2 =>
        rcases List.mem_cons.1 hg with rfl | hg
        · exact ⟨_, List.mem_cons_self, hy.pos⟩
        · obtain ⟨c', h1, h2⟩ := ih2 hg; exact ⟨c', List.mem_cons_of_mem _ h1, h2⟩
    have := hs.1 c' hc'
    rw [← hx.pos]; omega

theorem forall2_snoc {R : Chunk → Clause α → Prop} {A : List Chunk} {c : Chunk} {gs : List (Clause α)} (h : List.Forall₂ R (A ++ [c]) gs) :
    ∃ G g, gs = G ++ [g] ∧ List.Forall₂ R A G ∧ R c g := by
  induction A generalizing gs with
  | nil =>
    cases h with
    | cons hx ht => cases ht; exact ⟨[], _, rfl, .nil, hx⟩
  | cons a A ih =>
    cases h with
    | cons hx ht =>
      obtain ⟨G, g, rfl, h1, h2⟩ := ih ht
      exact ⟨_ :: G, g, rfl, .cons hx h1, h2⟩

theorem start_piece {d : List (Clause α)} {f : Frag α} (hf : FragIn d f) (hk : f.kw ≠ []) (t1 : Tidy f.kw) (t2 : Tidy f.expr) :
    Piece (raw (f.start true)) := by
  have hr : raw (f.start true) = startText true f := (start_ok (nl := true) hf).info.raw
  rw [hr]
  unfold startText
  simp only [hk, if_false, if_true]
  by_cases he : f.expr = []
  · refine ⟨f.kw, by simp [he], breaksOK_any 10 t1.1, ?_⟩
    simp only [he, if_true, List.append_nil]
    cases hkk : f.kw with
    | nil => exact absurd hkk hk
    | cons x xs =>
      have := t1.2
      rw [hkk] at this
      simpa [List.getLast?_cons_cons] using this
  · refine ⟨f.kw ++ b!" " ++ f.expr, by simp [he], ?_, ?_⟩
    · rw [breaksOK_append, breaksOK_append, breaksOK_any 10 t1.1, breaksOK_any _ t2.1]
      simp [breaksOK]
    · simp only [he, if_false]
      rw [List.getLast?_append]
      cases hx : f.expr.getLast? with
      | none => simp at hx; exact absurd hx he
      | some x => have := t2.2; rw [hx] at this; simpa using this

theorem extend_piece {c : Clause α} {t : Bytes} {sep : Bytes} (h : Piece t) (hs : (10 : UInt8) ∉ sep) {e : Bytes} (he : e ≠ []) (t2 : Tidy e) :
    Piece (t ++ sep ++ e) := by
  obtain ⟨u, rfl, hu, hl⟩ := h
  refine ⟨u ++ sep ++ e, by simp, ?_, ?_⟩
  · rw [breaksOK_append, breaksOK_append, hu, breaksOK_no_nl _ _ hs, breaksOK_any _ t2.1]; rfl
  · rw [List.getLast?_append]
    cases hx : e.getLast? with
    | none => simp at hx; exact absurd hx he
    | some x => have := t2.2; rw [hx] at this; simpa using this

theorem addFrag_end_new {nl : Bool} {d : List (Clause α)} {f : Frag α} (h : ∀ c ∈ d, c.pos < f.pos) :
    addFrag nl d f = d ++ [⟨f.pos, f.start nl, decide (f.expr ≠ [])⟩] := by
  unfold addFrag
  have h1 : d.filter (fun c => decide (c.pos < f.pos)) = d := List.filter_eq_self.2 fun c hc => by simpa using h c hc
  have h2 : d.filter (fun c => decide (f.pos < c.pos)) = [] := List.filter_eq_nil_iff.2 fun c hc => by have := h c hc; simp; omega
  have h3 : d.find? (fun c => decide (c.pos = f.pos)) = none := List.find?_eq_none.2 fun c hc => by have := h c hc; simp; omega
  rw [h1, h2, h3]

theorem addFrag_end_same {nl : Bool} {G : List (Clause α)} {g : Clause α} {f : Frag α} (h : ∀ c ∈ G, c.pos < f.pos) (hg : g.pos = f.pos) :
    addFrag nl (G ++ [g]) f = G ++ [g.extend f] := by
  unfold addFrag
  have h1 : (G ++ [g]).filter (fun c => decide (c.pos < f.pos)) = G := by
    rw [List.filter_append, List.filter_eq_self.2 fun c hc => by simpa using h c hc]
    simp [hg]
  have h2 : (G ++ [g]).filter (fun c => decide (f.pos < c.pos)) = [] := List.filter_eq_nil_iff.2 fun c hc => by
    rcases List.mem_append.1 hc with hc | hc
    · have := h c hc; simp; omega
    · simp at hc; subst hc; simp; omega
  have h3 : (G ++ [g]).find? (fun c => decide (c.pos = f.pos)) = some g := by
    rw [List.find?_append, List.find?_eq_none.2 fun c hc => by have := h c hc; simp; omega]
    simp [hg]
  rw [h1, h2, h3]

theorem lin_addF {q : Stmt α} {s : SpecState α} {f : Frag α} (hr : Ref q s) (hl : Lin q s.doc) (hnl : s.nl = true) (hf : FragIn s.doc f)
    (h1 : ∀ c ∈ s.doc, c.pos ≤ f.pos) (h2 : (∀ c ∈ s.doc, c.pos ≠ f.pos) → f.kw ≠ []) (t1 : Tidy f.kw) (t2 : Tidy f.expr) (hs : (10 : UInt8) ∉ f.sep) :
    Lin (q.addF f) (addFrag true s.doc f) := by
  obtain ⟨gs, hrep, hd, -, hn, -⟩ := hr
  have hst := strict_of_chunks hrep.chunks hl.strict
  have hg : s.doc = gs := by rw [hd, group_of_strict gs hst]
  rw [hg] at h1 h2 hf ⊢
  have hnl' : q.useNewLines = true := by rw [← hn, hnl]
  have hbuf : q.buf = (gs.map fun c => raw c.toks).flatten := by rw [← hg]; exact hl.buf
  have hpc : ∀ c ∈ gs, Piece (raw c.toks) := by rw [← hg]; exact hl.piece
  by_cases hnew : ∀ c ∈ gs, c.pos < f.pos
  · have hch : ∀ c ∈ q.chunks, c.pos < f.pos := forall2_pos hrep.chunks (P := fun p => p < f.pos) hnew
    have e := addChunk_new q f q.chunks [] (by simp) hch (by simp)
    have hraw : raw (f.start true) = startText true f := (start_ok (nl := true) hf).info.raw
    rw [addFrag_end_new hnew]
    unfold Stmt.addF Stmt.add
    rw [e]
    refine ⟨?_, ?_, ?_, ?_⟩
    · simp [hbuf, hraw, hnl']
    · show (q.chunks ++ [_]).Pairwise _
      rw [List.pairwise_append]
      exact ⟨hl.strict, by simp, fun a ha b hb => by simp at hb; subst hb; exact hch a ha⟩
    · intro c hc; simp at hc; subst hc; simp
    · intro c hc
      rcases List.mem_append.1 hc with hc | hc
      · exact hpc c hc
      · simp at hc; subst hc
        exact start_piece hf (h2 fun c hc => Nat.ne_of_lt (hnew c hc)) t1 t2
  · -- the last clause
    have hex : ∃ G g, gs = G ++ [g] ∧ g.pos = f.pos ∧ ∀ c ∈ G, c.pos < f.pos := by
      rcases List.eq_nil_or_concat gs with h0 | ⟨G, g, h0⟩
      · rw [h0] at hnew; simp at hnew
      · rw [List.concat_eq_append] at h0
        have hG : ∀ c ∈ G, c.pos < g.pos := fun c hc => by
          rw [h0, List.pairwise_append] at hst; exact hst.2.2 c hc g (by simp)
        have hgp : g.pos = f.pos := by
          by_contra hne
          apply hnew
          intro c hc
          have := h1 g (by rw [h0]; simp)
          rw [h0] at hc
          rcases List.mem_append.1 hc with hc | hc
          · have := hG c hc; omega
          · simp at hc; subst hc; omega
        exact ⟨G, g, h0, hgp, fun c hc => by have := hG c hc; omega⟩
    obtain ⟨G, g, rfl, hgp, hG⟩ := hex
    obtain ⟨A, B, hAB, hA, hB⟩ := forall2_append_right hrep.chunks
    cases hB with
    | @cons c _ B _ hcg hB' =>
      cases hB'
      have hcA : ∀ x ∈ A, x.pos < f.pos := forall2_pos hA (P := fun p => p < f.pos) hG
      have hcp : c.pos = f.pos := by rw [hcg.pos, hgp]
      have hhigh : c.high = q.buf.length := hl.last c (by rw [hAB]; simp)
      have hext := addFrag_end_same (nl := true) hG hgp
      rw [hext]
      have hgok : PieceOK g := hrep.ok g (by simp)
      unfold Stmt.addF Stmt.add
      by_cases he : f.expr = []
      · have e := addChunk_same q f A [] c (by simpa using hAB) (fun x hx => Nat.le_of_lt (hcA x hx)) hcp (by simp) he
        rw [e]
        have hraw : raw (g.extend f).toks = raw g.toks := by
          unfold Clause.extend
          simp only [he, if_true]
          split
          · rfl
          · rename_i ha
            have hsing := hf.r he ha ⟨g, by simp, hgp⟩
            have hlen := (hf.s hsing).2
            exact (rebind hgok (hgok.2.2.2 (by rw [hgp]; exact hsing)) hlen).2.1
        refine ⟨?_, hl.strict, fun c' hc' => hl.last c' hc', ?_⟩
        · show q.buf = _
          rw [hbuf]; simp [hraw]
        · intro c' hc'
          rcases List.mem_append.1 hc' with hc' | hc'
          · exact hpc c' (by simp [hc'])
          · simp at hc'; subst hc'; rw [hraw]; exact hpc g (by simp)
      · have e := addChunk_merge q f A [] c (by simpa using hAB) (fun x hx => Nat.le_of_lt (hcA x hx)) hcp (by simp) he hhigh
        rw [e]
        have hsepnl : (10 : UInt8) ∉ (if g.hasExpr then f.sep else b!" ") := by
          split
          · exact hs
          · decide
        have hraw : raw (g.extend f).toks = raw g.toks ++ (if g.hasExpr then f.sep else b!" ") ++ f.expr := by
          unfold Clause.extend
          simp only [he, if_false]
          have := (hf.e he).1.info.raw
          simp [this]
        refine ⟨?_, ?_, ?_, ?_⟩
        · simp [hbuf, hraw, hcg.he]
        · have := hl.strict
          rw [hAB, List.pairwise_append] at this
          show (A ++ [_] ++ []).Pairwise _
          rw [List.append_nil, List.pairwise_append]
          exact ⟨this.1, by simp, fun a ha b hb => by simp at hb; subst hb; simpa [hcp] using hcA a ha⟩
        · intro c' hc'; simp at hc'; subst hc'; simp
        · intro c' hc'
          rcases List.mem_append.1 hc' with hc' | hc'
          · exact hpc c' (by simp [hc'])
          · simp at hc'; subst hc'; rw [hraw]; exact extend_piece (c := g) (hpc g (by simp)) hsepnl he t2

theorem lin_frags {q : Stmt α} {s : SpecState α} (fs : List (Frag α)) (hr : Ref q s) (hl : Lin q s.doc) (hnl : s.nl = true) (hf : FragsIn true s.doc fs)
    (ho : FragsInOrder s.doc fs) : Lin (fs.foldl Stmt.addF q) (fs.foldl (addFrag true) s.doc) := by
  induction fs generalizing q s with
  | nil => exact hl
  | cons f fs ih =>
    obtain ⟨o1, o2, o3, o4, o5, o6⟩ := ho
    have h1 := lin_addF hr hl hnl hf.1 o1 o2 o3 o4 o5
    have hr' := ref_addF hr hf.1
    have := ih (s := { s with doc := addFrag s.nl s.doc f, cur := f.pos }) hr' (by rw [hnl]; exact h1) hnl (by rw [hnl]; exact hf.2) (by rw [hnl]; exact o6)
    simp only [List.foldl_cons]
    rw [hnl] at this
    exact this

/-- A call writes its fragments. -/
theorem call_frags {q : Stmt α} {s : SpecState α} {c : Call α} (h : Ref q s) (hok : CallOK s c) :
    (q.call c).buf = ((s.frags c).foldl Stmt.addF q).buf ∧ (q.call c).chunks = ((s.frags c).foldl Stmt.addF q).chunks := by
  have cur := h.choose_spec.2.2.1
  have one : ∀ {q' : Stmt α} {f : Frag α}, q' = q.addF f → s.frags c = [f] →
      q'.buf = ((s.frags c).foldl Stmt.addF q).buf ∧ q'.chunks = ((s.frags c).foldl Stmt.addF q).chunks := by
    intro q' f h1 h2; rw [h1, h2]; exact ⟨rfl, rfl⟩
  cases c with
  | expr e as => refine one (f := ⟨s.cur, [], e, as, b!", "⟩) ?_ rfl; rw [cur]; rfl
  | clause e as => refine one (f := ⟨s.clausePos, e, [], as, b!", "⟩) ?_ rfl; rw [← clausePos_eq h]; rfl
  | subQuery pre suf sub as =>
    refine one (f := ⟨s.cur, [], pre ++ sub ++ suf, as, if s.cur = posWhere then b!" AND " else b!", "⟩) ?_ rfl
    rw [cur]; exact subQuery_eq h.sorted _ _ _ _ hok.1
  | union all sub as =>
    refine one (f := ⟨s.unionPos, (if all then b!"UNION ALL " else b!"UNION ") ++ sub, [], as, []⟩) ?_ rfl
    rw [← unionPos_eq h]; exact (union_eq h.sorted all sub as).1
  | toDest ds => simp only [Stmt.call, Stmt.to, SpecState.frags, List.foldl_nil]; split <;> exact ⟨rfl, rfl⟩
  | insertInto t =>
    have e1 : posInsertFields - 1 = 399 := rfl
    have e2 : posValues - 1 = 499 := rfl
    have e3 : posValues + 1 = 501 := rfl
    simp only [Stmt.call, Stmt.insertInto, e1, e2, e3, SpecState.frags, List.foldl_cons, List.foldl_nil, Stmt.addF]
    exact ⟨trivial, trivial⟩
  | setExpr f e as =>
    have hm := setMode_eq h.sorted
    have hi := has_iff h posInsert
    have hu := has_iff h posUpdate
    simp only [Stmt.call, Stmt.setExpr]
    rw [hm]
    by_cases h1 : s.has posInsert = true
    · rw [if_pos (hi.1 h1), if_pos rfl]; simp only [SpecState.frags, h1, if_true]; exact ⟨rfl, rfl⟩
    · rw [if_neg (fun hh => h1 (hi.2 hh))]
      by_cases h2 : s.has posUpdate = true
      · rw [if_pos (hu.1 h2), if_neg (by decide), if_pos rfl]; simp only [SpecState.frags, h1, h2, if_true]; exact ⟨rfl, rfl⟩
      · rw [if_neg (fun hh => h2 (hu.2 hh)), if_neg (by decide), if_neg (by decide)]; simp only [SpecState.frags, h1, h2]; exact ⟨rfl, rfl⟩
  | with_ n sub as =>
    have hE : FragOK (α := α) [] [] := FragOK.const (by simp) (by simp)
    have h1 := ref_addF h (f := ⟨posWith, b!"WITH", [], [], []⟩) (FragIn.mk' hE (by decide) (by decide) (by decide) sepOK_nil)
    have hp : (q.add posWith b!"WITH" [] [] []).pos = posWith := (h1.choose_spec.2.2.1).symm
    have e : q.call (.with_ n sub as) = (q.addF ⟨posWith, b!"WITH", [], [], []⟩).addF ⟨posWith, [], n ++ b!" AS (" ++ sub ++ b!")", as, b!", "⟩ := by
      simp only [Stmt.call, Stmt.with_]
      have := subQuery_eq h1.sorted (n ++ b!" AS (") b!")" sub as (by simp)
      rw [show (q.addF ⟨posWith, b!"WITH", [], [], []⟩) = q.add posWith b!"WITH" [] [] [] from rfl] at this ⊢
      rw [this, hp]; rfl
    rw [e]; exact ⟨rfl, rfl⟩
  | newRow =>
    have hv := has_iff h posValues
    simp only [Stmt.call, Stmt.newRow]
    rw [newRow_first h.sorted]
    by_cases h1 : s.has posValues = true
    · have h1' := hv.1 h1
      simp only [h1', not_true_eq_false, decide_false, SpecState.frags, h1, if_true]; exact ⟨rfl, rfl⟩
    · have h1' : ¬ ∃ c ∈ q.chunks, c.pos = posValues := fun hh => h1 (hv.2 hh)
      simp only [h1', not_false_eq_true, decide_true, if_true, SpecState.frags, h1]; exact ⟨rfl, rfl⟩
  | rowSetExpr r f e as =>
    simp only [Stmt.call, Stmt.rowSetExpr]
    by_cases hr : r.first = true
    · simp only [hr, if_true, SpecState.frags]; exact ⟨rfl, rfl⟩
    · simp only [hr, SpecState.frags]; exact ⟨rfl, rfl⟩
  | in_ as => exact one (in_call q as) rfl
  | join k t o => exact one (join_call q k t o) rfl
  | _ => exact one rfl rfl

theorem lin_calls {q : Stmt α} {s : SpecState α} (cs : List (Call α)) (hr : Ref q s) (hl : Lin q s.doc) (hnl : s.nl = true) (hok : CallsOK s cs)
    (ho : CallsInOrder s cs) : Lin (cs.foldl Stmt.call q) (cs.foldl SpecState.call s).doc := by
  induction cs generalizing q s with
  | nil => exact hl
  | cons c cs ih =>
    refine ih (ref_call hr hok.1) ?_ hnl hok.2 ho.2
    have hf := frags_in hr hok.1
    rw [hnl] at hf
    have h1 := lin_frags (s.frags c) hr hl hnl hf ho.1
    obtain ⟨e1, e2⟩ := call_frags hr hok.1
    have : (s.call c).doc = (s.frags c).foldl (addFrag true) s.doc := by rw [← hnl]; rfl
    rw [this]
    exact ⟨by rw [e1]; exact h1.buf, by rw [e2]; exact h1.strict, by rw [e2, e1]; exact h1.last, h1.piece⟩

theorem lin_build {st : Nat} {cs : List (Call α)} (d : Dia) (h : CallsOK (SpecState.fresh true st) cs) (ho : CallsInOrder (SpecState.fresh true st) cs) :
    Lin (build d true st cs) (spec true st cs).doc := by
  refine lin_calls cs (ref_fresh (newStmt d true st) rfl rfl rfl) ?_ rfl h ho
  exact ⟨rfl, .nil, by simp [newStmt], by simp [SpecState.fresh]⟩

/-- The text of a statement built in clause order is determined by the text in call order. -/
theorem render_of_buf {st st' : Nat} {cs cs' : List (Call α)} (d : Dia) (h : CallsOK (SpecState.fresh true st) cs) (ho : CallsInOrder (SpecState.fresh true st) cs)
    (h' : CallsOK (SpecState.fresh true st') cs') (ho' : CallsInOrder (SpecState.fresh true st') cs')
    (hb : (build d true st cs).buf = (build d true st' cs').buf) : (build d true st cs).render = (build d true st' cs').render := by
  have a := lin_build d h ho
  have b := lin_build d h' ho'
  have ra := build_ref d h
  have rb := build_ref d h'
  have e1 : raw (docToks (spec true st cs).doc) = raw (docToks (spec true st' cs').doc) := by
    rw [raw_docToks, raw_docToks, ← spaced_join _ (by simpa using a.piece), ← spaced_join _ (by simpa using b.piece), ← a.buf, ← b.buf, hb]
  rw [(render_eq ra).1, (render_eq rb).1, (build_fields d true st cs).1, (build_fields d true st' cs').1]
  unfold written
  split
  · have ca := (doc_clean ra).1.toks_eq
    have cb := (doc_clean rb).1.toks_eq
    rw [← numbered_forget 1 (docToks _), ← ca, e1, cb, numbered_forget]
  · rw [e1]

end Xsql
