import Verif.Xsql.RefLemmas
/- Every builder call refines the specification; rendering. -/
namespace Xsql
variable {α : Type}

theorem sepOK_comma : (63 : UInt8) ∉ b!", " ∧ (92 : UInt8) ∉ b!", " := by decide
theorem sepOK_and : (63 : UInt8) ∉ b!" AND " ∧ (92 : UInt8) ∉ b!" AND " := by decide
theorem sepOK_nil : (63 : UInt8) ∉ ([] : Bytes) ∧ (92 : UInt8) ∉ ([] : Bytes) := by simp
theorem sepOK_space : (63 : UInt8) ∉ b!" " ∧ (92 : UInt8) ∉ b!" " := by decide

theorem inText_eq (n : Nat) : inText n = inList n := by
  have h : ∀ m, joinBytes b!"," (List.replicate (m + 1) b!"?") = (List.replicate m b!"?,").flatten ++ b!"?" := by
    intro m
    induction m with
    | zero => rfl
    | succ m ih =>
      rw [List.replicate_succ, List.replicate_succ, joinBytes, ← List.replicate_succ, ih, List.replicate_succ, List.flatten_cons]
      · rfl
      · simp
  unfold inText inList
  cases n with
  | zero => rfl
  | succ m => rw [h]; simp

theorem joinText_eq (k : JoinKind) (t o : Bytes) : joinText k t o = joinWord k ++ b!" " ++ t ++ b!" ON (" ++ o ++ b!")" := by
  cases k <;> rfl

theorem in_call (q : Stmt α) (as : List α) : q.call (.in_ as) = q.addF ⟨posWhere, [], inList as.length, as, b!" "⟩ := by
  unfold Stmt.addF; rw [← inText_eq]; rfl

theorem join_call (q : Stmt α) (k : JoinKind) (t o : Bytes) :
    q.call (.join k t o) = q.addF ⟨posFrom, [], joinWord k ++ b!" " ++ t ++ b!" ON (" ++ o ++ b!")", [], b!" "⟩ := by
  unfold Stmt.addF; rw [← joinText_eq]; rfl

theorem inText_ok (as : List α) : FragOK (inList as.length) as := by
  rw [← inText_eq]
  have hq : ∀ a : α, FragOK b!"?" [a] := fun a => ⟨rfl, by decide, by simp⟩
  have hqc : ∀ a : α, FragOK b!"?," [a] := fun a => ⟨rfl, by decide, by simp⟩
  have key : ∀ as : List α, FragOK (if as.length = 0 then [] else (List.replicate (as.length - 1) b!"?,").flatten ++ b!"?") as := by
    intro as
    induction as with
    | nil => exact FragOK.const (by simp) (by simp)
    | cons a as ih =>
      cases as with
      | nil => simpa using hq a
      | cons b bs =>
        simp only [List.length_cons] at ih ⊢
        rw [if_neg (by omega)] at ih ⊢
        have := (hqc a).append ih
        simp only [List.singleton_append] at this
        have e : bs.length + 1 + 1 - 1 = (bs.length + 1 - 1) + 1 := by omega
        rw [e, List.replicate_succ, List.flatten_cons, List.append_assoc]
        exact this
  have h1 : FragOK (α := α) b!"IN (" [] := FragOK.const (by decide) (by decide)
  have h2 : FragOK (α := α) b!")" [] := FragOK.const (by decide) (by decide)
  have := (h1.append (key as)).append h2
  simpa [inText] using this

theorem joinText_ok {k : JoinKind} {t o : Bytes} (ht : FragOK (α := α) t []) (ho : FragOK (α := α) o []) :
    FragOK (α := α) (joinWord k ++ b!" " ++ t ++ b!" ON (" ++ o ++ b!")") [] := by
  have hk : FragOK (α := α) (joinWord k ++ b!" ") [] := by cases k <;> exact FragOK.const (by decide) (by decide)
  have h1 : FragOK (α := α) b!" ON (" [] := FragOK.const (by decide) (by decide)
  have h2 : FragOK (α := α) b!")" [] := FragOK.const (by decide) (by decide)
  exact (((hk.append ht).append h1).append ho).append h2

theorem joinBytes_ok {es : List Bytes} (h : ∀ e ∈ es, FragOK (α := α) e []) : FragOK (α := α) (joinBytes b!", " es) [] := by
  induction es with
  | nil => exact FragOK.const (by simp [joinBytes]) (by simp [joinBytes])
  | cons e es ih =>
    cases es with
    | nil => exact h e (by simp)
    | cons e' es =>
      have h2 : FragOK (α := α) b!", " [] := FragOK.const (by decide) (by decide)
      exact ((h e (by simp)).append h2).append (ih fun x hx => h x (by simp [hx]))

theorem not_has {s : SpecState α} {p : Nat} (h : s.has p = false) : ∀ c ∈ s.doc, c.pos ≠ p := by
  intro c hc hp
  have : s.has p = true := by
    unfold SpecState.has; rw [List.any_eq_true]; exact ⟨c, hc, by simp [hp]⟩
  simp [this] at h

theorem has_false_of {q : Stmt α} {s : SpecState α} (h : Ref q s) {p : Nat} (hp : ∀ c ∈ q.chunks, c.pos ≠ p) : s.has p = false := by
  cases hh : s.has p with
  | false => rfl
  | true => obtain ⟨c, hc, hcp⟩ := (has_iff h p).1 hh; exact absurd hcp (hp c hc)

/-- One fragment. -/
theorem ref_call1 {q q' : Stmt α} {s : SpecState α} {c : Call α} {f : Frag α} (h : Ref q s)
    (hq : q' = q.addF f) (hf : s.frags c = [f]) (hi : FragIn s.doc f)
    (hc1 : ∀ t, c ≠ .insertInto t) (hc2 : ∀ d, c ≠ .toDest d) : Ref q' (s.call c) := by
  have := ref_addF h hi
  rw [hq]
  have e : s.call c = { s with doc := addFrag s.nl s.doc f, cur := f.pos } := by
    unfold SpecState.call
    rw [hf]
    cases c <;> first | rfl | exact absurd rfl (hc1 _) | exact absurd rfl (hc2 _)
  rw [e]; exact this

theorem clausePos_gt {q : Stmt α} (hs : q.chunks.Pairwise fun a b => a.pos ≤ b.pos) : ∀ c ∈ q.chunks, c.pos < clausePos q.chunks := by
  intro c hc
  unfold clausePos
  rcases List.eq_nil_or_concat q.chunks with h | ⟨A, d, h⟩
  · rw [h] at hc; simp at hc
  · rw [h, List.concat_eq_append] at hs hc ⊢
    simp only [List.getLast?_append, List.getLast?_singleton, Option.some_or]
    rcases List.mem_append.1 hc with h | h
    · have := (List.pairwise_append.1 hs).2.2 c h d (by simp); omega
    · simp at h; subst h; omega

theorem clausePos_eq {q : Stmt α} {s : SpecState α} (h : Ref q s) : clausePos q.chunks = s.clausePos := by
  unfold clausePos SpecState.clausePos
  rw [lastPos_eq h]
  cases q.chunks.getLast? <;> rfl

theorem unionPos_eq {q : Stmt α} {s : SpecState α} (h : Ref q s) : unionPos q.chunks = s.unionPos := by
  unfold unionPos SpecState.unionPos
  rw [lastPos_eq h]
  cases q.chunks.getLast? <;> rfl

theorem ref_call {q : Stmt α} {s : SpecState α} {c : Call α} (h : Ref q s) (hok : CallOK s c) : Ref (q.call c) (s.call c) := by
  have cur := h.choose_spec.2.2.1
  cases c with
  | verb v as =>
    exact ref_call1 h rfl rfl (FragIn.kwArgs hok.1 (by decide) (not_has hok.2) sepOK_comma) (by simp) (by simp)
  | select e as => exact ref_call1 h rfl rfl (FragIn.mk' hok (by decide) (by decide) (by decide) sepOK_comma) (by simp) (by simp)
  | returning e => exact ref_call1 h rfl rfl (FragIn.mk' hok (by decide) (by decide) (by decide) sepOK_comma) (by simp) (by simp)
  | update e => exact ref_call1 h rfl rfl (FragIn.mk' hok (by decide) (by decide) (by decide) sepOK_comma) (by simp) (by simp)
  | deleteFrom e => exact ref_call1 h rfl rfl (FragIn.mk' hok (by decide) (by decide) (by decide) sepOK_comma) (by simp) (by simp)
  | from_ e as => exact ref_call1 h rfl rfl (FragIn.mk' hok (by decide) (by decide) (by decide) sepOK_comma) (by simp) (by simp)
  | where_ e as => exact ref_call1 h rfl rfl (FragIn.mk' hok (by decide) (by decide) (by decide) sepOK_and) (by simp) (by simp)
  | having e as => exact ref_call1 h rfl rfl (FragIn.mk' hok (by decide) (by decide) (by decide) sepOK_and) (by simp) (by simp)
  | groupBy e => exact ref_call1 h rfl rfl (FragIn.mk' hok (by decide) (by decide) (by decide) sepOK_comma) (by simp) (by simp)
  | orderBy es => exact ref_call1 h rfl rfl (FragIn.mk' (joinBytes_ok hok) (by decide) (by decide) (by decide) sepOK_comma) (by simp) (by simp)
  | in_ as => exact ref_call1 h (in_call q as) rfl (FragIn.mk' (inText_ok as) (by decide) (by decide) (by decide) sepOK_space) (by simp) (by simp)
  | join k t o => exact ref_call1 h (join_call q k t o) rfl (FragIn.mk' (joinText_ok hok.1 hok.2) (by decide) (by decide) (by decide) sepOK_space) (by simp) (by simp)
  | limit x => exact ref_call1 h rfl rfl (FragIn.single ⟨rfl, by decide, by simp⟩ (.inl rfl)) (by simp) (by simp)
  | offset x => exact ref_call1 h rfl rfl (FragIn.single ⟨rfl, by decide, by simp⟩ (.inr rfl)) (by simp) (by simp)
  | expr e as =>
    refine ref_call1 h ?_ rfl (FragIn.mk' hok.1 (by decide) (by decide) hok.2 sepOK_comma) (by simp) (by simp)
    rw [cur]; rfl
  | clause e as =>
    refine ref_call1 h ?_ rfl (FragIn.kwArgs hok.1 hok.2 ?_ sepOK_comma) (by simp) (by simp)
    · rw [← clausePos_eq h]; rfl
    · rw [← clausePos_eq h]
      exact not_has (has_false_of h fun c hc => Nat.ne_of_lt (clausePos_gt h.sorted c hc))
  | subQuery pre suf sub as =>
    refine ref_call1 h ?_ rfl (FragIn.mk' hok.2.1 (by decide) (by decide) hok.2.2 ?_) (by simp) (by simp)
    · rw [cur]; exact subQuery_eq h.sorted _ _ _ _ hok.1
    · split
      · exact sepOK_and
      · exact sepOK_comma
  | union all sub as =>
    have hu := union_eq h.sorted all sub as
    refine ref_call1 h ?_ rfl (FragIn.kwArgs ?_ hok.2 ?_ sepOK_nil) (by simp) (by simp)
    · rw [← unionPos_eq h]; exact hu.1
    · have hk : FragOK (α := α) (if all then b!"UNION ALL " else b!"UNION ") [] := by
        cases all
        · exact FragOK.const (s := b!"UNION ") (by decide) (by decide)
        · exact FragOK.const (s := b!"UNION ALL ") (by decide) (by decide)
      exact hk.append hok.1
    · rw [← unionPos_eq h]
      exact not_has (has_false_of h fun c hc => Nat.ne_of_lt (hu.2 c hc))
  | toDest ds =>
    obtain ⟨gs, hr, hd, hc, hn, hde⟩ := h
    have e : q.call (.toDest ds) = { q with dest := q.dest ++ ds } := by
      simp only [Stmt.call, Stmt.to]
      by_cases hl : ds.length > 0
      · simp only [hl, if_true]
        have := insertAt_eq q.dest [] ds
        simp at this
        rw [this]
      · have : ds = [] := by cases ds <;> simp_all
        subst this; simp
    rw [e]
    exact ⟨gs, ⟨hr.chunks, hr.args, hr.sorted, hr.ok⟩, hd, hc, hn, by simp [SpecState.call, hde]⟩
  | insertInto t =>
    have h1 := ref_addF h (f := ⟨posInsert, b!"INSERT INTO", t, [], b!", "⟩) (FragIn.mk' hok (by decide) (by decide) (by decide) sepOK_comma)
    have hE : FragOK (α := α) [] [] := FragOK.const (by simp) (by simp)
    have h2 := ref_addF h1 (f := ⟨399, b!"(", [], [], []⟩) (FragIn.mk' hE (by decide) (by decide) (by decide) sepOK_nil)
    have h3 := ref_addF h2 (f := ⟨499, b!") VALUES (", [], [], []⟩) (FragIn.mk' hE (by decide) (by decide) (by decide) sepOK_nil)
    have h4 := ref_addF h3 (f := ⟨501, b!")", [], [], []⟩) (FragIn.mk' hE (by decide) (by decide) (by decide) sepOK_nil)
    have e : q.call (.insertInto t) = { (((q.addF ⟨posInsert, b!"INSERT INTO", t, [], b!", "⟩).addF ⟨399, b!"(", [], [], []⟩).addF
        ⟨499, b!") VALUES (", [], [], []⟩).addF ⟨501, b!")", [], [], []⟩ with pos := posInsertFields } := by
      have e1 : posInsertFields - 1 = 399 := rfl
      have e2 : posValues - 1 = 499 := rfl
      have e3 : posValues + 1 = 501 := rfl
      simp only [Stmt.call, Stmt.insertInto, e1, e2, e3, Stmt.addF]
    rw [e]
    generalize (((q.addF ⟨posInsert, b!"INSERT INTO", t, [], b!", "⟩).addF ⟨399, b!"(", [], [], []⟩).addF
        ⟨499, b!") VALUES (", [], [], []⟩).addF ⟨501, b!")", [], [], []⟩ = q4 at h4 ⊢
    obtain ⟨gs, hr, hd, hc, hn, hde⟩ := h4
    refine ⟨gs, ⟨hr.chunks, hr.args, hr.sorted, hr.ok⟩, ?_, ?_, hn, hde⟩
    · rw [← hd]; simp only [SpecState.call, SpecState.frags, List.foldl_cons, List.foldl_nil]
    · simp only [SpecState.call]
  | setExpr f e as =>
    have hm := setMode_eq h.sorted
    have hi := has_iff h posInsert
    have hu := has_iff h posUpdate
    simp only [Stmt.call, Stmt.setExpr]
    rw [hm]
    by_cases h1 : s.has posInsert = true
    · have h1' := hi.1 h1
      rw [if_pos h1', if_pos rfl]
      have a1 := ref_addF h (f := ⟨posInsertFields, [], f, [], b!", "⟩) (FragIn.mk' hok.1 (by decide) (by decide) (by decide) sepOK_comma)
      have a2 := ref_addF a1 (f := ⟨posValues, [], e, as, b!", "⟩) (FragIn.mk' hok.2 (by decide) (by decide) (by decide) sepOK_comma)
      have e : s.call (.setExpr f e as) = { s with doc := addFrag s.nl (addFrag s.nl s.doc ⟨posInsertFields, [], f, [], b!", "⟩) ⟨posValues, [], e, as, b!", "⟩, cur := posValues } := by
        simp [SpecState.call, SpecState.frags, h1]
      rw [e]; exact a2
    · have h1' : ¬ ∃ c ∈ q.chunks, c.pos = posInsert := fun hh => h1 (hi.2 hh)
      rw [if_neg h1']
      by_cases h2 : s.has posUpdate = true
      · have h2' := hu.1 h2
        rw [if_pos h2', if_neg (by decide), if_pos rfl]
        have hfe : FragOK (f ++ b!"=" ++ e) as := by
          have he : FragOK (α := α) b!"=" [] := FragOK.const (by decide) (by decide)
          have := (hok.1.append he).append hok.2
          simpa using this
        refine ref_call1 h rfl ?_ (FragIn.mk' hfe (by decide) (by decide) (by decide) sepOK_comma) (by simp) (by simp)
        simp [SpecState.frags, h1, h2]; rfl
      · have h2' : ¬ ∃ c ∈ q.chunks, c.pos = posUpdate := fun hh => h2 (hu.2 hh)
        rw [if_neg h2', if_neg (by decide), if_neg (by decide)]
        have e : s.call (.setExpr f e as) = s := by simp [SpecState.call, SpecState.frags, h1, h2]
        rw [e]; exact h
  | with_ n sub as =>
    have hE : FragOK (α := α) [] [] := FragOK.const (by simp) (by simp)
    have h1 := ref_addF h (f := ⟨posWith, b!"WITH", [], [], []⟩) (FragIn.mk' hE (by decide) (by decide) (by decide) sepOK_nil)
    have h2 := ref_addF h1 (f := ⟨posWith, [], n ++ b!" AS (" ++ sub ++ b!")", as, b!", "⟩)
      (FragIn.mk' hok (by decide) (by decide) (by decide) sepOK_comma)
    have hp : (q.add posWith b!"WITH" [] [] []).pos = posWith := (h1.choose_spec.2.2.1).symm
    have e : q.call (.with_ n sub as) = (q.addF ⟨posWith, b!"WITH", [], [], []⟩).addF ⟨posWith, [], n ++ b!" AS (" ++ sub ++ b!")", as, b!", "⟩ := by
      simp only [Stmt.call, Stmt.with_]
      have := subQuery_eq h1.sorted (n ++ b!" AS (") b!")" sub as (by simp)
      rw [show (q.addF ⟨posWith, b!"WITH", [], [], []⟩) = q.add posWith b!"WITH" [] [] [] from rfl] at this ⊢
      rw [this, hp]; rfl
    rw [e]
    exact h2
  | newRow =>
    have hv := has_iff h posValues
    simp only [Stmt.call, Stmt.newRow]
    rw [newRow_first h.sorted]
    by_cases h1 : s.has posValues = true
    · have h1' := hv.1 h1
      simp only [h1', not_true_eq_false, decide_false]
      refine ref_call1 h (f := ⟨posValues, [], b!" ", [], b!" ), ("⟩) rfl ?_ (FragIn.mk' (FragOK.const (by decide) (by decide)) (by decide) (by decide) (by decide) (by decide)) (by simp) (by simp)
      simp [SpecState.frags, h1]
    · have h1' : ¬ ∃ c ∈ q.chunks, c.pos = posValues := fun hh => h1 (hv.2 hh)
      simp only [h1', not_false_eq_true, decide_true, if_true]
      have e : s.call .newRow = s := by simp [SpecState.call, SpecState.frags, h1]
      rw [e]; exact h
  | rowSetExpr r f e as =>
    simp only [Stmt.call, Stmt.rowSetExpr]
    by_cases hr : r.first = true
    · simp only [hr, if_true]
      have a1 := ref_addF h (f := ⟨posInsertFields, [], f, [], b!", "⟩) (FragIn.mk' hok.1 (by decide) (by decide) (by decide) sepOK_comma)
      have a2 := ref_addF a1 (f := ⟨posValues, [], e, as, b!", "⟩) (FragIn.mk' hok.2 (by decide) (by decide) (by decide) sepOK_comma)
      have e : s.call (.rowSetExpr r f e as) = { s with doc := addFrag s.nl (addFrag s.nl s.doc ⟨posInsertFields, [], f, [], b!", "⟩) ⟨posValues, [], e, as, b!", "⟩, cur := posValues } := by
        simp [SpecState.call, SpecState.frags, hr]
      rw [e]; exact a2
    · simp only [hr]
      refine ref_call1 h (f := ⟨posValues, [], e, as, if r.notEmpty then b!", " else []⟩) rfl ?_ (FragIn.mk' hok.2 (by decide) (by decide) (by decide) ?_) (by simp) (by simp)
      · simp [SpecState.frags, hr]
      · split
        · exact sepOK_comma
        · exact sepOK_nil

/-- Sequences of calls. -/
theorem ref_calls {q : Stmt α} {s : SpecState α} (cs : List (Call α)) (h : Ref q s) (hok : CallsOK s cs) :
    Ref (cs.foldl Stmt.call q) (cs.foldl SpecState.call s) := by
  induction cs generalizing q s with
  | nil => exact h
  | cons c cs ih => exact ih (ref_call h hok.1) hok.2

/-! ### Rendering -/

/-- The pieces after the first, with the spaces the loop inserts. -/
def sepToks : Nat → List (Clause α) → List (Tok α)
  | _, [] => []
  | prev, g :: gs => (if g.pos > prev then [.lit 32] else []) ++ g.toks ++ sepToks g.pos gs

theorem docToks_cons (d : Clause α) (ds : List (Clause α)) :
    docToks (d :: ds) = d.toks ++ ds.flatMap fun c => .lit 32 :: c.toks := by
  induction ds generalizing d with
  | nil => simp [docToks]
  | cons e es ih => rw [docToks, ih e]; · simp
                    · simp

theorem docToks_group (g : Clause α) (gs : List (Clause α)) (hs : (g :: gs).Pairwise fun a b => a.pos ≤ b.pos) :
    docToks (group (g :: gs)) = g.toks ++ sepToks g.pos gs ∧ ∃ d ds, group (g :: gs) = d :: ds ∧ d.pos = g.pos := by
  induction gs generalizing g with
  | nil => simp [group, docToks, sepToks]
  | cons h t ih =>
    have hs' := List.pairwise_cons.1 hs
    obtain ⟨e, d, ds, hg, hdp⟩ := ih h hs'.2
    have hle := hs'.1 h (by simp)
    rw [hg] at e
    rw [group, hg]
    simp only
    by_cases hp : d.pos = g.pos
    · rw [if_pos hp]
      refine ⟨?_, _, _, rfl, rfl⟩
      rw [docToks_cons] at e ⊢
      have : ¬ h.pos > g.pos := by omega
      simp only [sepToks, this, if_false, List.nil_append, List.append_assoc]
      rw [e]
    · rw [if_neg hp]
      refine ⟨?_, _, _, rfl, rfl⟩
      rw [docToks_cons] at e ⊢
      have : h.pos > g.pos := by omega
      simp only [sepToks, this, if_true, List.flatMap_cons]
      rw [List.singleton_append, List.cons_append, e]
      simp

/-- How a token list is written. -/
def written (pg : Bool) (n : Nat) (ts : List (Tok α)) : Bytes := if pg then numbered n ts else raw ts

theorem written_append (pg : Bool) (n : Nat) (a b : List (Tok α)) :
    written pg n (a ++ b) = written pg n a ++ written pg (n + (vals a).length) b := by
  cases pg <;> simp [written, numbered_append]

theorem renderLoop_rest (pg : Bool) (buf : Bytes) {cs : List Chunk} {gs : List (Clause α)} (h : List.Forall₂ (RepChunk buf) cs gs)
    (hok : ∀ g ∈ gs, PieceOK g) (prev n : Nat) (out : Bytes) :
    renderLoop pg buf cs false prev n out = out ++ written pg n (sepToks prev gs) := by
  induction h generalizing prev n out with
  | nil => simp [renderLoop, sepToks, written]; cases pg <;> simp [numbered]
  | @cons c g cs gs hc _ ih =>
    have hg := hok g (by simp)
    have ih' := ih fun x hx => hok x (by simp [hx])
    simp only [renderLoop, Bool.not_false, Bool.true_and, sepToks, written_append, hc.text]
    have hsp : written pg n (if g.pos > prev then ([.lit 32] : List (Tok α)) else []) = if g.pos > prev then b!" " else [] := by
      split <;> cases pg <;> rfl
    have hspv : vals (if g.pos > prev then ([.lit 32] : List (Tok α)) else []) = [] := by split <;> rfl
    rw [hsp]
    simp only [hc.pos, decide_eq_true_eq]
    by_cases ha : c.argLen > 0 ∧ pg = true
    · obtain ⟨ha1, rfl⟩ := ha
      simp only [ha1, and_self, if_true]
      rw [writePg_clean n hg.1, ih']
      simp [written, hspv]
      split <;> simp
    · rw [if_neg ha, ih']
      have hw : written pg n g.toks = raw g.toks ∧ (pg = true → (vals g.toks).length = 0) := by
        cases pg with
        | false => simp [written]
        | true =>
          have : c.argLen = 0 := by simp at ha; exact ha
          rw [hc.al] at this
          have hl := hg.2.2.1 (List.eq_nil_of_length_eq_zero this)
          refine ⟨?_, fun _ => this⟩
          simp only [written, if_true]
          rw [hl.1]; simp
      simp only [hspv, List.length_nil, Nat.add_zero, List.length_append, vals_append, hw.1]
      cases pg with
      | false => simp [written]; split <;> simp
      | true => rw [hw.2 rfl]; simp; split <;> simp

theorem render_eq {q : Stmt α} {s : SpecState α} (h : Ref q s) :
    q.render = trim (written (decide (q.dialect = .postgres)) 1 (docToks s.doc)) ∧ q.args = vals (docToks s.doc) := by
  obtain ⟨gs, hr, hd, -⟩ := h
  generalize hpg : decide (q.dialect = .postgres) = pg
  rw [hd]
  have hrA := hr.args
  have hrC := hr.chunks
  have hrO := hr.ok
  have hrS := hr.sorted.imp fun (h : _ ∧ _) => h.1
  cases gs with
  | nil =>
    cases hch : q.chunks with
    | cons c cs => rw [hch] at hrC; cases hrC
    | nil =>
      refine ⟨?_, by simpa [group, docToks] using hrA⟩
      unfold Stmt.render
      rw [hch]; cases pg <;> simp [renderLoop, group, docToks, written, numbered]
  | cons g gs =>
    have hdg := (docToks_group g gs hrS).1
    cases hch : q.chunks with
    | nil => rw [hch] at hrC; cases hrC
    | cons c cs =>
      rw [hch] at hrC
      obtain ⟨hc, ht⟩ := List.forall₂_cons.1 hrC
      have hall := renderLoop_rest pg q.buf hrC hrO (g.pos) 1 []
      have hvals : vals (g.toks ++ sepToks g.pos gs) = (g :: gs).flatMap fun g => vals g.toks := by
        have : ∀ (p : Nat) (l : List (Clause α)), vals (sepToks p l) = l.flatMap fun g => vals g.toks := by
          intro p l
          induction l generalizing p with
          | nil => rfl
          | cons x xs ih =>
            simp only [sepToks, vals_append, ih, List.flatMap_cons]
            split <;> simp
        simp [this]
      refine ⟨?_, by rw [hdg, hvals, hrA]⟩
      have e : renderLoop pg q.buf (c :: cs) true 0 1 [] = renderLoop pg q.buf (c :: cs) false g.pos 1 [] := by
        have hp : ¬ c.pos > g.pos := by rw [hc.pos]; omega
        simp [renderLoop, hp]
      unfold Stmt.render
      rw [hch, hpg, e, hall, hdg]
      simp [sepToks]

theorem ref_fresh (q : Stmt α) (hc : q.chunks = []) (ha : q.args = []) (hd : q.dest = []) :
    Ref q (SpecState.fresh q.useNewLines q.pos) := by
  refine ⟨[], ⟨?_, ?_, ?_, ?_⟩, rfl, rfl, rfl, by simp [SpecState.fresh, hd]⟩
  · rw [hc]; exact .nil
  · simp [ha]
  · exact .nil
  · simp

/-! ### Nothing but documented fields changes -/

theorem newChunk_fields (q : Stmt α) (p lo : Nat) (b : Bool) (kw e : Bytes) (n : Nat) :
    (q.newChunk p lo b kw e n).dialect = q.dialect ∧ (q.newChunk p lo b kw e n).name = q.name ∧
    (q.newChunk p lo b kw e n).useNewLines = q.useNewLines ∧ (q.newChunk p lo b kw e n).dest = q.dest := by
  unfold Stmt.newChunk Stmt.write
  cases b <;> by_cases he : e = [] <;> cases hn : q.useNewLines <;> simp [he, hn]

theorem addChunk_fields (q : Stmt α) (p : Nat) (kw e : Bytes) (as : List α) (sep : Bytes) :
    (q.addChunk p kw e as sep).1.dialect = q.dialect ∧ (q.addChunk p kw e as sep).1.name = q.name ∧
    (q.addChunk p kw e as sep).1.useNewLines = q.useNewLines ∧ (q.addChunk p kw e as sep).1.dest = q.dest := by
  simp only [Stmt.addChunk, Stmt.invalidate]
  split
  · simp only [newChunk_fields]; simp
  · split
    · split
      · simp
      · split
        · simp [Stmt.write]
        · simp only [newChunk_fields]; simp [Stmt.write]
    · simp only [newChunk_fields]; simp

end Xsql
