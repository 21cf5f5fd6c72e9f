import Verif.Xsql.RepLemmas
/- `addChunk` refines `addFrag`. -/
namespace Xsql
variable {α : Type}

theorem insert_if (q : List α) (as : List α) (i : Nat) :
    (if as.length > 0 then insertAt q as i else q) = insertAt q as i := by
  by_cases h : as.length > 0
  · simp [h]
  · simp [h, insertAt]

/-- The argument count of the chunks behind. -/
def tailLen (CB : List Chunk) : Nat := (CB.map Chunk.argLen).sum

theorem addChunk_new (q : Stmt α) (f : Frag α) (CA CB : List Chunk) (hc : q.chunks = CA ++ CB)
    (hA : ∀ c ∈ CA, c.pos < f.pos) (hB : ∀ c ∈ CB, f.pos < c.pos) :
    q.addChunk f.pos f.kw f.expr f.args f.sep =
      ({ q with
        pos := f.pos
        buf := q.buf ++ startText q.useNewLines f
        chunks := CA ++ ⟨f.pos, q.buf.length, (q.buf ++ startText q.useNewLines f).length, decide (f.expr ≠ []), f.args.length⟩ :: CB
        args := insertAt q.args f.args (q.args.length - tailLen CB)
        sql := [] }, CA.length) := by
  have hs := headUpTo_append f.pos CA CB (fun c hc => Nat.le_of_lt (hA c hc)) hB
  unfold Stmt.addChunk argTail
  simp only [hc, hs.1, hs.2]
  cases hl : CA.getLast? with
  | none =>
    have : CA = [] := by simpa using hl
    subst this
    simp only [insert_if]
    rw [newChunk_eq]
    have h2 : startText q.useNewLines ⟨f.pos, f.kw, f.expr, ([] : List α), []⟩ = startText q.useNewLines f := rfl
    simp only [h2, hs.1, hs.2]
    rfl
  | some c =>
    have hm : c ∈ CA := List.mem_of_getLast? hl
    have hne : c.pos ≠ f.pos := by have := hA c hm; omega
    simp only [hne, if_false, insert_if]
    rw [newChunk_eq]
    have h2 : startText q.useNewLines ⟨f.pos, f.kw, f.expr, ([] : List α), []⟩ = startText q.useNewLines f := rfl
    simp only [h2, hs.1, hs.2]
    rfl

theorem addChunk_same (q : Stmt α) (f : Frag α) (CA CB : List Chunk) (c : Chunk) (hc : q.chunks = CA ++ [c] ++ CB)
    (hA : ∀ c ∈ CA, c.pos ≤ f.pos) (hp : c.pos = f.pos) (hB : ∀ c ∈ CB, f.pos < c.pos) (he : f.expr = []) :
    q.addChunk f.pos f.kw f.expr f.args f.sep =
      ({ q with
        pos := f.pos
        args := if f.args.length > 0 then goCopy q.args (q.args.length - tailLen CB - c.argLen) f.args else q.args }, CA.length) := by
  have hs := headUpTo_append f.pos (CA ++ [c]) CB (by
    intro x hx; rcases List.mem_append.1 hx with hx | hx
    · exact hA x hx
    · simp at hx; subst hx; omega) hB
  unfold Stmt.addChunk argTail
  simp only [hc, hs.1, hs.2]
  simp [hp, he, tailLen]

theorem addChunk_merge (q : Stmt α) (f : Frag α) (CA CB : List Chunk) (c : Chunk) (hc : q.chunks = CA ++ [c] ++ CB)
    (hA : ∀ c ∈ CA, c.pos ≤ f.pos) (hp : c.pos = f.pos) (hB : ∀ c ∈ CB, f.pos < c.pos) (he : f.expr ≠ [])
    (hh : c.high = q.buf.length) :
    q.addChunk f.pos f.kw f.expr f.args f.sep =
      ({ q with
        pos := f.pos
        buf := q.buf ++ (if c.hasExpr then f.sep else b!" ") ++ f.expr
        chunks := CA ++ [{ c with argLen := c.argLen + f.args.length, high := (q.buf ++ (if c.hasExpr then f.sep else b!" ") ++ f.expr).length, hasExpr := true }] ++ CB
        args := insertAt q.args f.args (q.args.length - tailLen CB)
        sql := [] }, CA.length) := by
  have hs := headUpTo_append f.pos (CA ++ [c]) CB (by
    intro x hx; rcases List.mem_append.1 hx with hx | hx
    · exact hA x hx
    · simp at hx; subst hx; omega) hB
  unfold Stmt.addChunk argTail
  simp only [hc, hs.1, hs.2, insert_if]
  have hs2 : tailAbove f.pos (CA ++ c :: CB) = CB := by simpa using hs.2
  simp [hp, he, hh, Stmt.write, Stmt.invalidate, tailLen, hs2]

theorem addChunk_split (q : Stmt α) (f : Frag α) (CA CB : List Chunk) (c : Chunk) (hc : q.chunks = CA ++ [c] ++ CB)
    (hA : ∀ c ∈ CA, c.pos ≤ f.pos) (hp : c.pos = f.pos) (hB : ∀ c ∈ CB, f.pos < c.pos) (he : f.expr ≠ [])
    (hh : c.high ≠ q.buf.length) :
    q.addChunk f.pos f.kw f.expr f.args f.sep =
      ({ q with
        pos := f.pos
        buf := q.buf ++ (if c.hasExpr then f.sep else b!" ") ++ f.expr
        chunks := CA ++ [c] ++ ⟨f.pos, q.buf.length, (q.buf ++ (if c.hasExpr then f.sep else b!" ") ++ f.expr).length, true, f.args.length⟩ :: CB
        args := insertAt q.args f.args (q.args.length - tailLen CB)
        sql := [] }, (CA ++ [c]).length) := by
  have hs := headUpTo_append f.pos (CA ++ [c]) CB (by
    intro x hx; rcases List.mem_append.1 hx with hx | hx
    · exact hA x hx
    · simp at hx; subst hx; omega) hB
  unfold Stmt.addChunk argTail
  simp only [hc, hs.1, hs.2, insert_if]
  simp only [List.getLast?_append, List.getLast?_singleton, Option.some_or, hp, he, hh, if_true, if_false]
  rw [newChunk_false]
  have hs2 : tailAbove f.pos (CA ++ c :: CB) = CB := by simpa using hs.2
  have hs1 : headUpTo f.pos (CA ++ c :: CB) = CA ++ [c] := by simpa using hs.1
  simp [Stmt.write, Stmt.invalidate, tailLen, hs1, hs2, he]

theorem insertAt_tail (a b src : List α) (n : Nat) (h : n = b.length) :
    insertAt (a ++ b) src ((a ++ b).length - n) = a ++ src ++ b := by
  subst h
  have : (a ++ b).length - b.length = a.length := by simp
  rw [this, insertAt_eq]

theorem slice_end (b x : Bytes) : slice (b ++ x) b.length (b ++ x).length = x := by
  rw [slice_full b x b.length (Nat.le_refl _)]; simp [slice]

theorem sepText_ok {f : Frag α} (hs : (63 : UInt8) ∉ f.sep ∧ (92 : UInt8) ∉ f.sep) (b : Bool) :
    FragOK (α := α) (if b then f.sep else b!" ") [] := by
  cases b
  · exact FragOK.const (s := b!" ") (by decide) (by decide)
  · refine FragOK.const hs.1 ?_
    intro h; exact hs.2 (List.mem_of_getLast? h)

theorem rebind {g : Clause α} {as : List α} (hg : PieceOK g) (h1 : (vals g.toks).length = 1) (h : as.length = 1) :
    PieceOK { g with toks := bound (raw g.toks) as } ∧ raw (bound (raw g.toks) as) = raw g.toks ∧
      vals (bound (raw g.toks) as) = as := by
  have hs : (bindArgs (raw g.toks) as).isSome := by
    unfold bindArgs
    rw [assign_isSome_iff, hg.1.toks_eq, vals_forget_length, h1, h]
  obtain ⟨ts, hts⟩ := Option.isSome_iff_exists.1 hs
  have hb := bound_of hts
  have hr := bindArgs_raw hts
  have hv := bindArgs_vals hts
  refine ⟨⟨?_, ?_, ?_, ?_⟩, by rw [hb, hr], by rw [hb, hv]⟩
  · simp only [hb]; exact clean_of_bindArgs hts
  · simp only [hb, hr]; exact hg.2.1
  · simp only [hb, hv]; intro h0; rw [h0] at h; simp at h
  · simp only [hb, hv]; intro _; exact h

theorem group_singleton (g : Clause α) : group [g] = [g] := by simp [group]

/-- `addChunk` refines `addFrag`. -/
theorem addF_rep {q : Stmt α} {gs : List (Clause α)} {f : Frag α} (hr : Rep q gs) (hf : FragIn (group gs) f) :
    ∃ gs', Rep (q.addF f) gs' ∧ group gs' = addFrag q.useNewLines (group gs) f ∧ (q.addF f).pos = f.pos ∧
      (q.addF f).useNewLines = q.useNewLines ∧ (q.addF f).dest = q.dest ∧ (q.addF f).dialect = q.dialect ∧
      (q.addF f).name = q.name := by
  obtain ⟨L, M, B, rfl, hL, hM, hB⟩ := exists_split f.pos gs (hr.sorted.imp fun h => h.1)
  rw [addFrag_group _ f L M B hL hM hB]
  obtain ⟨CLM, CB, hcs, hCLM, hCB⟩ := forall2_append_right hr.chunks
  have hCBp : ∀ c ∈ CB, f.pos < c.pos := forall2_pos hCB hB
  have hargsB : tailLen CB = (B.flatMap fun g => vals g.toks).length := argLen_sum hCB
  have hargs : q.args = ((L ++ M).flatMap fun g => vals g.toks) ++ B.flatMap fun g => vals g.toks := by
    rw [hr.args]; simp
  have hins : insertAt q.args f.args (q.args.length - tailLen CB) =
      ((L ++ M).flatMap fun g => vals g.toks) ++ f.args ++ B.flatMap fun g => vals g.toks := by
    rw [hargs]; exact insertAt_tail _ _ _ _ hargsB
  have hsort := hr.sorted
  have hgroup3 : ∀ M', (∀ m ∈ M', m.pos = f.pos) → group (L ++ M' ++ B) = group L ++ group M' ++ group B := by
    intro M' hM'
    rw [group_append (A := L ++ M'), group_append]
    · intro a ha b hb; have := hL a ha; have := hM' b hb; omega
    · intro a ha b hb
      rcases List.mem_append.1 ha with ha | ha
      · have := hL a ha; have := hB b hb; omega
      · have := hM' a ha; have := hB b hb; omega
  have hsortLB := hsort
  rw [List.append_assoc, List.pairwise_append, List.pairwise_append] at hsortLB
  have hsorted3 : ∀ M', (∀ m ∈ M', m.pos = f.pos) →
      M'.Pairwise (fun a b => a.pos ≤ b.pos ∧ (a.pos = b.pos → ¬ single a.pos)) →
      (L ++ M' ++ B).Pairwise (fun a b => a.pos ≤ b.pos ∧ (a.pos = b.pos → ¬ single a.pos)) := by
    intro M' hM' hp
    rw [List.append_assoc, List.pairwise_append, List.pairwise_append]
    refine ⟨hsortLB.1, ⟨hp, hsortLB.2.1.2.1, ?_⟩, ?_⟩
    · intro a ha b hb; have := hM' a ha; have := hB b hb; exact ⟨by omega, by omega⟩
    · intro a ha b hb
      rcases List.mem_append.1 hb with hb | hb
      · have := hL a ha; have := hM' b hb; exact ⟨by omega, by omega⟩
      · have := hL a ha; have := hB b hb; exact ⟨by omega, by omega⟩
  rcases List.eq_nil_or_concat M with rfl | ⟨M0, g0, rfl⟩
  · -- a new clause
    have hCA : ∀ c ∈ CLM, c.pos < f.pos := forall2_pos hCLM (P := fun p => p < f.pos) (by simpa using hL)
    have hadd := addChunk_new q f CLM CB hcs hCA hCBp
    have hso := (start_ok (nl := q.useNewLines) hf).info
    let g : Clause α := ⟨f.pos, f.start q.useNewLines, decide (f.expr ≠ [])⟩
    have hgt : g.toks = bound (startText q.useNewLines f) f.args := rfl
    refine ⟨L ++ [g] ++ B, ?_, ?_, ?_⟩
    · unfold Stmt.addF Stmt.add
      rw [hadd]
      refine ⟨?_, ?_, hsorted3 [g] (by simp [g]) (by simp), ?_⟩
      · simp only [List.append_assoc, List.singleton_append]
        have := forall2_append (forall2_mono (x := startText q.useNewLines f) hCLM)
          (List.Forall₂.cons (R := RepChunk (q.buf ++ startText q.useNewLines f)) (a := ⟨f.pos, q.buf.length, (q.buf ++ startText q.useNewLines f).length, decide (f.expr ≠ []), f.args.length⟩) (b := g)
            ⟨rfl, rfl, by rw [hgt, hso.vals], by simp, by simp, by rw [hgt, hso.raw]; exact slice_end _ _⟩
            (forall2_mono (x := startText q.useNewLines f) hCB))
        simpa using this
      · simp only [hins]; simp [hgt, hso.vals]
      · intro x hx
        simp at hx
        rcases hx with hx | rfl | hx
        · exact hr.ok x (by simp [hx])
        · refine ⟨by rw [hgt]; exact hso.clean, by rw [hgt, hso.raw]; exact hso.last, ?_, ?_⟩
          · rw [hgt, hso.vals, hso.raw]; exact hso.noargs
          · intro hsg; rw [hgt, hso.vals]; exact (hf.s hsg).2
        · exact hr.ok x (by simp [hx])
    · rw [hgroup3 [g] (by simp [g])]
      simp [group, g]
    · unfold Stmt.addF Stmt.add; rw [hadd]; exact ⟨rfl, rfl, rfl, rfl, rfl⟩
  · -- the clause is there
    rw [List.concat_eq_append] at *
    obtain ⟨CL, CM, rfl, hCL, hCM⟩ := forall2_append_right hCLM
    obtain ⟨CM0, Cc, rfl, hCM0, hCc⟩ := forall2_append_right hCM
    obtain ⟨c, rfl, hc⟩ : ∃ c, Cc = [c] ∧ RepChunk q.buf c g0 := by
      cases hCc with
      | cons h t => cases t; exact ⟨_, rfl, h⟩
    have hg0p : g0.pos = f.pos := hM g0 (by simp)
    have hcp : c.pos = f.pos := by rw [hc.pos, hg0p]
    have hg0ok : PieceOK g0 := hr.ok g0 (by simp)
    have hcs' : q.chunks = (CL ++ CM0) ++ [c] ++ CB := by rw [hcs]; simp
    have hCA : ∀ x ∈ CL ++ CM0, x.pos ≤ f.pos := by
      intro x hx
      rcases List.mem_append.1 hx with hx | hx
      · exact Nat.le_of_lt (forall2_pos hCL (P := fun p => p < f.pos) hL x hx)
      · exact Nat.le_of_eq (forall2_pos hCM0 (P := fun p => p = f.pos) (fun g hg => hM g (by simp [hg])) x hx)
    have hgM : group (M0 ++ [g0]) = [⟨f.pos, (M0 ++ [g0]).flatMap Clause.toks, g0.hasExpr⟩] := group_const f.pos M0 g0 hM
    rw [hgM]
    by_cases he : f.expr = []
    · have hadd := addChunk_same q f (CL ++ CM0) CB c hcs' hCA hcp hCBp he
      by_cases ha : f.args = []
      · refine ⟨L ++ (M0 ++ [g0]) ++ B, ?_, ?_, ?_⟩
        · unfold Stmt.addF Stmt.add; rw [hadd]
          refine ⟨hr.chunks, ?_, hr.sorted, hr.ok⟩
          simp only [ha, List.length_nil, Nat.lt_irrefl, gt_iff_lt, if_false]; exact hr.args
        · rw [hgroup3 _ hM, hgM]; simp [Clause.extend, he, ha]
        · unfold Stmt.addF Stmt.add; rw [hadd]; exact ⟨rfl, rfl, rfl, rfl, rfl⟩
      · have hsg : single f.pos := by
          refine hf.r he ha ?_
          rw [hgroup3 _ hM, hgM]
          exact ⟨⟨f.pos, (M0 ++ [g0]).flatMap Clause.toks, g0.hasExpr⟩, by simp, rfl⟩
        have hM0 : M0 = [] := by
          cases M0 with
          | nil => rfl
          | cons m M0 =>
            exfalso
            have hmp := hM m (by simp)
            have := hsortLB.2.1.1
            rw [List.cons_append] at this
            have := (List.pairwise_cons.1 this).1 g0 (by simp)
            exact this.2 (by omega) (by rw [hmp]; exact hsg)
        subst hM0
        have hCM0' : CM0 = [] := by cases hCM0; rfl
        subst hCM0'
        have hal := (hf.s hsg).2
        have hv1 : (vals g0.toks).length = 1 := hg0ok.2.2.2 (by rw [hg0p]; exact hsg)
        obtain ⟨hrb, hrr, hrv⟩ := rebind hg0ok hv1 hal
        let g1 : Clause α := { g0 with toks := bound (raw g0.toks) f.args }
        refine ⟨L ++ [g1] ++ B, ?_, ?_, ?_⟩
        · unfold Stmt.addF Stmt.add; rw [hadd]
          refine ⟨?_, ?_, hsorted3 [g1] (by simp [g1, hg0p]) (by simp), ?_⟩
          · rw [hcs']
            have hc1 : RepChunk q.buf c g1 := ⟨hc.pos, hc.he, by rw [hc.al, hv1]; simp [g1, hrv, hal], hc.lo, hc.hi, by simp only [g1, hrr]; exact hc.text⟩
            have := forall2_append (forall2_append hCL (List.Forall₂.cons hc1 .nil)) hCB
            simpa using this
          · have hpos : f.args.length > 0 := by omega
            simp only [hpos, if_true]
            have hq : q.args = (L.flatMap fun g => vals g.toks) ++ vals g0.toks ++ (B.flatMap fun g => vals g.toks) := by
              rw [hr.args]; simp
            have hidx : q.args.length - tailLen CB - c.argLen = (L.flatMap fun g => vals g.toks).length := by
              rw [hargsB, hc.al, hq]; simp only [List.length_append]; omega
            rw [hidx, hq, goCopy_fit _ _ _ _ (by omega)]
            simp [g1, hrv]
          · intro x hx
            simp at hx
            rcases hx with hx | rfl | hx
            · exact hr.ok x (by simp [hx])
            · exact hrb
            · exact hr.ok x (by simp [hx])
        · rw [hgroup3 [g1] (by simp [g1, hg0p])]
          simp [group, g1, Clause.extend, he, ha, hg0p]
        · unfold Stmt.addF Stmt.add; rw [hadd]; exact ⟨rfl, rfl, rfl, rfl, rfl⟩
    · -- append an expression
      have heok := (hf.e he).1
      have hei := heok.info
      let sp : Bytes := if c.hasExpr then f.sep else b!" "
      have hsp : FragOK (α := α) sp [] := sepText_ok hf.sep _
      have hspi := hsp.info
      have hspb : bound sp ([] : List α) = lits sp := (hspi.noargs rfl).1
      have hsp' : sp = (if g0.hasExpr then f.sep else b!" ") := by simp only [sp, hc.he]
      have hsm := (hsp.append heok)
      have hsmi := hsm.info
      have hsmb : bound (sp ++ f.expr) f.args = lits sp ++ bound f.expr f.args := by
        have := bound_append hsp heok; simpa [hspb] using this
      simp only [List.nil_append] at hsmi
      have hnsg : ¬ single f.pos := fun h => he (hf.s h).1
      by_cases hh : c.high = q.buf.length
      · have hadd := addChunk_merge q f (CL ++ CM0) CB c hcs' hCA hcp hCBp he hh
        let g1 : Clause α := ⟨f.pos, g0.toks ++ lits sp ++ bound f.expr f.args, true⟩
        have hg1t : g1.toks = g0.toks ++ bound (sp ++ f.expr) f.args := by rw [hsmb]; simp [g1]
        refine ⟨L ++ (M0 ++ [g1]) ++ B, ?_, ?_, ?_⟩
        · unfold Stmt.addF Stmt.add; rw [hadd]
          have hM1 : ∀ m ∈ M0 ++ [g1], m.pos = f.pos := by
            intro m hm; rcases List.mem_append.1 hm with hm | hm
            · exact hM m (by simp [hm])
            · simp at hm; subst hm; rfl
          refine ⟨?_, ?_, hsorted3 _ hM1 ?_, ?_⟩
          · have e : q.buf ++ (if c.hasExpr = true then f.sep else b!" ") ++ f.expr = q.buf ++ (sp ++ f.expr) := by simp [sp]
            simp only [e]
            have hc1 : RepChunk (q.buf ++ (sp ++ f.expr)) { c with argLen := c.argLen + f.args.length, high := (q.buf ++ (sp ++ f.expr)).length, hasExpr := true } g1 := by
              refine ⟨hcp, rfl, ?_, ?_, Nat.le_refl _, ?_⟩
              · simp only [hg1t, vals_append, hsmi.vals, List.length_append, hc.al]
              · have := hc.lo; simp; omega
              · simp only
                rw [slice_full _ _ _ (by have := hc.lo; have := hc.hi; omega), ← hh, hc.text, hg1t, raw_append, hsmi.raw]
            have := forall2_append (forall2_append (forall2_mono (x := sp ++ f.expr) hCL)
              (forall2_append (forall2_mono (x := sp ++ f.expr) hCM0) (List.Forall₂.cons hc1 .nil)))
              (forall2_mono (x := sp ++ f.expr) hCB)
            simpa using this
          · simp only [hins]; simp [hg1t, hsmi.vals]
          · refine (List.pairwise_append.2 ⟨?_, by simp, ?_⟩)
            · exact (List.pairwise_append.1 hsortLB.2.1.1).1
            · intro a ha b hb; simp at hb; subst hb
              have := hM a (by simp [ha])
              exact ⟨by simp [this, g1], fun _ => by rw [this]; exact hnsg⟩
          · intro x hx
            simp at hx
            rcases hx with hx | hx | rfl | hx
            · exact hr.ok x (by simp [hx])
            · exact hr.ok x (by simp [hx])
            · refine ⟨?_, ?_, ?_, ?_⟩
              · rw [hg1t]; exact hg0ok.1.append hsmi.clean hg0ok.2.1
              · rw [hg1t, raw_append, hsmi.raw]; exact getLast?_append_ne hg0ok.2.1 hsmi.last
              · rw [hg1t, vals_append, hsmi.vals, raw_append, hsmi.raw]
                intro hv; simp at hv
                have h1 := hg0ok.2.2.1 hv.1
                have h2 := hsmi.noargs hv.2
                refine ⟨by rw [lits_append, ← h1.1, ← h2.1], by simp at h1 h2 ⊢; tauto⟩
              · intro h; exact absurd h hnsg
            · exact hr.ok x (by simp [hx])
        · have hM1 : ∀ m ∈ M0 ++ [g1], m.pos = f.pos := by
            intro m hm; rcases List.mem_append.1 hm with hm | hm
            · exact hM m (by simp [hm])
            · simp at hm; subst hm; rfl
          rw [hgroup3 _ hM1, group_const f.pos M0 g1 hM1]
          simp [g1, Clause.extend, he, hsp']
        · unfold Stmt.addF Stmt.add; rw [hadd]; exact ⟨rfl, rfl, rfl, rfl, rfl⟩
      · have hadd := addChunk_split q f (CL ++ CM0) CB c hcs' hCA hcp hCBp he hh
        let g1 : Clause α := ⟨f.pos, lits sp ++ bound f.expr f.args, true⟩
        have hg1t : g1.toks = bound (sp ++ f.expr) f.args := by rw [hsmb]
        have hM1 : ∀ m ∈ M0 ++ [g0] ++ [g1], m.pos = f.pos := by
          intro m hm; rcases List.mem_append.1 hm with hm | hm
          · exact hM m hm
          · simp at hm; subst hm; rfl
        refine ⟨L ++ (M0 ++ [g0] ++ [g1]) ++ B, ?_, ?_, ?_⟩
        · unfold Stmt.addF Stmt.add; rw [hadd]
          refine ⟨?_, ?_, hsorted3 _ hM1 ?_, ?_⟩
          · have e : q.buf ++ (if c.hasExpr = true then f.sep else b!" ") ++ f.expr = q.buf ++ (sp ++ f.expr) := by simp [sp]
            simp only [e]
            have hc1 : RepChunk (q.buf ++ (sp ++ f.expr)) ⟨f.pos, q.buf.length, (q.buf ++ (sp ++ f.expr)).length, true, f.args.length⟩ g1 := by
              refine ⟨rfl, rfl, ?_, ?_, Nat.le_refl _, ?_⟩
              · rw [hg1t, hsmi.vals]
              · simp
              · rw [hg1t, hsmi.raw]; exact slice_end _ _
            have := forall2_append (forall2_append (forall2_mono (x := sp ++ f.expr) hCL)
              (forall2_append (forall2_append (forall2_mono (x := sp ++ f.expr) hCM0) (List.Forall₂.cons hc.mono .nil)) (List.Forall₂.cons hc1 .nil)))
              (forall2_mono (x := sp ++ f.expr) hCB)
            simpa using this
          · simp only [hins]; simp [hg1t, hsmi.vals]
          · refine (List.pairwise_append.2 ⟨hsortLB.2.1.1, by simp, ?_⟩)
            intro a ha b hb; simp only [List.mem_singleton] at hb; subst hb
            have := hM a ha
            exact ⟨by simp [this, g1], fun _ => by rw [this]; exact hnsg⟩
          · intro x hx
            simp at hx
            rcases hx with hx | hx | rfl | rfl | hx
            · exact hr.ok x (by simp [hx])
            · exact hr.ok x (by simp [hx])
            · exact hg0ok
            · refine ⟨?_, ?_, ?_, ?_⟩
              · rw [hg1t]; exact hsmi.clean
              · rw [hg1t, hsmi.raw]; exact hsmi.last
              · rw [hg1t, hsmi.vals, hsmi.raw]; exact hsmi.noargs
              · intro h; exact absurd h hnsg
            · exact hr.ok x (by simp [hx])
        · rw [hgroup3 _ hM1, group_const f.pos (M0 ++ [g0]) g1 hM1]
          simp [g1, Clause.extend, he, hsp']
        · unfold Stmt.addF Stmt.add; rw [hadd]; exact ⟨rfl, rfl, rfl, rfl, rfl⟩

end Xsql
