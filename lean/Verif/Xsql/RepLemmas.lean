import Verif.Xsql.TokLemmas
import Mathlib.Data.List.Forall2
/- The representation invariant of a statement and the proof that every builder call refines the
specification. -/
namespace Xsql
variable {α : Type}

/-! ### Go slices -/

theorem goCopy_fit {β} (a m b src : List β) (h : src.length = m.length) :
    goCopy (a ++ m ++ b) a.length src = a ++ src ++ b := by
  unfold goCopy
  have h1 : (a ++ m ++ b).take a.length = a := by simp
  have h2 : src.take ((a ++ m ++ b).length - a.length) = src := by
    apply List.take_of_length_le; simp; omega
  have h3 : (a ++ m ++ b).drop (a.length + src.length) = b := by
    rw [List.append_assoc, List.drop_append, List.drop_eq_nil_of_le (by omega)]
    simp [h]
  rw [h1, h2, h3]

theorem insertAt_eq {β} (a b src : List β) : insertAt (a ++ b) src a.length = a ++ src ++ b := by
  unfold insertAt
  by_cases hs : src.length > 0
  · simp only [hs, if_true]
    by_cases hb : a.length < (a ++ b).length
    · simp only [hb, if_true]
      have hd : (a ++ b ++ src).drop a.length = b ++ src := by simp
      rw [hd]
      -- first copy: shift the tail right
      have e1 : goCopy (a ++ b ++ src) (a.length + src.length) (b ++ src) = (a ++ b ++ src).take (a.length + src.length) ++ b := by
        unfold goCopy
        have hl : (a ++ b ++ src).length - (a.length + src.length) = b.length := by simp; omega
        rw [hl]
        have : (a ++ b ++ src).drop (a.length + src.length + (b ++ src).length) = [] := by
          apply List.drop_eq_nil_of_le; simp
        rw [this]; simp
      rw [e1]
      have e2 : (a ++ b ++ src).take (a.length + src.length) = a ++ (b ++ src).take src.length := by
        rw [List.append_assoc, List.take_append, List.take_of_length_le (by omega)]
        simp
      rw [e2]
      have := goCopy_fit a ((b ++ src).take src.length) b src (by rw [List.length_take]; simp)
      exact this
    · have : b = [] := by
        cases b with
        | nil => rfl
        | cons x xs => simp at hb
      subst this
      simp
  · have : src = [] := by cases src with
      | nil => rfl
      | cons x xs => simp at hs
    subst this; simp

theorem slice_append_left (b x : Bytes) (lo hi : Nat) (h : hi ≤ b.length) : slice (b ++ x) lo hi = slice b lo hi := by
  unfold slice
  rw [List.drop_append, List.take_append]
  by_cases hl : lo ≤ hi
  · rw [show (hi - lo) - (b.drop lo).length = 0 by simp; omega]; simp
  · have : hi - lo = 0 := by omega
    simp [this]

theorem slice_full (b x : Bytes) (lo : Nat) (h : lo ≤ b.length) :
    slice (b ++ x) lo (b ++ x).length = slice b lo b.length ++ x := by
  unfold slice
  rw [List.drop_append, List.take_append]
  simp only [List.length_append, List.length_drop]
  have h1 : (b.drop lo).take (b.length + x.length - lo) = (b.drop lo).take (b.length - lo) := by
    rw [List.take_of_length_le (by simp; omega), List.take_of_length_le (by simp)]
  rw [h1]
  congr 1
  rw [show lo - b.length = 0 by omega]
  simp only [List.drop_zero]
  apply List.take_of_length_le; omega

/-! ### Splitting by position -/

theorem headUpTo_append (p : Nat) (A B : List Chunk) (hA : ∀ c ∈ A, c.pos ≤ p) (hB : ∀ c ∈ B, p < c.pos) :
    headUpTo p (A ++ B) = A ∧ tailAbove p (A ++ B) = B := by
  unfold headUpTo tailAbove
  rw [List.reverse_append]
  have hd : ∀ (X Y : List Chunk), (∀ c ∈ X, p < c.pos) → (∀ c ∈ Y, c.pos ≤ p) →
      (X ++ Y).dropWhile (fun c => decide (p < c.pos)) = Y ∧ (X ++ Y).takeWhile (fun c => decide (p < c.pos)) = X := by
    intro X
    induction X with
    | nil =>
      intro Y _ hY
      cases Y with
      | nil => simp
      | cons y ys =>
        have : ¬ p < y.pos := by have := hY y (by simp); omega
        simp [this]
    | cons x xs ih =>
      intro Y hX hY
      have hx := hX x (by simp)
      have := ih Y (fun c hc => hX c (by simp [hc])) hY
      simp [hx, this]
  have := hd B.reverse A.reverse (by simpa using hB) (by simpa using hA)
  rw [this.1, this.2]; simp

/-! ### Grouping of pieces into clauses -/

/-- Pieces at the same position form one clause. -/
def group : List (Clause α) → List (Clause α)
  | [] => []
  | g :: gs => match group gs with
    | [] => [g]
    | d :: ds => if d.pos = g.pos then { pos := g.pos, toks := g.toks ++ d.toks, hasExpr := d.hasExpr } :: ds else g :: d :: ds

theorem group_eq_nil {gs : List (Clause α)} (h : group gs = []) : gs = [] := by
  cases gs with
  | nil => rfl
  | cons g gs => simp only [group] at h; split at h <;> [simp at h; (split at h <;> simp at h)]

theorem group_pos_mem {gs : List (Clause α)} : ∀ d ∈ group gs, ∃ g ∈ gs, g.pos = d.pos := by
  induction gs with
  | nil => simp [group]
  | cons g gs ih =>
    intro d hd
    simp only [group] at hd
    split at hd
    · simp at hd; subst hd; exact ⟨d, by simp, rfl⟩
    · rename_i d0 ds he
      split at hd
      · rcases List.mem_cons.1 hd with rfl | hd
        · exact ⟨g, by simp, rfl⟩
        · obtain ⟨x, hx, hp⟩ := ih d (by rw [he]; simp [hd])
          exact ⟨x, by simp [hx], hp⟩
      · rcases List.mem_cons.1 hd with rfl | hd
        · exact ⟨d, by simp, rfl⟩
        · obtain ⟨x, hx, hp⟩ := ih d (by rw [he]; exact hd)
          exact ⟨x, by simp [hx], hp⟩

theorem group_append {A B : List (Clause α)} (h : ∀ a ∈ A, ∀ b ∈ B, a.pos ≠ b.pos) :
    group (A ++ B) = group A ++ group B := by
  induction A with
  | nil => rfl
  | cons a A ih =>
    have e := ih (fun x hx => h x (by simp [hx]))
    simp only [List.cons_append, group, e]
    cases hA : group A with
    | nil =>
      have := group_eq_nil hA; subst this
      cases hB : group B with
      | nil => simp
      | cons d ds =>
        have hp : d.pos ≠ a.pos := by
          obtain ⟨b, hb, hbp⟩ := group_pos_mem d (by rw [hB]; simp)
          rw [← hbp]; exact fun hh => h a (by simp) b hb hh.symm
        simp [hp]
    | cons d ds =>
      simp only [List.cons_append]
      split <;> simp

theorem group_const (p : Nat) (M : List (Clause α)) (g : Clause α) (h : ∀ m ∈ M ++ [g], m.pos = p) :
    group (M ++ [g]) = [⟨p, (M ++ [g]).flatMap Clause.toks, g.hasExpr⟩] := by
  induction M with
  | nil =>
    have := h g (by simp); subst this; simp [group]
  | cons m M ih =>
    have e := ih (fun x hx => h x (by simp at hx ⊢; tauto))
    have hm := h m (by simp)
    simp only [List.cons_append, group, e]
    simp [hm]

theorem exists_split (p : Nat) (gs : List (Clause α)) (hs : gs.Pairwise (fun a b => a.pos ≤ b.pos)) :
    ∃ L M B, gs = L ++ M ++ B ∧ (∀ g ∈ L, g.pos < p) ∧ (∀ g ∈ M, g.pos = p) ∧ (∀ g ∈ B, p < g.pos) := by
  induction gs with
  | nil => exact ⟨[], [], [], by simp⟩
  | cons g gs ih =>
    have hs' := List.pairwise_cons.1 hs
    obtain ⟨L, M, B, rfl, hL, hM, hB⟩ := ih hs'.2
    rcases Nat.lt_trichotomy g.pos p with hlt | heq | hgt
    · exact ⟨g :: L, M, B, by simp, by simpa [hlt] using hL, hM, hB⟩
    · have : L = [] := by
        cases L with
        | nil => rfl
        | cons l L =>
          have h1 := hs'.1 l (by simp)
          have h2 := hL l (by simp)
          omega
      subst this
      exact ⟨[], g :: M, B, by simp, by simp, by simpa [heq] using hM, hB⟩
    · have hL' : L = [] := by
        cases L with
        | nil => rfl
        | cons l L =>
          have h1 := hs'.1 l (by simp)
          have h2 := hL l (by simp)
          omega
      have hM' : M = [] := by
        cases M with
        | nil => rfl
        | cons l M =>
          have h1 := hs'.1 l (by simp)
          have h2 := hM l (by simp)
          omega
      subst hL' hM'
      exact ⟨[], [], g :: B, by simp, by simp, by simp, by simpa [hgt] using hB⟩

/-- The document after adding a fragment, in terms of pieces. -/
theorem addFrag_group (nl : Bool) (f : Frag α) (L M B : List (Clause α))
    (hL : ∀ g ∈ L, g.pos < f.pos) (hM : ∀ g ∈ M, g.pos = f.pos) (hB : ∀ g ∈ B, f.pos < g.pos) :
    addFrag nl (group (L ++ M ++ B)) f = group L ++ (match group M with
      | c :: _ => c.extend f
      | [] => ⟨f.pos, f.start nl, decide (f.expr ≠ [])⟩) :: group B := by
  have hLM : group (L ++ M ++ B) = group L ++ group M ++ group B := by
    rw [group_append (A := L ++ M), group_append]
    · intro a ha b hb; have := hL a ha; have := hM b hb; omega
    · intro a ha b hb
      rcases List.mem_append.1 ha with ha | ha
      · have := hL a ha; have := hB b hb; omega
      · have := hM a ha; have := hB b hb; omega
  rw [hLM]
  have pL : ∀ d ∈ group L, d.pos < f.pos := fun d hd => by obtain ⟨g, hg, e⟩ := group_pos_mem d hd; rw [← e]; exact hL g hg
  have pM : ∀ d ∈ group M, d.pos = f.pos := fun d hd => by obtain ⟨g, hg, e⟩ := group_pos_mem d hd; rw [← e]; exact hM g hg
  have pB : ∀ d ∈ group B, f.pos < d.pos := fun d hd => by obtain ⟨g, hg, e⟩ := group_pos_mem d hd; rw [← e]; exact hB g hg
  unfold addFrag
  have hf1 : (group L ++ group M ++ group B).filter (fun c => decide (c.pos < f.pos)) = group L := by
    rw [List.filter_append, List.filter_append, List.filter_eq_self.2 (by simpa using pL),
      List.filter_eq_nil_iff.2 (by intro a ha; have := pM a ha; simp; omega),
      List.filter_eq_nil_iff.2 (by intro a ha; have := pB a ha; simp; omega)]
    simp
  have hf2 : (group L ++ group M ++ group B).filter (fun c => decide (f.pos < c.pos)) = group B := by
    rw [List.filter_append, List.filter_append, (List.filter_eq_self (l := group B)).2 (by simpa using pB),
      List.filter_eq_nil_iff.2 (by intro a ha; have := pL a ha; simp; omega),
      List.filter_eq_nil_iff.2 (by intro a ha; have := pM a ha; simp; omega)]
    simp
  have hL0 : (group L).find? (fun c => decide (c.pos = f.pos)) = none := by
    rw [List.find?_eq_none]; intro a ha; have := pL a ha; simp; omega
  have hB0 : (group B).find? (fun c => decide (c.pos = f.pos)) = none := by
    rw [List.find?_eq_none]; intro a ha; have := pB a ha; simp; omega
  rw [hf1, hf2]
  rw [List.find?_append, List.find?_append, hL0, hB0]
  cases hg : group M with
  | nil => simp
  | cons c cs =>
    have := pM c (by rw [hg]; simp)
    simp [this]

/-! ### The invariant -/

/-- What a single piece satisfies. -/
def PieceOK (g : Clause α) : Prop :=
  Clean g.toks ∧ (raw g.toks).getLast? ≠ some 92 ∧ (vals g.toks = [] → g.toks = lits (raw g.toks) ∧ (63 : UInt8) ∉ raw g.toks) ∧
  (single g.pos → (vals g.toks).length = 1)

/-- A chunk represents a piece. -/
structure RepChunk (buf : Bytes) (c : Chunk) (g : Clause α) : Prop where
  pos : c.pos = g.pos
  he : c.hasExpr = g.hasExpr
  al : c.argLen = (vals g.toks).length
  lo : c.low ≤ c.high
  hi : c.high ≤ buf.length
  text : slice buf c.low c.high = raw g.toks

/-- A statement represents a list of pieces. -/
structure Rep (q : Stmt α) (gs : List (Clause α)) : Prop where
  chunks : List.Forall₂ (RepChunk q.buf) q.chunks gs
  args : q.args = gs.flatMap fun g => vals g.toks
  sorted : gs.Pairwise fun a b => a.pos ≤ b.pos ∧ (a.pos = b.pos → ¬ single a.pos)
  ok : ∀ g ∈ gs, PieceOK g

theorem RepChunk.mono {buf x : Bytes} {c : Chunk} {g : Clause α} (h : RepChunk buf c g) : RepChunk (buf ++ x) c g :=
  ⟨h.pos, h.he, h.al, h.lo, by have := h.hi; simp; omega, by rw [slice_append_left _ _ _ _ h.hi, h.text]⟩

theorem forall2_mono {buf x : Bytes} {cs : List Chunk} {gs : List (Clause α)} (h : List.Forall₂ (RepChunk buf) cs gs) :
    List.Forall₂ (RepChunk (buf ++ x)) cs gs := h.imp fun _ _ h => h.mono

/-! ### Usable fragments -/

structure FragInfo (s : Bytes) (as : List α) : Prop where
  clean : Clean (bound s as)
  raw : raw (bound s as) = s
  vals : vals (bound s as) = as
  last : s.getLast? ≠ some 92
  noargs : as = [] → bound s as = lits s ∧ (63 : UInt8) ∉ s

theorem FragOK.info {s : Bytes} {as : List α} (h : FragOK s as) : FragInfo s as := by
  obtain ⟨h1, h2, h3⟩ := h
  obtain ⟨ts, hts⟩ := Option.isSome_iff_exists.1 h1
  have hb := bound_of hts
  refine ⟨hb ▸ clean_of_bindArgs hts, hb ▸ bindArgs_raw hts, hb ▸ bindArgs_vals hts, h2, ?_⟩
  rintro rfl
  have := bindArgs_nil_lits hts (h3 rfl)
  rw [hb]; exact this

theorem getLast?_append_ne {a b : Bytes} (ha : a.getLast? ≠ some 92) (hb : b.getLast? ≠ some 92) : (a ++ b).getLast? ≠ some 92 := by
  rw [List.getLast?_append]
  cases h : b.getLast? with
  | none => simpa using ha
  | some x => rw [h] at hb; simpa using hb

theorem FragOK.append {s t : Bytes} {as bs : List α} (h : FragOK s as) (k : FragOK t bs) : FragOK (s ++ t) (as ++ bs) := by
  obtain ⟨h1, h2, h3⟩ := h
  obtain ⟨k1, k2, k3⟩ := k
  obtain ⟨x, hx⟩ := Option.isSome_iff_exists.1 h1
  obtain ⟨y, hy⟩ := Option.isSome_iff_exists.1 k1
  refine ⟨?_, getLast?_append_ne h2 k2, ?_⟩
  · unfold bindArgs at *; rw [tokenize_append _ _ h2, assign_append hx hy]; rfl
  · intro he
    simp at he
    rw [tokenize_append _ _ h2]
    simp [h3 he.1, k3 he.2]

theorem bound_append {s t : Bytes} {as bs : List α} (h : FragOK s as) (k : FragOK t bs) :
    bound (s ++ t) (as ++ bs) = bound s as ++ bound t bs := by
  obtain ⟨x, hx⟩ := Option.isSome_iff_exists.1 h.1
  obtain ⟨y, hy⟩ := Option.isSome_iff_exists.1 k.1
  rw [bound_of hx, bound_of hy]
  apply bound_of
  unfold bindArgs at *; rw [tokenize_append _ _ h.2.1, assign_append hx hy]

theorem FragOK.const {s : Bytes} (h : (63 : UInt8) ∉ s) (h2 : s.getLast? ≠ some 92) : FragOK (α := α) s [] := by
  refine ⟨by rw [bindArgs_no_q s h]; rfl, h2, fun _ => ?_⟩
  rw [tokenize_of_no_q s h]; simp [lits]

theorem FragOK.nil_args {as : List α} (h : FragOK [] as) : as = [] := by
  have := h.1; cases as <;> simp_all [bindArgs, tokenize, assign]

/-- A fragment that can be added to a document. -/
structure FragIn (d : List (Clause α)) (f : Frag α) : Prop where
  e : f.expr ≠ [] → FragOK f.expr f.args ∧ (63 : UInt8) ∉ f.kw
  k : f.expr = [] → FragOK f.kw f.args
  r : f.expr = [] → f.args ≠ [] → (∃ c ∈ d, c.pos = f.pos) → single f.pos
  s : single f.pos → f.expr = [] ∧ f.args.length = 1
  sep : (63 : UInt8) ∉ f.sep ∧ (92 : UInt8) ∉ f.sep

/-- Text of a fragment that starts a clause. -/
def startText (nl : Bool) (f : Frag α) : Bytes :=
  (if f.kw = [] then [] else (if nl then b!"\n" else []) ++ f.kw ++ (if f.expr = [] then [] else b!" ")) ++ f.expr

theorem start_ok {nl : Bool} {d : List (Clause α)} {f : Frag α} (h : FragIn d f) : FragOK (startText nl f) f.args := by
  have hnl : FragOK (α := α) (if nl then b!"\n" else []) [] := by
    cases nl
    · exact FragOK.const (by simp) (by simp)
    · exact FragOK.const (by decide) (by decide)
  unfold startText
  by_cases he : f.expr = []
  · have hk := h.k he
    by_cases hkw : f.kw = []
    · rw [if_pos hkw, he]; rw [hkw] at hk; simpa using hk
    · rw [if_neg hkw, if_pos he, he]
      have := hnl.append hk
      simpa using this
  · obtain ⟨h1, h2⟩ := h.e he
    by_cases hkw : f.kw = []
    · rw [if_pos hkw]; simpa using h1
    · rw [if_neg hkw, if_neg he]
      have hks : FragOK (α := α) (f.kw ++ b!" ") [] := by
        refine FragOK.const ?_ ?_
        · simp [h2]
        · simp
      have := (hnl.append hks).append h1
      simpa using this

/-- The text `newChunk` writes. -/
theorem newChunk_eq (q : Stmt α) (p lo : Nat) (kw expr : Bytes) (n : Nat) :
    q.newChunk p lo (decide (kw ≠ [])) kw expr n =
      { q with
        buf := q.buf ++ startText q.useNewLines ⟨p, kw, expr, ([] : List α), []⟩
        chunks := headUpTo p q.chunks ++ ⟨p, lo, (q.buf ++ startText q.useNewLines ⟨p, kw, expr, ([] : List α), []⟩).length, decide (expr ≠ []), n⟩ :: tailAbove p q.chunks } := by
  unfold Stmt.newChunk startText Stmt.write
  by_cases hk : kw = [] <;> by_cases he : expr = [] <;> cases hn : q.useNewLines <;> simp [hk, he, hn]

theorem newChunk_false (q : Stmt α) (p lo : Nat) (kw expr : Bytes) (n : Nat) :
    q.newChunk p lo false kw expr n =
      { q with
        buf := q.buf ++ expr
        chunks := headUpTo p q.chunks ++ ⟨p, lo, (q.buf ++ expr).length, decide (expr ≠ []), n⟩ :: tailAbove p q.chunks } := by
  unfold Stmt.newChunk Stmt.write; simp

/-- Add a fragment to a statement. -/
def Stmt.addF (q : Stmt α) (f : Frag α) : Stmt α := q.add f.pos f.kw f.expr f.args f.sep

theorem forall2_append_right {β γ} {R : β → γ → Prop} {A : List β} {X Y : List γ} (h : List.Forall₂ R A (X ++ Y)) :
    ∃ AX AY, A = AX ++ AY ∧ List.Forall₂ R AX X ∧ List.Forall₂ R AY Y := by
  induction X generalizing A with
  | nil => exact ⟨[], A, rfl, .nil, h⟩
  | cons x X ih =>
    cases h with
    | cons hx ht =>
      obtain ⟨AX, AY, rfl, h1, h2⟩ := ih ht
      exact ⟨_ :: AX, AY, rfl, .cons hx h1, h2⟩

theorem forall2_append {β γ} {R : β → γ → Prop} {A B : List β} {X Y : List γ} (h : List.Forall₂ R A X) (k : List.Forall₂ R B Y) :
    List.Forall₂ R (A ++ B) (X ++ Y) := by
  induction h with
  | nil => exact k
  | cons hx _ ih => exact .cons hx ih

theorem forall2_pos {buf : Bytes} {cs : List Chunk} {gs : List (Clause α)} (h : List.Forall₂ (RepChunk buf) cs gs)
    {P : Nat → Prop} (hg : ∀ g ∈ gs, P g.pos) : ∀ c ∈ cs, P c.pos := by
  induction h with
  | nil => simp
  | cons hx _ ih =>
    intro c hc
    rcases List.mem_cons.1 hc with rfl | hc
    · rw [hx.pos]; exact hg _ (by simp)
    · exact ih (fun g hg' => hg g (by simp [hg'])) c hc

theorem argLen_sum {buf : Bytes} {cs : List Chunk} {gs : List (Clause α)} (h : List.Forall₂ (RepChunk buf) cs gs) :
    (cs.map Chunk.argLen).sum = (gs.flatMap fun g => vals g.toks).length := by
  induction h with
  | nil => rfl
  | cons hx _ ih => simp [ih, hx.al]

end Xsql
