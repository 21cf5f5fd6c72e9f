import Verif.Xsql.Spec
/- Lemmas about tokens, lexing, numbering and the Postgres rewriter. -/
namespace Xsql
variable {α : Type}

@[simp] theorem raw_nil : raw ([] : List (Tok α)) = [] := rfl
@[simp] theorem raw_cons (t : Tok α) (ts) : raw (t :: ts) = t.raw ++ raw ts := rfl
@[simp] theorem raw_append (a b : List (Tok α)) : raw (a ++ b) = raw a ++ raw b := by simp [raw]
@[simp] theorem vals_nil : vals ([] : List (Tok α)) = [] := rfl
@[simp] theorem vals_append (a b : List (Tok α)) : vals (a ++ b) = vals a ++ vals b := by simp [vals]
@[simp] theorem vals_lit (b : UInt8) (ts : List (Tok α)) : vals (.lit b :: ts) = vals ts := rfl
@[simp] theorem vals_esc (ts : List (Tok α)) : vals (.esc :: ts) = vals ts := rfl
@[simp] theorem vals_ph (a : α) (ts : List (Tok α)) : vals (.ph a :: ts) = a :: vals ts := rfl

theorem raw_tokenize (s : Bytes) : raw (tokenize s) = s := by
  fun_induction tokenize s <;> simp_all [Tok.raw]

theorem tokenize_append (s t : Bytes) (h : s.getLast? ≠ some 92) :
    tokenize (s ++ t) = tokenize s ++ tokenize t := by
  fun_induction tokenize s with
  | case1 => rfl
  | case2 => cases t <;> simp [tokenize]
  | case3 b hb =>
    have hb' : b ≠ 92 := by rintro rfl; exact h rfl
    cases t <;> simp [tokenize, hb, hb']
  | case4 c s ih =>
    have hh : (c :: s).getLast? ≠ some 92 := by simpa [List.getLast?_cons_cons] using h
    have e := ih hh
    simp only [List.cons_append] at e ⊢
    rw [tokenize, if_pos rfl, e]
  | case5 b c s hb hbc ih =>
    obtain ⟨rfl, rfl⟩ := hbc
    by_cases hs : s = []
    · subst hs; simp [tokenize]
    · have hh : s.getLast? ≠ some 92 := by
        cases s with
        | nil => exact absurd rfl hs
        | cons x xs => simpa [List.getLast?_cons_cons] using h
      have e := ih hh
      simp [tokenize, e]
  | case6 b c s hb hbc ih =>
    have hh : (c :: s).getLast? ≠ some 92 := by simpa [List.getLast?_cons_cons] using h
    have e := ih hh
    simp only [List.cons_append] at e ⊢
    rw [tokenize, if_neg hb, if_neg hbc, e]

theorem assign_append {t u : List (Tok Unit)} {as bs : List α} {x y} (h1 : assign t as = some x) (h2 : assign u bs = some y) :
    assign (t ++ u) (as ++ bs) = some (x ++ y) := by
  fun_induction assign t as generalizing x <;> simp_all [assign] <;> (obtain ⟨w, hw, rfl⟩ := h1; simp_all)

/-- Forget the arguments. -/
def Tok.forget : Tok α → Tok Unit
  | .lit b => .lit b
  | .esc => .esc
  | .ph _ => .ph ()

theorem assign_some {t : List (Tok Unit)} {as : List α} {x} (h : assign t as = some x) :
    x.map Tok.forget = t ∧ vals x = as ∧ raw x = raw t := by
  fun_induction assign t as generalizing x <;> simp_all <;>
    (obtain ⟨w, hw, rfl⟩ := h; simp_all [Tok.raw, Tok.forget])

theorem assign_forget (ts : List (Tok α)) : assign (ts.map Tok.forget) (vals ts) = some ts := by
  induction ts with
  | nil => rfl
  | cons t ts ih => cases t <;> simp_all [Tok.forget, assign]

theorem assign_isSome_iff (t : List (Tok Unit)) (as : List α) : (assign t as).isSome ↔ (vals t).length = as.length := by
  fun_induction assign t as <;> simp_all

theorem bindArgs_raw {s : Bytes} {as : List α} {ts} (h : bindArgs s as = some ts) : raw ts = s := by
  rw [(assign_some h).2.2, raw_tokenize]
theorem bindArgs_vals {s : Bytes} {as : List α} {ts} (h : bindArgs s as = some ts) : vals ts = as := (assign_some h).2.1

/-- A token list is what lexing its own text and handing out its own arguments gives back. -/
def Clean (ts : List (Tok α)) : Prop := bindArgs (raw ts) (vals ts) = some ts

theorem clean_of_bindArgs {s : Bytes} {as : List α} {ts} (h : bindArgs s as = some ts) : Clean ts := by
  unfold Clean; rw [bindArgs_raw h, bindArgs_vals h, h]

theorem Clean.append {a b : List (Tok α)} (ha : Clean a) (hb : Clean b) (hl : (raw a).getLast? ≠ some 92) : Clean (a ++ b) := by
  unfold Clean bindArgs at *
  rw [raw_append, vals_append, tokenize_append _ _ hl]
  exact assign_append ha hb

theorem Clean.toks_eq {ts : List (Tok α)} (h : Clean ts) : tokenize (raw ts) = ts.map Tok.forget := (assign_some h).1.symm

theorem clean_iff (ts : List (Tok α)) : Clean ts ↔ tokenize (raw ts) = ts.map Tok.forget := by
  refine ⟨Clean.toks_eq, fun h => ?_⟩
  unfold Clean bindArgs; rw [h]; exact assign_forget ts

theorem bound_of {s : Bytes} {as : List α} {ts} (h : bindArgs s as = some ts) : bound s as = ts := by simp [bound, h]

@[simp] theorem lits_nil : (lits [] : List (Tok α)) = [] := rfl
@[simp] theorem lits_cons (b s) : (lits (b :: s) : List (Tok α)) = .lit b :: lits s := rfl
@[simp] theorem lits_append (a b : Bytes) : (lits (a ++ b) : List (Tok α)) = lits a ++ lits b := by simp [lits]
@[simp] theorem raw_lits (s : Bytes) : raw (lits s : List (Tok α)) = s := by
  induction s <;> simp_all [Tok.raw]
@[simp] theorem vals_lits (s : Bytes) : vals (lits s : List (Tok α)) = [] := by
  induction s <;> simp_all

theorem tokenize_of_no_q (s : Bytes) (h : (63 : UInt8) ∉ s) : tokenize s = lits s := by
  fun_induction tokenize s <;> simp_all

theorem bindArgs_no_q (s : Bytes) (h : (63 : UInt8) ∉ s) : bindArgs s ([] : List α) = some (lits s) := by
  unfold bindArgs; rw [tokenize_of_no_q s h]
  induction s with
  | nil => rfl
  | cons b s ih => simp_all [assign]

theorem clean_lits (s : Bytes) (h : (63 : UInt8) ∉ s) : Clean (lits s : List (Tok α)) := clean_of_bindArgs (bindArgs_no_q s h)

/-- Without arguments and escapes there is no question mark at all. -/
theorem bindArgs_nil_lits {s : Bytes} {ts : List (Tok α)} (h : bindArgs s [] = some ts) (he : Tok.esc ∉ tokenize s) :
    ts = lits s ∧ (63 : UInt8) ∉ s := by
  unfold bindArgs at h
  have hno : (63 : UInt8) ∉ s := by
    intro hm
    fun_induction tokenize s generalizing ts with
    | case1 => simp at hm
    | case2 => simp [assign] at h
    | case3 b hb => simp at hm; exact hb hm.symm
    | case4 c s ih => simp [assign] at h
    | case5 b c s hb hbc ih => simp at he
    | case6 b c s hb hbc ih =>
      simp only [assign, Option.map_eq_some_iff] at h
      obtain ⟨w, hw, rfl⟩ := h
      refine ih hw (by simp_all) ?_
      simpa [Ne.symm hb] using hm
  refine ⟨?_, hno⟩
  have := bindArgs_no_q (α := α) s hno
  unfold bindArgs at this
  simp_all

theorem esc_mem_forget {ts : List (Tok α)} : Tok.esc ∈ ts.map Tok.forget ↔ Tok.esc ∈ ts := by
  induction ts with
  | nil => simp
  | cons t ts ih => cases t <;> simp_all [Tok.forget]

theorem numbered_append (n : Nat) (a b : List (Tok α)) :
    numbered n (a ++ b) = numbered n a ++ numbered (n + (vals a).length) b := by
  induction a generalizing n with
  | nil => simp [numbered]
  | cons t ts ih =>
    cases t <;> simp [numbered, ih, Nat.add_assoc, Nat.add_comm]

@[simp] theorem numbered_lits (n : Nat) (s : Bytes) : numbered n (lits s : List (Tok α)) = s := by
  induction s <;> simp_all [numbered]

theorem numbered_forget (n : Nat) (ts : List (Tok α)) : numbered n (ts.map Tok.forget) = numbered n ts := by
  induction ts generalizing n with
  | nil => rfl
  | cons t ts ih => cases t <;> simp_all [Tok.forget, numbered]

theorem vals_forget_length (ts : List (Tok α)) : (vals (ts.map Tok.forget)).length = (vals ts).length := by
  induction ts with
  | nil => rfl
  | cons t ts ih => cases t <;> simp_all [Tok.forget]

/-! ### The Postgres rewriter -/

theorem writePgLoop_eq (s : Bytes) (fuel i start n : Nat) (out : Bytes) (hf : fuel + i = s.length)
    (hs : start ≤ i ∨ (start = i + 1 ∧ i + 1 ≤ s.length)) :
    writePgLoop s fuel i start n out =
      (n + (vals (tokenize (s.drop (max i start)))).length,
       out ++ slice s start i ++ numbered n (tokenize (s.drop (max i start)))) := by
  induction fuel generalizing i start n out with
  | zero =>
    have hi : i = s.length := by omega
    subst hi
    have hle : start ≤ s.length := by omega
    rw [Nat.max_eq_left hle]
    simp only [writePgLoop, List.drop_length, tokenize, vals_nil, List.length_nil, Nat.add_zero, numbered, List.append_nil]
    by_cases h : start < s.length
    · simp [h]
    · have : start = s.length := by omega
      simp [slice, this]
  | succ fuel ih =>
    unfold writePgLoop
    have hilt : i < s.length := by omega
    by_cases hst : start > i
    · have e : start = i + 1 := by omega
      simp only [hst, if_true]
      rw [ih (i + 1) start n out (by omega) (by omega)]
      subst e
      simp [slice]
    · have hle : start ≤ i := by omega
      have hmax : max i start = i := by omega
      simp only [hst, if_false, hmax]
      have hget : s[i]? = some s[i] := List.getElem?_eq_getElem hilt
      have hdrop : s.drop i = s[i] :: s.drop (i + 1) := List.drop_eq_getElem_cons hilt
      have hsl : ∀ k, k ≤ i → slice s k (i + 1) = slice s k i ++ [s[i]] := by
        intro k hk
        unfold slice
        rw [show i + 1 - k = (i - k) + 1 by omega, List.take_add_one]
        simp [List.getElem?_drop, Nat.add_sub_cancel' hk, hget]
      rw [hget]
      by_cases h92 : s[i] = 92
      · simp only [h92]
        by_cases hq : i < s.length - 1 ∧ s[i + 1]? = some 63
        · rw [if_pos hq]
          rw [ih (i + 1) (i + 2) n _ (by omega) (by omega)]
          have hlt2 : i + 1 < s.length := by omega
          have hd2 : s.drop (i + 1) = 63 :: s.drop (i + 2) := by
            rw [List.drop_eq_getElem_cons hlt2]
            have := hq.2
            rw [List.getElem?_eq_getElem hlt2] at this
            simp_all
          have hm : max (i + 1) (i + 2) = i + 2 := by omega
          rw [hm, hdrop, h92, hd2]
          simp [tokenize, numbered, slice]
        · rw [if_neg hq]
          rw [ih (i + 1) start n out (by omega) (by omega)]
          have hm : max (i + 1) start = i + 1 := by omega
          rw [hm, hsl start hle, hdrop, h92]
          have htok : tokenize (92 :: s.drop (i + 1)) = .lit 92 :: tokenize (s.drop (i + 1)) := by
            by_cases hlt2 : i + 1 < s.length
            · have hne : s[i + 1] ≠ 63 := by
                intro he; apply hq
                exact ⟨by omega, by rw [List.getElem?_eq_getElem hlt2, he]⟩
              rw [List.drop_eq_getElem_cons hlt2]
              simp [tokenize, hne]
            · have : s.drop (i + 1) = [] := List.drop_eq_nil_of_le (by omega)
              rw [this]; simp [tokenize]
          rw [htok]; simp [numbered]
      · by_cases h63 : s[i] = 63
        · simp only [h63]
          rw [ih (i + 1) (i + 1) (n + 1) _ (by omega) (by omega)]
          have hm : max (i + 1) (i + 1) = i + 1 := by omega
          rw [hm, hdrop, h63]
          have htok : tokenize (63 :: s.drop (i + 1)) = .ph () :: tokenize (s.drop (i + 1)) := by
            cases s.drop (i + 1) <;> simp [tokenize]
          rw [htok]
          simp [numbered, slice]; omega
        · have hm : max (i + 1) start = i + 1 := by omega
          have hm' := ih (i + 1) start n out (by omega) (by omega)
          rw [hm, hsl start hle] at hm'
          rw [hdrop]
          have htok : tokenize (s[i] :: s.drop (i + 1)) = .lit s[i] :: tokenize (s.drop (i + 1)) := by
            cases s.drop (i + 1) <;> simp [tokenize, h63, h92]
          rw [htok]
          split
          · rename_i heq; simp at heq; exact absurd heq h92
          · rename_i heq; simp at heq; exact absurd heq h63
          · rw [hm']; simp [numbered]

theorem writePg_eq (n : Nat) (s : Bytes) :
    writePg n s = (n + (vals (tokenize s)).length, numbered n (tokenize s)) := by
  unfold writePg
  rw [writePgLoop_eq s s.length 0 0 n [] (by omega) (by omega)]
  simp [slice]

theorem writePg_clean (n : Nat) {ts : List (Tok α)} (h : Clean ts) :
    writePg n (raw ts) = (n + (vals ts).length, numbered n ts) := by
  rw [writePg_eq, h.toks_eq, vals_forget_length, numbered_forget]

end Xsql
