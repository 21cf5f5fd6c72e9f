import Verif.Gen.Props
set_option linter.unusedVariables false
set_option linter.unusedSimpArgs false
/-!
What a failed `generate` leaves behind, exactly (C75).
-/
namespace Gen

/-- How the loop over the schemas stopped. -/
inductive Stop where
  | completed
  | cannotOpen (t : Target)
  | opened (t : Target)      -- failed after opening (and truncating) `t`, before writing it

/-- A file opened and written. -/
def pair (x : Target × File) : List Event := openEvents x.1 ++ [.write x.1 x.2]

/-- The last event. -/
def Stop.events : Stop → List Event
  | .opened t => openEvents t
  | _ => []

/-- What is true of a run: whole files, then the point where it stopped. -/
structure Shape (L : Lib) (fmtOK : File → Bool) (evs : List Event) (r : Res) (done : List (Target × File)) (stop : Stop) : Prop where
  events : evs = done.flatMap pair ++ stop.events
  ok : r = .ok ↔ ∃ _u : Unit, stop = .completed
  formatted : ∀ x ∈ done, fmtOK x.2 = true ∧ openable L x.1 = true
  refused : ∀ t, stop = .cannotOpen t → openable L t = false
  entered : ∀ t, stop = .opened t → openable L t = true

theorem tableLoop_not_ok (L : Lib) (cfg : Cfg) (s : Bytes) : ∀ (ts : List GTable) (ds : List ModelDecl) (infos : List InfoDecl) (defs : List TableDef) (r : Res),
    tableLoop L cfg s ts ds infos defs = .error r → r ≠ .ok
  | [], _, _, _, r, h => by cases h
  | t :: ts, ds, infos, defs, r, h => by
    unfold tableLoop at h
    split at h
    · cases h; simp
    · split at h
      · cases h; simp
      · exact tableLoop_not_ok L cfg s ts _ _ _ r h

theorem loop_shape (L : Lib) (cfg : Cfg) (fmtOK : File → Bool) (multi : Bool) (byName : Bytes → List GTable) :
    ∀ (order : List Bytes) (infos : List InfoDecl) (defs : List TableDef) (evs : List Event), ∃ done stop,
      (schemaLoop L cfg fmtOK multi byName order infos defs evs).1 = evs ++ (done.flatMap pair ++ stop.events)
      ∧ Shape L fmtOK (done.flatMap pair ++ stop.events) (schemaLoop L cfg fmtOK multi byName order infos defs evs).2 done stop
      ∧ (∀ s ss t, order = s :: ss → done = [] → stop = .cannotOpen t → t = target cfg.outModel multi s b!"model") := by
  intro order
  induction order with
  | nil =>
    intro infos defs evs
    exact ⟨[], .completed, by simp [schemaLoop, Stop.events], ⟨rfl, by simp [schemaLoop], by simp, by simp, by simp⟩, by simp⟩
  | cons s ss ih =>
    intro infos defs evs
    unfold schemaLoop
    simp only
    cases h1 : openable L (target cfg.outModel multi s b!"model") with
    | false =>
      refine ⟨[], .cannotOpen (target cfg.outModel multi s b!"model"), by simp [Stop.events], ⟨rfl, by simp, by simp, ?_, by simp⟩, ?_⟩
      · intro t ht; cases ht; exact h1
      · intro s' ss' t he _ ht; cases he; cases ht; rfl
    | true =>
      simp only [Bool.not_true, Bool.false_eq_true, if_false]
      cases h2 : tableLoop L cfg s (byName s) [] infos defs with
      | error r =>
        have := tableLoop_not_ok L cfg s _ _ _ _ r h2
        refine ⟨[], .opened (target cfg.outModel multi s b!"model"), by simp [Stop.events], ⟨rfl, by simp [this], by simp, by simp, ?_⟩, by simp⟩
        intro t ht; cases ht; exact h1
      | ok x =>
        obtain ⟨ds, infos', defs'⟩ := x
        simp only
        cases h3 : fmtOK (.model (modelDialect cfg) ds) with
        | false =>
          refine ⟨[], .opened (target cfg.outModel multi s b!"model"), by simp [Stop.events], ⟨rfl, by simp, by simp, by simp, ?_⟩, by simp⟩
          intro t ht; cases ht; exact h1
        | true =>
          simp only [Bool.not_true, Bool.false_eq_true, if_false]
          cases h4 : openable L (target cfg.outSchema multi s b!"schema") with
          | false =>
            refine ⟨[(target cfg.outModel multi s b!"model", .model (modelDialect cfg) ds)], .cannotOpen (target cfg.outSchema multi s b!"schema"),
              by simp [Stop.events, pair], ⟨rfl, by simp, ?_, ?_, by simp⟩, by simp⟩
            · intro x hx; rw [List.mem_singleton] at hx; subst hx; exact ⟨h3, h1⟩
            · intro t ht; cases ht; exact h4
          | true =>
            simp only [Bool.not_true, Bool.false_eq_true, if_false]
            cases h5 : execSchema L cfg infos' defs' with
            | none =>
              refine ⟨[(target cfg.outModel multi s b!"model", .model (modelDialect cfg) ds)], .opened (target cfg.outSchema multi s b!"schema"),
                by simp [Stop.events, pair], ⟨rfl, by simp, ?_, by simp, ?_⟩, by simp⟩
              · intro x hx; rw [List.mem_singleton] at hx; subst hx; exact ⟨h3, h1⟩
              · intro t ht; cases ht; exact h4
            | some sf =>
              simp only
              cases h6 : fmtOK sf with
              | false =>
                refine ⟨[(target cfg.outModel multi s b!"model", .model (modelDialect cfg) ds)], .opened (target cfg.outSchema multi s b!"schema"),
                  by simp [Stop.events, pair], ⟨rfl, by simp, ?_, by simp, ?_⟩, by simp⟩
                · intro x hx; rw [List.mem_singleton] at hx; subst hx; exact ⟨h3, h1⟩
                · intro t ht; cases ht; exact h4
              | true =>
                simp only [Bool.not_true, Bool.false_eq_true, if_false]
                obtain ⟨done, stop, e1, e2, -⟩ := ih infos' defs' (evs ++ openEvents (target cfg.outModel multi s b!"model")
                  ++ [.write (target cfg.outModel multi s b!"model") (.model (modelDialect cfg) ds)] ++ openEvents (target cfg.outSchema multi s b!"schema")
                  ++ [.write (target cfg.outSchema multi s b!"schema") sf])
                refine ⟨(target cfg.outModel multi s b!"model", .model (modelDialect cfg) ds) :: (target cfg.outSchema multi s b!"schema", sf) :: done, stop, ?_, ⟨rfl, e2.ok, ?_, e2.refused, e2.entered⟩, by simp⟩
                · rw [e1]; simp [pair]
                · intro x hx
                  rcases List.mem_cons.1 hx with rfl | hx
                  · exact ⟨h3, h1⟩
                  rcases List.mem_cons.1 hx with rfl | hx
                  · exact ⟨h6, h4⟩
                  · exact e2.formatted x hx

theorem content_pairs (p : Bytes) : ∀ (done : List (Target × File)) (c : Option (Option File)), c ≠ some none →
    content p (done.flatMap pair) c = match ((done.filter (fun x => x.1 = .path p)).getLast?).map Prod.snd with | none => c | some f => some (some f)
  | [], c, hc => rfl
  | (t, f) :: done, c, hc => by
    rw [List.flatMap_cons, content_append]
    cases t with
    | stdout =>
      have : content p (pair (.stdout, f)) c = c := rfl
      rw [this, content_pairs p done c hc]
      simp
    | path q =>
      by_cases hq : q = p
      · subst hq
        have : content q (pair (.path q, f)) c = some (some f) := by simp [pair, openEvents, content]
        rw [this, content_pairs q done _ (by simp)]
        simp only [List.filter_cons, decide_true, if_true]
        rw [List.getLast?_cons]
        cases (List.filter (fun x : Target × File => decide (x.1 = Target.path q)) done).getLast? <;> rfl
      · have : content p (pair (.path q, f)) c = c := by simp [pair, openEvents, content, hq]
        rw [this, content_pairs p done c hc]
        simp [hq]

/-- **C75**, what a run leaves behind: files that it finished (formatted as they should be), and at most one path that is empty — the one it was working on when it failed. -/
theorem C75_what_is_left (L : Lib) (cfg : Cfg) (fmtOK : File → Bool) (res : List GTable) (order : List Bytes) (evs : List Event) (r : Res)
    (h : generate L cfg fmtOK res order = (evs, r)) :
    (∀ p f, content p evs none = some (some f) → fmtOK f = true ∧ .write (.path p) f ∈ evs)
    ∧ (∀ p q, content p evs none = some none → content q evs none = some none → p = q)
    ∧ (∀ p, content p evs none = some none → r ≠ .ok ∧ evs.getLast? = some (.open_ (.path p))) := by
  obtain ⟨done, stop, e1, e2, -⟩ := loop_shape L cfg fmtOK (decide (1 < order.length)) (tablesOf res) order [] [] []
  have hg : schemaLoop L cfg fmtOK (decide (1 < order.length)) (tablesOf res) order [] [] [] = (evs, r) := h
  rw [hg] at e1 e2
  simp only [List.nil_append] at e1
  have key : ∀ p, content p evs none = if stop.events = [.open_ (.path p)] then some none else
      (((done.filter (fun x => x.1 = .path p)).getLast?).map (fun x => some x.2)) := by
    intro p
    rw [e1, content_append, content_pairs p done none (by simp)]
    have : (match Option.map Prod.snd (List.filter (fun x => decide (x.1 = Target.path p)) done).getLast? with | none => none | some f => some (some f))
        = ((done.filter (fun x => x.1 = .path p)).getLast?).map (fun x => some x.2) := by
      cases (List.filter (fun x : Target × File => decide (x.1 = Target.path p)) done).getLast? <;> rfl
    rw [this]
    cases stop with
    | completed => simp [Stop.events, content]
    | cannotOpen t => simp [Stop.events, content]
    | opened t =>
      cases t with
      | stdout => simp [Stop.events, openEvents, content]
      | path q => by_cases hq : q = p <;> simp [Stop.events, openEvents, content, hq]
  have kp : ∀ p, content p evs none = some none → stop.events = [.open_ (.path p)] := by
    intro p hp
    rw [key p] at hp
    by_cases hs : stop.events = [.open_ (.path p)]
    · exact hs
    · rw [if_neg hs] at hp
      cases hl : (List.filter (fun x : Target × File => decide (x.1 = Target.path p)) done).getLast? with
      | none => rw [hl] at hp; cases hp
      | some x => rw [hl] at hp; cases hp
  refine ⟨?_, ?_, ?_⟩
  · intro p f hp
    rw [key p] at hp
    split at hp
    · cases hp
    · rw [Option.map_eq_some_iff] at hp
      obtain ⟨x, hx, hf⟩ := hp
      cases hf
      have hm := List.mem_filter.1 (List.mem_of_getLast? hx)
      refine ⟨(e2.formatted x hm.1).1, ?_⟩
      rw [e1]
      refine List.mem_append_left _ (List.mem_flatMap.2 ⟨x, hm.1, ?_⟩)
      have : x.1 = .path p := by simpa using hm.2
      simp [pair, this]
  · intro p q hp hq
    have a := kp p hp
    rw [kp q hq] at a
    simpa using a.symm
  · intro p hp
    have a := kp p hp
    constructor
    · intro hr
      obtain ⟨-, hs⟩ := e2.ok.1 hr
      rw [hs] at a; cases a
    · rw [e1, a]; simp

/-- **C75**, exactly: a failed run (with a model directory) leaves all files as they were if and only if the very first file could not be opened; in every other case it has replaced or
emptied files. -/
theorem C75_failure_keeps_files_iff (L : Lib) (cfg : Cfg) (fmtOK : File → Bool) (res : List GTable) (s : Bytes) (ss : List Bytes) (evs : List Event) (r : Res) (hd : cfg.outModel ≠ [])
    (h : generate L cfg fmtOK res (s :: ss) = (evs, r)) (hr : r ≠ .ok) :
    (∀ p, content p evs none = none) ↔ ∃ p, target cfg.outModel (decide (0 < ss.length)) s b!"model" = .path p ∧ L.canOpen p = false := by
  obtain ⟨done, stop, e1, e2, e3⟩ := loop_shape L cfg fmtOK (decide (1 < (s :: ss).length)) (tablesOf res) (s :: ss) [] [] []
  have hg : schemaLoop L cfg fmtOK (decide (1 < (s :: ss).length)) (tablesOf res) (s :: ss) [] [] [] = (evs, r) := h
  have hlen : decide (1 < (s :: ss).length) = decide (0 < ss.length) := by simp
  obtain ⟨p0, hp0⟩ : ∃ p, target cfg.outModel (decide (0 < ss.length)) s b!"model" = .path p := ⟨_, by unfold target; rw [if_neg hd]⟩
  constructor
  · intro hall
    refine ⟨p0, hp0, ?_⟩
    cases hc : L.canOpen p0 with
    | false => rfl
    | true =>
      exfalso
      -- the first event opens p0
      have : ∃ evs', evs = .open_ (.path p0) :: evs' := by
        have hm : ∀ (o : List Bytes) (i : List InfoDecl) (d : List TableDef) (e : List Event), ∃ x, (schemaLoop L cfg fmtOK (decide (1 < (s :: ss).length)) (tablesOf res) o i d e).1 = e ++ x := by
          intro o i d e
          obtain ⟨dn, sp, h1, -⟩ := loop_shape L cfg fmtOK (decide (1 < (s :: ss).length)) (tablesOf res) o i d e
          exact ⟨_, h1⟩
        have hop : openable L (target cfg.outModel (decide (1 < (s :: ss).length)) s b!"model") = true := by rw [hlen, hp0]; exact hc
        have he : openEvents (target cfg.outModel (decide (1 < (s :: ss).length)) s b!"model") = [.open_ (.path p0)] := by rw [hlen, hp0]; rfl
        rw [show evs = (schemaLoop L cfg fmtOK (decide (1 < (s :: ss).length)) (tablesOf res) (s :: ss) [] [] []).1 by rw [hg]]
        unfold schemaLoop
        simp only [hop, he, Bool.not_true, Bool.false_eq_true, if_false, List.nil_append]
        split
        · exact ⟨[], rfl⟩
        · split
          · exact ⟨[], rfl⟩
          · split
            · exact ⟨_, rfl⟩
            · split
              · exact ⟨_, rfl⟩
              · split
                · exact ⟨_, rfl⟩
                · obtain ⟨x, hx⟩ := hm ss _ _ _
                  rw [hx]
                  exact ⟨_, rfl⟩
      obtain ⟨evs', he⟩ := this
      have hkeep : ∀ (l : List Event) (c : Option (Option File)), c ≠ none → content p0 l c ≠ none := by
        intro l
        induction l with
        | nil => intro c hc; exact hc
        | cons x l ih =>
          intro c hc
          cases x with
          | open_ t => cases t with
            | stdout => exact ih c hc
            | path q => simp only [content]; apply ih; split <;> simp [hc]
          | write t f => cases t with
            | stdout => exact ih c hc
            | path q => simp only [content]; apply ih; split <;> simp [hc]
      have := hall p0
      rw [he] at this
      simp only [content, if_true] at this
      exact hkeep evs' (some none) (by simp) this
  · rintro ⟨p, hp, hc⟩
    have : evs = [] := by
      rw [show evs = (schemaLoop L cfg fmtOK (decide (1 < (s :: ss).length)) (tablesOf res) (s :: ss) [] [] []).1 by rw [hg]]
      have hop : openable L (target cfg.outModel (decide (1 < (s :: ss).length)) s b!"model") = false := by rw [hlen, hp]; exact hc
      unfold schemaLoop
      simp only [hop, Bool.not_false, if_true]
    rw [this]
    intro p; rfl

/-- Both sides of the equivalence occur: a failing run that could not open its first file, and one that could. -/
example :
    let res := [toyTable b!"app" b!"users", ⟨b!"app", b!"shapes", b!"app.shapes", [toyCol b!"area" b!"polygon"], [], none⟩]
    (generate { toyLib with canOpen := fun _ => false } toyCfg (fun _ => true) res [b!"app"]).2 ≠ .ok
    ∧ (generate toyLib toyCfg (fun _ => true) res [b!"app"]).2 ≠ .ok ∧ toyCfg.outModel ≠ [] := by decide +kernel

end Gen
