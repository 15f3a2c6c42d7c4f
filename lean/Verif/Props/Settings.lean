import Verif.Lemmas.Names

/-!
# Options: C77
-/

namespace PyOGRe
open Spec

namespace Spec

/-- The functions that set options. -/
inductive Setting
  | parallelization (b : Option (Arg Bool))
  | perLine (n : Option (Arg Int))
  | fontSize (n : Option (Arg Int))
  | letters (s : Option (Arg (List Char)))
  | parameter (s : Option SymbolArg)
  | jupyter
  | commandLine

/-- The call. -/
def Setting.run (ranges : List Char → Py Letters) : Setting → Options → Py Unit × Options
  | .parallelization b => setParallelization b
  | .perLine n => setListPerLine n
  | .fontSize n => setFontSize n
  | .letters s => setIndexLetters ranges s
  | .parameter s => setCurveParameter ranges s
  | .jupyter => fun o => (.ok (), jupyterSupport o)
  | .commandLine => fun o => (.ok (), commandLineSupport o)

/-- The options after some calls, whether they returned or raised. -/
def settings (ranges : List Char → Py Letters) (calls : List Setting) (o : Options) : Options :=
  calls.foldl (fun o c => (c.run ranges o).2) o

/-- The parallelization that a call asks for. -/
def Setting.newParallel : Setting → Option Bool
  | .parallelization (some (.val b)) => some b
  | _ => none

/-- The number of entries per line that a call asks for: negative numbers do not count. -/
def Setting.newPerLine : Setting → Option Int
  | .perLine (some (.val n)) => if 0 ≤ n then some n else none
  | _ => none

/-- The font size that a call asks for: negative numbers do not count. -/
def Setting.newFontSize : Setting → Option Int
  | .fontSize (some (.val n)) => if 0 ≤ n then some n else none
  | _ => none

/-- The mode that a call asks for. -/
def Setting.newLatex : Setting → Option Bool
  | .jupyter => some true
  | .commandLine => some false
  | _ => none

/-- The letters that a call asks for: the three words in any case, or the names in the string; a string that does not
have a name between any two commas does not count. -/
def Setting.newLetters : Setting → Option Letters
  | .letters (some (.val s)) =>
    if s.map Char.toLower = "greek".toList then some (.many greekIndices)
    else if s.map Char.toLower = "automatic".toList ∨ s.map Char.toLower = "english".toList then
      some (.many englishIndices)
    else if WellSeparated s then
      some (if (strip s).getLast? ≠ some ',' ∧ (namesIn s).length = 1 then .one (String.ofList ((namesIn s).headD []))
        else .many ((namesIn s).map String.ofList))
    else none
  | _ => none

/-- The curve parameter that a call asks for: a symbol, the word `automatic` in any case, or the first name in a
string. -/
def Setting.newParameter : Setting → Option Sym
  | .parameter (some (.symbol s)) => some s
  | .parameter (some (.text s)) =>
    if s.map Char.toLower = "automatic".toList then some "lambda"
    else if WellSeparated s then (namesIn s).head?.map String.ofList
    else none
  | _ => none

/-- The call does not give a string with a range like `x0:3` or a backslash. -/
def Setting.Plain : Setting → Prop
  | .letters (some (.val s)) => ∀ c ∈ s, c ≠ ':' ∧ c ≠ '\\'
  | .parameter (some (.text s)) => ∀ c ∈ s, c ≠ ':' ∧ c ≠ '\\'
  | _ => True

/-- The error that a call raises. -/
def Setting.refusal : Setting → Option PyErr
  | .parallelization (some .other) => some .typeError
  | .perLine (some .other) => some .typeError
  | .perLine (some (.val n)) => if n < 0 then some .valueError else none
  | .fontSize (some .other) => some .typeError
  | .fontSize (some (.val n)) => if n < 0 then some .valueError else none
  | .letters (some .other) => some .typeError
  | .letters (some (.val s)) =>
    if s.map Char.toLower ∈ ["automatic".toList, "greek".toList, "english".toList] ∨ WellSeparated s then none
    else some .valueError
  | .parameter (some .other) => some .typeError
  | .parameter (some (.text s)) =>
    if s.map Char.toLower = "automatic".toList ∨ WellSeparated s then none else some .valueError
  | _ => none

end Spec

/-- A string with a name in every part has a name. -/
theorem namesIn_ne_nil {s : List Char} (h : WellSeparated s) : namesIn s ≠ [] := by
  intro hn
  have hne : s.splitOn ',' ≠ [] := List.splitOnP_ne_nil _ _
  have hp : commaParts s ≠ [] := by
    unfold commaParts
    dsimp only
    split_ifs with hh
    · intro e
      have := congrArg List.length e
      rw [List.length_dropLast, List.length_nil] at this
      omega
    · exact hne
  obtain ⟨p, ps, e⟩ := List.exists_cons_of_ne_nil hp
  obtain ⟨c, hc, hsp⟩ := h p (by rw [e]; simp)
  have hm : p ∈ s.splitOn ',' := by
    have : p ∈ commaParts s := by rw [e]; simp
    unfold commaParts at this
    dsimp only at this
    split_ifs at this
    · exact List.dropLast_subset _ this
    · exact this
  have hq : words p ⊆ namesIn s := by
    rw [← names_parts, splitAt1_eq]
    intro x hx
    exact List.mem_flatMap.2 ⟨strip p, List.mem_map_of_mem hm, by rw [words_strip]; exact hx⟩
  have hw : words p ≠ [] := by
    unfold words
    intro hh
    rw [List.filter_eq_nil_iff] at hh
    have hx : (p.splitOnP isSpace).flatten = [] := by
      rw [List.flatten_eq_nil_iff]
      intro l hl
      have := hh l hl
      simpa using this
    clear * - hx hc hsp
    induction p with
    | nil => cases hc
    | cons d p ih =>
      rw [List.splitOnP_cons] at hx
      have hp := List.splitOnP_ne_nil isSpace p
      rcases List.mem_cons.1 hc with rfl | hc'
      · rw [if_neg (by simp [hsp])] at hx
        cases hs : List.splitOnP isSpace p with
        | nil => exact absurd hs hp
        | cons q qs => rw [hs] at hx; simp at hx
      · apply ih hc'
        split_ifs at hx
        · simpa using hx
        · cases hs : List.splitOnP isSpace p with
          | nil => exact absurd hs hp
          | cons q qs => rw [hs] at hx; simp at hx
  obtain ⟨x, xs, e⟩ := List.exists_cons_of_ne_nil hw
  have := hq (by rw [e]; exact List.mem_cons_self : x ∈ words p)
  rw [hn] at this
  cases this

/-- What a call does to the options. -/
theorem setting_run (ranges : List Char → Py Letters) {c : Setting} (hc : c.Plain) (o : Options) :
    c.run ranges o = (c.refusal.elim (.ok ()) .error,
      { latex := c.newLatex.getD o.latex, letters := c.newLetters.getD o.letters,
        perLine := c.newPerLine.getD o.perLine, fontSize := c.newFontSize.getD o.fontSize,
        parameter := c.newParameter.getD o.parameter, parallel := c.newParallel.getD o.parallel }) := by
  cases c with
  | parallelization b => rcases b with _ | _ | b <;> rfl
  | perLine n =>
    rcases n with _ | n | _
    · rfl
    · show setListPerLine (some (.val n)) o = _
      unfold setListPerLine Setting.newPerLine Setting.refusal
      dsimp only
      by_cases h : n < 0
      · rw [if_pos h, if_pos h, if_neg (by omega)]; rfl
      · rw [if_neg h, if_neg h, if_pos (by omega)]; rfl
    · rfl
  | fontSize n =>
    rcases n with _ | n | _
    · rfl
    · show setFontSize (some (.val n)) o = _
      unfold setFontSize Setting.newFontSize Setting.refusal
      dsimp only
      by_cases h : n < 0
      · rw [if_pos h, if_pos h, if_neg (by omega)]; rfl
      · rw [if_neg h, if_neg h, if_pos (by omega)]; rfl
    · rfl
  | letters s =>
    rcases s with _ | s | _
    · rfl
    · show setIndexLetters ranges (some (.val s)) o = _
      unfold setIndexLetters Setting.newLetters Setting.refusal
      dsimp only
      generalize hl : s.map Char.toLower = l
      by_cases h1 : l = "automatic".toList
      · rw [if_pos h1, if_neg (show ¬ l = "greek".toList by rw [h1]; decide), if_pos (Or.inl h1),
          if_pos (Or.inl (by rw [h1]; simp))]
        rfl
      · by_cases h2 : l = "greek".toList
        · rw [if_neg h1, if_pos h2, if_pos h2, if_pos (Or.inl (by rw [h2]; simp))]; rfl
        · by_cases h3 : l = "english".toList
          · rw [if_neg h1, if_neg h2, if_pos h3, if_neg h2, if_pos (Or.inr h3), if_pos (Or.inl (by rw [h3]; simp))]
            rfl
          · rw [if_neg h1, if_neg h2, if_neg h3, if_neg h2, if_neg (not_or.2 ⟨h1, h3⟩), sympySymbols_eq ranges hc]
            have hn : l ∉ ["automatic".toList, "greek".toList, "english".toList] := by
              intro hm
              rcases List.mem_cons.1 hm with e | hm
              · exact h1 e
              rcases List.mem_cons.1 hm with e | hm
              · exact h2 e
              rcases List.mem_cons.1 hm with e | hm
              · exact h3 e
              cases hm
            by_cases hw : WellSeparated s
            · rw [if_pos hw, if_pos hw, if_pos (Or.inr hw)]; rfl
            · rw [if_neg hw, if_neg hw, if_neg (not_or.2 ⟨hn, hw⟩)]; rfl
    · rfl
  | parameter s =>
    rcases s with _ | s | s | _
    · rfl
    · show setCurveParameter ranges (some (.text s)) o = _
      unfold setCurveParameter Setting.newParameter Setting.refusal
      dsimp only
      by_cases h1 : s.map Char.toLower = "automatic".toList
      · rw [if_pos h1, if_pos h1, if_pos (Or.inl h1)]; rfl
      · rw [if_neg h1, if_neg h1, sympySymbolsSeq_eq ranges hc]
        by_cases hw : WellSeparated s
        · rw [if_pos hw, if_pos hw, if_pos (Or.inr hw)]
          obtain ⟨x, xs, e⟩ := List.exists_cons_of_ne_nil (namesIn_ne_nil hw)
          rw [e]
          rfl
        · rw [if_neg hw, if_neg hw, if_neg (not_or.2 ⟨h1, hw⟩)]; rfl
    · rfl
    · rfl
  | jupyter => rfl
  | commandLine => rfl

theorem last_cons {A B : Type} (f : A → Option B) (c : A) (cs : List A) (x : B) :
    (((c :: cs).filterMap f).getLast?).getD x = (((cs.filterMap f).getLast?).getD ((f c).getD x)) := by
  rw [List.filterMap_cons]
  cases hc : f c with
  | none => rfl
  | some y =>
    show ((y :: List.filterMap f cs).getLast?).getD x = _
    rw [List.getLast?_cons]
    rfl

/-- **C77**: after any calls of the functions that set options, each option has the value that the last call that asked
for a value gave it, or its old value if there was none: calls with other arguments change nothing, and no function
changes an option other than its own. -/
theorem C77_last_setting (ranges : List Char → Py Letters) (calls : List Setting) (hc : ∀ c ∈ calls, c.Plain)
    (o : Options) :
    (settings ranges calls o).latex = ((calls.filterMap Setting.newLatex).getLast?).getD o.latex ∧
    (settings ranges calls o).letters = ((calls.filterMap Setting.newLetters).getLast?).getD o.letters ∧
    (settings ranges calls o).perLine = ((calls.filterMap Setting.newPerLine).getLast?).getD o.perLine ∧
    (settings ranges calls o).fontSize = ((calls.filterMap Setting.newFontSize).getLast?).getD o.fontSize ∧
    (settings ranges calls o).parameter = ((calls.filterMap Setting.newParameter).getLast?).getD o.parameter ∧
    (settings ranges calls o).parallel = ((calls.filterMap Setting.newParallel).getLast?).getD o.parallel := by
  induction calls generalizing o with
  | nil => exact ⟨rfl, rfl, rfl, rfl, rfl, rfl⟩
  | cons c cs ih =>
    have h := ih (fun d hd => hc d (List.mem_cons_of_mem _ hd)) (c.run ranges o).2
    simp only [last_cons]
    rw [setting_run ranges (hc c (by simp)) o] at h
    have e : settings ranges (c :: cs) o = settings ranges cs (c.run ranges o).2 := rfl
    rw [e, setting_run ranges (hc c (by simp)) o]
    exact h

/-- **C77**: which calls raise, and that these do not change any option. -/
theorem C77_refused (ranges : List Char → Py Letters) {c : Setting} (hc : c.Plain) (o : Options) :
    (c.run ranges o).1 = c.refusal.elim (.ok ()) .error ∧ (c.refusal ≠ none → (c.run ranges o).2 = o) := by
  rw [setting_run ranges hc o]
  refine ⟨rfl, fun h => ?_⟩
  cases c with
  | parallelization b => rcases b with _ | _ | b <;> first | rfl | exact absurd rfl h
  | perLine n =>
    rcases n with _ | n | _
    · rfl
    · have hn : n < 0 := by
        by_contra hn
        exact h (if_neg hn)
      unfold Setting.newPerLine
      dsimp only
      rw [if_neg (by omega)]
      rfl
    · rfl
  | fontSize n =>
    rcases n with _ | n | _
    · rfl
    · have hn : n < 0 := by
        by_contra hn
        exact h (if_neg hn)
      unfold Setting.newFontSize
      dsimp only
      rw [if_neg (by omega)]
      rfl
    · rfl
  | letters s =>
    rcases s with _ | s | _
    · rfl
    · unfold Setting.refusal at h
      dsimp only at h
      split_ifs at h with hn
      · exact absurd rfl h
      · obtain ⟨h1, h2⟩ := not_or.1 hn
        unfold Setting.newLetters
        dsimp only
        rw [if_neg (fun e => h1 (by rw [e]; simp)), if_neg (by
          rintro (e | e)
          · exact h1 (by rw [e]; simp)
          · exact h1 (by rw [e]; simp)), if_neg h2]
        rfl
    · rfl
  | parameter s =>
    rcases s with _ | s | s | _
    · rfl
    · unfold Setting.refusal at h
      dsimp only at h
      split_ifs at h with hn
      · exact absurd rfl h
      · obtain ⟨h1, h2⟩ := not_or.1 hn
        unfold Setting.newParameter
        dsimp only
        rw [if_neg h1, if_neg h2]
        rfl
    · exact absurd rfl h
    · rfl
  | jupyter => exact absurd rfl h
  | commandLine => exact absurd rfl h

/-- C77: a sequence of calls, some of which are refused. -/
example : settings (fun _ => .ok (.many [])) [.perLine (some (.val 3)), .perLine (some (.val (-1))),
      .letters (some (.val "Greek".toList)), .letters (some (.val "i, ,j".toList)), .parameter (some (.text "s t".toList)),
      .fontSize (some .other), .commandLine] {} =
    { latex := false, letters := .many greekIndices, perLine := 3, parameter := "s" } := by
  decide +kernel

/-- C77: what these calls ask for, and which are refused. -/
example : Setting.newPerLine (.perLine (some (.val 3))) = some 3 ∧
    Setting.refusal (.perLine (some (.val (-1)))) = some .valueError ∧
    Setting.newLetters (.letters (some (.val "Greek".toList))) = some (.many greekIndices) ∧
    Setting.refusal (.letters (some (.val "i, ,j".toList))) = some .valueError ∧
    Setting.newParameter (.parameter (some (.text "s t".toList))) = some "s" := by
  decide +kernel

end PyOGRe
