import Verif.Model.Confirm
import Verif.Props.Settings
import Verif.Props.InfoText

/-!
# What the functions that set options show: C108, C109
-/

namespace PyOGRe
open Spec
variable {K : Type}

/-! ### Specification -/

namespace Spec

/-- The call with what it shows; `latex` is the typesetting of index letters. -/
def Setting.told (latex : Letters → List Char) (T : Typeset K) (ranges : List Char → Py Letters) :
    Setting → Options → List (Out K) × Py Unit × Options
  | .parallelization b => setParallelizationTold b
  | .perLine n => setListPerLineTold n
  | .fontSize n => setFontSizeTold n
  | .letters s => setIndexLettersTold latex ranges s
  | .parameter s => setCurveParameterTold T ranges s
  | .jupyter => fun o => ([], .ok (), jupyterSupport o)
  | .commandLine => fun o => ([], .ok (), commandLineSupport o)

/-- Values as Python writes them: `True`, and `a` or `()`, `(a,)`, `(a, b)`. -/
def truth : Bool → List Char
  | true => "True".toList
  | false => "False".toList

def parenthesised (l : List (List Char)) : List Char :=
  "(".toList ++ ", ".toList.intercalate l ++ (if l.length = 1 then ",)".toList else ")".toList)

def letterList : Letters → List Char
  | .one s => s.toList
  | .many l => parenthesised (l.map String.toList)

/-- What appears for a text and its typeset form. -/
def announced (mode : Bool) (typeset plain : List Char) : Out K :=
  if mode then .markdown ("$".toList ++ typeset ++ "$".toList) else .line plain

/-- The lines on the screen. -/
def screen (lines : List (List Char)) : List Char := lines.flatMap fun l => l ++ "\n".toList

end Spec

/-! ### Texts -/

theorem boolText_eq (b : Bool) : boolText b = truth b := by cases b <;> rfl

theorem entriesText_eq (l : List (List Char)) : entriesText l = parenthesised l := by
  unfold parenthesised
  match l with
  | [] => rfl
  | [a] => simp [entriesText, List.intercalate]
  | a :: b :: l =>
    rw [if_neg (by simp)]
    show '(' :: (joinText [',', ' '] _ ++ [')']) = _
    rw [joinText_eq]
    rfl

theorem lettersText_eq (l : Letters) : lettersText l = letterList l := by
  cases l with
  | one s => rfl
  | many l => exact entriesText_eq _

theorem told_run (latex : Letters → List Char) (T : Typeset K) (ranges : List Char → Py Letters) (c : Setting) (o : Options) :
    (c.told latex T ranges o).2 = c.run ranges o := by
  cases c with
  | parallelization b => cases b <;> rfl
  | perLine n => cases n <;> rfl
  | fontSize n => cases n <;> rfl
  | letters s =>
    show (setIndexLettersTold latex ranges s o).2 = setIndexLetters ranges s o
    unfold setIndexLettersTold
    generalize setIndexLetters ranges s o = r
    rcases r with ⟨e | _, o'⟩ <;> rfl
  | parameter s =>
    show (setCurveParameterTold T ranges s o).2 = setCurveParameter ranges s o
    unfold setCurveParameterTold
    generalize setCurveParameter ranges s o = r
    rcases r with ⟨e | _, o'⟩ <;> rfl
  | jupyter => rfl
  | commandLine => rfl

theorem told_letters (latex : Letters → List Char) (T : Typeset K) (ranges : List Char → Py Letters)
    (s : Option (Arg (List Char))) (o : Options) : ((Setting.letters s).told latex T ranges o).1 =
      match ((Setting.letters s).run ranges o).1 with
      | .ok _ => [shownLetters latex ((Setting.letters s).run ranges o).2]
      | .error _ => [] := by
  show (setIndexLettersTold latex ranges s o).1 = match (setIndexLetters ranges s o).1 with
      | .ok _ => [shownLetters latex (setIndexLetters ranges s o).2]
      | .error _ => []
  unfold setIndexLettersTold
  generalize setIndexLetters ranges s o = r
  rcases r with ⟨e | _, o'⟩ <;> rfl

theorem told_parameter (latex : Letters → List Char) (T : Typeset K) (ranges : List Char → Py Letters)
    (s : Option SymbolArg) (o : Options) : ((Setting.parameter s).told latex T ranges o).1 =
      match ((Setting.parameter s).run ranges o).1 with
      | .ok _ => [shownParameter T ((Setting.parameter s).run ranges o).2]
      | .error _ => [] := by
  show (setCurveParameterTold T ranges s o).1 = match (setCurveParameter ranges s o).1 with
      | .ok _ => [shownParameter T (setCurveParameter ranges s o).2]
      | .error _ => []
  unfold setCurveParameterTold
  generalize setCurveParameter ranges s o = r
  rcases r with ⟨e | _, o'⟩ <;> rfl

theorem shownLetters_eq (latex : Letters → List Char) (o : Options) :
    shownLetters (K := K) latex o = announced o.latex (latex o.letters) (letterList o.letters) := by
  unfold shownLetters announced
  rw [lettersText_eq]
  rfl

theorem shownParameter_eq (T : Typeset K) (o : Options) :
    shownParameter T o = announced o.latex (T.symbol o.parameter) o.parameter.toList := rfl

/-! ### C108 -/

/-- **C108**: a function that sets an option, called without an argument, shows the value that was last asked for, or the
first value if there was none; this changes nothing. -/
theorem C108_asked (latex : Letters → List Char) (T : Typeset K) (ranges : List Char → Py Letters) (calls : List Setting)
    (hc : ∀ c ∈ calls, c.Plain) (first : Options) :
    let o := settings ranges calls first
    let mode := ((calls.filterMap Setting.newLatex).getLast?).getD first.latex
    let letters := ((calls.filterMap Setting.newLetters).getLast?).getD first.letters
    let parameter := ((calls.filterMap Setting.newParameter).getLast?).getD first.parameter
    (Setting.parallelization none).told latex T ranges o =
      ([.line (truth (((calls.filterMap Setting.newParallel).getLast?).getD first.parallel))], .ok (), o) ∧
    (Setting.perLine none).told latex T ranges o =
      ([.line (numeral (((calls.filterMap Setting.newPerLine).getLast?).getD first.perLine))], .ok (), o) ∧
    (Setting.fontSize none).told latex T ranges o =
      ([.line (numeral (((calls.filterMap Setting.newFontSize).getLast?).getD first.fontSize))], .ok (), o) ∧
    (Setting.letters none).told latex T ranges o =
      ([announced mode (latex letters) (letterList letters)], .ok (), o) ∧
    (Setting.parameter none).told latex T ranges o =
      ([announced mode (T.symbol parameter) parameter.toList], .ok (), o) := by
  intro o mode letters parameter
  obtain ⟨h1, h2, h3, h4, h5, h6⟩ := C77_last_setting ranges calls hc first
  refine ⟨?_, ?_, ?_, ?_, ?_⟩
  · rw [← h6]
    show ([Out.line (boolText o.parallel)], _) = _
    rw [boolText_eq]
    rfl
  · rw [← h3]; rfl
  · rw [← h4]; rfl
  · show ([shownLetters latex o], _) = _
    rw [shownLetters_eq]
    exact congrArg₂ (fun a b => ([announced a (latex b) (letterList b)], (Except.ok () : Py Unit), o)) h1 h2
  · show ([shownParameter T o], _) = _
    rw [shownParameter_eq]
    exact congrArg₂ (fun (a : Bool) (b : Sym) => ([announced a (T.symbol b) b.toList], (Except.ok () : Py Unit), o)) h1 h5

/-- **C108**: with an argument, `set_index_letters` and `set_curve_parameter` show the new value, and the other functions
nothing; a call that raises shows nothing.  What is shown does not change what the call does. -/
theorem C108_confirmed (latex : Letters → List Char) (T : Typeset K) (ranges : List Char → Py Letters) {c : Setting}
    (hc : c.Plain) (o : Options) :
    (c.told latex T ranges o).2 = c.run ranges o ∧
    (c.refusal ≠ none → (c.told latex T ranges o).1 = []) ∧
    (∀ l, c.newLetters = some l → (c.told latex T ranges o).1 = [announced o.latex (latex l) (letterList l)]) ∧
    (∀ s, c.newParameter = some s → (c.told latex T ranges o).1 = [announced o.latex (T.symbol s) s.toList]) ∧
    (∀ b, c.newParallel = some b → (c.told latex T ranges o).1 = []) ∧
    (∀ n, c.newPerLine = some n → (c.told latex T ranges o).1 = []) ∧
    (∀ n, c.newFontSize = some n → (c.told latex T ranges o).1 = []) ∧
    (∀ b, c.newLatex = some b → (c.told latex T ranges o).1 = []) := by
  have hr := setting_run ranges hc o
  have hlet : ∀ s, c = .letters s → (c.told latex T ranges o).1 =
      match c.refusal with
      | none => [announced o.latex (latex (c.newLetters.getD o.letters)) (letterList (c.newLetters.getD o.letters))]
      | some _ => [] := by
    intro s e
    subst e
    rw [told_letters, hr]
    cases (Setting.letters s).refusal with
    | none =>
      show [shownLetters latex _] = [_]
      rw [shownLetters_eq]
      rfl
    | some e => rfl
  have hpar : ∀ s, c = .parameter s → (c.told latex T ranges o).1 =
      match c.refusal with
      | none => [announced o.latex (T.symbol (c.newParameter.getD o.parameter)) (c.newParameter.getD o.parameter).toList]
      | some _ => [] := by
    intro s e
    subst e
    rw [told_parameter, hr]
    cases (Setting.parameter s).refusal with
    | none => rfl
    | some e => rfl
  have hnone : c.refusal ≠ none → c.newLetters = none ∧ c.newParameter = none := by
    intro h
    have h2 := (C77_refused ranges hc { o with letters := .one "a", parameter := "b" }).2 h
    have h2' := (C77_refused ranges hc { o with letters := .one "b", parameter := "a" }).2 h
    rw [setting_run ranges hc] at h2 h2'
    constructor
    · cases hl : c.newLetters with
      | none => rfl
      | some l =>
        rw [hl] at h2 h2'
        have e1 := congrArg Options.letters h2
        have e2 := congrArg Options.letters h2'
        have e1' : l = .one "a" := e1
        have e2' : l = .one "b" := e2
        rw [e1'] at e2'
        exact absurd e2' (by decide)
    · cases hl : c.newParameter with
      | none => rfl
      | some l =>
        rw [hl] at h2 h2'
        have e1' : l = "b" := congrArg Options.parameter h2
        have e2' : l = "a" := congrArg Options.parameter h2'
        rw [e1'] at e2'
        exact absurd e2' (by decide)
  refine ⟨told_run latex T ranges c o, fun h => ?_, fun l hl => ?_, fun s hs => ?_, ?_, ?_, ?_, ?_⟩
  · cases c with
    | parallelization b =>
      cases b with
      | none => exact absurd rfl h
      | some b => rfl
    | perLine n =>
      cases n with
      | none => exact absurd rfl h
      | some n => rfl
    | fontSize n =>
      cases n with
      | none => exact absurd rfl h
      | some n => rfl
    | letters s =>
      rw [hlet s rfl]
      cases hx : (Setting.letters s).refusal with
      | none => exact absurd hx h
      | some e => rfl
    | parameter s =>
      rw [hpar s rfl]
      cases hx : (Setting.parameter s).refusal with
      | none => exact absurd hx h
      | some e => rfl
    | jupyter => rfl
    | commandLine => rfl
  · have hx : c.refusal = none := by
      by_contra hx
      rw [(hnone hx).1] at hl
      cases hl
    obtain ⟨s, rfl⟩ : ∃ s, c = .letters s := by
      cases c with
      | letters s => exact ⟨s, rfl⟩
      | _ => cases hl
    rw [hlet s rfl, hx, hl]
    rfl
  · have hx : c.refusal = none := by
      by_contra hx
      rw [(hnone hx).2] at hs
      cases hs
    obtain ⟨x, rfl⟩ : ∃ x, c = .parameter x := by
      cases c with
      | parameter x => exact ⟨x, rfl⟩
      | _ => cases hs
    rw [hpar x rfl, hx, hs]
    rfl
  · intro b hb
    cases c with
    | parallelization b =>
      cases b with
      | none => cases hb
      | some b => rfl
    | _ => cases hb
  · intro b hb
    cases c with
    | perLine b =>
      cases b with
      | none => cases hb
      | some b => rfl
    | _ => cases hb
  · intro b hb
    cases c with
    | fontSize b =>
      cases b with
      | none => cases hb
      | some b => rfl
    | _ => cases hb
  · intro b hb
    cases c with
    | jupyter => rfl
    | commandLine => rfl
    | _ => cases hb

/-- C108: a session in which letters are set, then shown in both modes. -/
example :
    let T : Typeset ℚ := { expr := fun _ => [], symbol := fun s => '\\' :: s.toList }
    let o := settings (fun _ => .ok (.many [])) [.letters (some (.val "i,".toList)), .commandLine, .perLine (some (.val (-1)))] {}
    (Setting.letters none).told (fun _ => "X".toList) T (fun _ => .ok (.many [])) o = ([.line "(i,)".toList], .ok (), o) ∧
    ((Setting.letters (some (.val "mu nu".toList))).told (fun _ => "X".toList) T (fun _ => .ok (.many [])) o).1 =
      [.line "(mu, nu)".toList] ∧
    ((Setting.letters (some (.val "mu,,nu".toList))).told (fun _ => "X".toList) T (fun _ => .ok (.many [])) o).1 = [] ∧
    ((Setting.parameter none).told (fun _ => "X".toList) T (fun _ => .ok (.many [])) {}).1 =
      [.markdown "$\\lambda$".toList] := by
  decide +kernel

/-! ### C109 -/

/-- Two texts agree after the last occurrence of a character. -/
theorem after_last {c : Char} {a b r s : List Char} (ha : c ∉ a) (hb : c ∉ b) (h : r ++ c :: a = s ++ c :: b) :
    a = b ∧ r = s := by
  have h' := congrArg List.reverse h
  simp only [List.reverse_append, List.reverse_cons, List.append_assoc, List.singleton_append] at h'
  obtain ⟨h1, h2⟩ := before_first (by simpa using ha) (by simpa using hb) h'
  exact ⟨List.reverse_injective h1, List.reverse_injective h2⟩

/-- The letters have names without commas and line breaks, and there is at least one. -/
def Letters.Clean : Letters → Prop
  | .one s => ',' ∉ s.toList ∧ '\n' ∉ s.toList
  | .many l => l ≠ [] ∧ ∀ s ∈ l, ',' ∉ s.toList ∧ '\n' ∉ s.toList

theorem splitOnP_not {p : Char → Bool} {s w : List Char} (h : w ∈ s.splitOnP p) {c : Char} (hc : c ∈ w) : p c = false := by
  induction s generalizing w with
  | nil =>
    rw [List.splitOnP_nil, List.mem_singleton] at h
    rw [h] at hc
    cases hc
  | cons d s ih =>
    rw [List.splitOnP_cons] at h
    split_ifs at h with hd
    · rcases List.mem_cons.1 h with rfl | h
      · cases hc
      · exact ih h hc
    · cases hs : s.splitOnP p with
      | nil => exact absurd hs (List.splitOnP_ne_nil _ _)
      | cons q qs =>
        rw [hs] at h ih
        rcases List.mem_cons.1 h with rfl | h
        · rcases List.mem_cons.1 hc with rfl | hc
          · simpa using hd
          · exact ih List.mem_cons_self hc
        · exact ih (List.mem_cons_of_mem _ h) hc

theorem namesIn_clean {s w : List Char} (h : w ∈ namesIn s) : ',' ∉ w ∧ '\n' ∉ w := by
  have hm := (List.mem_filter.1 h).1
  constructor
  · intro hc
    exact absurd (splitOnP_not hm hc) (by decide)
  · intro hc
    exact absurd (splitOnP_not hm hc) (by decide)

theorem newLetters_clean {c : Setting} {l : Letters} (h : c.newLetters = some l) : l.Clean := by
  cases c with
  | letters s =>
    rcases s with _ | s | _
    · cases h
    · unfold Setting.newLetters at h
      dsimp only at h
      split_ifs at h with h1 h2 h3 h4
      · cases h
        exact ⟨by decide, by decide⟩
      · cases h
        exact ⟨by decide, by decide⟩
      · cases h
        obtain ⟨x, xs, e⟩ := List.exists_cons_of_ne_nil (namesIn_ne_nil h3)
        have := namesIn_clean (s := s) (w := x) (by rw [e]; simp)
        rw [e]
        show ',' ∉ (String.ofList x).toList ∧ '\n' ∉ (String.ofList x).toList
        rw [String.toList_ofList]
        exact this
      · cases h
        refine ⟨fun e => namesIn_ne_nil h3 (List.map_eq_nil_iff.1 e), fun x hx => ?_⟩
        obtain ⟨y, hy, rfl⟩ := List.mem_map.1 hx
        rw [String.toList_ofList]
        exact namesIn_clean hy
    · cases h
  | _ => cases h

theorem settings_clean (ranges : List Char → Py Letters) (calls : List Setting) (hc : ∀ c ∈ calls, c.Plain) (o : Options)
    (ho : o.letters.Clean) : (settings ranges calls o).letters.Clean := by
  rw [(C77_last_setting ranges calls hc o).2.1]
  cases hl : (calls.filterMap Setting.newLetters).getLast? with
  | none => exact ho
  | some l =>
    obtain ⟨c, _, h⟩ := List.mem_filterMap.1 (List.mem_of_getLast? hl)
    exact newLetters_clean h

/-- The end of a tuple from some entry on. -/
def entriesEnd : List (List Char) → List Char
  | [] => [')']
  | [a] => a ++ [')']
  | a :: b :: l => a ++ ',' :: ' ' :: entriesEnd (b :: l)

theorem entriesEnd_eq (l : List (List Char)) : entriesEnd l = ", ".toList.intercalate l ++ [')'] := by
  show _ = [',', ' '].intercalate l ++ [')']
  rw [← joinText_eq]
  induction l with
  | nil => rfl
  | cons i l ih =>
    cases l with
    | nil => rfl
    | cons j l =>
      rw [entriesEnd, ih]
      simp [joinText]

theorem entriesEnd_injective {l l' : List (List Char)} (hl : l ≠ []) (hl' : l' ≠ []) (hc : ∀ a ∈ l, ',' ∉ a)
    (hc' : ∀ a ∈ l', ',' ∉ a) (h : entriesEnd l = entriesEnd l') : l = l' := by
  induction l generalizing l' with
  | nil => exact absurd rfl hl
  | cons i l ih =>
    match l', l with
    | [], _ => exact absurd rfl hl'
    | [j], [] => rw [List.append_cancel_right (show i ++ [')'] = j ++ [')'] from h)]
    | j :: k :: l', [] =>
      exfalso
      have : ',' ∈ entriesEnd [i] := by rw [h]; simp [entriesEnd]
      simp [entriesEnd, hc i] at this
    | [j], k :: l =>
      exfalso
      have : ',' ∈ entriesEnd [j] := by rw [← h]; simp [entriesEnd]
      simp [entriesEnd, hc' j] at this
    | j :: k :: l', m :: l =>
      obtain ⟨h1, h2⟩ := before_first (hc i (by simp)) (hc' j (by simp)) h
      rw [h1, ih (List.cons_ne_nil _ _) (List.cons_ne_nil _ _) (fun a ha => hc a (List.mem_cons_of_mem _ ha))
        (fun a ha => hc' a (List.mem_cons_of_mem _ ha)) (List.cons.inj h2).2]

theorem parenthesised_comma {l : List (List Char)} (hl : l ≠ []) : ',' ∈ parenthesised l := by
  unfold parenthesised
  match l with
  | [] => exact absurd rfl hl
  | [a] => simp
  | a :: b :: l =>
    rw [← joinText_eq]
    simp [joinText]

theorem parenthesised_injective {l l' : List (List Char)} (hl : l ≠ []) (hl' : l' ≠ []) (hc : ∀ a ∈ l, ',' ∉ a)
    (hc' : ∀ a ∈ l', ',' ∉ a) (h : parenthesised l = parenthesised l') : l = l' := by
  have hs : ∀ a : List Char, parenthesised [a] = '(' :: (a ++ [',', ')']) := fun a => by
    simp [parenthesised, List.intercalate]
  have hm : ∀ (a b : List Char) (l : List (List Char)), parenthesised (a :: b :: l) = '(' :: (a ++ ',' :: ' ' :: entriesEnd (b :: l)) := by
    intro a b l
    unfold parenthesised
    rw [if_neg (by simp), List.append_assoc]
    rw [show ", ".toList.intercalate (a :: b :: l) ++ ")".toList = entriesEnd (a :: b :: l) from (entriesEnd_eq _).symm]
    rfl
  match l, l' with
  | [], _ => exact absurd rfl hl
  | _, [] => exact absurd rfl hl'
  | [a], [b] =>
    rw [hs, hs] at h
    rw [List.append_cancel_right (List.cons.inj h).2]
  | [a], b :: c :: l =>
    rw [hs, hm] at h
    have := (before_first (hc a (by simp)) (hc' b (by simp)) (List.cons.inj h).2).2
    exact absurd (List.cons.inj this).1 (by decide)
  | a :: c :: l, [b] =>
    rw [hs, hm] at h
    have := (before_first (hc a (by simp)) (hc' b (by simp)) (List.cons.inj h).2).2
    exact absurd (List.cons.inj this).1 (by decide)
  | a :: c :: l, b :: d :: l' =>
    rw [hm, hm] at h
    obtain ⟨h1, h2⟩ := before_first (hc a (by simp)) (hc' b (by simp)) (List.cons.inj h).2
    rw [h1, entriesEnd_injective (List.cons_ne_nil _ _) (List.cons_ne_nil _ _) (fun a ha => hc a (List.mem_cons_of_mem _ ha))
      (fun a ha => hc' a (List.mem_cons_of_mem _ ha)) (List.cons.inj h2).2]

theorem letterList_injective {l l' : Letters} (hl : l.Clean) (hl' : l'.Clean) (h : letterList l = letterList l') : l = l' := by
  have hmap : ∀ l : List Sym, (∀ s ∈ l, ',' ∉ s.toList ∧ '\n' ∉ s.toList) → ∀ a ∈ l.map String.toList, ',' ∉ a := by
    intro l h a ha
    obtain ⟨s, hs, rfl⟩ := List.mem_map.1 ha
    exact (h s hs).1
  cases l with
  | one s =>
    cases l' with
    | one s' => rw [String.toList_injective h]
    | many l' =>
      refine absurd ?_ hl.1
      rw [show s.toList = parenthesised (l'.map String.toList) from h]
      exact parenthesised_comma fun e => hl'.1 (List.map_eq_nil_iff.1 e)
  | many l =>
    cases l' with
    | one s' =>
      refine absurd ?_ hl'.1
      rw [show s'.toList = parenthesised (l.map String.toList) from h.symm]
      exact parenthesised_comma fun e => hl.1 (List.map_eq_nil_iff.1 e)
    | many l' =>
      have := parenthesised_injective (fun e => hl.1 (List.map_eq_nil_iff.1 e)) (fun e => hl'.1 (List.map_eq_nil_iff.1 e))
        (hmap l hl.2) (hmap l' hl'.2) h
      rw [List.map_injective_iff.2 (fun _ _ => String.toList_injective) this]

theorem letterList_oneLine {l : Letters} (hl : l.Clean) : '\n' ∉ letterList l := by
  cases l with
  | one s => exact hl.2
  | many l =>
    have : ∀ l : List (List Char), (∀ a ∈ l, '\n' ∉ a) → '\n' ∉ entriesEnd l := by
      intro l
      induction l with
      | nil => intro _; decide
      | cons a l ih =>
        intro h
        cases l with
        | nil => simp [entriesEnd, h a]
        | cons b l =>
          have h1 := h a (by simp)
          have h2 := ih fun x hx => h x (List.mem_cons_of_mem _ hx)
          simp [entriesEnd, h1, h2]
    have hj := this (l.map String.toList) (by
      intro a ha
      obtain ⟨s, hs, rfl⟩ := List.mem_map.1 ha
      exact (hl.2 s hs).2)
    rw [entriesEnd_eq, List.mem_append, not_or] at hj
    intro hn
    unfold letterList parenthesised at hn
    rw [List.mem_append, List.mem_append] at hn
    rcases hn with (hn | hn) | hn
    · exact absurd hn (by decide)
    · exact hj.1 hn
    · split_ifs at hn
      · exact absurd hn (by decide)
      · exact absurd hn (by decide)

theorem truth_oneLine (b : Bool) : '\n' ∉ truth b := by cases b <;> decide

theorem truth_injective {b b' : Bool} (h : truth b = truth b') : b = b' := by
  cases b <;> cases b' <;> first | rfl | exact absurd h (by decide)

theorem infoOrder_text : "INFO_ORDER: ".toList ++ entriesText (infoOrder.map fun key => '\'' :: (key.toList ++ ['\''])) =
    ("INFO_ORDER: ('Name', 'Symbol', 'Type', 'Rank', 'Metric', 'Default Coordinates', 'Default Indices', " ++
      "'Default Coordinates For', 'Coordinate Transformations', 'Indices Symbols', 'Tensors Using This Metric')").toList := by
  decide +kernel

/-- **C109**: `get_options` shows every option, one line each, with its value. -/
theorem C109_lines (o : Options) :
    getOptions o = ["LATEX: ".toList ++ truth o.latex, "ALL_SYMBOLS: ".toList ++ letterList o.letters,
      "CURVE_PARAMETER: ".toList ++ o.parameter.toList,
      ("INFO_ORDER: ('Name', 'Symbol', 'Type', 'Rank', 'Metric', 'Default Coordinates', 'Default Indices', " ++
        "'Default Coordinates For', 'Coordinate Transformations', 'Indices Symbols', 'Tensors Using This Metric')").toList,
      "LIST_PER_LINE: ".toList ++ numeral o.perLine, "FONT_SIZE: ".toList ++ numeral o.fontSize,
      "PARALLEL: ".toList ++ truth o.parallel] := by
  unfold getOptions
  rw [boolText_eq, boolText_eq, lettersText_eq, infoOrder_text]
  rfl

/-- **C109**: what `get_options` prints tells all options apart: after any two sequences of calls, the same text on the screen
means the same options. -/
theorem C109_identified (ranges ranges' : List Char → Py Letters) (calls calls' : List Setting)
    (hc : ∀ c ∈ calls, c.Plain) (hc' : ∀ c ∈ calls', c.Plain)
    (h : screen (getOptions (settings ranges calls {})) = screen (getOptions (settings ranges' calls' {}))) :
    settings ranges calls {} = settings ranges' calls' {} := by
  have hd : ({} : Options).letters.Clean := ⟨by decide, by decide⟩
  have k := settings_clean ranges calls hc {} hd
  have k' := settings_clean ranges' calls' hc' {} hd
  revert h
  generalize settings ranges calls {} = o at k
  generalize settings ranges' calls' {} = o' at k'
  intro h
  rw [C109_lines, C109_lines] at h
  obtain ⟨a, b, d, e, c, f⟩ := o
  obtain ⟨a', b', d', e', c', f'⟩ := o'
  dsimp only at h k k'
  generalize ("INFO_ORDER: ('Name', 'Symbol', 'Type', 'Rank', 'Metric', 'Default Coordinates', 'Default Indices', " ++
        "'Default Coordinates For', 'Coordinate Transformations', 'Indices Symbols', 'Tensors Using This Metric')").toList = I at h
  unfold screen at h
  simp only [List.flatMap_cons, List.flatMap_nil, List.append_nil, List.append_assoc] at h
  have n1 := fun i => numeral_not (c := '\n') (by decide) (by decide) i
  have h := List.append_cancel_left h
  obtain ⟨ha, h⟩ := before_first (truth_oneLine _) (truth_oneLine _) h
  obtain ⟨hb, h⟩ := before_first (letterList_oneLine k) (letterList_oneLine k') (List.append_cancel_left h)
  have h := List.append_cancel_left h
  have h0 : (((c.toList ++ "\n".toList ++ I ++ "\n".toList ++ "LIST_PER_LINE: ".toList ++ numeral d) ++ '\n' ::
        ("FONT_SIZE: ".toList ++ numeral e)) ++ '\n' :: ("PARALLEL: ".toList ++ truth f)) ++ "\n".toList =
      (((c'.toList ++ "\n".toList ++ I ++ "\n".toList ++ "LIST_PER_LINE: ".toList ++ numeral d') ++ '\n' ::
        ("FONT_SIZE: ".toList ++ numeral e')) ++ '\n' :: ("PARALLEL: ".toList ++ truth f')) ++ "\n".toList := by
    simpa using h
  have p1 : ∀ f, '\n' ∉ "PARALLEL: ".toList ++ truth f := fun f => by
    rw [List.mem_append, not_or]
    exact ⟨by decide, truth_oneLine f⟩
  have p2 : ∀ e, '\n' ∉ "FONT_SIZE: ".toList ++ numeral e := fun e => by
    rw [List.mem_append, not_or]
    exact ⟨by decide, n1 e⟩
  have p3 : ∀ d, '\n' ∉ "LIST_PER_LINE: ".toList ++ numeral d := fun e => by
    rw [List.mem_append, not_or]
    exact ⟨by decide, n1 e⟩
  obtain ⟨hf, h1⟩ := after_last (p1 f) (p1 f') (List.append_cancel_right h0)
  obtain ⟨he, h2⟩ := after_last (p2 e) (p2 e') h1
  have h3 : (c.toList ++ "\n".toList ++ I) ++ '\n' :: ("LIST_PER_LINE: ".toList ++ numeral d) =
      (c'.toList ++ "\n".toList ++ I) ++ '\n' :: ("LIST_PER_LINE: ".toList ++ numeral d') := by
    simpa using h2
  obtain ⟨hg, h4⟩ := after_last (p3 d) (p3 d') h3
  rw [truth_injective ha, letterList_injective k k' hb,
    String.toList_injective (List.append_cancel_right (List.append_cancel_right h4)),
    numeral_injective (List.append_cancel_left hg), numeral_injective (List.append_cancel_left he),
    truth_injective (List.append_cancel_left hf)]

/-- C109: two sequences of calls with different results, and what is shown. -/
example : getOptions (settings (fun _ => .ok (.many [])) [.letters (some (.val "i,".toList)), .commandLine,
      .parameter (some (.symbol "s\nt"))] {}) =
    ["LATEX: False".toList, "ALL_SYMBOLS: (i,)".toList, "CURVE_PARAMETER: s\nt".toList,
      ("INFO_ORDER: ('Name', 'Symbol', 'Type', 'Rank', 'Metric', 'Default Coordinates', 'Default Indices', " ++
        "'Default Coordinates For', 'Coordinate Transformations', 'Indices Symbols', 'Tensors Using This Metric')").toList,
      "LIST_PER_LINE: 6".toList, "FONT_SIZE: 14".toList, "PARALLEL: False".toList] ∧
    getOptions (settings (fun _ => .ok (.many [])) [.letters (some (.val "i".toList)), .commandLine] {}) ≠
      getOptions (settings (fun _ => .ok (.many [])) [.letters (some (.val "i,".toList)), .commandLine] {}) := by
  decide +kernel

end PyOGRe
