import Verif.Model.Files
import Verif.Props.ExportLimits

/-!
# Files: C89 to C91

`export` and `export_all` with a file name, `import_from_file` and `import_all_from_file`.
-/

namespace PyOGRe
open Spec
variable {K : Type} [CommRing K] [DecidableEq K]

/-- `d'` is `d` with the text `s` in the file `name`. -/
structure Spec.HasNow (d : Disk) (name : String) (s : List Char) (d' : Disk) : Prop where
  text : d'.files name = some s
  others : ∀ n, n ≠ name → d'.files n = d.files n

omit [CommRing K] [DecidableEq K] in
theorem put_hasNow (d : Disk) (name : String) (s : List Char) : HasNow d name s (d.put name s) :=
  ⟨by simp [Disk.put], fun n hn => by simp [Disk.put, hn]⟩

theorem flushes_prefix : ∀ (done : List Char) (l : List (List Char)), ∀ s ∈ flushes done l, s <+: done ++ l.flatten
  | _, [], _, hs => by cases hs
  | done, c :: l, s, hs => by
    rw [List.flatten_cons, ← List.append_assoc]
    rcases List.mem_cons.1 hs with rfl | hs
    · exact List.prefix_append _ _
    · exact flushes_prefix (done ++ c) l s hs

theorem flushes_last : ∀ (done : List Char) (l : List (List Char)),
    (done :: flushes done l).getLast? = some (done ++ l.flatten)
  | done, [] => by simp [flushes]
  | done, c :: l => by
    have := flushes_last (done ++ c) l
    rw [flushes, List.getLast?_cons_cons, this, List.flatten_cons, List.append_assoc]

theorem newlines_id : ∀ {s : List Char}, '\r' ∉ s → universalNewlines s = s
  | [], _ => rfl
  | c :: s, h => by
    have h1 : c ≠ '\r' := fun e => h (by rw [e]; exact List.mem_cons_self)
    have h2 := newlines_id (s := s) fun e => h (List.mem_cons_of_mem _ e)
    rw [universalNewlines.eq_3 c s (fun _ e _ => h1 e) fun e => h1 e, h2]

/-- What happens to the files. -/
theorem export_to {text : Py (List Char)} {cut : List Char → List (List Char)} (hcut : ∀ s, (cut s).flatten = s) {name : String}
    {d : Disk} :
    (∃ s d' l, text = .ok s ∧ d.writable name = true ∧ exportTo text cut (some (.val name)) d = (.ok none, d :: l) ∧
      (d :: l).getLast? = some d' ∧ HasNow d name s d' ∧
      ∀ x ∈ l, ∃ p, p <+: s ∧ HasNow d name p x) ∨
    ∃ e, exportTo text cut (some (.val name)) d = (.error e, [d]) ∧
      (text = .error e ∨ d.writable name = false) := by
  unfold exportTo writeFile
  cases text with
  | error e => exact Or.inr ⟨e, rfl, Or.inl rfl⟩
  | ok s =>
    cases hw : d.writable name with
    | false => exact Or.inr ⟨.osError, by simp only [hw, Bool.false_eq_true, if_false], Or.inr rfl⟩
    | true =>
      refine Or.inl ⟨s, d.put name s, d.put name [] :: (flushes [] (cut s)).map (d.put name), rfl, rfl, by simp only [hw, if_true], ?_, put_hasNow _ _ _, ?_⟩
      · have := flushes_last [] (cut s)
        rw [hcut, List.nil_append] at this
        have e : (d.put name [] :: (flushes [] (cut s)).map (d.put name)) = ([] :: flushes [] (cut s)).map (d.put name) := rfl
        rw [List.getLast?_cons_cons, e, List.getLast?_map, this]
        rfl
      · intro x hx
        rcases List.mem_cons.1 hx with rfl | hx
        · exact ⟨[], List.nil_prefix, put_hasNow _ _ _⟩
        · obtain ⟨p, hp, rfl⟩ := List.mem_map.1 hx
          have := flushes_prefix [] (cut s) p hp
          rw [hcut, List.nil_append] at this
          exact ⟨p, this, put_hasNow _ _ _⟩

/-- **C89** If the object can be exported and the file opened, `export` with a file name returns nothing and leaves exactly the
text that `export` without one returns in the file, and all other files as they are.  Otherwise it raises, and no file has
been touched at any time. -/
theorem C89_export (P : Printer K) (w : World K) (t : Id') (cut : List Char → List (List Char))
    (hcut : ∀ s, (cut s).flatten = s) (name : String) (d : Disk) :
    (∀ s, exportFile P w t cut none d = (.ok (some s), [d]) → d.writable name = true →
      ∃ l d', exportFile P w t cut (some (.val name)) d = (.ok none, l) ∧ l.getLast? = some d' ∧ HasNow d name s d') ∧
    ∀ filename e l, exportFile P w t cut filename d = (.error e, l) → l = [d] := by
  refine ⟨fun s hs hw => ?_, fun filename e l h => ?_⟩
  · have hs : exportObj P w t = .ok s := by
      unfold exportFile exportTo at hs
      cases ht : exportObj P w t with
      | error e => rw [ht] at hs; cases hs
      | ok s' => rw [ht] at hs; cases hs; rfl
    rcases export_to (text := exportObj P w t) hcut (name := name) (d := d) with ⟨s', d', l, h1, -, h2, h3, h4, -⟩ | ⟨e, -, h | h⟩
    · rw [hs] at h1; cases h1
      exact ⟨_, d', h2, h3, h4⟩
    · rw [hs] at h; cases h
    · rw [hw] at h; cases h
  · match filename with
    | none =>
      unfold exportFile exportTo at h
      exact (Prod.mk.inj h).2.symm
    | some .other => exact (Prod.mk.inj h).2.symm
    | some (.val name) =>
      rcases export_to (text := exportObj P w t) hcut (name := name) (d := d) with ⟨s', d', l', -, -, h2, -⟩ | ⟨e', h2, -⟩
      · rw [show exportFile P w t cut (some (.val name)) d = _ from h2] at h; cases h
      · rw [show exportFile P w t cut (some (.val name)) d = _ from h2] at h; cases h; rfl

/-- **C89** for `export_all`. -/
theorem C89_export_all (P : Printer K) (w : World K) (cut : List Char → List (List Char))
    (hcut : ∀ s, (cut s).flatten = s) (name : String) (d : Disk) :
    (∀ s, exportAllFile P w cut none d = (.ok (some s), [d]) → d.writable name = true →
      ∃ l d', exportAllFile P w cut (some (.val name)) d = (.ok none, l) ∧ l.getLast? = some d' ∧ HasNow d name s d') ∧
    ∀ filename e l, exportAllFile P w cut filename d = (.error e, l) → l = [d] := by
  refine ⟨fun s hs hw => ?_, fun filename e l h => ?_⟩
  · have hs : exportAll P w = .ok s := by
      unfold exportAllFile exportTo at hs
      cases ht : exportAll P w with
      | error e => rw [ht] at hs; cases hs
      | ok s' => rw [ht] at hs; cases hs; rfl
    rcases export_to (text := exportAll P w) hcut (name := name) (d := d) with ⟨s', d', l, h1, -, h2, h3, h4, -⟩ | ⟨e, -, h | h⟩
    · rw [hs] at h1; cases h1
      exact ⟨_, d', h2, h3, h4⟩
    · rw [hs] at h; cases h
    · rw [hw] at h; cases h
  · match filename with
    | none =>
      unfold exportAllFile exportTo at h
      exact (Prod.mk.inj h).2.symm
    | some .other => exact (Prod.mk.inj h).2.symm
    | some (.val name) =>
      rcases export_to (text := exportAll P w) hcut (name := name) (d := d) with ⟨s', d', l', -, -, h2, -⟩ | ⟨e', h2, -⟩
      · rw [show exportAllFile P w cut (some (.val name)) d = _ from h2] at h; cases h
      · rw [show exportAllFile P w cut (some (.val name)) d = _ from h2] at h; cases h; rfl

omit [CommRing K] [DecidableEq K] in
theorem pass_empty (sel : Obj K → Bool) (del : Id' → PyM K Unit) {w : World K} (h : w.instances = []) (k : Nat) :
    timesDo (deletePass sel del) k w = (.ok (), w) := by
  induction k with
  | zero => rfl
  | succ k ih =>
    have e : deletePass sel del w = (.ok (), w) := by
      unfold deletePass
      rw [h]
      rfl
    unfold timesDo
    rw [PyM.bind_apply, e]
    exact ih

omit [CommRing K] [DecidableEq K] in
theorem clear_empty {w : World K} (h : w.instances = []) : clearInstances w = (.ok (), w) := by
  unfold clearInstances deleteResults
  rw [PyM.bind_apply, pass_empty _ _ h]
  refine (PyM.bind_apply _ _ _).trans ?_
  rw [pass_empty _ _ h]
  show (Except.ok (), { w with instances := [] }) = _
  rw [← h]

omit [CommRing K] [DecidableEq K] in
theorem clear_ok {w w' : World K} (h : clearInstances w = (.ok (), w')) : w'.instances = [] := by
  unfold clearInstances at h
  obtain ⟨-, w1, -, h⟩ := bind_ok h
  obtain ⟨-, w2, -, h⟩ := bind_ok h
  cases h
  rfl

/-- **C89** `import_from_file` and `import_all_from_file` of a file that has a text without carriage returns do what
`import_from_string` and `import_all_from_string` do with the text. -/
theorem C89_import (E : Engine K) (I : Importer K) (n : Nat) (d : Disk) {name : String} {s : List Char}
    (h : d.files name = some s) (hs : '\r' ∉ s) (w : World K) :
    importFromFile E I n d (.val name) w = importFromString E I n s w ∧
    importAllFromFile E I n d (.val name) w = importAllFromString E I n s w := by
  have hr : readFile d name = .ok s := by unfold readFile; rw [h]; simp only [newlines_id hs]
  refine ⟨?_, ?_⟩
  · unfold importFromFile
    simp only [hr]
  · unfold importAllFromFile importAllFromString
    rcases hc : clearInstances w with ⟨e | ⟨⟩, w'⟩
    · rfl
    · simp only [hr, clear_empty (clear_ok hc)]

/-- **C89** Together: a file that `export_all` has written, read in any session with `import_all_from_file`, is the exported text
read there with `import_all_from_string` (which C61 describes), and so is a file of one object. -/
theorem C89_round (E : Engine K) (P : Printer K) (I : Importer K) (n : Nat) (w w2 : World K) (cut : List Char → List (List Char))
    (hcut : ∀ s, (cut s).flatten = s) (name : String) (d : Disk) (hd : d.writable name = true) {s : List Char} (hs : '\r' ∉ s) :
    (exportAll P w = .ok s → ∃ l d', exportAllFile P w cut (some (.val name)) d = (.ok none, l) ∧ l.getLast? = some d' ∧
      importAllFromFile E I n d' (.val name) w2 = importAllFromString E I n s w2) ∧
    ∀ t, exportObj P w t = .ok s → ∃ l d', exportFile P w t cut (some (.val name)) d = (.ok none, l) ∧ l.getLast? = some d' ∧
      importFromFile E I n d' (.val name) w2 = importFromString E I n s w2 := by
  refine ⟨fun h => ?_, fun t h => ?_⟩
  · obtain ⟨l, d', h1, h2, h3⟩ := (C89_export_all P w cut hcut name d).1 s (by
      show (Except.map some (exportAll P w), [d]) = _
      rw [h]
      rfl) hd
    exact ⟨l, d', h1, h2, (C89_import E I n d' h3.text hs w2).2⟩
  · obtain ⟨l, d', h1, h2, h3⟩ := (C89_export P w t cut hcut name d).1 s (by
      show (Except.map some (exportObj P w t), [d]) = _
      rw [h]
      rfl) hd
    exact ⟨l, d', h1, h2, (C89_import E I n d' h3.text hs w2).1⟩

/-- **C60**, **C90** (for `import_from_file`) If `import_from_file` raises, the session is as it was. -/
theorem C90_one_partial (E : Engine K) (hT : EngineTotal E) (I : Importer K) (n : Nat) (d : Disk) (filename : Arg String)
    (w w' : World K) (e : PyErr) (h : importFromFile E I n d filename w = some (.error e, w')) : w' = w := by
  unfold importFromFile at h
  cases filename with
  | other => cases h; rfl
  | val name =>
    cases hr : readFile d name with
    | error e' => simp only [hr] at h; cases h; rfl
    | ok s => simp only [hr] at h; exact C60_one_partial E hT I n s w w' e h

/-- **C90** is false: a wrong file name empties the session.  For every session, if there is no file with the name, or if the
argument is not a string. -/
theorem C90_false [Algebra ℚ K] (E : Engine K) (I : Importer K) (letters : List Sym) (calls : List (Call K)) (n : Nat) (d : Disk)
    (filename : Arg String) (h : ∀ name, filename = .val name → d.files name = none) :
    ∃ e w', importAllFromFile E I n d filename (history E letters calls fresh) = some (.error e, w') ∧ w'.instances = [] := by
  obtain ⟨w', h1, h2⟩ := C49_clear E letters calls
  unfold importAllFromFile
  rw [h1]
  cases filename with
  | other => exact ⟨_, w', rfl, h2⟩
  | val name =>
    have : readFile d name = .error .osError := by unfold readFile; rw [h name rfl]
    exact ⟨.osError, w', by simp only [this], h2⟩

/-- **C91** At every time while an object is exported, all other files are as before, and the file has its text from before or
the beginning of the new one. -/
theorem C91_partial (P : Printer K) (w : World K) (t : Id') (cut : List Char → List (List Char))
    (hcut : ∀ s, (cut s).flatten = s) (name : String) (d : Disk) {l : List Disk} {r : Py (Option (List Char))}
    (h : exportFile P w t cut (some (.val name)) d = (r, l)) :
    ∀ x ∈ l, x = d ∨ ∃ s p, exportObj P w t = .ok s ∧ p <+: s ∧ HasNow d name p x := by
  intro x hx
  rcases export_to (text := exportObj P w t) hcut (name := name) (d := d) with ⟨s, d', l', h1, -, h2, -, -, h3⟩ | ⟨e, h2, -⟩
  · rw [show exportFile P w t cut (some (.val name)) d = _ from h2] at h; cases h
    rcases List.mem_cons.1 hx with rfl | hx
    · exact Or.inl rfl
    · obtain ⟨p, h4, h5⟩ := h3 x hx
      exact Or.inr ⟨s, p, h1, h4, h5⟩
  · rw [show exportFile P w t cut (some (.val name)) d = _ from h2] at h; cases h
    exact Or.inl (by simpa using hx)

/-- **C91** is false: there is always a time at which the file is empty, whatever it was before. -/
theorem C91_false (P : Printer K) (w : World K) (t : Id') (cut : List Char → List (List Char)) (name : String) (d : Disk)
    {l : List Disk} (h : exportFile P w t cut (some (.val name)) d = (.ok none, l)) :
    ∃ x ∈ l, x.files name = some [] := by
  unfold exportFile exportTo at h
  cases ht : exportObj P w t with
  | error e => simp only [ht] at h; cases h
  | ok s =>
    simp only [ht] at h
    unfold writeFile at h
    split_ifs at h
    · cases h
      exact ⟨d.put name [], by simp, (put_hasNow _ _ _).text⟩
    · cases h

/-! ### Examples -/

/-- A disk with one file, and pieces of ten characters. -/
def Spec.oneFile (name : String) (s : List Char) : Disk := ⟨fun n => if n = name then some s else none, fun _ => true⟩
def Spec.tens (s : List Char) : List (List Char) := [s.take 10, s.drop 10]

example : ∀ s, (tens s).flatten = s := fun s => by simp [tens]

/-- A vector is written over an older file, in three steps, and read again in the same session. -/
example : let w := history codeEngine [] (vectorCalls "W" "u") fresh
    (exportFile codePrinter w 3 tens none (oneFile "a.txt" ['x'])).1 = .ok (some (textOf w 3)) ∧
    (exportFile codePrinter w 3 tens (some (.val "a.txt")) (oneFile "a.txt" ['x'])).2.map (·.files "a.txt") =
      [some ['x'], some [], some ((textOf w 3).take 10), some (textOf w 3)] ∧
    '\r' ∉ textOf w 3 ∧
    (importFromFile codeEngine codeImporter 800 (oneFile "a.txt" (textOf w 3)) (.val "a.txt") w).map
      (fun r => (r.1, (r.2.objs[4]?).map Obj.name)) = some (.ok 4, some "W") := by
  decide +kernel

end PyOGRe
