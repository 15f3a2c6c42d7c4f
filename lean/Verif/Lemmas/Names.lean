import Verif.Lemmas.Display
import Verif.Model.Labels
import Mathlib.Data.List.TakeWhile

/-! Which strings `sym.symbols` accepts. -/

namespace PyOGRe
open Spec

/-- The parts of a string between commas; a blank part after the last comma does not count. -/
def Spec.commaParts (s : List Char) : List (List Char) :=
  let ps := s.splitOn ','
  if 1 < ps.length ∧ (∀ c ∈ ps.getLastD [], isSpace c = true) then ps.dropLast else ps

/-- Every part between commas has a name. -/
def Spec.WellSeparated (s : List Char) : Prop := ∀ p ∈ commaParts s, ∃ c ∈ p, isSpace c = false

instance (s : List Char) : Decidable (WellSeparated s) := by unfold WellSeparated; infer_instance

theorem splitAt1_eq (s : List Char) : splitAt1 ',' s = s.splitOn ',' := by
  unfold List.splitOn
  induction s with
  | nil => rfl
  | cons c s ih =>
    rw [List.splitOnP_cons, ← ih]
    show (if c = ',' then [] :: splitAt1 ',' s else match splitAt1 ',' s with
      | [] => [[c]]
      | w :: ws => (c :: w) :: ws) = _
    by_cases h : c = ','
    · simp [h]
    · rw [if_neg h, if_neg (by simpa using h)]
      cases hs : splitAt1 ',' s with
      | nil => exact absurd hs (splitAt1_ne_nil _ _)
      | cons p ps => rfl

theorem strip_eq_nil {s : List Char} : strip s = [] ↔ ∀ c ∈ s, isSpace c = true := by
  unfold strip
  rw [List.reverse_eq_nil_iff, List.dropWhile_eq_nil_iff]
  constructor
  · intro h
    have h2 : s.dropWhile isSpace = [] := by
      by_contra hne
      have h3 := List.head_dropWhile_not isSpace (l := s) hne
      exact absurd (h _ (List.mem_reverse.2 (List.head_mem hne))) (by simp [h3])
    exact List.dropWhile_eq_nil_iff.1 h2
  · intro h c hc
    exact h c (List.dropWhile_subset _ (List.mem_reverse.1 hc))

theorem strip_ne_nil {s : List Char} : strip s ≠ [] ↔ ∃ c ∈ s, isSpace c = false := by
  rw [ne_eq, strip_eq_nil]
  push_neg
  simp

/-- No comma is white space. -/
theorem comma_not_space : isSpace ',' = false := by decide

theorem blank_dropWhile (s : List Char) :
    ((s.dropWhile isSpace).splitOn ',').map (fun p => p.all isSpace) = (s.splitOn ',').map fun p => p.all isSpace := by
  induction s with
  | nil => rfl
  | cons c s ih =>
    by_cases h : isSpace c = true
    · rw [List.dropWhile_cons_of_pos h, ih]
      unfold List.splitOn
      have hc : (c == ',') = false := by
        have : c ≠ ',' := by rintro rfl; rw [comma_not_space] at h; cases h
        simpa using this
      rw [List.splitOnP_cons, if_neg (by simp [hc])]
      have := List.splitOnP_ne_nil (· == ',') s
      cases hs : List.splitOnP (· == ',') s with
      | nil => exact absurd hs this
      | cons p ps => simp [h]
    · rw [List.dropWhile_cons_of_neg h]

theorem splitOn_concat_comma (s : List Char) : (s ++ [',']).splitOn ',' = s.splitOn ',' ++ [[]] :=
  splitOnP_concat s (by simp)

theorem splitOn_concat {c : Char} (h : c ≠ ',') (s : List Char) :
    ∃ ps p, s.splitOn ',' = ps ++ [p] ∧ (s ++ [c]).splitOn ',' = ps ++ [p ++ [c]] := by
  unfold List.splitOn
  induction s with
  | nil => exact ⟨[], [], by simp, by simp [List.splitOnP_cons, h]⟩
  | cons d s ih =>
    obtain ⟨ps, p, h1, h2⟩ := ih
    rw [List.cons_append, List.splitOnP_cons, List.splitOnP_cons, h1, h2]
    split_ifs
    · exact ⟨[] :: ps, p, rfl, rfl⟩
    · cases ps with
      | nil => exact ⟨[], d :: p, rfl, rfl⟩
      | cons q qs => exact ⟨(d :: q) :: qs, p, rfl, rfl⟩

theorem blank_rdropWhile (s : List Char) :
    (((s.reverse.dropWhile isSpace).reverse).splitOn ',').map (fun p => p.all isSpace) =
      (s.splitOn ',').map fun p => p.all isSpace := by
  induction s using List.reverseRecOn with
  | nil => rfl
  | append_singleton s c ih =>
    rw [List.reverse_append, List.reverse_singleton, List.singleton_append]
    by_cases h : isSpace c = true
    · rw [List.dropWhile_cons_of_pos h, ih]
      have hc : c ≠ ',' := by rintro rfl; rw [comma_not_space] at h; cases h
      obtain ⟨ps, p, h1, h2⟩ := splitOn_concat hc s
      rw [h1, h2]
      simp [h]
    · rw [List.dropWhile_cons_of_neg h, List.reverse_cons, List.reverse_reverse]

/-- Which parts are blank does not change when white space around the string is dropped. -/
theorem blank_strip (s : List Char) :
    ((strip s).splitOn ',').map (fun p => p.all isSpace) = (s.splitOn ',').map fun p => p.all isSpace := by
  unfold strip
  rw [blank_rdropWhile, blank_dropWhile]

theorem wellSeparated_iff (s : List Char) : WellSeparated s ↔
    ∀ b ∈ (let bs := (s.splitOn ',').map fun p => p.all isSpace
      if 1 < bs.length ∧ bs.getLastD true = true then bs.dropLast else bs), b = false := by
  unfold WellSeparated commaParts
  have hne : s.splitOn ',' ≠ [] := List.splitOnP_ne_nil _ _
  have hl : ((s.splitOn ',').map fun p => p.all isSpace).getLastD true = true ↔
      ∀ c ∈ (s.splitOn ',').getLastD [], isSpace c = true := by
    rw [List.getLastD_eq_getLast?, List.getLastD_eq_getLast?, List.getLast?_map,
      List.getLast?_eq_some_getLast hne]
    simp
  dsimp only
  rw [List.length_map]
  simp only [hl]
  split_ifs with h
  · rw [← List.map_dropLast]
    generalize (s.splitOn ',').dropLast = l
    simp
  · simp

theorem strip_getLast {s : List Char} {c : Char} (h : (strip s).getLast? = some c) : isSpace c = false := by
  unfold strip at h
  rw [List.getLast?_reverse] at h
  generalize (List.dropWhile isSpace s).reverse = u at h
  have hne : u.dropWhile isSpace ≠ [] := by rintro e; rw [e] at h; cases h
  have := List.head_dropWhile_not isSpace (l := u) hne
  rw [List.head?_eq_some_head hne] at h
  rw [← Option.some.inj h]
  simpa using this

/-- What `sym.symbols` does with a string without ranges. -/
theorem sympySymbols_eq (ranges : List Char → Py Letters) {s : List Char} (hs : ∀ c ∈ s, c ≠ ':' ∧ c ≠ '\\') :
    sympySymbols ranges s = if WellSeparated s then
      .ok (if (strip s).getLast? ≠ some ',' ∧ (namesIn s).length = 1 then .one (String.ofList ((namesIn s).headD []))
        else .many ((namesIn s).map String.ofList)) else .error .valueError := by
  have key : (∃ l, sympySymbols ranges s = .ok l) ∧ WellSeparated s ∨
      sympySymbols ranges s = .error .valueError ∧ ¬ WellSeparated s := by
    unfold sympySymbols
    rw [if_neg (by
      rw [List.any_eq_true]
      rintro ⟨c, hc, hh⟩
      obtain ⟨a, b⟩ := hs c hc
      simp [a, b] at hh)]
    dsimp only
    set t := if ((strip s).getLast? == some ',') = true then strip (strip s).dropLast else strip s with ht
    have hW : WellSeparated s ↔ t ≠ [] ∧ ((splitAt1 ',' t).map strip).any (fun p => p.isEmpty) = false := by
      have hany : ∀ u : List Char, ((splitAt1 ',' u).map strip).any (fun p => p.isEmpty) = false ↔
          ∀ b ∈ (u.splitOn ',').map fun p => p.all isSpace, b = false := by
        intro u
        rw [splitAt1_eq]
        simp only [List.any_map, List.any_eq_false, List.mem_map, forall_exists_index, and_imp,
          forall_apply_eq_imp_iff₂, Function.comp, List.isEmpty_iff]
        constructor
        · intro h p hp
          have := h p hp
          rw [strip_eq_nil] at this
          simpa using this
        · intro h p hp
          have := h p hp
          rw [strip_eq_nil]
          simpa using this
      rw [hany, wellSeparated_iff]
      dsimp only
      by_cases hl : (strip s).getLast? = some ','
      · rw [if_pos (by simpa using hl)] at ht
        have hne : strip s ≠ [] := by rintro e; rw [e] at hl; cases hl
        have e : strip s = (strip s).dropLast ++ [','] := by
          conv_lhs => rw [← List.dropLast_append_getLast hne]
          rw [List.getLast?_eq_some_getLast hne] at hl
          rw [Option.some.inj hl]
        rw [← blank_strip s, e, splitOn_concat_comma, ht, blank_strip]
        have hne2 : (strip s).dropLast.splitOn ',' ≠ [] := List.splitOnP_ne_nil _ _
        rw [if_pos ⟨by
          rw [List.length_map, List.length_append]
          have := List.length_pos_of_ne_nil hne2
          simpa using this, by simp⟩]
        rw [List.map_append, List.map_singleton, List.dropLast_concat]
        constructor
        · intro h
          refine ⟨fun hn => ?_, h⟩
          rw [← blank_strip, hn] at h
          simp [List.splitOn] at h
        · exact fun h => h.2
      · rw [if_neg (by simpa using hl)] at ht
        rw [ht, ← blank_strip s]
        by_cases hn : strip s = []
        · rw [hn]
          simp [List.splitOn]
        · obtain ⟨v, c, hv⟩ : ∃ v c, strip s = v ++ [c] := ⟨_, _, (List.dropLast_append_getLast hn).symm⟩
          have hc : isSpace c = false := strip_getLast (s := s) (by rw [hv]; simp)
          have hcc : c ≠ ',' := by rintro rfl; exact hl (by rw [hv]; simp)
          obtain ⟨ps, p, -, h2⟩ := splitOn_concat hcc v
          rw [hv, h2, if_neg (by
            rintro ⟨-, hh⟩
            simp [List.getLastD_eq_getLast?, hc] at hh)]
          simp
    by_cases hw : WellSeparated s
    · left
      refine ⟨?_, hw⟩
      obtain ⟨h1, h2⟩ := hW.1 hw
      rw [if_neg h1, h2]
      rw [if_neg (by simp)]
      split <;> exact ⟨_, rfl⟩
    · right
      refine ⟨?_, hw⟩
      by_cases h1 : t = []
      · rw [if_pos h1]
      · rw [if_neg h1]
        have h2 : ((splitAt1 ',' t).map strip).any (fun p => p.isEmpty) = true := by
          by_contra h2
          exact hw (hW.2 ⟨h1, by simpa using h2⟩)
        rw [if_pos h2]
  rcases key with ⟨⟨l, h⟩, hw⟩ | ⟨h, hw⟩
  · rw [if_pos hw, h, sympySymbols_names hs h]
  · rw [if_neg hw, h]

/-- The same for `seq=True`. -/
theorem sympySymbolsSeq_eq (ranges : List Char → Py Letters) {s : List Char} (hs : ∀ c ∈ s, c ≠ ':' ∧ c ≠ '\\') :
    sympySymbolsSeq ranges s = if WellSeparated s then .ok ((namesIn s).map String.ofList)
      else .error .valueError := by
  unfold sympySymbolsSeq
  rw [sympySymbols_eq ranges hs]
  split_ifs with h1 h2
  · obtain ⟨a, ha⟩ := List.length_eq_one_iff.1 h2.2
    rw [ha]
    rfl
  · rfl
  · rfl

end PyOGRe
