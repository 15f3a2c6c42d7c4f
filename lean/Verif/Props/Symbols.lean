import Verif.Model.Symbols
import Verif.Props.Labels

/-!
# C126: labels from `str_symbols`
-/

namespace PyOGRe
open Spec
variable {K : Type}

/-- A name without white space, commas, colons and backslashes. -/
def Spec.Ordinary (s : Sym) : Prop := s.toList ≠ [] ∧
  ∀ c ∈ s.toList, isSpace c = false ∧ c ≠ ',' ∧ c ≠ ':' ∧ c ≠ '\\'

theorem splitOnP_none {p : Char → Bool} {s : List Char} (h : ∀ c ∈ s, p c = false) : s.splitOnP p = [s] := by
  induction s with
  | nil => rfl
  | cons c s ih =>
    rw [List.splitOnP_cons, h c (by simp), ih fun d hd => h d (by simp [hd])]
    rfl

theorem splitOnP_until {p : Char → Bool} {s t : List Char} {d : Char} (h : ∀ c ∈ s, p c = false) (hd : p d = true) :
    (s ++ d :: t).splitOnP p = s :: t.splitOnP p := by
  induction s with
  | nil => rw [List.nil_append, List.splitOnP_cons, hd]; rfl
  | cons c s ih =>
    rw [List.cons_append, List.splitOnP_cons, h c (by simp), ih fun d hd => h d (by simp [hd])]
    rfl

theorem splitOnP_joined {p : Char → Bool} {d : Char} (hd : p d = true) : ∀ {l : List (List Char)}, l ≠ [] →
    (∀ s ∈ l, ∀ c ∈ s, p c = false) → (List.intercalate [d] l).splitOnP p = l
  | [], h, _ => absurd rfl h
  | [s], _, h => by
    have e : List.intercalate [d] [s] = s := by simp [List.intercalate]
    rw [e]
    exact splitOnP_none (h s (by simp))
  | s :: t :: l, _, h => by
    have e : List.intercalate [d] (s :: t :: l) = s ++ d :: List.intercalate [d] (t :: l) := by
      simp [List.intercalate, List.intersperse]
    rw [e, splitOnP_until (h s (by simp)) hd, splitOnP_joined hd (by simp) fun u hu => h u (by simp at hu ⊢; tauto)]

theorem mem_joined {d c : Char} : ∀ {l : List (List Char)}, c ∈ List.intercalate [d] l → c = d ∨ ∃ s ∈ l, c ∈ s
  | [], h => by simp [List.intercalate] at h
  | [s], h => Or.inr ⟨s, by simp, by simpa [List.intercalate] using h⟩
  | s :: t :: l, h => by
    have e : List.intercalate [d] (s :: t :: l) = s ++ d :: List.intercalate [d] (t :: l) := by
      simp [List.intercalate, List.intersperse]
    rw [e, List.mem_append, List.mem_cons] at h
    rcases h with h | h | h
    · exact Or.inr ⟨s, by simp, h⟩
    · exact Or.inl h
    · rcases mem_joined h with h | ⟨u, hu, hc⟩
      · exact Or.inl h
      · exact Or.inr ⟨u, by simp at hu ⊢; tauto, hc⟩

/-- The parts contain characters of the string that are no separators. -/
theorem part_chars {p : Char → Bool} : ∀ {s u : List Char}, u ∈ s.splitOnP p → ∀ c ∈ u, c ∈ s ∧ p c = false
  | [], u, h, c, hc => by
    rw [List.splitOnP_nil, List.mem_singleton] at h
    subst h
    cases hc
  | d :: s, u, h, c, hc => by
    rw [List.splitOnP_cons] at h
    split_ifs at h with hd
    · rcases List.mem_cons.1 h with rfl | h
      · cases hc
      · obtain ⟨h1, h2⟩ := part_chars h c hc
        exact ⟨by simp [h1], h2⟩
    · cases hq : s.splitOnP p with
      | nil => exact absurd hq (List.splitOnP_ne_nil p s)
      | cons q qs =>
        rw [hq] at h
        rcases List.mem_cons.1 h with rfl | h
        · rcases List.mem_cons.1 hc with rfl | hc
          · exact ⟨by simp, by simpa using hd⟩
          · obtain ⟨h1, h2⟩ := part_chars (s := s) (u := q) (by rw [hq]; simp) c hc
            exact ⟨by simp [h1], h2⟩
        · obtain ⟨h1, h2⟩ := part_chars (s := s) (u := u) (by rw [hq]; simp [h]) c hc
          exact ⟨by simp [h1], h2⟩

/-- A list of ordinary names, joined with blanks, is read as this list. -/
theorem read_joined (ranges : List Char → Py Letters) {l : List Sym} (hl : ∀ s ∈ l, Ordinary s) :
    labelsOf ranges (List.intercalate [' '] (l.map String.toList)) = .ok l := by
  cases l with
  | nil => rfl
  | cons a l =>
    have hm : ∀ c ∈ List.intercalate [' '] ((a :: l).map String.toList), c = ' ' ∨ ∃ s ∈ a :: l, c ∈ s.toList := by
      intro c hc
      rcases mem_joined hc with h | ⟨s, hs, h⟩
      · exact Or.inl h
      · obtain ⟨u, hu, rfl⟩ := List.mem_map.1 hs
        exact Or.inr ⟨u, hu, h⟩
    have hs : ∀ c ∈ List.intercalate [' '] ((a :: l).map String.toList), c ≠ ':' ∧ c ≠ '\\' := by
      intro c hc
      rcases hm c hc with rfl | ⟨s, hs, h⟩
      · decide
      · exact ((hl s hs).2 c h).2.2
    have hn : namesIn (List.intercalate [' '] ((a :: l).map String.toList)) = (a :: l).map String.toList := by
      rw [namesIn_eq, splitOnP_joined (by decide) (by simp)]
      · rw [List.filter_eq_self]
        intro s hs
        obtain ⟨u, hu, rfl⟩ := List.mem_map.1 hs
        have := (hl u hu).1
        simpa using this
      · intro s hs c hc
        obtain ⟨u, hu, rfl⟩ := List.mem_map.1 hs
        obtain ⟨h1, h2, -⟩ := (hl u hu).2 c hc
        simp [h1, h2]
    have hw : WellSeparated (List.intercalate [' '] ((a :: l).map String.toList)) := by
      have e : commaParts (List.intercalate [' '] ((a :: l).map String.toList)) =
          [List.intercalate [' '] ((a :: l).map String.toList)] := by
        unfold commaParts
        have : (List.intercalate [' '] ((a :: l).map String.toList)).splitOn ',' =
            [List.intercalate [' '] ((a :: l).map String.toList)] := by
          unfold List.splitOn
          refine splitOnP_none fun c hc => ?_
          rcases hm c hc with rfl | ⟨s, hs, h⟩
          · decide
          · simpa using ((hl s hs).2 c h).2.1
        dsimp only
        rw [this, if_neg (by simp)]
      intro p hp
      rw [e, List.mem_singleton] at hp
      subst hp
      obtain ⟨c, hc⟩ := List.exists_mem_of_ne_nil _ (hl a (by simp)).1
      refine ⟨c, ?_, ((hl a (by simp)).2 c hc).1⟩
      cases l with
      | nil => simpa [List.intercalate] using hc
      | cons b l => simp [List.intercalate, List.intersperse, hc]
    rw [(labelsOf_eq ranges hs).1 (Or.inr hw)]
    unfold labelNames
    rw [hn, List.map_map]
    congr 1
    conv_rhs => rw [← List.map_id (a :: l)]
    refine List.map_congr_left fun s _ => ?_
    simp

/-- **C126.** If `sym.symbols(names)` are the symbols `l`, with ordinary names, then calling a tensor with the string
`str_symbols(names)` labels it with `l`, and giving it to `Calc` orders the result by `l`. -/
theorem C126_labels [CommRing K] (E : Engine K) (ranges : List Char → Py Letters) {names : List Char} {l : List Sym}
    (h : sympySymbolsSeq ranges names = .ok l) (hl : ∀ s ∈ l, Ordinary s) :
    ∃ s, strSymbols ranges (.val names) = .ok s ∧
      (∀ (w : World K) t o, w.objs[t]? = some o → o.kind ≠ .coordinates → callText E ranges t s w = calcInit E t l w) ∧
      ∀ (w : World K) x name symbol, l ≠ [] → l.isPerm x.labels = true →
        calcText E ranges x name symbol (some s) w = calcResult E x name symbol l w := by
  have hr := read_joined ranges hl
  refine ⟨List.intercalate [' '] (l.map String.toList), ?_, fun w t o ho hk => ?_, fun w x name symbol hne hp => ?_⟩
  · unfold strSymbols
    dsimp only
    rw [h]
    rfl
  · have h1 : requireCallable (K := K) t w = (.ok (), w) := by
      unfold requireCallable
      rw [ho, if_neg (by simpa using hk)]
    unfold callText
    exact PyM.then_ok h1 (PyM.then_ok (by rw [PyM.lift_apply, hr]) rfl)
  · unfold calcText
    refine PyM.then_ok (a := l) (by rw [PyM.lift_apply]; exact congrArg (·, w) hr) ?_
    rw [if_neg (by rintro ⟨-, hf⟩; rw [hp] at hf; cases hf)]

/-- **C126** for strings without ranges and escapes: the names are ordinary, and they are the names in the string. -/
theorem C126_plain (ranges : List Char → Py Letters) {names : List Char} (hs : ∀ c ∈ names, c ≠ ':' ∧ c ≠ '\\') :
    (WellSeparated names → sympySymbolsSeq ranges names = .ok (labelNames names) ∧ ∀ s ∈ labelNames names, Ordinary s) ∧
    (¬ WellSeparated names → strSymbols ranges (.val names) = .error .valueError) ∧
    strSymbols ranges .other = .error .typeError := by
  refine ⟨fun hw => ⟨?_, fun s h => ?_⟩, fun hw => ?_, rfl⟩
  · rw [sympySymbolsSeq_eq ranges hs, if_pos hw]
    rfl
  · unfold labelNames at h
    obtain ⟨u, hu, rfl⟩ := List.mem_map.1 h
    unfold namesIn at hu
    rw [List.mem_filter] at hu
    obtain ⟨h1, h2⟩ := hu
    refine ⟨by simpa using h2, fun c hc => ?_⟩
    have hc : c ∈ u := by simpa using hc
    obtain ⟨h3, h4⟩ := part_chars h1 c hc
    have h5 : ¬ (c = ',') ∧ isSpace c = false := by simpa [not_or] using h4
    exact ⟨h5.2, h5.1, hs c h3⟩
  · unfold strSymbols
    dsimp only
    rw [sympySymbolsSeq_eq ranges hs, if_neg hw]
    rfl

/-- With and without ranges. -/
example : strSymbols (fun _ => .ok (.many ["x0", "x1", "x2"])) (.val "x0:3".toList) = .ok "x0 x1 x2".toList ∧
    strSymbols (fun _ => .error .indexError) (.val " mu, nu ,".toList) = .ok "mu nu".toList ∧
    labelsOf (fun _ => .error .indexError) "x0 x1 x2".toList = .ok ["x0", "x1", "x2"] := by
  decide +kernel

example : ∀ s ∈ (["x0", "x1", "x2"] : List Sym), Ordinary s := by
  intro s hs
  simp only [List.mem_cons, List.not_mem_nil, or_false] at hs
  rcases hs with rfl | rfl | rfl <;> exact ⟨by decide +kernel, by decide +kernel⟩

end PyOGRe
