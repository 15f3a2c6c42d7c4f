import Verif.Spec.Display
import Verif.Lemmas.Represent
import Verif.Lemmas.Frame
import Mathlib.Data.List.Induction
import Mathlib.Data.List.SplitOn

/-! Lemmas about what is displayed. -/

namespace PyOGRe
open Spec
variable {K : Type}

/-! ### Groups -/

theorem groupEntries_map {V L M : Type} [Zero V] [Add V] [Sub V] [DecidableEq V] (comp : List Nat → V)
    (plus minus : List Nat → L) (f : L → M) (P : List (List Nat)) :
    groupEntries comp (fun I => f (plus I)) (fun I => f (minus I)) P =
      (groupEntries comp plus minus P).map fun g => (g.1, g.2.map f) := by
  have set_map : ∀ (d : Dict V (List L)) (c : V) (l : List L),
      Dict.set (d.map fun g => (g.1, g.2.map f)) c (l.map f) = (Dict.set d c l).map fun g => (g.1, g.2.map f) := by
    intro d c l
    induction d with
    | nil => rfl
    | cons p d ih =>
      rw [List.map_cons, Dict.set, Dict.set]
      by_cases h : p.1 = c
      · rw [if_pos h, if_pos h]; rfl
      · rw [if_neg h, if_neg h, List.map_cons, ih]
  have add_map : ∀ (d : Dict V (List L)) (c : V) (p m : L),
      addEntry c (f p) (f m) (d.map fun g => (g.1, g.2.map f)) = (addEntry c p m d).map fun g => (g.1, g.2.map f) := by
    intro d c p m
    unfold addEntry
    have e : (List.map (fun g : V × List M => (g.1, g.2 ++ (if g.1 - c = 0 then [f p] else []) ++
        if g.1 + c = 0 then [f m] else [])) (d.map fun g => (g.1, g.2.map f))) =
        (d.map fun g => (g.1, g.2 ++ (if g.1 - c = 0 then [p] else []) ++ if g.1 + c = 0 then [m] else [])).map
          fun g => (g.1, g.2.map f) := by
      rw [List.map_map, List.map_map]
      apply List.map_congr_left
      intro g _
      simp only [Function.comp]
      split_ifs <;> simp
    rw [e, List.any_map]
    dsimp only [Function.comp_def]
    split_ifs
    · rfl
    · exact set_map _ c [p]
  unfold groupEntries
  have key : ∀ (P : List (List Nat)) (d : Dict V (List L)),
      P.foldl (fun groups I => if comp I ≠ 0 then addEntry (comp I) (f (plus I)) (f (minus I)) groups else groups)
        (d.map fun g => (g.1, g.2.map f)) =
      (P.foldl (fun groups I => if comp I ≠ 0 then addEntry (comp I) (plus I) (minus I) groups else groups) d).map
        fun g => (g.1, g.2.map f) := by
    intro P
    induction P with
    | nil => intro d; rfl
    | cons I P ih =>
      intro d
      rw [List.foldl_cons, List.foldl_cons, ← ih]
      split_ifs
      · rw [add_map]
      · rfl
  exact key P []

theorem set_new {V L : Type} [DecidableEq V] (d : Dict V L) (c : V) (l : L) (h : ∀ g ∈ d, g.1 ≠ c) :
    Dict.set d c l = d ++ [(c, l)] := by
  induction d with
  | nil => rfl
  | cons p d ih =>
    rw [Dict.set, if_neg (h p (by simp)), ih fun g hg => h g (by simp [hg])]
    rfl

section
variable [Ring K] [DecidableEq K]

/-- The groups of the positions seen so far. -/
structure Grouping (comp : List Nat → K) (P : List (List Nat)) (groups : List (K × List (Bool × List Nat))) : Prop where
  perm : ((groups.flatMap fun g => g.2).map fun e => e.2).Perm (P.filter fun I => comp I ≠ 0)
  sign : ∀ g ∈ groups, ∀ e ∈ g.2, comp e.2 ≠ 0 ∧ comp e.2 = if e.1 then -g.1 else g.1
  nonempty : ∀ g ∈ groups, g.2 ≠ []
  nonzero : ∀ g ∈ groups, g.1 ≠ 0
  different : groups.Pairwise fun g h => g.1 ≠ h.1 ∧ g.1 ≠ -h.1

/-- What `addEntry` does to the existing groups. -/
def addTo (c : K) (I : List Nat) (g : K × List (Bool × List Nat)) : K × List (Bool × List Nat) :=
  (g.1, g.2 ++ (if g.1 - c = 0 then [(false, I)] else []) ++ (if g.1 + c = 0 then [(true, I)] else []))

theorem addTo_none {c : K} {I : List Nat} {g : K × List (Bool × List Nat)} (h1 : g.1 ≠ c) (h2 : g.1 ≠ -c) :
    addTo c I g = g := by
  unfold addTo
  rw [if_neg (fun h => h1 (sub_eq_zero.1 h)), if_neg (fun h => h2 (eq_neg_of_add_eq_zero_left h))]
  simp

theorem addTo_all_none {c : K} {I : List Nat} {l : List (K × List (Bool × List Nat))}
    (h : ∀ g ∈ l, g.1 ≠ c ∧ g.1 ≠ -c) : l.map (addTo c I) = l := by
  conv_rhs => rw [← List.map_id l]
  exact List.map_congr_left fun g hg => addTo_none (h g hg).1 (h g hg).2

/-- If some group has the value up to the sign, then exactly one gets the new entry. -/
theorem addTo_some (hq : ∀ x : K, x + x = 0 → x = 0) {c : K} (hc : c ≠ 0) (I : List Nat)
    (l : List (K × List (Bool × List Nat))) (hd : l.Pairwise fun g h => g.1 ≠ h.1 ∧ g.1 ≠ -h.1)
    (h : ∃ g ∈ l, g.1 = c ∨ g.1 = -c) :
    ∃ l1 g l2 s, l = l1 ++ g :: l2 ∧ l.map (addTo c I) = l1 ++ (g.1, g.2 ++ [(s, I)]) :: l2 ∧
      c = if s then -g.1 else g.1 := by
  induction l with
  | nil => obtain ⟨g, hg, -⟩ := h; cases hg
  | cons p l ih =>
    obtain ⟨hp, hl⟩ := List.pairwise_cons.1 hd
    by_cases hpc : p.1 = c ∨ p.1 = -c
    · have hrest : ∀ g ∈ l, g.1 ≠ c ∧ g.1 ≠ -c := by
        intro g hg
        obtain ⟨a, b⟩ := hp g hg
        rcases hpc with e | e
        · exact ⟨fun h => a (e.trans h.symm), fun h => b (by rw [e, h, neg_neg])⟩
        · exact ⟨fun h => b (by rw [e, h]), fun h => a (e.trans h.symm)⟩
      rcases hpc with e | e
      · refine ⟨[], p, l, false, rfl, ?_, by simp [e]⟩
        rw [List.map_cons, addTo_all_none hrest]
        unfold addTo
        rw [if_pos (by rw [e, sub_self]), if_neg (fun h => hc (hq c (by rwa [e] at h)))]
        simp
      · refine ⟨[], p, l, true, rfl, ?_, by simp [e]⟩
        rw [List.map_cons, addTo_all_none hrest]
        unfold addTo
        rw [if_neg (fun h => hc (hq c (by rw [e] at h; rw [← neg_eq_zero, neg_add]; rwa [sub_eq_add_neg] at h))),
          if_pos (by rw [e, neg_add_cancel])]
        simp
    · push Not at hpc
      obtain ⟨l1, g, l2, s, q1, q2, q3⟩ := ih hl (by
        obtain ⟨g, hg, hh⟩ := h
        rcases List.mem_cons.1 hg with rfl | hg
        · exact absurd hh (by push Not; exact hpc)
        · exact ⟨g, hg, hh⟩)
      refine ⟨p :: l1, g, l2, s, by rw [q1]; rfl, ?_, q3⟩
      rw [List.map_cons, q2, addTo_none hpc.1 hpc.2]
      rfl

theorem Grouping.add (hq : ∀ x : K, x + x = 0 → x = 0) {comp : List Nat → K} {P : List (List Nat)}
    {groups : List (K × List (Bool × List Nat))} (h : Grouping comp P groups) (I : List Nat) :
    Grouping comp (P ++ [I])
      (if comp I ≠ 0 then addEntry (comp I) (false, I) (true, I) groups else groups) := by
  obtain ⟨h1, h2, h3, h4, h5⟩ := h
  by_cases hc : comp I = 0
  · rw [if_neg (not_not.2 hc)]
    refine ⟨?_, h2, h3, h4, h5⟩
    rw [List.filter_append, List.filter_cons_of_neg (by simp [hc]), List.filter_nil, List.append_nil]
    exact h1
  · rw [if_pos hc]
    have hf : (P ++ [I]).filter (fun I => comp I ≠ 0) = P.filter (fun I => comp I ≠ 0) ++ [I] := by
      rw [List.filter_append, List.filter_cons_of_pos (by simp [hc]), List.filter_nil]
    have hadd : addEntry (comp I) (false, I) (true, I) groups =
        if ∃ g ∈ groups, g.1 = comp I ∨ g.1 = -comp I then groups.map (addTo (comp I) I)
        else groups ++ [(comp I, [(false, I)])] := by
      unfold addEntry
      have hany : (groups.any fun g => decide (g.1 - comp I = 0) || decide (g.1 + comp I = 0)) = true ↔
          ∃ g ∈ groups, g.1 = comp I ∨ g.1 = -comp I := by
        rw [List.any_eq_true]
        constructor
        · rintro ⟨g, hg, hh⟩
          rw [Bool.or_eq_true, decide_eq_true_iff, decide_eq_true_iff, sub_eq_zero] at hh
          exact ⟨g, hg, hh.imp_right eq_neg_of_add_eq_zero_left⟩
        · rintro ⟨g, hg, hh⟩
          refine ⟨g, hg, ?_⟩
          rw [Bool.or_eq_true, decide_eq_true_iff, decide_eq_true_iff, sub_eq_zero]
          exact hh.imp_right fun e => by rw [e, neg_add_cancel]
      by_cases hm : ∃ g ∈ groups, g.1 = comp I ∨ g.1 = -comp I
      · rw [if_pos hm]
        simp only [hany.2 hm, if_true]
        rfl
      · rw [if_neg hm]
        have hn : (groups.any fun g => decide (g.1 - comp I = 0) || decide (g.1 + comp I = 0)) = false := by
          rw [← Bool.not_eq_true, hany]; exact hm
        simp only [hn, Bool.false_eq_true, if_false]
        push Not at hm
        have e := addTo_all_none (I := I) hm
        unfold addTo at e
        rw [e]
        exact set_new groups _ _ fun g hg => (hm g hg).1
    rw [hadd]
    by_cases hm : ∃ g ∈ groups, g.1 = comp I ∨ g.1 = -comp I
    · rw [if_pos hm]
      obtain ⟨l1, g, l2, s, q1, q2, q3⟩ := addTo_some hq hc I groups h5 hm
      rw [q2]
      rw [q1] at h1 h2 h3 h4 h5
      have hgm : ∀ g', g' ∈ l1 ++ (g.1, g.2 ++ [(s, I)]) :: l2 → g' ∈ l1 ++ g :: l2 ∨ g' = (g.1, g.2 ++ [(s, I)]) := by
        intro g' hg'
        rcases List.mem_append.1 hg' with h | h
        · exact Or.inl (List.mem_append.2 (Or.inl h))
        · rcases List.mem_cons.1 h with h | h
          · exact Or.inr h
          · exact Or.inl (List.mem_append.2 (Or.inr (List.mem_cons.2 (Or.inr h))))
      refine ⟨?_, ?_, ?_, ?_, ?_⟩
      · rw [hf]
        refine List.Perm.trans ?_ (h1.append_right [I])
        simp only [List.flatMap_append, List.flatMap_cons, List.map_append, List.map_cons, List.map_nil,
          List.append_assoc]
        refine List.Perm.append_left _ (List.Perm.append_left _ ?_)
        exact List.perm_append_comm
      · intro g' hg' e he
        rcases hgm g' hg' with h | rfl
        · exact h2 g' h e he
        · rcases List.mem_append.1 he with h | h
          · exact h2 g (by simp) e h
          · rw [List.mem_singleton] at h
            subst h
            exact ⟨hc, q3⟩
      · intro g' hg'
        rcases hgm g' hg' with h | rfl
        · exact h3 g' h
        · simp
      · intro g' hg'
        rcases hgm g' hg' with h | rfl
        · exact h4 g' h
        · exact h4 g (by simp)
      · have e : (l1 ++ (g.1, g.2 ++ [(s, I)]) :: l2).map Prod.fst = (l1 ++ g :: l2).map Prod.fst := by simp
        rw [← List.pairwise_map (f := Prod.fst) (R := fun a b : K => a ≠ b ∧ a ≠ -b)] at h5 ⊢
        rw [e]; exact h5
    · rw [if_neg hm]
      push Not at hm
      refine ⟨?_, ?_, ?_, ?_, ?_⟩
      · rw [hf]
        simp only [List.flatMap_append, List.map_append]
        exact h1.append_right [I]
      · intro g' hg' e he
        rcases List.mem_append.1 hg' with h | h
        · exact h2 g' h e he
        · rw [List.mem_singleton] at h
          subst h
          rw [List.mem_singleton] at he
          subst he
          exact ⟨hc, rfl⟩
      · intro g' hg'
        rcases List.mem_append.1 hg' with h | h
        · exact h3 g' h
        · rw [List.mem_singleton] at h
          subst h; simp
      · intro g' hg'
        rcases List.mem_append.1 hg' with h | h
        · exact h4 g' h
        · rw [List.mem_singleton] at h
          subst h; exact hc
      · rw [List.pairwise_append]
        refine ⟨h5, List.pairwise_singleton _ _, ?_⟩
        intro g' hg' h' hh'
        rw [List.mem_singleton] at hh'
        subst hh'
        exact hm g' hg'

theorem groupEntries_grouping (hq : ∀ x : K, x + x = 0 → x = 0) (comp : List Nat → K) (P : List (List Nat)) :
    Grouping comp P (groupEntries comp (fun I => (false, I)) (fun I => (true, I)) P) := by
  unfold groupEntries
  have key : ∀ (P Q : List (List Nat)) (d : List (K × List (Bool × List Nat))), Grouping comp Q d →
      Grouping comp (Q ++ P) (P.foldl (fun groups I =>
        if comp I ≠ 0 then addEntry (comp I) (false, I) (true, I) groups else groups) d) := by
    intro P
    induction P with
    | nil => intro Q d h; simpa using h
    | cons I P ih =>
      intro Q d h
      have := ih (Q ++ [I]) _ (h.add hq I)
      rw [List.append_assoc] at this
      exact this
  have := key P [] [] ⟨by simp, by simp, by simp, by simp, List.Pairwise.nil⟩
  simpa using this

/-- **The loop of `list`** -/
theorem groupEntries_grouped (hq : ∀ x : K, x + x = 0 → x = 0) (comp : List Nat → K) (n r : Nat) :
    Grouped n r comp (groupEntries comp (fun I => (false, I)) (fun I => (true, I)) (allIdx (List.replicate r n))) := by
  obtain ⟨h1, h2, h3, h4, h5⟩ := groupEntries_grouping hq comp (allIdx (List.replicate r n))
  refine ⟨?_, ?_, ?_, h3, h5⟩
  · intro I hI hc
    rw [tuples_eq_allIdx] at hI
    rw [h1.count_eq]
    exact List.count_eq_one_of_mem ((nodup_allIdx _).filter _) (List.mem_filter.2 ⟨hI, by simpa using hc⟩)
  · intro g hg e he
    have : e.2 ∈ (allIdx (List.replicate r n)).filter fun I => comp I ≠ 0 :=
      h1.mem_iff.1 (List.mem_map.2 ⟨e, List.mem_flatMap.2 ⟨g, hg, he⟩, rfl⟩)
    obtain ⟨a, b⟩ := List.mem_filter.1 this
    exact ⟨by rw [tuples_eq_allIdx]; exact a, by simpa using b⟩
  · intro g hg e he
    obtain ⟨-, a⟩ := h2 g hg e he
    have hg0 := h4 g hg
    have hne : g.1 ≠ -g.1 := fun h => hg0 (hq _ (by nth_rw 2 [h]; exact add_neg_cancel _))
    rcases e with ⟨s, I⟩
    cases s
    · simp only [Bool.false_eq_true, if_false] at a
      simp [a, hne]
    · simp only [if_true] at a
      simp [a, hne.symm]

theorem groupEntries_eq_nil {comp : List Nat → K} {P : List (List Nat)} {L : Type} {plus minus : List Nat → L}
    (h : ∀ I ∈ P, comp I = 0) : groupEntries comp plus minus P = [] := by
  unfold groupEntries
  induction P with
  | nil => rfl
  | cons I P ih =>
    rw [List.foldl_cons, if_neg (not_not.2 (h I (by simp)))]
    exact ih fun J hJ => h J (by simp [hJ])

end

/-! ### Lines -/

theorem joinText_eq (sep : List Char) (l : List (List Char)) : joinText sep l = sep.intercalate l := by
  induction l with
  | nil => rfl
  | cons a l ih =>
    cases l with
    | nil => simp [joinText, List.intercalate]
    | cons b l =>
      rw [joinText, ih]
      simp [List.intercalate]

theorem lineChunks_flatten {α : Type} (num : Nat) (l : List α) (q : Nat) :
    ((List.range q).map fun i => (l.drop (num * i)).take num).flatten = l.take (num * q) := by
  induction q with
  | zero => simp
  | succ q ih =>
    rw [List.range_succ, List.map_append, List.flatten_append, ih, List.map_singleton, List.flatten_singleton,
      Nat.mul_succ, List.take_add]

theorem groupText_broken {num : Nat} (hn : 0 < num) (value : List Char) (entries : List (List Char))
    (he : entries ≠ []) : Broken num entries value (groupText num value entries) := by
  have hl : 0 < entries.length := List.length_pos_of_ne_nil he
  obtain ⟨q, hq⟩ : ∃ q, q = (entries.length - 1) / num := ⟨_, rfl⟩
  have h1 : num * q ≤ entries.length - 1 := by rw [hq]; exact Nat.mul_div_le _ _
  have h2 : entries.length ≤ num * q + num := by
    have := Nat.lt_mul_div_succ (entries.length - 1) hn
    rw [← hq, Nat.mul_succ] at this
    omega
  have h3 : ceilDiv entries.length num = q + 1 := by
    unfold ceilDiv
    rw [show entries.length + num - 1 = entries.length - 1 + num by omega, Nat.add_div_right _ hn, hq]
  refine ⟨(List.range q).map fun i => (entries.drop (num * i)).take num, entries.drop (num * q), ?_, ?_, ?_, ?_, ?_⟩
  · rw [lineChunks_flatten, List.take_append_drop]
  · intro l hm
    obtain ⟨i, hi, rfl⟩ := List.mem_map.1 hm
    have hi' := List.mem_range.1 hi
    have : num * i + num ≤ num * q := by
      rw [← Nat.mul_succ]; exact Nat.mul_le_mul_left _ hi'
    rw [List.length_take, List.length_drop]
    omega
  · rw [List.length_drop]; omega
  · rw [List.length_drop]; omega
  · unfold groupText
    rw [h3, List.range_succ, List.flatMap_append, List.flatMap_singleton, if_neg (by omega), if_pos h2,
      joinText_eq, List.flatMap_map]
    have : (List.flatMap (fun i => joinText " = ".toList (if num * i + num < entries.length then
        List.take num (List.drop (num * i) entries) else List.drop (num * i) entries) ++
        if num * i + num ≥ entries.length then " &= ".toList ++ value else "= \\\\[2pt]".toList) (List.range q)) =
        List.flatMap (fun i => equals (List.take num (List.drop (num * i) entries)) ++ "= \\\\[2pt]".toList)
          (List.range q) := by
      apply List.flatMap_congr
      intro i hi
      have hi' := List.mem_range.1 hi
      have : num * i + num ≤ num * q := by
        rw [← Nat.mul_succ]; exact Nat.mul_le_mul_left _ hi'
      rw [if_pos (by omega), if_neg (by omega), joinText_eq]
      rfl
    rw [this]
    simp only [List.append_assoc]
    rfl

/-! ### Labels -/

theorem withIndices_ok (T : Typeset K) (latex : Bool) (letters : List Sym) (ix : List Int)
    (hix : ∀ x ∈ ix, x = 1 ∨ x = -1) (i : Nat) (hl : i + ix.length ≤ letters.length) (s : List Char) :
    withIndices T latex letters ix i s = .ok (s ++ indexed T.symbol latex ix ((letters.drop i).take ix.length)) := by
  induction ix generalizing i s with
  | nil => simp [withIndices, indexed]
  | cons x ix ih =>
    rw [List.length_cons] at hl
    have hi : i < letters.length := by omega
    have hd : letters.drop i = letters[i] :: letters.drop (i + 1) := List.drop_eq_getElem_cons hi
    have ih' := ih (fun y hy => hix y (by simp [hy])) (i + 1) (by omega)
    rw [hd, List.length_cons, List.take_succ_cons, indexed, withIndices, List.getElem?_eq_getElem hi]
    rcases hix x (by simp) with rfl | rfl
    · rw [if_neg (by decide), if_pos rfl, if_pos rfl]
      dsimp only
      rw [ih']
      cases latex <;> simp
    · rw [if_pos rfl, if_neg (by decide)]
      dsimp only
      rw [ih']
      cases latex <;> simp

theorem withIndices_short (T : Typeset K) (latex : Bool) (letters : List Sym) (ix : List Int)
    (hix : ∀ x ∈ ix, x = 1 ∨ x = -1) (i : Nat) (hl : letters.length < i + ix.length) (hi : i ≤ letters.length)
    (s : List Char) : withIndices T latex letters ix i s = .error .indexError := by
  induction ix generalizing i s with
  | nil => simp at hl; omega
  | cons x ix ih =>
    rw [List.length_cons] at hl
    rw [withIndices]
    by_cases h : i < letters.length
    · rw [List.getElem?_eq_getElem h]
      have ih' := ih (fun y hy => hix y (by simp [hy])) (i + 1) (by omega) (by omega)
      rcases hix x (by simp) with rfl | rfl
      · rw [if_neg (by decide), if_pos rfl]
        exact ih' _
      · rw [if_pos rfl]
        exact ih' _
    · rw [List.getElem?_eq_none (by omega)]
      rcases hix x (by simp) with rfl | rfl
      · rw [if_neg (by decide), if_pos rfl]
      · rw [if_pos rfl]

theorem eqSymbol_ok (T : Typeset K) (opt : Options) (o : Obj K) (ix : List Int) (l : List Sym)
    (hl : opt.letters = .many l) (hix : ∀ x ∈ ix, x = 1 ∨ x = -1) (h1 : ix.length ≤ o.indices.length)
    (h2 : ix.length ≤ l.length) :
    eqSymbol T opt o ix = .ok (symbolText T.symbol opt.latex o.symbol ++
      indexed T.symbol opt.latex ix (l.take ix.length)) := by
  unfold eqSymbol
  rw [hl]
  dsimp only
  rw [withIndices_ok T opt.latex _ ix hix 0 (by rw [List.length_take]; omega), List.drop_zero, List.take_take,
    Nat.min_eq_left h1]
  congr 2
  unfold symbolText
  by_cases h : o.symbol = "" <;> cases opt.latex <;> simp [h]

theorem positionLabel_eq (T : Typeset K) (latex : Bool) (syms : List Sym) (symbol : List Char) (ix : List Int)
    (hix : ∀ x ∈ ix, x = 1 ∨ x = -1) (I : List Nat) :
    positionLabel T latex syms symbol ix I =
      symbol ++ indexed T.symbol latex ix (I.map fun k => syms.getD k "") := by
  unfold positionLabel
  induction ix generalizing I symbol with
  | nil => simp [indexed]
  | cons x ix ih =>
    cases I with
    | nil => simp [indexed]
    | cons k I =>
      rw [List.zip_cons_cons, List.foldl_cons, ih _ (fun y hy => hix y (by simp [hy])), List.map_cons, indexed]
      rcases hix x (by simp) with rfl | rfl
      · cases latex <;> simp
      · cases latex <;> simp

/-! ### Index letters -/

theorem splitAt1_ne_nil (sep : Char) (s : List Char) : splitAt1 sep s ≠ [] := by
  cases s with
  | nil => simp [splitAt1]
  | cons c s =>
    rw [splitAt1]
    split_ifs
    · simp
    · split <;> simp

/-- Splitting at commas and then at white space is splitting at both. -/
theorem splitAt1_flatMap (s : List Char) :
    (splitAt1 ',' s).flatMap (List.splitOnP isSpace) = s.splitOnP fun c => c == ',' || isSpace c := by
  induction s with
  | nil => simp [splitAt1, List.splitOnP_nil]
  | cons c s ih =>
    rw [splitAt1, List.splitOnP_cons]
    by_cases h : c = ','
    · subst h
      simp only [if_true, beq_self_eq_true, Bool.true_or, List.flatMap_cons, List.splitOnP_nil, ih]
      rfl
    · rw [if_neg h]
      have hne := splitAt1_ne_nil ',' s
      cases hs : splitAt1 ',' s with
      | nil => exact absurd hs hne
      | cons p ps =>
        rw [hs] at ih
        dsimp only
        rw [List.flatMap_cons] at ih ⊢
        rw [List.splitOnP_cons]
        have hb : (c == ',') = false := by simpa using h
        rw [hb, Bool.false_or]
        by_cases hc : isSpace c = true
        · rw [if_pos hc, if_pos hc, ← ih]; rfl
        · rw [if_neg hc, if_neg hc, ← ih]
          have := List.splitOnP_ne_nil isSpace p
          cases hp : List.splitOnP isSpace p with
          | nil => exact absurd hp this
          | cons q qs => rfl

theorem splitOnP_concat {p : Char → Bool} (s : List Char) {c : Char} (hc : p c = true) :
    (s ++ [c]).splitOnP p = s.splitOnP p ++ [[]] := by
  induction s with
  | nil => simp [List.splitOnP_cons, hc, List.splitOnP_nil]
  | cons d s ih =>
    rw [List.cons_append, List.splitOnP_cons, List.splitOnP_cons, ih]
    split_ifs
    · rfl
    · have := List.splitOnP_ne_nil p s
      cases hp : List.splitOnP p s with
      | nil => exact absurd hp this
      | cons q qs => rfl

/-- Leading and trailing separators do not matter for the words. -/
theorem parts_dropWhile {p q : Char → Bool} (h : ∀ c, q c = true → p c = true) (s : List Char) :
    ((s.dropWhile q).splitOnP p).filter (fun w => !w.isEmpty) = (s.splitOnP p).filter fun w => !w.isEmpty := by
  induction s with
  | nil => rfl
  | cons c s ih =>
    by_cases hq : q c = true
    · rw [List.dropWhile_cons_of_pos hq, ih, List.splitOnP_cons, if_pos (h c hq)]
      rfl
    · rw [List.dropWhile_cons_of_neg hq]

theorem parts_rdropWhile {p q : Char → Bool} (h : ∀ c, q c = true → p c = true) (s : List Char) :
    (((s.reverse.dropWhile q).reverse).splitOnP p).filter (fun w => !w.isEmpty) =
      (s.splitOnP p).filter fun w => !w.isEmpty := by
  induction s using List.reverseRecOn with
  | nil => rfl
  | append_singleton s c ih =>
    rw [List.reverse_append, List.reverse_singleton, List.singleton_append]
    by_cases hq : q c = true
    · rw [List.dropWhile_cons_of_pos hq, ih, splitOnP_concat s (h c hq), List.filter_append]
      simp
    · rw [List.dropWhile_cons_of_neg hq, List.reverse_cons, List.reverse_reverse]

theorem parts_strip {p : Char → Bool} (h : ∀ c, isSpace c = true → p c = true) (s : List Char) :
    ((strip s).splitOnP p).filter (fun w => !w.isEmpty) = (s.splitOnP p).filter fun w => !w.isEmpty := by
  unfold strip
  rw [parts_rdropWhile h, parts_dropWhile h]

theorem words_strip (s : List Char) : words (strip s) = words s := parts_strip (fun _ h => h) s

theorem namesIn_eq (s : List Char) :
    namesIn s = (s.splitOnP fun c => c == ',' || isSpace c).filter fun w => !w.isEmpty := by
  unfold namesIn
  apply List.filter_congr
  intro w _
  cases w <;> rfl

theorem namesIn_strip (s : List Char) : namesIn (strip s) = namesIn s := by
  rw [namesIn_eq, namesIn_eq, parts_strip]
  intro c hc
  rw [hc, Bool.or_true]

theorem names_parts (s : List Char) : ((splitAt1 ',' s).map strip).flatMap words = namesIn s := by
  rw [List.flatMap_map, namesIn_eq, ← splitAt1_flatMap, List.filter_flatMap]
  apply List.flatMap_congr
  intro p _
  exact words_strip p

/-- The names that `sym.symbols` finds. -/
theorem sympySymbols_names {ranges : List Char → Py Letters} {s : List Char} (hs : ∀ c ∈ s, c ≠ ':' ∧ c ≠ '\\')
    {l : Letters} (h : sympySymbols ranges s = .ok l) :
    l = if (strip s).getLast? ≠ some ',' ∧ (namesIn s).length = 1 then .one (String.ofList ((namesIn s).headD []))
      else .many ((namesIn s).map String.ofList) := by
  unfold sympySymbols at h
  rw [if_neg (by
    rw [List.any_eq_true]
    rintro ⟨c, hc, hh⟩
    obtain ⟨a, b⟩ := hs c hc
    simp [a, b] at hh)] at h
  dsimp only at h
  set t := if ((strip s).getLast? == some ',') = true then strip (strip s).dropLast else strip s with ht
  have hnames : namesIn t = namesIn s := by
    rw [ht]
    split_ifs with hl
    · rw [namesIn_strip]
      have hl' : (strip s).getLast? = some ',' := by simpa using hl
      have hne : strip s ≠ [] := by rintro e; rw [e] at hl'; cases hl'
      have e : strip s = (strip s).dropLast ++ [','] := by
        conv_lhs => rw [← List.dropLast_append_getLast hne]
        rw [List.getLast?_eq_some_getLast hne] at hl'
        rw [Option.some.inj hl']
      rw [← namesIn_strip s]
      conv_rhs => rw [e]
      rw [namesIn_eq, namesIn_eq, splitOnP_concat _ (by simp), List.filter_append]
      simp
    · exact namesIn_strip s
  split_ifs at h with h1 h2
  rw [names_parts, hnames] at h
  cases hq : (strip s).getLast? == some ',' with
  | true =>
    rw [hq] at h
    rw [if_neg (by
      rintro ⟨a, -⟩
      exact a (by simpa using hq))]
    cases hm : (namesIn s).map String.ofList with
    | nil => rw [hm] at h; cases h; rfl
    | cons a l' => rw [hm] at h; cases h; rfl
  | false =>
    rw [hq] at h
    have hq' : (strip s).getLast? ≠ some ',' := by simpa using hq
    rcases hm : namesIn s with _ | ⟨a, _ | ⟨b, l'⟩⟩
    · rw [hm] at h; cases h
      rw [if_neg (by rintro ⟨-, a⟩; simp at a)]; rfl
    · rw [hm] at h; cases h
      rw [if_pos ⟨hq', rfl⟩]; rfl
    · rw [hm] at h; cases h
      rw [if_neg (by rintro ⟨-, a⟩; simp at a)]; rfl

/-! ### Sums -/

theorem foldl_add {A : Type} [AddCommMonoid A] (n : Nat) (f : Nat → A) (s : A) :
    (List.range n).foldl (fun s i => s + f i) s = s + ∑ i ∈ Finset.range n, f i := by
  induction n with
  | zero => simp
  | succ n ih =>
    rw [List.range_succ, List.foldl_append, ih, Finset.sum_range_succ, List.foldl_cons, List.foldl_nil, add_assoc]

theorem foldl_add₂ {A : Type} [AddCommMonoid A] (n m : Nat) (f : Nat → Nat → A) (s : A) :
    (List.range n).foldl (fun s i => (List.range m).foldl (fun s j => s + f i j) s) s =
      s + ∑ i ∈ Finset.range n, ∑ j ∈ Finset.range m, f i j := by
  rw [← foldl_add n]
  congr 1
  funext s i
  exact foldl_add m _ s

theorem lineSum_eq [CommRing K] (var : Sym → K) (syms : List Sym) {a : Arr K} {n : Nat} (ha : a.shape = [n, n]) :
    lineSum var syms a = quadratic n (entry a) fun i => var ("d" ++ syms.getD i "") := by
  unfold lineSum
  rw [ha]
  show (List.range n).foldl (fun s i => (List.range n).foldl (fun s j => s + _) s) 0 = _
  rw [foldl_add₂, zero_add]
  rfl

theorem lineSumLatex_eq [CommRing K] {A : Type} [Ring A] [Algebra K A] (var : Sym → A) (syms : List Sym) {a : Arr K}
    {n : Nat} (ha : a.shape = [n, n]) (hn : syms.length = n) (hd : syms.Nodup)
    (hsym : ∀ i j, i < n → j < n → entry a i j = entry a j i) :
    lineSumLatex (algebraMap K A) var syms a =
      quadraticWritten n (entry a) (var "d") fun i => var (syms.getD i "") := by
  unfold lineSumLatex quadraticWritten
  rw [ha]
  set x : Nat → A := fun i => var (syms.getD i "")
  set t : Nat → Nat → A := fun i j => if i < j then entry a i j • (var "d" * x i * var "d" * x j) else 0 with ht
  have e : ∀ (s : A) i j, i < n → j < n →
      (if syms.getD (if i < j then i else j) "" = syms.getD (if i < j then j else i) "" then
        s + algebraMap K A (a.get [i, j]) * var "d" * var (syms.getD (if i < j then i else j) "") *
          var (syms.getD (if i < j then j else i) "")
      else s + algebraMap K A (a.get [i, j]) * var "d" * var (syms.getD (if i < j then i else j) "") * var "d" *
          var (syms.getD (if i < j then j else i) "")) =
      s + (t i j + (if i = j then entry a i i • (var "d" * x i ^ 2) else 0) + t j i) := by
    intro s i j hi hj
    rw [ht]
    dsimp only
    have hinj : ∀ i j, i < n → j < n → syms.getD i "" = syms.getD j "" → i = j := by
      intro i j hi hj h
      rw [List.getD_eq_getElem?_getD, List.getD_eq_getElem?_getD, List.getElem?_eq_getElem (by omega),
        List.getElem?_eq_getElem (by omega)] at h
      exact (List.Nodup.getElem_inj_iff hd).1 h
    rcases lt_trichotomy i j with h | h | h
    · rw [if_pos h, if_pos h, if_neg (fun e => h.ne (hinj i j hi hj e)), if_pos h, if_neg h.ne, if_neg (by omega)]
      simp only [add_zero, Algebra.smul_def, entry, mul_assoc, x]
    · subst h
      simp only [lt_irrefl, if_false, if_true, zero_add, add_zero, Algebra.smul_def, entry, mul_assoc, pow_two, x]
    · have h1 : ¬ i < j := by omega
      simp only [if_neg h1, if_pos h, if_neg (fun e => h.ne (hinj j i hj hi e) : ¬ syms.getD j "" = syms.getD i ""),
        if_neg (by omega : ¬ i = j)]
      rw [hsym j i hj hi]
      simp only [zero_add, Algebra.smul_def, entry, mul_assoc, x]
  have e2 : ((List.range n).foldl (fun s i => (List.range n).foldl (fun s j =>
      (if syms.getD (if i < j then i else j) "" = syms.getD (if i < j then j else i) "" then
        s + algebraMap K A (a.get [i, j]) * var "d" * var (syms.getD (if i < j then i else j) "") *
          var (syms.getD (if i < j then j else i) "")
      else s + algebraMap K A (a.get [i, j]) * var "d" * var (syms.getD (if i < j then i else j) "") * var "d" *
          var (syms.getD (if i < j then j else i) ""))) s) 0) =
      (List.range n).foldl (fun s i => (List.range n).foldl (fun s j =>
        s + (t i j + (if i = j then entry a i i • (var "d" * x i ^ 2) else 0) + t j i)) s) 0 := by
    apply List.foldl_ext
    intro s i hi
    apply List.foldl_ext
    intro s j hj
    exact e s i j (List.mem_range.1 hi) (List.mem_range.1 hj)
  refine e2.trans ?_
  rw [foldl_add₂, zero_add]
  simp only [Finset.sum_add_distrib]
  have hdiag : ∀ i ∈ Finset.range n, (∑ j ∈ Finset.range n, if i = j then entry a i i • (var "d" * x i ^ 2) else 0) =
      entry a i i • (var "d" * x i ^ 2) := by
    intro i hi
    rw [Finset.sum_ite_eq, if_pos hi]
  rw [Finset.sum_congr rfl hdiag, Finset.sum_comm (f := fun i j => t j i), add_comm (∑ i ∈ Finset.range n, _), add_assoc,
    ← Finset.sum_add_distrib]
  congr 1
  refine Finset.sum_congr rfl fun i _ => ?_
  rw [← Finset.sum_add_distrib]
  refine Finset.sum_congr rfl fun j _ => ?_
  rw [ht]
  dsimp only
  split_ifs
  · rw [two_mul, add_smul]
  · rw [add_zero]

end PyOGRe
