import Verif.Spec.Entries
import Verif.Lemmas.Tidiness
import Verif.Lemmas.Validate

/-! Helper lemmas: what an import reads. -/

namespace PyOGRe
open Spec
variable {K : Type} [DecidableEq K]

mutual
theorem Val.eq_of_same : ∀ a b : Val K, a.same b = true → a = b
  | .num x, .num y, h => by simp only [Val.same, beq_iff_eq] at h; rw [h]
  | .str x, .str y, h => by simp only [Val.same, beq_iff_eq] at h; rw [h]
  | .eq x y, .eq x' y', h => by simp only [Val.same, Bool.and_eq_true, beq_iff_eq] at h; rw [h.1, h.2]
  | .list l, .list m, h => by rw [eq_of_sameEach l m (by simpa only [Val.same] using h)]
  | .num _, .str _, h | .num _, .eq .., h | .num _, .list _, h | .num _, .dict _, h | .num _, .table .., h
  | .str _, .num _, h | .str _, .eq .., h | .str _, .list _, h | .str _, .dict _, h | .str _, .table .., h
  | .eq .., .num _, h | .eq .., .str .., h | .eq .., .list _, h | .eq .., .dict _, h | .eq .., .table .., h
  | .list _, .num _, h | .list _, .str .., h | .list _, .eq .., h | .list _, .dict _, h | .list _, .table .., h
  | .dict _, .num _, h | .dict _, .str .., h | .dict _, .eq .., h | .dict _, .list _, h | .dict _, .dict _, h | .dict _, .table .., h
  | .table .., .num _, h | .table .., .str .., h | .table .., .eq .., h | .table .., .list _, h | .table .., .dict .., h
  | .table .., .table .., h => by simp [Val.same] at h
theorem eq_of_sameEach : ∀ l m : List (Val K), sameEach l m = true → l = m
  | [], [], _ => rfl
  | [], _ :: _, h => by simp [sameEach] at h
  | _ :: _, [], h => by simp [sameEach] at h
  | a :: l, b :: m, h => by
    simp only [sameEach, Bool.and_eq_true] at h
    rw [Val.eq_of_same a b h.1, eq_of_sameEach l m h.2]
end

theorem sameKey_str {x : Val K} {s : List Char} : x.sameKey (.str s) = true ↔ x = .str s := by
  cases x <;> simp [Val.sameKey]

theorem same_text {x : Val K} {s : List Char} : x.same (.str s) = true ↔ x = .str s := by
  cases x <;> simp [Val.same]

theorem under_of_item {v x : Val K} {key : String} (h : v.item key = .ok x) : Under v key x := by
  unfold Val.item at h
  split at h
  · rename_i d
    split at h
    · rename_i p hp
      cases h
      obtain ⟨h1, before, after, h2, h3⟩ := List.find?_eq_some_iff_append.1 hp
      refine ⟨before, after, ?_, fun q hq he => ?_⟩
      · rw [h2, ← sameKey_str.1 h1]
      · have := h3 q hq
        rw [sameKey_str.2 he] at this
        cases this
    · cases h
  · cases h

theorem item_of_under {v x : Val K} {key : String} (h : Under v key x) : v.item key = .ok x ∧ v.hasItem key = true := by
  obtain ⟨before, after, rfl, h2⟩ := h
  constructor
  · unfold Val.item
    dsimp only
    rw [List.find?_append, List.find?_eq_none.2 fun p hp hs => h2 p hp (sameKey_str.1 hs), Option.none_or,
      List.find?_cons_of_pos (p := fun p : Val K × Val K => p.1.sameKey (.str key.toList)) (sameKey_str.2 rfl)]
  · unfold Val.hasItem
    dsimp only
    rw [List.any_append, List.any_cons, sameKey_str.2 rfl]
    simp

theorem silent_of_not {v : Val K} {key : String} (h : Silent v key) : v.hasItem key = false := by
  cases hb : v.hasItem key with
  | false => rfl
  | true =>
    unfold Val.hasItem at hb
    split at hb
    · rename_i d
      obtain ⟨p, hp, hk⟩ := List.any_eq_true.1 hb
      cases hf : d.find? fun p => p.1.sameKey (.str key.toList) with
      | none => exact absurd hk (List.find?_eq_none.1 hf p hp)
      | some q => exact absurd (under_of_item (v := .dict d) (x := q.2) (by unfold Val.item; dsimp only; rw [hf])) (h _)
    · cases hb

theorem role_in_table {r : Option String} {k : Kind} (h : roleKind r = .ok k) :
    ∃ s, r = some s ∧ (s, k, defaultSymbol k) ∈ roleTable := by
  cases r with
  | none => cases h
  | some s =>
    refine ⟨s, rfl, ?_⟩
    unfold roleKind at h
    dsimp only at h
    split_ifs at h with h1 h2 h3 h4 h5 h6 h7 h8 <;> cases h
    · subst h1; decide
    · subst h2; decide
    · rcases h3 with rfl | rfl | rfl | rfl | rfl | rfl | rfl <;> decide
    · subst h4; decide
    · subst h5; decide
    · subst h6; decide
    · subst h7; decide
    · subst h8; decide

theorem string?_eq {v : Val K} {s : String} (h : v.string? = some s) : v = .str s.toList := by
  cases v <;> simp only [Val.string?, reduceCtorEq, Option.some.injEq] at h
  rw [← h, String.toList_ofList]

theorem named_first {w : World K} {r : Option String} {i : Id'} (h : (namedInstances w r).head? = some i) :
    ∃ s, r = some s ∧ FirstCalled w s i := by
  cases r with
  | none => cases h
  | some s =>
    refine ⟨s, rfl, ?_⟩
    unfold namedInstances at h
    dsimp only at h
    rw [List.head?_filter] at h
    obtain ⟨h1, before, after, h2, h3⟩ := List.find?_eq_some_iff_append.1 h
    have hn : ∀ j, ((w.objs[j]?).any (hasName s) = true ↔ Called w s j) := by
      intro j
      unfold Called hasName
      cases w.objs[j]? <;> simp
    refine ⟨before, after, h2, (hn i).1 h1, fun j hj hc => ?_⟩
    have := h3 j hj
    rw [(hn j).2 hc] at this
    cases this

theorem named_last {w : World K} {r : Option String} {i : Id'} (h : (namedInstances w r).getLast? = some i) :
    ∃ s, r = some s ∧ LastCalled w s i := by
  cases r with
  | none => cases h
  | some s =>
    refine ⟨s, rfl, ?_⟩
    unfold namedInstances at h
    dsimp only at h
    rw [List.getLast?_eq_head?_reverse, ← List.filter_reverse, List.head?_filter] at h
    obtain ⟨h1, before, after, h2, h3⟩ := List.find?_eq_some_iff_append.1 h
    have hn : ∀ j, ((w.objs[j]?).any (hasName s) = true ↔ Called w s j) := by
      intro j
      unfold Called hasName
      cases w.objs[j]? <;> simp
    refine ⟨after.reverse, before.reverse, ?_, (hn i).1 h1, fun j hj hc => ?_⟩
    · have := congrArg List.reverse h2
      simpa using this
    · have := h3 j (List.mem_reverse.1 hj)
      rw [(hn j).2 hc] at this
      cases this

omit [DecidableEq K] in
theorem stackArrs_ok {as : List (Arr K)} {a : Arr K} (h : stackArrs as = .ok a) :
    ∃ s, (∀ b ∈ as, b.shape = s) ∧ a = ⟨as.length :: s, as.flatMap Arr.data⟩ := by
  cases as with
  | nil => cases h; exact ⟨[], by simp, rfl⟩
  | cons b l =>
    unfold stackArrs at h
    dsimp only at h
    split_ifs at h with hl
    cases h
    refine ⟨b.shape, fun c hc => ?_, by simp⟩
    rcases List.mem_cons.1 hc with rfl | hc
    · rfl
    · simpa using List.all_eq_true.1 hl c hc

mutual
theorem tabulates_of_arrayOf : ∀ (v : Val K) (a : Arr K), arrayOf v = .ok a → Tabulates v a
  | .num x, a, h => by
    rw [arrayOf] at h
    cases h
    exact .num x
  | .list l, a, h => by
    rw [arrayOf] at h
    split at h
    · rename_i as has
      have h1 := tabulates_of_each l as has
      obtain ⟨s, hs, rfl⟩ := stackArrs_ok h
      rw [← h1.length_eq]
      exact .list l as s h1 hs
    · cases h
  | .str _, _, h => by rw [arrayOf] at h <;> simp at h ⊢
  | .dict _, _, h => by rw [arrayOf] at h <;> simp at h ⊢
  | .table .., _, h => by rw [arrayOf] at h <;> simp at h ⊢
  | .eq .., _, h => by rw [arrayOf] at h <;> simp at h ⊢
theorem tabulates_of_each : ∀ (l : List (Val K)) (as : List (Arr K)), arrayOfEach l = .ok as → List.Forall₂ Tabulates l as
  | [], as, h => by
    rw [arrayOfEach] at h
    cases h
    exact .nil
  | v :: l, as, h => by
    rw [arrayOfEach] at h
    split at h
    · rename_i a ha
      split at h
      · rename_i as' has
        cases h
        exact .cons (tabulates_of_arrayOf v a ha) (tabulates_of_each l as' has)
      · cases h
    · cases h
end

theorem tabulates_point {v : Val K} {a : Arr K} (h : Tabulates v a) (hs : a.shape = []) : a.data.length = 1 := by
  cases h with
  | num x => rfl
  | list l as s h hs' => cases hs

theorem tabulates_row {v : Val K} {a : Arr K} (h : Tabulates v a) {n : Nat} (hs : a.shape = [n]) : a.data.length = n := by
  cases h with
  | num x => cases hs
  | list l as s h hs' =>
    injection hs with h1 h2
    subst h1 h2
    have : ∀ (l : List (Val K)) (as : List (Arr K)), List.Forall₂ Tabulates l as → (∀ a ∈ as, a.shape = []) →
        (as.flatMap Arr.data).length = l.length := by
      intro l as h
      induction h with
      | nil => intro _; rfl
      | cons h1 _ ih =>
        intro h2
        rw [List.flatMap_cons, List.length_append, tabulates_point h1 (h2 _ (by simp)),
          ih fun a ha => h2 a (List.mem_cons_of_mem _ ha), List.length_cons, Nat.add_comm]
    exact this l as h hs'

theorem at_ok {v x : Val K} {i : Nat} (h : v.at i = .ok x) : ∃ l, v = .list l ∧ l[i]? = some x := by
  unfold Val.at at h
  split at h
  · rename_i l
    split at h
    · rename_i y hy
      cases h
      exact ⟨l, rfl, hy⟩
    · cases h
  · cases h

/-- What is found among the components. -/
theorem findComps_ok {ix c : Val K} : ∀ (ks vs : List (Val K)) (acc : Option (Arr K)) (a : Arr K),
    findComps ix c ks vs acc = .ok (some a) →
    (acc = some a ∧ (ix.same ix = true → c.same c = true → ∀ (k : Nat) rest, k < vs.length → ks[k]? ≠ some (.list (ix :: c :: rest)))) ∨
    ∃ (j : Nat) (rest l : List (Val K)), ks[j]? = some (.list (ix :: c :: rest)) ∧ vs[j]? = some (.list l) ∧
      (∀ (k : Nat) rest', j < k → k < vs.length → ks[k]? ≠ some (.list (ix :: c :: rest'))) ∧
      ((l.length > 1 ∧ Tabulates (.list l) a) ∨ ∃ x, l = [x] ∧ Tabulates x a)
  | [], vs, acc, a, h => by
    unfold findComps at h
    cases h
    exact Or.inl ⟨rfl, fun _ _ k rest _ hk => by simp at hk⟩
  | k0 :: ks, [], acc, a, h => by
    unfold findComps at h
    cases h
    exact Or.inl ⟨rfl, fun _ _ k rest hk => absurd hk (by simp)⟩
  | k0 :: ks, v0 :: vs, acc, a, h => by
    unfold findComps at h
    obtain ⟨c0, h0, hA⟩ := py_ok_of_bind h
    clear h
    obtain ⟨l0, rfl, hl0⟩ := at_ok h0
    have later : ∀ acc', findComps ix c ks vs acc' = .ok (some a) →
        (acc' = some a ∧ (ix.same ix = true → c.same c = true → ∀ (k : Nat) rest, k < vs.length → ks[k]? ≠ some (.list (ix :: c :: rest)))) ∨
        ∃ (j : Nat) (rest l : List (Val K)), (Val.list l0 :: ks)[j]? = some (.list (ix :: c :: rest)) ∧ (v0 :: vs)[j]? = some (.list l) ∧
          (∀ (k : Nat) rest', j < k → k < (v0 :: vs).length → (Val.list l0 :: ks)[k]? ≠ some (.list (ix :: c :: rest'))) ∧
          ((l.length > 1 ∧ Tabulates (.list l) a) ∨ ∃ x, l = [x] ∧ Tabulates x a) := by
      intro acc' ha
      rcases findComps_ok ks vs acc' a ha with h1 | ⟨j, rest, l, h1, h2, h3, h4⟩
      · exact Or.inl h1
      · refine Or.inr ⟨j + 1, rest, l, h1, h2, fun k rest' hj hk => ?_, h4⟩
        cases k with
        | zero => omega
        | succ k => exact h3 k rest' (by omega) (by simpa using hk)
    have skip : ¬ (c0.same ix = true ∧ ∃ x, l0[1]? = some x ∧ x.same c = true) → findComps ix c ks vs acc = .ok (some a) →
        (acc = some a ∧ (ix.same ix = true → c.same c = true → ∀ (k : Nat) rest, k < (v0 :: vs).length →
          (Val.list l0 :: ks)[k]? ≠ some (.list (ix :: c :: rest)))) ∨
        ∃ (j : Nat) (rest l : List (Val K)), (Val.list l0 :: ks)[j]? = some (.list (ix :: c :: rest)) ∧ (v0 :: vs)[j]? = some (.list l) ∧
          (∀ (k : Nat) rest', j < k → k < (v0 :: vs).length → (Val.list l0 :: ks)[k]? ≠ some (.list (ix :: c :: rest'))) ∧
          ((l.length > 1 ∧ Tabulates (.list l) a) ∨ ∃ x, l = [x] ∧ Tabulates x a) := by
      intro hno ha
      rcases later acc ha with ⟨h1, h2⟩ | h1
      · refine Or.inl ⟨h1, fun hi hc k rest hk he => ?_⟩
        cases k with
        | zero =>
          simp only [List.getElem?_cons_zero, Option.some.injEq, Val.list.injEq] at he
          subst he
          simp only [List.getElem?_cons_zero, Option.some.injEq] at hl0
          subst hl0
          exact hno ⟨hi, c, rfl, hc⟩
        | succ k => exact h2 hi hc k rest (by simpa using hk) he
      · exact Or.inr h1
    split_ifs at hA with hs
    · obtain ⟨c1, h1, hB⟩ := py_ok_of_bind hA
      clear hA
      obtain ⟨l1, e1, hl1⟩ := at_ok h1
      cases e1
      split_ifs at hB with hs1
      · have e0 := Val.eq_of_same _ _ hs
        have e1 := Val.eq_of_same _ _ hs1
        subst e0 e1
        obtain ⟨rest, rfl⟩ : ∃ rest, l0 = c0 :: c1 :: rest := by
          match l0, hl0, hl1 with
          | x :: y :: rest, hl0, hl1 =>
            simp only [List.getElem?_cons_zero, List.getElem?_cons_succ, Option.some.injEq] at hl0 hl1
            exact ⟨rest, by rw [hl0, hl1]⟩
        cases v0 with
        | list l =>
          dsimp only at hB
          split at hB
          · rename_i b hb
            have hb' : (l.length > 1 ∧ Tabulates (.list l) b) ∨ ∃ x, l = [x] ∧ Tabulates x b := by
              split_ifs at hb with hl
              · exact Or.inl ⟨hl, tabulates_of_arrayOf _ _ hb⟩
              · match l, hl, hb with
                | [x], _, hb => exact Or.inr ⟨x, rfl, tabulates_of_arrayOf _ _ hb⟩
                | _ :: _ :: _, hl, _ => simp at hl
            rcases later _ hB with ⟨h3, h4⟩ | h3
            · injection h3 with h3
              subst h3
              refine Or.inr ⟨0, rest, l, rfl, rfl, fun k rest' hk hk' => ?_, hb'⟩
              cases k with
              | zero => omega
              | succ k => exact h4 hs hs1 k rest' (by simpa using hk')
            · exact Or.inr h3
          · cases hB
        | _ => cases hB
      · refine skip ?_ hB
        rintro ⟨-, x, hx, hx'⟩
        rw [hl1] at hx
        cases hx
        exact hs1 hx'
    · exact skip (fun h' => hs h'.1) hA

end PyOGRe
