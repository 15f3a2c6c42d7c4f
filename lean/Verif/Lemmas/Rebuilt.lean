import Verif.Lemmas.Imported
import Mathlib.Data.List.Nodup
import Mathlib.Data.List.Perm.Basic

/-!
# Creating a list of objects one after the other
-/

namespace PyOGRe
open Spec

section
variable {K : Type} [DecidableEq K] [CommRing K]

omit [DecidableEq K] [CommRing K] in
/-- A loop whose rounds are known. -/
theorem forEach_steps {α : Type} {f : α → PyM K Unit} {L : List α} (W : List α → World K)
    (h : ∀ l a r, L = l ++ a :: r → f a (W l) = (.ok (), W (l ++ [a]))) : forEach f L (W []) = (.ok (), W L) := by
  have key : ∀ r l, L = l ++ r → forEach f r (W l) = (.ok (), W L) := by
    intro r
    induction r with
    | nil => intro l e; rw [forEach, e, List.append_nil]; rfl
    | cons a r ih =>
      intro l e
      rw [forEach, PyM.bind_apply, h l a r e]
      exact ih (l ++ [a]) (by simp [e])
  exact key L [] rfl

omit [DecidableEq K] [CommRing K] in
theorem mapEach_pure {α β : Type} {f : α → PyM K β} {g : α → β} {w : World K} : ∀ {l : List α},
    (∀ a ∈ l, f a w = (.ok (g a), w)) → mapEach f l w = (.ok (l.map g), w)
  | [], _ => rfl
  | a :: l, h => by
    rw [mapEach, PyM.bind_apply, h a (by simp)]
    dsimp only
    rw [PyM.bind_apply, mapEach_pure fun b hb => h b (List.mem_cons_of_mem _ hb)]
    rfl

/-- The session in which the objects `f i`, `i ∈ l`, have been created after those of `w0`, whose registry is
empty. -/
def rebuilt (w0 : World K) (f : Id' → Obj K) (l : List Id') : World K :=
  { objs := w0.objs ++ l.map f, instances := List.range' w0.objs.length l.length }

omit [DecidableEq K] [CommRing K] in
theorem rebuilt_obj (w0 : World K) (f : Id' → Obj K) {l : List Id'} {i : Id'} (hi : i ∈ l) :
    (rebuilt w0 f l).objs[w0.objs.length + l.idxOf i]? = some (f i) := by
  unfold rebuilt
  rw [List.getElem?_append_right (by omega), Nat.add_sub_cancel_left, List.getElem?_map, List.getElem?_idxOf hi]
  rfl

omit [DecidableEq K] [CommRing K] in
theorem rebuilt_add (w0 : World K) (f : Id' → Obj K) (l : List Id') (i : Id') :
    { objs := (rebuilt w0 f l).objs ++ [f i],
      instances := (rebuilt w0 f l).instances ++ [(rebuilt w0 f l).objs.length] } = rebuilt w0 f (l ++ [i]) := by
  unfold rebuilt
  simp [List.range'_concat]

theorem range'_idxOf (L : Nat) {l : List Id'} (hl : l.Nodup) :
    List.range' L l.length = l.map fun j => L + l.idxOf j := by
  refine List.ext_getElem (by simp) ?_
  intro i h1 h2
  have hi : i < l.length := by simpa using h1
  rw [List.getElem_range', List.getElem_map, hl.idxOf_getElem]
  omega

theorem filter_name {nm : Id' → String} {i : Id'} : ∀ {l : List Id'}, (l.map nm).Nodup → i ∈ l →
    l.filter (fun j => nm j == nm i) = [i]
  | [], _, hi => by cases hi
  | a :: l, h, hi => by
    rw [List.map_cons, List.nodup_cons] at h
    by_cases ha : nm a = nm i
    · have hai : a = i := by
        rcases List.mem_cons.1 hi with e | e
        · exact e.symm
        · exact absurd (ha ▸ List.mem_map_of_mem e) h.1
      subst hai
      rw [List.filter_cons_of_pos (by simp)]
      congr 1
      rw [List.filter_eq_nil_iff]
      intro b hb e
      have : nm b = nm a := by simpa using e
      exact h.1 (this ▸ List.mem_map_of_mem hb)
    · rw [List.filter_cons_of_neg (by simpa using ha)]
      refine filter_name h.2 ?_
      rcases List.mem_cons.1 hi with e | e
      · subst e; exact absurd rfl ha
      · exact e

omit [DecidableEq K] [CommRing K] in
theorem named_rebuilt {w0 : World K} {f : Id' → Obj K} {nm : Id' → String} {l : List Id'} (hn : (l.map nm).Nodup)
    (hf : ∀ i ∈ l, (f i).name = nm i) {i : Id'} (hi : i ∈ l) :
    namedInstances (rebuilt w0 f l) (some (nm i)) = [w0.objs.length + l.idxOf i] := by
  have e : (rebuilt w0 f l).instances = l.map fun j => w0.objs.length + l.idxOf j := range'_idxOf _ hn.of_map
  unfold namedInstances
  dsimp only
  rw [e, List.filter_map]
  have : l.filter ((fun j => ((rebuilt w0 f l).objs[j]?).any (hasName (nm i))) ∘
      fun j => w0.objs.length + l.idxOf j) = l.filter fun j => nm j == nm i := by
    refine List.filter_congr fun j hj => ?_
    simp only [Function.comp_apply]
    rw [rebuilt_obj w0 f hj]
    simp [hasName, hf j hj]
  rw [this, filter_name hn hi]
  rfl

omit [DecidableEq K] [CommRing K] in
theorem rebuilt_modify (w0 : World K) (f f' : Id' → Obj K) {l : List Id'} (hl : l.Nodup) {i : Id'} (hi : i ∈ l)
    {g : Obj K → Obj K} (h : f' i = g (f i)) (hne : ∀ j, j ≠ i → f' j = f j) :
    modifyObj (w0.objs.length + l.idxOf i) g (rebuilt w0 f l) = (.ok (), rebuilt w0 f' l) := by
  unfold modifyObj rebuilt
  congr 2
  refine List.ext_getElem? fun k => ?_
  rw [List.getElem?_modify]
  by_cases hk : k < w0.objs.length
  · rw [List.getElem?_append_left hk, List.getElem?_append_left hk]
    have : ¬ w0.objs.length + l.idxOf i = k := by omega
    simp [this]
  · rw [List.getElem?_append_right (by omega), List.getElem?_append_right (by omega), List.getElem?_map,
      List.getElem?_map]
    by_cases hki : w0.objs.length + l.idxOf i = k
    · simp only [hki, if_true]
      have : k - w0.objs.length = l.idxOf i := by omega
      rw [this, List.getElem?_idxOf hi]
      simp [h]
    · simp only [hki, if_false]
      cases hj : l[k - w0.objs.length]? with
      | none => rfl
      | some j =>
        have : j ≠ i := by
          rintro rfl
          apply hki
          obtain ⟨h1, h2⟩ := List.getElem?_eq_some_iff.1 hj
          have := hl.idxOf_getElem _ h1
          rw [h2] at this
          omega
        simp [hne j this]

end

end PyOGRe
