import Verif.Arr
import Verif.Spec.Arrays

/-! Helper lemmas about array positions and the sympy array operations. -/

namespace PyOGRe

theorem valid_nil {idx : List Nat} : Valid [] idx ↔ idx = [] := by
  unfold Valid; constructor
  · intro h; cases h; rfl
  · rintro rfl; exact .nil

theorem valid_cons {n : Nat} {s : List Nat} {i : Nat} {is : List Nat} :
    Valid (n :: s) (i :: is) ↔ i < n ∧ Valid s is := by
  unfold Valid; simp

theorem not_valid_cons_nil {n : Nat} {s : List Nat} : ¬ Valid (n :: s) [] := by
  unfold Valid; simp

theorem Valid.length_eq {s idx : List Nat} (h : Valid s idx) : idx.length = s.length :=
  List.Forall₂.length_eq h

theorem mem_allIdx {s idx : List Nat} : idx ∈ allIdx s ↔ Valid s idx := by
  induction s generalizing idx with
  | nil => simp [allIdx, valid_nil]
  | cons n s ih =>
    cases idx with
    | nil => simp [allIdx, not_valid_cons_nil]
    | cons i is => simp [allIdx, valid_cons, ih]

theorem length_allIdx (s : List Nat) : (allIdx s).length = s.prod := by
  induction s with
  | nil => rfl
  | cons n s ih => simp [allIdx, List.length_flatMap, ih]

theorem nodup_allIdx (s : List Nat) : (allIdx s).Nodup := by
  induction s with
  | nil => simp [allIdx]
  | cons n s ih =>
    rw [allIdx, List.nodup_flatMap]
    refine ⟨fun i _ => ih.map (fun a b h => (List.cons.inj h).2), ?_⟩
    refine List.nodup_range.imp ?_
    intro a b hab l h1 h2
    simp only [List.mem_map] at h1 h2
    obtain ⟨x, -, rfl⟩ := h1
    obtain ⟨y, -, hy⟩ := h2
    exact hab (List.cons.inj hy).1.symm

theorem getElem?_flatMap_uniform {α β : Type} (f : α → List β) (m : Nat) (l : List α)
    (hf : ∀ x ∈ l, (f x).length = m) (i j : Nat) (hj : j < m) :
    (l.flatMap f)[i * m + j]? = (l[i]?).bind fun x => (f x)[j]? := by
  induction l generalizing i with
  | nil => simp
  | cons x l ih =>
    have hx : (f x).length = m := hf x (by simp)
    cases i with
    | zero => simp [List.getElem?_append, hx, hj]
    | succ i =>
      have : ¬ ((i + 1) * m + j < m) := by
        rw [Nat.add_mul]; omega
      have e : (i + 1) * m + j - m = i * m + j := by rw [Nat.add_mul]; omega
      simp only [List.flatMap_cons, List.getElem?_append, hx, this, if_false, e,
        List.getElem?_cons_succ]
      exact ih (fun y hy => hf y (by simp [hy])) i

theorem ravel_lt {s idx : List Nat} (h : Valid s idx) : ravel s idx < s.prod := by
  induction s generalizing idx with
  | nil => rw [valid_nil] at h; subst h; simp [ravel]
  | cons n s ih =>
    cases idx with
    | nil => exact absurd h not_valid_cons_nil
    | cons i is =>
      rw [valid_cons] at h
      have := ih h.2
      simp only [ravel, List.prod_cons]
      calc i * s.prod + ravel s is < i * s.prod + s.prod := by omega
        _ = (i + 1) * s.prod := by ring
        _ ≤ n * s.prod := Nat.mul_le_mul_right _ h.1

theorem allIdx_ravel {s idx : List Nat} (h : Valid s idx) :
    (allIdx s)[ravel s idx]? = some idx := by
  induction s generalizing idx with
  | nil => rw [valid_nil] at h; subst h; simp [ravel, allIdx]
  | cons n s ih =>
    cases idx with
    | nil => exact absurd h not_valid_cons_nil
    | cons i is =>
      rw [valid_cons] at h
      rw [allIdx, ravel, getElem?_flatMap_uniform _ s.prod _ (by simp [length_allIdx]) _ _ (ravel_lt h.2)]
      simp [h.1, ih h.2]

namespace Arr

variable {K : Type}

theorem wf_ofFn (s : List Nat) (f : List Nat → K) : (ofFn s f).WF := by
  simp [WF, ofFn, length_allIdx]

@[simp] theorem shape_ofFn (s : List Nat) (f : List Nat → K) : (ofFn s f).shape = s := rfl

theorem get_ofFn [Zero K] {s : List Nat} {f : List Nat → K} {idx : List Nat} (h : Valid s idx) :
    (ofFn s f).get idx = f idx := by
  simp [get, ofFn, List.getD_eq_getElem?_getD, allIdx_ravel h]

theorem ext_get [Zero K] {a b : Arr K} (ha : a.WF) (hb : b.WF) (hs : a.shape = b.shape)
    (h : ∀ idx, Valid a.shape idx → a.get idx = b.get idx) : a = b := by
  obtain ⟨s, da⟩ := a
  obtain ⟨s', db⟩ := b
  simp only at hs; subst hs
  congr 1
  simp only [WF] at ha hb
  apply List.ext_getElem (by rw [ha, hb])
  intro i h1 h2
  have hi : i < (allIdx s).length := by rw [length_allIdx]; omega
  -- position of i
  have hv : Valid s (allIdx s)[i] := mem_allIdx.1 (List.getElem_mem _)
  have hr : ravel s (allIdx s)[i] = i := by
    have h3 := allIdx_ravel hv
    have h4 : ravel s (allIdx s)[i] < (allIdx s).length := by
      rw [length_allIdx]; exact ravel_lt hv
    rw [List.getElem?_eq_getElem h4] at h3
    exact (List.Nodup.getElem_inj_iff (nodup_allIdx s)).1 (Option.some.inj h3)
  have := h _ hv
  simpa [get, hr, List.getD_eq_getElem?_getD, h1, h2] using this

theorem eq_ofFn [Zero K] {a : Arr K} (ha : a.WF) : a = ofFn a.shape a.get :=
  ext_get ha (wf_ofFn _ _) rfl fun _ h => (get_ofFn h).symm

theorem ofFn_congr [Zero K] {s : List Nat} {f g : List Nat → K}
    (h : ∀ idx, Valid s idx → f idx = g idx) : ofFn s f = ofFn s g := by
  unfold ofFn
  congr 1
  exact List.map_congr_left fun idx hi => h idx (mem_allIdx.1 hi)

end Arr

theorem valid_append {s t i j : List Nat} (h : i.length = s.length) :
    Valid (s ++ t) (i ++ j) ↔ Valid s i ∧ Valid t j := by
  induction s generalizing i with
  | nil => cases i with
    | nil => simp [valid_nil]
    | cons _ _ => simp at h
  | cons n s ih =>
    cases i with
    | nil => simp at h
    | cons a i =>
      simp only [List.length_cons, Nat.add_right_cancel_iff] at h
      simp [valid_cons, ih h, and_assoc]

theorem valid_append_split {s t idx : List Nat} (h : Valid (s ++ t) idx) :
    Valid s (idx.take s.length) ∧ Valid t (idx.drop s.length) := by
  have hl := h.length_eq
  rw [List.length_append] at hl
  rw [← List.take_append_drop s.length idx] at h
  exact (valid_append (by simp; omega)).1 h

theorem valid_replicate {r n : Nat} {idx : List Nat} :
    Valid (List.replicate r n) idx ↔ idx.length = r ∧ ∀ x ∈ idx, x < n := by
  induction r generalizing idx with
  | zero =>
    simp only [List.replicate_zero, valid_nil, List.length_eq_zero_iff]
    constructor
    · rintro rfl; simp
    · exact fun h => h.1
  | succ r ih =>
    cases idx with
    | nil => simp [List.replicate_succ, not_valid_cons_nil]
    | cons i is =>
      simp only [List.replicate_succ, valid_cons, ih, List.length_cons, List.mem_cons,
        forall_eq_or_imp, Nat.add_right_cancel_iff]
      tauto

theorem Valid.lt_getD {s idx : List Nat} (h : Valid s idx) {k : Nat} (hk : k < s.length) :
    idx.getD k 0 < s.getD k 0 := by
  induction s generalizing idx k with
  | nil => simp at hk
  | cons n s ih =>
    cases idx with
    | nil => exact absurd h not_valid_cons_nil
    | cons i is =>
      rw [valid_cons] at h
      cases k with
      | zero => simpa using h.1
      | succ k => simpa using ih h.2 (by simpa using hk)

theorem valid_of_getD {s idx : List Nat} (hl : idx.length = s.length)
    (h : ∀ k, k < s.length → idx.getD k 0 < s.getD k 0) : Valid s idx := by
  induction s generalizing idx with
  | nil => rw [valid_nil]; simpa using hl
  | cons n s ih =>
    cases idx with
    | nil => simp at hl
    | cons i is =>
      rw [valid_cons]
      refine ⟨by simpa using h 0 (by simp), ih (by simpa using hl) fun k hk => ?_⟩
      simpa using h (k + 1) (by simpa using hk)

namespace Arr
variable {K : Type}

theorem get_tensorproduct [Zero K] [Mul K] {a b : Arr K} {i j : List Nat}
    (hi : Valid a.shape i) (hj : Valid b.shape j) :
    (tensorproduct a b).get (i ++ j) = a.get i * b.get j := by
  have hl := hi.length_eq
  rw [tensorproduct, get_ofFn ((valid_append hl).2 ⟨hi, hj⟩)]
  simp [rank, ← hl]

@[simp] theorem shape_map [Zero K] (f : K → K) (a : Arr K) : (a.map f).shape = a.shape := rfl

theorem wf_map [Zero K] (f : K → K) (a : Arr K) : (a.map f).WF := wf_ofFn _ _

theorem get_map [Zero K] {f : K → K} {a : Arr K} {idx : List Nat} (h : Valid a.shape idx) :
    (a.map f).get idx = f (a.get idx) := get_ofFn h

/-- Overwriting the chosen entries. -/
theorem length_setAll {α : Type} (l : List α) (ps : List (Nat × α)) :
    (setAll l ps).length = l.length := by
  induction ps generalizing l with
  | nil => rfl
  | cons p ps ih => simp only [setAll, List.foldl_cons] at ih ⊢; rw [ih]; simp

theorem setAll_cons {α : Type} (l : List α) (p : Nat × α) (ps : List (Nat × α)) :
    setAll l (p :: ps) = setAll (l.set p.1 p.2) ps := rfl

theorem setAll_append {α : Type} (l : List α) (ps qs : List (Nat × α)) :
    setAll l (ps ++ qs) = setAll (setAll l ps) qs := by
  simp [setAll, List.foldl_append]

theorem getElem?_setAll_of_notMem {α : Type} (l : List α) (ps : List (Nat × α)) (k : Nat)
    (h : k ∉ ps.map (·.1)) : (setAll l ps)[k]? = l[k]? := by
  induction ps generalizing l with
  | nil => rfl
  | cons p ps ih =>
    simp only [List.map_cons, List.mem_cons, not_or] at h
    rw [setAll_cons, ih _ h.2, List.getElem?_set_ne (Ne.symm h.1)]

theorem getElem?_setAll_of_mem {α : Type} (l : List α) (ps : List (Nat × α)) (k : Nat) (v : α)
    (hnd : (ps.map (·.1)).Nodup) (h : (k, v) ∈ ps) (hk : k < l.length) :
    (setAll l ps)[k]? = some v := by
  induction ps generalizing l with
  | nil => simp at h
  | cons p ps ih =>
    simp only [List.map_cons, List.nodup_cons] at hnd
    rw [setAll_cons]
    rcases List.mem_cons.1 h with rfl | h
    · rw [getElem?_setAll_of_notMem _ _ _ hnd.1]
      simp [hk]
    · exact ih _ hnd.2 h (by simpa using hk)

/-- `fill` after taking the free part overwrites the fixed entries. -/
theorem fill_freePart (sel : List (Option Nat)) (I : List Nat) (h : sel.length = I.length) :
    fill sel (freePart sel I) = List.zipWith (fun o i => o.getD i) sel I := by
  induction sel generalizing I with
  | nil => cases I <;> simp [fill]
  | cons o sel ih =>
    cases I with
    | nil => simp at h
    | cons i I =>
      simp only [List.length_cons, Nat.add_right_cancel_iff] at h
      cases o with
      | none => simp [freePart, fill, ih I h]
      | some k => simp [freePart, fill, ih I h]

theorem zipWith_set_some (sel : List (Option Nat)) (I : List Nat) (h : sel.length = I.length)
    (k v : Nat) :
    List.zipWith (fun o i => o.getD i) (sel.set k (some v)) I =
      (List.zipWith (fun o i => o.getD i) sel I).set k v := by
  induction sel generalizing I k with
  | nil => simp
  | cons o sel ih =>
    cases I with
    | nil => simp at h
    | cons i I =>
      simp only [List.length_cons, Nat.add_right_cancel_iff] at h
      cases k with
      | zero => simp
      | succ k => simp [ih I h k]

theorem zipWith_setAll_some (sel : List (Option Nat)) (I : List Nat) (h : sel.length = I.length)
    (ps : List (Nat × Nat)) :
    List.zipWith (fun o i => o.getD i) (setAll sel (ps.map fun p => (p.1, some p.2))) I =
      setAll (List.zipWith (fun o i => o.getD i) sel I) ps := by
  induction ps generalizing sel with
  | nil => rfl
  | cons p ps ih =>
    rw [List.map_cons, setAll_cons, setAll_cons, ih _ (by simpa using h),
      zipWith_set_some _ _ h]

theorem zipWith_replicate_none (I : List Nat) :
    List.zipWith (fun (o : Option Nat) i => o.getD i) (List.replicate I.length none) I = I := by
  induction I with
  | nil => rfl
  | cons i I ih => simp [List.replicate_succ, ih]

/-- Key fact: filling the slice built from the chosen axes is overwriting these axes. -/
theorem fill_setAll (I : List Nat) (ps : List (Nat × Nat)) :
    fill (setAll (List.replicate I.length none) (ps.map fun p => (p.1, some p.2)))
      (freePart (setAll (List.replicate I.length none) (ps.map fun p => (p.1, some p.2))) I) =
      setAll I ps := by
  rw [fill_freePart _ _ (by simp [length_setAll]),
    zipWith_setAll_some _ _ (by simp), zipWith_replicate_none]

/-- The free part only depends on which entries are fixed. -/
theorem freePart_congr {α : Type} (sel sel' : List (Option Nat)) (xs : List α)
    (h : sel.map Option.isNone = sel'.map Option.isNone) : freePart sel xs = freePart sel' xs := by
  induction sel generalizing sel' xs with
  | nil => cases sel' with
    | nil => rfl
    | cons _ _ => simp at h
  | cons o sel ih =>
    cases sel' with
    | nil => simp at h
    | cons o' sel' =>
      simp only [List.map_cons, List.cons.injEq] at h
      cases xs with
      | nil => cases o <;> cases o' <;> simp [freePart]
      | cons x xs =>
        have := ih sel' xs h.2
        cases o <;> cases o' <;> simp [freePart, this] at h ⊢

theorem map_isNone_set_some (sel : List (Option Nat)) (k v : Nat) :
    (sel.set k (some v)).map Option.isNone = (sel.map Option.isNone).set k false := by
  simp [List.map_set]

theorem map_isNone_setAll (sel : List (Option Nat)) (ps : List (Nat × Nat)) :
    (setAll sel (ps.map fun p => (p.1, some p.2))).map Option.isNone =
      (ps.map (·.1)).foldl (fun l k => l.set k false) (sel.map Option.isNone) := by
  induction ps generalizing sel with
  | nil => rfl
  | cons p ps ih =>
    rw [List.map_cons, setAll_cons, ih, map_isNone_set_some]; rfl

end Arr

open Spec

namespace Arr
variable {K : Type}

theorem getElem?_foldl_set_false (l : List Bool) (axes : List Nat) (k : Nat) :
    (axes.foldl (fun l k => l.set k false) l)[k]? =
      if k ∈ axes then l[k]?.map (fun _ => false) else l[k]? := by
  induction axes generalizing l with
  | nil => simp
  | cons a axes ih =>
    rw [List.foldl_cons, ih]
    by_cases h1 : k ∈ axes
    · simp only [h1, if_true, List.mem_cons, or_true]
      rw [List.getElem?_set]
      split
      · subst_vars
        by_cases h : a < l.length
        · simp [h]
        · simp [h]
      · rfl
    · by_cases h2 : k = a
      · subst h2
        simp only [h1, if_false, List.mem_cons, true_or, if_true]
        by_cases h : k < l.length
        · simp [h]
        · simp [h]
      · simp [h1, h2, List.getElem?_set_ne (Ne.symm h2)]

theorem freePart_eq_filter {α : Type} (sel : List (Option Nat)) (xs : List α)
    (h : sel.length = xs.length) (axes : List Nat) (n : Nat)
    (hs : ∀ k, k < sel.length → (sel[k]? = some none ↔ n + k ∉ axes)) :
    freePart sel xs = ((xs.zipIdx n).filter fun p => decide (p.2 ∉ axes)).map (·.1) := by
  induction sel generalizing xs n with
  | nil => cases xs with
    | nil => rfl
    | cons _ _ => simp at h
  | cons o sel ih =>
    cases xs with
    | nil => simp at h
    | cons x xs =>
      simp only [List.length_cons, Nat.add_right_cancel_iff] at h
      have h0 := hs 0 (by simp)
      have ih' := ih xs h (n + 1) (fun k hk => by
        have := hs (k + 1) (by simpa using hk)
        simp only [List.getElem?_cons_succ] at this
        rw [this, Nat.add_assoc, Nat.add_comm 1 k])
      cases o with
      | none =>
        have : n ∉ axes := by simpa using h0
        simp [freePart, ih', this]
      | some v =>
        have : n ∈ axes := by simpa using h0
        simp [freePart, ih', this]

theorem freePart_setAll {α : Type} (ps : List (Nat × Nat)) (xs : List α) :
    freePart (setAll (List.replicate xs.length none) (ps.map fun p => (p.1, some p.2))) xs =
      dropAxes (ps.map (·.1)) xs := by
  apply freePart_eq_filter _ _ (by simp [length_setAll])
  intro k hk
  rw [length_setAll, List.length_replicate] at hk
  have h1 := getElem?_foldl_set_false ((List.replicate xs.length (none : Option Nat)).map Option.isNone)
    (ps.map (·.1)) k
  rw [← map_isNone_setAll] at h1
  simp only [List.getElem?_map, List.getElem?_replicate, hk, if_true, Option.map_some,
    Option.isNone_none] at h1
  rw [Nat.zero_add]
  by_cases hm : k ∈ ps.map (·.1)
  · simp only [hm, if_true, Option.map_eq_some_iff] at h1
    obtain ⟨o, ho, h2⟩ := h1
    simp only [hm, not_true_eq_false, iff_false]
    rw [ho]; rintro ⟨⟩; simp at h2
  · simp only [hm, if_false, Option.map_eq_some_iff] at h1
    obtain ⟨o, ho, h2⟩ := h1
    simp only [hm, not_false_eq_true, iff_true]
    rw [ho]; cases o with
    | none => rfl
    | some _ => simp at h2

theorem setAll_zip (I axes s : List Nat) (hnd : axes.Nodup) (hl : s.length = axes.length) :
    setAll I (axes.zip s) = withAxes I axes s := by
  apply List.ext_getElem?
  intro k
  have hfst : (axes.zip s).map (·.1) = axes := by
    rw [List.map_fst_zip (by omega)]
  simp only [withAxes, List.getElem?_map, List.getElem?_zipIdx, Nat.zero_add]
  by_cases hk : k < I.length
  · by_cases hm : k ∈ axes
    · have hi : axes.idxOf k < axes.length := List.idxOf_lt_length_iff.2 hm
      have hp : (k, s[axes.idxOf k]'(by omega)) ∈ axes.zip s := by
        rw [List.mem_iff_getElem]
        refine ⟨axes.idxOf k, by simp; omega, ?_⟩
        simp
      rw [getElem?_setAll_of_mem _ _ k _ (by rw [hfst]; exact hnd) hp hk]
      have h2 : axes.idxOf k < s.length := by omega
      simp [hk, hm, h2]
    · rw [getElem?_setAll_of_notMem _ _ _ (by rw [hfst]; exact hm)]
      simp [hk, hm]
  · have : ¬ k < (setAll I (axes.zip s)).length := by rw [length_setAll]; exact hk
    simp [List.getElem?_eq_none, hk, this, Nat.le_of_not_lt hk, Nat.le_of_not_lt this]

end Arr

theorem tuples_eq_allIdx (n k : Nat) : tuples n k = allIdx (List.replicate k n) := by
  induction k with
  | zero => rfl
  | succ k ih => simp [tuples, allIdx, List.replicate_succ, ih]

theorem mem_tuples {n k : Nat} {s : List Nat} : s ∈ tuples n k ↔ s.length = k ∧ ∀ x ∈ s, x < n := by
  rw [tuples_eq_allIdx, mem_allIdx, valid_replicate]

theorem length_withAxes (I axes s : List Nat) : (withAxes I axes s).length = I.length := by
  simp [withAxes]

end PyOGRe
