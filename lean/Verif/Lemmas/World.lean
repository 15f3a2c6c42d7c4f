import Verif.Model.Construct
import Verif.Lemmas.Transform

/-! Helper lemmas about dictionaries and session states. -/

namespace PyOGRe
variable {K : Type}

namespace Dict
variable {α β : Type} [DecidableEq α]

@[simp] theorem get?_nil (k : α) : get? ([] : Dict α β) k = none := rfl

theorem get?_cons (p : α × β) (d : Dict α β) (k : α) :
    get? (p :: d) k = if p.1 = k then some p.2 else get? d k := by
  unfold get?
  by_cases h : p.1 = k <;> simp [List.find?_cons, h]

theorem has_iff (d : Dict α β) (k : α) : has d k = true ↔ ∃ v, get? d k = some v := by
  induction d with
  | nil => simp [has]
  | cons p d ih =>
    rw [get?_cons]
    by_cases h : p.1 = k
    · simp [has, h]
    · simp only [has, List.any_cons, beq_iff_eq, h, Bool.or_eq_true, false_or, if_false]
      exact ih

theorem has_eq_false (d : Dict α β) (k : α) : has d k = false ↔ get? d k = none := by
  rw [← Bool.not_eq_true, has_iff]
  cases get? d k <;> simp

theorem get?_set (d : Dict α β) (k k' : α) (v : β) :
    get? (set d k v) k' = if k = k' then some v else get? d k' := by
  induction d with
  | nil => simp [set, get?_cons]
  | cons p d ih =>
    unfold set
    by_cases h : p.1 = k
    · rw [if_pos h, get?_cons, get?_cons]
      by_cases h' : k = k' <;> simp_all
    · rw [if_neg h, get?_cons, get?_cons, ih]
      by_cases h' : k = k'
      · subst h'; simp [h]
      · simp [h']

theorem get?_set_self (d : Dict α β) (k : α) (v : β) : get? (set d k v) k = some v := by
  simp [get?_set]

theorem get?_del (d : Dict α β) (k k' : α) :
    get? (del d k) k' = if k = k' then none else get? d k' := by
  induction d with
  | nil => simp [del]
  | cons p d ih =>
    unfold del at ih ⊢
    by_cases h : p.1 = k
    · rw [List.filter_cons_of_neg (by simp [h]), ih, get?_cons]
      by_cases h' : k = k' <;> simp_all
    · rw [List.filter_cons_of_pos (by simp [h]), get?_cons, ih, get?_cons]
      by_cases h' : k = k'
      · subst h'; simp [h]
      · simp [h']

theorem set_new (d : Dict α β) (k : α) (v : β) (h : get? d k = none) : set d k v = d ++ [(k, v)] := by
  induction d with
  | nil => rfl
  | cons p d ih =>
    rw [get?_cons] at h
    by_cases hp : p.1 = k
    · simp [hp] at h
    · rw [if_neg hp] at h
      rw [set, if_neg hp, ih h]; rfl

/-- Assigning never changes the first key, and changes the first entry only when it has that key. -/
theorem set_cons_head (p : α × β) (d : Dict α β) (k : α) (v : β) (h : p.1 ≠ k) :
    set (p :: d) k v = p :: set d k v := by
  rw [set, if_neg h]

end Dict

/-- `m`, started in a state with `P` and `R`, keeps `P` whatever happens, and `Q` holds if it returns. -/
def Keeps {α : Type} (P R : World K → Prop) (m : PyM K α) (Q : α → World K → Prop) : Prop :=
  ∀ w, P w → R w → P (m w).2 ∧ ∀ a, (m w).1 = .ok a → Q a (m w).2

theorem Keeps.bind {α β : Type} {P R : World K → Prop} {m : PyM K α} {f : α → PyM K β}
    {Q : α → World K → Prop} {S : β → World K → Prop} (hm : Keeps P R m Q)
    (hf : ∀ a, Keeps P (Q a) (f a) S) : Keeps P R (m >>= f) S := by
  intro w hP hR
  obtain ⟨h1, h2⟩ := hm w hP hR
  rw [PyM.bind_apply]
  rcases h : m w with ⟨r, w'⟩
  rw [h] at h1 h2
  cases r with
  | ok a => exact hf a w' h1 (h2 a rfl)
  | error e => exact ⟨h1, fun b hb => by simp at hb⟩

theorem Keeps.pure {α : Type} {P R : World K → Prop} {Q : α → World K → Prop} (a : α)
    (h : ∀ w, P w → R w → Q a w) : Keeps P R (Pure.pure a : PyM K α) Q := by
  intro w hP hR
  refine ⟨hP, ?_⟩
  rintro b hb
  cases hb
  exact h w hP hR

theorem Keeps.raise {α : Type} {P R : World K → Prop} {Q : α → World K → Prop} (e : PyErr) :
    Keeps P R (PyM.raise e : PyM K α) Q := by
  intro w hP _
  exact ⟨hP, fun b hb => by simp at hb⟩

theorem Keeps.lift {α : Type} {P R : World K → Prop} {Q : α → World K → Prop} (x : Py α)
    (h : ∀ a w, x = .ok a → P w → R w → Q a w) : Keeps P R (PyM.lift x : PyM K α) Q := by
  intro w hP hR
  exact ⟨hP, fun a ha => h a w ha hP hR⟩

theorem Keeps.weaken {α : Type} {P R R' : World K → Prop} {m : PyM K α} {Q Q' : α → World K → Prop}
    (h : Keeps P R m Q) (hR : ∀ w, P w → R' w → R w) (hQ : ∀ a w, P w → Q a w → Q' a w) :
    Keeps P R' m Q' := by
  intro w hP hR'
  obtain ⟨h1, h2⟩ := h w hP (hR w hP hR')
  exact ⟨h1, fun a ha => hQ a _ h1 (h2 a ha)⟩

theorem Keeps.ite {α : Type} {P R : World K → Prop} {Q : α → World K → Prop} {b : Prop} [Decidable b]
    {m m' : PyM K α} (h : b → Keeps P R m Q) (h' : ¬ b → Keeps P R m' Q) :
    Keeps P R (if b then m else m') Q := by
  split_ifs with hb
  · exact h hb
  · exact h' hb

/-- A consequence of the precondition that does not depend on the state. -/
theorem Keeps.fact {α : Type} {P R : World K → Prop} {m : PyM K α} {Q : α → World K → Prop} {φ : Prop}
    (h : ∀ w, P w → R w → φ) (k : φ → Keeps P R m Q) : Keeps P R m Q :=
  fun w hP hR => k (h w hP hR) w hP hR

theorem Keeps.onlyIf {P R : World K → Prop} {Q : World K → Prop} {b : Bool} {m : PyM K Unit}
    (h : b = true → Keeps P R m fun _ w => Q w) (h' : b = false → ∀ w, P w → R w → Q w) :
    Keeps P R (PyM.onlyIf b m) fun _ w => Q w := by
  unfold PyM.onlyIf
  exact Keeps.ite h fun hb => Keeps.pure _ (h' (by simpa using hb))

/-- Reading an object changes nothing and returns it. -/
theorem getObj_cases (i : Id') (w : World K) :
    (∃ o, w.objs[i]? = some o ∧ o.alive = true ∧ getObj i w = (.ok o, w)) ∨
      getObj i w = (.error .attributeError, w) := by
  unfold getObj
  cases h : w.objs[i]? with
  | none => right; rfl
  | some o =>
    by_cases ha : o.alive
    · left; exact ⟨o, rfl, ha, by simp [ha]⟩
    · right; simp [ha]

theorem getObj_ok {i : Id'} {w : World K} {o : Obj K} (h : w.objs[i]? = some o) (ha : o.alive = true) :
    getObj i w = (.ok o, w) := by
  unfold getObj; simp [h, ha]

theorem Keeps.getObj {P R : World K → Prop} (i : Id') :
    Keeps P R (PyOGRe.getObj i) fun o w => R w ∧ w.objs[i]? = some o ∧ o.alive = true := by
  intro w hP hR
  rcases getObj_cases i w with ⟨o, h1, h2, h3⟩ | h
  · rw [h3]
    refine ⟨hP, ?_⟩
    rintro a ⟨⟩
    exact ⟨hR, h1, h2⟩
  · rw [h]; exact ⟨hP, fun a ha => by simp at ha⟩

theorem Keeps.lookup {P R : World K → Prop} {α β : Type} [DecidableEq α] (d : Dict α β) (k : α) :
    Keeps P R (PyOGRe.lookup d k) fun v w => R w ∧ d.get? k = some v := by
  intro w hP hR
  unfold PyOGRe.lookup
  cases h : d.get? k with
  | none => exact ⟨hP, fun a ha => by simp at ha⟩
  | some v =>
    refine ⟨hP, ?_⟩
    rintro a ⟨⟩
    exact ⟨hR, rfl⟩

theorem lookup_ok {α β : Type} [DecidableEq α] {d : Dict α β} {k : α} {v : β} (h : d.get? k = some v) :
    (PyOGRe.lookup d k : PyM K β) = Pure.pure v := by
  unfold PyOGRe.lookup; rw [h]

theorem readComps_ok {self c : Id'} {ix : List Int} {w : World K} {o : Obj K} {d : Dict (List Int) (Arr K)}
    {a : Arr K} (h : w.objs[self]? = some o) (ha : o.alive = true) (hd : o.comps.get? c = some d)
    (hx : d.get? ix = some a) : readComps self c ix w = (.ok a, w) := by
  unfold readComps
  simp [getObj_ok h ha, lookup_ok hd, lookup_ok hx]

theorem Keeps.readComps {P R : World K → Prop} (self c : Id') (ix : List Int) :
    Keeps P R (PyOGRe.readComps self c ix) fun a w => R w ∧ ∃ o d, w.objs[self]? = some o ∧
      o.alive = true ∧ o.comps.get? c = some d ∧ d.get? ix = some a := by
  unfold PyOGRe.readComps
  refine Keeps.bind (Keeps.getObj self) fun o => ?_
  refine Keeps.bind (Keeps.lookup _ _) fun d => ?_
  refine Keeps.weaken (Keeps.lookup _ _) (fun w _ h => h) ?_
  rintro a w _ ⟨⟨⟨h1, h2, h3⟩, h4⟩, h5⟩
  exact ⟨h1, o, d, h2, h3, h4, h5⟩

theorem isArray_of_ne {o : Obj K} (h : o.indices ≠ []) (c : Id') : o.isArray c = true := by
  unfold Obj.isArray
  cases hx : o.indices with
  | nil => exact absurd hx h
  | cons _ _ => rfl

theorem isArray_only {o : Obj K} {c : Id'} {d : Dict (List Int) (Arr K)} (hd : o.comps.get? c = some d)
    (h : ∀ c', c' ≠ c → o.comps.get? c' = none) : o.isArray c = true := by
  unfold Obj.isArray
  cases hx : o.comps with
  | nil => rw [hx] at hd; cases hd
  | cons p r =>
    have hp : p.1 = c := by
      by_contra hne
      have := h p.1 hne
      rw [hx, Dict.get?_cons, if_pos rfl] at this
      cases this
    simp [hp]

theorem head_set {α β : Type} [DecidableEq α] {d : Dict α β} {c : α} (h : d.head?.map (·.1) = some c) (k : α) (v : β) :
    (d.set k v).head?.map (·.1) = some c := by
  cases d with
  | nil => cases h
  | cons p r =>
    unfold Dict.set
    split_ifs with hp
    · simpa [hp] using h
    · simpa using h

theorem isArray_head {o : Obj K} {c : Id'} (h : o.indices = [] → o.comps.head?.map (·.1) = some c) :
    o.isArray c = true := by
  by_cases hi : o.indices = []
  · have := h hi
    unfold Obj.isArray
    cases hx : o.comps.head? with
    | none => rw [hx] at this; cases this
    | some p =>
      rw [hx] at this
      simp only [Option.map_some, Option.some.injEq] at this
      simp [this]
  · exact isArray_of_ne hi c

theorem head_isArray {o : Obj K} {c : Id'} (h : o.isArray c = true) (hi : o.indices = []) :
    o.comps.head?.map (·.1) = some c := by
  unfold Obj.isArray at h
  rw [hi] at h
  cases hx : o.comps.head? with
  | none => rw [hx] at h; cases h
  | some p => rw [hx] at h; simpa using h

end PyOGRe
