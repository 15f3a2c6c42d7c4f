import Verif.Spec.Registry
import Verif.Lemmas.Scene

/-! Helper lemmas: what happens to registered objects. -/

namespace PyOGRe
open Spec
variable {K : Type} {w w' w'' : World K}

theorem modify_ne {α : Type} {l : List α} {i j : Nat} (h : i ≠ j) (u : α → α) : (l.modify i u)[j]? = l[j]? := by
  rw [List.getElem?_modify]
  simp [h]

theorem modify_same {α : Type} {l : List α} {i : Nat} {a : α} (h : l[i]? = some a) (u : α → α) :
    (l.modify i u)[i]? = some (u a) := by
  rw [List.getElem?_modify, h]
  simp

/-- Nothing happens to the first `n` objects, apart from those called `TEMP`. -/
def Spares (n : Nat) (w w' : World K) : Prop :=
  w.objs.length ≤ w'.objs.length ∧ ∀ i < n, ∀ o, w.objs[i]? = some o → ∃ o', w'.objs[i]? = some o' ∧
    o'.name = o.name ∧ (o.name ≠ "TEMP" → o'.core = o.core ∧ (i ∈ w'.instances ↔ i ∈ w.instances))

theorem Spares.refl (n : Nat) (w : World K) : Spares n w w :=
  ⟨le_refl _, fun _ _ o h => ⟨o, h, rfl, fun _ => ⟨rfl, Iff.rfl⟩⟩⟩

theorem Spares.trans {n : Nat} (h : Spares n w w') (h' : Spares n w' w'') : Spares n w w'' := by
  refine ⟨le_trans h.1 h'.1, fun i hi o ho => ?_⟩
  obtain ⟨o', e1, e2, e3⟩ := h.2 i hi o ho
  obtain ⟨o'', f1, f2, f3⟩ := h'.2 i hi o' e1
  refine ⟨o'', f1, f2.trans e2, fun hn => ?_⟩
  have e := e3 hn
  have f := f3 (by rw [e2]; exact hn)
  exact ⟨f.1.trans e.1, f.2.trans e.2⟩

theorem Spares.frame (n : Nat) (h : Frame w w') : Spares n w w' := by
  refine ⟨le_of_eq ?_, fun i _ o ho => ?_⟩
  · have := congrArg List.length h.1
    simpa using this.symm
  · obtain ⟨o', e1, e2⟩ := h.get ho
    exact ⟨o', e1, congrArg (·.2.1) e2, fun _ => ⟨e2, by rw [h.2]⟩⟩

theorem sound_frame (hs : Sound w) (h : Frame w w') : Sound w' := by
  refine ⟨by rw [h.2]; exact hs.nodup, fun i hi => ?_⟩
  rw [h.2] at hi
  obtain ⟨o, h1, h2⟩ := hs.inUse i hi
  obtain ⟨o', e1, e2⟩ := h.get h1
  exact ⟨o', e1, by rw [show o'.alive = o.alive from congrArg (·.2.2.2.2.2.2.2.2) e2]; exact h2⟩

/-- A computation that spares the first `n` objects and keeps the registry sound; if it returns, then `Q`. -/
def Sp (n : Nat) {α : Type} (m : PyM K α) (Q : α → Prop) : Prop :=
  ∀ w, n ≤ w.objs.length → Spares n w (m w).2 ∧ (Sound w → Sound (m w).2) ∧ ∀ a, (m w).1 = .ok a → Q a

section
variable {n : Nat} {α β : Type}

theorem Sp.bind {m : PyM K α} {f : α → PyM K β} {P : α → Prop} {Q : β → Prop} (hm : Sp n m P)
    (hf : ∀ a, P a → Sp n (f a) Q) : Sp n (m >>= f) Q := by
  intro w hw
  obtain ⟨h1, h2, h3⟩ := hm w hw
  rw [PyM.bind_apply]
  rcases h : m w with ⟨r, w'⟩
  rw [h] at h1 h2 h3
  cases r with
  | ok a =>
    obtain ⟨k1, k2, k3⟩ := hf a (h3 a rfl) w' (le_trans hw h1.1)
    exact ⟨h1.trans k1, fun hs => k2 (h2 hs), k3⟩
  | error e => exact ⟨h1, h2, fun a h => nomatch h⟩

theorem Sp.mono {m : PyM K α} {P Q : α → Prop} (hm : Sp n m P) (h : ∀ a, P a → Q a) : Sp n m Q := fun w hw => by
  obtain ⟨h1, h2, h3⟩ := hm w hw
  exact ⟨h1, h2, fun a ha => h a (h3 a ha)⟩

theorem Sp.pure {a : α} {Q : α → Prop} (h : Q a) : Sp n (Pure.pure a : PyM K α) Q :=
  fun w _ => ⟨Spares.refl n w, id, fun b hb => by cases hb; exact h⟩
theorem Sp.done (a : α) : Sp n (Pure.pure a : PyM K α) fun _ => True := Sp.pure trivial
theorem Sp.raise {e : PyErr} {Q : α → Prop} : Sp n (PyM.raise e : PyM K α) Q :=
  fun w _ => ⟨Spares.refl n w, id, fun b hb => nomatch hb⟩
theorem Sp.lift (x : Py α) : Sp n (PyM.lift x : PyM K α) fun _ => True :=
  fun w _ => ⟨Spares.refl n w, id, fun _ _ => trivial⟩
theorem Sp.steady {m : PyM K α} (h : Steady m) : Sp n m fun _ => True :=
  fun w _ => ⟨Spares.frame n (h w), fun hs => sound_frame hs (h w), fun _ _ => trivial⟩
theorem Sp.ite {b : Prop} [Decidable b] {m m' : PyM K α} {Q : α → Prop} (h : Sp n m Q) (h' : Sp n m' Q) :
    Sp n (if b then m else m') Q := by split_ifs <;> assumption
theorem Sp.onlyIf {b : Bool} {m : PyM K Unit} (h : Sp n m fun _ => True) : Sp n (PyM.onlyIf b m) fun _ => True :=
  Sp.ite h (Sp.done ())
theorem Sp.getObj (i : Id') : Sp n (K := K) (PyOGRe.getObj i) fun _ => True := Sp.steady (Steady.getObj i)
theorem Sp.world : Sp n (K := K) PyM.world fun _ => True := fun w _ => ⟨Spares.refl n w, id, fun _ _ => trivial⟩

/-- Changes of an object after the first `n`. -/
theorem Sp.modify {i : Id'} (hi : n ≤ i) {u : Obj K → Obj K} (h : ∀ o, (u o).alive = o.alive) :
    Sp n (modifyObj i u) fun _ => True := by
  intro w _
  refine ⟨⟨by simp [modifyObj], fun j hj o ho => ?_⟩, fun hs => ⟨hs.nodup, fun j hj => ?_⟩, fun _ _ => trivial⟩
  · refine ⟨o, ?_, rfl, fun _ => ⟨rfl, Iff.rfl⟩⟩
    show (w.objs.modify i u)[j]? = _
    rw [modify_ne (by omega), ho]
  · obtain ⟨o, h1, h2⟩ := hs.inUse j hj
    by_cases hij : i = j
    · subst hij
      exact ⟨u o, modify_same h1 u, by rw [h]; exact h2⟩
    · refine ⟨o, ?_, h2⟩
      show (w.objs.modify i u)[j]? = _
      rw [modify_ne hij, h1]

theorem sound_lt (hs : Sound w) {i : Id'} (hi : i ∈ w.instances) : i < w.objs.length := by
  obtain ⟨o, h, -⟩ := hs.inUse i hi
  exact lt_of_getElem? h

theorem sound_append (hs : Sound w) {o : Obj K} (ho : o.alive = true) :
    Sound { objs := w.objs ++ [o], instances := w.instances ++ [w.objs.length] } := by
  refine ⟨?_, fun i hi => ?_⟩
  · show (w.instances ++ [w.objs.length]).Nodup
    rw [List.nodup_append]
    refine ⟨hs.nodup, by simp, fun i hi j hj => ?_⟩
    rw [List.mem_singleton] at hj
    have := sound_lt hs hi
    rintro rfl
    exact absurd this (by rw [hj]; exact lt_irrefl _)
  · rcases List.mem_append.1 hi with hi | hi
    · obtain ⟨oi, h1, h2⟩ := hs.inUse i hi
      exact ⟨oi, getElem?_append_old h1, h2⟩
    · rw [List.mem_singleton.1 hi]
      exact ⟨o, getElem?_append_length _ _, ho⟩

theorem Sp.register {f : Id' → Obj K} (h : ∀ i, (f i).alive = true) : Sp n (register f) fun i => n ≤ i := by
  intro w hw
  refine ⟨⟨by simp [PyOGRe.register], fun i hi o ho => ?_⟩, fun hs => sound_append hs (h _), fun a ha => ?_⟩
  · refine ⟨o, getElem?_append_old ho, rfl, fun _ => ⟨rfl, ?_⟩⟩
    show i ∈ w.instances ++ [w.objs.length] ↔ _
    rw [List.mem_append, List.mem_singleton]
    exact ⟨fun h => h.resolve_right fun h => by omega, Or.inl⟩
  · cases ha; exact hw

theorem Sp.isCoordinates (c : Id') : Sp n (K := K) (PyOGRe.isCoordinates c) fun _ => True := Sp.steady fun w => Frame.refl w
theorem Sp.isMetric (c : Id') : Sp n (K := K) (PyOGRe.isMetric c) fun _ => True := Sp.steady fun w => Frame.refl w

theorem Sp.newTensor (kind : Kind) (name : Arg String) (comps : Arg (Arr K)) (m c : Id') (ix : IndicesArg)
    (symbol : Arg String) : Sp n (newTensor kind name comps m c ix symbol) fun i => n ≤ i := by
  unfold PyOGRe.newTensor newBaseTensor
  refine Sp.bind (Sp.isMetric _) fun b _ => Sp.ite Sp.raise ?_
  refine Sp.bind (Sp.isCoordinates _) fun b _ => Sp.ite Sp.raise ?_
  exact Sp.bind (Sp.getObj _) fun _ _ => Sp.bind (Sp.lift _) fun _ _ => Sp.register fun _ => rfl

theorem any_uses (hs : Sound w) {t : Id'} :
    (w.instances.any fun i => i != t && (w.objs[i]?).any fun o => o.uses t) = true ↔ Used w t := by
  have hu : ∀ o : Obj K, o.uses t = true ↔ Refers o t := by
    intro o
    have hk : ∀ {β : Type} (d : Dict Id' β), Dict.has d t = true ↔ ∃ r, (t, r) ∈ d := by
      intro β d
      unfold Dict.has
      rw [List.any_eq_true]
      constructor
      · rintro ⟨⟨k, r⟩, h1, h2⟩
        exact ⟨r, by rw [show t = k from (by simpa using h2 : k = t).symm]; exact h1⟩
      · rintro ⟨r, h⟩
        exact ⟨_, h, by simp⟩
    unfold Obj.uses Refers
    split_ifs with h
    · rw [hk]; simp [h]
    · simp only [Bool.or_eq_true, hk, beq_iff_eq, h, false_and, false_or, not_false_eq_true, true_and]
      tauto
  rw [List.any_eq_true]
  constructor
  · rintro ⟨i, hi, h⟩
    rw [Bool.and_eq_true] at h
    obtain ⟨o, ho, -⟩ := hs.inUse i hi
    rw [ho] at h
    exact ⟨i, hi, by simpa using h.1, o, ho, (hu o).1 h.2⟩
  · rintro ⟨i, hi, h1, o, ho, h2⟩
    exact ⟨i, hi, by rw [ho]; simpa [h1] using (hu o).2 h2⟩

/-- Deleting a registered object. -/
theorem deleteObj_cases (hs : Sound w) {t : Id'} (ht : t ∈ w.instances) :
    (Used w t ∧ deleteObj t w = (.error .permissionError, w)) ∨
    (¬ Used w t ∧ deleteObj t w = (.ok (),
      { objs := w.objs.modify t (fun o => { o with alive := false }), instances := w.instances.erase t })) := by
  unfold deleteObj
  by_cases hu : Used w t
  · rw [if_pos ((any_uses hs).2 hu)]
    exact Or.inl ⟨hu, rfl⟩
  · rw [if_neg fun h => hu ((any_uses hs).1 h), if_pos ht]
    exact Or.inr ⟨hu, rfl⟩

theorem sound_delete (hs : Sound w) (t : Id') :
    Sound { objs := w.objs.modify t (fun o => { o with alive := false }), instances := w.instances.erase t } := by
  refine ⟨hs.nodup.erase _, fun i hi => ?_⟩
  obtain ⟨h1, h2⟩ := (List.Nodup.mem_erase_iff hs.nodup).1 hi
  obtain ⟨o, h3, h4⟩ := hs.inUse i h2
  refine ⟨o, ?_, h4⟩
  show (w.objs.modify t _)[i]? = _
  rw [modify_ne (fun h => h1 h.symm), h3]

/-- Deleting, in any state. -/
theorem Sp.delete {t : Id'} (h : n ≤ t) : Sp n (K := K) (deleteObj t) fun _ => True := by
  intro w hw
  have hsp : ∀ l : List Id', (∀ i < n, i ∈ l ↔ i ∈ w.instances) →
      Spares n w ⟨w.objs.modify t fun o => { o with alive := false }, l⟩ := by
    intro l hl
    refine ⟨by simp, fun i hi o ho => ⟨o, ?_, rfl, fun _ => ⟨rfl, hl i hi⟩⟩⟩
    show (w.objs.modify t _)[i]? = _
    rw [modify_ne (by omega), ho]
  by_cases ht : t ∈ w.instances
  · refine ⟨?_, fun hs => ?_, fun _ _ => trivial⟩
    · unfold deleteObj
      split_ifs
      · exact Spares.refl n w
      · refine hsp _ fun i hi => ?_
        exact ⟨List.mem_of_mem_erase, fun h' => (List.mem_erase_of_ne (by omega)).2 h'⟩
    · rcases deleteObj_cases hs ht with ⟨-, h⟩ | ⟨-, h⟩ <;> rw [h]
      · exact hs
      · exact sound_delete hs t
  · refine ⟨?_, fun hs => ?_, fun _ _ => trivial⟩
    · unfold deleteObj
      split_ifs
      · exact Spares.refl n w
      · exact hsp _ fun i hi => Iff.rfl
    · unfold deleteObj
      split_ifs
      · exact hs
      · refine ⟨hs.nodup, fun i hi => ?_⟩
        obtain ⟨o, h3, h4⟩ := hs.inUse i hi
        refine ⟨o, ?_, h4⟩
        show (w.objs.modify t _)[i]? = _
        rw [modify_ne (by rintro rfl; exact ht hi), h3]

/-- A deletion of an object called `TEMP`. -/
theorem spares_delete_temp {t : Id'} {o : Obj K} (ho : w.objs[t]? = some o) (hn : o.name = "TEMP") (n : Nat) :
    Spares n w (deleteObj t w).2 := by
  have hsp : ∀ l : List Id', (∀ i, i ≠ t → (i ∈ l ↔ i ∈ w.instances)) →
      Spares n w ⟨w.objs.modify t fun o => { o with alive := false }, l⟩ := by
    intro l hl
    refine ⟨by simp, fun i hi oi hoi => ?_⟩
    by_cases hit : i = t
    · subst hit
      rw [ho] at hoi; cases hoi
      refine ⟨{ o with alive := false }, ?_, rfl, fun h => absurd hn h⟩
      show (w.objs.modify i _)[i]? = _
      rw [modify_same ho]
    · refine ⟨oi, ?_, rfl, fun _ => ⟨rfl, hl i hit⟩⟩
      show (w.objs.modify t _)[i]? = _
      rw [modify_ne (fun h => hit h.symm), hoi]
  unfold deleteObj
  split_ifs
  · exact Spares.refl n w
  · exact hsp _ fun i hi => ⟨List.mem_of_mem_erase, fun h' => (List.mem_erase_of_ne hi).2 h'⟩
  · exact hsp _ fun i hi => Iff.rfl

theorem sound_deleteObj (hs : Sound w) (t : Id') : Sound (deleteObj t w).2 :=
  (Sp.delete (n := 0) (K := K) (Nat.zero_le t) w (Nat.zero_le _)).2.1 hs

theorem Sp.deletePass : Sp n (K := K) (deletePass (hasName "TEMP") deleteObj) fun _ => True := by
  have key : ∀ fuel i, Sp n (K := K) (deleteFrom (hasName "TEMP") deleteObj fuel i) fun _ => True := by
    intro fuel
    induction fuel with
    | zero => exact fun i => Sp.done ()
    | succ fuel ih =>
      intro i w hw
      unfold deleteFrom
      rw [PyM.bind_apply, PyM.world_apply]
      dsimp only
      cases h : w.instances[i]? with
      | none => exact Sp.done () w hw
      | some t =>
        dsimp only
        rw [PyM.bind_apply]
        rcases getObj_cases t w with ⟨o, ho, ha, h'⟩ | h' <;> rw [h']
        · dsimp only
          by_cases hn : o.name = "TEMP"
          · have hsel : hasName "TEMP" o = true := by simp [hasName, hn]
            rw [hsel]
            have h1 := spares_delete_temp ho hn n
            have h2 := fun hs : Sound w => sound_deleteObj hs t
            rw [show PyM.onlyIf true (deleteObj (K := K) t) = deleteObj t from rfl, PyM.bind_apply]
            rcases hd : deleteObj t w with ⟨r, w1⟩
            rw [hd] at h1 h2
            cases r with
            | error e => exact ⟨h1, h2, fun _ _ => trivial⟩
            | ok a =>
              obtain ⟨k1, k2, -⟩ := ih (i + 1) w1 (le_trans hw h1.1)
              exact ⟨h1.trans k1, fun hs => k2 (h2 hs), fun _ _ => trivial⟩
          · have hsel : hasName "TEMP" o = false := by simp [hasName, hn]
            rw [hsel]
            exact ih (i + 1) w hw
        · exact ⟨Spares.refl n w, id, fun _ h => nomatch h⟩
  intro w hw
  exact key _ _ w hw

end

end PyOGRe
