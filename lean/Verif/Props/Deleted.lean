import Verif.Props.Attributes
import Verif.Props.Refused
import Verif.Model.Files
import Verif.Model.Messages
import Verif.Model.Replace
import Verif.Model.Labels

/-!
# Deleted objects: C117
-/

namespace PyOGRe
open Spec
variable {K : Type}

/-- The call raises, and nothing changes. -/
def Spec.Refused {α : Type} (m : PyM K α) (w : World K) : Prop := ∃ e, m w = (.error e, w)

/-- The call raises `AttributeError`, and nothing changes. -/
def Spec.Missing {α : Type} (m : PyM K α) (w : World K) : Prop := m w = (.error .attributeError, w)

/-- The object was deleted. -/
def Spec.Deleted (w : World K) (t : Id') : Prop := ∃ o, w.objs[t]? = some o ∧ o.alive = false

theorem Spec.Missing.refused {α : Type} {m : PyM K α} {w : World K} (h : Missing m w) : Refused m w := ⟨_, h⟩

theorem Spec.Deleted.getObj {w : World K} {t : Id'} (h : Deleted w t) : getObj t w = (.error .attributeError, w) := by
  obtain ⟨o, ho, ha⟩ := h
  unfold PyOGRe.getObj
  rw [ho]
  simp [ha]

theorem Spec.Deleted.first {α : Type} {w : World K} {t : Id'} (h : Deleted w t) (f : Obj K → PyM K α) :
    Missing (PyOGRe.getObj t >>= f) w := PyM.then_error h.getObj

theorem Spec.Refused.after {α β : Type} {m : PyM K α} {f : α → PyM K β} {w : World K} (h : Refused m w) :
    Refused (m >>= f) w := by
  obtain ⟨e, h⟩ := h
  exact ⟨e, PyM.then_error h⟩

theorem Spec.Refused.reads {α β : Type} {m : PyM K α} {f : α → PyM K β} {w : World K} (h : (m w).2 = w)
    (h' : ∀ a, Refused (f a) w) : Refused (m >>= f) w := by
  unfold Refused
  rw [PyM.bind_apply]
  rcases hm : m w with ⟨e | a, w1⟩
  · rw [hm] at h; subst h; exact ⟨e, rfl⟩
  · rw [hm] at h; subst h; exact h' a

theorem Spec.Refused.ite {α : Type} {b : Prop} [Decidable b] {m m' : PyM K α} {w : World K} (h : b → Refused m w)
    (h' : ¬ b → Refused m' w) : Refused (if b then m else m') w := by
  split
  · exact h ‹_›
  · exact h' ‹_›

theorem Spec.Refused.raise {α : Type} (e : PyErr) (w : World K) : Refused (PyM.raise e : PyM K α) w := ⟨e, rfl⟩

theorem requireMetric_state (m : Id') (w : World K) : (requireMetric m w).2 = w := by
  unfold requireMetric
  rw [PyM.bind_apply]
  simp only [isMetric, PyM.bind_apply, PyM.world_apply, PyM.pure_apply]
  split <;> rfl

theorem requireTensor_state (t : Id') (w : World K) : (requireTensor t w).2 = w := by
  unfold requireTensor
  split <;> rfl

theorem isCoordinates_state (c : Id') (w : World K) : (isCoordinates c w).2 = w := rfl

/-- Deleting an object deletes it. -/
theorem deleted_of_delete {w : World K} {t : Id'} {o : Obj K} (ho : w.objs[t]? = some o)
    (hd : (deleteObj t w).1 = .ok ()) : Deleted (deleteObj t w).2 t := by
  unfold deleteObj at hd ⊢
  split at hd
  · cases hd
  · rename_i h1
    rw [if_neg h1]
    dsimp only at hd ⊢
    split at hd
    · rename_i h2
      rw [if_pos h2]
      refine ⟨{ o with alive := false }, ?_, rfl⟩
      show (w.objs.modify t _)[t]? = _
      rw [List.getElem?_modify, ho]
      simp
    · cases hd

section
variable [CommRing K] [DecidableEq K] [Algebra ℚ K]

/-- A deleted object stays deleted. -/
theorem deleted_later (E : Engine K) (letters : List Sym) (calls : List (Call K)) {w : World K} {t : Id'}
    (h : Deleted w t) : Deleted (history E letters calls w) t := by
  obtain ⟨o, ho, ha⟩ := h
  obtain ⟨o', h', h2⟩ := C81_attributes E letters calls w ho
  exact ⟨o', h', h2.2.2.2.2.2.2.2.2.2 ha⟩

theorem refused_coords {w : World K} {t : Id'} (h : Deleted w t) {α : Type} (m : PyM K Bool) (hm : (m w).2 = w)
    (e : PyErr) (f : Obj K → PyM K α) :
    Refused (do if !(← m) then PyM.raise e else do let o ← getObj t; f o) w :=
  Refused.reads hm fun _ => Refused.ite (fun _ => Refused.raise _ _) fun _ => (h.first _).refused

theorem refused_lower (E : Engine K) {w : World K} {t : Id'} (h : Deleted w t) (c : Option Id') :
    Refused (lowerComponents E t c) w := by
  unfold lowerComponents
  refine refused_coords h _ ?_ _ _
  cases c <;> rfl

theorem refused_compute (E : Engine K) {w : World K} {t : Id'} (h : Deleted w t) (f : Computation) :
    Refused (f.fn E t) w := by
  cases f with
  | christoffel => exact Refused.reads (requireMetric_state t w) fun _ => (h.first _).refused
  | riemann => exact Refused.reads (requireMetric_state t w) fun _ => (h.first _).refused
  | ricci => exact Refused.reads (requireMetric_state t w) fun _ => (h.first _).refused
  | scalar => exact Refused.reads (requireMetric_state t w) fun _ => (h.first _).refused
  | einstein => exact Refused.reads (requireMetric_state t w) fun _ => (h.first _).refused
  | weyl => exact Refused.reads (requireMetric_state t w) fun _ => (h.first _).refused
  | norm => exact Refused.reads (requireTensor_state t w) fun _ => (h.first _).refused

theorem refused_curve (E : Engine K) (C : Curves K) {w : World K} {t : Id'} (h : Deleted w t) (f : CurveComputation) :
    Refused (f.fn E C t none) w := by
  cases f <;> exact Refused.reads (requireMetric_state t w) fun _ => Refused.reads rfl fun _ => (h.first _).refused

theorem refused_init (E : Engine K) {w : World K} {t : Id'} (h : Deleted w t) (labels : List Sym) :
    Refused (calcInit E t labels) w :=
  Refused.reads (requireTensor_state t w) fun _ => (h.first _).refused

/-- **C117**: after `obj.delete()` has returned, and whatever calls follow (other than `change_name` and `change_symbol` of
this object, which would give it these attributes again), everything that is asked of this object raises, and nothing
changes: components, `show`, `list`, `info` and `str`, changes of the defaults, `simplify`, `calc_...` (of geodesics and
Lagrangians without coordinates), line and volume elements, rules, formulae with this object, a second `delete`, and `export`,
which does not touch the file. -/
theorem C117_unusable (E : Engine K) (letters : List Sym) (calls : List (Call K)) {w : World K} {t : Id'} {o : Obj K}
    (ho : w.objs[t]? = some o) (hd : (deleteObj t w).1 = .ok ())
    (_hn : ∀ k ∈ calls, k.newName t = none ∧ k.newSymbol t = none) {w' : World K}
    (hw : history E letters calls (deleteObj t w).2 = w') :
    (∀ P c ix r f mode, Refused (getComponentsWith E P t c ix r f mode) w') ∧
    (∀ C R P c ix r f mode, Refused (curveComponentsWith E C R P t c ix r f mode) w') ∧
    (∀ P var mode, Refused (coordinatesComponents P var t mode) w') ∧
    (∀ T opt c ix f r, Refused (showTensor E T opt t c ix f r) w' ∧ Refused (listTensor E T opt t c ix f r) w') ∧
    (∀ C R T opt c ix f r, Refused (showCurve E C R T opt t c ix f r) w' ∧ Refused (listCurve E C R T opt t c ix f r) w') ∧
    (∀ T var opt, Missing (showCoordinates T var opt t) w' ∧ Missing (listCoordinates T var opt t) w') ∧
    (∀ T opt, Missing (strObj T opt t) w' ∧ Missing (showInfo T opt t) w') ∧
    (∀ ix, Missing (changeDefaultIndices E t ix) w') ∧
    (∀ c, Refused (changeDefaultCoords E t c) w' ∧ ∀ C, Refused (curveChangeCoords E C t c) w') ∧
    (∀ c rules, Refused (addCoordTransformationArg t c rules) w') ∧
    Missing (simplifyTensor E t) w' ∧
    (∀ f : Computation, Refused (f.fn E t) w') ∧
    (∀ (C : Curves K) (f : CurveComputation), Refused (f.fn E C t none) w') ∧
    (∀ var c, Refused (lineElement E var t c) w' ∧ Refused (volumeElement E t c) w') ∧
    (∀ ranges s, Refused (callText E ranges t s) w') ∧
    (∀ opt, Refused (deleteTold opt false t) w') ∧
    (∀ P cut filename d, ∃ e, exportFile P w' t cut filename d = (.error e, [d])) := by
  have h : Deleted w' t := hw ▸ deleted_later E letters calls (deleted_of_delete ho hd)
  refine ⟨fun P c ix r f mode => ?_, fun C R P c ix r f mode => ?_, fun P var mode => ?_, fun T opt c ix f r => ⟨?_, ?_⟩,
    fun C R T opt c ix f r => ⟨?_, ?_⟩, fun T var opt => ⟨h.first _, h.first _⟩, fun T opt => ⟨?_, ?_⟩, fun ix => h.first _,
    fun c => ⟨?_, fun C => ?_⟩, fun c rules => ?_, h.first _, refused_compute E h, fun C => refused_curve E C h,
    fun var c => ⟨?_, ?_⟩, fun ranges s => ?_, fun opt => ?_, fun P cut filename d => ?_⟩
  · exact Refused.ite (fun _ => Refused.raise _ _) fun _ => Refused.after (h.first _).refused
  · exact Refused.ite (fun _ => Refused.raise _ _) fun _ => (h.first _).refused
  · cases mode with
    | none => exact Refused.raise _ _
    | some mode => exact Refused.ite (fun _ => Refused.raise _ _) fun _ => (h.first _).refused
  · exact (h.first _).refused
  · exact (h.first _).refused
  · exact (h.first _).refused
  · exact (h.first _).refused
  · exact PyM.then_error (h.first _)
  · exact PyM.then_error (h.first _)
  · exact refused_coords h _ rfl _ _
  · exact refused_coords h _ rfl _ _
  · unfold addCoordTransformationArg
    refine Refused.reads rfl fun _ => Refused.ite (fun _ => Refused.raise _ _) fun _ => Refused.ite (fun _ => Refused.raise _ _) fun hne => ?_
    have hrest : ∀ r, Refused (addCoordTransformation t c r) w' := fun r => by
      unfold addCoordTransformation
      exact Refused.reads rfl fun _ => Refused.ite (fun _ => Refused.raise _ _) fun _ =>
        Refused.ite (fun _ => Refused.raise _ _) fun _ => (h.first _).refused
    cases rules with
    | none => exact hrest _
    | some rules => exact Refused.ite (fun _ => Refused.raise _ _) fun _ => hrest _
  · exact Refused.after (refused_lower E h c)
  · exact Refused.after (refused_lower E h c)
  · unfold callText
    refine Refused.reads ?_ fun _ => Refused.reads rfl fun _ => refused_init E h _
    unfold requireCallable
    split <;> rfl
  · unfold deleteTold
    by_cases hu : (w'.instances.any fun i => i != t && (w'.objs[i]?).any fun o => o.uses t) = true
    · exact ⟨_, if_pos hu⟩
    · exact ⟨.attributeError, (if_neg hu).trans (h.first _)⟩
  · obtain ⟨o1, ho1, ha⟩ := h
    have : exportObj P w' t = .error .attributeError := by
      unfold exportObj
      rw [ho1]
      simp [ha]
    unfold exportFile exportTo
    rw [this]
    cases filename with
    | none => exact ⟨_, rfl⟩
    | some a => cases a <;> exact ⟨_, rfl⟩

theorem deleted_eval (E : Engine K) (letters : List Sym) (e : Expr K) {w : World K} {t : Id'} (h : Deleted w t) :
    Deleted (e.eval E letters w).2 t := by
  obtain ⟨o, ho, ha⟩ := h
  obtain ⟨o', e1, e2⟩ := ((At.eval (T := true) letters e) w (le_refl _)).1.2 t (lt_of_getElem? ho) o ho
  exact ⟨o', e1, e2.alive ha⟩

/-- A formula with a deleted object raises. -/
theorem formula_raises (E : Engine K) (letters : List Sym) (e : Expr K) {w : World K} {t : Id'} (h : Deleted w t)
    (ht : t ∈ e.tensors) : ∃ err, (e.eval E letters w).1 = .error err := by
  have one : ∀ (e : Expr K) (f : CalcObj → PyM K CalcObj) (w : World K), (∃ err, (e.eval E letters w).1 = .error err) →
      ∃ err, ((e.eval E letters >>= f) w).1 = .error err := by
    intro e f w h
    obtain ⟨err, h⟩ := h
    refine ⟨err, ?_⟩
    rw [PyM.bind_apply]
    rcases he : e.eval E letters w with ⟨r, w1⟩
    rw [he] at h
    cases h
    rfl
  have two : ∀ (e f : Expr K) (g : CalcObj → CalcObj → PyM K CalcObj),
      (∀ w, Deleted w t → t ∈ e.tensors → ∃ err, (e.eval E letters w).1 = .error err) →
      (∀ w, Deleted w t → t ∈ f.tensors → ∃ err, (f.eval E letters w).1 = .error err) →
      ∀ w, Deleted w t → t ∈ e.tensors ++ f.tensors →
        ∃ err, ((do let x ← e.eval E letters; let y ← f.eval E letters; g x y) w).1 = .error err := by
    intro e f g he hf w h ht
    rcases List.mem_append.mp ht with ht | ht
    · exact one e _ w (he w h ht)
    · have h1 := deleted_eval E letters e h
      rw [PyM.bind_apply]
      rcases hx : e.eval E letters w with ⟨err | x, w1⟩
      · exact ⟨err, rfl⟩
      · rw [hx] at h1
        exact one f _ w1 (hf w1 h1 ht)
  induction e generalizing w with
  | tensor s labels =>
    have : t = s := by simpa [Expr.tensors] using ht
    subst this
    obtain ⟨err, he⟩ := refused_init E h labels
    exact ⟨err, congrArg (·.1) he⟩
  | scale v e ih => exact one e _ w (ih h ht)
  | times e f ihe ihf => exact two e f _ (fun w h ht => ihe h ht) (fun w h ht => ihf h ht) w h ht
  | neg e ih => exact one e _ w (ih h ht)
  | add e f ihe ihf => exact two e f _ (fun w h ht => ihe h ht) (fun w h ht => ihf h ht) w h ht
  | sub e f ihe ihf => exact two e f _ (fun w h ht => ihe h ht) (fun w h ht => ihf h ht) w h ht
  | mul e f ihe ihf => exact two e f _ (fun w h ht => ihe h ht) (fun w h ht => ihf h ht) w h ht
  | derivative role labels => simp [Expr.tensors] at ht

/-- **C117**: a formula in which a deleted object occurs anywhere raises. -/
theorem C117_formula (E : Engine K) (letters : List Sym) (calls : List (Call K)) {w : World K} {t : Id'} {o : Obj K}
    (ho : w.objs[t]? = some o) (hd : (deleteObj t w).1 = .ok ())
    (_hn : ∀ k ∈ calls, k.newName t = none ∧ k.newSymbol t = none) (e : Expr K) (ht : t ∈ e.tensors) :
    ∃ err, (e.eval E letters (history E letters calls (deleteObj t w).2)).1 = .error err :=
  formula_raises E letters e (deleted_later E letters calls (deleted_of_delete ho hd)) ht

/-- Coordinates, a metric and a tensor. -/
def three : World K :=
  ⟨[{ kind := .coordinates, name := "x", symbol := "x", indices := [1], coords := 0, metric := 0, comps := [], syms := ["x"],
      trans := [], jac := [], alive := true },
    { kind := .metric, name := "g", symbol := "g", indices := [-1, -1], coords := 0, metric := 1, comps := [], syms := [],
      trans := [], jac := [], alive := true },
    { kind := .tensor, name := "T", symbol := "T", indices := [1, 1], coords := 0, metric := 1, comps := [], syms := [],
      trans := [], jac := [], alive := true }], [0, 1, 2]⟩

/-- The tensor is deleted, and then the metric. -/
example (E : Engine K) (letters : List Sym) :
    Missing (simplifyTensor E 2) (history E letters [.rename 0 "y", .delete 1] (deleteObj 2 (three (K := K))).2) ∧
    ∃ err, ((Expr.add (.tensor 1 ["a", "b"]) (.scale 2 (.tensor 2 ["a", "b"]))).eval E letters
      (history E letters [.rename 0 "y", .delete 1] (deleteObj 2 (three (K := K))).2)).1 = .error err := by
  have hn : ∀ k ∈ [(.rename 0 "y" : Call K), .delete 1], k.newName 2 = none ∧ k.newSymbol 2 = none := by
    intro k hk
    rcases List.mem_cons.mp hk with rfl | hk
    · exact ⟨rfl, rfl⟩
    · rcases List.mem_cons.mp hk with rfl | hk
      · exact ⟨rfl, rfl⟩
      · cases hk
  exact ⟨(C117_unusable E letters _ (w := three) (t := 2) rfl rfl hn rfl).2.2.2.2.2.2.2.2.2.2.1,
    C117_formula E letters _ (w := three) (t := 2) rfl rfl hn _ (by simp [Expr.tensors])⟩

end

end PyOGRe
