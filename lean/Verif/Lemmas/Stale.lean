import Verif.Lemmas.Spares
import Verif.Lemmas.Single
import Verif.Lemmas.NewChristoffel

/-! Helper lemmas: formulae and requests store only Jacobians of the present rules. -/

namespace PyOGRe
open Spec
variable {K : Type} [CommRing K] {E : Engine K}

/-- A computation after which no Jacobian is stale if none was before. -/
def Safe (E : Engine K) {α : Type} (m : PyM K α) : Prop := ∀ w, NoStale E w → NoStale E (m w).2

section
variable {α β : Type}

theorem Safe.bind {m : PyM K α} {f : α → PyM K β} (hm : Safe E m) (hf : ∀ a, Safe E (f a)) : Safe E (m >>= f) := by
  intro w h0
  have h1 := hm w h0
  rw [PyM.bind_apply]
  rcases h : m w with ⟨r, w'⟩
  rw [h] at h1
  cases r with
  | ok a => exact hf a w' h1
  | error e => exact h1

theorem Safe.done (a : α) : Safe E (Pure.pure a : PyM K α) := fun _ h => h
theorem Safe.pure (a : α) : Safe E (Pure.pure a : PyM K α) := fun _ h => h
theorem Safe.raise {e : PyErr} : Safe E (PyM.raise e : PyM K α) := fun _ h => h
theorem Safe.lift (x : Py α) : Safe E (PyM.lift x : PyM K α) := fun _ h => h
theorem Safe.ite {b : Prop} [Decidable b] {m m' : PyM K α} (h : Safe E m) (h' : Safe E m') :
    Safe E (if b then m else m') := by split_ifs <;> assumption
theorem Safe.onlyIf {b : Bool} {m : PyM K Unit} (h : Safe E m) : Safe E (PyM.onlyIf b m) := Safe.ite h (Safe.done ())
theorem Safe.getObj (i : Id') : Safe E (PyOGRe.getObj i) := by
  intro w h0
  rcases getObj_cases i w with ⟨o, -, -, h⟩ | h <;> rw [h] <;> exact h0
theorem Safe.lookup {γ δ : Type} [DecidableEq γ] (d : Dict γ δ) (k : γ) : Safe E (PyOGRe.lookup d k) := by
  unfold PyOGRe.lookup
  cases d.get? k <;> first | exact Safe.raise | exact Safe.pure _
theorem Safe.readComps (i c : Id') (ix : List Int) : Safe E (PyOGRe.readComps i c ix) := by
  unfold PyOGRe.readComps
  exact Safe.bind (Safe.getObj _) fun _ => Safe.bind (Safe.lookup _ _) fun _ => Safe.lookup _ _

/-- Symbols, rules and Jacobians of an object. -/
def Obj.chartData (o : Obj K) : List Sym × Dict Id' (List (Option (Sym × K))) × Dict Id' (Jacobians K) :=
  (o.syms, o.trans, o.jac)

/-- Objects keep symbols, rules and Jacobians, and new objects have no Jacobians or are copies. -/
theorem noStale_of {w w' : World K} (h0 : NoStale E w)
    (h1 : ∀ (i : Id') (o : Obj K), w.objs[i]? = some o → ∃ o' : Obj K, w'.objs[i]? = some o' ∧ o'.chartData = o.chartData)
    (h2 : ∀ (i : Id') (o' : Obj K), w'.objs[i]? = some o' → o'.jac = [] ∨ ∃ (k : Id') (o : Obj K), w.objs[k]? = some o ∧ o'.chartData = o.chartData) :
    NoStale E w' := by
  intro i o' hi c' j hj
  rcases h2 i o' hi with h | ⟨k, o, h3, h4⟩
  · rw [h] at hj; cases hj
  · have e1 : o'.syms = o.syms := congrArg (·.1) h4
    have e2 : o'.trans = o.trans := congrArg (·.2.1) h4
    have e3 : o'.jac = o.jac := congrArg (·.2.2) h4
    rw [e3] at hj
    obtain ⟨oc, rules, k1, k2, k3⟩ := h0 k o h3 c' j hj
    obtain ⟨oc', l1, l2⟩ := h1 _ _ k1
    exact ⟨oc', rules, l1, by rw [e2]; exact k2, by rw [e1, show oc'.syms = oc.syms from congrArg (·.1) l2]; exact k3⟩

theorem noStale_modify {w : World K} (h0 : NoStale E w) (i : Id') {u : Obj K → Obj K}
    (hu : ∀ o, (u o).chartData = o.chartData) (I : List Id') : NoStale E ⟨w.objs.modify i u, I⟩ := by
  refine noStale_of h0 (fun k o hk => ?_) fun k o' hk => ?_
  · show ∃ o', (w.objs.modify i u)[k]? = some o' ∧ _
    rw [List.getElem?_modify, hk]
    by_cases h : i = k
    · exact ⟨u o, by simp [h], hu o⟩
    · exact ⟨o, by simp [h], rfl⟩
  · have hk' : (w.objs.modify i u)[k]? = some o' := hk
    rw [List.getElem?_modify] at hk'
    cases ho : w.objs[k]? with
    | none => rw [ho] at hk'; cases hk'
    | some o =>
      rw [ho] at hk'
      refine Or.inr ⟨k, o, ho, ?_⟩
      by_cases h : i = k
      · simp [h] at hk'; rw [← hk']; exact hu o
      · simp [h] at hk'; rw [← hk']

theorem noStale_push {w : World K} (h0 : NoStale E w) {o : Obj K}
    (ho : o.jac = [] ∨ ∃ (k : Id') (o0 : Obj K), w.objs[k]? = some o0 ∧ o.chartData = o0.chartData) (I : List Id') :
    NoStale E ⟨w.objs ++ [o], I⟩ := by
  refine noStale_of h0 (fun k o' hk => ⟨o', getElem?_append_old hk, rfl⟩) fun k o' hk => ?_
  have hk' : (w.objs ++ [o])[k]? = some o' := hk
  rcases Nat.lt_or_ge k w.objs.length with h | h
  · rw [List.getElem?_append_left h] at hk'
    exact Or.inr ⟨k, o', hk', rfl⟩
  · rw [List.getElem?_append_right h] at hk'
    have : o = o' := by
      cases hh : k - w.objs.length with
      | zero => rw [hh] at hk'; exact Option.some.inj hk'
      | succ m => rw [hh] at hk'; simp at hk'
    rw [← this]
    exact ho

theorem Safe.modify (i : Id') {u : Obj K → Obj K} (h : ∀ o, (u o).chartData = o.chartData) :
    Safe E (PyOGRe.modifyObj i u) := fun _ h0 => noStale_modify h0 i h _

theorem Safe.writeComps (i c : Id') (ix : List Int) (a : Arr K) : Safe E (PyOGRe.writeComps i c ix a) := by
  unfold PyOGRe.writeComps
  exact Safe.bind (Safe.getObj _) fun _ => Safe.bind (Safe.lookup _ _) fun _ => Safe.modify _ fun _ => rfl
theorem Safe.ensureCoords (i c : Id') : Safe E (PyOGRe.ensureCoords i c) := by
  unfold PyOGRe.ensureCoords
  refine Safe.modify _ fun o => ?_
  split_ifs <;> rfl

theorem checkJacobians_safe (i c : Id') : Safe E (checkJacobians E i c) := by
  intro w h0
  unfold checkJacobians
  rw [PyM.bind_apply]
  rcases getObj_cases i w with ⟨o, h1, h2, h⟩ | h <;> rw [h]
  swap
  · exact h0
  dsimp only
  split_ifs with k1 k2
  · exact h0
  · unfold calcJacobian
    rw [PyM.bind_apply, h]
    dsimp only
    rw [PyM.bind_apply]
    rcases getObj_cases c w with ⟨oc, l1, l2, l⟩ | l <;> rw [l]
    swap
    · exact h0
    dsimp only
    rw [PyM.bind_apply]
    unfold lookup
    cases hr : o.trans.get? c with
    | none => exact h0
    | some rules =>
      show NoStale E ((PyM.lift _ >>= _) w).2
      rw [PyM.bind_apply]
      cases hj : calculateJacobian E o.syms oc.syms rules with
      | error e => exact h0
      | ok j =>
        show NoStale E ⟨w.objs.modify i fun o => { o with jac := o.jac.set c j }, w.instances⟩
        have hget : ∀ (k : Id') (o' : Obj K), w.objs[k]? = some o' → ∃ o'' : Obj K, (w.objs.modify i fun o => { o with jac := o.jac.set c j })[k]? = some o'' ∧
            o''.syms = o'.syms := by
          intro k o' hk
          rw [List.getElem?_modify, hk]
          by_cases hik : i = k
          · exact ⟨{ o' with jac := o'.jac.set c j }, by simp [hik], rfl⟩
          · exact ⟨o', by simp [hik], rfl⟩
        intro k o' hk c' j' hj'
        have hk' : (w.objs.modify i fun o => { o with jac := o.jac.set c j })[k]? = some o' := hk
        rw [List.getElem?_modify] at hk'
        by_cases hik : i = k
        · subst hik
          rw [h1] at hk'
          simp only [if_true, Option.map_eq_map, Option.map_some, Option.some.injEq] at hk'
          subst hk'
          by_cases hc : c' = c
          · subst hc
            dsimp only at hj'
            rw [Dict.get?_set_self] at hj'
            cases hj'
            obtain ⟨oc', m1, m2⟩ := hget _ _ l1
            exact ⟨oc', rules, m1, hr, by rw [m2]; exact hj⟩
          · dsimp only at hj'
            rw [Dict.get?_set, if_neg (Ne.symm hc)] at hj'
            obtain ⟨oc', rules', m1, m2, m3⟩ := h0 _ _ h1 _ _ hj'
            obtain ⟨oc'', n1, n2⟩ := hget _ _ m1
            exact ⟨oc'', rules', n1, m2, by rw [n2]; exact m3⟩
        · have hk2 : w.objs[k]? = some o' := by
            cases hh : w.objs[k]? with
            | none => rw [hh] at hk'; cases hk'
            | some o'' => rw [hh] at hk'; simpa [hik] using hk'
          obtain ⟨oc', rules', m1, m2, m3⟩ := h0 _ _ hk2 _ _ hj'
          obtain ⟨oc'', n1, n2⟩ := hget _ _ m1
          exact ⟨oc'', rules', n1, m2, by rw [n2]; exact m3⟩
  · refine Safe.bind (Safe.getObj _) (fun _ => Safe.raise) w h0

theorem Safe.delete (t : Id') : Safe E (deleteObj t) := by
  intro w h0
  rcases h : deleteObj t w with ⟨r, w'⟩
  unfold deleteObj at h
  split_ifs at h
  · cases h; exact h0
  · cases h; exact noStale_modify (u := fun o => { o with alive := false }) h0 t (fun _ => rfl) _
  · cases h; exact noStale_modify (u := fun o => { o with alive := false }) h0 t (fun _ => rfl) _

theorem Safe.deletePass : Safe E (PyOGRe.deletePass (hasName "TEMP") deleteObj) := by
  have key : ∀ fuel i, Safe E (deleteFrom (hasName "TEMP") deleteObj fuel i) := by
    intro fuel
    induction fuel with
    | zero => exact fun i => Safe.done ()
    | succ fuel ih =>
      intro i
      unfold deleteFrom
      refine Safe.bind (fun _ h => h) fun w => ?_
      cases w.instances[i]? with
      | none => exact Safe.done ()
      | some t => exact Safe.bind (Safe.getObj _) fun _ => Safe.bind (Safe.onlyIf (Safe.delete _)) fun _ => ih _
  exact fun w h => key _ _ w h

theorem Safe.copyAs (t : Id') (name : String) : Safe E (PyOGRe.copyAs t name) := by
  intro w h0
  rcases getObj_cases t w with ⟨o, h1, -, h⟩ | h
  · have : PyOGRe.copyAs t name w = (.ok w.objs.length, { w with objs := w.objs ++ [{ o with name := name }] }) :=
      PyM.then_ok h rfl
    rw [this]
    exact noStale_push (o := { o with name := name }) h0 (Or.inr ⟨t, o, h1, rfl⟩) _
  · have : PyOGRe.copyAs t name w = (.error .attributeError, w) := by
      unfold PyOGRe.copyAs
      refine (PyM.bind_apply _ _ _).trans ?_
      rw [h]
    rw [this]
    exact h0

theorem Safe.newTensor (kind : Kind) (name : Arg String) (comps : Arg (Arr K)) (m c : Id') (ix : IndicesArg)
    (symbol : Arg String) : Safe E (newTensor kind name comps m c ix symbol) := by
  unfold PyOGRe.newTensor newBaseTensor
  refine Safe.bind (fun w h => h) fun _ => Safe.ite Safe.raise (Safe.bind (fun w h => h) fun _ => Safe.ite Safe.raise
    (Safe.bind (Safe.getObj _) fun _ => Safe.bind (Safe.lift _) fun _ => ?_))
  intro w h0
  exact noStale_push h0 (Or.inl rfl) _

theorem Safe.isMetric (i : Id') : Safe E (isMetric i) := fun w h => h
end

theorem baseTransform_safe (i c : Id') (ix : List Int) : Safe E (baseTransform E i c ix) := by
  unfold baseTransform
  exact Safe.bind (Safe.getObj _) fun _ => Safe.bind (checkJacobians_safe _ _) fun _ =>
    Safe.bind (Safe.readComps _ _ _) fun _ => Safe.bind (Safe.getObj _) fun _ =>
    Safe.bind (Safe.lookup _ _) fun _ => Safe.bind (Safe.lookup _ _) fun _ =>
    Safe.bind (Safe.lift _) fun _ => Safe.bind (Safe.ensureCoords _ _) fun _ =>
    Safe.writeComps _ _ _ _

theorem metricTransform_safe (i c : Id') (ix : List Int) : Safe E (metricTransform E i c ix) := by
  unfold metricTransform
  exact Safe.bind (baseTransform_safe _ _ _) fun _ => Safe.bind (Safe.getObj _) fun _ =>
    Safe.bind (Safe.readComps _ _ _) fun _ => Safe.bind (Safe.lift _) fun _ =>
    Safe.bind (Safe.writeComps _ _ _ _) fun _ => Safe.bind (Safe.readComps _ _ _) fun _ =>
    Safe.bind (Safe.readComps _ _ _) fun _ => Safe.bind (Safe.lift _) fun _ =>
    Safe.bind (Safe.writeComps _ _ _ _) fun _ => Safe.bind (Safe.readComps _ _ _) fun _ =>
    Safe.bind (Safe.readComps _ _ _) fun _ => Safe.bind (Safe.lift _) fun _ =>
    Safe.writeComps _ _ _ _

theorem metricCheck_safe (i c : Id') : Safe E (metricCheck i c) := by
  unfold metricCheck
  exact Safe.bind (Safe.getObj _) fun _ => Safe.pure _

theorem tensorRaiseLower_safe (i c : Id') (ix : List Int) : Safe E (tensorRaiseLower E i c ix) := by
  unfold tensorRaiseLower
  refine Safe.bind (Safe.getObj _) fun _ => Safe.bind (metricCheck_safe _ _) fun _ =>
    Safe.bind (Safe.onlyIf (metricTransform_safe _ _ _)) fun _ => Safe.bind (Safe.getObj _) fun _ =>
    Safe.bind (Safe.lookup _ _) fun d => ?_
  match d with
  | [] => exact Safe.raise
  | (s, b) :: d =>
    exact Safe.bind (Safe.readComps _ _ _) fun _ => Safe.bind (Safe.readComps _ _ _) fun _ =>
      Safe.bind (Safe.lift _) fun _ => Safe.writeComps _ _ _ _

theorem tensorCheck_safe (i c : Id') (ix : List Int) : Safe E (tensorCheck E i c ix) := by
  unfold tensorCheck
  refine Safe.bind (Safe.getObj _) fun o => ?_
  cases o.comps.get? c with
  | none => exact Safe.pure _
  | some d => exact Safe.bind (Safe.onlyIf (tensorRaiseLower_safe _ _ _)) fun _ => Safe.pure _

theorem tensorTransform_safe (i c : Id') (ix : List Int) : Safe E (tensorTransform E i c ix) := by
  unfold tensorTransform
  exact Safe.bind (Safe.getObj _) fun o => Safe.bind (tensorCheck_safe _ _ _) fun _ =>
    Safe.bind (Safe.onlyIf (tensorRaiseLower_safe _ _ _)) fun _ => baseTransform_safe _ _ _

theorem christoffelTransform_safe (i c : Id') (ix : List Int) : Safe E (christoffelTransform E i c ix) := by
  unfold christoffelTransform
  exact Safe.bind (Safe.getObj _) fun _ => Safe.bind (checkJacobians_safe _ _) fun _ =>
    Safe.bind (Safe.getObj _) fun _ => Safe.bind (Safe.readComps _ _ _) fun _ =>
    Safe.bind (Safe.lookup _ _) fun _ => Safe.bind (Safe.lookup _ _) fun _ =>
    Safe.bind (Safe.lift _) fun _ => Safe.bind (Safe.ensureCoords _ _) fun _ =>
    Safe.writeComps _ _ _ _

theorem checkRepresentation_safe (i c : Id') (ix : List Int) : Safe E (checkRepresentation E i c ix) := by
  unfold checkRepresentation
  refine Safe.bind (Safe.getObj _) fun o => ?_
  cases o.kind <;> first | exact metricCheck_safe _ _ | exact tensorCheck_safe _ _ _

theorem transformCoordinates_safe (i c : Id') (ix : List Int) : Safe E (transformCoordinates E i c ix) := by
  unfold transformCoordinates
  refine Safe.bind (Safe.getObj _) fun o => ?_
  cases o.kind <;> first | exact metricTransform_safe _ _ _ | exact christoffelTransform_safe _ _ _ |
    exact tensorTransform_safe _ _ _

theorem getRepresentation_safe (i c : Id') (ix : List Int) : Safe E (getRepresentation E i c ix) := by
  unfold getRepresentation
  refine Safe.bind (fun w h => h) fun _ => Safe.ite (Safe.raise) ?_
  exact Safe.bind (Safe.getObj _) fun _ => Safe.bind (Safe.lift _) fun _ =>
    Safe.bind (checkRepresentation_safe _ _ _) fun _ =>
    Safe.bind (Safe.onlyIf (transformCoordinates_safe _ _ _)) fun _ => Safe.readComps _ _ _

theorem getComponents_safe (i : Id') (c : Option Id') (ix : Option (List Int)) :
    Safe E (getComponents E i c ix) := by
  unfold getComponents
  exact Safe.bind (Safe.getObj _) fun _ => getRepresentation_safe _ _ _

theorem Safe.tensorOf (x : CalcObj) : Safe E (PyOGRe.tensorOf x) := by
  unfold PyOGRe.tensorOf
  cases x.tensor with
  | none => exact Safe.raise
  | some t => exact Safe.bind (Safe.getObj _) fun _ => Safe.done _

theorem Safe.metricAttr (x : CalcObj) : Safe E (PyOGRe.metricAttr x) := fun w h => h

theorem Safe.getComponents (t : Id') (c : Option Id') (ix : Option (List Int)) :
    Safe E (PyOGRe.getComponents E t c ix) := getComponents_safe _ _ _

theorem Safe.defaultComps (t : Id') : Safe E (PyOGRe.defaultComps t) := by
  unfold PyOGRe.defaultComps
  exact Safe.bind (Safe.getObj _) fun _ => Safe.readComps _ _ _

theorem Safe.newTemp (a : Arr K) (m c : Id') (ix : List Int) (s : String) : Safe E (PyOGRe.newTemp a m c ix s) :=
  Safe.newTensor _ _ _ _ _ _ _

theorem Safe.traceStep (s : Sym) (t : Id') (labels : List Sym) : Safe E (traceStep E s t labels) := by
  unfold PyOGRe.traceStep
  dsimp only
  exact Safe.ite Safe.raise (Safe.ite (Safe.bind (Safe.getObj _) fun _ => Safe.bind (Safe.lift _) fun _ =>
    Safe.bind (Safe.lift _) fun _ => Safe.bind (Safe.getComponents _ _ _) fun _ => Safe.bind (Safe.getComponents _ _ _) fun _ =>
    Safe.bind (Safe.lift _) fun _ => Safe.bind (Safe.getObj _) fun _ => Safe.bind (Safe.newTemp _ _ _ _ _) fun _ => Safe.done _)
    (Safe.done _))

theorem Safe.traceLoop (ls : List Sym) : ∀ (t : Id') (labels : List Sym), Safe E (traceLoop E ls t labels) := by
  induction ls with
  | nil => exact fun t labels => Safe.done _
  | cons s ls ih => exact fun t labels => Safe.bind (Safe.traceStep _ _ _) fun r => ih _ _

theorem Safe.calcInit (t : Id') (labels : List Sym) : Safe E (calcInit E t labels) := by
  unfold PyOGRe.calcInit
  refine Safe.bind (fun w h => ?_) fun _ => ?_
  · unfold requireTensor
    split_ifs <;> exact h
  exact Safe.bind (Safe.getObj _) fun _ => Safe.bind (Safe.getComponents _ _ _) fun _ => Safe.bind (Safe.lift _) fun _ =>
    Safe.bind (Safe.traceLoop _ _ _) fun _ => Safe.done _

theorem Safe.calcAddObj (x y : CalcObj) : Safe E (calcAddObj E x y) := by
  unfold PyOGRe.calcAddObj
  refine Safe.ite Safe.raise (Safe.bind (Safe.metricAttr _) fun _ => Safe.bind (Safe.metricAttr _) fun _ => Safe.ite Safe.raise
    (Safe.bind (Safe.tensorOf _) ?_))
  rintro ⟨tx, ox⟩
  refine Safe.bind (Safe.tensorOf _) ?_
  rintro ⟨ty, oy⟩
  exact Safe.ite Safe.raise (Safe.ite Safe.raise (Safe.bind (Safe.getComponents _ _ _) fun _ => Safe.bind (Safe.lift _) fun _ =>
    Safe.bind (Safe.lift _) fun _ => Safe.bind (Safe.lift _) fun _ => Safe.bind (Safe.getComponents _ _ _) fun _ =>
    Safe.bind (Safe.lift _) fun _ => Safe.bind (Safe.lift _) fun _ => Safe.bind (Safe.newTemp _ _ _ _ _) fun _ =>
    Safe.calcInit _ _))

theorem Safe.requireArray (x : CalcObj) : Safe E (PyOGRe.requireArray x) := by
  intro w h
  rw [requireArray_state]
  exact h

theorem Safe.calcNeg (x : CalcObj) : Safe E (calcNeg E x) := by
  unfold PyOGRe.calcNeg
  refine Safe.bind (Safe.requireArray x) fun _ => Safe.ite Safe.raise (Safe.bind (Safe.tensorOf _) ?_)
  rintro ⟨tx, ox⟩
  exact Safe.bind (Safe.defaultComps _) fun _ => Safe.bind (Safe.newTemp _ _ _ _ _) fun _ => Safe.calcInit _ _

theorem Safe.scaleBy (s t : Id') (l : List Sym) : Safe E (scaleBy E s t l) := by
  unfold PyOGRe.scaleBy
  exact Safe.bind (Safe.getObj _) fun _ => Safe.bind (Safe.getComponents _ _ _) fun _ => Safe.bind (Safe.readComps _ _ _) fun _ =>
    Safe.done _

theorem Safe.mulParts (tx ty : Id') (ox oy : Obj K) (lx ly : List Sym) :
    Safe E (mulParts E tx ty ox oy lx ly) := by
  unfold PyOGRe.mulParts
  refine Safe.ite (Safe.ite (Safe.bind (Safe.scaleBy _ _ _) fun _ => Safe.scaleBy _ _ _) (Safe.scaleBy _ _ _)) (Safe.scaleBy _ _ _)

theorem Safe.calcMul (x : CalcObj) (y : CalcArg K) : Safe E (calcMul E x y) := by
  cases y with
  | other => exact Safe.ite Safe.raise Safe.raise
  | num v =>
    unfold PyOGRe.calcMul
    refine Safe.ite Safe.raise (Safe.bind (Safe.tensorOf _) ?_)
    rintro ⟨tx, ox⟩
    exact Safe.bind (Safe.defaultComps _) fun _ => Safe.bind (Safe.newTemp _ _ _ _ _) fun _ => Safe.calcInit _ _
  | obj y =>
    unfold PyOGRe.calcMul
    refine Safe.ite Safe.raise (Safe.bind (Safe.tensorOf _) ?_)
    rintro ⟨ty, oy⟩
    refine Safe.bind (Safe.tensorOf _) ?_
    rintro ⟨tx, ox⟩
    exact Safe.ite Safe.raise (Safe.bind (Safe.mulParts _ _ _ _ _ _) fun _ => Safe.bind (Safe.newTemp _ _ _ _ _) fun _ =>
      Safe.calcInit _ _)

theorem Safe.matmulTensors (x y : CalcObj) : Safe E (matmulTensors E x y) := by
  unfold PyOGRe.matmulTensors
  refine Safe.bind (Safe.metricAttr _) fun _ => Safe.bind (Safe.metricAttr _) fun _ => Safe.ite Safe.raise
    (Safe.bind (Safe.tensorOf _) ?_)
  rintro ⟨tx, ox⟩
  refine Safe.bind (Safe.tensorOf _) ?_
  rintro ⟨ty, oy⟩
  exact Safe.ite (Safe.calcMul _ _) (Safe.bind (Safe.getComponents _ _ _) fun _ => Safe.bind (Safe.lift _) fun _ =>
    Safe.bind (Safe.getComponents _ _ _) fun _ => Safe.bind (Safe.lift _) fun _ => Safe.bind (Safe.lift _) fun _ =>
    Safe.bind (Safe.newTemp _ _ _ _ _) fun _ => Safe.calcInit _ _)

theorem Safe.matmulPartial (d : List Sym) (y : CalcObj) (l : List Sym) : Safe E (matmulPartial E d y l) := by
  unfold PyOGRe.matmulPartial
  refine Safe.bind (Safe.tensorOf _) ?_
  rintro ⟨ty, oy⟩
  exact Safe.bind (Safe.lift _) fun _ => Safe.bind (Safe.lift _) fun _ => Safe.bind (Safe.getComponents _ _ _) fun _ =>
    Safe.bind (Safe.getObj _) fun _ => Safe.bind (Safe.lift _) fun _ => Safe.bind (Safe.newTemp _ _ _ _ _) fun _ =>
    Safe.calcInit _ _

theorem Safe.deletePasses : Safe E (timesDo (PyOGRe.deletePass (hasName "TEMP") deleteObj) 2) :=
  Safe.bind Safe.deletePass fun _ => Safe.bind Safe.deletePass fun _ => Safe.done _

theorem Safe.calcResult (x : CalcObj) (name symbol : String) (ix : List Sym) :
    Safe E (calcResult E x name symbol ix) := by
  unfold PyOGRe.calcResult
  refine Safe.ite Safe.raise (Safe.bind (Safe.lift _) fun _ => Safe.bind (Safe.tensorOf _) ?_)
  rintro ⟨tx, ox⟩
  exact Safe.bind (Safe.lift _) fun _ => Safe.bind (Safe.getComponents _ _ _) fun _ => Safe.bind (Safe.lift _) fun _ =>
    Safe.bind (Safe.newTensor _ _ _ _ _ _ _) fun t => Safe.bind Safe.deletePasses fun _ => Safe.done _

variable [DecidableEq K]

theorem Safe.calcAdd (x : CalcObj) (y : CalcArg K) : Safe E (calcAdd E x y) := by
  cases y with
  | other => exact Safe.raise
  | num v => exact Safe.ite (Safe.done _) Safe.raise
  | obj y => exact Safe.calcAddObj _ _

theorem Safe.calcSub (x : CalcObj) (y : CalcArg K) : Safe E (calcSub E x y) := by
  cases y with
  | other => exact Safe.raise
  | num v => exact Safe.ite (Safe.done _) Safe.raise
  | obj y =>
    unfold PyOGRe.calcSub
    refine Safe.ite Safe.raise (Safe.bind (Safe.tensorOf _) ?_)
    rintro ⟨tx, ox⟩
    refine Safe.bind (Safe.tensorOf _) ?_
    rintro ⟨ty, oy⟩
    exact Safe.ite Safe.raise (Safe.ite Safe.raise (Safe.bind (Safe.calcNeg _) fun _ => Safe.calcAddObj _ _))

theorem Safe.changeDefaultIndices (i : Id') (ix : List Int) :
    Safe E (changeDefaultIndices E i ix) := by
  unfold PyOGRe.changeDefaultIndices
  exact Safe.bind (Safe.getObj _) fun _ => Safe.bind (Safe.lift _) fun _ =>
    Safe.bind (checkRepresentation_safe _ _ _) fun _ => Safe.onlyIf (Safe.modify _ fun _ => rfl)

variable [Algebra ℚ K]

theorem Safe.calcChristoffel (m : Id') : Safe E (calcChristoffel E m) := by
  unfold PyOGRe.calcChristoffel requireMetric
  refine Safe.bind ?_ fun _ => Safe.bind (Safe.getObj _) fun om =>
    Safe.bind (fun w h => h) fun r => ?_
  · exact Safe.bind (Safe.isMetric _) fun _ => Safe.ite Safe.raise (Safe.done _)
  cases r with
  | some t => exact Safe.done _
  | none =>
    dsimp only
    unfold computeChristoffel
    refine Safe.bind (Safe.getObj _) fun _ => Safe.bind (Safe.copyAs _ _) fun i =>
      Safe.bind (Safe.changeDefaultIndices _ _) fun _ => Safe.bind (Safe.modify _ fun _ => rfl) fun _ =>
      Safe.bind (Safe.calcInit _ _) fun _ => Safe.bind (Safe.calcMul _ _) fun _ => Safe.bind (Safe.calcInit _ _) fun _ =>
      Safe.bind (Safe.matmulPartial _ _ _) fun _ => Safe.bind (Safe.calcInit _ _) fun _ =>
      Safe.bind (Safe.matmulPartial _ _ _) fun _ => Safe.bind (Safe.calcAddObj _ _) fun _ => Safe.bind (Safe.calcInit _ _) fun _ =>
      Safe.bind (Safe.matmulPartial _ _ _) fun _ => Safe.bind (Safe.calcSub _ _) fun _ =>
      Safe.bind (Safe.matmulTensors _ _) fun _ => Safe.bind (Safe.calcResult _ _ _ _) fun t =>
      Safe.bind (Safe.getComponents _ _ _) fun _ => Safe.bind (Safe.getObj _) fun _ =>
      Safe.bind (Safe.newTensor _ _ _ _ _ _ _) fun _ => Safe.bind Safe.deletePass fun _ =>
      Safe.bind (Safe.delete _) fun _ => Safe.done _

theorem Safe.covariantTerms (c t : Id') (ls : List (List Sym × List Sym)) :
    Safe E (covariantTerms E c t ls) := by
  induction ls with
  | nil => exact Safe.done _
  | cons l ls ih =>
    unfold PyOGRe.covariantTerms covariantTerm
    exact Safe.bind (Safe.bind (Safe.calcInit _ _) fun _ => Safe.bind (Safe.calcInit _ _) fun _ => Safe.matmulTensors _ _)
      fun _ => Safe.bind ih fun _ => Safe.done _

theorem Safe.sumCalc (l : List CalcObj) : Safe E (sumCalc E l) := by
  have h : ∀ (l : List CalcObj) x, Safe E (addAll E x l) := by
    intro l
    induction l with
    | nil => exact fun x => Safe.done _
    | cons y l ih => exact fun x => Safe.bind (Safe.calcAddObj _ _) fun _ => ih _
  cases l with
  | nil => exact Safe.done _
  | cons x l => exact Safe.bind (Safe.calcAdd _ _) fun _ => Safe.bind (h _ _) fun _ => Safe.done _

theorem Safe.matmulCovariant (letters d : List Sym) (y : CalcObj) (ps : List Sym → Py Sym) (l l' : List Sym) :
    Safe E (matmulCovariant E letters d y ps l l') := by
  unfold PyOGRe.matmulCovariant
  refine Safe.bind (Safe.tensorOf _) ?_
  rintro ⟨_, oy⟩
  refine Safe.bind (Safe.calcChristoffel _) fun _ => Safe.bind (Safe.lift _) fun _ => Safe.bind (Safe.lift _) fun _ =>
    Safe.bind (Safe.tensorOf _) ?_
  rintro ⟨ty, oy'⟩
  refine Safe.bind (Safe.matmulPartial _ _ _) fun _ => Safe.bind (Safe.covariantTerms _ _ _) fun _ =>
    Safe.bind (Safe.sumCalc _) fun _ => Safe.bind (Safe.calcAdd _ _) fun _ => Safe.bind (Safe.covariantTerms _ _ _) fun _ =>
    Safe.bind (Safe.sumCalc _) fun _ => Safe.bind (Safe.calcSub _ _) fun _ => Safe.bind (Safe.tensorOf _) ?_
  rintro ⟨tx, _⟩
  refine Safe.bind (Safe.calcInit _ _) fun _ => Safe.bind (Safe.calcResult _ _ _ _) fun r =>
    Safe.bind (Safe.getComponents _ _ _) fun _ => Safe.bind (Safe.tensorOf _) ?_
  rintro ⟨_, oy''⟩
  exact Safe.bind (Safe.delete _) fun _ => Safe.bind (Safe.newTemp _ _ _ _ _) fun _ => Safe.calcInit _ _

theorem Safe.calcMatmul (letters : List Sym) (x y : CalcObj) : Safe E (calcMatmul E letters x y) := by
  unfold PyOGRe.calcMatmul
  rcases x with ⟨rx, tx, lx⟩
  rcases y with ⟨ry, ty, ly⟩
  cases rx <;> cases ry <;> first
    | exact Safe.matmulTensors _ _
    | exact Safe.matmulPartial _ _ _
    | exact Safe.matmulCovariant _ _ _ _ _ _
    | exact Safe.raise

theorem Safe.eval (letters : List Sym) (e : Expr K) : Safe E (e.eval E letters) := by
  induction e with
  | tensor t l => exact Safe.calcInit _ _
  | scale v e ih => exact Safe.bind ih fun _ => Safe.calcMul _ _
  | times e f ih ih' => exact Safe.bind ih fun _ => Safe.bind ih' fun _ => Safe.calcMul _ _
  | neg e ih => exact Safe.bind ih fun _ => Safe.calcNeg _
  | add e f ih ih' => exact Safe.bind ih fun _ => Safe.bind ih' fun _ => Safe.calcAddObj _ _
  | sub e f ih ih' => exact Safe.bind ih fun _ => Safe.bind ih' fun _ => Safe.calcSub _ _
  | mul e f ih ih' => exact Safe.bind ih fun _ => Safe.bind ih' fun _ => Safe.calcMatmul _ _ _
  | derivative r l => exact Safe.lift _

theorem Safe.requireMetric (m : Id') : Safe E (requireMetric m) :=
  Safe.bind (Safe.isMetric _) fun _ => Safe.ite Safe.raise (Safe.done _)

theorem Safe.storeResult (name : String) (comps : Arr K) (m c : Id') (ix : List Int) (symbol : String) (t : Id') :
    Safe E (storeResult name comps m c ix symbol t) :=
  Safe.bind (Safe.newTensor _ _ _ _ _ _ _) fun _ => Safe.bind Safe.deletePass fun _ => Safe.bind (Safe.delete _) fun _ =>
    Safe.done _

theorem Safe.partialOf (d : Sym) (t : Id') (l : List Sym) : Safe E (partialOf E d t l) :=
  Safe.bind (Safe.calcInit _ _) fun _ => Safe.matmulPartial _ _ _

theorem Safe.productOf (a : Id') (la : List Sym) (b : Id') (lb : List Sym) : Safe E (productOf E a la b lb) :=
  Safe.bind (Safe.calcInit _ _) fun _ => Safe.bind (Safe.calcInit _ _) fun _ => Safe.matmulTensors _ _

theorem Safe.unlessNamed (name : String) {f : PyM K Id'} (hf : Safe E f) : Safe E (unlessNamed name f) := by
  unfold PyOGRe.unlessNamed
  refine Safe.bind (fun w h => h) fun r => ?_
  cases r with
  | some t => exact Safe.done _
  | none => exact hf

theorem Safe.calcRiemann (m : Id') : Safe E (calcRiemann E m) := by
  unfold PyOGRe.calcRiemann computeRiemann
  exact Safe.bind (Safe.requireMetric _) fun _ => Safe.bind (Safe.getObj _) fun _ => Safe.unlessNamed _
    (Safe.bind (Safe.calcChristoffel _) fun _ => Safe.bind (Safe.partialOf _ _ _) fun _ =>
    Safe.bind (Safe.partialOf _ _ _) fun _ => Safe.bind (Safe.calcSub _ _) fun _ =>
    Safe.bind (Safe.productOf _ _ _ _) fun _ => Safe.bind (Safe.calcAddObj _ _) fun _ =>
    Safe.bind (Safe.productOf _ _ _ _) fun _ => Safe.bind (Safe.calcSub _ _) fun _ =>
    Safe.bind (Safe.calcResult _ _ _ _) fun _ => Safe.bind (Safe.getComponents _ _ _) fun _ =>
    Safe.bind (Safe.getObj _) fun _ => Safe.storeResult _ _ _ _ _ _ _)

theorem Safe.calcRicci (m : Id') : Safe E (calcRicci E m) := by
  unfold PyOGRe.calcRicci computeRicci
  exact Safe.bind (Safe.requireMetric _) fun _ => Safe.bind (Safe.getObj _) fun _ => Safe.unlessNamed _
    (Safe.bind (Safe.calcRiemann _) fun _ => Safe.bind (Safe.calcInit _ _) fun _ =>
    Safe.bind (Safe.calcResult _ _ _ _) fun _ => Safe.bind (Safe.getComponents _ _ _) fun _ =>
    Safe.bind (Safe.getObj _) fun _ => Safe.storeResult _ _ _ _ _ _ _)

theorem Safe.calcScalar (m : Id') : Safe E (calcScalar E m) := by
  unfold PyOGRe.calcScalar computeScalar
  exact Safe.bind (Safe.requireMetric _) fun _ => Safe.bind (Safe.getObj _) fun _ => Safe.unlessNamed _
    (Safe.bind (Safe.calcRicci _) fun _ => Safe.bind (Safe.calcInit _ _) fun _ =>
    Safe.bind (Safe.calcResult _ _ _ _) fun _ => Safe.bind (Safe.getComponents _ _ _) fun _ =>
    Safe.bind (Safe.getObj _) fun _ => Safe.storeResult _ _ _ _ _ _ _)

theorem Safe.calcEinstein (m : Id') : Safe E (calcEinstein E m) := by
  unfold PyOGRe.calcEinstein computeEinstein
  exact Safe.bind (Safe.requireMetric _) fun _ => Safe.bind (Safe.getObj _) fun _ => Safe.unlessNamed _
    (Safe.bind (Safe.calcRicci _) fun _ => Safe.bind (Safe.calcScalar _) fun _ => Safe.bind (Safe.calcInit _ _) fun _ =>
    Safe.bind (Safe.calcInit _ _) fun _ => Safe.bind (Safe.calcMul _ _) fun _ => Safe.bind (Safe.calcInit _ _) fun _ =>
    Safe.bind (Safe.matmulTensors _ _) fun _ => Safe.bind (Safe.calcSub _ _) fun _ =>
    Safe.bind (Safe.calcResult _ _ _ _) fun _ => Safe.bind (Safe.getComponents _ _ _) fun _ =>
    Safe.bind (Safe.getObj _) fun _ => Safe.storeResult _ _ _ _ _ _ _)

omit [Algebra ℚ K] in
theorem Safe.newMetric (name : Arg String) (comps : Arg (Arr K)) (c : Id') (ix : IndicesArg) (symbol : Arg String) :
    Safe E (newMetric E name comps c ix symbol) := by
  unfold PyOGRe.newMetric
  refine Safe.bind (Safe.lift _) fun _ => Safe.bind ?_ fun i => Safe.bind (Safe.getObj _) fun o =>
    Safe.bind (Safe.readComps _ _ _) fun _ => Safe.bind (Safe.writeComps _ _ _ _) fun _ =>
    Safe.bind (Safe.readComps _ _ _) fun _ => Safe.bind (Safe.writeComps _ _ _ _) fun _ => ?_
  · unfold newBaseTensor
    refine Safe.bind (fun w h => h) fun _ => Safe.ite Safe.raise (Safe.bind (Safe.getObj _) fun _ =>
      Safe.bind (Safe.lift _) fun _ => ?_)
    intro w h0
    exact noStale_push h0 (Or.inl rfl) _
  · cases ix with
    | none => exact Safe.raise
    | other => exact Safe.raise
    | tuple l =>
      exact Safe.bind (Safe.readComps _ _ _) fun _ => Safe.bind (Safe.lift _) fun _ =>
        Safe.bind (Safe.writeComps _ _ _ _) fun _ => Safe.done _

end PyOGRe
