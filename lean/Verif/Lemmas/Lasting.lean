import Verif.Lemmas.Persists
import Verif.Lemmas.Histories

/-! Helper lemmas: what calls do to the attributes of existing objects. -/

namespace PyOGRe
open Spec
variable {K : Type} {w w' w'' : World K} {T : Bool}

/-- What stays when objects are used: everything but, if not `T`, the default coordinates of Lagrangians and geodesic
equations; the object may be deleted, and components may be added. -/
structure Lasting (T : Bool) (o o' : Obj K) : Prop where
  kind : o'.kind = o.kind
  name : o'.name = o.name
  symbol : o'.symbol = o.symbol
  metric : o'.metric = o.metric
  syms : o'.syms = o.syms
  indices : o'.indices = o.indices
  coords : T = true ∨ o.kind.isLagrangian = false → o'.coords = o.coords
  trans : o'.trans = o.trans
  alive : o.alive = false → o'.alive = false
  stored : ∀ c ix a, Spec.stored o c ix = some a → Spec.stored o' c ix = some a

theorem Lasting.refl (o : Obj K) : Lasting T o o :=
  ⟨rfl, rfl, rfl, rfl, rfl, rfl, fun _ => rfl, rfl, id, fun _ _ _ h => h⟩

theorem Lasting.trans' {o o' o'' : Obj K} (h : Lasting T o o') (h' : Lasting T o' o'') : Lasting T o o'' :=
  ⟨h'.kind.trans h.kind, h'.name.trans h.name, h'.symbol.trans h.symbol, h'.metric.trans h.metric, h'.syms.trans h.syms,
    h'.indices.trans h.indices, fun hk => (h'.coords (by rw [h.kind]; exact hk)).trans (h.coords hk),
    h'.trans.trans h.trans, fun ha => h'.alive (h.alive ha),
    fun c ix a hs => h'.stored c ix a (h.stored c ix a hs)⟩

theorem Lasting.dead (o : Obj K) : Lasting T o { o with alive := false } :=
  ⟨rfl, rfl, rfl, rfl, rfl, rfl, fun _ => rfl, rfl, fun _ => rfl, fun _ _ _ h => h⟩

/-- That happens to the first `n` objects. -/
def Lasts (T : Bool) (n : Nat) (w w' : World K) : Prop :=
  w.objs.length ≤ w'.objs.length ∧ ∀ i < n, ∀ o, w.objs[i]? = some o → ∃ o', w'.objs[i]? = some o' ∧ Lasting T o o'

theorem Lasts.refl (n : Nat) (w : World K) : Lasts T n w w := ⟨le_refl _, fun _ _ o h => ⟨o, h, Lasting.refl o⟩⟩

theorem Lasts.trans {n : Nat} (h : Lasts T n w w') (h' : Lasts T n w' w'') : Lasts T n w w'' := by
  refine ⟨le_trans h.1 h'.1, fun i hi o ho => ?_⟩
  obtain ⟨o', e1, e2⟩ := h.2 i hi o ho
  obtain ⟨o'', f1, f2⟩ := h'.2 i hi o' e1
  exact ⟨o'', f1, e2.trans' f2⟩

theorem Persists.lasts (n : Nat) (h : Persists w w') : Lasts T n w w' := by
  refine ⟨le_of_eq ?_, fun i _ o ho => ?_⟩
  · have := congrArg List.length h.1.1
    simpa using this.symm
  · obtain ⟨o', e1, e2⟩ := h.1.get ho
    exact ⟨o', e1, ⟨congrArg (·.1) e2, congrArg (·.2.1) e2, congrArg (·.2.2.1) e2, congrArg (·.2.2.2.2.2.1) e2,
      congrArg (·.2.2.2.2.2.2.1) e2, congrArg (·.2.2.2.1) e2, fun _ => congrArg (·.2.2.2.2.1) e2,
      congrArg (·.2.2.2.2.2.2.2.1) e2,
      fun ha => (congrArg (·.2.2.2.2.2.2.2.2) e2 : o'.alive = o.alive).trans ha, h.2 i o o' ho e1⟩⟩

/-- A computation under which the first `n` objects last; if it returns, then `Q`. -/
def At (T : Bool) (n : Nat) {α : Type} (m : PyM K α) (Q : α → Prop) : Prop :=
  ∀ w, n ≤ w.objs.length → Lasts T n w (m w).2 ∧ ∀ a, (m w).1 = .ok a → Q a

section
variable {n : Nat} {α β : Type}

theorem At.bind {m : PyM K α} {f : α → PyM K β} {P : α → Prop} {Q : β → Prop} (hm : At T n m P)
    (hf : ∀ a, P a → At T n (f a) Q) : At T n (m >>= f) Q := by
  intro w hw
  obtain ⟨h1, h3⟩ := hm w hw
  rw [PyM.bind_apply]
  rcases h : m w with ⟨r, w'⟩
  rw [h] at h1 h3
  cases r with
  | ok a =>
    obtain ⟨k1, k3⟩ := hf a (h3 a rfl) w' (le_trans hw h1.1)
    exact ⟨h1.trans k1, k3⟩
  | error e => exact ⟨h1, fun a h => nomatch h⟩

theorem At.mono {m : PyM K α} {P Q : α → Prop} (hm : At T n m P) (h : ∀ a, P a → Q a) : At T n m Q := fun w hw => by
  obtain ⟨h1, h3⟩ := hm w hw
  exact ⟨h1, fun a ha => h a (h3 a ha)⟩

theorem At.any {m : PyM K α} {Q : α → Prop} (h : At T n m Q) : At T n m fun _ => True := At.mono h fun _ _ => trivial
theorem At.pure {a : α} {Q : α → Prop} (h : Q a) : At T n (Pure.pure a : PyM K α) Q :=
  fun w _ => ⟨Lasts.refl n w, fun b hb => by cases hb; exact h⟩
theorem At.done (a : α) : At T n (Pure.pure a : PyM K α) fun _ => True := At.pure trivial
theorem At.raise {e : PyErr} {Q : α → Prop} : At T n (PyM.raise e : PyM K α) Q :=
  fun w _ => ⟨Lasts.refl n w, fun b hb => nomatch hb⟩
theorem At.lift (x : Py α) : At T n (PyM.lift x : PyM K α) fun _ => True :=
  fun w _ => ⟨Lasts.refl n w, fun _ _ => trivial⟩
theorem At.kept {m : PyM K α} (h : Kp m) : At T n m fun _ => True := fun w _ => ⟨(h w).lasts n, fun _ _ => trivial⟩
theorem At.reads {m : PyM K α} (h : ∀ w, (m w).2 = w) : At T n m fun _ => True := At.kept (Kp.same h)
theorem At.ite {b : Prop} [Decidable b] {m m' : PyM K α} {Q : α → Prop} (h : At T n m Q) (h' : At T n m' Q) :
    At T n (if b then m else m') Q := by split_ifs <;> assumption
theorem At.onlyIf {b : Bool} {m : PyM K Unit} (h : At T n m fun _ => True) : At T n (PyM.onlyIf b m) fun _ => True :=
  At.ite h (At.done ())
theorem At.getObj (i : Id') : At T n (K := K) (PyOGRe.getObj i) fun _ => True := At.kept (Kp.getObj i)
theorem At.world : At T n (K := K) PyM.world fun _ => True := At.reads fun _ => rfl

/-- Any change of an object after the first `n`. -/
theorem At.modify {i : Id'} (hi : n ≤ i) (u : Obj K → Obj K) : At T n (modifyObj i u) fun _ => True := by
  intro w _
  refine ⟨⟨by simp [modifyObj], fun j hj o ho => ⟨o, ?_, Lasting.refl o⟩⟩, fun _ _ => trivial⟩
  show (w.objs.modify i u)[j]? = _
  rw [modify_ne (by omega), ho]

/-- A lasting change. -/
theorem At.change {i : Id'} {u : Obj K → Obj K} (h : ∀ o, Lasting T o (u o)) : At T n (modifyObj i u) fun _ => True := by
  intro w _
  refine ⟨⟨by simp [modifyObj], fun j hj o ho => ?_⟩, fun _ _ => trivial⟩
  by_cases hij : i = j
  · subst hij
    exact ⟨u o, modify_same ho u, h o⟩
  · refine ⟨o, ?_, Lasting.refl o⟩
    show (w.objs.modify i u)[j]? = _
    rw [modify_ne hij, ho]

theorem At.write {i : Id'} (hi : n ≤ i) (c : Id') (ix : List Int) (a : Arr K) :
    At T n (writeComps i c ix a) fun _ => True :=
  At.bind (At.getObj _) fun _ _ => At.bind (At.kept (Kp.lookup _ _)) fun _ _ => At.modify hi _

theorem At.register {f : Id' → Obj K} : At T n (register f) fun i => n ≤ i := by
  intro w hw
  refine ⟨⟨by simp [PyOGRe.register], fun i hi o ho => ⟨o, getElem?_append_old ho, Lasting.refl o⟩⟩, fun a ha => ?_⟩
  cases ha; exact hw

theorem At.isCoordinates (c : Id') : At T n (K := K) (PyOGRe.isCoordinates c) fun _ => True := At.reads fun _ => rfl
theorem At.isMetric (c : Id') : At T n (K := K) (PyOGRe.isMetric c) fun _ => True := At.reads fun _ => rfl

theorem At.newTensor (kind : Kind) (name : Arg String) (comps : Arg (Arr K)) (m c : Id') (ix : IndicesArg)
    (symbol : Arg String) : At T n (newTensor kind name comps m c ix symbol) fun i => n ≤ i := by
  unfold PyOGRe.newTensor newBaseTensor
  refine At.bind (At.isMetric _) fun b _ => At.ite At.raise ?_
  refine At.bind (At.isCoordinates _) fun b _ => At.ite At.raise ?_
  exact At.bind (At.getObj _) fun _ _ => At.bind (At.lift _) fun _ _ => At.register

theorem At.delete (t : Id') : At T n (K := K) (deleteObj t) fun _ => True := by
  intro w hw
  have h : ∀ l : List Id', Lasts T n w ⟨w.objs.modify t fun o => { o with alive := false }, l⟩ := by
    intro l
    obtain ⟨⟨h1, h2⟩, -⟩ := At.change (T := T) (n := n) (i := t) (fun o : Obj K => Lasting.dead o) w hw
    exact ⟨h1, h2⟩
  refine ⟨?_, fun _ _ => trivial⟩
  unfold deleteObj
  split_ifs
  · exact Lasts.refl n w
  · exact h _
  · exact h _

theorem At.tryDelete (t : Id') : At T n (K := K) (tryDelete t) fun _ => True := by
  intro w hw
  obtain ⟨h1, -⟩ := At.delete (T := T) (n := n) t w hw
  refine ⟨?_, fun _ _ => trivial⟩
  unfold PyOGRe.tryDelete
  rcases h : deleteObj t w with ⟨r, w1⟩
  rw [h] at h1
  split <;> first | exact h1 | (rename_i h2; cases h2; exact h1)

theorem At.passOf {sel : Obj K → Bool} {del : Id' → PyM K Unit} (h : ∀ t, At T n (del t) fun _ => True) :
    At T n (deletePass sel del) fun _ => True := by
  have key : ∀ fuel i, At T n (deleteFrom sel del fuel i) fun _ => True := by
    intro fuel
    induction fuel with
    | zero => exact fun i => At.done ()
    | succ fuel ih =>
      intro i
      unfold deleteFrom
      refine At.bind At.world fun w0 _ => ?_
      cases w0.instances[i]? with
      | none => exact At.done ()
      | some t => exact At.bind (At.getObj _) fun o _ => At.bind (At.onlyIf (h t)) fun _ _ => ih _
  intro w hw
  exact key _ _ w hw

theorem At.deletePass : At T n (K := K) (deletePass (hasName "TEMP") deleteObj) fun _ => True := At.passOf At.delete

theorem At.times {m : PyM K Unit} (h : At T n m fun _ => True) (k : Nat) : At T n (timesDo m k) fun _ => True := by
  induction k with
  | zero => exact At.done ()
  | succ k ih => exact At.bind h fun _ _ => ih

theorem At.clear : At T n (K := K) clearInstances fun _ => True := by
  unfold clearInstances deleteResults
  refine At.bind (At.times (At.passOf At.tryDelete) _) fun _ _ => At.bind (At.times (At.passOf At.tryDelete) _) fun _ _ => ?_
  intro w hw
  exact ⟨⟨le_refl _, fun i _ o ho => ⟨o, ho, Lasting.refl o⟩⟩, fun _ _ => trivial⟩

end

section
variable [CommRing K] {E : Engine K} {n : Nat} {α β : Type}

theorem At.tensorOf (x : CalcObj) : At T n (K := K) (PyOGRe.tensorOf x) fun _ => True := by
  unfold PyOGRe.tensorOf
  cases x.tensor with
  | none => exact At.raise
  | some t => exact At.bind (At.getObj _) fun _ _ => At.done _

theorem At.metricAttr (x : CalcObj) : At T n (K := K) (PyOGRe.metricAttr x) fun _ => True := At.reads fun _ => rfl

theorem At.getComponents (t : Id') (c : Option Id') (ix : Option (List Int)) :
    At T n (PyOGRe.getComponents E t c ix) fun _ => True := At.kept (Kp.getComponents _ _ _)

theorem At.readComps (t c : Id') (ix : List Int) : At T n (K := K) (PyOGRe.readComps t c ix) fun _ => True :=
  At.kept (Kp.readComps _ _ _)

theorem At.defaultComps (t : Id') : At T n (K := K) (PyOGRe.defaultComps t) fun _ => True := by
  unfold PyOGRe.defaultComps
  exact At.bind (At.getObj _) fun _ _ => At.readComps _ _ _

theorem At.newTemp (a : Arr K) (m c : Id') (ix : List Int) (s : String) : At T n (PyOGRe.newTemp a m c ix s) fun i => n ≤ i :=
  At.newTensor _ _ _ _ _ _ _

theorem At.traceStep (s : Sym) (t : Id') (labels : List Sym) : At T n (traceStep E s t labels) fun _ => True := by
  unfold PyOGRe.traceStep
  dsimp only
  exact At.ite At.raise (At.ite (At.bind (At.getObj _) fun _ _ => At.bind (At.lift _) fun _ _ =>
    At.bind (At.lift _) fun _ _ => At.bind (At.getComponents _ _ _) fun _ _ => At.bind (At.getComponents _ _ _) fun _ _ =>
    At.bind (At.lift _) fun _ _ => At.bind (At.getObj _) fun _ _ => At.bind (At.newTemp _ _ _ _ _) fun _ _ => At.done _)
    (At.done _))

theorem At.traceLoop (ls : List Sym) : ∀ (t : Id') (labels : List Sym), At T n (traceLoop E ls t labels) fun _ => True := by
  induction ls with
  | nil => exact fun t labels => At.done _
  | cons s ls ih => exact fun t labels => At.bind (At.traceStep _ _ _) fun r _ => ih _ _

theorem At.calcInit (t : Id') (labels : List Sym) : At T n (calcInit E t labels) fun _ => True := by
  unfold PyOGRe.calcInit
  refine At.bind (P := fun _ => True) (At.kept (Kp.requireTensor _)) fun _ _ => ?_
  exact At.bind (At.getObj _) fun _ _ => At.bind (At.getComponents _ _ _) fun _ _ => At.bind (At.lift _) fun _ _ =>
    At.bind (At.traceLoop _ _ _) fun _ _ => At.done _

theorem At.calcAddObj (x y : CalcObj) : At T n (calcAddObj E x y) fun _ => True := by
  unfold PyOGRe.calcAddObj
  refine At.ite At.raise (At.bind (At.metricAttr _) fun _ _ => At.bind (At.metricAttr _) fun _ _ => At.ite At.raise
    (At.bind (At.tensorOf _) ?_))
  rintro ⟨tx, ox⟩ -
  refine At.bind (At.tensorOf _) ?_
  rintro ⟨ty, oy⟩ -
  exact At.ite At.raise (At.ite At.raise (At.bind (At.getComponents _ _ _) fun _ _ => At.bind (At.lift _) fun _ _ =>
    At.bind (At.lift _) fun _ _ => At.bind (At.lift _) fun _ _ => At.bind (At.getComponents _ _ _) fun _ _ =>
    At.bind (At.lift _) fun _ _ => At.bind (At.lift _) fun _ _ => At.bind (At.newTemp _ _ _ _ _) fun _ _ =>
    At.calcInit _ _))

theorem At.requireArray (x : CalcObj) : At T n (K := K) (PyOGRe.requireArray x) fun _ => True :=
  At.reads (requireArray_state x)

theorem At.calcNeg (x : CalcObj) : At T n (calcNeg E x) fun _ => True := by
  unfold PyOGRe.calcNeg
  refine At.bind (At.requireArray x) fun _ _ => At.ite At.raise (At.bind (At.tensorOf _) ?_)
  rintro ⟨tx, ox⟩ -
  exact At.bind (At.defaultComps _) fun _ _ => At.bind (At.newTemp _ _ _ _ _) fun _ _ => At.calcInit _ _

theorem At.scaleBy (s t : Id') (l : List Sym) : At T n (scaleBy E s t l) fun _ => True := by
  unfold PyOGRe.scaleBy
  exact At.bind (At.getObj _) fun _ _ => At.bind (At.getComponents _ _ _) fun _ _ => At.bind (At.readComps _ _ _) fun _ _ =>
    At.done _

theorem At.mulParts (tx ty : Id') (ox oy : Obj K) (lx ly : List Sym) :
    At T n (mulParts E tx ty ox oy lx ly) fun _ => True := by
  unfold PyOGRe.mulParts
  refine At.ite (At.ite (At.bind (At.scaleBy _ _ _) fun _ _ => At.scaleBy _ _ _) (At.scaleBy _ _ _)) (At.scaleBy _ _ _)

theorem At.calcMul (x : CalcObj) (y : CalcArg K) : At T n (calcMul E x y) fun _ => True := by
  cases y with
  | other => exact At.ite At.raise At.raise
  | num v =>
    unfold PyOGRe.calcMul
    refine At.ite At.raise (At.bind (At.tensorOf _) ?_)
    rintro ⟨tx, ox⟩ -
    exact At.bind (At.defaultComps _) fun _ _ => At.bind (At.newTemp _ _ _ _ _) fun _ _ => At.calcInit _ _
  | obj y =>
    unfold PyOGRe.calcMul
    refine At.ite At.raise (At.bind (At.tensorOf _) ?_)
    rintro ⟨ty, oy⟩ -
    refine At.bind (At.tensorOf _) ?_
    rintro ⟨tx, ox⟩ -
    exact At.ite At.raise (At.bind (At.mulParts _ _ _ _ _ _) fun _ _ => At.bind (At.newTemp _ _ _ _ _) fun _ _ =>
      At.calcInit _ _)

theorem At.matmulTensors (x y : CalcObj) : At T n (matmulTensors E x y) fun _ => True := by
  unfold PyOGRe.matmulTensors
  refine At.bind (At.metricAttr _) fun _ _ => At.bind (At.metricAttr _) fun _ _ => At.ite At.raise
    (At.bind (At.tensorOf _) ?_)
  rintro ⟨tx, ox⟩ -
  refine At.bind (At.tensorOf _) ?_
  rintro ⟨ty, oy⟩ -
  exact At.ite (At.calcMul _ _) (At.bind (At.getComponents _ _ _) fun _ _ => At.bind (At.lift _) fun _ _ =>
    At.bind (At.getComponents _ _ _) fun _ _ => At.bind (At.lift _) fun _ _ => At.bind (At.lift _) fun _ _ =>
    At.bind (At.newTemp _ _ _ _ _) fun _ _ => At.calcInit _ _)

theorem At.matmulPartial (d : List Sym) (y : CalcObj) (l : List Sym) : At T n (matmulPartial E d y l) fun _ => True := by
  unfold PyOGRe.matmulPartial
  refine At.bind (At.tensorOf _) ?_
  rintro ⟨ty, oy⟩ -
  exact At.bind (At.lift _) fun _ _ => At.bind (At.lift _) fun _ _ => At.bind (At.getComponents _ _ _) fun _ _ =>
    At.bind (At.getObj _) fun _ _ => At.bind (At.lift _) fun _ _ => At.bind (At.newTemp _ _ _ _ _) fun _ _ =>
    At.calcInit _ _

theorem At.deletePasses : At T n (K := K) (timesDo (PyOGRe.deletePass (hasName "TEMP") deleteObj) 2) fun _ => True :=
  At.bind At.deletePass fun _ _ => At.bind At.deletePass fun _ _ => At.done _

theorem At.calcResult (x : CalcObj) (name symbol : String) (ix : List Sym) :
    At T n (calcResult E x name symbol ix) fun t => n ≤ t := by
  unfold PyOGRe.calcResult
  refine At.ite At.raise (At.bind (At.lift _) fun _ _ => At.bind (At.tensorOf _) ?_)
  rintro ⟨tx, ox⟩ -
  exact At.bind (At.lift _) fun _ _ => At.bind (At.getComponents _ _ _) fun _ _ => At.bind (At.lift _) fun _ _ =>
    At.bind (At.newTensor _ _ _ _ _ _ _) fun t ht => At.bind At.deletePasses fun _ _ => At.pure ht

variable [DecidableEq K]

theorem At.calcAdd (x : CalcObj) (y : CalcArg K) : At T n (calcAdd E x y) fun _ => True := by
  cases y with
  | other => exact At.raise
  | num v => exact At.ite (At.done _) At.raise
  | obj y => exact At.calcAddObj _ _

theorem At.calcSub (x : CalcObj) (y : CalcArg K) : At T n (calcSub E x y) fun _ => True := by
  cases y with
  | other => exact At.raise
  | num v => exact At.ite (At.done _) At.raise
  | obj y =>
    unfold PyOGRe.calcSub
    refine At.ite At.raise (At.bind (At.tensorOf _) ?_)
    rintro ⟨tx, ox⟩ -
    refine At.bind (At.tensorOf _) ?_
    rintro ⟨ty, oy⟩ -
    exact At.ite At.raise (At.ite At.raise (At.bind (At.calcNeg _) fun _ _ => At.calcAddObj _ _))

theorem At.copyAs (t : Id') (name : String) : At T n (K := K) (copyAs t name) fun i => n ≤ i := by
  unfold PyOGRe.copyAs
  refine At.bind (At.getObj _) fun o _ => ?_
  intro w hw
  refine ⟨⟨by simp, fun i hi oi hoi => ⟨oi, getElem?_append_old hoi, Lasting.refl oi⟩⟩, fun a ha => ?_⟩
  cases ha; exact hw

theorem At.changeDefaultIndices {i : Id'} (hi : n ≤ i) (ix : List Int) :
    At T n (changeDefaultIndices E i ix) fun _ => True := by
  unfold PyOGRe.changeDefaultIndices
  exact At.bind (At.getObj _) fun _ _ => At.bind (At.lift _) fun _ _ =>
    At.bind (At.kept fun w => (checkRepresentation_kept _ _ _ w).1) fun _ _ => At.onlyIf (At.modify hi _)

variable [Algebra ℚ K]

theorem At.calcChristoffel (m : Id') : At T n (calcChristoffel E m) fun _ => True := by
  unfold PyOGRe.calcChristoffel requireMetric
  refine At.bind (P := fun _ => True) ?_ fun _ _ => At.bind (At.getObj _) fun om _ =>
    At.bind (P := fun _ => True) (At.reads fun _ => rfl) fun r _ => ?_
  · exact At.bind (At.isMetric _) fun _ _ => At.ite At.raise (At.done _)
  cases r with
  | some t => exact At.done _
  | none =>
    dsimp only
    unfold computeChristoffel
    refine At.bind (At.getObj _) fun _ _ => At.bind (At.copyAs _ _) fun i hi =>
      At.bind (At.changeDefaultIndices hi _) fun _ _ => At.bind (At.modify hi _) fun _ _ =>
      At.bind (At.calcInit _ _) fun _ _ => At.bind (At.calcMul _ _) fun _ _ => At.bind (At.calcInit _ _) fun _ _ =>
      At.bind (At.matmulPartial _ _ _) fun _ _ => At.bind (At.calcInit _ _) fun _ _ =>
      At.bind (At.matmulPartial _ _ _) fun _ _ => At.bind (At.calcAddObj _ _) fun _ _ => At.bind (At.calcInit _ _) fun _ _ =>
      At.bind (At.matmulPartial _ _ _) fun _ _ => At.bind (At.calcSub _ _) fun _ _ =>
      At.bind (At.matmulTensors _ _) fun _ _ => At.bind (At.calcResult _ _ _ _) fun t ht =>
      At.bind (At.getComponents _ _ _) fun _ _ => At.bind (At.getObj _) fun _ _ =>
      At.bind (At.newTensor _ _ _ _ _ _ _) fun _ _ => At.bind At.deletePass fun _ _ =>
      At.bind (At.delete _) fun _ _ => At.done _

theorem At.covariantTerms (c t : Id') (ls : List (List Sym × List Sym)) :
    At T n (covariantTerms E c t ls) fun _ => True := by
  induction ls with
  | nil => exact At.done _
  | cons l ls ih =>
    unfold PyOGRe.covariantTerms covariantTerm
    exact At.bind (At.bind (At.calcInit _ _) fun _ _ => At.bind (At.calcInit _ _) fun _ _ => At.matmulTensors _ _)
      fun _ _ => At.bind ih fun _ _ => At.done _

theorem At.sumCalc (l : List CalcObj) : At T n (sumCalc E l) fun _ => True := by
  have h : ∀ (l : List CalcObj) x, At T n (addAll E x l) fun _ => True := by
    intro l
    induction l with
    | nil => exact fun x => At.done _
    | cons y l ih => exact fun x => At.bind (At.calcAddObj _ _) fun _ _ => ih _
  cases l with
  | nil => exact At.done _
  | cons x l => exact At.bind (At.calcAdd _ _) fun _ _ => At.bind (h _ _) fun _ _ => At.done _

theorem At.matmulCovariant (letters d : List Sym) (y : CalcObj) (ps : List Sym → Py Sym) (l l' : List Sym) :
    At T n (matmulCovariant E letters d y ps l l') fun _ => True := by
  unfold PyOGRe.matmulCovariant
  refine At.bind (At.tensorOf _) ?_
  rintro ⟨_, oy⟩ -
  refine At.bind (At.calcChristoffel _) fun _ _ => At.bind (At.lift _) fun _ _ => At.bind (At.lift _) fun _ _ =>
    At.bind (At.tensorOf _) ?_
  rintro ⟨ty, oy'⟩ -
  refine At.bind (At.matmulPartial _ _ _) fun _ _ => At.bind (At.covariantTerms _ _ _) fun _ _ =>
    At.bind (At.sumCalc _) fun _ _ => At.bind (At.calcAdd _ _) fun _ _ => At.bind (At.covariantTerms _ _ _) fun _ _ =>
    At.bind (At.sumCalc _) fun _ _ => At.bind (At.calcSub _ _) fun _ _ => At.bind (At.tensorOf _) ?_
  rintro ⟨tx, _⟩ -
  refine At.bind (At.calcInit _ _) fun _ _ => At.bind (At.calcResult _ _ _ _) fun r hr =>
    At.bind (At.getComponents _ _ _) fun _ _ => At.bind (At.tensorOf _) ?_
  rintro ⟨_, oy''⟩ -
  exact At.bind (At.delete _) fun _ _ => At.bind (At.newTemp _ _ _ _ _) fun _ _ => At.calcInit _ _

theorem At.calcMatmul (letters : List Sym) (x y : CalcObj) : At T n (calcMatmul E letters x y) fun _ => True := by
  unfold PyOGRe.calcMatmul
  rcases x with ⟨rx, tx, lx⟩
  rcases y with ⟨ry, ty, ly⟩
  cases rx <;> cases ry <;> first
    | exact At.matmulTensors _ _
    | exact At.matmulPartial _ _ _
    | exact At.matmulCovariant _ _ _ _ _ _
    | exact At.raise

theorem At.eval (letters : List Sym) (e : Expr K) : At T n (e.eval E letters) fun _ => True := by
  induction e with
  | tensor t l => exact At.calcInit _ _
  | scale v e ih => exact At.bind ih fun _ _ => At.calcMul _ _
  | times e f ih ih' => exact At.bind ih fun _ _ => At.bind ih' fun _ _ => At.calcMul _ _
  | neg e ih => exact At.bind ih fun _ _ => At.calcNeg _
  | add e f ih ih' => exact At.bind ih fun _ _ => At.bind ih' fun _ _ => At.calcAddObj _ _
  | sub e f ih ih' => exact At.bind ih fun _ _ => At.bind ih' fun _ _ => At.calcSub _ _
  | mul e f ih ih' => exact At.bind ih fun _ _ => At.bind ih' fun _ _ => At.calcMatmul _ _ _
  | derivative r l => exact At.lift _

theorem At.requireTensor (t : Id') : At T n (K := K) (requireTensor t) fun _ => True := At.kept (Kp.requireTensor t)

theorem At.requireMetric (m : Id') : At T n (K := K) (requireMetric m) fun _ => True := by
  unfold PyOGRe.requireMetric
  exact At.bind (At.isMetric _) fun _ _ => At.ite At.raise (At.done _)

theorem At.requireCoords (c : Option Id') : At T n (K := K) (requireCoords c) fun _ => True := by
  unfold PyOGRe.requireCoords
  refine At.bind (P := fun _ => True) ?_ fun _ _ => At.ite At.raise (At.done _)
  cases c with
  | none => exact At.done _
  | some c => exact At.isCoordinates _

theorem At.productOf (a : Id') (la : List Sym) (b : Id') (lb : List Sym) :
    At T n (productOf E a la b lb) fun _ => True :=
  At.bind (At.calcInit _ _) fun _ _ => At.bind (At.calcInit _ _) fun _ _ => At.matmulTensors _ _

theorem At.partialOf (d : Sym) (t : Id') (labels : List Sym) : At T n (partialOf E d t labels) fun _ => True :=
  At.bind (At.calcInit _ _) fun _ _ => At.matmulPartial _ _ _

theorem At.unlessNamed {name : String} {p : PyM K Id'} (hp : At T n p fun _ => True) :
    At T n (unlessNamed name p) fun _ => True := by
  unfold PyOGRe.unlessNamed
  refine At.bind (P := fun _ => True) (At.reads fun _ => rfl) fun r _ => ?_
  cases r with
  | none => exact hp
  | some t => exact At.done _

theorem At.storeResult (name : String) (comps : Arr K) (m c : Id') (ix : List Int) (symbol : String) (t : Id') :
    At T n (storeResult name comps m c ix symbol t) fun _ => True :=
  At.bind (At.newTensor _ _ _ _ _ _ _) fun _ _ => At.bind At.deletePass fun _ _ =>
    At.bind (At.delete _) fun _ _ => At.done _

theorem At.deleteEach (l : List Id') : At T n (K := K) (l.forM deleteObj) fun _ => True := by
  induction l with
  | nil => exact At.done _
  | cons t l ih => exact At.bind (At.delete _) fun _ _ => ih

theorem At.storeCurve (kind : Kind) (name : String) (comps : Arr K) (m c : Id') (ix : List Int) (symbol : String)
    (l : List Id') : At T n (storeCurve kind name comps m c ix symbol l) fun _ => True :=
  At.bind (At.newTensor _ _ _ _ _ _ _) fun _ _ => At.bind At.deletePass fun _ _ =>
    At.bind (At.deleteEach _) fun _ _ => At.done _

theorem At.curveComponents {C : Curves K} (t : Id') (c : Option Id') (ix : Option (List Int)) :
    At T n (curveComponents E C t c ix) fun _ => True := At.kept (Kp.curveComponents _ _ _)

theorem At.lowerComponents (t : Id') (c : Option Id') : At T n (lowerComponents E t c) fun _ => True :=
  At.kept (Kp.lowerComponents _ _)

/-- The change of the default coordinates of a Lagrangian or geodesic equation. -/
theorem lasts_curveChange {C : Curves K} {t c : Id'} (h : ∀ o, w.objs[t]? = some o → o.kind.isLagrangian = true) :
    Lasts false n w (curveChangeCoords E C t c w).2 := by
  have key : ∀ w1, Persists w w1 → Lasts false n w (modifyObj t (fun o => { o with coords := c }) w1).2 := by
    intro w1 h1
    refine ⟨?_, fun i hi o ho => ?_⟩
    · exact le_trans (h1.lasts (T := false) n).1 (by simp [modifyObj])
    · obtain ⟨o1, e1, e2⟩ := (h1.lasts (T := false) (n := n)).2 i hi o ho
      by_cases hti : t = i
      · subst hti
        refine ⟨{ o1 with coords := c }, modify_same e1 _, ?_⟩
        exact ⟨e2.kind, e2.name, e2.symbol, e2.metric, e2.syms, e2.indices,
          fun hk => absurd (h o ho) (by rw [hk.resolve_left (by decide)]; decide), e2.trans, e2.alive, e2.stored⟩
      · refine ⟨o1, ?_, e2⟩
        show (w1.objs.modify t _)[i]? = _
        rw [modify_ne hti, e1]
  have pass : ∀ {β γ : Type} {m : PyM K β} {f : β → PyM K γ} {w1 : World K}, Kp m → Persists w w1 →
      (∀ a w2, Persists w w2 → Lasts false n w (f a w2).2) → Lasts false n w ((m >>= f) w1).2 := by
    intro β γ m f w1 hm h1 hf
    rw [PyM.bind_apply]
    have h2 := hm w1
    rcases hmw : m w1 with ⟨r, w2⟩
    rw [hmw] at h2
    cases r with
    | ok a => exact hf a w2 (h1.trans h2)
    | error e => exact (h1.trans h2).lasts n
  unfold PyOGRe.curveChangeCoords
  refine pass (Kp.isCoordinates _) (Persists.refl w) fun b w1 h1 => ?_
  cases b with
  | false => exact h1.lasts n
  | true =>
    refine pass (Kp.getObj _) h1 fun o w2 h2 => ?_
    split_ifs
    · exact h2.lasts n
    · refine pass (Kp.getObj _) h2 fun oc w3 h3 => ?_
      split_ifs
      · exact pass (Kp.getObj _) h3 fun _ w4 h4 => h4.lasts n
      · have hk := tensorCheck_kept (E := E) t c o.indices w3
        rw [PyM.bind_apply]
        rcases hc : tensorCheck E t c o.indices w3 with ⟨r, w4⟩
        rw [hc] at hk
        cases r with
        | error e => exact (h3.trans hk.1).lasts n
        | ok b =>
          have h5 : Persists w3 (PyM.onlyIf (!b) (curveTransform E C t c o.indices) w4).2 := by
            cases b with
            | true => exact hk.1
            | false =>
              obtain ⟨rfl, hab⟩ := hk.2 w4 rfl
              exact hk.1.only (Wr.curveTransform _ _) hab
          show Lasts false n w ((PyM.onlyIf (!b) (curveTransform E C t c o.indices) >>= fun _ =>
            modifyObj t fun o => { o with coords := c }) w4).2
          rw [PyM.bind_apply]
          rcases ht : PyM.onlyIf (!b) (curveTransform E C t c o.indices) w4 with ⟨r, w5⟩
          rw [ht] at h5
          cases r with
          | error e => exact (h3.trans h5).lasts n
          | ok u => exact key w5 (h3.trans h5)

theorem At.unlessCurve {C : Curves K} {sel : Kind → Bool} (hsel : ∀ k, sel k = true → k.isLagrangian = true)
    {name : String} {c : Id'} {p : PyM K Id'} (hp : At false n p fun _ => True) :
    At false n (unlessCurve E C sel name c p) fun _ => True := by
  intro w hw
  unfold PyOGRe.unlessCurve
  rw [PyM.bind_apply, PyM.world_apply]
  dsimp only
  cases hf : w.instances.find? fun i => (w.objs[i]?).any fun o => sel o.kind && o.name == name with
  | none => exact hp w hw
  | some t =>
    dsimp only
    have h := List.find?_some hf
    refine ⟨?_, fun _ _ => trivial⟩
    rw [PyM.bind_apply]
    rcases getObj_cases t w with ⟨o, ho, -, e⟩ | e
    · rw [e]
      dsimp only
      rw [ho, Option.any_some, Bool.and_eq_true] at h
      have hl : Lasts false n w (curveChangeCoords E C t c w).2 := lasts_curveChange fun o' ho' => by
        rw [ho] at ho'; cases ho'; exact hsel _ h.1
      rw [PyM.bind_apply]
      cases hb : (o.coords != c) with
      | false => exact Lasts.refl n w
      | true =>
        rw [show PyM.onlyIf true (curveChangeCoords E C t c) w = curveChangeCoords E C t c w from rfl]
        generalize curveChangeCoords E C t c w = y at hl
        rcases y with ⟨r, w1⟩
        cases r <;> exact hl
    · rw [e]
      exact Lasts.refl n w


/-- One step after the other. -/
macro "lasting" : tactic => `(tactic| repeat' (first
  | with_reducible refine At.bind (P := fun _ => True) ?_ fun _ _ => ?_
  | with_reducible exact At.done _
  | with_reducible exact At.raise
  | with_reducible exact At.lift _
  | with_reducible exact At.getObj _
  | with_reducible exact At.getComponents _ _ _
  | with_reducible exact At.curveComponents _ _ _
  | with_reducible exact At.calcInit _ _
  | with_reducible exact At.productOf _ _ _ _
  | with_reducible exact At.partialOf _ _ _
  | with_reducible exact At.matmulTensors _ _
  | with_reducible exact At.calcAddObj _ _
  | with_reducible exact At.calcSub _ _
  | with_reducible exact At.calcMul _ _
  | with_reducible exact At.any (At.newTemp _ _ _ _ _)
  | with_reducible exact At.any (At.calcResult _ _ _ _)
  | with_reducible exact At.storeResult _ _ _ _ _ _ _
  | with_reducible exact At.storeCurve _ _ _ _ _ _ _ _
  | with_reducible exact At.requireMetric _
  | with_reducible exact At.requireTensor _
  | with_reducible exact At.requireCoords _
  | with_reducible assumption
  | with_reducible refine At.unlessNamed ?_
  | with_reducible refine At.unlessCurve (by intro k; cases k <;> decide) ?_))


theorem At.calcRiemann (m : Id') : At T n (calcRiemann E m) fun _ => True := by
  have h := At.calcChristoffel (T := T) (n := n) (E := E) m
  unfold PyOGRe.calcRiemann computeRiemann
  lasting

theorem At.calcRicci (m : Id') : At T n (calcRicci E m) fun _ => True := by
  have h := At.calcRiemann (T := T) (n := n) (E := E) m
  unfold PyOGRe.calcRicci computeRicci
  lasting

theorem At.calcScalar (m : Id') : At T n (calcScalar E m) fun _ => True := by
  have h := At.calcRicci (T := T) (n := n) (E := E) m
  unfold PyOGRe.calcScalar computeScalar
  lasting

theorem At.calcEinstein (m : Id') : At T n (calcEinstein E m) fun _ => True := by
  have h := At.calcRicci (T := T) (n := n) (E := E) m
  have h' := At.calcScalar (T := T) (n := n) (E := E) m
  unfold PyOGRe.calcEinstein computeEinstein
  lasting

theorem At.computeWeyl (m : Id') (k : Nat) (a r s : Id') : At T n (computeWeyl E m k a r s) fun _ => True := by
  unfold PyOGRe.computeWeyl
  lasting

theorem At.calcWeyl (m : Id') : At T n (calcWeyl E m) fun _ => True := by
  have h := At.calcRiemann (T := T) (n := n) (E := E) m
  have h' := At.calcRicci (T := T) (n := n) (E := E) m
  have h'' := At.calcScalar (T := T) (n := n) (E := E) m
  have k := fun k a r s => At.computeWeyl (T := T) (n := n) (E := E) m k a r s
  unfold PyOGRe.calcWeyl
  lasting
  exact k _ _ _ _

theorem At.calcNormSquared (t : Id') : At T n (calcNormSquared E t) fun _ => True := by
  unfold PyOGRe.calcNormSquared
  lasting

theorem At.calcLagrangian {C : Curves K} (m : Id') (c : Option Id') : At false n (calcLagrangian E C m c) fun _ => True := by
  unfold PyOGRe.calcLagrangian computeLagrangian
  lasting

theorem At.calcGeodesicLagrangian {C : Curves K} (m : Id') (c : Option Id') :
    At false n (calcGeodesicLagrangian E C m c) fun _ => True := by
  have h := fun c => At.calcLagrangian (n := n) (E := E) (C := C) m c
  unfold PyOGRe.calcGeodesicLagrangian computeGeodesicLagrangian
  lasting
  exact h _

theorem At.calcGeodesicInactive {C : Curves K} (m : Id') (c : Option Id') :
    At false n (calcGeodesicInactive E C m c) fun _ => True := by
  have h := fun c => At.calcLagrangian (n := n) (E := E) (C := C) m c
  unfold PyOGRe.calcGeodesicInactive computeGeodesicInactive
  lasting
  exact h _

theorem At.calcGeodesicChristoffel {C : Curves K} (m : Id') (c : Option Id') :
    At false n (calcGeodesicChristoffel E C m c) fun _ => True := by
  have h := At.calcChristoffel (T := false) (n := n) (E := E) m
  unfold PyOGRe.calcGeodesicChristoffel computeGeodesicChristoffel
  lasting

theorem At.computeGeodesicTime {C : Curves K} (m c : Id') : At false n (computeGeodesicTime E C m c) fun _ => True := by
  have h := At.calcChristoffel (T := false) (n := n) (E := E) m
  unfold PyOGRe.computeGeodesicTime
  lasting

theorem At.calcGeodesicTime {C : Curves K} (m : Id') (c : Option Id') :
    At false n (calcGeodesicTime E C m c) fun _ => True := by
  have h := fun c => At.computeGeodesicTime (n := n) (E := E) (C := C) m c
  unfold PyOGRe.calcGeodesicTime
  lasting
  exact h _

theorem At.newMetric (name : Arg String) (comps : Arg (Arr K)) (c : Id') (ix : IndicesArg) (symbol : Arg String) :
    At T n (newMetric E name comps c ix symbol) fun _ => True := by
  unfold PyOGRe.newMetric
  refine At.bind (At.lift _) fun _ _ => At.bind (P := fun i => n ≤ i) ?_ fun i hi => At.bind (At.getObj _) fun o _ =>
    At.bind (At.readComps _ _ _) fun _ _ => At.bind (At.write hi _ _ _) fun _ _ =>
    At.bind (At.readComps _ _ _) fun _ _ => At.bind (At.write hi _ _ _) fun _ _ => ?_
  · unfold newBaseTensor
    exact At.bind (At.isCoordinates _) fun b _ => At.ite At.raise (At.bind (At.getObj _) fun _ _ =>
      At.bind (At.lift _) fun _ _ => At.register)
  · cases ix with
    | none => exact At.raise
    | other => exact At.raise
    | tuple l =>
      exact At.bind (At.readComps _ _ _) fun _ _ => At.bind (At.lift _) fun _ _ =>
        At.bind (At.write hi _ _ _) fun _ _ => At.pure trivial

theorem At.forEach {f : α → PyM K Unit} (l : List α) (h : ∀ a, At T n (f a) fun _ => True) :
    At T n (forEach f l) fun _ => True := by
  induction l with
  | nil => exact At.done _
  | cons a l ih => exact At.bind (h a) fun _ _ => ih

theorem At.mapEach {f : α → PyM K β} (l : List α) (h : ∀ a, At T n (f a) fun _ => True) :
    At T n (mapEach f l) fun _ => True := by
  induction l with
  | nil => exact At.done _
  | cons a l ih => exact At.bind (h a) fun _ _ => At.bind ih fun _ _ => At.done _

theorem At.firstNamed (name : Option String) : At T n (K := K) (firstNamed name) fun _ => True :=
  At.reads fun _ => rfl

theorem At.resolve (r : Option Ref) : At T n (K := K) (resolve r) fun _ => True := by
  unfold PyOGRe.resolve
  split
  · refine At.bind (At.firstNamed _) fun c _ => ?_
    cases c <;> exact At.done _
  · exact At.done _

theorem At.importCoordinates {I : Importer K} (x : Import K) (l : List (Ref × Val K)) :
    At T n (importCoordinates I x l) fun _ => True :=
  At.bind (At.lift _) fun _ _ => At.bind (At.lift _) fun _ _ => At.bind (At.lift _) fun _ _ =>
    At.any (At.register)

theorem At.importTensor (x : Import K) : At T n (importTensor E x) fun _ => True := by
  unfold PyOGRe.importTensor
  refine At.ite At.raise ?_
  split
  · exact At.newMetric _ _ _ _ _
  · exact At.raise
  · exact At.any (At.newTensor _ _ _ _ _ _ _)
  · exact At.raise

theorem At.importFromVal {I : Importer K} (v : Val K) : At T n (importFromVal E I v) fun _ => True := by
  unfold PyOGRe.importFromVal
  refine At.bind At.world fun w0 _ => At.bind (At.lift _) fun l _ => ?_
  cases l with
  | nil => exact At.raise
  | cons x l =>
    dsimp only
    cases x.coords with
    | none => exact At.importCoordinates _ _
    | some r =>
      refine At.bind (P := fun _ => True) ?_ fun c _ => ?_
      · cases r with
        | obj i => exact At.done _
        | name s => exact At.firstNamed _
      · cases c with
        | none => exact At.raise
        | some c => exact At.importTensor _

end

end PyOGRe
