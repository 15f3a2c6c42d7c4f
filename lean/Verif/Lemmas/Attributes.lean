import Verif.Lemmas.Lasting

/-! Helper lemmas: what every call does to the attributes of every object. -/

namespace PyOGRe
open Spec

namespace Spec
variable {K : Type}

/-- The name that a call gives to an object. -/
def Call.newName (i : Id') : Call K → Option String
  | .rename t name => if t = i then some name else none
  | _ => none

/-- The symbol that a call gives to an object. -/
def Call.newSymbol (i : Id') : Call K → Option String
  | .setSymbol t symbol => if t = i then some symbol else none
  | _ => none

/-- The default indices that a call asks for. -/
def Call.newIndices (i : Id') : Call K → Option (List Int)
  | .setIndices t ix => if t = i then some ix else none
  | _ => none

/-- The default coordinates that a call asks for. -/
def Call.newCoords (i : Id') : Call K → Option Id'
  | .setCoords t c => if t = i then some c else none
  | .curveCoords _ t c => if t = i then some c else none
  | _ => none

/-- The call asks for a Lagrangian or geodesic equations. -/
def Call.asksForCurve : Call K → Bool
  | .curve _ _ _ _ => true
  | _ => false

/-- The call adds or removes rules of a coordinate system. -/
def Call.newRules (i : Id') : Call K → Bool
  | .transformation t _ _ => t = i
  | _ => false

/-- The call simplifies an object. -/
def Call.simplifies (i : Id') : Call K → Bool
  | .simplify t => t = i
  | _ => false

end Spec

variable {K : Type} {w w' w'' : World K} {T : Bool}

/-- What a call may do to an object. -/
structure Effect (k : Call K) (i : Id') (o o' : Obj K) : Prop where
  kind : o'.kind = o.kind
  metric : o'.metric = o.metric
  syms : o'.syms = o.syms
  name : o'.name = (k.newName i).getD o.name
  symbol : o'.symbol = (k.newSymbol i).getD o.symbol
  indices : o'.indices = o.indices ∨ k.newIndices i = some o'.indices
  length : o'.indices.length = o.indices.length
  coords : o'.coords = o.coords ∨ k.newCoords i = some o'.coords ∨ (o.kind.isLagrangian = true ∧ k.asksForCurve = true)
  trans : o'.trans = o.trans ∨ k.newRules i = true
  alive : o.alive = false → o'.alive = false
  stored : k.simplifies i = false → ∀ c ix a, Spec.stored o c ix = some a → Spec.stored o' c ix = some a

theorem Lasting.effect {k : Call K} {i : Id'} {o o' : Obj K} (h : Lasting T o o') (h1 : k.newName i = none)
    (h2 : k.newSymbol i = none) (h3 : T = true ∨ k.asksForCurve = true) : Effect k i o o' :=
  ⟨h.kind, h.metric, h.syms, by rw [h1]; exact h.name, by rw [h2]; exact h.symbol, Or.inl h.indices,
    by rw [h.indices], by
      cases hk : o.kind.isLagrangian with
      | false => exact Or.inl (h.coords (Or.inr hk))
      | true =>
        rcases h3 with h3 | h3
        · exact Or.inl (h.coords (Or.inl h3))
        · exact Or.inr (Or.inr ⟨rfl, h3⟩),
    Or.inl h.trans,
    h.alive, fun _ => h.stored⟩

/-- Nothing at all happens to the defaults. -/
theorem Persists.effect (h : Persists w w') {k : Call K} {i : Id'} {o : Obj K} (ho : w.objs[i]? = some o)
    (h1 : k.newName i = none) (h2 : k.newSymbol i = none) : ∃ o', w'.objs[i]? = some o' ∧ Effect k i o o' := by
  obtain ⟨o', e1, e2⟩ := h.1.get ho
  have hl := lt_of_getElem? ho
  obtain ⟨o2, f1, f2⟩ := (h.lasts (T := true) (i + 1)).2 i (Nat.lt_succ_self i) o ho
  rw [e1] at f1; cases f1
  exact ⟨o', e1, f2.kind, f2.metric, f2.syms, by rw [h1]; exact f2.name, by rw [h2]; exact f2.symbol, Or.inl f2.indices,
    by rw [f2.indices], Or.inl (congrArg (·.2.2.2.2.1) e2), Or.inl f2.trans, f2.alive, fun _ => f2.stored⟩

/-- Requests, followed by a change of one object. -/
theorem changed_effect {t : Id'} {u : Obj K → Obj K} (h : Persists w w') {k : Call K}
    (hn : ∀ i, i ≠ t → k.newName i = none ∧ k.newSymbol i = none)
    (hu : ∀ o o', w.objs[t]? = some o → w'.objs[t]? = some o' → Lasting true o o' → o'.coords = o.coords → Effect k t o (u o'))
    {i : Id'} {o : Obj K} (ho : w.objs[i]? = some o) :
    ∃ o', (modifyObj t u w').2.objs[i]? = some o' ∧ Effect k i o o' := by
  by_cases hti : t = i
  · subst hti
    obtain ⟨o', e1, e2⟩ := h.1.get ho
    obtain ⟨o2, f1, f2⟩ := (h.lasts (T := true) (t + 1)).2 t (Nat.lt_succ_self t) o ho
    rw [e1] at f1; cases f1
    exact ⟨u o', modify_same e1 u, hu o o' ho e1 f2 (congrArg (·.2.2.2.2.1) e2)⟩
  · obtain ⟨o', e1, e2⟩ := h.effect (k := k) ho (hn i fun h => hti h.symm).1 (hn i fun h => hti h.symm).2
    refine ⟨o', ?_, e2⟩
    show (w'.objs.modify t u)[i]? = _
    rw [modify_ne hti, e1]

/-- Either nothing but requests, or requests followed by a change of one object. -/
def Changes (t : Id') (u : Obj K → Obj K) (P : World K → Prop) (w w' : World K) : Prop :=
  ∃ w1, Persists w w1 ∧ (w' = w1 ∨ (P w ∧ w' = (modifyObj t u w1).2))

theorem changes_pass {α β : Type} {t : Id'} {u : Obj K → Obj K} {P : World K → Prop} {m : PyM K α} {f : α → PyM K β}
    (hm : Persists w (m w').2) (hf : ∀ a w2, m w' = (.ok a, w2) → Persists w w2 → Changes t u P w (f a w2).2) :
    Changes t u P w ((m >>= f) w').2 := by
  rw [PyM.bind_apply]
  rcases h : m w' with ⟨r, w2⟩
  rw [h] at hm
  cases r with
  | ok a => exact hf a w2 h hm
  | error e => exact ⟨w2, hm, Or.inl rfl⟩

theorem changes_stop {t : Id'} {u : Obj K → Obj K} {P : World K → Prop} (h : Persists w w') : Changes t u P w w' :=
  ⟨w', h, Or.inl rfl⟩

section
variable [CommRing K] {E : Engine K}

theorem changes_indices (t : Id') (ix : List Int) (w : World K) : Changes t (fun o => { o with indices := ix })
    (fun w => ∀ o, w.objs[t]? = some o → ix.length = o.indices.length) w
    ((do requireTensor t; changeDefaultIndices E t ix) w).2 := by
  unfold changeDefaultIndices
  refine changes_pass (Kp.requireTensor t w) fun _ w0 h0 p0 => ?_
  have e0 : w0 = w := by
    unfold requireTensor at h0
    split_ifs at h0 <;> cases h0
    rfl
  subst e0
  refine changes_pass (Kp.getObj t w0) fun o w1 h1 p1 => ?_
  have hg : w0.objs[t]? = some o ∧ w1 = w0 := by
    obtain ⟨a, b, c⟩ := getObj_inv h1
    exact ⟨b, a⟩
  obtain ⟨ho, rfl⟩ := hg
  refine changes_pass (Kp.lift _ w1) fun _ w2 h2 p2 => ?_
  have hv : validateIndices ix o.indices = .ok () ∧ w2 = w1 := by
    rw [PyM.lift_apply] at h2
    injection h2 with a b
    exact ⟨a, b.symm⟩
  obtain ⟨hv, rfl⟩ := hv
  have hlen : ix.length = o.indices.length := by
    unfold validateIndices at hv
    split_ifs at hv with q1 q2
    exact (not_not.1 q2).symm
  refine changes_pass (checkRepresentation_kept t o.coords ix w2).1 fun b w3 h3 p3 => ?_
  cases b with
  | false => exact changes_stop p3
  | true => exact ⟨w3, p3, Or.inr ⟨fun o' ho' => by rw [ho] at ho'; cases ho'; exact hlen, rfl⟩⟩

theorem changes_coords (t c : Id') (w : World K) : Changes t (fun o => { o with coords := c }) (fun _ => True) w
    ((do requireTensor t; changeDefaultCoords E t c) w).2 := by
  unfold changeDefaultCoords
  refine changes_pass (Kp.requireTensor t w) fun _ w0 _ p0 => ?_
  refine changes_pass (p0.trans (Kp.isCoordinates c w0)) fun b w1 _ p1 => ?_
  cases b with
  | false => exact changes_stop p1
  | true =>
    refine changes_pass (p1.trans (Kp.getObj t w1)) fun o w2 _ p2 => ?_
    split_ifs
    · exact changes_stop p2
    · refine changes_pass (p2.trans (Kp.getObj _ w2)) fun oc w3 _ p3 => ?_
      split_ifs
      · exact changes_pass (p3.trans (Kp.getObj _ w3)) fun _ w4 _ p4 => changes_stop p4
      · have hk := checkRepresentation_kept (E := E) t c o.indices w3
        refine changes_pass (p3.trans hk.1) fun b w4 h4 p4 => ?_
        refine changes_pass ?_ fun _ w5 _ p5 => ⟨w5, p5, Or.inr ⟨trivial, rfl⟩⟩
        cases b with
        | true => exact p4
        | false =>
          obtain ⟨rfl, hab⟩ := hk.2 w4 h4
          exact p4.trans (kept_transformCoordinates hab)

theorem changes_curve {C : Curves K} (t c : Id') (w : World K) : Changes t (fun o => { o with coords := c })
    (fun _ => True) w ((do requireTensor t; curveChangeCoords E C t c) w).2 := by
  unfold curveChangeCoords
  refine changes_pass (Kp.requireTensor t w) fun _ w0 _ p0 => ?_
  refine changes_pass (p0.trans (Kp.isCoordinates c w0)) fun b w1 _ p1 => ?_
  cases b with
  | false => exact changes_stop p1
  | true =>
    refine changes_pass (p1.trans (Kp.getObj t w1)) fun o w2 _ p2 => ?_
    split_ifs
    · exact changes_stop p2
    · refine changes_pass (p2.trans (Kp.getObj _ w2)) fun oc w3 _ p3 => ?_
      split_ifs
      · exact changes_pass (p3.trans (Kp.getObj _ w3)) fun _ w4 _ p4 => changes_stop p4
      · have hk := tensorCheck_kept (E := E) t c o.indices w3
        refine changes_pass (p3.trans hk.1) fun b w4 h4 p4 => ?_
        refine changes_pass ?_ fun _ w5 _ p5 => ⟨w5, p5, Or.inr ⟨trivial, rfl⟩⟩
        cases b with
        | true => exact p4
        | false =>
          obtain ⟨rfl, hab⟩ := hk.2 w4 h4
          exact p4.trans ((Persists.refl w4).only (Wr.curveTransform _ _) hab)

end

theorem changes_rules (t c : Id') (rules : Option (List (Option (Sym × K)))) (w : World K) :
    ∃ r : Obj K → Dict Id' (List (Option (Sym × K))),
      Changes t (fun o => { o with trans := r o }) (fun _ => True) w (addCoordTransformation t c rules w).2 := by
  refine ⟨fun o => match rules with
    | none => o.trans.del c
    | some l => o.trans.set c l, ?_⟩
  unfold addCoordTransformation
  refine changes_pass (Kp.isCoordinates c w) fun b w1 _ p1 => ?_
  cases b with
  | false => exact changes_stop p1
  | true =>
    split_ifs
    · exact changes_stop p1
    · exact changes_stop p1
    · refine changes_pass (p1.trans (Kp.getObj t w1)) fun o w2 _ p2 => ?_
      cases rules with
      | none =>
        exact changes_pass (p2.trans (Kp.lookup _ _ w2)) fun _ w3 _ p3 => ⟨w3, p3, Or.inr ⟨trivial, rfl⟩⟩
      | some l => exact ⟨w2, p2, Or.inr ⟨trivial, rfl⟩⟩

/-! ### Imports: only new objects are registered -/

/-- Everything registered is new. -/
def OnlyNew (n : Nat) (w : World K) : Prop := ∀ i ∈ w.instances, n ≤ i

/-- Computations that only touch new objects when only these are registered. -/
def Nw (n : Nat) {α : Type} (m : PyM K α) (Q : α → Prop) : Prop :=
  ∀ w, n ≤ w.objs.length → OnlyNew n w → Lasts true n w (m w).2 ∧ OnlyNew n (m w).2 ∧ ∀ a, (m w).1 = .ok a → Q a

section
variable {n : Nat} {α β : Type}

theorem Nw.bind {m : PyM K α} {f : α → PyM K β} {P : α → Prop} {Q : β → Prop} (hm : Nw n m P)
    (hf : ∀ a, P a → Nw n (f a) Q) : Nw n (m >>= f) Q := by
  intro w hw ho
  obtain ⟨h1, h2, h3⟩ := hm w hw ho
  rw [PyM.bind_apply]
  rcases h : m w with ⟨r, w'⟩
  rw [h] at h1 h2 h3
  cases r with
  | ok a =>
    obtain ⟨k1, k2, k3⟩ := hf a (h3 a rfl) w' (le_trans hw h1.1) h2
    exact ⟨h1.trans k1, k2, k3⟩
  | error e => exact ⟨h1, h2, fun a h => nomatch h⟩

theorem Nw.reads {m : PyM K α} (h : ∀ w, (m w).2 = w) : Nw n m fun _ => True := fun w _ ho => by
  rw [h w]; exact ⟨Lasts.refl n w, ho, fun _ _ => trivial⟩
theorem Nw.done (a : α) : Nw n (Pure.pure a : PyM K α) fun _ => True := Nw.reads fun _ => rfl
theorem Nw.raise {e : PyErr} {Q : α → Prop} : Nw n (PyM.raise e : PyM K α) Q :=
  fun w _ ho => ⟨Lasts.refl n w, ho, fun _ h => nomatch h⟩
theorem Nw.lift (x : Py α) : Nw n (PyM.lift x : PyM K α) fun _ => True := Nw.reads fun _ => rfl
theorem Nw.ite {b : Prop} [Decidable b] {m m' : PyM K α} {Q : α → Prop} (h : Nw n m Q) (h' : Nw n m' Q) :
    Nw n (if b then m else m') Q := by split_ifs <;> assumption
theorem Nw.getObj (i : Id') : Nw n (K := K) (PyOGRe.getObj i) fun _ => True := Nw.reads (getObj_state i)
theorem Nw.readComps (i c : Id') (ix : List Int) : Nw n (K := K) (PyOGRe.readComps i c ix) fun _ => True :=
  Nw.bind (Nw.getObj _) fun _ _ => Nw.bind (Nw.reads (lookup_state _ _)) fun _ _ => Nw.reads (lookup_state _ _)
theorem Nw.isCoordinates (c : Id') : Nw n (K := K) (PyOGRe.isCoordinates c) fun _ => True := Nw.reads fun _ => rfl
theorem Nw.isMetric (c : Id') : Nw n (K := K) (PyOGRe.isMetric c) fun _ => True := Nw.reads fun _ => rfl
theorem Nw.any {m : PyM K α} {Q : α → Prop} (h : Nw n m Q) : Nw n m fun _ => True := fun w hw ho =>
  ⟨(h w hw ho).1, (h w hw ho).2.1, fun _ _ => trivial⟩

theorem Nw.modify {i : Id'} (hi : n ≤ i) (u : Obj K → Obj K) : Nw n (modifyObj i u) fun _ => True := fun w hw ho =>
  ⟨(At.modify (T := true) hi u w hw).1, ho, fun _ _ => trivial⟩

theorem Nw.write {i : Id'} (hi : n ≤ i) (c : Id') (ix : List Int) (a : Arr K) :
    Nw n (writeComps i c ix a) fun _ => True :=
  Nw.bind (Nw.getObj _) fun _ _ => Nw.bind (Nw.reads (lookup_state _ _)) fun _ _ => Nw.modify hi _

theorem Nw.register {f : Id' → Obj K} : Nw n (register f) fun i => n ≤ i := by
  intro w hw ho
  obtain ⟨h1, h2⟩ := At.register (T := true) (f := f) w hw
  refine ⟨h1, fun i hi => ?_, h2⟩
  have hi' : i ∈ w.instances ++ [w.objs.length] := hi
  rcases List.mem_append.1 hi' with h | h
  · exact ho i h
  · rw [List.mem_singleton.1 h]; exact hw

theorem Nw.newTensor (kind : Kind) (name : Arg String) (comps : Arg (Arr K)) (m c : Id') (ix : IndicesArg)
    (symbol : Arg String) : Nw n (newTensor kind name comps m c ix symbol) fun i => n ≤ i := by
  unfold PyOGRe.newTensor newBaseTensor
  refine Nw.bind (Nw.isMetric _) fun b _ => Nw.ite Nw.raise ?_
  refine Nw.bind (Nw.isCoordinates _) fun b _ => Nw.ite Nw.raise ?_
  exact Nw.bind (Nw.getObj _) fun _ _ => Nw.bind (Nw.lift _) fun _ _ => Nw.register

theorem Nw.forEach {f : α → PyM K Unit} (l : List α) (h : ∀ a ∈ l, Nw n (f a) fun _ => True) :
    Nw n (forEach f l) fun _ => True := by
  induction l with
  | nil => exact Nw.done _
  | cons a l ih => exact Nw.bind (h a List.mem_cons_self) fun _ _ => ih fun b hb => h b (List.mem_cons_of_mem _ hb)

theorem Nw.mapEach {f : α → PyM K β} (l : List α) (h : ∀ a, Nw n (f a) fun _ => True) :
    Nw n (mapEach f l) fun _ => True := by
  induction l with
  | nil => exact Nw.done _
  | cons a l ih => exact Nw.bind (h a) fun _ _ => Nw.bind ih fun _ _ => Nw.done _

theorem Nw.firstNamed (name : Option String) : Nw n (K := K) (firstNamed name) fun _ => True := Nw.reads fun _ => rfl

theorem Nw.resolve (r : Option Ref) : Nw n (K := K) (resolve r) fun _ => True := by
  unfold PyOGRe.resolve
  split
  · refine Nw.bind (Nw.firstNamed _) fun c _ => ?_
    cases c <;> exact Nw.done _
  · exact Nw.done _

theorem Nw.rules {t : Id'} (ht : n ≤ t) (c : Id') (rules : Option (List (Option (Sym × K)))) :
    Nw n (addCoordTransformation t c rules) fun _ => True := by
  unfold addCoordTransformation
  refine Nw.bind (Nw.isCoordinates _) fun b _ => Nw.ite Nw.raise (Nw.ite Nw.raise (Nw.bind (Nw.getObj _) fun o _ => ?_))
  cases rules with
  | none => exact Nw.bind (Nw.reads (lookup_state _ _)) fun _ _ => Nw.modify ht _
  | some r => exact Nw.modify ht _

variable [CommRing K] {E : Engine K} [DecidableEq K] [Algebra ℚ K]

theorem Nw.newMetric (name : Arg String) (comps : Arg (Arr K)) (c : Id') (ix : IndicesArg) (symbol : Arg String) :
    Nw n (newMetric E name comps c ix symbol) fun _ => True := by
  unfold PyOGRe.newMetric
  refine Nw.bind (Nw.lift _) fun _ _ => Nw.bind (P := fun i => n ≤ i) ?_ fun i hi => Nw.bind (Nw.getObj _) fun o _ =>
    Nw.bind (Nw.readComps _ _ _) fun _ _ => Nw.bind (Nw.write hi _ _ _) fun _ _ =>
    Nw.bind (Nw.readComps _ _ _) fun _ _ => Nw.bind (Nw.write hi _ _ _) fun _ _ => ?_
  · unfold newBaseTensor
    exact Nw.bind (Nw.isCoordinates _) fun b _ => Nw.ite Nw.raise (Nw.bind (Nw.getObj _) fun _ _ =>
      Nw.bind (Nw.lift _) fun _ _ => Nw.register)
  · cases ix with
    | none => exact Nw.raise
    | other => exact Nw.raise
    | tuple l =>
      exact Nw.bind (Nw.readComps _ _ _) fun _ _ => Nw.bind (Nw.lift _) fun _ _ =>
        Nw.bind (Nw.write hi _ _ _) fun _ _ => Nw.done _

theorem Nw.importCoordinates {I : Importer K} (x : Import K) (l : List (Ref × Val K)) :
    Nw n (importCoordinates I x l) fun _ => True :=
  Nw.bind (Nw.lift _) fun _ _ => Nw.bind (Nw.lift _) fun _ _ => Nw.bind (Nw.lift _) fun _ _ => Nw.any Nw.register

theorem Nw.importTensor (x : Import K) : Nw n (importTensor E x) fun _ => True := by
  unfold PyOGRe.importTensor
  refine Nw.ite Nw.raise ?_
  split
  · exact Nw.newMetric _ _ _ _ _
  · exact Nw.raise
  · exact Nw.any (Nw.newTensor _ _ _ _ _ _ _)
  · exact Nw.raise

theorem Nw.importTrans {I : Importer K} (x : Import K) : Nw n (importTrans I x) fun _ => True := by
  intro w hw ho
  unfold PyOGRe.importTrans
  rw [PyM.bind_apply, PyM.world_apply]
  dsimp only
  cases x.name with
  | other => exact Nw.done _ w hw ho
  | val name =>
    refine Nw.forEach _ (fun i hi => Nw.forEach _ fun p _ => Nw.bind (P := fun _ => True) ?_ fun c _ => ?_) w hw ho
    · cases p.1 with
      | obj i => exact Nw.done _
      | name s => exact Nw.firstNamed _
    · cases c with
      | none => exact Nw.raise
      | some c =>
        refine Nw.bind (Nw.lift _) fun _ _ => Nw.rules (ho i ?_) _ _
        have := (List.mem_filter.1 hi).1
        unfold namedInstances at this
        exact (List.mem_filter.1 this).1

theorem Nw.importAllFromVal {I : Importer K} (v : Val K) : Nw n (importAllFromVal E I v) fun _ => True := by
  unfold PyOGRe.importAllFromVal
  refine Nw.bind (Nw.reads fun _ => rfl) fun w0 _ => Nw.bind (Nw.lift _) fun l _ => ?_
  refine Nw.bind (Nw.forEach _ fun x _ => Nw.bind (Nw.importCoordinates _ _) fun _ _ => Nw.done _) fun _ _ => ?_
  refine Nw.bind (Nw.mapEach _ fun x => Nw.bind (Nw.resolve _) fun _ _ => Nw.done _) fun l _ => ?_
  refine Nw.bind (Nw.forEach _ fun x _ => Nw.importTrans _) fun _ _ => Nw.bind (Nw.forEach _ fun x _ => ?_) fun _ _ => ?_
  · split
    · exact Nw.raise
    · exact Nw.done _
  refine Nw.bind (Nw.forEach _ fun x _ => Nw.bind (Nw.importTensor _) fun _ _ => Nw.done _) fun _ _ => ?_
  refine Nw.bind (Nw.mapEach _ fun x => Nw.bind (Nw.resolve _) fun m _ => ?_) fun l _ => ?_
  · split
    · exact Nw.raise
    · exact Nw.done _
  exact Nw.forEach _ fun x _ => Nw.bind (Nw.importTensor _) fun _ _ => Nw.done _

end


section
variable [CommRing K] [DecidableEq K] [Algebra ℚ K] {E : Engine K}

theorem at_effect {α : Type} {T : Bool} {m : PyM K α} {Q : α → Prop} {k : Call K} {i : Id'} {o : Obj K}
    (h : At T w.objs.length m Q) (ho : w.objs[i]? = some o) (h1 : k.newName i = none) (h2 : k.newSymbol i = none)
    (h3 : T = true ∨ k.asksForCurve = true) : ∃ o', (m w).2.objs[i]? = some o' ∧ Effect k i o o' := by
  obtain ⟨o', e1, e2⟩ := (h w (le_refl _)).1.2 i (lt_of_getElem? ho) o ho
  exact ⟨o', e1, e2.effect h1 h2 h3⟩

/-- Changes of one object other than its name and symbol. -/
theorem Changes.effect {t : Id'} {u : Obj K → Obj K} {P : World K → Prop} (h : Changes t u P w w') {k : Call K}
    (hn : ∀ i, k.newName i = none ∧ k.newSymbol i = none)
    (hu : P w → ∀ o o', w.objs[t]? = some o → Lasting true o o' → Effect k t o (u o'))
    {i : Id'} {o : Obj K} (ho : w.objs[i]? = some o) : ∃ o', w'.objs[i]? = some o' ∧ Effect k i o o' := by
  obtain ⟨w1, h1, rfl | ⟨hp, rfl⟩⟩ := h
  · exact h1.effect ho (hn i).1 (hn i).2
  · exact changed_effect h1 (fun i _ => hn i) (fun o o' ho _ hl _ => hu hp o o' ho hl) ho

theorem simplify_effect (t : Id') {i : Id'} {o : Obj K} (ho : w.objs[i]? = some o) :
    ∃ o', ((do requireTensor t; simplifyTensor E t) w).2.objs[i]? = some o' ∧ Effect (.simplify t) i o o' := by
  have others : ∀ {α β : Type} {m : PyM K α} {f : α → PyM K β}, (∀ w, Frame w (m w).2 ∧ ∀ j, j ≠ t → (m w).2.objs[j]? = w.objs[j]?) →
      (∀ a w, Frame w (f a w).2 ∧ ∀ j, j ≠ t → (f a w).2.objs[j]? = w.objs[j]?) →
      ∀ w, Frame w ((m >>= f) w).2 ∧ ∀ j, j ≠ t → ((m >>= f) w).2.objs[j]? = w.objs[j]? := by
    intro α β m f hm hf w
    have h1 := hm w
    rw [PyM.bind_apply]
    rcases h : m w with ⟨r, w1⟩
    rw [h] at h1
    cases r with
    | error e => exact h1
    | ok a => exact ⟨h1.1.trans (hf a w1).1, fun j hj => ((hf a w1).2 j hj).trans (h1.2 j hj)⟩
  have same : ∀ {α : Type} {m : PyM K α}, (∀ w, (m w).2 = w) →
      ∀ w, Frame w (m w).2 ∧ ∀ j, j ≠ t → (m w).2.objs[j]? = w.objs[j]? := by
    intro α m h w
    rw [h w]
    exact ⟨Frame.refl w, fun _ _ => rfl⟩
  have hwrite : ∀ c ix (a : Arr K) (w : World K), Frame w (writeComps t c ix a w).2 ∧
      ∀ j, j ≠ t → (writeComps t c ix a w).2.objs[j]? = w.objs[j]? := by
    intro c ix a
    unfold writeComps
    refine others (same (getObj_state t)) fun o => others (same (lookup_state _ _)) fun d w => ?_
    exact ⟨Steady.modifyObj t (fun o => { o with comps := o.comps.set c (d.set ix a) }) (fun _ => rfl) w,
      fun j hj => modify_ne (fun h => hj h.symm) _⟩
  have hread : ∀ c ix (w : World K), (readComps t c ix w).2 = w := by
    intro c ix w
    unfold readComps
    rw [PyM.bind_apply]
    rcases getObj_cases t w with ⟨o, -, -, h⟩ | h <;> rw [h]
    dsimp only
    rw [PyM.bind_apply]
    unfold lookup
    cases o.comps.get? c with
    | none => rfl
    | some d =>
      dsimp only [PyM.pure_apply]
      cases d.get? ix <;> rfl
  have hloop : ∀ (r : Nat) (l : List (Id' × List Int)) (w : World K), Frame w (l.forM (simplifyAt E t r) w).2 ∧
      ∀ j, j ≠ t → (l.forM (simplifyAt E t r) w).2.objs[j]? = w.objs[j]? := by
    intro r l
    induction l with
    | nil => exact same fun _ => rfl
    | cons p l ih =>
      refine others ?_ fun _ => ih
      unfold simplifyAt
      exact others (same (hread _ _)) fun a => others (same fun _ => rfl) fun b => hwrite _ _ _
  have h := others (m := requireTensor t) (f := fun _ => simplifyTensor E t) (same fun w => by
      unfold requireTensor; split_ifs <;> rfl) (fun _ => by
    unfold simplifyTensor
    exact others (same (getObj_state t)) fun o => others (same (getObj_state _)) fun _ => others (hloop _ _) fun _ =>
      same fun _ => rfl) w
  obtain ⟨o', e1, e2⟩ := h.1.get ho
  refine ⟨o', e1, congrArg (·.1) e2, congrArg (·.2.2.2.2.2.1) e2, congrArg (·.2.2.2.2.2.2.1) e2, congrArg (·.2.1) e2,
    congrArg (·.2.2.1) e2, Or.inl (congrArg (·.2.2.2.1) e2), congrArg (fun c => c.2.2.2.1.length) e2, Or.inl (congrArg (·.2.2.2.2.1) e2),
    Or.inl (congrArg (·.2.2.2.2.2.2.2.1) e2), fun ha => (congrArg (·.2.2.2.2.2.2.2.2) e2 : o'.alive = o.alive).trans ha, ?_⟩
  intro hs c ix a ha
  have hne : i ≠ t := by
    rintro rfl
    simp [Call.simplifies] at hs
  have := h.2 i hne
  rw [ho] at this
  rw [show o' = o from Option.some.inj (e1.symm.trans this)]
  exact ha

/-- What a call does to an existing object. -/
theorem call_effect (letters : List Sym) (k : Call K) {i : Id'} {o : Obj K} (ho : w.objs[i]? = some o) :
    ∃ o', (k.run E letters w).objs[i]? = some o' ∧ Effect k i o o' := by
  have hreq : ∀ t, At true w.objs.length (K := K) (requireTensor t) fun _ => True := fun t => At.kept (Kp.requireTensor t)
  cases k with
  | coordinates name shape syms ix symbol =>
    exact at_effect (T := true) (At.bind (At.lift _) fun _ _ => At.register) ho rfl rfl (Or.inl rfl)
  | transformation t c rules =>
    obtain ⟨r, hr⟩ := changes_rules t c rules w
    refine hr.effect (fun i => ⟨rfl, rfl⟩) (fun _ o o' ho h => ?_) ho
    exact ⟨h.kind, h.metric, h.syms, h.name, h.symbol, Or.inl h.indices, by show o'.indices.length = _; rw [h.indices],
      Or.inl (h.coords (Or.inl rfl)), Or.inr (by simp [Call.newRules]), h.alive, fun _ => h.stored⟩
  | metric name comps c ix symbol => exact at_effect (T := true) (At.newMetric name comps c ix symbol) ho rfl rfl (Or.inl rfl)
  | tensor name comps m c ix symbol => exact at_effect (T := true) (At.newTensor _ _ _ _ _ _ _) ho rfl rfl (Or.inl rfl)
  | get t c ix => exact at_effect (T := true) (At.bind (hreq t) fun _ _ => At.getComponents _ _ _) ho rfl rfl (Or.inl rfl)
  | setIndices t ix =>
    refine (changes_indices t ix w).effect (fun i => ⟨rfl, rfl⟩) (fun hp o o' ho h => ?_) ho
    exact ⟨h.kind, h.metric, h.syms, h.name, h.symbol, Or.inr (by simp [Call.newIndices]), hp o ho,
      Or.inl (h.coords (Or.inl rfl)), Or.inl h.trans, h.alive, fun _ => h.stored⟩
  | setCoords t c =>
    refine (changes_coords t c w).effect (fun i => ⟨rfl, rfl⟩) (fun hp o o' ho h => ?_) ho
    exact ⟨h.kind, h.metric, h.syms, h.name, h.symbol, Or.inl h.indices, by show o'.indices.length = _; rw [h.indices],
      Or.inr (Or.inl (by simp [Call.newCoords])), Or.inl h.trans, h.alive, fun _ => h.stored⟩
  | rename t name =>
    refine changed_effect (k := .rename t name) (Persists.refl w) (fun i hi => ⟨if_neg fun h => hi (Eq.symm h), rfl⟩) (fun o o' ho ho' h _ => ?_) ho
    exact ⟨h.kind, h.metric, h.syms, by simp [Call.newName], h.symbol, Or.inl h.indices,
      by show o'.indices.length = _; rw [h.indices], Or.inl (h.coords (Or.inl rfl)), Or.inl h.trans, h.alive, fun _ => h.stored⟩
  | delete t => exact at_effect (T := true) (At.delete t) ho rfl rfl (Or.inl rfl)
  | deleteResults => exact at_effect (T := true) (At.times (At.passOf At.tryDelete) _) ho rfl rfl (Or.inl rfl)
  | clear => exact at_effect (T := true) At.clear ho rfl rfl (Or.inl rfl)
  | «calc» e name symbol ix =>
    exact at_effect (T := true) (At.bind (At.eval letters e) fun _ _ => At.calcResult _ _ _ _) ho rfl rfl (Or.inl rfl)
  | compute f t =>
    cases f with
    | christoffel => exact at_effect (T := true) (At.calcChristoffel t) ho rfl rfl (Or.inl rfl)
    | riemann => exact at_effect (T := true) (At.calcRiemann t) ho rfl rfl (Or.inl rfl)
    | ricci => exact at_effect (T := true) (At.calcRicci t) ho rfl rfl (Or.inl rfl)
    | scalar => exact at_effect (T := true) (At.calcScalar t) ho rfl rfl (Or.inl rfl)
    | einstein => exact at_effect (T := true) (At.calcEinstein t) ho rfl rfl (Or.inl rfl)
    | weyl => exact at_effect (T := true) (At.calcWeyl t) ho rfl rfl (Or.inl rfl)
    | norm => exact at_effect (T := true) (At.bind (hreq t) fun _ _ => At.calcNormSquared t) ho rfl rfl (Or.inl rfl)
  | curve C f m c =>
    cases f with
    | lagrangian => exact at_effect (At.calcLagrangian m c) ho rfl rfl (Or.inr rfl)
    | fromLagrangian => exact at_effect (At.calcGeodesicLagrangian m c) ho rfl rfl (Or.inr rfl)
    | inactive => exact at_effect (At.calcGeodesicInactive m c) ho rfl rfl (Or.inr rfl)
    | fromChristoffel => exact at_effect (At.calcGeodesicChristoffel m c) ho rfl rfl (Or.inr rfl)
    | withTime => exact at_effect (At.calcGeodesicTime m c) ho rfl rfl (Or.inr rfl)
  | curveGet C l c ix =>
    exact at_effect (T := true) (At.bind (hreq l) fun _ _ => At.curveComponents _ _ _) ho rfl rfl (Or.inl rfl)
  | curveCoords C l c =>
    refine (changes_curve l c w).effect (fun i => ⟨rfl, rfl⟩) (fun hp o o' ho h => ?_) ho
    exact ⟨h.kind, h.metric, h.syms, h.name, h.symbol, Or.inl h.indices, by show o'.indices.length = _; rw [h.indices],
      Or.inr (Or.inl (by simp [Call.newCoords])), Or.inl h.trans, h.alive, fun _ => h.stored⟩
  | simplify t => exact simplify_effect t ho
  | setSymbol t symbol =>
    refine changed_effect (k := .setSymbol t symbol) (Persists.refl w) (fun i hi => ⟨rfl, if_neg fun h => hi (Eq.symm h)⟩) (fun o o' ho ho' h _ => ?_) ho
    exact ⟨h.kind, h.metric, h.syms, h.name, by simp [Call.newSymbol], Or.inl h.indices,
      by show o'.indices.length = _; rw [h.indices], Or.inl (h.coords (Or.inl rfl)), Or.inl h.trans, h.alive, fun _ => h.stored⟩
  | lineElement var m c =>
    exact at_effect (T := true) (At.bind (At.requireMetric m) fun _ _ => At.bind (At.lowerComponents m c) fun _ _ =>
      At.bind (At.getObj _) fun _ _ => At.done _) ho rfl rfl (Or.inl rfl)
  | volumeElement m c =>
    exact at_effect (T := true) (At.bind (At.requireMetric m) fun _ _ => At.bind (At.lowerComponents m c) fun _ _ =>
      At.done _) ho rfl rfl (Or.inl rfl)
  | importOne I n text =>
    show ∃ o', ((importFromString E I n text w).elim w (·.2)).objs[i]? = some o' ∧ _
    have hid : ∃ o', w.objs[i]? = some o' ∧ Effect (.importOne I n text) i o o' :=
      ⟨o, ho, (Lasting.refl (T := true) o).effect rfl rfl (Or.inl rfl)⟩
    unfold importFromString
    split
    · exact hid
    · exact hid
    · exact at_effect (T := true) (At.importFromVal _) ho rfl rfl (Or.inl rfl)
  | importAll I n text =>
    show ∃ o', ((importAllFromString E I n text w).elim w (·.2)).objs[i]? = some o' ∧ _
    have hid : ∃ o', w.objs[i]? = some o' ∧ Effect (.importAll I n text) i o o' :=
      ⟨o, ho, (Lasting.refl (T := true) o).effect rfl rfl (Or.inl rfl)⟩
    have hc := (At.clear (T := true) (n := w.objs.length) w (le_refl _)).1
    have hnew : ∀ u, (clearInstances w).1 = .ok u → (clearInstances w).2.instances = [] := by
      intro u
      unfold clearInstances
      rw [PyM.bind_apply]
      rcases deleteResults w with ⟨r, w1⟩
      cases r with
      | error e => intro h; cases h
      | ok a =>
        dsimp only
        refine fun h => ?_
        obtain ⟨b, w2, -, h2⟩ := bind_ok (w := w1) (w' := (PyM.bind (timesDo (deletePass (fun _ => true) tryDelete) 4)
          (fun _ w => (.ok (), { w with instances := [] })) w1).2) (Prod.ext h rfl)
        exact (congrArg (fun y => y.2.instances) h2).symm
    unfold importAllFromString
    rcases h : clearInstances w with ⟨r, w1⟩
    rw [h] at hc hnew
    have hid1 : ∃ o', w1.objs[i]? = some o' ∧ Effect (.importAll I n text) i o o' := by
      obtain ⟨o1, e1, e2⟩ := hc.2 i (lt_of_getElem? ho) o ho
      exact ⟨o1, e1, e2.effect rfl rfl (Or.inl rfl)⟩
    cases r with
    | error e => exact hid1
    | ok u =>
      dsimp only
      split
      · exact hid
      · exact hid1
      · obtain ⟨h1, -, -⟩ := Nw.importAllFromVal (E := E) (I := I) (n := w.objs.length) _ w1 hc.1 (by
          intro j hj
          rw [show w1.instances = [] from hnew u rfl] at hj
          cases hj)
        obtain ⟨o1, e1, e2⟩ := (hc.trans h1).2 i (lt_of_getElem? ho) o ho
        exact ⟨o1, e1, e2.effect rfl rfl (Or.inl rfl)⟩

end

end PyOGRe
