import Verif.Lemmas.Attributes
import Verif.Props.Geodesic

/-!
# Attributes of objects and answers over histories of arbitrary calls: C81, C82
-/

namespace PyOGRe
open Spec
variable {K : Type} [CommRing K] [DecidableEq K] [Algebra ℚ K]

/-- **C81**: after any calls, whether they returned or raised, every object that existed before still has its class, its
metric and its coordinate symbols; its name is the one given last with `change_name`, and its symbol the one given last
with `change_symbol`; its default indices, default coordinates and rules are the old ones unless there was a call that
asks to change them for this very object, apart from Lagrangians and geodesic equations, which a new request for the
same equations moves to other coordinates; its rank stays; and a deleted object stays deleted. -/
theorem C81_attributes (E : Engine K) (letters : List Sym) (calls : List (Call K)) (w : World K) {i : Id'} {o : Obj K}
    (ho : w.objs[i]? = some o) :
    ∃ o', (history E letters calls w).objs[i]? = some o' ∧
      o'.kind = o.kind ∧ o'.metric = o.metric ∧ o'.syms = o.syms ∧
      o'.name = (calls.filterMap (Call.newName i)).getLast?.getD o.name ∧
      o'.symbol = (calls.filterMap (Call.newSymbol i)).getLast?.getD o.symbol ∧
      (o'.indices = o.indices ∨ ∃ k ∈ calls, k.newIndices i = some o'.indices) ∧
      o'.indices.length = o.indices.length ∧
      (o'.coords = o.coords ∨ ∃ k ∈ calls, k.newCoords i = some o'.coords ∨
        (o.kind.isLagrangian = true ∧ k.asksForCurve = true)) ∧
      (o'.trans = o.trans ∨ ∃ k ∈ calls, k.newRules i = true) ∧
      (o.alive = false → o'.alive = false) := by
  induction calls generalizing w o with
  | nil =>
    exact ⟨o, ho, rfl, rfl, rfl, rfl, rfl, Or.inl rfl, rfl, Or.inl rfl, Or.inl rfl, id⟩
  | cons k calls ih =>
    obtain ⟨o1, h1, e⟩ := call_effect (E := E) letters k ho
    obtain ⟨o', h', f1, f2, f3, f4, f5, f6, f7, f8, f9, f10⟩ := ih (k.run E letters w) h1
    have last : ∀ {A B : Type} (f : A → Option B) (a : A) (l : List A) (x : B),
        ((a :: l).filterMap f).getLast?.getD x = (l.filterMap f).getLast?.getD ((f a).getD x) := by
      intro A B f a l x
      rw [List.filterMap_cons]
      cases f a with
      | none => rfl
      | some b =>
        rw [List.getLast?_cons]
        cases (l.filterMap f).getLast? <;> rfl
    refine ⟨o', h', f1.trans e.kind, f2.trans e.metric, f3.trans e.syms, ?_, ?_, ?_, f7.trans e.length, ?_, ?_,
      fun ha => f10 (e.alive ha)⟩
    · rw [f4, last, e.name]
    · rw [f5, last, e.symbol]
    · rcases f6 with f6 | ⟨k', hk, f6⟩
      · rcases e.indices with e6 | e6
        · exact Or.inl (f6.trans e6)
        · exact Or.inr ⟨k, List.mem_cons_self, by rw [f6]; exact e6⟩
      · exact Or.inr ⟨k', List.mem_cons_of_mem _ hk, f6⟩
    · rcases f8 with f8 | ⟨k', hk, f8⟩
      · rcases e.coords with e8 | e8
        · exact Or.inl (f8.trans e8)
        · exact Or.inr ⟨k, List.mem_cons_self, by rw [f8]; exact e8⟩
      · exact Or.inr ⟨k', List.mem_cons_of_mem _ hk, by rw [← e.kind]; exact f8⟩
    · rcases f9 with f9 | ⟨k', hk, f9⟩
      · rcases e.trans with e9 | e9
        · exact Or.inl (f9.trans e9)
        · exact Or.inr ⟨k, List.mem_cons_self, e9⟩
      · exact Or.inr ⟨k', List.mem_cons_of_mem _ hk, f9⟩

/-- Components that were computed once stay, unless the tensor is simplified. -/
theorem stored_history (E : Engine K) (letters : List Sym) (calls : List (Call K)) (w : World K) {i : Id'} {o o' : Obj K}
    (ho : w.objs[i]? = some o) (ho' : (history E letters calls w).objs[i]? = some o')
    (hs : ∀ k ∈ calls, k.simplifies i = false) {c : Id'} {ix : List Int} {a : Arr K} (h : stored o c ix = some a) :
    stored o' c ix = some a := by
  induction calls generalizing w o with
  | nil =>
    have : w.objs[i]? = some o' := ho'
    rw [ho] at this; cases this
    exact h
  | cons k calls ih =>
    obtain ⟨o1, h1, e⟩ := call_effect (E := E) letters k ho
    exact ih (k.run E letters w) h1 ho' (fun k' hk => hs k' (List.mem_cons_of_mem _ hk))
      (e.stored (hs k List.mem_cons_self) c ix a h)

/-- The session of the examples: a line, its metric and two vectors, of which the first has been asked for its covariant
components. -/
def Spec.askedWorld : World ℚ := history lineEngine [] (lineCalls "V" "W" ++ [.get 2 none (some [-1])]) fresh

/-- What is done next: renaming, other default indices, a sum, a refused change, the Christoffel symbols, deleting. -/
def Spec.laterCalls : List (Call ℚ) :=
  [.rename 2 "A", .setIndices 2 [-1], .calc (.add (.tensor 2 ["a"]) (.tensor 3 ["a"])) "Result" "r" ["a"],
   .setIndices 2 [1, 1], .rename 2 "B", .setSymbol 2 "b", .compute .christoffel 1, .delete 3]

example : ((history lineEngine ["a", "b", "c", "d"] laterCalls askedWorld).objs[2]?).map
    (fun o => (o.name, o.symbol, o.indices, o.coords)) = some ("B", "b", [-1], 0) := by decide +kernel

/-- The theorem predicts the name. -/
example : (laterCalls.filterMap (Call.newName 2)).getLast?.getD "V" = "B" := by decide +kernel

omit [DecidableEq K] [Algebra ℚ K] in
/-- What is known after components were returned. -/
theorem answered {E : Engine K} {t : Id'} {c : Option Id'} {ix : Option (List Int)} {a : Arr K} {w w1 : World K}
    (h : getComponents E t c ix w = (.ok a, w1)) :
    ∃ o1, w1.objs[t]? = some o1 ∧ stored o1 (c.getD o1.coords) (ix.getD o1.indices) = some a ∧
      validateIndices (ix.getD o1.indices) o1.indices = .ok () ∧
      ∃ oc, w1.objs[c.getD o1.coords]? = some oc ∧ oc.kind = .coordinates := by
  have hframe := getComponents_steady (E := E) t c ix w
  rw [h] at hframe
  unfold getComponents at h
  obtain ⟨o, w2, h1, h'⟩ := bind_ok h
  obtain ⟨rfl, ho, -⟩ := getObj_inv h1
  clear h
  rename' h' => h
  obtain ⟨o1, ho1, hcore⟩ := hframe.get ho
  have hix : o1.indices = o.indices := congrArg (·.2.2.2.1) hcore
  have hco : o1.coords = o.coords := congrArg (·.2.2.2.2.1) hcore
  refine ⟨o1, ho1, ?_⟩
  rw [hix, hco]
  unfold getRepresentation at h
  obtain ⟨b, w3, h2, h⟩ := bind_ok h
  have hb : (Except.ok ((w2.objs[c.getD o.coords]?).any fun o => o.kind == .coordinates), w2) =
      ((.ok b : Except PyErr Bool), w3) := h2
  injection hb with hb hw
  injection hb with hb
  subst hw
  cases b with
  | false => cases h
  | true =>
    obtain ⟨o', w4, h3, h⟩ := bind_ok h
    obtain ⟨rfl, ho', -⟩ := getObj_inv h3
    rw [ho] at ho'; cases ho'
    obtain ⟨u, w5, h4, h⟩ := bind_ok h
    rw [PyM.lift_apply] at h4
    injection h4 with h4 hw
    subst hw
    obtain ⟨b, w6, -, h⟩ := bind_ok h
    obtain ⟨_, w7, -, h⟩ := bind_ok h
    obtain ⟨rfl, o2, d, ho2, -, hd, hx⟩ := readComps_inv h
    rw [ho1] at ho2; cases ho2
    refine ⟨by unfold stored; rw [hd]; exact hx, h4, ?_⟩
    cases hc : w4.objs[c.getD o.coords]? with
    | none => rw [hc] at hb; cases hb
    | some oc =>
      rw [hc] at hb
      obtain ⟨oc1, e1, e2⟩ := hframe.get hc
      exact ⟨oc1, e1, (congrArg (·.1) e2).trans (show oc.kind = _ by simpa using hb)⟩

omit [DecidableEq K] [Algebra ℚ K] in
/-- Stored components are returned. -/
theorem stored_answer {E : Engine K} {t : Id'} {c : Option Id'} {ix : Option (List Int)} {a : Arr K} {w : World K}
    {o oc : Obj K} (ho : w.objs[t]? = some o) (ha : o.alive = true)
    (hs : stored o (c.getD o.coords) (ix.getD o.indices) = some a)
    (hv : validateIndices (ix.getD o.indices) o.indices = .ok ())
    (hc : w.objs[c.getD o.coords]? = some oc) (hk : oc.kind = .coordinates) :
    getComponents E t c ix w = (.ok a, w) := by
  unfold stored at hs
  cases hd : o.comps.get? (c.getD o.coords) with
  | none => rw [hd] at hs; cases hs
  | some d =>
    rw [hd] at hs
    have hx : d.get? (ix.getD o.indices) = some a := hs
    have hm : metricCheck (K := K) t (c.getD o.coords) w = (.ok true, w) := by
      unfold metricCheck
      refine PyM.then_ok (getObj_ok ho ha) ?_
      rw [(Dict.has_iff _ _).2 ⟨_, hd⟩]
      rfl
    have ht : tensorCheck E t (c.getD o.coords) (ix.getD o.indices) w = (.ok true, w) := by
      unfold tensorCheck
      refine PyM.then_ok (getObj_ok ho ha) ?_
      rw [hd]
      dsimp only
      rw [(Dict.has_iff _ _).2 ⟨_, hx⟩]
      rfl
    have hcr : checkRepresentation E t (c.getD o.coords) (ix.getD o.indices) w = (.ok true, w) := by
      unfold checkRepresentation
      refine PyM.then_ok (getObj_ok ho ha) ?_
      cases o.kind with
      | metric => exact hm
      | _ => exact ht
    unfold getComponents
    refine PyM.then_ok (getObj_ok ho ha) ?_
    unfold getRepresentation
    refine PyM.then_ok (a := true) (w' := w) (by
      show (Except.ok _, w) = _
      rw [hc]
      simp [hk]) ?_
    refine PyM.then_ok (getObj_ok ho ha) (PyM.then_ok (a := ()) (by rw [PyM.lift_apply, hv]) ?_)
    exact PyM.then_ok hcr (PyM.then_ok (a := ()) rfl (readComps_ok ho ha hd hx))

/-- **C82**: once `get_components` has answered, it gives exactly the same answer whenever it is called again with the
same arguments, whatever has been done in between, including calls that raised, and it changes nothing then; provided
the object still exists and was not simplified and, if the coordinates or indices were left to their defaults, that no
call has changed these defaults. -/
theorem C82_same_answer (E : Engine K) (letters : List Sym) (calls : List (Call K)) {w w1 : World K} {t : Id'}
    {c : Option Id'} {ix : Option (List Int)} {a : Arr K} (h : getComponents E t c ix w = (.ok a, w1))
    (hs : ∀ k ∈ calls, k.simplifies t = false)
    (hc : c = none → ∀ k ∈ calls, k.newCoords t = none ∧ k.asksForCurve = false)
    (hx : ix = none → ∀ k ∈ calls, k.newIndices t = none)
    (ht : InUse (history E letters calls w1) t) :
    getComponents E t c ix (history E letters calls w1) = (.ok a, history E letters calls w1) := by
  obtain ⟨o1, ho1, hst, hv, oc, hoc, hk⟩ := answered h
  obtain ⟨o2, ho2, ha⟩ := ht
  obtain ⟨o2', h2', -, -, -, -, -, hix, hlen, hco, -, -⟩ := C81_attributes E letters calls w1 ho1
  rw [ho2] at h2'; cases h2'
  have e1 : c.getD o2.coords = c.getD o1.coords := by
    cases c with
    | some c => rfl
    | none =>
      rcases hco with hco | ⟨k, hk, hco⟩
      · exact hco
      · have := hc rfl k hk
        rcases hco with hco | ⟨-, hco⟩
        · rw [this.1] at hco; cases hco
        · rw [this.2] at hco; cases hco
  have e2 : ix.getD o2.indices = ix.getD o1.indices := by
    cases ix with
    | some ix => rfl
    | none =>
      rcases hix with hix | ⟨k, hk, hix⟩
      · exact hix
      · rw [hx rfl k hk] at hix; cases hix
  obtain ⟨oc2, hoc2, hkc, -⟩ := C81_attributes E letters calls w1 hoc
  refine stored_answer ho2 ha (by rw [e1, e2]; exact stored_history E letters calls w1 ho1 ho2 hs hst) ?_
    (by rw [e1]; exact hoc2) (hkc.trans hk)
  rw [e2]
  unfold validateIndices at hv ⊢
  rw [hlen]
  exact hv

/-- The hypotheses are met in the session above, in which a call is refused and objects come and go. -/
example : getComponents lineEngine 2 none (some [-1]) askedWorld = (.ok ⟨[1], [1]⟩, askedWorld) ∧
    (∀ k ∈ laterCalls, k.simplifies 2 = false) ∧ (∀ k ∈ laterCalls, k.newCoords 2 = none ∧ k.asksForCurve = false) ∧
    InUse (history lineEngine ["a", "b", "c", "d"] laterCalls askedWorld) 2 := by
  refine ⟨by decide +kernel, by decide +kernel, by decide +kernel, ?_⟩
  have h : ((history lineEngine ["a", "b", "c", "d"] laterCalls askedWorld).objs[2]?).any (·.alive) = true := by
    decide +kernel
  cases e : (history lineEngine ["a", "b", "c", "d"] laterCalls askedWorld).objs[2]? with
  | none => rw [e] at h; cases h
  | some o => exact ⟨o, e, by rw [e] at h; exact h⟩

/-- With default indices the theorem says nothing about this session, and rightly so: the call `change_default_indices`
changes what is asked for. -/
example : ∃ k ∈ laterCalls, k.newIndices 2 ≠ none := by decide +kernel

omit [DecidableEq K] [Algebra ℚ K] in
/-- What is known after the components of a Lagrangian or geodesic equations were returned. -/
theorem curve_answered {E : Engine K} {C : Curves K} {t : Id'} {c : Option Id'} {ix : Option (List Int)} {a : Arr K}
    {w w1 : World K} (h : curveComponents E C t c ix w = (.ok a, w1)) :
    ∃ o1 a', w1.objs[t]? = some o1 ∧ stored o1 (c.getD o1.coords) (ix.getD o1.indices) = some a' ∧
      validateIndices (ix.getD o1.indices) o1.indices = .ok () ∧
      ∃ oc, w1.objs[c.getD o1.coords]? = some oc ∧ oc.kind = .coordinates ∧
        a = a'.map (C.asFunctions (curveParameter C o1.kind oc.syms) oc.syms) := by
  have hframe := (Kp.curveComponents (E := E) (C := C) t c ix w).1
  rw [h] at hframe
  unfold curveComponents at h
  obtain ⟨o, w2, h1, h'⟩ := bind_ok h
  obtain ⟨rfl, ho, -⟩ := getObj_inv h1
  clear h
  obtain ⟨a', w3, h, h6⟩ := bind_ok h'
  obtain ⟨oc, w4, h5, h7⟩ := bind_ok h6
  obtain ⟨rfl, hoc, -⟩ := getObj_inv h5
  have e : (Except.ok (a'.map (C.asFunctions (curveParameter C o.kind oc.syms) oc.syms)), w4) =
      ((.ok a : Except PyErr (Arr K)), w1) := h7
  injection e with e hw
  injection e with e
  subst hw
  obtain ⟨o1, ho1, hcore⟩ := hframe.get ho
  have hix : o1.indices = o.indices := congrArg (·.2.2.2.1) hcore
  have hco : o1.coords = o.coords := congrArg (·.2.2.2.2.1) hcore
  have hkd : o1.kind = o.kind := congrArg (·.1) hcore
  refine ⟨o1, a', ho1, ?_⟩
  rw [hix, hco, hkd]
  unfold curveRepresentation at h
  obtain ⟨b, w3, h2, h⟩ := bind_ok h
  have hb : (Except.ok ((w2.objs[c.getD o.coords]?).any fun o => o.kind == .coordinates), w2) =
      ((.ok b : Except PyErr Bool), w3) := h2
  injection hb with hb hw
  injection hb with hb
  subst hw
  cases b with
  | false => cases h
  | true =>
    obtain ⟨o', w4', h3, h⟩ := bind_ok h
    obtain ⟨rfl, ho', -⟩ := getObj_inv h3
    rw [ho] at ho'; cases ho'
    obtain ⟨u, w5, h4, h⟩ := bind_ok h
    rw [PyM.lift_apply] at h4
    injection h4 with h4 hw
    subst hw
    obtain ⟨b, w6, -, h⟩ := bind_ok h
    obtain ⟨_, w7, -, h⟩ := bind_ok h
    obtain ⟨rfl, o2, d, ho2, -, hd, hx⟩ := readComps_inv h
    rw [ho1] at ho2; cases ho2
    refine ⟨by unfold stored; rw [hd]; exact hx, h4, oc, hoc, ?_, e.symm⟩
    cases hc : w4'.objs[c.getD o.coords]? with
    | none => rw [hc] at hb; cases hb
    | some oc' =>
      rw [hc] at hb
      obtain ⟨oc1, e1, e2⟩ := hframe.get hc
      rw [hoc] at e1; cases e1
      exact (congrArg (·.1) e2).trans (show oc'.kind = _ by simpa using hb)

omit [DecidableEq K] [Algebra ℚ K] in
/-- Stored components of a Lagrangian or geodesic equations are returned. -/
theorem curve_stored_answer {E : Engine K} {C : Curves K} {t : Id'} {c : Option Id'} {ix : Option (List Int)}
    {a : Arr K} {w : World K} {o oc : Obj K} (ho : w.objs[t]? = some o) (ha : o.alive = true)
    (hs : stored o (c.getD o.coords) (ix.getD o.indices) = some a)
    (hv : validateIndices (ix.getD o.indices) o.indices = .ok ())
    (hc : w.objs[c.getD o.coords]? = some oc) (hk : oc.kind = .coordinates) (hl : oc.alive = true) :
    curveComponents E C t c ix w = (.ok (a.map (C.asFunctions (curveParameter C o.kind oc.syms) oc.syms)), w) := by
  unfold stored at hs
  cases hd : o.comps.get? (c.getD o.coords) with
  | none => rw [hd] at hs; cases hs
  | some d =>
    rw [hd] at hs
    have hx : d.get? (ix.getD o.indices) = some a := hs
    have ht : tensorCheck E t (c.getD o.coords) (ix.getD o.indices) w = (.ok true, w) := by
      unfold tensorCheck
      refine PyM.then_ok (getObj_ok ho ha) ?_
      rw [hd]
      dsimp only
      rw [(Dict.has_iff _ _).2 ⟨_, hx⟩]
      rfl
    have hr : curveRepresentation E C t (c.getD o.coords) (ix.getD o.indices) w = (.ok a, w) := by
      unfold curveRepresentation
      refine PyM.then_ok (a := true) (w' := w) (by
        show (Except.ok _, w) = _
        rw [hc]
        simp [hk]) ?_
      refine PyM.then_ok (getObj_ok ho ha) (PyM.then_ok (a := ()) (by rw [PyM.lift_apply, hv]) ?_)
      exact PyM.then_ok ht (PyM.then_ok (a := ()) rfl (readComps_ok ho ha hd hx))
    unfold curveComponents
    exact PyM.then_ok (getObj_ok ho ha) (PyM.then_ok hr (PyM.then_ok (getObj_ok hc hl) rfl))

/-- **C82** for Lagrangians and geodesic equations, whose components are given with the coordinates as functions of the
curve parameter: the coordinate system must still exist as well. -/
theorem C82_same_equations (E : Engine K) (C : Curves K) (letters : List Sym) (calls : List (Call K)) {w w1 : World K}
    {t : Id'} {c : Option Id'} {ix : Option (List Int)} {a : Arr K} (h : curveComponents E C t c ix w = (.ok a, w1))
    (hs : ∀ k ∈ calls, k.simplifies t = false)
    (hc : c = none → ∀ k ∈ calls, k.newCoords t = none ∧ k.asksForCurve = false)
    (hx : ix = none → ∀ k ∈ calls, k.newIndices t = none)
    (ht : InUse (history E letters calls w1) t)
    (hu : ∀ o, w1.objs[t]? = some o → InUse (history E letters calls w1) (c.getD o.coords)) :
    curveComponents E C t c ix (history E letters calls w1) = (.ok a, history E letters calls w1) := by
  obtain ⟨o1, a', ho1, hst, hv, oc, hoc, hk, rfl⟩ := curve_answered h
  obtain ⟨o2, ho2, ha⟩ := ht
  obtain ⟨o2', h2', hkd, -, -, -, -, hix, hlen, hco, -, -⟩ := C81_attributes E letters calls w1 ho1
  rw [ho2] at h2'; cases h2'
  have e1 : c.getD o2.coords = c.getD o1.coords := by
    cases c with
    | some c => rfl
    | none =>
      rcases hco with hco | ⟨k, hk, hco⟩
      · exact hco
      · have := hc rfl k hk
        rcases hco with hco | ⟨-, hco⟩
        · rw [this.1] at hco; cases hco
        · rw [this.2] at hco; cases hco
  have e2 : ix.getD o2.indices = ix.getD o1.indices := by
    cases ix with
    | some ix => rfl
    | none =>
      rcases hix with hix | ⟨k, hk, hix⟩
      · exact hix
      · rw [hx rfl k hk] at hix; cases hix
  obtain ⟨oc2, hoc2, hkc, -, hsy, -⟩ := C81_attributes E letters calls w1 hoc
  obtain ⟨oc3, hoc3, hl⟩ := hu o1 ho1
  rw [hoc2] at hoc3; cases hoc3
  rw [curve_stored_answer (oc := oc2) ho2 ha
    (by rw [e1, e2]; exact stored_history E letters calls w1 ho1 ho2 hs hst) (by
      rw [e2]
      unfold validateIndices at hv ⊢
      rw [hlen]
      exact hv) (by rw [e1]; exact hoc2) (hkc.trans hk) hl, hkd, hsy]

/-- A session with a geodesic equation (object 20), which is asked for in the second coordinates. -/
def Spec.rodCalls : List (Call ℚ) :=
  [.coordinates (.val "Old") (.val [1]) ["x"] (.tuple [1]) (.val "x"),
   .coordinates (.val "New") (.val [1]) ["u"] (.tuple [1]) (.val "u"),
   .transformation 0 1 (some [some ("x", 210)]),
   .metric (.val "Flat") (.val ⟨[1, 1], [1]⟩) 0 (.tuple [-1, -1]) (.val "g"),
   .curve rodCurves .fromChristoffel 2 none]

/-- The session after these, and after the equation was asked for. -/
def Spec.rodWorld : World ℚ :=
  (curveComponents rodEngine rodCurves 20 (some 1) none (history rodEngine [] rodCalls fresh)).2

/-- The hypotheses are met in a session in which the geodesic equation is asked for in the second coordinates, requested
again in these, which changes its default coordinates, and the metric renamed. -/
example : curveComponents rodEngine rodCurves 20 (some 1) none (history rodEngine [] rodCalls fresh) =
      (.ok ⟨[1], [rodCurves.var "xddot"]⟩, rodWorld) ∧
    InUse (history rodEngine [] [.curve rodCurves .fromChristoffel 2 (some 1), .rename 2 "Euclid"] rodWorld) 20 ∧
    ((history rodEngine [] [.curve rodCurves .fromChristoffel 2 (some 1), .rename 2 "Euclid"] rodWorld).objs[20]?).map
      (fun o => (o.coords, o.name)) = some (1, "Flat Geodesic From Christoffel") := by
  refine ⟨by decide +kernel, ?_, by decide +kernel⟩
  have h : ((history rodEngine [] [.curve rodCurves .fromChristoffel 2 (some 1), .rename 2 "Euclid"]
    rodWorld).objs[20]?).any (·.alive) = true := by decide +kernel
  cases e : (history rodEngine [] [.curve rodCurves .fromChristoffel 2 (some 1), .rename 2 "Euclid"]
    rodWorld).objs[20]? with
  | none => rw [e] at h; cases h
  | some o => exact ⟨o, e, by rw [e] at h; exact h⟩

end PyOGRe
