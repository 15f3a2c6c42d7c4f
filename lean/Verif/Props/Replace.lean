import Verif.Lemmas.Replace
import Verif.Props.Show
import Verif.Props.Simplify
import Verif.Spec.PlaneCurves

/-!
# C87: `replace`, `function` and `mode` for Lagrangians and geodesic equations
-/

namespace PyOGRe
open Spec
variable {K : Type} [CommRing K] {E : Engine K} {C : Curves K} {R : Rewriter K}

/-- What a request for the components has found. -/
theorem curve_inv {t : Id'} {c : Option Id'} {ix : Option (List Int)} {w w' : World K} {b : Arr K} {o oc : Obj K}
    (h : curveComponents E C t c ix w = (.ok b, w')) (ho : w.objs[t]? = some o)
    (hc : w.objs[c.getD o.coords]? = some oc) : o.alive = true ∧ Frame w w' ∧ ∃ raw oc',
      curveRepresentation E C t (c.getD o.coords) (ix.getD o.indices) w = (.ok raw, w') ∧
      HasComps w' t (c.getD o.coords) (ix.getD o.indices) raw ∧
      w'.objs[c.getD o.coords]? = some oc' ∧ oc'.alive = true ∧ oc'.syms = oc.syms ∧
      b = raw.map (C.asFunctions (curveParameter C o.kind oc.syms) oc.syms) ∧
      (ix.getD o.indices).length = o.indices.length ∧ ∀ x ∈ ix.getD o.indices, x = 1 ∨ x = -1 := by
  have hF : Frame w w' := by
    have := (Keys.curveComponents (E := E) (C := C) (t := t) (S := fun _ => True) c (fun _ _ => trivial) ix w
      fun _ _ _ => trivial).1
    rw [h] at this
    exact this
  unfold curveComponents at h
  obtain ⟨o1, w1, k1, h1⟩ := bind_ok h
  obtain ⟨rfl, k2, k3⟩ := getObj_inv k1
  rw [ho] at k2; cases k2
  obtain ⟨raw, w2, k4, h2⟩ := bind_ok h1
  obtain ⟨oc', w3, k5, h3⟩ := bind_ok h2
  obtain ⟨rfl, k6, k7⟩ := getObj_inv k5
  cases h3
  obtain ⟨oc2, e1, e2⟩ := hF.get hc
  rw [k6] at e1; cases e1
  have hs : oc'.syms = oc.syms := congrArg (·.2.2.2.2.2.2.1) e2
  refine ⟨k3, hF, raw, oc', k4, ?_, k6, k7, hs, by rw [hs], ?_⟩
  · unfold curveRepresentation at k4
    obtain ⟨bb, w4, j1, k4⟩ := bind_ok k4
    split_ifs at k4 with hb
    · cases k4
    · obtain ⟨o2, w5, j2, k4⟩ := bind_ok k4
      obtain ⟨u, w6, j3, k4⟩ := bind_ok k4
      obtain ⟨b2, w7, j4, k4⟩ := bind_ok k4
      obtain ⟨u2, w8, j5, k4⟩ := bind_ok k4
      obtain ⟨rfl, o3, d, j6, -, j7, j8⟩ := readComps_inv k4
      exact ⟨o3, d, j6, j7, j8⟩
  · unfold curveRepresentation at k4
    obtain ⟨bb, w4, j1, k4⟩ := bind_ok k4
    rw [isCoordinates_apply] at j1
    cases j1
    split_ifs at k4 with hb
    · cases k4
    · obtain ⟨o2, w5, j2, k4⟩ := bind_ok k4
      obtain ⟨rfl, j3, -⟩ := getObj_inv j2
      rw [ho] at j3; cases j3
      obtain ⟨u, w6, j4, k4⟩ := bind_ok k4
      rw [PyM.lift_apply] at j4
      exact validateIndices_ok (congrArg Prod.fst j4)

/-- What `replace` does with one component. -/
theorem replace_rewrites [DecidableEq K] [Nontrivial K] (hO : RewriterOK E C R) {kind : Kind} {syms : List Sym}
    {replace : Option (List (Sym × K))} (hM : ProperReplace E C R kind (curveParameter C kind syms) syms replace) :
    ∃ S, Rewrites E C kind (curveParameter C kind syms) syms replace S ∧
      ∀ rules, asDict C replace = some rules → ∀ x, curveReplace C R kind syms rules x = S x := by
  cases replace with
  | none => exact ⟨fun x => x, fun _ => rfl, fun rules h => nomatch h⟩
  | some rules =>
    obtain ⟨h1, h2, h3⟩ := hM rules rfl
    refine ⟨_, curveReplace_prolongs hO.calculus hO.var hO.subst hO.subs h1 h2 h3, fun r h x => ?_⟩
    cases h
    rfl

/-- **C87** (part that holds): `get_components` of a Lagrangian or geodesic equation with `function`, `replace` and
`mode`.  The session changes as with the plain request.  First `function` is applied to the components that are stored for
the requested coordinates and indices, then `replace`, which also replaces the velocities and accelerations of the
coordinates that are replaced by the derivatives of what is put in, then functions of the parameter are written for the
coordinates, and the answer is given in the requested mode.  Missing: replacements of constants by functions of the
coordinates (`C87_constant_false`) and of velocities (`C87_velocity_false`); scalars with a `function` in coordinates other
than those in which they were made. -/
theorem C87_components_partial [DecidableEq K] [Nontrivial K] (hO : RewriterOK E C R) (P : Printers K) {t : Id'}
    {c : Option Id'} {ix : Option (List Int)} {w w' : World K} {b : Arr K} {o oc : Obj K}
    (h : curveComponents E C t c ix w = (.ok b, w')) (ho : w.objs[t]? = some o)
    (hc : w.objs[c.getD o.coords]? = some oc) {n r : Nat} (hn : 0 < n) (hb : b.shape = List.replicate r n)
    (function : Option (K → K)) (hf : function = none ∨ Native w' t (c.getD o.coords))
    (replace : Option (List (Sym × K))) (hM : ProperReplace E C R o.kind (curveParameter C o.kind oc.syms) oc.syms replace)
    {mode : String} (hm : mode.toLower ∈ ["sympy", "mathematica", "latex"]) :
    ∃ S raw a, Rewrites E C o.kind (curveParameter C o.kind oc.syms) oc.syms replace S ∧
      HasComps w' t (c.getD o.coords) (ix.getD o.indices) raw ∧ raw.shape = b.shape ∧ a.shape = b.shape ∧
      (∀ J, Valid b.shape J →
        b.get J = C.asFunctions (curveParameter C o.kind oc.syms) oc.syms (raw.get J) ∧
        a.get J = C.asFunctions (curveParameter C o.kind oc.syms) oc.syms (S ((function.getD id) (raw.get J)))) ∧
      curveComponentsWith E C R P t c ix (asDict C replace) function mode w =
        (.ok (if mode.toLower = "sympy" then .array a else if mode.toLower = "mathematica" then
          .text (P.mathematica a) else .text (P.latex a)), w') := by
  obtain ⟨hal, hF, raw, oc', k1, k2, k3, k4, k5, k6, -⟩ := curve_inv h ho hc
  obtain ⟨S, hS, hS'⟩ := replace_rewrites hO hM
  have hsh : raw.shape = b.shape := by rw [k6]; rfl
  obtain ⟨a1, f1, f2, f3⟩ : ∃ a1 : Arr K, withFunction false function raw = .ok a1 ∧ a1.shape = raw.shape ∧
      ∀ J, Valid raw.shape J → a1.get J = (function.getD id) (raw.get J) := by
    cases function with
    | none => exact ⟨raw, rfl, rfl, fun _ _ => rfl⟩
    | some f =>
      obtain ⟨c1, g1, -, g2, g3⟩ := mapToArray_uniform f hn raw (hsh.trans hb)
      exact ⟨c1, g1, g2, g3⟩
  have hbare : ∃ bare, isBare t (some (c.getD o.coords)) w' = (.ok bare, w') ∧ withFunction bare function raw = .ok a1 := by
    rcases hf with rfl | hf
    · exact ⟨_, rfl, f1⟩
    · exact ⟨_, isBare_native fun o _ => hf, f1⟩
  obtain ⟨bare, g1, g2⟩ := hbare
  obtain ⟨a2, e1, e2, e3⟩ : ∃ a2 : Arr K, (match asDict C replace with
      | none => a1
      | some rules => a1.map (curveReplace C R o.kind oc'.syms rules)) = a2 ∧ a2.shape = raw.shape ∧
      ∀ J, Valid raw.shape J → a2.get J = S ((function.getD id) (raw.get J)) := by
    cases replace with
    | none =>
      refine ⟨a1, rfl, f2, fun J hJ => ?_⟩
      rw [f3 J hJ, hS]
    | some rules =>
      refine ⟨_, rfl, f2, fun J hJ => ?_⟩
      show (a1.map _).get J = _
      rw [Arr.get_map (by rw [f2]; exact hJ), f3 J hJ, k5]
      exact hS' _ rfl _
  refine ⟨S, raw, a2.map (C.asFunctions (curveParameter C o.kind oc.syms) oc.syms), hS, k2, hsh, e2.trans hsh,
    fun J hJ => ⟨?_, ?_⟩, ?_⟩
  · rw [k6]
    exact Arr.get_map (by rw [hsh]; exact hJ)
  · rw [Arr.get_map (by rw [e2, hsh]; exact hJ), e3 J (by rw [hsh]; exact hJ)]
  · unfold curveComponentsWith
    rw [if_neg (not_not.2 hm)]
    refine PyM.then_ok (getObj_ok ho hal) (PyM.then_ok k1 (PyM.then_ok g1 ?_))
    refine PyM.then_ok (a := a1) (w' := w') (by rw [PyM.lift_apply, g2]) ?_
    refine PyM.then_ok (getObj_ok k3 k4) ?_
    show (Except.ok (P.answer mode (Arr.map (C.asFunctions (curveParameter C o.kind oc'.syms) oc'.syms)
      (match asDict C replace with
      | none => a1
      | some rules => a1.map (curveReplace C R o.kind oc'.syms rules)))), w') = _
    rw [e1, k5]
    rfl

/-- C87: an unknown mode is refused before anything happens, and without `function` an error of the plain request is
raised. -/
theorem C87_refused [DecidableEq K] (P : Printers K) (t : Id') (c : Option Id') (ix : Option (List Int))
    (replace : Option (List (K × K))) (function : Option (K → K)) (mode : String) (w : World K) :
    (mode.toLower ∉ ["sympy", "mathematica", "latex"] →
      curveComponentsWith E C R P t c ix replace function mode w = (.error .valueError, w)) ∧
    (mode.toLower ∈ ["sympy", "mathematica", "latex"] → ∀ e w', curveComponents E C t c ix w = (.error e, w') →
      curveComponentsWith E C R P t c ix replace none mode w = (.error e, w')) := by
  refine ⟨fun h => ?_, fun h e w' he => ?_⟩
  · unfold curveComponentsWith
    rw [if_pos h]; rfl
  · unfold curveComponentsWith
    unfold curveComponents at he
    rw [if_neg (not_not.2 h)]
    rw [PyM.bind_apply] at he ⊢
    cases h1 : getObj t w with
    | mk r1 w1 =>
    rw [h1] at he
    cases r1 with
    | error e1 =>
        obtain ⟨q1, q2⟩ := Prod.mk.inj he
        cases q1; cases q2; rfl
    | ok o =>
      dsimp only at he ⊢
      rw [PyM.bind_apply] at he ⊢
      cases h2 : curveRepresentation E C t (c.getD o.coords) (ix.getD o.indices) w1 with
      | mk r2 w2 =>
      rw [h2] at he
      cases r2 with
      | error e2 =>
        obtain ⟨q1, q2⟩ := Prod.mk.inj he
        cases q1; cases q2; rfl
      | ok a =>
        dsimp only at he ⊢
        refine PyM.then_ok (w' := w2) rfl ?_
        refine PyM.then_ok (a := a) (w' := w2) rfl ?_
        rw [PyM.bind_apply] at he ⊢
        cases h3 : getObj (c.getD o.coords) w2 with
        | mk r3 w3 =>
        rw [h3] at he
        cases r3 with
        | error e3 =>
        obtain ⟨q1, q2⟩ := Prod.mk.inj he
        cases q1; cases q2; rfl
        | ok oc => cases he

/-- A replacement in every component, if there is one. -/
def mapped (rep : Option (K → K)) (a : Arr K) : Arr K := match rep with
  | none => a
  | some f => a.map f

theorem mapped_shape (rep : Option (K → K)) (a : Arr K) : (mapped rep a).shape = a.shape := by cases rep <;> rfl

theorem mapped_get (rep : Option (K → K)) {a : Arr K} {I : List Nat} (h : Valid a.shape I) :
    (mapped rep a).get I = (rep.getD id) (a.get I) := by
  cases rep with
  | none => rfl
  | some f => exact Arr.get_map h

/-- The components before a replacement. -/
def beforeReplace (raw : Arr K) (function : Option (K → K)) (column bare : Bool) : Py (Arr K) := match function with
  | none => .ok (if column then asColumn raw else raw)
  | some f => if bare then .error .typeError else if column then showWithFunction raw f else mapToArray raw f

theorem curveShown_run [DecidableEq K] {t cc : Id'} {ix : List Int} {w w' : World K} {raw : Arr K} {o oc' : Obj K}
    (ho : w.objs[t]? = some o) (hal : o.alive = true) (k1 : curveRepresentation E C t cc ix w = (.ok raw, w'))
    (k3 : w'.objs[cc]? = some oc') (k4 : oc'.alive = true) (function : Option (K → K)) (column : Bool)
    (replace : Option (List (K × K))) {bare : Bool} {a1 : Arr K} (h1 : isBare t (some cc) w' = (.ok bare, w'))
    (h2 : beforeReplace raw function column bare = .ok a1) :
    curveShown E C R t cc ix function replace column w =
      (.ok (mapped (replace.map fun rules x => R.doit (curveReplace C R o.kind oc'.syms rules x)) a1), w') := by
  unfold curveShown
  refine PyM.then_ok (getObj_ok ho hal) (PyM.then_ok k1 (PyM.then_ok h1 ?_))
  refine PyM.then_ok (a := a1) (w' := w') ?_ ?_
  · rw [PyM.lift_apply, ← h2]
    unfold beforeReplace asColumn
    cases function with
    | none => rcases raw with ⟨_ | ⟨m, _ | ⟨k, s⟩⟩, d⟩ <;> cases column <;> rfl
    | some f => rfl
  · refine PyM.then_ok (getObj_ok k3 k4) ?_
    cases replace <;> rfl

/-- The components that `show` and `list` use. -/
theorem curveShown_ok [DecidableEq K] [Nontrivial K] (hO : RewriterOK E C R) {t cc : Id'}
    {ix : List Int} {w w' : World K} {raw : Arr K} {o oc' : Obj K} {syms : List Sym}
    (ho : w.objs[t]? = some o) (hal : o.alive = true)
    (k1 : curveRepresentation E C t cc ix w = (.ok raw, w'))
    (k3 : w'.objs[cc]? = some oc') (k4 : oc'.alive = true) (k5 : oc'.syms = syms)
    {n r : Nat} (hn : 0 < n) (hb : raw.shape = List.replicate r n)
    (function : Option (K → K)) (column : Bool) (hf : function = none ∨ Native w' t cc ∧ (column = true → r ≠ 1))
    (replace : Option (List (Sym × K))) (hM : ProperReplace E C R o.kind (curveParameter C o.kind syms) syms replace) :
    ∃ S a, Rewrites E C o.kind (curveParameter C o.kind syms) syms replace S ∧
      curveShown E C R t cc ix function (asDict C replace) column w = (.ok a, w') ∧
      (column = false → ∀ I ∈ tuples n r, a.get I =
        if replace.isSome then R.doit (S ((function.getD id) (raw.get I))) else (function.getD id) (raw.get I)) ∧
      (column = true → Displays n (fun x =>
        if replace.isSome then R.doit (S ((function.getD id) x)) else (function.getD id) x) a raw) := by
  obtain ⟨S, hS, hS'⟩ := replace_rewrites hO hM
  have hrank : raw.rank = r := by unfold Arr.rank; rw [hb, List.length_replicate]
  have hv : ∀ I ∈ tuples n r, Valid raw.shape I := by
    intro I hI
    rw [tuples_eq_allIdx, ← hb] at hI
    exact mem_allIdx.1 hI
  -- the replacement in one component
  have hrep : ∀ x, (((asDict C replace).map fun rules x => R.doit (curveReplace C R o.kind oc'.syms rules x)).getD id) x =
      if replace.isSome then R.doit (S x) else x := by
    intro x
    cases replace with
    | none => rfl
    | some rules =>
      show R.doit _ = R.doit _
      rw [← hS' _ rfl x, k5]
  generalize hg : ((asDict C replace).map fun rules x => R.doit (curveReplace C R o.kind oc'.syms rules x)) = rep at hrep
  cases function with
  | none =>
    have h2 := curveShown_run (R := R) ho hal k1 k3 k4 none column (asDict C replace) (bare := _) rfl rfl
    rw [hg] at h2
    refine ⟨S, _, hS, h2, fun hcol I hI => ?_, fun hcol => ?_⟩
    · subst hcol
      exact (mapped_get rep (hv I hI)).trans (hrep _)
    · subst hcol
      have hd := asColumn_displays (n := n) (b := raw) (by rw [hrank]; exact hb) rep
      rw [show (fun x : K => if replace.isSome then R.doit (S ((Option.getD (none : Option (K → K)) id) x)) else
        (Option.getD (none : Option (K → K)) id) x) = rep.getD id from funext fun x => (hrep x).symm]
      cases rep <;> exact hd
  | some f =>
    obtain ⟨hnat, hcol'⟩ := hf.resolve_left (by simp)
    obtain ⟨a1, g1, -, g2, g3⟩ := mapToArray_uniform f hn raw hb
    have h2 := curveShown_run (R := R) ho hal k1 k3 k4 (some f) column (asDict C replace) (bare := false) (a1 := a1)
      (isBare_native fun o _ => hnat) (by
        cases column with
        | false => exact g1
        | true =>
          rw [← g1]
          have hr := hcol' rfl
          rw [← hrank] at hr
          rcases raw with ⟨_ | ⟨m, _ | ⟨k, s⟩⟩, d⟩
          · rfl
          · exact absurd rfl hr
          · rfl)
    rw [hg] at h2
    have hget : ∀ I ∈ tuples n r, (mapped rep a1).get I =
        if replace.isSome then R.doit (S (f (raw.get I))) else f (raw.get I) := by
      intro I hI
      rw [← hrep, ← g3 I (hv I hI)]
      exact mapped_get rep (by rw [g2]; exact hv I hI)
    refine ⟨S, _, hS, h2, fun _ => hget, fun hcol => ?_⟩
    unfold Displays
    rw [if_neg (by rw [hrank]; exact hcol' hcol), hrank]
    exact ⟨by rw [mapped_shape]; exact g2, hget⟩

/-- **C87** (part that holds) for `show`: the name, the symbol with its indices, the symbols of the coordinates, and the
stored components with `function` and `replace` applied; a vector is a column.  Missing: as above, and vectors with a
`function`. -/
theorem C87_show_partial [DecidableEq K] [Nontrivial K] (hO : RewriterOK E C R) (T : Typeset K) (opt : Options) {t : Id'}
    {c : Option Id'} {ix : Option (List Int)} {w w' : World K} {b : Arr K} {o oc : Obj K}
    (h : curveComponents E C t c ix w = (.ok b, w')) (ho : w.objs[t]? = some o)
    (hc : w.objs[c.getD o.coords]? = some oc) {n r : Nat} (hn : 0 < n) (hb : b.shape = List.replicate r n)
    {letters : List Sym} (hl : opt.letters = .many letters) (hr : o.indices.length ≤ letters.length)
    (function : Option (K → K)) (hf : function = none ∨ Native w' t (c.getD o.coords) ∧ r ≠ 1)
    (replace : Option (List (Sym × K)))
    (hM : ProperReplace E C R o.kind (curveParameter C o.kind oc.syms) oc.syms replace) :
    ∃ S raw a, Rewrites E C o.kind (curveParameter C o.kind oc.syms) oc.syms replace S ∧
      HasComps w' t (c.getD o.coords) (ix.getD o.indices) raw ∧ raw.shape = b.shape ∧
      (∀ J, Valid b.shape J → b.get J = C.asFunctions (curveParameter C o.kind oc.syms) oc.syms (raw.get J)) ∧
      Displays n (fun x => if replace.isSome then R.doit (S ((function.getD id) x)) else (function.getD id) x) a raw ∧
      showCurve E C R T opt t c ix function (asDict C replace) w = (.ok [.array o.name.toList
        (symbolText T.symbol opt.latex o.symbol ++
          indexed T.symbol opt.latex (ix.getD o.indices) (letters.take o.indices.length)) oc.syms a], w') := by
  obtain ⟨hal, hF, raw, oc', k1, k2, k3, k4, k5, k6, k7, k8⟩ := curve_inv h ho hc
  have hsh : raw.shape = b.shape := by rw [k6]; rfl
  obtain ⟨S, a, h1, h2, -, h3⟩ := curveShown_ok hO ho hal k1 k3 k4 k5 hn (hsh.trans hb) function true
    (hf.imp id fun q => ⟨q.1, fun _ => q.2⟩) replace hM
  refine ⟨S, raw, a, h1, k2, hsh, fun J hJ => ?_, h3 rfl, ?_⟩
  · rw [k6]
    exact Arr.get_map (by rw [hsh]; exact hJ)
  unfold showCurve
  refine PyM.then_ok (getObj_ok ho hal) (PyM.then_ok h2 ?_)
  refine PyM.then_ok (a := symbolText T.symbol opt.latex o.symbol ++
      indexed T.symbol opt.latex (ix.getD o.indices) (letters.take o.indices.length)) (w' := w') ?_ ?_
  · rw [PyM.lift_apply, eqSymbol_ok T opt o _ letters hl k8 k7.le (by omega), k7]
  · refine PyM.then_ok (getObj_ok k3 k4) ?_
    rw [k5]; rfl

/-- **C87** (part that holds) for `list` of geodesic equations: the stored components with `function` and `replace`
applied are grouped by their values, every non-zero one occurs exactly once, and no zero one occurs.  Missing: as for
`get_components`. -/
theorem C87_list_partial [DecidableEq K] [Nontrivial K] [Algebra ℚ K] (hO : RewriterOK E C R) (T : Typeset K)
    (opt : Options) {t : Id'} {c : Option Id'} {ix : Option (List Int)} {w w' : World K} {b : Arr K} {o oh oc : Obj K}
    (h : curveComponents E C t c ix w = (.ok b, w')) (ho : w.objs[t]? = some o) (hr : 0 < o.indices.length)
    (hh : w.objs[o.coords]? = some oh) (hha : oh.alive = true) (hc : w.objs[c.getD o.coords]? = some oc)
    (hb : b.shape = List.replicate o.indices.length oh.syms.length) (hn : 0 < oh.syms.length)
    {letters : List Sym} (hl : opt.letters = .many letters) (hp : 0 < opt.perLine) (function : Option (K → K))
    (replace : Option (List (Sym × K)))
    (hM : ProperReplace E C R o.kind (curveParameter C o.kind oc.syms) oc.syms replace) :
    ∃ S raw groups out, Rewrites E C o.kind (curveParameter C o.kind oc.syms) oc.syms replace S ∧
      HasComps w' t (c.getD o.coords) (ix.getD o.indices) raw ∧ raw.shape = b.shape ∧
      (∀ J, Valid b.shape J → b.get J = C.asFunctions (curveParameter C o.kind oc.syms) oc.syms (raw.get J)) ∧
      listCurve E C R T opt t c ix function (asDict C replace) w = (.ok out, w') ∧
      Grouped oh.syms.length o.indices.length (fun I => if replace.isSome then R.doit (S ((function.getD id) (raw.get I)))
        else (function.getD id) (raw.get I)) groups ∧
      if opt.latex then
        Page T opt o.name (entryShown T.symbol true o.symbol (ix.getD o.indices) oc.syms) groups out
      else Printed o.name (entryShown T.symbol false o.symbol (ix.getD o.indices) oc.syms) groups out := by
  obtain ⟨hal, hF, raw, oc', k1, k2, k3, k4, k5, k6, k7, k8⟩ := curve_inv h ho hc
  have hsh : raw.shape = b.shape := by rw [k6]; rfl
  obtain ⟨oh', hh', eh⟩ := hF.get hh
  have hnat : Native w' t (c.getD o.coords) := by
    intro o' ho' hi
    obtain ⟨o2, j1, j2⟩ := hF.get ho
    rw [ho'] at j1; cases j1
    have : o'.indices = o.indices := congrArg (·.2.2.2.1) j2
    rw [← this, hi] at hr
    exact absurd hr (by simp)
  obtain ⟨S, a, h1, h2, h3, -⟩ := curveShown_ok hO ho hal k1 k3 k4 k5 hn (hsh.trans hb) function false
    (.inr ⟨hnat, by simp⟩) replace hM
  obtain ⟨groups, out, g1, g2, g3⟩ := list_finish T opt (a := a) (oh := oh) (oc := oc) hr k8
    (fun I hI => h3 rfl I (by rw [tuples_eq_allIdx]; exact hI)) hh' ((congrArg (·.2.2.2.2.2.2.2.2) eh).trans hha)
    (congrArg (·.2.2.2.2.2.2.1) eh) k3 k4 k5 hl hp
  refine ⟨S, raw, groups, out, h1, k2, hsh, fun J hJ => ?_, ?_, g2, g3⟩
  · rw [k6]
    exact Arr.get_map (by rw [hsh]; exact hJ)
  · unfold listCurve
    exact PyM.then_ok (getObj_ok ho hal) (PyM.then_ok h2 g1)

/-! ## Examples -/

theorem hasComps_unique {w : World K} {t c : Id'} {ix : List Int} {a b : Arr K} (ha : HasComps w t c ix a)
    (hb : HasComps w t c ix b) : a = b := by
  obtain ⟨o, d, h1, h2, h3⟩ := ha
  obtain ⟨o', d', k1, k2, k3⟩ := hb
  rw [h1] at k1; cases k1
  rw [h2] at k2; cases k2
  rw [h3] at k3; cases k3
  rfl

open MvPolynomial in
theorem plane_speed {S : Poly → Poly}
    (hS : Rewrites polyEngine planeCurves .lagrangian "lambda" ["x", "y"] (some planeReplace) S) :
    S (X "xdot" ^ 2 + X "ydot" ^ 2) = 4 * X "y" ^ 2 * X "ydot" ^ 2 + X "ydot" ^ 2 := by
  have hS' : Prolongs polyEngine planeCurves "lambda" ["x", "y"] planeReplace [] S := hS
  have h1 : S (X "xdot") = 2 * X "y" * X "ydot" := by
    have := hS'.velocity ("x", X "y" ^ 2) (by simp [planeReplace]) (by simp)
    rwa [along_square] at this
  have h2 : S (X "ydot") = X "ydot" := by
    refine hS'.const _ ?_ (by simp)
    simp only [planeReplace, List.mem_cons, List.not_mem_nil, or_false]
    have hd : ∀ s : Sym, s ≠ "ydot" → polyEngine.diff s (X "ydot") = 0 := fun s hs => by
      show pderiv s (X "ydot" : Poly) = 0
      rw [pderiv_var, if_neg hs]
    rintro r (rfl | rfl)
    · exact ⟨hd _ (by decide), fun _ => ⟨hd _ (by decide), hd _ (by decide)⟩⟩
    · exact ⟨hd _ (by decide), fun _ => ⟨hd _ (by decide), hd _ (by decide)⟩⟩
  rw [pow_two, pow_two, hS'.add, hS'.mul, hS'.mul, h1, h2]
  ring

open MvPolynomial in
/-- C87: in the plane, the Lagrangian `xdot² + ydot²` with `y²` for `x` and 2 for a constant `M` is
`4 y² ydot² + ydot²`, with functions of the parameter for the coordinates. -/
example (P : Printers Poly) : ∃ r w a, calcLagrangian polyEngine planeCurves 2 none flatWorld = (.ok r, w) ∧
    curveComponentsWith polyEngine planeCurves planeRewriter P r none none
      (some [(X "x", X "y" ^ 2), (X "M", 2)]) none "Sympy" w = (.ok (.array a), w) ∧ a.get [] =
        planeCurves.asFunctions "lambda" ["x", "y"] (4 * X "y" ^ 2 * X "ydot" ^ 2 + X "ydot" ^ 2) := by
  obtain ⟨r, w, b, raw, o, oc, h1, h2, h3, h4, -, h6, h7, h8, h9, h10, h11, h12⟩ := plane_lagrangian
  have hM := planeReplace_ok .lagrangian (by decide)
  have hp : curveParameter planeCurves o.kind oc.syms = "lambda" := by rw [h4]; rfl
  obtain ⟨S, raw', a, k1, k2, k3, k4, k5, k6⟩ := C87_components_partial planeRewriter_ok P h2 h3
    (oc := oc) (by rw [h7]; exact h8) (n := 2) (r := 0) (by omega) h10 none (.inl rfl) (some planeReplace)
    (by rw [hp, h4, h9]; exact hM) (mode := "Sympy") (by decide +kernel)
  rw [h4, h9] at k1
  rw [hp, h9] at k5
  refine ⟨r, w, a, h1, k6.trans ?_, ?_⟩
  · rw [if_pos (by decide +kernel)]
  · rw [(k5 [] (by rw [h10]; exact valid_nil.2 rfl)).2]
    rw [h6, h7] at k2
    rw [hasComps_unique k2 h11, Option.getD_none, id_eq, h12, plane_speed k1]

open MvPolynomial in
/-- C87: the same for `show`. -/
example (T : Typeset Poly) : ∃ r w a label, calcLagrangian polyEngine planeCurves 2 none flatWorld = (.ok r, w) ∧
    showCurve polyEngine planeCurves planeRewriter T { latex := false } r none none none
      (some [(X "x", X "y" ^ 2), (X "M", 2)]) w = (.ok [.array "Flat Lagrangian".toList label ["x", "y"] a], w) ∧
    a.get [] = 4 * X "y" ^ 2 * X "ydot" ^ 2 + X "ydot" ^ 2 := by
  obtain ⟨r, w, b, raw, o, oc, h1, h2, h3, h4, h5, h6, h7, h8, h9, h10, h11, h12⟩ := plane_lagrangian
  have hM := planeReplace_ok .lagrangian (by decide)
  have hp : curveParameter planeCurves o.kind oc.syms = "lambda" := by rw [h4]; rfl
  obtain ⟨S, raw', a, k1, k2, k6, k3, k4, k5⟩ := C87_show_partial planeRewriter_ok T { latex := false } h2 h3
    (oc := oc) (by rw [h7]; exact h8) (n := 2) (r := 0) (by omega) h10 rfl (by rw [h6]; decide) none (.inl rfl)
    (some planeReplace) (by rw [hp, h4, h9]; exact hM)
  rw [h4, h9] at k1
  rw [h6, h7] at k2
  rw [h5, h9] at k5
  refine ⟨r, w, a, _, h1, k5, ?_⟩
  unfold Displays at k4
  have hs : raw'.shape = [] := k6.trans h10
  rw [if_neg (by rw [Arr.rank, hs]; decide)] at k4
  rw [k4.2 [] (by rw [Arr.rank, hs]; decide), hasComps_unique k2 h11, h12]
  show S _ = _
  rw [Option.getD_none, id_eq, plane_speed k1]

theorem grouped_congr {n r : Nat} {f g : List Nat → K} {groups : List (K × List (Bool × List Nat))}
    (h : Grouped n r f groups) (he : ∀ I ∈ tuples n r, f I = g I) : Grouped n r g groups where
  once I hI hn := h.once I hI (by rw [he I hI]; exact hn)
  only x hx e hm := ⟨(h.only x hx e hm).1, by rw [← he _ (h.only x hx e hm).1]; exact (h.only x hx e hm).2⟩
  sign x hx e hm := by rw [← he _ (h.only x hx e hm).1]; exact h.sign x hx e hm
  nonempty := h.nonempty
  different := h.different

open MvPolynomial in
/-- C87: in the plane, the geodesic equations `0` and `yddot` with the parameter `x`, with `x²` for `y`, are `0` and `2`,
and only the second one is listed. -/
example (T : Typeset Poly) : ∃ r w symbol groups out, calcGeodesicTime polyEngine planeCurves 2 none flatWorld = (.ok r, w) ∧
    listCurve polyEngine planeCurves planeRewriter T { latex := false } r none none none (some [(X "y", X "x" ^ 2)]) w =
      (.ok out, w) ∧ Grouped 2 1 (fun I => if I = [1] then 2 else 0 : List Nat → Poly) groups ∧
    Printed "Flat Geodesic With Time Parameter" (entryShown T.symbol false symbol [1] ["x", "y"]) groups out := by
  obtain ⟨r, w, b, raw, o, oc, h1, h2, h3, h4, h5, h6, h7, h8, h8', h9, h10, h11, h12, h13⟩ := plane_time
  have hM := timeReplace_ok .geodesicTime
  have hp : curveParameter planeCurves o.kind oc.syms = "x" := by rw [h4, h9]; rfl
  obtain ⟨S, raw', groups, out, k1, k2, k3, k4, k5, k6, k7⟩ := C87_list_partial planeRewriter_ok T { latex := false } h2 h3
    (oh := oc) (oc := oc) (by rw [h6]; decide) (by rw [h7]; exact h8) h8' (by rw [h7]; exact h8) (by rw [h10, h6, h9]; rfl)
    (by rw [h9]; decide) rfl (by decide) none
    (some timeReplace) (by rw [hp, h4, h9]; exact hM)
  have k1' : Prolongs polyEngine planeCurves "x" ["x", "y"] timeReplace (uniform .geodesicTime "x") S := by
    rw [hp, h4, h9] at k1
    exact k1
  rw [h6, h7] at k2
  have e1 := hasComps_unique k2 h11
  subst e1
  have s0 : S 0 = 0 := by simpa using k1'.add 0 0
  have s2 : S (X "yddot") = 2 := by
    have := k1'.acceleration ("y", X "x" ^ 2) (by simp [timeReplace]) (by simp)
    rw [alongx, alongx] at this
    refine this.trans ?_
    simp [Derivation.leibniz_pow, pderiv_var, derivation_two]
  refine ⟨r, w, o.symbol, groups, out, h1, k5, ?_, ?_⟩
  · rw [h9, h6] at k6
    refine grouped_congr k6 fun I hI => ?_
    have hI' : I = [0] ∨ I = [1] := by
      have : I ∈ [[0], [1]] := by
        rw [show ([[0], [1]] : List (List Nat)) = tuples 2 1 by decide]
        exact hI
      simpa using this
    rcases hI' with rfl | rfl
    · rw [h12]
      exact s0
    · rw [h13]
      exact s2
  · rw [h5, h9, h6] at k7
    exact k7

/-- A request with any `replace`, without `function`. -/
theorem components_run [DecidableEq K] (P : Printers K) {t : Id'} {c : Option Id'} {ix : Option (List Int)}
    {w w' : World K} {b : Arr K} {o oc : Obj K} (h : curveComponents E C t c ix w = (.ok b, w'))
    (ho : w.objs[t]? = some o) (hc : w.objs[c.getD o.coords]? = some oc) (replace : List (K × K)) : ∃ raw,
    HasComps w' t (c.getD o.coords) (ix.getD o.indices) raw ∧ raw.shape = b.shape ∧
      curveComponentsWith E C R P t c ix (some replace) none "sympy" w = (.ok (.array ((raw.map
        (curveReplace C R o.kind oc.syms replace)).map
          (C.asFunctions (curveParameter C o.kind oc.syms) oc.syms))), w') := by
  obtain ⟨hal, hF, raw, oc', k1, k2, k3, k4, k5, k6, -⟩ := curve_inv h ho hc
  refine ⟨raw, k2, by rw [k6]; rfl, ?_⟩
  have hs : "sympy".toLower = "sympy" := by decide +kernel
  unfold curveComponentsWith
  rw [if_neg (by rw [hs]; simp)]
  refine PyM.then_ok (getObj_ok ho hal) (PyM.then_ok k1 (PyM.then_ok rfl ?_))
  refine PyM.then_ok (a := raw) (w' := w') rfl (PyM.then_ok (getObj_ok k3 k4) ?_)
  rw [← k5]
  show (Except.ok (P.answer "sympy" _), w') = _
  unfold Printers.answer
  rw [hs]
  rfl

open MvPolynomial in
/-- C87 is false of the code for velocities: the Lagrangian `xdot² + ydot²` of the plane is returned as it is when `xdot`
is to be replaced by 5. -/
theorem C87_velocity_false (P : Printers Poly) : ∃ (C : Curves Poly) (R : Rewriter Poly), RewriterOK polyEngine C R ∧
    ∃ r w a, calcLagrangian polyEngine C 2 none flatWorld = (.ok r, w) ∧
    curveComponentsWith polyEngine C R P r none none (some [(C.var "xdot", 5)]) none "sympy" w = (.ok (.array a), w) ∧
    a.get [] = C.asFunctions "lambda" ["x", "y"] (C.var "xdot" ^ 2 + C.var "ydot" ^ 2) ∧
    a.get [] ≠ C.asFunctions "lambda" ["x", "y"] (5 ^ 2 + C.var "ydot" ^ 2) := by
  obtain ⟨r, w, b, raw, o, oc, h1, h2, h3, h4, -, h6, h7, h8, h9, h10, h11, h12⟩ := plane_lagrangian
  obtain ⟨raw', k1, k2, k3⟩ := components_run (R := planeRewriter) P h2 h3 (oc := oc) (by rw [h7]; exact h8)
    [(X "xdot", 5)]
  have hrep : curveReplace planeCurves planeRewriter .lagrangian ["x", "y"] [(X "xdot", 5)]
      (X "xdot" ^ 2 + X "ydot" ^ 2) = X "xdot" ^ 2 + X "ydot" ^ 2 := by
    have hr : replaceRules planeCurves planeRewriter "lambda" ["x", "y"] [(X "xdot", 5)] =
        mergedRules [(X "xdot(lambda)", 5), (X "xdot(lambda)'", 0), (X "xdot(lambda)''", 0)] := by
      have h5 : ∀ D : Derivation ℚ Poly Poly, D 5 = 0 := fun D => by
        have := D.map_natCast 5
        rwa [Nat.cast_ofNat] at this
      simp [replaceRules, planeCurves, polyCurves, planeRewriter, fn_xdot, h5,
        rate_name (p := "lambda") (t := "xdot(lambda)") (by decide),
        rate_name (p := "lambda") (t := "xdot(lambda)'") (by decide),
        symbol_other (p := "lambda") (syms := ["x", "y"]) (t := "xdot(lambda)") (by decide),
        symbol_other (p := "lambda") (syms := ["x", "y"]) (t := "xdot(lambda)'") (by decide),
        symbol_other (p := "lambda") (syms := ["x", "y"]) (t := "xdot(lambda)''") (by decide)]
    show planeRewriter.subs (replaceRules planeCurves planeRewriter "lambda" ["x", "y"] [(X "xdot", 5)]) _ = _
    rw [hr]
    show (if (X "xdot" ^ 2 + X "ydot" ^ 2 : Poly) = 0 then _ else aeval _ (X "xdot" ^ 2 + X "ydot" ^ 2 : Poly)) = _
    split_ifs with h0
    · rw [h0]
      simp [mergedRules, Dict.get?_set, X_ne_zero]
    · simp [mergedRules, Dict.get?_set, X_inj]
  have hv : planeCurves.asFunctions "lambda" ["x", "y"] (X "xdot" ^ 2 + X "ydot" ^ 2) =
      X "xdot(lambda)" ^ 2 + X "ydot(lambda)" ^ 2 := by
    simp [planeCurves, fn_xdot, fn_ydot]
  rw [h6, h7] at k1
  have hget : ∀ f g : Poly → Poly, ((raw'.map f).map g).get [] = g (f (X "xdot" ^ 2 + X "ydot" ^ 2)) := by
    intro f g
    have hval : Valid raw'.shape [] := by rw [k2, h10]; exact valid_nil.2 rfl
    rw [Arr.get_map (a := raw'.map f) hval, Arr.get_map hval, hasComps_unique k1 h11, h12]
  refine ⟨planeCurves, planeRewriter, planeRewriter_ok, r, w, _, h1, k3, ?_, ?_⟩
  · rw [hget, h4, h9, hrep]
    rfl
  · rw [hget, h4, h9, hrep]
    show planeCurves.asFunctions "lambda" ["x", "y"] _ ≠ _
    rw [hv]
    intro h
    have := congrArg (eval fun s : Sym => if s = "xdot(lambda)" then (1 : ℚ) else 0) h
    simp [planeCurves, polyCurves, fn_ydot] at this
    norm_num at this

open MvPolynomial in
/-- C87 is false of the code for constants that are replaced by functions of the coordinates: the equation `0 = 0` of the
geodesics of the plane with the parameter `x` becomes `0 = yddot` when the constant `M`, which occurs nowhere, is to be
replaced by `y`. -/
theorem C87_constant_false (P : Printers Poly) : ∃ (C : Curves Poly) (R : Rewriter Poly), RewriterOK polyEngine C R ∧
    ∃ r w a b, calcGeodesicTime polyEngine C 2 none flatWorld = (.ok r, w) ∧
    curveComponents polyEngine C r none none w = (.ok b, w) ∧ b.get [0] = 0 ∧
    curveComponentsWith polyEngine C R P r none none (some [(C.var "M", C.var "y")]) none "sympy" w =
      (.ok (.array a), w) ∧ a.get [0] = C.asFunctions "x" ["x", "y"] (C.var "yddot") ∧ a.get [0] ≠ 0 := by
  obtain ⟨r, w, b, raw, o, oc, h1, h2, h3, h4, -, h6, h7, h8, h8', h9, h10, h11, h12, h13⟩ := plane_time
  obtain ⟨raw', k1, k2, k3⟩ := components_run (R := planeRewriter) P h2 h3 (oc := oc) (by rw [h7]; exact h8)
    [(X "M", X "y")]
  obtain ⟨hal, hF, raw2, oc', j1, j2, j3, j4, j5, j6, -⟩ := curve_inv h2 h3 (oc := oc) (by rw [h7]; exact h8)
  rw [h6, h7] at k1 j2
  rw [hasComps_unique k1 h11] at k2 k3
  rw [hasComps_unique j2 h11] at j6
  have hval : Valid raw.shape [0] := by
    rw [k2, h10]
    exact valid_cons.2 ⟨by omega, valid_nil.2 rfl⟩
  have hrep : curveReplace planeCurves planeRewriter .geodesicTime ["x", "y"] [(X "M", X "y")] 0 = X "yddot" := by
    have hr : replaceRules planeCurves planeRewriter "x" ["x", "y"] [(X "M", X "y")] =
        mergedRules [(X "M", X "y"), (0, X "ydot"), (0, X "yddot")] := by
      simp [replaceRules, planeCurves, polyCurves, planeRewriter, fn_M, fn_xy, ratex_y, ratex_y', symbolx_y, symbolx_y',
        symbolx_y'', rate_other (p := "x") (t := "M") (by decide),
        symbol_other (p := "x") (syms := ["x", "y"]) (t := "M") (by decide)]
    unfold curveReplace
    show planeRewriter.subs _ (planeRewriter.subs (replaceRules planeCurves planeRewriter "x" ["x", "y"]
      [(X "M", X "y")]) 0) = _
    rw [hr]
    have h1 : planeRewriter.subs (mergedRules [(X "M", X "y"), (0, X "ydot"), (0, X "yddot")]) 0 = X "yddot" := by
      simp [planeRewriter, mergedRules, Dict.get?_set]
    rw [h1]
    show (if (X "yddot" : Poly) = 0 then _ else aeval _ (X "yddot" : Poly)) = _
    rw [if_neg (X_ne_zero _), aeval_X]
    simp [Dict.get?_cons, planeCurves, polyCurves, curveParameter, X_inj, dot, ddot]
  have hv : planeCurves.asFunctions "x" ["x", "y"] (X "yddot") = X "yddot(x)" := by
    show aeval (planeFunction "x" ["x", "y"]) (X "yddot") = _
    rw [aeval_X, planeFunction, if_pos (by decide)]
    rfl
  have hget : ((raw.map (curveReplace planeCurves planeRewriter o.kind oc.syms [(X "M", X "y")])).map
      (planeCurves.asFunctions (curveParameter planeCurves o.kind oc.syms) oc.syms)).get [0] =
      planeCurves.asFunctions "x" ["x", "y"] (X "yddot") := by
    rw [Arr.get_map (a := raw.map _) hval, Arr.get_map hval, h12, h4, h9, hrep]
    rfl
  refine ⟨planeCurves, planeRewriter, planeRewriter_ok, r, w, _, b, h1, h2, ?_, k3, hget, ?_⟩
  · rw [j6, Arr.get_map hval, h12]
    exact map_zero (aeval _)
  · rw [hget, hv]
    exact X_ne_zero _

end PyOGRe
