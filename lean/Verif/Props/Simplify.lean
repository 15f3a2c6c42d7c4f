import Verif.Spec.Cache
import Verif.Model.Simplify
import Verif.Props.Charts
import Verif.Props.Utils
import Verif.Spec.Line

/-! # C73, C74: `simplify`, and `get_components` with all its arguments -/

namespace PyOGRe
open Spec
variable {K : Type}

theorem dict_mem_of_get {α β : Type} [DecidableEq α] {d : Dict α β} {k : α} {v : β} (h : d.get? k = some v) :
    (k, v) ∈ d := by
  unfold Dict.get? at h
  obtain ⟨p, h1, h2⟩ := Option.map_eq_some_iff.1 h
  have h3 := List.find?_some h1
  have h4 := List.mem_of_find?_eq_some h1
  obtain ⟨a, b⟩ := p
  have : a = k := by simpa using h3
  cases this; cases h2
  exact h4

theorem mem_representations {o : Obj K} {key : Id' × List Int} :
    key ∈ o.representations ↔ ∃ a, stored o key.1 key.2 = some a := by
  obtain ⟨c, ix⟩ := key
  unfold Obj.representations stored
  rw [List.mem_flatMap]
  constructor
  · rintro ⟨⟨c', d'⟩, h1, h2⟩
    obtain ⟨⟨ix', a⟩, h3, h4⟩ := List.mem_map.1 h2
    obtain ⟨rfl, rfl⟩ := Prod.mk.inj h4
    cases hd : o.comps.get? c' with
    | none => rw [hd] at h3; cases h3
    | some d =>
      rw [hd, Option.getD_some] at h3
      have hh : d.has ix' = true := List.any_eq_true.2 ⟨_, h3, by simp⟩
      obtain ⟨b, hb⟩ := (Dict.has_iff _ _).1 hh
      exact ⟨b, hb⟩
  · rintro ⟨a, h⟩
    obtain ⟨d, h1, h2⟩ := Option.bind_eq_some_iff.1 h
    have h1' := dict_mem_of_get h1
    refine ⟨(c, d), h1', ?_⟩
    show (c, ix) ∈ ((o.comps.get? c).getD []).map _
    rw [h1, Option.getD_some]
    exact List.mem_map.2 ⟨(ix, a), dict_mem_of_get h2, rfl⟩

theorem set_same {α β : Type} [DecidableEq α] (d : Dict α β) (k : α) (v : β) (h : d.get? k = some v) : d.set k v = d := by
  induction d with
  | nil => cases h
  | cons p d ih =>
    rw [Dict.get?_cons] at h
    unfold Dict.set
    split_ifs with hp
    · rw [if_pos hp] at h
      obtain ⟨a, b⟩ := p
      cases h; cases hp; rfl
    · rw [if_neg hp] at h
      rw [ih h]

theorem map_simp_eq [CommRing K] {E : Engine K} (hE : EngineOK E) {a : Arr K} (ha : a.WF) : a.map E.simp = a := by
  refine Arr.ext_get (Arr.wf_map _ _) ha rfl fun J hJ => ?_
  exact (Arr.get_map (a := a) hJ).trans (hE.simp_eq _)

theorem modify_unchanged {α : Type} {l : List α} {i : Nat} {x : α} {f : α → α} (h : l[i]? = some x) (hf : f x = x) :
    l.modify i f = l := by
  refine List.ext_getElem? fun j => ?_
  rw [List.getElem?_modify]
  by_cases hij : i = j
  · subst hij; simp [h, hf]
  · simp [hij]

/-- One step of the loops, for tensors with indices. -/
theorem simplifyAt_ok [CommRing K] (E : Engine K) {w : World K} {t : Id'} {o : Obj K} {r : Nat} (hr : r ≠ 0)
    (ho : w.objs[t]? = some o) (ha : o.alive = true) {key : Id' × List Int} {d : Dict (List Int) (Arr K)} {a : Arr K}
    (hd : o.comps.get? key.1 = some d) (hk : d.get? key.2 = some a) :
    simplifyAt E t r key w = (.ok (), { w with objs := w.objs.modify t fun o =>
      { o with comps := o.comps.set key.1 (d.set key.2 (a.map E.simp)) } }) := by
  unfold simplifyAt
  rw [PyM.bind_apply, readComps_ok ho ha hd hk]
  simp only [simplified, if_neg hr]
  rw [PyM.bind_apply]
  exact writeComps_ok ho ha hd

/-- The loops, when `sympy.simplify` keeps values. -/
theorem simplify_loop [CommRing K] {E : Engine K} (hE : EngineOK E) {w : World K} {t : Id'} {o : Obj K} {r : Nat}
    (hr : r ≠ 0) (ho : w.objs[t]? = some o) (ha : o.alive = true) (keys : List (Id' × List Int))
    (hk : ∀ key ∈ keys, ∃ a, stored o key.1 key.2 = some a ∧ a.WF) :
    keys.forM (simplifyAt E t r) w = (.ok (), w) := by
  induction keys with
  | nil => rfl
  | cons key keys ih =>
    obtain ⟨a, h1, h2⟩ := hk key (by simp)
    obtain ⟨d, h3, h4⟩ := Option.bind_eq_some_iff.1 h1
    show (simplifyAt E t r key >>= fun _ => keys.forM (simplifyAt E t r)) w = _
    rw [PyM.bind_apply, simplifyAt_ok E hr ho ha h3 h4, map_simp_eq hE h2]
    have : w.objs.modify t (fun o => { o with comps := o.comps.set key.1 (d.set key.2 a) }) = w.objs := by
      refine modify_unchanged ho ?_
      rw [set_same d _ _ h4, set_same _ _ _ h3]
    simp only [this]
    exact ih fun key' h => hk key' (by simp [h])

/-- The loops, whatever `sympy.simplify` does. -/
theorem simplify_loop_exact [CommRing K] (E : Engine K) {t : Id'} {r : Nat} (hr : r ≠ 0)
    (keys : List (Id' × List Int)) : ∀ {w : World K} {o : Obj K}, w.objs[t]? = some o → o.alive = true → keys.Nodup →
    (∀ key ∈ keys, ∃ a, stored o key.1 key.2 = some a) →
    ∃ o' : Obj K, keys.forM (simplifyAt E t r) w = (.ok (), { w with objs := w.objs.set t o' }) ∧
      (∃ cs, o' = { o with comps := cs }) ∧
      ∀ c ix, stored o' c ix =
        if (c, ix) ∈ keys then (stored o c ix).map fun a => a.map E.simp else stored o c ix := by
  induction keys with
  | nil =>
    intro w o ho ha _ _
    refine ⟨o, ?_, ⟨o.comps, rfl⟩, fun c ix => by simp⟩
    have : w.objs.set t o = w.objs := by
      refine List.ext_getElem? fun j => ?_
      rw [List.getElem?_set]
      split_ifs with h1 h2
      · rw [← h1, ho]
      · subst h1
        exact absurd (List.getElem?_eq_some_iff.1 ho).1 h2
      · rfl
    rw [this]; rfl
  | cons key keys ih =>
    intro w o ho ha hn hk
    obtain ⟨a, h1⟩ := hk key (by simp)
    obtain ⟨d, h3, h4⟩ := Option.bind_eq_some_iff.1 h1
    rw [List.nodup_cons] at hn
    set o1 : Obj K := { o with comps := o.comps.set key.1 (d.set key.2 (a.map E.simp)) } with ho1
    have hs1 : ∀ c ix, stored o1 c ix = if (c, ix) = key then some (a.map E.simp) else stored o c ix := by
      intro c ix
      unfold stored
      rw [ho1]
      show (Dict.get? (o.comps.set key.1 (d.set key.2 (a.map E.simp))) c).bind _ = _
      rw [Dict.get?_set]
      obtain ⟨c', ix'⟩ := key
      by_cases hc : c' = c
      · subst hc
        rw [if_pos rfl]
        show Dict.get? (d.set ix' (a.map E.simp)) ix = _
        rw [Dict.get?_set]
        by_cases hi : ix' = ix
        · simp [hi]
        · rw [if_neg hi, if_neg (by simpa using fun h => hi h.symm)]
          simp only [h3, Option.bind_some]
      · rw [if_neg hc, if_neg (by simpa using fun h _ => hc h.symm)]
    have hstep : simplifyAt E t r key w = (.ok (), { w with objs := w.objs.set t o1 }) := by
      rw [simplifyAt_ok E hr ho ha h3 h4]
      congr 2
      refine List.ext_getElem? fun j => ?_
      rw [List.getElem?_modify, List.getElem?_set]
      by_cases hj : t = j
      · subst hj
        rw [if_pos rfl, if_pos (List.getElem?_eq_some_iff.1 ho).1, ho]; simp [ho1]
      · simp [hj]
    obtain ⟨o', e1, ⟨cs, e2⟩, e3⟩ := ih (w := { w with objs := w.objs.set t o1 }) (o := o1)
      (by simp [(List.getElem?_eq_some_iff.1 ho).1]) ha hn.2 (fun key' h => by
        obtain ⟨b, hb⟩ := hk key' (by simp [h])
        rw [hs1]
        split_ifs
        · exact ⟨_, rfl⟩
        · exact ⟨b, hb⟩)
    refine ⟨o', ?_, ⟨cs, e2⟩, fun c ix => ?_⟩
    · show (simplifyAt E t r key >>= fun _ => keys.forM (simplifyAt E t r)) w = _
      rw [PyM.bind_apply, hstep]
      simpa using e1
    · rw [e3, hs1]
      by_cases h : (c, ix) = key
      · have h1' : stored o c ix = some a := by rw [← h1, ← h]
        have : (c, ix) ∉ keys := by rw [h]; exact hn.1
        rw [if_neg this, if_pos h, if_pos (by rw [h]; simp), h1']; rfl
      · rw [if_neg h]
        simp [h]

theorem simplifyTensor_eq [Zero K] (E : Engine K) {w : World K} {t : Id'} {o oc : Obj K}
    (ho : w.objs[t]? = some o) (ha : o.alive = true) (hc : w.objs[o.coords]? = some oc) (hca : oc.alive = true) :
    simplifyTensor E t w = match o.representations.forM (m := PyM K) (simplifyAt E t o.indices.length) w with
      | (.ok _, w') => (.ok t, w')
      | (.error e, w') => (.error e, w') := by
  unfold simplifyTensor
  rw [PyM.bind_apply, getObj_ok ho ha]
  refine (PyM.bind_apply _ _ _).trans ?_
  rw [getObj_ok hc hca]
  refine (PyM.bind_apply (o.representations.forM (simplifyAt E t o.indices.length)) (fun _ => pure t) w).trans ?_
  rcases o.representations.forM (m := PyM K) (simplifyAt E t o.indices.length) w with ⟨_ | _, _⟩ <;> rfl

/-- **C73**: when sympy's `simplify` keeps the value of an expression, `t.simplify()` returns `t` and changes nothing: no
component of any representation, no other attribute and no other object. -/
theorem C73_simplify_partial [CommRing K] (E : Engine K) (hE : EngineOK E) {w : World K} {t : Id'} {o oc : Obj K}
    (ho : w.objs[t]? = some o) (ha : o.alive = true) (hc : w.objs[o.coords]? = some oc) (hca : oc.alive = true)
    (hr : o.indices ≠ []) (hwf : ∀ c ix a, stored o c ix = some a → a.WF) :
    simplifyTensor E t w = (.ok t, w) := by
  rw [simplifyTensor_eq E ho ha hc hca, simplify_loop hE (by simpa using hr) ho ha _ fun key hk => ?_]
  obtain ⟨a, h⟩ := mem_representations.1 hk
  exact ⟨a, h, hwf _ _ a h⟩

/-- C73, whatever sympy's `simplify` does: every stored component of every representation is simplified once, and nothing
else happens. -/
theorem C73_every_component [CommRing K] (E : Engine K) {w : World K} {t : Id'} {o oc : Obj K}
    (ho : w.objs[t]? = some o) (ha : o.alive = true) (hc : w.objs[o.coords]? = some oc) (hca : oc.alive = true)
    (hr : o.indices ≠ []) (hn : o.representations.Nodup) :
    ∃ o', simplifyTensor E t w = (.ok t, { w with objs := w.objs.set t o' }) ∧ (∃ cs, o' = { o with comps := cs }) ∧
      ∀ c ix, stored o' c ix = (stored o c ix).map fun a => a.map E.simp := by
  obtain ⟨o', e1, e2, e3⟩ := simplify_loop_exact E (t := t) (r := o.indices.length) (by simpa using hr) o.representations
    ho ha hn fun key hk => mem_representations.1 hk
  refine ⟨o', ?_, e2, fun c ix => ?_⟩
  · rw [simplifyTensor_eq E ho ha hc hca, e1]
  · rw [e3]
    split_ifs with h
    · rfl
    · cases hs : stored o c ix with
      | none => rfl
      | some a => exact absurd (mem_representations.2 ⟨a, (hs : stored o (c, ix).1 (c, ix).2 = some a)⟩) h

/-- **C73 is false of the code for scalars**: the components of a scalar are an array without axes, which has no
first entry, so that `simplify` raises `ValueError` for every scalar, in every state. -/
theorem C73_false [CommRing K] (E : Engine K) {w : World K} {t : Id'} {o oc : Obj K} (ho : w.objs[t]? = some o)
    (ha : o.alive = true) (hc : w.objs[o.coords]? = some oc) (hca : oc.alive = true) (hr : o.indices = [])
    (hs : ∀ c ix a, stored o c ix = some a → a.shape = []) (hne : ∃ c ix a, stored o c ix = some a) :
    simplifyTensor E t w = (.error .valueError, w) := by
  obtain ⟨c, ix, a, h⟩ := hne
  have hmem := (mem_representations (key := (c, ix))).2 ⟨a, h⟩
  rw [simplifyTensor_eq E ho ha hc hca]
  cases hk : o.representations with
  | nil => rw [hk] at hmem; cases hmem
  | cons key keys =>
    obtain ⟨b, hb⟩ := mem_representations.1 (show key ∈ o.representations by rw [hk]; simp)
    obtain ⟨d, h3, h4⟩ := Option.bind_eq_some_iff.1 hb
    have : simplifyAt E t o.indices.length key w = (.error .valueError, w) := by
      unfold simplifyAt
      rw [PyM.bind_apply, readComps_ok ho ha h3 h4]
      have h5 : (Arr.map E.simp b).rank = 0 := by
        show (Arr.map E.simp b).shape.length = 0
        show b.shape.length = 0
        rw [hs _ _ _ hb]; rfl
      simp [simplified, hr, Arr.first, h5]
    have h6 : (key :: keys).forM (m := PyM K) (simplifyAt E t o.indices.length) w = (.error .valueError, w) := by
      show (simplifyAt E t o.indices.length key >>= fun _ => keys.forM (simplifyAt E t o.indices.length)) w = _
      rw [PyM.bind_apply, this]
    rw [h6]

/-- **C73** for sessions: after any declarations, requests and changes of defaults in any number of coordinate systems,
`simplify` of any metric or tensor with indices returns and leaves the session as it was, so that all later answers are
the same. -/
theorem C73_sessions_partial [CommRing K] [DecidableEq K] (E : Engine K) (hE : EngineOK E) (hT : EngineTotal E)
    (A : Atlas K) (hA : A.OK) (home : Id') (F : Frames K) (hC : Consistent E A home F) (w : World K)
    (h0 : ChartsOnly A home w) (hal : ∀ (i : Id') o, w.objs[i]? = some o → o.alive = true) (hcn : Connected E A w)
    (ops : List (Op K)) (hall : AllAllowed E home A.n F ops w) (hpl : AllPlain E home ops w) {t : Id'} {o : Obj K}
    (ho : (Spec.session E home ops w).2.objs[t]? = some o) (hk : o.kind = .metric ∨ o.kind = .tensor)
    (hr : o.indices ≠ []) :
    simplifyTensor E t (Spec.session E home ops w).2 = (.ok t, (Spec.session E home ops w).2) := by
  obtain ⟨H, hI, -, -⟩ := Inv.session hA hE hT hC ops (Inv.start (E := E) (F := F) h0) hall
  obtain ⟨hr', -⟩ := ready_session hA hE hT hC ops (Inv.start (E := E) (F := F) h0) (ready_start h0 hal) hcn hall hpl
  obtain ⟨-, -, -, -, ⟨oc, h1, -⟩, h2⟩ := hI.coherent.tensors t o ho hk
  refine C73_simplify_partial E hE ho (hr'.alive t o ho) h1 (hr'.alive _ oc h1) hr fun c ix a h => ?_
  obtain ⟨d, h3, h4⟩ := Option.bind_eq_some_iff.1 h
  exact (h2 c d ix a h3 h4).2.1

/-- C73: a vector for which both configurations have been requested meets the hypotheses, and so does a scalar. -/
def Spec.simplifyCalls : List (Call ℚ) :=
  lineCalls "V" "W" ++ [.get 2 none (some [-1]), .tensor (.val "S") (.val ⟨[], [5]⟩) 1 0 (.tuple []) (.val "s")]

example : ∃ o, (history lineEngine [] simplifyCalls fresh).objs[2]? = some o ∧ o.alive = true ∧ o.indices = [1] ∧
    o.coords = 0 ∧ o.representations = [(0, [1]), (0, [-1])] ∧ o.representations.Nodup ∧
    simplifyTensor lineEngine 2 (history lineEngine [] simplifyCalls fresh) =
      (.ok 2, history lineEngine [] simplifyCalls fresh) := by
  refine ⟨((history lineEngine [] simplifyCalls fresh).objs[2]?).getD (freshObj .tensor "" "" [] 0 0 []), ?_⟩
  decide +kernel

example : ∃ o, (history lineEngine [] simplifyCalls fresh).objs[4]? = some o ∧ o.alive = true ∧ o.indices = [] ∧
    o.coords = 0 ∧ stored o 0 [] = some ⟨[], [5]⟩ ∧
    simplifyTensor lineEngine 4 (history lineEngine [] simplifyCalls fresh) =
      (.error .valueError, history lineEngine [] simplifyCalls fresh) := by
  refine ⟨((history lineEngine [] simplifyCalls fresh).objs[4]?).getD (freshObj .tensor "" "" [] 0 0 []), ?_⟩
  decide +kernel

/-- What the documentation promises for the value of one component: first `function`, then `replace`. -/
def Spec.adjust (function replace : Option (K → K)) (x : K) : K :=
  (replace.getD fun y => y) ((function.getD fun y => y) x)

/-- **C74**, what is true: `get_components` with `function`, `replace` and `mode`.  If the mode is not one of the three, `ValueError` is
raised and nothing happens.  Otherwise the call does to the session exactly what the plain request does, raises
what it raises, and the answer is that of the plain request with every component adjusted.  Missing: scalars with a
`function` in coordinates other than those in which they were made, see `C74_false`. -/
theorem C74_arguments_partial [CommRing K] (E : Engine K) (P : Printers K) (t : Id') (c : Option Id') (ix : Option (List Int))
    (replace function : Option (K → K)) (mode : String) (w : World K) :
    (mode.toLower ∉ ["sympy", "mathematica", "latex"] →
      getComponentsWith E P t c ix replace function mode w = (.error .valueError, w)) ∧
    (mode.toLower ∈ ["sympy", "mathematica", "latex"] → ∀ e w', getComponents E t c ix w = (.error e, w') →
      getComponentsWith E P t c ix replace function mode w = (.error e, w')) ∧
    (mode.toLower ∈ ["sympy", "mathematica", "latex"] → ∀ a w' n r, getComponents E t c ix w = (.ok a, w') →
      0 < n → a.WF → a.shape = List.replicate r n →
      (function = none ∨ ∀ o, w'.objs[t]? = some o → Native w' t (c.getD o.coords)) →
      ∃ b : Arr K, b.WF ∧ b.shape = a.shape ∧
        (∀ J, Valid a.shape J → b.get J = adjust function replace (a.get J)) ∧
        getComponentsWith E P t c ix replace function mode w =
          (.ok (if mode.toLower = "sympy" then .array b else if mode.toLower = "mathematica" then
            .text (P.mathematica b) else .text (P.latex b)), w')) := by
  refine ⟨fun h => ?_, fun h e w' he => ?_, fun h a w' n r he hn hw hs hf => ?_⟩
  · unfold getComponentsWith
    rw [if_pos h]; rfl
  · unfold getComponentsWith
    rw [if_neg (not_not.2 h)]
    refine (PyM.bind_apply _ _ _).trans ?_
    rw [he]
  · obtain ⟨b1, f1, f2, f3, f4⟩ : ∃ b1 : Arr K, withFunction false function a = .ok b1 ∧ b1.WF ∧ b1.shape = a.shape ∧
        ∀ J, Valid a.shape J → b1.get J = (function.getD fun y => y) (a.get J) := by
      cases function with
      | none => exact ⟨a, rfl, hw, rfl, fun _ _ => rfl⟩
      | some f => exact C07_map_to_array_partial f hn a hs
    obtain ⟨g2, g3, g4⟩ : (withReplace replace b1).WF ∧ (withReplace replace b1).shape = a.shape ∧
        ∀ J, Valid a.shape J → (withReplace replace b1).get J = adjust function replace (a.get J) := by
      cases replace with
      | none => exact ⟨f2, f3, fun J hJ => f4 J hJ⟩
      | some q =>
        refine ⟨Arr.wf_map _ _, f3, fun J hJ => ?_⟩
        refine (Arr.get_map (a := b1) (by rw [f3]; exact hJ)).trans ?_
        rw [f4 J hJ]
        rfl
    refine ⟨_, g2, g3, g4, ?_⟩
    unfold getComponentsWith
    rw [if_neg (not_not.2 h)]
    refine (PyM.bind_apply _ _ _).trans ?_
    rw [he]
    have f5 : ∃ bare, isBare t c w' = (.ok bare, w') ∧ withFunction bare function a = .ok b1 := by
      rcases hf with rfl | hf
      · exact ⟨_, rfl, f1⟩
      · exact ⟨_, isBare_native hf, f1⟩
    obtain ⟨bare, f5, f6⟩ := f5
    refine PyM.then_ok f5 ?_
    refine (PyM.bind_apply _ _ _).trans ?_
    rw [PyM.lift_apply, f6]
    rfl

/-- C74 is false of the code for scalars with a `function` in coordinates other than those in which they were made:
the components there are no array, and whatever the function is, `TypeError` is raised. -/
theorem C74_false [CommRing K] (E : Engine K) (P : Printers K) {t : Id'} {c : Option Id'} {ix : Option (List Int)}
    (replace : Option (K → K)) (f : K → K) {mode : String} {w w' : World K} {a : Arr K} {o : Obj K}
    (hm : mode.toLower ∈ ["sympy", "mathematica", "latex"]) (h : getComponents E t c ix w = (.ok a, w'))
    (ho : w'.objs[t]? = some o) (hn : ¬ Native w' t (c.getD o.coords)) :
    getComponentsWith E P t c ix replace (some f) mode w = (.error .typeError, w') := by
  unfold getComponentsWith
  rw [if_neg (not_not.2 hm)]
  refine PyM.then_ok h ?_
  refine PyM.then_ok (isBare_moved ho hn) ?_
  rfl

/-- C74: a vector with a function and a replacement. -/
example : (getComponentsWith lineEngine ⟨fun _ => "", fun _ => ""⟩ 3 none (some [-1]) (some fun x => x + 1)
    (some fun x => x * x) "Sympy" (history lineEngine [] simplifyCalls fresh)).1.toOption.bind
      (fun x => match x with
        | .array a => some a
        | .text _ => none) = some ⟨[1], [5]⟩ := by
  decide +kernel

end PyOGRe
