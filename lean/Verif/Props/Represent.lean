import Verif.Lemmas.Validate
import Verif.Spec.Poly

/-!
# Constructors and representations in one coordinate system: C08 - C11, C19, C20

Vocabulary: `Verif/Spec/Represent.lean` (what well-formed arguments are, histories of requests),
`Verif/Spec/Tensors.lean` (`applyFactors`: one matrix per axis, `indexFactor`: metric, inverse metric or
identity, `Inverse`, `delta`), `Verif/Spec/Geometry.lean` (`Agree`: an array has the given components,
`Config`: index configurations, `EngineOK`, `EngineTotal`: what is assumed of sympy).
-/

namespace PyOGRe
open Spec
variable {K : Type} [CommRing K]

/-! ## C19: the tensor constructor -/

/-- **C19** The tensor constructor accepts exactly the well-formed arguments; a refused call changes
nothing, an accepted one creates one tensor with the given components and registers it. -/
theorem C19_tensor_constructor (name : Arg String) (comps : Arg (Arr K)) (m c : Id') (ix : IndicesArg)
    (symbol : Arg String) (w : World K) :
    (TensorArgsOK w name comps m c ix symbol → ∃ t w',
      newTensor .tensor name comps m c ix symbol w = (.ok t, w') ∧ w.objs[t]? = none ∧
      w'.instances = w.instances ++ [t] ∧ ∃ o, w'.objs = w.objs ++ [o] ∧ w'.objs[t]? = some o ∧
        o.kind = .tensor ∧ o.alive = true ∧ .val o.name = name ∧ .val o.symbol = symbol ∧ o.metric = m ∧ o.coords = c ∧
        ∃ a, comps = .val a ∧ o.indices = ix.getD a.rank ∧ o.comps = [(c, [(ix.getD a.rank, a)])]) ∧
    (¬ TensorArgsOK w name comps m c ix symbol →
      ∃ e, newTensor .tensor name comps m c ix symbol w = (.error e, w)) := by
  refine ⟨fun h => ?_, newTensor_iff.2⟩
  obtain ⟨t, w', ht⟩ := (newTensor_iff (kind := .tensor)).1 h
  obtain ⟨⟨nm, rfl⟩, ⟨sy, rfl⟩, -, oc, a, h1, h2, h3, rfl, h4, h5⟩ := h
  rcases newTensor_cases .tensor (.val nm) a m c ix (.val sy) w with ⟨e, he⟩ | ⟨oc', om, -, -, -, -, -, -, h6⟩
  · rw [ht] at he; cases he
  · rw [ht] at h6
    cases h6
    refine ⟨_, _, ht, by simp, rfl, _, rfl, getElem?_append_length _ _, rfl, rfl, rfl, rfl, rfl, rfl, a, rfl, rfl, rfl⟩

/-- The chart constructor accepts exactly a list of coordinates with configuration (1), or none. -/
theorem C19_coordinates_constructor (name : Arg String) (shape : Arg (List Nat)) (syms : List Sym)
    (ix : IndicesArg) (symbol : Arg String) (w : World K) :
    ((∃ s, name = .val s) ∧ (∃ s, symbol = .val s) ∧ (∃ n, shape = .val [n]) ∧
        (ix = .none ∨ ix = .tuple [1]) →
      ∃ c w', newCoordinates name shape syms ix symbol w = (.ok c, w') ∧ w'.instances = w.instances ++ [c] ∧
        ∃ o, w'.objs = w.objs ++ [o] ∧ w'.objs[c]? = some o ∧ o.kind = .coordinates ∧ o.alive = true ∧
          o.syms = syms ∧ o.trans = [] ∧ .val o.name = name ∧ .val o.symbol = symbol) ∧
    (¬ ((∃ s, name = .val s) ∧ (∃ s, symbol = .val s) ∧ (∃ n, shape = .val [n]) ∧
        (ix = .none ∨ ix = .tuple [1])) →
      ∃ e, newCoordinates name shape syms ix symbol w = (.error e, w)) := by
  have hN : ∀ x, validateCoordinates name shape ix symbol true = x →
      newCoordinates name shape syms ix symbol w = match x with
        | .ok _ => register (fun _ => { kind := .coordinates, name := name.getD "", symbol := symbol.getD "", indices := ix.getD 1, coords := 0, metric := 0, comps := [], syms := syms, trans := [], jac := [], alive := true }) w
        | .error e => (.error e, w) := by
    rintro x rfl
    unfold newCoordinates
    rw [PyM.bind_apply, PyM.lift_apply]
    cases validateCoordinates name shape ix symbol true <;> rfl
  have hV : validateCoordinates name shape ix symbol true = .ok () ↔
      ((∃ s, name = .val s) ∧ (∃ s, symbol = .val s) ∧ (∃ n, shape = .val [n]) ∧
        (ix = .none ∨ ix = .tuple [1])) := by
    unfold validateCoordinates
    cases hv : validateOGReObject name shape symbol ix with
    | error e =>
      rw [py_error_bind]
      constructor
      · intro h; cases h
      · rintro ⟨h1, h2, ⟨n, h3⟩, h4⟩
        have hfit : IndicesFit [n].length ix := by
          rcases h4 with h4 | h4
          · exact Or.inl h4
          · exact Or.inr ⟨[1], h4, rfl, by simp⟩
        have := validateOGReObject_iff.2 ⟨h1, h2, [n], h3, ⟨n, by simp⟩, hfit⟩
        rw [hv] at this; cases this
    | ok u =>
      obtain ⟨h1, h2, s, rfl, h4, h5⟩ := validateOGReObject_iff.1 hv
      rw [py_ok_bind]
      have hl : (∃ n, (Arg.val s : Arg (List Nat)) = .val [n]) ↔ s.length = 1 := by
        simp only [Arg.val.injEq]
        exact List.length_eq_one_iff.symm
      rw [hl]
      simp only [h1, h2, true_and]
      cases ix with
      | none => by_cases hs : s.length = 1 <;> simp [hs]
      | other => rcases h5 with h | ⟨l, h, -⟩ <;> cases h
      | tuple l =>
        by_cases hl : l = [1]
        · subst hl
          by_cases hs : s.length = 1 <;> simp [hs]
        · simp [hl]
  constructor
  · intro h
    rw [hN _ (hV.2 h)]
    obtain ⟨⟨nm, rfl⟩, ⟨sy, rfl⟩, -, -⟩ := h
    exact ⟨_, _, rfl, rfl, _, rfl, getElem?_append_length _ _, rfl, rfl, rfl, rfl, rfl, rfl⟩
  · intro h
    cases hx : validateCoordinates name shape ix symbol true with
    | ok u => exact absurd (hV.1 hx) h
    | error e => exact ⟨e, hN _ hx⟩

/-! ## C20: the metric constructor -/

/-- **C20** The metric constructor accepts exactly symmetric matrices with non-zero determinant whose
size is the number of coordinates, with the configuration (-1,-1) or (1,1). -/
theorem C20_metric_constructor [DecidableEq K] (E : Engine K) (hT : EngineTotal E)
    (name : Arg String) (comps : Arg (Arr K)) (c : Id') (ix : IndicesArg) (symbol : Arg String) (w : World K) :
    (MetricArgsOK E w name comps c ix symbol →
      ∃ m w', newMetric E name comps c ix symbol w = (.ok m, w') ∧ w'.instances = w.instances ++ [m] ∧
        ∃ o, w'.objs = w.objs ++ [o] ∧ w'.objs[m]? = some o ∧ o.kind = .metric ∧ o.alive = true ∧
          o.metric = m ∧ o.coords = c ∧ .tuple o.indices = ix) ∧
    (¬ MetricArgsOK E w name comps c ix symbol →
      ∃ e w', newMetric E name comps c ix symbol w = (.error e, w') ∧ (ix ≠ .none → w' = w)) := by
  constructor
  · rintro ⟨h1, h2, h3, oc, a, h4, h5, h6, rfl, h7, h8, h9⟩
    obtain ⟨N, hN⟩ := hT.det_ok _ a h7 h9
    obtain ⟨b, hb⟩ := hT.inv_total _ a N h7 hN
    have hB := newMetric_accepts (E := E) ⟨h1, h2, h3, oc, a, h4, h5, h6, rfl, h7, h8, h9⟩ hb
    rcases newMetric_cases E name a c ix symbol w with ⟨e', h⟩ | ⟨oc', q1, q2, q3, q4, q5, q6, q7⟩
    · exact absurd ⟨_, _, h⟩ hB
    · rcases q7 with ⟨e', -, q7⟩ | ⟨b', -, q7⟩
      · exact absurd ⟨_, _, q7⟩ hB
      · refine ⟨_, _, q7, rfl, _, rfl, getElem?_append_length _ _, rfl, rfl, rfl, rfl, ?_⟩
        rcases h3 with rfl | rfl <;> rfl
  · intro hno
    cases comps with
    | other => exact ⟨_, _, newMetric_other, fun _ => rfl⟩
    | val a =>
      rcases newMetric_cases E name a c ix symbol w with ⟨e', h⟩ | ⟨oc', q1, q2, q3, q4, q5, q6, q7⟩
      · exact ⟨e', w, h, fun _ => rfl⟩
      · rcases q7 with ⟨e', q7, q8⟩ | ⟨b', q8, q7⟩
        · refine ⟨e', _, q8, fun hix => ?_⟩
          exfalso
          rcases q7 with q7 | q7
          · exact hix q7
          · obtain ⟨N, hN⟩ := hT.det_ok _ a q3 q4
            obtain ⟨b, hb⟩ := hT.inv_total _ a N q3 hN
            rw [hb] at q7; cases q7
        · exfalso
          apply hno
          have hT2 : (∃ s, name = .val s) ∧ (∃ s, symbol = .val s) ∧ oc'.alive = true ∧
              (ix = .tuple [-1, -1] ∨ ix = .tuple [1, 1]) := by
            have hcopy := q7
            unfold newMetric at hcopy
            obtain ⟨u, w1, k1, k2⟩ := bind_ok hcopy
            rw [PyM.lift_apply] at k1
            obtain rfl : w = w1 := congrArg Prod.snd k1
            obtain ⟨i, w2, k3, k4⟩ := bind_ok k2
            rcases newBaseTensor_eval (kind := .metric) (name := name) (comps := .val a) (m := none) (c := c)
              (ix := ix) (symbol := symbol) (w := w) with ⟨⟨e, he⟩, -⟩ | ⟨-, v1, v2, oc'', a', v3, v4, v5, -, -, v6⟩
            · rw [k3] at he; cases he
            · rw [q1] at v3; cases v3
              refine ⟨v1, v2, v5, ?_⟩
              have hixn : ix ≠ .none := by
                rintro rfl
                obtain ⟨_, _, -, k5⟩ := bind_ok k4
                obtain ⟨_, _, -, k6⟩ := bind_ok k5
                obtain ⟨_, _, -, k7⟩ := bind_ok k6
                obtain ⟨_, _, -, k8⟩ := bind_ok k7
                obtain ⟨_, _, -, k9⟩ := bind_ok k8
                cases k9
              cases ix with
              | none => exact absurd rfl hixn
              | other => rcases v6 with h | ⟨l, h, -⟩ <;> cases h
              | tuple l =>
                rcases q6 with q6 | q6
                · left; exact congrArg _ q6
                · right; exact congrArg _ q6
          exact ⟨hT2.1, hT2.2.1, hT2.2.2.2, oc', a, q1, q2, hT2.2.2.1, rfl, q3, (isSymmetric_entries q3).1 q5, q4⟩

/-- A metric without configuration is refused with `TypeError`, but, unlike refused tensors, it stays
registered. -/
theorem C20_metric_without_indices_stays_registered [DecidableEq K] (E : Engine K) (nm sy : String) (a : Arr K)
    (c : Id') (w : World K) (oc : Obj K) (h1 : w.objs[c]? = some oc) (h2 : oc.kind = .coordinates)
    (h3 : oc.alive = true) (h4 : a.shape = [oc.syms.length, oc.syms.length])
    (h5 : ∀ i j, i < oc.syms.length → j < oc.syms.length → entry a i j = entry a j i) (h6 : E.det a ≠ 0) :
    ∃ e w', newMetric E (.val nm) (.val a) c .none (.val sy) w = (.error e, w') ∧
      w'.instances = w.instances ++ [w.objs.length] ∧ ∃ o, w'.objs[w.objs.length]? = some o ∧
        o.kind = .metric ∧ o.alive = true := by
  have hv := newMetric_none_registers E nm sy a c w oc h1 h2 h3 h4 ((isSymmetric_entries h4).2 h5) h6
  exact hv

/-! ## An example: the flat metric of the plane -/

/-- The unit matrix. -/
noncomputable def Spec.flat : Arr Poly := ⟨[2, 2], [1, 0, 0, 1]⟩

/-- A vector with polynomial components. -/
noncomputable def Spec.aVector : Arr Poly := ⟨[2], [MvPolynomial.X "x" * MvPolynomial.X "y", 3]⟩

theorem Spec.flat_entry (i j : Nat) (hi : i < 2) (hj : j < 2) : entry flat i j = delta i j := by
  match i, hi, j, hj with
  | 0, _, 0, _ => rfl
  | 0, _, 1, _ => rfl
  | 1, _, 0, _ => rfl
  | 1, _, 1, _ => rfl

theorem Spec.flat_inverse : Inverse 2 (fun i j => flat.get [i, j]) (fun i j => flat.get [i, j]) :=
  inverse_congr (inverse_delta 2) (fun i j hi hj => (flat_entry i j hi hj).symm)
    fun i j hi hj => (flat_entry i j hi hj).symm

/-- C20: the flat metric is a well-formed argument, so that the constructor accepts it. -/
theorem Spec.flat_args : MetricArgsOK polyEngine uvWorld (.val "Flat") (.val flat) 0 (.tuple [-1, -1])
    (.val "eta") := by
  refine ⟨⟨_, rfl⟩, ⟨_, rfl⟩, Or.inl rfl, _, flat, rfl, rfl, rfl, rfl, rfl, ?_, polyEngine_det rfl flat_inverse⟩
  intro i j hi hj
  rw [flat_entry i j hi hj, flat_entry j i hj hi]
  simp [delta, eq_comm]

/-- The session state after the flat metric has been declared. -/
noncomputable def Spec.flatWorld : World Poly :=
  (newMetric polyEngine (.val "Flat") (.val flat) 0 (.tuple [-1, -1]) (.val "eta") uvWorld).2

theorem Spec.flatWorld_eq :
    newMetric polyEngine (.val "Flat") (.val flat) 0 (.tuple [-1, -1]) (.val "eta") uvWorld =
      (.ok 2, flatWorld) := by
  obtain ⟨m, w', h1, -, o, h2, h3, -⟩ := (C20_metric_constructor polyEngine polyEngine_total _ _ _ _ _ _).1 flat_args
  have hm : m = 2 := by
    rcases newMetric_cases polyEngine (.val "Flat") flat 0 (.tuple [-1, -1]) (.val "eta") uvWorld with
      ⟨e, h⟩ | ⟨oc, -, -, -, -, -, -, ⟨e, -, h⟩ | ⟨b, -, h⟩⟩
    · rw [h1] at h; cases h
    · rw [h1] at h; cases h
    · rw [h1] at h; cases h; rfl
  unfold flatWorld
  rw [h1, hm]

theorem Spec.flatWorld_objs : ∃ o, flatWorld.objs = uvWorld.objs ++ [o] ∧ o.kind = .metric ∧ o.alive = true := by
  obtain ⟨m, w', h1, -, o, h2, h3, h4, h5, -⟩ :=
    (C20_metric_constructor polyEngine polyEngine_total _ _ _ _ _ _).1 flat_args
  rw [flatWorld_eq] at h1
  cases h1
  exact ⟨o, h2, h4, h5⟩

/-- C19: a vector field is a well-formed argument, and one with three components or a configuration of
another length is not. -/
theorem Spec.vector_args : TensorArgsOK flatWorld (.val "V") (.val aVector) 2 0 (.tuple [1]) (.val "v") := by
  obtain ⟨o, h1, h2, h3⟩ := flatWorld_objs
  refine ⟨⟨_, rfl⟩, ⟨_, rfl⟩, ⟨o, by rw [h1]; rfl, h2⟩, _, aVector, by rw [h1]; rfl, rfl, rfl, rfl, ?_,
    Or.inr ⟨_, rfl, rfl, by simp⟩⟩
  intro d hd
  simpa [aVector] using hd

example : ¬ TensorArgsOK flatWorld (.val "V") (.val aVector) 2 0 (.tuple [1, 1]) (.val "v") := by
  rintro ⟨-, -, -, oc, a, -, -, -, h, -, h' | ⟨l, h', h'', -⟩⟩
  · cases h'
  · cases h; cases h'; simp [aVector] at h''

/-! ## C11: the four representations of a metric -/

/-- **C11** After a metric has been declared, and after any further requests, its four representations in
the coordinates it was declared in can be read, without any effect: the components with upper indices are
the inverse of the ones with lower indices, the mixed ones are the identity, and the declared ones are what
was declared. -/
theorem C11_metric_representations [DecidableEq K] (E : Engine K) (hE : EngineOK E) {w w' : World K}
    {name symbol : Arg String} {a : Arr K} {m c : Id'} {ix : IndicesArg} (ha : a.WF)
    (h : newMetric E name (.val a) c ix symbol w = (.ok m, w'))
    (hist : List (Id' × Option Id' × Option (List Int))) (c' : Option Id') (hc : c' = none ∨ c' = some c) :
    ∃ n g gi e, a.shape = [n, n] ∧
      getComponents E m c' (some [-1, -1]) (requests E hist w') = (.ok g, requests E hist w') ∧
      getComponents E m c' (some [1, 1]) (requests E hist w') = (.ok gi, requests E hist w') ∧
      getComponents E m c' (some [1, -1]) (requests E hist w') = (.ok e, requests E hist w') ∧
      getComponents E m c' (some [-1, 1]) (requests E hist w') = (.ok e, requests E hist w') ∧
      g.shape = [n, n] ∧ gi.shape = [n, n] ∧ e.shape = [n, n] ∧
      (∀ i j, i < n → j < n → entry g i j = entry g j i) ∧ Inverse n (entry g) (entry gi) ∧
      (∀ i j, i < n → j < n → entry e i j = delta i j) ∧
      ((ix = .tuple [-1, -1] ∧ g = a) ∨ (ix = .tuple [1, 1] ∧ gi = a)) := by
  obtain ⟨oc, b, h1, h2, h3, h4, h5, h6, h7⟩ := mown_new h
  have hm := mown_requests (E := E) hist h7
  set w'' := requests E hist w'
  have hcc : c'.getD (c, ix.getD 2).1 = c := by rcases hc with rfl | rfl <;> rfl
  have hsym : ∀ i j, i < oc.syms.length → j < oc.syms.length → entry a i j = entry a j i :=
    (isSymmetric_entries h3).1 h6
  obtain ⟨b1, b2, b3⟩ := hE.inv_ok _ a b h3 h5
  have hixt : ix = .tuple [-1, -1] ∨ ix = .tuple [1, 1] := by
    have hn : ix ≠ .none := by
      rintro rfl
      unfold newMetric at h
      obtain ⟨_, _, -, k1⟩ := bind_ok h
      obtain ⟨_, _, -, k2⟩ := bind_ok k1
      obtain ⟨_, _, -, k3⟩ := bind_ok k2
      obtain ⟨_, _, -, k4⟩ := bind_ok k3
      obtain ⟨_, _, -, k5⟩ := bind_ok k4
      obtain ⟨_, _, -, k6⟩ := bind_ok k5
      obtain ⟨_, _, -, k7⟩ := bind_ok k6
      cases k7
    cases ix with
    | none => exact absurd rfl hn
    | other =>
      unfold newMetric at h
      obtain ⟨_, _, -, k1⟩ := bind_ok h
      obtain ⟨_, _, -, k2⟩ := bind_ok k1
      obtain ⟨_, _, -, k3⟩ := bind_ok k2
      obtain ⟨_, _, -, k4⟩ := bind_ok k3
      obtain ⟨_, _, -, k5⟩ := bind_ok k4
      obtain ⟨_, _, -, k6⟩ := bind_ok k5
      obtain ⟨_, _, -, k7⟩ := bind_ok k6
      cases k7
    | tuple l =>
      rcases h4 with h4 | h4
      · left; exact congrArg _ h4
      · right; exact congrArg _ h4
  rcases hixt with rfl | rfl
  · refine ⟨oc.syms.length, a, b, eye oc.syms.length, h3, ?_, ?_, ?_, ?_, h3, b2, rfl, hsym, b3,
      fun i j hi hj => entry_eye hi hj, Or.inl ⟨rfl, rfl⟩⟩ <;>
    exact getComponents_mown_ok hm rfl (by rfl) c' hcc
  · refine ⟨oc.syms.length, b, a, eye oc.syms.length, h3, ?_, ?_, ?_, ?_, b2, h3, rfl, ?_, inverse_swap b3,
      fun i j hi hj => entry_eye hi hj, Or.inr ⟨rfl, rfl⟩⟩
    any_goals exact getComponents_mown_ok hm rfl (by rfl) c' hcc
    exact inverse_symm b3 hsym

/-- C11: the flat metric of the plane. -/
example : newMetric polyEngine (.val "Flat") (.val flat) 0 (.tuple [-1, -1]) (.val "eta") uvWorld =
    (.ok 2, flatWorld) ∧ flat.WF := ⟨flatWorld_eq, rfl⟩

/-! ## C08: raising and lowering -/

/-- **C08** Let `g` and `gi` be the components of a metric in some coordinate system, with lower and with
upper indices, and declare a tensor there, of any rank and with any configuration.  After any further
requests, its components in any other configuration are the declared ones with one factor per axis: the
inverse metric for an index that is raised, the metric for one that is lowered, the identity otherwise. -/
theorem C08_raise_lower (E : Engine K) (hE : EngineOK E) {w w1 w2 w3 : World K} {m c t : Id'} {om : Obj K}
    (hm : w.objs[m]? = some om) (hk : om.kind = .metric) {g gi : Arr K}
    (hg : getComponents E m (some c) (some [-1, -1]) w = (.ok g, w1))
    (hgi : getComponents E m (some c) (some [1, 1]) w1 = (.ok gi, w2))
    {n : Nat} (hn : 0 < n) (hgs : g.shape = [n, n]) (hgis : gi.shape = [n, n])
    {name symbol : Arg String} {a : Arr K} {ix : IndicesArg} (ha : a.WF)
    (has : a.shape = List.replicate a.rank n)
    (ht : newTensor .tensor name (.val a) m c ix symbol w2 = (.ok t, w3))
    (hist : List (Id' × Option Id' × Option (List Int))) (tgt : List Int) (htgt : Config a.rank tgt) :
    ∃ b, (getComponents E t none (some tgt) (requests E hist w3)).1 = .ok b ∧
      Agree n a.rank b (applyFactors n
        (List.zipWith (indexFactor (entry g) (entry gi)) (ix.getD a.rank) tgt) a.get) := by
  have hst := metricStored_of_get hm hk hg hgi
  have hown := own_requests hist (own_new E hst ht)
  obtain ⟨oc, -, -, -, hcfg⟩ := newTensor_shape ht
  have e := (getComponents_ownValue hown (some tgt) none (Or.inl rfl)).2
  obtain ⟨b, hb, hb2⟩ := ownValue_spec hE.simp_eq hn (ix0 := ix.getD a.rank) (src := ix.getD a.rank) (ix := tgt)
    ha (by rw [hcfg.1]; exact has) hgs hgis (by rw [hcfg.1]; exact hcfg) rfl (by rw [hcfg.1]; exact htgt)
  rw [hcfg.1] at hb2
  exact ⟨b, e.trans hb, hb2⟩

/-- C08: a vector field on the flat plane, whose index is lowered. -/
example : ∃ (w1 w2 w3 : World Poly) (om : Obj Poly) (g gi : Arr Poly) (t : Id'),
    flatWorld.objs[2]? = some om ∧ om.kind = .metric ∧
    getComponents polyEngine 2 (some 0) (some [-1, -1]) flatWorld = (.ok g, w1) ∧
    getComponents polyEngine 2 (some 0) (some [1, 1]) w1 = (.ok gi, w2) ∧ g.shape = [2, 2] ∧ gi.shape = [2, 2] ∧
    newTensor .tensor (.val "V") (.val aVector) 2 0 (.tuple [1]) (.val "v") w2 = (.ok t, w3) ∧
    aVector.WF ∧ aVector.shape = List.replicate aVector.rank 2 ∧ Config aVector.rank [-1] := by
  obtain ⟨o, h1, h2, h3⟩ := flatWorld_objs
  obtain ⟨n, g, gi, e, q0, q1, q2, -, -, q3, q4, -⟩ := C11_metric_representations polyEngine polyEngine_ok
    (show flat.WF from rfl) flatWorld_eq [] (some 0) (Or.inr rfl)
  obtain ⟨t, w3, h4, -⟩ := (C19_tensor_constructor _ _ _ _ _ _ _).1 vector_args
  have hn : n = 2 := by
    have : [2, 2] = [n, n] := q0
    injection this with h _
    exact h.symm
  subst hn
  exact ⟨_, _, w3, o, g, gi, t, by rw [h1]; rfl, h2, q1, q2, q3, q4, h4, rfl, rfl, rfl, by simp⟩

/-! ## C09: raising and lowering is reversible -/

/-- **C09** Declare a tensor, ask for its components in some configuration, declare a tensor with the
result, ask for another configuration, and so on: when the last configuration is the one that the first
tensor was declared with, the result is exactly what was declared at first. -/
theorem C09_reversible (E : Engine K) (hE : EngineOK E) {w w1 w2 : World K} {m c : Id'} {om oc : Obj K}
    (hm : w.objs[m]? = some om) (hk : om.kind = .metric) {g gi : Arr K}
    (hg : getComponents E m (some c) (some [-1, -1]) w = (.ok g, w1))
    (hgi : getComponents E m (some c) (some [1, 1]) w1 = (.ok gi, w2))
    (hc : w.objs[c]? = some oc) (hca : oc.alive = true) (hn : 0 < oc.syms.length)
    (hgs : g.shape = [oc.syms.length, oc.syms.length]) (hgis : gi.shape = [oc.syms.length, oc.syms.length])
    (hI : Inverse oc.syms.length (entry g) (entry gi))
    {r : Nat} {a : Arr K} (ha : a.WF) (has : a.shape = List.replicate r oc.syms.length)
    (src : List Int) (hsrc : Config r src) (visited : List (List Int)) (hv : ∀ ix ∈ visited, Config r ix) :
    ∃ w', redeclare E m c (visited ++ [src]) src a w2 = (.ok a, w') := by
  have hst := metricStored_of_get hm hk hg hgi
  have hchart : ∃ oc', w2.objs[c]? = some oc' ∧ oc'.kind = .coordinates ∧ oc'.alive = true ∧
      oc'.syms.length = oc.syms.length := by
    have s1 := getComponents_steady (E := E) m (some c) (some [-1, -1]) w
    have s2 := getComponents_steady (E := E) m (some c) (some [1, 1]) w1
    rw [hg] at s1
    rw [hgi] at s2
    obtain ⟨oc', e1, e2⟩ := (s1.trans s2).get hc
    obtain ⟨⟨oc'', k1, k2⟩, -⟩ := getComponents_stored hgi
    rw [e1] at k1; cases k1
    refine ⟨oc', e1, k2, (congrArg (·.2.2.2.2.2.2.2.2) e2).trans hca, ?_⟩
    exact congrArg List.length (congrArg (·.2.2.2.2.2.2.1) e2)
  have hself : ∀ J : List Nat, J.length = r → (∀ x ∈ J, x < oc.syms.length) → a.get J =
      applyFactors oc.syms.length (List.zipWith (indexFactor (entry g) (entry gi)) src src) a.get J := by
    intro J hl hJ
    refine (applyFactors_self _ _ hJ (by rw [hl]; exact hsrc.1)).symm
  obtain ⟨b, w', e1, e2⟩ := redeclare_spec hE.simp_eq hn hgs hgis hI hsrc (visited ++ [src]) (w := w2) (src := src)
    (a := a) (T := a.get) (by
      intro x hx
      rcases List.mem_append.1 hx with hx | hx
      · exact hv x hx
      · rw [List.mem_singleton.1 hx]; exact hsrc) hsrc hst hchart ⟨ha, has, hself⟩
  rw [List.getLast?_concat, Option.getD_some] at e2
  have : b = a := agree_eq e2 ⟨ha, has, hself⟩
  exact ⟨w', by rw [e1, this]⟩

/-! ## C10: the history does not matter -/

/-- **C10** After any sequence of requests (of any objects, in any coordinates, succeeding or not), a
request of a tensor's components in the coordinates it was declared in gives the same result, or the same
exception, as it would have given right after the declaration. -/
theorem C10_history_independent (E : Engine K) {w w1 w2 w3 : World K} {m c t : Id'} {om : Obj K}
    (hm : w.objs[m]? = some om) (hk : om.kind = .metric) {g gi : Arr K}
    (hg : getComponents E m (some c) (some [-1, -1]) w = (.ok g, w1))
    (hgi : getComponents E m (some c) (some [1, 1]) w1 = (.ok gi, w2))
    {name symbol : Arg String} {a : Arr K} {ix : IndicesArg}
    (ht : newTensor .tensor name (.val a) m c ix symbol w2 = (.ok t, w3))
    (hist : List (Id' × Option Id' × Option (List Int))) (tgt : Option (List Int)) (c' : Option Id')
    (hc : c' = none ∨ c' = some c) :
    (getComponents E t c' tgt (requests E hist w3)).1 = (getComponents E t c' tgt w3).1 := by
  have hst := metricStored_of_get hm hk hg hgi
  have hown := own_new E hst ht
  rw [(getComponents_ownValue (own_requests hist hown) tgt c' hc).2, (getComponents_ownValue hown tgt c' hc).2]

end PyOGRe
