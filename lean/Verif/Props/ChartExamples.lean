import Verif.Props.Display

/-!
# Examples for the properties about coordinate systems (C09, C10, C12 - C17, C19, C20, C65, C67)

One session of polynomials on the plane (`Verif/Spec/Poly.lean`): the flat metric and a vector field are declared in
the coordinates x, y, and their components are requested in both systems.
-/

namespace PyOGRe
open Spec

/-- The declarations. -/
noncomputable def Spec.planeOps : List (Op Poly) :=
  [.metric (.val "Flat") flat (.tuple [-1, -1]) (.val "eta"), .tensor (.val "V") aVector 2 0 (.tuple [1]) (.val "v")]

/-- A session that began with the declarations and is of the kind considered. -/
structure Spec.PlaneSession (ops : List (Op Poly)) : Prop where
  allowed : AllAllowed polyEngine 0 2 uvFrames ops uvWorld
  plain : AllPlain polyEngine 0 ops uvWorld
  metric : ∃ o, (Spec.session polyEngine 0 ops uvWorld).2.objs[2]? = some o ∧ o.kind = .metric
  vector : ∃ o, (Spec.session polyEngine 0 ops uvWorld).2.objs[3]? = some o ∧ o.kind = .tensor ∧ o.indices = [1]
  charts : ∀ c : Id', c < 2 → ∃ o, (Spec.session polyEngine 0 ops uvWorld).2.objs[c]? = some o ∧ o.kind = .coordinates

theorem plane_alive : ∀ (i : Id') o, uvWorld.objs[i]? = some o → o.alive = true := by
  intro i o h
  rcases uvWorld_cases h with ⟨-, -, -, -, -, h⟩ | ⟨-, -, -, -, -, h⟩ <;> exact h

theorem planeOps_session : ∃ w, Spec.session polyEngine 0 planeOps uvWorld =
    ([.metric 2 0 [-1, -1] flat, .tensor 3 2 0 [1] aVector], w) ∧
    ∃ om o, w.objs = uvWorld.objs ++ [om, o] ∧ om.kind = .metric ∧ o.kind = .tensor ∧ o.indices = [1] := by
  obtain ⟨t, w, h1, -, h2, o, h3, h4, h5, -, -, -, -, -, a, h6, h7, -⟩ := (C19_tensor_constructor _ _ _ _ _ _ _).1 vector_args
  obtain ⟨om, q1, q2, -⟩ := flatWorld_objs
  have ht : t = 3 := by
    obtain ⟨-, -, -, k4⟩ := known_new (E := polyEngine) h1
    rw [k4, q1]; rfl
  subst ht
  cases h6
  refine ⟨w, ?_, om, o, ?_, q2, h5, h7⟩
  · simp only [planeOps, Spec.session, Op.run, flatWorld_eq, h1]
    rfl
  · rw [h3, q1]; simp

theorem fine_start : PlaneSession planeOps := by
  obtain ⟨w, h1, om, o, h2, h3, h4, h5⟩ := planeOps_session
  refine ⟨⟨⟨rfl, ?_⟩, ⟨rfl, aVector.get, ?_, ?_⟩, trivial⟩, ⟨rfl, trivial, trivial⟩, ?_, ?_, ?_⟩
  · intro x hx
    simp only [flat, List.mem_cons, List.not_mem_nil, or_false] at hx
    rcases hx with rfl | rfl | rfl | rfl <;> first | exact uvFrames.fns.one_mem | exact uvFrames.fns.zero_mem
  · intro J
    have h3 : ∀ x ∈ aVector.data, x ∈ uvFrames.fns := by
      intro x hx
      simp only [aVector, List.mem_cons, List.not_mem_nil, or_false] at hx
      rcases hx with rfl | rfl
      · refine uvFrames.fns.mul_mem ?_ ?_ <;>
        · show _ ∈ MvPolynomial.supported ℚ ({"x", "y"} : Set String)
          exact MvPolynomial.X_mem_supported.2 (by simp)
      · exact natCast_mem uvFrames.fns 3
    unfold Arr.get
    rw [List.getD_eq_getElem?_getD]
    cases hd : aVector.data[ravel aVector.shape J]? with
    | none => exact uvFrames.fns.zero_mem
    | some x => exact h3 x (List.mem_of_getElem? hd)
  · intro J hl hx
    refine (applyFactors_delta 2 (([1] : List Int).map (coordFactor (uvFrames.J 0) (uvFrames.Jinv 0))) _ J hx hl.symm ?_).symm
    intro M hM i j hi hj
    obtain ⟨a, ha, rfl⟩ := List.mem_map.1 hM
    unfold coordFactor
    split_ifs <;> simp [uvFrames, delta, eq_comm]
  · exact ⟨om, by rw [h1, h2]; rfl, h3⟩
  · exact ⟨o, by rw [h1, h2]; rfl, h4, h5⟩
  · intro c hc
    rw [h1, h2]
    match c, hc with
    | 0, _ => exact ⟨_, rfl, rfl⟩
    | 1, _ => exact ⟨_, rfl, rfl⟩

theorem allPlain_append {K : Type} [DecidableEq K] [CommRing K] {E : Engine K} (home : Id') (ops ops' : List (Op K)) (w : World K) :
    AllPlain E home (ops ++ ops') w ↔ AllPlain E home ops w ∧ AllPlain E home ops' (Spec.session E home ops w).2 := by
  induction ops generalizing w with
  | nil => simp [AllPlain, Spec.session]
  | cons op ops ih => simp only [List.cons_append, AllPlain, Spec.session, ih, and_assoc]

/-- One more request. -/
theorem fine_get {ops : List (Op Poly)} (h : PlaneSession ops) {t c : Id'} {ix : List Int} {b : Arr Poly} {w' : World Poly}
    {o : Obj Poly} (ho : (Spec.session polyEngine 0 ops uvWorld).2.objs[t]? = some o) (hk : o.kind = .metric ∨ o.kind = .tensor)
    (hp : o.kind = .metric → ix = [-1, -1] ∨ o.comps.has c = true)
    (e : getComponents polyEngine t (some c) (some ix) (Spec.session polyEngine 0 ops uvWorld).2 = (.ok b, w')) :
    PlaneSession (ops ++ [.get t (some c) (some ix)]) ∧ (Spec.session polyEngine 0 (ops ++ [.get t (some c) (some ix)]) uvWorld) =
      ((Spec.session polyEngine 0 ops uvWorld).1 ++ [.got t c ix b], w') := by
  have hs : Spec.session polyEngine 0 (ops ++ [.get t (some c) (some ix)]) uvWorld =
      ((Spec.session polyEngine 0 ops uvWorld).1 ++ [.got t c ix b], w') := by
    rw [session_append]
    simp only [Spec.session, Op.run, e, ho]
    rfl
  have hf := getComponents_steady (E := polyEngine) t (some c) (some ix) (Spec.session polyEngine 0 ops uvWorld).2
  rw [e] at hf
  refine ⟨⟨?_, ?_, ?_, ?_, ?_⟩, hs⟩
  · rw [allAllowed_append]
    refine ⟨h.allowed, fun o' ho' => ?_, trivial⟩
    rw [ho] at ho'; cases ho'; exact hk
  · rw [allPlain_append]
    refine ⟨h.plain, fun o' ho' hk' => ?_, trivial⟩
    rw [ho] at ho'; cases ho'
    rcases hp hk' with rfl | hp
    · exact Or.inr (Or.inl rfl)
    · exact Or.inr (Or.inr hp)
  · rw [hs]
    obtain ⟨o, h1, h2⟩ := h.metric
    obtain ⟨o', h3, h4⟩ := hf.get h1
    exact ⟨o', h3, (congrArg (·.1) h4).trans h2⟩
  · rw [hs]
    obtain ⟨o, h1, h2, h2'⟩ := h.vector
    obtain ⟨o', h3, h4⟩ := hf.get h1
    exact ⟨o', h3, (congrArg (·.1) h4).trans h2, (congrArg (·.2.2.2.1) h4).trans h2'⟩
  · rw [hs]
    intro c hc
    obtain ⟨o, h1, h2⟩ := h.charts c hc
    obtain ⟨o', h3, h4⟩ := hf.get h1
    exact ⟨o', h3, (congrArg (·.1) h4).trans h2⟩

theorem plane_tensor_answers {ops : List (Op Poly)} (h : PlaneSession ops) (c : Id') (hc : c < 2) (ix : List Int)
    (hix : Config 1 ix) : ∃ b, PlaneSession (ops ++ [.get 3 (some c) (some ix)]) ∧
      (Spec.session polyEngine 0 (ops ++ [.get 3 (some c) (some ix)]) uvWorld).1 =
        (Spec.session polyEngine 0 ops uvWorld).1 ++ [.got 3 c ix b] := by
  obtain ⟨o, h1, h2, h3⟩ := h.vector
  obtain ⟨oc, c1, c2⟩ := h.charts c hc
  obtain ⟨b, w', e⟩ := C67_requests_succeed polyEngine polyEngine_ok polyEngine_total uvAtlas uvAtlas_ok 0 uvFrames uv_consistent
    uvWorld uvWorld_charts plane_alive uvWorld_connected ops h.allowed h.plain h1 h2 c1 c2 ix (by rw [h3]; exact hix)
  obtain ⟨q1, q2⟩ := fine_get h h1 (Or.inr h2) (fun hk => by rw [h2] at hk; cases hk) e
  exact ⟨b, q1, by rw [q2]⟩

theorem plane_metric_answers {ops : List (Op Poly)} (h : PlaneSession ops) (c : Id') (hc : c < 2) :
    ∃ g gi, PlaneSession (ops ++ [.get 2 (some c) (some [-1, -1]), .get 2 (some c) (some [1, 1])]) ∧
      (Spec.session polyEngine 0 (ops ++ [.get 2 (some c) (some [-1, -1]), .get 2 (some c) (some [1, 1])]) uvWorld).1 =
        (Spec.session polyEngine 0 ops uvWorld).1 ++ [.got 2 c [-1, -1] g, .got 2 c [1, 1] gi] := by
  obtain ⟨o, h1, h2⟩ := h.metric
  obtain ⟨oc, c1, c2⟩ := h.charts c hc
  obtain ⟨g, w1, gi, wi, e1, e2, -⟩ := C12_metric_in_new_coordinates_partial polyEngine polyEngine_ok polyEngine_total uvAtlas
    uvAtlas_ok 0 uvFrames uv_consistent uvWorld uvWorld_charts plane_alive uvWorld_connected ops h.allowed h.plain h1 h2 c1 c2
  obtain ⟨q1, q2⟩ := fine_get h h1 (Or.inl h2) (fun _ => Or.inl rfl) e1
  obtain ⟨o', k1, k2⟩ := q1.metric
  rw [q2] at k1
  obtain ⟨-, -, o'', d, p1, -, p3, -⟩ := getComponents_stored e1
  rw [k1] at p1; cases p1
  have e2' : getComponents polyEngine 2 (some c) (some [1, 1])
      (Spec.session polyEngine 0 (ops ++ [.get 2 (some c) (some [-1, -1])]) uvWorld).2 = (.ok gi, wi) := by rw [q2]; exact e2
  obtain ⟨q3, q4⟩ := fine_get q1 (by rw [q2]; exact k1) (Or.inl k2) (fun _ => Or.inr ((Dict.has_iff _ _).2 ⟨d, p3⟩)) e2'
  rw [List.append_assoc] at q3 q4
  refine ⟨g, gi, q3, ?_⟩
  show (Spec.session polyEngine 0 (ops ++ ([.get 2 (some c) (some [-1, -1])] ++ [.get 2 (some c) (some [1, 1])])) uvWorld).1 = _
  rw [q4, q2]
  simp

/-- C12, C13, C14, C15, C67: a session in which the metric and the vector field are requested in both systems and in both
configurations, and all requests are answered. -/
example : ∃ (ops : List (Op Poly)) (g gi g' gi' a b a' b' : Arr Poly),
    ChartsOnly uvAtlas 0 uvWorld ∧ (∀ (i : Id') o, uvWorld.objs[i]? = some o → o.alive = true) ∧
    Connected polyEngine uvAtlas uvWorld ∧ Consistent polyEngine uvAtlas 0 uvFrames ∧ uvAtlas.OK ∧
    AllAllowed polyEngine 0 uvAtlas.n uvFrames ops uvWorld ∧ AllPlain polyEngine 0 ops uvWorld ∧
    (∃ om, (Spec.session polyEngine 0 ops uvWorld).2.objs[2]? = some om ∧ om.kind = .metric) ∧
    (∃ oc, (Spec.session polyEngine 0 ops uvWorld).2.objs[1]? = some oc ∧ oc.kind = .coordinates) ∧
    (∃ o, (Spec.session polyEngine 0 ops uvWorld).2.objs[3]? = some o ∧ o.kind = .tensor ∧ Config o.indices.length [-1]) ∧
    (Spec.session polyEngine 0 ops uvWorld).1 = [.metric 2 0 [-1, -1] flat, .tensor 3 2 0 [1] aVector,
      .got 3 0 [1] a, .got 3 0 [-1] b, .got 3 1 [1] a', .got 3 1 [-1] b',
      .got 2 0 [-1, -1] g, .got 2 0 [1, 1] gi, .got 2 1 [-1, -1] g', .got 2 1 [1, 1] gi'] ∧
    uvAtlas.rules 0 1 = some rules01 ∧ uvAtlas.rules 1 0 = some rules10 ∧ opposite [1] = [-1] ∧
    (∃ Jinv, Inverse uvAtlas.n (chartJacobian polyEngine (uvAtlas.syms 0) (uvAtlas.syms 1) rules01) Jinv) ∧
    ∃ Jinv, Inverse uvAtlas.n (chartJacobian polyEngine (uvAtlas.syms 1) (uvAtlas.syms 0) rules10) Jinv := by
  obtain ⟨a, s1, e1⟩ := plane_tensor_answers fine_start 0 (by decide) [1] ⟨rfl, by simp⟩
  obtain ⟨b, s2, e2⟩ := plane_tensor_answers s1 0 (by decide) [-1] ⟨rfl, by simp⟩
  obtain ⟨a', s3, e3⟩ := plane_tensor_answers s2 1 (by decide) [1] ⟨rfl, by simp⟩
  obtain ⟨b', s4, e4⟩ := plane_tensor_answers s3 1 (by decide) [-1] ⟨rfl, by simp⟩
  obtain ⟨g, gi, s5, e5⟩ := plane_metric_answers s4 0 (by decide)
  obtain ⟨g', gi', s6, e6⟩ := plane_metric_answers s5 1 (by decide)
  obtain ⟨o, h1, h2, h3⟩ := s6.vector
  obtain ⟨w, h4, -⟩ := planeOps_session
  refine ⟨_, g, gi, g', gi', a, b, a', b', uvWorld_charts, plane_alive, uvWorld_connected, uv_consistent, uvAtlas_ok, s6.allowed,
    s6.plain, s6.metric, s6.charts 1 (by decide), ⟨o, h1, h2, by rw [h3]; exact ⟨rfl, by simp⟩⟩, ?_, rfl, rfl, rfl,
    ⟨_, inverse_congr (inverse_shear (2 * MvPolynomial.X "v")) (fun i j hi hj => (jac01 i j hi hj).symm) fun _ _ _ _ => rfl⟩,
    ⟨_, inverse_congr (inverse_shear (-(2 * MvPolynomial.X "y"))) (fun i j hi hj => (jac10 i j hi hj).symm) fun _ _ _ _ => rfl⟩⟩
  rw [e6, e5, e4, e3, e2, e1, h4]
  rfl

/-- The flat metric declared with lower or upper indices: it is known in its coordinates in every configuration. -/
theorem Spec.plane_metric (ix : List Int) (hix : ix = [-1, -1] ∨ ix = [1, 1]) : ∃ (w : World Poly) (o : Obj Poly),
    newMetric polyEngine (.val "Flat") (.val flat) 0 (.tuple ix) (.val "eta") uvWorld = (.ok 2, w) ∧
    w.objs[2]? = some o ∧ o.indices = ix ∧ Unseen w 2 1 ∧ Charts w 0 1 ["x", "y"] ["u", "v"] (some rules01) ∧
    cachedJacobian w 0 1 = none ∧ ∀ tgt, tgt = [-1, -1] ∨ tgt = [1, 1] → ∃ b, Known polyEngine w .metric 2 0 tgt b ∧ b.shape = [2, 2] := by
  have hargs : MetricArgsOK polyEngine uvWorld (.val "Flat") (.val flat) 0 (.tuple ix) (.val "eta") := by
    refine ⟨⟨_, rfl⟩, ⟨_, rfl⟩, ?_, _, flat, rfl, rfl, rfl, rfl, rfl, ?_, polyEngine_det rfl flat_inverse⟩
    · rcases hix with rfl | rfl
      · exact Or.inl rfl
      · exact Or.inr rfl
    · intro i j hi hj
      rw [flat_entry i j hi hj, flat_entry j i hj hi]
      simp [delta, eq_comm]
  obtain ⟨m, w, h1, -, o, h2, h3, h4, h5, h6, h7, h8⟩ := (C20_metric_constructor polyEngine polyEngine_total _ _ _ _ _ _).1 hargs
  have hm : m = 2 ∧ Unseen w m 1 := by
    rcases newMetric_cases polyEngine (.val "Flat") flat 0 (.tuple ix) (.val "eta") uvWorld with
      ⟨e, h⟩ | ⟨oc, -, -, -, -, -, -, ⟨e, -, h⟩ | ⟨b, -, h⟩⟩
    · rw [h1] at h; cases h
    · rw [h1] at h; cases h
    · rw [h1] at h; cases h
      refine ⟨rfl, fun o' ho' => ?_⟩
      cases ho'
      rfl
  obtain ⟨rfl, hu⟩ := hm
  obtain ⟨q1, q2⟩ := charts_append (w := uvWorld) (w' := w) (c := 0) (c' := 1) (old := ["x", "y"]) (new := ["u", "v"])
    (r := some rules01) ⟨⟨_, rfl, rfl, rfl, rfl, rfl⟩, _, rfl, rfl, rfl, rfl⟩ ⟨o, h2⟩
  refine ⟨w, o, h1, h3, ?_, hu, q1, q2.trans rfl, ?_⟩
  · injection h8
  · obtain ⟨n, g, gi, e, k0, k1, k2, -, -, k3, k4, -⟩ := C11_metric_representations polyEngine polyEngine_ok
      (show flat.WF from rfl) h1 [] (some 0) (Or.inr rfl)
    have hn : n = 2 := by
      have : [2, 2] = [n, n] := k0
      injection this with h _
      exact h.symm
    subst hn
    rintro tgt (rfl | rfl)
    · exact ⟨g, ⟨⟨o, h3, h4, h7⟩, k1⟩, k3⟩
    · exact ⟨gi, ⟨⟨o, h3, h4, h7⟩, k2⟩, k4⟩

/-- C12_false: the flat metric, declared with lower indices and requested with upper ones. -/
example : ∃ (w : World Poly) (b : Arr Poly) (o : Obj Poly) (Jinv : Nat → Nat → Poly), Known polyEngine w .metric 2 0 [1, 1] b ∧
    Unseen w 2 1 ∧ b.shape = [2, 2] ∧ w.objs[2]? = some o ∧ o.indices.length = 2 ∧ o.indices ≠ [1, 1] ∧
    Charts w 0 1 ["x", "y"] ["u", "v"] (some rules01) ∧ GoodRules rules01 ∧ cachedJacobian w 0 1 = none ∧
    Inverse 2 (chartJacobian polyEngine ["x", "y"] ["u", "v"] rules01) Jinv := by
  obtain ⟨w, o, -, h2, h3, h4, h5, h6, h7⟩ := plane_metric [-1, -1] (Or.inl rfl)
  obtain ⟨b, h8, h9⟩ := h7 [1, 1] (Or.inr rfl)
  exact ⟨w, b, o, _, h8, h4, h9, h2, by rw [h3]; rfl, by rw [h3]; decide, h5, uvAtlas_ok.good 0 1 rules01 rfl, h6,
    inverse_congr (inverse_shear (2 * MvPolynomial.X "v")) (fun i j hi hj => (jac01 i j hi hj).symm) fun _ _ _ _ => rfl⟩

/-- C65_false: the flat metric, declared with upper indices. -/
example : ∃ (w : World Poly) (b : Arr Poly) (o : Obj Poly) (Jinv : Nat → Nat → Poly), Known polyEngine w .metric 2 0 [-1, -1] b ∧
    Unseen w 2 1 ∧ b.shape = [2, 2] ∧ w.objs[2]? = some o ∧ o.indices = [1, 1] ∧
    Charts w 0 1 ["x", "y"] ["u", "v"] (some rules01) ∧ GoodRules rules01 ∧ cachedJacobian w 0 1 = none ∧
    Inverse 2 (chartJacobian polyEngine ["x", "y"] ["u", "v"] rules01) Jinv := by
  obtain ⟨w, o, -, h2, h3, h4, h5, h6, h7⟩ := plane_metric [1, 1] (Or.inr rfl)
  obtain ⟨b, h8, h9⟩ := h7 [-1, -1] (Or.inl rfl)
  exact ⟨w, b, o, _, h8, h4, h9, h2, h3, h5, uvAtlas_ok.good 0 1 rules01 rfl, h6,
    inverse_congr (inverse_shear (2 * MvPolynomial.X "v")) (fun i j hi hj => (jac01 i j hi hj).symm) fun _ _ _ _ => rfl⟩

/-- C16_refused_without_rules: the vector field after the rules have been removed. -/
example : ∃ (w : World Poly) (o : Obj Poly), w.objs[3]? = some o ∧ o.kind = .tensor ∧ o.coords = 0 ∧ Unseen w 3 1 ∧
    Charts w 0 1 ["x", "y"] ["u", "v"] none := by
  obtain ⟨w1, w, -, -, h1, h2, h3, h4⟩ := plane_tensor ["x", "y"] ["u", "v"] rfl rules01 aVector [1] rfl (by simp)
  obtain ⟨w', -, h5, h6⟩ := C16_removed_rules_are_gone h3 (by decide)
  obtain ⟨o, k1, k2, k3⟩ := h1.object
  refine ⟨w', o, (h6 3 (by decide)).trans k1, k2, k3, fun o' ho' => ?_, h5⟩
  exact h2 o' ((h6 3 (by decide)).symm.trans ho')

/-- C17: the covector dx. -/
example : ∃ (w : World Poly) (b : Arr Poly) (Jinv : Nat → Nat → Poly), Known polyEngine w .tensor 3 0 [-1] b ∧ Unseen w 3 1 ∧
    b.shape = [2] ∧ (∀ k, k < 2 → b.get [k] = delta 0 k) ∧ Charts w 0 1 ["x", "y"] ["u", "v"] (some rules01) ∧
    GoodRules rules01 ∧ cachedJacobian w 0 1 = none ∧
    Inverse 2 (chartJacobian polyEngine ["x", "y"] ["u", "v"] rules01) Jinv ∧
    (∀ s s', polyEngine.diff s (MvPolynomial.X s') = if s = s' then 1 else 0) ∧ (["u", "v"] : List Sym).Nodup ∧
    ∀ k, k < 2 → ruleFor rules01 ((["x", "y"] : List Sym).getD k "") = none →
      (["u", "v"] : List Sym).getD k "" = (["x", "y"] : List Sym).getD k "" := by
  obtain ⟨w1, w, -, -, h1, h2, h3, h4⟩ := plane_tensor ["x", "y"] ["u", "v"] rfl rules01 ⟨[2], [1, 0]⟩ [-1] rfl (by simp)
  refine ⟨w, _, _, h1, h2, rfl, ?_, h3, uvAtlas_ok.good 0 1 rules01 rfl, h4,
    inverse_congr (inverse_shear (2 * MvPolynomial.X "v")) (fun i j hi hj => (jac01 i j hi hj).symm) fun _ _ _ _ => rfl,
    ?_, by decide, ?_⟩
  · intro k hk
    match k, hk with
    | 0, _ => rfl
    | 1, _ => rfl
  · intro s s'
    show MvPolynomial.pderiv s (MvPolynomial.X s') = _
    rw [MvPolynomial.pderiv_X, Pi.single_apply]
    simp only [eq_comm]
  · intro k hk hr
    match k, hk with
    | 0, _ => cases hr
    | 1, _ => cases hr

/-- C09, C10: the metric of the plane, and a tensor of rank 2 that is declared again twice. -/
example : ∃ (w1 w2 : World Poly) (om oc : Obj Poly) (g gi : Arr Poly),
    flatWorld.objs[2]? = some om ∧ om.kind = .metric ∧
    getComponents polyEngine 2 (some 0) (some [-1, -1]) flatWorld = (.ok g, w1) ∧
    getComponents polyEngine 2 (some 0) (some [1, 1]) w1 = (.ok gi, w2) ∧
    flatWorld.objs[0]? = some oc ∧ oc.alive = true ∧ oc.syms.length = 2 ∧ g.shape = [2, 2] ∧ gi.shape = [2, 2] ∧
    Inverse 2 (entry g) (entry gi) ∧
    ∃ a : Arr Poly, a.WF ∧ a.shape = List.replicate 2 2 ∧ Config 2 [1, -1] ∧ ∀ ix ∈ [[-1, 1], [1, 1]], Config 2 ix := by
  obtain ⟨o, h1, h2, h3⟩ := flatWorld_objs
  obtain ⟨n, g, gi, e, q0, q1, q2, -, -, q3, q4, -, -, q5, -⟩ := C11_metric_representations polyEngine polyEngine_ok
    (show flat.WF from rfl) flatWorld_eq [] (some 0) (Or.inr rfl)
  have hn : n = 2 := by
    have : [2, 2] = [n, n] := q0
    injection this with h _
    exact h.symm
  subst hn
  refine ⟨_, _, o, _, g, gi, by rw [h1]; rfl, h2, q1, q2, by rw [h1]; rfl, rfl, rfl, q3, q4, q5,
    ⟨[2, 2], [MvPolynomial.X "x", 2, MvPolynomial.X "y", 0]⟩, rfl, rfl, ⟨rfl, by simp⟩, ?_⟩
  intro ix hix
  simp only [List.mem_cons, List.not_mem_nil, or_false] at hix
  rcases hix with rfl | rfl <;> exact ⟨rfl, by simp⟩

/-- C19, C20: a coordinate system, and a metric without configuration. -/
example : ((∃ s, (.val "Polar" : Arg String) = .val s) ∧ (∃ s, (.val "r" : Arg String) = .val s) ∧
      (∃ n, (.val [2] : Arg (List Nat)) = .val [n]) ∧ ((.none : IndicesArg) = .none ∨ (.none : IndicesArg) = .tuple [1])) ∧
    ∃ oc, uvWorld.objs[0]? = some oc ∧ oc.kind = .coordinates ∧ oc.alive = true ∧
      flat.shape = [oc.syms.length, oc.syms.length] ∧
      (∀ i j, i < oc.syms.length → j < oc.syms.length → entry flat i j = entry flat j i) ∧ polyEngine.det flat ≠ 0 := by
  refine ⟨⟨⟨_, rfl⟩, ⟨_, rfl⟩, ⟨_, rfl⟩, Or.inl rfl⟩, _, rfl, rfl, rfl, rfl, fun i j hi hj => ?_, polyEngine_det rfl flat_inverse⟩
  rw [flat_entry i j hi hj, flat_entry j i hj hi]
  simp [delta, eq_comm]

end PyOGRe
