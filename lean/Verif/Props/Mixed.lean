import Verif.Props.Charts
import Verif.Props.Formula

/-!
# Tensors in different coordinate systems

What traces (C24) and products (C26) do when the coordinate systems differ.
-/

namespace PyOGRe
open Spec Finset
variable {K : Type} [CommRing K] {E : Engine K} {w : World K}

/-- Object `t` is a tensor with metric `m` and default configuration `ix`, whose components in its default
coordinate system `c` are `a`. -/
structure Spec.Declared (E : Engine K) (w : World K) (t m c : Id') (ix : List Int) (a : Arr K) : Prop extends
    Known E w .tensor t c ix a where
  default : ∃ o, w.objs[t]? = some o ∧ o.indices = ix ∧ o.metric = m

theorem declared_object {t m c : Id'} {ix : List Int} {a : Arr K} (h : Declared E w t m c ix a) :
    ∃ o, w.objs[t]? = some o ∧ o.alive = true ∧ o.coords = c ∧ o.indices = ix ∧ o.metric = m := by
  obtain ⟨o, d, h1, h2, -, h3, -⟩ := known_stored h.toKnown
  obtain ⟨o', k1, k2⟩ := h.default
  rw [h1] at k1; cases k1
  exact ⟨o, h1, h2, h3, k2⟩

theorem declared_requireTensor {t m c : Id'} {ix : List Int} {a : Arr K} (h : Declared E w t m c ix a) :
    requireTensor t w = (.ok (), w) := by
  obtain ⟨o, d, h1, -, h2, -⟩ := known_stored h.toKnown
  exact requireTensor_ok h1 (by rw [h2]; decide)

theorem getComponents_default {t m c : Id'} {ix : List Int} {a : Arr K} (h : Declared E w t m c ix a) :
    getComponents E t none none w = (.ok a, w) := by
  obtain ⟨o, h1, h2, h3, h4, -⟩ := declared_object h
  rw [← h.returns]
  unfold getComponents
  rw [PyM.bind_apply, PyM.bind_apply, getObj_ok h1 h2]
  dsimp only [Option.getD]
  rw [h3, h4]

theorem getComponents_coords {k : Kind} {t c : Id'} {ix : List Int} {a : Arr K} (h : Known E w k t c ix a) :
    getComponents E t none (some ix) w = (.ok a, w) := by
  obtain ⟨o, d, h1, h2, -, h3, -⟩ := known_stored h
  rw [← h.returns]
  unfold getComponents
  rw [PyM.bind_apply, PyM.bind_apply, getObj_ok h1 h2]
  dsimp only [Option.getD]
  rw [h3]

/-- A new tensor. -/
theorem newTensor_declared {a : Arr K} {m c : Id'} {ix : List Int} {om oc : Obj K} (hm : w.objs[m]? = some om)
    (hmk : om.kind = .metric) (hc : w.objs[c]? = some oc) (hck : oc.kind = .coordinates) (hca : oc.alive = true)
    (hs : a.shape = List.replicate ix.length oc.syms.length) (hix : Config ix.length ix)
    (name symbol : String) :
    ∃ w', newTensor .tensor (.val name) (.val a) m c (.tuple ix) (.val symbol) w = (.ok w.objs.length, w') ∧
      Declared E w' w.objs.length m c ix a ∧ ∃ o, w'.objs = w.objs ++ [o] := by
  have targs : TensorArgsOK w (.val name) (.val a) m c (.tuple ix) (.val symbol) := by
    refine ⟨⟨_, rfl⟩, ⟨_, rfl⟩, ⟨om, hm, hmk⟩, oc, a, hc, hck, hca, rfl, ?_, Or.inr ⟨ix, rfl, ?_, hix.2⟩⟩
    · intro d hd
      rw [hs] at hd
      exact List.eq_of_mem_replicate hd
    · rw [hs]; simp
  obtain ⟨t, w', h1, -, -, o, h2, h3, -, -, -, -, h4, -, a', -, h5, -⟩ := (C19_tensor_constructor _ _ _ _ _ _ _).1 targs
  obtain ⟨k1, k2, k3, k4⟩ := known_new (E := E) h1
  subst k4
  exact ⟨w', h1, ⟨k1, o, h3, h5, h4⟩, k3⟩

/-- A scalar as a formula. -/
theorem calcInit_scalar {t m c : Id'} {a : Arr K} (h : Declared E w t m c [] a) (hs : a.shape = []) :
    calcInit E t [] w = (.ok ⟨.tensor, some t, []⟩, w) := by
  obtain ⟨o, h1, h2, h3, h4, -⟩ := declared_object h
  unfold calcInit
  rw [PyM.bind_apply, declared_requireTensor h]
  dsimp only
  rw [PyM.bind_apply, getObj_ok h1 h2]
  dsimp only
  rw [PyM.bind_apply, getComponents_default h]
  dsimp only
  have : validateIndicesRank (.tuple o.indices) a.rank = .ok () := by
    rw [h4]; unfold Arr.rank; rw [hs]; rfl
  rw [PyM.bind_apply, this]
  rfl


/-- The components of a declared tensor do not change when another object is made. -/
theorem declared_append {w' : World K} {t m c : Id'} {ix : List Int} {a : Arr K} (h : Declared E w t m c ix a)
    (hw : ∃ o, w'.objs = w.objs ++ [o]) : Declared E w' t m c ix a := by
  obtain ⟨o', hw⟩ := hw
  obtain ⟨o, d, h1, h2, h3, h4, h5, h6, h7⟩ := known_stored h.toKnown
  obtain ⟨⟨oc, c1, c2⟩, -⟩ := getComponents_stored h.returns
  obtain ⟨o2, k1, k2⟩ := h.default
  exact ⟨known_of_stored (oc := oc) (by rw [hw]; exact getElem?_append_old h1) h2 h3 h4 h5 h6 h7
    (by rw [hw]; exact getElem?_append_old c1) c2, o2, by rw [hw]; exact getElem?_append_old k1, k2⟩

/-- What a trace does: whatever the coordinate system of the tensor is, the components of the metric are those
in the default coordinate system of the metric. -/
theorem C24_trace_code (hE : EngineOK E) {t m c cm : Id'} {n : Nat} (hn : 0 < n) {a g : Arr K} {oc : Obj K}
    (hc : w.objs[c]? = some oc) (hck : oc.kind = .coordinates) (hca : oc.alive = true)
    (ht : Declared E w t m c [1, 1] a) (ha : a.shape = [n, n]) (hm : Known E w .metric m cm [-1, -1] g)
    (hg : g.shape = [n, n]) :
    Does (calcInit E t ["a", "a"]) w fun z w' => ∃ u b, z = ⟨.tensor, some u, []⟩ ∧ Declared E w' u m c [] b ∧
      b.get [] = ∑ i ∈ range n, ∑ j ∈ range n, g.get [i, j] * a.get [i, j] := by
  obtain ⟨o, h1, h2, h3, h4, h5⟩ := declared_object ht
  obtain ⟨om, dm, m1, m2, m3, m4, -⟩ := known_stored hm
  obtain ⟨b, b1, b2, b3, b4, -⟩ := contract_spec E hE.simp_eq hn g a (r1 := 2) (r2 := 2) hg ha [(0, 0), (1, 1)]
    (by simp) (by simp) (by simp) (by simp)
  have b4 := b4 [0, 0] [0, 0] (by rw [hg]; exact .cons hn (.cons hn .nil)) (by rw [ha]; exact .cons hn (.cons hn .nil))
  obtain ⟨w', n1, n2, -⟩ := newTensor_declared (E := E) (a := b) (ix := []) m1 m3 hc hck hca b3 ⟨rfl, by simp⟩
    "TEMP" o.symbol
  refine ⟨⟨.tensor, some w.objs.length, []⟩, w', ?_, _, b, rfl, n2, ?_⟩
  · unfold calcInit
    rw [PyM.bind_apply, declared_requireTensor ht]
    dsimp only
    rw [PyM.bind_apply, getObj_ok h1 h2]
    dsimp only
    rw [PyM.bind_apply, getComponents_default ht]
    dsimp only
    have : validateIndicesRank (.tuple o.indices) a.rank = .ok () := by
      rw [h4]; unfold Arr.rank; rw [ha]; rfl
    rw [PyM.bind_apply, this]
    dsimp only [PyM.lift]
    have step : traceStep E "a" t ["a", "a"] w = (.ok (w.objs.length, []), w') := by
      unfold traceStep
      dsimp only
      rw [if_neg (by decide), if_pos (by decide), PyM.bind_apply, getObj_ok h1 h2]
      dsimp only
      rw [h4, h5, PyM.bind_apply]
      rw [show PyM.lift (tupleGet [1, 1] ((positionsOf ["a", "a"] "a").getD 0 0)) w = (.ok (1 : Int), w) from rfl]
      dsimp only
      rw [PyM.bind_apply]
      rw [show PyM.lift (tupleGet [1, 1] ((positionsOf ["a", "a"] "a").getD 1 0)) w = (.ok (1 : Int), w) from rfl]
      dsimp only
      rw [PyM.bind_apply, getComponents_coords hm]
      dsimp only
      rw [PyM.bind_apply, getComponents_default ht]
      dsimp only
      rw [PyM.bind_apply]
      rw [show PyM.lift (contract E g a [(0, (((positionsOf ["a", "a"] "a").getD 0 0 : Nat) : Int)),
        (1, (((positionsOf ["a", "a"] "a").getD 1 0 : Nat) : Int))]) w = (.ok b, w) from by
          unfold PyM.lift; rw [← b1]; rfl]
      dsimp only
      rw [PyM.bind_apply, getObj_ok h1 h2]
      dsimp only
      rw [PyM.bind_apply, h3, h4, h5]
      unfold newTemp
      rw [show ((([1, 1] : List Int).zipIdx.filter fun p => p.2 != (positionsOf ["a", "a"] "a").getD 0 0 &&
        p.2 != (positionsOf ["a", "a"] "a").getD 1 0).map (·.1)) = [] from rfl, n1]
      rfl
    rw [PyM.bind_apply]
    unfold traceLoop
    rw [PyM.bind_apply, step]
    rfl
  · rw [show dropAxes ((([(0, 0), (1, 1)] : List (Nat × Nat))).map (·.1)) [0, 0] ++
      dropAxes ((([(0, 0), (1, 1)] : List (Nat × Nat))).map (·.2)) [0, 0] = [] from rfl] at b4
    rw [b4]
    show (List.map _ (tuples n 2)).sum = _
    rw [sum_map_tuples_succ]
    refine Finset.sum_congr rfl fun i _ => ?_
    rw [sum_map_tuples_succ]
    refine Finset.sum_congr rfl fun j _ => ?_
    simp [tuples, withAxes]

/-- What a product does: the components of each factor are those in its own default coordinate system. -/
theorem C26_product_code (hE : EngineOK E) {t u m c c' : Id'} {n : Nat} (hn : 0 < n) {a b : Arr K} {oc om : Obj K}
    (hc : w.objs[c]? = some oc) (hck : oc.kind = .coordinates) (hca : oc.alive = true)
    (hm : w.objs[m]? = some om) (hmk : om.kind = .metric)
    (ht : Declared E w t m c [1] a) (ha : a.shape = [n]) (hu : Declared E w u m c' [-1] b) (hb : b.shape = [n]) :
    Does (matmulTensors E ⟨.tensor, some t, ["a"]⟩ ⟨.tensor, some u, ["a"]⟩) w fun z w' =>
      ∃ v s, z = ⟨.tensor, some v, []⟩ ∧ Declared E w' v m c [] s ∧
        s.get [] = ∑ i ∈ range n, a.get [i] * b.get [i] := by
  obtain ⟨o, h1, h2, h3, h4, h5⟩ := declared_object ht
  obtain ⟨p, p1, p2, p3, p4, p5⟩ := declared_object hu
  obtain ⟨s, b1, b2, b3, b4, -⟩ := contract_spec E hE.simp_eq hn a b (r1 := 1) (r2 := 1) ha hb [(0, 0)]
    (by simp) (by simp) (by simp) (by simp)
  have b4 := b4 [0] [0] (by rw [ha]; exact .cons hn .nil) (by rw [hb]; exact .cons hn .nil)
  obtain ⟨w', n1, n2, -⟩ := newTensor_declared (E := E) (a := s) (ix := []) hm hmk hc hck hca b3 ⟨rfl, by simp⟩
    "TEMP" "T"
  have ga := ht.returns
  have gb := hu.returns
  refine ⟨⟨.tensor, some w.objs.length, []⟩, w', ?_, _, s, rfl, n2, ?_⟩
  · unfold matmulTensors
    have m1 : metricAttr ⟨.tensor, some t, ["a"]⟩ w = (.ok (some m), w) := by
      unfold metricAttr
      simp [h1, h2, h5]
    have m2 : metricAttr ⟨.tensor, some u, ["a"]⟩ w = (.ok (some m), w) := by
      unfold metricAttr
      simp [p1, p2, p5]
    have t1 : tensorOf ⟨.tensor, some t, ["a"]⟩ w = (.ok (t, o), w) := by
      unfold tensorOf
      dsimp only
      rw [PyM.bind_apply, getObj_ok h1 h2]
      rfl
    have t2 : tensorOf ⟨.tensor, some u, ["a"]⟩ w = (.ok (u, p), w) := by
      unfold tensorOf
      dsimp only
      rw [PyM.bind_apply, getObj_ok p1 p2]
      rfl
    rw [PyM.bind_apply, m1]
    dsimp only
    rw [PyM.bind_apply, m2]
    dsimp only
    rw [if_neg (by simp), PyM.bind_apply, t1]
    dsimp only
    rw [PyM.bind_apply, t2]
    dsimp only
    rw [if_neg (by rw [h4, p4]; simp), h3, h4, h5, p3, p4, PyM.bind_apply, ga]
    dsimp only
    rw [PyM.bind_apply, show PyM.lift (partnerIndices [1] ["a"] [-1] ["a"]) w = (.ok [-1], w) from rfl]
    dsimp only
    rw [PyM.bind_apply, gb]
    dsimp only
    rw [PyM.bind_apply, show PyM.lift (sharedPairs ["a"] ["a"]) w = (.ok [(0, 0)], w) from rfl]
    dsimp only
    rw [PyM.bind_apply, show PyM.lift (contract E a b [(0, 0)]) w = (.ok s, w) from by
      unfold PyM.lift; rw [← b1]; rfl]
    dsimp only
    unfold newTemp
    rw [show keptIndices [1] ["a"] (freeLabels ["a"] ["a"]) ++ keptIndices [-1] ["a"] (freeLabels ["a"] ["a"]) = []
      from rfl, PyM.bind_apply, n1]
    dsimp only
    exact calcInit_scalar n2 b3
  · rw [show dropAxes ((([(0, 0)] : List (Nat × Nat))).map (·.1)) [0] ++
      dropAxes ((([(0, 0)] : List (Nat × Nat))).map (·.2)) [0] = [] from rfl] at b4
    rw [b4]
    show (List.map _ (tuples n 1)).sum = _
    rw [sum_map_tuples_succ]
    refine Finset.sum_congr rfl fun i _ => ?_
    simp [tuples, withAxes]

/-- For the two witnesses: the plane in the systems (x, y) and (u, v), x = 2u, y = v, and the flat metric. -/
theorem Spec.twice_metric : ∃ w om oc oc', newMetric polyEngine (.val "Flat") (.val flat) 0 (.tuple [-1, -1])
      (.val "eta") (twoCharts ["x", "y"] ["u", "v"] rulesTwice) = (.ok 2, w) ∧
    w.objs.length = 3 ∧ w.objs[2]? = some om ∧ om.kind = .metric ∧ Known polyEngine w .metric 2 0 [-1, -1] flat ∧
    w.objs[0]? = some oc ∧ oc.kind = .coordinates ∧ oc.alive = true ∧ oc.syms = ["x", "y"] ∧
    oc.trans.get? 1 = some rulesTwice ∧
    w.objs[1]? = some oc' ∧ oc'.kind = .coordinates ∧ oc'.alive = true ∧ oc'.syms = ["u", "v"] := by
  have hargs : MetricArgsOK polyEngine (twoCharts ["x", "y"] ["u", "v"] rulesTwice) (.val "Flat") (.val flat) 0
      (.tuple [-1, -1]) (.val "eta") := by
    refine ⟨⟨_, rfl⟩, ⟨_, rfl⟩, Or.inl rfl, _, flat, rfl, rfl, rfl, rfl, rfl, ?_, polyEngine_det rfl flat_inverse⟩
    intro i j hi hj
    rw [flat_entry i j hi hj, flat_entry j i hj hi]
    simp [delta, eq_comm]
  obtain ⟨m, w1, h1, -, o, h2, h3, h4, h5, -⟩ :=
    (C20_metric_constructor polyEngine polyEngine_total _ _ _ _ _ _).1 hargs
  rcases newMetric_cases polyEngine (.val "Flat") flat 0 (.tuple [-1, -1]) (.val "eta")
      (twoCharts ["x", "y"] ["u", "v"] rulesTwice) with
    ⟨e, h⟩ | ⟨oc, -, -, -, -, -, -, ⟨e, -, h⟩ | ⟨b, -, h⟩⟩
  · rw [h1] at h; cases h
  · rw [h1] at h; cases h
  · rw [h1] at h
    cases h
    refine ⟨_, _, _, _, h1, rfl, rfl, rfl, ?_, rfl, rfl, rfl, rfl, rfl, rfl, rfl, rfl, rfl⟩
    exact known_of_stored (oc := _) rfl rfl rfl rfl rfl rfl rfl rfl rfl

theorem Spec.jacobian_twice : chartJacobian polyEngine ["x", "y"] ["u", "v"] rulesTwice 0 0 = 2 ∧
    chartJacobian polyEngine ["x", "y"] ["u", "v"] rulesTwice 1 0 = 0 := by
  have d1 : MvPolynomial.pderiv "u" (MvPolynomial.X "v" : Poly) = 0 := pderiv_X_ne (by decide)
  have h2 : ∀ s, MvPolynomial.pderiv s (2 : Poly) = 0 := fun s => by
    rw [show (2 : Poly) = MvPolynomial.C 2 from rfl, MvPolynomial.pderiv_C]
  constructor <;> simp [chartJacobian, ruleFor, rulesTwice, polyEngine, d1, h2]

/-- **C24** is false: the plane has the flat metric in (x, y), and the tensor `T` is given in (u, v), where
x = 2u, y = v.  `T("aa")` is computed with the components of the metric in (x, y), and is 1; with the components
of the metric in (u, v), it is 4. -/
theorem C24_false : ∃ (w : World Poly) (t : Id') (a : Arr Poly), Declared polyEngine w t 2 1 [1, 1] a ∧
    Known polyEngine w .metric 2 0 [-1, -1] flat ∧ Charts w 0 1 ["x", "y"] ["u", "v"] (some rulesTwice) ∧
    Does (calcInit polyEngine t ["a", "a"]) w fun z w' => ∃ u b, z = ⟨.tensor, some u, []⟩ ∧
      Declared polyEngine w' u 2 1 [] b ∧ b.get [] = 1 ∧
      ∑ i ∈ range 2, ∑ j ∈ range 2, transformed polyEngine 2
        (chartJacobian polyEngine ["x", "y"] ["u", "v"] rulesTwice) jinvTwice rulesTwice [-1, -1] flat.get [i, j] *
          a.get [i, j] = 4 := by
  obtain ⟨w, om, oc, oc', -, h2, h3, h4, h5, c1, c2, c3, c4, c5, d1, d2, d3, d4⟩ := twice_metric
  obtain ⟨w', n1, n2, o, ho⟩ := newTensor_declared (E := polyEngine) (a := ⟨[2, 2], [1, 0, 0, 0]⟩) (ix := [1, 1]) h3 h4 d1
    d2 d3 (by rw [d4]; rfl) ⟨rfl, by simp⟩ "T" "T"
  have hm : Known polyEngine w' .metric 2 0 [-1, -1] flat := by
    obtain ⟨p, d, k1, k2, k3, k4, k5, k6, k7⟩ := known_stored h5
    exact known_of_stored (by rw [ho]; exact getElem?_append_old k1) k2 k3 k4 k5 k6 k7
      (by rw [ho]; exact getElem?_append_old c1) c2
  refine ⟨w', _, _, n2, hm, ⟨⟨oc, by rw [ho]; exact getElem?_append_old c1, c2, c3, c4, c5⟩, oc',
    by rw [ho]; exact getElem?_append_old d1, d2, d3, d4⟩, ?_⟩
  obtain ⟨z, w'', e1, u, b, e2, e3, e4⟩ := C24_trace_code polyEngine_ok (n := 2) (by decide)
    (by rw [ho]; exact getElem?_append_old d1) d2 d3 n2 rfl hm rfl
  refine ⟨z, w'', e1, u, b, e2, e3, ?_, ?_⟩
  · rw [e4]
    simp [Finset.sum_range_succ, flat, Arr.get, ravel]
  · obtain ⟨j1, j2⟩ := jacobian_twice
    unfold transformed
    simp only [List.map_cons, List.map_nil, applyFactors_cons, applyFactors_nil]
    simp only [coordFactor, Finset.sum_range_succ, flat, Arr.get, ravel]
    simp [j1, j2]
    simp [substAll, rulesTwice, polyEngine]
    norm_num

/-- **C26** is false: `A` is given in (x, y) and `B` in (u, v), where x = 2u, y = v.  `A("a") @ B("a")`
multiplies the components of `A` in (x, y) with those of `B` in (u, v), and is 1; in (u, v) the product is 1/2. -/
theorem C26_false : ∃ (w : World Poly) (t u : Id') (a b : Arr Poly), Declared polyEngine w t 2 0 [1] a ∧
    Declared polyEngine w u 2 1 [-1] b ∧ Charts w 0 1 ["x", "y"] ["u", "v"] (some rulesTwice) ∧
    Does (matmulTensors polyEngine ⟨.tensor, some t, ["a"]⟩ ⟨.tensor, some u, ["a"]⟩) w fun z w' =>
      ∃ v s, z = ⟨.tensor, some v, []⟩ ∧ Declared polyEngine w' v 2 0 [] s ∧ s.get [] = 1 ∧
        ∑ i ∈ range 2, transformed polyEngine 2 (chartJacobian polyEngine ["x", "y"] ["u", "v"] rulesTwice)
          jinvTwice rulesTwice [1] a.get [i] * b.get [i] = MvPolynomial.C (1 / 2) := by
  obtain ⟨w, om, oc, oc', -, h2, h3, h4, h5, c1, c2, c3, c4, c5, d1, d2, d3, d4⟩ := twice_metric
  obtain ⟨w1, -, n2, o, ho⟩ := newTensor_declared (E := polyEngine) (a := ⟨[2], [1, 0]⟩) (ix := [1]) h3 h4 c1
    c2 c3 (by rw [c4]; rfl) ⟨rfl, by simp⟩ "A" "A"
  have c1' : w1.objs[0]? = some oc := by rw [ho]; exact getElem?_append_old c1
  have d1' : w1.objs[1]? = some oc' := by rw [ho]; exact getElem?_append_old d1
  have h3' : w1.objs[2]? = some om := by rw [ho]; exact getElem?_append_old h3
  obtain ⟨w2, -, p2, o2, ho2⟩ := newTensor_declared (E := polyEngine) (a := ⟨[2], [1, 0]⟩) (ix := [-1]) h3' h4 d1'
    d2 d3 (by rw [d4]; rfl) ⟨rfl, by simp⟩ "B" "B"
  have n3 := declared_append n2 ⟨o2, ho2⟩
  refine ⟨w2, _, _, _, _, n3, p2, ⟨⟨oc, by rw [ho2]; exact getElem?_append_old c1', c2, c3, c4, c5⟩, oc',
    by rw [ho2]; exact getElem?_append_old d1', d2, d3, d4⟩, ?_⟩
  obtain ⟨z, w'', e1, u, b, e2, e3, e4⟩ := C26_product_code polyEngine_ok (n := 2) (by decide)
    (by rw [ho2]; exact getElem?_append_old c1') c2 c3 (by rw [ho2]; exact getElem?_append_old h3') h4 n3 rfl p2 rfl
  refine ⟨z, w'', e1, u, b, e2, e3, ?_, ?_⟩
  · rw [e4]
    simp [Finset.sum_range_succ, Arr.get, ravel]
  · unfold transformed
    simp only [List.map_cons, List.map_nil, applyFactors_cons, applyFactors_nil]
    simp only [coordFactor, Finset.sum_range_succ, Arr.get, ravel]
    simp [jinvTwice]
    simp [substAll, rulesTwice, polyEngine]

end PyOGRe
