import Verif.Lemmas.Norm
import Verif.Props.Curvature

/-!
# The norm of a tensor: C40
-/

namespace PyOGRe
open Spec Finset
variable {K : Type} [CommRing K] [DecidableEq K] [Algebra ℚ K] {E : Engine K} {G : Ground K} {V : View K}
  {w : World K} {D : TField K}

/-- **C40** (when no registered object has the name of the result): the norm of a tensor of any rank and
configuration is its full contraction with itself, a scalar, and nothing else happens. -/
theorem C40_norm_partial (hE : EngineOK E) (hS : Scene G V w) {t : Id'} (ht : V t = some D)
    (hn : D.name ≠ "TEMP") (hc : D.coords = G.c)
    (hN : ∀ i ∈ w.instances, ∀ o, w.objs[i]? = some o → o.name ≠ D.name ++ " Norm Squared") :
    Yields G V w (calcNormSquared E t) fun D' => D'.name = D.name ++ " Norm Squared" ∧ D'.ix = [] ∧
      D'.val [] = ((tuples G.n D.ix.length).map fun J => D.val J * D.comp G (D.ix.map fun p => -p) J).sum := by
  refine Does.mono (does_normSquared hE.simp_eq hS ht hn hc hN) ?_
  rintro r w' ⟨V', D', h1, h2, h3, h4, h5, h6, h7, h8, h9⟩
  exact ⟨V', D', h1, h2, h3, h4, h5, h6, h7, h8, h9⟩

/-- The norm of the metric is the dimension. -/
theorem C40_metric (hE : EngineOK E) (hS : Scene G V w) (hm : LowerMetric G V D)
    (hN : ∀ i ∈ w.instances, ∀ o, w.objs[i]? = some o → o.name ≠ D.name ++ " Norm Squared") :
    Yields G V w (calcNormSquared E G.m) fun D' => D'.name = D.name ++ " Norm Squared" ∧ D'.ix = [] ∧
      D'.val [] = G.n := by
  refine Does.mono (C40_norm_partial hE hS hm.view hm.name hm.coords hN) ?_
  rintro r w' ⟨V', D', h1, h2, h3, h4, h5, h6, h7, h8, h9⟩
  refine ⟨V', D', h1, h2, h3, h4, h5, h6, h7, h8, h9.trans ?_⟩
  obtain ⟨-, -, hc⟩ := scene_metric_comp hS hm.view
  exact metric_norm hS.inverse hS.symm hm.ix (fun i j hi hj => (hc i j hi hj).1) fun i j hi hj => (hc i j hi hj).2.1

/-- The norm is looked up by name, whatever the object of that name is. -/
theorem C40_found_by_name {t r : Id'} {o : Obj K} (h1 : w.objs[t]? = some o) (h2 : o.alive = true)
    (h3 : findByName (o.name ++ " Norm Squared") w = (.ok (some r), w)) : calcNormSquared E t w = (.ok r, w) := by
  unfold calcNormSquared
  rw [PyM.bind_apply, getObj_ok h1 h2]
  exact unlessNamed_found h3

/-- **C40** is false: of two tensors with the same name, here the metric of a three-dimensional space and the
scalar 0, the second one gets the norm of the first one. -/
theorem C40_false : ∃ (E : Engine Poly) (w : World Poly), EngineOK E ∧
    Does (do
      let r ← calcNormSquared E 1
      let comps ← getComponents E r none none
      let t ← newTensor .tensor (.val "Nil") (.val (Arr.scalar 0)) 1 0 (.tuple []) (.val "s")
      let r' ← calcNormSquared E t
      return (r, r', comps)) w fun (r, r', comps) _ => r' = r ∧ comps.get [] = 3 := by
  obtain ⟨G, V, w, h1, h2, hm, h3, h4, -⟩ := curved
  have hNm : ∀ i ∈ w.instances, ∀ o, w.objs[i]? = some o → o.name ≠ "Nil Norm Squared" := by
    intro i hi o ho hn
    rcases h4 i hi o ho with h | h <;> rw [h] at hn <;> exact absurd hn (by decide)
  refine ⟨polyEngine, w, polyEngine_ok, ?_⟩
  have hc := C40_metric polyEngine_ok h1 h3 hNm
  rw [hm] at hc
  refine Does.bind hc ?_
  rintro r w1 ⟨V1, D, e1, e2, e3, e4, e5, e6, e7, e8, e9⟩
  have hf1 := named_new e1 e3 e4.2.1 e5 e7 (by decide) hNm
  refine Does.bind (scene_getDefault polyEngine_ok.simp_eq e1 e5 e6) ?_
  rintro comps w2 ⟨k1, k2, k3⟩
  have hval : comps.get [] = 3 := by
    rw [k3.2.2 [] (by rw [e8]; rfl) (by simp), e9, h2]; rfl
  have hf2 := frame_findByName k2 hf1
  obtain ⟨oc, c1, c2, c3, c4⟩ := k1.chart
  obtain ⟨Dm, om, m1, m2, m3, -⟩ := k1.metric
  rw [show G.c = 0 from h3.coords.symm] at c1
  rw [hm] at m2
  obtain ⟨t, w3, n1⟩ := newTensor_iff.1 (show TensorArgsOK w2 (.val "Nil") (.val (Arr.scalar (0 : Poly))) 1 0
      (.tuple []) (.val "s") from ⟨⟨_, rfl⟩, ⟨_, rfl⟩, ⟨om, m2, m3⟩, oc, _, c1, c2, c3, rfl, by simp [Arr.scalar],
        Or.inr ⟨[], rfl, rfl, by simp⟩⟩)
  have n2 : w3 = { w2 with objs := w2.objs ++ [freshObj .tensor "Nil" "s" [] 0 1 [([], Arr.scalar 0)]],
                           instances := w2.instances ++ [w2.objs.length] } ∧ t = w2.objs.length := by
    rcases newTensor_cases .tensor (.val "Nil") (Arr.scalar (0 : Poly)) 1 0 (.tuple []) (.val "s") w2 with
      ⟨e, he⟩ | ⟨_, _, -, -, -, -, -, -, h7⟩
    · rw [n1] at he; cases he
    · rw [n1] at h7; cases h7; exact ⟨rfl, rfl⟩
  obtain ⟨rfl, rfl⟩ := n2
  have hlast := findByName_append (w' := { w2 with
      objs := w2.objs ++ [freshObj .tensor "Nil" "s" [] 0 1 [([], Arr.scalar 0)]]
      instances := w2.instances ++ [w2.objs.length] }) k1.registry rfl rfl hf2
  refine Does.bind (Q := fun m' w' => m' = w2.objs.length ∧ w' = _) ⟨_, _, n1, rfl, rfl⟩ ?_
  rintro m' w3' ⟨rfl, rfl⟩
  exact Does.step (C40_found_by_name (getElem?_append_length _ _) rfl hlast) (Does.pure ⟨rfl, hval⟩)

/-- C40: a tensor of rank 2 in a three-dimensional space meets the hypotheses. -/
example : ∃ (G : Ground Poly) (V : View Poly) (w : World Poly) (D : TField Poly), Scene G V w ∧ V G.m = some D ∧
    D.name ≠ "TEMP" ∧ D.coords = G.c ∧ D.ix = [-1, -1] ∧ G.n = 3 ∧ LowerMetric G V D ∧
    ∀ i ∈ w.instances, ∀ o, w.objs[i]? = some o → o.name ≠ D.name ++ " Norm Squared" := by
  obtain ⟨G, V, w, h1, h2, hm, h3, h4, -⟩ := curved
  refine ⟨G, V, w, _, h1, h3.view, h3.name, h3.coords, rfl, h2, h3, ?_⟩
  intro i hi o ho hn
  rcases h4 i hi o ho with h | h <;> rw [h] at hn <;> exact absurd hn (by decide)

end PyOGRe
