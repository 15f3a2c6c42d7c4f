import Verif.Lemmas.Lowered
import Verif.Spec.Shear

/-!
# Christoffel symbols in new coordinates: C41
-/

namespace PyOGRe
open Spec Finset
variable {K : Type} [CommRing K] {E : Engine K}

/-- **C41** for the default configuration: whatever has happened before, the first request for Christoffel symbols
in new coordinates gives `Γ'^a_{bc} = J⁻¹^a_l (J^m_b J^n_c Γ^l_{mn} + ∂²x^l/∂u^b∂u^c)`.  An old coordinate without
a rule has to be the new one at the same place.  It is assumed that the order of substitutions does not matter. -/
theorem C41_law_partial (hE : EngineOK E) (hT : EngineTotal E) (hw : SwapOK E) {w : World K} {t c c' : Id'} {b : Arr K}
    {n : Nat} (hn : 0 < n) {old new : List Sym} {rules : List (Option (Sym × K))}
    (hk : Known E w .christoffel t c [1, -1, -1] b) (hb : b.shape = [n, n, n]) (hu : Unseen w t c')
    (hch : Charts w c c' old new (some rules)) (hold : old.length = n) (hnew : new.length = n) (ho : old.Nodup)
    (hR : ChartRules E old new rules) (hs : NoStale E w) {Jinv : Nat → Nat → K}
    (hI : Inverse n (chartJacobian E old new rules) Jinv) :
    ∃ b' w', getComponents E t (some c') (some [1, -1, -1]) w = (.ok b', w') ∧ b'.shape = [n, n, n] ∧
      ∀ i j k, i < n → j < n → k < n → b'.get [i, j, k] = christoffelLaw E n (chartJacobian E old new rules) Jinv
        (chartJacobian2 E old new rules) rules b.get i j k :=
  christoffel_first hE hT hw hn hk rfl hb hu hch hold hnew ho hR hs hI

/-- **C41** is false for other configurations: those that were not requested in the old coordinates before raise
`KeyError`... -/
theorem C41_refused (hE : EngineOK E) (hT : EngineTotal E) {w : World K} {t c c' : Id'} {o : Obj K}
    {d : Dict (List Int) (Arr K)} {n : Nat} (hn : 0 < n) {old new : List Sym} {rules : List (Option (Sym × K))}
    {ix : List Int} (hix : Config o.indices.length ix) (ho : w.objs[t]? = some o) (hal : o.alive = true)
    (hk : o.kind = .christoffel) (hoc : o.coords = c) (hd : o.comps.get? c = some d) (hno : d.get? ix = none)
    (hu : Unseen w t c') (hch : Charts w c c' old new (some rules)) (hold : old.length = n) (hnew : new.length = n)
    (hg : GoodRules rules) (hs : NoStale E w) {Jinv : Nat → Nat → K}
    (hI : Inverse n (chartJacobian E old new rules) Jinv) :
    (getComponents E t (some c') (some ix) w).1 = .error .keyError := by
  obtain ⟨jj, e⟩ := calculateJacobian_total hE hT hn hold hnew hg hI
  have hj := noStale_used hs hch e
  obtain ⟨⟨oc, c1, c2, c3, c4, c5⟩, oc', c1', c2', c3', c4'⟩ := hch
  have hj' : UsedJacobians E oc oc' c' rules jj := by
    unfold cachedJacobian at hj
    rw [c1] at hj
    rw [← c4, ← c4'] at hj
    exact hj
  exact christoffel_missing ho hal hk hoc hd hno (hu o ho) (validateIndices_config hix rfl) c1 c3 c2 c1' c3' c2' c5 hj'

/-- The plane, with `x = u + v²`, `y = v`: the hypotheses of both theorems. -/
example : ∃ (w : World Poly) (t : Id') (o : Obj Poly) (d : Dict (List Int) (Arr Poly)) (b : Arr Poly),
    Known polyEngine w .christoffel t 0 [1, -1, -1] b ∧ b.shape = [2, 2, 2] ∧ w.objs[t]? = some o ∧ o.alive = true ∧
    Config o.indices.length [-1, -1, -1] ∧ o.kind = .christoffel ∧ o.coords = 0 ∧ o.comps.get? 0 = some d ∧
    d.get? [-1, -1, -1] = none ∧ Unseen w t 1 ∧ Charts w 0 1 ["x", "y"] ["u", "v"] (some rules01) ∧ NoStale polyEngine w ∧
    ChartRules polyEngine ["x", "y"] ["u", "v"] rules01 ∧
    Inverse 2 (chartJacobian polyEngine ["x", "y"] ["u", "v"] rules01) shearInv := by
  refine ⟨shearWorld, 2, _, _, Arr.ofFn [2, 2, 2] fun _ => 0, ⟨⟨_, rfl, rfl, rfl⟩, rfl⟩, rfl, rfl, rfl, ⟨rfl, by decide⟩, rfl, rfl, rfl,
    rfl, ?_, ⟨⟨_, rfl, rfl, rfl, rfl, rfl⟩, _, rfl, rfl, rfl, rfl⟩, shearWorld_fresh, chartRules_full flat_rules (by decide), shear_inverse⟩
  intro o ho
  cases ho
  rfl

variable [DecidableEq K] [Algebra ℚ K] {G : Ground K} {V : View K} {w : World K} {C : Curves K} {Dm : TField K}

/-- What is returned in the new coordinates are the Christoffel symbols of the metric in the new coordinates: its
components are transformed by the law of tensors (C13), and then the formula of C35 is used with the new coordinates. -/
theorem C41_levi_civita_partial (hE : EngineOK E) (hT : EngineTotal E) (hw : SwapOK E) (hC : Calculus E)
    (hs : SubstOK E C) (hS : Scene G V w) (hm : LowerMetric G V Dm) (hQ : NamesOK E G V w Dm.name)
    (hN : NotNamed w (Dm.name ++ " Christoffel")) (hst : NoStale E w)
    {c' : Id'} {new : List Sym} {rules : List (Option (Sym × K))} (hch : Charts w G.c c' G.syms new (some rules))
    (hcc : c' ≠ G.c) (hct : ∀ o, w.objs[c']? = some o → o.name ≠ "TEMP") (ho : G.syms.Nodup) (hnew : new.length = G.n)
    (hf : FreshNames E G new) (hR : ChartRules E G.syms new rules) {Jinv : Nat → Nat → K}
    (hI : Inverse G.n (chartJacobian E G.syms new rules) Jinv) :
    Does (do
      let r ← calcChristoffel E G.m
      getComponents E r (some c') none) w fun b _ => b.shape = [G.n, G.n, G.n] ∧
        ∀ i j k, i < G.n → j < G.n → k < G.n →
          b.get [i, j, k] = christoffel E (G.moved E c' new rules Jinv) i j k := by
  obtain ⟨om, hom, hsh⟩ := hS.shows _ _ hm.view
  refine Does.bind (first_ready (provides_christoffel hE.simp_eq hS hm hQ) (Safe.calcChristoffel _) (fun r w' e =>
    named_single (suffix := " Christoffel") (endsSingle_christoffel _) hom (by rw [hsh.name]; exact hN) e) hst hch hcc hct) ?_
  rintro r w' ⟨V', D, o, b, h1, h2, h3, h4, h5, h6, h7, h8, h9, h10⟩
  obtain ⟨b', w'', e1, e2, e3⟩ := christoffel_first hE hT hw h1.pos h6 rfl h7.2.1 h8.1 h9 h1.dim hnew ho hR h10 hI
  refine ⟨b', w'', by rw [getComponents_noConfig h3 h4, h5]; exact e1, e2, fun i j k hi hj hk => ?_⟩
  obtain ⟨φ, hφ⟩ := change hs hC hS.dim hnew ho hR hI
  rw [e3 i j k hi hj hk, christoffel_moved hφ hC hI hS.inverse hS.symm hf.metric hnew c' hi hj hk]
  unfold christoffelLaw
  congr 2
  exact applyFactors_congr _ _ _ fun s hs1 hs2 => (h7.2.2 s hs1 hs2).trans rfl

/-- The plane with `x = u + v²`, `y = v`: `Γ^u_vv = 2`. -/
example : ∃ (G : Ground Poly) (V : View Poly), Scene G V flatWorld ∧ Does (do
    let r ← calcChristoffel polyEngine G.m
    getComponents polyEngine r (some 1) none) flatWorld fun b _ => b.shape = [2, 2, 2] ∧ b.get [0, 1, 1] = 2 := by
  obtain ⟨G, V, Dm, h1, h2, h3, h4, h5, h6, h7, h8, h9, h10, h11, h12, h13, h14, h15⟩ := flat_moved
  refine ⟨G, V, h1, Does.mono (C41_levi_civita_partial polyEngine_ok polyEngine_total polyEngine_swap polyEngine_calculus
    polyEngine_subst h1 h6 h8 (h9 " Christoffel" (by decide) (by decide) (by decide)) h10 h11 (by rw [h3]; decide) h12
    (by rw [h4]; decide) (by rw [h2]; rfl) h13 h14 h15) ?_⟩
  rintro b - ⟨k1, k2⟩
  rw [h2] at k1
  refine ⟨k1, ?_⟩
  obtain ⟨φ, hφ⟩ := change polyEngine_subst polyEngine_calculus h1.dim (by rw [h2]; rfl) (by rw [h4]; decide) h14 h15
  rw [k2 0 1 1 (by omega) (by omega) (by omega), christoffel_moved hφ polyEngine_calculus h15 h1.inverse h1.symm h13.metric
    (by rw [h2]; rfl) 1 (by omega) (by omega) (by omega), flat_law h2 h4 h5 (by omega) (by omega)]
  simp only [shearInv, delta, substAll01]
  simp [show tau01 2 = 2 from tau01_C 2]

/-- ... and **C41** is false for those that were requested before: what is returned for the lowered symbols are the
lowered symbols of the metric in the new coordinates and another term, which vanishes only if the Jacobian is an isometry
or the rules are linear. -/
theorem C41_lowered (hE : EngineOK E) (hT : EngineTotal E) (hw : SwapOK E) (hC : Calculus E)
    (hs : SubstOK E C) (hS : Scene G V w) (hm : LowerMetric G V Dm) (hQ : NamesOK E G V w Dm.name)
    (hN : NotNamed w (Dm.name ++ " Christoffel")) (hst : NoStale E w)
    {c' : Id'} {new : List Sym} {rules : List (Option (Sym × K))} (hch : Charts w G.c c' G.syms new (some rules))
    (hcc : c' ≠ G.c) (hct : ∀ o, w.objs[c']? = some o → o.name ≠ "TEMP") (ho : G.syms.Nodup) (hnew : new.length = G.n)
    (hf : FreshNames E G new) (hR : ChartRules E G.syms new rules) {Jinv : Nat → Nat → K}
    (hI : Inverse G.n (chartJacobian E G.syms new rules) Jinv) :
    Does (do
      let r ← calcChristoffel E G.m
      let _ ← getComponents E r (some G.c) (some [-1, -1, -1])
      getComponents E r (some c') (some [-1, -1, -1])) w fun b _ => b.shape = [G.n, G.n, G.n] ∧
        ∀ i j k, i < G.n → j < G.n → k < G.n → b.get [i, j, k] =
          ∑ s ∈ range G.n, (G.moved E c' new rules Jinv).g i s * christoffel E (G.moved E c' new rules Jinv) s j k +
          substAll E rules (∑ l ∈ range G.n, (Jinv i l - ∑ m ∈ range G.n, chartJacobian E G.syms new rules m i * G.g m l) *
            chartJacobian2 E G.syms new rules l j k) := by
  obtain ⟨om, hom, hsh⟩ := hS.shows _ _ hm.view
  refine Does.bind (first_ready (provides_christoffel hE.simp_eq hS hm hQ) (Safe.calcChristoffel _) (fun r w' e =>
    named_single (suffix := " Christoffel") (endsSingle_christoffel _) hom (by rw [hsh.name]; exact hN) e) hst hch hcc hct) ?_
  rintro r w1 ⟨V', D, o, b, h1, h2, h3, h4, h5, h6, h7, h8, h9, h10⟩
  refine Does.bind (lowered_ready hE h1 h2 h3 h6.object h8.1 h9 h10) ?_
  rintro - w2 ⟨b', k1, k2, k3, k4, k5, k6⟩
  obtain ⟨b'', w'', e1, e2, e3⟩ := christoffel_first hE hT hw k1.pos k2 rfl k3.2.1 k4 k5 k1.dim hnew ho hR k6 hI
  refine ⟨b'', w'', e1, e2, fun i j k hi hj hk => ?_⟩
  obtain ⟨φ, hφ⟩ := change hs hC hS.dim hnew ho hR hI
  rw [e3 i j k hi hj hk, applyFactors_congr _ _ [i, j, k] fun s hs1 hs2 => k3.2.2 s hs1 hs2,
    lowered_law hφ hI c' (christoffelComps E G) hi hj hk]
  congr 1
  refine sum_congr rfl fun s hs => ?_
  rw [christoffel_moved hφ hC hI hS.inverse hS.symm hf.metric hnew c' (mem_range.1 hs) hj hk]
  rfl

/-- **C41** is false: in the plane with `x = u + v²`, `y = v` the lowered symbol `Γ_vvv` is wrong by `-4v`. -/
theorem C41_false : ∃ (G : Ground Poly) (V : View Poly) (Dm : TField Poly) (Jinv : Nat → Nat → Poly),
    Scene G V flatWorld ∧ LowerMetric G V Dm ∧ Charts flatWorld G.c 1 G.syms ["u", "v"] (some rules01) ∧
    Inverse G.n (chartJacobian polyEngine G.syms ["u", "v"] rules01) Jinv ∧
    Does (do
      let r ← calcChristoffel polyEngine G.m
      let _ ← getComponents polyEngine r (some G.c) (some [-1, -1, -1])
      getComponents polyEngine r (some 1) (some [-1, -1, -1])) flatWorld fun b _ => b.get [1, 1, 1] ≠
        ∑ s ∈ range G.n, (G.moved polyEngine 1 ["u", "v"] rules01 Jinv).g 1 s *
          christoffel polyEngine (G.moved polyEngine 1 ["u", "v"] rules01 Jinv) s 1 1 := by
  obtain ⟨G, V, Dm, h1, h2, h3, h4, h5, h6, h7, h8, h9, h10, h11, h12, h13, h14, h15⟩ := flat_moved
  refine ⟨G, V, Dm, shearInv, h1, h6, h11, h15, Does.mono (C41_lowered polyEngine_ok polyEngine_total polyEngine_swap
    polyEngine_calculus polyEngine_subst h1 h6 h8 (h9 " Christoffel" (by decide) (by decide) (by decide)) h10 h11
    (by rw [h3]; decide) h12 (by rw [h4]; decide) (by rw [h2]; rfl) h13 h14 h15) ?_⟩
  rintro b - ⟨-, k2⟩
  rw [k2 1 1 1 (by omega) (by omega) (by omega)]
  intro h
  have h0 := add_eq_left.1 h
  rw [h2, h4, sum_range_succ, sum_range_succ, sum_range_zero, sum_range_succ, sum_range_succ, sum_range_zero, sum_range_succ,
    sum_range_succ, sum_range_zero, shear_second 0 1 1 (by omega) (by omega) (by omega),
    shear_second 1 1 1 (by omega) (by omega) (by omega), jac01 0 1 (by omega) (by omega), jac01 1 1 (by omega) (by omega),
    h5 0 0 (by omega) (by omega), h5 1 0 (by omega) (by omega)] at h0
  simp [shearInv, delta, substAll01, tau01_v, show tau01 2 = 2 from tau01_C 2] at h0

/-- The plane. -/
example : ∃ (G : Ground Poly) (V : View Poly) (Dm : TField Poly), Scene G V flatWorld ∧ LowerMetric G V Dm ∧
    NamesOK polyEngine G V flatWorld Dm.name ∧ NotNamed flatWorld (Dm.name ++ " Christoffel") ∧ NoStale polyEngine flatWorld ∧
    Charts flatWorld G.c 1 G.syms ["u", "v"] (some rules01) ∧ FreshNames polyEngine G ["u", "v"] ∧
    ChartRules polyEngine G.syms ["u", "v"] rules01 ∧
    Inverse G.n (chartJacobian polyEngine G.syms ["u", "v"] rules01) shearInv := by
  obtain ⟨G, V, Dm, h1, h2, h3, h4, h5, h6, h7, h8, h9, h10, h11, h12, h13, h14, h15⟩ := flat_moved
  exact ⟨G, V, Dm, h1, h6, h8, h9 " Christoffel" (by decide) (by decide) (by decide), h10, h11, h13, h14, h15⟩

end PyOGRe
