import Verif.Lemmas.NewCurvature
import Verif.Lemmas.Lowered
import Verif.Spec.Bent

/-!
# Curvature in new coordinates: C72
-/

namespace PyOGRe
open Spec Finset
variable {K : Type} [CommRing K] [DecidableEq K] [Algebra ℚ K] {E : Engine K} {G : Ground K} {V : View K} {w : World K}
  {C : Curves K} {Dm : TField K}

omit [DecidableEq K] in
/-- **C72** A tensor with the components of the Riemann, Ricci, Einstein or Weyl tensor or the curvature scalar of a
metric that is requested in new coordinates for the first time: what is returned are the components of the tensor that
belongs to the metric in the new coordinates.  An old coordinate without a rule has to be the new one at the same place. -/
theorem C72_first_partial (hE : EngineOK E) (hT : EngineTotal E) (hC : Calculus E) (hs : SubstOK E C) (hS : Scene G V w)
    {q : Quantity} (hq : q ≠ .christoffel) {t c' : Id'} {b : Arr K} (hk : Known E w .tensor t G.c q.ix b)
    (hb : Agree G.n q.ix.length b (q.comps E G)) (hu : Unseen w t c') (hnat : Native w t G.c)
    (hst : NoStale E w)
    {new : List Sym} {rules : List (Option (Sym × K))} (hch : Charts w G.c c' G.syms new (some rules))
    (ho : G.syms.Nodup) (hnew : new.length = G.n)
    (hf : FreshNames E G new) (hR : ChartRules E G.syms new rules) {Jinv : Nat → Nat → K}
    (hI : Inverse G.n (chartJacobian E G.syms new rules) Jinv) :
    Does (getComponents E t (some c') (some q.ix)) w fun b' _ =>
      Agree G.n q.ix.length b' (q.comps E (G.moved E c' new rules Jinv)) := by
  obtain ⟨b', w', e, h1, h2, h3⟩ := tensor_first hE hT hS.pos hk hb.2.1 hu hnat hch hS.dim hnew hR.once hst hI
  refine ⟨b', w', e, h1, h2, fun I hl hlt => (h3 I hl hlt).trans ?_⟩
  obtain ⟨φ, hφ⟩ := change hs hC hS.dim hnew ho hR hI
  rw [← quantity_moved hφ hC hI hS.inverse hS.symm hf.metric hnew c' hq hl hlt]
  unfold transformed
  congr 1
  exact applyFactors_congr _ _ _ fun s hs1 hs2 => hb.2.2 s (hs1.trans hl) hs2

theorem curvature_session (hE : EngineOK E) (hT : EngineTotal E) (hC : Calculus E) (hs : SubstOK E C) (hS : Scene G V w)
    {q : Quantity} (hq : q ≠ .christoffel) {f : PyM K Id'}
    (hP : Provides E G V w Dm.name f q) (hsafe : Safe E f) (hsingle : ∀ r w', f w = (.ok r, w') → Single w' r)
    (hst : NoStale E w) {c' : Id'} {new : List Sym} {rules : List (Option (Sym × K))}
    (hch : Charts w G.c c' G.syms new (some rules)) (hcc : c' ≠ G.c) (hct : ∀ o, w.objs[c']? = some o → o.name ≠ "TEMP")
    (ho : G.syms.Nodup) (hnew : new.length = G.n)
    (hf : FreshNames E G new) (hR : ChartRules E G.syms new rules) {Jinv : Nat → Nat → K}
    (hI : Inverse G.n (chartJacobian E G.syms new rules) Jinv) :
    Does (do
      let r ← f
      getComponents E r (some c') none) w fun b' _ =>
        Agree G.n q.ix.length b' (q.comps E (G.moved E c' new rules Jinv)) := by
  refine Does.bind (first_ready hP hsafe hsingle hst hch hcc hct) ?_
  rintro r w' ⟨V', D, o, b, h1, h2, h3, h4, h5, h6, h7, h8, h9, h10⟩
  have hk : q.kind = .tensor := by cases q <;> first | rfl | exact absurd rfl hq
  rw [hk] at h6
  obtain ⟨b', w'', e, e'⟩ := C72_first_partial hE hT hC hs h1 hq h6 h7 h8.1 h8.2 h10 h9 ho hnew hf hR hI
  exact ⟨b', w'', by rw [getComponents_noConfig h3 h4, h5]; exact e, e'⟩

/-- **C72** The curvature of a metric that is computed for the first time and requested in new coordinates is the
curvature of the metric in the new coordinates (C13 gives its components): for the Riemann and Ricci tensors, the curvature
scalar and the Einstein tensor. -/
theorem C72_sessions_partial (hE : EngineOK E) (hT : EngineTotal E) (hC : Calculus E) (hs : SubstOK E C) (hS : Scene G V w)
    (hm : LowerMetric G V Dm) (hQ : NamesOK E G V w Dm.name) (hst : NoStale E w)
    {c' : Id'} {new : List Sym} {rules : List (Option (Sym × K))} (hch : Charts w G.c c' G.syms new (some rules))
    (hcc : c' ≠ G.c) (hct : ∀ o, w.objs[c']? = some o → o.name ≠ "TEMP") (ho : G.syms.Nodup) (hnew : new.length = G.n)
    (hf : FreshNames E G new) (hR : ChartRules E G.syms new rules) {Jinv : Nat → Nat → K}
    (hI : Inverse G.n (chartJacobian E G.syms new rules) Jinv) :
    (NotNamed w (Dm.name ++ " Riemann") → Does (do
      let r ← calcRiemann E G.m
      getComponents E r (some c') none) w fun b _ => b.shape = [G.n, G.n, G.n, G.n] ∧
        ∀ i j k l, i < G.n → j < G.n → k < G.n → l < G.n →
          b.get [i, j, k, l] = riemann E (G.moved E c' new rules Jinv) i j k l) ∧
    (NotNamed w (Dm.name ++ " Ricci Tensor") → Does (do
      let r ← calcRicci E G.m
      getComponents E r (some c') none) w fun b _ => b.shape = [G.n, G.n] ∧
        ∀ i j, i < G.n → j < G.n → b.get [i, j] = ricci E (G.moved E c' new rules Jinv) i j) ∧
    (NotNamed w (Dm.name ++ " Ricci Scalar") → Does (do
      let r ← calcScalar E G.m
      getComponents E r (some c') none) w fun b _ => b.shape = [] ∧
        b.get [] = scalarCurvature E (G.moved E c' new rules Jinv)) ∧
    (NotNamed w (Dm.name ++ " Einstein") → Does (do
      let r ← calcEinstein E G.m
      getComponents E r (some c') none) w fun b _ => b.shape = [G.n, G.n] ∧
        ∀ i j, i < G.n → j < G.n → b.get [i, j] = einstein E (G.moved E c' new rules Jinv) i j) := by
  obtain ⟨om, hom, hsh⟩ := hS.shows _ _ hm.view
  refine ⟨fun hN => ?_, fun hN => ?_, fun hN => ?_, fun hN => ?_⟩ <;> rw [← hsh.name] at hN
  · refine Does.mono (curvature_session hE hT hC hs hS (q := .riemann) (by decide) (provides_riemann hE.simp_eq hS hm hQ)
      (Safe.calcRiemann _) (fun r w' e => named_single (suffix := " Riemann") (endsSingle_bind fun _ => endsSingle_riemann _ _)
        hom hN e) hst hch hcc hct ho hnew hf hR hI) ?_
    rintro b - ⟨-, h1, h2⟩
    exact ⟨h1, fun i j k l hi hj hk hl => h2 [i, j, k, l] rfl (by simp [hi, hj, hk, hl])⟩
  · refine Does.mono (curvature_session hE hT hC hs hS (q := .ricci) (by decide) (provides_ricci hE.simp_eq hS hm hQ)
      (Safe.calcRicci _) (fun r w' e => named_single (suffix := " Ricci Tensor") (endsSingle_bind fun _ => endsSingle_ricci _ _)
        hom hN e) hst hch hcc hct ho hnew hf hR hI) ?_
    rintro b - ⟨-, h1, h2⟩
    exact ⟨h1, fun i j hi hj => h2 [i, j] rfl (by simp [hi, hj])⟩
  · refine Does.mono (curvature_session hE hT hC hs hS (q := .scalar) (by decide) (provides_scalar hE.simp_eq hS hm hQ)
      (Safe.calcScalar _) (fun r w' e => named_single (suffix := " Ricci Scalar") (endsSingle_bind fun _ => endsSingle_scalar _ _)
        hom hN e) hst hch hcc hct ho hnew hf hR hI) ?_
    rintro b - ⟨-, h1, h2⟩
    exact ⟨h1, h2 [] rfl (by simp)⟩
  · refine Does.mono (curvature_session hE hT hC hs hS (q := .einstein) (by decide) (provides_einstein hE.simp_eq hS hm hQ)
      (Safe.calcEinstein _) (fun r w' e => named_single (suffix := " Einstein")
        (endsSingle_bind fun _ => endsSingle_bind fun _ => endsSingle_einstein _ _ _)
        hom hN e) hst hch hcc hct ho hnew hf hR hI) ?_
    rintro b - ⟨-, h1, h2⟩
    exact ⟨h1, fun i j hi hj => h2 [i, j] rfl (by simp [hi, hj])⟩

/-- The plane with `x = u + v²`, `y = v`. -/
example : ∃ (G : Ground Poly) (V : View Poly) (Dm : TField Poly), Scene G V flatWorld ∧ LowerMetric G V Dm ∧
    NamesOK polyEngine G V flatWorld Dm.name ∧ NoStale polyEngine flatWorld ∧
    Charts flatWorld G.c 1 G.syms ["u", "v"] (some rules01) ∧ 1 ≠ G.c ∧ (∀ o, flatWorld.objs[1]? = some o → o.name ≠ "TEMP") ∧
    G.syms.Nodup ∧ FreshNames polyEngine G ["u", "v"] ∧ ChartRules polyEngine G.syms ["u", "v"] rules01 ∧
    Inverse G.n (chartJacobian polyEngine G.syms ["u", "v"] rules01) shearInv ∧
    NotNamed flatWorld (Dm.name ++ " Riemann") ∧ NotNamed flatWorld (Dm.name ++ " Ricci Tensor") ∧
    NotNamed flatWorld (Dm.name ++ " Ricci Scalar") ∧ NotNamed flatWorld (Dm.name ++ " Einstein") := by
  obtain ⟨G, V, Dm, h1, h2, h3, h4, h5, h6, h7, h8, h9, h10, h11, h12, h13, h14, h15⟩ := flat_moved
  exact ⟨G, V, Dm, h1, h6, h8, h10, h11, by rw [h3]; decide, h12, by rw [h4]; decide, h13, h14, h15,
    h9 _ (by decide) (by decide) (by decide), h9 _ (by decide) (by decide) (by decide),
    h9 _ (by decide) (by decide) (by decide), h9 _ (by decide) (by decide) (by decide)⟩

/-- **C72** The same for the Weyl tensor, in at least three dimensions. -/
theorem C72_weyl_partial (hE : EngineOK E) (hT : EngineTotal E) (hC : Calculus E) (hs : SubstOK E C) (hS : Scene G V w)
    (hm : LowerMetric G V Dm) (hQ : NamesOK E G V w Dm.name) (hst : NoStale E w) (hn : 2 < G.n)
    {c' : Id'} {new : List Sym} {rules : List (Option (Sym × K))} (hch : Charts w G.c c' G.syms new (some rules))
    (hcc : c' ≠ G.c) (hct : ∀ o, w.objs[c']? = some o → o.name ≠ "TEMP") (ho : G.syms.Nodup) (hnew : new.length = G.n)
    (hf : FreshNames E G new) (hR : ChartRules E G.syms new rules) {Jinv : Nat → Nat → K}
    (hI : Inverse G.n (chartJacobian E G.syms new rules) Jinv) (hN : NotNamed w (Dm.name ++ " Weyl Tensor")) :
    Does (do
      let r ← calcWeyl E G.m
      getComponents E r (some c') none) w fun b _ => b.shape = [G.n, G.n, G.n, G.n] ∧
        ∀ i j k l, i < G.n → j < G.n → k < G.n → l < G.n →
          b.get [i, j, k, l] = weyl E (G.moved E c' new rules Jinv) i j k l := by
  obtain ⟨om, hom, hsh⟩ := hS.shows _ _ hm.view
  rw [← hsh.name] at hN
  refine Does.bind (weyl_ready hE.simp_eq hS hm hQ hn (fun r w' e => named_single_of (suffix := " Weyl Tensor")
    (fun _ => endsSingle_bind fun _ => endsSingle_bind fun _ => endsSingle_bind fun _ => endsSingle_bind fun _ =>
      endsSingle_weyl _ _ _ _ _) hom hN e) hst hch hcc hct) ?_
  rintro r w' ⟨V', D, o, b, h1, h2, h3, h4, h5, h6, h7, h8, h9, h10⟩
  obtain ⟨b', w'', e, -, e1, e2⟩ := C72_first_partial hE hT hC hs h1 (q := .weyl) (by decide) h6 h7 h8 (native_known h6 (by simp [Quantity.ix]) _) h10 h9 ho hnew hf hR hI
  exact ⟨b', w'', by rw [getComponents_noConfig h3 h4, h5]; exact e, e1,
    fun i j k l hi hj hk hl => e2 [i, j, k, l] rfl (by simp [hi, hj, hk, hl])⟩

/-- The metric `dx² + (dy + z dx)² + dz²` with `x = u + v²`, `y = v`, and `z` without a rule. -/
example : ∃ (G : Ground Poly) (V : View Poly) (w : World Poly) (Dm : TField Poly), Scene G V w ∧ LowerMetric G V Dm ∧
    NamesOK polyEngine G V w Dm.name ∧ NoStale polyEngine w ∧ 2 < G.n ∧
    Charts w G.c 1 G.syms ["u", "v", "z"] (some bentRules) ∧ 1 ≠ G.c ∧ (∀ o, w.objs[1]? = some o → o.name ≠ "TEMP") ∧
    G.syms.Nodup ∧ ["u", "v", "z"].length = G.n ∧ FreshNames polyEngine G ["u", "v", "z"] ∧
    ChartRules polyEngine G.syms ["u", "v", "z"] bentRules ∧
    Inverse G.n (chartJacobian polyEngine G.syms ["u", "v", "z"] bentRules) bentInv ∧
    NotNamed w (Dm.name ++ " Weyl Tensor") := by
  obtain ⟨G, V, w, Dm, h1, h2, h3, h4, h5, -, h7, h8, h9, h10, h11, h12, h13, h14⟩ := bent_moved
  exact ⟨G, V, w, Dm, h1, h5, h7, h9, by rw [h2]; decide, h10, by rw [h3]; decide, h11, by rw [h4]; decide, by rw [h2]; rfl,
    h12, h13, h14, h8 _ (by decide) (by decide) (by decide)⟩

end PyOGRe
