import Verif.Lemmas.Conserved

/-! Helper lemmas: geodesic equations from the Lagrangian with `activate=False`. -/

namespace PyOGRe
open Spec Finset
variable {K : Type} [CommRing K] [Algebra ℚ K] [DecidableEq K] {E : Engine K} {G : Ground K} {C : Curves K}
  {V : View K} {w : World K} {Γ : Nat → Nat → Nat → K}

/-- The equation with index `i`: the derivative of `g_{in} ẋ^n` by the curve parameter that is not carried out, minus
`1/2 ∂_i g_{mn} ẋ^m ẋ^n`, with symbols for the functions. -/
def Spec.unfinished (E : Engine K) (C : Curves K) (G : Ground K) (i : Nat) : K :=
  C.asSymbols G.syms (C.later (C.asFunctions C.parameter G.syms (∑ n ∈ range G.n, G.g i n * G.speed C n)) -
    C.asFunctions C.parameter G.syms (rat (1 / 2) * ∑ m ∈ range G.n, ∑ n ∈ range G.n,
      G.d E i (G.g m n) * G.speed C m * G.speed C n))

theorem anyGiven_inactive (hE : ∀ x, E.simp x = x) (hS : Scene G V w) (hC : Calculus E)
    (hO : CurvesOK E C G.syms) (hP : ProperNames C G.syms) (hT : Static E C G)
    {Dm : TField K} (hm : V G.m = some Dm) (hmn : Dm.name ≠ "TEMP") (hc : NamesFor E G Γ V w Dm.name) {coords : Option Id'}
    (hco : coords = some G.c ∨ coords = none ∧ Dm.coords = G.c)
    (hN : NamesCurve G w Kind.isLagrangian .lagrangian (Dm.name ++ " Lagrangian") [] fun _ => lagrangian C G)
    (hN' : NamesCurve G w (· == .geodesicLagrangian) .geodesicLagrangian (Dm.name ++ " Geodesic From Lagrangian") [1]
      fun J => unfinished E C G (J.getD 0 0)) :
    Does (calcGeodesicInactive E C G.m coords) w
      (GivesFor E G Γ V w Dm.name (· == .geodesicLagrangian) .geodesicLagrangian (Dm.name ++ " Geodesic From Lagrangian") [1]
        fun J => unfinished E C G (J.getD 0 0)) := by
  unfold calcGeodesicInactive
  refine does_curve_start (k := fun n c => unlessCurve E C (· == .geodesicLagrangian) (n ++ " Geodesic From Lagrangian") c
    (computeGeodesicInactive E C G.m c)) hS hm hco (does_unlessCurve hS hN'
      (fun t ht hH hf => anyGiven_found hS hc ht hH hf) fun hU => ?_)
  unfold computeGeodesicInactive
  refine Does.bind (anyGiven_lagrangian hE hS C hm hmn hc (Or.inl rfl) hN) ?_
  rintro l w1 ⟨V1, h1, h2, h3, h4, h5, h6, -⟩
  obtain ⟨a, e1, e2⟩ := holds_components (E := E) (C := C) h1 h6 (Or.inr rfl) (Or.inl rfl)
  refine Does.step e1 ?_
  obtain ⟨oc, c1, -, c3, c4⟩ := h1.chart
  refine Does.step (getObj_ok c1 c3) ?_
  obtain ⟨om, m1, m2⟩ := h1.shows _ _ (h2 _ _ hm hmn)
  refine Does.step (getObj_ok m1 m2.alive) ?_
  rw [m2.name, c4, e2.2.2 [] rfl (by simp)]
  have hL : Leaves (Related Dm.name w1) w w1 := leaves_mono h3 fun i _ _ hi => by
    rcases hi with rfl | hi
    · obtain ⟨o, k1, -, -, k4, -⟩ := h6
      exact Or.inl ⟨o, k1, k4⟩
    · exact hi
  refine Does.mono (does_storeCurve h1 h1 (keeps_refl V1) (Or.inl rfl) (leaves_refl _ h1.registry)
    (kind := .geodesicLagrangian) rfl (suffix_ne (by decide) _) "0" (ix := [1]) (f := fun J => unfinished E C G (J.getD 0 0)) ?_ ⟨rfl, by simp⟩) fun r w' h =>
    anyGiven_curved rfl h1 h2 hL h4 (suffix_ne (by decide) _) (suffix_not_quantity (by intro q; cases q <;> decide) _)
      (related_unnamed (fun hc => absurd (append_cancel hc) (by decide))
        (suffix_not_quantity (by intro q; cases q <;> decide) _) hL (suffix_ne (by decide) _) hU) h
  refine ⟨by simp [Arr.WF, vectorOf], by simp [vectorOf, hS.dim], fun J hJ hx => ?_⟩
  match J, hJ with
  | [j], _ =>
    have hj : j < G.n := hx j (by simp)
    have hlt : j < G.syms.length := hS.dim ▸ hj
    have hmem := getD_mem hS.dim hj
    have hA := apart_of (C := C) hS.dim hP
    simp only [vectorOf, Arr.get, ravel, List.getD_cons_zero, List.prod_nil, mul_one, add_zero]
    rw [List.getD_eq_getElem?_getD, List.getElem?_map, List.getElem?_eq_getElem hlt, Option.map_some, Option.getD_some,
      show G.syms[j] = G.syms.getD j "" by simp [List.getD_eq_getElem?_getD, hlt]]
    show C.asSymbols G.syms (C.later (C.byFunction (dot (G.syms.getD j "")) (rat (1 / 2) *
        C.asFunctions C.parameter G.syms (lagrangian C G))) -
      C.byFunction (G.syms.getD j "") (rat (1 / 2) * C.asFunctions C.parameter G.syms (lagrangian C G))) = _
    rw [asFunctions_rat hO, hO.byFunction _ (List.mem_append_right _ (List.mem_map_of_mem hmem)),
      hO.byFunction _ (List.mem_append_left _ hmem),
      diff_lagrangian_dot hC hO.var hA hS.symm hj fun a b ha hb => ((hT a b ha hb).2 _ hmem).1,
      diff_rat hC, diff_lagrangian hC hO.var hA fun k hk => hA.coord j k hj hk]
    rfl


end PyOGRe
