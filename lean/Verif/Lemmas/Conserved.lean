import Verif.Lemmas.AnyGeodesic

/-! Helper lemmas: the rate of change of `g_{mn} ẋ^m ẋ^n` along a curve. -/

namespace PyOGRe
open Spec Finset
variable {K : Type} [CommRing K] [Algebra ℚ K] {E : Engine K} {G : Ground K} {C : Curves K}

/-- `d/dλ (g_{mn} ẋ^m ẋ^n) = 2 ẋ^i g_{ij} (ẍ^j + Γ^j_{mn} ẋ^m ẋ^n)`. -/
theorem rate_lagrangian (hC : Calculus E) (hi : Inverse G.n G.g G.gi)
    (hs : ∀ i j, i < G.n → j < G.n → G.g i j = G.g j i) (hd : G.syms.length = G.n) (hO : CurvesOK E C G.syms)
    (hP : ProperNames C G.syms) (hT : Static E C G) :
    C.asSymbols G.syms (C.rate (C.asFunctions C.parameter G.syms (lagrangian C G))) =
      2 * ∑ i ∈ range G.n, G.speed C i * ∑ j ∈ range G.n, G.g i j * geodesic E C G j := by
  have hA := apart_of (C := C) hd hP
  have hdd : ∀ t ∈ G.syms, ∀ j, j < G.n → ddot t ≠ dot (G.syms.getD j "") := by
    intro t ht j hj
    obtain ⟨k, hk, rfl⟩ := List.mem_iff_getElem.1 ht
    have := hA.ddots k j (hd ▸ hk) hj
    rwa [show G.syms.getD k "" = G.syms[k] by simp [List.getD_eq_getElem?_getD, hk]] at this
  have h2 : (2 * rat (1 / 2) : K) = 1 := by
    unfold rat
    rw [← map_ofNat (algebraMap ℚ K) 2, ← map_mul]
    norm_num
  have hdot : ∀ k, k < G.n → E.diff (dot (G.syms.getD k "")) (lagrangian C G) = 2 * momentum C G k := by
    intro k hk
    rw [← diff_lagrangian_dot hC hO.var hA hs hk fun a b ha hb => ((hT a b ha hb).2 _ (getD_mem hd hk)).1,
      diff_rat hC, ← mul_assoc, h2, one_mul]
  rw [hO.chain]
  · rw [sum_syms hd]
    have hL : ∀ i ∈ range G.n, G.speed C i * ∑ j ∈ range G.n, G.g i j * geodesic E C G j =
        G.speed C i * ((∑ k ∈ range G.n, ((∑ n ∈ range G.n, G.d E k (G.g i n) * G.speed C n) * G.speed C k +
          G.g i k * G.accel C k)) - rat (1 / 2) * ∑ m ∈ range G.n, ∑ n ∈ range G.n,
            G.d E i (G.g m n) * G.speed C m * G.speed C n) := fun i hn => by
      rw [eulerLagrange_eq hC hi hs (mem_range.1 hn)]
    rw [sum_congr rfl hL]
    have hR : ∀ k ∈ range G.n, E.diff (G.syms.getD k "") (lagrangian C G) * C.var (dot (G.syms.getD k "")) +
        E.diff (dot (G.syms.getD k "")) (lagrangian C G) * C.var (ddot (G.syms.getD k "")) =
        (∑ m ∈ range G.n, ∑ n ∈ range G.n, G.d E k (G.g m n) * G.speed C m * G.speed C n) * G.speed C k +
        2 * (momentum C G k * G.accel C k) := fun k hk => by
      rw [hdot k (mem_range.1 hk), diff_lagrangian hC hO.var hA fun j hj => hA.coord k j (mem_range.1 hk) hj, mul_assoc]
      rfl
    rw [sum_congr rfl hR]
    set S := ∑ k ∈ range G.n, (∑ m ∈ range G.n, ∑ n ∈ range G.n, G.d E k (G.g m n) * G.speed C m * G.speed C n) *
      G.speed C k with hS
    set M := ∑ k ∈ range G.n, momentum C G k * G.accel C k with hM
    have e1 : ∑ i ∈ range G.n, G.speed C i * ∑ k ∈ range G.n, (∑ n ∈ range G.n, G.d E k (G.g i n) * G.speed C n) *
        G.speed C k = S := by
      rw [hS]
      simp only [mul_sum, sum_mul]
      rw [sum_comm]
      exact sum_congr rfl fun k _ => sum_congr rfl fun i _ => sum_congr rfl fun n _ => by ring
    have e2 : ∑ i ∈ range G.n, G.speed C i * ∑ k ∈ range G.n, G.g i k * G.accel C k = M := by
      rw [hM]
      unfold momentum
      simp only [mul_sum, sum_mul]
      rw [sum_comm]
      refine sum_congr rfl fun k hk => sum_congr rfl fun i hi => ?_
      rw [hs k i (mem_range.1 hk) (mem_range.1 hi)]
      ring
    have e3 : ∑ i ∈ range G.n, G.speed C i * (rat (1 / 2) * ∑ m ∈ range G.n, ∑ n ∈ range G.n,
        G.d E i (G.g m n) * G.speed C m * G.speed C n) = rat (1 / 2) * S := by
      rw [hS, mul_sum]
      exact sum_congr rfl fun i _ => by ring
    rw [sum_add_distrib, ← mul_sum, ← hS, ← hM]
    simp only [mul_sub, sum_sub_distrib, sum_add_distrib, mul_add]
    rw [e1, e2, e3]
    have : (2 * (rat (1 / 2) * S) : K) = S := by rw [← mul_assoc, h2, one_mul]
    rw [this]
    ring
  · intro t ht
    rw [diff_lagrangian hC hO.var hA (hdd t ht)]
    refine sum_eq_zero fun m hm => sum_eq_zero fun n hn' => ?_
    rw [((hT m n (mem_range.1 hm) (mem_range.1 hn')).2 t ht).2]
    ring
  · rw [diff_lagrangian hC hO.var hA hA.param]
    refine sum_eq_zero fun m hm => sum_eq_zero fun n hn' => ?_
    rw [(hT m n (mem_range.1 hm) (mem_range.1 hn')).1]
    ring

variable [DecidableEq K] {V : View K} {w : World K} {Dm : TField K} {Γ : Nat → Nat → Nat → K}

/-- The Lagrangian that was computed is found. -/
theorem anyGiven_again (hS : Scene G V w) (hm : V G.m = some Dm) (hc : NamesFor E G Γ V w Dm.name) {l : Id'}
    (hl : l ∈ w.instances) (hH : Holds G w l .lagrangian (Dm.name ++ " Lagrangian") [] fun _ => lagrangian C G)
    (hf : Finds w Kind.isLagrangian (Dm.name ++ " Lagrangian") l) {coords : Option Id'}
    (hco : coords = some G.c ∨ coords = none ∧ Dm.coords = G.c) :
    Does (calcLagrangian E C G.m coords) w
      (GivesFor E G Γ V w Dm.name Kind.isLagrangian .lagrangian (Dm.name ++ " Lagrangian") [] fun _ => lagrangian C G) := by
  unfold calcLagrangian
  refine does_curve_start (k := fun n c => unlessCurve E C Kind.isLagrangian (n ++ " Lagrangian") c
    (computeLagrangian E C G.m c)) hS hm hco ?_
  unfold unlessCurve
  refine Does.step (a := w) rfl ?_
  rw [show w.instances.find? _ = some l from hf]
  obtain ⟨o, k1, k2, k3, k4, k5, k6, k7⟩ := id hH
  refine Does.step (getObj_ok k1 k2) ?_
  rw [k6]
  exact Does.step (a := ()) (by simp [PyM.onlyIf]; rfl) (Does.pure (anyGiven_found hS hc hl hH hf))

theorem anyGiven_geodesicLagrangian' (hE : ∀ x, E.simp x = x) (hS : Scene G V w) (hC : Calculus E)
    (hO : CurvesOK E C G.syms) (hP : ProperNames C G.syms) (hT : Static E C G)
    {Dm : TField K} (hm : V G.m = some Dm) (hmn : Dm.name ≠ "TEMP") (hc : NamesFor E G Γ V w Dm.name) {coords : Option Id'}
    (hco : coords = some G.c ∨ coords = none ∧ Dm.coords = G.c)
    (hN : Does (calcLagrangian E C G.m (some G.c)) w (GivesFor E G Γ V w Dm.name Kind.isLagrangian .lagrangian
      (Dm.name ++ " Lagrangian") [] fun _ => lagrangian C G))
    (hN' : NamesCurve G w (· == .geodesicLagrangian) .geodesicLagrangian (Dm.name ++ " Geodesic From Lagrangian") [1]
      fun J => C.clear (∑ j ∈ range G.n, G.g (J.getD 0 0) j * geodesic E C G j)) :
    Does (calcGeodesicLagrangian E C G.m coords) w
      (GivesFor E G Γ V w Dm.name (· == .geodesicLagrangian) .geodesicLagrangian (Dm.name ++ " Geodesic From Lagrangian") [1]
        fun J => C.clear (∑ j ∈ range G.n, G.g (J.getD 0 0) j * geodesic E C G j)) := by
  unfold calcGeodesicLagrangian
  refine does_curve_start (k := fun n c => unlessCurve E C (· == .geodesicLagrangian) (n ++ " Geodesic From Lagrangian") c
    (computeGeodesicLagrangian E C G.m c)) hS hm hco (does_unlessCurve hS hN'
      (fun t ht hH hf => anyGiven_found hS hc ht hH hf) fun hU => ?_)
  unfold computeGeodesicLagrangian
  refine Does.bind hN ?_
  rintro l w1 ⟨V1, h1, h2, h3, h4, h5, h6, -⟩
  obtain ⟨a, e1, e2⟩ := holds_components (E := E) (C := C) h1 h6 (Or.inr rfl) (Or.inl rfl)
  refine Does.step e1 ?_
  obtain ⟨oc, c1, -, c3, c4⟩ := h1.chart
  refine Does.step (getObj_ok c1 c3) ?_
  obtain ⟨om, m1, m2⟩ := h1.shows _ _ (h2 _ _ hm hmn)
  refine Does.step (getObj_ok m1 m2.alive) ?_
  rw [m2.name, c4, e2.2.2 [] rfl (by simp)]
  have hL : Leaves (Related Dm.name w1) w w1 := leaves_mono h3 fun i _ _ hi => by
    rcases hi with rfl | hi
    · obtain ⟨o, k1, -, -, k4, -⟩ := h6
      exact Or.inl ⟨o, k1, k4⟩
    · exact hi
  refine Does.mono (does_storeCurve h1 h1 (keeps_refl V1) (Or.inl rfl) (leaves_refl _ h1.registry)
    (kind := .geodesicLagrangian) rfl (suffix_ne (by decide) _) "0" (ix := [1]) (f := fun J =>
      C.clear (∑ j ∈ range G.n, G.g (J.getD 0 0) j * geodesic E C G j)) ?_ ⟨rfl, by simp⟩) fun r w' h =>
    anyGiven_curved rfl h1 h2 hL h4 (suffix_ne (by decide) _) (suffix_not_quantity (by intro q; cases q <;> decide) _)
      (related_unnamed (fun hc => absurd (append_cancel hc) (by decide))
        (suffix_not_quantity (by intro q; cases q <;> decide) _) hL (suffix_ne (by decide) _) hU) h
  refine ⟨by simp [Arr.WF, vectorOf], by simp [vectorOf, eulerLagrange, hS.dim], fun J hJ hx => ?_⟩
  match J, hJ with
  | [j], _ =>
    have hj : j < G.n := hx j (by simp)
    have := eulerLagrange_value hC hS.inverse hS.symm hS.dim hO hP hT hj
    simp only [vectorOf, Arr.get, ravel, List.getD_cons_zero, List.prod_nil, mul_one, add_zero]
    rw [← this, List.getD_eq_getElem?_getD, List.getElem?_map, List.getD_eq_getElem?_getD]
    have hlt : j < (eulerLagrange C G.syms (C.asFunctions C.parameter G.syms (lagrangian C G))).length := by
      simpa [eulerLagrange, hS.dim] using hj
    rw [show C.asFunctions (curveParameter C .lagrangian G.syms) G.syms (lagrangian C G) =
      C.asFunctions C.parameter G.syms (lagrangian C G) from rfl, List.getElem?_eq_getElem hlt]
    simp [hE]


end PyOGRe
