import Verif.Spec.Session
import Verif.Lemmas.Ready
import Mathlib.Algebra.MvPolynomial.PDeriv
import Mathlib.Algebra.MvPolynomial.Nilpotent
import Mathlib.Algebra.MvPolynomial.Supported
import Mathlib.Algebra.Field.Rat

/-!
# Polynomials: an engine that meets the assumptions, and two coordinate systems of the plane

Used in the examples beside the theorems: system 0 has the coordinates x, y, system 1 the coordinates
u, v with x = u + v², y = v, and back u = x - y², v = y.
-/

namespace PyOGRe.Spec
open MvPolynomial

abbrev Poly := MvPolynomial String ℚ

noncomputable instance : DecidableEq Poly := Classical.decEq _

open Classical in
/-- Polynomials with their derivatives and substitutions; nothing to simplify; a matrix is inverted if it
has an inverse, and the determinant is known to be zero or not. -/
noncomputable def polyEngine : Engine Poly where
  simp x := x
  diff s x := pderiv s x
  subst s v x := aeval (Function.update X s v) x
  inv a := if h : ∃ b : Arr Poly, ∃ n, a.shape = [n, n] ∧ b.WF ∧ b.shape = [n, n] ∧
      Inverse n (fun i j => a.get [i, j]) (fun i j => b.get [i, j]) then .ok h.choose
    else .error .nonInvertibleMatrixError
  det a := if ∃ n, a.shape = [n, n] ∧ ∃ N, Inverse n (fun i j => a.get [i, j]) N then 1 else 0

theorem polyEngine_ok : EngineOK polyEngine where
  simp_eq _ := rfl
  inv_ok n a b hs hb := by
    unfold polyEngine at hb
    dsimp only at hb
    split_ifs at hb with h
    cases hb
    obtain ⟨m, h1, h2⟩ := h.choose_spec
    rw [hs] at h1
    cases h1
    exact h2

theorem polyEngine_total : EngineTotal polyEngine where
  inv_total n a N hs hN := by
    have h : ∃ b : Arr Poly, ∃ n, a.shape = [n, n] ∧ b.WF ∧ b.shape = [n, n] ∧
        Inverse n (fun i j => a.get [i, j]) (fun i j => b.get [i, j]) := by
      refine ⟨Arr.ofFn [n, n] fun idx => N (idx.getD 0 0) (idx.getD 1 0), n, hs, Arr.wf_ofFn _ _, rfl, ?_⟩
      refine inverse_congr hN (fun _ _ _ _ => rfl) ?_
      intro i j hi hj
      rw [Arr.get_ofFn (by rw [valid_cons, valid_cons, valid_nil]; exact ⟨hi, hj, rfl⟩)]
      rfl
    exact ⟨h.choose, by unfold polyEngine; dsimp only; rw [dif_pos h]⟩
  det_ok n a hs hd := by
    unfold polyEngine at hd
    dsimp only at hd
    split_ifs at hd with h
    · obtain ⟨m, h1, h2⟩ := h
      rw [hs] at h1
      cases h1
      exact h2
    · exact absurd rfl hd

theorem polyEngine_det {n : Nat} {a : Arr Poly} (hs : a.shape = [n, n]) {N : Nat → Nat → Poly}
    (hN : Inverse n (fun i j => a.get [i, j]) N) : polyEngine.det a ≠ 0 := by
  unfold polyEngine
  dsimp only
  rw [if_pos ⟨n, hs, N, hN⟩]
  exact one_ne_zero

noncomputable def rules01 : List (Option (Sym × Poly)) :=
  [some ("x", X "u" + X "v" ^ 2), some ("y", X "v")]
noncomputable def rules10 : List (Option (Sym × Poly)) :=
  [some ("u", X "x" - X "y" ^ 2), some ("v", X "y")]

/-- The two coordinate systems. -/
noncomputable def uvAtlas : Atlas Poly where
  n := 2
  syms c := if c = 0 then ["x", "y"] else ["u", "v"]
  rules c c' := if c = 0 ∧ c' = 1 then some rules01 else if c = 1 ∧ c' = 0 then some rules10 else none

theorem uvAtlas_ok : uvAtlas.OK where
  pos := by decide
  length c := by unfold uvAtlas; dsimp only; split_ifs <;> rfl
  good c c' rules h := by
    unfold uvAtlas at h
    dsimp only at h
    split_ifs at h
    · cases h; simp [GoodRules, rules01]
    · cases h; simp [GoodRules, rules10]

noncomputable def tau01 : Poly →+* Poly :=
  ((aeval (Function.update X "y" (X "v")) : Poly →ₐ[ℚ] Poly).comp
    (aeval (Function.update X "x" (X "u" + X "v" ^ 2)) : Poly →ₐ[ℚ] Poly)).toRingHom
noncomputable def tau10 : Poly →+* Poly :=
  ((aeval (Function.update X "v" (X "y")) : Poly →ₐ[ℚ] Poly).comp
    (aeval (Function.update X "u" (X "x" - X "y" ^ 2)) : Poly →ₐ[ℚ] Poly)).toRingHom

/-- How system 1 is seen from system 0. -/
noncomputable def uvFrames : Frames Poly where
  fns := (supported ℚ ({"x", "y"} : Set String)).toSubring
  sub c := if c = 1 then tau01 else RingHom.id _
  J c i j := if c = 1 then (if i = 0 ∧ j = 1 then 2 * X "v" else delta i j) else delta i j
  Jinv c i j := if c = 1 then (if i = 0 ∧ j = 1 then -(2 * X "v") else delta i j) else delta i j

theorem pderiv_X_ne {s t : String} (h : s ≠ t) : pderiv s (X t : Poly) = 0 := by
  rw [pderiv_X, Pi.single_apply, if_neg (Ne.symm h)]

theorem substAll01 (x : Poly) : substAll polyEngine rules01 x = tau01 x := rfl
theorem substAll10 (x : Poly) : substAll polyEngine rules10 x = tau10 x := rfl

theorem jac01 (i j : Nat) (hi : i < 2) (hj : j < 2) :
    chartJacobian polyEngine ["x", "y"] ["u", "v"] rules01 i j =
      if i = 0 ∧ j = 1 then 2 * X "v" else delta i j := by
  have h1 : pderiv "v" (X "u" : Poly) = 0 := pderiv_X_ne (by decide)
  have h2 : pderiv "u" (X "v" : Poly) = 0 := pderiv_X_ne (by decide)
  match i, hi, j, hj with
  | 0, _, 0, _ => simp [chartJacobian, ruleFor, rules01, polyEngine, delta, h2]
  | 0, _, 1, _ => simp [chartJacobian, ruleFor, rules01, polyEngine, delta, h1]
  | 1, _, 0, _ => simp [chartJacobian, ruleFor, rules01, polyEngine, delta, h2]
  | 1, _, 1, _ => simp [chartJacobian, ruleFor, rules01, polyEngine, delta]

theorem jac10 (i j : Nat) (hi : i < 2) (hj : j < 2) :
    chartJacobian polyEngine ["u", "v"] ["x", "y"] rules10 i j =
      if i = 0 ∧ j = 1 then -(2 * X "y") else delta i j := by
  have h1 : pderiv "y" (X "x" : Poly) = 0 := pderiv_X_ne (by decide)
  have h2 : pderiv "x" (X "y" : Poly) = 0 := pderiv_X_ne (by decide)
  match i, hi, j, hj with
  | 0, _, 0, _ => simp [chartJacobian, ruleFor, rules10, polyEngine, delta, h2]
  | 0, _, 1, _ => simp [chartJacobian, ruleFor, rules10, polyEngine, delta, h1]
  | 1, _, 0, _ => simp [chartJacobian, ruleFor, rules10, polyEngine, delta, h2]
  | 1, _, 1, _ => simp [chartJacobian, ruleFor, rules10, polyEngine, delta]

/-- Upper triangular matrices with ones on the diagonal. -/
theorem inverse_shear (z : Poly) : Inverse 2 (fun i j => if i = 0 ∧ j = 1 then z else delta i j)
    (fun i j => if i = 0 ∧ j = 1 then -z else delta i j) := by
  intro i j hi hj
  constructor <;>
  · match i, hi, j, hj with
    | 0, _, 0, _ => simp [matMul, Finset.sum_range_succ, delta]
    | 0, _, 1, _ => simp [matMul, Finset.sum_range_succ, delta]
    | 1, _, 0, _ => simp [matMul, Finset.sum_range_succ, delta]
    | 1, _, 1, _ => simp [matMul, Finset.sum_range_succ, delta]

theorem inverse_delta (n : Nat) : Inverse n (delta : Nat → Nat → Poly) delta := by
  intro i j hi hj
  constructor <;>
  · simp only [matMul, delta, ite_mul, one_mul, zero_mul]
    rw [Finset.sum_ite_eq]
    simp [hi]

theorem tau10_x : tau10 (X "x") = X "x" := by simp [tau10, aeval_X, Function.update]
theorem tau10_y : tau10 (X "y") = X "y" := by simp [tau10, aeval_X, Function.update]
theorem tau10_u : tau10 (X "u") = X "x" - X "y" ^ 2 := by simp [tau10, aeval_X, Function.update]
theorem tau10_v : tau10 (X "v") = X "y" := by simp [tau10, aeval_X, Function.update]
theorem tau01_x : tau01 (X "x") = X "u" + X "v" ^ 2 := by simp [tau01, aeval_X, Function.update]
theorem tau01_y : tau01 (X "y") = X "v" := by simp [tau01, aeval_X, Function.update]
theorem tau01_v : tau01 (X "v") = X "v" := by simp [tau01, aeval_X, Function.update]
theorem tau01_C (q : ℚ) : tau01 (C q) = C q := by simp [tau01]
theorem tau10_C (q : ℚ) : tau10 (C q) = C q := by simp [tau10]

theorem uv_consistent : Consistent polyEngine uvAtlas 0 uvFrames where
  fns_inv x y _ hxy := by
    have hu : IsUnit y := IsUnit.of_mul_eq_one x (by rw [mul_comm]; exact hxy)
    obtain ⟨r, -, hr⟩ := (isUnit_iff_eq_C_of_isReduced).1 hu
    rw [hr]
    exact (supported ℚ ({"x", "y"} : Set String)).algebraMap_mem r
  sub_home x _ := rfl
  J_home i j _ _ := rfl
  inverse c := by
    by_cases hc : c = 1
    · have := inverse_shear (2 * X "v")
      refine inverse_congr this ?_ ?_ <;>
      · intro i j _ _
        simp [uvFrames, hc]
    · refine inverse_congr (inverse_delta 2) ?_ ?_ <;>
      · intro i j _ _
        simp [uvFrames, hc]
  step c c' rules h := by
    unfold uvAtlas at h
    dsimp only at h
    split_ifs at h with h1 h2
    · cases h
      obtain ⟨rfl, rfl⟩ := h1
      refine ⟨tau01, substAll01, fun x _ => rfl, ?_⟩
      intro i j hi hj
      have e : matMul 2 (uvFrames.J 0) (chartJacobian polyEngine ["x", "y"] ["u", "v"] rules01) i j =
          if i = 0 ∧ j = 1 then 2 * X "v" else delta i j := by
        rw [← jac01 i j hi hj]
        simp only [matMul, uvFrames, delta]
        simp only [show ((0 : Nat) = 1) = False from by simp, if_false, ite_mul, one_mul, zero_mul]
        rw [Finset.sum_ite_eq]
        simp [show i < 2 from hi]
      show uvFrames.J 1 i j = tau01 (matMul 2 (uvFrames.J 0)
        (chartJacobian polyEngine ["x", "y"] ["u", "v"] rules01) i j)
      rw [e]
      show (if i = 0 ∧ j = 1 then 2 * X "v" else delta i j) = _
      split_ifs with hij
      · rw [map_mul, tau01_v, show (2 : Poly) = C 2 from rfl, tau01_C]
      · unfold delta; split_ifs <;> simp
    · cases h
      obtain ⟨rfl, rfl⟩ := h2
      refine ⟨tau10, substAll10, ?_, ?_⟩
      · intro x hx
        show x = tau10 (tau01 x)
        have hv := mem_supported.1 (show x ∈ supported ℚ ({"x", "y"} : Set String) from hx)
        have := hom_congr_vars (f₁ := RingHom.id Poly) (f₂ := tau10.comp tau01) (p₁ := x) (p₂ := x)
          (by ext q; simp [tau01_C, tau10_C]) (by
            intro i hi _
            have := hv hi
            simp only [Set.mem_insert_iff, Set.mem_singleton_iff] at this
            rcases this with rfl | rfl
            · simp [tau01_x, tau10_u, tau10_v]
            · simp [tau01_y, tau10_v]) rfl
        exact this
      · intro i j hi hj
        show delta i j = tau10 (matMul 2 (uvFrames.J 1)
          (chartJacobian polyEngine ["u", "v"] ["x", "y"] rules10) i j)
        have e : ∀ k, k < 2 → uvFrames.J 1 i k * chartJacobian polyEngine ["u", "v"] ["x", "y"] rules10 k j =
            (if i = 0 ∧ k = 1 then 2 * X "v" else delta i k) *
              (if k = 0 ∧ j = 1 then -(2 * X "y") else delta k j) := by
          intro k hk
          rw [jac10 k j hk hj]
          rfl
        unfold matMul
        rw [Finset.sum_congr rfl fun k hk => e k (Finset.mem_range.1 hk)]
        have h2 : tau10 2 = 2 := by rw [show (2 : Poly) = C 2 from rfl, tau10_C]
        match i, hi, j, hj with
        | 0, _, 0, _ => simp [Finset.sum_range_succ, delta]
        | 0, _, 1, _ => simp [Finset.sum_range_succ, delta, tau10_v, tau10_y, h2]
        | 1, _, 0, _ => simp [Finset.sum_range_succ, delta]
        | 1, _, 1, _ => simp [Finset.sum_range_succ, delta]

/-- The session state in which both coordinate systems have been declared. -/
noncomputable def uvWorld : World Poly where
  objs := [
    { kind := .coordinates, name := "Cartesian", symbol := "x", indices := [1], coords := 0, metric := 0,
      comps := [], syms := ["x", "y"], trans := [(1, rules01)], jac := [], alive := true },
    { kind := .coordinates, name := "Parabolic", symbol := "u", indices := [1], coords := 0, metric := 0,
      comps := [], syms := ["u", "v"], trans := [(0, rules10)], jac := [], alive := true }]
  instances := [0, 1]

theorem uvWorld_cases {c : Id'} {o : Obj Poly} (h : uvWorld.objs[c]? = some o) :
    (c = 0 ∧ o.syms = ["x", "y"] ∧ o.trans = [(1, rules01)] ∧ o.kind = .coordinates ∧ o.jac = [] ∧
      o.alive = true) ∨
    (c = 1 ∧ o.syms = ["u", "v"] ∧ o.trans = [(0, rules10)] ∧ o.kind = .coordinates ∧ o.jac = [] ∧
      o.alive = true) := by
  match c, h with
  | 0, h => cases h; exact Or.inl ⟨rfl, rfl, rfl, rfl, rfl, rfl⟩
  | 1, h => cases h; exact Or.inr ⟨rfl, rfl, rfl, rfl, rfl, rfl⟩
  | c + 2, h => simp [uvWorld] at h

theorem uvWorld_charts : ChartsOnly uvAtlas 0 uvWorld := by
  refine ⟨⟨_, rfl⟩, ?_⟩
  intro c o h
  rcases uvWorld_cases h with ⟨rfl, h1, h2, h3, h4, -⟩ | ⟨rfl, h1, h2, h3, h4, -⟩
  · refine ⟨h3, h1, ?_, h4⟩
    intro c'
    rw [h2, Dict.get?_cons, Dict.get?_nil]
    by_cases hc : c' = 1
    · simp [uvAtlas, hc]
    · simp [uvAtlas, hc, Ne.symm hc]
  · refine ⟨h3, h1, ?_, h4⟩
    intro c'
    rw [h2, Dict.get?_cons, Dict.get?_nil]
    by_cases hc : c' = 0
    · simp [uvAtlas, hc]
    · simp [uvAtlas, hc, Ne.symm hc]

theorem uvWorld_connected : Connected polyEngine uvAtlas uvWorld := by
  intro c c' o o' h h' _ _ hne
  rcases uvWorld_cases h with ⟨rfl, -⟩ | ⟨rfl, -⟩ <;> rcases uvWorld_cases h' with ⟨rfl, -⟩ | ⟨rfl, -⟩
  · exact absurd rfl hne
  · refine ⟨rules01, _, rfl, inverse_congr (inverse_shear (2 * X "v")) ?_ fun _ _ _ _ => rfl⟩
    intro i j hi hj
    exact (jac01 i j hi hj).symm
  · refine ⟨rules10, _, rfl, inverse_congr (inverse_shear (-(2 * X "y"))) ?_ fun _ _ _ _ => rfl⟩
    intro i j hi hj
    exact (jac10 i j hi hj).symm
  · exact absurd rfl hne

/-- Two coordinate systems of the plane with rules from the first to the second. -/
noncomputable def twoCharts (old new : List Sym) (rules : List (Option (Sym × Poly))) : World Poly where
  objs := [
    { kind := .coordinates, name := "Old", symbol := "x", indices := [1], coords := 0, metric := 0,
      comps := [], syms := old, trans := [(1, rules)], jac := [], alive := true },
    { kind := .coordinates, name := "New", symbol := "x", indices := [1], coords := 0, metric := 0,
      comps := [], syms := new, trans := [], jac := [], alive := true }]
  instances := [0, 1]

/-- All rules are substituted at once. -/
noncomputable def simultaneous (rules : List (Option (Sym × Poly))) (p : Poly) : Poly :=
  aeval (fun s => (ruleFor rules s).getD (X s)) p

end PyOGRe.Spec
