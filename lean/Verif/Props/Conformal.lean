import Verif.Lemmas.Conformal
import Verif.Lemmas.Symmetry
import Verif.Props.Constant
import Verif.Spec.Plain
import Mathlib.RingTheory.PowerSeries.Derivative
import Mathlib.RingTheory.PowerSeries.Inverse

/-!
# Metrics multiplied by a function: C110
-/

namespace PyOGRe
open Spec Finset
variable {K : Type} [CommRing K] [DecidableEq K] [Algebra ℚ K] {E : Engine K} {G G' : Ground K} {V V' : View K}
  {w w' : World K} {Dm Dm' : TField K}

/-- The second metric is `c` times the first one, for any function `c` with inverse `c'`. -/
structure Spec.Rescaled (G G' : Ground K) (c c' : K) : Prop where
  n : G'.n = G.n
  syms : G'.syms = G.syms
  inv : c * c' = 1
  g : ∀ i j, i < G.n → j < G.n → G'.g i j = c * G.g i j

/-- The function `f` returns a tensor in either case, and both have the same components in configuration `cfg`. -/
def Spec.Concur (G G' : Ground K) (w w' : World K) (f : Id' → PyM K Id') (ix cfg : List Int) : Prop :=
  ∃ T : List Nat → K,
    (Returns G w (f G.m) ix fun D => ∀ J, J.length = ix.length → (∀ i ∈ J, i < G.n) → D.comp G cfg J = T J) ∧
    Returns G' w' (f G'.m) ix fun D => ∀ J, J.length = ix.length → (∀ i ∈ J, i < G.n) → D.comp G' cfg J = T J

omit [DecidableEq K] [Algebra ℚ K] in
theorem rescaled_gi {c c' : K} (h : Rescaled G G' c c') (hi : Inverse G.n G.g G.gi) (hi' : Inverse G'.n G'.g G'.gi) {i j : Nat}
    (h1 : i < G.n) (h2 : j < G.n) : G'.gi i j = c' * G.gi i j := by
  rw [h.n] at hi'
  refine inverse_unique (M := G'.g) (N' := fun i j => c' * G.gi i j) hi' ?_ i j h1 h2
  intro i j h1 h2
  obtain ⟨e1, e2⟩ := hi i j h1 h2
  constructor
  · rw [← e1]
    unfold matMul
    refine sum_congr rfl fun l hl => ?_
    rw [h.g i l h1 (by simpa using hl)]
    linear_combination (G.g i l * G.gi l j) * h.inv
  · rw [← e2]
    unfold matMul
    refine sum_congr rfl fun l hl => ?_
    rw [h.g l j (by simpa using hl) h2]
    linear_combination (G.gi i l * G.g l j) * h.inv

omit [DecidableEq K] in
theorem rescaled_weyl {c c' : K} (hC : Calculus E) (h : Rescaled G G' c c') (hi : Inverse G.n G.g G.gi)
    (hi' : Inverse G'.n G'.g G'.gi) (hs : ∀ i j, i < G.n → j < G.n → G.g i j = G.g j i) (hn : 2 < G.n) {i k l m : Nat}
    (h1 : i < G.n) (h2 : k < G.n) (h3 : l < G.n) (h4 : m < G.n) : weyl E G' i k l m = c * weyl E G i k l m := by
  have hgi := fun i j (h1 : i < G.n) (h2 : j < G.n) => rescaled_gi h hi hi' h1 h2
  have hs' : ∀ i j, i < G'.n → j < G'.n → G'.g i j = G'.g j i := by
    intro i j h1 h2
    rw [h.n] at h1 h2
    rw [h.g i j h1 h2, h.g j i h2 h1, hs i j h1 h2]
  obtain ⟨n', b, d, s', g', gi'⟩ := G'
  obtain ⟨e1, e2, e3, e4⟩ := h
  dsimp only at e1 e2 e4 hgi hs' hi'
  subst e1 e2
  have hx := geo_weyl hC hi hs ⟨i, h1⟩ ⟨k, h2⟩ ⟨l, h3⟩ ⟨m, h4⟩
  have hx' := geo_weyl (G := ⟨G.n, b, d, G.syms, g', gi'⟩) hC hi' hs' ⟨i, h1⟩ ⟨k, h2⟩ ⟨l, h3⟩ ⟨m, h4⟩
  dsimp only at hx hx'
  rw [hx, hx']
  have hq : (2 : ℚ) < (G.n : ℚ) := by exact_mod_cast hn
  refine Geo.Data.conformal_W (S := geo hC hi hs) (T := geo (G := ⟨G.n, b, d, G.syms, g', gi'⟩) hC hi' hs') (e := c')
    ⟨fun _ _ => rfl, e3, fun i j => e4 i j i.2 j.2,
    fun i j => hgi i j i.2 j.2⟩ ?_ ?_ _ _ _ _
  · rw [Fintype.card_fin]
    have : (G.n : ℚ) - 2 ≠ 0 := by linarith
    field_simp
    ring
  · rw [Fintype.card_fin]
    have h1 : (G.n : ℚ) - 2 ≠ 0 := by linarith
    have h2 : (G.n : ℚ) - 1 ≠ 0 := by linarith
    field_simp

omit [DecidableEq K] [Algebra ℚ K] in
/-- Raising the first index of a tensor with four lower indices. -/
theorem comp_raise {D : TField K} (hD : D.ix = [-1, -1, -1, -1]) {a b c d : Nat} (hb : b < G.n) (hc : c < G.n) (hd : d < G.n) :
    D.comp G [1, -1, -1, -1] [a, b, c, d] = ∑ k ∈ range G.n, G.gi a k * D.val [k, b, c, d] := by
  unfold TField.comp
  rw [hD]
  simp only [List.zipWith_cons_cons, List.zipWith_nil_left]
  rw [applyFactors_cons]
  refine sum_congr rfl fun k _ => ?_
  rw [applyFactors_delta]
  · rfl
  · intro x hx
    simp only [List.mem_cons, List.not_mem_nil, or_false] at hx
    rcases hx with rfl | rfl | rfl <;> assumption
  · rfl
  · intro M hM i j _ _
    simp only [List.mem_cons, List.not_mem_nil, or_false, or_self] at hM
    rw [hM]
    rfl

/-- **C110** Of two metrics with default configuration (-1,-1), the second of which is the first multiplied by a function `c`
with an inverse, the Weyl tensor of the second, in its default configuration, is `c` times that of the first; with the first
index up both are the same. -/
theorem C110_conformal {c c' : K} (hE : EngineOK E) (hC : Calculus E) (hS : Scene G V w) (hS' : Scene G' V' w')
    (hm : LowerMetric G V Dm) (hm' : LowerMetric G' V' Dm') (hN : NamesOK E G V w Dm.name)
    (hN' : NamesOK E G' V' w' Dm'.name) (h : Rescaled G G' c c') (hn : 2 < G.n) :
    Scales G G' w w' (calcWeyl E) [-1, -1, -1, -1] c ∧
    Concur G G' w w' (calcWeyl E) [-1, -1, -1, -1] [1, -1, -1, -1] := by
  have hW : ∀ {i k l m : Nat}, i < G.n → k < G.n → l < G.n → m < G.n → weyl E G' i k l m = c * weyl E G i k l m :=
    fun h1 h2 h3 h4 => rescaled_weyl hC h hS.inverse hS'.inverse hS.symm hn h1 h2 h3 h4
  have r : ∀ (P : TField K → Prop), (∀ D, D.ix = [-1, -1, -1, -1] → (∀ a b c d, a < G.n → b < G.n → c < G.n → d < G.n →
      D.val [a, b, c, d] = weyl E G a b c d) → P D) → Returns G w (calcWeyl E G.m) [-1, -1, -1, -1] P := fun P hP =>
    returns_weyl hE.simp_eq (gives_christoffel hE.simp_eq hm.ix) hS ⟨hm.view, hm.name, hm.coords⟩ (namesFor_christoffel hN) hn
      fun D hD hv => hP D hD fun a b c d h1 h2 h3 h4 => hv [a, b, c, d] rfl (by
        intro x hx
        simp only [List.mem_cons, List.not_mem_nil, or_false] at hx
        rcases hx with rfl | rfl | rfl | rfl <;> assumption)
  have r' : ∀ (P : TField K → Prop), (∀ D, D.ix = [-1, -1, -1, -1] → (∀ a b c d, a < G.n → b < G.n → c < G.n → d < G.n →
      D.val [a, b, c, d] = weyl E G' a b c d) → P D) → Returns G' w' (calcWeyl E G'.m) [-1, -1, -1, -1] P := fun P hP =>
    returns_weyl hE.simp_eq (gives_christoffel hE.simp_eq hm'.ix) hS' ⟨hm'.view, hm'.name, hm'.coords⟩ (namesFor_christoffel hN')
      (by rw [h.n]; exact hn) fun D hD hv => hP D hD fun a b c d h1 h2 h3 h4 => hv [a, b, c, d] rfl (by
        rw [h.n]
        intro x hx
        simp only [List.mem_cons, List.not_mem_nil, or_false] at hx
        rcases hx with rfl | rfl | rfl | rfl <;> assumption)
  constructor
  · refine ⟨fun J => weylComps E G J, r _ fun D _ hv J hJ hJn => ?_, r' _ fun D _ hv J hJ hJn => ?_⟩
    · match J, hJ, hJn with
      | [a, b, d, e], _, hJn => exact hv a b d e (hJn a (by simp)) (hJn b (by simp)) (hJn d (by simp)) (hJn e (by simp))
    · match J, hJ, hJn with
      | [a, b, d, e], _, hJn =>
        have k1 := hJn a (by simp)
        have k2 := hJn b (by simp)
        have k3 := hJn d (by simp)
        have k4 := hJn e (by simp)
        rw [hv a b d e k1 k2 k3 k4, hW k1 k2 k3 k4]
        rfl
  · refine ⟨fun J => ∑ k ∈ range G.n, G.gi (J.getD 0 0) k * weyl E G k (J.getD 1 0) (J.getD 2 0) (J.getD 3 0),
      r _ fun D hD hv J hJ hJn => ?_, r' _ fun D hD hv J hJ hJn => ?_⟩
    · match J, hJ, hJn with
      | [a, b, d, e], _, hJn =>
        have k2 := hJn b (by simp)
        have k3 := hJn d (by simp)
        have k4 := hJn e (by simp)
        rw [comp_raise hD k2 k3 k4]
        exact sum_congr rfl fun k hk => by rw [hv k b d e (by simpa using hk) k2 k3 k4]; rfl
    · match J, hJ, hJn with
      | [a, b, d, e], _, hJn =>
        have k1 := hJn a (by simp)
        have k2 := hJn b (by simp)
        have k3 := hJn d (by simp)
        have k4 := hJn e (by simp)
        rw [comp_raise hD (by rw [h.n]; exact k2) (by rw [h.n]; exact k3) (by rw [h.n]; exact k4), h.n]
        refine sum_congr rfl fun k hk => ?_
        have hk : k < G.n := by simpa using hk
        rw [hv k b d e hk k2 k3 k4, hW hk k2 k3 k4, rescaled_gi h hS.inverse hS'.inverse k1 hk]
        show _ = G.gi a k * weyl E G k b d e
        linear_combination (G.gi a k * weyl E G k b d e) * h.inv

/-! ### Example: a metric whose components are power series in `x` -/

open Classical in
noncomputable instance : DecidableEq (PowerSeries ℚ) := Classical.decEq _

/-- The derivative with respect to `x`; the other coordinates do not occur. -/
noncomputable def seriesDiff (s : Sym) (x : PowerSeries ℚ) : PowerSeries ℚ :=
  if s = "x" then PowerSeries.derivative ℚ x else 0

theorem seriesDiff_calculus : Calculus (plainEngine seriesDiff) where
  add s x y := by
    show seriesDiff s (x + y) = seriesDiff s x + seriesDiff s y
    unfold seriesDiff
    split_ifs
    · exact map_add _ _ _
    · rw [add_zero]
  mul s x y := by
    show seriesDiff s (x * y) = seriesDiff s x * y + x * seriesDiff s y
    unfold seriesDiff
    split_ifs
    · rw [Derivation.leibniz, smul_eq_mul, smul_eq_mul]; ring
    · ring
  comm s t x := by
    show seriesDiff s (seriesDiff t x) = seriesDiff t (seriesDiff s x)
    unfold seriesDiff
    split_ifs <;> simp

/-- `1 + x` and its inverse. -/
noncomputable def onePlus : PowerSeries ℚ := 1 + PowerSeries.X
noncomputable def oneOver : PowerSeries ℚ := PowerSeries.invOfUnit onePlus 1

theorem onePlus_inv : onePlus * oneOver = 1 := PowerSeries.mul_invOfUnit _ _ (by simp [onePlus])

/-- Not a constant. -/
theorem onePlus_diff : seriesDiff "x" onePlus = 1 := by
  unfold seriesDiff onePlus
  rw [if_pos rfl, map_add, PowerSeries.derivative_X, show (1 : PowerSeries ℚ) = PowerSeries.C 1 from rfl,
    PowerSeries.derivative_C, zero_add]

/-- The metric `f (dx² + dy² + (1+x) dz² + dt²)`. -/
noncomputable def warped (f : PowerSeries ℚ) : Arr (PowerSeries ℚ) :=
  ⟨[4, 4], [f, 0, 0, 0, 0, f, 0, 0, 0, 0, f * onePlus, 0, 0, 0, 0, f]⟩
noncomputable def unwarped (f : PowerSeries ℚ) : Arr (PowerSeries ℚ) :=
  ⟨[4, 4], [f, 0, 0, 0, 0, f, 0, 0, 0, 0, f * oneOver, 0, 0, 0, 0, f]⟩

theorem warped_inverse {f f' : PowerSeries ℚ} (hf : f * f' = 1) :
    Inverse 4 (fun i j => (warped f).get [i, j]) (fun i j => (unwarped f').get [i, j]) := by
  have h1 : f * onePlus * (f' * oneOver) = 1 := by linear_combination onePlus_inv + (onePlus * oneOver) * hf
  have h2 : f' * f = 1 := by rw [mul_comm]; exact hf
  have h3 : f' * oneOver * (f * onePlus) = 1 := by rw [mul_comm]; exact h1
  intro i j hi hj
  interval_cases i <;> interval_cases j <;>
    simp [matMul, Finset.sum_range_succ, delta, warped, unwarped, Arr.get, ravel, hf, h1, h2, h3]

theorem warped_symm (f : PowerSeries ℚ) (i j : Nat) (hi : i < 4) (hj : j < 4) :
    entry (warped f) i j = entry (warped f) j i := by
  interval_cases i <;> interval_cases j <;> rfl

/-- C110: two metrics in four dimensions whose quotient is not constant. -/
example : ∃ (E : Engine (PowerSeries ℚ)) (G G' : Ground (PowerSeries ℚ)) (V V' : View (PowerSeries ℚ))
    (w w' : World (PowerSeries ℚ)) (Dm Dm' : TField (PowerSeries ℚ)) (c c' : PowerSeries ℚ), EngineOK E ∧ Calculus E ∧
    Scene G V w ∧ Scene G' V' w' ∧ LowerMetric G V Dm ∧ LowerMetric G' V' Dm' ∧ NamesOK E G V w Dm.name ∧
    NamesOK E G' V' w' Dm'.name ∧ Rescaled G G' c c' ∧ 2 < G.n ∧ E.diff "x" c = 1 ∧ E.diff "x" (G.g 2 2) = 1 := by
  obtain ⟨G, V, w, h1, h2, h3, h4, h5, h6, -⟩ := plainDeclared seriesDiff (syms := ["x", "y", "z", "t"]) (a := warped 1)
    (b := unwarped 1) rfl rfl (warped_symm 1) (warped_inverse (mul_one 1)) (Or.inl rfl) (by simp)
  obtain ⟨G', V', w', h1', h2', h3', h4', h5', h6', -⟩ := plainDeclared seriesDiff (syms := ["x", "y", "z", "t"])
    (a := warped onePlus) (b := unwarped oneOver) rfl rfl (warped_symm onePlus) (warped_inverse onePlus_inv) (Or.inl rfl) (by simp)
  refine ⟨plainEngine seriesDiff, G, G', V, V', w, w', _, _, onePlus, oneOver, plainEngine_ok _, seriesDiff_calculus, h1, h1',
    ⟨h4.view, h4.name, h4.coords, rfl⟩, ⟨h4'.view, h4'.name, h4'.coords, rfl⟩, fun q i hi o ho hn => absurd hn (h5 q i hi o ho),
    fun q i hi o ho hn => absurd hn (h5' q i hi o ho), ⟨by rw [h2, h2'], by rw [h3, h3'], onePlus_inv, ?_⟩,
    by rw [h2]; decide, onePlus_diff, ?_⟩
  · intro i j hi hj
    rw [h2] at hi hj
    rw [h6 rfl, h6' rfl]
    have hi : i < 4 := hi
    have hj : j < 4 := hj
    interval_cases i <;> interval_cases j <;> simp [entry, warped, Arr.get, ravel]
  · rw [h6 rfl]
    show seriesDiff "x" (1 * onePlus) = 1
    rw [one_mul, onePlus_diff]

end PyOGRe
