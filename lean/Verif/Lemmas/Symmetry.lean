import Verif.Spec.Curvature
import Verif.Lemmas.Bianchi
import Verif.Lemmas.Session
import Mathlib.Tactic.FieldSimp
import Mathlib.Tactic.Linarith

/-! Helper lemmas: the symmetries of the curvature tensors of a metric. -/

namespace PyOGRe
open Spec Finset
variable {K : Type} [CommRing K] [Algebra ℚ K] {E : Engine K} {G : Ground K}

/-- The metric as matrices. -/
def geo (hC : Calculus E) (hi : Inverse G.n G.g G.gi) (hs : ∀ i j, i < G.n → j < G.n → G.g i j = G.g j i) :
    Geo.Data (Fin G.n) K where
  d k := G.d E k
  add _ := hC.add _
  mul _ := hC.mul _
  comm _ _ := hC.comm _ _
  g := toMat G.n G.g
  h := toMat G.n G.gi
  symm := by ext i j; exact hs j i j.2 i.2
  gh := (inverse_iff.1 hi).1
  hg := (inverse_iff.1 hi).2

variable (hC : Calculus E) (hi : Inverse G.n G.g G.gi) (hs : ∀ i j, i < G.n → j < G.n → G.g i j = G.g j i)

theorem geo_christoffel (l m n : Fin G.n) : christoffel E G l m n = (geo hC hi hs).Γ m l n := by
  unfold christoffel Geo.Data.Γ
  rw [Matrix.smul_apply, Algebra.smul_def, Matrix.mul_apply, Finset.sum_range]
  rfl

theorem geo_riemann (r s m n : Fin G.n) : riemann E G r s m n = (geo hC hi hs).R m n r s := by
  unfold riemann Geo.Data.R
  rw [Matrix.sub_apply, Matrix.add_apply, Matrix.sub_apply, Matrix.mul_apply, Matrix.mul_apply, Finset.sum_range,
    Finset.sum_range]
  simp only [geo_christoffel hC hi hs]
  rfl

theorem geo_ricci (m n : Fin G.n) : ricci E G m n = (geo hC hi hs).ric m n := by
  unfold ricci Geo.Data.ric
  rw [Finset.sum_range]
  exact Finset.sum_congr rfl fun l _ => geo_riemann hC hi hs l m l n

theorem geo_scalar : scalarCurvature E G = (geo hC hi hs).scal := by
  unfold scalarCurvature Geo.Data.scal
  rw [Finset.sum_range]
  refine Finset.sum_congr rfl fun m _ => ?_
  rw [Finset.sum_range]
  exact Finset.sum_congr rfl fun n _ => by rw [geo_ricci hC hi hs]; rfl

theorem geo_einstein (m n : Fin G.n) : einstein E G m n = (geo hC hi hs).ein m n := by
  unfold einstein Geo.Data.ein
  rw [geo_ricci hC hi hs, geo_scalar hC hi hs, Algebra.smul_def]
  rfl

theorem geo_riemannLow (r s m n : Fin G.n) : riemannLow E G r s m n = (geo hC hi hs).L m n r s := by
  unfold riemannLow Geo.Data.L
  rw [Matrix.mul_apply, Finset.sum_range]
  exact Finset.sum_congr rfl fun l _ => by rw [geo_riemann hC hi hs]; rfl

theorem geo_weyl (i k l m : Fin G.n) : weyl E G i k l m =
    (geo hC hi hs).W (1 / ((G.n : ℚ) - 2)) (1 / (((G.n : ℚ) - 2) * ((G.n : ℚ) - 1))) i k l m := by
  unfold weyl Geo.Data.W
  simp only [geo_riemannLow hC hi hs, geo_ricci hC hi hs, geo_scalar hC hi hs, Algebra.smul_def]
  rfl

theorem geo_divergence {T : Nat → Nat → K} {S : Fin G.n → Fin G.n → K} (hT : ∀ m n : Fin G.n, T m n = S m n)
    (n : Fin G.n) : divergence2 E G T n = (geo hC hi hs).div S n := by
  unfold divergence2 Geo.Data.div Geo.Data.cov2
  rw [Finset.sum_comm, Finset.sum_range]
  refine Finset.sum_congr rfl fun m _ => ?_
  rw [Finset.sum_range]
  refine Finset.sum_congr rfl fun k _ => ?_
  have e1 : ∑ l ∈ range G.n, christoffel E G l k m * T l n = ∑ l, (geo hC hi hs).Γ k l m * S l n := by
    rw [Finset.sum_range]
    exact Finset.sum_congr rfl fun l _ => by rw [geo_christoffel hC hi hs, hT]
  have e2 : ∑ l ∈ range G.n, christoffel E G l k n * T m l = ∑ l, (geo hC hi hs).Γ k l n * S m l := by
    rw [Finset.sum_range]
    exact Finset.sum_congr rfl fun l _ => by rw [geo_christoffel hC hi hs, hT]
  rw [e1, e2, hT, (geo hC hi hs).h_symm m k]
  rfl

/-! The identities, for index values below the dimension. -/

section identities
variable {a b c d : Nat} (ha : a < G.n) (hb : b < G.n) (hc : c < G.n) (hd : d < G.n)
include hC hi hs

include ha hb hc in
theorem christoffel_symm : christoffel E G a b c = christoffel E G a c b := by
  have := (geo hC hi hs).Γ_symm ⟨a, ha⟩ ⟨b, hb⟩ ⟨c, hc⟩
  rwa [← geo_christoffel hC hi hs, ← geo_christoffel hC hi hs] at this

include ha hb hc hd in
theorem riemann_antisymm : riemann E G a b c d = -riemann E G a b d c := by
  have := congrFun (congrFun ((geo hC hi hs).R_antisymm ⟨c, hc⟩ ⟨d, hd⟩) ⟨a, ha⟩) ⟨b, hb⟩
  rwa [Matrix.neg_apply, ← geo_riemann hC hi hs, ← geo_riemann hC hi hs] at this

include ha hb hc hd in
theorem riemann_cyclic : riemann E G a b c d + riemann E G a c d b + riemann E G a d b c = 0 := by
  have := (geo hC hi hs).R_cyclic ⟨a, ha⟩ ⟨b, hb⟩ ⟨c, hc⟩ ⟨d, hd⟩
  rwa [← geo_riemann hC hi hs, ← geo_riemann hC hi hs, ← geo_riemann hC hi hs] at this

include ha hb hc hd in
theorem riemannLow_first : riemannLow E G a b c d = -riemannLow E G b a c d := by
  have := (geo hC hi hs).L_first' ⟨a, ha⟩ ⟨b, hb⟩ ⟨c, hc⟩ ⟨d, hd⟩
  rwa [← geo_riemannLow hC hi hs, ← geo_riemannLow hC hi hs] at this

include ha hb hc hd in
theorem riemannLow_pairs : riemannLow E G a b c d = riemannLow E G c d a b := by
  have := (geo hC hi hs).L_pairs ⟨a, ha⟩ ⟨b, hb⟩ ⟨c, hc⟩ ⟨d, hd⟩
  rwa [← geo_riemannLow hC hi hs, ← geo_riemannLow hC hi hs] at this

include ha hb in
theorem ricci_symm : ricci E G a b = ricci E G b a := by
  have := (geo hC hi hs).ric_symm ⟨a, ha⟩ ⟨b, hb⟩
  rwa [← geo_ricci hC hi hs, ← geo_ricci hC hi hs] at this

include ha hb in
theorem einstein_symm : einstein E G a b = einstein E G b a := by
  have := (geo hC hi hs).ein_symm ⟨a, ha⟩ ⟨b, hb⟩
  rwa [← geo_einstein hC hi hs, ← geo_einstein hC hi hs] at this

theorem einstein_trace : ∑ m ∈ range G.n, ∑ n ∈ range G.n, G.gi m n * einstein E G m n =
    rat (1 - (G.n : ℚ) / 2) * scalarCurvature E G := by
  have := (geo hC hi hs).ein_trace
  rw [Fintype.card_fin, Algebra.smul_def, ← geo_scalar hC hi hs] at this
  rw [← show algebraMap ℚ K _ = rat _ from rfl, ← this, Finset.sum_range]
  refine Finset.sum_congr rfl fun m _ => ?_
  rw [Finset.sum_range]
  exact Finset.sum_congr rfl fun n _ => by rw [geo_einstein hC hi hs]; rfl

include ha in
theorem einstein_divergence : divergence2 E G (einstein E G) a = 0 :=
  (geo_divergence hC hi hs (fun m n => geo_einstein hC hi hs m n) ⟨a, ha⟩).trans ((geo hC hi hs).ein_div ⟨a, ha⟩)

include ha hb hc hd in
theorem weyl_first : weyl E G a b c d = -weyl E G b a c d := by
  have := (geo hC hi hs).W_first (1 / ((G.n : ℚ) - 2)) (1 / (((G.n : ℚ) - 2) * ((G.n : ℚ) - 1))) ⟨a, ha⟩ ⟨b, hb⟩
    ⟨c, hc⟩ ⟨d, hd⟩
  rwa [← geo_weyl hC hi hs, ← geo_weyl hC hi hs] at this

include ha hb hc hd in
theorem weyl_last : weyl E G a b c d = -weyl E G a b d c := by
  have := (geo hC hi hs).W_last (1 / ((G.n : ℚ) - 2)) (1 / (((G.n : ℚ) - 2) * ((G.n : ℚ) - 1))) ⟨a, ha⟩ ⟨b, hb⟩
    ⟨c, hc⟩ ⟨d, hd⟩
  rwa [← geo_weyl hC hi hs, ← geo_weyl hC hi hs] at this

include ha hb hc hd in
theorem weyl_pairs : weyl E G a b c d = weyl E G c d a b := by
  have := (geo hC hi hs).W_pairs (1 / ((G.n : ℚ) - 2)) (1 / (((G.n : ℚ) - 2) * ((G.n : ℚ) - 1))) ⟨a, ha⟩ ⟨b, hb⟩
    ⟨c, hc⟩ ⟨d, hd⟩
  rwa [← geo_weyl hC hi hs, ← geo_weyl hC hi hs] at this

include ha hb hc hd in
theorem weyl_cyclic : weyl E G a b c d + weyl E G a c d b + weyl E G a d b c = 0 := by
  have := (geo hC hi hs).W_cyclic (1 / ((G.n : ℚ) - 2)) (1 / (((G.n : ℚ) - 2) * ((G.n : ℚ) - 1))) ⟨a, ha⟩ ⟨b, hb⟩
    ⟨c, hc⟩ ⟨d, hd⟩
  rwa [← geo_weyl hC hi hs, ← geo_weyl hC hi hs, ← geo_weyl hC hi hs] at this

include hb hd in
theorem weyl_trace (hn : 2 < G.n) : ∑ i ∈ range G.n, ∑ l ∈ range G.n, G.gi i l * weyl E G i b l d = 0 := by
  have h1 : (G.n : ℚ) - 2 ≠ 0 := by
    have : (2 : ℚ) < G.n := by exact_mod_cast hn
    linarith
  have h2 : (G.n : ℚ) - 1 ≠ 0 := by
    have : (2 : ℚ) < G.n := by exact_mod_cast hn
    linarith
  have := (geo hC hi hs).W_trace (a := 1 / ((G.n : ℚ) - 2)) (b := 1 / (((G.n : ℚ) - 2) * ((G.n : ℚ) - 1)))
    (by rw [Fintype.card_fin]; field_simp; ring) (by rw [Fintype.card_fin]; field_simp) ⟨b, hb⟩ ⟨d, hd⟩
  rw [← this, Finset.sum_range]
  refine Finset.sum_congr rfl fun m _ => ?_
  rw [Finset.sum_range]
  refine Finset.sum_congr rfl fun n _ => ?_
  rw [← geo_weyl hC hi hs]
  rfl

end identities

end PyOGRe
