import Verif.Lemmas.Coherent
import Verif.Spec.Atlas
import Mathlib.Algebra.Group.Submonoid.BigOperators
import Mathlib.Data.Matrix.Mul
import Mathlib.Algebra.BigOperators.Fin

/-! Helper lemmas: what is declared in a home system determines a lawful geometry. -/

namespace PyOGRe
open Spec Finset
variable {K : Type} [CommRing K]

/-- A factor as a Mathlib matrix. -/
def toMat (n : Nat) (M : Nat → Nat → K) : Matrix (Fin n) (Fin n) K := fun i j => M i j

theorem toMat_eq {n : Nat} {M N : Nat → Nat → K} :
    toMat n M = toMat n N ↔ ∀ i j, i < n → j < n → M i j = N i j := by
  constructor
  · intro h i j hi hj
    exact congrFun (congrFun h ⟨i, hi⟩) ⟨j, hj⟩
  · intro h
    funext i j
    exact h i j i.2 j.2

theorem toMat_matMul (n : Nat) (M N : Nat → Nat → K) : toMat n (matMul n M N) = toMat n M * toMat n N := by
  funext i j
  simp only [toMat, matMul, Matrix.mul_apply, Finset.sum_range]

theorem toMat_delta (n : Nat) : toMat n (delta : Nat → Nat → K) = 1 := by
  funext i j
  simp only [toMat, delta, Matrix.one_apply, Fin.ext_iff]

theorem toMat_transpose (n : Nat) (M : Nat → Nat → K) : toMat n (fun i j => M j i) = (toMat n M).transpose := rfl

theorem toMat_map (n : Nat) (M : Nat → Nat → K) (τ : K →+* K) :
    toMat n (fun i j => τ (M i j)) = (toMat n M).map τ := rfl

theorem inverse_iff {n : Nat} {M N : Nat → Nat → K} :
    Inverse n M N ↔ toMat n M * toMat n N = 1 ∧ toMat n N * toMat n M = 1 := by
  rw [← toMat_matMul, ← toMat_matMul, ← toMat_delta, toMat_eq, toMat_eq]
  constructor
  · intro h
    exact ⟨fun i j hi hj => (h i j hi hj).1, fun i j hi hj => (h i j hi hj).2⟩
  · intro h i j hi hj
    exact ⟨h.1 i j hi hj, h.2 i j hi hj⟩

theorem factorProd_map (τ : K →+* K) (Ms : List (Nat → Nat → K)) (J S : List Nat) :
    τ (factorProd Ms J S) = factorProd (Ms.map fun M i j => τ (M i j)) J S := by
  induction Ms generalizing J S with
  | nil => simp [factorProd]
  | cons M Ms ih =>
    cases J with
    | nil => simp [factorProd]
    | cons j J =>
      cases S with
      | nil => simp [factorProd]
      | cons s S => simp [factorProd, ih]

theorem applyFactors_map (τ : K →+* K) (n : Nat) (Ms : List (Nat → Nat → K)) (T : List Nat → K)
    (J : List Nat) :
    τ (applyFactors n Ms T J) = applyFactors n (Ms.map fun M i j => τ (M i j)) (fun I => τ (T I)) J := by
  unfold applyFactors
  rw [map_list_sum, List.map_map]
  congr 1
  apply List.map_congr_left
  intro s _
  simp [factorProd_map]

/-- Equality of two towers of factors, axis by axis. -/
theorem applyFactors_axiswise {α : Type} (n : Nat) (xs : List α) (f g : α → Nat → Nat → K)
    (T : List Nat → K) (J : List Nat) (hJ : ∀ x ∈ J, x < n)
    (h : ∀ x ∈ xs, toMat n (f x) = toMat n (g x)) :
    applyFactors n (xs.map f) T J = applyFactors n (xs.map g) T J := by
  refine applyFactors_congr_factors _ _ _ hJ ?_
  rw [List.forall₂_map_left_iff, List.forall₂_map_right_iff, List.forall₂_same]
  intro x hx
  exact toMat_eq.1 (h x hx)

theorem zipWith_map_left_right {α : Type} (f : Int → Int → α) (xs ys : List Int) :
    List.zipWith f xs ys = (xs.zip ys).map fun p => f p.1 p.2 := by
  rw [List.map_zip_eq_zipWith]
  rfl

theorem toMat_indexFactor {n : Nat} (g ginv : Nat → Nat → K) (a b : Int) :
    toMat n (indexFactor g ginv a b) =
      if a = -1 ∧ b = 1 then toMat n ginv else if a = 1 ∧ b = -1 then toMat n g else 1 := by
  unfold indexFactor
  split_ifs <;> simp [toMat_delta]

theorem toMat_coordFactor {n : Nat} (J Jinv : Nat → Nat → K) (a : Int) :
    toMat n (coordFactor J Jinv a) = if a = 1 then toMat n Jinv else (toMat n J).transpose := by
  unfold coordFactor
  split_ifs <;> rfl

/-- Going from `a` to `b` and from there to `c` is going from `a` to `c`. -/
theorem indexFactor_trans {n : Nat} {g ginv : Nat → Nat → K} (h : Inverse n g ginv) {a b c : Int}
    (ha : a = 1 ∨ a = -1) (hb : b = 1 ∨ b = -1) (hc : c = 1 ∨ c = -1) :
    toMat n (indexFactor g ginv b c) * toMat n (indexFactor g ginv a b) =
      toMat n (indexFactor g ginv a c) := by
  obtain ⟨h1, h2⟩ := inverse_iff.1 h
  simp only [toMat_indexFactor]
  rcases ha with rfl | rfl <;> rcases hb with rfl | rfl <;> rcases hc with rfl | rfl <;> simp [h1, h2]

theorem applyFactors_comp_axiswise {α : Type} (n : Nat) (xs : List α) (f g : α → Nat → Nat → K)
    (T : List Nat → K) (J : List Nat) (hl : xs.length = J.length) :
    applyFactors n (xs.map f) (applyFactors n (xs.map g) T) J =
      applyFactors n (xs.map fun x => matMul n (f x) (g x)) T J := by
  rw [applyFactors_comp n _ _ T J (by simpa using hl) (by simpa using hl)]
  congr 1
  rw [List.zipWith_map_left, List.zipWith_map_right, List.zipWith_self]

/-- Raising and lowering in two steps. -/
theorem raise_trans {n : Nat} {g ginv : Nat → Nat → K} (h : Inverse n g ginv) (T : List Nat → K)
    {r : Nat} (ix0 ix ix' : List Int) (h0 : Config r ix0) (h1 : Config r ix) (h2 : Config r ix')
    (J : List Nat) (hl : J.length = r) (hJ : ∀ x ∈ J, x < n) :
    applyFactors n (List.zipWith (indexFactor g ginv) ix ix')
      (applyFactors n (List.zipWith (indexFactor g ginv) ix0 ix) T) J =
    applyFactors n (List.zipWith (indexFactor g ginv) ix0 ix') T J := by
  rw [applyFactors_comp n _ _ T J (by simp [h1.1, h2.1, hl]) (by simp [h0.1, h1.1, hl])]
  refine applyFactors_congr_factors _ _ _ hJ ?_
  obtain ⟨h0l, h0⟩ := h0
  obtain ⟨h1l, h1⟩ := h1
  obtain ⟨h2l, h2⟩ := h2
  clear hl hJ
  induction ix0 generalizing ix ix' r with
  | nil => 
    have : ix = [] := by
      apply List.eq_nil_of_length_eq_zero; rw [h1l, ← h0l]; rfl
    subst this
    simp
  | cons a ix0 ih =>
    cases ix with
    | nil => rw [← h1l] at h0l; simp at h0l
    | cons b ix =>
      cases ix' with
      | nil => rw [← h2l] at h0l; simp at h0l
      | cons c ix' =>
        simp only [List.zipWith_cons_cons]
        refine List.Forall₂.cons ?_ (ih (r := ix0.length) ix ix' rfl (fun x hx => h0 x (by simp [hx]))
          (by simp only [List.length_cons] at *; omega) (fun x hx => h1 x (by simp [hx]))
          (by simp only [List.length_cons] at *; omega) (fun x hx => h2 x (by simp [hx])))
        rw [← toMat_eq, toMat_matMul]
        exact indexFactor_trans h (h0 a (by simp)) (h1 b (by simp)) (h2 c (by simp))

theorem applyFactors_two (n : Nat) (M N : Nat → Nat → K) (T : List Nat → K) (i j : Nat) :
    applyFactors n [M, N] T [i, j] = ∑ k ∈ range n, ∑ l ∈ range n, M i k * (N j l * T [k, l]) := by
  rw [applyFactors_cons]
  refine Finset.sum_congr rfl fun k _ => ?_
  rw [applyFactors_cons, Finset.mul_sum]
  refine Finset.sum_congr rfl fun l _ => ?_
  rw [applyFactors_nil]

/-- A matrix with a factor on each axis is `M T Nᵀ`. -/
theorem toMat_applyFactors_two (n : Nat) (M N : Nat → Nat → K) (T : List Nat → K) :
    toMat n (fun i j => applyFactors n [M, N] T [i, j]) =
      toMat n M * toMat n (fun i j => T [i, j]) * (toMat n N).transpose := by
  funext i j
  simp only [toMat, applyFactors_two, Matrix.mul_apply, Matrix.transpose_apply, Finset.sum_range,
    Finset.sum_mul]
  rw [Finset.sum_comm]
  refine Finset.sum_congr rfl fun k _ => Finset.sum_congr rfl fun l _ => ?_
  ring

theorem home_g {n : Nat} {S : Subring K} {H : Home K} (hH : H.OK n S) (t : Id') :
    toMat n (fun i j => H.comp n (H.metricOf t) [-1, -1] [i, j]) = toMat n (H.g (H.metricOf t)) ∧
    toMat n (fun i j => H.comp n (H.metricOf t) [1, 1] [i, j]) = toMat n (H.ginv (H.metricOf t)) ∧
    toMat n (fun i j => H.comp n (H.metricOf t) [1, -1] [i, j]) = 1 ∧
    toMat n (fun i j => H.comp n (H.metricOf t) [-1, 1] [i, j]) = 1 := by
  have hm := hH.metric t
  obtain ⟨h1, h2⟩ := inverse_iff.1 (hH.inverse t)
  have hs : (toMat n (H.g (H.metricOf t))).transpose = toMat n (H.g (H.metricOf t)) := by
    rw [← toMat_transpose, toMat_eq]
    intro i j hi hj
    exact hH.symm t j i hj hi
  have hsi : (toMat n (H.ginv (H.metricOf t))).transpose = toMat n (H.ginv (H.metricOf t)) := by
    have : (toMat n (H.ginv (H.metricOf t))).transpose * toMat n (H.g (H.metricOf t)) = 1 := by
      rw [← hs, ← Matrix.transpose_mul, h1, Matrix.transpose_one]
    calc (toMat n (H.ginv (H.metricOf t))).transpose
        = (toMat n (H.ginv (H.metricOf t))).transpose *
          (toMat n (H.g (H.metricOf t)) * toMat n (H.ginv (H.metricOf t))) := by rw [h1, Matrix.mul_one]
      _ = _ := by rw [← Matrix.mul_assoc, this, Matrix.one_mul]
  have key : ∀ a b, toMat n (fun i j => H.comp n (H.metricOf t) [a, b] [i, j]) =
      toMat n (fun i j => applyFactors n (List.zipWith (indexFactor (H.g (H.metricOf t))
        (H.ginv (H.metricOf t))) (H.src (H.metricOf t)) [a, b]) (H.base (H.metricOf t)) [i, j]) := by
    intro a b
    unfold Home.comp
    rw [hm]
  rcases hH.declared t with ⟨hsrc, hb⟩ | ⟨hsrc, hb⟩
  · simp only [key, hsrc, List.zipWith_cons_cons, List.zipWith_nil_left, toMat_applyFactors_two,
      toMat_indexFactor, toMat_eq.2 hb]
    simp [h1, h2, hsi]
  · simp only [key, hsrc, List.zipWith_cons_cons, List.zipWith_nil_left, toMat_applyFactors_two,
      toMat_indexFactor, toMat_eq.2 hb]
    simp [h1, h2, hs]

theorem factorProd_mem {S : Subring K} {n : Nat} (Ms : List (Nat → Nat → K)) (J I : List Nat)
    (hM : ∀ M ∈ Ms, ∀ i j, i < n → j < n → M i j ∈ S) (hJ : ∀ x ∈ J, x < n) (hI : ∀ x ∈ I, x < n) :
    factorProd Ms J I ∈ S := by
  induction Ms generalizing J I with
  | nil => simpa [factorProd] using S.one_mem
  | cons M Ms ih =>
    cases J with
    | nil => simpa [factorProd] using S.one_mem
    | cons j J =>
      cases I with
      | nil => simpa [factorProd] using S.one_mem
      | cons i I =>
        refine S.mul_mem (hM M (by simp) j i (hJ j (by simp)) (hI i (by simp))) ?_
        exact ih J I (fun M h => hM M (by simp [h])) (fun x h => hJ x (by simp [h]))
          (fun x h => hI x (by simp [h]))

theorem applyFactors_mem {S : Subring K} {n : Nat} (Ms : List (Nat → Nat → K)) (T : List Nat → K)
    (J : List Nat) (hM : ∀ M ∈ Ms, ∀ i j, i < n → j < n → M i j ∈ S) (hJ : ∀ x ∈ J, x < n)
    (hT : ∀ I, T I ∈ S) : applyFactors n Ms T J ∈ S := by
  unfold applyFactors
  refine list_sum_mem fun x hx => ?_
  obtain ⟨s, hs, rfl⟩ := List.mem_map.1 hx
  exact S.mul_mem (factorProd_mem Ms J s hM hJ (mem_tuples.1 hs).2) (hT s)

theorem home_comp_mem {n : Nat} {S : Subring K} {H : Home K} (hH : H.OK n S) (t : Id') (ix : List Int)
    (J : List Nat) (hJ : ∀ x ∈ J, x < n) : H.comp n t ix J ∈ S := by
  refine applyFactors_mem _ _ J ?_ hJ (hH.base_mem t)
  intro M hM i j hi hj
  rw [zipWith_map_left_right] at hM
  obtain ⟨p, -, rfl⟩ := List.mem_map.1 hM
  unfold indexFactor
  split_ifs
  · exact hH.ginv_mem t i j hi hj
  · exact hH.g_mem t i j hi hj
  · unfold delta
    split_ifs
    · exact S.one_mem
    · exact S.zero_mem

section
variable {E : Engine K} {A : Atlas K} {h : Id'} {F : Frames K} {H : Home K}

theorem geometry_g (hC : Consistent E A h F) (hH : H.OK A.n F.fns) (t c : Id') :
    toMat A.n ((H.geometry A.n F).g t c) =
      (toMat A.n (F.J c)).transpose * (toMat A.n (H.g (H.metricOf t))).map (F.sub c) * toMat A.n (F.J c) ∧
    toMat A.n ((H.geometry A.n F).ginv t c) =
      toMat A.n (F.Jinv c) * (toMat A.n (H.ginv (H.metricOf t))).map (F.sub c) *
        (toMat A.n (F.Jinv c)).transpose := by
  obtain ⟨g1, g2, -, -⟩ := home_g hH t
  constructor
  · have : toMat A.n ((H.geometry A.n F).g t c) = toMat A.n (fun i j => applyFactors A.n
        [coordFactor (F.J c) (F.Jinv c) (-1), coordFactor (F.J c) (F.Jinv c) (-1)]
        (fun I => F.sub c (H.comp A.n (H.metricOf t) [-1, -1] I)) [i, j]) := rfl
    rw [this, toMat_applyFactors_two, toMat_coordFactor,
      toMat_map A.n (fun i j => H.comp A.n (H.metricOf t) [-1, -1] [i, j]), g1]
    simp
  · have : toMat A.n ((H.geometry A.n F).ginv t c) = toMat A.n (fun i j => applyFactors A.n
        [coordFactor (F.J c) (F.Jinv c) 1, coordFactor (F.J c) (F.Jinv c) 1]
        (fun I => F.sub c (H.comp A.n (H.metricOf t) [1, 1] I)) [i, j]) := rfl
    rw [this, toMat_applyFactors_two, toMat_coordFactor,
      toMat_map A.n (fun i j => H.comp A.n (H.metricOf t) [1, 1] [i, j]), g2]
    simp

theorem zip_config {r : Nat} {ix ix' : List Int} (h : Config r ix) (h' : Config r ix') :
    ∀ p ∈ ix.zip ix', (p.1 = 1 ∨ p.1 = -1) ∧ (p.2 = 1 ∨ p.2 = -1) := by
  intro p hp
  exact ⟨h.2 _ (List.of_mem_zip hp).1, h'.2 _ (List.of_mem_zip hp).2⟩

theorem map_eq_zip_left {α : Type} {r : Nat} {ix ix' : List Int} (h : Config r ix) (h' : Config r ix')
    (f : Int → α) : ix.map f = (ix.zip ix').map fun p => f p.1 := by
  rw [← List.map_fst_zip (l₁ := ix) (l₂ := ix') (by rw [h.1, h'.1]), List.map_map,
    List.map_fst_zip (by rw [h.1, h'.1])]
  rfl

theorem map_eq_zip_right {α : Type} {r : Nat} {ix ix' : List Int} (h : Config r ix) (h' : Config r ix')
    (f : Int → α) : ix'.map f = (ix.zip ix').map fun p => f p.2 := by
  rw [← List.map_snd_zip (l₁ := ix) (l₂ := ix') (by rw [h.1, h'.1]), List.map_map,
    List.map_snd_zip (by rw [h.1, h'.1])]
  rfl

/-- What is declared in a home system determines a lawful geometry. -/
theorem geometry_lawful (hC : Consistent E A h F) (hH : H.OK A.n F.fns) :
    (H.geometry A.n F).Lawful E A := by
  have hm1 : ¬ ((-1 : Int) = 1) := by decide
  have h1m : ¬ ((1 : Int) = -1) := by decide
  have hJ : ∀ c, toMat A.n (F.J c) * toMat A.n (F.Jinv c) = 1 ∧
      toMat A.n (F.Jinv c) * toMat A.n (F.J c) = 1 := fun c => inverse_iff.1 (hC.inverse c)
  have hJt : ∀ c, (toMat A.n (F.Jinv c)).transpose * (toMat A.n (F.J c)).transpose = 1 := fun c => by
    rw [← Matrix.transpose_mul, (hJ c).1, Matrix.transpose_one]
  have hg : ∀ t c, (toMat A.n (H.g (H.metricOf t))).map (F.sub c) *
        (toMat A.n (H.ginv (H.metricOf t))).map (F.sub c) = 1 ∧
      (toMat A.n (H.ginv (H.metricOf t))).map (F.sub c) *
        (toMat A.n (H.g (H.metricOf t))).map (F.sub c) = 1 := by
    intro t c
    obtain ⟨h1, h2⟩ := inverse_iff.1 (hH.inverse t)
    rw [← Matrix.map_mul, ← Matrix.map_mul, h1, h2]
    simp
  have hinv : ∀ t c, Inverse A.n ((H.geometry A.n F).g t c) ((H.geometry A.n F).ginv t c) := by
    intro t c
    obtain ⟨e1, e2⟩ := geometry_g hC hH t c
    rw [inverse_iff, e1, e2]
    constructor
    · calc _ = (toMat A.n (F.J c)).transpose * ((toMat A.n (H.g (H.metricOf t))).map (F.sub c) *
          (toMat A.n (F.J c) * toMat A.n (F.Jinv c)) *
          (toMat A.n (H.ginv (H.metricOf t))).map (F.sub c)) * (toMat A.n (F.Jinv c)).transpose := by
            simp only [Matrix.mul_assoc]
        _ = 1 := by
          rw [(hJ c).1, Matrix.mul_one, (hg t c).1, Matrix.mul_one, ← Matrix.transpose_mul, (hJ c).2,
            Matrix.transpose_one]
    · calc _ = toMat A.n (F.Jinv c) * ((toMat A.n (H.ginv (H.metricOf t))).map (F.sub c) *
          ((toMat A.n (F.Jinv c)).transpose * (toMat A.n (F.J c)).transpose) *
          (toMat A.n (H.g (H.metricOf t))).map (F.sub c)) * toMat A.n (F.J c) := by
            simp only [Matrix.mul_assoc]
        _ = 1 := by rw [hJt c, Matrix.mul_one, (hg t c).2, Matrix.mul_one, (hJ c).2]
  refine ⟨?_, hinv, ?_, ?_, ?_⟩
  · intro t c i j hi hj
    have : toMat A.n ((H.geometry A.n F).g t c) = (toMat A.n ((H.geometry A.n F).g t c)).transpose := by
      obtain ⟨e1, e2⟩ := geometry_g hC hH t c
      have hs : (toMat A.n (H.g (H.metricOf t))).transpose = toMat A.n (H.g (H.metricOf t)) := by
        rw [← toMat_transpose, toMat_eq]
        intro i j hi hj
        exact hH.symm t j i hj hi
      rw [e1, Matrix.transpose_mul, Matrix.transpose_mul, Matrix.transpose_transpose, ← Matrix.transpose_map,
        hs, Matrix.mul_assoc]
    rw [← toMat_transpose, toMat_eq] at this
    exact this i j hi hj
  · intro t c i j hi hj
    obtain ⟨-, -, g3, g4⟩ := home_g hH t
    have e1 : toMat A.n (fun i j => (H.geometry A.n F).comp ((H.geometry A.n F).metricOf t) c [1, -1] [i, j])
        = 1 := by
      have : toMat A.n (fun i j => (H.geometry A.n F).comp ((H.geometry A.n F).metricOf t) c [1, -1] [i, j])
        = toMat A.n (fun i j => applyFactors A.n
        [coordFactor (F.J c) (F.Jinv c) 1, coordFactor (F.J c) (F.Jinv c) (-1)]
        (fun I => F.sub c (H.comp A.n (H.metricOf t) [1, -1] I)) [i, j]) := rfl
      rw [this, toMat_applyFactors_two, toMat_coordFactor, toMat_coordFactor,
        toMat_map A.n (fun i j => H.comp A.n (H.metricOf t) [1, -1] [i, j]), g3]
      simp [(hJ c).2]
    have e2 : toMat A.n (fun i j => (H.geometry A.n F).comp ((H.geometry A.n F).metricOf t) c [-1, 1] [i, j])
        = 1 := by
      have : toMat A.n (fun i j => (H.geometry A.n F).comp ((H.geometry A.n F).metricOf t) c [-1, 1] [i, j])
        = toMat A.n (fun i j => applyFactors A.n
        [coordFactor (F.J c) (F.Jinv c) (-1), coordFactor (F.J c) (F.Jinv c) 1]
        (fun I => F.sub c (H.comp A.n (H.metricOf t) [-1, 1] I)) [i, j]) := rfl
      rw [this, toMat_applyFactors_two, toMat_coordFactor, toMat_coordFactor,
        toMat_map A.n (fun i j => H.comp A.n (H.metricOf t) [-1, 1] [i, j]), g4]
      simp only [Matrix.map_one _ (map_zero _) (map_one _), Matrix.mul_one]
      rw [if_neg (by decide), if_pos trivial, ← Matrix.transpose_mul, (hJ c).2, Matrix.transpose_one]
    rw [← toMat_delta, toMat_eq] at e1 e2
    exact ⟨e1 i j hi hj, e2 i j hi hj⟩
  · intro t c ix ix' J hix hix' hl hJn
    show applyFactors A.n (ix'.map (coordFactor (F.J c) (F.Jinv c)))
        (fun I => F.sub c (H.comp A.n t ix' I)) J = applyFactors A.n _
        (applyFactors A.n (ix.map (coordFactor (F.J c) (F.Jinv c))) (fun I => F.sub c (H.comp A.n t ix I))) J
    have e : applyFactors A.n (ix'.map (coordFactor (F.J c) (F.Jinv c)))
        (fun I => F.sub c (H.comp A.n t ix' I)) J =
        applyFactors A.n (ix'.map (coordFactor (F.J c) (F.Jinv c)))
        (applyFactors A.n ((List.zipWith (indexFactor (H.g (H.metricOf t)) (H.ginv (H.metricOf t))) ix ix').map
          fun M i j => F.sub c (M i j)) (fun I => F.sub c (H.comp A.n t ix I))) J := by
      refine applyFactors_congr _ _ _ fun s hs hsn => ?_
      rw [← applyFactors_map]
      congr 1
      exact (raise_trans (hH.inverse t) (H.base t) (H.src t) ix ix' (hH.config t) hix hix' s
        (hs.trans hl) hsn).symm
    rw [e, zipWith_map_left_right, zipWith_map_left_right, List.map_map,
      map_eq_zip_right hix hix' (coordFactor (F.J c) (F.Jinv c)),
      map_eq_zip_left hix hix' (coordFactor (F.J c) (F.Jinv c)),
      applyFactors_comp_axiswise A.n _ _ _ _ J (by
        rw [List.length_zip, hix.1, hix'.1, hl, min_self]),
      applyFactors_comp_axiswise A.n _ _ _ _ J (by
        rw [List.length_zip, hix.1, hix'.1, hl, min_self])]
    refine applyFactors_axiswise A.n _ _ _ _ J hJn ?_
    intro p hp
    obtain ⟨ha, hb⟩ := zip_config hix hix' p hp
    obtain ⟨e1, e2⟩ := geometry_g hC hH t c
    rw [toMat_matMul, toMat_matMul]
    simp only [Function.comp]
    rw [toMat_map, toMat_indexFactor, toMat_indexFactor, toMat_coordFactor, toMat_coordFactor, e1, e2]
    rcases ha with ha | ha <;> rcases hb with hb | hb <;> rw [ha, hb]
    · simp
    · simp only [hm1, h1m, false_and, and_self, if_false, if_true]
      rw [Matrix.mul_assoc _ _ (toMat A.n (F.Jinv c)), (hJ c).1, Matrix.mul_one]
    · simp only [hm1, h1m, false_and, and_self, if_false, if_true]
      rw [Matrix.mul_assoc _ _ (toMat A.n (F.J c)).transpose, hJt c, Matrix.mul_one]
    · simp [hm1, h1m]
  · intro t c c' rules Ji ix J hrules hJi hix hl hJn
    obtain ⟨τ, t1, t2, t3⟩ := hC.step c c' rules hrules
    show applyFactors A.n (ix.map (coordFactor (F.J c') (F.Jinv c')))
        (fun I => F.sub c' (H.comp A.n t ix I)) J = substAll E rules (applyFactors A.n _
        (applyFactors A.n (ix.map (coordFactor (F.J c) (F.Jinv c))) (fun I => F.sub c (H.comp A.n t ix I))) J)
    rw [t1, applyFactors_comp_axiswise A.n _ _ _ _ J (by rw [hix.1, hl]), applyFactors_map, List.map_map]
    rw [applyFactors_congr A.n _ J fun s _ hs => t2 _ (home_comp_mem hH t ix s hs)]
    refine applyFactors_axiswise A.n _ _ _ _ J hJn ?_
    intro a ha
    simp only [Function.comp]
    set Jc := chartJacobian E (A.syms c) (A.syms c') rules
    rw [toMat_map, toMat_matMul, toMat_coordFactor, toMat_coordFactor, toMat_coordFactor]
    have e3 : toMat A.n (F.J c') = (toMat A.n (F.J c) * toMat A.n Jc).map τ := by
      rw [← toMat_matMul, ← toMat_map, toMat_eq]
      exact t3
    obtain ⟨i1, i2⟩ := inverse_iff.1 hJi
    rcases hix.2 a ha with rfl | rfl
    · simp only [if_true]
      have hx : (toMat A.n Ji * toMat A.n (F.Jinv c)).map τ * toMat A.n (F.J c') = 1 := by
        rw [e3, ← Matrix.map_mul, Matrix.mul_assoc, ← Matrix.mul_assoc (toMat A.n (F.Jinv c)), (hJ c).2,
          Matrix.one_mul, i2]
        simp
      calc toMat A.n (F.Jinv c') = 1 * toMat A.n (F.Jinv c') := by rw [Matrix.one_mul]
        _ = _ := by rw [← hx, Matrix.mul_assoc, (hJ c').1, Matrix.mul_one]
    · simp only [hm1, if_false]
      rw [e3, ← Matrix.transpose_mul, Matrix.transpose_map]

end
end PyOGRe
