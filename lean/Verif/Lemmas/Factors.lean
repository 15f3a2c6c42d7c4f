import Verif.Spec.Tensors
import Verif.Lemmas.Arr

/-! Helper lemmas about `Spec.applyFactors`. -/

namespace PyOGRe
open Spec Finset
variable {K : Type}

theorem sum_map_range {M : Type} [AddCommMonoid M] (n : Nat) (f : Nat → M) :
    ((List.range n).map f).sum = ∑ k ∈ range n, f k := by
  induction n with
  | zero => simp
  | succ n ih => rw [List.range_succ, Finset.sum_range_succ]; simp [ih]

theorem sum_map_tuples_succ {M : Type} [AddCommMonoid M] (n k : Nat) (f : List Nat → M) :
    ((tuples n (k + 1)).map f).sum = ∑ i ∈ range n, ((tuples n k).map fun s => f (i :: s)).sum := by
  rw [tuples, List.map_flatMap, ← sum_map_range]
  simp only [List.map_map, Function.comp_def]
  generalize List.range n = l
  induction l with
  | nil => simp
  | cons a l ih => simp [ih]

theorem sum_map_finset_sum {M α : Type} [AddCommMonoid M] (l : List α) (n : Nat) (f : α → Nat → M) :
    (l.map fun s => ∑ k ∈ range n, f s k).sum = ∑ k ∈ range n, (l.map fun s => f s k).sum := by
  induction l with
  | nil => simp
  | cons a l ih => simp [ih, Finset.sum_add_distrib]

section
variable [CommRing K]

theorem applyFactors_nil (n : Nat) (Ms : List (Nat → Nat → K)) (T : List Nat → K) :
    applyFactors n Ms T [] = T [] := by
  simp [applyFactors, tuples, factorProd]

theorem applyFactors_cons (n : Nat) (M : Nat → Nat → K) (Ms : List (Nat → Nat → K))
    (T : List Nat → K) (j : Nat) (J : List Nat) :
    applyFactors n (M :: Ms) T (j :: J) =
      ∑ k ∈ range n, M j k * applyFactors n Ms (fun s => T (k :: s)) J := by
  simp only [applyFactors, List.length_cons, sum_map_tuples_succ, factorProd]
  refine Finset.sum_congr rfl fun k _ => ?_
  rw [← List.sum_map_mul_left]
  simp [mul_assoc]

theorem applyFactors_sum (n : Nat) (Ms : List (Nat → Nat → K)) (m : Nat) (c : Nat → K)
    (T : Nat → List Nat → K) (J : List Nat) :
    applyFactors n Ms (fun s => ∑ k ∈ range m, c k * T k s) J =
      ∑ k ∈ range m, c k * applyFactors n Ms (T k) J := by
  simp only [applyFactors, Finset.mul_sum]
  rw [sum_map_finset_sum]
  refine Finset.sum_congr rfl fun k _ => ?_
  rw [← List.sum_map_mul_left]
  congr 1
  apply List.map_congr_left
  intro s _
  ring

theorem applyFactors_congr (n : Nat) (Ms : List (Nat → Nat → K)) {T T' : List Nat → K} (J : List Nat)
    (h : ∀ s, s.length = J.length → (∀ x ∈ s, x < n) → T s = T' s) :
    applyFactors n Ms T J = applyFactors n Ms T' J := by
  simp only [applyFactors]
  congr 1
  apply List.map_congr_left
  intro s hs
  rw [mem_tuples] at hs
  rw [h s hs.1 hs.2]

theorem applyFactors_congr_factors (n : Nat) {Ms Ns : List (Nat → Nat → K)} (T : List Nat → K)
    (J : List Nat) (hJ : ∀ x ∈ J, x < n)
    (h : List.Forall₂ (fun M N => ∀ i j, i < n → j < n → M i j = N i j) Ms Ns) :
    applyFactors n Ms T J = applyFactors n Ns T J := by
  induction h generalizing J T with
  | nil => rfl
  | @cons M N Ms Ns hMN _ ih =>
    cases J with
    | nil => simp [applyFactors_nil]
    | cons j J =>
      rw [applyFactors_cons, applyFactors_cons]
      refine Finset.sum_congr rfl fun k hk => ?_
      rw [hMN j k (hJ j (by simp)) (by simpa using hk), ih _ J fun x hx => hJ x (by simp [hx])]

theorem applyFactors_comp (n : Nat) (Ms Ns : List (Nat → Nat → K)) (T : List Nat → K) (J : List Nat)
    (hM : Ms.length = J.length) (hN : Ns.length = J.length) :
    applyFactors n Ms (applyFactors n Ns T) J = applyFactors n (List.zipWith (matMul n) Ms Ns) T J := by
  induction J generalizing Ms Ns T with
  | nil => simp [applyFactors_nil]
  | cons j J ih =>
    cases Ms with
    | nil => simp at hM
    | cons M Ms =>
      cases Ns with
      | nil => simp at hN
      | cons N Ns =>
        simp only [List.length_cons, Nat.add_right_cancel_iff] at hM hN
        rw [applyFactors_cons, List.zipWith_cons_cons, applyFactors_cons]
        simp only [applyFactors_cons]
        simp only [applyFactors_sum, ih _ _ _ hM hN, matMul, Finset.sum_mul, Finset.mul_sum]
        rw [Finset.sum_comm]
        refine Finset.sum_congr rfl fun k _ => Finset.sum_congr rfl fun l _ => ?_
        ring

theorem applyFactors_delta (n : Nat) (Ms : List (Nat → Nat → K)) (T : List Nat → K) (J : List Nat)
    (hJ : ∀ x ∈ J, x < n) (hM : Ms.length = J.length)
    (h : ∀ M ∈ Ms, ∀ i j, i < n → j < n → M i j = delta i j) :
    applyFactors n Ms T J = T J := by
  induction J generalizing Ms T with
  | nil => simp [applyFactors_nil]
  | cons j J ih =>
    cases Ms with
    | nil => simp at hM
    | cons M Ms =>
      rw [applyFactors_cons]
      have hj : j < n := hJ j (by simp)
      rw [Finset.sum_eq_single_of_mem j (by simpa using hj)]
      · rw [h M (by simp) j j hj hj, ih _ _ (fun x hx => hJ x (by simp [hx])) (by simpa using hM)
          fun M' hM' => h M' (by simp [hM'])]
        simp [delta]
      · intro k hk hkj
        rw [h M (by simp) j k hj (by simpa using hk)]
        simp [delta, Ne.symm hkj]

/-- A matrix acting on one axis. -/
def applyAxis (n : Nat) (M : Nat → Nat → K) (i : Nat) (T : List Nat → K) (J : List Nat) : K :=
  ∑ k ∈ range n, M (J.getD i 0) k * T (J.set i k)

/-- Acting on the axes one after the other, starting from axis `m`. -/
def applyAxes (n : Nat) : List (Nat → Nat → K) → Nat → (List Nat → K) → List Nat → K
  | [], _, T => T
  | M :: Ms, m, T => applyAxes n Ms (m + 1) (applyAxis n M m T)

theorem applyAxes_eq (n : Nat) (Ms : List (Nat → Nat → K)) (T : List Nat → K) (A B : List Nat)
    (hB : B.length = Ms.length) :
    applyAxes n Ms A.length T (A ++ B) = applyFactors n Ms (fun s => T (A ++ s)) B := by
  induction Ms generalizing A B T with
  | nil =>
    cases B with
    | nil => simp [applyAxes, applyFactors_nil]
    | cons b B => simp at hB
  | cons M Ms ih =>
    cases B with
    | nil => simp at hB
    | cons b B =>
      simp only [List.length_cons, Nat.add_right_cancel_iff] at hB
      have := ih (applyAxis n M A.length T) (A ++ [b]) B hB
      simp only [List.length_append, List.length_cons, List.length_nil, zero_add,
        List.append_assoc, List.cons_append, List.nil_append] at this
      rw [applyAxes, this, applyFactors_cons, ← applyFactors_sum]
      apply applyFactors_congr
      intro s _ _
      simp [applyAxis, List.getD_eq_getElem?_getD, List.set_append]

end
end PyOGRe
