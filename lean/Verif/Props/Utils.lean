import Verif.Lemmas.Utils

/-!
# Properties of `Utils.py`: C01 - C07

Vocabulary: `Spec.dropAxes`, `Spec.withAxes`, `Spec.tuples` (`Verif/Spec/Arrays.lean`);
`Valid shape idx` says that `idx` is a position of an array of that shape: as many entries as axes,
each smaller than the length of its axis.
-/

namespace PyOGRe
open Spec

variable {K : Type}

/-- An engine over the integers used in the examples: nothing to simplify, all derivatives zero. -/
def Spec.intEngine : Engine Int := ⟨id, fun _ _ => 0, fun _ _ x => x, fun _ => .error .nonInvertibleMatrixError,
  fun _ => 0⟩

/-- **C01** `contract` is the Einstein sum.  Two arrays with all axes of length `n`, contracted over
any list of in-range axis pairs, distinct on each side: the call returns, the result has the remaining
axes, and its component at (free axes of the first, free axes of the second) is the sum of products.
The last clause says that this describes every component of the result. -/
theorem C01_contract_einstein_sum [CommSemiring K] (E : Engine K) (hE : ∀ x, E.simp x = x)
    {n r1 r2 : Nat} (hn : 0 < n) (a1 a2 : Arr K)
    (h1 : a1.shape = List.replicate r1 n) (h2 : a2.shape = List.replicate r2 n)
    (ps : List (Nat × Nat)) (hp1 : ∀ p ∈ ps, p.1 < r1) (hp2 : ∀ p ∈ ps, p.2 < r2)
    (hd1 : (ps.map (·.1)).Nodup) (hd2 : (ps.map (·.2)).Nodup) :
    ∃ c : Arr K, contract E a1 a2 (ps.map fun p => ((p.1 : Int), (p.2 : Int))) = .ok c ∧ c.WF ∧
      c.shape = List.replicate (r1 + r2 - 2 * ps.length) n ∧
      (∀ I J, Valid a1.shape I → Valid a2.shape J →
        c.get (dropAxes (ps.map (·.1)) I ++ dropAxes (ps.map (·.2)) J) =
          ((tuples n ps.length).map fun s =>
            a1.get (withAxes I (ps.map (·.1)) s) * a2.get (withAxes J (ps.map (·.2)) s)).sum) ∧
      (∀ idx, Valid c.shape idx → ∃ I J, Valid a1.shape I ∧ Valid a2.shape J ∧
        idx = dropAxes (ps.map (·.1)) I ++ dropAxes (ps.map (·.2)) J) :=
  contract_spec E hE hn a1 a2 h1 h2 ps hp1 hp2 hd1 hd2

/-- C01: a case that meets the hypotheses, a matrix product. -/
example : contract intEngine ⟨[2, 2], [1, 2, 3, 4]⟩ ⟨[2, 2], [5, 6, 7, 8]⟩ [(1, 0)] =
    .ok ⟨[2, 2], [19, 22, 43, 50]⟩ := by decide

/-- C01: contracting two pairs of a rank-3 array with a matrix. -/
example : contract intEngine ⟨[2, 2, 2], [1, 2, 3, 4, 5, 6, 7, 8]⟩ ⟨[2, 2], [1, 10, 100, 1000]⟩
    [(2, 0), (0, 1)] = .ok ⟨[2], [6251, 8473]⟩ := by decide

/-- C01: without pairs `contract` is the outer product, for arrays of any shapes. -/
theorem C01_contract_outer_product [CommSemiring K] (E : Engine K) (a1 a2 : Arr K) :
    ∃ c : Arr K, contract E a1 a2 [] = .ok c ∧ c.shape = a1.shape ++ a2.shape ∧
      ∀ I J, Valid a1.shape I → Valid a2.shape J → c.get (I ++ J) = a1.get I * a2.get J :=
  ⟨Arr.tensorproduct a1 a2, by simp [contract], rfl, fun _ _ hI hJ => Arr.get_tensorproduct hI hJ⟩

/-- The list of axis pairs given to `contract` is well-formed for arrays of ranks `r1`, `r2`. -/
def Spec.PairsOK (r1 r2 : Nat) (ps : List (Int × Int)) : Prop :=
  (∀ p ∈ ps, 0 ≤ p.1 ∧ p.1 < r1 ∧ 0 ≤ p.2 ∧ p.2 < r2) ∧
    (ps.map (·.1)).Nodup ∧ (ps.map (·.2)).Nodup

theorem Spec.PairsOK.exists_nat {r1 r2 : Nat} {ps : List (Int × Int)} (h : PairsOK r1 r2 ps) :
    ∃ qs : List (Nat × Nat), ps = qs.map (fun p => ((p.1 : Int), (p.2 : Int))) ∧
      (∀ p ∈ qs, p.1 < r1) ∧ (∀ p ∈ qs, p.2 < r2) ∧ (qs.map (·.1)).Nodup ∧ (qs.map (·.2)).Nodup := by
  refine ⟨ps.map fun p => (p.1.toNat, p.2.toNat), ?_, ?_, ?_, ?_, ?_⟩
  · rw [List.map_map]
    conv_lhs => rw [← List.map_id ps]
    apply List.map_congr_left
    intro p hp
    obtain ⟨h1, -, h3, -⟩ := h.1 p hp
    simp [Int.toNat_of_nonneg h1, Int.toNat_of_nonneg h3]
  · simp only [List.mem_map]; rintro q ⟨p, hp, rfl⟩
    have := h.1 p hp; simp only; omega
  · simp only [List.mem_map]; rintro q ⟨p, hp, rfl⟩
    have := h.1 p hp; simp only; omega
  · rw [List.map_map]
    have : ((·.1) ∘ fun p : Int × Int => (p.1.toNat, p.2.toNat)) = Int.toNat ∘ (·.1) := rfl
    rw [this, ← List.map_map]
    refine List.Nodup.map_on ?_ h.2.1
    simp only [List.mem_map]
    rintro x ⟨p, hp, rfl⟩ y ⟨q, hq, rfl⟩ hxy
    have := h.1 p hp; have := h.1 q hq; omega
  · rw [List.map_map]
    have : ((·.2) ∘ fun p : Int × Int => (p.1.toNat, p.2.toNat)) = Int.toNat ∘ (·.2) := rfl
    rw [this, ← List.map_map]
    refine List.Nodup.map_on ?_ h.2.2
    simp only [List.mem_map]
    rintro x ⟨p, hp, rfl⟩ y ⟨q, hq, rfl⟩ hxy
    have := h.1 p hp; have := h.1 q hq; omega

/-- **C02** For arrays with all axes of one length, `contract` returns exactly for the well-formed
lists of axis pairs, and raises `ValueError` for all others. -/
theorem C02_contract_rejects [CommSemiring K] (E : Engine K) {n r1 r2 : Nat} (hn : 0 < n)
    (a1 a2 : Arr K) (h1 : a1.shape = List.replicate r1 n) (h2 : a2.shape = List.replicate r2 n)
    (ps : List (Int × Int)) :
    (PairsOK r1 r2 ps → ∃ c, contract E a1 a2 ps = .ok c) ∧
      (¬ PairsOK r1 r2 ps → contract E a1 a2 ps = .error .valueError) := by
  have hr1 : a1.rank = r1 := by simp [Arr.rank, h1]
  have hr2 : a2.rank = r2 := by simp [Arr.rank, h2]
  constructor
  · intro h
    obtain ⟨qs, rfl, q1, q2, q3, q4⟩ := h.exists_nat
    obtain ⟨c, hc, -⟩ := contract_returns E hn a1 a2 h1 h2 qs q1 q2 q3 q4
    exact ⟨c, hc⟩
  · intro h
    have hne : ps ≠ [] := by
      rintro rfl; exact h ⟨by simp, by simp, by simp⟩
    have hchk : contractChecks r1 r2 ps = .error .valueError := by
      unfold contractChecks
      split_ifs with c1 c2 c3 c4
      · rfl
      · rfl
      · rfl
      · rfl
      · exfalso; apply h
        simp only [List.any_eq_true, Bool.or_eq_true, decide_eq_true_eq, not_exists, not_and,
          not_or, List.mem_range] at c1 c2 c3 c4
        have hb : ∀ p ∈ ps, 0 ≤ p.1 ∧ p.1 < r1 ∧ 0 ≤ p.2 ∧ p.2 < r2 := by
          intro p hp
          have := c1 p hp; have := c2 p hp; omega
        refine ⟨hb, ?_, ?_⟩
        · rw [List.nodup_iff_count_le_one]
          intro x
          by_cases hx : x ∈ ps.map (·.1)
          · obtain ⟨p, hp, rfl⟩ := List.mem_map.1 hx
            have hb' := hb p hp
            have := c3 p.1.toNat (by omega)
            rw [Int.toNat_of_nonneg hb'.1] at this
            omega
          · rw [List.count_eq_zero_of_not_mem hx]; omega
        · rw [List.nodup_iff_count_le_one]
          intro x
          by_cases hx : x ∈ ps.map (·.2)
          · obtain ⟨p, hp, rfl⟩ := List.mem_map.1 hx
            have hb' := hb p hp
            have := c4 p.2.toNat (by omega)
            rw [Int.toNat_of_nonneg hb'.2.2.1] at this
            omega
          · rw [List.count_eq_zero_of_not_mem hx]; omega
    have : ps.isEmpty = false := by cases ps <;> simp_all
    simp [contract, this, hr1, hr2, hchk]

/-- C02: a repeated axis is refused, a good pair accepted. -/
example : PairsOK 2 2 [(1, 0)] ∧ ¬ PairsOK 2 2 [(1, 0), (1, 1)] := by
  constructor
  · refine ⟨by simp, by simp, by simp⟩
  · rintro ⟨-, h, -⟩; simp at h

/-- **C03** The gradient: the derivative axis comes first, for arrays of any rank whose axes are as long
as the coordinate list. -/
theorem C03_gradient [AddMonoid K] (E : Engine K) (coords : List Sym) (hc : 0 < coords.length)
    {r : Nat} (a : Arr K) (h : a.shape = List.replicate r coords.length) :
    ∃ c : Arr K, partialContract E coords a none = .ok c ∧ c.WF ∧
      c.shape = List.replicate (r + 1) coords.length ∧
      ∀ i I, (hi : i < coords.length) → Valid a.shape I →
        c.get (i :: I) = E.diff coords[i] (a.get I) :=
  partialContract_gradient E coords hc a h

/-- C03: the hypotheses are met by a 2x2 array over two coordinates. -/
example : (⟨[2, 2], [1, 2, 3, 4]⟩ : Arr Int).shape = List.replicate 2 ["x", "y"].length := by decide

/-- **C04** (part that holds) The divergence over axis 0 or 1 of an array of any rank.
Missing: axes 2 and above, which the code refuses (`C04_divergence_axis2_refused`). -/
theorem C04_divergence_partial [AddCommMonoid K] (E : Engine K) (coords : List Sym)
    (hc : 0 < coords.length) {r : Nat} (a : Arr K) (h : a.shape = List.replicate r coords.length)
    (k : Nat) (hk : k < r) (hk1 : k ≤ 1) :
    ∃ c : Arr K, partialContract E coords a (some k) = .ok c ∧ c.WF ∧
      c.shape = List.replicate (r - 1) coords.length ∧
      (∀ I, Valid a.shape I →
        c.get (dropAxes [k] I) =
          ((List.range coords.length).map fun i =>
            E.diff (coords.getD i "") (a.get (withAxes I [k] [i]))).sum) ∧
      (∀ idx, Valid c.shape idx → ∃ I, Valid a.shape I ∧ idx = dropAxes [k] I) :=
  partialContract_divergence E coords hc a h k hk hk1

/-- C04: the hypotheses are met by the second axis of a 2x2 array. -/
example : (1 : Nat) < 2 ∧ (1 : Nat) ≤ 1 ∧
    (⟨[2, 2], [1, 2, 3, 4]⟩ : Arr Int).shape = List.replicate 2 ["x", "y"].length := by decide

/-- C04 is false of the code: an existing axis beyond the second one is refused with `ValueError`,
for every array of rank at least 3. -/
theorem C04_divergence_axis2_refused [Zero K] [Add K] (E : Engine K) (coords : List Sym) (a : Arr K)
    (k : Nat) (hk : 2 ≤ k) (_hr : k < a.rank) :
    partialContract E coords a (some k) = .error .valueError := by
  have h1 : ¬ ((k : Int) < 0) := by omega
  have h2 : (k : Int) > 1 ∨ (k : Int) > a.rank := by left; omega
  simp only [partialContract, h1, if_false, h2, if_true]; rfl

/-- C04: there are such arrays, for example of shape (2,2,2) with axis 2. -/
example : (2 : Nat) ≤ 2 ∧ 2 < (⟨[2, 2, 2], [1, 2, 3, 4, 5, 6, 7, 8]⟩ : Arr Int).rank := by decide

/-- C04 is false of the code in a second way: the non-existing axis 1 of a vector is not refused with
`ValueError` but runs into an `IndexError`. -/
theorem C04_divergence_missing_axis_not_valueError [AddMonoid K] (E : Engine K) (coords : List Sym)
    (hc : 0 < coords.length) (a : Arr K) (h : a.shape = [coords.length]) :
    partialContract E coords a (some 1) = .error .indexError := by
  cases coords with
  | nil => simp at hc
  | cons c cs =>
    have hr : a.rank = 1 := by simp [Arr.rank, h]
    simp [partialContract, hr, h, zeroTensor]

/-- **C05** `zero_tensor`: which arguments are accepted, and the result. -/
theorem C05_zero_tensor [Zero K] (dim rank : Int) :
    (rank < 0 ∨ (0 < rank ∧ dim < 1) → zeroTensor (K := K) dim rank = .error .valueError) ∧
    (rank = 0 ∨ (0 < rank ∧ 1 ≤ dim) → ∃ z : Arr K, zeroTensor (K := K) dim rank = .ok z ∧ z.WF ∧
      z.shape = List.replicate rank.toNat dim.toNat ∧ ∀ idx, Valid z.shape idx → z.get idx = 0) := by
  constructor
  · rintro (h | ⟨h1, h2⟩)
    · have h1 : ¬ rank = 0 := by omega
      have h2 : ¬ 0 < rank := by omega
      simp [zeroTensor, h1, h2]
    · have h3 : ¬ rank = 0 := by omega
      simp [zeroTensor, h2, h3]
  · intro h
    obtain ⟨d, hd⟩ : ∃ d : Nat, dim.toNat = d := ⟨_, rfl⟩
    rcases h with h | ⟨h1, h2⟩
    · subst h
      refine ⟨Arr.scalar 0, by simp [zeroTensor], rfl, rfl, fun idx h => ?_⟩
      have : idx = [] := valid_nil.1 h
      subst this; rfl
    · obtain ⟨z, hz, hs, hw, h0⟩ := zeroTensor_uniform (K := K) dim.toNat rank.toNat (by omega)
      rw [Int.toNat_of_nonneg (by omega), Int.toNat_of_nonneg (by omega)] at hz
      exact ⟨z, hz, hw, hs, h0⟩

/-- C05: both cases occur. -/
example : zeroTensor (K := Int) 2 2 = .ok ⟨[2, 2], [0, 0, 0, 0]⟩ ∧
    zeroTensor (K := Int) 0 1 = .error .valueError := by decide

/-- **C06** `elements` lists every position of the array exactly once, in row-major (lexicographic)
order, with the component at that position. -/
theorem C06_elements [Zero K] (a : Arr K) :
    ((elements a).map (·.1)).Nodup ∧
      ((elements a).map (·.1)).Pairwise (· < ·) ∧
      (∀ idx, idx ∈ (elements a).map (·.1) ↔ List.Forall₂ (· < ·) idx a.shape) ∧
      (∀ p ∈ elements a, p.2 = a.get p.1) := by
  have he : elements a = (allIdx a.shape).map fun I => (I, a.get I) := elements_eq a
  have hk : (elements a).map (·.1) = allIdx a.shape := by rw [he]; simp [Function.comp_def]
  rw [hk]
  refine ⟨nodup_allIdx _, pairwise_allIdx _, fun idx => mem_allIdx, ?_⟩
  rw [he]
  simp only [List.mem_map]
  rintro p ⟨I, -, rfl⟩
  rfl

/-- C06: a 2x3 array. -/
example : elements (⟨[2, 3], [1, 2, 3, 4, 5, 6]⟩ : Arr Int) =
    [([0, 0], 1), ([0, 1], 2), ([0, 2], 3), ([1, 0], 4), ([1, 1], 5), ([1, 2], 6)] := by decide

/-- **C07** (part that holds) `map_to_array` is pointwise for arrays with all axes of one length.
Missing: arrays with axes of different lengths (`C07_map_to_array_not_pointwise`). -/
theorem C07_map_to_array_partial [Zero K] (f : K → K) {n r : Nat} (hn : 0 < n) (a : Arr K)
    (h : a.shape = List.replicate r n) :
    ∃ c : Arr K, mapToArray a f = .ok c ∧ c.WF ∧ c.shape = a.shape ∧
      ∀ idx, Valid a.shape idx → c.get idx = f (a.get idx) :=
  mapToArray_uniform f hn a h

/-- C07: the hypotheses are met by a 2x2 array. -/
example : mapToArray (⟨[2, 2], [1, -2, 3, -4]⟩ : Arr Int) (fun x => x * x) = .ok ⟨[2, 2], [1, 4, 9, 16]⟩ := by
  decide

/-- C07 is false of the code for a column: the result is a square matrix, so `show(function=f)` of any
vector with at least two components displays an array of another shape. -/
theorem C07_map_to_array_not_pointwise [Zero K] (f : K → K) (n : Nat) (hn : 2 ≤ n) (a : Arr K)
    (h : a.shape = [n]) :
    ∃ c, showWithFunction a f = .ok c ∧ c.shape = [n, n] := by
  rw [showWithFunction, h]
  exact mapToArray_column f n (by omega) _ rfl

/-- C07: a vector with two components. -/
example : showWithFunction (⟨[2], [1, -2]⟩ : Arr Int) (fun x => x * x) = .ok ⟨[2, 2], [1, 0, 4, 0]⟩ := by
  decide

end PyOGRe
