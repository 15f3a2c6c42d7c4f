import Verif.Spec.Connection

/-!
# Products of spaces

The metric of a product consists of two blocks, each of which depends only on its own coordinates.
-/

namespace PyOGRe.Spec
variable {K : Type} [CommRing K] [Algebra ℚ K]

/-- `G` is the product of `A` and `B`: its coordinates are those of `A` and then those of `B`. -/
structure Product (E : Engine K) (A B G : Ground K) : Prop where
  n : G.n = A.n + B.n
  syms : G.syms = A.syms ++ B.syms
  first : ∀ i j, i < A.n → j < A.n → G.g i j = A.g i j
  second : ∀ i j, i < B.n → j < B.n → G.g (A.n + i) (A.n + j) = B.g i j
  between : ∀ i j, i < A.n → j < B.n → G.g i (A.n + j) = 0 ∧ G.g (A.n + j) i = 0
  firstApart : ∀ k i j, k < B.n → i < A.n → j < A.n → B.d E k (A.g i j) = 0
  secondApart : ∀ k i j, k < A.n → i < B.n → j < B.n → A.d E k (B.g i j) = 0

/-- The array with the block `S` for indices less than `m` and the block `T` for the other ones. -/
def twoBlocks (m : Nat) (S T : List Nat → K) (J : List Nat) : K :=
  if ∀ x ∈ J, x < m then S J else if ∀ x ∈ J, m ≤ x then T (J.map (· - m)) else 0

/-- The function `f` returns a tensor for each of the three metrics, and the components for the product are the two
blocks and otherwise zero. -/
def Splits (A B G : Ground K) (wA wB w : World K) (f : Id' → PyM K Id') (ix : List Int) : Prop :=
  ∃ S T : List Nat → K,
    (Returns A wA (f A.m) ix fun D => ∀ J, J.length = ix.length → (∀ i ∈ J, i < A.n) → D.val J = S J) ∧
    (Returns B wB (f B.m) ix fun D => ∀ J, J.length = ix.length → (∀ i ∈ J, i < B.n) → D.val J = T J) ∧
    Returns G w (f G.m) ix fun D => ∀ J, J.length = ix.length → (∀ i ∈ J, i < G.n) → D.val J = twoBlocks A.n S T J

/-- The Ricci scalars and Einstein tensors: the scalar of the product is the sum of those of the factors, and from each block
of the Einstein tensor half of the scalar of the other factor times the metric is subtracted. -/
def ScalarsAdd (E : Engine K) [DecidableEq K] (A B G : Ground K) (wA wB w : World K) : Prop :=
  ∃ (x y : K) (S T : List Nat → K),
    Returns A wA (calcScalar E A.m) [] (fun D => D.val [] = x) ∧ Returns B wB (calcScalar E B.m) [] (fun D => D.val [] = y) ∧
    Returns G w (calcScalar E G.m) [] (fun D => D.val [] = x + y) ∧
    (Returns A wA (calcEinstein E A.m) [-1, -1] fun D => ∀ J, J.length = 2 → (∀ i ∈ J, i < A.n) → D.val J = S J) ∧
    (Returns B wB (calcEinstein E B.m) [-1, -1] fun D => ∀ J, J.length = 2 → (∀ i ∈ J, i < B.n) → D.val J = T J) ∧
    Returns G w (calcEinstein E G.m) [-1, -1] fun D => ∀ J, J.length = 2 → (∀ i ∈ J, i < G.n) → D.val J =
      twoBlocks A.n (fun J => S J - rat (1 / 2) * y * A.g (J.getD 0 0) (J.getD 1 0))
        (fun J => T J - rat (1 / 2) * x * B.g (J.getD 0 0) (J.getD 1 0)) J

/-- Two blocks of two rows and columns and of one. -/
example : (List.range 3).map (fun i => (List.range 3).map fun j =>
    twoBlocks 2 (fun J => (10 * J.getD 0 0 + J.getD 1 0 + 11 : ℚ)) (fun _ => 7) [i, j]) =
    [[11, 12, 0], [21, 22, 0], [0, 0, 7]] := by
  simp [List.range, List.range.loop, twoBlocks]
  norm_num

end PyOGRe.Spec
