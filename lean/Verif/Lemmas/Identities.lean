import Verif.Lemmas.AnyIdentities

/-! Helper lemmas: the divergence of the Einstein tensor in terms of `covariantAt`. -/

namespace PyOGRe
open Spec Finset
variable {K : Type} [CommRing K] [Algebra ℚ K] {E : Engine K} {G : Ground K}

theorem covariantAt_of (a : Sym) (l : List Sym) (T : (Sym → Int) → (Sym → Nat) → K) (pos : Sym → Int) (ρ : Sym → Nat) :
    covariantAt E G a l T pos ρ = covariantAtOf E G (christoffel E G) a l T pos ρ := covariantAt_eq a l T pos ρ

/-- The divergence of a tensor with two lower indices, over its first index. -/
theorem divergence_at (hC : Calculus E) (hi : Inverse G.n G.g G.gi)
    (hs : ∀ i j, i < G.n → j < G.n → G.g i j = G.g j i) {b c x : Sym} (hbc : b ≠ c) (hxb : x ≠ b) (hxc : x ≠ c)
    {T : (Sym → Int) → (Sym → Nat) → K} (hT : Lawful G [b, c] T) {t : Nat → Nat → K}
    {pos : Sym → Int} (hpos : Positions pos) (hpb : pos b = -1) (hpc : pos c = -1)
    (hv : ∀ ρ, Values G.n ρ → T pos ρ = t (ρ b) (ρ c)) {ρ : Sym → Nat} (hρ : Values G.n ρ) :
    ∑ k ∈ range G.n, covariantAt E G x [b, c] T (Function.update pos b 1)
      (Function.update (Function.update ρ b k) x k) = divergence2 E G t (ρ c) := by
  unfold divergence2
  refine sum_congr rfl fun k hk => ?_
  have hk : k < G.n := by simpa using hk
  have hρ' := values_update (values_update hρ b hk) x hk
  rw [lawful_covariantAt hC hi hs (by simp [hxb, hxc]) hT b (by simp) pos _ 1 hpos hρ' (Or.inl rfl), hpb]
  refine sum_congr rfl fun m hm => ?_
  have hm : m < G.n := by simpa using hm
  have hf : indexFactor G.g G.gi (-1) 1 = G.gi := by unfold indexFactor; simp
  rw [hf, Function.update_of_ne hxb.symm, Function.update_self]
  congr 1
  set σ := Function.update (Function.update (Function.update ρ b k) x k) b m with hσ
  have hσv : Values G.n σ := values_update hρ' b hm
  have sx : σ x = k := by rw [hσ, Function.update_of_ne hxb, Function.update_self]
  have sb : σ b = m := by rw [hσ, Function.update_self]
  have sc : σ c = ρ c := by
    rw [hσ, Function.update_of_ne hbc.symm, Function.update_of_ne hxc.symm, Function.update_of_ne hbc.symm]
  have hF : ([b, c] : List Sym).toFinset = insert b {c} := by simp
  unfold covariantAt
  rw [hF, sum_insert (by simp [hbc]), sum_singleton, hpb, hpc]
  simp only [show ¬ ((-1 : Int) = 1) by decide, if_false]
  rw [hv σ hσv, sx, sb, sc]
  have e1 : ∑ l ∈ range G.n, christoffel E G l k m * T pos (Function.update σ b l) =
      ∑ l ∈ range G.n, christoffel E G l k m * t l (ρ c) := sum_congr rfl fun l hl => by
    rw [hv _ (values_update hσv b (by simpa using hl)), Function.update_self, Function.update_of_ne hbc.symm, sc]
  have e2 : ∑ l ∈ range G.n, christoffel E G l k (ρ c) * T pos (Function.update σ c l) =
      ∑ l ∈ range G.n, christoffel E G l k (ρ c) * t m l := sum_congr rfl fun l hl => by
    rw [hv _ (values_update hσv c (by simpa using hl)), Function.update_self, Function.update_of_ne hbc, sb]
  rw [e1, e2]
  ring

end PyOGRe
