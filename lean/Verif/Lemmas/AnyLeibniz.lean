import Verif.Lemmas.Leibniz
import Verif.Spec.Connection

/-!
Helper lemmas: the Leibniz rule for arbitrary connection coefficients.  The proofs are those of `Leibniz.lean`, with `Γ` in
place of the Christoffel symbols.
-/

namespace PyOGRe
open Spec Finset
variable {K : Type} [CommRing K] [Algebra ℚ K] {E : Engine K} {G : Ground K} {Γ : Nat → Nat → Nat → K}

/-- The connection `Γ` for an index in position `p`. -/
def connOf (Γ : Nat → Nat → Nat → K) (i : Nat) (p : Int) (x k : Nat) : K := if p = 1 then Γ x i k else -Γ k i x

/-- The covariant derivative of labelled values with the connection `Γ`. -/
def covariantAtOf (E : Engine K) (G : Ground K) (Γ : Nat → Nat → Nat → K) (a : Sym) (labels : List Sym)
    (T : (Sym → Int) → (Sym → Nat) → K) (pos : Sym → Int) (ρ : Sym → Nat) : K :=
  G.d E (ρ a) (T pos ρ) + ∑ s ∈ labels.toFinset, ∑ k ∈ range G.n, connOf Γ (ρ a) (pos s) (ρ s) k * T pos (Function.update ρ s k)

theorem covariantAtOf_eq (a : Sym) (labels : List Sym) (T : (Sym → Int) → (Sym → Nat) → K) (pos : Sym → Int)
    (ρ : Sym → Nat) : covariantAtOf E G Γ a labels T pos ρ = G.d E (ρ a) (T pos ρ) + ∑ s ∈ labels.toFinset,
      ∑ k ∈ range G.n, connOf Γ (ρ a) (pos s) (ρ s) k * T pos (Function.update ρ s k) := rfl

theorem connOf_opposite {p : Int} (hp : p = 1 ∨ p = -1) (i x k : Nat) :
    connOf Γ i (-p) x k = -connOf Γ i p k x := by
  unfold connOf
  rcases hp with rfl | rfl
  · simp
  · simp

theorem covariantAtOf_congr {a : Sym} {labels : List Sym} {T T' : (Sym → Int) → (Sym → Nat) → K} {pos : Sym → Int}
    (h : ∀ ρ, Values G.n ρ → T pos ρ = T' pos ρ) {ρ : Sym → Nat} (hρ : Values G.n ρ) :
    covariantAtOf E G Γ a labels T pos ρ = covariantAtOf E G Γ a labels T' pos ρ := by
  rw [covariantAtOf_eq, covariantAtOf_eq, h ρ hρ]
  congr 1
  refine sum_congr rfl fun s _ => sum_congr rfl fun k hk => ?_
  rw [h _ (values_update hρ s (by simpa using hk))]

theorem covariantAtOf_perm {a : Sym} {labels labels' : List Sym} (h : labels.Perm labels')
    (T : (Sym → Int) → (Sym → Nat) → K) (pos : Sym → Int) (ρ : Sym → Nat) :
    covariantAtOf E G Γ a labels T pos ρ = covariantAtOf E G Γ a labels' T pos ρ := by
  unfold covariantAtOf
  rw [List.toFinset_eq_of_perm _ _ h]

theorem covariantAtOf_add (hC : Calculus E) (a : Sym) (labels : List Sym) (T T' : (Sym → Int) → (Sym → Nat) → K)
    (pos : Sym → Int) (ρ : Sym → Nat) :
    covariantAtOf E G Γ a labels (fun pos ρ => T pos ρ + T' pos ρ) pos ρ =
      covariantAtOf E G Γ a labels T pos ρ + covariantAtOf E G Γ a labels T' pos ρ := by
  simp only [covariantAtOf_eq, mul_add, sum_add_distrib]
  rw [show G.d E (ρ a) (T pos ρ + T' pos ρ) = G.d E (ρ a) (T pos ρ) + G.d E (ρ a) (T' pos ρ) from hC.add _ _ _]
  ring

theorem covariantAtOf_contracted (hC : Calculus E) {a : Sym} {lA lB ss l : List Sym}
    {A B : (Sym → Int) → (Sym → Nat) → K} (hA : OnlyOn lA A) (hB : OnlyOn lB B) (haA : a ∉ lA) (haB : a ∉ lB)
    (hn : ss.Nodup) (hss : ∀ s, s ∈ ss ↔ s ∈ lA ∧ s ∈ lB)
    (hl : ∀ s, s ∈ l ↔ (s ∈ lA ∧ s ∉ lB) ∨ (s ∈ lB ∧ s ∉ lA)) {pos : Sym → Int} (hpos : Positions pos)
    {ρ : Sym → Nat} (hρ : Values G.n ρ) :
    covariantAtOf E G Γ a l (contracted G ss A B) pos ρ =
      contracted G ss (covariantAtOf E G Γ a lA A) B pos ρ + contracted G ss A (covariantAtOf E G Γ a lB B) pos ρ := by
  have has : a ∉ ss := fun h => haA ((hss a).1 h).1
  set P := turned ss pos with hP
  -- the terms of the connection
  set tA : Sym → (Sym → Nat) → K := fun s ρ =>
    ∑ k ∈ range G.n, connOf Γ (ρ a) (pos s) (ρ s) k * A pos (Function.update ρ s k) with htA
  set tB : Sym → (Sym → Nat) → K := fun s ρ =>
    ∑ k ∈ range G.n, connOf Γ (ρ a) (P s) (ρ s) k * B P (Function.update ρ s k) with htB
  have eR1 : contracted G ss (covariantAtOf E G Γ a lA A) B pos ρ = sumOver G.n ss (fun ρ' =>
      G.d E (ρ' a) (A pos ρ') * B P ρ') ρ + ∑ s ∈ lA.toFinset, sumOver G.n ss (fun ρ' => tA s ρ' * B P ρ') ρ := by
    unfold contracted
    rw [← sumOver_finset, ← sumOver_add]
    congr 1
    funext ρ'
    rw [covariantAtOf_eq, add_mul, sum_mul]
  have eR2 : contracted G ss A (covariantAtOf E G Γ a lB B) pos ρ = sumOver G.n ss (fun ρ' =>
      A pos ρ' * G.d E (ρ' a) (B P ρ')) ρ + ∑ s ∈ lB.toFinset, sumOver G.n ss (fun ρ' => A pos ρ' * tB s ρ') ρ := by
    unfold contracted
    rw [← sumOver_finset, ← sumOver_add]
    congr 1
    funext ρ'
    rw [covariantAtOf_eq, mul_add, mul_sum]
  have e0 : ∀ s ∈ ss, sumOver G.n ss (fun ρ' => tA s ρ' * B P ρ') ρ + sumOver G.n ss (fun ρ' => A pos ρ' * tB s ρ') ρ
      = 0 := by
    intro s hs
    have hsa : a ≠ s := fun h => has (h ▸ hs)
    have hperm : ss.Perm (ss.erase s ++ [s]) :=
      (List.perm_cons_erase hs).trans (List.perm_append_comm (l₁ := [s]))
    rw [← sumOver_add, sumOver_perm hperm, sumOver_append]
    rw [sumOver_congr (f' := fun _ => 0) hρ]
    · have : ∀ (l : List Sym) (ρ : Sym → Nat), sumOver G.n l (fun _ => (0 : K)) ρ = 0 := by
        intro l
        induction l with
        | nil => intro _; rfl
        | cons x l ih => intro ρ; simp only [sumOver, ih, sum_const_zero]
      exact this _ _
    · intro ρ' _ _
      simp only [sumOver, htA, htB, Function.update_self, Function.update_of_ne hsa, Function.update_idem, sum_mul,
        mul_sum, sum_add_distrib]
      have h1 : P s = -pos s := by rw [hP]; unfold turned; rw [if_pos hs]
      rw [h1]
      simp only [connOf_opposite (hpos s)]
      rw [add_comm, sum_comm, ← sum_add_distrib]
      refine sum_eq_zero fun m _ => ?_
      rw [← sum_add_distrib]
      exact sum_eq_zero fun k _ => by ring
  have eL : covariantAtOf E G Γ a l (contracted G ss A B) pos ρ = sumOver G.n ss (fun ρ' =>
      G.d E (ρ' a) (A pos ρ') * B P ρ') ρ + sumOver G.n ss (fun ρ' => A pos ρ' * G.d E (ρ' a) (B P ρ')) ρ +
      ∑ s ∈ l.toFinset, sumOver G.n ss (fun ρ' => ∑ k ∈ range G.n, connOf Γ (ρ' a) (pos s) (ρ' s) k *
        (A pos (Function.update ρ' s k) * B P (Function.update ρ' s k))) ρ := by
    rw [covariantAtOf_eq]
    congr 1
    · unfold contracted
      rw [d_sumOver hC, ← sumOver_add]
      refine sumOver_congr hρ fun ρ' _ h2 => ?_
      rw [h2 a has]
      exact hC.mul _ _ _
    · refine sum_congr rfl fun s hs => ?_
      have hsl : s ∉ ss := by
        intro h
        have h1 := (hss s).1 h
        rcases (hl s).1 (by simpa using hs) with h' | h'
        · exact h'.2 h1.2
        · exact h'.2 h1.1
      have : ∀ k ∈ range G.n, connOf Γ (ρ a) (pos s) (ρ s) k * contracted G ss A B pos (Function.update ρ s k) =
          sumOver G.n ss (fun ρ' => connOf Γ (ρ' a) (pos s) (ρ' s) k *
            (A pos (Function.update ρ' s k) * B P (Function.update ρ' s k))) ρ := by
        intro k _
        unfold contracted
        rw [sumOver_update _ _ _ hsl, ← sumOver_mul]
        refine sumOver_congr hρ fun ρ' _ h2 => ?_
        rw [h2 a has, h2 s hsl]
      rw [sum_congr rfl this, sumOver_sum]
  have eA : ∀ s, s ∈ lA → s ∉ lB → sumOver G.n ss (fun ρ' => ∑ k ∈ range G.n, connOf Γ (ρ' a) (pos s) (ρ' s) k *
        (A pos (Function.update ρ' s k) * B P (Function.update ρ' s k))) ρ =
      sumOver G.n ss (fun ρ' => tA s ρ' * B P ρ') ρ := by
    intro s _ hsB
    congr 1
    funext ρ'
    simp only [htA, sum_mul]
    refine sum_congr rfl fun k _ => ?_
    rw [hB P P (Function.update ρ' s k) ρ' fun t ht =>
      ⟨rfl, Function.update_of_ne (by rintro rfl; exact hsB ht) _ _⟩]
    ring
  have eB : ∀ s, s ∈ lB → s ∉ lA → sumOver G.n ss (fun ρ' => ∑ k ∈ range G.n, connOf Γ (ρ' a) (pos s) (ρ' s) k *
        (A pos (Function.update ρ' s k) * B P (Function.update ρ' s k))) ρ =
      sumOver G.n ss (fun ρ' => A pos ρ' * tB s ρ') ρ := by
    intro s _ hsA
    have h1 : P s = pos s := by
      rw [hP]; unfold turned
      rw [if_neg fun h => hsA ((hss s).1 h).1]
    congr 1
    funext ρ'
    simp only [htB, mul_sum, h1]
    refine sum_congr rfl fun k _ => ?_
    rw [hA pos pos (Function.update ρ' s k) ρ' fun t ht =>
      ⟨rfl, Function.update_of_ne (by rintro rfl; exact hsA ht) _ _⟩]
    ring
  have hlF : l.toFinset = (lA.toFinset \ lB.toFinset) ∪ (lB.toFinset \ lA.toFinset) := by
    ext s
    simp only [List.mem_toFinset, mem_union, mem_sdiff]
    exact hl s
  have hsF : lA.toFinset ∩ lB.toFinset = ss.toFinset := by
    ext s
    simp only [List.mem_toFinset, mem_inter]
    exact (hss s).symm
  rw [eL, eR1, eR2, hlF, sum_union (by
    rw [Finset.disjoint_left]
    intro s h1 h2
    exact (mem_sdiff.1 h2).2 (mem_sdiff.1 h1).1)]
  rw [sum_congr rfl fun s hs => eA s (by simpa using (mem_sdiff.1 hs).1) (by simpa using (mem_sdiff.1 hs).2),
    sum_congr rfl fun s hs => eB s (by simpa using (mem_sdiff.1 hs).1) (by simpa using (mem_sdiff.1 hs).2)]
  have sA := Finset.sum_inter_add_sum_sdiff lA.toFinset lB.toFinset fun s => sumOver G.n ss (fun ρ' => tA s ρ' * B P ρ') ρ
  have sB := Finset.sum_inter_add_sum_sdiff lB.toFinset lA.toFinset fun s => sumOver G.n ss (fun ρ' => A pos ρ' * tB s ρ') ρ
  rw [hsF] at sA
  rw [inter_comm, hsF] at sB
  have s0 : ∑ s ∈ ss.toFinset, sumOver G.n ss (fun ρ' => tA s ρ' * B P ρ') ρ +
      ∑ s ∈ ss.toFinset, sumOver G.n ss (fun ρ' => A pos ρ' * tB s ρ') ρ = 0 := by
    rw [← sum_add_distrib]
    exact sum_eq_zero fun s hs => e0 s (by simpa using hs)
  linear_combination sA + sB - s0

/-- The covariant derivative of a labelled tensor, at the positions of its default configuration. -/
theorem nablaOf_at {D : TField K} {a : Sym} {labels : List Sym} (ha : a ∉ labels) (hn : labels.Nodup)
    (hl : labels.length = D.ix.length) {pos : Sym → Int} (hpa : pos a = -1) (hmp : labels.map pos = D.ix) {ρ : Sym → Nat}
    (hρ : Values G.n ρ) :
    (nablaOf E G Γ D).at G (a :: labels) pos ρ = covariantAtOf E G Γ a labels (D.at G labels) pos ρ := by
  have hval : ∀ ρ, Values G.n ρ → D.at G labels pos ρ = D.val (labels.map ρ) := by
    intro ρ hρ
    unfold TField.at
    rw [hmp, comp_self (values_map hρ _) (by simp [hl])]
  rw [covariantAtOf_eq]
  have hcp : (a :: labels).map pos = -1 :: D.ix := by rw [List.map_cons, hpa, hmp]
  have hc := comp_self (G := G) (D := nablaOf E G Γ D) (J := ρ a :: labels.map ρ)
    (by
      intro x hx
      rcases List.mem_cons.1 hx with rfl | h
      · exact hρ a
      · exact values_map hρ _ x h) (by simp [nablaOf, hl])
  refine Eq.trans (b := (nablaOf E G Γ D).val (ρ a :: labels.map ρ)) ?_ ?_
  · unfold TField.at
    rw [hcp]
    exact hc
  show covariantOf E G Γ D.ix D.val (ρ a) (labels.map ρ) = _
  unfold covariantOf
  congr 1
  · exact congrArg _ (hval ρ hρ).symm
  · rw [sum_labels hn, hl]
    refine sum_congr rfl fun j hj => ?_
    have hj : j < labels.length := by rw [hl]; simpa using hj
    have hj' : j < D.ix.length := by rw [← hl]; exact hj
    have e1 : labels.getD j "" = labels[j] := by simp [hj]
    have e2 : (labels.map ρ).getD j 0 = ρ labels[j] := by simp [hj]
    have e3 : D.ix.getD j 1 = pos labels[j] := by
      have : D.ix[j] = pos labels[j] := by
        have := List.getElem_of_eq hmp.symm hj'
        rw [this, List.getElem_map]
      rw [List.getD_eq_getElem?_getD, List.getElem?_eq_getElem hj', this]; rfl
    rw [e1, e2, e3]
    have e4 : ∀ k, (labels.map ρ).set j k = labels.map (Function.update ρ labels[j] k) := by
      intro k
      rw [map_update_nodup ρ labels hn _ (List.getElem_mem hj), List.Nodup.idxOf_getElem hn]
    have e5 : ∀ k ∈ range G.n, D.val ((labels.map ρ).set j k) =
        D.at G labels pos (Function.update ρ labels[j] k) := by
      intro k hk
      rw [hval _ (values_update hρ _ (by simpa using hk)), e4]
    unfold connOf
    split_ifs
    · exact sum_congr rfl fun k hk => by rw [e5 k hk]
    · rw [← sum_neg_distrib]
      exact sum_congr rfl fun k hk => by rw [e5 k hk, neg_mul]

end PyOGRe
