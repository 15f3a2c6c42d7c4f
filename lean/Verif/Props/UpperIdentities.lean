import Verif.Props.Identities
import Verif.Lemmas.Leaf

/-!
# Identities that fail for metrics whose default indices are upper: C92, C94

For these metrics the library computes with the wrong sign of the Christoffel symbols (C35).
-/

namespace PyOGRe
open Spec Finset MvPolynomial

theorem leaf_noNames {w : World Poly}
    (h : ∀ i ∈ w.instances, ∀ o, w.objs[i]? = some o → o.name = "Cartesian" ∨ o.name = "Leaf") : NoNames w "Leaf" :=
  fun q i hi o ho hn => by rcases h i hi o ho with h | h <;> rw [h] at hn <;> cases q <;> exact absurd hn (by decide)

/-- **C92** is false for metrics with default configuration (1,1): with the metric of upper components `x² ∂x² + 2 ∂x ∂y`,
`CovariantD(b) @ E(b c)` is not zero. -/
theorem C92_false : ∃ (E : Engine Poly) (G : Ground Poly) (V : View Poly) (w : World Poly) (Dm : TField Poly),
    EngineOK E ∧ Calculus E ∧ Scene G V w ∧ AnyMetric G V Dm ∧ Dm.ix = [1, 1] ∧ Does (do
      let e ← calcEinstein E G.m
      let y ← calcInit E e ["b", "c"]
      let d ← PyM.lift (derivative .covariantD ["b"])
      calcMatmul E ["f", "g"] d y) w fun z w' => ∃ V' t D, Scene G V' w' ∧ Denotes G V' z t D ∧ z.labels = ["c"] ∧
        D.comp G [-1] [1] = -(8 * X "x") ∧ D.comp G [-1] [1] ≠ 0 := by
  obtain ⟨G, V, w, hS, hG, hm, hN⟩ := leaf_names_table
  have hQ : NamesFor polyEngine G (minusGamma polyEngine G) V w "Leaf" := noNames_for (leaf_noNames hN)
  have hm' : AnyMetric G V _ := ⟨hm.view, hm.name, hm.coords⟩
  have hΓ := gives_opposite (G := G) polyEngine_ok.simp_eq polyEngine_calculus hm.ix
  refine ⟨polyEngine, G, V, w, _, polyEngine_ok, polyEngine_calculus, hS, hm', rfl, ?_⟩
  rw [← pyM_bind_assoc]
  refine Does.bind (anyLabelled polyEngine_ok hm' (anyProvides_einstein polyEngine_ok.simp_eq hΓ hS hm' hQ)
    (labels := ["b", "c"]) (by decide) rfl) ?_
  rintro y w2 ⟨V2, t2, DE, hS2, hK2, hN2, hm2, hy2, hl2, hne, hix, hval⟩
  refine Does.lift (a := ⟨.covariantD, none, ["b"]⟩) rfl ?_
  refine Does.mono (anyDivergence polyEngine_ok hS2 hΓ hm2 hN2 rfl hy2 hne (by decide) (u := "f") (v := "g") (by decide)
    (by decide) (by decide) (by rw [hl2]; decide) (by rw [hl2]; decide) (by rw [hl2]; decide)) ?_
  rintro z w3 ⟨V3, t3, D3, hS3, hK3, -, -, hz3, hl3, -, hat3⟩
  rw [hl2] at hl3 hat3
  have hl3' : z.labels = ["c"] := hl3
  have hcfg := scene_config hS2 hy2.field
  have hn := hG.n
  have hx : (X "x" : Poly) ≠ 0 := X_ne_zero _
  obtain ⟨E0, E1, E2, E3⟩ := leaf_einstein hG (Γ := minusGamma polyEngine G) fun l m n => leaf_christoffel hG l m n
  have hΓv : ∀ l m n, l < 2 → m < 2 → n < 2 → minusGamma polyEngine G l m n = leafGamma l m n :=
    fun l m n => leaf_christoffel hG l m n
  have hv : ∀ i j, i < 2 → j < 2 → DE.val [i, j] = einsteinOf polyEngine G (minusGamma polyEngine G) i j :=
    fun i j hi hj => hval [i, j] rfl (by simp [hn]; omega)
  have h4 : ∀ s : Sym, pderiv s (4 : Poly) = 0 := fun s => by
    rw [show (4 : Poly) = C 4 from (map_ofNat C 4).symm, pderiv_C]
  -- the derivative with lower indices
  have hcov : ∀ k m, k < 2 → m < 2 → (nablaOf polyEngine G (minusGamma polyEngine G) DE).comp G [-1, -1, -1] [k, m, 1] =
      if m = 0 then 0 else if k = 0 then -(8 * X "x") else -(8 * X "x" * X "x" * X "x") := by
    intro k m hk hm
    have hcs := comp_self (G := G) (D := nablaOf polyEngine G (minusGamma polyEngine G) DE) (J := [k, m, 1])
      (by intro x hx; simp only [List.mem_cons, List.not_mem_nil, or_false] at hx; omega) (by simp [nablaOf, hix]; rfl)
    rw [show (nablaOf polyEngine G (minusGamma polyEngine G) DE).ix = [-1, -1, -1] by simp [nablaOf, hix]; rfl] at hcs
    rw [hcs]
    show covariantOf polyEngine G (minusGamma polyEngine G) DE.ix DE.val k [m, 1] = _
    unfold covariantOf
    rw [hix, hn]
    simp only [Quantity.ix, List.length_cons, List.length_nil, sum_range_succ, sum_range_zero, List.getD_cons_zero,
      List.getD_cons_succ, List.set_cons_zero, List.set_cons_succ]
    interval_cases k <;> interval_cases m <;>
      simp [hv, E0, E1, E2, E3, hΓv, leafGamma, (leaf_d hG _).1, (leaf_d hG _).2, h4]
    all_goals ring
  have hdiv : D3.comp G [-1] [1] = -(8 * X "x") := by
    have h := hat3 (fun _ => -1) (fun _ => 1) (fun _ => Or.inr rfl) (fun _ => by rw [hn]; exact Nat.one_lt_two)
    rw [hl3'] at h
    have hat : D3.at G ["c"] (fun _ => -1) (fun _ => 1) = D3.comp G [-1] [1] := rfl
    rw [← hat, h]
    have hlaw := nablaOf_lawful (E := polyEngine) (Γ := minusGamma polyEngine G) hS2.inverse hcfg (a := "u")
      (labels := ["b", "c"]) (by decide) (by decide) (by rw [hix]; rfl)
    have hk : ∀ k, k < G.n → (nablaOf polyEngine G (minusGamma polyEngine G) DE).comp G
        (-1 :: ["b", "c"].map (Function.update (fun _ => -1) "b" 1)) (k :: ["b", "c"].map (Function.update (fun _ => 1) "b" k)) =
        ∑ m ∈ range G.n, G.gi k m * (nablaOf polyEngine G (minusGamma polyEngine G) DE).comp G [-1, -1, -1] [k, m, 1] := by
      intro k hk
      have := hlaw "b" (by decide) (fun _ => -1) (fun s => if s = "c" then 1 else k) 1 (fun _ => Or.inr rfl)
        (fun s => by dsimp only; split_ifs <;> omega) (Or.inl rfl)
      exact this
    rw [sum_congr rfl fun k hk' => hk k (by simpa using hk'), hn]
    have i00 : entry leaf 0 0 = X "x" * X "x" := rfl
    have i01 : entry leaf 0 1 = 1 := rfl
    have i10 : entry leaf 1 0 = 1 := rfl
    have i11 : entry leaf 1 1 = 0 := rfl
    simp [sum_range_succ, hG.gi, i00, i01, i10, i11, hcov]
  refine ⟨V3, t3, D3, hS3, hz3, hl3', hdiv, ?_⟩
  rw [hdiv]
  simp [hx]

/-- Index numbers for four labels. -/
theorem four_labels {α : Type} (P : α → Prop) {x y p q : α} (hx : P x) (hy : P y) (hp : P p) (hq : P q) :
    ∃ ρ : Sym → α, ρ "c" = x ∧ ρ "a" = y ∧ ρ "i" = p ∧ ρ "j" = q ∧ ∀ s, P (ρ s) := by
  refine ⟨fun s => if s = "c" then x else if s = "a" then y else if s = "i" then p else q, by simp, by simp, by simp,
    by simp, fun s => ?_⟩
  dsimp only
  split_ifs <;> assumption

/-- The last two indices of a tensor with four indices lowered. -/
theorem lower_two {K : Type} [CommRing K] {G : Ground K} (hi : Inverse G.n G.g G.gi) {D : TField K}
    (hD : Config D.ix.length D.ix) (hix : D.ix.length = 4) {x y i j : Nat} (hx : x < G.n) (hy : y < G.n) (h1 : i < G.n)
    (h2 : j < G.n) : D.comp G [-1, -1, -1, -1] [x, y, i, j] = ∑ q ∈ range G.n, G.g j q * ∑ p ∈ range G.n, G.g i p *
      D.comp G [-1, -1, 1, 1] [x, y, p, q] := by
  have hL := lawful_at (G := G) hi hD (labels := ["c", "a", "i", "j"]) (by decide) (by rw [hix]; rfl)
  obtain ⟨ρ, rc, ra, ri, rj, hρ⟩ := four_labels (· < G.n) hx hy h1 h2
  obtain ⟨pos, pc, pa, pi, pj, hpos⟩ := four_labels (fun p : Int => p = 1 ∨ p = -1) (x := -1) (y := -1) (p := 1) (q := 1)
    (by simp) (by simp) (by simp) (by simp)
  have hf : indexFactor G.g G.gi 1 (-1) = G.g := by unfold indexFactor; simp
  have hpos' : Positions (Function.update pos "i" (-1)) := positions_update hpos _ (Or.inr rfl)
  have e1 := hL "j" (by decide) (Function.update pos "i" (-1)) ρ (-1) hpos' hρ (Or.inr rfl)
  have e2 : ∀ q, q < G.n → _ := fun q hq => hL "i" (by decide) pos (Function.update ρ "j" q) (-1) hpos
    (values_update hρ "j" hq) (Or.inr rfl)
  have n1 : "j" ≠ "i" := by decide
  have n2 : "c" ≠ "i" := by decide
  have n3 : "a" ≠ "i" := by decide
  have n4 : "c" ≠ "j" := by decide
  have n5 : "a" ≠ "j" := by decide
  simp only [TField.at, List.map_cons, List.map_nil, Function.update_self, Function.update_of_ne n1, Function.update_of_ne n2,
    Function.update_of_ne n3, Function.update_of_ne n4, Function.update_of_ne n5, Function.update_of_ne n1.symm, pc, pa, pi,
    pj, rc, ra, ri, rj, hf] at e1 e2
  rw [e1]
  exact sum_congr rfl fun q hq => by rw [e2 q (by simpa using hq)]

/-- **C94** is false for metrics with default configuration (1,1) and labels that are not in the default configuration of the
tensor: here the tensor is the metric of `C92_false`, with lower indices. -/
theorem C94_false : ∃ (E : Engine Poly) (G : Ground Poly) (V : View Poly) (w : World Poly) (Dm : TField Poly),
    EngineOK E ∧ Calculus E ∧ Scene G V w ∧ AnyMetric G V Dm ∧ Dm.ix = [1, 1] ∧ Does (do
      let y ← calcInit E G.m ["i", "j"]
      let d ← PyM.lift (derivative .covariantD ["a"])
      let x ← calcMatmul E ["f", "g"] d y
      let A ← calcResult E x "A" "A" ["a", "i", "j"]
      let y' ← calcInit E A ["a", "i", "j"]
      let d' ← PyM.lift (derivative .covariantD ["c"])
      let x' ← calcMatmul E ["f", "g"] d' y'
      let B ← calcResult E x' "B" "B" ["c", "a", "i", "j"]
      let R ← calcRiemann E G.m
      return (B, R)) w fun r w' => ∃ V' DB DR, Scene G V' w' ∧ V' r.1 = some DB ∧ V' r.2 = some DR ∧
        DB.comp G [-1, -1, -1, -1] [0, 1, 1, 1] - DB.comp G [-1, -1, -1, -1] [1, 0, 1, 1] ≠
          -∑ k ∈ range G.n, DR.val [k, 1, 0, 1] * Dm.comp G [-1, -1] [k, 1] -
            ∑ k ∈ range G.n, DR.val [k, 1, 0, 1] * Dm.comp G [-1, -1] [1, k] := by
  obtain ⟨G, V, w, hS, hG, hm, hN⟩ := leaf_names_table
  generalize hDm : (⟨"Leaf", 0, [1, 1], leaf.get⟩ : TField Poly) = Dm at hm
  have hname : Dm.name = "Leaf" := by rw [← hDm]
  have hQ : NamesFor polyEngine G (minusGamma polyEngine G) V w Dm.name := by
    rw [hname]
    exact noNames_for (leaf_noNames hN)
  have hm' : AnyMetric G V _ := ⟨hm.view, hm.name, hm.coords⟩
  refine ⟨polyEngine, G, V, w, Dm, polyEngine_ok, polyEngine_calculus, hS, hm', hm.ix, ?_⟩
  refine Does.mono (C94_ricci_identity_upper polyEngine_ok polyEngine_calculus hS hm hQ hm.view hm.coords hm.name
    (l := ["i", "j"]) (by rw [hm.ix]; rfl) (letters := ["f", "g"]) (by decide) (a := "a") (c := "c") (u := "f") (v := "g") (by decide)
    (by decide) (by decide) (by decide) (by decide) (by decide) (by decide) (by decide)
    (fun q => by rw [hname]; cases q <;> decide) (fun q => by rw [hname]; cases q <;> decide)) ?_
  rintro r w' ⟨V', DB, DR, hS', -, hB, hBc, hBix, hR, hRc, hRix, hRv, hid⟩
  refine ⟨V', DB, DR, hS', hB, hR, ?_⟩
  have hn := hG.n
  have i00 : entry leaf 0 0 = X "x" * X "x" := rfl
  have i01 : entry leaf 0 1 = 1 := rfl
  have i10 : entry leaf 1 0 = 1 := rfl
  have i11 : entry leaf 1 1 = 0 := rfl
  obtain ⟨R1, R2, R3, R4⟩ := leaf_riemann hG (Γ := minusGamma polyEngine G) fun l m n => leaf_christoffel hG l m n
  obtain ⟨-, -, hmc⟩ := scene_metric_comp hS hm.view
  have hcfg := scene_config hS' hB
  -- with upper labels
  have hup : ∀ p q, p < 2 → q < 2 → DB.comp G [-1, -1, 1, 1] [0, 1, p, q] - DB.comp G [-1, -1, 1, 1] [1, 0, p, q] =
      ∑ k ∈ range 2, DR.val [p, k, 0, 1] * G.gi k q + ∑ k ∈ range 2, DR.val [q, k, 0, 1] * G.gi p k := by
    intro p q hp hq
    obtain ⟨ρ, rc, ra, ri, rj, hρ⟩ := four_labels (· < G.n) (x := 0) (y := 1) (p := p) (q := q) (by omega) (by omega)
      (by omega) (by omega)
    obtain ⟨pos, pc, pa, pi, pj, hpos⟩ := four_labels (fun p : Int => p = 1 ∨ p = -1) (x := -1) (y := -1) (p := 1) (q := 1)
      (by simp) (by simp) (by simp) (by simp)
    have h := hid pos ρ hpos hρ (by rw [List.map_cons, List.map_cons, List.map_nil, pi, pj, hm.ix]) pa pc
    have hF : (["i", "j"] : List Sym).toFinset = insert "i" {"j"} := by simp
    have n1 : "j" ≠ "i" := by decide
    rw [hF, sum_insert (by simp), sum_singleton] at h
    simp only [TField.at, List.map_cons, List.map_nil, Function.update_self, Function.update_of_ne n1,
      Function.update_of_ne n1.symm, pc, pa, pi, pj, rc, ra, ri, rj, if_true, hn] at h
    rw [h]
    refine congrArg₂ (· + ·) (sum_congr rfl fun k hk => ?_) (sum_congr rfl fun k hk => ?_)
    · rw [(hmc k q (by rw [hn]; simpa using hk) (by omega)).2.1]
    · rw [(hmc p k (by omega) (by rw [hn]; simpa using hk)).2.1]
  -- lowered
  have hlow : ∀ x y, x < 2 → y < 2 → DB.comp G [-1, -1, -1, -1] [x, y, 1, 1] = ∑ q ∈ range 2, G.g 1 q *
      ∑ p ∈ range 2, G.g 1 p * DB.comp G [-1, -1, 1, 1] [x, y, p, q] := by
    intro x y hx hy
    have := lower_two hS'.inverse hcfg (by rw [hBix, hm.ix]; rfl) (x := x) (y := y) (i := 1) (j := 1) (by omega) (by omega) (by omega)
      (by omega)
    rwa [hn] at this
  have hR' : ∀ p k, p < 2 → k < 2 → DR.val [p, k, 0, 1] = riemannOf polyEngine G (minusGamma polyEngine G) p k 0 1 :=
    fun p k hp hk => hRv p k 0 1 (by omega) (by omega) (by omega) (by omega)
  rw [hlow 0 1 (by decide) (by decide), hlow 1 0 (by decide) (by decide), hn, ← sum_sub_distrib]
  simp only [← mul_sub, ← sum_sub_distrib]
  rw [sum_congr rfl fun q hq => by rw [sum_congr rfl fun p hp => by rw [hup p q (by simpa using hp) (by simpa using hq)]]]
  have m0 := (hmc 0 1 (by omega) (by omega)).1
  have m1 := (hmc 1 0 (by omega) (by omega)).1
  have m2 := (hmc 1 1 (by omega) (by omega)).1
  simp only [sum_range_succ, sum_range_zero, m0, m1, m2, hR', R1, R2, R3, R4, hG.gi, i00, i01, i10, i11, hG.g00, hG.g01, hG.g10, hG.g11,
    Nat.zero_lt_two, Nat.one_lt_two]
  intro h
  have h := congrArg (MvPolynomial.eval fun _ => (1 : ℚ)) h
  simp at h
  norm_num at h

/-- The hypotheses of `C93_bianchi_upper` and `C94_ricci_identity_upper` hold after this metric has been declared; the tensor
of the latter is the metric itself. -/
example : ∃ (G : Ground Poly) (V : View Poly) (w : World Poly) (Dm : TField Poly) (letters : List Sym),
    EngineOK polyEngine ∧ Calculus polyEngine ∧ Scene G V w ∧ UpperMetric G V Dm ∧
    NamesFor polyEngine G (minusGamma polyEngine G) V w Dm.name ∧
    letters.Nodup ∧ "f" ∈ letters ∧ "g" ∈ letters ∧ "f" ∉ ["a", "b", "c", "d", "e"] ∧ "g" ∉ ["a", "b", "c", "d", "e"] ∧
    ["e", "a", "b", "c", "d"].Nodup ∧
    V G.m = some Dm ∧ Dm.coords = G.c ∧ Dm.name ≠ "TEMP" ∧ ["i", "j"].length = Dm.ix.length ∧
    (∀ q : Quantity, "DT" ≠ Dm.name ++ q.suffix) ∧ (∀ q : Quantity, "DDT" ≠ Dm.name ++ q.suffix) ∧
    riemannOf polyEngine G (minusGamma polyEngine G) 0 0 0 1 ≠ 0 := by
  obtain ⟨G, V, w, hS, hG, hm, hN⟩ := leaf_names_table
  refine ⟨G, V, w, _, ["a", "b", "c", "d", "e", "f", "g"], polyEngine_ok, polyEngine_calculus, hS, hm,
    noNames_for (leaf_noNames hN), by decide, by decide, by decide, by decide, by decide, by decide, hm.view, hm.coords,
    hm.name, rfl, fun q => by cases q <;> decide, fun q => by cases q <;> decide, ?_⟩
  rw [(leaf_riemann hG (Γ := minusGamma polyEngine G) fun l m n => leaf_christoffel hG l m n).1]
  exact one_ne_zero

end PyOGRe
