import Verif.Props.NewCurvature
import Verif.Props.Identities

/-!
# A limit of C72

Coordinates without a rule that are at another place in the new coordinate system.
-/

namespace PyOGRe
open Spec MvPolynomial Finset

/-- The coordinates x, y, z and z, y, x, and no rules. -/
noncomputable def Spec.turnedCharts : World Poly where
  objs := [
    { kind := .coordinates, name := "Cartesian", symbol := "x", indices := [1], coords := 0, metric := 0,
      comps := [], syms := ["x", "y", "z"], trans := [(1, [])], jac := [], alive := true },
    { kind := .coordinates, name := "Turned", symbol := "x", indices := [1], coords := 0, metric := 0,
      comps := [], syms := ["z", "y", "x"], trans := [], jac := [], alive := true }]
  instances := [0, 1]

theorem turnedCharts_registry : RegistryOK turnedCharts := by
  refine ⟨by decide, fun i hi => ?_, fun i hi o ho t ht => ?_, fun i hi o ho hn => ?_⟩
  · have : i = 0 ∨ i = 1 := by simpa [turnedCharts] using hi
    rcases this with rfl | rfl <;> exact ⟨_, rfl, rfl⟩
  · match i, ho with
    | 0, ho =>
      cases ho
      have : 1 = t := by simpa [Obj.uses, Dict.has] using ht
      subst this
      exact ⟨_, rfl, Or.inl rfl⟩
    | 1, ho => cases ho; simp [Obj.uses, Dict.has] at ht
    | i + 2, ho => simp [turnedCharts] at ho
  · match i, ho with
    | 0, ho => cases ho; exact absurd hn (by decide)
    | 1, ho => cases ho; exact absurd hn (by decide)
    | i + 2, ho => simp [turnedCharts] at ho

theorem turnedCharts_fresh : NoStale polyEngine turnedCharts := by
  intro i o ho c' j hj
  match i, ho with
  | 0, ho => cases ho; cases hj
  | 1, ho => cases ho; cases hj
  | i + 2, ho => simp [turnedCharts] at ho

theorem turned_args : MetricArgsOK polyEngine turnedCharts (.val "Nil") (.val nil) 0 (.tuple [-1, -1]) (.val "g") :=
  ⟨⟨_, rfl⟩, ⟨_, rfl⟩, Or.inl rfl, _, nil, rfl, rfl, rfl, rfl, rfl, nil_symm, polyEngine_det rfl nil_inverse⟩

/-- The session with the metric. -/
theorem turned_moved : ∃ (G : Ground Poly) (V : View Poly) (w : World Poly) (Dm : TField Poly), Scene G V w ∧ G.n = 3 ∧ G.c = 0 ∧
    G.syms = ["x", "y", "z"] ∧ (∀ i j, G.g i j = entry nil i j) ∧ LowerMetric G V Dm ∧ NamesOK polyEngine G V w Dm.name ∧
    NotNamed w (Dm.name ++ " Riemann") ∧ NoStale polyEngine w ∧
    Charts w G.c 1 G.syms ["z", "y", "x"] (some []) ∧ (∀ o, w.objs[1]? = some o → o.name ≠ "TEMP") := by
  obtain ⟨m, w', h1, h0, o, h2, h3, h4, h5, h6⟩ :=
    (C20_metric_constructor polyEngine polyEngine_total _ _ _ _ _ _).1 turned_args
  obtain ⟨b, hb, hS⟩ := scene_start polyEngine_ok turnedCharts_registry (show nil.WF from rfl) (by decide) rfl rfl
    (by simp [turnedCharts]) h1
  have hfresh : NoStale polyEngine w' := by
    have := Safe.newMetric (E := polyEngine) (.val "Nil") (.val nil) 0 (.tuple [-1, -1]) (.val "g") turnedCharts turnedCharts_fresh
    rw [h1] at this
    exact this
  have hnames : ∀ i ∈ w'.instances, ∀ o, w'.objs[i]? = some o →
      o.name = "Cartesian" ∨ o.name = "Turned" ∨ o.name = "Nil" := by
    intro i hi oi hoi
    rw [h0] at hi
    have : i = 0 ∨ i = 1 ∨ i = m := by simpa [turnedCharts, or_assoc] using hi
    rcases this with rfl | rfl | rfl
    · rw [h2] at hoi; cases hoi; exact Or.inl rfl
    · rw [h2] at hoi; cases hoi; exact Or.inr (Or.inl rfl)
    · exact Or.inr (Or.inr (scene_object_name hS (if_pos rfl) hoi))
  refine ⟨_, _, w', ⟨"Nil", 0, [-1, -1], nil.get⟩, hS, rfl, rfl, rfl, fun _ _ => rfl, ⟨if_pos rfl, by decide, rfl, rfl⟩, ?_, ?_, hfresh,
    ⟨⟨_, by rw [h2]; rfl, rfl, rfl, rfl, rfl⟩, _, by rw [h2]; rfl, rfl, rfl, rfl⟩, ?_⟩
  · intro q i hi o ho hn
    rcases hnames i hi o ho with h | h | h <;> rw [h] at hn <;> cases q <;> exact absurd hn (by decide)
  · intro i hi o ho hn
    rcases hnames i hi o ho with h | h | h <;> rw [h] at hn <;> exact absurd hn (by decide)
  · intro o1 ho1
    rw [h2] at ho1
    cases ho1
    decide

theorem turned_jacobian (i j : Nat) : chartJacobian polyEngine ["x", "y", "z"] ["z", "y", "x"] [] i j = delta i j := rfl

theorem turned_same {ix : List Int} (T : List Nat → Poly) {I : List Nat} (hl : I.length = ix.length) (h : ∀ i ∈ I, i < 3) :
    transformed polyEngine 3 (chartJacobian polyEngine ["x", "y", "z"] ["z", "y", "x"] []) delta [] ix T I = T I := by
  unfold transformed
  rw [applyFactors_delta 3 _ T I h (by rw [List.length_map, hl])]
  · rfl
  · intro M hM i j _ _
    obtain ⟨a, -, rfl⟩ := List.mem_map.1 hM
    unfold coordFactor
    split_ifs
    · rfl
    · show chartJacobian polyEngine _ _ _ j i = _
      rw [turned_jacobian]
      unfold delta
      simp only [eq_comm]

theorem turned_metric {G : Ground Poly} (hn : G.n = 3) (hs : G.syms = ["x", "y", "z"]) (i j : Nat) (hi : i < 3) (hj : j < 3) :
    (G.moved polyEngine 1 ["z", "y", "x"] [] delta).g i j = G.g i j ∧
    (G.moved polyEngine 1 ["z", "y", "x"] [] delta).gi i j = G.gi i j := by
  unfold Ground.moved
  dsimp only
  rw [hn, hs]
  exact ⟨turned_same (ix := [-1, -1]) _ rfl (by simp [hi, hj]), turned_same (ix := [1, 1]) _ rfl (by simp [hi, hj])⟩

/-- The metric in the new coordinates is flat. -/
theorem turned_flat {G : Ground Poly} (hi : Inverse 3 (fun i j => nil.get [i, j]) G.gi) (hn : G.n = 3)
    (hs : G.syms = ["z", "y", "x"]) (hg : ∀ i j, i < 3 → j < 3 → G.g i j = entry nil i j) (r s m n : Nat) (hr : r < 3) (hs' : s < 3) (hm : m < 3)
    (hn' : n < 3) : riemann polyEngine G r s m n = 0 := by
  obtain ⟨b00, b01, b02, b10, b11, b12, b20, b21, b22⟩ := nilInv_table hi
  have hd : ∀ p : Poly, G.d polyEngine 0 p = pderiv "z" p ∧ G.d polyEngine 1 p = pderiv "y" p ∧
      G.d polyEngine 2 p = pderiv "x" p := by
    intro p
    unfold Ground.d
    rw [hs]
    exact ⟨rfl, rfl, rfl⟩
  have i00 : entry nil 0 0 = 1 + X "z" * X "z" := rfl
  have i01 : entry nil 0 1 = X "z" := rfl
  have i02 : entry nil 0 2 = 0 := rfl
  have i10 : entry nil 1 0 = X "z" := rfl
  have i11 : entry nil 1 1 = 1 := rfl
  have i12 : entry nil 1 2 = 0 := rfl
  have i20 : entry nil 2 0 = 0 := rfl
  have i21 : entry nil 2 1 = 0 := rfl
  have i22 : entry nil 2 2 = 1 := rfl
  have h2 := rat_half_two
  have c : ∀ l m n, l < 3 → m < 3 → n < 3 → christoffel polyEngine G l m n = if l = 1 ∧ m = 0 ∧ n = 0 then 1 else 0 := by
    intro l m n hl hm hn'
    unfold christoffel
    rw [hn]
    simp only [sum_range_succ, sum_range_zero, hg n _ hn', hg _ m _ hm, hg m n hm hn', hg _ _ (show 0 < 3 by decide) hm,
      hg _ _ (show 1 < 3 by decide) hm, hg _ _ (show 2 < 3 by decide) hm, hg _ _ hn' (show 0 < 3 by decide),
      hg _ _ hn' (show 1 < 3 by decide), hg _ _ hn' (show 2 < 3 by decide)]
    interval_cases l <;> interval_cases m <;> interval_cases n <;>
      simp [(hd _).1, (hd _).2.1, (hd _).2.2, b00, b01, b02, b10, b11, b12, b20, b21, b22, i00, i01, i02, i10, i11, i12, i20,
        i21, i22, -one_div] <;>
      first | linear_combination h2 | (refine Or.inl ?_; ring1) | (refine Or.inr ?_; ring1) | ring1
  have z : ∀ k, k < 3 → ∀ l m n, l < 3 → m < 3 → n < 3 → G.d polyEngine k (christoffel polyEngine G l m n) = 0 := by
    intro k hk l m n hl hm hn'
    rw [c l m n hl hm hn']
    interval_cases k <;> split_ifs <;> simp [(hd _).1, (hd _).2.1, (hd _).2.2]
  unfold riemann
  rw [z m hm r n s hr hn' hs', z n hn' r m s hr hm hs', hn]
  simp only [sum_range_succ, sum_range_zero, c r m _ hr hm (show 0 < 3 by decide), c r m _ hr hm (show 1 < 3 by decide),
    c r m _ hr hm (show 2 < 3 by decide), c r n _ hr hn' (show 0 < 3 by decide), c r n _ hr hn' (show 1 < 3 by decide),
    c r n _ hr hn' (show 2 < 3 by decide), c _ n s (show 0 < 3 by decide) hn' hs', c _ n s (show 1 < 3 by decide) hn' hs',
    c _ n s (show 2 < 3 by decide) hn' hs', c _ m s (show 0 < 3 by decide) hm hs', c _ m s (show 1 < 3 by decide) hm hs',
    c _ m s (show 2 < 3 by decide) hm hs']
  simp

/-- **C72** is false when a coordinate without a rule is at another place in the new coordinates: the metric
`dx² + (dy + z dx)² + dz²`, declared in the coordinates (x, y, z), and its Riemann tensor are requested in the coordinates
(z, y, x), with no rules.  The metric in the new coordinates is flat, and the Riemann tensor does not vanish. -/
theorem C72_false : ∃ (G : Ground Poly) (V : View Poly) (w : World Poly) (Dm : TField Poly), Scene G V w ∧ LowerMetric G V Dm ∧
    NamesOK polyEngine G V w Dm.name ∧ NoStale polyEngine w ∧ NotNamed w (Dm.name ++ " Riemann") ∧ G.n = 3 ∧
    G.syms = ["x", "y", "z"] ∧ Charts w G.c 1 G.syms ["z", "y", "x"] (some []) ∧
    Inverse G.n (chartJacobian polyEngine G.syms ["z", "y", "x"] []) delta ∧
    (∀ i j k l, i < 3 → j < 3 → k < 3 → l < 3 → riemann polyEngine (G.moved polyEngine 1 ["z", "y", "x"] [] delta) i j k l = 0) ∧
    Does (do
      let r ← calcRiemann polyEngine G.m
      getComponents polyEngine r (some 1) none) w fun b _ => b.get [2, 0, 2, 0] ≠ 0 := by
  obtain ⟨G, V, w, Dm, hS, hn, hc, hs, hg, hm, hQ, hN, hst, hch, hct⟩ := turned_moved
  have hI : Inverse G.n (chartJacobian polyEngine G.syms ["z", "y", "x"] []) delta := by
    rw [hn, hs]
    exact inverse_congr (inverse_delta 3) (fun i j _ _ => (turned_jacobian i j).symm) fun _ _ _ _ => rfl
  have hi : Inverse 3 (fun i j => nil.get [i, j]) G.gi := by
    have := hS.inverse
    rw [hn] at this
    have e : G.g = fun i j => nil.get [i, j] := by funext i j; exact hg i j
    rwa [e] at this
  refine ⟨G, V, w, Dm, hS, hm, hQ, hst, hN, hn, hs, hch, hI, ?_, ?_⟩
  · intro i j k l h1 h2 h3 h4
    exact turned_flat (G := G.moved polyEngine 1 ["z", "y", "x"] [] delta)
      (inverse_congr hi (fun _ _ _ _ => rfl) fun i j hi hj => ((turned_metric hn hs i j hi hj).2).symm) hn rfl
      (fun i j hi hj => ((turned_metric hn hs i j hi hj).1).trans (hg i j)) i j k l h1 h2 h3 h4
  · obtain ⟨om, hom, hsh⟩ := hS.shows _ _ hm.view
    rw [← hsh.name] at hN
    refine Does.bind (first_ready (provides_riemann polyEngine_ok.simp_eq hS hm hQ)
      (Safe.calcRiemann _) (fun r w' e => named_single (suffix := " Riemann") (endsSingle_bind fun _ => endsSingle_riemann _ _)
        hom hN e) hst hch (by rw [hc]; decide) hct) ?_
    rintro r w' ⟨V', D, o, b, h1, h2, h3, h4, h5, h6, h7, h8, h9, h10⟩
    obtain ⟨b', w'', e, -, e1, e2⟩ := tensor_first polyEngine_ok polyEngine_total hS.pos h6 h7.2.1 h8.1 h8.2 h9 hS.dim
      (by rw [hn]; rfl) List.nodup_nil h10 hI
    refine ⟨b', w'', by rw [getComponents_noConfig h3 h4, h5]; exact e, ?_⟩
    show b'.get [2, 0, 2, 0] ≠ 0
    rw [e2 [2, 0, 2, 0] rfl (by rw [hn]; simp), hn, hs, turned_same _ rfl (by simp),
      h7.2.2 [2, 0, 2, 0] rfl (by rw [hn]; simp)]
    exact nil_not_flat hS.inverse hn hs hg

end PyOGRe
