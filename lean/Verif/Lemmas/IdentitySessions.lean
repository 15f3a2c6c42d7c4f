import Verif.Lemmas.Identities
import Verif.Lemmas.AnyCovariant

/-! Helper lemmas: the sessions of C93 and C94, for metrics from which `CalcChristoffel` computes the coefficients `Γ`. -/

namespace PyOGRe
open Spec Finset
variable {K : Type} [CommRing K] [DecidableEq K] [Algebra ℚ K] {E : Engine K} {G : Ground K} {V : View K}
  {w : World K} {Dm D : TField K} {Γ : Nat → Nat → Nat → K}

theorem gives_christoffel (hE : ∀ x, E.simp x = x) (hix : Dm.ix = [-1, -1]) :
    GivesConnection E G (christoffel E G) Dm :=
  fun _ _ hS hm => computes_christoffel hE hS ⟨hm.view, hm.name, hm.coords, hix⟩

omit [DecidableEq K] in
theorem namesFor_christoffel {base : String} (h : NamesOK E G V w base) : NamesFor E G (christoffel E G) V w base :=
  fun q i hi o ho hn => by
    have := h q i hi o ho hn
    cases q <;> exact this

/-- A tensor that was computed from the metric, with labels. -/
theorem anyLabelled {q : Quantity} {m : PyM K Id'} (hE : EngineOK E) (hm : AnyMetric G V Dm)
    (h : ProvidesFor E G Γ V w Dm.name m q) {labels : List Sym} (hn : labels.Nodup) (hl : labels.length = q.ix.length) :
    Does (do let r ← m; calcInit E r labels) w fun y w' => ∃ V' t D, Scene G V' w' ∧ V.Keeps V' ∧
      NamesFor E G Γ V' w' Dm.name ∧ AnyMetric G V' Dm ∧ Denotes G V' y t D ∧ y.labels = labels ∧ D.name ≠ "TEMP" ∧
      D.ix = q.ix ∧ ∀ J, J.length = q.ix.length → (∀ x ∈ J, x < G.n) → D.val J = q.compsOf E G Γ J := by
  refine Does.bind h ?_
  rintro r w1 ⟨V1, D, hS1, hK1, -, hN1, -, ⟨o, ho, -, hon⟩, hv⟩
  refine Does.mono (evaluates_init hE.simp_eq hS1 hv.view hv.coords hn (by rw [hv.cfg]; exact hl)) ?_
  rintro y w2 ⟨V2, t2, D2, hS2, hV2, hT2, hy2, hl2, rfl⟩
  have hK2 : V1.Keeps V2 := keeps_extends hV2
  have hK := keeps_trans hK1 hK2
  refine ⟨V2, t2, D2, hS2, hK, ?_, anyMetric_keeps hm hK, hy2, hl2, ?_, hv.cfg, hv.val⟩
  · exact namesFor_leaves hS1 hN1 hK2 (leaves_onlyTemps (new := fun _ => False) hS1.registry hT2)
      fun _ _ _ h => h.elim
  · rw [← scene_object_name hS1 hv.view ho, hon]
    exact quantity_temp _ _

theorem anyGradient (hE : EngineOK E) (hS : Scene G V w) (hΓ : GivesConnection E G Γ Dm)
    (hm : AnyMetric G V Dm)
    (hN : NamesFor E G Γ V w Dm.name) {letters : List Sym} {d y : CalcObj} {t : Id'} {a : Sym} {D : TField K}
    (hd : derivative .covariantD [a] = .ok d) (hy : Denotes G V y t D) (hyn : D.name ≠ "TEMP")
    (hln : letters.Nodup) {u v : Sym} (hu : u ∈ letters) (hv : v ∈ letters) (huv : u ≠ v)
    (hu' : u ∉ y.labels ++ [a]) (hv' : v ∉ y.labels ++ [a]) (ha : a ∉ y.labels) :
    DerivesFor E G Γ V w Dm.name (calcMatmul E letters d y) fun l D' => l = a :: y.labels ∧
      D'.ix = -1 :: D.ix ∧ ∀ pos ρ, Positions pos → Values G.n ρ →
        D'.at G l pos ρ = (nablaOf E G Γ D).at G (a :: y.labels) pos ρ := by
  cases hd
  obtain ⟨s1, s2, hs, h12, h1, h2⟩ := dummySymbols_two hln hu hv huv hu' hv'
  simp only [List.mem_append, List.mem_singleton, not_or] at h1 h2
  have h0 : tupleGet (dummySymbols letters (y.labels ++ [a])) 0 = .ok s1 := by rw [hs]; rfl
  unfold calcMatmul
  rw [hy.role]
  show DerivesFor E G Γ V w Dm.name (matmulCovariant E letters [a] y (leftPartialSymbol [a] y.labels)
    ([a] ++ y.labels) (freeLabels [a] y.labels)) _
  rw [freeLabels_new ha]
  have hps : ∃ p, leftPartialSymbol [a] y.labels (dummySymbols letters (y.labels ++ [a])) = .ok p ∧ p ∉ y.labels ∧
      p ≠ s1 := by
    unfold leftPartialSymbol
    by_cases hl : y.labels = []
    · rw [if_neg (by simpa using hl), hs]
      exact ⟨s2, rfl, h2.1, h12.symm⟩
    · rw [if_pos hl]
      refine ⟨a, ?_, ha, Ne.symm h1.2⟩
      show (if a ∈ y.labels then _ else _) = _
      rw [if_neg ha]
      rfl
  obtain ⟨p, hp1, hp2, hp3⟩ := hps
  exact derives_anyGradient hE.simp_eq hS hΓ hm hN hy hyn h0
    hp1 hp2 h1.1 hp3 ha (List.Perm.refl _)

theorem anyDivergence (hE : EngineOK E) (hS : Scene G V w) (hΓ : GivesConnection E G Γ Dm)
    (hm : AnyMetric G V Dm)
    (hN : NamesFor E G Γ V w Dm.name) {letters : List Sym} {d y : CalcObj} {t : Id'} {a : Sym} {D : TField K}
    (hd : derivative .covariantD [a] = .ok d) (hy : Denotes G V y t D) (hyn : D.name ≠ "TEMP")
    (hln : letters.Nodup) {u v : Sym} (hu : u ∈ letters) (hv : v ∈ letters) (huv : u ≠ v)
    (hu' : u ∉ y.labels ++ [a]) (hv' : v ∉ y.labels ++ [a]) (ha : a ∈ y.labels) :
    DerivesFor E G Γ V w Dm.name (calcMatmul E letters d y) fun l D' =>
      l = (y.labels.filter fun s => decide (s ≠ a)) ∧ D'.ix = l.map (posOf y.labels D.ix) ∧
      ∀ pos ρ, Positions pos → Values G.n ρ → D'.at G l pos ρ = ∑ k ∈ range G.n,
        (nablaOf E G Γ D).comp G (-1 :: y.labels.map (Function.update pos a 1))
          (k :: y.labels.map (Function.update ρ a k)) := by
  cases hd
  obtain ⟨s1, s2, hs, h12, h1, h2⟩ := dummySymbols_two hln hu hv huv hu' hv'
  simp only [List.mem_append, List.mem_singleton, not_or] at h1 h2
  have h0 : tupleGet (dummySymbols letters (y.labels ++ [a])) 0 = .ok s1 := by rw [hs]; rfl
  unfold calcMatmul
  rw [hy.role]
  show DerivesFor E G Γ V w Dm.name (matmulCovariant E letters [a] y (leftPartialSymbol [a] y.labels)
    ([a] ++ y.labels) (freeLabels [a] y.labels)) _
  have hl : y.labels ≠ [] := fun h => by rw [h] at ha; cases ha
  refine derives_anyDivergence hE.simp_eq hS hΓ hm hN hy hyn
    h0 (p := s2) ?_ h2.1 h1.1 h12.symm ha
  unfold leftPartialSymbol
  rw [if_pos hl]
  show (if a ∈ y.labels then _ else _) = _
  rw [if_pos ha, hs]
  rfl

/-- The second Bianchi identity. -/
theorem session_bianchi (hE : EngineOK E) (hC : Calculus E) (hS : Scene G V w)
    (hΓ : GivesConnection E G Γ Dm) (hs : ∀ l m n, l < G.n → m < G.n → n < G.n → Γ l m n = Γ l n m)
    (hm : AnyMetric G V Dm)
    (hN : NamesFor E G Γ V w Dm.name) {letters : List Sym} (hln : letters.Nodup) {a b c d e u v : Sym}
    (hn : [e, a, b, c, d].Nodup) (hu : u ∈ letters) (hv : v ∈ letters) (huv : u ≠ v) (hu' : u ∉ [a, b, c, d, e])
    (hv' : v ∉ [a, b, c, d, e]) :
    Does (do
      let r ← calcRiemann E G.m
      let y ← calcInit E r [a, b, c, d]
      let d ← PyM.lift (derivative .covariantD [e])
      calcMatmul E letters d y) w fun z w' => ∃ V' t D, Scene G V' w' ∧ V.Keeps V' ∧ Denotes G V' z t D ∧
        z.labels = [e, a, b, c, d] ∧ D.ix = [-1, 1, -1, -1, -1] ∧ ∀ pos ρ, Positions pos → Values G.n ρ →
          D.at G [e, a, b, c, d] pos ρ + D.at G [c, a, b, d, e] pos ρ + D.at G [d, a, b, e, c] pos ρ = 0 := by
  rw [← pyM_bind_assoc]
  have hn4 : [a, b, c, d].Nodup := (List.nodup_cons.1 hn).2
  have he : e ∉ [a, b, c, d] := (List.nodup_cons.1 hn).1
  refine Does.bind (anyLabelled hE hm (anyProvides_riemann hE.simp_eq hΓ hS hm hN) (labels := [a, b, c, d]) hn4 rfl) ?_
  rintro y w2 ⟨V2, t2, DR, hS2, hK2, hN2, hm2, hy2, hl2, hne, hix, hval⟩
  refine Does.lift (a := ⟨.covariantD, none, [e]⟩) rfl ?_
  refine Does.mono (anyGradient hE hS2 hΓ hm2 hN2 rfl hy2 hne hln hu hv huv
    (by rw [hl2]; exact hu') (by rw [hl2]; exact hv') (by rw [hl2]; exact he)) ?_
  rintro z w3 ⟨V3, t3, D3, hS3, hK3, -, -, hz3, hl3, hix3, hat3⟩
  rw [hl2] at hl3 hat3
  refine ⟨V3, t3, D3, hS3, keeps_trans hK2 hK3, hz3, hl3, by rw [hix3, hix]; rfl, fun pos ρ hpos hρ => ?_⟩
  rw [hl3] at hat3
  have hcfg := scene_config hS2 hy2.field
  have hval' : ∀ r s m n, r < G.n → s < G.n → m < G.n → n < G.n → DR.val [r, s, m, n] = riemannOf E G Γ r s m n :=
    fun r s m n hr hs' hm hn => hval [r, s, m, n] rfl (by simp [hr, hs', hm, hn])
  -- the same components under other labels
  have hren : ∀ x y z : Sym, [x, y, z].Perm [e, c, d] →
      D3.at G [x, a, b, y, z] pos ρ = (nablaOf E G Γ DR).at G [x, a, b, y, z] pos ρ := by
    intro x y z hp
    have hmem : ∀ s, s ∈ [x, y, z] ↔ s ∈ [e, c, d] := fun s => hp.mem_iff
    have hn' := hn
    simp only [List.nodup_cons, List.mem_cons, List.not_mem_nil, or_false, not_or] at hn'
    obtain ⟨⟨h1, h2, h3, h4⟩, ⟨h5, h6, h7⟩, ⟨h8, h9⟩, h10, -⟩ := hn'
    have hbe : b ≠ e := Ne.symm h2
    have hp' : Positions fun s => if s = e then pos x else if s = c then pos y else if s = d then pos z else pos s := by
      intro s; dsimp only; split_ifs <;> exact hpos _
    have hρ' : Values G.n fun s => if s = e then ρ x else if s = c then ρ y else if s = d then ρ z else ρ s := by
      intro s; dsimp only; split_ifs <;> exact hρ _
    have := hat3 _ _ hp' hρ'
    unfold TField.at at this ⊢
    simpa [h1, h2, h3, h4, h5, h6, h7, h8, h9, h10, Ne.symm h1, Ne.symm h2, Ne.symm h3, Ne.symm h4, Ne.symm h10] using this
  rw [hren e c d (List.Perm.refl _), hren c d e ((List.perm_append_comm (l₁ := [c, d]) (l₂ := [e]))),
    hren d e c ((List.perm_append_comm (l₁ := [d]) (l₂ := [e, c])))]
  exact bianchi_identityOf hC hS.inverse hs hn hcfg hix hval' hpos hρ

/-- The Ricci identity. -/
theorem session_ricci (hE : EngineOK E) (hC : Calculus E) (hS : Scene G V w)
    (hΓ : GivesConnection E G Γ Dm) (hs : ∀ l m n, l < G.n → m < G.n → n < G.n → Γ l m n = Γ l n m)
    (hm : AnyMetric G V Dm)
    (hN : NamesFor E G Γ V w Dm.name) {t : Id'} (ht : V t = some D) (hc : D.coords = G.c) (hDn : D.name ≠ "TEMP")
    {l letters : List Sym} (hl : l.length = D.ix.length) (hln : letters.Nodup) {a c u v : Sym}
    (hn : (c :: a :: l).Nodup) (hu : u ∈ letters) (hv : v ∈ letters) (huv : u ≠ v) (hu' : u ∉ c :: a :: l)
    (hv' : v ∉ c :: a :: l) {name name' symbol symbol' : String} (hname : name ≠ "TEMP") (hname' : name' ≠ "TEMP")
    (hnew : ∀ q : Quantity, name ≠ Dm.name ++ q.suffix) (hnew' : ∀ q : Quantity, name' ≠ Dm.name ++ q.suffix)
    {Q : (Sym → Int) → Prop} (hQ : ∀ p p', (∀ s ∈ l, p s = p' s) → Q p → Q p')
    (hA : ∀ pos ρ, Positions pos → Values G.n ρ → Q pos → pos a = -1 →
      (nablaOf E G Γ D).at G (a :: l) pos ρ = covariantAtOf E G Γ a l (D.at G l) pos ρ)
    (hB : ∀ D' : TField K, Config D'.ix.length D'.ix → D'.ix = -1 :: D.ix → ∀ pos ρ, Positions pos → Values G.n ρ → Q pos →
      pos a = -1 → pos c = -1 →
      (nablaOf E G Γ D').at G (c :: a :: l) pos ρ = covariantAtOf E G Γ c (a :: l) (D'.at G (a :: l)) pos ρ) :
    Does (do
      let y ← calcInit E t l
      let d ← PyM.lift (derivative .covariantD [a])
      let x ← calcMatmul E letters d y
      let A ← calcResult E x name symbol (a :: l)
      let y' ← calcInit E A (a :: l)
      let d' ← PyM.lift (derivative .covariantD [c])
      let x' ← calcMatmul E letters d' y'
      let B ← calcResult E x' name' symbol' (c :: a :: l)
      let R ← calcRiemann E G.m
      return (B, R)) w fun r w' => ∃ V' DB DR, Scene G V' w' ∧ V.Keeps V' ∧ V' r.1 = some DB ∧ DB.coords = G.c ∧
        DB.ix = -1 :: -1 :: D.ix ∧ V' r.2 = some DR ∧ DR.coords = G.c ∧ DR.ix = [1, -1, -1, -1] ∧
        (∀ r s m n, r < G.n → s < G.n → m < G.n → n < G.n → DR.val [r, s, m, n] = riemannOf E G Γ r s m n) ∧
        ∀ pos ρ, Positions pos → Values G.n ρ → Q pos → pos a = -1 → pos c = -1 →
          DB.at G (c :: a :: l) pos ρ - DB.at G (a :: c :: l) pos ρ = ∑ s ∈ l.toFinset,
            if pos s = 1 then ∑ k ∈ range G.n, DR.val [ρ s, k, ρ c, ρ a] * D.at G l pos (Function.update ρ s k)
            else -∑ k ∈ range G.n, DR.val [k, ρ s, ρ c, ρ a] * D.at G l pos (Function.update ρ s k) := by
  have hn' := hn
  simp only [List.nodup_cons, List.mem_cons, not_or] at hn'
  obtain ⟨⟨hca, hcl⟩, hal, hnl⟩ := hn'
  simp only [List.mem_cons, not_or] at hu' hv'
  have hnal : (a :: l).Nodup := (List.nodup_cons.1 hn).2
  have hcfg := scene_config hS ht
  refine Does.bind (evaluates_init hE.simp_eq hS ht hc hnl hl) ?_
  rintro y w1 ⟨V1, t1, D1, hS1, hV1, hT1, hy1, hl1, rfl⟩
  refine Does.lift (a := ⟨.covariantD, none, [a]⟩) rfl ?_
  have hK1 : V.Keeps V1 := keeps_extends hV1
  have hN1 : NamesFor E G Γ V1 w1 Dm.name := namesFor_leaves hS hN hK1
    (leaves_onlyTemps (new := fun _ => False) hS.registry hT1) fun _ _ _ h => h.elim
  have hm1 := anyMetric_keeps hm hK1
  refine Does.bind (anyGradient hE hS1 hΓ hm1 hN1 rfl hy1 hDn hln hu hv huv
    (by rw [hl1]; simp [hu'.2.1, hu'.2.2]) (by rw [hl1]; simp [hv'.2.1, hv'.2.2]) (by rw [hl1]; exact hal)) ?_
  rintro x w2 ⟨V2, t2, D2, hS2, hK2, -, hN2, hx2, hl2, hix2, hat2⟩
  rw [hl1] at hl2 hat2
  rw [hl2] at hat2
  have hK12 := keeps_trans hK1 hK2
  have hm2 := anyMetric_keeps hm hK12
  refine Does.bind (yields_calc hE.simp_eq hS2 hx2 hname (indices := a :: l) (Or.inr (by rw [hl2]))) ?_
  rintro A w3 ⟨V3, D3, hS3, hK3, hL3, hr3, hv3, hc3, hn3, h3⟩
  obtain ⟨hix3, hat3⟩ := h3 (a :: l) (by rw [if_neg (by simp)])
  have hN3 : NamesFor E G Γ V3 w3 Dm.name := by
    refine namesFor_leaves hS2 hN2 hK3 hL3 ?_
    rintro i - - rfl o ho q hq
    rw [scene_object_name hS3 hv3 ho, hn3] at hq
    exact absurd hq (hnew q)
  have hm3 := anyMetric_keeps hm2 hK3
  have hlen2 : (a :: l).length = D2.ix.length := by rw [← hl2]; exact hx2.length
  rw [hl2] at hix3 hat3
  rw [map_posOf hnal hlen2, hix2] at hix3
  refine Does.bind (evaluates_init hE.simp_eq hS3 hv3 hc3 hnal (by rw [hix3, hlen2, hix2])) ?_
  rintro y' w4 ⟨V4, t4, D4, hS4, hV4, hT4, hy4, hl4, rfl⟩
  refine Does.lift (a := ⟨.covariantD, none, [c]⟩) rfl ?_
  have hK4 : V3.Keeps V4 := keeps_extends hV4
  have hN4 : NamesFor E G Γ V4 w4 Dm.name := namesFor_leaves hS3 hN3 hK4
    (leaves_onlyTemps (new := fun _ => False) hS3.registry hT4) fun _ _ _ h => h.elim
  have hm4 := anyMetric_keeps hm3 hK4
  refine Does.bind (anyGradient hE hS4 hΓ hm4 hN4 rfl hy4 (by rw [hn3]; exact hname) hln hu hv huv
    (by rw [hl4]; simp [hu'.1, hu'.2.1, hu'.2.2]) (by rw [hl4]; simp [hv'.1, hv'.2.1, hv'.2.2])
    (by rw [hl4]; simp [hca, hcl])) ?_
  rintro x' w5 ⟨V5, t5, D5, hS5, hK5, -, hN5, hx5, hl5, hix5, hat5⟩
  rw [hl4] at hl5 hat5
  rw [hl5] at hat5
  have hm5 := anyMetric_keeps hm4 hK5
  refine Does.bind (yields_calc hE.simp_eq hS5 hx5 hname' (indices := c :: a :: l) (Or.inr (by rw [hl5]))) ?_
  rintro B w6 ⟨V6, D6, hS6, hK6, hL6, hr6, hv6, hc6, hn6, h6⟩
  obtain ⟨hix6, hat6⟩ := h6 (c :: a :: l) (by rw [if_neg (by simp)])
  have hlen5 : (c :: a :: l).length = D5.ix.length := by rw [← hl5]; exact hx5.length
  rw [hl5] at hix6 hat6
  rw [map_posOf hn hlen5, hix5, hix3] at hix6
  have hN6 : NamesFor E G Γ V6 w6 Dm.name := by
    refine namesFor_leaves hS5 hN5 hK6 hL6 ?_
    rintro i - - rfl o ho q hq
    rw [scene_object_name hS6 hv6 ho, hn6] at hq
    exact absurd hq (hnew' q)
  have hm6 := anyMetric_keeps hm5 hK6
  refine Does.bind (anyProvides_riemann hE.simp_eq hΓ hS6 hm6 hN6) ?_
  rintro R w7 ⟨V7, DR, hS7, hK7, -, -, -, -, hR⟩
  have hK : V.Keeps V7 := keeps_trans hK12 (keeps_trans hK3 (keeps_trans hK4 (keeps_trans hK5 (keeps_trans hK6 hK7))))
  have hval : ∀ r s m n, r < G.n → s < G.n → m < G.n → n < G.n → DR.val [r, s, m, n] = riemannOf E G Γ r s m n :=
    fun r s m n hr hs' hm hn => hR.val [r, s, m, n] rfl (by simp [hr, hs', hm, hn])
  refine ⟨(B, R), w7, rfl, V7, D6, DR, hS7, hK, hK7 _ _ hv6 (by rw [hn6]; exact hname'), hc6, hix6, hR.view, hR.coords,
    hR.cfg, hval, fun pos ρ hpos hρ hq hpa hpc => ?_⟩
  have hcfg4 := scene_config hS4 hy4.field
  -- the second derivative
  have hBB : ∀ pos ρ, Positions pos → Values G.n ρ → Q pos → pos a = -1 → pos c = -1 → D6.at G (c :: a :: l) pos ρ =
      covariantAtOf E G Γ c (a :: l) (covariantAtOf E G Γ a l (D1.at G l)) pos ρ := by
    intro pos ρ hpos hρ hq hpa hpc
    rw [hat6 pos ρ hpos hρ, hat5 pos ρ hpos hρ, hB _ hcfg4 hix3 pos ρ hpos hρ hq hpa hpc]
    refine covariantAtOf_congr (fun ρ' hρ' => ?_) hρ
    rw [hat3 pos ρ' hpos hρ', hat2 pos ρ' hpos hρ', hA pos ρ' hpos hρ' hq hpa]
  have hT := onlyOn_at (G := G) D1 l
  -- with the two labels exchanged
  have hsw : D6.at G (a :: c :: l) pos ρ = covariantAtOf E G Γ a (c :: l) (covariantAtOf E G Γ c l (D1.at G l)) pos ρ := by
    set σ : Sym → Sym := fun s => if s = a then c else if s = c then a else s with hσ
    have sa : σ a = c := by simp [hσ]
    have sc : σ c = a := by simp [hσ, hca]
    have sl : ∀ s ∈ l, σ s = s := fun s hs => by
      have h1 : s ≠ a := fun h => hal (h ▸ hs)
      have h2 : s ≠ c := fun h => hcl (h ▸ hs)
      simp [hσ, h1, h2]
    have hpσ : Positions fun s => pos (σ s) := fun s => hpos _
    have hρσ : Values G.n fun s => ρ (σ s) := fun s => hρ _
    have e1 : D6.at G (a :: c :: l) pos ρ = D6.at G (c :: a :: l) (fun s => pos (σ s)) fun s => ρ (σ s) := by
      unfold TField.at
      simp only [List.map_cons, sa, sc]
      rw [List.map_congr_left (f := fun s => pos (σ s)) (g := pos) fun s hs => by rw [sl s hs],
        List.map_congr_left (f := fun s => ρ (σ s)) (g := ρ) fun s hs => by rw [sl s hs]]
    rw [e1, hBB _ _ hpσ hρσ (hQ pos _ (fun s hs => by rw [sl s hs]) hq) (by rw [sa, hpc]) (by rw [sc, hpa])]
    have hpe : ∀ s ∈ l, pos (σ s) = pos s := fun s hs => by rw [sl s hs]
    have hcov : ∀ (x : Sym) ρ', covariantAtOf E G Γ x l (D1.at G l) (fun s => pos (σ s)) ρ' =
        covariantAtOf E G Γ x l (D1.at G l) pos ρ' := by
      intro x ρ'
      rw [covariantAtOf_eq, covariantAtOf_eq, hT _ pos ρ' ρ' fun s hs => ⟨hpe s hs, rfl⟩]
      congr 1
      refine sum_congr rfl fun s hs => sum_congr rfl fun k _ => ?_
      rw [hpe s (by simpa using hs), hT _ pos _ _ fun s hs => ⟨hpe s hs, rfl⟩]
    rw [covariantAtOf_eq c (a :: l), covariantAtOf_eq a (c :: l), List.toFinset_cons, List.toFinset_cons, sum_insert (by simpa using hal),
      sum_insert (by simpa using hcl)]
    simp only [sa, sc, hpa, hpc, hcov]
    have hself : covariantAtOf E G Γ a l (D1.at G l) pos (fun s => ρ (σ s)) = covariantAtOf E G Γ c l (D1.at G l) pos ρ :=
      covariantAtOf_rename hal hcl hT pos (by rw [sa]) fun s hs => by rw [sl s hs]
    rw [hself]
    congr 2
    · refine sum_congr rfl fun k _ => ?_
      congr 1
      refine covariantAtOf_rename hal hcl hT pos (by simp) fun s hs => ?_
      have h1 : s ≠ a := fun h => hal (h ▸ hs)
      have h2 : s ≠ c := fun h => hcl (h ▸ hs)
      rw [Function.update_of_ne h1, Function.update_of_ne h2, sl s hs]
    · refine sum_congr rfl fun s hs => sum_congr rfl fun k _ => ?_
      have hs' : s ∈ l := by simpa using hs
      have h1 : s ≠ a := fun h => hal (h ▸ hs')
      have h2 : s ≠ c := fun h => hcl (h ▸ hs')
      rw [sl s hs']
      congr 1
      refine covariantAtOf_rename hal hcl hT pos (by rw [Function.update_of_ne (Ne.symm h1), Function.update_of_ne (Ne.symm h2), sa])
        fun s' hs' => ?_
      by_cases h : s' = s
      · subst h; simp
      · rw [Function.update_of_ne h, Function.update_of_ne h, sl s' hs']
  rw [hBB pos ρ hpos hρ hq hpa hpc, hsw, ricci_identityOf hC hs hal hcl (Ne.symm hca) hT hpos hpa hpc hρ]
  refine sum_congr rfl fun s _ => ?_
  split_ifs with hs
  · exact sum_congr rfl fun k hk => by rw [hval _ _ _ _ (hρ s) (by simpa using hk) (hρ c) (hρ a)]
  · rw [← sum_neg_distrib]
    exact sum_congr rfl fun k hk => by rw [hval _ _ _ _ (by simpa using hk) (hρ s) (hρ c) (hρ a), neg_mul]

end PyOGRe
