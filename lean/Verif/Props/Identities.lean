import Verif.Lemmas.IdentitySessions
import Verif.Props.Upper

/-!
# The identities of curvature, computed with the library's own operators: C92, C93, C94

The tensors come from `calc_einstein` and `calc_riemann_tensor`, the derivatives are `CovariantD(a) @ T(...)`, and the
values compared are those of the tensors that these calls return.
-/

namespace PyOGRe
open Spec Finset
variable {K : Type} [CommRing K] [DecidableEq K] [Algebra ℚ K] {E : Engine K} {G : Ground K} {V : View K}
  {w : World K} {Dm D : TField K}

/-- A tensor that was computed from the metric, with labels. -/
theorem labelled {q : Quantity} {m : PyM K Id'} (hE : EngineOK E) (hm : LowerMetric G V Dm)
    (h : Provides E G V w Dm.name m q) {labels : List Sym} (hn : labels.Nodup) (hl : labels.length = q.ix.length) :
    Does (do let r ← m; calcInit E r labels) w fun y w' => ∃ V' t D, Scene G V' w' ∧ V.Keeps V' ∧
      NamesOK E G V' w' Dm.name ∧ LowerMetric G V' Dm ∧ Denotes G V' y t D ∧ y.labels = labels ∧ D.name ≠ "TEMP" ∧
      D.ix = q.ix ∧ ∀ J, J.length = q.ix.length → (∀ x ∈ J, x < G.n) → D.val J = q.comps E G J := by
  refine Does.bind h ?_
  rintro r w1 ⟨V1, D, hS1, hK1, -, hN1, -, ⟨o, ho, -, hon⟩, hv⟩
  refine Does.mono (evaluates_init hE.simp_eq hS1 hv.view hv.coords hn (by rw [hv.cfg]; exact hl)) ?_
  rintro y w2 ⟨V2, t2, D2, hS2, hV2, hT2, hy2, hl2, rfl⟩
  have hK2 : V1.Keeps V2 := keeps_extends hV2
  have hK := keeps_trans hK1 hK2
  refine ⟨V2, t2, D2, hS2, hK, ?_, lowerMetric_keeps hm hK, hy2, hl2, ?_, hv.cfg, hv.val⟩
  · exact namesOK_leaves hS1 hN1 hK2 (leaves_onlyTemps (new := fun _ => False) hS1.registry hT2)
      fun _ _ _ h => h.elim
  · rw [← scene_object_name hS1 hv.view ho, hon]
    exact quantity_temp _ _

/-! ## C92: the Einstein tensor is conserved -/

/-- **C92** (for metrics with the default configuration (-1,-1)) `CovariantD(a) @ E(b c)`, with `a` one of the
labels `b` and `c` of the Einstein tensor `E`, is zero in every configuration. -/
theorem C92_conserved_partial (hE : EngineOK E) (hC : Calculus E) (hS : Scene G V w) (hm : LowerMetric G V Dm)
    (hN : NamesOK E G V w Dm.name) {letters : List Sym} (hln : letters.Nodup) {a b c u v : Sym} (hbc : b ≠ c)
    (ha : a = b ∨ a = c) (hu : u ∈ letters) (hv : v ∈ letters) (huv : u ≠ v) (hu' : u ∉ [b, c]) (hv' : v ∉ [b, c]) :
    Does (do
      let e ← calcEinstein E G.m
      let y ← calcInit E e [b, c]
      let d ← PyM.lift (derivative .covariantD [a])
      calcMatmul E letters d y) w fun z w' => ∃ V' t D, Scene G V' w' ∧ V.Keeps V' ∧ Denotes G V' z t D ∧
        z.labels = (if a = b then [c] else [b]) ∧
        ∀ cfg J, Config 1 cfg → J.length = 1 → (∀ x ∈ J, x < G.n) → D.comp G cfg J = 0 := by
  rw [← pyM_bind_assoc]
  refine Does.bind (labelled hE hm (provides_einstein hE.simp_eq hS hm hN) (labels := [b, c]) (by simp [hbc]) rfl) ?_
  rintro y w2 ⟨V2, t2, DE, hS2, hK2, hN2, hm2, hy2, hl2, hne, hix, hval⟩
  refine Does.lift (a := ⟨.covariantD, none, [a]⟩) rfl ?_
  have hua : u ≠ a := fun h => hu' (by rcases ha with rfl | rfl <;> simp [h])
  have hva : v ≠ a := fun h => hv' (by rcases ha with rfl | rfl <;> simp [h])
  have hamem : a ∈ [b, c] := by rcases ha with rfl | rfl <;> simp
  refine Does.mono (C31_divergence_partial hE hS2 hm2 hN2 rfl hy2 hne hln hu hv huv
    (by rw [hl2]; simpa [hua] using hu') (by rw [hl2]; simpa [hva] using hv') (by rw [hl2]; exact hamem)) ?_
  rintro z w3 ⟨V3, t3, D3, hS3, hK3, -, -, hz3, hl3, -, hat3⟩
  rw [hl2] at hl3 hat3
  -- the free label
  obtain ⟨f, hf, haf, hfl⟩ : ∃ f, ([b, c].filter fun s => decide (s ≠ a)) = [f] ∧ a ≠ f ∧
      [b, c].Perm [a, f] := by
    rcases ha with rfl | rfl
    · exact ⟨c, by simp [hbc.symm], hbc, List.Perm.refl _⟩
    · exact ⟨b, by simp [hbc], hbc.symm, List.Perm.swap _ _ _⟩
  have hff : (if a = b then [c] else [b]) = [f] := by
    rw [← hf]
    rcases ha with rfl | rfl
    · simp [hbc.symm]
    · rw [if_neg hbc.symm]; simp [hbc]
  rw [hf] at hl3
  refine ⟨V3, t3, D3, hS3, keeps_trans hK2 hK3, hz3, by rw [hff]; exact hl3, ?_⟩
  rw [hl3] at hat3
  have huf : u ≠ f := fun h => hu' (hfl.mem_iff.2 (by simp [h]))
  have hcfgE := scene_config hS2 hy2.field
  have hlenE : ([b, c] : List Sym).length = DE.ix.length := by rw [hix]; rfl
  have hnd : ([b, c] : List Sym).Nodup := by simp [hbc]
  have hat : ∀ pos ρ, Positions pos → Values G.n ρ → pos f = -1 → D3.at G [f] pos ρ = 0 := by
    intro pos ρ hpos hρ hpf
    set P := Function.update (Function.update pos a (-1)) u (-1) with hP
    have hPp : Positions P := positions_update (positions_update hpos a (Or.inr rfl)) u (Or.inr rfl)
    have hPa : P a = -1 := by rw [hP, Function.update_of_ne hua.symm, Function.update_self]
    have hPf : P f = -1 := by rw [hP, Function.update_of_ne huf.symm, Function.update_of_ne haf.symm, hpf]
    have hT : Lawful G [a, f] (DE.at G [b, c]) :=
      lawful_subset (lawful_at hS2.inverse hcfgE hnd hlenE) fun s hs => hfl.mem_iff.2 hs
    have hDE : ∀ ρ, Values G.n ρ → DE.at G [b, c] P ρ = einstein E G (ρ a) (ρ f) := by
      intro ρ hρ
      have h1 : DE.at G [b, c] P ρ = einstein E G (ρ b) (ρ c) := by
        have hPb : P b = -1 ∧ P c = -1 := by
          rcases List.mem_pair.1 (hfl.mem_iff.1 (by simp : b ∈ [b, c])) with h | h <;>
            rcases List.mem_pair.1 (hfl.mem_iff.1 (by simp : c ∈ [b, c])) with h' | h' <;> rw [h, h'] <;>
            simp [hPa, hPf]
        unfold TField.at
        simp only [List.map_cons, List.map_nil, hPb.1, hPb.2]
        rw [show [(-1 : Int), -1] = DE.ix by rw [hix]; rfl, comp_self (by simp [hρ b, hρ c]) (by rw [hix]; rfl)]
        exact hval _ rfl (by simp [hρ b, hρ c])
      rw [h1]
      rcases ha with rfl | rfl
      · have : f = c := by simpa [hbc.symm] using hff.symm
        rw [this]
      · have : f = b := by
          rw [if_neg hbc.symm] at hff
          simpa using hff.symm
        rw [this]
        exact einstein_symm hC hS.inverse hS.symm (hρ b) (hρ _)
    rw [hat3 pos ρ hpos hρ]
    rw [← einstein_divergence hC hS.inverse hS.symm (hρ f)]
    rw [← divergence_at hC hS.inverse hS.symm haf hua huf hT hPp hPa hPf hDE hρ]
    refine sum_congr rfl fun k hk => ?_
    have hk : k < G.n := by simpa using hk
    have hub : u ∉ [b, c] := hu'
    rw [covariantAt_perm hfl.symm]
    have hP1 : Positions (Function.update P a 1) := positions_update hPp a (Or.inl rfl)
    rw [← nabla_at hC hS.inverse hS.symm hcfgE hub hnd hlenE hP1
      (by rw [Function.update_of_ne hua, hP, Function.update_self]) (values_update (values_update hρ a hk) u hk)]
    unfold TField.at
    have e1 : (u :: [b, c]).map (Function.update P a 1) = -1 :: [b, c].map (Function.update pos a 1) := by
      rw [List.map_cons, Function.update_of_ne hua, hP, Function.update_self]
      congr 1
      refine List.map_congr_left fun s hs => ?_
      have hsu : s ≠ u := fun h => hu' (h ▸ hs)
      by_cases hsa : s = a
      · subst hsa; simp
      · rw [Function.update_of_ne hsa, Function.update_of_ne hsu, Function.update_of_ne hsa, Function.update_of_ne hsa]
    have e2 : (u :: [b, c]).map (Function.update (Function.update ρ a k) u k) =
        k :: [b, c].map (Function.update ρ a k) := by
      rw [List.map_cons, Function.update_self]
      congr 1
      exact List.map_congr_left fun s hs => Function.update_of_ne (fun h : s = u => hu' (h ▸ hs)) _ _
    rw [e1, e2]
  intro cfg J hcfg hJ hJn
  obtain ⟨p, rfl⟩ := List.length_eq_one_iff.1 hcfg.1
  obtain ⟨j, rfl⟩ := List.length_eq_one_iff.1 hJ
  have hpos : Positions fun _ => p := fun _ => hcfg.2 p (by simp)
  have hρ : Values G.n fun _ => j := fun _ => hJn j (by simp)
  have hlw : Lawful G [f] (D3.at G [f]) := by
    have := lawful_at hS3.inverse (scene_config hS3 hz3.field) hz3.nodup hz3.length
    rwa [hl3] at this
  have hz : Lawful G [f] fun _ _ => (0 : K) := by
    intro s _ pos ρ x _ _ _
    simp
  exact lawful_one hlw hz hat hpos hρ

/-! ## C93: the second Bianchi identity -/

omit [DecidableEq K] in
theorem symm_lower (hC : Calculus E) (hS : Scene G V w) (l m n : Nat) (hl : l < G.n) (hm : m < G.n) (hn : n < G.n) :
    christoffel E G l m n = christoffel E G l n m := christoffel_symm hC hS.inverse hS.symm hl hm hn

omit [DecidableEq K] in
theorem symm_upper (hC : Calculus E) (hS : Scene G V w) (l m n : Nat) (hl : l < G.n) (hm : m < G.n) (hn : n < G.n) :
    minusGamma E G l m n = minusGamma E G l n m := congrArg Neg.neg (symm_lower hC hS l m n hl hm hn)

/-- **C93** With `D = CovariantD(e) @ R(a b c d)`, of the Riemann tensor `R` of a metric with default configuration
(-1,-1), `D(e a b c d) + D(c a b d e) + D(d a b e c)` is zero in every configuration. -/
theorem C93_bianchi (hE : EngineOK E) (hC : Calculus E) (hS : Scene G V w) (hm : LowerMetric G V Dm)
    (hN : NamesOK E G V w Dm.name) {letters : List Sym} (hln : letters.Nodup) {a b c d e u v : Sym}
    (hn : [e, a, b, c, d].Nodup) (hu : u ∈ letters) (hv : v ∈ letters) (huv : u ≠ v) (hu' : u ∉ [a, b, c, d, e])
    (hv' : v ∉ [a, b, c, d, e]) :
    Does (do
      let r ← calcRiemann E G.m
      let y ← calcInit E r [a, b, c, d]
      let d ← PyM.lift (derivative .covariantD [e])
      calcMatmul E letters d y) w fun z w' => ∃ V' t D, Scene G V' w' ∧ V.Keeps V' ∧ Denotes G V' z t D ∧
        z.labels = [e, a, b, c, d] ∧ D.ix = [-1, 1, -1, -1, -1] ∧ ∀ pos ρ, Positions pos → Values G.n ρ →
          D.at G [e, a, b, c, d] pos ρ + D.at G [c, a, b, d, e] pos ρ + D.at G [d, a, b, e, c] pos ρ = 0 :=
  session_bianchi hE hC hS (gives_christoffel hE.simp_eq hm.ix) (symm_lower hC hS) ⟨hm.view, hm.name, hm.coords⟩
    (namesFor_christoffel hN) hln hn hu hv huv hu' hv'

/-- **C93** for metrics with default configuration (1,1): the same, although neither the Riemann tensor nor the derivative
is that of the metric (C36, C31). -/
theorem C93_bianchi_upper (hE : EngineOK E) (hC : Calculus E) (hS : Scene G V w) (hm : UpperMetric G V Dm)
    (hN : NamesFor E G (minusGamma E G) V w Dm.name) {letters : List Sym} (hln : letters.Nodup) {a b c d e u v : Sym}
    (hn : [e, a, b, c, d].Nodup) (hu : u ∈ letters) (hv : v ∈ letters) (huv : u ≠ v) (hu' : u ∉ [a, b, c, d, e])
    (hv' : v ∉ [a, b, c, d, e]) :
    Does (do
      let r ← calcRiemann E G.m
      let y ← calcInit E r [a, b, c, d]
      let d ← PyM.lift (derivative .covariantD [e])
      calcMatmul E letters d y) w fun z w' => ∃ V' t D, Scene G V' w' ∧ V.Keeps V' ∧ Denotes G V' z t D ∧
        z.labels = [e, a, b, c, d] ∧ D.ix = [-1, 1, -1, -1, -1] ∧ ∀ pos ρ, Positions pos → Values G.n ρ →
          D.at G [e, a, b, c, d] pos ρ + D.at G [c, a, b, d, e] pos ρ + D.at G [d, a, b, e, c] pos ρ = 0 :=
  session_bianchi hE hC hS (gives_opposite hE.simp_eq hC hm.ix) (symm_upper hC hS) ⟨hm.view, hm.name, hm.coords⟩
    hN hln hn hu hv huv hu' hv'

/-! ## C94: the Ricci identity -/

/-- **C94** (for metrics with the default configuration (-1,-1)) With `A = Calc(CovariantD(a) @ T(l))` and
`B = Calc(CovariantD(c) @ A(a l))`, the antisymmetric part `B(c a l) - B(a c l)` is made of the components that the
Riemann tensor `R` has and those of `T`: `R^s_{kca} T^{..k..}` for every upper label `s` of `T`, `-R^k_{sca} T_{..k..}`
for every lower one. -/
theorem C94_ricci_identity_partial (hE : EngineOK E) (hC : Calculus E) (hS : Scene G V w) (hm : LowerMetric G V Dm)
    (hN : NamesOK E G V w Dm.name) {t : Id'} (ht : V t = some D) (hc : D.coords = G.c) (hDn : D.name ≠ "TEMP")
    {l letters : List Sym} (hl : l.length = D.ix.length) (hln : letters.Nodup) {a c u v : Sym}
    (hn : (c :: a :: l).Nodup) (hu : u ∈ letters) (hv : v ∈ letters) (huv : u ≠ v) (hu' : u ∉ c :: a :: l)
    (hv' : v ∉ c :: a :: l) {name name' symbol symbol' : String} (hname : name ≠ "TEMP") (hname' : name' ≠ "TEMP")
    (hnew : ∀ q : Quantity, name ≠ Dm.name ++ q.suffix) (hnew' : ∀ q : Quantity, name' ≠ Dm.name ++ q.suffix) :
    Does (do
      let y ← calcInit E t l
      let d ← PyM.lift (derivative .covariantD [a])
      let x ← calcMatmul E letters d y
      let A ← calcResult E x name symbol (a :: l)
      let y' ← calcInit E A (a :: l)
      let d' ← PyM.lift (derivative .covariantD [c])
      let x' ← calcMatmul E letters d' y'
      let B ← calcResult E x' name' symbol' (c :: a :: l)
      let R ← calcRiemann E G.m
      return (B, R)) w fun r w' => ∃ V' DB DR, Scene G V' w' ∧ V.Keeps V' ∧ V' r.1 = some DB ∧ DB.coords = G.c ∧
        DB.ix = -1 :: -1 :: D.ix ∧ V' r.2 = some DR ∧ DR.coords = G.c ∧ DR.ix = [1, -1, -1, -1] ∧
        (∀ r s m n, r < G.n → s < G.n → m < G.n → n < G.n → DR.val [r, s, m, n] = riemann E G r s m n) ∧
        ∀ pos ρ, Positions pos → Values G.n ρ → pos a = -1 → pos c = -1 →
          DB.at G (c :: a :: l) pos ρ - DB.at G (a :: c :: l) pos ρ = ∑ s ∈ l.toFinset,
            if pos s = 1 then ∑ k ∈ range G.n, DR.val [ρ s, k, ρ c, ρ a] * D.at G l pos (Function.update ρ s k)
            else -∑ k ∈ range G.n, DR.val [k, ρ s, ρ c, ρ a] * D.at G l pos (Function.update ρ s k) := by
  have ha : a ∉ l := (List.nodup_cons.1 (List.nodup_cons.1 hn).2).1
  have hl' : l.Nodup := (List.nodup_cons.1 (List.nodup_cons.1 hn).2).2
  refine Does.mono (session_ricci hE hC hS (gives_christoffel hE.simp_eq hm.ix) (symm_lower hC hS)
    ⟨hm.view, hm.name, hm.coords⟩ (namesFor_christoffel hN) ht hc hDn hl hln hn hu hv huv hu' hv' hname hname' hnew hnew'
    (Q := fun _ => True) (fun _ _ _ h => h) ?_ ?_) ?_
  · intro pos ρ hpos hρ _ hpa
    rw [← covariantAt_of]
    exact nabla_at hC hS.inverse hS.symm (scene_config hS ht) ha hl' hl hpos hpa hρ
  · intro D' hD' hix pos ρ hpos hρ _ hpa hpc
    rw [← covariantAt_of]
    exact nabla_at hC hS.inverse hS.symm hD' (List.nodup_cons.1 hn).1 (List.nodup_cons.1 hn).2 (by rw [hix]; simp [hl])
      hpos hpc hρ
  · rintro r w' ⟨V', DB, DR, h1, h2, h3, h4, h5, h6, h7, h8, hv, h9⟩
    exact ⟨V', DB, DR, h1, h2, h3, h4, h5, h6, h7, h8, hv, fun pos ρ hpos hρ => h9 pos ρ hpos hρ trivial⟩

/-- **C94** for metrics with default configuration (1,1): the same, with the tensor that `calc_riemann_tensor` returns, if the
labels of `T` are in its default configuration. -/
theorem C94_ricci_identity_upper (hE : EngineOK E) (hC : Calculus E) (hS : Scene G V w) (hm : UpperMetric G V Dm)
    (hN : NamesFor E G (minusGamma E G) V w Dm.name) {t : Id'} (ht : V t = some D) (hc : D.coords = G.c) (hDn : D.name ≠ "TEMP")
    {l letters : List Sym} (hl : l.length = D.ix.length) (hln : letters.Nodup) {a c u v : Sym}
    (hn : (c :: a :: l).Nodup) (hu : u ∈ letters) (hv : v ∈ letters) (huv : u ≠ v) (hu' : u ∉ c :: a :: l)
    (hv' : v ∉ c :: a :: l) {name name' symbol symbol' : String} (hname : name ≠ "TEMP") (hname' : name' ≠ "TEMP")
    (hnew : ∀ q : Quantity, name ≠ Dm.name ++ q.suffix) (hnew' : ∀ q : Quantity, name' ≠ Dm.name ++ q.suffix) :
    Does (do
      let y ← calcInit E t l
      let d ← PyM.lift (derivative .covariantD [a])
      let x ← calcMatmul E letters d y
      let A ← calcResult E x name symbol (a :: l)
      let y' ← calcInit E A (a :: l)
      let d' ← PyM.lift (derivative .covariantD [c])
      let x' ← calcMatmul E letters d' y'
      let B ← calcResult E x' name' symbol' (c :: a :: l)
      let R ← calcRiemann E G.m
      return (B, R)) w fun r w' => ∃ V' DB DR, Scene G V' w' ∧ V.Keeps V' ∧ V' r.1 = some DB ∧ DB.coords = G.c ∧
        DB.ix = -1 :: -1 :: D.ix ∧ V' r.2 = some DR ∧ DR.coords = G.c ∧ DR.ix = [1, -1, -1, -1] ∧
        (∀ r s m n, r < G.n → s < G.n → m < G.n → n < G.n → DR.val [r, s, m, n] = riemannOf E G (minusGamma E G) r s m n) ∧
        ∀ pos ρ, Positions pos → Values G.n ρ → l.map pos = D.ix → pos a = -1 → pos c = -1 →
          DB.at G (c :: a :: l) pos ρ - DB.at G (a :: c :: l) pos ρ = ∑ s ∈ l.toFinset,
            if pos s = 1 then ∑ k ∈ range G.n, DR.val [ρ s, k, ρ c, ρ a] * D.at G l pos (Function.update ρ s k)
            else -∑ k ∈ range G.n, DR.val [k, ρ s, ρ c, ρ a] * D.at G l pos (Function.update ρ s k) := by
  have ha : a ∉ l := (List.nodup_cons.1 (List.nodup_cons.1 hn).2).1
  have hl' : l.Nodup := (List.nodup_cons.1 (List.nodup_cons.1 hn).2).2
  refine session_ricci hE hC hS (gives_opposite hE.simp_eq hC hm.ix) (symm_upper hC hS)
    ⟨hm.view, hm.name, hm.coords⟩ hN ht hc hDn hl hln hn hu hv huv hu' hv' hname hname' hnew hnew'
    (Q := fun p => l.map p = D.ix) (fun p p' h hp => ?_) ?_ ?_
  · rw [← hp]
    exact List.map_congr_left fun s hs => (h s hs).symm
  · intro pos ρ hpos hρ hq hpa
    exact nablaOf_at ha hl' hl hpa hq hρ
  · intro D' hD' hix pos ρ hpos hρ hq hpa hpc
    exact nablaOf_at (List.nodup_cons.1 hn).1 (List.nodup_cons.1 hn).2 (by rw [hix]; simp [hl]) hpc
      (by rw [List.map_cons, hpa, hq, hix]) hρ

/-! ## The hypotheses are met by a metric that is not flat -/

theorem nil_not_flat {G : Ground Poly} (hi : Inverse G.n G.g G.gi) (hn : G.n = 3) (hs : G.syms = ["x", "y", "z"])
    (hg : ∀ i j, G.g i j = entry nil i j) : riemann polyEngine G 2 0 2 0 ≠ 0 := by
  have hi' : Inverse 3 (fun i j => nil.get [i, j]) G.gi := by
    rw [hn] at hi
    have : G.g = fun i j => nil.get [i, j] := by funext i j; exact hg i j
    rwa [this] at hi
  obtain ⟨b00, b01, b02, b10, b11, b12, b20, b21, b22⟩ := nilInv_table hi'
  have hd : ∀ p : Poly, G.d polyEngine 0 p = MvPolynomial.pderiv "x" p ∧ G.d polyEngine 1 p = MvPolynomial.pderiv "y" p ∧
      G.d polyEngine 2 p = MvPolynomial.pderiv "z" p := by
    intro p
    unfold Ground.d
    rw [hs]
    exact ⟨rfl, rfl, rfl⟩
  have i00 : entry nil 0 0 = 1 + MvPolynomial.X "z" * MvPolynomial.X "z" := rfl
  have i01 : entry nil 0 1 = MvPolynomial.X "z" := rfl
  have i02 : entry nil 0 2 = 0 := rfl
  have i10 : entry nil 1 0 = MvPolynomial.X "z" := rfl
  have i11 : entry nil 1 1 = 1 := rfl
  have i12 : entry nil 1 2 = 0 := rfl
  have i20 : entry nil 2 0 = 0 := rfl
  have i21 : entry nil 2 1 = 0 := rfl
  have i22 : entry nil 2 2 = 1 := rfl
  have c : ∀ l m n, christoffel polyEngine G l m n = rat (1 / 2) * ∑ s ∈ range 3, G.gi l s *
      (G.d polyEngine m (entry nil n s) + G.d polyEngine n (entry nil s m) - G.d polyEngine s (entry nil m n)) := by
    intro l m n
    unfold christoffel
    rw [hn]
    simp only [hg]
  have h2 := rat_half_two
  have c1 : christoffel polyEngine G 2 0 0 = -MvPolynomial.X "z" := by
    rw [c]
    simp [sum_range_succ, (hd _).1, (hd _).2.1, (hd _).2.2, b20, b21, b22, i00, i02, i20, -one_div]
    linear_combination (-MvPolynomial.X "z") * h2
  have c2 : christoffel polyEngine G 2 0 1 = -rat (1 / 2) := by
    rw [c]
    simp [sum_range_succ, (hd _).1, (hd _).2.1, (hd _).2.2, b20, b21, b22, i01, i12, i20, i21, -one_div]
  have c3 : ∀ l, l < 3 → christoffel polyEngine G 2 2 l = 0 := by
    intro l hl
    rw [c]
    interval_cases l <;>
    simp [sum_range_succ, (hd _).1, (hd _).2.1, (hd _).2.2, b20, b21, b22, i01, i02, i12, i20, i21, i22, -one_div]
  have c3' : ∀ l, l < 3 → christoffel polyEngine G 2 l 2 = 0 := by
    intro l hl
    rw [c]
    interval_cases l <;>
    simp [sum_range_succ, (hd _).1, (hd _).2.1, (hd _).2.2, b20, b21, b22, i01, i02, i12, i20, i21, i22, -one_div]
  have c4 : christoffel polyEngine G 0 2 0 = rat (1 / 2) * MvPolynomial.X "z" := by
    rw [c]
    simp [sum_range_succ, (hd _).1, (hd _).2.1, (hd _).2.2, b00, b01, b02, i00, i01, i02, i12, i20, i21, i22, -one_div]
  have c5 : christoffel polyEngine G 1 2 0 = rat (1 / 2) * (1 - MvPolynomial.X "z" * MvPolynomial.X "z") := by
    rw [c]
    simp [sum_range_succ, (hd _).1, (hd _).2.1, (hd _).2.2, b10, b11, b12, i00, i01, i02, i12, i20, i21, i22, -one_div]
    refine Or.inl ?_
    ring
  unfold riemann
  rw [hn]
  simp only [sum_range_succ, sum_range_zero, c3 0 (by decide), c3 1 (by decide), c3 2 (by decide), c1, c2, c4, c5,
    c3' 0 (by decide), (hd _).1, (hd _).2.2]
  intro h
  have := congrArg (MvPolynomial.eval fun _ => (0 : ℚ)) h
  simp [rat] at this
  norm_num at this

/-- C92 to C94: the hypotheses hold after this metric has been declared; the tensor of C94 is the metric itself. -/
example : ∃ (G : Ground Poly) (V : View Poly) (w : World Poly) (Dm : TField Poly) (letters : List Sym),
    EngineOK polyEngine ∧ Calculus polyEngine ∧ Scene G V w ∧ LowerMetric G V Dm ∧ NamesOK polyEngine G V w Dm.name ∧
    letters.Nodup ∧ "f" ∈ letters ∧ "g" ∈ letters ∧ "f" ∉ ["a", "b", "c", "d", "e"] ∧ "g" ∉ ["a", "b", "c", "d", "e"] ∧
    ["e", "a", "b", "c", "d"].Nodup ∧
    V G.m = some Dm ∧ Dm.coords = G.c ∧ Dm.name ≠ "TEMP" ∧ ["i", "j"].length = Dm.ix.length ∧
    (∀ q : Quantity, "DT" ≠ Dm.name ++ q.suffix) ∧ (∀ q : Quantity, "DDT" ≠ Dm.name ++ q.suffix) ∧
    riemann polyEngine G 2 0 2 0 ≠ 0 := by
  obtain ⟨G, V, w, h1, h2, -, h3, h4, h5, h6, h7⟩ := curved_full
  exact ⟨G, V, w, _, ["a", "b", "c", "d", "e", "f", "g"], polyEngine_ok, polyEngine_calculus, h1, h3, curved_names h4,
    by decide, by decide, by decide, by decide, by decide, by decide, h3.view, h3.coords, h3.name, rfl,
    fun q => by cases q <;> decide, fun q => by cases q <;> decide, nil_not_flat h1.inverse h2 h6 h7⟩

end PyOGRe
