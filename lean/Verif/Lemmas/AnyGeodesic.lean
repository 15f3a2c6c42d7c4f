import Verif.Lemmas.Geodesic
import Verif.Lemmas.Connection

/-!
# Geodesic equations of metrics with any default indices

As in `Lemmas/Geodesic`, with arbitrary connection coefficients.
-/

namespace PyOGRe
open Spec Finset
variable {K : Type} [CommRing K] {E : Engine K} {G : Ground K} {V : View K} {w : World K} {Dm : TField K}
  {Γ : Nat → Nat → Nat → K}
variable [DecidableEq K] [Algebra ℚ K]

def GivesFor (E : Engine K) (G : Ground K) (Γ : Nat → Nat → Nat → K) (V : View K) (w : World K) (base : String) (sel : Kind → Bool) (kind : Kind)
    (name : String) (ix : List Int) (f : List Nat → K) (r : Id') (w' : World K) : Prop :=
  ∃ V', Scene G V' w' ∧ V.Keeps V' ∧ Leaves (fun i => i = r ∨ Related base w' i) w w' ∧ NamesFor E G Γ V' w' base ∧
    r ∈ w'.instances ∧ Holds G w' r kind name ix f ∧ Finds w' sel name r

theorem anyGiven_found {base name : String} {sel : Kind → Bool} {kind : Kind} {ix : List Int} {f : List Nat → K}
    (hS : Scene G V w) (hc : NamesFor E G Γ V w base) {r : Id'} (hr : r ∈ w.instances) (h : Holds G w r kind name ix f)
    (hf : Finds w sel name r) : GivesFor E G Γ V w base sel kind name ix f r w :=
  ⟨V, hS, keeps_refl V, leaves_refl _ hS.registry, hc, hr, h, hf⟩

theorem anyGiven_curved {base name : String} {sel : Kind → Bool} {kind : Kind} (hs : sel kind = true) {ix : List Int}
    {f : List Nat → K} {V1 : View K} {w1 : World K}
    (hS1 : Scene G V1 w1) (hk : V.Keeps V1) (hL : Leaves (Related base w1) w w1)
    (hc : NamesFor E G Γ V1 w1 base) (ht : name ≠ "TEMP") (hn : ∀ q : Quantity, name ≠ base ++ q.suffix)
    (hU : Unnamed w1 sel name) {r : Id'} {w' : World K}
    (h : Curved G V1 w1 kind name ix f r w') : GivesFor E G Γ V w base sel kind name ix f r w' := by
  obtain ⟨V', h1, h2, h3, h4, h5, h6, -⟩ := h
  refine ⟨V', h1, keeps_trans hk h2, leaves_mono (leaves_trans hL h3) fun i _ _ hi => ?_,
    namesFor_leaves hS1 hc h2 h3 fun i _ _ hi o ho q hq => ?_, h5, h6, finds_curved hs ht hU h3 h5 h1 h6⟩
  · rcases hi with hi | hi
    · exact Or.inr (related_leaves h3 hi)
    · exact Or.inl hi
  · obtain ⟨o', k1, -, -, k4, -⟩ := h6
    rw [hi, k1] at ho
    cases ho
    exact absurd (k4.symm.trans hq) (hn q)

theorem anyDoes_computeGeodesicChristoffel (hE : ∀ x, E.simp x = x) (hΓ : GivesConnection E G Γ Dm)
    (hS : Scene G V w) (C : Curves K) (hm : AnyMetric G V Dm) (hc : NamesFor E G Γ V w Dm.name)
    (hU : Unnamed w (· == .geodesicChristoffel) (Dm.name ++ " Geodesic From Christoffel")) :
    Does (computeGeodesicChristoffel E C G.m G.c) w
      (GivesFor E G Γ V w Dm.name (· == .geodesicChristoffel) .geodesicChristoffel (Dm.name ++ " Geodesic From Christoffel") [1]
        fun J => C.clear (geodesicOf C G Γ (J.getD 0 0))) := by
  obtain ⟨oc, c1, -, c3, c4⟩ := hS.chart
  unfold computeGeodesicChristoffel
  refine Does.step (getObj_ok c1 c3) ?_
  refine Does.bind (anyProvides_christoffel hΓ hS hm hc) ?_
  rintro g w1 ⟨V1, Dg, h1, h2, h3, h4, -, -, h5⟩
  rw [c4]
  refine Does.bind (scene_vector h1 (by simp [hS.dim]) "T") ?_
  rintro v w2 ⟨V2, Dv, i1, i2, i3, i4⟩
  refine Does.bind (scene_vector i1 (by simp [hS.dim]) "T") ?_
  rintro a w3 ⟨V3, Da, j1, j2, j3, j4⟩
  have hm1 := anyMetric_keeps hm h2
  have hg := fieldsOf_inView Dm (inView_extends j2 (inView_extends i2 h5))
  have hv := fieldsOf_inView Dm (inView_extends j2 i4)
  have ha := fieldsOf_inView Dm j4
  set F := fieldsOf V3 Dm with hF
  have hok : (Formula.add (.tensor a ["sigma"]) (.mul (.mul (.tensor g ["sigma", "mu", "nu"]) (.tensor v ["mu"]))
      (.tensor v ["nu"])) : Formula K).OK G V3 F := by
    refine ⟨inView_ok ha (by decide) rfl, ⟨⟨inView_ok hg (by decide) rfl, inView_ok hv (by decide) rfl⟩,
      inView_ok hv (by decide) rfl⟩, ?_⟩
    show List.Perm ["sigma"] ["sigma"]
    rfl
  have main := stores_curve hE h1 (fun t D h => j2 _ _ (i2 _ _ h)) (onlyTemps_trans i3 j3) j1 hok (ix := [1]) ?_
    ⟨rfl, by simp⟩ hm1.view hm1.name (tr := fun b => (b.map C.clear).map E.simp)
    (g := fun J => C.clear (geodesicOf C G Γ (J.getD 0 0))) ?_ (kind := .geodesicChristoffel) rfl
    " Geodesic From Christoffel" "0" (suffix_ne (by decide))
  · simp only [Formula.run, Formula.runWith, pyM_bind_assoc] at main
    simp only [productOf, pyM_bind_assoc]
    refine Does.mono main fun r w' h => ?_
    have hL := leaves_mono h3 (new' := Related Dm.name w1) fun i _ _ h => Or.inr h
    exact anyGiven_curved rfl h1 h2 hL h4 (suffix_ne (by decide) _) (suffix_not_quantity (by intro q; cases q <;> decide) _)
      (related_unnamed (fun hc => absurd (append_cancel hc) (by decide))
        (suffix_not_quantity (by intro q; cases q <;> decide) _) hL (suffix_ne (by decide) _) hU) h
  · show ["sigma"].map (posOf ["sigma"] ((Formula.tensor a ["sigma"]).mean E G F).ix) = [1]
    rw [tensor_ix (by decide) (by rw [ha.cfg]; rfl), ha.cfg]
    rfl
  · intro b h hb hh
    refine agree_map (agree_map hb (g := fun J => C.clear (geodesicOf C G Γ (J.getD 0 0))) fun J hJ hx => ?_)
      fun J _ _ => hE _
    congr 1
    obtain ⟨ρ, hρ, hρv⟩ := exists_env hS.pos (labels := ["sigma"]) (by decide) (J := J) hJ hx
    rw [← hρv]
    have := hh geodesicPos ρ geodesicPos_ok hρ rfl
    rw [show h (["sigma"].map ρ) = _ from this]
    show ((Formula.tensor a ["sigma"]).mean E G F).value geodesicPos ρ + sumOver G.n ["nu"] (fun ρ' =>
      sumOver G.n ["mu"] (fun ρ'' => ((Formula.tensor g ["sigma", "mu", "nu"]).mean E G F).value geodesicPos ρ'' *
        ((Formula.tensor v ["mu"]).mean E G F).value (turned ["mu"] geodesicPos) ρ'') ρ' *
        ((Formula.tensor v ["nu"]).mean E G F).value (turned ["nu"] geodesicPos) ρ') ρ = _
    rw [field_value ha (by decide) hρ (by decide)]
    simp only [sumOver]
    unfold geodesicOf
    have hσ : ρ "sigma" < G.n := hρ _
    congr 1
    · simp only [List.map_cons, List.map_nil, List.getD_cons_zero]
      rw [getD_map_syms hS _ hσ]
      rfl
    · rw [Finset.sum_comm]
      refine Finset.sum_congr rfl fun n hn => ?_
      have hρ1 : Values G.n (Function.update ρ "nu" n) := values_update hρ _ (Finset.mem_range.1 hn)
      rw [field_value hv (by decide) hρ1 (by decide), Finset.sum_mul]
      refine Finset.sum_congr rfl fun m hm' => ?_
      have hρ2 : Values G.n (Function.update (Function.update ρ "nu" n) "mu" m) :=
        values_update hρ1 _ (Finset.mem_range.1 hm')
      rw [field_value hv (by decide) hρ2 (by decide), field_value hg (by decide) hρ2 (by decide)]
      simp only [List.map_cons, List.map_nil, List.getD_cons_zero, Quantity.compsOf, List.getD_cons_succ,
        Function.update_self, ne_eq, String.reduceEq, not_false_eq_true, Function.update_of_ne]
      rw [getD_map_syms hS _ (Finset.mem_range.1 hn), getD_map_syms hS _ (Finset.mem_range.1 hm')]
      rfl

theorem anyGiven_geodesicChristoffel (hE : ∀ x, E.simp x = x) (hΓ : GivesConnection E G Γ Dm)
    (hS : Scene G V w) (C : Curves K) (hm : AnyMetric G V Dm) (hc : NamesFor E G Γ V w Dm.name) {coords : Option Id'}
    (hco : coords = some G.c ∨ coords = none)
    (hN : NamesCurve G w (· == .geodesicChristoffel) .geodesicChristoffel (Dm.name ++ " Geodesic From Christoffel") [1]
      fun J => C.clear (geodesicOf C G Γ (J.getD 0 0))) :
    Does (calcGeodesicChristoffel E C G.m coords) w
      (GivesFor E G Γ V w Dm.name (· == .geodesicChristoffel) .geodesicChristoffel (Dm.name ++ " Geodesic From Christoffel") [1]
        fun J => C.clear (geodesicOf C G Γ (J.getD 0 0))) := by
  unfold calcGeodesicChristoffel
  exact does_curve_start (k := fun n c => unlessCurve E C (· == .geodesicChristoffel)
    (n ++ " Geodesic From Christoffel") c (computeGeodesicChristoffel E C G.m c)) hS hm.view
    (hco.imp id fun h => ⟨h, hm.coords⟩)
    (does_unlessCurve hS hN (fun t ht hH hf => anyGiven_found hS hc ht hH hf) fun hU =>
      anyDoes_computeGeodesicChristoffel hE hΓ hS C hm hc hU)

theorem anyComputesTime (hE : ∀ x, E.simp x = x) (hS : Scene G V w) (C : Curves K) {Dm : TField K}
    (hU : Unnamed w (· == .geodesicTime) (Dm.name ++ " Geodesic With Time Parameter"))
    {V1 V5 : View K} {w1 w5 : World K} (h1 : Scene G V1 w1) (h2 : V.Keeps V1) (h3 : Leaves (Derived Dm.name w1) w w1)
    (h4 : NamesFor E G Γ V1 w1 Dm.name) (hm1 : AnyMetric G V1 Dm) (hV : V1.Extends V5) (hT : OnlyTemps w1 w5)
    (hS5 : Scene G V5 w5) {g v a g0 : Id'}
    (hg : InView G V5 g [1, -1, -1] (Quantity.compsOf E G Γ .christoffel) (fieldsOf V5 Dm g))
    (hv : InView G V5 v [1] (fun J => (G.syms.zipIdx.map fun s => if s.2 ≠ 0 then C.var (dot s.1) else 1).getD
      (J.getD 0 0) 0) (fieldsOf V5 Dm v))
    (ha : InView G V5 a [1] (fun J => (G.syms.zipIdx.map fun s => if s.2 ≠ 0 then C.var (ddot s.1) else 0).getD
      (J.getD 0 0) 0) (fieldsOf V5 Dm a))
    (hz : InView G V5 g0 [-1, -1] (fun J => Γ 0 (J.getD 0 0) (J.getD 1 0)) (fieldsOf V5 Dm g0)) :
    Does (do
      let x ← calcInit E a ["sigma"]
      let y ← calcInit E g ["sigma", "mu", "nu"]
      let z ← productOf E g0 ["mu", "nu"] v ["sigma"]
      let y ← calcSub E y (.obj z)
      let z ← calcInit E v ["mu"]
      let y ← matmulTensors E y z
      let z ← calcInit E v ["nu"]
      let y ← matmulTensors E y z
      let x ← calcAddObj E x y
      let t ← calcResult E x "Result" "" []
      let comps ← getComponents E t none none
      let om ← getObj G.m
      storeCurve .geodesicTime (om.name ++ " Geodesic With Time Parameter") ((comps.map C.clear).map E.simp) G.m G.c [1]
        "0" [t]) w5 (GivesFor E G Γ V w Dm.name (· == .geodesicTime) .geodesicTime (Dm.name ++ " Geodesic With Time Parameter") [1]
        fun J => C.clear (geodesicTOf C G Γ (J.getD 0 0))) := by
  set F := fieldsOf V5 Dm with hF
  have hok : (Formula.add (.tensor a ["sigma"]) (.mul (.mul (.sub (.tensor g ["sigma", "mu", "nu"])
      (.mul (.tensor g0 ["mu", "nu"]) (.tensor v ["sigma"]))) (.tensor v ["mu"]))
      (.tensor v ["nu"])) : Formula K).OK G V5 F := by
    refine ⟨inView_ok ha (by decide) rfl, ⟨⟨⟨inView_ok hg (by decide) rfl,
      ⟨inView_ok hz (by decide) rfl, inView_ok hv (by decide) rfl⟩, ?_⟩, inView_ok hv (by decide) rfl⟩,
      inView_ok hv (by decide) rfl⟩, ?_⟩
    · show List.Perm ["mu", "nu", "sigma"] ["sigma", "mu", "nu"]
      decide
    · show List.Perm ["sigma"] ["sigma"]
      rfl
  have main := stores_curve hE h1 hV hT hS5 hok (ix := [1]) ?_
    ⟨rfl, by simp⟩ hm1.view hm1.name (tr := fun b => (b.map C.clear).map E.simp)
    (g := fun J => C.clear (geodesicTOf C G Γ (J.getD 0 0))) ?_ (kind := .geodesicTime) rfl
    " Geodesic With Time Parameter" "0" (suffix_ne (by decide))
  · simp only [Formula.run, Formula.runWith, pyM_bind_assoc] at main
    simp only [productOf, pyM_bind_assoc]
    refine Does.mono main fun r w' h => ?_
    have hL := leaves_mono h3 (new' := Related Dm.name w1) fun i _ _ h => Or.inr h
    exact anyGiven_curved rfl h1 h2 hL h4 (suffix_ne (by decide) _) (suffix_not_quantity (by intro q; cases q <;> decide) _)
      (related_unnamed (fun hc => absurd (append_cancel hc) (by decide))
        (suffix_not_quantity (by intro q; cases q <;> decide) _) hL (suffix_ne (by decide) _) hU) h
  · show ["sigma"].map (posOf ["sigma"] ((Formula.tensor a ["sigma"]).mean E G F).ix) = [1]
    rw [tensor_ix (by decide) (by rw [ha.cfg]; rfl), ha.cfg]
    rfl
  · intro b h hb hh
    refine agree_map (agree_map hb (g := fun J => C.clear (geodesicTOf C G Γ (J.getD 0 0))) fun J hJ hx => ?_)
      fun J _ _ => hE _
    congr 1
    obtain ⟨ρ, hρ, hρv⟩ := exists_env hS.pos (labels := ["sigma"]) (by decide) (J := J) hJ hx
    rw [← hρv]
    have := hh geodesicPos ρ geodesicPos_ok hρ rfl
    rw [show h (["sigma"].map ρ) = _ from this]
    show ((Formula.tensor a ["sigma"]).mean E G F).value geodesicPos ρ + sumOver G.n ["nu"] (fun ρ' =>
      sumOver G.n ["mu"] (fun ρ'' => (((Formula.tensor g ["sigma", "mu", "nu"]).mean E G F).value geodesicPos ρ'' -
        sumOver G.n [] (fun ρ3 => ((Formula.tensor g0 ["mu", "nu"]).mean E G F).value geodesicPos ρ3 *
          ((Formula.tensor v ["sigma"]).mean E G F).value (turned [] geodesicPos) ρ3) ρ'') *
        ((Formula.tensor v ["mu"]).mean E G F).value (turned ["mu"] geodesicPos) ρ'') ρ' *
        ((Formula.tensor v ["nu"]).mean E G F).value (turned ["nu"] geodesicPos) ρ') ρ = _
    rw [field_value ha (by decide) hρ (by decide)]
    simp only [sumOver]
    unfold geodesicTOf
    have hσ : ρ "sigma" < G.n := hρ _
    congr 1
    · simp only [List.map_cons, List.map_nil, List.getD_cons_zero]
      rw [getD_zipIdx_syms hS _ hσ]
      unfold Ground.accelT
      dsimp only
      rw [ite_not]
      rfl
    · rw [Finset.sum_comm]
      refine Finset.sum_congr rfl fun n hn => ?_
      have hρ1 : Values G.n (Function.update ρ "nu" n) := values_update hρ _ (Finset.mem_range.1 hn)
      rw [field_value hv (by decide) hρ1 (by decide), Finset.sum_mul]
      refine Finset.sum_congr rfl fun m hm' => ?_
      have hρ2 : Values G.n (Function.update (Function.update ρ "nu" n) "mu" m) :=
        values_update hρ1 _ (Finset.mem_range.1 hm')
      rw [field_value hv (by decide) hρ2 (by decide), field_value hg (by decide) hρ2 (by decide),
        field_value hv (by decide) hρ2 (by decide), field_value hz (by decide) hρ2 (by decide)]
      simp only [List.map_cons, List.map_nil, List.getD_cons_zero, Quantity.compsOf, List.getD_cons_succ,
        Function.update_self, ne_eq, String.reduceEq, not_false_eq_true, Function.update_of_ne]
      rw [getD_zipIdx_syms hS _ (Finset.mem_range.1 hn), getD_zipIdx_syms hS _ (Finset.mem_range.1 hm'),
        getD_zipIdx_syms hS _ hσ]
      unfold Ground.speedT
      dsimp only
      rw [ite_not, ite_not, ite_not]
      rfl

theorem anyUnnamed_given {base name name' : String} {sel' : Kind → Bool} {kind : Kind} {ix : List Int} {f : List Nat → K}
    {r : Id'} {w' : World K} (h : GivesFor E G Γ V w base sel' kind name ix f r w') {sel : Kind → Bool}
    (hs : sel kind = false) (hn : name' ≠ "TEMP") (hl : name' ≠ base ++ " Lagrangian")
    (hq : ∀ q : Quantity, name' ≠ base ++ q.suffix) (hU : Unnamed w sel name') : Unnamed w' sel name' := by
  obtain ⟨V', h1, h2, h3, h4, h5, ⟨o, k1, -, k3, -⟩, -⟩ := h
  refine unnamed_leaves h3 hn (fun i hi o' ho hsel hname => ?_) hU
  rcases hi with rfl | ⟨o', f1, f2⟩ | ⟨o', f1, q, -, f2⟩
  · rw [ho] at k1; cases k1
    rw [k3, hs] at hsel; cases hsel
  · rw [ho] at f1; cases f1
    exact hl (hname.symm.trans f2)
  · rw [ho] at f1; cases f1
    exact hq q (hname.symm.trans f2)

theorem anyDoes_computeGeodesicTime (hE : ∀ x, E.simp x = x) (hΓ : GivesConnection E G Γ Dm)
    (hS : Scene G V w) (C : Curves K) (hm : AnyMetric G V Dm) (hc : NamesFor E G Γ V w Dm.name)
    (hU : Unnamed w (· == .geodesicTime) (Dm.name ++ " Geodesic With Time Parameter")) :
    Does (computeGeodesicTime E C G.m G.c) w
      (GivesFor E G Γ V w Dm.name (· == .geodesicTime) .geodesicTime (Dm.name ++ " Geodesic With Time Parameter") [1]
        fun J => C.clear (geodesicTOf C G Γ (J.getD 0 0))) := by
  obtain ⟨oc, c1, -, c3, c4⟩ := hS.chart
  unfold computeGeodesicTime
  refine Does.step (getObj_ok c1 c3) ?_
  refine Does.bind (anyProvides_christoffel hΓ hS hm hc) ?_
  rintro g w1 ⟨V1, Dg, h1, h2, h3, h4, -, -, h5⟩
  rw [c4]
  refine Does.bind (scene_vector h1 (by simp [hS.dim]) "T") ?_
  rintro v w2 ⟨V2, Dv, i1, i2, i3, i4⟩
  refine Does.bind (scene_vector i1 (by simp [hS.dim]) "T") ?_
  rintro a w3 ⟨V3, Da, j1, j2, j3, j4⟩
  have hg0 := inView_extends j2 (inView_extends i2 h5)
  obtain ⟨og, g1, g2⟩ := j1.shows _ _ hg0.view
  refine Does.step (requireTensor_ok g1 (shows_noCoordinates g2)) ?_
  refine Does.bind (Q := fun b w' => Scene G V3 w' ∧ Frame w3 w' ∧ Agree G.n 3 b (Quantity.compsOf E G Γ .christoffel)) ?_ ?_
  · refine Does.step (getObj_ok g1 g2.alive) ?_
    show Does (getRepresentation E g G.c og.indices) _ _
    rw [g2.indices]
    refine Does.mono (scene_get hE j1 hg0.view g2.config) ?_
    rintro b w' ⟨b1, b2, b3⟩
    rw [hg0.cfg] at b3
    refine ⟨b1, b2, agree_congr b3 fun J k1 k2 => ?_⟩
    have := comp_self (G := G) (D := Dg) k2 (by rw [hg0.cfg]; exact k1)
    rw [hg0.cfg] at this
    exact this.trans (hg0.val J k1 k2)
  rintro b w4 ⟨b1, b2, b3⟩
  refine Does.bind (scene_temp b1 (a := firstSlice b) (ix := [-1, -1]) (Arr.wf_ofFn _ _) ?_ ⟨rfl, by simp⟩ "T") ?_
  · show b.shape.tail = _
    rw [b3.2.1]; rfl
  rintro g0 w5 ⟨V5, l1, l2, l3, l4⟩
  have hslice : InView G V5 g0 [-1, -1] (fun J => Γ 0 (J.getD 0 0) (J.getD 1 0)) _ :=
    ⟨l4, rfl, rfl, fun J k1 k2 => by
      have hv : Valid b.shape.tail J := by
        rw [b3.2.1]; exact valid_replicate.2 ⟨k1, k2⟩
      show (firstSlice b).get J = _
      unfold firstSlice
      rw [Arr.get_ofFn hv, b3.2.2 (0 :: J) (by rw [List.length_cons, k1]; rfl) (by
        intro x hx
        rcases List.mem_cons.1 hx with rfl | hx
        · exact hS.pos
        · exact k2 x hx)]
      match J, k1 with
      | [x, y], _ => rfl⟩
  have hm1 := anyMetric_keeps hm h2
  have hg := fieldsOf_inView Dm (inView_extends l2 hg0)
  have hv := fieldsOf_inView Dm (inView_extends l2 (inView_extends j2 i4))
  have ha := fieldsOf_inView Dm (inView_extends l2 j4)
  have hz := fieldsOf_inView Dm hslice
  exact anyComputesTime hE hS C hU h1 h2 h3 h4 hm1 (fun t D h => l2 _ _ (j2 _ _ (i2 _ _ h)))
    (onlyTemps_trans (onlyTemps_trans (onlyTemps_trans i3 j3) (onlyTemps_frame b2)) l3) l1 hg hv ha hz

theorem anyGiven_geodesicTime (hE : ∀ x, E.simp x = x) (hΓ : GivesConnection E G Γ Dm)
    (hS : Scene G V w) (C : Curves K) (hm : AnyMetric G V Dm) (hc : NamesFor E G Γ V w Dm.name) {coords : Option Id'}
    (hco : coords = some G.c ∨ coords = none)
    (hN : NamesCurve G w (· == .geodesicTime) .geodesicTime (Dm.name ++ " Geodesic With Time Parameter") [1]
      fun J => C.clear (geodesicTOf C G Γ (J.getD 0 0))) :
    Does (calcGeodesicTime E C G.m coords) w
      (GivesFor E G Γ V w Dm.name (· == .geodesicTime) .geodesicTime (Dm.name ++ " Geodesic With Time Parameter") [1]
        fun J => C.clear (geodesicTOf C G Γ (J.getD 0 0))) := by
  unfold calcGeodesicTime
  exact does_curve_start (k := fun n c => unlessCurve E C (· == .geodesicTime)
    (n ++ " Geodesic With Time Parameter") c (computeGeodesicTime E C G.m c)) hS hm.view
    (hco.imp id fun h => ⟨h, hm.coords⟩)
    (does_unlessCurve hS hN (fun t ht hH hf => anyGiven_found hS hc ht hH hf) fun hU =>
      anyDoes_computeGeodesicTime hE hΓ hS C hm hc hU)

theorem anyGiven_lagrangian (hE : ∀ x, E.simp x = x) (hS : Scene G V w) (C : Curves K)
    {Dm : TField K} (hm : V G.m = some Dm) (hmn : Dm.name ≠ "TEMP") (hc : NamesFor E G Γ V w Dm.name) {coords : Option Id'}
    (hco : coords = some G.c ∨ coords = none ∧ Dm.coords = G.c)
    (hN : NamesCurve G w Kind.isLagrangian .lagrangian (Dm.name ++ " Lagrangian") [] fun _ => lagrangian C G) :
    Does (calcLagrangian E C G.m coords) w
      (GivesFor E G Γ V w Dm.name Kind.isLagrangian .lagrangian (Dm.name ++ " Lagrangian") [] fun _ => lagrangian C G) := by
  unfold calcLagrangian
  refine does_curve_start (k := fun n c => unlessCurve E C Kind.isLagrangian (n ++ " Lagrangian") c
    (computeLagrangian E C G.m c)) hS hm hco (does_unlessCurve hS hN (fun t ht hH hf => anyGiven_found hS hc ht hH hf) fun hU => ?_)
  refine Does.mono (does_computeLagrangian hE hS C hm hmn) fun r w' h => ?_
  exact anyGiven_curved rfl hS (keeps_refl V) (leaves_refl _ hS.registry) hc (suffix_ne (by decide) _)
    (suffix_not_quantity (by intro q; cases q <;> decide) _) hU h

theorem anyGiven_geodesicLagrangian (hE : ∀ x, E.simp x = x) (hS : Scene G V w) (hC : Calculus E)
    (hO : CurvesOK E C G.syms) (hP : ProperNames C G.syms) (hT : Static E C G)
    {Dm : TField K} (hm : V G.m = some Dm) (hmn : Dm.name ≠ "TEMP") (hc : NamesFor E G Γ V w Dm.name) {coords : Option Id'}
    (hco : coords = some G.c ∨ coords = none ∧ Dm.coords = G.c)
    (hN : NamesCurve G w Kind.isLagrangian .lagrangian (Dm.name ++ " Lagrangian") [] fun _ => lagrangian C G)
    (hN' : NamesCurve G w (· == .geodesicLagrangian) .geodesicLagrangian (Dm.name ++ " Geodesic From Lagrangian") [1]
      fun J => C.clear (∑ j ∈ range G.n, G.g (J.getD 0 0) j * geodesic E C G j)) :
    Does (calcGeodesicLagrangian E C G.m coords) w
      (GivesFor E G Γ V w Dm.name (· == .geodesicLagrangian) .geodesicLagrangian (Dm.name ++ " Geodesic From Lagrangian") [1]
        fun J => C.clear (∑ j ∈ range G.n, G.g (J.getD 0 0) j * geodesic E C G j)) := by
  unfold calcGeodesicLagrangian
  refine does_curve_start (k := fun n c => unlessCurve E C (· == .geodesicLagrangian) (n ++ " Geodesic From Lagrangian") c
    (computeGeodesicLagrangian E C G.m c)) hS hm hco (does_unlessCurve hS hN'
      (fun t ht hH hf => anyGiven_found hS hc ht hH hf) fun hU => ?_)
  unfold computeGeodesicLagrangian
  refine Does.bind (anyGiven_lagrangian hE hS C hm hmn hc (Or.inl rfl) hN) ?_
  rintro l w1 ⟨V1, h1, h2, h3, h4, h5, h6, -⟩
  obtain ⟨a, e1, e2⟩ := holds_components (E := E) (C := C) h1 h6 (Or.inr rfl) (Or.inl rfl)
  refine Does.step e1 ?_
  obtain ⟨oc, c1, -, c3, c4⟩ := h1.chart
  refine Does.step (getObj_ok c1 c3) ?_
  obtain ⟨om, m1, m2⟩ := h1.shows _ _ (h2 _ _ hm hmn)
  refine Does.step (getObj_ok m1 m2.alive) ?_
  rw [m2.name, c4, e2.2.2 [] rfl (by simp)]
  have hL : Leaves (Related Dm.name w1) w w1 := leaves_mono h3 fun i _ _ hi => by
    rcases hi with rfl | hi
    · obtain ⟨o, k1, -, -, k4, -⟩ := h6
      exact Or.inl ⟨o, k1, k4⟩
    · exact hi
  refine Does.mono (does_storeCurve h1 h1 (keeps_refl V1) (Or.inl rfl) (leaves_refl _ h1.registry)
    (kind := .geodesicLagrangian) rfl (suffix_ne (by decide) _) "0" (ix := [1]) (f := fun J =>
      C.clear (∑ j ∈ range G.n, G.g (J.getD 0 0) j * geodesic E C G j)) ?_ ⟨rfl, by simp⟩) fun r w' h =>
    anyGiven_curved rfl h1 h2 hL h4 (suffix_ne (by decide) _) (suffix_not_quantity (by intro q; cases q <;> decide) _)
      (related_unnamed (fun hc => absurd (append_cancel hc) (by decide))
        (suffix_not_quantity (by intro q; cases q <;> decide) _) hL (suffix_ne (by decide) _) hU) h
  refine ⟨by simp [Arr.WF, vectorOf], by simp [vectorOf, eulerLagrange, hS.dim], fun J hJ hx => ?_⟩
  match J, hJ with
  | [j], _ =>
    have hj : j < G.n := hx j (by simp)
    have := eulerLagrange_value hC hS.inverse hS.symm hS.dim hO hP hT hj
    simp only [vectorOf, Arr.get, ravel, List.getD_cons_zero, List.prod_nil, mul_one, add_zero]
    rw [← this, List.getD_eq_getElem?_getD, List.getElem?_map, List.getD_eq_getElem?_getD]
    have hlt : j < (eulerLagrange C G.syms (C.asFunctions C.parameter G.syms (lagrangian C G))).length := by
      simpa [eulerLagrange, hS.dim] using hj
    rw [show C.asFunctions (curveParameter C .lagrangian G.syms) G.syms (lagrangian C G) =
      C.asFunctions C.parameter G.syms (lagrangian C G) from rfl, List.getElem?_eq_getElem hlt]
    simp [hE]

end PyOGRe
