import Verif.Lemmas.Orderly

/-! Helper lemmas: every call leaves the session in order. -/

namespace PyOGRe
open Spec
variable {K : Type} {w w' : World K} {α β : Type}

section
variable [CommRing K] {E : Engine K}

theorem Grows.given (h : Grows w w') {t : Id'} (ht : Given w t) : Given w' t := h.kept.given ht
theorem Good.given {t : Id'} (h : Good w t) : Given w t := ⟨h.lt, fun _ => h⟩
theorem Tidy.given (hw : Tidy w) {t : Id'} (ht : t ∈ w.instances) : Given w t :=
  ⟨sound_lt hw.sound ht, fun hk => hw.good ht hk⟩

theorem Ok.init (hw : Tidy w) {t : Id'} (ht : Given w t) (labels : List Sym) :
    Ok (PyOGRe.calcInit E t labels) w fun x w' => GoodC w' x := Ok.calcInitG hw ht.2 labels

theorem Ok.productOf (hw : Tidy w) {a b : Id'} (ha : Given w a) (hb : Given w b) (la lb : List Sym) :
    Ok (productOf E a la b lb) w fun x w' => GoodC w' x :=
  Ok.bind (Ok.init hw ha la) fun _ _ g1 hw1 hx => Ok.bind (Ok.init hw1 (g1.given hb) lb) fun _ _ g2 hw2 hy =>
    Ok.matmulTensors hw2 ((g2.goodC hx).fine hw2) (hy.fine hw2)

theorem Ok.partialOf (hw : Tidy w) {t : Id'} (ht : Given w t) (d : Sym) (labels : List Sym) :
    Ok (partialOf E d t labels) w fun x w' => GoodC w' x :=
  Ok.bind (Ok.init hw ht labels) fun _ _ _ hw1 hx => Ok.matmulPartial hw1 _ (hx.fine hw1) _

/-- Only metrics get past the check. -/
theorem Okd.requireMetric (hw : Tidy w) {m : Id'} {f : Unit → PyM K β} {Q : β → World K → Prop}
    (hf : Tensorial w m → Okd (f ()) w Q) : Okd (PyOGRe.requireMetric m >>= f) w Q := by
  unfold PyOGRe.requireMetric
  rw [pyM_bind_assoc]
  refine Okd.read hw rfl fun b hb => ?_
  injection hb with hb
  by_cases h : b = true
  · rw [h]
    refine hf fun o ho hk => ?_
    rw [← hb, ho] at h
    simp [hk] at h
  · rw [Bool.not_eq_true] at h
    rw [h]
    exact (Ok.raise hw).okd

/-- The beginning of these functions. -/
theorem Okd.start (hw : Tidy w) {m : Id'} (hm : Given w m) {f : Obj K → PyM K β} {Q : β → World K → Prop}
    (hf : ∀ om, Good w m → m ∈ w.instances → w.objs[m]? = some om → om.alive = true → Okd (f om) w Q) :
    Okd (do PyOGRe.requireMetric m; let om ← PyOGRe.getObj m; f om) w Q :=
  Okd.requireMetric hw fun hk => Okd.obj hw fun om hom ham =>
    hf om (hm.2 hk) ((hm.2 hk).or.resolve_right fun h => h ⟨om, hom, ham⟩) hom ham

theorem Okd.unlessNamed (hw : Tidy w) (name : String) {p : PyM K Id'} {Q : Id' → World K → Prop}
    (hQ : ∀ t ∈ w.instances, Q t w) (hp : Okd p w Q) : Okd (unlessNamed name p) w Q := by
  unfold PyOGRe.unlessNamed
  refine Okd.read hw rfl fun r hr => ?_
  cases r with
  | none => exact hp
  | some t =>
    injection hr with hr
    exact (Ok.pure hw (hQ t (List.mem_of_find?_eq_some hr))).okd

variable [DecidableEq K] [Algebra ℚ K]

/-- The end of the functions that compute curvature; `del` tells what is deleted. -/
theorem Okd.formulaEnd (hw : Tidy w) {m : Id'} (hm : Good w m) {x : CalcObj} (hx : GoodC w x) (labels : List Sym)
    (ix : Option (List Int)) {suffix : String} (h5 : 5 ≤ suffix.length) (ix' : List Int) (symbol : String)
    (del : Id' → Id') (hdel : ∀ (w' : World K) t, Kept w w' → t < w'.objs.length → del t < w'.objs.length) :
    Okd (do
      let t ← PyOGRe.calcResult E x "Result" "" labels
      let comps ← PyOGRe.getComponents E t none ix
      let om ← PyOGRe.getObj m
      storeResult (om.name ++ suffix) comps m om.coords ix' symbol (del t)) w fun r w' =>
        Given w' r ∧ m ∈ w'.instances := by
  refine Okd.bind (Okd.calcResult hw (hx.fine hw) _ _ _) fun t w1 k1 hw1 ht => ?_
  refine Ok.bindd (Ok.getOwn hw1 (ht.fine hw1) _) fun comps w2 g2 hw2 _ => ?_
  have gm := g2.good (k1.good m hm)
  refine Okd.obj hw2 fun om hom ham => ?_
  have hmr : m ∈ w2.instances := gm.or.resolve_right fun h => h ⟨om, hom, ham⟩
  exact Okd.mono (Okd.finish hw2 (by decide) (ne_temp h5) _ hmr (fun _ => (gm.fine hw2).coords hom ham) _ _
    (hdel w2 t (k1.trans g2.kept) (g2.good ht).lt)) fun r w' hw' h => let h' := h.good hw'; ⟨h'.1.given, h'.2.1⟩

theorem Okd.christoffel (hw : Tidy w) {m : Id'} (hm : Given w m) :
    Okd (PyOGRe.calcChristoffel E m) w fun t w' => Given w' t ∧ m ∈ w'.instances := by
  by_cases hk : Tensorial w m
  · exact Okd.calcChristoffel hw (hm.2 hk)
  · unfold PyOGRe.calcChristoffel
    exact Okd.requireMetric hw fun h => absurd h hk

theorem Okd.computeRiemann (hw : Tidy w) {m c : Id'} (hm : Good w m) (hc : Given w c) :
    Okd (computeRiemann E m c) w fun r w' => Given w' r ∧ m ∈ w'.instances := by
  unfold PyOGRe.computeRiemann
  refine Ok.bindd (Ok.partialOf hw hc _ _) fun a w1 g1 hw1 ha => ?_
  refine Ok.bindd (Ok.partialOf hw1 (g1.given hc) _ _) fun b w2 g2 hw2 hb => ?_
  refine Ok.bindd (Ok.calcSub hw2 (g2.goodC ha) _ fun z hz => by cases hz; exact hb.fine hw2) fun s w3 g3 hw3 hs => ?_
  have hc3 := (g1.trans (g2.trans g3)).given hc
  refine Ok.bindd (Ok.productOf hw3 hc3 hc3 _ _) fun p w4 g4 hw4 hp => ?_
  refine Ok.bindd (Ok.calcAddObj hw4 ((g4.goodC hs).fine hw4) (hp.fine hw4)) fun s w5 g5 hw5 hs => ?_
  have hc5 := (g4.trans g5).given hc3
  refine Ok.bindd (Ok.productOf hw5 hc5 hc5 _ _) fun p w6 g6 hw6 hp => ?_
  refine Ok.bindd (Ok.calcSub hw6 (g6.goodC hs) _ fun z hz => by cases hz; exact hp.fine hw6) fun s w7 g7 hw7 hs => ?_
  have gm := (g1.trans (g2.trans (g3.trans (g4.trans (g5.trans (g6.trans g7)))))).good hm
  exact Okd.formulaEnd hw7 gm hs _ _ (by decide) _ _ (fun t => t) fun _ _ _ h => h

theorem Okd.calcRiemann (hw : Tidy w) {m : Id'} (hm : Given w m) :
    Okd (calcRiemann E m) w fun r w' => Given w' r ∧ m ∈ w'.instances := by
  unfold PyOGRe.calcRiemann
  exact Okd.start hw hm fun om gm hmr _ _ => Okd.unlessNamed hw _ (fun t ht => ⟨hw.given ht, hmr⟩)
    (Okd.bind (Okd.calcChristoffel hw gm) fun c w1 k1 hw1 hc => Okd.computeRiemann hw1 (k1.good m gm) hc.1)

theorem Okd.computeRicci (hw : Tidy w) {m r : Id'} (hm : Good w m) (hr : Given w r) :
    Okd (computeRicci E m r) w fun r w' => Given w' r ∧ m ∈ w'.instances :=
  Ok.bindd (Ok.init hw hr _) fun _ _ g1 hw1 hx => Okd.formulaEnd hw1 (g1.good hm) hx _ _ (by decide) _ _ (fun t => t)
    fun _ _ _ h => h

theorem Okd.calcRicci (hw : Tidy w) {m : Id'} (hm : Given w m) :
    Okd (calcRicci E m) w fun r w' => Given w' r ∧ m ∈ w'.instances := by
  unfold PyOGRe.calcRicci
  exact Okd.start hw hm fun om gm hmr _ _ => Okd.unlessNamed hw _ (fun t ht => ⟨hw.given ht, hmr⟩)
    (Okd.bind (Okd.calcRiemann hw hm) fun c w1 k1 hw1 hc => Okd.computeRicci hw1 (k1.good m gm) hc.1)

theorem Okd.computeScalar (hw : Tidy w) {m r : Id'} (hm : Good w m) (hr : Given w r) :
    Okd (computeScalar E m r) w fun r w' => Given w' r ∧ m ∈ w'.instances :=
  Ok.bindd (Ok.init hw hr _) fun _ _ g1 hw1 hx => Okd.formulaEnd hw1 (g1.good hm) hx _ _ (by decide) _ _ (fun t => t)
    fun _ _ _ h => h

theorem Okd.calcScalar (hw : Tidy w) {m : Id'} (hm : Given w m) :
    Okd (calcScalar E m) w fun r w' => Given w' r ∧ m ∈ w'.instances := by
  unfold PyOGRe.calcScalar
  exact Okd.start hw hm fun om gm hmr _ _ => Okd.unlessNamed hw _ (fun t ht => ⟨hw.given ht, hmr⟩)
    (Okd.bind (Okd.calcRicci hw hm) fun c w1 k1 hw1 hc => Okd.computeScalar hw1 (k1.good m gm) hc.1)

theorem Okd.computeEinstein (hw : Tidy w) {m r s : Id'} (hm : Good w m) (hr : Given w r) (hs : Given w s) :
    Okd (computeEinstein E m r s) w fun r w' => Given w' r ∧ m ∈ w'.instances := by
  unfold PyOGRe.computeEinstein
  refine Ok.bindd (Ok.init hw hr _) fun x w1 g1 hw1 hx => ?_
  refine Ok.bindd (Ok.init hw1 (g1.given hs) _) fun y w2 g2 hw2 hy => ?_
  refine Ok.bindd (Ok.calcMul hw2 (hy.fine hw2) _ fun z hz => nomatch hz) fun y w3 g3 hw3 hy => ?_
  have gm := (g1.trans (g2.trans g3)).good hm
  refine Ok.bindd (Ok.init hw3 gm.given _) fun z w4 g4 hw4 hz => ?_
  refine Ok.bindd (Ok.matmulTensors hw4 ((g4.goodC hy).fine hw4) (hz.fine hw4)) fun y w5 g5 hw5 hy => ?_
  refine Ok.bindd (Ok.calcSub hw5 ((g2.trans (g3.trans (g4.trans g5))).goodC hx) _
    fun z hz => by cases hz; exact hy.fine hw5) fun x w6 g6 hw6 hx => ?_
  exact Okd.formulaEnd hw6 ((g4.trans (g5.trans g6)).good gm) hx _ _ (by decide) _ _ (fun t => t) fun _ _ _ h => h

theorem Okd.calcEinstein (hw : Tidy w) {m : Id'} (hm : Given w m) :
    Okd (calcEinstein E m) w fun r w' => Given w' r ∧ m ∈ w'.instances := by
  unfold PyOGRe.calcEinstein
  exact Okd.start hw hm fun om gm hmr _ _ => Okd.unlessNamed hw _ (fun t ht => ⟨hw.given ht, hmr⟩)
    (Okd.bind (Okd.calcRicci hw hm) fun r w1 k1 hw1 hr => Okd.bind (Okd.calcScalar hw1 (k1.given hm))
      fun s w2 k2 hw2 hs => Okd.computeEinstein hw2 (k2.good m (k1.good m gm)) (k2.given hr.1) hs.1)

theorem Okd.computeWeyl (hw : Tidy w) {m a r s : Id'} (n : Nat) (hm : Good w m) (ha : Given w a) (hr : Given w r)
    (hs : Given w s) : Okd (computeWeyl E m n a r s) w fun r w' => Given w' r ∧ m ∈ w'.instances := by
  unfold PyOGRe.computeWeyl
  refine Ok.bindd (Ok.init hw ha _) fun x w1 g1 hw1 hx => Okd.lifted hw1 fun f => ?_
  have gm := g1.good hm
  replace hr := g1.given hr
  replace hs := g1.given hs
  refine Ok.bindd (Ok.productOf hw1 hr gm.given _ _) fun b w2 g2 hw2 hb => ?_
  replace gm := g2.good gm
  replace hr := g2.given hr
  replace hs := g2.given hs
  replace hx := g2.goodC hx
  refine Ok.bindd (Ok.productOf hw2 hr gm.given _ _) fun p w3 g3 hw3 hp => ?_
  refine Ok.bindd (Ok.calcSub hw3 (g3.goodC hb) _ fun z hz => by cases hz; exact hp.fine hw3) fun b w4 g4 hw4 hb => ?_
  have g := g3.trans g4
  replace gm := g.good gm
  replace hr := g.given hr
  replace hs := g.given hs
  replace hx := g.goodC hx
  refine Ok.bindd (Ok.productOf hw4 hr gm.given _ _) fun p w5 g5 hw5 hp => ?_
  refine Ok.bindd (Ok.calcAddObj hw5 ((g5.goodC hb).fine hw5) (hp.fine hw5)) fun b w6 g6 hw6 hb => ?_
  have g := g5.trans g6
  replace gm := g.good gm
  replace hr := g.given hr
  replace hs := g.given hs
  replace hx := g.goodC hx
  refine Ok.bindd (Ok.productOf hw6 hr gm.given _ _) fun p w7 g7 hw7 hp => ?_
  refine Ok.bindd (Ok.calcSub hw7 (g7.goodC hb) _ fun z hz => by cases hz; exact hp.fine hw7) fun b w8 g8 hw8 hb => ?_
  refine Ok.bindd (Ok.calcMul hw8 (hb.fine hw8) _ fun z hz => nomatch hz) fun b w9 g9 hw9 hb => ?_
  have g := g7.trans (g8.trans g9)
  refine Ok.bindd (Ok.calcAddObj hw9 ((g.goodC hx).fine hw9) (hb.fine hw9)) fun x w10 g10 hw10 hx => ?_
  have g := g.trans g10
  replace gm := g.good gm
  replace hr := g.given hr
  replace hs := g.given hs
  refine Okd.lifted hw10 fun f => Ok.bindd (Ok.init hw10 hs _) fun s w11 g11 hw11 hs => ?_
  replace gm := g11.good gm
  refine Ok.bindd (Ok.productOf hw11 gm.given gm.given _ _) fun b w12 g12 hw12 hb => ?_
  replace gm := g12.good gm
  refine Ok.bindd (Ok.productOf hw12 gm.given gm.given _ _) fun p w13 g13 hw13 hp => ?_
  refine Ok.bindd (Ok.calcSub hw13 (g13.goodC hb) _ fun z hz => by cases hz; exact hp.fine hw13) fun b w14 g14 hw14 hb => ?_
  refine Ok.bindd (Ok.matmulTensors hw14 (((g12.trans (g13.trans g14)).goodC hs).fine hw14) (hb.fine hw14))
    fun b w15 g15 hw15 hb => ?_
  refine Ok.bindd (Ok.calcMul hw15 (hb.fine hw15) _ fun z hz => nomatch hz) fun b w16 g16 hw16 hb => ?_
  have g := g13.trans (g14.trans (g15.trans g16))
  refine Ok.bindd (Ok.calcAddObj hw16 (((g11.trans (g12.trans g)).goodC hx).fine hw16) (hb.fine hw16))
    fun x w17 g17 hw17 hx => ?_
  have hr := (g11.trans (g12.trans (g.trans g17))).given hr
  exact Okd.formulaEnd hw17 ((g.trans g17).good gm) hx _ _ (by decide) _ _ (fun _ => r)
    fun w' _ k _ => (k.given hr).1

theorem Okd.calcWeyl (hw : Tidy w) {m : Id'} (hm : Given w m) :
    Okd (calcWeyl E m) w fun r w' => Given w' r ∧ m ∈ w'.instances := by
  unfold PyOGRe.calcWeyl
  exact Okd.start hw hm fun om gm hmr _ _ => Okd.unlessNamed hw _
    (fun t ht => ⟨hw.given ht, hmr⟩) (Okd.obj hw fun c _ _ =>
    Okd.bind (Okd.calcRiemann hw hm) fun a w0 k0 hw0 ha => Okd.bind (Okd.calcRicci hw0 (k0.given hm))
      fun r w1 k1 hw1 hr => Okd.bind (Okd.calcScalar hw1 (k1.given (k0.given hm))) fun s w2 k2 hw2 hs =>
        Okd.computeWeyl hw2 _ (k2.good m (k1.good m (k0.good m gm))) (k2.given (k1.given ha.1)) (k2.given hr.1) hs.1)

theorem Okd.calcNormSquared (hw : Tidy w) {t : Id'} (ht : Good w t) :
    Okd (calcNormSquared E t) w fun _ _ => True := by
  unfold PyOGRe.calcNormSquared
  refine Okd.obj hw fun o ho ha => ?_
  refine Okd.unlessNamed hw _ (fun _ _ => trivial) ?_
  refine Ok.bindd (Ok.productOf hw ht.given ht.given _ _) fun x w1 g1 hw1 hx => ?_
  refine Okd.bind (Okd.calcResult hw1 (hx.fine hw1) _ _ _) fun r w2 k2 hw2 hr => ?_
  refine Ok.bindd (Ok.getOwn hw2 (hr.fine hw2) _) fun comps w3 g3 hw3 _ => ?_
  have gt := (g3.good (k2.good t (g1.good ht))).fine hw3
  refine Okd.obj hw3 fun o ho ha => ?_
  exact Okd.mono (Okd.finish hw3 (by decide) (ne_temp (by decide)) _ (gt.metricIn ho ha) (fun _ => gt.coords ho ha) _ _
    (g3.good hr).lt) fun _ _ _ _ => trivial

/-! ### Curves -/

section
variable {t : Id'} {S : Id' → Prop}
omit [DecidableEq K] [Algebra ℚ K]

theorem Keys.lagrangianTransform {C : Curves K} {i c : Id'} (hc : S c) (ix : List Int) :
    Keys t S (lagrangianTransform E C i c ix) fun _ => True := by
  unfold PyOGRe.lagrangianTransform
  exact Keys.bind (Keys.getObj _) fun _ _ => Keys.bind (Keys.checkJacobians _ _) fun _ _ =>
    Keys.bind (Keys.readComps _ _ _) fun _ _ => Keys.bind (Keys.getObj _) fun _ _ =>
    Keys.bind (Keys.lookup _ _) fun _ _ => Keys.bind (Keys.lookup _ _) fun _ _ =>
    Keys.bind (Keys.lift _) fun _ _ => Keys.bind (Keys.getObj _) fun _ _ =>
    Keys.bind (Keys.ensureCoords hc) fun _ _ => Keys.writeComps hc _ _

theorem Keys.geodesicTransform {C : Curves K} {i c : Id'} (hc : S c) (ix : List Int) :
    Keys t S (geodesicTransform E C i c ix) fun _ => True := by
  unfold PyOGRe.geodesicTransform
  exact Keys.bind (Keys.getObj _) fun _ _ => Keys.bind (Keys.checkJacobians _ _) fun _ _ =>
    Keys.bind (Keys.readComps _ _ _) fun _ _ => Keys.bind (Keys.getObj _) fun _ _ =>
    Keys.bind (Keys.lookup _ _) fun _ _ => Keys.bind (Keys.lookup _ _) fun _ _ =>
    Keys.bind (Keys.lift _) fun _ _ => Keys.bind (Keys.getObj _) fun _ _ =>
    Keys.bind (Keys.ensureCoords hc) fun _ _ => Keys.writeComps hc _ _

theorem Keys.curveTransform {C : Curves K} {i c : Id'} (hc : S c) (ix : List Int) :
    Keys t S (curveTransform E C i c ix) fun _ => True := by
  unfold PyOGRe.curveTransform
  refine Keys.bind (Keys.getObj _) fun o _ => ?_
  split
  · exact Keys.lagrangianTransform hc _
  · exact Keys.geodesicTransform hc _

theorem Keys.curveComponents {C : Curves K} (c : Option Id') (hc : ∀ x, c = some x → S x) (ix : Option (List Int)) :
    Keys t S (PyOGRe.curveComponents E C t c ix) fun _ => True := by
  unfold PyOGRe.curveComponents curveRepresentation
  refine Keys.bind Keys.self fun o ho => ?_
  have hk : S (c.getD o.coords) := by
    cases c with
    | none => exact ho
    | some x => exact hc x rfl
  refine Keys.bind (P := fun _ => True) ?_ fun _ _ => Keys.bind (Keys.getObj _) fun _ _ => Keys.pure _
  exact Keys.bind (Keys.isCoordinates _) fun _ _ => Keys.ite Keys.raise (Keys.bind (Keys.getObj _) fun _ _ =>
    Keys.bind (Keys.lift _) fun _ _ => Keys.bind (Keys.tensorCheck hk _) fun _ _ =>
    Keys.bind (Keys.onlyIf (Keys.curveTransform hk _)) fun _ _ => Keys.readComps _ _ _)

end

theorem Ok.curveChangeCoords {C : Curves K} (hw : Tidy w) {t c : Id'} (hf : Fine w t) (hc : c ∈ w.instances) :
    Ok (curveChangeCoords E C t c) w fun _ _ => True := by
  unfold PyOGRe.curveChangeCoords
  refine Ok.read hw rfl fun b _ => Ok.ite (Ok.raise hw) (Ok.obj hw fun o ho hal => Ok.ite (Ok.pure hw trivial)
    (Ok.obj hw fun oc _ _ => Ok.ite (Ok.obj hw fun _ _ _ => Ok.raise hw) ?_))
  refine Ok.bind (Ok.keys hw (Keys.tensorCheck hc _) hf) fun b w1 g1 hw1 _ => ?_
  refine Ok.bind (P := fun _ _ => True) ?_ fun _ w2 g2 hw2 _ => ?_
  · unfold PyM.onlyIf
    exact Ok.ite (Ok.keys hw1 (Keys.curveTransform (g1.inst c hc) _) (g1.fine t hf)) (Ok.pure hw1 trivial)
  · refine Ok.refer hw2 t (fun _ => ⟨rfl, rfl, rfl⟩) fun o s hs => ?_
    rcases hs with hs | ⟨h1, h2 | h2 | h2⟩
    · exact Or.inl (Or.inl hs)
    · exact Or.inl (Or.inr ⟨h1, Or.inl h2⟩)
    · exact Or.inr (h2 ▸ g2.inst c (g1.inst c hc))
    · exact Or.inl (Or.inr ⟨h1, Or.inr (Or.inr h2)⟩)

/-- What the functions that compute curves return. -/
structure Curve (w : World K) (m c r : Id') : Prop where
  good : Good w r
  metric : m ∈ w.instances
  coords : c ∈ w.instances

theorem Okd.unlessCurve {C : Curves K} (hw : Tidy w) {sel : Kind → Bool} (hsel : sel .coordinates = false) {m c : Id'}
    (hm : m ∈ w.instances) (hc : c ∈ w.instances) (name : String) {p : PyM K Id'}
    (hp : Okd p w fun r w' => Curve w' m c r) : Okd (unlessCurve E C sel name c p) w fun r w' => Curve w' m c r := by
  unfold PyOGRe.unlessCurve
  refine Okd.read hw rfl fun w0 h0 => ?_
  cases h0
  split
  · rename_i t hr
    have hs := List.find?_some hr
    have gt : Good w t := hw.good (List.mem_of_find?_eq_some hr) fun o ho hk => by
      rw [ho] at hs
      simp [hk, hsel] at hs
    refine Okd.obj hw fun o ho ha => Ok.bindd (P := fun _ _ => True) ?_ fun _ w1 g1 hw1 _ =>
      (Ok.pure hw1 ⟨g1.good gt, g1.inst m hm, g1.inst c hc⟩).okd
    unfold PyM.onlyIf
    exact Ok.ite (Ok.curveChangeCoords hw (gt.fine hw) hc) (Ok.pure hw trivial)
  · exact hp

theorem Okd.deleteEach {r m c : Id'} (l : List Id') (hl : r ∉ l) : ∀ {w : World K} (_ : Tidy w) (_ : Stands w r m c),
    Okd (l.forM deleteObj) w fun _ w' => Stands w' r m c := by
  induction l with
  | nil => exact fun hw h => (Ok.pure hw h).okd
  | cons t l ih =>
    intro w hw hs
    have hd := Okd.delete hw t
    exact Okd.bind (P := fun _ w' => Stands w' r m c) ⟨hd.1, hd.2.1, fun _ _ => hs.delete fun h => hl (by simp [h])⟩
      fun _ w1 _ hw1 hs1 => ih (fun h => hl (by simp [h])) hw1 hs1

theorem Okd.storeCurve (hw : Tidy w) {kind : Kind} (hk : kind ≠ .coordinates) {name : String} (hn : name ≠ "TEMP")
    (comps : Arr K) {m c : Id'} (hm : m ∈ w.instances) (hc : InUse w c → c ∈ w.instances) (ix : List Int)
    (symbol : String) (l : List Id') (hl : ∀ t ∈ l, t < w.objs.length) :
    Okd (storeCurve kind name comps m c ix symbol l) w fun r w' => Curve w' m c r := by
  unfold PyOGRe.storeCurve
  refine Ok.bindd (Ok.newTensor_obj hw kind hk (.val name) _ hm hc _ _) ?_
  rintro r w1 g1 hw1 ⟨h1, h2, h3, -, o, h4, h5, h6, h7, h8⟩
  have hs : Stands w1 r m c := ⟨h2, o, h4, by rw [h6]; exact hk, by rw [h5]; exact hn, h7, h8⟩
  have hd := Okd.deletePass (sel := hasName "TEMP") (fun hw t => Okd.delete hw t) hw1
  refine Okd.bind (P := fun _ w' => Stands w' r m c) ⟨hd.1, hd.2.1, fun _ _ => hs.temps⟩ fun _ w2 k2 hw2 hs2 => ?_
  refine Okd.bind (Okd.deleteEach l (fun h => absurd (hl r h) (by rw [h3]; exact lt_irrefl _)) hw2 hs2)
    fun _ w3 k3 hw3 hs3 => ?_
  have h := hs3.good hw3
  exact (Ok.pure hw3 ⟨h.1, h.2.1, h.2.2⟩).okd

/-- A temporary tensor whose coordinates are registered or deleted. -/
theorem Ok.temporary (hw : Tidy w) (a : Arr K) {m c : Id'} (hm : m ∈ w.instances) (hc : InUse w c → c ∈ w.instances)
    (ix : List Int) (s : String) : Ok (newTemp a m c ix s) w fun t w' => Good w' t ∧ c ∈ w'.instances := by
  have h := Ok.newTensor_obj hw .tensor (by decide) (.val "TEMP") (.val a) hm hc (.tuple ix) (.val s)
  exact ⟨h.1, h.2.1, fun t ht => let k := h.2.2 t ht; ⟨k.1, h.1.inst c k.2.2.2.1⟩⟩

theorem Kept.inUse (k : Kept w w') (hw : Tidy w) {c : Id'} (hc : c ∈ w.instances) (h : InUse w' c) :
    c ∈ w'.instances := (k.reg c (sound_lt hw.sound hc) (Or.inl hc)).resolve_right fun hn => hn h

/-- The end of the functions that compute curves. -/
theorem Okd.curveEnd (hw : Tidy w) {m c : Id'} (hm : Good w m) (hc : c ∈ w.instances) {x : CalcObj} (hx : GoodC w x)
    (f : Arr K → Arr K) {kind : Kind} (hk : kind ≠ .coordinates) {suffix : String} (h5 : 5 ≤ suffix.length) (ix : List Int)
    (symbol : String) :
    Okd (do
      let t ← PyOGRe.calcResult E x "Result" "" []
      let comps ← PyOGRe.getComponents E t none none
      let om ← PyOGRe.getObj m
      PyOGRe.storeCurve kind (om.name ++ suffix) (f comps) m c ix symbol [t]) w fun r w' => Curve w' m c r := by
  refine Okd.bind (Okd.calcResult hw (hx.fine hw) _ _ _) fun t w1 k1 hw1 ht => ?_
  refine Ok.bindd (Ok.getOwn hw1 (ht.fine hw1) _) fun comps w2 g2 hw2 _ => Okd.obj hw2 fun om hom ham => ?_
  have gm := g2.good (k1.good m hm)
  refine Okd.storeCurve hw2 hk (ne_temp h5) _ (gm.or.resolve_right fun h => h ⟨om, hom, ham⟩)
    ((k1.trans g2.kept).inUse hw hc) _ _ _ fun s hs => ?_
  rw [List.mem_singleton.1 hs]
  exact (g2.good ht).lt

theorem Okd.computeLagrangian {C : Curves K} (hw : Tidy w) {m c : Id'} (hm : Good w m) (hmr : m ∈ w.instances)
    (hc : c ∈ w.instances) : Okd (computeLagrangian E C m c) w fun r w' => Curve w' m c r := by
  unfold PyOGRe.computeLagrangian
  refine Okd.obj hw fun oc _ _ => Ok.bindd (Ok.temp hw _ hmr hc _ _) fun v w1 g1 hw1 hv => ?_
  refine Ok.bindd (Ok.productOf hw1 hv.given hv.given _ _) fun x w2 g2 hw2 hx => ?_
  have g := g1.trans g2
  exact Okd.curveEnd hw2 (g.good hm) (g.inst c hc) hx (fun a => a) (by decide) (by decide) _ _

/-- The beginning of the functions that compute curves. -/
theorem Okd.curveStart (hw : Tidy w) {m : Id'} (hm : Given w m) {coords : Option Id'}
    (hc : ∀ c, coords = some c → c ∈ w.instances) {f : Id' → String → PyM K Id'}
    (hf : ∀ c name, Good w m → m ∈ w.instances → c ∈ w.instances →
      Okd (f c name) w fun r w' => Curve w' m c r) :
    Okd (do
      PyOGRe.requireMetric m
      requireCoords coords
      let om ← PyOGRe.getObj m
      f (coords.getD om.coords) om.name) w fun r w' => Good w' r ∧ m ∈ w'.instances ∧
        ∀ c, coords = some c → c ∈ w'.instances := by
  refine Okd.requireMetric hw fun hk => ?_
  have gm := hm.2 hk
  refine Okd.read hw ?_ fun _ _ => Okd.obj hw fun om hom ham => ?_
  · unfold requireCoords
    refine same_bind ?_ fun _ => ?_
    · cases coords <;> rfl
    · split_ifs <;> rfl
  · have hmr : m ∈ w.instances := gm.or.resolve_right fun h => h ⟨om, hom, ham⟩
    have hcr : coords.getD om.coords ∈ w.instances := by
      cases coords with
      | none => exact (gm.fine hw).coords hom ham
      | some c => exact hc c rfl
    refine Okd.mono (hf _ _ gm hmr hcr) fun r w' _ h => ⟨h.good, h.metric, fun c h' => ?_⟩
    rw [h'] at h
    exact h.coords

theorem Okd.calcLagrangian {C : Curves K} (hw : Tidy w) {m : Id'} (hm : Given w m) {coords : Option Id'}
    (hc : ∀ c, coords = some c → c ∈ w.instances) :
    Okd (calcLagrangian E C m coords) w fun r w' => Good w' r ∧ m ∈ w'.instances ∧
      ∀ c, coords = some c → c ∈ w'.instances :=
  Okd.curveStart hw hm hc (f := fun c name => PyOGRe.unlessCurve E C Kind.isLagrangian (name ++ " Lagrangian") c
    (PyOGRe.computeLagrangian E C m c)) fun _ _ gm hmr hcr => Okd.unlessCurve hw rfl hmr hcr _
      (Okd.computeLagrangian hw gm hmr hcr)

theorem Okd.computeGeodesicLagrangian {C : Curves K} (hw : Tidy w) {m c : Id'} (hm : Good w m)
    (hc : c ∈ w.instances) : Okd (computeGeodesicLagrangian E C m c) w fun r w' => Curve w' m c r := by
  unfold PyOGRe.computeGeodesicLagrangian
  refine Okd.bind (Okd.calcLagrangian hw hm.given fun c' h => by cases h; exact hc) fun l w1 k1 hw1 hl => ?_
  have hc1 := hl.2.2 c rfl
  refine Ok.bindd (Ok.keys hw1 (Keys.curveComponents _ (fun x hx => by cases hx; exact hc1) _) (hl.1.fine hw1))
    fun L w2 g2 hw2 _ => Okd.obj hw2 fun oc _ _ => Okd.obj hw2 fun om _ _ => ?_
  exact Okd.storeCurve hw2 (by decide) (ne_temp (by decide)) _ (g2.inst m hl.2.1) (fun _ => g2.inst c hc1) _ _ _
    fun t ht => by cases ht

theorem Okd.calcGeodesicLagrangian {C : Curves K} (hw : Tidy w) {m : Id'} (hm : Given w m) {coords : Option Id'}
    (hc : ∀ c, coords = some c → c ∈ w.instances) :
    Okd (calcGeodesicLagrangian E C m coords) w fun r w' => Good w' r ∧ m ∈ w'.instances ∧
      ∀ c, coords = some c → c ∈ w'.instances :=
  Okd.curveStart hw hm hc (f := fun c name => PyOGRe.unlessCurve E C (· == .geodesicLagrangian)
    (name ++ " Geodesic From Lagrangian") c (PyOGRe.computeGeodesicLagrangian E C m c)) fun _ _ gm hmr hcr =>
      Okd.unlessCurve hw rfl hmr hcr _ (Okd.computeGeodesicLagrangian hw gm hcr)

theorem Okd.computeGeodesicInactive {C : Curves K} (hw : Tidy w) {m c : Id'} (hm : Good w m)
    (hc : c ∈ w.instances) : Okd (computeGeodesicInactive E C m c) w fun r w' => Curve w' m c r := by
  unfold PyOGRe.computeGeodesicInactive
  refine Okd.bind (Okd.calcLagrangian hw hm.given fun c' h => by cases h; exact hc) fun l w1 k1 hw1 hl => ?_
  have hc1 := hl.2.2 c rfl
  refine Ok.bindd (Ok.keys hw1 (Keys.curveComponents _ (fun x hx => by cases hx; exact hc1) _) (hl.1.fine hw1))
    fun L w2 g2 hw2 _ => Okd.obj hw2 fun oc _ _ => Okd.obj hw2 fun om _ _ => ?_
  exact Okd.storeCurve hw2 (by decide) (ne_temp (by decide)) _ (g2.inst m hl.2.1) (fun _ => g2.inst c hc1) _ _ _
    fun t ht => by cases ht

theorem Okd.calcGeodesicInactive {C : Curves K} (hw : Tidy w) {m : Id'} (hm : Given w m) {coords : Option Id'}
    (hc : ∀ c, coords = some c → c ∈ w.instances) :
    Okd (calcGeodesicInactive E C m coords) w fun r w' => Good w' r ∧ m ∈ w'.instances ∧
      ∀ c, coords = some c → c ∈ w'.instances :=
  Okd.curveStart hw hm hc (f := fun c name => PyOGRe.unlessCurve E C (· == .geodesicLagrangian)
    (name ++ " Geodesic From Lagrangian") c (PyOGRe.computeGeodesicInactive E C m c)) fun _ _ gm hmr hcr =>
      Okd.unlessCurve hw rfl hmr hcr _ (Okd.computeGeodesicInactive hw gm hcr)

theorem Okd.computeGeodesicChristoffel {C : Curves K} (hw : Tidy w) {m c : Id'} (hm : Good w m)
    (hc : c ∈ w.instances) : Okd (computeGeodesicChristoffel E C m c) w fun r w' => Curve w' m c r := by
  unfold PyOGRe.computeGeodesicChristoffel
  refine Okd.obj hw fun oc _ _ => Okd.bind (Okd.calcChristoffel hw hm) fun g w1 k1 hw1 hg => ?_
  refine Ok.bindd (Ok.temporary hw1 _ hg.2 (k1.inUse hw hc) _ _) fun v w2 g2 hw2 hv => ?_
  refine Ok.bindd (Ok.temp hw2 _ (g2.inst m hg.2) hv.2 _ _) fun a w3 g3 hw3 ha => ?_
  refine Ok.bindd (Ok.init hw3 ha.given _) fun x w4 g4 hw4 hx => ?_
  have hv4 := (g3.trans g4).good hv.1
  refine Ok.bindd (Ok.productOf hw4 ((g2.trans (g3.trans g4)).given hg.1) hv4.given _ _) fun y w5 g5 hw5 hy => ?_
  refine Ok.bindd (Ok.init hw5 (g5.given hv4.given) _) fun z w6 g6 hw6 hz => ?_
  refine Ok.bindd (Ok.matmulTensors hw6 ((g6.goodC hy).fine hw6) (hz.fine hw6)) fun y w7 g7 hw7 hy => ?_
  have g := g5.trans (g6.trans g7)
  refine Ok.bindd (Ok.calcAddObj hw7 ((g.goodC hx).fine hw7) (hy.fine hw7)) fun x w8 g8 hw8 hx => ?_
  have g := g3.trans (g4.trans (g.trans g8))
  exact Okd.curveEnd hw8 (g.good (g2.good (k1.good m hm))) (g.inst c hv.2) hx
    (fun a => (a.map C.clear).map E.simp) (by decide) (by decide) _ _

theorem Okd.calcGeodesicChristoffel {C : Curves K} (hw : Tidy w) {m : Id'} (hm : Given w m) {coords : Option Id'}
    (hc : ∀ c, coords = some c → c ∈ w.instances) :
    Okd (calcGeodesicChristoffel E C m coords) w fun r w' => Good w' r ∧ m ∈ w'.instances ∧
      ∀ c, coords = some c → c ∈ w'.instances :=
  Okd.curveStart hw hm hc (f := fun c name => PyOGRe.unlessCurve E C (· == .geodesicChristoffel)
    (name ++ " Geodesic From Christoffel") c (PyOGRe.computeGeodesicChristoffel E C m c)) fun _ _ gm hmr hcr =>
      Okd.unlessCurve hw rfl hmr hcr _ (Okd.computeGeodesicChristoffel hw gm hcr)

theorem Okd.requireTensor (hw : Tidy w) {t : Id'} {f : Unit → PyM K β} {Q : β → World K → Prop}
    (hf : Tensorial w t → Okd (f ()) w Q) : Okd (PyOGRe.requireTensor t >>= f) w Q := by
  refine Okd.read hw ?_ fun a ha => ?_
  · unfold PyOGRe.requireTensor
    split_ifs <;> rfl
  · refine hf fun o ho hk => ?_
    unfold PyOGRe.requireTensor at ha
    rw [ho] at ha
    simp [hk] at ha

theorem Okd.computeGeodesicTime {C : Curves K} (hw : Tidy w) {m c : Id'} (hm : Good w m)
    (hc : c ∈ w.instances) : Okd (computeGeodesicTime E C m c) w fun r w' => Curve w' m c r := by
  unfold PyOGRe.computeGeodesicTime
  refine Okd.obj hw fun oc _ _ => Okd.bind (Okd.calcChristoffel hw hm) fun g w1 k1 hw1 hg => ?_
  refine Ok.bindd (Ok.temporary hw1 _ hg.2 (k1.inUse hw hc) _ _) fun v w2 g2 hw2 hv => ?_
  refine Ok.bindd (Ok.temp hw2 _ (g2.inst m hg.2) hv.2 _ _) fun a w3 g3 hw3 ha => ?_
  refine Okd.requireTensor hw3 fun hk => ?_
  have hg3 := ((g2.trans g3).given hg.1).2 hk
  have hm3 := (g2.trans g3).inst m hg.2
  have hc3 := g3.inst c hv.2
  refine Ok.bindd (Ok.getIn hw3 (hg3.fine hw3) hc3 _) fun comps w4 g4 hw4 _ => ?_
  refine Ok.bindd (Ok.temp hw4 _ (g4.inst m hm3) (g4.inst c hc3) _ _) fun g0 w5 g5 hw5 hg0 => ?_
  have g := g4.trans g5
  refine Ok.bindd (Ok.init hw5 (g.good ha).given _) fun x w6 g6 hw6 hx => ?_
  refine Ok.bindd (Ok.init hw6 ((g.trans g6).good hg3).given _) fun y w7 g7 hw7 hy => ?_
  have hv7 := (g3.trans (g.trans (g6.trans g7))).good hv.1
  refine Ok.bindd (Ok.productOf hw7 ((g6.trans g7).good hg0).given hv7.given _ _) fun z w8 g8 hw8 hz => ?_
  refine Ok.bindd (Ok.calcSub hw8 (g8.goodC hy) _ fun z' hz' => by cases hz'; exact hz.fine hw8) fun y w9 g9 hw9 hy => ?_
  have h79 := g8.trans g9
  refine Ok.bindd (Ok.init hw9 (h79.good hv7).given _) fun z w10 g10 hw10 hz => ?_
  refine Ok.bindd (Ok.matmulTensors hw10 ((g10.goodC hy).fine hw10) (hz.fine hw10)) fun y w11 g11 hw11 hy => ?_
  have h711 := h79.trans (g10.trans g11)
  refine Ok.bindd (Ok.init hw11 (h711.good hv7).given _) fun z w12 g12 hw12 hz => ?_
  refine Ok.bindd (Ok.matmulTensors hw12 ((g12.goodC hy).fine hw12) (hz.fine hw12)) fun y w13 g13 hw13 hy => ?_
  have h613 := g7.trans (h711.trans (g12.trans g13))
  refine Ok.bindd (Ok.calcAddObj hw13 ((h613.goodC hx).fine hw13) (hy.fine hw13)) fun x w14 g14 hw14 hx => ?_
  have h := g.trans (g6.trans (h613.trans g14))
  exact Okd.curveEnd hw14 (h.good ((g2.trans g3).good (k1.good m hm))) (h.inst c hc3) hx
    (fun a => (a.map C.clear).map E.simp) (by decide) (by decide) _ _

theorem Okd.calcGeodesicTime {C : Curves K} (hw : Tidy w) {m : Id'} (hm : Given w m) {coords : Option Id'}
    (hc : ∀ c, coords = some c → c ∈ w.instances) :
    Okd (calcGeodesicTime E C m coords) w fun r w' => Good w' r ∧ m ∈ w'.instances ∧
      ∀ c, coords = some c → c ∈ w'.instances :=
  Okd.curveStart hw hm hc (f := fun c name => PyOGRe.unlessCurve E C (· == .geodesicTime)
    (name ++ " Geodesic With Time Parameter") c (PyOGRe.computeGeodesicTime E C m c)) fun _ _ gm hmr hcr =>
      Okd.unlessCurve hw rfl hmr hcr _ (Okd.computeGeodesicTime hw gm hcr)

/-! ### Other calls -/

theorem Ok.transformation (hw : Tidy w) (c : Id') {c' : Id'} (hc' : c' ∈ w.instances)
    (rules : Option (List (Option (Sym × K)))) : Ok (addCoordTransformation c c' rules) w fun _ _ => True := by
  unfold addCoordTransformation
  refine Ok.read hw rfl fun b _ => Ok.ite (Ok.raise hw) (Ok.ite (Ok.raise hw) (Ok.obj hw fun o ho hal => ?_))
  cases rules with
  | none =>
    refine Ok.look hw fun _ => Ok.refer hw c (fun _ => ⟨rfl, rfl, rfl⟩) fun o s hs => Or.inl ?_
    rcases hs with ⟨h1, r, hr⟩ | hs
    · exact Or.inl ⟨h1, r, (List.mem_filter.1 hr).1⟩
    · exact Or.inr hs
  | some rules =>
    refine Ok.refer hw c (fun _ => ⟨rfl, rfl, rfl⟩) fun o s hs => ?_
    rcases hs with ⟨h1, r, hr⟩ | hs
    · rcases mem_set hr with h2 | h2
      · exact Or.inl (Or.inl ⟨h1, h2⟩)
      · exact Or.inr (h2 ▸ hc')
    · exact Or.inl (Or.inr hs)

theorem Ok.newMetric (hw : Tidy w) (name : Arg String) (comps : Arg (Arr K)) {c : Id'} (hc : c ∈ w.instances)
    (ix : IndicesArg) (symbol : Arg String) : Ok (newMetric E name comps c ix symbol) w fun _ _ => True := by
  unfold PyOGRe.newMetric
  refine Ok.lifted hw fun _ => Ok.bind (P := fun i w' => Good w' i) ?_ fun i w1 g1 hw1 hi => ?_
  · unfold newBaseTensor
    refine Ok.read hw rfl fun b _ => Ok.ite (Ok.raise hw) (Ok.obj hw fun oc _ _ => Ok.lifted hw fun _ => ?_)
    refine Ok.mono (Ok.register hw (fun _ => rfl) ?_ fun _ => Or.inl rfl) ?_
    · rintro s (⟨h, -⟩ | ⟨-, h | h | ⟨d, h⟩⟩)
      · cases h
      · exact Or.inr h.symm
      · exact Or.inl (h ▸ hc)
      · simp only [List.mem_singleton, Prod.mk.injEq] at h
        exact Or.inl (h.1 ▸ hc)
    · rintro t ⟨h1, h2, h3⟩
      refine ⟨lt_of_getElem? h3, fun o ho => ?_, Or.inl h2⟩
      rw [h3] at ho
      cases ho
      exact fun h => nomatch h
  · refine Ok.keys hw1 (t := i) (Q := fun _ => True) ?_ (hi.fine hw1)
    have hc1 := g1.inst c hc
    refine Keys.bind (Keys.getObj _) fun o _ => Keys.bind (Keys.readComps _ _ _) fun d _ =>
      Keys.bind (Keys.writeComps hc1 _ _) fun _ _ => Keys.bind (Keys.readComps _ _ _) fun _ _ =>
      Keys.bind (Keys.writeComps hc1 _ _) fun _ _ => ?_
    cases ix with
    | none => exact Keys.raise
    | other => exact Keys.raise
    | tuple l => exact Keys.bind (Keys.readComps _ _ _) fun _ _ => Keys.bind (Keys.lift _) fun _ _ =>
        Keys.bind (Keys.writeComps hc1 _ _) fun _ _ => Keys.pure _

section
variable {t : Id'} {S : Id' → Prop}
omit [DecidableEq K] [Algebra ℚ K]

theorem Keys.forM {f : α → PyM K Unit} (l : List α) (h : ∀ a ∈ l, Keys t S (f a) fun _ => True) :
    Keys t S (l.forM f) fun _ => True := by
  induction l with
  | nil => exact Keys.pure _
  | cons a l ih => exact Keys.bind (h a (by simp)) fun _ _ => ih fun b hb => h b (by simp [hb])

theorem Keys.simplifyAt {i : Id'} (rank : Nat) {key : Id' × List Int} (hk : S key.1) :
    Keys t S (simplifyAt E i rank key) fun _ => True := by
  unfold PyOGRe.simplifyAt
  exact Keys.bind (Keys.readComps _ _ _) fun _ _ => Keys.bind (Keys.lift _) fun _ _ => Keys.writeComps hk _ _

theorem Keys.lowerComponents (c : Option Id') (hc : ∀ x, c = some x → S x) :
    Keys t S (lowerComponents E t c) fun _ => True := by
  unfold PyOGRe.lowerComponents
  refine Keys.bind (P := fun _ => True) ?_ fun _ _ => Keys.ite Keys.raise (Keys.bind Keys.self fun o ho => ?_)
  · cases c with
    | none => exact Keys.pure _
    | some x => exact Keys.isCoordinates _
  · have hk : S (c.getD o.coords) := by
      cases c with
      | none => exact ho
      | some x => exact hc x rfl
    exact Keys.bind (Keys.metricCheck _ _) fun _ _ => Keys.bind (Keys.onlyIf (Keys.metricTransform hk _)) fun _ _ =>
      Keys.bind (Keys.readComps _ _ _) fun _ _ => Keys.pure _

end

theorem mem_keys_of_representations {o : Obj K} {key : Id' × List Int} (h : key ∈ o.representations) :
    ∃ d, (key.1, d) ∈ o.comps := by
  unfold Obj.representations at h
  obtain ⟨p, hp, hk⟩ := List.mem_flatMap.1 h
  obtain ⟨q, -, rfl⟩ := List.mem_map.1 hk
  exact ⟨p.2, hp⟩

theorem Ok.simplifyTensor (hw : Tidy w) {t : Id'} (ht : Fine w t) : Ok (simplifyTensor E t) w fun _ _ => True := by
  unfold PyOGRe.simplifyTensor
  refine Ok.obj hw fun o ho ha => Ok.obj hw fun _ _ _ => ?_
  refine Ok.bind (Ok.keys hw (Keys.forM _ fun key hk => Keys.simplifyAt _ ?_) ht) fun _ _ _ hw1 _ => Ok.pure hw1 trivial
  obtain ⟨d, hd⟩ := mem_keys_of_representations hk
  exact (ht.refs o ho ha).1 _ (Or.inr ⟨ht.tensor o ho, Or.inr (Or.inr ⟨d, hd⟩)⟩)

/-! ### Imports -/

/-- Objects in a reference are registered. -/
def RefOk (w : World K) (r : Ref) : Prop := ∀ i, r = .obj i → i ∈ w.instances

/-- Objects in the keyword arguments are registered. -/
structure ImportOk (w : World K) (x : Import K) : Prop where
  coords : ∀ r, x.coords = some r → RefOk w r
  metric : ∀ r, x.metric = some r → RefOk w r
  trans : ∀ p ∈ x.trans, RefOk w p.1

theorem Grows.ref (h : Grows w w') {r : Ref} (hr : RefOk w r) : RefOk w' r := fun i hi => h.inst i (hr i hi)
theorem Grows.import (h : Grows w w') {x : Import K} (hx : ImportOk w x) : ImportOk w' x :=
  ⟨fun r hr => h.ref (hx.coords r hr), fun r hr => h.ref (hx.metric r hr), fun p hp => h.ref (hx.trans p hp)⟩

theorem mem_named {name : Option String} {i : Id'} (h : i ∈ namedInstances w name) : i ∈ w.instances := by
  unfold namedInstances at h
  cases name with
  | none => cases h
  | some s => exact (List.mem_filter.1 h).1

theorem transOf_ok (d : List (Val K × Val K)) : ∀ p ∈ transOf w d, RefOk w p.1 := by
  induction d with
  | nil => intro p hp; cases hp
  | cons q d ih =>
    obtain ⟨k, rules⟩ := q
    intro p hp i hi
    unfold transOf at hp
    rcases List.mem_append.1 hp with hp | hp
    · cases hn : namedInstances w k.string? with
      | nil =>
        rw [hn] at hp
        simp only [List.mem_singleton] at hp
        rw [hp] at hi
        cases hi
      | cons a l =>
        rw [hn] at hp
        simp only [List.mem_map] at hp
        obtain ⟨j, hj, rfl⟩ := hp
        injection hi with hi
        subst hi
        exact mem_named (by rw [hn]; exact hj)
    · exact ih p hp i hi

theorem py_ok_of_bind {x : Py α} {f : α → Py β} {b : β} (h : x >>= f = .ok b) : ∃ a, x = .ok a ∧ f a = .ok b := by
  cases x with
  | error e => cases h
  | ok a => exact ⟨a, rfl, h⟩

theorem importOne_ok {I : Importer K} {name tensor : Val K} {x : Import K} (h : importOne I w name tensor = .ok x) :
    ImportOk w x := by
  unfold importOne at h
  obtain ⟨role, -, h⟩ := py_ok_of_bind h
  obtain ⟨kind, -, h⟩ := py_ok_of_bind h
  obtain ⟨coords, -, h⟩ := py_ok_of_bind h
  obtain ⟨indices, -, h⟩ := py_ok_of_bind h
  obtain ⟨configs, -, h⟩ := py_ok_of_bind h
  obtain ⟨kv, -, h⟩ := py_ok_of_bind h
  obtain ⟨found, -, h⟩ := py_ok_of_bind h
  obtain ⟨comps, -, h⟩ := py_ok_of_bind h
  obtain ⟨ix, -, h⟩ := py_ok_of_bind h
  obtain ⟨symbol, -, h⟩ := py_ok_of_bind h
  obtain ⟨metric, hm, h⟩ := py_ok_of_bind h
  obtain ⟨trans, ht, h⟩ := py_ok_of_bind h
  injection h with h
  subst h
  refine ⟨fun r hr i hi => ?_, fun r hr i hi => ?_, fun p hp => ?_⟩
  · dsimp only at hr
    split_ifs at hr
    injection hr with hr
    rw [hi] at hr
    cases hr
  · dsimp only at hr
    subst hr
    split_ifs at hm
    · cases hm
    obtain ⟨m, -, hm⟩ := py_ok_of_bind hm
    injection hm with hm
    split at hm
    · rename_i j hj
      injection hm with hm
      rw [hi] at hm
      injection hm with hm
      subst hm
      exact mem_named (List.mem_of_getLast? hj)
    · rw [hi] at hm
      cases hm
  · dsimp only at hp
    split_ifs at ht
    · obtain ⟨t, -, ht⟩ := py_ok_of_bind ht
      split at ht
      · injection ht with ht
        subst ht
        exact transOf_ok _ p hp
      · cases ht
    · injection ht with ht
      subst ht
      cases hp

theorem importEach_ok {I : Importer K} (d : List (Val K × Val K)) : ∀ {l : List (Import K)},
    importEach I w d = .ok l → ∀ x ∈ l, ImportOk w x := by
  induction d with
  | nil => intro l h x hx; cases h; cases hx
  | cons q d ih =>
    obtain ⟨name, tensor⟩ := q
    intro l h x hx
    unfold importEach at h
    split_ifs at h
    · exact ih h x hx
    · obtain ⟨y, hy, h⟩ := py_ok_of_bind h
      obtain ⟨l', hl', h⟩ := py_ok_of_bind h
      injection h with h
      subst h
      rcases List.mem_cons.1 hx with rfl | hx
      · exact importOne_ok hy
      · exact ih hl' x hx

theorem stringToTensors_ok {I : Importer K} {v : Val K} {l : List (Import K)} (h : stringToTensors I w v = .ok l) :
    ∀ x ∈ l, ImportOk w x := by
  cases v <;> first | exact importEach_ok _ h | cases h

theorem Ok.forEach {f : α → PyM K Unit} (l : List α) : ∀ {w : World K} (_ : Tidy w)
    (_ : ∀ a ∈ l, ∀ w', Grows w w' → Tidy w' → Ok (f a) w' fun _ _ => True), Ok (forEach f l) w fun _ _ => True := by
  induction l with
  | nil => exact fun hw _ => Ok.pure hw trivial
  | cons a l ih =>
    intro w hw h
    exact Ok.bind (h a (by simp) w (Grows.refl w) hw) fun _ w1 g1 hw1 _ =>
      ih hw1 fun b hb w2 g2 hw2 => h b (by simp [hb]) w2 (g1.trans g2) hw2

theorem Ok.mapEach {f : α → PyM K β} {P : β → World K → Prop} (hP : ∀ b (w w' : World K), Grows w w' → P b w → P b w')
    (l : List α) : ∀ {w : World K} (_ : Tidy w) (_ : ∀ a ∈ l, ∀ w', Grows w w' → Tidy w' → Ok (f a) w' P),
      Ok (mapEach f l) w fun bs w' => ∀ b ∈ bs, P b w' := by
  induction l with
  | nil => exact fun hw _ => Ok.pure hw fun b hb => by cases hb
  | cons a l ih =>
    intro w hw h
    refine Ok.bind (h a (by simp) w (Grows.refl w) hw) fun b w1 g1 hw1 hb =>
      Ok.bind (ih hw1 fun b hb w2 g2 hw2 => h b (by simp [hb]) w2 (g1.trans g2) hw2) fun bs w2 g2 hw2 hbs =>
        Ok.pure hw2 fun b' hb' => ?_
    rcases List.mem_cons.1 hb' with rfl | hb'
    · exact hP _ _ _ g2 hb
    · exact hbs b' hb'

theorem Ok.firstNamed (hw : Tidy w) (name : Option String) :
    Ok (firstNamed name) w fun c w' => ∀ i, c = some i → i ∈ w'.instances :=
  ⟨Grows.refl w, hw, fun a ha i hi => by
    injection ha with ha
    rw [← ha] at hi
    exact mem_named (List.mem_of_head? hi)⟩

theorem Ok.resolve (hw : Tidy w) {r : Option Ref} (hr : ∀ x, r = some x → RefOk w x) :
    Ok (resolve r) w fun r' w' => ∀ x, r' = some x → RefOk w' x := by
  cases r with
  | none => exact Ok.pure hw fun x hx => by cases hx
  | some r =>
    cases r with
    | obj i => exact Ok.pure hw hr
    | name s =>
      refine Ok.bind (Ok.firstNamed hw s) fun c w1 g1 hw1 hc => ?_
      cases c with
      | none => exact Ok.pure hw1 fun x hx i hi => by subst hi; cases hx
      | some j => exact Ok.pure hw1 fun x hx i hi => by subst hi; cases hx; exact hc _ rfl

theorem mapM_mem (f : α → Py β) (l : List α) : ∀ {rs : List β}, l.mapM f = .ok rs → ∀ r ∈ rs, ∃ a ∈ l, f a = .ok r := by
  induction l with
  | nil => intro rs h r hr; rw [List.mapM_nil] at h; cases h; cases hr
  | cons a l ih =>
    intro rs h r hr
    rw [List.mapM_cons] at h
    obtain ⟨b, hb, h⟩ := py_ok_of_bind h
    obtain ⟨bs, hbs, h⟩ := py_ok_of_bind h
    injection h with h
    subst h
    rcases List.mem_cons.1 hr with rfl | hr
    · exact ⟨a, by simp, hb⟩
    · obtain ⟨a', h1, h2⟩ := ih hbs r hr
      exact ⟨a', by simp [h1], h2⟩

theorem Ok.importCoordinates {I : Importer K} (hw : Tidy w) (x : Import K) {trans : List (Ref × Val K)}
    (ht : ∀ p ∈ trans, RefOk w p.1) : Ok (importCoordinates I x trans) w fun _ _ => True := by
  unfold PyOGRe.importCoordinates
  refine Ok.lifted hw fun syms => Ok.read hw rfl fun rules hr => Ok.lifted hw fun _ => ?_
  refine Ok.mono (Ok.register hw (fun _ => rfl) ?_ fun h => absurd rfl h) fun _ _ => trivial
  rintro s (⟨-, r, hs⟩ | ⟨h, -⟩)
  · left
    have key : ∀ (l : List (Ref × List (Option (Sym × K)))) (d : Dict Id' (List (Option (Sym × K)))),
        (∀ p ∈ l, RefOk w p.1) → (∀ i r, (i, r) ∈ d → i ∈ w.instances) →
        ∀ i r, (i, r) ∈ l.foldl (fun d p => match p.1 with | .obj i => d.set i p.2 | _ => d) d → i ∈ w.instances := by
      intro l
      induction l with
      | nil => exact fun d _ hd => hd
      | cons p l ih =>
        intro d hl hd
        refine ih _ (fun q hq => hl q (by simp [hq])) fun i r hi => ?_
        obtain ⟨p1, p2⟩ := p
        cases p1 with
        | name s => exact hd i r hi
        | obj j =>
          rcases mem_set hi with ⟨r', h⟩ | h
          · exact hd i r' h
          · exact h ▸ hl (.obj j, p2) (by simp) j rfl
    refine key rules [] ?_ (fun i r h => by cases h) s r hs
    intro q hq
    obtain ⟨p, hp, hpq⟩ := mapM_mem _ _ hr q hq
    obtain ⟨r', -, h⟩ := py_ok_of_bind hpq
    injection h with h
    subst h
    exact ht p hp
  · exact absurd rfl h

theorem Ok.importTensor (hw : Tidy w) {x : Import K} (hx : ImportOk w x) :
    Ok (importTensor E x) w fun _ _ => True := by
  unfold PyOGRe.importTensor
  refine Ok.ite (Ok.raise hw) ?_
  split
  · rename_i c _ hc
    exact Ok.newMetric hw _ _ (hx.coords _ hc c rfl) _ _
  · exact Ok.raise hw
  · rename_i k c m hc hm _ hne
    exact Ok.mono (Ok.newTensor hw _ hne _ _ (hx.metric _ hm m rfl) (hx.coords _ hc c rfl) _ _) fun _ _ => trivial
  · exact Ok.raise hw

theorem Ok.importFromVal {I : Importer K} (hw : Tidy w) (v : Val K) : Ok (importFromVal E I v) w fun _ _ => True := by
  unfold PyOGRe.importFromVal
  refine Ok.read hw rfl fun w0 h0 => ?_
  cases h0
  refine Ok.read hw rfl fun l hl => ?_
  have hok := stringToTensors_ok hl
  cases l with
  | nil => exact Ok.raise hw
  | cons x l =>
    have hx := hok x (by simp)
    dsimp only
    cases hc : x.coords with
    | none => exact Ok.importCoordinates hw x hx.trans
    | some r =>
      refine Ok.bind (P := fun c w' => ∀ i, c = some i → i ∈ w'.instances) ?_ fun c w1 g1 hw1 h1 => ?_
      · cases r with
        | obj i => exact Ok.pure hw fun j hj => by cases hj; exact hx.coords _ hc _ rfl
        | name s => exact Ok.firstNamed hw s
      · cases c with
        | none => exact Ok.raise hw1
        | some c =>
          have hx1 := g1.import hx
          exact Ok.importTensor hw1 ⟨fun r hr i hi => by subst hi; cases hr; exact h1 _ rfl, hx1.metric, hx1.trans⟩

theorem Ok.importTrans {I : Importer K} (hw : Tidy w) (x : Import K) : Ok (importTrans I x) w fun _ _ => True := by
  unfold PyOGRe.importTrans
  refine Ok.read hw rfl fun w0 h0 => ?_
  cases x.name with
  | other => exact Ok.pure hw trivial
  | val name =>
    refine Ok.forEach _ hw fun i _ w1 g1 hw1 => Ok.forEach _ hw1 fun p _ w2 g2 hw2 => ?_
    refine Ok.bind (P := fun c w' => ∀ i, c = some i → i ∈ w'.instances) ?_ fun c w3 g3 hw3 h3 => ?_
    · cases p.1 with
      | obj i => exact Ok.pure hw2 fun j hj => by cases hj
      | name s => exact Ok.firstNamed hw2 s
    · cases c with
      | none => exact Ok.raise hw3
      | some c => exact Ok.lifted hw3 fun rules => Ok.transformation hw3 i (h3 c rfl) _

theorem Ok.importAllFromVal {I : Importer K} (hw : Tidy w) (v : Val K) :
    Ok (importAllFromVal E I v) w fun _ _ => True := by
  unfold PyOGRe.importAllFromVal
  refine Ok.read hw rfl fun w0 h0 => ?_
  cases h0
  refine Ok.read hw rfl fun l hl => ?_
  have hok := stringToTensors_ok hl
  refine Ok.bind (Ok.forEach _ hw fun x hx w' g hw' => Ok.bind (Ok.importCoordinates hw' x fun p hp => by cases hp)
    fun _ _ _ h _ => Ok.pure h trivial) fun _ w1 g1 hw1 _ => ?_
  refine Ok.bind (Ok.mapEach (P := fun x w' => ImportOk w' x) (fun b w w' g h => g.import h) l hw1 fun x hx w' g hw' => ?_)
    fun l2 w2 g2 hw2 h2 => ?_
  · have hx' := (g1.trans g).import (hok x hx)
    exact Ok.bind (Ok.resolve hw' hx'.coords) fun c w3 g3 hw3 hc => Ok.pure hw3
      ⟨hc, (g3.import hx').metric, (g3.import hx').trans⟩
  refine Ok.bind (Ok.forEach _ hw2 fun x hx w' g hw' => Ok.importTrans hw' x) fun _ w3 g3 hw3 _ => ?_
  refine Ok.bind (Ok.forEach _ hw3 fun x hx w' g hw' => ?_) fun _ w4 g4 hw4 _ => ?_
  · split
    · exact Ok.raise hw'
    · exact Ok.pure hw' trivial
  refine Ok.bind (Ok.forEach _ hw4 fun x hx w' g hw' => Ok.bind (Ok.importTensor hw'
    ((g3.trans (g4.trans g)).import (h2 x (List.mem_filter.1 hx).1))) fun _ _ _ h _ => Ok.pure h trivial) fun _ w5 g5 hw5 _ => ?_
  refine Ok.bind (Ok.mapEach (P := fun x w' => ImportOk w' x) (fun b w w' g h => g.import h) l2 hw5 fun x hx w' g hw' => ?_)
    fun l3 w6 g6 hw6 h6 => ?_
  · have hx' := (g3.trans (g4.trans (g5.trans g))).import (h2 x hx)
    refine Ok.bind (Ok.resolve hw' hx'.metric) fun c w3 g3 hw3 hc => ?_
    split
    · exact Ok.raise hw3
    · exact Ok.pure hw3 ⟨(g3.import hx').coords, hc, (g3.import hx').trans⟩
  exact Ok.forEach _ hw6 fun x hx w' g hw' => Ok.bind (Ok.importTensor hw'
    (g.import (h6 x (List.mem_filter.1 hx).1))) fun _ _ _ h _ => Ok.pure h trivial

omit [CommRing K] [DecidableEq K] [Algebra ℚ K] in
theorem tidy_bind {m : PyM K α} {f : α → PyM K β} (hm : Tidy (m w).2) (hf : ∀ a w', Tidy w' → Tidy (f a w').2) :
    Tidy ((m >>= f) w).2 := by
  rw [PyM.bind_apply]
  rcases h : m w with ⟨r, w'⟩
  rw [h] at hm
  cases r with
  | ok a => exact hf a w' hm
  | error e => exact hm

theorem tidy_clear (hw : Tidy w) : Tidy (clearInstances w).2 := by
  refine tidy_bind (Okd.times (Okd.deletePass fun hw t => Okd.tryDelete hw t) 4 hw).2.1 fun _ w1 hw1 => ?_
  refine tidy_bind (Okd.times (Okd.deletePass fun hw t => Okd.tryDelete hw t) 4 hw1).2.1 fun _ w2 hw2 => ?_
  exact ⟨⟨List.nodup_nil, fun i hi => absurd hi List.not_mem_nil⟩, fun i hi => absurd hi List.not_mem_nil,
    fun i hi => absurd hi List.not_mem_nil⟩

/-- Every call with registered objects leaves the session in order. -/
theorem tidy_call (letters : List Sym) (c : Call K) (hw : Tidy w) (ha : ∀ t ∈ c.arguments, t ∈ w.instances) :
    Tidy (c.run E letters w) := by
  cases c with
  | coordinates name shape syms ix symbol =>
    refine (Ok.lifted (Q := fun _ _ => True) hw fun _ => Ok.mono (Ok.register hw (fun _ => rfl) ?_ ?_) fun _ _ => trivial).2.1
    · rintro s (⟨-, r, hr⟩ | ⟨h, -⟩)
      · simp at hr
      · exact absurd rfl h
    · exact fun h => absurd rfl h
  | transformation c c' rules => exact (Ok.transformation hw c (ha c' (by simp [Call.arguments])) rules).2.1
  | metric name comps c ix symbol => exact (Ok.newMetric hw name comps (ha c (by simp [Call.arguments])) ix symbol).2.1
  | tensor name comps m c ix symbol =>
    exact (Ok.newTensor hw _ (by decide) name comps (ha m (by simp [Call.arguments])) (ha c (by simp [Call.arguments])) ix
      symbol).2.1
  | get t c ix =>
    have ht : t ∈ w.instances := ha t (by simp [Call.arguments])
    refine Ok.okd (Q := fun _ _ => True) ?_ |>.2.1
    refine Ok.requireTensor hw fun hk => Ok.get hw ((hw.good ht hk).fine hw) c (fun x hx => ?_) ix
    exact ha x (by simp [Call.arguments, hx])
  | setIndices t ix =>
    have ht : t ∈ w.instances := ha t (by simp [Call.arguments])
    refine Ok.okd (Q := fun _ _ => True) ?_ |>.2.1
    exact Ok.requireTensor hw fun hk => Ok.changeDefaultIndices hw ((hw.good ht hk).fine hw) ix
  | setCoords t c =>
    have ht : t ∈ w.instances := ha t (by simp [Call.arguments])
    have hc : c ∈ w.instances := ha c (by simp [Call.arguments])
    refine Ok.okd (Q := fun _ _ => True) ?_ |>.2.1
    refine Ok.requireTensor hw fun hk => ?_
    have hf := (hw.good ht hk).fine hw
    unfold changeDefaultCoords
    refine Ok.read hw rfl fun b _ => Ok.ite (Ok.raise hw) (Ok.obj hw fun o ho hal => Ok.ite (Ok.pure hw trivial)
      (Ok.obj hw fun oc _ _ => Ok.ite (Ok.obj hw fun _ _ _ => Ok.raise hw) ?_))
    refine Ok.bind (Ok.keys hw (Keys.checkRepresentation hc _) hf) fun b w1 g1 hw1 _ => ?_
    refine Ok.bind (P := fun _ _ => True) ?_ fun _ w2 g2 hw2 _ => ?_
    · unfold PyM.onlyIf
      exact Ok.ite (Ok.keys hw1 (Keys.transformCoordinates (g1.inst c hc) _) (g1.fine t hf)) (Ok.pure hw1 trivial)
    · refine Ok.refer hw2 t (fun _ => ⟨rfl, rfl, rfl⟩) fun o s hs => ?_
      rcases hs with hs | ⟨h1, h2 | h2 | h2⟩
      · exact Or.inl (Or.inl hs)
      · exact Or.inl (Or.inr ⟨h1, Or.inl h2⟩)
      · exact Or.inr (h2 ▸ g2.inst c (g1.inst c hc))
      · exact Or.inl (Or.inr ⟨h1, Or.inr (Or.inr h2)⟩)
  | rename t name => exact (Ok.modify hw t (u := fun o => { o with name := name }) fun _ =>
      ⟨rfl, rfl, rfl, rfl, rfl, rfl⟩).2.1
  | delete t => exact (Okd.delete hw t).2.1
  | deleteResults => exact (Okd.times (Okd.deletePass fun hw t => Okd.tryDelete hw t) 4 hw).2.1
  | clear => exact tidy_clear hw
  | «calc» e name symbol ix =>
    refine Okd.bind (Q := fun _ _ => True) (Okd.eval letters e hw fun t ht => ?_) (fun x w1 k1 hw1 hx => ?_) |>.2.1
    · have := ha t ht
      exact ⟨sound_lt hw.sound this, fun hk => hw.good this hk⟩
    · have h := Okd.calcResult (E := E) hw1 (hx.fine hw1) name symbol ix
      exact ⟨h.1, h.2.1, fun _ _ => trivial⟩
  | compute f t =>
    have ht := hw.given (ha t (by simp [Call.arguments]))
    cases f with
    | christoffel => exact (Okd.christoffel hw ht).2.1
    | riemann => exact (Okd.calcRiemann hw ht).2.1
    | ricci => exact (Okd.calcRicci hw ht).2.1
    | scalar => exact (Okd.calcScalar hw ht).2.1
    | einstein => exact (Okd.calcEinstein hw ht).2.1
    | weyl => exact (Okd.calcWeyl hw ht).2.1
    | norm => exact (Okd.requireTensor (Q := fun _ _ => True) hw fun hk => Okd.calcNormSquared hw (ht.2 hk)).2.1
  | curve C f m c =>
    have hm := hw.given (ha m (by simp [Call.arguments]))
    have hc : ∀ x, c = some x → x ∈ w.instances := fun x hx => ha x (by simp [Call.arguments, hx])
    cases f with
    | lagrangian => exact (Okd.calcLagrangian hw hm hc).2.1
    | fromLagrangian => exact (Okd.calcGeodesicLagrangian hw hm hc).2.1
    | inactive => exact (Okd.calcGeodesicInactive hw hm hc).2.1
    | fromChristoffel => exact (Okd.calcGeodesicChristoffel hw hm hc).2.1
    | withTime => exact (Okd.calcGeodesicTime hw hm hc).2.1
  | curveGet C l c ix =>
    have ht := hw.given (ha l (by simp [Call.arguments]))
    exact (Ok.requireTensor (Q := fun _ _ => True) hw fun hk => Ok.keys hw (Keys.curveComponents c
      (fun x hx => ha x (by simp [Call.arguments, hx])) ix) ((ht.2 hk).fine hw)).2.1
  | curveCoords C l c =>
    have ht := hw.given (ha l (by simp [Call.arguments]))
    exact (Ok.requireTensor (Q := fun _ _ => True) hw fun hk => Ok.curveChangeCoords hw ((ht.2 hk).fine hw)
      (ha c (by simp [Call.arguments]))).2.1
  | simplify t =>
    have ht := hw.given (ha t (by simp [Call.arguments]))
    exact (Ok.requireTensor (Q := fun _ _ => True) hw fun hk => Ok.simplifyTensor hw ((ht.2 hk).fine hw)).2.1
  | setSymbol t symbol => exact (Ok.modify hw t (u := fun o => { o with symbol := symbol }) fun _ =>
      ⟨rfl, rfl, rfl, rfl, rfl, rfl⟩).2.1
  | lineElement var m c =>
    have ht := hw.given (ha m (by simp [Call.arguments]))
    refine (Okd.requireMetric (Q := fun _ _ => True) hw fun hk => Ok.bindd (Ok.keys hw (Keys.lowerComponents c
      (fun x hx => ha x (by simp [Call.arguments, hx]))) ((ht.2 hk).fine hw)) fun r w1 g1 hw1 _ => ?_).2.1
    exact Okd.obj hw1 fun _ _ _ => (Ok.pure hw1 trivial).okd
  | volumeElement m c =>
    have ht := hw.given (ha m (by simp [Call.arguments]))
    exact (Okd.requireMetric (Q := fun _ _ => True) hw fun hk => Ok.bindd (Ok.keys hw (Keys.lowerComponents c
      (fun x hx => ha x (by simp [Call.arguments, hx]))) ((ht.2 hk).fine hw)) fun r w1 g1 hw1 _ =>
        (Ok.pure hw1 trivial).okd).2.1
  | importOne I n text =>
    show Tidy ((importFromString E I n text w).elim w (·.2))
    unfold importFromString
    split
    · exact hw
    · exact hw
    · exact (Ok.importFromVal hw _).2.1
  | importAll I n text =>
    show Tidy ((importAllFromString E I n text w).elim w (·.2))
    unfold importAllFromString
    have hcl := tidy_clear hw
    split
    · rename_i h
      rw [h] at hcl
      exact hcl
    · rename_i h
      rw [h] at hcl
      split
      · exact hw
      · exact hcl
      · exact (Ok.importAllFromVal hcl _).2.1

end

end PyOGRe
