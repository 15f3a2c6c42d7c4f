import Verif.Lemmas.Copy
import Verif.Spec.Curvature

/-! Helper lemmas: the value of a formula when its labels have the positions of the default configuration. -/

namespace PyOGRe
open Spec Finset
variable {K : Type} [CommRing K] {E : Engine K} {G : Ground K} {V : View K} {w : World K} {F : Id' → TField K}

/-- A tensor with distinct labels in its default configuration. -/
theorem tensor_default {t : Id'} {labels : List Sym} (hn : labels.Nodup) {pos : Sym → Int} {ρ : Sym → Nat}
    (hρ : Values G.n ρ) (h : labels.map pos = (F t).ix) :
    ((Formula.tensor t labels).mean E G F).value pos ρ = (F t).val (labels.map ρ) := by
  rw [tensor_value t hn]
  unfold TField.at
  rw [h]
  exact comp_self (values_map hρ labels) (by rw [← h]; simp)

/-- The derivative of a formula in its default configuration. -/
theorem diff_default [DecidableEq K] (hE : ∀ x, E.simp x = x) (hS : Scene G V w) {f : Formula K} (hf : f.OK G V F)
    {a : Sym} (ha : a ∉ f.labels) {pos : Sym → Int} (hp : Positions pos) (hpa : pos a = -1) {ρ : Sym → Nat}
    (hρ : Values G.n ρ) (h : f.labels.map pos = (f.mean E G F).ix) :
    ((Formula.diff a f).mean E G F).value pos ρ = G.d E (ρ a) ((f.mean E G F).value pos ρ) := by
  obtain ⟨k1, k2, k3, k4⟩ := mean_facts hE hS hf
  show (Meaning.diff E G a (f.mean E G F)).value pos ρ = _
  unfold Meaning.diff
  rw [mean_labels, if_neg ha]
  show TField.at G ⟨"", G.c, -1 :: (f.mean E G F).ix, _⟩ (a :: f.labels) pos ρ = _
  unfold TField.at
  have hc : (a :: f.labels).map pos = (⟨"", G.c, -1 :: (f.mean E G F).ix,
      fun J => E.diff (G.syms.getD (J.headD 0) "") ((f.mean E G F).comps J.tail)⟩ : TField K).ix := by
    rw [List.map_cons, hpa, h]
  rw [hc, comp_self (values_map hρ _) (by simp [k2])]
  show E.diff _ _ = E.diff _ _
  congr 1
  show (f.mean E G F).value (posOf (f.mean E G F).labels (f.mean E G F).ix)
    (fun s => (f.labels.map ρ).getD ((f.mean E G F).labels.idxOf s) 0) = _
  rw [mean_labels]
  refine k4 _ _ _ _ (positions_posOf _ k3) hp (fun s => ?_) hρ fun s hs => ⟨?_, ?_⟩
  · exact values_getD hS.pos (values_map hρ f.labels) (fun s => f.labels.idxOf s) s
  · rw [← h]; exact posOf_map _ hs
  · exact getD_map_idxOf ρ f.labels s hs 0

theorem diff_ix {f : Formula K} {a : Sym} (ha : a ∉ f.labels) :
    ((Formula.diff a f).mean E G F).ix = -1 :: (f.mean E G F).ix := by
  show (Meaning.diff E G a (f.mean E G F)).ix = _
  unfold Meaning.diff
  rw [mean_labels, if_neg ha]
  rfl

/-- The computations that store the value of a formula. -/
theorem stores_with [DecidableEq K] (hE : ∀ x, E.simp x = x) {V0 : View K} {w0 : World K} (hS0 : Scene G V0 w0)
    (hV : V0.Extends V) (hT : OnlyTemps w0 w) (hS : Scene G V w) {f : Formula K} (hf : f.OK G V F) {order : List Sym}
    (ho : order = [] ∨ order.Perm f.labels) {requested : List Sym}
    (hr : requested = if order = [] then f.labels else order) {ix : List Int} {Q : Id' → World K → Prop}
    {k : Id' → PyM K Id'}
    (hk : ∀ t D w2 V2, Scene G V2 w2 → V0.Keeps V2 → Leaves (· = t) w0 w2 → New w0 w2 t → V2 t = some D →
      D.name = "Result" → D.coords = G.c → D.ix = requested.map (posOf f.labels (f.mean E G F).ix) →
      (∀ pos ρ, Positions pos → Values G.n ρ → requested.map pos = ix →
        D.comp G ix (requested.map ρ) = (f.mean E G F).value pos ρ) → Does (k t) w2 Q) :
    Does (f.run E >>= fun x => do
      let t ← calcResult E x "Result" "" order
      k t) w Q := by
  refine Does.bind (formula_evaluates hE hS hf) ?_
  rintro z w1 ⟨V1, t1, D1, hS1, hV1, hT1, hz, h1, h2, h3⟩
  refine Does.bind (yields_calc hE hS1 hz (name := "Result") (symbol := "") (by decide) (indices := order)
    (by rw [h1]; exact ho)) ?_
  rintro t w2 ⟨V2, D2, k1, k2, k3, k4, k5, k6, k7, k8⟩
  obtain ⟨k9, k10⟩ := k8 requested (by rw [hr, h1])
  rw [h1, h2] at k9
  have hL1 : Leaves (· = t) w0 w1 := leaves_mono (leaves_trans
    (leaves_onlyTemps (new := fun _ => False) hS0.registry hT) (leaves_onlyTemps (new := fun _ => False) hS.registry hT1))
    fun _ _ _ h => h.elim False.elim False.elim
  refine hk t D2 w2 V2 k1 (keeps_trans (keeps_extends hV) (keeps_trans
    (keeps_extends hV1) k2)) (leaves_mono (leaves_trans hL1 k3) fun _ _ _ h => h.elim id id)
    (new_length (leaves_length hL1) k4) k5 k7 k6 k9 fun pos ρ hp hρ hpi => ?_
  rw [← h3 pos ρ hp hρ, ← k10 pos ρ hp hρ, ← hpi]
  rfl

/-- The computations that end with storing the value of a formula. -/
theorem stores_formula' [DecidableEq K] (hE : ∀ x, E.simp x = x) {V0 : View K} {w0 : World K} (hS0 : Scene G V0 w0)
    (hV : V0.Extends V) (hT : OnlyTemps w0 w) (hS : Scene G V w) {f : Formula K} (hf : f.OK G V F) {order : List Sym}
    (ho : order = [] ∨ order.Perm f.labels) {requested : List Sym}
    (hr : requested = if order = [] then f.labels else order) {Dm : TField K} {s0 : Id'} {mf : Obj K → Id'} (hmf : ∀ o, o.metric = G.m → mf o = G.m) (hm : V0 s0 = some Dm)
    (hmn : Dm.name ≠ "TEMP") (hmc : Dm.coords = G.c) {ixo : Option (List Int)} {ix : List Int}
    (hix : Config requested.length ix)
    (hixo : ixo = some ix ∨ ixo = none ∧ requested.map (posOf f.labels (f.mean E G F).ix) = ix)
    {kind : Kind} (hkind : kind = .tensor ∨ kind = .christoffel) (suffix symbol : String)
    (hsuf : ∀ s : String, s ++ suffix ≠ "TEMP") :
    Does (f.run E >>= fun x => do
      let t ← calcResult E x "Result" "" order
      let comps ← getComponents E t none ixo
      let om ← getObj s0
      let r ← newTensor kind (.val (om.name ++ suffix)) (.val comps) (mf om) om.coords (.tuple ix) (.val symbol)
      deleteTemps
      deleteObj t
      return r) w fun r w' => ∃ V' D', Scene G V' w' ∧ V0.Keeps V' ∧ Leaves (· = r) w0 w' ∧ New w0 w' r ∧
        (∃ o, w'.objs[r]? = some o ∧ o.kind = kind) ∧
        V' r = some D' ∧ D'.coords = G.c ∧ D'.name = Dm.name ++ suffix ∧ D'.ix = ix ∧
        ∀ pos ρ, Positions pos → Values G.n ρ → requested.map pos = ix →
          D'.val (requested.map ρ) = (f.mean E G F).value pos ρ := by
  refine stores_with hE hS0 hV hT hS hf ho hr (ix := ix) fun t D2 w2 V2 k1 k2 k3 k4 k5 k7 k6 k9 k10 => ?_
  have hl : D2.ix.length = requested.length := by rw [k9]; simp
  refine Does.mono (yields_store' hE (V := V0) (w := w0) hS0 k1 k2 k3
    k4 k5 (by rw [k7]; decide) k6 hmf hm hmn hmc (ix := ix) (by rw [hl]; exact hix)
    (hixo.imp id fun h => ⟨h.1, k9.trans h.2⟩) hkind suffix symbol hsuf) ?_
  rintro r w3 ⟨V3, D3, e1, e2, e3, e4, e5, e6, e7, e8, e9, e10⟩
  refine ⟨V3, D3, e1, e2, e3, e4, e5, e6, e7, e8, e9, fun pos ρ hp hρ hpi => ?_⟩
  rw [e10 _ (values_map hρ _) (by rw [← hpi]; simp), k10 pos ρ hp hρ hpi]


theorem stores_formula [DecidableEq K] (hE : ∀ x, E.simp x = x) {V0 : View K} {w0 : World K} (hS0 : Scene G V0 w0)
    (hV : V0.Extends V) (hT : OnlyTemps w0 w) (hS : Scene G V w) {f : Formula K} (hf : f.OK G V F) {order : List Sym}
    (ho : order = [] ∨ order.Perm f.labels) {requested : List Sym}
    (hr : requested = if order = [] then f.labels else order) {Dm : TField K} (hm : V0 G.m = some Dm)
    (hmn : Dm.name ≠ "TEMP") (hmc : Dm.coords = G.c) {ixo : Option (List Int)} {ix : List Int}
    (hix : Config requested.length ix)
    (hixo : ixo = some ix ∨ ixo = none ∧ requested.map (posOf f.labels (f.mean E G F).ix) = ix)
    {kind : Kind} (hkind : kind = .tensor ∨ kind = .christoffel) (suffix symbol : String)
    (hsuf : ∀ s : String, s ++ suffix ≠ "TEMP") :
    Does (f.run E >>= fun x => do
      let t ← calcResult E x "Result" "" order
      let comps ← getComponents E t none ixo
      let om ← getObj G.m
      let r ← newTensor kind (.val (om.name ++ suffix)) (.val comps) G.m om.coords (.tuple ix) (.val symbol)
      deleteTemps
      deleteObj t
      return r) w fun r w' => ∃ V' D', Scene G V' w' ∧ V0.Keeps V' ∧ Leaves (· = r) w0 w' ∧ New w0 w' r ∧
        (∃ o, w'.objs[r]? = some o ∧ o.kind = kind) ∧
        V' r = some D' ∧ D'.coords = G.c ∧ D'.name = Dm.name ++ suffix ∧ D'.ix = ix ∧
        ∀ pos ρ, Positions pos → Values G.n ρ → requested.map pos = ix →
          D'.val (requested.map ρ) = (f.mean E G F).value pos ρ :=
  stores_formula' hE hS0 hV hT hS hf ho hr (mf := fun _ => G.m) (fun _ _ => rfl) hm hmn hmc hix hixo hkind suffix
    symbol hsuf

end PyOGRe
