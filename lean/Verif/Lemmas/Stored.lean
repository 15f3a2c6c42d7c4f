import Verif.Lemmas.Rename
import Verif.Lemmas.Delete
import Verif.Model.Curvature

/-! Helper lemmas: results of formulae that are stored under another name. -/

namespace PyOGRe
open Spec Finset
variable {K : Type} [CommRing K] {E : Engine K} {G : Ground K} {V : View K} {w : World K} {F : Id' → TField K}

theorem view_lt (hS : Scene G V w) {t : Id'} {D : TField K} (h : V t = some D) : t < w.objs.length := by
  obtain ⟨o, ho, -⟩ := hS.shows t D h
  exact lt_of_getElem? ho

/-- Deleting a tensor that was made in the meantime. -/
theorem leaves_deleteNew {w' : World K} {new : Id' → Prop} {t : Id'} (hR : RegistryOK w') (h : Leaves new w w')
    (ht : w.objs.length ≤ t) : Leaves (fun i => new i ∧ i ≠ t) w (afterDelete t w') := by
  refine ⟨fun i o ho => ?_, fun i hi hl => ?_⟩
  · have hit : i ≠ t := fun hc => by
      have := lt_of_getElem? ho
      rw [hc] at this
      exact absurd this (not_lt.2 ht)
    obtain ⟨o', e1, e2, e3, e4, e5, e6, e7, e8, e9, e10⟩ := h.1 i o ho
    refine ⟨o', (afterDelete_ne hit).trans e1, e2, e3, e4, e5, e6, e7, e8, e9, fun hn => ⟨(e10 hn).1, ?_⟩⟩
    rw [← (e10 hn).2]
    show i ∈ w'.instances.erase t ↔ _
    rw [List.Nodup.mem_erase_iff hR.nodup]
    exact and_iff_right hit
  · have hi' : i ∈ w'.instances.erase t := hi
    rw [List.Nodup.mem_erase_iff hR.nodup] at hi'
    rcases h.2 i hi'.2 hl with h1 | ⟨o, h1, h2⟩
    · exact Or.inl ⟨h1, hi'.1⟩
    · exact Or.inr ⟨o, (afterDelete_ne hi'.1).trans h1, h2⟩

theorem scene_object_name (hS : Scene G V w) {t : Id'} {D : TField K} (h : V t = some D) {o : Obj K}
    (ho : w.objs[t]? = some o) : o.name = D.name := by
  obtain ⟨o', h1, h2⟩ := hS.shows t D h
  rw [ho] at h1; cases h1
  exact h2.name

/-- The end of the `Calc...` functions, before a tensor is deleted. -/
theorem stores_new' (hE : ∀ x, E.simp x = x) {w1 : World K} {V1 : View K} {t : Id'} {D : TField K}
    (hS1 : Scene G V1 w1) (hk : V.Keeps V1) (hL : Leaves (· = t) w w1) (hN : New w w1 t) (ht : V1 t = some D)
    (hn : D.name ≠ "TEMP") (hc : D.coords = G.c) {Dm : TField K} {s0 : Id'} {mf : Obj K → Id'} (hmf : ∀ o, o.metric = G.m → mf o = G.m) (hm : V s0 = some Dm) (hmn : Dm.name ≠ "TEMP")
    (hmc : Dm.coords = G.c) {ixo : Option (List Int)} {ix : List Int} (hix : Config D.ix.length ix)
    (hixo : ixo = some ix ∨ ixo = none ∧ D.ix = ix) {kind : Kind} (hkind : kind = .tensor ∨ kind = .christoffel)
    (suffix symbol : String) (hsuf : ∀ s : String, s ++ suffix ≠ "TEMP") {α : Type} {k : Id' → PyM K α}
    {Q : α → World K → Prop}
    (hQ : ∀ r w4 V4 D', Scene G V4 w4 → V1.Keeps V4 → Leaves (fun i => i = t ∨ i = r) w w4 → New w w4 r → New w w4 t →
        r ≠ t → (∃ o, w4.objs[r]? = some o ∧ o.kind = kind) →
        V4 r = some D' → D'.coords = G.c → D'.name = Dm.name ++ suffix → D'.ix = ix →
        (∀ J, (∀ x ∈ J, x < G.n) → J.length = ix.length → D'.val J = D.comp G ix J) → Does (k r) w4 Q) :
    Does (do
      let comps ← getComponents E t none ixo
      let om ← getObj s0
      let r ← newTensor kind (.val (om.name ++ suffix)) (.val comps) (mf om) om.coords (.tuple ix) (.val symbol)
      deleteTemps
      k r) w1 Q := by
  have hget : Does (getComponents E t none ixo) w1 fun b w' =>
      Scene G V1 w' ∧ Frame w1 w' ∧ Agree G.n D.ix.length b (D.comp G ix) := by
    rcases hixo with rfl | ⟨rfl, rfl⟩
    · obtain ⟨o, ho, hsh⟩ := hS1.shows _ _ ht
      refine Does.step (getObj_ok ho hsh.alive) ?_
      show Does (getRepresentation E t o.coords ix) _ _
      rw [hsh.coords, hc]
      exact scene_get hE hS1 ht hix
    · refine Does.mono (scene_getDefault hE hS1 ht hc) ?_
      rintro b w' ⟨h1, h2, h3⟩
      refine ⟨h1, h2, h3.1, h3.2.1, fun J hJ hJn => ?_⟩
      rw [h3.2.2 J hJ hJn, comp_self hJn hJ]
  refine Does.bind hget ?_
  rintro b w2 ⟨hS2, hF2, hb⟩
  obtain ⟨om, m1, m2⟩ := hS2.shows _ _ (hk _ _ hm hmn)
  refine Does.step (getObj_ok m1 m2.alive) ?_
  rw [m2.name, m2.coords, hmc, hmf om m2.metric]
  have hbix : Agree G.n ix.length b (D.comp G ix) := by rw [hix.1]; exact hb
  obtain ⟨on, w3, e1, e2, e3, e4, e5, e6, e7, e8⟩ := scene_new hS2 hkind (Dm.name ++ suffix) symbol hbix
    (by rw [hix.1]; exact hix)
  refine Does.bind (Q := fun t' w' => t' = w2.objs.length ∧ w' = w3) ⟨_, _, e1, rfl, rfl⟩ ?_
  rintro r w3' ⟨rfl, rfl⟩
  refine Does.bind (does_deletePass e2) ?_
  rintro _ w4 ⟨V4, k1, k2, k3⟩
  have hfr := leaves_onlyTemps (new := fun _ => False) hS1.registry (onlyTemps_frame hF2)
  have hL3 := leaves_trans hL (leaves_trans hfr (leaves_trans (leaves_append hS2.registry e3 e4) k3))
  have hN4 : New w w4 t := by
    refine new_leaves hN (fun o ho => ?_) (leaves_trans hfr (leaves_trans (leaves_append hS2.registry e3 e4) k3))
    rw [scene_object_name hS1 ht ho]; exact hn
  have hlt : t < w2.objs.length := view_lt hS2 ht
  have hrt : w2.objs.length ≠ t := fun hc => absurd hlt (by rw [hc]; exact lt_irrefl _)
  have hlen : w.objs.length ≤ w2.objs.length :=
    le_trans (leaves_length hL) (leaves_length hfr)
  have hNr : New w w4 w2.objs.length := by
    refine new_leaves (new_length hlen (new_append (o := on) e3 e4 (by rw [e6]; exact hkind))) (fun o ho => ?_) k3
    rw [e4, getElem?_append_length] at ho; cases ho
    rw [e5]; exact hsuf _
  obtain ⟨or, f1, f2, -⟩ := k3.1 w2.objs.length on (by rw [e4]; exact getElem?_append_length _ _)
  refine hQ w2.objs.length w4 V4 ⟨Dm.name ++ suffix, G.c, ix, D.comp G ix⟩ k1 (fun s Ds hs hsn => k2 _ _ (e8 _ _ hs) hsn)
    (leaves_mono hL3 fun i _ _ h => by tauto) hNr hN4 hrt ⟨or, f1, f2.trans e6⟩ (k2 _ _ (by simp [View.add]) (hsuf _))
    rfl rfl rfl fun J _ _ => rfl

/-- The end of the `Calc...` functions. -/

theorem stores_new (hE : ∀ x, E.simp x = x) {w1 : World K} {V1 : View K} {t : Id'} {D : TField K}
    (hS1 : Scene G V1 w1) (hk : V.Keeps V1) (hL : Leaves (· = t) w w1) (hN : New w w1 t) (ht : V1 t = some D)
    (hn : D.name ≠ "TEMP") (hc : D.coords = G.c) {Dm : TField K} (hm : V G.m = some Dm) (hmn : Dm.name ≠ "TEMP")
    (hmc : Dm.coords = G.c) {ixo : Option (List Int)} {ix : List Int} (hix : Config D.ix.length ix)
    (hixo : ixo = some ix ∨ ixo = none ∧ D.ix = ix) {kind : Kind} (hkind : kind = .tensor ∨ kind = .christoffel)
    (suffix symbol : String) (hsuf : ∀ s : String, s ++ suffix ≠ "TEMP") {α : Type} {k : Id' → PyM K α}
    {Q : α → World K → Prop}
    (hQ : ∀ r w4 V4 D', Scene G V4 w4 → V1.Keeps V4 → Leaves (fun i => i = t ∨ i = r) w w4 → New w w4 r → New w w4 t →
        r ≠ t → (∃ o, w4.objs[r]? = some o ∧ o.kind = kind) →
        V4 r = some D' → D'.coords = G.c → D'.name = Dm.name ++ suffix → D'.ix = ix →
        (∀ J, (∀ x ∈ J, x < G.n) → J.length = ix.length → D'.val J = D.comp G ix J) → Does (k r) w4 Q) :
    Does (do
      let comps ← getComponents E t none ixo
      let om ← getObj G.m
      let r ← newTensor kind (.val (om.name ++ suffix)) (.val comps) G.m om.coords (.tuple ix) (.val symbol)
      deleteTemps
      k r) w1 Q :=
  stores_new' hE hS1 hk hL hN ht hn hc (mf := fun _ => G.m) (fun _ _ => rfl) hm hmn hmc hix hixo hkind suffix symbol
    hsuf hQ

theorem yields_store' (hE : ∀ x, E.simp x = x) {w1 : World K} {V1 : View K} (hS : Scene G V w) {t : Id'} {D : TField K}
    (hS1 : Scene G V1 w1) (hk : V.Keeps V1) (hL : Leaves (· = t) w w1) (hN : New w w1 t) (ht : V1 t = some D)
    (hn : D.name ≠ "TEMP") (hc : D.coords = G.c) {Dm : TField K} {s0 : Id'} {mf : Obj K → Id'} (hmf : ∀ o, o.metric = G.m → mf o = G.m) (hm : V s0 = some Dm) (hmn : Dm.name ≠ "TEMP")
    (hmc : Dm.coords = G.c) {ixo : Option (List Int)} {ix : List Int} (hix : Config D.ix.length ix)
    (hixo : ixo = some ix ∨ ixo = none ∧ D.ix = ix) {kind : Kind} (hkind : kind = .tensor ∨ kind = .christoffel)
    (suffix symbol : String) (hsuf : ∀ s : String, s ++ suffix ≠ "TEMP") :
    Does (do
      let comps ← getComponents E t none ixo
      let om ← getObj s0
      let r ← newTensor kind (.val (om.name ++ suffix)) (.val comps) (mf om) om.coords (.tuple ix) (.val symbol)
      deleteTemps
      deleteObj t
      return r) w1 fun r w' => ∃ V' D', Scene G V' w' ∧ V.Keeps V' ∧ Leaves (· = r) w w' ∧ New w w' r ∧
        (∃ o, w'.objs[r]? = some o ∧ o.kind = kind) ∧
        V' r = some D' ∧ D'.coords = G.c ∧ D'.name = Dm.name ++ suffix ∧ D'.ix = ix ∧
        ∀ J, (∀ x ∈ J, x < G.n) → J.length = ix.length → D'.val J = D.comp G ix J := by
  refine stores_new' hE hS1 hk hL hN ht hn hc hmf hm hmn hmc hix hixo hkind suffix symbol hsuf
    fun r w4 V4 D' k1 k2 hL4 hNr hN4 hrt hor hr1 hr2 hr3 hr4 hr5 => ?_
  obtain ⟨n1, n2, ot, n3, n4⟩ := hN4
  obtain ⟨d1, d2⟩ := scene_delete k1 n2 n3 (by rcases n4 with h | h <;> rw [h] <;> decide)
    (by rcases n4 with h | h <;> rw [h] <;> decide)
  refine Does.bind (Q := fun _ w' => w' = afterDelete t w4) ⟨_, _, d1, rfl⟩ ?_
  rintro _ w5 rfl
  obtain ⟨or, f1, f2⟩ := hor
  refine Does.pure ⟨_, D', d2, ?_, ?_, ?_, ⟨or, (afterDelete_ne hrt).trans f1, f2⟩, ?_, hr2, hr3, hr4, hr5⟩
  · intro s Ds hs hsn
    unfold View.drop
    have hst : s ≠ t := fun hc => by
      have := view_lt hS hs
      rw [hc] at this
      exact absurd this (not_lt.2 n1)
    rw [if_neg hst]
    exact k2 _ _ (hk _ _ hs hsn) hsn
  · refine leaves_mono (leaves_deleteNew k1.registry hL4 n1) fun i _ _ h => ?_
    obtain ⟨h1, h2⟩ := h
    tauto
  · obtain ⟨q1, q2, o, q3, q4⟩ := hNr
    refine ⟨q1, ?_, o, (afterDelete_ne hrt).trans q3, q4⟩
    show _ ∈ w4.instances.erase t
    rw [List.Nodup.mem_erase_iff k1.registry.nodup]
    exact ⟨hrt, q2⟩
  · unfold View.drop
    rw [if_neg hrt]
    exact hr1


theorem yields_store (hE : ∀ x, E.simp x = x) {w1 : World K} {V1 : View K} (hS : Scene G V w) {t : Id'} {D : TField K}
    (hS1 : Scene G V1 w1) (hk : V.Keeps V1) (hL : Leaves (· = t) w w1) (hN : New w w1 t) (ht : V1 t = some D)
    (hn : D.name ≠ "TEMP") (hc : D.coords = G.c) {Dm : TField K} (hm : V G.m = some Dm) (hmn : Dm.name ≠ "TEMP")
    (hmc : Dm.coords = G.c) {ixo : Option (List Int)} {ix : List Int} (hix : Config D.ix.length ix)
    (hixo : ixo = some ix ∨ ixo = none ∧ D.ix = ix) {kind : Kind} (hkind : kind = .tensor ∨ kind = .christoffel)
    (suffix symbol : String) (hsuf : ∀ s : String, s ++ suffix ≠ "TEMP") :
    Does (do
      let comps ← getComponents E t none ixo
      let om ← getObj G.m
      let r ← newTensor kind (.val (om.name ++ suffix)) (.val comps) G.m om.coords (.tuple ix) (.val symbol)
      deleteTemps
      deleteObj t
      return r) w1 fun r w' => ∃ V' D', Scene G V' w' ∧ V.Keeps V' ∧ Leaves (· = r) w w' ∧ New w w' r ∧
        (∃ o, w'.objs[r]? = some o ∧ o.kind = kind) ∧
        V' r = some D' ∧ D'.coords = G.c ∧ D'.name = Dm.name ++ suffix ∧ D'.ix = ix ∧
        ∀ J, (∀ x ∈ J, x < G.n) → J.length = ix.length → D'.val J = D.comp G ix J :=
  yields_store' hE hS hS1 hk hL hN ht hn hc (mf := fun _ => G.m) (fun _ _ => rfl) hm hmn hmc hix hixo hkind suffix
    symbol hsuf

end PyOGRe
