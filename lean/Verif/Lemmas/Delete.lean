import Verif.Lemmas.CalcEval

/-! Helper lemmas: deleting temporary tensors, and the results of formulae. -/

namespace PyOGRe
open Spec
variable {K : Type}

theorem keeps_refl (V : View K) : V.Keeps V := fun _ _ h _ => h
theorem keeps_trans {V V' V'' : View K} (h : V.Keeps V') (h' : V'.Keeps V'') : V.Keeps V'' :=
  fun t D ht hn => h' t D (h t D ht hn) hn
theorem keeps_extends {V V' : View K} (h : V.Extends V') : V.Keeps V' := fun t D ht _ => h t D ht

theorem leaves_refl (new : Id' → Prop) {w : World K} (hw : RegistryOK w) : Leaves new w w :=
  ⟨fun _ o h => ⟨o, h, rfl, rfl, rfl, rfl, rfl, rfl, rfl, rfl, fun _ => ⟨rfl, Iff.rfl⟩⟩, fun i hi hl => by
    obtain ⟨o, ho, -⟩ := hw.inUse i hi
    have := lt_of_getElem? ho
    exact absurd this (not_lt.2 hl)⟩

theorem leaves_mono {new new' : Id' → Prop} {w w' : World K} (h : Leaves new w w')
    (hn : ∀ i, w.objs.length ≤ i → i ∈ w'.instances → new i → new' i) : Leaves new' w w' :=
  ⟨h.1, fun i hi hl => (h.2 i hi hl).imp (hn i hl hi) id⟩

theorem leaves_onlyTemps {new : Id' → Prop} {w w' : World K} (hw : RegistryOK w) (h : OnlyTemps w w') :
    Leaves new w w' := by
  obtain ⟨h1, l, h2, h3⟩ := h
  refine ⟨fun i o ho => ?_, fun i hi hl => ?_⟩
  · obtain ⟨o', e1, e2, e3, e4, e5, e6, e7, e8, e9, e10⟩ := h1 i o ho
    refine ⟨o', e1, e2, e3, e4, e5, e6, e7, e8, e9, fun _ => ⟨e10, ?_⟩⟩
    rw [h2, List.mem_append]
    refine ⟨fun h => h.resolve_right fun hl => ?_, Or.inl⟩
    have := (h3 i hl).1
    have := lt_of_getElem? ho
    exact absurd this (by omega)
  · rw [h2, List.mem_append] at hi
    rcases hi with hi | hi
    · obtain ⟨o, ho, -⟩ := hw.inUse i hi
      exact absurd (lt_of_getElem? ho) (not_lt.2 hl)
    · exact Or.inr (h3 i hi).2

theorem leaves_length {new : Id' → Prop} {w w' : World K} (h : Leaves new w w') :
    w.objs.length ≤ w'.objs.length := by
  by_contra hc
  have hl : w'.objs.length < w.objs.length := by omega
  obtain ⟨o', h1, -⟩ := h.1 w'.objs.length _ (List.getElem?_eq_getElem hl)
  have := lt_of_getElem? h1
  omega

theorem leaves_trans {new new' : Id' → Prop} {w w' w'' : World K} (h : Leaves new w w') (h' : Leaves new' w' w'') :
    Leaves (fun i => new i ∨ new' i) w w'' := by
  have hlen := leaves_length h
  refine ⟨fun i o ho => ?_, fun i hi hl => ?_⟩
  · obtain ⟨o', e1, e2, e3, e4, e5, e6, e7, e8, e9, e10⟩ := h.1 i o ho
    obtain ⟨o'', f1, f2, f3, f4, f5, f6, f7, f8, f9, f10⟩ := h'.1 i o' e1
    refine ⟨o'', f1, f2.trans e2, f3.trans e3, f4.trans e4, f5.trans e5, f6.trans e6, f7.trans e7, f8.trans e8,
      f9.trans e9, fun hn => ?_⟩
    have e := e10 hn
    have f := f10 (by rw [e3]; exact hn)
    exact ⟨f.1.trans e.1, f.2.trans e.2⟩
  · by_cases hi' : w'.objs.length ≤ i
    · exact (h'.2 i hi hi').imp Or.inr id
    · obtain ⟨o', ho'⟩ : ∃ o', w'.objs[i]? = some o' := ⟨_, List.getElem?_eq_getElem (not_le.1 hi')⟩
      obtain ⟨o'', f1, f2, f3, -, -, -, -, -, -, f10⟩ := h'.1 i o' ho'
      by_cases hn : o'.name = "TEMP"
      · exact Or.inr ⟨o'', f1, f3.trans hn⟩
      · rcases h.2 i ((f10 hn).2.1 hi) hl with h1 | ⟨o2, h1, h2⟩
        · exact Or.inl (Or.inl h1)
        · rw [ho'] at h1; cases h1
          exact absurd h2 hn

section
variable [CommRing K] {E : Engine K} {G : Ground K} {V : View K} {w : World K}

/-- A view with one tensor less. -/
def View.drop (V : View K) (t : Id') : View K := fun i => if i = t then none else V i

/-- The state after deleting an object. -/
def afterDelete (t : Id') (w : World K) : World K :=
  { objs := w.objs.modify t fun o => { o with alive := false }, instances := w.instances.erase t }

theorem afterDelete_ne {t i : Id'} (h : i ≠ t) : (afterDelete t w).objs[i]? = w.objs[i]? := by
  show (w.objs.modify t _)[i]? = _
  rw [List.getElem?_modify]
  simp [show ¬ t = i from fun hc => h hc.symm]

theorem scene_delete (hS : Scene G V w) {t : Id'} (ht : t ∈ w.instances) {o : Obj K} (ho : w.objs[t]? = some o)
    (h1 : o.kind ≠ .coordinates) (h2 : o.kind ≠ .metric) :
    deleteObj t w = (.ok (), afterDelete t w) ∧ Scene G (View.drop V t) (afterDelete t w) := by
  have hR := hS.registry
  constructor
  · unfold deleteObj
    rw [if_neg, if_pos ht]
    · rfl
    · intro hc
      obtain ⟨i, hi, hc⟩ := List.any_eq_true.1 hc
      rw [Bool.and_eq_true] at hc
      obtain ⟨oi, hoi, -⟩ := hR.inUse i hi
      rw [hoi] at hc
      obtain ⟨o', k1, k2⟩ := hR.refs i hi oi hoi t hc.2
      rw [ho] at k1; cases k1
      rcases k2 with k | k
      · exact h1 k
      · exact h2 k
  · obtain ⟨oc, c1, c2, c3, c4⟩ := hS.chart
    obtain ⟨Dm, om, m1, m2, m3, m4⟩ := hS.metric
    have hct : G.c ≠ t := fun h => by rw [h, ho] at c1; cases c1; exact h1 c2
    have hmt : G.m ≠ t := fun h => by rw [h, ho] at m2; cases m2; exact h2 m3
    have hmem : ∀ i ∈ w.instances.erase t, i ≠ t ∧ i ∈ w.instances := fun i hi =>
      (List.Nodup.mem_erase_iff hR.nodup).1 hi
    refine ⟨hS.pos, ⟨oc, (afterDelete_ne hct).trans c1, c2, c3, c4⟩, hS.dim, hS.inverse, hS.symm,
      ⟨Dm, om, ?_, (afterDelete_ne hmt).trans m2, m3, m4⟩, ?_, ?_⟩
    · unfold View.drop
      rw [if_neg hmt]; exact m1
    · intro i D hi
      unfold View.drop at hi
      split_ifs at hi with hit
      obtain ⟨oi, k1, k2⟩ := hS.shows i D hi
      exact ⟨oi, (afterDelete_ne hit).trans k1, k2⟩
    · refine ⟨hR.nodup.erase _, fun i hi => ?_, fun i hi oi hoi r hr => ?_, fun i hi oi hoi hn => ?_⟩
      · obtain ⟨k1, k2⟩ := hmem i hi
        obtain ⟨oi, k3, k4⟩ := hR.inUse i k2
        exact ⟨oi, (afterDelete_ne k1).trans k3, k4⟩
      · obtain ⟨k1, k2⟩ := hmem i hi
        rw [afterDelete_ne k1] at hoi
        obtain ⟨o', k3, k4⟩ := hR.refs i k2 oi hoi r hr
        have hrt : r ≠ t := fun h => by
          rw [h, ho] at k3; cases k3
          rcases k4 with k | k
          · exact h1 k
          · exact h2 k
        exact ⟨o', (afterDelete_ne hrt).trans k3, k4⟩
      · obtain ⟨k1, k2⟩ := hmem i hi
        rw [afterDelete_ne k1] at hoi
        exact hR.temp i k2 oi hoi hn

/-- One loop that deletes temporary tensors. -/
theorem does_deleteFrom (fuel : Nat) : ∀ {V : View K} {w : World K} (i : Nat), Scene G V w →
    Does (deleteFrom (hasName "TEMP") deleteObj fuel i) w fun _ w' => ∃ V', Scene G V' w' ∧ V.Keeps V' ∧
      Leaves (fun _ => False) w w' ∧ (w'.instances.filter fun t => (w.objs[t]?).any fun o => o.name != "TEMP") =
        w.instances.filter fun t => (w.objs[t]?).any fun o => o.name != "TEMP" := by
  induction fuel with
  | zero =>
    intro V w i hS
    exact Does.pure ⟨V, hS, keeps_refl V, leaves_refl _ hS.registry, rfl⟩
  | succ fuel ih =>
    intro V w i hS
    unfold deleteFrom
    refine Does.step (a := w) rfl ?_
    cases hi : w.instances[i]? with
    | none => exact Does.pure ⟨V, hS, keeps_refl V, leaves_refl _ hS.registry, rfl⟩
    | some t =>
      dsimp only
      have ht : t ∈ w.instances := List.mem_of_getElem? hi
      obtain ⟨o, ho, ha⟩ := hS.registry.inUse t ht
      refine Does.step (getObj_ok ho ha) ?_
      by_cases hn : o.name = "TEMP"
      · obtain ⟨k1, k2⟩ := hS.registry.temp t ht o ho hn
        obtain ⟨j1, j2⟩ := scene_delete hS ht ho k1 k2
        have hsel : hasName "TEMP" o = true := by simp [hasName, hn]
        rw [hsel]
        have hdel : PyM.onlyIf true (deleteObj (K := K) t) w = (.ok (), afterDelete t w) := j1
        refine Does.bind (Q := fun _ w' => w' = afterDelete t w) ⟨(), _, hdel, rfl⟩ ?_
        rintro _ w' rfl
        refine Does.mono (ih (i + 1) j2) ?_
        rintro _ w'' ⟨V', e1, e2, e3, e4⟩
        have hne : ∀ (j : Nat) oj, w.objs[j]? = some oj → oj.name ≠ "TEMP" → j ≠ t := by
          rintro j oj hj hjn rfl
          rw [ho] at hj; cases hj
          exact hjn hn
        have hnames : ∀ j : Nat, ((afterDelete t w).objs[j]?).any (fun o => o.name != "TEMP") =
            (w.objs[j]?).any fun o => o.name != "TEMP" := by
          intro j
          by_cases hj : j = t
          · subst hj
            show ((w.objs.modify j _)[j]?).any _ = _
            rw [List.getElem?_modify, ho]; simp
          · rw [afterDelete_ne hj]
        refine ⟨V', e1, ?_, ?_, ?_⟩
        · intro j D hj hD
          refine e2 j D ?_ hD
          obtain ⟨oj, f1, f2⟩ := hS.shows j D hj
          unfold View.drop
          rw [if_neg (hne j oj f1 (by rw [f2.name]; exact hD))]
          exact hj
        · refine ⟨fun j oj hj => ?_, fun j hj hl => ?_⟩
          · by_cases hjt : j = t
            · subst hjt
              rw [ho] at hj; cases hj
              have : (afterDelete j w).objs[j]? = some { o with alive := false } := by
                show (w.objs.modify j _)[j]? = _
                rw [List.getElem?_modify, ho]; simp
              obtain ⟨o'', f1, f2, f3, f4, f5, f6, f7, f8, f9, f10⟩ := e3.1 j _ this
              exact ⟨o'', f1, f2, f3, f4, f5, f6, f7, f8, f9, fun h => absurd hn h⟩
            · obtain ⟨o'', f1, f2, f3, f4, f5, f6, f7, f8, f9, f10⟩ := e3.1 j oj ((afterDelete_ne hjt).trans hj)
              refine ⟨o'', f1, f2, f3, f4, f5, f6, f7, f8, f9, fun h => ⟨(f10 h).1, (f10 h).2.trans ?_⟩⟩
              show j ∈ w.instances.erase t ↔ _
              rw [List.Nodup.mem_erase_iff hS.registry.nodup]
              exact and_iff_right hjt
          · exact e3.2 j hj (by
              show (w.objs.modify t _).length ≤ j
              rw [List.length_modify]; exact hl)
        · simp only [hnames] at e4
          rw [e4]
          show (w.instances.erase t).filter _ = _
          rw [List.Nodup.erase_eq_filter hS.registry.nodup, List.filter_filter]
          refine List.filter_congr fun j _ => ?_
          by_cases hj : j = t
          · subst hj; rw [ho]; simp [hn]
          · simp [hj]
      · have hsel : hasName "TEMP" o = false := by simp [hasName, hn]
        rw [hsel]
        exact Does.step (a := ()) rfl (ih (i + 1) hS)

theorem does_deletePass (hS : Scene G V w) :
    Does (deletePass (hasName "TEMP") deleteObj) w fun _ w' => ∃ V', Scene G V' w' ∧ V.Keeps V' ∧
      Leaves (fun _ => False) w w' := by
  refine Does.mono (does_deleteFrom w.instances.length 0 hS) ?_
  rintro _ w' ⟨V', h1, h2, h3, -⟩
  exact ⟨V', h1, h2, h3⟩

theorem does_deletePasses (k : Nat) : ∀ {V : View K} {w : World K}, Scene G V w →
    Does (timesDo (deletePass (hasName "TEMP") deleteObj) k) w fun _ w' => ∃ V', Scene G V' w' ∧ V.Keeps V' ∧
      Leaves (fun _ => False) w w' := by
  induction k with
  | zero => exact fun hS => Does.pure ⟨_, hS, keeps_refl _, leaves_refl _ hS.registry⟩
  | succ k ih =>
    intro V w hS
    refine Does.bind (does_deletePass hS) ?_
    rintro _ w1 ⟨V1, h1, h2, h3⟩
    refine Does.mono (ih h1) ?_
    rintro _ w2 ⟨V2, k1, k2, k3⟩
    exact ⟨V2, k1, keeps_trans h2 k2, leaves_mono (leaves_trans h3 k3) fun _ _ _ h => h.elim id id⟩

theorem leaves_append {w' : World K} {o : Obj K} (hw : RegistryOK w)
    (h1 : w'.instances = w.instances ++ [w.objs.length]) (h2 : w'.objs = w.objs ++ [o]) :
    Leaves (· = w.objs.length) w w' := by
  refine ⟨fun i oi hi => ⟨oi, by rw [h2]; exact getElem?_append_old hi, rfl, rfl, rfl, rfl, rfl, rfl, rfl, rfl,
    fun _ => ⟨rfl, ?_⟩⟩, fun i hi hl => ?_⟩
  · rw [h1, List.mem_append, List.mem_singleton]
    refine ⟨fun h => h.resolve_right fun h => ?_, Or.inl⟩
    have := lt_of_getElem? hi
    rw [h] at this
    exact absurd this (lt_irrefl _)
  · rw [h1, List.mem_append, List.mem_singleton] at hi
    rcases hi with hi | hi
    · obtain ⟨o, ho, -⟩ := hw.inUse i hi
      exact absurd (lt_of_getElem? ho) (not_lt.2 hl)
    · exact Or.inl hi

theorem new_append {w' : World K} {o : Obj K} (h1 : w'.instances = w.instances ++ [w.objs.length])
    (h2 : w'.objs = w.objs ++ [o]) (ho : o.kind = .tensor ∨ o.kind = .christoffel) : New w w' w.objs.length :=
  ⟨le_refl _, by rw [h1]; simp, o, by rw [h2]; exact getElem?_append_length _ _, ho⟩

theorem new_length {w0 w' : World K} {t : Id'} (h : w0.objs.length ≤ w.objs.length) (hn : New w w' t) : New w0 w' t :=
  ⟨le_trans h hn.1, hn.2⟩

theorem new_leaves {w' w'' : World K} {t : Id'} {new : Id' → Prop} (hn : New w w' t)
    (hname : ∀ o, w'.objs[t]? = some o → o.name ≠ "TEMP") (h : Leaves new w' w'') : New w w'' t := by
  obtain ⟨h1, h2, o, h3, h4⟩ := hn
  obtain ⟨o', e1, e2, -, -, -, -, -, -, -, e3⟩ := h.1 t o h3
  exact ⟨h1, (e3 (hname o h3)).2.2 h2, o', e1, by rw [e2]; exact h4⟩

/-- `Calc`. -/
theorem yields_calc (hE : ∀ x, E.simp x = x) (hS : Scene G V w) {x : CalcObj} {t : Id'} {D : TField K}
    (hx : Denotes G V x t D) {name symbol : String} (hname : name ≠ "TEMP") {indices : List Sym}
    (hi : indices = [] ∨ indices.Perm x.labels) :
    Yields G V w (calcResult E x name symbol indices) fun D' => D'.name = name ∧
      ∀ requested, (requested = if indices = [] then x.labels else indices) →
        D'.ix = requested.map (posOf x.labels D.ix) ∧
        ∀ pos ρ, Positions pos → Values G.n ρ → D'.at G requested pos ρ = D.at G x.labels pos ρ := by
  obtain ⟨requested, hreq⟩ : ∃ requested, requested = if indices = [] then x.labels else indices := ⟨_, rfl⟩
  have hperm : requested.Perm x.labels := by
    rw [hreq]
    split_ifs with h
    · exact List.Perm.refl _
    · exact hi.resolve_left h
  have hnd : requested.Nodup := hperm.nodup_iff.2 hx.nodup
  unfold calcResult
  rw [if_neg (by
    rintro ⟨h1, h2⟩
    rw [← Bool.not_eq_true, List.isPerm_iff] at h2
    exact h2 (hi.resolve_left h1))]
  rw [← hreq]
  refine Does.lift (mapM_ok _ (x.labels.idxOf) _ fun s hs => labelPos_ok (hperm.mem_iff.1 hs)) ?_
  obtain ⟨o, ht, ho, hsh⟩ := tensorOf_ok hS hx.toNames
  refine Does.step ht ?_
  dsimp only
  rw [hsh.indices, hsh.coords, hsh.metric, hx.coords]
  have hcfg := hsh.config
  refine Does.lift (mapM_ok _ (fun i => D.ix.getD i 1) _ fun i hi => ?_) ?_
  · obtain ⟨s, hs, rfl⟩ := List.mem_map.1 hi
    exact tupleGet_ok (by rw [← hx.length]; exact List.idxOf_lt_length_iff.2 (hperm.mem_iff.1 hs)) 1
  refine Does.bind (scene_getComponents hE hS hx.field hcfg) ?_
  rintro a w1 ⟨hS1, hF1, ha⟩
  obtain ⟨b, hb1, hb2, hb3, hb4⟩ := permutedims_labels hS.pos hnd hperm (a := a)
    (by rw [ha.2.1, hx.length])
  refine Does.lift hb1 ?_
  have hsimp : (if b.rank > 0 then b.map E.simp else b) = b := by
    split_ifs
    · exact simp_map hb2 hE
    · rfl
  rw [hsimp]
  have hixm : List.map (fun i => D.ix.getD i 1) (List.map x.labels.idxOf requested) =
      requested.map (posOf x.labels D.ix) := by rw [List.map_map]; rfl
  rw [hixm]
  have hlen : (requested.map (posOf x.labels D.ix)).length = requested.length := by simp
  have hcfg' : Config (requested.map (posOf x.labels D.ix)).length (requested.map (posOf x.labels D.ix)) := by
    refine ⟨rfl, fun i hi => ?_⟩
    obtain ⟨s, -, rfl⟩ := List.mem_map.1 hi
    exact positions_posOf _ hcfg s
  obtain ⟨on, w2, e1, e2, e3, e4, e5, e6, e7, e8⟩ := scene_new hS1 (kind := .tensor) (Or.inl rfl) name symbol
    (a := b) (f := b.get) (ix := requested.map (posOf x.labels D.ix))
    ⟨hb2, by rw [hb3, hlen], fun _ _ _ => rfl⟩ hcfg'
  refine Does.bind (Q := fun t w' => t = w1.objs.length ∧ w' = w2) ⟨_, _, e1, rfl, rfl⟩ ?_
  rintro t' w2' ⟨rfl, rfl⟩
  refine Does.bind (does_deletePasses 2 e2) ?_
  rintro _ w3 ⟨V3, k1, k2, k3⟩
  have hnew : V3 w1.objs.length = some ⟨name, G.c, requested.map (posOf x.labels D.ix), b.get⟩ :=
    k2 _ _ (by simp [View.add]) hname
  refine Does.pure ⟨V3, _, k1, keeps_trans (keeps_extends e8) k2, ?_, ?_, hnew, rfl, rfl, ?_⟩
  · exact leaves_mono (leaves_trans (leaves_onlyTemps (new := fun _ => False) hS.registry (onlyTemps_frame hF1))
      (leaves_trans (leaves_append hS1.registry e3 e4) k3)) fun i _ _ h => by tauto
  · have hn := new_append (o := on) e3 e4 (by rw [e6]; exact Or.inl rfl)
    refine new_leaves (new_length (leaves_length (leaves_onlyTemps (new := fun _ => False) hS.registry
      (onlyTemps_frame hF1))) hn) (fun o ho => ?_) k3
    rw [e4, getElem?_append_length] at ho; cases ho
    rw [e5]; exact hname
  · intro requested' hreq'
    subst hreq'
    refine ⟨rfl, fun pos ρ hp hρ => ?_⟩
    refine at_ext hS.inverse (D := ⟨name, G.c, requested'.map (posOf x.labels D.ix), b.get⟩) hcfg' hnd hlen.symm
      (T := D.at G x.labels) ?_ ?_ ?_ hp hρ
    · exact lawful_subset (lawful_at hS.inverse hcfg hx.nodup hx.length) fun s hs => hperm.mem_iff.1 hs
    · intro pos pos' ρ h1 h2 h3 h4
      exact onlyOn_at D x.labels pos pos' ρ ρ fun s hs => ⟨h4 s (hperm.mem_iff.2 hs), rfl⟩
    · intro ρ hρ
      show b.get _ = _
      rw [hb4 ρ hρ, agree_labels ha hx.length hρ,
        onlyOn_at D x.labels _ (posOf x.labels D.ix) ρ ρ fun s hs =>
          ⟨posOf_map _ (hperm.mem_iff.2 hs), rfl⟩]
      unfold TField.at
      rw [map_posOf hx.nodup hx.length]

end
/-- A tensor made of the result of a formula. -/
theorem yields_after [CommRing K] {G : Ground K} {V : View K} {w : World K} {m : PyM K CalcObj} {f : CalcObj → PyM K Id'} {P : List Sym → TField K → Prop}
    {Q : TField K → Prop} (hS : Scene G V w) (h : Evaluates G V w m P)
    (hf : ∀ z V' t D w', Scene G V' w' → V.Extends V' → OnlyTemps w w' → Denotes G V' z t D → P z.labels D →
      Yields G V' w' (f z) Q) : Yields G V w (m >>= f) Q := by
  refine Does.bind h ?_
  rintro z w' ⟨V', t, D, hS', hV, hT, hz, hP⟩
  refine Does.mono (hf z V' t D w' hS' hV hT hz hP) ?_
  rintro r w1 ⟨V'', D', k1, k2, k3, k4⟩
  exact ⟨V'', D', k1, keeps_trans (keeps_extends hV) k2,
    leaves_mono (leaves_trans (leaves_onlyTemps (new := (· = r)) hS.registry hT) k3) fun i _ _ h => h.elim id id,
    ⟨le_trans (leaves_length (leaves_onlyTemps (new := (· = r)) hS.registry hT)) k4.1.1, k4.1.2⟩, k4.2⟩

end PyOGRe
