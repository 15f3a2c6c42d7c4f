import Verif.Lemmas.Norm
import Verif.Lemmas.EulerLagrange

/-! Helper lemmas: Lagrangians and geodesic equations. -/

namespace PyOGRe
open Spec Finset
variable {K : Type} [CommRing K] {E : Engine K} {G : Ground K} {V : View K} {w : World K} {C : Curves K}

theorem isLagrangian_ne {kind : Kind} (h : kind.isLagrangian = true) : kind ≠ .coordinates ∧ kind ≠ .metric := by
  cases kind <;> simp_all [Kind.isLagrangian]

/-- One more registered object that is not in view. -/
theorem scene_unseen (hS : Scene G V w) {o : Obj K} (ha : o.alive = true) (hk : o.kind.isLagrangian = true)
    (hu : ∀ t, o.uses t = true → t = G.c ∨ t = G.m) :
    Scene G V { objs := w.objs ++ [o], instances := w.instances ++ [w.objs.length] } := by
  obtain ⟨oc, c1, c2, c3, c4⟩ := hS.chart
  obtain ⟨Dm, om, m1, m2, m3, m4⟩ := hS.metric
  have hR := hS.registry
  refine ⟨hS.pos, ⟨oc, getElem?_append_old c1, c2, c3, c4⟩, hS.dim, hS.inverse, hS.symm,
    ⟨Dm, om, m1, getElem?_append_old m2, m3, m4⟩, fun i D hi => ?_, ?_⟩
  · obtain ⟨oi, h1, h2⟩ := hS.shows i D hi
    exact ⟨oi, getElem?_append_old h1, h2⟩
  have hold : ∀ (i : Nat) oi, i ∈ w.instances → (w.objs ++ [o])[i]? = some oi → w.objs[i]? = some oi := by
    intro i oi hi hoi
    obtain ⟨o', k1, -⟩ := hR.inUse i hi
    rw [getElem?_append_old k1] at hoi
    exact k1.trans hoi
  have hnew : ∀ oi, (w.objs ++ [o])[w.objs.length]? = some oi → oi = o := by
    intro oi h
    rw [getElem?_append_length] at h
    exact (Option.some.inj h).symm
  refine ⟨?_, fun i hi => ?_, fun i hi oi hoi r hr => ?_, fun i hi oi hoi hn => ?_⟩
  · rw [List.nodup_append]
    refine ⟨hR.nodup, by simp, fun i hi j hj => ?_⟩
    rw [List.mem_singleton] at hj
    rw [hj]
    obtain ⟨oi, h1, -⟩ := hR.inUse i hi
    have : i < w.objs.length := lt_of_getElem? h1
    exact fun hc => absurd this (by rw [hc]; exact lt_irrefl _)
  · rcases List.mem_append.1 hi with hi | hi
    · obtain ⟨oi, h1, h2⟩ := hR.inUse i hi
      exact ⟨oi, getElem?_append_old h1, h2⟩
    · rw [List.mem_singleton.1 hi]
      exact ⟨o, getElem?_append_length _ _, ha⟩
  · rcases List.mem_append.1 hi with hi | hi
    · obtain ⟨o', k1, k2⟩ := hR.refs i hi oi (hold i oi hi hoi) r hr
      exact ⟨o', getElem?_append_old k1, k2⟩
    · rw [List.mem_singleton.1 hi] at hoi
      rw [hnew oi hoi] at hr
      rcases hu r hr with rfl | rfl
      · exact ⟨oc, getElem?_append_old c1, Or.inl c2⟩
      · exact ⟨om, getElem?_append_old m2, Or.inr m3⟩
  · rcases List.mem_append.1 hi with hi | hi
    · exact hR.temp i hi oi (hold i oi hi hoi) hn
    · rw [List.mem_singleton.1 hi] at hoi
      rw [hnew oi hoi]
      exact isLagrangian_ne hk

/-- The object has components only in the coordinates of the ground. -/
def OnlyIn (G : Ground K) (w : World K) (r : Id') : Prop :=
  ∃ o, w.objs[r]? = some o ∧ ∀ c', c' ≠ G.c → o.comps.get? c' = none

/-- A new Lagrangian or geodesic equation. -/
theorem scene_newCurve (hS : Scene G V w) {kind : Kind} (hk : kind.isLagrangian = true) (name symbol : String)
    {a : Arr K} {ix : List Int} {f : List Nat → K} (ha : Agree G.n ix.length a f) (hix : Config ix.length ix) :
    ∃ o w', newTensor kind (.val name) (.val a) G.m G.c (.tuple ix) (.val symbol) w = (.ok w.objs.length, w') ∧
      Scene G V w' ∧ w'.instances = w.instances ++ [w.objs.length] ∧ w'.objs = w.objs ++ [o] ∧
      Holds G w' w.objs.length kind name ix f ∧ OnlyIn G w' w.objs.length := by
  obtain ⟨oc, c1, c2, c3, c4⟩ := hS.chart
  obtain ⟨Dm, om, m1, m2, m3, m4⟩ := hS.metric
  have hargs : TensorArgsOK w (.val name) (.val a) G.m G.c (.tuple ix) (.val symbol) := by
    refine ⟨⟨_, rfl⟩, ⟨_, rfl⟩, ⟨om, m2, m3⟩, oc, a, c1, c2, c3, rfl, ?_, ?_⟩
    · intro x hx
      rw [ha.2.1] at hx
      rw [List.eq_of_mem_replicate hx, c4, hS.dim]
    · refine Or.inr ⟨ix, rfl, ?_, hix.2⟩
      rw [ha.2.1, List.length_replicate]
  obtain ⟨t, w', hok⟩ := (newTensor_iff (kind := kind)).1 hargs
  rcases newTensor_cases kind (.val name) a G.m G.c (.tuple ix) (.val symbol) w with ⟨e, he⟩ |
    ⟨oc', om', -, -, -, -, -, -, h⟩
  · rw [hok] at he; cases he
  · refine ⟨_, _, h, scene_unseen hS rfl hk ?_, rfl, rfl, ⟨_, getElem?_append_length _ _, rfl, rfl, rfl, rfl, rfl, rfl,
      hix, [(ix, a)], a, ?_, ?_, ha⟩, _, getElem?_append_length _ _, fun c' hc => ?_⟩
    · intro r hr
      unfold Obj.uses freshObj at hr
      dsimp only at hr
      rw [if_neg (isLagrangian_ne hk).1] at hr
      simp only [Bool.or_eq_true, beq_iff_eq, Dict.has_iff, Dict.get?_cons, Dict.get?_nil] at hr
      rcases hr with (⟨v, hv⟩ | hr) | hr
      · split_ifs at hv with h1
        exact Or.inl h1.symm
      · exact Or.inr hr.symm
      · exact Or.inl hr.symm
    · show Dict.get? [(G.c, _)] G.c = _
      rw [Dict.get?_cons, if_pos rfl]; rfl
    · rw [Dict.get?_cons, if_pos rfl]
    · show Dict.get? [(G.c, _)] c' = _
      rw [Dict.get?_cons, if_neg (Ne.symm hc)]; rfl

/-- Deleting temporary tensors does not touch the other objects. -/
theorem deleteFrom_untouched (fuel : Nat) : ∀ {w w' : World K} {e : Except PyErr Unit} (i : Nat),
    deleteFrom (hasName "TEMP") deleteObj fuel i w = (e, w') → ∀ (j : Nat) o, w.objs[j]? = some o → o.name ≠ "TEMP" →
      w'.objs[j]? = some o := by
  induction fuel with
  | zero => 
    intro w w' e i h j o hj hn
    cases h
    exact hj
  | succ fuel ih =>
    intro w w' e i h j o hj hn
    unfold deleteFrom at h
    rw [PyM.bind_apply] at h
    dsimp only [PyM.world] at h
    cases hi : w.instances[i]? with
    | none => rw [hi] at h; cases h; exact hj
    | some t =>
      rw [hi] at h
      dsimp only at h
      rw [PyM.bind_apply] at h
      rcases hg : getObj t w with ⟨_ | ot, w1⟩
      · rw [hg] at h
        have : w1 = w := by
          have := congrArg Prod.snd hg
          unfold getObj at this
          split at this <;> first | exact this.symm | (split at this <;> exact this.symm)
        cases h
        rw [this]; exact hj
      · obtain ⟨rfl, h2, h3⟩ := getObj_inv hg
        rw [hg] at h
        dsimp only at h
        rw [PyM.bind_apply] at h
        by_cases hn' : ot.name = "TEMP"
        · have hjt : j ≠ t := by
            rintro rfl
            rw [h2] at hj; cases hj
            exact hn hn'
          have hd : ∀ e' w2, deleteObj t w1 = (e', w2) → w2.objs[j]? = some o := by
            intro e' w2 hd
            unfold deleteObj at hd
            have hm : (w1.objs.modify t fun o => { o with alive := false })[j]? = some o := by
              rw [List.getElem?_modify]
              simp [show ¬ t = j from fun h => hjt h.symm, hj]
            split_ifs at hd
            · cases hd; exact hj
            · cases hd; exact hm
            · cases hd; exact hm
          have hsel : hasName "TEMP" ot = true := by simp [hasName, hn']
          rw [hsel] at h
          have : PyM.onlyIf true (deleteObj (K := K) t) w1 = deleteObj t w1 := rfl
          rw [this] at h
          rcases hdel : deleteObj t w1 with ⟨_ | u, w2⟩
          · rw [hdel] at h; cases h
            exact hd _ _ hdel
          · rw [hdel] at h
            exact ih (i + 1) h j o (hd _ _ hdel) hn
        · have hsel : hasName "TEMP" ot = false := by simp [hasName, hn']
          rw [hsel] at h
          exact ih (i + 1) h j o hj hn

theorem holds_untouched {w' : World K} {r : Id'} {kind : Kind} {name : String} {ix : List Int} {f : List Nat → K}
    (h : Holds G w r kind name ix f) (hn : name ≠ "TEMP")
    (hu : ∀ (j : Nat) o, w.objs[j]? = some o → o.name ≠ "TEMP" → w'.objs[j]? = some o) :
    Holds G w' r kind name ix f := by
  obtain ⟨o, h1, h2, h3, h4, h5⟩ := h
  exact ⟨o, hu _ _ h1 (by rw [h4]; exact hn), h2, h3, h4, h5⟩

/-- What is left by a function that stores a Lagrangian or geodesic equation. -/
def Curved (G : Ground K) (V : View K) (w : World K) (kind : Kind) (name : String) (ix : List Int) (f : List Nat → K)
    (r : Id') (w' : World K) : Prop :=
  ∃ V', Scene G V' w' ∧ V.Keeps V' ∧ Leaves (· = r) w w' ∧ w.objs.length ≤ r ∧ r ∈ w'.instances ∧
    Holds G w' r kind name ix f ∧ OnlyIn G w' r

/-- The end of these functions. -/
theorem does_storeCurve [DecidableEq K] [Algebra ℚ K] (hS : Scene G V w) {w1 : World K} {V1 : View K}
    (hS1 : Scene G V1 w1) (hk : V.Keeps V1)
    {ts : List Id'} (hts : ts = [] ∨ ∃ t D, ts = [t] ∧ New w w1 t ∧ V1 t = some D ∧ D.name ≠ "TEMP")
    (hL : Leaves (· ∈ ts) w w1) {kind : Kind} (hkind : kind.isLagrangian = true) {name : String} (hname : name ≠ "TEMP")
    (symbol : String) {a : Arr K} {ix : List Int} {f : List Nat → K} (ha : Agree G.n ix.length a f)
    (hix : Config ix.length ix) :
    Does (storeCurve kind name a G.m G.c ix symbol ts) w1 (Curved G V w kind name ix f) := by
  unfold storeCurve
  obtain ⟨on, w3, e1, e2, e3, e4, e5, e6⟩ := scene_newCurve hS1 hkind name symbol ha hix
  refine Does.bind (Q := fun t' w' => t' = w1.objs.length ∧ w' = w3) ⟨_, _, e1, rfl, rfl⟩ ?_
  rintro r w3' ⟨rfl, rfl⟩
  obtain ⟨u, w4, hdel, V4, k1, k2, k3⟩ := does_deletePass e2
  have hH4 : Holds G w4 w1.objs.length kind name ix f :=
    holds_untouched e5 hname (deleteFrom_untouched _ _ hdel)
  have hO4 : OnlyIn G w4 w1.objs.length := by
    obtain ⟨o, h1, h2⟩ := e6
    obtain ⟨o', k1, -, -, k4, -⟩ := e5
    rw [h1] at k1; cases k1
    exact ⟨o, deleteFrom_untouched _ _ hdel _ _ h1 (by rw [k4]; exact hname), h2⟩
  refine Does.bind (Q := fun _ w' => w4 = w') ⟨_, _, hdel, rfl⟩ ?_
  rintro _ _ rfl
  have hL4 : Leaves (fun i => i ∈ ts ∨ i = w1.objs.length) w w4 :=
    leaves_mono (leaves_trans hL (leaves_trans (leaves_append hS1.registry e3 e4) k3)) fun i _ _ h => by tauto
  have hlen : w.objs.length ≤ w1.objs.length := leaves_length hL
  have hin : w1.objs.length ∈ w4.instances := by
    obtain ⟨o, h1, -, -, h4, -⟩ := e5
    obtain ⟨o', f1, -, -, -, -, -, -, -, -, f2⟩ := k3.1 w1.objs.length o h1
    refine (f2 (by rw [h4]; exact hname)).2.2 ?_
    rw [e3]; simp
  have hkeep : V.Keeps V4 := keeps_trans hk k2
  rcases hts with rfl | ⟨t, D, rfl, hN, hD, hDn⟩
  · refine Does.step (a := ()) rfl (Does.pure ⟨V4, k1, hkeep, ?_, hlen, hin, hH4, hO4⟩)
    exact leaves_mono hL4 fun i _ _ h => h.elim (fun h => absurd h (by simp)) id
  · have hlt : t < w1.objs.length := view_lt hS1 hD
    have hrt : w1.objs.length ≠ t := fun hc => absurd hlt (by rw [hc]; exact lt_irrefl _)
    have hN4 : New w w4 t := by
      refine new_leaves hN (fun o ho => ?_) (leaves_trans (leaves_append hS1.registry e3 e4) k3)
      rw [scene_object_name hS1 hD ho]; exact hDn
    obtain ⟨n1, n2, ot, n3, n4⟩ := hN4
    obtain ⟨d1, d2⟩ := scene_delete k1 n2 n3 (by rcases n4 with h | h <;> rw [h] <;> decide)
      (by rcases n4 with h | h <;> rw [h] <;> decide)
    have hfor : [t].forM (m := PyM K) deleteObj w4 = (.ok (), afterDelete t w4) := by
      show (deleteObj t >>= fun _ => pure ()) w4 = _
      rw [PyM.bind_apply, d1]
      rfl
    refine Does.bind (Q := fun _ w' => w' = afterDelete t w4) ⟨_, _, hfor, rfl⟩ ?_
    rintro _ _ rfl
    refine Does.pure ⟨_, d2, ?_, ?_, hlen, ?_, ?_, ?_⟩
    · intro s Ds hs hsn
      unfold View.drop
      have hst : s ≠ t := fun hc => by
        have := view_lt hS hs
        rw [hc] at this
        exact absurd this (not_lt.2 n1)
      rw [if_neg hst]
      exact hkeep _ _ hs hsn
    · refine leaves_mono (leaves_deleteNew k1.registry hL4 n1) fun i _ _ h => ?_
      obtain ⟨h1, h2⟩ := h
      simpa [h2] using h1
    · show _ ∈ w4.instances.erase t
      rw [List.Nodup.mem_erase_iff k1.registry.nodup]
      exact ⟨hrt, hin⟩
    · obtain ⟨o, h1, h2⟩ := hH4
      exact ⟨o, (afterDelete_ne hrt).trans h1, h2⟩
    · obtain ⟨o, h1, h2⟩ := hO4
      exact ⟨o, (afterDelete_ne hrt).trans h1, h2⟩

/-- The computations that end with storing the value of a formula as a Lagrangian or geodesic equation. -/
theorem stores_curve [DecidableEq K] [Algebra ℚ K] (hE : ∀ x, E.simp x = x) (hS : Scene G V w) {V1 : View K} {w1 : World K}
    (hV : V.Extends V1) (hT : OnlyTemps w w1) (hS1 : Scene G V1 w1) {F : Id' → TField K} {f : Formula K}
    (hf : f.OK G V1 F) {ix : List Int} (hix : f.labels.map (posOf f.labels (f.mean E G F).ix) = ix)
    (hc : Config ix.length ix) {Dm : TField K} (hm : V G.m = some Dm) (hmn : Dm.name ≠ "TEMP") {tr : Arr K → Arr K}
    {g : List Nat → K} (htr : ∀ a h, Agree G.n ix.length a h → (∀ pos ρ, Positions pos → Values G.n ρ →
      f.labels.map pos = ix → h (f.labels.map ρ) = (f.mean E G F).value pos ρ) → Agree G.n ix.length (tr a) g)
    {kind : Kind} (hkind : kind.isLagrangian = true) (suffix symbol : String)
    (hsuf : ∀ s : String, s ++ suffix ≠ "TEMP") :
    Does (f.run E >>= fun x => do
      let t ← calcResult E x "Result" "" []
      let comps ← getComponents E t none none
      let om ← getObj G.m
      storeCurve kind (om.name ++ suffix) (tr comps) G.m G.c ix symbol [t]) w1
        (Curved G V w kind (Dm.name ++ suffix) ix g) := by
  refine stores_with hE hS hV hT hS1 hf (Or.inl rfl) (requested := f.labels) (by rw [if_pos rfl]) (ix := ix)
    fun t D2 w2 V2 k1 k2 k3 k4 k5 k6 k7 k8 k9 => ?_
  have hD : D2.ix = ix := k8.trans hix
  refine Does.bind (scene_getDefault hE k1 k5 k7) ?_
  rintro b w3 ⟨hS3, hF3, hb⟩
  obtain ⟨om, m1, m2⟩ := hS3.shows _ _ (k2 _ _ hm hmn)
  refine Does.step (getObj_ok m1 m2.alive) ?_
  rw [m2.name]
  have hfr := leaves_onlyTemps (new := fun _ => False) k1.registry (onlyTemps_frame hF3)
  have hL3 : Leaves (· = t) w w3 := leaves_mono (leaves_trans k3 hfr) fun i _ _ h => h.elim id False.elim
  refine does_storeCurve hS hS3 k2 (Or.inr ⟨t, D2, rfl, ?_, k5, by rw [k6]; decide⟩)
    (leaves_mono hL3 fun i _ _ h => by rw [List.mem_singleton]; exact h) hkind (hsuf _) symbol (htr b D2.val ?_ ?_) hc
  · refine new_leaves k4 (fun o ho => ?_) hfr
    rw [scene_object_name k1 k5 ho, k6]; decide
  · rw [← hD]; exact hb
  · intro pos ρ hp hρ hpi
    rw [← k9 pos ρ hp hρ hpi, ← hD]
    exact (comp_self (values_map hρ _) (by rw [hD, ← hpi]; simp)).symm

/-- The fields of a view. -/
def fieldsOf (V : View K) (D : TField K) (t : Id') : TField K := (V t).getD D

theorem fieldsOf_inView {ix : List Int} {f : List Nat → K} {D : TField K} (D0 : TField K) {t : Id'}
    (h : InView G V t ix f D) : InView G V t ix f (fieldsOf V D0 t) := by
  unfold fieldsOf; rw [h.view]; exact h

theorem inView_extends {V' : View K} (h : V.Extends V') {t : Id'} {ix : List Int} {f : List Nat → K} {D : TField K}
    (hD : InView G V t ix f D) : InView G V' t ix f D :=
  ⟨h _ _ hD.view, hD.coords, hD.cfg, hD.val⟩

/-- The vector of velocities as a temporary tensor. -/
theorem scene_vector (hS : Scene G V w) {l : List K} (hl : l.length = G.n) (symbol : String) :
    Does (newTemp (vectorOf l) G.m G.c [1] symbol) w fun t w' => ∃ V' D, Scene G V' w' ∧ V.Extends V' ∧ OnlyTemps w w' ∧
      InView G V' t [1] (fun J => l.getD (J.getD 0 0) 0) D := by
  refine Does.mono (scene_temp hS (ix := [1]) ?_ (by simp [vectorOf, hl]) ⟨rfl, by simp⟩ symbol) ?_
  · simp [Arr.WF, vectorOf]
  · rintro t w' ⟨V', h1, h2, h3, h4⟩
    refine ⟨V', _, h1, h2, h3, h4, rfl, rfl, fun J hJ hx => ?_⟩
    match J, hJ with
    | [j], _ => simp [vectorOf, Arr.get, ravel, List.getD_eq_getElem?_getD]

theorem agree_map {n r : Nat} {a : Arr K} {f g : List Nat → K} {h : K → K} (ha : Agree n r a f)
    (hg : ∀ J, J.length = r → (∀ x ∈ J, x < n) → h (f J) = g J) : Agree n r (a.map h) g := by
  refine ⟨Arr.wf_map _ _, ha.2.1, fun J h1 h2 => ?_⟩
  rw [Arr.get_map (by rw [ha.2.1]; exact valid_replicate.2 ⟨h1, h2⟩), ha.2.2 J h1 h2, hg J h1 h2]

theorem inView_ok {F : Id' → TField K} {t : Id'} {ix : List Int} {f : List Nat → K}
    (h : InView G V t ix f (F t)) {labels : List Sym} (hn : labels.Nodup)
    (hl : labels.length = ix.length) : (Formula.tensor t labels : Formula K).OK G V F :=
  ⟨h.view, h.coords, by rw [h.cfg]; exact hl, fun s => le_trans (List.nodup_iff_count_le_one.1 hn s) (by decide),
    Or.inl hn⟩

theorem getD_map_syms (hS : Scene G V w) (h : Sym → K) {i : Nat} (hi : i < G.n) :
    (G.syms.map h).getD i 0 = h (G.syms.getD i "") := by
  have : i < G.syms.length := by rw [hS.dim]; exact hi
  simp [List.getD_eq_getElem?_getD, this]

/-- The value of a vector with its index lowered. -/
theorem lowered_value {F : Id' → TField K} {t : Id'} {f : List Nat → K} (h : InView G V t [1] f (F t))
    {s : Sym} {pos : Sym → Int} (hp : pos s = -1) {ρ : Sym → Nat} (hρ : Values G.n ρ) :
    ((Formula.tensor t [s]).mean E G F).value pos ρ = ∑ k ∈ range G.n, G.g (ρ s) k * f [k] := by
  rw [tensor_value t (by simp)]
  show (F t).comp G [pos s] [ρ s] = _
  rw [hp, comp_first h.cfg rfl (by simp)]
  refine Finset.sum_congr rfl fun k hk => ?_
  rw [h.val [k] rfl (by simpa using hk)]
  rfl

theorem does_computeLagrangian [DecidableEq K] [Algebra ℚ K] (hE : ∀ x, E.simp x = x) (hS : Scene G V w) (C : Curves K)
    {Dm : TField K} (hm : V G.m = some Dm) (hmn : Dm.name ≠ "TEMP") :
    Does (computeLagrangian E C G.m G.c) w
      (Curved G V w .lagrangian (Dm.name ++ " Lagrangian") [] fun _ => lagrangian C G) := by
  obtain ⟨oc, c1, -, c3, c4⟩ := hS.chart
  unfold computeLagrangian
  refine Does.step (getObj_ok c1 c3) ?_
  rw [c4]
  refine Does.bind (scene_vector hS (by simp [hS.dim]) "T") ?_
  rintro v w1 ⟨V1, D, h1, h2, h3, h4⟩
  have h5 := fieldsOf_inView Dm h4
  have hok : (Formula.mul (.tensor v ["mu"]) (.tensor v ["mu"]) : Formula K).OK G V1 (fieldsOf V1 Dm) :=
    ⟨inView_ok h5 (by decide) rfl, inView_ok h5 (by decide) rfl⟩
  have main := stores_curve hE hS h2 h3 h1 hok (ix := []) rfl ⟨rfl, by simp⟩ hm hmn (tr := id)
    (g := fun _ => lagrangian C G) ?_ (kind := .lagrangian) rfl " Lagrangian" "L" (suffix_ne (by decide))
  · simp only [Formula.run, Formula.runWith, pyM_bind_assoc] at main
    simp only [productOf, pyM_bind_assoc]
    exact main
  · intro a h ha hh
    refine agree_congr ha fun J hJ _ => ?_
    rw [List.length_eq_zero_iff.1 hJ]
    have := hh (fun _ => 1) (fun _ => 0) (fun _ => Or.inl rfl) (fun _ => hS.pos) rfl
    rw [show h [] = _ from this]
    show sumOver G.n ["mu"] (fun ρ' => ((Formula.tensor v ["mu"]).mean E G (fieldsOf V1 Dm)).value (fun _ => 1) ρ' *
      ((Formula.tensor v ["mu"]).mean E G (fieldsOf V1 Dm)).value (turned ["mu"] fun _ => 1) ρ') (fun _ => 0) = _
    simp only [sumOver]
    unfold lagrangian
    refine Finset.sum_congr rfl fun k hk => ?_
    have hρ' : Values G.n (Function.update (fun _ => 0) "mu" k) := values_update (fun _ => hS.pos) _ (Finset.mem_range.1 hk)
    rw [field_value h5 (by decide) hρ' rfl, lowered_value h5 (by decide) hρ', Finset.mul_sum]
    refine Finset.sum_congr rfl fun l hl => ?_
    simp only [List.map_cons, List.map_nil, Function.update_self, List.getD_cons_zero]
    rw [getD_map_syms hS _ (Finset.mem_range.1 hk), getD_map_syms hS _ (Finset.mem_range.1 hl)]
    unfold Ground.speed
    ring

theorem isCoordinates_chart (hS : Scene G V w) : isCoordinates G.c w = (.ok true, w) := by
  obtain ⟨oc, c1, c2, -, -⟩ := hS.chart
  unfold isCoordinates
  simp [PyM.bind_apply, PyM.world, c1, c2]

/-- The components of a Lagrangian or geodesic equation in its own coordinates and configuration. -/
theorem holds_components (hS : Scene G V w) {r : Id'} {kind : Kind} {name : String} {ix : List Int} {f : List Nat → K}
    (h : Holds G w r kind name ix f) {coords : Option Id'} (hc : coords = none ∨ coords = some G.c)
    {ixo : Option (List Int)} (hi : ixo = none ∨ ixo = some ix) :
    ∃ a, curveComponents E C r coords ixo w = (.ok a, w) ∧
      Agree G.n ix.length a fun J => C.asFunctions (curveParameter C kind G.syms) G.syms (f J) := by
  obtain ⟨o, h1, h2, h3, h4, h5, h6, h7, h8, d, a, h9, h10, h11⟩ := h
  obtain ⟨oc, c1, c2, c3, c4⟩ := hS.chart
  have e1 : coords.getD o.coords = G.c := by rcases hc with rfl | rfl; exact h6; rfl
  have e2 : ixo.getD o.indices = ix := by rcases hi with rfl | rfl; exact h7; rfl
  have hrep : curveRepresentation E C r G.c ix w = (.ok a, w) := by
    unfold curveRepresentation
    refine PyM.then_ok (isCoordinates_chart hS) ?_
    refine PyM.then_ok (getObj_ok h1 h2) ?_
    rw [h7, validateIndices_config h8 rfl]
    refine PyM.then_ok (a := ()) rfl ?_
    have hcheck : tensorCheck E r G.c ix w = (.ok true, w) := by
      unfold tensorCheck
      refine PyM.then_ok (getObj_ok h1 h2) ?_
      rw [h9]
      have : d.has ix = true := (Dict.has_iff _ _).2 ⟨a, h10⟩
      simp [this, PyM.onlyIf]
      rfl
    refine PyM.then_ok hcheck ?_
    refine PyM.then_ok (a := ()) rfl ?_
    unfold readComps
    refine PyM.then_ok (getObj_ok h1 h2) ?_
    simp [lookup, h9, h10, PyM.bind_apply]
  refine ⟨_, ?_, agree_map h11 fun _ _ _ => rfl⟩
  unfold curveComponents
  refine PyM.then_ok (getObj_ok h1 h2) ?_
  rw [e1, e2]
  refine PyM.then_ok hrep ?_
  refine PyM.then_ok (getObj_ok c1 c3) ?_
  rw [c4, h3]
  rfl

/-- The first registered object of these classes with this name. -/
def Finds (w : World K) (sel : Kind → Bool) (name : String) (r : Id') : Prop :=
  (w.instances.find? fun i => (w.objs[i]?).any fun o => sel o.kind && o.name == name) = some r

theorem does_unlessCurve (hS : Scene G V w) {sel : Kind → Bool} {kind : Kind} {name : String} {ix : List Int}
    {f : List Nat → K} (hN : NamesCurve G w sel kind name ix f) {m : PyM K Id'} {Q : Id' → World K → Prop}
    (hfound : ∀ t ∈ w.instances, Holds G w t kind name ix f → Finds w sel name t → Q t w)
    (hm : Unnamed w sel name → Does m w Q) :
    Does (unlessCurve E C sel name G.c m) w Q := by
  unfold unlessCurve
  refine Does.step (a := w) rfl ?_
  cases hf : w.instances.find? fun i => (w.objs[i]?).any fun o => sel o.kind && o.name == name with
  | none =>
    refine hm fun i hi o ho hs hn => ?_
    have := List.find?_eq_none.1 hf i hi
    simp [ho, hs, hn] at this
  | some t =>
    have ht := List.mem_of_find?_eq_some hf
    have hp := List.find?_some hf
    rw [Option.any_eq_true] at hp
    obtain ⟨o, ho, hp⟩ := hp
    simp only [Bool.and_eq_true, beq_iff_eq] at hp
    have hH := hN t ht o ho hp.1 hp.2
    obtain ⟨o', h1, h2, h3, h4, h5, h6, -⟩ := id hH
    refine Does.step (getObj_ok h1 h2) ?_
    rw [h6]
    refine Does.step (a := ()) (by simp [PyM.onlyIf]; rfl) ?_
    exact Does.pure (hfound t ht hH hf)

theorem unlessCurve_again {sel : Kind → Bool} {kind : Kind} {name : String} {ix : List Int} {f : List Nat → K}
    {r : Id'} (hf : Finds w sel name r) (hH : Holds G w r kind name ix f) (m : PyM K Id') :
    Does (unlessCurve E C sel name G.c m) w fun r' w' => r' = r ∧ w' = w := by
  obtain ⟨o', h1, h2, h3, h4, h5, h6, -⟩ := id hH
  unfold unlessCurve
  refine Does.step (a := w) rfl ?_
  rw [show w.instances.find? _ = some r from hf]
  refine Does.step (getObj_ok h1 h2) ?_
  rw [h6]
  exact Does.step (a := ()) (by simp [PyM.onlyIf]; rfl) (Does.pure ⟨rfl, rfl⟩)

theorem unnamed_leaves {new : Id' → Prop} {w' : World K} (hL : Leaves new w w') {sel : Kind → Bool} {name : String}
    (hn : name ≠ "TEMP") (hnew : ∀ i, new i → ∀ o, w'.objs[i]? = some o → sel o.kind = true → o.name ≠ name)
    (hU : Unnamed w sel name) : Unnamed w' sel name := by
  intro i hi oi hoi hsel hname
  rcases lt_or_ge i w.objs.length with hlt | hge
  · obtain ⟨oo, ho⟩ : ∃ o, w.objs[i]? = some o := ⟨_, List.getElem?_eq_getElem hlt⟩
    obtain ⟨o1, e1, e2, e3, -, -, -, -, -, -, e4⟩ := hL.1 i oo ho
    rw [hoi] at e1; cases e1
    exact hU i ((e4 (by rw [← e3, hname]; exact hn)).2.1 hi) oo ho (by rw [← e2]; exact hsel) (e3.symm.trans hname)
  · rcases hL.2 i hi hge with h | ⟨o', f1, f2⟩
    · exact hnew i h oi hoi hsel hname
    · rw [hoi] at f1; cases f1
      exact hn (hname.symm.trans f2)

/-- The new object is the only one of its name. -/
theorem finds_curved {V' : View K} {kind : Kind} {name : String} {ix : List Int} {f : List Nat → K} {r : Id'}
    {w' : World K} {sel : Kind → Bool} (hs : sel kind = true) (hn : name ≠ "TEMP") (hU : Unnamed w sel name)
    (h3 : Leaves (· = r) w w') (h4 : r ∈ w'.instances) (hS' : Scene G V' w')
    (hH : Holds G w' r kind name ix f) : Finds w' sel name r := by
  obtain ⟨o, k1, k2, k3, k4, -⟩ := hH
  have hp : ((w'.objs[r]?).any fun o => sel o.kind && o.name == name) = true := by simp [k1, k3, k4, hs]
  unfold Finds
  rcases hf : w'.instances.find? fun i => (w'.objs[i]?).any fun o => sel o.kind && o.name == name with _ | t
  · exact absurd hp (by simpa using List.find?_eq_none.1 hf r h4)
  · have ht := List.mem_of_find?_eq_some hf
    have hp' := List.find?_some hf
    rw [Option.any_eq_true] at hp'
    obtain ⟨ot, ho, hp'⟩ := hp'
    simp only [Bool.and_eq_true, beq_iff_eq] at hp'
    rcases lt_or_ge t w.objs.length with hlt | hge
    · obtain ⟨oo, ho'⟩ : ∃ o, w.objs[t]? = some o := ⟨_, List.getElem?_eq_getElem hlt⟩
      obtain ⟨o1, e1, e2, e3, -, -, -, -, -, -, e4⟩ := h3.1 t oo ho'
      rw [ho] at e1; cases e1
      exact absurd (e3.symm.trans hp'.2)
        (hU t ((e4 (by rw [← e3, hp'.2]; exact hn)).2.1 ht) oo ho' (by rw [← e2]; exact hp'.1))
    · rcases h3.2 t ht hge with rfl | ⟨o', f1, f2⟩
      · exact hf
      · rw [ho] at f1; cases f1
        exact absurd (hp'.2.symm.trans f2) hn

/-- The start of these functions. -/
theorem does_curve_start {α : Type} (hS : Scene G V w) {Dm : TField K} (hm : V G.m = some Dm) {coords : Option Id'}
    (hc : coords = some G.c ∨ coords = none ∧ Dm.coords = G.c) {k : String → Id' → PyM K α}
    {Q : α → World K → Prop} (h : Does (k Dm.name G.c) w Q) :
    Does (do
      requireMetric G.m
      requireCoords coords
      let om ← getObj G.m
      k om.name (coords.getD om.coords)) w Q := by
  obtain ⟨om, m1, m2⟩ := hS.shows _ _ hm
  obtain ⟨D, o, h1, h2, h3, -⟩ := hS.metric
  rw [m1] at h2; cases h2
  have hr : requireMetric G.m w = (.ok (), w) := by
    have : isMetric G.m w = (.ok true, w) := by
      unfold isMetric
      simp [PyM.bind_apply, PyM.world, m1, h3]
    unfold requireMetric
    rw [PyM.bind_apply, this]
    rfl
  refine Does.step (a := ()) hr (Does.step (a := ()) ?_ (Does.step (getObj_ok m1 m2.alive) ?_))
  · unfold requireCoords
    rcases hc with rfl | ⟨rfl, -⟩
    · rw [PyM.bind_apply, show Option.elim (some G.c) (pure true) isCoordinates w = (.ok true, w) from
        isCoordinates_chart hS]
      rfl
    · rfl
  · have : coords.getD om.coords = G.c := by
      rcases hc with rfl | ⟨rfl, h⟩
      · rfl
      · exact m2.coords.trans h
    rw [m2.name, this]
    exact h

section
variable [DecidableEq K] [Algebra ℚ K]

/-- What is left by these functions: besides the result, only a Lagrangian and Christoffel symbols of the same metric
may be new. -/
def Gives (E : Engine K) (G : Ground K) (V : View K) (w : World K) (base : String) (sel : Kind → Bool) (kind : Kind)
    (name : String) (ix : List Int) (f : List Nat → K) (r : Id') (w' : World K) : Prop :=
  ∃ V', Scene G V' w' ∧ V.Keeps V' ∧ Leaves (fun i => i = r ∨ Related base w' i) w w' ∧ NamesOK E G V' w' base ∧
    r ∈ w'.instances ∧ Holds G w' r kind name ix f ∧ Finds w' sel name r

theorem given_found {base name : String} {sel : Kind → Bool} {kind : Kind} {ix : List Int} {f : List Nat → K}
    (hS : Scene G V w) (hc : NamesOK E G V w base) {r : Id'} (hr : r ∈ w.instances) (h : Holds G w r kind name ix f)
    (hf : Finds w sel name r) : Gives E G V w base sel kind name ix f r w :=
  ⟨V, hS, keeps_refl V, leaves_refl _ hS.registry, hc, hr, h, hf⟩

theorem related_leaves {base : String} {w' : World K} {new : Id' → Prop} (hL : Leaves new w w') {i : Id'}
    (h : Related base w i) : Related base w' i := by
  rcases h with ⟨o, h1, h2⟩ | h
  · obtain ⟨o', e1, -, e3, -⟩ := hL.1 i o h1
    exact Or.inl ⟨o', e1, by rw [e3]; exact h2⟩
  · exact Or.inr (derived_leaves hL h)

theorem given_curved {base name : String} {sel : Kind → Bool} {kind : Kind} (hs : sel kind = true) {ix : List Int}
    {f : List Nat → K} {V1 : View K} {w1 : World K}
    (hS1 : Scene G V1 w1) (hk : V.Keeps V1) (hL : Leaves (Related base w1) w w1)
    (hc : NamesOK E G V1 w1 base) (ht : name ≠ "TEMP") (hn : ∀ q : Quantity, name ≠ base ++ q.suffix)
    (hU : Unnamed w1 sel name) {r : Id'} {w' : World K}
    (h : Curved G V1 w1 kind name ix f r w') : Gives E G V w base sel kind name ix f r w' := by
  obtain ⟨V', h1, h2, h3, h4, h5, h6, -⟩ := h
  refine ⟨V', h1, keeps_trans hk h2, leaves_mono (leaves_trans hL h3) fun i _ _ hi => ?_,
    namesOK_leaves hS1 hc h2 h3 fun i _ _ hi o ho q hq => ?_, h5, h6, finds_curved hs ht hU h3 h5 h1 h6⟩
  · rcases hi with hi | hi
    · exact Or.inr (related_leaves h3 hi)
    · exact Or.inl hi
  · obtain ⟨o', k1, -, -, k4, -⟩ := h6
    rw [hi, k1] at ho
    cases ho
    exact absurd (k4.symm.trans hq) (hn q)

theorem related_unnamed {base name : String} {w' : World K} {sel : Kind → Bool} (hl : name ≠ base ++ " Lagrangian")
    (hq : ∀ q : Quantity, name ≠ base ++ q.suffix) (hL : Leaves (Related base w') w w') (ht : name ≠ "TEMP")
    (hU : Unnamed w sel name) : Unnamed w' sel name := by
  refine unnamed_leaves hL ht (fun i hi o ho _ hname => ?_) hU
  rcases hi with ⟨o', f1, f2⟩ | ⟨o', f1, q, -, f2⟩
  · rw [ho] at f1; cases f1
    exact hl (hname.symm.trans f2)
  · rw [ho] at f1; cases f1
    exact hq q (hname.symm.trans f2)

theorem suffix_not_quantity {suffix : String} (h : ∀ q : Quantity, suffix ≠ q.suffix) (base : String) (q : Quantity) :
    base ++ suffix ≠ base ++ q.suffix := fun hc => h q (append_cancel hc)

theorem given_lagrangian (hE : ∀ x, E.simp x = x) (hS : Scene G V w) (C : Curves K)
    {Dm : TField K} (hm : V G.m = some Dm) (hmn : Dm.name ≠ "TEMP") (hc : NamesOK E G V w Dm.name) {coords : Option Id'}
    (hco : coords = some G.c ∨ coords = none ∧ Dm.coords = G.c)
    (hN : NamesCurve G w Kind.isLagrangian .lagrangian (Dm.name ++ " Lagrangian") [] fun _ => lagrangian C G) :
    Does (calcLagrangian E C G.m coords) w
      (Gives E G V w Dm.name Kind.isLagrangian .lagrangian (Dm.name ++ " Lagrangian") [] fun _ => lagrangian C G) := by
  unfold calcLagrangian
  refine does_curve_start (k := fun n c => unlessCurve E C Kind.isLagrangian (n ++ " Lagrangian") c
    (computeLagrangian E C G.m c)) hS hm hco (does_unlessCurve hS hN (fun t ht hH hf => given_found hS hc ht hH hf) fun hU => ?_)
  refine Does.mono (does_computeLagrangian hE hS C hm hmn) fun r w' h => ?_
  exact given_curved rfl hS (keeps_refl V) (leaves_refl _ hS.registry) hc (suffix_ne (by decide) _)
    (suffix_not_quantity (by intro q; cases q <;> decide) _) hU h

theorem given_geodesicLagrangian (hE : ∀ x, E.simp x = x) (hS : Scene G V w) (hC : Calculus E)
    (hO : CurvesOK E C G.syms) (hP : ProperNames C G.syms) (hT : Static E C G)
    {Dm : TField K} (hm : V G.m = some Dm) (hmn : Dm.name ≠ "TEMP") (hc : NamesOK E G V w Dm.name) {coords : Option Id'}
    (hco : coords = some G.c ∨ coords = none ∧ Dm.coords = G.c)
    (hN : NamesCurve G w Kind.isLagrangian .lagrangian (Dm.name ++ " Lagrangian") [] fun _ => lagrangian C G)
    (hN' : NamesCurve G w (· == .geodesicLagrangian) .geodesicLagrangian (Dm.name ++ " Geodesic From Lagrangian") [1]
      fun J => C.clear (∑ j ∈ range G.n, G.g (J.getD 0 0) j * geodesic E C G j)) :
    Does (calcGeodesicLagrangian E C G.m coords) w
      (Gives E G V w Dm.name (· == .geodesicLagrangian) .geodesicLagrangian (Dm.name ++ " Geodesic From Lagrangian") [1]
        fun J => C.clear (∑ j ∈ range G.n, G.g (J.getD 0 0) j * geodesic E C G j)) := by
  unfold calcGeodesicLagrangian
  refine does_curve_start (k := fun n c => unlessCurve E C (· == .geodesicLagrangian) (n ++ " Geodesic From Lagrangian") c
    (computeGeodesicLagrangian E C G.m c)) hS hm hco (does_unlessCurve hS hN'
      (fun t ht hH hf => given_found hS hc ht hH hf) fun hU => ?_)
  unfold computeGeodesicLagrangian
  refine Does.bind (given_lagrangian hE hS C hm hmn hc (Or.inl rfl) hN) ?_
  rintro l w1 ⟨V1, h1, h2, h3, h4, h5, h6, -⟩
  obtain ⟨a, e1, e2⟩ := holds_components (E := E) (C := C) h1 h6 (Or.inr rfl) (Or.inl rfl)
  refine Does.step e1 ?_
  obtain ⟨oc, c1, -, c3, c4⟩ := h1.chart
  refine Does.step (getObj_ok c1 c3) ?_
  obtain ⟨om, m1, m2⟩ := h1.shows _ _ (h2 _ _ hm hmn)
  refine Does.step (getObj_ok m1 m2.alive) ?_
  rw [m2.name, c4, e2.2.2 [] rfl (by simp)]
  have hL : Leaves (Related Dm.name w1) w w1 := leaves_mono h3 fun i _ _ hi => by
    rcases hi with rfl | hi
    · obtain ⟨o, k1, -, -, k4, -⟩ := h6
      exact Or.inl ⟨o, k1, k4⟩
    · exact hi
  refine Does.mono (does_storeCurve h1 h1 (keeps_refl V1) (Or.inl rfl) (leaves_refl _ h1.registry)
    (kind := .geodesicLagrangian) rfl (suffix_ne (by decide) _) "0" (ix := [1]) (f := fun J =>
      C.clear (∑ j ∈ range G.n, G.g (J.getD 0 0) j * geodesic E C G j)) ?_ ⟨rfl, by simp⟩) fun r w' h =>
    given_curved rfl h1 h2 hL h4 (suffix_ne (by decide) _) (suffix_not_quantity (by intro q; cases q <;> decide) _)
      (related_unnamed (fun hc => absurd (append_cancel hc) (by decide))
        (suffix_not_quantity (by intro q; cases q <;> decide) _) hL (suffix_ne (by decide) _) hU) h
  refine ⟨by simp [Arr.WF, vectorOf], by simp [vectorOf, eulerLagrange, hS.dim], fun J hJ hx => ?_⟩
  match J, hJ with
  | [j], _ =>
    have hj : j < G.n := hx j (by simp)
    have := eulerLagrange_value hC hS.inverse hS.symm hS.dim hO hP hT hj
    simp only [vectorOf, Arr.get, ravel, List.getD_cons_zero, List.prod_nil, mul_one, add_zero]
    rw [← this, List.getD_eq_getElem?_getD, List.getElem?_map, List.getD_eq_getElem?_getD]
    have hlt : j < (eulerLagrange C G.syms (C.asFunctions C.parameter G.syms (lagrangian C G))).length := by
      simpa [eulerLagrange, hS.dim] using hj
    rw [show C.asFunctions (curveParameter C .lagrangian G.syms) G.syms (lagrangian C G) =
      C.asFunctions C.parameter G.syms (lagrangian C G) from rfl, List.getElem?_eq_getElem hlt]
    simp [hE]

/-- The positions of the labels in the geodesic equation. -/
def geodesicPos (s : Sym) : Int := if s = "sigma" then 1 else -1

theorem geodesicPos_ok : Positions geodesicPos := fun s => by
  unfold geodesicPos
  by_cases h : s = "sigma" <;> simp [h]

theorem does_computeGeodesicChristoffel (hE : ∀ x, E.simp x = x) (hS : Scene G V w) (C : Curves K) {Dm : TField K}
    (hm : LowerMetric G V Dm) (hc : NamesOK E G V w Dm.name)
    (hU : Unnamed w (· == .geodesicChristoffel) (Dm.name ++ " Geodesic From Christoffel")) :
    Does (computeGeodesicChristoffel E C G.m G.c) w
      (Gives E G V w Dm.name (· == .geodesicChristoffel) .geodesicChristoffel (Dm.name ++ " Geodesic From Christoffel") [1]
        fun J => C.clear (geodesic E C G (J.getD 0 0))) := by
  obtain ⟨oc, c1, -, c3, c4⟩ := hS.chart
  unfold computeGeodesicChristoffel
  refine Does.step (getObj_ok c1 c3) ?_
  refine Does.bind (provides_christoffel hE hS hm hc) ?_
  rintro g w1 ⟨V1, Dg, h1, h2, h3, h4, -, -, h5⟩
  rw [c4]
  refine Does.bind (scene_vector h1 (by simp [hS.dim]) "T") ?_
  rintro v w2 ⟨V2, Dv, i1, i2, i3, i4⟩
  refine Does.bind (scene_vector i1 (by simp [hS.dim]) "T") ?_
  rintro a w3 ⟨V3, Da, j1, j2, j3, j4⟩
  have hm1 := lowerMetric_keeps hm h2
  have hg := fieldsOf_inView Dm (inView_extends j2 (inView_extends i2 h5))
  have hv := fieldsOf_inView Dm (inView_extends j2 i4)
  have ha := fieldsOf_inView Dm j4
  set F := fieldsOf V3 Dm with hF
  have hok : (Formula.add (.tensor a ["sigma"]) (.mul (.mul (.tensor g ["sigma", "mu", "nu"]) (.tensor v ["mu"]))
      (.tensor v ["nu"])) : Formula K).OK G V3 F := by
    refine ⟨inView_ok ha (by decide) rfl, ⟨⟨inView_ok hg (by decide) rfl, inView_ok hv (by decide) rfl⟩,
      inView_ok hv (by decide) rfl⟩, ?_⟩
    show List.Perm ["sigma"] ["sigma"]
    rfl
  have main := stores_curve hE h1 (fun t D h => j2 _ _ (i2 _ _ h)) (onlyTemps_trans i3 j3) j1 hok (ix := [1]) ?_
    ⟨rfl, by simp⟩ hm1.view hm1.name (tr := fun b => (b.map C.clear).map E.simp)
    (g := fun J => C.clear (geodesic E C G (J.getD 0 0))) ?_ (kind := .geodesicChristoffel) rfl
    " Geodesic From Christoffel" "0" (suffix_ne (by decide))
  · simp only [Formula.run, Formula.runWith, pyM_bind_assoc] at main
    simp only [productOf, pyM_bind_assoc]
    refine Does.mono main fun r w' h => ?_
    have hL := leaves_mono h3 (new' := Related Dm.name w1) fun i _ _ h => Or.inr h
    exact given_curved rfl h1 h2 hL h4 (suffix_ne (by decide) _) (suffix_not_quantity (by intro q; cases q <;> decide) _)
      (related_unnamed (fun hc => absurd (append_cancel hc) (by decide))
        (suffix_not_quantity (by intro q; cases q <;> decide) _) hL (suffix_ne (by decide) _) hU) h
  · show ["sigma"].map (posOf ["sigma"] ((Formula.tensor a ["sigma"]).mean E G F).ix) = [1]
    rw [tensor_ix (by decide) (by rw [ha.cfg]; rfl), ha.cfg]
    rfl
  · intro b h hb hh
    refine agree_map (agree_map hb (g := fun J => C.clear (geodesic E C G (J.getD 0 0))) fun J hJ hx => ?_)
      fun J _ _ => hE _
    congr 1
    obtain ⟨ρ, hρ, hρv⟩ := exists_env hS.pos (labels := ["sigma"]) (by decide) (J := J) hJ hx
    rw [← hρv]
    have := hh geodesicPos ρ geodesicPos_ok hρ rfl
    rw [show h (["sigma"].map ρ) = _ from this]
    show ((Formula.tensor a ["sigma"]).mean E G F).value geodesicPos ρ + sumOver G.n ["nu"] (fun ρ' =>
      sumOver G.n ["mu"] (fun ρ'' => ((Formula.tensor g ["sigma", "mu", "nu"]).mean E G F).value geodesicPos ρ'' *
        ((Formula.tensor v ["mu"]).mean E G F).value (turned ["mu"] geodesicPos) ρ'') ρ' *
        ((Formula.tensor v ["nu"]).mean E G F).value (turned ["nu"] geodesicPos) ρ') ρ = _
    rw [field_value ha (by decide) hρ (by decide)]
    simp only [sumOver]
    unfold geodesic
    have hσ : ρ "sigma" < G.n := hρ _
    congr 1
    · simp only [List.map_cons, List.map_nil, List.getD_cons_zero]
      rw [getD_map_syms hS _ hσ]
      rfl
    · rw [Finset.sum_comm]
      refine Finset.sum_congr rfl fun n hn => ?_
      have hρ1 : Values G.n (Function.update ρ "nu" n) := values_update hρ _ (Finset.mem_range.1 hn)
      rw [field_value hv (by decide) hρ1 (by decide), Finset.sum_mul]
      refine Finset.sum_congr rfl fun m hm' => ?_
      have hρ2 : Values G.n (Function.update (Function.update ρ "nu" n) "mu" m) :=
        values_update hρ1 _ (Finset.mem_range.1 hm')
      rw [field_value hv (by decide) hρ2 (by decide), field_value hg (by decide) hρ2 (by decide)]
      simp only [List.map_cons, List.map_nil, List.getD_cons_zero, Quantity.comps, christoffelComps, List.getD_cons_succ,
        Function.update_self, ne_eq, String.reduceEq, not_false_eq_true, Function.update_of_ne]
      rw [getD_map_syms hS _ (Finset.mem_range.1 hn), getD_map_syms hS _ (Finset.mem_range.1 hm')]
      rfl

theorem given_geodesicChristoffel (hE : ∀ x, E.simp x = x) (hS : Scene G V w) (C : Curves K) {Dm : TField K}
    (hm : LowerMetric G V Dm) (hc : NamesOK E G V w Dm.name) {coords : Option Id'}
    (hco : coords = some G.c ∨ coords = none)
    (hN : NamesCurve G w (· == .geodesicChristoffel) .geodesicChristoffel (Dm.name ++ " Geodesic From Christoffel") [1]
      fun J => C.clear (geodesic E C G (J.getD 0 0))) :
    Does (calcGeodesicChristoffel E C G.m coords) w
      (Gives E G V w Dm.name (· == .geodesicChristoffel) .geodesicChristoffel (Dm.name ++ " Geodesic From Christoffel") [1]
        fun J => C.clear (geodesic E C G (J.getD 0 0))) := by
  unfold calcGeodesicChristoffel
  exact does_curve_start (k := fun n c => unlessCurve E C (· == .geodesicChristoffel)
    (n ++ " Geodesic From Christoffel") c (computeGeodesicChristoffel E C G.m c)) hS hm.view
    (hco.imp id fun h => ⟨h, hm.coords⟩)
    (does_unlessCurve hS hN (fun t ht hH hf => given_found hS hc ht hH hf) fun hU =>
      does_computeGeodesicChristoffel hE hS C hm hc hU)

theorem getD_zipIdx_syms (hS : Scene G V w) (h : Sym × Nat → K) {i : Nat} (hi : i < G.n) :
    (G.syms.zipIdx.map h).getD i 0 = h (G.syms.getD i "", i) := by
  have : i < G.syms.length := by rw [hS.dim]; exact hi
  simp [List.getD_eq_getElem?_getD, this]

theorem computesTime (hE : ∀ x, E.simp x = x) (hS : Scene G V w) (C : Curves K) {Dm : TField K}
    (hU : Unnamed w (· == .geodesicTime) (Dm.name ++ " Geodesic With Time Parameter"))
    {V1 V5 : View K} {w1 w5 : World K} (h1 : Scene G V1 w1) (h2 : V.Keeps V1) (h3 : Leaves (Derived Dm.name w1) w w1)
    (h4 : NamesOK E G V1 w1 Dm.name) (hm1 : LowerMetric G V1 Dm) (hV : V1.Extends V5) (hT : OnlyTemps w1 w5)
    (hS5 : Scene G V5 w5) {g v a g0 : Id'}
    (hg : InView G V5 g [1, -1, -1] (christoffelComps E G) (fieldsOf V5 Dm g))
    (hv : InView G V5 v [1] (fun J => (G.syms.zipIdx.map fun s => if s.2 ≠ 0 then C.var (dot s.1) else 1).getD
      (J.getD 0 0) 0) (fieldsOf V5 Dm v))
    (ha : InView G V5 a [1] (fun J => (G.syms.zipIdx.map fun s => if s.2 ≠ 0 then C.var (ddot s.1) else 0).getD
      (J.getD 0 0) 0) (fieldsOf V5 Dm a))
    (hz : InView G V5 g0 [-1, -1] (fun J => christoffel E G 0 (J.getD 0 0) (J.getD 1 0)) (fieldsOf V5 Dm g0)) :
    Does (do
      let x ← calcInit E a ["sigma"]
      let y ← calcInit E g ["sigma", "mu", "nu"]
      let z ← productOf E g0 ["mu", "nu"] v ["sigma"]
      let y ← calcSub E y (.obj z)
      let z ← calcInit E v ["mu"]
      let y ← matmulTensors E y z
      let z ← calcInit E v ["nu"]
      let y ← matmulTensors E y z
      let x ← calcAddObj E x y
      let t ← calcResult E x "Result" "" []
      let comps ← getComponents E t none none
      let om ← getObj G.m
      storeCurve .geodesicTime (om.name ++ " Geodesic With Time Parameter") ((comps.map C.clear).map E.simp) G.m G.c [1]
        "0" [t]) w5 (Gives E G V w Dm.name (· == .geodesicTime) .geodesicTime (Dm.name ++ " Geodesic With Time Parameter") [1]
        fun J => C.clear (geodesicT E C G (J.getD 0 0))) := by
  set F := fieldsOf V5 Dm with hF
  have hok : (Formula.add (.tensor a ["sigma"]) (.mul (.mul (.sub (.tensor g ["sigma", "mu", "nu"])
      (.mul (.tensor g0 ["mu", "nu"]) (.tensor v ["sigma"]))) (.tensor v ["mu"]))
      (.tensor v ["nu"])) : Formula K).OK G V5 F := by
    refine ⟨inView_ok ha (by decide) rfl, ⟨⟨⟨inView_ok hg (by decide) rfl,
      ⟨inView_ok hz (by decide) rfl, inView_ok hv (by decide) rfl⟩, ?_⟩, inView_ok hv (by decide) rfl⟩,
      inView_ok hv (by decide) rfl⟩, ?_⟩
    · show List.Perm ["mu", "nu", "sigma"] ["sigma", "mu", "nu"]
      decide
    · show List.Perm ["sigma"] ["sigma"]
      rfl
  have main := stores_curve hE h1 hV hT hS5 hok (ix := [1]) ?_
    ⟨rfl, by simp⟩ hm1.view hm1.name (tr := fun b => (b.map C.clear).map E.simp)
    (g := fun J => C.clear (geodesicT E C G (J.getD 0 0))) ?_ (kind := .geodesicTime) rfl
    " Geodesic With Time Parameter" "0" (suffix_ne (by decide))
  · simp only [Formula.run, Formula.runWith, pyM_bind_assoc] at main
    simp only [productOf, pyM_bind_assoc]
    refine Does.mono main fun r w' h => ?_
    have hL := leaves_mono h3 (new' := Related Dm.name w1) fun i _ _ h => Or.inr h
    exact given_curved rfl h1 h2 hL h4 (suffix_ne (by decide) _) (suffix_not_quantity (by intro q; cases q <;> decide) _)
      (related_unnamed (fun hc => absurd (append_cancel hc) (by decide))
        (suffix_not_quantity (by intro q; cases q <;> decide) _) hL (suffix_ne (by decide) _) hU) h
  · show ["sigma"].map (posOf ["sigma"] ((Formula.tensor a ["sigma"]).mean E G F).ix) = [1]
    rw [tensor_ix (by decide) (by rw [ha.cfg]; rfl), ha.cfg]
    rfl
  · intro b h hb hh
    refine agree_map (agree_map hb (g := fun J => C.clear (geodesicT E C G (J.getD 0 0))) fun J hJ hx => ?_)
      fun J _ _ => hE _
    congr 1
    obtain ⟨ρ, hρ, hρv⟩ := exists_env hS.pos (labels := ["sigma"]) (by decide) (J := J) hJ hx
    rw [← hρv]
    have := hh geodesicPos ρ geodesicPos_ok hρ rfl
    rw [show h (["sigma"].map ρ) = _ from this]
    show ((Formula.tensor a ["sigma"]).mean E G F).value geodesicPos ρ + sumOver G.n ["nu"] (fun ρ' =>
      sumOver G.n ["mu"] (fun ρ'' => (((Formula.tensor g ["sigma", "mu", "nu"]).mean E G F).value geodesicPos ρ'' -
        sumOver G.n [] (fun ρ3 => ((Formula.tensor g0 ["mu", "nu"]).mean E G F).value geodesicPos ρ3 *
          ((Formula.tensor v ["sigma"]).mean E G F).value (turned [] geodesicPos) ρ3) ρ'') *
        ((Formula.tensor v ["mu"]).mean E G F).value (turned ["mu"] geodesicPos) ρ'') ρ' *
        ((Formula.tensor v ["nu"]).mean E G F).value (turned ["nu"] geodesicPos) ρ') ρ = _
    rw [field_value ha (by decide) hρ (by decide)]
    simp only [sumOver]
    unfold geodesicT
    have hσ : ρ "sigma" < G.n := hρ _
    congr 1
    · simp only [List.map_cons, List.map_nil, List.getD_cons_zero]
      rw [getD_zipIdx_syms hS _ hσ]
      unfold Ground.accelT
      dsimp only
      rw [ite_not]
      rfl
    · rw [Finset.sum_comm]
      refine Finset.sum_congr rfl fun n hn => ?_
      have hρ1 : Values G.n (Function.update ρ "nu" n) := values_update hρ _ (Finset.mem_range.1 hn)
      rw [field_value hv (by decide) hρ1 (by decide), Finset.sum_mul]
      refine Finset.sum_congr rfl fun m hm' => ?_
      have hρ2 : Values G.n (Function.update (Function.update ρ "nu" n) "mu" m) :=
        values_update hρ1 _ (Finset.mem_range.1 hm')
      rw [field_value hv (by decide) hρ2 (by decide), field_value hg (by decide) hρ2 (by decide),
        field_value hv (by decide) hρ2 (by decide), field_value hz (by decide) hρ2 (by decide)]
      simp only [List.map_cons, List.map_nil, List.getD_cons_zero, christoffelComps, List.getD_cons_succ,
        Function.update_self, ne_eq, String.reduceEq, not_false_eq_true, Function.update_of_ne]
      rw [getD_zipIdx_syms hS _ (Finset.mem_range.1 hn), getD_zipIdx_syms hS _ (Finset.mem_range.1 hm'),
        getD_zipIdx_syms hS _ hσ]
      unfold Ground.speedT
      dsimp only
      rw [ite_not, ite_not, ite_not]
      rfl

theorem does_computeGeodesicTime (hE : ∀ x, E.simp x = x) (hS : Scene G V w) (C : Curves K) {Dm : TField K}
    (hm : LowerMetric G V Dm) (hc : NamesOK E G V w Dm.name)
    (hU : Unnamed w (· == .geodesicTime) (Dm.name ++ " Geodesic With Time Parameter")) :
    Does (computeGeodesicTime E C G.m G.c) w
      (Gives E G V w Dm.name (· == .geodesicTime) .geodesicTime (Dm.name ++ " Geodesic With Time Parameter") [1]
        fun J => C.clear (geodesicT E C G (J.getD 0 0))) := by
  obtain ⟨oc, c1, -, c3, c4⟩ := hS.chart
  unfold computeGeodesicTime
  refine Does.step (getObj_ok c1 c3) ?_
  refine Does.bind (provides_christoffel hE hS hm hc) ?_
  rintro g w1 ⟨V1, Dg, h1, h2, h3, h4, -, -, h5⟩
  rw [c4]
  refine Does.bind (scene_vector h1 (by simp [hS.dim]) "T") ?_
  rintro v w2 ⟨V2, Dv, i1, i2, i3, i4⟩
  refine Does.bind (scene_vector i1 (by simp [hS.dim]) "T") ?_
  rintro a w3 ⟨V3, Da, j1, j2, j3, j4⟩
  have hg0 := inView_extends j2 (inView_extends i2 h5)
  obtain ⟨og, g1, g2⟩ := j1.shows _ _ hg0.view
  refine Does.step (requireTensor_ok g1 (shows_noCoordinates g2)) ?_
  refine Does.bind (Q := fun b w' => Scene G V3 w' ∧ Frame w3 w' ∧ Agree G.n 3 b (christoffelComps E G)) ?_ ?_
  · refine Does.step (getObj_ok g1 g2.alive) ?_
    show Does (getRepresentation E g G.c og.indices) _ _
    rw [g2.indices]
    refine Does.mono (scene_get hE j1 hg0.view g2.config) ?_
    rintro b w' ⟨b1, b2, b3⟩
    rw [hg0.cfg] at b3
    refine ⟨b1, b2, agree_congr b3 fun J k1 k2 => ?_⟩
    have := comp_self (G := G) (D := Dg) k2 (by rw [hg0.cfg]; exact k1)
    rw [hg0.cfg] at this
    exact this.trans (hg0.val J k1 k2)
  rintro b w4 ⟨b1, b2, b3⟩
  refine Does.bind (scene_temp b1 (a := firstSlice b) (ix := [-1, -1]) (Arr.wf_ofFn _ _) ?_ ⟨rfl, by simp⟩ "T") ?_
  · show b.shape.tail = _
    rw [b3.2.1]; rfl
  rintro g0 w5 ⟨V5, l1, l2, l3, l4⟩
  have hslice : InView G V5 g0 [-1, -1] (fun J => christoffel E G 0 (J.getD 0 0) (J.getD 1 0)) _ :=
    ⟨l4, rfl, rfl, fun J k1 k2 => by
      have hv : Valid b.shape.tail J := by
        rw [b3.2.1]; exact valid_replicate.2 ⟨k1, k2⟩
      show (firstSlice b).get J = _
      unfold firstSlice
      rw [Arr.get_ofFn hv, b3.2.2 (0 :: J) (by rw [List.length_cons, k1]; rfl) (by
        intro x hx
        rcases List.mem_cons.1 hx with rfl | hx
        · exact hS.pos
        · exact k2 x hx)]
      match J, k1 with
      | [x, y], _ => rfl⟩
  have hm1 := lowerMetric_keeps hm h2
  have hg := fieldsOf_inView Dm (inView_extends l2 hg0)
  have hv := fieldsOf_inView Dm (inView_extends l2 (inView_extends j2 i4))
  have ha := fieldsOf_inView Dm (inView_extends l2 j4)
  have hz := fieldsOf_inView Dm hslice
  exact computesTime hE hS C hU h1 h2 h3 h4 hm1 (fun t D h => l2 _ _ (j2 _ _ (i2 _ _ h)))
    (onlyTemps_trans (onlyTemps_trans (onlyTemps_trans i3 j3) (onlyTemps_frame b2)) l3) l1 hg hv ha hz

theorem given_geodesicTime (hE : ∀ x, E.simp x = x) (hS : Scene G V w) (C : Curves K) {Dm : TField K}
    (hm : LowerMetric G V Dm) (hc : NamesOK E G V w Dm.name) {coords : Option Id'}
    (hco : coords = some G.c ∨ coords = none)
    (hN : NamesCurve G w (· == .geodesicTime) .geodesicTime (Dm.name ++ " Geodesic With Time Parameter") [1]
      fun J => C.clear (geodesicT E C G (J.getD 0 0))) :
    Does (calcGeodesicTime E C G.m coords) w
      (Gives E G V w Dm.name (· == .geodesicTime) .geodesicTime (Dm.name ++ " Geodesic With Time Parameter") [1]
        fun J => C.clear (geodesicT E C G (J.getD 0 0))) := by
  unfold calcGeodesicTime
  exact does_curve_start (k := fun n c => unlessCurve E C (· == .geodesicTime)
    (n ++ " Geodesic With Time Parameter") c (computeGeodesicTime E C G.m c)) hS hm.view
    (hco.imp id fun h => ⟨h, hm.coords⟩)
    (does_unlessCurve hS hN (fun t ht hH hf => given_found hS hc ht hH hf) fun hU =>
      does_computeGeodesicTime hE hS C hm hc hU)

/-- Names stay free. -/
theorem unnamed_given {base name name' : String} {sel' : Kind → Bool} {kind : Kind} {ix : List Int} {f : List Nat → K}
    {r : Id'} {w' : World K} (h : Gives E G V w base sel' kind name ix f r w') {sel : Kind → Bool}
    (hs : sel kind = false) (hn : name' ≠ "TEMP") (hl : name' ≠ base ++ " Lagrangian")
    (hq : ∀ q : Quantity, name' ≠ base ++ q.suffix) (hU : Unnamed w sel name') : Unnamed w' sel name' := by
  obtain ⟨V', h1, h2, h3, h4, h5, ⟨o, k1, -, k3, -⟩, -⟩ := h
  refine unnamed_leaves h3 hn (fun i hi o' ho hsel hname => ?_) hU
  rcases hi with rfl | ⟨o', f1, f2⟩ | ⟨o', f1, q, -, f2⟩
  · rw [ho] at k1; cases k1
    rw [k3, hs] at hsel; cases hsel
  · rw [ho] at f1; cases f1
    exact hl (hname.symm.trans f2)
  · rw [ho] at f1; cases f1
    exact hq q (hname.symm.trans f2)

omit [DecidableEq K] [Algebra ℚ K] in
theorem namesCurve_unnamed {sel : Kind → Bool} {kind : Kind} {name : String} {ix : List Int} {f : List Nat → K}
    (h : Unnamed w sel name) : NamesCurve G w sel kind name ix f :=
  fun i hi o ho hs hn => absurd hn (h i hi o ho hs)

end

/-- Equations multiplied by units and with a lowered index vanish together. -/
theorem equations_equivalent (ψ : K →+* K) {n : Nat} {g gi : Nat → Nat → K} (hI : Inverse n g gi) {e x y : Nat → K}
    (hx : ∀ i, i < n → ∃ u, IsUnit u ∧ x i = ψ (u * ∑ j ∈ range n, g i j * e j))
    (hy : ∀ i, i < n → ∃ u, IsUnit u ∧ y i = ψ (u * e i)) :
    (∃ u v : Nat → K, (∀ i, i < n → IsUnit (u i) ∧ IsUnit (v i) ∧
      u i * x i = ∑ j ∈ range n, ψ (g i j) * (v j * y j))) ∧
    ∀ (R : Type) [CommRing R] (φ : K →+* R), (∀ i, i < n → φ (x i) = 0) ↔ ∀ i, i < n → φ (y i) = 0 := by
  have h1 : ∀ i, ∃ u : K, i < n → IsUnit u ∧ u * x i = ∑ j ∈ range n, ψ (g i j) * ψ (e j) := by
    intro i
    by_cases hi : i < n
    · obtain ⟨u, ⟨u', rfl⟩, h⟩ := hx i hi
      refine ⟨ψ (↑u'⁻¹ : K), fun _ => ⟨(Units.isUnit u'⁻¹).map ψ, ?_⟩⟩
      rw [h, ← map_mul, ← mul_assoc, Units.inv_mul, one_mul, map_sum]
      exact sum_congr rfl fun j _ => map_mul _ _ _
    · exact ⟨0, fun h => absurd h hi⟩
  have h2 : ∀ i, ∃ u : K, i < n → IsUnit u ∧ u * y i = ψ (e i) := by
    intro i
    by_cases hi : i < n
    · obtain ⟨u, ⟨u', rfl⟩, h⟩ := hy i hi
      refine ⟨ψ (↑u'⁻¹ : K), fun _ => ⟨(Units.isUnit u'⁻¹).map ψ, ?_⟩⟩
      rw [h, ← map_mul, ← mul_assoc, Units.inv_mul, one_mul]
    · exact ⟨0, fun h => absurd h hi⟩
  choose u hu using h1
  choose v hv using h2
  have key : ∀ i, i < n → u i * x i = ∑ j ∈ range n, ψ (g i j) * (v j * y j) := fun i hi => by
    rw [(hu i hi).2]
    exact sum_congr rfl fun j hj => by rw [(hv j (mem_range.1 hj)).2]
  refine ⟨⟨u, v, fun i hi => ⟨(hu i hi).1, (hv i hi).1, key i hi⟩⟩, fun R _ φ => ⟨fun h i hi => ?_, fun h i hi => ?_⟩⟩
  · have hz : ∀ k, k < n → ∑ j ∈ range n, φ (ψ (g k j)) * φ (ψ (e j)) = 0 := by
      intro k hk
      have := congrArg φ (hu k hk).2
      rw [map_mul, h k hk, mul_zero, map_sum] at this
      rw [this]
      exact sum_congr rfl fun j _ => (map_mul _ _ _).symm
    have he : φ (ψ (e i)) = 0 := by
      have h3 : ∑ k ∈ range n, φ (ψ (gi i k)) * ∑ j ∈ range n, φ (ψ (g k j)) * φ (ψ (e j)) = 0 :=
        sum_eq_zero fun k hk => by rw [hz k (mem_range.1 hk), mul_zero]
      have h4 : ∑ k ∈ range n, φ (ψ (gi i k)) * ∑ j ∈ range n, φ (ψ (g k j)) * φ (ψ (e j)) =
          ∑ j ∈ range n, φ (ψ (matMul n gi g i j)) * φ (ψ (e j)) := by
        simp only [mul_sum, matMul, map_sum, map_mul, sum_mul]
        rw [sum_comm]
        exact sum_congr rfl fun j _ => sum_congr rfl fun k _ => by ring
      rw [h4, sum_eq_single_of_mem i (mem_range.2 hi)] at h3
      · rw [(hI i i hi hi).2] at h3
        simpa [delta] using h3
      · intro j hj hji
        rw [(hI i j hi (mem_range.1 hj)).2]
        simp [delta, Ne.symm hji]
    have := congrArg φ (hv i hi).2
    rw [he, map_mul] at this
    exact ((hv i hi).1.map φ).mul_right_eq_zero.1 this
  · have := congrArg φ (key i hi)
    rw [map_mul, map_sum] at this
    rw [sum_eq_zero] at this
    · exact ((hu i hi).1.map φ).mul_right_eq_zero.1 this
    · intro j hj
      rw [map_mul, map_mul, h j (mem_range.1 hj)]
      simp

/-- Substituting functions is a homomorphism. -/
def functionsHom [Algebra ℚ K] {syms : List Sym} (h : CurvesOK E C syms) (p : Sym) : K →+* K where
  toFun := C.asFunctions p syms
  map_one' := h.one p
  map_mul' := h.mul p
  map_zero' := by
    have := h.add p 0 0
    rw [add_zero] at this
    exact left_eq_add.1 this
  map_add' := h.add p

end PyOGRe
