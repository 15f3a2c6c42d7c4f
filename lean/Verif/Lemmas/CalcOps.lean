import Verif.Lemmas.Scene

/-! Helper lemmas: the operations of tensor formulae in a scene. -/

namespace PyOGRe
open Spec
variable {K : Type} [CommRing K] {E : Engine K} {G : Ground K} {V : View K} {w : World K}

/-! Evaluation -/

theorem evaluates_mono {m : PyM K CalcObj} {P Q : List Sym → TField K → Prop} (h : Evaluates G V w m P)
    (hPQ : ∀ l D, P l D → Q l D) : Evaluates G V w m Q :=
  Does.mono h fun _ _ ⟨V', t, D, h1, h2, h3, h4, h5⟩ => ⟨V', t, D, h1, h2, h3, h4, hPQ _ _ h5⟩

/-- After a request. -/
theorem evaluates_get {α : Type} {m : PyM K α} {f : α → PyM K CalcObj} {Q : α → Prop}
    {P : List Sym → TField K → Prop}
    (h : Does m w fun a w' => Scene G V w' ∧ Frame w w' ∧ Q a)
    (hf : ∀ a w', Scene G V w' → Frame w w' → Q a → Evaluates G V w' (f a) P) : Evaluates G V w (m >>= f) P := by
  refine Does.bind h fun a w' ⟨h1, h2, h3⟩ => Does.mono (hf a w' h1 h2 h3) ?_
  rintro z w'' ⟨V', t, D, k1, k2, k3, k4, k5⟩
  exact ⟨V', t, D, k1, k2, onlyTemps_trans (onlyTemps_frame h2) k3, k4, k5⟩

theorem evaluates_step {α : Type} {m : PyM K α} {f : α → PyM K CalcObj} {P : List Sym → TField K → Prop} {a : α}
    (h : m w = (.ok a, w)) (hf : Evaluates G V w (f a) P) : Evaluates G V w (m >>= f) P := Does.step h hf

theorem evaluates_lift {α : Type} {x : Py α} {f : α → PyM K CalcObj} {P : List Sym → TField K → Prop} {a : α}
    (h : x = .ok a) (hf : Evaluates G V w (f a) P) : Evaluates G V w (PyM.lift x >>= f) P := Does.lift h hf

/-- After evaluating another formula. -/
theorem evaluates_bind {m : PyM K CalcObj} {f : CalcObj → PyM K CalcObj} {P Q : List Sym → TField K → Prop}
    (h : Evaluates G V w m P)
    (hf : ∀ z V' t D w', Scene G V' w' → V.Extends V' → OnlyTemps w w' → Denotes G V' z t D → P z.labels D →
      Evaluates G V' w' (f z) Q) : Evaluates G V w (m >>= f) Q := by
  refine Does.bind h fun z w' ⟨V', t, D, h1, h2, h3, h4, h5⟩ => Does.mono (hf z V' t D w' h1 h2 h3 h4 h5) ?_
  rintro z' w'' ⟨V'', t', D', k1, k2, k3, k4, k5⟩
  exact ⟨V'', t', D', k1, extends_trans h2 k2, onlyTemps_trans h3 k3, k4, k5⟩

theorem names_extends {x : CalcObj} {t : Id'} {D : TField K} {V' : View K} (h : Names V x t D) (hV : V.Extends V') :
    Names V' x t D := ⟨h.role, h.tensor, hV _ _ h.field, h.nodup, h.length⟩
theorem denotes_extends {x : CalcObj} {t : Id'} {D : TField K} {V' : View K} (h : Denotes G V x t D)
    (hV : V.Extends V') : Denotes G V' x t D := ⟨names_extends h.toNames hV, h.coords⟩

/-! Reading -/

theorem metricAttr_ok (hS : Scene G V w) {x : CalcObj} {t : Id'} {D : TField K} (h : Names V x t D) :
    metricAttr x w = (.ok (some G.m), w) := by
  obtain ⟨o, ho, hsh⟩ := hS.shows _ _ h.field
  unfold metricAttr
  simp [h.tensor, ho, hsh.alive, hsh.metric]

theorem tensorOf_ok (hS : Scene G V w) {x : CalcObj} {t : Id'} {D : TField K} (h : Names V x t D) :
    ∃ o, tensorOf x w = (.ok (t, o), w) ∧ w.objs[t]? = some o ∧ Shows G D o := by
  obtain ⟨o, ho, hsh⟩ := hS.shows _ _ h.field
  refine ⟨o, ?_, ho, hsh⟩
  unfold tensorOf
  rw [h.tensor]
  dsimp only
  rw [PyM.bind_apply, getObj_ok ho hsh.alive]
  rfl

/-- The components of the objects that name a field are arrays. -/
theorem requireArray_ok (hS : Scene G V w) {x : CalcObj} {t : Id'} {D : TField K} (h : Names V x t D) :
    requireArray x w = (.ok (), w) := by
  obtain ⟨o, h1, -, h2⟩ := tensorOf_ok hS h
  unfold requireArray
  rw [if_neg (by simp [h.role]), PyM.bind_apply, h1]
  dsimp only
  rw [isArray_head fun hi => by rw [h2.coords]; exact h2.native (h2.indices ▸ hi)]
  rfl


theorem scene_config (hS : Scene G V w) {t : Id'} {D : TField K} (h : V t = some D) : Config D.ix.length D.ix := by
  obtain ⟨o, ho, hsh⟩ := hS.shows _ _ h
  exact hsh.config

/-! Labels without repetitions -/

theorem traceLoop_nodup (t : Id') (ss labels : List Sym) (h : labels.Nodup) :
    traceLoop E ss t labels w = (.ok (t, labels), w) := by
  induction ss with
  | nil => rfl
  | cons s ss ih =>
    have hc : labels.count s ≤ 1 := List.nodup_iff_count_le_one.1 h s
    unfold traceLoop
    have : traceStep E s t labels = pure (t, labels) := by
      unfold traceStep
      rw [if_neg (by omega), if_neg (by omega)]
    rw [this, PyM.bind_apply, PyM.pure_apply]
    exact ih

theorem validateIndicesRank_config {ix : List Int} {r : Nat} (h : Config r ix) :
    validateIndicesRank (.tuple ix) r = .ok () := by
  unfold validateIndicesRank
  have h2 : (ix.any fun i => !(i == 1 || i == -1)) = false := by
    rw [Bool.eq_false_iff]
    intro hc
    obtain ⟨x, hx, hc⟩ := List.any_eq_true.1 hc
    rcases h.2 x hx with rfl | rfl <;> revert hc <;> decide
  simp only [h2, h.1, Bool.false_eq_true, if_false, ne_eq, not_true_eq_false]
  rfl

theorem calcInit_nodup (hE : ∀ x, E.simp x = x) (hS : Scene G V w) {t : Id'} {D : TField K} (ht : V t = some D)
    (hc : D.coords = G.c) {labels : List Sym} (hn : labels.Nodup) :
    Does (calcInit E t labels) w fun z w' => Scene G V w' ∧ Frame w w' ∧ z = ⟨.tensor, some t, labels⟩ := by
  obtain ⟨o, ho, hsh⟩ := hS.shows _ _ ht
  unfold calcInit
  refine Does.step (requireTensor_ok ho (shows_noCoordinates hsh)) ?_
  refine Does.step (getObj_ok ho hsh.alive) (Does.bind (scene_getDefault hE hS ht hc) ?_)
  rintro a w' ⟨h1, h2, h3⟩
  refine Does.lift (a := ()) ?_ (Does.step (traceLoop_nodup t labels labels hn) (Does.pure ⟨h1, h2, rfl⟩))
  rw [hsh.indices]
  exact validateIndicesRank_config (by unfold Arr.rank; rw [h3.2.1, List.length_replicate]; exact hsh.config)

/-- Labelling a tensor. -/
theorem evaluates_init (hE : ∀ x, E.simp x = x) (hS : Scene G V w) {t : Id'} {D : TField K} (ht : V t = some D)
    (hc : D.coords = G.c) {labels : List Sym} (hn : labels.Nodup) (hl : labels.length = D.ix.length) :
    Evaluates G V w (calcInit E t labels) fun l D' => l = labels ∧ D' = D := by
  refine Does.mono (calcInit_nodup hE hS ht hc hn) ?_
  rintro z w' ⟨h1, h2, rfl⟩
  exact ⟨V, t, D, h1, extends_refl V, onlyTemps_frame h2, ⟨⟨rfl, rfl, ht, hn, hl⟩, hc⟩, rfl, rfl⟩

theorem onlyTemps_append {w' : World K} {o : Obj K} (h1 : w'.instances = w.instances ++ [w.objs.length])
    (h2 : w'.objs = w.objs ++ [o]) (h3 : o.name = "TEMP") : OnlyTemps w w' := by
  refine ⟨fun i oi hi => ⟨oi, by rw [h2]; exact getElem?_append_old hi, rfl, rfl, rfl, rfl, rfl, rfl, rfl, rfl, rfl⟩,
    [w.objs.length], h1, fun i hi => ?_⟩
  rw [List.mem_singleton.1 hi]
  exact ⟨le_refl _, o, by rw [h2]; exact getElem?_append_length _ _, h3⟩

/-- A temporary tensor. -/
theorem scene_temp (hS : Scene G V w) {a : Arr K} {ix : List Int} (ha : a.WF)
    (hs : a.shape = List.replicate ix.length G.n) (hix : Config ix.length ix) (symbol : String) :
    Does (newTemp a G.m G.c ix symbol) w fun t w' => ∃ V', Scene G V' w' ∧ V.Extends V' ∧ OnlyTemps w w' ∧
      V' t = some ⟨"TEMP", G.c, ix, a.get⟩ := by
  obtain ⟨o, w', h1, h2, h3, h4, h5, h6, h7, h8⟩ := scene_new hS (kind := .tensor) (Or.inl rfl) "TEMP" symbol
    (a := a) (f := a.get) ⟨ha, hs, fun _ _ _ => rfl⟩ hix
  exact ⟨_, w', h1, _, h2, h8, onlyTemps_append h3 h4 h5, by simp [View.add]⟩

/-- The end of every operation. -/
theorem evaluates_temp (hE : ∀ x, E.simp x = x) (hS : Scene G V w) {a : Arr K} {ix : List Int} (ha : a.WF)
    (hs : a.shape = List.replicate ix.length G.n) (hix : Config ix.length ix) (symbol : String)
    {labels : List Sym} (hn : labels.Nodup) (hl : labels.length = ix.length) :
    Evaluates G V w (newTemp a G.m G.c ix symbol >>= fun t => calcInit E t labels) fun l D =>
      l = labels ∧ D = ⟨"TEMP", G.c, ix, a.get⟩ := by
  refine Does.bind (scene_temp hS ha hs hix symbol) ?_
  rintro t w' ⟨V', h1, h2, h3, h4⟩
  refine Does.mono (evaluates_init hE h1 h4 rfl hn hl) ?_
  rintro z w'' ⟨V'', t', D, k1, k2, k3, k4, k5⟩
  exact ⟨V'', t', D, k1, extends_trans h2 k2, onlyTemps_trans h3 k3, k4, k5⟩

/-! From arrays to labels -/

theorem map_posOf {labels : List Sym} (hn : labels.Nodup) {ix : List Int} (hl : labels.length = ix.length) :
    labels.map (posOf labels ix) = ix := by
  apply List.ext_getElem (by simpa using hl)
  intro i h1 h2
  simp only [List.getElem_map, posOf]
  rw [List.Nodup.idxOf_getElem hn, List.getD_eq_getElem?_getD, List.getElem?_eq_getElem h2]
  rfl

theorem positions_posOf (labels : List Sym) {ix : List Int} {r : Nat} (h : Config r ix) :
    Positions (posOf labels ix) := by
  intro s
  unfold posOf
  rw [List.getD_eq_getElem?_getD]
  cases hx : ix[labels.idxOf s]? with
  | none => exact Or.inl rfl
  | some x => exact h.2 x (List.mem_of_getElem? hx)

theorem at_posOf {D : TField K} {labels : List Sym} (hn : labels.Nodup) (hl : labels.length = D.ix.length)
    {ρ : Sym → Nat} (hρ : Values G.n ρ) : D.at G labels (posOf labels D.ix) ρ = D.val (labels.map ρ) := by
  unfold TField.at
  rw [map_posOf hn hl]
  exact comp_self (values_map hρ labels) (by simpa using hl)

/-- A tensor whose components in the default configuration are those of a lawful labelled value. -/
theorem at_ext (hi : Inverse G.n G.g G.gi) {D : TField K} (hD : Config D.ix.length D.ix) {labels : List Sym}
    (hn : labels.Nodup) (hl : labels.length = D.ix.length) {T : (Sym → Int) → (Sym → Nat) → K}
    (hT : Lawful G labels T)
    (hO : ∀ pos pos' ρ, Positions pos → Positions pos' → Values G.n ρ → (∀ s ∈ labels, pos s = pos' s) →
      T pos ρ = T pos' ρ)
    (heq : ∀ ρ, Values G.n ρ → D.val (labels.map ρ) = T (posOf labels D.ix) ρ) {pos : Sym → Int}
    (hp : Positions pos) {ρ : Sym → Nat} (hρ : Values G.n ρ) : D.at G labels pos ρ = T pos ρ :=
  lawful_ext (lawful_at hi hD hn hl) hT (onlyOn_at D labels) hO (positions_posOf labels hD)
    (fun ρ hρ => (at_posOf hn hl hρ).trans (heq ρ hρ)) hp hρ

/-- Every index tuple comes from an assignment of values to labels. -/
theorem exists_env {n : Nat} (hn : 0 < n) {labels : List Sym} (hd : labels.Nodup) {J : List Nat}
    (hl : J.length = labels.length) (hJ : ∀ x ∈ J, x < n) : ∃ ρ, Values n ρ ∧ labels.map ρ = J := by
  refine ⟨fun s => J.getD (labels.idxOf s) 0, fun s => ?_, ?_⟩
  · show J.getD (labels.idxOf s) 0 < n
    rw [List.getD_eq_getElem?_getD]
    cases hx : J[labels.idxOf s]? with
    | none => exact hn
    | some x => exact hJ x (List.mem_of_getElem? hx)
  · apply List.ext_getElem (by simpa using hl.symm)
    intro i h1 h2
    simp only [List.getElem_map]
    rw [List.Nodup.idxOf_getElem hd, List.getD_eq_getElem?_getD, List.getElem?_eq_getElem h2]
    rfl

theorem mapM_ok {α β : Type} (f : α → Py β) (g : α → β) (l : List α) (h : ∀ x ∈ l, f x = .ok (g x)) :
    l.mapM f = .ok (l.map g) := by
  induction l with
  | nil => rfl
  | cons a l ih =>
    rw [List.mapM_cons, h a (by simp), ih fun x hx => h x (by simp [hx])]
    rfl

theorem labelPos_ok {labels : List Sym} {s : Sym} (h : s ∈ labels) : labelPos labels s = .ok (labels.idxOf s) := by
  unfold labelPos
  rw [if_pos h]

theorem tupleGet_ok {α : Type} {l : List α} {i : Nat} (h : i < l.length) (d : α) :
    tupleGet l i = .ok (l.getD i d) := by
  unfold tupleGet
  rw [List.getElem?_eq_getElem h, List.getD_eq_getElem?_getD, List.getElem?_eq_getElem h]
  rfl

/-- Permuting the axes of an array, in terms of labels. -/
theorem permutedims_labels {n : Nat} (hn : 0 < n) {a : Arr K} {lx ly : List Sym} (hx : lx.Nodup) (hp : lx.Perm ly)
    (hs : a.shape = List.replicate ly.length n) :
    ∃ b, a.permutedims (lx.map ly.idxOf) = .ok b ∧ b.WF ∧ b.shape = List.replicate lx.length n ∧
      ∀ ρ, Values n ρ → b.get (lx.map ρ) = a.get (ly.map ρ) := by
  have hy : ly.Nodup := hp.nodup_iff.1 hx
  have hrank : a.rank = ly.length := by unfold Arr.rank; rw [hs, List.length_replicate]
  have hperm : (lx.map ly.idxOf).Perm (List.range ly.length) := by
    refine (hp.map ly.idxOf).trans ?_
    have : ly.map ly.idxOf = List.range ly.length := by
      apply List.ext_getElem (by simp)
      intro i h1 h2
      simp only [List.getElem_map, List.getElem_range]
      exact List.Nodup.idxOf_getElem hy _ _
    rw [this]
  have hsh : ((lx.map ly.idxOf).map fun k => a.shape.getD k 0) = List.replicate lx.length n := by
    apply List.eq_replicate_iff.2
    refine ⟨by simp, fun x hx => ?_⟩
    obtain ⟨k, hk, rfl⟩ := List.mem_map.1 hx
    have hk' : k < ly.length := by simpa using (hperm.mem_iff.1 hk)
    rw [hs, List.getD_eq_getElem?_getD, List.getElem?_replicate, if_pos hk']
    rfl
  have hok : a.permutedims (lx.map ly.idxOf) = .ok (Arr.ofFn (List.replicate lx.length n) fun idx =>
      a.get ((List.range ly.length).map fun j => idx.getD ((lx.map ly.idxOf).idxOf j) 0)) := by
    unfold Arr.permutedims
    rw [hrank, if_pos (List.isPerm_iff.2 hperm), hsh]
  refine ⟨_, hok, Arr.wf_ofFn _ _, rfl, fun ρ hρ => ?_⟩
  rw [Arr.get_ofFn (valid_replicate.2 ⟨by simp, values_map hρ lx⟩)]
  congr 1
  apply List.ext_getElem (by simp)
  intro i h1 h2
  have hi : i < ly.length := by simpa using h1
  simp only [List.getElem_map, List.getElem_range]
  have hm : ly[i] ∈ lx := hp.mem_iff.2 (List.getElem_mem hi)
  conv_lhs => rw [show i = ly.idxOf ly[i] from (List.Nodup.idxOf_getElem hy _ _).symm]
  rw [idxOf_map_idxOf (fun s hs => hp.mem_iff.1 hs) (List.getElem_mem _), getD_map_idxOf ρ lx _ hm]

theorem arr_add_ok {a b : Arr K} {s : List Nat} (ha : a.shape = s) (hb : b.shape = s) :
    ∃ c, a.add b = .ok c ∧ c.WF ∧ c.shape = s ∧ ∀ J, Valid s J → c.get J = a.get J + b.get J := by
  unfold Arr.add
  rw [ha, hb]
  rw [if_pos rfl]
  refine ⟨_, rfl, Arr.wf_ofFn _ _, rfl, fun J hJ => ?_⟩
  rw [Arr.get_ofFn hJ]

end PyOGRe
