import Verif.Lemmas.CalcOps

/-! Helper lemmas: what the operations of tensor formulae compute. -/

namespace PyOGRe
open Spec
variable {K : Type} [CommRing K] {E : Engine K} {G : Ground K} {V : View K} {w : World K}

theorem simp_map {a : Arr K} (hw : a.WF) (hE : ∀ x, E.simp x = x) : a.map E.simp = a := Arr.map_id' hw hE

theorem agree_labels {a : Arr K} {D : TField K} {cfg : List Int} (h : Agree G.n D.ix.length a (D.comp G cfg))
    {labels : List Sym} (hl : labels.length = D.ix.length) {ρ : Sym → Nat} (hρ : Values G.n ρ) :
    a.get (labels.map ρ) = D.comp G cfg (labels.map ρ) := h.2.2 _ (by simpa using hl) (values_map hρ labels)

theorem onlyOn_pos {labels : List Sym} {T : (Sym → Int) → (Sym → Nat) → K} (h : OnlyOn labels T) :
    ∀ pos pos' ρ, Positions pos → Positions pos' → Values G.n ρ → (∀ s ∈ labels, pos s = pos' s) →
      T pos ρ = T pos' ρ := fun pos pos' ρ _ _ _ hs => h pos pos' ρ ρ fun s hm => ⟨hs s hm, rfl⟩

theorem evaluates_add (hE : ∀ x, E.simp x = x) (hS : Scene G V w) {x y : CalcObj} {t u : Id'} {A B : TField K}
    (hx : Denotes G V x t A) (hy : Names V y u B) (hp : y.labels.Perm x.labels) :
    Evaluates G V w (calcAddObj E x y) fun l D => l = x.labels ∧ D.ix = A.ix ∧ ∀ pos ρ, Positions pos →
      Values G.n ρ → D.at G l pos ρ = A.at G x.labels pos ρ + B.at G y.labels pos ρ := by
  obtain ⟨ox, ex1, ex2, ex3⟩ := tensorOf_ok hS hx.toNames
  obtain ⟨oy, ey1, ey2, ey3⟩ := tensorOf_ok hS hy
  have hlen : A.ix.length = B.ix.length := by rw [← hx.length, ← hy.length, hp.length_eq]
  have hlx := hx.length
  have hly := hy.length
  have hA := ex3.config
  have hB := ey3.config
  have hpos0 := positions_posOf x.labels hA
  unfold calcAddObj
  rw [if_neg (by simp [hx.role, hy.role])]
  refine evaluates_step (metricAttr_ok hS hx.toNames) (evaluates_step (metricAttr_ok hS hy) ?_)
  rw [if_neg (by simp)]
  refine evaluates_step ex1 ?_
  dsimp only
  refine evaluates_step ey1 ?_
  dsimp only
  rw [if_neg (by rw [ex3.indices, ey3.indices]; simpa using hlen),
    if_neg (by rintro ⟨-, -, h⟩; rw [List.isPerm_iff.2 hp] at h; cases h)]
  rw [ex3.coords, hx.coords, ex3.indices, ex3.metric]
  refine evaluates_get (Q := fun a => Agree G.n A.ix.length a (A.comp G A.ix))
    (scene_getComponents hE hS hx.field hA) ?_
  intro a w1 hS1 _ ha
  refine evaluates_lift (mapM_ok _ y.labels.idxOf x.labels fun s hs => labelPos_ok (hp.mem_iff.2 hs)) ?_
  refine evaluates_lift (mapM_ok _ x.labels.idxOf y.labels fun s hs => labelPos_ok (hp.mem_iff.1 hs)) ?_
  refine evaluates_lift (mapM_ok _ (fun i => A.ix.getD i 1) _ fun i hi => ?_) ?_
  · obtain ⟨s, hs, rfl⟩ := List.mem_map.1 hi
    refine tupleGet_ok ?_ 1
    rw [← hx.length]; exact List.idxOf_lt_length_iff.2 (hp.mem_iff.1 hs)
  rw [List.map_map]
  change Evaluates G V w1 (getComponents E u (some G.c) (some (y.labels.map (posOf x.labels A.ix))) >>= _) _
  refine evaluates_get (Q := fun b => Agree G.n B.ix.length b (B.comp G (y.labels.map (posOf x.labels A.ix))))
    (scene_getComponents hE hS1 hy.field (hy.length ▸ config_map hpos0 y.labels)) ?_
  intro b w2 hS2 _ hb
  obtain ⟨b', hb1, hb2, hb3, hb4⟩ := permutedims_labels hS.pos (a := b) hx.nodup hp.symm (by rw [hb.2.1, hy.length])
  refine evaluates_lift hb1 ?_
  obtain ⟨c, hc1, hc2, hc3, hc4⟩ := arr_add_ok ha.2.1 (by rw [hb3, hx.length] : b'.shape = _)
  refine evaluates_lift hc1 ?_
  have hsimp : (if A.ix.length = 0 then c else c.map E.simp) = c := by
    split_ifs
    · rfl
    · exact simp_map hc2 hE
  rw [hsimp]
  refine evaluates_mono (evaluates_temp hE hS2 hc2 hc3 hA "T" hx.nodup hx.length) ?_
  rintro l D ⟨rfl, rfl⟩
  refine ⟨rfl, rfl, fun pos ρ hpos hρ => ?_⟩
  refine at_ext (D := ⟨"TEMP", G.c, A.ix, c.get⟩) hS.inverse hA hx.nodup hx.length
    (T := fun pos ρ => A.at G x.labels pos ρ + B.at G y.labels pos ρ)
    (lawful_add (lawful_at hS.inverse hA hx.nodup hx.length)
      (lawful_subset (lawful_at hS.inverse hB hy.nodup hy.length) fun s hs => hp.mem_iff.2 hs)) ?_ ?_ hpos hρ
  · intro pos pos' ρ _ _ _ h
    rw [onlyOn_at A x.labels pos pos' ρ ρ fun s hs => ⟨h s hs, rfl⟩,
      onlyOn_at B y.labels pos pos' ρ ρ fun s hs => ⟨h s (hp.mem_iff.1 hs), rfl⟩]
  · intro ρ hρ
    show c.get _ = _
    rw [hc4 _ (valid_replicate.2 ⟨by simpa using hx.length, values_map hρ _⟩), hb4 ρ hρ,
      agree_labels ha hx.length hρ, agree_labels hb hy.length hρ]
    unfold TField.at
    rw [map_posOf hx.nodup hx.length]

theorem arr_map_get {f : K → K} {a : Arr K} {r n : Nat} (hs : a.shape = List.replicate r n) {J : List Nat}
    (h1 : J.length = r) (h2 : ∀ x ∈ J, x < n) : (a.map f).get J = f (a.get J) := by
  unfold Arr.map
  rw [Arr.get_ofFn (by rw [hs]; exact valid_replicate.2 ⟨h1, h2⟩)]

/-- Negatives and multiples. -/
theorem evaluates_scale (hE : ∀ x, E.simp x = x) (hS : Scene G V w) {x : CalcObj} {t : Id'} {A : TField K}
    (hx : Denotes G V x t A) (v : K) {a : Arr K} (ha : Agree G.n A.ix.length a A.val) :
    Evaluates G V w (newTemp (a.map fun y => v * y) G.m G.c A.ix "T" >>= fun t => calcInit E t x.labels)
      fun l D => l = x.labels ∧ D.ix = A.ix ∧ ∀ pos ρ, Positions pos →
      Values G.n ρ → D.at G l pos ρ = v * A.at G x.labels pos ρ := by
  have hA := scene_config hS hx.field
  refine evaluates_mono (evaluates_temp hE hS (Arr.wf_map _ _) (by rw [Arr.shape_map]; exact ha.2.1) hA "T" hx.nodup
    hx.length) ?_
  rintro l D ⟨rfl, rfl⟩
  refine ⟨rfl, rfl, fun pos ρ hpos hρ => ?_⟩
  refine at_ext (D := ⟨"TEMP", G.c, A.ix, (a.map fun y => v * y).get⟩) hS.inverse hA hx.nodup hx.length
    (T := fun pos ρ => v * A.at G x.labels pos ρ)
    (lawful_mul v (lawful_at hS.inverse hA hx.nodup hx.length)) ?_ ?_ hpos hρ
  · intro pos pos' ρ _ _ _ h
    rw [onlyOn_at A x.labels pos pos' ρ ρ fun s hs => ⟨h s hs, rfl⟩]
  · intro ρ hρ
    show (a.map _).get _ = _
    rw [arr_map_get ha.2.1 (by simpa using hx.length) (values_map hρ _), at_posOf hx.nodup hx.length hρ,
      ha.2.2 _ (by simpa using hx.length) (values_map hρ _)]

theorem evaluates_neg (hE : ∀ x, E.simp x = x) (hS : Scene G V w) {x : CalcObj} {t : Id'} {A : TField K}
    (hx : Denotes G V x t A) :
    Evaluates G V w (calcNeg E x) fun l D => l = x.labels ∧ D.ix = A.ix ∧ ∀ pos ρ, Positions pos →
      Values G.n ρ → D.at G l pos ρ = -A.at G x.labels pos ρ := by
  obtain ⟨ox, ex1, ex2, ex3⟩ := tensorOf_ok hS hx.toNames
  obtain ⟨a, ha1, ha2⟩ := scene_defaultComps hS hx.field hx.coords
  unfold calcNeg
  refine evaluates_step (requireArray_ok hS hx.toNames) ?_
  rw [if_neg (by simp [hx.role])]
  refine evaluates_step ex1 ?_
  dsimp only
  refine evaluates_step ha1 ?_
  rw [ex3.metric, ex3.coords, hx.coords, ex3.indices, show (fun v : K => -v) = fun v => -1 * v from by funext; ring]
  refine evaluates_mono (evaluates_scale hE hS hx (-1) ha2) ?_
  rintro l D ⟨h1, h2, h3⟩
  exact ⟨h1, h2, fun pos ρ hp hρ => by rw [h3 pos ρ hp hρ]; ring⟩

theorem evaluates_mulNum (hE : ∀ x, E.simp x = x) (hS : Scene G V w) {x : CalcObj} {t : Id'} {A : TField K}
    (hx : Denotes G V x t A) (v : K) :
    Evaluates G V w (calcMul E x (.num v)) fun l D => l = x.labels ∧ D.ix = A.ix ∧ ∀ pos ρ, Positions pos →
      Values G.n ρ → D.at G l pos ρ = v * A.at G x.labels pos ρ := by
  obtain ⟨ox, ex1, ex2, ex3⟩ := tensorOf_ok hS hx.toNames
  obtain ⟨a, ha1, ha2⟩ := scene_defaultComps hS hx.field hx.coords
  unfold calcMul
  dsimp only
  rw [if_neg (by simp [hx.role])]
  refine evaluates_step ex1 ?_
  dsimp only
  refine evaluates_step ha1 ?_
  rw [ex3.metric, ex3.coords, hx.coords, ex3.indices]
  exact evaluates_scale hE hS hx v ha2

theorem evaluates_sub [DecidableEq K] (hE : ∀ x, E.simp x = x) (hS : Scene G V w) {x y : CalcObj} {t u : Id'}
    {A B : TField K} (hx : Denotes G V x t A) (hy : Denotes G V y u B) (hp : y.labels.Perm x.labels) :
    Evaluates G V w (calcSub E x (.obj y)) fun l D => l = x.labels ∧ D.ix = A.ix ∧ ∀ pos ρ, Positions pos →
      Values G.n ρ → D.at G l pos ρ = A.at G x.labels pos ρ - B.at G y.labels pos ρ := by
  obtain ⟨ox, ex1, ex2, ex3⟩ := tensorOf_ok hS hx.toNames
  obtain ⟨oy, ey1, ey2, ey3⟩ := tensorOf_ok hS hy.toNames
  have hlen : A.ix.length = B.ix.length := by rw [← hx.length, ← hy.length, hp.length_eq]
  unfold calcSub
  dsimp only
  rw [if_neg (by simp [hx.role, hy.role])]
  refine evaluates_step ex1 ?_
  dsimp only
  refine evaluates_step ey1 ?_
  dsimp only
  rw [if_neg (by rw [ex3.indices, ey3.indices]; simpa using hlen),
    if_neg (by rintro ⟨-, -, h⟩; rw [List.isPerm_iff.2 hp] at h; cases h)]
  refine evaluates_bind (evaluates_neg hE hS hy) ?_
  intro z V' s D w' hS' hV' _ hz ⟨k1, k2, k3⟩
  refine evaluates_mono (evaluates_add hE hS' (denotes_extends hx hV') hz.toNames (by rw [k1]; exact hp)) ?_
  rintro l D' ⟨h1, h2, h3⟩
  refine ⟨h1, h2, fun pos ρ hpos hρ => ?_⟩
  rw [h3 pos ρ hpos hρ, k3 pos ρ hpos hρ]; ring

/-- Multiplying by a scalar tensor. -/
theorem evaluates_mulScalar (hE : ∀ x, E.simp x = x) (hS : Scene G V w) {x y : CalcObj} {t u : Id'} {A B : TField K}
    (hx : Denotes G V x t A) (hy : Denotes G V y u B) (h0 : A.ix = [] ∨ B.ix = []) :
    Evaluates G V w (calcMul E x (.obj y)) fun l D => l = x.labels ++ y.labels ∧ D.ix = A.ix ++ B.ix ∧
      ∀ pos ρ, Positions pos → Values G.n ρ →
        D.at G l pos ρ = A.at G x.labels pos ρ * B.at G y.labels pos ρ := by
  obtain ⟨ox, ex1, ex2, ex3⟩ := tensorOf_ok hS hx.toNames
  obtain ⟨oy, ey1, ey2, ey3⟩ := tensorOf_ok hS hy.toNames
  have hA := ex3.config
  have hB := ey3.config
  -- a scalar is its only component
  have hscal : ∀ {z : CalcObj} {s : Id'} {D : TField K}, Denotes G V z s D → D.ix = [] →
      z.labels = [] ∧ ∀ pos ρ, D.at G z.labels pos ρ = D.val [] := by
    intro z s D hz h
    have hl : z.labels = [] := by
      have := hz.length
      rw [h] at this
      exact List.length_eq_zero_iff.1 this
    refine ⟨hl, fun pos ρ => ?_⟩
    unfold TField.at
    rw [hl]
    exact (congrArg (fun cfg => D.comp G cfg []) h.symm).trans (comp_self (by simp) (by simp [h]))
  -- scaling
  have hsc : ∀ {z z' : CalcObj} {s s' : Id'} {D D' : TField K} {w1 : World K} (_ : Scene G V w1),
      Denotes G V z s D → Denotes G V z' s' D' → D.ix = [] →
      Does (scaleBy E s s' z'.labels) w1 fun r w2 => Scene G V w2 ∧ Frame w1 w2 ∧
        ∃ a : Arr K, Agree G.n D'.ix.length a D'.val ∧ r = (a.map fun y => D.val [] * y, G.m, G.c, D'.ix, z'.labels) := by
    intro z z' s s' D D' w1 hS1 hz hz' h
    obtain ⟨oz, ez2, ez3⟩ := hS1.shows _ _ hz'.field
    unfold scaleBy
    refine Does.step (getObj_ok ez2 ez3.alive) ?_
    rw [ez3.coords, hz'.coords, ez3.indices, ez3.metric]
    have hg : Does (getComponents E s (some G.c) none) w1 fun b w' =>
        Scene G V w' ∧ Frame w1 w' ∧ Agree G.n D.ix.length b D.val := by
      obtain ⟨o, ho, hsh⟩ := hS1.shows _ _ hz.field
      refine Does.step (getObj_ok ho hsh.alive) ?_
      show Does (getRepresentation E s G.c o.indices) _ _
      rw [hsh.indices]
      refine Does.mono (scene_get hE hS1 hz.field hsh.config) ?_
      rintro b w' ⟨h1, h2, h3, h4, h5⟩
      exact ⟨h1, h2, h3, h4, fun J k1 k2 => (h5 J k1 k2).trans (comp_self k2 k1)⟩
    refine Does.bind hg ?_
    rintro v w2 ⟨hS2, hF, hv⟩
    obtain ⟨a, ha1, ha2⟩ := scene_defaultComps hS2 hz'.field hz'.coords
    obtain ⟨oz', f1, f2⟩ := hS2.shows _ _ hz'.field
    have hread : readComps s' G.c D'.ix w2 = (.ok a, w2) := by
      unfold defaultComps at ha1
      rw [PyM.bind_apply, getObj_ok f1 f2.alive] at ha1
      dsimp only at ha1
      rw [f2.coords, hz'.coords, f2.indices] at ha1
      exact ha1
    refine Does.step hread (Does.pure ⟨hS2, hF, a, ha2, ?_⟩)
    rw [hv.2.2 [] (by simp [h]) (by simp)]
  unfold calcMul
  dsimp only
  rw [if_neg (by simp [hx.role])]
  refine evaluates_step ey1 ?_
  dsimp only
  refine evaluates_step ex1 ?_
  dsimp only
  rw [if_neg (by
    rw [ex3.indices, ey3.indices]
    rcases h0 with h0 | h0 <;> simp [h0])]
  by_cases hB0 : B.ix = []
  · have key : ∀ {w1 : World K}, Scene G V w1 → Evaluates G V w1 (scaleBy E u t x.labels >>= fun r =>
        newTemp r.1 r.2.1 r.2.2.1 r.2.2.2.1 "T" >>= fun t => calcInit E t r.2.2.2.2)
        fun l D => l = x.labels ++ y.labels ∧ D.ix = A.ix ++ B.ix ∧ ∀ pos ρ, Positions pos → Values G.n ρ →
          D.at G l pos ρ = A.at G x.labels pos ρ * B.at G y.labels pos ρ := by
      intro w1 hS1
      refine evaluates_get (hsc hS1 hy hx hB0) ?_
      rintro r w2 hS2 _ ⟨a, ha, rfl⟩
      refine evaluates_mono (evaluates_scale hE hS2 hx (B.val []) ha) ?_
      rintro l D ⟨h1, h2, h3⟩
      refine ⟨by rw [h1, (hscal hy hB0).1, List.append_nil], by rw [h2, hB0, List.append_nil], fun pos ρ hp hρ => ?_⟩
      rw [h3 pos ρ hp hρ, (hscal hy hB0).2]; ring
    have hl : oy.indices.length = 0 := by rw [ey3.indices, hB0]; rfl
    unfold mulParts
    rw [if_pos hl]
    split_ifs with hA0
    · rw [ex3.indices, List.length_eq_zero_iff] at hA0
      rw [pyM_bind_assoc]
      refine evaluates_get (hsc hS hx hy hA0) ?_
      rintro r w2 hS2 _ -
      exact key hS2
    · exact key hS
  · have hA0 : A.ix = [] := h0.resolve_right hB0
    have hl : ¬ oy.indices.length = 0 := by rw [ey3.indices, List.length_eq_zero_iff]; exact hB0
    unfold mulParts
    rw [if_neg hl]
    refine evaluates_get (hsc hS hx hy hA0) ?_
    rintro r w2 hS2 _ ⟨a, ha, rfl⟩
    refine evaluates_mono (evaluates_scale hE hS2 hy (A.val []) ha) ?_
    rintro l D ⟨h1, h2, h3⟩
    refine ⟨by rw [h1, (hscal hx hA0).1]; rfl, by rw [h2, hA0]; rfl, fun pos ρ hp hρ => ?_⟩
    rw [h3 pos ρ hp hρ, (hscal hx hA0).2]

/-! Products -/

theorem sharedLabels_eq (lx ly : List Sym) : sharedLabels lx ly = sharedOf lx ly := by
  unfold sharedLabels sharedOf
  exact List.filter_congr fun s _ => by simp

theorem freeLabels_eq (lx ly : List Sym) : freeLabels lx ly = unshared lx ly := by
  unfold freeLabels unshared
  congr 1 <;> exact List.filter_congr fun s _ => by simp

theorem mem_sharedOf {lx ly : List Sym} {s : Sym} : s ∈ sharedOf lx ly ↔ s ∈ lx ∧ s ∈ ly := by simp [sharedOf]
theorem mem_unshared {lx ly : List Sym} {s : Sym} :
    s ∈ unshared lx ly ↔ (s ∈ lx ∧ s ∉ ly) ∨ (s ∈ ly ∧ s ∉ lx) := by simp [unshared]

theorem nodup_sharedOf {lx : List Sym} (hx : lx.Nodup) (ly : List Sym) : (sharedOf lx ly).Nodup := hx.filter _
theorem nodup_unshared {lx ly : List Sym} (hx : lx.Nodup) (hy : ly.Nodup) : (unshared lx ly).Nodup := by
  unfold unshared
  rw [List.nodup_append]
  refine ⟨hx.filter _, hy.filter _, ?_⟩
  intro a ha b hb
  simp only [List.mem_filter, decide_eq_true_eq] at ha hb
  rintro rfl
  exact ha.2 hb.1

theorem zip_posOf {labels : List Sym} (hn : labels.Nodup) {ix : List Int} (hl : labels.length = ix.length) :
    ix.zip labels = labels.map fun s => (posOf labels ix s, s) := by
  conv_lhs => rw [← map_posOf hn hl]
  generalize posOf labels ix = f
  clear hl hn
  induction labels with
  | nil => rfl
  | cons s l ih => simp [ih]

theorem keptIndices_eq {labels : List Sym} (hn : labels.Nodup) {ix : List Int} (hl : labels.length = ix.length)
    (result : List Sym) :
    keptIndices ix labels result = (labels.filter fun s => decide (s ∈ result)).map (posOf labels ix) := by
  unfold keptIndices
  rw [zip_posOf hn hl, List.filter_map, List.map_map]
  congr 1
  exact List.filter_congr fun s _ => by simp

/-- The position of a label in the configurations of two tensors. -/
def posOf2 (lx : List Sym) (ix : List Int) (ly : List Sym) (iy : List Int) (s : Sym) : Int :=
  if s ∈ lx then posOf lx ix s else posOf ly iy s

theorem positions_posOf2 (lx ly : List Sym) {ix iy : List Int} {r r' : Nat} (h : Config r ix) (h' : Config r' iy) :
    Positions (posOf2 lx ix ly iy) := by
  intro s
  unfold posOf2
  split_ifs
  · exact positions_posOf lx h s
  · exact positions_posOf ly h' s

theorem kept_both {lx ly : List Sym} (hx : lx.Nodup) (hy : ly.Nodup) {ix iy : List Int}
    (hlx : lx.length = ix.length) (hly : ly.length = iy.length) :
    keptIndices ix lx (unshared lx ly) ++ keptIndices iy ly (unshared lx ly) =
      (unshared lx ly).map (posOf2 lx ix ly iy) := by
  rw [keptIndices_eq hx hlx, keptIndices_eq hy hly]
  unfold unshared
  rw [List.map_append]
  have e1 : ∀ s ∈ lx, decide (s ∈ unshared lx ly) = decide (s ∉ ly) := by
    intro s hs
    simp only [mem_unshared, hs, true_and, not_true_eq_false, and_false, or_false]
  have e2 : ∀ s ∈ ly, decide (s ∈ unshared lx ly) = decide (s ∉ lx) := by
    intro s hs
    simp only [mem_unshared, hs, true_and, not_true_eq_false, and_false, false_or]
  unfold unshared at e1 e2
  rw [List.filter_congr e1, List.filter_congr e2]
  congr 1
  · refine List.map_congr_left fun s hs => ?_
    simp only [List.mem_filter] at hs
    simp [posOf2, hs.1]
  · refine List.map_congr_left fun s hs => ?_
    simp only [List.mem_filter, decide_eq_true_eq] at hs
    simp [posOf2, hs.2]

theorem partnerIndices_ok {lx ly : List Sym} (hy : ly.Nodup) {ix iy : List Int}
    (hlx : lx.length = ix.length) (hly : ly.length = iy.length) :
    partnerIndices ix lx iy ly = .ok (ly.map (turned (sharedOf lx ly) (posOf2 lx ix ly iy))) := by
  unfold partnerIndices
  rw [sharedLabels_eq]
  have hval : ∀ s ∈ ly, turned (sharedOf lx ly) (posOf2 lx ix ly iy) s =
      if s ∈ sharedOf lx ly then -posOf lx ix s else posOf ly iy s := by
    intro s hs
    unfold turned posOf2
    split_ifs with h1 h2 h2
    · rfl
    · exact absurd (mem_sharedOf.1 h1).1 h2
    · exact absurd (mem_sharedOf.2 ⟨h2, hs⟩) h1
    · rfl
  split_ifs with he
  · rw [List.isEmpty_iff] at he
    congr 1
    conv_lhs => rw [← map_posOf hy hly]
    refine List.map_congr_left fun s hs => ?_
    rw [hval s hs, he]
    simp
  · have := mapM_ok (fun p : Sym × Nat => if (sharedOf lx ly).contains p.1 then do
        let k ← labelPos lx p.1
        let i ← tupleGet ix k
        return -i
      else tupleGet iy p.2) (fun p => turned (sharedOf lx ly) (posOf2 lx ix ly iy) p.1) ly.zipIdx (by
        intro p hp
        obtain ⟨h1, h2⟩ := mem_zipIdx_idxOf hy hp
        rw [hval _ h1]
        by_cases hs : p.1 ∈ sharedOf lx ly
        · have hx := (mem_sharedOf.1 hs).1
          simp only [List.contains_iff_mem, hs, if_true, labelPos_ok hx, py_ok_bind]
          rw [tupleGet_ok (by rw [← hlx]; exact List.idxOf_lt_length_iff.2 hx) 1]
          rfl
        · simp only [List.contains_iff_mem, hs, if_false, h2]
          rw [tupleGet_ok (by rw [← hly]; exact List.idxOf_lt_length_iff.2 h1) 1]
          rfl)
    refine this.trans ?_
    congr 1
    rw [show (fun p : Sym × Nat => turned (sharedOf lx ly) (posOf2 lx ix ly iy) p.1) =
      turned (sharedOf lx ly) (posOf2 lx ix ly iy) ∘ Prod.fst from rfl, ← List.map_map, List.zipIdx_map_fst]

theorem sharedPairs_ok (lx ly : List Sym) : sharedPairs lx ly =
    .ok (((sharedOf lx ly).map fun s => (lx.idxOf s, ly.idxOf s)).map fun p => ((p.1 : Int), (p.2 : Int))) := by
  unfold sharedPairs
  rw [sharedLabels_eq, List.map_map]
  refine mapM_ok _ _ _ fun s hs => ?_
  rw [labelPos_ok (mem_sharedOf.1 hs).1, labelPos_ok (mem_sharedOf.1 hs).2]
  rfl

theorem posOf_map {l : List Sym} (f : Sym → Int) {s : Sym} (hs : s ∈ l) : posOf l (l.map f) s = f s :=
  getD_map_idxOf f l s hs 1

/-- The contraction of two arrays in terms of labels. -/
theorem contract_labels (hE : ∀ x, E.simp x = x) {n : Nat} (hn : 0 < n) {a b : Arr K} {lx ly : List Sym} (hx : lx.Nodup)
    (hy : ly.Nodup) (ha : a.shape = List.replicate lx.length n) (hb : b.shape = List.replicate ly.length n) :
    ∃ c, contract E a b (((sharedOf lx ly).map fun s => (lx.idxOf s, ly.idxOf s)).map fun p =>
        ((p.1 : Int), (p.2 : Int))) = .ok c ∧ c.WF ∧ c.shape = List.replicate (unshared lx ly).length n ∧
      ∀ ρ, Values n ρ → c.get ((unshared lx ly).map ρ) =
        sumOver n (sharedOf lx ly) (fun ρ' => a.get (lx.map ρ') * b.get (ly.map ρ')) ρ := by
  have hsx : ∀ s ∈ sharedOf lx ly, s ∈ lx := fun s hs => (mem_sharedOf.1 hs).1
  have hsy : ∀ s ∈ sharedOf lx ly, s ∈ ly := fun s hs => (mem_sharedOf.1 hs).2
  have hss := nodup_sharedOf hx ly
  have hps1 : ((sharedOf lx ly).map fun s => (lx.idxOf s, ly.idxOf s)).map (·.1) = (sharedOf lx ly).map lx.idxOf := by
    rw [List.map_map]; rfl
  have hps2 : ((sharedOf lx ly).map fun s => (lx.idxOf s, ly.idxOf s)).map (·.2) = (sharedOf lx ly).map ly.idxOf := by
    rw [List.map_map]; rfl
  obtain ⟨c, hc1, hc2, hc3, hc4, -⟩ := contract_spec E hE hn a b ha hb
    ((sharedOf lx ly).map fun s => (lx.idxOf s, ly.idxOf s))
    (by
      intro p hp
      obtain ⟨s, hs, rfl⟩ := List.mem_map.1 hp
      exact List.idxOf_lt_length_iff.2 (hsx s hs))
    (by
      intro p hp
      obtain ⟨s, hs, rfl⟩ := List.mem_map.1 hp
      exact List.idxOf_lt_length_iff.2 (hsy s hs))
    (by
      rw [hps1]
      exact hss.map_on fun s hs t _ h => (List.idxOf_inj (hsx s hs)).1 h)
    (by
      rw [hps2]
      exact hss.map_on fun s hs t _ h => (List.idxOf_inj (hsy s hs)).1 h)
  have e1 : (lx.filter fun s => decide (s ∉ sharedOf lx ly)) = lx.filter fun s => decide (s ∉ ly) :=
    List.filter_congr fun s hs => by simp [mem_sharedOf, hs]
  have e2 : (ly.filter fun s => decide (s ∉ sharedOf lx ly)) = ly.filter fun s => decide (s ∉ lx) :=
    List.filter_congr fun s hs => by simp [mem_sharedOf, hs]
  have hget : ∀ ρ, Values n ρ → c.get ((unshared lx ly).map ρ) =
      sumOver n (sharedOf lx ly) (fun ρ' => a.get (lx.map ρ') * b.get (ly.map ρ')) ρ := by
    intro ρ hρ
    have h := hc4 (lx.map ρ) (ly.map ρ) (by rw [ha]; exact valid_replicate.2 ⟨by simp, values_map hρ lx⟩)
      (by rw [hb]; exact valid_replicate.2 ⟨by simp, values_map hρ ly⟩)
    rw [hps1, hps2, dropAxes_labels hx hsx, dropAxes_labels hy hsy, e1, e2] at h
    rw [unshared, List.map_append, h, ← sumOver_tuples]
    simp only [List.length_map]
    refine congrArg List.sum (List.map_congr_left fun s hs => ?_)
    have hl : s.length = (sharedOf lx ly).length := (mem_tuples.1 hs).1
    rw [withAxes_labels hx hsx hss ρ s hl, withAxes_labels hy hsy hss ρ s hl]
  refine ⟨c, hc1, hc2, ?_, hget⟩
  rw [hc3]
  congr 1
  have l1 : (lx.filter fun s => decide (s ∈ ly)).length + (lx.filter fun s => decide (s ∉ ly)).length = lx.length := by
    have := List.length_eq_length_filter_add (l := lx) (fun s => decide (s ∈ ly))
    simp only [decide_not] at *
    omega
  have l2 : (ly.filter fun s => decide (s ∈ lx)).length + (ly.filter fun s => decide (s ∉ lx)).length = ly.length := by
    have := List.length_eq_length_filter_add (l := ly) (fun s => decide (s ∈ lx))
    simp only [decide_not] at *
    omega
  have l3 : (lx.filter fun s => decide (s ∈ ly)).length = (ly.filter fun s => decide (s ∈ lx)).length := by
    apply List.Perm.length_eq
    rw [List.perm_ext_iff_of_nodup (hx.filter _) (hy.filter _)]
    intro s
    simp [and_comm]
  simp only [List.length_map, unshared, List.length_append, sharedOf]
  omega

theorem evaluates_matmul (hE : ∀ x, E.simp x = x) (hS : Scene G V w) {x y : CalcObj} {t u : Id'} {A B : TField K}
    (hx : Denotes G V x t A) (hy : Denotes G V y u B) :
    Evaluates G V w (matmulTensors E x y) fun l D => l = unshared x.labels y.labels ∧
      D.ix = l.map (posOf2 x.labels A.ix y.labels B.ix) ∧
      ∀ pos ρ, Positions pos → Values G.n ρ → D.at G l pos ρ =
        contracted G (sharedOf x.labels y.labels) (A.at G x.labels) (B.at G y.labels) pos ρ := by
  obtain ⟨ox, ex1, ex2, ex3⟩ := tensorOf_ok hS hx.toNames
  obtain ⟨oy, ey1, ey2, ey3⟩ := tensorOf_ok hS hy.toNames
  have hA := ex3.config
  have hB := ey3.config
  unfold matmulTensors
  refine evaluates_step (metricAttr_ok hS hx.toNames) (evaluates_step (metricAttr_ok hS hy.toNames) ?_)
  rw [if_neg (by simp)]
  refine evaluates_step ex1 ?_
  dsimp only
  refine evaluates_step ey1 ?_
  dsimp only
  by_cases h0 : A.ix = [] ∨ B.ix = []
  · rw [if_pos (by rw [ex3.indices, ey3.indices, List.length_eq_zero_iff, List.length_eq_zero_iff]; exact h0)]
    refine evaluates_mono (evaluates_mulScalar hE hS hx hy h0) ?_
    rintro l D ⟨h1, h2, h3⟩
    have hsh : sharedOf x.labels y.labels = [] ∧ unshared x.labels y.labels = x.labels ++ y.labels := by
      rcases h0 with h0 | h0
      · have : x.labels = [] := List.length_eq_zero_iff.1 (by rw [hx.length, h0]; rfl)
        simp [sharedOf, unshared, this]
      · have : y.labels = [] := List.length_eq_zero_iff.1 (by rw [hy.length, h0]; rfl)
        simp [sharedOf, unshared, this]
    refine ⟨by rw [h1, hsh.2], ?_, fun pos ρ hp hρ => ?_⟩
    · rw [h2, h1]
      conv_lhs => rw [← map_posOf hx.nodup hx.length, ← map_posOf hy.nodup hy.length]
      rw [List.map_append]
      congr 1
      · exact List.map_congr_left fun s hs => by simp [posOf2, hs]
      · refine List.map_congr_left fun s hs => ?_
        have : s ∉ x.labels := fun h => by
          have : s ∈ sharedOf x.labels y.labels := mem_sharedOf.2 ⟨h, hs⟩
          rw [hsh.1] at this; cases this
        simp [posOf2, this]
    · rw [h3 pos ρ hp hρ, hsh.1]
      unfold contracted
      rw [show turned [] pos = pos from by funext s; simp [turned]]
      rfl
  · rw [if_neg (by rw [ex3.indices, ey3.indices, List.length_eq_zero_iff, List.length_eq_zero_iff]; exact h0)]
    rw [ex3.coords, hx.coords, ex3.indices, ey3.indices, ey3.coords, hy.coords, ex3.metric]
    have hpos0 := positions_posOf2 x.labels y.labels hA hB
    have hpos1 := positions_turned hpos0 (sharedOf x.labels y.labels)
    refine evaluates_get (Q := fun a => Agree G.n A.ix.length a (A.comp G A.ix))
      (scene_getComponents hE hS hx.field hA) ?_
    intro a w1 hS1 _ ha
    refine evaluates_lift (partnerIndices_ok hy.nodup hx.length hy.length) ?_
    refine evaluates_get (Q := fun b => Agree G.n B.ix.length b (B.comp G _))
      (scene_getComponents hE hS1 hy.field (hy.length ▸ config_map hpos1 y.labels)) ?_
    intro b w2 hS2 _ hb
    refine evaluates_lift (sharedPairs_ok _ _) ?_
    obtain ⟨c, hc1, hc2, hc3, hc4⟩ := contract_labels hE hS.pos hx.nodup hy.nodup (by rw [ha.2.1, hx.length])
      (by rw [hb.2.1, hy.length])
    refine evaluates_lift hc1 ?_
    have hnd := nodup_unshared hx.nodup hy.nodup
    rw [freeLabels_eq, kept_both hx.nodup hy.nodup hx.length hy.length]
    have hcfg : Config ((unshared x.labels y.labels).map (posOf2 x.labels A.ix y.labels B.ix)).length
        ((unshared x.labels y.labels).map (posOf2 x.labels A.ix y.labels B.ix)) := by
      have := config_map hpos0 (unshared x.labels y.labels)
      simpa using this
    refine evaluates_mono (evaluates_temp hE hS2 hc2 (by rw [hc3, List.length_map]) hcfg "T" hnd (by simp)) ?_
    rintro l D ⟨rfl, rfl⟩
    refine ⟨rfl, rfl, fun pos ρ hp hρ => ?_⟩
    have hLA := lawful_at hS.inverse hA hx.nodup hx.length
    have hLB := lawful_at hS.inverse hB hy.nodup hy.length
    have hout : ∀ s, s ∈ x.labels ∨ s ∈ y.labels → s ∉ sharedOf x.labels y.labels → s ∈ unshared x.labels y.labels := by
      intro s h1 h2
      rw [mem_sharedOf] at h2
      rw [mem_unshared]
      tauto
    have hO : ∀ pos pos' ρ, Positions pos → Positions pos' → Values G.n ρ →
        (∀ s ∈ unshared x.labels y.labels, pos s = pos' s) →
        contracted G (sharedOf x.labels y.labels) (A.at G x.labels) (B.at G y.labels) pos ρ =
          contracted G (sharedOf x.labels y.labels) (A.at G x.labels) (B.at G y.labels) pos' ρ := by
      intro pos pos' ρ h1 h2 h3 h
      exact onlyOn_contracted (l := unshared x.labels y.labels) hS.inverse hS.symm
        (fun s hs => (mem_sharedOf.1 hs).1) (fun s hs => (mem_sharedOf.1 hs).2) hLA hLB (onlyOn_at A _)
        (onlyOn_at B _) hout h1 h2 h3 h3 fun s hs => ⟨h s hs, rfl⟩
    refine at_ext (D := ⟨"TEMP", G.c, _, c.get⟩) hS.inverse hcfg hnd (by simp)
      (T := contracted G (sharedOf x.labels y.labels) (A.at G x.labels) (B.at G y.labels))
      (lawful_contracted hLA hLB (onlyOn_at A _) (onlyOn_at B _) fun s hs => ?_) hO ?_ hp hρ
    · rw [mem_unshared] at hs
      rw [mem_sharedOf]
      tauto
    · intro ρ hρ
      show c.get _ = _
      rw [hc4 ρ hρ, hO _ (posOf2 x.labels A.ix y.labels B.ix) ρ (positions_posOf _ hcfg) hpos0 hρ
        fun s hs => posOf_map _ hs]
      unfold contracted
      refine sumOver_congr hρ fun ρ' hρ' _ => ?_
      rw [agree_labels ha hx.length hρ', agree_labels hb hy.length hρ']
      unfold TField.at
      congr 2
      conv_lhs => rw [← map_posOf hx.nodup hx.length]
      exact List.map_congr_left fun s hs => by simp [posOf2, hs]

/-! Derivatives -/

theorem kept_all {ly result : List Sym} (hy : ly.Nodup) {iy : List Int} (hly : ly.length = iy.length)
    (h : ∀ s ∈ ly, s ∈ result) : keptIndices iy ly result = iy := by
  rw [keptIndices_eq hy hly, List.filter_eq_self.2 (by simpa using h), map_posOf hy hly]

/-- The derivative with a label that does not occur: `result` is the order of the labels. -/
theorem evaluates_gradient (hE : ∀ x, E.simp x = x) (hS : Scene G V w) {y : CalcObj} {u : Id'} {B : TField K}
    (hy : Denotes G V y u B) {a : Sym} (ha : a ∉ y.labels) {result : List Sym} (hr : result.Perm (a :: y.labels)) :
    Evaluates G V w (matmulPartial E [a] y result) fun l D => l = result ∧ D.ix = -1 :: B.ix ∧
      ∀ i I, i < G.n → I.length = B.ix.length → (∀ x ∈ I, x < G.n) →
        D.val (i :: I) = E.diff (G.syms.getD i "") (B.val I) := by
  obtain ⟨oy, ey1, ey2, ey3⟩ := tensorOf_ok hS hy.toNames
  have hB := ey3.config
  unfold matmulPartial
  refine evaluates_step ey1 ?_
  dsimp only
  have hax : derivativeAxis [a] y.labels = .ok none := by
    unfold derivativeAxis
    rw [sharedLabels_eq]
    have : sharedOf y.labels [a] = [] := by
      rw [List.eq_nil_iff_forall_not_mem]
      intro s hs
      obtain ⟨h1, h2⟩ := mem_sharedOf.1 hs
      rw [List.mem_singleton] at h2
      exact ha (h2 ▸ h1)
    rw [this]
  refine evaluates_lift hax (evaluates_lift (a := B.ix) (by rw [ey3.indices]; rfl) ?_)
  rw [ey3.coords, hy.coords, ey3.indices, ey3.metric]
  refine evaluates_get (Q := fun b => Agree G.n B.ix.length b (B.comp G B.ix))
    (scene_getComponents hE hS hy.field hB) ?_
  intro b w1 hS1 _ hb
  obtain ⟨oc, c1, c2, c3, c4⟩ := hS1.chart
  refine evaluates_step (getObj_ok c1 c3) ?_
  rw [c4]
  obtain ⟨c, hc1, hc2, hc3, hc4⟩ := partialContract_gradient E G.syms (by rw [hS.dim]; exact hS.pos) b
    (r := B.ix.length) (by rw [hb.2.1, hS.dim])
  refine evaluates_lift hc1 ?_
  rw [kept_all hy.nodup hy.length (fun s hs => hr.mem_iff.2 (by simp [hs]))]
  have hcfg : Config (-1 :: B.ix).length (-1 :: B.ix) := ⟨rfl, fun x hx => by
    rcases List.mem_cons.1 hx with rfl | hx
    · exact Or.inr rfl
    · exact hB.2 x hx⟩
  have hnd : result.Nodup := hr.nodup_iff.2 (List.nodup_cons.2 ⟨ha, hy.nodup⟩)
  refine evaluates_mono (evaluates_temp hE hS1 hc2 (by rw [hc3, hS.dim]; rfl) hcfg "T" hnd
    (by rw [hr.length_eq]; simp [hy.length])) ?_
  rintro l D ⟨rfl, rfl⟩
  refine ⟨rfl, rfl, fun i I hi h1 h2 => ?_⟩
  show c.get (i :: I) = _
  have hi' : i < G.syms.length := by rw [hS.dim]; exact hi
  rw [hc4 i I hi' (by rw [hb.2.1]; exact valid_replicate.2 ⟨h1, h2⟩), hb.2.2 I h1 h2, comp_self h2 h1,
    List.getD_eq_getElem?_getD, List.getElem?_eq_getElem hi']
  rfl

theorem posOf_set {labels : List Sym} (hn : labels.Nodup) {ix : List Int} (hl : labels.length = ix.length) {a : Sym}
    (ha : a ∈ labels) (v : Int) :
    ix.set (labels.idxOf a) v = labels.map (Function.update (posOf labels ix) a v) := by
  rw [map_update_nodup _ _ hn a ha, map_posOf hn hl]

/-- The derivative with one of the first two labels. -/
theorem evaluates_divergence (hE : ∀ x, E.simp x = x) (hS : Scene G V w) {y : CalcObj} {u : Id'} {B : TField K}
    (hy : Denotes G V y u B) {a : Sym} (ha : a ∈ y.labels) (hk : y.labels.idxOf a ≤ 1) {result : List Sym}
    (hr : result = y.labels.filter fun s => decide (s ≠ a)) :
    Evaluates G V w (matmulPartial E [a] y result) fun l D => l = result ∧ D.ix = l.map (posOf y.labels B.ix) ∧
      ∀ ρ, Values G.n ρ → D.value l ρ = ∑ k ∈ Finset.range G.n, E.diff (G.syms.getD k "")
        (B.at G y.labels (Function.update (posOf y.labels B.ix) a 1) (Function.update ρ a k)) := by
  obtain ⟨oy, ey1, ey2, ey3⟩ := tensorOf_ok hS hy.toNames
  have hB := ey3.config
  have hlt : y.labels.idxOf a < B.ix.length := by rw [← hy.length]; exact List.idxOf_lt_length_iff.2 ha
  unfold matmulPartial
  refine evaluates_step ey1 ?_
  dsimp only
  have hax : derivativeAxis [a] y.labels = .ok (some (y.labels.idxOf a)) := by
    unfold derivativeAxis
    rw [sharedLabels_eq]
    have hmem : ∀ s ∈ sharedOf y.labels [a], s = a := by
      intro s hs
      obtain ⟨h1, h2⟩ := mem_sharedOf.1 hs
      exact List.mem_singleton.1 h2
    cases hsh : sharedOf y.labels [a] with
    | nil =>
      have : a ∈ sharedOf y.labels [a] := mem_sharedOf.2 ⟨ha, by simp⟩
      rw [hsh] at this; cases this
    | cons s l =>
      have : s = a := hmem s (by rw [hsh]; simp)
      subst this
      dsimp only
      rw [labelPos_ok ha]; rfl
  refine evaluates_lift hax (evaluates_lift (a := B.ix.set (y.labels.idxOf a) 1) (by
    rw [ey3.indices]; unfold derivativeIndices; dsimp only; rw [if_pos hlt]) ?_)
  rw [ey3.coords, hy.coords, ey3.indices, ey3.metric]
  refine evaluates_get (Q := fun b => Agree G.n B.ix.length b (B.comp G (B.ix.set (y.labels.idxOf a) 1)))
    (scene_getComponents hE hS hy.field (config_set hB _ (Or.inl rfl))) ?_
  intro b w1 hS1 _ hb
  obtain ⟨oc, c1, c2, c3, c4⟩ := hS1.chart
  refine evaluates_step (getObj_ok c1 c3) ?_
  rw [c4]
  obtain ⟨c, hc1, hc2, hc3, hc4, -⟩ := partialContract_divergence E G.syms (by rw [hS.dim]; exact hS.pos) b
    (r := B.ix.length) (by rw [hb.2.1, hS.dim]) (y.labels.idxOf a) hlt hk
  refine evaluates_lift (by exact hc1) ?_
  have hkept : keptIndices B.ix y.labels result = result.map (posOf y.labels B.ix) := by
    rw [keptIndices_eq hy.nodup hy.length]
    congr 1
    rw [hr]
    refine List.filter_congr fun s hs => ?_
    simp [hs]
  have hsub : ∀ s ∈ [a], s ∈ y.labels := by simpa using ha
  have hres : result = y.labels.filter fun s => decide (s ∉ [a]) := by
    rw [hr]; exact List.filter_congr fun s hs => by simp
  rw [hkept]
  have hcfg : Config (result.map (posOf y.labels B.ix)).length (result.map (posOf y.labels B.ix)) := by
    have := config_map (positions_posOf y.labels hB) result
    simpa using this
  have hnd : result.Nodup := by rw [hr]; exact hy.nodup.filter _
  have hlen : result.length = B.ix.length - 1 := by
    have h1 : result = y.labels.erase a := by
      rw [hr, hy.nodup.erase_eq_filter]
      exact List.filter_congr fun s hs => by rw [Bool.eq_iff_iff]; simp
    rw [h1, List.length_erase_of_mem ha, hy.length]
  refine evaluates_mono (evaluates_temp hE hS1 hc2 (by rw [hc3, hS.dim, List.length_map, hlen]) hcfg "T" hnd
    (by simp)) ?_
  rintro l D ⟨rfl, rfl⟩
  refine ⟨rfl, rfl, fun ρ hρ => ?_⟩
  show c.get (l.map ρ) = _
  have hv : Valid b.shape (y.labels.map ρ) := by
    rw [hb.2.1]; exact valid_replicate.2 ⟨by simpa using hy.length, values_map hρ _⟩
  have h := hc4 (y.labels.map ρ) hv
  have hd := dropAxes_labels hy.nodup hsub ρ
  simp only [List.map_cons, List.map_nil] at hd
  rw [hd, ← hres] at h
  rw [h, sum_map_range, hS.dim]
  refine Finset.sum_congr rfl fun k hk' => ?_
  have hk'' : k < G.n := by simpa using hk'
  have hw := withAxes_labels hy.nodup hsub (by simp) ρ [k] rfl
  simp only [List.map_cons, List.map_nil] at hw
  rw [hw]
  show E.diff _ (b.get (y.labels.map (Function.update ρ a k))) = _
  rw [agree_labels hb hy.length (values_update hρ a hk''), posOf_set hy.nodup hy.length ha]
  rfl

end PyOGRe
