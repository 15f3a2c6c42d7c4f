import Verif.Lemmas.Stored

/-! Helper lemmas: the copy of the metric in `CalcChristoffel`. -/

namespace PyOGRe
open Spec Finset
variable {K : Type} [CommRing K] {E : Engine K} {G : Ground K} {V : View K} {w : World K}

/-- The metric with upper indices. -/
def upperMetric (G : Ground K) : TField K := ⟨"TEMP", G.c, [1, 1], fun J => G.gi (J.getD 0 0) (J.getD 1 0)⟩

theorem upperMetric_comp (hS : Scene G V w) {Dm : TField K} (hm : V G.m = some Dm) {cfg : List Int}
    (hcfg : Config 2 cfg) {J : List Nat} (hJ : J.length = 2) (hJn : ∀ x ∈ J, x < G.n) :
    (upperMetric G).comp G cfg J = Dm.comp G cfg J := by
  obtain ⟨h1, h2, h3⟩ := scene_metric_comp hS hm
  rw [← comp_trans hS.inverse (D := Dm) (cfg := [1, 1]) (by rw [h1]; exact h2) (by rw [h1]; exact ⟨rfl, by simp⟩)
    (by rw [h1]; exact hcfg) hJn (by rw [h1]; exact hJ)]
  unfold TField.comp upperMetric
  refine applyFactors_congr _ _ J fun I hI hIn => ?_
  rw [hJ] at hI
  match I, hI, hIn with
  | [i, j], _, hIn => exact ((h3 i j (hIn i (by simp)) (hIn j (by simp))).2.1).symm

omit [CommRing K] in
theorem modify_last {α : Type} (l : List α) (a : α) (f : α → α) : (l ++ [a]).modify l.length f = l ++ [f a] := by
  induction l with
  | nil => rfl
  | cons x l ih => simp only [List.cons_append, List.length_cons, List.modify_succ_cons, ih]

/-- One more object that is not registered. -/
theorem scene_hidden (hS : Scene G V w) {o : Obj K} {D : TField K} (h : Shows G D o) :
    Scene G (View.add V w.objs.length D) { w with objs := w.objs ++ [o] } ∧
      View.Extends V (View.add V w.objs.length D) ∧ OnlyTemps w { w with objs := w.objs ++ [o] } := by
  obtain ⟨oc, c1, c2, c3, c4⟩ := hS.chart
  obtain ⟨Dm, om, m1, m2, m3, m4⟩ := hS.metric
  have hext : View.Extends V (View.add V w.objs.length D) := by
    intro i D hi
    unfold View.add
    rw [if_neg (fun hc => by have := view_lt hS hi; rw [hc] at this; exact lt_irrefl _ this)]
    exact hi
  have hold : ∀ (i : Nat) oi, i ∈ w.instances → (w.objs ++ [o])[i]? = some oi → w.objs[i]? = some oi := by
    intro i oi hi hoi
    obtain ⟨o', k1, -⟩ := hS.registry.inUse i hi
    rw [getElem?_append_old k1] at hoi
    exact k1.trans hoi
  refine ⟨⟨hS.pos, ⟨oc, getElem?_append_old c1, c2, c3, c4⟩, hS.dim, hS.inverse, hS.symm,
    ⟨Dm, om, hext _ _ m1, getElem?_append_old m2, m3, m4⟩, ?_, ?_⟩, hext, ?_⟩
  · intro i D' hi
    unfold View.add at hi
    split_ifs at hi with hit
    · cases hi
      exact ⟨o, by rw [hit]; exact getElem?_append_length _ _, h⟩
    · obtain ⟨oi, h1, h2⟩ := hS.shows i D' hi
      exact ⟨oi, getElem?_append_old h1, h2⟩
  · have hR := hS.registry
    refine ⟨hR.nodup, fun i hi => ?_, fun i hi oi hoi r hr => ?_, fun i hi oi hoi hn => ?_⟩
    · obtain ⟨oi, k1, k2⟩ := hR.inUse i hi
      exact ⟨oi, getElem?_append_old k1, k2⟩
    · obtain ⟨o', k1, k2⟩ := hR.refs i hi oi (hold i oi hi hoi) r hr
      exact ⟨o', getElem?_append_old k1, k2⟩
    · exact hR.temp i hi oi (hold i oi hi hoi) hn
  · exact ⟨fun i oi hi => ⟨oi, getElem?_append_old hi, rfl, rfl, rfl, rfl, rfl, rfl, rfl, rfl, rfl⟩, [], by simp, by simp⟩

/-- The start of `CalcChristoffel`. -/
theorem does_copy (hS : Scene G V w) {Dm : TField K} (hm : V G.m = some Dm) (hmc : Dm.coords = G.c) {α : Type}
    {f : Id' → PyM K α} {Q : α → World K → Prop}
    (hf : ∀ w1, Scene G (View.add V w.objs.length (upperMetric G)) w1 →
      View.Extends V (View.add V w.objs.length (upperMetric G)) → OnlyTemps w w1 → Does (f w.objs.length) w1 Q) :
    Does (do
      let om ← getObj G.m
      let i ← copyAs G.m om.name
      changeDefaultIndices E i [1, 1]
      modifyObj i fun o => { o with name := "TEMP" }
      f i) w Q := by
  obtain ⟨o, o1, hsh⟩ := hS.shows _ _ hm
  obtain ⟨h1, h2, h3⟩ := scene_metric_comp hS hm
  obtain ⟨d, e1, e2, e3, e4, e5⟩ := hsh.stored
  have hok : o.kind = .metric := by
    obtain ⟨-, o', -, k1, k2, -⟩ := hS.metric
    rw [o1] at k1; cases k1; exact k2
  refine Does.step (getObj_ok o1 hsh.alive) ?_
  have hcopy : copyAs G.m o.name w = (.ok w.objs.length, { w with objs := w.objs ++ [{ o with name := o.name }] }) := by
    unfold copyAs
    show PyM.bind (getObj G.m) _ w = _
    unfold PyM.bind
    rw [getObj_ok o1 hsh.alive]
  refine Does.bind (Q := fun i w' => i = w.objs.length ∧ w' = { w with objs := w.objs ++ [o] }) ⟨_, _, hcopy, rfl, rfl⟩ ?_
  rintro i w1 ⟨rfl, rfl⟩
  have hget : getObj w.objs.length { w with objs := w.objs ++ [o] } = (.ok o, { w with objs := w.objs ++ [o] }) :=
    getObj_ok (getElem?_append_length _ _) hsh.alive
  have hch : changeDefaultIndices E w.objs.length [1, 1] { w with objs := w.objs ++ [o] } =
      (.ok (), { w with objs := w.objs ++ [{ o with indices := [1, 1] }] }) := by
    unfold changeDefaultIndices
    rw [PyM.bind_apply, hget]
    dsimp only
    rw [hsh.indices, PyM.bind_apply, show PyM.lift (validateIndices [1, 1] Dm.ix) { w with objs := w.objs ++ [o] } =
      (.ok (), { w with objs := w.objs ++ [o] }) by
        unfold PyM.lift validateIndices; rw [if_neg (by decide), if_neg (by rw [h1]; simp)]; rfl]
    dsimp only
    rw [PyM.bind_apply]
    unfold checkRepresentation
    rw [PyM.bind_apply, hget]
    dsimp only
    rw [hok]
    dsimp only
    unfold metricCheck
    rw [PyM.bind_apply, hget]
    dsimp only
    rw [hsh.coords, hmc, (Dict.has_iff _ _).2 ⟨_, e1⟩]
    show (Except.ok (), { w with objs := (w.objs ++ [o]).modify w.objs.length _ }) = _
    rw [modify_last, ← hmc, ← hsh.coords, ← hok]
  refine Does.bind (Q := fun _ w' => w' = { w with objs := w.objs ++ [{ o with indices := [1, 1] }] })
    ⟨_, _, hch, rfl⟩ ?_
  rintro _ w1 rfl
  refine Does.bind (Q := fun _ w' => w' = { w with objs := w.objs ++ [{ o with indices := [1, 1], name := "TEMP" }] })
    ⟨(), _, rfl, by rw [modify_last]⟩ ?_
  rintro _ w1 rfl
  obtain ⟨k1, k2, k3⟩ := scene_hidden hS (o := { o with indices := [1, 1], name := "TEMP" }) (D := upperMetric G)
    (by
      refine ⟨hsh.alive, hsh.kind, rfl, hsh.metric, hsh.coords.trans hmc, rfl, ⟨rfl, by simp [upperMetric]⟩, nofun, d, e1, e2, ?_, ?_, ?_⟩
      · intro cfg a ha
        obtain ⟨q1, q2, q3, q4⟩ := e3 cfg a ha
        rw [h1] at q1 q3
        refine ⟨q1, q2, q3, fun J hJ hJn => ?_⟩
        rw [q4 J (by rw [h1]; exact hJ) hJn, upperMetric_comp hS hm q1 hJ hJn]
      · intro _
        exact (e5 hok).2 [1, 1] ⟨rfl, by simp⟩
      · intro _
        exact ⟨rfl, (e5 hok).2⟩)
  exact hf _ k1 k2 k3

end PyOGRe
