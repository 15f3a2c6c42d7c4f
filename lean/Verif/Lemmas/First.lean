import Verif.Lemmas.Stale
import Verif.Props.Charts

/-! Helper lemmas: first requests in new coordinates when no Jacobian is stale. -/

namespace PyOGRe
open Spec
variable {K : Type} [CommRing K] {E : Engine K}

/-- The Jacobians that are used are those of the rules. -/
theorem noStale_used {w : World K} (h0 : NoStale E w) {c c' : Id'} {old new : List Sym} {rules : List (Option (Sym × K))}
    (hch : Charts w c c' old new (some rules)) {j : Jacobians K} (e : calculateJacobian E old new rules = .ok j) :
    cachedJacobian w c c' = some j ∨ (cachedJacobian w c c' = none ∧ calculateJacobian E old new rules = .ok j) := by
  obtain ⟨⟨oc, c1, c2, c3, c4, c5⟩, oc', c1', c2', c3', c4'⟩ := hch
  unfold cachedJacobian
  rw [c1]
  show oc.jac.get? c' = some j ∨ oc.jac.get? c' = none ∧ _
  cases hj : oc.jac.get? c' with
  | none => exact Or.inr ⟨rfl, e⟩
  | some j' =>
    obtain ⟨o', rules', k1, k2, k3⟩ := h0 _ _ c1 _ _ hj
    rw [c5] at k2; cases k2
    rw [c1'] at k1; cases k1
    rw [c4, c4', e] at k3
    cases k3
    exact Or.inl rfl

/-- Coordinate systems stay as they are. -/
theorem charts_leaves {N : Id' → Prop} {w w' : World K} (h : Leaves N w w') {c c' : Id'} {old new : List Sym}
    {rules : Option (List (Option (Sym × K)))} (hch : Charts w c c' old new rules)
    (hc : ∀ o, w.objs[c]? = some o → o.name ≠ "TEMP") (hc' : ∀ o, w.objs[c']? = some o → o.name ≠ "TEMP") :
    Charts w' c c' old new rules := by
  obtain ⟨⟨oc, c1, c2, c3, c4, c5⟩, oc', c1', c2', c3', c4'⟩ := hch
  obtain ⟨o1, a1, a2, -, -, -, -, -, a8, a9, a10⟩ := h.1 _ _ c1
  obtain ⟨o2, b1, b2, -, -, -, -, -, b8, -, b10⟩ := h.1 _ _ c1'
  exact ⟨⟨o1, a1, a2.trans c2, (a10 (hc _ c1)).1.trans c3, a8.trans c4, by rw [a9]; exact c5⟩,
    o2, b1, b2.trans c2', (b10 (hc' _ c1')).1.trans c3', b8.trans c4'⟩

/-- Christoffel symbols that are requested in new coordinates for the first time. -/
theorem christoffel_used (hE : EngineOK E) {w : World K} {t c c' : Id'} {ix : List Int} {b : Arr K}
    {n : Nat} (hn : 0 < n) {old new : List Sym} {rules : List (Option (Sym × K))}
    (hk : Known E w .christoffel t c ix b) (hl : ix.length = 3) (hu : Unseen w t c') (hb : b.shape = [n, n, n])
    (hch : Charts w c c' old new (some rules)) {j : Jacobians K}
    (hJ : j.J.shape = [n, n]) (hJi : j.Jinv.shape = [n, n]) (hJJ : j.JJ.shape = [n, n, n])
    (hj : cachedJacobian w c c' = some j ∨
      (cachedJacobian w c c' = none ∧ calculateJacobian E old new rules = .ok j)) :
    ∃ b' w', getComponents E t (some c') (some ix) w = (.ok b', w') ∧
      Agree n 3 b' fun I => substAll E (orderedRules old rules)
        (applyFactors n (ix.map (coordFactor (entry j.J) (entry j.Jinv))) b.get I +
          ∑ l ∈ Finset.range n, entry j.Jinv (I.getD 0 0) l * j.JJ.get [l, I.getD 1 0, I.getD 2 0]) := by
  obtain ⟨o, d, h1, h2, h3, h4, h5, h6, h7⟩ := known_stored hk
  obtain ⟨⟨oc, c1, c2, c3, c4, c5⟩, oc', c1', c2', c3', c4'⟩ := hch
  obtain ⟨b', e1, e2⟩ := transformChristoffel_spec hE.simp_eq hn j (orderedRules old rules) hJ hJi hJJ
    (validateIndices_ok h7).2 hl hb
  have hj' : UsedJacobians E oc oc' c' rules j := by
    unfold cachedJacobian at hj
    rw [c1] at hj
    rw [← c4, ← c4'] at hj
    exact hj
  obtain ⟨J, hJc, hg⟩ := christoffel_direct (E := E) h1 h2 h3 h4 h5 h6 (hu o h1) h7 c1 c3 c2 c1' c3' c2' c5 hj'
    (by rw [c4]; exact e1)
  exact ⟨b', _, hg, e2⟩

/-- What is stored is known. -/
theorem scene_known {G : Ground K} {V : View K} {w : World K} (hS : Scene G V w) {t : Id'} {D : TField K}
    (ht : V t = some D) (hc : D.coords = G.c) {o : Obj K} (ho : w.objs[t]? = some o) (hk : o.kind ≠ .metric)
    {cfg : List Int} {d : Dict (List Int) (Arr K)} {a : Arr K} (hd : o.comps.get? G.c = some d) (ha : d.get? cfg = some a) :
    Known E w o.kind t G.c cfg a ∧ Agree G.n D.ix.length a (D.comp G cfg) := by
  obtain ⟨o', ho', hsh⟩ := hS.shows _ _ ht
  rw [ho] at ho'; cases ho'
  obtain ⟨oc, c1, c2, c3, c4⟩ := hS.chart
  obtain ⟨d', e1, e2, e3, e4, e5⟩ := hsh.stored
  rw [hd] at e1; cases e1
  obtain ⟨h0, h1⟩ := e3 _ _ ha
  refine ⟨⟨⟨o, ho, rfl, hsh.coords.trans hc⟩, ?_⟩, h1⟩
  refine PyM.then_ok (getObj_ok ho hsh.alive) ?_
  rw [Option.getD_some, Option.getD_some]
  unfold getRepresentation
  refine PyM.then_ok (a := true) (w' := w) (by rw [isCoordinates_apply, c1]; simp [c2]) ?_
  simp only [Bool.not_true, Bool.false_eq_true, if_false]
  refine PyM.then_ok (getObj_ok ho hsh.alive) (PyM.then_ok (a := ()) (w' := w) ?_ (PyM.then_ok (a := true) (w' := w) ?_
    (PyM.then_ok (a := ()) (w' := w) rfl (readComps_ok ho hsh.alive hd ha))))
  · show (validateIndices _ _, w) = _
    rw [validateIndices_config h0 (by rw [hsh.indices])]
  · rw [checkRepresentation_tensor t G.c _ ho hsh.alive hk]
    unfold tensorCheck
    rw [PyM.bind_apply, getObj_ok ho hsh.alive]
    dsimp only
    rw [hd]
    dsimp only
    rw [(Dict.has_iff _ _).2 ⟨a, ha⟩]
    rfl

/-- Christoffel symbols that are requested in new coordinates for the first time, with the rules. -/
theorem christoffel_first (hE : EngineOK E) (hT : EngineTotal E) (hw : SwapOK E) {w : World K} {t c c' : Id'} {b : Arr K}
    {n : Nat} (hn : 0 < n) {old new : List Sym} {rules : List (Option (Sym × K))} {ix : List Int}
    (hk : Known E w .christoffel t c ix b) (hl : ix.length = 3) (hb : b.shape = [n, n, n]) (hu : Unseen w t c')
    (hch : Charts w c c' old new (some rules)) (hold : old.length = n) (hnew : new.length = n) (ho : old.Nodup)
    (hR : ChartRules E old new rules) (hs : NoStale E w) {Jinv : Nat → Nat → K}
    (hI : Inverse n (chartJacobian E old new rules) Jinv) :
    ∃ b' w', getComponents E t (some c') (some ix) w = (.ok b', w') ∧ b'.shape = [n, n, n] ∧
      ∀ i j k, i < n → j < n → k < n → b'.get [i, j, k] = substAll E rules
        (applyFactors n (ix.map (coordFactor (chartJacobian E old new rules) Jinv)) b.get [i, j, k] +
          ∑ l ∈ Finset.range n, Jinv i l * chartJacobian2 E old new rules l j k) := by
  obtain ⟨jj, e⟩ := calculateJacobian_total hE hT hn hold hnew hR.once hI
  obtain ⟨-, s1, -, s2, -, s3, s4, s5, s6⟩ := calculateJacobian_sound E hE old new n hold rules hR.once jj e
  obtain ⟨b', w', h1, h2⟩ := christoffel_used hE hn hk hl hu hb hch s1 s2 s3 (noStale_used hs hch e)
  refine ⟨b', w', h1, h2.2.1, fun i j k hi hj hk => ?_⟩
  have hv : ∀ x ∈ [i, j, k], x < n := by simp [hi, hj, hk]
  refine (h2.2.2 [i, j, k] rfl hv).trans ?_
  have hinv := fun i k hi hk => inverse_unique (inverse_congr s5 s4 fun _ _ _ _ => rfl) hI i k hi hk
  dsimp only
  rw [substAll_ordered hw hR ho]
  congr 1
  refine congrArg₂ (· + ·) ?_ (Finset.sum_congr rfl fun l hl => ?_)
  · refine applyFactors_congr_factors _ _ _ hv ?_
    rw [List.forall₂_map_left_iff, List.forall₂_map_right_iff, List.forall₂_same]
    intro x _ i j hi hj
    unfold coordFactor
    split_ifs
    · exact hinv _ _ hi hj
    · exact s4 _ _ hj hi
  · exact congrArg₂ (· * ·) (hinv _ _ hi (Finset.mem_range.1 hl)) (s6 _ _ _ (Finset.mem_range.1 hl) hj hk)

/-- A tensor that is requested in new coordinates for the first time, with the rules. -/
theorem tensor_first (hE : EngineOK E) (hT : EngineTotal E) {w : World K} {t c c' : Id'} {b : Arr K}
    {n : Nat} (hn : 0 < n) {old new : List Sym} {rules : List (Option (Sym × K))} {ix : List Int}
    (hk : Known E w .tensor t c ix b) (hb : b.shape = List.replicate ix.length n) (hu : Unseen w t c')
    (hnat : Native w t c)
    (hch : Charts w c c' old new (some rules)) (hold : old.length = n) (hnew : new.length = n)
    (hR : GoodRules rules) (hs : NoStale E w) {Jinv : Nat → Nat → K}
    (hI : Inverse n (chartJacobian E old new rules) Jinv) :
    ∃ b' w', getComponents E t (some c') (some ix) w = (.ok b', w') ∧
      Agree n ix.length b' (transformed E n (chartJacobian E old new rules) Jinv rules ix b.get) := by
  obtain ⟨jj, e⟩ := calculateJacobian_total hE hT hn hold hnew hR hI
  obtain ⟨-, s1, -, s2, -, s3, s4, s5, s6⟩ := calculateJacobian_sound E hE old new n hold rules hR jj e
  obtain ⟨b', w', h1, h2, -⟩ := transform_used hE hn hk hu hnat hb hch s1 s2 (noStale_used hs hch e)
  refine ⟨b', w', h1, h2.1, h2.2.1, fun I hl hI' => (h2.2.2 I hl hI').trans ?_⟩
  exact transformed_congr s4 (fun i k hi hk => inverse_unique (inverse_congr s5 s4 fun _ _ _ _ => rfl) hI i k hi hk) _ _ _ _ hI'

/-- A request without configuration is one for the default configuration. -/
theorem getComponents_noConfig {w : World K} {t : Id'} {o : Obj K} (ho : w.objs[t]? = some o) (hal : o.alive = true)
    (c : Option Id') : getComponents E t c none w = getComponents E t c (some o.indices) w := by
  unfold getComponents
  rw [PyM.bind_apply, PyM.bind_apply, getObj_ok ho hal]
  rfl

variable [DecidableEq K] [Algebra ℚ K]

/-- What has been computed for the first time can be requested in new coordinates. -/
theorem first_ready {G : Ground K} {V : View K} {w : World K} {base : String} {m : PyM K Id'} {q : Quantity}
    (hP : Provides E G V w base m q) (hsafe : Safe E m) (hsingle : ∀ r w', m w = (.ok r, w') → Single w' r)
    (hs : NoStale E w) {c' : Id'} {new : List Sym} {rules : List (Option (Sym × K))}
    (hch : Charts w G.c c' G.syms new (some rules)) (hcc : c' ≠ G.c) (hct : ∀ o, w.objs[c']? = some o → o.name ≠ "TEMP") :
    Does m w fun r w' => ∃ V' D o b, Scene G V' w' ∧ InView G V' r q.ix (q.comps E G) D ∧ w'.objs[r]? = some o ∧
      o.alive = true ∧ o.indices = q.ix ∧ Known E w' q.kind r G.c q.ix b ∧ Agree G.n q.ix.length b (q.comps E G) ∧
      (Unseen w' r c' ∧ Native w' r G.c) ∧ Charts w' G.c c' G.syms new (some rules) ∧ NoStale E w' := by
  obtain ⟨r, w', h1, V', D, h2, h3, h4, h5, h6, ⟨o, h7, h8, h9⟩, h10⟩ := hP
  obtain ⟨o', k1, hsh⟩ := h2.shows _ _ h10.view
  rw [h7] at k1; cases k1
  obtain ⟨d, e1, e2, e3, e4, e5⟩ := hsh.stored
  obtain ⟨b, hb⟩ := e4 h10.coords
  have hk : o.kind ≠ .metric := by rw [h8]; cases q <;> decide
  obtain ⟨f1, f2⟩ := scene_known (E := E) h2 h10.view h10.coords h7 hk e1 hb
  rw [h10.cfg, h8] at f1
  refine ⟨r, w', h1, V', D, o, b, h2, h10, h7, hsh.alive, by rw [hsh.indices, h10.cfg], f1, ?_, ?_, ?_, ?_⟩
  · rw [h10.cfg] at f2
    refine ⟨f2.1, f2.2.1, fun J hl hJ => ?_⟩
    rw [f2.2.2 J hl hJ, ← h10.cfg, comp_self (by exact hJ) (by rw [h10.cfg]; exact hl), h10.val J hl hJ]
  · obtain ⟨o3, g1, g2⟩ := hsingle r w' h1
    rw [h7] at g1; cases g1
    rw [hsh.coords, h10.coords] at g2
    refine ⟨fun o2 ho2 => ?_, fun o2 ho2 hi => ?_⟩ <;> rw [h7] at ho2 <;> cases ho2
    · exact g2 c' hcc
    · exact head_isArray (isArray_only e1 g2) hi
  · obtain ⟨⟨oc, c1, c2, c3, c4, c5⟩, oc', c1', c2', c3', c4'⟩ := hch
    obtain ⟨o1, a1, a2, -, -, -, -, -, a8, a9, -⟩ := h4.1 _ _ c1
    obtain ⟨o2, b1, b2, -, -, -, -, -, b8, -, b10⟩ := h4.1 _ _ c1'
    obtain ⟨o3, d1, d2, d3, -⟩ := h2.chart
    rw [a1] at d1; cases d1
    exact ⟨⟨o1, a1, a2.trans c2, d3, a8.trans c4, by rw [a9]; exact c5⟩,
      o2, b1, b2.trans c2', (b10 (hct _ c1')).1.trans c3', b8.trans c4'⟩
  · have := hsafe w hs
    rw [h1] at this
    exact this

end PyOGRe
