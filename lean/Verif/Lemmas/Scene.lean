import Verif.Lemmas.Contracted
import Verif.Lemmas.Frame
import Verif.Lemmas.Direct

/-! Helper lemmas: requests and new tensors in a scene. -/

namespace PyOGRe
open Spec
variable {K : Type}

theorem Does.bind {α β : Type} {m : PyM K α} {f : α → PyM K β} {w : World K} {Q : α → World K → Prop}
    {R : β → World K → Prop} (h : Does m w Q) (hf : ∀ a w', Q a w' → Does (f a) w' R) : Does (m >>= f) w R := by
  obtain ⟨a, w', h1, h2⟩ := h
  obtain ⟨b, w'', h3, h4⟩ := hf a w' h2
  exact ⟨b, w'', by rw [PyM.bind_apply, h1]; exact h3, h4⟩

theorem Does.mono {α : Type} {m : PyM K α} {w : World K} {Q R : α → World K → Prop} (h : Does m w Q)
    (hf : ∀ a w', Q a w' → R a w') : Does m w R := by
  obtain ⟨a, w', h1, h2⟩ := h
  exact ⟨a, w', h1, hf a w' h2⟩

theorem Does.pure {α : Type} {a : α} {w : World K} {Q : α → World K → Prop} (h : Q a w) :
    Does (Pure.pure a) w Q := ⟨a, w, rfl, h⟩

/-- A step that does not change the state. -/
theorem Does.step {α β : Type} {m : PyM K α} {f : α → PyM K β} {w : World K} {R : β → World K → Prop} {a : α}
    (h : m w = (.ok a, w)) (hf : Does (f a) w R) : Does (m >>= f) w R := by
  obtain ⟨b, w'', h3, h4⟩ := hf
  exact ⟨b, w'', by rw [PyM.bind_apply, h]; exact h3, h4⟩

theorem Does.lift {α β : Type} {x : Py α} {f : α → PyM K β} {w : World K} {R : β → World K → Prop} {a : α}
    (h : x = .ok a) (hf : Does (f a) w R) : Does (PyM.lift x >>= f) w R := Does.step (by rw [h]; rfl) hf

theorem Does.skip {f : Unit → PyM K β} {m : PyM K Unit} {w : World K} {R : β → World K → Prop} {b : Bool}
    (h : b = false) (hf : Does (f ()) w R) : Does (PyM.onlyIf b m >>= f) w R := by
  subst h
  exact Does.step rfl hf

theorem Fails.bind {α β : Type} {m : PyM K α} {f : α → PyM K β} {w : World K} {Q : α → World K → Prop} {e : PyErr}
    (h : Does m w Q) (hf : ∀ a w', Q a w' → Fails (f a) w' e) : Fails (m >>= f) w e := by
  obtain ⟨a, w', h1, h2⟩ := h
  obtain ⟨w'', h3⟩ := hf a w' h2
  exact ⟨w'', by rw [PyM.bind_apply, h1]; exact h3⟩

theorem Fails.step {α β : Type} {m : PyM K α} {f : α → PyM K β} {w : World K} {e : PyErr} {a : α}
    (h : m w = (.ok a, w)) (hf : Fails (f a) w e) : Fails (m >>= f) w e := by
  obtain ⟨w'', h3⟩ := hf
  exact ⟨w'', by rw [PyM.bind_apply, h]; exact h3⟩

theorem Fails.lift {α β : Type} {x : Py α} {f : α → PyM K β} {w : World K} {e : PyErr} {a : α}
    (h : x = .ok a) (hf : Fails (f a) w e) : Fails (PyM.lift x >>= f) w e := Fails.step (by rw [h]; rfl) hf

theorem Fails.liftError {α β : Type} {x : Py α} {f : α → PyM K β} {w : World K} {e : PyErr}
    (h : x = .error e) : Fails (PyM.lift x >>= f) w e := ⟨w, by rw [PyM.bind_apply, h]; rfl⟩

theorem Fails.of {α β : Type} {m : PyM K α} {f : α → PyM K β} {w : World K} {e : PyErr} (h : Fails m w e) :
    Fails (m >>= f) w e := by
  obtain ⟨w', h⟩ := h
  exact ⟨w', by rw [PyM.bind_apply, h]⟩

theorem pyM_bind_assoc {α β γ : Type} (m : PyM K α) (f : α → PyM K β) (g : β → PyM K γ) :
    (m >>= f) >>= g = m >>= fun a => f a >>= g := by
  funext w
  rw [PyM.bind_apply, PyM.bind_apply, PyM.bind_apply]
  rcases m w with ⟨r, w'⟩
  cases r <;> rfl

theorem requireTensor_ok {t : Id'} {w : World K} {o : Obj K} (ho : w.objs[t]? = some o) (hk : o.kind ≠ .coordinates) :
    requireTensor t w = (.ok (), w) := by
  unfold requireTensor
  rw [ho]
  simp [hk]

theorem shows_noCoordinates [CommRing K] {G : Ground K} {D : TField K} {o : Obj K} (h : Shows G D o) :
    o.kind ≠ .coordinates := by
  rcases h.kind with h | h | h <;> rw [h] <;> decide

theorem onlyTemps_refl (w : World K) : OnlyTemps w w :=
  ⟨fun _ o h => ⟨o, h, rfl, rfl, rfl, rfl, rfl, rfl, rfl, rfl, rfl⟩, [], by simp, by simp⟩

theorem onlyTemps_frame {w w' : World K} (h : Frame w w') : OnlyTemps w w' := by
  refine ⟨fun i o ho => ?_, [], by simp [h.2], by simp⟩
  obtain ⟨o', h1, h2⟩ := h.get ho
  simp only [Obj.core, Prod.mk.injEq] at h2
  exact ⟨o', h1, h2⟩

theorem lt_of_getElem? {α : Type} {l : List α} {i : Nat} {x : α} (h : l[i]? = some x) : i < l.length := by
  by_contra hc
  rw [List.getElem?_eq_none (by omega)] at h; cases h

theorem onlyTemps_length {w w' : World K} (h : OnlyTemps w w') : w.objs.length ≤ w'.objs.length := by
  by_contra hc
  have hl : w'.objs.length < w.objs.length := by omega
  obtain ⟨o', h1, -⟩ := h.1 w'.objs.length _ (List.getElem?_eq_getElem hl)
  have := lt_of_getElem? h1
  omega

theorem onlyTemps_trans {w w' w'' : World K} (h : OnlyTemps w w') (h' : OnlyTemps w' w'') : OnlyTemps w w'' := by
  have hlen := onlyTemps_length h
  obtain ⟨h1, l, h2, h3⟩ := h
  obtain ⟨k1, l', k2, k3⟩ := h'
  refine ⟨fun i o ho => ?_, l ++ l', by rw [k2, h2, List.append_assoc], fun i hi => ?_⟩
  · obtain ⟨o', e1, e2, e3, e4, e5, e6, e7, e8, e9, e10⟩ := h1 i o ho
    obtain ⟨o'', f1, f2, f3, f4, f5, f6, f7, f8, f9, f10⟩ := k1 i o' e1
    exact ⟨o'', f1, f2.trans e2, f3.trans e3, f4.trans e4, f5.trans e5, f6.trans e6, f7.trans e7, f8.trans e8,
      f9.trans e9, f10.trans e10⟩
  · rcases List.mem_append.1 hi with hi | hi
    · obtain ⟨e1, o, e2, e3⟩ := h3 i hi
      obtain ⟨o', f1, f2, f3, -⟩ := k1 i o e2
      exact ⟨e1, o', f1, f3.trans e3⟩
    · obtain ⟨e1, e2⟩ := k3 i hi
      exact ⟨by omega, e2⟩

theorem extends_refl (V : View K) : V.Extends V := fun _ _ h => h
theorem extends_trans {V V' V'' : View K} (h : V.Extends V') (h' : V'.Extends V'') : V.Extends V'' :=
  fun t D ht => h' t D (h t D ht)

section
variable [CommRing K] {E : Engine K} {G : Ground K} {V : View K} {w : World K}

theorem Dict.has_set {α β : Type} [DecidableEq α] {d : Dict α β} {k : α} (h : d.has k = true) (v : β) (k' : α) :
    (d.set k v).has k' = d.has k' := by
  rw [Bool.eq_iff_iff, Dict.has_iff, Dict.has_iff, Dict.get?_set]
  by_cases hk : k = k'
  · subst hk
    rw [Dict.has_iff] at h
    simp [h]
  · simp [hk]

/-- Storing another representation of a tensor. -/
theorem scene_store (hS : Scene G V w) {t : Id'} {D : TField K} (ht : V t = some D) {o : Obj K}
    (ho : w.objs[t]? = some o) {d : Dict (List Int) (Arr K)} (hd : o.comps.get? G.c = some d) {cfg : List Int}
    (hcfg : Config D.ix.length cfg) {b : Arr K} (hb : Agree G.n D.ix.length b (D.comp G cfg)) :
    Scene G V (upd w t fun o => { o with comps := o.comps.set G.c (d.set cfg b) }) := by
  have hsh : ∃ o, w.objs[t]? = some o ∧ Shows G D o := hS.shows t D ht
  obtain ⟨o1, ho1, hsh⟩ := hsh
  rw [ho] at ho1; cases ho1
  have hold : ∀ (i : Id') oi, w.objs[i]? = some oi → ∃ oi',
      (upd w t fun o => { o with comps := o.comps.set G.c (d.set cfg b) }).objs[i]? = some oi' ∧
      oi'.kind = oi.kind ∧ oi'.alive = oi.alive ∧ oi'.syms = oi.syms ∧ oi'.name = oi.name ∧
      (i ≠ t → oi' = oi) ∧ oi'.uses = oi.uses := by
    intro i oi hi
    by_cases hit : t = i
    · subst hit
      rw [ho] at hi; cases hi
      refine ⟨_, upd_self ho, rfl, rfl, rfl, rfl, fun h => absurd rfl h, ?_⟩
      funext k
      unfold Obj.uses
      dsimp only
      rw [Dict.has_set ((Dict.has_iff _ _).2 ⟨d, hd⟩)]
    · exact ⟨oi, by rw [upd_ne hit]; exact hi, rfl, rfl, rfl, rfl, fun _ => rfl, rfl⟩
  have hnew : ∀ (i : Id') oi',
      (upd w t fun o => { o with comps := o.comps.set G.c (d.set cfg b) }).objs[i]? = some oi' →
      ∃ oi, w.objs[i]? = some oi := by
    intro i oi' hi
    by_cases hit : t = i
    · subst hit; exact ⟨o, ho⟩
    · rw [upd_ne hit] at hi; exact ⟨oi', hi⟩
  refine ⟨hS.pos, ?_, hS.dim, hS.inverse, hS.symm, ?_, ?_, ?_⟩
  · obtain ⟨oc, c1, c2, c3, c4⟩ := hS.chart
    obtain ⟨oc', e1, e2, e3, e4, -⟩ := hold G.c oc c1
    exact ⟨oc', e1, e2.trans c2, e3.trans c3, e4.trans c4⟩
  · obtain ⟨Dm, om, m1, m2, m3, m4⟩ := hS.metric
    obtain ⟨om', e1, e2, -⟩ := hold G.m om m2
    exact ⟨Dm, om', m1, e1, e2.trans m3, m4⟩
  · intro i Di hi
    obtain ⟨oi, h1, h2⟩ := hS.shows i Di hi
    by_cases hit : t = i
    · subst hit
      rw [ho] at h1; cases h1
      rw [ht] at hi; cases hi
      refine ⟨_, upd_self ho, h2.alive, h2.kind, h2.name, h2.metric, h2.coords, h2.indices, h2.config,
        fun hi => head_set (h2.native hi) _ _, ?_⟩
      obtain ⟨d', k1, k2, k3, k4, k5⟩ := h2.stored
      rw [hd] at k1; cases k1
      refine ⟨d.set cfg b, Dict.get?_set_self _ _ _, ?_, ?_, ?_, ?_⟩
      · intro h
        have := Dict.get?_set_self d cfg b
        rw [h] at this; cases this
      · intro cfg' a ha
        rw [Dict.get?_set] at ha
        split_ifs at ha with hc
        · cases ha; subst hc; exact ⟨hcfg, hb⟩
        · exact k3 cfg' a ha
      · intro hc
        obtain ⟨a, ha⟩ := k4 hc
        rw [Dict.get?_set]
        split_ifs
        · exact ⟨b, rfl⟩
        · exact ⟨a, ha⟩
      · intro hk
        refine ⟨(k5 hk).1, fun cfg' hc => ?_⟩
        obtain ⟨a, ha⟩ := (k5 hk).2 cfg' hc
        rw [Dict.get?_set]
        split_ifs
        · exact ⟨b, rfl⟩
        · exact ⟨a, ha⟩
    · exact ⟨oi, by rw [upd_ne hit]; exact h1, h2⟩
  · have hR := hS.registry
    refine ⟨hR.nodup, ?_, ?_, ?_⟩
    · intro i hi
      obtain ⟨oi, h1, h2⟩ := hR.inUse i hi
      obtain ⟨oi', e1, e2, e3, -⟩ := hold i oi h1
      exact ⟨oi', e1, e3.trans h2⟩
    · intro i hi oi' hoi' r hr
      obtain ⟨oi, h1⟩ := hnew i oi' hoi'
      obtain ⟨oi'', e1, -, -, -, -, -, e7⟩ := hold i oi h1
      rw [hoi'] at e1; cases e1
      rw [e7] at hr
      obtain ⟨o2, f1, f2⟩ := hR.refs i hi oi h1 r hr
      obtain ⟨o2', g1, g2, -⟩ := hold r o2 f1
      exact ⟨o2', g1, by rw [g2]; exact f2⟩
    · intro i hi oi' hoi' hn
      obtain ⟨oi, h1⟩ := hnew i oi' hoi'
      obtain ⟨oi'', e1, e2, -, -, e5, -⟩ := hold i oi h1
      rw [hoi'] at e1; cases e1
      rw [e2]
      exact hR.temp i hi oi h1 (e5 ▸ hn)

theorem config2_cases {cfg : List Int} (h : Config 2 cfg) :
    cfg = [-1, -1] ∨ cfg = [1, 1] ∨ cfg = [1, -1] ∨ cfg = [-1, 1] := by
  obtain ⟨h1, h2⟩ := h
  match cfg, h1 with
  | [a, b], _ =>
    have ha := h2 a (by simp)
    have hb := h2 b (by simp)
    rcases ha with rfl | rfl <;> rcases hb with rfl | rfl <;> simp

/-- The components of a metric, from its lower components. -/
theorem metric_comp (hinv : Inverse G.n G.g G.gi) (hsym : ∀ i j, i < G.n → j < G.n → G.g i j = G.g j i)
    {D : TField K} (hl : D.ix.length = 2) (hcf : Config D.ix.length D.ix)
    (h4 : ∀ i j, i < G.n → j < G.n → D.comp G [-1, -1] [i, j] = G.g i j) (i j : Nat) (hi : i < G.n) (hj : j < G.n) :
      D.comp G [-1, -1] [i, j] = G.g i j ∧ D.comp G [1, 1] [i, j] = G.gi i j ∧
      D.comp G [1, -1] [i, j] = delta i j ∧ D.comp G [-1, 1] [i, j] = delta i j := by
  have hJ : ∀ x ∈ [i, j], x < G.n := by simp [hi, hj]
  have hgs := inverse_symm hinv hsym
  have base : ∀ cfg, Config 2 cfg → D.comp G cfg [i, j] = applyFactors G.n
      (List.zipWith (indexFactor G.g G.gi) [-1, -1] cfg) (fun J => G.g (J.getD 0 0) (J.getD 1 0)) [i, j] := by
    intro cfg hcfg
    rw [← comp_trans hinv hcf (cfg := [-1, -1]) (hl ▸ config_two (Or.inr rfl) (Or.inr rfl))
      (hl ▸ hcfg) hJ hl.symm]
    apply applyFactors_congr
    intro s hs1 hs2
    match s, hs1 with
    | [a, b], _ => exact h4 a b (hs2 a (by simp)) (hs2 b (by simp))
  refine ⟨h4 i j hi hj, ?_, ?_, ?_⟩
  · rw [base _ (config_two (Or.inl rfl) (Or.inl rfl))]
    show applyFactors G.n [indexFactor _ _ _ _, indexFactor _ _ _ _] _ _ = _
    rw [applyFactors_two]
    simp only [indexFactor, and_self, if_true, List.getD_cons_zero, List.getD_cons_succ]
    have e : ∀ k ∈ Finset.range G.n, (∑ l ∈ Finset.range G.n, G.gi i k * (G.gi j l * G.g k l)) =
        G.gi i k * delta k j := by
      intro k hk
      rw [← Finset.mul_sum, ← (hinv k j (by simpa using hk) hj).1, matMul]
      congr 1
      refine Finset.sum_congr rfl fun l hl' => ?_
      rw [hgs j l hj (by simpa using hl')]; ring
    first
    | rw [Finset.sum_congr rfl e]
    | (simp only [Finset.mul_sum]; rw [Finset.sum_congr rfl e])
    rw [Finset.sum_eq_single_of_mem j (by simpa using hj)]
    · simp [delta]
    · intro k _ hk; simp [delta, hk]
  · rw [base _ (config_two (Or.inl rfl) (Or.inr rfl))]
    show applyFactors G.n [indexFactor _ _ _ _, indexFactor _ _ _ _] _ _ = _
    rw [applyFactors_two, ← (hinv i j hi hj).2, matMul]
    refine Finset.sum_congr rfl fun k hk => ?_
    simp [indexFactor, delta, hj]
  · rw [base _ (config_two (Or.inr rfl) (Or.inl rfl))]
    show applyFactors G.n [indexFactor _ _ _ _, indexFactor _ _ _ _] _ _ = _
    rw [applyFactors_two, ← (hinv i j hi hj).1, matMul, Finset.sum_eq_single_of_mem i (by simpa using hi)]
    · refine Finset.sum_congr rfl fun k hk => ?_
      rw [← hgs j k hj (by simpa using hk)]
      simp [indexFactor, delta]
      try ring
    · intro k _ hk
      simp [indexFactor, delta, Ne.symm hk]

/-- The components of the metric in the scene. -/
theorem scene_metric_comp (hS : Scene G V w) {D : TField K} (hD : V G.m = some D) :
    D.ix.length = 2 ∧ Config 2 D.ix ∧ ∀ i j, i < G.n → j < G.n →
      D.comp G [-1, -1] [i, j] = G.g i j ∧ D.comp G [1, 1] [i, j] = G.gi i j ∧
      D.comp G [1, -1] [i, j] = delta i j ∧ D.comp G [-1, 1] [i, j] = delta i j := by
  obtain ⟨D', o, h1, h2, h3, h4⟩ := hS.metric
  rw [hD] at h1; cases h1
  obtain ⟨o', k1, hsh⟩ := hS.shows _ _ hD
  rw [h2] at k1; cases k1
  obtain ⟨d, -, -, -, -, k⟩ := hsh.stored
  have hl := (k h3).1
  have hc : Config 2 D.ix := hl ▸ hsh.config
  exact ⟨hl, hc, fun i j hi hj => metric_comp hS.inverse hS.symm hl hsh.config h4 i j hi hj⟩

/-- The metric's components that are used for raising and lowering. -/
theorem scene_metric_read (hS : Scene G V w) : ∃ om dm g gi, w.objs[G.m]? = some om ∧ om.alive = true ∧
    om.comps.get? G.c = some dm ∧ dm.get? [-1, -1] = some g ∧ dm.get? [1, 1] = some gi ∧
    g.shape = [G.n, G.n] ∧ gi.shape = [G.n, G.n] ∧
    ∀ i j, i < G.n → j < G.n → g.mat i j = G.g i j ∧ gi.mat i j = G.gi i j := by
  obtain ⟨D, om, h1, h2, h3, h4⟩ := hS.metric
  obtain ⟨o', k1, hsh⟩ := hS.shows _ _ h1
  rw [h2] at k1; cases k1
  obtain ⟨hl, -, hcomp⟩ := scene_metric_comp hS h1
  obtain ⟨dm, e1, e2, e3, e4, e5⟩ := hsh.stored
  obtain ⟨g, hg⟩ := (e5 h3).2 [-1, -1] (config_two (Or.inr rfl) (Or.inr rfl))
  obtain ⟨gi, hgi⟩ := (e5 h3).2 [1, 1] (config_two (Or.inl rfl) (Or.inl rfl))
  obtain ⟨-, a1, a2, a3⟩ := e3 _ _ hg
  obtain ⟨-, b1, b2, b3⟩ := e3 _ _ hgi
  refine ⟨om, dm, g, gi, h2, hsh.alive, e1, hg, hgi, by rw [a2, hl]; rfl, by rw [b2, hl]; rfl, fun i j hi hj => ⟨?_, ?_⟩⟩
  · exact (a3 [i, j] (by simp [hl]) (by simp [hi, hj])).trans (hcomp i j hi hj).1
  · exact (b3 [i, j] (by simp [hl]) (by simp [hi, hj])).trans (hcomp i j hi hj).2.1

theorem indexFactor_congr {n : Nat} {g gi g' gi' : Nat → Nat → K} {a b : Int}
    (h : ∀ i j, i < n → j < n → g i j = g' i j ∧ gi i j = gi' i j) (i j : Nat) (hi : i < n) (hj : j < n) :
    indexFactor g gi a b i j = indexFactor g' gi' a b i j := by
  unfold indexFactor
  split_ifs
  · exact (h i j hi hj).2
  · exact (h i j hi hj).1
  · rfl

theorem factors_congr {n : Nat} {g gi g' gi' : Nat → Nat → K}
    (h : ∀ i j, i < n → j < n → g i j = g' i j ∧ gi i j = gi' i j) (T : List Nat → K) :
    ∀ (src tgt : List Int) (J : List Nat), J.length = src.length → src.length = tgt.length → (∀ x ∈ J, x < n) →
      applyFactors n (List.zipWith (indexFactor g gi) src tgt) T J =
        applyFactors n (List.zipWith (indexFactor g' gi') src tgt) T J := by
  intro src tgt
  induction src generalizing tgt T with
  | nil => intro J _ _ _; simp
  | cons a src ih =>
    intro J h1 h2 h3
    match tgt, h2, J, h1 with
    | b :: tgt, h2, j :: J, h1 =>
      simp only [List.zipWith_cons_cons]
      rw [applyFactors_cons, applyFactors_cons]
      refine Finset.sum_congr rfl fun k hk => ?_
      rw [indexFactor_congr h j k (h3 j (by simp)) (by simpa using hk)]
      rw [ih _ _ J (by simpa using h1) (by simpa using h2) fun x hx => h3 x (by simp [hx])]

/-- Raising and lowering in a scene. -/
theorem scene_raise (hE : ∀ x, E.simp x = x) (hS : Scene G V w) {t : Id'} {D : TField K} (ht : V t = some D)
    {o : Obj K} (ho : w.objs[t]? = some o) {cfg : List Int} (hcfg : Config D.ix.length cfg) :
    ∃ d b, o.comps.get? G.c = some d ∧ Agree G.n D.ix.length b (D.comp G cfg) ∧
      tensorRaiseLower E t G.c cfg w = (.ok (), upd w t fun o =>
        { o with comps := o.comps.set G.c (d.set cfg b) }) := by
  obtain ⟨o', k1, hsh⟩ := hS.shows _ _ ht
  rw [ho] at k1; cases k1
  obtain ⟨om, dm, g, gi, m1, m2, m3, m4, m5, m6, m7, m8⟩ := scene_metric_read hS
  obtain ⟨d, e1, e2, e3, -, -⟩ := hsh.stored
  match d, e2, e1, e3 with
  | (src, a) :: d, _, e1, e3 =>
    obtain ⟨⟨s1, s2⟩, a1, a2, a3⟩ := e3 src a (by rw [Dict.get?_cons, if_pos rfl])
    obtain ⟨b, b1, b2, b3, b4⟩ := raiseLower_spec E hE hS.pos g gi a src cfg m6 m7 s2 hcfg.2
      (hcfg.1.trans s1.symm) (by rw [a2, s1]) a1
    have hchk : metricCheck G.m G.c w = (.ok true, w) := by
      unfold metricCheck
      rw [PyM.bind_apply, getObj_ok m1 m2]
      simp [(Dict.has_iff _ _).2 ⟨dm, m3⟩]
    refine ⟨_, b, e1, ⟨b2, b3.trans a2, fun J h1 h2 => ?_⟩, ?_⟩
    · rw [b4 J (by rw [a2]; exact valid_replicate.2 ⟨h1, h2⟩),
        factors_congr m8 _ _ _ J (by rw [h1, s1]) (s1.trans hcfg.1.symm) h2,
        ← comp_trans hS.inverse hsh.config ⟨s1, s2⟩ hcfg h2 h1]
      exact applyFactors_congr _ _ _ fun s hs1 hs2 => a3 s (by rw [hs1]; try simp [s1, hcfg.1, h1]) hs2
    · unfold tensorRaiseLower
      rw [PyM.bind_apply, getObj_ok ho hsh.alive]
      dsimp only
      rw [PyM.bind_apply, hsh.metric, hchk]
      dsimp only
      rw [PyM.bind_apply]
      simp only [Bool.not_true, PyM.onlyIf, Bool.false_eq_true, if_false]
      rw [show (PyM.pure () : PyM K Unit) w = (.ok (), w) from rfl]
      dsimp only
      rw [PyM.bind_apply, getObj_ok ho hsh.alive]
      dsimp only
      rw [PyM.bind_apply, lookup_ok e1, PyM.pure_apply]
      dsimp only
      rw [PyM.bind_apply, hsh.metric, readComps_ok m1 m2 m3 m4]
      dsimp only
      rw [PyM.bind_apply, readComps_ok m1 m2 m3 m5]
      dsimp only
      rw [PyM.bind_apply, PyM.lift_apply, b1]
      dsimp only
      rw [writeComps_ok ho hsh.alive e1]
      rfl

theorem upd_frame {t : Id'} (c : Id') (d : Dict (List Int) (Arr K)) :
    Frame w (upd w t fun o => { o with comps := o.comps.set c d }) :=
  ⟨modify_map_eq Obj.core (fun o => { o with comps := o.comps.set c d }) (fun _ => rfl) _ _, rfl⟩

theorem validateIndices_config {r : Nat} {cfg ix : List Int} (h : Config r cfg) (hl : ix.length = r) :
    validateIndices cfg ix = .ok () := by
  unfold validateIndices
  rw [if_neg, if_neg]
  · rfl
  · rw [hl, h.1]; simp
  · simp only [List.any_eq_true, not_exists, not_and]
    intro x hx
    rcases h.2 x hx with rfl | rfl <;> decide

/-- A request for components in the chart of the scene, and what is stored for other charts. -/
theorem scene_get' (hE : ∀ x, E.simp x = x) (hS : Scene G V w) {t : Id'} {D : TField K} (ht : V t = some D)
    {cfg : List Int} (hcfg : Config D.ix.length cfg) :
    Does (getRepresentation E t G.c cfg) w fun b w' =>
      (Scene G V w' ∧ Frame w w' ∧ Agree G.n D.ix.length b (D.comp G cfg)) ∧ ∀ (o o' : Obj K), w.objs[t]? = some o →
        w'.objs[t]? = some o' → ∀ c', c' ≠ G.c → o'.comps.get? c' = o.comps.get? c' := by
  have hsame : ∀ (o o' : Obj K), w.objs[t]? = some o → w.objs[t]? = some o' → ∀ c', c' ≠ G.c →
      o'.comps.get? c' = o.comps.get? c' := fun o o' h h' => by rw [h] at h'; cases h'; exact fun _ _ => rfl
  obtain ⟨o, ho, hsh⟩ := hS.shows _ _ ht
  obtain ⟨oc, c1, c2, c3, c4⟩ := hS.chart
  obtain ⟨d, e1, e2, e3, e4, e5⟩ := hsh.stored
  unfold getRepresentation
  refine Does.step (a := true) (by rw [isCoordinates_apply, c1]; simp [c2]) ?_
  simp only [Bool.not_true, Bool.false_eq_true, if_false]
  refine Does.step (getObj_ok ho hsh.alive) (Does.lift (validateIndices_config hcfg (by rw [hsh.indices])) ?_)
  by_cases hk : o.kind = .metric
  · obtain ⟨a, ha⟩ := (e5 hk).2 cfg ((e5 hk).1 ▸ hcfg)
    refine Does.step (a := true) ?_ (Does.step (a := ()) rfl ?_)
    · unfold checkRepresentation metricCheck
      rw [PyM.bind_apply, getObj_ok ho hsh.alive]
      dsimp only
      rw [hk]
      dsimp only
      rw [PyM.bind_apply, getObj_ok ho hsh.alive]
      simp [(Dict.has_iff _ _).2 ⟨d, e1⟩]
    · exact ⟨a, w, readComps_ok ho hsh.alive e1 ha, ⟨hS, Frame.refl w, (e3 _ _ ha).2⟩, hsame⟩
  · have hchk : checkRepresentation E t G.c cfg w = (PyM.onlyIf (!(d.has cfg))
        (tensorRaiseLower E t G.c cfg) >>= fun _ => pure true) w := by
      rw [checkRepresentation_tensor t G.c cfg ho hsh.alive hk]
      unfold tensorCheck
      rw [PyM.bind_apply, getObj_ok ho hsh.alive]
      dsimp only
      rw [e1]
    cases hhas : d.has cfg with
    | true =>
      obtain ⟨a, ha⟩ := (Dict.has_iff _ _).1 hhas
      refine Does.step (a := true) ?_ (Does.step (a := ()) rfl ?_)
      · rw [hchk, hhas]; rfl
      · exact ⟨a, w, readComps_ok ho hsh.alive e1 ha, ⟨hS, Frame.refl w, (e3 _ _ ha).2⟩, hsame⟩
    | false =>
      obtain ⟨d', b, f1, f2, f3⟩ := scene_raise hE hS ht ho hcfg
      rw [e1] at f1; cases f1
      refine Does.bind (Q := fun r w' => r = true ∧ w' = upd w t fun o =>
        { o with comps := o.comps.set G.c (d.set cfg b) }) ⟨true, _, ?_, rfl, rfl⟩ ?_
      · rw [hchk, hhas]
        simp only [Bool.not_false, PyM.onlyIf, if_true]
        rw [PyM.bind_apply, f3]; rfl
      · rintro r w' ⟨rfl, rfl⟩
        refine Does.step (a := ()) rfl ?_
        refine ⟨b, _, readComps_ok (o := { o with comps := o.comps.set G.c (d.set cfg b) })
          (upd_self ho) hsh.alive (Dict.get?_set_self _ _ _) (Dict.get?_set_self _ _ _),
          ⟨scene_store hS ht ho e1 hcfg f2, upd_frame _ _, f2⟩, fun o1 o2 h1 h2 c' hc => ?_⟩
        rw [ho] at h1; cases h1
        rw [upd_self ho] at h2; cases h2
        exact (Dict.get?_set _ _ _ _).trans (if_neg (Ne.symm hc))

/-- A request for components in the chart of the scene. -/
theorem scene_get (hE : ∀ x, E.simp x = x) (hS : Scene G V w) {t : Id'} {D : TField K} (ht : V t = some D)
    {cfg : List Int} (hcfg : Config D.ix.length cfg) :
    Does (getRepresentation E t G.c cfg) w fun b w' =>
      Scene G V w' ∧ Frame w w' ∧ Agree G.n D.ix.length b (D.comp G cfg) :=
  Does.mono (scene_get' hE hS ht hcfg) fun _ _ h => h.1

/-- `get_components` with the chart of the scene. -/
theorem scene_getComponents (hE : ∀ x, E.simp x = x) (hS : Scene G V w) {t : Id'} {D : TField K}
    (ht : V t = some D) {cfg : List Int} (hcfg : Config D.ix.length cfg) :
    Does (getComponents E t (some G.c) (some cfg)) w fun b w' =>
      Scene G V w' ∧ Frame w w' ∧ Agree G.n D.ix.length b (D.comp G cfg) := by
  obtain ⟨o, ho, hsh⟩ := hS.shows _ _ ht
  exact Does.step (getObj_ok ho hsh.alive) (scene_get hE hS ht hcfg)

theorem scene_getDefault (hE : ∀ x, E.simp x = x) (hS : Scene G V w) {t : Id'} {D : TField K}
    (ht : V t = some D) (hc : D.coords = G.c) :
    Does (getComponents E t none none) w fun b w' =>
      Scene G V w' ∧ Frame w w' ∧ Agree G.n D.ix.length b D.val := by
  obtain ⟨o, ho, hsh⟩ := hS.shows _ _ ht
  refine Does.step (getObj_ok ho hsh.alive) ?_
  show Does (getRepresentation E t o.coords o.indices) _ _
  rw [hsh.coords, hc, hsh.indices]
  refine Does.mono (scene_get hE hS ht hsh.config) ?_
  rintro b w' ⟨h1, h2, h3, h4, h5⟩
  exact ⟨h1, h2, h3, h4, fun J k1 k2 => (h5 J k1 k2).trans (comp_self k2 k1)⟩

/-- `_components[_coordinates][_indices]`. -/
theorem scene_defaultComps (hS : Scene G V w) {t : Id'} {D : TField K}
    (ht : V t = some D) (hc : D.coords = G.c) :
    ∃ b, defaultComps t w = (.ok b, w) ∧ Agree G.n D.ix.length b D.val := by
  obtain ⟨o, ho, hsh⟩ := hS.shows _ _ ht
  obtain ⟨d, e1, e2, e3, e4, e5⟩ := hsh.stored
  obtain ⟨a, ha⟩ := e4 hc
  refine ⟨a, ?_, ?_⟩
  · unfold defaultComps
    rw [PyM.bind_apply, getObj_ok ho hsh.alive]
    dsimp only
    exact readComps_ok ho hsh.alive (by rw [hsh.coords, hc]; exact e1) (by rw [hsh.indices]; exact ha)
  · obtain ⟨-, h1, h2, h3⟩ := e3 _ _ ha
    exact ⟨h1, h2, fun J k1 k2 => (h3 J k1 k2).trans (comp_self k2 k1)⟩

/-- A view with one more tensor. -/
def View.add (V : View K) (t : Id') (D : TField K) : View K := fun i => if i = t then some D else V i

/-- A new tensor in a scene. -/
theorem scene_new (hS : Scene G V w) {kind : Kind} (hk : kind = .tensor ∨ kind = .christoffel) (name symbol : String)
    {a : Arr K} {ix : List Int} {f : List Nat → K} (ha : Agree G.n ix.length a f)
    (hix : Config ix.length ix) :
    ∃ o w', newTensor kind (.val name) (.val a) G.m G.c (.tuple ix) (.val symbol) w = (.ok w.objs.length, w') ∧
      Scene G (View.add V w.objs.length ⟨name, G.c, ix, f⟩) w' ∧ w'.instances = w.instances ++ [w.objs.length] ∧
      w'.objs = w.objs ++ [o] ∧ o.name = name ∧ o.kind = kind ∧ o.alive = true ∧
      View.Extends V (View.add V w.objs.length ⟨name, G.c, ix, f⟩) := by
  obtain ⟨oc, c1, c2, c3, c4⟩ := hS.chart
  obtain ⟨Dm, om, m1, m2, m3, m4⟩ := hS.metric
  have hargs : TensorArgsOK w (.val name) (.val a) G.m G.c (.tuple ix) (.val symbol) := by
    refine ⟨⟨_, rfl⟩, ⟨_, rfl⟩, ⟨om, m2, m3⟩, oc, a, c1, c2, c3, rfl, ?_, ?_⟩
    · intro x hx
      rw [ha.2.1] at hx
      rw [List.eq_of_mem_replicate hx, c4, hS.dim]
    · refine Or.inr ⟨ix, rfl, ?_, hix.2⟩
      rw [ha.2.1, List.length_replicate]
  obtain ⟨t, w', hok⟩ := (newTensor_iff (kind := kind)).1 hargs
  rcases newTensor_cases kind (.val name) a G.m G.c (.tuple ix) (.val symbol) w with ⟨e, he⟩ |
    ⟨oc', om', -, -, -, -, -, -, h⟩
  · rw [hok] at he; cases he
  · have hlt : ∀ (i : Id') oi, w.objs[i]? = some oi → i ≠ w.objs.length := fun i oi hi => by
      have : i < w.objs.length := lt_of_getElem? hi
      intro hc; rw [hc] at this; exact absurd this (lt_irrefl _)
    have hext : View.Extends V (View.add V w.objs.length ⟨name, G.c, ix, f⟩) := by
      intro i D hi
      obtain ⟨oi, h1, -⟩ := hS.shows i D hi
      unfold View.add
      rw [if_neg (hlt i oi h1)]; exact hi
    refine ⟨_, _, h, ?_, rfl, rfl, rfl, rfl, rfl, hext⟩
    refine ⟨hS.pos, ⟨oc, getElem?_append_old c1, c2, c3, c4⟩, hS.dim, hS.inverse, hS.symm,
      ⟨Dm, om, hext _ _ m1, getElem?_append_old m2, m3, m4⟩, ?_, ?_⟩
    · intro i D hi
      unfold View.add at hi
      split_ifs at hi with hit
      · cases hi
        obtain ⟨on, hn, hn'⟩ : ∃ on, (w.objs ++ [freshObj kind name symbol ix G.c G.m [(ix, a)]])[w.objs.length]? =
          some on ∧ on = freshObj kind name symbol ix G.c G.m [(ix, a)] := ⟨_, getElem?_append_length _ _, rfl⟩
        refine ⟨on, hit ▸ hn, ?_⟩
        subst hn'
        refine ⟨rfl, Or.inr hk, rfl, rfl, rfl, rfl, hix, fun _ => rfl, [(ix, a)], ?_, by simp, ?_, ?_, ?_⟩
        · show Dict.get? [(G.c, _)] G.c = _
          rw [Dict.get?_cons, if_pos rfl]
        · intro cfg b hb
          rw [Dict.get?_cons, Dict.get?_nil] at hb
          split_ifs at hb with hcf
          cases hb; subst hcf
          refine ⟨hix, ha.1, ha.2.1, fun J h1 h2 => ?_⟩
          rw [ha.2.2 J h1 h2]
          exact (comp_self (G := G) (D := ⟨name, G.c, ix, f⟩) h2 h1).symm
        · intro _
          exact ⟨a, by rw [Dict.get?_cons, if_pos rfl]⟩
        · intro hkm
          exfalso
          change kind = .metric at hkm
          rcases hk with hk | hk <;> rw [hk] at hkm <;> cases hkm
      · obtain ⟨oi, h1, h2⟩ := hS.shows i D hi
        exact ⟨oi, getElem?_append_old h1, h2⟩
    · have hR := hS.registry
      have hmem : ∀ i ∈ w.instances, i ≠ w.objs.length := fun i hi => by
        obtain ⟨oi, h1, -⟩ := hR.inUse i hi
        exact hlt i oi h1
      refine ⟨?_, ?_, ?_, ?_⟩
      · rw [List.nodup_append]
        refine ⟨hR.nodup, by simp, ?_⟩
        intro i hi j hj
        rw [List.mem_singleton] at hj
        rw [hj]; exact hmem i hi
      · intro i hi
        rcases List.mem_append.1 hi with hi | hi
        · obtain ⟨oi, h1, h2⟩ := hR.inUse i hi
          exact ⟨oi, getElem?_append_old h1, h2⟩
        · rw [List.mem_singleton.1 hi]
          exact ⟨_, getElem?_append_length _ _, rfl⟩
      · intro i hi oi hoi r hr
        have old : ∀ (r : Id') o', w.objs[r]? = some o' → (o'.kind = .coordinates ∨ o'.kind = .metric) →
            ∃ o', (w.objs ++ [freshObj kind name symbol ix G.c G.m [(ix, a)]])[r]? = some o' ∧
              (o'.kind = .coordinates ∨ o'.kind = .metric) := fun r o' h1 h2 =>
          ⟨o', getElem?_append_old h1, h2⟩
        rcases List.mem_append.1 hi with hi | hi
        · obtain ⟨oi', h1, -⟩ := hR.inUse i hi
          have h2 : (w.objs ++ [freshObj kind name symbol ix G.c G.m [(ix, a)]])[i]? = some oi' :=
            getElem?_append_old h1
          change (w.objs ++ [freshObj kind name symbol ix G.c G.m [(ix, a)]])[i]? = some oi at hoi
          rw [hoi] at h2; cases h2
          obtain ⟨o', k1, k2⟩ := hR.refs i hi oi h1 r hr
          exact old r o' k1 k2
        · rw [List.mem_singleton.1 hi] at hoi
          change (w.objs ++ [freshObj kind name symbol ix G.c G.m [(ix, a)]])[w.objs.length]? = some oi at hoi
          rw [getElem?_append_length] at hoi
          cases hoi
          have huse : r = G.c ∨ r = G.m := by
            unfold Obj.uses freshObj at hr
            dsimp only at hr
            rw [if_neg (by rcases hk with hk | hk <;> rw [hk] <;> simp)] at hr
            simp only [Bool.or_eq_true, beq_iff_eq, Dict.has_iff, Dict.get?_cons, Dict.get?_nil] at hr
            rcases hr with (⟨v, hv⟩ | hr) | hr
            · split_ifs at hv with h1
              exact Or.inl h1.symm
            · exact Or.inr hr.symm
            · exact Or.inl hr.symm
          rcases huse with rfl | rfl
          · exact old _ oc c1 (Or.inl c2)
          · exact old _ om m2 (Or.inr m3)
      · intro i hi oi hoi hn
        rcases List.mem_append.1 hi with hi | hi
        · obtain ⟨oi', h1, -⟩ := hR.inUse i hi
          have h2 : (w.objs ++ [freshObj kind name symbol ix G.c G.m [(ix, a)]])[i]? = some oi' :=
            getElem?_append_old h1
          change (w.objs ++ [freshObj kind name symbol ix G.c G.m [(ix, a)]])[i]? = some oi at hoi
          rw [hoi] at h2; cases h2
          exact hR.temp i hi oi h1 hn
        · rw [List.mem_singleton.1 hi] at hoi
          change (w.objs ++ [freshObj kind name symbol ix G.c G.m [(ix, a)]])[w.objs.length]? = some oi at hoi
          rw [getElem?_append_length] at hoi
          cases hoi
          change kind ≠ _ ∧ kind ≠ _
          rcases hk with hk | hk <;> rw [hk] <;> exact ⟨by simp, by simp⟩

end
end PyOGRe
