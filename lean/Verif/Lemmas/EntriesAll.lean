import Verif.Props.Entries
import Verif.Props.Sharing

/-! Helper lemmas: what an import of several objects makes. -/

namespace PyOGRe
open Spec
variable {K : Type} [DecidableEq K] [CommRing K]

/-- The object `o` was made from the arguments `x`. -/
structure Made (I : Importer K) (w : World K) (x : Import K) (i : Id') (o : Obj K) : Prop where
  alive : o.alive = true
  kind : o.kind = x.kind
  name : x.name = .val o.name
  symbol : x.symbol = .val o.symbol
  indices : o.indices = x.indices
  signs : ∀ k ∈ x.indices, k = 1 ∨ k = -1
  coords : o.kind ≠ .coordinates → x.coords = some (.obj o.coords) ∧ ∃ oc, w.objs[o.coords]? = some oc ∧ oc.kind = .coordinates
  metric : o.kind ≠ .coordinates → o.kind ≠ .metric → x.metric = some (.obj o.metric) ∧
    ∃ om, w.objs[o.metric]? = some om ∧ om.kind = .metric
  itself : o.kind = .metric → o.metric = i
  comps : o.kind ≠ .coordinates → ∃ d, o.comps.get? o.coords = some d ∧ d.get? o.indices = some x.comps
  syms : o.kind = .coordinates → o.syms.map some = x.comps.data.map I.nameOf ∧ x.comps.shape.length = 1

/-- Objects are added, and transformation rules may change. -/
structure Ext (w w' : World K) : Prop where
  instances : ∃ l, w'.instances = w.instances ++ l
  objs : ∀ (i : Id') (o : Obj K), w.objs[i]? = some o → ∃ tr, w'.objs[i]? = some { o with trans := tr }

omit [DecidableEq K] [CommRing K] in
theorem Ext.refl (w : World K) : Ext w w := ⟨⟨[], by simp⟩, fun _ o h => ⟨o.trans, h⟩⟩

omit [DecidableEq K] [CommRing K] in
theorem Ext.trans {w w' w'' : World K} (h : Ext w w') (h' : Ext w' w'') : Ext w w'' := by
  obtain ⟨⟨l, h1⟩, h2⟩ := h
  obtain ⟨⟨l', h3⟩, h4⟩ := h'
  refine ⟨⟨l ++ l', by rw [h3, h1, List.append_assoc]⟩, fun i o ho => ?_⟩
  obtain ⟨tr, h5⟩ := h2 i o ho
  obtain ⟨tr', h6⟩ := h4 i _ h5
  exact ⟨tr', h6⟩

omit [DecidableEq K] [CommRing K] in
theorem Ext.append {w w' : World K} {o : Obj K} {i : Id'} (h1 : w'.objs = w.objs ++ [o]) (h2 : w'.instances = w.instances ++ [i]) :
    Ext w w' := ⟨⟨_, h2⟩, fun j x hx => ⟨x.trans, by rw [h1]; exact getElem?_append_old hx⟩⟩

/-- There is an object made from the arguments. -/
def Present (I : Importer K) (w : World K) (i : Id') (x : Import K) : Prop := ∃ o, w.objs[i]? = some o ∧ Made I w x i o

theorem Present.ext {I : Importer K} {w w' : World K} {i : Id'} {x : Import K} (h : Present I w i x) (he : Ext w w') :
    Present I w' i x := by
  obtain ⟨o, ho, hm⟩ := h
  obtain ⟨tr, h1⟩ := he.objs i o ho
  refine ⟨_, h1, ⟨hm.alive, hm.kind, hm.name, hm.symbol, hm.indices, hm.signs, fun hk => ?_, fun hk hk' => ?_, hm.itself,
    hm.comps, hm.syms⟩⟩
  · obtain ⟨g1, oc, g2, g3⟩ := hm.coords hk
    obtain ⟨tr', g4⟩ := he.objs _ _ g2
    exact ⟨g1, _, g4, g3⟩
  · obtain ⟨g1, oc, g2, g3⟩ := hm.metric hk hk'
    obtain ⟨tr', g4⟩ := he.objs _ _ g2
    exact ⟨g1, _, g4, g3⟩

theorem importCoordinates_made {I : Importer K} {w w' : World K} {x : Import K} {trans : List (Ref × Val K)} {i : Id'}
    (hk : x.kind = .coordinates) (h : importCoordinates I x trans w = (.ok i, w')) :
    ∃ o, i = w.objs.length ∧ w'.objs = w.objs ++ [o] ∧ w'.instances = w.instances ++ [i] ∧ Made I w x i o := by
  unfold importCoordinates at h
  obtain ⟨syms, w2, h3, h4⟩ := bind_ok h
  obtain rfl : w = w2 := congrArg Prod.snd h3
  have hsy : symsOf I x.comps.data = .ok syms := congrArg Prod.fst h3
  obtain ⟨rules, w3, h5, h6⟩ := bind_ok h4
  obtain rfl : w = w3 := congrArg Prod.snd h5
  obtain ⟨u, w4, h7, h8⟩ := bind_ok h6
  obtain rfl : w = w4 := congrArg Prod.snd h7
  have hv' : validateCoordinates x.name (.val x.comps.shape) (.tuple x.indices) x.symbol true = .ok u := congrArg Prod.fst h7
  obtain ⟨⟨nm, hn⟩, ⟨sy, hs⟩, hc, hsh⟩ : (∃ nm, x.name = .val nm) ∧ (∃ sy, x.symbol = .val sy) ∧ x.indices = [1] ∧
      x.comps.shape.length = 1 := by
    unfold validateCoordinates at hv'
    obtain ⟨u', g1, g2⟩ := py_ok_of_bind hv'
    obtain ⟨g3, g4, -⟩ := validateOGReObject_iff.1 g1
    dsimp only at g2
    split_ifs at g2 with e1 e2 e3
    · exact ⟨g3, g4, not_not.1 e1, not_not.1 e3⟩
  have hd := symsOf_data hsy
  unfold register at h8
  injection h8 with e1 e2
  injection e1 with e1
  subst e1 e2
  exact ⟨_, rfl, rfl, rfl, ⟨rfl, hk.symm, by rw [hn]; rfl, by rw [hs]; rfl, rfl, by rw [hc]; simp, fun h => absurd rfl h,
    fun h => absurd rfl h, fun h => (by cases h), fun h => absurd rfl h, fun _ => ⟨hd, hsh⟩⟩⟩

theorem importTensor_made {E : Engine K} {I : Importer K} {w w' : World K} {x : Import K} {c i : Id'}
    (hk : x.kind ≠ .coordinates) (hc : x.coords = some (.obj c)) (h : importTensor E x w = (.ok i, w')) :
    ∃ o, i = w.objs.length ∧ w'.objs = w.objs ++ [o] ∧ w'.instances = w.instances ++ [i] ∧ Made I w x i o := by
  rcases importTensor_ok hc h with ⟨hk1, h5⟩ | ⟨hk1, m, hm, h5⟩
  · obtain ⟨⟨nm, hn⟩, sy, hs⟩ := newMetric_words h5
    rcases newMetric_cases E x.name x.comps c (.tuple x.indices) x.symbol w with ⟨e, g⟩ | ⟨oc, g1, g2, g3, -, -, g6, g⟩
    · rw [h5] at g; cases g
    · rcases g with ⟨e, -, g⟩ | ⟨b, -, g⟩
      · rw [h5] at g; cases g
      · rw [h5] at g
        injection g with q1 q2
        injection q1 with q1
        subst q1 q2
        refine ⟨_, rfl, rfl, rfl, ⟨rfl, hk1.symm, by rw [hn]; rfl, by rw [hs]; rfl, rfl, fun k hk => ?_,
          fun _ => ⟨hc, oc, g1, g2⟩, fun _ h => absurd rfl h, fun _ => rfl,
          fun _ => ⟨_, by simp [freshObj, Dict.get?_cons]; rfl, by simp [freshObj, Dict.get?_cons]⟩, fun h => (by cases h)⟩⟩
        rcases g6 with g6 | g6 <;> (change x.indices = _ at g6; rw [g6] at hk; simp at hk; simp [hk])
  · have hA : TensorArgsOK w x.name (.val x.comps) m c (.tuple x.indices) x.symbol := by
      by_contra hA
      obtain ⟨e, g⟩ := (newTensor_iff (kind := x.kind)).2 hA
      rw [h5] at g
      cases g
    obtain ⟨nm, hn⟩ := hA.name
    obtain ⟨sy, hs⟩ := hA.symbol
    rcases newTensor_cases x.kind x.name x.comps m c (.tuple x.indices) x.symbol w with ⟨e, g⟩ |
      ⟨oc, om, g1, g2, g3, g4, -, g6, g⟩
    · rw [h5] at g; cases g
    · rw [h5] at g
      injection g with q1 q2
      injection q1 with q1
      subst q1 q2
      exact ⟨_, rfl, rfl, rfl, ⟨rfl, rfl, by rw [hn]; rfl, by rw [hs]; rfl, rfl, g6.2, fun _ => ⟨hc, oc, g1, g2⟩,
        fun _ _ => ⟨hm, om, g3, g4⟩, fun h => absurd h hk1,
        fun _ => ⟨_, by simp [freshObj, Dict.get?_cons]; rfl, by simp [freshObj, Dict.get?_cons]⟩, fun h => absurd h hk⟩⟩

/-- A loop that makes objects. -/
theorem forEach_made {I : Importer K} {f : Import K → PyM K Id'} {P : Import K → Prop}
    (hf : ∀ x w w' i, P x → f x w = (.ok i, w') →
      ∃ o, i = w.objs.length ∧ w'.objs = w.objs ++ [o] ∧ w'.instances = w.instances ++ [i] ∧ Made I w x i o) :
    ∀ (xs : List (Import K)) (w w' : World K), (∀ x ∈ xs, P x) →
      forEach (fun x => do let _ ← f x; return ()) xs w = (.ok (), w') →
      Ext w w' ∧ ∃ ids, w'.instances = w.instances ++ ids ∧ List.Forall₂ (Present I w') ids xs
  | [], w, w', _, h => by
    cases h
    exact ⟨Ext.refl _, [], by simp, .nil⟩
  | x :: xs, w, w', hP, h => by
    unfold forEach at h
    obtain ⟨u, w1, h1, h2⟩ := bind_ok h
    obtain ⟨i, w2, h3, h4⟩ := bind_ok h1
    cases h4
    obtain ⟨o, g1, g2, g3, g4⟩ := hf x w w1 i (hP x (by simp)) h3
    obtain ⟨e, ids, g5, g6⟩ := forEach_made hf xs w1 w' (fun y hy => hP y (List.mem_cons_of_mem _ hy)) h2
    have e1 := Ext.append g2 g3
    refine ⟨e1.trans e, i :: ids, by rw [g5, g3]; simp, .cons ?_ g6⟩
    have hp : Present I w1 i x := by
      have e0 : w1.objs[i]? = some o := by rw [g2, g1]; simp
      refine ⟨o, e0, ⟨g4.alive, g4.kind, g4.name, g4.symbol, g4.indices, g4.signs, fun hk => ?_, fun hk hk' => ?_, g4.itself,
        g4.comps, g4.syms⟩⟩
      · obtain ⟨q1, oc, q2, q3⟩ := g4.coords hk
        exact ⟨q1, oc, by rw [g2]; exact getElem?_append_old q2, q3⟩
      · obtain ⟨q1, oc, q2, q3⟩ := g4.metric hk hk'
        exact ⟨q1, oc, by rw [g2]; exact getElem?_append_old q2, q3⟩
    exact hp.ext e

/-- A loop that only changes rules. -/
theorem forEach_ext {α : Type} {f : α → PyM K Unit}
    (hf : ∀ x w w', f x w = (.ok (), w') → Ext w w' ∧ w'.instances = w.instances) :
    ∀ (xs : List α) (w w' : World K), forEach f xs w = (.ok (), w') → Ext w w' ∧ w'.instances = w.instances
  | [], w, w', h => by cases h; exact ⟨Ext.refl _, rfl⟩
  | x :: xs, w, w', h => by
    unfold forEach at h
    obtain ⟨u, w1, h1, h2⟩ := bind_ok h
    obtain ⟨g1, g2⟩ := hf x w w1 h1
    obtain ⟨g3, g4⟩ := forEach_ext hf xs w1 w' h2
    exact ⟨g1.trans g3, g4.trans g2⟩

theorem importTrans_ext [Algebra ℚ K] {I : Importer K} {x : Import K} {w w' : World K} (h : importTrans I x w = (.ok (), w')) :
    Ext w w' ∧ w'.instances = w.instances := by
  unfold importTrans at h
  rw [PyM.bind_apply] at h
  simp only [PyM.world] at h
  cases hn : x.name with
  | other => rw [hn] at h; cases h; exact ⟨Ext.refl _, rfl⟩
  | val name =>
    rw [hn] at h
    refine forEach_ext (fun i w w' hi => forEach_ext (fun p w w' hp => ?_) _ _ _ hi) _ _ _ h
    obtain ⟨target, w1, h1, h2⟩ := bind_ok hp
    have hw : w1 = w := by
      cases hr : p.1 with
      | obj j => rw [hr] at h1; cases h1; rfl
      | name s => rw [hr] at h1; exact (congrArg Prod.snd h1).symm
    subst hw
    cases target with
    | none => cases h2
    | some c =>
      obtain ⟨rules, w2, h3, h4⟩ := bind_ok h2
      obtain rfl : w1 = w2 := congrArg Prod.snd h3
      rcases addCoordTransformation_eq i c (some rules) w1 with ⟨e, g⟩ | ⟨-, g⟩
      · rw [h4] at g; cases g
      · rw [h4] at g
        cases g
        refine ⟨⟨⟨[], by simp⟩, fun j o ho => ?_⟩, rfl⟩
        by_cases hij : i = j
        · subst hij
          exact ⟨_, modify_same ho _⟩
        · exact ⟨o.trans, by show (w1.objs.modify i _)[j]? = _; rw [modify_ne hij, ho]⟩

end PyOGRe
