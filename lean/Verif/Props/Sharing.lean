import Verif.Model.Sharing
import Verif.Spec.Codes
import Verif.Lemmas.Attributes

/-!
# Coordinate systems and the dictionaries of the caller: C102
-/

namespace PyOGRe
open Spec
variable {K : Type} [CommRing K] [DecidableEq K] [Algebra ℚ K] {E : Engine K} {letters : List Sym}

/-- A session that has just been started. -/
def Spec.begun : Shared K := ⟨fresh, [], []⟩

/-- The dictionary that is given to a constructor. -/
def Spec.given : Deed K → Option Nat
  | .coordinates _ _ _ _ _ k => some k
  | _ => none

/-- The dictionary that is given to a constructor or changed by the caller. -/
def Spec.touched : Deed K → Option Nat
  | .coordinates _ _ _ _ _ k => some k
  | .assign k _ _ => some k
  | _ => none

/-- No dictionary is given to two constructors. -/
def Spec.GivenOnce (ds : List (Deed K)) : Prop := ds.Pairwise fun a b => ∀ k, given a = some k → given b ≠ some k

/-- A dictionary that was given to a constructor is neither given to another one nor changed by the caller. -/
def Spec.GivenAway (ds : List (Deed K)) : Prop := ds.Pairwise fun a b => ∀ k, given a = some k → touched b ≠ some k

/-- The same actions in a session in which every constructor copies the dictionary. -/
def Spec.copying (E : Engine K) (letters : List Sym) : List (Deed K) → World K × List (RuleDict K) → World K × List (RuleDict K)
  | [], s => s
  | .dict d :: ds, (w, l) => copying E letters ds (w, l ++ [d])
  | .assign k c rules :: ds, (w, l) => copying E letters ds (w, l.set k ((l.getD k []).set c rules))
  | .coordinates name shape syms ix symbol k :: ds, (w, l) => copying E letters ds
      ((newCoordinatesWith name shape syms ix symbol ((l.getD k []).map fun p => (p.1, p.2.map ruleArg)) w).2, l)
  | .call c :: ds, (w, l) => copying E letters ds (c.run E letters w, l)

/-- Nothing happens to an object when its own dictionary is written back. -/
theorem put_own {s : Shared K} {c : Id'} {k : Nat} {o : Obj K} (hu : ∀ i, (i, k) ∈ s.uses → i = c)
    (ho : s.world.objs[c]? = some o) : (s.put k o.trans).world = s.world := by
  unfold Shared.put
  have : s.world.objs.mapIdx (fun i p => if (i, k) ∈ s.uses then { p with trans := o.trans } else p) = s.world.objs := by
    refine List.ext_getElem? fun i => ?_
    rw [List.getElem?_mapIdx]
    cases h : s.world.objs[i]? with
    | none => rfl
    | some p =>
      by_cases hk : (i, k) ∈ s.uses
      · have hi := hu i hk
        subst hi
        rw [ho] at h
        cases h
        simp [hk]
      · simp [hk]
  simp only [this]

theorem lookup_mem {A : Type} {l : List (Id' × A)} {c : Id'} {k : A} (h : l.lookup c = some k) : (c, k) ∈ l := by
  induction l with
  | nil => cases h
  | cons p l ih =>
    obtain ⟨a, b⟩ := p
    rw [List.lookup_cons] at h
    by_cases hc : c = a
    · subst hc
      simp only [beq_self_eq_true] at h
      cases h
      exact List.mem_cons_self
    · rw [show (c == a) = false by simpa using hc] at h
      exact List.mem_cons_of_mem _ (ih h)

/-- Each dictionary is an attribute of at most one object. -/
def Spec.Private (s : Shared K) : Prop := ∀ i j k, (i, k) ∈ s.uses → (j, k) ∈ s.uses → i = j

theorem private_add {s : Shared K} (hs : Private s) (c c' : Id') (rules : Option (List (Option (Sym × K)))) :
    (s.addTransformation c c' rules).world = (addCoordTransformation c c' rules s.world).2 ∧
    (s.addTransformation c c' rules).uses = s.uses ∧
    ∀ k, (∀ i, (i, k) ∉ s.uses) → (s.addTransformation c c' rules).dicts.getD k [] = s.dicts.getD k [] := by
  unfold Shared.addTransformation
  cases h : addCoordTransformation c c' rules s.world with
  | mk r w =>
    cases r with
    | error e => exact ⟨rfl, rfl, fun _ _ => rfl⟩
    | ok u =>
      dsimp only
      cases hk : s.uses.lookup c with
      | none => exact ⟨rfl, rfl, fun _ _ => rfl⟩
      | some k =>
        cases ho : w.objs[c]? with
        | none => exact ⟨rfl, rfl, fun _ _ => rfl⟩
        | some o =>
          have hm := lookup_mem hk
          refine ⟨put_own (s := { s with world := w }) (fun i hi => hs i c k hi hm) ho, rfl, fun k' hk' => ?_⟩
          have : k' ≠ k := fun e => hk' c (e ▸ hm)
          unfold Shared.put
          simp only [List.getD_eq_getElem?_getD]
          rw [List.getElem?_set_ne (Ne.symm this)]

/-- What a constructor does to the session. -/
theorem newCoordinates_shared (s : Shared K) (name : Arg String) (shape : Arg (List Nat)) (syms : List Sym) (ix : IndicesArg)
    (symbol : Arg String) (k : Nat) :
    (s.newCoordinates name shape syms ix symbol k).world = (newCoordinatesWith name shape syms ix symbol
      ((s.dicts.getD k []).map fun p => (p.1, p.2.map ruleArg)) s.world).2 ∧
    (s.newCoordinates name shape syms ix symbol k).dicts = s.dicts ∧
    ((s.newCoordinates name shape syms ix symbol k).uses = s.uses ∨
      ∃ i, (s.newCoordinates name shape syms ix symbol k).uses = s.uses ++ [(i, k)]) := by
  unfold Shared.newCoordinates
  cases h : newCoordinatesWith name shape syms ix symbol
      ((s.dicts.getD k []).map fun p => (p.1, p.2.map ruleArg)) s.world with
  | mk r w =>
    cases r with
    | error e => exact ⟨rfl, rfl, Or.inl rfl⟩
    | ok i =>
      refine ⟨rfl, rfl, ?_⟩
      dsimp only
      split_ifs
      · exact Or.inl rfl
      · exact Or.inr ⟨i, rfl⟩

theorem private_append {s t : Shared K} {i : Id'} {k : Nat} (hs : Private s) (hk : ∀ j, (j, k) ∉ s.uses)
    (ht : t.uses = s.uses ∨ t.uses = s.uses ++ [(i, k)]) : Private t := by
  intro a b c ha hb
  rcases ht with ht | ht
  · rw [ht] at ha hb
    exact hs a b c ha hb
  · rw [ht, List.mem_append, List.mem_singleton] at ha hb
    rcases ha with ha | ha <;> rcases hb with hb | hb
    · exact hs a b c ha hb
    · cases hb
      exact absurd ha (hk a)
    · cases ha
      exact absurd hb (hk b)
    · cases ha
      cases hb
      rfl

/-- Calls other than `add_coord_transformation` do not concern the dictionaries. -/
theorem call_uses (c : Call K) (s : Shared K) : ((Deed.call c).run E letters s).uses = s.uses := by
  cases c
  case transformation c c' rules =>
    show (s.addTransformation c c' rules).uses = s.uses
    unfold Shared.addTransformation
    cases h : addCoordTransformation c c' rules s.world with
    | mk r w =>
      cases r with
      | error e => rfl
      | ok u =>
        dsimp only
        split <;> rfl
  all_goals rfl

theorem call_dicts (c : Call K) (s : Shared K) : ((Deed.call c).run E letters s).dicts.length = s.dicts.length := by
  cases c
  case transformation c c' rules =>
    show (s.addTransformation c c' rules).dicts.length = s.dicts.length
    unfold Shared.addTransformation
    cases h : addCoordTransformation c c' rules s.world with
    | mk r w =>
      cases r with
      | error e => rfl
      | ok u =>
        dsimp only
        split
        · simp [Shared.put]
        · rfl
  all_goals rfl

theorem call_private {s : Shared K} (hs : Private s) (c : Call K) :
    ((Deed.call c).run E letters s).world = c.run E letters s.world ∧
    ∀ k, (∀ i, (i, k) ∉ s.uses) → ((Deed.call c).run E letters s).dicts.getD k [] = s.dicts.getD k [] := by
  cases c
  case transformation c c' rules => exact ⟨(private_add hs c c' rules).1, (private_add hs c c' rules).2.2⟩
  all_goals exact ⟨rfl, fun _ _ => rfl⟩

theorem private_deeds : ∀ (ds : List (Deed K)) (s : Shared K), Private s → GivenOnce ds →
    (∀ i k, (i, k) ∈ s.uses → ∀ d ∈ ds, given d ≠ some k) → Private (deeds E letters ds s)
  | [], _, hs, _, _ => hs
  | d :: ds, s, hs, ho, hu => by
    show Private (deeds E letters ds (d.run E letters s))
    have ho' := List.pairwise_cons.1 ho
    cases d with
    | dict d => exact private_deeds ds _ hs ho'.2 fun i k hi d hd => hu i k hi d (List.mem_cons_of_mem _ hd)
    | assign k c rules => exact private_deeds ds _ hs ho'.2 fun i k hi d hd => hu i k hi d (List.mem_cons_of_mem _ hd)
    | call c =>
      refine private_deeds ds _ ?_ ho'.2 ?_
      · intro a b k ha hb
        rw [call_uses] at ha hb
        exact hs a b k ha hb
      · intro i k hi d hd
        rw [call_uses] at hi
        exact hu i k hi d (List.mem_cons_of_mem _ hd)
    | coordinates name shape syms ix symbol k =>
      have hk : ∀ j, (j, k) ∉ s.uses := fun j hj => hu j k hj _ List.mem_cons_self rfl
      have hn := (newCoordinates_shared s name shape syms ix symbol k).2.2
      refine private_deeds ds _ ?_ ho'.2 ?_
      · rcases hn with h | ⟨i, h⟩
        · exact private_append (i := 0) hs hk (Or.inl h)
        · exact private_append hs hk (Or.inr h)
      · intro i k' hi d hd
        have hi : (i, k') ∈ (s.newCoordinates name shape syms ix symbol k).uses := hi
        rcases hn with h | ⟨j, h⟩
        · rw [h] at hi
          exact hu i k' hi d (List.mem_cons_of_mem _ hd)
        · rw [h, List.mem_append, List.mem_singleton] at hi
          rcases hi with hi | hi
          · exact hu i k' hi d (List.mem_cons_of_mem _ hd)
          · cases hi
            exact ho'.1 d hd k rfl

/-- The rules after `add_coord_transformation`. -/
def Spec.revised (d : RuleDict K) (c' : Id') : Option (List (Option (Sym × K))) → RuleDict K
  | none => d.del c'
  | some rules => d.set c' rules

/-- `add_coord_transformation` raises without a change or changes the rules of one object. -/
theorem addCoordTransformation_eq (c c' : Id') (rules : Option (List (Option (Sym × K)))) (w : World K) :
    (∃ e, addCoordTransformation c c' rules w = (.error e, w)) ∨
    ((∃ o, w.objs[c]? = some o) ∧ addCoordTransformation c c' rules w =
      (.ok (), ⟨w.objs.modify c fun o => { o with trans := revised o.trans c' rules }, w.instances⟩)) := by
  unfold addCoordTransformation
  have h1 : isCoordinates (K := K) c' w = (.ok ((w.objs[c']?).any fun o => o.kind == .coordinates), w) := rfl
  rw [PyM.bind_apply, h1]
  dsimp only
  split_ifs
  · exact Or.inl ⟨_, rfl⟩
  · exact Or.inl ⟨_, rfl⟩
  · rw [PyM.bind_apply]
    unfold getObj
    cases ho : w.objs[c]? with
    | none => exact Or.inl ⟨_, rfl⟩
    | some o =>
      dsimp only
      cases ha : o.alive with
      | false => exact Or.inl ⟨_, rfl⟩
      | true =>
        cases rules with
        | some l => exact Or.inr ⟨⟨o, rfl⟩, rfl⟩
        | none =>
          simp only [if_true]
          rw [PyM.bind_apply]
          unfold PyOGRe.lookup
          cases o.trans.get? c' with
          | none => exact Or.inl ⟨_, rfl⟩
          | some v => exact Or.inr ⟨⟨o, rfl⟩, rfl⟩

theorem addCoordTransformation_others (c c' : Id') (rules : Option (List (Option (Sym × K)))) (w : World K) :
    (∀ i, i ≠ c → (addCoordTransformation c c' rules w).2.objs[i]? = w.objs[i]?) ∧
    (addCoordTransformation c c' rules w).2.instances = w.instances := by
  rcases addCoordTransformation_eq c c' rules w with ⟨e, h⟩ | ⟨_, h⟩
  · rw [h]
    exact ⟨fun _ _ => rfl, rfl⟩
  · rw [h]
    refine ⟨fun i hi => ?_, rfl⟩
    show (w.objs.modify c _)[i]? = _
    rw [List.getElem?_modify]
    simp [Ne.symm hi]

theorem deeds_append (ds es : List (Deed K)) (s : Shared K) :
    deeds E letters (ds ++ es) s = deeds E letters es (deeds E letters ds s) := by
  induction ds generalizing s with
  | nil => rfl
  | cons d ds ih => exact ih _

theorem private_begun : Private (K := K) begun := fun _ _ _ h => nomatch h

/-- **C102** (partial: no dictionary is given to two constructors): adding, replacing or removing rules of one coordinate system
changes no other object, after any actions. -/
theorem C102_independent_partial (ds : List (Deed K)) (ho : GivenOnce ds) (c c' : Id')
    (rules : Option (List (Option (Sym × K)))) :
    let before := deeds E letters ds begun
    let after := deeds E letters (ds ++ [.call (.transformation c c' rules)]) begun
    (∀ i, i ≠ c → after.world.objs[i]? = before.world.objs[i]?) ∧ after.world.instances = before.world.instances := by
  intro before after
  have hp : Private before := private_deeds ds begun private_begun ho fun _ _ h => nomatch h
  have ha : after = before.addTransformation c c' rules := deeds_append ds _ begun
  rw [ha, (private_add hp c c' rules).1]
  exact addCoordTransformation_others c c' rules before.world

theorem copying_deeds : ∀ (ds : List (Deed K)) (s : Shared K) (l : List (RuleDict K)), Private s → GivenAway ds →
    l.length = s.dicts.length → (∀ k, (∀ i, (i, k) ∉ s.uses) → l.getD k [] = s.dicts.getD k []) →
    (∀ i k, (i, k) ∈ s.uses → ∀ d ∈ ds, touched d ≠ some k) →
    (deeds E letters ds s).world = (copying E letters ds (s.world, l)).1
  | [], _, _, _, _, _, _, _ => rfl
  | d :: ds, s, l, hs, ho, hl, hd, hu => by
    have ho' := List.pairwise_cons.1 ho
    have hu' : ∀ i k, (i, k) ∈ s.uses → ∀ d ∈ ds, touched d ≠ some k := fun i k hi d hd =>
      hu i k hi d (List.mem_cons_of_mem _ hd)
    cases d with
    | dict d =>
      refine copying_deeds ds { s with dicts := s.dicts ++ [d] } (l ++ [d]) hs ho'.2 (by simp [hl]) ?_ hu'
      intro k hk
      have := hd k hk
      simp only [List.getD_eq_getElem?_getD, List.getElem?_append, hl] at this ⊢
      split_ifs
      · exact this
      · rfl
    | assign k c rules =>
      have hk : ∀ j, (j, k) ∉ s.uses := fun j hj => hu j k hj _ List.mem_cons_self rfl
      have hw : (s.put k ((s.dicts.getD k []).set c rules)).world = s.world := by
        unfold Shared.put
        have : s.world.objs.mapIdx (fun i p => if (i, k) ∈ s.uses then
            { p with trans := (s.dicts.getD k []).set c rules } else p) = s.world.objs := by
          refine List.ext_getElem? fun i => ?_
          rw [List.getElem?_mapIdx]
          cases s.world.objs[i]? <;> simp [hk]
        rw [this]
      have := copying_deeds ds (s.put k ((s.dicts.getD k []).set c rules)) (l.set k ((l.getD k []).set c rules)) hs ho'.2
        (by simp [hl, Shared.put]) (fun k' hk' => by
          have h1 := hd k' hk'
          unfold Shared.put
          rw [hd k hk]
          simp only [List.getD_eq_getElem?_getD, List.getElem?_set, hl] at h1 ⊢
          split_ifs
          · rfl
          · rfl
          · exact h1) hu'
      rw [hw] at this
      exact this
    | call c =>
      have hc := call_private (E := E) (letters := letters) hs c
      have := copying_deeds ds ((Deed.call c).run E letters s) l (by
          intro a b k ha hb
          rw [call_uses] at ha hb
          exact hs a b k ha hb) ho'.2 (by
          rw [call_dicts, hl]) (fun k hk => by
          simp only [call_uses] at hk
          rw [hc.2 k hk]
          exact hd k hk) (fun i k hi => by
          rw [call_uses] at hi
          exact hu' i k hi)
      rw [hc.1] at this
      exact this
    | coordinates name shape syms ix symbol k =>
      have hk : ∀ j, (j, k) ∉ s.uses := fun j hj => hu j k hj _ List.mem_cons_self rfl
      obtain ⟨n1, n2, hn⟩ := newCoordinates_shared s name shape syms ix symbol k
      have := copying_deeds ds (s.newCoordinates name shape syms ix symbol k) l (by
          rcases hn with h | ⟨i, h⟩
          · exact private_append (i := 0) hs hk (Or.inl h)
          · exact private_append hs hk (Or.inr h)) ho'.2 (by rw [n2, hl]) (fun k' hk' => by
          rw [n2]
          refine hd k' fun i hi => ?_
          rcases hn with h | ⟨j, h⟩
          · exact hk' i (h ▸ hi)
          · exact hk' i (h ▸ List.mem_append_left _ hi)) (fun i k' hi d hd => by
          rcases hn with h | ⟨j, h⟩
          · rw [h] at hi
            exact hu' i k' hi d hd
          · rw [h, List.mem_append, List.mem_singleton] at hi
            rcases hi with hi | hi
            · exact hu' i k' hi d hd
            · cases hi
              exact ho'.1 d hd k rfl)
      rw [n1, ← hd k hk] at this
      exact this

/-- **C102** (partial: a dictionary that was given to a constructor is neither given to another one nor changed by the caller):
the session is the one in which the constructors copy the dictionaries, after any actions. -/
theorem C102_copied_partial (ds : List (Deed K)) (ho : GivenAway ds) :
    (deeds E letters ds begun).world = (copying E letters ds (fresh, [])).1 :=
  copying_deeds ds begun [] private_begun ho rfl (fun _ _ => rfl) fun _ _ h => nomatch h

/-! ### What happens to dictionaries that are given to several constructors -/

/-- An object has the content of the dictionary as its rules. -/
structure Spec.InStep (s : Shared K) : Prop where
  rules : ∀ i k, (i, k) ∈ s.uses → ∃ o d, s.world.objs[i]? = some o ∧ s.dicts[k]? = some d ∧ o.trans = d
  one : ∀ i k k', (i, k) ∈ s.uses → (i, k') ∈ s.uses → k = k'

theorem lookup_of_mem {A : Type} {l : List (Id' × A)} {c : Id'} {k : A} (hm : (c, k) ∈ l)
    (h1 : ∀ k', (c, k') ∈ l → k' = k) : l.lookup c = some k := by
  cases h : l.lookup c with
  | some k' => rw [h1 k' (lookup_mem h)]
  | none =>
    rw [List.lookup_eq_none_iff] at h
    simpa using h (c, k) hm

theorem put_objs (s : Shared K) (k : Nat) (d : RuleDict K) (i : Id') :
    (s.put k d).world.objs[i]? = (s.world.objs[i]?).map fun o => if (i, k) ∈ s.uses then { o with trans := d } else o := by
  unfold Shared.put
  rw [List.getElem?_mapIdx]

theorem put_dicts (s : Shared K) (k : Nat) (d : RuleDict K) : (s.put k d).dicts = s.dicts.set k d := rfl

/-- A dictionary gets a new content: all who use it see that. -/
theorem inStep_put {s : Shared K} (k : Nat) (d : RuleDict K)
    (hr : ∀ i k', (i, k') ∈ s.uses → ∃ o d, s.world.objs[i]? = some o ∧ s.dicts[k']? = some d ∧ (k' ≠ k → o.trans = d))
    (h1 : ∀ i k k', (i, k) ∈ s.uses → (i, k') ∈ s.uses → k = k') : InStep (s.put k d) := by
  refine ⟨fun i k' hi => ?_, h1⟩
  have hi : (i, k') ∈ s.uses := hi
  obtain ⟨o, d', e1, e2, e3⟩ := hr i k' hi
  rw [put_objs, e1, put_dicts, List.getElem?_set]
  have hlt : k' < s.dicts.length := (List.getElem?_eq_some_iff.1 e2).1
  by_cases hk : k = k'
  · subst hk
    rw [if_pos rfl, if_pos hlt, Option.map_some, if_pos hi]
    exact ⟨_, _, rfl, rfl, rfl⟩
  · rw [if_neg hk, e2, Option.map_some, if_neg (fun hm => hk (h1 i k k' hm hi))]
    exact ⟨_, _, rfl, rfl, e3 (Ne.symm hk)⟩

theorem inStep_call {s : Shared K} (hs : InStep s) (c : Call K) : InStep ((Deed.call c).run E letters s) := by
  have plain : ∀ c : Call K, (∀ i, c.newRules i = false) → InStep { s with world := c.run E letters s.world } := by
    intro c hc
    refine ⟨fun i k hi => ?_, hs.one⟩
    obtain ⟨o, d, e1, e2, e3⟩ := hs.rules i k hi
    obtain ⟨o', f1, f2⟩ := call_effect (E := E) letters c e1
    refine ⟨o', d, f1, e2, ?_⟩
    rcases f2.trans with h | h
    · rw [h, e3]
    · rw [hc i] at h
      cases h
  cases c
  case transformation c c' rules =>
    show InStep (s.addTransformation c c' rules)
    unfold Shared.addTransformation
    rcases addCoordTransformation_eq c c' rules s.world with ⟨e, h⟩ | ⟨⟨o, ho⟩, h⟩
    · rw [h]
      exact hs
    · rw [h]
      dsimp only
      have hoc : (s.world.objs.modify c fun o => { o with trans := revised o.trans c' rules })[c]? =
          some { o with trans := revised o.trans c' rules } := by
        rw [List.getElem?_modify, ho]
        simp
      have hot : ∀ i, i ≠ c → (s.world.objs.modify c fun o => { o with trans := revised o.trans c' rules })[i]? =
          s.world.objs[i]? := by
        intro i hi
        rw [List.getElem?_modify]
        simp [Ne.symm hi]
      rw [hoc]
      cases hk : s.uses.lookup c with
      | none =>
        refine ⟨fun i k hi => ?_, hs.one⟩
        have hi : (i, k) ∈ s.uses := hi
        obtain ⟨o, d, e1, e2, e3⟩ := hs.rules i k hi
        have hne : i ≠ c := by
          rintro rfl
          rw [List.lookup_eq_none_iff] at hk
          simpa using hk (i, k) hi
        exact ⟨o, d, (hot i hne).trans e1, e2, e3⟩
      | some k =>
        refine inStep_put k _ (fun i k' hi => ?_) hs.one
        have hi : (i, k') ∈ s.uses := hi
        obtain ⟨p, d, e1, e2, e3⟩ := hs.rules i k' hi
        by_cases hne : i = c
        · subst hne
          exact ⟨_, d, hoc, e2, fun hkk => absurd (hs.one i k' k hi (lookup_mem hk)) hkk⟩
        · exact ⟨p, d, (hot i hne).trans e1, e2, fun _ => e3⟩
  all_goals exact plain _ fun _ => rfl

theorem ruleArg_values (d : RuleDict K) :
    ((d.map fun p => (p.1, p.2.map ruleArg)).map fun p => (p.1, p.2.map RuleArg.value)) = d := by
  have h : (RuleArg.value ∘ ruleArg : Option (Sym × K) → Option (Sym × K)) = id := by
    funext r
    rcases r with _ | ⟨x, e⟩ <;> rfl
  rw [List.map_map]
  conv_rhs => rw [← List.map_id d]
  refine List.map_congr_left fun p _ => ?_
  simp [h]

/-- The constructor raises, or there is one more object, whose rules are those of the dictionary. -/
theorem newCoordinatesWith_eq (name : Arg String) (shape : Arg (List Nat)) (syms : List Sym) (ix : IndicesArg)
    (symbol : Arg String) (d : Dict Id' (List (RuleArg K))) (w : World K) :
    (∃ e, newCoordinatesWith name shape syms ix symbol d w = (.error e, w)) ∨
    ∃ o : Obj K, o.trans = (d.map fun p => (p.1, p.2.map RuleArg.value)) ∧ newCoordinatesWith name shape syms ix symbol d w =
      (.ok w.objs.length, ⟨w.objs ++ [o], w.instances ++ [w.objs.length]⟩) := by
  unfold newCoordinatesWith
  rw [PyM.bind_apply]
  unfold PyM.lift
  cases validateCoordinates name shape ix symbol (d.all fun p => p.2.all RuleArg.ok) with
  | error e => exact Or.inl ⟨e, rfl⟩
  | ok u => exact Or.inr ⟨_, rfl, rfl⟩

theorem inStep_new {s : Shared K} (hs : InStep s) (name : Arg String) (shape : Arg (List Nat)) (syms : List Sym)
    (ix : IndicesArg) (symbol : Arg String) (k : Nat) : InStep (s.newCoordinates name shape syms ix symbol k) := by
  unfold Shared.newCoordinates
  rcases newCoordinatesWith_eq name shape syms ix symbol
      ((s.dicts.getD k []).map fun p => (p.1, p.2.map ruleArg)) s.world with ⟨e, h⟩ | ⟨o, ho, h⟩
  · rw [h]
    exact hs
  · rw [h]
    dsimp only
    rw [ruleArg_values] at ho
    have hlt : ∀ i k', (i, k') ∈ s.uses → i < s.world.objs.length := fun i k' hi => by
      obtain ⟨p, d, e1, -⟩ := hs.rules i k' hi
      exact (List.getElem?_eq_some_iff.1 e1).1
    have hold : ∀ i k', (i, k') ∈ s.uses → ∃ p d, (s.world.objs ++ [o])[i]? = some p ∧ s.dicts[k']? = some d ∧ p.trans = d :=
      fun i k' hi => by
        obtain ⟨p, d, e1, e2, e3⟩ := hs.rules i k' hi
        exact ⟨p, d, by rw [List.getElem?_append_left (hlt i k' hi), e1], e2, e3⟩
    cases hd : s.dicts[k]? with
    | none =>
      have : s.dicts.getD k [] = [] := by rw [List.getD_eq_getElem?_getD, hd]; rfl
      simp only [this, List.isEmpty_nil, if_true]
      exact ⟨hold, hs.one⟩
    | some d =>
      have hd' : s.dicts.getD k [] = d := by rw [List.getD_eq_getElem?_getD, hd]; rfl
      rw [hd'] at ho ⊢
      split_ifs
      · exact ⟨hold, hs.one⟩
      · refine ⟨fun i k' hi => ?_, fun i a b ha hb => ?_⟩
        · have hi : (i, k') ∈ s.uses ++ [(s.world.objs.length, k)] := hi
          rw [List.mem_append, List.mem_singleton] at hi
          rcases hi with hi | hi
          · exact hold i k' hi
          · cases hi
            exact ⟨o, d, by simp, hd, ho⟩
        · have ha : (i, a) ∈ s.uses ++ [(s.world.objs.length, k)] := ha
          have hb : (i, b) ∈ s.uses ++ [(s.world.objs.length, k)] := hb
          rw [List.mem_append, List.mem_singleton] at ha hb
          rcases ha with ha | ha <;> rcases hb with hb | hb
          · exact hs.one i a b ha hb
          · cases hb
            exact absurd (hlt _ a ha) (Nat.lt_irrefl _)
          · cases ha
            exact absurd (hlt _ b hb) (Nat.lt_irrefl _)
          · cases ha
            cases hb
            rfl

theorem inStep_deeds : ∀ (ds : List (Deed K)) (s : Shared K), InStep s → InStep (deeds E letters ds s)
  | [], _, hs => hs
  | .dict d :: ds, s, hs => inStep_deeds ds _ ⟨fun i k hi => by
      obtain ⟨o, d', e1, e2, e3⟩ := hs.rules i k hi
      exact ⟨o, d', e1, by rw [← e2]; exact List.getElem?_append_left (List.getElem?_eq_some_iff.1 e2).1, e3⟩, hs.one⟩
  | .assign k c rules :: ds, s, hs => inStep_deeds ds _ (inStep_put k _ (fun i k' hi => by
      obtain ⟨o, d, e1, e2, e3⟩ := hs.rules i k' hi
      exact ⟨o, d, e1, e2, fun _ => e3⟩) hs.one)
  | .coordinates name shape syms ix symbol k :: ds, s, hs => inStep_deeds ds _ (inStep_new hs name shape syms ix symbol k)
  | .call c :: ds, s, hs => inStep_deeds ds _ (inStep_call hs c)

/-- **C102**, what holds instead: a coordinate system that was declared with a dictionary of rules that is not empty has at any time
later exactly the rules that are in the dictionary then, whoever changed it, so all coordinate systems that were declared with the
same dictionary have the same rules: for any actions `ds` before the declaration and `es` after it. -/
theorem C102_shared (ds es : List (Deed K)) (name : Arg String) (shape : Arg (List Nat)) (syms : List Sym) (ix : IndicesArg)
    (symbol : Arg String) (k : Nat) {d : RuleDict K} (hd : (deeds E letters ds begun).dicts[k]? = some d) (hne : d ≠ [])
    {i : Id'} {w : World K} (hi : newCoordinatesWith name shape syms ix symbol (d.map fun p => (p.1, p.2.map ruleArg))
      (deeds E letters ds begun).world = (.ok i, w)) :
    ∃ o d', (deeds E letters (ds ++ .coordinates name shape syms ix symbol k :: es) begun).world.objs[i]? = some o ∧
      (deeds E letters (ds ++ .coordinates name shape syms ix symbol k :: es) begun).dicts[k]? = some d' ∧ o.trans = d' := by
  have hmono : ∀ (es : List (Deed K)) (s : Shared K), (i, k) ∈ s.uses → (i, k) ∈ (deeds E letters es s).uses := by
    intro es
    induction es with
    | nil => exact fun _ h => h
    | cons e es ih =>
      intro s h
      refine ih (e.run E letters s) ?_
      cases e with
      | dict d => exact h
      | assign k c rules => exact h
      | call c => rw [call_uses]; exact h
      | coordinates name shape syms ix symbol k =>
        rcases (newCoordinates_shared s name shape syms ix symbol k).2.2 with hn | ⟨j, hn⟩
        · exact hn.symm ▸ h
        · exact hn.symm ▸ List.mem_append_left _ h
  refine (inStep_deeds (E := E) (letters := letters) _ begun ⟨fun _ _ h => (nomatch h), fun _ _ _ h => (nomatch h)⟩).rules i k ?_
  rw [deeds_append]
  refine hmono es _ ?_
  show (i, k) ∈ ((deeds E letters ds begun).newCoordinates name shape syms ix symbol k).uses
  have hg : (deeds E letters ds begun).dicts.getD k [] = d := by rw [List.getD_eq_getElem?_getD, hd]; rfl
  unfold Shared.newCoordinates
  rw [hg, hi]
  have : d.isEmpty = false := by
    cases d with
    | nil => exact absurd rfl hne
    | cons _ _ => rfl
  simp [this]

/-! ### Sessions -/

/-- Three coordinate systems; the second and the third are declared with the same dictionary. -/
def twoUsers : List (Deed ℚ) :=
  [.call (.coordinates (.val "A") (.val [1]) ["x"] (.tuple [1]) (.val "x")),
   .dict [(0, [some ("y", 5)])],
   .coordinates (.val "B") (.val [1]) ["y"] (.tuple [1]) (.val "y") 0,
   .coordinates (.val "C") (.val [1]) ["y"] (.tuple [1]) (.val "z") 0]

/-- The same with a dictionary for each. -/
def ownDicts : List (Deed ℚ) :=
  [.call (.coordinates (.val "A") (.val [1]) ["x"] (.tuple [1]) (.val "x")),
   .dict [(0, [some ("y", 5)])],
   .dict [(0, [some ("y", 5)])],
   .assign 1 0 [some ("y", 6)],
   .coordinates (.val "B") (.val [1]) ["y"] (.tuple [1]) (.val "y") 0,
   .coordinates (.val "C") (.val [1]) ["y"] (.tuple [1]) (.val "z") 1,
   .call (.transformation 1 0 (some [some ("y", 7)]))]

/-- **C102** as a general claim is false: new rules for one coordinate system can be new rules for another one; they can change a
dictionary of the caller; and the caller can change the rules of a coordinate system without a call. -/
theorem C102_false :
    (¬ ∀ (ds : List (Deed ℚ)) (c c' : Id') (rules : Option (List (Option (Sym × ℚ)))) (i : Id'), i ≠ c →
      (deeds codeEngine [] (ds ++ [.call (.transformation c c' rules)]) begun).world.objs[i]? =
        (deeds codeEngine [] ds begun).world.objs[i]?) ∧
    (¬ ∀ (ds : List (Deed ℚ)) (c c' : Id') (rules : Option (List (Option (Sym × ℚ)))),
      (deeds codeEngine [] (ds ++ [.call (.transformation c c' rules)]) begun).dicts = (deeds codeEngine [] ds begun).dicts) ∧
    (¬ ∀ (ds : List (Deed ℚ)) (k : Nat) (c : Id') (rules : List (Option (Sym × ℚ))),
      (deeds codeEngine [] (ds ++ [.assign k c rules]) begun).world = (deeds codeEngine [] ds begun).world) := by
  refine ⟨fun h => ?_, fun h => ?_, fun h => ?_⟩
  · exact absurd (h twoUsers 1 0 (some [some ("y", 7)]) 2 (by decide)) (by decide +kernel)
  · exact absurd (h twoUsers 1 0 (some [some ("y", 7)])) (by decide +kernel)
  · exact absurd (h twoUsers 0 0 [some ("y", 7)]) (by decide +kernel)

/-- What the first of these sessions looks like. -/
example : ((deeds codeEngine [] (twoUsers ++ [.call (.transformation 1 0 (some [some ("y", 7)]))]) begun).world.objs.map (·.trans)) =
    [[], [(0, [some ("y", 7)])], [(0, [some ("y", 7)])]] := by decide +kernel

/-- The hypotheses of the theorems are met, and the rules of the two systems are different then. -/
example : GivenOnce ownDicts ∧ GivenAway ownDicts ∧
    (deeds codeEngine [] ownDicts begun).world.objs.map (·.trans) = [[], [(0, [some ("y", 7)])], [(0, [some ("y", 6)])]] := by
  refine ⟨?_, ?_, by decide +kernel⟩
  · simp [GivenOnce, ownDicts, given]
  · simp [GivenAway, ownDicts, given, touched]

example : (∀ i, i ≠ 2 → (deeds codeEngine [] (ownDicts ++ [.call (.transformation 2 0 none)]) begun).world.objs[i]? =
    (deeds codeEngine [] ownDicts begun).world.objs[i]?) :=
  (C102_independent_partial (E := codeEngine) (letters := []) ownDicts (by simp [GivenOnce, ownDicts, given]) 2 0 none).1

example : (deeds codeEngine [] ownDicts begun).world = (copying codeEngine [] ownDicts (fresh, [])).1 :=
  C102_copied_partial ownDicts (by simp [GivenAway, ownDicts, given, touched])

/-- The second system after anything else that may happen. -/
example (es : List (Deed ℚ)) :
    ∃ o d, (deeds codeEngine [] (twoUsers ++ es) begun).world.objs[1]? = some o ∧
      (deeds codeEngine [] (twoUsers ++ es) begun).dicts[0]? = some d ∧ o.trans = d :=
  C102_shared (twoUsers.take 2) (twoUsers.drop 3 ++ es) _ _ _ _ _ 0 (d := [(0, [some ("y", 5)])]) (by decide +kernel)
    (by simp) (i := 1) (w := (deeds codeEngine [] (twoUsers.take 3) begun).world) (by
      exact Prod.ext_iff.2 ⟨by decide +kernel, by decide +kernel⟩)

end PyOGRe
